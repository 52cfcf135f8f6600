import Verif.Spec.SimpleRing

/-! # Convex rings, independent of the modelled code -/

namespace Verif.Spec
variable {K : Type} [Field K] [LinearOrder K]

/-- A simple ring, counterclockwise, with no corner on the right of an edge. Corners may be on the line of an edge. -/
structure ConvexRing (v : List (Coord K)) : Prop where
  simple : SimpleRing v
  left : ∀ i j, 0 ≤ det (corner v i) (corner v (i + 1)) (corner v j)

/-- At least three corners, and all corners but the two ends strictly on the left of every edge. -/
structure StrictlyConvex (v : List (Coord K)) : Prop where
  three : 3 ≤ v.length
  left : ∀ i j, j % v.length ≠ i % v.length → j % v.length ≠ (i + 1) % v.length → 0 < det (corner v i) (corner v (i + 1)) (corner v j)

/-- Strictly on the left of every edge. -/
def LeftOfAll (q : Coord K) (v : List (Coord K)) : Prop := ∀ i, 0 < det (corner v i) (corner v (i + 1)) q

/-- Strictly on the right of some edge. -/
def RightOfSome (q : Coord K) (v : List (Coord K)) : Prop := ∃ i, det (corner v i) (corner v (i + 1)) q < 0

end Verif.Spec
