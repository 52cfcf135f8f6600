import Verif.Spec.Plane

/-! # Rings that do not touch or cross themselves, independent of the modelled code -/

namespace Verif.Spec
variable {K : Type} [Field K] [LinearOrder K]

/-- Corner number `i` of the ring through the points of a list, counted around the ring. -/
def corner (v : List (Coord K)) (i : Nat) : Coord K := v.getD (i % v.length) ⟨0, 0, 0, 0⟩

/-- The points agree in the plane. -/
def SamePlace (p q : Coord K) : Prop := p.x = q.x ∧ p.y = q.y

/-- The ring through the points of a list is simple: it has at least three corners, no corner is repeated at once, and two edges
share nothing but, if one follows the other, the corner between them. -/
structure SimpleRing (v : List (Coord K)) : Prop where
  three : 3 ≤ v.length
  step : ∀ i, ¬ SamePlace (corner v i) (corner v (i + 1))
  apart : ∀ i j, i < v.length → j < v.length → i ≠ j → ∀ s : Coord K,
    OnSegment s (corner v i) (corner v (i + 1)) → OnSegment s (corner v j) (corner v (j + 1)) →
    ((i + 1) % v.length = j ∧ SamePlace s (corner v j)) ∨ ((j + 1) % v.length = i ∧ SamePlace s (corner v i))

end Verif.Spec
