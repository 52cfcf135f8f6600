import Verif.Spec.Plane
import Verif.Spec.Lines

/-! # Crossing number of the rightward ray, independent of the modelled code -/

namespace Verif.Spec
variable {K : Type} [Field K] [LinearOrder K]

/-- Exactly one of the two points is strictly above `p`. -/
def Straddles (p a b : Coord K) : Prop := (p.y < a.y ∧ b.y ≤ p.y) ∨ (p.y < b.y ∧ a.y ≤ p.y)

instance (p a b : Coord K) : Decidable (Straddles p a b) := inferInstanceAs (Decidable (_ ∨ _))

/-- x of the line through `a` and `b` at the height of `p`. -/
def xAt (p a b : Coord K) : K := a.x + (p.y - a.y) / (b.y - a.y) * (b.x - a.x)

/-- The ray from `p` to the right crosses the edge, with its lower end included and its upper end excluded. -/
def CrossesRight (p : Coord K) (s : Coord K × Coord K) : Prop := Straddles p s.1 s.2 ∧ p.x < xAt p s.1 s.2

/-- The ray to the left. -/
def CrossesLeft (p : Coord K) (s : Coord K × Coord K) : Prop := Straddles p s.1 s.2 ∧ xAt p s.1 s.2 < p.x

instance (p : Coord K) (s : Coord K × Coord K) : Decidable (CrossesRight p s) := inferInstanceAs (Decidable (_ ∧ _))
instance (p : Coord K) (s : Coord K × Coord K) : Decidable (CrossesLeft p s) := inferInstanceAs (Decidable (_ ∧ _))

/-- Number of edges of the line crossed by the ray to the right. -/
def crossings (p : Coord K) (ring : List (Coord K)) : Nat := (segs ring).countP (fun s => decide (CrossesRight p s))

/-- Number of edges of the line crossed by the ray to the left. -/
def crossingsLeft (p : Coord K) (ring : List (Coord K)) : Nat := (segs ring).countP (fun s => decide (CrossesLeft p s))

/-- The point is on an edge of the line. -/
def OnLine (p : Coord K) (line : List (Coord K)) : Prop := ∃ s ∈ segs line, OnSegment p s.1 s.2

/-- First and last point agree in the plane. -/
def Closed2D (ring : List (Coord K)) : Prop :=
  ∀ a b, ring.head? = some a → ring.getLast? = some b → a.x = b.x ∧ a.y = b.y

end Verif.Spec
