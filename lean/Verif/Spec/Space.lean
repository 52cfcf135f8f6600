import Verif.Model.Coordinate
import Mathlib.Analysis.Real.Sqrt
import Mathlib.Tactic.Linarith
import Mathlib.Tactic.Positivity
import Mathlib.Tactic.Ring

/-! # Euclidean distance in space, independent of the modelled code -/

namespace Verif.Spec

/-- Euclidean distance in space. -/
noncomputable def dist3 (a b : Coord ℝ) : ℝ := Real.sqrt ((a.x - b.x) ^ 2 + (a.y - b.y) ^ 2 + (a.z - b.z) ^ 2)

/-- The point of the line through `a` and `b` at parameter `t`. -/
def along (a b : Coord ℝ) (t : ℝ) : Coord ℝ := ⟨a.x + t * (b.x - a.x), a.y + t * (b.y - a.y), a.z + t * (b.z - a.z), 0⟩

/-- The two points agree in x, y and z. -/
def Same3 (p q : Coord ℝ) : Prop := p.x = q.x ∧ p.y = q.y ∧ p.z = q.z

/-- The point is on the segment from `a` to `b` in space. -/
def OnSegment3 (p a b : Coord ℝ) : Prop := ∃ t : ℝ, 0 ≤ t ∧ t ≤ 1 ∧ Same3 p (along a b t)

/-- The point is on the infinite line through `a` and `b` in space. -/
def OnLine3 (p a b : Coord ℝ) : Prop := ∃ t : ℝ, Same3 p (along a b t)

/-- `d` is the least distance between points of two sets, and is attained. -/
def LeastDist3 (S T : Coord ℝ → Prop) (d : ℝ) : Prop :=
  (∃ u v, S u ∧ T v ∧ dist3 u v = d) ∧ ∀ u v, S u → T v → d ≤ dist3 u v

theorem dist3_congr {p p' q q' : Coord ℝ} (hp : Same3 p p') (hq : Same3 q q') : dist3 p q = dist3 p' q' := by
  unfold dist3; rw [hp.1, hp.2.1, hp.2.2, hq.1, hq.2.1, hq.2.2]

theorem Same3.refl (p : Coord ℝ) : Same3 p p := ⟨rfl, rfl, rfl⟩

theorem Same3.symm {p q : Coord ℝ} (h : Same3 p q) : Same3 q p := ⟨h.1.symm, h.2.1.symm, h.2.2.symm⟩

theorem dist3_comm (p q : Coord ℝ) : dist3 p q = dist3 q p := by unfold dist3; congr 1; ring

theorem LeastDist3.swap {S T : Coord ℝ → Prop} {d : ℝ} (h : LeastDist3 S T d) : LeastDist3 T S d := by
  obtain ⟨⟨u, v, hu, hv, e⟩, h1⟩ := h
  exact ⟨⟨v, u, hv, hu, by rw [dist3_comm]; exact e⟩, fun u v hu hv => by rw [dist3_comm]; exact h1 _ _ hv hu⟩

end Verif.Spec
