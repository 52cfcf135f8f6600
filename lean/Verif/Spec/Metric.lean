import Verif.Spec.Plane
import Verif.Spec.Lines
import Mathlib.Analysis.Real.Sqrt
import Mathlib.Analysis.InnerProductSpace.Basic
import Mathlib.Tactic.Linarith
import Mathlib.Tactic.Positivity
import Mathlib.Tactic.FieldSimp
import Mathlib.Tactic.Ring

/-! # Euclidean distance in the plane, independent of the modelled code -/

namespace Verif.Spec

/-- Euclidean distance in the plane. -/
noncomputable def dist (a b : Coord ℝ) : ℝ := Real.sqrt ((a.x - b.x) ^ 2 + (a.y - b.y) ^ 2)

/-- Length of a line: the sum over its segments. -/
noncomputable def lineLength (l : List (Coord ℝ)) : ℝ := ((segs l).map (fun s => dist s.1 s.2)).sum

theorem dist_nonneg (a b : Coord ℝ) : 0 ≤ dist a b := Real.sqrt_nonneg _

theorem dist_comm (a b : Coord ℝ) : dist a b = dist b a := by unfold dist; congr 1; ring

theorem dist_sq (a b : Coord ℝ) : dist a b ^ 2 = (a.x - b.x) ^ 2 + (a.y - b.y) ^ 2 :=
  Real.sq_sqrt (by positivity)

theorem dist_eq_zero (a b : Coord ℝ) : dist a b = 0 ↔ a.x = b.x ∧ a.y = b.y := by
  unfold dist
  rw [Real.sqrt_eq_zero (by positivity)]
  constructor
  · intro h
    have h1 : (a.x - b.x) ^ 2 = 0 := by nlinarith [sq_nonneg (a.x - b.x), sq_nonneg (a.y - b.y)]
    have h2 : (a.y - b.y) ^ 2 = 0 := by nlinarith [sq_nonneg (a.x - b.x), sq_nonneg (a.y - b.y)]
    exact ⟨by linarith [pow_eq_zero_iff (two_ne_zero) |>.mp h1], by linarith [pow_eq_zero_iff (two_ne_zero) |>.mp h2]⟩
  · rintro ⟨h1, h2⟩; rw [h1, h2]; ring

theorem dist_le_iff (a b c d : Coord ℝ) :
    dist a b ≤ dist c d ↔ (a.x - b.x) ^ 2 + (a.y - b.y) ^ 2 ≤ (c.x - d.x) ^ 2 + (c.y - d.y) ^ 2 := by
  unfold dist; exact Real.sqrt_le_sqrt_iff (by positivity)

/-- Triangle inequality. -/
theorem dist_triangle (a b c : Coord ℝ) : dist a c ≤ dist a b + dist b c := by
  have h1 := dist_nonneg a b
  have h2 := dist_nonneg b c
  have key : dist a c ^ 2 ≤ (dist a b + dist b c) ^ 2 := by
    have cs : (a.x - b.x) * (b.x - c.x) + (a.y - b.y) * (b.y - c.y) ≤ dist a b * dist b c := by
      apply le_of_sq_le_sq _ (mul_nonneg h1 h2)
      rw [mul_pow, dist_sq, dist_sq]
      nlinarith [sq_nonneg ((a.x - b.x) * (b.y - c.y) - (a.y - b.y) * (b.x - c.x))]
    have e : (dist a b + dist b c) ^ 2 = dist a b ^ 2 + 2 * (dist a b * dist b c) + dist b c ^ 2 := by ring
    rw [e, dist_sq, dist_sq, dist_sq]
    nlinarith
  exact le_of_sq_le_sq key (by linarith)
where
  le_of_sq_le_sq {u v : ℝ} (h : u ^ 2 ≤ v ^ 2) (hv : 0 ≤ v) : u ≤ v := by
    by_contra hlt; push Not at hlt; nlinarith

end Verif.Spec
