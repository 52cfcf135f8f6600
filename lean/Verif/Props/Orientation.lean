import Verif.Model.Orientation
import Verif.Spec.Plane
import Verif.Lemmas.Flt
import Mathlib.Tactic.Linarith
import Mathlib.Tactic.Ring
import Mathlib.Tactic.FieldSimp
import Mathlib.Tactic.LinearCombination

set_option linter.unusedSectionVars false

/-! # C29: the orientation index in exact arithmetic -/

namespace Verif.Props
open Flt Verif.Spec
variable {K : Type} [Field K] [LinearOrder K] [IsStrictOrderedRing K]

theorem signum_exact (x : K) : CGDD.signum x = sgn x := by simp [CGDD.signum, sgn]

/-- The fast filter gives the sign of the determinant, or gives up with 2. -/
theorem C29_filter (a b c : Coord K) :
    CGDD.filter a.x a.y b.x b.y c.x c.y = sgn (det a b c) ∨ CGDD.filter a.x a.y b.x b.y c.x c.y = 2 := by
  have e : (a.x - c.x) * (b.y - c.y) - (a.y - c.y) * (b.x - c.x) = det a b c := by unfold det; ring
  simp only [CGDD.filter, exact_sub, exact_mul, e, signum_exact]
  split_ifs <;> simp

/-- The double-double part gives the sign of the determinant. -/
theorem C29_ddIndex (a b c : Coord K) : CGDD.ddIndex a.x a.y b.x b.y c.x c.y = sgn (det a b c) := by
  have e : CGDD.ddIndex a.x a.y b.x b.y c.x c.y = sgn ((b.x - a.x) * (c.y - b.y) - (b.y - a.y) * (c.x - b.x)) := by
    simp [CGDD.ddIndex, DD.addF, DD.ofF, DD.selfMul, DD.mulHiLo, DD.selfSub, DD.addHiLo, DD.isNaN, DD.signum, sgn, ← sub_eq_add_neg]
  rw [e]; congr 1; unfold det; ring

/-- The orientation index is the sign of the determinant. -/
theorem C29_index_is_sign (a b c : Coord K) : Orientation.index a b c = sgn (det a b c) := by
  unfold Orientation.index CGDD.index CGDD.indexXY
  rcases C29_filter a b c with h | h
  · have : sgn (det a b c) ≤ 1 := by unfold sgn; split_ifs <;> simp
    simp [h, this]
  · simp [h, C29_ddIndex]

/-- Left, right and straight. -/
theorem C29_meaning (a b c : Coord K) :
    (Orientation.index a b c = Orientation.LEFT ↔ 0 < det a b c) ∧
    (Orientation.index a b c = Orientation.RIGHT ↔ det a b c < 0) ∧
    (Orientation.index a b c = Orientation.COLLINEAR ↔ det a b c = 0) := by
  rw [C29_index_is_sign]
  exact ⟨sgn_pos, sgn_neg_iff, sgn_zero⟩

/-- It is 0 exactly for points on a common line. -/
theorem C29_collinear_iff (a b c : Coord K) :
    Orientation.index a b c = 0 ↔
      ∃ u v w : K, (u ≠ 0 ∨ v ≠ 0) ∧ u * a.x + v * a.y = w ∧ u * b.x + v * b.y = w ∧ u * c.x + v * c.y = w := by
  rw [C29_index_is_sign, sgn_zero]
  constructor
  · intro h
    by_cases hab : b.x - a.x = 0 ∧ b.y - a.y = 0
    · by_cases hac : c.x - a.x = 0 ∧ c.y - a.y = 0
      · exact ⟨1, 0, a.x, Or.inl one_ne_zero, by ring, by linear_combination hab.1, by linear_combination hac.1⟩
      · refine ⟨c.y - a.y, -(c.x - a.x), (c.y - a.y) * a.x - (c.x - a.x) * a.y, ?_, by ring, ?_, by ring⟩
        · by_contra hc; push Not at hc; exact hac ⟨neg_eq_zero.mp hc.2, hc.1⟩
        · linear_combination (c.y - a.y) * hab.1 - (c.x - a.x) * hab.2
    · refine ⟨b.y - a.y, -(b.x - a.x), (b.y - a.y) * a.x - (b.x - a.x) * a.y, ?_, by ring, by ring, ?_⟩
      · by_contra hc; push Not at hc; exact hab ⟨neg_eq_zero.mp hc.2, hc.1⟩
      · unfold det at h; linear_combination -h
  · rintro ⟨u, v, w, huv, h1, h2, h3⟩
    have hu : u * det a b c = 0 := by unfold det; linear_combination (h2 - h1) * (c.y - a.y) - (h3 - h1) * (b.y - a.y)
    have hv : v * det a b c = 0 := by unfold det; linear_combination (h3 - h1) * (b.x - a.x) - (h2 - h1) * (c.x - a.x)
    rcases huv with h | h
    · exact (mul_eq_zero.mp hu).resolve_left h
    · exact (mul_eq_zero.mp hv).resolve_left h

/-- Swapping two points negates the index, rotating them keeps it. -/
theorem C29_symmetries (a b c : Coord K) :
    Orientation.index b a c = -Orientation.index a b c ∧ Orientation.index a c b = -Orientation.index a b c ∧
    Orientation.index c b a = -Orientation.index a b c ∧ Orientation.index b c a = Orientation.index a b c ∧
    Orientation.index c a b = Orientation.index a b c := by
  simp only [C29_index_is_sign, ← sgn_neg]
  refine ⟨?_, ?_, ?_, ?_, ?_⟩ <;> congr 1 <;> unfold det <;> ring

/-- Invariance under translation and positive scaling, and mirror images. -/
theorem C29_similarity (a b c : Coord K) (u v k : K) (hk : 0 < k) :
    Orientation.index (shift u v a) (shift u v b) (shift u v c) = Orientation.index a b c ∧
    Orientation.index (scale k a) (scale k b) (scale k c) = Orientation.index a b c ∧
    Orientation.index { a with x := -a.x } { b with x := -b.x } { c with x := -c.x } = -Orientation.index a b c := by
  simp only [C29_index_is_sign, ← sgn_neg]
  refine ⟨?_, ?_, ?_⟩
  · congr 1; simp only [det, shift]; ring
  · rw [← sgn_mul_pos (a := det a b c) (mul_pos hk hk)]; congr 1; simp only [det, scale]; ring
  · congr 1; simp only [det]; ring

/-- Repeated points are collinear. -/
theorem C29_degenerate (a b : Coord K) :
    Orientation.index a a b = 0 ∧ Orientation.index a b a = 0 ∧ Orientation.index b a a = 0 := by
  simp only [C29_index_is_sign, sgn_zero]
  refine ⟨?_, ?_, ?_⟩ <;> unfold det <;> ring

section examples
local notation "F" => Fl exactRounding
local notation "pt" => fun (x y : ℚ) => (Coord.xy (Fl.fin x) (Fl.fin y) : Coord F)
example : Orientation.index (pt 0 0) (pt 1 0) (pt 0 1) = 1 ∧ Orientation.index (pt 0 0) (pt 1 0) (pt 0 (-1)) = -1 := by decide +kernel
example : Orientation.index (Coord.xy (0 : ℚ) 0) (Coord.xy 1 1) (Coord.xy 3 3) = 0 := by decide +kernel
/-- The filter gives up near collinear points: the double-double part is reached. -/
example : CGDD.filter (0 : ℚ) 0 10000000000000000 10000000000000000 20000000000000000 20000000000000001 = 2 := by decide +kernel
/-- With a NaN ordinate every triple counts as collinear. -/
theorem C29_nan_collinear : Orientation.index (Coord.xy Fl.nan (Fl.fin 0) : Coord F) (pt 1 0) (pt 0 1) = 0 := by decide +kernel
end examples

end Verif.Props
