import Verif.Lemmas.Binary64
import Verif.Model.DD

/-! # Arithmetic and signs

Arithmetic whose rounding treats positive and negative numbers alike commutes with the change of sign. -/

namespace Verif.Mirror
open Flt Verif.Binary64

/-- Rounding and library functions treat both signs alike. -/
class Rounding.Even (r : Rounding) : Prop where
  rnd_zero : r.rnd 0 = .fin 0
  rnd_neg : ∀ q, r.rnd (-q) = (Fl.neg (r.rnd q : Fl r) : Fl r)
  hypot_left : ∀ a b, r.hypot (-a) b = r.hypot a b
  hypot_right : ∀ a b, r.hypot a (-b) = r.hypot a b

theorem rnd64_neg {r : Rounding} (q : ℚ) : Binary64.rnd (-q) = (Fl.neg (Binary64.rnd q : Fl r) : Fl r) := by
  unfold Binary64.rnd
  rw [near_neg]
  have hp : (0 : ℚ) < 2 ^ 1024 := by positivity
  generalize (2 : ℚ) ^ 1024 = b at *
  by_cases h1 : b ≤ near q
  · rw [if_pos h1, if_neg (by linarith), if_pos (by linarith)]; rfl
  · rw [if_neg h1]
    by_cases h2 : near q ≤ -b
    · rw [if_pos h2, if_pos (by linarith)]; rfl
    · rw [if_neg h2, if_neg (by linarith), if_neg (by linarith)]; rfl

/-- Binary64 with a hypotenuse that does not depend on signs. -/
theorem even64 (sq : ℚ → Val) (hy : ℚ → ℚ → Val) (h1 : ∀ a b, hy (-a) b = hy a b) (h2 : ∀ a b, hy a (-b) = hy a b) :
    Rounding.Even (binary64 sq hy) :=
  ⟨by change Binary64.rnd 0 = _; decide +kernel, fun q => rnd64_neg q, h1, h2⟩

section mirror
variable {r : Rounding} [hr : Rounding.Even r]

omit hr in
theorem m_neg_neg (a : Fl r) : (-.(-.a)) = a := by
  cases a <;> first | rfl | (change Fl.fin _ = _; rw [neg_neg])

theorem m_round (q : ℚ) : (Fl.round (-q) : Fl r) = Fl.neg (Fl.round q) := hr.rnd_neg q

theorem m_add (a b : Fl r) : (-.a) +. (-.b) = -.(a +. b) := by
  cases a <;> cases b <;> first | rfl | (change Fl.round (-_ + -_) = Fl.neg (Fl.round (_ + _)); rw [← m_round, neg_add])

theorem m_sub (a b : Fl r) : (-.a) -. (-.b) = -.(a -. b) := m_add a (-.b)

omit hr in
theorem m_sub_neg (a b : Fl r) : a -. (-.b) = a +. b := by
  change a +. (-.(-.b)) = _
  rw [m_neg_neg]

omit hr in
theorem m_infOf (s : ℚ) : (Fl.infOf (-s) : Fl r) = Fl.neg (Fl.infOf s) := by
  unfold Fl.infOf
  rcases lt_trichotomy s 0 with h | h | h
  · rw [if_pos (by linarith), if_neg (by linarith), if_pos h]; rfl
  · subst h; simp [Fl.neg]
  · rw [if_neg (by linarith), if_pos (by linarith), if_pos h]; rfl

theorem m_mul_left (a b : Fl r) : (-.a) *. b = -.(a *. b) := by
  cases a <;> cases b <;> first
    | rfl
    | (change Fl.infOf _ = Fl.neg (Fl.infOf _); rw [← m_infOf]; simp)
    | (change Fl.infOf (-_) = Fl.neg (Fl.infOf _); rw [← m_infOf])
    | (change Fl.round (-_ * _) = Fl.neg (Fl.round (_ * _)); rw [← m_round, neg_mul])

theorem m_mul_right (a b : Fl r) : a *. (-.b) = -.(a *. b) := by
  cases a <;> cases b <;> first
    | rfl
    | (change Fl.infOf _ = Fl.neg (Fl.infOf _); rw [← m_infOf]; simp)
    | (change Fl.infOf (-_) = Fl.neg (Fl.infOf _); rw [← m_infOf])
    | (change Fl.round (_ * -_) = Fl.neg (Fl.round (_ * _)); rw [← m_round, mul_neg])

theorem m_div_left (a b : Fl r) : (-.a) /. b = -.(a /. b) := by
  cases a <;> cases b
  all_goals first
    | rfl
    | (rename_i x; change (if _ then _ else _) = Fl.neg (if _ then _ else _); split <;> rfl)
    | (rename_i x y
       change (if y = 0 then Fl.infOf (-x) else Fl.round (-x / y)) = Fl.neg (if y = 0 then Fl.infOf x else Fl.round (x / y))
       split
       · exact m_infOf x
       · rw [neg_div, m_round])

/-- The quotient by a number other than zero. -/
theorem m_div_right (a b : Fl r) (h : b ≠ Fl.fin 0) : a /. (-.b) = -.(a /. b) := by
  cases a <;> cases b
  all_goals first
    | rfl
    | (rename_i y
       have hy : y ≠ 0 := fun e => h (by rw [e])
       change (if -y < 0 then _ else _) = Fl.neg (if y < 0 then _ else _)
       rcases lt_or_gt_of_ne hy with h1 | h1
       · rw [if_neg (by linarith), if_pos h1]; rfl
       · rw [if_pos (by linarith), if_neg (by linarith)]; rfl)
    | (rename_i x y
       have hy : y ≠ 0 := fun e => h (by rw [e])
       change (if -y = 0 then Fl.infOf x else Fl.round (x / -y)) = Fl.neg (if y = 0 then Fl.infOf x else Fl.round (x / y))
       rw [if_neg (by simpa using hy), if_neg hy, div_neg, m_round])

omit hr in
theorem m_lt (a b : Fl r) : ((-.a) <. (-.b)) = (b <. a) := by
  cases a <;> cases b <;> first | rfl | (change decide _ = decide _; simp)

omit hr in
theorem m_le (a b : Fl r) : ((-.a) ≤. (-.b)) = (b ≤. a) := by
  cases a <;> cases b <;> first | rfl | (change decide _ = decide _; simp)

omit hr in
theorem m_eq (a b : Fl r) : ((-.a) ==. (-.b)) = (a ==. b) := by
  cases a <;> cases b <;> first | rfl | (change decide _ = decide _; simp)


theorem m_zero : (-.(lit 0 : Fl r)) = lit 0 := by
  change Fl.neg (Fl.round 0 : Fl r) = Fl.round 0
  rw [← m_round, neg_zero]

omit hr in
theorem m_abs (a : Fl r) : Flt.abs (-.a) = Flt.abs a := by
  cases a <;> first | rfl | (change Fl.fin |-_| = Fl.fin |_|; rw [abs_neg])

omit hr in
theorem m_isNaN (a : Fl r) : isNaN (-.a) = isNaN a := by cases a <;> rfl

omit hr in
theorem m_isInf (a : Fl r) : isInf (-.a) = isInf a := by cases a <;> rfl

omit hr in
theorem m_isFinite (a : Fl r) : isFinite (-.a) = isFinite a := by cases a <;> rfl

omit hr in
theorem m_add_comm (a b : Fl r) : a +. b = b +. a := by
  cases a <;> cases b <;> first | rfl | (change Fl.round _ = Fl.round _; rw [add_comm])

theorem m_lt_zero (a : Fl r) : ((-.a) <. lit 0) = (lit 0 <. a) := by
  rw [← m_lt a (lit 0), m_zero] 

theorem m_zero_lt (a : Fl r) : (lit 0 <. (-.a)) = (a <. lit 0) := by
  rw [← m_lt (lit 0) a, m_zero] 

theorem m_le_zero (a : Fl r) : ((-.a) ≤. lit 0) = (lit 0 ≤. a) := by
  rw [← m_le a (lit 0), m_zero] 

theorem m_zero_le (a : Fl r) : (lit 0 ≤. (-.a)) = (a ≤. lit 0) := by
  rw [← m_le (lit 0) a, m_zero] 

theorem m_eq_zero (a : Fl r) : ((-.a) ==. lit 0) = (a ==. lit 0) := by
  rw [← m_eq a (lit 0), m_zero] 

theorem m_hypot_left (a b : Fl r) : FltSqrt.hypot (-.a) b = FltSqrt.hypot a b := by
  cases a <;> cases b <;> first | rfl | exact hr.hypot_left _ _

theorem m_hypot_right (a b : Fl r) : FltSqrt.hypot a (-.b) = FltSqrt.hypot a b := by
  cases a <;> cases b <;> first | rfl | exact hr.hypot_right _ _

omit hr in
theorem m_fmin (a b : Fl r) : fmin (-.a) (-.b) = -.(fmax a b) := by
  simp only [fmin, fmax, m_isNaN, m_lt]
  split
  · rfl
  · split
    · rfl
    · split <;> rfl

omit hr in
theorem m_fmax (a b : Fl r) : fmax (-.a) (-.b) = -.(fmin a b) := by
  simp only [fmin, fmax, m_isNaN, m_lt]
  split
  · rfl
  · split
    · rfl
    · split <;> rfl

/-! ## Double-double numbers -/

/-- The double-double number of opposite sign. -/
def ddNeg (a : DD (Fl r)) : DD (Fl r) := ⟨-.a.hi, -.a.lo⟩

theorem dd_ofF (a : Fl r) : DD.ofF (-.a) = ddNeg (DD.ofF a) := by simp only [DD.ofF, ddNeg, m_zero]

theorem dd_addF (a : DD (Fl r)) (y : Fl r) : (ddNeg a).addF (-.y) = ddNeg (a.addF y) := by
  simp only [DD.addF, ddNeg, m_add, m_sub]

theorem dd_addHiLo (a : DD (Fl r)) (y z : Fl r) : (ddNeg a).addHiLo (-.y) (-.z) = ddNeg (a.addHiLo y z) := by
  simp only [DD.addHiLo, ddNeg, m_add, m_sub]

theorem dd_mul_left (a : DD (Fl r)) (y z : Fl r) : (ddNeg a).mulHiLo y z = ddNeg (a.mulHiLo y z) := by
  simp only [DD.mulHiLo, ddNeg, m_add, m_sub, m_mul_left, m_mul_right]

theorem dd_mul_right (a : DD (Fl r)) (y z : Fl r) : a.mulHiLo (-.y) (-.z) = ddNeg (a.mulHiLo y z) := by
  simp only [DD.mulHiLo, ddNeg, m_add, m_sub, m_mul_right]

omit hr in
theorem dd_isNaN (a : DD (Fl r)) : (ddNeg a).isNaN = a.isNaN := m_isNaN a.hi

omit hr in
theorem dd_neg_neg (a : DD (Fl r)) : ddNeg (ddNeg a) = a := by
  cases a; simp only [ddNeg, m_neg_neg]

theorem dd_selfSub (a y : DD (Fl r)) : (ddNeg a).selfSub (ddNeg y) = ddNeg (a.selfSub y) := by
  unfold DD.selfSub
  rw [dd_isNaN]
  split
  · rfl
  · exact dd_addHiLo a _ _

theorem dd_selfSubF (a : DD (Fl r)) (y : Fl r) : (ddNeg a).selfSubF (-.y) = ddNeg (a.selfSubF y) := by
  unfold DD.selfSubF
  rw [dd_isNaN]
  split
  · rfl
  · have h := dd_addHiLo a (-.y) (lit 0)
    rwa [m_zero] at h

theorem dd_selfMulF_left (a : DD (Fl r)) (y : Fl r) : (ddNeg a).selfMulF y = ddNeg (a.selfMulF y) := dd_mul_left a _ _

theorem dd_selfMulF_right (a : DD (Fl r)) (y : Fl r) : a.selfMulF (-.y) = ddNeg (a.selfMulF y) := by
  have h := dd_mul_right a y (lit 0)
  rwa [m_zero] at h

theorem dd_selfMul_left (a y : DD (Fl r)) : (ddNeg a).selfMul y = ddNeg (a.selfMul y) := dd_mul_left a _ _

theorem dd_selfMul_right (a y : DD (Fl r)) : a.selfMul (ddNeg y) = ddNeg (a.selfMul y) := dd_mul_right a _ _

theorem ddmul_left (a y : DD (Fl r)) : (ddNeg a).mul y = ddNeg (a.mul y) := by
  unfold DD.mul
  split
  · rfl
  · exact dd_selfMul_left a y

theorem ddmul_right (a y : DD (Fl r)) : a.mul (ddNeg y) = ddNeg (a.mul y) := by
  unfold DD.mul
  rw [dd_isNaN]
  split
  · rfl
  · exact dd_selfMul_right a y

theorem dd_div_left (a y : DD (Fl r)) : (ddNeg a).div y = ddNeg (a.div y) := by
  simp only [DD.div, DD.divHiLo, ddNeg, m_add, m_sub, m_mul_left, m_mul_right, m_div_left]

theorem dd_div_right (a y : DD (Fl r)) (h : y.hi ≠ Fl.fin 0) : a.div (ddNeg y) = ddNeg (a.div y) := by
  simp only [DD.div, DD.divHiLo, ddNeg, m_add, m_sub, m_mul_left, m_mul_right, m_div_right _ _ h, m_neg_neg]

theorem dd_value (a : DD (Fl r)) : (ddNeg a).doubleValue = -.a.doubleValue := m_add a.hi a.lo

theorem dd_signum (a : DD (Fl r)) : (ddNeg a).signum = -a.signum := by
  simp only [DD.signum, ddNeg, m_lt_zero, m_zero_lt]
  by_cases h1 : (a.hi >. lit 0) = true
  · have h2 : (a.hi <. lit 0) = false := by
      rcases a with ⟨x, y⟩
      revert h1
      change (Fl.lt (Fl.round 0) x) = true → Fl.lt x (Fl.round 0) = false
      rw [show (Fl.round 0 : Fl r) = Fl.fin 0 from hr.rnd_zero]
      cases x <;> simp [Fl.lt]; intro h; linarith
    simp [h1, h2]
  · by_cases h2 : (a.hi <. lit 0) = true
    · simp [h1, h2]
    · by_cases h3 : (a.lo >. lit 0) = true
      · have h4 : (a.lo <. lit 0) = false := by
          rcases a with ⟨x, y⟩
          revert h3
          change (Fl.lt (Fl.round 0) y) = true → Fl.lt y (Fl.round 0) = false
          rw [show (Fl.round 0 : Fl r) = Fl.fin 0 from hr.rnd_zero]
          cases y <;> simp [Fl.lt]; intro h; linarith
        simp [h1, h2, h3, h4]
      · by_cases h4 : (a.lo <. lit 0) = true <;> simp [h1, h2, h3, h4]

end mirror
end Verif.Mirror
