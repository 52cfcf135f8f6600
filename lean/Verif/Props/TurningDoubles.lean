import Verif.Props.AngleDoubles
import Mathlib.Analysis.SpecialFunctions.Trigonometric.Bounds

set_option linter.unusedSectionVars false

/-! # C128: degrees, snapped sines, projecting and turning for arbitrary doubles -/

namespace Verif.Props
open Flt Verif.Spec Verif.Binary64

/-- A library whose sine and cosine answer with doubles in `[-1, 1]` within `ε` of the exact values. -/
structure SinCos64 (sq : ℚ → Val) (hy : ℚ → ℚ → Val) [FltTrig (B64 sq hy)] (ε : ℝ) : Prop where
  pi_eq : (Angle.pi : B64 sq hy) = Fl.fin pi64
  sin : ∀ a : ℚ, IsF64 a → ∃ s : ℚ, FltTrig.sin (Fl.fin a : B64 sq hy) = Fl.fin s ∧ IsF64 s ∧ |s| ≤ 1 ∧ |(s : ℝ) - Real.sin a| ≤ ε
  cos : ∀ a : ℚ, IsF64 a → ∃ s : ℚ, FltTrig.cos (Fl.fin a : B64 sq hy) = Fl.fin s ∧ IsF64 s ∧ |s| ≤ 1 ∧ |(s : ℝ) - Real.cos a| ≤ ε

variable {sq : ℚ → Val} {hy : ℚ → ℚ → Val} [FltTrig (B64 sq hy)] {ε : ℝ}

theorem near_f64 {q : ℚ} (h : |q| ≤ 2 ^ (1023 : ℤ)) : IsF64 (near q) :=
  ⟨near_rep _, lt_of_le_of_lt (near_le_pow (by norm_num) h) (by rw [← zpow_natCast, two_lt_iff]; norm_num)⟩

theorem lit64_180 : (lit 180 : B64 sq hy) = Fl.fin 180 := rnd_of_f64 ⟨⟨180, 0, by norm_num, by norm_num, by norm_num⟩, lt_2_1024 (by norm_num [abs_of_pos])⟩

/-- The errors of a product followed by a quotient. -/
theorem product_quotient {x p v c d u η : ℝ} (hd : 1 ≤ d) (u0 : 0 ≤ u) (u1 : u ≤ 1) (η0 : 0 ≤ η) (h1 : |p - c * x| ≤ |c * x| * u + η) (h2 : |v - p / d| ≤ |p / d| * u + η) :
    |v - c / d * x| ≤ (2 * u + u ^ 2) * |c / d * x| + 3 * η := by
  have d0 : 0 < d := by linarith
  have e1 : |p / d - c / d * x| ≤ |c / d * x| * u + η := by
    have : p / d - c / d * x = (p - c * x) / d := by ring
    rw [this, abs_div, abs_of_pos d0, show c / d * x = (c * x) / d by ring, abs_div, abs_of_pos d0, div_le_iff₀ d0]
    have : (|c * x| / d * u + η) * d = |c * x| * u + η * d := by field_simp
    rw [this]
    nlinarith
  have e2 : |p / d| ≤ |c / d * x| * (1 + u) + η := by
    have := abs_sub_abs_le_abs_sub (p / d) (c / d * x)
    linarith
  have e3 := abs_add_le (v - p / d) (p / d - c / d * x)
  rw [sub_add_sub_cancel] at e3
  have e4 : |p / d| * u ≤ (|c / d * x| * (1 + u) + η) * u := mul_le_mul_of_nonneg_right e2 u0
  nlinarith

theorem degree_sizes {x : ℚ} (hx : |x| ≤ 2 ^ (1000 : ℤ)) : |x * 180| ≤ 2 ^ (1008 : ℤ) ∧ |x * pi64| ≤ 2 ^ (1002 : ℤ) ∧ |near (x * 180) / pi64| ≤ 2 ^ (1008 : ℤ) ∧
    |near (x * pi64) / 180| ≤ 2 ^ (1002 : ℤ) := by
  obtain ⟨b1, b2⟩ := pi64_bounds
  have e8 : (2 : ℚ) ^ (1008 : ℤ) = 256 * 2 ^ (1000 : ℤ) := by
    rw [show (1008 : ℤ) = 1000 + 8 by norm_num, two_add]; norm_num [mul_comm]
  have e2 : (2 : ℚ) ^ (1002 : ℤ) = 4 * 2 ^ (1000 : ℤ) := by
    rw [show (1002 : ℤ) = 1000 + 2 by norm_num, two_add]; norm_num [mul_comm]
  have p0 : 0 < pi64 := by linarith
  have h1 : |x * 180| ≤ 2 ^ (1008 : ℤ) := by
    rw [e8, abs_mul, abs_of_pos (show (0 : ℚ) < 180 by norm_num)]
    clear e8 e2
    have := abs_nonneg x
    generalize (2 : ℚ) ^ (1000 : ℤ) = W at *
    linarith
  have h2 : |x * pi64| ≤ 2 ^ (1002 : ℤ) := by
    rw [e2, abs_mul, abs_of_pos p0]
    clear e8 e2
    have := abs_nonneg x
    generalize (2 : ℚ) ^ (1000 : ℤ) = W at *
    nlinarith
  refine ⟨h1, h2, ?_, ?_⟩
  · rw [abs_div, abs_of_pos p0]
    exact (div_le_self (abs_nonneg _) (by linarith)).trans (near_le_pow (by norm_num) h1)
  · rw [abs_div, abs_of_pos (show (0 : ℚ) < 180 by norm_num)]
    exact (div_le_self (abs_nonneg _) (by linarith)).trans (near_le_pow (by norm_num) h2)

theorem le_1023 {q : ℚ} {k : ℤ} (hk : k ≤ 1023) (h : |q| ≤ 2 ^ k) : |q| ≤ 2 ^ (1023 : ℤ) := h.trans (two_mono hk)

theorem tiny_three : 3 * (2 : ℝ) ^ (-1075 : ℤ) ≤ 2 ^ (-1073 : ℤ) := by
  rw [show (-1073 : ℤ) = -1075 + 2 by norm_num, zpow_add₀ (by norm_num)]
  have : (0 : ℝ) < 2 ^ (-1075 : ℤ) := by positivity
  generalize (2 : ℝ) ^ (-1075 : ℤ) = W at *
  norm_num
  linarith

/-- What `toDegrees` computes. -/
theorem degrees_value (hpi : (Angle.pi : B64 sq hy) = Fl.fin pi64) {x : ℚ} (hb : |x| ≤ 2 ^ (1000 : ℤ)) :
    Angle.toDegrees (Fl.fin x : B64 sq hy) = Fl.fin (near (near (x * 180) / pi64)) := by
  obtain ⟨s1, _, s3, _⟩ := degree_sizes hb
  have p0 : pi64 ≠ 0 := (lt_trans (by norm_num) pi64_bounds.1).ne'
  unfold Angle.toDegrees
  rw [hpi, lit64_180, mul_fin64 rfl (near_f64 (le_1023 (by norm_num) s1)).2, div_fin64 p0 rfl (near_f64 (le_1023 (by norm_num) s3)).2]

theorem radians_value (hpi : (Angle.pi : B64 sq hy) = Fl.fin pi64) {x : ℚ} (hb : |x| ≤ 2 ^ (1000 : ℤ)) :
    Angle.toRadians (Fl.fin x : B64 sq hy) = Fl.fin (near (near (x * pi64) / 180)) := by
  obtain ⟨_, s2, _, s4⟩ := degree_sizes hb
  unfold Angle.toRadians
  rw [hpi, lit64_180, mul_fin64 rfl (near_f64 (le_1023 (by norm_num) s2)).2, div_fin64 (by norm_num) rfl (near_f64 (le_1023 (by norm_num) s4)).2]

/-- C128: radians to degrees and back, for all doubles up to 2^1000: three half units in the last place, next to the underflow. -/
theorem C128_degrees (hpi : (Angle.pi : B64 sq hy) = Fl.fin pi64) {x : ℚ} (hb : |x| ≤ 2 ^ (1000 : ℤ)) :
    (∃ v : ℚ, Angle.toDegrees (Fl.fin x : B64 sq hy) = Fl.fin v ∧ IsF64 v ∧ |(v : ℝ) - 180 / Real.pi * x| ≤ 3 / 2 ^ 53 * |180 / Real.pi * (x : ℝ)| + 2 ^ (-1073 : ℤ)) ∧
    ∃ v : ℚ, Angle.toRadians (Fl.fin x : B64 sq hy) = Fl.fin v ∧ IsF64 v ∧ |(v : ℝ) - Real.pi / 180 * x| ≤ 3 / 2 ^ 53 * |Real.pi / 180 * (x : ℝ)| + 2 ^ (-1073 : ℤ) := by
  obtain ⟨s1, s2, s3, s4⟩ := degree_sizes hb
  obtain ⟨q1, q2⟩ := pi64_real
  rw [abs_of_nonneg (by linarith)] at q1
  have b1 : (3.14 : ℝ) < pi64 := by have := (Rat.cast_lt (K := ℝ)).mpr pi64_bounds.1; push_cast at this; norm_num at this ⊢; linarith
  have hp := Real.pi_pos
  have t3 := tiny_three
  have tp : (0 : ℝ) ≤ 2 ^ (-1075 : ℤ) := by positivity
  have hu : (2 * ((1 : ℝ) / 2 ^ 53) + (1 / 2 ^ 53) ^ 2) * (1 + 1 / 2 ^ 52 / 3.14) + 1 / 2 ^ 52 / 3.14 ≤ 3 / 2 ^ 53 := by norm_num
  constructor
  · refine ⟨_, degrees_value hpi hb, near_f64 (le_1023 (by norm_num) s3), ?_⟩
    have e1 := near_err_real (x * 180)
    have e2 := near_err_real (near (x * 180) / pi64)
    push_cast at e1 e2
    rw [mul_comm (x : ℝ) 180] at e1
    rw [div_eq_mul_one_div |180 * (x : ℝ)|] at e1
    rw [div_eq_mul_one_div |((near (x * 180) : ℚ) : ℝ) / pi64|] at e2
    have k := product_quotient (by linarith) (by norm_num) (by norm_num) tp e1 e2
    generalize ((near (near (x * 180) / pi64) : ℚ) : ℝ) = v at *
    have k2 : |180 / (pi64 : ℝ) * x - 180 / Real.pi * x| ≤ 1 / 2 ^ 52 / 3.14 * |180 / Real.pi * (x : ℝ)| := by
      have : 180 / (pi64 : ℝ) * x - 180 / Real.pi * x = ((Real.pi - pi64) / pi64) * (180 / Real.pi * x) := by field_simp
      rw [this, abs_mul]
      refine mul_le_mul_of_nonneg_right ?_ (abs_nonneg _)
      rw [abs_of_nonneg (div_nonneg (by linarith) (by linarith))]
      exact div_le_div₀ (by positivity) q1 (by norm_num) b1.le
    have k3 : |180 / (pi64 : ℝ) * x| ≤ (1 + 1 / 2 ^ 52 / 3.14) * |180 / Real.pi * (x : ℝ)| := by
      have := abs_sub_abs_le_abs_sub (180 / (pi64 : ℝ) * x) (180 / Real.pi * x)
      linarith
    have k4 := abs_add_le (v - 180 / pi64 * x) (180 / (pi64 : ℝ) * x - 180 / Real.pi * x)
    rw [sub_add_sub_cancel] at k4
    have k5 := mul_le_mul_of_nonneg_left k3 (show (0 : ℝ) ≤ 2 * (1 / 2 ^ 53) + (1 / 2 ^ 53) ^ 2 by norm_num)
    have k6 := mul_le_mul_of_nonneg_right hu (abs_nonneg (180 / Real.pi * (x : ℝ)))
    linarith
  · refine ⟨_, radians_value hpi hb, near_f64 (le_1023 (by norm_num) s4), ?_⟩
    have e1 := near_err_real (x * pi64)
    have e2 := near_err_real (near (x * pi64) / 180)
    push_cast at e1 e2
    rw [mul_comm (x : ℝ) pi64] at e1
    rw [div_eq_mul_one_div |(pi64 : ℝ) * (x : ℝ)|] at e1
    rw [div_eq_mul_one_div |((near (x * pi64) : ℚ) : ℝ) / 180|] at e2
    have k := product_quotient (by norm_num) (by norm_num) (by norm_num) tp e1 e2
    generalize ((near (near (x * pi64) / 180) : ℚ) : ℝ) = v at *
    have k2 : |(pi64 : ℝ) / 180 * x - Real.pi / 180 * x| ≤ 1 / 2 ^ 52 / 3.14 * |Real.pi / 180 * (x : ℝ)| := by
      have : (pi64 : ℝ) / 180 * x - Real.pi / 180 * x = -((Real.pi - pi64) / Real.pi) * (Real.pi / 180 * x) := by field_simp; ring
      rw [this, abs_mul, abs_neg]
      refine mul_le_mul_of_nonneg_right ?_ (abs_nonneg _)
      rw [abs_of_nonneg (div_nonneg (by linarith) (by linarith))]
      exact div_le_div₀ (by positivity) q1 (by norm_num) (by linarith)
    have k3 : |(pi64 : ℝ) / 180 * x| ≤ (1 + 1 / 2 ^ 52 / 3.14) * |Real.pi / 180 * (x : ℝ)| := by
      have := abs_sub_abs_le_abs_sub ((pi64 : ℝ) / 180 * x) (Real.pi / 180 * x)
      linarith
    have k4 := abs_add_le (v - pi64 / 180 * x) ((pi64 : ℝ) / 180 * x - Real.pi / 180 * x)
    rw [sub_add_sub_cancel] at k4
    have k5 := mul_le_mul_of_nonneg_left k3 (show (0 : ℝ) ≤ 2 * (1 / 2 ^ 53) + (1 / 2 ^ 53) ^ 2 by norm_num)
    have k6 := mul_le_mul_of_nonneg_right hu (abs_nonneg (Real.pi / 180 * (x : ℝ)))
    linarith

/-- Conversion to degrees and to radians keeps the order of angles. -/
theorem C128_degrees_monotone (hpi : (Angle.pi : B64 sq hy) = Fl.fin pi64) {x y : ℚ} (hx : |x| ≤ 2 ^ (1000 : ℤ)) (hY : |y| ≤ 2 ^ (1000 : ℤ)) (h : x ≤ y) :
    (∃ v w : ℚ, Angle.toDegrees (Fl.fin x : B64 sq hy) = Fl.fin v ∧ Angle.toDegrees (Fl.fin y : B64 sq hy) = Fl.fin w ∧ v ≤ w) ∧
    ∃ v w : ℚ, Angle.toRadians (Fl.fin x : B64 sq hy) = Fl.fin v ∧ Angle.toRadians (Fl.fin y : B64 sq hy) = Fl.fin w ∧ v ≤ w := by
  have p0 : 0 < pi64 := lt_trans (by norm_num) pi64_bounds.1
  refine ⟨⟨_, _, degrees_value hpi hx, degrees_value hpi hY, near_mono (div_le_div_of_nonneg_right (near_mono (by linarith)) p0.le)⟩,
    ⟨_, _, radians_value hpi hx, radians_value hpi hY, near_mono (div_le_div_of_nonneg_right (near_mono (mul_le_mul_of_nonneg_right h p0.le)) (by norm_num))⟩⟩

theorem there_and_back {x v z c k W : ℝ} (hc : 0 < c) (k0 : 0 ≤ k) (h1 : |v - 1 / c * x| ≤ k * |1 / c * x| + W) (h2 : |z - c * v| ≤ k * |c * v| + W) :
    |z - x| ≤ (2 * k + k ^ 2) * |x| + W * (1 + c * (1 + k)) := by
  have e1 : |c * v - x| ≤ k * |x| + c * W := by
    have : c * v - x = c * (v - 1 / c * x) := by field_simp
    rw [this, abs_mul, abs_of_pos hc]
    have := mul_le_mul_of_nonneg_left h1 hc.le
    rw [abs_mul, abs_of_pos (one_div_pos.mpr hc)] at this
    have e : c * (k * (1 / c * |x|) + W) = k * |x| + c * W := by field_simp
    linarith
  have e2 : |c * v| ≤ (1 + k) * |x| + c * W := by
    have := abs_sub_abs_le_abs_sub (c * v) x
    linarith
  have e3 := abs_add_le (z - c * v) (c * v - x)
  rw [sub_add_sub_cancel] at e3
  have e4 := mul_le_mul_of_nonneg_left e2 k0
  nlinarith

/-- C128: there and back, seven half units in the last place next to the underflow. -/
theorem C128_round_trip (hpi : (Angle.pi : B64 sq hy) = Fl.fin pi64) {x : ℚ} (hb : |x| ≤ 2 ^ (990 : ℤ)) :
    (∃ v : ℚ, Angle.toRadians (Angle.toDegrees (Fl.fin x : B64 sq hy)) = Fl.fin v ∧ |(v : ℝ) - x| ≤ 7 / 2 ^ 53 * |(x : ℝ)| + 2 ^ (-1072 : ℤ)) ∧
    ∃ v : ℚ, Angle.toDegrees (Angle.toRadians (Fl.fin x : B64 sq hy)) = Fl.fin v ∧ |(v : ℝ) - x| ≤ 7 / 2 ^ 53 * |(x : ℝ)| + 2 ^ (-1066 : ℤ) := by
  have hb' : |x| ≤ 2 ^ (1000 : ℤ) := hb.trans (two_mono (by norm_num))
  obtain ⟨b1, b2⟩ := pi64_bounds
  have p0 : 0 < pi64 := by linarith
  have m1 : |near (near (x * 180) / pi64)| ≤ 2 ^ (1000 : ℤ) := by
    have h1 : |x * 180| ≤ 2 ^ (998 : ℤ) := by
      rw [show (998 : ℤ) = 990 + 8 by norm_num, two_add, abs_mul]
      exact mul_le_mul hb (by norm_num [abs_of_pos]) (abs_nonneg _) (two_pos _).le
    refine near_le_pow (by norm_num) ?_
    rw [abs_div, abs_of_pos p0]
    exact (div_le_self (abs_nonneg _) (by linarith)).trans ((near_le_pow (by norm_num) h1).trans (two_mono (by norm_num)))
  have m2 : |near (near (x * pi64) / 180)| ≤ 2 ^ (1000 : ℤ) := by
    have h1 : |x * pi64| ≤ 2 ^ (992 : ℤ) := by
      rw [show (992 : ℤ) = 990 + 2 by norm_num, two_add, abs_mul]
      exact mul_le_mul hb (by rw [abs_of_pos p0]; norm_num; linarith) (abs_nonneg _) (two_pos _).le
    refine near_le_pow (by norm_num) ?_
    rw [abs_div, abs_of_pos (show (0 : ℚ) < 180 by norm_num)]
    exact (div_le_self (abs_nonneg _) (by linarith)).trans ((near_le_pow (by norm_num) h1).trans (two_mono (by norm_num)))
  obtain ⟨⟨v, v1, _, v3⟩, ⟨w, w1, _, w3⟩⟩ := C128_degrees hpi hb'
  have ev : v = near (near (x * 180) / pi64) := by rw [degrees_value hpi hb'] at v1; exact (Val.fin.inj v1).symm
  have ew : w = near (near (x * pi64) / 180) := by rw [radians_value hpi hb'] at w1; exact (Val.fin.inj w1).symm
  have hp := Real.pi_gt_three
  have hp4 := Real.pi_le_four
  have hp0 := Real.pi_pos
  have tp : (0 : ℝ) < 2 ^ (-1073 : ℤ) := by positivity
  have t2 : (2 : ℝ) ^ (-1072 : ℤ) = 2 * 2 ^ (-1073 : ℤ) := by rw [show (-1072 : ℤ) = -1073 + 1 by norm_num, zpow_add₀ (by norm_num)]; norm_num [mul_comm]
  have t7 : (2 : ℝ) ^ (-1066 : ℤ) = 128 * 2 ^ (-1073 : ℤ) := by rw [show (-1066 : ℤ) = -1073 + 7 by norm_num, zpow_add₀ (by norm_num)]; norm_num [mul_comm]
  rw [t2, t7]
  clear t2 t7
  constructor
  · obtain ⟨_, z, z1, _, z3⟩ := C128_degrees (sq := sq) (hy := hy) hpi (x := v) (ev ▸ m1)
    generalize (2 : ℝ) ^ (-1073 : ℤ) = W at *
    refine ⟨z, by rw [v1, z1], ?_⟩
    have hc : 1 / (Real.pi / 180) = 180 / Real.pi := by field_simp
    rw [← hc] at v3
    have k := there_and_back (by positivity) (by norm_num) v3 z3
    have k1 : W * (1 + Real.pi / 180 * (1 + 3 / 2 ^ 53)) ≤ W * 2 := mul_le_mul_of_nonneg_left (by norm_num; linarith) tp.le
    have k2 : (2 * ((3 : ℝ) / 2 ^ 53) + (3 / 2 ^ 53) ^ 2) * |(x : ℝ)| ≤ 7 / 2 ^ 53 * |(x : ℝ)| := mul_le_mul_of_nonneg_right (by norm_num) (abs_nonneg _)
    linarith
  · obtain ⟨⟨z, z1, _, z3⟩, _⟩ := C128_degrees (sq := sq) (hy := hy) hpi (x := w) (ew ▸ m2)
    generalize (2 : ℝ) ^ (-1073 : ℤ) = W at *
    refine ⟨z, by rw [w1, z1], ?_⟩
    have hc : 1 / (180 / Real.pi) = Real.pi / 180 := by field_simp
    rw [← hc] at w3
    have k := there_and_back (by positivity) (by norm_num) w3 z3
    have k1 : W * (1 + 180 / Real.pi * (1 + 3 / 2 ^ 53)) ≤ W * 128 := by
      refine mul_le_mul_of_nonneg_left ?_ tp.le
      have : 180 / Real.pi ≤ 60 := by rw [div_le_iff₀ hp0]; linarith
      norm_num; linarith
    have k2 : (2 * ((3 : ℝ) / 2 ^ 53) + (3 / 2 ^ 53) ^ 2) * |(x : ℝ)| ≤ 7 / 2 ^ 53 * |(x : ℝ)| := mul_le_mul_of_nonneg_right (by norm_num) (abs_nonneg _)
    linarith

/-! ## Snapped sines and projections -/

/-- A value snapped to zero: what becomes of a value within `ε` of an exact one. -/
theorem snapped {s : ℚ} {t : ℝ} (fs : IsF64 s) (s1 : |s| ≤ 1) (he : |(s : ℝ) - t| ≤ ε) :
    ∃ v : ℚ, (if Flt.abs (Fl.fin s : B64 sq hy) <. Angle.snapEps then lit 0 else Fl.fin s) = (Fl.fin v : B64 sq hy) ∧ IsF64 v ∧ |v| ≤ 1 ∧ |(v : ℝ) - t| ≤ ε + 5.01 / 10 ^ 16 ∧
      (ε + 5.01 / 10 ^ 16 ≤ |t| → |(v : ℝ) - t| ≤ ε) ∧ (|t| + ε < 4.99 / 10 ^ 16 → v = 0) := by
  have hr := near_rel (5 / 10000000000000000) (by
    rw [abs_of_pos (by norm_num)]
    have : (2 : ℚ) ^ (-1022 : ℤ) ≤ 2 ^ (-100 : ℤ) := two_mono (by norm_num)
    refine this.trans (by norm_num))
  have hsn : (Angle.snapEps : B64 sq hy) = Fl.fin (near (5 / 10000000000000000)) := by
    refine (rnd_fin_iff _ _).mpr ⟨rfl, lt_2_1024 ((near_le_pow (k := 0) (by norm_num) (by norm_num [abs_of_pos])).trans (by norm_num))⟩
  rw [hsn]
  generalize near (5 / 10000000000000000) = c at *
  rw [abs_of_pos (show (0 : ℚ) < 5 / 10000000000000000 by norm_num), abs_le] at hr
  have c1 : c ≤ 5.01 / 10 ^ 16 := by have := hr.1; norm_num at this ⊢; linarith
  have c2 : 4.99 / 10 ^ 16 ≤ c := by have := hr.2; norm_num at this ⊢; linarith
  have c1' := (Rat.cast_le (K := ℝ)).mpr c1
  have c2' := (Rat.cast_le (K := ℝ)).mpr c2
  push_cast at c1' c2'
  have hl : (Flt.abs (Fl.fin s : B64 sq hy) <. Fl.fin c) = decide (|s| < c) := rfl
  rw [hl]
  have at1 := abs_sub_abs_le_abs_sub t s
  have at2 := abs_sub_abs_le_abs_sub (s : ℝ) t
  rw [abs_sub_comm] at at1
  by_cases h : |s| < c
  · have h' : |(s : ℝ)| < c := by exact_mod_cast h
    refine ⟨0, by rw [decide_eq_true h, if_pos rfl, lit64], ⟨rep_zero, by rw [abs_zero]; positivity⟩, by norm_num, ?_, ?_, fun _ => rfl⟩
    · rw [Rat.cast_zero, zero_sub, abs_neg]
      linarith
    · intro ht
      linarith
  · have h' : (c : ℝ) ≤ |(s : ℝ)| := by exact_mod_cast not_lt.mp h
    refine ⟨s, by rw [decide_eq_false h]; rfl, fs, s1, ?_, fun _ => he, ?_⟩
    · have : (0 : ℝ) ≤ 5.01 / 10 ^ 16 := by norm_num
      linarith
    · intro ht
      linarith

/-- C128: the snapped sine and cosine for all doubles: within ε + 5.01e-16 of the exact values, within ε of values that are not that small, and exactly zero at
doubles near the zeros of the exact functions. -/
theorem C128_snap (lib : SinCos64 sq hy ε) {a : ℚ} (ha : IsF64 a) :
    (∃ v : ℚ, Angle.sinSnap (Fl.fin a : B64 sq hy) = Fl.fin v ∧ IsF64 v ∧ |v| ≤ 1 ∧ |(v : ℝ) - Real.sin a| ≤ ε + 5.01 / 10 ^ 16 ∧
      (ε + 5.01 / 10 ^ 16 ≤ |Real.sin a| → |(v : ℝ) - Real.sin a| ≤ ε) ∧ (|Real.sin a| + ε < 4.99 / 10 ^ 16 → v = 0)) ∧
    ∃ v : ℚ, Angle.cosSnap (Fl.fin a : B64 sq hy) = Fl.fin v ∧ IsF64 v ∧ |v| ≤ 1 ∧ |(v : ℝ) - Real.cos a| ≤ ε + 5.01 / 10 ^ 16 ∧
      (ε + 5.01 / 10 ^ 16 ≤ |Real.cos a| → |(v : ℝ) - Real.cos a| ≤ ε) ∧ (|Real.cos a| + ε < 4.99 / 10 ^ 16 → v = 0) := by
  obtain ⟨s, s1, s2, s3, s4⟩ := lib.sin a ha
  obtain ⟨c, c1, c2, c3, c4⟩ := lib.cos a ha
  unfold Angle.sinSnap Angle.cosSnap
  rw [s1, c1]
  exact ⟨snapped s2 s3 s4, snapped c2 c3 c4⟩

/-- A point displaced by a part of a distance. -/
theorem displaced {p d c : ℚ} {t δ : ℝ} (fp : IsF64 p) (fc : IsF64 c) (bp : |p| ≤ 2 ^ (1000 : ℤ)) (bd : |d| ≤ 2 ^ (1000 : ℤ)) (bc : |c| ≤ 1) (he : |(c : ℝ) - t| ≤ δ) :
    ∃ v : ℚ, (Fl.fin p : B64 sq hy) +. Fl.fin d *. Fl.fin c = Fl.fin v ∧ IsF64 v ∧
      |(v : ℝ) - (p + d * t)| ≤ |(d : ℝ)| * (δ + 1 / 2 ^ 52 + 1 / 2 ^ 106) + |(p : ℝ)| / 2 ^ 53 + 2 ^ (-1074 : ℤ) ∧ (c = 0 → v = p) := by
  have hm : |d * c| ≤ 2 ^ (1000 : ℤ) := by
    rw [abs_mul]
    have := mul_le_mul bd bc (abs_nonneg _) (two_pos _).le
    rwa [mul_one] at this
  have hm2 := near_le_pow (by norm_num) hm
  have hs : |p + near (d * c)| ≤ 2 ^ (1001 : ℤ) := by
    rw [show (1001 : ℤ) = 1000 + 1 by norm_num, two_add]
    have := abs_add_le p (near (d * c))
    clear hm
    generalize (2 : ℚ) ^ (1000 : ℤ) = W at *
    norm_num
    linarith
  have f := near_f64 (le_1023 (by norm_num) hs)
  refine ⟨near (p + near (d * c)), ?_, f, ?_, ?_⟩
  · rw [mul_fin64 rfl (near_f64 (le_1023 (by norm_num) hm)).2]
    exact fin_below (le_1023 (by norm_num) hs)
  · have e1 := near_err_real (d * c)
    have e2 := (Rat.cast_le (K := ℝ)).mpr (near_add_rel fp.1 (near_rep (d * c)))
    push_cast at e1 e2
    have tp : (2 : ℝ) ^ (-1074 : ℤ) = 2 * 2 ^ (-1075 : ℤ) := by rw [show (-1074 : ℤ) = -1075 + 1 by norm_num, zpow_add₀ (by norm_num)]; norm_num [mul_comm]
    have t0 : (0 : ℝ) < 2 ^ (-1075 : ℤ) := by positivity
    have bc' : |(c : ℝ)| ≤ 1 := by exact_mod_cast bc
    rw [tp]
    clear tp hm hm2 hs f bp bd
    generalize (2 : ℝ) ^ (-1075 : ℤ) = W at *
    generalize ((near (p + near (d * c)) : ℚ) : ℝ) = v at *
    generalize ((near (d * c) : ℚ) : ℝ) = m at *
    have d0 := abs_nonneg (d : ℝ)
    have k1 : |(d : ℝ) * c| ≤ |(d : ℝ)| := by rw [abs_mul]; nlinarith
    have k2 : |(d : ℝ) * c - d * t| ≤ |(d : ℝ)| * δ := by rw [← mul_sub, abs_mul]; exact mul_le_mul_of_nonneg_left he d0
    have k3 : |m| ≤ |(d : ℝ)| * (1 + 1 / 2 ^ 53) + W := by
      have := abs_sub_abs_le_abs_sub m (d * c)
      linarith
    have k4 := abs_add_le (p : ℝ) m
    have k5 : |v - (p + m)| ≤ (|(p : ℝ)| + |(d : ℝ)| * (1 + 1 / 2 ^ 53) + W) / 2 ^ 53 := by
      rw [abs_sub_comm]
      refine e2.trans (div_le_div_of_nonneg_right (by linarith) (by norm_num))
    have e : v - (p + d * t) = (v - (p + m)) + ((m - d * c) + (d * c - d * t)) := by ring
    rw [e]
    have k6 := abs_add_le (v - (p + m)) ((m - d * c) + (d * c - d * t))
    have k7 := abs_add_le (m - d * c) (d * c - d * t)
    have k8 : (1 : ℝ) / 2 ^ 52 + 1 / 2 ^ 106 = 1 / 2 ^ 53 + (1 + 1 / 2 ^ 53) / 2 ^ 53 := by norm_num
    have k9 : W / 2 ^ 53 ≤ W := div_le_self t0.le (by norm_num)
    rw [add_assoc δ, k8]
    have k10 : |(d : ℝ) * c| / 2 ^ 53 ≤ |(d : ℝ)| / 2 ^ 53 := div_le_div_of_nonneg_right k1 (by norm_num)
    have e5 : (|(p : ℝ)| + |(d : ℝ)| * (1 + 1 / 2 ^ 53) + W) / 2 ^ 53 = |(p : ℝ)| / 2 ^ 53 + |(d : ℝ)| * ((1 + 1 / 2 ^ 53) / 2 ^ 53) + W / 2 ^ 53 := by ring
    rw [e5] at k5
    have e6 : |(d : ℝ)| * (δ + (1 / 2 ^ 53 + (1 + 1 / 2 ^ 53) / 2 ^ 53)) = |(d : ℝ)| * δ + |(d : ℝ)| / 2 ^ 53 + |(d : ℝ)| * ((1 + 1 / 2 ^ 53) / 2 ^ 53) := by ring
    rw [e6]
    linarith
  · rintro rfl
    rw [mul_zero, near_zero, add_zero, near_of_rep fp.1]

/-- C128: projecting a point by a distance along an angle, for arbitrary doubles; straight along an axis the other ordinate stays as it is. -/
theorem C128_project (lib : SinCos64 sq hy ε) {p : Coord ℚ} {a d : ℚ} (fx : IsF64 p.x) (fy : IsF64 p.y) (ha : IsF64 a) (bx : |p.x| ≤ 2 ^ (1000 : ℤ)) (bY : |p.y| ≤ 2 ^ (1000 : ℤ))
    (bd : |d| ≤ 2 ^ (1000 : ℤ)) :
    ∃ x y : ℚ, (Angle.project (toB64 p : Coord (B64 sq hy)) (Fl.fin a) (Fl.fin d)).x = Fl.fin x ∧ (Angle.project (toB64 p : Coord (B64 sq hy)) (Fl.fin a) (Fl.fin d)).y = Fl.fin y ∧
      IsF64 x ∧ IsF64 y ∧ |(x : ℝ) - (p.x + d * Real.cos a)| ≤ |(d : ℝ)| * (ε + 8 / 10 ^ 16) + |(p.x : ℝ)| / 2 ^ 53 + 2 ^ (-1074 : ℤ) ∧
      |(y : ℝ) - (p.y + d * Real.sin a)| ≤ |(d : ℝ)| * (ε + 8 / 10 ^ 16) + |(p.y : ℝ)| / 2 ^ 53 + 2 ^ (-1074 : ℤ) ∧
      (|Real.cos a| + ε < 4.99 / 10 ^ 16 → x = p.x) ∧ (|Real.sin a| + ε < 4.99 / 10 ^ 16 → y = p.y) := by
  obtain ⟨⟨s, s1, s2, s3, s4, _, s6⟩, c, c1, c2, c3, c4, _, c6⟩ := C128_snap lib ha
  obtain ⟨x, x1, x2, x3, x4⟩ := displaced (sq := sq) (hy := hy) (d := d) fx c2 bx bd c3 c4
  obtain ⟨y, y1, y2, y3, y4⟩ := displaced (sq := sq) (hy := hy) (d := d) fy s2 bY bd s3 s4
  have hu : |(d : ℝ)| * (ε + 5.01 / 10 ^ 16 + 1 / 2 ^ 52 + 1 / 2 ^ 106) ≤ |(d : ℝ)| * (ε + 8 / 10 ^ 16) := mul_le_mul_of_nonneg_left (by norm_num; linarith) (abs_nonneg _)
  refine ⟨x, y, ?_, ?_, x2, y2, by linarith, by linarith, fun h => x4 (c6 h), fun h => y4 (s6 h)⟩
  · rw [← x1, ← c1]; rfl
  · rw [← y1, ← s1]; rfl

/-! ## Rotation and turns -/

/-- A sum of two rounded products. -/
theorem sum_of_products {x y c s : ℚ} {t r : ℝ} (bx : |x| ≤ 2 ^ (1000 : ℤ)) (bY : |y| ≤ 2 ^ (1000 : ℤ)) (bc : |c| ≤ 1) (bs : |s| ≤ 1) (hc : |(c : ℝ) - t| ≤ ε) (hs : |(s : ℝ) - r| ≤ ε) :
    ∃ v : ℚ, (Fl.fin x : B64 sq hy) *. Fl.fin c +. Fl.fin y *. Fl.fin s = Fl.fin v ∧ IsF64 v ∧
      |(v : ℝ) - (x * t + y * r)| ≤ (|(x : ℝ)| + |(y : ℝ)|) * (ε + 1 / 2 ^ 52 + 1 / 2 ^ 106) + 2 ^ (-1073 : ℤ) := by
  have hb : ∀ x c : ℚ, |x| ≤ 2 ^ (1000 : ℤ) → |c| ≤ 1 → |x * c| ≤ 2 ^ (1000 : ℤ) := by
    intro x c bx bc
    rw [abs_mul]
    have := mul_le_mul bx bc (abs_nonneg _) (two_pos _).le
    rwa [mul_one] at this
  have m1 := hb x c bx bc
  have m2 := hb y s bY bs
  have n1 := near_le_pow (by norm_num) m1
  have n2 := near_le_pow (by norm_num) m2
  have hsum : |near (x * c) + near (y * s)| ≤ 2 ^ (1001 : ℤ) := by
    rw [show (1001 : ℤ) = 1000 + 1 by norm_num, two_add]
    have := abs_add_le (near (x * c)) (near (y * s))
    clear hb m1 m2
    generalize (2 : ℚ) ^ (1000 : ℤ) = W at *
    norm_num
    linarith
  refine ⟨near (near (x * c) + near (y * s)), ?_, near_f64 (le_1023 (by norm_num) hsum), ?_⟩
  · rw [mul_fin64 rfl (near_f64 (le_1023 (by norm_num) m1)).2, mul_fin64 rfl (near_f64 (le_1023 (by norm_num) m2)).2]
    exact fin_below (le_1023 (by norm_num) hsum)
  · have e1 := near_err_real (x * c)
    have e2 := near_err_real (y * s)
    have e3 := (Rat.cast_le (K := ℝ)).mpr (near_add_rel (near_rep (x * c)) (near_rep (y * s)))
    push_cast at e1 e2 e3
    have tp : (2 : ℝ) ^ (-1073 : ℤ) = 4 * 2 ^ (-1075 : ℤ) := by rw [show (-1073 : ℤ) = -1075 + 2 by norm_num, zpow_add₀ (by norm_num)]; norm_num [mul_comm]
    have t0 : (0 : ℝ) < 2 ^ (-1075 : ℤ) := by positivity
    have bc' : |(c : ℝ)| ≤ 1 := by exact_mod_cast bc
    have bs' : |(s : ℝ)| ≤ 1 := by exact_mod_cast bs
    rw [tp]
    clear tp hb m1 m2 n1 n2 hsum bx bY
    generalize (2 : ℝ) ^ (-1075 : ℤ) = W at *
    generalize ((near (near (x * c) + near (y * s)) : ℚ) : ℝ) = v at *
    generalize ((near (x * c) : ℚ) : ℝ) = m at *
    generalize ((near (y * s) : ℚ) : ℝ) = n at *
    have part : ∀ {x c t m : ℝ}, |c| ≤ 1 → |c - t| ≤ ε → |m - x * c| ≤ |x * c| / 2 ^ 53 + W → |m| ≤ |x| * (1 + 1 / 2 ^ 53) + W ∧ |m - x * t| ≤ |x| * (ε + 1 / 2 ^ 53) + W := by
      intro x c t m h1 h2 h3
      have d0 := abs_nonneg x
      have k1 : |x * c| ≤ |x| := by rw [abs_mul]; nlinarith
      have k2 : |x * c - x * t| ≤ |x| * ε := by rw [← mul_sub, abs_mul]; exact mul_le_mul_of_nonneg_left h2 d0
      have k3 := abs_sub_abs_le_abs_sub m (x * c)
      have k4 := abs_add_le (m - x * c) (x * c - x * t)
      rw [sub_add_sub_cancel] at k4
      constructor <;> linarith
    obtain ⟨a1, a2⟩ := part bc' hc e1
    obtain ⟨b1, b2⟩ := part bs' hs e2
    have k4 := abs_add_le m n
    have k5 : |v - (m + n)| ≤ ((|(x : ℝ)| + |(y : ℝ)|) * (1 + 1 / 2 ^ 53) + 2 * W) / 2 ^ 53 := by
      rw [abs_sub_comm]
      refine e3.trans (div_le_div_of_nonneg_right (by linarith) (by norm_num))
    have e : v - (x * t + y * r) = (v - (m + n)) + ((m - x * t) + (n - y * r)) := by ring
    rw [e]
    have k6 := abs_add_le (v - (m + n)) ((m - x * t) + (n - y * r))
    have k7 := abs_add_le (m - x * t) (n - y * r)
    have k8 : (1 : ℝ) / 2 ^ 52 + 1 / 2 ^ 106 = 1 / 2 ^ 53 + (1 + 1 / 2 ^ 53) / 2 ^ 53 := by norm_num
    have k9 : 2 * W / 2 ^ 53 ≤ 2 * W := div_le_self (by linarith) (by norm_num)
    rw [add_assoc ε, k8]
    have e5 : ((|(x : ℝ)| + |(y : ℝ)|) * (1 + 1 / 2 ^ 53) + 2 * W) / 2 ^ 53 = (|(x : ℝ)| + |(y : ℝ)|) * ((1 + 1 / 2 ^ 53) / 2 ^ 53) + 2 * W / 2 ^ 53 := by ring
    rw [e5] at k5
    have e6 : (|(x : ℝ)| + |(y : ℝ)|) * (ε + (1 / 2 ^ 53 + (1 + 1 / 2 ^ 53) / 2 ^ 53)) =
      |(x : ℝ)| * (ε + 1 / 2 ^ 53) + |(y : ℝ)| * (ε + 1 / 2 ^ 53) + (|(x : ℝ)| + |(y : ℝ)|) * ((1 + 1 / 2 ^ 53) / 2 ^ 53) := by ring
    rw [e6]
    linarith

/-- C128: rotating a vector, for arbitrary doubles. -/
theorem C128_rotate (lib : SinCos64 sq hy ε) {x y a : ℚ} (ha : IsF64 a) (bx : |x| ≤ 2 ^ (1000 : ℤ)) (bY : |y| ≤ 2 ^ (1000 : ℤ)) :
    ∃ v w : ℚ, (⟨Fl.fin x, Fl.fin y⟩ : Vec2 (B64 sq hy)).rotate (Fl.fin a) = ⟨Fl.fin v, Fl.fin w⟩ ∧ IsF64 v ∧ IsF64 w ∧
      |(v : ℝ) - (x * Real.cos a - y * Real.sin a)| ≤ (|(x : ℝ)| + |(y : ℝ)|) * (ε + 1 / 2 ^ 52 + 1 / 2 ^ 106) + 2 ^ (-1073 : ℤ) ∧
      |(w : ℝ) - (x * Real.sin a + y * Real.cos a)| ≤ (|(x : ℝ)| + |(y : ℝ)|) * (ε + 1 / 2 ^ 52 + 1 / 2 ^ 106) + 2 ^ (-1073 : ℤ) := by
  obtain ⟨s, s1, s2, s3, s4⟩ := lib.sin a ha
  obtain ⟨c, c1, c2, c3, c4⟩ := lib.cos a ha
  have hn : |(((-s : ℚ)) : ℝ) - -Real.sin a| ≤ ε := by
    push_cast
    rw [← neg_sub', abs_neg]; exact s4
  obtain ⟨v, v1, v2, v3⟩ := sum_of_products (sq := sq) (hy := hy) bx bY c3 (show |-s| ≤ 1 by rwa [abs_neg]) c4 hn
  obtain ⟨w, w1, w2, w3⟩ := sum_of_products (sq := sq) (hy := hy) bx bY s3 c3 s4 c4
  refine ⟨v, w, ?_, v2, w2, ?_, w3⟩
  · unfold Vec2.rotate
    simp only
    rw [c1, s1, w1, ← v1]
    have hys : |y * s| ≤ 2 ^ (1000 : ℤ) := by
      rw [abs_mul]
      have := mul_le_mul bY s3 (abs_nonneg _) (two_pos _).le
      rwa [mul_one] at this
    have hxc : |x * c| ≤ 2 ^ (1000 : ℤ) := by
      rw [abs_mul]
      have := mul_le_mul bx c3 (abs_nonneg _) (two_pos _).le
      rwa [mul_one] at this
    rw [mul_fin64 (b := -s) (v := -near (y * s)) (by rw [mul_neg, near_neg]) (by rw [abs_neg]; exact (near_f64 (le_1023 (by norm_num) hys)).2),
      mul_fin64 (b := s) rfl (near_f64 (le_1023 (by norm_num) hys)).2, mul_fin64 rfl (near_f64 (le_1023 (by norm_num) hxc)).2]
    congr 1
  · rwa [mul_neg, ← sub_eq_add_neg] at v3

/-- C128: the turn from one angle to another has the sign of the sine of the exact difference if that sine is not tiny. -/
theorem C128_turn (lib : SinCos64 sq hy ε) {a b : ℚ} (fa : IsF64 a) (fb : IsF64 b) (ba : |a| ≤ 2 ^ (1022 : ℤ)) (bb : |b| ≤ 2 ^ (1022 : ℤ)) :
    (ε + |(b : ℝ) - a| / 2 ^ 53 < Real.sin (b - a) → Angle.getTurn (Fl.fin a : B64 sq hy) (Fl.fin b) = 1) ∧
    (Real.sin (b - a) < -(ε + |(b : ℝ) - a| / 2 ^ 53) → Angle.getTurn (Fl.fin a : B64 sq hy) (Fl.fin b) = -1) := by
  obtain ⟨d, d1, d2, d3, _⟩ := half_sub (sq := sq) (hy := hy) fb fa bb ba
  obtain ⟨s, s1, s2, s3, s4⟩ := lib.sin d d2
  have d3' := (Rat.cast_le (K := ℝ)).mpr d3
  push_cast at d3'
  have k : |Real.sin d - Real.sin (b - a)| ≤ |(b : ℝ) - a| / 2 ^ 53 :=
    (Real.abs_sin_sub_sin_le _ _).trans d3'
  have e : ∀ {t : ℚ}, s = t → Angle.getTurn (Fl.fin a : B64 sq hy) (Fl.fin b) = if 0 < t then 1 else if t < 0 then -1 else 0 := by
    rintro _ rfl
    unfold Angle.getTurn
    rw [d1, s1, lit64]
    have h1 : ((Fl.fin s : B64 sq hy) >. Fl.fin 0) = decide (0 < s) := rfl
    have h2 : ((Fl.fin s : B64 sq hy) <. Fl.fin 0) = decide (s < 0) := rfl
    simp only [h1, h2, decide_eq_true_eq]
  rw [abs_le] at k s4
  constructor
  · intro h
    have h0 : (0 : ℝ) < s := by linarith [k.1, s4.1]
    rw [e rfl, if_pos (by exact_mod_cast h0)]
  · intro h
    have h0 : (s : ℝ) < 0 := by linarith [k.2, s4.2]
    have h1 : s < 0 := by exact_mod_cast h0
    rw [e rfl, if_neg (not_lt.mpr h1.le), if_pos h1]

/-! ## Such libraries exist, and an example -/

/-- There is a library that meets the hypotheses with an error of 2^-52. -/
theorem sincos64_exists (sq : ℚ → Val) (hy : ℚ → ℚ → Val) : ∃ inst : FltTrig (B64 sq hy), @SinCos64 sq hy inst (1 / 2 ^ 52) := by
  have ex : ∀ x : ℝ, |x| ≤ 1 → ∃ t : ℚ, IsF64 t ∧ |t| ≤ 1 ∧ |(t : ℝ) - x| ≤ 1 / 2 ^ 52 := by
    intro x hx
    obtain ⟨t, t1, t2⟩ := double_near x (by linarith)
    rw [abs_le] at t2 hx
    have f1 : IsF64 1 := ⟨⟨1, 0, by norm_num, by norm_num, by norm_num⟩, lt_2_1024 (by norm_num)⟩
    rcases lt_or_ge 1 t with h | h
    · have h' : (1 : ℝ) < t := by exact_mod_cast h
      exact ⟨1, f1, by norm_num, by rw [abs_le]; push_cast; constructor <;> linarith⟩
    · rcases lt_or_ge t (-1) with h2 | h2
      · have h' : (t : ℝ) < -1 := by exact_mod_cast h2
        refine ⟨-1, ⟨f1.1.neg, by rw [abs_neg]; exact f1.2⟩, by norm_num, ?_⟩
        rw [abs_le]; push_cast; constructor <;> linarith
      · exact ⟨t, t1, abs_le.mpr ⟨h2, h⟩, abs_le.mpr t2⟩
  choose s s1 s2 s3 using fun a : ℚ => ex (Real.sin a) (Real.abs_sin_le_one _)
  choose c c1 c2 c3 using fun a : ℚ => ex (Real.cos a) (Real.abs_cos_le_one _)
  let inst : FltTrig (B64 sq hy) := ⟨Fl.fin pi64, fun x => match x with | .fin a => .fin (s a) | _ => .nan, fun x => match x with | .fin a => .fin (c a) | _ => .nan, fun y _ => y⟩
  exact ⟨inst, rfl, fun a _ => ⟨s a, rfl, s1 a, s2 a, s3 a⟩, fun a _ => ⟨c a, rfl, c1 a, c2 a, c3 a⟩⟩

/-- The double nearest to a quarter turn is so near that its cosine is snapped to zero with ε = 2^-52: projecting along it keeps x as it is. -/
example : IsF64 (pi64 / 2) ∧ |Real.cos ((pi64 / 2 : ℚ) : ℝ)| + 1 / 2 ^ 52 < 4.99 / 10 ^ 16 ∧ |(3 / 2 : ℚ)| ≤ 2 ^ (990 : ℤ) := by
  refine ⟨⟨⟨884279719003555, -49, by norm_num [abs_of_pos], by norm_num, by unfold pi64; norm_num [zpow_neg]⟩, lt_2_1024 (by unfold pi64; norm_num [abs_of_pos])⟩, ?_, ?_⟩
  · obtain ⟨q1, q2⟩ := pi64_real
    have h : Real.cos ((pi64 / 2 : ℚ) : ℝ) = Real.sin ((Real.pi - pi64) / 2) := by rw [← Real.sin_pi_div_two_sub]; congr 1; push_cast; ring
    rw [h]
    have := Real.abs_sin_le_abs (x := (Real.pi - pi64) / 2)
    rw [abs_div] at this
    norm_num at this q1 ⊢
    linarith
  · refine le_trans ?_ (two_mono (show (1 : ℤ) ≤ 990 by norm_num))
    norm_num [abs_of_pos]

/-- A turn whose sine is not tiny: from 0 to 1. -/
example : (1 : ℝ) / 2 ^ 52 + |((1 : ℚ) : ℝ) - (0 : ℚ)| / 2 ^ 53 < Real.sin ((1 : ℚ) - (0 : ℚ)) := by
  have := Real.sin_gt_sub_cube (x := 1) (by norm_num)
  norm_num at this ⊢
  linarith

end Verif.Props
