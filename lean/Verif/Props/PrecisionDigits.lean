import Verif.Model.PrecisionDigits
import Verif.Props.DDConstants

/-! # C103: significant digits of precision models -/

namespace Verif.Props
open Flt Verif.Binary64

variable {sq : ℚ → Val} {hy : ℚ → ℚ → Val}

theorem toI32_ceil {q : ℚ} (h : |q| ≤ 2 ^ (12 : ℤ)) : Fl.toI32 (FltRound.ceil (Fl.fin q : B64 sq hy)) = ⌈q⌉ ∧ |⌈q⌉| ≤ 4096 := by
  obtain ⟨h1, h2⟩ := abs_le.mp h
  norm_num at h1 h2
  have a : -4096 ≤ ⌈q⌉ := by
    by_contra hh
    have h3 : ⌈q⌉ ≤ -4097 := by omega
    have h4 := Int.ceil_le.mp h3
    push_cast at h4
    linarith
  have b : ⌈q⌉ ≤ 4096 := Int.ceil_le.mpr (by push_cast; linarith)
  refine ⟨?_, abs_le.mpr ⟨a, b⟩⟩
  change max (-2147483648) (min 2147483647 (if 0 ≤ ((⌈q⌉ : ℤ) : ℚ) then ⌊((⌈q⌉ : ℤ) : ℚ)⌋ else ⌈((⌈q⌉ : ℤ) : ℚ)⌉)) = _
  simp only [Int.floor_intCast, Int.ceil_intCast, ite_self]
  omega

/-- The digits from the computed quotient. -/
theorem digits_of {ln : B64 sq hy → B64 sq hy} {s : B64 sq hy} {q : ℚ} (h : (ln s /. ln (lit 10)) = Fl.fin q) (hq : |q| ≤ 2 ^ (12 : ℤ)) :
    PM.fixedDigits ln s = Except.ok (1 + ⌈q⌉) := by
  obtain ⟨e, b⟩ := toI32_ceil (sq := sq) (hy := hy) hq
  obtain ⟨b1, b2⟩ := abs_le.mp b
  rw [PM.fixedDigits, h, e]
  exact i32Check_ok ⟨by omega, by omega⟩

/-- The error of the computed quotient, before its rounding. -/
theorem log_quotient_err {L T v w c : ℝ} (hL : |L| ≤ 1100) (t1 : 2 < T) (t2 : T < 2.8) (hv : |v - L| ≤ |L| / 2 ^ 50)
    (hw : |w - T| ≤ T / 2 ^ 50) (hc : |c| ≤ 1100) : |(v - c * w) - (L - c * T)| ≤ 1 / 10 ^ 11 := by
  have e : (v - c * w) - (L - c * T) = (v - L) - c * (w - T) := by ring
  rw [e]
  have h1 : |c * (w - T)| ≤ 1100 * (2.8 / 2 ^ 50) := by
    rw [abs_mul]
    exact mul_le_mul hc (hw.trans (by gcongr)) (abs_nonneg _) (by norm_num)
  have h2 := abs_sub (v - L) (c * (w - T))
  have h3 : |L| / 2 ^ 50 ≤ 1100 / 2 ^ 50 := by gcongr
  norm_num at *
  linarith

theorem cast_pow10 (k : ℤ) : (((10 : ℚ) ^ k : ℚ) : ℝ) = 10 ^ k := by rw [Rat.cast_zpow, Rat.cast_ofNat]

theorem near_barrier (k : ℤ) (hk : |k| ≤ 500) : near ((k : ℚ) + 1 / 2 ^ 37) = k + 1 / 2 ^ 37 := by
  obtain ⟨h1, h2⟩ := abs_le.mp hk
  refine near_of_rep ⟨k * 2 ^ 37 + 1, -37, ?_, by norm_num, ?_⟩
  · rw [abs_le]; omega
  · push_cast; rw [zpow_neg]; field_simp; norm_num

theorem near_intc (k : ℤ) (hk : |k| ≤ 500) : near (k : ℚ) = k :=
  near_of_rep ⟨k, 0, by omega, by norm_num, by simp⟩

/-- A scale below a power of ten, not closer than one part in 10¹⁰ to it, has at most as many digits as its exponent, plus one. -/
theorem digits_le {ln : B64 sq hy → B64 sq hy} (hl : GoodLn ln) {s : ℚ} (hs : IsF64 s) (h0 : 0 < s) {k : ℤ} (hk : |k| ≤ 400)
    (h2 : s ≤ 10 ^ k * (1 - 1 / 10 ^ 10)) : ∃ m, PM.fixedDigits ln (Fl.fin s) = Except.ok m ∧ m ≤ k + 1 := by
  obtain ⟨v, w, e, hv, hw, hw1, hq⟩ := quotient hl hs h0
  obtain ⟨t1, t2⟩ := log10_bounds
  have hL := log_f64 hs h0
  have hsr : (0 : ℝ) < s := by exact_mod_cast h0
  have hL2 : Real.log s ≤ k * Real.log 10 - 1 / 10 ^ 10 := by
    have h2' : (s : ℝ) ≤ 10 ^ k * (1 - 1 / 10 ^ 10) := by
      have := (Rat.cast_le (K := ℝ)).mpr h2
      rwa [Rat.cast_mul, cast_pow10, Rat.cast_sub, Rat.cast_div, Rat.cast_pow, Rat.cast_one, Rat.cast_ofNat] at this
    have := Real.log_le_log hsr h2'
    rw [Real.log_mul (by positivity) (by norm_num), Real.log_zpow] at this
    have hs' : Real.log (1 - 1 / 10 ^ 10) ≤ (1 - 1 / 10 ^ 10) - 1 := Real.log_le_sub_one_of_pos (by norm_num)
    linarith
  obtain ⟨k1, k2⟩ := abs_le.mp hk
  have k1r : (-400 : ℝ) ≤ k := by exact_mod_cast k1
  have k2r : (k : ℝ) ≤ 400 := by exact_mod_cast k2
  have hup : v / w ≤ (k : ℚ) := by
    have q := (abs_le.mp (log_quotient_err hL t1 t2 hv hw (c := k) (abs_le.mpr ⟨by linarith, by linarith⟩))).2
    have : (v : ℝ) ≤ k * w := by norm_num at *; linarith
    rw [div_le_iff₀ (by linarith)]
    exact_mod_cast this
  have n1 := near_mono hup
  rw [near_intc k (by omega)] at n1
  refine ⟨_, digits_of e (near_bound hq), ?_⟩
  have := Int.ceil_le.mpr n1
  omega

/-- A scale above a power of ten, not closer than one part in 10¹⁰ to it, has at least as many digits as its exponent, plus two. -/
theorem digits_ge {ln : B64 sq hy → B64 sq hy} (hl : GoodLn ln) {s : ℚ} (hs : IsF64 s) {k : ℤ} (hk : |k| ≤ 401)
    (h1 : 10 ^ k * (1 + 1 / 10 ^ 10) ≤ s) : ∃ m, PM.fixedDigits ln (Fl.fin s) = Except.ok m ∧ k + 2 ≤ m := by
  have h0 : 0 < s := lt_of_lt_of_le (by positivity) h1
  obtain ⟨v, w, e, hv, hw, hw1, hq⟩ := quotient hl hs h0
  obtain ⟨t1, t2⟩ := log10_bounds
  have hL := log_f64 hs h0
  have hL1 : k * Real.log 10 + 1 / (2 * 10 ^ 10) ≤ Real.log s := by
    have h1' : (10 : ℝ) ^ k * (1 + 1 / 10 ^ 10) ≤ s := by
      have := (Rat.cast_le (K := ℝ)).mpr h1
      rwa [Rat.cast_mul, cast_pow10, Rat.cast_add, Rat.cast_div, Rat.cast_pow, Rat.cast_one, Rat.cast_ofNat] at this
    have := Real.log_le_log (by positivity) h1'
    rw [Real.log_mul (by positivity) (by norm_num), Real.log_zpow] at this
    have hs' : 1 / (2 * 10 ^ 10) ≤ Real.log (1 + 1 / 10 ^ 10) := by
      have := Real.log_le_sub_one_of_pos (show (0 : ℝ) < (1 + 1 / 10 ^ 10)⁻¹ by norm_num)
      rw [Real.log_inv] at this
      norm_num at this ⊢
      linarith
    linarith
  obtain ⟨k1, k2⟩ := abs_le.mp hk
  have k1r : (-401 : ℝ) ≤ k := by exact_mod_cast k1
  have k2r : (k : ℝ) ≤ 401 := by exact_mod_cast k2
  have hlow : (k : ℚ) + 1 / 2 ^ 37 ≤ v / w := by
    have q := (abs_le.mp (log_quotient_err hL t1 t2 hv hw (c := k + 1 / 2 ^ 37) (by norm_num; exact abs_le.mpr ⟨by linarith, by linarith⟩))).1
    have : ((k : ℝ) + 1 / 2 ^ 37) * w ≤ v := by norm_num at *; linarith
    rw [le_div_iff₀ (by linarith), ← Rat.cast_le (K := ℝ), Rat.cast_mul, Rat.cast_add, Rat.cast_intCast, Rat.cast_div, Rat.cast_pow,
      Rat.cast_one, Rat.cast_ofNat]
    exact this
  have n2 := near_mono hlow
  rw [near_barrier k (by omega)] at n2
  refine ⟨_, digits_of e (near_bound hq), ?_⟩
  have : k < ⌈near (v / w)⌉ := by
    rw [Int.lt_ceil]
    have : (0 : ℚ) < 1 / 2 ^ 37 := by positivity
    linarith
  omega

/-- The number of digits of a scale that is between two neighbouring powers of ten, not closer than one part in 10¹⁰ to them, is
the exponent of the greater one plus one. -/
theorem C103_digits {ln : B64 sq hy → B64 sq hy} (hl : GoodLn ln) {s : ℚ} (hs : IsF64 s) {k : ℤ} (hk : |k| ≤ 400)
    (h1 : 10 ^ (k - 1) * (1 + 1 / 10 ^ 10) ≤ s) (h2 : s ≤ 10 ^ k * (1 - 1 / 10 ^ 10)) :
    PM.fixedDigits ln (Fl.fin s) = Except.ok (k + 1) := by
  rw [abs_le] at hk
  obtain ⟨m, e, hm⟩ := digits_le hl hs (lt_of_lt_of_le (by positivity) h1) (abs_le.mpr hk) h2
  obtain ⟨n, e', hn⟩ := digits_ge hl hs (abs_le.mpr ⟨by omega, by omega⟩) h1
  rw [e] at e'
  injection e' with e'
  rw [e, show m = k + 1 by omega]

/-- The digits of a power of ten are its exponent plus one, or one more if the computed logarithm is a little too great. -/
theorem C103_digits_of_powers {ln : B64 sq hy → B64 sq hy} (hl : GoodLn ln) {k : ℕ} (hs : IsF64 (10 ^ k)) (hk : k ≤ 400) :
    PM.fixedDigits ln (Fl.fin (10 ^ k)) = Except.ok (k + 1 : Int) ∨ PM.fixedDigits ln (Fl.fin (10 ^ k)) = Except.ok (k + 2 : Int) := by
  have h0 : (0 : ℚ) < 10 ^ k := by positivity
  obtain ⟨v, w, e, hv, hw, hw1, hq⟩ := quotient hl hs h0
  obtain ⟨t1, t2⟩ := log10_bounds
  have hL := log_f64 hs h0
  rw [Rat.cast_pow, Rat.cast_ofNat, Real.log_pow] at hv hL
  have k2r : (k : ℝ) ≤ 400 := by exact_mod_cast hk
  have k1r : (0 : ℝ) ≤ k := by positivity
  have hup' : v / w ≤ ((k + 1 : ℤ) : ℚ) := by
    have q := (abs_le.mp (log_quotient_err hL t1 t2 hv hw (c := k + 1) (abs_le.mpr ⟨by linarith, by linarith⟩))).2
    have : (v : ℝ) ≤ (k + 1) * w := by norm_num at *; linarith
    have : v ≤ (k + 1) * w := by exact_mod_cast this
    have : v / w ≤ k + 1 := by rwa [div_le_iff₀ (by linarith)]
    push_cast
    exact this
  have hlow : (((k : ℤ) - 1 : ℤ) : ℚ) + 1 / 2 ^ 37 ≤ v / w := by
    have q := (abs_le.mp (log_quotient_err hL t1 t2 hv hw (c := (k - 1) + 1 / 2 ^ 37) (by norm_num; exact abs_le.mpr ⟨by linarith, by linarith⟩))).1
    have : (((k : ℝ) - 1) + 1 / 2 ^ 37) * w ≤ v := by norm_num at *; linarith
    rw [le_div_iff₀ (by linarith), ← Rat.cast_le (K := ℝ), Rat.cast_mul, Rat.cast_add, Rat.cast_intCast, Rat.cast_div, Rat.cast_pow,
      Rat.cast_one, Rat.cast_ofNat, Int.cast_sub, Int.cast_one, Int.cast_natCast]
    exact this
  have n1 := near_mono hup'
  have n2 := near_mono hlow
  rw [near_intc (k + 1) (abs_le.mpr ⟨by omega, by omega⟩)] at n1
  rw [near_barrier ((k : ℤ) - 1) (abs_le.mpr ⟨by omega, by omega⟩)] at n2
  have c1 : ⌈near (v / w)⌉ ≤ (k : ℤ) + 1 := Int.ceil_le.mpr n1
  have c2 : (k : ℤ) - 1 < ⌈near (v / w)⌉ := by
    rw [Int.lt_ceil]
    have : (0 : ℚ) < 1 / 2 ^ 37 := by positivity
    linarith
  rw [digits_of e (near_bound hq)]
  rcases (show ⌈near (v / w)⌉ = k ∨ ⌈near (v / w)⌉ = (k : ℤ) + 1 by omega) with h | h <;> rw [h]
  · left; rw [add_comm]
  · right; congr 1; ring

/-- Scale 1 has one digit, and scale 10 has two. -/
theorem C103_digits_of_one_ten {ln : B64 sq hy → B64 sq hy} (hl : GoodLn ln) :
    PM.fixedDigits ln (Fl.fin 1) = Except.ok 1 ∧ PM.fixedDigits ln (Fl.fin 10) = Except.ok 2 := by
  constructor
  · obtain ⟨v, w, e, hv, -, hw1, hq⟩ := quotient hl (f64_fixed (v := 1) (by decide +kernel) (by decide +kernel)) one_pos
    have hv0 : v = 0 := by
      rw [Rat.cast_one, Real.log_one, sub_zero, abs_zero, zero_div] at hv
      have := abs_nonpos_iff.mp hv
      exact_mod_cast this
    subst hv0
    rw [digits_of e (near_bound hq), zero_div, near_zero]
    simp
  · have h10 : IsF64 10 := f64_fixed (by decide +kernel) (by decide +kernel)
    obtain ⟨w, e2, hw⟩ := hl.pos 10 h10 (by norm_num)
    obtain ⟨t1, -⟩ := log10_bounds
    have hne : w ≠ 0 := by
      intro h
      rw [h, show ((10 : ℚ) : ℝ) = 10 by norm_num, abs_of_pos (show 0 < Real.log 10 by linarith)] at hw
      have := (abs_le.mp hw).1
      rw [Rat.cast_zero] at this
      linarith
    have e10 : (lit 10 : B64 sq hy) = Fl.fin 10 := lit_near (by decide +kernel) (by decide +kernel)
    have : (ln (Fl.fin 10) /. ln (lit 10)) = Fl.fin 1 := by
      rw [e10, e2]
      change Fl.div (Fl.fin w) (Fl.fin w) = _
      simp only [Fl.div, if_neg hne, div_self hne]
      exact lit_near (by decide +kernel) (by decide +kernel)
    rw [digits_of this (by norm_num)]
    simp

/-- The accuracy assumed of `ln` does not exclude that the scale 1000 gets five digits instead of four. -/
theorem C103_digits_limits : ∃ ln : B64 sq hy → B64 sq hy, GoodLn ln ∧ PM.fixedDigits ln (Fl.fin 1000) = Except.ok 5 := by
  obtain ⟨f, hf⟩ := approx_log
  obtain ⟨t1, t2⟩ := log10_bounds
  have h10 := hf 10 (by norm_num)
  push_cast at h10
  rw [abs_of_pos (show 0 < Real.log 10 by linarith)] at h10
  obtain ⟨a1, a2⟩ := abs_le.mp h10
  have hne : (f 10 : ℝ) ≠ 0 := by
    intro h; rw [h] at a1; norm_num at a1; linarith
  have hne' : f 10 ≠ 0 := by exact_mod_cast hne
  refine ⟨fun v => match v with
    | Fl.fin q => if q = 0 then Fl.ninf else if q = 1000 then Fl.fin ((3 + 1 / 2 ^ 51) * f 10) else Fl.fin (f q)
    | v => v, ⟨by simp, fun q hq h0 => ?_⟩, ?_⟩
  · simp only [if_neg h0.ne']
    split
    · rename_i hq
      refine ⟨_, rfl, ?_⟩
      subst hq
      have hl : Real.log ((1000 : ℚ) : ℝ) = 3 * Real.log 10 := by
        rw [show ((1000 : ℚ) : ℝ) = 10 ^ 3 by push_cast; norm_num, Real.log_pow]
        push_cast; ring
      rw [hl, show (((3 + 1 / 2 ^ 51) * f 10 : ℚ) : ℝ) = (3 + 1 / 2 ^ 51) * (f 10 : ℝ) by
        push_cast; ring]
      generalize Real.log 10 = T at *
      rw [abs_of_pos (show 0 < 3 * T by linarith), abs_le]
      norm_num at *
      constructor <;> linarith
    · refine ⟨_, rfl, (hf q h0).trans ?_⟩
      have : 0 ≤ |Real.log q| := abs_nonneg _
      norm_num
      linarith
  · have e10 : (lit 10 : B64 sq hy) = Fl.fin 10 := lit_near (by decide +kernel) (by decide +kernel)
    rw [digits_of (q := 3 + 1 / 2 ^ 51)]
    · rw [show ⌈(3 + 1 / 2 ^ 51 : ℚ)⌉ = 4 by rw [Int.ceil_eq_iff]; norm_num]; rfl
    · rw [e10]
      simp only [if_neg (show ¬ (1000 : ℚ) = 0 by norm_num), if_neg (show ¬ (10 : ℚ) = 0 by norm_num),
        if_neg (show ¬ (10 : ℚ) = 1000 by norm_num), if_true]
      change Fl.div (Fl.fin ((3 + 1 / 2 ^ 51) * f 10)) (Fl.fin (f 10)) = _
      simp only [Fl.div, if_neg hne', mul_div_assoc, div_self hne', mul_one]
      exact lit_near (by decide +kernel) (by decide +kernel)
    · rw [abs_of_pos (by positivity)]; norm_num

/-- What comparisons of precision models rely on: a greater double never has a smaller logarithm. -/
def MonoLn (ln : B64 sq hy → B64 sq hy) : Prop :=
  ∀ p q v w : ℚ, IsF64 p → IsF64 q → 0 < p → p ≤ q → ln (Fl.fin p) = Fl.fin v → ln (Fl.fin q) = Fl.fin w → v ≤ w

/-- Every positive scale has a number of digits, between −4095 and 4097, and a greater scale does not have fewer digits. -/
theorem C103_digits_monotone {ln : B64 sq hy → B64 sq hy} (hl : GoodLn ln) {p q : ℚ} (hp : IsF64 p) (hq : IsF64 q) (h0 : 0 < p)
    (h : p ≤ q) : ∃ m n : Int, PM.fixedDigits ln (Fl.fin p) = Except.ok m ∧ PM.fixedDigits ln (Fl.fin q) = Except.ok n ∧
      |m| ≤ 4097 ∧ |n| ≤ 4097 ∧ (MonoLn ln → m ≤ n) := by
  obtain ⟨v, w, e, -, -, hw1, b, ev, ew⟩ := quotient_ln hl hp h0
  obtain ⟨v', w', e', -, -, hw1', b', ev', ew'⟩ := quotient_ln hl hq (h0.trans_le h)
  have c1 := (toI32_ceil (sq := sq) (hy := hy) (near_bound b)).2
  have c2 := (toI32_ceil (sq := sq) (hy := hy) (near_bound b')).2
  rw [abs_le] at c1 c2
  refine ⟨_, _, digits_of e (near_bound b), digits_of e' (near_bound b'), abs_le.mpr ⟨by omega, by omega⟩,
    abs_le.mpr ⟨by omega, by omega⟩, fun hm => ?_⟩
  have hle := hm p q v v' hp hq h0 h ev ev'
  rw [ew] at ew'
  injection ew' with ew'
  subst ew'
  have := Int.ceil_mono (near_mono (div_le_div_of_nonneg_right hle (by linarith : (0 : ℚ) ≤ w)))
  omega

/-- Comparing fixed precision models: one with a smaller scale is never considered more precise. -/
theorem C103_compare {ln : B64 sq hy → B64 sq hy} (hl : GoodLn ln) (hm : MonoLn ln) {digits : B64 sq hy → Int}
    (hd : ∀ s m, PM.fixedDigits ln s = Except.ok m → digits s = m) {a b : PM (B64 sq hy)} (ha : a.modelType = .fixed)
    (hb : b.modelType = .fixed) {p q : ℚ} (hp : IsF64 p) (hq : IsF64 q) (h0 : 0 < p) (h : p ≤ q) (sa : a.scale = Fl.fin p)
    (sb : b.scale = Fl.fin q) : PM.compareTo digits a b ≤ 0 ∧ 0 ≤ PM.compareTo digits b a := by
  obtain ⟨m, n, e1, e2, -, -, hle⟩ := C103_digits_monotone hl hp hq h0 h
  have d1 : a.maxDigits digits = m := by rw [PM.maxDigits, ha]; simp only; rw [sa]; exact hd _ _ e1
  have d2 : b.maxDigits digits = n := by rw [PM.maxDigits, hb]; simp only; rw [sb]; exact hd _ _ e2
  have := hle hm
  unfold PM.compareTo
  rw [d1, d2]
  split_ifs <;> omega

/-- Comparing fixed with floating precision models (scales up to one part in 10¹⁰): a fixed model is less precise than the double
precision one if its scale is less than 10¹⁴, as precise between 10¹⁴ and 10¹⁵, and more precise above; the bounds for the single
precision model are 10⁴ and 10⁵. -/
theorem C103_compare_floating {ln : B64 sq hy → B64 sq hy} (hl : GoodLn ln) {digits : B64 sq hy → Int}
    (hd : ∀ s m, PM.fixedDigits ln s = Except.ok m → digits s = m) {a b : PM (B64 sq hy)} (ha : a.modelType = .fixed)
    {p : ℚ} (hp : IsF64 p) (h0 : 0 < p) (sa : a.scale = Fl.fin p) {k : ℤ}
    (hb : b.modelType = .floating ∧ k = 14 ∨ b.modelType = .floatingSingle ∧ k = 4) :
    (p ≤ 10 ^ k * (1 - 1 / 10 ^ 10) → PM.compareTo digits a b = -1) ∧
    (10 ^ k * (1 + 1 / 10 ^ 10) ≤ p → p ≤ 10 ^ (k + 1) * (1 - 1 / 10 ^ 10) → PM.compareTo digits a b = 0) ∧
    (10 ^ (k + 1) * (1 + 1 / 10 ^ 10) ≤ p → PM.compareTo digits a b = 1) := by
  have d2 : b.maxDigits digits = k + 2 := by
    rcases hb with ⟨h, rfl⟩ | ⟨h, rfl⟩ <;> (rw [PM.maxDigits, h]; rfl)
  have d1 : ∀ m, PM.fixedDigits ln (Fl.fin p) = Except.ok m → a.maxDigits digits = m := fun m e => by
    rw [PM.maxDigits, ha]; simp only; rw [sa]; exact hd _ _ e
  have hk : 0 ≤ k ∧ k ≤ 14 := by rcases hb with ⟨-, rfl⟩ | ⟨-, rfl⟩ <;> norm_num
  unfold PM.compareTo
  rw [d2]
  refine ⟨fun h => ?_, fun h h' => ?_, fun h => ?_⟩
  · obtain ⟨m, e, hm⟩ := digits_le hl hp h0 (abs_le.mpr ⟨by omega, by omega⟩) h
    rw [d1 m e]
    split_ifs <;> omega
  · rw [d1 _ (C103_digits hl hp (k := k + 1) (abs_le.mpr ⟨by omega, by omega⟩) (by rwa [add_sub_cancel_right]) h')]
    split_ifs <;> omega
  · obtain ⟨m, e, hm⟩ := digits_ge hl hp (abs_le.mpr ⟨by omega, by omega⟩) h
    rw [d1 m e]
    split_ifs <;> omega

/-- A scale of zero or of infinity: the first has −2³¹ + 1 digits, the second panics because of an overflow. -/
theorem C103_digits_extremes {ln : B64 sq hy → B64 sq hy} (hl : GoodLn ln) (hi : ln Fl.pinf = Fl.pinf) :
    PM.fixedDigits ln (Fl.fin 0) = Except.ok (-2147483647) ∧ PM.fixedDigits ln Fl.pinf = Except.error .arith := by
  obtain ⟨v, w, -, -, -, hw1, -, -, ew⟩ := quotient_ln hl (f64_fixed (v := 1) (by decide +kernel) (by decide +kernel)) one_pos
  have e10 : (lit 10 : B64 sq hy) = Fl.fin 10 := lit_near (by decide +kernel) (by decide +kernel)
  have hw : 0 ≤ w := by linarith
  constructor
  · have : (ln (Fl.fin 0) /. ln (lit 10)) = Fl.ninf := by
      rw [hl.zero, e10, ew]
      change Fl.div Fl.ninf (Fl.fin w) = _
      simp [Fl.div, hw]
    rw [PM.fixedDigits, this]; rfl
  · have : (ln Fl.pinf /. ln (lit 10)) = Fl.pinf := by
      rw [hi, e10, ew]
      change Fl.div Fl.pinf (Fl.fin w) = _
      simp [Fl.div, hw]
    rw [PM.fixedDigits, this]; rfl

/-! ## Cases -/

/-- Doubles other than 1 are not closer than 2⁻⁵⁴ to it. -/
theorem gap_one {q : ℚ} (h : IsF64 q) (h0 : 0 < q) (h1 : q ≠ 1) : 1 / 2 ^ 54 ≤ |q - 1| := by
  by_cases hh : q ≤ 1 / 2
  · rw [abs_of_neg (by linarith)]
    have : (1 : ℚ) / 2 ^ 54 ≤ 1 / 2 := by norm_num
    linarith
  obtain ⟨⟨m, e, hm, -, rfl⟩, -⟩ := h
  have hm' : m ≤ 2 ^ 53 := (abs_le.mp hm).2
  rcases le_or_gt 0 e with he | he
  · obtain ⟨n, rfl⟩ := Int.eq_ofNat_of_zero_le he
    have e1 : (m : ℚ) * 2 ^ ((n : ℕ) : ℤ) - 1 = ((m * 2 ^ n - 1 : ℤ) : ℚ) := by push_cast; rw [zpow_natCast]
    have : (1 : ℤ) ≤ |m * 2 ^ n - 1| := Int.one_le_abs (fun hz => h1 (by
      have hz' : ((m * 2 ^ n - 1 : ℤ) : ℚ) = 0 := by rw [hz]; rfl
      rw [← e1] at hz'
      exact sub_eq_zero.mp hz'))
    have h2 : (1 : ℚ) ≤ |((m * 2 ^ n - 1 : ℤ) : ℚ)| := by exact_mod_cast this
    change _ ≤ |(m : ℚ) * 2 ^ ((n : ℕ) : ℤ) - 1|
    rw [e1]
    exact le_trans (by norm_num) h2
  · obtain ⟨n, hn⟩ := Int.eq_ofNat_of_zero_le (show 0 ≤ -e by omega)
    have e2 : (2 : ℚ) ^ e = 1 / 2 ^ n := by
      rw [show e = -(n : ℤ) by change -e = (n : ℤ) at hn; omega, zpow_neg, zpow_natCast, one_div]
    rw [e2] at hh h1 ⊢
    have hp : (0 : ℚ) < 2 ^ n := by positivity
    have hb : (2 : ℚ) ^ n < 2 ^ 54 := by
      have hmq : (m : ℚ) ≤ 2 ^ 53 := by exact_mod_cast hm'
      rw [not_le, mul_one_div, lt_div_iff₀ hp] at hh
      linarith
    have e1 : (m : ℚ) * (1 / 2 ^ n) - 1 = ((m - 2 ^ n : ℤ) : ℚ) * (1 / 2 ^ n) := by push_cast; field_simp
    have : (1 : ℤ) ≤ |m - 2 ^ n| := Int.one_le_abs (fun hz => h1 (by
      have hz' : ((m - 2 ^ n : ℤ) : ℚ) = 0 := by rw [hz]; rfl
      rw [hz', zero_mul] at e1
      exact sub_eq_zero.mp e1))
    have h2 : (1 : ℚ) ≤ |((m - 2 ^ n : ℤ) : ℚ)| := by exact_mod_cast this
    rw [e1, abs_mul, abs_of_pos (show (0 : ℚ) < 1 / 2 ^ n by positivity)]
    calc (1 : ℚ) / 2 ^ 54 ≤ 1 / 2 ^ n := one_div_le_one_div_of_le hp hb.le
      _ ≤ _ := le_mul_of_one_le_left (by positivity) h2

theorem log_gap {q : ℚ} (h : IsF64 q) (h0 : 0 < q) (h1 : q ≠ 1) : 1 / 2 ^ 55 ≤ |Real.log q| := by
  have hg : (1 : ℝ) / 2 ^ 54 ≤ |(q : ℝ) - 1| := by
    have := (Rat.cast_le (K := ℝ)).mpr (gap_one h h0 h1)
    push_cast at this
    exact this
  have hq : (0 : ℝ) < q := by exact_mod_cast h0
  rcases le_or_gt (q : ℝ) 1 with hh | hh
  · rw [abs_of_nonpos (by linarith)] at hg
    have := Real.log_le_sub_one_of_pos hq
    rw [abs_of_nonpos (Real.log_nonpos hq.le hh)]
    norm_num at *
    linarith
  · rw [abs_of_pos (by linarith)] at hg
    rw [abs_of_pos (Real.log_pos hh)]
    have := Real.log_le_log (by norm_num) (show (1 : ℝ) + 1 / 2 ^ 54 ≤ q by linarith)
    have h2 : (1 : ℝ) / 2 ^ 55 ≤ Real.log (1 + 1 / 2 ^ 54) := by
      have := Real.log_le_sub_one_of_pos (show (0 : ℝ) < (1 + 1 / 2 ^ 54)⁻¹ by norm_num)
      rw [Real.log_inv] at this
      norm_num at this ⊢
      linarith
    linarith

/-- The assumptions about `ln` can be met together. -/
theorem good_mono_ln : ∃ ln : B64 sq hy → B64 sq hy, GoodLn ln ∧ MonoLn ln ∧ ln Fl.pinf = Fl.pinf := by
  refine ⟨fun v => match v with
    | Fl.fin q => if q = 0 then Fl.ninf else Fl.fin (⌊Real.log q * 2 ^ 110⌋ / 2 ^ 110)
    | v => v, ⟨by simp, fun q hq h0 => ?_⟩, ?_, rfl⟩
  · simp only [if_neg h0.ne']
    refine ⟨_, rfl, ?_⟩
    by_cases h1 : q = 1
    · subst h1; simp
    have hg := log_gap hq h0 h1
    have f1 := Int.floor_le (Real.log q * 2 ^ 110)
    have f2 := Int.lt_floor_add_one (Real.log q * 2 ^ 110)
    have e : ((((⌊Real.log q * 2 ^ 110⌋ : ℤ) : ℚ) / 2 ^ 110 : ℚ) : ℝ) = (⌊Real.log q * 2 ^ 110⌋ : ℝ) / 2 ^ 110 := by push_cast; rfl
    rw [e]
    generalize (⌊Real.log q * 2 ^ 110⌋ : ℝ) = z at *
    generalize |Real.log q| = A at *
    generalize Real.log q = L at *
    rw [abs_le]
    norm_num at *
    constructor <;> linarith
  · intro p q v w hp hq h0 h e1 e2
    simp only [if_neg h0.ne', if_neg (h0.trans_le h).ne'] at e1 e2
    injection e1 with e1
    injection e2 with e2
    subst e1 e2
    have : Real.log p ≤ Real.log q := Real.log_le_log (by exact_mod_cast h0) (by exact_mod_cast h)
    have : ⌊Real.log p * 2 ^ 110⌋ ≤ ⌊Real.log q * 2 ^ 110⌋ := Int.floor_mono (by gcongr)
    have : ((⌊Real.log p * 2 ^ 110⌋ : ℤ) : ℚ) ≤ ⌊Real.log q * 2 ^ 110⌋ := by exact_mod_cast this
    gcongr

example : ∃ (ln : X64 → X64) (digits : X64 → Int), GoodLn ln ∧ MonoLn ln ∧ ln Fl.pinf = Fl.pinf ∧
    ∀ s m, PM.fixedDigits ln s = Except.ok m → digits s = m := by
  obtain ⟨ln, h, h', hi⟩ := good_mono_ln (sq := Val.fin) (hy := fun a _ => Val.fin a)
  exact ⟨ln, fun s => match PM.fixedDigits ln s with | .ok m => m | .error _ => 0, h, h', hi, fun s m e => by simp only [e]⟩

example : ∃ ln : X64 → X64, GoodLn ln ∧ PM.fixedDigits ln (Fl.fin 1000) = Except.ok 5 ∧ PM.fixedDigits ln (Fl.fin 999) = Except.ok 4 ∧
    PM.fixedDigits ln (Fl.fin 1) = Except.ok 1 ∧ PM.fixedDigits ln (Fl.fin (1 / 64)) = Except.ok 0 := by
  obtain ⟨ln, h, e⟩ := C103_digits_limits (sq := Val.fin) (hy := fun a _ => Val.fin a)
  exact ⟨ln, h, e, C103_digits h (k := 3) (f64_fixed (by decide +kernel) (by decide +kernel)) (by norm_num) (by norm_num) (by norm_num),
    (C103_digits_of_one_ten h).1,
    C103_digits h (k := -1) (f64_fixed (by decide +kernel) (by decide +kernel)) (by norm_num) (by norm_num) (by norm_num)⟩

end Verif.Props
