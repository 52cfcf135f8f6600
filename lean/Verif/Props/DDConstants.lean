import Verif.Model.DDConstants
import Verif.Props.Filter
import Mathlib.Analysis.SpecialFunctions.Complex.Arctan
import Mathlib.Analysis.SpecificLimits.Normed
import Verif.Lemmas.DDInt
import Mathlib.Analysis.Complex.Exponential
import Mathlib.Analysis.SpecialFunctions.Log.Basic
import Mathlib.Analysis.Complex.ExponentialBounds

/-! # Constants and magnitudes of double-doubles (C102) -/

namespace Verif.Props
open Flt Verif.Binary64 Finset

/-! ## Bounds of π and e -/

theorem arctan_bounds {x : ℝ} (h0 : 0 ≤ x) (h1 : x < 1) (k : ℕ) :
    ∑ i ∈ range (2 * k), (-1) ^ i * (x ^ (2 * i + 1) / (2 * i + 1)) ≤ Real.arctan x ∧
    Real.arctan x ≤ ∑ i ∈ range (2 * k + 1), (-1) ^ i * (x ^ (2 * i + 1) / (2 * i + 1)) := by
  have hs := (Real.hasSum_arctan (x := x) (by rw [Real.norm_eq_abs, abs_of_nonneg h0]; exact h1)).tendsto_sum_nat
  have ha : Antitone (fun i : ℕ => x ^ (2 * i + 1) / (2 * (i : ℝ) + 1)) := by
    refine antitone_nat_of_succ_le fun n => ?_
    have hp : x ^ (2 * (n + 1) + 1) ≤ x ^ (2 * n + 1) := pow_le_pow_of_le_one h0 h1.le (by omega)
    have : (0 : ℝ) ≤ x ^ (2 * n + 1) := pow_nonneg h0 _
    push_cast
    gcongr
    linarith
  have hs' : Filter.Tendsto (fun n => ∑ i ∈ range n, (-1) ^ i * (x ^ (2 * i + 1) / (2 * (i : ℝ) + 1))) Filter.atTop
      (nhds (Real.arctan x)) := by
    refine hs.congr fun n => sum_congr rfl fun i _ => ?_
    push_cast; ring
  exact ⟨ha.alternating_series_le_tendsto hs' k, ha.tendsto_le_alternating_series hs' k⟩

theorem pi_bounds : (31415926535897932384626433832795028 / 10 ^ 34 : ℝ) < Real.pi ∧
    Real.pi < 31415926535897932384626433832795029 / 10 ^ 34 := by
  have a := arctan_bounds (x := 5⁻¹) (by norm_num) (by norm_num) 13
  have b := arctan_bounds (x := 239⁻¹) (by norm_num) (by norm_num) 4
  have m := Real.four_mul_arctan_inv_5_sub_arctan_inv_239
  norm_num [sum_range_succ] at a b
  constructor <;> nlinarith [a.1, a.2, b.1, b.2, m]

theorem e_bounds : (27182818284590452353602874713526624 / 10 ^ 34 : ℝ) < Real.exp 1 ∧
    Real.exp 1 < 27182818284590452353602874713526625 / 10 ^ 34 := by
  have h := Real.exp_bound (x := 1) (by norm_num) (n := 33) (by norm_num)
  norm_num [sum_range_succ, Nat.factorial] at h
  rw [abs_le] at h
  constructor <;> linarith [h.1, h.2]

/-! ## Best pairs of doubles -/

/-- `h` is a double nearest to `t` and `l` a double nearest to what is left: no other pair of doubles that starts this way is
closer to `t`. -/
def Best (h l : ℚ) (t : ℝ) : Prop :=
  IsF64 h ∧ IsF64 l ∧ (∀ v, IsF64 v → |(h : ℝ) - t| ≤ |(v : ℝ) - t|) ∧ (∀ v, IsF64 v → |(h : ℝ) + l - t| ≤ |(h : ℝ) + v - t|)

theorem nearest_between {a b v h : ℚ} {t : ℝ} (ha : near a = h) (hb : near b = h) (hat : (a : ℝ) ≤ t) (htb : t ≤ (b : ℝ))
    (hv : IsF64 v) : |(h : ℝ) - t| ≤ |(v : ℝ) - t| := by
  have h1 := near_nearest a v hv.1
  have h2 := near_nearest b v hv.1
  rw [ha] at h1; rw [hb] at h2
  have h1' : |(a : ℝ) - h| ≤ |(a : ℝ) - v| := by exact_mod_cast h1
  have h2' : |(b : ℝ) - h| ≤ |(b : ℝ) - v| := by exact_mod_cast h2
  rw [← sq_le_sq] at h1' h2' ⊢
  rcases le_total (v : ℝ) h with hvh | hvh <;> nlinarith

theorem best_of {a b h l : ℚ} {t : ℝ} (hf : IsF64 h) (lf : IsF64 l) (ha : near a = h) (hb : near b = h) (la : near (a - h) = l)
    (lb : near (b - h) = l) (hat : (a : ℝ) ≤ t) (htb : t ≤ (b : ℝ)) : Best h l t := by
  refine ⟨hf, lf, fun v hv => nearest_between ha hb hat htb hv, fun v hv => ?_⟩
  have := nearest_between (t := t - h) la lb (by push_cast; linarith) (by push_cast; linarith) hv
  rw [show (h : ℝ) + l - t = l - (t - h) by ring, show (h : ℝ) + v - t = v - (t - h) by ring]
  exact this

variable {sq : ℚ → Val} {hy : ℚ → ℚ → Val}

theorem f64_fixed {v : ℚ} (h : near v = v) (hb : |v| < 2 ^ 1024) : IsF64 v := ⟨h ▸ near_rep v, hb⟩

theorem lit_near {q v : ℚ} (h : near q = v) (hb : |v| < 2 ^ 1024) : (lit q : B64 sq hy) = Fl.fin v :=
  (rnd_fin_iff q v).mpr ⟨h, hb⟩

/-- `π`: the pair of `new_pi` is the best pair of doubles for π, and is within 2⁻¹⁰⁸ of it. -/
theorem C102_pi : ∃ h l : ℚ, (DD.newPi : DD (B64 sq hy)) = ⟨Fl.fin h, Fl.fin l⟩ ∧ Best h l Real.pi ∧
    |(h : ℝ) + l - Real.pi| ≤ 1 / 2 ^ 108 := by
  obtain ⟨p1, p2⟩ := pi_bounds
  have b1 : |(884279719003555 / 2 ^ 48 : ℚ)| < 2 ^ 1024 := by decide +kernel
  have b2 : |(4967757600021511 / 2 ^ 105 : ℚ)| < 2 ^ 1024 := by decide +kernel
  refine ⟨884279719003555 / 2 ^ 48, 4967757600021511 / 2 ^ 105, ?_, ?_, ?_⟩
  · rw [DD.newPi, lit_near (by decide +kernel) b1, lit_near (by decide +kernel) b2]
  · refine best_of (f64_fixed (by decide +kernel) b1) (f64_fixed (by decide +kernel) b2)
      (a := 31415926535897932384626433832795028 / 10 ^ 34) (b := 31415926535897932384626433832795029 / 10 ^ 34)
      (by decide +kernel) (by decide +kernel) (by decide +kernel) (by decide +kernel) ?_ ?_ <;> push_cast <;> linarith
  · push_cast
    rw [abs_le]; constructor <;> norm_num <;> linarith

/-- `2π`: the pair of `new_two_pi` is the best pair of doubles for 2π, within 2⁻¹⁰⁷ of it, and exactly twice the pair of `new_pi`. -/
theorem C102_two_pi : ∃ h l : ℚ, (DD.newTwoPi : DD (B64 sq hy)) = ⟨Fl.fin h, Fl.fin l⟩ ∧ Best h l (2 * Real.pi) ∧
    |(h : ℝ) + l - 2 * Real.pi| ≤ 1 / 2 ^ 107 ∧ (DD.newPi : DD (B64 sq hy)) = ⟨Fl.fin (h / 2), Fl.fin (l / 2)⟩ := by
  obtain ⟨p1, p2⟩ := pi_bounds
  have b1 : |(884279719003555 / 2 ^ 47 : ℚ)| < 2 ^ 1024 := by decide +kernel
  have b2 : |(4967757600021511 / 2 ^ 104 : ℚ)| < 2 ^ 1024 := by decide +kernel
  refine ⟨884279719003555 / 2 ^ 47, 4967757600021511 / 2 ^ 104, ?_, ?_, ?_, ?_⟩
  · rw [DD.newTwoPi, lit_near (by decide +kernel) b1, lit_near (by decide +kernel) b2]
  · refine best_of (f64_fixed (by decide +kernel) b1) (f64_fixed (by decide +kernel) b2)
      (a := 2 * 31415926535897932384626433832795028 / 10 ^ 34) (b := 2 * 31415926535897932384626433832795029 / 10 ^ 34)
      (by decide +kernel) (by decide +kernel) (by decide +kernel) (by decide +kernel) ?_ ?_ <;> push_cast <;> linarith
  · push_cast
    rw [abs_le]; constructor <;> norm_num <;> linarith
  · rw [DD.newPi, lit_near (v := 884279719003555 / 2 ^ 47 / 2) (by decide +kernel) (by decide +kernel),
      lit_near (v := 4967757600021511 / 2 ^ 104 / 2) (by decide +kernel) (by decide +kernel)]

/-- `π / 2`: the pair of `new_pi_2` is the best pair of doubles for π / 2, within 2⁻¹⁰⁹ of it, and exactly half of the pair of
`new_pi`. -/
theorem C102_half_pi : ∃ h l : ℚ, (DD.newPi2 : DD (B64 sq hy)) = ⟨Fl.fin h, Fl.fin l⟩ ∧ Best h l (Real.pi / 2) ∧
    |(h : ℝ) + l - Real.pi / 2| ≤ 1 / 2 ^ 109 ∧ (DD.newPi : DD (B64 sq hy)) = ⟨Fl.fin (2 * h), Fl.fin (2 * l)⟩ := by
  obtain ⟨p1, p2⟩ := pi_bounds
  have b1 : |(884279719003555 / 2 ^ 49 : ℚ)| < 2 ^ 1024 := by decide +kernel
  have b2 : |(4967757600021511 / 2 ^ 106 : ℚ)| < 2 ^ 1024 := by decide +kernel
  refine ⟨884279719003555 / 2 ^ 49, 4967757600021511 / 2 ^ 106, ?_, ?_, ?_, ?_⟩
  · rw [DD.newPi2, lit_near (by decide +kernel) b1, lit_near (by decide +kernel) b2]
  · refine best_of (f64_fixed (by decide +kernel) b1) (f64_fixed (by decide +kernel) b2)
      (a := 31415926535897932384626433832795028 / 10 ^ 34 / 2) (b := 31415926535897932384626433832795029 / 10 ^ 34 / 2)
      (by decide +kernel) (by decide +kernel) (by decide +kernel) (by decide +kernel) ?_ ?_ <;> push_cast <;> linarith
  · push_cast
    rw [abs_le]; constructor <;> norm_num <;> linarith
  · rw [DD.newPi, lit_near (v := 2 * (884279719003555 / 2 ^ 49)) (by decide +kernel) (by decide +kernel),
      lit_near (v := 2 * (4967757600021511 / 2 ^ 106)) (by decide +kernel) (by decide +kernel)]

/-- `e`: the pair of `new_e` is the best pair of doubles for e, and is within 2⁻¹⁰⁸ of it. -/
theorem C102_e : ∃ h l : ℚ, (DD.newE : DD (B64 sq hy)) = ⟨Fl.fin h, Fl.fin l⟩ ∧ Best h l (Real.exp 1) ∧
    |(h : ℝ) + l - Real.exp 1| ≤ 1 / 2 ^ 108 := by
  obtain ⟨p1, p2⟩ := e_bounds
  have b1 : |(6121026514868073 / 2 ^ 51 : ℚ)| < 2 ^ 1024 := by decide +kernel
  have b2 : |(2932120240029853 / 2 ^ 104 : ℚ)| < 2 ^ 1024 := by decide +kernel
  refine ⟨6121026514868073 / 2 ^ 51, 2932120240029853 / 2 ^ 104, ?_, ?_, ?_⟩
  · rw [DD.newE, lit_near (by decide +kernel) b1, lit_near (by decide +kernel) b2]
  · refine best_of (f64_fixed (by decide +kernel) b1) (f64_fixed (by decide +kernel) b2)
      (a := 27182818284590452353602874713526624 / 10 ^ 34) (b := 27182818284590452353602874713526625 / 10 ^ 34)
      (by decide +kernel) (by decide +kernel) (by decide +kernel) (by decide +kernel) ?_ ?_ <;> push_cast <;> linarith
  · push_cast
    rw [abs_le]; constructor <;> norm_num <;> linarith

/-! ## Magnitudes -/

/-- What is assumed about `f64::ln`: minus infinity at 0, and a relative error of at most 2⁻⁵⁰ at positive doubles. -/
structure GoodLn (ln : B64 sq hy → B64 sq hy) : Prop where
  zero : ln (Fl.fin 0) = Fl.ninf
  pos : ∀ q, IsF64 q → 0 < q → ∃ v, ln (Fl.fin q) = Fl.fin v ∧ |(v : ℝ) - Real.log q| ≤ |Real.log q| / 2 ^ 50

theorem i32Check_ok {v : Int} (h : -2147483648 ≤ v ∧ v ≤ 2147483647) : DD.i32Check v = Except.ok v := by
  rw [DD.i32Check, if_pos h]; rfl

/-- What is computed from the floor of the logarithm, if that is between 0 and 8. -/
theorem magnitude_of {ln : B64 sq hy → B64 sq hy} {x : B64 sq hy} {m : ℕ} (hm : m ≤ 8)
    (h : Fl.toI32 (FltRound.floor (ln (Flt.abs x) /. ln (lit 10))) = m) :
    DD.magnitude ln x = Except.ok (if (10 : Int) ^ (m + 1) ≤ Fl.toI32 (Flt.abs x) then (m : Int) + 1 else m) := by
  have hu : DD.asU32 (m : Int) = m := by unfold DD.asU32; omega
  have hp : (10 : Int) ^ m ≤ 10 ^ 8 := by
    have : (10 : ℕ) ^ m ≤ 10 ^ 8 := Nat.pow_le_pow_right (by norm_num) hm
    exact_mod_cast this
  have hq : (0 : Int) < 10 ^ m := by positivity
  simp only [DD.magnitude, h, hu, DD.i32Pow10, if_pos (show m ≤ 9 by omega)]
  have hc := i32Check_ok (v := 10 ^ m * 10) (by constructor <;> nlinarith)
  simp only [Except.bind, bind, pure, Except.pure, hc, pow_succ]

/-- A negative floor of the logarithm, or one above 8, is a panic. -/
theorem magnitude_panic {ln : B64 sq hy → B64 sq hy} {x : B64 sq hy}
    (h : Fl.toI32 (FltRound.floor (ln (Flt.abs x) /. ln (lit 10))) < 0 ∨ 9 ≤ Fl.toI32 (FltRound.floor (ln (Flt.abs x) /. ln (lit 10)))) :
    DD.magnitude ln x = Except.error .arith := by
  have hb : ∀ v : B64 sq hy, -2147483648 ≤ Fl.toI32 v ∧ Fl.toI32 v ≤ 2147483647 := by
    intro v
    cases v <;> simp only [Fl.toI32] <;> omega
  obtain ⟨b1, b2⟩ := hb (FltRound.floor (ln (Flt.abs x) /. ln (lit 10)))
  simp only [DD.magnitude]
  generalize Fl.toI32 (FltRound.floor (ln (Flt.abs x) /. ln (lit 10))) = m at *
  by_cases h9 : m = 9
  · subst h9
    rfl
  · have hu : ¬ DD.asU32 m ≤ 9 := by unfold DD.asU32; omega
    simp only [DD.i32Pow10, if_neg hu]
    rfl

theorem log10_bounds : (2 : ℝ) < Real.log 10 ∧ Real.log 10 < 2.8 := by
  have l2 := Real.log_two_gt_d9
  have u2 := Real.log_two_lt_d9
  have h8 : Real.log 8 ≤ Real.log 10 := Real.log_le_log (by norm_num) (by norm_num)
  have h16 : Real.log 10 ≤ Real.log 16 := Real.log_le_log (by norm_num) (by norm_num)
  rw [show (8 : ℝ) = 2 ^ 3 by norm_num, Real.log_pow] at h8
  rw [show (16 : ℝ) = 2 ^ 4 by norm_num, Real.log_pow] at h16
  push_cast at h8 h16
  constructor <;> linarith

theorem log_f64 {x : ℚ} (hx : IsF64 x) (h0 : 0 < x) : |Real.log x| ≤ 1100 := by
  obtain ⟨k, hk⟩ := hx.1.mult
  have hk1 : 1 ≤ k := by
    by_contra hc
    have : (k : ℚ) ≤ 0 := by exact_mod_cast (show k ≤ 0 by omega)
    have : x ≤ 0 := by rw [hk]; exact mul_nonpos_of_nonpos_of_nonneg this (by positivity)
    linarith
  have hlo : ((2 : ℚ) ^ (-1074 : ℤ)) ≤ x := by
    rw [hk]
    have : (1 : ℚ) ≤ k := by exact_mod_cast hk1
    have hp : (0 : ℚ) < 2 ^ (-1074 : ℤ) := by positivity
    nlinarith
  have hhi : x ≤ 2 ^ (1024 : ℤ) := by
    have := hx.2
    rw [abs_of_pos h0] at this
    exact_mod_cast this.le
  have hlo' : ((2 : ℝ) ^ (-1074 : ℤ)) ≤ x := by
    have := (Rat.cast_le (K := ℝ)).mpr hlo
    rwa [Rat.cast_zpow, Rat.cast_ofNat] at this
  have hhi' : (x : ℝ) ≤ 2 ^ (1024 : ℤ) := by exact_mod_cast hhi
  have hxr : (0 : ℝ) < x := by exact_mod_cast h0
  have a := Real.log_le_log (by positivity) hlo'
  have b := Real.log_le_log hxr hhi'
  rw [Real.log_zpow] at a b
  have u2 := Real.log_two_lt_d9
  have l2 := Real.log_two_gt_d9
  push_cast at a b
  rw [abs_le]; constructor <;> linarith

theorem near_le_of_abs {q : ℚ} {k : ℤ} (hk : 0 ≤ k) (hk1 : k ≤ 1023) (h : |q| ≤ 2 ^ k) : rnd q = .fin (near q) := by
  have hr : Rep ((2 : ℚ) ^ k) := ⟨1, k, by norm_num, by omega, by simp⟩
  have h1 := near_mono (abs_le.mp h).2
  have h2 := near_mono (abs_le.mp h).1
  rw [near_of_rep hr] at h1
  rw [near_neg, near_of_rep hr] at h2
  refine (rnd_fin_iff _ _).mpr ⟨rfl, lt_of_le_of_lt (abs_le.mpr ⟨h2, h1⟩) ?_⟩
  rw [← zpow_natCast]
  exact zpow_lt_zpow_right₀ (by norm_num) (by push_cast; omega)

/-- The computed quotient: exact up to the errors of `ln` and one rounding. -/
theorem quotient_ln {ln : B64 sq hy → B64 sq hy} (hl : GoodLn ln) {x : ℚ} (hx : IsF64 x) (h0 : 0 < x) :
    ∃ v w : ℚ, (ln (Fl.fin x) /. ln (lit 10)) = Fl.fin (near (v / w)) ∧ |(v : ℝ) - Real.log x| ≤ |Real.log x| / 2 ^ 50 ∧
      |(w : ℝ) - Real.log 10| ≤ Real.log 10 / 2 ^ 50 ∧ 1 < w ∧ |v / w| ≤ 2 ^ (12 : ℤ) ∧
      ln (Fl.fin x) = Fl.fin v ∧ ln (Fl.fin 10) = Fl.fin w := by
  obtain ⟨l1, l2⟩ := log10_bounds
  have h10 : IsF64 10 := f64_fixed (by decide +kernel) (by decide +kernel)
  obtain ⟨v, e1, hv⟩ := hl.pos x hx h0
  obtain ⟨w, e2, hw⟩ := hl.pos 10 h10 (by norm_num)
  have hL := log_f64 hx h0
  push_cast at hw
  rw [abs_of_pos (show 0 < Real.log 10 by linarith)] at hw
  have hw1 : (1 : ℝ) < w := by
    have := (abs_le.mp hw).1
    linarith
  have hw1' : 1 < w := by exact_mod_cast hw1
  have hv1 : |(v : ℝ)| ≤ 1200 := by
    have := abs_sub_abs_le_abs_sub (v : ℝ) (Real.log x)
    linarith
  have hv1' : |v| ≤ 1200 := by exact_mod_cast hv1
  have hq : |v / w| ≤ 2 ^ (12 : ℤ) := by
    rw [abs_div, abs_of_pos (show 0 < w by linarith), div_le_iff₀ (by linarith)]
    have : (2 : ℚ) ^ (12 : ℤ) = 4096 := by norm_num
    rw [this]; linarith
  refine ⟨v, w, ?_, hv, hw, hw1', hq, e1, e2⟩
  have e10 : (lit 10 : B64 sq hy) = Fl.fin 10 := lit_near (by decide +kernel) (by decide +kernel)
  rw [e10, e1, e2]
  change Fl.div (Fl.fin v) (Fl.fin w) = _
  simp only [Fl.div, if_neg (show w ≠ 0 by linarith)]
  exact near_le_of_abs (by norm_num) (by norm_num) hq

theorem quotient {ln : B64 sq hy → B64 sq hy} (hl : GoodLn ln) {x : ℚ} (hx : IsF64 x) (h0 : 0 < x) :
    ∃ v w : ℚ, (ln (Fl.fin x) /. ln (lit 10)) = Fl.fin (near (v / w)) ∧ |(v : ℝ) - Real.log x| ≤ |Real.log x| / 2 ^ 50 ∧
      |(w : ℝ) - Real.log 10| ≤ Real.log 10 / 2 ^ 50 ∧ 1 < w ∧ |v / w| ≤ 2 ^ (12 : ℤ) := by
  obtain ⟨v, w, a, b, c, d, e, -, -⟩ := quotient_ln hl hx h0
  exact ⟨v, w, a, b, c, d, e⟩

theorem toI32_floor {q : ℚ} (h : |q| ≤ 2 ^ (12 : ℤ)) : Fl.toI32 (FltRound.floor (Fl.fin q : B64 sq hy)) = ⌊q⌋ := by
  obtain ⟨h1, h2⟩ := abs_le.mp h
  norm_num at h1 h2
  have a : -4096 ≤ ⌊q⌋ := Int.le_floor.mpr (by push_cast; linarith)
  have b : ⌊q⌋ ≤ 4096 := by
    have := Int.floor_mono h2
    simpa using this
  change max (-2147483648) (min 2147483647 (if 0 ≤ ((⌊q⌋ : ℤ) : ℚ) then ⌊((⌊q⌋ : ℤ) : ℚ)⌋ else ⌈((⌊q⌋ : ℤ) : ℚ)⌉)) = _
  simp only [Int.floor_intCast, Int.ceil_intCast, ite_self]
  omega

theorem near_bound {q : ℚ} (h : |q| ≤ 2 ^ (12 : ℤ)) : |near q| ≤ 2 ^ (12 : ℤ) := by
  have hr : Rep ((2 : ℚ) ^ (12 : ℤ)) := ⟨1, 12, by norm_num, by omega, by simp⟩
  have h1 := near_mono (abs_le.mp h).2
  have h2 := near_mono (abs_le.mp h).1
  rw [near_of_rep hr] at h1
  rw [near_neg, near_of_rep hr] at h2
  exact abs_le.mpr ⟨h2, h1⟩

theorem near_half_int (k : ℕ) (hk : k ≤ 20) : near ((k : ℚ) + 1 / 2) = k + 1 / 2 :=
  near_of_rep ⟨2 * k + 1, -1, by rw [abs_of_nonneg (by positivity)]; omega, by norm_num, by push_cast; ring⟩

theorem near_gap (k : ℕ) (hk : k ≤ 20) : near ((k : ℚ) + 1 - 1 / 2 ^ 42) = k + 1 - 1 / 2 ^ 42 := by
  refine near_of_rep ⟨(k + 1) * 2 ^ 42 - 1, -42, ?_, by norm_num, ?_⟩
  · rw [abs_of_nonneg] <;> omega
  · push_cast; rw [zpow_neg]; field_simp; norm_num

theorem abs_fin (x : ℚ) : Flt.abs (Fl.fin x : B64 sq hy) = Fl.fin |x| := rfl

theorem toI32_fin {x : ℚ} (h0 : 0 ≤ x) (h1 : x < 2147483647) : Fl.toI32 (Fl.fin x : B64 sq hy) = ⌊x⌋ := by
  have : 0 ≤ ⌊x⌋ := Int.floor_nonneg.mpr h0
  have : ⌊x⌋ < 2147483647 := Int.floor_lt.mpr (by push_cast; exact h1)
  simp only [Fl.toI32, if_pos h0]
  omega

theorem upper_arith {k T L v w : ℝ} (hk : 0 ≤ k) (hk8 : k ≤ 8) (t1 : 2 < T) (t2 : T < 2.8) (hL : L ≤ (k + 1) * T - 1 / 10 ^ 12)
    (hv : v - L ≤ L / 2 ^ 50) (hw : -(T / 2 ^ 50) ≤ w - T) : v ≤ (k + 1 - 1 / 2 ^ 42) * w := by
  have c : (0 : ℝ) ≤ k + 1 - 1 / 2 ^ 42 := by norm_num; linarith
  have c1 := mul_le_mul_of_nonneg_left (show T - T / 2 ^ 50 ≤ w by linarith) c
  have c2 : (k + 1) * T ≤ 9 * 2.8 := by nlinarith
  norm_num at *
  nlinarith

theorem lower_arith {j T L v w : ℝ} (hj : 0 ≤ j) (hj8 : j ≤ 8) (t1 : 2 < T) (t2 : T < 2.8) (hL : (j + 1) * T ≤ L)
    (hv : -(L / 2 ^ 50) ≤ v - L) (hw : w - T ≤ T / 2 ^ 50) : (j + 1 / 2) * w ≤ v := by
  have c := mul_le_mul_of_nonneg_left (show w ≤ T + T / 2 ^ 50 by linarith) (show (0 : ℝ) ≤ j + 1 / 2 by positivity)
  have c2 : (j + 1 / 2) * T ≤ 9 * 2.8 := by nlinarith
  norm_num at *
  nlinarith

/-- The magnitude of a double `x` with `1 ≤ |x| < 10⁹` is the exponent of the greatest power of ten not above `|x|`, except
possibly for numbers less than one part in 10¹² below a power of ten. -/
theorem C102_magnitude {ln : B64 sq hy → B64 sq hy} (hl : GoodLn ln) {x : ℚ} (hx : IsF64 x) {k : ℕ} (hk : k ≤ 8) (h1 : 10 ^ k ≤ |x|)
    (h2 : |x| ≤ 10 ^ (k + 1) * (1 - 1 / 10 ^ 12)) : DD.magnitude ln (Fl.fin x) = Except.ok (k : Int) := by
  have hp : (1 : ℚ) ≤ 10 ^ k := one_le_pow₀ (by norm_num)
  have h0 : 0 < |x| := by linarith
  have hxa : IsF64 |x| := by
    rcases abs_choice x with h | h <;> rw [h]
    · exact hx
    · exact ⟨hx.1.neg, by rw [abs_neg]; exact hx.2⟩
  obtain ⟨v, w, e, hv, hw, hw1, hq⟩ := quotient hl hxa h0
  obtain ⟨t1, t2⟩ := log10_bounds
  set T := Real.log 10 with hT
  set L := Real.log (|x| : ℚ) with hLd
  have hxr : (0 : ℝ) < ((|x| : ℚ) : ℝ) := by exact_mod_cast h0
  have hL1 : k * T ≤ L := by
    have h1' : (10 : ℝ) ^ k ≤ ((|x| : ℚ) : ℝ) := by exact_mod_cast h1
    have := Real.log_le_log (by positivity) h1'
    rwa [Real.log_pow] at this
  have hL2 : L ≤ (k + 1) * T - 1 / 10 ^ 12 := by
    have h2' : ((|x| : ℚ) : ℝ) ≤ 10 ^ (k + 1) * (1 - 1 / 10 ^ 12) := by
      have := (Rat.cast_le (K := ℝ)).mpr h2
      rwa [Rat.cast_mul, Rat.cast_pow, Rat.cast_sub, Rat.cast_div, Rat.cast_pow, Rat.cast_one, Rat.cast_ofNat] at this
    have := Real.log_le_log hxr h2'
    rw [Real.log_mul (by positivity) (by norm_num), Real.log_pow] at this
    have hs : Real.log (1 - 1 / 10 ^ 12) ≤ (1 - 1 / 10 ^ 12) - 1 := Real.log_le_sub_one_of_pos (by norm_num)
    rw [Nat.cast_add, Nat.cast_one] at this
    linarith
  have hkr : (0 : ℝ) ≤ k := by positivity
  have hk8 : (k : ℝ) ≤ 8 := by exact_mod_cast hk
  have hL0 : 0 ≤ L := le_trans (by positivity) hL1
  rw [abs_of_nonneg hL0] at hv
  obtain ⟨v1, v2⟩ := abs_le.mp hv
  obtain ⟨w1, w2⟩ := abs_le.mp hw
  have hw0 : (0 : ℝ) < w := by exact_mod_cast (show (0 : ℚ) < w by linarith)
  have hup : v / w ≤ (k : ℚ) + 1 - 1 / 2 ^ 42 := by
    have : (v : ℝ) ≤ ((k : ℝ) + 1 - 1 / 2 ^ 42) * w := by
      exact upper_arith hkr hk8 t1 t2 hL2 v2 w1
    rw [div_le_iff₀ (by linarith)]
    rw [← Rat.cast_le (K := ℝ)]
    rw [Rat.cast_mul, Rat.cast_sub, Rat.cast_add, Rat.cast_natCast, Rat.cast_div, Rat.cast_pow, Rat.cast_one, Rat.cast_ofNat]
    exact this
  have hn := near_mono hup
  rw [near_gap k (by omega)] at hn
  have hf2 : ⌊near (v / w)⌋ < (k : ℤ) + 1 := by
    rw [Int.floor_lt]; push_cast
    have : (0 : ℚ) < 1 / 2 ^ 42 := by positivity
    linarith
  have hf1 : (k : ℤ) - 1 ≤ ⌊near (v / w)⌋ ∧ 0 ≤ ⌊near (v / w)⌋ := by
    rcases Nat.eq_zero_or_pos k with hk0 | hk0
    · have : 0 ≤ near (v / w) := by
        refine near_nonneg (div_nonneg ?_ (by linarith))
        have : (0 : ℝ) ≤ v := by norm_num at v1; linarith
        exact_mod_cast this
      have := Int.floor_nonneg.mpr this
      omega
    · obtain ⟨j, rfl⟩ : ∃ j, k = j + 1 := ⟨k - 1, by omega⟩
      have : (j : ℚ) + 1 / 2 ≤ v / w := by
        have : ((j : ℝ) + 1 / 2) * w ≤ v := by
          rw [Nat.cast_add, Nat.cast_one] at hL1 hk8
          exact lower_arith (Nat.cast_nonneg j) (by linarith) t1 t2 hL1 v1 w2
        rw [le_div_iff₀ (by linarith)]
        rw [← Rat.cast_le (K := ℝ)]
        rw [Rat.cast_mul, Rat.cast_add, Rat.cast_natCast, Rat.cast_div, Rat.cast_one, Rat.cast_ofNat]
        exact this
      have hm := near_mono this
      rw [near_half_int j (by omega)] at hm
      have : (j : ℤ) ≤ ⌊near (v / w)⌋ := by
        rw [Int.le_floor]; push_cast; linarith
      push_cast
      omega
  have hxi : Fl.toI32 (Flt.abs (Fl.fin x : B64 sq hy)) = ⌊|x|⌋ := by
    have hp9 : (10 : ℚ) ^ (k + 1) ≤ 10 ^ 9 := pow_le_pow_right₀ (by norm_num) (by omega)
    rw [abs_fin, toI32_fin h0.le (by nlinarith)]
  have hlt : ⌊|x|⌋ < (10 : ℤ) ^ (k + 1) := by
    rw [Int.floor_lt]; push_cast
    have : (0 : ℚ) < 10 ^ (k + 1) := by positivity
    nlinarith
  have hge : (10 : ℤ) ^ k ≤ ⌊|x|⌋ := by
    rw [Int.le_floor]; push_cast; exact h1
  have hm : Fl.toI32 (FltRound.floor (ln (Flt.abs (Fl.fin x)) /. ln (lit 10))) = ⌊near (v / w)⌋ := by
    rw [abs_fin, e, toI32_floor (near_bound hq)]
  by_cases hc : ⌊near (v / w)⌋ = k
  · rw [hc] at hm
    rw [magnitude_of hk hm, hxi, if_neg (by omega)]
  · obtain ⟨j, rfl⟩ : ∃ j, k = j + 1 := ⟨k - 1, by omega⟩
    have hj : ⌊near (v / w)⌋ = j := by push_cast at hf2 hc hf1; omega
    rw [hj] at hm
    rw [magnitude_of (by omega) hm, hxi, if_pos hge]
    push_cast; rfl

/-- The magnitude of an integer between 1 and 10⁹ - 1 in absolute value is one less than its number of decimal digits. -/
theorem C102_magnitude_integers {ln : B64 sq hy → B64 sq hy} (hl : GoodLn ln) {n : ℤ} (h0 : n ≠ 0) (h9 : |n| < 10 ^ 9) :
    DD.magnitude ln (Fl.fin n) = Except.ok ((Nat.log 10 n.natAbs : ℕ) : Int) := by
  have hx : IsF64 (n : ℚ) := by
    refine ⟨⟨n, 0, by omega, by norm_num, by simp⟩, ?_⟩
    have : |(n : ℚ)| < 10 ^ 9 := by exact_mod_cast h9
    exact this.trans (by decide +kernel)
  have hn : (n.natAbs : ℚ) = |(n : ℚ)| := by rw [Nat.cast_natAbs]; push_cast; rfl
  have h1 := Nat.pow_log_le_self 10 (show n.natAbs ≠ 0 by omega)
  have h2 := Nat.lt_pow_succ_log_self (b := 10) (by norm_num) n.natAbs
  have hk : Nat.log 10 n.natAbs ≤ 8 := by
    have : n.natAbs < 10 ^ 9 := by rw [Int.abs_eq_natAbs] at h9; exact_mod_cast h9
    have := Nat.log_lt_of_lt_pow (show n.natAbs ≠ 0 by omega) this
    omega
  refine C102_magnitude hl hx hk ?_ ?_
  · rw [← hn]; exact_mod_cast h1
  · rw [← hn]
    have h2' : ((n.natAbs : ℕ) : ℚ) ≤ 10 ^ (Nat.log 10 n.natAbs + 1) - 1 := by
      have : n.natAbs + 1 ≤ 10 ^ (Nat.log 10 n.natAbs + 1) := h2
      have : ((n.natAbs : ℕ) : ℚ) + 1 ≤ 10 ^ (Nat.log 10 n.natAbs + 1) := by exact_mod_cast this
      linarith
    have hp9 : (10 : ℚ) ^ (Nat.log 10 n.natAbs + 1) ≤ 10 ^ 9 := pow_le_pow_right₀ (by norm_num) (by omega)
    linarith

/-- The magnitude of 0 and of every number with `|x| < 1` or `|x| > 10⁹ (1 + 10⁻⁹)` is not computed: the call panics (where
overflows are checked). -/
theorem C102_magnitude_panics {ln : B64 sq hy → B64 sq hy} (hl : GoodLn ln) {x : ℚ} (hx : IsF64 x)
    (h : |x| < 1 ∨ 10 ^ 9 + 1 ≤ |x|) : DD.magnitude ln (Fl.fin x) = Except.error .arith := by
  refine magnitude_panic ?_
  rw [abs_fin]
  by_cases hx0 : x = 0
  · left
    have e10 : (lit 10 : B64 sq hy) = Fl.fin 10 := lit_near (by decide +kernel) (by decide +kernel)
    have h10 : IsF64 10 := f64_fixed (by decide +kernel) (by decide +kernel)
    obtain ⟨w, e2, hw⟩ := hl.pos 10 h10 (by norm_num)
    have hw1 : (0 : ℝ) < w := by
      push_cast at hw
      obtain ⟨l1, l2⟩ := log10_bounds
      rw [abs_of_pos (show 0 < Real.log 10 by linarith)] at hw
      have := (abs_le.mp hw).1
      linarith
    have hw1' : 0 < w := by exact_mod_cast hw1
    rw [hx0, abs_zero, hl.zero, e10, e2]
    change Fl.toI32 (FltRound.floor (Fl.div Fl.ninf (Fl.fin w) : B64 sq hy)) < 0
    simp only [Fl.div, if_neg hw1'.not_gt]
    exact (by norm_num : (-2147483648 : Int) < 0)
  · have h0 : 0 < |x| := abs_pos.mpr hx0
    have hxa : IsF64 |x| := by
      rcases abs_choice x with h | h <;> rw [h]
      · exact hx
      · exact ⟨hx.1.neg, by rw [abs_neg]; exact hx.2⟩
    obtain ⟨v, w, e, hv, hw, hw1, hq⟩ := quotient hl hxa h0
    obtain ⟨t1, t2⟩ := log10_bounds
    rw [e, toI32_floor (near_bound hq)]
    have hxr : (0 : ℝ) < ((|x| : ℚ) : ℝ) := by exact_mod_cast h0
    obtain ⟨v1, v2⟩ := abs_le.mp hv
    obtain ⟨w1, w2⟩ := abs_le.mp hw
    rcases h with h | h
    · left
      rw [Int.floor_lt]
      have g := rep_gap hxa.1 (show Rep 1 from ⟨1, 0, by norm_num, by norm_num, by norm_num⟩) h.ne
      rw [abs_one, abs_of_pos (by linarith)] at g
      have g' : ((|x| : ℚ) : ℝ) ≤ 1 - 1 / 2 ^ 54 := by
        have : |x| ≤ 1 - 1 / 2 ^ 54 := by norm_num at g ⊢; linarith
        have := (Rat.cast_le (K := ℝ)).mpr this
        rwa [Rat.cast_sub, Rat.cast_div, Rat.cast_pow, Rat.cast_one, Rat.cast_ofNat] at this
      have hl1 := Real.log_le_sub_one_of_pos hxr
      have hv0 : (v : ℝ) ≤ -(1 / 2 ^ 57) * w := by
        have hL : Real.log ((|x| : ℚ) : ℝ) ≤ -(1 / 2 ^ 54) := by linarith
        clear hv hl1 g' hxr v1 hq
        generalize Real.log ((|x| : ℚ) : ℝ) = L at *
        generalize Real.log 10 = T at *
        rw [abs_of_neg (by norm_num at hL; linarith)] at v2
        norm_num at *
        linarith
      have hq1 : v / w ≤ -(1 / 2 ^ 57) := by
        rw [div_le_iff₀ (by linarith)]
        rw [← Rat.cast_le (K := ℝ), Rat.cast_mul, Rat.cast_neg, Rat.cast_div, Rat.cast_pow, Rat.cast_one, Rat.cast_ofNat]
        exact hv0
      have hn := near_mono hq1
      rw [near_of_rep (show Rep (-(1 / 2 ^ 57)) from ⟨-1, -57, by norm_num, by norm_num, by norm_num⟩)] at hn
      norm_num at hn ⊢
      linarith
    · right
      rw [Int.le_floor]
      have h' : (10 : ℝ) ^ 9 * (1 + 1 / 10 ^ 9) ≤ ((|x| : ℚ) : ℝ) := by
        have := (Rat.cast_le (K := ℝ)).mpr h
        rw [Rat.cast_add, Rat.cast_pow, Rat.cast_one, Rat.cast_ofNat] at this
        norm_num at this ⊢
        linarith
      have hl1 := Real.log_le_log (by norm_num) h'
      rw [Real.log_mul (by norm_num) (by norm_num), Real.log_pow] at hl1
      have hl2 : 1 / 10 ^ 10 ≤ Real.log (1 + 1 / 10 ^ 9) := by
        have := Real.log_le_sub_one_of_pos (show (0 : ℝ) < (1 + 1 / 10 ^ 9)⁻¹ by norm_num)
        rw [Real.log_inv] at this
        norm_num at this ⊢
        linarith
      have hv0 : (9 : ℝ) * w ≤ v := by
        rw [abs_of_pos (by push_cast at hl1 ⊢; norm_num at hl2 hl1 ⊢; linarith)] at v1
        have hd : (((9 : ℕ) : ℝ)) = 9 := by norm_num
        rw [hd] at hl1
        generalize Real.log (1 + 1 / 10 ^ 9) = d at *
        generalize Real.log ((|x| : ℚ) : ℝ) = L at *
        generalize Real.log 10 = T at *
        norm_num at *
        linarith
      have hq1 : 9 ≤ v / w := by
        rw [le_div_iff₀ (by linarith)]
        exact_mod_cast hv0
      have hn := near_mono hq1
      rw [near_of_rep (show Rep 9 from ⟨9, 0, by norm_num, by norm_num, by norm_num⟩)] at hn
      exact_mod_cast hn

/-- Rational approximations of the logarithm. -/
theorem approx_log : ∃ f : ℚ → ℚ, ∀ q : ℚ, 0 < q → |(f q : ℝ) - Real.log q| ≤ |Real.log q| / 2 ^ 51 := by
  have : ∀ q : ℚ, ∃ v : ℚ, |(v : ℝ) - Real.log q| ≤ |Real.log q| / 2 ^ 51 := by
    intro q
    by_cases h : Real.log q = 0
    · exact ⟨0, by simp [h]⟩
    · have hp : 0 < |Real.log q| / 2 ^ 51 := by positivity
      obtain ⟨v, h1, h2⟩ := exists_rat_btwn (show Real.log q - |Real.log q| / 2 ^ 51 < Real.log q by linarith)
      exact ⟨v, abs_le.mpr ⟨by linarith, by linarith⟩⟩
  choose f hf using this
  exact ⟨f, fun q _ => hf q⟩

/-- The magnitude of a number just below a power of ten can be one too great: the accuracy assumed of `ln` does not exclude that
the double before 1000 gets the magnitude 3 of 1000. -/
theorem C102_magnitude_limits : ∃ ln : B64 sq hy → B64 sq hy, GoodLn ln ∧ IsF64 (1000 - 1 / 2 ^ 43) ∧
    DD.magnitude ln (Fl.fin (1000 - 1 / 2 ^ 43)) = Except.ok 3 := by
  obtain ⟨f, hf⟩ := approx_log
  obtain ⟨t1, t2⟩ := log10_bounds
  have hx : IsF64 (1000 - 1 / 2 ^ 43) := f64_fixed (by decide +kernel) (by decide +kernel)
  have h10 := hf 10 (by norm_num)
  push_cast at h10
  rw [abs_of_pos (show 0 < Real.log 10 by linarith)] at h10
  obtain ⟨a1, a2⟩ := abs_le.mp h10
  have hne : (f 10 : ℝ) ≠ 0 := by
    intro h; rw [h] at a1; norm_num at a1; linarith
  have hne' : f 10 ≠ 0 := by exact_mod_cast hne
  refine ⟨fun v => match v with
    | Fl.fin q => if q = 0 then Fl.ninf else if q = 1000 - 1 / 2 ^ 43 then Fl.fin (3 * f 10) else Fl.fin (f q)
    | v => v, ⟨by simp, fun q hq h0 => ?_⟩, hx, ?_⟩
  · simp only [if_neg h0.ne']
    split
    · rename_i hq
      refine ⟨_, rfl, ?_⟩
      subst hq
      have hl : Real.log (((1000 - 1 / 2 ^ 43 : ℚ)) : ℝ) = 3 * Real.log 10 + Real.log (1 - 1 / (1000 * 2 ^ 43)) := by
        rw [show (((1000 - 1 / 2 ^ 43 : ℚ)) : ℝ) = 10 ^ 3 * (1 - 1 / (1000 * 2 ^ 43)) by push_cast; norm_num,
          Real.log_mul (by norm_num) (by norm_num), Real.log_pow]
        push_cast; ring
      have hs : Real.log (1 - 1 / (1000 * 2 ^ 43)) ≤ 0 := Real.log_nonpos (by norm_num) (by norm_num)
      have hs2 : -(1 / 2 ^ 52) ≤ Real.log (1 - 1 / (1000 * 2 ^ 43)) := by
        have := Real.log_le_sub_one_of_pos (show (0 : ℝ) < (1 - 1 / (1000 * 2 ^ 43))⁻¹ by norm_num)
        rw [Real.log_inv] at this
        norm_num at this ⊢
        linarith
      rw [hl, Rat.cast_mul, Rat.cast_ofNat]
      generalize Real.log (1 - 1 / (1000 * 2 ^ 43)) = d at *
      generalize Real.log 10 = T at *
      rw [abs_of_pos (show 0 < 3 * T + d by norm_num at hs2; linarith)]
      rw [abs_le]
      norm_num at *
      constructor <;> linarith
    · refine ⟨_, rfl, (hf q h0).trans ?_⟩
      have : 0 ≤ |Real.log q| := abs_nonneg _
      norm_num
      linarith
  · refine magnitude_of (m := 3) (by norm_num) ?_ |>.trans ?_
    · have e10 : (lit 10 : B64 sq hy) = Fl.fin 10 := lit_near (by decide +kernel) (by decide +kernel)
      rw [abs_fin, abs_of_pos (by norm_num), e10]
      simp only [if_neg (show ¬ (1000 - 1 / 2 ^ 43 : ℚ) = 0 by norm_num), if_neg (show ¬ (10 : ℚ) = 0 by norm_num),
        if_neg (show ¬ (10 : ℚ) = 1000 - 1 / 2 ^ 43 by norm_num), if_true]
      change Fl.toI32 (FltRound.floor (Fl.div (Fl.fin (3 * f 10)) (Fl.fin (f 10)) : B64 sq hy)) = _
      simp only [Fl.div, if_neg hne', mul_div_assoc, div_self hne']
      rw [show (Fl.round (3 * 1) : B64 sq hy) = Fl.fin 3 from lit_near (by decide +kernel) (by decide +kernel)]
      rfl
    · rw [abs_fin, abs_of_pos (by norm_num), toI32_fin (by norm_num) (by norm_num), if_neg]
      · rfl
      · rw [Int.le_floor]; norm_num

/-! ## Cases -/

/-- The assumptions about `ln` can be met, so the theorems above say something. -/
example : ∃ ln : X64 → X64, GoodLn ln ∧ DD.magnitude ln (Fl.fin 1000) = Except.ok 3 ∧ DD.magnitude ln (Fl.fin (-314.5)) = Except.ok 2 ∧
    DD.magnitude ln (Fl.fin 0) = Except.error .arith ∧ DD.magnitude ln (Fl.fin (1 / 2)) = Except.error .arith := by
  obtain ⟨ln, h, -⟩ := C102_magnitude_limits (sq := Val.fin) (hy := fun a _ => Val.fin a)
  refine ⟨ln, h, C102_magnitude h (k := 3) (f64_fixed (by decide +kernel) (by decide +kernel)) (by norm_num) (by norm_num) (by norm_num),
    C102_magnitude h (k := 2) (f64_fixed (by decide +kernel) (by decide +kernel)) (by norm_num) ?_ ?_,
    C102_magnitude_panics h (f64_fixed (by decide +kernel) (by decide +kernel)) (Or.inl (by norm_num)),
    C102_magnitude_panics h (f64_fixed (by decide +kernel) (by decide +kernel)) (Or.inl ?_)⟩ <;> norm_num [abs_of_neg, abs_of_pos]

end Verif.Props
