import Verif.Props.Angle
import Verif.Props.PrecisionModel64
import Mathlib.Analysis.Real.Pi.Bounds

set_option linter.unusedSectionVars false

/-! # C83: normalising angles in binary64 -/

namespace Verif.Props
open Flt Verif.Spec Verif.Binary64

/-- The double nearest to π (`std::f64::consts::PI`). -/
def pi64 : ℚ := 884279719003555 / 281474976710656

variable {sq : ℚ → Val} {hy : ℚ → ℚ → Val}

theorem pi64_bounds : 3.14159265358979 < pi64 ∧ pi64 < 3.14159265358980 := by unfold pi64; constructor <;> norm_num

theorem twoPi_mult : 2 * pi64 = (884279719003555 : ℤ) * 2 ^ (-47 : ℤ) := by unfold pi64; norm_num [zpow_neg]

theorem pi64_rep : Rep pi64 := ⟨884279719003555, -48, by norm_num [abs_of_pos], by norm_num, by unfold pi64; norm_num [zpow_neg]⟩

theorem twoPi_rep : Rep (2 * pi64) := ⟨884279719003555, -47, by norm_num [abs_of_pos], by norm_num, twoPi_mult⟩

theorem lt_2_1024 {x : ℚ} (h : |x| ≤ 2 ^ 56) : |x| < 2 ^ 1024 := by
  have : (2 : ℚ) ^ 56 < 2 ^ 1024 := pow_lt_pow_right₀ (by norm_num) (by norm_num)
  exact lt_of_le_of_lt h this

theorem rnd_near {x : ℚ} (h : |near x| ≤ 2 ^ 56) : rnd x = .fin (near x) := (rnd_fin_iff _ _).mpr ⟨rfl, lt_2_1024 h⟩

/-! ## Spacing -/

theorem expo_lt_of {x : ℚ} {k : ℤ} (hk : -1074 ≤ k) (h : |x| < 2 ^ (k + 53)) : expo x ≤ k := by
  by_contra hc
  push Not at hc
  rcases eq_or_ne x 0 with h0 | h0
  · rw [h0, expo_zero] at hc; omega
  · have := expo_le_abs x h0 (by omega)
    have h2 : (2 : ℚ) ^ (k + 53) ≤ 2 ^ (expo x + 52) := two_mono (by omega)
    linarith

theorem expo_gt_of {x : ℚ} {k : ℤ} (h : 2 ^ (k + 52) ≤ |x|) : k ≤ expo x := by
  by_contra hc
  push Not at hc
  have := abs_lt_expo x
  have h2 : (2 : ℚ) ^ (expo x + 53) ≤ 2 ^ (k + 52) := two_mono (by omega)
  linarith

theorem near_mult_expo (x : ℚ) (k : ℤ) (h : k ≤ expo x) : ∃ l : ℤ, near x = l * 2 ^ k := by
  refine ⟨roundEven (x / 2 ^ expo x) * 2 ^ (expo x - k).toNat, ?_⟩
  unfold near
  obtain ⟨d, hd⟩ : ∃ d : ℕ, expo x = k + d := ⟨(expo x - k).toNat, by omega⟩
  have : (expo x - k).toNat = d := by omega
  rw [this]
  push_cast
  generalize roundEven (x / 2 ^ expo x) = R
  rw [hd, two_add, zpow_natCast]; ring

/-- Between π and 64, subtracting 2π is exact. -/
theorem exact_step {x : ℚ} (hx : Rep x) (h1 : pi64 ≤ x) (h2 : x < 64) : Rep (x - 2 * pi64) := by
  obtain ⟨b1, b2⟩ := pi64_bounds
  have hx0 : 0 < x := by linarith
  have he : expo x ≤ -47 := expo_lt_of (by norm_num) (by rw [abs_of_pos hx0]; norm_num; linarith)
  obtain ⟨l, hl⟩ := near_mult_expo x (expo x) le_rfl
  rw [near_of_rep hx] at hl
  have hq := twoPi_mult
  obtain ⟨d, hd⟩ : ∃ d : ℕ, (-47 : ℤ) = expo x + d := ⟨(-47 - expo x).toNat, by omega⟩
  rw [hd, two_add, zpow_natCast] at hq
  refine rep_of_mult (l - 884279719003555 * 2 ^ d) (expo x) (expo_ge x) ?_ ?_
  · push_cast
    rw [hq]
    push_cast
    linear_combination hl
  · have := abs_lt_expo x
    rw [abs_of_pos hx0] at this
    rw [abs_le]
    constructor <;> linarith

/-- A step down from at most 2^56. -/
theorem step_down {x : ℚ} (hx : Rep x) (h1 : pi64 < x) (h2 : x ≤ 2 ^ 56) :
    near (x - 2 * pi64) ≤ x - 2 ∧ -pi64 < near (x - 2 * pi64) ∧ |near (x - 2 * pi64)| ≤ 2 ^ 56 := by
  obtain ⟨b1, b2⟩ := pi64_bounds
  have he : expo (x - 2 * pi64) ≤ 3 := by
    apply expo_lt_of (by norm_num)
    rw [abs_lt]
    norm_num at h2 ⊢
    constructor <;> linarith
  have h3 := near_err (x - 2 * pi64)
  have h4 : (2 : ℚ) ^ expo (x - 2 * pi64) ≤ 2 ^ (3 : ℤ) := two_mono he
  have h5 : (2 : ℚ) ^ (3 : ℤ) = 8 := by norm_num
  have h6 := abs_le.mp h3
  have key : -pi64 < near (x - 2 * pi64) := by
    rcases lt_or_ge x 64 with h | h
    · rw [near_of_rep (exact_step hx h1.le h)]; linarith
    · have := near_nonneg (show 0 ≤ x - 2 * pi64 by linarith)
      linarith
  refine ⟨by linarith, key, ?_⟩
  rw [abs_le]
  norm_num at h2 ⊢
  constructor <;> linarith

/-- The same upwards, from below zero. -/
theorem step_up {x : ℚ} (h1 : x < 0) (h2 : -2 ^ 56 ≤ x) :
    x + 2 ≤ near (x + 2 * pi64) ∧ near (x + 2 * pi64) ≤ 2 * pi64 ∧ |near (x + 2 * pi64)| ≤ 2 ^ 56 := by
  obtain ⟨b1, b2⟩ := pi64_bounds
  have he : expo (x + 2 * pi64) ≤ 3 := by
    apply expo_lt_of (by norm_num)
    rw [abs_lt]
    norm_num at h2 ⊢
    constructor <;> linarith
  have h3 := near_err (x + 2 * pi64)
  have h4 : (2 : ℚ) ^ expo (x + 2 * pi64) ≤ 2 ^ (3 : ℤ) := two_mono he
  have h5 : (2 : ℚ) ^ (3 : ℤ) = 8 := by norm_num
  have h6 := abs_le.mp h3
  have key : near (x + 2 * pi64) ≤ 2 * pi64 := by
    have := near_mono (show x + 2 * pi64 ≤ 2 * pi64 by linarith)
    rwa [near_of_rep twoPi_rep] at this
  refine ⟨by linarith, key, ?_⟩
  rw [abs_le]
  norm_num at h2 ⊢
  constructor <;> linarith

/-- Above 2^56 a step has no effect. -/
theorem step_stuck {x : ℚ} (hx : Rep x) (h : 2 ^ 56 < x) : near (x - 2 * pi64) = x := by
  obtain ⟨b1, b2⟩ := pi64_bounds
  have hx0 : 0 < x := lt_trans (by norm_num) h
  have e1 : 4 ≤ expo x := expo_gt_of (by rw [abs_of_pos hx0]; norm_num at h ⊢; linarith)
  obtain ⟨l, hl⟩ := near_mult_expo x 4 e1
  rw [near_of_rep hx] at hl
  have h16 : (2 : ℚ) ^ (4 : ℤ) = 16 := by norm_num
  rw [h16] at hl
  have hl2 : (2 ^ 52 : ℤ) < l := by
    have : ((2 ^ 52 : ℤ) : ℚ) < l := by push_cast; norm_num at h ⊢; linarith
    exact_mod_cast this
  have hl3 : (2 ^ 52 + 1 : ℤ) ≤ l := by omega
  have hl4 : ((2 ^ 52 + 1 : ℤ) : ℚ) ≤ l := by exact_mod_cast hl3
  push_cast at hl4
  have hy : 2 ^ 56 < x - 2 * pi64 := by rw [hl]; norm_num at hl4 ⊢; linarith
  have hy0 : 0 < x - 2 * pi64 := lt_trans (by norm_num) hy
  have e2 : 4 ≤ expo (x - 2 * pi64) := expo_gt_of (by rw [abs_of_pos hy0]; norm_num at hy ⊢; linarith)
  obtain ⟨k, hk⟩ := near_mult_expo (x - 2 * pi64) 4 e2
  rw [h16] at hk
  have hn := near_nearest (x - 2 * pi64) x hx
  rw [show x - 2 * pi64 - x = -(2 * pi64) by ring, abs_neg, abs_of_pos (show 0 < 2 * pi64 by linarith)] at hn
  have hn' := abs_le.mp hn
  rw [hk] at hn' ⊢
  rw [hl] at hn' ⊢
  have q1 : (k : ℚ) < l + 1 := by linarith
  have q2 : (l : ℚ) < k + 1 := by linarith
  have q1' : k < l + 1 := by exact_mod_cast q1
  have q2' : l < k + 1 := by exact_mod_cast q2
  have : k = l := by omega
  rw [this]

/-! ## Loops -/

variable [FltTrig (B64 sq hy)]

theorem lit64_two : (lit 2 : B64 sq hy) = Fl.fin 2 := rnd_of_f64 ⟨⟨2, 0, by norm_num, by norm_num, by norm_num⟩, lt_2_1024 (by norm_num [abs_of_pos])⟩

theorem twoPi64 (hpi : (Angle.pi : B64 sq hy) = Fl.fin pi64) : (Angle.twoPi : B64 sq hy) = Fl.fin (2 * pi64) := by
  obtain ⟨b1, b2⟩ := pi64_bounds
  unfold Angle.twoPi
  rw [hpi, lit64_two]
  exact rnd_of_f64 ⟨twoPi_rep, lt_2_1024 (by rw [abs_of_pos (by linarith)]; norm_num; linarith)⟩

theorem down_loop (hpi : (Angle.pi : B64 sq hy) = Fl.fin pi64) (c : B64 sq hy → Bool) (hc : ∀ x, c (Fl.fin x) = true → pi64 < x) (n : Nat) :
    ∀ x, Rep x → x ≤ 2 ^ 56 → x ≤ pi64 + 2 * n → ∃ f r, whileFuel c (fun a => a -. Angle.twoPi) f (Fl.fin x) = some (Fl.fin r) ∧ Rep r ∧
      c (Fl.fin r) = false ∧ (r = x ∨ ∃ x', c (Fl.fin x') = true ∧ -pi64 < near (x' - 2 * pi64) ∧ r = near (x' - 2 * pi64)) ∧
      (x < 64 → ∃ k : ℤ, r = x - k * (2 * pi64)) := by
  induction n with
  | zero =>
    intro x hx _ h
    have hcx : c (Fl.fin x) = false := by
      cases hh : c (Fl.fin x) with
      | false => rfl
      | true => have := hc x hh; simp at h; linarith
    exact ⟨1, x, whileFuel_skip _ _ _ hcx 0, hx, hcx, Or.inl rfl, fun _ => ⟨0, by simp⟩⟩
  | succ n ih =>
    intro x hx hb h
    cases hh : c (Fl.fin x) with
    | false => exact ⟨1, x, whileFuel_skip _ _ _ hh 0, hx, hh, Or.inl rfl, fun _ => ⟨0, by simp⟩⟩
    | true =>
      have h1 := hc x hh
      obtain ⟨s1, s2, s3⟩ := step_down hx h1 hb
      obtain ⟨f, r, i1, i2, i3, i4, i5⟩ := ih (near (x - 2 * pi64)) (near_rep _) (by linarith) (by push_cast at h; linarith)
      refine ⟨f + 1, r, ?_, i2, i3, ?_, ?_⟩
      · unfold whileFuel
        rw [if_pos hh, twoPi64 hpi]
        rw [twoPi64 hpi] at i1
        have : (Fl.fin x : B64 sq hy) -. Fl.fin (2 * pi64) = Fl.fin (near (x - 2 * pi64)) := by
          rw [fl_sub_fin]; exact rnd_near s3
        rw [this]; exact i1
      · rcases i4 with rfl | i4
        · exact Or.inr ⟨x, hh, s2, rfl⟩
        · exact Or.inr i4
      · intro h64
        have hex := near_of_rep (exact_step hx h1.le h64)
        rw [hex] at i5
        obtain ⟨b1, b2⟩ := pi64_bounds
        obtain ⟨k, hk⟩ := i5 (by linarith)
        exact ⟨k + 1, by rw [hk]; push_cast; ring⟩

theorem up_loop (hpi : (Angle.pi : B64 sq hy) = Fl.fin pi64) (c : B64 sq hy → Bool) (hc : ∀ x, c (Fl.fin x) = true → x < 0) (n : Nat) :
    ∀ x, Rep x → -2 ^ 56 ≤ x → -(2 * n) ≤ x → ∃ f r, whileFuel c (fun a => a +. Angle.twoPi) f (Fl.fin x) = some (Fl.fin r) ∧ Rep r ∧
      c (Fl.fin r) = false ∧ (r = x ∨ ∃ x', Rep x' ∧ c (Fl.fin x') = true ∧ -2 ^ 56 ≤ x' ∧ r = near (x' + 2 * pi64)) ∧
      (-64 < x → (∃ k : ℤ, r = near (x + k * (2 * pi64))) ∧ ((∀ x, c (Fl.fin x) = true → x ≤ -pi64) → ∃ k : ℤ, r = x + k * (2 * pi64))) := by
  induction n with
  | zero =>
    intro x hx _ h
    have hcx : c (Fl.fin x) = false := by
      cases hh : c (Fl.fin x) with
      | false => rfl
      | true => have := hc x hh; simp at h; linarith
    exact ⟨1, x, whileFuel_skip _ _ _ hcx 0, hx, hcx, Or.inl rfl, fun _ => ⟨⟨0, by simp [near_of_rep hx]⟩, fun _ => ⟨0, by simp⟩⟩⟩
  | succ n ih =>
    intro x hx hb h
    cases hh : c (Fl.fin x) with
    | false => exact ⟨1, x, whileFuel_skip _ _ _ hh 0, hx, hh, Or.inl rfl, fun _ => ⟨⟨0, by simp [near_of_rep hx]⟩, fun _ => ⟨0, by simp⟩⟩⟩
    | true =>
      have h1 := hc x hh
      obtain ⟨s1, s2, s3⟩ := step_up h1 hb
      obtain ⟨b1, b2⟩ := pi64_bounds
      have hst : (Fl.fin x : B64 sq hy) +. Angle.twoPi = Fl.fin (near (x + 2 * pi64)) := by
        rw [twoPi64 hpi, fl_add_fin]; exact rnd_near s3
      obtain ⟨f, r, i1, i2, i3, i4, i5⟩ := ih (near (x + 2 * pi64)) (near_rep _) (by linarith) (by push_cast at h; linarith)
      refine ⟨f + 1, r, ?_, i2, i3, ?_, ?_⟩
      · unfold whileFuel
        rw [if_pos hh, hst]; exact i1
      · rcases i4 with rfl | i4
        · exact Or.inr ⟨x, hx, hh, hb, rfl⟩
        · exact Or.inr i4
      · intro h64
        rcases le_or_gt x (-pi64) with hle | hgt
        · have hex : Rep (x + 2 * pi64) := by
            have := (exact_step hx.neg (by linarith) (by linarith)).neg
            rwa [show -(-x - 2 * pi64) = x + 2 * pi64 by ring] at this
          rw [near_of_rep hex] at i5
          obtain ⟨⟨k, hk⟩, i6⟩ := i5 (by linarith)
          refine ⟨⟨k + 1, by rw [hk]; congr 1; push_cast; ring⟩, fun hall => ?_⟩
          obtain ⟨k, hk⟩ := i6 hall
          exact ⟨k + 1, by rw [hk]; push_cast; ring⟩
        · have hpos := near_nonneg (show 0 ≤ x + 2 * pi64 by linarith)
          have hcf : c (Fl.fin (near (x + 2 * pi64))) = false := by
            cases hh2 : c (Fl.fin (near (x + 2 * pi64))) with
            | false => rfl
            | true => have := hc _ hh2; linarith
          have hr : r = near (x + 2 * pi64) := by
            cases f with
            | zero => simp [whileFuel] at i1
            | succ f =>
              rw [whileFuel_skip _ _ _ hcf] at i1
              injection i1 with i1
              exact (fin_inj i1).symm
          refine ⟨⟨1, by rw [hr]; congr 1; push_cast; ring⟩, fun hall => ?_⟩
          have := hall x hh
          linarith

/-! ## Theorems -/

/-- `normalize` ends for every finite angle up to 2^56 in size, with a double in `(-π, π]`; up to 64 in size the result differs from the
angle by exactly a whole number of (the double) 2π. -/
theorem C83_normalize (hpi : (Angle.pi : B64 sq hy) = Fl.fin pi64) (a : ℚ) (ha : IsF64 a) (hb : |a| ≤ 2 ^ 56) :
    ∃ f r, (∀ g, f ≤ g → Angle.normalize g (Fl.fin a : B64 sq hy) = some (Fl.fin r)) ∧ IsF64 r ∧ -pi64 < r ∧ r ≤ pi64 ∧
      (|a| < 64 → ∃ k : ℤ, r = a - k * (2 * pi64)) := by
  obtain ⟨b1, b2⟩ := pi64_bounds
  have hab := abs_le.mp hb
  have hneg : (-.(Angle.pi : B64 sq hy)) = Fl.fin (-pi64) := by rw [hpi]; rfl
  obtain ⟨f1, r1, d1, d2, d3, d4, d5⟩ := down_loop hpi (fun a : B64 sq hy => a >. Angle.pi)
    (fun x h => by rw [hpi] at h; exact of_decide_eq_true h) ⌈a⌉.toNat a ha.1 hab.2 (by
      have := Int.le_ceil a
      have h2 : (⌈a⌉ : ℚ) ≤ (⌈a⌉.toNat : ℚ) := by exact_mod_cast Int.self_le_toNat ⌈a⌉
      have h3 : (0 : ℚ) ≤ (⌈a⌉.toNat : ℚ) := by positivity
      linarith)
  have hr1 : r1 ≤ pi64 := by
    simp only [hpi] at d3
    exact not_lt.mp (of_decide_eq_false d3)
  have hr1b : -2 ^ 56 ≤ r1 ∧ (-64 < a → -64 < r1) := by
    rcases d4 with rfl | ⟨x', _, h, rfl⟩
    · exact ⟨hab.1, id⟩
    · refine ⟨?_, fun _ => by linarith⟩
      norm_num; linarith
  obtain ⟨f2, r, u1, u2, u3, u4, u5⟩ := up_loop hpi (fun a : B64 sq hy => a ≤. -.Angle.pi)
    (fun x h => by rw [hneg] at h; have : x ≤ -pi64 := of_decide_eq_true h; linarith) ⌈-r1⌉.toNat r1 d2 hr1b.1 (by
      have := Int.le_ceil (-r1)
      have h2 : (⌈-r1⌉ : ℚ) ≤ (⌈-r1⌉.toNat : ℚ) := by exact_mod_cast Int.self_le_toNat ⌈-r1⌉
      have h3 : (0 : ℚ) ≤ (⌈-r1⌉.toNat : ℚ) := by positivity
      linarith)
  have hlo : -pi64 < r := by
    simp only [hneg] at u3
    exact not_le.mp (of_decide_eq_false u3)
  have hhi : r ≤ pi64 := by
    rcases u4 with rfl | ⟨x', x1, x2, x3, rfl⟩
    · exact hr1
    · simp only [hneg] at x2
      have x2' : x' ≤ -pi64 := of_decide_eq_true x2
      have := near_mono (show x' + 2 * pi64 ≤ pi64 by linarith)
      rwa [near_of_rep pi64_rep] at this
  refine ⟨max f1 f2, r, ?_, ⟨u2, ?_⟩, hlo, hhi, ?_⟩
  · intro g hg
    unfold Angle.normalize
    rw [whileFuel_mono _ _ _ f1 g (by omega) _ d1]
    exact whileFuel_mono _ _ _ f2 g (by omega) _ u1
  · exact lt_2_1024 (by rw [abs_le]; norm_num; constructor <;> linarith)
  · intro h64
    have h64' := abs_lt.mp h64
    obtain ⟨k, hk⟩ := d5 h64'.2
    obtain ⟨_, u6⟩ := u5 (hr1b.2 h64'.1)
    obtain ⟨l, hl⟩ := u6 (fun x h => by rw [hneg] at h; exact of_decide_eq_true h)
    exact ⟨k - l, by rw [hl, hk]; push_cast; ring⟩

/-- `normalize_positive` ends for every finite angle up to 2^56 in size, with a double in `[0, 2π)`; up to 64 in size the result differs
from the angle by a whole number of 2π, exactly for angles that are not negative and up to 2^-51 for the others. -/
theorem C83_normalize_positive (hpi : (Angle.pi : B64 sq hy) = Fl.fin pi64) (a : ℚ) (ha : IsF64 a) (hb : |a| ≤ 2 ^ 56) :
    ∃ f r, (∀ g, f ≤ g → Angle.normalizePositive g (Fl.fin a : B64 sq hy) = some (Fl.fin r)) ∧ IsF64 r ∧ 0 ≤ r ∧ r < 2 * pi64 ∧
      (0 ≤ a → a < 64 → ∃ k : ℤ, r = a - k * (2 * pi64)) ∧ (-64 < a → a < 0 → ∃ k : ℤ, |r - (a + k * (2 * pi64))| ≤ 2 ^ (-51 : ℤ)) := by
  obtain ⟨b1, b2⟩ := pi64_bounds
  have hab := abs_le.mp hb
  have small : ∀ {r : ℚ}, Rep r → 0 ≤ r → r < 2 * pi64 → IsF64 r := by
    intro r h1 h2 h3
    exact ⟨h1, lt_2_1024 (by rw [abs_le]; norm_num; constructor <;> linarith)⟩
  rcases lt_or_ge a 0 with h0 | h0
  · obtain ⟨f, r, u1, u2, u3, u4, u5⟩ := up_loop hpi (fun a : B64 sq hy => a <. lit 0)
      (fun x h => by rw [lit64] at h; exact of_decide_eq_true h) ⌈-a⌉.toNat a ha.1 hab.1 (by
        have := Int.le_ceil (-a)
        have h2 : (⌈-a⌉ : ℚ) ≤ (⌈-a⌉.toNat : ℚ) := by exact_mod_cast Int.self_le_toNat ⌈-a⌉
        have h3 : (0 : ℚ) ≤ (⌈-a⌉.toNat : ℚ) := by positivity
        linarith)
    have hr0 : 0 ≤ r := by
      simp only [lit64] at u3
      exact not_lt.mp (of_decide_eq_false u3)
    have hr2 : r ≤ 2 * pi64 := by
      rcases u4 with rfl | ⟨x', x1, x2, x3, rfl⟩
      · linarith
      · simp only [lit64] at x2
        have x2' : x' < 0 := of_decide_eq_true x2
        exact (step_up x2' x3).2.1
    have herr : ∀ k : ℤ, r = near (a + k * (2 * pi64)) → |r - (a + k * (2 * pi64))| ≤ 2 ^ (-51 : ℤ) := by
      intro k hk
      set t := a + k * (2 * pi64)
      have t1 : t < 8 := by
        by_contra hc; push Not at hc
        have := near_mono hc
        rw [near_of_rep (⟨8, 0, by norm_num, by norm_num, by norm_num⟩ : Rep 8)] at this
        linarith
      have t2 : -8 < t := by
        by_contra hc; push Not at hc
        have := near_mono hc
        rw [near_of_rep (⟨-8, 0, by norm_num, by norm_num, by norm_num⟩ : Rep (-8))] at this
        linarith
      have he : expo t ≤ -50 := expo_lt_of (by norm_num) (by rw [abs_lt]; norm_num; exact ⟨by linarith, t1⟩)
      have := near_err t
      have h2 : (2 : ℚ) ^ expo t ≤ 2 ^ (-50 : ℤ) := two_mono he
      have h3 : (2 : ℚ) ^ (-50 : ℤ) = 2 * 2 ^ (-51 : ℤ) := by norm_num [zpow_neg]
      rw [abs_sub_comm, hk]; linarith
    have run : ∀ g, f ≤ g → Angle.normalizePositive g (Fl.fin a : B64 sq hy) = some (if (Fl.fin r : B64 sq hy) ≥. Angle.twoPi then lit 0 else Fl.fin r) := by
      intro g hg
      unfold Angle.normalizePositive
      rw [if_pos (by rw [lit64]; exact decide_eq_true h0), whileFuel_mono _ _ _ f g hg _ u1]
      rfl
    rw [twoPi64 hpi] at run
    have hge : ((Fl.fin r : B64 sq hy) ≥. Fl.fin (2 * pi64)) = decide (2 * pi64 ≤ r) := rfl
    rw [hge] at run
    rcases eq_or_lt_of_le hr2 with he | hlt
    · refine ⟨f, 0, fun g hg => ?_, ⟨rep_zero, by rw [abs_zero]; positivity⟩, le_rfl, by linarith, fun h => by linarith, fun h64 _ => ?_⟩
      · rw [run g hg, if_pos (by rw [he]; exact decide_eq_true le_rfl), lit64]
      · obtain ⟨⟨k, hk⟩, _⟩ := u5 h64
        refine ⟨k - 1, ?_⟩
        have := herr k hk
        rw [he] at this
        push_cast
        rwa [show 0 - (a + (k - 1) * (2 * pi64)) = 2 * pi64 - (a + k * (2 * pi64)) by ring]
    · refine ⟨f, r, fun g hg => ?_, small u2 hr0 hlt, hr0, hlt, fun h => by linarith, fun h64 _ => ?_⟩
      · rw [run g hg, if_neg (by rw [decide_eq_true_iff, not_le]; exact hlt)]
      · obtain ⟨⟨k, hk⟩, _⟩ := u5 h64
        exact ⟨k, herr k hk⟩
  · have hq := twoPi64 hpi
    obtain ⟨f, r, d1, d2, d3, d4, d5⟩ := down_loop hpi (fun a : B64 sq hy => a ≥. Angle.twoPi)
      (fun x h => by rw [hq] at h; have : 2 * pi64 ≤ x := of_decide_eq_true h; linarith) ⌈a⌉.toNat a ha.1 hab.2 (by
        have := Int.le_ceil a
        have h2 : (⌈a⌉ : ℚ) ≤ (⌈a⌉.toNat : ℚ) := by exact_mod_cast Int.self_le_toNat ⌈a⌉
        have h3 : (0 : ℚ) ≤ (⌈a⌉.toNat : ℚ) := by positivity
        linarith)
    have hr2 : r < 2 * pi64 := by
      simp only [hq] at d3
      exact not_le.mp (of_decide_eq_false d3)
    have hr0 : 0 ≤ r := by
      rcases d4 with rfl | ⟨x', x1, x2, rfl⟩
      · exact h0
      · simp only [hq] at x1
        have : 2 * pi64 ≤ x' := of_decide_eq_true x1
        exact near_nonneg (by linarith)
    refine ⟨f, r, fun g hg => ?_, small d2 hr0 hr2, hr0, hr2, fun _ h64 => d5 h64, fun _ h => by linarith⟩
    unfold Angle.normalizePositive
    rw [if_neg (by rw [lit64]; exact fun h => absurd (of_decide_eq_true h) (not_lt.mpr h0)), whileFuel_mono _ _ _ f g hg _ d1]
    show some (if (Fl.fin r : B64 sq hy) <. lit 0 then lit 0 else Fl.fin r) = _
    have hlt : ((Fl.fin r : B64 sq hy) <. Fl.fin 0) = decide (r < 0) := rfl
    rw [lit64, hlt, if_neg (fun h => absurd (of_decide_eq_true h) (not_lt.mpr hr0))]

/-- Beyond 2^56 neither of them ends. -/
theorem C83_never_ends (hpi : (Angle.pi : B64 sq hy) = Fl.fin pi64) (a : ℚ) (ha : IsF64 a) (hb : 2 ^ 56 < |a|) (fuel : Nat) :
    Angle.normalize fuel (Fl.fin a : B64 sq hy) = none ∧ Angle.normalizePositive fuel (Fl.fin a : B64 sq hy) = none := by
  obtain ⟨b1, b2⟩ := pi64_bounds
  have hq := twoPi64 hpi
  have hneg : (-.(Angle.pi : B64 sq hy)) = Fl.fin (-pi64) := by rw [hpi]; rfl
  rcases lt_or_ge a 0 with h0 | h0
  · rw [abs_of_neg h0] at hb
    have hst : (Fl.fin a : B64 sq hy) +. Angle.twoPi = Fl.fin a := by
      rw [hq, fl_add_fin]
      have h1 := step_stuck ha.1.neg hb
      have h2 : near (a + 2 * pi64) = a := by
        have := near_neg (-a - 2 * pi64)
        rw [h1] at this
        rw [show a + 2 * pi64 = -(-a - 2 * pi64) by ring, this, neg_neg]
      exact (rnd_fin_iff _ _).mpr ⟨h2, ha.2⟩
    have hbig : a < -8 := by norm_num at hb; linarith
    refine ⟨?_, ((C43_diverges _ fuel).2.2 (by rw [lit64]; exact decide_eq_true h0) hst)⟩
    unfold Angle.normalize
    cases fuel with
    | zero => rfl
    | succ n =>
      rw [whileFuel_skip _ _ _ (by rw [hpi]; exact decide_eq_false (by linarith))]
      exact whileFuel_stuck _ _ _ (by rw [hneg]; exact decide_eq_true (by linarith)) hst _
  · rw [abs_of_nonneg h0] at hb
    have hst : (Fl.fin a : B64 sq hy) -. Angle.twoPi = Fl.fin a := by
      rw [hq, fl_sub_fin]
      exact (rnd_fin_iff _ _).mpr ⟨step_stuck ha.1 hb, ha.2⟩
    have hbig : 8 < a := by norm_num at hb; linarith
    exact ⟨(C43_diverges _ fuel).1 (by rw [hpi]; exact decide_eq_true (by linarith)) hst,
      (C43_diverges _ fuel).2.1 (by rw [lit64]; exact decide_eq_false (not_lt.mpr h0)) (by rw [hq]; exact decide_eq_true (by linarith)) hst⟩

/-- Angles in range are returned as they are, and so is NaN. -/
theorem C83_fixed (hpi : (Angle.pi : B64 sq hy) = Fl.fin pi64) (n : Nat) :
    (∀ a : ℚ, -pi64 < a → a ≤ pi64 → Angle.normalize (n + 1) (Fl.fin a : B64 sq hy) = some (Fl.fin a)) ∧
    (∀ a : ℚ, 0 ≤ a → a < 2 * pi64 → Angle.normalizePositive (n + 1) (Fl.fin a : B64 sq hy) = some (Fl.fin a)) ∧
    Angle.normalize (n + 1) (Flt.nan : B64 sq hy) = some Flt.nan ∧ Angle.normalizePositive (n + 1) (Flt.nan : B64 sq hy) = some Flt.nan := by
  have hq := twoPi64 hpi
  have hneg : (-.(Angle.pi : B64 sq hy)) = Fl.fin (-pi64) := by rw [hpi]; rfl
  refine ⟨fun a h1 h2 => ?_, fun a h1 h2 => ?_, ?_, ?_⟩
  · unfold Angle.normalize
    rw [whileFuel_skip _ _ _ (by rw [hpi]; exact decide_eq_false (not_lt.mpr h2))]
    show whileFuel (fun a : B64 sq hy => a ≤. -.Angle.pi) _ (n + 1) _ = _
    rw [whileFuel_skip _ _ _ (by rw [hneg]; exact decide_eq_false (not_le.mpr h1))]
  · have h0 : ((Fl.fin a : B64 sq hy) <. lit 0) = false := by rw [lit64]; exact decide_eq_false (not_lt.mpr h1)
    unfold Angle.normalizePositive
    rw [if_neg (by rw [h0]; simp), whileFuel_skip _ _ _ (by rw [hq]; exact decide_eq_false (not_le.mpr h2))]
    show some (if (Fl.fin a : B64 sq hy) <. lit 0 then lit 0 else Fl.fin a) = _
    rw [if_neg (by rw [h0]; simp)]
  · unfold Angle.normalize
    rw [whileFuel_skip _ _ _ (by rw [hpi]; rfl)]
    show whileFuel (fun a : B64 sq hy => a ≤. -.Angle.pi) (fun a => a +. Angle.twoPi) (n + 1) Flt.nan = _
    rw [whileFuel_skip _ _ _ (by rw [hneg]; rfl)]
  · have h0 : ((Flt.nan : B64 sq hy) <. lit 0) = false := by rw [lit64]; rfl
    unfold Angle.normalizePositive
    rw [if_neg (by rw [h0]; simp), whileFuel_skip _ _ _ (by rw [hq]; rfl)]
    show some (if (Flt.nan : B64 sq hy) <. lit 0 then lit 0 else Flt.nan) = _
    rw [if_neg (by rw [h0]; simp)]

/-- The difference of two angles in `[-π, π]` as rounded. -/
theorem turn_err {x : ℚ} (h : |x| ≤ 2 * pi64) : |near x - x| ≤ 2 ^ (-51 : ℤ) ∧ |near x| ≤ 2 * pi64 := by
  obtain ⟨b1, b2⟩ := pi64_bounds
  have he : expo x ≤ -50 := expo_lt_of (by norm_num) (by norm_num; linarith)
  have h1 := near_err x
  have h2 : (2 : ℚ) ^ expo x ≤ 2 ^ (-50 : ℤ) := two_mono he
  have h3 : (2 : ℚ) ^ (-50 : ℤ) = 2 * 2 ^ (-51 : ℤ) := by norm_num [zpow_neg]
  refine ⟨by rw [abs_sub_comm]; linarith, ?_⟩
  have h4 := abs_le.mp h
  have h5 := near_mono h4.1
  have h6 := near_mono h4.2
  rw [near_neg] at h5
  rw [near_of_rep twoPi_rep] at h5 h6
  exact abs_le.mpr ⟨h5, h6⟩

theorem turn_small {x : ℚ} (h : |x| ≤ 2 * pi64) : |x| ≤ 2 ^ 56 := by
  obtain ⟨b1, b2⟩ := pi64_bounds
  norm_num; linarith

/-- `diff` is symmetric for all doubles, NaN and infinities. For angles in `[-π, π]` it is in `[0, π]` and within 2^-51 of the lesser of
the two turns between them. -/
theorem C83_diff (hpi : (Angle.pi : B64 sq hy) = Fl.fin pi64) :
    (∀ x y : B64 sq hy, Angle.diff x y = Angle.diff y x) ∧
    ∀ a b : ℚ, |a| ≤ pi64 → |b| ≤ pi64 → ∃ d, Angle.diff (Fl.fin a : B64 sq hy) (Fl.fin b) = Fl.fin d ∧ 0 ≤ d ∧ d ≤ pi64 ∧
      |d - min |a - b| (2 * pi64 - |a - b|)| ≤ 2 ^ (-51 : ℤ) := by
  obtain ⟨b1, b2⟩ := pi64_bounds
  refine ⟨fun x y => ?_, fun a b ha hb => ?_⟩
  · have key : (if x <. y then y -. x else x -. y) = (if y <. x then x -. y else y -. x) := by
      cases x with
      | nan => cases y <;> rfl
      | ninf => cases y <;> rfl
      | pinf => cases y <;> rfl
      | fin a =>
        cases y with
        | nan => rfl
        | ninf => rfl
        | pinf => rfl
        | fin b =>
          have e1 : ((Fl.fin a : B64 sq hy) <. Fl.fin b) = decide (a < b) := rfl
          have e2 : ((Fl.fin b : B64 sq hy) <. Fl.fin a) = decide (b < a) := rfl
          change (if (Fl.fin a : B64 sq hy) <. Fl.fin b then (Fl.fin b : B64 sq hy) -. Fl.fin a else (Fl.fin a : B64 sq hy) -. Fl.fin b) =
            (if (Fl.fin b : B64 sq hy) <. Fl.fin a then (Fl.fin a : B64 sq hy) -. Fl.fin b else (Fl.fin b : B64 sq hy) -. Fl.fin a)
          rw [e1, e2]
          rcases lt_trichotomy a b with h | h | h
          · rw [decide_eq_true h, decide_eq_false (not_lt.mpr h.le)]; rfl
          · subst h; rfl
          · rw [decide_eq_true h, decide_eq_false (not_lt.mpr h.le)]; rfl
    unfold Angle.diff
    rw [key]
  · have hd : |a - b| ≤ 2 * pi64 := by have := abs_sub a b; linarith
    have hd' : |(|a - b|)| ≤ 2 * pi64 := by rw [abs_abs]; exact hd
    obtain ⟨t1, t2⟩ := turn_err hd'
    have t3 := near_nonneg (abs_nonneg (a - b))
    rw [abs_of_nonneg t3] at t2
    have hdel : (if (Fl.fin a : B64 sq hy) <. Fl.fin b then (Fl.fin b : B64 sq hy) -. Fl.fin a else (Fl.fin a : B64 sq hy) -. Fl.fin b) = Fl.fin (near |a - b|) := by
      have e1 : ((Fl.fin a : B64 sq hy) <. Fl.fin b) = decide (a < b) := rfl
      have hr : ∀ x : ℚ, |x| = |a - b| → (rnd x : Val) = .fin (near x) := by
        intro x hx
        apply rnd_near
        apply turn_small
        exact (turn_err (by rw [hx]; exact hd)).2
      rw [e1]
      rcases lt_or_ge a b with h | h
      · rw [if_pos (decide_eq_true h), fl_sub_fin, abs_of_neg (show a - b < 0 by linarith), neg_sub]
        exact hr _ (abs_sub_comm _ _)
      · rw [if_neg (by rw [decide_eq_true_iff, not_lt]; exact h), fl_sub_fin, abs_of_nonneg (show 0 ≤ a - b by linarith)]
        exact hr _ rfl
    unfold Angle.diff
    rw [hdel]
    simp only
    rw [hpi, twoPi64 hpi]
    have e2 : ((Fl.fin (near |a - b|) : B64 sq hy) >. Fl.fin pi64) = decide (pi64 < near |a - b|) := rfl
    rw [e2]
    have t1' := abs_le.mp t1
    rcases lt_or_ge pi64 (near |a - b|) with h | h
    · have hx : pi64 < |a - b| := by
        by_contra hc; push Not at hc
        have := near_mono hc
        rw [near_of_rep pi64_rep] at this
        linarith
      rw [if_pos (decide_eq_true h), fl_sub_fin]
      have hex : Rep (2 * pi64 - near |a - b|) := by
        have := (exact_step (near_rep |a - b|) h.le (by linarith)).neg
        rwa [neg_sub] at this
      have hr : (rnd (2 * pi64 - near |a - b|) : Val) = .fin (2 * pi64 - near |a - b|) :=
        rnd_of_f64 ⟨hex, lt_2_1024 (by rw [abs_le]; norm_num; constructor <;> linarith)⟩
      refine ⟨_, hr, by linarith, by linarith, ?_⟩
      rw [min_eq_right (by linarith), show 2 * pi64 - near |a - b| - (2 * pi64 - |a - b|) = -(near |a - b| - |a - b|) by ring, abs_neg]
      exact t1
    · rw [if_neg (by rw [decide_eq_true_iff, not_lt]; exact h)]
      refine ⟨_, rfl, t3, h, ?_⟩
      rcases le_or_gt |a - b| pi64 with hx | hx
      · rw [min_eq_left (by linarith)]; exact t1
      · have := near_mono hx.le
        rw [near_of_rep pi64_rep] at this
        rw [min_eq_right (by linarith), abs_le]
        constructor <;> linarith

/-- The oriented difference of angles in `[-π, π]` is in `(-π, π]` and within 2^-51 of the difference or of it with a full turn more or less. -/
theorem C83_oriented_diff (hpi : (Angle.pi : B64 sq hy) = Fl.fin pi64) (a b : ℚ) (ha : |a| ≤ pi64) (hb : |b| ≤ pi64) :
    ∃ d, Angle.orientedDiff (Fl.fin a : B64 sq hy) (Fl.fin b) = Fl.fin d ∧ IsF64 d ∧ -pi64 < d ∧ d ≤ pi64 ∧
      ∃ k : ℤ, |k| ≤ 1 ∧ |d - (b - a + k * (2 * pi64))| ≤ 2 ^ (-51 : ℤ) := by
  obtain ⟨b1, b2⟩ := pi64_bounds
  have hd : |b - a| ≤ 2 * pi64 := by have := abs_sub b a; linarith
  obtain ⟨t1, t2⟩ := turn_err hd
  have hdel : (Fl.fin b : B64 sq hy) -. Fl.fin a = Fl.fin (near (b - a)) := by rw [fl_sub_fin]; exact rnd_near (turn_small t2)
  have t2' := abs_le.mp t2
  have fit : ∀ x : ℚ, Rep x → |x| ≤ 2 * pi64 → IsF64 x := fun x h1 h2 => ⟨h1, lt_2_1024 (turn_small h2)⟩
  unfold Angle.orientedDiff
  rw [hdel]
  simp only
  have hneg : (-.(Angle.pi : B64 sq hy)) = Fl.fin (-pi64) := by rw [hpi]; rfl
  rw [hneg, hpi, twoPi64 hpi]
  have e1 : ((Fl.fin (near (b - a)) : B64 sq hy) ≤. Fl.fin (-pi64)) = decide (near (b - a) ≤ -pi64) := rfl
  have e2 : ((Fl.fin (near (b - a)) : B64 sq hy) >. Fl.fin pi64) = decide (pi64 < near (b - a)) := rfl
  rw [e1, e2]
  rcases le_or_gt (near (b - a)) (-pi64) with h | h
  · rw [if_pos (decide_eq_true h), fl_add_fin]
    have hex : Rep (near (b - a) + 2 * pi64) := by
      have := (exact_step (near_rep (b - a)).neg (by linarith) (by linarith)).neg
      rwa [show -(-near (b - a) - 2 * pi64) = near (b - a) + 2 * pi64 by ring] at this
    have hf := fit _ hex (by rw [abs_le]; constructor <;> linarith)
    refine ⟨_, rnd_of_f64 hf, hf, by linarith, by linarith, 1, by simp, ?_⟩
    rw [show near (b - a) + 2 * pi64 - (b - a + ((1 : ℤ) : ℚ) * (2 * pi64)) = near (b - a) - (b - a) by push_cast; ring]
    exact t1
  · rw [if_neg (by rw [decide_eq_true_iff, not_le]; exact h)]
    rcases lt_or_ge pi64 (near (b - a)) with h' | h'
    · rw [if_pos (decide_eq_true h'), fl_sub_fin]
      have hex := exact_step (near_rep (b - a)) h'.le (by linarith)
      have hf := fit _ hex (by rw [abs_le]; constructor <;> linarith)
      refine ⟨_, rnd_of_f64 hf, hf, by linarith, by linarith, -1, by simp, ?_⟩
      rw [show near (b - a) - 2 * pi64 - (b - a + ((-1 : ℤ) : ℚ) * (2 * pi64)) = near (b - a) - (b - a) by push_cast; ring]
      exact t1
    · rw [if_neg (by rw [decide_eq_true_iff, not_lt]; exact h')]
      refine ⟨_, rfl, fit _ (near_rep _) t2, h, h', 0, by simp, ?_⟩
      rw [show near (b - a) - (b - a + ((0 : ℤ) : ℚ) * (2 * pi64)) = near (b - a) - (b - a) by push_cast; ring]
      exact t1

/-- Whatever the library's `atan2`, if it answers with doubles in `[-π, π]`: the oriented angle is in `(-π, π]`, `angle_between` in `[0, π]`,
and `interior_angle` ends in `[0, 2π)`, within 2^-50 of a difference of the two directions, and `bisector` ends in `(-π, π]`. -/
theorem C83_between (hpi : (Angle.pi : B64 sq hy) = Fl.fin pi64) (p0 p1 p2 : Coord (B64 sq hy)) (a b : ℚ)
    (ha : Angle.angleCoordinates p1 p0 = Fl.fin a) (hb : Angle.angleCoordinates p1 p2 = Fl.fin b) (fa : IsF64 a) (ha' : |a| ≤ pi64) (hb' : |b| ≤ pi64) :
    (∃ d, Angle.angleBetween p0 p1 p2 = Fl.fin d ∧ 0 ≤ d ∧ d ≤ pi64) ∧
    (∃ d, Angle.angleBetweenOriented p0 p1 p2 = Fl.fin d ∧ -pi64 < d ∧ d ≤ pi64) ∧
    (∃ f d, (∀ g, f ≤ g → Angle.interiorAngle g p0 p1 p2 = some (Fl.fin d)) ∧ 0 ≤ d ∧ d < 2 * pi64 ∧
      ∃ k : ℤ, |d - (b - a + k * (2 * pi64))| ≤ 2 ^ (-50 : ℤ)) ∧
    ∃ f d, (∀ g, f ≤ g → Angle.bisector g p0 p1 p2 = some (Fl.fin d)) ∧ -pi64 < d ∧ d ≤ pi64 := by
  obtain ⟨b1, b2⟩ := pi64_bounds
  have hd : |b - a| ≤ 2 * pi64 := by have := abs_sub b a; linarith
  obtain ⟨t1, t2⟩ := turn_err hd
  refine ⟨?_, ?_, ?_, ?_⟩
  · unfold Angle.angleBetween
    rw [ha, hb]
    obtain ⟨d, d1, d2, d3, _⟩ := (C83_diff hpi).2 a b ha' hb'
    exact ⟨d, d1, d2, d3⟩
  · unfold Angle.angleBetweenOriented
    rw [ha, hb]
    obtain ⟨d, d1, _, d2, d3, _⟩ := C83_oriented_diff hpi a b ha' hb'
    exact ⟨d, d1, d2, d3⟩
  · unfold Angle.interiorAngle
    rw [ha, hb, fl_sub_fin]
    have hr : ((binary64 sq hy).rnd (b - a) : Val) = .fin (near (b - a)) := rnd_near (turn_small t2)
    rw [hr]
    obtain ⟨f, r, r1, r2, r3, r4, r5, r6⟩ := C83_normalize_positive hpi (near (b - a)) ⟨near_rep _, lt_2_1024 (turn_small t2)⟩ (turn_small t2)
    refine ⟨f, r, r1, r3, r4, ?_⟩
    have h50 : (2 : ℚ) ^ (-50 : ℤ) = 2 * 2 ^ (-51 : ℤ) := by norm_num [zpow_neg]
    have t2' := abs_le.mp t2
    have t1' := abs_le.mp t1
    have h51 := two_pos (-51)
    rcases lt_or_ge (near (b - a)) 0 with h | h
    · obtain ⟨k, hk⟩ := r6 (by linarith) h
      refine ⟨k, ?_⟩
      have hk' := abs_le.mp hk
      rw [h50, abs_le]
      constructor <;> linarith
    · obtain ⟨k, hk⟩ := r5 h (by linarith)
      refine ⟨-k, ?_⟩
      rw [h50, hk, abs_le]
      push_cast
      constructor <;> linarith
  · unfold Angle.bisector Angle.angleBetweenOriented
    rw [ha, hb]
    obtain ⟨d, d1, d0, d2, d3, _⟩ := C83_oriented_diff hpi a b ha' hb'
    rw [d1]
    simp only
    rw [lit64_two]
    have hdiv : (Fl.fin d : B64 sq hy) /. Fl.fin 2 = (binary64 sq hy).rnd (d / 2) := rfl
    have e1 := near_mono (show d / 2 ≤ pi64 by linarith)
    have e2 := near_mono (show -pi64 ≤ d / 2 by linarith)
    rw [near_neg] at e2
    rw [near_of_rep pi64_rep] at e1 e2
    have hr : ((binary64 sq hy).rnd (d / 2) : Val) = .fin (near (d / 2)) := rnd_near (by rw [abs_le]; norm_num; constructor <;> linarith)
    rw [hdiv, hr]
    have hs : |a + near (d / 2)| ≤ 2 * pi64 := by
      have ha'' := abs_le.mp ha'
      rw [abs_le]; constructor <;> linarith
    obtain ⟨_, s2⟩ := turn_err hs
    have hadd : (Fl.fin a : B64 sq hy) +. Fl.fin (near (d / 2)) = (binary64 sq hy).rnd (a + near (d / 2)) := rfl
    have hr2 : ((binary64 sq hy).rnd (a + near (d / 2)) : Val) = .fin (near (a + near (d / 2))) := rnd_near (turn_small s2)
    obtain ⟨f, r, r1, _, r3, r4, _⟩ := C83_normalize hpi (near (a + near (d / 2))) ⟨near_rep _, lt_2_1024 (turn_small s2)⟩ (turn_small s2)
    refine ⟨f, r, fun g hg => ?_, r3, r4⟩
    have := r1 g hg
    rw [← this]
    congr 1

/-- The constant is the double nearest to π: it is a double within half a unit in the last place. -/
theorem C83_pi : IsF64 pi64 ∧ |Real.pi - (pi64 : ℝ)| < 2 ^ (-52 : ℤ) ∧ expo pi64 = -51 := by
  obtain ⟨b1, b2⟩ := pi64_bounds
  refine ⟨⟨pi64_rep, lt_2_1024 (by rw [abs_of_pos (by linarith)]; norm_num; linarith)⟩, ?_, ?_⟩
  · have h1 := Real.pi_gt_d20
    have h2 := Real.pi_lt_d20
    unfold pi64
    rw [abs_lt]
    norm_num at h1 h2 ⊢
    constructor <;> linarith
  · apply le_antisymm
    · exact expo_lt_of (by norm_num) (by rw [abs_of_pos (by linarith)]; norm_num; linarith)
    · exact expo_gt_of (by rw [abs_of_pos (by linarith)]; norm_num; linarith)

/-! ## Examples -/

section examples
/-- A library whose π is the double. -/
local instance trig64 : FltTrig X64 := ⟨Fl.fin pi64, id, id, fun _ _ => Fl.fin 1⟩

/-- The hypotheses of the theorems are met, and a normalisation runs. -/
example : (Angle.pi : X64) = Fl.fin pi64 ∧ Angle.normalize 5 (Fl.fin 10 : X64) = some (Fl.fin (10 - 2 * (2 * pi64))) ∧
    Angle.normalizePositive 5 (Fl.fin (-10) : X64) = some (Fl.fin (-10 + 2 * (2 * pi64))) := by
  refine ⟨rfl, ?_, ?_⟩ <;> decide +kernel

/-- A tiny negative angle rounds to a full turn, and is set to zero. -/
example : Angle.normalizePositive 5 (Fl.fin (-2 ^ (-200 : ℤ)) : X64) = some (Fl.fin 0) ∧ IsF64 (-2 ^ (-200 : ℤ)) := by
  refine ⟨by decide +kernel, f64_of (by decide +kernel)⟩

/-- The least double beyond the bound is a case of `C83_never_ends`, the bound itself of `C83_normalize`. -/
example : IsF64 (2 ^ 56 + 16) ∧ (2 : ℚ) ^ 56 < |2 ^ 56 + 16| ∧ IsF64 (2 ^ 56) ∧ |(2 : ℚ) ^ 56| ≤ 2 ^ 56 :=
  ⟨f64_of (by decide +kernel), by norm_num [abs_of_pos], f64_of (by decide +kernel), by norm_num [abs_of_pos]⟩

/-- Points whose directions meet the hypotheses of `C83_between`. -/
example : Angle.angleCoordinates (⟨Fl.fin 0, Fl.fin 0, Fl.fin 0, Fl.fin 0⟩ : Coord X64) ⟨Fl.fin 1, Fl.fin 2, Fl.fin 0, Fl.fin 0⟩ = Fl.fin 1 ∧ |(1 : ℚ)| ≤ pi64 ∧
    Angle.diff (Fl.fin 3 : X64) (Fl.fin (-3)) = Fl.fin (2 * pi64 - 6) := by
  refine ⟨rfl, ?_, by decide +kernel⟩
  have := pi64_bounds.1
  norm_num; linarith

end examples

end Verif.Props
