import Verif.Model.Orientation
import Verif.Spec.Plane
import Verif.Lemmas.Binary64
import Mathlib.Tactic.LinearCombination

/-! # C30: the floating point filter of the orientation test in binary64 -/

namespace Verif.Props
open Flt Verif.Spec Verif.Binary64

/-! ## Finite operands -/

section ops
variable {r : Rounding}

theorem fl_add_fin (a b : ℚ) : (Fl.fin a : Fl r) +. Fl.fin b = r.rnd (a + b) := rfl
theorem fl_sub_fin (a b : ℚ) : (Fl.fin a : Fl r) -. Fl.fin b = r.rnd (a - b) := by rw [sub_eq_add_neg]; rfl
theorem fl_mul_fin (a b : ℚ) : (Fl.fin a : Fl r) *. Fl.fin b = r.rnd (a * b) := rfl

theorem fl_mul_inv {x y : Fl r} {v : ℚ} (h : x *. y = Fl.fin v) : ∃ a b, x = Fl.fin a ∧ y = Fl.fin b ∧ r.rnd (a * b) = .fin v := by
  change Fl.mul x y = Fl.fin v at h
  cases x <;> cases y <;> simp only [Fl.mul, Fl.infOf] at h <;> first
    | exact ⟨_, _, rfl, rfl, h⟩
    | (exfalso; revert h; split_ifs <;> intro h <;> cases h)
    | cases h

theorem fl_sub_inv {x y : Fl r} {v : ℚ} (h : x -. y = Fl.fin v) : ∃ a b, x = Fl.fin a ∧ y = Fl.fin b ∧ r.rnd (a - b) = .fin v := by
  change Fl.add x (Fl.neg y) = Fl.fin v at h
  cases x <;> cases y <;> simp only [Fl.add, Fl.neg] at h <;> first
    | exact ⟨_, _, rfl, rfl, by rw [sub_eq_add_neg]; exact h⟩
    | cases h

end ops

/-! ## Errors -/

theorem prod_err (a a' b b' p : ℚ) (ha : |a - a'| ≤ |a| / 2 ^ 53) (hb : |b - b'| ≤ |b| / 2 ^ 53)
    (hp : |a' * b' - p| ≤ |a' * b'| / 2 ^ 53) : |a * b - p| ≤ 4 * |p| / 2 ^ 53 := by
  have h1 : |a * b - a' * b'| ≤ |a - a'| * |b| + |a'| * |b - b'| := by
    have : a * b - a' * b' = (a - a') * b + a' * (b - b') := by ring
    rw [this, ← abs_mul, ← abs_mul]; exact abs_add_le _ _
  have h2 : |a'| ≤ |a| + |a| / 2 ^ 53 := by
    have := abs_sub_abs_le_abs_sub a' a
    rw [abs_sub_comm a' a] at this; linarith
  have h3 : |a' * b'| ≤ |a * b| + |a * b - a' * b'| := by
    have := abs_sub_abs_le_abs_sub (a' * b') (a * b)
    rw [abs_sub_comm (a' * b')] at this; linarith
  have h4 : |a * b - p| ≤ |a * b - a' * b'| + |a' * b' - p| := abs_sub_le _ _ _
  have h5 : |a * b| ≤ |p| + |a * b - p| := by
    have := abs_sub_abs_le_abs_sub (a * b) p; linarith
  have e1 : |a - a'| * |b| ≤ |a * b| / 2 ^ 53 := by
    rw [abs_mul]; nlinarith [abs_nonneg b]
  have e2 : |a'| * |b - b'| ≤ |a * b| * ((1 + 1 / 2 ^ 53) / 2 ^ 53) := by
    rw [abs_mul]
    calc |a'| * |b - b'| ≤ (|a| + |a| / 2 ^ 53) * (|b| / 2 ^ 53) :=
          mul_le_mul h2 hb (abs_nonneg _) (by positivity)
      _ = _ := by ring
  have h0 := abs_nonneg (a * b)
  linarith

theorem err_pos {x p : ℚ} (h : |x - p| ≤ 4 * |p| / 2 ^ 53) (hp : 0 < p) : 0 < x := by
  rw [abs_of_pos hp, abs_le] at h; linarith [h.1]
theorem err_neg {x p : ℚ} (h : |x - p| ≤ 4 * |p| / 2 ^ 53) (hp : p < 0) : x < 0 := by
  rw [abs_of_neg hp, abs_le] at h; linarith [h.2]
theorem err_zero {x p : ℚ} (h : |x - p| ≤ 4 * |p| / 2 ^ 53) (hp : p = 0) : x = 0 := by
  rw [hp] at h; simpa using h

/-- If the computed products are further apart than five roundings, the exact ones are on the same sides. -/
theorem far_apart (L R l r D : ℚ) (hL : |L - l| ≤ 4 * |l| / 2 ^ 53) (hR : |R - r| ≤ 4 * |r| / 2 ^ 53)
    (hD : |l - r - D| ≤ |l - r| / 2 ^ 53) (h : 5 * (|l| + |r|) / 2 ^ 53 ≤ |D|) (hp : 0 < |l| + |r|) : sgn D = sgn (L - R) := by
  have h1 := abs_le.mp hL
  have h2 := abs_le.mp hR
  rcases le_or_gt 0 D with h0 | h0
  · rw [abs_of_nonneg h0] at h
    have hd : 0 < D := by linarith
    have hlr : 0 < l - r := by
      by_contra hc; push Not at hc
      rw [abs_of_nonpos hc, abs_le] at hD
      linarith [hD.1]
    rw [abs_of_pos hlr, abs_le] at hD
    rw [sgn_pos.mpr hd, sgn_pos.mpr]
    linarith [hD.1, hD.2, h1.1, h2.2]
  · rw [abs_of_neg h0] at h
    have hlr : l - r < 0 := by
      by_contra hc; push Not at hc
      rw [abs_of_nonneg hc, abs_le] at hD
      linarith [hD.2]
    rw [abs_of_neg hlr, abs_le] at hD
    rw [sgn_neg_iff.mpr h0, sgn_neg_iff.mpr]
    linarith [hD.1, hD.2, h1.2, h2.1]

theorem eps_bounds : ∃ ε : ℚ, rnd (1 / 1000000000000000) = .fin ε ∧ |1 / 1000000000000000 - ε| ≤ 1 / 1000000000000000 / 2 ^ 53 := by
  have h : |(1 / 1000000000000000 : ℚ) - near (1 / 1000000000000000)| ≤ 1 / 1000000000000000 / 2 ^ 53 := by
    have := near_rel (1 / 1000000000000000) (by
      rw [abs_of_pos (by norm_num)]
      exact le_trans (two_mono (by norm_num : (-1022 : ℤ) ≤ -50)) (by norm_num))
    rwa [abs_of_pos (by norm_num : (0 : ℚ) < 1 / 1000000000000000)] at this
  refine ⟨near (1 / 1000000000000000), (rnd_fin_iff _ _).mpr ⟨rfl, ?_⟩, h⟩
  rw [abs_le] at h
  rw [abs_lt]
  have := (one_le_pow₀ (by norm_num) : (1 : ℚ) ≤ 2 ^ 1024)
  generalize (2 : ℚ) ^ 1024 = M at this ⊢
  constructor <;> linarith [h.1, h.2]

/-- The computed error bound is at least five roundings. -/
theorem bound_large (l r ε S E : ℚ) (hε : |1 / 1000000000000000 - ε| ≤ 1 / 1000000000000000 / 2 ^ 53)
    (hl : 2 ^ (-1022 : ℤ) ≤ l) (hr : 0 < r) (rl : Rep l) (rr : Rep r) (hS : near (l + r) = S) (hE : near (ε * S) = E) :
    5 * (l + r) / 2 ^ 53 ≤ E ∧ E ≤ 23 / 2 * (l + r) / 2 ^ 53 := by
  have hs := near_add_rel rl rr
  have hl0 : 0 < l := lt_of_lt_of_le (two_pos _) hl
  rw [hS, abs_of_pos (show 0 < l + r by linarith), abs_le] at hs
  rw [abs_le] at hε
  have hS2 : (l + r) * (1 - 1 / 2 ^ 53) ≤ S := by linarith [hs.2]
  have hε2 : 8 / 2 ^ 53 ≤ ε := by linarith [hε.2]
  have hp : 8 / 2 ^ 53 * ((l + r) * (1 - 1 / 2 ^ 53)) ≤ ε * S :=
    mul_le_mul hε2 hS2 (by nlinarith) (by linarith)
  have hbig : (2 : ℚ) ^ (-1073 : ℤ) ≤ ε * S := by
    refine le_trans ?_ hp
    have : (2 : ℚ) ^ (-1073 : ℤ) = 2 ^ (-1022 : ℤ) * (1 / 2 ^ 51) := by
      rw [show (-1073 : ℤ) = -1022 + -51 by norm_num, two_add]; congr 1; norm_num
    rw [this]
    nlinarith
  have herr : |ε * S - E| ≤ ε * S / 4 := by
    have hpos : 0 < ε * S := lt_of_lt_of_le (two_pos _) hbig
    by_cases hn : 2 ^ (-1022 : ℤ) ≤ |ε * S|
    · have := near_rel _ hn
      rw [hE, abs_of_pos hpos] at this
      linarith
    · have h1 := near_err (ε * S)
      rw [hE] at h1
      have : expo (ε * S) = -1074 := by
        by_contra hne
        have hgt : -1074 < expo (ε * S) := lt_of_le_of_ne (expo_ge _) (Ne.symm hne)
        have := expo_le_abs _ hpos.ne' hgt
        exact hn (le_trans (two_mono (by omega)) this)
      rw [this] at h1
      have e : (2 : ℚ) ^ (-1073 : ℤ) = 2 ^ (-1074 : ℤ) * 2 := by
        rw [show (-1073 : ℤ) = -1074 + 1 by norm_num, two_add]; congr 1
      rw [e] at hbig
      linarith
  have hp2 : ε * S ≤ 901 / 100 / 2 ^ 53 * ((l + r) * (1 + 1 / 2 ^ 53)) :=
    mul_le_mul (by linarith [hε.1]) (by linarith [hs.1]) (by nlinarith) (by positivity)
  have h1 := (abs_le.mp herr).2
  have h2 := (abs_le.mp herr).1
  constructor <;> nlinarith


/-! ## The filter -/

/-- Binary64 values with library functions `sq` and `hy`. -/
abbrev B64 (sq : ℚ → Val) (hy : ℚ → ℚ → Val) : Type := Fl (binary64 sq hy)

/-- The product `(x - x') * (y - y')` computed in binary64 neither overflows nor underflows, with the given result. -/
def SafeProduct (x x' y y' w : ℚ) : Prop :=
  ∃ u v, rnd (x - x') = .fin u ∧ rnd (y - y') = .fin v ∧ rnd (u * v) = .fin w ∧ (u * v = 0 ∨ 2 ^ (-1022 : ℤ) ≤ |u * v|)

theorem safe_err {x x' y y' w : ℚ} (hx : IsF64 x) (hx' : IsF64 x') (hy : IsF64 y) (hy' : IsF64 y') (h : SafeProduct x x' y y' w) :
    |(x - x') * (y - y') - w| ≤ 4 * |w| / 2 ^ 53 ∧ (w = 0 ∨ 2 ^ (-1022 : ℤ) ≤ |w|) := by
  obtain ⟨u, v, hu, hv, hw, hr⟩ := h
  rw [rnd_fin_iff] at hu hv hw
  have eu := near_add_rel hx.1 hx'.1.neg
  have ev := near_add_rel hy.1 hy'.1.neg
  rw [← sub_eq_add_neg, hu.1] at eu
  rw [← sub_eq_add_neg, hv.1] at ev
  constructor
  · apply prod_err _ u _ v _ eu ev
    rcases hr with h0 | h0
    · rw [h0, near_zero] at hw
      rw [h0, ← hw.1]; simp
    · rw [← hw.1]; exact near_rel _ h0
  · rcases hr with h0 | h0
    · left; rw [h0, near_zero] at hw; exact hw.1.symm
    · right
      have hm : Rep (2 ^ (-1022 : ℤ)) := ⟨1, -1022, by norm_num, by norm_num, by simp⟩
      rcases le_or_gt 0 (u * v) with hp | hp
      · rw [abs_of_nonneg hp] at h0
        have := near_mono h0
        rw [near_of_rep hm, hw.1] at this
        exact le_trans this (le_abs_self _)
      · rw [abs_of_neg hp] at h0
        have := near_mono h0
        rw [near_of_rep hm, near_neg, hw.1] at this
        exact le_trans this (neg_le_abs _)

variable {sq : ℚ → Val} {hy : ℚ → ℚ → Val}

theorem signum_fin (D : ℚ) : CGDD.signum (Fl.fin D : B64 sq hy) = sgn D := by
  have h0 : (lit 0 : B64 sq hy) = Fl.fin 0 := by
    show rnd 0 = .fin 0
    exact rnd_of_f64 ⟨rep_zero, by rw [abs_zero]; positivity⟩
  unfold CGDD.signum sgn
  rw [h0]
  show (if decide (0 < D) = true then (1 : Int) else if decide (D < 0) = true then -1 else 0) = _
  simp only [decide_eq_true_eq]

theorem lit64 : (lit 0 : B64 sq hy) = Fl.fin 0 := by
  show rnd 0 = .fin 0
  exact rnd_of_f64 ⟨rep_zero, by rw [abs_zero]; positivity⟩

/-- What the last test of the filter establishes. -/
theorem test_large (l r D : ℚ) (hl : 2 ^ (-1022 : ℤ) ≤ l) (hr : 0 < r) (rl : Rep l) (rr : Rep r)
    (h : (((Fl.fin D : B64 sq hy) ≥. (CGDD.eps *. (Fl.round (l + r) : B64 sq hy))) ||
      ((-.(Fl.fin D : B64 sq hy)) ≥. (CGDD.eps *. (Fl.round (l + r) : B64 sq hy)))) = true) : 5 * (l + r) / 2 ^ 53 ≤ |D| := by
  obtain ⟨ε, h1, h2⟩ := eps_bounds
  have he : (CGDD.eps : B64 sq hy) = Fl.fin ε := h1
  have hl0 : 0 < l := lt_of_lt_of_le (two_pos _) hl
  have hε0 : 0 < ε := by linarith [(abs_le.mp h2).2]
  have hinf : ∀ x : ℚ, ((Fl.fin x : B64 sq hy) ≥. (Fl.pinf : B64 sq hy)) = false := fun _ => rfl
  rw [he] at h
  have hS0 : 0 ≤ near (l + r) := near_nonneg (by linarith)
  by_cases hS : 2 ^ 1024 ≤ near (l + r)
  · have : (Fl.round (l + r) : B64 sq hy) = Fl.pinf := by unfold Fl.round binary64 rnd; exact if_pos hS
    rw [this] at h
    have e : (Fl.fin ε : B64 sq hy) *. Fl.pinf = Fl.pinf := by
      show Fl.infOf ε = _
      unfold Fl.infOf; rw [if_pos hε0]
    change (((Fl.fin D : B64 sq hy) ≥. ((Fl.fin ε : B64 sq hy) *. Fl.pinf)) || ((Fl.fin (-D) : B64 sq hy) ≥. ((Fl.fin ε : B64 sq hy) *. Fl.pinf))) = true at h
    rw [e, hinf, hinf] at h
    exact absurd h (by simp)
  · push Not at hS
    have : (Fl.round (l + r) : B64 sq hy) = Fl.fin (near (l + r)) := (rnd_fin_iff _ _).mpr ⟨rfl, by rwa [abs_of_nonneg hS0]⟩
    rw [this] at h
    change (((Fl.fin D : B64 sq hy) ≥. (Fl.round (ε * near (l + r)) : B64 sq hy)) || ((Fl.fin (-D) : B64 sq hy) ≥. (Fl.round (ε * near (l + r)) : B64 sq hy))) = true at h
    have hE0 : 0 ≤ near (ε * near (l + r)) := near_nonneg (by positivity)
    by_cases hE : 2 ^ 1024 ≤ near (ε * near (l + r))
    · have : (Fl.round (ε * near (l + r)) : B64 sq hy) = Fl.pinf := by unfold Fl.round binary64 rnd; exact if_pos hE
      rw [this] at h
      rw [hinf, hinf] at h
      exact absurd h (by simp)
    · push Not at hE
      have : (Fl.round (ε * near (l + r)) : B64 sq hy) = Fl.fin (near (ε * near (l + r))) := (rnd_fin_iff _ _).mpr ⟨rfl, by rwa [abs_of_nonneg hE0]⟩
      rw [this] at h
      change (decide (near (ε * near (l + r)) ≤ D) || decide (near (ε * near (l + r)) ≤ -D)) = true at h
      simp only [Bool.or_eq_true, decide_eq_true_eq] at h
      have := (bound_large l r ε _ _ h2 hl hr rl rr rfl rfl).1
      rcases h with h | h
      · exact le_trans this (le_trans h (le_abs_self _))
      · exact le_trans this (le_trans h (neg_le_abs _))

/-- The last test of the filter succeeds if the difference is large enough. -/
theorem test_passes (l r D : ℚ) (hl : 2 ^ (-1022 : ℤ) ≤ l) (hr : 0 < r) (rl : Rep l) (rr : Rep r) (hlr : l + r ≤ 2 ^ 1023)
    (hD : 23 / 2 * (l + r) / 2 ^ 53 ≤ |D|) :
    (((Fl.fin D : B64 sq hy) ≥. (CGDD.eps *. (Fl.round (l + r) : B64 sq hy))) ||
      ((-.(Fl.fin D : B64 sq hy)) ≥. (CGDD.eps *. (Fl.round (l + r) : B64 sq hy)))) = true := by
  obtain ⟨ε, h1, h2⟩ := eps_bounds
  have he : (CGDD.eps : B64 sq hy) = Fl.fin ε := h1
  have hl0 : 0 < l := lt_of_lt_of_le (two_pos _) hl
  have hε0 : 0 < ε := by linarith [(abs_le.mp h2).2]
  have hε1 : ε ≤ 1 := by linarith [(abs_le.mp h2).1]
  rw [he]
  have hm : Rep (2 ^ 1023) := ⟨1, 1023, by norm_num, by norm_num, by rw [Int.cast_one, one_mul]; exact (zpow_natCast 2 1023).symm⟩
  have hlt : (2 : ℚ) ^ 1023 < 2 ^ 1024 := pow_lt_pow_right₀ (by norm_num) (by norm_num)
  have hS0 : 0 ≤ near (l + r) := near_nonneg (by linarith)
  have hS1 : near (l + r) ≤ 2 ^ 1023 := by
    have := near_mono hlr
    rwa [near_of_rep hm] at this
  have e1 : (Fl.round (l + r) : B64 sq hy) = Fl.fin (near (l + r)) :=
    (rnd_fin_iff _ _).mpr ⟨rfl, by rw [abs_of_nonneg hS0]; exact lt_of_le_of_lt hS1 hlt⟩
  rw [e1]
  change (((Fl.fin D : B64 sq hy) ≥. (Fl.round (ε * near (l + r)) : B64 sq hy)) || ((Fl.fin (-D) : B64 sq hy) ≥. (Fl.round (ε * near (l + r)) : B64 sq hy))) = true
  have hE0 : 0 ≤ near (ε * near (l + r)) := near_nonneg (by positivity)
  have hE1 : near (ε * near (l + r)) ≤ 2 ^ 1023 := by
    have : ε * near (l + r) ≤ 2 ^ 1023 := le_trans (by nlinarith) hS1
    have := near_mono this
    rwa [near_of_rep hm] at this
  have e2 : (Fl.round (ε * near (l + r)) : B64 sq hy) = Fl.fin (near (ε * near (l + r))) :=
    (rnd_fin_iff _ _).mpr ⟨rfl, by rw [abs_of_nonneg hE0]; exact lt_of_le_of_lt hE1 hlt⟩
  rw [e2]
  change (decide (near (ε * near (l + r)) ≤ D) || decide (near (ε * near (l + r)) ≤ -D)) = true
  have := (bound_large l r ε _ _ h2 hl hr rl rr rfl rfl).2
  simp only [Bool.or_eq_true, decide_eq_true_eq]
  rcases abs_cases D with h | h
  · left; linarith
  · right; linarith

/-- The filter as a function of the two products. -/
def filterOf (detleft detright : B64 sq hy) : Int :=
  let det := detleft -. detright
  let finish (detsum : B64 sq hy) : Int :=
    let errbound := CGDD.eps *. detsum
    if (det ≥. errbound) || ((-.det) ≥. errbound) then CGDD.signum det else 2
  if detleft >. lit 0 then
    if detright ≤. lit 0 then CGDD.signum det else finish (detleft +. detright)
  else if detleft <. lit 0 then
    if detright ≥. lit 0 then CGDD.signum det else finish ((-.detleft) -. detright)
  else CGDD.signum det

theorem signum_pos_of {x : ℚ} (h : 0 < near x) : CGDD.signum (Fl.round x : B64 sq hy) = 1 := by
  unfold CGDD.signum
  rw [lit64]
  have hp : (0 : ℚ) < 2 ^ 1024 := by positivity
  by_cases h1 : 2 ^ 1024 ≤ near x
  · have : (Fl.round x : B64 sq hy) = Fl.pinf := by unfold Fl.round binary64 rnd; exact if_pos h1
    rw [this]; rfl
  · push Not at h1
    have : (Fl.round x : B64 sq hy) = Fl.fin (near x) := (rnd_fin_iff _ _).mpr ⟨rfl, by rw [abs_lt]; exact ⟨lt_trans (neg_neg_of_pos hp) h, h1⟩⟩
    rw [this]
    show (if decide (0 < near x) = true then (1 : Int) else if decide (near x < 0) = true then -1 else 0) = _
    simp [h]

theorem signum_neg_of {x : ℚ} (h : near x < 0) : CGDD.signum (Fl.round x : B64 sq hy) = -1 := by
  unfold CGDD.signum
  rw [lit64]
  have hp : (0 : ℚ) < 2 ^ 1024 := by positivity
  by_cases h1 : near x ≤ -2 ^ 1024
  · have : (Fl.round x : B64 sq hy) = Fl.ninf := by unfold Fl.round binary64 rnd; exact (if_neg (not_le.mpr (lt_trans h hp))).trans (if_pos h1)
    rw [this]; rfl
  · push Not at h1
    have : (Fl.round x : B64 sq hy) = Fl.fin (near x) := (rnd_fin_iff _ _).mpr ⟨rfl, by rw [abs_lt]; exact ⟨h1, lt_trans h hp⟩⟩
    rw [this]
    show (if decide (0 < near x) = true then (1 : Int) else if decide (near x < 0) = true then -1 else 0) = _
    simp [h, not_lt.mpr h.le]

theorem filterOf_sound (L R l r : ℚ) (fl : IsF64 l) (fr : IsF64 r) (hL : |L - l| ≤ 4 * |l| / 2 ^ 53) (hR : |R - r| ≤ 4 * |r| / 2 ^ 53)
    (nl : l = 0 ∨ 2 ^ (-1022 : ℤ) ≤ |l|) :
    filterOf (Fl.fin l : B64 sq hy) (Fl.fin r) = sgn (L - R) ∨ filterOf (Fl.fin l : B64 sq hy) (Fl.fin r) = 2 := by
  have hdet : (Fl.fin l : B64 sq hy) -. Fl.fin r = Fl.round (l - r) := fl_sub_fin l r
  have hc1 : ∀ a b : ℚ, ((Fl.fin a : B64 sq hy) <. Fl.fin b) = decide (a < b) := fun _ _ => rfl
  have hc2 : ∀ a b : ℚ, ((Fl.fin a : B64 sq hy) ≤. Fl.fin b) = decide (a ≤ b) := fun _ _ => rfl
  have herr := near_add_rel fl.1 fr.1.neg
  rw [← sub_eq_add_neg] at herr
  unfold filterOf
  simp only [lit64, hdet, hc1, hc2, decide_eq_true_eq]
  rcases lt_trichotomy l 0 with h | h | h
  · rw [if_neg (not_lt.mpr h.le), if_pos h]
    by_cases h2 : 0 ≤ r
    · rw [if_pos h2]
      left
      have hr0 : 0 ≤ R := by
        rcases h2.eq_or_lt with h3 | h3
        · exact (err_zero hR h3.symm).ge
        · exact (err_pos hR h3).le
      have : near (l - r) < 0 := by
        have := near_mono (show l - r ≤ l by linarith)
        rw [near_of_rep fl.1] at this; linarith
      rw [signum_neg_of this, sgn_neg_iff.mpr]
      linarith [err_neg hL h]
    · rw [if_neg h2]
      push Not at h2
      have hb : |near (l - r)| < 2 ^ 1024 := by
        have a1 := near_mono (show l - r ≤ -r by linarith)
        have a2 := near_mono (show l ≤ l - r by linarith)
        rw [near_of_rep fr.1.neg] at a1
        rw [near_of_rep fl.1] at a2
        have b1 := abs_lt.mp fl.2
        have b2 := abs_lt.mp fr.2
        rw [abs_lt]; constructor <;> linarith [b1.1, b2.1]
      have hD : (Fl.round (l - r) : B64 sq hy) = Fl.fin (near (l - r)) := (rnd_fin_iff _ _).mpr ⟨rfl, hb⟩
      rw [hD]
      split_ifs with ht
      · left
        have e : (-.(Fl.fin l : B64 sq hy)) -. Fl.fin r = Fl.round (-l + -r) := rfl
        rw [e] at ht
        have hl2 : 2 ^ (-1022 : ℤ) ≤ -l := by
          rcases nl with h0 | h0
          · linarith
          · rwa [abs_of_neg h] at h0
        have := test_large (-l) (-r) _ hl2 (by linarith) fl.1.neg fr.1.neg ht
        rw [← abs_of_neg h, ← abs_of_neg h2] at this
        rw [signum_fin]
        exact far_apart L R l r _ hL hR herr this (by rw [abs_of_neg h, abs_of_neg h2]; linarith)
      · right; rfl
  · rw [if_neg (by rw [h]; exact lt_irrefl _), if_neg (by rw [h]; exact lt_irrefl _)]
    left
    have hL0 := err_zero hL h
    rw [h, hL0, zero_sub, zero_sub]
    rw [h, zero_sub] at hdet
    have hr : (Fl.round (-r) : B64 sq hy) = Fl.fin (-r) := rnd_of_f64 ⟨fr.1.neg, by rw [abs_neg]; exact fr.2⟩
    rw [hr]
    rw [signum_fin, sgn_neg, sgn_neg]
    apply congrArg Neg.neg
    rcases lt_trichotomy r 0 with h3 | h3 | h3
    · rw [sgn_neg_iff.mpr h3, sgn_neg_iff.mpr (err_neg hR h3)]
    · rw [h3, err_zero hR h3]
    · rw [sgn_pos.mpr h3, sgn_pos.mpr (err_pos hR h3)]
  · rw [if_pos h]
    by_cases h2 : r ≤ 0
    · rw [if_pos h2]
      left
      have hr0 : R ≤ 0 := by
        rcases h2.eq_or_lt with h3 | h3
        · exact (err_zero hR h3).le
        · exact (err_neg hR h3).le
      have : 0 < near (l - r) := by
        have := near_mono (show l ≤ l - r by linarith)
        rw [near_of_rep fl.1] at this; linarith
      rw [signum_pos_of this, sgn_pos.mpr]
      linarith [err_pos hL h]
    · rw [if_neg h2]
      push Not at h2
      have hb : |near (l - r)| < 2 ^ 1024 := by
        have a1 := near_mono (show -r ≤ l - r by linarith)
        have a2 := near_mono (show l - r ≤ l by linarith)
        rw [near_of_rep fr.1.neg] at a1
        rw [near_of_rep fl.1] at a2
        have b1 := abs_lt.mp fl.2
        have b2 := abs_lt.mp fr.2
        rw [abs_lt]; constructor <;> linarith [b1.2, b2.2]
      have hD : (Fl.round (l - r) : B64 sq hy) = Fl.fin (near (l - r)) := (rnd_fin_iff _ _).mpr ⟨rfl, hb⟩
      rw [hD]
      split_ifs with ht
      · left
        have e : (Fl.fin l : B64 sq hy) +. Fl.fin r = Fl.round (l + r) := rfl
        rw [e] at ht
        have hl2 : 2 ^ (-1022 : ℤ) ≤ l := by
          rcases nl with h0 | h0
          · linarith
          · rwa [abs_of_pos h] at h0
        have := test_large l r _ hl2 h2 fl.1 fr.1 ht
        rw [← abs_of_pos h, ← abs_of_pos h2] at this
        rw [signum_fin]
        refine far_apart L R l r _ hL hR herr ?_ (by rw [abs_of_pos h, abs_of_pos h2]; linarith)
        rw [abs_of_pos h, abs_of_pos h2] at this ⊢
        exact this
      · right; rfl

theorem signum_ne (x : B64 sq hy) : CGDD.signum x ≠ 2 := by unfold CGDD.signum; split_ifs <;> decide

theorem filterOf_decides (L R l r : ℚ) (fl : IsF64 l) (fr : IsF64 r) (hL : |L - l| ≤ 4 * |l| / 2 ^ 53) (hR : |R - r| ≤ 4 * |r| / 2 ^ 53)
    (nl : l = 0 ∨ 2 ^ (-1022 : ℤ) ≤ |l|) (hs : |l| + |r| ≤ 2 ^ 1023) (hd : 16 * (|L| + |R|) / 2 ^ 53 ≤ |L - R|) :
    filterOf (Fl.fin l : B64 sq hy) (Fl.fin r) ≠ 2 := by
  have hdet : (Fl.fin l : B64 sq hy) -. Fl.fin r = Fl.round (l - r) := fl_sub_fin l r
  have hc1 : ∀ a b : ℚ, ((Fl.fin a : B64 sq hy) <. Fl.fin b) = decide (a < b) := fun _ _ => rfl
  have hc2 : ∀ a b : ℚ, ((Fl.fin a : B64 sq hy) ≤. Fl.fin b) = decide (a ≤ b) := fun _ _ => rfl
  have herr := near_add_rel fl.1 fr.1.neg
  rw [← sub_eq_add_neg] at herr
  have hD : 23 / 2 * (|l| + |r|) / 2 ^ 53 ≤ |near (l - r)| := by
    have h1 : |L - R| ≤ |l - r| + |L - l| + |R - r| := by
      have : L - R = (l - r) + (L - l) + -(R - r) := by ring
      rw [this]
      refine le_trans (abs_add_le _ _) ?_
      rw [abs_neg]
      linarith [abs_add_le (l - r) (L - l)]
    have h2 : |l - r| ≤ |near (l - r)| + |l - r - near (l - r)| := by
      have := abs_add_le (near (l - r)) (l - r - near (l - r))
      rwa [add_sub_cancel] at this
    have h3 : |l| ≤ |L| + |L - l| := by
      have := abs_sub_abs_le_abs_sub l L
      rw [abs_sub_comm] at this; linarith
    have h4 : |r| ≤ |R| + |R - r| := by
      have := abs_sub_abs_le_abs_sub r R
      rw [abs_sub_comm] at this; linarith
    linarith [abs_nonneg l, abs_nonneg r]
  unfold filterOf
  simp only [lit64, hdet, hc1, hc2, decide_eq_true_eq]
  rcases lt_trichotomy l 0 with h | h | h
  · rw [if_neg (not_lt.mpr h.le), if_pos h]
    by_cases h2 : 0 ≤ r
    · rw [if_pos h2]; exact signum_ne _
    · rw [if_neg h2]
      push Not at h2
      have hb : |near (l - r)| < 2 ^ 1024 := by
        have a1 := near_mono (show l - r ≤ -r by linarith)
        have a2 := near_mono (show l ≤ l - r by linarith)
        rw [near_of_rep fr.1.neg] at a1
        rw [near_of_rep fl.1] at a2
        have b1 := abs_lt.mp fl.2
        have b2 := abs_lt.mp fr.2
        rw [abs_lt]; constructor <;> linarith [b1.1, b2.1]
      have hD2 : (Fl.round (l - r) : B64 sq hy) = Fl.fin (near (l - r)) := (rnd_fin_iff _ _).mpr ⟨rfl, hb⟩
      have e : (-.(Fl.fin l : B64 sq hy)) -. Fl.fin r = Fl.round (-l + -r) := rfl
      have hl2 : 2 ^ (-1022 : ℤ) ≤ -l := by
        rcases nl with h0 | h0
        · linarith
        · rwa [abs_of_neg h] at h0
      rw [abs_of_neg h, abs_of_neg h2] at hs hD
      rw [hD2, e, if_pos (test_passes (-l) (-r) _ hl2 (by linarith) fl.1.neg fr.1.neg hs hD)]
      exact signum_ne _
  · rw [if_neg (by rw [h]; exact lt_irrefl _), if_neg (by rw [h]; exact lt_irrefl _)]
    exact signum_ne _
  · rw [if_pos h]
    by_cases h2 : r ≤ 0
    · rw [if_pos h2]; exact signum_ne _
    · rw [if_neg h2]
      push Not at h2
      have hb : |near (l - r)| < 2 ^ 1024 := by
        have a1 := near_mono (show -r ≤ l - r by linarith)
        have a2 := near_mono (show l - r ≤ l by linarith)
        rw [near_of_rep fr.1.neg] at a1
        rw [near_of_rep fl.1] at a2
        have b1 := abs_lt.mp fl.2
        have b2 := abs_lt.mp fr.2
        rw [abs_lt]; constructor <;> linarith [b1.2, b2.2]
      have hD2 : (Fl.round (l - r) : B64 sq hy) = Fl.fin (near (l - r)) := (rnd_fin_iff _ _).mpr ⟨rfl, hb⟩
      have e : (Fl.fin l : B64 sq hy) +. Fl.fin r = Fl.round (l + r) := rfl
      have hl2 : 2 ^ (-1022 : ℤ) ≤ l := by
        rcases nl with h0 | h0
        · linarith
        · rwa [abs_of_pos h] at h0
      rw [abs_of_pos h, abs_of_pos h2] at hs hD
      rw [hD2, e, if_pos (test_passes l r _ hl2 h2 fl.1 fr.1 hs hD)]
      exact signum_ne _

/-- A point with binary64 ordinates. -/
structure IsPoint (p : Coord ℚ) : Prop where
  x : IsF64 p.x
  y : IsF64 p.y

theorem filter_filterOf (p q r : Coord ℚ) {l m : ℚ} (hl : SafeProduct p.x r.x q.y r.y l) (hm : SafeProduct p.y r.y q.x r.x m) :
    CGDD.filter (Fl.fin p.x : B64 sq hy) (Fl.fin p.y) (Fl.fin q.x) (Fl.fin q.y) (Fl.fin r.x) (Fl.fin r.y) =
      filterOf (Fl.fin l : B64 sq hy) (Fl.fin m) := by
  have val : ∀ {x x' y y' w : ℚ}, SafeProduct x x' y y' w →
      ((Fl.fin x : B64 sq hy) -. Fl.fin x') *. (Fl.fin y -. Fl.fin y') = Fl.fin w := by
    rintro x x' y y' w ⟨u, v, h1, h2, h3, _⟩
    rw [show (Fl.fin x : B64 sq hy) -. Fl.fin x' = Fl.fin u from (fl_sub_fin x x').trans h1,
      show (Fl.fin y : B64 sq hy) -. Fl.fin y' = Fl.fin v from (fl_sub_fin y y').trans h2]
    exact h3
  unfold CGDD.filter
  rw [val hl, val hm]
  rfl

theorem SafeProduct.f64 {x x' y y' w : ℚ} (h : SafeProduct x x' y y' w) : IsF64 w := by
  obtain ⟨u, v, h1, h2, h3, _⟩ := h
  exact rnd_f64 h3

/-- A binary64 point as the program sees it. -/
def toB64 (p : Coord ℚ) : Coord (B64 sq hy) := Coord.xy (Fl.fin p.x) (Fl.fin p.y)

theorem det_left_right (p q r : Coord ℚ) : det p q r = (p.x - r.x) * (q.y - r.y) - (p.y - r.y) * (q.x - r.x) := by unfold det; ring

/-- The fast filter never gives a wrong sign: on binary64 points whose two products neither overflow nor underflow it returns the
sign of the exact determinant, or 2. -/
theorem C30_filter_never_lies (p q r : Coord ℚ) (hp : IsPoint p) (hq : IsPoint q) (hr : IsPoint r) {l m : ℚ}
    (hl : SafeProduct p.x r.x q.y r.y l) (hm : SafeProduct p.y r.y q.x r.x m) :
    CGDD.filter (Fl.fin p.x : B64 sq hy) (Fl.fin p.y) (Fl.fin q.x) (Fl.fin q.y) (Fl.fin r.x) (Fl.fin r.y) = sgn (det p q r) ∨
    CGDD.filter (Fl.fin p.x : B64 sq hy) (Fl.fin p.y) (Fl.fin q.x) (Fl.fin q.y) (Fl.fin r.x) (Fl.fin r.y) = 2 := by
  have e1 := safe_err hp.x hr.x hq.y hr.y hl
  have e2 := safe_err hp.y hr.y hq.x hr.x hm
  rw [filter_filterOf p q r hl hm, det_left_right]
  exact filterOf_sound _ _ l m hl.f64 hm.f64 e1.1 e2.1 e1.2

/-- It does give an answer when the determinant is not small: at least `2^-49` times the sum of the sizes of its two products. -/
theorem C30_filter_answers (p q r : Coord ℚ) (hp : IsPoint p) (hq : IsPoint q) (hr : IsPoint r) {l m : ℚ}
    (hl : SafeProduct p.x r.x q.y r.y l) (hm : SafeProduct p.y r.y q.x r.x m) (hs : |l| + |m| ≤ 2 ^ 1023)
    (hd : (|(p.x - r.x) * (q.y - r.y)| + |(p.y - r.y) * (q.x - r.x)|) / 2 ^ 49 ≤ |det p q r|) :
    CGDD.filter (Fl.fin p.x : B64 sq hy) (Fl.fin p.y) (Fl.fin q.x) (Fl.fin q.y) (Fl.fin r.x) (Fl.fin r.y) = sgn (det p q r) := by
  have e1 := safe_err hp.x hr.x hq.y hr.y hl
  have e2 := safe_err hp.y hr.y hq.x hr.x hm
  refine (C30_filter_never_lies p q r hp hq hr hl hm).resolve_right ?_
  rw [filter_filterOf p q r hl hm]
  refine filterOf_decides _ _ l m hl.f64 hm.f64 e1.1 e2.1 e1.2 hs ?_
  rw [← det_left_right]
  refine le_trans (le_of_eq ?_) hd
  ring

/-- So the orientation index of three binary64 points is the exact one when the determinant is not small. -/
theorem C30_index (p q r : Coord ℚ) (hp : IsPoint p) (hq : IsPoint q) (hr : IsPoint r) {l m : ℚ}
    (hl : SafeProduct p.x r.x q.y r.y l) (hm : SafeProduct p.y r.y q.x r.x m) (hs : |l| + |m| ≤ 2 ^ 1023)
    (hd : (|(p.x - r.x) * (q.y - r.y)| + |(p.y - r.y) * (q.x - r.x)|) / 2 ^ 49 ≤ |det p q r|) :
    Orientation.index (toB64 p : Coord (B64 sq hy)) (toB64 q) (toB64 r) = sgn (det p q r) := by
  have h := C30_filter_answers (sq := sq) (hy := hy) p q r hp hq hr hl hm hs hd
  have h1 : sgn (det p q r) ≤ 1 := by unfold sgn; split_ifs <;> simp
  exact (congrArg (fun i => if i ≤ 1 then i else CGDD.ddIndex (Fl.fin p.x : B64 sq hy) (Fl.fin p.y) (Fl.fin q.x) (Fl.fin q.y) (Fl.fin r.x) (Fl.fin r.y)) h).trans
    (if_pos h1)

/-! ## Cases -/

/-- The library functions play no part here. -/
abbrev X64 : Type := B64 Val.fin (fun a _ => Val.fin a)

/-- Ordinates that are not exact in binary, and differences that are rounded. -/
def tenth : ℚ := 3602879701896397 / 36028797018963968

theorem tenth_f64 : rnd (1 / 10) = .fin tenth := by decide +kernel

example : rnd (tenth - 3) ≠ .fin (tenth - 3) := by decide +kernel

set_option maxRecDepth 4000 in
example : IsPoint (Coord.xy tenth 1) ∧ IsPoint (Coord.xy 3 tenth) ∧ IsPoint (Coord.xy 3 4) ∧
    (∃ l, SafeProduct tenth 3 tenth 4 l) ∧ (∃ m, SafeProduct 1 4 3 3 m) := by
  have h : ∀ q : ℚ, rnd q = .fin q → IsF64 q := fun q h => rnd_f64 h
  refine ⟨⟨h _ (by decide +kernel), h _ (by decide +kernel)⟩, ⟨h _ (by decide +kernel), h _ (by decide +kernel)⟩,
    ⟨h _ (by decide +kernel), h _ (by decide +kernel)⟩, ⟨near (near (tenth - 3) * near (tenth - 4)), near (tenth - 3), near (tenth - 4), ?_, ?_, ?_, ?_⟩, ⟨0, -3, 0, ?_, ?_, ?_, ?_⟩⟩
  · decide +kernel
  · decide +kernel
  · decide +kernel
  · right; exact le_trans (two_mono (by norm_num : (-1022 : ℤ) ≤ 0)) (by decide +kernel)
  all_goals first | decide +kernel | (left; norm_num)

/-- Without the condition on underflow the claim is false: the corners of a tiny right-angled triangle are called collinear, by the
filter and by the orientation index. -/
theorem C30_underflow : CGDD.filter (Fl.fin (1 / 2 ^ 600) : X64) (Fl.fin 0) (Fl.fin 0) (Fl.fin (1 / 2 ^ 600)) (Fl.fin 0) (Fl.fin 0) = 0 ∧
    Orientation.index (toB64 (Coord.xy (1 / 2 ^ 600) 0) : Coord X64) (toB64 (Coord.xy 0 (1 / 2 ^ 600))) (toB64 (Coord.xy 0 0)) = 0 ∧
    sgn (det (Coord.xy (1 / 2 ^ 600) 0 : Coord ℚ) (Coord.xy 0 (1 / 2 ^ 600)) (Coord.xy 0 0)) = 1 := by
  refine ⟨by decide +kernel, by decide +kernel, by decide +kernel⟩

/-- And large triangles are called collinear when the products overflow. -/
theorem C30_overflow :
    Orientation.index (toB64 (Coord.xy (3 * 2 ^ 600) (2 ^ 600)) : Coord X64) (toB64 (Coord.xy (2 ^ 600) (2 ^ 600))) (toB64 (Coord.xy 0 0)) = 0 ∧
    sgn (det (Coord.xy (3 * 2 ^ 600) (2 ^ 600) : Coord ℚ) (Coord.xy (2 ^ 600) (2 ^ 600)) (Coord.xy 0 0)) = 1 := by
  refine ⟨by decide +kernel, by decide +kernel⟩

end Verif.Props
