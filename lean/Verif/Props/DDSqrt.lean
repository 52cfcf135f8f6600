import Verif.Props.DDDiv
import Verif.Lemmas.DDSqrt
import Mathlib.Analysis.SpecialFunctions.Pow.Real

/-! # C76: the accuracy of double-double square roots -/

namespace Verif.Props
open Flt Verif.Spec Verif.Binary64

variable {sq : ℚ → Val} {hy : ℚ → ℚ → Val}

/-- What IEEE 754 promises of `f64::sqrt` at a normal number `a`: a positive double with a relative error of at most `2^-53`. -/
structure GoodSqrt (sq : ℚ → Val) (a s : ℚ) : Prop where
  eq : sq a = .fin s
  f64 : IsF64 s
  pos : 0 < s
  lower : a * (1 - 1 / 2 ^ 53) ^ 2 ≤ s ^ 2
  upper : s ^ 2 ≤ a * (1 + 1 / 2 ^ 53) ^ 2

/-- A finite sum has a finite second operand. -/
theorem add_right {x y : DD (B64 sq hy)} {v : ℚ} (h : (x.add y).hi = Fl.fin v) : ∃ w, y.hi = Fl.fin w := by
  unfold DD.add DD.addHiLo at h
  dsimp only at h
  obtain ⟨hh, e2, h1, -, -, -⟩ := add64 h
  obtain ⟨ss, e1, h3, -, -, -⟩ := add64 h1
  obtain ⟨_, w, -, h4, -, -⟩ := add64 h3
  exact ⟨w, h4⟩

theorem negate_fin {y : DD (B64 sq hy)} {w : ℚ} (h : y.negate.hi = Fl.fin w) : ∃ w', y.hi = Fl.fin w' := by
  obtain ⟨yh, yl⟩ := y
  unfold DD.negate DD.isNaN at h
  dsimp only at h
  cases yh with
  | fin q => exact ⟨q, rfl⟩
  | nan => cases h
  | pinf => cases h
  | ninf => cases h

theorem addF_fin {x : DD (B64 sq hy)} {y : B64 sq hy} {v : ℚ} (h : (x.addF y).hi = Fl.fin v) : ∃ a b, x.hi = Fl.fin a ∧ y = Fl.fin b := by
  unfold DD.addF at h
  dsimp only at h
  obtain ⟨hh, e2, h1, -, -, -⟩ := add64 h
  obtain ⟨ss, e1, h3, -, -, -⟩ := add64 h1
  obtain ⟨a, w, h5, h4, -, -⟩ := add64 h3
  exact ⟨a, w, h5, h4⟩

/-- C76: the square of the square root differs from the number by at most `2^-98` of it. -/
theorem C76_sqrt (a b s : ℚ) (p : IsPair a b) (ha1 : 2 ^ (-900 : ℤ) ≤ a) (hs : GoodSqrt sq a s)
    (hfin : isFinite ((⟨Fl.fin a, Fl.fin b⟩ : DD (B64 sq hy)).sqrt).hi = true) :
    ∃ h l, (⟨Fl.fin a, Fl.fin b⟩ : DD (B64 sq hy)).sqrt = ⟨Fl.fin h, Fl.fin l⟩ ∧ IsPair h l ∧ 0 < h + l ∧
      |(h + l) ^ 2 - (a + b)| ≤ (a + b) / 2 ^ 98 := by
  have a0 : 0 < a := lt_of_lt_of_le (two_pos _) ha1
  have hz : (⟨Fl.fin a, Fl.fin b⟩ : DD (B64 sq hy)).isZero = false := by
    unfold DD.isZero
    rw [lit64]
    show (decide (a = 0) && decide (b = 0)) = false
    simp [a0.ne']
  have hng : (⟨Fl.fin a, Fl.fin b⟩ : DD (B64 sq hy)).isNegative = false := by
    unfold DD.isNegative
    rw [lit64]
    show (decide (a < 0) || (decide (a = 0) && decide (b < 0))) = false
    simp [a0.ne', a0.le]
  have hsq : FltSqrt.sqrt (Fl.fin a : B64 sq hy) = Fl.fin s := by
    show Fl.sqrt (Fl.fin a) = _
    unfold Fl.sqrt
    exact (if_neg (not_lt.mpr a0.le)).trans hs.eq
  have h1 : (lit 1 : B64 sq hy) = Fl.fin 1 := rnd_of_f64 f64_one
  have fhalf : IsF64 (1 / 2) := f64_of (by decide +kernel)
  have hhalf : (lit (1 / 2) : B64 sq hy) = Fl.fin (1 / 2) := rnd_of_f64 fhalf
  obtain ⟨v, hv⟩ := finite_fin hfin
  unfold DD.sqrt at hv hfin ⊢
  rw [hz, hng, if_neg Bool.false_ne_true, if_neg Bool.false_ne_true] at hv hfin ⊢
  dsimp only at hv hfin ⊢
  rw [hsq, h1, hhalf] at hv hfin ⊢
  obtain ⟨ax, d2, e1, e2⟩ := addF_fin hv
  change (Fl.fin a : B64 sq hy) *. (Fl.fin 1 /. Fl.fin s) = Fl.fin ax at e1
  obtain ⟨a', x, i1, i2, i3, i4⟩ := mul64 e1
  obtain rfl := fin_inj i1
  obtain ⟨o, j1, j2, j3, -⟩ := div64 i2
  obtain rfl := fin_inj j1
  rw [i2] at e2 hv hfin ⊢
  rw [show (Fl.fin a : B64 sq hy) *. Fl.fin x = Fl.fin ax by rw [← i2]; exact e1] at e2 hv hfin ⊢
  obtain ⟨dh, xh, k1, k2, k3, k4⟩ := mul64 e2
  obtain ⟨x', hf, l1, l2, l3, -⟩ := mul64 k2
  obtain rfl := fin_inj l1
  obtain rfl := fin_inj l2
  have ha2 : a ≤ 2 ^ (1024 : ℤ) := by
    have := p.hi.2
    have h2 : |a| ≤ 2 ^ (1024 : ℤ) := le_of_lt (by exact_mod_cast this)
    exact le_trans (le_abs_self a) h2
  obtain ⟨K, X, AX, -, -, -, -, -, -, -, -, hax⟩ := sqrt_start ha1 ha2 hs.pos hs.lower hs.upper j3 i3
  have ax0 : 0 < ax := lt_of_lt_of_le (two_pos _) hax
  have fax : IsF64 ax := ⟨i3 ▸ near_rep _, i4⟩
  have hu : NoUnderflow ax ax := by
    have hN : Normal ax := by
      unfold Normal
      rw [abs_of_pos ax0]
      exact le_trans (two_mono (by norm_num)) hax
    refine Or.inr (Or.inr ⟨hN, hN, ?_⟩)
    rw [abs_mul, abs_of_pos ax0]
    refine le_trans ?_ (mul_le_mul hax hax (two_pos _).le ax0.le)
    rw [← two_add]; exact two_mono (by norm_num)
  -- the square
  have hsqr : (DD.ofF (Fl.fin ax : B64 sq hy)).sqr = (DD.ofF (Fl.fin ax : B64 sq hy)).selfMul (DD.ofF (Fl.fin ax)) := rfl
  obtain ⟨sh, sl, m1, m2, m3, m4⟩ : ∃ h l, (DD.ofF (Fl.fin ax : B64 sq hy)).sqr = ⟨Fl.fin h, Fl.fin l⟩ ∧ h + l = ax * ax ∧ rnd (ax * ax) = .fin h ∧ IsF64 l := by
    rw [hsqr]
    apply C63_product ax ax fax fax hu
    unfold DD.sub at k1
    obtain ⟨w, hw⟩ := add_right k1
    obtain ⟨w', hw'⟩ := negate_fin hw
    rw [hsqr] at hw'
    rw [hw']; rfl
  have ps : IsPair sh sl := ⟨rnd_f64 m3, m4, by rw [m2]; exact m3⟩
  -- the difference
  rw [m1] at k1 e2 hv hfin ⊢
  obtain ⟨h, l, n1, -, n2, n3⟩ := C74_difference a b sh sl p ps (by rw [k1]; rfl)
  rw [n1] at k1
  obtain rfl := fin_inj k1
  rw [m2, ← pow_two] at n3
  have hdh : |h - (a + b - ax ^ 2)| ≤ 11 / 10 / 2 ^ 53 * |a + b - ax ^ 2| := by
    have q1 := near_add_rel n2.hi.1 n2.lo.1
    rw [n2.near] at q1
    have q2 := abs_le_add_err (a + b - ax ^ 2) (h + l)
    rw [abs_sub_comm (a + b - ax ^ 2)] at q2
    have q3 := abs_add_le (-(h + l - h)) (h + l - (a + b - ax ^ 2))
    rw [abs_neg, show -(h + l - h) + (h + l - (a + b - ax ^ 2)) = h - (a + b - ax ^ 2) by ring] at q3
    have := abs_nonneg (a + b - ax ^ 2)
    linarith
  have lb := low_rel p.hi.1 p.lo.1 p.near
  rw [abs_of_pos a0] at lb
  obtain ⟨r1, r2⟩ := sqrt_core ha1 ha2 lb hs.pos hs.lower hs.upper j3 i3 hdh l3 k3
  rw [e2] at hv hfin ⊢
  obtain ⟨h', l', t1, t2, t3, t4⟩ := C63_sum ax d2 fax ⟨k3 ▸ near_rep _, k4⟩ hfin
  refine ⟨h', l', t1, ⟨rnd_f64 t3, t4, by rw [t2]; exact t3⟩, by rw [t2]; exact r1, by rw [t2]; exact r2⟩

/-- C76: the square root itself has a relative error of at most `2^-98`. -/
theorem C76_sqrt_real (a b s : ℚ) (p : IsPair a b) (ha1 : 2 ^ (-900 : ℤ) ≤ a) (hs : GoodSqrt sq a s)
    (hfin : isFinite ((⟨Fl.fin a, Fl.fin b⟩ : DD (B64 sq hy)).sqrt).hi = true) :
    ∃ h l, (⟨Fl.fin a, Fl.fin b⟩ : DD (B64 sq hy)).sqrt = ⟨Fl.fin h, Fl.fin l⟩ ∧ IsPair h l ∧
      |((h + l : ℚ) : ℝ) - √((a + b : ℚ) : ℝ)| ≤ √((a + b : ℚ) : ℝ) / 2 ^ 98 := by
  obtain ⟨h, l, e1, e2, e3, e4⟩ := C76_sqrt a b s p ha1 hs hfin
  refine ⟨h, l, e1, e2, ?_⟩
  have hv : 0 ≤ a + b := by
    have := le_trans (abs_nonneg _) e4
    by_contra hc
    push Not at hc
    have : (a + b) / 2 ^ 98 < 0 := div_neg_of_neg_of_pos hc (by positivity)
    linarith
  obtain ⟨r, hr⟩ : ∃ r : ℝ, r = ((h + l : ℚ) : ℝ) := ⟨_, rfl⟩
  obtain ⟨v, hvv⟩ : ∃ v : ℝ, v = ((a + b : ℚ) : ℝ) := ⟨_, rfl⟩
  have hr0 : 0 < r := by rw [hr]; exact_mod_cast e3
  have hv0 : 0 ≤ v := by rw [hvv]; exact_mod_cast hv
  have e5 : |r ^ 2 - v| ≤ v / 2 ^ 98 := by rw [hr, hvv]; exact_mod_cast e4
  rw [← hr, ← hvv]
  have s0 := Real.sqrt_nonneg v
  have s2 := Real.sq_sqrt hv0
  have hprod : |r - √v| * (r + √v) ≤ √v / 2 ^ 98 * √v := by
    have : |r - √v| * (r + √v) = |r ^ 2 - v| := by
      rw [← abs_of_pos (by linarith : 0 < r + √v), ← abs_mul]
      congr 1
      nlinarith
    rw [this]
    refine le_trans e5 (le_of_eq ?_)
    rw [div_mul_eq_mul_div, ← pow_two, s2]
  rcases s0.eq_or_lt with h0 | h0
  · rw [← h0] at hprod ⊢
    simp only [zero_div, zero_mul, add_zero] at hprod ⊢
    by_contra hc
    push Not at hc
    have := mul_pos hc hr0
    linarith
  · by_contra hc
    push Not at hc
    have h1 : √v / 2 ^ 98 * √v < |r - √v| * √v := mul_lt_mul_of_pos_right hc h0
    have h2 : 0 ≤ |r - √v| * r := mul_nonneg (abs_nonneg _) hr0.le
    linarith

/-- C76: zero and negative numbers. -/
theorem C76_special (a b : ℚ) (p : IsPair a b) :
    (a + b = 0 → (⟨Fl.fin a, Fl.fin b⟩ : DD (B64 sq hy)).sqrt = ⟨Fl.fin 0, Fl.fin 0⟩) ∧
    (a + b < 0 → (⟨Fl.fin a, Fl.fin b⟩ : DD (B64 sq hy)).sqrt = DD.nan) := by
  have hn := p.near
  constructor
  · intro h
    rw [h, near_zero] at hn
    subst hn
    have hb : b = 0 := by linarith
    subst hb
    have hz : (⟨Fl.fin 0, Fl.fin 0⟩ : DD (B64 sq hy)).isZero = true := by
      unfold DD.isZero; rw [lit64]; rfl
    unfold DD.sqrt
    rw [hz, if_pos rfl]
    unfold DD.ofF; rw [lit64]
  · intro h
    have ha : a < 0 := by
      have h1 := near_nonpos h.le
      rw [hn] at h1
      rcases h1.eq_or_lt with h2 | h2
      · subst h2
        have := p.zero
        linarith
      · exact h2
    have hz : (⟨Fl.fin a, Fl.fin b⟩ : DD (B64 sq hy)).isZero = false := by
      unfold DD.isZero
      rw [lit64]
      show (decide (a = 0) && decide (b = 0)) = false
      simp [ha.ne]
    have hng : (⟨Fl.fin a, Fl.fin b⟩ : DD (B64 sq hy)).isNegative = true := by
      unfold DD.isNegative
      rw [lit64]
      show (decide (a < 0) || (decide (a = 0) && decide (b < 0))) = true
      simp [ha]
    unfold DD.sqrt
    rw [hz, hng, if_neg Bool.false_ne_true, if_pos rfl]

/-- The square root of two, and of a number that is no double. -/
example : IsPair 2 0 ∧ GoodSqrt (fun _ => .fin (6369051672525773 / 2 ^ 52)) 2 (6369051672525773 / 2 ^ 52) ∧ (2 : ℚ) ^ (-900 : ℤ) ≤ 2 ∧
    isFinite ((⟨Fl.fin 2, Fl.fin 0⟩ : DD (B64 (fun _ => .fin (6369051672525773 / 2 ^ 52)) (fun _ _ => .nan))).sqrt).hi = true := by
  refine ⟨.ofF (f64_of (by decide +kernel)), ⟨rfl, f64_of (by decide +kernel), by norm_num, by norm_num, by norm_num⟩, by decide +kernel, by decide +kernel⟩

end Verif.Props
