import Verif.Props.DDSqrt

/-! # C77: the accuracy of double-double powers -/

namespace Verif.Props
open Flt Verif.Spec Verif.Binary64

variable {sq : ℚ → Val} {hy : ℚ → ℚ → Val}

/-- Relative error of at most `m` parts in `2^99`. -/
def Within (m : ℕ) (v t : ℚ) : Prop := |v - t| ≤ m / 2 ^ 99 * |t|

theorem Within.refl (t : ℚ) : Within 0 t t := by unfold Within; simp

theorem Within.mono {m n : ℕ} {v t : ℚ} (h : Within m v t) (hm : m ≤ n) : Within n v t := by
  unfold Within at *
  have : (m : ℚ) ≤ n := by exact_mod_cast hm
  have h2 : (m : ℚ) / 2 ^ 99 ≤ n / 2 ^ 99 := div_le_div_of_nonneg_right this (by positivity)
  exact le_trans h (mul_le_mul_of_nonneg_right h2 (abs_nonneg t))

/-- The errors of the factors and of the product add up. -/
theorem Within.mul {m n : ℕ} {v w s t z : ℚ} (hv : Within m v s) (hw : Within n w t) (hm : m ≤ 2 ^ 40) (hn : n ≤ 2 ^ 40)
    (hz : |z - v * w| ≤ |v * w| / 2 ^ 100) : Within (m + n + 1) z (s * t) := by
  unfold Within at *
  have hm' : (m : ℚ) ≤ 2 ^ 40 := by exact_mod_cast hm
  have hn' : (n : ℚ) ≤ 2 ^ 40 := by exact_mod_cast hn
  have m0 : (0 : ℚ) ≤ m := Nat.cast_nonneg m
  have n0 : (0 : ℚ) ≤ n := Nat.cast_nonneg n
  obtain ⟨M, hM⟩ : ∃ M : ℚ, M = m / 2 ^ 99 := ⟨_, rfl⟩
  obtain ⟨N, hN⟩ : ∃ N : ℚ, N = n / 2 ^ 99 := ⟨_, rfl⟩
  rw [← hM] at hv
  rw [← hN] at hw
  have M0 : 0 ≤ M := by rw [hM]; positivity
  have N0 : 0 ≤ N := by rw [hN]; positivity
  have M1 : M ≤ 1 / 2 ^ 59 := by rw [hM, div_le_iff₀ (by positivity)]; refine le_trans hm' (by norm_num)
  have N1 : N ≤ 1 / 2 ^ 59 := by rw [hN, div_le_iff₀ (by positivity)]; refine le_trans hn' (by norm_num)
  have h1 : |v * w - s * t| ≤ (M + N + M * N) * |s * t| := by
    have e : v * w - s * t = (v - s) * t + s * (w - t) + (v - s) * (w - t) := by ring
    rw [e]
    have a1 := abs_add_le ((v - s) * t + s * (w - t)) ((v - s) * (w - t))
    have a2 := abs_add_le ((v - s) * t) (s * (w - t))
    have b1 : |(v - s) * t| ≤ M * |s * t| := by
      rw [abs_mul, abs_mul, ← mul_assoc]; exact mul_le_mul_of_nonneg_right hv (abs_nonneg t)
    have b2 : |s * (w - t)| ≤ N * |s * t| := by
      rw [abs_mul, abs_mul]
      have := mul_le_mul_of_nonneg_left hw (abs_nonneg s)
      linarith
    have b3 : |(v - s) * (w - t)| ≤ M * N * |s * t| := by
      rw [abs_mul, abs_mul]
      have := mul_le_mul hv hw (abs_nonneg _) (by positivity)
      linarith
    linarith
  have h2 : |v * w| ≤ (1 + M + N + M * N) * |s * t| := by
    have := abs_le_add_err (s * t) (v * w)
    rw [abs_sub_comm (s * t)] at this
    linarith
  have h3 : M * N ≤ 1 / 2 ^ 104 := by
    -- both are below 2^-59
    exact le_trans (mul_le_mul M1 N1 N0 (by positivity)) (by norm_num)
  have h4 := abs_add_le (z - v * w) (v * w - s * t)
  rw [sub_add_sub_cancel] at h4
  have h5 : ((m + n + 1 : ℕ) : ℚ) / 2 ^ 99 = M + N + 1 / 2 ^ 99 := by rw [hM, hN]; push_cast; ring
  rw [h5]
  have p0 := abs_nonneg (s * t)
  have h6 : (1 + M + N + M * N) * |s * t| ≤ (1 + 1 / 4) * |s * t| := by
    apply mul_le_mul_of_nonneg_right _ p0
    have : (1 : ℚ) / 2 ^ 59 ≤ 1 / 16 := by norm_num
    have : (1 : ℚ) / 2 ^ 104 ≤ 1 / 16 := by norm_num
    linarith
  have h7 : M * N * |s * t| ≤ 1 / 2 ^ 104 * |s * t| := mul_le_mul_of_nonneg_right h3 p0
  have h8 : |z - t * s| ≤ |z - t * s| := le_refl _
  have : |z - s * t| ≤ (M + N) * |s * t| + 1 / 2 ^ 104 * |s * t| + (1 + 1 / 4) * |s * t| / 2 ^ 100 := by
    have : |v * w| / 2 ^ 100 ≤ (1 + 1 / 4) * |s * t| / 2 ^ 100 := div_le_div_of_nonneg_right (h2.trans h6) (by positivity)
    linarith
  linarith

theorem Within.half {m : ℕ} {v t : ℚ} (h : Within m v t) (hm : m ≤ 2 ^ 40) : |t| / 2 ≤ |v| ∧ |v| ≤ 2 * |t| := by
  unfold Within at h
  have hm' : (m : ℚ) / 2 ^ 99 ≤ 1 / 2 := by
    rw [div_le_iff₀ (by positivity)]
    have : (m : ℚ) ≤ 2 ^ 40 := by exact_mod_cast hm
    exact le_trans this (by norm_num)
  have h1 := mul_le_mul_of_nonneg_right hm' (abs_nonneg t)
  have h2 := abs_sub_abs_le_abs_sub t v
  have h3 := abs_sub_abs_le_abs_sub v t
  rw [abs_sub_comm t] at h2
  constructor <;> linarith [abs_nonneg t]

/-- Pairs with a value of at least one half do not underflow. -/
theorem pair_big {h l : ℚ} (p : IsPair h l) (hv : 1 / 2 ≤ |h + l|) : 1 / 4 ≤ |h| := by
  have h1 := low_rel p.hi.1 p.lo.1 p.near
  have h2 := abs_add_le h l
  linarith [abs_nonneg h]

theorem noUnderflow_big {a c : ℚ} (ha : 1 / 4 ≤ |a|) (hc : 1 / 4 ≤ |c|) : NoUnderflow a c := by
  have k : (2 : ℚ) ^ (-2 : ℤ) = 1 / 4 := by norm_num
  refine Or.inr (Or.inr ⟨?_, ?_, ?_⟩)
  · unfold Normal; refine le_trans (two_mono (by norm_num : (-1022 : ℤ) ≤ -2)) (by rw [k]; exact ha)
  · unfold Normal; refine le_trans (two_mono (by norm_num : (-1022 : ℤ) ≤ -2)) (by rw [k]; exact hc)
  · rw [abs_mul]
    have h1 : (1 : ℚ) / 4 * (1 / 4) ≤ |a| * |c| := mul_le_mul ha hc (by norm_num) (abs_nonneg a)
    have k4 : (2 : ℚ) ^ (-4 : ℤ) = 1 / 4 * (1 / 4) := by norm_num
    refine le_trans (two_mono (by norm_num : (-968 : ℤ) ≤ -4)) (by rw [k4]; exact h1)

/-- A number with a finite high part close to `t`. -/
structure PowNear (m : ℕ) (x : DD (B64 sq hy)) (t : ℚ) : Prop where
  ex : ∃ h l, x = ⟨Fl.fin h, Fl.fin l⟩ ∧ IsPair h l ∧ Within m (h + l) t

theorem PowNear.mul {m n : ℕ} {x y : DD (B64 sq hy)} {s t : ℚ} (hx : PowNear m x s) (hy' : PowNear n y t) (hm : m ≤ 2 ^ 40) (hn : n ≤ 2 ^ 40)
    (hs : 1 ≤ |s|) (ht : 1 ≤ |t|) (hfin : isFinite (x.selfMul y).hi = true) : PowNear (m + n + 1) (x.selfMul y) (s * t) := by
  obtain ⟨h, l, rfl, p, hv⟩ := hx.ex
  obtain ⟨h', l', rfl, q, hw⟩ := hy'.ex
  have b1 := pair_big p (by linarith [(hv.half hm).1])
  have b2 := pair_big q (by linarith [(hw.half hn).1])
  obtain ⟨z, zl, e1, e2, e3⟩ := C67_product h l h' l' p q (noUnderflow_big b1 b2) hfin
  exact ⟨z, zl, e1, e2, hv.mul hw hm hn e3⟩

theorem selfMul_fin {x y : DD (B64 sq hy)} (h : isFinite (x.selfMul y).hi = true) : isFinite x.hi = true ∧ isFinite y.hi = true := by
  obtain ⟨v, hv⟩ := finite_fin h
  unfold DD.selfMul at hv
  rw [mulHiLo_errPart] at hv
  obtain ⟨_, _, e1, -, -, -⟩ := add64 hv
  obtain ⟨_, _, i1, i2, -, -⟩ := mul64 e1
  rw [i1, i2]; exact ⟨rfl, rfl⟩

theorem sqr_fin {x : DD (B64 sq hy)} (h : isFinite x.sqr.hi = true) : isFinite x.hi = true ∧ x.sqr = x.selfMul x := by
  unfold DD.sqr DD.mul at h ⊢
  cases hn : x.isNaN
  · rw [hn, if_neg Bool.false_ne_true] at h
    exact ⟨(selfMul_fin h).1, by rw [if_neg Bool.false_ne_true]⟩
  · rw [hn, if_pos rfl] at h
    cases h

/-- A finite power comes from finite factors. -/
theorem powLoop_fin (fuel n : ℕ) (hn : n < 2 ^ fuel) (r s : DD (B64 sq hy)) (h : isFinite (DD.powLoop fuel n r s).hi = true) :
    isFinite s.hi = true ∧ (0 < n → isFinite r.hi = true) := by
  induction fuel generalizing n r s with
  | zero =>
    have : n = 0 := by simpa using hn
    subst this
    exact ⟨h, fun h => absurd h (by norm_num)⟩
  | succ fuel ih =>
    unfold DD.powLoop at h
    by_cases h0 : 0 < n
    · rw [if_pos h0] at h
      dsimp only at h
      have hlt : n / 2 < 2 ^ fuel := by rw [pow_succ] at hn; omega
      obtain ⟨i1, i2⟩ := ih (n / 2) hlt _ _ h
      by_cases ho : n % 2 = 1
      · rw [if_pos ho] at i1
        have := selfMul_fin i1
        exact ⟨this.1, fun _ => this.2⟩
      · rw [if_neg ho] at i1
        refine ⟨i1, fun _ => ?_⟩
        have h2 : 0 < n / 2 := by omega
        have := i2 h2
        rw [if_pos h2] at this
        exact (sqr_fin this).1
    · rw [if_neg h0] at h
      exact ⟨h, fun h => absurd h h0⟩

/-- The loop multiplies by the power, each product costing one unit of error. -/
theorem powLoop_near (x : ℚ) (hx : 1 ≤ |x|) (fuel n i j : ℕ) (hn : n < 2 ^ fuel) (hj : 0 < j) (hb : i + n * j ≤ 2 ^ 40) (r s : DD (B64 sq hy))
    (hr : 0 < n → PowNear (j - 1) r (x ^ j)) (hs : PowNear i s (x ^ i)) (h : isFinite (DD.powLoop fuel n r s).hi = true) :
    PowNear (i + n * j) (DD.powLoop fuel n r s) (x ^ (i + n * j)) := by
  have pw : ∀ k, 1 ≤ |x ^ k| := fun k => by rw [abs_pow]; exact one_le_pow₀ hx
  induction fuel generalizing n r s i j with
  | zero =>
    have : n = 0 := by simpa using hn
    subst this
    simpa [DD.powLoop] using hs
  | succ fuel ih =>
    have hfin := powLoop_fin (fuel + 1) n hn r s h
    unfold DD.powLoop at h ⊢
    by_cases h0 : 0 < n
    · rw [if_pos h0] at h ⊢
      dsimp only at h ⊢
      have hlt : n / 2 < 2 ^ fuel := by rw [pow_succ] at hn; omega
      have hf2 := powLoop_fin fuel (n / 2) hlt _ _ h
      have hr0 := hr h0
      have hjb : j ≤ 2 ^ 40 := by
        have : 1 * j ≤ n * j := Nat.mul_le_mul_right j h0
        omega
      have hsum : n * j = 2 * (n / 2 * j) + n % 2 * j := by
        have : n = 2 * (n / 2) + n % 2 := by omega
        conv_lhs => rw [this]
        ring
      have hr2 : 0 < n / 2 → PowNear (2 * j - 1) (if 0 < n / 2 then r.sqr else r) (x ^ (2 * j)) := by
        intro h2
        have hq := hf2.2 h2
        rw [if_pos h2] at hq ⊢
        obtain ⟨g1, g2⟩ := sqr_fin hq
        rw [g2] at hq ⊢
        have := hr0.mul hr0 (by omega) (by omega) (pw j) (pw j) hq
        rw [← pow_add, show j + j = 2 * j by ring, show j - 1 + (j - 1) + 1 = 2 * j - 1 by omega] at this
        exact this
      by_cases ho : n % 2 = 1
      · rw [if_pos ho] at h hf2 ⊢
        have hs2 := hs.mul hr0 (by omega) (by omega) (pw i) (pw j) hf2.1
        rw [← pow_add, show i + (j - 1) + 1 = i + j by omega] at hs2
        rw [ho] at hsum
        have e : i + n * j = i + j + n / 2 * (2 * j) := by rw [hsum]; ring
        rw [e] at hb ⊢
        exact ih (n / 2) (i + j) (2 * j) hlt (by omega) hb _ _ hr2 hs2 h
      · rw [if_neg ho] at h hf2 ⊢
        rw [show n % 2 = 0 by omega] at hsum
        have e : i + n * j = i + n / 2 * (2 * j) := by rw [hsum]; ring
        rw [e] at hb ⊢
        exact ih (n / 2) i (2 * j) hlt (by omega) hb _ _ hr2 hs h
    · have : n = 0 := by omega
      subst this
      rw [if_neg h0]
      simpa using hs

theorem near_one : PowNear 0 (DD.ofF (lit 1) : DD (B64 sq hy)) 1 := by
  refine ⟨1, 0, ?_, .ofF f64_one, by rw [add_zero]; exact .refl 1⟩
  unfold DD.ofF
  rw [lit64, show (lit 1 : B64 sq hy) = Fl.fin 1 from rnd_of_f64 f64_one]

theorem pow_near (a b : ℚ) (p : IsPair a b) (hx : 1 ≤ |a + b|) (n : ℕ) (h0 : 0 < n) (hn : n < 2 ^ 31)
    (hfin : isFinite (if 1 < n then DD.powLoop 32 n (⟨Fl.fin a, Fl.fin b⟩ : DD (B64 sq hy)) (DD.ofF (lit 1)) else ⟨Fl.fin a, Fl.fin b⟩).hi = true) :
    PowNear n (if 1 < n then DD.powLoop 32 n (⟨Fl.fin a, Fl.fin b⟩ : DD (B64 sq hy)) (DD.ofF (lit 1)) else ⟨Fl.fin a, Fl.fin b⟩) ((a + b) ^ n) := by
  have hself : PowNear 0 (⟨Fl.fin a, Fl.fin b⟩ : DD (B64 sq hy)) ((a + b) ^ 1) := ⟨a, b, rfl, p, by rw [pow_one]; exact .refl _⟩
  by_cases h1 : 1 < n
  · rw [if_pos h1] at hfin ⊢
    have h2 : n < 2 ^ 32 := lt_trans hn (by norm_num)
    have hb : 0 + n * 1 ≤ 2 ^ 40 := by
      have : (2 : ℕ) ^ 31 ≤ 2 ^ 40 := by norm_num
      omega
    have := powLoop_near (sq := sq) (hy := hy) (a + b) hx 32 n 0 1 h2 (by norm_num) hb _ _ (fun _ => hself) (by rw [pow_zero]; exact near_one) hfin
    rwa [zero_add, mul_one] at this
  · have : n = 1 := by omega
    subst this
    rw [if_neg h1]
    obtain ⟨h, l, e1, e2, e3⟩ := hself.ex
    exact ⟨h, l, e1, e2, e3.mono (by norm_num)⟩

/-- C77: powers of numbers of at least one are accurate to the exponent in parts of `2^99`. -/
theorem C77_pow (a b : ℚ) (p : IsPair a b) (hx : 1 ≤ |a + b|) (n : ℕ) (h0 : 0 < n) (hn : n < 2 ^ 31)
    (z : DD (B64 sq hy)) (hz : (⟨Fl.fin a, Fl.fin b⟩ : DD (B64 sq hy)).pow n = .ok z) (hfin : isFinite z.hi = true) :
    ∃ h l, z = ⟨Fl.fin h, Fl.fin l⟩ ∧ IsPair h l ∧ |h + l - (a + b) ^ n| ≤ n / 2 ^ 99 * |a + b| ^ n := by
  unfold DD.pow at hz
  rw [if_neg (by omega), if_neg (by omega)] at hz
  dsimp only at hz
  rw [Int.natAbs_natCast, if_neg (by omega)] at hz
  injection hz with hz
  rw [← hz] at hfin ⊢
  obtain ⟨h, l, e1, e2, e3⟩ := (pow_near a b p hx n h0 hn hfin).ex
  refine ⟨h, l, e1, e2, ?_⟩
  rw [← abs_pow]; exact e3

theorem nan_sub64 (x : B64 sq hy) : x -. nan = nan := by cases x <;> rfl
theorem nan_add64 (x : B64 sq hy) : x +. nan = nan := by cases x <;> rfl

theorem reciprocal_fin {x : DD (B64 sq hy)} (h : isFinite x.reciprocal.hi = true) : isFinite x.hi = true := by
  have l1 : (lit 1 : B64 sq hy) = Fl.fin 1 := rnd_of_f64 f64_one
  obtain ⟨a, b⟩ := x
  unfold DD.reciprocal at h
  dsimp only at h ⊢
  rw [l1] at h
  have bad : (Fl.fin 1 /. a : B64 sq hy) *. a = nan → False := by
    intro hb
    rw [hb, nan_sub64] at h
    have e1 : ∀ u w z : B64 sq hy, (((nan : B64 sq hy) -. u) -. w) /. z = nan := by
      intro u w z
      have : (nan : B64 sq hy) -. u = nan := by cases u <;> rfl
      rw [this]
      have : (nan : B64 sq hy) -. w = nan := by cases w <;> rfl
      rw [this]
      cases z <;> rfl
    rw [e1, nan_add64] at h
    cases h
  cases a with
  | fin v => rfl
  | nan => exact (bad rfl).elim
  | pinf => exact (bad rfl).elim
  | ninf => exact (bad rfl).elim

/-- C77: with negative exponents there is the error of the reciprocal in addition. -/
theorem C77_pow_negative (a b : ℚ) (p : IsPair a b) (hx : 1 ≤ |a + b|) (n : ℕ) (h0 : 0 < n) (hn : n < 2 ^ 31) (hbig : |a + b| ^ n ≤ 2 ^ (900 : ℤ))
    (z : DD (B64 sq hy)) (hz : (⟨Fl.fin a, Fl.fin b⟩ : DD (B64 sq hy)).pow (-(n : ℤ)) = .ok z) (hfin : isFinite z.hi = true) :
    ∃ h l, z = ⟨Fl.fin h, Fl.fin l⟩ ∧ IsPair h l ∧ |h + l - 1 / (a + b) ^ n| ≤ (n + 1) / 2 ^ 99 * |1 / (a + b) ^ n| := by
  unfold DD.pow at hz
  rw [if_neg (by omega), if_neg (by omega)] at hz
  dsimp only at hz
  rw [Int.natAbs_neg, Int.natAbs_natCast, if_pos (by omega)] at hz
  injection hz with hz
  have hfin' := hfin
  rw [← hz] at hfin'
  obtain ⟨h, l, e1, e2, e3⟩ := (pow_near (sq := sq) (hy := hy) a b p hx n h0 hn (reciprocal_fin hfin')).ex
  rw [e1] at hz
  have hn40 : n ≤ 2 ^ 40 := by
    have : (2 : ℕ) ^ 31 ≤ 2 ^ 40 := by norm_num
    omega
  have ht : 1 ≤ |(a + b) ^ n| := by rw [abs_pow]; exact one_le_pow₀ hx
  obtain ⟨t, htt⟩ : ∃ t, t = (a + b) ^ n := ⟨_, rfl⟩
  rw [← abs_pow] at hbig
  rw [← htt] at e3 ht hbig ⊢
  obtain ⟨b1, b2⟩ := e3.half hn40
  have bh := pair_big e2 (by linarith)
  have hh0 : h ≠ 0 := by
    rintro rfl
    rw [abs_zero] at bh
    norm_num at bh
  have hu : NoUnderflowDiv 1 h := by
    have k : (2 : ℚ) ^ (-2 : ℤ) = 1 / 4 := by norm_num
    refine ⟨?_, Or.inr ⟨?_, ?_⟩⟩
    · unfold Normal; exact le_trans (two_mono (by norm_num : (-1022 : ℤ) ≤ -2)) (by rw [k]; exact bh)
    · rw [abs_one, show (1 : ℚ) = 2 ^ (0 : ℤ) by norm_num]; exact two_mono (by norm_num)
    · rw [abs_div, abs_one, le_div_iff₀ (abs_pos.mpr hh0), ← le_div_iff₀' (two_pos _), one_div, zpow_neg, inv_inv]
      have low := low_rel e2.hi.1 e2.lo.1 e2.near
      have h1 := abs_sub_abs_le_abs_sub h (-l)
      rw [abs_neg, sub_neg_eq_add] at h1
      have h3 := two_mono (by norm_num : (902 : ℤ) ≤ 960)
      rw [show (902 : ℤ) = 2 + 900 by norm_num, two_add, show (2 : ℚ) ^ (2 : ℤ) = 4 by norm_num] at h3
      generalize (2 : ℚ) ^ (900 : ℤ) = B at hbig h3
      generalize (2 : ℚ) ^ (960 : ℤ) = D at h3 ⊢
      linarith [abs_nonneg h]
  rw [← hz] at hfin
  obtain ⟨h', l', g1, g2, g3⟩ := C75_reciprocal h l e2 hu hfin
  refine ⟨h', l', hz ▸ g1, g2, ?_⟩
  unfold Within at e3
  have t0 : t ≠ 0 := by
    rintro rfl
    rw [abs_zero] at ht
    norm_num at ht
  have v0 : h + l ≠ 0 := by
    intro h0
    rw [h0, abs_zero] at b1
    linarith
  have T0 : 0 < |t| := abs_pos.mpr t0
  have V0 : 0 < |h + l| := abs_pos.mpr v0
  obtain ⟨e, he⟩ : ∃ e : ℚ, e = n / 2 ^ 99 := ⟨_, rfl⟩
  have e0 : 0 ≤ e := by rw [he]; positivity
  have eb : e ≤ 1 / 2 ^ 60 := by
    rw [he, div_le_iff₀ (by positivity)]
    have : (n : ℚ) ≤ 2 ^ 31 := by exact_mod_cast hn.le
    exact le_trans this (by norm_num)
  rw [← he] at e3
  -- the reciprocal of the approximate power
  have r1 : |1 / (h + l) - 1 / t| ≤ e * (1 + 2 * e) * |1 / t| := by
    have q1 : 1 / (h + l) - 1 / t = -(h + l - t) / ((h + l) * t) := by field_simp; ring
    rw [q1, abs_div, abs_neg, abs_mul, div_le_iff₀ (by positivity), abs_div, abs_one]
    have q2 : e * (1 + 2 * e) * (1 / |t|) * (|h + l| * |t|) = e * (1 + 2 * e) * |h + l| := by field_simp
    rw [q2]
    have q3 : (1 - e) * |t| ≤ |h + l| := by
      have := abs_sub_abs_le_abs_sub t (h + l)
      rw [abs_sub_comm t] at this
      linarith
    refine le_trans e3 ?_
    have q4 : e * (1 + 2 * e) * ((1 - e) * |t|) ≤ e * (1 + 2 * e) * |h + l| := mul_le_mul_of_nonneg_left q3 (by positivity)
    refine le_trans ?_ q4
    have q5 : e * |t| * 1 ≤ e * |t| * ((1 + 2 * e) * (1 - e)) := mul_le_mul_of_nonneg_left (by nlinarith) (by positivity)
    linarith
  have r2 : |1 / (h + l)| ≤ 2 * |1 / t| := by
    rw [abs_div, abs_div, abs_one, div_le_iff₀ V0]
    have : 2 * (1 / |t|) * |h + l| = 2 * |h + l| / |t| := by field_simp
    rw [this, le_div_iff₀ T0]
    linarith
  have r2' : |1 / (h + l)| ≤ (1 + 1 / 4) * |1 / t| := by
    have := abs_le_add_err (1 / t) (1 / (h + l))
    rw [abs_sub_comm (1 / t)] at this
    have q6 : e * (1 + 2 * e) * |1 / t| ≤ 1 / 4 * |1 / t| := mul_le_mul_of_nonneg_right (by nlinarith) (abs_nonneg _)
    linarith
  have r3 := abs_add_le (h' + l' - 1 / (h + l)) (1 / (h + l) - 1 / t)
  rw [sub_add_sub_cancel] at r3
  have r4 : e * (1 + 2 * e) * |1 / t| ≤ (e + 1 / 4 / 2 ^ 99) * |1 / t| := by
    apply mul_le_mul_of_nonneg_right _ (abs_nonneg _)
    have : e * e ≤ 1 / 2 ^ 60 * (1 / 2 ^ 60) := mul_le_mul eb eb e0 (by norm_num)
    have : e * (1 + 2 * e) = e + 2 * (e * e) := by ring
    have : (2 : ℚ) * (1 / 2 ^ 60 * (1 / 2 ^ 60)) ≤ 1 / 4 / 2 ^ 99 := by norm_num
    linarith
  have r5 : ((n : ℚ) + 1) / 2 ^ 99 = e + 1 / 2 ^ 99 := by rw [he]; ring
  rw [r5]
  have := abs_nonneg (1 / t)
  linarith

/-- C77: other exponents: zero gives one, and the least integer panics. -/
theorem C77_pow_special (x : DD (B64 sq hy)) : x.pow 0 = .ok ⟨Fl.fin 1, Fl.fin 0⟩ ∧ x.pow (-2147483648) = .error .arith := by
  constructor
  · unfold DD.pow DD.ofF
    rw [if_pos rfl, lit64, show (lit 1 : B64 sq hy) = Fl.fin 1 from rnd_of_f64 f64_one]
  · rfl

/-- A cube. -/
example : IsPair 3 (1 / 2 ^ 60) ∧ 1 ≤ |(3 : ℚ) + 1 / 2 ^ 60| ∧ ∃ z, (⟨Fl.fin 3, Fl.fin (1 / 2 ^ 60)⟩ : DD X64).pow 3 = .ok z ∧ isFinite z.hi = true := by
  refine ⟨⟨three_isF64, f64_of (by decide +kernel), by decide +kernel⟩, by decide +kernel, _, rfl, by decide +kernel⟩

/-- The inverse of a cube. -/
example : |(3 : ℚ) + 1 / 2 ^ 60| ^ 3 ≤ 2 ^ (900 : ℤ) ∧ ∃ z, (⟨Fl.fin 3, Fl.fin (1 / 2 ^ 60)⟩ : DD X64).pow (-3) = .ok z ∧ isFinite z.hi = true := by
  refine ⟨by decide +kernel, _, rfl, by decide +kernel⟩

end Verif.Props
