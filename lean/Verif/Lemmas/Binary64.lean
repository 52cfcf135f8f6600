import Verif.Base.Binary64

/-! # Facts about binary64 rounding -/

namespace Verif.Binary64

theorem two_pos (e : ℤ) : (0 : ℚ) < 2 ^ e := zpow_pos (by norm_num) e

theorem two_add (a b : ℤ) : (2 : ℚ) ^ (a + b) = 2 ^ a * 2 ^ b := zpow_add₀ (by norm_num) a b

theorem two_mono {a b : ℤ} (h : a ≤ b) : (2 : ℚ) ^ a ≤ 2 ^ b := zpow_le_zpow_right₀ (by norm_num) h

theorem two_le_iff {a b : ℤ} : (2 : ℚ) ^ a ≤ 2 ^ b ↔ a ≤ b := zpow_le_zpow_iff_right₀ (by norm_num)

theorem two_lt_iff {a b : ℤ} : (2 : ℚ) ^ a < 2 ^ b ↔ a < b := zpow_lt_zpow_iff_right₀ (by norm_num)

/-! ## Nearest integer -/

theorem roundEven_spec (x : ℚ) : |x - roundEven x| < 1 / 2 ∨ (|x - roundEven x| = 1 / 2 ∧ roundEven x % 2 = 0) := by
  have h1 := Int.floor_le x
  have h2 := Int.lt_floor_add_one x
  unfold roundEven
  split_ifs with a b c
  · left; rw [abs_of_nonneg (by linarith)]; exact a
  · left; push_cast; rw [abs_of_nonpos (by linarith)]; linarith
  · right; exact ⟨by rw [abs_of_nonneg (by linarith)]; linarith, c⟩
  · right; push_cast; exact ⟨by rw [abs_of_nonpos (by linarith)]; linarith, by omega⟩

theorem roundEven_unique (x : ℚ) (n : ℤ) (h : |x - n| < 1 / 2 ∨ (|x - n| = 1 / 2 ∧ n % 2 = 0)) : roundEven x = n := by
  have hs := roundEven_spec x
  obtain ⟨k, hk⟩ : ∃ k, k = roundEven x := ⟨_, rfl⟩
  rw [← hk] at hs ⊢
  have hx : |((k : ℚ) - n)| ≤ |x - k| + |x - n| := by
    have := abs_sub_le (k : ℚ) x n
    rwa [abs_sub_comm (k : ℚ) x] at this
  have hle1 : |x - k| ≤ 1 / 2 := by rcases hs with h | h; exact h.le; exact h.1.le
  have hle2 : |x - n| ≤ 1 / 2 := by rcases h with h | h; exact h.le; exact h.1.le
  have hcast : |((k : ℚ) - n)| = ((|k - n| : ℤ) : ℚ) := by push_cast; rfl
  rw [hcast] at hx
  have hint : |k - n| ≤ 1 := by
    have : ((|k - n| : ℤ) : ℚ) ≤ 1 := by linarith
    exact_mod_cast this
  by_contra hne
  have h1 : |k - n| = 1 := by
    have : 0 < |k - n| := abs_pos.mpr (sub_ne_zero.mpr hne)
    omega
  rw [h1] at hx
  push_cast at hx
  have e1 : |x - k| = 1 / 2 := by linarith
  have e2 : |x - n| = 1 / 2 := by linarith
  have p1 : k % 2 = 0 := by rcases hs with h | h; linarith; exact h.2
  have p2 : n % 2 = 0 := by rcases h with h | h; linarith; exact h.2
  rcases (abs_eq (by norm_num : (0 : ℤ) ≤ 1)).mp h1 with h | h <;> omega

theorem roundEven_int (n : ℤ) : roundEven n = n := roundEven_unique _ _ (Or.inl (by simp))

theorem roundEven_neg (x : ℚ) : roundEven (-x) = -roundEven x := by
  apply roundEven_unique
  have e : |-x - ((-roundEven x : ℤ) : ℚ)| = |x - roundEven x| := by
    push_cast; rw [← abs_neg]; congr 1; ring
  rw [e]
  rcases roundEven_spec x with h | h
  · exact Or.inl h
  · exact Or.inr ⟨h.1, by omega⟩

theorem roundEven_err (x : ℚ) : |x - roundEven x| ≤ 1 / 2 := by
  rcases roundEven_spec x with h | h
  · exact h.le
  · exact h.1.le

/-- No integer is nearer. -/
theorem roundEven_nearest (x : ℚ) (n : ℤ) : |x - roundEven x| ≤ |x - n| := by
  by_cases h : roundEven x = n
  · rw [h]
  · have h1 : 1 ≤ |roundEven x - n| := Int.one_le_abs (sub_ne_zero.mpr h)
    have h2 : (1 : ℚ) ≤ |(roundEven x : ℚ) - n| := by exact_mod_cast h1
    have h3 := abs_sub_le (roundEven x : ℚ) x n
    rw [abs_sub_comm (roundEven x : ℚ) x] at h3
    linarith [roundEven_err x]

/-! ## Nearest number -/

theorem expo_zero : expo 0 = -1074 := if_pos rfl

theorem expo_ge (q : ℚ) : -1074 ≤ expo q := by
  unfold expo; split_ifs
  · exact le_rfl
  · exact le_max_right _ _

theorem abs_lt_expo (q : ℚ) : |q| < 2 ^ (expo q + 53) := by
  rcases eq_or_ne q 0 with rfl | h0
  · rw [abs_zero]; exact two_pos _
  have h := Int.lt_zpow_succ_log_self (b := 2) (by norm_num) |q|
  refine lt_of_lt_of_le h ?_
  push_cast
  apply two_mono
  have := le_max_left (Int.log 2 |q| - 52) (-1074)
  unfold expo
  rw [if_neg h0]
  omega

theorem expo_le_abs (q : ℚ) (h0 : q ≠ 0) (h : -1074 < expo q) : 2 ^ (expo q + 52) ≤ |q| := by
  have hl := Int.zpow_log_le_self (b := 2) (by norm_num) (abs_pos.mpr h0)
  push_cast at hl
  have : expo q = Int.log 2 |q| - 52 := by unfold expo at *; rw [if_neg h0] at *; omega
  rw [this]
  simpa using hl

theorem expo_neg (q : ℚ) : expo (-q) = expo q := by unfold expo; simp only [abs_neg, neg_eq_zero]

theorem near_neg (q : ℚ) : near (-q) = -near q := by
  unfold near
  rw [expo_neg, neg_div, roundEven_neg]
  push_cast; ring

theorem near_zero : near 0 = 0 := by
  unfold near
  rw [zero_div]
  have := roundEven_int 0
  push_cast at this
  rw [this]; simp

/-- The error is at most half a unit in the last place. -/
theorem near_err (q : ℚ) : |q - near q| ≤ 2 ^ expo q / 2 := by
  have h := roundEven_err (q / 2 ^ expo q)
  have hp := two_pos (expo q)
  have e : q - near q = (q / 2 ^ expo q - roundEven (q / 2 ^ expo q)) * 2 ^ expo q := by
    unfold near; field_simp
  rw [e, abs_mul, abs_of_pos hp]
  nlinarith

/-- The result is a number of the format (without upper bound). -/
theorem near_rep (q : ℚ) : Rep (near q) := by
  refine ⟨roundEven (q / 2 ^ expo q), expo q, ?_, expo_ge q, rfl⟩
  have hp := two_pos (expo q)
  have h1 : |q / 2 ^ expo q| < 2 ^ 53 := by
    rw [abs_div, abs_of_pos hp, div_lt_iff₀ hp]
    have := abs_lt_expo q
    rw [two_add] at this
    rw [mul_comm]; exact_mod_cast this
  have h2 := roundEven_err (q / 2 ^ expo q)
  have h3 : |((roundEven (q / 2 ^ expo q) : ℤ) : ℚ)| < 2 ^ 53 + 1 := by
    have := abs_sub_abs_le_abs_sub ((roundEven (q / 2 ^ expo q) : ℤ) : ℚ) (q / 2 ^ expo q)
    rw [abs_sub_comm] at this
    linarith
  have h4 : |roundEven (q / 2 ^ expo q)| < 2 ^ 53 + 1 := by exact_mod_cast h3
  omega

/-- A multiple of the unit of `q` is no nearer. -/
theorem near_nearest_mul (q : ℚ) (n : ℤ) : |q - near q| ≤ |q - n * 2 ^ expo q| := by
  have hp := two_pos (expo q)
  have h := roundEven_nearest (q / 2 ^ expo q) n
  have e : ∀ k : ℤ, |q - k * 2 ^ expo q| = |q / 2 ^ expo q - k| * 2 ^ expo q := by
    intro k
    rw [← abs_of_pos hp, ← abs_mul, abs_of_pos hp]
    congr 1; field_simp
  rw [e n]
  unfold near
  rw [e]
  exact mul_le_mul_of_nonneg_right h hp.le

/-- No number of the format is nearer. -/
theorem near_nearest (q v : ℚ) (hv : Rep v) : |q - near q| ≤ |q - v| := by
  obtain ⟨m, e, hm, he, rfl⟩ := hv
  by_cases h0 : q = 0
  · rw [h0, near_zero, sub_zero, abs_zero]; exact abs_nonneg _
  by_cases h : expo q ≤ e
  · have := near_nearest_mul q (m * 2 ^ (e - expo q).toNat)
    refine le_trans this (le_of_eq ?_)
    congr 2
    push_cast
    rw [mul_assoc, ← zpow_natCast, ← two_add]
    congr 2
    omega
  · push Not at h
    have h1 := expo_le_abs q h0 (by omega)
    have hb : |(m : ℚ) * 2 ^ e| ≤ 2 ^ (expo q + 52) := by
      rw [abs_mul, abs_of_pos (two_pos e)]
      have : |(m : ℚ)| ≤ 2 ^ (53 : ℤ) := by exact_mod_cast hm
      calc |(m : ℚ)| * 2 ^ e ≤ 2 ^ (53 : ℤ) * 2 ^ e := mul_le_mul_of_nonneg_right this (two_pos e).le
        _ = 2 ^ (53 + e) := (two_add _ _).symm
        _ ≤ 2 ^ (expo q + 52) := two_mono (by omega)
    rcases le_or_gt 0 q with hq | hq
    · rw [abs_of_nonneg hq] at h1
      have := near_nearest_mul q (2 ^ 52)
      refine le_trans this ?_
      have e1 : ((2 ^ 52 : ℤ) : ℚ) * 2 ^ expo q = 2 ^ (expo q + 52) := by rw [two_add]; push_cast; rw [mul_comm]
      rw [e1, abs_of_nonneg (by linarith), abs_of_nonneg (by linarith [le_abs_self ((m : ℚ) * 2 ^ e)])]
      linarith [le_abs_self ((m : ℚ) * 2 ^ e)]
    · rw [abs_of_neg hq] at h1
      have := near_nearest_mul q (-2 ^ 52)
      refine le_trans this ?_
      have e1 : ((-2 ^ 52 : ℤ) : ℚ) * 2 ^ expo q = -2 ^ (expo q + 52) := by rw [two_add]; push_cast; rw [neg_mul, mul_comm]
      rw [e1, abs_of_nonpos (by linarith), abs_of_nonpos (by linarith [neg_abs_le ((m : ℚ) * 2 ^ e)])]
      linarith [neg_abs_le ((m : ℚ) * 2 ^ e)]

/-- Numbers of the format are not changed. -/
theorem near_of_rep {v : ℚ} (hv : Rep v) : near v = v := by
  have := near_nearest v v hv
  rw [sub_self, abs_zero] at this
  have := abs_nonpos_iff.mp this
  linarith

/-- Rounding is monotone. -/
theorem near_mono {x y : ℚ} (h : x ≤ y) : near x ≤ near y := by
  by_contra hc
  push Not at hc
  have h1 := near_nearest x (near y) (near_rep y)
  have h2 := near_nearest y (near x) (near_rep x)
  have e1 : (near x + near y) / 2 ≤ x := by
    by_contra hlt; push Not at hlt
    rw [abs_of_nonpos (by linarith)] at h1
    have : |x - near y| < near x - x := by rw [abs_lt]; constructor <;> linarith
    linarith
  have e2 : y ≤ (near x + near y) / 2 := by
    by_contra hlt; push Not at hlt
    rw [abs_of_nonneg (by linarith : 0 ≤ y - near y)] at h2
    have : |y - near x| < y - near y := by rw [abs_lt]; constructor <;> linarith
    linarith
  have : x = y := by linarith
  rw [this] at hc
  exact lt_irrefl _ hc

theorem near_nonneg {q : ℚ} (h : 0 ≤ q) : 0 ≤ near q := by have := near_mono h; rwa [near_zero] at this
theorem near_nonpos {q : ℚ} (h : q ≤ 0) : near q ≤ 0 := by have := near_mono h; rwa [near_zero] at this

/-- Relative error above the subnormal numbers. -/
theorem near_rel (q : ℚ) (h : 2 ^ (-1022 : ℤ) ≤ |q|) : |q - near q| ≤ |q| / 2 ^ 53 := by
  have h0 : q ≠ 0 := by
    rintro rfl
    rw [abs_zero] at h
    exact absurd h (not_le.mpr (two_pos _))
  refine le_trans (near_err q) ?_
  have hq := abs_pos.mpr h0
  have hl : (-1022 : ℤ) ≤ Int.log 2 |q| := by
    rw [← Int.zpow_le_iff_le_log (by norm_num) hq]; exact_mod_cast h
  have he : expo q = Int.log 2 |q| - 52 := by unfold expo; rw [if_neg h0]; omega
  have := Int.zpow_log_le_self (b := 2) (by norm_num) hq
  push_cast at this
  have e2 : (2 : ℚ) ^ expo q = 2 ^ Int.log 2 |q| / 2 ^ 52 := by
    rw [he, sub_eq_add_neg, two_add, zpow_neg]; rfl
  rw [e2]
  have : (2 : ℚ) ^ Int.log 2 |q| / 2 ^ 52 / 2 = 2 ^ Int.log 2 |q| / 2 ^ 53 := by ring
  rw [this]
  apply div_le_div_of_nonneg_right ‹_› (by positivity)

theorem Rep.neg {v : ℚ} (h : Rep v) : Rep (-v) := by
  obtain ⟨m, e, hm, he, rfl⟩ := h
  exact ⟨-m, e, by rwa [abs_neg], he, by push_cast; ring⟩

theorem rep_zero : Rep 0 := ⟨0, 0, by norm_num, by norm_num, by simp⟩

/-- Every number of the format is a multiple of the least positive number. -/
theorem Rep.mult {v : ℚ} (h : Rep v) : ∃ k : ℤ, v = k * 2 ^ (-1074 : ℤ) := by
  obtain ⟨m, e, _, he, rfl⟩ := h
  refine ⟨m * 2 ^ (e + 1074).toNat, ?_⟩
  push_cast
  rw [mul_assoc, ← zpow_natCast, ← two_add]
  congr 2
  omega

/-- A multiple of `2^e` of small size is a number of the format. -/
theorem rep_of_mult {v : ℚ} (k e : ℤ) (he : -1074 ≤ e) (hv : v = k * 2 ^ e) (hb : |v| ≤ 2 ^ (e + 53)) : Rep v := by
  refine ⟨k, e, ?_, he, hv⟩
  rw [hv, abs_mul, abs_of_pos (two_pos e), two_add, mul_comm] at hb
  have := le_of_mul_le_mul_left hb (two_pos e)
  exact_mod_cast this

/-- Sums of two numbers of the format have a small relative error, however small they are. -/
theorem near_add_rel {a b : ℚ} (ha : Rep a) (hb : Rep b) : |a + b - near (a + b)| ≤ |a + b| / 2 ^ 53 := by
  by_cases h : 2 ^ (-1022 : ℤ) ≤ |a + b|
  · exact near_rel _ h
  · push Not at h
    obtain ⟨k, hk⟩ := ha.mult
    obtain ⟨l, hl⟩ := hb.mult
    have : Rep (a + b) := by
      refine rep_of_mult (k + l) (-1074) le_rfl (by rw [hk, hl]; push_cast; ring) (le_trans h.le (two_mono (by norm_num)))
    rw [near_of_rep this, sub_self, abs_zero]
    positivity

/-- Rounding keeps multiples of a power of two. -/
theorem near_mult (q : ℚ) (k e : ℤ) (he : -1074 ≤ e) (hq : q = k * 2 ^ e) : ∃ l : ℤ, near q = l * 2 ^ e := by
  by_cases h : e ≤ expo q
  · refine ⟨roundEven (q / 2 ^ expo q) * 2 ^ (expo q - e).toNat, ?_⟩
    unfold near
    push_cast
    rw [mul_assoc, ← zpow_natCast, ← two_add]
    congr 2
    omega
  · push Not at h
    refine ⟨k, ?_⟩
    rw [← hq]
    apply near_of_rep
    refine rep_of_mult k e he hq ?_
    have := abs_lt_expo q
    exact le_trans this.le (two_mono (by omega))

/-! ## Overflow -/

theorem rnd_fin_iff (q v : ℚ) : rnd q = .fin v ↔ near q = v ∧ |v| < 2 ^ 1024 := by
  unfold rnd
  constructor
  · intro h
    split_ifs at h with h1 h2
    injection h with h
    push Not at h1 h2
    rw [← h, abs_lt]
    exact ⟨rfl, h2, h1⟩
  · rintro ⟨rfl, h⟩
    rw [abs_lt] at h
    rw [if_neg (not_le.mpr h.2), if_neg (not_le.mpr h.1)]

/-- A finite result is a binary64 number. -/
theorem rnd_f64 {q v : ℚ} (h : rnd q = .fin v) : IsF64 v := by
  rw [rnd_fin_iff] at h
  exact ⟨h.1 ▸ near_rep q, h.2⟩

/-- Binary64 numbers are not changed. -/
theorem rnd_of_f64 {v : ℚ} (h : IsF64 v) : rnd v = .fin v := (rnd_fin_iff v v).mpr ⟨near_of_rep h.1, h.2⟩

/-- The result is never NaN. -/
theorem rnd_not_nan (q : ℚ) : rnd q ≠ .nan := by
  unfold rnd; split_ifs <;> simp

/-- No finite number is nearer; the result is infinite exactly if the nearest number without upper bound is not below 2^1024. -/
theorem rnd_nearest {q v w : ℚ} (h : rnd q = .fin v) (hw : IsF64 w) : |q - v| ≤ |q - w| := by
  rw [rnd_fin_iff] at h
  rw [← h.1]; exact near_nearest q w hw.1

end Verif.Binary64
