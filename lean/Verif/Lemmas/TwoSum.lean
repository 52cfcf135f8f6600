import Verif.Lemmas.Binary64

/-! # Exact sums and products of binary64 numbers, without upper bound on the exponent -/

namespace Verif.Binary64

/-- `v` is a multiple of `2^e`. -/
def Mul2 (e : ℤ) (v : ℚ) : Prop := ∃ k : ℤ, v = k * 2 ^ e

theorem Mul2.add {e : ℤ} {a b : ℚ} (ha : Mul2 e a) (hb : Mul2 e b) : Mul2 e (a + b) := by
  obtain ⟨k, rfl⟩ := ha; obtain ⟨l, rfl⟩ := hb
  exact ⟨k + l, by push_cast; ring⟩
theorem Mul2.neg {e : ℤ} {a : ℚ} (ha : Mul2 e a) : Mul2 e (-a) := by
  obtain ⟨k, rfl⟩ := ha
  exact ⟨-k, by push_cast; ring⟩
theorem Mul2.sub {e : ℤ} {a b : ℚ} (ha : Mul2 e a) (hb : Mul2 e b) : Mul2 e (a - b) := by
  rw [sub_eq_add_neg]; exact ha.add hb.neg
theorem Mul2.mul {e f : ℤ} {a b : ℚ} (ha : Mul2 e a) (hb : Mul2 f b) : Mul2 (e + f) (a * b) := by
  obtain ⟨k, rfl⟩ := ha; obtain ⟨l, rfl⟩ := hb
  exact ⟨k * l, by rw [two_add]; push_cast; ring⟩
theorem Mul2.mono {e f : ℤ} {a : ℚ} (ha : Mul2 f a) (h : e ≤ f) : Mul2 e a := by
  obtain ⟨k, rfl⟩ := ha
  refine ⟨k * 2 ^ (f - e).toNat, ?_⟩
  push_cast
  rw [mul_assoc, ← zpow_natCast, ← two_add]
  congr 2; omega
theorem mul2_zero (e : ℤ) : Mul2 e 0 := ⟨0, by simp⟩

/-- A multiple of `2^e` that is not zero is at least `2^e`. -/
theorem Mul2.le_abs {e : ℤ} {a : ℚ} (ha : Mul2 e a) (h : a ≠ 0) : 2 ^ e ≤ |a| := by
  obtain ⟨k, rfl⟩ := ha
  have hk : k ≠ 0 := by rintro rfl; simp at h
  have : (1 : ℚ) ≤ |(k : ℚ)| := by exact_mod_cast Int.one_le_abs hk
  rw [abs_mul, abs_of_pos (two_pos e)]
  nlinarith [two_pos e]

/-- Multiples of `2^e` differ by at least `2^e`: below `2^f` means at most `2^f - 2^e`. -/
theorem Mul2.lt_le {e f : ℤ} {a : ℚ} (ha : Mul2 e a) (hf : e ≤ f) (h : |a| < 2 ^ f) : |a| ≤ 2 ^ f - 2 ^ e := by
  have h1 : Mul2 e (2 ^ f - |a|) := by
    have : Mul2 f (2 ^ f) := ⟨1, by simp⟩
    refine (this.mono hf).sub ?_
    rcases abs_cases a with h | h
    · rw [h.1]; exact ha
    · rw [h.1]; exact ha.neg
  have := h1.le_abs (by linarith : (2 : ℚ) ^ f - |a| ≠ 0)
  rw [abs_of_pos (by linarith)] at this
  linarith

theorem rep_mul2 {v : ℚ} {e : ℤ} (he : -1074 ≤ e) (h : Mul2 e v) (hb : |v| ≤ 2 ^ (e + 53)) : Rep v := by
  obtain ⟨k, hk⟩ := h
  exact rep_of_mult k e he hk hb

/-- A number of the format is a multiple of its last place. -/
theorem Rep.mul2 {v : ℚ} (h : Rep v) : Mul2 (expo v) v := ⟨roundEven (v / 2 ^ expo v), (near_of_rep h).symm⟩

/-- A rounded number is a multiple of the last place of the exact one. -/
theorem near_mul2 (q : ℚ) : Mul2 (expo q) (near q) := ⟨_, rfl⟩

theorem near_keeps {q : ℚ} {e : ℤ} (he : -1074 ≤ e) (h : Mul2 e q) : Mul2 e (near q) := by
  obtain ⟨k, hk⟩ := h
  exact near_mult q k e he hk

/-- A multiple of `2^e` with its last place at most `e` is a number of the format. -/
theorem rep_of_expo {v : ℚ} {e : ℤ} (he : -1074 ≤ e) (h : Mul2 e v) (hx : expo v ≤ e) : Rep v :=
  rep_mul2 he h (le_trans (abs_lt_expo v).le (two_mono (by omega)))

theorem rep_near_iff {v : ℚ} : Rep v ↔ near v = v := ⟨near_of_rep, fun h => h ▸ near_rep v⟩

/-- If a multiple of `2^e` is rounded, its last place is above `e`. -/
theorem expo_of_inexact {v : ℚ} {e : ℤ} (he : -1074 ≤ e) (h : Mul2 e v) (hx : ¬Rep v) : e + 1 ≤ expo v := by
  by_contra hc
  exact hx (rep_of_expo he h (by omega))

theorem expo_mono {a b : ℚ} (h : |a| ≤ |b|) : expo a ≤ expo b := by
  rcases eq_or_ne a 0 with rfl | ha
  · rw [expo_zero]; exact expo_ge b
  · have hb : b ≠ 0 := by
      rintro rfl
      rw [abs_zero] at h
      exact ha (abs_nonpos_iff.mp h)
    unfold expo
    rw [if_neg ha, if_neg hb]
    have := Int.log_mono_right (b := 2) (abs_pos.mpr ha) h
    omega

/-- Bound on the last place. -/
theorem expo_le {v : ℚ} {e : ℤ} (he : -1074 ≤ e) (h : |v| < 2 ^ (e + 53)) : expo v ≤ e := by
  by_contra hc
  push Not at hc
  rcases eq_or_ne v 0 with rfl | hv
  · have : expo 0 = -1074 := expo_zero
    omega
  · have := expo_le_abs v hv (by omega)
    have h2 : (2 : ℚ) ^ (e + 53) ≤ 2 ^ (expo v + 52) := two_mono (by omega)
    linarith

theorem le_expo {v : ℚ} {e : ℤ} (h : 2 ^ (e + 52) ≤ |v|) : e ≤ expo v := by
  have := lt_of_le_of_lt h (abs_lt_expo v)
  rw [two_lt_iff] at this
  omega

/-! ## Sums -/

/-- The rounding error of a sum is a number of the format. -/
theorem err_rep {a b : ℚ} (ha : Rep a) (hb : Rep b) : Rep (a + b - near (a + b)) := by
  wlog h : expo a ≤ expo b generalizing a b
  · rw [add_comm]; exact this hb ha (by omega)
  have hm : Mul2 (expo a) (a + b) := ha.mul2.add (hb.mul2.mono h)
  have h1 := near_nearest (a + b) b hb
  rw [add_sub_cancel_right] at h1
  exact rep_mul2 (expo_ge a) (hm.sub (near_keeps (expo_ge a) hm)) (le_trans h1 (abs_lt_expo a).le)

theorem err_le_left {a b : ℚ} (hb : Rep b) : |a + b - near (a + b)| ≤ |a| := by
  have h1 := near_nearest (a + b) b hb
  rwa [add_sub_cancel_right] at h1

/-- After adding the number with the smaller exponent, the part of it that entered the sum is found exactly. -/
theorem fast_rep {a b : ℚ} (ha : Rep a) (hb : Rep b) (h : expo b ≤ expo a) : Rep (near (a + b) - a) := by
  by_cases hx : Rep (a + b)
  · rw [near_of_rep hx, add_sub_cancel_left]; exact hb
  have hm : Mul2 (expo b) (a + b) := (ha.mul2.mono h).add hb.mul2
  have he := expo_of_inexact (expo_ge b) hm hx
  have hx2 : Mul2 (expo b + 1) (near (a + b)) := (near_mul2 (a + b)).mono he
  have hsum : |near (a + b) - a| ≤ |b| + |a + b - near (a + b)| := by
    have : near (a + b) - a = b + -(a + b - near (a + b)) := by ring
    rw [this]
    refine le_trans (abs_add_le _ _) ?_
    rw [abs_neg]
  have herr : |a + b - near (a + b)| ≤ |b| := by rw [add_comm a b]; exact err_le_left ha
  rcases h.eq_or_lt with h2 | h2
  · have hlt : |a + b| < 2 ^ (expo b + 1 + 53) := by
      have e : (2 : ℚ) ^ (expo b + 1 + 53) = 2 ^ (expo b + 53) * 2 := by
        rw [show expo b + 1 + 53 = expo b + 53 + 1 by ring, two_add _ 1]; congr 1
      rw [e]
      have h3 := abs_lt_expo a
      rw [← h2] at h3
      linarith [abs_add_le a b, abs_lt_expo b]
    have hle := expo_le (by have := expo_ge b; omega) hlt
    have hee : expo (a + b) = expo b + 1 := by omega
    have h5 := near_err (a + b)
    rw [hee, two_add, zpow_one] at h5
    have h6 := hb.mul2.lt_le (by omega : expo b ≤ expo b + 53) (abs_lt_expo b)
    refine rep_mul2 (expo_ge b) ((hx2.mono (by omega)).sub (ha.mul2.mono h)) ?_
    linarith
  · refine rep_mul2 (by have := expo_ge b; omega) (hx2.sub (ha.mul2.mono (by omega : expo b + 1 ≤ expo a))) ?_
    have e : (2 : ℚ) ^ (expo b + 1 + 53) = 2 ^ (expo b + 53) * 2 := by
      rw [show expo b + 1 + 53 = expo b + 53 + 1 by ring, two_add _ 1]; congr 1
    rw [e]
    linarith [abs_lt_expo b]

/-- The sum of two numbers whose exponents are in order, and its error, as computed. -/
theorem fast_two_sum {a b : ℚ} (ha : Rep a) (hb : Rep b) (h : expo b ≤ expo a) :
    near (b + near (a - near (a + b))) = a + b - near (a + b) := by
  have h1 := fast_rep ha hb h
  have h2 : near (a - near (a + b)) = a - near (a + b) := by
    rw [← neg_sub, near_neg, near_of_rep h1]
  rw [h2]
  have : b + (a - near (a + b)) = a + b - near (a + b) := by ring
  rw [this, near_of_rep (err_rep ha hb)]

/-- The sum of any two numbers and its error, as computed. -/
theorem two_sum {a b : ℚ} (ha : Rep a) (hb : Rep b) (x e s : ℚ) (hx : near (a + b) = x) (he : near (x - a) = e) (hs : near (x - e) = s) :
    near (near (b - e) + near (a - s)) = a + b - x := by
  have hxr : Rep x := hx ▸ near_rep _
  have herr : Rep (a + b - x) := hx ▸ err_rep ha hb
  have simple : e = x - a → near (near (b - e) + near (a - s)) = a + b - x := by
    intro h1
    have h2 : s = a := by rw [← hs, h1, sub_sub_cancel, near_of_rep ha]
    rw [h2, h1, sub_self, near_zero, add_zero, show b - (x - a) = a + b - x by ring, near_of_rep herr, near_of_rep herr]
  by_cases h : expo b ≤ expo a
  · apply simple
    have := fast_rep ha hb h
    rw [hx] at this
    rw [← he, near_of_rep this]
  push Not at h
  have hm : Mul2 (expo a) (a + b) := ha.mul2.add (hb.mul2.mono h.le)
  have hxm : Mul2 (expo a) x := hx ▸ near_keeps (expo_ge a) hm
  by_cases h2 : expo a ≤ expo x
  · -- `x - a` with error
    have h3 := fast_rep hxr ha.neg (by rw [expo_neg]; exact h2)
    rw [← sub_eq_add_neg, he] at h3
    have hs2 : s = x - e := by
      rw [← hs, ← neg_sub, near_neg, near_of_rep h3]
    have h4 : Rep (x - a - e) := by
      have := err_rep hxr ha.neg
      rwa [← sub_eq_add_neg, he] at this
    have h5 : near (a - s) = -(x - a - e) := by
      rw [hs2, show a - (x - e) = -(x - a - e) by ring, near_neg, near_of_rep h4]
    by_cases h6 : Rep (x - a)
    · apply simple; rw [← he, near_of_rep h6]
    have h7 : Rep (b - e) := by
      have e1 := expo_of_inexact (expo_ge a) (hxm.sub ha.mul2) h6
      have e2 : Mul2 (expo a + 1) e := he ▸ (near_mul2 (x - a)).mono e1
      refine rep_mul2 (by have := expo_ge a; omega) ((hb.mul2.mono (by omega)).sub e2) ?_
      have e3 : |x - a - e| ≤ |x - a - b| := he ▸ near_nearest (x - a) b hb
      have e4 : |x - a - b| = |a + b - x| := by rw [← abs_neg]; congr 1; ring
      have e5 : |a + b - x| ≤ |a| := hx ▸ err_le_left hb
      have e6 : |b - e| ≤ |a + b - x| + |x - a - e| := by
        have : b - e = (a + b - x) + (x - a - e) := by ring
        rw [this]; exact abs_add_le _ _
      have e7 : (2 : ℚ) ^ (expo a + 1 + 53) = 2 ^ (expo a + 53) * 2 := by
        rw [show expo a + 1 + 53 = expo a + 53 + 1 by ring, two_add _ 1]; congr 1
      rw [e7]
      linarith [abs_lt_expo a]
    rw [h5, near_of_rep h7, show b - e + -(x - a - e) = a + b - x by ring, near_of_rep herr]
  · -- cancellation
    push Not at h2
    have hexp : expo (a + b) ≤ expo a := by
      by_contra hc
      push Not at hc
      have h0 : a + b ≠ 0 := by
        intro h0
        rw [h0] at hc
        have : expo 0 = -1074 := expo_zero
        have := expo_ge a
        omega
      have h3 := expo_le_abs (a + b) h0 (by have := expo_ge a; omega)
      have h4 : (2 : ℚ) ^ (expo (a + b) + 52) ≤ |x| := by
        have hr : Rep (2 ^ (expo (a + b) + 52)) := ⟨1, expo (a + b) + 52, by norm_num, by have := expo_ge (a + b); omega, by simp⟩
        rcases abs_cases (a + b) with h5 | h5
        · rw [h5.1] at h3
          have := near_mono h3
          rw [near_of_rep hr, hx] at this
          exact le_trans this (le_abs_self _)
        · rw [h5.1] at h3
          have := near_mono h3
          rw [near_of_rep hr, near_neg, hx] at this
          exact le_trans this (neg_le_abs _)
      have h5 := le_expo h4
      omega
    have hab : a + b = x := by rw [← hx, near_of_rep (rep_of_expo (expo_ge a) hm hexp)]
    apply simple
    rw [← he, ← hab, add_sub_cancel_left, near_of_rep hb]

/-- Sterbenz: the difference of numbers within a factor of two is exact. -/
theorem sterbenz {a b : ℚ} (ha : Rep a) (hb : Rep b) (h1 : b ≤ 2 * a) (h2 : a ≤ 2 * b) : Rep (a - b) := by
  have hb0 : 0 ≤ b := by linarith
  have ha0 : 0 ≤ a := by linarith
  wlog h : b ≤ a generalizing a b
  · have := this hb ha h2 h1 ha0 hb0 (by linarith)
    rw [← neg_sub]; exact this.neg
  have he : expo b ≤ expo a := expo_mono (by rw [abs_of_nonneg ha0, abs_of_nonneg hb0]; exact h)
  refine rep_mul2 (expo_ge b) ((ha.mul2.mono he).sub hb.mul2) ?_
  rw [abs_of_nonneg (by linarith)]
  have := abs_lt_expo b
  rw [abs_of_nonneg hb0] at this
  linarith

end Verif.Binary64
