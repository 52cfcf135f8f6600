import Verif.Lemmas.DDSign
import Verif.Lemmas.TwoProd

/-! # The accuracy of a double-double product -/

namespace Verif.Binary64

/-- The error of rounding any number, with underflow. -/
theorem near_abs (q : ℚ) : |q - near q| ≤ |q| / 2 ^ 53 + 2 ^ (-1075 : ℤ) := by
  have h := near_err q
  have h0 := two_pos (-1075)
  have hq := abs_nonneg q
  rcases eq_or_lt_of_le (expo_ge q) with he | he
  · rw [← he, show (-1074 : ℤ) = -1075 + 1 by norm_num, two_add, zpow_one] at h
    have : 0 ≤ |q| / 2 ^ 53 := by positivity
    linarith
  · have hq0 : q ≠ 0 := by rintro rfl; rw [expo_zero] at he; exact absurd he (lt_irrefl _)
    have h2 := expo_le_abs q hq0 he
    rw [two_add] at h2
    have h3 : (2 : ℚ) ^ expo q / 2 ≤ |q| / 2 ^ 53 := by
      rw [le_div_iff₀ (by positivity)]
      have : (2 : ℚ) ^ (52 : ℤ) = 2 ^ 53 / 2 := by norm_num
      rw [this] at h2
      linarith
    linarith

/-- The size of the correction and the total error. -/
theorem mul_core {a b c d t1 t2 t w : ℚ} (hA : 2 ^ (-968 : ℤ) ≤ |a * c|) (hb : |b| ≤ 2 / 2 ^ 53 * |a|) (hd : |d| ≤ 2 / 2 ^ 53 * |c|)
    (h1 : near (a * d) = t1) (h2 : near (b * c) = t2) (h3 : near (t1 + t2) = t) (h4 : near ((a * c - near (a * c)) + t) = w)
    (re : Rep (a * c - near (a * c))) :
    |w| ≤ 8 / 2 ^ 53 * |a * c| ∧ |near (a * c) + w - (a + b) * (c + d)| ≤ |a * c| / 2 ^ 101 ∧ |a * c| * (1 - 2 / 2 ^ 53) ≤ |near (a * c)| := by
  have rt1 : Rep t1 := h1 ▸ near_rep _
  have rt2 : Rep t2 := h2 ▸ near_rep _
  have rt : Rep t := h3 ▸ near_rep _
  have e0 := near_abs (a * c)
  have e1 := near_abs (a * d)
  have e2 := near_abs (b * c)
  have e3 := near_add_rel rt1 rt2
  have e4 := near_add_rel re rt
  rw [h1] at e1
  rw [h2] at e2
  rw [h3] at e3
  rw [h4] at e4
  have hη : (2 : ℚ) ^ (-1075 : ℤ) ≤ |a * c| / 2 ^ 107 := by
    rw [le_div_iff₀ (by positivity)]
    refine le_trans (le_of_eq ?_) hA
    have : (2 : ℚ) ^ 107 = 2 ^ (107 : ℤ) := by norm_cast
    rw [this, ← two_add]; norm_num
  generalize (2 : ℚ) ^ (-1075 : ℤ) = η at *
  have m1 : |a * d| ≤ 2 / 2 ^ 53 * |a * c| := by
    rw [abs_mul, abs_mul]
    have := mul_le_mul_of_nonneg_left hd (abs_nonneg a)
    linarith
  have m2 : |b * c| ≤ 2 / 2 ^ 53 * |a * c| := by
    rw [abs_mul, abs_mul]
    have := mul_le_mul_of_nonneg_right hb (abs_nonneg c)
    linarith
  have m3 : |b * d| ≤ 4 / 2 ^ 106 * |a * c| := by
    rw [abs_mul, abs_mul]
    have := mul_le_mul hb hd (abs_nonneg d) (by positivity)
    refine le_trans this (le_of_eq ?_)
    ring
  obtain ⟨e, he⟩ : ∃ e, e = a * c - near (a * c) := ⟨_, rfl⟩
  rw [← he] at e0 e4
  have k1 : |t1| ≤ |a * d| + |a * d - t1| := by
    have := abs_sub_abs_le_abs_sub t1 (a * d)
    rw [abs_sub_comm t1] at this; linarith
  have k2 : |t2| ≤ |b * c| + |b * c - t2| := by
    have := abs_sub_abs_le_abs_sub t2 (b * c)
    rw [abs_sub_comm t2] at this; linarith
  have k3 := abs_add_le t1 t2
  have k4 : |t| ≤ |t1 + t2| + |t1 + t2 - t| := by
    have := abs_sub_abs_le_abs_sub t (t1 + t2)
    rw [abs_sub_comm t] at this; linarith
  have k5 := abs_add_le e t
  have k6 : |w| ≤ |e + t| + |e + t - w| := by
    have := abs_sub_abs_le_abs_sub w (e + t)
    rw [abs_sub_comm w] at this; linarith
  have hn : near (a * c) = a * c - e := by rw [he]; ring
  have hu := abs_nonneg (a * c)
  refine ⟨?_, ?_, ?_⟩
  · linarith
  · have : near (a * c) + w - (a + b) * (c + d) = -(e + t - w) + (-(t1 + t2 - t) + (-(a * d - t1) + (-(b * c - t2) + -(b * d)))) := by
      rw [hn]; ring
    rw [this]
    have n1 := abs_add_le (-(e + t - w)) (-(t1 + t2 - t) + (-(a * d - t1) + (-(b * c - t2) + -(b * d))))
    have n2 := abs_add_le (-(t1 + t2 - t)) (-(a * d - t1) + (-(b * c - t2) + -(b * d)))
    have n3 := abs_add_le (-(a * d - t1)) (-(b * c - t2) + -(b * d))
    have n4 := abs_add_le (-(b * c - t2)) (-(b * d))
    simp only [abs_neg] at n1 n2 n3 n4
    linarith
  · rw [hn]
    have := abs_sub_abs_le_abs_sub (a * c) e
    linarith

/-- A correction that is small against the rounded product has no larger exponent. -/
theorem expo_small {p w : ℚ} (h : |w| ≤ |p|) : expo w ≤ expo p := expo_mono h

end Verif.Binary64
