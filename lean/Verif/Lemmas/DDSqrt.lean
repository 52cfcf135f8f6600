import Verif.Lemmas.DDDiv

/-! # The accuracy of a double-double square root -/

namespace Verif.Binary64

theorem one_mul_near {p q α β : ℚ} (hp : |p - 1| ≤ α) (hq : |q - 1| ≤ β) : |p * q - 1| ≤ α + β + α * β := by
  have e : p * q - 1 = (p - 1) + (q - 1) + (p - 1) * (q - 1) := by ring
  rw [e]
  have h1 := abs_add_le (p - 1 + (q - 1)) ((p - 1) * (q - 1))
  have h2 := abs_add_le (p - 1) (q - 1)
  have h3 : |(p - 1) * (q - 1)| ≤ α * β := by
    rw [abs_mul]; exact mul_le_mul hp hq (abs_nonneg _) (le_trans (abs_nonneg _) hp)
  linarith

/-- The arithmetic of one Newton step. -/
theorem newton_core {a K X AX β ε ζ : ℚ} (ha : 0 < a) (hK : |K - 1| ≤ 21 / 10 / 2 ^ 53) (hX : |X - 1| ≤ 11 / 10 / 2 ^ 53)
    (hAX : |AX - 1| ≤ 11 / 10 / 2 ^ 53) (hβ : |β| ≤ 2 / 2 ^ 53) (hε : |ε| ≤ 9 / 2 / 2 ^ 53) (hζ : |ζ| ≤ 1 / 2 ^ 150) :
    let Δ := 1 + β - K * X ^ 2 * AX ^ 2
    let P := AX * (K * X ^ 2)
    |Δ| ≤ 9 / 2 ^ 53 ∧ |Δ * (P * (1 + ε) - 1) + ζ + K * X ^ 2 * (Δ * (1 + ε) / 2) ^ 2| ≤ 127 / 2 ^ 106 := by
  intro Δ P
  have hX2 : |X ^ 2 - 1| ≤ 222 / 100 / 2 ^ 53 := by
    rw [pow_two]
    refine le_trans (one_mul_near hX hX) (by norm_num)
  have hAX2 : |AX ^ 2 - 1| ≤ 222 / 100 / 2 ^ 53 := by
    rw [pow_two]
    refine le_trans (one_mul_near hAX hAX) (by norm_num)
  have hKX : |K * X ^ 2 - 1| ≤ 433 / 100 / 2 ^ 53 := le_trans (one_mul_near hK hX2) (by norm_num)
  have hP : |P - 1| ≤ 544 / 100 / 2 ^ 53 := le_trans (one_mul_near hAX hKX) (by norm_num)
  have hKA : |K * X ^ 2 * AX ^ 2 - 1| ≤ 656 / 100 / 2 ^ 53 := le_trans (one_mul_near hKX hAX2) (by norm_num)
  have hΔ : |Δ| ≤ 857 / 100 / 2 ^ 53 := by
    have e : Δ = β + -(K * X ^ 2 * AX ^ 2 - 1) := by simp only [Δ]; ring
    have := abs_add_le β (-(K * X ^ 2 * AX ^ 2 - 1))
    rw [abs_neg, ← e] at this
    linarith
  have h1ε : |(1 + ε) - 1| ≤ 9 / 2 / 2 ^ 53 := by rwa [add_sub_cancel_left]
  have hPε : |P * (1 + ε) - 1| ≤ 995 / 100 / 2 ^ 53 := le_trans (one_mul_near hP h1ε) (by norm_num)
  refine ⟨le_trans hΔ (by norm_num), ?_⟩
  have t1 : |Δ * (P * (1 + ε) - 1)| ≤ 86 / 2 ^ 106 := by
    rw [abs_mul]
    refine le_trans (mul_le_mul hΔ hPε (abs_nonneg _) (by norm_num)) (by norm_num)
  have t2 : |Δ * (1 + ε) / 2| ≤ 43 / 10 / 2 ^ 53 := by
    have : |1 + ε| ≤ 1 + 1 / 1000 := by
      have := abs_add_le 1 ε
      rw [abs_one] at this
      linarith
    rw [abs_div, abs_mul, abs_two]
    have h2 := mul_le_mul hΔ this (abs_nonneg _) (by norm_num)
    linarith
  have t3 : |K * X ^ 2 * (Δ * (1 + ε) / 2) ^ 2| ≤ 20 / 2 ^ 106 := by
    rw [abs_mul, abs_pow]
    have k1 : |K * X ^ 2| ≤ 1 + 1 / 1000 := by
      have := abs_add_le (K * X ^ 2 - 1) 1
      rw [abs_one, sub_add_cancel] at this
      linarith
    have k2 : |Δ * (1 + ε) / 2| ^ 2 ≤ (43 / 10 / 2 ^ 53) ^ 2 := pow_le_pow_left₀ (abs_nonneg _) t2 2
    refine le_trans (mul_le_mul k1 k2 (by positivity) (by norm_num)) (by norm_num)
  have n1 := abs_add_le (Δ * (P * (1 + ε) - 1) + ζ) (K * X ^ 2 * (Δ * (1 + ε) / 2) ^ 2)
  have n2 := abs_add_le (Δ * (P * (1 + ε) - 1)) ζ
  have : (1 : ℚ) / 2 ^ 150 ≤ 1 / 2 ^ 106 := by norm_num
  linarith

/-- Rounding, as a factor and a remainder in the range of underflow. -/
theorem near_split (q : ℚ) : ∃ ε ζ, near q = q * (1 + ε) + ζ ∧ |ε| ≤ 1 / 2 ^ 53 ∧ |ζ| ≤ 2 ^ (-1075 : ℤ) := by
  have h := near_err q
  rcases eq_or_lt_of_le (expo_ge q) with he | he
  · rw [← he, show (-1074 : ℤ) = -1075 + 1 by norm_num, two_add, zpow_one] at h
    refine ⟨0, near q - q, by ring, by norm_num, ?_⟩
    rw [abs_sub_comm]
    linarith
  · have hq0 : q ≠ 0 := by rintro rfl; rw [expo_zero] at he; exact absurd he (lt_irrefl _)
    have h2 := expo_le_abs q hq0 he
    rw [two_add] at h2
    have h3 : (2 : ℚ) ^ expo q / 2 ≤ |q| / 2 ^ 53 := by
      rw [le_div_iff₀ (by positivity)]
      have : (2 : ℚ) ^ (52 : ℤ) = 2 ^ 53 / 2 := by norm_num
      rw [this] at h2
      linarith
    refine ⟨(near q - q) / q, 0, by field_simp; ring, ?_, by rw [abs_zero]; exact (two_pos _).le⟩
    rw [abs_div, div_le_iff₀ (abs_pos.mpr hq0), abs_sub_comm]
    linarith

/-- The same without underflow. -/
theorem near_factor {q : ℚ} (h : 2 ^ (-900 : ℤ) ≤ |q|) : ∃ r, near q = q * r ∧ |r - 1| ≤ 1 / 2 ^ 53 := by
  have hq0 : q ≠ 0 := by
    rintro rfl
    rw [abs_zero] at h
    exact absurd h (not_le.mpr (two_pos _))
  have he : -1074 < expo q := by
    have := le_expo (v := q) (e := -952) (le_trans (two_mono (by norm_num)) h)
    omega
  have h2 := expo_le_abs q hq0 he
  rw [two_add] at h2
  have h1 := near_err q
  have h3 : (2 : ℚ) ^ expo q / 2 ≤ |q| / 2 ^ 53 := by
    rw [le_div_iff₀ (by positivity)]
    have : (2 : ℚ) ^ (52 : ℤ) = 2 ^ 53 / 2 := by norm_num
    rw [this] at h2
    linarith
  refine ⟨near q / q, by field_simp, ?_⟩
  rw [show near q / q - 1 = (near q - q) / q by field_simp, abs_div, div_le_iff₀ (abs_pos.mpr hq0), abs_sub_comm]
  linarith

set_option maxHeartbeats 1000000 in
/-- The first approximation. -/
theorem sqrt_start {a s x ax : ℚ} (ha1 : 2 ^ (-900 : ℤ) ≤ a) (ha2 : a ≤ 2 ^ (1024 : ℤ))
    (hs : 0 < s) (hs1 : a * (1 - 1 / 2 ^ 53) ^ 2 ≤ s ^ 2) (hs2 : s ^ 2 ≤ a * (1 + 1 / 2 ^ 53) ^ 2)
    (hx : near (1 / s) = x) (hax : near (a * x) = ax) :
    ∃ K X AX, K = a / s ^ 2 ∧ |K - 1| ≤ 21 / 10 / 2 ^ 53 ∧ x = X / s ∧ |X - 1| ≤ 1 / 2 ^ 53 ∧ ax = a * x * AX ∧ |AX - 1| ≤ 1 / 2 ^ 53 ∧
      2 ^ (-451 : ℤ) ≤ s ∧ 2 ^ (-514 : ℤ) ≤ x ∧ 2 ^ (-454 : ℤ) ≤ ax := by
  have a0 : 0 < a := lt_of_lt_of_le (two_pos _) ha1
  -- sizes
  have s_lo : 2 ^ (-451 : ℤ) ≤ s := by
    by_contra hc
    push Not at hc
    have h1 : s ^ 2 < (2 ^ (-451 : ℤ)) ^ 2 := pow_lt_pow_left₀ hc hs.le (by norm_num)
    have h2 : ((2 : ℚ) ^ (-451 : ℤ)) ^ 2 * 4 = 2 ^ (-900 : ℤ) := by
      rw [show (4 : ℚ) = 2 ^ (2 : ℤ) by norm_num, pow_two, ← two_add, ← two_add]; rfl
    rw [← h2] at ha1
    have h3 : a * (1 / 2) ≤ a * (1 - 1 / 2 ^ 53) ^ 2 := mul_le_mul_of_nonneg_left (by norm_num) a0.le
    generalize ((2 : ℚ) ^ (-451 : ℤ)) ^ 2 = t at *
    linarith
  have s_hi : s ≤ 2 ^ (513 : ℤ) := by
    by_contra hc
    push Not at hc
    have h1 : ((2 : ℚ) ^ (513 : ℤ)) ^ 2 < s ^ 2 := pow_lt_pow_left₀ hc (two_pos _).le (by norm_num)
    have h2 : (2 : ℚ) ^ (1024 : ℤ) * 4 = (2 ^ (513 : ℤ)) ^ 2 := by
      rw [show (4 : ℚ) = 2 ^ (2 : ℤ) by norm_num, pow_two, ← two_add, ← two_add]; rfl
    rw [← h2] at h1
    have h3 : a * (1 + 1 / 2 ^ 53) ^ 2 ≤ a * 2 := mul_le_mul_of_nonneg_left (by norm_num) a0.le
    generalize (2 : ℚ) ^ (1024 : ℤ) = t at *
    linarith
  have s_inv : 2 ^ (-513 : ℤ) ≤ 1 / s := by
    rw [le_div_iff₀ hs, ← le_div_iff₀' (two_pos _), zpow_neg, one_div, inv_inv]
    exact s_hi
  obtain ⟨K, hK⟩ : ∃ K, K = a / s ^ 2 := ⟨_, rfl⟩
  have s20 : 0 < s ^ 2 := by positivity
  have hKa : K * s ^ 2 = a := by rw [hK]; field_simp
  have hK1 : |K - 1| ≤ 21 / 10 / 2 ^ 53 := by
    rw [hK, abs_le]
    constructor
    · have : 1 - 21 / 10 / 2 ^ 53 ≤ a / s ^ 2 := by
        rw [le_div_iff₀ s20]
        refine le_trans (mul_le_mul_of_nonneg_left hs2 (by norm_num)) ?_
        have : a * ((1 - 21 / 10 / 2 ^ 53) * (1 + 1 / 2 ^ 53) ^ 2) ≤ a * 1 := mul_le_mul_of_nonneg_left (by norm_num) a0.le
        linarith
      linarith
    · have : a / s ^ 2 ≤ 1 + 21 / 10 / 2 ^ 53 := by
        rw [div_le_iff₀ s20]
        refine le_trans ?_ (mul_le_mul_of_nonneg_left hs1 (by norm_num))
        have : a * 1 ≤ a * ((1 + 21 / 10 / 2 ^ 53) * (1 - 1 / 2 ^ 53) ^ 2) := mul_le_mul_of_nonneg_left (by norm_num) a0.le
        linarith
      linarith
  have big : ∀ {t : ℚ}, 2 ^ (-600 : ℤ) ≤ t → 2 ^ (-900 : ℤ) ≤ |t| := by
    intro t ht
    rw [abs_of_pos (lt_of_lt_of_le (two_pos _) ht)]
    exact le_trans (two_mono (by norm_num)) ht
  obtain ⟨X, hX, hX1⟩ := near_factor (big (le_trans (two_mono (by norm_num)) s_inv))
  rw [hx] at hX
  have hX1' := abs_le.mp hX1
  have Xh : 1 / 2 ≤ X := by linarith
  have hxs : x = X / s := by rw [hX]; ring
  have hx1 : 2 ^ (-514 : ℤ) ≤ x := by
    rw [hX, show (2 : ℚ) ^ (-514 : ℤ) = 2 ^ (-513 : ℤ) * (1 / 2) by rw [show (-514 : ℤ) = -513 + -1 by norm_num, two_add]; norm_num]
    exact mul_le_mul s_inv Xh (by norm_num) (by positivity)
  have hax1 : 2 ^ (-453 : ℤ) ≤ a * x := by
    have e : a * x = s * (K * X) := by rw [hxs, ← hKa]; field_simp
    have hK2 := abs_le.mp hK1
    have : 1 / 4 ≤ K * X := by nlinarith
    rw [e, show (2 : ℚ) ^ (-453 : ℤ) = 2 ^ (-451 : ℤ) * (1 / 4) by rw [show (-453 : ℤ) = -451 + -2 by norm_num, two_add]; norm_num]
    exact mul_le_mul s_lo this (by norm_num) hs.le
  obtain ⟨AX, hAX, hAX1⟩ := near_factor (big (le_trans (two_mono (by norm_num)) hax1))
  rw [hax] at hAX
  have hAX2 := abs_le.mp hAX1
  have hax3 : 2 ^ (-454 : ℤ) ≤ ax := by
    rw [hAX, show (2 : ℚ) ^ (-454 : ℤ) = 2 ^ (-453 : ℤ) * (1 / 2) by rw [show (-454 : ℤ) = -453 + -1 by norm_num, two_add]; norm_num]
    exact mul_le_mul hax1 (by linarith) (by norm_num) (le_trans (two_pos _).le hax1)
  exact ⟨K, X, AX, hK, hK1, hxs, hX1, hAX, hAX1, s_lo, hx1, hax3⟩

set_option maxHeartbeats 2000000 in
/-- The steps of a square root in exact terms. -/
theorem sqrt_core {a b s x ax dh xh d2 : ℚ} (ha1 : 2 ^ (-900 : ℤ) ≤ a) (ha2 : a ≤ 2 ^ (1024 : ℤ)) (hb : |b| ≤ 2 / 2 ^ 53 * a)
    (hs : 0 < s) (hs1 : a * (1 - 1 / 2 ^ 53) ^ 2 ≤ s ^ 2) (hs2 : s ^ 2 ≤ a * (1 + 1 / 2 ^ 53) ^ 2)
    (hx : near (1 / s) = x) (hax : near (a * x) = ax) (hdh : |dh - (a + b - ax ^ 2)| ≤ 11 / 10 / 2 ^ 53 * |a + b - ax ^ 2|)
    (hxh : near (x * (1 / 2)) = xh) (hd2 : near (dh * xh) = d2) :
    0 < ax + d2 ∧ |(ax + d2) ^ 2 - (a + b)| ≤ (a + b) / 2 ^ 98 := by
  have a0 : 0 < a := lt_of_lt_of_le (two_pos _) ha1
  obtain ⟨K, X, AX, hK, hK1, hxs, hX1, hAX, hAX1, s_lo, hx1, -⟩ := sqrt_start ha1 ha2 hs hs1 hs2 hx hax
  have s20 : 0 < s ^ 2 := by positivity
  have hKa : K * s ^ 2 = a := by rw [hK]; field_simp
  have big : ∀ {t : ℚ}, 2 ^ (-600 : ℤ) ≤ t → 2 ^ (-900 : ℤ) ≤ |t| := by
    intro t ht
    rw [abs_of_pos (lt_of_lt_of_le (two_pos _) ht)]
    exact le_trans (two_mono (by norm_num)) ht
  have hx2 : 2 ^ (-515 : ℤ) ≤ x * (1 / 2) := by
    rw [show (2 : ℚ) ^ (-515 : ℤ) = 2 ^ (-514 : ℤ) * (1 / 2) by rw [show (-515 : ℤ) = -514 + -1 by norm_num, two_add]; norm_num]
    exact mul_le_mul_of_nonneg_right hx1 (by norm_num)
  obtain ⟨H, hH, hH1⟩ := near_factor (big (le_trans (two_mono (by norm_num)) hx2))
  rw [hxh] at hH
  obtain ⟨ε3, ζ, h3, hε3, hζ⟩ := near_split (dh * xh)
  rw [hd2] at h3
  obtain ⟨D, hD⟩ : ∃ D, D = a + b - ax ^ 2 := ⟨_, rfl⟩
  rw [← hD] at hdh
  obtain ⟨G, hG, hG1⟩ : ∃ G, dh = D * G ∧ |G - 1| ≤ 11 / 10 / 2 ^ 53 := by
    by_cases hD0 : D = 0
    · rw [hD0, sub_zero, abs_zero, mul_zero] at hdh
      exact ⟨1, by rw [hD0, abs_nonpos_iff.mp hdh]; ring, by norm_num⟩
    · refine ⟨dh / D, by field_simp, ?_⟩
      rw [show dh / D - 1 = (dh - D) / D by field_simp, abs_div, div_le_iff₀ (abs_pos.mpr hD0)]
      exact hdh
  obtain ⟨z, hz⟩ : ∃ z, z = ζ / s := ⟨_, rfl⟩
  have hzs : ζ = s * z := by rw [hz]; field_simp
  have hz1 : |z| ≤ 1 / 2 ^ 200 := by
    rw [hz, abs_div, abs_of_pos hs, div_le_iff₀ hs]
    refine le_trans hζ ?_
    have : (2 : ℚ) ^ (-1075 : ℤ) ≤ 1 / 2 ^ 200 * 2 ^ (-451 : ℤ) := by
      rw [show (1 : ℚ) / 2 ^ 200 = 2 ^ (-200 : ℤ) by rw [zpow_neg]; norm_num, ← two_add]
      exact two_mono (by norm_num)
    exact le_trans this (mul_le_mul_of_nonneg_left s_lo (by norm_num))
  clear ha1 ha2 hs1 hs2 s_lo hx1 hx2 big hζ
  obtain ⟨ε, hε⟩ : ∃ ε, 1 + ε = G * H * (1 + ε3) := ⟨G * H * (1 + ε3) - 1, by ring⟩
  have hε1 : |ε| ≤ 9 / 2 / 2 ^ 53 := by
    have h1 := one_mul_near hG1 hH1
    have h2 := one_mul_near (q := 1 + ε3) (β := 1 / 2 ^ 53) h1 (by rwa [add_sub_cancel_left])
    rw [← hε, add_sub_cancel_left] at h2
    exact le_trans h2 (by norm_num)
  have hd : d2 = D * x / 2 * (1 + ε) + s * z := by rw [h3, hε, hG, hH, ← hzs]; ring
  obtain ⟨β, hβ⟩ : ∃ β, b = a * β := ⟨b / a, by field_simp⟩
  have hβ1 : |β| ≤ 2 / 2 ^ 53 := by
    rw [hβ, abs_mul, abs_of_pos a0] at hb
    by_contra hc
    push Not at hc
    have := mul_lt_mul_of_pos_left hc a0
    linarith
  have hDΔ : D = a * (1 + β - K * X ^ 2 * AX ^ 2) := by
    rw [hD, hβ, hAX, hxs, hK]; field_simp
  have hX11 : |X - 1| ≤ 11 / 10 / 2 ^ 53 := le_trans hX1 (by norm_num)
  have hAX11 : |AX - 1| ≤ 11 / 10 / 2 ^ 53 := le_trans hAX1 (by norm_num)
  have Kl := abs_le.mp hK1
  have Xl := abs_le.mp hX11
  have Al := abs_le.mp hAX11
  have El := abs_le.mp hε1
  obtain ⟨Δ, hΔ⟩ : ∃ Δ, Δ = 1 + β - K * X ^ 2 * AX ^ 2 := ⟨_, rfl⟩
  rw [← hΔ] at hDΔ
  obtain ⟨Z, hZ⟩ : ∃ Z, Z = 2 * AX * X * z + Δ * X * (1 + ε) * z + z ^ 2 / K := ⟨_, rfl⟩
  have K0 : 0 < K := by rw [hK]; positivity
  have c0 := newton_core (ζ := 0) a0 hK1 hX11 hAX11 hβ1 hε1 (by norm_num)
  dsimp only at c0
  rw [← hΔ] at c0
  have Δl := abs_le.mp c0.1
  have hZ1 : |Z| ≤ 1 / 2 ^ 150 := by
    have m1 : |2 * AX * X * z| ≤ 4 / 2 ^ 200 := by
      rw [abs_mul]
      have : |2 * AX * X| ≤ 4 := by
        rw [abs_mul, abs_mul, abs_two]
        have p1 : |AX| ≤ 11 / 10 := by rw [abs_le]; constructor <;> linarith
        have p2 : |X| ≤ 11 / 10 := by rw [abs_le]; constructor <;> linarith
        have := mul_le_mul p1 p2 (abs_nonneg _) (by norm_num)
        linarith
      exact le_trans (mul_le_mul this hz1 (abs_nonneg _) (by norm_num)) (by norm_num)
    have m2 : |Δ * X * (1 + ε) * z| ≤ 4 / 2 ^ 200 := by
      rw [abs_mul]
      have : |Δ * X * (1 + ε)| ≤ 4 := by
        rw [abs_mul, abs_mul]
        have p1 : |Δ| ≤ 11 / 10 := by rw [abs_le]; constructor <;> linarith
        have p2 : |X| ≤ 11 / 10 := by rw [abs_le]; constructor <;> linarith
        have p3 : |1 + ε| ≤ 11 / 10 := by rw [abs_le]; constructor <;> linarith
        have := mul_le_mul (mul_le_mul p1 p2 (abs_nonneg _) (by norm_num)) p3 (abs_nonneg _) (by norm_num)
        exact le_trans this (by norm_num)
      exact le_trans (mul_le_mul this hz1 (abs_nonneg _) (by norm_num)) (by norm_num)
    have m3 : |z ^ 2 / K| ≤ 4 / 2 ^ 200 := by
      rw [abs_div, abs_pow, abs_of_pos K0, div_le_iff₀ K0]
      have := pow_le_pow_left₀ (abs_nonneg z) hz1 2
      refine le_trans this ?_
      have : (4 : ℚ) / 2 ^ 200 * (1 / 2) ≤ 4 / 2 ^ 200 * K := mul_le_mul_of_nonneg_left (by linarith) (by norm_num)
      exact le_trans (by norm_num) this
    rw [hZ]
    have n1 := abs_add_le (2 * AX * X * z + Δ * X * (1 + ε) * z) (z ^ 2 / K)
    have n2 := abs_add_le (2 * AX * X * z) (Δ * X * (1 + ε) * z)
    have : (12 : ℚ) / 2 ^ 200 ≤ 1 / 2 ^ 150 := by norm_num
    linarith
  have c1 := (newton_core a0 hK1 hX11 hAX11 hβ1 hε1 hZ1).2
  rw [← hΔ] at c1
  have hexp : (ax + d2) ^ 2 - (a + b) = a * (Δ * (AX * (K * X ^ 2) * (1 + ε) - 1) + Z + K * X ^ 2 * (Δ * (1 + ε) / 2) ^ 2) := by
    have e1 : (ax + d2) ^ 2 - (a + b) = -D + 2 * ax * d2 + d2 ^ 2 := by rw [hD]; ring
    rw [e1, hd, hAX, hDΔ, hxs, hZ]
    rw [← hKa]
    field_simp
    ring
  constructor
  · have e2 : ax + d2 = s * (AX * X * K + Δ * X * K / 2 * (1 + ε) + z) := by
      rw [hd, hAX, hDΔ, hxs, ← hKa]; field_simp; ring
    rw [e2]
    apply mul_pos hs
    have zl := abs_le.mp hz1
    have q1 : 1 / 2 ≤ AX * X * K := by
      have : (4 : ℚ) / 5 * (4 / 5) ≤ AX * X := mul_le_mul (by linarith) (by linarith) (by norm_num) (by linarith)
      have := mul_le_mul this (by linarith : (9 : ℚ) / 10 ≤ K) (by norm_num) (by nlinarith)
      linarith
    have q2 : |Δ * X * K / 2 * (1 + ε)| ≤ 1 / 100 := by
      rw [abs_mul, abs_div, abs_mul, abs_mul, abs_two]
      have p1 : |Δ| ≤ 1 / 1000 := le_trans c0.1 (by norm_num)
      have p2 : |X| ≤ 11 / 10 := by rw [abs_le]; constructor <;> linarith
      have p3 : |K| ≤ 11 / 10 := by rw [abs_le]; constructor <;> linarith
      have p4 : |1 + ε| ≤ 11 / 10 := by rw [abs_le]; constructor <;> linarith
      have := mul_le_mul (mul_le_mul p1 p2 (abs_nonneg _) (by norm_num)) p3 (abs_nonneg _) (by norm_num)
      have := mul_le_mul (div_le_div_of_nonneg_right this (by norm_num : (0 : ℚ) ≤ 2)) p4 (abs_nonneg _) (by norm_num)
      exact le_trans this (by norm_num)
    have := abs_le.mp q2
    have : (1 : ℚ) / 2 ^ 200 ≤ 1 / 100 := by norm_num
    linarith
  · rw [hexp, abs_mul, abs_of_pos a0]
    have h1 := mul_le_mul_of_nonneg_left c1 a0.le
    refine le_trans h1 ?_
    have := abs_le.mp hb
    have h2 : a * (127 / 128) ≤ a + b := by linarith
    have : a * (127 / 2 ^ 106) = a * (127 / 128) / 2 ^ 99 := by ring
    rw [this]
    have h3 : a * (127 / 128) / 2 ^ 99 ≤ (a + b) / 2 ^ 99 := div_le_div_of_nonneg_right h2 (by positivity)
    have : (a + b) / 2 ^ 98 = 2 * ((a + b) / 2 ^ 99) := by ring
    have : 0 ≤ (a + b) / 2 ^ 99 := by
      apply div_nonneg _ (by positivity)
      linarith
    linarith

end Verif.Binary64
