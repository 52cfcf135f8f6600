import Verif.Lemmas.TwoSum

/-! # Exact products of binary64 numbers -/

namespace Verif.Binary64

/-- Not subnormal, for numbers of the format. -/
def Normal (a : ℚ) : Prop := 2 ^ (-1022 : ℤ) ≤ |a|

theorem Normal.expo {a : ℚ} (h : Normal a) : 2 ^ (expo a + 52) ≤ |a| := by
  have h0 : a ≠ 0 := by
    rintro rfl
    unfold Normal at h
    rw [abs_zero] at h
    exact absurd h (not_le.mpr (two_pos _))
  by_cases he : -1074 < Binary64.expo a
  · exact expo_le_abs a h0 he
  · have : Binary64.expo a = -1074 := by have := expo_ge a; omega
    rw [this]; exact h

/-- Splitting a number in two halves of 26 bits. -/
theorem split {a : ℚ} (ha : Rep a) (hn : Normal a) (c d h : ℚ) (hc : near (134217729 * a) = c) (hd : near (c - a) = d) (hh : near (c - d) = h) :
    Mul2 (expo a + 27) h ∧ |h| ≤ 2 ^ (expo a + 53) ∧ near (a - h) = a - h ∧ Mul2 (expo a) (a - h) ∧ |a - h| ≤ 2 ^ (expo a + 26) := by
  have hlow := hn.expo
  have hup := ha.mul2.lt_le (by omega : expo a ≤ expo a + 53) (abs_lt_expo a)
  have hge := expo_ge a
  have hmul := ha.mul2
  generalize expo a = E at *
  have hT := two_pos E
  have p79 : (2 : ℚ) ^ (E + 27 + 52) = 2 ^ E * 604462909807314587353088 := by rw [add_assoc, two_add]; norm_num
  have p80 : (2 : ℚ) ^ (E + 27 + 53) = 2 ^ E * 1208925819614629174706176 := by rw [add_assoc, two_add]; norm_num
  have p81 : (2 : ℚ) ^ (E + 28 + 53) = 2 ^ E * 2417851639229258349412352 := by rw [add_assoc, two_add]; norm_num
  have p52 : (2 : ℚ) ^ (E + 52) = 2 ^ E * 4503599627370496 := by rw [two_add]; norm_num
  have p53 : (2 : ℚ) ^ (E + 53) = 2 ^ E * 9007199254740992 := by rw [two_add]; norm_num
  have p26 : (2 : ℚ) ^ (E + 26) = 2 ^ E * 67108864 := by rw [two_add]; norm_num
  have p27 : (2 : ℚ) ^ (E + 27) = 2 ^ E * 134217728 := by rw [two_add]; norm_num
  have p28 : (2 : ℚ) ^ (E + 28) = 2 ^ E * 268435456 := by rw [two_add]; norm_num
  rw [p52] at hlow
  rw [p53] at hup
  have hg : |134217729 * a| = 134217729 * |a| := by rw [abs_mul]; norm_num
  have eg1 : expo (134217729 * a) ≤ E + 28 := expo_le (by omega) (by rw [hg, p81]; linarith)
  have eg2 : E + 27 ≤ expo (134217729 * a) := le_expo (by rw [hg, p79]; linarith)
  have mc : Mul2 (E + 27) c := hc ▸ (near_mul2 _).mono eg2
  have ec : |134217729 * a - c| ≤ 2 ^ E * 134217728 := by
    have := near_err (134217729 * a)
    rw [hc] at this
    have h2 := two_mono eg1
    rw [p28] at h2
    linarith
  have ca : c - a = 134217728 * a + -(134217729 * a - c) := by ring
  have h27 : |134217728 * a| = 134217728 * |a| := by rw [abs_mul]; norm_num
  have up : |c - a| ≤ 2 ^ (E + 27 + 53) := by
    rw [ca, p80]
    refine le_trans (abs_add_le _ _) ?_
    rw [abs_neg, h27]
    linarith
  have lo : 2 ^ (E + 27 + 52) ≤ |c - a| := by
    rw [p79]
    by_cases h1 : |a| = 2 ^ E * 4503599627370496
    · have hr : Rep (134217729 * a) := by
        have hm : Mul2 (E + 52) (134217729 * a) := by
          rcases abs_cases a with h2 | h2
          · refine ⟨134217729, ?_⟩
            rw [p52, ← h1, h2.1]; norm_num
          · refine ⟨-134217729, ?_⟩
            rw [p52, ← h1, h2.1]; norm_num
        refine rep_mul2 (by omega) hm ?_
        rw [hg, h1, add_assoc, two_add]
        norm_num
        linarith
      have : c = 134217729 * a := by rw [← hc, near_of_rep hr]
      rw [this, show 134217729 * a - a = 134217728 * a by ring, h27, h1]
      linarith
    · have h2 : 2 ^ E * 4503599627370496 + 2 ^ E ≤ |a| := by
        have h3 : Mul2 E (|a| - 2 ^ E * 4503599627370496) := by
          refine Mul2.sub ?_ ⟨4503599627370496, by push_cast; ring⟩
          rcases abs_cases a with h | h
          · rw [h.1]; exact hmul
          · rw [h.1]; exact hmul.neg
        have h4 := h3.le_abs (sub_ne_zero.mpr h1)
        rw [abs_of_nonneg (by linarith)] at h4
        linarith
      have : |134217728 * a| ≤ |c - a| + |134217729 * a - c| := by
        have e : 134217728 * a = (c - a) + (134217729 * a - c) := by ring
        rw [e]; exact abs_add_le _ _
      rw [h27] at this
      linarith
  have md : Mul2 (E + 27) d := hd ▸ (near_mul2 _).mono (le_expo lo)
  have ed : |c - a - d| ≤ 2 ^ E * 67108864 := by
    rcases up.eq_or_lt with h1 | h1
    · have : Rep (c - a) := by
        rcases abs_cases (c - a) with h2 | h2
        · rw [h2.1] at h1
          exact ⟨1, E + 27 + 53, by norm_num, by omega, by rw [h1]; simp⟩
        · rw [h2.1] at h1
          exact ⟨-1, E + 27 + 53, by norm_num, by omega, by rw [neg_eq_iff_eq_neg.mp h1]; simp⟩
      rw [near_of_rep this] at hd
      rw [← hd, sub_self, abs_zero]; positivity
    · have h2 := two_mono (expo_le (by omega) h1)
      have := near_err (c - a)
      rw [hd] at this
      rw [p27] at h2
      linarith
  have hah : |a - (c - d)| ≤ 2 ^ E * 67108864 := by
    have : a - (c - d) = -(c - a - d) := by ring
    rw [this, abs_neg]; exact ed
  have mh : Mul2 (E + 27) (c - d) := mc.sub md
  have bh : |c - d| ≤ 2 ^ (E + 53) := by
    obtain ⟨k, hk⟩ := mh
    have h1 : |c - d| ≤ |a| + |a - (c - d)| := by
      have := abs_sub_abs_le_abs_sub (c - d) a
      rw [abs_sub_comm (c - d) a] at this; linarith
    have h2 : |(k : ℚ)| * (2 ^ E * 134217728) < 67108865 * (2 ^ E * 134217728) := by
      rw [← p27, ← abs_of_pos (two_pos (E + 27)), ← abs_mul, abs_of_pos (two_pos (E + 27)), ← hk, p27]
      linarith
    have h3 := lt_of_mul_lt_mul_right h2 (by positivity)
    have h4 : |k| < 67108865 := by exact_mod_cast h3
    have h5 : |(k : ℚ)| ≤ 67108864 := by exact_mod_cast (by omega : |k| ≤ 67108864)
    rw [hk, abs_mul, abs_of_pos (two_pos (E + 27)), p27, p53]
    nlinarith
  have rh : Rep (c - d) := rep_mul2 (by omega) mh (le_trans bh (two_mono (by omega)))
  have hhe : h = c - d := by rw [← hh, near_of_rep rh]
  rw [hhe]
  have mt : Mul2 E (a - (c - d)) := hmul.sub (mh.mono (by omega))
  refine ⟨mh, bh, near_of_rep (rep_mul2 (by omega) mt ?_), mt, ?_⟩
  · rw [p53]; linarith
  · rw [p26]; exact hah

/-- The product of two numbers and its error, as computed from the halves. -/
theorem two_prod {a b : ℚ} (hab : -1074 ≤ expo a + expo b) (na : Normal a) (nb : Normal b) (p ah al bh bl : ℚ)
    (hp : near (a * b) = p) (sa : a = ah + al) (sb : b = bh + bl)
    (m1 : Mul2 (expo a + 27) ah) (b1 : |ah| ≤ 2 ^ (expo a + 53)) (m2 : Mul2 (expo a) al) (b2 : |al| ≤ 2 ^ (expo a + 26))
    (m3 : Mul2 (expo b + 27) bh) (b3 : |bh| ≤ 2 ^ (expo b + 53)) (m4 : Mul2 (expo b) bl) (b4 : |bl| ≤ 2 ^ (expo b + 26)) :
    near (near (near (near (near (ah * bh) - p) + near (ah * bl)) + near (al * bh)) + near (al * bl)) = a * b - p ∧
      Rep (a * b - p) := by
  have la := na.expo
  have lb := nb.expo
  have ua := abs_lt_expo a
  have ub := abs_lt_expo b
  generalize expo a = E at *
  generalize expo b = F at *
  obtain ⟨G, hG⟩ : ∃ G, G = E + F := ⟨_, rfl⟩
  have hg := two_pos G
  have bound : ∀ {x y : ℚ} {i j : ℤ}, |x| ≤ 2 ^ (E + i) → |y| ≤ 2 ^ (F + j) → |x * y| ≤ 2 ^ (G + (i + j)) := by
    intro x y i j hx hy
    rw [abs_mul, hG, show E + F + (i + j) = (E + i) + (F + j) by ring, two_add]
    exact mul_le_mul hx hy (abs_nonneg _) (two_pos _).le
  have up : |a * b| < 2 ^ (G + 53 + 53) := by
    rw [abs_mul, hG, show E + F + 53 + 53 = (E + 53) + (F + 53) by ring, two_add]
    exact mul_lt_mul'' ua ub (abs_nonneg _) (abs_nonneg _)
  have lo : 2 ^ (G + 52 + 52) ≤ |a * b| := by
    rw [abs_mul, hG, show E + F + 52 + 52 = (E + 52) + (F + 52) by ring, two_add]
    exact mul_le_mul la lb (two_pos _).le (abs_nonneg _)
  have mp : Mul2 (G + 52) p := hp ▸ (near_mul2 _).mono (le_expo lo)
  have q52 : (2 : ℚ) ^ (G + 52) = 2 ^ G * 4503599627370496 := by rw [two_add]; norm_num
  have q53 : (2 : ℚ) ^ (G + 53) = 2 ^ G * 9007199254740992 := by rw [two_add]; norm_num
  have q79 : (2 : ℚ) ^ (G + (53 + 26)) = 2 ^ G * 604462909807314587353088 := by rw [two_add]; norm_num
  have q79' : (2 : ℚ) ^ (G + (26 + 53)) = 2 ^ G * 604462909807314587353088 := by rw [two_add]; norm_num
  have q52' : (2 : ℚ) ^ (G + (26 + 26)) = 2 ^ G * 4503599627370496 := by rw [two_add]; norm_num
  have ep : |a * b - p| ≤ 2 ^ G * 4503599627370496 := by
    have := near_err (a * b)
    rw [hp] at this
    have h2 := two_mono (expo_le (by omega) up)
    rw [q53] at h2
    linarith
  have M1 := m1.mul m3
  have M2 := m1.mul m4
  have M3 := m2.mul m3
  have M4 := m2.mul m4
  have B1 := bound b1 b3
  have B2 := bound b1 b4
  have B3 := bound b2 b3
  have B4 := bound b2 b4
  have r1 : Rep (ah * bh) := rep_mul2 (by omega) M1 (le_trans B1 (two_mono (by omega)))
  have r2 : Rep (ah * bl) := rep_mul2 (by omega) M2 (le_trans B2 (two_mono (by omega)))
  have r3 : Rep (al * bh) := rep_mul2 (by omega) M3 (le_trans B3 (two_mono (by omega)))
  have r4 : Rep (al * bl) := rep_mul2 (by omega) M4 (le_trans B4 (two_mono (by omega)))
  rw [near_of_rep r1, near_of_rep r2, near_of_rep r3, near_of_rep r4]
  rw [q79] at B2
  rw [q79'] at B3
  rw [q52'] at B4
  have hsum : a * b = ah * bh + ah * bl + al * bh + al * bl := by rw [sa, sb]; ring
  have s1 : Rep (ah * bh - p) := by
    refine rep_mul2 (e := G + 52) (by omega) ((M1.mono (by omega)).sub mp) ?_
    have : ah * bh - p = (a * b - p) - ah * bl - al * bh - al * bl := by rw [hsum]; ring
    rw [this, add_assoc, two_add]
    norm_num
    have k1 := abs_le.mp ep; have k2 := abs_le.mp B2; have k3 := abs_le.mp B3; have k4 := abs_le.mp B4
    rw [abs_le]
    constructor <;> linarith [k1.1, k1.2, k2.1, k2.2, k3.1, k3.2, k4.1, k4.2]
  have s2 : Rep (ah * bh - p + ah * bl) := by
    refine rep_mul2 (e := G + 27) (by omega) (((M1.mono (by omega)).sub (mp.mono (by omega))).add (M2.mono (by omega))) ?_
    have : ah * bh - p + ah * bl = (a * b - p) - al * bh - al * bl := by rw [hsum]; ring
    rw [this, add_assoc, two_add]
    norm_num
    have k1 := abs_le.mp ep; have k3 := abs_le.mp B3; have k4 := abs_le.mp B4
    rw [abs_le]
    constructor <;> linarith [k1.1, k1.2, k3.1, k3.2, k4.1, k4.2]
  have mall : Mul2 G (a * b - p) := by
    rw [hsum]
    exact ((((M1.mono (by omega)).add (M2.mono (by omega))).add (M3.mono (by omega))).add (M4.mono (by omega))).sub (mp.mono (by omega))
  have s3 : Rep (ah * bh - p + ah * bl + al * bh) := by
    have : ah * bh - p + ah * bl + al * bh = (a * b - p) - al * bl := by rw [hsum]; ring
    rw [this]
    refine rep_mul2 (e := G) (by omega) (mall.sub (M4.mono (by omega))) ?_
    rw [q53]
    have k1 := abs_le.mp ep; have k4 := abs_le.mp B4
    rw [abs_le]
    constructor <;> linarith [k1.1, k1.2, k4.1, k4.2]
  have s4 : Rep (a * b - p) := by
    refine rep_mul2 (e := G) (by omega) mall ?_
    rw [q53]; linarith
  refine ⟨?_, s4⟩
  rw [near_of_rep s1, near_of_rep s2, near_of_rep s3]
  have : ah * bh - p + ah * bl + al * bh + al * bl = a * b - p := by rw [hsum]; ring
  rw [this, near_of_rep s4]

end Verif.Binary64
