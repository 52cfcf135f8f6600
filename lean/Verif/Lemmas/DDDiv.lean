import Verif.Lemmas.DDMul

/-! # The accuracy of a double-double quotient -/

namespace Verif.Binary64

theorem abs_le_add_err (x y : ℚ) : |y| ≤ |x| + |x - y| := by
  have := abs_sub_abs_le_abs_sub y x
  rw [abs_sub_comm y] at this; linarith

set_option maxHeartbeats 2000000 in
/-- The size of the correction and the total error of a quotient. -/
theorem div_core {a b y l cc uu r1 r2 r3 p r4 c : ℚ} (ra : Rep a) (rb : Rep b) (hA : 2 ^ (-960 : ℤ) ≤ |a|) (hQ : 2 ^ (-960 : ℤ) ≤ |a / y|)
    (hb : |b| ≤ 2 / 2 ^ 53 * |a|) (hl : |l| ≤ 2 / 2 ^ 53 * |y|)
    (h0 : near (a / y) = cc) (huu : near (cc * y) = uu) (re : Rep (cc * y - uu)) (h1 : near (a - uu) = r1) (h2 : near (r1 - (cc * y - uu)) = r2)
    (h3 : near (r2 + b) = r3) (hp : near (cc * l) = p) (h4 : near (r3 - p) = r4) (h5 : near (r4 / y) = c) :
    |c| ≤ 8 / 2 ^ 53 * |cc| ∧ |cc + c - (a + b) / (y + l)| ≤ |(a + b) / (y + l)| / 2 ^ 100 := by
  have hy0 : y ≠ 0 := by
    rintro rfl
    rw [div_zero, abs_zero] at hQ
    exact absurd hQ (not_le.mpr (two_pos _))
  have hη : (2 : ℚ) ^ (-1075 : ℤ) * 2 ^ 110 ≤ 2 ^ (-960 : ℤ) := by
    have : (2 : ℚ) ^ 110 = 2 ^ (110 : ℤ) := by norm_cast
    rw [this, ← two_add]; exact two_mono (by norm_num)
  have η0 := two_pos (-1075)
  obtain ⟨q, hq⟩ : ∃ q, q = a / y := ⟨_, rfl⟩
  have haq : a = q * y := by rw [hq]; field_simp
  have e0 := near_abs (a / y)
  have ep := near_abs (cc * l)
  have ec := near_abs (r4 / y)
  have eu := near_abs (cc * y)
  rw [h0, ← hq] at e0
  rw [hp] at ep
  rw [h5] at ec
  rw [huu] at eu
  rw [← hq] at hQ
  have ηA : (2 : ℚ) ^ (-1075 : ℤ) ≤ |a| / 2 ^ 110 := by
    rw [le_div_iff₀ (by positivity)]; linarith
  have ηQ : (2 : ℚ) ^ (-1075 : ℤ) ≤ |q| / 2 ^ 110 := by
    rw [le_div_iff₀ (by positivity)]; linarith
  generalize (2 : ℚ) ^ (-1075 : ℤ) = η at *
  clear hη hA hQ
  have ruu : Rep uu := huu ▸ near_rep _
  have rr1 : Rep r1 := h1 ▸ near_rep _
  have rr2 : Rep r2 := h2 ▸ near_rep _
  have rr3 : Rep r3 := h3 ▸ near_rep _
  have rp : Rep p := hp ▸ near_rep _
  have e1 := near_add_rel ra ruu.neg
  have e2 := near_add_rel rr1 re.neg
  have e3 := near_add_rel rr2 rb
  have e4 := near_add_rel rr3 rp.neg
  rw [← sub_eq_add_neg] at e1 e2 e4
  rw [h1] at e1
  rw [h2] at e2
  rw [h3] at e3
  rw [h4] at e4
  have hqy : |a| = |q| * |y| := by rw [haq, abs_mul]
  have Y0 : 0 < |y| := abs_pos.mpr hy0
  have Q0 := abs_nonneg q
  have A0 := abs_nonneg a
  -- the first quotient
  have f0 : |q - cc| ≤ |q| * (1 / 2 ^ 53 + 1 / 2 ^ 110) := by linarith
  have f1 : |a - cc * y| ≤ |a| * (1 / 2 ^ 53 + 1 / 2 ^ 110) := by
    rw [haq, ← sub_mul, abs_mul, abs_mul]
    have := mul_le_mul_of_nonneg_right f0 Y0.le
    linarith
  have f2 : |cc| ≤ |q| * (1 + 1 / 2 ^ 50) := by linarith [abs_le_add_err q cc]
  have f3 : |cc * l| ≤ |a| * (2 / 2 ^ 53 + 1 / 2 ^ 100) := by
    rw [abs_mul]
    have := mul_le_mul f2 hl (abs_nonneg l) (by positivity)
    rw [hqy]
    refine le_trans this ?_
    have hqy0 : 0 ≤ |q| * |y| := by positivity
    nlinarith
  have f4 : |cc * y| ≤ |a| * (1 + 1 / 2 ^ 50) := by linarith [abs_le_add_err a (cc * y)]
  have f5 : |cc * y - uu| ≤ |a| * (1 / 2 ^ 53 + 1 / 2 ^ 90) := by linarith
  have f6 : |a - uu| ≤ |a| * (2 / 2 ^ 53 + 1 / 2 ^ 80) := by
    have := abs_add_le (a - cc * y) (cc * y - uu)
    rw [sub_add_sub_cancel] at this
    linarith
  have g1 : |a - uu - r1| ≤ |a| * (3 / 2 ^ 106) := by linarith
  have f7 : |r1 - (cc * y - uu)| ≤ |a| * (1 / 2 ^ 53 + 1 / 2 ^ 80) := by
    have := abs_add_le (a - cc * y) (-(a - uu - r1))
    rw [abs_neg, show a - cc * y + -(a - uu - r1) = r1 - (cc * y - uu) by ring] at this
    linarith
  have g2 : |r1 - (cc * y - uu) - r2| ≤ |a| * (2 / 2 ^ 106) := by linarith
  have f8 : |r2| ≤ |a| * (1 / 2 ^ 53 + 1 / 2 ^ 79) := by linarith [abs_le_add_err (r1 - (cc * y - uu)) r2]
  have g3 : |r2 + b - r3| ≤ |a| * (4 / 2 ^ 106) := by linarith [abs_add_le r2 b]
  have f9 : |r3| ≤ |a| * (3 / 2 ^ 53 + 1 / 2 ^ 78) := by linarith [abs_le_add_err (r2 + b) r3, abs_add_le r2 b]
  have gp : |cc * l - p| ≤ |a| * (3 / 2 ^ 106) := by linarith
  have f10 : |p| ≤ |a| * (2 / 2 ^ 53 + 1 / 2 ^ 80) := by linarith [abs_le_add_err (cc * l) p]
  have f11 : |r3 - p| ≤ |a| * (5 / 2 ^ 53 + 1 / 2 ^ 77) := by linarith [abs_sub r3 p]
  have g4 : |r3 - p - r4| ≤ |a| * (6 / 2 ^ 106) := by linarith
  have f12 : |r4| ≤ |a| * (5 / 2 ^ 53 + 1 / 2 ^ 76) := by linarith [abs_le_add_err (r3 - p) r4]
  -- in units of the quotient
  have toQ : ∀ {x k : ℚ}, |x| ≤ |a| * k → |x / y| ≤ |q| * k := by
    intro x k hx
    rw [abs_div, div_le_iff₀ Y0]
    rw [hqy] at hx
    linarith
  have f13 := toQ f12
  have gc : |r4 / y - c| ≤ |q| * (6 / 2 ^ 106) := by linarith
  have f14 : |c| ≤ |q| * (5 / 2 ^ 53 + 1 / 2 ^ 75) := by linarith [abs_le_add_err (r4 / y) c]
  obtain ⟨D, hD⟩ : ∃ D, D = (a + b) - cc * (y + l) := ⟨_, rfl⟩
  have gD : |r4 - D| ≤ |a| * (18 / 2 ^ 106) := by
    have e : r4 - D = -(r3 - p - r4) + (-(r2 + b - r3) + (-(r1 - (cc * y - uu) - r2) + (-(a - uu - r1) + (cc * l - p)))) := by rw [hD]; ring
    rw [e]
    have n1 := abs_add_le (-(r3 - p - r4)) (-(r2 + b - r3) + (-(r1 - (cc * y - uu) - r2) + (-(a - uu - r1) + (cc * l - p))))
    have n2 := abs_add_le (-(r2 + b - r3)) (-(r1 - (cc * y - uu) - r2) + (-(a - uu - r1) + (cc * l - p)))
    have n3 := abs_add_le (-(r1 - (cc * y - uu) - r2)) (-(a - uu - r1) + (cc * l - p))
    have n4 := abs_add_le (-(a - uu - r1)) (cc * l - p)
    simp only [abs_neg] at n1 n2 n3 n4
    linarith
  have fD : |D| ≤ |a| * (6 / 2 ^ 53) := by
    have n := abs_le_add_err r4 D
    linarith
  have gD' := toQ gD
  have fD' := toQ fD
  -- the divisor with its low part
  have hyl0 : |y| * (1 - 2 / 2 ^ 53) ≤ |y + l| := by
    have := abs_sub_abs_le_abs_sub y (-l)
    rw [abs_neg, sub_neg_eq_add] at this
    linarith
  have hyl : y + l ≠ 0 := by
    intro h
    rw [h, abs_zero] at hyl0
    linarith
  have P0 : 0 < |y + l| := abs_pos.mpr hyl
  have hrat : |l / (y + l)| ≤ 3 / 2 ^ 53 := by
    rw [abs_div, div_le_iff₀ P0]
    linarith
  have hfull : (a + b) / (y + l) = cc + D / (y + l) := by rw [hD]; field_simp; ring
  have hDd : D / y - D / (y + l) = D / y * (l / (y + l)) := by field_simp; ring
  have hDe : |D / y - D / (y + l)| ≤ |q| * (18 / 2 ^ 106) := by
    rw [hDd, abs_mul]
    have := mul_le_mul fD' hrat (abs_nonneg _) (by positivity)
    refine le_trans this (le_of_eq ?_)
    ring
  have fcc : |q| * (1 - 1 / 2 ^ 50) ≤ |cc| := by
    have := abs_sub_abs_le_abs_sub q cc
    linarith
  have fq : |q| * (9 / 10) ≤ |(a + b) / (y + l)| := by
    have e : (a + b) / (y + l) = cc + (D / y - (D / y - D / (y + l))) := by rw [hfull]; ring
    have n1 := abs_sub_abs_le_abs_sub cc (-(D / y - (D / y - D / (y + l))))
    rw [abs_neg, sub_neg_eq_add, ← e] at n1
    have n2 := abs_sub (D / y) (D / y - D / (y + l))
    linarith
  refine ⟨by linarith, ?_⟩
  have e : cc + c - (a + b) / (y + l) = -(r4 / y - c) + ((r4 - D) / y + (D / y - D / (y + l))) := by rw [hfull]; ring
  rw [e]
  have n1 := abs_add_le (-(r4 / y - c)) ((r4 - D) / y + (D / y - D / (y + l)))
  have n2 := abs_add_le ((r4 - D) / y) (D / y - D / (y + l))
  rw [abs_neg] at n1
  linarith

end Verif.Binary64
