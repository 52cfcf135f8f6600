import Verif.Lemmas.TwoProd
import Verif.Spec.Plane

/-! # The sign of a sum of two pairs of binary64 numbers -/

namespace Verif.Binary64
open Verif.Spec

/-- Rounding does not lower the last place. -/
theorem expo_le_near (q : ℚ) : expo q ≤ expo (near q) := by
  by_cases h : expo q = -1074
  · rw [h]; exact expo_ge _
  have hg : -1074 < expo q := lt_of_le_of_ne (expo_ge q) (Ne.symm h)
  have h0 : q ≠ 0 := by rintro rfl; exact h expo_zero
  apply le_expo
  have h3 := expo_le_abs q h0 hg
  have hr : Rep (2 ^ (expo q + 52)) := ⟨1, expo q + 52, by norm_num, by omega, by simp⟩
  rcases abs_cases q with h5 | h5
  · rw [h5.1] at h3
    have := near_mono h3
    rw [near_of_rep hr] at this
    exact le_trans this (le_abs_self _)
  · rw [h5.1] at h3
    have := near_mono h3
    rw [near_of_rep hr, near_neg] at this
    exact le_trans this (neg_le_abs _)

theorem near_le_rel {a b : ℚ} (ha : Rep a) (hb : Rep b) : |near (a + b)| ≤ |a + b| * (1 + 1 / 2 ^ 53) := by
  have h := near_add_rel ha hb
  have h2 := abs_sub_abs_le_abs_sub (near (a + b)) (a + b)
  rw [abs_sub_comm] at h2
  linarith

theorem near_ge_rel {a b : ℚ} (ha : Rep a) (hb : Rep b) : |a + b| * (1 - 1 / 2 ^ 53) ≤ |near (a + b)| := by
  have h := near_add_rel ha hb
  have h2 := abs_sub_abs_le_abs_sub (a + b) (near (a + b))
  linarith

theorem near_add_eq_zero {a b : ℚ} (ha : Rep a) (hb : Rep b) (h : near (a + b) = 0) : a + b = 0 := by
  have := near_ge_rel ha hb
  rw [h, abs_zero] at this
  have h2 := abs_nonneg (a + b)
  exact abs_nonpos_iff.mp (by nlinarith)

/-- A small change does not change the sign. -/
theorem sgn_of_close {x y : ℚ} (h : |x - y| < |y|) : sgn x = sgn y := by
  rcases lt_trichotomy y 0 with h1 | h1 | h1
  · rw [abs_of_neg h1, abs_lt] at h
    rw [sgn_neg_iff.mpr h1, sgn_neg_iff.mpr (by linarith)]
  · rw [h1, abs_zero] at h
    exact absurd h (not_lt.mpr (abs_nonneg _))
  · rw [abs_of_pos h1, abs_lt] at h
    rw [sgn_pos.mpr h1, sgn_pos.mpr (by linarith)]

theorem sgn_near_add {a b : ℚ} (ha : Rep a) (hb : Rep b) : sgn (near (a + b)) = sgn (a + b) := by
  by_cases h : a + b = 0
  · rw [h, near_zero]
  · apply sgn_of_close
    have := near_add_rel ha hb
    rw [abs_sub_comm] at this
    have h0 := abs_pos.mpr h
    linarith

theorem expo_le_of_abs {x y : ℚ} {w : ℤ} (hx : |x| < 2 ^ (w + 1)) (hy : 2 ^ w ≤ |y|) : expo x ≤ expo y := by
  have hy0 : y ≠ 0 := by
    rintro rfl
    rw [abs_zero] at hy
    exact absurd hy (not_le.mpr (two_pos _))
  rcases eq_or_ne x 0 with rfl | hx0
  · rw [expo_zero]; exact expo_ge y
  · have h1 : Int.log 2 |x| < w + 1 := by
      rw [← Int.lt_zpow_iff_log_lt (by norm_num) (abs_pos.mpr hx0)]; exact_mod_cast hx
    have h2 : w ≤ Int.log 2 |y| := by
      rw [← Int.zpow_le_iff_le_log (by norm_num) (abs_pos.mpr hy0)]; exact_mod_cast hy
    unfold expo
    rw [if_neg hx0, if_neg hy0]
    omega

/-- The low part of a normalised pair is small. -/
theorem low_rel {a b : ℚ} (ha : Rep a) (hb : Rep b) (h : near (a + b) = a) : |b| ≤ 2 / 2 ^ 53 * |a| := by
  have h1 := near_add_rel ha hb
  rw [h, add_sub_cancel_left] at h1
  have h2 := abs_add_le a b
  linarith [abs_nonneg b, abs_nonneg a]

theorem low_abs {a b : ℚ} (h : near (a + b) = a) : |b| ≤ 2 ^ expo a / 2 := by
  have h1 := near_err (a + b)
  rw [h, add_sub_cancel_left] at h1
  have h2 := expo_le_near (a + b)
  rw [h] at h2
  have := two_mono h2
  linarith

/-- The steps of the addition of two pairs `a + b` and `c + d`, with the two exact sums already simplified. -/
structure AddSteps (a b c d : ℚ) where
  ss : ℚ
  tt : ℚ
  e1 : ℚ
  hh : ℚ
  h : ℚ
  e2 : ℚ
  zhi : ℚ
  zlo : ℚ
  hss : near (a + c) = ss
  htt : near (b + d) = tt
  he1 : near ((a + c - ss) + tt) = e1
  hhh : near (ss + e1) = hh
  hh' : near (e1 + near (ss - hh)) = h
  he2 : near ((b + d - tt) + h) = e2
  hzhi : near (hh + e2) = zhi
  hzlo : near (e2 + near (hh - zhi)) = zlo

variable {a b c d : ℚ}

theorem AddSteps.zero (s : AddSteps a b c d) (h : s.zhi = 0) : s.zlo = 0 := by
  have r1 : Rep s.hh := s.hhh ▸ near_rep _
  have r2 : Rep s.e2 := s.he2 ▸ near_rep _
  have h1 := near_add_eq_zero r1 r2 (s.hzhi.trans h)
  rw [← s.hzlo, h, sub_zero, near_of_rep r1, add_comm, h1, near_zero]

/-- Without cancellation the leading sum dominates. -/
theorem AddSteps.sign_far (s : AddSteps a b c d) (ra : Rep a) (rb : Rep b) (rc : Rep c) (rd : Rep d)
    (na : near (a + b) = a) (nc : near (c + d) = c) (ha : |a| ≤ 3 * |s.ss|) (hc : |c| ≤ 3 * |s.ss|) (h0 : s.ss ≠ 0) :
    sgn s.zhi = sgn s.ss ∧ sgn (a + b + (c + d)) = sgn s.ss := by
  obtain ⟨ss, tt, e1, hh, h, e2, zhi, zlo, hss, htt, he1, hhh, hh', he2, hzhi, hzlo⟩ := s
  dsimp only at *
  have M := abs_pos.mpr h0
  have rss : Rep ss := hss ▸ near_rep _
  have rtt : Rep tt := htt ▸ near_rep _
  have rs : Rep (a + c - ss) := hss ▸ err_rep ra rc
  have rt : Rep (b + d - tt) := htt ▸ err_rep rb rd
  have re1 : Rep e1 := he1 ▸ near_rep _
  have rhh : Rep hh := hhh ▸ near_rep _
  have rh : Rep h := hh' ▸ near_rep _
  have re2 : Rep e2 := he2 ▸ near_rep _
  have hb := low_rel ra rb na
  have hd := low_rel rc rd nc
  have b1 : |b + d| ≤ 12 / 2 ^ 53 * |ss| := by linarith [abs_add_le b d]
  have b2 : |tt| ≤ 13 / 2 ^ 53 * |ss| := by
    have := near_le_rel rb rd
    rw [htt] at this
    linarith
  have b3 : |b + d - tt| ≤ 1 / 2 ^ 53 * |ss| := by
    have := near_add_rel rb rd
    rw [htt] at this
    linarith
  have b4 : |a + c - ss| ≤ 2 / 2 ^ 53 * |ss| := by
    have h1 := near_add_rel ra rc
    have h2 := near_ge_rel ra rc
    rw [hss] at h1 h2
    linarith [abs_nonneg (a + c)]
  have b5 : |e1| ≤ 16 / 2 ^ 53 * |ss| := by
    have := near_le_rel rs rtt
    rw [he1] at this
    linarith [abs_add_le (a + c - ss) tt]
  have b6 : |ss + e1 - hh| ≤ 2 / 2 ^ 53 * |ss| := by
    have := near_add_rel rss re1
    rw [hhh] at this
    linarith [abs_add_le ss e1]
  have b7 : |ss - hh| ≤ 18 / 2 ^ 53 * |ss| := by
    have : ss - hh = (ss + e1 - hh) + -e1 := by ring
    rw [this]
    have := abs_add_le (ss + e1 - hh) (-e1)
    rw [abs_neg] at this
    linarith
  have b8 : |near (ss - hh)| ≤ 19 / 2 ^ 53 * |ss| := by
    have := near_le_rel rss rhh.neg
    rw [← sub_eq_add_neg] at this
    linarith
  have b9 : |h| ≤ 36 / 2 ^ 53 * |ss| := by
    have := near_le_rel re1 (near_rep (ss - hh))
    rw [hh'] at this
    linarith [abs_add_le e1 (near (ss - hh))]
  have b10 : |e2| ≤ 38 / 2 ^ 53 * |ss| := by
    have := near_le_rel rt rh
    rw [he2] at this
    linarith [abs_add_le (b + d - tt) h]
  constructor
  · rw [← hzhi, sgn_near_add rhh re2]
    apply sgn_of_close
    have : hh + e2 - ss = -(ss - hh) + e2 := by ring
    rw [this]
    have := abs_add_le (-(ss - hh)) e2
    rw [abs_neg] at this
    linarith
  · apply sgn_of_close
    have : a + b + (c + d) - ss = (a + c - ss) + (b + d) := by ring
    rw [this]
    linarith [abs_add_le (a + c - ss) (b + d)]

/-- With cancellation the second sum is exact too, and the rest is smaller. -/
theorem AddSteps.fast_near (s : AddSteps a b c d) (ra : Rep a) (rb : Rep b) (rc : Rep c) (rd : Rep d)
    (na : near (a + b) = a) (nc : near (c + d) = c) (hx : Rep (a + c)) (h1 : |a| ≤ 2 * |c|) (h2 : |c| ≤ 2 * |a|) :
    s.h = s.ss + s.tt - s.hh ∧ (s.hh ≠ 0 → |b + d - s.tt| ≤ |s.hh| / 2) := by
  obtain ⟨ss, tt, e1, hh, h, e2, zhi, zlo, hss, htt, he1, hhh, hh', he2, hzhi, hzlo⟩ := s
  dsimp only at *
  have rtt : Rep tt := htt ▸ near_rep _
  have rt : Rep (b + d - tt) := htt ▸ err_rep rb rd
  rw [near_of_rep hx] at hss
  rw [hss, sub_self, zero_add, near_of_rep rtt] at he1
  subst he1
  have low : Mul2 (expo tt) hh → hh ≠ 0 → |b + d - tt| ≤ |hh| / 2 := by
    intro mhh hh0
    have lhh := mhh.le_abs hh0
    have := near_err (b + d)
    have h3 := expo_le_near (b + d)
    rw [htt] at this h3
    have := two_mono h3
    linarith
  by_cases h0 : ss = 0
  · rw [h0, zero_add, near_of_rep rtt] at hhh
    rw [h0, ← hhh, zero_sub, near_neg, near_of_rep rtt, add_neg_cancel, near_zero] at hh'
    refine ⟨by rw [← hh', h0, ← hhh]; ring, low (hhh ▸ rtt.mul2)⟩
  have rss : Rep ss := hss ▸ hx
  -- exponents
  have hea : expo a ≤ expo c + 1 := by
    by_cases hc0 : c = 0
    · rw [hc0, abs_zero, mul_zero] at h1
      rw [abs_nonpos_iff.mp h1, hc0]; omega
    · by_contra hcon
      push Not at hcon
      have ha0 : a ≠ 0 := by
        rintro rfl
        rw [expo_zero] at hcon
        have := expo_ge c
        omega
      have k1 := expo_le_abs a ha0 (by have := expo_ge c; omega)
      have k2 := abs_lt_expo c
      have k3 : (2 : ℚ) ^ (expo c + 53) * 2 ≤ 2 ^ (expo a + 52) := by
        have : (2 : ℚ) ^ (expo c + 53) * 2 = 2 ^ (expo c + 53 + 1) := by rw [two_add _ 1, zpow_one]
        rw [this]; exact two_mono (by omega)
      linarith
  have hec : expo c ≤ expo a + 1 := by
    by_cases hc0 : a = 0
    · rw [hc0, abs_zero, mul_zero] at h2
      rw [abs_nonpos_iff.mp h2, hc0]; omega
    · by_contra hcon
      push Not at hcon
      have ha0 : c ≠ 0 := by
        rintro rfl
        rw [expo_zero] at hcon
        have := expo_ge a
        omega
      have k1 := expo_le_abs c ha0 (by have := expo_ge a; omega)
      have k2 := abs_lt_expo a
      have k3 : (2 : ℚ) ^ (expo a + 53) * 2 ≤ 2 ^ (expo c + 52) := by
        have : (2 : ℚ) ^ (expo a + 53) * 2 = 2 ^ (expo a + 53 + 1) := by rw [two_add _ 1, zpow_one]
        rw [this]; exact two_mono (by omega)
      linarith
  obtain ⟨w, hw⟩ : ∃ w, w = min (expo a) (expo c) := ⟨_, rfl⟩
  have mss : Mul2 w ss := by
    rw [← hss]
    exact (ra.mul2.mono (by omega)).add (rc.mul2.mono (by omega))
  have lss := mss.le_abs h0
  have hbd : |b + d| ≤ 3 / 2 * 2 ^ w := by
    have k1 := low_abs na
    have k2 := low_abs nc
    have e : (2 : ℚ) ^ (w + 1) = 2 * 2 ^ w := by rw [two_add, zpow_one]; ring
    have hsum : (2 : ℚ) ^ expo a + 2 ^ expo c ≤ 3 * 2 ^ w := by
      rcases le_total (expo a) (expo c) with hl | hl
      · have : w = expo a := by omega
        rw [← this]
        have := two_mono (by omega : expo c ≤ w + 1)
        linarith
      · have : w = expo c := by omega
        rw [← this]
        have := two_mono (by omega : expo a ≤ w + 1)
        linarith
    linarith [abs_add_le b d]
  have htt2 : |tt| < 2 ^ (w + 1) := by
    have := near_le_rel rb rd
    rw [htt] at this
    have e : (2 : ℚ) ^ (w + 1) = 2 * 2 ^ w := by rw [two_add, zpow_one]; ring
    rw [e]
    linarith [two_pos w]
  have hexp : expo tt ≤ expo ss := expo_le_of_abs htt2 lss
  refine ⟨by rw [← hh', ← hhh]; exact fast_two_sum rss rtt hexp, low ?_⟩
  exact hhh ▸ near_keeps (expo_ge tt) ((rss.mul2.mono hexp).add rtt.mul2)

/-- With cancellation the leading sum is exact. -/
theorem AddSteps.sign_near (s : AddSteps a b c d) (ra : Rep a) (rb : Rep b) (rc : Rep c) (rd : Rep d)
    (na : near (a + b) = a) (nc : near (c + d) = c) (hx : Rep (a + c)) (h1 : |a| ≤ 2 * |c|) (h2 : |c| ≤ 2 * |a|) :
    sgn s.zhi = sgn (a + b + (c + d)) := by
  obtain ⟨hfast, hlow⟩ := s.fast_near ra rb rc rd na nc hx h1 h2
  obtain ⟨ss, tt, e1, hh, h, e2, zhi, zlo, hss, htt, he1, hhh, hh', he2, hzhi, hzlo⟩ := s
  dsimp only at *
  have rtt : Rep tt := htt ▸ near_rep _
  have rt : Rep (b + d - tt) := htt ▸ err_rep rb rd
  rw [near_of_rep hx] at hss
  rw [hss, sub_self, zero_add, near_of_rep rtt] at he1
  subst he1
  have rss : Rep ss := hss ▸ hx
  have rh : Rep h := hh' ▸ near_rep _
  have rhh : Rep hh := hhh ▸ near_rep _
  have re2 : Rep e2 := he2 ▸ near_rep _
  have hZ : a + b + (c + d) = hh + (h + (b + d - tt)) := by rw [hfast, ← hss]; ring
  by_cases hh0 : hh = 0
  · have hst : ss + tt = 0 := near_add_eq_zero rss rtt (hhh.trans hh0)
    have hh00 : h = 0 := by rw [hfast, hst, hh0, sub_zero]
    rw [hh00, add_zero, near_of_rep rt] at he2
    rw [hh0, zero_add, ← he2, near_of_rep rt] at hzhi
    rw [← hzhi, hZ, hh0, hh00, zero_add, zero_add]
  · have k1 := hlow hh0
    have hp := abs_pos.mpr hh0
    have k2 : |h| ≤ 2 / 2 ^ 53 * |hh| := by
      have k3 := near_add_rel rss rtt
      have k4 := near_ge_rel rss rtt
      rw [hhh] at k3 k4
      rw [hfast]
      linarith [abs_nonneg (ss + tt)]
    have k5 := abs_add_le h (b + d - tt)
    have k6 : |e2| ≤ 3 / 4 * |hh| := by
      have := near_le_rel rt rh
      rw [he2] at this
      rw [add_comm (b + d - tt) h] at this
      linarith
    rw [← hzhi, sgn_near_add rhh re2, hZ]
    have s1 : sgn (hh + e2) = sgn hh := sgn_of_close (by rw [add_sub_cancel_left]; linarith)
    have s2 : sgn (hh + (h + (b + d - tt))) = sgn hh := sgn_of_close (by rw [add_sub_cancel_left]; linarith)
    rw [s1, s2]

/-- Unless two numbers cancel exactly, their sum is not small. -/
theorem no_cancel {a c : ℚ} (ra : Rep a) (rc : Rep c) (hcan : ¬(Rep (a + c) ∧ |a| ≤ 2 * |c| ∧ |c| ≤ 2 * |a|)) :
    |a| ≤ 5 / 2 * |a + c| ∧ |c| ≤ 5 / 2 * |a + c| ∧ a + c ≠ 0 := by
  by_cases hab : |a| ≤ 2 * |c| ∧ |c| ≤ 2 * |a|
  · -- same sign, else Sterbenz
    have hnr : ¬Rep (a + c) := fun h => hcan ⟨h, hab⟩
    have hne : a + c ≠ 0 := fun h => hnr (h ▸ rep_zero)
    have hss : 0 ≤ a * c := by
      by_contra hneg
      push Not at hneg
      apply hnr
      rcases mul_neg_iff.mp hneg with ⟨p, n⟩ | ⟨n, p⟩
      · rw [abs_of_pos p, abs_of_neg n] at hab
        have := sterbenz ra rc.neg hab.2 hab.1
        rwa [sub_neg_eq_add] at this
      · rw [abs_of_neg n, abs_of_pos p] at hab
        have := sterbenz rc ra.neg hab.1 hab.2
        rwa [sub_neg_eq_add, add_comm] at this
    have : |a + c| = |a| + |c| := by
      rcases mul_nonneg_iff.mp hss with h | h
      · rw [abs_of_nonneg h.1, abs_of_nonneg h.2, abs_of_nonneg (by linarith)]
      · rw [abs_of_nonpos h.1, abs_of_nonpos h.2, abs_of_nonpos (by linarith)]; ring
    rw [this]
    exact ⟨by linarith [abs_nonneg a, abs_nonneg c], by linarith [abs_nonneg a, abs_nonneg c], hne⟩
  · have k1 := abs_sub_abs_le_abs_sub a (-c)
    have k2 := abs_sub_abs_le_abs_sub c (-a)
    rw [abs_neg, sub_neg_eq_add] at k1 k2
    rw [add_comm c a] at k2
    have hne : a + c ≠ 0 := by
      intro h
      apply hab
      have : a = -c := by linarith
      rw [this, abs_neg]
      constructor <;> linarith [abs_nonneg c]
    by_cases h1 : |a| ≤ 2 * |c|
    · have h2 : 2 * |a| < |c| := by
        by_contra h; push Not at h; exact hab ⟨h1, h⟩
      exact ⟨by linarith [abs_nonneg a], by linarith [abs_nonneg a], hne⟩
    · push Not at h1
      exact ⟨by linarith [abs_nonneg c], by linarith [abs_nonneg c], hne⟩

/-- The high part of the sum of two normalised pairs has the sign of the exact sum. -/
theorem AddSteps.sign (s : AddSteps a b c d) (ra : Rep a) (rb : Rep b) (rc : Rep c) (rd : Rep d)
    (na : near (a + b) = a) (nc : near (c + d) = c) : sgn s.zhi = sgn (a + b + (c + d)) := by
  by_cases hcan : Rep (a + c) ∧ |a| ≤ 2 * |c| ∧ |c| ≤ 2 * |a|
  · exact s.sign_near ra rb rc rd na nc hcan.1 hcan.2.1 hcan.2.2
  · have key := no_cancel ra rc hcan
    have hge := near_ge_rel ra rc
    rw [s.hss] at hge
    have hp := abs_pos.mpr key.2.2
    have h0 : s.ss ≠ 0 := by
      intro h
      rw [h, abs_zero] at hge
      linarith
    have := s.sign_far ra rb rc rd na nc (by linarith [key.1]) (by linarith [key.2.1]) h0
    rw [this.1, this.2]

end Verif.Binary64
