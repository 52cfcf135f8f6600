import Verif.Lemmas.DDSign

/-! # The accuracy of a double-double sum -/

namespace Verif.Binary64

variable {a b c d : ℚ}

theorem AddSteps.err_far (s : AddSteps a b c d) (ra : Rep a) (rb : Rep b) (rc : Rep c) (rd : Rep d)
    (na : near (a + b) = a) (nc : near (c + d) = c) (ha : |a| ≤ 3 * |s.ss|) (hc : |c| ≤ 3 * |s.ss|) :
    (|s.e2| ≤ |s.hh| / 2 ∨ s.hh = 0) ∧ |s.hh + s.e2 - (a + b + (c + d))| ≤ |a + b + (c + d)| / 2 ^ 101 := by
  obtain ⟨ss, tt, e1, hh, h, e2, zhi, zlo, hss, htt, he1, hhh, hh', he2, hzhi, hzlo⟩ := s
  dsimp only at *
  have M := abs_nonneg ss
  have rss : Rep ss := hss ▸ near_rep _
  have rtt : Rep tt := htt ▸ near_rep _
  have rs : Rep (a + c - ss) := hss ▸ err_rep ra rc
  have rt : Rep (b + d - tt) := htt ▸ err_rep rb rd
  have re1 : Rep e1 := he1 ▸ near_rep _
  have rhh : Rep hh := hhh ▸ near_rep _
  have rh : Rep h := hh' ▸ near_rep _
  have hb := low_rel ra rb na
  have hd := low_rel rc rd nc
  have b1 : |b + d| ≤ 12 / 2 ^ 53 * |ss| := by linarith [abs_add_le b d]
  have b2 : |tt| ≤ 13 / 2 ^ 53 * |ss| := by
    have := near_le_rel rb rd
    rw [htt] at this
    linarith
  have b3 : |b + d - tt| ≤ 1 / 2 ^ 53 * |ss| := by
    have := near_add_rel rb rd
    rw [htt] at this
    linarith
  have b4 : |a + c - ss| ≤ 2 / 2 ^ 53 * |ss| := by
    have h1 := near_add_rel ra rc
    have h2 := near_ge_rel ra rc
    rw [hss] at h1 h2
    linarith [abs_nonneg (a + c)]
  have b5 : |a + c - ss + tt - e1| ≤ 15 / 2 ^ 106 * |ss| := by
    have := near_add_rel rs rtt
    rw [he1] at this
    linarith [abs_add_le (a + c - ss) tt]
  have b5' : |e1| ≤ 16 / 2 ^ 53 * |ss| := by
    have := near_le_rel rs rtt
    rw [he1] at this
    linarith [abs_add_le (a + c - ss) tt]
  have hfast : h = ss + e1 - hh := by
    rw [← hh', ← hhh]; exact fast_two_sum rss re1 (expo_mono (by linarith))
  have b6 : |h| ≤ 2 / 2 ^ 53 * |ss| := by
    have := near_add_rel rss re1
    rw [hhh, ← hfast] at this
    linarith [abs_add_le ss e1]
  have b7 : |b + d - tt + h - e2| ≤ 3 / 2 ^ 106 * |ss| := by
    have := near_add_rel rt rh
    rw [he2] at this
    linarith [abs_add_le (b + d - tt) h]
  have b8 : |e2| ≤ 4 / 2 ^ 53 * |ss| := by
    have := near_le_rel rt rh
    rw [he2] at this
    linarith [abs_add_le (b + d - tt) h]
  have b9 : |ss| / 2 ≤ |hh| := by
    have : |ss| ≤ |hh| + |h - e1| := by
      have := abs_add_le hh (h - e1)
      rwa [show hh + (h - e1) = ss by rw [hfast]; ring] at this
    linarith [abs_sub h e1]
  refine ⟨Or.inl (by linarith), ?_⟩
  have b10 : |ss| ≤ |a + b + (c + d)| * (1 + 1 / 16) := by
    have e : ss = (a + b + (c + d)) + (-(a + c - ss) + -(b + d)) := by ring
    have n1 := abs_add_le (a + b + (c + d)) (-(a + c - ss) + -(b + d))
    have n2 := abs_add_le (-(a + c - ss)) (-(b + d))
    rw [← e] at n1
    rw [abs_neg, abs_neg] at n2
    linarith
  have e : hh + e2 - (a + b + (c + d)) = -(b + d - tt + h - e2) + -(a + c - ss + tt - e1) := by rw [hfast]; ring
  rw [e]
  have n1 := abs_add_le (-(b + d - tt + h - e2)) (-(a + c - ss + tt - e1))
  rw [abs_neg, abs_neg] at n1
  linarith

theorem AddSteps.err_near (s : AddSteps a b c d) (ra : Rep a) (rb : Rep b) (rc : Rep c) (rd : Rep d)
    (na : near (a + b) = a) (nc : near (c + d) = c) (hx : Rep (a + c)) (h1 : |a| ≤ 2 * |c|) (h2 : |c| ≤ 2 * |a|) :
    (|s.e2| ≤ |s.hh| / 2 ∨ s.hh = 0) ∧ |s.hh + s.e2 - (a + b + (c + d))| ≤ |a + b + (c + d)| / 2 ^ 101 := by
  have hfast' := s.fast_near ra rb rc rd na nc hx h1 h2
  obtain ⟨ss, tt, e1, hh, h, e2, zhi, zlo, hss, htt, he1, hhh, hh', he2, hzhi, hzlo⟩ := s
  dsimp only at *
  have rtt : Rep tt := htt ▸ near_rep _
  have rt : Rep (b + d - tt) := htt ▸ err_rep rb rd
  rw [near_of_rep hx] at hss
  rw [hss, sub_self, zero_add, near_of_rep rtt] at he1
  subst he1
  have rss : Rep ss := hss ▸ hx
  have rh : Rep h := hh' ▸ near_rep _
  have rhh : Rep hh := hhh ▸ near_rep _
  obtain ⟨hfast, hlow⟩ := hfast'
  have hZ : a + b + (c + d) = hh + (h + (b + d - tt)) := by rw [hfast, ← hss]; ring
  by_cases hex : Rep (ss + tt)
  · -- no rounding at all
    have h0 : h = 0 := by rw [hfast, ← hhh, near_of_rep hex, sub_self]
    rw [h0, add_zero, near_of_rep rt] at he2
    constructor
    · by_cases hh0 : hh = 0
      · right; exact hh0
      · left; rw [← he2]; exact hlow hh0
    · rw [hZ, h0, ← he2, zero_add, sub_self, abs_zero]
      positivity
  · obtain ⟨g1, g2, g3⟩ := no_cancel rss rtt (fun h => hex h.1)
    have k3 := near_add_rel rss rtt
    have k4 := near_ge_rel rss rtt
    rw [hhh] at k3 k4
    rw [← hfast] at k3
    have k5 : |b + d - tt| ≤ 4 / 2 ^ 53 * |hh| := by
      have n1 := near_add_rel rb rd
      have n2 := near_ge_rel rb rd
      rw [htt] at n1 n2
      linarith [abs_nonneg (b + d), abs_nonneg (ss + tt)]
    have k6 : |h| ≤ 2 / 2 ^ 53 * |hh| := by linarith [abs_nonneg (ss + tt)]
    have k7 : |b + d - tt + h - e2| ≤ 6 / 2 ^ 106 * |hh| := by
      have := near_add_rel rt rh
      rw [he2] at this
      linarith [abs_add_le (b + d - tt) h]
    have k8 : |e2| ≤ |hh| / 2 := by
      have := near_le_rel rt rh
      rw [he2] at this
      linarith [abs_add_le (b + d - tt) h, abs_nonneg hh]
    refine ⟨Or.inl k8, ?_⟩
    have k9 : |hh| ≤ |a + b + (c + d)| * 2 := by
      have n1 := abs_add_le (a + b + (c + d)) (-h + -(b + d - tt))
      have n2 := abs_add_le (-h) (-(b + d - tt))
      rw [show a + b + (c + d) + (-h + -(b + d - tt)) = hh by rw [hZ]; ring] at n1
      rw [abs_neg, abs_neg] at n2
      linarith [abs_nonneg hh]
    have e : hh + e2 - (a + b + (c + d)) = -(b + d - tt + h - e2) := by rw [hZ]; ring
    rw [e, abs_neg]
    linarith [abs_nonneg (a + b + (c + d))]

/-- The sum of two normalised pairs is off by at most one part in 2^101, and its last two summands are well apart. -/
theorem AddSteps.err (s : AddSteps a b c d) (ra : Rep a) (rb : Rep b) (rc : Rep c) (rd : Rep d)
    (na : near (a + b) = a) (nc : near (c + d) = c) :
    (|s.e2| ≤ |s.hh| / 2 ∨ s.hh = 0) ∧ |s.hh + s.e2 - (a + b + (c + d))| ≤ |a + b + (c + d)| / 2 ^ 101 := by
  by_cases hcan : Rep (a + c) ∧ |a| ≤ 2 * |c| ∧ |c| ≤ 2 * |a|
  · exact s.err_near ra rb rc rd na nc hcan.1 hcan.2.1 hcan.2.2
  · have key := no_cancel ra rc hcan
    have hge := near_ge_rel ra rc
    rw [s.hss] at hge
    have hp := abs_pos.mpr key.2.2
    exact s.err_far ra rb rc rd na nc (by linarith [key.1]) (by linarith [key.2.1])

end Verif.Binary64
