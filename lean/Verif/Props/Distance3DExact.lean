import Verif.Props.Distance3D

set_option linter.unusedSectionVars false

/-! # C109: where the distance of two segments in space is right, and what the least distance is

In exact real arithmetic, see C54. -/

namespace Verif.Props
open Flt Verif.Spec Verif.Distance3D

/-- On the way from a point of the square to a least point of the plane beyond a corner, one of the two edges at the corner is passed
first, and the gap shrinks. -/
theorem toward_corner (A B C D E F s0 t0 s t k l : ℝ) (hA : 0 < A) (hdet : B ^ 2 ≤ A * C)
    (c1 : A * s0 - B * t0 + D = 0) (c2 : C * t0 - B * s0 - E = 0)
    (hs : (s0 < k ∧ k ≤ s) ∨ (s ≤ k ∧ k < s0)) (ht : (t0 < l ∧ l ≤ t) ∨ (t ≤ l ∧ l < t0))
    (bs : 0 ≤ s ∧ s ≤ 1) (bt : 0 ≤ t ∧ t ≤ 1) (bk : 0 ≤ k ∧ k ≤ 1) (bl : 0 ≤ l ∧ l ≤ 1) :
    (∃ t', 0 ≤ t' ∧ t' ≤ 1 ∧ gap3 A B C D E F k t' ≤ gap3 A B C D E F s t) ∨
    (∃ s', 0 ≤ s' ∧ s' ≤ 1 ∧ gap3 A B C D E F s' l ≤ gap3 A B C D E F s t) := by
  have frac : ∀ x0 x c : ℝ, (x0 < c ∧ c ≤ x) ∨ (x ≤ c ∧ c < x0) → ∃ m, m * (x - x0) = c - x0 ∧ 0 ≤ m ∧ m ≤ 1 := by
    intro x0 x c h
    have hne : x - x0 ≠ 0 := by rcases h with h | h <;> intro h' <;> linarith [h.1, h.2]
    refine ⟨(c - x0) / (x - x0), by field_simp, ?_, ?_⟩
    · rcases h with h | h
      · exact div_nonneg (by linarith) (by linarith)
      · exact div_nonneg_of_nonpos (by linarith) (by linarith)
    · rcases h with h | h
      · rw [div_le_one (by linarith)]; linarith
      · rw [div_le_one_of_neg (by linarith)]; linarith
  obtain ⟨m, hm, m0, m1⟩ := frac s0 s k hs
  obtain ⟨n, hn, n0, n1⟩ := frac t0 t l ht
  have q : ∀ x y, gap3 A B C D E F (s0 + x) (t0 + y) = gap3 A B C D E F s0 t0 + (A * x ^ 2 - 2 * B * x * y + C * y ^ 2) := by
    intro x y; unfold gap3; linear_combination 2 * x * c1 + 2 * y * c2
  have hQ : 0 ≤ A * (s - s0) ^ 2 - 2 * B * (s - s0) * (t - t0) + C * (t - t0) ^ 2 := by
    have : 0 ≤ A * (A * (s - s0) ^ 2 - 2 * B * (s - s0) * (t - t0) + C * (t - t0) ^ 2) := by
      nlinarith [sq_nonneg (A * (s - s0) - B * (t - t0)), mul_nonneg (sub_nonneg.mpr hdet) (sq_nonneg (t - t0))]
    exact nonneg_of_mul_nonneg_right this hA
  have e2 := q (s - s0) (t - t0)
  rw [add_sub_cancel, add_sub_cancel] at e2
  have shrink : ∀ w, 0 ≤ w → w ≤ 1 → gap3 A B C D E F (s0 + w * (s - s0)) (t0 + w * (t - t0)) ≤ gap3 A B C D E F s t := by
    intro w w0 w1
    rw [q, e2]
    have hw : w ^ 2 ≤ 1 := by nlinarith
    nlinarith [mul_le_mul_of_nonneg_right hw hQ]
  rcases le_total n m with h | h
  · left
    have := shrink m m0 m1
    rw [hm, add_sub_cancel] at this
    refine ⟨_, ?_, ?_, this⟩
    · rcases ht with ht | ht
      · linarith [mul_le_mul_of_nonneg_right h (by linarith : 0 ≤ t - t0)]
      · linarith [mul_nonneg (by linarith : 0 ≤ 1 - m) (by linarith : 0 ≤ t0 - t)]
    · rcases ht with ht | ht
      · linarith [mul_nonneg (by linarith : 0 ≤ 1 - m) (by linarith : 0 ≤ t - t0)]
      · linarith [mul_le_mul_of_nonneg_right h (by linarith : 0 ≤ t0 - t)]
  · right
    have := shrink n n0 n1
    rw [hn, add_sub_cancel] at this
    refine ⟨_, ?_, ?_, this⟩
    · rcases hs with hs | hs
      · linarith [mul_le_mul_of_nonneg_right h (by linarith : 0 ≤ s - s0)]
      · linarith [mul_nonneg (by linarith : 0 ≤ 1 - n) (by linarith : 0 ≤ s0 - s)]
    · rcases hs with hs | hs
      · linarith [mul_nonneg (by linarith : 0 ≤ 1 - n) (by linarith : 0 ≤ s - s0)]
      · linarith [mul_le_mul_of_nonneg_right h (by linarith : 0 ≤ s0 - s)]

/-- No pair of points of the segments is nearer than the least of the answer and the distances of the ends of the second segment. -/
theorem three_least (a b c d : Coord ℝ) (hcd : ¬ Same3 c d) (u v : Coord ℝ) (hu : OnSegment3 u a b) (hv : OnSegment3 v c d) :
    segmentSegment a b c d ≤ dist3 u v ∨ pointSegment c a b ≤ dist3 u v ∨ pointSegment d a b ≤ dist3 u v := by
  by_cases hnear : NearOnOne a b c d
  · exact .inl ((C54_segment_segment_partial a b c d hcd hnear).2 u v hu hv)
  by_cases hab : a.equals3D b = true
  · rw [equals3D_real] at hab
    exact .inl ((C54_parallel a b c d hcd 0 (by rw [hab.1]; ring) (by rw [hab.2.1]; ring) (by rw [hab.2.2]; ring)).2 u v hu hv)
  by_cases hbc : c.equals3D b = true
  · rw [equals3D_real] at hbc
    left
    have := C54_meeting a b c d c hcd ⟨1, zero_le_one, le_rfl, by
      obtain ⟨h1, h2, h3⟩ := along_one a b
      exact ⟨hbc.1.trans h1.symm, hbc.2.1.trans h2.symm, hbc.2.2.trans h3.symm⟩⟩ (onSegment3_start c d)
    rw [this]
    exact Real.sqrt_nonneg _
  have hpc := C54_point_segment c a b
  have hpd := C54_point_segment d a b
  have hpa := C54_point_segment a c d
  have hpb := C54_point_segment b c d
  have hans : segmentSegment a b c d = segmentSegment a b c d := rfl
  conv_rhs at hans => unfold segmentSegment
  rw [if_neg hab, if_neg hbc] at hans
  rw [equals3D_real] at hab
  have hA := inner3_pos hab
  have hC := inner3_pos hcd
  have hcs := inner3_cauchy a b c d
  have hpar := parallel_products a b c d hcd
  have hga := dist3_along a b c d
  have hgn := gap3_nonneg a b c d
  have d1 : Vec3.dot4 a b a b = inner3 a b a b := rfl
  have d2 : Vec3.dot4 a b c d = inner3 a b c d := rfl
  have d3 : Vec3.dot4 c d c d = inner3 c d c d := rfl
  have d4 : Vec3.dot4 a b c a = inner3 a b c a := rfl
  have d5 : Vec3.dot4 c d c a = inner3 c d c a := rfl
  rw [d1, d2, d3, d4, d5] at hans
  obtain ⟨A, eA⟩ : ∃ A, A = inner3 a b a b := ⟨_, rfl⟩
  obtain ⟨B, eB⟩ : ∃ B, B = inner3 a b c d := ⟨_, rfl⟩
  obtain ⟨C, eC⟩ : ∃ C, C = inner3 c d c d := ⟨_, rfl⟩
  obtain ⟨D, eD⟩ : ∃ D, D = inner3 a b c a := ⟨_, rfl⟩
  obtain ⟨E, eE⟩ : ∃ E, E = inner3 c d c a := ⟨_, rfl⟩
  obtain ⟨F, eF⟩ : ∃ F, F = inner3 c a c a := ⟨_, rfl⟩
  rw [← eA, ← eB, ← eC, ← eD, ← eE] at hpar hans
  rw [← eA, ← eB, ← eC] at hcs
  simp only [← eA, ← eB, ← eC, ← eD, ← eE, ← eF] at hga hgn
  rw [← eA] at hA
  rw [← eC] at hC
  have le : ∀ s t s' t', gap3 A B C D E F s t ≤ gap3 A B C D E F s' t' → dist3 (along a b s) (along c d t) ≤ dist3 (along a b s') (along c d t') := by
    intro s t s' t' h
    rw [hga, hga]; exact Real.sqrt_le_sqrt h
  have mk : ∀ s0 t0, (∀ s t, gap3 A B C D E F s0 t0 ≤ gap3 A B C D E F s t) → ¬ (0 ≤ s0 ∧ s0 ≤ 1) ∧ ¬ (0 ≤ t0 ∧ t0 ≤ 1) := by
    intro s0 t0 h
    rw [← not_or]
    intro hon
    apply hnear
    refine ⟨along a b s0, along c d t0, ⟨s0, Same3.refl _⟩, ⟨t0, Same3.refl _⟩, ?_, ?_⟩
    · rintro p' q' ⟨s, hp⟩ ⟨t, hq⟩
      rw [dist3_congr hp hq]
      exact le _ _ _ _ (h s t)
    · rcases hon with h | h
      · exact .inl (onSegment3_along a b h.1 h.2)
      · exact .inr (onSegment3_along c d h.1 h.2)
  simp only [real_toFlt, exact_isNaN, exact_sub, exact_mul, exact_lt, exact_lit, Rat.cast_zero, Rat.cast_one, exact_add,
    Bool.false_eq_true, if_false, decide_eq_true_eq, distance3_real] at hans
  by_cases hden : A * C - B * B ≤ 0
  · have hdet : B ^ 2 = A * C := by nlinarith
    have hD := hpar hdet.ge
    refine absurd ⟨le_rfl, zero_le_one⟩ (mk 0 (E / C) ?_).1
    intro s t
    rw [gap3_parallel A B C D E F s t hC hdet hD]
    have := mul_nonneg hC.le (sq_nonneg (t - E / C - s * (B / C)))
    linarith
  push Not at hden
  have hst : params A B C D E (A * C - B * B) = ((B * E - C * D) / (A * C - B * B), (A * E - B * D) / (A * C - B * B)) := by
    unfold params
    rw [if_neg (by simpa using hden)]
    rfl
  rw [hst] at hans
  dsimp only at hans
  obtain ⟨s0, es⟩ : ∃ s0, s0 = (B * E - C * D) / (A * C - B * B) := ⟨_, rfl⟩
  obtain ⟨t0, et⟩ : ∃ t0, t0 = (A * E - B * D) / (A * C - B * B) := ⟨_, rfl⟩
  rw [← es, ← et] at hans
  obtain ⟨c1, c2, hleast, huniq⟩ := one_least A B C D E F s0 t0 hA hden es et
  obtain ⟨o1, o2⟩ := mk s0 t0 hleast
  obtain ⟨s, bs0, bs1, hu⟩ := hu
  obtain ⟨t, bt0, bt1, hv⟩ := hv
  rw [dist3_congr hu hv]
  have hl : ∃ l f, (l = 0 ∧ f = c ∨ l = 1 ∧ f = d) ∧ ((t0 < l ∧ l ≤ t) ∨ (t ≤ l ∧ l < t0)) := by
    rcases lt_or_ge t0 0 with h | h
    · exact ⟨0, c, .inl ⟨rfl, rfl⟩, .inl ⟨h, bt0⟩⟩
    · exact ⟨1, d, .inr ⟨rfl, rfl⟩, .inr ⟨bt1, lt_of_not_ge fun h' => o2 ⟨h, h'⟩⟩⟩
  have hk : ∃ k e, (k = 0 ∧ e = a ∨ k = 1 ∧ e = b) ∧ ((s0 < k ∧ k ≤ s) ∨ (s ≤ k ∧ k < s0)) ∧ segmentSegment a b c d = pointSegment e c d := by
    rcases lt_or_ge s0 0 with h | h
    · rw [if_pos h] at hans
      exact ⟨0, a, .inl ⟨rfl, rfl⟩, .inl ⟨h, bs0⟩, hans⟩
    · have h1 : 1 < s0 := lt_of_not_ge fun h' => o1 ⟨h, h'⟩
      rw [if_neg (not_lt.mpr h), if_pos h1] at hans
      exact ⟨1, b, .inr ⟨rfl, rfl⟩, .inr ⟨bs1, h1⟩, hans⟩
  obtain ⟨l, f, hlf, hl⟩ := hl
  obtain ⟨k, e, hke, hk, hans⟩ := hk
  have bk : 0 ≤ k ∧ k ≤ 1 := by rcases hke with ⟨rfl, _⟩ | ⟨rfl, _⟩ <;> norm_num
  have bl : 0 ≤ l ∧ l ≤ 1 := by rcases hlf with ⟨rfl, _⟩ | ⟨rfl, _⟩ <;> norm_num
  rcases toward_corner A B C D E F s0 t0 s t k l hA hcs c1 c2 hk hl ⟨bs0, bs1⟩ ⟨bt0, bt1⟩ bk bl with ⟨t', x0, x1, x2⟩ | ⟨s', x0, x1, x2⟩
  · left
    refine le_trans ?_ (le _ _ _ _ x2)
    rw [hans]
    rcases hke with ⟨rfl, rfl⟩ | ⟨rfl, rfl⟩
    · exact hpa.2 _ _ (along_zero _ b) (onSegment3_along c d x0 x1)
    · exact hpb.2 _ _ (along_one a _) (onSegment3_along c d x0 x1)
  · right
    have := le _ _ _ _ x2
    rcases hlf with ⟨rfl, rfl⟩ | ⟨rfl, rfl⟩
    · left
      refine le_trans ?_ this
      rw [dist3_comm]
      exact hpc.2 _ _ (along_zero _ d) (onSegment3_along a b x0 x1)
    · right
      refine le_trans ?_ this
      rw [dist3_comm]
      exact hpd.2 _ _ (along_one c _) (onSegment3_along a b x0 x1)

/-- C109: the least distance of two segments in space, the second of which is no point, is the least of three numbers: the answer and
the distances of the ends of the second segment to the first. -/
theorem C109_segments_in_space (a b c d : Coord ℝ) (hcd : ¬ Same3 c d) :
    LeastDist3 (fun q => OnSegment3 q a b) (fun q => OnSegment3 q c d)
      (min (segmentSegment a b c d) (min (pointSegment c a b) (pointSegment d a b))) ∧
    (LeastDist3 (fun q => OnSegment3 q a b) (fun q => OnSegment3 q c d) (segmentSegment a b c d) ↔
      segmentSegment a b c d ≤ pointSegment c a b ∧ segmentSegment a b c d ≤ pointSegment d a b) := by
  have hpc := C54_point_segment c a b
  have hpd := C54_point_segment d a b
  have at1 : ∃ u v, OnSegment3 u a b ∧ OnSegment3 v c d ∧ dist3 u v = pointSegment c a b := by
    obtain ⟨⟨p, q, hp, hq, e⟩, _⟩ := hpc
    exact ⟨q, c, hq, onSegment3_start c d, by rw [dist3_comm, ← dist3_congr hp (Same3.refl q)]; exact e⟩
  have at2 : ∃ u v, OnSegment3 u a b ∧ OnSegment3 v c d ∧ dist3 u v = pointSegment d a b := by
    obtain ⟨⟨p, q, hp, hq, e⟩, _⟩ := hpd
    exact ⟨q, d, hq, onSegment3_end c d, by rw [dist3_comm, ← dist3_congr hp (Same3.refl q)]; exact e⟩
  have at0 := C54_attained a b c d hcd
  refine ⟨⟨?_, ?_⟩, ?_, ?_⟩
  · rcases min_choice (segmentSegment a b c d) (min (pointSegment c a b) (pointSegment d a b)) with h | h
    · rw [h]; exact at0
    · rw [h]
      rcases min_choice (pointSegment c a b) (pointSegment d a b) with h | h
      · rw [h]; exact at1
      · rw [h]; exact at2
  · intro u v hu hv
    rcases three_least a b c d hcd u v hu hv with h | h | h
    · exact (min_le_left _ _).trans h
    · exact (min_le_right _ _).trans ((min_le_left _ _).trans h)
    · exact (min_le_right _ _).trans ((min_le_right _ _).trans h)
  · rintro ⟨_, h⟩
    obtain ⟨u, v, hu, hv, e⟩ := at1
    obtain ⟨u', v', hu', hv', e'⟩ := at2
    exact ⟨by rw [← e]; exact h u v hu hv, by rw [← e']; exact h u' v' hu' hv'⟩
  · rintro ⟨h1, h2⟩
    refine ⟨at0, fun u v hu hv => ?_⟩
    rcases three_least a b c d hcd u v hu hv with h | h | h
    · exact h
    · exact h1.trans h
    · exact h2.trans h

/-- The segments of `C54_corner_not_least`: the answer is the root of 41, the least distance 5. -/
example : ¬ Same3 (rp3 5 5 0) (rp3 6 6 0) ∧
    ¬ LeastDist3 (fun q => OnSegment3 q (rp3 1 0 0) (rp3 10 0 0)) (fun q => OnSegment3 q (rp3 5 5 0) (rp3 6 6 0))
      (segmentSegment (rp3 1 0 0) (rp3 10 0 0) (rp3 5 5 0) (rp3 6 6 0)) := by
  obtain ⟨h1, h2, h3, h4, h5⟩ := C54_corner_not_least
  refine ⟨by norm_num [Same3, rp3], fun h => ?_⟩
  have := h.2 _ _ h3 h4
  rw [h1, h2] at this
  linarith

end Verif.Props
