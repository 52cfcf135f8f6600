import Verif.Model.Distance3D
import Verif.Spec.Space
import Verif.Props.Distance
import Verif.Lemmas.Ext

set_option linter.unusedSectionVars false

/-! # C54: distances in space

In exact real arithmetic. The distance of a point to a segment is right. The distance of two segments is right if one of the nearest
points of the two infinite lines is on its segment; else it may be too large (`C54_corner_not_least`). If the second segment is a
point, the answer is NaN (`C54_second_point_nan`). -/

namespace Verif.Props
open Flt Verif.Spec Verif.Distance3D

theorem equals3D_real (a b : Coord ℝ) : a.equals3D b = true ↔ Same3 a b := by
  simp [Coord.equals3D, Same3, and_assoc]

theorem distance3_real (a b : Coord ℝ) : Distance3D.distance a b = dist3 a b := by
  simp only [Distance3D.distance, dist3, real_toFlt, exact_isNaN, exact_sub, exact_mul, exact_add, real_sqrt, Bool.or_self, Bool.false_eq_true,
    if_false]
  congr 1; ring

/-- The distance is the Euclidean distance in space. -/
theorem C54_distance (a b : Coord ℝ) : Distance3D.distance a b = dist3 a b ∧ a.distance3D b = dist3 a b := by
  refine ⟨distance3_real a b, ?_⟩
  simp only [Coord.distance3D, dist3, real_toFlt, exact_sub, exact_mul, exact_add, real_sqrt]
  congr 1; ring

/-- (Every arithmetic.) Without heights it is the distance in the plane. -/
theorem C54_distance_without_heights {α : Type} [FltSqrt α] (a b : Coord α) (h : isNaN a.z = true ∨ isNaN b.z = true) :
    Distance3D.distance a b = a.distance b := by
  unfold Distance3D.distance
  rw [if_pos (by rcases h with h | h <;> simp [h])]

theorem dist3_le_iff (a b c d : Coord ℝ) : dist3 a b ≤ dist3 c d ↔
    (a.x - b.x) ^ 2 + (a.y - b.y) ^ 2 + (a.z - b.z) ^ 2 ≤ (c.x - d.x) ^ 2 + (c.y - d.y) ^ 2 + (c.z - d.z) ^ 2 := by
  unfold dist3; exact Real.sqrt_le_sqrt_iff (by positivity)

/-- Inner product of two directions. -/
def inner3 (a b c d : Coord ℝ) : ℝ := (b.x - a.x) * (d.x - c.x) + (b.y - a.y) * (d.y - c.y) + (b.z - a.z) * (d.z - c.z)

theorem inner3_pos {a b : Coord ℝ} (h : ¬ Same3 a b) : 0 < inner3 a b a b := by
  unfold inner3
  by_contra hc
  push Not at hc
  apply h
  have h1 := mul_self_nonneg (b.x - a.x)
  have h2 := mul_self_nonneg (b.y - a.y)
  have h3 := mul_self_nonneg (b.z - a.z)
  refine ⟨?_, ?_, ?_⟩
  · linarith [mul_self_eq_zero.mp (show (b.x - a.x) * (b.x - a.x) = 0 by linarith)]
  · linarith [mul_self_eq_zero.mp (show (b.y - a.y) * (b.y - a.y) = 0 by linarith)]
  · linarith [mul_self_eq_zero.mp (show (b.z - a.z) * (b.z - a.z) = 0 by linarith)]

/-- The inequality of Cauchy and Schwarz. -/
theorem inner3_cauchy (a b c d : Coord ℝ) : inner3 a b c d ^ 2 ≤ inner3 a b a b * inner3 c d c d := by
  unfold inner3
  nlinarith [sq_nonneg ((b.x - a.x) * (d.y - c.y) - (b.y - a.y) * (d.x - c.x)),
    sq_nonneg ((b.x - a.x) * (d.z - c.z) - (b.z - a.z) * (d.x - c.x)),
    sq_nonneg ((b.y - a.y) * (d.z - c.z) - (b.z - a.z) * (d.y - c.y))]

/-- Square of the distance of the points at parameters `s` and `t`, by the products. -/
def gap3 (A B C D E F s t : ℝ) : ℝ := F + s ^ 2 * A + t ^ 2 * C + 2 * s * D - 2 * t * E - 2 * s * t * B

theorem dist3_along (a b c d : Coord ℝ) (s t : ℝ) : dist3 (along a b s) (along c d t) =
    Real.sqrt (gap3 (inner3 a b a b) (inner3 a b c d) (inner3 c d c d) (inner3 a b c a) (inner3 c d c a) (inner3 c a c a) s t) := by
  unfold dist3 gap3 inner3 along; congr 1; ring

theorem gap3_nonneg (a b c d : Coord ℝ) (s t : ℝ) :
    0 ≤ gap3 (inner3 a b a b) (inner3 a b c d) (inner3 c d c d) (inner3 a b c a) (inner3 c d c a) (inner3 c a c a) s t := by
  have : gap3 (inner3 a b a b) (inner3 a b c d) (inner3 c d c d) (inner3 a b c a) (inner3 c d c a) (inner3 c a c a) s t =
      ((along a b s).x - (along c d t).x) ^ 2 + ((along a b s).y - (along c d t).y) ^ 2 + ((along a b s).z - (along c d t).z) ^ 2 := by
    unfold gap3 inner3 along; ring
  rw [this]; positivity

theorem along_zero (a b : Coord ℝ) : Same3 (along a b 0) a := by simp [Same3, along]
theorem along_one (a b : Coord ℝ) : Same3 (along a b 1) b := by simp [Same3, along]
theorem onSegment3_along (a b : Coord ℝ) {t : ℝ} (h0 : 0 ≤ t) (h1 : t ≤ 1) : OnSegment3 (along a b t) a b := ⟨t, h0, h1, Same3.refl _⟩
theorem onSegment3_start (a b : Coord ℝ) : OnSegment3 a a b := ⟨0, le_rfl, zero_le_one, (along_zero a b).symm⟩
theorem onSegment3_end (a b : Coord ℝ) : OnSegment3 b a b := ⟨1, zero_le_one, le_rfl, (along_one a b).symm⟩

/-- The distance of a point to a segment is attained at a point of the segment and least over it, for segments that are points too. -/
theorem C54_point_segment (p a b : Coord ℝ) :
    LeastDist3 (fun q => Same3 q p) (fun q => OnSegment3 q a b) (pointSegment p a b) := by
  unfold pointSegment
  by_cases h : a.equals3D b = true
  · rw [if_pos h, distance3_real]
    rw [equals3D_real] at h
    refine ⟨⟨p, a, Same3.refl p, onSegment3_start a b, rfl⟩, ?_⟩
    rintro u v hu ⟨t, _, _, hv⟩
    have : Same3 v a := by
      obtain ⟨h1, h2, h3⟩ := hv
      simp only [along, ← h.1, ← h.2.1, ← h.2.2] at h1 h2 h3
      exact ⟨by linarith, by linarith, by linarith⟩
    rw [dist3_congr hu this]
  rw [if_neg h]
  rw [equals3D_real] at h
  have hA := inner3_pos h
  obtain ⟨A, eA⟩ : ∃ A, A = inner3 a b a b := ⟨_, rfl⟩
  obtain ⟨D, eD⟩ : ∃ D, D = inner3 a b a p := ⟨_, rfl⟩
  have hsq : ∀ t, (p.x - (along a b t).x) ^ 2 + (p.y - (along a b t).y) ^ 2 + (p.z - (along a b t).z) ^ 2 =
      inner3 a p a p - 2 * t * D + t ^ 2 * A := by
    intro t; rw [eA, eD]; unfold inner3 along; ring
  have le : ∀ s t, - 2 * s * D + s ^ 2 * A ≤ - 2 * t * D + t ^ 2 * A → dist3 p (along a b s) ≤ dist3 p (along a b t) := by
    intro s t h
    rw [dist3_le_iff, hsq, hsq]; linarith
  simp only [distance3_real, real_toFlt, exact_isNaN, exact_sub, exact_mul, exact_add, exact_div, exact_le, exact_lit, Rat.cast_zero, Rat.cast_one, real_sqrt,
    Bool.false_eq_true, if_false, decide_eq_true_eq]
  have e1 : (b.x - a.x) * (b.x - a.x) + (b.y - a.y) * (b.y - a.y) + (b.z - a.z) * (b.z - a.z) = A := by rw [eA]; rfl
  have e2 : (p.x - a.x) * (b.x - a.x) + (p.y - a.y) * (b.y - a.y) + (p.z - a.z) * (b.z - a.z) = D := by rw [eD]; unfold inner3; ring
  rw [e1, e2]
  rw [← eA] at hA
  split_ifs with h0 h1
  · have hD : D ≤ 0 := by by_contra hc; push Not at hc; exact absurd h0 (not_le.mpr (div_pos hc hA))
    refine ⟨⟨p, a, Same3.refl p, onSegment3_start a b, rfl⟩, ?_⟩
    rintro u v hu ⟨t, t0, t1, hv⟩
    rw [dist3_congr hu hv, dist3_congr (Same3.refl p) (along_zero a b).symm]
    apply le; nlinarith [mul_nonneg t0 (neg_nonneg.mpr hD), mul_nonneg (sq_nonneg t) hA.le]
  · have hD : A ≤ D := by rwa [le_div_iff₀ hA, one_mul] at h1
    refine ⟨⟨p, b, Same3.refl p, onSegment3_end a b, rfl⟩, ?_⟩
    rintro u v hu ⟨t, t0, t1, hv⟩
    rw [dist3_congr hu hv, dist3_congr (Same3.refl p) (along_one a b).symm]
    apply le; nlinarith [mul_nonneg (sub_nonneg.mpr t1) (sub_nonneg.mpr hD), mul_nonneg (sq_nonneg (1 - t)) hA.le]
  · push Not at h0 h1
    have e3 : Real.sqrt ((p.x - (a.x + D / A * (b.x - a.x))) * (p.x - (a.x + D / A * (b.x - a.x))) +
        (p.y - (a.y + D / A * (b.y - a.y))) * (p.y - (a.y + D / A * (b.y - a.y))) +
        (p.z - (a.z + D / A * (b.z - a.z))) * (p.z - (a.z + D / A * (b.z - a.z)))) = dist3 p (along a b (D / A)) := by
      unfold dist3 along; congr 1; ring
    rw [e3]
    refine ⟨⟨p, _, Same3.refl p, onSegment3_along a b h0.le h1.le, rfl⟩, ?_⟩
    rintro u v hu ⟨t, t0, t1, hv⟩
    rw [dist3_congr hu hv]
    apply le
    have : D = D / A * A := by field_simp
    obtain ⟨r, hr⟩ : ∃ r, r = D / A := ⟨_, rfl⟩
    rw [← hr] at this ⊢
    rw [this]
    nlinarith [mul_nonneg (sq_nonneg (r - t)) hA.le]

/-- The distance of two segments, from a point of one of them: if every pair of points of the segments is at least as far apart as
some pair on the edge `s = k`, the distance of that end is least. -/
theorem edge_least (a b c d e : Coord ℝ) (k : ℝ) (hk : 0 ≤ k ∧ k ≤ 1) (he : Same3 e (along a b k))
    (h : ∀ s t, 0 ≤ s → s ≤ 1 → 0 ≤ t → t ≤ 1 → ∃ t', 0 ≤ t' ∧ t' ≤ 1 ∧
      dist3 (along a b k) (along c d t') ≤ dist3 (along a b s) (along c d t)) :
    LeastDist3 (fun q => OnSegment3 q a b) (fun q => OnSegment3 q c d) (pointSegment e c d) := by
  obtain ⟨⟨u, v, hu, hv, e1⟩, h1⟩ := C54_point_segment e c d
  refine ⟨⟨e, v, ⟨k, hk.1, hk.2, he⟩, hv, by rw [← e1]; exact dist3_congr hu.symm (Same3.refl v)⟩, ?_⟩
  rintro u v ⟨s, s0, s1, hu⟩ ⟨t, t0, t1, hv⟩
  obtain ⟨t', t0', t1', hle⟩ := h s t s0 s1 t0 t1
  rw [dist3_congr hu hv]
  refine le_trans ?_ hle
  rw [← dist3_congr he (Same3.refl _)]
  exact h1 _ _ (Same3.refl e) (onSegment3_along c d t0' t1')

/-- The same for the edge `t = k`. -/
theorem edge_least' (a b c d e : Coord ℝ) (k : ℝ) (hk : 0 ≤ k ∧ k ≤ 1) (he : Same3 e (along c d k))
    (h : ∀ s t, 0 ≤ s → s ≤ 1 → 0 ≤ t → t ≤ 1 → ∃ s', 0 ≤ s' ∧ s' ≤ 1 ∧
      dist3 (along a b s') (along c d k) ≤ dist3 (along a b s) (along c d t)) :
    LeastDist3 (fun q => OnSegment3 q a b) (fun q => OnSegment3 q c d) (pointSegment e a b) := by
  refine (edge_least c d a b e k hk he fun s t s0 s1 t0 t1 => ?_).swap
  obtain ⟨s', h0, h1, h2⟩ := h t s t0 t1 s0 s1
  exact ⟨s', h0, h1, by rw [dist3_comm, dist3_comm (along c d s)]; exact h2⟩

/-- On the way from a point of the square to the least point of the plane the edge `s = k` is passed, and the gap shrinks. -/
theorem toward (A B C D E F s0 t0 s t k : ℝ) (hA : 0 < A) (hC : 0 < C) (hdet : B ^ 2 ≤ A * C)
    (c1 : A * s0 - B * t0 + D = 0) (c2 : C * t0 - B * s0 - E = 0)
    (hs : (s0 < k ∧ k ≤ s) ∨ (s ≤ k ∧ k < s0)) (ht : 0 ≤ t ∧ t ≤ 1) (ht0 : 0 ≤ t0 ∧ t0 ≤ 1) :
    ∃ t', 0 ≤ t' ∧ t' ≤ 1 ∧ gap3 A B C D E F k t' ≤ gap3 A B C D E F s t := by
  have hne : s - s0 ≠ 0 := by rcases hs with h | h <;> intro h' <;> linarith [h.1, h.2]
  obtain ⟨m, hm⟩ : ∃ m, m = (k - s0) / (s - s0) := ⟨_, rfl⟩
  have hm1 : m * (s - s0) = k - s0 := by rw [hm]; field_simp
  have m0 : 0 ≤ m := by
    rw [hm]
    rcases hs with h | h
    · exact div_nonneg (by linarith) (by linarith)
    · exact div_nonneg_of_nonpos (by linarith) (by linarith)
  have m1 : m ≤ 1 := by
    rcases hs with h | h
    · rw [hm, div_le_one (by linarith)]; linarith
    · rw [hm, div_le_one_of_neg (by linarith)]; linarith
  refine ⟨t0 + m * (t - t0), by nlinarith, by nlinarith, ?_⟩
  have q : ∀ x y, gap3 A B C D E F (s0 + x) (t0 + y) = gap3 A B C D E F s0 t0 + (A * x ^ 2 - 2 * B * x * y + C * y ^ 2) := by
    intro x y; unfold gap3; linear_combination 2 * x * c1 + 2 * y * c2
  have e1 := q (k - s0) (m * (t - t0))
  have e2 := q (s - s0) (t - t0)
  rw [add_sub_cancel] at e1 e2
  rw [add_sub_cancel] at e2
  rw [e1, e2, ← hm1]
  have hQ : 0 ≤ A * (s - s0) ^ 2 - 2 * B * (s - s0) * (t - t0) + C * (t - t0) ^ 2 := by
    have : 0 ≤ A * (A * (s - s0) ^ 2 - 2 * B * (s - s0) * (t - t0) + C * (t - t0) ^ 2) := by
      nlinarith [sq_nonneg (A * (s - s0) - B * (t - t0)), mul_nonneg (sub_nonneg.mpr hdet) (sq_nonneg (t - t0))]
    exact nonneg_of_mul_nonneg_right this hA
  have hm2 : m ^ 2 ≤ 1 := by nlinarith
  nlinarith [mul_le_mul_of_nonneg_right hm2 hQ]

/-- The products are symmetric under exchange of the segments. -/
theorem gap3_swap (A B C D E F s t : ℝ) : gap3 A B C D E F s t = gap3 C B A (-E) (-D) F t s := by unfold gap3; ring

/-- Parallel lines: the gap is that of the points at `0` and `t0`, plus a square. -/
theorem gap3_parallel (A B C D E F s t : ℝ) (hC : 0 < C) (hdet : B ^ 2 = A * C) (hD : D * C = E * B) :
    gap3 A B C D E F s t = gap3 A B C D E F 0 (E / C) + C * (t - E / C - s * (B / C)) ^ 2 := by
  have hA : A = B ^ 2 / C := by field_simp; linarith
  have hD' : D = E * B / C := by field_simp; linarith
  unfold gap3
  rw [hA, hD']
  field_simp
  ring

/-- Lines whose directions reach equality in Cauchy-Schwarz are parallel. -/
theorem parallel_products (a b c d : Coord ℝ) (hcd : ¬ Same3 c d) (h : inner3 a b a b * inner3 c d c d ≤ inner3 a b c d ^ 2) :
    inner3 a b c a * inner3 c d c d = inner3 c d c a * inner3 a b c d := by
  have hC := inner3_pos hcd
  have key : ((b.x - a.x) * (d.y - c.y) - (b.y - a.y) * (d.x - c.x)) ^ 2 + ((b.x - a.x) * (d.z - c.z) - (b.z - a.z) * (d.x - c.x)) ^ 2 +
      ((b.y - a.y) * (d.z - c.z) - (b.z - a.z) * (d.y - c.y)) ^ 2 = inner3 a b a b * inner3 c d c d - inner3 a b c d ^ 2 := by
    unfold inner3; ring
  have three : ∀ x y z w : ℝ, x ^ 2 + y ^ 2 + z ^ 2 = w → w ≤ 0 → x = 0 ∧ y = 0 ∧ z = 0 := by
    intro x y z w h hw
    have h1 := sq_nonneg x
    have h2 := sq_nonneg y
    have h3 := sq_nonneg z
    exact ⟨pow_eq_zero_iff (two_ne_zero) |>.mp (by linarith), pow_eq_zero_iff (two_ne_zero) |>.mp (by linarith),
      pow_eq_zero_iff (two_ne_zero) |>.mp (by linarith)⟩
  obtain ⟨z1, z2, z3⟩ := three _ _ _ _ key (by linarith)
  unfold inner3
  linear_combination ((a.x - c.x) * (d.y - c.y) - (a.y - c.y) * (d.x - c.x)) * z1 +
    ((a.x - c.x) * (d.z - c.z) - (a.z - c.z) * (d.x - c.x)) * z2 + ((a.y - c.y) * (d.z - c.z) - (a.z - c.z) * (d.y - c.y)) * z3

/-- The parameters the code computes are those of the one point where the gap is least. -/
theorem one_least (A B C D E F s0 t0 : ℝ) (hA : 0 < A) (hden : 0 < A * C - B * B) (es : s0 = (B * E - C * D) / (A * C - B * B))
    (et : t0 = (A * E - B * D) / (A * C - B * B)) :
    A * s0 - B * t0 + D = 0 ∧ C * t0 - B * s0 - E = 0 ∧ (∀ s t, gap3 A B C D E F s0 t0 ≤ gap3 A B C D E F s t) ∧
    ∀ s t, gap3 A B C D E F s t ≤ gap3 A B C D E F s0 t0 → s = s0 ∧ t = t0 := by
  obtain ⟨N, hN⟩ : ∃ N, N = A * C - B * B := ⟨_, rfl⟩
  rw [← hN] at es et hden
  have e1 : s0 * N = B * E - C * D := by rw [es]; field_simp
  have e2 : t0 * N = A * E - B * D := by rw [et]; field_simp
  have c1 : A * s0 - B * t0 + D = 0 := by
    have : N * (A * s0 - B * t0 + D) = 0 := by linear_combination A * e1 - B * e2 + D * hN
    exact (mul_eq_zero.mp this).resolve_left hden.ne'
  have c2 : C * t0 - B * s0 - E = 0 := by
    have : N * (C * t0 - B * s0 - E) = 0 := by linear_combination C * e2 - B * e1 - E * hN
    exact (mul_eq_zero.mp this).resolve_left hden.ne'
  have q : ∀ s t, gap3 A B C D E F s t = gap3 A B C D E F s0 t0 + (A * (s - s0) ^ 2 - 2 * B * (s - s0) * (t - t0) + C * (t - t0) ^ 2) := by
    intro s t; unfold gap3; linear_combination 2 * (s - s0) * c1 + 2 * (t - t0) * c2
  have hQ : ∀ x y : ℝ, A * (A * x ^ 2 - 2 * B * x * y + C * y ^ 2) = (A * x - B * y) ^ 2 + N * y ^ 2 := by intro x y; rw [hN]; ring
  refine ⟨c1, c2, fun s t => ?_, fun s t h => ?_⟩
  · rw [q s t]
    have : 0 ≤ A * (s - s0) ^ 2 - 2 * B * (s - s0) * (t - t0) + C * (t - t0) ^ 2 := by
      refine nonneg_of_mul_nonneg_right ?_ hA
      rw [hQ]; exact add_nonneg (sq_nonneg _) (mul_nonneg hden.le (sq_nonneg _))
    linarith
  · rw [q s t] at h
    have h0 : (A * (s - s0) - B * (t - t0)) ^ 2 + N * (t - t0) ^ 2 ≤ 0 := by
      rw [← hQ]; exact mul_nonpos_of_nonneg_of_nonpos hA.le (by linarith)
    have p1 := sq_nonneg (A * (s - s0) - B * (t - t0))
    have p2 := mul_nonneg hden.le (sq_nonneg (t - t0))
    have y0 : t - t0 = 0 := by
      have : N * (t - t0) ^ 2 = 0 := by linarith
      exact pow_eq_zero_iff (two_ne_zero) |>.mp ((mul_eq_zero.mp this).resolve_left hden.ne')
    have x0 : A * (s - s0) - B * (t - t0) = 0 := pow_eq_zero_iff (two_ne_zero) |>.mp (by linarith)
    rw [y0, mul_zero, sub_zero] at x0
    exact ⟨by linarith [(mul_eq_zero.mp x0).resolve_left hA.ne'], by linarith⟩

/-- A pair of nearest points of the two infinite lines, one of which is on its segment. -/
def NearOnOne (a b c d : Coord ℝ) : Prop :=
  ∃ p q, OnLine3 p a b ∧ OnLine3 q c d ∧ (∀ p' q', OnLine3 p' a b → OnLine3 q' c d → dist3 p q ≤ dist3 p' q') ∧
    (OnSegment3 p a b ∨ OnSegment3 q c d)

/-- Least distance of two segments, the second of which is no point: right if one of the nearest points of the two infinite lines is
on its segment. In particular for segments on parallel lines (`C54_parallel`) and for segments that meet. -/
theorem C54_segment_segment_partial (a b c d : Coord ℝ) (hcd : ¬ Same3 c d) (h : NearOnOne a b c d) :
    LeastDist3 (fun q => OnSegment3 q a b) (fun q => OnSegment3 q c d) (segmentSegment a b c d) := by
  unfold segmentSegment
  by_cases hab : a.equals3D b = true
  · rw [if_pos hab]
    rw [equals3D_real] at hab
    refine edge_least a b c d a 0 ⟨le_rfl, zero_le_one⟩ (along_zero a b).symm fun s t s0 s1 t0 t1 => ⟨t, t0, t1, le_of_eq (dist3_congr ?_ (Same3.refl _))⟩
    simp [Same3, along, hab.1, hab.2.1, hab.2.2]
  rw [if_neg hab]
  by_cases hbc : c.equals3D b = true
  · rw [if_pos hbc]
    rw [equals3D_real] at hbc
    refine edge_least' a b c d c 0 ⟨le_rfl, zero_le_one⟩ (along_zero c d).symm fun s t s0 s1 t0 t1 => ⟨1, zero_le_one, le_rfl, ?_⟩
    have e : dist3 (along a b 1) (along c d 0) = 0 := by
      rw [dist3_congr ((along_one a b)) ((along_zero c d)), dist3_congr (Same3.refl b) hbc]
      simp [dist3]
    rw [e]
    exact Real.sqrt_nonneg _
  rw [if_neg hbc]
  rw [equals3D_real] at hab
  have hA := inner3_pos hab
  have hC := inner3_pos hcd
  have hcs := inner3_cauchy a b c d
  have hpar := parallel_products a b c d hcd
  have hga := dist3_along a b c d
  have hgn := gap3_nonneg a b c d
  have near : ∃ s t, (∀ s' t', gap3 (inner3 a b a b) (inner3 a b c d) (inner3 c d c d) (inner3 a b c a) (inner3 c d c a) (inner3 c a c a) s t ≤
      gap3 (inner3 a b a b) (inner3 a b c d) (inner3 c d c d) (inner3 a b c a) (inner3 c d c a) (inner3 c a c a) s' t') ∧
      ((0 ≤ s ∧ s ≤ 1) ∨ (0 ≤ t ∧ t ≤ 1)) := by
    obtain ⟨p, q, ⟨s, hp⟩, ⟨t, hq⟩, hmin, hon⟩ := h
    have inj : ∀ u v : Coord ℝ, ¬ Same3 u v → ∀ x y, Same3 (along u v x) (along u v y) → x = y := by
      intro u v huv x y hxy
      by_contra hne
      apply huv
      obtain ⟨h1, h2, h3⟩ := hxy
      simp only [along] at h1 h2 h3
      refine ⟨?_, ?_, ?_⟩
      · have : (x - y) * (v.x - u.x) = 0 := by linarith
        linarith [(mul_eq_zero.mp this).resolve_left (sub_ne_zero.mpr hne)]
      · have : (x - y) * (v.y - u.y) = 0 := by linarith
        linarith [(mul_eq_zero.mp this).resolve_left (sub_ne_zero.mpr hne)]
      · have : (x - y) * (v.z - u.z) = 0 := by linarith
        linarith [(mul_eq_zero.mp this).resolve_left (sub_ne_zero.mpr hne)]
    refine ⟨s, t, fun s' t' => ?_, ?_⟩
    · have := hmin _ _ ⟨s', Same3.refl _⟩ ⟨t', Same3.refl _⟩
      rw [dist3_congr hp hq, hga, hga] at this
      exact (Real.sqrt_le_sqrt_iff (hgn _ _)).mp this
    · rcases hon with ⟨x, x0, x1, hx⟩ | ⟨x, x0, x1, hx⟩
      · left
        have : s = x := inj a b hab _ _ ⟨hp.1.symm.trans hx.1, hp.2.1.symm.trans hx.2.1, hp.2.2.symm.trans hx.2.2⟩
        rw [this]; exact ⟨x0, x1⟩
      · right
        have : t = x := inj c d hcd _ _ ⟨hq.1.symm.trans hx.1, hq.2.1.symm.trans hx.2.1, hq.2.2.symm.trans hx.2.2⟩
        rw [this]; exact ⟨x0, x1⟩
  have d1 : Vec3.dot4 a b a b = inner3 a b a b := rfl
  have d2 : Vec3.dot4 a b c d = inner3 a b c d := rfl
  have d3 : Vec3.dot4 c d c d = inner3 c d c d := rfl
  have d4 : Vec3.dot4 a b c a = inner3 a b c a := rfl
  have d5 : Vec3.dot4 c d c a = inner3 c d c a := rfl
  rw [d1, d2, d3, d4, d5]
  obtain ⟨A, eA⟩ : ∃ A, A = inner3 a b a b := ⟨_, rfl⟩
  obtain ⟨B, eB⟩ : ∃ B, B = inner3 a b c d := ⟨_, rfl⟩
  obtain ⟨C, eC⟩ : ∃ C, C = inner3 c d c d := ⟨_, rfl⟩
  obtain ⟨D, eD⟩ : ∃ D, D = inner3 a b c a := ⟨_, rfl⟩
  obtain ⟨E, eE⟩ : ∃ E, E = inner3 c d c a := ⟨_, rfl⟩
  obtain ⟨F, eF⟩ : ∃ F, F = inner3 c a c a := ⟨_, rfl⟩
  rw [← eA, ← eB, ← eC, ← eD, ← eE]
  rw [← eA, ← eB, ← eC, ← eD, ← eE] at hpar
  rw [← eA, ← eB, ← eC] at hcs
  simp only [← eA, ← eB, ← eC, ← eD, ← eE, ← eF] at hga hgn near
  rw [← eA] at hA
  rw [← eC] at hC
  have le : ∀ s t s' t', gap3 A B C D E F s t ≤ gap3 A B C D E F s' t' → dist3 (along a b s) (along c d t) ≤ dist3 (along a b s') (along c d t') := by
    intro s t s' t' h
    rw [hga, hga]; exact Real.sqrt_le_sqrt h
  simp only [real_toFlt, exact_isNaN, exact_sub, exact_mul, exact_lt, exact_lit, Rat.cast_zero, Rat.cast_one, exact_add,
    Bool.false_eq_true, if_false, decide_eq_true_eq, distance3_real]
  -- the last branch
  have last : ∀ s t : ℝ, dist3 (Coord.xyz (a.x + s * (b.x - a.x)) (a.y + s * (b.y - a.y)) (a.z + s * (b.z - a.z)))
      (Coord.xyz (c.x + t * (d.x - c.x)) (c.y + t * (d.y - c.y)) (c.z + t * (d.z - c.z))) = dist3 (along a b s) (along c d t) := by
    intro s t; exact dist3_congr ⟨rfl, rfl, rfl⟩ ⟨rfl, rfl, rfl⟩
  have inside : ∀ s t : ℝ, 0 ≤ s → s ≤ 1 → 0 ≤ t → t ≤ 1 → (∀ s' t', gap3 A B C D E F s t ≤ gap3 A B C D E F s' t') →
      LeastDist3 (fun q => OnSegment3 q a b) (fun q => OnSegment3 q c d) (dist3 (along a b s) (along c d t)) := by
    intro s t s0 s1 t0 t1 hm
    refine ⟨⟨_, _, onSegment3_along a b s0 s1, onSegment3_along c d t0 t1, rfl⟩, ?_⟩
    rintro u v ⟨s', _, _, hu⟩ ⟨t', _, _, hv⟩
    rw [dist3_congr hu hv]
    exact le _ _ _ _ (hm _ _)
  by_cases hden : A * C - B * B ≤ 0
  · -- parallel lines
    have hdet : B ^ 2 = A * C := by nlinarith
    have hD := hpar hdet.ge
    have hBne : B ≠ 0 := by
      rintro rfl
      have := mul_pos hA hC
      nlinarith
    have hst : params A B C D E (A * C - B * B) = (0, E / C) := by
      unfold params
      rw [if_pos (by simpa using hden)]
      simp only [exact_lit, Rat.cast_zero, exact_lt, exact_div, decide_eq_true_eq, Prod.mk.injEq, true_and]
      split_ifs with hlt
      · rw [div_eq_div_iff hBne hC.ne']; exact hD
      · rfl
    have hgp := fun s t => gap3_parallel A B C D E F s t hC hdet hD
    rw [hst]
    dsimp only
    obtain ⟨T, eT⟩ : ∃ T, T = E / C := ⟨_, rfl⟩
    obtain ⟨k, ek⟩ : ∃ k, k = B / C := ⟨_, rfl⟩
    simp only [← eT, ← ek] at hgp
    rw [← eT]
    have sqle : ∀ s t s' t', |t - T - s * k| ≤ |t' - T - s' * k| → gap3 A B C D E F s t ≤ gap3 A B C D E F s' t' := by
      intro s t s' t' h
      rw [hgp s t, hgp s' t']
      have := mul_le_mul_of_nonneg_left (sq_le_sq.mpr h) hC.le
      linarith
    rw [if_neg (lt_irrefl _), if_neg (by norm_num)]
    split_ifs with h1 h2
    · refine edge_least' a b c d c 0 ⟨le_rfl, zero_le_one⟩ (along_zero c d).symm fun s t s0 s1 t0 t1 => ?_
      by_cases hk : k ≤ 0
      · refine ⟨0, le_rfl, zero_le_one, le _ _ _ _ (sqle _ _ _ _ ?_)⟩
        have : s * k ≤ 0 := by nlinarith
        rw [abs_of_nonneg (by linarith), abs_of_nonneg (by linarith)]; linarith
      · push Not at hk
        by_cases hs : s * k ≤ -T
        · refine ⟨s, s0, s1, le _ _ _ _ (sqle _ _ _ _ ?_)⟩
          rw [abs_of_nonneg (by linarith), abs_of_nonneg (by linarith)]; linarith
        · push Not at hs
          refine ⟨-T / k, div_nonneg (by linarith) hk.le, by rw [div_le_one hk]; nlinarith, le _ _ _ _ (sqle _ _ _ _ ?_)⟩
          rw [div_mul_cancel₀ _ hk.ne']
          simp
    · refine edge_least' a b c d d 1 ⟨zero_le_one, le_rfl⟩ (along_one c d).symm fun s t s0 s1 t0 t1 => ?_
      by_cases hk : 0 ≤ k
      · refine ⟨0, le_rfl, zero_le_one, le _ _ _ _ (sqle _ _ _ _ ?_)⟩
        have : 0 ≤ s * k := mul_nonneg s0 hk
        rw [abs_of_nonpos (by linarith), abs_of_nonpos (by linarith)]; linarith
      · push Not at hk
        by_cases hs : 1 - T ≤ s * k
        · refine ⟨s, s0, s1, le _ _ _ _ (sqle _ _ _ _ ?_)⟩
          rw [abs_of_nonpos (by linarith), abs_of_nonpos (by linarith)]; linarith
        · push Not at hs
          refine ⟨(1 - T) / k, div_nonneg_of_nonpos (by linarith) hk.le, by rw [div_le_one_of_neg hk]; nlinarith, le _ _ _ _ (sqle _ _ _ _ ?_)⟩
          rw [div_mul_cancel₀ _ hk.ne]
          simp
    · push Not at h1 h2
      rw [last]
      refine inside 0 T le_rfl zero_le_one h1 h2 fun s' t' => sqle _ _ _ _ ?_
      simp
  · -- one pair of nearest points
    push Not at hden
    have hst : params A B C D E (A * C - B * B) = ((B * E - C * D) / (A * C - B * B), (A * E - B * D) / (A * C - B * B)) := by
      unfold params
      rw [if_neg (by simpa using hden)]
      rfl
    rw [hst]
    dsimp only
    obtain ⟨s0, es⟩ : ∃ s0, s0 = (B * E - C * D) / (A * C - B * B) := ⟨_, rfl⟩
    obtain ⟨t0, et⟩ : ∃ t0, t0 = (A * E - B * D) / (A * C - B * B) := ⟨_, rfl⟩
    rw [← es, ← et]
    obtain ⟨c1, c2, hleast, huniq⟩ := one_least A B C D E F s0 t0 hA hden es et
    have hon : (0 ≤ s0 ∧ s0 ≤ 1) ∨ (0 ≤ t0 ∧ t0 ≤ 1) := by
      obtain ⟨s, t, hm, hon⟩ := near
      obtain ⟨h1, h2⟩ := huniq s t (hm s0 t0)
      rw [h1, h2] at hon
      exact hon
    split_ifs with h1 h2 h3 h4
    · have ht := hon.resolve_left (fun h => absurd h.1 (not_le.mpr h1))
      refine edge_least a b c d a 0 ⟨le_rfl, zero_le_one⟩ (along_zero a b).symm fun s t s0' s1 t0' t1 => ?_
      obtain ⟨t', x0, x1, x2⟩ := toward A B C D E F s0 t0 s t 0 hA hC hcs c1 c2 (Or.inl ⟨h1, s0'⟩) ⟨t0', t1⟩ ht
      exact ⟨t', x0, x1, le _ _ _ _ x2⟩
    · have ht := hon.resolve_left (fun h => absurd h.2 (not_le.mpr h2))
      refine edge_least a b c d b 1 ⟨zero_le_one, le_rfl⟩ (along_one a b).symm fun s t s0' s1 t0' t1 => ?_
      obtain ⟨t', x0, x1, x2⟩ := toward A B C D E F s0 t0 s t 1 hA hC hcs c1 c2 (Or.inr ⟨s1, h2⟩) ⟨t0', t1⟩ ht
      exact ⟨t', x0, x1, le _ _ _ _ x2⟩
    · push Not at h1 h2
      refine edge_least' a b c d c 0 ⟨le_rfl, zero_le_one⟩ (along_zero c d).symm fun s t s0' s1 t0' t1 => ?_
      obtain ⟨s', x0, x1, x2⟩ := toward C B A (-E) (-D) F t0 s0 t s 0 hC hA (by linarith) (by linarith) (by linarith) (Or.inl ⟨h3, t0'⟩) ⟨s0', s1⟩ ⟨h1, h2⟩
      exact ⟨s', x0, x1, le _ _ _ _ (by rw [gap3_swap, gap3_swap _ _ _ _ _ _ s]; exact x2)⟩
    · push Not at h1 h2
      refine edge_least' a b c d d 1 ⟨zero_le_one, le_rfl⟩ (along_one c d).symm fun s t s0' s1 t0' t1 => ?_
      obtain ⟨s', x0, x1, x2⟩ := toward C B A (-E) (-D) F t0 s0 t s 1 hC hA (by linarith) (by linarith) (by linarith) (Or.inr ⟨t1, h4⟩) ⟨s0', s1⟩ ⟨h1, h2⟩
      exact ⟨s', x0, x1, le _ _ _ _ (by rw [gap3_swap, gap3_swap _ _ _ _ _ _ s]; exact x2)⟩
    · push Not at h1 h2 h3 h4
      rw [last]
      exact inside s0 t0 h1 h2 h3 h4 hleast

/-- Right for segments on parallel lines. -/
theorem C54_parallel (a b c d : Coord ℝ) (hcd : ¬ Same3 c d) (k : ℝ) (hx : b.x - a.x = k * (d.x - c.x)) (hy : b.y - a.y = k * (d.y - c.y))
    (hz : b.z - a.z = k * (d.z - c.z)) :
    LeastDist3 (fun q => OnSegment3 q a b) (fun q => OnSegment3 q c d) (segmentSegment a b c d) := by
  apply C54_segment_segment_partial a b c d hcd
  refine ⟨along a b 0, along c d (inner3 c d c a / inner3 c d c d), ⟨0, Same3.refl _⟩, ⟨_, Same3.refl _⟩, ?_, Or.inl (onSegment3_along a b le_rfl zero_le_one)⟩
  rintro p' q' ⟨s, hp⟩ ⟨t, hq⟩
  rw [dist3_congr hp hq, dist3_along, dist3_along]
  apply Real.sqrt_le_sqrt
  have hC := inner3_pos hcd
  rw [gap3_parallel _ _ _ _ _ _ s t hC (by unfold inner3; rw [hx, hy, hz]; ring) (by unfold inner3; rw [hx, hy, hz]; ring)]
  have := mul_nonneg hC.le (sq_nonneg (t - inner3 c d c a / inner3 c d c d - s * (inner3 a b c d / inner3 c d c d)))
  linarith

/-- Zero for segments that have a common point. -/
theorem C54_meeting (a b c d p : Coord ℝ) (hcd : ¬ Same3 c d) (h1 : OnSegment3 p a b) (h2 : OnSegment3 p c d) :
    segmentSegment a b c d = 0 := by
  have hpp : dist3 p p = 0 := by simp [dist3]
  have h : NearOnOne a b c d := by
    obtain ⟨s, s0, s1, hs⟩ := h1
    obtain ⟨t, t0, t1, ht⟩ := h2
    exact ⟨p, p, ⟨s, hs⟩, ⟨t, ht⟩, fun _ _ _ _ => by rw [hpp]; exact Real.sqrt_nonneg _, Or.inl ⟨s, s0, s1, hs⟩⟩
  obtain ⟨⟨u, v, _, _, e⟩, hle⟩ := C54_segment_segment_partial a b c d hcd h
  have := hle p p h1 h2
  rw [hpp] at this
  exact le_antisymm this (by rw [← e]; exact Real.sqrt_nonneg _)

/-- The answer is always the distance of two points of the segments, if the second segment is no point: it is never too small. -/
theorem C54_attained (a b c d : Coord ℝ) (hcd : ¬ Same3 c d) :
    ∃ u v, OnSegment3 u a b ∧ OnSegment3 v c d ∧ dist3 u v = segmentSegment a b c d := by
  have from1 : ∀ e, OnSegment3 e a b → ∃ u v, OnSegment3 u a b ∧ OnSegment3 v c d ∧ dist3 u v = pointSegment e c d := by
    intro e he
    obtain ⟨⟨u, v, hu, hv, e1⟩, _⟩ := C54_point_segment e c d
    exact ⟨e, v, he, hv, by rw [← e1]; exact dist3_congr hu.symm (Same3.refl v)⟩
  have from2 : ∀ e, OnSegment3 e c d → ∃ u v, OnSegment3 u a b ∧ OnSegment3 v c d ∧ dist3 u v = pointSegment e a b := by
    intro e he
    obtain ⟨⟨u, v, hu, hv, e1⟩, _⟩ := C54_point_segment e a b
    exact ⟨v, e, hv, he, by rw [← e1, dist3_comm]; exact dist3_congr hu.symm (Same3.refl v)⟩
  unfold segmentSegment
  dsimp only
  simp only [real_toFlt, exact_isNaN, exact_lt, exact_lit, Rat.cast_zero, Rat.cast_one, Bool.false_eq_true, if_false, decide_eq_true_eq, distance3_real]
  split_ifs with h1 h2 h3 h4 h5 h6
  · exact from1 a (onSegment3_start a b)
  · exact from2 c (onSegment3_start c d)
  · exact from1 a (onSegment3_start a b)
  · exact from1 b (onSegment3_end a b)
  · exact from2 c (onSegment3_start c d)
  · exact from2 d (onSegment3_end c d)
  · push Not at h3 h4 h5 h6
    exact ⟨_, _, onSegment3_along a b h3 h4, onSegment3_along c d h5 h6, dist3_congr ⟨rfl, rfl, rfl⟩ ⟨rfl, rfl, rfl⟩⟩

/-- A point given by real numbers. -/
def rp3 (x y z : ℝ) : Coord ℝ := ⟨x, y, z, 0⟩

/-- If both parameters are outside, the answer may be too large: the segments from (1, 0, 0) to (10, 0, 0) and from (5, 5, 0) to
(6, 6, 0) are 5 apart, the answer is the distance from (1, 0, 0) to (5, 5, 0), the root of 41. -/
theorem C54_corner_not_least :
    segmentSegment (rp3 1 0 0) (rp3 10 0 0) (rp3 5 5 0) (rp3 6 6 0) = Real.sqrt 41 ∧
    dist3 (rp3 5 0 0) (rp3 5 5 0) = 5 ∧ OnSegment3 (rp3 5 0 0) (rp3 1 0 0) (rp3 10 0 0) ∧ OnSegment3 (rp3 5 5 0) (rp3 5 5 0) (rp3 6 6 0) ∧
    (5 : ℝ) < Real.sqrt 41 := by
  refine ⟨?_, ?_, ⟨4 / 9, by norm_num, by norm_num, by norm_num [Same3, along, rp3]⟩, onSegment3_start _ _, ?_⟩
  · have hps : pointSegment (rp3 1 0 0) (rp3 5 5 0) (rp3 6 6 0) = Real.sqrt 41 := by
      unfold pointSegment
      rw [if_neg (by rw [equals3D_real]; norm_num [Same3, rp3])]
      simp only [distance3_real, real_toFlt, exact_isNaN, exact_sub, exact_mul, exact_add, exact_div, exact_le, exact_lit, Rat.cast_zero, Rat.cast_one, real_sqrt,
        Bool.false_eq_true, if_false, decide_eq_true_eq, rp3]
      rw [if_pos (by norm_num)]
      unfold dist3; congr 1; norm_num
    rw [← hps]
    unfold segmentSegment
    rw [if_neg (by rw [equals3D_real]; norm_num [Same3, rp3]), if_neg (by rw [equals3D_real]; norm_num [Same3, rp3])]
    dsimp only
    have hst : (params (Vec3.dot4 (rp3 1 0 0) (rp3 10 0 0) (rp3 1 0 0) (rp3 10 0 0)) (Vec3.dot4 (rp3 1 0 0) (rp3 10 0 0) (rp3 5 5 0) (rp3 6 6 0))
        (Vec3.dot4 (rp3 5 5 0) (rp3 6 6 0) (rp3 5 5 0) (rp3 6 6 0)) (Vec3.dot4 (rp3 1 0 0) (rp3 10 0 0) (rp3 5 5 0) (rp3 1 0 0))
        (Vec3.dot4 (rp3 5 5 0) (rp3 6 6 0) (rp3 5 5 0) (rp3 1 0 0))
        (Vec3.dot4 (rp3 1 0 0) (rp3 10 0 0) (rp3 1 0 0) (rp3 10 0 0) *. Vec3.dot4 (rp3 5 5 0) (rp3 6 6 0) (rp3 5 5 0) (rp3 6 6 0) -.
          Vec3.dot4 (rp3 1 0 0) (rp3 10 0 0) (rp3 5 5 0) (rp3 6 6 0) *. Vec3.dot4 (rp3 1 0 0) (rp3 10 0 0) (rp3 5 5 0) (rp3 6 6 0))).1 = (-1 / 9 : ℝ) := by
      unfold params
      simp only [Vec3.dot4, rp3, real_toFlt, exact_sub, exact_mul, exact_add, exact_div, exact_le, exact_lit, Rat.cast_zero, decide_eq_true_eq]
      rw [if_neg (by norm_num)]
      norm_num
    rw [hst]
    simp only [real_toFlt, exact_isNaN, exact_lt, exact_lit, Rat.cast_zero, Bool.false_eq_true, if_false, decide_eq_true_eq]
    rw [if_pos (by norm_num)]
  · unfold dist3 rp3
    rw [show ((5 : ℝ) - 5) ^ 2 + (0 - 5) ^ 2 + (0 - 0) ^ 2 = 5 ^ 2 by norm_num]
    exact Real.sqrt_sq (by norm_num)
  · rw [Real.lt_sqrt (by norm_num)]; norm_num

/-- A point with finite ordinates. -/
def fp3 (x y z : ℚ) : Coord EQ := ⟨.fin x, .fin y, .fin z, .nan⟩

/-- If the second segment is a point, off the end of the first, the answer is NaN. -/
theorem C54_second_point_nan (ax ay az bx b_y bz cx cy cz : ℚ) (hab : ¬ (ax = bx ∧ ay = b_y ∧ az = bz)) (hbc : ¬ (cx = bx ∧ cy = b_y ∧ cz = bz)) :
    segmentSegment (fp3 ax ay az) (fp3 bx b_y bz) (fp3 cx cy cz) (fp3 cx cy cz) = Flt.nan := by
  unfold segmentSegment
  rw [if_neg (by simpa [Coord.equals3D, fp3, and_assoc] using hab), if_neg (by simpa [Coord.equals3D, fp3, and_assoc] using hbc)]
  simp [Vec3.dot4, fp3, params]
  rfl

/-- Segments whose points have no heights have no distance: the answer is NaN. -/
theorem C54_no_heights_nan (p : Coord EQ) (ax ay bx b_y : ℚ) (hab : ¬ (ax = bx ∧ ay = b_y)) :
    pointSegment p (Coord.xy (.fin ax) (.fin ay)) (Coord.xy (.fin bx) (.fin b_y)) = Flt.nan := by
  unfold pointSegment
  rw [if_neg (by simpa [Coord.equals3D, Coord.xy, and_assoc] using hab)]
  exact if_pos rfl

/-- Skew segments: the nearest points are inside both. -/
example : NearOnOne (rp3 (-1) 0 0) (rp3 1 0 0) (rp3 0 (-1) 2) (rp3 0 1 2) := by
  refine ⟨rp3 0 0 0, rp3 0 0 2, ⟨1 / 2, by norm_num [Same3, along, rp3]⟩, ⟨1 / 2, by norm_num [Same3, along, rp3]⟩, ?_,
    Or.inl ⟨1 / 2, by norm_num, by norm_num, by norm_num [Same3, along, rp3]⟩⟩
  rintro p q ⟨s, hp⟩ ⟨t, hq⟩
  rw [dist3_congr hp hq, dist3_le_iff]
  simp only [rp3, along]
  nlinarith [sq_nonneg (2 * s - 1), sq_nonneg (2 * t - 1)]

example : ¬ Same3 (rp3 0 (-1) 2) (rp3 0 1 2) := by norm_num [Same3, rp3]

/-- Parallel segments that do not overlap. -/
example : ¬ Same3 (rp3 4 0 1) (rp3 6 0 1) ∧ (rp3 1 0 0).x - (rp3 0 0 0).x = 1 / 2 * ((rp3 6 0 1).x - (rp3 4 0 1).x) ∧
    (rp3 1 0 0).y - (rp3 0 0 0).y = 1 / 2 * ((rp3 6 0 1).y - (rp3 4 0 1).y) := by norm_num [Same3, rp3]

/-- Crossing segments. -/
example : OnSegment3 (rp3 1 1 1) (rp3 0 0 0) (rp3 2 2 2) ∧ OnSegment3 (rp3 1 1 1) (rp3 0 2 1) (rp3 2 0 1) :=
  ⟨⟨1 / 2, by norm_num, by norm_num, by norm_num [Same3, along, rp3]⟩, ⟨1 / 2, by norm_num, by norm_num, by norm_num [Same3, along, rp3]⟩⟩

end Verif.Props
