import Verif.Props.LineSegment
import Verif.Props.LineIntersector
import Verif.Props.SegmentDistance

set_option linter.unusedSectionVars false

/-! # C40: closest points and offsets of line segments, in exact real arithmetic -/

namespace Verif.Props
open Flt Verif.Spec

/-- Squared distance to a point of the line at position `t`. -/
theorem dist_along (a b p c : Coord ℝ) (t : ℝ) (hx : c.x = a.x + t * (b.x - a.x)) (hy : c.y = a.y + t * (b.y - a.y)) :
    (p.x - c.x) ^ 2 + (p.y - c.y) ^ 2 = (p.x - a.x) ^ 2 + (p.y - a.y) ^ 2 - 2 * t * along a b p + t ^ 2 * along a b b := by
  rw [hx, hy]; unfold along; ring

/-- The closest point of the segment: it is on the segment and no point of the segment is nearer. Segments of one point included. -/
theorem C40_closest_point (s : LineSeg ℝ) (p : Coord ℝ) :
    OnSegment (s.closestPoint p) s.p0 s.p1 ∧ ∀ c, OnSegment c s.p0 s.p1 → Spec.dist p (s.closestPoint p) ≤ Spec.dist p c := by
  have e0 : OnSegment s.p0 s.p0 s.p1 := (onSegment_end _ _ _).1 ⟨rfl, rfl⟩
  have e1 : OnSegment s.p1 s.p0 s.p1 := (onSegment_end _ _ _).2 ⟨rfl, rfl⟩
  -- the nearer end
  have near : (∀ c, OnSegment c s.p0 s.p1 → Spec.dist p s.p0 ≤ Spec.dist p c ∨ Spec.dist p s.p1 ≤ Spec.dist p c) →
      OnSegment (if (Spec.dist s.p0 p < Spec.dist s.p1 p) then s.p0 else s.p1) s.p0 s.p1 ∧
      ∀ c, OnSegment c s.p0 s.p1 → Spec.dist p (if (Spec.dist s.p0 p < Spec.dist s.p1 p) then s.p0 else s.p1) ≤ Spec.dist p c := by
    intro h
    rw [Spec.dist_comm s.p0 p, Spec.dist_comm s.p1 p]
    split_ifs with hl
    · exact ⟨e0, fun c hc => (h c hc).elim id (fun k => hl.le.trans k)⟩
    · exact ⟨e1, fun c hc => (h c hc).elim (fun k => (not_lt.mp hl).trans k) id⟩
  unfold LineSeg.closestPoint
  simp only [real_toFlt, distance_eq, exact_lt, exact_lit, Rat.cast_zero, Rat.cast_one, Bool.and_eq_true, decide_eq_true_eq]
  by_cases h : s.p0.x = s.p1.x ∧ s.p0.y = s.p1.y
  · have one : ∀ c, OnSegment c s.p0 s.p1 → c.x = s.p0.x ∧ c.y = s.p0.y := by
      rintro c ⟨t, _, _, hx, hy⟩
      exact ⟨by rw [hx, h.1]; ring, by rw [hy, h.2]; ring⟩
    have hf : s.projectionFactor p = 0 ∨ s.projectionFactor p = 1 := by
      unfold LineSeg.projectionFactor
      dsimp only
      have l0 : (s.p1.x - s.p0.x) * (s.p1.x - s.p0.x) + (s.p1.y - s.p0.y) * (s.p1.y - s.p0.y) = 0 := by rw [h.1, h.2]; ring
      split_ifs with h1 h2 h3
      · left; simp
      · right; simp
      · left; rfl
      · exfalso; apply h3; simp [l0]
    rw [if_neg (by rcases hf with hf | hf <;> rw [hf] <;> norm_num)]
    exact near fun c hc => .inl (by rw [dist_le_iff, (one c hc).1, (one c hc).2])
  · have hp := along_pos h
    rw [factor_eq s p h]
    obtain ⟨u, hu⟩ : ∃ u, u = along s.p0 s.p1 p := ⟨_, rfl⟩
    obtain ⟨L, hL⟩ : ∃ u, u = along s.p0 s.p1 s.p1 := ⟨_, rfl⟩
    have da := fun c t => dist_along s.p0 s.p1 p c t
    rw [← hu, ← hL] at da
    rw [← hL] at hp
    rw [← hu, ← hL]
    by_cases hf : 0 < u / L ∧ u / L < 1
    · rw [if_pos hf]
      refine ⟨⟨u / L, hf.1.le, hf.2.le, rfl, rfl⟩, ?_⟩
      rintro c ⟨t, _, _, hx, hy⟩
      rw [dist_le_iff, da _ (u / L) rfl rfl, da c t hx hy]
      have k : u / L * L = u := div_mul_cancel₀ _ hp.ne'
      obtain ⟨r, hr⟩ : ∃ r, r = u / L := ⟨_, rfl⟩
      rw [← hr] at k ⊢
      rw [← k]
      nlinarith [mul_nonneg (mul_self_nonneg (t - r)) hp.le]
    · rw [if_neg hf]
      apply near
      rintro c ⟨t, t0, t1, hx, hy⟩
      rw [dist_le_iff, dist_le_iff, da c t hx hy, da s.p1 1 (by ring) (by ring)]
      by_cases h0 : 0 < u / L
      · right
        have : 1 ≤ u / L := by by_contra hc; exact hf ⟨h0, not_le.mp hc⟩
        have : L ≤ u := by rwa [le_div_iff₀ hp, one_mul] at this
        have e : 0 ≤ (1 - t) * (1 - t) * L := mul_nonneg (mul_self_nonneg _) hp.le
        have e2 : 0 ≤ (1 - t) * (u - L) := mul_nonneg (by linarith) (by linarith)
        nlinarith
      · left
        have : u ≤ 0 := by
          by_contra hc; exact h0 (div_pos (not_le.mp hc) hp)
        nlinarith [mul_nonneg t0 (neg_nonneg.mpr this), mul_nonneg (mul_nonneg t0 t0) hp.le]

/-- The distance of the segment is the distance to the closest point, and the segment fraction is the position of a closest point. -/
theorem C40_distance (s : LineSeg ℝ) (p : Coord ℝ) :
    s.distance p = Spec.dist p (s.closestPoint p) ∧
    (¬ (s.p0.x = s.p1.x ∧ s.p0.y = s.p1.y) → (0 ≤ s.segmentFraction p ∧ s.segmentFraction p ≤ 1) ∧
      Spec.dist p (s.pointAlong (s.segmentFraction p)) = Spec.dist p (s.closestPoint p)) := by
  obtain ⟨c1, c2⟩ := C40_closest_point s p
  have hd : LeastDist p (fun c => OnSegment c s.p0 s.p1) (Spec.dist p (s.closestPoint p)) := ⟨⟨_, c1, rfl⟩, c2⟩
  refine ⟨(C36_segment p s.p0 s.p1).unique hd, fun h => ?_⟩
  have hp := along_pos h
  have g : s.segmentFraction p = if along s.p0 s.p1 p / along s.p0 s.p1 s.p1 < 0 then 0 else
      if along s.p0 s.p1 p / along s.p0 s.p1 s.p1 > 1 then 1 else along s.p0 s.p1 p / along s.p0 s.p1 s.p1 := by
    unfold LineSeg.segmentFraction
    rw [factor_eq s p h]
    simp
  have range : 0 ≤ s.segmentFraction p ∧ s.segmentFraction p ≤ 1 := by
    rw [g]; split_ifs with h1 h2
    · simp
    · simp
    · exact ⟨not_lt.mp h1, not_lt.mp h2⟩
  refine ⟨range, le_antisymm ?_ (c2 _ ⟨_, range.1, range.2, rfl, rfl⟩)⟩
  obtain ⟨t, t0, t1, hx, hy⟩ := c1
  rw [dist_le_iff, dist_along s.p0 s.p1 p _ t hx hy, dist_along s.p0 s.p1 p _ (s.segmentFraction p) rfl rfl, g]
  obtain ⟨L, hL⟩ : ∃ u, u = along s.p0 s.p1 s.p1 := ⟨_, rfl⟩
  have k : along s.p0 s.p1 p / L * L = along s.p0 s.p1 p := div_mul_cancel₀ _ (hL ▸ hp.ne')
  rw [← hL] at hp ⊢
  obtain ⟨r, hr⟩ : ∃ r, r = along s.p0 s.p1 p / L := ⟨_, rfl⟩
  rw [← hr] at k ⊢
  rw [← k]
  split_ifs with h1 h2
  · nlinarith [mul_nonneg (mul_nonneg t0 t0) hp.le, mul_nonneg t0 (mul_nonneg (neg_nonneg.mpr h1.le) hp.le)]
  · nlinarith [mul_nonneg (mul_self_nonneg (1 - t)) hp.le, mul_nonneg (sub_nonneg.mpr t1) (mul_nonneg (sub_nonneg.mpr h2.le) hp.le)]
  · nlinarith [mul_nonneg (mul_self_nonneg (t - r)) hp.le]

/-- The distance of segments without common point is the distance of an end of one from the other. -/
theorem segseg_ends (a b c d : Coord ℝ) (h : ¬ ∃ q, OnSegment q a b ∧ OnSegment q c d) :
    Distance.segmentToSegment a b c d = Distance.pointToSegment c a b ∨ Distance.segmentToSegment a b c d = Distance.pointToSegment d a b ∨
    Distance.segmentToSegment a b c d = Distance.pointToSegment a c d ∨ Distance.segmentToSegment a b c d = Distance.pointToSegment b c d := by
  have hz := fun k => h ((C37_zero_iff a b c d).mp k)
  revert hz
  unfold Distance.segmentToSegment
  split_ifs
  · intro _; exact .inr (.inr (.inl rfl))
  · intro _; exact .inr (.inl rfl)
  · intro _
    have := (min4_least (Distance.pointToSegment a c d) (Distance.pointToSegment b c d)
      (Distance.pointToSegment c a b) (Distance.pointToSegment d a b)).1
    simp only [List.mem_cons, List.not_mem_nil, or_false] at this
    tauto
  · intro hz; exact absurd (by simp) hz

/-- Two segments without common point: the two points are one on each segment and realise the least distance. With a common point the
result is that point alone (one element, not two). -/
theorem C40_closest_points (s t : LineSeg ℝ) :
    (¬ (∃ c, OnSegment c s.p0 s.p1 ∧ OnSegment c t.p0 t.p1) → ∃ u v, s.closestPoints t = [u, v] ∧ OnSegment u s.p0 s.p1 ∧
      OnSegment v t.p0 t.p1 ∧ ∀ u' v', OnSegment u' s.p0 s.p1 → OnSegment v' t.p0 t.p1 → Spec.dist u v ≤ Spec.dist u' v') ∧
    ((∃ c, OnSegment c s.p0 s.p1 ∧ OnSegment c t.p0 t.p1) → ∃ c, s.closestPoints t = [c] ∧ OnSegment c s.p0 s.p1 ∧ OnSegment c t.p0 t.p1) := by
  have hi := C38_none_iff_disjoint LI.default s.p0 s.p1 t.p0 t.p1
  constructor
  · intro hno
    have e : s.intersection t = none := by
      unfold LineSeg.intersection
      dsimp only
      rw [if_neg (fun h => hno (hi.2.mp h))]
    unfold LineSeg.closestPoints
    rw [e]
    simp only [real_toFlt, distance_eq, exact_lt, decide_eq_true_eq]
    obtain ⟨a1, a2⟩ := C40_closest_point s t.p0
    obtain ⟨b1, b2⟩ := C40_closest_point s t.p1
    obtain ⟨c1, c2⟩ := C40_closest_point t s.p0
    obtain ⟨d1, d2⟩ := C40_closest_point t s.p1
    have es : OnSegment s.p0 s.p0 s.p1 ∧ OnSegment s.p1 s.p0 s.p1 ∧ OnSegment t.p0 t.p0 t.p1 ∧ OnSegment t.p1 t.p0 t.p1 :=
      ⟨(onSegment_end _ _ _).1 ⟨rfl, rfl⟩, (onSegment_end _ _ _).2 ⟨rfl, rfl⟩, (onSegment_end _ _ _).1 ⟨rfl, rfl⟩, (onSegment_end _ _ _).2 ⟨rfl, rfl⟩⟩
    -- the least distance is attained with an end
    have least : ∀ u' v', OnSegment u' s.p0 s.p1 → OnSegment v' t.p0 t.p1 →
        Spec.dist (s.closestPoint t.p0) t.p0 ≤ Spec.dist u' v' ∨ Spec.dist (s.closestPoint t.p1) t.p1 ≤ Spec.dist u' v' ∨
        Spec.dist (t.closestPoint s.p0) s.p0 ≤ Spec.dist u' v' ∨ Spec.dist (t.closestPoint s.p1) s.p1 ≤ Spec.dist u' v' := by
      intro u' v' hu hv
      obtain ⟨⟨x, y, hx, hy, exy⟩, hm⟩ := C37_segments s.p0 s.p1 t.p0 t.p1
      have hle := hm u' v' hu hv
      have h4 := segseg_ends s.p0 s.p1 t.p0 t.p1 hno
      rcases h4 with h | h | h | h
      · left
        rw [h] at hle
        exact ((Spec.dist_comm _ _).trans ((C36_segment t.p0 s.p0 s.p1).unique ⟨⟨_, a1, rfl⟩, a2⟩).symm).le.trans hle
      · right; left
        rw [h] at hle
        exact ((Spec.dist_comm _ _).trans ((C36_segment t.p1 s.p0 s.p1).unique ⟨⟨_, b1, rfl⟩, b2⟩).symm).le.trans hle
      · right; right; left
        rw [h] at hle
        exact ((Spec.dist_comm _ _).trans ((C36_segment s.p0 t.p0 t.p1).unique ⟨⟨_, c1, rfl⟩, c2⟩).symm).le.trans hle
      · right; right; right
        rw [h] at hle
        exact ((Spec.dist_comm _ _).trans ((C36_segment s.p1 t.p0 t.p1).unique ⟨⟨_, d1, rfl⟩, d2⟩).symm).le.trans hle
    let G : ℝ × Coord ℝ × Coord ℝ → Prop := fun st => st.1 = Spec.dist st.2.1 st.2.2 ∧ OnSegment st.2.1 s.p0 s.p1 ∧ OnSegment st.2.2 t.p0 t.p1
    have step : ∀ (st : ℝ × Coord ℝ × Coord ℝ) (d : ℝ) (u v : Coord ℝ), G st → d = Spec.dist u v → OnSegment u s.p0 s.p1 →
        OnSegment v t.p0 t.p1 → G (if d < st.1 then (d, u, v) else st) ∧ (if d < st.1 then (d, u, v) else st).1 ≤ st.1 ∧
        (if d < st.1 then (d, u, v) else st).1 ≤ d := by
      intro st d u v h1 h2 h3 h4
      split_ifs with k
      · exact ⟨⟨h2, h3, h4⟩, k.le, le_rfl⟩
      · exact ⟨h1, le_rfl, not_lt.mp k⟩
    have g0 : G (Spec.dist (s.closestPoint t.p0) t.p0, s.closestPoint t.p0, t.p0) := ⟨rfl, a1, es.2.2.1⟩
    have g1 := step _ (Spec.dist (s.closestPoint t.p1) t.p1) (s.closestPoint t.p1) t.p1 g0 rfl b1 es.2.2.2
    have g2 := step _ (Spec.dist (t.closestPoint s.p0) s.p0) s.p0 (t.closestPoint s.p0) g1.1 (Spec.dist_comm _ _) es.1 c1
    have g3 := step _ (Spec.dist (t.closestPoint s.p1) s.p1) s.p1 (t.closestPoint s.p1) g2.1 (Spec.dist_comm _ _) es.2.1 d1
    obtain ⟨⟨k1, k2, k3⟩, k4, k5⟩ := g3
    refine ⟨_, _, rfl, k2, k3, fun u' v' hu hv => ?_⟩
    rw [← k1]
    rcases least u' v' hu hv with h | h | h | h
    · exact k4.trans (g2.2.1.trans (g1.2.1.trans h))
    · exact k4.trans (g2.2.1.trans (g1.2.2.trans h))
    · exact k4.trans (g2.2.2.trans h)
    · exact k5.trans h
  · intro hyes
    obtain ⟨h1, h2⟩ := C38_points LI.default s.p0 s.p1 t.p0 t.p1 rfl
    have e : s.intersection t = some (LI.default.compute4 s.p0 s.p1 t.p0 t.p1).pt0 := by
      unfold LineSeg.intersection
      dsimp only
      rw [if_pos (hi.2.mpr hyes)]
    unfold LineSeg.closestPoints
    rw [e]
    refine ⟨_, rfl, ?_⟩
    have key : OnSegment (LI.default.compute4 s.p0 s.p1 t.p0 t.p1).pt0 s.p0 s.p1 ∧ OnSegment (LI.default.compute4 s.p0 s.p1 t.p0 t.p1).pt0 t.p0 t.p1 := by
      have r := (compute4_reports LI.default s.p0 s.p1 t.p0 t.p1 rfl).1
      rcases r.codes with k | k | k
      · obtain ⟨c, hc⟩ := hyes; exact absurd hc (r.none k c)
      · exact (r.one k _).mpr ⟨rfl, rfl⟩
      · exact ((r.more k).1 _).mpr ((onSegment_end _ _ _).1 ⟨rfl, rfl⟩)
    exact key

/-- The offset point: its projection has the given fraction, and it is on the left of the segment at the given distance (on the right
for a negative offset). -/
theorem C40_offset (s : LineSeg ℝ) (f d : ℝ) (h : ¬ (s.p0.x = s.p1.x ∧ s.p0.y = s.p1.y)) :
    s.projectionFactor (s.pointAlongOffset f d) = f ∧
    det s.p0 s.p1 (s.pointAlongOffset f d) = d * s.length ∧
    Spec.dist (s.pointAlongOffset f d) (s.pointAlong f) = |d| ∧
    s.distancePerpendicular (s.pointAlongOffset f d) = |d| ∧ s.distancePerpendicularOriented (s.pointAlongOffset f d) = d := by
  have hp := along_pos h
  have hs : along s.p0 s.p1 s.p1 = (s.p1.x - s.p0.x) ^ 2 + (s.p1.y - s.p0.y) ^ 2 := by unfold along; ring
  obtain ⟨l, hl⟩ : ∃ l, l = Real.sqrt ((s.p1.x - s.p0.x) ^ 2 + (s.p1.y - s.p0.y) ^ 2) := ⟨_, rfl⟩
  have hlp : 0 < l := by rw [hl, ← hs]; exact Real.sqrt_pos.mpr hp
  have hl2 : l * l = along s.p0 s.p1 s.p1 := by rw [hl, ← hs]; exact Real.mul_self_sqrt hp.le
  have ex : (s.pointAlongOffset f d).x = s.p0.x + f * (s.p1.x - s.p0.x) - d * (s.p1.y - s.p0.y) / l ∧
      (s.pointAlongOffset f d).y = s.p0.y + f * (s.p1.y - s.p0.y) + d * (s.p1.x - s.p0.x) / l := by
    unfold LineSeg.pointAlongOffset
    simp only [real_toFlt, exact_eq, exact_lit, exact_sub, exact_add, exact_mul, exact_div, Rat.cast_zero, real_hypot, ← hl]
    by_cases hd : d = 0
    · simp [hd]
    · simp [hd]
  have hlen : s.length = l := by
    unfold LineSeg.length; rw [distance_eq, hl]; unfold Spec.dist; congr 1; ring
  have hdet : det s.p0 s.p1 (s.pointAlongOffset f d) = d * l := by
    unfold det
    rw [ex.1, ex.2]
    have : d * l = d * (l * l) / l := by field_simp
    rw [this, hl2, hs]
    field_simp; ring
  have hdist : Spec.dist (s.pointAlongOffset f d) (s.pointAlong f) = |d| := by
    unfold Spec.dist LineSeg.pointAlong
    rw [ex.1, ex.2]
    simp only [real_toFlt, exact_sub, exact_add, exact_mul]
    rw [← Real.sqrt_sq_eq_abs]
    congr 1
    have : d ^ 2 = d ^ 2 * (l * l) / (l * l) := by field_simp
    rw [this, hl2, hs]
    have e2 : (d * (s.p1.y - s.p0.y) / l) ^ 2 + (d * (s.p1.x - s.p0.x) / l) ^ 2 = d ^ 2 * ((s.p1.x - s.p0.x) ^ 2 + (s.p1.y - s.p0.y) ^ 2) / (l * l) := by
      field_simp; ring
    rw [hl2, hs] at e2
    rw [← e2]; ring
  have hperp : s.distancePerpendicular (s.pointAlongOffset f d) = |d| := by
    unfold LineSeg.distancePerpendicular
    have hne : ¬ s.p0.equals2D s.p1 = true := by rw [equals2D_iff]; exact h
    rw [if_neg hne]
    unfold Distance.pointToLinePerpendicular
    simp only [real_toFlt, exact_sub, exact_add, exact_mul, exact_div, exact_abs, real_sqrt, ← abs_eq_max_neg]
    have n1 : (s.p0.y - (s.pointAlongOffset f d).y) * (s.p1.x - s.p0.x) - (s.p0.x - (s.pointAlongOffset f d).x) * (s.p1.y - s.p0.y) = -(d * l) := by
      rw [← hdet]; unfold det; ring
    have n2 : (s.p1.x - s.p0.x) * (s.p1.x - s.p0.x) + (s.p1.y - s.p0.y) * (s.p1.y - s.p0.y) = l * l := by rw [hl2]; rfl
    rw [n1, n2, Real.sqrt_mul_self hlp.le, ← abs_of_pos hlp, ← abs_mul, abs_of_pos hlp]
    have : -(d * l) / (l * l) * l = -d := by field_simp
    rw [this, abs_neg]
  refine ⟨?_, by rw [hlen]; exact hdet, hdist, hperp, ?_⟩
  · rw [factor_eq s _ h, div_eq_iff hp.ne']
    unfold along
    rw [ex.1, ex.2]
    field_simp
    ring
  · unfold LineSeg.distancePerpendicularOriented
    have hne : ¬ s.p0.equals2D s.p1 = true := by rw [equals2D_iff]; exact h
    rw [if_neg hne, hperp]
    unfold LineSeg.orientation
    simp only [real_toFlt, C29_index_is_sign, hdet]
    have : sgn (d * l) = sgn d := by rw [mul_comm]; exact sgn_mul_pos hlp
    rw [this]
    rcases lt_trichotomy d 0 with k | k | k
    · rw [sgn_neg_iff.mpr k]; simp [abs_of_neg k]
    · rw [sgn_zero.mpr k]; simp [k]
    · rw [sgn_pos.mpr k]; simp [abs_of_pos k]

/-- The direction angle and the length give the second end. -/
theorem C40_angle (s : LineSeg ℝ) :
    s.p1.x = s.p0.x + s.length * Real.cos s.angle ∧ s.p1.y = s.p0.y + s.length * Real.sin s.angle ∧
    -Real.pi < s.angle ∧ s.angle ≤ Real.pi := by
  have hn : s.length = ‖(⟨s.p1.x - s.p0.x, s.p1.y - s.p0.y⟩ : ℂ)‖ := by
    unfold LineSeg.length; rw [distance_eq, Complex.norm_def, Complex.normSq_mk]; unfold Spec.dist; congr 1; ring
  have h1 := Complex.norm_mul_cos_arg (⟨s.p1.x - s.p0.x, s.p1.y - s.p0.y⟩ : ℂ)
  have h2 := Complex.norm_mul_sin_arg (⟨s.p1.x - s.p0.x, s.p1.y - s.p0.y⟩ : ℂ)
  have h3 := Complex.arg_mem_Ioc (⟨s.p1.x - s.p0.x, s.p1.y - s.p0.y⟩ : ℂ)
  rw [← hn] at h1 h2
  unfold LineSeg.angle
  simp only [real_atan2, exact_sub]
  refine ⟨by rw [h1]; ring, by rw [h2]; ring, h3.1, h3.2⟩

/-- Projecting a segment: there is no projection exactly if both ends project to the same side outside (or onto one end) of the
segment; otherwise the ends of the projection are at the clamped fractions of the projected ends. -/
theorem C40_project_segment (s t : LineSeg ℝ) (h : ¬ (s.p0.x = s.p1.x ∧ s.p0.y = s.p1.y)) :
    (s.projectSeg t = none ↔ (1 ≤ s.projectionFactor t.p0 ∧ 1 ≤ s.projectionFactor t.p1) ∨
      (s.projectionFactor t.p0 ≤ 0 ∧ s.projectionFactor t.p1 ≤ 0)) ∧
    ∀ u, s.projectSeg t = some u → (u.p0.x = (s.pointAlong (s.segmentFraction t.p0)).x ∧ u.p0.y = (s.pointAlong (s.segmentFraction t.p0)).y) ∧
      (u.p1.x = (s.pointAlong (s.segmentFraction t.p1)).x ∧ u.p1.y = (s.pointAlong (s.segmentFraction t.p1)).y) := by
  have g : ∀ p, s.segmentFraction p = if s.projectionFactor p < 0 then 0 else if s.projectionFactor p > 1 then 1 else s.projectionFactor p := by
    intro p; unfold LineSeg.segmentFraction; simp
  unfold LineSeg.projectSeg
  rw [g, g]
  generalize s.projectionFactor t.p0 = a
  generalize s.projectionFactor t.p1 = b
  simp only [exact_lt, exact_le, exact_lit, Rat.cast_zero, Rat.cast_one, Bool.and_eq_true, decide_eq_true_eq]
  constructor
  · split_ifs with h1 h2
    · simp [h1]
    · simp [h2]
    · simp only [reduceCtorEq, false_iff, not_or]; exact ⟨h1, h2⟩
  · intro u
    have c0 : ∀ (q : Coord ℝ) (a : ℝ), let n := if 1 < a then s.p1 else if a < 0 then s.p0 else s.projectWith q a
        n.x = (s.pointAlong (if a < 0 then 0 else if a > 1 then 1 else a)).x ∧ n.y = (s.pointAlong (if a < 0 then 0 else if a > 1 then 1 else a)).y := by
      intro q a
      rcases lt_or_ge 1 a with k | k
      · have k' : ¬ a < 0 := by linarith
        simp [k, k', LineSeg.pointAlong]
      · rcases lt_or_ge a 0 with k' | k'
        · simp [k, k', LineSeg.pointAlong, not_lt.mpr k]
        · simp [LineSeg.pointAlong, LineSeg.projectWith, not_lt.mpr k, not_lt.mpr k']
    have c1 : ∀ (q : Coord ℝ) (a : ℝ), let n := if a < 0 then s.p0 else if 1 < a then s.p1 else s.projectWith q a
        n.x = (s.pointAlong (if a < 0 then 0 else if a > 1 then 1 else a)).x ∧ n.y = (s.pointAlong (if a < 0 then 0 else if a > 1 then 1 else a)).y := by
      intro q a
      rcases lt_or_ge 1 a with k | k
      · have k' : ¬ a < 0 := by linarith
        simp [k, k', LineSeg.pointAlong]
      · rcases lt_or_ge a 0 with k' | k'
        · simp [k', LineSeg.pointAlong]
        · simp [LineSeg.pointAlong, LineSeg.projectWith, not_lt.mpr k, not_lt.mpr k']
    by_cases h1 : 1 ≤ a ∧ 1 ≤ b
    · rw [if_pos h1]; intro hu; cases hu
    rw [if_neg h1]
    by_cases h2 : a ≤ 0 ∧ b ≤ 0
    · rw [if_pos h2]; intro hu; cases hu
    rw [if_neg h2]
    intro hu
    rw [← Option.some.inj hu]
    exact ⟨c0 _ _, c1 _ _⟩

/-! Examples -/

example : ¬ ∃ c : Coord ℝ, OnSegment c ⟨0, 0, 0, 0⟩ ⟨1, 0, 0, 0⟩ ∧ OnSegment c ⟨0, 1, 0, 0⟩ ⟨1, 1, 0, 0⟩ := by
  rintro ⟨c, ⟨t, _, _, _, h1⟩, ⟨u, _, _, _, h2⟩⟩
  simp at h1 h2; linarith
noncomputable example : (⟨⟨0, 0, 0, 0⟩, ⟨2, 0, 0, 0⟩⟩ : LineSeg ℝ).projectionFactor (⟨1, 1, 0, 0⟩ : Coord ℝ) = 1 / 2 := by
  rw [factor_eq _ _ (by norm_num)]; norm_num [along]

end Verif.Props
