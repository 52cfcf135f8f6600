import Verif.Props.Distance
import Verif.Props.MathUtil

set_option linter.unusedSectionVars false

/-! # C37: distance between segments -/

namespace Verif.Props
open Flt Verif.Spec

/-- Moving from a point of the unit square in a direction that changes the first coordinate, one reaches the boundary. -/
theorem exit_square (t w α β : ℝ) (ht0 : 0 ≤ t) (ht1 : t ≤ 1) (hw0 : 0 ≤ w) (hw1 : w ≤ 1) (hα : α ≠ 0) :
    ∃ l, 0 ≤ l ∧ (0 ≤ t + l * α ∧ t + l * α ≤ 1) ∧ (0 ≤ w + l * β ∧ w + l * β ≤ 1) ∧
      (t + l * α = 0 ∨ t + l * α = 1 ∨ w + l * β = 0 ∨ w + l * β = 1) := by
  obtain ⟨lt, hlt, hin, hb⟩ : ∃ lt, 0 ≤ lt ∧ (∀ l, 0 ≤ l → l ≤ lt → 0 ≤ t + l * α ∧ t + l * α ≤ 1) ∧
      (t + lt * α = 0 ∨ t + lt * α = 1) := by
    rcases lt_or_gt_of_ne hα with h | h
    · refine ⟨-t / α, div_nonneg_of_nonpos (by linarith) h.le, fun l l0 l1 => ?_, Or.inl (by field_simp; ring)⟩
      have : -t ≤ l * α := by
        have := mul_le_mul_of_nonpos_right l1 h.le
        rwa [div_mul_cancel₀ _ h.ne] at this
      exact ⟨by linarith, by nlinarith⟩
    · refine ⟨(1 - t) / α, div_nonneg (by linarith) h.le, fun l l0 l1 => ?_, Or.inr (by field_simp; ring)⟩
      have : l * α ≤ 1 - t := by
        have := mul_le_mul_of_nonneg_right l1 h.le
        rwa [div_mul_cancel₀ _ h.ne'] at this
      exact ⟨by nlinarith, by linarith⟩
  by_cases h1 : w + lt * β < 0
  · have hβ : β < 0 := by by_contra hc; push Not at hc; nlinarith [mul_nonneg hlt hc]
    have hl : -w / β ≤ lt := by rw [div_le_iff_of_neg hβ]; linarith
    have h0 : 0 ≤ -w / β := div_nonneg_of_nonpos (by linarith) hβ.le
    have e : w + -w / β * β = 0 := by rw [div_mul_cancel₀ _ hβ.ne]; ring
    exact ⟨_, h0, hin _ h0 hl, ⟨e.ge, by rw [e]; exact zero_le_one⟩, Or.inr (Or.inr (Or.inl e))⟩
  by_cases h2 : 1 < w + lt * β
  · have hβ : 0 < β := by by_contra hc; push Not at hc; nlinarith [mul_nonneg hlt (neg_nonneg.mpr hc)]
    have hl : (1 - w) / β ≤ lt := by rw [div_le_iff₀ hβ]; linarith
    have h0 : 0 ≤ (1 - w) / β := div_nonneg (by linarith) hβ.le
    have e : w + (1 - w) / β * β = 1 := by rw [div_mul_cancel₀ _ hβ.ne']; ring
    exact ⟨_, h0, hin _ h0 hl, ⟨by rw [e]; exact zero_le_one, e.le⟩, Or.inr (Or.inr (Or.inr e))⟩
  push Not at h1 h2
  exact ⟨lt, hlt, hin lt hlt le_rfl, ⟨h1, h2⟩, hb.elim Or.inl (fun h => Or.inr (Or.inl h))⟩

/-- The same, for any direction that is not zero. -/
theorem exit_square' (t w α β : ℝ) (ht0 : 0 ≤ t) (ht1 : t ≤ 1) (hw0 : 0 ≤ w) (hw1 : w ≤ 1) (h : α ≠ 0 ∨ β ≠ 0) :
    ∃ l, 0 ≤ l ∧ (0 ≤ t + l * α ∧ t + l * α ≤ 1) ∧ (0 ≤ w + l * β ∧ w + l * β ≤ 1) ∧
      (t + l * α = 0 ∨ t + l * α = 1 ∨ w + l * β = 0 ∨ w + l * β = 1) := by
  rcases h with h | h
  · exact exit_square t w α β ht0 ht1 hw0 hw1 h
  · obtain ⟨l, l0, h1, h2, h3⟩ := exit_square w t β α hw0 hw1 ht0 ht1 h
    exact ⟨l, l0, h2, h1, by tauto⟩

/-- The point at parameter `t`. -/
def at_ (a b : Coord ℝ) (t : ℝ) : Coord ℝ := ⟨a.x + t * (b.x - a.x), a.y + t * (b.y - a.y), 0, 0⟩

/-- If the parameters of the common point of two lines are not both in [0, 1], or the lines are parallel, the distance of any two
points of the segments is at least the distance of an end of one segment to a point of the other. -/
theorem to_an_end (a b c d : Coord ℝ) (hab : ¬ (a.x = b.x ∧ a.y = b.y))
    (h : (b.x - a.x) * (d.y - c.y) - (b.y - a.y) * (d.x - c.x) = 0 ∨
      ∃ t0 w0 : ℝ, ¬ (0 ≤ t0 ∧ t0 ≤ 1 ∧ 0 ≤ w0 ∧ w0 ≤ 1) ∧
        a.x + t0 * (b.x - a.x) = c.x + w0 * (d.x - c.x) ∧ a.y + t0 * (b.y - a.y) = c.y + w0 * (d.y - c.y))
    (hcd : ¬ (c.x = d.x ∧ c.y = d.y))
    (u v : Coord ℝ) (hu : OnSegment u a b) (hv : OnSegment v c d) :
    (∃ q, OnSegment q c d ∧ (Spec.dist a q ≤ Spec.dist u v ∨ Spec.dist b q ≤ Spec.dist u v)) ∨
    (∃ q, OnSegment q a b ∧ (Spec.dist c q ≤ Spec.dist u v ∨ Spec.dist d q ≤ Spec.dist u v)) := by
  obtain ⟨t, t0, t1, hux, huy⟩ := hu
  obtain ⟨w, w0, w1, hvx, hvy⟩ := hv
  suffices key : ∃ t' w' : ℝ, (0 ≤ t' ∧ t' ≤ 1) ∧ (0 ≤ w' ∧ w' ≤ 1) ∧ (t' = 0 ∨ t' = 1 ∨ w' = 0 ∨ w' = 1) ∧
      Spec.dist (at_ a b t') (at_ c d w') ≤ Spec.dist u v by
    obtain ⟨t', w', ht, hw, hb, hd⟩ := key
    have ea : ∀ a b : Coord ℝ, ∀ q, Spec.dist (at_ a b 0) q = Spec.dist a q := by intro a b q; simp [at_, Spec.dist]
    have eb : ∀ a b : Coord ℝ, ∀ q, Spec.dist (at_ a b 1) q = Spec.dist b q := by intro a b q; simp [at_, Spec.dist]
    rcases hb with rfl | rfl | rfl | rfl
    · rw [ea] at hd; exact Or.inl ⟨_, ⟨w', hw.1, hw.2, rfl, rfl⟩, Or.inl hd⟩
    · rw [eb] at hd; exact Or.inl ⟨_, ⟨w', hw.1, hw.2, rfl, rfl⟩, Or.inr hd⟩
    · rw [dist_comm, ea] at hd; exact Or.inr ⟨_, ⟨t', ht.1, ht.2, rfl, rfl⟩, Or.inl hd⟩
    · rw [dist_comm, eb] at hd; exact Or.inr ⟨_, ⟨t', ht.1, ht.2, rfl, rfl⟩, Or.inr hd⟩
  by_cases hden : (b.x - a.x) * (d.y - c.y) - (b.y - a.y) * (d.x - c.x) = 0
  · -- parallel: slide along the common direction
    obtain ⟨α, hα, e1, e2⟩ : ∃ α : ℝ, α ≠ 0 ∧ α * (b.x - a.x) = d.x - c.x ∧ α * (b.y - a.y) = d.y - c.y := by
      have hL := len2_pos hab
      refine ⟨((b.x - a.x) * (d.x - c.x) + (b.y - a.y) * (d.y - c.y)) /
        ((b.x - a.x) * (b.x - a.x) + (b.y - a.y) * (b.y - a.y)), ?_, ?_, ?_⟩
      · intro h0
        rw [div_eq_zero_iff] at h0
        rcases h0 with h0 | h0
        · have hL' := len2_pos hcd
          have : ((b.x - a.x) * (d.y - c.y) - (b.y - a.y) * (d.x - c.x)) ^ 2 +
              ((b.x - a.x) * (d.x - c.x) + (b.y - a.y) * (d.y - c.y)) ^ 2 =
            ((b.x - a.x) * (b.x - a.x) + (b.y - a.y) * (b.y - a.y)) * ((d.x - c.x) * (d.x - c.x) + (d.y - c.y) * (d.y - c.y)) := by ring
          rw [hden, h0] at this
          nlinarith [mul_pos hL hL']
        · linarith
      · rw [div_mul_eq_mul_div, div_eq_iff hL.ne']; linear_combination (b.y - a.y) * hden
      · rw [div_mul_eq_mul_div, div_eq_iff hL.ne']; linear_combination (-(b.x - a.x)) * hden
    obtain ⟨l, _, h1, h2, h3⟩ := exit_square t w α 1 t0 t1 w0 w1 hα
    refine ⟨t + l * α, w + l * 1, h1, h2, h3, ?_⟩
    rw [dist_le_iff]
    apply le_of_eq
    simp only [at_]
    rw [hux, huy, hvx, hvy, ← e1, ← e2]
    ring
  · obtain ⟨p, q, hpq, ex, ey⟩ := h.resolve_left hden
    have hne : p - t ≠ 0 ∨ q - w ≠ 0 := by
      by_contra hc; push Not at hc
      have e1 : p = t := by linarith [hc.1]
      have e2 : q = w := by linarith [hc.2]
      rw [e1, e2] at hpq; exact hpq ⟨t0, t1, w0, w1⟩
    obtain ⟨l, l0, h1, h2, h3⟩ := exit_square' t w (p - t) (q - w) t0 t1 w0 w1 hne
    have l1 : l ≤ 1 := by
      by_contra hc; push Not at hc
      apply hpq
      have conv : ∀ z zz : ℝ, 0 ≤ z → z ≤ 1 → 0 ≤ z + l * (zz - z) → z + l * (zz - z) ≤ 1 → 0 ≤ zz ∧ zz ≤ 1 := by
        intro z zz a1 a2 a3 a4
        constructor
        · by_contra hn; push Not at hn; nlinarith
        · by_contra hn; push Not at hn; nlinarith
      obtain ⟨c1, c2⟩ := conv t p t0 t1 h1.1 h1.2
      obtain ⟨c3, c4⟩ := conv w q w0 w1 h2.1 h2.2
      exact ⟨c1, c2, c3, c4⟩
    refine ⟨_, _, h1, h2, h3, ?_⟩
    rw [dist_le_iff]
    simp only [at_]
    have f1 : a.x + (t + l * (p - t)) * (b.x - a.x) - (c.x + (w + l * (q - w)) * (d.x - c.x)) = (1 - l) * (u.x - v.x) := by
      rw [hux, hvx]; linear_combination l * ex
    have f2 : a.y + (t + l * (p - t)) * (b.y - a.y) - (c.y + (w + l * (q - w)) * (d.y - c.y)) = (1 - l) * (u.y - v.y) := by
      rw [huy, hvy]; linear_combination l * ey
    rw [f1, f2]
    have : (1 - l) ^ 2 ≤ 1 := by nlinarith
    have s := add_nonneg (sq_nonneg (u.x - v.x)) (sq_nonneg (u.y - v.y))
    nlinarith [mul_le_mul_of_nonneg_right this s]

/-- Parameters of the common point of two lines. -/
theorem cramer (a b c d : Coord ℝ) (hden : (b.x - a.x) * (d.y - c.y) - (b.y - a.y) * (d.x - c.x) ≠ 0) :
    let den := (b.x - a.x) * (d.y - c.y) - (b.y - a.y) * (d.x - c.x)
    let r := ((a.y - c.y) * (d.x - c.x) - (a.x - c.x) * (d.y - c.y)) / den
    let s := ((a.y - c.y) * (b.x - a.x) - (a.x - c.x) * (b.y - a.y)) / den
    a.x + r * (b.x - a.x) = c.x + s * (d.x - c.x) ∧ a.y + r * (b.y - a.y) = c.y + s * (d.y - c.y) := by
  intro den r s
  have hd : den ≠ 0 := hden
  constructor
  · simp only [r, s]; field_simp; simp only [den]; ring
  · simp only [r, s]; field_simp; simp only [den]; ring

theorem min4_least (a b c d : ℝ) :
    MathUtil.min4 a b c d ∈ [a, b, c, d] ∧ ∀ x ∈ [a, b, c, d], MathUtil.min4 a b c d ≤ x := by
  have h := (C52_max_min a b c d rfl rfl rfl rfl).2.2
  refine ⟨h.1, fun x hx => ?_⟩
  simpa using h.2 x hx

/-- The distance of two segments is attained by points of the segments and least over them: for crossing, touching, parallel,
collinear and degenerate segments. -/
theorem C37_segments (a b c d : Coord ℝ) :
    LeastDist2 (fun u => OnSegment u a b) (fun v => OnSegment v c d) (Distance.segmentToSegment a b c d) := by
  unfold Distance.segmentToSegment
  have single : ∀ a b u : Coord ℝ, a.x = b.x ∧ a.y = b.y → OnSegment u a b → u.x = a.x ∧ u.y = a.y := by
    rintro a b u ⟨h1, h2⟩ ⟨t, _, _, hx, hy⟩
    exact ⟨by rw [hx, h1]; ring, by rw [hy, h2]; ring⟩
  have dcong : ∀ u u' v : Coord ℝ, u.x = u'.x → u.y = u'.y → Spec.dist u v = Spec.dist u' v := by
    intro u u' v h1 h2; unfold Spec.dist; rw [h1, h2]
  split_ifs with h1 h2 h3
  all_goals rw [real_toFlt, equals2D_iff] at h1
  all_goals try rw [real_toFlt, equals2D_iff] at h2
  · obtain ⟨⟨q, hq, e⟩, hm⟩ := C36_segment a c d
    refine ⟨⟨a, q, (onSegment_end a a b).1 ⟨rfl, rfl⟩, hq, e⟩, fun u v hu hv => ?_⟩
    obtain ⟨e1, e2⟩ := single a b u h1 hu
    rw [dcong u a v e1 e2]; exact hm v hv
  · obtain ⟨⟨q, hq, e⟩, hm⟩ := C36_segment d a b
    refine ⟨⟨q, d, hq, (onSegment_end d c d).2 ⟨rfl, rfl⟩, by rw [dist_comm]; exact e⟩, fun u v hu hv => ?_⟩
    obtain ⟨e1, e2⟩ := single c d v h2 hv
    rw [dist_comm, dcong v d u (e1.trans h2.1) (e2.trans h2.2)]; exact hm u hu
  · -- no proper common point
    obtain ⟨hmem, hle⟩ := min4_least (Distance.pointToSegment a c d) (Distance.pointToSegment b c d)
      (Distance.pointToSegment c a b) (Distance.pointToSegment d a b)
    constructor
    · simp only [List.mem_cons, List.not_mem_nil, or_false] at hmem
      rcases hmem with e | e | e | e <;> rw [e]
      · obtain ⟨⟨q, hq, e⟩, _⟩ := C36_segment a c d
        exact ⟨a, q, (onSegment_end a a b).1 ⟨rfl, rfl⟩, hq, e⟩
      · obtain ⟨⟨q, hq, e⟩, _⟩ := C36_segment b c d
        exact ⟨b, q, (onSegment_end b a b).2 ⟨rfl, rfl⟩, hq, e⟩
      · obtain ⟨⟨q, hq, e⟩, _⟩ := C36_segment c a b
        exact ⟨q, c, hq, (onSegment_end c c d).1 ⟨rfl, rfl⟩, by rw [dist_comm]; exact e⟩
      · obtain ⟨⟨q, hq, e⟩, _⟩ := C36_segment d a b
        exact ⟨q, d, hq, (onSegment_end d c d).2 ⟨rfl, rfl⟩, by rw [dist_comm]; exact e⟩
    · intro u v hu hv
      have hcase : (b.x - a.x) * (d.y - c.y) - (b.y - a.y) * (d.x - c.x) = 0 ∨
          ∃ t0 w0 : ℝ, ¬ (0 ≤ t0 ∧ t0 ≤ 1 ∧ 0 ≤ w0 ∧ w0 ≤ 1) ∧
            a.x + t0 * (b.x - a.x) = c.x + w0 * (d.x - c.x) ∧ a.y + t0 * (b.y - a.y) = c.y + w0 * (d.y - c.y) := by
        by_cases hden : (b.x - a.x) * (d.y - c.y) - (b.y - a.y) * (d.x - c.x) = 0
        · exact Or.inl hden
        right
        obtain ⟨ex, ey⟩ := cramer a b c d hden
        refine ⟨_, _, ?_, ex, ey⟩
        rintro ⟨r0, r1, s0, s1⟩
        have hi : Env.intersects4 a b c d = true :=
          intersects4_of_common (p := at_ a b _) ⟨_, r0, r1, rfl, rfl⟩ ⟨_, s0, s1, ex, ey⟩
        unfold Distance.noIntersection at h3
        simp only [real_toFlt, hi, exact_eq, exact_lit, exact_sub, exact_mul, exact_div, exact_lt, Rat.cast_zero, Rat.cast_one,
          Bool.not_true, Bool.false_eq_true, if_false, decide_eq_true_eq, hden, Bool.or_eq_true] at h3
        rcases h3 with ((h3 | h3) | h3) | h3 <;> linarith
      rcases to_an_end a b c d h1 hcase h2 u v hu hv with ⟨q, hq, h | h⟩ | ⟨q, hq, h | h⟩
      · exact (hle _ (by simp)).trans (((C36_segment a c d).2 q hq).trans h)
      · exact (hle _ (by simp)).trans (((C36_segment b c d).2 q hq).trans h)
      · exact (hle _ (by simp)).trans (((C36_segment c a b).2 q hq).trans h)
      · exact (hle _ (by simp)).trans (((C36_segment d a b).2 q hq).trans h)
  · -- crossing
    unfold Distance.noIntersection at h3
    simp only [real_toFlt, exact_eq, exact_lit, exact_sub, exact_mul, exact_div, exact_lt, Rat.cast_zero, Rat.cast_one,
      decide_eq_true_eq, Bool.or_eq_true] at h3 ⊢
    have hi : Env.intersects4 a b c d = true := by
      by_contra hc
      rw [Bool.not_eq_true] at hc
      rw [hc] at h3; simp at h3
    simp only [hi, Bool.not_true, Bool.false_eq_true, if_false] at h3
    by_cases hden : (b.x - a.x) * (d.y - c.y) - (b.y - a.y) * (d.x - c.x) = 0
    · simp [hden] at h3
    simp only [hden, if_false] at h3
    simp only [Bool.or_eq_true, decide_eq_true_eq, not_or, not_lt] at h3
    obtain ⟨⟨⟨r0, r1⟩, s0⟩, s1⟩ := h3
    obtain ⟨ex, ey⟩ := cramer a b c d hden
    refine ⟨⟨at_ a b _, at_ a b _, ⟨_, r0, r1, rfl, rfl⟩, ⟨_, s0, s1, ex, ey⟩, (dist_eq_zero _ _).mpr ⟨rfl, rfl⟩⟩, fun u v _ _ => dist_nonneg u v⟩

/-- The distance is zero exactly if the segments have a common point. -/
theorem C37_zero_iff (a b c d : Coord ℝ) :
    Distance.segmentToSegment a b c d = 0 ↔ ∃ p, OnSegment p a b ∧ OnSegment p c d := by
  obtain ⟨⟨u, v, hu, hv, e⟩, hm⟩ := C37_segments a b c d
  constructor
  · intro h
    rw [h, dist_eq_zero] at e
    refine ⟨u, hu, ?_⟩
    obtain ⟨t, h0, h1, hx, hy⟩ := hv
    exact ⟨t, h0, h1, e.1.trans hx, e.2.trans hy⟩
  · rintro ⟨p, h1, h2⟩
    have := hm p p h1 h2
    rw [(dist_eq_zero p p).mpr ⟨rfl, rfl⟩] at this
    have := dist_nonneg u v
    rw [e] at this; linarith

/-- The distance does not depend on the order of the segments nor on their directions. -/
theorem C37_symmetric (a b c d : Coord ℝ) :
    Distance.segmentToSegment c d a b = Distance.segmentToSegment a b c d ∧
    Distance.segmentToSegment b a c d = Distance.segmentToSegment a b c d ∧
    Distance.segmentToSegment a b d c = Distance.segmentToSegment a b c d :=
  ⟨(C37_segments c d a b).unique (C37_segments a b c d).swap,
   (C37_segments b a c d).unique ((C37_segments a b c d).congr (fun q => onSegment_swap q a b) (fun _ => Iff.rfl)),
   (C37_segments a b d c).unique ((C37_segments a b c d).congr (fun _ => Iff.rfl) (fun q => onSegment_swap q c d))⟩

/-- Two crossing segments. -/
example : Distance.segmentToSegment (⟨0, 0, 0, 0⟩ : Coord ℝ) ⟨2, 2, 0, 0⟩ ⟨0, 2, 0, 0⟩ ⟨2, 0, 0, 0⟩ = 0 := by
  rw [C37_zero_iff]
  exact ⟨⟨1, 1, 0, 0⟩, ⟨1 / 2, by norm_num, by norm_num, by norm_num, by norm_num⟩,
    ⟨1 / 2, by norm_num, by norm_num, by norm_num, by norm_num⟩⟩

end Verif.Props
