import Verif.Lemmas.Envelope
import Verif.Props.Envelope
import Verif.Base.RealFlt
import Mathlib.Tactic.Linarith
import Mathlib.Tactic.Positivity
import Mathlib.Tactic.FieldSimp
import Mathlib.Tactic.Ring

/-!
# C06, C08: envelope arithmetic (exact arithmetic)

C08 holds over every ordered field, C06 over the reals.
-/

set_option linter.unusedSectionVars false

namespace Verif.Props
open Flt

section field
variable {K : Type} [Field K] [LinearOrder K] [IsStrictOrderedRing K]

theorem wf_iff (e : Env K) : e.WF ↔ e.maxx < e.minx ∨ (e.minx ≤ e.maxx ∧ e.miny ≤ e.maxy) := by
  simp [Env.WF, Env.isNull]

theorem coversXY_exact (e : Env K) (x y : K) :
    e.coversXY x y = true ↔ e.minx ≤ e.maxx ∧ e.minx ≤ x ∧ x ≤ e.maxx ∧ e.miny ≤ y ∧ y ≤ e.maxy := by
  by_cases h : e.maxx < e.minx
  · simp [Env.coversXY, Env.isNull, h]
  · simp [Env.coversXY, Env.isNull, h, and_assoc]; intros; exact not_lt.mp h

/-! ## C08 -/

/-- `expand_by` moves every side of a non-null envelope by exactly the given deltas and gives a null envelope
exactly when the width or the height would become negative. The result is again reachable. -/
theorem C08_expandBy_exact (e : Env K) (he : e.WF) (hn : e.isNull = false) (dx dy : K) :
    (e.expandByXY dx dy).WF ∧
    ((e.expandByXY dx dy).isNull = true ↔ e.width + 2 * dx < 0 ∨ e.height + 2 * dy < 0) ∧
    ((e.expandByXY dx dy).isNull = false →
      (e.expandByXY dx dy).minx = e.minx - dx ∧ (e.expandByXY dx dy).maxx = e.maxx + dx ∧
      (e.expandByXY dx dy).miny = e.miny - dy ∧ (e.expandByXY dx dy).maxy = e.maxy + dy) ∧
    (∀ d, e.expandBy d = e.expandByXY d d) := by
  have hx : ¬ e.maxx < e.minx := by simpa [Env.isNull] using hn
  have hw : e.width = e.maxx - e.minx := by simp [Env.width, Env.isNull, hx]
  have hh : e.height = e.maxy - e.miny := by simp [Env.height, Env.isNull, hx]
  rw [hw, hh]
  have hnull : (Env.null : Env K).isNull = true := Env.null_isNull
  have hexp : e.expandByXY dx dy = if e.maxx + dx < e.minx - dx ∨ e.maxy + dy < e.miny - dy then Env.null
      else ⟨e.minx - dx, e.maxx + dx, e.miny - dy, e.maxy + dy⟩ := by
    simp [Env.expandByXY, hn]
  rw [hexp]
  refine ⟨?_, ?_, ?_, fun d => by simp [Env.expandBy, Env.expandByXY]⟩
  · split_ifs with hc
    · exact .inl hnull
    · rw [wf_iff]
      right
      simp only [not_or, not_lt] at hc
      exact hc
  · split_ifs with hc
    · simp only [hnull, true_iff]
      rcases hc with h | h
      · left; linarith
      · right; linarith
    · simp only [Env.isNull, exact_lt, decide_eq_true_eq]
      constructor
      · intro h; left; linarith
      · intro h
        rcases h with h | h
        · linarith
        · exact absurd (.inr (by linarith)) hc
  · split_ifs with hc
    · simp [hnull]
    · simp

/-- Growing by non-negative deltas and shrinking back by the same deltas is the identity. -/
theorem C08_expand_shrink (e : Env K) (he : e.WF) (hn : e.isNull = false) (dx dy : K) (hdx : 0 ≤ dx)
    (hdy : 0 ≤ dy) : (e.expandByXY dx dy).expandByXY (-dx) (-dy) = e := by
  have hx : e.minx ≤ e.maxx ∧ e.miny ≤ e.maxy := by
    have := (wf_iff e).mp he
    have h2 : ¬ e.maxx < e.minx := by simpa [Env.isNull] using hn
    tauto
  have h1 : e.expandByXY dx dy = ⟨e.minx - dx, e.maxx + dx, e.miny - dy, e.maxy + dy⟩ := by
    have a1 : ¬ (e.maxx + dx < e.minx - dx) := by linarith
    have a2 : ¬ (e.maxy + dy < e.miny - dy) := by linarith
    simp [Env.expandByXY, hn, a1, a2]
  rw [h1]
  have a0 : ¬ (e.maxx + dx < e.minx - dx) := by linarith
  have a1 : ¬ (e.maxx < e.minx) := by linarith
  have a2 : ¬ (e.maxy < e.miny) := by linarith
  simp [Env.expandByXY, Env.isNull, a0, a1, a2]

/-- Growing by a non-negative distance covers every point within that distance in both axes of a covered point,
and nothing else. -/
theorem C08_expandBy_points (e : Env K) (he : e.WF) (hn : e.isNull = false) (d : K) (hd : 0 ≤ d) (x y : K) :
    (e.expandBy d).coversXY x y = true ↔
      ∃ x0 y0, e.coversXY x0 y0 = true ∧ |x - x0| ≤ d ∧ |y - y0| ≤ d := by
  have hx : e.minx ≤ e.maxx ∧ e.miny ≤ e.maxy := by
    have := (wf_iff e).mp he
    have h2 : ¬ e.maxx < e.minx := by simpa [Env.isNull] using hn
    tauto
  have h1 : e.expandBy d = ⟨e.minx - d, e.maxx + d, e.miny - d, e.maxy + d⟩ := by
    have a1 : ¬ (e.maxx + d < e.minx - d) := by linarith
    have a2 : ¬ (e.maxy + d < e.miny - d) := by linarith
    simp [Env.expandBy, hn, a1, a2]
  rw [h1, coversXY_exact]
  simp only [coversXY_exact, abs_le]
  constructor
  · rintro ⟨-, b1, b2, b3, b4⟩
    refine ⟨max e.minx (min x e.maxx), max e.miny (min y e.maxy), ⟨hx.1, le_max_left _ _, ?_, le_max_left _ _, ?_⟩,
      ⟨?_, ?_⟩, ?_, ?_⟩
    · exact max_le hx.1 (min_le_right _ _)
    · exact max_le hx.2 (min_le_right _ _)
    · rcases le_total e.minx (min x e.maxx) with h | h
      · rw [max_eq_right h]; linarith [min_le_left x e.maxx]
      · rw [max_eq_left h]; linarith
    · rcases le_total x e.maxx with h | h
      · rw [min_eq_left h]; linarith [le_max_right e.minx x]
      · rw [min_eq_right h]; linarith [le_max_right e.minx e.maxx]
    · rcases le_total e.miny (min y e.maxy) with h | h
      · rw [max_eq_right h]; linarith [min_le_left y e.maxy]
      · rw [max_eq_left h]; linarith
    · rcases le_total y e.maxy with h | h
      · rw [min_eq_left h]; linarith [le_max_right e.miny y]
      · rw [min_eq_right h]; linarith [le_max_right e.miny e.maxy]
  · rintro ⟨x0, y0, ⟨c0, c1, c2, c3, c4⟩, ⟨d1, d2⟩, d3, d4⟩
    refine ⟨?_, ?_, ?_, ?_, ?_⟩ <;> linarith

/-- `translate` moves the covered point set by the vector. -/
theorem C08_translate_points (e : Env K) (he : e.WF) (tx ty x y : K) :
    (e.translate tx ty).WF ∧ (e.translate tx ty).coversXY (x + tx) (y + ty) = e.coversXY x y := by
  by_cases hn : e.maxx < e.minx
  · simp [Env.translate, Env.isNull, hn, Env.coversXY, Env.WF]
  · have hx : e.minx ≤ e.maxx ∧ e.miny ≤ e.maxy := by
      have := (wf_iff e).mp he; tauto
    have h1 : e.translate tx ty = ⟨e.minx + tx, e.maxx + tx, e.miny + ty, e.maxy + ty⟩ := by
      simp only [Env.translate, Env.isNull, exact_lt, hn, decide_false, Bool.false_eq_true, if_false, exact_add,
        decide_eq_true_eq]
      rcases eq_or_lt_of_le hx.1 with h | h <;> rcases eq_or_lt_of_le hx.2 with h' | h' <;> simp [h, h']
    rw [h1]
    refine ⟨?_, ?_⟩
    · rw [wf_iff]; right; exact ⟨by simpa using hx.1, by simpa using hx.2⟩
    · rw [Bool.eq_iff_iff, coversXY_exact, coversXY_exact]; simp

/-- The centre of a non-null envelope is covered by it and is the midpoint of its corners. -/
theorem C08_centre (e : Env K) (he : e.WF) (hn : e.isNull = false) :
    ∃ c, e.centre = some c ∧ e.coversCoordinate c = true ∧
      c.x - e.minx = e.maxx - c.x ∧ c.y - e.miny = e.maxy - c.y := by
  have hx : e.minx ≤ e.maxx ∧ e.miny ≤ e.maxy := by
    have := (wf_iff e).mp he
    have h2 : ¬ e.maxx < e.minx := by simpa [Env.isNull] using hn
    tauto
  have two : ((2 : ℚ) : K) = 2 := by norm_num
  refine ⟨_, by rw [Env.centre, hn]; rfl, ?_, ?_, ?_⟩
  · rw [Env.coversCoordinate, coversXY_exact]
    simp only [Coord.xy, exact_add, exact_div, exact_lit, two]
    refine ⟨hx.1, ?_, ?_, ?_, ?_⟩
    · rw [le_div_iff₀ (by norm_num)]; linarith
    · rw [div_le_iff₀ (by norm_num)]; linarith
    · rw [le_div_iff₀ (by norm_num)]; linarith
    · rw [div_le_iff₀ (by norm_num)]; linarith
  · simp only [Coord.xy, exact_add, exact_div, exact_lit, two]; ring
  · simp only [Coord.xy, exact_add, exact_div, exact_lit, two]; ring

/-- Width, height and extents: `0 ≤ min_extent ≤ max_extent`, they are the smaller and larger of width and height,
and the area is their product. -/
theorem C08_extents (e : Env K) (he : e.WF) :
    e.minExtent = min e.width e.height ∧ e.maxExtent = max e.width e.height ∧ 0 ≤ e.width ∧
    0 ≤ e.height ∧ e.area = e.minExtent * e.maxExtent := by
  by_cases hn : e.maxx < e.minx
  · simp [Env.minExtent, Env.maxExtent, Env.width, Env.height, Env.isNull, hn, Env.area]
  · have hx : e.minx ≤ e.maxx ∧ e.miny ≤ e.maxy := by
      have := (wf_iff e).mp he; tauto
    simp only [Env.minExtent, Env.maxExtent, Env.width, Env.height, Env.isNull, exact_lt, hn, decide_false,
      Bool.false_eq_true, if_false, exact_sub, decide_eq_true_eq, Env.area, exact_mul, sub_nonneg, hx, true_and]
    split_ifs with h1 h2
    · exact absurd h1 (not_lt.mpr h2.le)
    · exact ⟨(min_eq_left h1.le).symm, (max_eq_right h1.le).symm, rfl⟩
    · rename_i h2
      exact ⟨(min_eq_right h2.le).symm, (max_eq_left h2.le).symm, by ring⟩
    · rename_i h2
      have : e.maxx - e.minx = e.maxy - e.miny := le_antisymm (not_lt.mp h2) (not_lt.mp h1)
      simp [this]
end field

/-! ## C06 -/

/-- Gap between the intervals `[a, b]` and `[c, d]`. -/
noncomputable def gap (a b c d : ℝ) : ℝ := if b < c then c - b else if d < a then a - d else 0

theorem gap_nonneg (a b c d : ℝ) : 0 ≤ gap a b c d := by
  unfold gap; split_ifs <;> linarith

theorem gap_symm (a b c d : ℝ) (h1 : a ≤ b) (h2 : c ≤ d) : gap a b c d = gap c d a b := by
  unfold gap; split_ifs <;> linarith

theorem gap_zero (a b c d : ℝ) : gap a b c d = 0 ↔ c ≤ b ∧ a ≤ d := by
  unfold gap; split_ifs with h1 h2
  · constructor
    · intro h; linarith
    · intro h; linarith [h.1]
  · constructor
    · intro h; linarith
    · intro h; linarith [h.2]
  · simp only [not_lt] at h1 h2; simp [h1, h2]

theorem gap_attained (a b c d : ℝ) (h1 : a ≤ b) (h2 : c ≤ d) :
    ∃ x u, a ≤ x ∧ x ≤ b ∧ c ≤ u ∧ u ≤ d ∧ (x - u) ^ 2 = gap a b c d ^ 2 := by
  unfold gap; split_ifs with h3 h4
  · exact ⟨b, c, h1, le_refl _, le_refl _, h2, by ring⟩
  · exact ⟨a, d, le_refl _, h1, h2, le_refl _, by ring⟩
  · simp only [not_lt] at h3 h4
    exact ⟨max a c, max a c, le_max_left _ _, max_le h1 h3, le_max_right _ _, max_le h4 h2, by ring⟩

theorem gap_le (a b c d x u : ℝ) (h1 : a ≤ x) (h2 : x ≤ b) (h3 : c ≤ u) (h4 : u ≤ d) :
    gap a b c d ^ 2 ≤ (x - u) ^ 2 := by
  unfold gap; split_ifs with h5 h6
  · nlinarith
  · nlinarith
  · nlinarith [sq_nonneg (x - u)]

theorem distance_eq_gap (e f : Env ℝ) (he : e.WF) (hf : f.WF) (hne : e.isNull = false)
    (hnf : f.isNull = false) :
    e.distance f = Real.sqrt (gap e.minx e.maxx f.minx f.maxx ^ 2 + gap e.miny e.maxy f.miny f.maxy ^ 2) := by
  have hg1 : (e.gaps f).1 = gap e.minx e.maxx f.minx f.maxx := by simp [Env.gaps, gap]
  have hg2 : (e.gaps f).2 = gap e.miny e.maxy f.miny f.maxy := by simp [Env.gaps, gap]
  have n1 := gap_nonneg e.minx e.maxx f.minx f.maxx
  have n2 := gap_nonneg e.miny e.maxy f.miny f.maxy
  have hi := (he.box hne).intersects_iff (hf.box hnf)
  simp only [FltOrd.key, id] at hi
  unfold Env.distance
  simp only [real_toFlt] 
  rw [hg1, hg2]
  cases hI : e.intersects f with
  | true =>
    rw [hI] at hi
    simp only [true_iff] at hi
    have z1 := (gap_zero e.minx e.maxx f.minx f.maxx).mpr ⟨hi.1, hi.2.1⟩
    have z2 := (gap_zero e.miny e.maxy f.miny f.maxy).mpr hi.2.2
    simp [z1, z2]
  | false =>
    by_cases z1 : gap e.minx e.maxx f.minx f.maxx = 0
    · simp [z1, Real.sqrt_sq n2]
    · by_cases z2 : gap e.miny e.maxy f.miny f.maxy = 0
      · simp [z1, z2, Real.sqrt_sq n1]
      · simp [z1, z2]

/-- The distance between two non-null envelopes is attained by two of their points and is a lower bound for the Euclidean
distance of all their pairs of points. -/
theorem C06_distance_is_minimum (e f : Env ℝ) (he : e.WF) (hf : f.WF) (hne : e.isNull = false)
    (hnf : f.isNull = false) :
    (∃ x y u v, e.coversXY x y = true ∧ f.coversXY u v = true ∧
      e.distance f = Real.sqrt ((x - u) ^ 2 + (y - v) ^ 2)) ∧
    (∀ x y u v, e.coversXY x y = true → f.coversXY u v = true →
      e.distance f ≤ Real.sqrt ((x - u) ^ 2 + (y - v) ^ 2)) := by
  rw [distance_eq_gap e f he hf hne hnf]
  have hE := he.box hne
  have hF := hf.box hnf
  have a1 : e.minx ≤ e.maxx := hE.hx
  have a2 : e.miny ≤ e.maxy := hE.hy
  have a3 : f.minx ≤ f.maxx := hF.hx
  have a4 : f.miny ≤ f.maxy := hF.hy
  constructor
  · obtain ⟨x, u, b1, b2, b3, b4, b5⟩ := gap_attained _ _ _ _ a1 a3
    obtain ⟨y, v, c1, c2, c3, c4, c5⟩ := gap_attained _ _ _ _ a2 a4
    refine ⟨x, y, u, v, ?_, ?_, ?_⟩
    · rw [coversXY_exact]; exact ⟨a1, b1, b2, c1, c2⟩
    · rw [coversXY_exact]; exact ⟨a3, b3, b4, c3, c4⟩
    · rw [b5, c5]
  · intro x y u v h1 h2
    rw [coversXY_exact] at h1 h2
    apply Real.sqrt_le_sqrt
    have := gap_le e.minx e.maxx f.minx f.maxx x u h1.2.1 h1.2.2.1 h2.2.1 h2.2.2.1
    have := gap_le e.miny e.maxy f.miny f.maxy y v h1.2.2.2.1 h1.2.2.2.2 h2.2.2.2.1 h2.2.2.2.2
    linarith

/-- Distance is symmetric, nonnegative, and zero exactly when the envelopes intersect. -/
theorem C06_distance_laws (e f : Env ℝ) (he : e.WF) (hf : f.WF) (hne : e.isNull = false)
    (hnf : f.isNull = false) :
    e.distance f = f.distance e ∧ 0 ≤ e.distance f ∧ (e.distance f = 0 ↔ e.intersects f = true) := by
  have hE := he.box hne
  have hF := hf.box hnf
  have hi := hE.intersects_iff hF
  simp only [FltOrd.key, id] at hi
  rw [distance_eq_gap e f he hf hne hnf, distance_eq_gap f e hf he hnf hne]
  refine ⟨?_, Real.sqrt_nonneg _, ?_⟩
  · rw [gap_symm e.minx e.maxx f.minx f.maxx hE.hx hF.hx, gap_symm e.miny e.maxy f.miny f.maxy hE.hy hF.hy]
  · rw [Real.sqrt_eq_zero (by positivity), hi]
    have z1 := gap_zero e.minx e.maxx f.minx f.maxx
    have z2 := gap_zero e.miny e.maxy f.miny f.maxy
    constructor
    · intro h
      have h1 : gap e.minx e.maxx f.minx f.maxx = 0 := by
        have := sq_nonneg (gap e.miny e.maxy f.miny f.maxy)
        have := sq_nonneg (gap e.minx e.maxx f.minx f.maxx)
        exact pow_eq_zero_iff (two_ne_zero) |>.mp (by linarith)
      have h2 : gap e.miny e.maxy f.miny f.maxy = 0 := by
        rw [h1] at h; exact pow_eq_zero_iff (two_ne_zero) |>.mp (by linarith)
      have := z1.mp h1; have := z2.mp h2; tauto
    · intro h
      rw [z1.mpr ⟨h.1, h.2.1⟩, z2.mpr h.2.2]; ring

section examples
-- C08: a box that survives shrinking by 1 in x, and one that does not survive shrinking by 3
example : (⟨0, 4, 0, 2⟩ : Env ℚ).WF ∧ (⟨0, 4, 0, 2⟩ : Env ℚ).isNull = false ∧
    (⟨0, 4, 0, 2⟩ : Env ℚ).expandByXY (-1) 1 = ⟨1, 3, -1, 3⟩ ∧
    ((⟨0, 4, 0, 2⟩ : Env ℚ).expandByXY (-3) 1).isNull = true := by decide +kernel
-- C06: two boxes at distance 5
example : ∃ e f : Env ℝ, e.WF ∧ f.WF ∧ e.isNull = false ∧ f.isNull = false ∧ e.intersects f = false :=
  ⟨⟨0, 1, 0, 1⟩, ⟨4, 6, 5, 7⟩, by rw [wf_iff]; norm_num, by rw [wf_iff]; norm_num,
    by simp [Env.isNull]; try norm_num, by simp [Env.isNull]; try norm_num,
    by simp [Env.intersects, Env.isNull]; try norm_num⟩
end examples

end Verif.Props
