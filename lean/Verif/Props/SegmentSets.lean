import Verif.Props.LineSegmentReal
import Verif.Props.Segment64

set_option linter.unusedSectionVars false

/-! # C96: line segments as sets: extents, equality, offsets, lines -/

namespace Verif.Props
open Flt Verif.Spec

section Any
variable {α : Type} [Flt α] [FltOrd α]

theorem ext_one (a b : α) (ha : isNaN a = false) (hb : isNaN b = false) :
    (fmin a b = a ∨ fmin a b = b) ∧ (fmax a b = a ∨ fmax a b = b) ∧ ((fmin a b ≤. a) = true ∧ (a ≤. fmax a b) = true) ∧
    ((fmin a b ≤. b) = true ∧ (b ≤. fmax a b) = true) ∧ ((fmin b a ==. fmin a b) = true ∧ (fmax b a ==. fmax a b) = true) ∧
    (((if a <. b then (a, b) else (b, a)).1 ==. fmin a b) = true ∧ ((if a <. b then (a, b) else (b, a)).2 ==. fmax a b) = true) := by
  unfold fmin fmax
  simp only [lt_eq, le_eq, eq_eq, ha, hb]
  rcases lt_trichotomy (FltOrd.key a) (FltOrd.key b) with h | h | h
  · simp [h, h.le, not_lt.mpr h.le, ha, hb]
  · simp [h, ha, hb]
  · simp [h, h.le, not_lt.mpr h.le, ha, hb]

/-- In every arithmetic: the extents are those of the box of the two ends: each is an ordinate of an end, both ends are within them,
and the segment and its reverse have the same ones. -/
theorem C96_extents (s : LineSeg α) (h : SegNN s) :
    ((s.minX = s.p0.x ∨ s.minX = s.p1.x) ∧ (s.maxX = s.p0.x ∨ s.maxX = s.p1.x) ∧ (s.minY = s.p0.y ∨ s.minY = s.p1.y) ∧
      (s.maxY = s.p0.y ∨ s.maxY = s.p1.y)) ∧
    (∀ p, p = s.p0 ∨ p = s.p1 → (s.minX ≤. p.x) = true ∧ (p.x ≤. s.maxX) = true ∧ (s.minY ≤. p.y) = true ∧ (p.y ≤. s.maxY) = true) ∧
    ((s.reverse.minX ==. s.minX) = true ∧ (s.reverse.maxX ==. s.maxX) = true ∧ (s.reverse.minY ==. s.minY) = true ∧
      (s.reverse.maxY ==. s.maxY) = true) ∧
    (((Env.newCoordinates s.p0 s.p1).minx ==. s.minX) = true ∧ ((Env.newCoordinates s.p0 s.p1).maxx ==. s.maxX) = true ∧
      ((Env.newCoordinates s.p0 s.p1).miny ==. s.minY) = true ∧ ((Env.newCoordinates s.p0 s.p1).maxy ==. s.maxY) = true) := by
  obtain ⟨⟨a, b⟩, c, d⟩ := h
  obtain ⟨x1, x2, x3, x4, x5, x6⟩ := ext_one s.p0.x s.p1.x a c
  obtain ⟨y1, y2, y3, y4, y5, y6⟩ := ext_one s.p0.y s.p1.y b d
  refine ⟨⟨x1, x2, y1, y2⟩, ?_, ⟨x5.1, x5.2, y5.1, y5.2⟩, x6.1, x6.2, y6.1, y6.2⟩
  rintro p (rfl | rfl)
  · exact ⟨x3.1, x3.2, y3.1, y3.2⟩
  · exact ⟨x4.1, x4.2, y4.1, y4.2⟩

/-- In every arithmetic: an ordinate that is not a number at one end is ignored by the extents. -/
theorem C96_extents_nan (s : LineSeg α) :
    (isNaN s.p0.x = true → s.minX = s.p1.x ∧ s.maxX = s.p1.x) ∧ (isNaN s.p1.x = true → isNaN s.p0.x = false → s.minX = s.p0.x ∧ s.maxX = s.p0.x) ∧
    (isNaN s.p0.y = true → s.minY = s.p1.y ∧ s.maxY = s.p1.y) ∧ (isNaN s.p1.y = true → isNaN s.p0.y = false → s.minY = s.p0.y ∧ s.maxY = s.p0.y) := by
  unfold LineSeg.minX LineSeg.maxX LineSeg.minY LineSeg.maxY fmin fmax
  refine ⟨fun h => by simp [h], fun h k => by simp [h, k], fun h => by simp [h], fun h k => by simp [h, k]⟩

/-- In every arithmetic: horizontal means equal vertical extents, vertical equal horizontal ones, both only a segment of one point,
and a segment with an ordinate that is not a number is not both. -/
theorem C96_horizontal (s : LineSeg α) :
    (SegNN s → ((s.isHorizontal = true ↔ (s.minY ==. s.maxY) = true) ∧ (s.isVertical = true ↔ (s.minX ==. s.maxX) = true))) ∧
    ((s.isHorizontal = true ∧ s.isVertical = true) ↔ s.p0.equals2D s.p1 = true) ∧
    (s.reverse.isHorizontal = s.isHorizontal ∧ s.reverse.isVertical = s.isVertical) ∧
    (¬ SegNN s → ¬ (s.isHorizontal = true ∧ s.isVertical = true)) := by
  refine ⟨?_, ?_, ?_, ?_⟩
  · rintro ⟨⟨a, b⟩, c, d⟩
    unfold LineSeg.minX LineSeg.maxX LineSeg.minY LineSeg.maxY LineSeg.isHorizontal LineSeg.isVertical fmin fmax
    simp only [lt_eq, eq_eq, a, b, c, d]
    grind
  · unfold LineSeg.isHorizontal LineSeg.isVertical Coord.equals2D
    grind
  · unfold LineSeg.isHorizontal LineSeg.isVertical LineSeg.reverse
    simp only [eq_eq]
    grind
  · intro h
    rintro ⟨k1, k2⟩
    apply h
    unfold LineSeg.isHorizontal LineSeg.isVertical at *
    simp only [eq_eq] at k1 k2
    unfold SegNN Coord.NN
    grind

theorem compare_congr (a b a' b' : Coord α) (h1 : a.equals2D a' = true) (h2 : b.equals2D b' = true) : a.compareTo b = a'.compareTo b' := by
  have e : ∀ u v : Coord α, u.equals2D v = true → (isNaN u.x = false ∧ isNaN v.x = false ∧ FltOrd.key u.x = FltOrd.key v.x) ∧
      (isNaN u.y = false ∧ isNaN v.y = false ∧ FltOrd.key u.y = FltOrd.key v.y) := by
    intro u v h
    unfold Coord.equals2D at h
    rw [← FltOrd.eq_iff, ← FltOrd.eq_iff]
    grind
  obtain ⟨⟨a1, a2, a3⟩, a4, a5, a6⟩ := e _ _ h1
  obtain ⟨⟨b1, b2, b3⟩, b4, b5, b6⟩ := e _ _ h2
  simp only [Coord.compareTo, lt_eq, a1, a2, a3, a4, a5, a6, b1, b2, b3, b4, b5, b6]

/-- In every arithmetic: equality as point sets is an equivalence, does not see the direction, and is equality of the normalised segments. -/
theorem C96_equals_topo :
    (∀ s : LineSeg α, SegNN s → s.equalsTopo s = true) ∧
    (∀ s t : LineSeg α, s.equalsTopo t = true → t.equalsTopo s = true) ∧
    (∀ s t u : LineSeg α, s.equalsTopo t = true → t.equalsTopo u = true → s.equalsTopo u = true) ∧
    (∀ s t : LineSeg α, s.equalsTopo t = true ↔ (s.equals t = true ∨ s.equals t.reverse = true)) ∧
    (∀ s t : LineSeg α, SegNN s → SegNN t → (s.equalsTopo t = true ↔ s.normalize.equals t.normalize = true)) ∧
    (∀ s t : LineSeg α, SegNN s → SegNN t → (s.equalsTopo t = true ↔ s.normalize.compareTo t.normalize = 0)) := by
  have sy : ∀ a b : Coord α, a.equals2D b = b.equals2D a := fun a b => (C01_equals2D_equivalence a b a).2.1
  have tr : ∀ a b c : Coord α, a.equals2D b = true → b.equals2D c = true → a.equals2D c = true :=
    fun a b c => (C01_equals2D_equivalence a b c).2.2.1
  have rf : ∀ a : Coord α, a.NN → a.equals2D a = true := fun a h => (C01_equals2D_equivalence a a a).1.mp h
  have norm : ∀ s t : LineSeg α, SegNN s → SegNN t → (s.equalsTopo t = true ↔ s.normalize.equals t.normalize = true) := by
    rintro s t ⟨s0, s1⟩ ⟨t0, t1⟩
    have c := C01_compareTo_total_order (α := α)
    have key : ∀ u : LineSeg α, u.p0.NN → u.p1.NN → (u.p1.compareTo u.p0 < 0 ∨ u.p0.compareTo u.p1 < 0 ∨ u.p0.equals2D u.p1 = true) := by
      intro u u0 u1
      have a1 := c.swap u.p0 u.p1 u0 u1
      have a2 := c.zero_iff u.p0 u.p1 u0 u1
      by_cases e : u.p0.compareTo u.p1 = 0
      · exact Or.inr (Or.inr (a2.mp e))
      · omega
    have cong := compare_congr (α := α)
    unfold LineSeg.equalsTopo LineSeg.equals LineSeg.normalize
    simp only [Bool.or_eq_true, Bool.and_eq_true]
    have w1 := c.swap s.p0 s.p1 s0 s1
    have w2 := c.swap t.p0 t.p1 t0 t1
    have z1 := c.zero_iff s.p0 s.p1 s0 s1
    have z2 := c.zero_iff t.p0 t.p1 t0 t1
    have g1 : s.p0.equals2D t.p0 = true → s.p1.equals2D t.p1 = true → s.p0.compareTo s.p1 = t.p0.compareTo t.p1 := cong _ _ _ _
    have g2 : s.p0.equals2D t.p1 = true → s.p1.equals2D t.p0 = true → s.p0.compareTo s.p1 = t.p1.compareTo t.p0 := cong _ _ _ _
    have m1 := tr s.p0 t.p0 t.p1
    have m2 := tr s.p1 t.p1 t.p0
    have m3 := tr s.p0 t.p1 t.p0
    have m4 := tr s.p1 t.p0 t.p1
    have m5 := sy t.p0 t.p1
    have m6 := sy s.p0 s.p1
    unfold LineSeg.reverse
    split_ifs with h1 h2 h2 <;> try dsimp only
    · constructor
      · rintro (⟨e1, e2⟩ | ⟨e1, e2⟩)
        · exact ⟨e2, e1⟩
        · have := g2 e1 e2; omega
      · rintro ⟨e1, e2⟩; exact Or.inl ⟨e2, e1⟩
    · constructor
      · rintro (⟨e1, e2⟩ | ⟨e1, e2⟩)
        · have := g1 e1 e2; omega
        · exact ⟨e2, e1⟩
      · rintro ⟨e1, e2⟩; exact Or.inr ⟨e2, e1⟩
    · constructor
      · rintro (⟨e1, e2⟩ | ⟨e1, e2⟩)
        · have := g1 e1 e2; omega
        · exact ⟨e1, e2⟩
      · rintro ⟨e1, e2⟩; exact Or.inr ⟨e1, e2⟩
    · constructor
      · rintro (⟨e1, e2⟩ | ⟨e1, e2⟩)
        · exact ⟨e1, e2⟩
        · have e3 := g2 e1 e2
          have e4 : t.p0.equals2D t.p1 = true := z2.mp (by omega)
          exact ⟨tr _ _ _ e1 (by rw [← m5]; exact e4), tr _ _ _ e2 e4⟩
      · rintro ⟨e1, e2⟩; exact Or.inl ⟨e1, e2⟩
  refine ⟨?_, ?_, ?_, ?_, norm, ?_⟩
  · rintro s ⟨h0, h1⟩
    simp [LineSeg.equalsTopo, rf _ h0, rf _ h1]
  · intro s t
    unfold LineSeg.equalsTopo
    rw [sy t.p0 s.p0, sy t.p1 s.p1, sy t.p0 s.p1, sy t.p1 s.p0]
    simp only [Bool.or_eq_true, Bool.and_eq_true]
    tauto
  · intro s t u
    unfold LineSeg.equalsTopo
    simp only [Bool.or_eq_true, Bool.and_eq_true]
    rintro (⟨a, b⟩ | ⟨a, b⟩) (⟨c, d⟩ | ⟨c, d⟩)
    · exact Or.inl ⟨tr _ _ _ a c, tr _ _ _ b d⟩
    · exact Or.inr ⟨tr _ _ _ a c, tr _ _ _ b d⟩
    · exact Or.inr ⟨tr _ _ _ a d, tr _ _ _ b c⟩
    · exact Or.inl ⟨tr _ _ _ a d, tr _ _ _ b c⟩
  · intro s t
    unfold LineSeg.equalsTopo LineSeg.equals LineSeg.reverse
    simp only [Bool.or_eq_true, Bool.and_eq_true]
  · rintro s t hs ht
    rw [norm s t hs ht]
    have nn : ∀ u : LineSeg α, SegNN u → SegNN u.normalize := by
      intro u hu
      unfold LineSeg.normalize
      split_ifs
      · exact ⟨hu.2, hu.1⟩
      · exact hu
    exact (C40_compare.1.zero_iff _ _ (nn s hs) (nn t ht)).symm

end Any

/-! ## Real arithmetic -/

theorem on_of_same {c c' a b : Coord ℝ} (h : Same c c') (k : OnSegment c a b) : OnSegment c' a b := by
  unfold OnSegment at *; rw [← h.1, ← h.2]; exact k

/-- Over the reals: two segments are equal as point sets exactly if they have the same points. -/
theorem C96_same_points (s t : LineSeg ℝ) :
    s.equalsTopo t = true ↔ ∀ c, OnSegment c s.p0 s.p1 ↔ OnSegment c t.p0 t.p1 := by
  unfold LineSeg.equalsTopo
  simp only [Bool.or_eq_true, Bool.and_eq_true, real_toFlt, equals2D_iff]
  constructor
  · rintro (⟨⟨a, b⟩, c, d⟩ | ⟨⟨a, b⟩, c, d⟩) p
    · unfold OnSegment; rw [a, b, c, d]
    · rw [onSegment_swap p t.p0 t.p1]; unfold OnSegment; rw [a, b, c, d]
  · intro h
    obtain ⟨t0, a0, a1, ax, ay⟩ := (h s.p0).mp ((onSegment_end _ _ _).1 ⟨rfl, rfl⟩)
    obtain ⟨t1, b0, b1, bx, bY⟩ := (h s.p1).mp ((onSegment_end _ _ _).2 ⟨rfl, rfl⟩)
    obtain ⟨u0, c0, c1, cx, cy⟩ := (h t.p0).mpr ((onSegment_end _ _ _).1 ⟨rfl, rfl⟩)
    obtain ⟨u1, d0, d1, dx, dy⟩ := (h t.p1).mpr ((onSegment_end _ _ _).2 ⟨rfl, rfl⟩)
    by_cases e : t.p0.x = t.p1.x ∧ t.p0.y = t.p1.y
    · rw [e.1] at ax bx; rw [e.2] at ay bY
      left
      refine ⟨⟨?_, ?_⟩, ?_, ?_⟩
      · rw [e.1]; linarith
      · rw [e.2]; linarith
      · linarith
      · linarith
    · -- the positions of the ends of s on t
      have inj : ∀ v w : ℝ, v * (t.p1.x - t.p0.x) = w * (t.p1.x - t.p0.x) → v * (t.p1.y - t.p0.y) = w * (t.p1.y - t.p0.y) → v = w := by
        intro v w h1 h2
        by_contra hne
        apply e
        have hvw : v - w ≠ 0 := sub_ne_zero.mpr hne
        have k1 : (v - w) * (t.p1.x - t.p0.x) = 0 := by linarith
        have k2 : (v - w) * (t.p1.y - t.p0.y) = 0 := by linarith
        exact ⟨by linarith [(mul_eq_zero.mp k1).resolve_left hvw], by linarith [(mul_eq_zero.mp k2).resolve_left hvw]⟩
      have z : t0 + u0 * (t1 - t0) = 0 := by
        apply inj
        · rw [ax, bx] at cx; linarith
        · rw [ay, bY] at cy; linarith
      have o : t0 + u1 * (t1 - t0) = 1 := by
        apply inj
        · rw [ax, bx] at dx; linarith
        · rw [ay, bY] at dy; linarith
      have cases : (t0 = 0 ∧ t1 = 1) ∨ (t0 = 1 ∧ t1 = 0) := by
        rcases le_total t0 t1 with hle | hle
        · left
          have h1 : t0 = 0 := by nlinarith [mul_nonneg c0 (sub_nonneg.mpr hle)]
          refine ⟨h1, ?_⟩
          rw [h1] at o
          nlinarith
        · right
          have h1 : t0 = 1 := by nlinarith [mul_nonneg d0 (sub_nonneg.mpr hle)]
          refine ⟨h1, ?_⟩
          rw [h1] at z
          nlinarith
      rcases cases with ⟨k0, k1⟩ | ⟨k0, k1⟩
      · left
        rw [k0] at ax ay; rw [k1] at bx bY
        exact ⟨⟨by linarith, by linarith⟩, by linarith, by linarith⟩
      · right
        rw [k0] at ax ay; rw [k1] at bx bY
        exact ⟨⟨by linarith, by linarith⟩, by linarith, by linarith⟩

/-- The offset point of a segment with two different ends, by its coordinates. -/
theorem offset_xy (s : LineSeg ℝ) (f d : ℝ) :
    (s.pointAlongOffset f d).x = s.p0.x + f * (s.p1.x - s.p0.x) - d * (s.p1.y - s.p0.y) / s.length ∧
    (s.pointAlongOffset f d).y = s.p0.y + f * (s.p1.y - s.p0.y) + d * (s.p1.x - s.p0.x) / s.length := by
  have hlen : s.length = Real.sqrt ((s.p1.x - s.p0.x) ^ 2 + (s.p1.y - s.p0.y) ^ 2) := by
    unfold LineSeg.length; rw [distance_eq]; unfold Spec.dist; congr 1; ring
  rw [hlen]
  unfold LineSeg.pointAlongOffset
  simp only [real_toFlt, exact_eq, exact_lit, exact_sub, exact_add, exact_mul, exact_div, Rat.cast_zero, real_hypot]
  by_cases hd : d = 0
  · simp [hd]
  · simp [hd]

theorem length_pos (s : LineSeg ℝ) (h : ¬ Same s.p0 s.p1) : 0 < s.length ∧ s.length ^ 2 = (s.p1.x - s.p0.x) ^ 2 + (s.p1.y - s.p0.y) ^ 2 := by
  have hlen : s.length = Real.sqrt ((s.p1.x - s.p0.x) ^ 2 + (s.p1.y - s.p0.y) ^ 2) := by
    unfold LineSeg.length; rw [distance_eq]; unfold Spec.dist; congr 1; ring
  have hp : 0 < (s.p1.x - s.p0.x) ^ 2 + (s.p1.y - s.p0.y) ^ 2 := by
    by_contra hn
    apply h
    have h1 : s.p1.x - s.p0.x = 0 := by nlinarith [sq_nonneg (s.p1.x - s.p0.x), sq_nonneg (s.p1.y - s.p0.y)]
    have h2 : s.p1.y - s.p0.y = 0 := by nlinarith [sq_nonneg (s.p1.x - s.p0.x), sq_nonneg (s.p1.y - s.p0.y)]
    exact ⟨by linarith, by linarith⟩
  rw [hlen]
  exact ⟨Real.sqrt_pos.mpr hp, Real.sq_sqrt hp.le⟩

theorem offset_parts (s : LineSeg ℝ) (d : ℝ) :
    ((s.offset d).p0.x = s.p0.x - d * (s.p1.y - s.p0.y) / s.length ∧ (s.offset d).p0.y = s.p0.y + d * (s.p1.x - s.p0.x) / s.length) ∧
    ((s.offset d).p1.x = s.p1.x - d * (s.p1.y - s.p0.y) / s.length ∧ (s.offset d).p1.y = s.p1.y + d * (s.p1.x - s.p0.x) / s.length) := by
  unfold LineSeg.offset LineSeg.ofCoords Coord.fromCoordinate
  dsimp only
  rw [(offset_xy s _ d).1, (offset_xy s _ d).2, (offset_xy s _ d).1, (offset_xy s _ d).2]
  simp only [real_toFlt, exact_lit, Rat.cast_zero, Rat.cast_one]
  refine ⟨⟨by ring, by ring⟩, by ring, by ring⟩

/-- Over the reals: the offset of a segment with two different ends has the same direction and length, its points are the points of
the segment moved by the distance to the left (to the right if negative), offsetting back gives the segment, the offset of the
reverse is the reverse of the opposite offset, and offsets add up. -/
theorem C96_offset (s : LineSeg ℝ) (d e : ℝ) (h : ¬ Same s.p0 s.p1) :
    ((s.offset d).p1.x - (s.offset d).p0.x = s.p1.x - s.p0.x ∧ (s.offset d).p1.y - (s.offset d).p0.y = s.p1.y - s.p0.y) ∧
    (s.offset d).length = s.length ∧
    (∀ f, det s.p0 s.p1 ((s.offset d).pointAlong f) = d * s.length ∧ Spec.dist ((s.offset d).pointAlong f) (s.pointAlong f) = |d| ∧
      s.projectionFactor ((s.offset d).pointAlong f) = f) ∧
    (Same ((s.offset d).offset (-d)).p0 s.p0 ∧ Same ((s.offset d).offset (-d)).p1 s.p1) ∧
    (Same (s.reverse.offset d).p0 (s.offset (-d)).p1 ∧ Same (s.reverse.offset d).p1 (s.offset (-d)).p0) ∧
    (Same ((s.offset d).offset e).p0 (s.offset (d + e)).p0 ∧ Same ((s.offset d).offset e).p1 (s.offset (d + e)).p1) := by
  obtain ⟨⟨a1, a2⟩, a3, a4⟩ := offset_parts s d
  have dx : (s.offset d).p1.x - (s.offset d).p0.x = s.p1.x - s.p0.x := by rw [a1, a3]; ring
  have dy : (s.offset d).p1.y - (s.offset d).p0.y = s.p1.y - s.p0.y := by rw [a2, a4]; ring
  have len : ∀ u v : LineSeg ℝ, u.p1.x - u.p0.x = v.p1.x - v.p0.x → u.p1.y - u.p0.y = v.p1.y - v.p0.y → u.length = v.length := by
    intro u v h1 h2
    unfold LineSeg.length
    rw [distance_eq, distance_eq]
    unfold Spec.dist
    congr 1
    have e1 : u.p0.x - u.p1.x = v.p0.x - v.p1.x := by linarith
    have e2 : u.p0.y - u.p1.y = v.p0.y - v.p1.y := by linarith
    rw [e1, e2]
  have hl := len _ _ dx dy
  have twice : ∀ g : ℝ, (Same ((s.offset d).offset g).p0 (s.offset (d + g)).p0 ∧ Same ((s.offset d).offset g).p1 (s.offset (d + g)).p1) := by
    intro g
    obtain ⟨⟨b1, b2⟩, b3, b4⟩ := offset_parts (s.offset d) g
    obtain ⟨⟨c1, c2⟩, c3, c4⟩ := offset_parts s (d + g)
    rw [hl, dx] at b2 b4
    rw [hl, dy] at b1 b3
    refine ⟨⟨?_, ?_⟩, ?_, ?_⟩
    · rw [b1, c1, a1]; ring
    · rw [b2, c2, a2]; ring
    · rw [b3, c3, a3]; ring
    · rw [b4, c4, a4]; ring
  obtain ⟨lp, l2⟩ := length_pos s h
  refine ⟨⟨dx, dy⟩, hl, ?_, ?_, ?_, twice e⟩
  · intro f
    have px : (s.offset d).pointAlong f = s.pointAlongOffset f d := by
      have q1 : ((s.offset d).pointAlong f).x = (s.pointAlongOffset f d).x := by
        rw [(offset_xy s f d).1]
        unfold LineSeg.pointAlong
        simp only [real_toFlt, exact_add, exact_mul, exact_sub]
        rw [dx, a1]; ring
      have q2 : ((s.offset d).pointAlong f).y = (s.pointAlongOffset f d).y := by
        rw [(offset_xy s f d).2]
        unfold LineSeg.pointAlong
        simp only [real_toFlt, exact_add, exact_mul, exact_sub]
        rw [dy, a2]; ring
      unfold LineSeg.pointAlong LineSeg.pointAlongOffset at *
      simp only [Coord.mk.injEq] at *
      exact ⟨q1, q2, trivial, trivial⟩
    rw [px]
    obtain ⟨k1, k2, k3, -⟩ := C40_offset s f d h
    exact ⟨k2, k3, k1⟩
  · have z : ∀ u : LineSeg ℝ, Same (u.offset (d + -d)).p0 u.p0 ∧ Same (u.offset (d + -d)).p1 u.p1 := by
      intro u
      obtain ⟨⟨c1, c2⟩, c3, c4⟩ := offset_parts u (d + -d)
      refine ⟨⟨?_, ?_⟩, ?_, ?_⟩
      · rw [c1]; ring
      · rw [c2]; ring
      · rw [c3]; ring
      · rw [c4]; ring
    obtain ⟨t1, t2⟩ := twice (-d)
    obtain ⟨z1, z2⟩ := z s
    exact ⟨⟨t1.1.trans z1.1, t1.2.trans z1.2⟩, t2.1.trans z2.1, t2.2.trans z2.2⟩
  · have rl : s.reverse.length = s.length := by
      unfold LineSeg.length LineSeg.reverse
      rw [distance_eq, distance_eq, Spec.dist_comm]
    obtain ⟨⟨b1, b2⟩, b3, b4⟩ := offset_parts s.reverse d
    obtain ⟨⟨c1, c2⟩, c3, c4⟩ := offset_parts s (-d)
    rw [rl] at b1 b2 b3 b4
    simp only [LineSeg.reverse] at b1 b2 b3 b4
    refine ⟨⟨?_, ?_⟩, ?_, ?_⟩
    · rw [c3]; refine b1.trans ?_; ring
    · rw [c4]; refine b2.trans ?_; ring
    · rw [c1]; refine b3.trans ?_; ring
    · rw [c2]; refine b4.trans ?_; ring

/-- Over the reals: the common point of the two lines is found whenever they are not parallel, in either order, and is the point
where the segments meet if they do. -/
theorem C96_line_intersection (s t : LineSeg ℝ) (hw : dirDet s.p0 s.p1 t.p0 t.p1 ≠ 0) :
    ∃ c, s.lineIntersection t = some c ∧ (∀ c', (OnLineOf c' s.p0 s.p1 ∧ OnLineOf c' t.p0 t.p1) ↔ Same c' c) ∧
      (∃ d, t.lineIntersection s = some d ∧ Same d c) ∧ (∀ d, s.intersection t = some d → Same d c) := by
  obtain ⟨c, h1, ⟨d, e, k⟩, -, -⟩ := C39_common_point s.p0 s.p1 t.p0 t.p1 hw
  have hw' : dirDet t.p0 t.p1 s.p0 s.p1 ≠ 0 := by
    intro h; apply hw; unfold dirDet at *; linarith
  obtain ⟨c2, h2, ⟨d2, e2, k2⟩, -, -⟩ := C39_common_point t.p0 t.p1 s.p0 s.p1 hw'
  have hd : ∀ c', (OnLineOf c' s.p0 s.p1 ∧ OnLineOf c' t.p0 t.p1) ↔ Same c' d := by
    intro c'; rw [h1 c']; unfold Same; rw [k.1, k.2]
  refine ⟨d, e, hd, ⟨d2, e2, ?_⟩, ?_⟩
  · obtain ⟨m1, m2⟩ := (h2 d2).mpr k2
    exact (hd d2).mp ⟨m2, m1⟩
  · intro g hg
    unfold LineSeg.intersection at hg
    dsimp only at hg
    split_ifs at hg with hi
    cases hg
    obtain ⟨r, -⟩ := compute4_reports LI.default s.p0 s.p1 t.p0 t.p1 rfl
    have hc : Common ((LI.default : LI ℝ).compute4 s.p0 s.p1 t.p0 t.p1).pt0 s.p0 s.p1 t.p0 t.p1 := by
      obtain ⟨x, hx⟩ := (C38_none_iff_disjoint LI.default s.p0 s.p1 t.p0 t.p1).2.mp hi
      rcases r.codes with m | m | m
      · exact absurd hx (r.none m x)
      · exact (r.one m _).mpr ⟨rfl, rfl⟩
      · exact ((r.more m).1 _).mpr ((onSegment_end _ _ _).1 ⟨rfl, rfl⟩)
    exact (hd _).mp ⟨onSegment_line _ _ _ hc.1, onSegment_line _ _ _ hc.2⟩

/-- Over the reals: the distance of two segments does not depend on their order or direction, is 0 exactly if `intersection` finds a
point, and is the distance of the two closest points otherwise. -/
theorem C96_distance (s t : LineSeg ℝ) :
    (t.distanceSeg s = s.distanceSeg t ∧ s.reverse.distanceSeg t = s.distanceSeg t ∧ s.distanceSeg t.reverse = s.distanceSeg t) ∧
    (s.distanceSeg t = 0 ↔ s.intersection t ≠ none) ∧
    (∀ u v, s.closestPoints t = [u, v] → Spec.dist u v = s.distanceSeg t) := by
  unfold LineSeg.distanceSeg
  have hi := (C38_none_iff_disjoint LI.default s.p0 s.p1 t.p0 t.p1).2
  refine ⟨C37_symmetric s.p0 s.p1 t.p0 t.p1, ?_, ?_⟩
  · rw [C37_zero_iff]
    unfold LineSeg.intersection
    dsimp only
    rw [← hi]
    split_ifs with k <;> simp [k]
  · intro u v e
    by_cases hc : ∃ c, OnSegment c s.p0 s.p1 ∧ OnSegment c t.p0 t.p1
    · obtain ⟨c, hc, -⟩ := (C40_closest_points s t).2 hc
      rw [e] at hc; cases hc
    · obtain ⟨u', v', e', hu, hv, hm⟩ := (C40_closest_points s t).1 hc
      rw [e] at e'; cases e'
      have L : LeastDist2 (fun w => OnSegment w s.p0 s.p1) (fun w => OnSegment w t.p0 t.p1) (Spec.dist u v) := ⟨⟨u, v, hu, hv, rfl⟩, hm⟩
      exact L.unique (C37_segments s.p0 s.p1 t.p0 t.p1)

/-- Over the reals: the direction of the reverse is the opposite one. -/
theorem C96_reverse_angle (s : LineSeg ℝ) (h : ¬ Same s.p0 s.p1) :
    s.reverse.angle = s.angle + Real.pi ∨ s.reverse.angle = s.angle - Real.pi := by
  have e : s.reverse.angle = Complex.arg (-(⟨s.p1.x - s.p0.x, s.p1.y - s.p0.y⟩ : ℂ)) := by
    unfold LineSeg.angle LineSeg.reverse
    simp only [real_atan2, exact_sub]
    congr 1
    apply Complex.ext <;> simp
  have e2 : s.angle = Complex.arg (⟨s.p1.x - s.p0.x, s.p1.y - s.p0.y⟩ : ℂ) := by
    unfold LineSeg.angle
    simp only [real_atan2, exact_sub]
  obtain ⟨z, hz⟩ : ∃ z : ℂ, z = ⟨s.p1.x - s.p0.x, s.p1.y - s.p0.y⟩ := ⟨_, rfl⟩
  rw [e, e2, ← hz]
  rcases lt_trichotomy z.im 0 with k | k | k
  · left; exact Complex.arg_neg_eq_arg_add_pi_of_im_neg k
  · rcases lt_trichotomy z.re 0 with m | m | m
    · right; exact Complex.arg_neg_eq_arg_sub_pi_iff.mpr (Or.inr ⟨k, m⟩)
    · exfalso; apply h
      rw [hz] at k m
      simp only at k m
      exact ⟨by linarith, by linarith⟩
    · left; exact Complex.arg_neg_eq_arg_add_pi_iff.mpr (Or.inr ⟨k, m⟩)
  · right; exact Complex.arg_neg_eq_arg_sub_pi_of_im_pos k

/-! ## Segments of one point -/

section Degenerate
open Binary64
variable {sq : ℚ → Val} {hy : ℚ → ℚ → Val}

/-- In binary64 the offset of a segment of one point has no coordinates (0/0), unless the distance is 0. -/
theorem C96_offset_degenerate (x y d : ℚ) (hx : IsF64 x) (hY : IsF64 y) (hd : d ≠ 0) (hh : hy 0 0 = Val.fin 0) (z0 z1 m0 m1 : B64 sq hy) :
    let s : LineSeg (B64 sq hy) := ⟨⟨Fl.fin x, Fl.fin y, z0, m0⟩, ⟨Fl.fin x, Fl.fin y, z1, m1⟩⟩
    (isNaN (s.offset (Fl.fin d)).p0.x = true ∧ isNaN (s.offset (Fl.fin d)).p0.y = true ∧
      isNaN (s.offset (Fl.fin d)).p1.x = true ∧ isNaN (s.offset (Fl.fin d)).p1.y = true) ∧
    ((s.offset (Fl.fin 0)).p0.x = Fl.fin x ∧ (s.offset (Fl.fin 0)).p0.y = Fl.fin y ∧ (s.offset (Fl.fin 0)).p1.x = Fl.fin x ∧
      (s.offset (Fl.fin 0)).p1.y = Fl.fin y) := by
  have z : rnd 0 = Val.fin 0 := rnd_of_f64 (f64_of (by decide +kernel))
  have sub0 : ∀ v : ℚ, ((Fl.fin v : B64 sq hy) -. Fl.fin v) = Fl.fin 0 := by
    intro v
    show rnd (v + -v) = Val.fin 0
    rw [add_neg_cancel, z]
  have mul0 : ∀ v : ℚ, ((Fl.fin v : B64 sq hy) *. Fl.fin 0) = Fl.fin 0 := by
    intro v
    show rnd (v * 0) = Val.fin 0
    rw [mul_zero, z]
  have add0 : ∀ v : ℚ, IsF64 v → ((Fl.fin v : B64 sq hy) +. Fl.fin 0) = Fl.fin v := by
    intro v h
    show rnd (v + 0) = Val.fin v
    rw [add_zero, rnd_of_f64 h]
  have min0 : ∀ v : ℚ, IsF64 v → ((Fl.fin v : B64 sq hy) -. Fl.fin 0) = Fl.fin v := by
    intro v h
    show rnd (v + -0) = Val.fin v
    rw [neg_zero, add_zero, rnd_of_f64 h]
  have hyp : (FltSqrt.hypot (Fl.fin 0 : B64 sq hy) (Fl.fin 0)) = Fl.fin 0 := hh
  have div0 : ((Fl.fin 0 : B64 sq hy) /. Fl.fin 0) = nan := rfl
  have ne : ((Fl.fin d : B64 sq hy) ==. Fl.fin 0) = false := by
    show decide (d = 0) = false
    simp [hd]
  have eq : ((Fl.fin 0 : B64 sq hy) ==. Fl.fin 0) = true := rfl
  have nan1 : ∀ v : ℚ, ((Fl.fin v : B64 sq hy) +. nan) = nan := fun _ => rfl
  have nan2 : ∀ v : ℚ, ((Fl.fin v : B64 sq hy) -. nan) = nan := fun _ => rfl
  have nn : isNaN (nan : B64 sq hy) = true := rfl
  unfold LineSeg.offset LineSeg.ofCoords LineSeg.pointAlongOffset Coord.fromCoordinate
  dsimp only
  rw [one64, lit64]
  simp only [sub0, mul0, add0 x hx, add0 y hY, hyp, div0, ne, eq, Bool.not_true, Bool.not_false, if_true, Bool.false_eq_true, if_false, nan1, nan2, nn,
    min0 x hx, and_self]

end Degenerate

/-! Examples: a segment and its reverse, offsets of (0,0)-(3,4), two crossing lines. -/

local notation "pt" => fun (x y : ℚ) => (Coord.xy (Fl.fin x) (Fl.fin y) : Coord X64)

example : SegNN (⟨pt 3 1, pt 0 4⟩ : LineSeg X64) ∧ (⟨pt 3 1, pt 0 4⟩ : LineSeg X64).minX = Fl.fin 0 ∧
    (⟨pt 3 1, pt 0 4⟩ : LineSeg X64).maxY = Fl.fin 4 := ⟨⟨⟨rfl, rfl⟩, rfl, rfl⟩, rfl, rfl⟩
example : (⟨pt 3 1, pt 0 4⟩ : LineSeg X64).equalsTopo ⟨pt 0 4, pt 3 1⟩ = true ∧ (⟨pt 3 1, pt 0 4⟩ : LineSeg X64).equals ⟨pt 0 4, pt 3 1⟩ = false := by
  decide +kernel
example : (⟨pt 3 1, pt 0 1⟩ : LineSeg X64).isHorizontal = true ∧ (⟨pt 3 1, pt 0 1⟩ : LineSeg X64).isVertical = false := by decide +kernel
example : ¬ Same (⟨0, 0, 0, 0⟩ : Coord ℝ) ⟨3, 4, 0, 0⟩ := by simp [Same]
example : dirDet (⟨0, 0, 0, 0⟩ : Coord ℝ) ⟨3, 4, 0, 0⟩ ⟨0, 4, 0, 0⟩ ⟨3, 0, 0, 0⟩ ≠ 0 := by norm_num [dirDet]

end Verif.Props
