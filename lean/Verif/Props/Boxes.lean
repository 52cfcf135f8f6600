import Verif.Props.Agree
import Verif.Props.ArrayFilters
import Verif.Props.EnvelopeExact
import Verif.Props.Length
import Verif.Lemmas.Doubles

set_option linter.unusedSectionVars false

/-! # C145: boxes as filters -/

namespace Verif.Props
open Flt Verif.Spec Verif.Binary64

section exact
variable {K : Type} [Field K] [LinearOrder K] [IsStrictOrderedRing K]

/-- No line touches a point of the inside: there are corners strictly on both sides of every line through it. -/
theorem C145_both_sides (al be : K) (hne : al ≠ 0 ∨ be ≠ 0) (p : Coord K) (r : List (Coord K)) (hc : Closed2D r)
    (h : PointLocation.locateInRing p r = .ok Location.INTERIOR) :
    (∃ v ∈ r, al * p.x + be * p.y < al * v.x + be * v.y) ∧ ∃ v ∈ r, al * v.x + be * v.y < al * p.x + be * p.y := by
  have key : ∀ al be : K, (al ≠ 0 ∨ be ≠ 0) → ∃ v ∈ r, al * p.x + be * p.y < al * v.x + be * v.y := by
    intro al be hne
    by_contra g
    push Not at g
    have hpos : 0 < al * al + be * be := by
      rcases hne with hne | hne
      · exact add_pos_of_pos_of_nonneg (mul_self_pos.mpr hne) (mul_self_nonneg be)
      · exact add_pos_of_nonneg_of_pos (mul_self_nonneg al) (mul_self_pos.mpr hne)
    have he := C143_hull al be (shift al be p) r hc (by
      intro v hv
      have := g v hv
      simp only [shift]
      linarith)
    obtain ⟨c, ⟨t, t0, t1, ex, ey⟩, s, hs, u, u0, u1, fx, fy⟩ := line_between p (shift al be p) r hc (by rw [h, he]; decide)
    simp only [shift] at ex ey
    obtain ⟨m1, m2⟩ := segs_mem _ _ hs
    have g1 := g _ m1
    have g2 := g _ m2
    have hle : al * c.x + be * c.y ≤ al * p.x + be * p.y := by
      rw [fx, fy]
      have a1 := mul_nonneg (sub_nonneg.mpr u1) (sub_nonneg.mpr g1)
      have a2 := mul_nonneg u0 (sub_nonneg.mpr g2)
      linarith
    have ht : t = 0 := by
      by_contra ht
      have tp : 0 < t := lt_of_le_of_ne t0 (Ne.symm ht)
      have := mul_pos tp hpos
      rw [ex, ey] at hle
      linarith
    have hon : OnLine p r := ⟨s, hs, u, u0, u1, by rw [← fx, ex, ht]; ring, by rw [← fy, ey, ht]; ring⟩
    obtain ⟨m, k1, k2, -, -⟩ := C31_locate p r hc
    rw [h, k2 hon] at k1
    exact absurd (Except.ok.inj k1) (by decide)
  refine ⟨key al be hne, ?_⟩
  obtain ⟨v, hv, h⟩ := key (-al) (-be) (by simpa using hne)
  exact ⟨v, hv, by linarith⟩

theorem box_facts (r : List (Coord K)) : ∀ v ∈ r, (CoordArrays.envelope r).minx ≤ v.x ∧ v.x ≤ (CoordArrays.envelope r).maxx ∧
    (CoordArrays.envelope r).miny ≤ v.y ∧ v.y ≤ (CoordArrays.envelope r).maxy := by
  intro v hv
  have := (C59_envelope r (fun _ _ => ⟨rfl, rfl⟩)).2.2.1 v hv
  rw [Env.coversCoordinate, coversXY_exact] at this
  exact this.2

/-- C145: points inside a ring are strictly inside its box, points in or on it are covered by its box. -/
theorem C145_ring (p : Coord K) (r : List (Coord K)) (hc : Closed2D r) :
    (PointLocation.locateInRing p r = .ok Location.INTERIOR → (CoordArrays.envelope r).minx < p.x ∧ p.x < (CoordArrays.envelope r).maxx ∧
      (CoordArrays.envelope r).miny < p.y ∧ p.y < (CoordArrays.envelope r).maxy) ∧
    (PointLocation.isInRing p r = .ok true → (CoordArrays.envelope r).coversCoordinate p = true) ∧
    ((CoordArrays.envelope r).coversCoordinate p = false → PointLocation.locateInRing p r = .ok Location.EXTERIOR) := by
  have hb := box_facts r
  have h2 : PointLocation.isInRing p r = .ok true → (CoordArrays.envelope r).coversCoordinate p = true := by
    intro h
    obtain ⟨⟨v1, m1, k1⟩, ⟨v2, m2, k2⟩⟩ := C143_inside 1 0 p r hc h
    obtain ⟨⟨v3, m3, k3⟩, ⟨v4, m4, k4⟩⟩ := C143_inside 0 1 p r hc h
    simp only [one_mul, zero_mul, add_zero, zero_add] at k1 k2 k3 k4
    rw [Env.coversCoordinate, coversXY_exact]
    have b1 := hb v1 m1
    have b2 := hb v2 m2
    have b3 := hb v3 m3
    have b4 := hb v4 m4
    exact ⟨b1.1.trans b1.2.1, b2.1.trans k2, k1.trans b1.2.1, b4.2.2.1.trans k4, k3.trans b3.2.2.2⟩
  refine ⟨fun h => ?_, h2, fun h => ?_⟩
  · obtain ⟨⟨v1, m1, k1⟩, ⟨v2, m2, k2⟩⟩ := C145_both_sides 1 0 (Or.inl one_ne_zero) p r hc h
    obtain ⟨⟨v3, m3, k3⟩, ⟨v4, m4, k4⟩⟩ := C145_both_sides 0 1 (Or.inr one_ne_zero) p r hc h
    simp only [one_mul, zero_mul, add_zero, zero_add] at k1 k2 k3 k4
    exact ⟨(hb v2 m2).1.trans_lt k2, k1.trans_le (hb v1 m1).2.1, (hb v4 m4).2.2.1.trans_lt k4, k3.trans_le (hb v3 m3).2.2.2⟩
  · obtain ⟨m, k1, -, -, -⟩ := C31_locate p r hc
    by_contra g
    have : PointLocation.isInRing p r = .ok true := by
      unfold PointLocation.isInRing
      rw [k1, Except.ok.injEq] at g
      rw [k1]
      simp [bind, Except.bind, pure, Except.pure, g]
    rw [h2 this] at h
    cases h

theorem newCoordinates_bounds (a b : Coord K) : (Env.newCoordinates a b) = ⟨min a.x b.x, max a.x b.x, min a.y b.y, max a.y b.y⟩ := by
  unfold Env.newCoordinates
  simp only [exact_lt, decide_eq_true_eq]
  grind

theorem segment_in_box (c a b : Coord K) (h : OnSegment c a b) : (Env.newCoordinates a b).coversXY c.x c.y = true := by
  rw [coversXY_exact, newCoordinates_bounds]
  obtain ⟨-, h1, h2, h3, h4⟩ := (onSegment_iff c a b).mp h
  exact ⟨min_le_max, h1, h2, h3, h4⟩

end exact

section any
variable {α : Type}

/-- C145, every arithmetic: the intersector never finds an intersection of segments with boxes that do not meet, nor of a point outside
the box of a segment with it. -/
theorem C145_segments_any [FltSqrt α] [FltRound α] [FltOrd α] [FltLit α] (li : LI α) (a b c d : Coord α) (ha : a.NN) (hb : b.NN) (hc : c.NN) (hd : d.NN) :
    ((Env.newCoordinates a b).intersects (Env.newCoordinates c d) = false →
      (li.compute4 a b c d).hasIntersection = false ∧ (li.compute4 a b c d).isProper = false) ∧
    ((Env.newCoordinates a b).coversCoordinate c = false →
      (li.compute3 c a b).hasIntersection = false ∧ PointLocation.isOnSegment c a b = false) := by
  constructor
  · intro h
    rw [← C09_intersects4 a b c d ha hb hc hd] at h
    simp [LI.compute4, LI.computeIntersect, LI.hasIntersection, h]
  · intro h
    rw [← C09_intersects3 a b c ha hb] at h
    constructor
    · simp [LI.compute3, LI.hasIntersection, h]
    · simp [PointLocation.isOnSegment, h]

end any

section real

/-- C145: boxes of segments that do not meet rule out an intersection; the distance of the boxes is at most that of the segments. -/
theorem C145_segments (li : LI ℝ) (a b c d : Coord ℝ) :
    ((Env.newCoordinates a b).intersects (Env.newCoordinates c d) = false → (li.compute4 a b c d).hasIntersection = false) ∧
    (Env.newCoordinates a b).distance (Env.newCoordinates c d) ≤ Distance.segmentToSegment a b c d := by
  have hn : ∀ a b : Coord ℝ, (Env.newCoordinates a b).isNull = false := by
    intro a b; rw [newCoordinates_bounds]; simp [Env.isNull]
  have hw : ∀ a b : Coord ℝ, (Env.newCoordinates a b).WF := fun a b => newCoordinates_wf a b ⟨rfl, rfl⟩ ⟨rfl, rfl⟩
  have hd : (Env.newCoordinates a b).distance (Env.newCoordinates c d) ≤ Distance.segmentToSegment a b c d := by
    obtain ⟨⟨u, v, hu, hv, e⟩, -⟩ := C37_segments a b c d
    rw [← e]
    exact (C06_distance_is_minimum _ _ (hw a b) (hw c d) (hn a b) (hn c d)).2 _ _ _ _ (segment_in_box u a b hu) (segment_in_box v c d hv)
  refine ⟨fun h => ?_, hd⟩
  rw [← Bool.not_eq_true, ((C144_no_distance li a a b c d [a, b] (le_refl 2)).1)]
  intro e
  obtain ⟨-, k2, k3⟩ := C06_distance_laws _ _ (hw a b) (hw c d) (hn a b) (hn c d)
  rw [k3.mp (le_antisymm (by rw [← e]; exact hd) k2)] at h
  cases h

/-- C145: the distance of the boxes of a point and a line is at most the distance of the point and the line. -/
theorem C145_line_distance (p : Coord ℝ) (line : List (Coord ℝ)) (hl : line ≠ []) :
    ∃ d, Distance.pointToSegmentString p line = .ok d ∧ (Env.newCoordinate p).distance (CoordArrays.envelope line) ≤ d := by
  obtain ⟨d, d1, ⟨w, w1, w2⟩, -⟩ := C36_chain p line hl
  refine ⟨d, d1, ?_⟩
  rw [← w2]
  have hb := box_facts line
  have hcov : (CoordArrays.envelope line).minx ≤ w.x ∧ w.x ≤ (CoordArrays.envelope line).maxx ∧
      (CoordArrays.envelope line).miny ≤ w.y ∧ w.y ≤ (CoordArrays.envelope line).maxy := by
    rcases w1 with ⟨v, hv, e1, e2⟩ | ⟨s, hs, t, t0, t1, e1, e2⟩
    · rw [e1, e2]; exact hb v hv
    · obtain ⟨m1, m2⟩ := segs_mem _ _ hs
      have b1 := hb _ m1
      have b2 := hb _ m2
      rw [e1, e2]
      refine ⟨?_, ?_, ?_, ?_⟩
      · linarith [mul_nonneg (sub_nonneg.mpr t1) (sub_nonneg.mpr b1.1), mul_nonneg t0 (sub_nonneg.mpr b2.1)]
      · linarith [mul_nonneg (sub_nonneg.mpr t1) (sub_nonneg.mpr b1.2.1), mul_nonneg t0 (sub_nonneg.mpr b2.2.1)]
      · linarith [mul_nonneg (sub_nonneg.mpr t1) (sub_nonneg.mpr b1.2.2.1), mul_nonneg t0 (sub_nonneg.mpr b2.2.2.1)]
      · linarith [mul_nonneg (sub_nonneg.mpr t1) (sub_nonneg.mpr b1.2.2.2), mul_nonneg t0 (sub_nonneg.mpr b2.2.2.2)]
  have hx := hcov.1.trans hcov.2.1
  have hy := hcov.2.2.1.trans hcov.2.2.2
  refine (C06_distance_is_minimum _ _ ?_ ?_ ?_ ?_).2 _ _ _ _ ?_ ?_
  · rw [wf_iff]; right; exact ⟨le_refl _, le_refl _⟩
  · rw [wf_iff]; right; exact ⟨hx, hy⟩
  · simp [Env.isNull, Env.newCoordinate]
  · simpa [Env.isNull] using hx
  · rw [coversXY_exact]; simp [Env.newCoordinate]
  · rw [coversXY_exact]; exact ⟨hx, hcov⟩

/-- The total change of a function of the points along a line. -/
noncomputable def travel (f : Coord ℝ → ℝ) (l : List (Coord ℝ)) : ℝ := ((segs l).map (fun s => |f s.2 - f s.1|)).sum

theorem travel_cons (f : Coord ℝ → ℝ) (a b : Coord ℝ) (l : List (Coord ℝ)) : travel f (a :: b :: l) = |f b - f a| + travel f (b :: l) := by
  unfold travel; rw [segs_cons, List.map_cons, List.sum_cons]

theorem travel_nonneg (f : Coord ℝ → ℝ) (l : List (Coord ℝ)) : 0 ≤ travel f l := by
  unfold travel
  apply List.sum_nonneg
  intro x hx
  obtain ⟨s, -, rfl⟩ := List.mem_map.mp hx
  exact abs_nonneg _

/-- Whoever visits `a` and `b` between the ends of a line has travelled so far. -/
theorem travel_visits (f : Coord ℝ → ℝ) (l : List (Coord ℝ)) : ∀ u e, (u :: l).getLast? = some e → ∀ a ∈ u :: l, ∀ b ∈ u :: l,
    |f b - f a| + |f a - f u| + |f e - f b| ≤ travel f (u :: l) ∨ |f b - f a| + |f b - f u| + |f e - f a| ≤ travel f (u :: l) := by
  induction l with
  | nil =>
    intro u e he a ha b hb
    simp at he ha hb
    subst he ha hb
    left
    simp [travel]
  | cons w l ih =>
    intro u e he a ha b hb
    have he' : (w :: l).getLast? = some e := by simpa using he
    rw [travel_cons]
    rcases List.mem_cons.mp ha with qa | qa <;> rcases List.mem_cons.mp hb with qb | qb
    · left
      subst qa qb
      have k := ih w e he' w (by simp) w (by simp)
      have t := abs_sub_le (f e) (f w) (f b)
      simp only [sub_self, abs_zero, zero_add] at k ⊢
      rcases k with k | k <;> linarith
    · left
      subst qa
      have k := ih w e he' b qb b qb
      have t := abs_sub_le (f b) (f w) (f a)
      simp only [sub_self, abs_zero, zero_add, add_zero] at k ⊢
      rcases k with k | k <;> linarith
    · right
      subst qb
      have k := ih w e he' a qa a qa
      have t := abs_sub_le (f a) (f w) (f b)
      have t' := abs_sub_comm (f b) (f a)
      simp only [sub_self, abs_zero, zero_add, add_zero] at k ⊢
      rcases k with k | k <;> linarith
    · rcases ih w e he' a qa b qb with k | k
      · left
        have t := abs_sub_le (f a) (f w) (f u)
        linarith
      · right
        have t := abs_sub_le (f b) (f w) (f u)
        linarith

theorem travel_line (f : Coord ℝ → ℝ) (l : List (Coord ℝ)) (a b : Coord ℝ) (ha : a ∈ l) (hb : b ∈ l) : |f b - f a| ≤ travel f l := by
  cases l with
  | nil => simp at ha
  | cons u l =>
    obtain ⟨e, he⟩ : ∃ e, (u :: l).getLast? = some e := ⟨_, List.getLast?_eq_some_getLast (by simp)⟩
    rcases travel_visits f l u e he a ha b hb with k | k
    · linarith [abs_nonneg (f a - f u), abs_nonneg (f e - f b)]
    · linarith [abs_nonneg (f b - f u), abs_nonneg (f e - f a)]

theorem travel_ring (f : Coord ℝ → ℝ) (l : List (Coord ℝ)) (hc : ∀ a b, l.head? = some a → l.getLast? = some b → f a = f b)
    (a b : Coord ℝ) (ha : a ∈ l) (hb : b ∈ l) : 2 * |f b - f a| ≤ travel f l := by
  cases l with
  | nil => simp at ha
  | cons u l =>
    obtain ⟨e, he⟩ : ∃ e, (u :: l).getLast? = some e := ⟨_, List.getLast?_eq_some_getLast (by simp)⟩
    have hue := hc u e rfl he
    rcases travel_visits f l u e he a ha b hb with k | k
    · rw [← hue] at k
      have t := abs_sub_le (f b) (f u) (f a)
      rw [abs_sub_comm (f b) (f u), abs_sub_comm (f u) (f a)] at t
      linarith
    · rw [← hue] at k
      have t := abs_sub_le (f b) (f u) (f a)
      linarith

theorem sqrt_travel (l : List (Coord ℝ)) : Real.sqrt (travel (fun c => c.x) l ^ 2 + travel (fun c => c.y) l ^ 2) ≤ lineLength l := by
  induction l with
  | nil => simp [travel, lineLength]
  | cons u l ih =>
    cases l with
    | nil => simp [travel, lineLength]
    | cons w l =>
      have e : lineLength (u :: w :: l) = Spec.dist u w + lineLength (w :: l) := by
        unfold lineLength; rw [segs_cons, List.map_cons, List.sum_cons]
      rw [travel_cons, travel_cons, e]
      set X := travel (fun c => c.x) (w :: l)
      set Y := travel (fun c => c.y) (w :: l)
      have X0 : 0 ≤ X := travel_nonneg _ _
      have Y0 : 0 ≤ Y := travel_nonneg _ _
      have t := Spec.dist_triangle (Coord.xy 0 0) (Coord.xy X Y) (Coord.xy (|w.x - u.x| + X) (|w.y - u.y| + Y))
      have e1 : Spec.dist (Coord.xy 0 0) (Coord.xy (|w.x - u.x| + X) (|w.y - u.y| + Y)) =
          Real.sqrt ((|w.x - u.x| + X) ^ 2 + (|w.y - u.y| + Y) ^ 2) := by
        unfold Spec.dist Coord.xy; congr 1; ring
      have e2 : Spec.dist (Coord.xy 0 0) (Coord.xy X Y) = Real.sqrt (X ^ 2 + Y ^ 2) := by
        unfold Spec.dist Coord.xy; congr 1; ring
      have e3 : Spec.dist (Coord.xy X Y) (Coord.xy (|w.x - u.x| + X) (|w.y - u.y| + Y)) = Spec.dist u w := by
        unfold Spec.dist Coord.xy
        congr 1
        have := sq_abs (w.x - u.x)
        have := sq_abs (w.y - u.y)
        dsimp only
        linarith
      rw [e1, e2, e3] at t
      linarith

theorem exists_least_of (f : Coord ℝ → ℝ) (l : List (Coord ℝ)) (h : l ≠ []) : ∃ a ∈ l, ∀ c ∈ l, f a ≤ f c := by
  induction l with
  | nil => exact absurd rfl h
  | cons u l ih =>
    by_cases hl : l = []
    · subst hl; exact ⟨u, by simp, by simp⟩
    · obtain ⟨a, ha, hm⟩ := ih hl
      rcases le_total (f u) (f a) with k | k
      · refine ⟨u, by simp, fun c hc => ?_⟩
        rcases List.mem_cons.mp hc with rfl | hc
        · exact le_refl _
        · exact k.trans (hm c hc)
      · refine ⟨a, by simp [ha], fun c hc => ?_⟩
        rcases List.mem_cons.mp hc with rfl | hc
        · exact k
        · exact hm c hc

theorem box_attained (l : List (Coord ℝ)) (h : l ≠ []) : ∃ a ∈ l, ∃ b ∈ l, ∃ c ∈ l, ∃ d ∈ l,
    CoordArrays.envelope l = ⟨a.x, b.x, c.y, d.y⟩ := by
  obtain ⟨a, ha, ha'⟩ := exists_least_of (fun c => c.x) l h
  obtain ⟨b, hb, hb'⟩ := exists_least_of (fun c => -c.x) l h
  obtain ⟨c, hc, hc'⟩ := exists_least_of (fun c => c.y) l h
  obtain ⟨d, hd, hd'⟩ := exists_least_of (fun c => -c.y) l h
  refine ⟨a, ha, b, hb, c, hc, d, hd, ?_⟩
  have bx := box_facts l
  have wf : (⟨a.x, b.x, c.y, d.y⟩ : Env ℝ).WF := by
    rw [wf_iff]; right; exact ⟨ha' b hb, hc' d hd⟩
  have k := (C59_envelope l (fun _ _ => ⟨rfl, rfl⟩)).2.2.2 h ⟨a.x, b.x, c.y, d.y⟩ wf (by
    intro v hv
    rw [Env.coversCoordinate, coversXY_exact]
    exact ⟨ha' b hb, ha' v hv, neg_le_neg_iff.mp (hb' v hv), hc' v hv, neg_le_neg_iff.mp (hd' v hv)⟩)
  have hx := (bx a ha).1.trans (bx a ha).2.1
  have k' : a.x ≤ (CoordArrays.envelope l).minx ∧ (CoordArrays.envelope l).maxx ≤ b.x ∧ c.y ≤ (CoordArrays.envelope l).miny ∧
      (CoordArrays.envelope l).maxy ≤ d.y := by
    have g := ((C05_covers_iff_subset _ _ wf (by rw [wf_iff]; right; exact ⟨hx, (bx a ha).2.2.1.trans (bx a ha).2.2.2⟩)).mp k).2.2
    have hy := (bx a ha).2.2.1.trans (bx a ha).2.2.2
    have g1 := g (CoordArrays.envelope l).minx (CoordArrays.envelope l).miny (by rw [coversXY_exact]; exact ⟨hx, le_refl _, hx, le_refl _, hy⟩)
    have g2 := g (CoordArrays.envelope l).maxx (CoordArrays.envelope l).maxy (by rw [coversXY_exact]; exact ⟨hx, hx, le_refl _, hy, le_refl _⟩)
    rw [coversXY_exact] at g1 g2
    exact ⟨g1.2.1, g2.2.2.1, g1.2.2.2.1, g2.2.2.2.2⟩
  have e1 := le_antisymm (bx a ha).1 k'.1
  have e2 := le_antisymm k'.2.1 (bx b hb).2.1
  have e3 := le_antisymm (bx c hc).2.2.1 k'.2.2.1
  have e4 := le_antisymm k'.2.2.2 (bx d hd).2.2.2
  rw [← e1, ← e2, ← e3, ← e4]

/-- C145: a line is at least as long as the diagonal of its box, a closed one at least twice as long. -/
theorem C145_diameter (dim m : Int) (l : List (Coord ℝ)) (h : l ≠ []) :
    ∃ L, Length.ofLine ⟨dim, m, l⟩ = .ok L ∧ (CoordArrays.envelope l).diameter ≤ L ∧
      (Closed2D l → 2 * (CoordArrays.envelope l).diameter ≤ L) := by
  refine ⟨lineLength l, C35_exact ⟨dim, m, l⟩, ?_⟩
  obtain ⟨a, ha, b, hb, c, hc, d, hd0, e⟩ := box_attained l h
  have hx : a.x ≤ b.x := by have := box_facts l a ha; rw [e] at this; exact this.2.1
  have hd : (CoordArrays.envelope l).diameter = Real.sqrt (|b.x - a.x| ^ 2 + |d.y - c.y| ^ 2) := by
    have hn : ¬ b.x < a.x := not_lt.mpr hx
    rw [e, sq_abs, sq_abs]
    simp [Env.diameter, Env.width, Env.height, Env.isNull, hn]
  rw [hd]
  refine ⟨le_trans (Real.sqrt_le_sqrt ?_) (sqrt_travel l), fun hcl => ?_⟩
  · exact add_le_add (pow_le_pow_left₀ (abs_nonneg _) (travel_line (fun c => c.x) l a b ha hb) 2)
      (pow_le_pow_left₀ (abs_nonneg _) (travel_line (fun c => c.y) l c d hc hd0) 2)
  · have e4 : 2 * Real.sqrt (|b.x - a.x| ^ 2 + |d.y - c.y| ^ 2) = Real.sqrt ((2 * |b.x - a.x|) ^ 2 + (2 * |d.y - c.y|) ^ 2) := by
      rw [show (2 * |b.x - a.x|) ^ 2 + (2 * |d.y - c.y|) ^ 2 = 2 ^ 2 * (|b.x - a.x| ^ 2 + |d.y - c.y| ^ 2) by ring,
        Real.sqrt_mul (by norm_num), Real.sqrt_sq (by norm_num)]
    rw [e4]
    refine le_trans (Real.sqrt_le_sqrt ?_) (sqrt_travel l)
    exact add_le_add (pow_le_pow_left₀ (by positivity) (travel_ring (fun c => c.x) l (fun u v hu hv => (hcl u v hu hv).1) a b ha hb) 2)
      (pow_le_pow_left₀ (by positivity) (travel_ring (fun c => c.y) l (fun u v hu hv => (hcl u v hu hv).2) c d hc hd0) 2)

end real

section doubles
variable {sq : ℚ → Val} {hy : ℚ → ℚ → Val}

/-- C145, doubles: on grids of 52 bits a point in or on a ring is covered by the computed box of the ring. -/
theorem C145_ring_doubles (g : ℤ) (h1 : -484 ≤ g) (h2 : g ≤ 400) (p : Coord ℚ) (r : List (Coord ℚ)) (hp : OnGrid g p)
    (hr : ∀ c ∈ r, OnGrid g c) (hc : Closed2D r)
    (h : PointLocation.isInRing (toB64 p : Coord (B64 sq hy)) (r.map toB64) = .ok true) :
    (CoordArrays.envelope (r.map (toB64 : Coord ℚ → Coord (B64 sq hy)))).coversCoordinate (toB64 p) = true := by
  have e : PointLocation.isInRing (toB64 p : Coord (B64 sq hy)) (r.map toB64) = PointLocation.isInRing p r := by
    lift r to List (GridPt g) using hr
    have e := (sim_grid (sq := sq) (hy := hy) g h1 h2).isInRing ⟨p, hp⟩ r
    rw [map_grid, e]
  rw [e] at h
  obtain ⟨⟨v1, m1, k1⟩, ⟨v2, m2, k2⟩⟩ := C143_inside 1 0 p r hc h
  obtain ⟨⟨v3, m3, k3⟩, ⟨v4, m4, k4⟩⟩ := C143_inside 0 1 p r hc h
  simp only [one_mul, zero_mul, add_zero, zero_add] at k1 k2 k3 k4
  have hnn : ∀ c ∈ r.map (toB64 : Coord ℚ → Coord (B64 sq hy)), c.NN := by
    intro c hc
    obtain ⟨c, -, rfl⟩ := List.mem_map.mp hc
    exact ⟨rfl, rfl⟩
  have cov : ∀ v ∈ r, _ := fun v hv => C02_covers_all (r.map (toB64 : Coord ℚ → Coord (B64 sq hy))) hnn (toB64 v) (List.mem_map_of_mem hv)
  have bx : (CoordArrays.envelope (r.map (toB64 : Coord ℚ → Coord (B64 sq hy)))).Box := (cov v1 m1).2.2.box (cov v1 m1).2.1
  have cv : ∀ v ∈ r, _ := fun v hv => (bx.coversXY_iff _ _).mp (cov v hv).1
  rw [Env.coversCoordinate, bx.coversXY_iff]
  have key : ∀ x y : ℚ, x ≤ y → FltOrd.key (Fl.fin x : B64 sq hy) ≤ FltOrd.key (Fl.fin y : B64 sq hy) := by
    intro x y hxy
    have : ((Fl.fin x : B64 sq hy) ≤. Fl.fin y) = true := decide_eq_true hxy
    exact ((FltOrd.le_iff _ _).mp this).2.2
  exact ⟨rfl, rfl, (cv v2 m2).2.2.1.trans (key _ _ k2), (key _ _ k1).trans (cv v1 m1).2.2.2.1,
    (cv v4 m4).2.2.2.2.1.trans (key _ _ k4), (key _ _ k3).trans (cv v3 m3).2.2.2.2.2⟩

end doubles

section examples

/-- A point in the dent of a ring is strictly inside its box but not in the ring; a point inside it has corners all around. -/
example : let r : List (Coord ℚ) := [Coord.xy 0 0, Coord.xy 4 0, Coord.xy 4 4, Coord.xy 2 1, Coord.xy 0 4, Coord.xy 0 0]
    CoordArrays.envelope r = ⟨0, 4, 0, 4⟩ ∧ PointLocation.locateInRing (Coord.xy 2 3) r = .ok Location.EXTERIOR ∧
      PointLocation.locateInRing (Coord.xy 3 1) r = .ok Location.INTERIOR ∧ (CoordArrays.envelope r).coversCoordinate (Coord.xy 5 1) = false := by
  decide +kernel

/-- Boxes may meet where the segments do not: the filter is one way. -/
example : (Env.newCoordinates (Coord.xy 0 0) (Coord.xy 4 4 : Coord ℚ)).intersects (Env.newCoordinates (Coord.xy 3 0) (Coord.xy 4 1)) = true ∧
    (Env.newCoordinates (Coord.xy 0 0) (Coord.xy 4 4 : Coord ℚ)).intersects (Env.newCoordinates (Coord.xy 5 0) (Coord.xy 6 1)) = false := by
  decide +kernel

/-- There and back along the diagonal: exactly twice its length. -/
noncomputable example : (CoordArrays.envelope ([Coord.xy 0 0, Coord.xy 3 4, Coord.xy 0 0] : List (Coord ℝ))).diameter = 5 ∧
    lineLength ([Coord.xy 0 0, Coord.xy 3 4, Coord.xy 0 0] : List (Coord ℝ)) = 10 := by
  have h5 : Real.sqrt (3 ^ 2 + 4 ^ 2) = 5 := by rw [show (3 : ℝ) ^ 2 + 4 ^ 2 = 5 ^ 2 by norm_num]; exact Real.sqrt_sq (by norm_num)
  constructor
  · have e : CoordArrays.envelope ([Coord.xy 0 0, Coord.xy 3 4, Coord.xy 0 0] : List (Coord ℝ)) = ⟨0, 3, 0, 4⟩ := by
      have n3 : ¬ (3 : ℝ) < 0 := by norm_num
      have n4 : ¬ (4 : ℝ) < 0 := by norm_num
      simp [CoordArrays.envelope, Env.expandToInclude, Env.isNull, Env.null, Coord.xy, n3, n4]
    rw [e]
    simp [Env.diameter, Env.width, Env.height, Env.isNull]
    norm_num at h5 ⊢
    exact h5
  · simp [lineLength, segs, Spec.dist, Coord.xy]
    norm_num at h5 ⊢
    linarith

end examples
end Verif.Props
