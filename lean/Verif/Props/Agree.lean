import Verif.Props.Walk
import Verif.Props.TriangleReal
import Verif.Props.Triangle64
import Verif.Props.CapRefine

set_option linter.unusedSectionVars false

/-! # C144: different ways of asking the same question -/

namespace Verif.Props
open Flt Verif.Spec Verif.Binary64

section exact
variable {K : Type} [Field K] [LinearOrder K] [IsStrictOrderedRing K]

/-- Between points with different locations there is a point of the line. -/
theorem line_between (p q : Coord K) (r : List (Coord K)) (hc : Closed2D r)
    (h : PointLocation.locateInRing p r ≠ PointLocation.locateInRing q r) : ∃ c, OnSegment c p q ∧ OnLine c r := by
  by_cases op : OnLine p r
  · exact ⟨p, (onSegment_end p p q).1 ⟨rfl, rfl⟩, op⟩
  by_cases oq : OnLine q r
  · exact ⟨q, (onSegment_end q p q).2 ⟨rfl, rfl⟩, oq⟩
  by_cases hv : ∀ v ∈ r, ¬ OnSegment v p q
  · rw [ne_eq, C143_walk p q r hc op oq hv] at h
    have hn : 0 < edgesMet p q r := by
      rcases Nat.eq_zero_or_pos (edgesMet p q r) with e | e
      · rw [e] at h; exact absurd Even.zero h
      · exact e
    obtain ⟨s, hs, hm⟩ := List.countP_pos_iff.mp hn
    simp only [decide_eq_true_eq] at hm
    obtain ⟨c, c1, c2⟩ := hm
    exact ⟨c, c1, s, hs, c2⟩
  · push Not at hv
    obtain ⟨v, hv, hs⟩ := hv
    refine ⟨v, hs, vertex_onLine r ?_ v hv⟩
    match r, hv with
    | [a], _ => exact absurd ((locate_same p q [a] hc op oq).mpr rfl) h
    | _ :: _ :: _, _ => simp

/-- C144: between two points with different locations there is a point on the boundary. -/
theorem C144_between (p q : Coord K) (r : List (Coord K)) (hc : Closed2D r)
    (h : PointLocation.locateInRing p r ≠ PointLocation.locateInRing q r) :
    ∃ c, OnSegment c p q ∧ PointLocation.isOnLine c r = .ok true ∧ PointLocation.locateInRing c r = .ok Location.BOUNDARY := by
  obtain ⟨c, c1, c2⟩ := line_between p q r hc h
  obtain ⟨b, b1, b2⟩ := C32_onLine c r
  rw [b2.mpr c2] at b1
  exact ⟨c, c1, b1, (C32_boundary c r hc).mp b1⟩

/-- The points of a triangle with corners not in line: inside or on a side. -/
theorem closedTriangle_iff (p a b c : Coord K) (h : det a b c ≠ 0) :
    InClosedTriangle p a b c ↔ InTriangle p a b c ∨ OnSegment p a b ∨ OnSegment p b c ∨ OnSegment p c a := by
  constructor
  · rintro ⟨s, t, u, s0, t0, u0, e, ex, ey⟩
    have es : s = 1 - t - u := by linarith
    have d1 : det a b p = u * det a b c := by unfold det; rw [ex, ey, es]; ring
    have d2 : det b c p = s * det a b c := by unfold det; rw [ex, ey, es]; ring
    have d3 : det c a p = t * det a b c := by unfold det; rw [ex, ey, es]; ring
    rcases u0.eq_or_lt with u0 | u0
    · right; left
      exact ⟨t, t0, by linarith, by rw [ex, es, ← u0]; ring, by rw [ey, es, ← u0]; ring⟩
    rcases s0.eq_or_lt with s0 | s0
    · right; right; left
      have et : t = 1 - u := by linarith
      exact ⟨u, u0.le, by linarith, by rw [ex, ← s0, et]; ring, by rw [ey, ← s0, et]; ring⟩
    rcases t0.eq_or_lt with t0 | t0
    · right; right; right
      have eu : u = 1 - s := by linarith
      exact ⟨s, s0.le, by linarith, by rw [ex, ← t0, eu]; ring, by rw [ey, ← t0, eu]; ring⟩
    left
    unfold InTriangle
    rw [d1, d2, d3]
    rcases lt_or_gt_of_ne h with h | h
    · right; exact ⟨mul_neg_of_pos_of_neg u0 h, mul_neg_of_pos_of_neg s0 h, mul_neg_of_pos_of_neg t0 h⟩
    · left; exact ⟨mul_pos u0 h, mul_pos s0 h, mul_pos t0 h⟩
  · rintro (hi | ⟨t, t0, t1, ex, ey⟩ | ⟨t, t0, t1, ex, ey⟩ | ⟨t, t0, t1, ex, ey⟩)
    · have hs : det b c p + det c a p + det a b p = det a b c := by unfold det; ring
      refine ⟨det b c p / det a b c, det c a p / det a b c, det a b p / det a b c, ?_, ?_, ?_, ?_, ?_, ?_⟩
      · rcases hi with hi | hi
        · exact div_nonneg hi.2.1.le (by linarith [hi.1, hi.2.1, hi.2.2])
        · exact div_nonneg_of_nonpos hi.2.1.le (by linarith [hi.1, hi.2.1, hi.2.2])
      · rcases hi with hi | hi
        · exact div_nonneg hi.2.2.le (by linarith [hi.1, hi.2.1, hi.2.2])
        · exact div_nonneg_of_nonpos hi.2.2.le (by linarith [hi.1, hi.2.1, hi.2.2])
      · rcases hi with hi | hi
        · exact div_nonneg hi.1.le (by linarith [hi.1, hi.2.1, hi.2.2])
        · exact div_nonneg_of_nonpos hi.1.le (by linarith [hi.1, hi.2.1, hi.2.2])
      · rw [← add_div, ← add_div, hs, div_self h]
      · rw [div_mul_eq_mul_div, div_mul_eq_mul_div, div_mul_eq_mul_div, ← add_div, ← add_div, eq_div_iff h]; unfold det; ring
      · rw [div_mul_eq_mul_div, div_mul_eq_mul_div, div_mul_eq_mul_div, ← add_div, ← add_div, eq_div_iff h]; unfold det; ring
    · exact ⟨1 - t, t, 0, by linarith, t0, le_refl 0, by ring, by rw [ex]; ring, by rw [ey]; ring⟩
    · exact ⟨0, 1 - t, t, le_refl 0, by linarith, t0, by ring, by rw [ex]; ring, by rw [ey]; ring⟩
    · exact ⟨t, 0, 1 - t, t0, le_refl 0, by linarith, by ring, by rw [ex]; ring, by rw [ey]; ring⟩

/-- C144: the triangle functions and the ring functions on the ring of its corners agree: the point test, the areas with and without
sign, and the direction. -/
theorem C144_triangle (a b c p : Coord K) :
    (det a b c ≠ 0 → (Triangle.intersects a b c p = true ↔ PointLocation.isInRing p [a, b, c, a] = .ok true) ∧
      (Triangle.intersects a b c p = false ↔ PointLocation.locateInRing p [a, b, c, a] = .ok Location.EXTERIOR)) ∧
    Area.ofRingSigned [a, b, c, a] = .ok (Triangle.signedArea a b c) ∧ Area.ofRing [a, b, c, a] = .ok (Triangle.area a b c) ∧
    Orientation.isCCW [a, b, c, a] = .ok (Triangle.isCCW a b c) ∧ Orientation.isCCWArea [a, b, c, a] = .ok (Triangle.isCCW a b c) := by
  have hc : Closed2D [a, b, c, a] := closed2D_closed [a, b, c]
  have hsh : shoelace [a, b, c, a] = det a b c := by simp [shoelace, segs, det]; ring
  have hccw : Orientation.isCCW [a, b, c, a] = .ok (Triangle.isCCW a b c) := by
    rw [C34_triangle]; congr 1; rw [Bool.eq_iff_iff, (C41_is_ccw a b c).1, decide_eq_true_eq]
  obtain ⟨s1, -, -, -, -, s6⟩ := C41_signed_area a b c
  refine ⟨fun h => ?_, ?_, ?_, hccw, ?_⟩
  · obtain ⟨loc, l1, l2, l3⟩ := C31_triangle p a b c
    have hiff := (C41_intersects a b c p h).trans (closedTriangle_iff p a b c h)
    have hext : ∃ m, PointLocation.locateInRing p [a, b, c, a] = .ok m ∧ (m = Location.BOUNDARY ∨ m = Location.INTERIOR ∨ m = Location.EXTERIOR) := by
      obtain ⟨m, m1, m2, m3, m4⟩ := C31_locate p _ hc
      refine ⟨m, m1, ?_⟩
      by_cases ho : OnLine p [a, b, c, a]
      · exact Or.inl (m2 ho)
      · rcases Nat.mod_two_eq_zero_or_one (crossings p [a, b, c, a]) with e | e
        · exact Or.inr (Or.inr (m4 ho e))
        · exact Or.inr (Or.inl (m3 ho e))
    obtain ⟨m, m1, m2⟩ := hext
    obtain rfl : loc = m := by rw [l1] at m1; exact Except.ok.inj m1
    have hne : Triangle.intersects a b c p = true ↔ loc ≠ Location.EXTERIOR := by
      rw [hiff]
      constructor
      · rintro hh rfl
        by_cases hs : OnSegment p a b ∨ OnSegment p b c ∨ OnSegment p c a
        · exact absurd (l2.mpr hs) (by decide)
        · exact absurd (l3.mpr ⟨hh.resolve_right hs, hs⟩) (by decide)
      · intro hh
        rcases m2 with e | e | e
        · exact Or.inr (l2.mp e)
        · exact Or.inl (l3.mp e).1
        · exact absurd e hh
    constructor
    · rw [hne]
      unfold PointLocation.isInRing
      rw [l1]
      simp [bind, Except.bind, pure, Except.pure]
    · rw [l1, Except.ok.injEq, ← Bool.not_eq_true, hne, not_not]
  · rw [(C33_shoelace _ hc).1, hsh, s1]
  · rw [(C33_shoelace _ hc).2, hsh, s6]
  · obtain ⟨k1, k2⟩ := C41_is_ccw a b c
    unfold Orientation.isCCWArea
    rw [(C33_shoelace _ hc).1, hsh]
    simp only [bind, Except.bind, pure, Except.pure, exact_lt, exact_lit]
    congr 1
    rw [Bool.eq_iff_iff, k1, decide_eq_true_eq]
    constructor <;> intro hh <;> simp at * <;> linarith

/-- C144: the signed area of a ring is the sum of the signed areas of the triangles that its edges make with any point. -/
theorem C144_fan (o : Coord K) (v : List (Coord K)) :
    Area.ofRingSigned (closed v) = .ok (((segs (closed v)).map (fun s => Triangle.signedArea o s.1 s.2)).sum) := by
  rw [(C33_shoelace _ (closed2D_closed v)).1]
  congr 1
  have key : ∀ (l : List (Coord K)) (a b : Coord K), l.head? = some a → l.getLast? = some b →
      ((segs l).map (fun s => Triangle.signedArea o s.1 s.2)).sum =
        -(shoelace l) / 2 - ((b.x - a.x) * o.y - (b.y - a.y) * o.x) / 2 := by
    intro l
    induction l with
    | nil => intro a b h; simp at h
    | cons u l ih =>
      intro a b ha hb
      cases l with
      | nil =>
        simp at ha hb
        subst ha hb
        simp [shoelace]
      | cons w l =>
        simp at ha
        subst ha
        have e := ih w b rfl (by simpa using hb)
        rw [segs_cons, List.map_cons, List.sum_cons, e]
        have e2 : shoelace (u :: w :: l) = (u.x * w.y - w.x * u.y) + shoelace (w :: l) := by
          unfold shoelace; rw [segs_cons, List.map_cons, List.sum_cons]
        rw [e2, (C41_signed_area o u w).1]
        unfold det
        ring
  cases v with
  | nil => simp [closed, shoelace]
  | cons a l =>
    have e := key (closed (a :: l)) a a rfl (by simp only [closed, List.take_succ_cons, List.take_zero]; exact List.getLast?_concat)
    rw [e]
    ring

end exact

section real

/-- C144: the distances are zero exactly where the tests for points in common say yes. -/
theorem C144_no_distance (li : LI ℝ) (p a b c d : Coord ℝ) (line : List (Coord ℝ)) (hl : 2 ≤ line.length) :
    ((li.compute4 a b c d).hasIntersection = true ↔ Distance.segmentToSegment a b c d = 0) ∧
    ((li.compute3 p a b).hasIntersection = true ↔ Distance.pointToSegment p a b = 0) ∧
    (PointLocation.isOnSegment p a b = true ↔ Distance.pointToSegment p a b = 0) ∧
    (PointLocation.isOnLine p line = .ok true ↔ Distance.pointToSegmentString p line = .ok 0) ∧
    (Closed2D line → (PointLocation.locateInRing p line = .ok Location.BOUNDARY ↔ Distance.pointToSegmentString p line = .ok 0)) := by
  have hz : ∀ u v : Coord ℝ, Spec.dist u v = 0 ↔ Same u v := by
    intro u v
    constructor
    · intro e
      have := dist_sq u v
      rw [e] at this
      constructor <;> nlinarith [sq_nonneg (u.x - v.x), sq_nonneg (u.y - v.y)]
    · rintro ⟨e1, e2⟩
      unfold Spec.dist; rw [e1, e2]; simp
  have onS : ∀ {u v : Coord ℝ} (x y : Coord ℝ), Same u v → (OnSegment u x y ↔ OnSegment v x y) := by
    rintro u v x y ⟨e1, e2⟩
    unfold OnSegment; rw [e1, e2]
  have hseg : Distance.pointToSegment p a b = 0 ↔ OnSegment p a b := by
    obtain ⟨⟨w, w1, w2⟩, hmin⟩ := C36_segment p a b
    constructor
    · intro e
      rw [e, hz] at w2
      exact (onS a b w2).mpr w1
    · intro e
      have k := hmin p e
      rw [(hz p p).mpr ⟨rfl, rfl⟩] at k
      rw [← w2] at k ⊢
      exact le_antisymm k (Spec.dist_nonneg _ _)
  have hchain : Distance.pointToSegmentString p line = .ok 0 ↔ OnLine p line := by
    have hne : line ≠ [] := by rintro rfl; simp at hl
    obtain ⟨x, x1, ⟨w, w1, w2⟩, hmin⟩ := C36_chain p line hne
    rw [x1, Except.ok.injEq]
    constructor
    · intro e
      rw [e, hz] at w2
      rcases w1 with ⟨v, v1, v2⟩ | ⟨s, s1, s2⟩
      · obtain ⟨s, s1, s2⟩ := vertex_onLine line hl v v1
        exact ⟨s, s1, (onS s.1 s.2 ⟨w2.1.trans v2.1, w2.2.trans v2.2⟩).mpr s2⟩
      · exact ⟨s, s1, (onS s.1 s.2 w2).mpr s2⟩
    · intro e
      have k := hmin p (Or.inr e)
      rw [(hz p p).mpr ⟨rfl, rfl⟩] at k
      rw [← w2] at k ⊢
      exact le_antisymm k (Spec.dist_nonneg _ _)
  have hon : PointLocation.isOnLine p line = .ok true ↔ OnLine p line := by
    obtain ⟨y, y1, y2⟩ := C32_onLine p line
    rw [y1, Except.ok.injEq, y2]
  refine ⟨?_, ?_, ?_, ?_, fun hc => ?_⟩
  · rw [C37_zero_iff]; exact (C38_none_iff_disjoint li a b c d).2
  · rw [hseg, ← (C38_point_segment li p a b).1]
    have k := C38_point_segment li p a b
    unfold LI.hasIntersection
    by_cases ho : OnSegment p a b
    · simp [k.1.mpr ho]
    · simp [k.2.1.mpr ho]
  · rw [hseg, C32_onSegment]
  · rw [hon, hchain]
  · rw [← C32_boundary p line hc, hon, hchain]

/-- C144: two points with different locations are at least as far from each other as both are from the ring. -/
theorem C144_apart (p q : Coord ℝ) (r : List (Coord ℝ)) (hc : Closed2D r)
    (h : PointLocation.locateInRing p r ≠ PointLocation.locateInRing q r) :
    ∃ d e, Distance.pointToSegmentString p r = .ok d ∧ Distance.pointToSegmentString q r = .ok e ∧ d + e ≤ p.distance q := by
  obtain ⟨c, ⟨t, t0, t1, ex, ey⟩, c2⟩ := line_between p q r hc h
  have hne : r ≠ [] := by rintro rfl; exact h rfl
  obtain ⟨d, d1, -, d3⟩ := C36_chain p r hne
  obtain ⟨e, e1, -, e3⟩ := C36_chain q r hne
  refine ⟨d, e, d1, e1, ?_⟩
  have f1 := d3 c (Or.inr c2)
  have f2 := e3 c (Or.inr c2)
  have g1 : Spec.dist p c = t * Spec.dist p q := by
    unfold Spec.dist
    rw [ex, ey, show (p.x - (p.x + t * (q.x - p.x))) ^ 2 + (p.y - (p.y + t * (q.y - p.y))) ^ 2 = t ^ 2 * ((p.x - q.x) ^ 2 + (p.y - q.y) ^ 2) by ring,
      Real.sqrt_mul (sq_nonneg t), Real.sqrt_sq t0]
  have g2 : Spec.dist q c = (1 - t) * Spec.dist p q := by
    unfold Spec.dist
    rw [ex, ey, show (q.x - (p.x + t * (q.x - p.x))) ^ 2 + (q.y - (p.y + t * (q.y - p.y))) ^ 2 =
      (1 - t) ^ 2 * ((p.x - q.x) ^ 2 + (p.y - q.y) ^ 2) by ring, Real.sqrt_mul (sq_nonneg _), Real.sqrt_sq (by linarith)]
  rw [distance_eq]
  linarith

/-- C144: nearer to a point than the ring is, all points have its location. -/
theorem C144_disc (p q : Coord ℝ) (r : List (Coord ℝ)) (hc : Closed2D r) (d : ℝ) (hd : Distance.pointToSegmentString p r = .ok d)
    (h : p.distance q < d) : PointLocation.locateInRing q r = PointLocation.locateInRing p r := by
  by_contra hn
  obtain ⟨d', e, h1, h2, h3⟩ := C144_apart p q r hc (fun x => hn x.symm)
  rw [h1] at hd
  have hd := Except.ok.inj hd
  have he : 0 ≤ e := by
    have hne : r ≠ [] := by rintro rfl; exact hn rfl
    obtain ⟨e', e1, ⟨w, -, w2⟩, -⟩ := C36_chain q r hne
    rw [h2] at e1
    rw [Except.ok.inj e1, ← w2]
    exact Spec.dist_nonneg _ _
  linarith

/-- C144: the ends of a segment at a distance from every edge have the same location. -/
theorem C144_segment (p q : Coord ℝ) (r : List (Coord ℝ)) (hc : Closed2D r)
    (h : ∀ s ∈ segs r, 0 < Distance.segmentToSegment p q s.1 s.2) :
    PointLocation.locateInRing p r = PointLocation.locateInRing q r := by
  by_contra hn
  obtain ⟨c, c1, s, hs, c2⟩ := line_between p q r hc hn
  exact absurd ((C37_zero_iff p q s.1 s.2).mpr ⟨c, c1, c2⟩) (h s hs).ne'

end real

section doubles
variable {sq : ℚ → Val} {hy : ℚ → ℚ → Val}

/-- C144, doubles: on grids of 52 bits, between two points with different locations there is a point of the ring. -/
theorem C144_between_doubles (g : ℤ) (h1 : -484 ≤ g) (h2 : g ≤ 400) (p q : Coord ℚ) (r : List (Coord ℚ)) (hp : OnGrid g p) (hq : OnGrid g q)
    (hr : ∀ c ∈ r, OnGrid g c) (hc : Closed2D r)
    (h : PointLocation.locateInRing (toB64 p : Coord (B64 sq hy)) (r.map toB64) ≠ PointLocation.locateInRing (toB64 q : Coord (B64 sq hy)) (r.map toB64)) :
    ∃ c, OnSegment c p q ∧ OnLine c r := by
  have e1 : ∀ w : Coord ℚ, OnGrid g w → PointLocation.locateInRing (toB64 w : Coord (B64 sq hy)) (r.map toB64) = PointLocation.locateInRing w r := by
    intro w hw
    lift r to List (GridPt g) using hr
    have e := (sim_grid (sq := sq) (hy := hy) g h1 h2).locate ⟨w, hw⟩ r
    rw [map_grid, e]
  rw [e1 p hp, e1 q hq] at h
  exact line_between p q r hc h

/-- C144, doubles: on grids of 52 bits the point test and the direction of a triangle agree with those of its ring. -/
theorem C144_triangle_doubles (g : ℤ) (h1 : -484 ≤ g) (h2 : g ≤ 400) (a b c p : Coord ℚ) (ha : OnGrid g a) (hb : OnGrid g b) (hc : OnGrid g c)
    (hp : OnGrid g p) :
    (det a b c ≠ 0 → (Triangle.intersects (toB64 a : Coord (B64 sq hy)) (toB64 b) (toB64 c) (toB64 p) = true ↔
      PointLocation.isInRing (toB64 p : Coord (B64 sq hy)) [toB64 a, toB64 b, toB64 c, toB64 a] = .ok true)) ∧
    Orientation.isCCW [(toB64 a : Coord (B64 sq hy)), toB64 b, toB64 c, toB64 a] =
      .ok (Triangle.isCCW (toB64 a : Coord (B64 sq hy)) (toB64 b) (toB64 c)) := by
  obtain ⟨k1, k2⟩ := C93_predicates (sq := sq) (hy := hy) h1 h2 ha hb hc hp
  constructor
  · intro h
    rw [k2 h, ← C41_intersects a b c p h, ((C144_triangle a b c p).1 h).1]
    have e := (sim_grid (sq := sq) (hy := hy) g h1 h2).isInRing ⟨p, hp⟩ [⟨a, ha⟩, ⟨b, hb⟩, ⟨c, hc⟩, ⟨a, ha⟩]
    simp only [List.map_cons, List.map_nil] at e
    rw [e]
  · rw [C66_isCCW_triangle g h1 h2 a b c ha hb hc]
    congr 1
    rw [Bool.eq_iff_iff, k1, decide_eq_true_eq]

end doubles

section examples

/-- From inside a pentagram to the outside. -/
example : PointLocation.locateInRing (Coord.xy 0 4) pentagram ≠ PointLocation.locateInRing (Coord.xy 1 (-8)) pentagram ∧ Closed2D pentagram := by
  refine ⟨by decide +kernel, ?_⟩
  intro u v h1 h2
  simp [pentagram] at h1 h2
  subst h1 h2
  simp

/-- The same in a triangle of real numbers: the disc around an inner point. -/
noncomputable example : PointLocation.locateInRing (Coord.xy 1 2 : Coord ℝ) [Coord.xy 0 0, Coord.xy 4 0, Coord.xy 0 4, Coord.xy 0 0] ≠
    PointLocation.locateInRing (Coord.xy 5 5 : Coord ℝ) [Coord.xy 0 0, Coord.xy 4 0, Coord.xy 0 4, Coord.xy 0 0] := by
  intro e
  have t := fun p : Coord ℝ => ((C144_triangle (Coord.xy 0 0) (Coord.xy 4 0) (Coord.xy 0 4) p).1 (by norm_num [det, Coord.xy])).2
  have h1 := (t (Coord.xy 5 5)).mp (by
    rw [← Bool.not_eq_true, C41_intersects _ _ _ _ (by norm_num [det, Coord.xy])]
    rintro ⟨a, b, c, a0, b0, c0, s, ex, ey⟩
    simp only [Coord.xy] at ex ey
    linarith)
  rw [← e] at h1
  have h2 := (t (Coord.xy 1 2)).mpr h1
  rw [← Bool.not_eq_true, C41_intersects _ _ _ _ (by norm_num [det, Coord.xy])] at h2
  exact h2 ⟨1 / 4, 1 / 4, 1 / 2, by norm_num, by norm_num, by norm_num, by norm_num, by norm_num [Coord.xy], by norm_num [Coord.xy]⟩

/-- Seen from a point outside, the area of a square is the sum of triangles of both signs. -/
example : Area.ofRingSigned (closed [Coord.xy 0 0, Coord.xy 2 0, Coord.xy 2 2, Coord.xy 0 2] : List (Coord ℚ)) = .ok (-4) ∧
    (segs (closed [Coord.xy 0 0, Coord.xy 2 0, Coord.xy 2 2, Coord.xy 0 2])).map (fun s => Triangle.signedArea (Coord.xy 5 1 : Coord ℚ) s.1 s.2) =
      [-1, 3, -1, -5] := by decide +kernel

/-- A chain of one point has no segment: at distance zero of it, yet not on the line. -/
example : Distance.pointToSegmentString (Coord.xy 1 1 : Coord ℝ) [Coord.xy 1 1] = .ok 0 ∧
    PointLocation.isOnLine (Coord.xy 1 1 : Coord ℝ) [Coord.xy 1 1] = .ok false := by
  constructor
  · rw [C36_chain_steps]
    simp [distance_eq, Spec.dist, Coord.xy]
  · obtain ⟨b, b1, b2⟩ := C32_onLine (Coord.xy 1 1 : Coord ℝ) [Coord.xy 1 1]
    rw [b1]
    congr 1
    rw [← Bool.not_eq_true, b2]
    simp [OnLine]

/-- For corners in line the two point tests differ (see also C41): a point far away on the line. -/
example : Triangle.intersects (Coord.xy 0 0) (Coord.xy 1 0) (Coord.xy 2 0) (Coord.xy 9 0 : Coord ℚ) = true ∧
    PointLocation.isInRing (Coord.xy 9 0 : Coord ℚ) [Coord.xy 0 0, Coord.xy 1 0, Coord.xy 2 0, Coord.xy 0 0] = .ok false := by decide +kernel

end examples
end Verif.Props
