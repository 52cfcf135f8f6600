import Verif.Props.Stable

set_option linter.unusedSectionVars false

/-! # C150: triangle inequalities for distances of points, segments, lines and boxes -/

namespace Verif.Props
open Flt Verif.Spec

/-- C150: a detour over a point is not shorter than the distance of two segments; nor is one along a third segment. -/
theorem C150_segments (p a b c d e f : Coord ℝ) :
    Distance.segmentToSegment a b c d ≤ Distance.pointToSegment p a b + Distance.pointToSegment p c d ∧
    Distance.segmentToSegment a b c d ≤ Distance.segmentToSegment a b e f + e.distance f + Distance.segmentToSegment e f c d := by
  obtain ⟨-, k⟩ := C37_segments a b c d
  constructor
  · obtain ⟨⟨u, hu, u1⟩, -⟩ := C36_segment p a b
    obtain ⟨⟨v, hv, v1⟩, -⟩ := C36_segment p c d
    rw [← u1, ← v1]
    refine (k u v hu hv).trans ?_
    rw [Spec.dist_comm p u]
    exact Spec.dist_triangle _ _ _
  · obtain ⟨⟨u, u', hu, hu', u1⟩, -⟩ := C37_segments a b e f
    obtain ⟨⟨v', v, hv', hv, v1⟩, -⟩ := C37_segments e f c d
    rw [← u1, ← v1, distance_real]
    have h1 : Spec.dist u' v' ≤ Spec.dist e f := by
      obtain ⟨s, s0, s1, sx, sy⟩ := hu'
      obtain ⟨t, t0, t1, tx, ty⟩ := hv'
      rcases le_total s t with st | st
      · rw [dist_scaled e f (t - s) (by linarith) u' v' (by rw [sx, tx]; ring) (by rw [sy, ty]; ring)]
        nlinarith [Spec.dist_nonneg e f]
      · rw [Spec.dist_comm, dist_scaled e f (s - t) (by linarith) v' u' (by rw [sx, tx]; ring) (by rw [sy, ty]; ring)]
        nlinarith [Spec.dist_nonneg e f]
    linarith [k u v hu hv, Spec.dist_triangle u u' v, Spec.dist_triangle u' v' v]

/-- C150: the distance to a line changes by at most the way between the points. -/
theorem C150_chain (p q : Coord ℝ) (l : List (Coord ℝ)) (h : l ≠ []) :
    ∃ d e, Distance.pointToSegmentString p l = .ok d ∧ Distance.pointToSegmentString q l = .ok e ∧ |d - e| ≤ p.distance q := by
  obtain ⟨d, d1, ⟨u, hu, d2⟩, d3⟩ := C36_chain p l h
  obtain ⟨e, e1, ⟨v, hv, e2⟩, e3⟩ := C36_chain q l h
  refine ⟨d, e, d1, e1, ?_⟩
  rw [distance_real, abs_le]
  constructor
  · have := e3 u hu
    have := Spec.dist_triangle q p u
    rw [Spec.dist_comm q p] at this
    linarith
  · have := d3 v hv
    have := Spec.dist_triangle p q v
    linarith

theorem along_line (a : Coord ℝ) (l : List (Coord ℝ)) : ∀ c, OnChain (a :: l) c → Spec.dist c a ≤ lineLength (a :: l) := by
  induction l generalizing a with
  | nil =>
    rintro c (⟨v, hv, ex⟩ | ⟨s, hs, -⟩)
    · simp only [List.mem_singleton] at hv
      subst hv
      rw [(Spec.dist_eq_zero c v).mpr ex]; simp [lineLength, segs]
    · simp [segs] at hs
  | cons b l ih =>
    have e : lineLength (a :: b :: l) = Spec.dist a b + lineLength (b :: l) := by
      unfold lineLength; rw [segs_cons, List.map_cons, List.sum_cons]
    have rest : ∀ c, OnChain (b :: l) c → Spec.dist c a ≤ lineLength (a :: b :: l) := by
      intro c hc
      rw [e]
      have := ih b c hc
      have := Spec.dist_triangle c b a
      rw [Spec.dist_comm b a] at this
      linarith
    have l0 := lineLength_nonneg (b :: l)
    rintro c (⟨v, hv, ex⟩ | ⟨s, hs, hc⟩)
    · rcases List.mem_cons.mp hv with rfl | hv
      · rw [(Spec.dist_eq_zero c v).mpr ex, e]
        linarith [Spec.dist_nonneg v b]
      · exact rest c (Or.inl ⟨v, hv, ex⟩)
    · rw [segs_cons] at hs
      rcases List.mem_cons.mp hs with rfl | hs
      · obtain ⟨t, t0, t1, tx, ty⟩ := hc
        simp only at tx ty
        rw [Spec.dist_comm, dist_scaled a b t t0 a c (by rw [tx]; ring) (by rw [ty]; ring), e]
        nlinarith [Spec.dist_nonneg a b]
      · exact rest c (Or.inr ⟨s, hs, hc⟩)

/-- C150: the first point of a line is at most as far away as the line and its length together, and at least as far as the line. -/
theorem C150_ends (p a : Coord ℝ) (l : List (Coord ℝ)) (dim m : Int) :
    ∃ d L, Distance.pointToSegmentString p (a :: l) = .ok d ∧ Length.ofLine ⟨dim, m, a :: l⟩ = .ok L ∧ d ≤ p.distance a ∧ p.distance a ≤ d + L := by
  obtain ⟨d, d1, ⟨u, hu, d2⟩, d3⟩ := C36_chain p (a :: l) (by simp)
  refine ⟨d, _, d1, C35_exact _, ?_, ?_⟩
  · rw [distance_real]; exact d3 a (Or.inl ⟨a, by simp, rfl, rfl⟩)
  · rw [distance_real, ← d2]
    have := along_line a l u hu
    have := Spec.dist_triangle p u a
    dsimp only
    linarith

/-- C150: distances of boxes: a detour over a third box, with its diameter, is not shorter. -/
theorem C150_boxes (e f g : Env ℝ) (he : e.WF) (hf : f.WF) (hg : g.WF) (ne : e.isNull = false) (nf : f.isNull = false) (ng : g.isNull = false) :
    e.distance g ≤ e.distance f + f.diameter + f.distance g := by
  obtain ⟨⟨x, y, u, v, k1, k2, k3⟩, -⟩ := C06_distance_is_minimum e f he hf ne nf
  obtain ⟨⟨u', v', x', y', j1, j2, j3⟩, -⟩ := C06_distance_is_minimum f g hf hg nf ng
  have k := (C06_distance_is_minimum e g he hg ne ng).2 x y x' y' k1 j2
  have d : ∀ a b c d : ℝ, Real.sqrt ((a - c) ^ 2 + (b - d) ^ 2) = Spec.dist (⟨a, b, 0, 0⟩ : Coord ℝ) ⟨c, d, 0, 0⟩ := fun _ _ _ _ => rfl
  rw [d] at k k3 j3
  have w : Spec.dist (⟨u, v, 0, 0⟩ : Coord ℝ) ⟨u', v', 0, 0⟩ ≤ f.diameter := by
    rw [coversXY_exact] at k2 j1
    have : f.diameter = Real.sqrt ((f.maxx - f.minx) ^ 2 + (f.maxy - f.miny) ^ 2) := by
      unfold Env.diameter
      rw [nf]
      simp [Env.width, Env.height, nf]
    rw [this]
    apply Real.sqrt_le_sqrt
    have hx : |u - u'| ≤ f.maxx - f.minx := by rw [abs_le]; constructor <;> linarith [k2.2.1, k2.2.2.1, j1.2.1, j1.2.2.1]
    have hy : |v - v'| ≤ f.maxy - f.miny := by rw [abs_le]; constructor <;> linarith [k2.2.2.2.1, k2.2.2.2.2, j1.2.2.2.1, j1.2.2.2.2]
    have := sq_le_sq' (by linarith [(abs_le.mp hx).1]) (abs_le.mp hx).2
    have := sq_le_sq' (by linarith [(abs_le.mp hy).1]) (abs_le.mp hy).2
    dsimp only
    linarith
  rw [k3, j3]
  have t1 := Spec.dist_triangle (⟨x, y, 0, 0⟩ : Coord ℝ) ⟨u, v, 0, 0⟩ ⟨x', y', 0, 0⟩
  have t2 := Spec.dist_triangle (⟨u, v, 0, 0⟩ : Coord ℝ) ⟨u', v', 0, 0⟩ ⟨x', y', 0, 0⟩
  linarith

/-- Three boxes in a row, the middle one 4 wide and 1 and 2 away from the others. -/
noncomputable example : (⟨0, 1, 0, 1⟩ : Env ℝ).distance ⟨8, 9, 0, 1⟩ ≤
    (⟨0, 1, 0, 1⟩ : Env ℝ).distance ⟨2, 6, 0, 1⟩ + (⟨2, 6, 0, 1⟩ : Env ℝ).diameter + (⟨2, 6, 0, 1⟩ : Env ℝ).distance ⟨8, 9, 0, 1⟩ := by
  apply C150_boxes
  · exact Or.inr ⟨by simp, by simp⟩
  · exact Or.inr ⟨by norm_num, by simp⟩
  · exact Or.inr ⟨by norm_num, by simp⟩
  all_goals norm_num [Env.isNull]

/-- A point between two walls. -/
noncomputable example : Distance.segmentToSegment (Coord.xy 0 0) (Coord.xy 0 4) (Coord.xy 3 0) (Coord.xy 3 (4 : ℝ)) ≤
    Distance.pointToSegment (Coord.xy 1 1) (Coord.xy 0 0) (Coord.xy 0 4) + Distance.pointToSegment (Coord.xy 1 1) (Coord.xy 3 0) (Coord.xy 3 (4 : ℝ)) :=
  (C150_segments _ _ _ _ _ (Coord.xy 0 0) (Coord.xy 0 0)).1

/-- A line and two points. -/
noncomputable example : ∃ d e, Distance.pointToSegmentString (Coord.xy 1 1) [Coord.xy 0 0, Coord.xy 4 0, Coord.xy 4 (4 : ℝ)] = .ok d ∧
    Distance.pointToSegmentString (Coord.xy 2 3) [Coord.xy 0 0, Coord.xy 4 0, Coord.xy 4 (4 : ℝ)] = .ok e ∧ |d - e| ≤ (Coord.xy 1 1 : Coord ℝ).distance (Coord.xy 2 3) :=
  C150_chain _ _ _ (by simp)

end Verif.Props
