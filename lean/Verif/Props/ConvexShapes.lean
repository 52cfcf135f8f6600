import Verif.Props.ConvexRings
import Verif.Props.Rectangle
import Verif.Props.Triangle
import Verif.Props.TriangleReal

set_option linter.unusedSectionVars false
set_option linter.unusedVariables false

/-! # C101: triangles and rectangles as convex rings -/

namespace Verif.Props
open Flt Verif.Spec Verif.Jordan
variable {K : Type} [Field K] [LinearOrder K] [IsStrictOrderedRing K]

/-! ## Triangles -/

theorem triangle_convex {a b c : Coord K} (h : 0 < det a b c) : StrictlyConvex [a, b, c] := by
  have h2 : 0 < det b c a := by have : det b c a = det a b c := by unfold det; ring
                                rwa [this]
  have h3 : 0 < det c a b := by have : det c a b = det a b c := by unfold det; ring
                                rwa [this]
  refine ⟨by simp, fun i j => ?_⟩
  rw [← corner_mod _ i, ← corner_succ_mod _ i, ← corner_mod _ j, ← Nat.mod_add_mod i _ 1]
  have hi := Nat.mod_lt i (show 0 < 3 by omega)
  have hj := Nat.mod_lt j (show 0 < 3 by omega)
  simp only [List.length_cons, List.length_nil, Nat.reduceAdd] at *
  generalize i % 3 = k at hi ⊢
  generalize j % 3 = l at hj ⊢
  interval_cases k <;> interval_cases l <;> simp [corner, h, h2, h3]

theorem triangle_sides (a b c q : Coord K) :
    (LeftOfAll q [a, b, c] ↔ 0 < det a b q ∧ 0 < det b c q ∧ 0 < det c a q) ∧
    (RightOfSome q [a, b, c] ↔ det a b q < 0 ∨ det b c q < 0 ∨ det c a q < 0) := by
  have red : ∀ i, corner [a, b, c] i = corner [a, b, c] (i % 3) ∧ corner [a, b, c] (i + 1) = corner [a, b, c] (i % 3 + 1) :=
    fun i => ⟨(corner_mod [a, b, c] i).symm, (corner_succ_mod [a, b, c] i).symm⟩
  have c3 : corner [a, b, c] (2 + 1) = a := by simp [corner]
  unfold LeftOfAll RightOfSome
  constructor
  · constructor
    · intro h
      have h2 := h 2
      rw [c3] at h2
      exact ⟨h 0, h 1, h2⟩
    · rintro ⟨h1, h2, h3⟩ i
      rw [(red i).1, (red i).2]
      have hi := Nat.mod_lt i (show 0 < 3 by omega)
      generalize i % 3 = k at hi ⊢
      interval_cases k
      · exact h1
      · exact h2
      · rw [c3]; exact h3
  · constructor
    · rintro ⟨i, h⟩
      rw [(red i).1, (red i).2] at h
      have hi := Nat.mod_lt i (show 0 < 3 by omega)
      generalize i % 3 = k at hi h
      interval_cases k
      · exact Or.inl h
      · exact Or.inr (Or.inl h)
      · rw [c3] at h; exact Or.inr (Or.inr h)
    · rintro (h | h | h)
      · exact ⟨0, h⟩
      · exact ⟨1, h⟩
      · exact ⟨2, by rw [c3]; exact h⟩

/-- The location in a triangle in either direction, by the signs of three determinants. -/
theorem triangle_location (a b c q : Coord K) (h : det a b c ≠ 0) :
    (PointLocation.locateInRing q [a, b, c, a] = .ok Location.INTERIOR ↔
      0 < det a b c * det a b q ∧ 0 < det a b c * det b c q ∧ 0 < det a b c * det c a q) ∧
    (PointLocation.locateInRing q [a, b, c, a] = .ok Location.EXTERIOR ↔
      det a b c * det a b q < 0 ∨ det a b c * det b c q < 0 ∨ det a b c * det c a q < 0) := by
  rcases lt_or_gt_of_ne h with h | h
  · have h' : 0 < det a c b := by have : det a c b = -det a b c := by unfold det; ring
                                  rw [this]; linarith
    obtain ⟨l1, l2, -, -, l5⟩ := C101_location _ (C101_strictly_convex _ (triangle_convex h')) q
    obtain ⟨s1, s2⟩ := triangle_sides a c b q
    have e : (closed [a, c, b]).reverse = [a, b, c, a] := by simp [closed]
    rw [e] at l5
    rw [l5, l1, l2, s1, s2, show det a c q = -det c a q by unfold det; ring, show det c b q = -det b c q by unfold det; ring,
      show det b a q = -det a b q by unfold det; ring]
    have n : ∀ x, 0 < det a b c * x ↔ x < 0 := fun x => ⟨fun hx => neg_of_mul_pos_right hx h.le, fun hx => mul_pos_of_neg_of_neg h hx⟩
    have m : ∀ x, det a b c * x < 0 ↔ 0 < x := fun x => ⟨fun hx => pos_of_mul_neg_right hx h.le, fun hx => mul_neg_of_neg_of_pos h hx⟩
    simp only [n, m, neg_pos, neg_lt_zero]
    exact ⟨⟨fun ⟨x, y, z⟩ => ⟨z, y, x⟩, fun ⟨x, y, z⟩ => ⟨z, y, x⟩⟩,
      fun h => h.elim (fun x => Or.inr (Or.inr x)) (fun h => h.elim (fun x => Or.inr (Or.inl x)) Or.inl),
      fun h => h.elim (fun x => Or.inr (Or.inr x)) (fun h => h.elim (fun x => Or.inr (Or.inl x)) Or.inl)⟩
  · obtain ⟨l1, l2, -⟩ := C101_location _ (C101_strictly_convex _ (triangle_convex h)) q
    obtain ⟨s1, s2⟩ := triangle_sides a b c q
    have e : closed [a, b, c] = [a, b, c, a] := by simp [closed]
    rw [e] at l1 l2
    rw [l1, l2, s1, s2]
    have n : ∀ x, 0 < det a b c * x ↔ 0 < x := fun x => mul_pos_iff_of_pos_left h
    have m : ∀ x, det a b c * x < 0 ↔ x < 0 := fun x => ⟨fun hx => neg_of_mul_neg_right hx h.le, fun hx => mul_neg_of_pos_of_neg h hx⟩
    simp only [n, m, and_self]

/-- C101: the triangle test agrees with the location in the ring of the triangle. -/
theorem C101_triangle_test (a b c q : Coord K) (h : det a b c ≠ 0) :
    Triangle.intersects a b c q = true ↔ PointLocation.locateInRing q [a, b, c, a] ≠ .ok Location.EXTERIOR := by
  rw [Ne, (triangle_location a b c q h).2]
  unfold Triangle.intersects
  have hc := (C41_is_ccw a b c).1
  simp only [C29_index_is_sign]
  rcases lt_or_gt_of_ne h with h | h
  · have n : ∀ x, det a b c * x < 0 ↔ 0 < x := fun x => ⟨fun hx => pos_of_mul_neg_right hx h.le, fun hx => mul_neg_of_neg_of_pos h hx⟩
    have : ¬ Triangle.isCCW a b c = true := by rw [hc]; exact not_lt.mpr h.le
    simp only [if_neg this, eq_comm (a := (1 : Int)), sgn_pos, n]
    split_ifs <;> simp_all
  · have n : ∀ x, det a b c * x < 0 ↔ x < 0 := fun x => ⟨fun hx => neg_of_mul_neg_right hx h.le, fun hx => mul_neg_of_pos_of_neg h hx⟩
    have : Triangle.isCCW a b c = true := by rw [hc]; exact h
    simp only [if_pos this, eq_comm (a := (-1 : Int)), sgn_neg_iff, n]
    split_ifs <;> simp_all

/-- C101: the centroid of a triangle is inside it. -/
theorem C101_triangle_centroid (a b c : Coord K) (h : det a b c ≠ 0) :
    PointLocation.locateInRing (Triangle.centroid a b c) [a, b, c, a] = .ok Location.INTERIOR := by
  rw [(triangle_location a b c _ h).1]
  have hx : (Triangle.centroid a b c).x = (a.x + b.x + c.x) / 3 := by simp [Triangle.centroid]
  have hy : (Triangle.centroid a b c).y = (a.y + b.y + c.y) / 3 := by simp [Triangle.centroid]
  have p : 0 < det a b c * det a b c := mul_self_pos.mpr h
  have e : ∀ u w : Coord K, det u w (Triangle.centroid a b c) = (det u w a + det u w b + det u w c) / 3 := by
    intro u w; unfold det; rw [hx, hy]; ring
  have z1 : det a b a = 0 ∧ det a b b = 0 := by unfold det; constructor <;> ring
  have z2 : det b c b = 0 ∧ det b c c = 0 := by unfold det; constructor <;> ring
  have z3 : det c a a = 0 ∧ det c a c = 0 := by unfold det; constructor <;> ring
  rw [e, e, e, z1.1, z1.2, z2.1, z2.2, z3.1, z3.2, show det b c a = det a b c by unfold det; ring, show det c a b = det a b c by unfold det; ring]
  refine ⟨?_, ?_, ?_⟩ <;> · have := div_pos p (show (0 : K) < 3 by norm_num); convert this using 1; ring

/-- Twice the determinant times the determinant of a side with a point at equal distances from the corners. -/
theorem equidistant_det {a b c o : Coord K} (e1 : sq2 o a = sq2 o c) (e2 : sq2 o b = sq2 o c) :
    2 * (det a b c * det a b o) =
      ((b.x - a.x) * (b.x - a.x) + (b.y - a.y) * (b.y - a.y)) * ((a.x - c.x) * (b.x - c.x) + (a.y - c.y) * (b.y - c.y)) := by
  unfold sq2 at e1 e2
  have f1 : 2 * ((o.x - c.x) * (a.x - c.x) + (o.y - c.y) * (a.y - c.y)) = (a.x - c.x) ^ 2 + (a.y - c.y) ^ 2 := by linear_combination -e1
  have f2 : 2 * ((o.x - c.x) * (b.x - c.x) + (o.y - c.y) * (b.y - c.y)) = (b.x - c.x) ^ 2 + (b.y - c.y) ^ 2 := by linear_combination -e2
  unfold det
  linear_combination ((b.x - a.x) * (a.x - c.x) + (b.y - a.y) * (a.y - c.y)) * f2 - ((b.x - a.x) * (b.x - c.x) + (b.y - a.y) * (b.y - c.y)) * f1

/-- C101: the circumcentre of a triangle is inside it exactly if the triangle is acute, outside exactly if an angle is obtuse, and on its boundary
exactly if it has a right angle. -/
theorem C101_circumcentre (a b c : Coord K) (h : det a b c ≠ 0) :
    (PointLocation.locateInRing (Triangle.circumcentre a b c) [a, b, c, a] = .ok Location.INTERIOR ↔ Triangle.isAcute a b c = true) ∧
    (PointLocation.locateInRing (Triangle.circumcentre a b c) [a, b, c, a] = .ok Location.EXTERIOR ↔
      Angle.isObtuse a b c = true ∨ Angle.isObtuse b c a = true ∨ Angle.isObtuse c a b = true) := by
  have h2 : det b c a ≠ 0 := by have : det b c a = det a b c := by unfold det; ring
                                rwa [this]
  have h3 : det c a b ≠ 0 := by have : det c a b = det a b c := by unfold det; ring
                                rwa [this]
  have hab : 0 < (b.x - a.x) * (b.x - a.x) + (b.y - a.y) * (b.y - a.y) :=
    sq_sum_pos (fun hc => h (by unfold det; rw [hc.1, hc.2]; ring))
  have hbc : 0 < (c.x - b.x) * (c.x - b.x) + (c.y - b.y) * (c.y - b.y) :=
    sq_sum_pos (fun hc => h2 (by unfold det; rw [hc.1, hc.2]; ring))
  have hca : 0 < (a.x - c.x) * (a.x - c.x) + (a.y - c.y) * (a.y - c.y) :=
    sq_sum_pos (fun hc => h3 (by unfold det; rw [hc.1, hc.2]; ring))
  obtain ⟨e1, e2⟩ := (C41_circumcentre a b c (Triangle.circumcentre a b c) h).mpr ⟨rfl, rfl⟩
  rw [(triangle_location a b c _ h).1, (triangle_location a b c _ h).2]
  generalize Triangle.circumcentre a b c = o at *
  have k1 := equidistant_det e1 e2
  have k2 := equidistant_det (a := b) (b := c) (c := a) (e2.trans e1.symm) e1.symm
  have k3 := equidistant_det (a := c) (b := a) (c := b) e2.symm (e1.trans e2.symm)
  rw [show det b c a = det a b c by unfold det; ring] at k2
  rw [show det c a b = det a b c by unfold det; ring] at k3
  have p : ∀ {x s d : K}, 2 * x = s * d → 0 < s → (0 < x ↔ 0 < d) ∧ (x < 0 ↔ d < 0) := by
    intro x s d hx hs
    constructor
    · rw [← mul_pos_iff_of_pos_left (show (0 : K) < 2 by norm_num) (b := x), hx, mul_pos_iff_of_pos_left hs]
    · constructor
      · intro hn; exact neg_of_mul_neg_right (by rw [← hx]; linarith) hs.le
      · intro hn; have := mul_neg_of_pos_of_neg hs hn; linarith
  rw [(p k1 hab).1, (p k2 hbc).1, (p k3 hca).1, (p k1 hab).2, (p k2 hbc).2, (p k3 hca).2]
  unfold Triangle.isAcute Angle.isAcute Angle.isObtuse
  simp only [exact_sub, exact_mul, exact_add, exact_lt, exact_lit, Rat.cast_zero, Bool.and_eq_true, decide_eq_true_eq]
  constructor
  · constructor
    · rintro ⟨x, y, z⟩; exact ⟨by linarith, by linarith, by linarith⟩
    · rintro ⟨x, y, z⟩; exact ⟨by linarith, by linarith, by linarith⟩
  · constructor
    · rintro (x | x | x)
      · exact Or.inr (Or.inl (by linarith))
      · exact Or.inr (Or.inr (by linarith))
      · exact Or.inl (by linarith)
    · rintro (x | x | x)
      · exact Or.inr (Or.inr (by linarith))
      · exact Or.inl (by linarith)
      · exact Or.inr (Or.inl (by linarith))

/-- C101: the incentre of a triangle is inside it. -/
theorem C101_in_centre (a b c : Coord ℝ) (h : det a b c ≠ 0) :
    PointLocation.locateInRing (Triangle.inCentre a b c) [a, b, c, a] = .ok Location.INTERIOR := by
  obtain ⟨i1, i2, i3, i4⟩ := C41_in_centre a b c h
  have ne := (C101_triangle_test a b c _ h).mp ((C41_intersects a b c _ h).mpr i1)
  rw [Ne, (triangle_location a b c _ h).2] at ne
  push Not at ne
  have pos : 0 < 2 * Triangle.area a b c / Triangle.length a b c := by
    obtain ⟨h1, h2, h3⟩ := sides_pos a b c h
    rw [(C41_signed_area a b c).2.2.2.2.2, (C41_sides a b c).1]
    have := abs_pos.mpr h
    positivity
  have nz : ∀ {x s : ℝ}, |x| / s = 2 * Triangle.area a b c / Triangle.length a b c → x ≠ 0 := by
    rintro x s hx rfl
    rw [abs_zero, zero_div] at hx
    linarith
  rw [(triangle_location a b c _ h).1]
  exact ⟨lt_of_le_of_ne ne.1 (mul_ne_zero h (nz i2)).symm, lt_of_le_of_ne ne.2.1 (mul_ne_zero h (nz i3)).symm,
    lt_of_le_of_ne ne.2.2 (mul_ne_zero h (nz i4)).symm⟩

/-! ## Rectangles -/

theorem quad_sides (a b c d q : Coord K) :
    (LeftOfAll q [a, b, c, d] ↔ 0 < det a b q ∧ 0 < det b c q ∧ 0 < det c d q ∧ 0 < det d a q) ∧
    (RightOfSome q [a, b, c, d] ↔ det a b q < 0 ∨ det b c q < 0 ∨ det c d q < 0 ∨ det d a q < 0) := by
  have red : ∀ i, corner [a, b, c, d] i = corner [a, b, c, d] (i % 4) ∧ corner [a, b, c, d] (i + 1) = corner [a, b, c, d] (i % 4 + 1) :=
    fun i => ⟨(corner_mod [a, b, c, d] i).symm, (corner_succ_mod [a, b, c, d] i).symm⟩
  have c3 : corner [a, b, c, d] (3 + 1) = a := by simp [corner]
  unfold LeftOfAll RightOfSome
  constructor
  · constructor
    · intro h
      have h3 := h 3
      rw [c3] at h3
      exact ⟨h 0, h 1, h 2, h3⟩
    · rintro ⟨h1, h2, h3, h4⟩ i
      rw [(red i).1, (red i).2]
      have hi := Nat.mod_lt i (show 0 < 4 by omega)
      generalize i % 4 = k at hi ⊢
      interval_cases k
      · exact h1
      · exact h2
      · exact h3
      · rw [c3]; exact h4
  · constructor
    · rintro ⟨i, h⟩
      rw [(red i).1, (red i).2] at h
      have hi := Nat.mod_lt i (show 0 < 4 by omega)
      generalize i % 4 = k at hi h
      interval_cases k
      · exact Or.inl h
      · exact Or.inr (Or.inl h)
      · exact Or.inr (Or.inr (Or.inl h))
      · rw [c3] at h; exact Or.inr (Or.inr (Or.inr h))
    · rintro (h | h | h | h)
      · exact ⟨0, h⟩
      · exact ⟨1, h⟩
      · exact ⟨2, h⟩
      · exact ⟨3, by rw [c3]; exact h⟩

/-- Corners `a b c d` of a rectangle with `a b` level, counterclockwise. -/
theorem rect_convex {a b c d : Coord K} (h1 : b.y = a.y) (h2 : b.x = c.x) (h3 : d.y = c.y) (h4 : d.x = a.x) (hp : 0 < (c.x - a.x) * (c.y - a.y)) :
    StrictlyConvex [a, b, c, d] := by
  refine ⟨by simp, fun i j => ?_⟩
  rw [← corner_mod _ i, ← corner_succ_mod _ i, ← corner_mod _ j, ← Nat.mod_add_mod i _ 1]
  have hi := Nat.mod_lt i (show 0 < 4 by omega)
  have hj := Nat.mod_lt j (show 0 < 4 by omega)
  simp only [List.length_cons, List.length_nil, Nat.reduceAdd] at *
  generalize i % 4 = k at hi ⊢
  generalize j % 4 = l at hj ⊢
  have e : ∀ {x : K}, x = (c.x - a.x) * (c.y - a.y) → 0 < x := fun h => h ▸ hp
  interval_cases k <;> interval_cases l <;> simp [corner] <;> exact e (by unfold det; simp only [h1, h2, h3, h4]; ring)

theorem span_signs {p a c v : K} (h : 0 < v * (c - a)) :
    (0 < v * (c - p) ∧ 0 < v * (p - a) ↔ (p - a) * (p - c) < 0) ∧ (v * (c - p) < 0 ∨ v * (p - a) < 0 ↔ 0 < (p - a) * (p - c)) := by
  rcases mul_pos_iff.mp h with ⟨hv, hc⟩ | ⟨hv, hc⟩
  · simp only [mul_pos_iff, mul_neg_iff, hv, not_lt.mpr hv.le, true_and, false_and, or_false, false_or]
    constructor <;> constructor <;> intro hh <;> grind
  · simp only [mul_pos_iff, mul_neg_iff, hv, not_lt.mpr hv.le, true_and, false_and, or_false, false_or]
    constructor <;> constructor <;> intro hh <;> grind

theorem rect_location {a b c d : Coord K} (h1 : b.y = a.y) (h2 : b.x = c.x) (h3 : d.y = c.y) (h4 : d.x = a.x)
    (hx : a.x ≠ c.x) (hy : a.y ≠ c.y) (q : Coord K) :
    (PointLocation.locateInRing q [a, b, c, d, a] = .ok Location.INTERIOR ↔ (q.x - a.x) * (q.x - c.x) < 0 ∧ (q.y - a.y) * (q.y - c.y) < 0) ∧
    (PointLocation.locateInRing q [a, b, c, d, a] = .ok Location.EXTERIOR ↔ 0 < (q.x - a.x) * (q.x - c.x) ∨ 0 < (q.y - a.y) * (q.y - c.y)) ∧
    PointLocation.locateInRing q [a, d, c, b, a] = PointLocation.locateInRing q [a, b, c, d, a] := by
  have rev : PointLocation.locateInRing q [a, d, c, b, a] = PointLocation.locateInRing q [a, b, c, d, a] := by
    have := C31_reverse q (closed [a, b, c, d]) (closed2D_closed _)
    simpa [closed] using this
  have main : ∀ {a b c d : Coord K}, b.y = a.y → b.x = c.x → d.y = c.y → d.x = a.x → 0 < (c.x - a.x) * (c.y - a.y) →
      (PointLocation.locateInRing q [a, b, c, d, a] = .ok Location.INTERIOR ↔ (q.x - a.x) * (q.x - c.x) < 0 ∧ (q.y - a.y) * (q.y - c.y) < 0) ∧
      (PointLocation.locateInRing q [a, b, c, d, a] = .ok Location.EXTERIOR ↔ 0 < (q.x - a.x) * (q.x - c.x) ∨ 0 < (q.y - a.y) * (q.y - c.y)) := by
    intro a b c d h1 h2 h3 h4 hp
    obtain ⟨l1, l2, -⟩ := C101_location _ (C101_strictly_convex _ (rect_convex h1 h2 h3 h4 hp)) q
    obtain ⟨s1, s2⟩ := quad_sides a b c d q
    rw [show closed [a, b, c, d] = [a, b, c, d, a] by simp [closed]] at l1 l2
    rw [l1, l2, s1, s2]
    have e1 : det a b q = (c.x - a.x) * (q.y - a.y) := by unfold det; rw [h1, h2]; ring
    have e2 : det b c q = (c.y - a.y) * (c.x - q.x) := by unfold det; rw [h1, h2]; ring
    have e3 : det c d q = (c.x - a.x) * (c.y - q.y) := by unfold det; rw [h3, h4]; ring
    have e4 : det d a q = (c.y - a.y) * (q.x - a.x) := by unfold det; rw [h3, h4]; ring
    rw [e1, e2, e3, e4]
    obtain ⟨x1, x2⟩ := span_signs (p := q.x) (show 0 < (c.y - a.y) * (c.x - a.x) by rw [mul_comm]; exact hp)
    obtain ⟨y1, y2⟩ := span_signs (p := q.y) hp
    rw [← x1, ← x2, ← y1, ← y2]
    exact ⟨⟨fun ⟨p1, p2, p3, p4⟩ => ⟨⟨p2, p4⟩, p3, p1⟩, fun ⟨⟨p2, p4⟩, p3, p1⟩ => ⟨p1, p2, p3, p4⟩⟩,
      fun hh => hh.elim (fun k => Or.inr (Or.inr k)) (fun hh => hh.elim (fun k => Or.inl (Or.inl k)) (fun hh => hh.elim (fun k => Or.inr (Or.inl k)) (fun k => Or.inl (Or.inr k)))),
      fun hh => hh.elim (fun hh => hh.elim (fun k => Or.inr (Or.inl k)) (fun k => Or.inr (Or.inr (Or.inr k)))) (fun hh => hh.elim (fun k => Or.inr (Or.inr (Or.inl k))) Or.inl)⟩
  rcases lt_or_gt_of_ne (mul_ne_zero (sub_ne_zero.mpr hx.symm) (sub_ne_zero.mpr hy.symm)) with hp | hp
  · -- clockwise: start at the next corner of the reversed ring
    have hp' : 0 < (d.x - b.x) * (d.y - b.y) := by rw [h1, h2, h3, h4]; linarith
    obtain ⟨m1, m2⟩ := main (a := b) (b := a) (c := d) (d := c) h1.symm h4.symm h3.symm h2.symm hp'
    have rot : PointLocation.locateInRing q [b, a, d, c, b] = PointLocation.locateInRing q [a, b, c, d, a] := by
      have r1 := C31_rotate q [a, d, c, b] 3
      have r2 : closed ([a, d, c, b].rotate 3) = [b, a, d, c, b] := by simp [closed, List.rotate]
      have r3 : closed [a, d, c, b] = [a, d, c, b, a] := by simp [closed]
      rw [r2, r3] at r1
      rw [r1, rev]
    rw [rot] at m1 m2
    rw [m1, m2, h1, h2, h3, h4, mul_comm (q.x - c.x)]
    exact ⟨Iff.rfl, Iff.rfl, rev⟩
  · obtain ⟨m1, m2⟩ := main h1 h2 h3 h4 hp
    exact ⟨m1, m2, rev⟩

/-- The location depends on the places only, here of the last point. -/
theorem locate_last (q a b c d e : Coord K) (h : SamePlace e a) :
    PointLocation.locateInRing q [a, b, c, d, e] = PointLocation.locateInRing q [a, b, c, d, a] := by
  refine locate_congr q _ _ ?_ ?_ ?_ ?_
  · intro u w h1 h2
    simp at h1 h2
    subst h1 h2
    exact ⟨h.1.symm, h.2.symm⟩
  · intro u w h1 h2
    simp at h1 h2
    subst h1 h2
    exact ⟨rfl, rfl⟩
  · unfold OnLine
    simp only [segs, List.tail_cons, List.zip_cons_cons, List.zip_nil_right, List.mem_cons, List.not_mem_nil, or_false, exists_eq_or_imp, exists_eq_left,
      OnSegment, h.1, h.2]
  · obtain ⟨ax, ay, az, am⟩ := a
    obtain ⟨ex, ey, ez, em⟩ := e
    obtain ⟨e1, e2⟩ := h
    dsimp only at e1 e2
    subst e1 e2
    unfold crossings
    simp only [segs, List.tail_cons, List.zip_cons_cons, List.zip_nil_right, List.countP_cons]
    rfl

/-- C101: a polygon that passes the rectangle test, with closed shell and without repeated corners: the location of a point in its shell is its
location in the envelope, and the area of the shell is that of the envelope. -/
theorem C101_rectangle (p : Polygon K) (h : p.isRectangle = .ok true) (a b c d e : Coord K) (hs : p.shell.points.coordinates = [a, b, c, d, e])
    (hc : SamePlace e a) (h1 : ¬ SamePlace a c) (h2 : ¬ SamePlace b d) (q : Coord K) :
    (PointLocation.locateInRing q p.shell.points.coordinates = .ok Location.EXTERIOR ↔ (envOf p.shell.points.coordinates).coversCoordinate q = false) ∧
    (PointLocation.locateInRing q p.shell.points.coordinates = .ok Location.INTERIOR ↔
      (envOf p.shell.points.coordinates).minx < q.x ∧ q.x < (envOf p.shell.points.coordinates).maxx ∧
      (envOf p.shell.points.coordinates).miny < q.y ∧ q.y < (envOf p.shell.points.coordinates).maxy) ∧
    Area.ofRing p.shell.points.coordinates = .ok (envOf p.shell.points.coordinates).area := by
  have nn : ∀ v ∈ [a, b, c, d, e], v.NN := fun v _ => ⟨rfl, rfl⟩
  have sound := C56_sound p a b c d h e hs nn ((equals2D_iff e a).mpr hc)
    ((Bool.not_eq_true _).mp (fun k => h1 ((equals2D_iff a c).mp k))) ((Bool.not_eq_true _).mp (fun k => h2 ((equals2D_iff b d).mp k)))
  obtain ⟨r, k1, k2⟩ := C56_rectangle p
  rw [h] at k1
  injection k1 with k1
  obtain ⟨-, a', b', c', d', e', k3, k4, -⟩ := k2.mp k1.symm
  rw [hs] at k3
  simp only [List.cons.injEq, and_true] at k3
  obtain ⟨rfl, rfl, rfl, rfl, rfl⟩ := k3
  rw [hs]
  have cov := fun v hv => (C02_covers_all [a, b, c, d, e] nn v hv).1
  have null := (C02_covers_all [a, b, c, d, e] nn a (by simp)).2.1
  generalize envOf [a, b, c, d, e] = E at *
  have ca := cov a (by simp)
  have cc := cov c (by simp)
  have ka := k4 a (by simp)
  have kc := k4 c (by simp)
  unfold IsCorner at ka kc
  unfold Env.coversCoordinate Env.coversXY at ca cc
  unfold Env.area Env.width Env.height Env.coversCoordinate Env.coversXY
  simp only [null, exact_le, exact_eq, exact_sub, exact_mul, Bool.false_eq_true, if_false, Bool.and_eq_true, decide_eq_true_eq] at ca cc ka kc ⊢
  change a.x = b.x ∧ b.y = c.y ∧ c.x = d.x ∧ d.y = a.y ∧ a.x ≠ c.x ∧ a.y ≠ c.y ∨ a.y = b.y ∧ b.x = c.x ∧ c.y = d.y ∧ d.x = a.x ∧ a.x ≠ c.x ∧ a.y ≠ c.y at sound
  have hx : a.x ≠ c.x := by rcases sound with h | h <;> exact h.2.2.2.2.1
  have hy : a.y ≠ c.y := by rcases sound with h | h <;> exact h.2.2.2.2.2
  have ex : E.minx < E.maxx ∧ ∀ u, (u - a.x) * (u - c.x) = (u - E.minx) * (u - E.maxx) := by
    obtain ⟨⟨⟨a1, a2⟩, a3⟩, a4⟩ := ca
    rcases ka.1 with k | k <;> rcases kc.1 with l | l
    · exact absurd (k.trans l.symm) hx
    · exact ⟨lt_of_le_of_ne (a1.trans a2) (by rw [← k, ← l]; exact hx), fun u => by rw [k, l]⟩
    · exact ⟨lt_of_le_of_ne (a1.trans a2) (by rw [← k, ← l]; exact hx.symm), fun u => by rw [k, l]; ring⟩
    · exact absurd (k.trans l.symm) hx
  have ey : E.miny < E.maxy ∧ ∀ u, (u - a.y) * (u - c.y) = (u - E.miny) * (u - E.maxy) := by
    obtain ⟨⟨⟨a1, a2⟩, a3⟩, a4⟩ := ca
    rcases ka.2 with k | k <;> rcases kc.2 with l | l
    · exact absurd (k.trans l.symm) hy
    · exact ⟨lt_of_le_of_ne (a3.trans a4) (by rw [← k, ← l]; exact hy), fun u => by rw [k, l]⟩
    · exact ⟨lt_of_le_of_ne (a3.trans a4) (by rw [← k, ← l]; exact hy.symm), fun u => by rw [k, l]; ring⟩
    · exact absurd (k.trans l.symm) hy
  have loc : (PointLocation.locateInRing q [a, b, c, d, a] = .ok Location.INTERIOR ↔ (q.x - a.x) * (q.x - c.x) < 0 ∧ (q.y - a.y) * (q.y - c.y) < 0) ∧
      (PointLocation.locateInRing q [a, b, c, d, a] = .ok Location.EXTERIOR ↔ 0 < (q.x - a.x) * (q.x - c.x) ∨ 0 < (q.y - a.y) * (q.y - c.y)) := by
    rcases sound with ⟨s1, s2, s3, s4, -⟩ | ⟨s1, s2, s3, s4, -⟩
    · obtain ⟨m1, m2, m3⟩ := rect_location (a := a) (b := d) (c := c) (d := b) s4 s3.symm s2 s1.symm hx hy q
      rw [m3]
      exact ⟨m1, m2⟩
    · obtain ⟨m1, m2, -⟩ := rect_location (a := a) (b := b) (c := c) (d := d) s1.symm s2 s3.symm s4 hx hy q
      exact ⟨m1, m2⟩
  rw [locate_last q a b c d e hc, loc.1, loc.2, ex.2, ey.2]
  have sx := span_signs (p := q.x) (a := E.minx) (c := E.maxx) (v := 1) (by rw [one_mul, sub_pos]; exact ex.1)
  have sy := span_signs (p := q.y) (a := E.miny) (c := E.maxy) (v := 1) (by rw [one_mul, sub_pos]; exact ey.1)
  simp only [one_mul, sub_pos, sub_neg] at sx sy
  rw [← sx.1, ← sx.2, ← sy.1, ← sy.2]
  refine ⟨?_, ⟨fun ⟨⟨p1, p2⟩, p3, p4⟩ => ⟨p2, p1, p4, p3⟩, fun ⟨p2, p1, p4, p3⟩ => ⟨⟨p1, p2⟩, p3, p4⟩⟩, ?_⟩
  · rw [← Bool.not_eq_true, Bool.and_eq_true, Bool.and_eq_true, Bool.and_eq_true, decide_eq_true_iff, decide_eq_true_iff, decide_eq_true_iff,
      decide_eq_true_iff]
    grind
  · rw [(C33_shoelace [a, b, c, d, e] ?_).2]
    · have wx : |c.x - a.x| = E.maxx - E.minx := by
        rcases ka.1 with k | k <;> rcases kc.1 with l | l
        · exact absurd (k.trans l.symm) hx
        · rw [k, l, abs_of_pos (sub_pos.mpr ex.1)]
        · rw [k, l, abs_sub_comm, abs_of_pos (sub_pos.mpr ex.1)]
        · exact absurd (k.trans l.symm) hx
      have wy : |c.y - a.y| = E.maxy - E.miny := by
        rcases ka.2 with k | k <;> rcases kc.2 with l | l
        · exact absurd (k.trans l.symm) hy
        · rw [k, l, abs_of_pos (sub_pos.mpr ey.1)]
        · rw [k, l, abs_sub_comm, abs_of_pos (sub_pos.mpr ey.1)]
        · exact absurd (k.trans l.symm) hy
      rw [← wx, ← wy, ← abs_mul]
      have t : shoelace [a, b, c, d, e] = 2 * ((c.x - a.x) * (c.y - a.y)) ∨ shoelace [a, b, c, d, e] = -(2 * ((c.x - a.x) * (c.y - a.y))) := by
        unfold shoelace
        simp only [segs, List.tail_cons, List.zip_cons_cons, List.zip_nil_right, List.map_cons, List.map_nil, List.sum_cons, List.sum_nil, hc.1, hc.2]
        rcases sound with ⟨s1, s2, s3, s4, -⟩ | ⟨s1, s2, s3, s4, -⟩
        · right; rw [← s1, s2, ← s3, s4]; ring
        · left; rw [← s1, s2, ← s3, s4]; ring
      congr 1
      rcases t with t | t
      · rw [t, abs_mul, abs_two]; ring
      · rw [t, abs_neg, abs_mul, abs_two]; ring
    · intro u w h1 h2
      simp at h1 h2
      subst h1 h2
      exact ⟨hc.1.symm, hc.2.symm⟩

/-! ## The hypotheses are met -/

section Examples

local notation "pt" => fun (x y : ℚ) => (Coord.xy x y : Coord ℚ)

theorem strictlyConvex_of (v : List (Coord K)) (h : 3 ≤ v.length ∧ ∀ i < v.length, ∀ j < v.length, j ≠ i → j ≠ (i + 1) % v.length →
    0 < det (corner v i) (corner v (i + 1)) (corner v j)) : StrictlyConvex v := by
  refine ⟨h.1, fun i j hi hj => ?_⟩
  have hn : 0 < v.length := by omega
  have := h.2 (i % v.length) (Nat.mod_lt _ hn) (j % v.length) (Nat.mod_lt _ hn) hi (by rw [Nat.mod_add_mod]; exact hj)
  rwa [corner_mod, corner_succ_mod, corner_mod] at this

/-- A convex ring with a corner on an edge. -/
example : ConvexRing [pt 0 0, pt 1 0, pt 2 0, pt 0 2] ∧ ¬ StrictlyConvex [pt 0 0, pt 1 0, pt 2 0, pt 0 2] := by
  refine ⟨⟨⟨by decide, ?_, ?_⟩, ?_⟩, ?_⟩
  · intro i
    rw [← corner_mod _ i, ← corner_succ_mod _ i]
    have hi := Nat.mod_lt i (show 0 < 4 by omega)
    simp only [List.length_cons, List.length_nil]
    generalize i % 4 = k at hi ⊢
    unfold SamePlace
    interval_cases k <;> simp [corner, Coord.xy]
  · intro i j hi hj hij s h1 h2
    have flat : ∀ {s : Coord ℚ}, OnSegment s (pt 0 0) (pt 1 0) → OnSegment s (pt 1 0) (pt 2 0) → SamePlace s (pt 1 0) := by
      rintro s ⟨t, t0, t1, tx, ty⟩ ⟨u, u0, u1, ux, uy⟩
      simp only [Coord.xy] at tx ty ux uy
      exact ⟨by simp only [Coord.xy]; linarith, by simp only [Coord.xy]; linarith⟩
    simp only [List.length_cons, List.length_nil] at hi hj
    interval_cases i <;> interval_cases j <;> first | exact absurd rfl hij | skip
    · exact Or.inl ⟨rfl, flat h1 h2⟩
    · exact (apart_of_side (by decide +kernel) h2 h1).elim
    · exact Or.inr ⟨rfl, joint_of_turn (by decide +kernel) h2 h1⟩
    · exact Or.inr ⟨rfl, flat h2 h1⟩
    · exact Or.inl ⟨rfl, joint_of_turn (by decide +kernel) h1 h2⟩
    · exact (apart_of_side (by decide +kernel) h2 h1).elim
    · exact (apart_of_side (by decide +kernel) h1 h2).elim
    · exact Or.inr ⟨rfl, joint_of_turn (by decide +kernel) h2 h1⟩
    · exact Or.inl ⟨rfl, joint_of_turn (by decide +kernel) h1 h2⟩
    · exact Or.inl ⟨rfl, joint_of_turn (by decide +kernel) h1 h2⟩
    · exact (apart_of_side (by decide +kernel) h1 h2).elim
    · exact Or.inr ⟨rfl, joint_of_turn (by decide +kernel) h2 h1⟩
  · intro i j
    rw [← corner_mod _ i, ← corner_succ_mod _ i, ← corner_mod _ j]
    have hi := Nat.mod_lt i (show 0 < 4 by omega)
    have hj := Nat.mod_lt j (show 0 < 4 by omega)
    simp only [List.length_cons, List.length_nil]
    generalize i % 4 = k at hi ⊢
    generalize j % 4 = l at hj ⊢
    have : ∀ k < 4, ∀ l < 4, 0 ≤ det (corner [pt 0 0, pt 1 0, pt 2 0, pt 0 2] k) (corner [pt 0 0, pt 1 0, pt 2 0, pt 0 2] (k + 1))
      (corner [pt 0 0, pt 1 0, pt 2 0, pt 0 2] l) := by decide +kernel
    exact this k hi l hj
  · intro h
    have := h.left 0 2 (by decide) (by decide)
    exact absurd this (by decide +kernel)

/-- A strictly convex ring of five corners and points inside and outside. -/
example : StrictlyConvex [pt 0 0, pt 2 (-1), pt 4 0, pt 3 3, pt 1 3] ∧ LeftOfAll (pt 2 1) [pt 0 0, pt 2 (-1), pt 4 0, pt 3 3, pt 1 3] ∧
    RightOfSome (pt 0 1) [pt 0 0, pt 2 (-1), pt 4 0, pt 3 3, pt 1 3] := by
  refine ⟨strictlyConvex_of _ (by decide +kernel), fun i => ?_, 4, by decide +kernel⟩
  rw [← corner_mod _ i, ← corner_succ_mod _ i]
  have hi := Nat.mod_lt i (show 0 < 5 by omega)
  have : ∀ k < 5, 0 < det (corner [pt 0 0, pt 2 (-1), pt 4 0, pt 3 3, pt 1 3] k) (corner [pt 0 0, pt 2 (-1), pt 4 0, pt 3 3, pt 1 3] (k + 1)) (pt 2 1) := by
    decide +kernel
  exact this _ hi

/-- Polygons for the theorem about the centroid. -/
example : let v := [pt 0 0, pt 4 0, pt 1 3]
    HasRings (polyOf (v.map realPt) []) (v.map realPt) [] ∧ ConvexRing (v.map realPt) :=
  ⟨polyOf_rings _ _ (by simp) (by simp), C101_strictly_convex _ (triangle_convex (by simp [det, realPt, Coord.xy]))⟩

example : det (pt 0 0) (pt 4 0) (pt 1 1) ≠ 0 ∧ Triangle.isAcute (pt 0 0) (pt 4 0) (pt 1 1) = false ∧
    PointLocation.locateInRing (Triangle.circumcentre (pt 0 0) (pt 4 0) (pt 1 1)) [pt 0 0, pt 4 0, pt 1 1, pt 0 0] = .ok Location.EXTERIOR ∧
    Triangle.isAcute (pt 0 0) (pt 4 0) (pt 1 3) = true ∧
    PointLocation.locateInRing (Triangle.circumcentre (pt 0 0) (pt 4 0) (pt 2 3)) [pt 0 0, pt 4 0, pt 2 3, pt 0 0] = .ok Location.INTERIOR := by
  decide +kernel

example : (⟨⟨CASeq.ofCoordinates [pt 0 0, pt 0 2, pt 3 2, pt 3 0, pt 0 0], none, none⟩, [], none, none⟩ : Polygon ℚ).isRectangle = .ok true ∧
    PointLocation.locateInRing (pt 1 1) [pt 0 0, pt 0 2, pt 3 2, pt 3 0, pt 0 0] = .ok Location.INTERIOR ∧
    PointLocation.locateInRing (pt 1 4) [pt 0 0, pt 0 2, pt 3 2, pt 3 0, pt 0 0] = .ok Location.EXTERIOR ∧
    Area.ofRing [pt 0 0, pt 0 2, pt 3 2, pt 3 0, pt 0 0] = .ok 6 := by decide +kernel

end Examples

end Verif.Props
