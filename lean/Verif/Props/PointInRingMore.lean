import Verif.Props.PointInRing

set_option linter.unusedSectionVars false

/-! # C31 continued: triangles, fans of triangles, rectangles, sequences -/

namespace Verif.Props
open Flt Verif.Spec
variable {K : Type} [Field K] [LinearOrder K] [IsStrictOrderedRing K]

/-- Strictly on the same side of the three edges. -/
def InTriangle (p a b c : Coord K) : Prop :=
  (0 < det a b p ∧ 0 < det b c p ∧ 0 < det c a p) ∨ (det a b p < 0 ∧ det b c p < 0 ∧ det c a p < 0)

instance (p a b c : Coord K) : Decidable (InTriangle p a b c) := inferInstanceAs (Decidable (_ ∨ _))

theorem bary_y (p a b c : Coord K) :
    det b c p * (a.y - p.y) + det c a p * (b.y - p.y) + det a b p * (c.y - p.y) = 0 := by unfold det; ring
theorem bary_x (p a b c : Coord K) :
    det b c p * (a.x - p.x) + det c a p * (b.x - p.x) + det a b p * (c.x - p.x) = 0 := by unfold det; ring

theorem inTriangle_rot (p a b c : Coord K) : InTriangle p a b c ↔ InTriangle p b c a := by
  unfold InTriangle; tauto

/-- The crossing as a number. -/
def cr (p a b : Coord K) : Nat := if CrossesRight p (a, b) then 1 else 0

theorem cr_swap (p a b : Coord K) : cr p a b = cr p b a := by
  unfold cr; simp only [crossesRight_swap p a b]

theorem crossings_cons (p a b : Coord K) (l : List (Coord K)) :
    crossings p (a :: b :: l) = cr p a b + crossings p (b :: l) := by
  unfold crossings cr
  rw [segs_cons, List.countP_cons]
  simp only [decide_eq_true_eq]; omega

theorem crossings_single (p a : Coord K) : crossings p [a] = 0 := rfl

/-- One vertex above. -/
theorem tri_one_above (p a b c : Coord K) (ha : p.y < a.y) (hb : b.y ≤ p.y) (hc : c.y ≤ p.y)
    (n1 : ¬ OnSegment p a b) (n2 : ¬ OnSegment p b c) (n3 : ¬ OnSegment p c a) :
    ((cr p a b + cr p b c + cr p c a) % 2 = 1 ↔ InTriangle p a b c) := by
  have hC : det a b p ≠ 0 := fun h => n1 (det_of_straddle p a b (Or.inr ⟨hb, ha⟩) h)
  have hB : det c a p ≠ 0 := fun h => n3 (det_of_straddle p c a (Or.inl ⟨hc, ha⟩) h)
  have e1 : cr p a b = if det a b p < 0 then 1 else 0 := by
    unfold cr; simp only [crossesRight_iff, not_lt.mpr hb, ha, hb, false_and, and_false, false_or, true_and]
  have e2 : cr p b c = 0 := by
    unfold cr; simp only [crossesRight_iff, not_lt.mpr hb, not_lt.mpr hc, false_and, and_false, or_self, if_false]
  have e3 : cr p c a = if 0 < det c a p then 1 else 0 := by
    unfold cr; simp only [crossesRight_iff, not_lt.mpr hc, ha, hc, false_and, and_false, or_false, true_and]
  have hy := bary_y p a b c
  have hx := bary_x p a b c
  rw [e1, e2, e3]
  have hA : (0 < det a b p → 0 < det c a p → 0 < det b c p) ∧ (det a b p < 0 → det c a p < 0 → det b c p < 0) := by
    constructor
    · intro h1 h2
      have hge : 0 ≤ det b c p := by
        by_contra hlt; push Not at hlt
        nlinarith [mul_nonneg h2.le (sub_nonneg.mpr hb), mul_nonneg h1.le (sub_nonneg.mpr hc), mul_pos (neg_pos.mpr hlt) (sub_pos.mpr ha)]
      rcases lt_or_eq_of_le hge with h | h
      · exact h
      · exfalso
        apply n2
        rw [← h] at hy hx
        have k1 := mul_nonneg h2.le (sub_nonneg.mpr hb)
        have k2 := mul_nonneg h1.le (sub_nonneg.mpr hc)
        have z1 : det c a p * (p.y - b.y) = 0 := by linarith
        have z2 : det a b p * (p.y - c.y) = 0 := by linarith
        have y1 := (mul_eq_zero.mp z1).resolve_left hB
        have y2 := (mul_eq_zero.mp z2).resolve_left hC
        refine ⟨det a b p / (det c a p + det a b p), ?_, ?_, ?_, ?_⟩
        · positivity
        · rw [div_le_one (by linarith)]; linarith
        · have : det c a p + det a b p ≠ 0 := by linarith
          field_simp; linear_combination -hx
        · rw [show b.y = p.y by linarith, show c.y = p.y by linarith]; ring
    · intro h1 h2
      have hge : det b c p ≤ 0 := by
        by_contra hlt; push Not at hlt
        nlinarith [mul_nonneg (neg_pos.mpr h2).le (sub_nonneg.mpr hb), mul_nonneg (neg_pos.mpr h1).le (sub_nonneg.mpr hc), mul_pos hlt (sub_pos.mpr ha)]
      rcases lt_or_eq_of_le hge with h | h
      · exact h
      · exfalso
        apply n2
        rw [h] at hy hx
        have k1 := mul_nonneg (neg_pos.mpr h2).le (sub_nonneg.mpr hb)
        have k2 := mul_nonneg (neg_pos.mpr h1).le (sub_nonneg.mpr hc)
        have z1 : det c a p * (p.y - b.y) = 0 := by linarith
        have z2 : det a b p * (p.y - c.y) = 0 := by linarith
        have y1 := (mul_eq_zero.mp z1).resolve_left hB
        have y2 := (mul_eq_zero.mp z2).resolve_left hC
        refine ⟨det a b p / (det c a p + det a b p), ?_, ?_, ?_, ?_⟩
        · exact div_nonneg_of_nonpos h1.le (by linarith)
        · rw [div_le_one_of_neg (by linarith)]; linarith
        · have : det c a p + det a b p ≠ 0 := by linarith
          field_simp; linear_combination -hx
        · rw [show b.y = p.y by linarith, show c.y = p.y by linarith]; ring
  unfold InTriangle
  rcases lt_or_gt_of_ne hC with h1 | h1 <;> rcases lt_or_gt_of_ne hB with h2 | h2
  · simp [h1, h2, not_lt.mpr h2.le, not_lt.mpr h1.le, hA.2 h1 h2]
  · simp [h1, h2, not_lt.mpr h2.le, not_lt.mpr h1.le]
  · simp [h1, h2, not_lt.mpr h2.le, not_lt.mpr h1.le]
  · simp [h1, h2, not_lt.mpr h2.le, not_lt.mpr h1.le, hA.1 h1 h2]

/-- One vertex not above. -/
theorem tri_two_above (p a b c : Coord K) (ha : a.y ≤ p.y) (hb : p.y < b.y) (hc : p.y < c.y)
    (n1 : ¬ OnSegment p a b) (n3 : ¬ OnSegment p c a) :
    ((cr p a b + cr p b c + cr p c a) % 2 = 1 ↔ InTriangle p a b c) := by
  have hC : det a b p ≠ 0 := fun h => n1 (det_of_straddle p a b (Or.inl ⟨ha, hb⟩) h)
  have hB : det c a p ≠ 0 := fun h => n3 (det_of_straddle p c a (Or.inr ⟨ha, hc⟩) h)
  have e1 : cr p a b = if 0 < det a b p then 1 else 0 := by
    unfold cr; simp only [crossesRight_iff, not_lt.mpr ha, ha, hb, false_and, and_false, or_false, true_and]
  have e2 : cr p b c = 0 := by
    unfold cr; simp only [crossesRight_iff, not_le.mpr hb, not_le.mpr hc, false_and, or_self, if_false]
  have e3 : cr p c a = if det c a p < 0 then 1 else 0 := by
    unfold cr; simp only [crossesRight_iff, not_lt.mpr ha, ha, hc, false_and, and_false, false_or, true_and]
  have hy := bary_y p a b c
  rw [e1, e2, e3]
  have hA : (0 < det a b p → 0 < det c a p → 0 < det b c p) ∧ (det a b p < 0 → det c a p < 0 → det b c p < 0) := by
    constructor
    · intro h1 h2
      by_contra hlt; push Not at hlt
      nlinarith [mul_pos h2 (sub_pos.mpr hb), mul_pos h1 (sub_pos.mpr hc), mul_nonneg (neg_nonneg.mpr hlt) (sub_nonneg.mpr ha)]
    · intro h1 h2
      by_contra hlt; push Not at hlt
      nlinarith [mul_pos (neg_pos.mpr h2) (sub_pos.mpr hb), mul_pos (neg_pos.mpr h1) (sub_pos.mpr hc), mul_nonneg hlt (sub_nonneg.mpr ha)]
  unfold InTriangle
  rcases lt_or_gt_of_ne hC with h1 | h1 <;> rcases lt_or_gt_of_ne hB with h2 | h2
  · simp [h1, h2, not_lt.mpr h2.le, not_lt.mpr h1.le, hA.2 h1 h2]
  · simp [h1, h2, not_lt.mpr h2.le, not_lt.mpr h1.le]
  · simp [h1, h2, not_lt.mpr h2.le, not_lt.mpr h1.le]
  · simp [h1, h2, not_lt.mpr h2.le, not_lt.mpr h1.le, hA.1 h1 h2]

theorem tri_parity (p a b c : Coord K) (n1 : ¬ OnSegment p a b) (n2 : ¬ OnSegment p b c) (n3 : ¬ OnSegment p c a) :
    ((cr p a b + cr p b c + cr p c a) % 2 = 1 ↔ InTriangle p a b c) := by
  have hy := bary_y p a b c
  rcases lt_or_ge p.y a.y with ha | ha <;> rcases lt_or_ge p.y b.y with hb | hb <;> rcases lt_or_ge p.y c.y with hc | hc
  · -- all above
    have e1 : cr p a b = 0 := by unfold cr; simp [crossesRight_iff, not_le.mpr ha, not_le.mpr hb]
    have e2 : cr p b c = 0 := by unfold cr; simp [crossesRight_iff, not_le.mpr hb, not_le.mpr hc]
    have e3 : cr p c a = 0 := by unfold cr; simp [crossesRight_iff, not_le.mpr ha, not_le.mpr hc]
    rw [e1, e2, e3]
    simp only [Nat.add_zero, Nat.zero_mod, Nat.zero_ne_one, false_iff]
    rintro (⟨h1, h2, h3⟩ | ⟨h1, h2, h3⟩)
    · nlinarith [mul_pos h2 (sub_pos.mpr ha), mul_pos h3 (sub_pos.mpr hb), mul_pos h1 (sub_pos.mpr hc)]
    · nlinarith [mul_pos (neg_pos.mpr h2) (sub_pos.mpr ha), mul_pos (neg_pos.mpr h3) (sub_pos.mpr hb), mul_pos (neg_pos.mpr h1) (sub_pos.mpr hc)]
  · rw [show cr p a b + cr p b c + cr p c a = cr p c a + cr p a b + cr p b c by omega, inTriangle_rot, inTriangle_rot]
    exact tri_two_above p c a b hc ha hb n3 n2
  · rw [show cr p a b + cr p b c + cr p c a = cr p b c + cr p c a + cr p a b by omega, inTriangle_rot]
    exact tri_two_above p b c a hb hc ha n2 n1
  · exact tri_one_above p a b c ha hb hc n1 n2 n3
  · exact tri_two_above p a b c ha hb hc n1 n3
  · rw [show cr p a b + cr p b c + cr p c a = cr p b c + cr p c a + cr p a b by omega, inTriangle_rot]
    exact tri_one_above p b c a hb hc ha n2 n3 n1
  · rw [show cr p a b + cr p b c + cr p c a = cr p c a + cr p a b + cr p b c by omega, inTriangle_rot, inTriangle_rot]
    exact tri_one_above p c a b hc ha hb n3 n1 n2
  · have e1 : cr p a b = 0 := by unfold cr; simp [crossesRight_iff, not_lt.mpr ha, not_lt.mpr hb]
    have e2 : cr p b c = 0 := by unfold cr; simp [crossesRight_iff, not_lt.mpr hb, not_lt.mpr hc]
    have e3 : cr p c a = 0 := by unfold cr; simp [crossesRight_iff, not_lt.mpr ha, not_lt.mpr hc]
    rw [e1, e2, e3]
    simp only [Nat.add_zero, Nat.zero_mod, Nat.zero_ne_one, false_iff]
    have flat : a.y = p.y → b.y = p.y → det a b p = 0 := by
      intro h1 h2; unfold det; rw [h1, h2]; ring
    rintro (⟨h1, h2, h3⟩ | ⟨h1, h2, h3⟩)
    · have k1 := mul_nonneg h2.le (sub_nonneg.mpr ha)
      have k2 := mul_nonneg h3.le (sub_nonneg.mpr hb)
      have k3 := mul_nonneg h1.le (sub_nonneg.mpr hc)
      have z1 := (mul_eq_zero.mp (show det b c p * (p.y - a.y) = 0 by linarith)).resolve_left h2.ne'
      have z2 := (mul_eq_zero.mp (show det c a p * (p.y - b.y) = 0 by linarith)).resolve_left h3.ne'
      exact h1.ne' (flat (by linarith) (by linarith))
    · have k1 := mul_nonneg (neg_pos.mpr h2).le (sub_nonneg.mpr ha)
      have k2 := mul_nonneg (neg_pos.mpr h3).le (sub_nonneg.mpr hb)
      have k3 := mul_nonneg (neg_pos.mpr h1).le (sub_nonneg.mpr hc)
      have z1 := (mul_eq_zero.mp (show det b c p * (p.y - a.y) = 0 by linarith)).resolve_left h2.ne
      have z2 := (mul_eq_zero.mp (show det c a p * (p.y - b.y) = 0 by linarith)).resolve_left h3.ne
      exact h1.ne (flat (by linarith) (by linarith))

theorem crossings_tri (p a b c : Coord K) : crossings p [a, b, c, a] = cr p a b + cr p b c + cr p c a := by
  rw [crossings_cons, crossings_cons, crossings_cons, crossings_single]; omega

theorem onLine_tri (p a b c : Coord K) :
    OnLine p [a, b, c, a] ↔ OnSegment p a b ∨ OnSegment p b c ∨ OnSegment p c a := by
  simp [OnLine]

/-- Triangles: BOUNDARY on the edges, INTERIOR exactly for the points strictly on one side of all three edges. -/
theorem C31_triangle (p a b c : Coord K) :
    ∃ loc, PointLocation.locateInRing p [a, b, c, a] = .ok loc ∧
      (loc = Location.BOUNDARY ↔ OnSegment p a b ∨ OnSegment p b c ∨ OnSegment p c a) ∧
      (loc = Location.INTERIOR ↔ InTriangle p a b c ∧ ¬ (OnSegment p a b ∨ OnSegment p b c ∨ OnSegment p c a)) := by
  have hc : Closed2D [a, b, c, a] := by intro u v h1 h2; simp at h1 h2; subst h1 h2; simp
  obtain ⟨loc, e, l1, l2, l3⟩ := C31_locate p [a, b, c, a] hc
  refine ⟨loc, e, ?_⟩
  rw [onLine_tri] at l1 l2 l3
  by_cases ho : OnSegment p a b ∨ OnSegment p b c ∨ OnSegment p c a
  · rw [l1 ho]; simp [ho]
  · have htri := tri_parity p a b c (by tauto) (by tauto) (by tauto)
    rw [← crossings_tri] at htri
    rcases Nat.mod_two_eq_zero_or_one (crossings p [a, b, c, a]) with hm | hm
    · rw [l3 ho hm]
      have : ¬ InTriangle p a b c := fun h => by have := htri.mpr h; omega
      simp [ho, this]
    · rw [l2 ho hm]
      simp [ho, htri.mp hm]

/-- Number of triangles `a u v`, over the edges `(u, v)` of a line, that contain `p` strictly. -/
def fanCount (p a : Coord K) (l : List (Coord K)) : Nat := (segs l).countP (fun s => decide (InTriangle p a s.1 s.2))

/-- Polygons: off the edges of the fan of triangles spanned by the first vertex, the point is INTERIOR exactly if it is in an odd
number of these triangles. -/
theorem C31_fan (p a : Coord K) (l : List (Coord K)) (hl : l ≠ [])
    (hoff : ∀ s ∈ segs l, ¬ OnSegment p a s.1 ∧ ¬ OnSegment p s.1 s.2 ∧ ¬ OnSegment p s.2 a)
    (hend : ¬ OnLine p (closed (a :: l))) :
    (PointLocation.locateInRing p (closed (a :: l)) = .ok Location.INTERIOR ↔ fanCount p a l % 2 = 1) ∧
    (PointLocation.locateInRing p (closed (a :: l)) = .ok Location.EXTERIOR ↔ fanCount p a l % 2 = 0) := by
  have key : ∀ (l : List (Coord K)), l ≠ [] →
      (∀ s ∈ segs l, ¬ OnSegment p a s.1 ∧ ¬ OnSegment p s.1 s.2 ∧ ¬ OnSegment p s.2 a) →
      crossings p (closed (a :: l)) % 2 = fanCount p a l % 2 := by
    intro l hl
    induction l with
    | nil => exact absurd rfl hl
    | cons u l ih =>
      intro h
      cases l with
      | nil =>
        simp only [closed, List.take_succ_cons, List.take_zero, List.cons_append, List.nil_append]
        rw [crossings_cons, crossings_cons, crossings_single, cr_swap p u a]
        simp only [fanCount, segs_single, List.countP_nil]; omega
      | cons v l =>
        have ih' := ih (by simp) (fun s hs => h s (by simp [hs]))
        have hs := h (u, v) (by simp)
        have ht := tri_parity p a u v hs.1 hs.2.1 hs.2.2
        simp only [closed, List.take_succ_cons, List.take_zero, List.cons_append] at ih' ⊢
        rw [crossings_cons] at ih'
        rw [crossings_cons, crossings_cons]
        have e : fanCount p a (u :: v :: l) = fanCount p a (v :: l) + if InTriangle p a u v then 1 else 0 := by
          unfold fanCount; rw [segs_cons, List.countP_cons]; simp
        rw [e]
        rw [cr_swap p v a] at ht
        by_cases hin : InTriangle p a u v
        · have := ht.mpr hin
          simp only [hin, if_true]; omega
        · have : ¬ (cr p a u + cr p u v + cr p a v) % 2 = 1 := fun hh => hin (ht.mp hh)
          simp only [hin, if_false]; omega
  have hk := key l hl hoff
  obtain ⟨loc, e, _, l2, l3⟩ := C31_locate p (closed (a :: l)) (closed2D_closed _)
  rw [e, ← hk]
  rcases Nat.mod_two_eq_zero_or_one (crossings p (closed (a :: l))) with hm | hm
  · rw [l3 hend hm]; simp [hm]
  · rw [l2 hend hm]; simp [hm]

/-- Rectangles: the location is the position in the two intervals. -/
theorem C31_rectangle (p : Coord K) (x0 x1 y0 y1 : K) (hx : x0 < x1) (hy : y0 < y1) :
    ∃ loc, PointLocation.locateInRing p [Coord.xy x0 y0, Coord.xy x0 y1, Coord.xy x1 y1, Coord.xy x1 y0, Coord.xy x0 y0] = .ok loc ∧
      (loc = Location.INTERIOR ↔ x0 < p.x ∧ p.x < x1 ∧ y0 < p.y ∧ p.y < y1) ∧
      (loc = Location.EXTERIOR ↔ ¬ (x0 ≤ p.x ∧ p.x ≤ x1 ∧ y0 ≤ p.y ∧ p.y ≤ y1)) := by
  obtain ⟨loc, e, l1, l2, l3⟩ := C31_locate p
    [Coord.xy x0 y0, Coord.xy x0 y1, Coord.xy x1 y1, Coord.xy x1 y0, Coord.xy x0 y0]
    (by intro u v h1 h2; simp at h1 h2; subst h1 h2; simp)
  refine ⟨loc, e, ?_⟩
  have hon : OnLine p [Coord.xy x0 y0, Coord.xy x0 y1, Coord.xy x1 y1, Coord.xy x1 y0, Coord.xy x0 y0] ↔
      (p.x = x0 ∧ y0 ≤ p.y ∧ p.y ≤ y1) ∨ (p.y = y1 ∧ x0 ≤ p.x ∧ p.x ≤ x1) ∨ (p.x = x1 ∧ y0 ≤ p.y ∧ p.y ≤ y1) ∨
      (p.y = y0 ∧ x0 ≤ p.x ∧ p.x ≤ x1) := by
    have v : ∀ x a b : K, a < b → (OnSegment p (Coord.xy x a) (Coord.xy x b) ↔ p.x = x ∧ a ≤ p.y ∧ p.y ≤ b) := by
      intro x a b h
      rw [onSegment_iff]
      simp only [Coord.xy, det, min_self, max_self, min_eq_left h.le, max_eq_right h.le]
      constructor
      · rintro ⟨_, h1, h2, h3, h4⟩; exact ⟨le_antisymm h2 h1, h3, h4⟩
      · rintro ⟨h1, h3, h4⟩; exact ⟨by rw [h1]; ring, h1.ge, h1.le, h3, h4⟩
    have w : ∀ y a b : K, a < b → (OnSegment p (Coord.xy a y) (Coord.xy b y) ↔ p.y = y ∧ a ≤ p.x ∧ p.x ≤ b) := by
      intro y a b h
      rw [onSegment_iff]
      simp only [Coord.xy, det, min_self, max_self, min_eq_left h.le, max_eq_right h.le]
      constructor
      · rintro ⟨_, h1, h2, h3, h4⟩; exact ⟨le_antisymm h4 h3, h1, h2⟩
      · rintro ⟨h1, h3, h4⟩; exact ⟨by rw [h1]; ring, h3, h4, h1.ge, h1.le⟩
    simp only [OnLine, segs_cons, segs_single, List.mem_cons, List.not_mem_nil, or_false, exists_eq_or_imp, exists_eq_left]
    rw [v x0 y0 y1 hy, w y1 x0 x1 hx, onSegment_swap p (Coord.xy x1 y1), v x1 y0 y1 hy, onSegment_swap p (Coord.xy x1 y0), w y0 x0 x1 hx]
  have hcr : crossings p [Coord.xy x0 y0, Coord.xy x0 y1, Coord.xy x1 y1, Coord.xy x1 y0, Coord.xy x0 y0] =
      (if y0 ≤ p.y ∧ p.y < y1 ∧ p.x < x0 then 1 else 0) + (if y0 ≤ p.y ∧ p.y < y1 ∧ p.x < x1 then 1 else 0) := by
    simp only [crossings_cons, crossings_single]
    have c1 : cr p (Coord.xy x0 y0) (Coord.xy x0 y1) = if y0 ≤ p.y ∧ p.y < y1 ∧ p.x < x0 then 1 else 0 := by
      unfold cr
      have : CrossesRight p (Coord.xy x0 y0, Coord.xy x0 y1) ↔ y0 ≤ p.y ∧ p.y < y1 ∧ p.x < x0 := by
        simp only [CrossesRight, Straddles, xAt, Coord.xy, sub_self, mul_zero, add_zero]
        constructor
        · rintro ⟨⟨h1, h2⟩ | ⟨h1, h2⟩, h3⟩
          · linarith
          · exact ⟨h2, h1, h3⟩
        · rintro ⟨h1, h2, h3⟩; exact ⟨Or.inr ⟨h2, h1⟩, h3⟩
      simp only [this]
    have c2 : cr p (Coord.xy x0 y1) (Coord.xy x1 y1) = 0 := by
      unfold cr; rw [if_neg]; rintro ⟨⟨h1, h2⟩ | ⟨h1, h2⟩, _⟩ <;> simp only [Coord.xy] at h1 h2 <;> linarith
    have c3 : cr p (Coord.xy x1 y1) (Coord.xy x1 y0) = if y0 ≤ p.y ∧ p.y < y1 ∧ p.x < x1 then 1 else 0 := by
      unfold cr
      have : CrossesRight p (Coord.xy x1 y1, Coord.xy x1 y0) ↔ y0 ≤ p.y ∧ p.y < y1 ∧ p.x < x1 := by
        simp only [CrossesRight, Straddles, xAt, Coord.xy, sub_self, mul_zero, add_zero]
        constructor
        · rintro ⟨⟨h1, h2⟩ | ⟨h1, h2⟩, h3⟩
          · exact ⟨h2, h1, h3⟩
          · linarith
        · rintro ⟨h1, h2, h3⟩; exact ⟨Or.inl ⟨h2, h1⟩, h3⟩
      simp only [this]
    have c4 : cr p (Coord.xy x1 y0) (Coord.xy x0 y0) = 0 := by
      unfold cr; rw [if_neg]; rintro ⟨⟨h1, h2⟩ | ⟨h1, h2⟩, _⟩ <;> simp only [Coord.xy] at h1 h2 <;> linarith
    rw [c1, c2, c3, c4]; omega
  rw [hon] at l1 l2 l3
  rw [hcr] at l2 l3
  by_cases hin : x0 ≤ p.x ∧ p.x ≤ x1 ∧ y0 ≤ p.y ∧ p.y ≤ y1
  · obtain ⟨i1, i2, i3, i4⟩ := hin
    by_cases hb : (p.x = x0 ∧ y0 ≤ p.y ∧ p.y ≤ y1) ∨ (p.y = y1 ∧ x0 ≤ p.x ∧ p.x ≤ x1) ∨ (p.x = x1 ∧ y0 ≤ p.y ∧ p.y ≤ y1) ∨
      (p.y = y0 ∧ x0 ≤ p.x ∧ p.x ≤ x1)
    · rw [l1 hb]
      refine ⟨⟨fun h => by simp at h, fun h => ?_⟩, ⟨fun h => by simp at h, fun h => absurd ⟨i1, i2, i3, i4⟩ h⟩⟩
      exfalso
      obtain ⟨g1, g2, g3, g4⟩ := h
      rcases hb with h | h | h | h <;> linarith [h.1]
    · have s1 : x0 < p.x := lt_of_le_of_ne i1 (fun h => hb (Or.inl ⟨h.symm, i3, i4⟩))
      have s2 : p.x < x1 := lt_of_le_of_ne i2 (fun h => hb (Or.inr (Or.inr (Or.inl ⟨h, i3, i4⟩))))
      have s3 : y0 < p.y := lt_of_le_of_ne i3 (fun h => hb (Or.inr (Or.inr (Or.inr ⟨h.symm, i1, i2⟩))))
      have s4 : p.y < y1 := lt_of_le_of_ne i4 (fun h => hb (Or.inr (Or.inl ⟨h, i1, i2⟩)))
      have := l2 hb (by simp [i3, s4, s2, not_lt.mpr i1])
      rw [this]; simp [s1, s2, s3, s4, s1.le, s2.le, s3.le, s4.le]
  · have hb : ¬ ((p.x = x0 ∧ y0 ≤ p.y ∧ p.y ≤ y1) ∨ (p.y = y1 ∧ x0 ≤ p.x ∧ p.x ≤ x1) ∨ (p.x = x1 ∧ y0 ≤ p.y ∧ p.y ≤ y1) ∨
      (p.y = y0 ∧ x0 ≤ p.x ∧ p.x ≤ x1)) := by
      rintro (h | h | h | h) <;> apply hin <;> obtain ⟨h1, h2, h3⟩ := h
      · exact ⟨h1.ge, by rw [h1]; exact hx.le, h2, h3⟩
      · exact ⟨h2, h3, by rw [h1]; exact hy.le, h1.le⟩
      · exact ⟨by rw [h1]; exact hx.le, h1.le, h2, h3⟩
      · exact ⟨h2, h3, h1.ge, by rw [h1]; exact hy.le⟩
    have hev : ((if y0 ≤ p.y ∧ p.y < y1 ∧ p.x < x0 then 1 else 0) + (if y0 ≤ p.y ∧ p.y < y1 ∧ p.x < x1 then 1 else 0)) % 2 = 0 := by
      by_cases c : y0 ≤ p.y ∧ p.y < y1
      · have : p.x < x0 ∨ x1 ≤ p.x := by
          by_contra hh; push Not at hh; exact hin ⟨hh.1, hh.2.le, c.1, c.2.le⟩
        rcases this with h | h
        · simp [c, h, lt_trans h hx]
        · simp [c, not_lt.mpr h, not_lt.mpr (hx.le.trans h)]
      · have k1 : ¬ (y0 ≤ p.y ∧ p.y < y1 ∧ p.x < x0) := fun h => c ⟨h.1, h.2.1⟩
        have k2 : ¬ (y0 ≤ p.y ∧ p.y < y1 ∧ p.x < x1) := fun h => c ⟨h.1, h.2.1⟩
        simp [k1, k2]
    rw [l3 hb hev]
    refine ⟨⟨fun h => by simp at h, fun h => absurd ⟨h.1.le, h.2.1.le, h.2.2.1.le, h.2.2.2.le⟩ hin⟩, ⟨fun _ => hin, fun _ => rfl⟩⟩

/-! ## Sequences (every arithmetic) -/

section seq
variable {α S : Type} [Flt α] [SeqOps S α] [SeqLaws S α]

/-- The points of a sequence, in the plane. -/
def planePoints (s : S) : List (Coord α) := (List.range (SeqLaws.n s)).map (fun i => Coord.xy (SeqLaws.ord s i 0) (SeqLaws.ord s i 1))

/-- Array and packed sequences give the same locations as vectors of the same points. -/
theorem C31_sequences (p : Coord α) (s : S) (hs : SeqLaws.WF s) :
    RayCounter.locateSeq p s = RayCounter.locateVec p (planePoints s) := by
  have hd := SeqLaws.dim_ge s hs
  have hlen : (planePoints s).length = SeqLaws.n s := by simp [planePoints]
  have e0 : ∀ i < SeqLaws.n s, SeqOps.getOrd s i 0 = .ok (SeqLaws.ord s i 0) := fun i hi =>
    SeqLaws.get_eq s hs i hi 0 (by omega)
  have e1 : ∀ i < SeqLaws.n s, SeqOps.getOrd s i 1 = .ok (SeqLaws.ord s i 1) := fun i hi =>
    SeqLaws.get_eq s hs i hi 1 (by omega)
  unfold RayCounter.locateSeq RayCounter.locateVec
  rw [SeqLaws.size_eq s hs, hlen]
  simp only [Res.bind_ok]
  have h1 := forRange_foldl (σ := RayCounter α) (segs (planePoints s)) 1 (SeqLaws.n s) (by simp [hlen]) (fun i counter => do
      let x1 ← SeqOps.getOrd s i 0
      let y1 ← SeqOps.getOrd s i 1
      let x2 ← SeqOps.getOrd s (i - 1) 0
      let y2 ← SeqOps.getOrd s (i - 1) 1
      pure (counter.step { Coord.default with x := x1, y := y1 } { Coord.default with x := x2, y := y2 }))
    (fun c s => c.step s.2 s.1) (by
      intro k hk c
      have hk' : 1 + k < SeqLaws.n s := by rw [length_segs, hlen] at hk; omega
      rw [getElem_segs, e0 _ hk', e1 _ hk', e0 _ (by omega), e1 _ (by omega)]
      simp only [planePoints, List.getElem_map, List.getElem_range, Nat.add_comm 1 k, Nat.add_sub_cancel]
      rfl) (RayCounter.new p)
  have h2 := forRange_foldl (σ := RayCounter α) (segs (planePoints s)) 1 (SeqLaws.n s) (by simp [hlen]) (fun i counter => do
      let p1 ← Res.get (planePoints s) i
      let p2 ← Res.get (planePoints s) (i - 1)
      pure (counter.step p1 p2)) (fun c s => c.step s.2 s.1) (by
      intro k hk c
      have hk' : k + 1 < (planePoints s).length := by rw [length_segs] at hk; omega
      rw [getElem_segs, Nat.add_comm 1 k, Res.get_lt hk', Nat.add_sub_cancel, Res.get_lt (by omega : k < (planePoints s).length)]
      rfl) (RayCounter.new p)
  rw [h1, h2]

end seq

section examples
local notation "pt" => fun (x y : ℚ) => (Coord.xy x y : Coord ℚ)
example : Closed2D [pt 0 0, pt 4 0, pt 4 4, pt 2 1, pt 0 4, pt 0 0] := by intro a b h1 h2; simp at h1 h2; subst h1 h2; simp
example : PointLocation.locateInRing (pt 2 0) [pt 0 0, pt 4 0, pt 4 4, pt 2 1, pt 0 4, pt 0 0] = .ok Location.BOUNDARY ∧
    PointLocation.locateInRing (pt 1 1) [pt 0 0, pt 4 0, pt 4 4, pt 2 1, pt 0 4, pt 0 0] = .ok Location.INTERIOR ∧
    PointLocation.locateInRing (pt 2 3) [pt 0 0, pt 4 0, pt 4 4, pt 2 1, pt 0 4, pt 0 0] = .ok Location.EXTERIOR := by decide +kernel
example : crossings (pt 1 1) [pt 0 0, pt 4 0, pt 4 4, pt 2 1, pt 0 4, pt 0 0] = 3 ∧
    crossingsLeft (pt 1 1) [pt 0 0, pt 4 0, pt 4 4, pt 2 1, pt 0 4, pt 0 0] = 1 := by
  constructor <;> simp [crossings, crossingsLeft, segs_cons, List.countP_cons, CrossesRight, CrossesLeft, Straddles, xAt, Coord.xy] <;> norm_num
example : InTriangle (pt 1 1) (pt 0 0) (pt 4 0) (pt 0 4) := by decide +kernel
example : fanCount (pt 3 1) (pt 0 0) [pt 4 0, pt 4 4, pt 2 1, pt 0 4] = 1 := by decide +kernel
/-- A line that is not closed misses its last point if it was reached from below. -/
theorem C31_open_end_missed :
    PointLocation.locateInRing (pt 1 1) [pt 1 0, pt 1 1] = .ok Location.EXTERIOR := by decide +kernel
end examples

end Verif.Props
