import Verif.Model.Triangle
import Verif.Lemmas.Plane
import Verif.Lemmas.Ext
import Verif.Props.Orientation
import Verif.Props.Intersection

set_option linter.unusedSectionVars false

/-! # C41: triangles, in exact arithmetic over an ordered field -/

namespace Verif.Props
open Flt Verif.Spec
variable {K : Type} [Field K] [LinearOrder K] [IsStrictOrderedRing K]

/-- Squared distance of two points. -/
def sq2 (p q : Coord K) : K := (p.x - q.x) ^ 2 + (p.y - q.y) ^ 2

/-- `p` is in the closed triangle: a convex combination of the vertices. -/
def InClosedTriangle (p a b c : Coord K) : Prop :=
  ∃ s t u : K, 0 ≤ s ∧ 0 ≤ t ∧ 0 ≤ u ∧ s + t + u = 1 ∧
    p.x = s * a.x + t * b.x + u * c.x ∧ p.y = s * a.y + t * b.y + u * c.y

/-- The circumcentre is the one point at equal distance from the three vertices. -/
theorem C41_circumcentre (a b c p : Coord K) (h : det a b c ≠ 0) :
    (sq2 p a = sq2 p c ∧ sq2 p b = sq2 p c) ↔
      (p.x = (Triangle.circumcentre a b c).x ∧ p.y = (Triangle.circumcentre a b c).y) := by
  have hD : (a.x - c.x) * (b.y - c.y) - (a.y - c.y) * (b.x - c.x) ≠ 0 := by
    have : (a.x - c.x) * (b.y - c.y) - (a.y - c.y) * (b.x - c.x) = det a b c := by unfold det; ring
    rwa [this]
  unfold Triangle.circumcentre Triangle.det2 sq2
  simp only [exact_sub, exact_mul, exact_add, exact_div, exact_lit, Rat.cast_ofNat]
  obtain ⟨ax, hax⟩ : ∃ u, u = a.x - c.x := ⟨_, rfl⟩
  obtain ⟨ay, hay⟩ : ∃ u, u = a.y - c.y := ⟨_, rfl⟩
  obtain ⟨bx, hbx⟩ : ∃ u, u = b.x - c.x := ⟨_, rfl⟩
  obtain ⟨by', hby⟩ : ∃ u, u = b.y - c.y := ⟨_, rfl⟩
  rw [← hax, ← hay, ← hbx, ← hby] at hD ⊢
  rw [show a.x = ax + c.x by rw [hax]; ring, show a.y = ay + c.y by rw [hay]; ring,
    show b.x = bx + c.x by rw [hbx]; ring, show b.y = by' + c.y by rw [hby]; ring]
  obtain ⟨D, eD⟩ : ∃ D, D = ax * by' - ay * bx := ⟨_, rfl⟩
  rw [← eD] at hD ⊢
  constructor
  · rintro ⟨e1, e2⟩
    constructor
    · field_simp
      rw [eD]
      linear_combination (-by') * e1 + ay * e2
    · field_simp
      rw [eD]
      linear_combination bx * e1 - ax * e2
  · rintro ⟨e1, e2⟩
    rw [e1, e2]
    constructor
    · field_simp; rw [eD]; ring
    · field_simp; rw [eD]; ring

theorem plain_add (a b : K) : (⟨a, 0⟩ : DD K).add ⟨b, 0⟩ = ⟨a + b, 0⟩ := by simp [DD.add, DD.addHiLo]
theorem plain_sub' (a b : K) : (⟨a, 0⟩ : DD K).sub ⟨b, 0⟩ = ⟨a - b, 0⟩ := by
  simp [DD.sub, DD.negate, DD.isNaN, DD.add, DD.addHiLo, sub_eq_add_neg]
theorem plain_subF' (a b : K) : (⟨a, 0⟩ : DD K).subF b = ⟨a - b, 0⟩ := by
  simp [DD.subF, DD.addF, sub_eq_add_neg]
theorem plain_mulF' (a b : K) : (⟨a, 0⟩ : DD K).mulF b = ⟨a * b, 0⟩ := by
  simp [DD.mulF, DD.mulHiLo]
theorem plain_det (a b c d : K) : DD.determinant ⟨a, 0⟩ ⟨b, 0⟩ ⟨c, 0⟩ ⟨d, 0⟩ = (⟨a * d - b * c, 0⟩ : DD K) := by
  rw [DD.determinant, plain_mul, plain_mul, plain_sub]

/-- The double-double version computes the same point. -/
theorem C41_circumcentre_dd (a b c : Coord K) (h : det a b c ≠ 0) :
    Triangle.circumcentreDD a b c = Triangle.circumcentre a b c := by
  have hD : ((a.x - c.x) * (b.y - c.y) - (a.y - c.y) * (b.x - c.x)) * 2 ≠ 0 := by
    have : (a.x - c.x) * (b.y - c.y) - (a.y - c.y) * (b.x - c.x) = det a b c := by unfold det; ring
    rw [this]; exact mul_ne_zero h two_ne_zero
  unfold Triangle.circumcentreDD Triangle.circumcentre Triangle.det2
  simp only [DD.ofF, exact_lit, Rat.cast_zero, Rat.cast_ofNat, plain_subF', plain_det, plain_mulF', DD.sqr, plain_mul, plain_add, plain_sub',
    plain_div _ _ hD, DD.doubleValue, exact_add, add_zero, exact_sub, exact_mul, exact_div, mul_comm (2 : K)]

/-- The perpendicular bisector of `a b`, as a line `x·X + y·Y + w = 0`, consists of the points at equal distance from `a` and `b`. -/
theorem C41_perpendicular_bisector (a b p : Coord K) :
    (Triangle.perpendicularBisector a b).x * p.x + (Triangle.perpendicularBisector a b).y * p.y + (Triangle.perpendicularBisector a b).w = 0 ↔
      sq2 p a = sq2 p b := by
  unfold Triangle.perpendicularBisector HCoord.cross HCoord.ofXYW sq2
  simp only [exact_sub, exact_mul, exact_add, exact_div, exact_lit, Rat.cast_ofNat, Rat.cast_one]
  constructor
  · intro h; linear_combination (-2) * h
  · intro h; linear_combination (-1 / 2) * h

/-- The line is a proper line as soon as the two points differ. -/
theorem C41_perpendicular_bisector_proper (a b : Coord K) :
    ((Triangle.perpendicularBisector a b).x = 0 ∧ (Triangle.perpendicularBisector a b).y = 0) ↔ (a.x = b.x ∧ a.y = b.y) := by
  unfold Triangle.perpendicularBisector HCoord.cross HCoord.ofXYW
  simp only [exact_sub, exact_mul, exact_add, exact_div, exact_lit, Rat.cast_ofNat, Rat.cast_one]
  constructor
  · rintro ⟨h1, h2⟩; exact ⟨by linear_combination h1, by linear_combination h2⟩
  · rintro ⟨h1, h2⟩; rw [h1, h2]; constructor <;> ring

/-- Two perpendicular bisectors meet in the circumcentre. -/
theorem C41_bisectors_meet (a b c : Coord K) (h : det a b c ≠ 0) :
    (HCoord.cross (Triangle.perpendicularBisector a b) (Triangle.perpendicularBisector b c)).getX = (Triangle.circumcentre a b c).x ∧
    (HCoord.cross (Triangle.perpendicularBisector a b) (Triangle.perpendicularBisector b c)).getY = (Triangle.circumcentre a b c).y := by
  have hw : (HCoord.cross (Triangle.perpendicularBisector a b) (Triangle.perpendicularBisector b c)).w = det a b c := by
    unfold Triangle.perpendicularBisector HCoord.cross HCoord.ofXYW det
    simp only [exact_sub, exact_mul, exact_add, exact_div, exact_lit, Rat.cast_ofNat, Rat.cast_one]
    ring
  obtain ⟨e1, e2⟩ := (C41_circumcentre a b c (Triangle.circumcentre a b c) h).mpr ⟨rfl, rfl⟩
  have l1 := (C41_perpendicular_bisector a b (Triangle.circumcentre a b c)).mpr (e1.trans e2.symm)
  have l2 := (C41_perpendicular_bisector b c (Triangle.circumcentre a b c)).mpr e2
  obtain ⟨P, hP⟩ : ∃ P, P = Triangle.perpendicularBisector a b := ⟨_, rfl⟩
  obtain ⟨Q, hQ⟩ : ∃ P, P = Triangle.perpendicularBisector b c := ⟨_, rfl⟩
  rw [← hP] at l1; rw [← hQ] at l2; rw [← hP, ← hQ] at hw ⊢
  simp only [HCoord.getX, HCoord.getY, exact_isNaN, isInf, exact_isFinite, exact_div, Bool.not_false, Bool.not_true, Bool.and_false,
    Bool.or_false, Bool.false_eq_true, if_false, hw]
  simp only [HCoord.cross, exact_sub, exact_mul] at hw ⊢
  constructor
  · rw [div_eq_iff h, ← hw]
    linear_combination P.y * l2 - Q.y * l1
  · rw [div_eq_iff h, ← hw]
    linear_combination Q.x * l1 - P.x * l2

/-- The signed area is half the determinant, positive for clockwise triangles. -/
theorem C41_signed_area (a b c : Coord K) :
    Triangle.signedArea a b c = -(det a b c) / 2 ∧
    (0 < Triangle.signedArea a b c ↔ Orientation.index a b c = -1) ∧
    (Triangle.signedArea a b c < 0 ↔ Orientation.index a b c = 1) ∧
    Triangle.signedArea a c b = -Triangle.signedArea a b c ∧ Triangle.signedArea b c a = Triangle.signedArea a b c ∧
    Triangle.area a b c = |det a b c| / 2 := by
  have e : ∀ a b c : Coord K, Triangle.signedArea a b c = -(det a b c) / 2 := by
    intro a b c; unfold Triangle.signedArea det; simp only [exact_sub, exact_mul, exact_div, exact_lit, Rat.cast_ofNat]; ring
  have ar : Triangle.area a b c = |Triangle.signedArea a b c| := by
    unfold Triangle.area Triangle.signedArea; rw [abs_eq_max_neg]; rfl
  rw [ar]
  simp only [e, C29_index_is_sign, sgn_pos, sgn_neg_iff]
  refine ⟨trivial, ?_, ?_, ?_, ?_, ?_⟩
  · constructor <;> intro h <;> linarith
  · constructor <;> intro h <;> linarith
  · unfold det; ring
  · unfold det; ring
  · rw [abs_div, abs_neg]; norm_num

/-- Triangles split additively: for every point `p` the signed areas of the three triangles with `p` add up to the whole. -/
theorem C41_area_additive (a b c p : Coord K) :
    Triangle.signedArea a b p + Triangle.signedArea b c p + Triangle.signedArea c a p = Triangle.signedArea a b c := by
  rw [(C41_signed_area a b p).1, (C41_signed_area b c p).1, (C41_signed_area c a p).1, (C41_signed_area a b c).1]
  unfold det; ring

/-- The centroid divides every median in the ratio 2 : 1 and cuts the triangle into three of equal area. -/
theorem C41_centroid (a b c : Coord K) :
    (∀ v l r : Coord K, [v, l, r].Perm [a, b, c] →
      (Triangle.centroid a b c).x - v.x = 2 * ((l.x + r.x) / 2 - (Triangle.centroid a b c).x) ∧
      (Triangle.centroid a b c).y - v.y = 2 * ((l.y + r.y) / 2 - (Triangle.centroid a b c).y)) ∧
    Triangle.signedArea a b (Triangle.centroid a b c) = Triangle.signedArea a b c / 3 ∧
    Triangle.signedArea b c (Triangle.centroid a b c) = Triangle.signedArea a b c / 3 ∧
    Triangle.signedArea c a (Triangle.centroid a b c) = Triangle.signedArea a b c / 3 := by
  have ex : (Triangle.centroid a b c).x = (a.x + b.x + c.x) / 3 := by simp [Triangle.centroid]
  have ey : (Triangle.centroid a b c).y = (a.y + b.y + c.y) / 3 := by simp [Triangle.centroid]
  refine ⟨fun v l r hp => ?_, ?_, ?_, ?_⟩
  · rw [ex, ey]
    have hx : v.x + l.x + r.x = a.x + b.x + c.x := by
      have := (hp.map Coord.x).sum_eq; simp at this; linear_combination this
    have hy : v.y + l.y + r.y = a.y + b.y + c.y := by
      have := (hp.map Coord.y).sum_eq; simp at this; linear_combination this
    constructor
    · linear_combination -hx
    · linear_combination -hy
  · rw [(C41_signed_area _ _ _).1, (C41_signed_area _ _ _).1]; unfold det; rw [ex, ey]; ring
  · rw [(C41_signed_area _ _ _).1, (C41_signed_area _ _ _).1]; unfold det; rw [ex, ey]; ring
  · rw [(C41_signed_area _ _ _).1, (C41_signed_area _ _ _).1]; unfold det; rw [ex, ey]; ring

/-- Interpolated heights are those of the plane through the vertices: for every plane `z = k + m·x + n·y` through the three vertices
the height at `p` is the height of that plane at `p`. -/
theorem C41_interpolate_z (p a b c : Coord K) (h : det a b c ≠ 0) :
    (∀ k m n : K, a.z = k + m * a.x + n * a.y → b.z = k + m * b.x + n * b.y → c.z = k + m * c.x + n * c.y →
      Triangle.interpolateZ p a b c = k + m * p.x + n * p.y) ∧
    ∃ k m n : K, a.z = k + m * a.x + n * a.y ∧ b.z = k + m * b.x + n * b.y ∧ c.z = k + m * c.x + n * c.y := by
  have hD : (b.x - a.x) * (c.y - a.y) - (c.x - a.x) * (b.y - a.y) ≠ 0 := by
    have : (b.x - a.x) * (c.y - a.y) - (c.x - a.x) * (b.y - a.y) = det a b c := by unfold det; ring
    rwa [this]
  obtain ⟨D, eD⟩ : ∃ D, D = (b.x - a.x) * (c.y - a.y) - (c.x - a.x) * (b.y - a.y) := ⟨_, rfl⟩
  rw [← eD] at hD
  constructor
  · intro k m n ha hb hc
    unfold Triangle.interpolateZ
    simp only [exact_sub, exact_mul, exact_add, exact_div, exact_neg]
    rw [ha, hb, hc, ← eD]
    field_simp
    rw [eD]
    ring
  · refine ⟨a.z - (((b.z - a.z) * (c.y - a.y) - (c.z - a.z) * (b.y - a.y)) / D) * a.x
        - (((c.z - a.z) * (b.x - a.x) - (b.z - a.z) * (c.x - a.x)) / D) * a.y,
      ((b.z - a.z) * (c.y - a.y) - (c.z - a.z) * (b.y - a.y)) / D,
      ((c.z - a.z) * (b.x - a.x) - (b.z - a.z) * (c.x - a.x)) / D, ?_, ?_, ?_⟩
    · ring
    · field_simp; rw [eD]; ring
    · field_simp; rw [eD]; ring

/-- The height does not depend on the order of the vertices and is the vertex height at a vertex. -/
theorem C41_interpolate_z_vertices (a b c p : Coord K) (h : det a b c ≠ 0) :
    Triangle.interpolateZ a a b c = a.z ∧ Triangle.interpolateZ b a b c = b.z ∧ Triangle.interpolateZ c a b c = c.z ∧
    Triangle.interpolateZ p b c a = Triangle.interpolateZ p a b c ∧ Triangle.interpolateZ p a c b = Triangle.interpolateZ p a b c := by
  obtain ⟨k, m, n, ha, hb, hc⟩ := (C41_interpolate_z p a b c h).2
  have h1 : det b c a ≠ 0 := by have : det b c a = det a b c := by unfold det; ring
                                rwa [this]
  have h2 : det a c b ≠ 0 := by have : det a c b = -det a b c := by unfold det; ring
                                rw [this]; exact neg_ne_zero.mpr h
  rw [(C41_interpolate_z a a b c h).1 k m n ha hb hc, (C41_interpolate_z b a b c h).1 k m n ha hb hc, (C41_interpolate_z c a b c h).1 k m n ha hb hc,
    (C41_interpolate_z p a b c h).1 k m n ha hb hc, (C41_interpolate_z p b c a h1).1 k m n hb hc ha, (C41_interpolate_z p a c b h2).1 k m n ha hc hb]
  exact ⟨ha.symm, hb.symm, hc.symm, rfl, rfl⟩

/-- A triangle is acute iff the square of every side is less than the sum of the squares of the two others. -/
theorem C41_acute (a b c : Coord K) :
    Triangle.isAcute a b c = true ↔
      sq2 a b < sq2 b c + sq2 c a ∧ sq2 b c < sq2 c a + sq2 a b ∧ sq2 c a < sq2 a b + sq2 b c := by
  unfold Triangle.isAcute Angle.isAcute sq2
  simp only [exact_sub, exact_mul, exact_add, exact_lt, exact_lit, Rat.cast_zero, Bool.and_eq_true, decide_eq_true_eq]
  constructor
  · rintro ⟨h1, h2, h3⟩
    exact ⟨by nlinarith, by nlinarith, by nlinarith⟩
  · rintro ⟨h1, h2, h3⟩
    exact ⟨by nlinarith, by nlinarith, by nlinarith⟩

/-- `is_ccw`: the triangle turns left. -/
theorem C41_is_ccw (a b c : Coord K) :
    (Triangle.isCCW a b c = true ↔ 0 < det a b c) ∧
    (det a b c ≠ 0 → Triangle.isCCW a c b = !Triangle.isCCW a b c) ∧ Triangle.isCCW b c a = Triangle.isCCW a b c := by
  have e : ∀ a b c : Coord K, Triangle.isCCW a b c = decide (0 < det a b c) := by
    intro a b c; unfold Triangle.isCCW; rw [C29_index_is_sign]; simp only [sgn_pos]
  have s1 : det a c b = -det a b c := by unfold det; ring
  have s2 : det b c a = det a b c := by unfold det; ring
  simp only [e, s1, s2, decide_eq_true_eq, true_and, and_true, Left.neg_pos_iff]
  intro h
  rcases lt_or_gt_of_ne h with h | h
  · simp [h, not_lt.mpr h.le]
  · simp [h, not_lt.mpr h.le]

theorem tri_sum (a b c p : Coord K) : det a b p + det b c p + det c a p = det a b c := by unfold det; ring

/-- The point test of a proper triangle holds exactly for the points of the closed triangle, whatever the orientation. -/
theorem C41_intersects (a b c p : Coord K) (h : det a b c ≠ 0) : Triangle.intersects a b c p = true ↔ InClosedTriangle p a b c := by
  have sum := tri_sum a b c p
  have conv : InClosedTriangle p a b c ↔ 0 ≤ det a b p / det a b c ∧ 0 ≤ det b c p / det a b c ∧ 0 ≤ det c a p / det a b c := by
    constructor
    · rintro ⟨s, t, u, hs, ht, hu, e, hx, hy⟩
      have d1 : det a b p = u * det a b c := by
        unfold det; rw [hx, hy, show s = 1 - t - u by linear_combination e]; ring
      have d2 : det b c p = s * det a b c := by
        unfold det; rw [hx, hy, show t = 1 - s - u by linear_combination e]; ring
      have d3 : det c a p = t * det a b c := by
        unfold det; rw [hx, hy, show u = 1 - s - t by linear_combination e]; ring
      rw [d1, d2, d3, mul_div_cancel_right₀ _ h, mul_div_cancel_right₀ _ h, mul_div_cancel_right₀ _ h]
      exact ⟨hu, hs, ht⟩
    · rintro ⟨h1, h2, h3⟩
      refine ⟨det b c p / det a b c, det c a p / det a b c, det a b p / det a b c, h2, h3, h1, ?_, ?_, ?_⟩
      · rw [← add_div, ← add_div, div_eq_one_iff_eq h]; linear_combination sum
      · field_simp; unfold det; ring
      · field_simp; unfold det; ring
  rw [conv]
  unfold Triangle.intersects
  have hc := (C41_is_ccw a b c).1
  dsimp only
  rcases lt_or_gt_of_ne h with hn | hn
  · rw [if_neg (show ¬ Triangle.isCCW a b c = true by rw [hc]; exact not_lt.mpr hn.le)]
    simp only [C29_index_is_sign, eq_comm (a := (1 : Int)), sgn_pos]
    have k : ∀ x : K, 0 ≤ x / det a b c ↔ ¬ 0 < x := by
      intro x; rw [not_lt, div_nonneg_iff]
      constructor
      · rintro (⟨_, h'⟩ | ⟨h', _⟩)
        · exact absurd hn (not_lt.mpr h')
        · exact h'
      · intro h'; exact .inr ⟨h', hn.le⟩
    rw [k, k, k]
    split_ifs <;> simp_all
  · rw [if_pos (show Triangle.isCCW a b c = true by rw [hc]; exact hn)]
    simp only [C29_index_is_sign, eq_comm (a := (-1 : Int)), sgn_neg_iff]
    have k : ∀ x : K, 0 ≤ x / det a b c ↔ ¬ x < 0 := by
      intro x; rw [not_lt, div_nonneg_iff]
      constructor
      · rintro (⟨h', _⟩ | ⟨_, h'⟩)
        · exact h'
        · exact absurd hn (not_lt.mpr h')
      · intro h'; exact .inl ⟨h', hn.le⟩
    rw [k, k, k]
    split_ifs <;> simp_all

/-- For a flat triangle the point test says something else: it holds on the whole line, and on the whole plane if the triangle is a
single point. -/
theorem C41_intersects_flat (a b c p : Coord K) (h : det a b c = 0) :
    Triangle.intersects a b c p = true ↔ (det a b p = 0 ∧ det b c p = 0 ∧ det c a p = 0) := by
  have sum := tri_sum a b c p
  unfold Triangle.intersects
  have hc := (C41_is_ccw a b c).1
  dsimp only
  rw [if_neg (show ¬ Triangle.isCCW a b c = true by rw [hc, h]; exact lt_irrefl _)]
  simp only [C29_index_is_sign, eq_comm (a := (1 : Int)), sgn_pos]
  rw [h] at sum
  split_ifs with h1 h2 h3
  · simp only [false_iff, Bool.false_eq_true]; rintro ⟨e, _⟩; linarith
  · simp only [false_iff, Bool.false_eq_true]; rintro ⟨_, e, _⟩; linarith
  · simp only [false_iff, Bool.false_eq_true]; rintro ⟨_, _, e⟩; linarith
  · simp only [true_iff]; exact ⟨by linarith, by linarith, by linarith⟩

/-- So the triangle `(0,0) (1,0) (2,0)` intersects the point `(9,0)`, which is not in it. -/
theorem C41_flat_triangle_too_large :
    Triangle.intersects (qp 0 0) (qp 1 0) (qp 2 0) (qp 9 0) = true ∧ ¬ InClosedTriangle (qp 9 0) (qp 0 0) (qp 1 0) (qp 2 0) := by
  refine ⟨(C41_intersects_flat _ _ _ _ (by norm_num [det, qp])).mpr (by norm_num [det, qp]), ?_⟩
  rintro ⟨s, t, u, hs, ht, hu, e, hx, hy⟩
  simp [qp] at hx; linarith

/-! ### Non-trivial cases -/
section examples

example : det (qp 0 0) (qp 4 0) (qp 1 3) ≠ 0 := by norm_num [det, qp]
example : (Triangle.circumcentre (qp 0 0) (qp 4 0) (qp 1 3)).x = 2 ∧ (Triangle.circumcentre (qp 0 0) (qp 4 0) (qp 1 3)).y = 1 := by
  norm_num [Triangle.circumcentre, Triangle.det2, qp]
example : Triangle.isAcute (qp 0 0) (qp 4 0) (qp 1 3) = true := by decide +kernel
example : Triangle.isAcute (qp 0 0) (qp 4 0) (qp 0 3) = false := by decide +kernel
example : Triangle.intersects (qp 0 0) (qp 4 0) (qp 1 3) (qp 2 2) = true := by decide +kernel
example : Triangle.intersects (qp 0 0) (qp 1 3) (qp 4 0) (qp 3 3) = false := by decide +kernel
example : Triangle.interpolateZ (qp 1 1) (⟨0, 0, 1, 0⟩ : Coord ℚ) ⟨2, 0, 3, 0⟩ ⟨0, 2, 5, 0⟩ = 4 := by
  norm_num [Triangle.interpolateZ, qp]

end examples
end Verif.Props
