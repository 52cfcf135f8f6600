import Verif.Props.Triangle
import Verif.Props.Distance

set_option linter.unusedSectionVars false

/-! # C41: triangle measures with square roots, in exact real arithmetic -/

namespace Verif.Props
open Flt Verif.Spec

theorem dist_pos_of_ne {a b : Coord ℝ} (h : ¬ (a.x = b.x ∧ a.y = b.y)) : 0 < Spec.dist a b :=
  lt_of_le_of_ne (Spec.dist_nonneg a b) (fun e => h ((Spec.dist_eq_zero a b).mp e.symm))

theorem sides_pos (a b c : Coord ℝ) (h : det a b c ≠ 0) : 0 < Spec.dist a b ∧ 0 < Spec.dist b c ∧ 0 < Spec.dist c a := by
  refine ⟨dist_pos_of_ne fun e => h ?_, dist_pos_of_ne fun e => h ?_, dist_pos_of_ne fun e => h ?_⟩
  · unfold det; rw [e.1, e.2]; ring
  · unfold det; rw [e.1, e.2]; ring
  · unfold det; rw [e.1, e.2]; ring

/-- The circumradius is the distance from the circumcentre to each vertex. -/
theorem C41_circumradius (a b c : Coord ℝ) (h : det a b c ≠ 0) :
    Triangle.circumradius a b c = Spec.dist (Triangle.circumcentre a b c) a ∧
    Triangle.circumradius a b c = Spec.dist (Triangle.circumcentre a b c) b ∧
    Triangle.circumradius a b c = Spec.dist (Triangle.circumcentre a b c) c := by
  obtain ⟨e1, e2⟩ := (C41_circumcentre a b c _ h).mpr ⟨rfl, rfl⟩
  have ar := (C41_signed_area a b c).2.2.2.2.2
  have hD : 0 < |det a b c| := abs_pos.mpr h
  have main : Triangle.circumradius a b c = Spec.dist (Triangle.circumcentre a b c) c := by
    have r : Triangle.circumradius a b c = Spec.dist a b * Spec.dist b c * Spec.dist c a / (2 * |det a b c|) := by
      unfold Triangle.circumradius
      simp only [distance_eq, real_toFlt]
      rw [ar]
      rw [if_neg (by simp [h])]
      simp only [exact_mul, exact_div, exact_lit, Rat.cast_ofNat]
      congr 1; ring
    rw [r]
    have nn := Spec.dist_nonneg
    refine (sq_eq_sq₀ (by have := nn a b; have := nn b c; have := nn c a; positivity) (nn _ _)).mp ?_
    rw [div_pow, mul_pow, mul_pow, mul_pow, sq_abs, dist_sq, dist_sq, dist_sq, dist_sq]
    rw [div_eq_iff (by positivity)]
    have cx : (Triangle.circumcentre a b c).x - c.x = -(((a.y - c.y) * ((b.x - c.x) ^ 2 + (b.y - c.y) ^ 2) - ((a.x - c.x) ^ 2 + (a.y - c.y) ^ 2) * (b.y - c.y)) / (2 * det a b c)) := by
      have hd : (a.x - c.x) * (b.y - c.y) - (a.y - c.y) * (b.x - c.x) = det a b c := by unfold det; ring
      unfold Triangle.circumcentre Triangle.det2
      simp only [exact_sub, exact_mul, exact_add, exact_div, exact_lit, Rat.cast_ofNat, real_toFlt]
      rw [hd]; ring
    have cy : (Triangle.circumcentre a b c).y - c.y = ((a.x - c.x) * ((b.x - c.x) ^ 2 + (b.y - c.y) ^ 2) - ((a.x - c.x) ^ 2 + (a.y - c.y) ^ 2) * (b.x - c.x)) / (2 * det a b c) := by
      have hd : (a.x - c.x) * (b.y - c.y) - (a.y - c.y) * (b.x - c.x) = det a b c := by unfold det; ring
      unfold Triangle.circumcentre Triangle.det2
      simp only [exact_sub, exact_mul, exact_add, exact_div, exact_lit, Rat.cast_ofNat, real_toFlt]
      rw [hd]; ring
    rw [cx, cy]
    field_simp
    ring
  have d1 : Spec.dist (Triangle.circumcentre a b c) a = Spec.dist (Triangle.circumcentre a b c) c := by
    unfold Spec.dist; exact congrArg _ e1
  have d2 : Spec.dist (Triangle.circumcentre a b c) b = Spec.dist (Triangle.circumcentre a b c) c := by
    unfold Spec.dist; exact congrArg _ e2
  exact ⟨by rw [d1, main], by rw [d2, main], main⟩

/-- In any arithmetic, an area of zero gives an infinite circumradius. -/
theorem C41_circumradius_flat {α : Type} [FltSqrt α] (a b c : Coord α) (h : (Triangle.area a b c ==. lit 0) = true) :
    Triangle.circumradius a b c = pinf := by
  unfold Triangle.circumradius; simp only [h, if_true]

/-- The incentre is inside the triangle and at the same distance (twice the area over the perimeter) from the three side lines. -/
theorem C41_in_centre (a b c : Coord ℝ) (h : det a b c ≠ 0) :
    InClosedTriangle (Triangle.inCentre a b c) a b c ∧
    |det a b (Triangle.inCentre a b c)| / Spec.dist a b = 2 * Triangle.area a b c / Triangle.length a b c ∧
    |det b c (Triangle.inCentre a b c)| / Spec.dist b c = 2 * Triangle.area a b c / Triangle.length a b c ∧
    |det c a (Triangle.inCentre a b c)| / Spec.dist c a = 2 * Triangle.area a b c / Triangle.length a b c := by
  obtain ⟨h1, h2, h3⟩ := sides_pos a b c h
  have ar := (C41_signed_area a b c).2.2.2.2.2
  have hx : (Triangle.inCentre a b c).x = (Spec.dist b c * a.x + Spec.dist c a * b.x + Spec.dist a b * c.x) / (Spec.dist b c + Spec.dist c a + Spec.dist a b) := by
    unfold Triangle.inCentre; simp only [distance_eq, real_toFlt, exact_add, exact_mul, exact_div, Spec.dist_comm a c]
  have hy : (Triangle.inCentre a b c).y = (Spec.dist b c * a.y + Spec.dist c a * b.y + Spec.dist a b * c.y) / (Spec.dist b c + Spec.dist c a + Spec.dist a b) := by
    unfold Triangle.inCentre; simp only [distance_eq, real_toFlt, exact_add, exact_mul, exact_div, Spec.dist_comm a c]
  have hl : Triangle.length a b c = Spec.dist a b + Spec.dist b c + Spec.dist c a := by
    unfold Triangle.length; simp only [distance_eq, real_toFlt, exact_add]
  rw [ar, hl]
  obtain ⟨u, hu⟩ : ∃ u, u = Spec.dist a b := ⟨_, rfl⟩
  obtain ⟨v, hv⟩ : ∃ u, u = Spec.dist b c := ⟨_, rfl⟩
  obtain ⟨w, hw⟩ : ∃ u, u = Spec.dist c a := ⟨_, rfl⟩
  rw [← hu] at h1; rw [← hv] at h2; rw [← hw] at h3
  rw [← hu, ← hv, ← hw] at hx hy ⊢
  have hs : 0 < v + w + u := by positivity
  have t : ∀ (e s : ℝ), 0 < s → e = s / (v + w + u) * det a b c → |e| / s = 2 * (|det a b c| / 2) / (u + v + w) := by
    intro e s hs' he
    rw [he, abs_mul, abs_of_pos (div_pos hs' hs), show u + v + w = v + w + u by ring]
    field_simp
  refine ⟨⟨v / (v + w + u), w / (v + w + u), u / (v + w + u), by positivity, by positivity, by positivity, by field_simp, ?_, ?_⟩,
    t _ u h1 ?_, t _ v h2 ?_, t _ w h3 ?_⟩
  · rw [hx]; field_simp
  · rw [hy]; field_simp
  · unfold det; rw [hx, hy]; field_simp; ring
  · unfold det; rw [hx, hy]; field_simp; ring
  · unfold det; rw [hx, hy]; field_simp; ring

/-- The perimeter is the sum and the longest side the largest of the three distances; each does not depend on the order of the vertices. -/
theorem C41_sides (a b c : Coord ℝ) :
    Triangle.length a b c = Spec.dist a b + Spec.dist b c + Spec.dist c a ∧
    Triangle.longestSide a b c = max (max (Spec.dist a b) (Spec.dist b c)) (Spec.dist c a) ∧
    2 * Triangle.longestSide a b c ≤ Triangle.length a b c ∧ Triangle.length a b c ≤ 3 * Triangle.longestSide a b c ∧
    Triangle.longestSide b c a = Triangle.longestSide a b c ∧ Triangle.longestSide b a c = Triangle.longestSide a b c := by
  have hl : Triangle.length a b c = Spec.dist a b + Spec.dist b c + Spec.dist c a := by
    unfold Triangle.length; simp only [distance_eq, real_toFlt, exact_add]
  have hm : ∀ a b c : Coord ℝ, Triangle.longestSide a b c = max (max (Spec.dist a b) (Spec.dist b c)) (Spec.dist c a) := by
    intro a b c
    unfold Triangle.longestSide
    simp only [distance_eq, real_toFlt, exact_lt, decide_eq_true_eq]
    grind
  have t1 := Spec.dist_triangle a b c
  have t2 := Spec.dist_triangle b c a
  have t3 := Spec.dist_triangle c a b
  rw [hl, hm, hm, hm, Spec.dist_comm b a, Spec.dist_comm c b, Spec.dist_comm a c] at *
  refine ⟨rfl, rfl, ?_, ?_, ?_, ?_⟩ <;> grind [Spec.dist_comm]

/-- The angle bisector point is on the opposite side, at the same distance from the two other side lines. -/
theorem C41_angle_bisector (a b c : Coord ℝ) (h : ¬ (a.x = b.x ∧ a.y = b.y)) (h' : ¬ (c.x = b.x ∧ c.y = b.y)) :
    OnSegment (Triangle.angleBisector a b c) a c ∧
    |det b a (Triangle.angleBisector a b c)| / Spec.dist b a = |det b c (Triangle.angleBisector a b c)| / Spec.dist b c := by
  have h1 := dist_pos_of_ne h
  have h2 := dist_pos_of_ne h'
  rw [Spec.dist_comm] at h1 h2
  have hx : (Triangle.angleBisector a b c).x = a.x + Spec.dist b a / (Spec.dist b a + Spec.dist b c) * (c.x - a.x) := by
    unfold Triangle.angleBisector; simp only [distance_eq, real_toFlt, exact_add, exact_mul, exact_div, exact_sub]
  have hy : (Triangle.angleBisector a b c).y = a.y + Spec.dist b a / (Spec.dist b a + Spec.dist b c) * (c.y - a.y) := by
    unfold Triangle.angleBisector; simp only [distance_eq, real_toFlt, exact_add, exact_mul, exact_div, exact_sub]
  obtain ⟨u, hu⟩ : ∃ u, u = Spec.dist b a := ⟨_, rfl⟩
  obtain ⟨v, hv⟩ : ∃ u, u = Spec.dist b c := ⟨_, rfl⟩
  rw [← hu] at h1; rw [← hv] at h2; rw [← hu, ← hv] at hx hy ⊢
  refine ⟨⟨u / (u + v), by positivity, by rw [div_le_one (by positivity)]; linarith, hx, hy⟩, ?_⟩
  have d1 : det b a (Triangle.angleBisector a b c) = -(u / (u + v)) * det a b c := by unfold det; rw [hx, hy]; ring
  have d2 : det b c (Triangle.angleBisector a b c) = v / (u + v) * det a b c := by unfold det; rw [hx, hy]; field_simp; ring
  rw [d1, d2, abs_mul, abs_mul, abs_neg, abs_of_pos (show 0 < u / (u + v) by positivity), abs_of_pos (show 0 < v / (u + v) by positivity)]
  field_simp

/-- Squared distance in space. -/
def sq3 (p q : Coord ℝ) : ℝ := (p.x - q.x) ^ 2 + (p.y - q.y) ^ 2 + (p.z - q.z) ^ 2

/-- The area in space satisfies Heron's formula for the three side lengths in space, is never negative, and agrees with the area in
the plane for triangles of constant height. -/
theorem C41_area_3d (a b c : Coord ℝ) :
    16 * Triangle.area3D a b c ^ 2 =
      4 * sq3 a b * sq3 c a - (sq3 a b + sq3 c a - sq3 b c) ^ 2 ∧
    0 ≤ Triangle.area3D a b c ∧
    (a.z = b.z → a.z = c.z → Triangle.area3D a b c = Triangle.area a b c) ∧ Triangle.area a b c ≤ Triangle.area3D a b c := by
  obtain ⟨cx, hcx⟩ : ∃ u : ℝ, u = (b.y - a.y) * (c.z - a.z) - (b.z - a.z) * (c.y - a.y) := ⟨_, rfl⟩
  obtain ⟨cy, hcy⟩ : ∃ u : ℝ, u = (b.z - a.z) * (c.x - a.x) - (b.x - a.x) * (c.z - a.z) := ⟨_, rfl⟩
  have e : Triangle.area3D a b c = Real.sqrt (cx * cx + cy * cy + det a b c * det a b c) / 2 := by
    unfold Triangle.area3D det
    simp only [real_toFlt, real_sqrt, exact_add, exact_mul, exact_div, exact_sub, exact_lit, Rat.cast_ofNat, hcx, hcy]
  have ar := (C41_signed_area a b c).2.2.2.2.2
  refine ⟨?_, ?_, ?_, ?_⟩
  · rw [e, div_pow, Real.sq_sqrt (add_nonneg (add_nonneg (mul_self_nonneg _) (mul_self_nonneg _)) (mul_self_nonneg _)), hcx, hcy]
    unfold sq3 det; ring
  · rw [e]; positivity
  · intro h1 h2
    rw [e, ar, hcx, hcy, ← h1, ← h2]
    rw [show (b.y - a.y) * (a.z - a.z) - (a.z - a.z) * (c.y - a.y) = 0 by ring, show (a.z - a.z) * (c.x - a.x) - (b.x - a.x) * (a.z - a.z) = 0 by ring]
    rw [show (0 : ℝ) * 0 + 0 * 0 + det a b c * det a b c = det a b c ^ 2 by ring, Real.sqrt_sq_eq_abs]
  · rw [e, ar]
    have : |det a b c| ≤ Real.sqrt (cx * cx + cy * cy + det a b c * det a b c) := by
      rw [← Real.sqrt_sq_eq_abs]; apply Real.sqrt_le_sqrt; nlinarith [mul_self_nonneg cx, mul_self_nonneg cy]
    linarith

/-! ### Non-trivial cases -/
section examples
noncomputable def rpt (x y : ℝ) : Coord ℝ := ⟨x, y, 0, 0⟩
example : det (rpt 0 0) (rpt 4 0) (rpt 0 3) ≠ 0 := by norm_num [det, rpt]
example : Triangle.area3D (⟨0, 0, 0, 0⟩ : Coord ℝ) ⟨2, 0, 0, 0⟩ ⟨0, 0, 3, 0⟩ = 3 := by
  unfold Triangle.area3D
  simp only [real_toFlt, real_sqrt, exact_add, exact_mul, exact_div, exact_sub, exact_lit, Rat.cast_ofNat]
  rw [show ((0:ℝ) - 0) * (3 - 0) - (0 - 0) * (0 - 0) = 0 by ring, show ((0:ℝ) - 0) * (0 - 0) - (2 - 0) * (3 - 0) = -6 by ring,
    show ((2:ℝ) - 0) * (0 - 0) - (0 - 0) * (0 - 0) = 0 by ring, show (0:ℝ) * 0 + -6 * -6 + 0 * 0 = 6 ^ 2 by norm_num, Real.sqrt_sq (by norm_num)]
  norm_num
example : ∃ a b c : Coord EQ, (Triangle.area a b c ==. lit 0) = true :=
  ⟨ep 0 0, ep 1 0, ep 2 0, by simp [Triangle.area, ep, EQ.div_fin]⟩
end examples
end Verif.Props
