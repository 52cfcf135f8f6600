import Verif.Model.TriangleObject
import Verif.Props.TriangleReal
import Verif.Props.Vectors64
import Verif.Lemmas.Doubles

/-! # C112: triangles do not depend on the order of their vertices, and follow similarities -/

set_option linter.unusedSectionVars false

namespace Verif.Props
open Flt Verif.Spec Verif.Binary64

/-- The vertices of a triangle. -/
def verts {α : Type} (t : Tri α) : List (Coord α) := [t.p0, t.p1, t.p2]

theorem perm3_ind {β : Type} (P : β → β → β → Prop) (rot : ∀ a b c, P a b c → P b c a) (swap : ∀ a b c, P a b c → P b a c)
    {a b c d e f : β} (h : [d, e, f].Perm [a, b, c]) (p : P a b c) : P d e f := by
  have two : ∀ {d e f : β} {b c : β}, [e, f].Perm [b, c] → P d b c → P d e f := by
    intro d e f b c h p
    rcases List.mem_cons.mp (h.mem_iff.mp List.mem_cons_self) with rfl | h'
    · have := List.singleton_perm.mp ((List.perm_cons e).mp h)
      simp only [List.cons.injEq, and_true] at this
      rw [this]; exact p
    · simp only [List.mem_cons, List.not_mem_nil, or_false] at h'
      subst h'
      have := List.singleton_perm.mp ((List.perm_cons e).mp (h.trans (List.Perm.swap _ _ _)))
      simp only [List.cons.injEq, and_true] at this
      rw [this]
      exact rot _ _ _ (rot _ _ _ (swap _ _ _ (rot _ _ _ p)))
  rcases List.mem_cons.mp (h.mem_iff.mp List.mem_cons_self) with rfl | h'
  · exact two ((List.perm_cons d).mp h) p
  · rcases List.mem_cons.mp h' with rfl | h'
    · exact two ((List.perm_cons d).mp (h.trans (List.Perm.swap _ _ _))) (swap _ _ _ p)
    · simp only [List.mem_cons, List.not_mem_nil, or_false] at h'
      subst h'
      refine two ((List.perm_cons d).mp (h.trans ?_)) (rot _ _ _ (rot _ _ _ p))
      exact (List.perm_append_comm (l₁ := [a, b]) (l₂ := [d]))

/-! ## Exact arithmetic -/

theorem inCentre_xy (a b c : Coord ℝ) : Triangle.inCentre a b c =
    { Coord.default with
      x := (Spec.dist b c * a.x + Spec.dist c a * b.x + Spec.dist a b * c.x) / (Spec.dist b c + Spec.dist c a + Spec.dist a b)
      y := (Spec.dist b c * a.y + Spec.dist c a * b.y + Spec.dist a b * c.y) / (Spec.dist b c + Spec.dist c a + Spec.dist a b) } := by
  unfold Triangle.inCentre; simp only [distance_eq, real_toFlt, exact_add, exact_mul, exact_div, Spec.dist_comm a c]

theorem circumradius_eq (a b c : Coord ℝ) : Triangle.circumradius a b c =
    if det a b c = 0 then pinf else Spec.dist a b * Spec.dist b c * Spec.dist c a / (2 * |det a b c|) := by
  unfold Triangle.circumradius
  rw [(C41_signed_area a b c).2.2.2.2.2]
  simp only [distance_eq, real_toFlt, exact_mul, exact_div, exact_lit, exact_eq, Rat.cast_ofNat, Rat.cast_zero, decide_eq_true_eq]
  by_cases h : det a b c = 0
  · rw [if_pos (by simp [h]), if_pos h]
  · rw [if_neg (by simp [h]), if_neg h]; congr 1; ring

theorem area3D_eq (a b c : Coord ℝ) : Triangle.area3D a b c =
    Real.sqrt (4 * sq3 a b * sq3 c a - (sq3 a b + sq3 c a - sq3 b c) ^ 2) / 4 := by
  obtain ⟨h, h0, -⟩ := C41_area_3d a b c
  rw [← h, show 16 * Triangle.area3D a b c ^ 2 = (4 * Triangle.area3D a b c) ^ 2 by ring, Real.sqrt_sq (by linarith)]
  ring

theorem centroid_xy (a b c : Coord ℝ) : Triangle.centroid a b c =
    { Coord.default with x := (a.x + b.x + c.x) / 3, y := (a.y + b.y + c.y) / 3 } := by
  unfold Triangle.centroid; simp only [real_toFlt, exact_add, exact_div, exact_lit, Rat.cast_ofNat]

theorem coordD_ext {x y x' y' : ℝ} (hx : x = x') (hy : y = y') :
    ({ Coord.default with x := x, y := y } : Coord ℝ) = { Coord.default with x := x', y := y' } := by rw [hx, hy]

theorem circumcentre_zm (a b c : Coord ℝ) : Triangle.circumcentre a b c =
    { Coord.default with x := (Triangle.circumcentre a b c).x, y := (Triangle.circumcentre a b c).y } := rfl

/-- Everything about a triangle that does not depend on the order of its vertices. -/
structure SameShape (s t : Tri ℝ) : Prop where
  length : s.length = t.length
  longestSide : s.longestSide = t.longestSide
  area : s.area = t.area
  area3D : s.area3D = t.area3D
  isAcute : s.isAcute = t.isAcute
  circumradius : s.circumradius = t.circumradius
  centroid : s.centroid = t.centroid
  inCentre : s.inCentre = t.inCentre

theorem det_rot {K : Type} [Field K] (a b c : Coord K) : det b c a = det a b c := by unfold det; ring
theorem det_swap12 {K : Type} [Field K] (a b c : Coord K) : det b a c = -det a b c := by unfold det; ring

theorem shape_rot (a b c : Coord ℝ) : SameShape ⟨b, c, a⟩ ⟨a, b, c⟩ := by
  have d := Spec.dist_comm
  refine ⟨?_, ?_, ?_, ?_, ?_, ?_, ?_, ?_⟩
  · simp only [Tri.length, (C41_sides _ _ _).1]; ring
  · exact (C41_sides a b c).2.2.2.2.1
  · simp only [Tri.area, (C41_signed_area _ _ _).2.2.2.2.2, det_rot]
  · simp only [Tri.area3D, area3D_eq]
    have e : ∀ p q : Coord ℝ, sq3 p q = sq3 q p := fun p q => by unfold sq3; ring
    congr 2; ring
  · rw [Bool.eq_iff_iff]; simp only [Tri.isAcute, C41_acute]; tauto
  · simp only [Tri.circumradius, circumradius_eq, det_rot]; congr 2; ring
  · simp only [Tri.centroid, centroid_xy]; exact coordD_ext (by ring) (by ring)
  · simp only [Tri.inCentre, inCentre_xy]
    exact coordD_ext (by congr 1 <;> ring) (by congr 1 <;> ring)

theorem shape_swap (a b c : Coord ℝ) : SameShape ⟨b, a, c⟩ ⟨a, b, c⟩ := by
  have d := Spec.dist_comm
  refine ⟨?_, ?_, ?_, ?_, ?_, ?_, ?_, ?_⟩
  · simp only [Tri.length, (C41_sides _ _ _).1, d b a, d a c, d c b]; ring
  · exact (C41_sides a b c).2.2.2.2.2
  · simp only [Tri.area, (C41_signed_area _ _ _).2.2.2.2.2, det_swap12 a b c, abs_neg]
  · have e : ∀ p q : Coord ℝ, sq3 p q = sq3 q p := fun p q => by unfold sq3; ring
    simp only [Tri.area3D, area3D_eq, e b a, e a c, e c b]
    congr 2; ring
  · rw [Bool.eq_iff_iff]
    have e : ∀ p q : Coord ℝ, sq2 p q = sq2 q p := fun p q => by unfold sq2; ring
    simp only [Tri.isAcute, C41_acute, e b a, e a c, e c b, add_comm (sq2 b c)]
    rw [add_comm (sq2 c a) (sq2 a b)]; tauto
  · simp only [Tri.circumradius, circumradius_eq, det_swap12 a b c, abs_neg, neg_eq_zero, d b a, d a c, d c b]; congr 2; ring
  · simp only [Tri.centroid, centroid_xy]; exact coordD_ext (by ring) (by ring)
  · simp only [Tri.inCentre, inCentre_xy, d b a, d a c, d c b]
    exact coordD_ext (by congr 1 <;> ring) (by congr 1 <;> ring)

theorem SameShape.trans {r s t : Tri ℝ} (h : SameShape r s) (k : SameShape s t) : SameShape r t :=
  ⟨h.1.trans k.1, h.2.trans k.2, h.3.trans k.3, h.4.trans k.4, h.5.trans k.5, h.6.trans k.6, h.7.trans k.7, h.8.trans k.8⟩

/-- C112: in exact arithmetic length, longest side, areas, the test for acuteness, circumradius, centroid and in-centre of a triangle do not
depend on the order of its vertices, flat triangles included. -/
theorem C112_reorder (s t : Tri ℝ) (h : (verts s).Perm (verts t)) : SameShape s t :=
  perm3_ind (fun a b c => SameShape ⟨a, b, c⟩ t) (fun a b c p => (shape_rot a b c).trans p) (fun a b c p => (shape_swap a b c).trans p) h
    ⟨rfl, rfl, rfl, rfl, rfl, rfl, rfl, rfl⟩

/-- C112: so do the circumcentre and the interpolated heights of a triangle that is not flat. -/
theorem C112_reorder_proper (s t : Tri ℝ) (h : (verts s).Perm (verts t)) (hd : det t.p0 t.p1 t.p2 ≠ 0) :
    s.circumcentre = t.circumcentre ∧ ∀ p, s.interpolateZ p = t.interpolateZ p := by
  refine (perm3_ind (fun a b c => det a b c ≠ 0 ∧ Triangle.circumcentre a b c = t.circumcentre ∧
    ∀ p, Triangle.interpolateZ p a b c = t.interpolateZ p) ?_ ?_ h ⟨hd, rfl, fun _ => rfl⟩).2
  · rintro a b c ⟨h0, h1, h2⟩
    have h0' : det b c a ≠ 0 := by rwa [det_rot]
    refine ⟨h0', h1 ▸ ?_, fun p => (h2 p) ▸ (C41_interpolate_z_vertices a b c p h0).2.2.2.1⟩
    obtain ⟨e1, e2⟩ := (C41_circumcentre b c a _ h0').mpr ⟨rfl, rfl⟩
    obtain ⟨hx, hy⟩ := (C41_circumcentre a b c _ h0).mp ⟨e2.symm, e1.trans e2.symm⟩
    rw [circumcentre_zm b c a, circumcentre_zm a b c]; exact coordD_ext hx hy
  · rintro a b c ⟨h0, h1, h2⟩
    have h0' : det b a c ≠ 0 := by rw [det_swap12]; exact neg_ne_zero.mpr h0
    have hz := fun p => (C41_interpolate_z_vertices a b c p h0).2.2.2
    have hz' : ∀ p, Triangle.interpolateZ p b a c = Triangle.interpolateZ p a b c := fun p => by
      have := (C41_interpolate_z_vertices b c a p (by rwa [det_rot])).2.2.2.2
      rw [this, (hz p).1]
    refine ⟨h0', h1 ▸ ?_, fun p => (h2 p) ▸ hz' p⟩
    obtain ⟨e1, e2⟩ := (C41_circumcentre b a c _ h0').mpr ⟨rfl, rfl⟩
    obtain ⟨hx, hy⟩ := (C41_circumcentre a b c _ h0).mp ⟨e2, e1⟩
    rw [circumcentre_zm b a c, circumcentre_zm a b c]; exact coordD_ext hx hy

/-- C112: the signed area and the turn keep under a rotation of the vertices; a swap of two vertices changes the sign of the area and
the turn of a triangle that is not flat. -/
theorem C112_turn (a b c : Coord ℝ) :
    (∀ t ∈ [Tri.new b c a, Tri.new c a b], t.signedArea = (Tri.new a b c).signedArea ∧ t.isCCW = (Tri.new a b c).isCCW) ∧
    (∀ t ∈ [Tri.new b a c, Tri.new a c b, Tri.new c b a], t.signedArea = -(Tri.new a b c).signedArea ∧
      (det a b c ≠ 0 → t.isCCW = !(Tri.new a b c).isCCW)) := by
  have sa : ∀ a b c : Coord ℝ, (Tri.new a b c).signedArea = -(det a b c) / 2 := fun a b c => (C41_signed_area a b c).1
  have cw : ∀ a b c : Coord ℝ, (Tri.new a b c).isCCW = decide (0 < det a b c) := fun a b c => by
    rw [Bool.eq_iff_iff, decide_eq_true_eq]; exact (C41_is_ccw a b c).1
  have r2 : det c a b = det a b c := by unfold det; ring
  have s1 := det_swap12 a b c
  have s2 : det a c b = -det a b c := by unfold det; ring
  have s3 : det c b a = -det a b c := by unfold det; ring
  have fl : det a b c ≠ 0 → decide (0 < -det a b c) = !decide (0 < det a b c) := fun h => by
    rcases lt_or_gt_of_ne h with h | h
    · simp [h, h.le, not_lt.mpr h.le]
    · simp [h, h.le]
  simp only [List.mem_cons, List.not_mem_nil, or_false, forall_eq_or_imp, forall_eq, sa, cw, det_rot, r2, s1, s2, s3]
  exact ⟨⟨⟨trivial, trivial⟩, trivial, trivial⟩, ⟨by ring, fl⟩, ⟨by ring, fl⟩, by ring, fl⟩

/-- A similarity of the plane: a turn and stretch by `(p, q)`, mirrored if `e = -1`, followed by a move; heights are stretched and moved
alike. -/
structure Similarity where
  p : ℝ
  q : ℝ
  k : ℝ
  e : ℝ
  u : ℝ
  v : ℝ
  w : ℝ
  kpos : 0 < k
  kk : k ^ 2 = p ^ 2 + q ^ 2
  ee : e ^ 2 = 1

/-- The image of a point in the plane. -/
def Similarity.x (f : Similarity) (c : Coord ℝ) : ℝ := f.p * c.x - f.e * f.q * c.y + f.u
def Similarity.y (f : Similarity) (c : Coord ℝ) : ℝ := f.q * c.x + f.e * f.p * c.y + f.v

def Similarity.map (f : Similarity) (c : Coord ℝ) : Coord ℝ := ⟨f.x c, f.y c, f.k * c.z + f.w, c.m⟩

theorem sim_det (f : Similarity) (a b c : Coord ℝ) : det (f.map a) (f.map b) (f.map c) = f.e * f.k ^ 2 * det a b c := by
  rw [f.kk]; unfold det Similarity.map Similarity.x Similarity.y; ring

theorem sim_sq2 (f : Similarity) (a b : Coord ℝ) : sq2 (f.map a) (f.map b) = f.k ^ 2 * sq2 a b := by
  rw [f.kk]
  have : sq2 (f.map a) (f.map b) = f.p ^ 2 * (a.x - b.x) ^ 2 + f.e ^ 2 * (f.q ^ 2 * (a.y - b.y) ^ 2) + f.q ^ 2 * (a.x - b.x) ^ 2 +
      f.e ^ 2 * (f.p ^ 2 * (a.y - b.y) ^ 2) := by
    unfold sq2 Similarity.map Similarity.x Similarity.y; ring
  rw [this, f.ee]; unfold sq2; ring

theorem sim_sq3 (f : Similarity) (a b : Coord ℝ) : sq3 (f.map a) (f.map b) = f.k ^ 2 * sq3 a b := by
  have h := sim_sq2 f a b
  have e1 : sq3 (f.map a) (f.map b) = sq2 (f.map a) (f.map b) + (f.k * (a.z - b.z)) ^ 2 := by
    unfold sq3 sq2 Similarity.map; ring
  rw [e1, h]; unfold sq3 sq2; ring

theorem sim_dist (f : Similarity) (a b : Coord ℝ) : Spec.dist (f.map a) (f.map b) = f.k * Spec.dist a b := by
  have : Spec.dist (f.map a) (f.map b) = Real.sqrt (sq2 (f.map a) (f.map b)) := rfl
  rw [this, sim_sq2, Real.sqrt_mul (pow_nonneg f.kpos.le 2), Real.sqrt_sq f.kpos.le]; rfl

/-- The image of a triangle. -/
def Similarity.tri (f : Similarity) (t : Tri ℝ) : Tri ℝ := Tri.new (f.map t.p0) (f.map t.p1) (f.map t.p2)

theorem sim_abs_e (f : Similarity) : |f.e| = 1 := by
  have : |f.e| ^ 2 = 1 := by rw [sq_abs, f.ee]
  exact (pow_eq_one_iff_of_nonneg (abs_nonneg _) two_ne_zero).mp this

/-- C112: a similarity multiplies lengths by its factor and areas by the square of it; signed areas change sign under mirrors; acuteness
is kept. -/
theorem C112_similar (f : Similarity) (t : Tri ℝ) :
    (f.tri t).length = f.k * t.length ∧ (f.tri t).longestSide = f.k * t.longestSide ∧ (f.tri t).area = f.k ^ 2 * t.area ∧
    (f.tri t).signedArea = f.e * (f.k ^ 2 * t.signedArea) ∧ (f.tri t).area3D = f.k ^ 2 * t.area3D ∧ (f.tri t).isAcute = t.isAcute := by
  obtain ⟨a, b, c⟩ := t
  have hk := f.kpos
  have hk2 : 0 < f.k ^ 2 := pow_pos hk 2
  refine ⟨?_, ?_, ?_, ?_, ?_, ?_⟩
  · show Triangle.length (f.map a) (f.map b) (f.map c) = f.k * Triangle.length a b c
    rw [(C41_sides _ _ _).1, (C41_sides _ _ _).1, sim_dist, sim_dist, sim_dist]; ring
  · show Triangle.longestSide (f.map a) (f.map b) (f.map c) = f.k * Triangle.longestSide a b c
    rw [(C41_sides _ _ _).2.1, (C41_sides _ _ _).2.1, sim_dist, sim_dist, sim_dist, mul_max_of_nonneg _ _ hk.le, mul_max_of_nonneg _ _ hk.le]
  · show Triangle.area (f.map a) (f.map b) (f.map c) = f.k ^ 2 * Triangle.area a b c
    rw [(C41_signed_area _ _ _).2.2.2.2.2, (C41_signed_area _ _ _).2.2.2.2.2, sim_det, abs_mul, abs_mul, sim_abs_e, abs_of_pos hk2]; ring
  · show Triangle.signedArea (f.map a) (f.map b) (f.map c) = f.e * (f.k ^ 2 * Triangle.signedArea a b c)
    rw [(C41_signed_area _ _ _).1, (C41_signed_area _ _ _).1, sim_det]; ring
  · show Triangle.area3D (f.map a) (f.map b) (f.map c) = f.k ^ 2 * Triangle.area3D a b c
    rw [area3D_eq, area3D_eq, sim_sq3, sim_sq3, sim_sq3,
      show 4 * (f.k ^ 2 * sq3 a b) * (f.k ^ 2 * sq3 c a) - (f.k ^ 2 * sq3 a b + f.k ^ 2 * sq3 c a - f.k ^ 2 * sq3 b c) ^ 2 =
        (f.k ^ 2) ^ 2 * (4 * sq3 a b * sq3 c a - (sq3 a b + sq3 c a - sq3 b c) ^ 2) by ring,
      Real.sqrt_mul (pow_nonneg hk2.le 2), Real.sqrt_sq hk2.le]
    ring
  · show Triangle.isAcute (f.map a) (f.map b) (f.map c) = Triangle.isAcute a b c
    rw [Bool.eq_iff_iff, C41_acute, C41_acute]
    simp only [sim_sq2, ← mul_add, mul_lt_mul_iff_right₀ hk2]

/-- C112: the circumradius of a triangle that is not flat is multiplied by the factor, and its centroid, circumcentre and in-centre are
mapped along. -/
theorem C112_similar_points (f : Similarity) (t : Tri ℝ) :
    (f.tri t).centroid.x = f.x t.centroid ∧ (f.tri t).centroid.y = f.y t.centroid ∧
    (det t.p0 t.p1 t.p2 ≠ 0 →
      (f.tri t).circumradius = f.k * t.circumradius ∧
      (f.tri t).circumcentre.x = f.x t.circumcentre ∧ (f.tri t).circumcentre.y = f.y t.circumcentre ∧
      (f.tri t).inCentre.x = f.x t.inCentre ∧ (f.tri t).inCentre.y = f.y t.inCentre) := by
  obtain ⟨a, b, c⟩ := t
  have hk := f.kpos
  have hk2 : 0 < f.k ^ 2 := pow_pos hk 2
  refine ⟨?_, ?_, fun hd => ?_⟩
  · show (Triangle.centroid (f.map a) (f.map b) (f.map c)).x = f.x (Triangle.centroid a b c)
    simp only [centroid_xy, Similarity.x, Similarity.map, Similarity.y]; ring
  · show (Triangle.centroid (f.map a) (f.map b) (f.map c)).y = f.y (Triangle.centroid a b c)
    simp only [centroid_xy, Similarity.x, Similarity.map, Similarity.y]; ring
  have he : f.e ≠ 0 := fun h => by have := f.ee; rw [h] at this; norm_num at this
  have hd' : det (f.map a) (f.map b) (f.map c) ≠ 0 := by rw [sim_det]; exact mul_ne_zero (mul_ne_zero he hk2.ne') hd
  obtain ⟨h1, h2, h3⟩ := sides_pos a b c hd
  refine ⟨?_, ?_⟩
  · show Triangle.circumradius (f.map a) (f.map b) (f.map c) = f.k * Triangle.circumradius a b c
    rw [circumradius_eq, circumradius_eq, if_neg hd', if_neg hd, sim_det, sim_dist, sim_dist, sim_dist, abs_mul, abs_mul, sim_abs_e, abs_of_pos hk2]
    have : 0 < |det a b c| := abs_pos.mpr hd
    field_simp
  obtain ⟨e1, e2⟩ := (C41_circumcentre a b c _ hd).mpr ⟨rfl, rfl⟩
  obtain ⟨cx, cy⟩ := (C41_circumcentre _ _ _ (f.map (Triangle.circumcentre a b c)) hd').mp
    ⟨by rw [sim_sq2, sim_sq2, e1], by rw [sim_sq2, sim_sq2, e2]⟩
  refine ⟨cx.symm, cy.symm, ?_⟩
  obtain ⟨ix, hix⟩ : ∃ i, i = Triangle.inCentre a b c := ⟨_, rfl⟩
  have i1 := inCentre_xy a b c
  show (Triangle.inCentre (f.map a) (f.map b) (f.map c)).x = f.x (Triangle.inCentre a b c) ∧
    (Triangle.inCentre (f.map a) (f.map b) (f.map c)).y = f.y (Triangle.inCentre a b c)
  rw [inCentre_xy, inCentre_xy a b c, sim_dist, sim_dist, sim_dist]
  obtain ⟨u, hu⟩ : ∃ u, u = Spec.dist a b := ⟨_, rfl⟩
  obtain ⟨v, hv⟩ : ∃ u, u = Spec.dist b c := ⟨_, rfl⟩
  obtain ⟨w, hw⟩ : ∃ u, u = Spec.dist c a := ⟨_, rfl⟩
  rw [← hu] at h1; rw [← hv] at h2; rw [← hw] at h3
  rw [← hu, ← hv, ← hw]
  have hs : 0 < v + w + u := by positivity
  simp only [Similarity.x, Similarity.map, Similarity.y]
  constructor
  · field_simp; ring
  · field_simp; ring

/-! ## Doubles -/
variable {sq : ℚ → Val} {hy : ℚ → ℚ → Val}
local notation "pt" => fun (x y : ℚ) => (Coord.xy x y : Coord ℚ)

/-- C112: in doubles the test for acuteness does not depend on the order of the vertices, for all values, NaN and infinities included. -/
theorem C112_acute_doubles (s t : Tri (B64 sq hy)) (h : (verts s).Perm (verts t)) : s.isAcute = t.isAcute := by
  have sym : ∀ a b c : Coord (B64 sq hy), Angle.isAcute a b c = Angle.isAcute c b a := fun a b c => by
    unfold Angle.isAcute; rw [mul_comm64 (a.x -. b.x), mul_comm64 (a.y -. b.y)]
  refine perm3_ind (fun a b c => Triangle.isAcute a b c = t.isAcute) (fun a b c p => p ▸ ?_) (fun a b c p => p ▸ ?_) h rfl
  · unfold Triangle.isAcute
    cases Angle.isAcute a b c <;> cases Angle.isAcute b c a <;> cases Angle.isAcute c a b <;> rfl
  · unfold Triangle.isAcute
    rw [sym b a c, sym a c b, sym c b a]
    cases Angle.isAcute a b c <;> cases Angle.isAcute b c a <;> cases Angle.isAcute c a b <;> rfl

theorem hypot_neg64 (even : ∀ a b : ℚ, hy (-a) (-b) = hy a b) (a b : B64 sq hy) :
    (FltSqrt.hypot (-.a) (-.b) : B64 sq hy) = FltSqrt.hypot a b := by
  cases a <;> cases b <;> first | rfl | exact even _ _

theorem sub_swap64 (a b : B64 sq hy) : b -. a = -.(a -. b) := by
  show b +. (-.a) = -.(a +. (-.b))
  rw [neg_add64, neg_neg64, add_comm64]

theorem distance_comm64 (even : ∀ a b : ℚ, hy (-a) (-b) = hy a b) (a b : Coord (B64 sq hy)) : b.distance a = a.distance b := by
  unfold Coord.distance
  simp only []
  rw [sub_swap64 a.x b.x, sub_swap64 a.y b.y, hypot_neg64 even]

/-- The larger of two doubles, as the code picks it. -/
def pick64 (a b : B64 sq hy) : B64 sq hy := if b >. a then b else a

theorem pick64_fin (a b : ℚ) : pick64 (Fl.fin a : B64 sq hy) (Fl.fin b) = Fl.fin (max a b) := by
  show (if decide (a < b) = true then (Fl.fin b : B64 sq hy) else Fl.fin a) = _
  rcases lt_or_ge a b with h | h
  · rw [if_pos (by simpa using h), max_eq_right h.le]
  · rw [if_neg (by simpa using h), max_eq_left h]

theorem pick64_comm (a b : B64 sq hy) (ha : isNaN a = false) (hb : isNaN b = false) : pick64 a b = pick64 b a := by
  cases a <;> cases b <;> first
    | rfl
    | exact (Bool.false_ne_true ha.symm).elim
    | exact (Bool.false_ne_true hb.symm).elim
    | exact (pick64_fin _ _).trans ((congrArg Fl.fin (max_comm _ _)).trans (pick64_fin _ _).symm)

theorem pick64_assoc (a b c : B64 sq hy) (ha : isNaN a = false) (hb : isNaN b = false) (hc : isNaN c = false) :
    pick64 (pick64 a b) c = pick64 a (pick64 b c) := by
  have f : ∀ x y : ℚ, pick64 (Fl.fin x : B64 sq hy) (Fl.fin y) = Fl.fin (max x y) := pick64_fin
  have f3 : ∀ x y z : ℚ, pick64 (pick64 (Fl.fin x : B64 sq hy) (Fl.fin y)) (Fl.fin z) = pick64 (Fl.fin x) (pick64 (Fl.fin y) (Fl.fin z)) :=
    fun x y z => by rw [f, f, f, f, max_assoc]
  have f4 : ∀ x y : ℚ, pick64 (pick64 (Fl.fin x : B64 sq hy) (Fl.fin y)) Fl.pinf = pick64 (Fl.fin x) (pick64 (Fl.fin y) Fl.pinf) :=
    fun x y => by rw [f]; rfl
  have f5 : ∀ x y : ℚ, pick64 (pick64 (Fl.fin x : B64 sq hy) (Fl.fin y)) Fl.ninf = pick64 (Fl.fin x) (pick64 (Fl.fin y) Fl.ninf) :=
    fun x y => by rw [show pick64 (Fl.fin y : B64 sq hy) Fl.ninf = Fl.fin y from rfl, f]; rfl
  have f6 : ∀ x y : ℚ, pick64 (pick64 (Fl.pinf : B64 sq hy) (Fl.fin x)) (Fl.fin y) = pick64 Fl.pinf (pick64 (Fl.fin x) (Fl.fin y)) :=
    fun x y => by rw [f]; rfl
  have f7 : ∀ x y : ℚ, pick64 (pick64 (Fl.ninf : B64 sq hy) (Fl.fin x)) (Fl.fin y) = pick64 Fl.ninf (pick64 (Fl.fin x) (Fl.fin y)) :=
    fun x y => by rw [show pick64 (Fl.ninf : B64 sq hy) (Fl.fin x) = Fl.fin x from rfl, f]; rfl
  cases a <;> cases b <;> cases c <;> first
    | rfl
    | exact (Bool.false_ne_true ha.symm).elim
    | exact (Bool.false_ne_true hb.symm).elim
    | exact (Bool.false_ne_true hc.symm).elim
    | exact f3 _ _ _ | exact f4 _ _ | exact f5 _ _ | exact f6 _ _ | exact f7 _ _

theorem pick64_nn (a b : B64 sq hy) (ha : isNaN a = false) (hb : isNaN b = false) : isNaN (pick64 a b) = false := by
  unfold pick64; split <;> assumption

/-- C112: if `hypot` does not depend on the signs of its arguments, the longest side computed in doubles does not depend on the order of
the vertices, unless a side is NaN. -/
theorem C112_longest_doubles (even : ∀ a b : ℚ, hy (-a) (-b) = hy a b) (s t : Tri (B64 sq hy)) (h : (verts s).Perm (verts t))
    (h01 : isNaN (t.p0.distance t.p1) = false) (h12 : isNaN (t.p1.distance t.p2) = false) (h20 : isNaN (t.p2.distance t.p0) = false) :
    s.longestSide = t.longestSide := by
  have l : ∀ a b c : Coord (B64 sq hy), Triangle.longestSide a b c = pick64 (pick64 (a.distance b) (b.distance c)) (c.distance a) :=
    fun _ _ _ => rfl
  have d := distance_comm64 (sq := sq) even
  refine (perm3_ind (fun a b c => (isNaN (a.distance b) = false ∧ isNaN (b.distance c) = false ∧ isNaN (c.distance a) = false) ∧
    Triangle.longestSide a b c = t.longestSide) ?_ ?_ h ⟨⟨h01, h12, h20⟩, rfl⟩).2
  · rintro a b c ⟨⟨h1, h2, h3⟩, p⟩
    refine ⟨⟨h2, h3, h1⟩, p ▸ ?_⟩
    rw [l, l, pick64_assoc _ _ _ h1 h2 h3, pick64_comm _ _ h1 (pick64_nn _ _ h2 h3)]
  · rintro a b c ⟨⟨h1, h2, h3⟩, p⟩
    refine ⟨⟨by rwa [d a b], by rwa [d c a], by rwa [d b c]⟩, p ▸ ?_⟩
    rw [l, l, d a b, d c a, d b c, pick64_assoc _ _ _ h1 h3 h2, pick64_assoc _ _ _ h1 h2 h3, pick64_comm _ _ h3 h2]

/-- C112: on grids of 24 bits the area computed in doubles, and on grids of 50 bits the centroid, does not depend on the order of the
vertices. -/
theorem C112_grid_doubles {g : ℤ} (h1 : -484 ≤ g) (h2 : g ≤ 400) (s t : Tri ℚ) (h : (verts s).Perm (verts t)) :
    ((∀ p ∈ verts t, OnGridB 24 g p) →
      (Tri.new (toB64 s.p0 : Coord (B64 sq hy)) (toB64 s.p1) (toB64 s.p2)).area =
      (Tri.new (toB64 t.p0 : Coord (B64 sq hy)) (toB64 t.p1) (toB64 t.p2)).area) ∧
    ((∀ p ∈ verts t, OnGridB 50 g p) →
      (Tri.new (toB64 s.p0 : Coord (B64 sq hy)) (toB64 s.p1) (toB64 s.p2)).centroid =
      (Tri.new (toB64 t.p0 : Coord (B64 sq hy)) (toB64 t.p1) (toB64 t.p2)).centroid) := by
  have mem : ∀ (u : Tri ℚ) {P : Coord ℚ → Prop}, (∀ p ∈ verts u, P p) → P u.p0 ∧ P u.p1 ∧ P u.p2 := fun u P k =>
    ⟨k _ (by simp [verts]), k _ (by simp [verts]), k _ (by simp [verts])⟩
  refine ⟨fun k => ?_, fun k => ?_⟩
  · obtain ⟨t0, t1, t2⟩ := mem t k
    obtain ⟨s0, s1, s2⟩ := mem s fun p hp => k p (h.mem_iff.mp hp)
    refine (C93_area h1 h2 s0 s1 s2).2.trans (Eq.trans ?_ (C93_area h1 h2 t0 t1 t2).2.symm)
    congr 2
    exact perm3_ind (fun a b c => |det a b c| = |det t.p0 t.p1 t.p2|) (fun a b c p => by rw [det_rot, p])
      (fun a b c p => by rw [det_swap12, abs_neg, p]) h rfl
  · obtain ⟨t0, t1, t2⟩ := mem t k
    obtain ⟨s0, s1, s2⟩ := mem s fun p hp => k p (h.mem_iff.mp hp)
    obtain ⟨u, v, e, hu, hv, -⟩ := C93_centroid (sq := sq) (hy := hy) h1 h2 s0 s1 s2
    obtain ⟨u', v', e', hu', hv', -⟩ := C93_centroid (sq := sq) (hy := hy) h1 h2 t0 t1 t2
    have hx : s.p0.x + s.p1.x + s.p2.x = t.p0.x + t.p1.x + t.p2.x := by
      have := (h.map Coord.x).sum_eq; simp [verts] at this; linear_combination this
    have hy' : s.p0.y + s.p1.y + s.p2.y = t.p0.y + t.p1.y + t.p2.y := by
      have := (h.map Coord.y).sum_eq; simp [verts] at this; linear_combination this
    refine e.trans (Eq.trans ?_ e'.symm)
    rw [hu, hv, hu', hv', hx, hy']

/-- C112: beyond that grid the area computed in doubles depends on the order of the vertices: a triangle of integers of 28 bits has the
area 0 in one order and 1/2 after a rotation. With NaN ordinates the longest side is NaN or a number, depending on the order. -/
theorem C112_order_matters :
    (Tri.new (toB64 (pt 0 0) : Coord X64) (toB64 (pt 132491049 76210438)) (toB64 (pt 151879750 87363051))).area = Fl.fin 0 ∧
    (Tri.new (toB64 (pt 132491049 76210438) : Coord X64) (toB64 (pt 151879750 87363051)) (toB64 (pt 0 0))).area = Fl.fin (1 / 2) ∧
    (Tri.new (Coord.xy Fl.nan Fl.nan : Coord X64) (toB64 (pt 0 0)) (toB64 (pt 3 0))).longestSide = Fl.nan ∧
    (Tri.new (toB64 (pt 3 0) : Coord X64) (toB64 (pt 0 0)) (Coord.xy Fl.nan Fl.nan)).longestSide = Fl.fin 3 := by
  refine ⟨C93_area_wrong.2.1, ?_, ?_, ?_⟩ <;> decide +kernel

/-! ### Non-trivial cases -/
example : (verts (Tri.new (qp 0 3) (qp 0 0) (qp 4 0))).Perm (verts (Tri.new (qp 0 0) (qp 4 0) (qp 0 3))) := by
  decide +kernel
noncomputable example : Similarity := ⟨3, 4, 5, -1, 7, 8, 9, by norm_num, by norm_num, by norm_num⟩
example : ∃ t : Tri X64, isNaN (t.p0.distance t.p1) = false ∧ isNaN (t.p1.distance t.p2) = false ∧ isNaN (t.p2.distance t.p0) = false :=
  ⟨Tri.new (toB64 (pt 3 0)) (toB64 (pt 0 0)) (toB64 (pt 0 5)), by decide +kernel, by decide +kernel, by decide +kernel⟩

end Verif.Props
