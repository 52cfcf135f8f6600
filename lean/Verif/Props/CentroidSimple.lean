import Verif.Lemmas.JordanMoment
import Verif.Props.SimpleRings
import Verif.Props.CentroidMore

set_option linter.unusedSectionVars false

/-! # C82: centroids of polygons with simple rings -/

namespace Verif.Props
open Flt Verif.Spec Verif.Jordan

section field
variable {K : Type} [Field K] [LinearOrder K] [IsStrictOrderedRing K]

theorem momentY_closed (v : List (Coord K)) (hv : v ≠ []) :
    momentY (closed v) = ∑ j ∈ Finset.range v.length, ((corner v (j + 1)).y - (corner v j).y) *
      (2 * (corner v j).x * (corner v j).y + (corner v j).x * (corner v (j + 1)).y + (corner v (j + 1)).x * (corner v j).y +
        2 * (corner v (j + 1)).x * (corner v (j + 1)).y) := by
  unfold momentY
  rw [segs_range, List.map_map, list_sum_range, length_closed v hv]
  have e : ∀ j ∈ Finset.range v.length, ((fun s : Coord K × Coord K => (s.1.y + s.2.y) * (s.1.x * s.2.y - s.2.x * s.1.y)) ∘
      fun i => ((closed v).getD i ⟨0, 0, 0, 0⟩, (closed v).getD (i + 1) ⟨0, 0, 0, 0⟩)) j =
      ((corner v (j + 1)).y - (corner v j).y) *
      (2 * (corner v j).x * (corner v j).y + (corner v j).x * (corner v (j + 1)).y + (corner v (j + 1)).x * (corner v j).y +
        2 * (corner v (j + 1)).x * (corner v (j + 1)).y) +
        (2 * (corner v j).x * (corner v j).y ^ 2 - 2 * (corner v (j + 1)).x * (corner v (j + 1)).y ^ 2) := by
    intro j hj
    have := Finset.mem_range.mp hj
    simp only [Function.comp]
    rw [corner_closed v j (by omega), corner_closed v (j + 1) (by omega)]
    ring
  rw [Finset.sum_congr rfl e, Finset.sum_add_distrib, Finset.sum_range_sub' (fun j => 2 * (corner v j).x * (corner v j).y ^ 2)]
  have : corner v v.length = corner v 0 := by unfold corner; simp
  rw [this]; ring

theorem moment_height (v : List (Coord K)) (h : SimpleRing v) (al be : K) (hu : ∀ j, 0 ≤ al + be * (corner v j).y) (hne : ¬ (al = 0 ∧ be = 0)) :
    0 < shoelace (closed v) * (3 * al * shoelace (closed v) + be * momentY (closed v)) := by
  have hs := simple_of v h
  have hv : v ≠ [] := List.length_pos_iff.mp (by have := h.three; omega)
  obtain ⟨k, h1, h2, h3⟩ := ccw_top v h
  obtain ⟨e, he⟩ : ∃ e : K, (side (corner v) v.length 0 = 1 ∧ e = 1) ∨ (side (corner v) v.length 0 = 0 ∧ e = -1) := by
    rcases (by decide : ∀ x : ZMod 2, x = 1 ∨ x = 0) (side (corner v) v.length 0) with h | h
    · exact ⟨1, Or.inl ⟨h, rfl⟩⟩
    · exact ⟨-1, Or.inr ⟨h, rfl⟩⟩
  have hee : e * e = 1 := by rcases he with ⟨_, rfl⟩ | ⟨_, rfl⟩ <;> norm_num
  have p1 := hs.area_pos e he k h1 h2
  have p2 := hs.moment_pos al be e he k h1 h2 hu hne
  rw [Finset.sum_add_distrib, ← Finset.mul_sum, ← Finset.mul_sum, ← Finset.sum_div, ← momentY_closed v hv] at p2
  have q1 := shoelace_closed v hv
  have q2 : 0 < e * shoelace (closed v) := by rw [q1]; linarith
  have q3 : 0 < e * (3 * al * shoelace (closed v) + be * momentY (closed v)) := by
    have : e * (3 * al * shoelace (closed v) + be * momentY (closed v)) = 6 * (e * (al * (∑ i ∈ Finset.range v.length,
      ((corner v i).x + (corner v (i + 1)).x) / 2 * ((corner v (i + 1)).y - (corner v i).y)) + be * (momentY (closed v) / 6))) := by
      rw [q1]; ring
    rw [this]; linarith
  have := mul_pos q2 q3
  have e2 : e * shoelace (closed v) * (e * (3 * al * shoelace (closed v) + be * momentY (closed v))) =
      shoelace (closed v) * (3 * al * shoelace (closed v) + be * momentY (closed v)) := by
    linear_combination (shoelace (closed v) * (3 * al * shoelace (closed v) + be * momentY (closed v))) * hee
  rwa [e2] at this

/-- Turned and stretched so that `f * x + g * y` becomes the height. -/
def tilt (f g : K) (c : Coord K) : Coord K := ⟨g * c.x - f * c.y, f * c.x + g * c.y, c.z, c.m⟩

theorem tilt_zero (f g : K) : tilt f g (⟨0, 0, 0, 0⟩ : Coord K) = ⟨0, 0, 0, 0⟩ := by simp [tilt]

theorem corner_tilt (f g : K) (v : List (Coord K)) (i : Nat) : corner (v.map (tilt f g)) i = tilt f g (corner v i) := by
  unfold corner
  rw [List.length_map]
  rw [List.getD_eq_getElem?_getD, List.getD_eq_getElem?_getD, List.getElem?_map]
  cases v[i % v.length]? with
  | none => exact (tilt_zero f g).symm
  | some c => rfl

theorem square_pos (f g : K) (h : ¬ (f = 0 ∧ g = 0)) : 0 < f ^ 2 + g ^ 2 := by
  rcases eq_or_ne f 0 with hf | hf
  · have hg : g ≠ 0 := fun hg => h ⟨hf, hg⟩
    have := pow_pos (abs_pos.mpr hg) 2
    rw [sq_abs] at this
    have := sq_nonneg f
    linarith
  · have := pow_pos (abs_pos.mpr hf) 2
    rw [sq_abs] at this
    have := sq_nonneg g
    linarith

theorem tilt_same (f g : K) (h : ¬ (f = 0 ∧ g = 0)) (a b : Coord K) : SamePlace (tilt f g a) (tilt f g b) ↔ SamePlace a b := by
  have hp := (square_pos f g h).ne'
  unfold SamePlace tilt
  constructor
  · rintro ⟨h1, h2⟩
    simp only at h1 h2
    have e1 : (f ^ 2 + g ^ 2) * (a.x - b.x) = 0 := by linear_combination g * h1 + f * h2
    have e2 : (f ^ 2 + g ^ 2) * (a.y - b.y) = 0 := by linear_combination -f * h1 + g * h2
    exact ⟨sub_eq_zero.mp ((mul_eq_zero.mp e1).resolve_left hp), sub_eq_zero.mp ((mul_eq_zero.mp e2).resolve_left hp)⟩
  · rintro ⟨h1, h2⟩
    simp only [h1, h2, and_self]

theorem simple_tilt (f g : K) (h : ¬ (f = 0 ∧ g = 0)) (v : List (Coord K)) (hv : SimpleRing v) : SimpleRing (v.map (tilt f g)) := by
  have hp := (square_pos f g h).ne'
  refine ⟨by rw [List.length_map]; exact hv.three, fun i => ?_, ?_⟩
  · rw [corner_tilt, corner_tilt, tilt_same f g h]; exact hv.step i
  · intro i j hi hj hij s h1 h2
    simp only [List.length_map] at hi hj ⊢
    obtain ⟨s', hs'⟩ : ∃ s' : Coord K, SamePlace s (tilt f g s') := by
      refine ⟨⟨(g * s.x + f * s.y) / (f ^ 2 + g ^ 2), (g * s.y - f * s.x) / (f ^ 2 + g ^ 2), 0, 0⟩, ?_, ?_⟩
      · simp only [tilt]; field_simp; ring
      · simp only [tilt]; field_simp; ring
    have key : ∀ i, OnSegment s (corner (v.map (tilt f g)) i) (corner (v.map (tilt f g)) (i + 1)) → OnSegment s' (corner v i) (corner v (i + 1)) := by
      intro i hh
      rw [corner_tilt, corner_tilt] at hh
      obtain ⟨t, t0, t1, e1, e2⟩ := hh
      obtain ⟨e3, e4⟩ := hs'
      rw [e1] at e3
      rw [e2] at e4
      simp only [tilt] at e3 e4
      refine ⟨t, t0, t1, ?_, ?_⟩
      · apply mul_left_cancel₀ hp
        linear_combination -g * e3 - f * e4
      · apply mul_left_cancel₀ hp
        linear_combination f * e3 - g * e4
    have same : ∀ j, SamePlace s' (corner v j) → SamePlace s (corner (v.map (tilt f g)) j) := by
      intro j hh
      have := (tilt_same f g h s' (corner v j)).mpr hh
      rw [corner_tilt]
      exact ⟨hs'.1.trans this.1, hs'.2.trans this.2⟩
    rcases hv.apart i j hi hj hij s' (key i h1) (key j h2) with ⟨q1, q2⟩ | ⟨q1, q2⟩
    · exact Or.inl ⟨q1, same j q2⟩
    · exact Or.inr ⟨q1, same i q2⟩

theorem closed_map (f : Coord K → Coord K) (v : List (Coord K)) : closed (v.map f) = (closed v).map f := by
  simp [closed, List.map_take]

theorem shoelace_tilt (f g : K) (r : List (Coord K)) : shoelace (r.map (tilt f g)) = (f ^ 2 + g ^ 2) * shoelace r := by
  unfold shoelace
  rw [segs_map, List.map_map]
  induction segs r with
  | nil => simp
  | cons s l ih =>
    rw [List.map_cons, List.sum_cons, ih]
    simp only [List.map_cons, List.sum_cons, Function.comp, tilt]; ring

theorem momentY_tilt (f g : K) (r : List (Coord K)) :
    momentY (r.map (tilt f g)) = (f ^ 2 + g ^ 2) * (f * momentX r + g * momentY r) := by
  unfold momentY momentX
  rw [segs_map, List.map_map]
  induction segs r with
  | nil => simp
  | cons s l ih =>
    rw [List.map_cons, List.sum_cons, ih]
    simp only [List.map_cons, List.sum_cons, Function.comp, tilt]; ring

theorem corner_mem (v : List (Coord K)) (hv : v ≠ []) (i : Nat) : corner v i ∈ v := by
  have hn := List.length_pos_iff.mpr hv
  unfold corner
  rw [List.getD_eq_getElem?_getD, List.getElem?_eq_getElem (Nat.mod_lt i hn)]
  exact List.getElem_mem _

/-- The mean over a simple polygon of a function that is affine and not negative at its corners is positive. -/
theorem moment_plane (v : List (Coord K)) (h : SimpleRing v) (al f g : K) (hu : ∀ q ∈ v, 0 ≤ al + f * q.x + g * q.y)
    (hne : ¬ (al = 0 ∧ f = 0 ∧ g = 0)) :
    0 < shoelace (closed v) * (3 * al * shoelace (closed v) + f * momentX (closed v) + g * momentY (closed v)) := by
  have hv : v ≠ [] := List.length_pos_iff.mp (by have := h.three; omega)
  by_cases hfg : f = 0 ∧ g = 0
  · have := moment_height v h al 0 (fun j => by have := hu _ (corner_mem v hv j); rw [hfg.1, hfg.2] at this; linarith)
      (fun hc => hne ⟨hc.1, hfg⟩)
    rw [hfg.1, hfg.2]
    have e : 3 * al * shoelace (closed v) + 0 * momentX (closed v) + 0 * momentY (closed v) = 3 * al * shoelace (closed v) + 0 * momentY (closed v) := by ring
    rw [e]; exact this
  · have hp := square_pos f g hfg
    have := moment_height _ (simple_tilt f g hfg v h) al 1 (fun j => by
      rw [corner_tilt]
      have := hu _ (corner_mem v hv j)
      simp only [tilt]; linarith) (fun hc => one_ne_zero hc.2)
    rw [closed_map, shoelace_tilt, momentY_tilt] at this
    have e : (f ^ 2 + g ^ 2) * shoelace (closed v) * (3 * al * ((f ^ 2 + g ^ 2) * shoelace (closed v)) +
        1 * ((f ^ 2 + g ^ 2) * (f * momentX (closed v) + g * momentY (closed v)))) =
      (f ^ 2 + g ^ 2) ^ 2 * (shoelace (closed v) * (3 * al * shoelace (closed v) + f * momentX (closed v) + g * momentY (closed v))) := by ring
    rw [e] at this
    exact (pos_iff_pos_of_mul_pos this).mp (pow_pos hp 2)

end field

/-- The weight of a simple ring turns its signed area into its area. -/
theorem turn_area (v : List (Coord ℝ)) (h : SimpleRing v) :
    shoelace (closed v) ≠ 0 ∧ turnOf (closed v) * shoelace (closed v) = |shoelace (closed v)| ∧ turnOf (closed v) * turnOf (closed v) = 1 := by
  obtain ⟨A, a1, a2, a3, _⟩ := C81_orientation v h
  rw [(C33_shoelace (closed v) (closed2D_closed v)).1] at a1
  injection a1 with a1
  unfold turnOf
  rw [a3]
  rcases lt_or_gt_of_ne a2 with h1 | h1
  · have h2 : 0 < shoelace (closed v) := by linarith
    refine ⟨h2.ne', ?_, ?_⟩ <;> simp [h1, abs_of_pos h2]
  · have h2 : shoelace (closed v) < 0 := by linarith
    refine ⟨h2.ne, ?_, ?_⟩ <;> simp [not_lt.mpr h1.le, abs_of_neg h2]

theorem turn_sameRing (v v' : List (Coord ℝ)) (hv : SimpleRing v) (h : SameRing v v') (e : ℝ) :
    SameW (e * turnOf (closed v), closed v) (e * turnOf (closed v'), closed v') := by
  obtain ⟨s, hs, a1, a2, a3, a4, a5, a6, a7, _, a9⟩ := sameRing_integrals v v' h
  have hv' : SimpleRing v' := by
    rcases a9 with ⟨_, k, rfl⟩ | ⟨_, k, rfl⟩
    · exact simple_rotate v hv k
    · cases v with
      | nil => have := hv.three; simp at this
      | cons a l =>
        have h1 := simple_reverse a l hv
        have hrot : (a :: l).reverse = (a :: l.reverse).rotate 1 := by rw [List.reverse_cons, List.rotate_cons_succ, List.rotate_zero]
        rw [hrot, List.rotate_rotate]
        exact simple_rotate _ h1 _
  obtain ⟨b1, b2, b3⟩ := turn_area v hv
  obtain ⟨c1, c2, c3⟩ := turn_area v' hv'
  have hss : s * s = 1 := by rcases hs with rfl | rfl <;> norm_num
  have habs : |shoelace (closed v')| = |shoelace (closed v)| := by
    rw [a1, abs_mul]; rcases hs with rfl | rfl <;> simp
  have ht : turnOf (closed v') = s * turnOf (closed v) := by
    apply mul_right_cancel₀ c1
    rw [c2, habs, ← b2, a1]
    linear_combination (-(turnOf (closed v) * shoelace (closed v))) * hss
  refine ⟨?_, ?_, ?_, a4.symm, a5.symm, a6.symm, fun hz => ⟨(a7 hz).1.symm, (a7 hz).2.symm⟩⟩
  · simp only [ht, a1]; linear_combination (-(e * turnOf (closed v) * shoelace (closed v))) * hss
  · simp only [ht, a2]; linear_combination (-(e * turnOf (closed v) * momentX (closed v))) * hss
  · simp only [ht, a3]; linear_combination (-(e * turnOf (closed v) * momentY (closed v))) * hss

/-- Polygons whose rings are simple, with any holes: the centroid depends neither on where the rings start nor on their direction. -/
theorem C82_direction_start (p p' : Polygon ℝ) (s s' : List (Coord ℝ)) (hs hs' : List (List (Coord ℝ)))
    (hp : HasRings p s hs) (hp' : HasRings p' s' hs') (h : SameRing s s') (hh : List.Forall₂ SameRing hs hs')
    (h1 : SimpleRing s) (h2 : ∀ v ∈ hs, SimpleRing v) :
    Centroid.fromPolygon p' = Centroid.fromPolygon p := by
  rw [C46_polygon p hp.proper, C46_polygon p' hp'.proper, hp.rings, hp'.rings]
  congr 2
  symm
  apply centroidOf_congr
  refine .cons (by simpa using turn_sameRing s s' h1 h 1) ?_
  rw [List.forall₂_map_left_iff, List.forall₂_map_right_iff]
  exact forall₂_of_mem hh (fun v v' hv hvv => by simpa using turn_sameRing v v' (h2 v hv) hvv (-1))

/-- Polygons whose rings are simple: with `area` the size of a ring and `centre` its centre of area, the centroid times the area of the
shell less the holes is the sum of the centres weighted by these areas. -/
theorem C82_areas (p : Polygon ℝ) (s : List (Coord ℝ)) (hs : List (List (Coord ℝ))) (hp : HasRings p s hs)
    (h1 : SimpleRing s) (h2 : ∀ v ∈ hs, SimpleRing v) (area cx cy : List (Coord ℝ) → ℝ)
    (ha : ∀ v, Area.ofRing (closed v) = .ok (area v))
    (hc : ∀ v, SimpleRing v → ∀ q : Polygon ℝ, HasRings q v [] → Centroid.fromPolygon q = .ok (some (Coord.xy (cx v) (cy v))))
    (hnet : area s - (hs.map area).sum ≠ 0) :
    ∃ c, Centroid.fromPolygon p = .ok (some c) ∧
      c.x * (area s - (hs.map area).sum) = area s * cx s - (hs.map (fun v => area v * cx v)).sum ∧
      c.y * (area s - (hs.map area).sum) = area s * cy s - (hs.map (fun v => area v * cy v)).sum := by
  have hA : ∀ v, area v = |shoelace (closed v)| / 2 := by
    intro v
    have := ha v
    rw [(C33_shoelace (closed v) (closed2D_closed v)).2] at this
    injection this with this
    exact this.symm
  have hC : ∀ v, SimpleRing v → turnOf (closed v) * momentX (closed v) = 3 * |shoelace (closed v)| * cx v ∧
      turnOf (closed v) * momentY (closed v) = 3 * |shoelace (closed v)| * cy v := by
    intro v hv
    obtain ⟨t1, t2, t3⟩ := turn_area v hv
    have hr := polyOf_rings v [] (List.length_pos_iff.mp (by have := hv.three; omega)) (by simp)
    have := hc v hv _ hr
    rw [C46_polygon _ hr.proper, hr.rings] at this
    unfold centroidOf at this
    rw [if_neg (by simp)] at this
    simp only [wsum, List.map_cons, List.map_nil, List.sum_cons, List.sum_nil, add_zero] at this
    have ht0 : turnOf (closed v) * shoelace (closed v) ≠ 0 := by rw [t2]; exact abs_ne_zero.mpr t1
    rw [if_pos ht0] at this
    injection this with this
    simp only [Option.map_some, Option.some.injEq, Coord.xy, Coord.mk.injEq] at this
    obtain ⟨e1, e2, _⟩ := this
    rw [t2] at e1 e2
    have : |shoelace (closed v)| ≠ 0 := abs_ne_zero.mpr t1
    rw [← e1, ← e2]
    constructor <;> field_simp
  have sums : ∀ l : List (List (Coord ℝ)), (∀ v ∈ l, SimpleRing v) →
      ((l.map (fun v => (-turnOf (closed v), closed v))).map (fun w => w.1 * shoelace w.2)).sum = -(2 * (l.map area).sum) ∧
      ((l.map (fun v => (-turnOf (closed v), closed v))).map (fun w => w.1 * momentX w.2)).sum = -(6 * (l.map (fun v => area v * cx v)).sum) ∧
      ((l.map (fun v => (-turnOf (closed v), closed v))).map (fun w => w.1 * momentY w.2)).sum = -(6 * (l.map (fun v => area v * cy v)).sum) := by
    intro l
    induction l with
    | nil => simp
    | cons v l ih =>
      intro hl
      obtain ⟨i1, i2, i3⟩ := ih (fun v hv => hl v (by simp [hv]))
      obtain ⟨t1, t2, t3⟩ := turn_area v (hl v (by simp))
      obtain ⟨c1, c2⟩ := hC v (hl v (by simp))
      simp only [List.map_cons, List.sum_cons] at i1 i2 i3 ⊢
      rw [i1, i2, i3, hA v]
      refine ⟨by linear_combination -t2, by linear_combination -c1, by linear_combination -c2⟩
  obtain ⟨s1, s2, s3⟩ := sums hs h2
  obtain ⟨t1, t2, t3⟩ := turn_area s h1
  obtain ⟨c1, c2⟩ := hC s h1
  set N := area s - (hs.map area).sum with hN
  have w1 : wsum ((turnOf (closed s), closed s) :: hs.map (fun v => (-turnOf (closed v), closed v))) shoelace = 2 * N := by
    unfold wsum
    rw [List.map_cons, List.sum_cons, s1]; simp only [hN, hA s]; linear_combination t2
  have w2 : wsum ((turnOf (closed s), closed s) :: hs.map (fun v => (-turnOf (closed v), closed v))) momentX =
      6 * (area s * cx s - (hs.map (fun v => area v * cx v)).sum) := by
    unfold wsum
    rw [List.map_cons, List.sum_cons, s2]; simp only [hA s]; linear_combination c1
  have w3 : wsum ((turnOf (closed s), closed s) :: hs.map (fun v => (-turnOf (closed v), closed v))) momentY =
      6 * (area s * cy s - (hs.map (fun v => area v * cy v)).sum) := by
    unfold wsum
    rw [List.map_cons, List.sum_cons, s3]; simp only [hA s]; linear_combination c2
  refine ⟨Coord.xy ((area s * cx s - (hs.map (fun v => area v * cx v)).sum) / N) ((area s * cy s - (hs.map (fun v => area v * cy v)).sum) / N), ?_, ?_, ?_⟩
  · rw [C46_polygon p hp.proper, hp.rings]
    unfold centroidOf
    rw [if_neg (by simp), w1, w2, w3, if_pos (by simpa using hnet)]
    simp only [Option.map_some]
    congr 3 <;> field_simp <;> ring
  · simp only [Coord.xy]; field_simp
  · simp only [Coord.xy]; field_simp

/-- A polygon without holes whose shell is simple, convex or not: the centroid is strictly on the same side of a line as all its
vertices, so it lies inside its convex hull and inside its envelope. -/
theorem C82_hull (p : Polygon ℝ) (v : List (Coord ℝ)) (hp : HasRings p v []) (hv : SimpleRing v) :
    ∃ c, Centroid.fromPolygon p = .ok (some c) ∧
      ∀ f g h : ℝ, (∀ q ∈ v, f * q.x + g * q.y ≤ h) → ¬ (f = 0 ∧ g = 0) → f * c.x + g * c.y < h := by
  obtain ⟨t1, t2, t3⟩ := turn_area v hv
  refine ⟨Coord.xy (momentX (closed v) / (3 * shoelace (closed v))) (momentY (closed v) / (3 * shoelace (closed v))), ?_, ?_⟩
  · rw [C46_polygon p hp.proper, hp.rings, List.map_nil]
    have ht0 : turnOf (closed v) ≠ 0 := fun hc => by rw [hc] at t3; norm_num at t3
    unfold centroidOf
    rw [if_neg (by simp)]
    simp only [wsum, List.map_cons, List.map_nil, List.sum_cons, List.sum_nil, add_zero]
    rw [if_pos (mul_ne_zero ht0 t1)]
    simp only [Option.map_some]
    congr 3 <;> field_simp
  · intro f g h hq hfg
    have := moment_plane v hv h (-f) (-g) (fun q hq' => by have := hq q hq'; linarith)
      (fun hc => hfg ⟨by linarith [hc.2.1], by linarith [hc.2.2]⟩)
    simp only [Coord.xy]
    set S := shoelace (closed v)
    set MX := momentX (closed v)
    set MY := momentY (closed v)
    have hS : 0 < S * S := mul_self_pos.mpr t1
    have e : f * (MX / (3 * S)) + g * (MY / (3 * S)) = h - S * (3 * h * S + -f * MX + -g * MY) / (3 * (S * S)) := by
      field_simp; ring
    rw [e]
    have := div_pos this (show 0 < 3 * (S * S) by linarith)
    linarith

/-! ## Examples -/

local notation "pt" => fun (x y : ℚ) => (Coord.xy x y : Coord ℚ)

/-- Triangles with area are simple. -/
theorem triangle_simple {K : Type} [Field K] [LinearOrder K] [IsStrictOrderedRing K] (a b c : Coord K) (h : det a b c ≠ 0) :
    SimpleRing [a, b, c] := by
  have hb : det b c a ≠ 0 := by intro hc; apply h; rw [← hc]; unfold det; ring
  have hcc : det c a b ≠ 0 := by intro hc; apply h; rw [← hc]; unfold det; ring
  refine ⟨by simp, ?_, ?_⟩
  · intro i
    have c0 : ∀ i, corner [a, b, c] i = corner [a, b, c] (i % 3) := by intro i; unfold corner; simp
    rw [c0 i, c0 (i + 1), ← Nat.mod_add_mod]
    have hi := Nat.mod_lt i (show 0 < 3 by omega)
    generalize i % 3 = k at hi
    rintro ⟨h1, h2⟩
    interval_cases k <;> simp [corner] at h1 h2 <;> apply h <;> unfold det <;> rw [h1, h2] <;> ring
  · intro i j hi hj hij s h1 h2
    simp only [List.length_cons, List.length_nil] at hi hj
    have c3 : corner [a, b, c] (2 + 1) = a := by simp [corner]
    interval_cases i <;> interval_cases j <;> first | exact absurd rfl hij | skip
    · exact Or.inl ⟨rfl, joint_of_turn h h1 h2⟩
    · exact Or.inr ⟨by simp, joint_of_turn hcc (by rw [c3] at h2; exact h2) h1⟩
    · exact Or.inr ⟨rfl, joint_of_turn h h2 h1⟩
    · exact Or.inl ⟨by simp, joint_of_turn hb h1 (by rw [c3] at h2; exact h2)⟩
    · exact Or.inl ⟨by simp, joint_of_turn hcc (by rw [c3] at h1; exact h1) h2⟩
    · exact Or.inr ⟨by simp, joint_of_turn hb h2 (by rw [c3] at h1; exact h1)⟩

/-- A dart, not convex and with two tops, over the reals. -/
theorem dart_real : SimpleRing ([pt 0 2, pt 1 0, pt 2 2, pt 1 1].map realPt) := by
  have c0 : ∀ i, corner ([pt 0 2, pt 1 0, pt 2 2, pt 1 1].map realPt) i = corner ([pt 0 2, pt 1 0, pt 2 2, pt 1 1].map realPt) (i % 4) := by
    intro i; unfold corner; simp
  refine ⟨by simp, ?_, ?_⟩
  · intro i
    rw [c0 i, c0 (i + 1), ← Nat.mod_add_mod]
    have hi := Nat.mod_lt i (show 0 < 4 by omega)
    generalize i % 4 = k at hi
    unfold SamePlace
    interval_cases k <;> simp [corner, Coord.xy, realPt]
  · intro i j hi hj hij s h1 h2
    simp only [List.length_map, List.length_cons, List.length_nil] at hi hj
    interval_cases i <;> interval_cases j <;> first | exact absurd rfl hij | skip
    · exact Or.inl ⟨rfl, joint_of_turn (by simp [det, corner, Coord.xy, realPt] <;> norm_num) h1 h2⟩
    · exact (apart_of_side (by simp [det, corner, Coord.xy, realPt] <;> norm_num) h1 h2).elim
    · exact Or.inr ⟨rfl, joint_of_turn (by simp [det, corner, Coord.xy, realPt] <;> norm_num) h2 h1⟩
    · exact Or.inr ⟨rfl, joint_of_turn (by simp [det, corner, Coord.xy, realPt] <;> norm_num) h2 h1⟩
    · exact Or.inl ⟨rfl, joint_of_turn (by simp [det, corner, Coord.xy, realPt] <;> norm_num) h1 h2⟩
    · exact (apart_of_side (by simp [det, corner, Coord.xy, realPt] <;> norm_num) h1 h2).elim
    · exact (apart_of_side (by simp [det, corner, Coord.xy, realPt] <;> norm_num) h2 h1).elim
    · exact Or.inr ⟨rfl, joint_of_turn (by simp [det, corner, Coord.xy, realPt] <;> norm_num) h2 h1⟩
    · exact Or.inl ⟨rfl, joint_of_turn (by simp [det, corner, Coord.xy, realPt] <;> norm_num) h1 h2⟩
    · exact Or.inl ⟨rfl, joint_of_turn (by simp [det, corner, Coord.xy, realPt] <;> norm_num) h1 h2⟩
    · exact (apart_of_side (by simp [det, corner, Coord.xy, realPt] <;> norm_num) h2 h1).elim
    · exact Or.inr ⟨rfl, joint_of_turn (by simp [det, corner, Coord.xy, realPt] <;> norm_num) h2 h1⟩

/-- The dart is a case of the theorems, with its envelope as half planes. -/
example : ∃ c, Centroid.fromPolygon (polyOf ([pt 0 2, pt 1 0, pt 2 2, pt 1 1].map realPt) []) = .ok (some c) ∧ c.x < 2 ∧ c.y < 2 := by
  obtain ⟨c, h1, h2⟩ := C82_hull _ _ (polyOf_rings _ [] (by simp) (by simp)) dart_real
  refine ⟨c, h1, ?_, ?_⟩
  · have := h2 1 0 2 (by simp [Coord.xy, realPt]) (by simp)
    linarith
  · have := h2 0 1 2 (by simp [Coord.xy, realPt]) (by simp)
    linarith

/-- A triangle with a triangle as its hole is a case of the theorem about holes. -/
example : SimpleRing ([pt 0 0, pt 8 0, pt 0 8].map realPt) ∧ (∀ v ∈ [[pt 1 1, pt 2 1, pt 1 2].map realPt], SimpleRing v) ∧
    HasRings (polyOf ([pt 0 0, pt 8 0, pt 0 8].map realPt) [[pt 1 1, pt 2 1, pt 1 2].map realPt]) ([pt 0 0, pt 8 0, pt 0 8].map realPt)
      [[pt 1 1, pt 2 1, pt 1 2].map realPt] ∧
    SameRing ([pt 1 1, pt 2 1, pt 1 2].map realPt) ([pt 1 2, pt 2 1, pt 1 1].map realPt) := by
  refine ⟨triangle_simple _ _ _ (by simp [det, Coord.xy, realPt]), ?_, polyOf_rings _ _ (by simp) (by simp), 0, Or.inr (by simp)⟩
  intro v hv
  rw [List.mem_singleton.mp hv]
  exact triangle_simple _ _ _ (by simp [det, Coord.xy, realPt] <;> norm_num)

/-- Functions that meet the hypotheses of the theorem about areas exist. -/
theorem C82_centres : ∃ area cx cy : List (Coord ℝ) → ℝ, (∀ v, Area.ofRing (closed v) = .ok (area v)) ∧
    (∀ v, SimpleRing v → 0 < area v) ∧
    ∀ v, SimpleRing v → ∀ q : Polygon ℝ, HasRings q v [] → Centroid.fromPolygon q = .ok (some (Coord.xy (cx v) (cy v))) := by
  refine ⟨fun v => |shoelace (closed v)| / 2, fun v => momentX (closed v) / (3 * shoelace (closed v)),
    fun v => momentY (closed v) / (3 * shoelace (closed v)), fun v => (C33_shoelace (closed v) (closed2D_closed v)).2, ?_, ?_⟩
  · intro v hv
    have := abs_pos.mpr (turn_area v hv).1
    simp only; linarith
  · intro v hv q hp
    obtain ⟨t1, t2, t3⟩ := turn_area v hv
    rw [C46_polygon q hp.proper, hp.rings, List.map_nil]
    have ht0 : turnOf (closed v) ≠ 0 := fun hc => by rw [hc] at t3; norm_num at t3
    unfold centroidOf
    rw [if_neg (by simp)]
    simp only [wsum, List.map_cons, List.map_nil, List.sum_cons, List.sum_nil, add_zero]
    rw [if_pos (mul_ne_zero ht0 t1)]
    simp only [Option.map_some]
    congr 3 <;> field_simp

end Verif.Props
