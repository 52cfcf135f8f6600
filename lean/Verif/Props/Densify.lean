import Verif.Props.CentroidMore
import Verif.Props.GridPredicates
import Verif.Props.Area64
import Verif.Props.Envelope
import Mathlib.Logic.Relation

set_option linter.unusedSectionVars false

/-! # C141: points added along edges, rings cut along a chord -/

namespace Verif.Spec
variable {K : Type} [Field K] [LinearOrder K]

/-- One more point on one of the edges of a line. -/
def OneMore (r r' : List (Coord K)) : Prop :=
  ∃ l a m b t, r = l ++ a :: b :: t ∧ OnSegment m a b ∧ r' = l ++ a :: m :: b :: t

/-- Any number of further points on the edges of a line, one after the other. -/
def Refined : List (Coord K) → List (Coord K) → Prop := Relation.ReflTransGen OneMore

end Verif.Spec

namespace Verif.Props
open Flt Verif.Spec Verif.Binary64

section exact
variable {K : Type} [Field K] [LinearOrder K] [IsStrictOrderedRing K]

theorem segs_oneMore {r r' : List (Coord K)} (h : OneMore r r') :
    ∃ u v a m b, segs r = u ++ (a, b) :: v ∧ segs r' = u ++ (a, m) :: (m, b) :: v ∧ OnSegment m a b := by
  obtain ⟨l, a, m, b, t, rfl, hm, rfl⟩ := h
  exact ⟨segs (l ++ [a]), segs (b :: t), a, m, b, by rw [segs_join]; simp, by rw [segs_join]; simp, hm⟩

/-- A sum over the edges is unchanged if cutting an edge does not change it. -/
theorem refined_sum {M : Type} [AddCommMonoid M] (f : Coord K × Coord K → M)
    (hf : ∀ a m b, OnSegment m a b → f (a, m) + f (m, b) = f (a, b)) {r r' : List (Coord K)} (h : Refined r r') :
    ((segs r').map f).sum = ((segs r).map f).sum := by
  induction h with
  | refl => rfl
  | tail _ h ih =>
    obtain ⟨u, v, a, m, b, e1, e2, hm⟩ := segs_oneMore h
    rw [e1] at ih
    rw [e2, ← ih]
    simp only [List.map_append, List.map_cons, List.sum_append, List.sum_cons]
    rw [← hf a m b hm, add_assoc]

theorem onSegment_cut (p a m b : Coord K) (hm : OnSegment m a b) :
    OnSegment p a b ↔ OnSegment p a m ∨ OnSegment p m b := by
  obtain ⟨t, t0, t1, mx, my⟩ := hm
  constructor
  · rintro ⟨s, s0, s1, px, py⟩
    rcases le_or_gt s t with h | h
    · left
      rcases t0.eq_or_lt with ht | ht
      · have : s = 0 := by linarith
        exact ⟨0, le_refl _, zero_le_one, by rw [px, this]; ring, by rw [py, this]; ring⟩
      · refine ⟨s / t, div_nonneg s0 t0, (div_le_one ht).mpr h, ?_, ?_⟩
        · rw [px, mx]; field_simp; ring
        · rw [py, my]; field_simp; ring
    · right
      have ht : 0 < 1 - t := by linarith
      refine ⟨(s - t) / (1 - t), div_nonneg (by linarith) ht.le, (div_le_one ht).mpr (by linarith), ?_, ?_⟩
      · rw [px, mx]; field_simp; ring
      · rw [py, my]; field_simp; ring
  · rintro (⟨s, s0, s1, px, py⟩ | ⟨s, s0, s1, px, py⟩)
    · refine ⟨s * t, mul_nonneg s0 t0, mul_le_one₀ s1 t0 t1, ?_, ?_⟩
      · rw [px, mx]; ring
      · rw [py, my]; ring
    · refine ⟨t + s * (1 - t), by nlinarith, by nlinarith, ?_, ?_⟩
      · rw [px, mx]; ring
      · rw [py, my]; ring

theorem onLine_oneMore (p : Coord K) {r r' : List (Coord K)} (h : OneMore r r') : OnLine p r' ↔ OnLine p r := by
  obtain ⟨u, v, a, m, b, e1, e2, hm⟩ := segs_oneMore h
  unfold OnLine
  rw [e1, e2]
  simp only [List.mem_append, List.mem_cons, or_and_right, exists_or, exists_eq_left]
  rw [onSegment_cut p a m b hm, or_assoc]

theorem onLine_refined (p : Coord K) {r r' : List (Coord K)} (h : Refined r r') : OnLine p r' ↔ OnLine p r := by
  induction h with
  | refl => rfl
  | tail _ h ih => rw [onLine_oneMore p h, ih]

theorem crosses_cut_up (p a m b : Coord K) (hab : a.y ≤ b.y) (hm : OnSegment m a b) :
    (if CrossesRight p (a, m) then 1 else 0) + (if CrossesRight p (m, b) then 1 else 0) =
      (if CrossesRight p (a, b) then 1 else 0 : ℕ) := by
  obtain ⟨t, t0, t1, mx, my⟩ := hm
  have h1 : a.y ≤ m.y := by rw [my]; nlinarith
  have h2 : m.y ≤ b.y := by rw [my]; nlinarith
  have d1 : det a m p = t * det a b p := by unfold det; rw [mx, my]; ring
  have d2 : det m b p = (1 - t) * det a b p := by unfold det; rw [mx, my]; ring
  have c : ∀ u w : Coord K, u.y ≤ w.y → (CrossesRight p (u, w) ↔ u.y ≤ p.y ∧ p.y < w.y ∧ 0 < det u w p) := by
    intro u w huw
    rw [crossesRight_iff]
    constructor
    · rintro (h | ⟨k1, k2, -⟩)
      · exact h
      · exact absurd (lt_of_lt_of_le (lt_of_le_of_lt k1 k2) huw) (lt_irrefl _)
    · exact Or.inl
  have e1 : CrossesRight p (a, m) ↔ a.y ≤ p.y ∧ p.y < m.y ∧ 0 < det a b p := by
    rw [c a m h1, d1]
    refine and_congr_right fun k1 => and_congr_right fun k2 => ?_
    have : 0 < t := by
      rcases t0.eq_or_lt with h | h
      · rw [← h] at my; linarith
      · exact h
    exact mul_pos_iff_of_pos_left this
  have e2 : CrossesRight p (m, b) ↔ m.y ≤ p.y ∧ p.y < b.y ∧ 0 < det a b p := by
    rw [c m b h2, d2]
    refine and_congr_right fun k1 => and_congr_right fun k2 => ?_
    have : 0 < 1 - t := by
      rcases t1.eq_or_lt with h | h
      · rw [h] at my; linarith
      · linarith
    exact mul_pos_iff_of_pos_left this
  rw [if_congr e1 rfl rfl, if_congr e2 rfl rfl, if_congr (c a b hab) rfl rfl]
  by_cases hd : 0 < det a b p
  · simp only [hd, and_true]
    split_ifs with k1 k2 k3 k3 k3 k3 k3 <;> first | rfl | (exfalso; first | linarith [k1.2, k2.1] | skip)
    · exact k3 ⟨k1.1, lt_of_lt_of_le k1.2 h2⟩
    · exact k3 ⟨h1.trans (by assumption : _ ∧ _).1, (by assumption : _ ∧ _).2⟩
    · rcases le_or_gt m.y p.y with h | h
      · exact (by assumption : ¬ (m.y ≤ p.y ∧ p.y < b.y)) ⟨h, (by assumption : _ ∧ _).2⟩
      · exact k1 ⟨(by assumption : _ ∧ _).1, h⟩
  · simp [hd]

theorem crosses_cut (p a m b : Coord K) (hm : OnSegment m a b) :
    (if CrossesRight p (a, m) then 1 else 0) + (if CrossesRight p (m, b) then 1 else 0) =
      (if CrossesRight p (a, b) then 1 else 0 : ℕ) := by
  rcases le_total a.y b.y with h | h
  · exact crosses_cut_up p a m b h hm
  · have := crosses_cut_up p b m a h ((onSegment_swap m a b).mp hm)
    rw [if_congr (crossesRight_swap p a m) rfl rfl, if_congr (crossesRight_swap p m b) rfl rfl,
      if_congr (crossesRight_swap p a b) rfl rfl, add_comm]
    exact this

theorem crossings_sum (p : Coord K) (r : List (Coord K)) :
    crossings p r = ((segs r).map (fun s => if CrossesRight p s then 1 else 0)).sum := by
  unfold crossings
  induction segs r with
  | nil => rfl
  | cons s l ih => rw [List.countP_cons, List.map_cons, List.sum_cons, ih, add_comm]; simp

theorem crossings_refined (p : Coord K) {r r' : List (Coord K)} (h : Refined r r') : crossings p r' = crossings p r := by
  rw [crossings_sum, crossings_sum]
  exact refined_sum _ (fun a m b hm => crosses_cut p a m b hm) h

theorem ends_refined {r r' : List (Coord K)} (h : Refined r r') : r'.head? = r.head? ∧ r'.getLast? = r.getLast? := by
  induction h with
  | refl => exact ⟨rfl, rfl⟩
  | tail _ h ih =>
    obtain ⟨l, a, m, b, t, rfl, hm, rfl⟩ := h
    rw [← ih.1, ← ih.2]
    constructor
    · cases l <;> rfl
    · simp [List.getLast?_append, List.getLast?_cons_cons]

theorem closed2D_refined {r r' : List (Coord K)} (h : Refined r r') (hc : Closed2D r) : Closed2D r' := by
  intro u v h1 h2
  rw [(ends_refined h).1] at h1
  rw [(ends_refined h).2] at h2
  exact hc u v h1 h2

/-- C141: points added along the edges of a closed ring change the location of no point. -/
theorem C141_locate (p : Coord K) (r r' : List (Coord K)) (hc : Closed2D r) (h : Refined r r') :
    PointLocation.locateInRing p r' = PointLocation.locateInRing p r ∧
    PointLocation.isInRing p r' = PointLocation.isInRing p r := by
  have e := locate_congr p r' r (closed2D_refined h hc) hc (onLine_refined p h) (crossings_refined p h)
  exact ⟨e, by unfold PointLocation.isInRing; rw [e]⟩

/-- Nor which points are on a line. -/
theorem C141_onLine (p : Coord K) (r r' : List (Coord K)) (h : Refined r r') :
    PointLocation.isOnLine p r' = PointLocation.isOnLine p r := by
  obtain ⟨b, e, hb⟩ := C32_onLine p r
  obtain ⟨b', e', hb'⟩ := C32_onLine p r'
  rw [e, e']
  congr 1
  rw [Bool.eq_iff_iff, hb, hb', onLine_refined p h]

theorem shoelace_refined {r r' : List (Coord K)} (h : Refined r r') : shoelace r' = shoelace r :=
  refined_sum _ (by rintro a m b ⟨t, -, -, mx, my⟩; simp only [mx, my]; ring) h

theorem momentX_refined {r r' : List (Coord K)} (h : Refined r r') : momentX r' = momentX r :=
  refined_sum _ (by rintro a m b ⟨t, -, -, mx, my⟩; simp only [mx, my]; ring) h

theorem momentY_refined {r r' : List (Coord K)} (h : Refined r r') : momentY r' = momentY r :=
  refined_sum _ (by rintro a m b ⟨t, -, -, mx, my⟩; simp only [mx, my]; ring) h

/-- The area of a closed ring, its sign and the direction told from it are unchanged. -/
theorem C141_area (r r' : List (Coord K)) (hc : Closed2D r) (h : Refined r r') :
    Area.ofRingSigned r' = Area.ofRingSigned r ∧ Area.ofRing r' = Area.ofRing r ∧
    Orientation.isCCWArea r' = Orientation.isCCWArea r := by
  obtain ⟨a1, a2⟩ := C33_shoelace r hc
  obtain ⟨b1, b2⟩ := C33_shoelace r' (closed2D_refined h hc)
  rw [shoelace_refined h] at b1 b2
  have e : Area.ofRingSigned r' = Area.ofRingSigned r := by rw [a1, b1]
  exact ⟨e, by rw [a2, b2], by unfold Orientation.isCCWArea; rw [e]⟩

/-! ## The box -/

theorem covers_between (e : Env K) (he : e.Box) (a m b : Coord K) (hm : OnSegment m a b)
    (ha : e.coversCoordinate a = true) (hb : e.coversCoordinate b = true) : e.coversCoordinate m = true := by
  obtain ⟨t, t0, t1, mx, my⟩ := hm
  rw [Env.coversCoordinate, he.coversXY_iff] at ha hb ⊢
  have k1 : e.minx ≤ a.x := ha.2.2.1
  have k2 : a.x ≤ e.maxx := ha.2.2.2.1
  have k3 : e.miny ≤ a.y := ha.2.2.2.2.1
  have k4 : a.y ≤ e.maxy := ha.2.2.2.2.2
  have j1 : e.minx ≤ b.x := hb.2.2.1
  have j2 : b.x ≤ e.maxx := hb.2.2.2.1
  have j3 : e.miny ≤ b.y := hb.2.2.2.2.1
  have j4 : b.y ≤ e.maxy := hb.2.2.2.2.2
  refine ⟨rfl, rfl, ?_, ?_, ?_, ?_⟩
  · show e.minx ≤ m.x; rw [mx]; nlinarith
  · show m.x ≤ e.maxx; rw [mx]; nlinarith
  · show e.miny ≤ m.y; rw [my]; nlinarith
  · show m.y ≤ e.maxy; rw [my]; nlinarith

/-- The box of the points is the same, number for number. -/
theorem C141_box (r r' : List (Coord K)) (h : Refined r r') : (envOf r').equals (envOf r) = true := by
  have nn : ∀ l : List (Coord K), ∀ p ∈ l, p.NN := fun _ _ _ => ⟨rfl, rfl⟩
  have main : ∀ f : Env K, f.Box → (∀ p ∈ r, f.coversCoordinate p = true) → ∀ p ∈ r', f.coversCoordinate p = true := by
    intro f hf hr
    induction h with
    | refl => exact hr
    | tail _ h ih =>
      obtain ⟨l, a, m, b, t, rfl, hm, rfl⟩ := h
      intro p hp
      simp only [List.mem_append, List.mem_cons] at hp
      rcases hp with hp | rfl | rfl | rfl | hp
      · exact ih p (by simp [hp])
      · exact ih p (by simp)
      · exact covers_between f hf a p b hm (ih a (by simp)) (ih b (by simp))
      · exact ih p (by simp)
      · exact ih p (by simp [hp])
  have sub : ∀ p ∈ r, p ∈ r' := by
    clear main
    induction h with
    | refl => exact fun p hp => hp
    | tail _ h ih =>
      obtain ⟨l, a, m, b, t, rfl, hm, rfl⟩ := h
      intro p hp
      have := ih p hp
      simp only [List.mem_append, List.mem_cons] at this ⊢
      tauto
  cases r with
  | nil =>
    have : r' = [] := by
      have := (ends_refined h).1
      simpa using this
    subst this
    exact C02_perm [] [] (by simp) (List.Perm.refl _)
  | cons p ps =>
    have hp : p ∈ r' := sub p (by simp)
    obtain ⟨-, a2, a3⟩ := C02_covers_all (p :: ps) (nn _) p (by simp)
    obtain ⟨-, b2, b3⟩ := C02_covers_all r' (nn _) p hp
    have a := a3.box a2
    have b := b3.box b2
    have c1 := C02_least (p :: ps) (nn _) (by simp) _ b3 (fun q hq => (C02_covers_all r' (nn _) q (sub q hq)).1)
    have c2 := C02_least r' (nn _) (by rintro rfl; simp at hp) _ a3 (main _ a (fun q hq => (C02_covers_all (p :: ps) (nn _) q hq).1))
    rw [a.covers_iff b] at c2
    rw [b.covers_iff a] at c1
    rw [b.equals_iff a]
    exact ⟨le_antisymm c1.1 c2.1, le_antisymm c2.2.1 c1.2.1, le_antisymm c1.2.2.1 c2.2.2.1, le_antisymm c2.2.2.2 c1.2.2.2⟩

/-! ## Cutting a ring -/

theorem closed2D_around (a : Coord K) (m : List (Coord K)) : Closed2D (a :: m ++ [a]) := by
  intro u v h1 h2
  rw [List.getLast?_append] at h2
  simp at h1 h2; subst h1 h2; simp

theorem segs_whole (a b : Coord K) (l r : List (Coord K)) :
    segs (a :: l ++ b :: r ++ [a]) = segs (a :: l ++ [b]) ++ segs (b :: r ++ [a]) := by
  rw [List.append_assoc]; exact segs_join (a :: l) (r ++ [a]) b

theorem segs_left (a b : Coord K) (l : List (Coord K)) : segs (a :: l ++ [b, a]) = segs (a :: l ++ [b]) ++ [(b, a)] := by
  rw [segs_join]; rfl

/-- C141: a closed ring is cut along a chord into two closed rings. A point off the chord is on the whole exactly if it is on one of
the pieces; a point on none of them is inside the whole exactly if it is inside one piece and outside the other. -/
theorem C141_cut (p a b : Coord K) (l r : List (Coord K)) (hp : ¬ OnSegment p a b) :
    ∃ w u v, PointLocation.locateInRing p (a :: l ++ b :: r ++ [a]) = .ok w ∧
      PointLocation.locateInRing p (a :: l ++ [b, a]) = .ok u ∧ PointLocation.locateInRing p (a :: b :: r ++ [a]) = .ok v ∧
      (w = Location.BOUNDARY ↔ u = Location.BOUNDARY ∨ v = Location.BOUNDARY) ∧
      (w = Location.INTERIOR ↔ (u = Location.INTERIOR ∧ v = Location.EXTERIOR) ∨ (u = Location.EXTERIOR ∧ v = Location.INTERIOR)) ∧
      (w = Location.EXTERIOR ↔ (u = Location.EXTERIOR ∧ v = Location.EXTERIOR) ∨ (u = Location.INTERIOR ∧ v = Location.INTERIOR)) := by
  obtain ⟨w, ew, w1, w2, w3⟩ := C31_locate p (a :: l ++ b :: r ++ [a]) (by
    have := closed2D_around a (l ++ b :: r); simpa using this)
  obtain ⟨u, eu, u1, u2, u3⟩ := C31_locate p (a :: l ++ [b, a]) (by
    have := closed2D_around a (l ++ [b]); simpa using this)
  obtain ⟨v, ev, v1, v2, v3⟩ := C31_locate p (a :: b :: r ++ [a]) (closed2D_around a (b :: r))
  refine ⟨w, u, v, ew, eu, ev, ?_⟩
  have sv : segs (a :: b :: r ++ [a]) = (a, b) :: segs (b :: r ++ [a]) := rfl
  have o1 : OnLine p (a :: l ++ [b, a]) ↔ OnLine p (a :: l ++ [b]) := by
    unfold OnLine
    rw [segs_left]
    simp only [List.mem_append, List.mem_singleton, or_and_right, exists_or, exists_eq_left]
    rw [onSegment_swap p b a]; simp [hp]
  have o2 : OnLine p (a :: b :: r ++ [a]) ↔ OnLine p (b :: r ++ [a]) := by
    unfold OnLine
    rw [sv]
    simp only [List.mem_cons, or_and_right, exists_or, exists_eq_left]
    simp [hp]
  have o : OnLine p (a :: l ++ b :: r ++ [a]) ↔ OnLine p (a :: l ++ [b]) ∨ OnLine p (b :: r ++ [a]) := by
    unfold OnLine
    rw [segs_whole]
    simp only [List.mem_append, or_and_right, exists_or]
  have c : crossings p (a :: l ++ [b, a]) + crossings p (a :: b :: r ++ [a]) =
      crossings p (a :: l ++ b :: r ++ [a]) + 2 * (if CrossesRight p (a, b) then 1 else 0) := by
    rw [crossings_sum, crossings_sum, crossings_sum, segs_left, sv, segs_whole]
    simp only [List.map_append, List.map_cons, List.sum_append, List.sum_cons, List.map_nil, List.sum_nil,
      if_congr (crossesRight_swap p b a) rfl rfl]
    ring
  clear ew eu ev
  rw [o1] at u1 u2 u3
  rw [o2] at v1 v2 v3
  rw [o] at w1 w2 w3
  generalize crossings p (a :: l ++ [b, a]) = n1 at *
  generalize crossings p (a :: b :: r ++ [a]) = n2 at *
  generalize crossings p (a :: l ++ b :: r ++ [a]) = n at *
  have hq : n % 2 = (n1 + n2) % 2 := by omega
  by_cases k1 : OnLine p (a :: l ++ [b]) <;> by_cases k2 : OnLine p (b :: r ++ [a])
  · rw [w1 (Or.inl k1), u1 k1, v1 k2]; decide
  · rw [w1 (Or.inl k1), u1 k1]
    rcases Nat.mod_two_eq_zero_or_one n2 with h | h
    · rw [v3 k2 h]; decide
    · rw [v2 k2 h]; decide
  · rw [w1 (Or.inr k2), v1 k2]
    rcases Nat.mod_two_eq_zero_or_one n1 with h | h
    · rw [u3 k1 h]; decide
    · rw [u2 k1 h]; decide
  · have k : ¬ (OnLine p (a :: l ++ [b]) ∨ OnLine p (b :: r ++ [a])) := fun k => k.elim k1 k2
    rcases Nat.mod_two_eq_zero_or_one n1 with h | h <;> rcases Nat.mod_two_eq_zero_or_one n2 with h' | h'
    · rw [u3 k1 h, v3 k2 h', w3 k (by omega)]; decide
    · rw [u3 k1 h, v2 k2 h', w2 k (by omega)]; decide
    · rw [u2 k1 h, v3 k2 h', w2 k (by omega)]; decide
    · rw [u2 k1 h, v2 k2 h', w3 k (by omega)]; decide

end exact

/-! ## Lengths and centroids -/

theorem dist_parts (a m b : Coord ℝ) (t : ℝ) (t0 : 0 ≤ t) (t1 : t ≤ 1) (mx : m.x = a.x + t * (b.x - a.x)) (my : m.y = a.y + t * (b.y - a.y)) :
    Spec.dist a m = t * Spec.dist a b ∧ Spec.dist m b = (1 - t) * Spec.dist a b := by
  unfold Spec.dist
  constructor
  · rw [← Real.sqrt_sq t0, ← Real.sqrt_mul (sq_nonneg _), mx, my]; congr 1; ring
  · have : 0 ≤ 1 - t := by linarith
    rw [← Real.sqrt_sq this, ← Real.sqrt_mul (sq_nonneg _), mx, my]; congr 1; ring

theorem lineLength_refined {r r' : List (Coord ℝ)} (h : Refined r r') : lineLength r' = lineLength r :=
  refined_sum _ (by
    rintro a m b ⟨t, t0, t1, mx, my⟩
    obtain ⟨h1, h2⟩ := dist_parts a m b t t0 t1 mx my
    simp only [h1, h2]; ring) h

theorem lineX_refined {r r' : List (Coord ℝ)} (h : Refined r r') : lineX r' = lineX r :=
  refined_sum _ (by
    rintro a m b ⟨t, t0, t1, mx, my⟩
    obtain ⟨h1, h2⟩ := dist_parts a m b t t0 t1 mx my
    simp only [h1, h2, mx]; ring) h

theorem lineY_refined {r r' : List (Coord ℝ)} (h : Refined r r') : lineY r' = lineY r :=
  refined_sum _ (by
    rintro a m b ⟨t, t0, t1, mx, my⟩
    obtain ⟨h1, h2⟩ := dist_parts a m b t t0 t1 mx my
    simp only [h1, h2, my]; ring) h

/-- The length of a line is unchanged. -/
theorem C141_length (d m : Int) (r r' : List (Coord ℝ)) (h : Refined r r') :
    Length.ofLine ⟨d, m, r'⟩ = Length.ofLine ⟨d, m, r⟩ := by
  rw [C35_exact, C35_exact, lineLength_refined h]

theorem refined_nil {r r' : List (Coord ℝ)} (h : Refined r r') : r' = [] ↔ r = [] := by
  have := (ends_refined h).1
  rw [← List.head?_eq_none_iff, ← List.head?_eq_none_iff (l := r), this]

/-- The centroid of a line is unchanged. -/
theorem C141_line_centroid (s s' : LineString ℝ) (h : Refined s.getCoordinates s'.getCoordinates) (hne : s.getCoordinates ≠ []) :
    ∃ c c', Centroid.ofLineString s = .ok c ∧ Centroid.ofLineString s' = .ok c' ∧ c'.getCentroid = c.getCentroid := by
  obtain ⟨c, e, h1, h2⟩ := (C46_line s).2 hne
  obtain ⟨c', e', h1', h2'⟩ := (C46_line s').2 (fun hn => hne ((refined_nil h).mp hn))
  refine ⟨c, c', e, e', ?_⟩
  rw [lineLength_refined h, lineX_refined h, lineY_refined h] at h1'
  rw [lineLength_refined h] at h2'
  by_cases hz : lineLength s.getCoordinates = 0
  · obtain ⟨q, hq⟩ : ∃ q, s.getCoordinates.head? = some q := by
      cases hs : s.getCoordinates with
      | nil => exact absurd hs hne
      | cons q l => exact ⟨q, rfl⟩
    rw [h2 hz q (List.mem_of_head? hq), h2' hz q (List.mem_of_head? ((ends_refined h).1.trans hq))]
  · rw [h1 hz, h1' hz]

/-- The centroid of a polygon without holes is unchanged. -/
theorem C141_polygon_centroid (p p' : Polygon ℝ) (hp : Proper p) (hh : p.holes = []) (hh' : p'.holes = [])
    (h : Refined p.shell.getCoordinates p'.shell.getCoordinates) :
    Centroid.fromPolygon p' = Centroid.fromPolygon p := by
  have hp' : Proper p' := ⟨⟨fun hn => hp.1.1 ((refined_nil h).mp hn), closed2D_refined h hp.1.2⟩, by simp [hh']⟩
  rw [C46_polygon p hp, C46_polygon p' hp']
  congr 2
  unfold ringsW
  rw [hh, hh', List.map_nil]
  have neg : ∀ (t : ℝ) (l : List (Coord ℝ)), centroidOf [(-t, l)] = centroidOf [(t, l)] := fun t l => centroidOf_neg [(t, l)]
  have same : ∀ t : ℝ, centroidOf [(t, p'.shell.getCoordinates)] = centroidOf [(t, p.shell.getCoordinates)] := by
    intro t
    refine centroidOf_congr _ _ (.cons ⟨?_, ?_, ?_, lineX_refined h, lineY_refined h, lineLength_refined h, fun _ => ?_⟩ .nil)
    · simp only [shoelace_refined h]
    · simp only [momentX_refined h]
    · simp only [momentY_refined h]
    · simp only [headX, headY, (ends_refined h).1, and_self]
  have one : ∀ t : ℝ, (t = 1 ∨ t = -1) → ∀ l, centroidOf [(t, l)] = centroidOf [(1, l)] := by
    rintro t (rfl | rfl) l
    · rfl
    · exact neg 1 l
  have ht : ∀ l, turnOf l = 1 ∨ turnOf l = -1 := by intro l; unfold turnOf; split_ifs <;> simp
  rw [one _ (ht _), one _ (ht _), same]

/-- With holes too, as long as the direction of every ring is told the same. -/
theorem C141_holes_centroid (p p' : Polygon ℝ) (hp : Proper p)
    (h : List.Forall₂ (fun r r' => Refined r r' ∧ Orientation.isCCW r' = Orientation.isCCW r)
      (p.shell.getCoordinates :: p.holes.map LinearRing.getCoordinates) (p'.shell.getCoordinates :: p'.holes.map LinearRing.getCoordinates)) :
    Centroid.fromPolygon p' = Centroid.fromPolygon p := by
  rw [List.forall₂_cons, List.forall₂_map_left_iff, List.forall₂_map_right_iff] at h
  obtain ⟨⟨h1, t1⟩, h2⟩ := h
  have hp' : Proper p' := by
    refine ⟨⟨fun hn => hp.1.1 ((refined_nil h1).mp hn), closed2D_refined h1 hp.1.2⟩, ?_⟩
    have := hp.2
    clear hp h1 t1
    generalize p.holes = A at h2 this
    generalize p'.holes = B at h2
    induction h2 with
    | nil => intro q hq; simp at hq
    | cons ha _ ih =>
      intro q hq
      rcases List.mem_cons.mp hq with rfl | hq
      · have k := this _ (List.mem_cons_self ..)
        exact ⟨fun hn => k.1 ((refined_nil ha.1).mp hn), closed2D_refined ha.1 k.2⟩
      · exact ih (fun a ha => this a (List.mem_cons_of_mem _ ha)) q hq
  have same : ∀ (e : ℝ) (r r' : List (Coord ℝ)), Refined r r' → Orientation.isCCW r' = Orientation.isCCW r →
      SameW (e * turnOf r, r) (e * turnOf r', r') := by
    intro e r r' hr ht
    have : turnOf r' = turnOf r := by unfold turnOf; rw [ht]
    rw [this]
    refine ⟨?_, ?_, ?_, (lineX_refined hr).symm, (lineY_refined hr).symm, (lineLength_refined hr).symm, fun _ => ?_⟩
    · simp only [shoelace_refined hr]
    · simp only [momentX_refined hr]
    · simp only [momentY_refined hr]
    · simp only [headX, headY, (ends_refined hr).1, and_self]
  rw [C46_polygon p hp, C46_polygon p' hp']
  congr 2
  symm
  apply centroidOf_congr
  unfold ringsW
  refine .cons (by simpa using same 1 _ _ h1 t1) ?_
  rw [List.forall₂_map_left_iff, List.forall₂_map_right_iff]
  exact h2.imp (fun a b hab => by simpa using same (-1) _ _ hab.1 hab.2)

/-! ## Doubles on a grid -/

section doubles
variable {sq : ℚ → Val} {hy : ℚ → ℚ → Val}

/-- The locations in doubles, if the points of both lines are on a common grid. -/
theorem C141_locate_doubles (g : ℤ) (h1 : -484 ≤ g) (h2 : g ≤ 400) (p : Coord ℚ) (r r' : List (Coord ℚ)) (hp : OnGrid g p)
    (hr : ∀ c ∈ r, OnGrid g c) (hr' : ∀ c ∈ r', OnGrid g c) (hc : Closed2D r) (h : Refined r r') :
    PointLocation.locateInRing (toB64 p : Coord (B64 sq hy)) (r'.map toB64) = PointLocation.locateInRing (toB64 p : Coord (B64 sq hy)) (r.map toB64) ∧
    PointLocation.isOnLine (toB64 p : Coord (B64 sq hy)) (r'.map toB64) = PointLocation.isOnLine (toB64 p : Coord (B64 sq hy)) (r.map toB64) := by
  constructor
  · obtain ⟨u, e, u1, u2, u3⟩ := C66_locate (sq := sq) (hy := hy) g h1 h2 p r hp hr hc
    obtain ⟨v, e', v1, v2, v3⟩ := C66_locate (sq := sq) (hy := hy) g h1 h2 p r' hp hr' (closed2D_refined h hc)
    rw [onLine_refined p h] at v1 v2 v3
    rw [crossings_refined p h] at v2 v3
    rw [e, e']
    congr 1
    by_cases ho : OnLine p r
    · rw [u1 ho, v1 ho]
    · rcases Nat.mod_two_eq_zero_or_one (crossings p r) with hm | hm
      · rw [u3 ho hm, v3 ho hm]
      · rw [u2 ho hm, v2 ho hm]
  · obtain ⟨b, e, hb⟩ := C66_onLine (sq := sq) (hy := hy) g h1 h2 p r hp hr
    obtain ⟨b', e', hb'⟩ := C66_onLine (sq := sq) (hy := hy) g h1 h2 p r' hp hr'
    rw [e, e']
    congr 1
    rw [Bool.eq_iff_iff, hb, hb', onLine_refined p h]

/-- The areas in doubles, if no sum is rounded. -/
theorem C141_area_doubles (b : ℕ) (g : ℤ) (h1 : -500 ≤ g) (h2 : g ≤ 400) (r r' : List (Coord ℚ)) (hr : ∀ c ∈ r, OnGridB b g c)
    (hr' : ∀ c ∈ r', OnGridB b g c) (hc : Closed2D r) (h : Refined r r') (hn : r.length * 2 ^ (2 * b + 2) ≤ 2 ^ 53)
    (hn' : r'.length * 2 ^ (2 * b + 2) ≤ 2 ^ 53) :
    Area.ofRingSigned (r'.map (toB64 : Coord ℚ → Coord (B64 sq hy))) = Area.ofRingSigned (r.map (toB64 : Coord ℚ → Coord (B64 sq hy))) ∧
    Area.ofRing (r'.map (toB64 : Coord ℚ → Coord (B64 sq hy))) = Area.ofRing (r.map (toB64 : Coord ℚ → Coord (B64 sq hy))) := by
  obtain ⟨a1, a2⟩ := C87_exact (sq := sq) (hy := hy) b g h1 h2 r hr hc hn
  obtain ⟨b1, b2⟩ := C87_exact (sq := sq) (hy := hy) b g h1 h2 r' hr' (closed2D_refined h hc) hn'
  rw [shoelace_refined h] at b1 b2
  rw [a1, a2, b1, b2]
  exact ⟨rfl, rfl⟩

end doubles

/-! ## Cases -/

section examples

/-- Two points added to a triangle, one of them a repetition of a corner. -/
theorem triangle_refined : Refined [(Coord.xy 0 0 : Coord ℚ), Coord.xy 4 0, Coord.xy 0 2, Coord.xy 0 0]
    [Coord.xy 0 0, Coord.xy 4 0, Coord.xy 2 1, Coord.xy 0 2, Coord.xy 0 2, Coord.xy 0 0] := by
  refine Relation.ReflTransGen.tail (Relation.ReflTransGen.single (b := [Coord.xy 0 0, Coord.xy 4 0, Coord.xy 2 1, Coord.xy 0 2, Coord.xy 0 0]) ?_) ?_
  · exact ⟨[Coord.xy 0 0], Coord.xy 4 0, Coord.xy 2 1, Coord.xy 0 2, [Coord.xy 0 0], rfl,
      ⟨1 / 2, by norm_num, by norm_num, by norm_num [Coord.xy], by norm_num [Coord.xy]⟩, rfl⟩
  · exact ⟨[Coord.xy 0 0, Coord.xy 4 0, Coord.xy 2 1], Coord.xy 0 2, Coord.xy 0 2, Coord.xy 0 0, [], rfl,
      ⟨0, by norm_num, by norm_num, by norm_num [Coord.xy], by norm_num [Coord.xy]⟩, rfl⟩

example : Area.ofRing [(Coord.xy 0 0 : Coord ℚ), Coord.xy 4 0, Coord.xy 2 1, Coord.xy 0 2, Coord.xy 0 2, Coord.xy 0 0] = .ok 4 := by
  rw [(C141_area _ _ (by intro u v h1 h2; simp at h1 h2; subst h1 h2; simp) triangle_refined).2.1]
  decide +kernel

/-- A square cut along its diagonal; the point is in one half. -/
example : ¬ OnSegment (Coord.xy 3 1 : Coord ℚ) (Coord.xy 0 0) (Coord.xy 4 4) ∧
    PointLocation.locateInRing (Coord.xy 3 1 : Coord ℚ) [Coord.xy 0 0, Coord.xy 4 0, Coord.xy 4 4, Coord.xy 0 4, Coord.xy 0 0] = .ok Location.INTERIOR ∧
    PointLocation.locateInRing (Coord.xy 3 1 : Coord ℚ) [Coord.xy 0 0, Coord.xy 4 0, Coord.xy 4 4, Coord.xy 0 0] = .ok Location.INTERIOR ∧
    PointLocation.locateInRing (Coord.xy 3 1 : Coord ℚ) [Coord.xy 0 0, Coord.xy 4 4, Coord.xy 0 4, Coord.xy 0 0] = .ok Location.EXTERIOR := by
  refine ⟨?_, by decide +kernel, by decide +kernel, by decide +kernel⟩
  rintro ⟨t, -, -, hx, hy⟩
  simp [Coord.xy] at hx hy
  linarith

/-- On the chord itself nothing follows: the point is on the boundary of both pieces and inside the whole. -/
theorem C141_chord : ∃ (a b p : Coord ℚ) (l r : List (Coord ℚ)), OnSegment p a b ∧
    PointLocation.locateInRing p (a :: l ++ b :: r ++ [a]) = .ok Location.INTERIOR ∧
    PointLocation.locateInRing p (a :: l ++ [b, a]) = .ok Location.BOUNDARY ∧
    PointLocation.locateInRing p (a :: b :: r ++ [a]) = .ok Location.BOUNDARY :=
  ⟨Coord.xy 0 0, Coord.xy 4 4, Coord.xy 2 2, [Coord.xy 4 0], [Coord.xy 0 4],
    ⟨1 / 2, by norm_num, by norm_num, by norm_num [Coord.xy], by norm_num [Coord.xy]⟩,
    by decide +kernel, by decide +kernel, by decide +kernel⟩

end examples

end Verif.Props
