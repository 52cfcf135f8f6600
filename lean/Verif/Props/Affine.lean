import Verif.Props.Densify
import Verif.Props.CentroidSimple
import Verif.Props.SegmentDistance

set_option linter.unusedSectionVars false

/-! # C142: no system of coordinates is preferred -/

namespace Verif.Spec
variable {K : Type} [Field K]

/-- An affine map of the plane; the other ordinates are kept. -/
def affine (a b c d e f : K) (v : Coord K) : Coord K := { v with x := a * v.x + b * v.y + e, y := c * v.x + d * v.y + f }

end Verif.Spec

namespace Verif.Props
open Flt Verif.Spec Verif.Binary64

section exact
variable {K : Type} [Field K] [LinearOrder K] [IsStrictOrderedRing K]

theorem affine_det (a b c d e f : K) (p q r : Coord K) :
    det (affine a b c d e f p) (affine a b c d e f q) (affine a b c d e f r) = (a * d - b * c) * det p q r := by
  unfold affine det; ring

theorem affine_onSegment (a b c d e f : K) (hd : a * d - b * c ≠ 0) (p u v : Coord K) :
    OnSegment (affine a b c d e f p) (affine a b c d e f u) (affine a b c d e f v) ↔ OnSegment p u v := by
  unfold OnSegment affine
  refine exists_congr fun t => and_congr_right fun _ => and_congr_right fun _ => ?_
  simp only
  constructor
  · rintro ⟨h1, h2⟩
    constructor
    · refine mul_left_cancel₀ hd ?_
      linear_combination d * h1 - b * h2
    · refine mul_left_cancel₀ hd ?_
      linear_combination a * h2 - c * h1
  · rintro ⟨h1, h2⟩
    constructor
    · rw [h1, h2]; ring
    · rw [h1, h2]; ring

theorem segs_map_pair {A B : Type} (f : A → B) (l : List A) : segs (l.map f) = (segs l).map (Prod.map f f) := by
  unfold segs
  rw [← List.map_tail, List.zip_map]

theorem affine_onLine (a b c d e f : K) (hd : a * d - b * c ≠ 0) (p : Coord K) (l : List (Coord K)) :
    OnLine (affine a b c d e f p) (l.map (affine a b c d e f)) ↔ OnLine p l := by
  unfold OnLine
  rw [segs_map_pair]
  simp only [List.mem_map, exists_exists_and_eq_and, Prod.map_fst, Prod.map_snd, affine_onSegment a b c d e f hd]

theorem affine_closed (a b c d e f : K) (l : List (Coord K)) (h : Closed2D l) : Closed2D (l.map (affine a b c d e f)) := by
  intro u v hu hv
  rw [List.head?_map, Option.map_eq_some_iff] at hu
  rw [List.getLast?_map, Option.map_eq_some_iff] at hv
  obtain ⟨u', hu, rfl⟩ := hu
  obtain ⟨v', hv, rfl⟩ := hv
  obtain ⟨h1, h2⟩ := h u' v' hu hv
  unfold affine
  simp only [h1, h2, and_self]

/-- If every edge changes the parity as a function of its ends says, the parity for a closed ring is the same. -/
theorem parity_telescope (F : Coord K → Coord K) (p : Coord K) (S : Coord K → Bool)
    (hS : ∀ u v : Coord K, u.x = v.x → u.y = v.y → S u = S v)
    (he : ∀ u v, ¬ OnSegment p u v → ((CrossesRight (F p) (F u, F v) ↔ CrossesRight p (u, v)) ↔ S u = S v))
    (ring : List (Coord K)) (hc : Closed2D ring) (ho : ¬ OnLine p ring) :
    crossings (F p) (ring.map F) % 2 = crossings p ring % 2 := by
  have key : ∀ (l : List (Coord K)) (u w : Coord K), (u :: l).getLast? = some w → ¬ OnLine p (u :: l) →
      (crossings (F p) ((u :: l).map F) + crossings p (u :: l)) % 2 = if (S u ^^ S w) = true then 1 else 0 := by
    intro l
    induction l with
    | nil =>
      intro u w h _
      simp at h
      subst h
      simp [crossings, segs]
    | cons v l ih =>
      intro u w h ho
      have hl : (v :: l).getLast? = some w := by rw [← h]; simp [List.getLast?_cons_cons]
      have ho' : ¬ OnLine p (v :: l) := fun ⟨s, hs, h⟩ => ho ⟨s, by simp [segs] at hs ⊢; exact Or.inr hs, h⟩
      have hu : ¬ OnSegment p u v := fun h => ho ⟨(u, v), by simp [segs], h⟩
      have e := he u v hu
      have i := ih v w hl ho'
      have c1 : crossings (F p) ((u :: v :: l).map F) =
          crossings (F p) ((v :: l).map F) + if decide (CrossesRight (F p) (F u, F v)) = true then 1 else 0 := by
        simp only [crossings, segs, List.map_cons, List.tail_cons, List.zip_cons_cons, List.countP_cons]
      have c2 : crossings p (u :: v :: l) = crossings p (v :: l) + if decide (CrossesRight p (u, v)) = true then 1 else 0 := by
        simp only [crossings, segs, List.tail_cons, List.zip_cons_cons, List.countP_cons]
      rw [c1, c2]
      rw [← decide_eq_true_iff (p := CrossesRight (F p) (F u, F v)), ← decide_eq_true_iff (p := CrossesRight p (u, v))] at e
      generalize decide (CrossesRight (F p) (F u, F v)) = x at *
      generalize decide (CrossesRight p (u, v)) = y at *
      generalize S u = su at *
      generalize S v = sv at *
      generalize S w = sw at *
      cases x <;> cases y <;> cases su <;> cases sv <;> cases sw <;> simp at e i ⊢ <;> omega
  cases ring with
  | nil => rfl
  | cons u l =>
    obtain ⟨w, hw⟩ : ∃ w, (u :: l).getLast? = some w := ⟨_, List.getLast?_eq_some_getLast (by simp)⟩
    have k := key l u w hw ho
    obtain ⟨h1, h2⟩ := hc u w rfl hw
    rw [hS u w h1 h2] at k
    simp only [Bool.xor_self, Bool.false_eq_true, if_false] at k
    omega

/-- A map keeps the side of closed rings. -/
def KeepsParity (F : Coord K → Coord K) : Prop :=
  ∀ (p : Coord K) (ring : List (Coord K)), Closed2D ring → ¬ OnLine p ring → crossings (F p) (ring.map F) % 2 = crossings p ring % 2

/-- Maps that keep horizontal lines, up and right. -/
theorem keeps_upper (a b e d f : K) (ha : 0 < a) (hd : 0 < d) : KeepsParity (affine a b 0 d e f) := by
  intro p ring hc ho
  refine parity_telescope _ p (fun _ => false) (fun _ _ _ _ => rfl) ?_ ring hc ho
  intro u v _
  have : CrossesRight (affine a b 0 d e f p) (affine a b 0 d e f u, affine a b 0 d e f v) ↔ CrossesRight p (u, v) := by
    rw [crossesRight_iff, crossesRight_iff, affine_det]
    have k : (0 : K) < a * d - b * 0 := by nlinarith [mul_pos ha hd]
    have l1 : ∀ s t : Coord K, (affine a b 0 d e f s).y ≤ (affine a b 0 d e f t).y ↔ s.y ≤ t.y := by
      intro s t
      unfold affine
      simp only [zero_mul, zero_add, add_le_add_iff_right]
      exact mul_le_mul_iff_right₀ hd
    have l2 : ∀ s t : Coord K, (affine a b 0 d e f s).y < (affine a b 0 d e f t).y ↔ s.y < t.y := by
      intro s t
      rw [← not_le, ← not_le, l1]
    rw [l1, l1, l2, l2, mul_pos_iff_of_pos_left k, show (a * d - b * 0) * det u v p < 0 ↔ det u v p < 0 from ⟨fun h => by by_contra g; exact absurd (mul_nonneg k.le (not_lt.mp g)) (not_le.mpr h), mul_neg_of_pos_of_neg k⟩]
  simp [this]

/-- The two axes exchanged. -/
theorem keeps_swap : KeepsParity (affine (0 : K) 1 1 0 0 0) := by
  intro p ring hc ho
  refine parity_telescope _ p (fun v => decide (p.x < v.x) && decide (p.y < v.y)) (fun u v h1 h2 => by simp [h1, h2]) ?_ ring hc ho
  intro u v hn
  have e1 := crossesRight_iff p u v
  have e2 := crossesRight_iff (affine (0 : K) 1 1 0 0 0 p) (affine 0 1 1 0 0 0 u) (affine 0 1 1 0 0 0 v)
  rw [affine_det] at e2
  have y : ∀ s : Coord K, (affine (0 : K) 1 1 0 0 0 s).y = s.x := by intro s; unfold affine; simp
  rw [y, y, y, show ((0 : K) * 0 - 1 * 1) * det u v p = - det u v p by ring, Left.neg_pos_iff, Left.neg_neg_iff] at e2
  rw [e1, e2, Bool.eq_iff_iff]
  simp only [Bool.and_eq_true, decide_eq_true_eq]
  have dd : det u v p = (u.x - p.x) * (v.y - p.y) - (u.y - p.y) * (v.x - p.x) := by unfold det; ring
  have pp : ∀ s t : K, p.x < s → p.y < t → 0 < (s - p.x) * (t - p.y) := fun s t h k => mul_pos (by linarith) (by linarith)
  have nn : ∀ s t : K, s ≤ p.x → t ≤ p.y → 0 ≤ (s - p.x) * (t - p.y) := fun s t h k => mul_nonneg_of_nonpos_of_nonpos (by linarith) (by linarith)
  have pn : ∀ s t : K, p.x < s → t ≤ p.y → (s - p.x) * (t - p.y) ≤ 0 := fun s t h k => mul_nonpos_of_nonneg_of_nonpos (by linarith) (by linarith)
  have np : ∀ s t : K, s ≤ p.x → p.y < t → (s - p.x) * (t - p.y) ≤ 0 := fun s t h k => mul_nonpos_of_nonpos_of_nonneg (by linarith) (by linarith)
  have d0 : det u v p = 0 → min u.x v.x ≤ p.x → p.x ≤ max u.x v.x → min u.y v.y ≤ p.y → p.y ≤ max u.y v.y → False := by
    intro h k1 k2 k3 k4
    exact hn ((onSegment_iff p u v).mpr ⟨h, k1, k2, k3, k4⟩)
  rw [mul_comm (u.y - p.y)] at dd
  generalize det u v p = D at *
  rw [← not_lt (a := p.x) (b := u.x), ← not_lt (a := p.x) (b := v.x), ← not_lt (a := p.y) (b := u.y), ← not_lt (a := p.y) (b := v.y)]
  by_cases a : p.x < u.x <;> by_cases b : p.x < v.x <;> by_cases c : p.y < u.y <;> by_cases d : p.y < v.y <;>
    simp only [a, b, c, d, true_and, false_and, and_true, and_false, or_false, false_or, iff_self, iff_true, iff_false,
      false_iff, not_true, not_false_iff] <;>
    (try rw [not_lt] at a) <;> (try rw [not_lt] at b) <;> (try rw [not_lt] at c) <;> (try rw [not_lt] at d)
  · exact not_not.mpr (by linarith [pn _ _ a d, pp _ _ b c])
  · exact not_not.mpr (by linarith [pp _ _ a d, pn _ _ b c])
  · exact not_not.mpr (by linarith [pp _ _ a d, np _ _ b c])
  · intro h
    rcases lt_trichotomy D 0 with k | k | k
    · linarith [h.mpr k]
    · exact d0 k ((min_le_right _ _).trans b) (a.le.trans (le_max_left _ _)) ((min_le_right _ _).trans d) (c.le.trans (le_max_left _ _))
    · linarith [h.mp k]
  · exact not_lt.mpr (by linarith [pn _ _ a d, nn _ _ b c])
  · exact not_not.mpr (by linarith [np _ _ a d, pp _ _ b c])
  · intro h
    rcases lt_trichotomy D 0 with k | k | k
    · linarith [h.mp k]
    · exact d0 k ((min_le_left _ _).trans a) (b.le.trans (le_max_right _ _)) ((min_le_left _ _).trans c) (d.le.trans (le_max_right _ _))
    · linarith [h.mpr k]
  · exact not_lt.mpr (by linarith [nn _ _ a d, pn _ _ b c])
  · exact not_lt.mpr (by linarith [nn _ _ a d, np _ _ b c])
  · exact not_lt.mpr (by linarith [np _ _ a d, nn _ _ b c])

/-- Up and down exchanged. -/
theorem keeps_down : KeepsParity (affine (1 : K) 0 0 (-1) 0 0) := by
  intro p ring hc ho
  refine parity_telescope _ p (fun v => decide (v.y = p.y) && decide (p.x < v.x)) (fun u v h1 h2 => by simp [h1, h2]) ?_ ring hc ho
  intro u v hn
  have e1 := crossesRight_iff p u v
  have e2 := crossesRight_iff (affine (1 : K) 0 0 (-1) 0 0 p) (affine 1 0 0 (-1) 0 0 u) (affine 1 0 0 (-1) 0 0 v)
  rw [affine_det] at e2
  have y : ∀ s : Coord K, (affine (1 : K) 0 0 (-1) 0 0 s).y = -s.y := by intro s; unfold affine; simp
  rw [y, y, y, show ((1 : K) * -1 - 0 * 0) * det u v p = - det u v p by ring, Left.neg_pos_iff, Left.neg_neg_iff, neg_le_neg_iff,
    neg_le_neg_iff, neg_lt_neg_iff, neg_lt_neg_iff] at e2
  rw [e1, e2, Bool.eq_iff_iff]
  simp only [Bool.and_eq_true, decide_eq_true_eq]
  have dd : det u v p = (u.x - p.x) * (v.y - p.y) - (u.y - p.y) * (v.x - p.x) := by unfold det; ring
  have d0 : det u v p = 0 → min u.x v.x ≤ p.x → p.x ≤ max u.x v.x → min u.y v.y ≤ p.y → p.y ≤ max u.y v.y → False := by
    intro h k1 k2 k3 k4
    exact hn ((onSegment_iff p u v).mpr ⟨h, k1, k2, k3, k4⟩)
  generalize det u v p = D at *
  have tri : ∀ s t : K, (s < t ∧ ¬ t < s ∧ ¬ s = t ∧ ¬ t ≤ s ∧ s ≤ t) ∨ s = t ∨ (t < s ∧ ¬ s < t ∧ ¬ s = t ∧ ¬ s ≤ t ∧ t ≤ s) := by
    intro s t
    rcases lt_trichotomy s t with h | h | h
    · exact Or.inl ⟨h, h.not_gt, h.ne, h.not_ge, h.le⟩
    · exact Or.inr (Or.inl h)
    · exact Or.inr (Or.inr ⟨h, h.not_gt, h.ne', h.not_ge, h.le⟩)
  rcases tri u.y p.y with a | a | a <;> rcases tri v.y p.y with b | b | b <;>
    simp only [a, b, lt_irrefl, le_refl, true_and, false_and, or_false, false_or, iff_self, iff_false, false_iff]
  · rw [not_iff_not, dd, b, sub_self, mul_zero, zero_sub, ← neg_mul, mul_pos_iff_of_pos_left (by linarith [a.1]), sub_pos]
  · rw [not_iff_not, dd, a, sub_self, zero_mul, sub_zero]
    exact ⟨fun h => by
      by_contra g
      exact absurd (mul_nonneg_of_nonpos_of_nonpos (by linarith [not_lt.mp g] : u.x - p.x ≤ 0) (by linarith [b.1] : v.y - p.y ≤ 0)) (not_le.mpr h),
      fun h => mul_neg_of_pos_of_neg (by linarith) (by linarith [b.1])⟩
  · rw [true_iff]
    have dz : D = 0 := by rw [dd, a, b]; ring
    have my : min u.y v.y ≤ p.y := by rw [a, b, min_self]
    have My : p.y ≤ max u.y v.y := by rw [a, b, max_self]
    constructor
    · intro h
      by_contra g
      exact d0 dz ((min_le_right _ _).trans (not_lt.mp g)) (h.le.trans (le_max_left _ _)) my My
    · intro h
      by_contra g
      exact d0 dz ((min_le_left _ _).trans (not_lt.mp g)) (h.le.trans (le_max_right _ _)) my My
  · rw [not_iff_not, dd, a, sub_self, zero_mul, sub_zero, mul_pos_iff_of_pos_right (by linarith [b.1]), sub_pos]
  · rw [not_iff_not, dd, b, sub_self, mul_zero, zero_sub, Left.neg_neg_iff, mul_pos_iff_of_pos_left (by linarith [a.1]), sub_pos]

theorem keeps_comp (F G : Coord K → Coord K) (hF : KeepsParity F) (hG : KeepsParity G)
    (cG : ∀ l, Closed2D l → Closed2D (l.map G)) (oG : ∀ p l, OnLine (G p) (l.map G) ↔ OnLine p l) : KeepsParity (fun v => F (G v)) := by
  intro p ring hc ho
  have e : ring.map (fun v => F (G v)) = (ring.map G).map F := by rw [List.map_map]; rfl
  rw [e, hF (G p) (ring.map G) (cG ring hc) (by rw [oG]; exact ho), hG p ring hc ho]

theorem keeps_affine_comp (a b c d e f a' b' c' d' e' f' : K) (h' : a' * d' - b' * c' ≠ 0)
    (hF : KeepsParity (affine a b c d e f)) (hG : KeepsParity (affine a' b' c' d' e' f')) :
    KeepsParity (affine (a * a' + b * c') (a * b' + b * d') (c * a' + d * c') (c * b' + d * d') (a * e' + b * f' + e) (c * e' + d * f' + f)) := by
  have e : affine (a * a' + b * c') (a * b' + b * d') (c * a' + d * c') (c * b' + d * d') (a * e' + b * f' + e) (c * e' + d * f' + f) =
      fun v => affine a b c d e f (affine a' b' c' d' e' f' v) := by
    funext v
    unfold affine
    simp only [Coord.mk.injEq, and_true]
    exact ⟨by ring, by ring⟩
  rw [e]
  exact keeps_comp _ _ hF hG (affine_closed a' b' c' d' e' f') (affine_onLine a' b' c' d' e' f' h')

/-- Left and right exchanged. -/
theorem keeps_left : KeepsParity (affine (-1 : K) 0 0 1 0 0) := by
  have h := keeps_affine_comp (0 : K) 1 1 0 0 0 _ _ _ _ _ _ (by norm_num) keeps_swap
    (keeps_affine_comp (1 : K) 0 0 (-1) 0 0 0 1 1 0 0 0 (by norm_num) keeps_down keeps_swap)
  convert h using 2 <;> norm_num

/-- Maps that keep horizontal lines. -/
theorem keeps_triangular (a b e d f : K) (ha : a ≠ 0) (hd : d ≠ 0) : KeepsParity (affine a b 0 d e f) := by
  rcases lt_or_gt_of_ne ha with a0 | a0 <;> rcases lt_or_gt_of_ne hd with d0 | d0
  · have h := keeps_affine_comp (-1 : K) 0 0 1 0 0 (-a) (-b) 0 d (-e) f (by simp [ha, hd]) keeps_left
      (by
        have k := keeps_affine_comp (1 : K) 0 0 (-1) 0 0 (-a) (-b) 0 (-d) (-e) (-f) (by simp [ha, hd]) keeps_down (keeps_upper _ _ _ _ _ (by linarith) (by linarith))
        convert k using 2 <;> ring)
    convert h using 2 <;> ring
  · have h := keeps_affine_comp (-1 : K) 0 0 1 0 0 (-a) (-b) 0 d (-e) f (by simp [ha, hd]) keeps_left (keeps_upper _ _ _ _ _ (by linarith) d0)
    convert h using 2 <;> ring
  · have h := keeps_affine_comp (1 : K) 0 0 (-1) 0 0 a b 0 (-d) e (-f) (by simp [ha, hd]) keeps_down (keeps_upper _ _ _ _ _ a0 (by linarith))
    convert h using 2 <;> ring
  · exact keeps_upper _ _ _ _ _ a0 d0

/-- Every invertible affine map keeps the side of closed rings. -/
theorem keeps_affine (a b c d e f : K) (h : a * d - b * c ≠ 0) : KeepsParity (affine a b c d e f) := by
  by_cases hc : c = 0
  · subst hc
    have : a * d ≠ 0 := by simpa using h
    exact keeps_triangular _ _ _ _ _ (left_ne_zero_of_mul this) (right_ne_zero_of_mul this)
  · have k := keeps_affine_comp (b - a * d / c) a 0 c e f (0 : K) 1 1 (d / c) 0 0 (by simp)
      (keeps_triangular _ _ _ _ _ (by
        intro z
        apply h
        field_simp at z
        linear_combination -z) hc)
      (by
        have k := keeps_affine_comp (0 : K) 1 1 0 0 0 1 (d / c) 0 1 0 0 (by simp) keeps_swap (keeps_upper _ _ _ _ _ one_pos one_pos)
        convert k using 2 <;> ring)
    convert k using 2
    · ring
    · field_simp; ring
    · ring
    · field_simp; ring
    · ring
    · ring

/-- The place of a point with respect to any closed ring, which may cross itself, does not depend on the system of coordinates. -/
theorem C142_locate (a b c d e f : K) (h : a * d - b * c ≠ 0) (p : Coord K) (ring : List (Coord K)) (hc : Closed2D ring) :
    PointLocation.locateInRing (affine a b c d e f p) (ring.map (affine a b c d e f)) = PointLocation.locateInRing p ring ∧
    PointLocation.isInRing (affine a b c d e f p) (ring.map (affine a b c d e f)) = PointLocation.isInRing p ring := by
  have k : PointLocation.locateInRing (affine a b c d e f p) (ring.map (affine a b c d e f)) = PointLocation.locateInRing p ring := by
    obtain ⟨u, e1, u1, u2, u3⟩ := C31_locate p ring hc
    obtain ⟨v, e2, v1, v2, v3⟩ := C31_locate (affine a b c d e f p) (ring.map (affine a b c d e f)) (affine_closed a b c d e f ring hc)
    rw [affine_onLine a b c d e f h] at v1 v2 v3
    rw [e1, e2]
    congr 1
    by_cases ho : OnLine p ring
    · rw [u1 ho, v1 ho]
    · have m := keeps_affine a b c d e f h p ring hc ho
      rw [m] at v2 v3
      rcases Nat.mod_two_eq_zero_or_one (crossings p ring) with g | g
      · rw [u3 ho g, v3 ho g]
      · rw [u2 ho g, v2 ho g]
  exact ⟨k, by unfold PointLocation.isInRing; rw [k]⟩

/-- Nor does it which points are on a line. -/
theorem C142_onLine (a b c d e f : K) (h : a * d - b * c ≠ 0) (p : Coord K) (l : List (Coord K)) :
    PointLocation.isOnLine (affine a b c d e f p) (l.map (affine a b c d e f)) = PointLocation.isOnLine p l := by
  obtain ⟨x, e1, hx⟩ := C32_onLine p l
  obtain ⟨y, e2, hy⟩ := C32_onLine (affine a b c d e f p) (l.map (affine a b c d e f))
  rw [e1, e2]
  congr 1
  rw [Bool.eq_iff_iff, hx, hy, affine_onLine a b c d e f h]

theorem sgn_mul (x y : K) : sgn (x * y) = sgn x * sgn y := by
  unfold sgn
  rcases lt_trichotomy x 0 with hx | hx | hx <;> rcases lt_trichotomy y 0 with hy | hy | hy
  · simp [mul_pos_of_neg_of_neg hx hy, hx, hy, hx.not_gt, hy.not_gt]
  · simp [hy]
  · simp [mul_neg_of_neg_of_pos hx hy, (mul_neg_of_neg_of_pos hx hy).not_gt, hx, hy, hx.not_gt]
  · simp [hx]
  · simp [hx]
  · simp [hx]
  · simp [mul_neg_of_pos_of_neg hx hy, (mul_neg_of_pos_of_neg hx hy).not_gt, hx, hy, hy.not_gt]
  · simp [hy]
  · simp [mul_pos hx hy, hx, hy]

/-- The orientation of three points is multiplied by the sign of the determinant: kept, or turned round by every reflection. -/
theorem C142_index (a b c d e f : K) (p q r : Coord K) :
    Orientation.index (affine a b c d e f p) (affine a b c d e f q) (affine a b c d e f r) = sgn (a * d - b * c) * Orientation.index p q r := by
  rw [C29_index_is_sign, C29_index_is_sign, affine_det, sgn_mul]

theorem sum_steps (g : Coord K → K) (l : List (Coord K)) (u w : Coord K) (hu : l.head? = some u) (hw : l.getLast? = some w) :
    ((segs l).map (fun s => g s.2 - g s.1)).sum = g w - g u := by
  induction l generalizing u with
  | nil => simp at hu
  | cons v l ih =>
    cases l with
    | nil => simp at hu hw; subst hu hw; simp [segs]
    | cons x t =>
      simp at hu
      subst hu
      have i := ih x rfl (by rw [← hw]; simp [List.getLast?_cons_cons])
      have : segs (v :: x :: t) = (v, x) :: segs (x :: t) := by simp [segs]
      rw [this, List.map_cons, List.sum_cons, i]
      ring

theorem affine_shoelace (a b c d e f : K) (ring : List (Coord K)) (hc : Closed2D ring) :
    shoelace (ring.map (affine a b c d e f)) = (a * d - b * c) * shoelace ring := by
  cases ring with
  | nil => simp [shoelace, segs]
  | cons u l =>
    obtain ⟨w, hw⟩ : ∃ w, (u :: l).getLast? = some w := ⟨_, List.getLast?_eq_some_getLast (by simp)⟩
    obtain ⟨h1, h2⟩ := hc u w rfl hw
    have s1 := sum_steps (fun v : Coord K => (e * c - f * a) * v.x + (e * d - f * b) * v.y) (u :: l) u w rfl hw
    simp only [← h1, ← h2, sub_self] at s1
    unfold shoelace
    rw [segs_map_pair, List.map_map, ← List.sum_map_mul_left, ← add_zero (List.sum (List.map (fun i => _ * _) _)), ← s1, ← List.sum_map_add]
    congr 1
    apply List.map_congr_left
    intro s _
    simp only [Function.comp, Prod.map_fst, Prod.map_snd, affine]
    ring

/-- The signed area of a closed ring is multiplied by the determinant, the area by its size. -/
theorem C142_area (a b c d e f : K) (ring : List (Coord K)) (hc : Closed2D ring) :
    ∃ A, Area.ofRingSigned ring = .ok A ∧ Area.ofRingSigned (ring.map (affine a b c d e f)) = .ok ((a * d - b * c) * A) ∧
      Area.ofRing ring = .ok |A| ∧ Area.ofRing (ring.map (affine a b c d e f)) = .ok (|a * d - b * c| * |A|) := by
  obtain ⟨h1, h2⟩ := C33_shoelace ring hc
  obtain ⟨k1, k2⟩ := C33_shoelace (ring.map (affine a b c d e f)) (affine_closed a b c d e f ring hc)
  rw [affine_shoelace a b c d e f ring hc] at k1 k2
  refine ⟨_, h1, ?_, ?_, ?_⟩
  · rw [k1]; congr 1; ring
  · rw [h2, abs_div, abs_neg, abs_two]
  · rw [k2, abs_mul, abs_div, abs_neg, abs_two]; congr 1; ring

/-- The direction told from the area: kept by maps of positive determinant, for closed rings of any kind; turned round by the others, if
the area is not zero. -/
theorem C142_area_direction (a b c d e f : K) (ring : List (Coord K)) (hc : Closed2D ring) :
    (0 < a * d - b * c → Orientation.isCCWArea (ring.map (affine a b c d e f)) = Orientation.isCCWArea ring) ∧
    (a * d - b * c < 0 → Area.ofRingSigned ring ≠ .ok 0 →
      ∃ o, Orientation.isCCWArea ring = .ok o ∧ Orientation.isCCWArea (ring.map (affine a b c d e f)) = .ok (!o)) := by
  obtain ⟨A, h1, h2, -⟩ := C142_area a b c d e f ring hc
  unfold Orientation.isCCWArea
  rw [h1, h2]
  simp only [Res.bind_ok, exact_lt, exact_lit, Rat.cast_zero]
  constructor
  · intro h
    have : (a * d - b * c) * A < 0 ↔ A < 0 :=
      ⟨fun g => by by_contra k; exact absurd (mul_nonneg h.le (not_lt.mp k)) (not_le.mpr g), mul_neg_of_pos_of_neg h⟩
    rw [decide_eq_decide.mpr this]
  · intro h h0
    have hA : A ≠ 0 := fun h => h0 (by rw [h])
    refine ⟨_, rfl, ?_⟩
    rcases lt_or_gt_of_ne hA with g | g
    · rw [decide_eq_true g, decide_eq_false (mul_pos_of_neg_of_neg h g).not_gt]; rfl
    · rw [decide_eq_false g.not_gt, decide_eq_true (mul_neg_of_neg_of_pos h g)]; rfl

theorem corner_affine (a b c d e f : K) (v : List (Coord K)) (hv : v ≠ []) (i : Nat) :
    corner (v.map (affine a b c d e f)) i = affine a b c d e f (corner v i) := by
  have hn := List.length_pos_iff.mpr hv
  unfold corner
  rw [List.length_map, List.getD_eq_getElem?_getD, List.getD_eq_getElem?_getD, List.getElem?_map,
    List.getElem?_eq_getElem (Nat.mod_lt i hn)]
  rfl

theorem affine_same (a b c d e f : K) (hd : a * d - b * c ≠ 0) (p q : Coord K) :
    SamePlace (affine a b c d e f p) (affine a b c d e f q) ↔ SamePlace p q := by
  unfold SamePlace affine
  simp only
  constructor
  · rintro ⟨h1, h2⟩
    constructor
    · refine mul_left_cancel₀ hd ?_
      linear_combination d * h1 - b * h2
    · refine mul_left_cancel₀ hd ?_
      linear_combination a * h2 - c * h1
  · rintro ⟨h1, h2⟩
    rw [h1, h2]
    exact ⟨rfl, rfl⟩

theorem affine_onto (a b c d e f : K) (hd : a * d - b * c ≠ 0) (s : Coord K) : ∃ t, affine a b c d e f t = s := by
  refine ⟨⟨(d * (s.x - e) - b * (s.y - f)) / (a * d - b * c), (a * (s.y - f) - c * (s.x - e)) / (a * d - b * c), s.z, s.m⟩, ?_⟩
  unfold affine
  obtain ⟨x, y, z, m⟩ := s
  simp only [Coord.mk.injEq, and_true]
  constructor
  · have : a * ((d * (x - e) - b * (y - f)) / (a * d - b * c)) + b * ((a * (y - f) - c * (x - e)) / (a * d - b * c)) =
        (a * d - b * c) * (x - e) / (a * d - b * c) := by ring
    rw [this, mul_div_cancel_left₀ _ hd]; ring
  · have : c * ((d * (x - e) - b * (y - f)) / (a * d - b * c)) + d * ((a * (y - f) - c * (x - e)) / (a * d - b * c)) =
        (a * d - b * c) * (y - f) / (a * d - b * c) := by ring
    rw [this, mul_div_cancel_left₀ _ hd]; ring

/-- Simple rings stay simple. -/
theorem affine_simple (a b c d e f : K) (hd : a * d - b * c ≠ 0) (v : List (Coord K)) (hv : SimpleRing v) :
    SimpleRing (v.map (affine a b c d e f)) := by
  have hne : v ≠ [] := List.length_pos_iff.mp (by have := hv.three; omega)
  refine ⟨by rw [List.length_map]; exact hv.three, fun i => ?_, ?_⟩
  · rw [corner_affine _ _ _ _ _ _ v hne, corner_affine _ _ _ _ _ _ v hne, affine_same a b c d e f hd]; exact hv.step i
  · intro i j hi hj hij s h1 h2
    obtain ⟨s, rfl⟩ := affine_onto a b c d e f hd s
    simp only [corner_affine _ _ _ _ _ _ v hne, affine_onSegment a b c d e f hd, affine_same a b c d e f hd, List.length_map] at *
    exact hv.apart i j hi hj hij s h1 h2

/-- The direction of a simple ring is kept by maps of positive determinant and turned round by the others. -/
theorem C142_direction (a b c d e f : K) (hd : a * d - b * c ≠ 0) (v : List (Coord K)) (hv : SimpleRing v) :
    ∃ o, Orientation.isCCW (closed v) = .ok o ∧
      Orientation.isCCW ((closed v).map (affine a b c d e f)) = .ok (if 0 < a * d - b * c then o else !o) := by
  obtain ⟨A, h1, h2, h3, h4⟩ := C81_orientation v hv
  obtain ⟨B, k1, k2, k3, k4⟩ := C81_orientation _ (affine_simple a b c d e f hd v hv)
  rw [closed_map] at k1 k3 k4
  obtain ⟨g1, g2⟩ := C142_area_direction a b c d e f (closed v) (closed2D_closed v)
  refine ⟨_, h3, ?_⟩
  rcases lt_or_gt_of_ne hd with h | h
  · obtain ⟨o, o1, o2⟩ := g2 h (by rw [h1]; intro z; injection z with z; exact h2 z)
    rw [h4] at o1
    injection o1 with o1
    rw [k4] at o2
    rw [k3, if_neg h.not_gt, o1]
    exact o2
  · rw [if_pos h, k3, ← k4, g1 h, h4]

theorem affine_moments (a b c d e f : K) (ring : List (Coord K)) (hc : Closed2D ring) :
    momentX (ring.map (affine a b c d e f)) = (a * d - b * c) * (a * momentX ring + b * momentY ring + 3 * e * shoelace ring) ∧
    momentY (ring.map (affine a b c d e f)) = (a * d - b * c) * (c * momentX ring + d * momentY ring + 3 * f * shoelace ring) := by
  cases ring with
  | nil => simp [shoelace, momentX, momentY, segs]
  | cons u l =>
    obtain ⟨w, hw⟩ : ∃ w, (u :: l).getLast? = some w := ⟨_, List.getLast?_eq_some_getLast (by simp)⟩
    obtain ⟨h1, h2⟩ := hc u w rfl hw
    have key : ∀ (g : K → K → K) (F G : Coord K × Coord K → K),
        (∀ s, F s = G s + (g s.2.x s.2.y - g s.1.x s.1.y)) → ((segs (u :: l)).map F).sum = ((segs (u :: l)).map G).sum := by
      intro g F G h
      have s1 := sum_steps (fun v : Coord K => g v.x v.y) (u :: l) u w rfl hw
      simp only [← h1, ← h2, sub_self] at s1
      rw [← add_zero (((segs (u :: l)).map G).sum), ← s1, ← List.sum_map_add]
      congr 1
      exact List.map_congr_left (fun s _ => h s)
    have lin : ∀ (k1 k2 k3 : K), k1 * momentX (u :: l) + k2 * momentY (u :: l) + k3 * shoelace (u :: l) =
        ((segs (u :: l)).map (fun s => k1 * ((s.1.x + s.2.x) * (s.1.x * s.2.y - s.2.x * s.1.y)) + k2 * ((s.1.y + s.2.y) * (s.1.x * s.2.y - s.2.x * s.1.y)) +
          k3 * (s.1.x * s.2.y - s.2.x * s.1.y))).sum := by
      intro k1 k2 k3
      unfold momentX momentY shoelace
      rw [List.sum_map_add, List.sum_map_add, List.sum_map_mul_left, List.sum_map_mul_left, List.sum_map_mul_left]
    constructor
    · rw [lin, ← List.sum_map_mul_left, momentX, segs_map_pair, List.map_map]
      refine key (fun x y => a * (e * c - f * a) * x ^ 2 + b * (e * d - f * b) * y ^ 2 + (a * (e * d - f * b) + b * (e * c - f * a)) * (x * y) +
        2 * e * ((e * c - f * a) * x + (e * d - f * b) * y)) _ _ (fun s => ?_)
      simp only [Function.comp, Prod.map_fst, Prod.map_snd, affine]
      ring
    · rw [lin, ← List.sum_map_mul_left, momentY, segs_map_pair, List.map_map]
      refine key (fun x y => c * (e * c - f * a) * x ^ 2 + d * (e * d - f * b) * y ^ 2 + (c * (e * d - f * b) + d * (e * c - f * a)) * (x * y) +
        2 * f * ((e * c - f * a) * x + (e * d - f * b) * y)) _ _ (fun s => ?_)
      simp only [Function.comp, Prod.map_fst, Prod.map_snd, affine]
      ring

end exact

/-! ## Centroids -/

theorem turn_affine (a b c d e f : ℝ) (hd : a * d - b * c ≠ 0) (v : List (Coord ℝ)) (hv : SimpleRing v) :
    turnOf ((closed v).map (affine a b c d e f)) * (a * d - b * c) = |a * d - b * c| * turnOf (closed v) := by
  obtain ⟨o, h1, h2⟩ := C142_direction a b c d e f hd v hv
  unfold turnOf
  rw [h1, h2]
  rcases lt_or_gt_of_ne hd with h | h
  · rw [if_neg h.not_gt, abs_of_neg h]
    cases o <;> simp
  · rw [if_pos h, abs_of_pos h]
    cases o <;> simp

/-- Rings mapped one by one, the weights adjusted. -/
theorem wsum_affine (a b c d e f k : ℝ) (ws ws' : List (ℝ × List (Coord ℝ)))
    (h : List.Forall₂ (fun w w' => Closed2D w.2 ∧ w'.2 = w.2.map (affine a b c d e f) ∧ w'.1 * (a * d - b * c) = k * w.1) ws ws') :
    wsum ws' shoelace = k * wsum ws shoelace ∧
    wsum ws' momentX = k * (a * wsum ws momentX + b * wsum ws momentY + 3 * e * wsum ws shoelace) ∧
    wsum ws' momentY = k * (c * wsum ws momentX + d * wsum ws momentY + 3 * f * wsum ws shoelace) := by
  induction h with
  | nil => simp [wsum]
  | cons h1 _ ih =>
    obtain ⟨hc, hr, hk⟩ := h1
    obtain ⟨i1, i2, i3⟩ := ih
    obtain ⟨m1, m2⟩ := affine_moments a b c d e f _ hc
    have m0 := affine_shoelace a b c d e f _ hc
    simp only [wsum, List.map_cons, List.sum_cons] at *
    rw [i1, i2, i3, hr, m0, m1, m2]
    refine ⟨?_, ?_, ?_⟩
    · linear_combination (shoelace _) * hk
    · linear_combination (a * momentX _ + b * momentY _ + 3 * e * shoelace _) * hk
    · linear_combination (c * momentX _ + d * momentY _ + 3 * f * shoelace _) * hk

theorem centroidOf_affine (a b c d e f k : ℝ) (hk : k ≠ 0) (ws ws' : List (ℝ × List (Coord ℝ))) (h0 : wsum ws shoelace ≠ 0)
    (h : List.Forall₂ (fun w w' => Closed2D w.2 ∧ w'.2 = w.2.map (affine a b c d e f) ∧ w'.1 * (a * d - b * c) = k * w.1) ws ws') :
    ∃ x y, centroidOf ws = some (x, y) ∧ centroidOf ws' = some (a * x + b * y + e, c * x + d * y + f) := by
  obtain ⟨h1, h2, h3⟩ := wsum_affine a b c d e f k ws ws' h
  have n : ws ≠ [] := by rintro rfl; simp [wsum] at h0
  have n' : ws' ≠ [] := by rintro rfl; cases h; exact n rfl
  refine ⟨wsum ws momentX / (3 * wsum ws shoelace), wsum ws momentY / (3 * wsum ws shoelace), ?_, ?_⟩
  · unfold centroidOf
    rw [if_neg n, if_pos h0]
  · unfold centroidOf
    rw [if_neg n', if_pos (by rw [h1]; exact mul_ne_zero hk h0), h1, h2, h3]
    congr 2 <;> (field_simp)

/-- The centroid of a polygon whose rings are simple goes with the polygon, with any holes, unless the holes take all of its area. -/
theorem C142_centroid (a b c d e f : ℝ) (hd : a * d - b * c ≠ 0) (p p' : Polygon ℝ) (s : List (Coord ℝ)) (hs : List (List (Coord ℝ)))
    (hp : HasRings p s hs) (hp' : HasRings p' (s.map (affine a b c d e f)) (hs.map (List.map (affine a b c d e f))))
    (h1 : SimpleRing s) (h2 : ∀ v ∈ hs, SimpleRing v) (area : List (Coord ℝ) → ℝ) (ha : ∀ v, Area.ofRing (closed v) = .ok (area v))
    (hnet : area s - (hs.map area).sum ≠ 0) :
    ∃ q, Centroid.fromPolygon p = .ok (some q) ∧ Centroid.fromPolygon p' = .ok (some (affine a b c d e f q)) := by
  rw [C46_polygon p hp.proper, C46_polygon p' hp'.proper, hp.rings, hp'.rings]
  have hA : ∀ v, area v = |shoelace (closed v)| / 2 := by
    intro v
    have := ha v
    rw [(C33_shoelace (closed v) (closed2D_closed v)).2] at this
    injection this with this
    exact this.symm
  have hw : wsum ((turnOf (closed s), closed s) :: hs.map (fun v => (-turnOf (closed v), closed v))) shoelace ≠ 0 := by
    have e1 : wsum (hs.map (fun v => (-turnOf (closed v), closed v))) shoelace = -2 * (hs.map area).sum := by
      unfold wsum
      rw [List.map_map, ← List.sum_map_mul_left]
      congr 1
      apply List.map_congr_left
      intro v hv
      obtain ⟨_, t2, _⟩ := turn_area v (h2 v hv)
      simp only [Function.comp, hA]
      linarith
    obtain ⟨_, t2, _⟩ := turn_area s h1
    intro z
    apply hnet
    unfold wsum at z e1
    rw [List.map_cons, List.sum_cons, e1, t2] at z
    rw [hA s]
    linarith
  obtain ⟨x, y, e1, e2⟩ := centroidOf_affine a b c d e f |a * d - b * c| (abs_ne_zero.mpr hd) _
    ((turnOf (closed (s.map (affine a b c d e f))), closed (s.map (affine a b c d e f))) ::
      (hs.map (List.map (affine a b c d e f))).map (fun v => (-turnOf (closed v), closed v))) hw (by
    refine .cons ⟨closed2D_closed s, closed_map _ _, ?_⟩ ?_
    · rw [closed_map]; exact turn_affine a b c d e f hd s h1
    · rw [List.map_map, List.forall₂_map_left_iff, List.forall₂_map_right_iff, List.forall₂_same]
      intro v hv
      refine ⟨closed2D_closed v, closed_map _ _, ?_⟩
      simp only [Function.comp]
      rw [closed_map]
      have := turn_affine a b c d e f hd v (h2 v hv)
      linarith)
  rw [e1, e2]
  exact ⟨_, rfl, rfl⟩

/-! ## Pairs of segments -/

section segments
variable (a b c d e f : ℝ) (hd : a * d - b * c ≠ 0)
include hd

theorem affine_common (p1 p2 q1 q2 : Coord ℝ) (w : Coord ℝ) :
    (OnSegment (affine a b c d e f w) (affine a b c d e f p1) (affine a b c d e f p2) ∧
      OnSegment (affine a b c d e f w) (affine a b c d e f q1) (affine a b c d e f q2)) ↔ OnSegment w p1 p2 ∧ OnSegment w q1 q2 := by
  rw [affine_onSegment a b c d e f hd, affine_onSegment a b c d e f hd]

theorem affine_inside (w p1 p2 : Coord ℝ) :
    Inside (affine a b c d e f w) (affine a b c d e f p1) (affine a b c d e f p2) ↔ Inside w p1 p2 := by
  unfold Inside
  rw [affine_onSegment a b c d e f hd]
  have h : ∀ u v : Coord ℝ, Same (affine a b c d e f u) (affine a b c d e f v) ↔ Same u v := affine_same a b c d e f hd
  rw [h, h]

theorem affine_exists (P : Coord ℝ → Prop) : (∃ w, P w) ↔ ∃ w, P (affine a b c d e f w) :=
  ⟨fun ⟨w, h⟩ => by obtain ⟨t, rfl⟩ := affine_onto a b c d e f hd w; exact ⟨t, h⟩, fun ⟨w, h⟩ => ⟨_, h⟩⟩

theorem affine_forall (P : Coord ℝ → Prop) : (∀ w, P w) ↔ ∀ w, P (affine a b c d e f w) :=
  ⟨fun h w => h _, fun h w => by obtain ⟨t, rfl⟩ := affine_onto a b c d e f hd w; exact h t⟩

/-- Whether two segments meet, in one point or in many, and whether they cross inside both. -/
theorem C142_segments (s s' : LI ℝ) (p1 p2 q1 q2 : Coord ℝ) :
    (s'.compute4 (affine a b c d e f p1) (affine a b c d e f p2) (affine a b c d e f q1) (affine a b c d e f q2)).hasIntersection =
      (s.compute4 p1 p2 q1 q2).hasIntersection ∧
    (s'.compute4 (affine a b c d e f p1) (affine a b c d e f p2) (affine a b c d e f q1) (affine a b c d e f q2)).isProper =
      (s.compute4 p1 p2 q1 q2).isProper ∧
    (¬ SamePlace p1 p2 → ¬ SamePlace q1 q2 →
      (s'.compute4 (affine a b c d e f p1) (affine a b c d e f p2) (affine a b c d e f q1) (affine a b c d e f q2)).result =
        (s.compute4 p1 p2 q1 q2).result) := by
  have hs : ∀ u v : Coord ℝ, Same (affine a b c d e f u) (affine a b c d e f v) ↔ Same u v := affine_same a b c d e f hd
  have n := C38_none_iff_disjoint s p1 p2 q1 q2
  have n' := C38_none_iff_disjoint s' (affine a b c d e f p1) (affine a b c d e f p2) (affine a b c d e f q1) (affine a b c d e f q2)
  rw [affine_exists a b c d e f hd] at n'
  simp only [affine_common a b c d e f hd] at n'
  refine ⟨?_, ?_, ?_⟩
  · rw [Bool.eq_iff_iff, n'.2, n.2]
  · rw [Bool.eq_iff_iff, C38_proper, C38_proper, affine_exists a b c d e f hd]
    refine exists_congr fun w => ?_
    rw [affine_forall a b c d e f hd]
    simp only [affine_common a b c d e f hd, affine_inside a b c d e f hd, hs]
  · intro hp hq
    have k := C38_classification s p1 p2 q1 q2 hp hq
    have k' := C38_classification s' (affine a b c d e f p1) (affine a b c d e f p2) (affine a b c d e f q1) (affine a b c d e f q2)
      (by rw [hs]; exact hp) (by rw [hs]; exact hq)
    rw [(C38_no_history s { s with pm := none } p1 p2 q1 q2).1] at n k ⊢
    rcases (compute4_reports { s with pm := none } p1 p2 q1 q2 rfl).1.codes with z | z | z
    · rw [z]; exact n'.1.mpr (n.1.mp z)
    · rw [z]
      obtain ⟨w, hw⟩ := k.1.mp z
      refine k'.1.mpr ⟨affine a b c d e f w, ?_⟩
      rw [affine_forall a b c d e f hd]
      intro v
      rw [affine_common a b c d e f hd, hs]
      exact hw v
    · rw [z]
      obtain ⟨u, w, hne, hw⟩ := k.2.mp z
      refine k'.2.mpr ⟨affine a b c d e f u, affine a b c d e f w, by rw [hs]; exact hne, ?_⟩
      rw [affine_forall a b c d e f hd]
      intro v
      rw [affine_common a b c d e f hd, affine_onSegment a b c d e f hd]
      exact hw v

/-- The point in which two segments meet goes with them. -/
theorem C142_meeting_point (s s' : LI ℝ) (hs : s.pm = none) (hs' : s'.pm = none) (p1 p2 q1 q2 : Coord ℝ)
    (hp : ¬ SamePlace p1 p2) (hq : ¬ SamePlace q1 q2) (h : (s.compute4 p1 p2 q1 q2).result = 1) :
    ∃ w w', (s.compute4 p1 p2 q1 q2).getIntersection 0 = .ok w ∧
      (s'.compute4 (affine a b c d e f p1) (affine a b c d e f p2) (affine a b c d e f q1) (affine a b c d e f q2)).getIntersection 0 = .ok w' ∧
      SamePlace w' (affine a b c d e f w) := by
  obtain ⟨w, e1, hw⟩ := (C38_points s p1 p2 q1 q2 hs).1 h
  obtain ⟨w', e2, hw'⟩ := (C38_points s' (affine a b c d e f p1) (affine a b c d e f p2) (affine a b c d e f q1) (affine a b c d e f q2) hs').1
    (by rw [(C142_segments a b c d e f hd s s' p1 p2 q1 q2).2.2 hp hq, h])
  refine ⟨w, w', e1, e2, ?_⟩
  have k : Same (affine a b c d e f w) w' := (hw' _).mp ((affine_common a b c d e f hd p1 p2 q1 q2 w).mpr ((hw w).mpr ⟨rfl, rfl⟩))
  exact ⟨k.1.symm, k.2.symm⟩

end segments

/-! ## Distances -/

/-- Maps that keep distances: rotations and reflections, with any shift. -/
def Rigid (a b c d : ℝ) : Prop := a ^ 2 + c ^ 2 = 1 ∧ b ^ 2 + d ^ 2 = 1 ∧ a * b + c * d = 0

section rigid
variable (a b c d e f : ℝ) (h : Rigid a b c d)
include h

theorem rigid_det : a * d - b * c ≠ 0 := by
  obtain ⟨h1, h2, h3⟩ := h
  intro z
  have : (a * d - b * c) ^ 2 = 1 := by linear_combination (b ^ 2 + d ^ 2) * h1 + h2 - (a * b + c * d) * h3
  rw [z] at this
  norm_num at this

theorem rigid_dist (p q : Coord ℝ) : Spec.dist (affine a b c d e f p) (affine a b c d e f q) = Spec.dist p q := by
  obtain ⟨h1, h2, h3⟩ := h
  unfold Spec.dist affine
  congr 1
  simp only
  linear_combination (p.x - q.x) ^ 2 * h1 + (p.y - q.y) ^ 2 * h2 + 2 * (p.x - q.x) * (p.y - q.y) * h3

theorem rigid_least (p : Coord ℝ) (S S' : Coord ℝ → Prop) (hS : ∀ w, S' (affine a b c d e f w) ↔ S w) (x : ℝ) :
    LeastDist (affine a b c d e f p) S' x ↔ LeastDist p S x := by
  unfold LeastDist
  rw [affine_exists a b c d e f (rigid_det a b c d h), affine_forall a b c d e f (rigid_det a b c d h)]
  simp only [hS, rigid_dist a b c d e f h]

/-- The distances of points, of points from segments and from chains, of segments, and the lengths of lines. -/
theorem C142_distances (p q u v u' v' : Coord ℝ) (line : List (Coord ℝ)) (dim m : Int) :
    (affine a b c d e f p).distance (affine a b c d e f q) = p.distance q ∧
    Distance.pointToSegment (affine a b c d e f p) (affine a b c d e f u) (affine a b c d e f v) = Distance.pointToSegment p u v ∧
    Distance.segmentToSegment (affine a b c d e f u) (affine a b c d e f v) (affine a b c d e f u') (affine a b c d e f v') =
      Distance.segmentToSegment u v u' v' ∧
    (line ≠ [] → Distance.pointToSegmentString (affine a b c d e f p) (line.map (affine a b c d e f)) = Distance.pointToSegmentString p line) ∧
    Length.ofLine ⟨dim, m, line.map (affine a b c d e f)⟩ = Length.ofLine ⟨dim, m, line⟩ := by
  have hd := rigid_det a b c d h
  refine ⟨?_, ?_, ?_, ?_, ?_⟩
  · rw [distance_eq, distance_eq]; exact rigid_dist a b c d e f h p q
  · exact ((rigid_least a b c d e f h p (fun w => OnSegment w u v) _ (fun w => affine_onSegment a b c d e f hd w u v) _).mp
      (C36_segment _ _ _)).unique (C36_segment p u v)
  · have k := C37_segments (affine a b c d e f u) (affine a b c d e f v) (affine a b c d e f u') (affine a b c d e f v')
    refine LeastDist2.unique (S := fun w => OnSegment w u v) (T := fun w => OnSegment w u' v') ?_ (C37_segments u v u' v')
    obtain ⟨⟨w, w', k1, k2, k3⟩, k4⟩ := k
    obtain ⟨w, rfl⟩ := affine_onto a b c d e f hd w
    obtain ⟨w', rfl⟩ := affine_onto a b c d e f hd w'
    rw [affine_onSegment a b c d e f hd] at k1 k2
    rw [rigid_dist a b c d e f h] at k3
    refine ⟨⟨w, w', k1, k2, k3⟩, fun t t' ht ht' => ?_⟩
    have := k4 (affine a b c d e f t) (affine a b c d e f t') ((affine_onSegment a b c d e f hd _ _ _).mpr ht) ((affine_onSegment a b c d e f hd _ _ _).mpr ht')
    rwa [rigid_dist a b c d e f h] at this
  · intro hne
    obtain ⟨x, e1, hx⟩ := C36_chain p line hne
    obtain ⟨y, e2, hy⟩ := C36_chain (affine a b c d e f p) (line.map (affine a b c d e f)) (by simpa using hne)
    rw [e1, e2]
    congr 1
    refine LeastDist.unique ((rigid_least a b c d e f h p (OnChain line) _ (fun w => ?_) _).mp hy) hx
    unfold OnChain
    rw [segs_map_pair]
    have same := affine_same a b c d e f hd w
    unfold SamePlace at same
    simp only [List.mem_map, exists_exists_and_eq_and, Prod.map_fst, Prod.map_snd, affine_onSegment a b c d e f hd, same]
  · rw [C35_exact, C35_exact]
    congr 1
    unfold lineLength
    rw [segs_map_pair, List.map_map]
    congr 1
    apply List.map_congr_left
    intro s _
    exact rigid_dist a b c d e f h s.1 s.2

end rigid

/-! ## Doubles -/

section doubles
variable {sq : ℚ → Val} {hy : ℚ → ℚ → Val}

/-- In doubles, if the points are on a common grid and their images are, which may be another one. -/
theorem C142_locate_doubles (g g' : ℤ) (h1 : -484 ≤ g) (h2 : g ≤ 400) (h1' : -484 ≤ g') (h2' : g' ≤ 400) (a b c d e f : ℚ)
    (hd : a * d - b * c ≠ 0) (p : Coord ℚ) (r : List (Coord ℚ)) (hp : OnGrid g p) (hr : ∀ v ∈ r, OnGrid g v)
    (hp' : OnGrid g' (affine a b c d e f p)) (hr' : ∀ v ∈ r, OnGrid g' (affine a b c d e f v)) :
    (Closed2D r → PointLocation.locateInRing (toB64 (affine a b c d e f p) : Coord (B64 sq hy)) ((r.map (affine a b c d e f)).map toB64) =
      PointLocation.locateInRing (toB64 p : Coord (B64 sq hy)) (r.map toB64)) ∧
    PointLocation.isOnLine (toB64 (affine a b c d e f p) : Coord (B64 sq hy)) ((r.map (affine a b c d e f)).map toB64) =
      PointLocation.isOnLine (toB64 p : Coord (B64 sq hy)) (r.map toB64) := by
  have hr'' : ∀ v ∈ r.map (affine a b c d e f), OnGrid g' v := by
    intro v hv
    obtain ⟨w, hw, rfl⟩ := List.mem_map.mp hv
    exact hr' w hw
  constructor
  · intro hc
    obtain ⟨u, e1, u1, u2, u3⟩ := C66_locate (sq := sq) (hy := hy) g h1 h2 p r hp hr hc
    obtain ⟨v, e2, v1, v2, v3⟩ := C66_locate (sq := sq) (hy := hy) g' h1' h2' _ _ hp' hr'' (affine_closed a b c d e f r hc)
    rw [affine_onLine a b c d e f hd] at v1 v2 v3
    rw [e1, e2]
    congr 1
    by_cases ho : OnLine p r
    · rw [u1 ho, v1 ho]
    · have m := keeps_affine a b c d e f hd p r hc ho
      rw [m] at v2 v3
      rcases Nat.mod_two_eq_zero_or_one (crossings p r) with k | k
      · rw [u3 ho k, v3 ho k]
      · rw [u2 ho k, v2 ho k]
  · obtain ⟨x, e1, hx⟩ := C66_onLine (sq := sq) (hy := hy) g h1 h2 p r hp hr
    obtain ⟨y, e2, hy'⟩ := C66_onLine (sq := sq) (hy := hy) g' h1' h2' _ _ hp' hr''
    rw [e1, e2]
    congr 1
    rw [Bool.eq_iff_iff, hx, hy', affine_onLine a b c d e f hd]

end doubles

/-! ## Cases -/

section examples

local notation "pt" => fun (x y : ℚ) => (Coord.xy x y : Coord ℚ)

/-- A pentagram, which crosses itself five times, with its middle, a tip and a point outside. -/
def pentagram : List (Coord ℚ) := [Coord.xy 0 6, Coord.xy 4 (-6), Coord.xy (-6) 2, Coord.xy 6 2, Coord.xy (-4) (-6), Coord.xy 0 6]

example : Closed2D pentagram := by intro u v h1 h2; simp [pentagram] at h1 h2; subst h1 h2; simp

/-- Its middle is outside by the number of crossings, the tip is inside; so they are after a quarter turn with a shear. -/
example : PointLocation.locateInRing (Coord.xy 0 0) pentagram = .ok Location.EXTERIOR ∧
    PointLocation.locateInRing (Coord.xy 0 4) pentagram = .ok Location.INTERIOR ∧
    PointLocation.locateInRing (affine 3 (-2) 1 0 7 5 (Coord.xy 0 0)) (pentagram.map (affine 3 (-2) 1 0 7 5)) = .ok Location.EXTERIOR ∧
    PointLocation.locateInRing (affine 3 (-2) 1 0 7 5 (Coord.xy 0 4)) (pentagram.map (affine 3 (-2) 1 0 7 5)) = .ok Location.INTERIOR := by
  decide +kernel

example : (3 : ℚ) * 0 - -2 * 1 ≠ 0 := by norm_num

/-- Maps that flatten the plane are no such maps: the point comes to lie on the ring. -/
example : PointLocation.locateInRing (affine 1 0 1 0 0 0 (Coord.xy 0 4)) (pentagram.map (affine 1 0 1 0 0 0)) = .ok Location.BOUNDARY := by
  decide +kernel

/-- A rotation by an angle with cosine 3/5, and a reflection. -/
example : Rigid (3 / 5) (-4 / 5) (4 / 5) (3 / 5) ∧ Rigid 0 1 1 0 := by unfold Rigid; norm_num

/-- A dart stays simple and turns round in a mirror. -/
example : SimpleRing [pt 0 2, pt 1 0, pt 2 2, pt 1 1] ∧ SimpleRing ([pt 0 2, pt 1 0, pt 2 2, pt 1 1].map (affine 0 1 1 0 0 0)) :=
  ⟨dart_simple, affine_simple 0 1 1 0 0 0 (by norm_num) _ dart_simple⟩

/-- Points of the grid of whole numbers stay on it. -/
example : OnGrid 0 (Coord.xy 0 4 : Coord ℚ) ∧ OnGrid 0 (affine 3 (-2) 1 0 7 5 (Coord.xy 0 4 : Coord ℚ)) := by
  constructor
  · exact ⟨0, 4, by norm_num, by norm_num, by norm_num [Coord.xy], by norm_num [Coord.xy]⟩
  · exact ⟨-1, 5, by norm_num, by norm_num, by norm_num [Coord.xy, affine], by norm_num [Coord.xy, affine]⟩

end examples

end Verif.Props
