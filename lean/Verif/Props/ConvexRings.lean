import Verif.Spec.ConvexRing
import Verif.Props.SimpleRings
import Verif.Props.CentroidSimple

set_option linter.unusedSectionVars false
set_option linter.unusedVariables false

/-! # C101: convex rings -/

namespace Verif.Props
open Flt Verif.Spec Verif.Jordan
variable {K : Type} [Field K] [LinearOrder K] [IsStrictOrderedRing K]

theorem corner_mod (v : List (Coord K)) (i : Nat) : corner v (i % v.length) = corner v i := by
  unfold corner; rw [Nat.mod_mod]

theorem corner_succ_mod (v : List (Coord K)) (i : Nat) : corner v (i % v.length + 1) = corner v (i + 1) := by
  unfold corner; rw [Nat.mod_add_mod]

theorem corner_cong (v : List (Coord K)) {i j : Nat} (h : i % v.length = j % v.length) : corner v i = corner v j := by
  unfold corner; rw [h]

/-- Moving along a segment the determinant is affine. -/
theorem det_along (a b p q s : Coord K) (t : K) (hx : s.x = p.x + t * (q.x - p.x)) (hy : s.y = p.y + t * (q.y - p.y)) :
    det a b s = (1 - t) * det a b p + t * det a b q := by
  unfold det; rw [hx, hy]; ring

/-- The determinant is not negative on a segment between points where it is not. -/
theorem det_seg_nonneg {a b p q s : Coord K} (hp : 0 ≤ det a b p) (hq : 0 ≤ det a b q) (h : OnSegment s p q) : 0 ≤ det a b s := by
  obtain ⟨t, t0, t1, tx, ty⟩ := h
  rw [det_along a b p q s t tx ty]
  exact add_nonneg (mul_nonneg (by linarith) hp) (mul_nonneg t0 hq)

theorem shift_ne {n a b : Nat} (hn : 3 ≤ n) (i : Nat) (ha : a < 3) (hb : b < 3) (h : a ≠ b) : (i + a) % n ≠ (i + b) % n := by
  intro hc
  have : a ≡ b [MOD n] := Nat.ModEq.add_left_cancel' i hc
  rw [Nat.ModEq, Nat.mod_eq_of_lt (by omega), Nat.mod_eq_of_lt (by omega)] at this
  exact h this

theorem succ_inj_mod {n i j : Nat} (h : (i + 1) % n = (j + 1) % n) : i % n = j % n :=
  Nat.ModEq.add_right_cancel' 1 h

/-- C101: strictly convex rings are simple and convex. -/
theorem C101_strictly_convex (v : List (Coord K)) (h : StrictlyConvex v) : ConvexRing v := by
  have hn := h.three
  have turn : ∀ i, 0 < det (corner v i) (corner v (i + 1)) (corner v (i + 2)) := fun i =>
    h.left i (i + 2) (shift_ne (b := 0) hn i (by omega) (by omega) (by omega)) (shift_ne hn i (by omega) (by omega) (by omega))
  have next : ∀ i j, i < v.length → (i + 1) % v.length = j → corner v (i + 1) = corner v j ∧ corner v (i + 2) = corner v (j + 1) := by
    intro i j hi hj
    rw [← hj]
    exact ⟨(corner_mod v (i + 1)).symm, (corner_succ_mod v (i + 1)).symm⟩
  refine ⟨⟨hn, ?_, ?_⟩, ?_⟩
  · rintro i ⟨e1, e2⟩
    have := turn i
    unfold det at this
    rw [e1, e2, sub_self, sub_self, zero_mul, zero_mul, sub_self] at this
    exact lt_irrefl _ this
  · intro i j hi hj hij s h1 h2
    by_cases c1 : (i + 1) % v.length = j
    · obtain ⟨e1, e2⟩ := next i j hi c1
      refine Or.inl ⟨c1, ?_⟩
      rw [e1] at h1
      refine joint_of_turn ?_ h1 h2
      have := (turn i).ne'
      rwa [e1, e2] at this
    by_cases c2 : (j + 1) % v.length = i
    · obtain ⟨e1, e2⟩ := next j i hj c2
      refine Or.inr ⟨c2, ?_⟩
      rw [e1] at h2
      refine joint_of_turn ?_ h2 h1
      have := (turn j).ne'
      rwa [e1, e2] at this
    · have mi := Nat.mod_eq_of_lt hi
      have mj := Nat.mod_eq_of_lt hj
      refine (apart_of_side (Or.inl ⟨h.left i j ?_ ?_, h.left i (j + 1) ?_ ?_⟩) h1 h2).elim
      · rw [mi, mj]; exact hij.symm
      · rw [mj]; exact Ne.symm c1
      · rw [mi]; exact c2
      · intro hc
        have := succ_inj_mod hc
        rw [mi, mj] at this
        exact hij this.symm
  · intro i j
    by_cases c1 : j % v.length = i % v.length
    · rw [corner_cong v c1]
      unfold det; simp
    by_cases c2 : j % v.length = (i + 1) % v.length
    · rw [corner_cong v c2]
      unfold det
      exact (by ring : (0 : K) = _).le
    · exact (h.left i j c1 c2).le

/-- C101: convex rings are reported counterclockwise, and their signed area is negative. -/
theorem C101_orientation (v : List (Coord K)) (h : ConvexRing v) :
    Orientation.isCCW (closed v) = .ok true ∧ Orientation.isCCW (closed v).reverse = .ok false ∧
    ∃ A, Area.ofRingSigned (closed v) = .ok A ∧ A < 0 := by
  have hv : v ≠ [] := List.length_pos_iff.mp (by have := h.simple.three; omega)
  obtain ⟨A, a1, a2, a3, -⟩ := C81_orientation v h.simple
  have hA := (C33_shoelace (closed v) (closed2D_closed v)).1
  rw [a1] at hA
  injection hA with hA
  have hs : 0 ≤ shoelace (closed v) := by
    have e : shoelace (closed v) = ∑ j ∈ Finset.range v.length, det (corner v j) (corner v (j + 1)) (corner v 0) := by
      rw [shoelace_closed v hv, Finset.mul_sum]
      have e1 : ∀ j ∈ Finset.range v.length, 2 * (((corner v j).x + (corner v (j + 1)).x) / 2 * ((corner v (j + 1)).y - (corner v j).y)) =
          det (corner v j) (corner v (j + 1)) (corner v 0) +
            (((corner v (j + 1)).x * (corner v (j + 1)).y - (corner v 0).y * (corner v (j + 1)).x + (corner v 0).x * (corner v (j + 1)).y) -
              ((corner v j).x * (corner v j).y - (corner v 0).y * (corner v j).x + (corner v 0).x * (corner v j).y)) := by
        intro j _
        unfold det; ring
      rw [Finset.sum_congr rfl e1, Finset.sum_add_distrib,
        Finset.sum_range_sub (fun j => (corner v j).x * (corner v j).y - (corner v 0).y * (corner v j).x + (corner v 0).x * (corner v j).y)]
      have : corner v v.length = corner v 0 := by unfold corner; simp
      rw [this]; ring
    rw [e]
    exact Finset.sum_nonneg (fun j _ => h.left j 0)
  have neg : A < 0 := lt_of_le_of_ne (by rw [hA]; linarith) a2
  have c : Orientation.isCCW (closed v) = .ok true := by rw [a3, decide_eq_true neg]
  obtain ⟨b, b1, b2⟩ := C81_reverse v h.simple
  rw [c] at b1
  injection b1 with b1
  rw [← b1] at b2
  exact ⟨c, b2, A, a1, neg⟩

variable {v : List (Coord K)}

theorem _root_.Verif.Spec.ConvexRing.on_ring (h : ConvexRing v) (i : Nat) {s : Coord K} (hs : OnLine s (closed v)) :
    0 ≤ det (corner v i) (corner v (i + 1)) s := by
  have hv : v ≠ [] := List.length_pos_iff.mp (by have := h.simple.three; omega)
  obtain ⟨j, -, hj⟩ := (onLine_closed s v hv).mp hs
  exact det_seg_nonneg (h.left i j) (h.left i (j + 1)) hj

/-- The middle of an edge. -/
def midOf (a b : Coord K) : Coord K := ⟨a.x + 1 / 2 * (b.x - a.x), a.y + 1 / 2 * (b.y - a.y), 0, 0⟩

theorem midOf_det (a b : Coord K) : det a b (midOf a b) = 0 := by unfold det midOf; ring

theorem midOf_on (a b : Coord K) : OnSegment (midOf a b) a b := ⟨1 / 2, by norm_num, by norm_num, rfl, rfl⟩

theorem _root_.Verif.Spec.ConvexRing.ccw (h : ConvexRing v) : Orientation.isCCW (closed v) = .ok true := (C101_orientation v h).1

theorem _root_.Verif.Spec.ConvexRing.mid_on (h : ConvexRing v) (i : Nat) : OnLine (midOf (corner v i) (corner v (i + 1))) (closed v) := by
  have hn : 0 < v.length := by have := h.simple.three; omega
  have hv : v ≠ [] := List.length_pos_iff.mp hn
  refine (onLine_closed _ v hv).mpr ⟨i % v.length, Nat.mod_lt _ hn, ?_⟩
  rw [corner_mod, corner_succ_mod]
  exact midOf_on _ _

/-- Strictly right of an edge is outside. -/
theorem _root_.Verif.Spec.ConvexRing.right (h : ConvexRing v) (q : Coord K) (hq : RightOfSome q v) :
    PointLocation.locateInRing q (closed v) = .ok Location.EXTERIOR := by
  obtain ⟨i, hi⟩ := hq
  obtain ⟨b, b1, b2⟩ := C81_inside v h.simple i (midOf (corner v i) (corner v (i + 1))) q (1 / 2) ⟨by norm_num, by norm_num⟩ rfl rfl hi.ne (by
    rintro s ⟨t, t0, t1, tx, ty⟩ hs
    have e := det_along (corner v i) (corner v (i + 1)) _ q s t tx ty
    rw [midOf_det, mul_zero, zero_add] at e
    have := h.on_ring i hs
    rw [e] at this
    have t2 : t = 0 := by
      rcases eq_or_lt_of_le t0 with h0 | h0
      · exact h0.symm
      · exact absurd (mul_neg_of_pos_of_neg h0 hi) (not_lt.mpr this)
    exact ⟨by rw [tx, t2]; ring, by rw [ty, t2]; ring⟩)
  rw [h.ccw] at b1
  injection b1 with b1
  rw [b2, ← b1, if_neg (by simp [not_lt.mpr hi.le])]

/-- Strictly left of all edges is inside. -/
theorem _root_.Verif.Spec.ConvexRing.inside (h : ConvexRing v) (q : Coord K) (hq : LeftOfAll q v) :
    PointLocation.locateInRing q (closed v) = .ok Location.INTERIOR := by
  have hv : v ≠ [] := List.length_pos_iff.mp (by have := h.simple.three; omega)
  obtain ⟨b, b1, b2⟩ := C81_inside v h.simple 0 (midOf (corner v 0) (corner v (0 + 1))) q (1 / 2) ⟨by norm_num, by norm_num⟩ rfl rfl (hq 0).ne' (by
    rintro s ⟨t, t0, t1, tx, ty⟩ hs
    obtain ⟨j, -, hj⟩ := (onLine_closed s v hv).mp hs
    have e := det_along (corner v j) (corner v (j + 1)) _ q s t tx ty
    have z : det (corner v j) (corner v (j + 1)) s = 0 := by
      obtain ⟨u, -, -, ux, uy⟩ := hj
      unfold det; rw [ux, uy]; ring
    rw [z] at e
    have m := h.on_ring j (h.mid_on 0)
    have t2 : t = 0 := by
      rcases eq_or_lt_of_le t0 with h0 | h0
      · exact h0.symm
      · have := mul_pos h0 (hq j)
        have := mul_nonneg (sub_nonneg.mpr t1) m
        linarith
    exact ⟨by rw [tx, t2]; ring, by rw [ty, t2]; ring⟩)
  rw [h.ccw] at b1
  injection b1 with b1
  rw [b2, ← b1, if_pos (by simp [hq 0])]

theorem sq_sum_pos {a b : Coord K} (h : ¬ SamePlace a b) : 0 < (b.x - a.x) * (b.x - a.x) + (b.y - a.y) * (b.y - a.y) := by
  by_contra hc
  push Not at hc
  have a1 := mul_self_nonneg (b.x - a.x)
  have a2 := mul_self_nonneg (b.y - a.y)
  have b1 : (b.x - a.x) * (b.x - a.x) = 0 := le_antisymm (by linarith) a1
  have b2 : (b.y - a.y) * (b.y - a.y) = 0 := le_antisymm (by linarith) a2
  exact h ⟨(sub_eq_zero.mp (mul_self_eq_zero.mp b1)).symm, (sub_eq_zero.mp (mul_self_eq_zero.mp b2)).symm⟩

/-- On the line of an edge, but not on the ring, is outside. -/
theorem _root_.Verif.Spec.ConvexRing.beside (h : ConvexRing v) (q : Coord K) (i : Nat) (hq : det (corner v i) (corner v (i + 1)) q = 0) (hn : ¬ OnLine q (closed v)) :
    PointLocation.locateInRing q (closed v) = .ok Location.EXTERIOR := by
  have hl : 0 < v.length := by have := h.simple.three; omega
  have hv : v ≠ [] := List.length_pos_iff.mp hl
  -- a point on the right of the edge
  let w : Coord K := ⟨q.x + ((corner v (i + 1)).y - (corner v i).y), q.y - ((corner v (i + 1)).x - (corner v i).x), 0, 0⟩
  have hw : det (corner v i) (corner v (i + 1)) w < 0 := by
    have e : det (corner v i) (corner v (i + 1)) w = det (corner v i) (corner v (i + 1)) q -
        (((corner v (i + 1)).x - (corner v i).x) * ((corner v (i + 1)).x - (corner v i).x) +
          ((corner v (i + 1)).y - (corner v i).y) * ((corner v (i + 1)).y - (corner v i).y)) := by
      simp only [det, w]; ring
    rw [e, hq, zero_sub, neg_lt_zero]
    exact sq_sum_pos (h.simple.step i)
  have hex : ∀ m, m ≤ v.length → ∃ e, 0 < e ∧ ∀ j, j < m → ∀ u, 0 ≤ u → u ≤ e → ∀ s : Coord K,
      s.x = q.x + u * (w.x - q.x) → s.y = q.y + u * (w.y - q.y) → ¬ OnSegment s (corner v j) (corner v (j + 1)) := by
    intro m
    induction m with
    | zero => exact fun _ => ⟨1, one_pos, fun j hj => absurd hj (by omega)⟩
    | succ m ih =>
      intro hm
      obtain ⟨e, e1, e2⟩ := ih (by omega)
      obtain ⟨f, f1, f2⟩ := keep_off q w (corner v m) (corner v (m + 1)) (h.simple.step m)
        (fun hc => hn ((onLine_closed q v hv).mpr ⟨m, by omega, hc⟩))
      refine ⟨min e f, lt_min e1 f1, fun j hj u u0 u1 s sx sy => ?_⟩
      rcases Nat.lt_succ_iff_lt_or_eq.mp hj with hj | hj
      · exact e2 j hj u u0 (u1.trans (min_le_left _ _)) s sx sy
      · subst hj
        exact f2 u u0 (u1.trans (min_le_right _ _)) s sx sy
  obtain ⟨e, e1, e2⟩ := hex v.length le_rfl
  let z : Coord K := ⟨q.x + e * (w.x - q.x), q.y + e * (w.y - q.y), 0, 0⟩
  have hz : RightOfSome z v := ⟨i, by
    rw [det_along (corner v i) (corner v (i + 1)) q w z e rfl rfl, hq, mul_zero, zero_add]
    exact mul_neg_of_pos_of_neg e1 hw⟩
  rw [(C81_connected (closed v) (closed2D_closed v) q z ?_).1, h.right z hz]
  rintro s ⟨t, t0, t1, tx, ty⟩ hs
  obtain ⟨j, hj, hj2⟩ := (onLine_closed s v hv).mp hs
  exact e2 j hj (t * e) (mul_nonneg t0 e1.le) (mul_le_of_le_one_left e1.le t1) s (by rw [tx]; simp only [z]; ring) (by rw [ty]; simp only [z]; ring) hj2

theorem _root_.Verif.Spec.ConvexRing.boundary (h : ConvexRing v) (q : Coord K) (hq : OnLine q (closed v)) :
    PointLocation.locateInRing q (closed v) = .ok Location.BOUNDARY := by
  obtain ⟨l, l1, l2, -, -⟩ := C31_locate q (closed v) (closed2D_closed v)
  rw [l1, l2 hq]

theorem _root_.Verif.Spec.ConvexRing.on_edge (h : ConvexRing v) {q : Coord K} (hq : OnLine q (closed v)) : ¬ LeftOfAll q v := by
  have hv : v ≠ [] := List.length_pos_iff.mp (by have := h.simple.three; omega)
  intro hc
  obtain ⟨j, -, u, -, -, ux, uy⟩ := (onLine_closed q v hv).mp hq
  have := hc j
  have z : det (corner v j) (corner v (j + 1)) q = 0 := by unfold det; rw [ux, uy]; ring
  rw [z] at this
  exact lt_irrefl _ this

/-- Inside is strictly left of all edges, the rest off the ring is outside. -/
theorem _root_.Verif.Spec.ConvexRing.cases (h : ConvexRing v) (q : Coord K) :
    (PointLocation.locateInRing q (closed v) = .ok Location.INTERIOR ↔ LeftOfAll q v) ∧
    (PointLocation.locateInRing q (closed v) = .ok Location.BOUNDARY ↔ OnLine q (closed v)) ∧
    (PointLocation.locateInRing q (closed v) = .ok Location.EXTERIOR ↔ ¬ LeftOfAll q v ∧ ¬ OnLine q (closed v)) := by
  have d1 : Location.INTERIOR ≠ Location.BOUNDARY := by decide
  have d2 : Location.INTERIOR ≠ Location.EXTERIOR := by decide
  have d3 : Location.EXTERIOR ≠ Location.BOUNDARY := by decide
  refine ⟨?_, ?_, ?_⟩
  all_goals
    by_cases h1 : OnLine q (closed v)
    · have n1 := h.on_edge h1
      rw [h.boundary q h1]
      simp [h1, n1, d1, d1.symm, d3, d3.symm]
    by_cases h2 : LeftOfAll q v
    · rw [h.inside q h2]
      simp [h1, h2, d1, d1.symm, d2, d2.symm]
    · have : PointLocation.locateInRing q (closed v) = .ok Location.EXTERIOR := by
        unfold LeftOfAll at h2
        push Not at h2
        obtain ⟨i, hi⟩ := h2
        rcases lt_or_eq_of_le hi with h3 | h3
        · exact h.right q ⟨i, h3⟩
        · exact h.beside q i h3 h1
      rw [this]
      simp [h1, h2, d3, d3.symm, d2, d2.symm]

/-- There are points inside. -/
theorem _root_.Verif.Spec.ConvexRing.point (h : ConvexRing v) : ∃ g, LeftOfAll g v := by
  let w : Coord K := ⟨(midOf (corner v 0) (corner v (0 + 1))).x - ((corner v (0 + 1)).y - (corner v 0).y),
    (midOf (corner v 0) (corner v (0 + 1))).y + ((corner v (0 + 1)).x - (corner v 0).x), 0, 0⟩
  have e : det (corner v 0) (corner v (0 + 1)) w =
      ((corner v (0 + 1)).x - (corner v 0).x) * ((corner v (0 + 1)).x - (corner v 0).x) +
        ((corner v (0 + 1)).y - (corner v 0).y) * ((corner v (0 + 1)).y - (corner v 0).y) := by
    simp only [det, w, midOf]; ring
  have hw : 0 < det (corner v 0) (corner v (0 + 1)) w := by
    rw [e]
    exact sq_sum_pos (h.simple.step 0)
  obtain ⟨b, e, b1, e0, b2⟩ := C81_near_edge v h.simple 0 (midOf (corner v 0) (corner v (0 + 1))) w (1 / 2) ⟨by norm_num, by norm_num⟩ rfl rfl hw.ne'
  have := b2 e e0 le_rfl ⟨(midOf (corner v 0) (corner v (0 + 1))).x + e * (w.x - (midOf (corner v 0) (corner v (0 + 1))).x),
    (midOf (corner v 0) (corner v (0 + 1))).y + e * (w.y - (midOf (corner v 0) (corner v (0 + 1))).y), 0, 0⟩ rfl rfl
  rw [h.ccw] at b1
  injection b1 with b1
  rw [← b1, if_pos (by simp [hw])] at this
  exact ⟨_, (h.cases _).1.mp this⟩

/-- On the ring is: on no side of some edge, and on the right of none. -/
theorem _root_.Verif.Spec.ConvexRing.rim (h : ConvexRing v) (q : Coord K) : OnLine q (closed v) ↔ ¬ LeftOfAll q v ∧ ¬ RightOfSome q v := by
  constructor
  · intro hq
    refine ⟨h.on_edge hq, ?_⟩
    rintro ⟨i, hi⟩
    exact absurd hi (not_lt.mpr (h.on_ring i hq))
  · rintro ⟨h1, h2⟩
    by_contra hn
    have ext := (h.cases q).2.2.mpr ⟨h1, hn⟩
    obtain ⟨g, hg⟩ := h.point
    unfold RightOfSome at h2
    push Not at h2
    have con := (C81_connected (closed v) (closed2D_closed v) g q (by
      rintro s ⟨t, t0, t1, tx, ty⟩ hs
      rcases eq_or_lt_of_le t1 with t2 | t2
      · refine hn ?_
        have e1 : s.x = q.x := by rw [tx, t2]; ring
        have e2 : s.y = q.y := by rw [ty, t2]; ring
        obtain ⟨u, hu, k, k0, k1, kx, ky⟩ := hs
        exact ⟨u, hu, k, k0, k1, by rw [← e1, kx], by rw [← e2, ky]⟩
      · refine h.on_edge hs (fun i => ?_)
        rw [det_along _ _ g q s t tx ty]
        have a1 := mul_pos (sub_pos.mpr t2) (hg i)
        have a2 := mul_nonneg t0 (h2 i)
        linarith)).1
    rw [ext, h.inside g hg] at con
    injection con with con
    exact absurd con (by decide)

/-- C101: in a convex ring the points strictly on the left of all edges are inside, those strictly on the right of some edge are outside, and the
others are on the boundary, which are the points of the ring. The direction of the ring does not matter. -/
theorem C101_location (v : List (Coord K)) (h : ConvexRing v) (q : Coord K) :
    (PointLocation.locateInRing q (closed v) = .ok Location.INTERIOR ↔ LeftOfAll q v) ∧
    (PointLocation.locateInRing q (closed v) = .ok Location.EXTERIOR ↔ RightOfSome q v) ∧
    (PointLocation.locateInRing q (closed v) = .ok Location.BOUNDARY ↔ ¬ LeftOfAll q v ∧ ¬ RightOfSome q v) ∧
    (OnLine q (closed v) ↔ ¬ LeftOfAll q v ∧ ¬ RightOfSome q v) ∧
    PointLocation.locateInRing q (closed v).reverse = PointLocation.locateInRing q (closed v) := by
  obtain ⟨c1, c2, c3⟩ := h.cases q
  have r := h.rim q
  refine ⟨c1, ⟨fun hh => ?_, h.right q⟩, c2.trans r, r, C31_reverse q _ (closed2D_closed v)⟩
  obtain ⟨k1, k2⟩ := c3.mp hh
  by_contra hc
  exact k2 (r.mpr ⟨k1, hc⟩)

/-- C101: what is not outside a convex ring is convex: the points between two such points are not outside either, and they are inside if the first
point is, up to the second. -/
theorem C101_between (v : List (Coord K)) (h : ConvexRing v) (p q s : Coord K) (hs : OnSegment s p q)
    (hp : PointLocation.locateInRing p (closed v) ≠ .ok Location.EXTERIOR) (hq : PointLocation.locateInRing q (closed v) ≠ .ok Location.EXTERIOR) :
    PointLocation.locateInRing s (closed v) ≠ .ok Location.EXTERIOR ∧
    (PointLocation.locateInRing p (closed v) = .ok Location.INTERIOR → ¬ SamePlace s q →
      PointLocation.locateInRing s (closed v) = .ok Location.INTERIOR) := by
  rw [Ne, (C101_location v h p).2.1] at hp
  rw [Ne, (C101_location v h q).2.1] at hq
  rw [Ne, (C101_location v h s).2.1, (C101_location v h p).1, (C101_location v h s).1]
  unfold RightOfSome at *
  push Not at hp hq ⊢
  refine ⟨fun i => det_seg_nonneg (hp i) (hq i) hs, fun hp' hsq i => ?_⟩
  obtain ⟨t, t0, t1, tx, ty⟩ := hs
  rw [det_along _ _ p q s t tx ty]
  have t2 : t < 1 := by
    rcases eq_or_lt_of_le t1 with h1 | h1
    · exact absurd ⟨by rw [tx, h1]; ring, by rw [ty, h1]; ring⟩ hsq
    · exact h1
  have a1 := mul_pos (sub_pos.mpr t2) (hp' i)
  have a2 := mul_nonneg t0 (hq i)
  linarith

/-- C101: the centroid of a convex polygon without holes is inside. -/
theorem C101_centroid (p : Polygon ℝ) (v : List (Coord ℝ)) (hp : HasRings p v []) (hv : ConvexRing v) :
    ∃ c, Centroid.fromPolygon p = .ok (some c) ∧ PointLocation.locateInRing c (closed v) = .ok Location.INTERIOR := by
  obtain ⟨c, c1, c2⟩ := C82_hull p v hp hv.simple
  refine ⟨c, c1, (C101_location v hv c).1.mpr fun i => ?_⟩
  have hne := hv.simple.step i
  have := c2 ((corner v (i + 1)).y - (corner v i).y) (-((corner v (i + 1)).x - (corner v i).x))
    (((corner v (i + 1)).y - (corner v i).y) * (corner v i).x - ((corner v (i + 1)).x - (corner v i).x) * (corner v i).y) (by
      intro q hq
      obtain ⟨j, hj, rfl⟩ := List.mem_iff_getElem.mp hq
      have e : corner v j = v[j] := by
        unfold corner
        rw [Nat.mod_eq_of_lt hj, List.getD_eq_getElem?_getD, List.getElem?_eq_getElem hj]; rfl
      have := hv.left i j
      rw [e] at this
      unfold det at this
      linarith) (fun hc => hne ⟨by linarith [hc.2], by linarith [hc.1]⟩)
  unfold det
  linarith

end Verif.Props
