import Verif.Props.Affine

set_option linter.unusedSectionVars false

/-! # C143: walking from one point to another -/

namespace Verif.Spec
variable {K : Type} [Field K] [LinearOrder K]

/-- The two segments have a point in common. -/
def Meets (p q u v : Coord K) : Prop := ∃ c, OnSegment c p q ∧ OnSegment c u v

open Classical in
/-- The number of edges of a line that a segment meets. -/
noncomputable def edgesMet (p q : Coord K) (line : List (Coord K)) : Nat := (segs line).countP (fun s => decide (Meets p q s.1 s.2))

end Verif.Spec

namespace Verif.Props
open Flt Verif.Spec Verif.Binary64

section exact
variable {K : Type} [Field K] [LinearOrder K] [IsStrictOrderedRing K]

theorem affine_meets (a b c d e f : K) (hd : a * d - b * c ≠ 0) (p q u v : Coord K) :
    Meets (affine a b c d e f p) (affine a b c d e f q) (affine a b c d e f u) (affine a b c d e f v) ↔ Meets p q u v := by
  unfold Meets
  constructor
  · rintro ⟨w, h1, h2⟩
    obtain ⟨w, rfl⟩ := affine_onto a b c d e f hd w
    rw [affine_onSegment a b c d e f hd] at h1 h2
    exact ⟨w, h1, h2⟩
  · rintro ⟨w, h1, h2⟩
    exact ⟨_, (affine_onSegment a b c d e f hd _ _ _).mpr h1, (affine_onSegment a b c d e f hd _ _ _).mpr h2⟩

theorem edgesMet_affine (a b c d e f : K) (hd : a * d - b * c ≠ 0) (p q : Coord K) (l : List (Coord K)) :
    edgesMet (affine a b c d e f p) (affine a b c d e f q) (l.map (affine a b c d e f)) = edgesMet p q l := by
  unfold edgesMet
  rw [segs_map_pair, List.countP_map]
  congr 1
  funext s
  simp only [Function.comp, Prod.map_fst, Prod.map_snd]
  exact decide_eq_decide.mpr (affine_meets a b c d e f hd p q s.1 s.2)

/-- A point at the height of a horizontal segment is on it exactly if it is between its ends. -/
theorem onSegment_level (w p q : Coord K) (hy : p.y = q.y) (hx : p.x < q.x) :
    OnSegment w p q ↔ w.y = p.y ∧ p.x ≤ w.x ∧ w.x ≤ q.x := by
  rw [onSegment_iff, ← hy, min_self, max_self, min_eq_left hx.le, max_eq_right hx.le]
  constructor
  · rintro ⟨_, h1, h2, h3, h4⟩
    exact ⟨le_antisymm h4 h3, h1, h2⟩
  · rintro ⟨h1, h2, h3⟩
    exact ⟨by unfold det; rw [h1, hy]; ring, h2, h3, h1.ge, h1.le⟩

/-- An edge below the upper end of which the segment passes. -/
theorem level_up (p q u v : Coord K) (hy : p.y = q.y) (hx : p.x < q.x) (h1 : u.y ≤ p.y) (h2 : p.y < v.y) (hp : ¬ OnSegment p u v) :
    (¬ (0 < det u v p ↔ 0 < det u v q)) ↔ Meets p q u v := by
  have hpos : 0 < v.y - u.y := by linarith
  have hq : det u v q = det u v p - (v.y - u.y) * (q.x - p.x) := by unfold det; rw [← hy]; ring
  have hlt : det u v q < det u v p := by rw [hq]; have := mul_pos hpos (sub_pos.mpr hx); linarith
  have hp0 : det u v p ≠ 0 := by
    intro z
    apply hp
    refine ⟨(p.y - u.y) / (v.y - u.y), div_nonneg (by linarith) hpos.le, (div_le_one hpos).mpr (by linarith), ?_, ?_⟩
    · unfold det at z
      field_simp
      linear_combination -z
    · field_simp; ring
  constructor
  · intro h
    have k1 : 0 < det u v p := by
      by_contra g
      exact h ⟨fun k => absurd k g, fun k => absurd (k.trans hlt) g⟩
    have k2 : det u v q ≤ 0 := by
      by_contra g
      exact h ⟨fun _ => not_le.mp g, fun _ => k1⟩
    refine ⟨⟨u.x + (p.y - u.y) / (v.y - u.y) * (v.x - u.x), p.y, 0, 0⟩, (onSegment_level _ p q hy hx).mpr ⟨rfl, ?_, ?_⟩,
      (p.y - u.y) / (v.y - u.y), div_nonneg (by linarith) hpos.le, (div_le_one hpos).mpr (by linarith), rfl, ?_⟩
    · simp only
      have : (v.y - u.y) * (u.x + (p.y - u.y) / (v.y - u.y) * (v.x - u.x) - p.x) = det u v p := by unfold det; field_simp; ring
      have k : 0 < (v.y - u.y) * (u.x + (p.y - u.y) / (v.y - u.y) * (v.x - u.x) - p.x) := by rw [this]; exact k1
      have := (mul_pos_iff_of_pos_left hpos).mp k
      linarith
    · simp only
      have : (v.y - u.y) * (q.x - (u.x + (p.y - u.y) / (v.y - u.y) * (v.x - u.x))) = -det u v q := by rw [hq]; unfold det; field_simp; ring
      have k : 0 ≤ (v.y - u.y) * (q.x - (u.x + (p.y - u.y) / (v.y - u.y) * (v.x - u.x))) := by rw [this]; linarith
      have := (mul_nonneg_iff_of_pos_left hpos).mp k
      linarith
    · simp only; field_simp; ring
  · rintro ⟨w, hw, hw'⟩ h
    rw [onSegment_level w p q hy hx] at hw
    have z := ((onSegment_iff w u v).mp hw').1
    have e1 : det u v p = (v.y - u.y) * (w.x - p.x) := by
      have : det u v p = det u v w + (v.y - u.y) * (w.x - p.x) := by unfold det; rw [hw.1]; ring
      rw [this, z]; ring
    have e2 : det u v q = (v.y - u.y) * (w.x - q.x) := by
      have : det u v q = det u v w + (v.y - u.y) * (w.x - q.x) := by unfold det; rw [hw.1, ← hy]; ring
      rw [this, z]; ring
    have n1 : 0 < det u v p := lt_of_le_of_ne (by rw [e1]; exact mul_nonneg hpos.le (by linarith)) (Ne.symm hp0)
    have n2 := h.mp n1
    rw [e2] at n2
    have := (mul_pos_iff_of_pos_left hpos).mp n2
    linarith

theorem meets_swap (p q u v : Coord K) : Meets p q u v ↔ Meets p q v u := by
  unfold Meets
  exact exists_congr fun w => by rw [onSegment_swap w u v]

/-- What an edge contributes to the crossings of the two ends. -/
theorem level_edge (p q u v : Coord K) (hy : p.y = q.y) (hx : p.x < q.x) (hp : ¬ OnSegment p u v) (hu : ¬ OnSegment u p q) (hv : ¬ OnSegment v p q) :
    (¬ (CrossesRight p (u, v) ↔ CrossesRight q (u, v))) ↔ Meets p q u v := by
  rcases le_or_gt u.y p.y with h1 | h1 <;> rcases le_or_gt v.y p.y with h2 | h2
  · have n : ∀ w : Coord K, w.y = p.y → ¬ CrossesRight w (u, v) := by
      intro w hw
      rw [crossesRight_iff, hw]
      rintro (⟨_, h, _⟩ | ⟨_, h, _⟩) <;> linarith
    have nm : ¬ Meets p q u v := by
      rintro ⟨w, hw, t, t0, t1, wx, wy⟩
      have hw0 := (onSegment_level w p q hy hx).mp hw
      rcases h1.lt_or_eq with g1 | g1
      · rcases t1.lt_or_eq with s | s
        · have : w.y < p.y := by
            rw [wy]
            have a1 : (1 - t) * u.y < (1 - t) * p.y := mul_lt_mul_of_pos_left g1 (by linarith)
            have a2 : t * v.y ≤ t * p.y := mul_le_mul_of_nonneg_left h2 t0
            linarith
          linarith [hw0.1]
        · apply hv
          rw [onSegment_level v p q hy hx]
          rw [s] at wx wy
          have e1 : w.x = v.x := by linarith
          have e2 : w.y = v.y := by linarith
          rwa [e1, e2] at hw0
      · rcases h2.lt_or_eq with g2 | g2
        · rcases t0.lt_or_eq with s | s
          · have : w.y < p.y := by
              rw [wy]
              have a1 : (1 - t) * u.y ≤ (1 - t) * p.y := mul_le_mul_of_nonneg_left h1 (by linarith)
              have a2 : t * v.y < t * p.y := mul_lt_mul_of_pos_left g2 s
              linarith
            linarith [hw0.1]
          · apply hu
            rw [onSegment_level u p q hy hx]
            rw [← s] at wx wy
            have e1 : w.x = u.x := by linarith
            have e2 : w.y = u.y := by linarith
            rwa [e1, e2] at hw0
        · have b := (onSegment_iff w u v).mp ⟨t, t0, t1, wx, wy⟩
          apply hp
          rw [onSegment_iff]
          have ku : u.x < p.x ∨ q.x < u.x := by
            by_contra k
            push Not at k
            exact hu ((onSegment_level u p q hy hx).mpr ⟨g1, k.1, k.2⟩)
          have kv : v.x < p.x ∨ q.x < v.x := by
            by_contra k
            push Not at k
            exact hv ((onSegment_level v p q hy hx).mpr ⟨g2, k.1, k.2⟩)
          refine ⟨by unfold det; rw [g1, g2]; ring, ?_, ?_, by rw [g1, g2, min_self], by rw [g1, g2, max_self]⟩
          · by_contra k
            push Not at k
            have k1 := lt_of_lt_of_le k (min_le_left u.x v.x)
            have k2 := lt_of_lt_of_le k (min_le_right u.x v.x)
            have : q.x < min u.x v.x := lt_min (ku.resolve_left k1.not_gt) (kv.resolve_left k2.not_gt)
            linarith [b.2.1, hw0.2.2]
          · by_contra k
            push Not at k
            have k1 := lt_of_le_of_lt (le_max_left u.x v.x) k
            have k2 := lt_of_le_of_lt (le_max_right u.x v.x) k
            linarith [b.2.2.1, hw0.2.1]
    exact ⟨fun h => absurd (iff_of_false (n p rfl) (n q hy.symm)) h, fun h => absurd h nm⟩
  · rw [← level_up p q u v hy hx h1 h2 hp, crossesRight_iff, crossesRight_iff, ← hy]
    simp only [h1, h2, true_and, h1.not_gt, h2.not_ge, false_and, and_false, or_false]
  · rw [meets_swap, ← level_up p q v u hy hx h2 h1 (by rwa [onSegment_swap]), crossesRight_iff, crossesRight_iff, ← hy, det_swap p u v, det_swap q u v]
    simp only [h1, h2, true_and, h2.not_gt, h1.not_ge, false_and, false_or, Left.neg_pos_iff]
  · have n : ∀ w : Coord K, w.y = p.y → ¬ CrossesRight w (u, v) := by
      intro w hw
      rw [crossesRight_iff, hw]
      rintro (⟨h, _, _⟩ | ⟨h, _, _⟩) <;> linarith
    have nm : ¬ Meets p q u v := by
      rintro ⟨w, hw, hw'⟩
      have hw0 := (onSegment_level w p q hy hx).mp hw
      have b := ((onSegment_iff w u v).mp hw').2.2.2.1
      have := lt_min h1 h2
      linarith [hw0.1]
    exact ⟨fun h => absurd (iff_of_false (n p rfl) (n q hy.symm)) h, fun h => absurd h nm⟩

theorem level_parity (p q : Coord K) (hy : p.y = q.y) (hx : p.x < q.x) (r : List (Coord K)) (hp : ¬ OnLine p r) (hv : ∀ v ∈ r, ¬ OnSegment v p q) :
    (crossings p r + crossings q r + edgesMet p q r) % 2 = 0 := by
  have key : ∀ l : List (Coord K × Coord K), (∀ s ∈ l, ¬ OnSegment p s.1 s.2 ∧ ¬ OnSegment s.1 p q ∧ ¬ OnSegment s.2 p q) →
      (l.countP (fun s => decide (CrossesRight p s)) + l.countP (fun s => decide (CrossesRight q s)) +
        l.countP (fun s => @decide (Meets p q s.1 s.2) (Classical.propDecidable _))) % 2 = 0 := by
    intro l hl
    induction l with
    | nil => rfl
    | cons s l ih =>
      have i := ih (fun t ht => hl t (List.mem_cons_of_mem _ ht))
      obtain ⟨h1, h2, h3⟩ := hl s List.mem_cons_self
      have e := level_edge p q s.1 s.2 hy hx h1 h2 h3
      simp only [List.countP_cons, decide_eq_true_eq]
      rw [← e]
      by_cases c1 : CrossesRight p s <;> by_cases c2 : CrossesRight q s <;> simp [c1, c2] <;> omega
  refine key (segs r) (fun s hs => ⟨fun h => hp ⟨s, hs, h⟩, hv s.1 (List.of_mem_zip hs).1, hv s.2 (List.mem_of_mem_tail (List.of_mem_zip hs).2)⟩)

theorem walk_parity (p q : Coord K) (r : List (Coord K)) (hc : Closed2D r) (hp : ¬ OnLine p r) (hq : ¬ OnLine q r) (hv : ∀ v ∈ r, ¬ OnSegment v p q) :
    (crossings p r + crossings q r + edgesMet p q r) % 2 = 0 := by
  by_cases hs : SamePlace p q
  · have e1 : crossings q r = crossings p r := by
      unfold crossings
      congr 1
      funext s
      refine decide_eq_decide.mpr ?_
      unfold CrossesRight Straddles xAt
      rw [hs.1, hs.2]
    have e2 : edgesMet p q r = 0 := by
      unfold edgesMet
      rw [List.countP_eq_zero]
      intro s hm h
      simp only [decide_eq_true_eq] at h
      obtain ⟨w, ⟨t, _, _, wx, wy⟩, hw⟩ := h
      apply hp
      refine ⟨s, hm, ?_⟩
      obtain ⟨t', t0, t1, k1, k2⟩ := hw
      rw [hs.1] at wx
      rw [hs.2] at wy
      exact ⟨t', t0, t1, by rw [hs.1]; linarith, by rw [hs.2]; linarith⟩
    rw [e1, e2]
    omega
  · have hpos : 0 < (q.x - p.x) * (q.x - p.x) - (q.y - p.y) * -(q.y - p.y) := by
      rcases ne_or_eq p.x q.x with h | h
      · nlinarith [mul_self_pos.mpr (sub_ne_zero.mpr (Ne.symm h)), mul_self_nonneg (q.y - p.y)]
      · have : p.y ≠ q.y := fun k => hs ⟨h, k⟩
        nlinarith [mul_self_pos.mpr (sub_ne_zero.mpr (Ne.symm this)), mul_self_nonneg (q.x - p.x)]
    have hd := hpos.ne'
    obtain ⟨A, hA⟩ : ∃ A, A = affine (q.x - p.x) (q.y - p.y) (-(q.y - p.y)) (q.x - p.x) 0 0 := ⟨_, rfl⟩
    have k := level_parity (A p) (A q) (by rw [hA]; simp only [affine]; ring) (by rw [hA]; simp only [affine]; linarith) (r.map A)
      (by rw [hA, affine_onLine _ _ _ _ _ _ hd]; exact hp)
      (by
        intro v hm
        obtain ⟨w, hw, rfl⟩ := List.mem_map.mp hm
        rw [hA, affine_onSegment _ _ _ _ _ _ hd]
        exact hv w hw)
    have m1 := keeps_affine _ _ _ _ 0 0 hd p r hc hp
    have m2 := keeps_affine _ _ _ _ 0 0 hd q r hc hq
    have m3 := edgesMet_affine _ _ _ _ 0 0 hd p q r
    rw [hA] at k
    omega

theorem locate_same (p q : Coord K) (r : List (Coord K)) (hc : Closed2D r) (hp : ¬ OnLine p r) (hq : ¬ OnLine q r) :
    PointLocation.locateInRing p r = PointLocation.locateInRing q r ↔ crossings p r % 2 = crossings q r % 2 := by
  obtain ⟨u, e1, _, u2, u3⟩ := C31_locate p r hc
  obtain ⟨v, e2, _, v2, v3⟩ := C31_locate q r hc
  rw [e1, e2]
  rcases Nat.mod_two_eq_zero_or_one (crossings p r) with k | k <;> rcases Nat.mod_two_eq_zero_or_one (crossings q r) with l | l
  · rw [u3 hp k, v3 hq l, k, l]; simp
  · rw [u3 hp k, v2 hq l, k, l]; simp
  · rw [u2 hp k, v3 hq l, k, l]; simp
  · rw [u2 hp k, v2 hq l, k, l]; simp

/-- Two points off a closed ring are on the same side of it exactly if the segment between them meets an even number of its edges, as
long as it passes through no corner. -/
theorem C143_walk (p q : Coord K) (r : List (Coord K)) (hc : Closed2D r) (hp : ¬ OnLine p r) (hq : ¬ OnLine q r) (hv : ∀ v ∈ r, ¬ OnSegment v p q) :
    PointLocation.locateInRing p r = PointLocation.locateInRing q r ↔ Even (edgesMet p q r) := by
  rw [locate_same p q r hc hp hq, Nat.even_iff]
  have := walk_parity p q r hc hp hq hv
  omega

/-! ## The convex hull -/

/-- A point that a straight line keeps from all corners is outside. -/
theorem C143_hull (al be : K) (p : Coord K) (r : List (Coord K)) (hc : Closed2D r)
    (h : ∀ v ∈ r, al * v.x + be * v.y < al * p.x + be * p.y) : PointLocation.locateInRing p r = .ok Location.EXTERIOR := by
  by_cases h0 : r = []
  · subst h0; rfl
  have hne : ¬ (al = 0 ∧ be = 0) := by
    rintro ⟨rfl, rfl⟩
    obtain ⟨v, hv⟩ := List.exists_mem_of_ne_nil r h0
    have := h v hv
    simp at this
  have hd : al * al - be * -be ≠ 0 := by
    have := square_pos al be hne
    intro z
    nlinarith
  rw [← (C142_locate al be (-be) al 0 0 hd p r hc).1]
  have hx : ∀ v ∈ r.map (affine al be (-be) al 0 0), v.x < (affine al be (-be) al 0 0 p).x := by
    intro v hv
    obtain ⟨w, hw, rfl⟩ := List.mem_map.mp hv
    simp only [affine, add_zero]
    exact h w hw
  obtain ⟨loc, e, _, _, h3⟩ := C31_locate (affine al be (-be) al 0 0 p) (r.map (affine al be (-be) al 0 0)) (affine_closed _ _ _ _ _ _ r hc)
  rw [e]
  have hb : ∀ s ∈ segs (r.map (affine al be (-be) al 0 0)), s.1.x < (affine al be (-be) al 0 0 p).x ∧ s.2.x < (affine al be (-be) al 0 0 p).x :=
    fun s hs => ⟨hx s.1 (List.of_mem_zip hs).1, hx s.2 (List.mem_of_mem_tail (List.of_mem_zip hs).2)⟩
  have ho : ¬ OnLine (affine al be (-be) al 0 0 p) (r.map (affine al be (-be) al 0 0)) := by
    rintro ⟨s, hs, hh⟩
    have := ((onSegment_iff _ _ _).mp hh).2.2.1
    have := max_lt (hb s hs).1 (hb s hs).2
    linarith
  have hz : crossings (affine al be (-be) al 0 0 p) (r.map (affine al be (-be) al 0 0)) = 0 := by
    unfold crossings
    rw [List.countP_eq_zero]
    intro s hs hh
    rw [decide_eq_true_eq] at hh
    obtain ⟨h1, h2⟩ := hb s hs
    generalize affine al be (-be) al 0 0 p = P at *
    obtain ⟨hst, hxx⟩ := hh
    have hne : s.2.y - s.1.y ≠ 0 := by
      intro z
      rcases hst with k | k <;> linarith [k.1, k.2]
    have t0 : 0 ≤ (P.y - s.1.y) / (s.2.y - s.1.y) ∧ (P.y - s.1.y) / (s.2.y - s.1.y) ≤ 1 := by
      rcases hst with k | k
      · have hn : s.2.y - s.1.y < 0 := by linarith [k.1, k.2]
        exact ⟨div_nonneg_of_nonpos (by linarith [k.1]) hn.le, (div_le_one_of_neg hn).mpr (by linarith [k.2])⟩
      · have hn : 0 < s.2.y - s.1.y := by linarith [k.1, k.2]
        exact ⟨div_nonneg (by linarith [k.2]) hn.le, (div_le_one hn).mpr (by linarith [k.1])⟩
    unfold xAt at hxx
    generalize (P.y - s.1.y) / (s.2.y - s.1.y) = t at *
    have a1 : (1 - t) * (P.x - s.1.x) ≥ 0 := mul_nonneg (by linarith [t0.2]) (by linarith)
    have a2 : t * (P.x - s.2.x) ≥ 0 := mul_nonneg t0.1 (by linarith)
    linarith
  rw [h3 ho (by rw [hz])]

/-- Hence an interior point has corners on both sides of every line through it, or on the line. -/
theorem C143_inside (al be : K) (p : Coord K) (r : List (Coord K)) (hc : Closed2D r) (h : PointLocation.isInRing p r = .ok true) :
    (∃ v ∈ r, al * p.x + be * p.y ≤ al * v.x + be * v.y) ∧ ∃ v ∈ r, al * v.x + be * v.y ≤ al * p.x + be * p.y := by
  have key : ∀ al be : K, ∃ v ∈ r, al * p.x + be * p.y ≤ al * v.x + be * v.y := by
    intro al be
    by_contra g
    push Not at g
    have e := C143_hull al be p r hc g
    unfold PointLocation.isInRing at h
    rw [e] at h
    simp [Res.bind_ok, Location.EXTERIOR] at h
  refine ⟨key al be, ?_⟩
  obtain ⟨v, hv, h⟩ := key (-al) (-be)
  exact ⟨v, hv, by linarith⟩

/-- The way out: if the far end of the segment is kept from the ring by a straight line, a point off the ring is inside exactly if the
segment meets an odd number of edges, whatever its direction. -/
theorem C143_way_out (al be : K) (p q : Coord K) (r : List (Coord K)) (hc : Closed2D r) (hp : ¬ OnLine p r) (hv : ∀ v ∈ r, ¬ OnSegment v p q)
    (hq : ∀ v ∈ r, al * v.x + be * v.y < al * q.x + be * q.y) :
    (PointLocation.locateInRing p r = .ok Location.INTERIOR ↔ Odd (edgesMet p q r)) ∧
    (PointLocation.locateInRing p r = .ok Location.EXTERIOR ↔ Even (edgesMet p q r)) := by
  have e := C143_hull al be q r hc hq
  obtain ⟨x, e1, hx, _, _⟩ := C31_locate q r hc
  have ho : ¬ OnLine q r := by
    intro h
    rw [e1, hx h] at e
    simp at e
  have w := C143_walk p q r hc hp ho hv
  rw [e] at w
  refine ⟨?_, w⟩
  rw [← Nat.not_even_iff_odd, ← w]
  obtain ⟨x, e1, _, h2, h3⟩ := C31_locate p r hc
  rw [e1]
  rcases Nat.mod_two_eq_zero_or_one (crossings p r) with k | k
  · rw [h3 hp k]; simp
  · rw [h2 hp k]; simp

end exact

/-! ## The intersector -/

theorem edgesMet_intersector (li : LI ℝ) (p q : Coord ℝ) (r : List (Coord ℝ)) :
    (segs r).countP (fun s => (li.compute4 p q s.1 s.2).hasIntersection) = edgesMet p q r := by
  unfold edgesMet
  congr 1
  funext s
  rw [Bool.eq_iff_iff, (C38_none_iff_disjoint li p q s.1 s.2).2]
  simp only [decide_eq_true_eq]
  rfl

/-- The locator and the intersector agree: two points are on the same side of a ring exactly if the intersector finds the segment between
them to meet an even number of edges; and a point is inside exactly if it finds an odd number on a way out. -/
theorem C143_intersector (li : LI ℝ) (p q : Coord ℝ) (r : List (Coord ℝ)) (hc : Closed2D r) (hp : ¬ OnLine p r) (hv : ∀ v ∈ r, ¬ OnSegment v p q) :
    (¬ OnLine q r → (PointLocation.locateInRing p r = PointLocation.locateInRing q r ↔
      Even ((segs r).countP (fun s => (li.compute4 p q s.1 s.2).hasIntersection)))) ∧
    ((∃ al be : ℝ, ∀ v ∈ r, al * v.x + be * v.y < al * q.x + be * q.y) → (PointLocation.locateInRing p r = .ok Location.INTERIOR ↔
      Odd ((segs r).countP (fun s => (li.compute4 p q s.1 s.2).hasIntersection)))) := by
  rw [edgesMet_intersector]
  exact ⟨fun hq => C143_walk p q r hc hp hq hv, fun ⟨al, be, hq⟩ => (C143_way_out al be p q r hc hp hv hq).1⟩

theorem onSegment_real_iff (w u v : Coord ℚ) : OnSegment (realPt w) (realPt u) (realPt v) ↔ OnSegment w u v := by
  rw [onSegment_iff, onSegment_iff]
  unfold det realPt
  simp only
  norm_cast

section doubles
variable {sq : ℚ → Val} {hy : ℚ → ℚ → Val}

/-- The same in doubles for points on a common grid. -/
theorem C143_intersector_doubles (g : ℤ) (h1 : -484 ≤ g) (h2 : g ≤ 400) (li : LI (B64 sq hy)) (p q : Coord ℚ) (r : List (Coord ℚ)) (hp : OnGrid g p)
    (hq : OnGrid g q) (hr : ∀ c ∈ r, OnGrid g c) (hc : Closed2D r) (op : ¬ OnLine p r) (oq : ¬ OnLine q r) (hv : ∀ v ∈ r, ¬ OnSegment v p q) :
    PointLocation.locateInRing (toB64 p : Coord (B64 sq hy)) (r.map toB64) = PointLocation.locateInRing (toB64 q : Coord (B64 sq hy)) (r.map toB64) ↔
      Even ((segs r).countP (fun s => (li.compute4 (toB64 p) (toB64 q) (toB64 s.1) (toB64 s.2)).hasIntersection)) := by
  have e1 : ∀ w : Coord ℚ, OnGrid g w → PointLocation.locateInRing (toB64 w : Coord (B64 sq hy)) (r.map toB64) =
      PointLocation.locateInRing (realPt w) (r.map realPt) := by
    intro w hw
    lift r to List (GridPt g) using hr
    have e := (sim_grid_real (sq := sq) (hy := hy) g h1 h2).locate ⟨w, hw⟩ r
    rw [map_grid, map_grid, e]
  have hc' : Closed2D (r.map realPt) := by
    intro u v hu hv
    rw [List.head?_map, Option.map_eq_some_iff] at hu
    rw [List.getLast?_map, Option.map_eq_some_iff] at hv
    obtain ⟨u', hu, rfl⟩ := hu
    obtain ⟨v', hv, rfl⟩ := hv
    obtain ⟨k1, k2⟩ := hc u' v' hu hv
    simp only [realPt, k1, k2, and_self]
  have ol : ∀ w : Coord ℚ, OnLine (realPt w) (r.map realPt) ↔ OnLine w r := by
    intro w
    unfold OnLine
    rw [segs_map_pair]
    simp only [List.mem_map, exists_exists_and_eq_and, Prod.map_fst, Prod.map_snd, onSegment_real_iff]
  rw [e1 p hp, e1 q hq, C143_walk (realPt p) (realPt q) (r.map realPt) hc' (by rwa [ol]) (by rwa [ol]) (by
    intro v hm
    obtain ⟨w, hw, rfl⟩ := List.mem_map.mp hm
    rw [onSegment_real_iff]
    exact hv w hw)]
  have e2 : (segs r).countP (fun s => (li.compute4 (toB64 p) (toB64 q) (toB64 s.1) (toB64 s.2)).hasIntersection) =
      edgesMet (realPt p) (realPt q) (r.map realPt) := by
    unfold edgesMet
    rw [segs_map_pair, List.countP_map]
    apply List.countP_congr
    intro s hs
    have m1 := hr s.1 (List.of_mem_zip hs).1
    have m2 := hr s.2 (List.mem_of_mem_tail (List.of_mem_zip hs).2)
    rw [(C66_segments_meet g h1 h2 li p q s.1 s.2 hp hq m1 m2).1]
    simp only [Function.comp, Prod.map_fst, Prod.map_snd, decide_eq_true_eq]
    rfl
  rw [e2]

end doubles

/-! ## Cases -/

section examples

/-- The way from the tip of a pentagram through its middle to the outside: three edges. -/
example : PointLocation.locateInRing (Coord.xy 0 4) pentagram = .ok Location.INTERIOR ∧
    PointLocation.locateInRing (Coord.xy 1 (-8)) pentagram = .ok Location.EXTERIOR ∧
    (∀ v ∈ pentagram, ¬ OnSegment v (Coord.xy 0 4) (Coord.xy 1 (-8))) ∧ ¬ OnLine (Coord.xy 0 4) pentagram ∧
    ∀ v ∈ pentagram, (0 : ℚ) * v.x + -1 * v.y < 0 * (Coord.xy 1 (-8) : Coord ℚ).x + -1 * (Coord.xy 1 (-8) : Coord ℚ).y := by
  refine ⟨by decide +kernel, by decide +kernel, ?_, ?_, ?_⟩
  · simp only [onSegment_iff]; decide +kernel
  · unfold OnLine; simp only [onSegment_iff]; decide +kernel
  · decide +kernel

/-- Without the condition on corners it is false: a segment through a corner meets two edges and comes out on the other side. -/
example : ∃ (p q : Coord ℚ) (r : List (Coord ℚ)), Closed2D r ∧ ¬ OnLine p r ∧ ¬ OnLine q r ∧
    PointLocation.locateInRing p r ≠ PointLocation.locateInRing q r ∧ Even (edgesMet p q r) := by
  refine ⟨Coord.xy 1 1, Coord.xy (-1) (-1), [Coord.xy 0 0, Coord.xy 4 0, Coord.xy 0 4, Coord.xy 0 0], ?_, ?_, ?_, by decide +kernel, ?_⟩
  · intro u v h1 h2; simp at h1 h2; subst h1 h2; simp
  · unfold OnLine; simp only [onSegment_iff]; decide +kernel
  · unfold OnLine; simp only [onSegment_iff]; decide +kernel
  · have m1 : Meets (Coord.xy 1 1 : Coord ℚ) (Coord.xy (-1) (-1)) (Coord.xy 0 0) (Coord.xy 4 0) :=
      ⟨Coord.xy 0 0, by rw [onSegment_iff]; decide +kernel, by rw [onSegment_iff]; decide +kernel⟩
    have m3 : Meets (Coord.xy 1 1 : Coord ℚ) (Coord.xy (-1) (-1)) (Coord.xy 0 4) (Coord.xy 0 0) :=
      ⟨Coord.xy 0 0, by rw [onSegment_iff]; decide +kernel, by rw [onSegment_iff]; decide +kernel⟩
    have m2 : ¬ Meets (Coord.xy 1 1 : Coord ℚ) (Coord.xy (-1) (-1)) (Coord.xy 4 0) (Coord.xy 0 4) := by
      rintro ⟨w, ⟨t, t0, t1, a1, a2⟩, ⟨u, u0, u1, b1, b2⟩⟩
      simp only [Coord.xy] at a1 a2 b1 b2
      linarith
    simp [edgesMet, segs, m1, m2, m3]

end examples
end Verif.Props
