import Verif.Model.RingAlgorithms
import Verif.Spec.Crossing
import Verif.Lemmas.Plane
import Verif.Lemmas.Loop
import Verif.Lemmas.Sequences
import Verif.Props.Orientation

set_option linter.unusedSectionVars false

/-! # C31: point in ring (exact arithmetic) -/

namespace Verif.Props
open Flt Verif.Spec
variable {K : Type} [Field K] [LinearOrder K] [IsStrictOrderedRing K]

/-! ## One edge -/

theorem crossesRight_iff (p a b : Coord K) :
    CrossesRight p (a, b) ↔ (a.y ≤ p.y ∧ p.y < b.y ∧ 0 < det a b p) ∨ (b.y ≤ p.y ∧ p.y < a.y ∧ det a b p < 0) := by
  unfold CrossesRight Straddles xAt det
  constructor
  · rintro ⟨h | h, hx⟩
    · right
      have hne : b.y - a.y < 0 := by linarith
      refine ⟨h.2, h.1, ?_⟩
      have : p.x - a.x < (p.y - a.y) / (b.y - a.y) * (b.x - a.x) := by simp only at hx; linarith
      have h2 : (p.y - a.y) / (b.y - a.y) * (b.x - a.x) * (b.y - a.y) = (p.y - a.y) * (b.x - a.x) := by
        field_simp [hne.ne]
      have h3 := mul_lt_mul_of_neg_right this hne
      rw [h2] at h3; linarith
    · left
      have hne : 0 < b.y - a.y := by linarith
      refine ⟨h.2, h.1, ?_⟩
      have : p.x - a.x < (p.y - a.y) / (b.y - a.y) * (b.x - a.x) := by simp only at hx; linarith
      have h2 : (p.y - a.y) / (b.y - a.y) * (b.x - a.x) * (b.y - a.y) = (p.y - a.y) * (b.x - a.x) := by
        field_simp [hne.ne']
      have h3 := mul_lt_mul_of_pos_right this hne
      rw [h2] at h3; linarith
  · rintro (⟨h1, h2, h3⟩ | ⟨h1, h2, h3⟩)
    · refine ⟨Or.inr ⟨h2, h1⟩, ?_⟩
      have hne : 0 < b.y - a.y := by linarith
      have e : (p.y - a.y) / (b.y - a.y) * (b.x - a.x) = (p.y - a.y) * (b.x - a.x) / (b.y - a.y) := by ring
      have : p.x - a.x < (p.y - a.y) * (b.x - a.x) / (b.y - a.y) := by rw [lt_div_iff₀ hne]; linarith
      simp only; rw [e]; linarith
    · refine ⟨Or.inl ⟨h2, h1⟩, ?_⟩
      have hne : b.y - a.y < 0 := by linarith
      have e : (p.y - a.y) / (b.y - a.y) * (b.x - a.x) = (p.y - a.y) * (b.x - a.x) / (b.y - a.y) := by ring
      have : p.x - a.x < (p.y - a.y) * (b.x - a.x) / (b.y - a.y) := by rw [lt_div_iff_of_neg hne]; linarith
      simp only; rw [e]; linarith

theorem det_swap (p a b : Coord K) : det b a p = -det a b p := by unfold det; ring

theorem crossesRight_swap (p a b : Coord K) : CrossesRight p (a, b) ↔ CrossesRight p (b, a) := by
  rw [crossesRight_iff, crossesRight_iff, det_swap p a b]
  constructor
  · rintro (⟨h1, h2, h3⟩ | ⟨h1, h2, h3⟩)
    · exact Or.inr ⟨h1, h2, by linarith⟩
    · exact Or.inl ⟨h1, h2, by linarith⟩
  · rintro (⟨h1, h2, h3⟩ | ⟨h1, h2, h3⟩)
    · exact Or.inr ⟨h1, h2, by linarith⟩
    · exact Or.inl ⟨h1, h2, by linarith⟩

/-- The point is on the edge, as `count_segment` sees it: the first end of a descending edge is left to the next edge. -/
def Hit (p a b : Coord K) : Prop := OnSegment p a b ∧ ¬ (p.x = b.x ∧ p.y = b.y ∧ a.y < p.y)

theorem det_of_straddle (p a b : Coord K) (h : (a.y ≤ p.y ∧ p.y < b.y) ∨ (b.y ≤ p.y ∧ p.y < a.y)) (hd : det a b p = 0) :
    OnSegment p a b := by
  have hne : b.y - a.y ≠ 0 := by rcases h with h | h <;> intro hc <;> linarith
  unfold det at hd
  refine ⟨(p.y - a.y) / (b.y - a.y), ?_, ?_, ?_, ?_⟩
  · rcases h with h | h
    · exact div_nonneg (by linarith) (by linarith)
    · exact div_nonneg_of_nonpos (by linarith) (by linarith)
  · rcases h with h | h
    · exact (div_le_one (by linarith)).mpr (by linarith)
    · exact (div_le_one_of_neg (by linarith)).mpr (by linarith)
  · field_simp; linear_combination -hd
  · field_simp; ring

/-- `count_segment` on one edge `(b, a)` (the ring passes from `a` to `b`). -/
theorem C31_countSegment (c : RayCounter K) (a b : Coord K) :
    (Hit c.p a b → c.countSegment b a = { c with onSegment := true }) ∧
    (¬ Hit c.p a b → CrossesRight c.p (a, b) → c.countSegment b a = { c with count := c.count + 1 }) ∧
    (¬ Hit c.p a b → ¬ CrossesRight c.p (a, b) → c.countSegment b a = c) := by
  obtain ⟨p, n, o⟩ := c
  simp only
  have hidx : Orientation.index b a p = sgn (-det a b p) := by rw [C29_index_is_sign, det_swap]
  rw [crossesRight_iff]
  unfold RayCounter.countSegment
  simp only [exact_lt, exact_le, exact_eq, Bool.and_eq_true, Bool.or_eq_true, decide_eq_true_eq, hidx]
  by_cases h1 : b.x < p.x ∧ a.x < p.x
  · -- both ends to the left
    have hns : ¬ OnSegment p a b := by
      rw [onSegment_iff]
      rintro ⟨_, _, h, _⟩
      exact absurd h (not_le.mpr (max_lt h1.2 h1.1))
    have hnc : ¬ ((a.y ≤ p.y ∧ p.y < b.y ∧ 0 < det a b p) ∨ (b.y ≤ p.y ∧ p.y < a.y ∧ det a b p < 0)) := by
      unfold det
      rintro (⟨u, v, w⟩ | ⟨u, v, w⟩)
      · nlinarith [mul_nonneg (sub_nonneg.mpr u) (sub_nonneg.mpr h1.1.le), mul_pos (sub_pos.mpr v) (sub_pos.mpr h1.2)]
      · nlinarith [mul_nonneg (sub_nonneg.mpr u) (sub_nonneg.mpr h1.2.le), mul_pos (sub_pos.mpr v) (sub_pos.mpr h1.1)]
    rw [if_pos h1]
    exact ⟨fun h => absurd h.1 hns, fun _ h => absurd h hnc, fun _ _ => rfl⟩
  rw [if_neg h1]
  by_cases h2 : p.x = a.x ∧ p.y = a.y
  · rw [if_pos h2]
    have hh : Hit p a b := by
      refine ⟨(onSegment_end p a b).1 h2, fun hc => ?_⟩
      exact absurd hc.2.2 (by rw [h2.2]; exact lt_irrefl _)
    exact ⟨fun _ => rfl, fun h => absurd hh h, fun h => absurd hh h⟩
  rw [if_neg h2]
  by_cases h3 : b.y = p.y ∧ a.y = p.y
  · rw [if_pos h3]
    have hmm : ∀ u v : K, (if v < u then (v, u) else (u, v)) = (min u v, max u v) := by
      intro u v
      split_ifs with h
      · rw [min_eq_right h.le, max_eq_left h.le]
      · rw [min_eq_left (not_lt.mp h), max_eq_right (not_lt.mp h)]
    rw [hmm]
    have hd : det a b p = 0 := by unfold det; rw [h3.1, h3.2]; ring
    have hon : OnSegment p a b ↔ min b.x a.x ≤ p.x ∧ p.x ≤ max b.x a.x := by
      rw [onSegment_iff, hd, h3.1, h3.2, min_self, max_self, min_comm, max_comm]; simp
    have hhit : Hit p a b ↔ OnSegment p a b := by
      unfold Hit; rw [h3.2]; simp
    rw [hhit, hon]
    by_cases hc : min b.x a.x ≤ p.x ∧ p.x ≤ max b.x a.x
    · rw [if_pos hc]
      exact ⟨fun _ => rfl, fun h => absurd hc h, fun h => absurd hc h⟩
    · rw [if_neg hc]
      refine ⟨fun h => absurd h hc, fun _ h => ?_, fun _ _ => rfl⟩
      rw [hd] at h; simp at h
  rw [if_neg h3]
  by_cases h4 : (p.y < b.y ∧ a.y ≤ p.y) ∨ (p.y < a.y ∧ b.y ≤ p.y)
  · rw [if_pos h4]
    have hstr : (a.y ≤ p.y ∧ p.y < b.y) ∨ (b.y ≤ p.y ∧ p.y < a.y) := by tauto
    by_cases hd : det a b p = 0
    · have hs : sgn (-det a b p) = 0 := by rw [hd]; simp [sgn]
      rw [if_pos hs]
      have hh : Hit p a b := by
        refine ⟨det_of_straddle p a b hstr hd, fun hc => ?_⟩
        rcases hstr with h | h
        · rw [hc.2.1] at h; exact lt_irrefl _ h.2
        · exact lt_asymm hc.2.2 h.2
      exact ⟨fun _ => rfl, fun h => absurd hh h, fun h => absurd hh h⟩
    · have hs : ¬ sgn (-det a b p) = 0 := by rw [sgn_zero]; simpa using hd
      rw [if_neg hs]
      have hh : ¬ Hit p a b := fun h => hd ((onSegment_iff p a b).mp h.1).1
      refine ⟨fun h => absurd h hh, fun _ h => ?_, fun _ h => ?_⟩
      · rcases h with ⟨u, v, w⟩ | ⟨u, v, w⟩
        · have : a.y < b.y := lt_of_le_of_lt u v
          rw [if_pos this, if_pos]
          rw [← sgn_neg, neg_neg, sgn_pos]; exact w
        · have : ¬ a.y < b.y := by push Not; linarith
          rw [if_neg this, if_pos]
          rw [sgn_pos]; linarith
      · rw [if_neg]
        intro hc
        apply h
        rcases hstr with g | g
        · have : a.y < b.y := lt_of_le_of_lt g.1 g.2
          rw [if_pos this, ← sgn_neg, neg_neg, sgn_pos] at hc
          exact Or.inl ⟨g.1, g.2, hc⟩
        · have : ¬ a.y < b.y := by push Not; linarith
          rw [if_neg this, sgn_pos] at hc
          exact Or.inr ⟨g.1, g.2, by linarith⟩
  · rw [if_neg h4]
    have hh : ¬ Hit p a b := by
      rintro ⟨h, hn⟩
      rw [onSegment_iff] at h
      obtain ⟨hd, hx1, hx2, hy1, hy2⟩ := h
      push Not at h4
      -- p is level with the upper end
      rcases le_total a.y b.y with hab | hab
      · rw [min_eq_left hab] at hy1; rw [max_eq_right hab] at hy2
        have e : p.y = b.y := by
          by_contra hne
          exact absurd hy1 (not_le.mpr (h4.1 (lt_of_le_of_ne hy2 hne)))
        have hlt : a.y < p.y := by
          rcases lt_or_eq_of_le hab with hl | hl
          · rw [e]; exact hl
          · exact absurd ⟨e.symm, by rw [hl, e]⟩ h3
        have hx : p.x = b.x := by
          unfold det at hd; rw [e] at hd
          have : (b.y - a.y) * (b.x - p.x) = 0 := by linear_combination hd
          rcases mul_eq_zero.mp this with h | h
          · rw [e] at hlt; linarith
          · linarith
        exact hn ⟨hx, e, hlt⟩
      · rw [min_eq_right hab] at hy1; rw [max_eq_left hab] at hy2
        have e : p.y = a.y := by
          by_contra hne
          exact absurd hy1 (not_le.mpr (h4.2 (lt_of_le_of_ne hy2 hne)))
        have hlt : b.y < p.y := by
          rcases lt_or_eq_of_le hab with hl | hl
          · rw [e]; exact hl
          · exact absurd ⟨by rw [hl, e], e.symm⟩ h3
        have hx : p.x = a.x := by
          unfold det at hd; rw [e] at hd
          have : (b.y - a.y) * (p.x - a.x) = 0 := by linear_combination -hd
          rcases mul_eq_zero.mp this with h | h
          · rw [e] at hlt; linarith
          · linarith
        exact h2 ⟨hx, e⟩
    refine ⟨fun h => absurd h hh, fun _ h => ?_, fun _ _ => rfl⟩
    exfalso; apply h4; tauto

/-! ## The ring -/

theorem step_on (c : RayCounter K) (h : c.onSegment = true) (xs : List (Coord K × Coord K)) :
    xs.foldl (fun c s => c.step s.2 s.1) c = c := by
  induction xs with
  | nil => rfl
  | cons s xs ih => simp only [List.foldl_cons, RayCounter.step, h, if_true]; exact ih

theorem fold_spec (xs : List (Coord K × Coord K)) (c : RayCounter K) (hc : c.onSegment = false) :
    ((xs.foldl (fun c s => c.step s.2 s.1) c).onSegment = true ↔ ∃ s ∈ xs, Hit c.p s.1 s.2) ∧
    ((∀ s ∈ xs, ¬ Hit c.p s.1 s.2) →
      (xs.foldl (fun c s => c.step s.2 s.1) c).count = c.count + xs.countP (fun s => decide (CrossesRight c.p s))) := by
  induction xs generalizing c with
  | nil => simp [hc]
  | cons s xs ih =>
    obtain ⟨k1, k2, k3⟩ := C31_countSegment c s.1 s.2
    simp only [List.foldl_cons]
    have hstep : c.step s.2 s.1 = c.countSegment s.2 s.1 := by simp [RayCounter.step, hc]
    rw [hstep]
    by_cases hh : Hit c.p s.1 s.2
    · rw [k1 hh, step_on _ rfl]
      refine ⟨⟨fun _ => ⟨s, by simp, hh⟩, fun _ => rfl⟩, fun h => absurd hh (h s (by simp))⟩
    · by_cases hx : CrossesRight c.p s
      · rw [k2 hh hx]
        obtain ⟨i1, i2⟩ := ih { c with count := c.count + 1 } hc
        refine ⟨?_, fun h => ?_⟩
        · rw [i1]; simp [hh]
        · rw [i2 (fun t ht => h t (by simp [ht])), List.countP_cons]
          simp only [hx, decide_true, if_true]; push_cast; ring
      · rw [k3 hh hx]
        obtain ⟨i1, i2⟩ := ih c hc
        refine ⟨?_, fun h => ?_⟩
        · rw [i1]; simp [hh]
        · rw [i2 (fun t ht => h t (by simp [ht])), List.countP_cons]
          simp only [hx, decide_false, Bool.false_eq_true, if_false, Nat.add_zero]

theorem locate_fold (p : Coord K) (ring : List (Coord K)) :
    RayCounter.locateVec p ring = .ok ((segs ring).foldl (fun c s => c.step s.2 s.1) (RayCounter.new p)).getLocation := by
  unfold RayCounter.locateVec
  have := forRange_foldl (σ := RayCounter K) (segs ring) 1 ring.length (by simp) (fun i counter => do
    let p1 ← Res.get ring i
    let p2 ← Res.get ring (i - 1)
    pure (counter.step p1 p2)) (fun c s => c.step s.2 s.1) (by
      intro k hk s
      have hk' : k + 1 < ring.length := by simp at hk; omega
      rw [getElem_segs, Nat.add_comm 1 k, Res.get_lt hk', Nat.add_sub_cancel, Res.get_lt (by omega : k < ring.length)]
      rfl) (RayCounter.new p)
  simp only [this]; rfl

theorem hit_iff_onLine (p : Coord K) (ring : List (Coord K)) (hc : Closed2D ring) :
    (∃ s ∈ segs ring, Hit p s.1 s.2) ↔ OnLine p ring := by
  constructor
  · rintro ⟨s, hs, h⟩; exact ⟨s, hs, h.1⟩
  · rintro ⟨s, hs, h⟩
    by_cases hh : Hit p s.1 s.2
    · exact ⟨s, hs, hh⟩
    · unfold Hit at hh
      push Not at hh
      have hb := hh h
      obtain ⟨i, hi, rfl⟩ := List.mem_iff_getElem.mp hs
      have hi' := hi
      rw [length_segs] at hi'
      rw [getElem_segs] at hb
      simp only at hb
      by_cases hlast : i + 1 < (segs ring).length
      · refine ⟨(segs ring)[i + 1], List.getElem_mem _, ?_⟩
        rw [getElem_segs]
        refine ⟨(onSegment_end _ _ _).1 ⟨hb.1, hb.2.1⟩, fun hc => ?_⟩
        exact absurd hc.2.2 (by simp only; rw [hb.2.1]; exact lt_irrefl _)
      · rw [length_segs] at hlast
        have h0 : 0 < (segs ring).length := by omega
        have hfl := hc ring[0] ring[i + 1] (by rw [List.head?_eq_getElem?, List.getElem?_eq_getElem]) (by
          rw [List.getLast?_eq_getElem?, List.getElem?_eq_getElem (by omega)]
          congr 2; omega)
        refine ⟨(segs ring)[0], List.getElem_mem _, ?_⟩
        rw [getElem_segs]
        have e1 : p.x = ring[0].x := by rw [hfl.1]; exact hb.1
        have e2 : p.y = ring[0].y := by rw [hfl.2]; exact hb.2.1
        refine ⟨(onSegment_end _ _ _).1 ⟨e1, e2⟩, fun hc => ?_⟩
        exact absurd hc.2.2 (by simp only; rw [e2]; exact lt_irrefl _)

/-- The location of a point in a closed ring: on an edge it is BOUNDARY, elsewhere INTERIOR exactly if the ray to the right crosses
an odd number of edges. It never panics. -/
theorem C31_locate (p : Coord K) (ring : List (Coord K)) (hc : Closed2D ring) :
    ∃ loc, PointLocation.locateInRing p ring = .ok loc ∧
      (OnLine p ring → loc = Location.BOUNDARY) ∧
      (¬ OnLine p ring → crossings p ring % 2 = 1 → loc = Location.INTERIOR) ∧
      (¬ OnLine p ring → crossings p ring % 2 = 0 → loc = Location.EXTERIOR) := by
  refine ⟨_, locate_fold p ring, ?_⟩
  obtain ⟨h1, h2⟩ := fold_spec (segs ring) (RayCounter.new p) rfl
  have hp : (RayCounter.new p).p = p := rfl
  have hn : (RayCounter.new p).count = 0 := rfl
  rw [hp] at h1 h2
  rw [hit_iff_onLine p ring hc] at h1
  have nohit : ¬ OnLine p ring → ∀ s ∈ segs ring, ¬ Hit p s.1 s.2 := fun h s hs hh => h ⟨s, hs, hh.1⟩
  have tm : ∀ k : Nat, (k : Int).tmod 2 = 1 ↔ k % 2 = 1 := by
    intro k; rw [Int.tmod_eq_emod_of_nonneg (by omega)]; omega
  refine ⟨fun h => ?_, fun h hodd => ?_, fun h heven => ?_⟩
  · simp [RayCounter.getLocation, h1.mpr h]
  · have hf : ((segs ring).foldl (fun c s => RayCounter.step c s.2 s.1) (RayCounter.new p)).onSegment = false := by
      rw [Bool.eq_false_iff]; exact fun hh => h (h1.mp hh)
    simp only [RayCounter.getLocation, hf, Bool.false_eq_true, if_false, h2 (nohit h), hn, Int.zero_add]
    rw [if_pos]; exact (tm _).mpr hodd
  · have hf : ((segs ring).foldl (fun c s => RayCounter.step c s.2 s.1) (RayCounter.new p)).onSegment = false := by
      rw [Bool.eq_false_iff]; exact fun hh => h (h1.mp hh)
    simp only [RayCounter.getLocation, hf, Bool.false_eq_true, if_false, h2 (nohit h), hn, Int.zero_add]
    rw [if_neg]
    intro hc; rw [tm] at hc; unfold crossings at heven; omega

/-- Two closed rings with the same edges up to order and direction locate every point alike. -/
theorem locate_congr (p : Coord K) (r r' : List (Coord K)) (hc : Closed2D r) (hc' : Closed2D r')
    (h1 : OnLine p r ↔ OnLine p r') (h2 : crossings p r = crossings p r') :
    PointLocation.locateInRing p r = PointLocation.locateInRing p r' := by
  obtain ⟨l, e, a1, a2, a3⟩ := C31_locate p r hc
  obtain ⟨l', e', b1, b2, b3⟩ := C31_locate p r' hc'
  rw [e, e']
  congr 1
  by_cases ho : OnLine p r
  · rw [a1 ho, b1 (h1.mp ho)]
  · have ho' := fun h => ho (h1.mpr h)
    rcases Nat.mod_two_eq_zero_or_one (crossings p r) with hm | hm
    · rw [a3 ho hm, b3 ho' (by rw [← h2]; exact hm)]
    · rw [a2 ho hm, b2 ho' (by rw [← h2]; exact hm)]

theorem crossings_reverse (p : Coord K) (r : List (Coord K)) : crossings p r.reverse = crossings p r := by
  unfold crossings
  rw [segs_reverse, List.countP_reverse, List.countP_map]
  congr 1
  funext s
  simp only [Function.comp]
  exact decide_eq_decide.mpr (crossesRight_swap p s.2 s.1)

theorem onLine_reverse (p : Coord K) (r : List (Coord K)) : OnLine p r.reverse ↔ OnLine p r := by
  unfold OnLine
  rw [segs_reverse]
  constructor
  · rintro ⟨s, hs, h⟩
    rw [List.mem_reverse, List.mem_map] at hs
    obtain ⟨t, ht, rfl⟩ := hs
    exact ⟨t, ht, (onSegment_swap _ _ _).mp h⟩
  · rintro ⟨s, hs, h⟩
    exact ⟨s.swap, by rw [List.mem_reverse, List.mem_map]; exact ⟨s, hs, rfl⟩, (onSegment_swap _ _ _).mp h⟩

theorem closed2D_reverse (r : List (Coord K)) (h : Closed2D r) : Closed2D r.reverse := by
  intro a b ha hb
  rw [List.head?_reverse] at ha
  rw [List.getLast?_reverse] at hb
  have := h b a hb ha
  exact ⟨this.1.symm, this.2.symm⟩

theorem closed2D_closed (l : List (Coord K)) : Closed2D (closed l) := by
  intro a b ha hb
  cases l with
  | nil => simp [closed] at ha
  | cons c l =>
    simp [closed] at ha hb
    rw [List.getLast?_cons, List.getLast?_append] at hb
    simp at hb
    rw [← ha, ← hb]; simp

/-- The location does not depend on the direction of the ring. -/
theorem C31_reverse (p : Coord K) (r : List (Coord K)) (hc : Closed2D r) :
    PointLocation.locateInRing p r.reverse = PointLocation.locateInRing p r :=
  locate_congr p _ _ (closed2D_reverse r hc) hc (onLine_reverse p r) (crossings_reverse p r)

/-- Nor on the vertex the ring starts at. -/
theorem C31_rotate (p : Coord K) (l : List (Coord K)) (k : Nat) :
    PointLocation.locateInRing p (closed (l.rotate k)) = PointLocation.locateInRing p (closed l) := by
  have hp := segs_closed_rotate l k
  refine locate_congr p _ _ (closed2D_closed _) (closed2D_closed _) ?_ (hp.countP_eq _)
  unfold OnLine
  exact ⟨fun ⟨s, hs, h⟩ => ⟨s, hp.mem_iff.mp hs, h⟩, fun ⟨s, hs, h⟩ => ⟨s, hp.mem_iff.mpr hs, h⟩⟩

/-- Every vertex of a closed ring with an edge is on its boundary. -/
theorem C31_vertex_boundary (r : List (Coord K)) (hc : Closed2D r) (h2 : 2 ≤ r.length) (v : Coord K) (hv : v ∈ r) :
    PointLocation.locateInRing v r = .ok Location.BOUNDARY := by
  obtain ⟨l, e, a1, _, _⟩ := C31_locate v r hc
  rw [e, a1]
  obtain ⟨i, hi, rfl⟩ := List.mem_iff_getElem.mp hv
  by_cases h : i + 1 < r.length
  · refine ⟨(segs r)[i]'(by simp; omega), List.getElem_mem _, ?_⟩
    rw [getElem_segs]; exact (onSegment_end _ _ _).1 ⟨rfl, rfl⟩
  · refine ⟨(segs r)[i - 1]'(by simp; omega), List.getElem_mem _, ?_⟩
    rw [getElem_segs]
    have e : i - 1 + 1 = i := by omega
    simp only [e]
    exact (onSegment_end _ _ _).2 ⟨rfl, rfl⟩

/-! ## The other ray -/

theorem straddle_parity (p : Coord K) (a : Coord K) (l : List (Coord K)) :
    (segs (a :: l)).countP (fun s => decide (Straddles p s.1 s.2)) % 2 =
      if (p.y < a.y ↔ p.y < ((a :: l).getLast (by simp)).y) then 0 else 1 := by
  induction l generalizing a with
  | nil => simp
  | cons b l ih =>
    rw [segs_cons, List.countP_cons, Nat.add_mod, ih b]
    simp only [List.getLast_cons_cons]
    have e : decide (Straddles p a b) = decide (¬ (p.y < a.y ↔ p.y < b.y)) := by
      rw [decide_eq_decide]; unfold Straddles
      constructor
      · rintro (⟨h1, h2⟩ | ⟨h1, h2⟩) hc
        · exact absurd (hc.mp h1) (not_lt.mpr h2)
        · exact absurd (hc.mpr h1) (not_lt.mpr h2)
      · intro h
        by_cases h1 : p.y < a.y
        · left; exact ⟨h1, by by_contra h2; push Not at h2; exact h ⟨fun _ => h2, fun _ => h1⟩⟩
        · right
          push Not at h1
          refine ⟨?_, h1⟩
          by_contra h2
          exact h ⟨fun h3 => absurd h3 (not_lt.mpr h1), fun h3 => absurd h3 h2⟩
    simp only [e]
    by_cases h1 : p.y < a.y <;> by_cases h2 : p.y < b.y <;> by_cases h3 : p.y < ((b :: l).getLast (by simp)).y <;>
      simp [h1, h2, h3]

/-- Off the boundary of a closed ring, the ray to the left gives the same answer as the ray to the right. -/
theorem C31_left_ray (p : Coord K) (ring : List (Coord K)) (hc : Closed2D ring) (hn : ¬ OnLine p ring) :
    crossings p ring % 2 = crossingsLeft p ring % 2 := by
  cases ring with
  | nil => rfl
  | cons a l =>
    have hpar := straddle_parity p a l
    have hfl := hc a ((a :: l).getLast (by simp)) (by simp) (List.getLast?_eq_getLast_of_ne_nil _)
    rw [← hfl.2] at hpar
    simp only [if_true] at hpar
    have hsum : ∀ xs : List (Coord K × Coord K), (∀ s ∈ xs, ¬ OnSegment p s.1 s.2) →
        xs.countP (fun s => decide (Straddles p s.1 s.2)) =
        xs.countP (fun s => decide (CrossesRight p s)) + xs.countP (fun s => decide (CrossesLeft p s)) := by
      intro xs
      induction xs with
      | nil => simp
      | cons s xs ih =>
        intro h
        rw [List.countP_cons, List.countP_cons, List.countP_cons, ih (fun t ht => h t (by simp [ht]))]
        have hs := h s (by simp)
        by_cases hst : Straddles p s.1 s.2
        · have hne : xAt p s.1 s.2 ≠ p.x := by
            intro he
            apply hs
            apply det_of_straddle p s.1 s.2 (by unfold Straddles at hst; tauto)
            have hy : s.2.y - s.1.y ≠ 0 := by
              unfold Straddles at hst
              rcases hst with h | h <;> intro hc <;> linarith
            unfold xAt at he
            unfold det
            rw [← he]; field_simp; ring
          rcases lt_or_gt_of_ne hne with hlt | hgt
          · simp [CrossesRight, CrossesLeft, hst, hlt, not_lt.mpr hlt.le]; omega
          · simp [CrossesRight, CrossesLeft, hst, hgt, not_lt.mpr hgt.le]; omega
        · simp [CrossesRight, CrossesLeft, hst]
    have := hsum (segs (a :: l)) (fun s hs h => hn ⟨s, hs, h⟩)
    unfold crossings crossingsLeft
    omega

end Verif.Props
