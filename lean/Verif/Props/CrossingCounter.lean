import Verif.Props.PointInRing

set_option linter.unusedSectionVars false

/-! # C106: counting crossings segment by segment (exact arithmetic)

The counter of `ray_crossing_counter.rs` driven by a caller: `count_segment` for each segment, in any order, then `get_location`,
`is_on_segment`, `is_point_in_polygon`. A segment of a ring that passes from `a` to `b` is given as `count_segment(b, a)`, as in
`locate_point_in_ring`. -/

namespace Verif.Props
open Flt Verif.Spec
variable {K : Type} [Field K] [LinearOrder K] [IsStrictOrderedRing K]

/-- A caller gives all segments of a list to the counter. -/
def countAll (c : RayCounter K) (es : List (Coord K × Coord K)) : RayCounter K := es.foldl (fun c s => c.countSegment s.2 s.1) c

/-- Specification: the segment has a point on the ray that starts at `p` and runs to the right. -/
def TouchesRay (p : Coord K) (s : Coord K × Coord K) : Prop := ∃ q : Coord K, q.y = p.y ∧ p.x ≤ q.x ∧ OnSegment q s.1 s.2

theorem not_crosses_of_on (p : Coord K) (s : Coord K × Coord K) (h : OnSegment p s.1 s.2) : ¬ CrossesRight p s := by
  intro hc
  rw [show s = (s.1, s.2) from rfl, crossesRight_iff] at hc
  have := (onSegment_iff p s.1 s.2).mp h
  rcases hc with hc | hc
  · exact absurd this.1 hc.2.2.ne'
  · exact absurd this.1 hc.2.2.ne

theorem touches_of_on (p : Coord K) (s : Coord K × Coord K) (h : OnSegment p s.1 s.2) : TouchesRay p s := ⟨p, rfl, le_rfl, h⟩

theorem touches_of_crosses (p : Coord K) (s : Coord K × Coord K) (h : CrossesRight p s) : TouchesRay p s := by
  obtain ⟨hs, hx⟩ := h
  have hne : s.2.y - s.1.y ≠ 0 := by rcases hs with hs | hs <;> intro hc <;> linarith
  refine ⟨⟨xAt p s.1 s.2, p.y, p.z, p.m⟩, rfl, hx.le, (p.y - s.1.y) / (s.2.y - s.1.y), ?_, ?_, ?_, ?_⟩
  · rcases hs with hs | hs
    · exact div_nonneg_of_nonpos (by linarith) (by linarith)
    · exact div_nonneg (by linarith) (by linarith)
  · rcases hs with hs | hs
    · exact (div_le_one_of_neg (by linarith)).mpr (by linarith)
    · exact (div_le_one (by linarith)).mpr (by linarith)
  · simp only [xAt]
  · simp only; field_simp; ring

theorem countAll_p (c : RayCounter K) (es : List (Coord K × Coord K)) : (countAll c es).p = c.p := by
  induction es generalizing c with
  | nil => rfl
  | cons s es ih =>
    rw [countAll, List.foldl_cons, ← countAll, ih]
    obtain ⟨k1, k2, k3⟩ := C31_countSegment c s.1 s.2
    by_cases hh : Hit c.p s.1 s.2
    · rw [k1 hh]
    · by_cases hx : CrossesRight c.p (s.1, s.2)
      · rw [k2 hh hx]
      · rw [k3 hh hx]

/-- After any list of segments: the count has grown by the number of segments the ray crosses, and the point is reported on a
segment exactly if it was before or is on a segment whose upper end (as the second end of a rising segment) it is not. -/
theorem C106_segments (c : RayCounter K) (es : List (Coord K × Coord K)) :
    (countAll c es).count = c.count + es.countP (fun s => decide (CrossesRight c.p s)) ∧
    ((countAll c es).onSegment = true ↔
      c.onSegment = true ∨ ∃ s ∈ es, OnSegment c.p s.1 s.2 ∧ ¬ (c.p.x = s.2.x ∧ c.p.y = s.2.y ∧ s.1.y < s.2.y)) := by
  have hit : ∀ s : Coord K × Coord K, Hit c.p s.1 s.2 ↔ OnSegment c.p s.1 s.2 ∧ ¬ (c.p.x = s.2.x ∧ c.p.y = s.2.y ∧ s.1.y < s.2.y) := by
    intro s
    unfold Hit
    refine and_congr_right fun _ => not_congr (and_congr_right fun _ => and_congr_right fun h => by rw [h])
  simp only [← hit]
  clear hit
  induction es generalizing c with
  | nil => simp [countAll]
  | cons s es ih =>
    rw [countAll, List.foldl_cons, ← countAll]
    obtain ⟨k1, k2, k3⟩ := C31_countSegment c s.1 s.2
    by_cases hh : Hit c.p s.1 s.2
    · have hx := not_crosses_of_on c.p s hh.1
      rw [k1 hh]
      obtain ⟨i1, i2⟩ := ih { c with onSegment := true }
      rw [i1, i2, List.countP_cons]
      exact ⟨by simp [hx], by simp [hh]⟩
    · by_cases hx : CrossesRight c.p s
      · rw [k2 hh hx]
        obtain ⟨i1, i2⟩ := ih { c with count := c.count + 1 }
        rw [i1, i2, List.countP_cons]
        refine ⟨?_, by simp [hh]⟩
        simp only [hx, decide_true, if_true]; push_cast; ring
      · rw [k3 hh hx]
        obtain ⟨i1, i2⟩ := ih c
        rw [i1, i2, List.countP_cons]
        exact ⟨by simp [hx], by simp [hh]⟩

example : (countAll (RayCounter.new (Coord.xy (0 : ℚ) 0)) [(Coord.xy 1 (-1), Coord.xy 1 1), (Coord.xy 2 3, Coord.xy 2 0)]).count = 2 := by
  decide +kernel

/-- Once the point is on a segment, no further segment changes the answers. -/
theorem C106_final (c : RayCounter K) (es : List (Coord K × Coord K)) (h : c.onSegment = true) :
    (countAll c es).onSegment = true ∧ (countAll c es).getLocation = Location.BOUNDARY ∧ (countAll c es).isPointInPolygon = true := by
  have h1 := (C106_segments c es).2.mpr (Or.inl h)
  have h2 : (countAll c es).getLocation = Location.BOUNDARY := by rw [RayCounter.getLocation, if_pos h1]
  exact ⟨h1, h2, by rw [RayCounter.isPointInPolygon, h2]; rfl⟩

/-- Which end of a segment is given first does not matter unless the point is an end of the segment. -/
theorem C106_ends (c : RayCounter K) (a b : Coord K) (ha : ¬ (c.p.x = a.x ∧ c.p.y = a.y)) (hb : ¬ (c.p.x = b.x ∧ c.p.y = b.y)) :
    c.countSegment a b = c.countSegment b a := by
  have hs : OnSegment c.p a b ↔ OnSegment c.p b a := by
    rw [onSegment_iff, onSegment_iff, det_swap c.p a b, neg_eq_zero, min_comm a.x, max_comm a.x, min_comm a.y, max_comm a.y]
  have h1 : Hit c.p a b ↔ OnSegment c.p a b := ⟨fun h => h.1, fun h => ⟨h, fun h' => hb ⟨h'.1, h'.2.1⟩⟩⟩
  have h2 : Hit c.p b a ↔ OnSegment c.p a b := ⟨fun h => hs.mpr h.1, fun h => ⟨hs.mp h, fun h' => ha ⟨h'.1, h'.2.1⟩⟩⟩
  obtain ⟨k1, k2, k3⟩ := C31_countSegment c a b
  obtain ⟨l1, l2, l3⟩ := C31_countSegment c b a
  have hsw := crossesRight_swap c.p a b
  by_cases hh : OnSegment c.p a b
  · rw [k1 (h1.mpr hh), l1 (h2.mpr hh)]
  · have n1 : ¬ Hit c.p a b := fun h => hh (h1.mp h)
    have n2 : ¬ Hit c.p b a := fun h => hh (h2.mp h)
    by_cases hx : CrossesRight c.p (a, b)
    · rw [k2 n1 hx, l2 n2 (hsw.mp hx)]
    · rw [k3 n1 hx, l3 n2 (fun h => hx (hsw.mpr h))]

example : ¬ ((0 : ℚ) = 1 ∧ (0 : ℚ) = -1) ∧ ¬ ((0 : ℚ) = 1 ∧ (0 : ℚ) = 1) := by decide +kernel

/-- The edges of all rings. -/
def allEdges (rings : List (List (Coord K))) : List (Coord K × Coord K) := rings.flatMap segs

theorem countP_allEdges (p : Coord K) (rings : List (List (Coord K))) :
    (allEdges rings).countP (fun s => decide (CrossesRight p s)) = (rings.map (crossings p)).sum := by
  induction rings with
  | nil => rfl
  | cons r rs ih =>
    rw [allEdges, List.flatMap_cons, List.countP_append, ← allEdges, ih]; rfl

/-- The number of rings of odd crossing number decides the parity of the sum. -/
theorem sum_parity (l : List Nat) : l.sum % 2 = (l.countP (fun n => n % 2 == 1)) % 2 := by
  induction l with
  | nil => rfl
  | cons n l ih =>
    rw [List.sum_cons, List.countP_cons]
    rcases Nat.mod_two_eq_zero_or_one n with h | h
    · rw [h]; simp only [Nat.reduceBEq, Bool.false_eq_true, if_false]; omega
    · rw [h]; simp only [BEq.rfl, if_true]; omega

/-- A polygonal geometry with any number of closed rings in any directions, its segments given in any order and those left out that do
not touch the ray: the point is on the boundary exactly if it is on a ring, and otherwise inside exactly if it is inside an odd number
of rings. -/
theorem C106_rings (p : Coord K) (rings : List (List (Coord K))) (hc : ∀ r ∈ rings, Closed2D r) (given omitted : List (Coord K × Coord K))
    (hp : (given ++ omitted).Perm (allEdges rings)) (ho : ∀ s ∈ omitted, ¬ TouchesRay p s) :
    let loc := (countAll (RayCounter.new p) given).getLocation
    ((countAll (RayCounter.new p) given).onSegment = true ↔ ∃ r ∈ rings, OnLine p r) ∧
    (loc = Location.BOUNDARY ↔ ∃ r ∈ rings, OnLine p r) ∧
    (loc = Location.INTERIOR ↔ (¬ ∃ r ∈ rings, OnLine p r) ∧
      (rings.countP (fun r => decide (PointLocation.locateInRing p r = .ok Location.INTERIOR))) % 2 = 1) ∧
    (loc = Location.BOUNDARY ∨ loc = Location.INTERIOR ∨ loc = Location.EXTERIOR) ∧
    ((countAll (RayCounter.new p) given).isPointInPolygon = true ↔ loc ≠ Location.EXTERIOR) := by
  intro loc
  obtain ⟨h1, h2⟩ := C106_segments (RayCounter.new p) given
  have e0 : (RayCounter.new p).count = 0 := rfl
  have e1 : (RayCounter.new p).p = p := rfl
  have e2 : (RayCounter.new p).onSegment = false := rfl
  rw [e0, e1, zero_add] at h1
  rw [e1, e2] at h2
  have hcnt : given.countP (fun s => decide (CrossesRight p s)) = (rings.map (crossings p)).sum := by
    rw [← countP_allEdges, ← hp.countP_eq, List.countP_append]
    have : omitted.countP (fun s => decide (CrossesRight p s)) = 0 := by
      rw [List.countP_eq_zero]
      intro s hs h
      exact ho s hs (touches_of_crosses p s (of_decide_eq_true h))
    omega
  rw [hcnt] at h1
  have hon : (countAll (RayCounter.new p) given).onSegment = true ↔ ∃ r ∈ rings, OnLine p r := by
    rw [h2]
    constructor
    · rintro (h | ⟨s, hs, h, -⟩)
      · exact absurd h (by simp)
      · have : s ∈ allEdges rings := hp.mem_iff.mp (List.mem_append_left _ hs)
        obtain ⟨r, hr, hsr⟩ := List.mem_flatMap.mp this
        exact ⟨r, hr, s, hsr, h⟩
    · rintro ⟨r, hr, h⟩
      obtain ⟨s, hs, hh⟩ := (hit_iff_onLine p r (hc r hr)).mpr h
      have hm : s ∈ given ++ omitted := hp.mem_iff.mpr (List.mem_flatMap.mpr ⟨r, hr, hs⟩)
      rcases List.mem_append.mp hm with hm | hm
      · exact Or.inr ⟨s, hm, hh.1, fun h' => hh.2 ⟨h'.1, h'.2.1, by rw [h'.2.1]; exact h'.2.2⟩⟩
      · exact absurd (touches_of_on p s hh.1) (ho s hm)
  have htm : ((countAll (RayCounter.new p) given).count.tmod 2 = 1) ↔ (rings.map (crossings p)).sum % 2 = 1 := by
    rw [h1, Int.tmod_eq_emod_of_nonneg (by positivity)]; omega
  have hb : loc = Location.BOUNDARY ↔ (countAll (RayCounter.new p) given).onSegment = true := by
    show RayCounter.getLocation _ = _ ↔ _
    unfold RayCounter.getLocation
    split_ifs <;> simp_all [Location.BOUNDARY, Location.INTERIOR, Location.EXTERIOR]
  have hi : loc = Location.INTERIOR ↔ ¬ (countAll (RayCounter.new p) given).onSegment = true ∧
      (countAll (RayCounter.new p) given).count.tmod 2 = 1 := by
    show RayCounter.getLocation _ = _ ↔ _
    unfold RayCounter.getLocation
    split_ifs <;> simp_all [Location.BOUNDARY, Location.INTERIOR, Location.EXTERIOR]
  refine ⟨hon, hb.trans hon, ?_, ?_, ?_⟩
  · rw [hi, hon, htm, sum_parity]
    refine and_congr_right fun hn => ?_
    rw [List.countP_map]
    have : rings.countP ((fun n => n % 2 == 1) ∘ crossings p) =
        rings.countP (fun r => decide (PointLocation.locateInRing p r = .ok Location.INTERIOR)) := by
      apply List.countP_congr
      intro r hr
      have hr' : ¬ OnLine p r := fun h => hn ⟨r, hr, h⟩
      obtain ⟨l, e, -, a2, a3⟩ := C31_locate p r (hc r hr)
      simp only [Function.comp, beq_iff_eq, decide_eq_true_eq]
      rw [e]
      rcases Nat.mod_two_eq_zero_or_one (crossings p r) with h | h
      · rw [a3 hr' h, h]; simp [Location.EXTERIOR, Location.INTERIOR]
      · rw [a2 hr' h, h]; simp
    rw [this]
  · show RayCounter.getLocation _ = _ ∨ RayCounter.getLocation _ = _ ∨ RayCounter.getLocation _ = _
    unfold RayCounter.getLocation
    split_ifs <;> simp
  · rw [RayCounter.isPointInPolygon]; exact decide_eq_true_iff

/-- A square with a square hole: between both rings the point is inside, in the hole it is not. -/
def exShell : List (Coord ℚ) := [Coord.xy 0 0, Coord.xy 6 0, Coord.xy 6 6, Coord.xy 0 6, Coord.xy 0 0]
def exHole : List (Coord ℚ) := [Coord.xy 2 2, Coord.xy 4 2, Coord.xy 4 4, Coord.xy 2 4, Coord.xy 2 2]

example : (∀ r ∈ [exShell, exHole], Closed2D r) := by
  intro r hr a b ha hb
  simp only [List.mem_cons, List.not_mem_nil, or_false] at hr
  rcases hr with rfl | rfl <;> · simp [exShell, exHole] at ha hb; subst ha hb; exact ⟨rfl, rfl⟩
example : (countAll (RayCounter.new (Coord.xy 1 3)) (allEdges [exShell, exHole]).reverse).isPointInPolygon = true := by decide +kernel
example : (countAll (RayCounter.new (Coord.xy 3 3)) (allEdges [exShell, exHole])).isPointInPolygon = false := by decide +kernel

/-- The documentation calls the arguments "an endpoint" and "another endpoint". They cannot be exchanged for single segments of a
ring: the topmost vertex of a triangle is found outside if both its segments are given with that vertex first, although all segments
are given. -/
theorem C106_top_missed : ∃ a b v : Coord ℚ,
    (((((RayCounter.new v).countSegment b a).countSegment v b).countSegment v a).getLocation = Location.EXTERIOR) ∧
    PointLocation.locateInRing v [a, b, v, a] = .ok Location.BOUNDARY :=
  ⟨Coord.xy 0 0, Coord.xy 2 0, Coord.xy 1 1, by decide +kernel, by decide +kernel⟩

end Verif.Props
