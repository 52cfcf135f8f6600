import Verif.Props.Stable
import Verif.Props.Centroid64

set_option linter.unusedSectionVars false

/-! # C149: two rings without common points: one is in the other, or they are apart -/

namespace Verif.Spec

/-- No point is on both lines. -/
def NoCommon (r s : List (Coord ℝ)) : Prop := ∀ c, ¬ (OnLine c r ∧ OnLine c s)

end Verif.Spec

namespace Verif.Props
open Flt Verif.Spec

theorem noCommon_symm {r s : List (Coord ℝ)} (h : NoCommon r s) : NoCommon s r := fun c k => h c ⟨k.2, k.1⟩

theorem locate_cases (p : Coord ℝ) (r : List (Coord ℝ)) (hc : Closed2D r) (hn : ¬ OnLine p r) :
    PointLocation.locateInRing p r = .ok Location.INTERIOR ∨ PointLocation.locateInRing p r = .ok Location.EXTERIOR := by
  obtain ⟨l, e, -, h2, h3⟩ := C31_locate p r hc
  rw [e]
  rcases Nat.mod_two_eq_zero_or_one (crossings p r) with k | k
  · right; rw [h3 hn k]
  · left; rw [h2 hn k]

theorem locate_off (p : Coord ℝ) (r : List (Coord ℝ)) (hc : Closed2D r) (h : PointLocation.locateInRing p r ≠ .ok Location.BOUNDARY) : ¬ OnLine p r := by
  intro hn
  obtain ⟨l, e, h1, -, -⟩ := C31_locate p r hc
  exact h (by rw [e, h1 hn])

theorem int_ne_ext : (Except.ok Location.INTERIOR : Res Int) ≠ .ok Location.EXTERIOR := by decide
theorem int_ne_bound : (Except.ok Location.INTERIOR : Res Int) ≠ .ok Location.BOUNDARY := by decide

theorem vertex_onRing {r : List (Coord ℝ)} (h2 : 2 ≤ r.length) (v : Coord ℝ) (hv : v ∈ r) : OnLine v r := by
  obtain ⟨i, hi, rfl⟩ := List.mem_iff_getElem.mp hv
  by_cases h : i + 1 < r.length
  · refine ⟨(segs r)[i]'(by simp; omega), List.getElem_mem _, ?_⟩
    rw [getElem_segs]; exact (onSegment_end _ _ _).1 ⟨rfl, rfl⟩
  · refine ⟨(segs r)[i - 1]'(by simp; omega), List.getElem_mem _, ?_⟩
    rw [getElem_segs]
    have e : i - 1 + 1 = i := by omega
    simp only [e]
    exact (onSegment_end _ _ _).2 ⟨rfl, rfl⟩

theorem two_of_onLine {r : List (Coord ℝ)} {c : Coord ℝ} (h : OnLine c r) : 2 ≤ r.length := by
  obtain ⟨s, hs, -⟩ := h
  match r, hs with
  | _ :: _ :: _, _ => simp

theorem onSegment_sub {c s a b : Coord ℝ} (hc : OnSegment c a b) (hs : OnSegment s a c) : OnSegment s a b := by
  obtain ⟨t, t0, t1, tx, ty⟩ := hc
  obtain ⟨u, u0, u1, ux, uy⟩ := hs
  exact ⟨u * t, mul_nonneg u0 t0, mul_le_one₀ u1 t0 t1, by rw [ux, tx]; ring, by rw [uy, ty]; ring⟩

theorem line_one_side (r : List (Coord ℝ)) (hc : Closed2D r) (a : Coord ℝ) (l : List (Coord ℝ)) (h : NoCommon r (a :: l)) :
    ∀ c, OnLine c (a :: l) → PointLocation.locateInRing c r = PointLocation.locateInRing a r := by
  induction l generalizing a with
  | nil => rintro c ⟨s, hs, -⟩; simp [segs] at hs
  | cons b l ih =>
    have edge : ∀ c, OnSegment c a b → PointLocation.locateInRing c r = PointLocation.locateInRing a r := by
      intro c hcs
      refine (C81_connected r hc a c (fun s hs k => h s ⟨k, (a, b), by rw [segs_cons]; simp, ?_⟩)).1.symm
      exact onSegment_sub hcs hs
    rintro c ⟨s, hs, hcs⟩
    rw [segs_cons] at hs
    rcases List.mem_cons.mp hs with rfl | hs
    · exact edge c hcs
    · rw [ih b (fun d k => h d ⟨k.1, ?_⟩) c ⟨s, hs, hcs⟩, edge b ((onSegment_end _ _ _).2 ⟨rfl, rfl⟩)]
      obtain ⟨s', hs', k'⟩ := k.2
      exact ⟨s', by rw [segs_cons]; exact List.mem_cons_of_mem _ hs', k'⟩

/-- C149: a line that has no point in common with a ring is on one side of it. -/
theorem C149_one_side (r l : List (Coord ℝ)) (hc : Closed2D r) (h : NoCommon r l) (c d : Coord ℝ) (hl : OnLine c l) (hd : OnLine d l) :
    PointLocation.locateInRing c r = PointLocation.locateInRing d r ∧
    (PointLocation.locateInRing c r = .ok Location.INTERIOR ∨ PointLocation.locateInRing c r = .ok Location.EXTERIOR) := by
  refine ⟨?_, locate_cases c r hc (fun k => h c ⟨k, hl⟩)⟩
  cases l with
  | nil => obtain ⟨s, hs, -⟩ := hl; simp [segs] at hs
  | cons a l => rw [line_one_side r hc a l h c hl, line_one_side r hc a l h d hd]

theorem nearest_onLine (p : Coord ℝ) (r : List (Coord ℝ)) (h2 : 2 ≤ r.length) :
    ∃ c, OnLine c r ∧ ∀ d, OnLine d r → Spec.dist p c ≤ Spec.dist p d := by
  obtain ⟨d, -, ⟨c, hc, e⟩, k⟩ := C36_chain p r (by intro e; subst e; simp at h2)
  refine ⟨c, ?_, fun w hw => e ▸ k w (Or.inr hw)⟩
  rcases hc with ⟨v, hv, ex⟩ | hc
  · obtain ⟨s, hs, t, t0, t1, tx, ty⟩ := vertex_onRing h2 v hv
    exact ⟨s, hs, t, t0, t1, by rw [ex.1, tx], by rw [ex.2, ty]⟩
  · exact hc

/-- On the way to a nearest point nothing of the line is met. -/
theorem way_to_nearest {p c : Coord ℝ} {r : List (Coord ℝ)} (k : ∀ d, OnLine d r → Spec.dist p c ≤ Spec.dist p d) (s : Coord ℝ)
    (hs : OnSegment s p c) : (s.x = c.x ∧ s.y = c.y) ∨ ∀ w, OnSegment w p s → ¬ OnLine w r := by
  by_cases e : s.x = c.x ∧ s.y = c.y
  · exact Or.inl e
  right
  rintro w hw ho
  obtain ⟨t, t0, t1, tx, ty⟩ := hs
  obtain ⟨u, u0, u1, ux, uy⟩ := hw
  have d1 : Spec.dist p w = (u * t) * Spec.dist p c := by
    refine dist_scaled p c (u * t) (mul_nonneg u0 t0) p w ?_ ?_
    · rw [ux, tx]; ring
    · rw [uy, ty]; ring
  have d2 := k w ho
  have t2 : t < 1 := by
    rcases lt_or_eq_of_le t1 with k | k
    · exact k
    · exact absurd ⟨by rw [tx, k]; ring, by rw [ty, k]; ring⟩ e
  have ut : u * t < 1 := by nlinarith
  have d0 : 0 < Spec.dist p c := by
    refine lt_of_le_of_ne (Spec.dist_nonneg _ _) (fun z => e ?_)
    have z' := (Spec.dist_eq_zero p c).mp z.symm
    exact ⟨by rw [tx, z'.1]; ring, by rw [ty, z'.2]; ring⟩
  rw [d1] at d2
  nlinarith

/-- C149: if a ring without common points with another has one point inside it, it is inside altogether, with all that it surrounds,
and the outer ring is outside of it. Both rings may cross themselves. -/
theorem C149_nested (r s : List (Coord ℝ)) (hr : Closed2D r) (hs : Closed2D s) (h : NoCommon r s) (v : Coord ℝ) (hv : OnLine v s)
    (hi : PointLocation.locateInRing v r = .ok Location.INTERIOR) :
    (∀ c, OnLine c s → PointLocation.locateInRing c r = .ok Location.INTERIOR) ∧
    (∀ c, OnLine c r → PointLocation.locateInRing c s = .ok Location.EXTERIOR) ∧
    (∀ p, PointLocation.locateInRing p s = .ok Location.INTERIOR → PointLocation.locateInRing p r = .ok Location.INTERIOR) := by
  have h1 : ∀ c, OnLine c s → PointLocation.locateInRing c r = .ok Location.INTERIOR := fun c hc =>
    (C149_one_side r s hr h c v hc hv).1.trans hi
  have s2 := two_of_onLine hv
  have r2 : 2 ≤ r.length := by
    by_contra k
    have : segs r = [] := by
      match r, k with
      | [], _ => rfl
      | [_], _ => rfl
      | _ :: _ :: _, k => simp at k
    obtain ⟨x, e, -, -, h4⟩ := C31_locate v r hr
    rw [e, h4 (by rintro ⟨t, ht, -⟩; rw [this] at ht; simp at ht) (by simp [crossings, this])] at hi
    exact int_ne_ext hi.symm
  have h2 : ∀ c, OnLine c r → PointLocation.locateInRing c s = .ok Location.EXTERIOR := by
    intro c hc
    rcases (C149_one_side s r hs (noCommon_symm h) c c hc hc).2 with k | k
    · exfalso
      obtain ⟨_, _, _, _, _, _, a, ha, ea⟩ := box_attained r (by intro e; subst e; simp at r2)
      obtain ⟨_, _, _, _, _, _, b, hb, eb⟩ := box_attained s (by intro e; subst e; simp at s2)
      have ia := (C149_one_side s r hs (noCommon_symm h) a c (vertex_onRing r2 a ha) hc).1.trans k
      have ib := h1 b (vertex_onRing s2 b hb)
      have xa := ((C145_ring a s hs).1 ia).2.2.2
      have xb := ((C145_ring b r hr).1 ib).2.2.2
      rw [eb] at xa
      rw [ea] at xb
      exact absurd xa (not_lt.mpr (le_of_lt xb))
    · exact k
  refine ⟨h1, h2, fun p hp => ?_⟩
  obtain ⟨c, hc, near⟩ := nearest_onLine p s s2
  have miss : ∀ w, OnSegment w p c → ¬ OnLine w r := by
    intro w hw ho
    rcases way_to_nearest near w hw with e | e
    · apply h w
      refine ⟨ho, ?_⟩
      obtain ⟨t, ht, u, u0, u1, ux, uy⟩ := hc
      exact ⟨t, ht, u, u0, u1, by rw [e.1, ux], by rw [e.2, uy]⟩
    · have := (C81_connected s hs p w e).1
      rw [hp, h2 w ho] at this
      exact int_ne_ext this
  rw [(C81_connected r hr p c miss).1]
  exact h1 c hc

/-- C149: rings without common points, each of which has a point outside the other, surround no common point. -/
theorem C149_apart (r s : List (Coord ℝ)) (hr : Closed2D r) (hs : Closed2D s) (h : NoCommon r s) (v w : Coord ℝ) (hv : OnLine v s) (hw : OnLine w r)
    (ev : PointLocation.locateInRing v r = .ok Location.EXTERIOR) (ew : PointLocation.locateInRing w s = .ok Location.EXTERIOR) :
    (∀ c, OnLine c s → PointLocation.locateInRing c r = .ok Location.EXTERIOR) ∧
    (∀ c, OnLine c r → PointLocation.locateInRing c s = .ok Location.EXTERIOR) ∧
    ∀ p, ¬ (PointLocation.isInRing p r = .ok true ∧ PointLocation.isInRing p s = .ok true) := by
  have h1 : ∀ c, OnLine c s → PointLocation.locateInRing c r = .ok Location.EXTERIOR := fun c hc => (C149_one_side r s hr h c v hc hv).1.trans ev
  have h2 : ∀ c, OnLine c r → PointLocation.locateInRing c s = .ok Location.EXTERIOR := fun c hc => (C149_one_side s r hs (noCommon_symm h) c w hc hw).1.trans ew
  refine ⟨h1, h2, ?_⟩
  have notExt : ∀ (p : Coord ℝ) (q : List (Coord ℝ)), PointLocation.isInRing p q = .ok true → PointLocation.locateInRing p q ≠ .ok Location.EXTERIOR := by
    intro p q k e
    unfold PointLocation.isInRing at k
    rw [e, Res.bind_ok] at k
    simp [pure, Except.pure] at k
  rintro p ⟨pr, ps⟩
  have pr := notExt _ _ pr
  have ps := notExt _ _ ps
  have or : ¬ OnLine p r := fun k => ps (h2 p k)
  have os : ¬ OnLine p s := fun k => pr (h1 p k)
  have ir := (locate_cases p r hr or).resolve_right pr
  have is' := (locate_cases p s hs os).resolve_right ps
  obtain ⟨c, hc, near⟩ := nearest_onLine p r (two_of_onLine hw)
  obtain ⟨d, hd, near'⟩ := nearest_onLine p s (two_of_onLine hv)
  have copy : ∀ {x y : Coord ℝ} {l : List (Coord ℝ)}, x.x = y.x ∧ x.y = y.y → OnLine y l → OnLine x l := by
    rintro x y l e ⟨t, ht, u, u0, u1, ux, uy⟩
    exact ⟨t, ht, u, u0, u1, by rw [e.1, ux], by rw [e.2, uy]⟩
  have shorter : ∀ {x y : Coord ℝ}, OnSegment x p y → Spec.dist p x ≤ Spec.dist p y := by
    rintro x y ⟨t, t0, t1, tx, ty⟩
    rw [dist_scaled p y t t0 p x (by rw [tx]; ring) (by rw [ty]; ring)]
    nlinarith [Spec.dist_nonneg p y]
  rcases le_total (Spec.dist p c) (Spec.dist p d) with k | k
  · have miss : ∀ x, OnSegment x p c → ¬ OnLine x s := by
      intro x hx ho
      rcases way_to_nearest near x hx with e | e
      · exact h x ⟨copy e hc, ho⟩
      · have := (C81_connected r hr p x e).1
        rw [ir, h1 x ho] at this
        exact int_ne_ext this
    have := (C81_connected s hs p c miss).1
    rw [is', h2 c hc] at this
    exact int_ne_ext this
  · have miss : ∀ x, OnSegment x p d → ¬ OnLine x r := by
      intro x hx ho
      rcases way_to_nearest near' x hx with e | e
      · exact h x ⟨ho, copy e hd⟩
      · have := (C81_connected s hs p x e).1
        rw [is', h2 x ho] at this
        exact int_ne_ext this
    have := (C81_connected r hr p d miss).1
    rw [ir, h1 d hd] at this
    exact int_ne_ext this

/-- C149: there are three cases: the second ring is inside the first, the first inside the second, or each is outside the other; and
the location of one vertex of each decides which. -/
theorem C149_cases (r s : List (Coord ℝ)) (hr : Closed2D r) (hs : Closed2D s) (h : NoCommon r s) (v w : Coord ℝ) (hv : OnLine v s) (hw : OnLine w r) :
    (PointLocation.locateInRing v r = .ok Location.INTERIOR ∧ PointLocation.locateInRing w s = .ok Location.EXTERIOR) ∨
    (PointLocation.locateInRing v r = .ok Location.EXTERIOR ∧ PointLocation.locateInRing w s = .ok Location.INTERIOR) ∨
    (PointLocation.locateInRing v r = .ok Location.EXTERIOR ∧ PointLocation.locateInRing w s = .ok Location.EXTERIOR) := by
  rcases (C149_one_side r s hr h v v hv hv).2 with a | a
  · exact Or.inl ⟨a, (C149_nested r s hr hs h v hv a).2.1 w hw⟩
  · rcases (C149_one_side s r hs (noCommon_symm h) w w hw hw).2 with b | b
    · exact Or.inr (Or.inl ⟨a, b⟩)
    · exact Or.inr (Or.inr ⟨a, b⟩)

/-- C149: rings in each other are ordered: what is in the inmost is in the outermost. -/
theorem C149_transitive (r s t : List (Coord ℝ)) (hr : Closed2D r) (hs : Closed2D s) (ht : Closed2D t) (h : NoCommon r s) (h' : NoCommon s t)
    (v w : Coord ℝ) (hv : OnLine v s) (hw : OnLine w t) (iv : PointLocation.locateInRing v r = .ok Location.INTERIOR)
    (iw : PointLocation.locateInRing w s = .ok Location.INTERIOR) :
    NoCommon r t ∧ (∀ c, OnLine c t → PointLocation.locateInRing c r = .ok Location.INTERIOR) ∧
    ∀ p, PointLocation.locateInRing p t = .ok Location.INTERIOR → PointLocation.locateInRing p r = .ok Location.INTERIOR := by
  obtain ⟨a1, a2, a3⟩ := C149_nested r s hr hs h v hv iv
  obtain ⟨b1, b2, b3⟩ := C149_nested s t hs ht h' w hw iw
  refine ⟨fun c k => ?_, fun c hc => a3 c (b1 c hc), fun p hp => a3 p (b3 p hp)⟩
  have := a2 c k.1
  rw [b1 c k.2] at this
  exact int_ne_ext this

theorem chain_onLine {l : List (Coord ℝ)} (h2 : 2 ≤ l.length) {c : Coord ℝ} (h : OnChain l c) : OnLine c l := by
  rcases h with ⟨v, hv, ex⟩ | hc
  · obtain ⟨s, hs, t, t0, t1, tx, ty⟩ := vertex_onRing h2 v hv
    exact ⟨s, hs, t, t0, t1, by rw [ex.1, tx], by rw [ex.2, ty]⟩
  · exact hc

/-- A point from which every point of one line is only reached through another line is nearer to the other one. -/
theorem nearer_of_between (p : Coord ℝ) (r s : List (Coord ℝ)) (r2 : 2 ≤ r.length) (s2 : 2 ≤ s.length) (h : NoCommon r s)
    (k : ∀ c, OnLine c r → ∃ w, OnSegment w p c ∧ OnLine w s) :
    ∃ d e, Distance.pointToSegmentString p s = .ok d ∧ Distance.pointToSegmentString p r = .ok e ∧ d < e := by
  obtain ⟨d, d1, -, d3⟩ := C36_chain p s (by intro e; subst e; simp at s2)
  obtain ⟨e, e1, ⟨c, hc, e2⟩, -⟩ := C36_chain p r (by intro e; subst e; simp at r2)
  refine ⟨d, e, d1, e1, ?_⟩
  have hc := chain_onLine r2 hc
  obtain ⟨w, hw, ho⟩ := k c hc
  refine lt_of_le_of_lt (d3 w (Or.inr ho)) ?_
  obtain ⟨t, t0, t1, tx, ty⟩ := hw
  rw [← e2, dist_scaled p c t t0 p w (by rw [tx]; ring) (by rw [ty]; ring)]
  obtain ⟨f, hf, u, u0, u1, ux, uy⟩ := hc
  have ne : ¬ (w.x = c.x ∧ w.y = c.y) := fun z => h w ⟨⟨f, hf, u, u0, u1, by rw [z.1, ux], by rw [z.2, uy]⟩, ho⟩
  have t2 : t < 1 := by
    rcases lt_or_eq_of_le t1 with k | k
    · exact k
    · exact absurd ⟨by rw [tx, k]; ring, by rw [ty, k]; ring⟩ ne
  have d0 : 0 < Spec.dist p c := by
    refine lt_of_le_of_ne (Spec.dist_nonneg _ _) (fun z => ne ?_)
    have z' := (Spec.dist_eq_zero p c).mp z.symm
    exact ⟨by rw [tx, z'.1]; ring, by rw [ty, z'.2]; ring⟩
  nlinarith

/-- C149: points in or on the inner ring are nearer to it than to the outer ring, points on or outside the outer ring are nearer to that. -/
theorem C149_nearer (r s : List (Coord ℝ)) (hr : Closed2D r) (hs : Closed2D s) (h : NoCommon r s) (v : Coord ℝ) (hv : OnLine v s) (r2 : 2 ≤ r.length)
    (hi : PointLocation.locateInRing v r = .ok Location.INTERIOR) (p : Coord ℝ) :
    (PointLocation.locateInRing p s ≠ .ok Location.EXTERIOR →
      ∃ d e, Distance.pointToSegmentString p s = .ok d ∧ Distance.pointToSegmentString p r = .ok e ∧ d < e) ∧
    (PointLocation.locateInRing p r ≠ .ok Location.INTERIOR →
      ∃ d e, Distance.pointToSegmentString p r = .ok d ∧ Distance.pointToSegmentString p s = .ok e ∧ d < e) := by
  obtain ⟨k1, k2, -⟩ := C149_nested r s hr hs h v hv hi
  constructor
  · intro hp
    refine nearer_of_between p r s r2 (two_of_onLine hv) h (fun c hc => ?_)
    by_contra g
    push Not at g
    have := (C81_connected s hs p c g).1
    rw [k2 c hc] at this
    exact hp this
  · intro hp
    refine nearer_of_between p s r (two_of_onLine hv) r2 (noCommon_symm h) (fun c hc => ?_)
    by_contra g
    push Not at g
    have := (C81_connected r hr p c g).1
    rw [k1 c hc] at this
    exact hp this

/-- C149: the intersector decides whether two lines have a point in common. -/
theorem C149_intersector (li : LI ℝ) (r s : List (Coord ℝ)) :
    NoCommon r s ↔ ∀ e ∈ segs r, ∀ f ∈ segs s, (li.compute4 e.1 e.2 f.1 f.2).hasIntersection = false := by
  have k : ∀ e f : Coord ℝ × Coord ℝ, (li.compute4 e.1 e.2 f.1 f.2).hasIntersection = false ↔ ¬ ∃ c, OnSegment c e.1 e.2 ∧ OnSegment c f.1 f.2 := by
    intro e f
    rw [← (C38_none_iff_disjoint li e.1 e.2 f.1 f.2).2, Bool.not_eq_true]
  constructor
  · intro h e he f hf
    rw [k]
    rintro ⟨c, c1, c2⟩
    exact h c ⟨⟨e, he, c1⟩, ⟨f, hf, c2⟩⟩
  · rintro h c ⟨⟨e, he, c1⟩, ⟨f, hf, c2⟩⟩
    exact (k e f).mp (h e he f hf) ⟨c, c1, c2⟩

section doubles
open Verif.Binary64
variable {sq : ℚ → Val} {hy : ℚ → ℚ → Val}

theorem locate_grid (g : ℤ) (h1 : -484 ≤ g) (h2 : g ≤ 400) (l : List (Coord ℚ)) (hl : ∀ c ∈ l, OnGrid g c) (w : Coord ℚ) (hw : OnGrid g w) :
    PointLocation.locateInRing (toB64 w : Coord (B64 sq hy)) (l.map toB64) = PointLocation.locateInRing (realPt w) (l.map realPt) := by
  lift l to List (GridPt g) using hl
  have e := (sim_grid_real (sq := sq) (hy := hy) g h1 h2).locate ⟨w, hw⟩ l
  rw [map_grid, map_grid, e]

theorem noCommon_grid (g : ℤ) (h1 : -484 ≤ g) (h2 : g ≤ 400) (li : LI (B64 sq hy)) (r s : List (Coord ℚ)) (gr : ∀ c ∈ r, OnGrid g c)
    (gs : ∀ c ∈ s, OnGrid g c)
    (h : ∀ e ∈ segs r, ∀ f ∈ segs s, (li.compute4 (toB64 e.1) (toB64 e.2) (toB64 f.1) (toB64 f.2)).hasIntersection = false) :
    NoCommon (r.map realPt) (s.map realPt) := by
  rintro c ⟨⟨e, he, c1⟩, ⟨f, hf, c2⟩⟩
  rw [segs_map_pair, List.mem_map] at he hf
  obtain ⟨e, he, rfl⟩ := he
  obtain ⟨f, hf, rfl⟩ := hf
  have m1 := gr e.1 (List.of_mem_zip he).1
  have m2 := gr e.2 (List.mem_of_mem_tail (List.of_mem_zip he).2)
  have m3 := gs f.1 (List.of_mem_zip hf).1
  have m4 := gs f.2 (List.mem_of_mem_tail (List.of_mem_zip hf).2)
  have := (C66_segments_meet g h1 h2 li e.1 e.2 f.1 f.2 m1 m2 m3 m4).1.mpr ⟨c, c1, c2⟩
  rw [h e he f hf] at this
  exact Bool.false_ne_true this

/-- C149 in doubles, for points on a common grid: if the intersector finds no two edges of two rings to meet and a vertex of the second
is inside the first, all vertices are, and all points of the grid inside the second; the vertices of the first are outside the second. -/
theorem C149_doubles (g : ℤ) (h1 : -484 ≤ g) (h2 : g ≤ 400) (li : LI (B64 sq hy)) (r s : List (Coord ℚ)) (gr : ∀ c ∈ r, OnGrid g c)
    (gs : ∀ c ∈ s, OnGrid g c) (hr : Closed2D r) (hs : Closed2D s) (r2 : 2 ≤ r.length) (s2 : 2 ≤ s.length)
    (h : ∀ e ∈ segs r, ∀ f ∈ segs s, (li.compute4 (toB64 e.1) (toB64 e.2) (toB64 f.1) (toB64 f.2)).hasIntersection = false) (v : Coord ℚ) (hv : v ∈ s)
    (hi : PointLocation.locateInRing (toB64 v : Coord (B64 sq hy)) (r.map toB64) = .ok Location.INTERIOR) :
    (∀ c ∈ s, PointLocation.locateInRing (toB64 c : Coord (B64 sq hy)) (r.map toB64) = .ok Location.INTERIOR) ∧
    (∀ c ∈ r, PointLocation.locateInRing (toB64 c : Coord (B64 sq hy)) (s.map toB64) = .ok Location.EXTERIOR) ∧
    (∀ p, OnGrid g p → PointLocation.locateInRing (toB64 p : Coord (B64 sq hy)) (s.map toB64) = .ok Location.INTERIOR →
      PointLocation.locateInRing (toB64 p : Coord (B64 sq hy)) (r.map toB64) = .ok Location.INTERIOR) := by
  have e1 := locate_grid (sq := sq) (hy := hy) g h1 h2
  have nc := noCommon_grid g h1 h2 li r s gr gs h
  have on : ∀ (l : List (Coord ℚ)), 2 ≤ l.length → ∀ c ∈ l, OnLine (realPt c) (l.map realPt) := fun l hl c hc =>
    vertex_onRing (by simpa using hl) _ (List.mem_map_of_mem hc)
  rw [e1 r gr v (gs v hv)] at hi
  obtain ⟨k1, k2, k3⟩ := C149_nested (r.map realPt) (s.map realPt) (closed2D_real hr) (closed2D_real hs) nc (realPt v) (on s s2 v hv) hi
  refine ⟨fun c hc => ?_, fun c hc => ?_, fun p hp hin => ?_⟩
  · rw [e1 r gr c (gs c hc)]; exact k1 _ (on s s2 c hc)
  · rw [e1 s gs c (gr c hc)]; exact k2 _ (on r r2 c hc)
  · rw [e1 s gs p hp] at hin
    rw [e1 r gr p hp]; exact k3 _ hin

/-- C149 in doubles: if the intersector finds no two edges of two rings to meet, and a vertex of each is outside the other, then no point
of the grid is in or on both. -/
theorem C149_doubles_apart (g : ℤ) (h1 : -484 ≤ g) (h2 : g ≤ 400) (li : LI (B64 sq hy)) (r s : List (Coord ℚ)) (gr : ∀ c ∈ r, OnGrid g c)
    (gs : ∀ c ∈ s, OnGrid g c) (hr : Closed2D r) (hs : Closed2D s) (r2 : 2 ≤ r.length) (s2 : 2 ≤ s.length)
    (h : ∀ e ∈ segs r, ∀ f ∈ segs s, (li.compute4 (toB64 e.1) (toB64 e.2) (toB64 f.1) (toB64 f.2)).hasIntersection = false) (v w : Coord ℚ) (hv : v ∈ s)
    (hw : w ∈ r) (ev : PointLocation.locateInRing (toB64 v : Coord (B64 sq hy)) (r.map toB64) = .ok Location.EXTERIOR)
    (ew : PointLocation.locateInRing (toB64 w : Coord (B64 sq hy)) (s.map toB64) = .ok Location.EXTERIOR) (p : Coord ℚ) (hp : OnGrid g p) :
    ¬ (PointLocation.isInRing (toB64 p : Coord (B64 sq hy)) (r.map toB64) = .ok true ∧
      PointLocation.isInRing (toB64 p : Coord (B64 sq hy)) (s.map toB64) = .ok true) := by
  have e1 := locate_grid (sq := sq) (hy := hy) g h1 h2
  have nc := noCommon_grid g h1 h2 li r s gr gs h
  rw [e1 r gr v (gs v hv)] at ev
  rw [e1 s gs w (gr w hw)] at ew
  have k := (C149_apart (r.map realPt) (s.map realPt) (closed2D_real hr) (closed2D_real hs) nc (realPt v) (realPt w)
    (vertex_onRing (by simpa using s2) _ (List.mem_map_of_mem hv)) (vertex_onRing (by simpa using r2) _ (List.mem_map_of_mem hw)) ev ew).2.2 (realPt p)
  unfold PointLocation.isInRing at k ⊢
  rwa [e1 r gr p hp, e1 s gs p hp]

end doubles

/-- A triangle around another one. -/
noncomputable def outerRing : List (Coord ℝ) := [Coord.xy 0 0, Coord.xy 9 0, Coord.xy 0 9, Coord.xy 0 0]
noncomputable def innerRing : List (Coord ℝ) := [Coord.xy 1 1, Coord.xy 2 1, Coord.xy 1 2, Coord.xy 1 1]

theorem outer_inner : NoCommon outerRing innerRing := by
  rintro c ⟨⟨s, hs, t, t0, t1, tx, ty⟩, ⟨s', hs', u, u0, u1, ux, uy⟩⟩
  simp only [outerRing, segs, List.zip_cons_cons, List.tail_cons, List.zip_nil_right, List.mem_cons, List.not_mem_nil, or_false] at hs
  simp only [innerRing, segs, List.zip_cons_cons, List.tail_cons, List.zip_nil_right, List.mem_cons, List.not_mem_nil, or_false] at hs'
  have h1 : c.x ≤ 0 ∨ c.y ≤ 0 ∨ 9 ≤ c.x + c.y := by
    rcases hs with rfl | rfl | rfl <;> simp only [Coord.xy] at tx ty
    · right; left; linarith
    · right; right; linarith
    · left; linarith
  have h2 : 1 ≤ c.x ∧ 1 ≤ c.y ∧ c.x + c.y ≤ 3 := by
    rcases hs' with rfl | rfl | rfl <;> simp only [Coord.xy] at ux uy <;> refine ⟨?_, ?_, ?_⟩ <;> linarith
  rcases h1 with k | k | k <;> linarith [h2.1, h2.2.1, h2.2.2]

/-- The inner one surrounds only points that the outer one surrounds. -/
example : (∀ c, OnLine c outerRing → PointLocation.locateInRing c innerRing = .ok Location.EXTERIOR) ∧
    (∀ p, PointLocation.locateInRing p innerRing = .ok Location.INTERIOR → PointLocation.locateInRing p outerRing = .ok Location.INTERIOR) := by
  have hv : OnLine (Coord.xy 1 1 : Coord ℝ) innerRing := vertex_onRing (by simp [innerRing]) _ (by simp [innerRing])
  have hn : ¬ OnLine (Coord.xy 1 1 : Coord ℝ) outerRing := fun k => outer_inner _ ⟨k, hv⟩
  refine (C149_nested outerRing innerRing (by simp [Closed2D, outerRing]) (by simp [Closed2D, innerRing]) outer_inner _ hv ?_).2
  obtain ⟨l, e, -, h2, -⟩ := C31_locate (Coord.xy 1 1 : Coord ℝ) outerRing (by simp [Closed2D, outerRing])
  rw [e, h2 hn (by norm_num [crossings, outerRing, segs, CrossesRight, Straddles, xAt, Coord.xy, List.countP_cons])]

section doubles
open Verif.Binary64

/-- The same triangles in doubles: integer points, no edges found to meet, a vertex of the inner one inside the outer one. -/
example (sq : ℚ → Val) (hy : ℚ → ℚ → Val) (li : LI (B64 sq hy)) (r s : List (Coord ℚ))
    (er : r = [Coord.xy 0 0, Coord.xy 9 0, Coord.xy 0 9, Coord.xy 0 0]) (es : s = [Coord.xy 1 1, Coord.xy 2 1, Coord.xy 1 2, Coord.xy 1 1]) :
    ∀ p, OnGrid 0 p → PointLocation.locateInRing (toB64 p : Coord (B64 sq hy)) (s.map toB64) = .ok Location.INTERIOR →
      PointLocation.locateInRing (toB64 p : Coord (B64 sq hy)) (r.map toB64) = .ok Location.INTERIOR := by
  have grid : ∀ a b : ℕ, a ≤ 9 → b ≤ 9 → OnGrid 0 (Coord.xy (a : ℚ) (b : ℚ)) := by
    intro a b ha hb
    refine ⟨a, b, ?_, ?_, by simp [Coord.xy], by simp [Coord.xy]⟩
    · rw [abs_of_nonneg (by positivity)]; norm_cast; omega
    · rw [abs_of_nonneg (by positivity)]; norm_cast; omega
  have gr : ∀ c ∈ r, OnGrid 0 c := by
    subst er
    intro c hc
    simp only [List.mem_cons, List.not_mem_nil, or_false] at hc
    rcases hc with rfl | rfl | rfl | rfl
    · exact_mod_cast grid 0 0 (by norm_num) (by norm_num)
    · exact_mod_cast grid 9 0 (by norm_num) (by norm_num)
    · exact_mod_cast grid 0 9 (by norm_num) (by norm_num)
    · exact_mod_cast grid 0 0 (by norm_num) (by norm_num)
  have gs : ∀ c ∈ s, OnGrid 0 c := by
    subst es
    intro c hc
    simp only [List.mem_cons, List.not_mem_nil, or_false] at hc
    rcases hc with rfl | rfl | rfl | rfl
    · exact_mod_cast grid 1 1 (by norm_num) (by norm_num)
    · exact_mod_cast grid 2 1 (by norm_num) (by norm_num)
    · exact_mod_cast grid 1 2 (by norm_num) (by norm_num)
    · exact_mod_cast grid 1 1 (by norm_num) (by norm_num)
  have mr : r.map realPt = outerRing := by subst er; simp [outerRing, realPt, Coord.xy]; exact Rat.cast_zero
  have ms : s.map realPt = innerRing := by subst es; simp [innerRing, realPt, Coord.xy]; exact Rat.cast_zero
  have hv : OnLine (realPt (Coord.xy 1 1)) innerRing := by
    rw [← ms]; exact vertex_onRing (by simp [es]) _ (List.mem_map_of_mem (by simp [es]))
  have hn : ¬ OnLine (realPt (Coord.xy 1 1)) outerRing := fun k => outer_inner _ ⟨k, hv⟩
  refine (C149_doubles 0 (by norm_num) (by norm_num) li r s gr gs (by simp [Closed2D, er]) (by simp [Closed2D, es]) (by simp [er]) (by simp [es]) ?_
    (Coord.xy 1 1) (by simp [es]) ?_).2.2
  · intro e he f hf
    have m1 := gr e.1 (List.of_mem_zip he).1
    have m2 := gr e.2 (List.mem_of_mem_tail (List.of_mem_zip he).2)
    have m3 := gs f.1 (List.of_mem_zip hf).1
    have m4 := gs f.2 (List.mem_of_mem_tail (List.of_mem_zip hf).2)
    rw [← Bool.not_eq_true, (C66_segments_meet 0 (by norm_num) (by norm_num) li e.1 e.2 f.1 f.2 m1 m2 m3 m4).1]
    rintro ⟨c, c1, c2⟩
    refine outer_inner c ⟨?_, ?_⟩
    · rw [← mr]; exact ⟨_, by rw [segs_map_pair]; exact List.mem_map_of_mem he, c1⟩
    · rw [← ms]; exact ⟨_, by rw [segs_map_pair]; exact List.mem_map_of_mem hf, c2⟩
  · rw [locate_grid 0 (by norm_num) (by norm_num) r gr _ (gs _ (by simp [es])), mr]
    obtain ⟨l, e, -, h2, -⟩ := C31_locate (realPt (Coord.xy 1 1)) outerRing (by simp [Closed2D, outerRing])
    rw [e, h2 hn (by norm_num [crossings, outerRing, segs, CrossesRight, Straddles, xAt, Coord.xy, realPt, List.countP_cons])]

end doubles

end Verif.Props
