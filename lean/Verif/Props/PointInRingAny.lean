import Verif.Props.GridPredicates
import Verif.Props.DDAccuracy

set_option linter.unusedSectionVars false

/-! # C94: point in ring in every arithmetic and for arbitrary doubles -/

namespace Verif.Props
open Flt Verif.Spec Verif.Binary64

section Any
variable {α : Type} [Flt α]

theorem countSegment_p (c : RayCounter α) (a b : Coord α) : (c.countSegment a b).p = c.p := by
  unfold RayCounter.countSegment
  dsimp only
  split_ifs <;> rfl

theorem step_p (c : RayCounter α) (a b : Coord α) : (c.step a b).p = c.p := by
  unfold RayCounter.step
  split_ifs
  · rfl
  · exact countSegment_p c a b

theorem fold_p (xs : List (Coord α × Coord α)) (c : RayCounter α) : (xs.foldl (fun c s => c.step s.2 s.1) c).p = c.p := by
  induction xs generalizing c with
  | nil => rfl
  | cons s xs ih => rw [List.foldl_cons, ih, step_p]

theorem fold_stay (xs : List (Coord α × Coord α)) (c : RayCounter α) (h : c.onSegment = true) :
    xs.foldl (fun c s => c.step s.2 s.1) c = c := by
  induction xs with
  | nil => rfl
  | cons s xs ih => rw [List.foldl_cons]; unfold RayCounter.step; rw [if_pos h]; exact ih

/-- A segment that reports the point ends the count. -/
theorem fold_hit (p : Coord α) (s : Coord α × Coord α) (hs : ∀ c : RayCounter α, c.p = p → (c.countSegment s.2 s.1).onSegment = true)
    (xs : List (Coord α × Coord α)) (h : s ∈ xs) (c : RayCounter α) (hc : c.p = p) :
    (xs.foldl (fun c s => c.step s.2 s.1) c).onSegment = true := by
  induction xs generalizing c with
  | nil => simp at h
  | cons t xs ih =>
    rw [List.foldl_cons]
    rcases List.mem_cons.mp h with rfl | h
    · have : (c.step s.2 s.1).onSegment = true := by
        unfold RayCounter.step
        split_ifs with h1
        · exact h1
        · exact hs c hc
      rw [fold_stay _ _ this]; exact this
    · exact ih h _ (by rw [step_p, hc])

/-- Segments that change nothing. -/
theorem fold_none (p : Coord α) (xs : List (Coord α × Coord α))
    (hs : ∀ s ∈ xs, ∀ c : RayCounter α, c.p = p → c.countSegment s.2 s.1 = c) (c : RayCounter α) (hc : c.p = p) :
    xs.foldl (fun c s => c.step s.2 s.1) c = c := by
  induction xs generalizing c with
  | nil => rfl
  | cons t xs ih =>
    rw [List.foldl_cons]
    have : c.step t.2 t.1 = c := by
      unfold RayCounter.step
      split_ifs
      · rfl
      · exact hs t (by simp) c hc
    rw [this]
    exact ih (fun s h => hs s (by simp [h])) c hc

/-- C94: every arithmetic, NaN included: the answer is one of the three locations, never a panic; a ring without segments has no inside; `is_in_ring` is
the answer other than EXTERIOR. -/
theorem C94_total (p : Coord α) (ring : List (Coord α)) :
    (∃ l, PointLocation.locateInRing p ring = .ok l ∧ (l = Location.INTERIOR ∨ l = Location.BOUNDARY ∨ l = Location.EXTERIOR) ∧
      PointLocation.isInRing p ring = .ok (decide (l ≠ Location.EXTERIOR))) ∧
    (ring.length < 2 → PointLocation.locateInRing p ring = .ok Location.EXTERIOR) ∧
    (∃ b, PointLocation.isOnLine p ring = .ok b) := by
  have e : PointLocation.locateInRing p ring = _ := locate_fold_any p ring
  refine ⟨⟨_, e, ?_, ?_⟩, fun h => ?_, ⟨_, isOnLine_any p ring⟩⟩
  · unfold RayCounter.getLocation
    split_ifs <;> simp
  · unfold PointLocation.isInRing; rw [e]; rfl
  · rw [e]
    have : segs ring = [] := by
      rw [← List.length_eq_zero_iff, length_segs]; omega
    rw [this]; rfl

variable [FltOrd α]

theorem lt_not_eq {a b : α} (h : (a <. b) = true) : (a ==. b) = false ∧ (b ==. a) = false := by
  obtain ⟨h1, h2, h3⟩ := (FltOrd.lt_iff a b).mp h
  constructor
  · rw [← Bool.not_eq_true, FltOrd.eq_iff]; exact fun h => h3.ne h.2.2
  · rw [← Bool.not_eq_true, FltOrd.eq_iff]; exact fun h => h3.ne h.2.2.symm

theorem lt_not_ge {a b : α} (h : (a <. b) = true) : (b ≤. a) = false ∧ (b <. a) = false := by
  obtain ⟨h1, h2, h3⟩ := (FltOrd.lt_iff a b).mp h
  constructor
  · rw [← Bool.not_eq_true, FltOrd.le_iff]; exact fun h => not_le.mpr h3 h.2.2
  · rw [← Bool.not_eq_true, FltOrd.lt_iff]; exact fun h => lt_asymm h3 h.2.2

theorem mem_of_segs {A : Type} {l : List A} {s : A × A} (h : s ∈ segs l) : s.1 ∈ l ∧ s.2 ∈ l := by
  unfold segs at h
  obtain ⟨a, b⟩ := s
  exact ⟨(List.of_mem_zip h).1, List.mem_of_mem_tail (List.of_mem_zip h).2⟩

/-- C94: every arithmetic: a point to the right of all points of the ring, above them or below them is outside. -/
theorem C94_outside (p : Coord α) (ring : List (Coord α))
    (h : (∀ v ∈ ring, (v.x <. p.x) = true) ∨ (∀ v ∈ ring, (v.y <. p.y) = true) ∨ (∀ v ∈ ring, (p.y <. v.y) = true)) :
    PointLocation.locateInRing p ring = .ok Location.EXTERIOR ∧ PointLocation.isInRing p ring = .ok false := by
  have key : PointLocation.locateInRing p ring = .ok Location.EXTERIOR := by
    refine (locate_fold_any p ring).trans ?_
    rw [fold_none p (segs ring) ?_ (RayCounter.new p) rfl]
    · rfl
    · rintro s hs c rfl
      obtain ⟨m1, m2⟩ := mem_of_segs hs
      unfold RayCounter.countSegment
      rcases h with h | h | h
      · simp [h _ m1, h _ m2]
      · have a := h _ m1
        have b := h _ m2
        simp [lt_not_eq a, lt_not_eq b, lt_not_ge a, lt_not_ge b]
      · have a := h _ m1
        have b := h _ m2
        simp [lt_not_eq a, lt_not_eq b, lt_not_ge a, lt_not_ge b]
  exact ⟨key, by unfold PointLocation.isInRing; rw [key]; rfl⟩

/-- C94: every arithmetic: a point equal to a vertex is on the boundary, the last vertex excepted, which counts as the first one of a closed ring. -/
theorem C94_vertex (p : Coord α) (ring : List (Coord α)) (i : Nat) (hi : i + 1 < ring.length) (h : p.equals2D (ring[i]) = true) :
    PointLocation.locateInRing p ring = .ok Location.BOUNDARY := by
  have hk : i < (segs ring).length := by rw [length_segs]; omega
  refine (locate_fold_any p ring).trans ?_
  have := fold_hit p (segs ring)[i] (by
    rintro c rfl
    rw [getElem_segs]
    unfold Coord.equals2D at h
    have hx : (c.p.x ==. ring[i].x) = true := by
      by_contra hc; simp [hc] at h
    have hy : (c.p.y ==. ring[i].y) = true := by
      by_contra hc; simp [hc] at h
    unfold RayCounter.countSegment
    have : (ring[i].x <. c.p.x) = false := by
      rw [← Bool.not_eq_true, FltOrd.lt_iff]
      exact fun h => h.2.2.ne ((FltOrd.eq_iff _ _).mp hx).2.2.symm
    simp [hx, hy, this]) (segs ring) (List.getElem_mem hk) (RayCounter.new p) rfl
  unfold RayCounter.getLocation
  rw [if_pos this]

/-- C94: every arithmetic: a point whose y is not a number is outside. -/
theorem C94_nan_y (p : Coord α) (ring : List (Coord α)) (h : isNaN p.y = true) :
    PointLocation.locateInRing p ring = .ok Location.EXTERIOR := by
  refine (locate_fold_any p ring).trans ?_
  rw [fold_none p (segs ring) ?_ (RayCounter.new p) rfl]
  · rfl
  · rintro s hs c rfl
    have e1 : ∀ a, (c.p.y ==. a) = false := fun a => by rw [← Bool.not_eq_true, FltOrd.eq_iff, h]; simp
    have e2 : ∀ a, (a ==. c.p.y) = false := fun a => by rw [← Bool.not_eq_true, FltOrd.eq_iff, h]; simp
    have e3 : ∀ a, (c.p.y <. a) = false := fun a => by rw [← Bool.not_eq_true, FltOrd.lt_iff, h]; simp
    unfold RayCounter.countSegment
    simp [e1, e2, e3]

end Any

/-- One round in two arithmetics that agree on the comparisons and, where it is taken, on the orientation. -/
theorem step_sim {α β : Type} [Flt α] [Flt β] (n : Int) (o : Bool) (p a b : Coord α) (p' a' b' : Coord β)
    (h1 : (a.x <. p.x) = (a'.x <. p'.x)) (h2 : (b.x <. p.x) = (b'.x <. p'.x))
    (h3 : (p.x ==. b.x) = (p'.x ==. b'.x)) (h4 : (p.y ==. b.y) = (p'.y ==. b'.y))
    (h5 : (a.y ==. p.y) = (a'.y ==. p'.y)) (h6 : (b.y ==. p.y) = (b'.y ==. p'.y))
    (h7 : (b.x <. a.x) = (b'.x <. a'.x)) (h8 : (a.x ≤. p.x) = (a'.x ≤. p'.x)) (h9 : (b.x ≤. p.x) = (b'.x ≤. p'.x))
    (h10 : (p.x ≤. a.x) = (p'.x ≤. a'.x)) (h11 : (p.x ≤. b.x) = (p'.x ≤. b'.x))
    (h12 : (p.y <. a.y) = (p'.y <. a'.y)) (h13 : (p.y <. b.y) = (p'.y <. b'.y))
    (h14 : (a.y ≤. p.y) = (a'.y ≤. p'.y)) (h15 : (b.y ≤. p.y) = (b'.y ≤. p'.y)) (h16 : (b.y <. a.y) = (b'.y <. a'.y))
    (h : (((p'.y <. a'.y) && (b'.y ≤. p'.y)) || ((p'.y <. b'.y) && (a'.y ≤. p'.y))) = true → ((a'.x <. p'.x) && (b'.x <. p'.x)) = false →
      Orientation.index a b p = Orientation.index a' b' p') :
    ((⟨p, n, o⟩ : RayCounter α).step a b).count = ((⟨p', n, o⟩ : RayCounter β).step a' b').count ∧
    ((⟨p, n, o⟩ : RayCounter α).step a b).onSegment = ((⟨p', n, o⟩ : RayCounter β).step a' b').onSegment := by
  unfold RayCounter.step RayCounter.countSegment
  dsimp only
  simp only [h1, h2, h3, h4, h5, h6, h7, h12, h13, h14, h15, h16]
  cases k1 : ((a'.x <. p'.x) && (b'.x <. p'.x)) with
  | true => simp only [if_true]; split_ifs <;> exact ⟨rfl, rfl⟩
  | false =>
    cases k2 : (((p'.y <. a'.y) && (b'.y ≤. p'.y)) || ((p'.y <. b'.y) && (a'.y ≤. p'.y))) with
    | true =>
      rw [h k2 k1]
      cases (b'.x <. a'.x) <;> simp only [if_true, if_false, Bool.false_eq_true, h8, h9, h10, h11] <;> split_ifs <;> exact ⟨rfl, rfl⟩
    | false =>
      cases (b'.x <. a'.x) <;> simp only [if_true, if_false, Bool.false_eq_true, h8, h9, h10, h11] <;> split_ifs <;> exact ⟨rfl, rfl⟩

section Fl
variable {r : Rounding}

theorem filter_nan (a b c d e : Fl r) : CGDD.filter a b c d (Fl.nan : Fl r) e = 0 := by
  have h1 : ∀ x y : Fl r, ((x -. Fl.nan) *. y) = Fl.nan := by
    intro x y
    show Fl.mul (Fl.add x (Fl.neg Fl.nan)) y = Fl.nan
    cases x <;> rfl
  have h2 : ∀ x : Fl r, x -. Fl.nan = Fl.nan := by
    intro x
    show Fl.add x (Fl.neg Fl.nan) = Fl.nan
    cases x <;> rfl
  have h3 : ∀ x : Fl r, x *. Fl.nan = Fl.nan := by
    intro x
    show Fl.mul x Fl.nan = Fl.nan
    cases x <;> rfl
  have h4 : ∀ x : Fl r, (x <. Fl.nan) = false := by intro x; cases x <;> rfl
  have h5 : ∀ x : Fl r, (Fl.nan <. x) = false := by intro x; cases x <;> rfl
  unfold CGDD.filter CGDD.signum
  dsimp only
  rw [h1, h2, h3, h2]
  simp [h4, h5]

/-- C94: a point whose x is not a number is never inside, but it is reported on the boundary exactly if the ring rises or falls through its height. -/
theorem C94_nan_x (p : Coord (Fl r)) (hp : p.x = Fl.nan) (ring : List (Coord (Fl r))) :
    ((∃ s ∈ segs ring, ((p.y <. s.2.y) = true ∧ (s.1.y ≤. p.y) = true) ∨ ((p.y <. s.1.y) = true ∧ (s.2.y ≤. p.y) = true)) →
      PointLocation.locateInRing p ring = .ok Location.BOUNDARY) ∧
    ((¬ ∃ s ∈ segs ring, ((p.y <. s.2.y) = true ∧ (s.1.y ≤. p.y) = true) ∨ ((p.y <. s.1.y) = true ∧ (s.2.y ≤. p.y) = true)) →
      PointLocation.locateInRing p ring = .ok Location.EXTERIOR) ∧
    PointLocation.isOnLine p ring = .ok false := by
  have n1 : ∀ x : Fl r, (x <. p.x) = false := by intro x; rw [hp]; cases x <;> rfl
  have n2 : ∀ x : Fl r, (p.x ==. x) = false := by intro x; rw [hp]; cases x <;> rfl
  have n3 : ∀ x : Fl r, (x ≤. p.x) = false := by intro x; rw [hp]; cases x <;> rfl
  have idx : ∀ a b : Coord (Fl r), Orientation.index a b p = 0 := by
    intro a b
    unfold Orientation.index CGDD.index CGDD.indexXY
    rw [hp, filter_nan]
    rfl
  refine ⟨?_, ?_, ?_⟩
  · rintro ⟨s, hs, h⟩
    refine (locate_fold_any p ring).trans ?_
    have := fold_hit p s (by
      rintro c rfl
      unfold RayCounter.countSegment
      have hne : ((s.2.y ==. c.p.y) && (s.1.y ==. c.p.y)) = false := by
        rcases h with h | h
        · rw [(lt_not_eq h.1).2]; rfl
        · rw [(lt_not_eq h.1).2, Bool.and_false]
      have hst : (((c.p.y <. s.2.y) && (s.1.y ≤. c.p.y)) || ((c.p.y <. s.1.y) && (s.2.y ≤. c.p.y))) = true := by
        rcases h with h | h <;> simp [h.1, h.2]
      simp [n1, n2, hne, hst, idx, Orientation.COLLINEAR]) (segs ring) hs (RayCounter.new p) rfl
    unfold RayCounter.getLocation
    rw [if_pos this]
  · intro h
    refine (locate_fold_any p ring).trans ?_
    rw [fold_none p (segs ring) ?_ (RayCounter.new p) rfl]
    · rfl
    · rintro s hs c rfl
      unfold RayCounter.countSegment
      have hst : (((c.p.y <. s.2.y) && (s.1.y ≤. c.p.y)) || ((c.p.y <. s.1.y) && (s.2.y ≤. c.p.y))) = false := by
        rw [← Bool.not_eq_true]
        intro hh
        simp only [Bool.or_eq_true, Bool.and_eq_true] at hh
        exact h ⟨s, hs, hh⟩
      simp [n1, n2, n3, hst]
  · rw [isOnLine_any]
    congr 1
    rw [← Bool.not_eq_true, List.any_eq_true]
    rintro ⟨s, -, h⟩
    unfold PointLocation.isOnSegment Env.intersects3 at h
    simp [n3] at h
end Fl

section Doubles
variable {sq : ℚ → Val} {hy : ℚ → ℚ → Val}

/-- The two products the orientation of `a`, `b`, `p` is the difference of do not underflow, and they are not nearly equal: the determinant is at least
`2^-49` of the sum of their sizes. -/
structure Clear (a b p : Coord ℚ) : Prop where
  left : Tame (a.x - p.x) (b.y - p.y)
  right : Tame (a.y - p.y) (b.x - p.x)
  det : (|(a.x - p.x) * (b.y - p.y)| + |(a.y - p.y) * (b.x - p.x)|) / 2 ^ 49 ≤ |det a b p|

theorem Clear.index {a b p : Coord ℚ} (ha : IsModerate a) (hb : IsModerate b) (hp : IsModerate p) (h : Clear a b p) :
    Orientation.index (toB64 a : Coord (B64 sq hy)) (toB64 b) (toB64 p) = Orientation.index a b p := by
  obtain ⟨l, hl⟩ := safe_general ha.pt.x hp.pt.x hb.pt.y hp.pt.y ha.bx hp.bx hb.by' hp.by' h.left
  obtain ⟨m, hm⟩ := safe_general ha.pt.y hp.pt.y hb.pt.x hp.pt.x ha.by' hp.by' hb.bx hp.bx h.right
  have bound : ∀ {x x' y y' w : ℚ}, |x| ≤ 2 ^ (400 : ℤ) → |x'| ≤ 2 ^ (400 : ℤ) → |y| ≤ 2 ^ (400 : ℤ) → |y'| ≤ 2 ^ (400 : ℤ) →
      SafeProduct x x' y y' w → |w| ≤ 2 ^ (802 : ℤ) := by
    rintro x x' y y' w b1 b2 b3 b4 ⟨u, v, h1, h2, h3, -⟩
    rw [rnd_fin_iff] at h1 h2 h3
    rw [← h3.1]
    apply near_le_pow (by norm_num)
    rw [abs_mul, show (802 : ℤ) = 401 + 401 by norm_num, two_add, ← h1.1, ← h2.1]
    exact mul_le_mul (near_le_pow (by norm_num) (diff_bound b1 b2)) (near_le_pow (by norm_num) (diff_bound b3 b4)) (abs_nonneg _) (two_pos _).le
  have hs : |l| + |m| ≤ 2 ^ 1023 := by
    have e : (2 : ℚ) ^ (802 : ℤ) + 2 ^ (802 : ℤ) ≤ 2 ^ 1023 := by decide +kernel
    exact le_trans (add_le_add (bound ha.bx hp.bx hb.by' hp.by' hl) (bound ha.by' hp.by' hb.bx hp.bx hm)) e
  rw [C30_index a b p ha.pt hb.pt hp.pt hl hm hs h.det, C29_index_is_sign]

/-- The same location in both arithmetics, if the indices taken agree. -/
theorem locate_sim (p : Coord ℚ) (ring : List (Coord ℚ))
    (h : ∀ s ∈ segs ring, Straddles p s.1 s.2 → ¬ (s.1.x < p.x ∧ s.2.x < p.x) →
      Orientation.index (toB64 s.2 : Coord (B64 sq hy)) (toB64 s.1) (toB64 p) = Orientation.index s.2 s.1 p) :
    PointLocation.locateInRing (toB64 p : Coord (B64 sq hy)) (ring.map toB64) = PointLocation.locateInRing p ring := by
  unfold PointLocation.locateInRing
  rw [locate_fold_any, locate_fold_any, segs_prod_map, List.foldl_map]
  have key : ∀ (xs : List (Coord ℚ × Coord ℚ)), (∀ s ∈ xs, s ∈ segs ring) → ∀ (c : RayCounter (B64 sq hy)) (d : RayCounter ℚ),
      c.p = toB64 p → d.p = p → c.count = d.count → c.onSegment = d.onSegment →
      (xs.foldl (fun c t => c.step (toB64 t.2) (toB64 t.1)) c).count = (xs.foldl (fun c t => c.step t.2 t.1) d).count ∧
      (xs.foldl (fun c t => c.step (toB64 t.2) (toB64 t.1)) c).onSegment = (xs.foldl (fun c t => c.step t.2 t.1) d).onSegment := by
    intro xs
    induction xs with
    | nil => intro _ c d _ _ h3 h4; exact ⟨h3, h4⟩
    | cons s xs ih =>
      intro hm c d h1 h2 h3 h4
      rw [List.foldl_cons, List.foldl_cons]
      have hs := h s (hm s (by simp))
      have : (c.step (toB64 s.2) (toB64 s.1)).count = (d.step s.2 s.1).count ∧
          (c.step (toB64 s.2) (toB64 s.1)).onSegment = (d.step s.2 s.1).onSegment := by
        obtain ⟨cp, cn, co⟩ := c
        obtain ⟨dp, dn, d'⟩ := d
        dsimp only at h1 h2 h3 h4
        subst h1 h2 h3 h4
        refine step_sim cn co _ _ _ _ _ _ rfl rfl rfl rfl rfl rfl rfl rfl rfl rfl rfl rfl rfl rfl rfl rfl fun k1 k2 => hs ?_ ?_
        · simp only [exact_lt, exact_le, Bool.or_eq_true, Bool.and_eq_true, decide_eq_true_eq] at k1
          unfold Straddles
          tauto
        · intro hh
          simp only [exact_lt, hh.1, hh.2, decide_true, Bool.and_self] at k2
          exact absurd k2.symm Bool.false_ne_true
      exact ih (fun t ht => hm t (by simp [ht])) _ _ (by rw [step_p, h1]) (by rw [step_p, h2]) this.1 this.2
  obtain ⟨k1, k2⟩ := key (segs ring) (fun _ h => h) (RayCounter.new (toB64 p)) (RayCounter.new p) rfl rfl rfl rfl
  have gl : ∀ (c : RayCounter (B64 sq hy)) (d : RayCounter ℚ), c.count = d.count → c.onSegment = d.onSegment → c.getLocation = d.getLocation := by
    intro c d h1 h2; unfold RayCounter.getLocation; rw [h1, h2]
  exact congrArg Except.ok (gl _ _ k1 k2)

/-- C94: any doubles up to `2^400`: if the point is clear of every segment that its horizontal line meets and that is not to its left, the
answer is the exact one. -/
theorem C94_doubles (p : Coord ℚ) (ring : List (Coord ℚ)) (hp : IsModerate p) (hr : ∀ v ∈ ring, IsModerate v)
    (h : ∀ s ∈ segs ring, Straddles p s.1 s.2 → ¬ (s.1.x < p.x ∧ s.2.x < p.x) → Clear s.2 s.1 p) (hc : Closed2D ring) :
    ∃ loc, PointLocation.locateInRing (toB64 p : Coord (B64 sq hy)) (ring.map toB64) = .ok loc ∧
      (loc = Location.BOUNDARY ↔ OnLine p ring) ∧
      (loc = Location.INTERIOR ↔ ¬ OnLine p ring ∧ crossings p ring % 2 = 1) ∧
      (loc = Location.EXTERIOR ↔ ¬ OnLine p ring ∧ crossings p ring % 2 = 0) := by
  rw [locate_sim p ring (fun s hs h1 h2 => (h s hs h1 h2).index (hr _ (mem_of_segs hs).2) (hr _ (mem_of_segs hs).1) hp)]
  obtain ⟨loc, e, l1, l2, l3⟩ := C31_locate p ring hc
  refine ⟨loc, e, ?_⟩
  have d1 : Location.BOUNDARY ≠ Location.INTERIOR := by decide
  have d2 : Location.BOUNDARY ≠ Location.EXTERIOR := by decide
  have d3 : Location.INTERIOR ≠ Location.EXTERIOR := by decide
  by_cases ho : OnLine p ring
  · simp only [l1 ho, ho, not_true, false_and, iff_false, d1, d2, not_false_eq_true, and_self]
  · rcases Nat.mod_two_eq_zero_or_one (crossings p ring) with h0 | h0
    · simp only [l3 ho h0, ho, h0, d2.symm, d3.symm]; simp
    · simp only [l2 ho h0, ho, h0, d1.symm, d3]; simp

theorem clear_left {a b p : Coord ℚ} (ha : p.x < a.x) (hb : p.x < b.x) (hs : Straddles p a b)
    (h1 : Tame (a.x - p.x) (b.y - p.y)) (h2 : Tame (a.y - p.y) (b.x - p.x)) : Clear a b p := by
  refine ⟨h1, h2, ?_⟩
  have e : det a b p = (a.x - p.x) * (b.y - p.y) - (a.y - p.y) * (b.x - p.x) := det_left_right a b p
  have key : |(a.x - p.x) * (b.y - p.y)| + |(a.y - p.y) * (b.x - p.x)| = |det a b p| := by
    rw [e]
    have xa : 0 < a.x - p.x := by linarith
    have xb : 0 < b.x - p.x := by linarith
    rcases hs with ⟨k1, k2⟩ | ⟨k1, k2⟩
    · have u : (a.x - p.x) * (b.y - p.y) ≤ 0 := mul_nonpos_of_nonneg_of_nonpos xa.le (by linarith)
      have v : 0 ≤ (a.y - p.y) * (b.x - p.x) := mul_nonneg (by linarith) xb.le
      rw [abs_of_nonpos u, abs_of_nonneg v, abs_of_nonpos (by linarith)]; ring
    · have u : 0 ≤ (a.x - p.x) * (b.y - p.y) := mul_nonneg xa.le (by linarith)
      have v : (a.y - p.y) * (b.x - p.x) ≤ 0 := mul_nonpos_of_nonpos_of_nonneg (by linarith) xb.le
      rw [abs_of_nonneg u, abs_of_nonpos v, abs_of_nonneg (by linarith)]; ring
  rw [key]
  have := abs_nonneg (det a b p)
  rw [div_le_iff₀ (by positivity)]
  nlinarith

theorem exterior_left (p : Coord ℚ) (ring : List (Coord ℚ)) (hc : Closed2D ring) (h : ∀ v ∈ ring, p.x < v.x) :
    ¬ OnLine p ring ∧ crossings p ring % 2 = 0 := by
  have hon : ¬ OnLine p ring := by
    rintro ⟨s, hs, t, h1, h2, h3, -⟩
    obtain ⟨m1, m2⟩ := mem_of_segs hs
    have a1 := mul_nonneg (sub_nonneg.mpr h2) (sub_pos.mpr (h _ m1)).le
    have a2 := mul_nonneg h1 (sub_pos.mpr (h _ m2)).le
    rcases eq_or_lt_of_le h1 with h0 | h0
    · rw [← h0] at h3
      linarith [h _ m1]
    · have a3 := mul_pos h0 (sub_pos.mpr (h _ m2))
      linarith
  refine ⟨hon, ?_⟩
  rw [C31_left_ray p ring hc hon]
  have : crossingsLeft p ring = 0 := by
    unfold crossingsLeft
    rw [List.countP_eq_zero]
    intro s hs
    obtain ⟨m1, m2⟩ := mem_of_segs hs
    have a1 := h _ m1
    have a2 := h _ m2
    simp only [decide_eq_true_eq]
    rintro ⟨hst, hx⟩
    unfold xAt at hx
    obtain ⟨t, ht⟩ : ∃ t, t = (p.y - s.1.y) / (s.2.y - s.1.y) := ⟨_, rfl⟩
    rw [← ht] at hx
    have t01 : 0 ≤ t ∧ t ≤ 1 := by
      rw [ht]
      rcases hst with ⟨k1, k2⟩ | ⟨k1, k2⟩
      · exact ⟨div_nonneg_of_nonpos (by linarith) (by linarith), (div_le_one_of_neg (by linarith)).mpr (by linarith)⟩
      · exact ⟨div_nonneg (by linarith) (by linarith), (div_le_one (by linarith)).mpr (by linarith)⟩
    have b1 := mul_nonneg (sub_nonneg.mpr t01.2) (sub_pos.mpr a1).le
    have b2 := mul_nonneg t01.1 (sub_pos.mpr a2).le
    linarith
  rw [this]

/-- C94: any doubles up to `2^400`: a point to the left of all points of a closed ring is outside as well, unless a product underflows. -/
theorem C94_left (p : Coord ℚ) (ring : List (Coord ℚ)) (hp : IsModerate p) (hr : ∀ v ∈ ring, IsModerate v) (hc : Closed2D ring)
    (hx : ∀ v ∈ ring, p.x < v.x)
    (h : ∀ s ∈ segs ring, Tame (s.2.x - p.x) (s.1.y - p.y) ∧ Tame (s.2.y - p.y) (s.1.x - p.x)) :
    PointLocation.locateInRing (toB64 p : Coord (B64 sq hy)) (ring.map toB64) = .ok Location.EXTERIOR := by
  obtain ⟨loc, e, -, -, l3⟩ := C94_doubles (sq := sq) (hy := hy) p ring hp hr (fun s hs hst _ => clear_left (hx _ (mem_of_segs hs).2) (hx _ (mem_of_segs hs).1)
    (by unfold Straddles at hst ⊢; tauto) (h s hs).1 (h s hs).2) hc
  rw [e, l3.mpr (exterior_left p ring hc hx)]

/-- C94: with underflow it is not: a point strictly to the left of all points of a closed ring is reported on the boundary. -/
theorem C94_left_underflow :
    let e : ℚ := 1 / 2 ^ 600
    let ring : List (Coord ℚ) := [Coord.xy e (-e), Coord.xy (2 * e) 0, Coord.xy e e, Coord.xy e (-e)]
    (∀ v ∈ ring, (0 : ℚ) < v.x) ∧
    PointLocation.locateInRing (toB64 (Coord.xy 0 0) : Coord X64) (ring.map toB64) = .ok Location.BOUNDARY := by
  refine ⟨by decide +kernel, by decide +kernel⟩

/-- C94: a point too near to an edge is reported on the boundary although it is inside, with small coordinates and no underflow. -/
theorem C94_near_edge : ∃ a b c p : Coord ℚ, IsModerate a ∧ IsModerate b ∧ IsModerate c ∧ IsModerate p ∧
    (∀ s ∈ segs [a, b, c, a], Tame (s.2.x - p.x) (s.1.y - p.y) ∧ Tame (s.2.y - p.y) (s.1.x - p.x)) ∧
    PointLocation.locateInRing p [a, b, c, a] = .ok Location.INTERIOR ∧
    PointLocation.locateInRing (toB64 p : Coord X64) ([a, b, c, a].map toB64) = .ok Location.BOUNDARY := by
  refine ⟨Coord.xy (-1 / 2 ^ 80) 0, Coord.xy 13929850858 12103357686, Coord.xy 13929850858 0, Coord.xy 6964925429 6051678843,
    ⟨⟨f64_of (by decide +kernel), f64_of (by decide +kernel)⟩, by decide +kernel, by decide +kernel⟩,
    ⟨⟨f64_of (by decide +kernel), f64_of (by decide +kernel)⟩, by decide +kernel, by decide +kernel⟩,
    ⟨⟨f64_of (by decide +kernel), f64_of (by decide +kernel)⟩, by decide +kernel, by decide +kernel⟩,
    ⟨⟨f64_of (by decide +kernel), f64_of (by decide +kernel)⟩, by decide +kernel, by decide +kernel⟩, ?_, by decide +kernel, by decide +kernel⟩
  unfold Tame
  decide +kernel

/-- The hypotheses of `C94_doubles` and `C94_left` are met by doubles that are not on a common grid. -/
example : let ring : List (Coord ℚ) := [Coord.xy 0 0, Coord.xy 3 tenth, Coord.xy 2 7, Coord.xy 0 0]
    let p : Coord ℚ := Coord.xy 1 tenth
    IsModerate p ∧ (∀ v ∈ ring, IsModerate v) ∧ (∀ s ∈ segs ring, Straddles p s.1 s.2 → ¬ (s.1.x < p.x ∧ s.2.x < p.x) → Clear s.2 s.1 p) ∧
    crossings p ring = 1 := by
  have t : IsF64 tenth := rnd_f64 tenth_f64
  have c : ∀ {a b p : Coord ℚ}, (Tame (a.x - p.x) (b.y - p.y) ∧ Tame (a.y - p.y) (b.x - p.x) ∧
    (|(a.x - p.x) * (b.y - p.y)| + |(a.y - p.y) * (b.x - p.x)|) / 2 ^ 49 ≤ |Spec.det a b p|) → Clear a b p := fun h => ⟨h.1, h.2.1, h.2.2⟩
  refine ⟨⟨⟨f64_of (by decide +kernel), t⟩, by decide +kernel, by decide +kernel⟩, ?_, fun s hs h1 h2 => c ?_, by decide +kernel⟩
  · intro v hv
    simp only [List.mem_cons, List.not_mem_nil, or_false] at hv
    rcases hv with rfl | rfl | rfl | rfl
    · exact ⟨⟨f64_of (by decide +kernel), f64_of (by decide +kernel)⟩, by decide +kernel, by decide +kernel⟩
    · exact ⟨⟨f64_of (by decide +kernel), t⟩, by decide +kernel, by decide +kernel⟩
    · exact ⟨⟨f64_of (by decide +kernel), f64_of (by decide +kernel)⟩, by decide +kernel, by decide +kernel⟩
    · exact ⟨⟨f64_of (by decide +kernel), f64_of (by decide +kernel)⟩, by decide +kernel, by decide +kernel⟩
  · revert s
    unfold Tame
    decide +kernel

/-- A point with x not a number at the height of a triangle of doubles. -/
example : PointLocation.locateInRing (⟨Fl.nan, Fl.fin 1, Fl.nan, Fl.nan⟩ : Coord X64)
    ([Coord.xy 0 0, Coord.xy 3 0, Coord.xy 0 3, Coord.xy 0 0].map toB64) = .ok Location.BOUNDARY := by decide +kernel

/-- Infinite ordinates meet the hypotheses of `C94_outside`. -/
example : ∀ v ∈ ([Coord.xy 0 0, Coord.xy 3 0, Coord.xy 0 3, Coord.xy 0 0].map toB64 : List (Coord X64)), (v.x <. (Fl.pinf : X64)) = true := by
  decide +kernel

/-- A vertex with an infinite ordinate. -/
example : (Coord.xy (Fl.pinf : X64) (Fl.fin 2)).equals2D [Coord.xy (Fl.pinf : X64) (Fl.fin 2), Coord.xy (Fl.fin 1) (Fl.fin 2)][0] = true := by decide +kernel

end Doubles

end Verif.Props
