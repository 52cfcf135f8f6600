import Verif.Props.LineIntersector
import Verif.Props.Intersection64

/-! # C95: the heights of the points the segment intersector reports -/

namespace Verif.Props
open Flt Verif.Spec

/-- The point of the 3D segment `a..b` above `c` has height `z`. -/
def Above (z : ℝ) (c a b : Coord ℝ) : Prop :=
  ∃ t, 0 ≤ t ∧ t ≤ 1 ∧ c.x = a.x + t * (b.x - a.x) ∧ c.y = a.y + t * (b.y - a.y) ∧ z = a.z + t * (b.z - a.z)

section Any
variable {α : Type} [FltSqrt α] [FltRound α]

/-- Exactly one end of the segment has a height, `h`. -/
def OneHeight (a b : Coord α) (h : α) : Prop :=
  isNaN h = false ∧ ((isNaN a.z = true ∧ b.z = h) ∨ (a.z = h ∧ isNaN b.z = true))

/-- Neither end of the segment has a height. -/
def NoHeight (a b : Coord α) : Prop := isNaN a.z = true ∧ isNaN b.z = true

/-- The state in which a proper crossing ends. -/
theorem crossing_state (s : LI α) (p1 p2 q1 q2 : Coord α) (h : (s.compute4 p1 p2 q1 q2).isProper = true) :
    ∃ t : LI α, t.pm = s.pm ∧
      (s.compute4 p1 p2 q1 q2).pt0 = LI.copyWithZ (t.intersection p1 p2 q1 q2) (LI.zInterpolate5 (t.intersection p1 p2 q1 q2) p1 p2 q1 q2) := by
  revert h
  unfold LI.compute4 LI.computeIntersect
  dsimp only
  intro h
  split_ifs at h ⊢ with c1 c2 c3 c4 c5
  · rw [collinear_flag] at h; exact absurd h Bool.false_ne_true
  · exact ⟨{ s with in00 := p1.fromCoordinate, in01 := p2.fromCoordinate, in10 := q1.fromCoordinate, in11 := q2.fromCoordinate, isProper := true },
      rfl, rfl⟩

theorem zInterpolate3_xy (p p' a b : Coord α) (h : Same p p') : LI.zInterpolate3 p a b = LI.zInterpolate3 p' a b := by
  unfold LI.zInterpolate3 Coord.equals2D
  rw [h.1, h.2]

/-- In every arithmetic: the height of a proper crossing is the mean of the heights of the two segments there, or the one of them that is known. -/
theorem C95_crossing (s : LI α) (p1 p2 q1 q2 : Coord α) (h : (s.compute4 p1 p2 q1 q2).isProper = true) :
    let c := (s.compute4 p1 p2 q1 q2).pt0
    let u := LI.zInterpolate3 c p1 p2
    let v := LI.zInterpolate3 c q1 q2
    (isNaN u = false → isNaN v = false → isNaN ((u +. v) /. lit 2) = false → c.z = (u +. v) /. lit 2) ∧
    (isNaN u = true → isNaN v = false → c.z = v) ∧
    (isNaN u = false → isNaN v = true → c.z = u) := by
  obtain ⟨t, -, e⟩ := crossing_state s p1 p2 q1 q2 h
  dsimp only
  have hs : Same (s.compute4 p1 p2 q1 q2).pt0 (t.intersection p1 p2 q1 q2) := by rw [e]; exact copyWithZ_xy _ _
  rw [zInterpolate3_xy _ _ p1 p2 hs, zInterpolate3_xy _ _ q1 q2 hs, e]
  unfold LI.copyWithZ LI.zInterpolate5
  refine ⟨fun h1 h2 h3 => ?_, fun h1 h2 => ?_, fun h1 h2 => ?_⟩
  · simp [h1, h2, h3]
  · simp [h1, h2]
  · simp [h1, h2]

theorem interp_one (p a b : Coord α) (h : α) (H : OneHeight a b h) : LI.zInterpolate3 p a b = h := by
  obtain ⟨h0, ⟨h1, h2⟩ | ⟨h1, h2⟩⟩ := H
  · rw [(C38_missing_height p a b).1 h1, h2]
  · rw [(C38_missing_height p a b).2.1 (by rw [h1]; exact h0) h2, h1]

theorem interp_none (p a b : Coord α) (H : NoHeight a b) : isNaN (LI.zInterpolate3 p a b) = true := by
  rw [(C38_missing_height p a b).1 H.1]; exact H.2

theorem nearest_height (p1 p2 q1 q2 : Coord α) (hp : NoHeight p1 p2) (hq : NoHeight q1 q2) :
    isNaN (LI.nearestEndpoint p1 p2 q1 q2).z = true := by
  obtain ⟨a, b⟩ := hp
  obtain ⟨c, d⟩ := hq
  unfold LI.nearestEndpoint
  dsimp only
  split_ifs <;> simpa [Coord.fromCoordinate]

theorem formula_height (p1 p2 q1 q2 c : Coord α) (hn : isNaN (nan : α) = true) (h : Intersection.intersection p1 p2 q1 q2 = some c) :
    isNaN c.z = true := by
  revert h
  unfold Intersection.intersection CGDD.intersection
  dsimp only
  split_ifs
  · intro h; cases h
  · intro h; cases h; exact hn

/-- In every arithmetic: a segment with one height counts as flat at that height, a segment without heights does not count,
and without any height the crossing has none. -/
theorem C95_crossing_missing (s : LI α) (p1 p2 q1 q2 : Coord α) (h : (s.compute4 p1 p2 q1 q2).isProper = true) (u v : α) :
    (OneHeight p1 p2 u → OneHeight q1 q2 v → isNaN ((u +. v) /. lit 2) = false → (s.compute4 p1 p2 q1 q2).pt0.z = (u +. v) /. lit 2) ∧
    (OneHeight p1 p2 u → NoHeight q1 q2 → (s.compute4 p1 p2 q1 q2).pt0.z = u) ∧
    (NoHeight p1 p2 → OneHeight q1 q2 v → (s.compute4 p1 p2 q1 q2).pt0.z = v) ∧
    (isNaN (nan : α) = true → NoHeight p1 p2 → NoHeight q1 q2 → isNaN (s.compute4 p1 p2 q1 q2).pt0.z = true) := by
  obtain ⟨k1, k2, k3⟩ := C95_crossing s p1 p2 q1 q2 h
  refine ⟨fun a b n => ?_, fun a b => ?_, fun a b => ?_, fun hn a b => ?_⟩
  · rw [interp_one _ p1 p2 u a, interp_one _ q1 q2 v b] at k1
    exact k1 a.1 b.1 n
  · rw [interp_one _ p1 p2 u a] at k3
    exact k3 a.1 (interp_none _ q1 q2 b)
  · rw [interp_one _ q1 q2 v b] at k2
    exact k2 (interp_none _ p1 p2 a) b.1
  · obtain ⟨t, -, e⟩ := crossing_state s p1 p2 q1 q2 h
    rw [e]
    have n1 : isNaN (t.intersection p1 p2 q1 q2).z = true := by
      have n2 := nearest_height p1 p2 q1 q2 a b
      have n3 : isNaN (LI.intersectionSafe p1 p2 q1 q2).z = true := by
        unfold LI.intersectionSafe
        split
        · rename_i c hc; exact formula_height p1 p2 q1 q2 c hn hc
        · exact n2
      have n4 : isNaN (if (!t.isInSegmentEnvelopes (LI.intersectionSafe p1 p2 q1 q2)) = true then (LI.nearestEndpoint p1 p2 q1 q2).fromCoordinate
          else LI.intersectionSafe p1 p2 q1 q2).z = true := by
        split_ifs
        · exact n2
        · exact n3
      unfold LI.intersection
      dsimp only
      split
      · unfold PM.makePreciseCoordinate
        split_ifs <;> first | exact n2 | exact n3
      · exact n4
    have n5 : isNaN (LI.zInterpolate5 (t.intersection p1 p2 q1 q2) p1 p2 q1 q2) = true := by
      unfold LI.zInterpolate5
      simp [interp_none _ p1 p2 a, interp_none _ q1 q2 b]
    unfold LI.copyWithZ
    simp [n5, n1, Coord.fromCoordinate]

/-- `c` is a copy of the end `d` of one segment; its height is the one of `d`, or, if `d` has none, the height of the other
segment `a..b` there: of its end at the same place, or interpolated. -/
def EndOf (c d a b : Coord α) : Prop :=
  Same c d ∧ (isNaN d.z = false → c.z = d.z) ∧
  (isNaN d.z = true → (d.equals2D a = true ∧ (isNaN a.z = false → c.z = a.z) ∧ (isNaN a.z = true → isNaN c.z = true)) ∨
    (d.equals2D b = true ∧ (isNaN b.z = false → c.z = b.z) ∧ (isNaN b.z = true → isNaN c.z = true)) ∨
    ((isNaN (LI.zInterpolate3 d a b) = false → c.z = LI.zInterpolate3 d a b) ∧ (isNaN (LI.zInterpolate3 d a b) = true → isNaN c.z = true)))

theorem endOf_interp (d a b : Coord α) : EndOf (LI.copyWithZInterpolate d a b) d a b := by
  refine ⟨copyWithZInterpolate_xy _ _ _, (C38_missing_height d a b).2.2.1, fun h => Or.inr (Or.inr ?_)⟩
  unfold LI.copyWithZInterpolate LI.copyWithZ LI.getZOrInterpolate
  constructor <;> intro k <;> simp [h, k, Coord.fromCoordinate]

theorem endOf_interp' (d a b : Coord α) : EndOf (LI.copyWithZ d.fromCoordinate (LI.getZOrInterpolate d a b)) d a b := endOf_interp d a b

theorem endOf_left (d a b : Coord α) (h : d.equals2D a = true) : EndOf (LI.copyWithZ d.fromCoordinate (LI.getZ d a)) d a b := by
  refine ⟨copyWithZ_xy _ _, fun k => ?_, fun k => Or.inl ⟨h, ?_⟩⟩
  · simp [LI.copyWithZ, LI.getZ, k]
  · constructor <;> intro l <;> simp [LI.copyWithZ, LI.getZ, k, l, Coord.fromCoordinate]

theorem endOf_right (d a b : Coord α) (h : d.equals2D b = true) : EndOf (LI.copyWithZ d.fromCoordinate (LI.getZ d b)) d a b := by
  refine ⟨copyWithZ_xy _ _, fun k => ?_, fun k => Or.inr (Or.inl ⟨h, ?_⟩)⟩
  · simp [LI.copyWithZ, LI.getZ, k]
  · constructor <;> intro l <;> simp [LI.copyWithZ, LI.getZ, k, l, Coord.fromCoordinate]

/-- `c` is an end of one of the segments, with its own height or the one of the other segment. -/
def EndReport (c p1 p2 q1 q2 : Coord α) : Prop :=
  EndOf c p1 q1 q2 ∨ EndOf c p2 q1 q2 ∨ EndOf c q1 p1 p2 ∨ EndOf c q2 p1 p2

theorem touch_end (a b c d : Int) (p1 p2 q1 q2 : Coord α) (h : a = 0 ∨ b = 0 ∨ c = 0 ∨ d = 0) :
    EndReport (LI.copyWithZ (LI.touchPoint a b c d p1 p2 q1 q2).1 (LI.touchPoint a b c d p1 p2 q1 q2).2) p1 p2 q1 q2 := by
  unfold LI.touchPoint
  split_ifs with e1 e2 e3 e4
  · exact Or.inl (endOf_left _ _ _ e1)
  · exact Or.inl (endOf_right _ _ _ e2)
  · exact Or.inr (Or.inl (endOf_left _ _ _ e3))
  · exact Or.inr (Or.inl (endOf_right _ _ _ e4))
  · exact Or.inr (Or.inr (Or.inl (endOf_interp' _ _ _)))
  · exact Or.inr (Or.inr (Or.inr (endOf_interp' _ _ _)))
  · exact Or.inl (endOf_interp' _ _ _)
  · exact Or.inr (Or.inl (endOf_interp' _ _ _))
  · omega

theorem collinear_ends (s : LI α) (p1 p2 q1 q2 : Coord α) (h : (s.computeCollinear p1 p2 q1 q2).1 ≠ 0) :
    EndReport (s.computeCollinear p1 p2 q1 q2).2.pt0 p1 p2 q1 q2 ∧ EndReport (s.computeCollinear p1 p2 q1 q2).2.pt1 p1 p2 q1 q2 := by
  have r1 : EndReport (LI.copyWithZInterpolate p1 q1 q2) p1 p2 q1 q2 := Or.inl (endOf_interp p1 q1 q2)
  have r2 : EndReport (LI.copyWithZInterpolate p2 q1 q2) p1 p2 q1 q2 := Or.inr (Or.inl (endOf_interp p2 q1 q2))
  have r3 : EndReport (LI.copyWithZInterpolate q1 p1 p2) p1 p2 q1 q2 := Or.inr (Or.inr (Or.inl (endOf_interp q1 p1 p2)))
  have r4 : EndReport (LI.copyWithZInterpolate q2 p1 p2) p1 p2 q1 q2 := Or.inr (Or.inr (Or.inr (endOf_interp q2 p1 p2)))
  revert h
  unfold LI.computeCollinear
  dsimp only
  intro h
  split_ifs at h ⊢ <;> first
    | exact ⟨r3, r4⟩
    | exact ⟨r1, r2⟩
    | exact ⟨r3, r1⟩
    | exact ⟨r3, r2⟩
    | exact ⟨r4, r1⟩
    | exact ⟨r4, r2⟩
    | exact absurd rfl h

/-- In every arithmetic: without a proper crossing every reported point is an end of one of the segments; it has the height of
that end, or, if there is none, the height of the other segment. -/
theorem C95_ends (s : LI α) (p1 p2 q1 q2 : Coord α) (hp : (s.compute4 p1 p2 q1 q2).isProper = false)
    (h0 : (s.compute4 p1 p2 q1 q2).result ≠ 0) :
    EndReport (s.compute4 p1 p2 q1 q2).pt0 p1 p2 q1 q2 ∧
    ((s.compute4 p1 p2 q1 q2).result = 2 → EndReport (s.compute4 p1 p2 q1 q2).pt1 p1 p2 q1 q2) := by
  revert hp h0
  unfold LI.compute4 LI.computeIntersect
  dsimp only
  intro hp h0
  split_ifs at hp h0 ⊢ with c1 c2 c3 c4 c5
  · exact absurd rfl h0
  · exact absurd rfl h0
  · exact absurd rfl h0
  · obtain ⟨a, b⟩ := collinear_ends _ p1 p2 q1 q2 h0
    exact ⟨a, fun _ => b⟩
  · exact ⟨touch_end _ _ _ _ _ _ _ _ c5, fun h => absurd (show (1 : Int) = 2 from h) (by decide)⟩

/-- In every arithmetic: if no end has a height, no reported point has one. -/
theorem C95_no_heights (s : LI α) (p1 p2 q1 q2 : Coord α) (hn : isNaN (nan : α) = true) (hp : NoHeight p1 p2) (hq : NoHeight q1 q2)
    (h0 : (s.compute4 p1 p2 q1 q2).result ≠ 0) :
    isNaN (s.compute4 p1 p2 q1 q2).pt0.z = true ∧ ((s.compute4 p1 p2 q1 q2).result = 2 → isNaN (s.compute4 p1 p2 q1 q2).pt1.z = true) := by
  have key : ∀ c d a b : Coord α, EndOf c d a b → isNaN d.z = true → NoHeight a b → isNaN c.z = true := by
    rintro c d a b ⟨-, -, k⟩ hd hab
    rcases k hd with ⟨-, -, k⟩ | ⟨-, -, k⟩ | ⟨-, k⟩
    · exact k hab.1
    · exact k hab.2
    · exact k (interp_none d a b hab)
  have rep : ∀ c, EndReport c p1 p2 q1 q2 → isNaN c.z = true := by
    rintro c (k | k | k | k)
    · exact key _ _ _ _ k hp.1 hq
    · exact key _ _ _ _ k hp.2 hq
    · exact key _ _ _ _ k hq.1 hp
    · exact key _ _ _ _ k hq.2 hp
  cases h : (s.compute4 p1 p2 q1 q2).isProper
  · obtain ⟨a, b⟩ := C95_ends s p1 p2 q1 q2 h h0
    exact ⟨rep _ a, fun k => rep _ (b k)⟩
  · refine ⟨(C95_crossing_missing s p1 p2 q1 q2 h nan nan).2.2.2 hn hp hq, fun k => ?_⟩
    have := (proper_state s p1 p2 q1 q2 h).2.2.2.1
    rw [this] at k
    exact absurd k (by decide)

end Any

/-! ## Real arithmetic -/

theorem above_interp (c a b : Coord ℝ) (h : OnSegment c a b) : Above (LI.zInterpolate3 c a b) c a b := by
  obtain ⟨t, t0, t1, hx, hy⟩ := h
  by_cases hab : Same a b
  · refine ⟨0, le_rfl, zero_le_one, ?_, ?_, ?_⟩
    · rw [hx, hab.1]; ring
    · rw [hy, hab.2]; ring
    · have e : c.equals2D a = true := by
        rw [equals2D_iff]; exact ⟨by rw [hx, hab.1]; ring, by rw [hy, hab.2]; ring⟩
      have n : ∀ x : ℝ, isNaN x = false := fun _ => rfl
      unfold LI.zInterpolate3
      simp only [real_toFlt, exact_isNaN, Bool.false_eq_true, if_false]
      rw [if_pos e]; ring
  · exact ⟨t, t0, t1, hx, hy, C38_height c a b t t0 hx hy hab⟩

/-- Over the reals: the height of a proper crossing is the mean of the heights of the two segments above it. -/
theorem C95_crossing_mean (s : LI ℝ) (p1 p2 q1 q2 : Coord ℝ) (hs : s.pm = none) (h : (s.compute4 p1 p2 q1 q2).isProper = true) :
    ∃ u v, Above u (s.compute4 p1 p2 q1 q2).pt0 p1 p2 ∧ Above v (s.compute4 p1 p2 q1 q2).pt0 q1 q2 ∧
      (s.compute4 p1 p2 q1 q2).pt0.z = (u + v) / 2 := by
  have r := (proper_state s p1 p2 q1 q2 h).2.2.2.1
  obtain ⟨d, hd, hc⟩ := (C38_points s p1 p2 q1 q2 hs).1 r
  have e : (s.compute4 p1 p2 q1 q2).pt0 = d := by
    have : (s.compute4 p1 p2 q1 q2).getIntersection 0 = .ok (s.compute4 p1 p2 q1 q2).pt0 := rfl
    rw [hd] at this; cases this; rfl
  obtain ⟨o1, o2⟩ := (hc d).mpr ⟨rfl, rfl⟩
  have k := (C95_crossing s p1 p2 q1 q2 h).1 rfl rfl rfl
  rw [← e] at o1 o2
  refine ⟨_, _, above_interp _ _ _ o1, above_interp _ _ _ o2, ?_⟩
  rw [k]
  simp [real_toFlt]

theorem above_ends (a b : Coord ℝ) : Above a.z a a b ∧ Above b.z b a b :=
  ⟨⟨0, le_rfl, zero_le_one, by ring, by ring, by ring⟩, ⟨1, zero_le_one, le_rfl, by ring, by ring, by ring⟩⟩

theorem above_same {z : ℝ} {c d a b : Coord ℝ} (h : Same c d) (k : Above z d a b) : Above z c a b := by
  unfold Above at *
  rw [h.1, h.2]; exact k

/-- Over the reals: every other reported point is on one of the two segments in space. -/
theorem C95_end_height (s : LI ℝ) (p1 p2 q1 q2 : Coord ℝ) (hp : (s.compute4 p1 p2 q1 q2).isProper = false)
    (h0 : (s.compute4 p1 p2 q1 q2).result ≠ 0) :
    let r := s.compute4 p1 p2 q1 q2
    (Above r.pt0.z r.pt0 p1 p2 ∨ Above r.pt0.z r.pt0 q1 q2) ∧
    (r.result = 2 → Above r.pt1.z r.pt1 p1 p2 ∨ Above r.pt1.z r.pt1 q1 q2) := by
  have key : ∀ c d a b : Coord ℝ, EndOf c d a b → Same c d ∧ c.z = d.z := fun c d a b k => ⟨k.1, k.2.1 rfl⟩
  have rep : ∀ c, EndReport c p1 p2 q1 q2 → Above c.z c p1 p2 ∨ Above c.z c q1 q2 := by
    rintro c (k | k | k | k) <;> obtain ⟨k1, k2⟩ := key _ _ _ _ k <;> rw [k2]
    · exact Or.inl (above_same k1 (above_ends _ _).1)
    · exact Or.inl (above_same k1 (above_ends _ _).2)
    · exact Or.inr (above_same k1 (above_ends _ _).1)
    · exact Or.inr (above_same k1 (above_ends _ _).2)
  obtain ⟨a, b⟩ := C95_ends s p1 p2 q1 q2 hp h0
  exact ⟨rep _ a, fun k => rep _ (b k)⟩

/-- What holds for every reported point, proper or not. -/
theorem reported_mean (s : LI ℝ) (p1 p2 q1 q2 : Coord ℝ) (hs : s.pm = none) (h0 : (s.compute4 p1 p2 q1 q2).result ≠ 0) (c : Coord ℝ)
    (hc : c = (s.compute4 p1 p2 q1 q2).pt0 ∨ ((s.compute4 p1 p2 q1 q2).result = 2 ∧ c = (s.compute4 p1 p2 q1 q2).pt1)) :
    ∃ u v, (Above u c p1 p2 ∨ Above u c q1 q2) ∧ (Above v c p1 p2 ∨ Above v c q1 q2) ∧ c.z = (u + v) / 2 := by
  cases h : (s.compute4 p1 p2 q1 q2).isProper
  · obtain ⟨a, b⟩ := C95_end_height s p1 p2 q1 q2 h h0
    have : Above c.z c p1 p2 ∨ Above c.z c q1 q2 := by
      rcases hc with rfl | ⟨k, rfl⟩
      · exact a
      · exact b k
    exact ⟨c.z, c.z, this, this, by ring⟩
  · rcases hc with rfl | ⟨k, rfl⟩
    · obtain ⟨u, v, a, b, e⟩ := C95_crossing_mean s p1 p2 q1 q2 hs h
      exact ⟨u, v, Or.inl a, Or.inr b, e⟩
    · rw [(proper_state s p1 p2 q1 q2 h).2.2.2.1] at k
      exact absurd k (by decide)

/-- Over the reals: if the four ends are in a plane `z = k x + l y + n`, so is every reported point. -/
theorem C95_plane (s : LI ℝ) (p1 p2 q1 q2 : Coord ℝ) (hs : s.pm = none) (h0 : (s.compute4 p1 p2 q1 q2).result ≠ 0) (k l n : ℝ)
    (hp : ∀ d ∈ [p1, p2, q1, q2], d.z = k * d.x + l * d.y + n) (c : Coord ℝ)
    (hc : c = (s.compute4 p1 p2 q1 q2).pt0 ∨ ((s.compute4 p1 p2 q1 q2).result = 2 ∧ c = (s.compute4 p1 p2 q1 q2).pt1)) :
    c.z = k * c.x + l * c.y + n := by
  have key : ∀ z a b, a ∈ [p1, p2, q1, q2] → b ∈ [p1, p2, q1, q2] → Above z c a b → z = k * c.x + l * c.y + n := by
    rintro z a b ha hb ⟨t, -, -, hx, hy, hz⟩
    rw [hz, hx, hy, hp a ha, hp b hb]; ring
  obtain ⟨u, v, a, b, e⟩ := reported_mean s p1 p2 q1 q2 hs h0 c hc
  have e1 : u = k * c.x + l * c.y + n := by
    rcases a with a | a <;> exact key _ _ _ (by simp) (by simp) a
  have e2 : v = k * c.x + l * c.y + n := by
    rcases b with b | b <;> exact key _ _ _ (by simp) (by simp) b
  rw [e, e1, e2]; ring

/-- Over the reals: the reported heights are between the smallest and the largest height of the ends. -/
theorem C95_range (s : LI ℝ) (p1 p2 q1 q2 : Coord ℝ) (hs : s.pm = none) (h0 : (s.compute4 p1 p2 q1 q2).result ≠ 0) (lo hi : ℝ)
    (hp : ∀ d ∈ [p1, p2, q1, q2], lo ≤ d.z ∧ d.z ≤ hi) (c : Coord ℝ)
    (hc : c = (s.compute4 p1 p2 q1 q2).pt0 ∨ ((s.compute4 p1 p2 q1 q2).result = 2 ∧ c = (s.compute4 p1 p2 q1 q2).pt1)) :
    lo ≤ c.z ∧ c.z ≤ hi := by
  have key : ∀ z a b, a ∈ [p1, p2, q1, q2] → b ∈ [p1, p2, q1, q2] → Above z c a b → lo ≤ z ∧ z ≤ hi := by
    rintro z a b ha hb ⟨t, t0, t1, -, -, hz⟩
    obtain ⟨a1, a2⟩ := hp a ha
    obtain ⟨b1, b2⟩ := hp b hb
    have t1' : 0 ≤ 1 - t := by linarith
    constructor
    · nlinarith [mul_nonneg t0 (sub_nonneg.mpr b1), mul_nonneg t1' (sub_nonneg.mpr a1)]
    · nlinarith [mul_nonneg t0 (sub_nonneg.mpr b2), mul_nonneg t1' (sub_nonneg.mpr a2)]
  obtain ⟨u, v, a, b, e⟩ := reported_mean s p1 p2 q1 q2 hs h0 c hc
  have e1 : lo ≤ u ∧ u ≤ hi := by
    rcases a with a | a <;> exact key _ _ _ (by simp) (by simp) a
  have e2 : lo ≤ v ∧ v ≤ hi := by
    rcases b with b | b <;> exact key _ _ _ (by simp) (by simp) b
  rw [e]
  constructor <;> linarith [e1.1, e1.2, e2.1, e2.2]

/-! ## The order of the segments -/

local notation "p3" => fun (x y z : ℚ) => (Coord.xyz (Fl.fin x) (Fl.fin y) (Fl.fin z) : Coord X64)
local notation "p2" => fun (x y : ℚ) => (Coord.xy (Fl.fin x) (Fl.fin y) : Coord X64)

/-- Heights at a shared end: where two segments meet at an angle the height of the first segment is reported, where they meet
end to end on a line the height of the second one. Swapping the segments changes the reported height (both binary64). -/
theorem C95_order_matters :
    (((LI.default : LI X64).compute4 (p3 0 0 1) (p3 1 0 1) (p3 0 0 2) (p3 0 1 2)).pt0.z = Fl.fin 1 ∧
      ((LI.default : LI X64).compute4 (p3 0 0 2) (p3 0 1 2) (p3 0 0 1) (p3 1 0 1)).pt0.z = Fl.fin 2) ∧
    (((LI.default : LI X64).compute4 (p3 0 0 1) (p3 1 0 1) (p3 0 0 2) (p3 (-1) 0 2)).pt0.z = Fl.fin 2 ∧
      ((LI.default : LI X64).compute4 (p3 0 0 2) (p3 (-1) 0 2) (p3 0 0 1) (p3 1 0 1)).pt0.z = Fl.fin 1) := by
  decide +kernel

/-! Examples: a proper crossing with all, some or no heights; touching; overlapping. -/

example : ((LI.default : LI X64).compute4 (p3 0 0 1) (p3 4 4 1) (p3 0 4 2) (p3 4 0 4)).isProper = true ∧
    ((LI.default : LI X64).compute4 (p3 0 0 1) (p3 4 4 1) (p2 0 4) (p3 4 0 4)).pt0.z = Fl.fin (5 / 2) := by decide +kernel
example : ((LI.default : LI X64).compute4 (p2 0 0) (p2 4 4) (p2 0 4) (p3 4 0 4)).isProper = true ∧
    NoHeight (p2 0 0) (p2 4 4) ∧ OneHeight (p2 0 4) (p3 4 0 4) (Fl.fin 4) :=
  ⟨by decide +kernel, ⟨rfl, rfl⟩, rfl, Or.inl ⟨rfl, rfl⟩⟩
example : ((LI.default : LI X64).compute4 (p2 0 0) (p2 4 0) (p2 2 0) (p3 4 4 4)).isProper = false ∧
    ((LI.default : LI X64).compute4 (p3 0 0 7) (p2 4 0) (p2 2 0) (p3 4 4 4)).pt0.z = Fl.fin 7 := by decide +kernel
example : ((LI.default : LI X64).compute4 (p2 0 0) (p2 4 0) (p2 2 0) (p2 6 0)).result = 2 ∧
    isNaN ((LI.default : LI X64).compute4 (p2 0 0) (p2 4 0) (p2 2 0) (p2 6 0)).pt1.z = true := by decide +kernel
example : ∀ d ∈ [(⟨0, 0, 0, 0⟩ : Coord ℝ), ⟨2, 2, 4, 0⟩, ⟨0, 2, 2, 0⟩, ⟨2, 0, 2, 0⟩], d.z = 1 * d.x + 1 * d.y + 0 := by simp; norm_num
example : ((LI.default : LI ℝ).compute4 ⟨0, 0, 0, 0⟩ ⟨2, 2, 4, 0⟩ ⟨0, 2, 2, 0⟩ ⟨2, 0, 2, 0⟩).isProper = true := by
  rw [C38_proper]
  refine ⟨⟨1, 1, 0, 0⟩, ?_, ?_, ?_⟩
  · exact ⟨⟨1 / 2, by norm_num, by norm_num, by norm_num, by norm_num⟩, by simp [Same], by simp [Same]⟩
  · exact ⟨⟨1 / 2, by norm_num, by norm_num, by norm_num, by norm_num⟩, by simp [Same], by simp [Same]⟩
  · rintro c ⟨⟨t, -, -, hx, hy⟩, ⟨u, -, -, kx, ky⟩⟩
    norm_num at hx hy kx ky
    exact ⟨by simp only; linarith, by simp only; linarith⟩

end Verif.Props
