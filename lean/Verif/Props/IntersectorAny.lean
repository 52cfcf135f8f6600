import Verif.Props.Intersection64

/-! # C86: what the segment intersector guarantees in every arithmetic -/

set_option linter.unusedSectionVars false

namespace Verif.Props
open Flt Verif.Spec Verif.Binary64

section Any
variable {α : Type} [FltSqrt α] [FltRound α]

/-- The intersector claims that the ends `a`, `b` of one segment are strictly on opposite sides of the line `c d`. -/
def Opposite (a b c d : Coord α) : Prop :=
  (0 < Orientation.index c d a ∧ Orientation.index c d b < 0) ∨ (Orientation.index c d a < 0 ∧ 0 < Orientation.index c d b)

/-- C86: the codes are 0, 1 and 2; a code other than 0 means that the boxes meet; a proper intersection is a point with the ends of each segment on
opposite sides of the other. -/
theorem C86_codes (s : LI α) (p1 p2 q1 q2 : Coord α) :
    ((s.compute4 p1 p2 q1 q2).result = 0 ∨ (s.compute4 p1 p2 q1 q2).result = 1 ∨ (s.compute4 p1 p2 q1 q2).result = 2) ∧
    ((s.compute4 p1 p2 q1 q2).result ≠ 0 → Env.intersects4 p1 p2 q1 q2 = true) ∧
    ((s.compute4 p1 p2 q1 q2).isProper = true ↔ Env.intersects4 p1 p2 q1 q2 = true ∧ Opposite p1 p2 q1 q2 ∧ Opposite q1 q2 p1 p2) ∧
    ((s.compute4 p1 p2 q1 q2).isProper = true → (s.compute4 p1 p2 q1 q2).result = 1) := by
  have hc : ∀ t : LI α, (t.computeCollinear p1 p2 q1 q2).1 = 0 ∨ (t.computeCollinear p1 p2 q1 q2).1 = 1 ∨ (t.computeCollinear p1 p2 q1 q2).1 = 2 := by
    intro t
    unfold LI.computeCollinear
    generalize Env.intersects3 p1 p2 q1 = a
    generalize Env.intersects3 p1 p2 q2 = b
    generalize Env.intersects3 q1 q2 p1 = c
    generalize Env.intersects3 q1 q2 p2 = d
    dsimp only
    split_ifs <;> simp
  unfold LI.compute4 LI.computeIntersect Opposite
  generalize Orientation.index p1 p2 q1 = a
  generalize Orientation.index p1 p2 q2 = b
  generalize Orientation.index q1 q2 p1 = c
  generalize Orientation.index q1 q2 p2 = d
  generalize Env.intersects4 p1 p2 q1 q2 = e
  generalize LI.touchPoint a b c d p1 p2 q1 q2 = z
  dsimp only
  cases e
  · exact ⟨Or.inl rfl, fun h => absurd rfl h, ⟨fun h => absurd h Bool.false_ne_true, fun h => absurd h.1 Bool.false_ne_true⟩,
      fun h => absurd h Bool.false_ne_true⟩
  simp only [Bool.not_true, Bool.false_eq_true, if_false, true_and, implies_true]
  split_ifs with c1 c2 c3 c4
  · exact ⟨Or.inl rfl, ⟨fun h => h.elim, fun h => by omega⟩, fun h => h.elim⟩
  · exact ⟨Or.inl rfl, ⟨fun h => h.elim, fun h => by omega⟩, fun h => h.elim⟩
  · refine ⟨hc _, ⟨fun h => ?_, fun h => by omega⟩, fun h => ?_⟩ <;>
      (rw [collinear_flag] at h; exact absurd h Bool.false_ne_true)
  · exact ⟨Or.inr (Or.inl rfl), ⟨fun h => h.elim, fun h => by omega⟩, fun h => h.elim⟩
  · exact ⟨Or.inr (Or.inl rfl), ⟨fun _ => by omega, fun _ => rfl⟩, fun _ => rfl⟩

/-- C86: a point that is not a proper crossing, and the points of a collinear intersection, are ends of the segments with unchanged x and y. -/
theorem C86_ends (s : LI α) (p1 p2 q1 q2 : Coord α) (hp : (s.compute4 p1 p2 q1 q2).isProper = false) :
    ((s.compute4 p1 p2 q1 q2).result ≠ 0 → ∃ d ∈ [p1, p2, q1, q2], Same (s.compute4 p1 p2 q1 q2).pt0 d) ∧
    ((s.compute4 p1 p2 q1 q2).result = 2 → ∃ d ∈ [p1, p2, q1, q2], Same (s.compute4 p1 p2 q1 q2).pt1 d) := by
  have sim : Sim (fun c : Coord α => c) (fun c => c) :=
    ⟨⟨fun _ => rfl, fun _ => rfl, fun _ _ => rfl, fun _ _ => rfl, fun _ _ => rfl, fun _ _ => rfl, fun _ _ => rfl, fun _ _ => rfl, fun _ _ => rfl⟩,
      fun _ _ _ => rfl⟩
  have pts := sim.points s s p1 p2 q1 q2 hp
  refine ⟨fun h => ?_, fun h => ?_⟩
  · obtain ⟨m, hm, n, hn, b, -⟩ := pts h
    exact ⟨m, hm, b.1⟩
  · obtain ⟨m, hm, n, hn, -, b⟩ := pts (by rw [h]; decide)
    exact ⟨n, hn, (b h).1⟩

/-- C86: each point reported for a collinear intersection is an end of one segment inside the box of the other. -/
theorem C86_collinear (s : LI α) (p1 p2 q1 q2 : Coord α) (h : (s.compute4 p1 p2 q1 q2).result = 2) :
    ∀ c ∈ [(s.compute4 p1 p2 q1 q2).pt0, (s.compute4 p1 p2 q1 q2).pt1],
      (∃ d ∈ [p1, p2], Same c d ∧ Env.intersects3 q1 q2 d = true) ∨ (∃ d ∈ [q1, q2], Same c d ∧ Env.intersects3 p1 p2 d = true) := by
  have key : ∀ t : LI α, (t.computeCollinear p1 p2 q1 q2).1 = 2 → ∀ c ∈ [(t.computeCollinear p1 p2 q1 q2).2.pt0, (t.computeCollinear p1 p2 q1 q2).2.pt1],
      (∃ d ∈ [p1, p2], Same c d ∧ Env.intersects3 q1 q2 d = true) ∨ (∃ d ∈ [q1, q2], Same c d ∧ Env.intersects3 p1 p2 d = true) := by
    intro t
    unfold LI.computeCollinear
    cases k1 : Env.intersects3 p1 p2 q1 <;> cases k2 : Env.intersects3 p1 p2 q2 <;> cases k3 : Env.intersects3 q1 q2 p1 <;>
      cases k4 : Env.intersects3 q1 q2 p2 <;>
      simp only [Bool.and_self, Bool.and_true, Bool.and_false, Bool.false_and, Bool.true_and, if_true, if_false, Bool.false_eq_true] <;>
      intro h2 c hc <;> first | exact absurd h2 (by decide) | skip
    all_goals
      simp only [List.mem_cons, List.not_mem_nil, or_false] at hc ⊢
      have e := fun (x a b : Coord α) => copyWithZInterpolate_xy x a b
      rcases hc with rfl | rfl <;> first
        | exact Or.inl ⟨p1, by simp, e _ _ _, k3⟩
        | exact Or.inl ⟨p2, by simp, e _ _ _, k4⟩
        | exact Or.inr ⟨q1, by simp, e _ _ _, k1⟩
        | exact Or.inr ⟨q2, by simp, e _ _ _, k2⟩
  revert h
  unfold LI.compute4 LI.computeIntersect
  dsimp only
  split_ifs
  all_goals intro h
  all_goals first | exact key _ h | exact absurd (show (0 : Int) = 2 from h) (by decide) | exact absurd (show (1 : Int) = 2 from h) (by decide)

/-- C86: a precision model changes the point of a proper crossing only, and there it rounds the point that is reported without it. -/
theorem C86_precision (s : LI α) (m : PM α) (p1 p2 q1 q2 : Coord α) :
    ((s.setPrecisionModel m).compute4 p1 p2 q1 q2).result = (s.compute4 p1 p2 q1 q2).result ∧
    ((s.setPrecisionModel m).compute4 p1 p2 q1 q2).isProper = (s.compute4 p1 p2 q1 q2).isProper ∧
    ((s.compute4 p1 p2 q1 q2).isProper = false →
      ((s.setPrecisionModel m).compute4 p1 p2 q1 q2).pt0 = (s.compute4 p1 p2 q1 q2).pt0 ∧
      ((s.setPrecisionModel m).compute4 p1 p2 q1 q2).pt1 = (s.compute4 p1 p2 q1 q2).pt1) ∧
    (s.pm = none → (s.compute4 p1 p2 q1 q2).isProper = true →
      Same ((s.setPrecisionModel m).compute4 p1 p2 q1 q2).pt0 (m.makePreciseCoordinate (s.compute4 p1 p2 q1 q2).pt0)) := by
  obtain ⟨c1, c2⟩ := C38_no_history (s.setPrecisionModel m) s p1 p2 q1 q2
  refine ⟨c1, c2, ?_, fun hs h => ?_⟩
  · unfold LI.compute4 LI.computeIntersect LI.setPrecisionModel
    dsimp only
    split_ifs <;> first | exact fun _ => ⟨rfl, rfl⟩ | exact fun h => h.elim | skip
    intro _
    unfold LI.computeCollinear
    dsimp only
    split_ifs <;> exact ⟨rfl, rfl⟩
  · obtain ⟨-, -, -, -, h1⟩ := proper_state s p1 p2 q1 q2 h
    obtain ⟨-, -, -, -, h2⟩ := proper_state (s.setPrecisionModel m) p1 p2 q1 q2 (c2.trans h)
    have e : ∀ a b : Coord α, Same a b → Same (m.makePreciseCoordinate a) (m.makePreciseCoordinate b) := by
      rintro a b ⟨k1, k2⟩
      unfold PM.makePreciseCoordinate
      split_ifs
      · exact ⟨k1, k2⟩
      · exact ⟨by simp only [k1], by simp only [k2]⟩
    have k := e _ _ h1
    refine ⟨h2.1.trans (Eq.trans ?_ k.1.symm), h2.2.trans (Eq.trans ?_ k.2.symm)⟩ <;>
      (unfold LI.intersection LI.setPrecisionModel; dsimp only; rw [hs]; rfl)

end Any

section Nearest
variable {r : Rounding}

theorem fl_trans {x y z : Fl r} (h1 : (x <. y) = true) (h2 : (y <. z) = true) : (x <. z) = true := by
  cases x <;> cases y <;> cases z <;> first | rfl | exact absurd h1 Bool.false_ne_true | exact absurd h2 Bool.false_ne_true | skip
  exact decide_eq_true ((of_decide_eq_true h1).trans (of_decide_eq_true h2))

theorem fl_irrefl (x : Fl r) : ¬ (x <. x) = true := by
  cases x <;> first | exact Bool.false_ne_true | exact fun h => lt_irrefl _ (of_decide_eq_true h)

/-- The computed distance of an end from the other segment. -/
def endDistance (p1 p2 q1 q2 : Coord (Fl r)) (d : Coord (Fl r)) (e : Fl r) : Prop :=
  (d ∈ [p1, p2] ∧ e = Distance.pointToSegment d q1 q2) ∨ (d ∈ [q1, q2] ∧ e = Distance.pointToSegment d p1 p2)

/-- C86: the fallback point is one of the four ends, and the computed distance of no end from the other segment is smaller. -/
theorem C86_nearest (p1 p2 q1 q2 : Coord (Fl r)) :
    ∃ d e, LI.nearestEndpoint p1 p2 q1 q2 = d ∧ endDistance p1 p2 q1 q2 d e ∧
      ∀ d' e', endDistance p1 p2 q1 q2 d' e' → ¬ (e' <. e) = true := by
  unfold LI.nearestEndpoint
  generalize h1 : Distance.pointToSegment p1 q1 q2 = a
  generalize h2 : Distance.pointToSegment p2 q1 q2 = b
  generalize h3 : Distance.pointToSegment q1 p1 p2 = c
  generalize h4 : Distance.pointToSegment q2 p1 p2 = d
  have all : ∀ e, ¬ (a <. e) = true → ¬ (b <. e) = true → ¬ (c <. e) = true → ¬ (d <. e) = true →
      ∀ d' e', endDistance p1 p2 q1 q2 d' e' → ¬ (e' <. e) = true := by
    rintro e ha hb hc hd d' e' (⟨hm, rfl⟩ | ⟨hm, rfl⟩) <;> simp only [List.mem_cons, List.not_mem_nil, or_false] at hm <;>
      rcases hm with rfl | rfl
    · rwa [h1]
    · rwa [h2]
    · rwa [h3]
    · rwa [h4]
  have down : ∀ {x y z : Fl r}, (y <. z) = true → ¬ (x <. z) = true → ¬ (x <. y) = true := fun h1 h2 h3 => h2 (fl_trans h3 h1)
  have e1 : endDistance p1 p2 q1 q2 p1 a := Or.inl ⟨by simp, h1.symm⟩
  have e2 : endDistance p1 p2 q1 q2 p2 b := Or.inl ⟨by simp, h2.symm⟩
  have e3 : endDistance p1 p2 q1 q2 q1 c := Or.inr ⟨by simp, h3.symm⟩
  have e4 : endDistance p1 p2 q1 q2 q2 d := Or.inr ⟨by simp, h4.symm⟩
  dsimp only
  -- the first two
  obtain ⟨n, m, hn, f1, f2, f3⟩ : ∃ n m, (if b <. a then (p2, b) else (p1, a)) = (n, m) ∧ endDistance p1 p2 q1 q2 n m ∧ ¬ (a <. m) = true ∧ ¬ (b <. m) = true := by
    by_cases h : (b <. a) = true
    · exact ⟨p2, b, if_pos h, e2, down h (fl_irrefl a), fl_irrefl b⟩
    · exact ⟨p1, a, if_neg h, e1, fl_irrefl a, h⟩
  rw [hn]
  dsimp only
  obtain ⟨n', m', hn', g1, g2, g3, g4⟩ : ∃ n' m', (if c <. m then (q1, c) else (n, m)) = (n', m') ∧ endDistance p1 p2 q1 q2 n' m' ∧
      ¬ (a <. m') = true ∧ ¬ (b <. m') = true ∧ ¬ (c <. m') = true := by
    by_cases h : (c <. m) = true
    · exact ⟨q1, c, if_pos h, e3, down h f2, down h f3, fl_irrefl c⟩
    · exact ⟨n, m, if_neg h, f1, f2, f3, h⟩
  rw [hn']
  dsimp only
  by_cases h : (d <. m') = true
  · exact ⟨q2, d, by rw [if_pos h]; rfl, e4, all d (down h g2) (down h g3) (down h g4) (fl_irrefl d)⟩
  · exact ⟨n', m', by rw [if_neg h]; rfl, g1, all m' g2 g3 g4 h⟩

/-- C86: without a precision model the point reported for a proper crossing is inside the boxes of both segments, or it is the end with the least
computed distance from the other segment. -/
theorem C86_crossing (s : LI (Fl r)) (hs : s.pm = none) (p1 p2 q1 q2 : Coord (Fl r)) (h : (s.compute4 p1 p2 q1 q2).isProper = true) :
    ((Env.newCoordinates p1 p2).coversCoordinate (s.compute4 p1 p2 q1 q2).pt0 = true ∧
      (Env.newCoordinates q1 q2).coversCoordinate (s.compute4 p1 p2 q1 q2).pt0 = true) ∨
    (∃ d e, Same (s.compute4 p1 p2 q1 q2).pt0 d ∧ endDistance p1 p2 q1 q2 d e ∧
      ∀ d' e', endDistance p1 p2 q1 q2 d' e' → ¬ (e' <. e) = true) := by
  obtain ⟨-, -, -, -, hpt⟩ := proper_state s p1 p2 q1 q2 h
  revert hpt
  unfold LI.intersection
  dsimp only
  rw [hs]
  dsimp only
  intro hpt
  split_ifs at hpt with hc
  · obtain ⟨d, e, h1, h2, h3⟩ := C86_nearest p1 p2 q1 q2
    exact Or.inr ⟨d, e, by rw [h1] at hpt; exact hpt, h2, h3⟩
  · left
    have : LI.isInSegmentEnvelopes ({ s with in00 := p1.fromCoordinate, in01 := p2.fromCoordinate, in10 := q1.fromCoordinate, in11 := q2.fromCoordinate, isProper := true, pm := none } : LI (Fl r))
        (LI.intersectionSafe p1 p2 q1 q2) = true := by simpa using hc
    unfold LI.isInSegmentEnvelopes at this
    rw [Bool.and_eq_true] at this
    unfold Env.coversCoordinate at this ⊢
    rw [hpt.1, hpt.2]
    exact this

end Nearest
section examples
local notation "pt" => fun (x y : ℚ) => (toB64 (Coord.xy x y) : Coord X64)

/-- A proper crossing of points that are not on a common grid of 32 bits. -/
example : ((LI.default : LI X64).compute4 (pt 0 0) (pt 1 (2 ^ 40)) (pt 0 (2 ^ 39)) (pt (1 + 1 / 2 ^ 50) 0)).isProper = true := by decide +kernel

example : ((LI.default : LI X64).compute4 (pt 0 0) (pt 4 0) (pt 1 0) (pt 9 0)).result = 2 ∧
    ((LI.default : LI X64).compute4 (pt 0 0) (pt 4 0) (pt 1 0) (pt 9 0)).isProper = false ∧
    ((LI.default : LI X64).compute4 (pt 0 0) (pt 4 0) (pt 5 0) (pt 9 0)).result = 0 := by decide +kernel

/-- The fallback point of two segments. -/
example : (LI.nearestEndpoint (Coord.xy (Fl.fin 0) (Fl.fin 0) : Coord X64) (pt 4 0) (pt 2 (-1)) (pt 2 3)).x = Fl.fin 2 := by decide +kernel

end examples

end Verif.Props
