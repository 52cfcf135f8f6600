import Verif.Model.LineIntersector
import Verif.Props.IntersectorAny
import Verif.Props.LineIntersector

/-! # C136: an intersector used again

For every arithmetic: what a segment intersector answers after any history of calls, and which answers are left over from earlier
calls. -/

namespace Verif.Props
open Flt Verif.Spec Verif.Binary64

/-- A call which changes an intersector. -/
inductive LICall (α : Type) where
  /-- point against segment -/
  | three (p p1 p2 : Coord α)
  /-- segment against segment -/
  | four (p1 p2 q1 q2 : Coord α)
  | model (m : PM α)

section reuse
variable {α : Type} [FltSqrt α] [FltRound α]

/-- The intersector after a call. -/
def LICall.run (s : LI α) : LICall α → LI α
  | .three p p1 p2 => s.compute3 p p1 p2
  | .four p1 p2 q1 q2 => s.compute4 p1 p2 q1 q2
  | .model m => s.setPrecisionModel m

/-- The model set last. -/
def lastModel (pm : Option (PM α)) : List (LICall α) → Option (PM α)
  | [] => pm
  | .model m :: ops => lastModel (some m) ops
  | _ :: ops => lastModel pm ops

/-- A new intersector with that model. -/
def freshLI (pm : Option (PM α)) : LI α := { LI.default with pm := pm }

/-- All four points are on a line, as far as the orientation tests tell. -/
def FourCollinear (p1 p2 q1 q2 : Coord α) : Prop :=
  Orientation.index p1 p2 q1 = 0 ∧ Orientation.index p1 p2 q2 = 0 ∧ Orientation.index q1 q2 p1 = 0 ∧ Orientation.index q1 q2 p2 = 0

/-- One call: the code and the flag are those of a new intersector; the first point is that of a new intersector if there is an
intersection, else it stays; the second point is that of a new intersector if there is an intersection of collinear segments, else
it stays. -/
theorem C136_segments (s : LI α) (p1 p2 q1 q2 : Coord α) :
    (s.compute4 p1 p2 q1 q2).result = ((freshLI s.pm).compute4 p1 p2 q1 q2).result ∧
    (s.compute4 p1 p2 q1 q2).isProper = ((freshLI s.pm).compute4 p1 p2 q1 q2).isProper ∧
    (((freshLI s.pm).compute4 p1 p2 q1 q2).result ≠ 0 → (s.compute4 p1 p2 q1 q2).pt0 = ((freshLI s.pm).compute4 p1 p2 q1 q2).pt0) ∧
    (((freshLI s.pm).compute4 p1 p2 q1 q2).result = 0 → (s.compute4 p1 p2 q1 q2).pt0 = s.pt0) ∧
    (((freshLI s.pm).compute4 p1 p2 q1 q2).result ≠ 0 ∧ FourCollinear p1 p2 q1 q2 →
      (s.compute4 p1 p2 q1 q2).pt1 = ((freshLI s.pm).compute4 p1 p2 q1 q2).pt1) ∧
    (¬ (((freshLI s.pm).compute4 p1 p2 q1 q2).result ≠ 0 ∧ FourCollinear p1 p2 q1 q2) → (s.compute4 p1 p2 q1 q2).pt1 = s.pt1) ∧
    (s.compute4 p1 p2 q1 q2).pm = s.pm := by
  unfold FourCollinear LI.compute4 LI.computeIntersect LI.computeCollinear LI.intersection LI.isInSegmentEnvelopes freshLI
  dsimp only
  generalize Orientation.index p1 p2 q1 = a
  generalize Orientation.index p1 p2 q2 = b
  generalize Orientation.index q1 q2 p1 = c
  generalize Orientation.index q1 q2 p2 = d
  generalize Env.intersects4 p1 p2 q1 q2 = e
  by_cases h1 : (!e) = true
  · simp only [h1, if_true]; simp
  by_cases h2 : (a > 0 ∧ b > 0) ∨ (a < 0 ∧ b < 0)
  · simp only [h1, h2, if_true]; simp
  by_cases h3 : (c > 0 ∧ d > 0) ∨ (c < 0 ∧ d < 0)
  · simp only [h1, h2, h3, if_true, if_false]; simp
  by_cases h4 : a = 0 ∧ b = 0 ∧ c = 0 ∧ d = 0
  · rw [if_neg h1, if_neg h1, if_neg h2, if_neg h2, if_neg h3, if_neg h3, if_pos h4, if_pos h4]
    simp only [h4, and_self, and_true]
    generalize Env.intersects3 p1 p2 q1 = i1
    generalize Env.intersects3 p1 p2 q2 = i2
    generalize Env.intersects3 q1 q2 p1 = i3
    generalize Env.intersects3 q1 q2 p2 = i4
    generalize LI.copyWithZInterpolate q1 p1 p2 = z1
    generalize LI.copyWithZInterpolate q2 p1 p2 = z2
    generalize LI.copyWithZInterpolate p1 q1 q2 = z3
    generalize LI.copyWithZInterpolate p2 q1 q2 = z4
    generalize q1.equals2D p1 = e1
    generalize q1.equals2D p2 = e2
    generalize q2.equals2D p1 = e3
    generalize q2.equals2D p2 = e4
    cases i1 <;> cases i2 <;> cases i3 <;> cases i4 <;> simp <;> split_ifs <;> simp
  by_cases h5 : a = 0 ∨ b = 0 ∨ c = 0 ∨ d = 0
  · simp only [h1, h2, h3, h4, h5, if_true, if_false]; simp
  · simp only [h1, h2, h3, h4, h5, if_false]; simp

omit [FltRound α] in
/-- Point against segment: the points stay what they were, whatever the answer. -/
theorem C136_point (s : LI α) (p p1 p2 : Coord α) :
    (s.compute3 p p1 p2).pt0 = s.pt0 ∧ (s.compute3 p p1 p2).pt1 = s.pt1 ∧ (s.compute3 p p1 p2).pm = s.pm ∧
    (s.compute3 p p1 p2).result = (LI.default.compute3 p p1 p2).result ∧
    (s.compute3 p p1 p2).isProper = (LI.default.compute3 p p1 p2).isProper := by
  unfold LI.compute3
  split <;> simp

/-- The intersector after the calls. -/
def runLI (s : LI α) (ops : List (LICall α)) : LI α := ops.foldl LICall.run s

/-- The call finds an intersection of two segments. -/
def LICall.Meets : LICall α → Prop
  | .four p1 p2 q1 q2 => (LI.default.compute4 p1 p2 q1 q2).result ≠ 0
  | _ => False

/-- The call finds an intersection of two collinear segments. -/
def LICall.MeetsCollinear : LICall α → Prop
  | .four p1 p2 q1 q2 => (LI.default.compute4 p1 p2 q1 q2).result ≠ 0 ∧ FourCollinear p1 p2 q1 q2
  | _ => False

theorem run_pm (s : LI α) (c : LICall α) : (c.run s).pm = lastModel s.pm [c] := by
  cases c with
  | three p p1 p2 => exact (C136_point s p p1 p2).2.2.1
  | four p1 p2 q1 q2 => exact (C136_segments s p1 p2 q1 q2).2.2.2.2.2.2
  | model m => rfl

theorem runLI_pm (s : LI α) (ops : List (LICall α)) : (runLI s ops).pm = lastModel s.pm ops := by
  induction ops generalizing s with
  | nil => rfl
  | cons c ops ih =>
    change (runLI (c.run s) ops).pm = _
    rw [ih, run_pm]
    cases c <;> rfl

theorem run_pt0 (s : LI α) (c : LICall α) (h : ¬ c.Meets) : (c.run s).pt0 = s.pt0 := by
  cases c with
  | three p p1 p2 => exact (C136_point s p p1 p2).1
  | four p1 p2 q1 q2 =>
    refine (C136_segments s p1 p2 q1 q2).2.2.2.1 ?_
    rw [(C38_no_history (freshLI s.pm) LI.default p1 p2 q1 q2).1]
    by_contra h'; exact h h'
  | model m => rfl

theorem run_pt1 (s : LI α) (c : LICall α) (h : ¬ c.MeetsCollinear) : (c.run s).pt1 = s.pt1 := by
  cases c with
  | three p p1 p2 => exact (C136_point s p p1 p2).2.1
  | four p1 p2 q1 q2 =>
    refine (C136_segments s p1 p2 q1 q2).2.2.2.2.2.1 ?_
    rw [(C38_no_history (freshLI s.pm) LI.default p1 p2 q1 q2).1]
    exact h
  | model m => rfl

theorem runLI_pt0 (s : LI α) (ops : List (LICall α)) (h : ∀ c ∈ ops, ¬ c.Meets) : (runLI s ops).pt0 = s.pt0 := by
  induction ops generalizing s with
  | nil => rfl
  | cons c ops ih =>
    exact (ih (c.run s) fun c' hc' => h c' (List.mem_cons_of_mem _ hc')).trans (run_pt0 s c (h c List.mem_cons_self))

theorem runLI_pt1 (s : LI α) (ops : List (LICall α)) (h : ∀ c ∈ ops, ¬ c.MeetsCollinear) : (runLI s ops).pt1 = s.pt1 := by
  induction ops generalizing s with
  | nil => rfl
  | cons c ops ih =>
    exact (ih (c.run s) fun c' hc' => h c' (List.mem_cons_of_mem _ hc')).trans (run_pt1 s c (h c List.mem_cons_self))

theorem runLI_append (s : LI α) (xs ys : List (LICall α)) : runLI s (xs ++ ys) = runLI (runLI s xs) ys := List.foldl_append

/-- After any history: code and flag are those of a new intersector given the last computation. -/
theorem C136_history (s : LI α) (pre post : List (LICall α)) (p1 p2 q1 q2 : Coord α) :
    (∀ c ∈ post, ∃ m, c = .model m) →
      (runLI s (pre ++ .four p1 p2 q1 q2 :: post)).result = (LI.default.compute4 p1 p2 q1 q2).result ∧
      (runLI s (pre ++ .four p1 p2 q1 q2 :: post)).isProper = (LI.default.compute4 p1 p2 q1 q2).isProper ∧
      (runLI s (pre ++ .three p1 p2 q1 :: post)).result = (LI.default.compute3 p1 p2 q1).result ∧
      (runLI s (pre ++ .three p1 p2 q1 :: post)).isProper = (LI.default.compute3 p1 p2 q1).isProper := by
  intro h
  have keep : ∀ (t : LI α) (ops : List (LICall α)), (∀ c ∈ ops, ∃ m, c = .model m) → (runLI t ops).result = t.result ∧ (runLI t ops).isProper = t.isProper := by
    intro t ops
    induction ops generalizing t with
    | nil => intro _; exact ⟨rfl, rfl⟩
    | cons c ops ih =>
      intro h
      obtain ⟨m, rfl⟩ := h c List.mem_cons_self
      exact ih (t.setPrecisionModel m) fun c hc => h c (List.mem_cons_of_mem _ hc)
  rw [runLI_append, runLI_append]
  change (runLI ((runLI s pre).compute4 p1 p2 q1 q2) post).result = _ ∧ (runLI ((runLI s pre).compute4 p1 p2 q1 q2) post).isProper = _ ∧
    (runLI ((runLI s pre).compute3 p1 p2 q1) post).result = _ ∧ (runLI ((runLI s pre).compute3 p1 p2 q1) post).isProper = _
  rw [(keep _ post h).1, (keep _ post h).2, (keep _ post h).1, (keep _ post h).2]
  exact ⟨(C38_no_history _ _ p1 p2 q1 q2).1, (C38_no_history _ _ p1 p2 q1 q2).2, (C136_point _ p1 p2 q1).2.2.2.1, (C136_point _ p1 p2 q1).2.2.2.2⟩

/-- After any history: the first point is that of the last computation which found two segments to meet, made by a new intersector
with the model set then; the second point that of the last computation which found two collinear segments to meet; without such a
computation they are those of the start. -/
theorem C136_points (s : LI α) (ops pre post : List (LICall α)) (p1 p2 q1 q2 : Coord α) :
    ((LICall.four p1 p2 q1 q2).Meets → (∀ c ∈ post, ¬ c.Meets) →
      (runLI s (pre ++ .four p1 p2 q1 q2 :: post)).getIntersection 0 =
        ((freshLI (lastModel s.pm pre)).compute4 p1 p2 q1 q2).getIntersection 0) ∧
    ((LICall.four p1 p2 q1 q2).MeetsCollinear → (∀ c ∈ post, ¬ c.MeetsCollinear) →
      (runLI s (pre ++ .four p1 p2 q1 q2 :: post)).getIntersection 1 =
        ((freshLI (lastModel s.pm pre)).compute4 p1 p2 q1 q2).getIntersection 1) ∧
    ((∀ c ∈ ops, ¬ c.Meets) → (runLI s ops).getIntersection 0 = s.getIntersection 0) ∧
    ((∀ c ∈ ops, ¬ c.MeetsCollinear) → (runLI s ops).getIntersection 1 = s.getIntersection 1) := by
  have g0 : ∀ t : LI α, t.getIntersection 0 = .ok t.pt0 := fun _ => rfl
  have g1 : ∀ t : LI α, t.getIntersection 1 = .ok t.pt1 := fun _ => rfl
  simp only [g0, g1, runLI_append]
  have e : ∀ t : LI α, runLI t (.four p1 p2 q1 q2 :: post) = runLI (t.compute4 p1 p2 q1 q2) post := fun _ => rfl
  simp only [e]
  have key := C136_segments (runLI s pre) p1 p2 q1 q2
  rw [runLI_pm] at key
  obtain ⟨-, -, k3, -, k5, -, -⟩ := key
  refine ⟨fun h h' => ?_, fun h h' => ?_, fun h => by rw [runLI_pt0 s ops h], fun h => by rw [runLI_pt1 s ops h]⟩
  · rw [runLI_pt0 _ post h', k3]
    rw [(C38_no_history _ LI.default p1 p2 q1 q2).1]; exact h
  · rw [runLI_pt1 _ post h', k5]
    rw [(C38_no_history _ LI.default p1 p2 q1 q2).1]; exact h

end reuse

/-! ## Left over points -/

private def rp (x y : ℚ) : Coord X64 := Coord.xy (Fl.fin x) (Fl.fin y)

/-- Left over points are handed out: after two segments touching in one point the second point is that of the two segments before,
on neither segment; and a point found on a segment is not handed out, but the point of the two segments before. -/
theorem C136_left_over :
    let s := runLI LI.default [.four (rp 0 0) (rp 4 0) (rp 1 0) (rp 9 0), .four (rp 0 0) (rp 2 0) (rp 1 0) (rp 1 1)]
    let t := runLI LI.default [.four (rp 0 0) (rp 2 0) (rp 1 0) (rp 1 1), .three (rp 5 5) (rp 0 0) (rp 9 9)]
    s.result = 1 ∧ (s.getIntersection 0).map Coord.x = .ok (Fl.fin 1) ∧ (s.getIntersection 1).map Coord.x = .ok (Fl.fin 4) ∧
    t.hasIntersection = true ∧ (t.getIntersection 0).map Coord.x = .ok (Fl.fin 1) := by
  decide +kernel

example : (LICall.four (rp 0 0) (rp 4 0) (rp 1 0) (rp 9 0)).MeetsCollinear ∧ ¬ (LICall.four (rp 0 0) (rp 2 0) (rp 1 0) (rp 1 1)).MeetsCollinear ∧
    (LICall.four (rp 0 0) (rp 2 0) (rp 1 0) (rp 1 1)).Meets := by
  refine ⟨⟨by decide +kernel, by unfold FourCollinear; decide +kernel⟩, fun h => ?_, ?_⟩
  · exact absurd h.2 (by unfold FourCollinear; decide +kernel)
  · change (LI.default.compute4 (rp 0 0) (rp 2 0) (rp 1 0) (rp 1 1)).result ≠ 0
    decide +kernel

end Verif.Props
