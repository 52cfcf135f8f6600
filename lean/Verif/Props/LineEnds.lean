import Verif.Props.Factory
import Verif.Props.LineString

/-! # C71: ends, closure and boundary of lines -/

set_option linter.unusedSectionVars false

namespace Verif.Props
open Flt Verif.Spec Verif.GeometryFactory

/-- What it is to begin and end at the same place of the plane. -/
def endsMeet {α : Type} [Flt α] (l : List (Coord α)) : Bool :=
  match l.head?, l.getLast? with
  | some a, some b => (a.x ==. b.x) && (a.y ==. b.y)
  | _, _ => false

section
variable {α : Type} [Flt α]

/-- C71: the start and end points of a line are points with its first and last coordinate; the `n`-th point has the `n`-th coordinate, and asking beyond the end panics. An empty line has no ends. -/
theorem C71_ends (l : LineString α) :
    (∀ c, l.getCoordinates.head? = some c → ∃ p, l.getStartPoint = .ok (some p) ∧ p.getCoordinates = .ok [c]) ∧
    (∀ c, l.getCoordinates.getLast? = some c → ∃ p, l.getEndPoint = .ok (some p) ∧ p.getCoordinates = .ok [c]) ∧
    (l.getCoordinates = [] → l.getStartPoint = .ok none ∧ l.getEndPoint = .ok none) ∧
    (∀ n c, l.getCoordinates[n]? = some c → ∃ p, l.getPointN n = .ok p ∧ p.getCoordinates = .ok [c]) ∧
    (∀ n, l.getCoordinates.length ≤ n → ∃ e, l.getPointN n = .error e) := by
  obtain ⟨⟨d, m, cs⟩, env⟩ := l
  have hp : ∀ n c, cs[n]? = some c → ∃ p, LineString.getPointN (⟨⟨d, m, cs⟩, env⟩ : LineString α) n = .ok p ∧ p.getCoordinates = .ok [c] := by
    intro n c h
    obtain ⟨p, h1, h2, -⟩ := (C68_point c (⟨d, m, cs⟩ : CASeq α)).1
    obtain ⟨hn, rfl⟩ := List.getElem?_eq_some_iff.mp h
    exact ⟨p, by rw [LineString.getPointN, CASeq.getCoordinate, Res.get_lt hn, Res.bind_ok, h1], h2⟩
  refine ⟨?_, ?_, ?_, hp, ?_⟩
  · intro c h
    have h : cs[0]? = some c := by rw [← List.head?_eq_getElem?]; exact h
    have he : LineString.isEmpty (⟨⟨d, m, cs⟩, env⟩ : LineString α) = false := by
      cases cs <;> simp_all [LineString.isEmpty, CASeq.size]
    obtain ⟨p, h1, h2⟩ := hp 0 c h
    exact ⟨p, by rw [LineString.getStartPoint, he, if_neg (by simp), h1]; rfl, h2⟩
  · intro c h
    have h : cs[cs.length - 1]? = some c := by rw [← List.getLast?_eq_getElem?]; exact h
    have hne : cs ≠ [] := by rintro rfl; simp at h
    have hl : 1 ≤ cs.length := List.length_pos_iff.mpr hne
    have he : LineString.isEmpty (⟨⟨d, m, cs⟩, env⟩ : LineString α) = false := by
      cases cs <;> simp_all [LineString.isEmpty, CASeq.size]
    obtain ⟨p, h1, h2⟩ := hp _ c h
    refine ⟨p, ?_, h2⟩
    rw [LineString.getEndPoint, he, if_neg (by simp), show Res.sub (LineString.getNumPoints (⟨⟨d, m, cs⟩, env⟩ : LineString α)) 1 = .ok (cs.length - 1) by
      simp [Res.sub, LineString.getNumPoints, CASeq.size, hl], Res.bind_ok, h1]
    rfl
  · intro h
    have h : cs = [] := h
    subst h
    exact ⟨rfl, rfl⟩
  · intro n h
    have h : cs[n]? = none := List.getElem?_eq_none h
    exact ⟨_, by rw [LineString.getPointN, CASeq.getCoordinate, Res.get, h]; rfl⟩

theorem line_closed (l : LineString α) : l.isClosed = .ok (endsMeet l.getCoordinates) := by
  obtain ⟨⟨d, m, cs⟩, env⟩ := l
  cases cs with
  | nil => rfl
  | cons a t =>
    simp only [LineString.isClosed, LineString.isEmpty, CASeq.size, CASeq.getCoordinate, LineString.getNumPoints,
      LineString.getCoordinates, endsMeet, Res.get, Res.sub, List.head?_cons]
    simp [List.getLast?_eq_getElem?, Coord.equals2D]

/-- C71: a line is closed, and counts as a ring, exactly if it is not empty and its first and last coordinate are equal in x and y; its
boundary is then empty (dimension -1), and else it has dimension 0. -/
theorem C71_closed (l : LineString α) :
    l.isClosed = .ok (endsMeet l.getCoordinates) ∧ l.isRing = .ok (endsMeet l.getCoordinates) ∧
    l.getBoundaryDimension = .ok (if endsMeet l.getCoordinates then -1 else 0) :=
  ⟨line_closed l, line_closed l, by rw [LineString.getBoundaryDimension, line_closed]; rfl⟩

/-- C71: reversing a line (without measures) swaps its ends, and keeps it closed or open. -/
theorem C71_reverse [FltOrd α] (l : LineString α) (hu : Unmeasured l.points) :
    ∃ k, l.reverse = .ok k ∧ k.getStartPoint = l.getEndPoint ∧ k.getEndPoint = l.getStartPoint ∧
      k.isClosed = l.isClosed := by
  have hc : ∀ a b : α, (a ==. b) = (b ==. a) := by
    intro a b
    rw [Bool.eq_iff_iff, FltOrd.eq_iff, FltOrd.eq_iff]
    constructor <;> rintro ⟨h1, h2, h3⟩ <;> exact ⟨h2, h1, h3.symm⟩
  refine ⟨_, (C48_reverse_partial l hu).1, ?_, ?_, ?_⟩
  all_goals
    obtain ⟨⟨d, m, cs⟩, env⟩ := l
  · rcases List.eq_nil_or_concat cs with rfl | ⟨t, a, rfl⟩
    · rfl
    · simp [LineString.getStartPoint, LineString.getEndPoint, LineString.isEmpty, flipped, CASeq.size, LineString.getPointN, LineString.getNumPoints,
        CASeq.getCoordinate, Res.get, Res.sub]
  · cases cs with
    | nil => rfl
    | cons a t =>
      simp [LineString.getStartPoint, LineString.getEndPoint, LineString.isEmpty, flipped, CASeq.size, LineString.getPointN, LineString.getNumPoints,
        CASeq.getCoordinate, Res.get, Res.sub]
  · rw [line_closed, line_closed]
    simp only [LineString.getCoordinates, flipped, endsMeet, List.head?_reverse, List.getLast?_reverse]
    cases h1 : cs.head? with
    | none => cases h2 : cs.getLast? <;> rfl
    | some a =>
      cases h2 : cs.getLast? with
      | none => rfl
      | some b =>
        simp only [hc b.x, hc b.y]

theorem findSome_all {A : Type} (f : A → Bool) (l : List A) :
    (l.findSome? (fun a => if !f a then some false else none)).getD true = l.all f := by
  induction l with
  | nil => rfl
  | cons a t ih =>
    rw [List.findSome?_cons, List.all_cons]
    cases h : f a
    · rfl
    · simpa [h] using ih

/-- C71: a collection of lines is empty if all its lines are; it is closed if it is not empty and all its lines are closed. -/
theorem C71_multi (m : MultiLineString α) :
    m.isEmpty = .ok (m.lineStrings.all (fun l => l.getCoordinates.isEmpty)) ∧
    m.isClosed = .ok (!m.lineStrings.isEmpty && m.lineStrings.all (fun l => endsMeet l.getCoordinates)) ∧
    m.getBoundaryDimension = .ok (if m.lineStrings ≠ [] ∧ ∀ l ∈ m.lineStrings, endsMeet l.getCoordinates = true then -1 else 0) := by
  have h1 : m.isEmpty = .ok (m.lineStrings.all (fun l => l.getCoordinates.isEmpty)) := by
    rw [MultiLineString.isEmpty, forFind_findSome m.lineStrings 0 m.lineStrings.length (by omega) _
      (fun l => if !l.getCoordinates.isEmpty then some false else none) (by
        intro k hk
        rw [Nat.zero_add, Res.get_lt hk, Res.bind_ok]
        have : (m.lineStrings[k]).isEmpty = (m.lineStrings[k]).getCoordinates.isEmpty := by
          rcases m.lineStrings[k] with ⟨⟨d, m, cs⟩, env⟩
          cases cs <;> rfl
        rw [this]; rfl), Res.bind_ok, findSome_all]
    rfl
  have h2 : m.isClosed = .ok (!m.lineStrings.isEmpty && m.lineStrings.all (fun l => endsMeet l.getCoordinates)) := by
    rw [MultiLineString.isClosed, h1, Res.bind_ok]
    by_cases he : m.lineStrings.all (fun l => l.getCoordinates.isEmpty) = true
    · rw [if_pos he]
      cases hl : m.lineStrings with
      | nil => rfl
      | cons a t =>
        rw [hl, List.all_cons, Bool.and_eq_true] at he
        have : a.getCoordinates = [] := List.isEmpty_iff.mp he.1
        simp [this, endsMeet]
    · rw [if_neg he, forFind_findSome m.lineStrings 0 m.lineStrings.length (by omega) _
        (fun l => if !endsMeet l.getCoordinates then some false else none) (by
          intro k hk
          rw [Nat.zero_add, Res.get_lt hk, Res.bind_ok, line_closed]; rfl), Res.bind_ok, findSome_all]
      cases hl : m.lineStrings with
      | nil => rw [hl] at he; simp at he
      | cons a t => rfl
  refine ⟨h1, h2, ?_⟩
  rw [MultiLineString.getBoundaryDimension, h2, Res.bind_ok]
  show Except.ok _ = _
  congr 1
  refine if_congr ?_ rfl rfl
  cases hl : m.lineStrings <;> simp

end

/-- C71: nothing else is asked of a ring: a line that goes back and forth, or crosses itself, counts as one. -/
theorem C71_ring_not_simple : ∃ l : LineString EQ, createLineStringCoordinates
      [Coord.xy (Fl.fin 0) (Fl.fin 0), Coord.xy (Fl.fin 1) (Fl.fin 0), Coord.xy (Fl.fin 0) (Fl.fin 0)] = .ok l ∧ l.isRing = .ok true :=
  ⟨_, rfl, by decide +kernel⟩

example : ∃ l : LineString EQ, createLineStringCoordinates [Coord.xy (Fl.fin 0) (Fl.fin 0), Coord.xy (Fl.fin 1) (Fl.fin 2)] = .ok l ∧
    l.isClosed = .ok false ∧ l.getBoundaryDimension = .ok 0 := ⟨_, rfl, by decide +kernel, by decide +kernel⟩

end Verif.Props
