import Verif.Props.Coordinate
import Verif.Props.Envelope
import Verif.Props.CoordinateList
import Verif.Props.SequencesMore
import Verif.Lemmas.Ext
import Verif.Lemmas.Doubles

/-! # Further theorems about C01, C03, C07, C10 and C60 -/

set_option linter.unusedSectionVars false

namespace Verif.Props
open Flt Verif.Spec Verif.Binary64 CoordList
variable {α : Type} [Flt α]

/-- C01: if an x is not a number, the comparison is that of the y; if a y is not a number, it is that of the x. -/
theorem C01_nan [FltOrd α] (a b : Coord α) :
    (isNaN a.x = true ∨ isNaN b.x = true →
      a.compareTo b = if a.y <. b.y then -1 else if b.y <. a.y then 1 else 0) ∧
    (isNaN a.y = true ∨ isNaN b.y = true →
      a.compareTo b = if a.x <. b.x then -1 else if b.x <. a.x then 1 else 0) := by
  simp only [Coord.compareTo, lt_eq]
  constructor <;> intro h <;> rcases h with h | h <;> simp [h]

/-- C03: an envelope is null exactly if its maximal x is less than its minimal x, and its area is then the product of two zeros:
zero in exact and in double arithmetic. -/
theorem C03_area [FltOrd α] [FltLit α] (e : Env α) :
    (e.isNull = true ↔ (e.maxx <. e.minx) = true) ∧ (e.isNull = true → e.area = lit 0 *. lit 0) ∧
    (∀ d : Env EQ, d.isNull = true → d.area = Fl.fin 0) ∧
    (∀ (sq : ℚ → Val) (hy : ℚ → ℚ → Val) (d : Env (B64 sq hy)), d.isNull = true → d.area = Fl.fin 0) := by
  refine ⟨Iff.rfl, fun h => ?_, fun d h => ?_, fun sq hy d h => ?_⟩
  · simp [Env.area, Env.width, Env.height, h]
  · simp only [Env.area, Env.width, Env.height, h, if_true]
    decide +kernel
  · simp only [Env.area, Env.width, Env.height, h, if_true]
    have : (lit 0 : B64 sq hy) = Fl.fin 0 := (by decide +kernel : rnd 0 = Val.fin 0)
    rw [this]
    exact (by decide +kernel : rnd (0 * 0) = Val.fin 0)

/-- `x` comes before `y` in the dictionary order of lists of numbers. -/
inductive Before : List α → List α → Prop
  | head (a b : α) (l m : List α) : (a <. b) = true → Before (a :: l) (b :: m)
  | tail (a b : α) (l m : List α) : (a ==. b) = true → Before l m → Before (a :: l) (b :: m)

/-- C07: null envelopes come before all others; others are compared by minimal x, then minimal y, maximal x, maximal y. -/
theorem C07_order [FltOrd α] (a b : Env α) (ha : a.WF) (hb : b.WF) :
    (a.isNull = true → b.isNull = false → a.compareTo b = -1) ∧
    (a.isNull = false → b.isNull = true → a.compareTo b = 1) ∧
    (a.isNull = false → b.isNull = false →
      (a.compareTo b = -1 ↔ Before [a.minx, a.miny, a.maxx, a.maxy] [b.minx, b.miny, b.maxx, b.maxy]) ∧
      (a.compareTo b = 1 ↔ Before [b.minx, b.miny, b.maxx, b.maxy] [a.minx, a.miny, a.maxx, a.maxy])) := by
  have key : ∀ (p q : α) (l m : List α), Before (p :: l) (q :: m) ↔
      (p <. q) = true ∨ ((p ==. q) = true ∧ Before l m) := by
    intro p q l m
    constructor
    · intro h
      cases h with
      | head _ _ _ _ h => exact .inl h
      | tail _ _ _ _ h h' => exact .inr ⟨h, h'⟩
    · rintro (h | ⟨h, h'⟩)
      · exact .head _ _ _ _ h
      · exact .tail _ _ _ _ h h'
  have nilF : ¬ Before ([] : List α) [] := nofun
  refine ⟨fun h h' => by simp [Env.compareTo, h, h'], fun h h' => by simp [Env.compareTo, h, h'], fun h h' => ?_⟩
  rcases ha.cases with hn | hA
  · rw [h] at hn; cases hn
  rcases hb.cases with hn | hB
  · rw [h'] at hn; cases hn
  simp only [key, nilF, and_false, or_false, Env.compareTo, h, h', lt_eq, eq_eq, hA.nx1, hA.nx2, hA.ny1, hA.ny2, hB.nx1,
    hB.nx2, hB.ny1, hB.ny2]
  grind

/-- What an operation appends: nothing is said about inserting and closing. -/
def ListOp.appended : ListOp α → Option (List (Coord α))
  | .add c => some [c]
  | .addAll cs => some cs
  | .addList cs => some cs
  | .addRange cs start stop => some ((cs.drop start).take (stop - start))
  | .addDirection cs _ => some cs
  | .insert _ _ => none
  | .closeRing => none

theorem ListOp.run_appended (op : ListOp α) (l l' cs : List (Coord α)) (h : op.appended = some cs) (hr : op.run l = .ok l') :
    l' = cs.foldl (fun l c => CoordList.add l c false) l := by
  cases op with
  | add c => cases h; cases hr; rfl
  | addAll c => cases h; simp only [ListOp.run, addAll_fst] at hr; cases hr; rfl
  | addList c => cases h; simp only [ListOp.run, addList_eq] at hr; cases hr; rfl
  | addRange c start stop =>
    cases h
    have hp := (C10_range l c false start stop).2
    have hne : ¬ ∃ e, CoordList.addRange l c false start stop = .error e := by
      rintro ⟨e, he⟩
      rw [show CoordList.addRange l c false start stop = .ok l' from hr] at he; cases he
    rw [hp] at hne
    push Not at hne
    by_cases hl : stop ≤ c.length
    · have := (C10_range l c false start stop).1 hne.1 hl
      rw [show CoordList.addRange l c false start stop = .ok l' from hr, addList_eq] at this
      exact Except.ok.inj this
    · have e : start = stop := by
        rcases Nat.eq_or_lt_of_le hne.1 with e | lt
        · exact e
        · exact absurd (hne.2 lt) (by omega)
      subst e
      simp only [ListOp.run, CoordList.addRange, gt_iff_lt, Nat.lt_irrefl, if_false] at hr
      rw [forRange_self _ _ (Nat.le_refl _)] at hr
      cases hr
      simp
  | addDirection c d =>
    cases h
    cases d with
    | true =>
      have : CoordList.addList l cs false = .ok l' := hr
      rw [addList_eq] at this
      exact (Except.ok.inj this).symm
    | false =>
      rw [show ListOp.run l (.addDirection cs false) = CoordList.addDirection l cs false false from rfl, C10_backward_always_panics] at hr
      cases hr
  | insert i c => cases h
  | closeRing => cases h

/-- C10: after any history of operations that append, the list is what was appended, in order, with runs of equal points collapsed
to their first. -/
theorem C10_history (ops : List (ListOp α)) (inputs : List (List (Coord α)))
    (hi : List.Forall₂ (fun op cs => ListOp.appended op = some cs) ops inputs) (l : List (Coord α))
    (h : ops.foldlM ListOp.run [] = .ok l) :
    l = inputs.flatten.destutter (fun a b => a.equals2D b = false) := by
  have : ∀ (ops : List (ListOp α)) (inputs : List (List (Coord α))) (l0 : List (Coord α)),
      List.Forall₂ (fun op cs => ListOp.appended op = some cs) ops inputs → ops.foldlM ListOp.run l0 = .ok l →
      l = inputs.flatten.foldl (fun l c => CoordList.add l c false) l0 := by
    intro ops
    induction ops with
    | nil => intro inputs l0 hf h; cases hf; cases h; rfl
    | cons op ops ih =>
      intro inputs l0 hf h
      cases hf with
      | @cons _ cs _ css h1 h2 =>
        rw [List.foldlM_cons] at h
        cases hr : op.run l0 with
        | error e => rw [hr] at h; cases h
        | ok l1 =>
          rw [hr] at h
          rw [List.flatten_cons, List.foldl_append, ← op.run_appended l0 l1 cs h1 hr]
          exact ih css l1 h2 h
  rw [this ops inputs [] hi h, foldl_add_nil]
  rfl

/-- C60: what `is_equal` decides for packed sequences: as many coordinates, and the ordinates within both dimensions equal or both NaN. -/
theorem C60_packed_isEqual_iff (a b : PSeq α) (ha : a.WF) (hb : b.WF) :
    Seqs.isEqual a b = .ok true ↔ ∃ n, a.size = .ok n ∧ b.size = .ok n ∧
      ∀ i k : Nat, i < n → (k : Int) < a.dimension → (k : Int) < b.dimension →
        ∃ u v, a.getOrd i k = .ok u ∧ b.getOrd i k = .ok v ∧ NanEq u v := by
  obtain ⟨r, h1, h2⟩ := isEqual_spec a b ha hb
  have sa : a.size = .ok a.n := SeqLaws.size_eq a ha
  have sb : b.size = .ok b.n := SeqLaws.size_eq b hb
  have ga : ∀ i < a.n, ∀ k < a.dimension.toNat, a.getOrd i (k : Int) = .ok (a.ord i k) := SeqLaws.get_eq a ha
  have gb : ∀ i < b.n, ∀ k < b.dimension.toNat, b.getOrd i (k : Int) = .ok (b.ord i k) := SeqLaws.get_eq b hb
  have hr : (Except.ok r : Res Bool) = .ok true ↔ r = true := by simp
  rw [h1, hr, h2]
  change (a.n = b.n ∧ ∀ i < a.n, ∀ k < (min a.dimension b.dimension).toNat, NanEq (a.ord i k) (b.ord i k)) ↔ _
  constructor
  · rintro ⟨e, h⟩
    refine ⟨a.n, sa, by rw [sb, e], fun i k hi hk1 hk2 => ?_⟩
    exact ⟨_, _, ga i hi k (by omega), gb i (by omega) k (by omega), h i hi k (by omega)⟩
  · rintro ⟨n, e1, e2, h⟩
    rw [sa] at e1; rw [sb] at e2
    cases e1
    have e : b.n = a.n := Except.ok.inj e2
    refine ⟨e.symm, fun i hi k hk => ?_⟩
    obtain ⟨u, v, hu, hv, huv⟩ := h i k hi (by omega) (by omega)
    rw [ga i hi k (by omega)] at hu
    rw [gb i (by omega) k (by omega)] at hv
    cases hu; cases hv
    exact huv

section examples
local notation "pt" => fun (x y : ℚ) => (Coord.xy (Fl.fin x) (Fl.fin y) : Coord EQ)

example : (Coord.xy Fl.nan (Fl.fin 2) : Coord EQ).compareTo (pt 1 3) = -1 ∧
    (pt 1 3).compareTo (Coord.xy (Fl.fin 0) Fl.nan) = 1 := by decide +kernel
example : (Env.newXY (Fl.fin 0) (Fl.fin 4) (Fl.fin 1) (Fl.fin 4) : Env EQ).compareTo
    (Env.newXY (Fl.fin 0) (Fl.fin 3) (Fl.fin 2) (Fl.fin 5)) = -1 ∧
    (Env.null : Env EQ).compareTo (Env.newXY (Fl.fin 0) (Fl.fin 3) (Fl.fin 2) (Fl.fin 5)) = -1 := by decide +kernel
example : [ListOp.add (pt 0 0), .addAll [pt 0 0, pt 1 0], .addRange [pt 1 0, pt 2 0, pt 2 0, pt 9 9] 0 3,
    .addDirection [pt 2 0, pt 0 0] true].foldlM ListOp.run [] = .ok [pt 0 0, pt 1 0, pt 2 0, pt 0 0] := by decide +kernel
end examples

end Verif.Props
