import Verif.Lemmas.CoordinateList

/-! # C10, C11, C12: coordinate lists without repeated points

`List.destutter R` (Mathlib) keeps the first element and then every element that is `R`-related to the last kept
one; with `R = Diff` (not `equals_2d`) it collapses runs of equal points to their first element. -/

set_option linter.unusedSectionVars false

namespace Verif.Props
open Flt CoordList
variable {α : Type} [Flt α]

/-- The operations of a `CoordinateList`, always with `allow_repeated = false`. -/
inductive ListOp (α : Type) where
  | add (c : Coord α)
  | addAll (cs : List (Coord α))
  | addList (cs : List (Coord α))
  | addRange (cs : List (Coord α)) (start stop : Nat)
  | addDirection (cs : List (Coord α)) (forward : Bool)
  | insert (i : Nat) (c : Coord α)
  | closeRing

/-- One operation. -/
def ListOp.run (l : List (Coord α)) : ListOp α → Res (List (Coord α))
  | .add c => .ok (CoordList.add l c false)
  | .addAll cs => .ok (CoordList.addAll l cs false).1
  | .addList cs => CoordList.addList l cs false
  | .addRange cs start stop => CoordList.addRange l cs false start stop
  | .addDirection cs d => CoordList.addDirection l cs false d
  | .insert i c => CoordList.insert l i c false
  | .closeRing => .ok (CoordList.closeRing l)

/-- No two adjacent points are `equals_2d`. -/
def NoRepeats (l : List (Coord α)) : Prop :=
  ∀ i a b, l[i]? = some a → l[i + 1]? = some b → a.equals2D b = false

theorem noRepeats_iff (l : List (Coord α)) : NoRepeats l ↔ l.IsChain Diff := by
  induction l with
  | nil => simp [NoRepeats]
  | cons a l ih =>
    cases l with
    | nil => simp [NoRepeats]
    | cons b l =>
      rw [List.isChain_cons_cons, ← ih]
      constructor
      · intro h
        exact ⟨h 0 a b rfl rfl, fun i x y hx hy => h (i + 1) x y (by simpa using hx) (by simpa using hy)⟩
      · rintro ⟨h1, h2⟩ i x y hx hy
        cases i with
        | zero => simp at hx hy; subst hx; subst hy; exact h1
        | succ i => exact h2 i x y (by simpa using hx) (by simpa using hy)

theorem closeRing_eq (a : Coord α) (l : List (Coord α)) :
    closeRing (a :: l) = CoordList.add (a :: l) a false := by simp [closeRing]

/-- One operation that does not panic keeps the invariant. -/
theorem C10_step (hsymm : ∀ a b : Coord α, a.equals2D b = b.equals2D a) (l l' : List (Coord α)) (op : ListOp α)
    (h : NoRepeats l) (hr : op.run l = .ok l') : NoRepeats l' := by
  rw [noRepeats_iff] at h ⊢
  have hadd : ∀ c, (CoordList.add l c false).IsChain Diff := fun c => by
    simpa using foldl_add_chain l [c] h
  have hrange : ∀ cs lo hi l', lo ≤ hi → forRange lo hi l (fun i l => do
      let c ← Res.get cs i
      pure (CoordList.add l c false)) = .ok l' → l'.IsChain Diff := by
    intro cs lo hi l' hlo hr
    by_cases hl : hi ≤ cs.length
    · rw [forRange_add _ _ _ _ _ hlo hl] at hr
      cases hr
      exact foldl_add_chain _ _ h
    · rcases Nat.eq_or_lt_of_le hlo with rfl | hlt
      · rw [forRange_self _ _ (Nat.le_refl _)] at hr; cases hr; exact h
      · rw [forRange_add_panic _ _ _ _ _ hlt (by omega)] at hr; cases hr
  cases op with
  | add c => cases hr; exact hadd c
  | addAll cs =>
    simp only [ListOp.run, addAll_fst] at hr; cases hr; exact foldl_add_chain _ _ h
  | addList cs => simp only [ListOp.run, addList_eq] at hr; cases hr; exact foldl_add_chain _ _ h
  | addRange cs start stop =>
    simp only [ListOp.run, CoordList.addRange] at hr
    split at hr
    · cases hg : Res.get cs start <;> rw [hg] at hr <;> cases hr
    · exact hrange cs start stop l' (by omega) hr
  | addDirection cs d =>
    simp only [ListOp.run, CoordList.addDirection] at hr
    split at hr
    · exact hrange cs 0 cs.length l' (by omega) hr
    · simp at hr
  | insert i c =>
    simp only [ListOp.run, CoordList.insert, vecInsert] at hr
    by_cases h0 : l.length = 0
    · have : l = [] := List.length_eq_zero_iff.mp h0
      subst this
      simp at hr
      split at hr
      · cases hr; exact List.isChain_singleton _
      · cases hr
    · have hpos : l.length > 0 := by omega
      simp only [Bool.not_false, Bool.true_and, hpos, decide_true, if_true] at hr
      split_ifs at hr with hprev hnext hi
      · cases hr; exact h
      · cases hr; exact h
      · cases hr
        have hsplit := h
        rw [← List.take_append_drop i l, List.isChain_append] at hsplit
        obtain ⟨ht, hd, -⟩ := hsplit
        rw [List.isChain_append]
        refine ⟨ht, ?_, ?_⟩
        · rw [List.isChain_cons]
          refine ⟨fun y hy => ?_, hd⟩
          rw [List.head?_drop, Option.mem_def] at hy
          have hil : i < l.length := by
            by_contra hc
            rw [List.getElem?_eq_none (by omega)] at hy; cases hy
          simp only [hil, decide_true, Bool.true_and, hy, Bool.not_eq_true] at hnext
          rw [Diff, hsymm]; exact hnext
        · intro x hx y hy
          simp at hy; subst hy
          have hi0 : 0 < i := by
            rcases Nat.eq_zero_or_pos i with rfl | h'
            · simp at hx
            · exact h'
          have hx' : l[i - 1]? = some x := by
            rw [Option.mem_def, List.getLast?_take] at hx
            simp only [Nat.ne_of_gt hi0, if_false] at hx
            have : l[i - 1]? = some l[i - 1] := List.getElem?_eq_getElem (by omega)
            rw [this] at hx ⊢
            simpa using hx
          simp only [hi0, decide_true, Bool.true_and, hx', Bool.not_eq_true] at hprev
          exact hprev
  | closeRing =>
    cases hr
    cases l with
    | nil => exact h
    | cons a l => rw [closeRing_eq]; exact hadd a

/-- Any history of operations that disallow repeats, from the empty list: no two adjacent points are equal. -/
theorem C10_no_repeats [FltOrd α] (ops : List (ListOp α)) (l : List (Coord α))
    (h : ops.foldlM ListOp.run [] = .ok l) : NoRepeats l := by
  have hsymm : ∀ a b : Coord α, a.equals2D b = b.equals2D a := fun a b => by
    simp only [Coord.equals2D, eq_eq]; grind
  have : ∀ (ops : List (ListOp α)) (l0 : List (Coord α)), NoRepeats l0 → ops.foldlM ListOp.run l0 = .ok l →
      NoRepeats l := by
    intro ops
    induction ops with
    | nil => intro l0 h0 h; cases h; exact h0
    | cons op ops ih =>
      intro l0 h0 h
      rw [List.foldlM_cons] at h
      cases h1 : op.run l0 with
      | error e => rw [h1] at h; cases h
      | ok l1 => rw [h1] at h; exact ih l1 (C10_step hsymm l0 l1 op h0 h1) h
  exact this ops [] (by simp [NoRepeats]) h

/-- Appending operations collapse runs of equal points to their first element; with repeats allowed they
append everything. No panic. -/
theorem C10_appends_collapse (cs : List (Coord α)) :
    newWithRepeated cs false = .ok (cs.destutter (fun a b => a.equals2D b = false)) ∧
    newWithRepeated cs true = .ok cs ∧
    (addAll [] cs false).1 = cs.destutter (fun a b => a.equals2D b = false) ∧
    (addAll [] cs true).1 = cs ∧
    ∀ l b, addList l cs b = .ok (addAll l cs b).1 := by
  refine ⟨?_, ?_, ?_, ?_, fun l b => ?_⟩
  · rw [newWithRepeated, addList_eq, foldl_add_nil]; rfl
  · rw [newWithRepeated, addList_eq, foldl_add_true]; rfl
  · rw [addAll_fst, foldl_add_nil]; rfl
  · rw [addAll_fst, foldl_add_true]; rfl
  · rw [addList_eq, addAll_fst]

/-- Appending in several calls is the same as appending everything at once. -/
theorem C10_batches (css : List (List (Coord α))) :
    css.foldlM (fun l cs => addList l cs false) [] = .ok (css.flatten.destutter (fun a b => a.equals2D b = false)) := by
  have : ∀ (css : List (List (Coord α))) (l : List (Coord α)),
      css.foldlM (fun l cs => addList l cs false) l =
        (.ok (css.flatten.foldl (fun l c => CoordList.add l c false) l) : Res _) := by
    intro css
    induction css with
    | nil => intro l; rfl
    | cons cs css ih =>
      intro l
      rw [List.foldlM_cons, addList_eq, Res.bind_ok, ih, List.flatten_cons, List.foldl_append]
  rw [this, foldl_add_nil]; rfl

/-- Adding a range adds the half-open window, and panics exactly if it is reversed or leaves the array. -/
theorem C10_range (l cs : List (Coord α)) (b : Bool) (start stop : Nat) :
    (start ≤ stop → stop ≤ cs.length →
      addRange l cs b start stop = addList l ((cs.drop start).take (stop - start)) b) ∧
    ((∃ e, addRange l cs b start stop = .error e) ↔ stop < start ∨ (start < stop ∧ cs.length < stop)) := by
  constructor
  · intro h1 h2
    rw [CoordList.addRange, if_neg (by omega), forRange_add _ _ _ _ _ h1 h2, addList_eq]
  · rw [CoordList.addRange]
    split
    · rename_i h
      simp only [show stop < start from h, true_or, iff_true]
      cases Res.get cs start with
      | error e => exact ⟨e, rfl⟩
      | ok c => exact ⟨_, rfl⟩
    · rename_i h
      constructor
      · rintro ⟨e, he⟩
        by_contra hc
        push Not at hc
        rcases Nat.eq_or_lt_of_le (Nat.le_of_not_lt h) with h' | h'
        · rw [forRange_self _ _ (by omega)] at he; cases he
        · rw [forRange_add _ _ _ _ _ (by omega) (hc.2 h')] at he; cases he
      · rintro (h' | ⟨h1, h2⟩)
        · exact absurd h' h
        · exact ⟨_, forRange_add_panic _ _ _ _ _ h1 h2⟩

/-- Adding a list backwards always panics: the loop starts one past the end. -/
theorem C10_backward_always_panics (l cs : List (Coord α)) (b : Bool) :
    addDirection l cs b false = .error .index := by
  simp [addDirection]

/-- Reading the list backwards gives the reverse. -/
theorem C10_toArray (l : List (Coord α)) : toArray l true = .ok l ∧ toArray l false = .ok l.reverse := by
  refine ⟨rfl, ?_⟩
  simp only [toArray, Bool.false_eq_true, if_false]
  refine (forRange_closed 0 l.length _
    (fun k => l.reverse.take k ++ List.replicate (l.length - k) Coord.default) (Nat.zero_le _) ?_).trans ?_
  · intro i _ hi
    have h1 : l.length - i - 1 < l.length := by omega
    simp only [Res.sub_le (Nat.le_of_lt hi), Res.bind_ok, Res.sub_le (show 1 ≤ l.length - i by omega),
      List.getElem?_eq_getElem h1]
    rw [Res.set_lt (by simp; omega)]
    congr 1
    apply List.ext_getElem?
    intro j
    grind
  · simp [List.take_of_length_le]

section C11
variable [FltOrd α]

/-- `close_ring` on a non-empty list: unchanged if already closed, else the first coordinate is appended. -/
theorem C11_closeRing (a : Coord α) (l : List (Coord α)) :
    closeRing ([] : List (Coord α)) = [] ∧
    (((a :: l).getLast (by simp)).equals2D a = true → closeRing (a :: l) = a :: l) ∧
    (((a :: l).getLast (by simp)).equals2D a = false → closeRing (a :: l) = a :: l ++ [a]) := by
  refine ⟨rfl, ?_, ?_⟩ <;> intro h <;> rw [closeRing_eq] <;>
  · obtain ⟨p, b, hp⟩ : ∃ p b, a :: l = p ++ [b] := by
      rcases List.eq_nil_or_concat (a :: l) with h | ⟨p, b, h⟩
      · cases h
      · exact ⟨p, b, by rw [h, List.concat_eq_append]⟩
    have hb : (a :: l).getLast (by simp) = b := by simp [hp]
    rw [hb] at h
    rw [hp, add_concat, h]
    simp

/-- After `close_ring` the list is closed, for a first coordinate without NaN. -/
theorem C11_closed_partial (l : List (Coord α)) (h : l ≠ []) (hn : (l.head h).NN) :
    ∃ a b, (closeRing l).head? = some a ∧ (closeRing l).getLast? = some b ∧ b.equals2D a = true := by
  cases l with
  | nil => cases h rfl
  | cons a l =>
    have haa : a.equals2D a = true := by
      obtain ⟨h1, h2⟩ := hn
      simp only [List.head_cons] at h1 h2
      simp [Coord.equals2D, eq_eq, h1, h2]
    by_cases hc : ((a :: l).getLast (by simp)).equals2D a = true
    · rw [(C11_closeRing a l).2.1 hc]
      exact ⟨a, _, rfl, List.getLast?_eq_some_getLast (by simp), hc⟩
    · rw [(C11_closeRing a l).2.2 (by simpa using hc)]
      exact ⟨a, a, rfl, List.getLast?_concat, haa⟩

/-- A second call changes nothing, for a first coordinate without NaN. -/
theorem C11_idempotent_partial (l : List (Coord α)) (hn : ∀ h : l ≠ [], (l.head h).NN) :
    closeRing (closeRing l) = closeRing l := by
  cases l with
  | nil => rfl
  | cons a l =>
    by_cases hc : ((a :: l).getLast (by simp)).equals2D a = true
    · rw [(C11_closeRing a l).2.1 hc, (C11_closeRing a l).2.1 hc]
    · rw [(C11_closeRing a l).2.2 (by simpa using hc)]
      rw [List.cons_append]
      refine (C11_closeRing a (l ++ [a])).2.1 ?_
      obtain ⟨h1, h2⟩ := hn (by simp)
      simp only [List.head_cons] at h1 h2
      simp [Coord.equals2D, eq_eq, h1, h2]

/-- With a NaN first coordinate every call appends another copy, so the unrestricted claim is false. -/
theorem C11_nan_grows (a : Coord α) (l : List (Coord α)) (h : isNaN a.x = true ∨ isNaN a.y = true) :
    closeRing (a :: l) = a :: l ++ [a] := by
  refine (C11_closeRing a l).2.2 ?_
  simp only [Coord.equals2D, eq_eq]
  grind
end C11

/-! ## C12 -/

theorem hasRepeatedPoints_ok (cs : List (Coord α)) :
    ∃ b, CoordArrays.hasRepeatedPoints cs = .ok b ∧ (b = false ↔ NoRepeats cs) := by
  refine ⟨((List.range' 1 (cs.length - 1)).findSome? (fun i =>
      match cs[i - 1]?, cs[i]? with
      | some a, some b => if a.equals2D b then some true else none
      | _, _ => none)).getD false, ?_, ?_⟩
  · rw [CoordArrays.hasRepeatedPoints, forFind_ok (p := fun i =>
      match cs[i - 1]?, cs[i]? with
      | some a, some b => if a.equals2D b then some true else none
      | _, _ => none)]
    · simp only [Res.bind_ok, Res.pure_eq]
    · intro i h1 h2
      have h3 : i - 1 < cs.length := by omega
      simp only [Res.get_lt h3, Res.get_lt h2, Res.bind_ok, List.getElem?_eq_getElem h3,
        List.getElem?_eq_getElem h2]
      split <;> rfl
  · constructor
    · intro h i a b ha hb
      have hlen : i + 1 < cs.length := by
        by_contra hc; rw [List.getElem?_eq_none (by omega)] at hb; cases hb
      cases hf : (List.range' 1 (cs.length - 1)).findSome? (fun i =>
          match cs[i - 1]?, cs[i]? with
          | some a, some b => if a.equals2D b then some true else none
          | _, _ => none) with
      | some v =>
        rw [hf] at h
        rw [findSome?_range'_some] at hf
        obtain ⟨k, -, -, hk, -⟩ := hf
        simp at h; subst h
        split at hk
        · split at hk <;> simp at hk
        · cases hk
      | none =>
        rw [findSome?_range'_none] at hf
        have := hf (i + 1) (by omega) (by omega)
        simp only [Nat.add_sub_cancel, ha, hb] at this
        by_contra hc
        simp [hc] at this
    · intro h
      rw [(findSome?_range'_none _ _ _).mpr]
      · rfl
      · intro i h1 h2
        obtain ⟨j, rfl⟩ : ∃ j, i = j + 1 := ⟨i - 1, by omega⟩
        simp only [Nat.add_sub_cancel]
        split
        · rename_i a b ha hb
          simp [h j a b ha hb]
        · rfl

/-- `remove_repeated_points` collapses runs of equal points to their first element; it never panics. -/
theorem C12_removeRepeated (cs : List (Coord α)) :
    CoordArrays.removeRepeatedPoints cs = .ok (cs.destutter (fun a b => a.equals2D b = false)) := by
  obtain ⟨b, hb, hb'⟩ := hasRepeatedPoints_ok cs
  rw [CoordArrays.removeRepeatedPoints, hb, Res.bind_ok]
  cases b with
  | false =>
    have := List.destutter_of_isChain Diff cs ((noRepeats_iff cs).mp (hb'.mp rfl))
    simp only [Bool.not_false, if_true, Res.pure_eq]
    exact congrArg _ this.symm
  | true => exact (C10_appends_collapse cs).1

/-- The result has no adjacent equal points, keeps elements in order, is a fixed point, and differs from the input exactly
if `has_repeated_points`. -/
theorem C12_laws (cs r : List (Coord α)) (h : CoordArrays.removeRepeatedPoints cs = .ok r) :
    NoRepeats r ∧ List.Sublist r cs ∧ CoordArrays.removeRepeatedPoints r = .ok r ∧
    (CoordArrays.hasRepeatedPoints cs = .ok true ↔ r ≠ cs) ∧
    (CoordArrays.hasRepeatedPoints cs = .ok false ↔ r = cs) ∧
    CoordArrays.hasRepeatedPoints r = .ok false := by
  rw [C12_removeRepeated] at h
  cases h
  obtain ⟨b, hb, hb'⟩ := hasRepeatedPoints_ok cs
  obtain ⟨b2, hb2, hb2'⟩ := hasRepeatedPoints_ok (cs.destutter Diff)
  have hno : NoRepeats (cs.destutter Diff) := (noRepeats_iff _).mpr (List.isChain_destutter _ _)
  have hfix : b = false ↔ cs.destutter Diff = cs := by
    rw [hb', noRepeats_iff, List.destutter_eq_self_iff]
  refine ⟨hno, List.destutter_sublist _ _, ?_, ?_, ?_, ?_⟩
  · rw [C12_removeRepeated]; exact congrArg _ (List.destutter_idem cs Diff)
  · rw [hb]
    show _ ↔ cs.destutter Diff ≠ cs
    rw [ne_eq, ← hfix]
    cases b <;> simp
  · rw [hb]
    show _ ↔ cs.destutter Diff = cs
    rw [← hfix]
    cases b <;> simp
  · show CoordArrays.hasRepeatedPoints (cs.destutter Diff) = _
    rw [hb2, hb2'.mpr hno]

/-- Nothing is lost: every input point is kept or equals (2D) a kept point; the first point is kept, and the last
kept point is the last input point or equal to it. -/
theorem C12_covers (cs r : List (Coord α)) (h : CoordArrays.removeRepeatedPoints cs = .ok r) :
    (∀ c ∈ cs, ∃ k ∈ r, k = c ∨ k.equals2D c = true) ∧ r.head? = cs.head? ∧
    (∀ c, cs.getLast? = some c → ∃ k, r.getLast? = some k ∧ (k = c ∨ k.equals2D c = true)) := by
  rw [C12_removeRepeated] at h
  cases h
  change (∀ c ∈ cs, ∃ k ∈ cs.destutter Diff, _) ∧ (cs.destutter Diff).head? = _ ∧
    (∀ c, _ → ∃ k, (cs.destutter Diff).getLast? = some k ∧ _)
  cases cs with
  | nil => simp
  | cons a l =>
    rw [List.destutter_cons']
    refine ⟨?_, ?_, ?_⟩
    · have : ∀ (l : List (Coord α)) (a : Coord α), ∀ c ∈ a :: l, ∃ k ∈ l.destutter' Diff a,
          k = c ∨ k.equals2D c = true := by
        intro l
        induction l with
        | nil => intro a c hc; simp at hc; subst hc; exact ⟨c, by simp, .inl rfl⟩
        | cons b l ih =>
          intro a c hc
          rw [List.destutter'_cons]
          split
          · rename_i hab
            rcases List.mem_cons.mp hc with rfl | hc
            · exact ⟨c, by simp, .inl rfl⟩
            · obtain ⟨k, hk, hk'⟩ := ih b c hc
              exact ⟨k, by simp [hk], hk'⟩
          · rename_i hab
            rcases List.mem_cons.mp hc with rfl | hc
            · obtain ⟨k, hk, hk'⟩ := ih c c (by simp)
              exact ⟨k, hk, hk'⟩
            · rcases List.mem_cons.mp hc with rfl | hc
              · refine ⟨a, List.mem_destutter' _ _ _, .inr ?_⟩
                simpa [Diff] using hab
              · obtain ⟨k, hk, hk'⟩ := ih a c (by simp [hc])
                exact ⟨k, hk, hk'⟩
      exact this l a
    · have : ∀ (l : List (Coord α)) (a : Coord α), (l.destutter' Diff a).head? = some a := by
        intro l
        induction l with
        | nil => simp
        | cons b l ih => intro a; rw [List.destutter'_cons]; split <;> simp [ih]
      simp [this]
    · have : ∀ (l : List (Coord α)) (a c : Coord α), (a :: l).getLast? = some c →
          ∃ k, (l.destutter' Diff a).getLast? = some k ∧ (k = c ∨ k.equals2D c = true) := by
        intro l
        induction l with
        | nil => intro a c hc; simp at hc; subst hc; exact ⟨_, by simp, .inl rfl⟩
        | cons b l ih =>
          intro a c hc
          rw [List.getLast?_cons_cons] at hc
          rw [List.destutter'_cons]
          split
          · obtain ⟨k, hk, hk'⟩ := ih b c hc
            refine ⟨k, ?_, hk'⟩
            rw [List.getLast?_cons, hk]; rfl
          · rename_i hab
            cases l with
            | nil =>
              simp at hc; subst hc
              exact ⟨a, by simp, .inr (by simpa [Diff] using hab)⟩
            | cons d l =>
              obtain ⟨k, hk, hk'⟩ := ih a c (by rw [List.getLast?_cons_cons] at hc ⊢; exact hc)
              exact ⟨k, hk, hk'⟩
      exact fun c hc => this l a c hc

section examples
local notation "F" => Fl exactRounding
/-- integer points for the examples -/
local notation "pt" => fun (x y : ℚ) => (Coord.xy (Fl.fin x) (Fl.fin y) : Coord F)

example : ∃ l, [ListOp.add (pt 0 0), .addAll [pt 0 0, pt 1 0], .insert 1 (pt 5 5), .insert 1 (pt 5 5),
    .addRange [pt 1 0, pt 2 0, pt 2 0, pt 9 9] 0 3, .closeRing].foldlM ListOp.run [] = .ok l ∧
    l = [pt 0 0, pt 5 5, pt 1 0, pt 2 0, pt 0 0] := ⟨_, by decide +kernel, rfl⟩
example : CoordArrays.removeRepeatedPoints [pt 0 0, pt 0 0, pt 1 1, pt 0 0] =
    .ok [pt 0 0, pt 1 1, pt 0 0] := by decide +kernel
example : (pt 0 0).NN ∧ closeRing [pt 0 0, pt 1 1] = [pt 0 0, pt 1 1, pt 0 0] := by decide +kernel
example : isNaN (Coord.xy Fl.nan (Fl.fin 1) : Coord F).x = true := by decide
end examples

end Verif.Props
