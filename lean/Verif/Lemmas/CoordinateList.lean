import Verif.Model.CoordinateArrays
import Verif.Lemmas.Flt
import Verif.Lemmas.Loop
import Mathlib.Data.List.Destutter

/-! # Coordinate list lemmas -/

set_option linter.unusedSectionVars false

namespace Verif
open Flt
variable {α : Type} [Flt α]

/-- Two coordinates are different points in the sense of `equals_2d`. -/
def Diff (a b : Coord α) : Prop := a.equals2D b = false

instance : DecidableRel (Diff (α := α)) := fun a b => inferInstanceAs (Decidable (_ = false))

namespace CoordList

theorem add_true (l : List (Coord α)) (c : Coord α) : add l c true = l ++ [c] := by simp [add]

theorem add_nil (c : Coord α) (b : Bool) : add [] c b = [c] := by simp [add]

theorem add_concat (p : List (Coord α)) (a c : Coord α) :
    add (p ++ [a]) c false = if a.equals2D c then p ++ [a] else p ++ [a] ++ [c] := by
  simp [add]

theorem foldl_add_true (l cs : List (Coord α)) : cs.foldl (fun l c => add l c true) l = l ++ cs := by
  induction cs generalizing l with
  | nil => simp
  | cons c cs ih => rw [List.foldl_cons, ih, add_true]; simp

theorem foldl_add_concat (p cs : List (Coord α)) (a : Coord α) :
    cs.foldl (fun l c => add l c false) (p ++ [a]) = p ++ cs.destutter' Diff a := by
  induction cs generalizing p a with
  | nil => simp
  | cons c cs ih =>
    rw [List.foldl_cons, add_concat]
    split
    · rename_i h
      rw [ih, List.destutter'_cons_neg _ (by simp [Diff, h])]
    · rename_i h
      rw [ih, List.destutter'_cons_pos _ (by simpa [Diff] using h)]
      simp

theorem foldl_add_nil (cs : List (Coord α)) :
    cs.foldl (fun l c => add l c false) [] = cs.destutter Diff := by
  cases cs with
  | nil => rfl
  | cons c cs =>
    rw [List.foldl_cons, add_nil]
    rw [List.destutter_cons']
    simpa using foldl_add_concat [] cs c

theorem foldl_add_chain (l cs : List (Coord α)) (hl : l.IsChain Diff) :
    (cs.foldl (fun l c => add l c false) l).IsChain Diff := by
  rcases List.eq_nil_or_concat l with rfl | ⟨p, a, rfl⟩
  · rw [foldl_add_nil]; exact List.isChain_destutter _ _
  · rw [List.concat_eq_append] at hl ⊢
    rw [foldl_add_concat]
    have h1 := List.isChain_destutter' Diff cs a
    rw [List.isChain_append] at hl ⊢
    refine ⟨hl.1, h1, fun x hx y hy => hl.2.2 x hx y ?_⟩
    have : (cs.destutter' Diff a).head? = some a := by
      clear h1 hl hx hy
      induction cs generalizing p with
      | nil => simp
      | cons c cs ih =>
        rw [List.destutter'_cons]; split
        · simp
        · exact ih p
    rw [this] at hy
    simpa using hy

/-- Adding into a list is the same as collapsing after concatenation, when the list has no repeats. -/
theorem foldl_add_eq (l cs : List (Coord α)) (hl : l.IsChain Diff) :
    cs.foldl (fun l c => add l c false) l = (l ++ cs).destutter Diff := by
  rw [← foldl_add_nil, List.foldl_append, foldl_add_nil, List.destutter_of_isChain _ _ hl]

theorem forRange_add (l coords : List (Coord α)) (b : Bool) (lo hi : Nat) (h1 : lo ≤ hi) (h2 : hi ≤ coords.length) :
    forRange lo hi l (fun i l => do
      let c ← Res.get coords i
      pure (add l c b)) = .ok (((coords.drop lo).take (hi - lo)).foldl (fun l c => add l c b) l) := by
  have := forRange_closed lo hi (fun i l => do
      let c ← Res.get coords i
      pure (add l c b)) (fun k => ((coords.drop lo).take (k - lo)).foldl (fun l c => add l c b) l) h1 ?_
  · simpa using this
  · intro i hi1 hi2
    have : i + 1 - lo = (i - lo) + 1 := by omega
    rw [this, List.take_succ, List.foldl_append]
    have h3 : i < coords.length := by omega
    have h4 : lo + (i - lo) = i := by omega
    simp [h3, h4]

theorem forRange_add_panic (l coords : List (Coord α)) (b : Bool) (lo hi : Nat) (h1 : lo < hi)
    (h2 : coords.length < hi) :
    forRange lo hi l (fun i l => do
      let c ← Res.get coords i
      pure (add l c b)) = .error .index := by
  by_cases h : lo ≤ coords.length
  · refine forRange_panic lo hi _ coords.length _ l h h2 ?_
    rw [forRange_add _ _ _ _ _ h (Nat.le_refl _)]
    simp
  · refine forRange_panic lo hi _ lo _ l (Nat.le_refl _) h1 ?_
    rw [forRange_self _ _ (Nat.le_refl _)]
    simp [Res.get_ge (by omega : coords.length ≤ lo)]

theorem addList_eq (l coords : List (Coord α)) (b : Bool) :
    addList l coords b = .ok (coords.foldl (fun l c => add l c b) l) := by
  have := forRange_add l coords b 0 coords.length (Nat.zero_le _) (Nat.le_refl _)
  simp only [addList, addDirection, if_true, this]
  simp

theorem addAll_fst (l cs : List (Coord α)) (b : Bool) :
    addAll l cs b = (cs.foldl (fun l c => add l c b) l, !cs.isEmpty) := by
  have : ∀ (cs : List (Coord α)) (l : List (Coord α)),
      cs.foldl (fun s c => (add s.1 c b, true)) (l, true) = (cs.foldl (fun l c => add l c b) l, true) := by
    intro cs
    induction cs with
    | nil => simp
    | cons c cs ih => intro l; simp [ih]
  cases cs with
  | nil => simp [addAll]
  | cons c cs => simp [addAll, this]

end CoordList
end Verif
