import Verif.Model.Geometries
import Verif.Lemmas.Sequences
import Verif.Lemmas.Loop
import Verif.Lemmas.Flt
import Verif.Spec.Lex

/-! # Lemmas on geometries -/

set_option linter.unusedSectionVars false

namespace Verif
open Flt Verif.Spec
variable {α : Type} [Flt α]

theorem newFrom_eq (s : CASeq α) : CASeq.newFrom s = .ok s := by
  have key := forRange_closed (σ := List (Coord α)) 0 s.size (fun i l => do
      let c ← s.getCoordinate i
      Res.set l i c)
    (fun k => s.coordinates.take k ++ List.replicate (s.size - k) Coord.default) (by omega) (by
      intro i _ hi
      have hi' : i < s.coordinates.length := hi
      rw [CASeq.getCoordinate, Res.get_lt hi', Res.bind_ok, Res.set_lt (by simp; omega), set_fill _ _ i _ _ (by simp; omega) (by omega)]
      rw [take_succ' _ _ hi']
      congr 2)
  rw [CASeq.newFrom]
  rw [show (List.replicate s.size (Coord.default : Coord α)) =
    s.coordinates.take 0 ++ List.replicate (s.size - 0) Coord.default by simp, key]
  simp [CASeq.size]

theorem casCopy (s : CASeq α) : s.copy = s := rfl

@[simp] theorem envCopy (e : Env α) : e.copy = e := rfl

theorem ringOfSeq (s : CASeq α) : LinearRing.ofSeq s = .ok ⟨s, none, none⟩ := by rw [LinearRing.ofSeq, newFrom_eq]; rfl

theorem ringCopy (r : LinearRing α) : r.copy = .ok ⟨r.points, none, none⟩ := ringOfSeq _

theorem ofRings_eq (r : LinearRing α) (hs : List (LinearRing α)) (pm : Option (PM α)) :
    Polygon.ofRings r hs pm = .ok ⟨⟨r.points, none, none⟩, hs, pm, none⟩ := by rw [Polygon.ofRings, ringCopy]; rfl

/-- The first difference decides a lexicographic comparison. -/
theorem lexCmp_first {A : Type} (cmp : A → A → Int) (l m : List A) (k : Nat) (h1 : k < l.length) (h2 : k < m.length)
    (hk : cmp l[k] m[k] ≠ 0) (hb : ∀ i (_ : i < k) (a : i < l.length) (b : i < m.length), cmp l[i] m[i] = 0) :
    lexCmp cmp l m = cmp l[k] m[k] := by
  induction k generalizing l m with
  | zero =>
    cases l with
    | nil => simp at h1
    | cons a l => cases m with
      | nil => simp at h2
      | cons b m => simp only [List.getElem_cons_zero] at hk ⊢; rw [lexCmp, if_neg hk]
  | succ k ih =>
    cases l with
    | nil => simp at h1
    | cons a l => cases m with
      | nil => simp at h2
      | cons b m =>
        have := hb 0 (by omega) (by simp) (by simp)
        simp only [List.getElem_cons_zero] at this
        rw [lexCmp, if_pos this]
        exact ih l m (by simpa using h1) (by simpa using h2) (by simpa using hk)
          (fun i hi a b => hb (i + 1) (by omega) (by simpa using a) (by simpa using b))

/-- Without a difference the length decides. -/
theorem lexCmp_prefix {A : Type} (cmp : A → A → Int) (l m : List A)
    (hb : ∀ i (a : i < l.length) (b : i < m.length), cmp l[i] m[i] = 0) :
    lexCmp cmp l m = if m.length < l.length then 1 else if l.length < m.length then -1 else 0 := by
  induction l generalizing m with
  | nil => cases m <;> simp [lexCmp]
  | cons a l ih => cases m with
    | nil => simp [lexCmp]
    | cons b m =>
      have := hb 0 (by simp) (by simp)
      simp only [List.getElem_cons_zero] at this
      rw [lexCmp, if_pos this, ih m (fun i x y => hb (i + 1) (by simpa using x) (by simpa using y))]
      simp

/-- A loop that looks for the first difference of two lists and then compares lengths. -/
theorem lexLoop {A : Type} (cmp : A → A → Int) (l m : List A) (f : Nat → Res (Option Int))
    (hf : ∀ i (a : i < l.length) (b : i < m.length), f i = .ok (if cmp l[i] m[i] ≠ 0 then some (cmp l[i] m[i]) else none)) :
    (do
      let r ← forFind 0 (min l.length m.length) f
      match r with
      | some v => pure v
      | none => pure (if min l.length m.length < l.length then 1 else if min l.length m.length < m.length then -1 else 0) : Res Int)
      = .ok (lexCmp cmp l m) := by
  rw [forFind_ok 0 (min l.length m.length) f
    (fun i => if h : i < l.length ∧ i < m.length then (if cmp l[i] m[i] ≠ 0 then some (cmp l[i] m[i]) else none) else none) (by
      intro i _ hi
      have h1 : i < l.length ∧ i < m.length := by omega
      rw [hf i h1.1 h1.2, dif_pos h1]), Res.bind_ok]
  rcases h : (List.range' 0 (min l.length m.length - 0)).findSome? _ with _ | b
  · rw [findSome?_range'_none] at h
    rw [lexCmp_prefix cmp l m (fun i a b => by
      have := h i (by omega) (by omega)
      rw [dif_pos ⟨a, b⟩] at this
      by_contra c
      simp [c] at this)]
    dsimp only [Res.pure_eq]
    congr 1
    split_ifs <;> omega
  · rw [findSome?_range'_some] at h
    obtain ⟨k, -, h2, h3, h4⟩ := h
    have h1 : k < l.length ∧ k < m.length := by omega
    rw [dif_pos h1] at h3
    have hk : cmp l[k] m[k] ≠ 0 := by intro c; simp [c] at h3
    rw [if_pos hk] at h3
    rw [lexCmp_first cmp l m k h1.1 h1.2 hk (fun i hi a b => by
      have := h4 i (by omega) hi
      rw [dif_pos ⟨a, b⟩] at this
      by_contra c
      simp [c] at this)]
    injection h3 with h3
    rw [h3]; rfl

/-- A loop that looks for the first pair of elements failing a test. -/
theorem allLoop {A : Type} (l m : List A) (hl : l.length = m.length) (f : Nat → Res (Option Bool)) (t : A → A → Bool)
    (hf : ∀ i (a : i < l.length) (b : i < m.length), f i = .ok (if !(t l[i] m[i]) then some false else none)) :
    (do let r ← forFind 0 l.length f; pure (r.getD true) : Res Bool) = .ok (decide (List.Forall₂ (fun a b => t a b = true) l m)) := by
  rw [forFind_ok 0 l.length f
    (fun i => if h : i < l.length ∧ i < m.length then (if !(t l[i] m[i]) then some false else none) else none) (by
      intro i _ hi
      have h1 : i < l.length ∧ i < m.length := by omega
      rw [hf i h1.1 h1.2, dif_pos h1]), Res.bind_ok, Res.pure_eq]
  congr 1
  rw [Bool.eq_iff_iff, decide_eq_true_eq, List.forall₂_iff_get]
  rcases h : (List.range' 0 (l.length - 0)).findSome? _ with _ | b
  · rw [findSome?_range'_none] at h
    simp only [Option.getD_none, true_iff]
    refine ⟨hl, fun i a b => ?_⟩
    have := h i (by omega) (by omega)
    rw [dif_pos ⟨a, b⟩] at this
    by_contra c
    simp only [List.get_eq_getElem] at c
    simp [c] at this
  · rw [findSome?_range'_some] at h
    obtain ⟨k, -, h2, h3, h4⟩ := h
    have h1 : k < l.length ∧ k < m.length := by omega
    rw [dif_pos h1] at h3
    by_cases c : t l[k] m[k] = true
    · simp [c] at h3
    · simp only [Bool.not_eq_true] at c
      rw [c] at h3
      simp only [Bool.not_false, if_true, Option.some.injEq] at h3
      subst h3
      simp only [Option.getD_some, Bool.false_eq_true, false_iff, not_and]
      intro _ hall
      have := hall k h1.1 h1.2
      simp only [List.get_eq_getElem] at this
      rw [c] at this
      cases this

end Verif
