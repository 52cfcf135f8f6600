import Mathlib.Data.List.Basic
import Mathlib.Data.List.Rotate
import Mathlib.Data.List.Perm.Basic
import Mathlib.Algebra.BigOperators.Group.List.Basic

/-! # Segments of polylines, independent of the modelled code -/

namespace Verif.Spec

/-- The consecutive pairs. -/
def segs {A : Type} (l : List A) : List (A × A) := l.zip l.tail

/-- The consecutive triples. -/
def trips {A : Type} (l : List A) : List (A × A × A) := l.zip (l.tail.zip l.tail.tail)

/-- The closed ring through the points of a list: the first point is repeated at the end. -/
def closed {A : Type} (l : List A) : List A := l ++ l.take 1

variable {A : Type}

@[simp] theorem segs_nil : segs ([] : List A) = [] := rfl
@[simp] theorem segs_single (a : A) : segs [a] = [] := rfl
@[simp] theorem segs_cons (a b : A) (l : List A) : segs (a :: b :: l) = (a, b) :: segs (b :: l) := rfl
@[simp] theorem trips_cons (a b c : A) (l : List A) : trips (a :: b :: c :: l) = (a, b, c) :: trips (b :: c :: l) := rfl

@[simp] theorem length_segs (l : List A) : (segs l).length = l.length - 1 := by
  simp [segs]

@[simp] theorem length_trips (l : List A) : (trips l).length = l.length - 2 := by
  simp [trips]; omega

theorem getElem_segs (l : List A) (i : Nat) (h : i < (segs l).length) :
    (segs l)[i] = (l[i]'(by simp at h; omega), l[i + 1]'(by simp at h; omega)) := by
  simp [segs]

theorem getElem_trips (l : List A) (i : Nat) (h : i < (trips l).length) :
    (trips l)[i] = (l[i]'(by simp at h; omega), l[i + 1]'(by simp at h; omega), l[i + 2]'(by simp at h; omega)) := by
  simp [trips]

/-- Joining two lines at a common point. -/
theorem segs_join (l l' : List A) (a : A) : segs (l ++ a :: l') = segs (l ++ [a]) ++ segs (a :: l') := by
  induction l with
  | nil => simp
  | cons b l ih =>
    cases l with
    | nil => simp
    | cons c l => simp only [List.cons_append, segs_cons]; rw [← List.cons_append, ih]; simp

theorem segs_reverse (l : List A) : segs l.reverse = ((segs l).map Prod.swap).reverse := by
  induction l with
  | nil => rfl
  | cons a l ih =>
    cases l with
    | nil => rfl
    | cons b l =>
      rw [List.reverse_cons, List.reverse_cons, List.append_assoc]
      simp only [List.singleton_append]
      rw [segs_join, ← List.reverse_cons, ih]
      simp

/-- Starting a closed ring at another vertex permutes its segments. -/
theorem segs_closed_rotate (l : List A) (k : Nat) : (segs (closed (l.rotate k))).Perm (segs (closed l)) := by
  induction k generalizing l with
  | zero => simp
  | succ k ih =>
    cases l with
    | nil => simp
    | cons a l =>
      rw [List.rotate_cons_succ]
      refine (ih _).trans ?_
      cases l with
      | nil => simp [closed]
      | cons b l =>
        have e1 : closed (b :: l ++ [a]) = (b :: l) ++ a :: [b] := by simp [closed]
        have e2 : closed (a :: b :: l) = a :: b :: (l ++ [a]) := by simp [closed]
        rw [e1, e2, segs_join, segs_cons]
        simpa using List.perm_append_comm (l₁ := segs (b :: (l ++ [a]))) (l₂ := [(a, b)])

/-- Reversing a closed ring is, up to the start vertex, the closed ring of the reversed points. -/
theorem closed_reverse (a : A) (l : List A) : (closed (a :: l)).reverse = closed (a :: l.reverse) := by
  simp [closed]

end Verif.Spec
