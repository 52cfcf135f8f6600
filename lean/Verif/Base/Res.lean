/-!
# Panics

A Rust function that may panic is modelled by a function into `Res α`.
-/

namespace Verif

/-- Why a Rust function aborted. -/
inductive Panic where
  /-- index out of range on a slice, `Vec` or string -/
  | index
  /-- `usize` subtraction below zero (debug build) -/
  | arith
  /-- `unwrap` of `None` -/
  | unwrap
  /-- failed `assert!` or an explicit `panic!` -/
  | assert
  /-- a loop that never ends -/
  | diverge
  deriving DecidableEq, Repr

/-- Result of a function that may panic. -/
abbrev Res (α : Type) := Except Panic α

namespace Res

/-- `v[i]` of Rust: panics out of range. -/
def get {α : Type} (l : List α) (i : Nat) : Res α :=
  match l[i]? with
  | some a => .ok a
  | none => .error .index

/-- `v[i] = a` of Rust: panics out of range. -/
def set {α : Type} (l : List α) (i : Nat) (a : α) : Res (List α) :=
  if i < l.length then .ok (l.set i a) else .error .index

/-- `a - b` on `usize`: panics below zero. -/
def sub (a b : Nat) : Res Nat := if b ≤ a then .ok (a - b) else .error .arith

/-- `Option::unwrap`. -/
def unwrap {α : Type} : Option α → Res α
  | some a => .ok a
  | none => .error .unwrap

/-- `assert!(b)`. -/
def assert (b : Bool) : Res Unit := if b then .ok () else .error .assert

@[simp] theorem bind_ok {α β : Type} (a : α) (f : α → Res β) : (Except.ok a >>= f) = f a := rfl
@[simp] theorem bind_error {α β : Type} (e : Panic) (f : α → Res β) :
    ((Except.error e : Res α) >>= f) = Except.error e := rfl
@[simp] theorem pure_eq {α : Type} (a : α) : (pure a : Res α) = Except.ok a := rfl
@[simp] theorem map_ok {α β : Type} (f : α → β) (a : α) : f <$> (Except.ok a : Res α) = Except.ok (f a) := rfl

theorem get_eq_ok {α : Type} {l : List α} {i : Nat} {a : α} : get l i = .ok a ↔ l[i]? = some a := by
  unfold get; split <;> simp_all

@[simp] theorem get_lt {α : Type} {l : List α} {i : Nat} (h : i < l.length) : get l i = .ok l[i] := by
  simp [get, h]

@[simp] theorem get_ge {α : Type} {l : List α} {i : Nat} (h : l.length ≤ i) :
    get l i = .error .index := by
  simp [get, h]

@[simp] theorem set_lt {α : Type} {l : List α} {i : Nat} {a : α} (h : i < l.length) :
    set l i a = .ok (l.set i a) := by simp [set, h]

@[simp] theorem set_ge {α : Type} {l : List α} {i : Nat} {a : α} (h : l.length ≤ i) :
    set l i a = .error .index := by simp [set, Nat.not_lt.mpr h]

@[simp] theorem sub_le {a b : Nat} (h : b ≤ a) : sub a b = .ok (a - b) := by simp [sub, h]

end Res

/-- A `for i in lo..hi` loop over a state, in a function that may panic. -/
def forRange {σ : Type} (lo hi : Nat) (s : σ) (f : Nat → σ → Res σ) : Res σ :=
  (List.range' lo (hi - lo)).foldlM (fun s i => f i s) s

/-- First `some` returned by the body, over a list of indices. -/
def loopFind {β : Type} (f : Nat → Res (Option β)) : List Nat → Res (Option β)
  | [] => .ok none
  | i :: is => do
    match ← f i with
    | some b => .ok (some b)
    | none => loopFind f is

/-- A `for i in lo..hi` loop whose body may `return` a value: the value returned, or `none` if the loop ran through. -/
def forFind {β : Type} (lo hi : Nat) (f : Nat → Res (Option β)) : Res (Option β) :=
  loopFind f (List.range' lo (hi - lo))

end Verif
