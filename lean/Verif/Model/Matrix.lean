import Verif.Base.Flt
import Verif.Base.Res

/-! # Model of `src/core/math/matrix.rs`

A matrix is a list of rows. Both arguments of `solve` are changed in place in the source; the model threads them through the loops.
`solveInPlace` returns the answer and what the caller then finds in the two arguments, `solve` the answer only.
`usize` subtraction below zero is a panic (debug build); in a release build the index wraps and the next access panics instead, so
that only the kind of panic differs. -/

namespace Verif.Matrix
open Flt

variable {α : Type} [Flt α]

/-- `m[i][k]`. -/
def at2 (m : List (List α)) (i k : Nat) : Res α := do Res.get (← Res.get m i) k

/-- `m[i][k] = v`. -/
def set2 (m : List (List α)) (i k : Nat) (v : α) : Res (List (List α)) := do
  Res.set m i (← Res.set (← Res.get m i) k v)

/-- `Matrix::swap_rows_2d` (matrix.rs:12-21). -/
def swapRows2 (m : List (List α)) (i j : Nat) : Res (List (List α)) :=
  if i = j then .ok m
  else do
    let r ← Res.get m 0
    forRange 0 r.length m (fun col m => do
      let temp ← at2 m i col
      let m ← set2 m i col (← at2 m j col)
      set2 m j col temp)

/-- `Matrix::swap_rows_1d` (matrix.rs:23-30). -/
def swapRows1 (m : List α) (i j : Nat) : Res (List α) :=
  if i = j then .ok m
  else do
    let temp ← Res.get m i
    let m ← Res.set m i (← Res.get m j)
    Res.set m j temp

/-- The search for the pivot (matrix.rs:55-62). -/
def pivotRow (a : List (List α)) (n i : Nat) : Res Nat :=
  forRange (i + 1) n i (fun j best => do
    if abs (← at2 a j i) >. abs (← at2 a best i) then .ok j else .ok best)

/-- The loop `while k >= i` that subtracts a multiple of row `i` from row `j` (matrix.rs:77-80). -/
def elimRow (i j : Nat) (f : α) : Nat → List (List α) → Res (List (List α))
  | 0, a => if 0 ≥ i then do
      let _ ← set2 a j 0 ((← at2 a j 0) -. (← at2 a i 0) *. f)
      .error .arith
    else .ok a
  | k + 1, a => if k + 1 ≥ i then do
      elimRow i j f k (← set2 a j (k + 1) ((← at2 a j (k + 1)) -. (← at2 a i (k + 1)) *. f))
    else .ok a

/-- One turn of the loop that eliminates below row `i` (matrix.rs:74-83). -/
def elimStep (n i j : Nat) (s : List (List α) × List α) : Res (List (List α) × List α) := do
  let f := (← at2 s.1 j i) /. (← at2 s.1 i i)
  let k ← Res.sub n 1
  let a ← elimRow i j f k s.1
  let b ← Res.set s.2 j ((← Res.get s.2 j) -. (← Res.get s.2 i) *. f)
  .ok (a, b)

/-- One turn of the outer loop (matrix.rs:53-84); `none` is the early return of `None`. -/
def stage (n i : Nat) (s : List (List α) × List α) : Res (Option (List (List α) × List α)) := do
  let best ← pivotRow s.1 n i
  if (← at2 s.1 best i) ==. lit 0 then .ok none
  else do
    let a ← swapRows2 s.1 i best
    let b ← swapRows1 s.2 i best
    let s ← forRange (i + 1) n (a, b) (elimStep n i)
    .ok (some s)

/-- The outer loop over the rows `i, i + 1, …`, `rem` of them (matrix.rs:53-84). The first component is `false` if a stage has returned
`None`; a stage does so before it changes anything. -/
def stages (n : Nat) : Nat → Nat → List (List α) × List α → Res (Bool × List (List α) × List α)
  | 0, _, s => .ok (true, s)
  | rem + 1, i, s => do
    match ← stage n i s with
    | none => .ok (false, s)
    | some s => stages n rem (i + 1) s

/-- The loop `while j >= 0` of the back substitution (matrix.rs:91-100): the test is always true, so the loop can only end by the
subtraction below zero. -/
def backSubst (a : List (List α)) (b : List α) (n : Nat) : Nat → List α → Res (List α)
  | j, sol => do
    let t ← forRange (j + 1) n (lit 0) (fun k t => do .ok (t +. (← at2 a j k) *. (← Res.get sol k)))
    let sol ← Res.set sol j (((← Res.get b j) -. t) /. (← at2 a j j))
    match j with
    | 0 => .error .arith
    | j + 1 => backSubst a b n j sol

/-- The end of `solve` (matrix.rs:86-101); `None` if a stage has returned `None`. -/
def finish (n : Nat) : Bool × List (List α) × List α → Res (Option (List α) × List (List α) × List α)
  | (false, s) => .ok (none, s)
  | (true, s) => do
    let j ← Res.sub n 1
    .ok (some (← backSubst s.1 s.2 n j (List.replicate n nan)), s)

/-- `Matrix::solve` (matrix.rs:45-102): the answer, and what is left in the two arguments.
`a.len() != n || a[0].len() != n` looks at the first row only if the number of rows fits. -/
def solveInPlace (a : List (List α)) (b : List α) : Res (Option (List α) × List (List α) × List α) := do
  let n := b.length
  if a.length ≠ n then .ok (none, a, b)
  else if (← Res.get a 0).length ≠ n then .ok (none, a, b)
  else do finish n (← stages n n 0 (a, b))

/-- `Matrix::solve` (matrix.rs:45-102): the answer. -/
def solve (a : List (List α)) (b : List α) : Res (Option (List α)) := do .ok (← solveInPlace a b).1

end Verif.Matrix
