import Verif.Base.Flt
import Verif.Base.FltRound
import Verif.Base.Res

/-! # Model of `src/core/util/math_util.rs` -/

namespace Verif.MathUtil
open Flt
variable {α : Type} [Flt α]

/-- `MathUtil::clamp_f64` (math_util.rs:13-21). -/
def clampF64 (x min max : α) : α :=
  if x <. min then min else if x >. max then max else x

/-- `MathUtil::clamp_i32` (math_util.rs:30-38). -/
def clampI32 (x min max : Int) : Int :=
  if x < min then min else if x > max then max else x

/-- `MathUtil::clamp_max` (math_util.rs:47-52). -/
def clampMax (x max : Int) : Int := if x > max then max else x

/-- A result of `i32` arithmetic: panics outside the range (debug build). -/
def i32 (x : Int) : Res Int := if -2147483648 ≤ x ∧ x ≤ 2147483647 then .ok x else .error .arith

/-- `MathUtil::ceil` (math_util.rs:61-68). Rust `/` truncates toward zero; a zero denominator panics. -/
def ceil (num denom : Int) : Res Int :=
  if denom = 0 then .error .arith
  else do
    let div ← i32 (num.tdiv denom)
    let prod ← i32 (div * denom)
    if prod ≥ num then pure div else i32 (div + 1)

/-- `MathUtil::wrap` (math_util.rs:79-84). Rust `%` has the sign of the dividend; modulus zero panics. -/
def wrap (index max : Int) : Res Int :=
  if index < 0 then do
    let neg ← i32 (index * -1)
    if max = 0 then .error .arith else i32 (max - neg.tmod max)
  else if max = 0 then .error .arith else .ok (index.tmod max)

/-- `MathUtil::average` (math_util.rs:93-95). -/
def average (x1 x2 : α) : α := (x1 +. x2) /. lit 2

/-- `MathUtil::max_3` (math_util.rs:97-106). -/
def max3 (v1 v2 v3 : α) : α :=
  let max := v1
  let max := if v2 >. max then v2 else max
  let max := if v3 >. max then v3 else max
  max

/-- `MathUtil::max_4` (math_util.rs:108-120). -/
def max4 (v1 v2 v3 v4 : α) : α :=
  let max := v1
  let max := if v2 >. max then v2 else max
  let max := if v3 >. max then v3 else max
  let max := if v4 >. max then v4 else max
  max

/-- `MathUtil::min` (math_util.rs:122-134). -/
def min4 (v1 v2 v3 v4 : α) : α :=
  let min := v1
  let min := if v2 <. min then v2 else min
  let min := if v3 <. min then v3 else min
  let min := if v4 <. min then v4 else min
  min

/-- `MathUtil::quasirandom_curr_alpha` (math_util.rs:173-179). -/
def quasirandomAlpha [FltRound α] (curr alpha : α) : α :=
  let next := curr +. alpha
  if next <. lit 1 then next else next -. FltRound.floor next

/-- `MathUtil::quasirandom_curr` (math_util.rs:150-153). -/
def quasirandom {α : Type} [FltSqrt α] [FltRound α] (curr : α) : α :=
  let phiInv := (FltSqrt.sqrt (lit 5) -. lit 1) /. lit 2
  quasirandomAlpha curr phiInv

/-- `MathUtil::shuffle` (math_util.rs:189-205). The random source is the parameter `rnd`, queried with the
loop index; the second loop runs from `n-1` down to `1`. -/
def shuffle (rnd : Nat → Nat) (n : Nat) : Res (List Int) := do
  let ints ← forRange 0 n ([] : List Int) (fun i ints => Res.set ints i (i : Int))
  let i ← Res.sub n 1
  (List.range' 1 i).reverse.foldlM (fun ints i => do
    let j := rnd i % (i + 1)
    let last ← Res.get ints i
    let vj ← Res.get ints j
    let ints ← Res.set ints i vj
    Res.set ints j last) ints

end Verif.MathUtil
