import Mathlib.Algebra.Order.Field.Basic
import Mathlib.Data.Rat.Cast.Order
import Mathlib.Order.WithBot
import Mathlib.Tactic.Order

/-!
# Scalars

The Rust code computes with `f64`. Every model function is written once over the class `Flt` of scalar
operations below and then instantiated

* with `Fl r` : IEEE-style values (NaN, infinities, finite rationals) whose arithmetic rounds the exact
  rational result by an arbitrary function `r.rnd` (so: every rounding mode and every format at once);
* with any linearly ordered field `K` : exact arithmetic.

Simplification: `-0.0` and `+0.0` are one value.
-/

namespace Verif

/-- Operations of Rust's `f64` used by the modelled code (std `f64`). Comparisons are Boolean, as in Rust. -/
class Flt (α : Type) where
  /-- a literal -/
  lit : ℚ → α
  nan : α
  pinf : α
  ninf : α
  add : α → α → α
  sub : α → α → α
  mul : α → α → α
  div : α → α → α
  neg : α → α
  abs : α → α
  /-- `a < b` -/
  lt : α → α → Bool
  /-- `a <= b` -/
  le : α → α → Bool
  /-- `a == b` -/
  eq : α → α → Bool
  isNaN : α → Bool
  isFinite : α → Bool

namespace Flt
scoped infixl:65 " +. " => Flt.add
scoped infixl:65 " -. " => Flt.sub
scoped infixl:70 " *. " => Flt.mul
scoped infixl:70 " /. " => Flt.div
scoped infix:50 " <. " => Flt.lt
scoped infix:50 " ≤. " => Flt.le
scoped infix:50 " ==. " => Flt.eq
/-- Rust `a > b`. -/
scoped notation:50 a:51 " >. " b:51 => Flt.lt b a
/-- Rust `a >= b`. -/
scoped notation:50 a:51 " ≥. " b:51 => Flt.le b a
/-- Rust `-a`. -/
scoped prefix:75 "-." => Flt.neg

variable {α : Type} [Flt α]

/-- Rust `f64::is_infinite`. -/
def isInf (a : α) : Bool := !Flt.isNaN a && !Flt.isFinite a

/-- Rust `f64::min` (std): the argument that is not NaN, else the smaller one. -/
def fmin (a b : α) : α :=
  if Flt.isNaN a then b else if Flt.isNaN b then a else if a <. b then a else b

/-- Rust `f64::max` (std): the argument that is not NaN, else the larger one. -/
def fmax (a b : α) : α :=
  if Flt.isNaN a then b else if Flt.isNaN b then a else if b <. a then a else b
end Flt

/-- Square root and hypotenuse (`f64::sqrt`, `f64::hypot`), where available. -/
class FltSqrt (α : Type) extends Flt α where
  sqrt : α → α
  hypot : α → α → α

open Flt

/-- What every instance satisfies about comparisons: they are a total order up to `==` on the values that are not NaN,
and false as soon as one side is NaN. The order is presented by a key into a linear order, so that distinct
values with equal keys (such as the two zeros of `f64`) are allowed. -/
class FltOrd (α : Type) [Flt α] where
  Key : Type
  [ord : LinearOrder Key]
  key : α → Key
  lt_iff : ∀ a b : α, (a <. b) = true ↔ isNaN a = false ∧ isNaN b = false ∧ key a < key b
  le_iff : ∀ a b : α, (a ≤. b) = true ↔ isNaN a = false ∧ isNaN b = false ∧ key a ≤ key b
  eq_iff : ∀ a b : α, (a ==. b) = true ↔ isNaN a = false ∧ isNaN b = false ∧ key a = key b

attribute [instance_reducible, instance] FltOrd.ord

/-- Small integer literals are what they say (true for every format with a few bits of precision). -/
class FltLit (α : Type) [Flt α] [FltOrd α] : Prop where
  nn_lit : ∀ m : ℤ, |m| ≤ 100 → isNaN (lit m : α) = false
  lt_lit : ∀ m n : ℤ, |m| ≤ 100 → |n| ≤ 100 → m < n → FltOrd.key (lit m : α) < FltOrd.key (lit n : α)

/-! ## IEEE-style values -/

/-- A value of a binary floating point format, with the two zeros identified. -/
inductive Val where
  | nan
  | ninf
  | fin (q : ℚ)
  | pinf
  deriving DecidableEq, Repr

/-- A rounding function: what a single floating point operation does to the exact result. `sqrt` and `hypot` are the
library functions, unconstrained. -/
structure Rounding where
  rnd : ℚ → Val
  sqrt : ℚ → Val
  hypot : ℚ → ℚ → Val

/-- Values computed with the rounding `r`. -/
def Fl (_r : Rounding) : Type := Val

namespace Fl
variable {r : Rounding}

instance : DecidableEq (Fl r) := inferInstanceAs (DecidableEq Val)

/-- a finite value -/
@[match_pattern] abbrev fin (q : ℚ) : Fl r := Val.fin q
@[match_pattern] abbrev nan : Fl r := Val.nan
@[match_pattern] abbrev pinf : Fl r := Val.pinf
@[match_pattern] abbrev ninf : Fl r := Val.ninf

/-- Rounded result of an exact rational result. -/
def round (q : ℚ) : Fl r := r.rnd q

/-- IEEE negation (sign of zero dropped). -/
def neg : Fl r → Fl r
  | nan => nan
  | ninf => pinf
  | pinf => ninf
  | fin q => fin (-q)

/-- IEEE addition. -/
def add : Fl r → Fl r → Fl r
  | nan, _ => nan
  | _, nan => nan
  | pinf, ninf => nan
  | ninf, pinf => nan
  | pinf, _ => pinf
  | _, pinf => pinf
  | ninf, _ => ninf
  | _, ninf => ninf
  | fin a, fin b => round (a + b)

/-- an infinity with the sign of `s`, NaN for `s = 0` (the product of an infinity and `s`) -/
def infOf (s : ℚ) : Fl r := if 0 < s then pinf else if s < 0 then ninf else nan

/-- IEEE multiplication. -/
def mul : Fl r → Fl r → Fl r
  | nan, _ => nan
  | _, nan => nan
  | pinf, pinf => pinf
  | ninf, ninf => pinf
  | pinf, ninf => ninf
  | ninf, pinf => ninf
  | pinf, fin b => infOf b
  | ninf, fin b => infOf (-b)
  | fin a, pinf => infOf a
  | fin a, ninf => infOf (-a)
  | fin a, fin b => round (a * b)

/-- IEEE division. Simplification: a zero divisor counts as `+0`, so `a / 0` is `±∞` with the sign of `a`
(in `f64` the sign also depends on the sign of the zero). -/
def div : Fl r → Fl r → Fl r
  | nan, _ => nan
  | _, nan => nan
  | pinf, pinf => nan
  | ninf, ninf => nan
  | pinf, ninf => nan
  | ninf, pinf => nan
  | pinf, fin b => if b < 0 then ninf else pinf
  | ninf, fin b => if b < 0 then pinf else ninf
  | fin _, pinf => fin 0
  | fin _, ninf => fin 0
  | fin a, fin b => if b = 0 then infOf a else round (a / b)

/-- IEEE absolute value. -/
def abs : Fl r → Fl r
  | nan => nan
  | ninf => pinf
  | pinf => pinf
  | fin q => fin |q|

/-- The extended rational used to order values (NaN gets an arbitrary key). -/
def key : Fl r → WithBot (WithTop ℚ)
  | nan => ⊥
  | ninf => ⊥
  | fin q => ((q : WithTop ℚ) : WithBot (WithTop ℚ))
  | pinf => ((⊤ : WithTop ℚ) : WithBot (WithTop ℚ))

def isNaN : Fl r → Bool
  | nan => true
  | _ => false

def isFinite : Fl r → Bool
  | fin _ => true
  | _ => false

/-- IEEE `<`, by cases. -/
def lt : Fl r → Fl r → Bool
  | nan, _ => false
  | _, nan => false
  | _, ninf => false
  | ninf, _ => true
  | pinf, _ => false
  | _, pinf => true
  | fin a, fin b => decide (a < b)

/-- IEEE `<=`, by cases. -/
def le : Fl r → Fl r → Bool
  | nan, _ => false
  | _, nan => false
  | ninf, _ => true
  | _, pinf => true
  | pinf, _ => false
  | _, ninf => false
  | fin a, fin b => decide (a ≤ b)

/-- IEEE `==`, by cases. -/
def eq : Fl r → Fl r → Bool
  | ninf, ninf => true
  | pinf, pinf => true
  | fin a, fin b => decide (a = b)
  | _, _ => false

/-- `f64::sqrt`: NaN for negative arguments, the library function `r.sqrt` on finite nonnegative ones. -/
def sqrt : Fl r → Fl r
  | nan => nan
  | ninf => nan
  | pinf => pinf
  | fin q => if q < 0 then nan else r.sqrt q

/-- `f64::hypot`: infinite if one argument is, else NaN if one argument is, else the library function `r.hypot`. -/
def hypot : Fl r → Fl r → Fl r
  | pinf, _ => pinf
  | ninf, _ => pinf
  | _, pinf => pinf
  | _, ninf => pinf
  | nan, _ => nan
  | _, nan => nan
  | fin a, fin b => r.hypot a b

instance : Flt (Fl r) where
  lit := round
  nan := nan
  pinf := pinf
  ninf := ninf
  add := add
  sub a b := add a (neg b)
  mul := mul
  div := div
  neg := neg
  abs := abs
  lt := lt
  le := le
  eq := eq
  isNaN := isNaN
  isFinite := isFinite

instance : FltSqrt (Fl r) where
  sqrt := sqrt
  hypot := hypot

instance : FltOrd (Fl r) where
  Key := WithBot (WithTop ℚ)
  key := key
  lt_iff a b := by
    cases a <;> cases b <;>
      simp [Flt.lt, lt, Flt.isNaN, isNaN, key, WithBot.coe_lt_coe]
    exact WithBot.coe_lt_coe.mpr (WithTop.coe_lt_top _)
  le_iff a b := by
    cases a <;> cases b <;> simp [Flt.le, le, Flt.isNaN, isNaN, key]
  eq_iff a b := by
    cases a <;> cases b <;> simp [Flt.eq, eq, Flt.isNaN, isNaN, key]

end Fl

/-- The rounding represents small integers exactly. -/
class Rounding.SmallInts (r : Rounding) : Prop where
  small : ∀ m : ℤ, |m| ≤ 100 → r.rnd m = Val.fin m

instance {r : Rounding} [Rounding.SmallInts r] : FltLit (Fl r) where
  nn_lit m hm := by
    simp [Flt.lit, Fl.round, Rounding.SmallInts.small m hm, Flt.isNaN, Fl.isNaN]
  lt_lit m n hm hn h := by
    have h' : (m : ℚ) < n := by exact_mod_cast h
    simp only [FltOrd.key, Flt.lit, Fl.round, Rounding.SmallInts.small m hm,
      Rounding.SmallInts.small n hn, Fl.key]
    exact WithBot.coe_lt_coe.mpr (WithTop.coe_lt_coe.mpr h')

/-- The rounding that does not round: exact rational arithmetic with NaN and infinities. -/
def exactRounding : Rounding := ⟨Val.fin, Val.fin, fun a b => Val.fin (a + b)⟩

instance : Rounding.SmallInts exactRounding := ⟨fun _ _ => rfl⟩

/-! ## Exact arithmetic -/

/-- Exact arithmetic in an ordered field. There is no NaN and no infinity: `nan`, `pinf`, `ninf` are
junk values `0` that exact theorems never rely on, and `isNaN` is constantly false. Division by zero is `0` as in
Mathlib; exact theorems about divisions assume a non-zero divisor. -/
instance exactFlt (K : Type) [Field K] [LinearOrder K] : Flt K where
  lit q := (q : K)
  nan := 0
  pinf := 0
  ninf := 0
  add a b := a + b
  sub a b := a - b
  mul a b := a * b
  div a b := a / b
  neg a := -a
  abs a := max a (-a)
  lt a b := decide (a < b)
  le a b := decide (a ≤ b)
  eq a b := decide (a = b)
  isNaN _ := false
  isFinite _ := true

instance exactOrd (K : Type) [Field K] [LinearOrder K] : FltOrd K where
  Key := K
  key := id
  lt_iff a b := by simp [Flt.lt, Flt.isNaN]
  le_iff a b := by simp [Flt.le, Flt.isNaN]
  eq_iff a b := by simp [Flt.eq, Flt.isNaN]

instance exactLit (K : Type) [Field K] [LinearOrder K] [IsStrictOrderedRing K] : FltLit K where
  nn_lit _ _ := rfl
  lt_lit m n _ _ h := by
    have h' : (m : K) < n := by exact_mod_cast h
    simpa [FltOrd.key, Flt.lit] using h'

section Exact
variable {K : Type} [Field K] [LinearOrder K]
@[simp] theorem exact_lit (q : ℚ) : (Flt.lit q : K) = (q : K) := rfl
@[simp] theorem exact_add (a b : K) : a +. b = a + b := rfl
@[simp] theorem exact_sub (a b : K) : a -. b = a - b := rfl
@[simp] theorem exact_mul (a b : K) : a *. b = a * b := rfl
@[simp] theorem exact_div (a b : K) : a /. b = a / b := rfl
@[simp] theorem exact_neg (a : K) : Flt.neg a = -a := rfl
@[simp] theorem exact_abs (a : K) : Flt.abs a = max a (-a) := rfl
@[simp] theorem exact_lt (a b : K) : (a <. b) = decide (a < b) := rfl
@[simp] theorem exact_le (a b : K) : (a ≤. b) = decide (a ≤ b) := rfl
@[simp] theorem exact_eq (a b : K) : (a ==. b) = decide (a = b) := rfl
@[simp] theorem exact_isNaN (a : K) : Flt.isNaN a = false := rfl
@[simp] theorem exact_isFinite (a : K) : Flt.isFinite a = true := rfl
end Exact

end Verif
