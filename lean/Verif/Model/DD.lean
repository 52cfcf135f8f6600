import Verif.Base.FltRound
import Verif.Base.Res

/-! # Model of `src/core/math/dd.rs`

The constants and `magnitude` are in `DDConstants`, `dump` is in `Texts`. Parsing and printing (`value_of_str`, `to_standard_notation`,
`to_sci_notation` and their helpers, dd.rs:216-231, 1120-1341, 1360-1462) are commented out in the code.
-/

namespace Verif
open Flt

/-- `struct DD` (dd.rs:79-90). -/
structure DD (α : Type) where
  hi : α
  lo : α
  deriving DecidableEq, Repr

namespace DD
variable {α : Type} [Flt α]

/-- `SPLIT` (dd.rs:101): `2^27 + 1`. -/
def SPLIT : α := lit 134217729

/-- `new_x`, `value_of_f64`, `set_value_f64` (dd.rs:126-128, 233-235, 286-289). -/
def ofF (x : α) : DD α := ⟨x, lit 0⟩

/-- `new_nan`, `create_nan` (dd.rs:205-214). -/
def nan : DD α := ⟨Flt.nan, Flt.nan⟩

/-- `is_nan` (dd.rs:1042-1044). -/
def isNaN (a : DD α) : Bool := Flt.isNaN a.hi

/-- `self_add_f64`, `add_f64` (dd.rs:337-354, 309-313). -/
def addF (a : DD α) (y : α) : DD α :=
  let ss := a.hi +. y
  let e := ss -. a.hi
  let s := ss -. e
  let s := (y -. e) +. (a.hi -. s)
  let f := s +. a.lo
  let hh := ss +. f
  let h := f +. (ss -. hh)
  let hi := hh +. h
  ⟨hi, h +. (hh -. hi)⟩

/-- `self_add_hi_lo` (dd.rs:356-383). -/
def addHiLo (a : DD α) (yhi ylo : α) : DD α :=
  let ss := a.hi +. yhi
  let tt := a.lo +. ylo
  let e := ss -. a.hi
  let f := tt -. a.lo
  let s := ss -. e
  let t := tt -. f
  let s := (yhi -. e) +. (a.hi -. s)
  let t := (ylo -. f) +. (a.lo -. t)
  let e := s +. tt
  let hh := ss +. e
  let h := e +. (ss -. hh)
  let e := t +. h
  let zhi := hh +. e
  ⟨zhi, e +. (hh -. zhi)⟩

/-- `self_add_dd`, `add_dd` (dd.rs:324-326, 297-301). -/
def add (a y : DD α) : DD α := a.addHiLo y.hi y.lo

/-- `negate` (dd.rs:442-447). -/
def negate (a : DD α) : DD α := if a.isNaN then a else ⟨-.a.hi, -.a.lo⟩

/-- `subtract_dd` (dd.rs:391-393). -/
def sub (a y : DD α) : DD α := a.add y.negate

/-- `subtract_f64` (dd.rs:401-403). -/
def subF (a : DD α) (y : α) : DD α := a.addF (-.y)

/-- `self_subtract_dd` (dd.rs:414-419). -/
def selfSub (a y : DD α) : DD α := if a.isNaN then a else a.addHiLo (-.y.hi) (-.y.lo)

/-- `self_subtract_f64` (dd.rs:430-435). -/
def selfSubF (a : DD α) (y : α) : DD α := if a.isNaN then a else a.addHiLo (-.y) (lit 0)

/-- `self_multiply_hi_lo` (dd.rs:505-528). -/
def mulHiLo (a : DD α) (yhi ylo : α) : DD α :=
  let cc := SPLIT *. a.hi
  let hx := cc -. a.hi
  let c := SPLIT *. yhi
  let hx := cc -. hx
  let tx := a.hi -. hx
  let hy := c -. yhi
  let cc := a.hi *. yhi
  let hy := c -. hy
  let ty := yhi -. hy
  let c := ((((hx *. hy -. cc) +. hx *. ty) +. tx *. hy) +. tx *. ty) +. (a.hi *. ylo +. a.lo *. yhi)
  let zhi := cc +. c
  let hx := cc -. zhi
  ⟨zhi, c +. hx⟩

/-- `self_multiply_dd` (dd.rs:488-490). -/
def selfMul (a y : DD α) : DD α := a.mulHiLo y.hi y.lo

/-- `self_multiply_f64` (dd.rs:501-503). -/
def selfMulF (a : DD α) (y : α) : DD α := a.mulHiLo y (lit 0)

/-- `multiply_dd` (dd.rs:455-462). -/
def mul (a y : DD α) : DD α := if y.isNaN then nan else a.selfMul y

/-- `multiply_f64` (dd.rs:470-477). -/
def mulF (a : DD α) (y : α) : DD α := if Flt.isNaN y then nan else a.mulHiLo y (lit 0)

/-- `self_divide_hi_lo`, `self_divide_dd`, `self_divide_f64` and `divide_dd`, which repeats the same code
(dd.rs:606-632, 589-604, 536-563). -/
def divHiLo (a : DD α) (yhi ylo : α) : DD α :=
  let cc := a.hi /. yhi
  let c := SPLIT *. cc
  let hc := c -. cc
  let u := SPLIT *. yhi
  let hc := c -. hc
  let tc := cc -. hc
  let hy := u -. yhi
  let uu := cc *. yhi
  let hy := u -. hy
  let ty := yhi -. hy
  let u := (((hc *. hy -. uu) +. hc *. ty) +. tc *. hy) +. tc *. ty
  let c := ((((a.hi -. uu) -. u) +. a.lo) -. cc *. ylo) /. yhi
  let u := cc +. c
  ⟨u, (cc -. u) +. c⟩

/-- `divide_dd`, `self_divide_dd` (dd.rs:536-563, 589-591). -/
def div (a y : DD α) : DD α := a.divHiLo y.hi y.lo

/-- `divide_f64` (dd.rs:571-578). -/
def divF (a : DD α) (y : α) : DD α := if Flt.isNaN y then nan else a.divHiLo y (lit 0)

/-- `reciprocal` (dd.rs:639-665). -/
def reciprocal (a : DD α) : DD α :=
  let cc := lit 1 /. a.hi
  let c := SPLIT *. cc
  let hc := c -. cc
  let u := SPLIT *. a.hi
  let hc := c -. hc
  let tc := cc -. hc
  let hy := u -. a.hi
  let uu := cc *. a.hi
  let hy := u -. hy
  let ty := a.hi -. hy
  let u := (((hc *. hy -. uu) +. hc *. ty) +. tc *. hy) +. tc *. ty
  let c := (((lit 1 -. uu) -. u) -. cc *. a.lo) /. a.hi
  let zhi := cc +. c
  ⟨zhi, (cc -. zhi) +. c⟩

/-- `signum` (dd.rs:730-744). -/
def signum (a : DD α) : Int :=
  if a.hi >. lit 0 then 1
  else if a.hi <. lit 0 then -1
  else if a.lo >. lit 0 then 1
  else if a.lo <. lit 0 then -1
  else 0

/-- `is_zero` (dd.rs:1015-1017). -/
def isZero (a : DD α) : Bool := (a.hi ==. lit 0) && (a.lo ==. lit 0)

/-- `is_negative` (dd.rs:1024-1026). -/
def isNegative (a : DD α) : Bool := (a.hi <. lit 0) || ((a.hi ==. lit 0) && (a.lo <. lit 0))

/-- `is_positive` (dd.rs:1033-1035). -/
def isPositive (a : DD α) : Bool := (a.hi >. lit 0) || ((a.hi ==. lit 0) && (a.lo >. lit 0))

/-- `abs` (dd.rs:795-803). -/
def abs (a : DD α) : DD α := if a.isNaN then nan else if a.isNegative then a.negate else a

/-- `sqr` (dd.rs:810-812). -/
def sqr (a : DD α) : DD α := a.mul a

/-- `self_sqr` (dd.rs:822-825). -/
def selfSqr (a : DD α) : DD α := a.selfMul a

/-- `sqr_f64` (dd.rs:832-836). The receiver is not used. -/
def sqrF (_ : DD α) (x : α) : DD α := (ofF x).selfMulF x

/-- `equals` (dd.rs:1052-1054). -/
def equals (a y : DD α) : Bool := (a.hi ==. y.hi) && (a.lo ==. y.lo)

/-- `gt` (dd.rs:1061-1063). -/
def gt (a y : DD α) : Bool := (a.hi >. y.hi) || ((a.hi ==. y.hi) && (a.lo >. y.lo))

/-- `ge` (dd.rs:1069-1071). -/
def ge (a y : DD α) : Bool := (a.hi >. y.hi) || ((a.hi ==. y.hi) && (a.lo ≥. y.lo))

/-- `lt` (dd.rs:1077-1079). -/
def lt (a y : DD α) : Bool := (a.hi <. y.hi) || ((a.hi ==. y.hi) && (a.lo <. y.lo))

/-- `le` (dd.rs:1085-1087). -/
def le (a y : DD α) : Bool := (a.hi <. y.hi) || ((a.hi ==. y.hi) && (a.lo ≤. y.lo))

/-- `compare_to` (dd.rs:1095-1109). -/
def compareTo (a o : DD α) : Int :=
  if a.hi <. o.hi then -1
  else if a.hi >. o.hi then 1
  else if a.lo <. o.lo then -1
  else if a.lo >. o.lo then 1
  else 0

/-- `min` (dd.rs:960-966). -/
def min (a x : DD α) : DD α := if a.le x then a else x

/-- `max` (dd.rs:974-980). -/
def max (a x : DD α) : DD α := if a.ge x then a else x

/-- `double_value` (dd.rs:992-994). -/
def doubleValue (a : DD α) : α := a.hi +. a.lo

/-- `determinant_xy_dd` (dd.rs:943-947). -/
def determinant (x1 y1 x2 y2 : DD α) : DD α := (x1.mul y2).selfSub (y1.mul x2)

/-- `determinant_xy_f64` (dd.rs:925-932). -/
def determinantF (x1 y1 x2 y2 : α) : DD α := determinant (ofF x1) (ofF y1) (ofF x2) (ofF y2)

/-- `int_value` (dd.rs:1001-1003). -/
def intValue {r : Rounding} (a : DD (Fl r)) : Int := Fl.toI32 a.hi

section round
variable [FltRound α]

/-- `floor` (dd.rs:680-692). -/
def floor (a : DD α) : DD α :=
  if a.isNaN then nan
  else
    let fhi := FltRound.floor a.hi
    ⟨fhi, if fhi ==. a.hi then FltRound.floor a.lo else lit 0⟩

/-- `ceil` (dd.rs:705-717). -/
def ceil (a : DD α) : DD α :=
  if a.isNaN then nan
  else
    let fhi := FltRound.ceil a.hi
    ⟨fhi, if fhi ==. a.hi then FltRound.ceil a.lo else lit 0⟩

/-- `rint` (dd.rs:756-763): the new `self`, and the result. -/
def rint (a : DD α) : DD α × DD α :=
  if a.isNaN then (a, a)
  else
    let a := a.addF (lit (1 / 2))
    (a, a.floor)

/-- `trunc` (dd.rs:775-784). -/
def trunc (a : DD α) : DD α :=
  if a.isNaN then nan else if a.isPositive then a.floor else a.ceil

end round

/-- `sqrt_dd` (dd.rs:845-872). -/
def sqrt {α : Type} [FltSqrt α] (a : DD α) : DD α :=
  if a.isZero then ofF (lit 0)
  else if a.isNegative then nan
  else
    let x := lit 1 /. FltSqrt.sqrt a.hi
    let ax := a.hi *. x
    let axdd := ofF ax
    let diffSq := a.sub axdd.sqr
    let d2 := diffSq.hi *. (x *. lit (1 / 2))
    axdd.addF d2

/-- `sqrt_f64` (dd.rs:874-876). The receiver is not used. -/
def sqrtF {α : Type} [FltSqrt α] (_ : DD α) (x : α) : DD α := (ofF x).sqrt

/-- The loop of `pow` (dd.rs:896-904). `fuel` bounds the number of rounds; 32 rounds suffice as `n < 2^32`. -/
def powLoop : Nat → Nat → DD α → DD α → DD α
  | 0, _, _, s => s
  | fuel + 1, n, r, s =>
    if 0 < n then
      let s := if n % 2 = 1 then s.selfMul r else s
      let n := n / 2
      let r := if 0 < n then r.sqr else r
      powLoop fuel n r s
    else s

/-- `pow` (dd.rs:885-914). `i32::abs` of the least integer panics (debug build). -/
def pow (a : DD α) (exp : Int) : Res (DD α) :=
  if exp = 0 then .ok (ofF (lit 1))
  else if exp = -2147483648 then .error .arith
  else
    let n := exp.natAbs
    let s := if 1 < n then powLoop 32 n a (ofF (lit 1)) else a
    .ok (if exp < 0 then s.reciprocal else s)

end DD
end Verif
