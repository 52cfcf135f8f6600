import Verif.Model.DD
import Verif.Base.FltRound
import Verif.Base.Res

/-! # Model of the constants and the magnitude of `src/core/math/dd.rs` -/

namespace Verif
open Flt

namespace DD
section
variable {α : Type} [Flt α]

/-- `new_pi` (dd.rs:165-170). A decimal literal is the value nearest to it. -/
def newPi : DD α := ⟨lit (3141592653589793116 / 10 ^ 18), lit (1224646799147353207 / 10 ^ 34)⟩

/-- `new_two_pi` (dd.rs:175-180). -/
def newTwoPi : DD α := ⟨lit (6283185307179586232 / 10 ^ 18), lit (2449293598294706414 / 10 ^ 34)⟩

/-- `new_pi_2` (dd.rs:185-190). -/
def newPi2 : DD α := ⟨lit (1570796326794896558 / 10 ^ 18), lit (6123233995736766036 / 10 ^ 35)⟩

/-- `new_e` (dd.rs:195-200). -/
def newE : DD α := ⟨lit (2718281828459045091 / 10 ^ 18), lit (1445646891729250158 / 10 ^ 34)⟩

end

/-- The cast `as u32` of an `i32`: negative numbers wrap. -/
def asU32 (i : Int) : Nat := (i % 2 ^ 32).toNat

/-- `i32::pow(10, e)` (std) in a build with overflow checks: powers above `10 ^ 9` are outside the range and panic. -/
def i32Pow10 (e : Nat) : Res Int := if e ≤ 9 then pure (10 ^ e) else .error .arith

/-- A result of `i32` arithmetic in a build with overflow checks. -/
def i32Check (v : Int) : Res Int := if -2147483648 ≤ v ∧ v ≤ 2147483647 then pure v else .error .arith

/-- `magnitude` (dd.rs:1343-1358). `ln` is `f64::ln`. Overflows of `i32` panic, as in a build with overflow checks. -/
def magnitude {r : Rounding} (ln : Fl r → Fl r) (x : Fl r) : Res Int := do
  let xAbs := Flt.abs x
  let xLog10 := ln xAbs /. ln (lit 10)
  let xMag := Fl.toI32 (FltRound.floor xLog10)
  let xApprox ← i32Pow10 (asU32 xMag)
  let t ← i32Check (xApprox * 10)
  pure (if t ≤ Fl.toI32 xAbs then xMag + 1 else xMag)

end DD
end Verif
