import Verif.Base.Flt
import Mathlib.Algebra.Order.Floor.Ring
import Mathlib.Algebra.Order.Round
import Mathlib.Data.Rat.Floor

/-! # Rounding to integers (`f64::round`, `f64::floor`, `f64::ceil`) -/

namespace Verif
open Flt

/-- The integer valued functions of `f64` (std). -/
class FltRound (α : Type) where
  /-- `f64::round`: to the nearest integer, ties away from zero -/
  round : α → α
  floor : α → α
  ceil : α → α

/-- Nearest integer, ties away from zero. -/
def roundAway {K : Type} [Field K] [LinearOrder K] [FloorRing K] (v : K) : ℤ :=
  if 0 ≤ v then ⌊v + 1 / 2⌋ else ⌈v - 1 / 2⌉

/-- Exact arithmetic. -/
instance exactRound (K : Type) [Field K] [LinearOrder K] [FloorRing K] : FltRound K where
  round v := (roundAway v : K)
  floor v := (⌊v⌋ : K)
  ceil v := (⌈v⌉ : K)

/-- IEEE values: these functions are exact in every binary format, and keep NaN and the infinities. -/
instance {r : Rounding} : FltRound (Fl r) where
  round v := match v with | Fl.fin q => Fl.fin (roundAway q) | v => v
  floor v := match v with | Fl.fin q => Fl.fin ⌊q⌋ | v => v
  ceil v := match v with | Fl.fin q => Fl.fin ⌈q⌉ | v => v

/-- The cast `as i32` of `f64` (std): towards zero, to the nearest bound outside the range, NaN to 0. -/
def Fl.toI32 {r : Rounding} : Fl r → Int
  | .nan => 0
  | .ninf => -2147483648
  | .pinf => 2147483647
  | .fin q => max (-2147483648) (min 2147483647 (if 0 ≤ q then ⌊q⌋ else ⌈q⌉))

end Verif
