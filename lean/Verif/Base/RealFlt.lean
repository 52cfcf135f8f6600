import Verif.Base.Flt
import Mathlib.Analysis.Real.Sqrt

/-! # Exact real arithmetic, with square roots -/

namespace Verif
open Flt

/-- Exact real arithmetic with the real square root and the Euclidean hypotenuse. -/
noncomputable instance : FltSqrt ℝ where
  toFlt := exactFlt ℝ
  sqrt := Real.sqrt
  hypot a b := Real.sqrt (a ^ 2 + b ^ 2)

@[simp] theorem real_sqrt (a : ℝ) : FltSqrt.sqrt a = Real.sqrt a := rfl
@[simp] theorem real_hypot (a b : ℝ) : FltSqrt.hypot a b = Real.sqrt (a ^ 2 + b ^ 2) := rfl
@[simp] theorem real_toFlt : (FltSqrt.toFlt : Flt ℝ) = exactFlt ℝ := rfl

end Verif
