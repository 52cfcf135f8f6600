import Verif.Base.RealFlt
import Mathlib.Analysis.SpecialFunctions.Complex.Arg

/-! # Trigonometric functions used by the code -/

namespace Verif

/-- `f64::sin`, `f64::cos`, `f64::atan2` and `std::f64::consts::PI`, where available. -/
class FltTrig (α : Type) where
  pi : α
  sin : α → α
  cos : α → α
  atan2 : α → α → α

/-- Exact real trigonometry; `atan2 y x` is the argument of `x + i y`, in `(-π, π]`. -/
noncomputable instance : FltTrig ℝ where
  pi := Real.pi
  sin := Real.sin
  cos := Real.cos
  atan2 y x := Complex.arg ⟨x, y⟩

@[simp] theorem real_pi : (FltTrig.pi : ℝ) = Real.pi := rfl
@[simp] theorem real_sin (a : ℝ) : FltTrig.sin a = Real.sin a := rfl
@[simp] theorem real_cos (a : ℝ) : FltTrig.cos a = Real.cos a := rfl
@[simp] theorem real_atan2 (y x : ℝ) : FltTrig.atan2 y x = Complex.arg ⟨x, y⟩ := rfl

end Verif
