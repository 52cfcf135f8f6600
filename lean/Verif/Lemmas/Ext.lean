import Verif.Base.Flt

/-! # Exact rational arithmetic with NaN and infinities -/

namespace Verif
open Flt

abbrev EQ := Fl exactRounding

namespace EQ
@[simp] theorem lit_fin (q : ℚ) : (Flt.lit q : EQ) = Fl.fin q := rfl
@[simp] theorem add_fin (a b : ℚ) : (Fl.fin a : EQ) +. Fl.fin b = Fl.fin (a + b) := rfl
@[simp] theorem sub_fin (a b : ℚ) : (Fl.fin a : EQ) -. Fl.fin b = Fl.fin (a - b) := by
  rw [sub_eq_add_neg]; rfl
@[simp] theorem mul_fin (a b : ℚ) : (Fl.fin a : EQ) *. Fl.fin b = Fl.fin (a * b) := rfl
@[simp] theorem neg_fin (a : ℚ) : Flt.neg (Fl.fin a : EQ) = Fl.fin (-a) := rfl
@[simp] theorem abs_fin (a : ℚ) : Flt.abs (Fl.fin a : EQ) = Fl.fin |a| := rfl
@[simp] theorem lt_fin (a b : ℚ) : ((Fl.fin a : EQ) <. Fl.fin b) = decide (a < b) := rfl
@[simp] theorem le_fin (a b : ℚ) : ((Fl.fin a : EQ) ≤. Fl.fin b) = decide (a ≤ b) := rfl
@[simp] theorem eq_fin (a b : ℚ) : ((Fl.fin a : EQ) ==. Fl.fin b) = decide (a = b) := rfl
@[simp] theorem isNaN_fin (a : ℚ) : Flt.isNaN (Fl.fin a : EQ) = false := rfl
@[simp] theorem isFinite_fin (a : ℚ) : Flt.isFinite (Fl.fin a : EQ) = true := rfl
@[simp] theorem isInf_fin (a : ℚ) : Flt.isInf (Fl.fin a : EQ) = false := rfl
@[simp] theorem isNaN_nan : Flt.isNaN (Fl.nan : EQ) = true := rfl
@[simp] theorem isNaN_nan' : Flt.isNaN (Flt.nan : EQ) = true := rfl
theorem div_fin (a b : ℚ) (h : b ≠ 0) : (Fl.fin a : EQ) /. Fl.fin b = Fl.fin (a / b) := by
  show Fl.div (Fl.fin a) (Fl.fin b) = _
  simp [Fl.div, h, Fl.round, exactRounding]; rfl
theorem div_zero (a : ℚ) : (Fl.fin a : EQ) /. Fl.fin 0 = if 0 < a then Fl.pinf else if a < 0 then Fl.ninf else Fl.nan := by
  show Fl.div (Fl.fin a) (Fl.fin 0) = _
  simp [Fl.div, Fl.infOf]
/-- Division by zero is never a number. -/
theorem div_zero_bad (a : ℚ) : (Flt.isNaN ((Fl.fin a : EQ) /. Fl.fin 0) || Flt.isInf ((Fl.fin a : EQ) /. Fl.fin 0)) = true := by
  rw [div_zero]; split_ifs <;> rfl
end EQ
end Verif
