import Verif.Base.Flt

/-! # Comparison lemmas for scalars -/

namespace Verif
open Flt
variable {α : Type} [Flt α] [FltOrd α]

theorem lt_eq (a b : α) :
    (a <. b) = (!isNaN a && !isNaN b && decide (FltOrd.key a < FltOrd.key b)) := by
  rw [Bool.eq_iff_iff, FltOrd.lt_iff]; simp [and_assoc]

theorem le_eq (a b : α) :
    (a ≤. b) = (!isNaN a && !isNaN b && decide (FltOrd.key a ≤ FltOrd.key b)) := by
  rw [Bool.eq_iff_iff, FltOrd.le_iff]; simp [and_assoc]

theorem eq_eq (a b : α) :
    (a ==. b) = (!isNaN a && !isNaN b && decide (FltOrd.key a = FltOrd.key b)) := by
  rw [Bool.eq_iff_iff, FltOrd.eq_iff]; simp [and_assoc]

variable [FltLit α]

theorem nn_lit0 : isNaN (lit 0 : α) = false := by
  simpa using FltLit.nn_lit (α := α) 0 (by norm_num)
theorem nn_lit_neg1 : isNaN (lit (-1) : α) = false := by
  simpa using FltLit.nn_lit (α := α) (-1) (by norm_num)
theorem lit_neg1_lt_lit0 : FltOrd.key (lit (-1) : α) < FltOrd.key (lit 0 : α) := by
  simpa using FltLit.lt_lit (α := α) (-1) 0 (by norm_num) (by norm_num) (by norm_num)

end Verif
