import Verif.Model.Coordinate
import Verif.Lemmas.Flt
import Verif.Spec.Order

/-! # C01: coordinate ordering -/

set_option linter.unusedSectionVars false

namespace Verif.Props
open Flt Verif.Spec
variable {α : Type} [Flt α] [FltOrd α]

/-- `compare_to` is lexicographic in (x, y), for numbers. -/
theorem C01_compareTo_lex (a b : Coord α) (ha : a.NN) (hb : b.NN) :
    (a.compareTo b = -1 ↔ (a.x <. b.x) = true ∨ ((a.x ==. b.x) = true ∧ (a.y <. b.y) = true)) ∧
    (a.compareTo b = 1 ↔ (b.x <. a.x) = true ∨ ((a.x ==. b.x) = true ∧ (b.y <. a.y) = true)) ∧
    (a.compareTo b = 0 ↔ (a.x ==. b.x) = true ∧ (a.y ==. b.y) = true) := by
  obtain ⟨h1, h2⟩ := ha
  obtain ⟨h3, h4⟩ := hb
  simp only [Coord.compareTo, lt_eq, eq_eq, h1, h2, h3, h4]
  grind

/-- `compare_to` is a total order on coordinates whose x and y are numbers (infinities allowed), with
`equals_2d` as its equality. -/
theorem C01_compareTo_total_order :
    TotalOrderOn (Coord.NN (α := α)) Coord.compareTo (fun a b => a.equals2D b = true) where
  range a b := by unfold Coord.compareTo; split_ifs <;> simp
  zero_iff a b ha hb := by
    obtain ⟨h1, h2⟩ := ha
    obtain ⟨h3, h4⟩ := hb
    simp only [Coord.compareTo, Coord.equals2D, lt_eq, eq_eq, h1, h2, h3, h4]
    grind
  swap a b ha hb := by
    obtain ⟨h1, h2⟩ := ha
    obtain ⟨h3, h4⟩ := hb
    simp only [Coord.compareTo, lt_eq, h1, h2, h3, h4]
    grind
  trans a b c ha hb hc := by
    obtain ⟨h1, h2⟩ := ha
    obtain ⟨h3, h4⟩ := hb
    obtain ⟨h5, h6⟩ := hc
    simp only [Coord.compareTo, lt_eq, h1, h2, h3, h4, h5, h6]
    grind

/-- z and m never influence `compare_to` and `equals_2d`. -/
theorem C01_compareTo_ignores_zm (a b a' b' : Coord α) (h1 : a.x = a'.x) (h2 : a.y = a'.y)
    (h3 : b.x = b'.x) (h4 : b.y = b'.y) :
    a.compareTo b = a'.compareTo b' ∧ a.equals2D b = a'.equals2D b' := by
  simp [Coord.compareTo, Coord.equals2D, h1, h2, h3, h4]

/-- `equals_2d` is an equivalence on coordinates made of numbers, and is false as soon as a NaN takes part. -/
theorem C01_equals2D_equivalence (a b c : Coord α) :
    (a.NN ↔ a.equals2D a = true) ∧
    (a.equals2D b = b.equals2D a) ∧
    (a.equals2D b = true → b.equals2D c = true → a.equals2D c = true) ∧
    (a.equals2D b = true → a.NN ∧ b.NN) := by
  simp only [Coord.equals2D, Coord.NN, eq_eq]
  grind

/-- `equals_3d` is an equivalence on coordinates with numeric x, y (NaN z equals NaN z) and refines `equals_2d`. -/
theorem C01_equals3D_equivalence (a b c : Coord α) :
    (a.NN ↔ a.equals3D a = true) ∧
    (a.equals3D b = b.equals3D a) ∧
    (a.equals3D b = true → b.equals3D c = true → a.equals3D c = true) ∧
    (a.equals3D b = true → a.equals2D b = true) := by
  simp only [Coord.equals2D, Coord.equals3D, Coord.NN, eq_eq]
  grind

/-- A coordinate with NaN ordinates compares equal to everything, although `equals_2d` is false: the claim of
a total order fails outside the numbers, and `compare_to = 0` is then not transitive. -/
theorem C01_nan_breaks_order (x y : α) (hx : isNaN x = false) (hy : isNaN y = false) (hxy : (x <. y) = true)
    (hnan : isNaN (nan : α) = true) :
    ∃ a b c : Coord α, a.compareTo b = 0 ∧ b.compareTo c = 0 ∧ a.compareTo c = -1 ∧
      a.equals2D b = false := by
  refine ⟨Coord.xy x x, Coord.xy nan nan, Coord.xy y y, ?_, ?_, ?_, ?_⟩ <;>
    simp [Coord.compareTo, Coord.equals2D, Coord.xy, lt_eq, eq_eq, hnan]
  rw [FltOrd.lt_iff] at hxy
  simp [hx, hy, hxy.2.2]

/-- Copying a coordinate with `from_coordinate` preserves everything; `set_coordinate` keeps the old m
and makes the coordinates 3D-equal when x, y are numbers. -/
theorem C01_copy (a b : Coord α) :
    a.fromCoordinate = a ∧ (a.setCoordinate b).m = a.m ∧
    (b.NN → (a.setCoordinate b).equals3D b = true) := by
  refine ⟨rfl, rfl, fun h => ?_⟩
  exact ((C01_equals3D_equivalence b b b).1).mp h

section examples
/-- Values for the examples: IEEE-like values with exact arithmetic. -/
local notation "F" => Fl exactRounding

example : (Coord.xy (Fl.fin 1) Fl.pinf : Coord F).NN ∧ (Coord.xy (Fl.fin 1) (Fl.fin 2) : Coord F).NN ∧
    (Coord.xy (Fl.fin 1) (Fl.fin 2) : Coord F).compareTo (Coord.xy (Fl.fin 1) Fl.pinf) = -1 := by
  decide
example : ((Fl.fin 1 : F) <. Fl.fin 2) = true ∧ isNaN (nan : F) = true := by decide
example : ∃ a b : Coord F, a.equals3D b = true ∧ isNaN a.z = true ∧ a.m ≠ b.m :=
  ⟨⟨Fl.fin 1, Fl.fin 2, Fl.nan, Fl.fin 0⟩, ⟨Fl.fin 1, Fl.fin 2, Fl.nan, Fl.fin 5⟩, by decide⟩
end examples

end Verif.Props
