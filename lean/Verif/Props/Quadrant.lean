import Verif.Model.Quadrant
import Verif.Lemmas.Flt
import Mathlib.Tactic.IntervalCases

set_option linter.unusedSectionVars false

/-! # C27: quadrants -/

namespace Verif.Props
open Flt Quadrant
variable {α : Type} [Flt α] [FltOrd α]

/-- For numbers: -1 for the zero vector only, else the quadrant by the signs, axes counted to the side of the larger ordinate. -/
theorem C27_quadrant_by_signs [FltLit α] (dx dy : α) (hx : isNaN dx = false) (hy : isNaN dy = false) :
    (quadrantXY dx dy = -1 ↔ (dx ==. lit 0) = true ∧ (dy ==. lit 0) = true) ∧
    (quadrantXY dx dy = NE ↔ (lit 0 ≤. dx) = true ∧ (lit 0 ≤. dy) = true ∧ ¬ ((dx ==. lit 0) = true ∧ (dy ==. lit 0) = true)) ∧
    (quadrantXY dx dy = NW ↔ (dx <. lit 0) = true ∧ (lit 0 ≤. dy) = true) ∧
    (quadrantXY dx dy = SW ↔ (dx <. lit 0) = true ∧ (dy <. lit 0) = true) ∧
    (quadrantXY dx dy = SE ↔ (lit 0 ≤. dx) = true ∧ (dy <. lit 0) = true) := by
  have h0 : isNaN (lit ((0 : ℤ) : ℚ) : α) = false := FltLit.nn_lit 0 (by simp)
  simp only [Int.cast_zero] at h0
  simp only [quadrantXY, lt_eq, le_eq, eq_eq, hx, hy, h0]
  grind

/-- The version for two points depends on the comparisons of their ordinates in the same way. -/
theorem C27_quadrant_of_points (p0 p1 : Coord α) (h0 : p0.NN) (h1 : p1.NN) :
    (quadrantCoordinates p0 p1 = -1 ↔ p0.equals2D p1 = true) ∧
    (quadrantCoordinates p0 p1 = NE ↔ (p0.x ≤. p1.x) = true ∧ (p0.y ≤. p1.y) = true ∧ p0.equals2D p1 = false) ∧
    (quadrantCoordinates p0 p1 = NW ↔ (p1.x <. p0.x) = true ∧ (p0.y ≤. p1.y) = true) ∧
    (quadrantCoordinates p0 p1 = SW ↔ (p1.x <. p0.x) = true ∧ (p1.y <. p0.y) = true) ∧
    (quadrantCoordinates p0 p1 = SE ↔ (p0.x ≤. p1.x) = true ∧ (p1.y <. p0.y) = true) := by
  obtain ⟨a1, a2⟩ := h0
  obtain ⟨b1, b2⟩ := h1
  simp only [quadrantCoordinates, Coord.equals2D, lt_eq, le_eq, eq_eq, a1, a2, b1, b2]
  grind (splits := 20)

/-- In exact arithmetic the two versions agree. -/
theorem C27_versions_agree {K : Type} [Field K] [LinearOrder K] [IsStrictOrderedRing K] (p0 p1 : Coord K) :
    quadrantCoordinates p0 p1 = quadrantXY (p1.x - p0.x) (p1.y - p0.y) := by
  simp [quadrantCoordinates, quadrantXY, sub_eq_zero, sub_nonneg]

/-- In exact arithmetic, directions with opposite signs lie in opposite quadrants. -/
theorem C27_opposite_directions {K : Type} [Field K] [LinearOrder K] [IsStrictOrderedRing K] (dx dy : K) (hx : dx ≠ 0) (hy : dy ≠ 0) :
    isOpposite (quadrantXY dx dy) (quadrantXY (-dx) (-dy)) = true := by
  rcases lt_or_gt_of_ne hx with h1 | h1 <;> rcases lt_or_gt_of_ne hy with h2 | h2 <;>
    simp [quadrantXY, h1.le, h2.le, hx, h1.not_ge, h2.not_ge, isOpposite, NE, NW, SW, SE]

/-- A quadrant. -/
def IsQuad (q : Int) : Prop := 0 ≤ q ∧ q < 4

/-- Every non-zero direction has a quadrant. -/
theorem C27_range (dx dy : α) : quadrantXY dx dy = -1 ∨ IsQuad (quadrantXY dx dy) := by
  unfold quadrantXY IsQuad; split_ifs <;> simp [NE, NW, SW, SE]

/-- Opposite means: differing by 2 modulo 4. -/
theorem C27_isOpposite_mod (q1 q2 : Int) (h1 : IsQuad q1) (h2 : IsQuad q2) :
    isOpposite q1 q2 = true ↔ (q1 - q2) % 4 = 2 := by
  obtain ⟨a, b⟩ := h1
  obtain ⟨c, d⟩ := h2
  interval_cases q1 <;> interval_cases q2 <;> simp [isOpposite]

theorem C27_isOpposite_symm (q1 q2 : Int) (h1 : IsQuad q1) (h2 : IsQuad q2) : isOpposite q1 q2 = isOpposite q2 q1 := by
  rw [Bool.eq_iff_iff, C27_isOpposite_mod q1 q2 h1 h2, C27_isOpposite_mod q2 q1 h2 h1]; omega

/-- `common_half_plane` is -1 exactly for opposite quadrants, is symmetric, and otherwise names a half plane `h` made of the quadrants
`h` and `h + 1` modulo 4, containing both. -/
theorem C27_commonHalfPlane (q1 q2 : Int) (h1 : IsQuad q1) (h2 : IsQuad q2) :
    (commonHalfPlane q1 q2 = -1 ↔ isOpposite q1 q2 = true) ∧ commonHalfPlane q1 q2 = commonHalfPlane q2 q1 ∧
    (isOpposite q1 q2 = false → IsQuad (commonHalfPlane q1 q2) ∧
      ((q1 - commonHalfPlane q1 q2) % 4 = 0 ∨ (q1 - commonHalfPlane q1 q2) % 4 = 1) ∧
      ((q2 - commonHalfPlane q1 q2) % 4 = 0 ∨ (q2 - commonHalfPlane q1 q2) % 4 = 1)) := by
  obtain ⟨a, b⟩ := h1
  obtain ⟨c, d⟩ := h2
  interval_cases q1 <;> interval_cases q2 <;> simp [isOpposite, commonHalfPlane, IsQuad]

/-- `is_in_half_plane` is membership in the half plane for three of the four half planes. -/
theorem C27_isInHalfPlane_partial (q h : Int) (hq : IsQuad q) (hh : IsQuad h) (h3 : h ≠ SE) :
    isInHalfPlane q h = true ↔ (q - h) % 4 = 0 ∨ (q - h) % 4 = 1 := by
  obtain ⟨a, b⟩ := hq
  obtain ⟨c, d⟩ := hh
  interval_cases q <;> interval_cases h <;> simp [isInHalfPlane, SE, SW] at * 

/-- The fourth, east, half plane is wrong: NE and SE have it as their common half plane, yet NE is reported outside and SW inside. -/
theorem C27_east_half_plane_wrong :
    commonHalfPlane NE SE = SE ∧ isInHalfPlane NE SE = false ∧ isInHalfPlane SW SE = true := by decide

/-- `is_northern` is the half plane of nonnegative y. -/
theorem C27_isNorthern [FltLit α] (dx dy : α) (hx : isNaN dx = false) (hy : isNaN dy = false)
    (hne : ¬ ((dx ==. lit 0) = true ∧ (dy ==. lit 0) = true)) :
    isNorthern (quadrantXY dx dy) = true ↔ (lit 0 ≤. dy) = true := by
  have h0 : isNaN (lit ((0 : ℤ) : ℚ) : α) = false := FltLit.nn_lit 0 (by simp)
  simp only [Int.cast_zero] at h0
  simp only [quadrantXY, isNorthern, lt_eq, le_eq, eq_eq, hx, hy, h0] at *
  grind

section examples
local notation "F" => Fl exactRounding
example : quadrantXY (Fl.fin 1 : F) (Fl.fin 0) = NE ∧ quadrantXY (Fl.fin (-1) : F) (Fl.fin 0) = NW ∧
    quadrantXY (Fl.fin (-1) : F) (Fl.fin (-1)) = SW ∧ quadrantXY (Fl.fin 1 : F) (Fl.fin (-1)) = SE ∧
    quadrantXY (Fl.fin 0 : F) (Fl.fin 0) = -1 := by decide +kernel
/-- A NaN difference counts as negative. -/
theorem C27_nan : quadrantXY (Fl.nan : F) (Fl.fin 1) = NW ∧ quadrantXY (Fl.fin 1 : F) (Fl.nan) = SE := by decide +kernel
example : IsQuad SW ∧ IsQuad NE := by unfold IsQuad; decide
/-- On the axes opposite directions need not be in opposite quadrants. -/
example : isOpposite (quadrantXY (1 : ℚ) 0) (quadrantXY (-1 : ℚ) 0) = false := by decide +kernel
end examples

end Verif.Props
