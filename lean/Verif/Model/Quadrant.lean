import Verif.Model.Coordinate

/-! # Model of `src/core/geom/quadrant.rs`

Quadrants are unbounded integers (`i32` in Rust); overflow for numbers near the ends of `i32` is not modelled. -/

namespace Verif.Quadrant
open Flt
variable {α : Type} [Flt α]

/-- the constants (20-23) -/
abbrev NE : Int := 0
abbrev NW : Int := 1
abbrev SW : Int := 2
abbrev SE : Int := 3

/-- `quadrant_xy` (31-48). -/
def quadrantXY (dx dy : α) : Int :=
  if (dx ==. lit 0) && (dy ==. lit 0) then -1
  else if dx ≥. lit 0 then (if dy ≥. lit 0 then NE else SE)
  else (if dy ≥. lit 0 then NW else SW)

/-- `quadrant_coordinates` (55-73). -/
def quadrantCoordinates (p0 p1 : Coord α) : Int :=
  if (p1.x ==. p0.x) && (p1.y ==. p0.y) then -1
  else if p1.x ≥. p0.x then (if p1.y ≥. p0.y then NE else SE)
  else (if p1.y ≥. p0.y then NW else SW)

/-- `is_opposite` (78-88); Rust's `%` truncates. -/
def isOpposite (q1 q2 : Int) : Bool :=
  if q1 = q2 then false else if (q1 - q2 + 4).tmod 4 = 2 then true else false

/-- `common_half_plane` (94-120). -/
def commonHalfPlane (q1 q2 : Int) : Int :=
  if q1 = q2 then q1
  else if (q1 - q2 + 4).tmod 4 = 2 then -1
  else
    let mn := if q1 < q2 then q1 else q2
    let mx := if q1 > q2 then q1 else q2
    if mn = 0 ∧ mx = 3 then 3 else mn

/-- `is_in_half_plane` (126-131). -/
def isInHalfPlane (quad half : Int) : Bool :=
  if half = SE then decide (quad = SE) || decide (quad = SW)
  else decide (quad = half) || decide (quad = half + 1)

/-- `is_northern` (136-138). -/
def isNorthern (quad : Int) : Bool := decide (quad = NE) || decide (quad = NW)

end Verif.Quadrant
