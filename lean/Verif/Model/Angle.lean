import Verif.Base.FltTrig
import Verif.Model.Coordinate

/-! # Model of `src/core/algorithm/angle.rs` -/

namespace Verif
open Flt

/-- A Rust `while cond(a) { a = step(a) }` run for at most `fuel` tests of the condition; `none`: not finished by then. -/
def whileFuel {α : Type} (cond : α → Bool) (step : α → α) : Nat → α → Option α
  | 0, _ => none
  | fuel + 1, a => if cond a then whileFuel cond step fuel (step a) else some a

namespace Angle
variable {α : Type} [Flt α] [FltTrig α]

/-- `std::f64::consts::PI`. -/
abbrev pi : α := FltTrig.pi

/-- `PI_TIMES_2` (16). -/
def twoPi : α := lit 2 *. pi

/-- `PI_OVER_2` (20). -/
def halfPi : α := pi /. lit 2

/-- `PI_OVER_4` (24). -/
def quarterPi : α := pi /. lit 4

/-- `to_degrees` (40-42). -/
def toDegrees (radians : α) : α := (radians *. lit 180) /. pi

/-- `to_radians` (50-52). -/
def toRadians (deg : α) : α := (deg *. pi) /. lit 180

/-- `angle_coordinates` (63-67). -/
def angleCoordinates (p0 p1 : Coord α) : α := FltTrig.atan2 (p1.y -. p0.y) (p1.x -. p0.x)

/-- `angle_coordinate` (77-79). -/
def angleCoordinate (p : Coord α) : α := FltTrig.atan2 p.y p.x

/-- `is_acute` (92-100). -/
def isAcute (p0 p1 p2 : Coord α) : Bool :=
  (((p0.x -. p1.x) *. (p2.x -. p1.x) +. (p0.y -. p1.y) *. (p2.y -. p1.y))) >. lit 0

/-- `is_obtuse` (113-121). -/
def isObtuse (p0 p1 p2 : Coord α) : Bool :=
  (((p0.x -. p1.x) *. (p2.x -. p1.x) +. (p0.y -. p1.y) *. (p2.y -. p1.y))) <. lit 0

/-- `diff` (292-306). -/
def diff (ang1 ang2 : α) : α :=
  let del := if ang1 <. ang2 then ang2 -. ang1 else ang1 -. ang2
  if del >. pi then twoPi -. del else del

/-- `angle_between` (132-137). -/
def angleBetween (tip1 tail tip2 : Coord α) : α := diff (angleCoordinates tail tip1) (angleCoordinates tail tip2)

/-- The turn from direction `a1` to direction `a2` (156-165; the same code in `Vector2D::angle_to`, vector_2d.rs:214-223). -/
def orientedDiff (a1 a2 : α) : α :=
  let del := a2 -. a1
  if del ≤. -.pi then del +. twoPi
  else if del >. pi then del -. twoPi
  else del

/-- `angle_between_oriented` (153-166). -/
def angleBetweenOriented (tip1 tail tip2 : Coord α) : α :=
  orientedDiff (angleCoordinates tail tip1) (angleCoordinates tail tip2)

/-- `normalize` (231-240); `none`: a loop has not ended after `fuel` tests. -/
def normalize (fuel : Nat) (angle : α) : Option α := do
  let a ← whileFuel (fun a => a >. pi) (fun a => a -. twoPi) fuel angle
  whileFuel (fun a => a ≤. -.pi) (fun a => a +. twoPi) fuel a

/-- `normalize_positive` (261-281); `none`: a loop has not ended after `fuel` tests. -/
def normalizePositive (fuel : Nat) (angle : α) : Option α :=
  if angle <. lit 0 then do
    let a ← whileFuel (fun a => a <. lit 0) (fun a => a +. twoPi) fuel angle
    pure (if a ≥. twoPi then lit 0 else a)
  else do
    let a ← whileFuel (fun a => a ≥. twoPi) (fun a => a -. twoPi) fuel angle
    pure (if a <. lit 0 then lit 0 else a)

/-- `bisector` (178-182). -/
def bisector (fuel : Nat) (tip1 tail tip2 : Coord α) : Option α :=
  let angDel := angleBetweenOriented tip1 tail tip2
  normalize fuel (angleCoordinates tail tip1 +. angDel /. lit 2)

/-- `interior_angle` (197-201). -/
def interiorAngle (fuel : Nat) (p0 p1 p2 : Coord α) : Option α :=
  normalizePositive fuel (angleCoordinates p1 p2 -. angleCoordinates p1 p0)

/-- `get_turn` (212-222). -/
def getTurn (ang1 ang2 : α) : Int :=
  let cp : α := FltTrig.sin (ang2 -. ang1)
  if cp >. lit 0 then 1 else if cp <. lit 0 then -1 else 0

/-- the threshold `5e-16` (316, 330) -/
def snapEps : α := lit (5 / 10000000000000000)

/-- `sin_snap` (314-320). -/
def sinSnap (ang : α) : α :=
  let res : α := FltTrig.sin ang
  if abs res <. snapEps then lit 0 else res

/-- `cos_snap` (328-334). -/
def cosSnap (ang : α) : α :=
  let res : α := FltTrig.cos ang
  if abs res <. snapEps then lit 0 else res

/-- `project` (344-348). -/
def project (p : Coord α) (angle dist : α) : Coord α :=
  { Coord.default with x := p.x +. dist *. cosSnap angle, y := p.y +. dist *. sinSnap angle }

end Angle
end Verif
