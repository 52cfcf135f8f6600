import Verif.Model.Coordinate
import Verif.Model.DD

/-! # Model of `src/core/algorithm/cg_algorithms_dd.rs` and `Orientation::index` -/

namespace Verif
open Flt

namespace CGDD
variable {α : Type} [Flt α]

/-- `signum` (cg_algorithms_dd.rs:181-185). -/
def signum (x : α) : Int := if x >. lit 0 then 1 else if x <. lit 0 then -1 else 0

/-- `DP_SAFE_EPSILON` (30). -/
def eps : α := lit (1 / 1000000000000000)

/-- `orientation_index_filter` (144-179). -/
def filter (pax pay pbx pby pcx pcy : α) : Int :=
  let detleft := (pax -. pcx) *. (pby -. pcy)
  let detright := (pay -. pcy) *. (pbx -. pcx)
  let det := detleft -. detright
  let finish (detsum : α) : Int :=
    let errbound := eps *. detsum
    if (det ≥. errbound) || ((-.det) ≥. errbound) then signum det else 2
  if detleft >. lit 0 then
    if detright ≤. lit 0 then signum det else finish (detleft +. detright)
  else if detleft <. lit 0 then
    if detright ≥. lit 0 then signum det else finish ((-.detleft) -. detright)
  else signum det

/-- The double-double part of `orientation_index_xy` (72-85). -/
def ddIndex (p1x p1y p2x p2y qx qy : α) : Int :=
  let dx1 := (DD.ofF p2x).addF (-.p1x)
  let dy1 := (DD.ofF p2y).addF (-.p1y)
  let dx2 := (DD.ofF qx).addF (-.p2x)
  let dy2 := (DD.ofF qy).addF (-.p2y)
  ((dx1.selfMul dy2).selfSub (dy1.selfMul dx2)).signum

/-- `orientation_index_xy` (64-86). -/
def indexXY (p1x p1y p2x p2y qx qy : α) : Int :=
  let index := filter p1x p1y p2x p2y qx qy
  if index ≤ 1 then index else ddIndex p1x p1y p2x p2y qx qy

/-- `orientation_index_coordinates` (45-47). -/
def index (p1 p2 q : Coord α) : Int := indexXY p1.x p1.y p2.x p2.y q.x q.y

/-- `sign_of_det2x_2dd` (96-100). -/
def signOfDetDD (x1 y1 x2 y2 : DD α) : Int := ((x1.mul y2).selfSub (y1.mul x2)).signum

/-- `sign_of_det2x2_f64` (110-119). -/
def signOfDetF (dx1 dy1 dx2 dy2 : α) : Int := signOfDetDD (DD.ofF dx1) (DD.ofF dy1) (DD.ofF dx2) (DD.ofF dy2)

/-- `intersection` (199-237). -/
def intersection (p1 p2 q1 q2 : Coord α) : Option (Coord α) :=
  let px := (DD.ofF p1.y).selfSubF p2.y
  let py := (DD.ofF p2.x).selfSubF p1.x
  let pw := ((DD.ofF p1.x).selfMulF p2.y).selfSub ((DD.ofF p2.x).selfMulF p1.y)
  let qx := (DD.ofF q1.y).selfSubF q2.y
  let qy := (DD.ofF q2.x).selfSubF q1.x
  let qw := ((DD.ofF q1.x).selfMulF q2.y).selfSub ((DD.ofF q2.x).selfMulF q1.y)
  let x := (py.mul qw).selfSub (qy.mul pw)
  let y := (qx.mul pw).selfSub (px.mul qw)
  let w := (px.mul qy).selfSub (qx.mul py)
  let xInt := (x.div w).doubleValue
  let yInt := (y.div w).doubleValue
  if isNaN xInt || isInf xInt || isNaN yInt || isInf yInt then none else some (Coord.xy xInt yInt)

end CGDD

namespace Orientation
/-- constants (orientation.rs:13-33) -/
abbrev CLOCKWISE : Int := -1
abbrev RIGHT : Int := -1
abbrev COUNTERCLOCKWISE : Int := 1
abbrev LEFT : Int := 1
abbrev COLLINEAR : Int := 0
abbrev STRAIGHT : Int := 0

/-- `Orientation::index` (orientation.rs:51-80). -/
def index {α : Type} [Flt α] (p1 p2 q : Coord α) : Int := CGDD.index p1 p2 q
end Orientation

end Verif
