import Verif.Model.Distance
import Verif.Model.Orientation

/-! # Model of `src/core/algorithm/intersection.rs` and `src/core/algorithm/hcoordinate.rs` -/

namespace Verif
open Flt

/-- `struct HCoordinate` (hcoordinate.rs:12-16). -/
structure HCoord (α : Type) where
  x : α
  y : α
  w : α

namespace HCoord
variable {α : Type} [Flt α]

/-- `HCoordinate::default` (77-83). -/
def default : HCoord α := ⟨lit 0, lit 0, lit 1⟩

/-- `new_with_xyw` (85-91). -/
def ofXYW (x y w : α) : HCoord α := ⟨x, y, w⟩

/-- `new_with_xy` (93-99). -/
def ofXY (x y : α) : HCoord α := ⟨x, y, lit 1⟩

/-- `new_with_coordinate` (101-107). -/
def ofCoord (p : Coord α) : HCoord α := ⟨p.x, p.y, lit 1⟩

/-- `new_with_hcoordinates` (109-115). -/
def cross (p1 p2 : HCoord α) : HCoord α :=
  ⟨p1.y *. p2.w -. p2.y *. p1.w, p2.x *. p1.w -. p1.x *. p2.w, p1.x *. p2.y -. p2.x *. p1.y⟩

/-- `new_with_coordinates` (125-132): the line through two points. -/
def ofLine (p1 p2 : Coord α) : HCoord α := ⟨p1.y -. p2.y, p2.x -. p1.x, p1.x *. p2.y -. p2.x *. p1.y⟩

/-- `new_with_coordinates_4` (134-154): the common point of two lines. -/
def ofLines (p1 p2 q1 q2 : Coord α) : HCoord α :=
  let px := p1.y -. p2.y
  let py := p2.x -. p1.x
  let pw := p1.x *. p2.y -. p2.x *. p1.y
  let qx := q1.y -. q2.y
  let qy := q2.x -. q1.x
  let qw := q1.x *. q2.y -. q2.x *. q1.y
  ⟨py *. qw -. qy *. pw, qx *. pw -. px *. qw, px *. qy -. qx *. py⟩

/-- `get_x` (156-162). -/
def getX (h : HCoord α) : α :=
  let a := h.x /. h.w
  if isNaN a || isInf a then nan else a

/-- `get_y` (164-170). -/
def getY (h : HCoord α) : α :=
  let a := h.y /. h.w
  if isNaN a || isInf a then nan else a

/-- `get_coordinate` (172-177). -/
def getCoordinate (h : HCoord α) : Coord α := { Coord.default with x := h.getX, y := h.getY }

/-- `HCoordinate::intersection` (31-61). -/
def intersection (p1 p2 q1 q2 : Coord α) : Option (Coord α) :=
  let px := p1.y -. p2.y
  let py := p2.x -. p1.x
  let pw := p1.x *. p2.y -. p2.x *. p1.y
  let qx := q1.y -. q2.y
  let qy := q2.x -. q1.x
  let qw := q1.x *. q2.y -. q2.x *. q1.y
  let x := py *. qw -. qy *. pw
  let y := qx *. pw -. px *. qw
  let w := px *. qy -. qx *. py
  let xInt := x /. w
  let yInt := y /. w
  if isNaN xInt || isInf xInt || isNaN yInt || isInf yInt then none else some (Coord.xy xInt yInt)

end HCoord

namespace Intersection
variable {α : Type}

/-- `Intersection::intersection` (intersection.rs:37-46). -/
def intersection [Flt α] (p1 p2 q1 q2 : Coord α) : Option (Coord α) := CGDD.intersection p1 p2 q1 q2

/-- The middle of the common part of the extents `p1..p2` and `q1..q2` (68-120, once for x and once for y). -/
def kernelMid [Flt α] (p1 p2 q1 q2 : α) : α :=
  let min0 := if p1 <. p2 then p1 else p2
  let max0 := if p1 >. p2 then p1 else p2
  let min1 := if q1 <. q2 then q1 else q2
  let max1 := if q1 >. q2 then q1 else q2
  let intMin := if min0 >. min1 then min0 else min1
  let intMax := if max0 <. max1 then max0 else max1
  (intMin +. intMax) /. lit 2

/-- `intersection_fp` (61-157). -/
def intersectionFP [Flt α] (p1 p2 q1 q2 : Coord α) : Option (Coord α) :=
  let midx := kernelMid p1.x p2.x q1.x q2.x
  let midy := kernelMid p1.y p2.y q1.y q2.y
  let p1x := p1.x -. midx
  let p1y := p1.y -. midy
  let p2x := p2.x -. midx
  let p2y := p2.y -. midy
  let q1x := q1.x -. midx
  let q1y := q1.y -. midy
  let q2x := q2.x -. midx
  let q2y := q2.y -. midy
  let px := p1y -. p2y
  let py := p2x -. p1x
  let pw := p1x *. p2y -. p2x *. p1y
  let qx := q1y -. q2y
  let qy := q2x -. q1x
  let qw := q1x *. q2y -. q2x *. q1y
  let x := py *. qw -. qy *. pw
  let y := qx *. pw -. px *. qw
  let w := px *. qy -. qx *. py
  let xInt := x /. w
  let yInt := y /. w
  if isNaN xInt || isInf xInt || isNaN yInt || isInf yInt then none else some (Coord.xy (xInt +. midx) (yInt +. midy))

/-- `line_segment` (174-210). -/
def lineSegment [FltSqrt α] (line1 line2 seg1 seg2 : Coord α) : Option (Coord α) :=
  let orientS1 := Orientation.index line1 line2 seg1
  if orientS1 = 0 then some seg1.fromCoordinate
  else
    let orientS2 := Orientation.index line1 line2 seg2
    if orientS2 = 0 then some seg2.fromCoordinate
    else if (orientS1 > 0 ∧ orientS2 > 0) ∨ (orientS1 < 0 ∧ orientS2 < 0) then none
    else match intersection line1 line2 seg1 seg2 with
      | some p => some p
      | none =>
        let dist1 := Distance.pointToLinePerpendicular seg1 line1 line2
        let dist2 := Distance.pointToLinePerpendicular seg2 line1 line2
        if dist1 <. dist2 then some seg1.fromCoordinate else some seg2.fromCoordinate

end Intersection
end Verif
