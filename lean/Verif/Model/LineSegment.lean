import Verif.Model.LineIntersector
import Verif.Base.FltTrig

/-! # Model of `src/core/geom/line_segment.rs` -/

namespace Verif
open Flt

/-- `struct LineSegment` (8-12). -/
structure LineSeg (α : Type) where
  p0 : Coord α
  p1 : Coord α

namespace LineSeg
variable {α : Type}

/-- `new_from_coordinates` (21-26). -/
def ofCoords (p0 p1 : Coord α) : LineSeg α := ⟨p0.fromCoordinate, p1.fromCoordinate⟩

/-- `new_from_line_segment` (34-36). -/
def ofSeg (s : LineSeg α) : LineSeg α := ofCoords s.p0 s.p1

/-- `default` (15-19). -/
def default [Flt α] : LineSeg α := ofCoords Coord.default Coord.default

/-- `new_from_xy` (28-32). -/
def ofXY [Flt α] (x0 y0 x1 y1 : α) : LineSeg α := ofCoords (Coord.xy x0 y0) (Coord.xy x1 y1)

/-- `get_coordinate` (38-43). -/
def getCoordinate (s : LineSeg α) (i : Nat) : Coord α := if i = 0 then s.p0 else s.p1

/-- `set_coordinates` (49-54): x and y only. -/
def setCoordinates (s : LineSeg α) (p0 p1 : Coord α) : LineSeg α :=
  ⟨{ s.p0 with x := p0.x, y := p0.y }, { s.p1 with x := p1.x, y := p1.y }⟩

/-- `set_coordinates_from_line_segment` (45-47). -/
def setCoordinatesSeg (s ls : LineSeg α) : LineSeg α := s.setCoordinates ls.p0 ls.p1

/-- `reverse` (167-171). -/
def reverse (s : LineSeg α) : LineSeg α := ⟨s.p1, s.p0⟩

section Plain
variable [Flt α]

/-- `min_x` (60-62). -/
def minX (s : LineSeg α) : α := fmin s.p0.x s.p1.x
/-- `max_x` (68-70). -/
def maxX (s : LineSeg α) : α := fmax s.p0.x s.p1.x
/-- `min_y` (76-78). -/
def minY (s : LineSeg α) : α := fmin s.p0.y s.p1.y
/-- `max_y` (84-86). -/
def maxY (s : LineSeg α) : α := fmax s.p0.y s.p1.y

/-- `is_horizontal` (101-103). -/
def isHorizontal (s : LineSeg α) : Bool := s.p0.y ==. s.p1.y
/-- `is_vertical` (110-112). -/
def isVertical (s : LineSeg α) : Bool := s.p0.x ==. s.p1.x

/-- `orientation_index_line_segment` (133-146). -/
def orientationSeg (s seg : LineSeg α) : Int :=
  let orient0 := Orientation.index s.p0 s.p1 seg.p0
  let orient1 := Orientation.index s.p0 s.p1 seg.p1
  if orient0 ≥ 0 ∧ orient1 ≥ 0 then max orient0 orient1
  else if orient0 ≤ 0 ∧ orient1 ≤ 0 then min orient0 orient1
  else 0

/-- `orientation_index_coordinate` (160-162). -/
def orientation (s : LineSeg α) (p : Coord α) : Int := Orientation.index s.p0 s.p1 p

/-- `normalize` (180-184). -/
def normalize (s : LineSeg α) : LineSeg α := if s.p1.compareTo s.p0 < 0 then s.reverse else s

/-- `angle` (193-195). -/
def angle [FltTrig α] (s : LineSeg α) : α := FltTrig.atan2 (s.p1.y -. s.p0.y) (s.p1.x -. s.p0.x)

/-- `mid_point_coordinates` (211-213). -/
def midPointOf (p0 p1 : Coord α) : Coord α := Coord.xy ((p0.x +. p1.x) /. lit 2) ((p0.y +. p1.y) /. lit 2)

/-- `mid_point` (202-204). -/
def midPoint (s : LineSeg α) : Coord α := midPointOf s.p0 s.p1

/-- `point_along` (282-287). -/
def pointAlong (s : LineSeg α) (f : α) : Coord α :=
  { Coord.default with x := s.p0.x +. f *. (s.p1.x -. s.p0.x), y := s.p0.y +. f *. (s.p1.y -. s.p0.y) }

/-- `projection_factor` (351-380). -/
def projectionFactor (s : LineSeg α) (p : Coord α) : α :=
  if p.equals2D s.p0 then lit 0
  else if p.equals2D s.p1 then lit 1
  else
    let dx := s.p1.x -. s.p0.x
    let dy := s.p1.y -. s.p0.y
    let len := dx *. dx +. dy *. dy
    if len ≤. lit 0 then nan
    else ((p.x -. s.p0.x) *. dx +. (p.y -. s.p0.y) *. dy) /. len

/-- `segment_fraction` (395-403). -/
def segmentFraction (s : LineSeg α) (p : Coord α) : α :=
  let f := s.projectionFactor p
  if f <. lit 0 then lit 0 else if (f >. lit 1) || isNaN f then lit 1 else f

/-- `project_coordinate_with_projection_factor` (422-431). -/
def projectWith (s : LineSeg α) (p : Coord α) (f : α) : Coord α :=
  { p.fromCoordinate with x := s.p0.x +. f *. (s.p1.x -. s.p0.x), y := s.p0.y +. f *. (s.p1.y -. s.p0.y) }

/-- `project_coordinate` (413-420). -/
def project (s : LineSeg α) (p : Coord α) : Coord α :=
  if p.equals2D s.p0 || p.equals2D s.p1 then p.fromCoordinate
  else s.projectWith p (s.projectionFactor p)

/-- `project_line_segment` (445-473). -/
def projectSeg (s seg : LineSeg α) : Option (LineSeg α) :=
  let pf0 := s.projectionFactor seg.p0
  let pf1 := s.projectionFactor seg.p1
  if (pf0 ≥. lit 1) && (pf1 ≥. lit 1) then none
  else if (pf0 ≤. lit 0) && (pf1 ≤. lit 0) then none
  else
    let newp0 := s.projectWith seg.p0 pf0
    let newp0 := if pf0 <. lit 0 then s.p0 else newp0
    let newp0 := if pf0 >. lit 1 then s.p1 else newp0
    let newp1 := s.projectWith seg.p1 pf1
    let newp1 := if pf1 >. lit 1 then s.p1 else newp1
    let newp1 := if pf1 <. lit 0 then s.p0 else newp1
    some (ofCoords newp0 newp1)

/-- `reflect` (500-520). -/
def reflect (s : LineSeg α) (p : Coord α) : Coord α :=
  let a := s.p1.y -. s.p0.y
  let b := s.p0.x -. s.p1.x
  let c := s.p0.y *. (s.p1.x -. s.p0.x) -. s.p0.x *. (s.p1.y -. s.p0.y)
  let a2PlusB2 := a *. a +. b *. b
  let a2SubB2 := a *. a -. b *. b
  let x := p.x
  let y := p.y
  let rx := ((-.a2SubB2) *. x -. lit 2 *. a *. b *. y -. lit 2 *. a *. c) /. a2PlusB2
  let ry := (a2SubB2 *. y -. lit 2 *. a *. b *. x -. lit 2 *. b *. c) /. a2PlusB2
  { p.fromCoordinate with x := rx, y := ry }

/-- `line_intersection` (633-635). -/
def lineIntersection (s line : LineSeg α) : Option (Coord α) := Intersection.intersection s.p0 s.p1 line.p0 line.p1

/-- `equals` (660-662). -/
def equals (s other : LineSeg α) : Bool := s.p0.equals2D other.p0 && s.p1.equals2D other.p1

/-- `compare_to` (673-679). -/
def compareTo (s other : LineSeg α) : Int :=
  let comp0 := s.p0.compareTo other.p0
  if comp0 ≠ 0 then comp0 else s.p1.compareTo other.p1

/-- `equals_topo` (690-693). -/
def equalsTopo (s other : LineSeg α) : Bool :=
  s.p0.equals2D other.p0 && s.p1.equals2D other.p1 || s.p0.equals2D other.p1 && s.p1.equals2D other.p0

end Plain

section Root
variable [FltSqrt α]

/-- `get_length` (92-94). -/
def length (s : LineSeg α) : α := s.p0.distance s.p1

/-- `distance_line_segment` (220-222). -/
def distanceSeg (s ls : LineSeg α) : α := Distance.segmentToSegment s.p0 s.p1 ls.p0 ls.p1

/-- `distance_coordinate` (229-231). -/
def distance (s : LineSeg α) (p : Coord α) : α := Distance.pointToSegment p s.p0 s.p1

/-- `distance_perpendicular` (242-247). -/
def distancePerpendicular (s : LineSeg α) (p : Coord α) : α :=
  if s.p0.equals2D s.p1 then s.p0.distance p else Distance.pointToLinePerpendicular p s.p0 s.p1

/-- `distance_perpendicular_oriented` (260-269). -/
def distancePerpendicularOriented (s : LineSeg α) (p : Coord α) : α :=
  if s.p0.equals2D s.p1 then s.p0.distance p
  else
    let dist := s.distancePerpendicular p
    if s.orientation p < 0 then -.dist else dist

/-- `point_along_offset` (305-336). -/
def pointAlongOffset (s : LineSeg α) (f offset : α) : Coord α :=
  let segx := s.p0.x +. f *. (s.p1.x -. s.p0.x)
  let segy := s.p0.y +. f *. (s.p1.y -. s.p0.y)
  let dx := s.p1.x -. s.p0.x
  let dy := s.p1.y -. s.p0.y
  let len := FltSqrt.hypot dx dy
  let u := if !(offset ==. lit 0) then (offset *. dx /. len, offset *. dy /. len) else (lit 0, lit 0)
  { Coord.default with x := segx -. u.2, y := segy +. u.1 }

/-- `offset` (487-491). -/
def offset (s : LineSeg α) (d : α) : LineSeg α := ofCoords (s.pointAlongOffset (lit 0) d) (s.pointAlongOffset (lit 1) d)

/-- `closest_point` (527-538). -/
def closestPoint (s : LineSeg α) (p : Coord α) : Coord α :=
  let factor := s.projectionFactor p
  if (factor >. lit 0) && (factor <. lit 1) then s.projectWith p factor
  else if s.p0.distance p <. s.p1.distance p then s.p0
  else s.p1

/-- `intersection` (607-614). -/
def intersection [FltRound α] (s line : LineSeg α) : Option (Coord α) :=
  let li := LI.default.compute4 s.p0 s.p1 line.p0 line.p1
  if li.hasIntersection then some li.pt0 else none

/-- `closest_points` (546-591). -/
def closestPoints [FltRound α] (s line : LineSeg α) : List (Coord α) :=
  match s.intersection line with
  | some p => [Coord.xy p.x p.y]
  | none =>
    let close00 := s.closestPoint line.p0
    let st := (close00.distance line.p0, close00, line.p0)
    let close01 := s.closestPoint line.p1
    let dist := close01.distance line.p1
    let st := if dist <. st.1 then (dist, close01, line.p1) else st
    let close10 := line.closestPoint s.p0
    let dist := close10.distance s.p0
    let st := if dist <. st.1 then (dist, s.p0, close10) else st
    let close11 := line.closestPoint s.p1
    let dist := close11.distance s.p1
    let st := if dist <. st.1 then (dist, s.p1, close11) else st
    [st.2.1, st.2.2]

end Root
end LineSeg
end Verif
