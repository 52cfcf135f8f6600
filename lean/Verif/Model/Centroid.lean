import Verif.Model.Geometries

/-! # Model of `src/core/algorithm/centroid.rs` and of the `get_centroid` methods -/

namespace Verif
open Flt

/-- `struct Centroid` (centroid.rs:39-51). The field `triangle_cent3` is left out: it is written before every use. Of `cg3`,
`line_cent_sum` and `pt_cent_sum` only x and y are ever used. The count is an `i32`; its overflow is not modelled. -/
structure Centroid (α : Type) where
  areaBasePt : Option (Coord α)
  areasum2 : α
  cg3 : α × α
  lineCentSum : α × α
  totalLength : α
  ptCount : Int
  ptCentSum : α × α
  deriving DecidableEq

namespace Centroid
variable {α : Type} [FltSqrt α]

/-- `default` (75-86). -/
def init : Centroid α := ⟨none, lit 0, (lit 0, lit 0), (lit 0, lit 0), lit 0, 0, (lit 0, lit 0)⟩

/-- `centroid3` (214-218). -/
def centroid3 (p1 p2 p3 : Coord α) : α × α := (p1.x +. p2.x +. p3.x, p1.y +. p2.y +. p3.y)

/-- `area2` (224-226). -/
def area2 (p1 p2 p3 : Coord α) : α := (p2.x -. p1.x) *. (p3.y -. p1.y) -. (p3.x -. p1.x) *. (p2.y -. p1.y)

/-- `add_point` (259-263). -/
def addPoint (c : Centroid α) (pt : Coord α) : Centroid α :=
  { c with ptCount := c.ptCount + 1, ptCentSum := (c.ptCentSum.1 +. pt.x, c.ptCentSum.2 +. pt.y) }

/-- `add_triangle` (191-207). -/
def addTriangle (c : Centroid α) (p0 p1 p2 : Coord α) (isPositiveArea : Bool) : Centroid α :=
  let sign : α := if isPositiveArea then lit 1 else -.(lit 1)
  let cent3 := centroid3 p0 p1 p2
  let area := area2 p0 p1 p2
  { c with
    cg3 := (c.cg3.1 +. sign *. area *. cent3.1, c.cg3.2 +. sign *. area *. cent3.2)
    areasum2 := c.areasum2 +. sign *. area }

/-- The loop of `add_line_segments` (235-248): the sums and the length of this line so far. -/
def segmentLoop (c : Centroid α) (pts : List (Coord α)) (n : Nat) : Res (Centroid α × α) :=
  forRange 0 n (c, lit 0) (fun i st => do
    let a ← Res.get pts i
    let b ← Res.get pts (i + 1)
    let len := a.distance b
    if len ==. lit 0 then pure st
    else
      let midx := (a.x +. b.x) /. lit 2
      let midy := (a.y +. b.y) /. lit 2
      pure ({ st.1 with lineCentSum := (st.1.lineCentSum.1 +. len *. midx, st.1.lineCentSum.2 +. len *. midy) }, st.2 +. len))

/-- `add_line_segments` (234-253). -/
def addLineSegments (c : Centroid α) (pts : List (Coord α)) : Res (Centroid α) := do
  let n ← Res.sub pts.length 1
  let st ← segmentLoop c pts n
  let c := { st.1 with totalLength := st.1.totalLength +. st.2 }
  if (st.2 ==. lit 0) && decide (pts.length > 0) then do
    let p ← Res.get pts 0
    pure (c.addPoint p)
  else pure c

/-- The body of the triangle loops (174-176, 184-186). -/
def triangleStep (pts : List (Coord α)) (isPositiveArea : Bool) (i : Nat) (c : Centroid α) : Res (Centroid α) :=
  match c.areaBasePt with
  | some base => do
    let a ← Res.get pts i
    let b ← Res.get pts (i + 1)
    pure (c.addTriangle base a b isPositiveArea)
  | none => pure c

/-- The triangle loop of `add_shell` (173-177) and `add_hole` (183-187). -/
def triangleLoop (c : Centroid α) (pts : List (Coord α)) (isPositiveArea : Bool) : Res (Centroid α) := do
  let n ← Res.sub pts.length 1
  forRange 0 n c (triangleStep pts isPositiveArea)

/-- `add_shell` (168-179), with `set_area_base_point` (157-159). -/
def addShell (c : Centroid α) (pts : List (Coord α)) : Res (Centroid α) := do
  let c ← if pts.length > 0 then do
      let p ← Res.get pts 0
      pure { c with areaBasePt := some (Coord.fromCoordinate p) }
    else pure c
  let ccw ← Orientation.isCCW pts
  let c ← triangleLoop c pts (!ccw)
  c.addLineSegments pts

/-- `add_hole` (181-189). -/
def addHole (c : Centroid α) (pts : List (Coord α)) : Res (Centroid α) := do
  let ccw ← Orientation.isCCW pts
  let c ← triangleLoop c pts ccw
  c.addLineSegments pts

/-- `add_polygon` (161-166). -/
def addPolygon (c : Centroid α) (poly : Polygon α) : Res (Centroid α) := do
  let s ← poly.getExteriorRing
  let c ← c.addShell s.getCoordinates
  forRange 0 poly.getNumInteriorRing c (fun i c => do
    let h ← poly.getInteriorRing i
    c.addHole h.getCoordinates)

/-- `get_centroid` (125-155). -/
def getCentroid (c : Centroid α) : Option (Coord α) :=
  if Flt.abs c.areasum2 >. lit 0 then
    some (Coord.xy (c.cg3.1 /. lit 3 /. c.areasum2) (c.cg3.2 /. lit 3 /. c.areasum2))
  else if c.totalLength >. lit 0 then
    some (Coord.xy (c.lineCentSum.1 /. c.totalLength) (c.lineCentSum.2 /. c.totalLength))
  else if c.ptCount > 0 then
    some (Coord.xy (c.ptCentSum.1 /. lit c.ptCount) (c.ptCentSum.2 /. lit c.ptCount))
  else none

/-- `new_from_point` (88-95). -/
def ofPoint (p : Point α) : Res (Centroid α) := do
  let c ← p.getCoordinate
  match c with
  | some c => pure (init.addPoint c)
  | none => pure init

/-- `new_from_line_string` (97-102). -/
def ofLineString (l : LineString α) : Res (Centroid α) := init.addLineSegments l.getCoordinates

/-- `new_from_polygon` (104-109). -/
def ofPolygon (p : Polygon α) : Res (Centroid α) := init.addPolygon p

/-- `new_from_multi_polygon` (111-118). -/
def ofMultiPolygon (m : MultiPolygon α) : Res (Centroid α) :=
  forRange 0 m.polygons.length init (fun i c => do
    let p ← m.getPolygon i
    c.addPolygon p)

/-- `get_centroid_from_point` (60-63). -/
def fromPoint (p : Point α) : Res (Option (Coord α)) := do
  let c ← ofPoint p
  pure c.getCentroid

/-- `get_centroid_from_polygon` (65-68). -/
def fromPolygon (p : Polygon α) : Res (Option (Coord α)) := do
  let c ← ofPolygon p
  pure c.getCentroid

/-- `get_centroid_from_multi_polygon` (70-73). -/
def fromMultiPolygon (m : MultiPolygon α) : Res (Option (Coord α)) := do
  let c ← ofMultiPolygon m
  pure c.getCentroid

end Centroid

section
variable {α : Type} [FltSqrt α] [FltRound α]

/-- `create_point_from_internal_coord` (polygon.rs:524-529, multi_polygon.rs:161-166), through
`GeometryFactory::create_point_from_coordinate` (geometry_factory.rs:139-144). -/
def pointFromInternal (pm : Option (PM α)) (c : Coord α) : Res (Point α) :=
  let c := match pm with
    | some pm => pm.makePreciseCoordinate c
    | none => c
  Point.ofSeq (CASeq.ofCoordinates [Coord.fromCoordinate c])

/-- `Polygon::get_centroid` (polygon.rs:514-522). -/
def Polygon.getCentroid (p : Polygon α) : Res (Point α) :=
  if p.isEmpty then pure Point.default
  else do
    let c ← Centroid.fromPolygon p
    match c with
    | some c => pointFromInternal p.precisionModel c
    | none => pure Point.default

/-- `MultiPolygon::get_centroid` (multi_polygon.rs:151-159). -/
def MultiPolygon.getCentroid (m : MultiPolygon α) : Res (Point α) := do
  let e ← m.isEmpty
  if e then pure Point.default
  else do
    let c ← Centroid.fromMultiPolygon m
    match c with
    | some c => pointFromInternal m.precisionModel c
    | none => pure Point.default
end
end Verif
