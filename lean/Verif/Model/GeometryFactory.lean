import Verif.Model.Geometries

/-! # Model of the creation functions of `src/core/geom/geometry_factory.rs`

The factory has no state: the functions are associated functions without `self`. -/

namespace Verif.GeometryFactory
variable {α : Type} [Flt α]

omit [Flt α] in
/-- `create_point_from_coordinate_array_sequence` (geometry_factory.rs:153-157). -/
def createPointSeq (s : CASeq α) : Res (Point α) := Point.ofSeq s

/-- `create_point` (126-130). -/
def createPoint : Res (Point α) := createPointSeq (CASeq.ofCoordinates [])

/-- `create_point_from_coordinate` (139-144). -/
def createPointCoordinate (c : Coord α) : Res (Point α) := createPointSeq (CASeq.ofCoordinates [Coord.fromCoordinate c])

omit [Flt α] in
/-- `create_multi_polygon` (219-221). -/
def createMultiPolygon (ps : List (Polygon α)) : MultiPolygon α := MultiPolygon.ofPolygons ps none

/-- `create_linear_ring_with_coordinate_array_sequence` (258-262). -/
def createLinearRingSeq (s : CASeq α) : Res (LinearRing α) := LinearRing.ofSeq s

/-- `create_linear_ring` (228-233). -/
def createLinearRing : Res (LinearRing α) := createLinearRingSeq (CASeq.ofCoordinates [])

/-- `create_linear_ring_with_coordinates` (243-247). -/
def createLinearRingCoordinates (l : List (Coord α)) : Res (LinearRing α) := createLinearRingSeq (CASeq.ofCoordinates l)

omit [Flt α] in
/-- `create_multi_point_from_points` (280-282). -/
def createMultiPointPoints (ps : List (Point α)) : MultiPoint α := MultiPoint.ofPoints ps none

/-- `create_multi_point_with_coordinates` (292-296), with `create_multi_point_from_coordinate_array_sequence` (319-333), which is
`MultiPoint.ofSeq`. -/
def createMultiPointCoordinates (l : List (Coord α)) : Res (MultiPoint α) := MultiPoint.ofSeq (CASeq.ofCoordinates l)

/-- `create_polygon_with_linear_ring_vec` (349-354). -/
def createPolygonRings (shell : LinearRing α) (holes : List (LinearRing α)) : Res (Polygon α) := Polygon.ofRings shell holes none

/-- `create_polygon_with_linear_ring` (397-399). -/
def createPolygonRing (shell : LinearRing α) : Res (Polygon α) := Polygon.ofShell shell none

/-- `create_polygon_with_coordinate_array_sequence` (365-371). -/
def createPolygonSeq (s : CASeq α) : Res (Polygon α) := do
  let r ← createLinearRingSeq s
  createPolygonRing r

/-- `create_polygon_with_coordinates` (382-386). -/
def createPolygonCoordinates (l : List (Coord α)) : Res (Polygon α) := do
  let r ← createLinearRingCoordinates l
  createPolygonRing r

/-- `create_line_string_coordinate_array_sequence` (506-512). -/
def createLineStringSeq (s : CASeq α) : Res (LineString α) := do
  let c ← CASeq.newFrom s
  pure (LineString.ofSeq c)

/-- `create_line_string_coordinates` (495-499). -/
def createLineStringCoordinates (l : List (Coord α)) : Res (LineString α) := createLineStringSeq (CASeq.ofCoordinates l)

/-- `create_line_string` (484-487). -/
def createLineString : Res (LineString α) := createLineStringCoordinates []

end Verif.GeometryFactory

namespace Verif.LineString
variable {α : Type} [Flt α]

/-- `get_point_n` (line_string.rs:104-106). -/
def getPointN (l : LineString α) (n : Nat) : Res (Point α) := do
  let c ← l.points.getCoordinate n
  GeometryFactory.createPointCoordinate c

/-- `get_start_point` (line_string.rs:108-113). -/
def getStartPoint (l : LineString α) : Res (Option (Point α)) :=
  if l.isEmpty then pure none else do let p ← l.getPointN 0; pure (some p)

/-- `get_end_point` (line_string.rs:115-120). -/
def getEndPoint (l : LineString α) : Res (Option (Point α)) :=
  if l.isEmpty then pure none else do
    let n ← Res.sub l.getNumPoints 1
    let p ← l.getPointN n
    pure (some p)

/-- `is_ring` (line_string.rs:131-135). -/
def isRing (l : LineString α) : Res Bool := l.isClosed

end Verif.LineString
