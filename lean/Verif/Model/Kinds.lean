import Verif.Model.Geometries

/-! # Model of the kinds of geometries: names, codes and dimensions

The constants of `src/core/geom/geometry.rs:139-156` and `src/core/geom/dimension.rs:18-43`, and the methods that return them. Methods that take no `self` in the
code, or ignore it, are modelled without it. -/

namespace Verif

/-- `Dimension::FALSE` (dimension.rs:33). -/
def Dimension.FALSE' : Int := -1

namespace GeometryConst
/-- `TYPECODE_POINT` (geometry.rs:140). -/
def codePoint : Int := 0
/-- `TYPECODE_MULTIPOINT` (141). -/
def codeMultiPoint : Int := 1
/-- `TYPECODE_LINESTRING` (142). -/
def codeLineString : Int := 2
/-- `TYPECODE_LINEARRING` (143). -/
def codeLinearRing : Int := 3
/-- `TYPECODE_MULTILINESTRING` (144). -/
def codeMultiLineString : Int := 4
/-- `TYPECODE_POLYGON` (145). -/
def codePolygon : Int := 5
/-- `TYPECODE_MULTIPOLYGON` (146). -/
def codeMultiPolygon : Int := 6
/-- `TYPECODE_GEOMETRYCOLLECTION` (147). -/
def codeCollection : Int := 7
/-- `TYPENAME_POINT` (149). -/
def namePoint : String := "Point"
/-- `TYPENAME_MULTIPOINT` (150). -/
def nameMultiPoint : String := "MultiPoint"
/-- `TYPENAME_LINESTRING` (151). -/
def nameLineString : String := "LineString"
/-- `TYPENAME_LINEARRING` (152). -/
def nameLinearRing : String := "LinearRing"
/-- `TYPENAME_MULTILINESTRING` (153). -/
def nameMultiLineString : String := "MultiLineString"
/-- `TYPENAME_POLYGON` (154). -/
def namePolygon : String := "Polygon"
/-- `TYPENAME_MULTIPOLYGON` (155). -/
def nameMultiPolygon : String := "MultiPolygon"
/-- `TYPENAME_GEOMETRYCOLLECTION` (156). -/
def nameCollection : String := "GeometryCollection"
end GeometryConst
open GeometryConst

namespace Point
/-- `get_dimension` (point.rs:100-102). -/
def getDimension : Int := 0
/-- `get_boundary_dimension` (point.rs:104-106). -/
def getBoundaryDimension : Int := Dimension.FALSE'
/-- `is_simple` (point.rs:96-98). -/
def isSimple {α : Type} (_ : Point α) : Bool := true
/-- `get_geometry_type` (point.rs:130-132). -/
def getGeometryType : String := namePoint
/-- `get_type_code` (point.rs:260-262). -/
def getTypeCode : Int := codePoint
end Point

namespace LineString
/-- `get_dimension` (line_string.rs:85-87). -/
def getDimension : Int := 1
/-- `get_geometry_type` (line_string.rs:137-139). -/
def getGeometryType : String := nameLineString
/-- `get_type_code` (line_string.rs:319-321). -/
def getTypeCode : Int := codeLineString
end LineString

namespace LinearRing
/-- `get_boundary_dimension` (linear_ring.rs:129-131). -/
def getBoundaryDimension : Int := Dimension.FALSE'
/-- `get_geometry_type` (linear_ring.rs:161-163). -/
def getGeometryType : String := nameLinearRing
/-- `get_type_code` (linear_ring.rs:165-167). -/
def getTypeCode : Int := codeLinearRing
end LinearRing

namespace Polygon
/-- `get_dimension` (polygon.rs:164-166). -/
def getDimension : Int := 2
/-- `get_boundary_dimension` (polygon.rs:168-170). -/
def getBoundaryDimension : Int := 1
/-- `get_geometry_type` (polygon.rs:228-230). -/
def getGeometryType : String := namePolygon
/-- `get_type_code` (polygon.rs:426-428). -/
def getTypeCode : Int := codePolygon
end Polygon

namespace MultiPoint
/-- `get_dimension` (multi_point.rs:69-71). -/
def getDimension : Int := 0
/-- `has_dimension` (multi_point.rs:73-75). -/
def hasDimension (dim : Int) : Bool := decide (dim = 0)
/-- `get_boundary_dimension` (multi_point.rs:77-79). -/
def getBoundaryDimension : Int := Dimension.FALSE'
/-- `get_geometry_type` (multi_point.rs:81-83). -/
def getGeometryType : String := nameMultiPoint
/-- `get_type_code` (multi_point.rs:271-273). -/
def getTypeCode : Int := codeMultiPoint
end MultiPoint

namespace MultiLineString
/-- `get_dimension` (multi_line_string.rs:60-62). -/
def getDimension : Int := 1
/-- `has_dimension` (multi_line_string.rs:64-66). -/
def hasDimension (dim : Int) : Bool := decide (dim = 1)
/-- `get_geometry_type` (multi_line_string.rs:75-77). -/
def getGeometryType : String := nameMultiLineString
/-- `get_type_code` (multi_line_string.rs:159-161). -/
def getTypeCode : Int := codeMultiLineString
end MultiLineString

namespace MultiPolygon
/-- `get_dimension` (multi_polygon.rs:74-76). -/
def getDimension : Int := 2
/-- `has_dimension` (multi_polygon.rs:78-80). -/
def hasDimension (dim : Int) : Bool := decide (dim = 2)
/-- `get_boundary_dimension` (multi_polygon.rs:82-84). -/
def getBoundaryDimension : Int := 1
/-- `get_geometry_type` (multi_polygon.rs:86-88). -/
def getGeometryType : String := nameMultiPolygon
/-- `get_type_code` (multi_polygon.rs:225-227). -/
def getTypeCode : Int := codeMultiPolygon
/-- `get_num_polygons` (multi_polygon.rs:132-134). -/
def getNumPolygons {α : Type} (m : MultiPolygon α) : Nat := m.polygons.length
end MultiPolygon

end Verif
