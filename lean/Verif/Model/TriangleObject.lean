import Verif.Model.Triangle

/-! # Model of the values of type `Triangle` (`src/core/geom/triangle.rs` 15-41, 537-678) -/

namespace Verif
open Flt

/-- `struct Triangle` (triangle.rs:15-22). -/
structure Tri (α : Type) where
  p0 : Coord α
  p1 : Coord α
  p2 : Coord α

namespace Tri
variable {α : Type}

/-- `Triangle::new` (triangle.rs:35-41): copies of the three points. -/
def new (p0 p1 p2 : Coord α) : Tri α := ⟨p0.fromCoordinate, p1.fromCoordinate, p2.fromCoordinate⟩

section flt
variable [Flt α]
/-- `is_acute` (551-553). -/
def isAcute (t : Tri α) : Bool := Triangle.isAcute t.p0 t.p1 t.p2
/-- `is_ccw` (560-562). -/
def isCCW (t : Tri α) : Bool := Triangle.isCCW t.p0 t.p1 t.p2
/-- `circumcentre` (579-581). -/
def circumcentre (t : Tri α) : Coord α := Triangle.circumcentre t.p0 t.p1 t.p2
/-- `centroid` (602-604). -/
def centroid (t : Tri α) : Coord α := Triangle.centroid t.p0 t.p1 t.p2
/-- `area` (632-634). -/
def area (t : Tri α) : α := Triangle.area t.p0 t.p1 t.p2
/-- `signed_area` (649-651). -/
def signedArea (t : Tri α) : α := Triangle.signedArea t.p0 t.p1 t.p2
/-- `interpolate_z` (676-678). -/
def interpolateZ (t : Tri α) (p : Coord α) : α := Triangle.interpolateZ p t.p0 t.p1 t.p2
end flt

section sqrt
variable [FltSqrt α]
/-- `in_centre` (537-539). -/
def inCentre (t : Tri α) : Coord α := Triangle.inCentre t.p0 t.p1 t.p2
/-- `circumradius` (588-590). -/
def circumradius (t : Tri α) : α := Triangle.circumradius t.p0 t.p1 t.p2
/-- `length` (611-613). -/
def length (t : Tri α) : α := Triangle.length t.p0 t.p1 t.p2
/-- `longest_side_length` (620-622). -/
def longestSide (t : Tri α) : α := Triangle.longestSide t.p0 t.p1 t.p2
/-- `area_3d` (659-661). -/
def area3D (t : Tri α) : α := Triangle.area3D t.p0 t.p1 t.p2
end sqrt

end Tri
end Verif
