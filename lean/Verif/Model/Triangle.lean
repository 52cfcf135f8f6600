import Verif.Model.Angle
import Verif.Model.Intersection

/-! # Model of `src/core/geom/triangle.rs`

The methods of a `Triangle` value (537-678) are in `TriangleObject`. -/

namespace Verif
open Flt

namespace Triangle
variable {α : Type} [Flt α]

/-- `is_acute_coordinates` (56-67). -/
def isAcute (a b c : Coord α) : Bool := Angle.isAcute a b c && (Angle.isAcute b c a && Angle.isAcute c a b)

/-- `is_ccw_coordinates` (77-79). -/
def isCCW (a b c : Coord α) : Bool := decide (Orientation.index a b c = 1)

/-- `intersects_coordinates` (90-110). -/
def intersects (a b c p : Coord α) : Bool :=
  let ext : Int := if isCCW a b c then -1 else 1
  if ext = Orientation.index a b p then false
  else if ext = Orientation.index b c p then false
  else if ext = Orientation.index c a p then false
  else true

/-- `perpendicular_bisector_coordinates` (122-129). -/
def perpendicularBisector (a b : Coord α) : HCoord α :=
  let dx := b.x -. a.x
  let dy := b.y -. a.y
  let l1 := HCoord.ofXYW (a.x +. dx /. lit 2) (a.y +. dy /. lit 2) (lit 1)
  let l2 := HCoord.ofXYW (a.x -. dy +. dx /. lit 2) (a.y +. dx +. dy /. lit 2) (lit 1)
  HCoord.cross l1 l2

/-- `signed_area_coordinates` (445-450). -/
def signedArea (a b c : Coord α) : α := ((c.x -. a.x) *. (b.y -. a.y) -. (b.x -. a.x) *. (c.y -. a.y)) /. lit 2

/-- `area_coordinates` (422-424). -/
def area (a b c : Coord α) : α := abs (((c.x -. a.x) *. (b.y -. a.y) -. (b.x -. a.x) *. (c.y -. a.y)) /. lit 2)

/-- `det_f64` (287-289). -/
def det2 (m00 m01 m10 m11 : α) : α := m00 *. m11 -. m01 *. m10

/-- `circumcentre_coordinates` (208-224). -/
def circumcentre (a b c : Coord α) : Coord α :=
  let ax := a.x -. c.x
  let ay := a.y -. c.y
  let bx := b.x -. c.x
  let by' := b.y -. c.y
  let denom := lit 2 *. det2 ax ay bx by'
  let numx := det2 ay (ax *. ax +. ay *. ay) by' (bx *. bx +. by' *. by')
  let numy := det2 ax (ax *. ax +. ay *. ay) bx (bx *. bx +. by' *. by')
  { Coord.default with x := c.x -. numx /. denom, y := c.y +. numy /. denom }

/-- `circumcentre_dd_coordinates` (247-271). -/
def circumcentreDD (a b c : Coord α) : Coord α :=
  let ax := (DD.ofF a.x).subF c.x
  let ay := (DD.ofF a.y).subF c.y
  let bx := (DD.ofF b.x).subF c.x
  let by' := (DD.ofF b.y).subF c.y
  let denom := (DD.determinant ax ay bx by').mulF (lit 2)
  let asqr := ax.sqr.add ay.sqr
  let bsqr := bx.sqr.add by'.sqr
  let numx := DD.determinant ay asqr by' bsqr
  let numy := DD.determinant ax asqr bx bsqr
  { Coord.default with
    x := ((DD.ofF c.x).sub (numx.div denom)).doubleValue
    y := ((DD.ofF c.y).add (numy.div denom)).doubleValue }

/-- `centroid_coordinates` (337-341). -/
def centroid (a b c : Coord α) : Coord α :=
  { Coord.default with x := (a.x +. b.x +. c.x) /. lit 3, y := (a.y +. b.y +. c.y) /. lit 3 }

/-- `interpolate_z_coordinates` (507-526). -/
def interpolateZ (p v0 v1 v2 : Coord α) : α :=
  let a := v1.x -. v0.x
  let b := v2.x -. v0.x
  let c := v1.y -. v0.y
  let d := v2.y -. v0.y
  let det := a *. d -. b *. c
  let dx := p.x -. v0.x
  let dy := p.y -. v0.y
  let t := (d *. dx -. b *. dy) /. det
  let u := ((-.c) *. dx +. a *. dy) /. det
  v0.z +. t *. (v1.z -. v0.z) +. u *. (v2.z -. v0.z)

end Triangle

namespace Triangle
variable {α : Type} [FltSqrt α]

/-- `circumradius_coordinates` (141-150). -/
def circumradius (ca cb cc : Coord α) : α :=
  let a := ca.distance cb
  let b := cb.distance cc
  let c := cc.distance ca
  let ar := area ca cb cc
  if ar ==. lit 0 then pinf else (a *. b *. c) /. (lit 4 *. ar)

/-- `in_centre_coordinates` (308-318). -/
def inCentre (a b c : Coord α) : Coord α :=
  let len0 := b.distance c
  let len1 := a.distance c
  let len2 := a.distance b
  let circum := len0 +. len1 +. len2
  { Coord.default with
    x := (len0 *. a.x +. len1 *. b.x +. len2 *. c.x) /. circum
    y := (len0 *. a.y +. len1 *. b.y +. len2 *. c.y) /. circum }

/-- `length_coordinates` (351-353). -/
def length (a b c : Coord α) : α := a.distance b +. b.distance c +. c.distance a

/-- `longest_side_length_coordinates` (366-378). -/
def longestSide (a b c : Coord α) : α :=
  let ab := a.distance b
  let bc := b.distance c
  let ca := c.distance a
  let m := ab
  let m := if bc >. m then bc else m
  if ca >. m then ca else m

/-- `angle_bisector_coordinates` (392-407). -/
def angleBisector (a b c : Coord α) : Coord α :=
  let len0 := b.distance a
  let len2 := b.distance c
  let frac := len0 /. (len0 +. len2)
  let dx := c.x -. a.x
  let dy := c.y -. a.y
  { Coord.default with x := a.x +. frac *. dx, y := a.y +. frac *. dy }

/-- `area_3d_coordinates` (464-486). -/
def area3D (a b c : Coord α) : α :=
  let ux := b.x -. a.x
  let uy := b.y -. a.y
  let uz := b.z -. a.z
  let vx := c.x -. a.x
  let vy := c.y -. a.y
  let vz := c.z -. a.z
  let cx := uy *. vz -. uz *. vy
  let cy := uz *. vx -. ux *. vz
  let cz := ux *. vy -. uy *. vx
  FltSqrt.sqrt (cx *. cx +. cy *. cy +. cz *. cz) /. lit 2

end Triangle
end Verif
