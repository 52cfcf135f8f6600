import Verif.Base.Flt

/-! # Model of `src/core/geom/coordinate.rs` and `src/core/util/number_util.rs` -/

namespace Verif
open Flt

/-- `NumberUtil::equals_with_tolerance` (src/core/util/number_util.rs, all of it): `|x1 - x2| <= tolerance`. -/
def equalsWithTolerance {α : Type} [Flt α] (x1 x2 tolerance : α) : Bool :=
  Flt.abs (x1 -. x2) ≤. tolerance

/-- `struct Coordinate` (coordinate.rs:6-26). -/
structure Coord (α : Type) where
  x : α
  y : α
  z : α
  m : α
  deriving DecidableEq, Repr

namespace Coord
variable {α : Type} [Flt α]

/-- `Coordinate::default`, `create` (coordinate.rs:63-70, 197-199). -/
def default : Coord α := ⟨lit 0, lit 0, nan, nan⟩

/-- `Coordinate::new_xy`, `new_coordinatexy` (coordinate.rs:78-85, 170-177). -/
def xy (x y : α) : Coord α := ⟨x, y, nan, nan⟩

/-- `Coordinate::new_xyz` (coordinate.rs:94-101). -/
def xyz (x y z : α) : Coord α := ⟨x, y, z, nan⟩

/-- `Coordinate::new_xym`, `new_coordinatexym` (coordinate.rs:110-117, 179-186). -/
def xym (x y m : α) : Coord α := ⟨x, y, nan, m⟩

/-- `Coordinate::new_xyzm`, `new_coordinatexyzm` (coordinate.rs:119-126, 188-190). -/
def xyzm (x y z m : α) : Coord α := ⟨x, y, z, m⟩

/-- `Coordinate::new_coordinatexym_default` (coordinate.rs:152-159). -/
def defaultXYM : Coord α := ⟨lit 0, lit 0, nan, lit 0⟩

/-- `Coordinate::new_coordinatexyzm_default` (coordinate.rs:161-168). -/
def defaultXYZM : Coord α := ⟨lit 0, lit 0, lit 0, lit 0⟩

omit [Flt α] in
/-- `Coordinate::from_coordinate` (coordinate.rs:134-141): copies all four ordinates. -/
def fromCoordinate (c : Coord α) : Coord α := ⟨c.x, c.y, c.z, c.m⟩

omit [Flt α] in
/-- `Coordinate::set_coordinate` (coordinate.rs:206-210): copies x, y, z but not m. -/
def setCoordinate (self other : Coord α) : Coord α := { self with x := other.x, y := other.y, z := other.z }

omit [Flt α] in
/-- `Coordinate::get_ordinate` (coordinate.rs:296-303): `M` (index 3) is not supported. -/
def getOrdinate (c : Coord α) (i : Int) : Option α :=
  if i = 0 then some c.x else if i = 1 then some c.y else if i = 2 then some c.z else none

omit [Flt α] in
/-- `Coordinate::set_ordinate` (coordinate.rs:316-323): other indices are ignored. -/
def setOrdinate (c : Coord α) (i : Int) (v : α) : Coord α :=
  if i = 0 then { c with x := v } else if i = 1 then { c with y := v }
  else if i = 2 then { c with z := v } else c

/-- `Coordinate::is_valid` (coordinate.rs:332-340). -/
def isValid (c : Coord α) : Bool :=
  if !isFinite c.x then false else if !isFinite c.y then false else true

/-- `Coordinate::is_xy` (coordinate.rs:342-344). -/
def isXY (c : Coord α) : Bool := !isNaN c.x && !isNaN c.y && isNaN c.z && isNaN c.m

/-- `Coordinate::is_xym` (coordinate.rs:346-348). -/
def isXYM (c : Coord α) : Bool := !isNaN c.x && !isNaN c.y && isNaN c.z && !isNaN c.m

/-- `Coordinate::is_xyzm` (coordinate.rs:350-352). -/
def isXYZM (c : Coord α) : Bool := !isNaN c.x && !isNaN c.y && !isNaN c.z && !isNaN c.m

/-- `Coordinate::equals_2d` (coordinate.rs:362-370). -/
def equals2D (a b : Coord α) : Bool :=
  if !(a.x ==. b.x) then false else if !(a.y ==. b.y) then false else true

/-- `Coordinate::equals_2d_with_tolerance` (coordinate.rs:382-390). -/
def equals2DTol (a b : Coord α) (tol : α) : Bool :=
  if !equalsWithTolerance a.x b.x tol then false
  else if !equalsWithTolerance a.y b.y tol then false else true

/-- `Coordinate::equals_3d` (coordinate.rs:399-404). -/
def equals3D (a b : Coord α) : Bool :=
  (a.x ==. b.x) && (a.y ==. b.y) && ((a.z ==. b.z) || (isNaN a.z && isNaN b.z))

/-- `Coordinate::equal_in_z`, `equal_in_coordinate_z` (coordinate.rs:413-426). -/
def equalInZ (a b : Coord α) (tol : α) : Bool := equalsWithTolerance a.z b.z tol

/-- `Coordinate::compare_to` (coordinate.rs:446-460). -/
def compareTo (a b : Coord α) : Int :=
  if a.x <. b.x then -1
  else if a.x >. b.x then 1
  else if a.y <. b.y then -1
  else if a.y >. b.y then 1
  else 0

/-- `Coordinate::distance` (coordinate.rs:469-474). -/
def distance {α : Type} [FltSqrt α] (a b : Coord α) : α :=
  let dx := a.x -. b.x
  let dy := a.y -. b.y
  FltSqrt.hypot dx dy

/-- `Coordinate::distance_3d` (coordinate.rs:482-487). -/
def distance3D {α : Type} [FltSqrt α] (a b : Coord α) : α :=
  let dx := a.x -. b.x
  let dy := a.y -. b.y
  let dz := a.z -. b.z
  FltSqrt.sqrt (dx *. dx +. dy *. dy +. dz *. dz)

/-- x and y are numbers (the precondition of most order claims). -/
def NN (c : Coord α) : Prop := isNaN c.x = false ∧ isNaN c.y = false

instance (c : Coord α) : Decidable c.NN := inferInstanceAs (Decidable (_ ∧ _))

end Coord
end Verif
