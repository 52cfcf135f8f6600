import Verif.Model.Angle
import Verif.Model.Orientation

/-! # Model of `src/core/math/vector_2d.rs` and `src/core/math/vector_3d.rs` -/

namespace Verif
open Flt

/-- `struct Vector2D` (vector_2d.rs:13-23). -/
@[ext] structure Vec2 (α : Type) where
  x : α
  y : α

namespace Vec2
variable {α : Type} [Flt α]

/-- `default` (26-28). -/
def default : Vec2 α := ⟨lit 0, lit 0⟩

/-- `new_from_coordinate_from_to` (38-43). -/
def fromTo (p q : Coord α) : Vec2 α := ⟨q.x -. p.x, q.y -. p.y⟩

/-- `new_from_coordinate` (45-47). -/
def ofCoord (p : Coord α) : Vec2 α := ⟨p.x, p.y⟩

/-- `get_component` (101-106). -/
def getComponent (v : Vec2 α) (i : Nat) : α := if i = 0 then v.x else v.y

/-- `add` (108-110). -/
def add (a v : Vec2 α) : Vec2 α := ⟨a.x +. v.x, a.y +. v.y⟩

/-- `subtract` (112-114). -/
def subtract (a v : Vec2 α) : Vec2 α := ⟨a.x -. v.x, a.y -. v.y⟩

/-- `multiply` (122-124). -/
def multiply (a : Vec2 α) (d : α) : Vec2 α := ⟨a.x *. d, a.y *. d⟩

/-- `divide` (132-134). -/
def divide (a : Vec2 α) (d : α) : Vec2 α := ⟨a.x /. d, a.y /. d⟩

/-- `negate` (136-138). -/
def negate (a : Vec2 α) : Vec2 α := ⟨-.a.x, -.a.y⟩

/-- `length_squared` (144-146). -/
def lengthSquared (a : Vec2 α) : α := a.x *. a.x +. a.y *. a.y

/-- `weighted_sum` (175-180). -/
def weightedSum (a v : Vec2 α) (frac : α) : Vec2 α :=
  ⟨frac *. a.x +. (lit 1 -. frac) *. v.x, frac *. a.y +. (lit 1 -. frac) *. v.y⟩

/-- `average` (156-158). -/
def average (a v : Vec2 α) : Vec2 α := a.weightedSum v (lit (1 / 2))

/-- `dot` (199-201). -/
def dot (a v : Vec2 α) : α := a.x *. v.x +. a.y *. v.y

/-- `rotate_by_quarter_circle` (243-255); `%` of `i32` truncates (`Int.tmod`). -/
def rotateByQuarterCircle (a : Vec2 α) (n : Int) : Option (Vec2 α) :=
  let q := n.tmod 4
  let q := if n < 0 ∧ q ≠ 0 then q + 4 else q
  if q = 0 then some ⟨a.x, a.y⟩
  else if q = 1 then some ⟨-.a.y, a.x⟩
  else if q = 2 then some ⟨-.a.x, -.a.y⟩
  else if q = 3 then some ⟨a.y, -.a.x⟩
  else none

/-- `is_parallel` (257-259). -/
def isParallel (a v : Vec2 α) : Bool := decide (0 = CGDD.signOfDetF a.x a.y v.x v.y)

/-- `translate` (261-263). -/
def translate (a : Vec2 α) (c : Coord α) : Coord α := { Coord.default with x := a.x +. c.x, y := a.y +. c.y }

/-- `to_coordinate` (265-267). -/
def toCoordinate (a : Vec2 α) : Coord α := { Coord.default with x := a.x, y := a.y }

/-- `equals` (288-290). -/
def equals (a v : Vec2 α) : Bool := (a.x ==. v.x) && (a.y ==. v.y)

end Vec2

namespace Vec2
variable {α : Type} [FltSqrt α]

/-- `length` (140-142). -/
def length (a : Vec2 α) : α := FltSqrt.hypot a.x a.y

/-- `normalize` (148-154). -/
def normalize (a : Vec2 α) : Vec2 α :=
  let len := a.length
  if len >. lit 0 then a.divide len else ⟨lit 0, lit 0⟩

/-- `distance` (187-191). -/
def distance (a v : Vec2 α) : α := FltSqrt.hypot (v.x -. a.x) (v.y -. a.y)

end Vec2

namespace Vec2
variable {α : Type} [Flt α] [FltTrig α]

/-- `angle` (203-205). -/
def angle (a : Vec2 α) : α := FltTrig.atan2 a.y a.x

/-- `angle_vector_2d` (207-209). -/
def angleWith (a v : Vec2 α) : α := Angle.diff v.angle a.angle

/-- `angle_to` (211-224). -/
def angleTo (a v : Vec2 α) : α := Angle.orientedDiff a.angle v.angle

/-- `rotate` (226-230). -/
def rotate (a : Vec2 α) (ang : α) : Vec2 α :=
  let cos : α := FltTrig.cos ang
  let sin : α := FltTrig.sin ang
  ⟨a.x *. cos -. a.y *. sin, a.x *. sin +. a.y *. cos⟩

end Vec2

/-- `struct Vector3D` (vector_3d.rs:10-14). -/
@[ext] structure Vec3 (α : Type) where
  x : α
  y : α
  z : α

namespace Vec3
variable {α : Type} [Flt α]

/-- `new_from_coordinate` (23-29). -/
def ofCoord (v : Coord α) : Vec3 α := ⟨v.x, v.y, v.z⟩

/-- `new_from_to_coordinates` (39-45). -/
def fromTo (p q : Coord α) : Vec3 α := ⟨q.x -. p.x, q.y -. p.y, q.z -. p.z⟩

/-- `dot_4` (91-99). -/
def dot4 (a b c d : Coord α) : α :=
  let abx := b.x -. a.x
  let aby := b.y -. a.y
  let abz := b.z -. a.z
  let cdx := d.x -. c.x
  let cdy := d.y -. c.y
  let cdz := d.z -. c.z
  abx *. cdx +. aby *. cdy +. abz *. cdz

/-- `dot_2` (108-110). -/
def dot2 (a b : Coord α) : α := a.x *. b.x +. a.y *. b.y +. a.z *. b.z

/-- `add` (146-148). -/
def add (a v : Vec3 α) : Vec3 α := ⟨a.x +. v.x, a.y +. v.y, a.z +. v.z⟩

/-- `subtract` (157-159). -/
def subtract (a v : Vec3 α) : Vec3 α := ⟨a.x -. v.x, a.y -. v.y, a.z -. v.z⟩

/-- `divide` (169-171). -/
def divide (a : Vec3 α) (d : α) : Vec3 α := ⟨a.x /. d, a.y /. d, a.z /. d⟩

/-- `dot` (179-181). -/
def dot (a v : Vec3 α) : α := a.x *. v.x +. a.y *. v.y +. a.z *. v.z

/-- `equals` (245-247). -/
def equals (a v : Vec3 α) : Bool := (a.x ==. v.x) && ((a.y ==. v.y) && (a.z ==. v.z))

end Vec3

namespace Vec3
variable {α : Type} [FltSqrt α]

/-- `length` (188-190). -/
def length (a : Vec3 α) : α := FltSqrt.sqrt (a.x *. a.x +. a.y *. a.y +. a.z *. a.z)

/-- `length_of_coordinate` (198-200). -/
def lengthOfCoordinate (v : Coord α) : α := FltSqrt.sqrt (v.x *. v.x +. v.y *. v.y +. v.z *. v.z)

/-- `normalize` (208-214). -/
def normalize (a : Vec3 α) : Vec3 α :=
  let len := a.length
  if len >. lit 0 then a.divide a.length else ⟨lit 0, lit 0, lit 0⟩

/-- `normalize_coordinate` (223-226). -/
def normalizeCoordinate (v : Coord α) : Coord α :=
  let len := lengthOfCoordinate v
  { Coord.default with x := v.x /. len, y := v.y /. len, z := v.z /. len }

end Vec3
end Verif
