import Verif.Model.Coordinate

/-! # Model of `src/core/geom/envelope.rs` -/

namespace Verif
open Flt

/-- `struct Envelope` (envelope.rs:6-26). -/
structure Env (α : Type) where
  minx : α
  maxx : α
  miny : α
  maxy : α
  deriving DecidableEq, Repr

namespace Env
variable {α : Type} [Flt α]

/-- `Envelope::intersects_3` (envelope.rs:36-63): is `q` in the box of `p1`, `p2`. -/
def intersects3 (p1 p2 q : Coord α) : Bool :=
  let qxComp1 := if p1.x <. p2.x then p1.x else p2.x
  let qxComp2 := if p1.x >. p2.x then p1.x else p2.x
  let qyComp1 := if p1.y <. p2.y then p1.y else p2.y
  let qyComp2 := if p1.y >. p2.y then p1.y else p2.y
  if ((q.x ≥. qxComp1) && (q.x ≤. qxComp2)) && ((q.y ≥. qyComp1) && (q.y ≤. qyComp2)) then true
  else false

/-- `Envelope::intersects_4` (envelope.rs:76-106): do the boxes of `p1 p2` and `q1 q2` meet. -/
def intersects4 (p1 p2 q1 q2 : Coord α) : Bool :=
  let minq := fmin q1.x q2.x
  let maxq := fmax q1.x q2.x
  let minp := fmin p1.x p2.x
  let maxp := fmax p1.x p2.x
  if minp >. maxq then false
  else if maxp <. minq then false
  else
    let minq := fmin q1.y q2.y
    let maxq := fmax q1.y q2.y
    let minp := fmin p1.y p2.y
    let maxp := fmax p1.y p2.y
    if minp >. maxq then false
    else if maxp <. minq then false
    else true

/-- `Envelope::default` and the effect of `set_to_null` (envelope.rs:108-115, 242-247). -/
def null : Env α := ⟨lit 0, lit (-1), lit 0, lit (-1)⟩

/-- `Envelope::new_xy` (envelope.rs:125-152). -/
def newXY (x1 x2 y1 y2 : α) : Env α :=
  let mx := if x1 <. x2 then (x1, x2) else (x2, x1)
  let my := if y1 <. y2 then (y1, y2) else (y2, y1)
  ⟨mx.1, mx.2, my.1, my.2⟩

/-- `Envelope::new_coordinates` (envelope.rs:160-187). -/
def newCoordinates (p1 p2 : Coord α) : Env α :=
  let mx := if p1.x <. p2.x then (p1.x, p2.x) else (p2.x, p1.x)
  let my := if p1.y <. p2.y then (p1.y, p2.y) else (p2.y, p1.y)
  ⟨mx.1, mx.2, my.1, my.2⟩

omit [Flt α] in
/-- `Envelope::new_coordinate` (envelope.rs:194-201). -/
def newCoordinate (p : Coord α) : Env α := ⟨p.x, p.x, p.y, p.y⟩

omit [Flt α] in
/-- `Envelope::new_envelope`, `copy`, and the effect of `init` (envelope.rs:208-236). -/
def copy (e : Env α) : Env α := ⟨e.minx, e.maxx, e.miny, e.maxy⟩

/-- `Envelope::is_null` (envelope.rs:256-258). -/
def isNull (e : Env α) : Bool := e.maxx <. e.minx

/-- `Envelope::get_width` (envelope.rs:265-270). -/
def width (e : Env α) : α := if e.isNull then lit 0 else e.maxx -. e.minx

/-- `Envelope::get_height` (envelope.rs:277-282). -/
def height (e : Env α) : α := if e.isNull then lit 0 else e.maxy -. e.miny

/-- `Envelope::get_diameter` (envelope.rs:289-296). -/
def diameter {α : Type} [FltSqrt α] (e : Env α) : α :=
  if e.isNull then lit 0 else FltSqrt.hypot e.width e.height

/-- `Envelope::get_area` (envelope.rs:344-346). -/
def area (e : Env α) : α := e.width *. e.height

/-- `Envelope::min_extent` (envelope.rs:353-363). -/
def minExtent (e : Env α) : α :=
  if e.isNull then lit 0
  else
    let w := e.width
    let h := e.height
    if w <. h then w else h

/-- `Envelope::max_extent` (envelope.rs:370-380). -/
def maxExtent (e : Env α) : α :=
  if e.isNull then lit 0
  else
    let w := e.width
    let h := e.height
    if w >. h then w else h

/-- `Envelope::expand_to_include_xy` (envelope.rs:464-484). -/
def expandToIncludeXY (e : Env α) (x y : α) : Env α :=
  if e.isNull then ⟨x, x, y, y⟩
  else
    ⟨if x <. e.minx then x else e.minx,
     if x >. e.maxx then x else e.maxx,
     if y <. e.miny then y else e.miny,
     if y >. e.maxy then y else e.maxy⟩

/-- `Envelope::expand_to_include_coordinate` (envelope.rs:389-409), the same statements with `p.x`, `p.y`. -/
def expandToInclude (e : Env α) (p : Coord α) : Env α :=
  if e.isNull then ⟨p.x, p.x, p.y, p.y⟩
  else
    ⟨if p.x <. e.minx then p.x else e.minx,
     if p.x >. e.maxx then p.x else e.maxx,
     if p.y <. e.miny then p.y else e.miny,
     if p.y >. e.maxy then p.y else e.maxy⟩

/-- `Envelope::expand_by_delta_xy` (envelope.rs:440-454). -/
def expandByXY (e : Env α) (dx dy : α) : Env α :=
  if e.isNull then e
  else
    let e' : Env α := ⟨e.minx -. dx, e.maxx +. dx, e.miny -. dy, e.maxy +. dy⟩
    if (e'.minx >. e'.maxx) || (e'.miny >. e'.maxy) then null else e'

/-- `Envelope::expand_by` (envelope.rs:417-431). -/
def expandBy (e : Env α) (d : α) : Env α :=
  if e.isNull then e
  else
    let e' : Env α := ⟨e.minx -. d, e.maxx +. d, e.miny -. d, e.maxy +. d⟩
    if (e'.minx >. e'.maxx) || (e'.miny >. e'.maxy) then null else e'

/-- `Envelope::expand_to_include_envelope` (envelope.rs:494-517). -/
def expandToIncludeEnv (e other : Env α) : Env α :=
  if other.isNull then e
  else if e.isNull then ⟨other.minx, other.maxx, other.miny, other.maxy⟩
  else
    ⟨if other.minx <. e.minx then other.minx else e.minx,
     if other.maxx >. e.maxx then other.maxx else e.maxx,
     if other.miny <. e.miny then other.miny else e.miny,
     if other.maxy >. e.maxy then other.maxy else e.maxy⟩

/-- `Envelope::translate` (envelope.rs:525-559). -/
def translate (e : Env α) (tx ty : α) : Env α :=
  if e.isNull then e
  else
    let x1 := e.minx +. tx
    let x2 := e.maxx +. tx
    let y1 := e.miny +. ty
    let y2 := e.maxy +. ty
    let mx := if x1 <. x2 then (x1, x2) else (x2, x1)
    let my := if y1 <. y2 then (y1, y2) else (y2, y1)
    ⟨mx.1, mx.2, my.1, my.2⟩

/-- `Envelope::centre` (envelope.rs:567-576). -/
def centre (e : Env α) : Option (Coord α) :=
  if e.isNull then none
  else some (Coord.xy ((e.minx +. e.maxx) /. lit 2) ((e.miny +. e.maxy) /. lit 2))

/-- `Envelope::intersects_envelope`, `overlaps_envelope` (envelope.rs:623-631, 701-703). -/
def intersects (e other : Env α) : Bool :=
  if e.isNull || other.isNull then false
  else !((other.minx >. e.maxx) || (other.maxx <. e.minx) || (other.miny >. e.maxy)
    || (other.maxy <. e.miny))

/-- `Envelope::intersection_envelope` (envelope.rs:585-611). -/
def intersection (e env : Env α) : Env α :=
  if e.isNull || env.isNull || !e.intersects env then null
  else
    let intMinX := if e.minx >. env.minx then e.minx else env.minx
    let intMinY := if e.miny >. env.miny then e.miny else env.miny
    let intMaxX := if e.maxx <. env.maxx then e.maxx else env.maxx
    let intMaxY := if e.maxy <. env.maxy then e.maxy else env.maxy
    newXY intMinX intMaxX intMinY intMaxY

/-- `Envelope::intersects_coordinate_ab` (envelope.rs:641-679): does the box of `a`, `b` meet this one. -/
def intersectsAB (e : Env α) (a b : Coord α) : Bool :=
  if e.isNull then false
  else
    let envminx := if a.x <. b.x then a.x else b.x
    if envminx >. e.maxx then false
    else
      let envmaxx := if a.x >. b.x then a.x else b.x
      if envmaxx <. e.minx then false
      else
        let envminy := if a.y <. b.y then a.y else b.y
        if envminy >. e.maxy then false
        else
          let envmaxy := if a.y >. b.y then a.y else b.y
          if envmaxy <. e.miny then false else true

/-- `Envelope::disjoint_envelope` (envelope.rs:692-694). -/
def disjoint (e other : Env α) : Bool := !e.intersects other

/-- `Envelope::intersects_xy`, `overlaps_xy` (envelope.rs:731-742). -/
def intersectsXY (e : Env α) (x y : α) : Bool :=
  if e.isNull then false
  else !((x >. e.maxx) || (x <. e.minx) || (y >. e.maxy) || (y <. e.miny))

/-- `Envelope::intersects_coordinate`, `overlaps_coordinate` (envelope.rs:712-721). -/
def intersectsCoordinate (e : Env α) (p : Coord α) : Bool := e.intersectsXY p.x p.y

/-- `Envelope::covers_xy`, `contains_xy` (envelope.rs:821-826, 792-794). -/
def coversXY (e : Env α) (x y : α) : Bool :=
  if e.isNull then false
  else (x ≥. e.minx) && (x ≤. e.maxx) && (y ≥. e.miny) && (y ≤. e.maxy)

/-- `Envelope::covers_coordinate`, `contains_coordinate` (envelope.rs:836-838, 773-775). -/
def coversCoordinate (e : Env α) (p : Coord α) : Bool := e.coversXY p.x p.y

/-- `Envelope::covers_envelope` (envelope.rs:847-855). -/
def covers (e other : Env α) : Bool :=
  if e.isNull || other.isNull then false
  else (other.minx ≥. e.minx) && (other.maxx ≤. e.maxx) && (other.miny ≥. e.miny)
    && (other.maxy ≤. e.maxy)

/-- `Envelope::contains_envelope` (envelope.rs:756-758). -/
def contains (e other : Env α) : Bool := e.covers other

/-- `Envelope::equals` (envelope.rs:892-900). -/
def equals (e other : Env α) : Bool :=
  if e.isNull then other.isNull
  else (e.maxx ==. other.maxx) && (e.maxy ==. other.maxy) && (e.minx ==. other.minx)
    && (e.miny ==. other.miny)

/-- `Envelope::contains_properly` (envelope.rs:804-809). -/
def containsProperly (e other : Env α) : Bool :=
  if e.equals other then false else e.covers other

/-- The horizontal and vertical gaps computed by `Envelope::distance_envelope` (envelope.rs:868-880). -/
def gaps (e env : Env α) : α × α :=
  let dx := if e.maxx <. env.minx then env.minx -. e.maxx
    else if e.minx >. env.maxx then e.minx -. env.maxx else lit 0
  let dy := if e.maxy <. env.miny then env.miny -. e.maxy
    else if e.miny >. env.maxy then e.miny -. env.maxy else lit 0
  (dx, dy)

/-- `Envelope::distance_envelope` (envelope.rs:863-890). -/
def distance {α : Type} [FltSqrt α] (e env : Env α) : α :=
  if e.intersects env then lit 0
  else
    let g := e.gaps env
    if g.1 ==. lit 0 then g.2
    else if g.2 ==. lit 0 then g.1
    else FltSqrt.hypot g.1 g.2

/-- `Envelope::compare_to_envelope` (envelope.rs:910-948). -/
def compareTo (e env : Env α) : Int :=
  if e.isNull then (if env.isNull then 0 else -1)
  else if env.isNull then 1
  else if e.minx <. env.minx then -1
  else if e.minx >. env.minx then 1
  else if e.miny <. env.miny then -1
  else if e.miny >. env.miny then 1
  else if e.maxx <. env.maxx then -1
  else if e.maxx >. env.maxx then 1
  else if e.maxy <. env.maxy then -1
  else if e.maxy >. env.maxy then 1
  else 0

end Env
end Verif
