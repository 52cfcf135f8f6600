import Verif.Model.Sequences

/-! # Model of `src/core/geom/octagonal_envelope.rs`

`&mut self` methods return the new value. `new_with_line_string` (98-102) passes on the coordinate sequence of the line; here
the sequence is the argument. The commented out `toGeometry` does not exist. -/

namespace Verif
open Flt

/-- `struct OctagonalEnvelope` (octagonal_envelope.rs:7-16). -/
structure Oct (α : Type) where
  minx : α
  maxx : α
  miny : α
  maxy : α
  mina : α
  maxa : α
  minb : α
  maxb : α
  deriving DecidableEq

namespace Oct
variable {α : Type} [Flt α]

/-- `compute_a` (28-30). -/
def computeA (x y : α) : α := x +. y

/-- `compute_b` (32-34). -/
def computeB (x y : α) : α := x -. y

/-- `default` (39-50). -/
def default : Oct α := ⟨nan, lit 0, lit 0, lit 0, lit 0, lit 0, lit 0, lit 0⟩

/-- `is_null` (129-131). -/
def isNull (o : Oct α) : Bool := isNaN o.minx

/-- `set_to_null` (136-138). -/
def setToNull (o : Oct α) : Oct α := { o with minx := nan }

/-- `expand_to_include_xy` (202-241). -/
def expandToIncludeXY (o : Oct α) (x y : α) : Oct α :=
  let a := computeA x y
  let b := computeB x y
  if o.isNull then ⟨x, x, y, y, a, a, b, b⟩
  else
    { minx := if x <. o.minx then x else o.minx
      maxx := if x >. o.maxx then x else o.maxx
      miny := if y <. o.miny then y else o.miny
      maxy := if y >. o.maxy then y else o.maxy
      mina := if a <. o.mina then a else o.mina
      maxa := if a >. o.maxa then a else o.maxa
      minb := if b <. o.minb then b else o.minb
      maxb := if b >. o.maxb then b else o.maxb }

/-- `expand_to_include_coordinate` (191-193). -/
def expandToInclude (o : Oct α) (p : Coord α) : Oct α := o.expandToIncludeXY p.x p.y

/-- `expand_to_include_coordinate_array_sequence` (140-146): the loop reads x and y of every coordinate in turn. -/
def expandToIncludeSeq (o : Oct α) (seq : CASeq α) : Oct α := seq.coordinates.foldl expandToInclude o

/-- `expand_to_include_octagonal_envelope` (148-189). -/
def expandToIncludeOct (o oct : Oct α) : Oct α :=
  if oct.isNull then o
  else if o.isNull then ⟨oct.minx, oct.maxx, oct.miny, oct.maxy, oct.mina, oct.maxa, oct.minb, oct.maxb⟩
  else
    { minx := if oct.minx <. o.minx then oct.minx else o.minx
      maxx := if oct.maxx >. o.maxx then oct.maxx else o.maxx
      miny := if oct.miny <. o.miny then oct.miny else o.miny
      maxy := if oct.maxy >. o.maxy then oct.maxy else o.maxy
      mina := if oct.mina <. o.mina then oct.mina else o.mina
      maxa := if oct.maxa >. o.maxa then oct.maxa else o.maxa
      minb := if oct.minb <. o.minb then oct.minb else o.minb
      maxb := if oct.maxb >. o.maxb then oct.maxb else o.maxb }

/-- `expand_to_include_envelope` (195-200). -/
def expandToIncludeEnv (o : Oct α) (env : Env α) : Oct α :=
  let o := o.expandToIncludeXY env.minx env.miny
  let o := o.expandToIncludeXY env.minx env.maxy
  let o := o.expandToIncludeXY env.maxx env.miny
  o.expandToIncludeXY env.maxx env.maxy

/-- `new_with_coordinate` (57-61). -/
def newCoordinate (p : Coord α) : Oct α := default.expandToInclude p

/-- `new_with_coordinates` (69-74). -/
def newCoordinates (p0 p1 : Coord α) : Oct α := (default.expandToInclude p0).expandToInclude p1

/-- `new_with_envelope` (79-83). -/
def newEnvelope (env : Env α) : Oct α := default.expandToIncludeEnv env

/-- `new_with_octagonal_envelope` (89-93). -/
def newOct (oct : Oct α) : Oct α := default.expandToIncludeOct oct

/-- `new_with_line_string` (98-102). -/
def newSeq (seq : CASeq α) : Oct α := default.expandToIncludeSeq seq

/-- `is_valid` (269-277). -/
def isValid (o : Oct α) : Bool :=
  if o.isNull then true
  else (o.minx ≤. o.maxx) && (o.miny ≤. o.maxy) && (o.mina ≤. o.maxa) && (o.minb ≤. o.maxb)

/-- `expand_by_distance` (243-262). -/
def expandBy {α : Type} [FltSqrt α] (o : Oct α) (distance : α) : Oct α :=
  if o.isNull then o
  else
    let diagonal := FltSqrt.sqrt (lit 2) *. distance
    let o : Oct α :=
      { minx := o.minx -. distance, maxx := o.maxx +. distance, miny := o.miny -. distance, maxy := o.maxy +. distance,
        mina := o.mina -. diagonal, maxa := o.maxa +. diagonal, minb := o.minb -. diagonal, maxb := o.maxb +. diagonal }
    if !o.isValid then o.setToNull else o

/-- `intersects_octagonal_envelope` (279-309). -/
def intersects (o other : Oct α) : Bool :=
  if o.isNull || other.isNull then false
  else if o.minx >. other.maxx then false
  else if o.maxx <. other.minx then false
  else if o.miny >. other.maxy then false
  else if o.maxy <. other.miny then false
  else if o.mina >. other.maxa then false
  else if o.maxa <. other.mina then false
  else if o.minb >. other.maxb then false
  else if o.maxb <. other.minb then false
  else true

/-- `intersects_coordinate` (311-340). -/
def intersectsCoordinate (o : Oct α) (p : Coord α) : Bool :=
  if o.minx >. p.x then false
  else if o.maxx <. p.x then false
  else if o.miny >. p.y then false
  else if o.maxy <. p.y then false
  else
    let a := computeA p.x p.y
    let b := computeB p.x p.y
    if o.mina >. a then false
    else if o.maxa <. a then false
    else if o.minb >. b then false
    else if o.maxb <. b then false
    else true

/-- `contains_octagonal_envelope` (342-355). -/
def contains (o other : Oct α) : Bool :=
  if o.isNull || other.isNull then false
  else (other.minx ≥. o.minx) && (other.maxx ≤. o.maxx) && (other.miny ≥. o.miny) && (other.maxy ≤. o.maxy)
    && (other.mina ≥. o.mina) && (other.maxa ≤. o.maxa) && (other.minb ≥. o.minb) && (other.maxb ≤. o.maxb)

end Oct
end Verif
