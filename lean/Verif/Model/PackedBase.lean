import Verif.Model.Sequences

/-! # Model of `src/core/geom/implementation/packed_coordinate_sequence.rs`

The fields are private; `new_with_dimension_measures` is the only constructor. -/

namespace Verif
open Flt

/-- `struct PackedCoordinateSequence` (packed_coordinate_sequence.rs:22-38). -/
structure PBase (α : Type) where
  dimension : Int
  measures : Int
  coords : List (Coord α)

namespace PBase
variable {α : Type} [Flt α]

omit [Flt α] in
/-- `new_with_dimension_measures` (69-79). The difference is taken without overflow. -/
def new (dimension measures : Int) : Option (PBase α) := if dimension - measures < 2 then none else some ⟨dimension, measures, []⟩

omit [Flt α] in
/-- `copy` (84-90). -/
def copy (s : PBase α) : Res (PSeq α) := PSeq.ofCoordinatesDim s.coords s.dimension

omit [Flt α] in
/-- `get_coordinate_by_index` (109-111). -/
def getCoordinate (s : PBase α) (i : Nat) : Res (Coord α) := Res.get s.coords i

omit [Flt α] in
/-- `get_coordinate_internal` (266-268), `get_coordinate_copy_by_index` (116-118). -/
def getCoordinateInternal (s : PBase α) (i : Nat) : Res (Option (Coord α)) := do let c ← Res.get s.coords i; pure (some c)

omit [Flt α] in
/-- `has_z` (161-163). -/
def hasZ (s : PBase α) : Bool := decide (s.dimension - s.measures > 2)

omit [Flt α] in
/-- `has_m` (175-177). -/
def hasM (s : PBase α) : Bool := decide (s.measures > 0)

/-- `get_ordinate` (225-237); `get_x`, `get_y` (211-220) call it with 0 and 1. -/
def getOrd (s : PBase α) (i : Nat) (k : Int) : Res α := do
  let c ← Res.get s.coords i
  if k = 0 then pure c.x
  else if k = 1 then pure c.y
  else match c.getOrdinate k with
    | some v => pure v
    | none => pure nan

/-- `get_z` (185-191). -/
def getZ (s : PBase α) (i : Nat) : Res α := if s.hasZ then s.getOrd i 2 else pure nan

/-- `get_m` (199-206). -/
def getM (s : PBase α) (i : Nat) : Res α := if s.hasM then s.getOrd i (s.dimension - s.measures) else pure nan

/-- `get_coordinate_by_index_coordinate` (123-132): the coordinate it fills. -/
def fill (s : PBase α) (i : Nat) (c : Coord α) : Res (Coord α) := do
  let x ← s.getOrd i 0
  let y ← s.getOrd i 1
  let c := { c with x := x, y := y }
  let c ← if s.hasZ then do let z ← s.getZ i; pure { c with z := z } else pure c
  if s.hasM then do let m ← s.getM i; pure { c with m := m } else pure c

omit [Flt α] in
/-- `size` (151-153). -/
def size (s : PBase α) : Nat := s.coords.length

/-- `to_coordinate_array` (137-144). -/
def toCoordinateArray (s : PBase α) : Res (List (Coord α)) :=
  forRange 0 s.coords.length (List.replicate s.coords.length Coord.default) (fun i l => do
    let c ← s.getCoordinateInternal i
    let c ← Res.unwrap c
    Res.set l i c)

omit [Flt α] in
/-- `set_ordinate` (284-290); `set_x`, `set_y` (245-257) call it with 0 and 1. -/
def setOrd (s : PBase α) (i : Nat) (k : Int) (v : α) : Res (PBase α) := do
  let c ← Res.get s.coords i
  let c' := if k = 0 then { c with x := v } else if k = 1 then { c with y := v } else c.setOrdinate k v
  let l ← Res.set s.coords i c'
  pure { s with coords := l }

end PBase
end Verif
