import Verif.Model.Coordinate
import Verif.Base.Res

/-! # Model of `src/core/geom/coordinate_list.rs`

`struct CoordinateList { vec }` is modelled by the list itself; methods take the list and return the new one. -/

namespace Verif.CoordList
open Flt
variable {α : Type} [Flt α]

/-- `CoordinateList::add_coordinate_repeated` (coordinate_list.rs:128-145). -/
def add (l : List (Coord α)) (c : Coord α) (allowRepeated : Bool) : List (Coord α) :=
  if !allowRepeated then
    if l.length ≥ 1 then
      match l[l.length - 1]? with
      | some last => if last.equals2D c then l else l ++ [c]
      | none => l ++ [c]
    else l ++ [c]
  else l ++ [c]

/-- `CoordinateList::add_coordinate_list_repeated_start_end` (coordinate_list.rs:59-77).
For `start > end` the step `i += -1 as usize` overflows `usize` after the first coordinate was added: a panic in debug builds (what is
modelled; release builds wrap around and count down). -/
def addRange (l coords : List (Coord α)) (allowRepeated : Bool) (start stop : Nat) : Res (List (Coord α)) :=
  if start > stop then do
    let c ← Res.get coords start
    let _ := add l c allowRepeated
    .error .arith
  else
    forRange start stop l (fun i l => do
      let c ← Res.get coords i
      pure (add l c allowRepeated))

/-- `CoordinateList::add_coordinate_list_repeated_direction` (coordinate_list.rs:86-105).
The backward loop starts at index `len`, which is out of range. -/
def addDirection (l coords : List (Coord α)) (allowRepeated direction : Bool) : Res (List (Coord α)) :=
  if direction then
    forRange 0 coords.length l (fun i l => do
      let c ← Res.get coords i
      pure (add l c allowRepeated))
  else do
    let c ← Res.get coords coords.length
    let _ := add l c allowRepeated
    .error .arith

/-- `CoordinateList::add_coordinate_list_repeated` (coordinate_list.rs:113-120). -/
def addList (l coords : List (Coord α)) (allowRepeated : Bool) : Res (List (Coord α)) :=
  addDirection l coords allowRepeated true

/-- `CoordinateList::new_with_repeated` (coordinate_list.rs:37-41); `new` (24-28) is the case `true`. -/
def newWithRepeated (coords : List (Coord α)) (allowRepeated : Bool) : Res (List (Coord α)) :=
  addList [] coords allowRepeated

omit [Flt α] in
/-- `Vec::insert`: panics for an index beyond the length. -/
def vecInsert (l : List (Coord α)) (i : Nat) (c : Coord α) : Res (List (Coord α)) :=
  if i ≤ l.length then .ok (l.take i ++ c :: l.drop i) else .error .index

/-- `CoordinateList::add_index_coordinate_repeated` (coordinate_list.rs:154-189). -/
def insert (l : List (Coord α)) (i : Nat) (c : Coord α) (allowRepeated : Bool) : Res (List (Coord α)) :=
  if !allowRepeated && decide (l.length > 0) then
    let prevEq := decide (i > 0) && (match l[i - 1]? with | some prev => prev.equals2D c | none => false)
    if prevEq then .ok l
    else
      let nextEq := decide (i < l.length) && (match l[i]? with | some next => next.equals2D c | none => false)
      if nextEq then .ok l else vecInsert l i c
  else vecInsert l i c

/-- `CoordinateList::add_all` (coordinate_list.rs:196-203); the Boolean says whether anything was passed in. -/
def addAll (l coll : List (Coord α)) (allowRepeated : Bool) : List (Coord α) × Bool :=
  coll.foldl (fun s c => (add s.1 c allowRepeated, true)) (l, false)

/-- `CoordinateList::close_ring` (coordinate_list.rs:208-218). -/
def closeRing (l : List (Coord α)) : List (Coord α) :=
  if l.length > 0 then
    match l[0]? with
    | some duplicate => add l duplicate false
    | none => l
  else l

/-- `CoordinateList::to_coordinate_array_forward` (coordinate_list.rs:235-250). -/
def toArray (l : List (Coord α)) (isForward : Bool) : Res (List (Coord α)) :=
  if isForward then .ok l
  else
    forRange 0 l.length (List.replicate l.length Coord.default) (fun i pts => do
      let k ← Res.sub l.length i
      let k ← Res.sub k 1
      match l[k]? with
      | some c => Res.set pts i c
      | none => pure pts)

end Verif.CoordList
