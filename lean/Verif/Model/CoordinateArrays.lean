import Verif.Model.Coordinates
import Verif.Model.CoordinateList
import Verif.Model.Envelope
import Verif.Model.MathUtil

/-! # Model of `src/core/geom/coordinate_arrays.rs` -/

namespace Verif.CoordArrays
open Flt
variable {α : Type} [Flt α]

/-- `CoordinateArrays::dimension` (coordinate_arrays.rs:24-35). -/
def dimension (pts : List (Coord α)) : Int :=
  if pts.length = 0 then 3
  else pts.foldl (fun d c => max d (Coordinates.dimension c)) 0

/-- `CoordinateArrays::measures` (coordinate_arrays.rs:43-54). -/
def measures (pts : List (Coord α)) : Int :=
  if pts.length = 0 then 0
  else pts.foldl (fun d c => max d (Coordinates.measures c)) 0

/-- First loop of `CoordinateArrays::enforce_consistency` (coordinate_arrays.rs:68-86): the state is
(max_dimension, max_measures, is_consistent). -/
def scanConsistency (array : List (Coord α)) : Int × Int × Bool :=
  array.foldl (fun s c =>
    let d := Coordinates.dimension c
    let m := Coordinates.measures c
    if s.1 = -1 then (d, m, s.2.2)
    else if d ≠ s.1 ∨ m ≠ s.2.1 then (max s.1 d, max s.2.1 m, false)
    else s) (-1, -1, true)

/-- Second loop, also the body of `enforce_consistency_dim_measures` (coordinate_arrays.rs:88-95, 110-123): each
coordinate is replaced by a fresh one of the requested shape that received x, y, z. -/
def enforceDimMeasures (array : List (Coord α)) (dimension measures : Int) : List (Coord α) :=
  array.map (fun c => (Coordinates.createDimMeasures dimension measures).setCoordinate c)

/-- `CoordinateArrays::enforce_consistency` (coordinate_arrays.rs:66-96). -/
def enforceConsistency (array : List (Coord α)) : List (Coord α) :=
  let s := scanConsistency array
  if !s.2.2 then enforceDimMeasures array s.1 s.2.1 else array

/-- `CoordinateArrays::is_ring` (coordinate_arrays.rs:133-141). -/
def isRing (pts : List (Coord α)) : Res Bool :=
  if pts.length < 4 then .ok false
  else do
    let a ← Res.get pts 0
    let b ← Res.get pts (pts.length - 1)
    if !a.equals2D b then pure false else pure true

/-- `CoordinateArrays::index_of` (coordinate_arrays.rs:644-651). -/
def indexOf (c : Coord α) (pts : List (Coord α)) : Res Int := do
  let r ← forFind 0 pts.length (fun i => do
    let p ← Res.get pts i
    if c.equals2D p then pure (some (i : Int)) else pure none)
  pure (r.getD (-1))

/-- `CoordinateArrays::pt_not_in_list` (coordinate_arrays.rs:151-159). -/
def ptNotInList (testPts pts : List (Coord α)) : Res (Option (Coord α)) :=
  forFind 0 testPts.length (fun i => do
    let t ← Res.get testPts i
    let k ← indexOf t pts
    if k < 0 then pure (some t) else pure none)

/-- `CoordinateArrays::compare` (coordinate_arrays.rs:170-189); the index loop becomes recursion on both lists. -/
def compareArrays : List (Coord α) → List (Coord α) → Int
  | a :: as, b :: bs => let c := a.compareTo b; if c ≠ 0 then c else compareArrays as bs
  | [], _ :: _ => -1
  | _ :: _, [] => 1
  | [], [] => 0

/-- `CoordinateArrays::increasing_direction` (coordinate_arrays.rs:220-231). -/
def increasingDirection (pts : List (Coord α)) : Res Int := do
  let r ← forFind 0 pts.length (fun i => do
    let j ← Res.sub pts.length 1
    let j ← Res.sub j i
    let a ← Res.get pts i
    let b ← Res.get pts j
    let comp := a.compareTo b
    if comp ≠ 0 then pure (some comp) else pure none)
  pure (r.getD 1)

/-- `CoordinateArrays::is_equal_reversed` (coordinate_arrays.rs:241-250). -/
def isEqualReversed (pts1 pts2 : List (Coord α)) : Res Bool := do
  let r ← forFind 0 pts1.length (fun i => do
    let p1 ← Res.get pts1 i
    let k ← Res.sub pts1.length i
    let k ← Res.sub k 1
    let p2 ← Res.get pts2 k
    if p1.compareTo p2 ≠ 0 then pure (some false) else pure none)
  pure (r.getD true)

/-- `CoordinateArrays::copy_deep` (coordinate_arrays.rs:311-317). -/
def copyDeep (coordinates : List (Coord α)) : Res (List (Coord α)) :=
  forRange 0 coordinates.length (List.replicate coordinates.length Coord.default) (fun i copy => do
    let c ← Res.get coordinates i
    Res.set copy i c)

omit [Flt α] in
/-- `CoordinateArrays::copy_deep_to` (coordinate_arrays.rs:331-341): the new destination. -/
def copyDeepTo (src : List (Coord α)) (srcStart : Nat) (dest : List (Coord α)) (destStart length : Nat) :
    Res (List (Coord α)) :=
  forRange 0 length dest (fun i dest => do
    let c ← Res.get src (srcStart + i)
    Res.set dest (destStart + i) c)

/-- `CoordinateArrays::has_repeated_points` (coordinate_arrays.rs:357-364). -/
def hasRepeatedPoints (coord : List (Coord α)) : Res Bool := do
  let r ← forFind 1 coord.length (fun i => do
    let a ← Res.get coord (i - 1)
    let b ← Res.get coord i
    if a.equals2D b then pure (some true) else pure none)
  pure (r.getD false)

omit [Flt α] in
/-- `CoordinateArrays::at_least_n_coordinates_or_nothing` (coordinate_arrays.rs:370-377). -/
def atLeastNOrNothing (n : Nat) (c : List (Coord α)) : List (Coord α) :=
  if c.length ≥ n then c else []

/-- `CoordinateArrays::remove_repeated_points` (coordinate_arrays.rs:388-395). -/
def removeRepeatedPoints (coord : List (Coord α)) : Res (List (Coord α)) := do
  if !(← hasRepeatedPoints coord) then pure coord
  else CoordList.newWithRepeated coord false

/-- `CoordinateArrays::has_repeated_or_invalid_points` (coordinate_arrays.rs:404-414). -/
def hasRepeatedOrInvalidPoints (coord : List (Coord α)) : Res Bool := do
  let r ← forFind 1 coord.length (fun i => do
    let b ← Res.get coord i
    if !b.isValid then pure (some true)
    else
      let a ← Res.get coord (i - 1)
      if a.equals2D b then pure (some true) else pure none)
  pure (r.getD false)

/-- `CoordinateArrays::remove_repeated_or_invalid_points` (coordinate_arrays.rs:426-439). -/
def removeRepeatedOrInvalidPoints (coord : List (Coord α)) : Res (List (Coord α)) := do
  if !(← hasRepeatedOrInvalidPoints coord) then pure coord
  else
    forRange 0 coord.length ([] : List (Coord α)) (fun i l => do
      let c ← Res.get coord i
      if !c.isValid then pure l else pure (CoordList.add l c false))

/-- `CoordinateArrays::equals` (coordinate_arrays.rs:486-497). -/
def equals (c1 c2 : List (Coord α)) : Res Bool :=
  if c1.length ≠ c2.length then .ok false
  else do
    let r ← forFind 0 c1.length (fun i => do
      let a ← Res.get c1 i
      let b ← Res.get c2 i
      if !a.equals2D b then pure (some false) else pure none)
    pure (r.getD true)

/-- `CoordinateArrays::min_coordinate` (coordinate_arrays.rs:529-537). -/
def minCoordinate (coordinates : List (Coord α)) : Option (Coord α) :=
  coordinates.foldl (fun m c =>
    match m with
    | none => some c
    | some mc => if mc.compareTo c > 0 then some c else some mc) none

/-- `CoordinateArrays::scroll_index_ensure_ring` (coordinate_arrays.rs:582-633). -/
def scrollIndexEnsureRing (coordinates : List (Coord α)) (i : Nat) (ensureRing : Bool) : Res (List (Coord α)) :=
  if i ≤ 0 then .ok coordinates
  else
    let new := List.replicate coordinates.length (Coord.default : Coord α)
    if !ensureRing then do
      let len ← Res.sub coordinates.length i
      let s ← forRange 0 len (new, 0, i) (fun _ s => do
        let c ← Res.get coordinates s.2.2
        let n ← Res.set s.1 s.2.1 c
        pure (n, s.2.1 + 1, s.2.2 + 1))
      let desPos ← Res.sub coordinates.length i
      let s ← forRange 0 i (s.1, desPos, 0) (fun _ s => do
        let c ← Res.get coordinates s.2.2
        let n ← Res.set s.1 s.2.1 c
        pure (n, s.2.1 + 1, s.2.2 + 1))
      pure s.1
    else do
      let last ← Res.sub coordinates.length 1
      let new ← forRange 0 last new (fun j new => do
        let c ← Res.get coordinates ((i + j) % last)
        Res.set new j c)
      let c ← Res.get new 0
      Res.set new last c

/-- `CoordinateArrays::scroll_index` (coordinate_arrays.rs:563-569). -/
def scrollIndex (coordinates : List (Coord α)) (i : Nat) : Res (List (Coord α)) := do
  let ring ← isRing coordinates
  scrollIndexEnsureRing coordinates i ring

/-- `CoordinateArrays::scroll_coordinate` (coordinate_arrays.rs:546-554). -/
def scrollCoordinate (coordinates : List (Coord α)) (first : Coord α) : Res (List (Coord α)) :=
  match coordinates.findIdx? (fun r => r.equals2D first) with
  | some i => scrollIndex coordinates i
  | none => .ok coordinates

/-- `CoordinateArrays::extract` (coordinate_arrays.rs:666-693). Simplification: indices below 2^31, so that the casts between `usize` and
`i32` do not change them; the clamp of `end` to at least -1 then has no effect. -/
def extract (pts : List (Coord α)) (start stop : Nat) : Res (List (Coord α)) := do
  let start := (MathUtil.clampI32 start 0 pts.length).toNat
  let stop := (MathUtil.clampI32 stop (-1) pts.length).toNat
  let npts ← Res.sub stop start
  let npts := npts + 1
  let npts := if start ≥ pts.length then 0 else npts
  let npts := if stop < start then 0 else npts
  if npts = 0 then pure []
  else do
    let s ← forRange start stop (([] : List (Coord α)), 0) (fun i s => do
      let iPts := s.2 + 1
      let c ← Res.get pts i
      let e ← Res.set s.1 iPts c
      pure (e, iPts))
    pure s.1

/-- `CoordinateArrays::envelope` (coordinate_arrays.rs:701-707). -/
def envelope (coordinates : List (Coord α)) : Env α :=
  coordinates.foldl Env.expandToInclude Env.null

/-- `CoordinateArrays::intersection` (coordinate_arrays.rs:716-724). -/
def intersection (coordinates : List (Coord α)) (env : Env α) : List (Coord α) :=
  coordinates.foldl (fun l c => if env.intersectsCoordinate c then CoordList.add l c true else l) []

end Verif.CoordArrays
