import Verif.Model.Coordinates
import Verif.Model.CoordinateArrays
import Verif.Model.Envelope
import Verif.Base.Res

/-! # Model of coordinate sequences

`src/core/geom/implementation/coordinate_array_sequence.rs`, `packed_coordinate_sequence_double.rs`, their factories, and the
static helpers `coordinate_array_sequences.rs` and `packed_coordinate_sequences.rs`.

The two helper files are the same text up to the sequence type, so the helpers are modelled once, over the operations they call
(`SeqOps`), and instantiated for the two types. `i32` dimensions are integers; `as usize` is `asUsize`. `usize` products are
unbounded: where Rust would overflow, the model's index is out of range, a panic as well. -/

namespace Verif
open Flt

/-- `as usize` on an `i32` (64 bit targets): negative numbers wrap. -/
def asUsize (i : Int) : Nat := (i % 2 ^ 64).toNat

/-- The operations `CoordinateArraySequences` / `PackedCoordinateSequences` use. -/
class SeqOps (S : Type) (α : outParam Type) where
  size : S → Res Nat
  dim : S → Int
  getOrd : S → Nat → Int → Res α
  setOrd : S → Nat → Int → α → Res S
  copy : S → S
  getCoord : S → Nat → Res (Coord α)
  /-- `..Factory::create_with_size_dimension` -/
  create : Nat → Int → S

/-! ## `CoordinateArraySequence` -/

/-- `struct CoordinateArraySequence` (coordinate_array_sequence.rs:6-19). -/
structure CASeq (α : Type) where
  dimension : Int
  measures : Int
  coordinates : List (Coord α)
  deriving DecidableEq

namespace CASeq
variable {α : Type} [Flt α]

/-- `new_with_coordinates` (53-59). -/
def ofCoordinates (l : List (Coord α)) : CASeq α :=
  ⟨CoordArrays.dimension l, CoordArrays.measures l, l⟩

/-- `new_with_size` (106-112). -/
def newWithSize (size : Nat) : CASeq α := ⟨3, 0, List.replicate size Coord.default⟩

/-- `new_with_size_dimension` (121-127). -/
def newWithSizeDimension (size : Nat) (dimension : Int) : CASeq α :=
  ⟨dimension, 0, List.replicate size (Coordinates.createDim dimension)⟩

/-- `new_with_size_dimension_measures` (136-145). -/
def newWithSizeDimensionMeasures (size : Nat) (dimension measures : Int) : CASeq α :=
  ⟨dimension, measures, List.replicate size (Coordinates.createDimMeasures dimension measures)⟩

omit [Flt α] in
/-- `size` (322-324). -/
def size (s : CASeq α) : Nat := s.coordinates.length

omit [Flt α] in
/-- `get_coordinate_index`, `get_coordinate_copy` (201-213). -/
def getCoordinate (s : CASeq α) (i : Nat) : Res (Coord α) := Res.get s.coordinates i

/-- `new_from_coordinate_array_sequence` (153-165). -/
def newFrom (o : CASeq α) : Res (CASeq α) := do
  let l ← forRange 0 o.size (List.replicate o.size Coord.default) (fun i l => do
    let c ← o.getCoordinate i
    Res.set l i c)
  pure ⟨o.dimension, o.measures, l⟩

omit [Flt α] in
/-- `get_x` (225-227). -/
def getX (s : CASeq α) (i : Nat) : Res α := do let c ← Res.get s.coordinates i; pure c.x

omit [Flt α] in
/-- `get_y` (232-234). -/
def getY (s : CASeq α) (i : Nat) : Res α := do let c ← Res.get s.coordinates i; pure c.y

omit [Flt α] in
/-- `has_z` (242-244). -/
def hasZ (s : CASeq α) : Bool := decide (s.dimension - s.measures > 2)

omit [Flt α] in
/-- `has_m` (256-258). -/
def hasM (s : CASeq α) : Bool := decide (s.measures > 0)

/-- `get_z` (263-269). -/
def getZ (s : CASeq α) (i : Nat) : Res α :=
  if s.hasZ then do let c ← Res.get s.coordinates i; pure c.z else pure nan

/-- `get_m` (274-280). -/
def getM (s : CASeq α) (i : Nat) : Res α :=
  if s.hasM then do let c ← Res.get s.coordinates i; pure c.m else pure nan

/-- `get_ordinate` (285-297). -/
def getOrd (s : CASeq α) (i : Nat) (k : Int) : Res α := do
  let c ← Res.get s.coordinates i
  if k = 0 then pure c.x
  else if k = 1 then pure c.y
  else match c.getOrdinate k with
    | some v => pure v
    | none => pure nan

omit [Flt α] in
/-- `set_ordinate` (329-335). -/
def setOrd (s : CASeq α) (i : Nat) (k : Int) (v : α) : Res (CASeq α) := do
  let c ← Res.get s.coordinates i
  let c' := if k = 0 then { c with x := v } else if k = 1 then { c with y := v } else c.setOrdinate k v
  let l ← Res.set s.coordinates i c'
  pure { s with coordinates := l }

omit [Flt α] in
/-- `copy` (304-315): the loop assigning each coordinate yields the same list. -/
def copy (s : CASeq α) : CASeq α := ⟨s.dimension, s.measures, s.coordinates⟩

/-- `expand_envelope` (346-350). -/
def expandEnvelope (s : CASeq α) (env : Env α) : Env α := s.coordinates.foldl Env.expandToInclude env

/-- `CoordinateArraySequenceFactory::create_with_size_dimension` (coordinate_array_sequence_factory.rs:35-46). -/
def create (size : Nat) (dimension : Int) : CASeq α :=
  let dimension := if dimension > 3 then 3 else dimension
  let dimension := if dimension < 2 then 2 else dimension
  newWithSizeDimension size dimension

/-- `CoordinateArraySequenceFactory::create_with_size_dimension_measures` (48-71). -/
def createMeasures (size : Nat) (dimension measures : Int) : CASeq α :=
  let spatial := dimension - measures
  let measures := if measures > 1 then 1 else measures
  let spatial := if spatial > 3 then 3 else spatial
  let spatial := if spatial < 2 then 2 else spatial
  newWithSizeDimensionMeasures size (spatial + measures) measures

instance : SeqOps (CASeq α) α where
  size s := pure s.size
  dim s := s.dimension
  getOrd := getOrd
  setOrd := setOrd
  copy := copy
  getCoord := getCoordinate
  create := create

end CASeq

/-! ## `PackedCoordinateSequenceDouble` -/

/-- `struct PackedCoordinateSequenceDouble` (packed_coordinate_sequence_double.rs:9-24). -/
structure PSeq (α : Type) where
  dimension : Int
  measures : Int
  coords : List α
  deriving DecidableEq

namespace PSeq
variable {α : Type} [Flt α]

omit [Flt α] in
/-- `new_f64_with_coordinates_dimension_measures` (57-74): the loop copies every number. -/
def ofOrdinates (l : List α) (dimension measures : Int) : PSeq α := ⟨dimension, measures, l⟩

/-- `new_with_size_dimension_measures` (177-183). -/
def newWithSize (size : Nat) (dimension measures : Int) : PSeq α :=
  ⟨dimension, measures, List.replicate (size * asUsize dimension) nan⟩

omit [Flt α] in
/-- The loop of the three constructors from coordinates (82-168): it indexes into an empty vector. -/
def ofCoordinatesLoop (l : List (Coord α)) (dimension measures : Int) : Res (PSeq α) := do
  let cs ← forRange 0 l.length ([] : List α) (fun i cs => do
    let offset := i * asUsize dimension
    let c ← Res.get l i
    let cs ← Res.set cs offset c.x
    let cs ← Res.set cs (offset + 1) c.y
    let cs ← if dimension ≥ 3 then do
        let v ← Res.unwrap (c.getOrdinate 2)
        Res.set cs (offset + 2) v
      else pure cs
    if dimension ≥ 4 then do
        let v ← Res.unwrap (c.getOrdinate 3)
        Res.set cs (offset + 3) v
      else pure cs)
  pure ⟨dimension, measures, cs⟩

omit [Flt α] in
/-- `new_coordinates_with_dimension` (82-104). -/
def ofCoordinatesDim (l : List (Coord α)) (dimension : Int) : Res (PSeq α) :=
  ofCoordinatesLoop l dimension (max 0 (dimension - 3))

omit [Flt α] in
/-- `new_coordinates_with_dimension_measures` (113-139). -/
def ofCoordinatesDimMeasures (l : List (Coord α)) (dimension measures : Int) : Res (PSeq α) :=
  ofCoordinatesLoop l dimension measures

omit [Flt α] in
/-- `new_with_coordinates` (146-168). -/
def ofCoordinates (l : List (Coord α)) : Res (PSeq α) := ofCoordinatesLoop l 3 0

omit [Flt α] in
/-- `size` (226-228): division by zero panics. -/
def size (s : PSeq α) : Res Nat :=
  if asUsize s.dimension = 0 then .error .arith else pure (s.coords.length / asUsize s.dimension)

/-- `get_coordinate_internal` (188-205). -/
def getCoordinate (s : PSeq α) (i : Nat) : Res (Coord α) := do
  let x ← Res.get s.coords (i * asUsize s.dimension)
  let y ← Res.get s.coords (i * asUsize s.dimension + 1)
  if s.dimension = 2 ∧ s.measures = 0 then pure (Coord.xy x y)
  else if s.dimension = 3 ∧ s.measures = 0 then do
    let z ← Res.get s.coords (i * asUsize s.dimension + 2)
    pure (Coord.xyz x y z)
  else if s.dimension = 3 ∧ s.measures = 1 then do
    let m ← Res.get s.coords (i * asUsize s.dimension + 2)
    pure (Coord.xym x y m)
  else if s.dimension = 4 then do
    let z ← Res.get s.coords (i * asUsize s.dimension + 2)
    let m ← Res.get s.coords (i * asUsize s.dimension + 3)
    pure (Coord.xyzm x y z m)
  else pure (Coord.xy x y)

omit [Flt α] in
/-- `copy` (233-241). -/
def copy (s : PSeq α) : PSeq α := ofOrdinates s.coords s.dimension s.measures

omit [Flt α] in
/-- `get_ordinate` (263-265). -/
def getOrd (s : PSeq α) (i : Nat) (k : Int) : Res α := Res.get s.coords (i * asUsize s.dimension + asUsize k)

omit [Flt α] in
/-- `set_ordinate` (270-272). -/
def setOrd (s : PSeq α) (i : Nat) (k : Int) (v : α) : Res (PSeq α) := do
  let l ← Res.set s.coords (i * asUsize s.dimension + asUsize k) v
  pure { s with coords := l }

/-- `to_coordinate_array` (277-284). -/
def toCoordinateArray (s : PSeq α) : Res (List (Coord α)) := do
  let n ← s.size
  forRange 0 n (List.replicate n Coord.default) (fun i l => do
    let c ← s.getCoordinate i
    Res.set l i c)

/-- The loop of `expand_envelope` (291-298), at most `fuel` turns. `i += dimension` cannot overflow: a vector holds fewer than 2^63
numbers, and after a wrapped negative dimension was added once the loop ends. -/
def expandLoop (s : PSeq α) : Nat → Nat → Env α → Res (Env α)
  | 0, _, _ => .error .diverge
  | fuel + 1, i, env =>
    if i < s.coords.length then do
      let env ← if i + 1 < s.coords.length then do
          let x ← Res.get s.coords i
          let y ← Res.get s.coords (i + 1)
          pure (env.expandToIncludeXY x y)
        else pure env
      expandLoop s fuel (i + asUsize s.dimension) env
    else pure env

/-- `expand_envelope` (289-300): the envelope given is copied, the copy is returned. A loop that moves on takes at most as many turns
as there are numbers. -/
def expandEnvelope (s : PSeq α) (env : Env α) : Res (Env α) := s.expandLoop (s.coords.length + 1) 0 env

/-- `PackedCoordinateSequenceFactory::create_with_size_dimension` (packed_coordinate_sequence_factory.rs:100-112). -/
def create (size : Nat) (dimension : Int) : PSeq α := newWithSize size dimension (max 0 (dimension - 3))

omit [Flt α] in
/-- `PackedCoordinateSequenceFactory::create_double_from_coordinates` (23-38). -/
def createFromCoordinates [Flt α] (l : List (Coord α)) : Res (PSeq α) :=
  match l with
  | [] => ofCoordinatesDimMeasures l 3 0
  | first :: _ => ofCoordinatesDimMeasures l (Coordinates.dimension first) (Coordinates.measures first)

instance : SeqOps (PSeq α) α where
  size := size
  dim s := s.dimension
  getOrd := getOrd
  setOrd := setOrd
  copy := copy
  getCoord := getCoordinate
  create := create

end PSeq

/-! ## `CoordinateArraySequences` and `PackedCoordinateSequences`

Line numbers: first file / second file. -/

namespace Seqs
variable {S α : Type} [SeqOps S α] [Flt α]
open SeqOps

/-- `for k in 0..dimension` over `i32` ordinates. -/
def forDim {σ : Type} (d : Int) (s : σ) (f : Int → σ → Res σ) : Res σ := forRange 0 d.toNat s (fun k s => f (k : Int) s)

omit [Flt α] in
/-- `swap` (37-46 / 37-46). -/
def swap (seq : S) (i j : Nat) : Res S :=
  if i = j then pure seq
  else forDim (dim seq) seq (fun d seq => do
    let tmp ← getOrd seq i d
    let v ← getOrd seq j d
    let seq ← setOrd seq i d v
    setOrd seq j d tmp)

omit [Flt α] in
/-- `reverse` (18-28 / 18-28). -/
def reverse (seq : S) : Res S := do
  let n ← size seq
  if n ≤ 1 then pure seq
  else
    let last := n - 1
    let mid := last / 2
    forRange 0 (mid + 1) seq (fun i seq => do
      let j ← Res.sub last i
      swap seq i j)

omit [Flt α] in
/-- `copy_coord` (81-91 / 81-91). -/
def copyCoord (src : S) (srcPos : Nat) (dest : S) (destPos : Nat) : Res S :=
  forDim (min (dim src) (dim dest)) dest (fun d dest => do
    let v ← getOrd src srcPos d
    setOrd dest destPos d v)

omit [Flt α] in
/-- `copy` (59-69 / 59-69). -/
def copy (src : S) (srcPos : Nat) (dest : S) (destPos length : Nat) : Res S :=
  forRange 0 length dest (fun i dest => copyCoord src (srcPos + i) dest (destPos + i))

/-- x and y of the first and last coordinate agree (113-116, 143-146 / 113-116, 145-148); `&&` is short-circuiting. -/
def endsAgree (seq : S) (n : Nat) : Res Bool := do
  let x0 ← getOrd seq 0 0
  let xl ← getOrd seq (n - 1) 0
  if !(x0 ==. xl) then pure false
  else do
    let y0 ← getOrd seq 0 1
    let yl ← getOrd seq (n - 1) 1
    pure (y0 ==. yl)

/-- `is_ring` (103-117 / 103-117). -/
def isRing (seq : S) : Res Bool := do
  let n ← size seq
  if n = 0 then pure true
  else if n ≤ 3 then pure false
  else endsAgree seq n

omit [Flt α] in
/-- `create_closed_ring` (154-167 / 156-169). -/
def createClosedRing (seq : S) (sz : Nat) : Res S := do
  let newseq : S := create sz (dim seq)
  let n ← size seq
  let newseq ← copy seq 0 newseq 0 n
  forRange n sz newseq (fun i newseq => copy seq 0 newseq i 1)

/-- `ensure_valid_ring` (131-152 / 131-154). -/
def ensureValidRing (seq : S) : Res S := do
  let cp := SeqOps.copy seq
  let n ← size cp
  if n = 0 then pure cp
  else if n ≤ 3 then createClosedRing cp 4
  else do
    let closed ← endsAgree cp n
    if closed then pure cp else createClosedRing seq (n + 1)

omit [Flt α] in
/-- `extend` (169-181 / 171-186). -/
def extend (seq : S) (sz : Nat) : Res S := do
  let newseq : S := create sz (dim seq)
  let n ← size seq
  let newseq ← copy seq 0 newseq 0 n
  if n > 0 then forRange n sz newseq (fun i newseq => copy seq (n - 1) newseq i 1)
  else pure newseq

/-- `is_equal` (195-217 / 200-225). -/
def isEqual (s1 s2 : S) : Res Bool := do
  let n1 ← size s1
  let n2 ← size s2
  if n1 ≠ n2 then pure false
  else do
    let d := min (dim s1) (dim s2)
    let r ← forFind 0 n1 (fun i => forFind 0 d.toNat (fun k => do
      let v1 ← getOrd s1 i (k : Int)
      let v2 ← getOrd s2 i (k : Int)
      if v1 ==. v2 then pure none
      else if isNaN v1 && isNaN v2 then pure none
      else pure (some false)))
    pure (r.getD true)

/-- `min_coordinate` (226-235 / 234-243). -/
def minCoordinate (seq : S) : Res (Option (Coord α)) := do
  let n ← size seq
  forRange 0 n none (fun i mc => do
    let t ← getCoord seq i
    match mc with
    | none => pure (some t)
    | some c => if c.compareTo t > 0 then pure (some t) else pure (some c))

/-- `min_coordinate_index_sequence_from_to` (264-279 / 272-287); the result -1 for an empty range becomes `usize::MAX`. -/
def minCoordinateIndexFromTo (seq : S) (lo hi : Nat) : Res Nat := do
  let r ← forRange lo (hi + 1) ((none : Option (Coord α)), (-1 : Int)) (fun i st => do
    let t ← getCoord seq i
    match st.1 with
    | none => pure (some t, (i : Int))
    | some c => if c.compareTo t > 0 then pure (some t, (i : Int)) else pure st)
  pure (asUsize r.2)

/-- `min_coordinate_index_sequence` (245-251 / 253-259). -/
def minCoordinateIndex (seq : S) : Res Nat := do
  let n ← size seq
  let l ← Res.sub n 1
  minCoordinateIndexFromTo seq 0 l

/-- `last` of `scroll_coordinate_index_ensure_ring` (338-341 / 349-352). -/
def scrollLast (n : Nat) (ensureRing : Bool) : Res Nat := if ensureRing then Res.sub n 1 else pure n

omit [Flt α] in
/-- `scroll_coordinate_index_ensure_ring` (324-362 / 335-373). -/
def scrollEnsureRing (seq : S) (first : Nat) (ensureRing : Bool) : Res S :=
  if first ≤ 0 then pure seq
  else do
    let cp := SeqOps.copy seq
    let n ← size seq
    let last ← scrollLast n ensureRing
    forRange 0 last seq (fun j seq => do
      let seq ← forDim (dim seq) seq (fun k seq => do
        let v ← getOrd cp ((first + j) % last) k
        setOrd seq j k v)
      if ensureRing then
        forDim (dim seq) seq (fun k seq => do
          let v ← getOrd seq 0 k
          setOrd seq last k v)
      else pure seq)

/-- `scroll_coordinate_index` (303-312 / 314-323). -/
def scrollIndex (seq : S) (first : Nat) : Res S := do
  let r ← isRing seq
  scrollEnsureRing seq first r

/-- `index_of` (373-382 / 384-393); `&&` is short-circuiting, the result is cast to `i32`. -/
def indexOf (c : Coord α) (seq : S) : Res Int := do
  let n ← size seq
  let r ← forFind 0 n (fun i => do
    let x ← getOrd seq i 0
    if c.x ==. x then do
      let y ← getOrd seq i 1
      if c.y ==. y then pure (some (i : Int)) else pure none
    else pure none)
  pure (r.getD (-1))

/-- `scroll_coordinate` (288-294 / 296-305). -/
def scrollCoordinate (seq : S) (c : Coord α) : Res S := do
  let i ← indexOf c seq
  if i ≤ 0 then pure seq else scrollIndex seq (asUsize i)

end Seqs
end Verif

/-! ## `CoordinateSequenceComparator` (coordinate_sequence_comparator.rs) -/

namespace Verif.SeqCompare
open Flt
variable {α : Type} [Flt α]

/-- `compare_f64` (31-50). -/
def compareF64 (a b : α) : Int :=
  if a <. b then -1
  else if a >. b then 1
  else if isNaN a then (if isNaN b then 0 else -1)
  else if isNaN b then 1
  else 0

/-- `compare_coordinate` (138-153). -/
def compareCoordinate (s1 s2 : CASeq α) (i : Nat) (dimension : Int) : Res Int := do
  let r ← forFind 0 dimension.toNat (fun d => do
    let o1 ← s1.getOrd i (d : Int)
    let o2 ← s2.getOrd i (d : Int)
    let c := compareF64 o1 o2
    if c ≠ 0 then pure (some c) else pure none)
  pure (r.getD 0)

/-- `default` (55-59): `i32::MAX`. -/
def defaultLimit : Int := 2 ^ 31 - 1

/-- `compare_coordinate_array_sequence` (77-126). The index is cast to `i32` and back; sizes are below 2^31. -/
def compareSeq (limit : Int) (s1 s2 : CASeq α) : Res Int := do
  let dim1 := s1.dimension
  let dim2 := s2.dimension
  let minDim := if dim2 < dim1 then dim2 else dim1
  let limited := decide (limit ≤ minDim)
  let minDim := if limited then limit else minDim
  if !limited && decide (dim1 < dim2) then pure (-1)
  else if !limited && decide (dim1 > dim2) then pure 1
  else do
    let m := min s1.size s2.size
    let r ← forFind 0 m (fun i => do
      let c ← compareCoordinate s1 s2 i minDim
      if c ≠ 0 then pure (some c) else pure none)
    match r with
    | some c => pure c
    | none => if m < s1.size then pure 1 else if m < s2.size then pure (-1) else pure 0

end Verif.SeqCompare
