import Verif.Model.Sequences
import Verif.Model.PrecisionModel
import Verif.Model.RingAlgorithms

/-! # Model of the geometry types

`src/core/geom/{point,line_string,linear_ring,polygon,multi_point,multi_line_string,multi_polygon,geometry_factory}.rs`.

A geometry is a structure with the fields of the Rust struct. `&mut self` methods return the new value next to their result.
`clone`, `to_vec` and the `copy` of a coordinate sequence are the identity on values. Type names, codes and
dimensions are in `Model/Kinds`. -/

namespace Verif
open Flt

/-! ## LineString -/

/-- `struct LineString` (line_string.rs:28-39). -/
structure LineString (α : Type) where
  points : CASeq α
  envelope : Option (Env α)
  deriving DecidableEq

namespace LineString
variable {α : Type} [Flt α]

omit [Flt α] in
/-- `new_from_coordinate_sequence` (55-60). -/
def ofSeq (points : CASeq α) : LineString α := ⟨points, none⟩

omit [Flt α] in
/-- `init` (62-64). -/
def init (l : LineString α) (points : CASeq α) : LineString α := { l with points := points }

omit [Flt α] in
/-- `get_coordinates` (66-68). -/
def getCoordinates (l : LineString α) : List (Coord α) := l.points.coordinates

/-- `get_coordinate_sequence` (70-72). -/
def getCoordinateSequence (l : LineString α) : Res (CASeq α) := CASeq.newFrom l.points

omit [Flt α] in
/-- `get_coordinate_n` (74-76). -/
def getCoordinateN (l : LineString α) (n : Nat) : Res (Coord α) := l.points.getCoordinate n

omit [Flt α] in
/-- `is_empty` (96-98). -/
def isEmpty (l : LineString α) : Bool := decide (l.points.size = 0)

omit [Flt α] in
/-- `get_num_points` (100-102). -/
def getNumPoints (l : LineString α) : Nat := l.points.size

omit [Flt α] in
/-- `get_coordinate` (78-83). -/
def getCoordinate (l : LineString α) : Res (Option (Coord α)) :=
  if l.isEmpty then pure none else do let c ← l.points.getCoordinate 0; pure (some c)

/-- `is_closed` (122-129). -/
def isClosed (l : LineString α) : Res Bool :=
  if l.isEmpty then pure false
  else do
    let a ← l.points.getCoordinate 0
    let n ← Res.sub l.getNumPoints 1
    let b ← l.points.getCoordinate n
    pure (a.equals2D b)

/-- `get_boundary_dimension` (89-94); `Dimension::FALSE` is -1. -/
def getBoundaryDimension (l : LineString α) : Res Int := do
  let c ← l.isClosed
  pure (if c then -1 else 0)

/-- `get_length` (146-148). -/
def getLength {α : Type} [FltSqrt α] (l : LineString α) : Res α := Length.ofLine l.points

/-- `reverse_internal` (177-181), through `GeometryFactory::create_line_string_coordinate_array_sequence`
(geometry_factory.rs:506-512). -/
def reverseInternal (l : LineString α) : Res (LineString α) := do
  let seq ← Seqs.reverse l.points.copy
  let s ← CASeq.newFrom seq
  pure (ofSeq s)

/-- `reverse` (168-175). -/
def reverse (l : LineString α) : Res (LineString α) := do
  let res ← l.reverseInternal
  pure (if l.envelope.isSome then { res with envelope := l.envelope.map Env.copy } else res)

/-- `is_coordinate` (190-197). -/
def isCoordinate (l : LineString α) (pt : Coord α) : Res Bool := do
  let r ← forFind 0 l.points.size (fun i => do
    let c ← l.points.getCoordinate i
    pure (if c.equals2D pt then some true else none))
  pure (r.getD false)

/-- `compute_envelope_internal` (199-206). -/
def computeEnvelope (l : LineString α) : Env α := if l.isEmpty then Env.null else l.points.expandEnvelope Env.null

/-- `equals_exact` (208-222). `Geometry::equal` (geometry.rs:1828-1831) is the same text as `Coordinates::equal`. -/
def equalsExact {α : Type} [FltSqrt α] (l other : LineString α) (tolerance : α) : Res Bool :=
  if l.points.size ≠ other.points.size then pure false
  else do
    let r ← forFind 0 l.points.size (fun i => do
      let a ← l.points.getCoordinate i
      let b ← other.points.getCoordinate i
      pure (if !(Coordinates.equal a b tolerance) then some false else none))
    pure (r.getD true)

omit [Flt α] in
/-- `copy` (254-256). -/
def copy (l : LineString α) : LineString α := ofSeq l.points.copy

/-- `normalize` (263-285). -/
def normalize (l : LineString α) : Res (LineString α) := do
  let r ← forFind 0 (l.points.size / 2) (fun i => do
    let last ← Res.sub l.points.size 1
    let j ← Res.sub last i
    let a ← l.points.getCoordinate i
    let b ← l.points.getCoordinate j
    if !(a.equals2D b) then
      if a.compareTo b > 0 then do
        let cp ← Seqs.reverse l.points.copy
        pure (some { l with points := cp })
      else pure (some l)
    else pure none)
  pure (r.getD l)

/-- `compare_to_with_comparator` (311-317); `limit` is the dimension limit of the comparator. -/
def compareToWith (limit : Int) (l line : LineString α) : Res Int := SeqCompare.compareSeq limit l.points line.points

/-- `compare_to` (287-309): `i` and `j` always agree. -/
def compareTo (l line : LineString α) : Res Int := do
  let n := min l.points.size line.points.size
  let r ← forFind 0 n (fun i => do
    let a ← l.points.getCoordinate i
    let b ← line.points.getCoordinate i
    pure (if a.compareTo b ≠ 0 then some (a.compareTo b) else none))
  match r with
  | some v => pure v
  | none => pure (if n < l.points.size then 1 else if n < line.points.size then -1 else 0)

end LineString

/-! ## LinearRing -/

/-- `struct LinearRing` (linear_ring.rs:31-36). -/
structure LinearRing (α : Type) where
  points : CASeq α
  precisionModel : Option (PM α)
  envelope : Option (Env α)
  deriving DecidableEq

namespace LinearRing
variable {α : Type} [Flt α]

/-- `new_with_coordinate_array_sequence` (61-67). -/
def ofSeq (points : CASeq α) : Res (LinearRing α) := do
  let s ← CASeq.newFrom points
  pure ⟨s, none, none⟩

/-- `new_with_coordinates` (45-49). -/
def ofCoordinates (l : List (Coord α)) : Res (LinearRing α) := ofSeq (CASeq.ofCoordinates l)

omit [Flt α] in
/-- `is_empty` (133-135). -/
def isEmpty (r : LinearRing α) : Bool := decide (r.points.size = 0)

omit [Flt α] in
/-- `get_coordinates` (76-78). -/
def getCoordinates (r : LinearRing α) : List (Coord α) := r.points.coordinates

omit [Flt α] in
/-- `get_coordinate_array_sequence` (80-82). -/
def getSeq (r : LinearRing α) : CASeq α := r.points.copy

omit [Flt α] in
/-- `get_num_points` (157-159). -/
def getNumPoints (r : LinearRing α) : Nat := r.points.size

omit [Flt α] in
/-- `get_coordinate` (69-74). -/
def getCoordinate (r : LinearRing α) : Res (Option (Coord α)) :=
  if r.isEmpty then pure none else do let c ← r.points.getCoordinate 0; pure (some c)

/-- `compute_envelope_internal` (105-112). -/
def computeEnvelope (r : LinearRing α) : Env α := if r.isEmpty then Env.null else r.points.expandEnvelope Env.null

/-- `get_envelope_internal` (98-103): the result and the ring with its cache filled. -/
def getEnvelope (r : LinearRing α) : Env α × LinearRing α :=
  match r.envelope with
  | none => let e := r.computeEnvelope; (e.copy, { r with envelope := some e })
  | some e => (e.copy, r)

/-- `is_closed` (143-151). -/
def isClosed (r : LinearRing α) : Res Bool :=
  if r.isEmpty then pure true
  else do
    let a ← r.points.getCoordinate 0
    let n ← Res.sub r.getNumPoints 1
    let b ← r.points.getCoordinate n
    pure (a.equals2D b)

/-- `get_length` (119-121). -/
def getLength {α : Type} [FltSqrt α] (r : LinearRing α) : Res α := Length.ofLine r.points

/-- `copy` (169-175). -/
def copy (r : LinearRing α) : Res (LinearRing α) := ofSeq r.points.copy

/-- `reverse_internal` (186-190). -/
def reverseInternal (r : LinearRing α) : Res (LinearRing α) := do
  let seq ← Seqs.reverse r.points.copy
  ofSeq seq

/-- `reverse` (177-184). -/
def reverse (r : LinearRing α) : Res (LinearRing α) := do
  let res ← r.reverseInternal
  pure (if r.envelope.isSome then { res with envelope := r.envelope.map Env.copy } else res)

/-- `equals_exact` (192-206). -/
def equalsExact {α : Type} [FltSqrt α] (r other : LinearRing α) (tolerance : α) : Res Bool :=
  if r.points.size ≠ other.points.size then pure false
  else do
    let res ← forFind 0 r.points.size (fun i => do
      let a ← r.points.getCoordinate i
      let b ← other.points.getCoordinate i
      pure (if !(Coordinates.equal a b tolerance) then some false else none))
    pure (res.getD true)

/-- `compare_to_same_class` (208-230): `i` and `j` always agree. -/
def compareTo (l line : LinearRing α) : Res Int := do
  let n := min l.points.size line.points.size
  let r ← forFind 0 n (fun i => do
    let a ← l.points.getCoordinate i
    let b ← line.points.getCoordinate i
    pure (if a.compareTo b ≠ 0 then some (a.compareTo b) else none))
  match r with
  | some v => pure v
  | none => pure (if n < l.points.size then 1 else if n < line.points.size then -1 else 0)

/-- `compare_to_same_class_with_comparator` (232-238); `limit` is the dimension limit of the comparator. -/
def compareToWith (limit : Int) (r other : LinearRing α) : Res Int := SeqCompare.compareSeq limit r.points other.points

end LinearRing

/-! ## Point -/

/-- `struct Point` (point.rs:15-27). -/
structure Point (α : Type) where
  coordinates : CASeq α
  envelope : Option (Env α)
  precisionModel : Option (PM α)
  deriving DecidableEq

namespace Point
variable {α : Type} [Flt α]

/-- `default` (30-37). -/
def default : Point α := ⟨CASeq.ofCoordinates [], none, none⟩

/-- `new_with_coordinate` (50-60). -/
def ofCoordinate (c : Coord α) (pm : Option (PM α)) : Point α := ⟨CASeq.ofCoordinates [Coord.fromCoordinate c], none, pm⟩

omit [Flt α] in
/-- `new_with_coordinate_seq` (66-74). -/
def ofSeq (s : CASeq α) : Res (Point α) := do
  Res.assert (decide (s.size ≤ 1))
  pure ⟨s.copy, none, none⟩

omit [Flt α] in
/-- `is_empty` (92-94). -/
def isEmpty (p : Point α) : Bool := decide (p.coordinates.size = 0)

omit [Flt α] in
/-- `get_coordinate` (122-128). -/
def getCoordinate (p : Point α) : Res (Option (Coord α)) :=
  if p.coordinates.size ≠ 0 then do let c ← p.coordinates.getCoordinate 0; pure (some c) else pure none

omit [Flt α] in
/-- `get_coordinates` (76-82). -/
def getCoordinates (p : Point α) : Res (List (Coord α)) :=
  if p.isEmpty then pure []
  else do
    let c ← p.getCoordinate
    let c ← Res.unwrap c
    pure [c]

omit [Flt α] in
/-- `get_num_points` (84-90). -/
def getNumPoints (p : Point α) : Nat := if p.isEmpty then 0 else 1

omit [Flt α] in
/-- `get_x` (108-113), `get_y` (115-120). -/
def getX (p : Point α) : Res (Option α) := do
  let c ← p.getCoordinate
  pure (c.map (·.x))
omit [Flt α] in
/-- `get_y` (115-120). -/
def getY (p : Point α) : Res (Option α) := do
  let c ← p.getCoordinate
  pure (c.map (·.y))

/-- `compute_envelope_internal` (167-175). -/
def computeEnvelope (p : Point α) : Res (Env α) :=
  if p.isEmpty then pure Env.null
  else do
    let x ← p.coordinates.getX 0
    let y ← p.coordinates.getY 0
    pure (Env.null.expandToIncludeXY x y)

/-- `get_envelope_internal` (160-165). -/
def getEnvelope (p : Point α) : Res (Env α × Point α) :=
  match p.envelope with
  | none => do
    let e ← p.computeEnvelope
    pure (e.copy, { p with envelope := some e })
  | some e => pure (e.copy, p)

/-- `equals_exact` (177-199). -/
def equalsExact {α : Type} [FltSqrt α] (p other : Point α) (tolerance : α) : Res Bool :=
  if p.isEmpty && other.isEmpty then pure true
  else if p.isEmpty != other.isEmpty then pure false
  else do
    let c ← p.getCoordinate
    let o ← other.getCoordinate
    if c.isNone && o.isNone then pure true
    else if c.isSome && o.isNone then pure false
    else if c.isNone && o.isSome then pure false
    else do
      let o ← Res.unwrap o
      let c ← Res.unwrap c
      pure (Coordinates.equal o c tolerance)

omit [Flt α] in
/-- `copy` (239-241). -/
def copy (p : Point α) : Res (Point α) := ofSeq p.coordinates.copy

omit [Flt α] in
/-- `reverse` (243-254). -/
def reverse (p : Point α) : Res (Point α) := do
  let res ← ofSeq p.coordinates.copy
  pure (if p.envelope.isSome then { res with envelope := p.envelope.map Env.copy } else res)

/-- `compare_to_same_class` (256-258); `limit` is the dimension limit of the comparator. -/
def compareTo (limit : Int) (p other : Point α) : Res Int := SeqCompare.compareSeq limit p.coordinates other.coordinates

omit [Flt α] in
/-- `get_coordinate_sequence` (264-266). -/
def getCoordinateSequence (p : Point α) : CASeq α := p.coordinates.copy

end Point

/-! ## Polygon -/

/-- `struct Polygon` (polygon.rs:36-54). -/
structure Polygon (α : Type) where
  shell : LinearRing α
  holes : List (LinearRing α)
  precisionModel : Option (PM α)
  envelope : Option (Env α)
  deriving DecidableEq

namespace Polygon
variable {α : Type} [Flt α]

/-- `new_with_linear_ring_vec_precision_model` (98-109) and, with no precision model, `new_with_linear_ring_vec` (122-129). -/
def ofRings (shell : LinearRing α) (holes : List (LinearRing α)) (pm : Option (PM α)) : Res (Polygon α) := do
  let s ← shell.copy
  pure ⟨s, holes, pm, none⟩

/-- `new_with_linear_ring_precision_model`, `new_with_linear_ring` (69-80). -/
def ofShell (shell : LinearRing α) (pm : Option (PM α)) : Res (Polygon α) := ofRings shell [] pm

/-- `get_coordinate` (131-133). -/
def getCoordinate (p : Polygon α) : Res (Option (Coord α)) := do
  let s ← p.shell.copy
  s.getCoordinate

omit [Flt α] in
/-- `is_empty` (172-174). -/
def isEmpty (p : Polygon α) : Bool := p.shell.isEmpty

omit [Flt α] in
/-- `get_num_points` (156-162). -/
def getNumPoints (p : Polygon α) : Res Nat :=
  forRange 0 p.holes.length p.shell.getNumPoints (fun i n => do
    let h ← Res.get p.holes i
    pure (n + h.getNumPoints))

/-- Writing a list of coordinates from position `k` on (the inner loops of `get_coordinates`): `k` is the next index, one more
than the counter of the code. The counter is an `i32`, its overflow is not modelled. -/
def writeAll (cs : List (Coord α)) (k : Nat) (src : List (Coord α)) : Res (List (Coord α) × Nat) :=
  forRange 0 src.length (cs, k) (fun j st => do
    let c ← Res.get src j
    let l ← Res.set st.1 st.2 c
    pure (l, st.2 + 1))

/-- `get_coordinates` (135-154). -/
def getCoordinates (p : Polygon α) : Res (List (Coord α)) :=
  if p.isEmpty then pure []
  else do
    let n ← p.getNumPoints
    let st ← writeAll (List.replicate n Coord.default) 0 p.shell.getCoordinates
    let st ← forRange 0 p.holes.length st (fun i st => do
      let h ← Res.get p.holes i
      writeAll st.1 st.2 h.getCoordinates)
    pure st.1

/-- `get_exterior_ring` (216-218). -/
def getExteriorRing (p : Polygon α) : Res (LinearRing α) := p.shell.copy

omit [Flt α] in
/-- `get_num_interior_ring` (220-222). -/
def getNumInteriorRing (p : Polygon α) : Nat := p.holes.length

/-- `get_interior_ring_n` (224-226). -/
def getInteriorRing (p : Polygon α) (n : Nat) : Res (LinearRing α) := do
  let h ← Res.get p.holes n
  h.copy

/-- `copy` (338-349). -/
def copy (p : Polygon α) : Res (Polygon α) := do
  let s ← p.shell.copy
  let hs ← forRange 0 p.holes.length [] (fun i hs => do
    let h ← Res.get p.holes i
    let c ← h.copy
    pure (hs ++ [c]))
  ofRings s hs none

/-- `compute_envelope_internal` (283-285): fills the cache of the shell. -/
def computeEnvelope (p : Polygon α) : Env α × Polygon α :=
  let r := p.shell.getEnvelope
  (r.1, { p with shell := r.2 })

/-- `get_envelope_internal` (496-501). -/
def getEnvelope (p : Polygon α) : Env α × Polygon α :=
  match p.envelope with
  | none => let r := p.computeEnvelope; (r.1.copy, { r.2 with envelope := some r.1 })
  | some e => (e.copy, p)

/-- `is_rectangle` (176-214). -/
def isRectangle (p : Polygon α) : Res Bool :=
  if p.getNumInteriorRing ≠ 0 then pure false
  else if p.shell.getNumPoints ≠ 5 then pure false
  else do
    let seq := p.shell.getSeq
    let cp ← p.copy
    let env := cp.getEnvelope.1
    let r ← forFind 0 5 (fun i => do
      let x ← seq.getX i
      if !((x ==. env.minx) || (x ==. env.maxx)) then pure (some false)
      else do
        let y ← seq.getY i
        if !((y ==. env.miny) || (y ==. env.maxy)) then pure (some false) else pure none)
    match r with
    | some v => pure v
    | none => do
      let x0 ← seq.getX 0
      let y0 ← seq.getY 0
      let st ← forRange 1 5 (true, x0, y0) (fun i (st : Bool × α × α) => do
        if !st.1 then pure st
        else do
          let x ← seq.getX i
          let y ← seq.getY i
          let xc := !(x ==. st.2.1)
          let yc := !(y ==. st.2.2)
          pure (!(xc == yc), x, y))
      pure st.1

/-- `get_area` (237-245). -/
def getArea (p : Polygon α) : Res α := do
  let a ← Area.ofRingSeq p.shell.getSeq
  forRange 0 p.holes.length (lit 0 +. a) (fun i area => do
    let h ← Res.get p.holes i
    let a ← Area.ofRingSeq h.getSeq
    pure (area -. a))

/-- `get_length` (252-259). -/
def getLength {α : Type} [FltSqrt α] (p : Polygon α) : Res α := do
  let l ← p.shell.getLength
  forRange 0 p.holes.length (lit 0 +. l) (fun i len => do
    let h ← Res.get p.holes i
    let l ← h.getLength
    pure (len +. l))

/-- `equals_exact` (287-302). -/
def equalsExact {α : Type} [FltSqrt α] (p other : Polygon α) (tolerance : α) : Res Bool := do
  let s ← p.shell.copy
  let o ← other.shell.copy
  let e ← s.equalsExact o tolerance
  if !e then pure false
  else if p.holes.length ≠ other.holes.length then pure false
  else do
    let r ← forFind 0 p.holes.length (fun i => do
      let a ← Res.get p.holes i
      let b ← Res.get other.holes i
      let e ← a.equalsExact b tolerance
      pure (if !e then some false else none))
    pure (r.getD true)

/-- The common text of `compare_to` (364-391) and `compare_to_with_comparator` (393-424); `cmp` compares two rings. -/
def compareBy (cmp : LinearRing α → LinearRing α → Res Int) (p poly : Polygon α) : Res Int := do
  let s ← p.shell.copy
  let o ← poly.shell.copy
  let c ← cmp s o
  if c ≠ 0 then pure c
  else do
    let n := min p.getNumInteriorRing poly.getNumInteriorRing
    let r ← forFind 0 n (fun i => do
      let a ← p.getInteriorRing i
      let b ← poly.getInteriorRing i
      let c ← cmp a b
      pure (if c ≠ 0 then some c else none))
    match r with
    | some v => pure v
    | none => pure (if n < p.getNumInteriorRing then 1 else if n < poly.getNumInteriorRing then -1 else 0)

/-- `compare_to` (364-391). -/
def compareTo (p poly : Polygon α) : Res Int := compareBy LinearRing.compareTo p poly

/-- `compare_to_with_comparator` (393-424); `limit` is the dimension limit of the comparator. -/
def compareToWith (limit : Int) (p poly : Polygon α) : Res Int := compareBy (LinearRing.compareToWith limit) p poly

/-- `normalize` (436-455): it works on a copy of the sequence and returns nothing; what is left is whether it panics. -/
def normalizeRing (ring : LinearRing α) (clockwise : Bool) : Res Unit :=
  if ring.isEmpty then pure ()
  else do
    let seq := ring.getSeq
    let hi ← Res.sub seq.size 2
    let m ← Seqs.minCoordinateIndexFromTo seq 0 hi
    let seq ← Seqs.scrollEnsureRing seq m true
    let ccw ← Orientation.isCCWSeq seq
    if ccw = clockwise then do
      let _ ← Seqs.reverse seq
      pure ()
    else pure ()

/-- `normalized` (430-434). -/
def normalized (ring : LinearRing α) (clockwise : Bool) : Res (LinearRing α) := do
  let res ← ring.copy
  let _ ← normalizeRing res clockwise
  pure res

/-- `self_normalize` (356-362). -/
def selfNormalize (p : Polygon α) : Res (Polygon α) := do
  let s ← normalized p.shell true
  forRange 0 p.holes.length { p with shell := s } (fun i q => do
    let h ← Res.get q.holes i
    let h' ← normalized h false
    let hs ← Res.set q.holes i h'
    pure { q with holes := hs })

/-- `reverse_internal` (472-480): it assigns to places of an empty vector. -/
def reverseInternal (p : Polygon α) : Res (Polygon α) := do
  let s ← p.getExteriorRing
  let s ← s.reverse
  let hs ← forRange 0 p.getNumInteriorRing ([] : List (LinearRing α)) (fun i hs => do
    let h ← p.getInteriorRing i
    let h ← h.reverse
    Res.set hs i h)
  ofRings s hs none

/-- `reverse` (463-470). -/
def reverse (p : Polygon α) : Res (Polygon α) := do
  let res ← p.reverseInternal
  pure (if p.envelope.isSome then { res with envelope := p.envelope.map Env.copy } else res)

end Polygon

/-! ## MultiPoint -/

/-- `struct MultiPoint` (multi_point.rs:14-18). -/
structure MultiPoint (α : Type) where
  points : List (Point α)
  precisionModel : Option (PM α)
  envelope : Option (Env α)
  deriving DecidableEq

namespace MultiPoint
variable {α : Type} [Flt α]

omit [Flt α] in
/-- `new_with_points_precision_model`, `new_with_points` (33-55). -/
def ofPoints (points : List (Point α)) (pm : Option (PM α)) : MultiPoint α := ⟨points, pm, none⟩

/-- `GeometryFactory::create_multi_point_from_coordinate_array_sequence` (geometry_factory.rs:319-333). -/
def ofSeq (cs : CASeq α) : Res (MultiPoint α) := do
  let ps ← forRange 0 cs.size (List.replicate cs.size Point.default) (fun i ps => do
    let pt ← Seqs.copy cs i (CASeq.createMeasures 1 cs.dimension cs.measures) 0 1
    let p ← Point.ofSeq pt
    Res.set ps i p)
  pure (ofPoints ps none)

omit [Flt α] in
/-- `is_empty` (57-59). -/
def isEmpty (m : MultiPoint α) : Bool := decide (m.points.length = 0)

omit [Flt α] in
/-- `get_num_points` (61-63). -/
def getNumPoints (m : MultiPoint α) : Nat := m.points.length

/-- The loop of `compute_envelope_internal` (119-125): the cache of every point is filled. -/
def computeEnvelope (m : MultiPoint α) : Res (Env α × MultiPoint α) :=
  forRange 0 m.points.length (Env.null, m) (fun i st => do
    let p ← Res.get st.2.points i
    let r ← p.getEnvelope
    let ps ← Res.set st.2.points i r.2
    pure (st.1.expandToIncludeEnv r.1, { st.2 with points := ps }))

/-- `get_envelope_internal` (112-117). -/
def getEnvelope (m : MultiPoint α) : Res (Env α × MultiPoint α) :=
  match m.envelope with
  | none => do
    let r ← m.computeEnvelope
    pure (r.1.copy, { r.2 with envelope := some r.1 })
  | some e => pure (e.copy, m)

omit [Flt α] in
/-- `copy` (263-269) and `reverse_internal` (136-142), the same text: they assign to places of an empty vector. -/
def copy (m : MultiPoint α) : Res (MultiPoint α) := do
  let ps ← forRange 0 m.points.length ([] : List (Point α)) (fun i ps => do
    let p ← Res.get m.points i
    let c ← p.copy
    Res.set ps i c)
  pure (ofPoints ps none)

omit [Flt α] in
/-- `reverse` (127-134). -/
def reverse (m : MultiPoint α) : Res (MultiPoint α) := do
  let res ← m.copy
  pure (if m.envelope.isSome then { res with envelope := m.envelope.map Env.copy } else res)

/-- `equals_exact` (211-221). -/
def equalsExact {α : Type} [FltSqrt α] (m other : MultiPoint α) (tolerance : α) : Res Bool :=
  if m.points.length ≠ other.points.length then pure false
  else do
    let r ← forFind 0 m.points.length (fun i => do
      let a ← Res.get m.points i
      let b ← Res.get other.points i
      let e ← a.equalsExact b tolerance
      pure (if !e then some false else none))
    pure (r.getD true)

omit [Flt α] in
/-- `get_point_at_index` (223-228): `index - 1` underflows at 0. -/
def getPointAtIndex (m : MultiPoint α) (index : Nat) : Res (Option (Point α)) := do
  if m.points.length = 0 then pure none
  else do
    let i ← Res.sub index 1
    if m.points.length < i then pure none
    else do
      let p ← Res.get m.points index
      let c ← p.copy
      pure (some c)

omit [Flt α] in
/-- `get_coordinate` (237-239). -/
def getCoordinate (m : MultiPoint α) (n : Nat) : Res (Option (Coord α)) := do
  let p ← Res.get m.points n
  p.getCoordinate

/-- `get_coordinates` (250-261). -/
def getCoordinates (m : MultiPoint α) : Res (List (Coord α)) := do
  let st ← forRange 0 m.points.length (List.replicate m.getNumPoints (Coord.default : Coord α), 0) (fun i st => do
    let p ← Res.get m.points i
    let cs ← p.getCoordinates
    Polygon.writeAll st.1 st.2 cs)
  pure st.1

end MultiPoint

/-! ## MultiLineString -/

/-- `struct MultiLineString` (multi_line_string.rs:14-18). -/
structure MultiLineString (α : Type) where
  lineStrings : List (LineString α)
  precisionModel : Option (PM α)
  envelope : Option (Env α)
  deriving DecidableEq

namespace MultiLineString
variable {α : Type} [Flt α]

omit [Flt α] in
/-- `new_with_line_strings_precision_model`, `new_with_line_strings` (34-58). -/
def ofLines (ls : List (LineString α)) (pm : Option (PM α)) : MultiLineString α := ⟨ls, pm, none⟩

omit [Flt α] in
/-- `is_empty` (79-86). -/
def isEmpty (m : MultiLineString α) : Res Bool := do
  let r ← forFind 0 m.lineStrings.length (fun i => do
    let l ← Res.get m.lineStrings i
    pure (if !l.isEmpty then some false else none))
  pure (r.getD true)

/-- `is_closed` (88-98). -/
def isClosed (m : MultiLineString α) : Res Bool := do
  let e ← m.isEmpty
  if e then pure false
  else do
    let r ← forFind 0 m.lineStrings.length (fun i => do
      let l ← Res.get m.lineStrings i
      let c ← l.isClosed
      pure (if !c then some false else none))
    pure (r.getD true)

/-- `get_boundary_dimension` (68-73). -/
def getBoundaryDimension (m : MultiLineString α) : Res Int := do
  let c ← m.isClosed
  pure (if c then -1 else 0)

/-- `reverse_internal` (131-137): the loop runs over the (empty) vector being built. -/
def reverseInternal (m : MultiLineString α) : Res (MultiLineString α) := do
  let ls ← forRange 0 ([] : List (LineString α)).length ([] : List (LineString α)) (fun i ls => do
    let l ← Res.get m.lineStrings i
    let r ← l.reverse
    Res.set ls i r)
  pure (ofLines ls none)

/-- `reverse` (122-129). -/
def reverse (m : MultiLineString α) : Res (MultiLineString α) := do
  let res ← m.reverseInternal
  pure (if m.envelope.isSome then { res with envelope := m.envelope.map Env.copy } else res)

omit [Flt α] in
/-- `copy_internal` (139-145): it assigns to places of an empty vector. -/
def copy (m : MultiLineString α) : Res (MultiLineString α) := do
  let ls ← forRange 0 m.lineStrings.length ([] : List (LineString α)) (fun i ls => do
    let l ← Res.get m.lineStrings i
    Res.set ls i l.copy)
  pure (ofLines ls none)

/-- `equals_exact` (147-157). -/
def equalsExact {α : Type} [FltSqrt α] (m other : MultiLineString α) (tolerance : α) : Res Bool :=
  if m.lineStrings.length ≠ other.lineStrings.length then pure false
  else do
    let r ← forFind 0 m.lineStrings.length (fun i => do
      let a ← Res.get m.lineStrings i
      let b ← Res.get other.lineStrings i
      let e ← a.equalsExact b tolerance
      pure (if !e then some false else none))
    pure (r.getD true)

end MultiLineString

/-! ## MultiPolygon -/

/-- `struct MultiPolygon` (multi_polygon.rs:22-27). -/
structure MultiPolygon (α : Type) where
  polygons : List (Polygon α)
  precisionModel : Option (PM α)
  envelope : Option (Env α)
  deriving DecidableEq

namespace MultiPolygon
variable {α : Type} [Flt α]

omit [Flt α] in
/-- `new_with_polygons_precision_model`, `new_with_polygons` (45-72). -/
def ofPolygons (ps : List (Polygon α)) (pm : Option (PM α)) : MultiPolygon α := ⟨ps, pm, none⟩

/-- `get_area` (124-130). -/
def getArea (m : MultiPolygon α) : Res α :=
  forRange 0 m.polygons.length (lit 0) (fun i area => do
    let p ← Res.get m.polygons i
    let a ← p.getArea
    pure (area +. a))

/-- `get_polygon_at_index` (136-138). -/
def getPolygon (m : MultiPolygon α) (n : Nat) : Res (Polygon α) := do
  let p ← Res.get m.polygons n
  p.copy

omit [Flt α] in
/-- `is_empty` (168-175). -/
def isEmpty (m : MultiPolygon α) : Res Bool := do
  let r ← forFind 0 m.polygons.length (fun i => do
    let p ← Res.get m.polygons i
    pure (if !p.isEmpty then some false else none))
  pure (r.getD true)

/-- `equals_exact` (177-187). -/
def equalsExact {α : Type} [FltSqrt α] (m other : MultiPolygon α) (tolerance : α) : Res Bool :=
  if m.polygons.length ≠ other.polygons.length then pure false
  else do
    let r ← forFind 0 m.polygons.length (fun i => do
      let a ← Res.get m.polygons i
      let b ← Res.get other.polygons i
      let e ← a.equalsExact b tolerance
      pure (if !e then some false else none))
    pure (r.getD true)

/-- `reverse` (196-211): it assigns to places of an empty vector. -/
def reverse (m : MultiPolygon α) : Res (MultiPolygon α) := do
  let ps ← forRange 0 m.polygons.length ([] : List (Polygon α)) (fun i ps => do
    let p ← Res.get m.polygons i
    let r ← p.reverse
    Res.set ps i r)
  let res := ofPolygons ps none
  pure (if m.envelope.isSome then { res with envelope := m.envelope.map Env.copy } else res)

/-- `copy` (213-223): it assigns to places of an empty vector. -/
def copy (m : MultiPolygon α) : Res (MultiPolygon α) := do
  let ps ← forRange 0 m.polygons.length ([] : List (Polygon α)) (fun i ps => do
    let p ← Res.get m.polygons i
    let c ← p.copy
    Res.set ps i c)
  pure (ofPolygons ps none)

end MultiPolygon
end Verif
