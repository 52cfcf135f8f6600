import Verif.Model.Orientation
import Verif.Model.Sequences
import Verif.Model.IntersectionMatrix

/-! # Model of `ray_crossing_counter.rs`, `point_location.rs`, `area.rs`, `length.rs` and the ring tests of `orientation.rs`
(all in `src/core/algorithm/`) -/

namespace Verif
open Flt

/-- `struct RayCrossingCounter` (ray_crossing_counter.rs:39-44). The count is an unbounded integer (`i32` in Rust). -/
structure RayCounter (α : Type) where
  p : Coord α
  count : Int
  onSegment : Bool

namespace RayCounter
variable {α : Type} [Flt α]

omit [Flt α] in
/-- `new_with_coordinate` (47-53). -/
def new (p : Coord α) : RayCounter α := ⟨p, 0, false⟩

/-- `count_segment` (147-199). -/
def countSegment (self : RayCounter α) (p1 p2 : Coord α) : RayCounter α :=
  if (p1.x <. self.p.x) && (p2.x <. self.p.x) then self
  else if (self.p.x ==. p2.x) && (self.p.y ==. p2.y) then { self with onSegment := true }
  else if (p1.y ==. self.p.y) && (p2.y ==. self.p.y) then
    let mm := if p1.x >. p2.x then (p2.x, p1.x) else (p1.x, p2.x)
    if (self.p.x ≥. mm.1) && (self.p.x ≤. mm.2) then { self with onSegment := true } else self
  else if ((p1.y >. self.p.y) && (p2.y ≤. self.p.y)) || ((p2.y >. self.p.y) && (p1.y ≤. self.p.y)) then
    let orient := Orientation.index p1 p2 self.p
    if orient = Orientation.COLLINEAR then { self with onSegment := true }
    else
      let orient := if p2.y <. p1.y then -orient else orient
      if orient = Orientation.LEFT then { self with count := self.count + 1 } else self
  else self

omit [Flt α] in
/-- `get_location` (233-244); Rust's `%` truncates. -/
def getLocation (self : RayCounter α) : Int :=
  if self.onSegment then Location.BOUNDARY
  else if self.count.tmod 2 = 1 then Location.INTERIOR
  else Location.EXTERIOR

omit [Flt α] in
/-- `is_point_in_polygon` (256-258). -/
def isPointInPolygon (self : RayCounter α) : Bool := decide (self.getLocation ≠ Location.EXTERIOR)

/-- One round of the loops below: `return counter.get_location()` once the point is on a segment is modelled by leaving the
counter unchanged from then on. -/
def step (counter : RayCounter α) (p1 p2 : Coord α) : RayCounter α :=
  if counter.onSegment then counter else counter.countSegment p1 p2

/-- `locate_point_in_ring_vec` (63-75). -/
def locateVec (p : Coord α) (ring : List (Coord α)) : Res Int := do
  let c ← forRange 1 ring.length (new p) (fun i counter => do
    let p1 ← Res.get ring i
    let p2 ← Res.get ring (i - 1)
    pure (counter.step p1 p2))
  pure c.getLocation

/-- `locate_point_in_ring_coordinate_array_sequence` and `locate_point_in_ring_packed_coordinate_sequence` (86-107, 118-139),
the same text over the two sequence types. -/
def locateSeq {S : Type} [SeqOps S α] (p : Coord α) (ring : S) : Res Int := do
  let n ← SeqOps.size ring
  let c ← forRange 1 n (new p) (fun i counter => do
    let x1 ← SeqOps.getOrd ring i 0
    let y1 ← SeqOps.getOrd ring i 1
    let x2 ← SeqOps.getOrd ring (i - 1) 0
    let y2 ← SeqOps.getOrd ring (i - 1) 1
    pure (counter.step { Coord.default with x := x1, y := y1 } { Coord.default with x := x2, y := y2 }))
  pure c.getLocation

end RayCounter

namespace PointLocation
variable {α : Type} [Flt α]

/-- `is_on_segment` (point_location.rs:27-38). -/
def isOnSegment (p p0 p1 : Coord α) : Bool :=
  if !Env.intersects3 p0 p1 p then false
  else if p.equals2D p0 then true
  else decide (Orientation.COLLINEAR = Orientation.index p0 p1 p)

/-- `is_on_line_coordinates` (49-58). -/
def isOnLine (p : Coord α) (line : List (Coord α)) : Res Bool := do
  let r ← forFind 1 line.length (fun i => do
    let p0 ← Res.get line (i - 1)
    let p1 ← Res.get line i
    if isOnSegment p p0 p1 then pure (some true) else pure none)
  pure (r.getD false)

/-- `is_on_line_coordinate_array_sequence` (69-84). The buffers `p0`, `p1` are refilled by `set_coordinate` in each round; only
their x and y are read. -/
def isOnLineSeq (p : Coord α) (line : CASeq α) : Res Bool := do
  let r ← forFind 1 line.size (fun i => do
    let c0 ← Res.get line.coordinates (i - 1)
    let c1 ← Res.get line.coordinates i
    if isOnSegment p (Coord.default.setCoordinate c0) (Coord.default.setCoordinate c1) then pure (some true) else pure none)
  pure (r.getD false)

/-- `locate_in_ring` (121-123). -/
def locateInRing (p : Coord α) (ring : List (Coord α)) : Res Int := RayCounter.locateVec p ring

/-- `is_in_ring` (103-105). -/
def isInRing (p : Coord α) (ring : List (Coord α)) : Res Bool := do
  let l ← locateInRing p ring
  pure (decide (l ≠ Location.EXTERIOR))

end PointLocation

namespace Area
variable {α : Type} [Flt α]

/-- `of_ring_signed_vec` (area.rs:44-59). -/
def ofRingSigned (ring : List (Coord α)) : Res α :=
  if ring.length < 3 then pure (lit 0)
  else do
    let c0 ← Res.get ring 0
    let sum ← forRange 1 (ring.length - 1) (lit 0) (fun i sum => do
      let ci ← Res.get ring i
      let cn ← Res.get ring (i + 1)
      let cp ← Res.get ring (i - 1)
      pure (sum +. (ci.x -. c0.x) *. (cp.y -. cn.y)))
    pure (sum /. lit 2)

/-- `of_ring_vec` (21-23). -/
def ofRing (ring : List (Coord α)) : Res α := do
  let a ← ofRingSigned ring
  pure (Flt.abs a)

/-- The state of the loop of `of_ring_signed_coordinate_sequence`: the three buffers and the sum. -/
structure St (α : Type) where
  p0 : Coord α
  p1 : Coord α
  p2 : Coord α
  sum : α

/-- `of_ring_signed_coordinate_sequence` (73-98). -/
def ofRingSignedSeq (ring : CASeq α) : Res α :=
  if ring.size < 3 then pure (lit 0)
  else do
    let d : Coord α := Coordinates.createDimMeasures ring.dimension ring.measures
    let c0 ← ring.getCoordinate 0
    let c1 ← ring.getCoordinate 1
    let p1 := d.setCoordinate c0
    let p2 := d.setCoordinate c1
    let x0 := p1.x
    let p2 := { p2 with x := p2.x -. x0 }
    let st ← forRange 1 (ring.size - 1) (⟨d, p1, p2, lit 0⟩ : St α) (fun i st => do
      let p0 := { st.p0 with y := st.p1.y }
      let p1 := { st.p1 with x := st.p2.x, y := st.p2.y }
      let c ← ring.getCoordinate (i + 1)
      let p2 := st.p2.setCoordinate c
      let p2 := { p2 with x := p2.x -. x0 }
      pure ⟨p0, p1, p2, st.sum +. p1.x *. (p0.y -. p2.y)⟩)
    pure (st.sum /. lit 2)

/-- `of_ring_coordinate_sequence` (31-33). -/
def ofRingSeq (ring : CASeq α) : Res α := do
  let a ← ofRingSignedSeq ring
  pure (Flt.abs a)

end Area

namespace Length
variable {α : Type} [FltSqrt α]

/-- `of_line` (length.rs:19-46). The state is `(len, x0, y0)`. -/
def ofLine (pts : CASeq α) : Res α :=
  if pts.size ≤ 1 then pure (lit 0)
  else do
    let c ← pts.getCoordinate 0
    let st ← forRange 1 pts.size (lit 0, c.x, c.y) (fun i (st : α × α × α) => do
      let c ← pts.getCoordinate i
      pure (st.1 +. FltSqrt.hypot (c.x -. st.2.1) (c.y -. st.2.2), c.x, c.y))
    pure st.1

end Length

namespace Orientation
variable {α : Type} [Flt α]

/-- State of the scan for the highest rising segment (orientation.rs:140-154). -/
structure Scan (α : Type) where
  upHi : Coord α
  prevY : α
  upLow : Coord α
  iUpHi : Nat

/-- The scan (144-154). -/
def scan (ring : CASeq α) (nPts : Nat) : Res (Scan α) := do
  let c0 ← ring.getCoordinate 0
  forRange 1 (nPts + 1) (⟨c0, c0.y, Coord.default, 0⟩ : Scan α) (fun i st => do
    let py ← ring.getOrd i 1
    if (py >. st.prevY) && (py ≥. st.upHi.y) then do
      let hi ← ring.getCoordinate i
      let low ← ring.getCoordinate (i - 1)
      pure ⟨hi, py, low, i⟩
    else pure { st with prevY := py })

/-- The search for the next lower point (164-172): runs until a point of another height or the start is met. `fuel` bounds the
number of rounds. -/
def findDown (ring : CASeq α) (nPts : Nat) (hiY : α) (iUpHi : Nat) : Nat → Nat → Res Nat
  | 0, _ => .error .diverge
  | fuel + 1, i => do
    let i := (i + 1) % nPts
    if i = iUpHi then pure i
    else do
      let y ← ring.getOrd i 1
      if y ==. hiY then findDown ring nPts hiY iUpHi fuel i else pure i

/-- `is_ccw_coordinate_array_sequence` (126-210). -/
def isCCWSeq (ring : CASeq α) : Res Bool := do
  let nPts ← Res.sub ring.size 1
  if nPts < 3 then pure false
  else do
    let st ← scan ring nPts
    if st.iUpHi = 0 then pure false
    else do
      let iDownLow ← findDown ring nPts st.upHi.y st.iUpHi (nPts + 1) st.iUpHi
      let downLow ← ring.getCoordinate iDownLow
      let iDownHi := if iDownLow > 0 then iDownLow - 1 else nPts - 1
      let downHi ← ring.getCoordinate iDownHi
      if st.upHi.equals2D downHi then
        if st.upLow.equals2D st.upHi || downLow.equals2D st.upHi || st.upLow.equals2D downLow then pure false
        else pure (decide (index st.upLow st.upHi downLow = COUNTERCLOCKWISE))
      else pure ((downHi.x -. st.upHi.x) <. lit 0)

omit [Flt α] in
/-- The argument passed on by `is_ccw_vec` (103-105). -/
def asSeq (ring : List (Coord α)) : CASeq α := ⟨2, 0, ring⟩

/-- `is_ccw_vec` (101-106). -/
def isCCW (ring : List (Coord α)) : Res Bool := isCCWSeq (asSeq ring)

/-- `is_ccw_area_vec` (236-238). -/
def isCCWArea (ring : List (Coord α)) : Res Bool := do
  let a ← Area.ofRingSigned ring
  pure (a <. lit 0)

end Orientation
end Verif
