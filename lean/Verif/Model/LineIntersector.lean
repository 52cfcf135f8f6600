import Verif.Model.Intersection
import Verif.Model.PrecisionModel

/-! # Model of `src/core/algorithm/robust_line_intersector.rs`

`line_intersector.rs` declares a struct without fields or methods; the rest of the file is commented out. -/

namespace Verif
open Flt

/-- `struct RobustLineIntersector` (13-26). The fields `pa`, `pb` and `int_line_index` are written once by `default` and never
read; they are left out. `input_lines` is four coordinates, `int_pt` two. -/
structure LI (α : Type) where
  result : Int
  in00 : Coord α
  in01 : Coord α
  in10 : Coord α
  in11 : Coord α
  pt0 : Coord α
  pt1 : Coord α
  isProper : Bool
  pm : Option (PM α)

namespace LI
variable {α : Type} [FltSqrt α] [FltRound α]

/-- constants (32-42) -/
abbrev NO_INTERSECTION : Int := 0
abbrev POINT_INTERSECTION : Int := 1
abbrev COLLINEAR_INTERSECTION : Int := 2

/-- `default` (44-64). -/
def default : LI α :=
  ⟨0, Coord.default, Coord.default, Coord.default, Coord.default, Coord.default, Coord.default, false, none⟩

/-- `set_precision_model` (71-73). -/
def setPrecisionModel (s : LI α) (pm : PM α) : LI α := { s with pm := some pm }

/-- `has_intersection` (80-82). -/
def hasIntersection (s : LI α) : Bool := decide (s.result ≠ NO_INTERSECTION)

/-- `get_intersection` (91-93). -/
def getIntersection (s : LI α) (i : Nat) : Res (Coord α) :=
  if i = 0 then pure s.pt0 else if i = 1 then pure s.pt1 else .error .index

/-- `compute_intersection_3` (95-109). -/
def compute3 (s : LI α) (p p1 p2 : Coord α) : LI α :=
  if Env.intersects3 p1 p2 p && (decide (Orientation.index p1 p2 p = 0) && decide (Orientation.index p2 p1 p = 0)) then
    { s with isProper := if p.equals2D p1 || p.equals2D p2 then false else true, result := POINT_INTERSECTION }
  else { s with isProper := false, result := NO_INTERSECTION }

/-- `get_z` (432-438). -/
def getZ (p q : Coord α) : α := if isNaN p.z then q.z else p.z

/-- `z_interpolate_3` (476-507). -/
def zInterpolate3 (p p1 p2 : Coord α) : α :=
  if isNaN p1.z then p2.z
  else if isNaN p2.z then p1.z
  else if p.equals2D p1 then p1.z
  else if p.equals2D p2 then p2.z
  else
    let dz := p2.z -. p1.z
    if dz ==. lit 0 then p1.z
    else
      let dx := p2.x -. p1.x
      let dy := p2.y -. p1.y
      let seglen := dx *. dx +. dy *. dy
      let xoff := p.x -. p1.x
      let yoff := p.y -. p1.y
      let plen := xoff *. xoff +. yoff *. yoff
      let frac := FltSqrt.sqrt (plen /. seglen)
      let zoff := dz *. frac
      p1.z +. zoff

/-- `get_z_or_interpolate` (451-462). -/
def getZOrInterpolate (p p1 p2 : Coord α) : α := if !isNaN p.z then p.z else zInterpolate3 p p1 p2

/-- `z_interpolate_5` (523-541). -/
def zInterpolate5 (p p1 p2 q1 q2 : Coord α) : α :=
  let zp := zInterpolate3 p p1 p2
  let zq := zInterpolate3 p q1 q2
  if isNaN zp then zq
  else if isNaN zq then zp
  else (zp +. zq) /. lit 2

/-- `copy_with_z` (303-309). -/
def copyWithZ (p : Coord α) (z : α) : Coord α :=
  if !isNaN z then { p.fromCoordinate with z := z } else p.fromCoordinate

/-- `copy_with_z_interpolate` (293-301). -/
def copyWithZInterpolate (p p1 p2 : Coord α) : Coord α := copyWithZ p (getZOrInterpolate p p1 p2)

/-- `nearest_endpoint` (397-422). -/
def nearestEndpoint (p1 p2 q1 q2 : Coord α) : Coord α :=
  let nm := (p1, Distance.pointToSegment p1 q1 q2)
  let dist := Distance.pointToSegment p2 q1 q2
  let nm := if dist <. nm.2 then (p2, dist) else nm
  let dist := Distance.pointToSegment q1 p1 p2
  let nm := if dist <. nm.2 then (q1, dist) else nm
  let dist := Distance.pointToSegment q2 p1 p2
  let nearest := if dist <. nm.2 then q2 else nm.1
  nearest.fromCoordinate

/-- `intersection_safe` (349-361). -/
def intersectionSafe (p1 p2 q1 q2 : Coord α) : Coord α :=
  match Intersection.intersection p1 p2 q1 q2 with
  | some p => p
  | none => nearestEndpoint p1 p2 q1 q2

/-- `is_in_segment_envelopes` (372-376). -/
def isInSegmentEnvelopes (s : LI α) (p : Coord α) : Bool :=
  (Env.newCoordinates s.in00 s.in01).coversCoordinate p && (Env.newCoordinates s.in10 s.in11).coversCoordinate p

/-- `intersection` (315-335). -/
def intersection (s : LI α) (p1 p2 q1 q2 : Coord α) : Coord α :=
  let p := intersectionSafe p1 p2 q1 q2
  let p := if !s.isInSegmentEnvelopes p then (nearestEndpoint p1 p2 q1 q2).fromCoordinate else p
  match s.pm with
  | some pm => pm.makePreciseCoordinate p
  | none => p

/-- `compute_collinear_intersection` (228-291): the result code and the new state. -/
def computeCollinear (s : LI α) (p1 p2 q1 q2 : Coord α) : Int × LI α :=
  let q1inP := Env.intersects3 p1 p2 q1
  let q2inP := Env.intersects3 p1 p2 q2
  let p1inQ := Env.intersects3 q1 q2 p1
  let p2inQ := Env.intersects3 q1 q2 p2
  if q1inP && q2inP then
    (COLLINEAR_INTERSECTION, { s with pt0 := copyWithZInterpolate q1 p1 p2, pt1 := copyWithZInterpolate q2 p1 p2 })
  else if p1inQ && p2inQ then
    (COLLINEAR_INTERSECTION, { s with pt0 := copyWithZInterpolate p1 q1 q2, pt1 := copyWithZInterpolate p2 q1 q2 })
  else if q1inP && p1inQ then
    (if q1.equals2D p1 && !q2inP && !p2inQ then POINT_INTERSECTION else COLLINEAR_INTERSECTION,
      { s with pt0 := copyWithZInterpolate q1 p1 p2, pt1 := copyWithZInterpolate p1 q1 q2 })
  else if q1inP && p2inQ then
    (if q1.equals2D p2 && !q2inP && !p1inQ then POINT_INTERSECTION else COLLINEAR_INTERSECTION,
      { s with pt0 := copyWithZInterpolate q1 p1 p2, pt1 := copyWithZInterpolate p2 q1 q2 })
  else if q2inP && p1inQ then
    (if q2.equals2D p1 && !q1inP && !p2inQ then POINT_INTERSECTION else COLLINEAR_INTERSECTION,
      { s with pt0 := copyWithZInterpolate q2 p1 p2, pt1 := copyWithZInterpolate p1 q1 q2 })
  else if q2inP && p2inQ then
    (if q2.equals2D p2 && !q1inP && !p1inQ then POINT_INTERSECTION else COLLINEAR_INTERSECTION,
      { s with pt0 := copyWithZInterpolate q2 p1 p2, pt1 := copyWithZInterpolate p2 q1 q2 })
  else (NO_INTERSECTION, s)

/-- The touching point and its z of `compute_intersect` (193-218), once one of the orientations is 0. The last fallback (no case
applies) is the initial value of `p` and `z` (175-176). -/
def touchPoint (pq1 pq2 qp1 qp2 : Int) (p1 p2 q1 q2 : Coord α) : Coord α × α :=
  if p1.equals2D q1 then (p1.fromCoordinate, getZ p1 q1)
  else if p1.equals2D q2 then (p1.fromCoordinate, getZ p1 q2)
  else if p2.equals2D q1 then (p2.fromCoordinate, getZ p2 q1)
  else if p2.equals2D q2 then (p2.fromCoordinate, getZ p2 q2)
  else if pq1 = 0 then (q1.fromCoordinate, getZOrInterpolate q1 p1 p2)
  else if pq2 = 0 then (q2.fromCoordinate, getZOrInterpolate q2 p1 p2)
  else if qp1 = 0 then (p1.fromCoordinate, getZOrInterpolate p1 q1 q2)
  else if qp2 = 0 then (p2.fromCoordinate, getZOrInterpolate p2 q1 q2)
  else (Coord.default, nan)

/-- `compute_intersect` (130-226): the result code and the new state. -/
def computeIntersect (s : LI α) (p1 p2 q1 q2 : Coord α) : Int × LI α :=
  let s := { s with isProper := false }
  if !Env.intersects4 p1 p2 q1 q2 then (NO_INTERSECTION, s)
  else
    let pq1 := Orientation.index p1 p2 q1
    let pq2 := Orientation.index p1 p2 q2
    if (pq1 > 0 ∧ pq2 > 0) ∨ (pq1 < 0 ∧ pq2 < 0) then (NO_INTERSECTION, s)
    else
      let qp1 := Orientation.index q1 q2 p1
      let qp2 := Orientation.index q1 q2 p2
      if (qp1 > 0 ∧ qp2 > 0) ∨ (qp1 < 0 ∧ qp2 < 0) then (NO_INTERSECTION, s)
      else if pq1 = 0 ∧ pq2 = 0 ∧ qp1 = 0 ∧ qp2 = 0 then s.computeCollinear p1 p2 q1 q2
      else if pq1 = 0 ∨ pq2 = 0 ∨ qp1 = 0 ∨ qp2 = 0 then
        let pz := touchPoint pq1 pq2 qp1 qp2 p1 p2 q1 q2
        (POINT_INTERSECTION, { s with isProper := false, pt0 := copyWithZ pz.1 pz.2 })
      else
        let s := { s with isProper := true }
        let p := s.intersection p1 p2 q1 q2
        (POINT_INTERSECTION, { s with pt0 := copyWithZ p (zInterpolate5 p p1 p2 q1 q2) })

/-- `compute_intersection_4` (116-128). -/
def compute4 (s : LI α) (p1 p2 p3 p4 : Coord α) : LI α :=
  let s := { s with in00 := p1.fromCoordinate, in01 := p2.fromCoordinate, in10 := p3.fromCoordinate, in11 := p4.fromCoordinate }
  let r := s.computeIntersect p1 p2 p3 p4
  { r.2 with result := r.1 }

end LI
end Verif
