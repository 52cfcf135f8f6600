import Verif.Model.Envelope
import Verif.Model.MathUtil

/-! # Model of `src/core/algorithm/distance.rs` -/

namespace Verif.Distance
open Flt
variable {α : Type} [FltSqrt α]

/-- `point_to_segment` (141-183). -/
def pointToSegment (p a b : Coord α) : α :=
  if (a.x ==. b.x) && (a.y ==. b.y) then p.distance a
  else
    let len2 := (b.x -. a.x) *. (b.x -. a.x) +. (b.y -. a.y) *. (b.y -. a.y)
    let r := ((p.x -. a.x) *. (b.x -. a.x) +. (p.y -. a.y) *. (b.y -. a.y)) /. len2
    if r ≤. lit 0 then p.distance a
    else if r ≥. lit 1 then p.distance b
    else
      let s := ((a.y -. p.y) *. (b.x -. a.x) -. (a.x -. p.x) *. (b.y -. a.y)) /. len2
      Flt.abs s *. FltSqrt.sqrt len2

/-- `point_to_segment_string` (112-126). -/
def pointToSegmentString (p : Coord α) (line : List (Coord α)) : Res α :=
  if line.length = 0 then pure nan
  else do
    let c0 ← Res.get line 0
    forRange 0 (line.length - 1) (p.distance c0) (fun i minDistance => do
      let a ← Res.get line i
      let b ← Res.get line (i + 1)
      let dist := pointToSegment p a b
      pure (if dist <. minDistance then dist else minDistance))

/-- The flag `no_intersection` of `segment_to_segment` (71-90). -/
def noIntersection (a b c d : Coord α) : Bool :=
  if !Env.intersects4 a b c d then true
  else
    let denom := (b.x -. a.x) *. (d.y -. c.y) -. (b.y -. a.y) *. (d.x -. c.x)
    if denom ==. lit 0 then true
    else
      let rNum := (a.y -. c.y) *. (d.x -. c.x) -. (a.x -. c.x) *. (d.y -. c.y)
      let sNum := (a.y -. c.y) *. (b.x -. a.x) -. (a.x -. c.x) *. (b.y -. a.y)
      let s := sNum /. denom
      let r := rNum /. denom
      (r <. lit 0) || (r >. lit 1) || (s <. lit 0) || (s >. lit 1)

/-- `segment_to_segment` (30-101). -/
def segmentToSegment (a b c d : Coord α) : α :=
  if a.equals2D b then pointToSegment a c d
  else if c.equals2D d then pointToSegment d a b
  else if noIntersection a b c d then
    MathUtil.min4 (pointToSegment a c d) (pointToSegment b c d) (pointToSegment c a b) (pointToSegment d a b)
  else lit 0

/-- `point_to_line_perpendicular` (197-210). -/
def pointToLinePerpendicular (p a b : Coord α) : α :=
  let len2 := (b.x -. a.x) *. (b.x -. a.x) +. (b.y -. a.y) *. (b.y -. a.y)
  let s := ((a.y -. p.y) *. (b.x -. a.x) -. (a.x -. p.x) *. (b.y -. a.y)) /. len2
  Flt.abs s *. FltSqrt.sqrt len2

/-- `point_to_line_perpendicular_signed` (212-229). -/
def pointToLinePerpendicularSigned (p a b : Coord α) : α :=
  let len2 := (b.x -. a.x) *. (b.x -. a.x) +. (b.y -. a.y) *. (b.y -. a.y)
  let s := ((a.y -. p.y) *. (b.x -. a.x) -. (a.x -. p.x) *. (b.y -. a.y)) /. len2
  s *. FltSqrt.sqrt len2

end Verif.Distance
