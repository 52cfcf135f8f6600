import Verif.Model.Vectors

/-! # Model of `src/core/algorithm/cg_algorithms_3d.rs` -/

namespace Verif.Distance3D
open Flt

variable {α : Type} [FltSqrt α]

/-- `CGAlgorithms3D::distance` (cg_algorithms_3d.rs:14-24). -/
def distance (p0 p1 : Coord α) : α :=
  if isNaN p0.z || isNaN p1.z then p0.distance p1
  else
    let dx := p0.x -. p1.x
    let dy := p0.y -. p1.y
    let dz := p0.z -. p1.z
    FltSqrt.sqrt (dx *. dx +. dy *. dy +. dz *. dz)

/-- `CGAlgorithms3D::distance_point_segment` (cg_algorithms_3d.rs:26-73). -/
def pointSegment (p a b : Coord α) : α :=
  if a.equals3D b then distance p a
  else
    let len2 := (b.x -. a.x) *. (b.x -. a.x) +. (b.y -. a.y) *. (b.y -. a.y) +. (b.z -. a.z) *. (b.z -. a.z)
    if isNaN len2 then nan
    else
      let r := ((p.x -. a.x) *. (b.x -. a.x) +. (p.y -. a.y) *. (b.y -. a.y) +. (p.z -. a.z) *. (b.z -. a.z)) /. len2
      if r ≤. lit 0 then distance p a
      else if r ≥. lit 1 then distance p b
      else
        let qx := a.x +. r *. (b.x -. a.x)
        let qy := a.y +. r *. (b.y -. a.y)
        let qz := a.z +. r *. (b.z -. a.z)
        let dx := p.x -. qx
        let dy := p.y -. qy
        let dz := p.z -. qz
        FltSqrt.sqrt (dx *. dx +. dy *. dy +. dz *. dz)

/-- The parameters `(s, t)` of the nearest points of the two lines (cg_algorithms_3d.rs:116-133), from the products `a, b, c, d, e`
and `denom`. -/
def params (a b c d e denom : α) : α × α :=
  if denom ≤. lit 0 then (lit 0, if b >. c then d /. b else e /. c)
  else ((b *. e -. c *. d) /. denom, (a *. e -. b *. d) /. denom)

/-- `CGAlgorithms3D::distance_segment_segment` (cg_algorithms_3d.rs:84-160). The second test compares `cc` with `bc`, not with `dd`,
as in the source. -/
def segmentSegment (ac bc cc dd : Coord α) : α :=
  if ac.equals3D bc then pointSegment ac cc dd
  else if cc.equals3D bc then pointSegment cc ac bc
  else
    let a := Vec3.dot4 ac bc ac bc
    let b := Vec3.dot4 ac bc cc dd
    let c := Vec3.dot4 cc dd cc dd
    let d := Vec3.dot4 ac bc cc ac
    let e := Vec3.dot4 cc dd cc ac
    let denom := a *. c -. b *. b
    if isNaN denom then nan
    else
      let st := params a b c d e denom
      let s := st.1
      let t := st.2
      if s <. lit 0 then pointSegment ac cc dd
      else if s >. lit 1 then pointSegment bc cc dd
      else if t <. lit 0 then pointSegment cc ac bc
      else if t >. lit 1 then pointSegment dd ac bc
      else
        distance (Coord.xyz (ac.x +. s *. (bc.x -. ac.x)) (ac.y +. s *. (bc.y -. ac.y)) (ac.z +. s *. (bc.z -. ac.z)))
          (Coord.xyz (cc.x +. t *. (dd.x -. cc.x)) (cc.y +. t *. (dd.y -. cc.y)) (cc.z +. t *. (dd.z -. cc.z)))

end Verif.Distance3D
