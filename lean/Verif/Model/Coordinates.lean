import Verif.Model.Coordinate

/-! # Model of `src/core/geom/coordinates.rs` -/

namespace Verif.Coordinates
open Flt
variable {α : Type} [Flt α]

/-- `Coordinates::create_dim_measures` (coordinates.rs:26-37). -/
def createDimMeasures (dimension measures : Int) : Coord α :=
  if dimension = 2 then Coord.default
  else if dimension = 3 ∧ measures = 0 then Coord.default
  else if dimension = 3 ∧ measures = 1 then Coord.defaultXYM
  else if dimension = 4 ∧ measures = 1 then Coord.defaultXYZM
  else Coord.default

/-- `Coordinates::create_dim` (coordinates.rs:15-17). -/
def createDim (dimension : Int) : Coord α := createDimMeasures dimension 0

/-- `Coordinates::dimension` (coordinates.rs:45-54). -/
def dimension (c : Coord α) : Int :=
  if c.isXY then 2 else if c.isXYM then 3 else if c.isXYZM then 4 else 3

/-- `Coordinates::measures` (coordinates.rs:62-71). -/
def measures (c : Coord α) : Int :=
  if c.isXY then 0 else if c.isXYM then 1 else if c.isXYZM then 1 else 0

/-- `Coordinates::equal` (coordinates.rs:73-76); `Geometry::equal` (geometry.rs:1828) is the same. -/
def equal {α : Type} [FltSqrt α] (a b : Coord α) (tolerance : α) : Bool :=
  if tolerance ==. lit 0 then a.equals2D b else a.distance b ≤. tolerance

end Verif.Coordinates
