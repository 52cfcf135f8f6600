/-! # Model of `src/core/geom/position.rs` -/

namespace Verif.Position

/-- `Position::ON` (position.rs:5). -/
def ON : Int := 0
/-- `Position::LEFT` (position.rs:8). -/
def LEFT : Int := 1
/-- `Position::RIGHT` (position.rs:11). -/
def RIGHT : Int := 2

/-- `Position::opposite` (position.rs:17-25). -/
def opposite (position : Int) : Int :=
  if position = LEFT then RIGHT else if position = RIGHT then LEFT else position

end Verif.Position
