import Verif.Model.Sequences
import Verif.Model.PrecisionModel
import Verif.Model.Vectors
import Verif.Model.DD

/-! # Model of the texts of coordinates, sequences, envelopes, precision models, vectors and double-doubles

Texts are lists of characters. `num` is the text of a number (`Display` of `f64`). -/

namespace Verif

/-- `fmt` of `Coordinate` (coordinate.rs:490-494). -/
def Coord.text {α : Type} (num : α → List Char) (c : Coord α) : List Char :=
  "(".toList ++ num c.x ++ ", ".toList ++ num c.y ++ ", ".toList ++ num c.z ++ ")".toList

/-- `fmt` of `CoordinateArraySequence` (coordinate_array_sequence.rs:353-368). -/
def CASeq.text {α : Type} (num : α → List Char) (s : CASeq α) : List Char :=
  match s.coordinates with
  | [] => "()".toList
  | c :: l => l.foldl (fun str d => str ++ ", ".toList ++ d.text num) ("(".toList ++ c.text num) ++ ")".toList

/-- `fmt` of `Envelope` (envelope.rs:951-959). -/
def Env.text {α : Type} (num : α → List Char) (e : Env α) : List Char :=
  "Env[".toList ++ num e.minx ++ " : ".toList ++ num e.maxx ++ ", ".toList ++ num e.miny ++ " : ".toList ++ num e.maxy ++ "]".toList

/-- `fmt` of `PrecisionModel` (precision_model.rs:378-391). -/
def PM.text {α : Type} (num : α → List Char) (pm : PM α) : List Char :=
  match pm.modelType with
  | .floating => "Floating".toList
  | .floatingSingle => "Floating-Single".toList
  | .fixed => "Fixed (Scale=".toList ++ num pm.scale ++ ")".toList

/-- `Vector2D::to_string` (vector_2d.rs:274-277). -/
def Vec2.text {α : Type} (num : α → List Char) (v : Vec2 α) : List Char :=
  "[".toList ++ num v.x ++ ", ".toList ++ num v.y ++ "]".toList

/-- `Vector3D::to_string` (vector_3d.rs:233-236). -/
def Vec3.text {α : Type} (num : α → List Char) (v : Vec3 α) : List Char :=
  "[".toList ++ num v.x ++ ", ".toList ++ num v.y ++ ", ".toList ++ num v.z ++ "]".toList

/-- `DD::dump` (dd.rs:1116-1118). -/
def DD.dump {α : Type} (num : α → List Char) (d : DD α) : List Char :=
  "DD<".toList ++ num d.hi ++ ", ".toList ++ num d.lo ++ ">".toList

end Verif
