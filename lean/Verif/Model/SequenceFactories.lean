import Verif.Model.PackedBase

/-! # Model of the copying loops and the remaining factory functions of coordinate sequences -/

namespace Verif
open Flt

namespace CASeq
variable {α : Type} [Flt α]

/-- `copy` (coordinate_array_sequence.rs:304-315), with its loop. -/
def copyLoop (s : CASeq α) : Res (CASeq α) := do
  let l ← forRange 0 s.coordinates.length (List.replicate s.coordinates.length Coord.default) (fun i l => do
    let c ← Res.get s.coordinates i
    Res.set l i c)
  pure ⟨s.dimension, s.measures, l⟩

/-- `new_with_coordinates_dimension` (69-75). -/
def ofCoordinatesDim (l : List (Coord α)) (dimension : Int) : CASeq α := ⟨dimension, CoordArrays.measures l, l⟩

omit [Flt α] in
/-- `get_coordinate_index_coordinate` (218-220): the coordinate it fills. -/
def fill (s : CASeq α) (i : Nat) (c : Coord α) : Res (Coord α) := do
  let d ← Res.get s.coordinates i
  pure (c.setCoordinate d)

end CASeq

namespace PSeq
variable {α : Type} [Flt α]

/-- `new_f64_with_coordinates_dimension_measures` (packed_coordinate_sequence_double.rs:57-74), with its loop;
`create_double_coordinate_dimension_measures` (packed_coordinate_sequence_factory.rs:85-95) calls it. -/
def ofOrdinatesLoop (l : List α) (dimension measures : Int) : Res (PSeq α) := do
  let cs ← forRange 0 l.length (List.replicate l.length nan) (fun i cs => do
    let v ← Res.get l i
    Res.set cs i v)
  pure ⟨dimension, measures, cs⟩

/-- `create_double_coordinates_dimension` (packed_coordinate_sequence_factory.rs:64-73). -/
def createFromOrdinates (l : List α) (dimension : Int) : Res (PSeq α) := ofOrdinatesLoop l dimension 0

/-- `create_double_from_coordinate_sequence` (packed_coordinate_sequence_factory.rs:43-53). -/
def createFromSequence (s : PBase α) : Res (PSeq α) := do
  let l ← s.toCoordinateArray
  ofCoordinatesDimMeasures l s.dimension s.measures

/-- `create_with_size_dimension_measures` (packed_coordinate_sequence_factory.rs:117-123). -/
def createMeasures (size : Nat) (dimension measures : Int) : PSeq α := newWithSize size dimension measures

end PSeq
end Verif
