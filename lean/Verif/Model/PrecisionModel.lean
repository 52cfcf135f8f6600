import Verif.Model.Coordinate
import Verif.Base.FltRound

/-! # Model of `src/core/geom/precision_model.rs` -/

namespace Verif
open Flt

/-- `enum PrecisionModelType` (73-78). -/
inductive PMType where
  | floating
  | fixed
  | floatingSingle
  deriving DecidableEq, Repr

/-- `struct PrecisionModel` (55-71). -/
structure PM (α : Type) where
  modelType : PMType
  scale : α
  gridSize : α
  deriving DecidableEq

namespace PM
variable {α : Type} [Flt α] [FltRound α]

/-- `default` (85-92). -/
def default : PM α := ⟨.floating, nan, nan⟩

/-- `set_scale` (234-245). -/
def setScale (pm : PM α) (scale : α) : PM α :=
  if scale <. lit 0 then
    let g := Flt.abs scale
    { pm with gridSize := g, scale := lit 1 /. g }
  else { pm with scale := Flt.abs scale, gridSize := lit 0 }

/-- `new_with_type` (101-113). -/
def newWithType (t : PMType) : PM α :=
  let new : PM α := ⟨t, nan, nan⟩
  if t = .fixed then new.setScale (lit 1) else new

/-- `new_with_scale` (125-133). -/
def newWithScale (scale : α) : PM α := (⟨.fixed, nan, nan⟩ : PM α).setScale scale

omit [Flt α] [FltRound α] in
/-- `from_precision_model` (139-145). -/
def fromPM (pm : PM α) : PM α := ⟨pm.modelType, pm.scale, pm.gridSize⟩

omit [Flt α] [FltRound α] in
/-- `is_floating` (151-153). -/
def isFloating (pm : PM α) : Bool := decide (pm.modelType = .floating) || decide (pm.modelType = .floatingSingle)

/-- `get_maximum_significant_digits` (176-186). The number of digits of a fixed scale is
`1 + ceil(ln(scale) / ln(10))`; `digits` stands for that function of the scale, which is modelled in
`Verif.Model.PrecisionDigits` over an abstract logarithm. -/
def maxDigits (digits : α → Int) (pm : PM α) : Int :=
  match pm.modelType with
  | .floating => 16
  | .floatingSingle => 6
  | .fixed => digits pm.scale

/-- `grid_size` (210-219). -/
def getGridSize (pm : PM α) : α :=
  if pm.isFloating then nan
  else if !(pm.gridSize ==. lit 0) then pm.gridSize
  else lit 1 /. pm.scale

/-- `make_precise` (318-337). -/
def makePrecise (pm : PM α) (val : α) : α :=
  if isNaN val then val
  else if pm.modelType = .floatingSingle then val
  else if pm.modelType = .fixed then
    if pm.gridSize >. lit 0 then FltRound.round (val /. pm.gridSize) *. pm.gridSize
    else FltRound.round (val *. pm.scale) /. pm.scale
  else val

/-- `make_precise_coordinate` (342-349). -/
def makePreciseCoordinate (pm : PM α) (c : Coord α) : Coord α :=
  if pm.modelType = .floating then c
  else { c with x := pm.makePrecise c.x, y := pm.makePrecise c.y }

/-- `equals` (351-353). -/
def equals (a b : PM α) : Bool := decide (a.modelType = b.modelType) && (a.scale ==. b.scale)

/-- `compare_to` (368-375). -/
def compareTo (digits : α → Int) (a b : PM α) : Int :=
  if a.maxDigits digits = b.maxDigits digits then 0
  else if a.maxDigits digits < b.maxDigits digits then -1 else 1

end PM
end Verif
