import Verif.Model.Kinds
import Verif.Props.LineEnds

/-! # C89: names, codes and dimensions of the kinds of geometries -/

set_option linter.unusedSectionVars false

namespace Verif.Props
open Flt

/-- The kinds of geometries of the library. -/
inductive GKind | point | multiPoint | lineString | linearRing | multiLineString | polygon | multiPolygon
  deriving DecidableEq

namespace GKind
/-- What a collection is made of. -/
def element : GKind → Option GKind
  | multiPoint => some point
  | multiLineString => some lineString
  | multiPolygon => some polygon
  | _ => none
/-- The code that objects of the kind report. -/
def code : GKind → Int
  | point => Point.getTypeCode | multiPoint => MultiPoint.getTypeCode | lineString => LineString.getTypeCode | linearRing => LinearRing.getTypeCode
  | multiLineString => MultiLineString.getTypeCode | polygon => Polygon.getTypeCode | multiPolygon => MultiPolygon.getTypeCode
/-- The name that objects of the kind report. -/
def name : GKind → String
  | point => Point.getGeometryType | multiPoint => MultiPoint.getGeometryType | lineString => LineString.getGeometryType | linearRing => LinearRing.getGeometryType
  | multiLineString => MultiLineString.getGeometryType | polygon => Polygon.getGeometryType | multiPolygon => MultiPolygon.getGeometryType
/-- The dimension that objects of the kind report (a ring has no such method). -/
def dimension : GKind → Option Int
  | point => some Point.getDimension | multiPoint => some MultiPoint.getDimension | lineString => some LineString.getDimension | linearRing => none
  | multiLineString => some MultiLineString.getDimension | polygon => some Polygon.getDimension | multiPolygon => some MultiPolygon.getDimension
end GKind

/-- C89: the codes tell the kinds apart, and so do the names; none of them is that of a collection of mixed kinds; the codes are 0 to 6; a collection is named
after its elements. -/
theorem C89_codes (a b : GKind) : (a.code = b.code ↔ a = b) ∧ (a.name = b.name ↔ a = b) ∧ (a.code ≠ GeometryConst.codeCollection ∧ a.name ≠ GeometryConst.nameCollection) ∧
    (0 ≤ a.code ∧ a.code ≤ 6) ∧ (a.element = some b → a.name = "Multi" ++ b.name) := by
  cases a <;> cases b <;> decide

/-- C89: the order of the codes is that of the dimensions, and within a dimension from simple to multiple. -/
theorem C89_order (a b : GKind) (da db : Int) (ha : a.dimension = some da) (hb : b.dimension = some db) :
    (da < db → a.code < b.code) ∧ (a.element = some b → da = db ∧ b.code < a.code) := by
  cases a <;> cases b <;> simp_all [GKind.dimension, GKind.code, GKind.element] <;> subst ha hb <;> decide

/-- C89: a collection has the dimension of its elements and no other. -/
theorem C89_has_dimension (d : Int) :
    (MultiPoint.hasDimension d = true ↔ d = Point.getDimension) ∧ (MultiLineString.hasDimension d = true ↔ d = LineString.getDimension) ∧
    (MultiPolygon.hasDimension d = true ↔ d = Polygon.getDimension) := by
  simp [MultiPoint.hasDimension, MultiLineString.hasDimension, MultiPolygon.hasDimension, Point.getDimension, LineString.getDimension, Polygon.getDimension]

variable {α : Type} [Flt α]

/-- C89: a boundary has one dimension less, or is reported as `FALSE`: always for points and rings, never for polygons, for a line if and only if its ends meet, for
a collection of lines if and only if it is not empty and this is so for each of its lines. -/
theorem C89_boundary (l : LineString α) (m : MultiLineString α) :
    (Point.getBoundaryDimension = -1 ∧ MultiPoint.getBoundaryDimension = -1 ∧ LinearRing.getBoundaryDimension = -1) ∧
    (Polygon.getBoundaryDimension = Polygon.getDimension - 1 ∧ MultiPolygon.getBoundaryDimension = MultiPolygon.getDimension - 1) ∧
    (∃ d, l.getBoundaryDimension = .ok d ∧ (d = -1 ∨ d = LineString.getDimension - 1) ∧ (d = -1 ↔ endsMeet l.getCoordinates = true)) ∧
    (∃ d, m.getBoundaryDimension = .ok d ∧ (d = -1 ∨ d = MultiLineString.getDimension - 1) ∧
      (d = -1 ↔ m.lineStrings ≠ [] ∧ ∀ l ∈ m.lineStrings, l.getBoundaryDimension = .ok (-1))) := by
  refine ⟨⟨rfl, rfl, rfl⟩, ⟨rfl, rfl⟩, ⟨_, (C71_closed l).2.2, ?_, ?_⟩, ⟨_, (C71_multi m).2.2, ?_, ?_⟩⟩
  · split_ifs
    · exact Or.inl rfl
    · exact Or.inr rfl
  · split_ifs with h <;> simp [h]
  · split_ifs
    · exact Or.inl rfl
    · exact Or.inr rfl
  · have e : (∀ l ∈ m.lineStrings, l.getBoundaryDimension = .ok (-1)) ↔ ∀ l ∈ m.lineStrings, endsMeet l.getCoordinates = true := by
      refine forall₂_congr fun l _ => ?_
      rw [(C71_closed l).2.2]
      split_ifs with h <;> simp [h]
    rw [e]
    split_ifs with h
    · exact ⟨fun _ => h, fun _ => rfl⟩
    · exact ⟨fun k => absurd k (by decide), fun k => (h k).elim⟩

/-- C89: the polygons of a collection are numbered from 0; any other index panics. -/
theorem C89_index (m : MultiPolygon α) (n : Nat) (p : Polygon α) (h : m.getPolygon n = .ok p) : n < m.getNumPolygons := by
  by_contra hn
  rw [MultiPolygon.getPolygon, Res.get_ge (Nat.le_of_not_lt hn)] at h
  cases h

example : GKind.multiLineString.element = some GKind.lineString ∧ GKind.multiLineString.code = 4 ∧ GKind.multiLineString.dimension = some 1 := by decide
example : ∃ l : LineString EQ, l.getBoundaryDimension = .ok (-1) :=
  ⟨.ofSeq (CASeq.ofCoordinates [Coord.xy (Fl.fin 0) (Fl.fin 0), Coord.xy (Fl.fin 1) (Fl.fin 0), Coord.xy (Fl.fin 0) (Fl.fin 0)]), by decide +kernel⟩

end Verif.Props
