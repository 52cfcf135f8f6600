import Verif.Base.Res

/-! # Model of `src/core/geom/intersection_matrix.rs`, `dimension.rs`, `location.rs`

`i32` values are integers (no arithmetic is done on them). A Rust `String` is a list of characters; its `len` is the number of
UTF-8 bytes. -/

namespace Verif

namespace Dimension
/-- `Dimension` constants (dimension.rs:18-43). -/
abbrev P : Int := 0
abbrev L : Int := 1
abbrev A : Int := 2
abbrev FALSE : Int := -1
abbrev TRUE : Int := -2
abbrev DONTCARE : Int := -3

/-- `Dimension::to_dimension_symbol` (dimension.rs:85-95). -/
def toDimensionSymbol (v : Int) : Option Char :=
  if v = FALSE then some 'F'
  else if v = TRUE then some 'T'
  else if v = DONTCARE then some '*'
  else if v = P then some '0'
  else if v = L then some '1'
  else if v = A then some '2'
  else none

/-- `char::to_ascii_uppercase` (std). -/
def asciiUpper (c : Char) : Char :=
  if 97 ≤ c.toNat ∧ c.toNat ≤ 122 then Char.ofNat (c.toNat - 32) else c

/-- `Dimension::to_dimension_value` (dimension.rs:107-117). -/
def toDimensionValue (c : Char) : Option Int :=
  let u := asciiUpper c
  if u = 'F' then some FALSE
  else if u = 'T' then some TRUE
  else if u = '*' then some DONTCARE
  else if u = '0' then some P
  else if u = '1' then some L
  else if u = '2' then some A
  else none
end Dimension

namespace Location
/-- `Location` constants (location.rs:9-26). -/
abbrev INTERIOR : Int := 0
abbrev BOUNDARY : Int := 1
abbrev EXTERIOR : Int := 2
abbrev NONE : Int := -1

/-- `Location::to_location_symbol` (location.rs:35-43). -/
def toLocationSymbol (v : Int) : Option Char :=
  if v = EXTERIOR then some 'e'
  else if v = BOUNDARY then some 'b'
  else if v = INTERIOR then some 'i'
  else if v = NONE then some '-'
  else none
end Location

/-- `struct IntersectionMatrix` (intersection_matrix.rs:47-52): rows and columns 0 = interior, 1 = boundary, 2 = exterior. -/
structure IM where
  m : Fin 3 → Fin 3 → Int

namespace IM
open Dimension

instance : DecidableEq IM := fun a b =>
  decidable_of_iff (∀ i j, a.m i j = b.m i j) ⟨fun h => by
    cases a; cases b; congr; funext i j; exact h i j, fun h => by subst h; intros; rfl⟩

@[ext] theorem ext' {a b : IM} (h : ∀ i j, a.m i j = b.m i j) : a = b := by
  cases a; cases b; congr; funext i j; exact h i j

/-- `IntersectionMatrix::default` (intersection_matrix.rs:59-63). -/
def default : IM := ⟨fun _ _ => FALSE⟩

/-- `matrix[row][col] = v` inside range. -/
def put (a : IM) (r c : Fin 3) (v : Int) : IM := ⟨fun i j => if i = r ∧ j = c then v else a.m i j⟩

/-- `IntersectionMatrix::set_row_column_value` (202-204). -/
def setValue (a : IM) (row col : Nat) (v : Int) : Res IM :=
  if h : row < 3 ∧ col < 3 then .ok (a.put ⟨row, h.1⟩ ⟨col, h.2⟩ v) else .error .index

/-- `IntersectionMatrix::get` (338-340). -/
def get (a : IM) (row col : Nat) : Res Int :=
  if h : row < 3 ∧ col < 3 then .ok (a.m ⟨row, h.1⟩ ⟨col, h.2⟩) else .error .index

/-- `String::len`: number of UTF-8 bytes. -/
def byteLen (s : List Char) : Nat := (s.map Char.utf8Size).sum

/-- `IntersectionMatrix::set_string` (213-231). -/
def setString (a : IM) (s : List Char) : Res IM :=
  forRange 0 (byteLen s) a (fun i a =>
    match s[i]? with
    | some ch =>
      match toDimensionValue ch with
      | some v => a.setValue (i / 3) (i % 3) v
      | none => pure a
    | none => pure a)

/-- `IntersectionMatrix::new_with_elements` (71-75). -/
def newWithElements (s : List Char) : Res IM := default.setString s

/-- `IntersectionMatrix::new_from_intersection_matrix` (83-104). -/
def newFrom (o : IM) : IM :=
  let n := default
  let n := n.put 0 0 (o.m 0 0)
  let n := n.put 0 1 (o.m 0 1)
  let n := n.put 0 2 (o.m 0 2)
  let n := n.put 1 0 (o.m 1 0)
  let n := n.put 1 1 (o.m 1 1)
  let n := n.put 1 2 (o.m 1 2)
  let n := n.put 2 0 (o.m 2 0)
  let n := n.put 2 1 (o.m 2 1)
  let n := n.put 2 2 (o.m 2 2)
  n

/-- `IntersectionMatrix::set_at_least_row_column_dimension` (245-254); `.._if_valid` (268-275) is the same. -/
def setAtLeast (a : IM) (row col : Nat) (v : Int) : Res IM := do
  let old ← a.get row col
  if old < v then a.setValue row col v else pure a

/-- `IntersectionMatrix::set_at_least_string` (287-306). -/
def setAtLeastString (a : IM) (s : List Char) : Res IM :=
  forRange 0 (byteLen s) a (fun i a =>
    match s[i]? with
    | some ch =>
      match toDimensionValue ch with
      | some v => a.setAtLeast (i / 3) (i % 3) v
      | none => pure a
    | none => pure a)

/-- `IntersectionMatrix::set_all` (316-322). -/
def setAll (a : IM) (v : Int) : Res IM :=
  forRange 0 3 a (fun ai a => forRange 0 3 a (fun bi a => a.setValue ai bi v))

/-- `IntersectionMatrix::add` (113-119). -/
def add (a im : IM) : Res IM :=
  forRange 0 3 a (fun i a => forRange 0 3 a (fun j a => do
    let v ← im.get i j
    a.setAtLeast i j v))

/-- `IntersectionMatrix::is_true` (129-134). -/
def isTrue (v : Int) : Bool := if v ≥ 0 ∨ v = TRUE then true else false

/-- `IntersectionMatrix::matches_i32_char` (147-171). -/
def matchesChar (v : Int) (c : Char) : Bool :=
  if c = '*' then true
  else if c = 'T' ∧ (v ≥ 0 ∨ v = TRUE) then true
  else if c = 'F' ∧ v = FALSE then true
  else if c = '0' ∧ v = P then true
  else if c = '1' ∧ v = L then true
  else if c = '2' ∧ v = A then true
  else false

/-- `IntersectionMatrix::matches_string` (621-641). -/
def matchesString (a : IM) (pattern : List Char) : Res Bool :=
  if byteLen pattern ≠ 9 then .ok false
  else do
    let r ← forFind 0 3 (fun ai => forFind 0 3 (fun bi =>
      match pattern[3 * ai + bi]? with
      | some ch => do
        let v ← a.get ai bi
        if !matchesChar v ch then pure (some false) else pure none
      | none => pure (some false)))
    pure (r.getD true)

/-- `IntersectionMatrix::matches_string_string` (184-190). -/
def matchesStringString (actual required : List Char) : Res Bool := do
  let m ← newWithElements actual
  m.matchesString required

/-- `IntersectionMatrix::is_disjoint` (348-357). -/
def isDisjoint (a : IM) : Bool :=
  a.m 0 0 == FALSE && a.m 0 1 == FALSE && a.m 1 0 == FALSE && a.m 1 1 == FALSE

/-- `IntersectionMatrix::is_intersects` (365-367). -/
def isIntersects (a : IM) : Bool := !a.isDisjoint

/-- Body of `is_touches` after the swap (384-400). -/
def touchesOrdered (a : IM) (da db : Int) : Bool :=
  if (da = A ∧ db = A) ∨ (da = L ∧ db = L) ∨ (da = L ∧ db = A) ∨ (da = P ∧ db = A) ∨ (da = P ∧ db = L) then
    a.m 0 0 == FALSE && (isTrue (a.m 0 1) || isTrue (a.m 1 0) || isTrue (a.m 1 1))
  else false

/-- `IntersectionMatrix::is_touches` (379-401); the recursive call swaps the dimensions once. -/
def isTouches (a : IM) (da db : Int) : Bool :=
  if da > db then a.touchesOrdered db da else a.touchesOrdered da db

/-- `IntersectionMatrix::is_crosses` (428-453). -/
def isCrosses (a : IM) (da db : Int) : Bool :=
  if (da = P ∧ db = L) ∨ (da = P ∧ db = A) ∨ (da = L ∧ db = A) then
    isTrue (a.m 0 0) && isTrue (a.m 0 2)
  else if (da = L ∧ db = P) ∨ (da = A ∧ db = P) ∨ (da = A ∧ db = L) then
    isTrue (a.m 0 0) && isTrue (a.m 2 0)
  else if da = L ∧ db = L then a.m 0 0 == 0
  else false

/-- `IntersectionMatrix::is_within` (461-467). -/
def isWithin (a : IM) : Bool := isTrue (a.m 0 0) && a.m 0 2 == FALSE && a.m 1 2 == FALSE

/-- `IntersectionMatrix::is_contains` (475-481). -/
def isContains (a : IM) : Bool := isTrue (a.m 0 0) && a.m 2 0 == FALSE && a.m 2 1 == FALSE

/-- `IntersectionMatrix::is_covers` (493-505). -/
def isCovers (a : IM) : Bool :=
  let common := isTrue (a.m 0 0) || isTrue (a.m 0 1) || isTrue (a.m 1 0) || isTrue (a.m 1 1)
  common && a.m 2 0 == FALSE && a.m 2 1 == FALSE

/-- `IntersectionMatrix::is_covered_by` (517-529). -/
def isCoveredBy (a : IM) : Bool :=
  let common := isTrue (a.m 0 0) || isTrue (a.m 0 1) || isTrue (a.m 1 0) || isTrue (a.m 1 1)
  common && a.m 0 2 == FALSE && a.m 1 2 == FALSE

/-- `IntersectionMatrix::is_equals` (548-561). -/
def isEquals (a : IM) (da db : Int) : Bool :=
  if da ≠ db then false
  else isTrue (a.m 0 0) && a.m 0 2 == FALSE && a.m 1 2 == FALSE && a.m 2 0 == FALSE && a.m 2 1 == FALSE

/-- `IntersectionMatrix::equals` (563-572). -/
def equals (a b : IM) : Res Bool := do
  let r ← forFind 0 3 (fun i => forFind 0 3 (fun j => do
    let x ← a.get i j
    let y ← b.get i j
    if x ≠ y then pure (some false) else pure none))
  pure (r.getD true)

/-- `IntersectionMatrix::is_overlaps` (588-611). -/
def isOverlaps (a : IM) (da db : Int) : Bool :=
  if (da = P ∧ db = P) ∨ (da = A ∧ db = A) then
    isTrue (a.m 0 0) && isTrue (a.m 0 2) && isTrue (a.m 2 0)
  else if da = L ∧ db = L then
    a.m 0 0 == 1 && isTrue (a.m 0 2) && isTrue (a.m 2 0)
  else false

/-- `IntersectionMatrix::transpose` (648-658). -/
def transpose (a : IM) : IM :=
  let temp := a.m 1 0
  let a := a.put 1 0 (a.m 0 1)
  let a := a.put 0 1 temp
  let temp := a.m 2 0
  let a := a.put 2 0 (a.m 0 2)
  let a := a.put 0 2 temp
  let temp := a.m 2 1
  let a := a.put 2 1 (a.m 1 2)
  let a := a.put 1 2 temp
  a

/-- `IntersectionMatrix::to_string` (667-679): cells without a symbol are skipped. -/
def toStr (a : IM) : Res (List Char) :=
  forRange 0 3 ([] : List Char) (fun ai out => forRange 0 3 out (fun bi out => do
    let v ← a.get ai bi
    match toDimensionSymbol v with
    | some ch => pure (out ++ [ch])
    | none => pure out))

end IM
end Verif
