import Verif.Model.IntersectionMatrix
import Verif.Lemmas.Loop
import Mathlib.Tactic.FinCases
import Mathlib.Data.Fintype.Basic
import Mathlib.Tactic.IntervalCases

/-! # C22, C23, C25 and C26: the DE-9IM matrix -/

namespace Verif.Props
open IM Dimension

theorem forRange_three {σ : Type} (s : σ) (f : Nat → σ → Res σ) :
    forRange 0 3 s f = (do let s ← f 0 s; let s ← f 1 s; f 2 s) := by
  rw [forRange_succ 0 2 (by omega), forRange_succ 0 1 (by omega), forRange_succ 0 0 (by omega),
    forRange_self 0 0 (by omega)]
  simp only [Res.bind_ok, bind_assoc]

/-! ## C26 -/

/-- Specification: the valid codes. -/
def dimensionCodes : List (Int × Char) := [(-1, 'F'), (-2, 'T'), (-3, '*'), (0, '0'), (1, '1'), (2, '2')]

theorem symbol_iff (v : Int) (c : Char) : toDimensionSymbol v = some c ↔ (v, c) ∈ dimensionCodes := by
  simp only [toDimensionSymbol, dimensionCodes, List.mem_cons, Prod.mk.injEq,
    List.not_mem_nil, or_false]
  split_ifs <;> constructor <;> intro h <;> first | (injection h with h; subst h; omega) | (rcases h with h | h | h | h | h | h <;> obtain ⟨h1, rfl⟩ := h <;> first | rfl | omega) | skip
  all_goals simp_all [FALSE, TRUE, DONTCARE, P, L, A, eq_comm]

theorem asciiUpper_eq_iff (c u : Char) (hu : u ∈ dimensionCodes.map Prod.snd) :
    asciiUpper c = u ↔ c = u ∨ (u = 'F' ∧ c = 'f') ∨ (u = 'T' ∧ c = 't') := by
  unfold asciiUpper
  split
  · rename_i h
    have hc : c = Char.ofNat c.toNat := by simp
    obtain ⟨h1, h2⟩ := h
    generalize hn : c.toNat = n at *
    subst hc
    simp only [dimensionCodes, List.map_cons, List.map_nil, List.mem_cons, List.not_mem_nil, or_false] at hu
    clear hn
    rcases hu with rfl | rfl | rfl | rfl | rfl | rfl <;> interval_cases n <;> decide
  · rename_i h
    constructor
    · exact fun h => .inl h
    · rintro (h' | ⟨-, rfl⟩ | ⟨-, rfl⟩)
      · exact h'
      · exact absurd (by decide) h
      · exact absurd (by decide) h

/-- A character has a dimension value exactly if it is one of the six symbols, or a lower case f or t. -/
theorem C26_value_iff (c : Char) (v : Int) :
    toDimensionValue c = some v ↔
      (v, c) ∈ dimensionCodes ∨ (c = 'f' ∧ v = -1) ∨ (c = 't' ∧ v = -2) := by
  have hF := asciiUpper_eq_iff c 'F' (by decide)
  have hT := asciiUpper_eq_iff c 'T' (by decide)
  have hS := asciiUpper_eq_iff c '*' (by decide)
  have h0 := asciiUpper_eq_iff c '0' (by decide)
  have h1 := asciiUpper_eq_iff c '1' (by decide)
  have h2 := asciiUpper_eq_iff c '2' (by decide)
  simp only [toDimensionValue, FALSE, TRUE, DONTCARE, P, L, A, dimensionCodes, List.mem_cons, Prod.mk.injEq,
    List.not_mem_nil, or_false]
  simp only [hF, hT, hS, h0, h1, h2]
  by_cases e1 : c = 'F'
  · subst e1; simp; constructor <;> intro h <;> omega
  by_cases e2 : c = 'f'
  · subst e2; simp; constructor <;> intro h <;> omega
  by_cases e3 : c = 'T'
  · subst e3; simp; constructor <;> intro h <;> omega
  by_cases e4 : c = 't'
  · subst e4; simp; constructor <;> intro h <;> omega
  by_cases e5 : c = '*'
  · subst e5; simp; constructor <;> intro h <;> omega
  by_cases e6 : c = '0'
  · subst e6; simp; constructor <;> intro h <;> omega
  by_cases e7 : c = '1'
  · subst e7; simp; constructor <;> intro h <;> omega
  by_cases e8 : c = '2'
  · subst e8; simp; constructor <;> intro h <;> omega
  simp [e1, e2, e3, e4, e5, e6, e7, e8]

/-- The two codings are mutually inverse on the six codes and reject everything else (up to the case of F and T). -/
theorem C26_symbols (v : Int) (c : Char) :
    (toDimensionSymbol v = some c ↔ (v, c) ∈ dimensionCodes) ∧
    (toDimensionSymbol v = none ↔ v < -3 ∨ 2 < v) ∧
    (toDimensionSymbol v = some c → toDimensionValue c = some v) ∧
    (toDimensionValue c = some v → ∃ u, toDimensionSymbol v = some u ∧ u = asciiUpper c) := by
  refine ⟨symbol_iff v c, ?_, ?_, ?_⟩
  · simp only [toDimensionSymbol, FALSE, TRUE, DONTCARE, P, L, A]
    split_ifs <;> simp_all <;> omega
  · intro h
    rw [C26_value_iff]; exact .inl ((symbol_iff v c).mp h)
  · intro h
    rw [C26_value_iff] at h
    rcases h with h | ⟨rfl, rfl⟩ | ⟨rfl, rfl⟩
    · refine ⟨c, (symbol_iff v c).mpr h, ?_⟩
      rw [eq_comm, asciiUpper_eq_iff c c]
      · exact .inl rfl
      · exact List.mem_map_of_mem (f := Prod.snd) h
    · exact ⟨'F', by decide, by decide⟩
    · exact ⟨'T', by decide, by decide⟩

/-- Location symbols: defined exactly on the four locations, and injective. -/
theorem C26_locations (v w : Int) (c : Char) :
    ((∃ c, Location.toLocationSymbol v = some c) ↔ v = -1 ∨ v = 0 ∨ v = 1 ∨ v = 2) ∧
    (Location.toLocationSymbol v = some c → Location.toLocationSymbol w = some c → v = w) := by
  simp only [Location.toLocationSymbol, Location.EXTERIOR, Location.BOUNDARY, Location.INTERIOR, Location.NONE]
  constructor
  · split_ifs <;> simp_all
  · split_ifs <;> simp_all <;> rintro rfl <;> decide

/-! ## C22 -/

/-- The value that position `3 r + c` of a string assigns to a cell, if any. -/
def cellValue (s : List Char) (r c : Fin 3) : Option Int := s[3 * r.val + c.val]? >>= toDimensionValue

theorem byteLen_ge (s : List Char) : s.length ≤ byteLen s := by
  induction s with
  | nil => simp [byteLen]
  | cons c s ih =>
    have := Char.utf8Size_pos c
    simp only [byteLen, List.map_cons, List.sum_cons, List.length_cons] at *
    omega

def setStep (s : List Char) (i : Nat) (a : IM) : Res IM :=
  match s[i]? with
  | some ch =>
    match toDimensionValue ch with
    | some v => a.setValue (i / 3) (i % 3) v
    | none => pure a
  | none => pure a

theorem setString_eq (a : IM) (s : List Char) : a.setString s = forRange 0 (byteLen s) a (setStep s) := rfl

def leastStep (s : List Char) (i : Nat) (a : IM) : Res IM :=
  match s[i]? with
  | some ch =>
    match toDimensionValue ch with
    | some v => a.setAtLeast (i / 3) (i % 3) v
    | none => pure a
  | none => pure a

theorem setAtLeastString_eq (a : IM) (s : List Char) :
    a.setAtLeastString s = forRange 0 (byteLen s) a (leastStep s) := rfl

/-- `set_string` writes exactly the cells whose position holds a valid symbol; it panics iff a valid symbol stands beyond position 8. -/
theorem C22_setString (a : IM) (s : List Char) :
    ((∀ i, 9 ≤ i → s[i]? >>= toDimensionValue = none) →
      ∃ b, a.setString s = .ok b ∧ ∀ r c, b.m r c = (cellValue s r c).getD (a.m r c)) ∧
    ((∃ i, 9 ≤ i ∧ s[i]? >>= toDimensionValue ≠ none) → a.setString s = .error .index) := by
  have step : ∀ n, (∀ i, 9 ≤ i → i < n → s[i]? >>= toDimensionValue = none) →
      ∃ b, forRange 0 n a (setStep s) = .ok b ∧
        ∀ r c : Fin 3, b.m r c = if 3 * r.val + c.val < n then (cellValue s r c).getD (a.m r c) else a.m r c := by
    intro n hn
    refine forRange_inv 0 n _ (fun k b => ∀ r c : Fin 3, b.m r c =
      if 3 * r.val + c.val < k then (cellValue s r c).getD (a.m r c) else a.m r c) (Nat.zero_le _) a (by simp) ?_
    intro i b _ hi hinv
    have hcell : ∀ r c : Fin 3, 3 * r.val + c.val = i → cellValue s r c = s[i]? >>= toDimensionValue := by
      intro r c h; rw [cellValue, h]
    have hunch : s[i]? >>= toDimensionValue = none → ∀ r c : Fin 3, b.m r c =
        if 3 * r.val + c.val < i + 1 then (cellValue s r c).getD (a.m r c) else a.m r c := by
      intro hnone r c
      rw [hinv r c]
      by_cases he : 3 * r.val + c.val = i
      · rw [if_neg (by omega), if_pos (by omega), hcell r c he, hnone]; rfl
      · split_ifs <;> first | rfl | omega
    cases hs : s[i]? with
    | none => exact ⟨b, by simp [setStep, hs], hunch (by rw [hs]; rfl)⟩
    | some ch =>
      cases hv : toDimensionValue ch with
      | none => exact ⟨b, by simp [setStep, hs, hv], hunch (by rw [hs]; exact hv)⟩
      | some v =>
        have hi9 : i < 9 := by
          by_contra hc
          have := hn i (by omega) hi
          rw [hs] at this
          exact absurd (hv.symm.trans this) (by simp)
        have hr : i / 3 < 3 ∧ i % 3 < 3 := by omega
        refine ⟨b.put ⟨i / 3, hr.1⟩ ⟨i % 3, hr.2⟩ v, by simp [setStep, hs, setValue, hr, hv], ?_⟩
        intro r c
        simp only [put]
        have hbind : s[i]? >>= toDimensionValue = some v := by rw [hs]; exact hv
        by_cases he : 3 * r.val + c.val = i
        · have e1 : r = ⟨i / 3, hr.1⟩ := Fin.ext (by simp; omega)
          have e2 : c = ⟨i % 3, hr.2⟩ := Fin.ext (by simp; omega)
          rw [if_pos ⟨e1, e2⟩, if_pos (by omega), hcell r c he, hbind]; rfl
        · rw [if_neg, hinv r c]
          · split_ifs <;> first | rfl | omega
          · rintro ⟨e1, e2⟩
            apply he
            have h1 := congrArg Fin.val e1
            have h2 := congrArg Fin.val e2
            simp at h1 h2
            omega
  constructor
  · intro hn
    obtain ⟨b, hb, hinv⟩ := step (byteLen s) (fun i hi _ => hn i hi)
    refine ⟨b, hb, fun r c => ?_⟩
    rw [hinv r c]
    split
    · rfl
    · rename_i h
      have := byteLen_ge s
      rw [cellValue, List.getElem?_eq_none (by omega)]; rfl
  · rintro ⟨i, hi⟩
    -- the first bad position
    have hex : ∃ i, 9 ≤ i ∧ s[i]? >>= toDimensionValue ≠ none := ⟨i, hi⟩
    classical
    let k := Nat.find hex
    obtain ⟨hk9, hk⟩ := Nat.find_spec hex
    obtain ⟨b, hb, -⟩ := step k (fun j h1 h2 => by
      by_contra hc
      exact Nat.find_min hex h2 ⟨h1, hc⟩)
    have hks : k < byteLen s := by
      have := byteLen_ge s
      have : k < s.length := by
        by_contra hc
        apply hk
        have : s[Nat.find hex]? = none := List.getElem?_eq_none (by simp only [k] at hc; omega)
        rw [this]; rfl
      omega
    rw [setString_eq]
    refine forRange_panic 0 _ _ k _ a (Nat.zero_le _) hks ?_
    rw [hb, Res.bind_ok]
    change s[k]? >>= toDimensionValue ≠ none at hk
    change 9 ≤ k at hk9
    cases hs : s[k]? with
    | none => rw [hs] at hk; exact absurd rfl hk
    | some ch =>
      cases hv : toDimensionValue ch with
      | none => rw [hs] at hk; exact absurd hv hk
      | some v => simp [setStep, hs, setValue, hv, show ¬ (k / 3 < 3) by omega]

/-- All cells hold dimension codes. -/
def ValidIM (a : IM) : Prop := ∀ i j, ∃ c, (a.m i j, c) ∈ dimensionCodes

theorem toStr_eq (a : IM) (f : Fin 3 → Fin 3 → Char) (hf : ∀ i j, toDimensionSymbol (a.m i j) = some (f i j)) :
    a.toStr = .ok [f 0 0, f 0 1, f 0 2, f 1 0, f 1 1, f 1 2, f 2 0, f 2 1, f 2 2] := by
  have hg : ∀ (i j : Nat) (hi : i < 3) (hj : j < 3), a.get i j = .ok (a.m ⟨i, hi⟩ ⟨j, hj⟩) := by
    intro i j hi hj; simp [IM.get, hi, hj]
  simp only [toStr, forRange_three]
  simp only [hg 0 0 (by omega) (by omega), hg 0 1 (by omega) (by omega), hg 0 2 (by omega) (by omega),
    hg 1 0 (by omega) (by omega), hg 1 1 (by omega) (by omega), hg 1 2 (by omega) (by omega),
    hg 2 0 (by omega) (by omega), hg 2 1 (by omega) (by omega), hg 2 2 (by omega) (by omega), Res.bind_ok, hf]
  rfl

/-- Writing a matrix to text and reading it back (into any matrix) gives the matrix; the text has nine symbols. -/
theorem C22_text_roundtrip (a b : IM) (h : ValidIM a) :
    ∃ s, a.toStr = .ok s ∧ s.length = 9 ∧ b.setString s = .ok a ∧ newWithElements s = .ok a := by
  have hsym : ∀ i j, ∃ c, toDimensionSymbol (a.m i j) = some c := fun i j => by
    obtain ⟨c, hc⟩ := h i j
    exact ⟨c, (symbol_iff _ _).mpr hc⟩
  choose f hf using hsym
  refine ⟨_, toStr_eq a f hf, rfl, ?_⟩
  have hval : ∀ i j, toDimensionValue (f i j) = some (a.m i j) := fun i j => (C26_symbols _ _).2.2.1 (hf i j)
  have key : ∀ b : IM, b.setString [f 0 0, f 0 1, f 0 2, f 1 0, f 1 1, f 1 2, f 2 0, f 2 1, f 2 2] = .ok a := by
    intro b
    obtain ⟨r, hr, hcell⟩ := (C22_setString b [f 0 0, f 0 1, f 0 2, f 1 0, f 1 1, f 1 2, f 2 0, f 2 1, f 2 2]).1 (by
      intro i hi
      rw [List.getElem?_eq_none (by simpa using hi)]; rfl)
    rw [hr]
    congr 1
    ext i j
    rw [hcell]
    fin_cases i <;> fin_cases j <;> simp [cellValue, hval]
  exact ⟨key b, key _⟩

/-- Reading nine valid symbols and writing the matrix gives the symbols back, in upper case. -/
theorem C22_string_roundtrip (s : List Char) (hl : s.length = 9) (hs : ∀ c ∈ s, ∃ v, toDimensionValue c = some v) :
    ∃ a, newWithElements s = .ok a ∧ a.toStr = .ok (s.map asciiUpper) := by
  obtain ⟨a, ha, hcell⟩ := (C22_setString IM.default s).1 (by
    intro i hi; rw [List.getElem?_eq_none (by omega)]; rfl)
  refine ⟨a, ha, ?_⟩
  match s, hl with
  | [c0, c1, c2, c3, c4, c5, c6, c7, c8], _ =>
    let g : Fin 3 → Fin 3 → Char := fun i j => [c0, c1, c2, c3, c4, c5, c6, c7, c8].getD (3 * i.val + j.val) ' '
    have hg : ∀ i j, g i j ∈ [c0, c1, c2, c3, c4, c5, c6, c7, c8] := by
      intro i j; fin_cases i <;> fin_cases j <;> simp [g]
    have hsym : ∀ i j, toDimensionSymbol (a.m i j) = some (asciiUpper (g i j)) := by
      intro i j
      obtain ⟨v, hv⟩ := hs _ (hg i j)
      have : cellValue [c0, c1, c2, c3, c4, c5, c6, c7, c8] i j = some v := by
        rw [← hv]; fin_cases i <;> fin_cases j <;> rfl
      rw [hcell, this]
      obtain ⟨u, hu1, hu2⟩ := (C26_symbols v (g i j)).2.2.2 hv
      rw [← hu2]; exact hu1
    rw [toStr_eq a (fun i j => asciiUpper (g i j)) hsym]
    rfl

/-- A cell holding a value without symbol is skipped, so the text gets shorter and no longer determines the matrix. -/
theorem C22_invalid_values_shorten :
    ((IM.default.put 0 0 7).toStr = .ok ['F', 'F', 'F', 'F', 'F', 'F', 'F', 'F']) := by decide

/-- Copying a matrix copies it. -/
theorem C22_copy (o : IM) : newFrom o = o := by
  ext i j
  fin_cases i <;> fin_cases j <;> rfl

/-- `get` after `set` returns the value, other cells are unchanged, indices outside the matrix panic. -/
theorem C22_get_set (a : IM) (r c r' c' : Nat) (v : Int) :
    (r < 3 → c < 3 → ∃ b, a.setValue r c v = .ok b ∧ b.get r c = .ok v ∧
      ((r', c') ≠ (r, c) → b.get r' c' = a.get r' c')) ∧
    (¬ (r < 3 ∧ c < 3) → a.setValue r c v = .error .index ∧ a.get r c = .error .index) := by
  constructor
  · intro hr hc
    refine ⟨a.put ⟨r, hr⟩ ⟨c, hc⟩ v, by simp [setValue, hr, hc], by simp [IM.get, hr, hc, put], fun hne => ?_⟩
    simp only [IM.get, put]
    split
    · rename_i h
      simp only [Fin.mk.injEq]
      rw [if_neg]
      rintro ⟨rfl, rfl⟩; exact hne rfl
    · rfl
  · intro h
    simp [setValue, IM.get, h]

/-! ## C23 -/

/-- Transposing exchanges rows and columns. -/
theorem C23_transpose (a : IM) (i j : Fin 3) : a.transpose.m i j = a.m j i ∧ a.transpose.transpose = a := by
  have h : ∀ (a : IM) (i j : Fin 3), a.transpose.m i j = a.m j i := by
    intro a i j; fin_cases i <;> fin_cases j <;> rfl
  exact ⟨h a i j, by ext i j; rw [h, h]⟩

/-- Every predicate of the transposed matrix is the predicate with the geometries exchanged. -/
theorem C23_predicates (a : IM) (da db : Int) :
    a.transpose.isWithin = a.isContains ∧ a.transpose.isContains = a.isWithin ∧
    a.transpose.isCovers = a.isCoveredBy ∧ a.transpose.isCoveredBy = a.isCovers ∧
    a.transpose.isDisjoint = a.isDisjoint ∧ a.transpose.isIntersects = a.isIntersects ∧
    a.transpose.isEquals db da = a.isEquals da db ∧ a.transpose.isTouches db da = a.isTouches da db ∧
    a.transpose.isCrosses db da = a.isCrosses da db ∧ a.transpose.isOverlaps db da = a.isOverlaps da db := by
  have h : ∀ (i j : Fin 3), a.transpose.m i j = a.m j i := fun i j => (C23_transpose a i j).1
  simp only [isWithin, isContains, isCovers, isCoveredBy, isDisjoint, isIntersects, isEquals, isTouches, touchesOrdered,
    isCrosses, isOverlaps, h]
  refine ⟨trivial, trivial, ?_, ?_, ?_, ?_, ?_, ?_, ?_, ?_⟩
  · cases IM.isTrue (a.m 0 1) <;> cases IM.isTrue (a.m 1 0) <;> simp
  · cases IM.isTrue (a.m 0 1) <;> cases IM.isTrue (a.m 1 0) <;> simp
  · rw [Bool.and_right_comm (a.m 0 0 == FALSE)]
  · rw [Bool.and_right_comm (a.m 0 0 == FALSE)]
  · split_ifs <;> first | omega | rfl | skip
    cases IM.isTrue (a.m 0 0) <;> cases (a.m 0 2 == FALSE) <;> cases (a.m 1 2 == FALSE) <;> simp
  · simp only [Dimension.P, Dimension.L, Dimension.A]
    split_ifs <;> first | omega | rfl | (cases IM.isTrue (a.m 0 1) <;> cases IM.isTrue (a.m 1 0) <;> rfl)
  · simp only [Dimension.P, Dimension.L, Dimension.A]
    split_ifs <;> first | omega | rfl
  · simp only [Dimension.P, Dimension.L, Dimension.A]
    split_ifs <;> first | omega | rfl | (cases IM.isTrue (a.m 2 0) <;> cases IM.isTrue (a.m 0 2) <;> simp)

/-! ## C25 -/

theorem setAtLeast_ok (a : IM) (r c : Nat) (hr : r < 3) (hc : c < 3) (v : Int) :
    a.setAtLeast r c v = .ok (a.put ⟨r, hr⟩ ⟨c, hc⟩ (max (a.m ⟨r, hr⟩ ⟨c, hc⟩) v)) := by
  simp only [setAtLeast, IM.get, hr, hc, and_self, dite_true, Res.bind_ok, setValue]
  split
  · rename_i h; rw [max_eq_right (le_of_lt h)]
  · rename_i h
    rw [max_eq_left (by omega)]
    simp only [Res.pure_eq]
    congr 1
    ext i j
    simp only [put]
    split
    · rename_i h'; rw [h'.1, h'.2]
    · rfl

/-- `add` is the pointwise maximum, and never panics. -/
theorem C25_add_is_max (a b : IM) : ∃ r, a.add b = .ok r ∧ ∀ i j, r.m i j = max (a.m i j) (b.m i j) := by
  have hg : ∀ (i j : Nat) (hi : i < 3) (hj : j < 3), b.get i j = .ok (b.m ⟨i, hi⟩ ⟨j, hj⟩) := by
    intro i j hi hj; simp [IM.get, hi, hj]
  have hs : ∀ (a : IM) (r c : Nat) (hr : r < 3) (hc : c < 3) (v : Int),
    a.setAtLeast r c v = .ok (a.put ⟨r, hr⟩ ⟨c, hc⟩ (max (a.m ⟨r, hr⟩ ⟨c, hc⟩) v)) := setAtLeast_ok
  simp only [IM.add, forRange_three]
  simp only [hg 0 0 (by omega) (by omega), hg 0 1 (by omega) (by omega), hg 0 2 (by omega) (by omega),
    hg 1 0 (by omega) (by omega), hg 1 1 (by omega) (by omega), hg 1 2 (by omega) (by omega),
    hg 2 0 (by omega) (by omega), hg 2 1 (by omega) (by omega), hg 2 2 (by omega) (by omega), Res.bind_ok]
  simp only [hs _ 0 0 (by omega) (by omega), hs _ 0 1 (by omega) (by omega), hs _ 0 2 (by omega) (by omega),
    hs _ 1 0 (by omega) (by omega), hs _ 1 1 (by omega) (by omega), hs _ 1 2 (by omega) (by omega),
    hs _ 2 0 (by omega) (by omega), hs _ 2 1 (by omega) (by omega), hs _ 2 2 (by omega) (by omega), Res.bind_ok]
  refine ⟨_, rfl, ?_⟩
  intro i j
  fin_cases i <;> fin_cases j <;> rfl

/-- The join laws: upper bound, least, idempotent, commutative, associative. -/
theorem C25_join_laws (a b c : IM) :
    (∃ r, a.add b = .ok r ∧ b.add a = .ok r ∧ (∀ i j, a.m i j ≤ r.m i j ∧ b.m i j ≤ r.m i j) ∧
      ∀ u : IM, (∀ i j, a.m i j ≤ u.m i j ∧ b.m i j ≤ u.m i j) → ∀ i j, r.m i j ≤ u.m i j) ∧
    a.add a = .ok a ∧
    (a.add b >>= fun x => x.add c) = (b.add c >>= fun y => a.add y) := by
  have key : ∀ a b : IM, a.add b = .ok ⟨fun i j => max (a.m i j) (b.m i j)⟩ := by
    intro a b
    obtain ⟨r, hr, h⟩ := C25_add_is_max a b
    rw [hr]; congr 1; ext i j; exact h i j
  refine ⟨⟨_, key a b, ?_, ?_, ?_⟩, ?_, ?_⟩
  · rw [key]; congr 1; ext i j; exact max_comm _ _
  · intro i j; exact ⟨le_max_left _ _, le_max_right _ _⟩
  · intro u hu i j; exact max_le (hu i j).1 (hu i j).2
  · rw [key]; congr 1; ext i j; exact max_self _
  · rw [key, key]
    simp only [Res.bind_ok, key]
    congr 1; ext i j; exact max_assoc _ _ _

/-- One `set_at_least` raises one cell to the maximum and panics outside the matrix. -/
theorem C25_setAtLeast (a : IM) (r c : Nat) (v : Int) :
    (∀ hr : r < 3, ∀ hc : c < 3, ∃ b, a.setAtLeast r c v = .ok b ∧
      b.m ⟨r, hr⟩ ⟨c, hc⟩ = max (a.m ⟨r, hr⟩ ⟨c, hc⟩) v ∧
      ∀ i j, (i, j) ≠ ((⟨r, hr⟩ : Fin 3), (⟨c, hc⟩ : Fin 3)) → b.m i j = a.m i j) ∧
    (¬ (r < 3 ∧ c < 3) → a.setAtLeast r c v = .error .index) := by
  constructor
  · intro hr hc
    refine ⟨_, setAtLeast_ok a r c hr hc v, by simp [put], fun i j hne => ?_⟩
    simp only [put]
    rw [if_neg]
    rintro ⟨rfl, rfl⟩; exact hne rfl
  · intro h; simp [setAtLeast, IM.get, h]

/-- An update of a matrix by accumulation. -/
inductive JoinOp where
  | add (m : IM)
  | atLeast (row col : Nat) (v : Int)
  | atLeastString (s : List Char)

def JoinOp.run (a : IM) : JoinOp → Res IM
  | .add m => a.add m
  | .atLeast r c v => a.setAtLeast r c v
  | .atLeastString s => a.setAtLeastString s

theorem setAtLeastString_mono (a b : IM) (s : List Char) (h : a.setAtLeastString s = .ok b) (i j : Fin 3) :
    a.m i j ≤ b.m i j := by
  have : ∀ n (a b : IM), forRange 0 n a (leastStep s) = .ok b → a.m i j ≤ b.m i j := by
    intro n
    induction n with
    | zero => intro a b h; rw [forRange_self _ _ (by omega)] at h; cases h; exact le_refl _
    | succ n ih =>
      intro a b h
      rw [forRange_succ _ _ (by omega)] at h
      cases h1 : forRange 0 n a (leastStep s) with
      | error e => rw [h1] at h; cases h
      | ok b1 =>
        rw [h1, Res.bind_ok] at h
        refine le_trans (ih a b1 h1) ?_
        unfold leastStep at h
        split at h
        · split at h
          · rename_i v _
            by_cases hn : n / 3 < 3 ∧ n % 3 < 3
            · rw [setAtLeast_ok b1 _ _ hn.1 hn.2] at h
              cases h
              simp only [put]
              split
              · rename_i h'; rw [h'.1, h'.2]; exact le_max_left _ _
              · exact le_refl _
            · rw [(C25_setAtLeast b1 _ _ v).2 hn] at h; cases h
          · cases h; exact le_refl _
        · cases h; exact le_refl _
  exact this _ a b h

/-- Over any history of accumulations no cell ever decreases. -/
theorem C25_history_monotone (ops : List JoinOp) (a b : IM) (h : ops.foldlM JoinOp.run a = .ok b) (i j : Fin 3) :
    a.m i j ≤ b.m i j := by
  induction ops generalizing a with
  | nil => cases h; exact le_refl _
  | cons o ops ih =>
    rw [List.foldlM_cons] at h
    cases h1 : o.run a with
    | error e => rw [h1] at h; cases h
    | ok a1 =>
      rw [h1, Res.bind_ok] at h
      refine le_trans ?_ (ih a1 h)
      cases o with
      | add m =>
        obtain ⟨r, hr, hm⟩ := C25_add_is_max a m
        simp only [JoinOp.run, hr] at h1; cases h1
        rw [hm]; exact le_max_left _ _
      | atLeast r c v =>
        simp only [JoinOp.run] at h1
        by_cases hrc : r < 3 ∧ c < 3
        · rw [setAtLeast_ok a r c hrc.1 hrc.2] at h1
          cases h1
          simp only [put]
          split
          · rename_i h'; rw [h'.1, h'.2]; exact le_max_left _ _
          · exact le_refl _
        · rw [(C25_setAtLeast a r c v).2 hrc] at h1; cases h1
      | atLeastString s => exact setAtLeastString_mono a a1 s h1 i j

/-- `set_all` sets every cell. -/
theorem C25_setAll (a : IM) (v : Int) : ∃ b, a.setAll v = .ok b ∧ ∀ i j, b.m i j = v := by
  refine ⟨⟨fun _ _ => v⟩, ?_, fun _ _ => rfl⟩
  simp only [IM.setAll, forRange_three]
  simp only [setValue, show (0:Nat) < 3 by omega, show (1:Nat) < 3 by omega, show (2:Nat) < 3 by omega, and_self, dite_true,
    Res.bind_ok]
  congr 1
  ext i j
  fin_cases i <;> fin_cases j <;> rfl

section examples
/-- interiors of two overlapping areas -/
def exIM : IM := ⟨fun i j => [2, 1, 2, 1, 0, 1, 2, 1, 2].getD (3 * i.val + j.val) 0⟩
example : ValidIM exIM := by
  intro i j
  have : (toDimensionSymbol (exIM.m i j)).isSome = true := by revert i j; decide
  obtain ⟨c, hc⟩ := Option.isSome_iff_exists.mp this
  exact ⟨c, (symbol_iff _ _).mp hc⟩
example : exIM.toStr = .ok "212101212".toList := by decide
example : ∀ c ∈ "tf*012TFF".toList, ∃ v, toDimensionValue c = some v := by
  intro c hc
  have : (toDimensionValue c).isSome = true := by revert c; decide
  exact Option.isSome_iff_exists.mp this
example : (IM.default.add exIM >>= IM.toStr) = .ok "212101212".toList := by decide
end examples

end Verif.Props
