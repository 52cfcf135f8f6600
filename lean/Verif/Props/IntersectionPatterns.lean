import Verif.Model.IntersectionMatrix
import Verif.Lemmas.Loop
import Mathlib.Tactic.FinCases
import Mathlib.Data.Fintype.Basic
import Mathlib.Tactic.Tauto

/-! # C24: relation predicates and patterns of the DE-9IM matrix -/

namespace Verif.Props
open IM Dimension

/-! ## C24 -/

/-- Specification: what a pattern symbol demands of a cell. -/
def SymHolds (c : Char) (v : Int) : Prop :=
  c = '*' ∨ (c = 'T' ∧ (0 ≤ v ∨ v = -2)) ∨ (c = 'F' ∧ v = -1) ∨ (c = '0' ∧ v = 0) ∨ (c = '1' ∧ v = 1) ∨
    (c = '2' ∧ v = 2)

/-- Specification: a nine symbol pattern, row by row. -/
def PatHolds (p : String) (a : IM) : Prop :=
  p.toList.length = 9 ∧ ∀ (i j : Fin 3) (c : Char), p.toList[3 * i.val + j.val]? = some c → SymHolds c (a.m i j)

theorem matchesChar_iff (v : Int) (c : Char) : matchesChar v c = true ↔ SymHolds c v := by
  simp only [matchesChar, SymHolds, TRUE, FALSE, P, L, A]
  split_ifs <;> simp_all

theorem forFind_three {β : Type} (f : Nat → Res (Option β)) (p : Nat → Option β) (h : ∀ i < 3, f i = .ok (p i)) :
    forFind 0 3 f = .ok ([0, 1, 2].findSome? p) :=
  forFind_ok 0 3 f p (fun i _ hi => h i hi)

/-- `matches_string` on a pattern of nine ASCII symbols decides the pattern. -/
theorem C24_matchesString (a : IM) (p : String) (hascii : ∀ c ∈ p.toList, c.utf8Size = 1) :
    ∃ b, a.matchesString p.toList = .ok b ∧ (b = true ↔ PatHolds p a) := by
  have hlen : byteLen p.toList = p.toList.length := by
    generalize p.toList = l at *
    induction l with
    | nil => rfl
    | cons c l ih =>
      have := ih (fun c hc => hascii c (by simp [hc]))
      simp only [byteLen, List.map_cons, List.sum_cons, List.length_cons] at *
      rw [this, hascii c (by simp)]; omega
  rw [matchesString]
  by_cases h9 : p.toList.length = 9
  · rw [if_neg (by omega)]
    unfold PatHolds
    generalize p.toList = l at *
    match l, h9 with
    | [c0, c1, c2, c3, c4, c5, c6, c7, c8], _ =>
      have hinner : ∀ (ai : Nat) (h : ai < 3), forFind 0 3 (fun bi =>
          match [c0, c1, c2, c3, c4, c5, c6, c7, c8][3 * ai + bi]? with
          | some ch => do
            let v ← a.get ai bi
            if !matchesChar v ch then pure (some false) else pure none
          | none => pure (some false)) =
          .ok ([0, 1, 2].findSome? (fun bi : Nat => if hb : bi < 3 then
            (if matchesChar (a.m ⟨ai, h⟩ ⟨bi, hb⟩) ([c0, c1, c2, c3, c4, c5, c6, c7, c8].getD (3 * ai + bi) ' ') then none
              else some false) else none)) := by
        intro ai h
        apply forFind_three
        intro bi hb
        have hlt : 3 * ai + bi < [c0, c1, c2, c3, c4, c5, c6, c7, c8].length := by simp; omega
        rw [List.getElem?_eq_getElem hlt]
        simp only [IM.get, h, hb, and_self, dite_true, Res.bind_ok, List.getD_eq_getElem?_getD,
          List.getElem?_eq_getElem hlt, Option.getD_some]
        cases matchesChar (a.m ⟨ai, h⟩ ⟨bi, hb⟩) [c0, c1, c2, c3, c4, c5, c6, c7, c8][3 * ai + bi] <;> rfl
      rw [forFind_three _ (fun ai => if h : ai < 3 then [0, 1, 2].findSome? (fun bi : Nat => if hb : bi < 3 then
            (if matchesChar (a.m ⟨ai, h⟩ ⟨bi, hb⟩) ([c0, c1, c2, c3, c4, c5, c6, c7, c8].getD (3 * ai + bi) ' ') then none
              else some false) else none) else none)]
      · refine ⟨_, rfl, ?_⟩
        have hall : (∀ (i j : Fin 3) (c : Char), [c0, c1, c2, c3, c4, c5, c6, c7, c8][3 * i.val + j.val]? = some c →
            SymHolds c (a.m i j)) ↔ (matchesChar (a.m 0 0) c0 ∧ matchesChar (a.m 0 1) c1 ∧ matchesChar (a.m 0 2) c2) ∧
              (matchesChar (a.m 1 0) c3 ∧ matchesChar (a.m 1 1) c4 ∧ matchesChar (a.m 1 2) c5) ∧
              (matchesChar (a.m 2 0) c6 ∧ matchesChar (a.m 2 1) c7 ∧ matchesChar (a.m 2 2) c8) := by
          simp only [matchesChar_iff]
          constructor
          · intro h
            exact ⟨⟨h 0 0 _ rfl, h 0 1 _ rfl, h 0 2 _ rfl⟩, ⟨h 1 0 _ rfl, h 1 1 _ rfl, h 1 2 _ rfl⟩,
              ⟨h 2 0 _ rfl, h 2 1 _ rfl, h 2 2 _ rfl⟩⟩
          · rintro ⟨⟨h1, h2, h3⟩, ⟨h4, h5, h6⟩, h7, h8, h9⟩ i j c hc
            fin_cases i <;> fin_cases j <;> simp at hc <;> subst hc <;> assumption
        simp only [List.length_cons, List.length_nil, Nat.zero_add, true_and]
        rw [hall]
        have e : ∀ (i j : Nat) (hi : i < 3) (hj : j < 3), a.m ⟨i, hi⟩ ⟨j, hj⟩ = a.m (Fin.ofNat 3 i) (Fin.ofNat 3 j) := by
          intro i j hi hj
          congr 1 <;> ext <;> simp <;> omega
        simp only [List.findSome?_cons, List.findSome?_nil]
        simp only [show (0:Nat) < 3 by omega, show (1:Nat) < 3 by omega, show (2:Nat) < 3 by omega, dite_true]
        simp only [List.getD_eq_getElem?_getD]
        simp only [Fin.mk_zero, Fin.mk_one, Fin.reduceFinMk]
        simp
        cases matchesChar (a.m 0 0) c0 <;> cases matchesChar (a.m 0 1) c1 <;> cases matchesChar (a.m 0 2) c2 <;>
        cases matchesChar (a.m 1 0) c3 <;> cases matchesChar (a.m 1 1) c4 <;> cases matchesChar (a.m 1 2) c5 <;>
        cases matchesChar (a.m 2 0) c6 <;> cases matchesChar (a.m 2 1) c7 <;> cases matchesChar (a.m 2 2) c8 <;> simp
      · intro ai h
        rw [dif_pos h]
        exact hinner ai h
  · rw [if_pos (by omega)]
    exact ⟨false, rfl, by simp [PatHolds]; intro h; exact absurd h h9⟩

theorem isTrue_iff (v : Int) : IM.isTrue v = true ↔ 0 ≤ v ∨ v = -2 := by
  simp [IM.isTrue, TRUE]

/-- cells of a pattern, spelled out -/
theorem patHolds_iff (p : String) (a : IM) (c0 c1 c2 c3 c4 c5 c6 c7 c8 : Char)
    (hp : p.toList = [c0, c1, c2, c3, c4, c5, c6, c7, c8]) :
    PatHolds p a ↔ SymHolds c0 (a.m 0 0) ∧ SymHolds c1 (a.m 0 1) ∧ SymHolds c2 (a.m 0 2) ∧
      SymHolds c3 (a.m 1 0) ∧ SymHolds c4 (a.m 1 1) ∧ SymHolds c5 (a.m 1 2) ∧
      SymHolds c6 (a.m 2 0) ∧ SymHolds c7 (a.m 2 1) ∧ SymHolds c8 (a.m 2 2) := by
  simp only [PatHolds, hp]
  constructor
  · rintro ⟨-, h⟩
    exact ⟨h 0 0 _ rfl, h 0 1 _ rfl, h 0 2 _ rfl, h 1 0 _ rfl, h 1 1 _ rfl, h 1 2 _ rfl,
      h 2 0 _ rfl, h 2 1 _ rfl, h 2 2 _ rfl⟩
  · rintro ⟨h1, h2, h3, h4, h5, h6, h7, h8, h9⟩
    refine ⟨rfl, ?_⟩
    intro i j c hc
    fin_cases i <;> fin_cases j <;> simp at hc <;> subst hc <;> assumption

theorem sym_star (v : Int) : SymHolds '*' v ↔ True := by simp [SymHolds]
theorem sym_T (v : Int) : SymHolds 'T' v ↔ IM.isTrue v = true := by simp [SymHolds, isTrue_iff]
theorem sym_F (v : Int) : SymHolds 'F' v ↔ (v == FALSE) = true := by simp [SymHolds, FALSE]
theorem sym_0 (v : Int) : SymHolds '0' v ↔ v = 0 := by simp [SymHolds]
theorem sym_1 (v : Int) : SymHolds '1' v ↔ v = 1 := by simp [SymHolds]

/-- The predicates without dimension arguments are their documented patterns. -/
theorem C24_patterns (a : IM) :
    (a.isDisjoint = true ↔ PatHolds "FF*FF****" a) ∧
    (a.isIntersects = true ↔ ¬ PatHolds "FF*FF****" a) ∧
    (a.isContains = true ↔ PatHolds "T*****FF*" a) ∧
    (a.isWithin = true ↔ PatHolds "T*F**F***" a) ∧
    (a.isCovers = true ↔ PatHolds "T*****FF*" a ∨ PatHolds "*T****FF*" a ∨ PatHolds "***T**FF*" a ∨
      PatHolds "****T*FF*" a) ∧
    (a.isCoveredBy = true ↔ PatHolds "T*F**F***" a ∨ PatHolds "*TF**F***" a ∨ PatHolds "**FT*F***" a ∨
      PatHolds "**F*TF***" a) := by
  refine ⟨?_, ?_, ?_, ?_, ?_, ?_⟩
  · rw [patHolds_iff "FF*FF****" a 'F' 'F' '*' 'F' 'F' '*' '*' '*' '*' (by decide)]
    simp only [sym_star, sym_F, isDisjoint, Bool.and_eq_true]; tauto
  · rw [patHolds_iff "FF*FF****" a 'F' 'F' '*' 'F' 'F' '*' '*' '*' '*' (by decide)]
    simp only [sym_star, sym_F, isIntersects, isDisjoint, Bool.not_eq_true', ← Bool.not_eq_true, Bool.and_eq_true]; tauto
  · rw [patHolds_iff "T*****FF*" a 'T' '*' '*' '*' '*' '*' 'F' 'F' '*' (by decide)]
    simp only [sym_star, sym_F, sym_T, isContains, Bool.and_eq_true]; tauto
  · rw [patHolds_iff "T*F**F***" a 'T' '*' 'F' '*' '*' 'F' '*' '*' '*' (by decide)]
    simp only [sym_star, sym_F, sym_T, isWithin, Bool.and_eq_true]; tauto
  · rw [patHolds_iff "T*****FF*" a 'T' '*' '*' '*' '*' '*' 'F' 'F' '*' (by decide), patHolds_iff "*T****FF*" a '*' 'T' '*' '*' '*' '*' 'F' 'F' '*' (by decide),
      patHolds_iff "***T**FF*" a '*' '*' '*' 'T' '*' '*' 'F' 'F' '*' (by decide), patHolds_iff "****T*FF*" a '*' '*' '*' '*' 'T' '*' 'F' 'F' '*' (by decide)]
    simp only [sym_star, sym_F, sym_T, isCovers, Bool.and_eq_true, Bool.or_eq_true]; tauto
  · rw [patHolds_iff "T*F**F***" a 'T' '*' 'F' '*' '*' 'F' '*' '*' '*' (by decide), patHolds_iff "*TF**F***" a '*' 'T' 'F' '*' '*' 'F' '*' '*' '*' (by decide),
      patHolds_iff "**FT*F***" a '*' '*' 'F' 'T' '*' 'F' '*' '*' '*' (by decide), patHolds_iff "**F*TF***" a '*' '*' 'F' '*' 'T' 'F' '*' '*' '*' (by decide)]
    simp only [sym_star, sym_F, sym_T, isCoveredBy, Bool.and_eq_true, Bool.or_eq_true]; tauto

/-- The predicates with dimension arguments: documented patterns for the documented dimension pairs, false elsewhere. -/
theorem C24_patterns_dim (a : IM) (da db : Int) :
    (a.isEquals da db = true ↔ da = db ∧ PatHolds "T*F**FFF*" a) ∧
    (a.isTouches da db = true ↔ (da, db) ∈ [(2, 2), (1, 1), (1, 2), (2, 1), (0, 2), (2, 0), (0, 1), (1, 0)] ∧
      (PatHolds "FT*******" a ∨ PatHolds "F**T*****" a ∨ PatHolds "F***T****" a)) ∧
    (a.isCrosses da db = true ↔
      ((da, db) ∈ [(0, 1), (0, 2), (1, 2)] ∧ PatHolds "T*T******" a) ∨
      ((da, db) ∈ [(1, 0), (2, 0), (2, 1)] ∧ PatHolds "T*****T**" a) ∨
      ((da, db) = (1, 1) ∧ PatHolds "0********" a)) ∧
    (a.isOverlaps da db = true ↔
      ((da, db) ∈ [(0, 0), (2, 2)] ∧ PatHolds "T*T***T**" a) ∨
      ((da, db) = (1, 1) ∧ PatHolds "1*T***T**" a)) := by
  refine ⟨?_, ?_, ?_, ?_⟩
  · rw [patHolds_iff "T*F**FFF*" a 'T' '*' 'F' '*' '*' 'F' 'F' 'F' '*' (by decide)]
    simp only [sym_star, sym_F, sym_T, isEquals]
    split_ifs with h
    · simp [h]
    · rw [not_ne_iff] at h
      simp only [h, Bool.and_eq_true]; tauto
  · rw [patHolds_iff "FT*******" a 'F' 'T' '*' '*' '*' '*' '*' '*' '*' (by decide), patHolds_iff "F**T*****" a 'F' '*' '*' 'T' '*' '*' '*' '*' '*' (by decide),
      patHolds_iff "F***T****" a 'F' '*' '*' '*' 'T' '*' '*' '*' '*' (by decide)]
    simp only [sym_star, sym_F, sym_T, isTouches, touchesOrdered, Dimension.P, Dimension.L, Dimension.A, List.mem_cons,
      Prod.mk.injEq, List.not_mem_nil, or_false]
    have hbody : (a.m 0 0 == FALSE && (IM.isTrue (a.m 0 1) || IM.isTrue (a.m 1 0) || IM.isTrue (a.m 1 1))) = true ↔
        ((a.m 0 0 == FALSE) = true ∧ IM.isTrue (a.m 0 1) = true) ∨ ((a.m 0 0 == FALSE) = true ∧ IM.isTrue (a.m 1 0) = true) ∨
        ((a.m 0 0 == FALSE) = true ∧ IM.isTrue (a.m 1 1) = true) := by
      simp only [Bool.and_eq_true, Bool.or_eq_true]; tauto
    split_ifs <;> (try rw [hbody]) <;> simp only [true_and, and_true, Bool.false_eq_true, false_iff] <;>
      first | (constructor <;> intro hh <;> first | exact ⟨by omega, hh⟩ | exact hh.2) | (rintro ⟨hh, -⟩; omega)
  · rw [patHolds_iff "T*T******" a 'T' '*' 'T' '*' '*' '*' '*' '*' '*' (by decide), patHolds_iff "T*****T**" a 'T' '*' '*' '*' '*' '*' 'T' '*' '*' (by decide),
      patHolds_iff "0********" a '0' '*' '*' '*' '*' '*' '*' '*' '*' (by decide)]
    simp only [sym_star, sym_0, sym_T, isCrosses, Dimension.P, Dimension.L, Dimension.A, List.mem_cons,
      Prod.mk.injEq, List.not_mem_nil, or_false, true_and, and_true]
    split_ifs with h1 h2 h3
    · have h2 : ¬ ((da = 1 ∧ db = 0) ∨ (da = 2 ∧ db = 0) ∨ (da = 2 ∧ db = 1)) := by omega
      have h3 : ¬ (da = 1 ∧ db = 1) := by omega
      simp only [h1, h2, h3, Bool.and_eq_true, true_and, false_and, or_false]
    · have h3 : ¬ (da = 1 ∧ db = 1) := by omega
      simp only [h1, h2, h3, Bool.and_eq_true, true_and, false_and, or_false, false_or]
    · simp only [h1, h2, true_and, false_and, false_or, h3, beq_iff_eq]
      simp
    · simp [h1, h2, h3]
  · rw [patHolds_iff "T*T***T**" a 'T' '*' 'T' '*' '*' '*' 'T' '*' '*' (by decide), patHolds_iff "1*T***T**" a '1' '*' 'T' '*' '*' '*' 'T' '*' '*' (by decide)]
    simp only [sym_star, sym_1, sym_T, isOverlaps, Dimension.P, Dimension.L, Dimension.A, List.mem_cons,
      Prod.mk.injEq, List.not_mem_nil, or_false, true_and, and_true]
    split_ifs with h1 h2
    · have h2 : ¬ (da = 1 ∧ db = 1) := by omega
      simp only [h1, h2, Bool.and_eq_true, true_and, false_and, or_false, and_assoc]
    · simp only [h1, h2, Bool.and_eq_true, true_and, false_and, false_or, beq_iff_eq, and_assoc]
      simp
    · simp [h1, h2]

/-- Implications between predicates. -/
theorem C24_implications (a : IM) (da db : Int) :
    (a.isContains = true → a.isCovers = true) ∧ (a.isWithin = true → a.isCoveredBy = true) ∧
    (a.isCovers = true → a.isIntersects = true) ∧ (a.isCoveredBy = true → a.isIntersects = true) ∧
    (a.isTouches da db = true → a.isIntersects = true) ∧ (a.isCrosses da db = true → a.isIntersects = true) ∧
    (a.isOverlaps da db = true → a.isIntersects = true) ∧
    (a.isEquals da db = true → a.isCovers = true ∧ a.isCoveredBy = true ∧ a.isWithin = true ∧ a.isContains = true) ∧
    (a.isTouches da db = true → a.isContains = false ∧ a.isWithin = false) := by
  have ht : ∀ v, IM.isTrue v = true → (v == FALSE) = false := by
    intro v h; rw [isTrue_iff] at h; simp [FALSE]; omega
  have hf : ∀ v, (v == FALSE) = true → IM.isTrue v = false := by
    intro v h; cases h2 : IM.isTrue v
    · rfl
    · rw [ht v h2] at h; cases h
  simp only [isContains, isCovers, isWithin, isCoveredBy, isIntersects, isDisjoint, isTouches, touchesOrdered, isCrosses,
    isOverlaps, isEquals, Bool.and_eq_true, Bool.or_eq_true, Bool.not_eq_true', Bool.and_eq_false_iff]
  refine ⟨by tauto, by tauto, ?_, ?_, ?_, ?_, ?_, ?_, ?_⟩
  · rintro ⟨⟨((h | h) | h) | h, -⟩, -⟩ <;> have := ht _ h <;> tauto
  · rintro ⟨⟨((h | h) | h) | h, -⟩, -⟩ <;> have := ht _ h <;> tauto
  · split_ifs <;> simp only [Bool.and_eq_true, Bool.or_eq_true, Bool.false_eq_true, false_implies]
    all_goals rintro ⟨-, (h | h) | h⟩ <;> have := ht _ h <;> tauto
  · split_ifs
    · rw [Bool.and_eq_true]; rintro ⟨h, -⟩; have := ht _ h; tauto
    · rw [Bool.and_eq_true]; rintro ⟨h, -⟩; have := ht _ h; tauto
    · intro h
      rw [beq_iff_eq] at h
      left; left; left; rw [h]; rfl
    · simp
  · split_ifs
    · simp only [Bool.and_eq_true]; rintro ⟨⟨h, -⟩, -⟩; have := ht _ h; tauto
    · simp only [Bool.and_eq_true]; rintro ⟨⟨h, -⟩, -⟩
      rw [beq_iff_eq] at h
      left; left; left; rw [h]; rfl
    · simp
  · split_ifs
    · simp
    · simp only [Bool.and_eq_true]; tauto
  · split_ifs <;> simp only [Bool.and_eq_true, Bool.or_eq_true, Bool.false_eq_true, false_implies]
    all_goals rintro ⟨h, -⟩; have := hf _ h; tauto


theorem find3 (p q r : Prop) [Decidable p] [Decidable q] [Decidable r] (f : Nat → Option Bool)
    (h0 : f 0 = if p then none else some false) (h1 : f 1 = if q then none else some false)
    (h2 : f 2 = if r then none else some false) :
    [0, 1, 2].findSome? f = if p ∧ q ∧ r then none else some false := by
  simp only [List.findSome?_cons, List.findSome?_nil, h0, h1, h2]
  by_cases p <;> by_cases q <;> by_cases r <;> simp [*]

/-- `equals` decides equality of all nine cells. -/
theorem C24_equals (a b : IM) : a.equals b = .ok (decide (∀ i j, a.m i j = b.m i j)) := by
  have hin : ∀ (i : Nat) (hi : i < 3), forFind 0 3 (fun j => do
      let x ← a.get i j
      let y ← b.get i j
      if x ≠ y then pure (some false) else pure none) = .ok (if a.m ⟨i, hi⟩ 0 = b.m ⟨i, hi⟩ 0 ∧
        a.m ⟨i, hi⟩ 1 = b.m ⟨i, hi⟩ 1 ∧ a.m ⟨i, hi⟩ 2 = b.m ⟨i, hi⟩ 2 then none else some false) := by
    intro i hi
    rw [forFind_three _ (fun j : Nat =>
        if hj : j < 3 then (if a.m ⟨i, hi⟩ ⟨j, hj⟩ = b.m ⟨i, hi⟩ ⟨j, hj⟩ then none else some false) else none)]
    · rw [find3 _ _ _ _ rfl rfl rfl]; rfl
    · intro j hj
      simp only [IM.get, hi, hj, and_self, dite_true, Res.bind_ok]
      split_ifs <;> first | rfl | contradiction
  rw [IM.equals, forFind_three _ (fun i => if hi : i < 3 then (if a.m ⟨i, hi⟩ 0 = b.m ⟨i, hi⟩ 0 ∧
        a.m ⟨i, hi⟩ 1 = b.m ⟨i, hi⟩ 1 ∧ a.m ⟨i, hi⟩ 2 = b.m ⟨i, hi⟩ 2 then none else some false) else none)
    (fun i hi => by rw [dif_pos hi]; exact hin i hi), find3 _ _ _ _ rfl rfl rfl, Res.bind_ok]
  have hall : (∀ i j : Fin 3, a.m i j = b.m i j) ↔ (a.m 0 0 = b.m 0 0 ∧ a.m 0 1 = b.m 0 1 ∧ a.m 0 2 = b.m 0 2) ∧
      (a.m 1 0 = b.m 1 0 ∧ a.m 1 1 = b.m 1 1 ∧ a.m 1 2 = b.m 1 2) ∧
      (a.m 2 0 = b.m 2 0 ∧ a.m 2 1 = b.m 2 1 ∧ a.m 2 2 = b.m 2 2) := by
    constructor
    · intro h; simp [h]
    · rintro ⟨⟨h1, h2, h3⟩, ⟨h4, h5, h6⟩, h7, h8, h9⟩ i j
      fin_cases i <;> fin_cases j <;> assumption
  rw [decide_eq_decide.mpr hall]
  simp only [Fin.mk_zero, Fin.mk_one, Fin.reduceFinMk, Res.pure_eq]
  by_cases h : (a.m 0 0 = b.m 0 0 ∧ a.m 0 1 = b.m 0 1 ∧ a.m 0 2 = b.m 0 2) ∧
      (a.m 1 0 = b.m 1 0 ∧ a.m 1 1 = b.m 1 1 ∧ a.m 1 2 = b.m 1 2) ∧
      (a.m 2 0 = b.m 2 0 ∧ a.m 2 1 = b.m 2 1 ∧ a.m 2 2 = b.m 2 2)
  · rw [if_pos h, decide_eq_true h]; rfl
  · rw [if_neg h, decide_eq_false h]; rfl

section examples
/-- interiors of two overlapping areas -/
def exIM24 : IM := ⟨fun i j => [2, 1, 2, 1, 0, 1, 2, 1, 2].getD (3 * i.val + j.val) 0⟩

example : exIM24.isOverlaps 2 2 = true ∧ exIM24.isTouches 2 2 = false := by decide
example : exIM24.matchesString "T*T***T**".toList = .ok true := by decide
example : ∀ c ∈ "T*T***T**".toList, c.utf8Size = 1 := by decide
end examples

end Verif.Props
