import Verif.Props.Sequences
import Verif.Spec.Lex

set_option linter.unusedSectionVars false

/-! # C21: the sequence comparator -/

namespace Verif.Props
open Flt SeqCompare Verif.Spec
variable {α : Type} [Flt α]

/-- Equality as the comparator sees it: `==`, or both NaN. -/
def NanEq (a b : α) : Prop := (a ==. b) = true ∨ (isNaN a = true ∧ isNaN b = true)

/-- The comparison of numbers is a total order of all numbers, NaN included. -/
theorem C21_compareF64_total_order [FltOrd α] : TotalOrderOn (fun _ : α => True) compareF64 NanEq where
  range a b := by unfold compareF64; split_ifs <;> simp
  zero_iff a b _ _ := by
    simp only [compareF64, NanEq, lt_eq, eq_eq]
    grind
  swap a b _ _ := by
    simp only [compareF64, lt_eq]
    grind
  trans a b c _ _ _ := by
    simp only [compareF64, lt_eq]
    grind (splits := 30)

/-- NaN is less than every number. -/
theorem C21_nan_least [FltOrd α] (a b : α) (ha : isNaN a = true) (hb : isNaN b = false) : compareF64 a b = -1 := by
  simp [compareF64, lt_eq, ha, hb]

/-- The first `D` ordinates of a coordinate: x, y, z, and NaN from there on (measures cannot be addressed). -/
def ordinates (D : Nat) (c : Coord α) : List α :=
  (List.range D).map (fun k => match k with | 0 => c.x | 1 => c.y | 2 => c.z | _ => nan)

theorem getOrd_ok (s : CASeq α) (i : Nat) (hi : i < s.coordinates.length) (d : Nat) :
    s.getOrd i (d : Int) = .ok (match d with | 0 => s.coordinates[i].x | 1 => s.coordinates[i].y | 2 => s.coordinates[i].z | _ => nan) := by
  unfold CASeq.getOrd
  rw [Res.get_lt hi, Res.bind_ok]
  match d with
  | 0 => simp
  | 1 => simp
  | 2 => simp [Coord.getOrdinate]
  | n + 3 =>
    have h0 : ¬ ((n + 3 : Nat) : Int) = 0 := by omega
    have h1 : ¬ ((n + 3 : Nat) : Int) = 1 := by omega
    have h2 : ¬ ((n + 3 : Nat) : Int) = 2 := by omega
    simp only [h0, h1, if_false, Coord.getOrdinate, h2]
    rfl

/-- One step of the search for the first difference. -/
def diffAt {A : Type} (cmp : A → A → Int) (d : A) (l m : List A) (k : Nat) : Option Int :=
  if cmp (l[k]?.getD d) (m[k]?.getD d) ≠ 0 then some (cmp (l[k]?.getD d) (m[k]?.getD d)) else none

theorem findSome_lex {A : Type} (cmp : A → A → Int) (l m : List A) (hl : l.length = m.length) (p : Nat → Option Int)
    (hp : ∀ i (h1 : i < l.length) (h2 : i < m.length), p i = if cmp l[i] m[i] ≠ 0 then some (cmp l[i] m[i]) else none) :
    ((List.range' 0 l.length).findSome? p).getD 0 = lexCmp cmp l m := by
  rcases h : (List.range' 0 l.length).findSome? p with _ | b
  · rw [findSome?_range'_none] at h
    have h' : ∀ i (h1 : i < l.length) (h2 : i < m.length), cmp l[i] m[i] = 0 := by
      intro i h1 h2
      have := h i (by omega) (by omega)
      rw [hp i h1 h2] at this
      by_contra c
      simp [c] at this
    clear h hp
    simp only [Option.getD_none]
    induction l generalizing m with
    | nil => cases m with
      | nil => rfl
      | cons => simp at hl
    | cons a l ih => cases m with
      | nil => simp at hl
      | cons b m =>
        simp only [lexCmp]
        rw [if_pos (show cmp a b = 0 from h' 0 (by simp) (by simp))]
        exact ih m (by simpa using hl) (fun i h1 h2 => h' (i + 1) (by simpa using h1) (by simpa using h2))
  · rw [findSome?_range'_some] at h
    obtain ⟨k, -, h2, h3, h4⟩ := h
    simp only [Option.getD_some]
    have hk : k < l.length := by omega
    have hk' : k < m.length := by omega
    have e1 : cmp l[k] m[k] ≠ 0 ∧ cmp l[k] m[k] = b := by
      rw [hp k hk hk'] at h3
      by_cases c : cmp l[k] m[k] = 0
      · simp [c] at h3
      · simp [c] at h3; exact ⟨c, h3⟩
    have e2 : ∀ i (h1 : i < k) (hl : i < l.length) (hm : i < m.length), cmp l[i] m[i] = 0 := by
      intro i h1 _ _
      have := h4 i (by omega) h1
      rw [hp i (by omega) (by omega)] at this
      by_contra c
      simp [c] at this
    clear h3 h4 hp
    clear h2
    induction k generalizing l m with
    | zero =>
      cases l with
      | nil => simp at hk
      | cons a l => cases m with
        | nil => simp at hk'
        | cons b m => simp only [lexCmp]; simp at e1; rw [if_neg e1.1, e1.2]
    | succ k ih =>
      cases l with
      | nil => simp at hk
      | cons a l => cases m with
        | nil => simp at hk'
        | cons b m =>
          have := e2 0 (by omega) (by simp) (by simp)
          simp only [List.getElem_cons_zero] at this
          simp only [lexCmp, this, if_true]
          exact ih l m (by simpa using hl) (by simpa using hk) (by simpa using hk') (by simpa using e1)
            (fun i h1 h2 h3 => e2 (i + 1) (by omega) (by simpa using h2) (by simpa using h3))

theorem compareCoordinate_eq (s1 s2 : CASeq α) (i : Nat) (h1 : i < s1.coordinates.length) (h2 : i < s2.coordinates.length) (d : Int) :
    compareCoordinate s1 s2 i d = .ok (lexCmp compareF64 (ordinates d.toNat s1.coordinates[i]) (ordinates d.toNat s2.coordinates[i])) := by
  unfold compareCoordinate
  rw [forFind_ok 0 d.toNat _ (diffAt compareF64 nan (ordinates d.toNat s1.coordinates[i]) (ordinates d.toNat s2.coordinates[i]))]
  · rw [Res.bind_ok]
    rw [← findSome_lex compareF64 (ordinates d.toNat s1.coordinates[i]) (ordinates d.toNat s2.coordinates[i]) (by simp [ordinates])
      (diffAt compareF64 nan (ordinates d.toNat s1.coordinates[i]) (ordinates d.toNat s2.coordinates[i]))]
    · simp [ordinates]
    · intro j j1 j2
      simp [diffAt, List.getElem?_eq_getElem j1, List.getElem?_eq_getElem j2]
  · intro k _ hk
    rw [getOrd_ok s1 i h1, getOrd_ok s2 i h2]
    simp only [Res.bind_ok, diffAt, ordinates, List.getElem?_map, List.getElem?_range hk, Option.map_some, Option.getD_some]
    split <;> simp_all <;> split_ifs <;> rfl

theorem lexCmp_min {A : Type} (cmp : A → A → Int) (l m : List A) :
    lexCmp cmp l m = if lexCmp cmp (l.take (min l.length m.length)) (m.take (min l.length m.length)) ≠ 0 then
      lexCmp cmp (l.take (min l.length m.length)) (m.take (min l.length m.length))
      else if min l.length m.length < l.length then 1 else if min l.length m.length < m.length then -1 else 0 := by
  induction l generalizing m with
  | nil => cases m <;> simp [lexCmp]
  | cons a l ih =>
    cases m with
    | nil => simp [lexCmp]
    | cons b m =>
      have := ih m
      simp only [List.length_cons, Nat.succ_min_succ, Nat.succ_lt_succ_iff, Nat.succ_eq_add_one, Nat.add_lt_add_iff_right]
      simp only [List.take_succ_cons, lexCmp]
      by_cases c : cmp a b = 0
      · simp only [c, if_true]; exact this
      · simp [c]

/-- The comparison never panics. It compares the dimensions capped by the limit, and then, lexicographically, the coordinates, each
of them lexicographically by its ordinates up to that dimension. -/
theorem C21_compare_key (limit : Int) (s1 s2 : CASeq α) :
    compareSeq limit s1 s2 = .ok (if min s1.dimension limit < min s2.dimension limit then -1
      else if min s2.dimension limit < min s1.dimension limit then 1
      else lexCmp (lexCmp compareF64) (s1.coordinates.map (ordinates (min s1.dimension limit).toNat))
        (s2.coordinates.map (ordinates (min s2.dimension limit).toNat))) := by
  have key : ∀ d : Int, (do
      let m := min s1.size s2.size
      let r ← forFind 0 m (fun i => do
        let c ← compareCoordinate s1 s2 i d
        if c ≠ 0 then pure (some c) else pure none)
      match r with
      | some c => pure c
      | none => if m < s1.size then pure 1 else if m < s2.size then pure (-1) else pure 0 : Res Int) =
      .ok (lexCmp (lexCmp compareF64) (s1.coordinates.map (ordinates d.toNat)) (s2.coordinates.map (ordinates d.toNat))) := by
    intro d
    generalize hl : s1.coordinates.map (ordinates d.toNat) = l
    generalize hm : s2.coordinates.map (ordinates d.toNat) = m
    have el : s1.size = l.length := by rw [← hl]; simp [CASeq.size]
    have em : s2.size = m.length := by rw [← hm]; simp [CASeq.size]
    simp only
    have step : ∀ i, 0 ≤ i → i < min s1.size s2.size → (do
        let c ← compareCoordinate s1 s2 i d
        if c ≠ 0 then pure (some c) else pure none : Res (Option Int)) =
        .ok ((diffAt (lexCmp compareF64) [] l m) i) := by
      intro i _ hi
      have i1 : i < s1.coordinates.length := by simp only [CASeq.size] at hi; omega
      have i2 : i < s2.coordinates.length := by simp only [CASeq.size] at hi; omega
      rw [compareCoordinate_eq s1 s2 i i1 i2 d, Res.bind_ok]
      subst hl hm
      simp only [diffAt, List.getElem?_map, List.getElem?_eq_getElem i1, List.getElem?_eq_getElem i2, Option.map_some, Option.getD_some]
      split <;> simp_all
    rw [forFind_ok 0 (min s1.size s2.size) _ _ step, Res.bind_ok]
    rw [lexCmp_min, ← el, ← em]
    have e := findSome_lex (lexCmp compareF64) (l.take (min s1.size s2.size)) (m.take (min s1.size s2.size))
      (by simp [el, em]) (diffAt (lexCmp compareF64) [] l m) (by
        intro i h1 h2
        simp only [List.length_take] at h1 h2
        simp only [diffAt, List.getElem?_eq_getElem (show i < l.length by omega), List.getElem?_eq_getElem (show i < m.length by omega),
          Option.getD_some, List.getElem_take])
    have elen : (l.take (min s1.size s2.size)).length = min s1.size s2.size := by simp [el, em]
    rw [elen] at e
    rw [Nat.sub_zero, ← e]
    rcases hf : (List.range' 0 (min s1.size s2.size)).findSome? (diffAt (lexCmp compareF64) [] l m) with _ | b
    · simp only [Option.getD_none, ne_eq, not_true_eq_false, if_false]
      split_ifs <;> rfl
    · rw [findSome?_range'_some] at hf
      obtain ⟨k, -, -, h3, -⟩ := hf
      have : b ≠ 0 := by
        unfold diffAt at h3
        split at h3
        · rename_i hc; cases h3; exact hc
        · cases h3
      simp [this]
  unfold compareSeq
  simp only
  by_cases hlim : limit ≤ (if s2.dimension < s1.dimension then s2.dimension else s1.dimension)
  · have e1 : min s1.dimension limit = limit := by split at hlim <;> omega
    have e2 : min s2.dimension limit = limit := by split at hlim <;> omega
    rw [e1, e2]
    simp only [hlim, decide_true, Bool.not_true, Bool.false_and, Bool.false_eq_true, if_false, if_true, lt_irrefl]
    exact key limit
  · simp only [hlim, decide_false, Bool.not_false, Bool.true_and, Bool.false_eq_true, if_false, decide_eq_true_eq, gt_iff_lt]
    by_cases h1 : s1.dimension < s2.dimension
    · rw [if_pos h1, if_pos (by split at hlim <;> omega)]; rfl
    · by_cases h2 : s2.dimension < s1.dimension
      · rw [if_neg h1, if_pos h2, if_neg (by split at hlim <;> omega), if_pos (by split at hlim <;> omega)]; rfl
      · have he : s1.dimension = s2.dimension := by omega
        have e1 : min s1.dimension limit = s1.dimension := by split at hlim <;> omega
        have e2 : min s2.dimension limit = s1.dimension := by split at hlim <;> omega
        rw [if_neg h1, if_neg h2, e1, e2]
        simp only [lt_irrefl, if_false, h2]
        exact key s1.dimension

/-- The value of the comparison (which never panics, `C21_compare_key`). -/
def cmpVal (limit : Int) (s1 s2 : CASeq α) : Int := match compareSeq limit s1 s2 with | .ok v => v | .error _ => 0

/-- For every dimension limit the comparison is a total order of all sequences, of any mix of dimensions and with NaN anywhere. Two
sequences are equal for it if they have the same size, the same capped dimension, and ordinates within that dimension equal or both NaN. -/
theorem C21_total_order [FltOrd α] (limit : Int) :
    TotalOrderOn (fun _ : CASeq α => True) (cmpVal limit) (fun s1 s2 => min s1.dimension limit = min s2.dimension limit ∧
      List.Forall₂ (List.Forall₂ NanEq) (s1.coordinates.map (ordinates (min s1.dimension limit).toNat))
        (s2.coordinates.map (ordinates (min s2.dimension limit).toNat))) := by
  have L := (C21_compareF64_total_order (α := α)).lex.lex
  have L1 := L.range
  have L2 := fun l m => L.zero_iff l m (by simp) (by simp)
  have L3 := fun l m => L.swap l m (by simp) (by simp)
  have L4 := fun l m k => L.trans l m k (by simp) (by simp) (by simp)
  constructor
  · intro a b
    simp only [cmpVal, C21_compare_key]
    split_ifs
    · simp
    · simp
    · exact L1 _ _
  · intro a b _ _
    simp only [cmpVal, C21_compare_key]
    split_ifs with h1 h2
    · simp; intro h; omega
    · simp; intro h; omega
    · rw [L2]; constructor
      · intro h; exact ⟨by omega, h⟩
      · intro h; exact h.2
  · intro a b _ _
    simp only [cmpVal, C21_compare_key]
    by_cases h1 : min a.dimension limit < min b.dimension limit
    · rw [if_pos h1, if_neg (by omega), if_pos h1]; rfl
    · by_cases h2 : min b.dimension limit < min a.dimension limit
      · rw [if_pos h2, if_neg h1, if_pos h2]
      · rw [if_neg h1, if_neg h2, if_neg h2, if_neg h1]; exact L3 _ _
  · intro a b c _ _ _
    simp only [cmpVal, C21_compare_key]
    by_cases h1 : min a.dimension limit < min b.dimension limit
    · by_cases h2 : min b.dimension limit < min c.dimension limit
      · intros; rw [if_pos (by omega)]; omega
      · by_cases h3 : min c.dimension limit < min b.dimension limit
        · intro _ h; rw [if_neg h2, if_pos h3] at h; omega
        · intros; rw [if_pos (by omega)]; omega
    · by_cases h3 : min b.dimension limit < min a.dimension limit
      · intro h; rw [if_neg h1, if_pos h3] at h; omega
      · rw [if_neg h1, if_neg h3]
        have e : min a.dimension limit = min b.dimension limit := by omega
        rw [e]
        split_ifs
        · intros; omega
        · intro _ h; omega
        · exact L4 _ _ _

/-- With the default limit, for all 32-bit dimensions: the lower dimension is less, and on sequences of the same dimension the
comparison is the plain lexicographic comparison of all ordinates. -/
theorem C21_default_limit (s1 s2 : CASeq α) (h1 : s1.dimension ≤ 2147483647) (h2 : s2.dimension ≤ 2147483647) :
    compareSeq defaultLimit s1 s2 = .ok (if s1.dimension < s2.dimension then -1 else if s2.dimension < s1.dimension then 1
      else lexCmp (lexCmp compareF64) (s1.coordinates.map (ordinates s1.dimension.toNat))
        (s2.coordinates.map (ordinates s2.dimension.toNat))) := by
  rw [C21_compare_key, min_eq_left (show s1.dimension ≤ defaultLimit from h1), min_eq_left (show s2.dimension ≤ defaultLimit from h2)]

section examples
local notation "F" => Fl exactRounding
local notation "q" => fun (x : ℚ) => (Fl.fin x : F)
/-- The limit 2 hides the difference in z; NaN sorts below numbers. -/
example : compareSeq 2 (⟨3, 0, [Coord.xyz (q 1) (q 2) (q 3)]⟩ : CASeq F) ⟨3, 0, [Coord.xyz (q 1) (q 2) (q 4)]⟩ = .ok 0 ∧
    compareSeq 3 (⟨3, 0, [Coord.xyz (q 1) (q 2) (q 3)]⟩ : CASeq F) ⟨3, 0, [Coord.xyz (q 1) (q 2) (q 4)]⟩ = .ok (-1) ∧
    compareSeq 3 (⟨3, 0, [Coord.xyz (q 1) (q 2) (q 3)]⟩ : CASeq F) ⟨3, 0, [Coord.xyz (q 1) (q 2) Fl.nan]⟩ = .ok 1 := by decide +kernel
/-- Measures do not take part. -/
theorem C21_measures_ignored : compareSeq defaultLimit (⟨4, 1, [Coord.xyzm (q 1) (q 2) (q 3) (q 4)]⟩ : CASeq F)
    ⟨4, 1, [Coord.xyzm (q 1) (q 2) (q 3) (q 5)]⟩ = .ok 0 := by decide +kernel
end examples

end Verif.Props
