import Verif.Props.Coordinate
import Verif.Props.CoordinateList
import Verif.Props.Envelope

/-! # C14 to C17: comparing, searching and copying coordinate arrays -/

set_option linter.unusedSectionVars false

namespace Verif.Props
open Flt CoordArrays Verif.Spec
variable {α : Type} [Flt α]

/-! ## C14 -/

/-- Specification of lexicographic comparison: the first position where the elements differ decides, and if there is
none the shorter list comes first. -/
def LexSpec {A : Type} (cmp : A → A → Int) (l1 l2 : List A) (r : Int) : Prop :=
  (∃ (k : Nat) (a b : A), (∀ j < k, ∃ a b, l1[j]? = some a ∧ l2[j]? = some b ∧ cmp a b = 0) ∧
    l1[k]? = some a ∧ l2[k]? = some b ∧ cmp a b ≠ 0 ∧ r = cmp a b) ∨
  ((∀ j < min l1.length l2.length, ∃ a b, l1[j]? = some a ∧ l2[j]? = some b ∧ cmp a b = 0) ∧
    r = if l1.length < l2.length then -1 else if l2.length < l1.length then 1 else 0)

/-- `compare` is the lexicographic comparison induced by `compare_to` (on all arrays, NaN included). -/
theorem C14_compare_lex (l1 l2 : List (Coord α)) : LexSpec Coord.compareTo l1 l2 (compareArrays l1 l2) := by
  induction l1 generalizing l2 with
  | nil => cases l2 <;> right <;> simp [compareArrays]
  | cons a l1 ih =>
    cases l2 with
    | nil => right; simp [compareArrays]
    | cons b l2 =>
      by_cases h : a.compareTo b = 0
      · have hc : compareArrays (a :: l1) (b :: l2) = compareArrays l1 l2 := by simp [compareArrays, h]
        rw [hc]
        rcases ih l2 with ⟨k, x, y, h1, h2, h3, h4, h5⟩ | ⟨h1, h2⟩
        · left
          refine ⟨k + 1, x, y, ?_, h2, h3, h4, h5⟩
          intro j hj
          cases j with
          | zero => exact ⟨a, b, rfl, rfl, h⟩
          | succ j => simpa using h1 j (by omega)
        · right
          refine ⟨?_, by simpa using h2⟩
          intro j hj
          cases j with
          | zero => exact ⟨a, b, rfl, rfl, h⟩
          | succ j => simpa using h1 j (by simp at hj; simp; omega)
      · left
        exact ⟨0, a, b, by simp, rfl, rfl, h, by simp [compareArrays, h]⟩

/-- On NaN-free arrays `compare` is a total order whose equality is pointwise `equals_2d` (of arrays of the same length). -/
theorem C14_compare_total_order [FltOrd α] :
    TotalOrderOn (fun l : List (Coord α) => ∀ c ∈ l, c.NN) compareArrays
      (fun l1 l2 => List.Forall₂ (fun a b => a.equals2D b = true) l1 l2) where
  range l1 := by
    induction l1 with
    | nil => intro l2; cases l2 <;> simp [compareArrays]
    | cons a l1 ih =>
      intro l2
      cases l2 with
      | nil => simp [compareArrays]
      | cons b l2 =>
        rw [compareArrays]
        split_ifs
        · exact C01_compareTo_total_order.range a b
        · exact ih l2
  zero_iff l1 := by
    induction l1 with
    | nil => intro l2 _ _; cases l2 <;> simp [compareArrays]
    | cons a l1 ih =>
      intro l2 h1 h2
      cases l2 with
      | nil => simp [compareArrays]
      | cons b l2 =>
        have hab := C01_compareTo_total_order.zero_iff a b (h1 a (by simp)) (h2 b (by simp))
        have := ih l2 (fun c hc => h1 c (by simp [hc])) (fun c hc => h2 c (by simp [hc]))
        rw [List.forall₂_cons, ← this, ← hab, compareArrays]
        split_ifs <;> simp_all
  swap l1 := by
    induction l1 with
    | nil => intro l2 _ _; cases l2 <;> simp [compareArrays]
    | cons a l1 ih =>
      intro l2 h1 h2
      cases l2 with
      | nil => simp [compareArrays]
      | cons b l2 =>
        have hab := C01_compareTo_total_order.swap a b (h1 a (by simp)) (h2 b (by simp))
        have := ih l2 (fun c hc => h1 c (by simp [hc])) (fun c hc => h2 c (by simp [hc]))
        simp only [compareArrays]
        split <;> split <;> omega
  trans l1 := by
    induction l1 with
    | nil => intro l2 l3 _ _ _; cases l2 <;> cases l3 <;> simp [compareArrays]
    | cons a l1 ih =>
      intro l2 l3 h1 h2 h3
      cases l2 with
      | nil => simp [compareArrays]
      | cons b l2 =>
        cases l3 with
        | nil => simp [compareArrays]
        | cons c l3 =>
          have na := h1 a (by simp)
          have nb := h2 b (by simp)
          have nc := h3 c (by simp)
          have := ih l2 l3 (fun c hc => h1 c (by simp [hc])) (fun c hc => h2 c (by simp [hc]))
            (fun c hc => h3 c (by simp [hc]))
          have O := C01_compareTo_total_order (α := α)
          have t1 := O.trans a b c na nb nc
          have t2 := O.lt_trans na nb nc
          have t3 := O.congr_left (c := c) na nb nc
          have s1 := O.swap a b na nb
          have s2 := O.swap b c nb nc
          have s3 := O.swap a c na nc
          have t4 := O.congr_left (c := a) nb nc na
          simp only [compareArrays]
          split <;> split <;> split <;> intro e1 e2 <;> simp_all <;> omega

/-- A prefix comes first. -/
theorem C14_prefix_first [FltOrd α] (l1 : List (Coord α)) (c : Coord α) (t : List (Coord α)) (h : ∀ c ∈ l1, c.NN) :
    compareArrays l1 (l1 ++ c :: t) = -1 := by
  induction l1 with
  | nil => simp [compareArrays]
  | cons a l1 ih =>
    have := (C01_compareTo_total_order.zero_iff a a (h a (by simp)) (h a (by simp))).mpr
      ((C01_equals2D_equivalence a a a).1.mp (h a (by simp)))
    simp [compareArrays, this, ih (fun c hc => h c (by simp [hc]))]

/-- `equals` is pointwise `equals_2d` for arrays of the same length. Never panics. -/
theorem C14_equals (l1 l2 : List (Coord α)) :
    ∃ b, equals l1 l2 = .ok b ∧ (b = true ↔ List.Forall₂ (fun a b => a.equals2D b = true) l1 l2) := by
  rw [equals]
  split
  · rename_i h
    refine ⟨false, rfl, ?_⟩
    simp only [Bool.false_eq_true, false_iff]
    exact fun hf => h hf.length_eq
  · rename_i h
    rw [not_ne_iff] at h
    rw [forFind_ok (p := fun i =>
      match l1[i]?, l2[i]? with
      | some a, some b => if !a.equals2D b then some false else none
      | _, _ => none)]
    · refine ⟨_, rfl, ?_⟩
      rw [List.forall₂_iff_get]
      cases hf : (List.range' 0 (l1.length - 0)).findSome? (fun i =>
          match l1[i]?, l2[i]? with
          | some a, some b => if !a.equals2D b then some false else none
          | _, _ => none) with
      | none =>
        simp only [Option.getD_none, true_iff]
        refine ⟨h, fun i hi1 hi2 => ?_⟩
        rw [findSome?_range'_none] at hf
        have := hf i (by omega) (by omega)
        simp only [List.getElem?_eq_getElem hi1, List.getElem?_eq_getElem hi2] at this
        simpa using this
      | some v =>
        rw [findSome?_range'_some] at hf
        obtain ⟨k, -, hk, hv, -⟩ := hf
        have hk1 : k < l1.length := by omega
        have hk2 : k < l2.length := by omega
        simp only [List.getElem?_eq_getElem hk1, List.getElem?_eq_getElem hk2] at hv
        split at hv
        · rename_i hne
          cases hv
          simp only [Option.getD_some, Bool.false_eq_true, false_iff]
          rintro ⟨-, hall⟩
          have := hall k hk1 hk2
          simp at hne this
          rw [hne] at this; cases this
        · cases hv
    · intro i _ hi
      have hi2 : i < l2.length := by omega
      simp only [Res.get_lt hi, Res.get_lt hi2, Res.bind_ok, List.getElem?_eq_getElem hi,
        List.getElem?_eq_getElem hi2]
      split <;> rfl

/-! ## C15 -/

/-- What `increasing_direction` reports: the comparison of the first unequal pair (i, n-1-i), or 1. -/
theorem C15_increasing_char (l : List (Coord α)) :
    ∃ d, increasingDirection l = .ok d ∧
      ((∃ k a b, k < l.length ∧ l[k]? = some a ∧ l[l.length - 1 - k]? = some b ∧ a.compareTo b ≠ 0 ∧
          d = a.compareTo b ∧
          ∀ j < k, ∀ a b, l[j]? = some a → l[l.length - 1 - j]? = some b → a.compareTo b = 0) ∨
       ((∀ (j : Nat) (a b : Coord α), l[j]? = some a → l[l.length - 1 - j]? = some b → a.compareTo b = 0) ∧ d = 1)) := by
  rw [increasingDirection, forFind_ok (p := fun i =>
    match l[i]?, l[l.length - 1 - i]? with
    | some a, some b => if a.compareTo b ≠ 0 then some (a.compareTo b) else none
    | _, _ => none)]
  · refine ⟨_, rfl, ?_⟩
    cases hf : (List.range' 0 (l.length - 0)).findSome? (fun i =>
        match l[i]?, l[l.length - 1 - i]? with
        | some a, some b => if a.compareTo b ≠ 0 then some (a.compareTo b) else none
        | _, _ => none) with
    | none =>
      right
      refine ⟨fun j a b ha hb => ?_, rfl⟩
      have hj : j < l.length := by
        by_contra hc; rw [List.getElem?_eq_none (by omega)] at ha; cases ha
      rw [findSome?_range'_none] at hf
      have := hf j (by omega) (by omega)
      simp only [ha, hb] at this
      by_contra hc
      simp [hc] at this
    | some v =>
      left
      rw [findSome?_range'_some] at hf
      obtain ⟨k, -, hk, hv, hmin⟩ := hf
      have h1 : k < l.length := by omega
      have h2 : l.length - 1 - k < l.length := by omega
      simp only [List.getElem?_eq_getElem h1, List.getElem?_eq_getElem h2] at hv
      split at hv
      · rename_i hne
        refine ⟨k, _, _, h1, List.getElem?_eq_getElem h1, List.getElem?_eq_getElem h2, hne, ?_, ?_⟩
        · simpa using hv.symm
        · intro j hj a b ha hb
          have := hmin j (by omega) hj
          simp only [ha, hb] at this
          by_contra hc
          simp [hc] at this
      · cases hv
  · intro i _ hi
    have h2 : l.length - 1 - i < l.length := by omega
    simp only [Res.sub_le (show 1 ≤ l.length by omega), Res.bind_ok, Res.sub_le (show i ≤ l.length - 1 by omega),
      Res.get_lt hi, Res.get_lt h2, List.getElem?_eq_getElem hi, List.getElem?_eq_getElem h2]
    split <;> rfl

theorem increasing_determined (l : List (Coord α)) (d : Int) (k : Nat) (a b : Coord α)
    (h1 : l[k]? = some a) (h2 : l[l.length - 1 - k]? = some b) (h3 : a.compareTo b ≠ 0)
    (h4 : ∀ j < k, ∀ a b, l[j]? = some a → l[l.length - 1 - j]? = some b → a.compareTo b = 0)
    (hd : increasingDirection l = .ok d) : d = a.compareTo b := by
  obtain ⟨d', hd', hc⟩ := C15_increasing_char l
  rw [hd'] at hd; cases hd
  rcases hc with ⟨k', a', b', -, h1', h2', h3', h5, h4'⟩ | ⟨hall, -⟩
  · rcases Nat.lt_trichotomy k k' with hlt | rfl | hlt
    · exact absurd (h4' k hlt a b h1 h2) h3
    · rw [h1] at h1'; rw [h2] at h2'; cases h1'; cases h2'; exact h5
    · exact absurd (h4 k' hlt a' b' h1' h2') h3'
  · exact absurd (hall k a b h1 h2) h3

/-- Reversing a NaN-free array that does not read the same backwards flips the sign; an array that does has direction 1. -/
theorem C15_reverse [FltOrd α] (l : List (Coord α)) (h : ∀ c ∈ l, c.NN) :
    (List.Forall₂ (fun a b => a.equals2D b = true) l l.reverse → increasingDirection l = .ok 1) ∧
    (¬ List.Forall₂ (fun a b => a.equals2D b = true) l l.reverse →
      ∃ d, (d = 1 ∨ d = -1) ∧ increasingDirection l = .ok d ∧ increasingDirection l.reverse = .ok (-d)) := by
  have O := C01_compareTo_total_order (α := α)
  have hget : ∀ j, l.reverse[j]? = if j < l.length then l[l.length - 1 - j]? else none := by
    intro j
    split
    · rename_i hj; rw [List.getElem?_reverse hj]
    · exact List.getElem?_eq_none (by simp; omega)
  obtain ⟨d, hd, hc⟩ := C15_increasing_char l
  constructor
  · intro hp
    rcases hc with ⟨k, a, b, hk, ha, hb, hne, -, -⟩ | ⟨-, rfl⟩
    · exfalso
      rw [List.forall₂_iff_get] at hp
      have := hp.2 k hk (by simpa using hk)
      have ha' : l.get ⟨k, hk⟩ = a := by simpa [List.getElem?_eq_getElem hk] using ha
      have hb' : l.reverse.get ⟨k, by simpa using hk⟩ = b := by
        have h2 : l.length - 1 - k < l.length := by omega
        rw [List.getElem?_eq_getElem h2] at hb
        simpa using hb
      rw [ha', hb'] at this
      exact hne ((O.zero_iff a b (h a (List.mem_of_getElem? ha)) (h b (List.mem_of_getElem? hb))).mpr this)
    · exact hd
  · intro hp
    rcases hc with ⟨k, a, b, hk, ha, hb, hne, rfl, hmin⟩ | ⟨hall, -⟩
    · have na := h a (List.mem_of_getElem? ha)
      have nb := h b (List.mem_of_getElem? hb)
      refine ⟨_, ?_, hd, ?_⟩
      · rcases O.range a b with r | r | r <;> simp_all
      · obtain ⟨d', hd', -⟩ := C15_increasing_char l.reverse
        rw [hd']
        have hlen : l.length - 1 - (l.length - 1 - k) = k := by omega
        have := increasing_determined l.reverse d' k b a ?_ ?_ ?_ ?_ hd'
        · rw [this, O.swap a b na nb]
        · rw [hget, if_pos hk, hb]
        · rw [List.length_reverse, hget, if_pos (by omega), hlen, ha]
        · rw [O.swap a b na nb]; omega
        · intro j hj x y hx hy
          have hjl : j < l.length := by omega
          rw [hget, if_pos hjl] at hx
          rw [List.length_reverse, hget, if_pos (by omega), show l.length - 1 - (l.length - 1 - j) = j by omega] at hy
          have := hmin j hj y x hy hx
          rw [O.swap y x (h y (List.mem_of_getElem? hy)) (h x (List.mem_of_getElem? hx)), this]
          rfl
    · exfalso
      apply hp
      rw [List.forall₂_iff_get]
      refine ⟨by simp, fun i h1 h2 => ?_⟩
      have h3 : l.length - 1 - i < l.length := by omega
      have := hall i l[i] l[l.length - 1 - i] (List.getElem?_eq_getElem h1) (List.getElem?_eq_getElem h3)
      rw [O.zero_iff _ _ (h _ (List.getElem_mem _)) (h _ (List.getElem_mem _))] at this
      simpa using this

/-- `is_equal_reversed` on arrays of the same length: true exactly if one is the other read backwards
(for NaN-free arrays). -/
theorem C15_isEqualReversed [FltOrd α] (l1 l2 : List (Coord α)) (hl : l1.length = l2.length)
    (h1 : ∀ c ∈ l1, c.NN) (h2 : ∀ c ∈ l2, c.NN) :
    ∃ b, isEqualReversed l1 l2 = .ok b ∧ (b = true ↔ List.Forall₂ (fun a b => a.equals2D b = true) l1 l2.reverse) := by
  have O := C01_compareTo_total_order (α := α)
  rw [isEqualReversed, forFind_ok (p := fun i =>
    match l1[i]?, l2[l1.length - i - 1]? with
    | some a, some b => if a.compareTo b ≠ 0 then some false else none
    | _, _ => none)]
  · refine ⟨_, rfl, ?_⟩
    rw [List.forall₂_iff_get]
    have hrev : ∀ i (hi : i < l1.length) (hi2 : i < l2.reverse.length),
        l2.reverse.get ⟨i, hi2⟩ = l2[l1.length - i - 1]'(by omega) := by
      intro i hi hi2
      simp only [List.get_eq_getElem, List.getElem_reverse]
      congr 1; omega
    cases hf : (List.range' 0 (l1.length - 0)).findSome? (fun i =>
        match l1[i]?, l2[l1.length - i - 1]? with
        | some a, some b => if a.compareTo b ≠ 0 then some false else none
        | _, _ => none) with
    | none =>
      simp only [Option.getD_none, true_iff]
      refine ⟨by simpa using hl, fun i hi1 hi2 => ?_⟩
      rw [findSome?_range'_none] at hf
      have := hf i (by omega) (by omega)
      have hi3 : l1.length - i - 1 < l2.length := by omega
      simp only [List.getElem?_eq_getElem hi1, List.getElem?_eq_getElem hi3] at this
      rw [hrev i hi1 hi2, List.get_eq_getElem, ← O.zero_iff _ _ (h1 _ (List.getElem_mem _)) (h2 _ (List.getElem_mem _))]
      by_contra hc
      simp at hc
      simp [hc] at this
    | some v =>
      rw [findSome?_range'_some] at hf
      obtain ⟨k, -, hk, hv, -⟩ := hf
      have hk1 : k < l1.length := by omega
      have hk3 : l1.length - k - 1 < l2.length := by omega
      simp only [List.getElem?_eq_getElem hk1, List.getElem?_eq_getElem hk3] at hv
      split at hv
      · rename_i hne
        cases hv
        simp only [Option.getD_some, Bool.false_eq_true, false_iff]
        rintro ⟨-, hall⟩
        have := hall k hk1 (by simp; omega)
        rw [hrev k hk1, List.get_eq_getElem, ← O.zero_iff _ _ (h1 _ (List.getElem_mem _)) (h2 _ (List.getElem_mem _))] at this
        exact hne this
      · cases hv
  · intro i _ hi
    have hi3 : l1.length - i - 1 < l2.length := by omega
    simp only [Res.sub_le (show i ≤ l1.length by omega), Res.bind_ok, Res.sub_le (show 1 ≤ l1.length - i by omega),
      Res.get_lt hi, Res.get_lt hi3, List.getElem?_eq_getElem hi, List.getElem?_eq_getElem hi3]
    split <;> rfl

/-- Arrays of different lengths are not told apart reliably: the second array being shorter panics. -/
theorem C15_isEqualReversed_panics (l1 l2 : List (Coord α)) (h : l2.length < l1.length) :
    isEqualReversed l1 l2 = .error .index := by
  have hpos : 0 < l1.length := by omega
  have hr : List.range' 0 (l1.length - 0) = 0 :: List.range' 1 (l1.length - 1) := by
    obtain ⟨n, hn⟩ : ∃ n, l1.length = n + 1 := ⟨l1.length - 1, by omega⟩
    rw [hn]; simp [List.range'_succ]
  rw [isEqualReversed, forFind, hr, loopFind]
  simp only [Res.get_lt hpos, Res.bind_ok, Res.sub_le (Nat.zero_le _), Nat.sub_zero,
    Res.sub_le (show 1 ≤ l1.length by omega), Res.get_ge (show l2.length ≤ l1.length - 1 by omega), Res.bind_error]

/-! ## C16 -/

/-- `min_coordinate` of a NaN-free array: nothing for the empty array, else an element not greater than any other, and the
earliest such one. -/
theorem C16_minCoordinate [FltOrd α] (l : List (Coord α)) (h : ∀ c ∈ l, c.NN) :
    (minCoordinate l = none ↔ l = []) ∧
    ∀ m, minCoordinate l = some m → m ∈ l ∧ (∀ c ∈ l, m.compareTo c ≤ 0) ∧
      ∃ k : Nat, l[k]? = some m ∧ ∀ j < k, ∀ c, l[j]? = some c → m.compareTo c < 0 := by
  have O := C01_compareTo_total_order (α := α)
  have key : ∀ (l : List (Coord α)), (∀ c ∈ l, c.NN) →
      (l = [] ∧ minCoordinate l = none) ∨ ∃ m, minCoordinate l = some m ∧ m ∈ l ∧ (∀ c ∈ l, m.compareTo c ≤ 0) ∧
      ∃ k : Nat, l[k]? = some m ∧ ∀ j < k, ∀ c, l[j]? = some c → m.compareTo c < 0 := by
    intro l
    induction l using List.reverseRecOn with
    | nil => intro _; left; exact ⟨rfl, rfl⟩
    | append_singleton l c ih =>
      intro hn
      right
      have nc : c.NN := hn c (by simp)
      have hcc : c.compareTo c = 0 := (O.zero_iff c c nc nc).mpr ((C01_equals2D_equivalence c c c).1.mp nc)
      rcases ih (fun c hc => hn c (by simp [hc])) with ⟨rfl, -⟩ | ⟨m, hm, hmem, hle, k, hk, hkmin⟩
      · refine ⟨c, by simp [minCoordinate], by simp, by simp [hcc], 0, rfl, by simp⟩
      · have nm : m.NN := hn m (by simp [hmem])
        have hstep : minCoordinate (l ++ [c]) = if m.compareTo c > 0 then some c else some m := by
          rw [minCoordinate, List.foldl_append, ← minCoordinate, hm]; rfl
        have hkl : k < l.length := by
          by_contra hc; rw [List.getElem?_eq_none (by omega)] at hk; cases hk
        by_cases hgt : m.compareTo c > 0
        · have hcm : c.compareTo m < 0 := by rw [O.swap m c nm nc]; omega
          have hlt : ∀ x ∈ l, c.compareTo x < 0 := by
            intro x hx
            have nx : x.NN := hn x (by simp [hx])
            have h1 := hle x hx
            have h2 := O.trans c m x nc nm nx (by omega) h1
            rcases Int.lt_or_eq_of_le h2 with h3 | h3
            · exact h3
            · have h4 := O.swap c x nc nx
              have h5 := O.trans m x c nm nx nc h1 (by omega)
              omega
          refine ⟨c, by rw [hstep, if_pos hgt], by simp, ?_, l.length, by simp, ?_⟩
          · intro x hx
            rcases List.mem_append.mp hx with hx | hx
            · exact Int.le_of_lt (hlt x hx)
            · simp at hx; subst hx; omega
          · intro j hj x hx
            rw [List.getElem?_append_left hj] at hx
            exact hlt x (List.mem_of_getElem? hx)
        · refine ⟨m, by rw [hstep, if_neg hgt], by simp [hmem], ?_, k, ?_, ?_⟩
          · intro x hx
            rcases List.mem_append.mp hx with hx | hx
            · exact hle x hx
            · simp at hx; subst hx; omega
          · rw [List.getElem?_append_left hkl, hk]
          · intro j hj x hx
            rw [List.getElem?_append_left (by omega)] at hx
            exact hkmin j hj x hx
  rcases key l h with ⟨rfl, h0⟩ | ⟨m, hm, hrest⟩
  · refine ⟨by simp [h0], fun m hm => ?_⟩
    rw [h0] at hm; cases hm
  · refine ⟨?_, fun m' hm' => ?_⟩
    · rw [hm]
      constructor
      · intro h; cases h
      · rintro rfl; exact absurd hrest.1 (by simp)
    · rw [hm] at hm'; cases hm'; exact hrest

/-- `index_of` returns the first position holding an equal (2D) coordinate, or -1 exactly if there is none. -/
theorem C16_indexOf (c : Coord α) (l : List (Coord α)) :
    ∃ r, indexOf c l = .ok r ∧
      ((r = -1 ∧ ∀ p ∈ l, c.equals2D p = false) ∨
       (∃ (k : Nat) (p : Coord α), r = k ∧ l[k]? = some p ∧ c.equals2D p = true ∧
          ∀ j < k, ∀ q, l[j]? = some q → c.equals2D q = false)) := by
  rw [indexOf, forFind_ok (p := fun i =>
    match l[i]? with
    | some p => if c.equals2D p then some (i : Int) else none
    | none => none)]
  · refine ⟨_, rfl, ?_⟩
    cases hf : (List.range' 0 (l.length - 0)).findSome? (fun i : Nat =>
        match l[i]? with
        | some p => if c.equals2D p then some (i : Int) else none
        | none => none) with
    | none =>
      left
      refine ⟨rfl, fun p hp => ?_⟩
      obtain ⟨i, hi, rfl⟩ := List.mem_iff_getElem.mp hp
      rw [findSome?_range'_none] at hf
      have := hf i (by omega) (by omega)
      simp only [List.getElem?_eq_getElem hi] at this
      simpa using this
    | some v =>
      right
      rw [findSome?_range'_some] at hf
      obtain ⟨k, -, hk, hv, hmin⟩ := hf
      have hk1 : k < l.length := by omega
      simp only [List.getElem?_eq_getElem hk1] at hv
      split at hv
      · rename_i he
        cases hv
        refine ⟨k, l[k], rfl, List.getElem?_eq_getElem hk1, he, fun j hj q hq => ?_⟩
        have := hmin j (by omega) hj
        simp only [hq] at this
        simpa using this
      · cases hv
  · intro i _ hi
    simp only [Res.get_lt hi, Res.bind_ok, List.getElem?_eq_getElem hi]
    split <;> rfl

/-- `pt_not_in_list` returns the first test point without an equal point in the list, or nothing if there is none. -/
theorem C16_ptNotInList (test pts : List (Coord α)) :
    (ptNotInList test pts = .ok none ∧ ∀ t ∈ test, ∃ p ∈ pts, t.equals2D p = true) ∨
    (∃ (k : Nat) (t : Coord α), ptNotInList test pts = .ok (some t) ∧ test[k]? = some t ∧ (∀ p ∈ pts, t.equals2D p = false) ∧
      ∀ j < k, ∀ u, test[j]? = some u → ∃ p ∈ pts, u.equals2D p = true) := by
  have hidx : ∀ t : Coord α, (indexOf t pts = .ok (-1) ∧ ∀ p ∈ pts, t.equals2D p = false) ∨
      (∃ k : Nat, indexOf t pts = .ok k ∧ ∃ p ∈ pts, t.equals2D p = true) := by
    intro t
    obtain ⟨r, hr, ⟨rfl, h⟩ | ⟨k, p, rfl, hk, he, -⟩⟩ := C16_indexOf t pts
    · exact .inl ⟨hr, h⟩
    · exact .inr ⟨k, hr, p, List.mem_of_getElem? hk, he⟩
  classical
  rw [ptNotInList, forFind_ok (p := fun i =>
    match test[i]? with
    | some t => if ∃ p ∈ pts, t.equals2D p = true then none else some t
    | none => none)]
  · cases hf : (List.range' 0 (test.length - 0)).findSome? (fun i =>
        match test[i]? with
        | some t => if ∃ p ∈ pts, t.equals2D p = true then none else some t
        | none => none) with
    | none =>
      left
      refine ⟨rfl, fun t ht => ?_⟩
      obtain ⟨i, hi, rfl⟩ := List.mem_iff_getElem.mp ht
      rw [findSome?_range'_none] at hf
      have := hf i (by omega) (by omega)
      simp only [List.getElem?_eq_getElem hi] at this
      by_contra hc
      rw [if_neg hc] at this; cases this
    | some v =>
      right
      rw [findSome?_range'_some] at hf
      obtain ⟨k, -, hk, hv, hmin⟩ := hf
      have hk1 : k < test.length := by omega
      simp only [List.getElem?_eq_getElem hk1] at hv
      split at hv
      · cases hv
      · rename_i hne
        cases hv
        refine ⟨k, _, rfl, List.getElem?_eq_getElem hk1, ?_, fun j hj u hu => ?_⟩
        · intro p hp
          by_contra hc
          exact hne ⟨p, hp, by simpa using hc⟩
        · have := hmin j (by omega) hj
          simp only [hu] at this
          by_contra hc
          rw [if_neg hc] at this; cases this
  · intro i _ hi
    simp only [Res.get_lt hi, Res.bind_ok, List.getElem?_eq_getElem hi]
    rcases hidx test[i] with ⟨h1, h2⟩ | ⟨k, h1, h2⟩
    · rw [h1, Res.bind_ok, if_pos (by decide), if_neg]
      · rfl
      · rintro ⟨p, hp, he⟩; rw [h2 p hp] at he; cases he
    · rw [h1, Res.bind_ok, if_neg (by omega), if_pos h2]; rfl

/-! ## C17 -/

/-- `copy_deep` copies. -/
theorem C17_copyDeep (l : List (Coord α)) : copyDeep l = .ok l := by
  refine (forRange_closed 0 l.length _
    (fun k => l.take k ++ List.replicate (l.length - k) Coord.default) (Nat.zero_le _) ?_).trans ?_
  · intro i _ hi
    rw [Res.get_lt hi, Res.bind_ok, Res.set_lt (by simp; omega),
      set_fill _ _ _ _ _ (by simp; omega) (by omega), take_succ' l i hi, Nat.sub_sub]
  · simp

omit [Flt α] in
/-- `copy_deep_to` with both windows inside their arrays: slots of the window receive the source window, all others stay. -/
theorem C17_copyDeepTo_partial (src dest : List (Coord α)) (s d n : Nat) (h1 : s + n ≤ src.length) (h2 : d + n ≤ dest.length) :
    ∃ r, copyDeepTo src s dest d n = .ok r ∧ r.length = dest.length ∧
      (∀ i < n, r[d + i]? = src[s + i]?) ∧ (∀ j, j < d ∨ d + n ≤ j → r[j]? = dest[j]?) := by
  have := forRange_inv 0 n (fun i dest => do
      let c ← Res.get src (s + i)
      Res.set dest (d + i) c)
    (fun k r => r.length = dest.length ∧ (∀ i < k, r[d + i]? = src[s + i]?) ∧
      (∀ j, j < d ∨ d + k ≤ j → r[j]? = dest[j]?)) (Nat.zero_le _) dest ⟨rfl, by simp, by simp⟩ ?_
  · exact this
  · rintro i r - hi ⟨hlen, ha, hb⟩
    refine ⟨r.set (d + i) src[s + i], ?_, by simpa using hlen, ?_, ?_⟩
    · simp only [Res.get_lt (show s + i < src.length by omega), Res.bind_ok]
      exact Res.set_lt (by omega)
    · intro j hj
      rw [List.getElem?_set]
      by_cases hji : j = i
      · subst hji
        rw [if_pos rfl, if_pos (by omega), List.getElem?_eq_getElem (by omega)]
      · rw [if_neg (by omega)]; exact ha j (by omega)
    · intro j hj
      rw [List.getElem?_set, if_neg (by omega)]
      exact hb j (by omega)

omit [Flt α] in
/-- It panics exactly if one of the windows leaves its array (and is not empty). -/
theorem C17_copyDeepTo_panics (src dest : List (Coord α)) (s d n : Nat) :
    copyDeepTo src s dest d n = .error .index ↔ 0 < n ∧ (src.length < s + n ∨ dest.length < d + n) := by
  constructor
  · intro h
    by_contra hc
    rcases Nat.eq_zero_or_pos n with rfl | hn
    · rw [copyDeepTo, forRange_self _ _ (Nat.le_refl _)] at h; cases h
    · push Not at hc
      have := hc hn
      obtain ⟨r, hr, -⟩ := C17_copyDeepTo_partial src dest s d n (by omega) (by omega)
      rw [hr] at h; cases h
  · rintro ⟨hn, h⟩
    -- the first iteration that fails
    let k := min (src.length - s) (dest.length - d)
    have hk : k < n := by simp only [k]; omega
    obtain ⟨r, hr, hlen, -⟩ : ∃ r, copyDeepTo src s dest d k = .ok r ∧ r.length = dest.length ∧ True := by
      rcases Nat.eq_zero_or_pos k with h0 | hp
      · exact ⟨dest, by rw [copyDeepTo, h0, forRange_self _ _ (Nat.le_refl _)], rfl, trivial⟩
      · obtain ⟨r, h1, h2, -⟩ := C17_copyDeepTo_partial src dest s d k (by simp only [k] at hp ⊢; omega)
          (by simp only [k] at hp ⊢; omega)
        exact ⟨r, h1, h2, trivial⟩
    refine forRange_panic 0 n _ k _ dest (Nat.zero_le _) hk ?_
    rw [copyDeepTo] at hr
    rw [hr, Res.bind_ok]
    by_cases hs : s + k < src.length
    · rw [Res.get_lt hs, Res.bind_ok, Res.set_ge]
      simp only [k] at hs ⊢; omega
    · rw [Res.get_ge (by omega), Res.bind_error]

/-- `extract` is documented to return the points from `start` to `end`, but it never returns a point: the result is empty or
the call panics. -/
theorem C17_extract_never_extracts (pts : List (Coord α)) (start stop : Nat) :
    extract pts start stop = .ok [] ∨ ∃ e, extract pts start stop = .error e := by
  unfold extract
  simp only
  generalize (MathUtil.clampI32 (start : Int) 0 (pts.length : Int)).toNat = a
  generalize (MathUtil.clampI32 (stop : Int) (-1) (pts.length : Int)).toNat = b
  by_cases hab : a ≤ b
  · rw [Res.sub_le hab, Res.bind_ok, if_neg (show ¬ b < a by omega)]
    by_cases hp : a ≥ pts.length
    · left; rw [if_pos hp, if_pos rfl]; rfl
    · rw [if_neg hp, if_neg (by omega)]
      rcases Nat.eq_or_lt_of_le hab with h' | h'
      · left; rw [forRange_self _ _ (by omega)]; rfl
      · right
        refine ⟨.index, ?_⟩
        rw [forRange_first _ _ h', Res.get_lt (by omega), Res.bind_ok, Res.set_ge (by simp)]
        rfl
  · right
    refine ⟨.arith, ?_⟩
    rw [Res.sub, if_neg hab]; rfl

/-- In particular every request for at least one existing point panics. -/
theorem C17_extract_panics (pts : List (Coord α)) (start stop : Nat) (h1 : start < stop) (h2 : stop ≤ pts.length) :
    extract pts start stop = .error .index := by
  have e1 : (MathUtil.clampI32 (start : Int) 0 (pts.length : Int)).toNat = start := by
    unfold MathUtil.clampI32; split_ifs <;> omega
  have e2 : (MathUtil.clampI32 (stop : Int) (-1) (pts.length : Int)).toNat = stop := by
    unfold MathUtil.clampI32; split_ifs <;> omega
  unfold extract
  simp only [e1, e2]
  rw [Res.sub_le (by omega), Res.bind_ok, if_neg (show ¬ stop < start by omega),
    if_neg (show ¬ start ≥ pts.length by omega), if_neg (by omega),
    forRange_first _ _ h1, Res.get_lt (by omega), Res.bind_ok, Res.set_ge (by simp)]
  rfl

section examples
local notation "F" => Fl exactRounding
local notation "pt" => fun (x y : ℚ) => (Coord.xy (Fl.fin x) (Fl.fin y) : Coord F)

example : compareArrays [pt 0 0, pt 1 0] [pt 0 0, pt 1 1] = -1 ∧ compareArrays [pt 0 0, pt 1 0] [pt 0 0] = 1 := by
  decide +kernel
example : ∀ c ∈ [pt 0 0, pt 1 0], c.NN := by decide +kernel
example : increasingDirection [pt 0 0, pt 1 0, pt 2 0] = .ok (-1) ∧
    increasingDirection [pt 2 0, pt 1 0, pt 0 0] = .ok 1 ∧
    ¬ List.Forall₂ (fun a b => a.equals2D b = true) [pt 0 0, pt 1 0] [pt 0 0, pt 1 0].reverse := by
  refine ⟨by decide +kernel, by decide +kernel, ?_⟩
  intro h
  simp only [List.reverse_cons, List.reverse_nil, List.nil_append, List.cons_append] at h
  cases h with
  | cons h _ => revert h; decide +kernel
example : isEqualReversed [pt 0 0, pt 1 0] [pt 1 0, pt 0 0] = .ok true := by decide +kernel
example : minCoordinate [pt 1 0, pt 0 1, pt 0 1, pt 0 2] = some (pt 0 1) := by decide +kernel
example : indexOf (pt 0 1) [pt 1 0, pt 0 1, pt 0 1] = .ok 1 ∧ indexOf (pt 9 9) [pt 1 0] = .ok (-1) := by
  decide +kernel
example : copyDeepTo [pt 1 0, pt 2 0, pt 3 0] 1 [pt 0 0, pt 0 0, pt 0 0, pt 0 0] 1 2 =
    .ok [pt 0 0, pt 2 0, pt 3 0, pt 0 0] := by decide +kernel
example : extract [pt 1 0, pt 2 0, pt 3 0] 0 2 = .error .index := by decide +kernel
end examples

end Verif.Props
