import Verif.Props.Panics
import Verif.Props.IntersectionMatrix
import Verif.Model.CoordinateList
import Verif.Model.MathUtil
import Verif.Model.DD
import Verif.Model.LineIntersector

/-! # C135: exactly which calls on matrices, coordinate lists and numbers abort -/

namespace Verif.Props
open Flt Verif.Spec Verif.Binary64

/-! ## Intersection matrices -/

/-- The characters which stand for a dimension. -/
def DimChar (c : Char) : Prop := c ∈ ['F', 'T', 'f', 't', '*', '0', '1', '2']

instance (c : Char) : Decidable (DimChar c) := by unfold DimChar; infer_instance

theorem dimChar_of_upper (c u l : Char) (hl : Dimension.asciiUpper l = u) (hlow : 97 ≤ l.toNat ∧ l.toNat ≤ 122)
    (h : Dimension.asciiUpper c = u) : c = u ∨ c = l := by
  unfold Dimension.asciiUpper at h hl
  rw [if_pos hlow] at hl
  split at h
  · rename_i hc
    right
    have key : ∀ m n : Nat, 97 ≤ m → m ≤ 122 → 97 ≤ n → n ≤ 122 → Char.ofNat (m - 32) = Char.ofNat (n - 32) → m = n := by
      intro m n h1 h2 h3 h4
      interval_cases m <;> interval_cases n <;> first | (intro _; rfl) | (intro hh; exact absurd hh (by decide))
    have := key _ _ hc.1 hc.2 hlow.1 hlow.2 (h.trans hl.symm)
    exact Char.toNat_inj.mp this
  · exact .inl h

theorem dimChar_self (c u : Char) (hu : ∀ m, 97 ≤ m → m ≤ 122 → Char.ofNat (m - 32) ≠ u) (h : Dimension.asciiUpper c = u) : c = u := by
  unfold Dimension.asciiUpper at h
  split at h
  · rename_i hc; exact absurd h (hu _ hc.1 hc.2)
  · exact h

theorem dimChar_iff (c : Char) : (∃ v, Dimension.toDimensionValue c = some v) ↔ DimChar c := by
  unfold DimChar
  constructor
  · rintro ⟨v, hv⟩
    unfold Dimension.toDimensionValue at hv
    dsimp only at hv
    split at hv
    · rename_i h; rcases dimChar_of_upper c 'F' 'f' (by decide) (by decide) h with h | h <;> subst h <;> decide
    split at hv
    · rename_i h; rcases dimChar_of_upper c 'T' 't' (by decide) (by decide) h with h | h <;> subst h <;> decide
    split at hv
    · rename_i h; have := dimChar_self c '*' (by intro m h1 h2; interval_cases m <;> decide) h; subst this; decide
    split at hv
    · rename_i h; have := dimChar_self c '0' (by intro m h1 h2; interval_cases m <;> decide) h; subst this; decide
    split at hv
    · rename_i h; have := dimChar_self c '1' (by intro m h1 h2; interval_cases m <;> decide) h; subst this; decide
    split at hv
    · rename_i h; have := dimChar_self c '2' (by intro m h1 h2; interval_cases m <;> decide) h; subst this; decide
    cases hv
  · intro h
    simp only [List.mem_cons, List.not_mem_nil, or_false] at h
    rcases h with h | h | h | h | h | h | h | h <;> subst h <;> exact ⟨_, rfl⟩

theorem matrix_get (a : IM) (r c : Nat) : Returns (a.get r c) ↔ r < 3 ∧ c < 3 := by
  unfold IM.get; split <;> simp_all [returns_ok, not_returns_error]

theorem matrix_setValue (a : IM) (r c : Nat) (v : Int) : Returns (a.setValue r c v) ↔ r < 3 ∧ c < 3 := by
  unfold IM.setValue; split <;> simp_all [returns_ok, not_returns_error]

theorem matrix_setAtLeast (a : IM) (r c : Nat) (v : Int) : Returns (a.setAtLeast r c v) ↔ r < 3 ∧ c < 3 := by
  rw [IM.setAtLeast, returns_bind_iff, matrix_get]
  intro b hb
  have := (matrix_get a r c).mp ⟨b, hb⟩
  split
  · exact (matrix_setValue ..).mpr this
  · exact returns_pure _

theorem length_le_byteLen (s : List Char) : s.length ≤ IM.byteLen s := by
  unfold IM.byteLen
  induction s with
  | nil => simp
  | cons c s ih =>
    have := c.utf8Size_pos
    simp only [List.length_cons, List.map_cons, List.sum_cons]; omega

theorem matrix_text (a : IM) (s : List Char) (f : IM → Nat → Nat → Int → Res IM) (hf : ∀ a r c v, Returns (f a r c v) ↔ r < 3 ∧ c < 3) :
    Returns (forRange 0 (IM.byteLen s) a (fun i a =>
      match s[i]? with
      | some ch =>
        match Dimension.toDimensionValue ch with
        | some v => f a (i / 3) (i % 3) v
        | none => pure a
      | none => pure a)) ↔ ∀ c ∈ s.drop 9, ¬ DimChar c := by
  rw [returns_range_iff (P := fun _ => True) (Q := fun i => ∀ ch, s[i]? = some ch → DimChar ch → i < 9) trivial]
  · constructor
    · intro h c hc hd
      obtain ⟨j, hj⟩ := List.mem_iff_getElem?.mp hc
      rw [List.getElem?_drop] at hj
      obtain ⟨hl, -⟩ := List.getElem?_eq_some_iff.mp hj
      have := h (9 + j) (by omega) (by have := length_le_byteLen s; omega) c hj hd
      omega
    · intro h i _ _ ch hch hd
      by_contra hi
      refine h ch (List.mem_iff_getElem?.mpr ⟨i - 9, ?_⟩) hd
      rw [List.getElem?_drop, show 9 + (i - 9) = i by omega]; exact hch
  · intro i a _ _ _
    cases hs : s[i]? with
    | none => simp [returns_ok]
    | some ch =>
      dsimp only
      cases hv : Dimension.toDimensionValue ch with
      | none =>
        have : ¬ DimChar ch := by rw [← dimChar_iff]; simp [hv]
        simp [returns_ok, this]
      | some v =>
        have : DimChar ch := (dimChar_iff ch).mp ⟨v, hv⟩
        dsimp only
        rw [hf]
        constructor
        · intro h _ _ _; omega
        · intro h; have := h ch rfl this; omega
  · intros; trivial

/-- Matrices: reading and writing an entry returns exactly if row and column are below three; a text is read exactly if no
character after the ninth stands for a dimension; all other calls return. -/
theorem C135_matrices (a b : IM) (r c : Nat) (v : Int) (s p : List Char) :
    (Returns (a.get r c) ↔ r < 3 ∧ c < 3) ∧ (Returns (a.setValue r c v) ↔ r < 3 ∧ c < 3) ∧ (Returns (a.setAtLeast r c v) ↔ r < 3 ∧ c < 3) ∧
    (Returns (a.setString s) ↔ ∀ c ∈ s.drop 9, ¬ DimChar c) ∧ (Returns (a.setAtLeastString s) ↔ ∀ c ∈ s.drop 9, ¬ DimChar c) ∧
    (Returns (IM.newWithElements s) ↔ ∀ c ∈ s.drop 9, ¬ DimChar c) ∧ (Returns (IM.matchesStringString s p) ↔ ∀ c ∈ s.drop 9, ¬ DimChar c) ∧
    Returns (a.matchesString p) ∧ Returns (a.setAll v) ∧ Returns (a.add b) ∧ Returns (a.equals b) ∧ Returns a.toStr := by
  have hm : ∀ a : IM, Returns (a.matchesString p) := by
    intro a
    unfold IM.matchesString
    split; · exact returns_ok _
    rw [returns_bind_iff (fun _ _ => returns_pure _)]
    refine returns_find fun i _ hi => returns_find fun j _ hj => ?_
    split
    · rw [returns_bind_iff, matrix_get]
      · exact ⟨hi, hj⟩
      · intro b _; split <;> exact returns_pure _
    · exact returns_pure _
  refine ⟨matrix_get a r c, matrix_setValue a r c v, matrix_setAtLeast a r c v, matrix_text a s _ matrix_setValue,
    matrix_text a s _ matrix_setAtLeast, matrix_text _ s _ matrix_setValue, ?_, hm a, ?_, ?_, ?_, ?_⟩
  · rw [IM.matchesStringString, returns_bind_iff (fun m _ => hm m)]
    exact matrix_text _ s _ matrix_setValue
  · exact returns_range _ fun i _ _ hi => returns_range _ fun j _ _ hj => (matrix_setValue ..).mpr ⟨hi, hj⟩
  · refine returns_range _ fun i _ _ hi => returns_range _ fun j _ _ hj => ?_
    rw [returns_bind_iff, matrix_get]
    · exact ⟨hi, hj⟩
    · intro v _; exact (matrix_setAtLeast ..).mpr ⟨hi, hj⟩
  · rw [IM.equals, returns_bind_iff (fun _ _ => returns_pure _)]
    refine returns_find fun i _ hi => returns_find fun j _ hj => ?_
    rw [returns_bind_iff, matrix_get]
    · exact ⟨hi, hj⟩
    · intro x _
      rw [returns_bind_iff, matrix_get]
      · exact ⟨hi, hj⟩
      · intro y _; split <;> exact returns_pure _
  · refine returns_range _ fun i _ _ hi => returns_range _ fun j _ _ hj => ?_
    rw [returns_bind_iff, matrix_get]
    · exact ⟨hi, hj⟩
    · intro v _; split <;> exact returns_pure _

example : Returns (IM.default.setString "212101212 or so".toList) ∧ ¬ Returns (IM.default.setString "212101212 too".toList) ∧
    ¬ Returns (IM.default.setString "2121012120".toList) := by
  refine ⟨(C135_matrices .default .default 0 0 0 _ []).2.2.2.1.mpr (by decide), ?_, ?_⟩
  · rw [(C135_matrices .default .default 0 0 0 _ []).2.2.2.1]; intro h; exact h 't' (by decide) (by decide)
  · rw [(C135_matrices .default .default 0 0 0 _ []).2.2.2.1]; intro h; exact h '0' (by decide) (by decide)

/-! ## Coordinate lists -/

section lists
variable {α : Type} [Flt α]
open CoordList

/-- Coordinate lists: a range is added exactly if it runs forward inside the array; an array is added exactly if the direction is
forward; a coordinate is inserted exactly up to the length of the list; arrays are always made. -/
theorem C135_lists (l cs : List (Coord α)) (c : Coord α) (rep dir : Bool) (i j : Nat) :
    (Returns (addRange l cs rep i j) ↔ i ≤ j ∧ (i < j → j ≤ cs.length)) ∧ (Returns (addDirection l cs rep dir) ↔ dir = true) ∧
    Returns (addList l cs rep) ∧ Returns (newWithRepeated cs rep) ∧ (Returns (CoordList.insert l i c rep) ↔ i ≤ l.length) ∧
    Returns (toArray l dir) := by
  have hr : ∀ (l : List (Coord α)) i j, Returns (forRange i j l (fun i l => do
      let c ← Res.get cs i
      pure (add l c rep))) ↔ ∀ k, i ≤ k → k < j → k < cs.length := fun l i j =>
    returns_range_iff (P := fun _ => True) trivial
      (fun k l _ _ _ => by rw [returns_bind_iff (fun _ _ => returns_pure _), returns_get]) (fun _ _ _ _ _ _ _ => trivial)
  have hf : ∀ l : List (Coord α), Returns (addDirection l cs rep true) := by
    intro l
    rw [addDirection, if_pos rfl, hr]
    intro k _ h; exact h
  have hv : Returns (vecInsert l i c) ↔ i ≤ l.length := by
    unfold vecInsert; split <;> simp [returns_ok, not_returns_error, *]
  refine ⟨?_, ?_, hf l, hf [], ?_, ?_⟩
  · unfold addRange
    split
    · rename_i h
      constructor
      · rw [returns_bind]
        rintro ⟨_, _, h2⟩; exact absurd h2 (not_returns_error _)
      · intro h2; omega
    · rename_i h
      rw [hr]
      constructor
      · intro h2
        exact ⟨by omega, fun h3 => by have := h2 (j - 1) (by omega) (by omega); omega⟩
      · intro h2 k h3 h4; have := h2.2 (by omega); omega
  · cases dir with
    | true => simp [hf]
    | false =>
      simp only [Bool.false_eq_true, iff_false]
      rw [addDirection, if_neg (by simp), returns_bind]
      rintro ⟨_, _, h2⟩; exact not_returns_error _ h2
  · by_cases hle : i ≤ l.length
    · simp only [hle, iff_true] at hv ⊢
      unfold CoordList.insert
      dsimp only
      split
      · generalize (decide (i > 0) && _ : Bool) = b1
        generalize (decide (i < l.length) && _ : Bool) = b2
        cases b1 <;> cases b2 <;> simp [returns_ok, hv]
      · exact hv
    · have h1 : l[i - 1]? = none := List.getElem?_eq_none (by omega)
      have h2 : ¬ i < l.length := by omega
      rw [← hv]
      simp [CoordList.insert, h1, h2]
  · unfold toArray
    split; · exact returns_ok _
    obtain ⟨p, hp, -⟩ := range_keeps (lo := 0) (hi := l.length) (s := List.replicate l.length (Coord.default (α := α)))
      (f := fun i pts => do
        let k ← Res.sub l.length i
        let k ← Res.sub k 1
        match l[k]? with
        | some c => Res.set pts i c
        | none => pure pts) (P := fun pts => pts.length = l.length) (by simp) (by
      intro i pts _ hi hp
      have h1 : Res.sub l.length i = .ok (l.length - i) := if_pos (by omega)
      have h2 : Res.sub (l.length - i) 1 = .ok (l.length - i - 1) := if_pos (by omega)
      rw [h1, Res.bind_ok, h2, Res.bind_ok]
      split
      · rw [Res.set_lt (by omega)]; exact ⟨_, rfl, by simp [hp]⟩
      · exact ⟨_, rfl, hp⟩)
    exact ⟨p, hp⟩

end lists

/-- Three points of which two are alike. -/
private def pts : List (Coord EQ) := [Coord.xy (.fin 0) (.fin 0), Coord.xy (.fin 1) (.fin 0), Coord.xy (.fin 1) (.fin 0)]

example : Returns (CoordList.addRange [] pts false 1 3) ∧ Returns (CoordList.addRange [] pts false 7 7) ∧
    ¬ Returns (CoordList.addRange [] pts false 1 4) ∧ ¬ Returns (CoordList.addRange [] pts false 2 1) ∧
    Returns (CoordList.insert pts 3 Coord.default false) ∧ ¬ Returns (CoordList.insert pts 4 (Coord.xy (.fin 1) (.fin 0)) false) := by
  refine ⟨(C135_lists [] pts .default false true 1 3).1.mpr ⟨by decide, fun _ => by decide⟩,
    (C135_lists [] pts .default false true 7 7).1.mpr ⟨by decide, fun h => absurd h (by decide)⟩, ?_, ?_,
    (C135_lists pts [] .default false true 3 0).2.2.2.2.1.mpr (by decide), ?_⟩
  · rw [(C135_lists [] pts .default false true 1 4).1]; intro h; exact absurd (h.2 (by decide)) (by decide)
  · rw [(C135_lists [] pts .default false true 2 1).1]; intro h; exact absurd h.1 (by decide)
  · rw [(C135_lists pts [] _ false true 4 0).2.2.2.2.1]; decide

/-! ## Numbers -/

/-- In the range of 32-bit integers. -/
def In32 (x : Int) : Prop := -2147483648 ≤ x ∧ x ≤ 2147483647

theorem returns_i32 (x : Int) : Returns (MathUtil.i32 x) ↔ In32 x := by
  unfold MathUtil.i32 In32; split <;> simp [returns_ok, not_returns_error, *]

theorem i32_of (x : Int) (h : In32 x) : MathUtil.i32 x = .ok x := if_pos h

/-- Numbers: the rounded-up quotient is computed exactly if the divisor is not zero and the quotient is not 2³¹; wrapping an index
returns exactly if the bound is not zero and neither the opposite of a negative index nor the difference overflows; an extended
number is raised to every power but the least integer; only the first two intersection points can be asked for. -/
theorem C135_numbers {α : Type} [Flt α] (n d : Int) (hn : In32 n) (hd : In32 d) (x : DD α) (s : LI α) (i : Nat) :
    (Returns (MathUtil.ceil n d) ↔ d ≠ 0 ∧ ¬ (n = -2147483648 ∧ d = -1)) ∧
    (Returns (MathUtil.wrap n d) ↔ d ≠ 0 ∧ (n < 0 → n ≠ -2147483648 ∧ -2147483648 ≤ d - (-n) % |d|)) ∧
    (Returns (x.pow n) ↔ n ≠ -2147483648) ∧ (Returns (s.getIntersection i) ↔ i < 2) := by
  obtain ⟨n1, n2⟩ := hn
  obtain ⟨d1, d2⟩ := hd
  refine ⟨?_, ?_, ?_, ?_⟩
  · unfold MathUtil.ceil
    split
    · rename_i h; simp [h, not_returns_error]
    rename_i h0
    by_cases hx : n = -2147483648 ∧ d = -1
    · obtain ⟨rfl, rfl⟩ := hx
      simp only [ne_eq, not_true_eq_false, and_false, iff_false, and_self]
      rw [returns_bind]
      rintro ⟨b, hb, -⟩
      have := (returns_i32 _).mp ⟨b, hb⟩
      exact absurd this (by unfold In32; decide)
    · simp only [hx, not_false_eq_true, ne_eq, h0, and_self, iff_true]
      have ha : |n.tdiv d| ≤ |n| := by
        rw [Int.abs_eq_natAbs, Int.abs_eq_natAbs, Int.natAbs_tdiv]
        exact_mod_cast Nat.div_le_self _ _
      have hq : In32 (n.tdiv d) := by
        unfold In32
        rw [abs_le] at ha
        by_cases hn : n = -2147483648
        · subst hn
          have : d ≠ -1 := fun h => hx ⟨rfl, h⟩
          have h2 : 2 ≤ d.natAbs ∨ d = 1 := by omega
          rcases h2 with h2 | h2
          · have h3 : (Int.tdiv (-2147483648) d).natAbs ≤ 1073741824 := by
              rw [Int.natAbs_tdiv]
              exact Nat.div_le_of_le_mul (by norm_num; omega)
            omega
          · subst h2; decide
        · have : |n| ≤ 2147483647 := abs_le.mpr ⟨by omega, by omega⟩
          omega
      have hp := Int.mul_tdiv_add_tmod n d
      have hm : (n.tmod d).natAbs < d.natAbs := by
        rw [Int.natAbs_tmod]; exact Nat.mod_lt _ (by omega)
      have hpr : In32 (n.tdiv d * d) := by
        unfold In32
        have h1 : (n.tdiv d * d).natAbs ≤ n.natAbs := by
          rw [Int.natAbs_mul, Int.natAbs_tdiv]; exact Nat.div_mul_le_self _ _
        have h2 : 0 ≤ n → 0 ≤ n.tdiv d * d := by
          intro h
          have : 0 ≤ n.tmod d := Int.tmod_nonneg d h
          have h3 : n.tmod d ≤ n := by
            have : (n.tmod d).natAbs ≤ n.natAbs := by rw [Int.natAbs_tmod]; exact Nat.mod_le _ _
            omega
          rw [Int.mul_comm]; omega
        by_cases hn : 0 ≤ n
        · have := h2 hn; omega
        · have h4 : n.tmod d ≤ 0 := by
            have := Int.tmod_nonneg d (a := -n) (by omega)
            rw [Int.neg_tmod] at this; omega
          have h5 : n ≤ n.tmod d := by
            have : (n.tmod d).natAbs ≤ n.natAbs := by rw [Int.natAbs_tmod]; exact Nat.mod_le _ _
            omega
          rw [Int.mul_comm]; omega
      rw [i32_of _ hq, Res.bind_ok, i32_of _ hpr, Res.bind_ok]
      split
      · exact returns_pure _
      · rename_i hlt
        rw [returns_i32]
        refine ⟨by have := hq.1; omega, ?_⟩
        have := hq.2
        by_contra hc
        have hq' : n.tdiv d = 2147483647 := by omega
        rw [hq'] at hlt hpr
        unfold In32 at hpr
        have : d = 1 ∨ d = -1 := by omega
        rcases this with rfl | rfl
        · omega
        · rw [Int.tdiv_neg, Int.tdiv_one] at hq'; omega
  · unfold MathUtil.wrap
    split
    · rename_i h
      by_cases hm : n = -2147483648
      · subst hm
        simp only [h, not_true_eq_false, ne_eq, false_and, imp_false, and_false, iff_false]
        rw [returns_bind]
        rintro ⟨b, hb, -⟩
        have := (returns_i32 _).mp ⟨b, hb⟩
        exact absurd this (by unfold In32; decide)
      · rw [i32_of _ ⟨by omega, by omega⟩, Res.bind_ok]
        split
        · rename_i h0; simp [h0, not_returns_error]
        · rename_i h0
          have he : (n * -1).tmod d = (-n) % |d| := by
            rw [show n * -1 = -n by ring, Int.tmod_eq_emod_of_nonneg (by omega)]
            rw [Int.emod_abs]
          rw [returns_i32, he]
          have h1 : 0 ≤ (-n) % |d| := Int.emod_nonneg _ (by simpa using h0)
          unfold In32
          constructor
          · rintro ⟨h2, h3⟩; exact ⟨h0, fun _ => ⟨hm, h2⟩⟩
          · rintro ⟨-, h2⟩; exact ⟨(h2 h).2, by omega⟩
    · rename_i h
      split
      · rename_i h0; simp [h0, not_returns_error]
      · rename_i h0; simp [h0, returns_ok, h]
  · unfold DD.pow
    split
    · rename_i h; subst h; simp [returns_ok]
    split
    · rename_i h; simp [h, not_returns_error]
    · rename_i h; simp [h, returns_ok]
  · unfold LI.getIntersection
    split
    · rename_i h; simp [h, returns_ok]
    split
    · rename_i h; simp [h, returns_ok]
    · simp only [not_returns_error, false_iff]; omega

example : ¬ Returns (MathUtil.wrap (-5) (-2147483647)) ∧ Returns (MathUtil.wrap (-5) (-7)) ∧ ¬ Returns (MathUtil.ceil (-2147483648) (-1)) := by
  have h := fun n d hn hd => C135_numbers (α := EQ) n d hn hd ⟨.fin 0, .fin 0⟩ .default 0
  refine ⟨?_, (h (-5) (-7) ⟨by decide, by decide⟩ ⟨by decide, by decide⟩).2.1.mpr ⟨by decide, fun _ => ⟨by decide, by decide⟩⟩, ?_⟩
  · rw [(h (-5) (-2147483647) ⟨by decide, by decide⟩ ⟨by decide, by decide⟩).2.1]; intro hh; exact absurd (hh.2 (by decide)).2 (by decide)
  · rw [(h (-2147483648) (-1) ⟨by decide, by decide⟩ ⟨by decide, by decide⟩).1]; intro hh; exact hh.2 ⟨rfl, rfl⟩

end Verif.Props
