import Verif.Model.MathUtil
import Verif.Model.Coordinate
import Verif.Lemmas.Flt
import Verif.Lemmas.Loop
import Mathlib.Algebra.Order.Field.Basic
import Mathlib.Tactic.Linarith
import Mathlib.Algebra.Order.Floor.Ring
import Mathlib.Data.Rat.Floor

/-! # C52: integer and float helpers -/

set_option linter.unusedSectionVars false

namespace Verif.Props
open Flt MathUtil
variable {α : Type} [Flt α] [FltOrd α]

/-- Clamping: in range, the argument itself if already in range, the violated bound otherwise. -/
theorem C52_clamp (x min max : Int) (h : min ≤ max) :
    min ≤ clampI32 x min max ∧ clampI32 x min max ≤ max ∧
    (min ≤ x → x ≤ max → clampI32 x min max = x) ∧ (x < min → clampI32 x min max = min) ∧
    (max < x → clampI32 x min max = max) ∧
    (∀ y, min ≤ y → y ≤ max → |x - clampI32 x min max| ≤ |x - y|) := by
  unfold clampI32
  refine ⟨?_, ?_, ?_, ?_, ?_, ?_⟩
  case refine_6 =>
    intro y h1 h2
    split_ifs <;> (try simp) <;> rw [Int.abs_eq_natAbs, Int.abs_eq_natAbs] <;> omega
  all_goals split_ifs <;> omega

/-- `clamp_max` is the minimum. -/
theorem C52_clampMax (x max : Int) : clampMax x max = Min.min x max := by
  unfold clampMax; split_ifs <;> omega

/-- Clamping floats: for a nonempty range and any number. -/
theorem C52_clampF64 (x min max : α) (hx : isNaN x = false) (h : (min ≤. max) = true) :
    (min ≤. clampF64 x min max) = true ∧ (clampF64 x min max ≤. max) = true ∧
    ((min ≤. x) = true → (x ≤. max) = true → clampF64 x min max = x) := by
  unfold clampF64
  rw [FltOrd.le_iff] at h
  obtain ⟨h1, h2, h3⟩ := h
  simp only [lt_eq, le_eq, h1, h2, hx]
  grind

/-- Clamping NaN returns NaN (no panic, no bound). -/
theorem C52_clampF64_nan (x min max : α) (hx : isNaN x = true) : clampF64 x min max = x := by
  simp [clampF64, lt_eq, hx]

/-- `max_3`, `max_4`, `min` return one of their arguments that bounds the others, for numbers. -/
theorem C52_max_min (a b c d : α) (ha : isNaN a = false) (hb : isNaN b = false) (hc : isNaN c = false)
    (hd : isNaN d = false) :
    (max3 a b c ∈ [a, b, c] ∧ ∀ x ∈ [a, b, c], (x ≤. max3 a b c) = true) ∧
    (max4 a b c d ∈ [a, b, c, d] ∧ ∀ x ∈ [a, b, c, d], (x ≤. max4 a b c d) = true) ∧
    (min4 a b c d ∈ [a, b, c, d] ∧ ∀ x ∈ [a, b, c, d], (min4 a b c d ≤. x) = true) := by
  simp only [max3, max4, min4, lt_eq, le_eq, List.mem_cons, List.not_mem_nil, or_false]
  refine ⟨⟨?_, ?_⟩, ⟨?_, ?_⟩, ⟨?_, ?_⟩⟩
  all_goals
    try rintro x (rfl | rfl | rfl | rfl)
    all_goals try rintro x (rfl | rfl | rfl)
    all_goals grind (splits := 30)

/-- `average` is the midpoint (exact arithmetic). -/
theorem C52_average {K : Type} [Field K] [LinearOrder K] [IsStrictOrderedRing K] (a b : K) :
    average a b + average a b = a + b ∧ average a b - a = b - average a b := by
  simp only [average, exact_add, exact_div, exact_lit]
  push_cast
  constructor <;> linarith

/-- `equals_with_tolerance` is symmetric and reflexive for a nonnegative tolerance (exact arithmetic). -/
theorem C52_tolerance {K : Type} [Field K] [LinearOrder K] [IsStrictOrderedRing K] (a b t : K) :
    equalsWithTolerance a b t = equalsWithTolerance b a t ∧
    (equalsWithTolerance a b t = true ↔ |a - b| ≤ t) ∧ (0 ≤ t → equalsWithTolerance a a t = true) := by
  simp only [equalsWithTolerance, exact_sub, exact_abs, exact_le, decide_eq_true_eq]
  refine ⟨?_, ?_, ?_⟩
  · have : max (a - b) (-(a - b)) = max (b - a) (-(b - a)) := by rw [max_comm]; simp
    rw [this]
  · rfl
  · intro h; simpa using h

/-- `wrap` for a positive modulus, away from negative multiples: the residue in [0, max). -/
theorem C52_wrap_partial (i m : Int) (hm : 0 < m) (hm2 : m ≤ 2147483647) (h1 : -2147483648 < i)
    (h : 0 ≤ i ∨ ¬ m ∣ i) :
    wrap i m = .ok (i % m) ∧ 0 ≤ i % m ∧ i % m < m := by
  have hpos := Int.emod_nonneg i (by omega : m ≠ 0)
  have hlt := Int.emod_lt_of_pos i hm
  refine ⟨?_, hpos, hlt⟩
  unfold wrap
  by_cases hi : i < 0
  · have hnd : ¬ m ∣ i := by rcases h with h | h; omega; exact h
    rw [if_pos hi]
    by_cases hmin : -2147483648 ≤ i * -1 ∧ i * -1 ≤ 2147483647
    · rw [i32, if_pos hmin, Res.bind_ok, if_neg (by omega)]
      have e1 : (i * -1).tmod m = (i * -1) % m := Int.tmod_eq_emod_of_nonneg (by omega)
      have hp := Int.emod_nonneg (i * -1) (by omega : m ≠ 0)
      have hl := Int.emod_lt_of_pos (i * -1) hm
      have hne : i % m ≠ 0 := fun h0 => hnd (Int.dvd_of_emod_eq_zero h0)
      have e2 : m - (i * -1) % m = i % m := by
        have a1 := Int.mul_ediv_add_emod i m
        have a2 := Int.mul_ediv_add_emod (i * -1) m
        have hsum : m * (i / m + i * -1 / m) = -(i % m + i * -1 % m) := by
          have : m * (i / m + i * -1 / m) = m * (i / m) + m * (i * -1 / m) := Int.mul_add _ _ _
          omega
        have hk : i / m + i * -1 / m = -1 := by
          have b1 : m * (i / m + i * -1 / m) < 0 := by omega
          have b2 : -(2 * m) < m * (i / m + i * -1 / m) := by omega
          have c1 : i / m + i * -1 / m < 0 := by
            by_contra hc
            have : 0 ≤ m * (i / m + i * -1 / m) := Int.mul_nonneg (by omega) (by omega)
            omega
          have c2 : -2 < i / m + i * -1 / m := by
            by_contra hc
            have : m * (i / m + i * -1 / m) ≤ m * (-2) := Int.mul_le_mul_of_nonneg_left (by omega) (by omega)
            omega
          omega
        rw [hk] at hsum
        omega
      rw [e1, e2, i32, if_pos (by omega)]
    · omega
  · rw [if_neg hi, if_neg (by omega), Int.tmod_eq_emod_of_nonneg (by omega)]

/-- The full claim is false: a negative multiple of the modulus is wrapped to the modulus itself, outside [0, max). -/
theorem C52_wrap_negative_multiple (k m : Int) (hm : 0 < m) (hk : 0 < k) (h : k * m ≤ 2147483647) :
    wrap (-(k * m)) m = .ok m := by
  have hkm : 0 < k * m := Int.mul_pos hk hm
  have hmm : m ≤ k * m := by
    have := Int.mul_le_mul_of_nonneg_right (show 1 ≤ k by omega) (show 0 ≤ m by omega)
    omega
  unfold wrap
  rw [if_pos (by omega), i32, if_pos (by omega), Res.bind_ok, if_neg (by omega)]
  have e : (-(k * m) * -1).tmod m = 0 := by
    have : -(k * m) * -1 = k * m := by omega
    rw [this, Int.mul_tmod_left]
  rw [e, i32, if_pos (by omega)]
  simp

/-- `ceil` with a positive denominator is the ceiling of the quotient. -/
theorem C52_ceil_partial (n d : Int) (hd : 0 < d) (h1 : -2147483648 ≤ n) (h2 : n ≤ 2147483647)
    (hd2 : d ≤ 2147483647) :
    ceil n d = .ok ⌈(n / d : ℚ)⌉ := by
  have hq : ∀ c : Int, (c - 1) * d < n → n ≤ c * d → ⌈(n / d : ℚ)⌉ = c := by
    intro c ha hb
    have hd' : (0 : ℚ) < d := by exact_mod_cast hd
    rw [Int.ceil_eq_iff]
    constructor
    · rw [lt_div_iff₀ hd']; exact_mod_cast ha
    · rw [div_le_iff₀ hd']; exact_mod_cast hb
  have key : n.tdiv d * d + n.tmod d = n := by
    have := Int.mul_tdiv_add_tmod n d
    rw [Int.mul_comm] at this; exact this
  have hr : -d < n.tmod d ∧ n.tmod d < d ∧ (0 ≤ n → 0 ≤ n.tmod d) ∧ (n ≤ 0 → n.tmod d ≤ 0) := by
    rcases Int.le_total 0 n with h0 | h0
    · rw [Int.tmod_eq_emod_of_nonneg h0]
      have a := Int.emod_nonneg n (by omega : d ≠ 0)
      have b := Int.emod_lt_of_pos n hd
      refine ⟨by omega, b, fun _ => a, fun h => ?_⟩
      have : n = 0 := by omega
      subst this; simp
    · have e : n.tmod d = -((-n) % d) := by
        rw [← Int.tmod_eq_emod_of_nonneg (by omega : 0 ≤ -n), Int.neg_tmod]; omega
      rw [e]
      have a := Int.emod_nonneg (-n) (by omega : d ≠ 0)
      have b := Int.emod_lt_of_pos (-n) hd
      refine ⟨by omega, by omega, fun h => ?_, fun _ => by omega⟩
      have : n = 0 := by omega
      subst this; simp
  have hprod : -2147483648 ≤ n.tdiv d * d ∧ n.tdiv d * d ≤ 2147483647 := by
    rcases Int.le_total 0 n with h0 | h0
    · have := Int.tdiv_nonneg h0 (by omega : 0 ≤ d)
      have : 0 ≤ n.tdiv d * d := Int.mul_nonneg this (by omega)
      have := hr.2.2.1 h0
      omega
    · have := hr.2.2.2 h0
      have : n.tdiv d ≤ 0 := by
        by_contra hc
        have : d ≤ n.tdiv d * d := by
          have := Int.mul_le_mul_of_nonneg_right (show 1 ≤ n.tdiv d by omega) (show 0 ≤ d by omega)
          omega
        omega
      have : n.tdiv d * d ≤ 0 := Int.mul_nonpos_of_nonpos_of_nonneg this (by omega)
      omega
  have hdiv : -2147483648 ≤ n.tdiv d ∧ n.tdiv d ≤ 2147483647 := by
    constructor
    · by_contra hc
      have := Int.mul_le_mul_of_nonneg_right (show n.tdiv d ≤ -2147483649 by omega) (show 0 ≤ d by omega)
      omega
    · by_contra hc
      have := Int.mul_le_mul_of_nonneg_right (show 2147483648 ≤ n.tdiv d by omega) (show 0 ≤ d by omega)
      omega
  unfold ceil
  rw [if_neg (by omega), i32, if_pos hdiv, Res.bind_ok, i32, if_pos hprod, Res.bind_ok]
  split
  · rename_i hge
    rw [hq (n.tdiv d)]
    · rfl
    · rw [Int.sub_mul]; omega
    · omega
  · rename_i hlt
    rw [hq (n.tdiv d + 1)]
    · rw [i32, if_pos]
      have : n.tdiv d * d < n := by omega
      refine ⟨by omega, ?_⟩
      by_contra hc
      have := Int.mul_le_mul_of_nonneg_right (show 2147483647 ≤ n.tdiv d by omega) (show 0 ≤ d by omega)
      omega
    · rw [show n.tdiv d + 1 - 1 = n.tdiv d by omega]; omega
    · rw [Int.add_mul]; omega

/-- The full claim is false for negative denominators: the ceiling of 7 / -2 is -3 but the result is -2,
and the ceiling of -7 / -2 is 4 but the result is 3. -/
theorem C52_ceil_negative_denominator :
    ceil 7 (-2) = .ok (-2) ∧ ⌈((7 : Int) / (-2 : Int) : ℚ)⌉ = -3 ∧
    ceil (-7) (-2) = .ok 3 ∧ ⌈((-7 : Int) / (-2 : Int) : ℚ)⌉ = 4 := by
  refine ⟨by decide, ?_, by decide, ?_⟩ <;> norm_num [Int.ceil_eq_iff]

/-- `shuffle` panics for every size, whatever the random source returns: the array it fills has length zero. -/
theorem C52_shuffle_always_panics (rnd : Nat → Nat) (n : Nat) : ∃ e, shuffle rnd n = .error e := by
  rcases Nat.eq_zero_or_pos n with rfl | h
  · exact ⟨.arith, rfl⟩
  · refine ⟨.index, ?_⟩
    rw [shuffle, forRange_first _ _ h, Res.set_ge (by simp)]
    rfl

section examples
local notation "F" => Fl exactRounding
example : wrap (-7) 5 = .ok 3 ∧ wrap 12 5 = .ok 2 ∧ wrap (-10) 5 = .ok 5 ∧ ¬ (5 : Int) ∣ -7 := by decide
example : ceil 7 2 = .ok 4 ∧ ceil (-7) 2 = .ok (-3) := by decide
example : ((Fl.fin 1 : F) ≤. Fl.pinf) = true ∧ clampF64 (Fl.ninf : F) (Fl.fin 1) Fl.pinf = Fl.fin 1 := by decide
end examples

end Verif.Props
