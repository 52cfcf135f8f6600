import Verif.Model.DD
import Verif.Lemmas.Flt
import Verif.Spec.Order
import Mathlib.Tactic.Linarith
import Mathlib.Tactic.FieldSimp
import Mathlib.Tactic.Ring

set_option linter.unusedSectionVars false

/-! # C44, C45: double-double numbers -/

namespace Verif.Props
open Flt Verif.Spec

/-! ## C44: order and sign -/

section order
variable {α : Type} [Flt α] [FltOrd α]

/-- Both parts are numbers. -/
def DDNum (a : DD α) : Prop := isNaN a.hi = false ∧ isNaN a.lo = false

/-- `compare_to` is a total order on numbers, with `equals` as its equality. -/
theorem C44_compareTo_total_order :
    TotalOrderOn (DDNum (α := α)) DD.compareTo (fun a b => a.equals b = true) where
  range a b := by unfold DD.compareTo; split_ifs <;> simp
  zero_iff a b ha hb := by
    obtain ⟨a1, a2⟩ := ha
    obtain ⟨b1, b2⟩ := hb
    simp only [DD.compareTo, DD.equals, lt_eq, le_eq, eq_eq, a1, a2, b1, b2]
    grind
  swap a b ha hb := by
    obtain ⟨a1, a2⟩ := ha
    obtain ⟨b1, b2⟩ := hb
    simp only [DD.compareTo, lt_eq, le_eq, eq_eq, a1, a2, b1, b2]
    grind
  trans a b c ha hb hc := by
    obtain ⟨a1, a2⟩ := ha
    obtain ⟨b1, b2⟩ := hb
    obtain ⟨c1, c2⟩ := hc
    simp only [DD.compareTo, lt_eq, le_eq, eq_eq, a1, a2, b1, b2, c1, c2]
    grind (splits := 30)

/-- The comparison predicates are those of `compare_to`. -/
theorem C44_predicates (a b : DD α) (ha : DDNum a) (hb : DDNum b) :
    (a.lt b = true ↔ a.compareTo b = -1) ∧ (a.gt b = true ↔ a.compareTo b = 1) ∧
    (a.equals b = true ↔ a.compareTo b = 0) ∧ (a.le b = true ↔ a.compareTo b ≤ 0) ∧
    (a.ge b = true ↔ 0 ≤ a.compareTo b) := by
  obtain ⟨a1, a2⟩ := ha
  obtain ⟨b1, b2⟩ := hb
  simp only [DD.compareTo, DD.lt, DD.gt, DD.le, DD.ge, DD.equals, lt_eq, le_eq, eq_eq, a1, a2, b1, b2]
  grind (splits := 20)

/-- `min` and `max` are one of the two arguments and bound both. -/
theorem C44_min_max (a b : DD α) (ha : DDNum a) (hb : DDNum b) :
    (a.min b = a ∨ a.min b = b) ∧ (a.min b).le a = true ∧ (a.min b).le b = true ∧
    (a.max b = a ∨ a.max b = b) ∧ (a.max b).ge a = true ∧ (a.max b).ge b = true := by
  obtain ⟨a1, a2⟩ := ha
  obtain ⟨b1, b2⟩ := hb
  unfold DD.min DD.max
  have refl : ∀ c : DD α, isNaN c.hi = false → isNaN c.lo = false → c.le c = true ∧ c.ge c = true := by
    intro c h1 h2
    simp only [DD.le, DD.ge, lt_eq, le_eq, eq_eq, h1, h2]
    grind
  have tot : a.le b = false → b.le a = true := by
    simp only [DD.le, lt_eq, le_eq, eq_eq, a1, a2, b1, b2]; grind
  have tot2 : a.ge b = false → b.ge a = true := by
    simp only [DD.ge, lt_eq, le_eq, eq_eq, a1, a2, b1, b2]; grind
  refine ⟨?_, ?_, ?_, ?_, ?_, ?_⟩ <;> split_ifs <;> simp_all

/-- The sign is the comparison with zero, and the sign predicates agree with it. -/
theorem C44_sign [FltLit α] (a : DD α) (ha : DDNum a) :
    a.signum = a.compareTo (DD.ofF (lit 0)) ∧ (a.isPositive = true ↔ a.signum = 1) ∧
    (a.isNegative = true ↔ a.signum = -1) ∧ (a.isZero = true ↔ a.signum = 0) := by
  obtain ⟨a1, a2⟩ := ha
  have h0 : isNaN (lit ((0 : ℤ) : ℚ) : α) = false := FltLit.nn_lit 0 (by simp)
  simp only [Int.cast_zero] at h0
  simp only [DD.compareTo, DD.signum, DD.isPositive, DD.isNegative, DD.isZero, DD.ofF, lt_eq, le_eq, eq_eq, a1, a2, h0]
  grind (splits := 20)

end order

section neg
variable {r : Rounding} [Rounding.SmallInts r]

theorem lit0 : (lit 0 : Fl r) = Fl.fin 0 := by
  have := Rounding.SmallInts.small (r := r) 0 (by simp)
  simp only [Int.cast_zero] at this
  exact this

theorem Fl.neg_lt_neg (a b : Fl r) : (Flt.neg a <. Flt.neg b) = (b <. a) := by
  cases a <;> cases b <;> simp [Flt.lt, Flt.neg, Fl.lt, Fl.neg]

theorem Fl.neg_eq_neg (a b : Fl r) : (Flt.neg a ==. Flt.neg b) = (a ==. b) := by
  cases a <;> cases b <;> simp [Flt.eq, Flt.neg, Fl.eq, Fl.neg]

theorem Fl.neg_neg (a : Fl r) : Flt.neg (Flt.neg a) = a := by
  cases a <;> simp [Flt.neg, Fl.neg]

theorem Fl.neg_lt_zero (a : Fl r) : (Flt.neg a <. (lit 0)) = ((lit 0) <. a) ∧ ((lit 0) <. Flt.neg a) = (a <. (lit 0)) := by
  have h : (lit 0 : Fl r) = Flt.neg (lit 0) := by rw [lit0]; simp [Flt.neg, Fl.neg]
  constructor
  · conv_lhs => rw [h]
    exact Fl.neg_lt_neg _ _
  · conv_lhs => rw [h]
    exact Fl.neg_lt_neg _ _

/-- Negation is an involution that reverses the order and the sign, for every rounding. -/
theorem C44_negate (a b : DD (Fl r)) (ha : DDNum a) (hb : DDNum b) :
    a.negate.negate = a ∧ a.negate.compareTo b.negate = b.compareTo a ∧ a.negate.signum = -a.signum := by
  obtain ⟨a1, a2⟩ := ha
  obtain ⟨b1, b2⟩ := hb
  have na : (-.a.hi |> Flt.isNaN) = false := by
    rcases a with ⟨_ | _ | _ | _, _⟩ <;> simp_all [Flt.isNaN, Flt.neg, Fl.neg, Fl.isNaN]
  refine ⟨?_, ?_, ?_⟩
  · simp only [DD.negate, DD.isNaN, a1, Bool.false_eq_true, if_false]
    have na' : Flt.isNaN (Flt.neg a.hi) = false := na
    simp [na', Fl.neg_neg]
  · simp [DD.negate, DD.isNaN, a1, b1, DD.compareTo, Fl.neg_lt_neg]
  · simp only [DD.negate, DD.isNaN, a1, Bool.false_eq_true, if_false, DD.signum, Fl.neg_lt_zero]
    have asym : ∀ c : Fl r, ¬ ((lit 0 <. c) = true ∧ (c <. lit 0) = true) := by
      intro c ⟨h1, h2⟩
      rw [FltOrd.lt_iff] at h1 h2
      exact lt_asymm h1.2.2 h2.2.2
    have h1 := asym a.hi
    have h2 := asym a.lo
    split_ifs <;> simp_all

/-- The absolute value has the absolute sign, and is the value or its negation. -/
theorem C44_abs (a : DD (Fl r)) (ha : DDNum a) :
    a.abs.signum = |a.signum| ∧ (a.abs = a ∨ a.abs = a.negate) := by
  have hs := C44_sign a ha
  have hn := (C44_negate a a ha ha).2.2
  have hr := C44_compareTo_total_order.range a (DD.ofF (lit 0))
  rw [← hs.1] at hr
  unfold DD.abs DD.isNaN
  simp only [ha.1, Bool.false_eq_true, if_false]
  split_ifs with h
  · rw [hn, (hs.2.2.1).mp h]; simp
  · refine ⟨?_, Or.inl rfl⟩
    have : a.signum ≠ -1 := fun hc => h (hs.2.2.1.mpr hc)
    clear hs hn
    rcases hr with h | h | h
    · exact absurd h this
    · rw [h]; rfl
    · rw [h]; rfl

/-- A rounding is monotone. -/
def Rounding.Mono (r : Rounding) : Prop := ∀ p q : ℚ, p ≤ q → Fl.le (r := r) (r.rnd p) (r.rnd q) = true

/-- A finite pair is normalised if the high part is the rounded sum, and the rational it represents. -/
def Normalised (r : Rounding) (h l : ℚ) : Prop := r.rnd (h + l) = Val.fin h

/-- On normalised pairs `compare_to` and `signum` are those of the represented numbers, for every monotone rounding. -/
theorem C44_order_of_values (hm : Rounding.Mono r) (h l h' l' : ℚ) (n : Normalised r h l) (n' : Normalised r h' l') :
    DD.compareTo (⟨Fl.fin h, Fl.fin l⟩ : DD (Fl r)) ⟨Fl.fin h', Fl.fin l'⟩ =
      (if h + l < h' + l' then -1 else if h' + l' < h + l then 1 else 0) ∧
    DD.signum (⟨Fl.fin h, Fl.fin l⟩ : DD (Fl r)) = (if h + l < 0 then -1 else if 0 < h + l then 1 else 0) := by
  have mono : ∀ a b c d : ℚ, Normalised r a b → Normalised r c d → a + b ≤ c + d → a ≤ c := by
    intro a b c d h1 h2 h3
    have := hm _ _ h3
    rw [h1, h2] at this
    simpa [Fl.le] using this
  have n0 : Normalised r 0 0 := by
    have := Rounding.SmallInts.small (r := r) 0 (by simp)
    simpa [Normalised] using this
  have key : ∀ h l h' l' : ℚ, Normalised r h l → Normalised r h' l' →
      DD.compareTo (⟨Fl.fin h, Fl.fin l⟩ : DD (Fl r)) ⟨Fl.fin h', Fl.fin l'⟩ =
      (if h + l < h' + l' then -1 else if h' + l' < h + l then 1 else 0) := by
    intro h l h' l' n n'
    have m1 := mono _ _ _ _ n n'
    have m2 := mono _ _ _ _ n' n
    have A : ∀ a b : ℚ, ((Fl.fin a : Fl r) <. Fl.fin b) = decide (a < b) := fun a b => rfl
    simp only [DD.compareTo, A, decide_eq_true_eq]
    rcases lt_trichotomy h h' with hh | hh | hh
    · have : h + l < h' + l' := by
        by_contra hc; push Not at hc
        exact absurd (m2 hc) (by linarith)
      simp [hh, this]
    · subst hh
      simp
    · have : h' + l' < h + l := by
        by_contra hc; push Not at hc
        exact absurd (m1 hc) (by linarith)
      simp [hh, this, not_lt.mpr hh.le, not_lt.mpr this.le]
  refine ⟨key _ _ _ _ n n', ?_⟩
  have := key h l 0 0 n n0
  rw [(C44_sign (⟨Fl.fin h, Fl.fin l⟩ : DD (Fl r)) ⟨rfl, rfl⟩).1]
  unfold DD.ofF
  rw [lit0, this]
  simp

end neg

/-! ## C45: arithmetic, when the scalar operations are exact -/

section exact
variable {K : Type} [Field K] [LinearOrder K] [IsStrictOrderedRing K]

/-- The number represented. -/
def ddVal (a : DD K) : K := a.hi + a.lo

/-- Sums and differences are exact. -/
theorem C45_add_sub (a b : DD K) (y : K) :
    ddVal (a.add b) = ddVal a + ddVal b ∧ ddVal (a.addF y) = ddVal a + y ∧
    ddVal (a.sub b) = ddVal a - ddVal b ∧ ddVal (a.subF y) = ddVal a - y ∧
    ddVal (a.selfSub b) = ddVal a - ddVal b ∧ ddVal (a.selfSubF y) = ddVal a - y ∧ ddVal a.negate = -ddVal a := by
  refine ⟨?_, ?_, ?_, ?_, ?_, ?_, ?_⟩ <;>
    simp [ddVal, DD.add, DD.addHiLo, DD.addF, DD.sub, DD.subF, DD.selfSub, DD.selfSubF, DD.negate, DD.isNaN] <;> ring

/-- Products lose exactly the product of the low parts: they are exact if one factor is a plain number. -/
theorem C45_mul_partial (a b : DD K) (y : K) :
    ddVal (a.mul b) = ddVal a * ddVal b - a.lo * b.lo ∧ ddVal (a.mulF y) = ddVal a * y ∧
    a.selfMul b = a.mul b ∧ a.selfMulF y = a.mulF y ∧ ddVal a.sqr = ddVal a ^ 2 - a.lo ^ 2 := by
  refine ⟨?_, ?_, ?_, ?_, ?_⟩ <;>
    simp [ddVal, DD.mul, DD.mulF, DD.selfMul, DD.selfMulF, DD.mulHiLo, DD.isNaN, DD.sqr] <;> ring

/-- Quotients: exact by a plain number; in general the first order expansion in the low part of the divisor. -/
theorem C45_div_partial (a b : DD K) (y : K) (hb : b.hi ≠ 0) (hy : y ≠ 0) :
    ddVal (a.div b) = a.hi / b.hi + (a.lo - a.hi / b.hi * b.lo) / b.hi ∧
    ddVal (a.divF y) = ddVal a / y ∧
    ddVal b.reciprocal = 1 / b.hi - b.lo / b.hi ^ 2 ∧
    (b.lo = 0 → ddVal (a.div b) = ddVal a / ddVal b ∧ ddVal b.reciprocal = (ddVal b)⁻¹) := by
  have e1 : ddVal (a.div b) = a.hi / b.hi + (a.lo - a.hi / b.hi * b.lo) / b.hi := by
    simp [ddVal, DD.div, DD.divHiLo]; field_simp; ring
  have e3 : ddVal b.reciprocal = 1 / b.hi - b.lo / b.hi ^ 2 := by
    simp [ddVal, DD.reciprocal]; field_simp; ring
  refine ⟨e1, ?_, e3, fun h => ⟨?_, ?_⟩⟩
  · simp [ddVal, DD.divF, DD.divHiLo]; field_simp; ring
  · rw [e1]; simp [h, ddVal]; field_simp
  · rw [e3]; simp [h, ddVal]

/-- A determinant of plain numbers is exact. -/
theorem C45_determinant (x1 y1 x2 y2 : K) : ddVal (DD.determinantF x1 y1 x2 y2) = x1 * y2 - y1 * x2 := by
  simp [ddVal, DD.determinantF, DD.determinant, DD.selfSub, DD.mul, DD.selfMul, DD.mulHiLo, DD.addHiLo, DD.isNaN, DD.ofF, sub_eq_add_neg]

/-- Plain product of plain numbers. -/
theorem mul_plain (a b : DD K) (ha : a.lo = 0) (hb : b.lo = 0) : a.mul b = ⟨a.hi * b.hi, 0⟩ ∧ a.selfMul b = ⟨a.hi * b.hi, 0⟩ := by
  constructor <;>
    simp [DD.mul, DD.selfMul, DD.mulHiLo, DD.isNaN, ha, hb]

theorem powLoop_plain (fuel n : Nat) (h : n < 2 ^ fuel) (r s : DD K) (hr : r.lo = 0) (hs : s.lo = 0) :
    DD.powLoop fuel n r s = ⟨s.hi * r.hi ^ n, 0⟩ := by
  induction fuel generalizing n r s with
  | zero =>
    have : n = 0 := by simpa using h
    subst this
    cases s; simp_all [DD.powLoop]
  | succ fuel ih =>
    unfold DD.powLoop
    by_cases hn : 0 < n
    · simp only [hn, if_true]
      have h2 : n / 2 < 2 ^ fuel := by rw [pow_succ] at h; omega
      have hr' : (if 0 < n / 2 then r.sqr else r).lo = 0 := by
        split_ifs
        · unfold DD.sqr; rw [(mul_plain r r hr hr).1]
        · exact hr
      have hs' : (if n % 2 = 1 then s.selfMul r else s).lo = 0 := by
        split_ifs
        · rw [(mul_plain s r hs hr).2]
        · exact hs
      rw [ih _ h2 _ _ hr' hs']
      have e1 : (if n % 2 = 1 then s.selfMul r else s).hi = s.hi * r.hi ^ (n % 2) := by
        have : n % 2 = 0 ∨ n % 2 = 1 := by omega
        rcases this with h | h
        · simp [h]
        · simp [h, (mul_plain s r hs hr).2]
      have e2 : (if 0 < n / 2 then r.sqr else r).hi ^ (n / 2) = r.hi ^ (2 * (n / 2)) := by
        split_ifs with h0
        · unfold DD.sqr; rw [(mul_plain r r hr hr).1, pow_mul]; ring
        · have : n / 2 = 0 := by omega
          simp [this]
      rw [e1, e2, mul_assoc, ← pow_add]
      congr 3; omega
    · have : n = 0 := by omega
      subst this
      cases s; simp_all

/-- `pow` of a plain number is its integer power, for every exponent of the type but the least; the least panics. -/
theorem C45_pow_partial (x : K) (n : Int) (hl : -2147483648 < n) (hu : n < 2147483648) (h0 : n < 0 → x ≠ 0) :
    DD.pow (DD.ofF x) n = .ok (DD.ofF (x ^ n)) ∧ DD.pow (DD.ofF x) (-2147483648) = .error .arith := by
  refine ⟨?_, by simp [DD.pow]⟩
  by_cases hz : n = 0
  · simp [DD.pow, hz]
  have hne : n ≠ -2147483648 := by omega
  have hs : (if 1 < n.natAbs then DD.powLoop 32 n.natAbs (DD.ofF x) (DD.ofF (lit 1)) else DD.ofF x) = DD.ofF (x ^ n.natAbs) := by
    split_ifs with h1
    · rw [powLoop_plain _ _ (by norm_num; omega) _ _ (by simp [DD.ofF]) (by simp [DD.ofF])]
      simp [DD.ofF]
    · have : n.natAbs = 1 := by omega
      simp [this]
  simp only [DD.pow, hz, hne, if_false, hs]
  congr 1
  by_cases hn : n < 0
  · obtain ⟨k, hk⟩ : ∃ k : ℕ, n = -(k : ℤ) := ⟨n.natAbs, by omega⟩
    have hx := h0 hn
    have hxk : x ^ k ≠ 0 := pow_ne_zero _ hx
    subst hk
    simp only [hn, if_true, Int.natAbs_neg, Int.natAbs_natCast, zpow_neg, zpow_natCast]
    simp [DD.reciprocal, DD.ofF, hxk]
  · obtain ⟨k, hk⟩ : ∃ k : ℕ, n = (k : ℤ) := ⟨n.natAbs, by omega⟩
    subst hk
    simp

end exact

section examples
local notation "F" => Fl exactRounding
example : DDNum (⟨Fl.fin 1, Fl.fin (-1/4)⟩ : DD F) := by unfold DDNum; decide +kernel
example : DD.compareTo (⟨Fl.fin 1, Fl.fin (-1/4)⟩ : DD F) ⟨Fl.fin 1, Fl.fin 0⟩ = -1 := by decide +kernel
/-- A rounding to integers, to see normalised pairs with a nonzero low part. -/
def toInt : Rounding := ⟨fun q => Val.fin ⌊q⌋, fun q => Val.fin q, fun a b => Val.fin (a + b)⟩
instance : Rounding.SmallInts toInt := ⟨fun m _ => by simp [toInt]⟩
example : Rounding.Mono toInt ∧ Normalised toInt 3 (1/2) ∧ Normalised toInt 3 (1/3) := by
  refine ⟨fun p q h => ?_, ?_, ?_⟩
  · simp only [toInt, Fl.le, decide_eq_true_eq]
    exact_mod_cast Int.floor_le_floor h
  all_goals (unfold Normalised toInt; decide +kernel)
/-- A pair that is not normalised compares by its high part: `0 + 5` is less than `1 + 0`. -/
theorem C44_unnormalised : DD.compareTo (⟨Fl.fin 0, Fl.fin 5⟩ : DD F) ⟨Fl.fin 1, Fl.fin 0⟩ = -1 := by decide +kernel
/-- NaN compares equal to everything by `compare_to`, while `equals` is false. -/
theorem C44_nan : DD.compareTo (DD.nan : DD F) (DD.ofF (Fl.fin 5)) = 0 ∧ DD.equals (DD.nan : DD F) DD.nan = false ∧
    DD.signum (DD.nan : DD F) = 0 := by decide +kernel
example : DD.pow (DD.ofF (3 : ℚ)) (-3) = .ok (DD.ofF (1 / 27)) := by
  have h := (C45_pow_partial (3 : ℚ) (-3) (by norm_num) (by norm_num) (by norm_num)).1
  rw [h]; norm_num
/-- The product of two pairs with low parts is not exact even in exact arithmetic. -/
theorem C45_mul_not_exact : ddVal ((⟨1, 1⟩ : DD ℚ).mul ⟨1, 1⟩) = 3 := by
  rw [(C45_mul_partial _ _ 0).1]; norm_num [ddVal]
example : ddVal ((⟨1, 1⟩ : DD ℚ).div ⟨2, 0⟩) = 1 := by
  rw [((C45_div_partial ⟨1, 1⟩ ⟨2, 0⟩ 1 (by norm_num) (by norm_num)).2.2.2 rfl).1]; norm_num [ddVal]
end examples

end Verif.Props
