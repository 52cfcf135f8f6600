import Verif.Props.DDSum

/-! # C73: rounding of double-double numbers to integers, in binary64 -/

namespace Verif.Props
open Flt Verif.Spec Verif.Binary64

variable {sq : ℚ → Val} {hy : ℚ → ℚ → Val}

/-- Towards zero. -/
def truncate (q : ℚ) : ℤ := if 0 ≤ q then ⌊q⌋ else ⌈q⌉

theorem rep_int {n : ℤ} (h : |n| ≤ 2 ^ 53) : Rep n := ⟨n, 0, h, by norm_num, by simp⟩

/-- A number of the format that is not whole is small. -/
theorem Rep.small {h : ℚ} (r : Rep h) (hn : (⌊h⌋ : ℚ) ≠ h) : |h| ≤ 2 ^ 52 := by
  obtain ⟨m, e, hm, he, hv⟩ := r
  rcases le_or_gt 0 e with h0 | h0
  · exfalso
    apply hn
    obtain ⟨k, rfl⟩ := Int.eq_ofNat_of_zero_le h0
    have : h = ((m * 2 ^ k : ℤ) : ℚ) := by rw [hv]; push_cast; simp
    rw [this, Int.floor_intCast]
  · rw [hv, abs_mul, abs_of_pos (two_pos e)]
    have h1 : (2 : ℚ) ^ e ≤ 2 ^ (-1 : ℤ) := two_mono (by omega)
    have h2 : (|(m : ℚ)|) ≤ 2 ^ 53 := by exact_mod_cast hm
    calc |(m : ℚ)| * 2 ^ e ≤ 2 ^ 53 * 2 ^ (-1 : ℤ) := mul_le_mul h2 h1 (two_pos e).le (by positivity)
      _ = 2 ^ 52 := by norm_num

theorem floor_pair {h l : ℚ} (p : IsPair h l) (hn : (⌊h⌋ : ℚ) ≠ h) : ⌊h + l⌋ = ⌊h⌋ := by
  have hs := Rep.small p.hi.1 hn
  have hb := abs_le.mp hs
  have f1 := Int.floor_le h
  have f2 := Int.lt_floor_add_one h
  have f3 : (⌊h⌋ : ℚ) < h := lt_of_le_of_ne f1 hn
  have b1 : |⌊h⌋| ≤ 2 ^ 53 ∧ |⌊h⌋ + 1| ≤ 2 ^ 53 := by
    have c1 : (⌊h⌋ : ℚ) ≤ 2 ^ 52 := by linarith
    have c2 : -(2 ^ 52) - 1 ≤ (⌊h⌋ : ℚ) := by linarith
    have c1' : ⌊h⌋ ≤ 2 ^ 52 := by exact_mod_cast c1
    have c2' : -(2 ^ 52) - 1 ≤ ⌊h⌋ := by exact_mod_cast c2
    constructor <;> rw [abs_le] <;> constructor <;> omega
  rw [Int.floor_eq_iff]
  constructor
  · by_contra hc
    push Not at hc
    have := near_mono hc.le
    rw [p.near, near_of_rep (rep_int b1.1)] at this
    linarith
  · by_contra hc
    push Not at hc
    have := near_mono hc
    rw [p.near] at this
    have e : ((⌊h⌋ : ℚ) + 1) = ((⌊h⌋ + 1 : ℤ) : ℚ) := by push_cast; rfl
    rw [e, near_of_rep (rep_int b1.2), ← e] at this
    linarith

theorem fl_eq_fin {r : Rounding} (a b : ℚ) : ((Fl.fin a : Fl r) ==. Fl.fin b) = decide (a = b) := rfl

theorem dd_notnan (h : ℚ) (l : B64 sq hy) : (⟨Fl.fin h, l⟩ : DD (B64 sq hy)).isNaN = false := rfl

theorem dd_floor (h l : ℚ) : (⟨Fl.fin h, Fl.fin l⟩ : DD (B64 sq hy)).floor =
    ⟨Fl.fin (⌊h⌋ : ℚ), Fl.fin (if (⌊h⌋ : ℚ) = h then (⌊l⌋ : ℚ) else 0)⟩ := by
  unfold DD.floor
  rw [if_neg (by rw [dd_notnan]; exact Bool.false_ne_true)]
  show DD.mk (Fl.fin (⌊h⌋ : ℚ)) (if ((Fl.fin (⌊h⌋ : ℚ) : B64 sq hy) ==. Fl.fin h) = true then Fl.fin (⌊l⌋ : ℚ) else lit 0) = _
  rw [fl_eq_fin, lit64]
  by_cases e : (⌊h⌋ : ℚ) = h <;> simp [e]

theorem dd_ceil (h l : ℚ) : (⟨Fl.fin h, Fl.fin l⟩ : DD (B64 sq hy)).ceil =
    ⟨Fl.fin (⌈h⌉ : ℚ), Fl.fin (if (⌈h⌉ : ℚ) = h then (⌈l⌉ : ℚ) else 0)⟩ := by
  unfold DD.ceil
  rw [if_neg (by rw [dd_notnan]; exact Bool.false_ne_true)]
  show DD.mk (Fl.fin (⌈h⌉ : ℚ)) (if ((Fl.fin (⌈h⌉ : ℚ) : B64 sq hy) ==. Fl.fin h) = true then Fl.fin (⌈l⌉ : ℚ) else lit 0) = _
  rw [fl_eq_fin, lit64]
  by_cases e : (⌈h⌉ : ℚ) = h <;> simp [e]

/-- C73: the floor of a normalised pair has the value of the floor of the sum of its parts. -/
theorem C73_floor (h l : ℚ) (p : IsPair h l) :
    ∃ a b, (⟨Fl.fin h, Fl.fin l⟩ : DD (B64 sq hy)).floor = ⟨Fl.fin a, Fl.fin b⟩ ∧ a + b = ⌊h + l⌋ := by
  refine ⟨_, _, dd_floor h l, ?_⟩
  split_ifs with e
  · conv_rhs => rw [← e]
    rw [Int.floor_intCast_add]; push_cast; rfl
  · rw [floor_pair p e, add_zero]

/-- C73: likewise the ceiling. -/
theorem C73_ceil (h l : ℚ) (p : IsPair h l) :
    ∃ a b, (⟨Fl.fin h, Fl.fin l⟩ : DD (B64 sq hy)).ceil = ⟨Fl.fin a, Fl.fin b⟩ ∧ a + b = ⌈h + l⌉ := by
  refine ⟨_, _, dd_ceil h l, ?_⟩
  have hc : ∀ q : ℚ, (⌈q⌉ : ℚ) = -(⌊-q⌋ : ℚ) := by intro q; rw [← Int.cast_neg, ← Int.ceil_neg, neg_neg]
  split_ifs with e
  · conv_rhs => rw [← e]
    rw [add_comm (⌈h⌉ : ℚ) l, Int.ceil_add_intCast]; push_cast; ring
  · rw [hc, hc, neg_add, floor_pair p.neg (by rw [hc] at e; intro h2; apply e; rw [h2, neg_neg]), add_zero]

/-- C73: `trunc` rounds towards zero. -/
theorem C73_trunc (h l : ℚ) (p : IsPair h l) :
    ∃ a b, (⟨Fl.fin h, Fl.fin l⟩ : DD (B64 sq hy)).trunc = ⟨Fl.fin a, Fl.fin b⟩ ∧ a + b = truncate (h + l) := by
  have hpos : (⟨Fl.fin h, Fl.fin l⟩ : DD (B64 sq hy)).isPositive = decide (0 < h + l) := by
    unfold DD.isPositive
    rw [lit64]
    show (decide (0 < h) || (decide (h = 0) && decide (0 < l))) = _
    rw [Bool.eq_iff_iff]
    simp only [Bool.or_eq_true, Bool.and_eq_true, decide_eq_true_eq]
    have hn := p.near
    constructor
    · rintro (h1 | ⟨rfl, h1⟩)
      · by_contra hc
        push Not at hc
        have := near_nonpos hc
        rw [hn] at this; linarith
      · linarith
    · intro h1
      have := near_nonneg h1.le
      rw [hn] at this
      rcases this.eq_or_lt with h2 | h2
      · right; exact ⟨h2.symm, by linarith⟩
      · left; exact h2
  unfold DD.trunc
  rw [if_neg (by rw [dd_notnan]; exact Bool.false_ne_true), hpos]
  by_cases h1 : 0 < h + l
  · rw [if_pos (by simpa using h1), truncate, if_pos h1.le]
    exact C73_floor h l p
  · rw [if_neg (by simpa using h1), truncate]
    obtain ⟨a, b, e1, e2⟩ := C73_ceil (sq := sq) (hy := hy) h l p
    refine ⟨a, b, e1, ?_⟩
    split_ifs with h2
    · have : h + l = 0 := le_antisymm (not_lt.mp h1) h2
      rw [e2, this]; simp
    · exact e2

/-- C73: the floor is itself normalised if the high part is not whole, or the low part is whole or not negative. -/
theorem C73_floor_normalised (h l : ℚ) (p : IsPair h l) (hc : (⌊h⌋ : ℚ) ≠ h ∨ 0 ≤ l ∨ (⌊l⌋ : ℚ) = l) :
    ∃ a b, (⟨Fl.fin h, Fl.fin l⟩ : DD (B64 sq hy)).floor = ⟨Fl.fin a, Fl.fin b⟩ ∧ a + b = ⌊h + l⌋ ∧ near (a + b) = a := by
  obtain ⟨a, b, e1, e2⟩ := C73_floor (sq := sq) (hy := hy) h l p
  refine ⟨a, b, e1, e2, ?_⟩
  rw [dd_floor] at e1
  have ha : (⌊h⌋ : ℚ) = a := by injection e1 with h1 h2; exact fin_inj h1
  have hb : (if (⌊h⌋ : ℚ) = h then (⌊l⌋ : ℚ) else 0) = b := by injection e1 with h1 h2; exact fin_inj h2
  by_cases e : (⌊h⌋ : ℚ) = h
  · rw [if_pos e] at hb
    rw [e] at ha
    subst ha
    rw [← hb]
    rcases hc with hc | hc | hc
    · exact absurd e hc
    · refine le_antisymm ?_ ?_
      · have := near_mono (by linarith [Int.floor_le l] : h + (⌊l⌋ : ℚ) ≤ h + l)
        rwa [p.near] at this
      · have h0 : (0 : ℚ) ≤ ⌊l⌋ := by exact_mod_cast Int.floor_nonneg.mpr hc
        have := near_mono (by linarith : h ≤ h + (⌊l⌋ : ℚ))
        rwa [near_of_rep p.hi.1] at this
    · rw [hc]; exact p.near
  · rw [if_neg e] at hb
    rw [← hb, add_zero, ← ha]
    apply near_of_rep
    have hs := Rep.small p.hi.1 e
    have hb := abs_le.mp hs
    have f1 := Int.floor_le h
    have f2 := Int.lt_floor_add_one h
    apply rep_int
    have c1 : (⌊h⌋ : ℚ) ≤ 2 ^ 52 := by linarith
    have c2 : -(2 ^ 52) - 1 ≤ (⌊h⌋ : ℚ) := by linarith
    have c1' : ⌊h⌋ ≤ 2 ^ 52 := by exact_mod_cast c1
    have c2' : -(2 ^ 52) - 1 ≤ ⌊h⌋ := by exact_mod_cast c2
    rw [abs_le]; constructor <;> omega

/-- C73: else it may not be, and comparisons with it go wrong: the floor of 5 - 2^-60 has the value 4, but is greater than 4 and rounds to the integer 5. -/
theorem C73_floor_not_normalised : ∃ h l : ℚ, IsPair h l ∧ ⌊h + l⌋ = 4 ∧
    (⟨Fl.fin h, Fl.fin l⟩ : DD X64).floor = ⟨Fl.fin 5, Fl.fin (-1)⟩ ∧
    (⟨Fl.fin h, Fl.fin l⟩ : DD X64).floor.compareTo (DD.ofF (Fl.fin 4)) = 1 ∧ (⟨Fl.fin h, Fl.fin l⟩ : DD X64).floor.intValue = 5 :=
  ⟨5, -1 / 2 ^ 60, ⟨f64_of (by decide +kernel), f64_of (by decide +kernel), by decide +kernel⟩, by decide +kernel, by decide +kernel, by decide +kernel,
    by decide +kernel⟩

/-- C73: the double value of a normalised pair is its high part: the sum of the parts, rounded. -/
theorem C73_double_value (h l : ℚ) (p : IsPair h l) : (⟨Fl.fin h, Fl.fin l⟩ : DD (B64 sq hy)).doubleValue = Fl.fin h := p.norm

/-- C73: the integer value is the high part towards zero, within the bounds of `i32`. It is the truncated value of a normalised pair in range unless the
high part is whole and the low part leads towards zero. -/
theorem C73_int_value (h l : ℚ) (p : IsPair h l) (hb : |truncate h| ≤ 2147483647)
    (hc : (⌊h⌋ : ℚ) ≠ h ∨ (0 ≤ h ∧ 0 ≤ l) ∨ (h ≤ 0 ∧ l ≤ 0)) :
    (⟨Fl.fin h, Fl.fin l⟩ : DD (B64 sq hy)).intValue = truncate (h + l) := by
  have hb' := abs_le.mp hb
  have e : (⟨Fl.fin h, Fl.fin l⟩ : DD (B64 sq hy)).intValue = truncate h := by
    show max (-2147483648) (min 2147483647 (truncate h)) = _
    omega
  rw [e]
  have hh : |h| ≤ 2 ^ 32 := by
    have c1 : (-2147483647 : ℚ) ≤ (truncate h : ℚ) := by exact_mod_cast hb'.1
    have c2 : (truncate h : ℚ) ≤ 2147483647 := by exact_mod_cast hb'.2
    unfold truncate at c1 c2
    rw [abs_le]
    split_ifs at c1 c2
    · constructor <;> linarith [Int.floor_le h, Int.lt_floor_add_one h]
    · constructor <;> linarith [Int.le_ceil h, Int.ceil_lt_add_one h]
  have hl : |l| < 1 := by
    have := low_rel p.hi.1 p.lo.1 p.near
    have h2 : 2 / 2 ^ 53 * |h| ≤ 2 / 2 ^ 53 * 2 ^ 32 := mul_le_mul_of_nonneg_left hh (by norm_num)
    calc |l| ≤ _ := this
      _ ≤ _ := h2
      _ < 1 := by norm_num
  have hl' := abs_lt.mp hl
  have hcl : ∀ q : ℚ, ⌈q⌉ = -⌊-q⌋ := by intro q; rw [← Int.ceil_neg, neg_neg]
  by_cases hi : (⌊h⌋ : ℚ) = h
  · rcases hc with hc | ⟨h1, h2⟩ | ⟨h1, h2⟩
    · exact absurd hi hc
    · rw [truncate, truncate, if_pos h1, if_pos (by linarith)]
      symm
      rw [Int.floor_eq_iff]
      constructor <;> linarith
    · have e1 : truncate h = ⌊h⌋ := by
        have h3 : ⌈h⌉ = ⌊h⌋ := by rw [← hi]; simp
        rw [truncate, h3]; simp
      have e2 : truncate (h + l) = ⌈h + l⌉ := by
        rw [truncate]
        split_ifs with h3
        · have : h + l = 0 := by linarith
          rw [this]; simp
        · rfl
      rw [e1, e2]
      symm
      rw [Int.ceil_eq_iff]
      constructor <;> linarith
  · have f1 := floor_pair p hi
    have f2 := floor_pair p.neg (by
      intro h2; apply hi
      have h3 : h = ((-⌊-h⌋ : ℤ) : ℚ) := by push_cast; linarith
      rw [h3, Int.floor_intCast])
    rw [← neg_add] at f2
    have hsgn : 0 ≤ h ↔ 0 ≤ h + l := by
      rw [← Int.floor_nonneg, ← Int.floor_nonneg (a := h + l), f1]
    rw [truncate, truncate, hcl h, hcl (h + l), f1, f2]
    by_cases h0 : 0 ≤ h
    · rw [if_pos h0, if_pos (hsgn.mp h0)]
    · rw [if_neg h0, if_neg (fun h => h0 (hsgn.mpr h))]

/-- C73: in that case it differs from the truncated value: 5 - 2^-60 gives the integer 5, while its truncation has the value 4. -/
theorem C73_int_value_wrong : ∃ h l : ℚ, IsPair h l ∧ (⟨Fl.fin h, Fl.fin l⟩ : DD X64).intValue = 5 ∧ truncate (h + l) = 4 :=
  ⟨5, -1 / 2 ^ 60, ⟨f64_of (by decide +kernel), f64_of (by decide +kernel), by decide +kernel⟩, by decide +kernel, by decide +kernel⟩

/-- C73: `rint` of a double has the value of the nearest integer, halves upwards, and leaves the receiver one half greater. -/
theorem C73_rint (x : ℚ) (fx : IsF64 x) (hfin : isFinite ((DD.ofF (Fl.fin x : B64 sq hy)).addF (lit (1 / 2))).hi = true) :
    ∃ h l a b, (DD.ofF (Fl.fin x : B64 sq hy)).rint = (⟨Fl.fin h, Fl.fin l⟩, ⟨Fl.fin a, Fl.fin b⟩) ∧ h + l = x + 1 / 2 ∧ a + b = ⌊x + 1 / 2⌋ := by
  have hhalf : (lit (1 / 2) : B64 sq hy) = Fl.fin (1 / 2) := by
    show rnd (1 / 2) = _
    exact rnd_of_f64 (f64_of (by decide +kernel))
  rw [hhalf] at hfin
  obtain ⟨h, l, e1, e2, e3, fl⟩ := C63_sum x (1 / 2) fx (f64_of (by decide +kernel)) hfin
  have p : IsPair h l := ⟨rnd_f64 e3, fl, by rw [e2]; exact e3⟩
  obtain ⟨a, b, e4, e5⟩ := C73_floor (sq := sq) (hy := hy) h l p
  refine ⟨h, l, a, b, ?_, e2, by rw [e5, e2]⟩
  unfold DD.rint
  rw [if_neg (by exact Bool.false_ne_true)]
  dsimp only
  rw [hhalf, e1, e4]

/-- C73: `rint` of a normalised pair: the floor of a number that differs from the pair plus one half by one part in `2^101` at most. -/
theorem C73_rint_pair (x y : ℚ) (p : IsPair x y) (hfin : isFinite ((⟨Fl.fin x, Fl.fin y⟩ : DD (B64 sq hy)).addF (lit (1 / 2))).hi = true) :
    ∃ h l a b, (⟨Fl.fin x, Fl.fin y⟩ : DD (B64 sq hy)).rint = (⟨Fl.fin h, Fl.fin l⟩, ⟨Fl.fin a, Fl.fin b⟩) ∧ IsPair h l ∧
      |h + l - (x + y + 1 / 2)| ≤ |x + y + 1 / 2| / 2 ^ 101 ∧ a + b = ⌊h + l⌋ := by
  have fhalf : IsF64 (1 / 2) := f64_of (by decide +kernel)
  have hhalf : (lit (1 / 2) : B64 sq hy) = Fl.fin (1 / 2) := rnd_of_f64 fhalf
  rw [hhalf] at hfin
  obtain ⟨h, l, e1, e2, e3⟩ := C74_sum_double x y (1 / 2) p fhalf hfin
  obtain ⟨a, b, e4, e5⟩ := C73_floor (sq := sq) (hy := hy) h l e2
  refine ⟨h, l, a, b, ?_, e2, e3, e5⟩
  unfold DD.rint
  rw [if_neg (by exact Bool.false_ne_true)]
  dsimp only
  rw [hhalf, e1, e4]

/-- C73: floor, ceiling, truncation and rounding of a NaN are NaN, and it converts to the integer 0. -/
theorem C73_nan (l : B64 sq hy) : (⟨Fl.nan, l⟩ : DD (B64 sq hy)).floor = DD.nan ∧ (⟨Fl.nan, l⟩ : DD (B64 sq hy)).ceil = DD.nan ∧
    (⟨Fl.nan, l⟩ : DD (B64 sq hy)).trunc = DD.nan ∧ (⟨Fl.nan, l⟩ : DD (B64 sq hy)).rint = (⟨Fl.nan, l⟩, ⟨Fl.nan, l⟩) ∧
    (⟨Fl.nan, l⟩ : DD (B64 sq hy)).intValue = 0 := ⟨rfl, rfl, rfl, rfl, rfl⟩

/-- A pair below an integer, with a fractional high part, and a large whole one. -/
example : IsPair (11 / 2) (1 / 2 ^ 60) ∧ IsPair (-5) (1 / 2 ^ 60) ∧ IsPair (2 ^ 70) (3 / 2) ∧ |truncate (11 / 2)| ≤ 2147483647 ∧ ((⌊(11 / 2 : ℚ)⌋ : ℚ) ≠ 11 / 2) ∧
    truncate (-5 + 1 / 2 ^ 60) = -4 :=
  ⟨⟨f64_of (by decide +kernel), f64_of (by decide +kernel), by decide +kernel⟩, ⟨f64_of (by decide +kernel), f64_of (by decide +kernel), by decide +kernel⟩,
    ⟨f64_of (by decide +kernel), f64_of (by decide +kernel), by decide +kernel⟩, by decide +kernel, by decide +kernel, by decide +kernel⟩

/-- Rounding five halves. -/
example : IsF64 (5 / 2) ∧ (DD.ofF (Fl.fin (5 / 2) : X64)).rint = (⟨Fl.fin 3, Fl.fin 0⟩, ⟨Fl.fin 3, Fl.fin 0⟩) := ⟨f64_of (by decide +kernel), by decide +kernel⟩

end Verif.Props
