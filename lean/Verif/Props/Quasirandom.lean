import Verif.Model.MathUtil
import Verif.Model.Position
import Verif.Base.RealFlt
import Verif.Lemmas.Ext
import Verif.Lemmas.Binary64
import Verif.Props.DDExact
import Mathlib.NumberTheory.DiophantineApproximation.Basic
import Mathlib.NumberTheory.Real.Irrational
import Mathlib.Tactic.NormNum.Prime

/-! # C70: the quasirandom sequence -/

set_option linter.unusedSectionVars false

namespace Verif.Props
open Flt Verif.MathUtil

/-- The `n`-th value of the sequence that starts at `t`. -/
def quasiSeq {α : Type} (step : α → α) (t : α) (n : Nat) : α := step^[n] t

section field
variable {K : Type} [Field K] [LinearOrder K] [IsStrictOrderedRing K] [FloorRing K]
local instance quasiFlt : Flt K := exactFlt K

theorem quasi_step (t a : K) (h : 0 ≤ t + a) : quasirandomAlpha t a = Int.fract (t + a) := by
  simp only [quasirandomAlpha, exact_add, exact_sub, exact_lt, exact_lit, Rat.cast_one]
  by_cases h1 : t + a < 1
  · rw [if_pos (by simpa using h1), Int.fract_eq_self.mpr ⟨h, h1⟩]
  · rw [if_neg (by simpa using h1)]; rfl

/-- C70: from a start in [0,1) with a step that is not negative, the `n`-th value is the fractional part of the start plus `n` steps; so all lie in [0,1). -/
theorem C70_values (t a : K) (ht : 0 ≤ t) (ht1 : t < 1) (ha : 0 ≤ a) (n : Nat) :
    quasiSeq (quasirandomAlpha · a) t n = Int.fract (t + n * a) ∧
    0 ≤ quasiSeq (quasirandomAlpha · a) t n ∧ quasiSeq (quasirandomAlpha · a) t n < 1 := by
  have : quasiSeq (quasirandomAlpha · a) t n = Int.fract (t + n * a) := by
    induction n with
    | zero => simp [quasiSeq, Int.fract_eq_self.mpr ⟨ht, ht1⟩]
    | succ n ih =>
      unfold quasiSeq at ih ⊢
      rw [Function.iterate_succ_apply', ih, quasi_step _ _ (add_nonneg (Int.fract_nonneg _) ha)]
      rw [Int.fract_eq_fract]
      refine ⟨-⌊t + n * a⌋, ?_⟩
      rw [Int.fract]; push_cast; ring
  exact ⟨this, this ▸ Int.fract_nonneg _, this ▸ Int.fract_lt_one _⟩

/-- C70: a negative sum is not brought back into [0,1). -/
theorem C70_negative (t a : K) (h : t + a < 0) : quasirandomAlpha t a = t + a ∧ quasirandomAlpha t a ≠ Int.fract (t + a) := by
  have e : quasirandomAlpha t a = t + a := by
    simp only [quasirandomAlpha, exact_add, exact_sub, exact_lt, exact_lit, Rat.cast_one]
    rw [if_pos (by simpa using lt_trans h one_pos)]
  exact ⟨e, by rw [e]; intro h2; have := Int.fract_nonneg (t + a); rw [← h2] at this; exact absurd h (not_lt.mpr this)⟩

end field

/-! ## Irrational steps -/

/-- C70: with an irrational step no value comes twice. -/
theorem C70_no_repeat (t a : ℝ) (ht : 0 ≤ t) (ht1 : t < 1) (ha : 0 ≤ a) (hi : Irrational a) (n m : Nat)
    (h : quasiSeq (quasirandomAlpha · a) t n = quasiSeq (quasirandomAlpha · a) t m) : n = m := by
  rw [(C70_values t a ht ht1 ha n).1, (C70_values t a ht ht1 ha m).1, Int.fract_eq_fract] at h
  obtain ⟨z, hz⟩ := h
  by_contra hne
  have e : (((n : ℤ) - (m : ℤ) : ℤ) : ℝ) * a = z := by push_cast; linarith
  have h0 : ((n : ℤ) - (m : ℤ) : ℤ) ≠ 0 := by omega
  exact (hi.intCast_mul h0) ⟨(z : ℚ), by rw [e]; simp⟩

/-- C70: with an irrational step the sequence comes into every interval. -/
theorem C70_dense (t a : ℝ) (ht : 0 ≤ t) (ht1 : t < 1) (ha : 0 ≤ a) (hi : Irrational a) (lo hi' : ℝ) (h0 : 0 ≤ lo) (hlt : lo < hi')
    (h1 : hi' ≤ 1) : ∃ n, lo < quasiSeq (quasirandomAlpha · a) t n ∧ quasiSeq (quasirandomAlpha · a) t n < hi' := by
  obtain ⟨N, hN⟩ := exists_nat_gt (2 / (hi' - lo))
  have hd : 0 < hi' - lo := by linarith
  have hNpos : 0 < N := by
    rcases Nat.eq_zero_or_pos N with rfl | h
    · have : 0 < 2 / (hi' - lo) := by positivity
      simp at hN; linarith
    · exact h
  obtain ⟨k, hk, -, hka⟩ := Real.exists_nat_abs_mul_sub_round_le a hNpos
  set d : ℝ := a * k - round (a * k) with hdd
  have hdd' : d = a * k - round (a * k) := hdd
  have hdne : d ≠ 0 := by
    intro h
    have e : ((k : ℤ) : ℝ) * a = round (a * k) := by push_cast; linarith
    exact (hi.intCast_mul (by omega : (k : ℤ) ≠ 0)) ⟨((round (a * k) : ℤ) : ℚ), by rw [e]; simp⟩
  have hdsmall : |d| < (hi' - lo) / 2 := by
    have hNp : (0 : ℝ) < N := by exact_mod_cast hNpos
    have h2 : (1 : ℝ) / (N + 1) < (hi' - lo) / 2 := by
      rw [div_lt_iff₀ (by linarith)]
      rw [div_lt_iff₀ hd] at hN
      nlinarith
    have h3 : |d| ≤ 1 / (N + 1) := by rw [hdd', mul_comm a]; exact hka
    linarith
  set x := (lo + hi') / 2 with hx
  have key : ∃ j : ℕ, ∃ M : ℤ, |t + j * d - (x + M)| ≤ |d| := by
    rcases lt_or_gt_of_ne hdne with hneg | hpos
    · refine ⟨⌈(x - 1 - t) / d⌉₊, -1, ?_⟩
      have h5 : 0 ≤ (x - 1 - t) / d := div_nonneg_of_nonpos (by linarith) hneg.le
      have h6 := Nat.le_ceil ((x - 1 - t) / d)
      have h7 := Nat.ceil_lt_add_one h5
      rw [div_le_iff_of_neg hneg] at h6
      have h8 : (⌈(x - 1 - t) / d⌉₊ : ℝ) - 1 < (x - 1 - t) / d := by linarith
      rw [lt_div_iff_of_neg hneg] at h8
      rw [abs_of_neg hneg, abs_le]
      push_cast
      constructor <;> nlinarith
    · refine ⟨⌈(x + 1 - t) / d⌉₊, 1, ?_⟩
      have h5 : 0 ≤ (x + 1 - t) / d := div_nonneg (by linarith) hpos.le
      have h6 := Nat.le_ceil ((x + 1 - t) / d)
      have h7 := Nat.ceil_lt_add_one h5
      rw [div_le_iff₀ hpos] at h6
      have h8 : (⌈(x + 1 - t) / d⌉₊ : ℝ) - 1 < (x + 1 - t) / d := by linarith
      rw [lt_div_iff₀ hpos] at h8
      rw [abs_of_pos hpos, abs_le]
      push_cast
      constructor <;> nlinarith
  obtain ⟨j, M, hj⟩ := key
  refine ⟨j * k, ?_⟩
  have hj' := abs_lt.mp (lt_of_le_of_lt hj hdsmall)
  have e : Int.fract (t + ((j * k : ℕ) : ℝ) * a) = t + j * d - M := by
    rw [Int.fract_eq_iff]
    refine ⟨by linarith [hj'.1], by linarith [hj'.2], j * round (a * k) + M, ?_⟩
    rw [hdd']; push_cast; ring
  rw [(C70_values t a ht ht1 ha _).1, e]
  constructor
  · linarith [hj'.1]
  · linarith [hj'.2]

/-- C70: the default step, the inverse of the golden ratio, is a positive irrational below 1: so the default sequence stays in [0,1), never repeats a value and comes into every interval. -/
theorem C70_golden (t : ℝ) (ht : 0 ≤ t) (ht1 : t < 1) :
    (∀ n, 0 ≤ quasiSeq quasirandom t n ∧ quasiSeq quasirandom t n < 1) ∧
    (∀ n m, quasiSeq quasirandom t n = quasiSeq quasirandom t m → n = m) ∧
    (∀ lo hi, 0 ≤ lo → lo < hi → hi ≤ 1 → ∃ n, lo < quasiSeq quasirandom t n ∧ quasiSeq quasirandom t n < hi) := by
  have e : (quasirandom : ℝ → ℝ) = (quasirandomAlpha · ((√5 - 1) / 2)) := by
    funext c
    simp [quasirandom]
  have hs : (2 : ℝ) < √5 := by rw [Real.lt_sqrt (by norm_num)]; norm_num
  have hirr : Irrational ((√5 - 1) / 2) := by
    have : Irrational √5 := by
      have := Nat.Prime.irrational_sqrt (p := 5) (by norm_num)
      exact_mod_cast this
    have := (this.sub_natCast 1).div_natCast (m := 2) (by norm_num)
    simpa using this
  have h0 : (0 : ℝ) ≤ (√5 - 1) / 2 := by linarith
  rw [e]
  exact ⟨fun n => (C70_values t _ ht ht1 h0 n).2, C70_no_repeat t _ ht ht1 h0 hirr, fun lo hi => C70_dense t _ ht ht1 h0 hirr lo hi⟩

/-! ## Binary64 -/

section binary64
open Verif.Binary64
variable {sq : ℚ → Val} {hy : ℚ → ℚ → Val}

theorem lit_one_b64 : (lit 1 : B64 sq hy) = Fl.fin 1 := by
  show rnd 1 = Val.fin 1
  exact rnd_of_f64 ⟨⟨1, 0, by norm_num, by norm_num, by norm_num⟩, by
    rw [abs_one]; exact one_lt_pow₀ (by norm_num) (by norm_num)⟩

theorem rep_fract {w : ℚ} (hw : Rep w) (h0 : 0 ≤ w) : Rep (w - ⌊w⌋) := by
  obtain ⟨m, e, hm, he, hv⟩ := hw
  have hf : (⌊w⌋ : ℚ) ≤ w := Int.floor_le w
  have hf0 : (0 : ℚ) ≤ ⌊w⌋ := by exact_mod_cast Int.floor_nonneg.mpr h0
  rcases le_or_gt 0 e with h | h
  · obtain ⟨k, rfl⟩ := Int.eq_ofNat_of_zero_le h
    have : w = ((m * 2 ^ k : ℤ) : ℚ) := by rw [hv]; push_cast; simp
    rw [this, Int.floor_intCast, sub_self]
    exact rep_zero
  · obtain ⟨k, hk⟩ := Int.eq_ofNat_of_zero_le (by omega : 0 ≤ -e)
    refine rep_of_mult (m - ⌊w⌋ * 2 ^ k) e he ?_ ?_
    · have h1 : (2 : ℚ) ^ k * 2 ^ e = 1 := by
        rw [← zpow_natCast, ← two_add, show ((k : ℕ) : ℤ) + e = 0 by omega, zpow_zero]
      push_cast
      rw [sub_mul, ← hv, mul_assoc, h1, mul_one]
    · rw [abs_of_nonneg (by linarith)]
      have h2 : w ≤ 2 ^ (e + 53) := by
        rw [hv, add_comm, two_add]
        refine mul_le_mul_of_nonneg_right ?_ (two_pos e).le
        have h3 : m ≤ 2 ^ 53 := le_trans (le_abs_self m) hm
        have : (m : ℚ) ≤ 2 ^ 53 := by exact_mod_cast h3
        simpa using this
      linarith

/-- C70: the same in binary64: from values that are not negative and a sum that is in range the result is a double in [0,1),
the fractional part of the rounded sum; the wrapping adds no rounding error. -/
theorem C70_binary64 (t a : ℚ) (h : 0 ≤ t + a) (hfin : near (t + a) < 2 ^ 1024) :
    ∃ v, quasirandomAlpha (Fl.fin t : B64 sq hy) (Fl.fin a) = Fl.fin v ∧ IsF64 v ∧ 0 ≤ v ∧ v < 1 ∧ v = Int.fract (near (t + a)) := by
  have hn := near_nonneg h
  have hr := near_rep (t + a)
  have hs : (Fl.fin t : B64 sq hy) +. Fl.fin a = Fl.fin (near (t + a)) :=
    (rnd_fin_iff _ _).mpr ⟨rfl, lt_of_le_of_lt (abs_of_nonneg hn).le hfin⟩
  clear hfin
  generalize near (t + a) = w at *
  have hone : (lit 1 : B64 sq hy) = Fl.fin 1 := lit_one_b64
  have hf := Int.floor_le w
  have hf1 := Int.lt_floor_add_one w
  have hv : Rep (w - ⌊w⌋) := rep_fract hr hn
  have hlt : w - ⌊w⌋ < 1 := by linarith
  have h64 : IsF64 (w - ⌊w⌋) := ⟨hv, by
    rw [abs_of_nonneg (by linarith)]
    exact lt_trans hlt (one_lt_pow₀ (by norm_num) (by norm_num))⟩
  refine ⟨w - ⌊w⌋, ?_, h64, by linarith, hlt, rfl⟩
  unfold quasirandomAlpha
  simp only [hs, hone]
  by_cases h1 : w < 1
  · have : ((Fl.fin w : B64 sq hy) <. Fl.fin 1) = true := by simpa [Flt.lt, Fl.lt] using h1
    rw [if_pos this, show ⌊w⌋ = 0 from Int.floor_eq_zero_iff.mpr ⟨hn, h1⟩]
    simp
  · have : ¬((Fl.fin w : B64 sq hy) <. Fl.fin 1) = true := by simpa [Flt.lt, Fl.lt] using h1
    rw [if_neg this, show FltRound.floor (Fl.fin w : B64 sq hy) = Fl.fin (⌊w⌋ : ℚ) from rfl, fl_sub_fin]
    exact rnd_of_f64 h64

/-- C70: when the sum overflows the result is not a number. -/
theorem C70_overflow (t a : ℚ) (hfin : rnd (t + a) = .pinf) : isNaN (quasirandomAlpha (Fl.fin t : B64 sq hy) (Fl.fin a)) = true := by
  have hs : (Fl.fin t : B64 sq hy) +. Fl.fin a = Fl.pinf := hfin
  unfold quasirandomAlpha
  simp only [hs, lit_one_b64]
  rfl

end binary64

example : quasiSeq (quasirandomAlpha (α := EQ) · (Fl.fin (3 / 4))) (Fl.fin (1 / 2)) 3 = Fl.fin (3 / 4) := by decide +kernel

/-- 0.9 + 0.9 in binary64. -/
example : ∃ v : ℚ, quasirandomAlpha (Fl.fin (8106479329266893 / 2 ^ 53) : X64) (Fl.fin (8106479329266893 / 2 ^ 53)) = Fl.fin v ∧ 0 ≤ v ∧ v < 1 :=
  ⟨(8106479329266893 - 4503599627370496) / 2 ^ 52, by decide +kernel, by decide +kernel, by decide +kernel⟩

example : isNaN (quasirandomAlpha (Fl.fin ((2 ^ 53 - 1) * 2 ^ 971) : X64) (Fl.fin ((2 ^ 53 - 1) * 2 ^ 971))) = true := by decide +kernel

/-! ## Positions -/

/-- C71: the opposite of left is right and conversely, everything else is its own opposite; twice opposite is the same. -/
theorem C71_position (p : Int) : Position.opposite Position.LEFT = Position.RIGHT ∧ Position.opposite Position.RIGHT = Position.LEFT ∧
    (p ≠ Position.LEFT → p ≠ Position.RIGHT → Position.opposite p = p) ∧ Position.opposite (Position.opposite p) = p := by
  refine ⟨rfl, rfl, ?_, ?_⟩
  · intro h1 h2; simp [Position.opposite, h1, h2]
  · unfold Position.opposite
    by_cases h1 : p = Position.LEFT
    · subst h1; rfl
    · by_cases h2 : p = Position.RIGHT
      · subst h2; rfl
      · simp [h1, h2]

end Verif.Props
