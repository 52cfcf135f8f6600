import Verif.Props.DDSum
import Verif.Props.Vectors

/-! # C79: determinants of doubles in double-double arithmetic -/

namespace Verif.Props
open Flt Verif.Spec Verif.Binary64

variable {sq : ℚ → Val} {hy : ℚ → ℚ → Val}

theorem add_hi_fin {x y : DD (B64 sq hy)} (h : isFinite (x.add y).hi = true) : isFinite x.hi = true ∧ isFinite y.hi = true := by
  obtain ⟨v, hv⟩ := finite_fin h
  unfold DD.add DD.addHiLo at hv
  dsimp only at hv
  obtain ⟨_, _, e1, -, -, -⟩ := add64 hv
  obtain ⟨_, _, e2, -, -, -⟩ := add64 e1
  obtain ⟨_, _, i1, i2, -, -⟩ := add64 e2
  rw [i1, i2]; exact ⟨rfl, rfl⟩

/-- The two products of a determinant are exact pairs. -/
theorem det_pairs (x1 y1 x2 y2 : ℚ) (f1 : IsF64 x1) (f2 : IsF64 y1) (f3 : IsF64 x2) (f4 : IsF64 y2)
    (u1 : NoUnderflow x1 y2) (u2 : NoUnderflow y1 x2)
    (hfin : isFinite (DD.determinantF (Fl.fin x1 : B64 sq hy) (Fl.fin y1) (Fl.fin x2) (Fl.fin y2)).hi = true) :
    ∃ a b c d, (DD.determinantF (Fl.fin x1 : B64 sq hy) (Fl.fin y1) (Fl.fin x2) (Fl.fin y2)) =
        (⟨Fl.fin a, Fl.fin b⟩ : DD (B64 sq hy)).selfSub ⟨Fl.fin c, Fl.fin d⟩ ∧
      IsPair a b ∧ IsPair c d ∧ a + b = x1 * y2 ∧ c + d = y1 * x2 := by
  have m : ∀ p q : ℚ, (DD.ofF (Fl.fin p) : DD (B64 sq hy)).mul (DD.ofF (Fl.fin q)) = (DD.ofF (Fl.fin p)).selfMul (DD.ofF (Fl.fin q)) := fun p q => rfl
  unfold DD.determinantF DD.determinant at hfin ⊢
  rw [m, m] at hfin ⊢
  have hp : isFinite ((DD.ofF (Fl.fin x1 : B64 sq hy)).selfMul (DD.ofF (Fl.fin y2))).hi = true ∧
      isFinite ((DD.ofF (Fl.fin y1 : B64 sq hy)).selfMul (DD.ofF (Fl.fin x2))).hi = true := by
    unfold DD.selfSub at hfin
    cases hn : ((DD.ofF (Fl.fin x1 : B64 sq hy)).selfMul (DD.ofF (Fl.fin y2))).isNaN
    · rw [hn, if_neg Bool.false_ne_true] at hfin
      have := add_hi_fin (x := (DD.ofF (Fl.fin x1 : B64 sq hy)).selfMul (DD.ofF (Fl.fin y2)))
        (y := ⟨-.((DD.ofF (Fl.fin y1 : B64 sq hy)).selfMul (DD.ofF (Fl.fin x2))).hi, -.((DD.ofF (Fl.fin y1 : B64 sq hy)).selfMul (DD.ofF (Fl.fin x2))).lo⟩) hfin
      refine ⟨this.1, ?_⟩
      have h2 := this.2
      dsimp only at h2
      revert h2
      cases ((DD.ofF (Fl.fin y1 : B64 sq hy)).selfMul (DD.ofF (Fl.fin x2))).hi <;> intro h <;> first | rfl | cases h
    · rw [hn, if_pos rfl] at hfin
      unfold DD.isNaN at hn
      revert hn hfin
      cases ((DD.ofF (Fl.fin x1 : B64 sq hy)).selfMul (DD.ofF (Fl.fin y2))).hi <;> intro a b <;> first | (cases a; done) | cases b
  obtain ⟨a, b, e1, e2, e3, e4⟩ := C63_product x1 y2 f1 f4 u1 hp.1
  obtain ⟨c, d, g1, g2, g3, g4⟩ := C63_product y1 x2 f2 f3 u2 hp.2
  rw [e1, g1]
  refine ⟨a, b, c, d, rfl, ⟨rnd_f64 e3, e4, e2 ▸ e3⟩, ⟨rnd_f64 g3, g4, g2 ▸ g3⟩, e2, g2⟩

/-- C79: the determinant of four doubles is accurate to 101 bits, whatever cancellation takes place, and zero only if it is zero. -/
theorem C79_determinant (x1 y1 x2 y2 : ℚ) (f1 : IsF64 x1) (f2 : IsF64 y1) (f3 : IsF64 x2) (f4 : IsF64 y2)
    (u1 : NoUnderflow x1 y2) (u2 : NoUnderflow y1 x2)
    (hfin : isFinite (DD.determinantF (Fl.fin x1 : B64 sq hy) (Fl.fin y1) (Fl.fin x2) (Fl.fin y2)).hi = true) :
    ∃ h l, DD.determinantF (Fl.fin x1 : B64 sq hy) (Fl.fin y1) (Fl.fin x2) (Fl.fin y2) = ⟨Fl.fin h, Fl.fin l⟩ ∧ IsPair h l ∧
      |h + l - (x1 * y2 - y1 * x2)| ≤ |x1 * y2 - y1 * x2| / 2 ^ 101 := by
  obtain ⟨a, b, c, d, e, p, q, e1, e2⟩ := det_pairs x1 y1 x2 y2 f1 f2 f3 f4 u1 u2 hfin
  rw [e] at hfin ⊢
  obtain ⟨h, l, -, g2, g3, g4⟩ := C74_difference a b c d p q hfin
  rw [e1, e2] at g4
  exact ⟨h, l, g2, g3, g4⟩

/-- C79: the sign of the determinant of four doubles is exact. -/
theorem C79_sign (x1 y1 x2 y2 : ℚ) (f1 : IsF64 x1) (f2 : IsF64 y1) (f3 : IsF64 x2) (f4 : IsF64 y2)
    (u1 : NoUnderflow x1 y2) (u2 : NoUnderflow y1 x2)
    (hfin : isFinite (DD.determinantF (Fl.fin x1 : B64 sq hy) (Fl.fin y1) (Fl.fin x2) (Fl.fin y2)).hi = true) :
    CGDD.signOfDetF (Fl.fin x1 : B64 sq hy) (Fl.fin y1) (Fl.fin x2) (Fl.fin y2) = sgn (x1 * y2 - y1 * x2) := by
  obtain ⟨a, b, c, d, e, p, q, e1, e2⟩ := det_pairs x1 y1 x2 y2 f1 f2 f3 f4 u1 u2 hfin
  have hs : CGDD.signOfDetF (Fl.fin x1 : B64 sq hy) (Fl.fin y1) (Fl.fin x2) (Fl.fin y2) =
      (DD.determinantF (Fl.fin x1 : B64 sq hy) (Fl.fin y1) (Fl.fin x2) (Fl.fin y2)).signum := rfl
  rw [hs, e]
  rw [e] at hfin
  rw [(C64_difference_sign a b c d p q hfin).2, e1, e2]

/-- C79: vectors of doubles are reported as parallel exactly if they are. -/
theorem C79_parallel (x1 y1 x2 y2 : ℚ) (f1 : IsF64 x1) (f2 : IsF64 y1) (f3 : IsF64 x2) (f4 : IsF64 y2)
    (u1 : NoUnderflow x1 y2) (u2 : NoUnderflow y1 x2)
    (hfin : isFinite (DD.determinantF (Fl.fin x1 : B64 sq hy) (Fl.fin y1) (Fl.fin x2) (Fl.fin y2)).hi = true) :
    (⟨Fl.fin x1, Fl.fin y1⟩ : Vec2 (B64 sq hy)).isParallel ⟨Fl.fin x2, Fl.fin y2⟩ = true ↔ x1 * y2 = y1 * x2 := by
  unfold Vec2.isParallel
  rw [C79_sign x1 y1 x2 y2 f1 f2 f3 f4 u1 u2 hfin, decide_eq_true_iff, ← sub_eq_zero (a := x1 * y2)]
  unfold sgn
  split_ifs with h1 h2
  · simp [h1.ne']
  · simp [h2.ne]
  · exact ⟨fun _ => le_antisymm (not_lt.mp h1) (not_lt.mp h2), fun _ => rfl⟩

/-- Determinants of doubles up to `2^500`, with products zero or at least `2^-900`, meet the conditions. -/
theorem det_moderate {a b : ℚ} (ha : a = 0 ∨ 2 ^ (-450 : ℤ) ≤ |a|) (hb : b = 0 ∨ 2 ^ (-450 : ℤ) ≤ |b|) : NoUnderflow a b := by
  rcases ha with rfl | ha
  · exact Or.inl rfl
  · rcases hb with rfl | hb
    · exact Or.inr (Or.inl rfl)
    · refine Or.inr (Or.inr ⟨?_, ?_, ?_⟩)
      · exact le_trans (two_mono (by norm_num)) ha
      · exact le_trans (two_mono (by norm_num)) hb
      · rw [abs_mul]
        refine le_trans ?_ (mul_le_mul ha hb (two_pos _).le (abs_nonneg a))
        rw [← two_add]
        exact two_mono (by norm_num)

/-- C79: underflow hides the sign, and overflow makes parallel of what is not. -/
theorem C79_limits :
    CGDD.signOfDetF (Fl.fin (1 / 2 ^ 600) : X64) (Fl.fin 0) (Fl.fin 0) (Fl.fin (1 / 2 ^ 600)) = 0 ∧
    (⟨Fl.fin (2 ^ 600), Fl.fin 0⟩ : Vec2 X64).isParallel ⟨Fl.fin 0, Fl.fin (2 ^ 600)⟩ = true := by
  refine ⟨by decide +kernel, by decide +kernel⟩

/-- Nearly parallel integer vectors with 53 bits, where both products round to the same double. -/
example : IsF64 9007199254740991 ∧ IsF64 9007199254740990 ∧ IsF64 9007199254740989 ∧ NoUnderflow 9007199254740991 9007199254740989 ∧
    isFinite (DD.determinantF (Fl.fin 9007199254740991 : X64) (Fl.fin 9007199254740990) (Fl.fin 9007199254740990) (Fl.fin 9007199254740989)).hi = true ∧
    CGDD.signOfDetF (Fl.fin 9007199254740991 : X64) (Fl.fin 9007199254740990) (Fl.fin 9007199254740990) (Fl.fin 9007199254740989) = -1 ∧
    near (9007199254740991 * 9007199254740989) = near (9007199254740990 * 9007199254740990) := by
  refine ⟨f64_of (by decide +kernel), f64_of (by decide +kernel), f64_of (by decide +kernel), det_moderate (Or.inr (by decide +kernel)) (Or.inr (by decide +kernel)),
    by decide +kernel, by decide +kernel, by decide +kernel⟩

end Verif.Props
