import Verif.Props.DDSqrt

/-! # C91: squares and square roots of doubles in double-double arithmetic -/

namespace Verif.Props
open Flt Verif.Spec Verif.Binary64
variable {sq : ℚ → Val} {hy : ℚ → ℚ → Val}

theorem rep_expo {x : ℚ} (h : Rep x) : ∃ k : ℤ, x = k * 2 ^ expo x := ⟨_, (near_of_rep h).symm⟩

/-- Numbers close to a double are rounded to it. -/
theorem near_close {q x : ℚ} (hx : Rep x) (h : |q - x| ≤ |x| / 2 ^ 60) : near q = x := by
  have h1 := near_nearest q x hx
  by_contra hne
  obtain ⟨k, hk⟩ := rep_expo (near_rep q)
  obtain ⟨l, hl⟩ := rep_expo hx
  generalize near q = n at *
  have x0 := abs_nonneg x
  have h2 : |n - x| ≤ |x| / 2 ^ 59 := by
    have := abs_sub_le n q x
    rw [abs_sub_comm n q] at this
    linarith
  have h3 : |x| / 2 ≤ |n| := by
    have := abs_sub_abs_le_abs_sub x n
    rw [abs_sub_comm] at this
    linarith
  have key : ∀ e : ℤ, e ≤ expo n → e ≤ expo x → |x| / 2 < 2 ^ (e + 53) → False := by
    intro e e1 e2 e3
    have mul : ∀ (m f : ℤ), e ≤ f → ∃ j : ℤ, (m : ℚ) * 2 ^ f = j * 2 ^ e := by
      intro m f hf
      refine ⟨m * 2 ^ (f - e).toNat, ?_⟩
      push_cast
      rw [mul_assoc, ← zpow_natCast, ← two_add, Int.toNat_of_nonneg (by omega)]
      congr 2
      omega
    obtain ⟨i, hi⟩ := mul k _ e1
    obtain ⟨j, hj⟩ := mul l _ e2
    rw [hi] at hk
    rw [hj] at hl
    have ij : i - j ≠ 0 := fun h => hne (by rw [hk, hl, show i = j by omega])
    have : (1 : ℚ) ≤ |((i - j : ℤ) : ℚ)| := by exact_mod_cast Int.one_le_abs ij
    have e4 : n - x = ((i - j : ℤ) : ℚ) * 2 ^ e := by rw [hk, hl]; push_cast; ring
    have p := two_pos e
    rw [e4, abs_mul, abs_of_pos p] at h2
    rw [two_add] at e3
    have : (2 : ℚ) ^ (53 : ℤ) = 2 ^ 53 := by norm_num
    rw [this] at e3
    nlinarith
  have en := abs_lt_expo n
  have ex := abs_lt_expo x
  rcases le_total (expo n) (expo x) with h | h
  · exact key _ le_rfl h (by linarith)
  · exact key _ h le_rfl (by linarith)

/-- C91: the square of a double is exact, whatever the receiver. -/
theorem C91_sqr (r : DD (B64 sq hy)) (x : ℚ) (fx : IsF64 x) (hx : x = 0 ∨ 2 ^ (-484 : ℤ) ≤ |x|)
    (hfin : isFinite (r.sqrF (Fl.fin x)).hi = true) :
    ∃ h l, r.sqrF (Fl.fin x) = ⟨Fl.fin h, Fl.fin l⟩ ∧ h + l = x ^ 2 ∧ IsPair h l := by
  have hu : NoUnderflow x x := by
    rcases hx with h | h
    · exact Or.inl h
    · have n : Normal x := (two_mono (by norm_num : (-1022 : ℤ) ≤ -484)).trans h
      refine Or.inr (Or.inr ⟨n, n, ?_⟩)
      rw [abs_mul, show (-968 : ℤ) = -484 + -484 by norm_num, two_add]
      exact mul_le_mul h h (two_pos _).le (abs_nonneg _)
  obtain ⟨h, l, e1, e2, e3, e4⟩ := C63_product x x fx fx hu hfin
  refine ⟨h, l, e1, by rw [e2]; ring, rnd_f64 e3, e4, by rw [e2]; exact e3⟩

/-- C91: the square root of a double, whatever the receiver: accurate to one part in 2^98, 0 for zero, NaN for negative numbers. -/
theorem C91_sqrt (r : DD (B64 sq hy)) (x : ℚ) (fx : IsF64 x) :
    (∀ s, 2 ^ (-900 : ℤ) ≤ x → GoodSqrt sq x s → isFinite (r.sqrtF (Fl.fin x)).hi = true →
      ∃ h l, r.sqrtF (Fl.fin x) = ⟨Fl.fin h, Fl.fin l⟩ ∧ IsPair h l ∧ |((h + l : ℚ) : ℝ) - √(x : ℝ)| ≤ √(x : ℝ) / 2 ^ 98) ∧
    (x = 0 → r.sqrtF (Fl.fin x) = ⟨Fl.fin 0, Fl.fin 0⟩) ∧ (x < 0 → r.sqrtF (Fl.fin x) = DD.nan) := by
  have e : r.sqrtF (Fl.fin x) = (⟨Fl.fin x, Fl.fin 0⟩ : DD (B64 sq hy)).sqrt := by unfold DD.sqrtF DD.ofF; rw [lit64]
  have p := IsPair.ofF fx
  rw [e]
  have sp := C76_special (sq := sq) (hy := hy) x 0 p
  rw [add_zero] at sp
  refine ⟨fun s h1 h2 h3 => ?_, sp.1, sp.2⟩
  obtain ⟨h, l, k1, k2, k3⟩ := C76_sqrt_real x 0 s p h1 h2 h3
  rw [add_zero] at k3
  exact ⟨h, l, k1, k2, k3⟩

/-- C91: the square root of the square of a double gives back its absolute value: the high part is exact, the low part below one part in
2^98. -/
theorem C91_sqrt_sqr (r : DD (B64 sq hy)) (x s : ℚ) (fx : IsF64 x) (hx : 2 ^ (-449 : ℤ) ≤ |x|)
    (hs : GoodSqrt sq (near (x ^ 2)) s)
    (hf1 : isFinite (r.sqrF (Fl.fin x)).hi = true) (hf2 : isFinite ((r.sqrF (Fl.fin x)).sqrt).hi = true) :
    ∃ l, (r.sqrF (Fl.fin x)).sqrt = ⟨Fl.fin |x|, Fl.fin l⟩ ∧ |l| ≤ |x| / 2 ^ 98 := by
  obtain ⟨h, l, e1, e2, e3⟩ := C91_sqr r x fx (Or.inr ((two_mono (by norm_num)).trans hx)) hf1
  have hn := e3.near
  rw [e1] at hf2 ⊢
  have ha : 2 ^ (-900 : ℤ) ≤ h := by
    have : Rep (2 ^ (-900 : ℤ)) := (f64_of (by decide +kernel) : IsF64 (2 ^ (-900 : ℤ))).1
    rw [← hn, ← near_of_rep this]
    apply near_mono
    rw [e2, ← sq_abs]
    calc (2 : ℚ) ^ (-900 : ℤ) ≤ 2 ^ (-449 + -449 : ℤ) := two_mono (by norm_num)
      _ = 2 ^ (-449 : ℤ) * 2 ^ (-449 : ℤ) := two_add _ _
      _ ≤ |x| * |x| := mul_le_mul hx hx (two_pos _).le (abs_nonneg _)
      _ = |x| ^ 2 := by ring
  obtain ⟨h', l', k1, k2, k3⟩ := C76_sqrt_real h l s e3 ha (by rw [← hn, e2]; exact hs) hf2
  have k4 : √((h + l : ℚ) : ℝ) = ((|x| : ℚ) : ℝ) := by
    rw [e2]; push_cast; exact Real.sqrt_sq_eq_abs _
  rw [k4] at k3
  have k5 : |(h' + l') - (|x|)| ≤ |x| / 2 ^ 98 := by exact_mod_cast k3
  have rx : Rep |x| := by
    rcases abs_choice x with h | h <;> rw [h]
    · exact fx.1
    · exact fx.1.neg
  have k6 : near (h' + l') = |x| := near_close rx (by
    rw [abs_abs]
    have := abs_nonneg x
    refine k5.trans ?_
    apply div_le_div_of_nonneg_left this (by norm_num) (by norm_num))
  rw [k2.near] at k6
  subst k6
  refine ⟨l', k1, ?_⟩
  rwa [add_sub_cancel_left] at k5

/-- The square of 2^30 + 2^-20, which is no double, and its root. -/
example : let x : ℚ := 2 ^ 30 + 1 / 2 ^ 20
    IsF64 x ∧ 2 ^ (-449 : ℤ) ≤ |x| ∧ x ^ 2 ≠ near (x ^ 2) ∧ GoodSqrt (fun _ => .fin x) (near (x ^ 2)) x ∧
      isFinite (((⟨Fl.fin 0, Fl.fin 0⟩ : DD (B64 (fun _ => .fin x) (fun _ _ => .nan))).sqrF (Fl.fin x)).sqrt).hi = true := by
  refine ⟨f64_of (by decide +kernel), by decide +kernel, by decide +kernel, ⟨rfl, f64_of (by decide +kernel), by norm_num, by decide +kernel, by decide +kernel⟩, by decide +kernel⟩

end Verif.Props
