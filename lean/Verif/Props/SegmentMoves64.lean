import Verif.Props.Segment64
import Verif.Props.TriangleSizes64
import Verif.Props.Homogeneous64

/-! # C117: projecting on, reflecting in and offsetting from a segment in binary64 -/

set_option linter.unusedSectionVars false

namespace Verif.Props
open Flt Verif.Spec Verif.Binary64
variable {sq : ℚ → Val} {hy : ℚ → ℚ → Val}

/-! ## Sizes and errors -/

/-- The size is within `2^-k` and `2^k`. -/
def Mid (k : ℕ) (B : ℝ) : Prop := 1 / 2 ^ k ≤ B ∧ B ≤ 2 ^ k

theorem Mid.pos {k : ℕ} {B : ℝ} (h : Mid k B) : 0 < B := lt_of_lt_of_le (by positivity) h.1

theorem Mid.mono {j k : ℕ} {B : ℝ} (h : Mid j B) (hjk : j ≤ k) : Mid k B := by
  have : (2 : ℝ) ^ j ≤ 2 ^ k := pow_le_pow_right₀ (by norm_num) hjk
  exact ⟨(one_div_le_one_div_of_le (by positivity) this).trans h.1, h.2.trans this⟩

theorem Mid.mul {j k : ℕ} {A B : ℝ} (ha : Mid j A) (hb : Mid k B) : Mid (j + k) (A * B) := by
  have a0 := ha.pos
  have b0 := hb.pos
  refine ⟨?_, ?_⟩
  · rw [pow_add, ← one_div_mul_one_div]
    exact mul_le_mul ha.1 hb.1 (by positivity) a0.le
  · rw [pow_add]
    exact mul_le_mul ha.2 hb.2 b0.le (by positivity)

theorem Mid.add {k : ℕ} {A B : ℝ} (ha : Mid k A) (hb : Mid k B) : Mid (k + 1) (A + B) := by
  have b0 := hb.pos
  refine ⟨?_, ?_⟩
  · have := (ha.mono (show k ≤ k + 1 by omega)).1
    linarith
  · rw [pow_succ]; linarith [ha.2, hb.2]

theorem Mid.inv {k : ℕ} {B : ℝ} (h : Mid k B) : Mid k (1 / B) := by
  have b0 := h.pos
  refine ⟨one_div_le_one_div_of_le b0 h.2, ?_⟩
  rw [div_le_iff₀ b0]
  have := mul_le_mul_of_nonneg_left h.1 (show (0 : ℝ) ≤ 2 ^ k by positivity)
  rwa [mul_one_div_cancel (by positivity)] at this

theorem Mid.div {j k : ℕ} {A B : ℝ} (ha : Mid j A) (hb : Mid k B) : Mid (j + k) (A / B) := by
  have := ha.mul hb.inv
  rwa [mul_one_div] at this

theorem mid_two : Mid 1 2 := ⟨by norm_num, by norm_num⟩
theorem mid_one : Mid 0 1 := ⟨by norm_num, by norm_num⟩

/-- The value is a number within `e B / 2^52` of `x`, which is at most `B` in size. -/
def Sc (e B : ℝ) (f : B64 sq hy) (x : ℝ) : Prop := ∃ v : ℚ, f = Fl.fin v ∧ |x| ≤ B ∧ |(v : ℝ) - x| ≤ e * B / 2 ^ 52

/-- Rounding adds one unit. -/
theorem sc_round {e B : ℝ} {v : ℚ} {x : ℝ} (hx : |x| ≤ B) (h : |(v : ℝ) - x| ≤ e * B / 2 ^ 52) (e0 : 0 ≤ e) (e1 : e ≤ 1000) (hB : Mid 1000 B) :
    |near v| < 2 ^ 1024 ∧ |((near v : ℚ) : ℝ) - x| ≤ (e + 1) * B / 2 ^ 52 := by
  have b0 := hB.pos
  have k1 := near_err_real v
  have k2 : |(v : ℝ)| ≤ B + e * B / 2 ^ 52 := by
    have := abs_sub_abs_le_abs_sub (v : ℝ) x
    linarith
  have k3 : e * B / 2 ^ 52 ≤ 1000 * B / 2 ^ 52 := by
    apply div_le_div_of_nonneg_right _ (by norm_num)
    exact mul_le_mul_of_nonneg_right e1 b0.le
  have k4 : (2 : ℝ) ^ (-1075 : ℤ) ≤ B / 2 ^ 75 := by
    have : (2 : ℝ) ^ (-1075 : ℤ) = 1 / 2 ^ 1000 / 2 ^ 75 := by
      rw [show (-1075 : ℤ) = -1000 + -75 by norm_num, zpow_add₀ (by norm_num)]
      rw [zpow_neg, zpow_neg, ← div_eq_mul_inv, ← one_div]
      norm_cast
    rw [this]
    exact div_le_div_of_nonneg_right hB.1 (by positivity)
  have k5 : |((near v : ℚ) : ℝ) - v| ≤ B / 2 ^ 52 := by
    refine k1.trans ?_
    have : |(v : ℝ)| / 2 ^ 53 ≤ (B + 1000 * B / 2 ^ 52) / 2 ^ 53 := div_le_div_of_nonneg_right (by linarith) (by norm_num)
    have : (B + 1000 * B / 2 ^ 52) / 2 ^ 53 + B / 2 ^ 75 ≤ B / 2 ^ 52 := by
      have : B / 2 ^ 52 - ((B + 1000 * B / 2 ^ 52) / 2 ^ 53 + B / 2 ^ 75) = B * (1 / 2 ^ 52 - ((1 + 1000 / 2 ^ 52) / 2 ^ 53 + 1 / 2 ^ 75)) := by ring
      have : 0 ≤ B * (1 / 2 ^ 52 - ((1 + 1000 / 2 ^ 52) / 2 ^ 53 + 1 / 2 ^ 75)) := mul_nonneg b0.le (by norm_num)
      linarith
    linarith
  have k6 := abs_sub_le ((near v : ℚ) : ℝ) v x
  refine ⟨?_, ?_⟩
  · have k7 : |((near v : ℚ) : ℝ)| ≤ 3 * B := by
      have := abs_sub_abs_le_abs_sub ((near v : ℚ) : ℝ) x
      have : 1000 * B / 2 ^ 52 + B / 2 ^ 52 ≤ B := by
        have : B - (1000 * B / 2 ^ 52 + B / 2 ^ 52) = B * (1 - 1001 / 2 ^ 52) := by ring
        have : 0 ≤ B * (1 - 1001 / 2 ^ 52) := mul_nonneg b0.le (by norm_num)
        linarith
      linarith
    have : ((|near v| : ℚ) : ℝ) < ((2 ^ 1024 : ℚ) : ℝ) := by
      push_cast
      refine lt_of_le_of_lt k7 ?_
      rw [show (1024 : ℕ) = 24 + 1000 from rfl, pow_add]
      have k8 := hB.2
      generalize (2 : ℝ) ^ 1000 = P at k8
      have : (2 : ℝ) ^ 24 = 16777216 := by norm_num
      rw [this]
      linarith
    exact_mod_cast this
  · have : (e + 1) * B / 2 ^ 52 = e * B / 2 ^ 52 + B / 2 ^ 52 := by ring
    linarith

theorem Sc.mono {e e' B B' : ℝ} {f : B64 sq hy} {x : ℝ} (h : Sc e B f x) (he : e ≤ e') (e0 : 0 ≤ e) (hB : B ≤ B') : Sc e' B' f x := by
  obtain ⟨v, e1, e2, e3⟩ := h
  refine ⟨v, e1, e2.trans hB, e3.trans (div_le_div_of_nonneg_right ?_ (by norm_num))⟩
  exact mul_le_mul he hB ((abs_nonneg _).trans e2) (e0.trans he)

theorem sc_exact {B : ℝ} {v : ℚ} (h : |(v : ℝ)| ≤ B) : Sc 0 B (Fl.fin v : B64 sq hy) v := ⟨v, rfl, h, by simp⟩

theorem Sc.neg {e B : ℝ} {f : B64 sq hy} {x : ℝ} (h : Sc e B f x) : Sc e B (-.f) (-x) := by
  obtain ⟨v, rfl, e2, e3⟩ := h
  refine ⟨-v, rfl, by rwa [abs_neg], ?_⟩
  rw [← abs_neg]
  convert e3 using 2
  push_cast; ring

theorem Sc.add {e₁ e₂ B₁ B₂ e : ℝ} {f g : B64 sq hy} {x y : ℝ} (h : Sc e₁ B₁ f x) (k : Sc e₂ B₂ g y) (l₁ : e₁ ≤ e) (l₂ : e₂ ≤ e) (e0 : 0 ≤ e) (e1 : e ≤ 1000)
    (hB : Mid 1000 (B₁ + B₂)) : Sc (e + 1) (B₁ + B₂) (f +. g) (x + y) := by
  obtain ⟨v, rfl, a1, a2⟩ := h
  obtain ⟨w, rfl, b1, b2⟩ := k
  have s1 : |x + y| ≤ B₁ + B₂ := (abs_add_le _ _).trans (add_le_add a1 b1)
  have s2 : |((v + w : ℚ) : ℝ) - (x + y)| ≤ e * (B₁ + B₂) / 2 ^ 52 := by
    have t : ((v + w : ℚ) : ℝ) - (x + y) = (v - x) + (w - y) := by push_cast; ring
    rw [t]
    have p1 : e₁ * B₁ ≤ e * B₁ := mul_le_mul_of_nonneg_right l₁ ((abs_nonneg _).trans a1)
    have p2 : e₂ * B₂ ≤ e * B₂ := mul_le_mul_of_nonneg_right l₂ ((abs_nonneg _).trans b1)
    have q1 : e₁ * B₁ / 2 ^ 52 ≤ e * B₁ / 2 ^ 52 := div_le_div_of_nonneg_right p1 (by norm_num)
    have q2 : e₂ * B₂ / 2 ^ 52 ≤ e * B₂ / 2 ^ 52 := div_le_div_of_nonneg_right p2 (by norm_num)
    have r : e * (B₁ + B₂) / 2 ^ 52 = e * B₁ / 2 ^ 52 + e * B₂ / 2 ^ 52 := by ring
    have := abs_add_le ((v : ℝ) - x) (w - y)
    linarith
  obtain ⟨c1, c2⟩ := sc_round s1 s2 e0 e1 hB
  exact ⟨near (v + w), (rnd_fin_iff _ _).mpr ⟨rfl, c1⟩, s1, c2⟩

theorem Sc.sub {e₁ e₂ B₁ B₂ e : ℝ} {f g : B64 sq hy} {x y : ℝ} (h : Sc e₁ B₁ f x) (k : Sc e₂ B₂ g y) (l₁ : e₁ ≤ e) (l₂ : e₂ ≤ e) (e0 : 0 ≤ e) (e1 : e ≤ 1000)
    (hB : Mid 1000 (B₁ + B₂)) : Sc (e + 1) (B₁ + B₂) (f -. g) (x - y) := by
  rw [sub_eq_add_neg]
  obtain ⟨v, rfl, a⟩ := h
  obtain ⟨w, rfl, b⟩ := k
  exact Sc.add (f := Fl.fin v) (g := Fl.fin (-w)) ⟨v, rfl, a⟩ (Sc.neg ⟨w, rfl, b⟩) l₁ l₂ e0 e1 hB

theorem Sc.mul {e₁ e₂ B₁ B₂ : ℝ} {f g : B64 sq hy} {x y : ℝ} (h : Sc e₁ B₁ f x) (k : Sc e₂ B₂ g y) (p₁ : 0 ≤ e₁) (p₂ : 0 ≤ e₂) (l₁ : e₁ ≤ 400) (l₂ : e₂ ≤ 400)
    (hB : Mid 1000 (B₁ * B₂)) : Sc (e₁ + e₂ + 2) (B₁ * B₂) (f *. g) (x * y) := by
  obtain ⟨v, rfl, a1, a2⟩ := h
  obtain ⟨w, rfl, b1, b2⟩ := k
  have A0 : 0 ≤ B₁ := (abs_nonneg _).trans a1
  have B0 : 0 ≤ B₂ := (abs_nonneg _).trans b1
  have s1 : |x * y| ≤ B₁ * B₂ := by rw [abs_mul]; exact mul_le_mul a1 b1 (abs_nonneg _) A0
  have s2 : |((v * w : ℚ) : ℝ) - x * y| ≤ (e₁ + e₂ + 1) * (B₁ * B₂) / 2 ^ 52 := by
    have t : ((v * w : ℚ) : ℝ) - x * y = (v - x) * y + x * (w - y) + (v - x) * (w - y) := by push_cast; ring
    rw [t]
    have u1 : |(v - x) * y| ≤ e₁ * B₁ / 2 ^ 52 * B₂ := by rw [abs_mul]; exact mul_le_mul a2 b1 (abs_nonneg _) (by positivity)
    have u2 : |x * (w - y)| ≤ B₁ * (e₂ * B₂ / 2 ^ 52) := by rw [abs_mul]; exact mul_le_mul a1 b2 (abs_nonneg _) A0
    have u3 : |(v - x) * (w - y)| ≤ e₁ * B₁ / 2 ^ 52 * (e₂ * B₂ / 2 ^ 52) := by rw [abs_mul]; exact mul_le_mul a2 b2 (abs_nonneg _) (by positivity)
    have u4 : e₁ * e₂ ≤ 400 * 400 := mul_le_mul l₁ l₂ p₂ (by norm_num)
    have u5 : e₁ * B₁ / 2 ^ 52 * (e₂ * B₂ / 2 ^ 52) ≤ B₁ * B₂ / 2 ^ 52 := by
      have : e₁ * B₁ / 2 ^ 52 * (e₂ * B₂ / 2 ^ 52) = (e₁ * e₂) / 2 ^ 52 * (B₁ * B₂ / 2 ^ 52) := by ring
      rw [this]
      have : e₁ * e₂ / 2 ^ 52 ≤ 1 := by rw [div_le_one (by norm_num)]; linarith
      have z : 0 ≤ B₁ * B₂ / 2 ^ 52 := by positivity
      calc _ ≤ 1 * (B₁ * B₂ / 2 ^ 52) := mul_le_mul_of_nonneg_right this z
        _ = _ := one_mul _
    have r : (e₁ + e₂ + 1) * (B₁ * B₂) / 2 ^ 52 = e₁ * B₁ / 2 ^ 52 * B₂ + B₁ * (e₂ * B₂ / 2 ^ 52) + B₁ * B₂ / 2 ^ 52 := by ring
    have := abs_add_le ((v - x) * y + x * (w - y)) ((v - x) * (w - y))
    have := abs_add_le ((v - x) * y) (x * (w - y))
    linarith
  obtain ⟨c1, c2⟩ := sc_round s1 s2 (by linarith) (by linarith) hB
  refine ⟨near (v * w), (rnd_fin_iff _ _).mpr ⟨rfl, c1⟩, s1, ?_⟩
  convert c2 using 2
  ring

theorem Sc.div {e₁ e₂ B₁ B₂ : ℝ} {f g : B64 sq hy} {x y : ℝ} (h : Sc e₁ B₁ f x) (k : Sc e₂ B₂ g y) (p₁ : 0 ≤ e₁) (p₂ : 0 ≤ e₂) (l₁ : e₁ ≤ 100) (l₂ : e₂ ≤ 100)
    (hy' : B₂ ≤ 2 * y) (b0 : 0 < B₂) (hB : Mid 1000 (2 * B₁ / B₂)) : Sc (e₁ + 2 * e₂ + 2) (2 * B₁ / B₂) (f /. g) (x / y) := by
  obtain ⟨v, rfl, a1, a2⟩ := h
  obtain ⟨w, rfl, b1, b2⟩ := k
  have y0 : 0 < y := by linarith
  have A0 : 0 ≤ B₁ := (abs_nonneg _).trans a1
  have wy : y * (1 - 200 / 2 ^ 52) ≤ w := by
    have := (abs_le.mp b2).1
    have : e₂ * B₂ / 2 ^ 52 ≤ 100 * (2 * y) / 2 ^ 52 := div_le_div_of_nonneg_right (mul_le_mul l₂ hy' b0.le (by norm_num)) (by norm_num)
    linarith
  have w0 : (0 : ℝ) < w := lt_of_lt_of_le (mul_pos y0 (by norm_num)) wy
  have w0' : w ≠ 0 := by rintro rfl; simp at w0
  have s1 : |x / y| ≤ 2 * B₁ / B₂ := by
    rw [abs_div, abs_of_pos y0, div_le_div_iff₀ y0 b0]
    have := mul_le_mul a1 hy' b0.le A0
    linarith
  have s2 : |((v / w : ℚ) : ℝ) - x / y| ≤ (e₁ + 2 * e₂ + 1) * (2 * B₁ / B₂) / 2 ^ 52 := by
    have t : ((v / w : ℚ) : ℝ) - x / y = ((v - x) * y - x * (w - y)) / (w * y) := by
      push_cast; field_simp; ring
    have u1 : |(v - x) * y| ≤ e₁ * B₁ / 2 ^ 52 * y := by rw [abs_mul, abs_of_pos y0]; exact mul_le_mul_of_nonneg_right a2 y0.le
    have u2 : |x * (w - y)| ≤ B₁ * (e₂ * B₂ / 2 ^ 52) := by rw [abs_mul]; exact mul_le_mul a1 b2 (abs_nonneg _) A0
    have u3 : B₁ * (e₂ * B₂ / 2 ^ 52) ≤ B₁ * (e₂ * (2 * y) / 2 ^ 52) :=
      mul_le_mul_of_nonneg_left (div_le_div_of_nonneg_right (mul_le_mul_of_nonneg_left hy' p₂) (by norm_num)) A0
    have u4 : |(v - x) * y - x * (w - y)| ≤ (e₁ + 2 * e₂) * B₁ / 2 ^ 52 * y := by
      have := abs_sub ((v - x) * y) (x * (w - y))
      have r : (e₁ + 2 * e₂) * B₁ / 2 ^ 52 * y = e₁ * B₁ / 2 ^ 52 * y + B₁ * (e₂ * (2 * y) / 2 ^ 52) := by ring
      linarith
    rw [t, abs_div, abs_of_pos (mul_pos w0 y0), div_le_iff₀ (mul_pos w0 y0)]
    refine u4.trans ?_
    have c1 : (e₁ + 2 * e₂) ≤ (e₁ + 2 * e₂ + 1) * (1 - 200 / 2 ^ 52) := by
      have : (e₁ + 2 * e₂ + 1) * (1 - 200 / 2 ^ 52) = (e₁ + 2 * e₂) + 1 - (e₁ + 2 * e₂ + 1) * (200 / 2 ^ 52) := by ring
      have : (e₁ + 2 * e₂ + 1) * (200 / 2 ^ 52) ≤ 301 * (200 / 2 ^ 52) := mul_le_mul_of_nonneg_right (by linarith) (by norm_num)
      have : (301 : ℝ) * (200 / 2 ^ 52) ≤ 1 := by norm_num
      linarith
    have c2 : B₂ * (1 - 200 / 2 ^ 52) ≤ 2 * w := by
      have := mul_le_mul_of_nonneg_right hy' (show (0 : ℝ) ≤ 1 - 200 / 2 ^ 52 by norm_num)
      linarith
    have E0 : 0 ≤ e₁ + 2 * e₂ + 1 := by linarith
    have c3 : (e₁ + 2 * e₂) * B₂ ≤ (e₁ + 2 * e₂ + 1) * (2 * w) := by
      calc (e₁ + 2 * e₂) * B₂ ≤ (e₁ + 2 * e₂ + 1) * (1 - 200 / 2 ^ 52) * B₂ := mul_le_mul_of_nonneg_right c1 b0.le
        _ = (e₁ + 2 * e₂ + 1) * (B₂ * (1 - 200 / 2 ^ 52)) := by ring
        _ ≤ _ := mul_le_mul_of_nonneg_left c2 E0
    have c4 : (e₁ + 2 * e₂ + 1) * (2 * B₁ / B₂) / 2 ^ 52 * (w * y) = (e₁ + 2 * e₂ + 1) * (2 * w) / B₂ * (B₁ / 2 ^ 52 * y) := by ring
    have c5 : (e₁ + 2 * e₂) * B₁ / 2 ^ 52 * y = (e₁ + 2 * e₂) * (B₁ / 2 ^ 52 * y) := by ring
    rw [c4, c5]
    apply mul_le_mul_of_nonneg_right _ (by positivity)
    rwa [le_div_iff₀ b0]
  obtain ⟨c1, c2⟩ := sc_round s1 s2 (by linarith) (by linarith) hB
  refine ⟨near (v / w), div_fin64 w0' rfl c1, s1, ?_⟩
  convert c2 using 2
  ring

/-- The difference of two doubles is accurate for its own size. -/
theorem sc_diff {a b : ℚ} {N : ℝ} (fa : IsF64 a) (fb : IsF64 b) (h : |(b : ℝ) - a| ≤ N) (hN : Mid 1000 N) :
    Sc 1 N ((Fl.fin b : B64 sq hy) -. Fl.fin a) (b - a) := by
  have r := near_add_rel fb.1 (fa.1.neg)
  have e : ((b + -a : ℚ) : ℝ) = b - a := by push_cast; ring
  have c := (sc_round (e := 0) (v := b + -a) (x := b - a) h (by rw [e]; simp) le_rfl (by norm_num) hN).1
  refine ⟨near (b + -a), (rnd_fin_iff _ _).mpr ⟨rfl, c⟩, h, ?_⟩
  have r' : ((|b + -a - near (b + -a)| : ℚ) : ℝ) ≤ ((|b + -a| / 2 ^ 53 : ℚ) : ℝ) := by exact_mod_cast r
  have e2 : ((|b + -a| / 2 ^ 53 : ℚ) : ℝ) = |(b : ℝ) - a| / 2 ^ 53 := by push_cast; rw [← sub_eq_add_neg]
  have e3 : ((|b + -a - near (b + -a)| : ℚ) : ℝ) = |((near (b + -a) : ℚ) : ℝ) - (b - a)| := by
    rw [Rat.cast_abs, Rat.cast_sub, e, abs_sub_comm]
  rw [e2, e3] at r'
  refine r'.trans ?_
  have n0 := hN.pos
  calc |(b : ℝ) - a| / 2 ^ 53 ≤ N / 2 ^ 53 := div_le_div_of_nonneg_right h (by norm_num)
    _ ≤ 1 * N / 2 ^ 52 := by
      rw [one_mul]
      exact div_le_div_of_nonneg_left n0.le (by norm_num) (by norm_num)

/-- It is a double with a small relative error. -/
theorem diff_rel {a b : ℚ} {N : ℝ} (fa : IsF64 a) (fb : IsF64 b) (h : |(b : ℝ) - a| ≤ N) (hN : Mid 1000 N) :
    ∃ d : ℚ, (Fl.fin b : B64 sq hy) -. Fl.fin a = Fl.fin d ∧ IsF64 d ∧ |(d : ℝ) - (b - a)| ≤ |(b : ℝ) - a| / 2 ^ 53 := by
  have r := near_add_rel fb.1 fa.1.neg
  have e : ((b + -a : ℚ) : ℝ) = b - a := by push_cast; ring
  have c := (sc_round (e := 0) (v := b + -a) (x := b - a) h (by rw [e]; simp) le_rfl (by norm_num) hN).1
  refine ⟨near (b + -a), (rnd_fin_iff _ _).mpr ⟨rfl, c⟩, ⟨near_rep _, c⟩, ?_⟩
  have r' : ((|b + -a - near (b + -a)| : ℚ) : ℝ) ≤ ((|b + -a| / 2 ^ 53 : ℚ) : ℝ) := by exact_mod_cast r
  have e2 : ((|b + -a| / 2 ^ 53 : ℚ) : ℝ) = |(b : ℝ) - a| / 2 ^ 53 := by push_cast; rw [← sub_eq_add_neg]
  have e3 : ((|b + -a - near (b + -a)| : ℚ) : ℝ) = |((near (b + -a) : ℚ) : ℝ) - (b - a)| := by
    rw [Rat.cast_abs, Rat.cast_sub, e, abs_sub_comm]
  rwa [e2, e3] at r'

/-! ## Segments of doubles -/

/-- Both ordinates are doubles of at most the size `M`. -/
def Sized (M : ℝ) (c : Coord ℚ) : Prop := IsF64 c.x ∧ IsF64 c.y ∧ |(c.x : ℝ)| ≤ M ∧ |(c.y : ℝ)| ≤ M

/-- `q` is the foot of the perpendicular from `p` to the line through `a` and `b`. -/
def Foot (q p a b : Coord ℝ) : Prop := OnInfLine q a b ∧ (p.x - q.x) * (b.x - a.x) + (p.y - q.y) * (b.y - a.y) = 0

/-- `q` is the mirror image of `p` in the line through `a` and `b`. -/
def MirrorImage (q p a b : Coord ℝ) : Prop := ∃ m, Foot m p a b ∧ q.x - m.x = m.x - p.x ∧ q.y - m.y = m.y - p.y

/-- `q` is at the fraction `f` along the line from `a` to `b`, and at the distance `d` to its left. -/
def OffsetPoint (q : Coord ℝ) (f d : ℝ) (a b : Coord ℝ) : Prop :=
  (q.x - (a.x + f * (b.x - a.x))) * (b.x - a.x) + (q.y - (a.y + f * (b.y - a.y))) * (b.y - a.y) = 0 ∧ det a b q = d * dist a b

/-- Both ordinates of `u` are within `d` of those of `q`. -/
def CloseTo (d : ℝ) (u : Coord ℚ) (q : Coord ℝ) : Prop := |(u.x : ℝ) - q.x| ≤ d ∧ |(u.y : ℝ) - q.y| ≤ d

/-- The hypotenuse of the differences of doubles has a small relative error. -/
theorem hypot_diff {ε : ℝ} (lib : Lib64 sq hy ε) (hε : ε ≤ 1 / 2 ^ 52) {ax bx ay by' : ℚ} (fax : IsF64 ax) (fbx : IsF64 bx) (fay : IsF64 ay) (fby : IsF64 by')
    (hx : |(bx : ℝ) - ax| ≤ 2 ^ 900) (hy' : |(by' : ℝ) - ay| ≤ 2 ^ 900) (h0 : 1 / 2 ^ 1000 ≤ |(bx : ℝ) - ax| ∨ 1 / 2 ^ 1000 ≤ |(by' : ℝ) - ay|) :
    ∃ w : ℚ, FltSqrt.hypot ((Fl.fin bx : B64 sq hy) -. Fl.fin ax) (Fl.fin by' -. Fl.fin ay) = Fl.fin w ∧
      |(w : ℝ) - √(((bx : ℝ) - ax) ^ 2 + ((by' : ℝ) - ay) ^ 2)| ≤ 3 / 2 ^ 52 * √(((bx : ℝ) - ax) ^ 2 + ((by' : ℝ) - ay) ^ 2) := by
  have m9 : Mid 900 ((2 : ℝ) ^ 900) := ⟨by
    rw [div_le_iff₀ (by positivity)]
    exact one_le_mul_of_one_le_of_one_le (one_le_pow₀ (by norm_num)) (one_le_pow₀ (by norm_num)), le_rfl⟩
  obtain ⟨x, x1, x2, x3⟩ := diff_rel (sq := sq) (hy := hy) fax fbx hx (m9.mono (by omega))
  obtain ⟨y, y1, y2, y3⟩ := diff_rel (sq := sq) (hy := hy) fay fby hy' (m9.mono (by omega))
  rw [x1, y1]
  have n0 := lib.nonneg
  generalize hdx : (bx : ℝ) - ax = dx at *
  generalize hdy : (by' : ℝ) - ay = dy at *
  have big : ∀ {u : ℚ} {d : ℝ}, |(u : ℝ) - d| ≤ |d| / 2 ^ 53 → |d| ≤ 2 ^ 900 → |u| ≤ 2 ^ (1000 : ℤ) := by
    intro u d h k
    have : ((|u| : ℚ) : ℝ) ≤ ((2 ^ 1000 : ℚ) : ℝ) := by
      push_cast
      have := abs_sub_abs_le_abs_sub (u : ℝ) d
      have : |(u : ℝ)| ≤ 2 * 2 ^ 900 := by
        have : |d| / 2 ^ 53 ≤ |d| := div_le_self (abs_nonneg _) (by norm_num)
        generalize (2 : ℝ) ^ 900 = P at *
        linarith
      refine this.trans ?_
      exact ((mid_two.mul m9).mono (show 1 + 900 ≤ 1000 by omega)).2
    exact_mod_cast this
  have small : ∀ {u : ℚ} {d : ℝ}, |(u : ℝ) - d| ≤ |d| / 2 ^ 53 → 1 / 2 ^ 1000 ≤ |d| → (2 : ℚ) ^ (-1022 : ℤ) ≤ |u| := by
    intro u d h k
    have : (((2 : ℚ) ^ (-1022 : ℤ) : ℚ) : ℝ) ≤ ((|u| : ℚ) : ℝ) := by
      rw [Rat.cast_zpow, Rat.cast_ofNat, Rat.cast_abs]
      have h1 := abs_sub_abs_le_abs_sub d (u : ℝ)
      rw [abs_sub_comm d] at h1
      have h2 : |d| / 2 ^ 53 ≤ |d| / 2 := div_le_div_of_nonneg_left (abs_nonneg _) (by norm_num) (by norm_num)
      have h3 : (2 : ℝ) ^ (-1022 : ℤ) ≤ 1 / 2 ^ 1000 / 2 := by
        rw [show (1 : ℝ) / 2 ^ 1000 / 2 = 1 / 2 ^ 1001 by rw [show (1001 : ℕ) = 1000 + 1 from rfl, pow_succ (2 : ℝ) 1000, div_div], one_div, ← zpow_natCast, ← zpow_neg]
        exact zpow_le_zpow_right₀ (by norm_num) (by norm_num)
      generalize (2 : ℝ) ^ (-1022 : ℤ) = z at *
      generalize (1 : ℝ) / 2 ^ 1000 = w at *
      linarith
    exact_mod_cast this
  obtain ⟨w, hw, we⟩ := lib.hypot x y x2 y2 (big x3 hx) (big y3 hy') (h0.imp (small x3) (small y3))
  have sqr : ∀ {u d : ℝ}, |u - d| ≤ |d| / 2 ^ 53 → |u ^ 2 - d ^ 2| ≤ 3 / 2 ^ 53 * d ^ 2 := by
    intro u d h
    have e : u ^ 2 - d ^ 2 = (u - d) * (u - d) + 2 * d * (u - d) := by ring
    rw [e]
    have t1 := abs_add_le ((u - d) * (u - d)) (2 * d * (u - d))
    rw [abs_mul, abs_mul, abs_mul, abs_of_pos (show (0 : ℝ) < 2 by norm_num)] at t1
    have t2 : |u - d| * |u - d| ≤ |d| / 2 ^ 53 * (|d| / 2 ^ 53) := mul_le_mul h h (abs_nonneg _) (by positivity)
    have t3 : 2 * |d| * |u - d| ≤ 2 * |d| * (|d| / 2 ^ 53) := mul_le_mul_of_nonneg_left h (by positivity)
    rw [← sq_abs d]
    have t4 : |d| / 2 ^ 53 * (|d| / 2 ^ 53) + 2 * |d| * (|d| / 2 ^ 53) = |d| ^ 2 * (1 / 2 ^ 106 + 2 / 2 ^ 53) := by ring
    have t5 : |d| ^ 2 * (1 / 2 ^ 106 + 2 / 2 ^ 53) ≤ |d| ^ 2 * (3 / 2 ^ 53) := mul_le_mul_of_nonneg_left (by norm_num) (by positivity)
    linarith
  have k1 := sqr x3
  have k2 := sqr y3
  have k3 : |((x : ℝ) ^ 2 + (y : ℝ) ^ 2) - (dx ^ 2 + dy ^ 2)| ≤ 3 / 2 ^ 53 * (dx ^ 2 + dy ^ 2) := by
    have e : ((x : ℝ) ^ 2 + (y : ℝ) ^ 2) - (dx ^ 2 + dy ^ 2) = ((x : ℝ) ^ 2 - dx ^ 2) + ((y : ℝ) ^ 2 - dy ^ 2) := by ring
    rw [e]
    have := abs_add_le ((x : ℝ) ^ 2 - dx ^ 2) ((y : ℝ) ^ 2 - dy ^ 2)
    linarith
  have k4 := sqrt_ap (by positivity) (by positivity) k3 (by norm_num)
  have r0 := Real.sqrt_nonneg (dx ^ 2 + dy ^ 2)
  refine ⟨w, hw, ?_⟩
  generalize √(dx ^ 2 + dy ^ 2) = T at *
  generalize √((x : ℝ) ^ 2 + (y : ℝ) ^ 2) = t at *
  have i1 := abs_sub_le (w : ℝ) t T
  have i3 : t ≤ (1 + 3 / 2 ^ 53) * T := by
    have := (abs_le.mp k4).2
    linarith
  have i4 : ε * t ≤ 1 / 2 ^ 52 * ((1 + 3 / 2 ^ 53) * T) := by
    calc ε * t ≤ ε * ((1 + 3 / 2 ^ 53) * T) := mul_le_mul_of_nonneg_left i3 n0
      _ ≤ _ := mul_le_mul_of_nonneg_right hε (by positivity)
  have i5 : 3 / 2 ^ 52 * T - (1 / 2 ^ 52 * ((1 + 3 / 2 ^ 53) * T) + 3 / 2 ^ 53 * T) = T * (3 / 2 ^ 52 - (1 / 2 ^ 52 * (1 + 3 / 2 ^ 53) + 3 / 2 ^ 53)) := by ring
  have i6 : 0 ≤ T * (3 / 2 ^ 52 - (1 / 2 ^ 52 * (1 + 3 / 2 ^ 53) + 3 / 2 ^ 53)) := mul_nonneg r0 (by norm_num)
  linarith

/-- The fraction along the segment of the nearest point: that of the foot of the perpendicular, moved into [0, 1]. -/
theorem nearest_frac {p a b : Coord ℚ} (L0 : 0 < ((b.x : ℝ) - a.x) * (b.x - a.x) + ((b.y : ℝ) - a.y) * (b.y - a.y)) :
    ∀ q, Nearest (realPt p) q (realPt a) (realPt b) → ∃ τ : ℝ, 0 ≤ τ ∧ τ ≤ 1 ∧ q.x = a.x + τ * (b.x - a.x) ∧ q.y = a.y + τ * (b.y - a.y) ∧
      (∀ z : ℝ, 0 ≤ z → z ≤ 1 → |z - τ| ≤ |z - (((p.x : ℝ) - a.x) * (b.x - a.x) + ((p.y : ℝ) - a.y) * (b.y - a.y)) /
        (((b.x : ℝ) - a.x) * (b.x - a.x) + ((b.y : ℝ) - a.y) * (b.y - a.y))|) ∧
      (0 < τ → τ ≤ (((p.x : ℝ) - a.x) * (b.x - a.x) + ((p.y : ℝ) - a.y) * (b.y - a.y)) / (((b.x : ℝ) - a.x) * (b.x - a.x) + ((b.y : ℝ) - a.y) * (b.y - a.y))) ∧
      (τ < 1 → (((p.x : ℝ) - a.x) * (b.x - a.x) + ((p.y : ℝ) - a.y) * (b.y - a.y)) / (((b.x : ℝ) - a.x) * (b.x - a.x) + ((b.y : ℝ) - a.y) * (b.y - a.y)) ≤ τ) := by
  have habR : ¬ ((realPt a).x = (realPt b).x ∧ (realPt a).y = (realPt b).y) := by
    rintro ⟨k1, k2⟩
    dsimp only [realPt] at k1 k2
    rw [k1, k2] at L0
    simp at L0
  intro q hq
  obtain ⟨n0, n1, n2⟩ := nearest_param hq habR
  dsimp only [realPt] at n0 n1 n2
  rw [pow_two, pow_two] at n1 n2
  generalize hn : ((p.x : ℝ) - a.x) * (b.x - a.x) + ((p.y : ℝ) - a.y) * (b.y - a.y) = n at *
  generalize hl : ((b.x : ℝ) - a.x) * (b.x - a.x) + ((b.y : ℝ) - a.y) * (b.y - a.y) = L at *
  rcases le_or_gt n 0 with c0 | c0
  · obtain ⟨e1, e2⟩ := n0 c0
    have : n / L ≤ 0 := div_nonpos_of_nonpos_of_nonneg c0 L0.le
    refine ⟨0, le_rfl, zero_le_one, by rw [e1]; ring, by rw [e2]; ring, fun z z0 z1 => ?_, fun h => absurd h (lt_irrefl _), fun _ => this⟩
    rw [abs_of_nonneg (by linarith), abs_of_nonneg (by linarith)]; linarith
  · rcases le_or_gt L n with c1 | c1
    · obtain ⟨e1, e2⟩ := n1 c1
      have : 1 ≤ n / L := by rw [le_div_iff₀ L0, one_mul]; exact c1
      refine ⟨1, zero_le_one, le_rfl, by rw [e1]; ring, by rw [e2]; ring, fun z z0 z1 => ?_, fun _ => this, fun h => absurd h (lt_irrefl _)⟩
      rw [abs_of_nonpos (by linarith), abs_of_nonpos (by linarith)]; linarith
    · obtain ⟨e1, e2⟩ := n2 c0 c1
      exact ⟨n / L, (div_pos c0 L0).le, by rw [div_le_one L0]; exact c1.le, e1, e2, fun z _ _ => le_rfl, fun _ => le_rfl, fun _ => le_rfl⟩

section seg
variable {M : ℝ} (hM : M ≤ 2 ^ 200) {a b : Coord ℚ} (ha : Sized M a) (hb : Sized M b)
  (hab : (1 : ℝ) / 2 ^ 200 ≤ |(b.x : ℝ) - a.x| ∨ (1 : ℝ) / 2 ^ 200 ≤ |(b.y : ℝ) - a.y|)
include hM ha hb hab

theorem seg_size : ∃ N : ℝ, Mid 202 N ∧ Mid 202 M ∧ N ≤ 2 * M ∧ |(b.x : ℝ) - a.x| ≤ N ∧ |(b.y : ℝ) - a.y| ≤ N ∧
    N * N ≤ ((b.x : ℝ) - a.x) * (b.x - a.x) + ((b.y : ℝ) - a.y) * (b.y - a.y) := by
  obtain ⟨-, -, ax, ay⟩ := ha
  obtain ⟨-, -, bx, by'⟩ := hb
  have dx : |(b.x : ℝ) - a.x| ≤ 2 * M := by have := abs_sub (b.x : ℝ) a.x; linarith
  have dy : |(b.y : ℝ) - a.y| ≤ 2 * M := by have := abs_sub (b.y : ℝ) a.y; linarith
  have n2 : max |(b.x : ℝ) - a.x| |(b.y : ℝ) - a.y| ≤ 2 * M := max_le dx dy
  have n1 : (1 : ℝ) / 2 ^ 200 ≤ max |(b.x : ℝ) - a.x| |(b.y : ℝ) - a.y| := by
    rcases hab with h | h
    · exact h.trans (le_max_left _ _)
    · exact h.trans (le_max_right _ _)
  have e1 : (1 : ℝ) / 2 ^ 202 = 1 / 2 ^ 200 / 4 := by rw [show (202 : ℕ) = 200 + 2 from rfl, pow_add]; ring
  have e2 : (2 : ℝ) ^ 202 = 2 ^ 200 * 4 := by rw [show (202 : ℕ) = 200 + 2 from rfl, pow_add]; norm_num
  have p0 : (0 : ℝ) < 1 / 2 ^ 200 := by positivity
  have p1 : (0 : ℝ) < 2 ^ 200 := by positivity
  refine ⟨max |(b.x : ℝ) - a.x| |(b.y : ℝ) - a.y|, ⟨?_, ?_⟩, ⟨?_, ?_⟩, n2, le_max_left _ _, le_max_right _ _, ?_⟩
  · rw [e1]; generalize (1 : ℝ) / 2 ^ 200 = P at *; linarith
  · rw [e2]; generalize (2 : ℝ) ^ 200 = P at hM p1 ⊢; linarith
  · rw [e1]; generalize (1 : ℝ) / 2 ^ 200 = P at *; linarith
  · rw [e2]; generalize (2 : ℝ) ^ 200 = P at hM p1 ⊢; linarith
  · rcases max_choice |(b.x : ℝ) - a.x| |(b.y : ℝ) - a.y| with h | h <;> rw [h, abs_mul_abs_self]
    · have := mul_self_nonneg ((b.y : ℝ) - a.y); linarith
    · have := mul_self_nonneg ((b.x : ℝ) - a.x); linarith

/-- The squared length of the segment and the fraction along it, as computed. -/
theorem seg_ratio {p : Coord ℚ} (hp : Sized M p) {N : ℝ} (mN : Mid 202 N) (mM : Mid 202 M) (hx : |(b.x : ℝ) - a.x| ≤ N) (hy' : |(b.y : ℝ) - a.y| ≤ N)
    (hL : N * N ≤ ((b.x : ℝ) - a.x) * (b.x - a.x) + ((b.y : ℝ) - a.y) * (b.y - a.y)) :
    Sc 5 (N * N + N * N) (((Fl.fin b.x : B64 sq hy) -. Fl.fin a.x) *. (Fl.fin b.x -. Fl.fin a.x) +. (Fl.fin b.y -. Fl.fin a.y) *. (Fl.fin b.y -. Fl.fin a.y))
      (((b.x : ℝ) - a.x) * (b.x - a.x) + ((b.y : ℝ) - a.y) * (b.y - a.y)) ∧
    Sc 17 (4 * M / N) ((((Fl.fin p.x : B64 sq hy) -. Fl.fin a.x) *. (Fl.fin b.x -. Fl.fin a.x) +. (Fl.fin p.y -. Fl.fin a.y) *. (Fl.fin b.y -. Fl.fin a.y)) /.
        ((Fl.fin b.x -. Fl.fin a.x) *. (Fl.fin b.x -. Fl.fin a.x) +. (Fl.fin b.y -. Fl.fin a.y) *. (Fl.fin b.y -. Fl.fin a.y)))
      ((((p.x : ℝ) - a.x) * (b.x - a.x) + ((p.y : ℝ) - a.y) * (b.y - a.y)) / (((b.x : ℝ) - a.x) * (b.x - a.x) + ((b.y : ℝ) - a.y) * (b.y - a.y))) := by
  obtain ⟨fax, fay, ax, ay⟩ := ha
  obtain ⟨fbx, fby, bx, by'⟩ := hb
  obtain ⟨fpx, fpy, px, py⟩ := hp
  have N0 := mN.pos
  have M0 := mM.pos
  have m2 := mid_two.mul mM
  have s1 := sc_diff (sq := sq) (hy := hy) fax fbx hx (mN.mono (by omega))
  have s2 := sc_diff (sq := sq) (hy := hy) fay fby hy' (mN.mono (by omega))
  have s3 := sc_diff (sq := sq) (hy := hy) (N := 2 * M) fax fpx (by have := abs_sub (p.x : ℝ) a.x; linarith) (m2.mono (by omega))
  have s4 := sc_diff (sq := sq) (hy := hy) (N := 2 * M) fay fpy (by have := abs_sub (p.y : ℝ) a.y; linarith) (m2.mono (by omega))
  have q1 := s1.mul s1 (by norm_num) (by norm_num) (by norm_num) (by norm_num) ((mN.mul mN).mono (by omega))
  have q2 := s2.mul s2 (by norm_num) (by norm_num) (by norm_num) (by norm_num) ((mN.mul mN).mono (by omega))
  have q3 := s3.mul s1 (by norm_num) (by norm_num) (by norm_num) (by norm_num) ((m2.mul mN).mono (by omega))
  have q4 := s4.mul s2 (by norm_num) (by norm_num) (by norm_num) (by norm_num) ((m2.mul mN).mono (by omega))
  have mL := (mN.mul mN).add (mN.mul mN)
  have mQ := (m2.mul mN).add (m2.mul mN)
  have l := q1.add q2 le_rfl le_rfl (by norm_num) (by norm_num) (mL.mono (by omega))
  have n := q3.add q4 le_rfl le_rfl (by norm_num) (by norm_num) (mQ.mono (by omega))
  have eB : 2 * (2 * M * N + 2 * M * N) / (N * N + N * N) = 4 * M / N := by field_simp; ring
  have mR : Mid 1000 (4 * M / N) := ((((mid_two.mul mid_two).mul mM).div mN).mono (by omega) : Mid 1000 (2 * 2 * M / N)) |> fun h => by convert h using 2; norm_num
  have d := n.div l (by norm_num) (by norm_num) (by norm_num) (by norm_num) (by linarith) mL.pos (by rw [eB]; exact mR)
  rw [eB] at d
  have d' : (1 : ℝ) + 1 + 2 + 1 + 2 * (1 + 1 + 2 + 1) + 2 = 17 := by norm_num
  have l' : (1 : ℝ) + 1 + 2 + 1 = 5 := by norm_num
  rw [d'] at d
  rw [l'] at l
  exact ⟨l, d⟩

/-- The projection factor. -/
theorem seg_factor {p : Coord ℚ} (hp : Sized M p) {N : ℝ} (mN : Mid 202 N) (mM : Mid 202 M) (hx : |(b.x : ℝ) - a.x| ≤ N) (hy' : |(b.y : ℝ) - a.y| ≤ N)
    (hL : N * N ≤ ((b.x : ℝ) - a.x) * (b.x - a.x) + ((b.y : ℝ) - a.y) * (b.y - a.y)) :
    Sc 17 (4 * M / N) ((⟨toB64 a, toB64 b⟩ : LineSeg (B64 sq hy)).projectionFactor (toB64 p))
      ((((p.x : ℝ) - a.x) * (b.x - a.x) + ((p.y : ℝ) - a.y) * (b.y - a.y)) / (((b.x : ℝ) - a.x) * (b.x - a.x) + ((b.y : ℝ) - a.y) * (b.y - a.y))) := by
  have N0 := mN.pos
  have M0 := mM.pos
  obtain ⟨l, d⟩ := seg_ratio (sq := sq) (hy := hy) hM ha hb hab hp mN mM hx hy' hL
  have mR : Mid 1000 (4 * M / N) := ((((mid_two.mul mid_two).mul mM).div mN).mono (by omega) : Mid 1000 (2 * 2 * M / N)) |> fun h => by convert h using 2; norm_num
  have L0 : 0 < ((b.x : ℝ) - a.x) * (b.x - a.x) + ((b.y : ℝ) - a.y) * (b.y - a.y) := lt_of_lt_of_le (mul_pos N0 N0) hL
  have same : ∀ {v : ℚ} {t : ℝ}, (v : ℝ) = t → |t| ≤ 4 * M / N → Sc 17 (4 * M / N) (Fl.fin v : B64 sq hy) t := by
    intro v t h k
    refine ⟨v, rfl, k, ?_⟩
    rw [h, sub_self, abs_zero]
    have := mR.pos
    positivity
  obtain ⟨-, -, d1, -⟩ := id d
  unfold LineSeg.projectionFactor
  dsimp only
  simp only [toB64_equals, decide_eq_true_eq]
  by_cases c0 : p.x = a.x ∧ p.y = a.y
  · rw [if_pos c0, lit64]
    refine same ?_ d1
    rw [c0.1, c0.2]; simp
  · rw [if_neg c0]
    by_cases c1 : p.x = b.x ∧ p.y = b.y
    · rw [if_pos c1, one64]
      refine same ?_ d1
      rw [c1.1, c1.2, div_self L0.ne']; simp
    · rw [if_neg c1]
      simp only [xB64, yB64]
      have pos : (((Fl.fin b.x : B64 sq hy) -. Fl.fin a.x) *. (Fl.fin b.x -. Fl.fin a.x) +. (Fl.fin b.y -. Fl.fin a.y) *. (Fl.fin b.y -. Fl.fin a.y) ≤. lit 0) = false := by
        obtain ⟨v, e, -, l2⟩ := l
        rw [e, lit64]
        show decide (v ≤ 0) = false
        have : (0 : ℝ) < v := by
          have := (abs_le.mp l2).1
          have e : 5 * (N * N + N * N) / 2 ^ 52 = N * N * (10 / 2 ^ 52) := by ring
          rw [e] at this
          have : 0 < N * N * (1 - 10 / 2 ^ 52) := mul_pos (mul_pos N0 N0) (by norm_num)
          linarith
        have : 0 < v := by exact_mod_cast this
        simpa using this
      refine Eq.mpr (congrArg (fun z => Sc 17 (4 * M / N) z _) (if_neg fun h => absurd (pos.symm.trans h) (by decide))) d

/-- An ordinate of a point at a factor along the segment. -/
theorem seg_along {N : ℝ} (mN : Mid 202 N) (mM : Mid 202 M) {x y : ℚ} (fx : IsF64 x) (fy : IsF64 y) (bx : |(x : ℝ)| ≤ M) (hx : |(y : ℝ) - x| ≤ N)
    {f : B64 sq hy} {t : ℝ} (hf : Sc 17 (4 * M / N) f t) :
    ∃ u : ℚ, Fl.fin x +. f *. (Fl.fin y -. Fl.fin x) = Fl.fin u ∧ |(u : ℝ) - (x + t * (y - x))| ≤ M / 2 ^ 45 := by
  have N0 := mN.pos
  have M0 := mM.pos
  have s1 := sc_diff (sq := sq) (hy := hy) fx fy hx (mN.mono (by omega))
  have e4 : 4 * M / N * N = 4 * M := by field_simp
  have m4 : Mid 204 (4 * M) := by
    have := (mid_two.mul mid_two).mul mM
    convert this using 2; norm_num
  have s2 := hf.mul s1 (by norm_num) (by norm_num) (by norm_num) (by norm_num) (by rw [e4]; exact m4.mono (by omega))
  rw [e4] at s2
  have s3 := (sc_exact (sq := sq) (hy := hy) bx).add s2 (e := 20) (by norm_num) (by norm_num) (by norm_num) (by norm_num)
    (((mM.mono (show 202 ≤ 204 by omega)).add m4).mono (by omega))
  obtain ⟨u, u1, -, u3⟩ := s3
  refine ⟨u, u1, u3.trans ?_⟩
  have : M / 2 ^ 45 - (20 + 1) * (M + 4 * M) / 2 ^ 52 = M * (1 / 2 ^ 45 - 105 / 2 ^ 52) := by ring
  have : 0 ≤ M * (1 / 2 ^ 45 - 105 / 2 ^ 52) := mul_nonneg M0.le (by norm_num)
  linarith

/-- C117: for doubles of at most the size `M`, the projection of a point on the line of a segment is within `M / 2^45` of the foot of the perpendicular. -/
theorem C117_project {p : Coord ℚ} (hp : Sized M p) :
    ∃ u : Coord ℚ, (⟨toB64 a, toB64 b⟩ : LineSeg (B64 sq hy)).project (toB64 p) = toB64 u ∧
      ∀ q, Foot q (realPt p) (realPt a) (realPt b) → CloseTo (M / 2 ^ 45) u q := by
  obtain ⟨N, mN, mM, nm, hx, hy', hL⟩ := seg_size hM ha hb hab
  have hf := seg_factor (sq := sq) (hy := hy) hM ha hb hab hp mN mM hx hy' hL
  obtain ⟨u, u1, u2⟩ := seg_along hM ha hb hab mN mM ha.1 hb.1 ha.2.2.1 hx hf
  obtain ⟨v, v1, v2⟩ := seg_along hM ha hb hab mN mM ha.2.1 hb.2.1 ha.2.2.2 hy' hf
  have L0 : 0 < ((b.x : ℝ) - a.x) * (b.x - a.x) + ((b.y : ℝ) - a.y) * (b.y - a.y) := lt_of_lt_of_le (mul_pos mN.pos mN.pos) hL
  have ft : ∀ q, Foot q (realPt p) (realPt a) (realPt b) →
      q.x = a.x + (((p.x : ℝ) - a.x) * (b.x - a.x) + ((p.y : ℝ) - a.y) * (b.y - a.y)) / (((b.x : ℝ) - a.x) * (b.x - a.x) + ((b.y : ℝ) - a.y) * (b.y - a.y)) * (b.x - a.x) ∧
      q.y = a.y + (((p.x : ℝ) - a.x) * (b.x - a.x) + ((p.y : ℝ) - a.y) * (b.y - a.y)) / (((b.x : ℝ) - a.x) * (b.x - a.x) + ((b.y : ℝ) - a.y) * (b.y - a.y)) * (b.y - a.y) := by
    rintro q ⟨⟨t, tx, ty⟩, pq⟩
    dsimp only [realPt] at tx ty pq
    have : t = (((p.x : ℝ) - a.x) * (b.x - a.x) + ((p.y : ℝ) - a.y) * (b.y - a.y)) / (((b.x : ℝ) - a.x) * (b.x - a.x) + ((b.y : ℝ) - a.y) * (b.y - a.y)) := by
      rw [eq_div_iff L0.ne']
      rw [tx, ty] at pq
      linear_combination -pq
    rw [← this]; exact ⟨tx, ty⟩
  unfold LineSeg.project
  simp only [toB64_equals]
  by_cases c : p.x = a.x ∧ p.y = a.y ∨ p.x = b.x ∧ p.y = b.y
  · rw [if_pos (by simpa using c)]
    refine ⟨p, rfl, fun q hq => ?_⟩
    obtain ⟨qx, qy⟩ := ft q hq
    have z : (0 : ℝ) ≤ M / 2 ^ 45 := div_nonneg mM.pos.le (by norm_num)
    unfold CloseTo
    rw [qx, qy]
    rcases c with c | c <;> rw [c.1, c.2]
    · simpa using z
    · rw [div_self L0.ne']; simpa using z
  · rw [if_neg (by simpa using c)]
    refine ⟨⟨u, v, 0, 0⟩, ?_, fun q hq => ?_⟩
    · unfold LineSeg.projectWith
      simp only [xB64, yB64]
      rw [u1, v1]; rfl
    · obtain ⟨qx, qy⟩ := ft q hq
      unfold CloseTo
      rw [qx, qy]
      exact ⟨u2, v2⟩

/-- C117: for doubles of at most the size `M`, the reflection of a point in a segment is within `M / 2^44` of its mirror image. -/
theorem C117_reflect {p : Coord ℚ} (hp : Sized M p) :
    ∃ u : Coord ℚ, (⟨toB64 a, toB64 b⟩ : LineSeg (B64 sq hy)).reflect (toB64 p) = toB64 u ∧
      ∀ q, MirrorImage q (realPt p) (realPt a) (realPt b) → CloseTo (M / 2 ^ 44) u q := by
  obtain ⟨N, mN, mM, nm, hx, hy', hL⟩ := seg_size hM ha hb hab
  obtain ⟨fax, fay, ax, ay⟩ := ha
  obtain ⟨fbx, fby, bx, by'⟩ := hb
  obtain ⟨fpx, fpy, px, py⟩ := hp
  have N0 := mN.pos
  have M0 := mM.pos
  have L0 : 0 < ((b.x : ℝ) - a.x) * (b.x - a.x) + ((b.y : ℝ) - a.y) * (b.y - a.y) := lt_of_lt_of_le (mul_pos N0 N0) hL
  have sa := sc_diff (sq := sq) (hy := hy) fay fby hy' (mN.mono (by omega))
  have sb := sc_diff (sq := sq) (hy := hy) fbx fax (show |(a.x : ℝ) - b.x| ≤ N by rwa [abs_sub_comm]) (mN.mono (by omega))
  have sd := sc_diff (sq := sq) (hy := hy) fax fbx hx (mN.mono (by omega))
  have mMN := mM.mul mN
  have mNN := mN.mul mN
  have c1 := (sc_exact (sq := sq) (hy := hy) ay).mul sd (by norm_num) (by norm_num) (by norm_num) (by norm_num) (mMN.mono (by omega))
  have c2 := (sc_exact (sq := sq) (hy := hy) ax).mul sa (by norm_num) (by norm_num) (by norm_num) (by norm_num) (mMN.mono (by omega))
  have mC := mMN.add mMN
  have sc := c1.sub c2 le_rfl le_rfl (by norm_num) (by norm_num) (mC.mono (by omega))
  have aa := sa.mul sa (by norm_num) (by norm_num) (by norm_num) (by norm_num) (mNN.mono (by omega))
  have bb := sb.mul sb (by norm_num) (by norm_num) (by norm_num) (by norm_num) (mNN.mono (by omega))
  have mS := mNN.add mNN
  have l := aa.add bb le_rfl le_rfl (by norm_num) (by norm_num) (mS.mono (by omega))
  have s := aa.sub bb le_rfl le_rfl (by norm_num) (by norm_num) (mS.mono (by omega))
  have two : Sc 0 2 (lit 2 : B64 sq hy) 2 := by
    rw [lit64_two']
    have := sc_exact (sq := sq) (hy := hy) (B := 2) (v := 2) (by norm_num)
    simpa using this
  have m2N := mid_two.mul mN
  have ta := two.mul sa (by norm_num) (by norm_num) (by norm_num) (by norm_num) (m2N.mono (by omega))
  have tb := two.mul sb (by norm_num) (by norm_num) (by norm_num) (by norm_num) (m2N.mono (by omega))
  have m2NN := m2N.mul mN
  have tab := ta.mul sb (by norm_num) (by norm_num) (by norm_num) (by norm_num) (m2NN.mono (by omega))
  have m2NNM := m2NN.mul mM
  have mSM := mS.mul mM
  have sX := sc_exact (sq := sq) (hy := hy) px
  have sY := sc_exact (sq := sq) (hy := hy) py
  have x1 := s.neg.mul sX (by norm_num) (by norm_num) (by norm_num) (by norm_num) (mSM.mono (by omega))
  have y1 := s.mul sY (by norm_num) (by norm_num) (by norm_num) (by norm_num) (mSM.mono (by omega))
  have x2 := tab.mul sY (by norm_num) (by norm_num) (by norm_num) (by norm_num) (m2NNM.mono (by omega))
  have y2 := tab.mul sX (by norm_num) (by norm_num) (by norm_num) (by norm_num) (m2NNM.mono (by omega))
  have m3 := m2N.mul mC
  have x3 := ta.mul sc (by norm_num) (by norm_num) (by norm_num) (by norm_num) (m3.mono (by omega))
  have y3 := tb.mul sc (by norm_num) (by norm_num) (by norm_num) (by norm_num) (m3.mono (by omega))
  have m4 := (mSM.mono (show _ ≤ 700 by omega)).add (m2NNM.mono (show _ ≤ 700 by omega))
  have m5 := (m4.mono (show _ ≤ 710 by omega)).add (m3.mono (show _ ≤ 710 by omega))
  have xa := x1.sub x2 (e := 8) (by norm_num) (by norm_num) (by norm_num) (by norm_num) (m4.mono (by omega))
  have ya := y1.sub y2 (e := 8) (by norm_num) (by norm_num) (by norm_num) (by norm_num) (m4.mono (by omega))
  have xn := xa.sub x3 (e := 9) (by norm_num) (by norm_num) (by norm_num) (by norm_num) (m5.mono (by omega))
  have yn := ya.sub y3 (e := 9) (by norm_num) (by norm_num) (by norm_num) (by norm_num) (m5.mono (by omega))
  have eB : 2 * ((N * N + N * N) * M + 2 * N * N * M + 2 * N * (M * N + M * N)) / (N * N + N * N) = 8 * M := by field_simp; ring
  have m8 : Mid 1000 (8 * M) := by
    have := (((mid_two.mul mid_two).mul mid_two).mul mM).mono (show _ ≤ 1000 by omega)
    convert this using 2; norm_num
  have eL : ((b.y : ℝ) - a.y) * (b.y - a.y) + (a.x - b.x) * (a.x - b.x) = (b.x - a.x) * (b.x - a.x) + (b.y - a.y) * (b.y - a.y) := by ring
  rw [eL] at l
  have xd := xn.div l (by norm_num) (by norm_num) (by norm_num) (by norm_num) (by linarith) mS.pos (by rw [eB]; exact m8)
  have yd := yn.div l (by norm_num) (by norm_num) (by norm_num) (by norm_num) (by linarith) mS.pos (by rw [eB]; exact m8)
  rw [eB] at xd yd
  obtain ⟨u, u1, -, u2⟩ := xd
  obtain ⟨v, v1, -, v2⟩ := yd
  have le : (9 + 1 + 2 * (1 + 1 + 2 + 1) + 2) * (8 * M) / 2 ^ 52 ≤ M / 2 ^ 44 := by
    have : M / 2 ^ 44 - (9 + 1 + 2 * (1 + 1 + 2 + 1) + 2) * (8 * M) / 2 ^ 52 = M * (1 / 2 ^ 44 - 176 / 2 ^ 52) := by ring
    have : 0 ≤ M * (1 / 2 ^ 44 - 176 / 2 ^ 52) := mul_nonneg M0.le (by norm_num)
    linarith
  refine ⟨⟨u, v, 0, 0⟩, ?_, ?_⟩
  · unfold LineSeg.reflect
    simp only [xB64, yB64]
    rw [u1, v1]; rfl
  · rintro q ⟨m, ⟨⟨t, tx, ty⟩, pm⟩, qx, qy⟩
    dsimp only [realPt] at tx ty pm qx qy
    rw [tx, ty] at pm
    rw [tx] at qx
    rw [ty] at qy
    have hqx : q.x = 2 * (a.x + t * (b.x - a.x)) - p.x := by linarith
    have hqy : q.y = 2 * (a.y + t * (b.y - a.y)) - p.y := by linarith
    unfold CloseTo
    constructor
    · refine le_trans (le_of_eq ?_) (u2.trans le)
      congr 2
      rw [eq_div_iff L0.ne', hqx]
      linear_combination (-2 * ((b.x : ℝ) - a.x)) * pm
    · refine le_trans (le_of_eq ?_) (v2.trans le)
      congr 2
      rw [eq_div_iff L0.ne', hqy]
      linear_combination (-2 * ((b.y : ℝ) - a.y)) * pm

/-- The length of the segment as computed. -/
theorem seg_length {ε : ℝ} (lib : Lib64 sq hy ε) (hε : ε ≤ 1 / 2 ^ 52) {N : ℝ} (mN : Mid 202 N) (hx : |(b.x : ℝ) - a.x| ≤ N) (hy' : |(b.y : ℝ) - a.y| ≤ N) :
    Sc 3 (2 * N) (FltSqrt.hypot ((Fl.fin b.x : B64 sq hy) -. Fl.fin a.x) (Fl.fin b.y -. Fl.fin a.y)) √(((b.x : ℝ) - a.x) ^ 2 + ((b.y : ℝ) - a.y) ^ 2) := by
  have N0 := mN.pos
  have p1 : (1 : ℝ) / 2 ^ 1000 ≤ 1 / 2 ^ 200 := one_div_le_one_div_of_le (by positivity) (pow_le_pow_right₀ (by norm_num) (by norm_num))
  have m9 := (mN.mono (show 202 ≤ 900 by omega)).2
  obtain ⟨w, hw, e⟩ := hypot_diff (sq := sq) (hy := hy) lib hε ha.1 hb.1 ha.2.1 hb.2.1 (hx.trans m9) (hy'.trans m9) (hab.imp p1.trans p1.trans)
  have r0 := Real.sqrt_nonneg (((b.x : ℝ) - a.x) ^ 2 + ((b.y : ℝ) - a.y) ^ 2)
  have r1 : √(((b.x : ℝ) - a.x) ^ 2 + ((b.y : ℝ) - a.y) ^ 2) ≤ 2 * N := by
    apply Real.sqrt_le_iff.mpr
    refine ⟨by linarith, ?_⟩
    have i1 := sq_le_sq' (neg_le_of_abs_le hx) (le_of_abs_le hx)
    have i2 := sq_le_sq' (neg_le_of_abs_le hy') (le_of_abs_le hy')
    have := sq_nonneg N
    linarith [show (2 * N) ^ 2 = 4 * N ^ 2 by ring]
  refine ⟨w, hw, by rwa [abs_of_nonneg r0], e.trans ?_⟩
  rw [mul_div_right_comm]
  exact mul_le_mul_of_nonneg_left r1 (by norm_num)

/-- C117: the point at a fraction of a segment, moved to the left by `d` (to the right if `d` is negative), is within `(M + |d|) / 2^46` of the exact one. -/
theorem C117_offset {ε : ℝ} (lib : Lib64 sq hy ε) (hε : ε ≤ 1 / 2 ^ 52) {f d : ℚ} (hf : |f| ≤ 1) (hd : d = 0 ∨ 1 / 2 ^ 200 ≤ |(d : ℝ)| ∧ |(d : ℝ)| ≤ 2 ^ 200) :
    ∃ u : Coord ℚ, (⟨toB64 a, toB64 b⟩ : LineSeg (B64 sq hy)).pointAlongOffset (Fl.fin f) (Fl.fin d) = toB64 u ∧
      ∀ q, OffsetPoint q f d (realPt a) (realPt b) → CloseTo ((M + |(d : ℝ)|) / 2 ^ 46) u q := by
  obtain ⟨N, mN, mM, nm, hx, hy', hL⟩ := seg_size hM ha hb hab
  have N0 := mN.pos
  have M0 := mM.pos
  have d0 := abs_nonneg (d : ℝ)
  have sl := seg_length hM ha hb hab lib hε mN hx hy'
  obtain ⟨fax, fay, ax, ay⟩ := ha
  obtain ⟨fbx, fby, bx, by'⟩ := hb
  have L0 : N ≤ √(((b.x : ℝ) - a.x) ^ 2 + ((b.y : ℝ) - a.y) ^ 2) := by
    apply Real.le_sqrt_of_sq_le
    rw [pow_two, pow_two, pow_two]; exact hL
  have LL : √(((b.x : ℝ) - a.x) ^ 2 + ((b.y : ℝ) - a.y) ^ 2) * √(((b.x : ℝ) - a.x) ^ 2 + ((b.y : ℝ) - a.y) ^ 2) = ((b.x : ℝ) - a.x) ^ 2 + ((b.y : ℝ) - a.y) ^ 2 :=
    Real.mul_self_sqrt (by positivity)
  have LD : dist (realPt a) (realPt b) = √(((b.x : ℝ) - a.x) ^ 2 + ((b.y : ℝ) - a.y) ^ 2) := by
    rw [Spec.dist_comm]; rfl
  generalize √(((b.x : ℝ) - a.x) ^ 2 + ((b.y : ℝ) - a.y) ^ 2) = L at *
  have Lp : 0 < L := by linarith
  have sx := sc_diff (sq := sq) (hy := hy) fax fbx hx (mN.mono (by omega))
  have sy := sc_diff (sq := sq) (hy := hy) fay fby hy' (mN.mono (by omega))
  have hf' : |(f : ℝ)| ≤ 1 := by exact_mod_cast hf
  have sf := sc_exact (sq := sq) (hy := hy) hf'
  have fx := sf.mul sx (by norm_num) (by norm_num) (by norm_num) (by norm_num) ((mid_one.mul mN).mono (by omega))
  have fy := sf.mul sy (by norm_num) (by norm_num) (by norm_num) (by norm_num) ((mid_one.mul mN).mono (by omega))
  have fx' := fx.mono le_rfl (by norm_num) (show 1 * N ≤ 2 * M by linarith)
  have fy' := fy.mono le_rfl (by norm_num) (show 1 * N ≤ 2 * M by linarith)
  have mM3 := (mM.mono (show _ ≤ 203 by omega)).add (mid_two.mul mM)
  have gx := (sc_exact (sq := sq) (hy := hy) ax).add fx' (e := 3) (by norm_num) (by norm_num) (by norm_num) (by norm_num) (mM3.mono (by omega))
  have gy := (sc_exact (sq := sq) (hy := hy) ay).add fy' (e := 3) (by norm_num) (by norm_num) (by norm_num) (by norm_num) (mM3.mono (by omega))
  -- the vector of the offset
  obtain ⟨T, hT⟩ : ∃ T : B64 sq hy × B64 sq hy, T = (if !((Fl.fin d : B64 sq hy) ==. lit 0) then
        (Fl.fin d *. (Fl.fin b.x -. Fl.fin a.x) /. FltSqrt.hypot (Fl.fin b.x -. Fl.fin a.x) (Fl.fin b.y -. Fl.fin a.y),
          Fl.fin d *. (Fl.fin b.y -. Fl.fin a.y) /. FltSqrt.hypot (Fl.fin b.x -. Fl.fin a.x) (Fl.fin b.y -. Fl.fin a.y)) else (lit 0, lit 0)) := ⟨_, rfl⟩
  have off : Sc 11 |(d : ℝ)| T.1 (d * (b.x - a.x) / L) ∧ Sc 11 |(d : ℝ)| T.2 (d * (b.y - a.y) / L) := by
    rw [hT]
    rw [lit64]
    by_cases h : d = 0
    · have : (!((Fl.fin d : B64 sq hy) ==. Fl.fin 0)) = false := by
        show (!decide (d = 0)) = false
        simpa using h
      rw [this, h]
      refine ⟨⟨0, rfl, by simp, by simp⟩, ⟨0, rfl, by simp, by simp⟩⟩
    · have : (!((Fl.fin d : B64 sq hy) ==. Fl.fin 0)) = true := by
        show (!decide (d = 0)) = true
        simpa using h
      rw [this]
      obtain ⟨l1, l2⟩ := hd.resolve_left h
      have mD : Mid 200 |(d : ℝ)| := ⟨l1, l2⟩
      have sd := sc_exact (sq := sq) (hy := hy) (v := d) le_rfl
      have px := sd.mul sx (by norm_num) (by norm_num) (by norm_num) (by norm_num) ((mD.mul mN).mono (by omega))
      have py := sd.mul sy (by norm_num) (by norm_num) (by norm_num) (by norm_num) ((mD.mul mN).mono (by omega))
      have eB : 2 * (|(d : ℝ)| * N) / (2 * N) = |(d : ℝ)| := by field_simp
      have qx := px.div sl (by norm_num) (by norm_num) (by norm_num) (by norm_num) (by linarith) (by linarith) (by rw [eB]; exact mD.mono (by omega))
      have qy := py.div sl (by norm_num) (by norm_num) (by norm_num) (by norm_num) (by linarith) (by linarith) (by rw [eB]; exact mD.mono (by omega))
      rw [eB] at qx qy
      have e : (0 : ℝ) + 1 + 2 + 2 * 3 + 2 = 11 := by norm_num
      rw [e] at qx qy
      exact ⟨qx, qy⟩
  have mF : Mid 1000 (M + 2 * M + |(d : ℝ)|) := by
    refine ⟨?_, ?_⟩
    · have := (mM.mono (show 202 ≤ 1000 by omega)).1
      generalize (1 : ℝ) / 2 ^ 1000 = z at *
      linarith
    · have h1 := mM.2
      have h2 : |(d : ℝ)| ≤ 2 ^ 202 := by
        rcases hd with h | h
        · rw [h]; simp
        · exact h.2.trans (pow_le_pow_right₀ (by norm_num) (by norm_num))
      have h3 : (2 : ℝ) ^ 202 * 4 ≤ 2 ^ 1000 := by
        rw [show (4 : ℝ) = 2 ^ 2 by norm_num, ← pow_add]
        exact pow_le_pow_right₀ (by norm_num) (by norm_num)
      generalize (2 : ℝ) ^ 202 = z at *
      generalize (2 : ℝ) ^ 1000 = w at *
      linarith
  have rx := gx.sub off.2 (e := 11) (by norm_num) (by norm_num) (by norm_num) (by norm_num) mF
  have ry := gy.add off.1 (e := 11) (by norm_num) (by norm_num) (by norm_num) (by norm_num) mF
  obtain ⟨u, u1, -, u2⟩ := rx
  obtain ⟨v, v1, -, v2⟩ := ry
  have le : (11 + 1) * (M + 2 * M + |(d : ℝ)|) / 2 ^ 52 ≤ (M + |(d : ℝ)|) / 2 ^ 46 := by
    have e : (M + |(d : ℝ)|) / 2 ^ 46 - (11 + 1) * (M + 2 * M + |(d : ℝ)|) / 2 ^ 52 = M * (1 / 2 ^ 46 - 36 / 2 ^ 52) + |(d : ℝ)| * (1 / 2 ^ 46 - 12 / 2 ^ 52) := by ring
    have : 0 ≤ M * (1 / 2 ^ 46 - 36 / 2 ^ 52) := mul_nonneg M0.le (by norm_num)
    have : 0 ≤ |(d : ℝ)| * (1 / 2 ^ 46 - 12 / 2 ^ 52) := mul_nonneg d0 (by norm_num)
    linarith
  refine ⟨⟨u, v, 0, 0⟩, ?_, ?_⟩
  · unfold LineSeg.pointAlongOffset
    simp only [xB64, yB64]
    rw [hT] at u1 v1
    exact (congrArg₂ (fun s t => ({ (Coord.default : Coord (B64 sq hy)) with x := s, y := t })) u1 v1)
  · rintro q ⟨q1, q2⟩
    rw [LD] at q2
    unfold det at q2
    dsimp only [realPt] at q1 q2
    have qx : q.x = a.x + f * (b.x - a.x) - d * (b.y - a.y) / L := by
      have : (q.x - (a.x + f * (b.x - a.x))) * (L * L) = -(d * (b.y - a.y) * L) := by
        rw [LL]
        linear_combination (b.x - a.x : ℝ) * q1 - (b.y - a.y : ℝ) * q2
      field_simp
      have h := mul_right_cancel₀ Lp.ne' (show ((q.x - (a.x + f * (b.x - a.x))) * L) * L = (-(d * (b.y - a.y))) * L by linear_combination this)
      linear_combination h
    have qy : q.y = a.y + f * (b.y - a.y) + d * (b.x - a.x) / L := by
      have : (q.y - (a.y + f * (b.y - a.y))) * (L * L) = (d * (b.x - a.x) * L) := by
        rw [LL]
        linear_combination (b.y - a.y : ℝ) * q1 + (b.x - a.x : ℝ) * q2
      field_simp
      have h := mul_right_cancel₀ Lp.ne' (show ((q.y - (a.y + f * (b.y - a.y))) * L) * L = (d * (b.x - a.x)) * L by linear_combination this)
      linear_combination h
    unfold CloseTo
    rw [qx, qy]
    exact ⟨u2.trans le, v2.trans le⟩

/-- C117: both ends of an offset segment. -/
theorem C117_offset_segment {ε : ℝ} (lib : Lib64 sq hy ε) (hε : ε ≤ 1 / 2 ^ 52) {d : ℚ} (hd : d = 0 ∨ 1 / 2 ^ 200 ≤ |(d : ℝ)| ∧ |(d : ℝ)| ≤ 2 ^ 200) :
    ∃ u v : Coord ℚ, (⟨toB64 a, toB64 b⟩ : LineSeg (B64 sq hy)).offset (Fl.fin d) = ⟨toB64 u, toB64 v⟩ ∧
      (∀ q, OffsetPoint q 0 d (realPt a) (realPt b) → CloseTo ((M + |(d : ℝ)|) / 2 ^ 46) u q) ∧
      (∀ q, OffsetPoint q 1 d (realPt a) (realPt b) → CloseTo ((M + |(d : ℝ)|) / 2 ^ 46) v q) := by
  obtain ⟨u, u1, u2⟩ := C117_offset hM ha hb hab lib hε (f := 0) (by simp) hd
  obtain ⟨v, v1, v2⟩ := C117_offset hM ha hb hab lib hε (f := 1) (by simp) hd
  refine ⟨u, v, ?_, fun q hq => u2 q (by simpa using hq), fun q hq => v2 q (by simpa using hq)⟩
  unfold LineSeg.offset LineSeg.ofCoords
  rw [lit64, one64, u1, v1]; rfl

/-- One end of a projected segment: the factor is held between 0 and 1. -/
theorem seg_end {p : Coord ℚ} (hp : Sized M p) :
    ∃ (f : ℚ) (w : Coord ℚ), (⟨toB64 a, toB64 b⟩ : LineSeg (B64 sq hy)).projectionFactor (toB64 p) = Fl.fin f ∧
      (f < 0 → w = a) ∧ (1 < f → w = b) ∧ (0 ≤ f → f ≤ 1 → (⟨toB64 a, toB64 b⟩ : LineSeg (B64 sq hy)).projectWith (toB64 p) (Fl.fin f) = toB64 w) ∧
      ∀ q, Nearest (realPt p) q (realPt a) (realPt b) →
        CloseTo (M / 2 ^ 45) w q ∧ (f ≤ 0 → CloseTo (M / 2 ^ 45) a q) ∧ (1 ≤ f → CloseTo (M / 2 ^ 45) b q) := by
  obtain ⟨N, mN, mM, nm, hx, hy', hL⟩ := seg_size hM ha hb hab
  have hf := seg_factor (sq := sq) (hy := hy) hM ha hb hab hp mN mM hx hy' hL
  have N0 := mN.pos
  have M0 := mM.pos
  have L0 : 0 < ((b.x : ℝ) - a.x) * (b.x - a.x) + ((b.y : ℝ) - a.y) * (b.y - a.y) := lt_of_lt_of_le (mul_pos N0 N0) hL
  obtain ⟨f, f1, -, f3⟩ := hf
  have par := nearest_frac (p := p) L0
  generalize ((((p.x : ℝ) - a.x) * (b.x - a.x) + ((p.y : ℝ) - a.y) * (b.y - a.y)) / (((b.x : ℝ) - a.x) * (b.x - a.x) + ((b.y : ℝ) - a.y) * (b.y - a.y))) = t at *
  have tiny : ∀ {s d : ℝ}, |s| ≤ 17 * (4 * M / N) / 2 ^ 52 → |d| ≤ N → |s * d| ≤ M / 2 ^ 45 := by
    intro s d h k
    rw [abs_mul]
    refine (mul_le_mul h k (abs_nonneg _) (by positivity)).trans ?_
    have e : 17 * (4 * M / N) / 2 ^ 52 * N = M * (68 / 2 ^ 52) := by field_simp; ring
    have e2 : M / 2 ^ 45 = M * (1 / 2 ^ 45) := by ring
    rw [e, e2]
    exact mul_le_mul_of_nonneg_left (by norm_num) M0.le
  have low : f ≤ 0 → ∀ q, Nearest (realPt p) q (realPt a) (realPt b) → CloseTo (M / 2 ^ 45) a q := by
    intro hf q hq
    have hf' : (f : ℝ) ≤ 0 := by exact_mod_cast hf
    obtain ⟨τ, τ0, τ1, qx, qy, -, τ2, -⟩ := par q hq
    have : |(-τ)| ≤ 17 * (4 * M / N) / 2 ^ 52 := by
      rw [abs_neg, abs_of_nonneg τ0]
      rcases eq_or_lt_of_le τ0 with h | h
      · rw [← h]; positivity
      · have := τ2 h
        have := (abs_le.mp f3).1
        linarith
    unfold CloseTo
    rw [qx, qy]
    constructor
    · convert tiny this hx using 2; ring
    · convert tiny this hy' using 2; ring
  have high : 1 ≤ f → ∀ q, Nearest (realPt p) q (realPt a) (realPt b) → CloseTo (M / 2 ^ 45) b q := by
    intro hf q hq
    have hf' : (1 : ℝ) ≤ f := by exact_mod_cast hf
    obtain ⟨τ, τ0, τ1, qx, qy, -, -, τ2⟩ := par q hq
    have : |(1 - τ)| ≤ 17 * (4 * M / N) / 2 ^ 52 := by
      rw [abs_of_nonneg (by linarith)]
      rcases eq_or_lt_of_le τ1 with h | h
      · rw [h, sub_self]; positivity
      · have := τ2 h
        have := (abs_le.mp f3).2
        linarith
    unfold CloseTo
    rw [qx, qy]
    constructor
    · convert tiny this hx using 2; ring
    · convert tiny this hy' using 2; ring
  rcases lt_or_ge f 0 with c0 | c0
  · exact ⟨f, a, f1, fun _ => rfl, fun h => absurd (c0.trans one_pos) h.not_gt, fun h => absurd h (not_le.mpr c0),
      fun q hq => ⟨low c0.le q hq, fun h => low h q hq, fun h => high h q hq⟩⟩
  rcases lt_or_ge 1 f with c1 | c1
  · exact ⟨f, b, f1, fun h => absurd h c0.not_gt, fun _ => rfl, fun _ h => absurd h (not_le.mpr c1),
      fun q hq => ⟨high c1.le q hq, fun h => low h q hq, fun h => high h q hq⟩⟩
  have g0 : (0 : ℝ) ≤ f := by exact_mod_cast c0
  have g1 : (f : ℝ) ≤ 1 := by exact_mod_cast c1
  have one : (1 : ℝ) ≤ 4 * M / N := by rw [le_div_iff₀ N0]; linarith
  have sf : ∀ τ : ℝ, 0 ≤ τ → τ ≤ 1 → |(f : ℝ) - τ| ≤ 17 * (4 * M / N) / 2 ^ 52 → Sc 17 (4 * M / N) (Fl.fin f : B64 sq hy) τ := fun τ τ0 τ1 h =>
    ⟨f, rfl, by rw [abs_of_nonneg τ0]; linarith, h⟩
  have sff := sf f g0 g1 (by rw [sub_self, abs_zero]; positivity)
  obtain ⟨u, u1, -⟩ := seg_along hM ha hb hab mN mM ha.1 hb.1 ha.2.2.1 hx sff
  obtain ⟨v, v1, -⟩ := seg_along hM ha hb hab mN mM ha.2.1 hb.2.1 ha.2.2.2 hy' sff
  refine ⟨f, ⟨u, v, 0, 0⟩, f1, fun h => absurd h c0.not_gt, fun h => absurd h c1.not_gt, fun _ _ => ?_, fun q hq => ⟨?_, fun h => low h q hq, fun h => high h q hq⟩⟩
  · unfold LineSeg.projectWith
    simp only [xB64, yB64]
    rw [u1, v1]; rfl
  · obtain ⟨τ, τ0, τ1, qx, qy, τ2, -, -⟩ := par q hq
    have st := sf τ τ0 τ1 ((τ2 f g0 g1).trans f3)
    obtain ⟨u', u1', u2⟩ := seg_along hM ha hb hab mN mM ha.1 hb.1 ha.2.2.1 hx st
    obtain ⟨v', v1', v2⟩ := seg_along hM ha hb hab mN mM ha.2.1 hb.2.1 ha.2.2.2 hy' st
    have e1 : u = u' := by rw [u1] at u1'; injection u1'
    have e2 : v = v' := by rw [v1] at v1'; injection v1'
    unfold CloseTo
    rw [qx, qy]
    dsimp only
    rw [e1, e2]
    exact ⟨u2, v2⟩

/-- C117: the projection of a segment on another: its ends are within `M / 2^45` of the points of the segment nearest to the projected ends; if there is no projection, both these
nearest points are that close to the same end of the segment. -/
theorem C117_project_segment {c d : Coord ℚ} (hc : Sized M c) (hd : Sized M d) (q r : Coord ℝ) (hq : Nearest (realPt c) q (realPt a) (realPt b))
    (hr : Nearest (realPt d) r (realPt a) (realPt b)) :
    ((⟨toB64 a, toB64 b⟩ : LineSeg (B64 sq hy)).projectSeg ⟨toB64 c, toB64 d⟩ = none ∧
      (CloseTo (M / 2 ^ 45) a q ∧ CloseTo (M / 2 ^ 45) a r ∨ CloseTo (M / 2 ^ 45) b q ∧ CloseTo (M / 2 ^ 45) b r)) ∨
    ∃ u v : Coord ℚ, (⟨toB64 a, toB64 b⟩ : LineSeg (B64 sq hy)).projectSeg ⟨toB64 c, toB64 d⟩ = some ⟨toB64 u, toB64 v⟩ ∧
      CloseTo (M / 2 ^ 45) u q ∧ CloseTo (M / 2 ^ 45) v r := by
  obtain ⟨f, u, f1, f2, f3, f4, f5⟩ := seg_end (sq := sq) (hy := hy) hM ha hb hab hc
  obtain ⟨g, v, g1, g2, g3, g4, g5⟩ := seg_end (sq := sq) (hy := hy) hM ha hb hab hd
  obtain ⟨q1, q2, q3⟩ := f5 q hq
  obtain ⟨r1, r2, r3⟩ := g5 r hr
  unfold LineSeg.projectSeg
  dsimp only
  rw [f1, g1, lit64, one64]
  simp only [show ∀ u v : ℚ, ((Fl.fin u : B64 sq hy) <. Fl.fin v) = decide (u < v) from fun _ _ => rfl,
    show ∀ u v : ℚ, ((Fl.fin u : B64 sq hy) ≤. Fl.fin v) = decide (u ≤ v) from fun _ _ => rfl, Bool.and_eq_true, decide_eq_true_eq]
  by_cases k1 : 1 ≤ f ∧ 1 ≤ g
  · left
    exact ⟨if_pos k1, Or.inr ⟨q3 k1.1, r3 k1.2⟩⟩
  by_cases k2 : f ≤ 0 ∧ g ≤ 0
  · left
    exact ⟨(if_neg k1).trans (if_pos k2), Or.inl ⟨q2 k2.1, r2 k2.2⟩⟩
  right
  refine ⟨u, v, ((if_neg k1).trans (if_neg k2)).trans ?_, q1, r1⟩
  have e1 : (if 1 < f then (toB64 b : Coord (B64 sq hy)) else if f < 0 then toB64 a else LineSeg.projectWith ⟨toB64 a, toB64 b⟩ (toB64 c) (Fl.fin f)) = toB64 u := by
    rcases lt_or_ge 1 f with h | h
    · rw [if_pos h, f3 h]
    · rw [if_neg h.not_gt]
      rcases lt_or_ge f 0 with h' | h'
      · rw [if_pos h', f2 h']
      · rw [if_neg h'.not_gt, f4 h' h]
  have e2 : (if g < 0 then (toB64 a : Coord (B64 sq hy)) else if 1 < g then toB64 b else LineSeg.projectWith ⟨toB64 a, toB64 b⟩ (toB64 d) (Fl.fin g)) = toB64 v := by
    rcases lt_or_ge g 0 with h | h
    · rw [if_pos h, g2 h]
    · rw [if_neg h.not_gt]
      rcases lt_or_ge 1 g with h' | h'
      · rw [if_pos h', g3 h']
      · rw [if_neg h'.not_gt, g4 h h']
  exact congrArg₂ (fun s t => some (LineSeg.ofCoords s t)) e1 e2

end seg

/-! ## Grids -/

/-- C117: on a grid of 16 bits each ordinate of the reflection is a double nearest to that of the mirror image. -/
theorem C117_reflect_grid {g : ℤ} (h1 : -200 ≤ g) (h2 : g ≤ 200) {p a b : Coord ℚ} (hp : OnGridB 16 g p) (ha : OnGridB 16 g a) (hb : OnGridB 16 g b)
    (hab : ¬ (a.x = b.x ∧ a.y = b.y)) :
    ∃ u : Coord ℚ, (⟨toB64 a, toB64 b⟩ : LineSeg (B64 sq hy)).reflect (toB64 p) = toB64 u ∧
      ∀ c, MirrorImage (realPt c) (realPt p) (realPt a) (realPt b) → NearestDouble u.x c.x ∧ NearestDouble u.y c.y := by
  have f : ∀ {k : ℕ} {i : ℤ} {x : ℚ}, OrdB k i x → k ≤ 53 → -1000 ≤ i → i ≤ 900 → IsF64 x := fun h a b c => ordB_f64 h a (by omega) c
  have two : OrdB 1 0 2 := ⟨2, by norm_num, by norm_num⟩
  have oa := hb.ordy.sub ha.ordy
  have ob := ha.ordx.sub hb.ordx
  have od := hb.ordx.sub ha.ordx
  have m1 := ha.ordy.mul od
  have m2 := ha.ordx.mul oa
  have oc := m1.sub m2
  have aa := oa.mul oa
  have bb := ob.mul ob
  have ol := aa.add bb
  have os := aa.sub bb
  have ta := two.mul oa
  have tb := two.mul ob
  rw [zero_add] at ta tb
  have tab := ta.mul ob
  have x1 := os.neg.mul hp.ordx
  have y1 := os.mul hp.ordy
  have x2 := tab.mul hp.ordy
  have y2 := tab.mul hp.ordx
  have x3 := ta.mul oc
  have y3 := tb.mul oc
  rw [← add_assoc g g g] at x3 y3
  have x12 := x1.sub x2
  have y12 := y1.sub y2
  have xn := x12.sub x3
  have yn := y12.sub y3
  have L0 : (b.y - a.y) * (b.y - a.y) + (a.x - b.x) * (a.x - b.x) ≠ 0 := by
    intro h
    have i1 := mul_self_nonneg (b.y - a.y)
    have i2 := mul_self_nonneg (a.x - b.x)
    have j1 : (b.y - a.y) * (b.y - a.y) = 0 := by linarith
    have j2 : (a.x - b.x) * (a.x - b.x) = 0 := by linarith
    have k1 := mul_self_eq_zero.mp j1
    have k2 := mul_self_eq_zero.mp j2
    exact hab ⟨by linarith, by linarith⟩
  obtain ⟨u, u1, u2, -⟩ := quot_nearest (sq := sq) (hy := hy) (by push_cast; omega) (by push_cast; omega) xn ol L0
  obtain ⟨v, v1, v2, -⟩ := quot_nearest (sq := sq) (hy := hy) (by push_cast; omega) (by push_cast; omega) yn ol L0
  refine ⟨⟨u, v, 0, 0⟩, ?_, ?_⟩
  · unfold LineSeg.reflect
    simp only [xB64, yB64]
    rw [lit64_two', sub_fin (f oa (by omega) (by omega) (by omega)), sub_fin (f ob (by omega) (by omega) (by omega)), sub_fin (f od (by omega) (by omega) (by omega)),
      mul_fin (f m1 (by omega) (by omega) (by omega)), mul_fin (f m2 (by omega) (by omega) (by omega)), sub_fin (f oc (by omega) (by omega) (by omega)),
      mul_fin (f aa (by omega) (by omega) (by omega)), mul_fin (f bb (by omega) (by omega) (by omega)), add_fin (f ol (by omega) (by omega) (by omega)),
      sub_fin (f os (by omega) (by omega) (by omega)), mul_fin (f ta (by omega) (by omega) (by omega)), mul_fin (f tb (by omega) (by omega) (by omega)),
      mul_fin (f tab (by omega) (by omega) (by omega)),
      show -.(Fl.fin ((b.y - a.y) * (b.y - a.y) - (a.x - b.x) * (a.x - b.x)) : B64 sq hy) = Fl.fin (-((b.y - a.y) * (b.y - a.y) - (a.x - b.x) * (a.x - b.x))) from rfl,
      mul_fin (f x1 (by omega) (by omega) (by omega)), mul_fin (f y1 (by omega) (by omega) (by omega)),
      mul_fin (f x2 (by omega) (by omega) (by omega)), mul_fin (f y2 (by omega) (by omega) (by omega)),
      mul_fin (f x3 (by omega) (by omega) (by omega)), mul_fin (f y3 (by omega) (by omega) (by omega)),
      sub_fin (f x12 (by omega) (by omega) (by omega)), sub_fin (f y12 (by omega) (by omega) (by omega)),
      sub_fin (f xn (by omega) (by omega) (by omega)), sub_fin (f yn (by omega) (by omega) (by omega)), u1, v1]
    rfl
  · rintro c ⟨m, ⟨⟨t, tx, ty⟩, pm⟩, qx, qy⟩
    dsimp only [realPt] at tx ty pm qx qy
    rw [tx, ty] at pm
    rw [tx] at qx
    rw [ty] at qy
    have hqx : (c.x : ℝ) = 2 * (a.x + t * (b.x - a.x)) - p.x := by linarith
    have hqy : (c.y : ℝ) = 2 * (a.y + t * (b.y - a.y)) - p.y := by linarith
    have ex : c.x = (-((b.y - a.y) * (b.y - a.y) - (a.x - b.x) * (a.x - b.x)) * p.x - 2 * (b.y - a.y) * (a.x - b.x) * p.y -
        2 * (b.y - a.y) * (a.y * (b.x - a.x) - a.x * (b.y - a.y))) / ((b.y - a.y) * (b.y - a.y) + (a.x - b.x) * (a.x - b.x)) := by
      rw [eq_div_iff L0]
      have : (c.x : ℝ) * ((b.y - a.y) * (b.y - a.y) + (a.x - b.x) * (a.x - b.x)) = (-((b.y - a.y) * (b.y - a.y) - (a.x - b.x) * (a.x - b.x)) * p.x - 2 * (b.y - a.y) * (a.x - b.x) * p.y -
          2 * (b.y - a.y) * (a.y * (b.x - a.x) - a.x * (b.y - a.y))) := by
        rw [hqx]
        linear_combination (-2 * ((b.x : ℝ) - a.x)) * pm
      exact_mod_cast this
    have ey : c.y = (((b.y - a.y) * (b.y - a.y) - (a.x - b.x) * (a.x - b.x)) * p.y - 2 * (b.y - a.y) * (a.x - b.x) * p.x -
        2 * (a.x - b.x) * (a.y * (b.x - a.x) - a.x * (b.y - a.y))) / ((b.y - a.y) * (b.y - a.y) + (a.x - b.x) * (a.x - b.x)) := by
      rw [eq_div_iff L0]
      have : (c.y : ℝ) * ((b.y - a.y) * (b.y - a.y) + (a.x - b.x) * (a.x - b.x)) = (((b.y - a.y) * (b.y - a.y) - (a.x - b.x) * (a.x - b.x)) * p.y - 2 * (b.y - a.y) * (a.x - b.x) * p.x -
          2 * (a.x - b.x) * (a.y * (b.x - a.x) - a.x * (b.y - a.y))) := by
        rw [hqy]
        linear_combination (-2 * ((b.y : ℝ) - a.y)) * pm
      exact_mod_cast this
    rw [ex, ey]
    exact ⟨u2, v2⟩

/-- C117: on a grid of 24 bits the signed distance to the line of a segment is positive exactly on the left and negative exactly on the right, and within the errors of the square root
and two roundings of the distance to the line. -/
theorem C117_signed_distance {g : ℤ} (h1 : -484 ≤ g) (h2 : g ≤ 400) {ε : ℝ} (lib : Lib64 sq hy ε) {p a b : Coord ℚ} (hp : OnGridB 24 g p) (ha : OnGridB 24 g a) (hb : OnGridB 24 g b)
    (hab : ¬ (a.x = b.x ∧ a.y = b.y)) :
    ∃ v : ℚ, (⟨toB64 a, toB64 b⟩ : LineSeg (B64 sq hy)).distancePerpendicularOriented (toB64 p) = Fl.fin v ∧
      (⟨toB64 a, toB64 b⟩ : LineSeg (B64 sq hy)).distancePerpendicular (toB64 p) = Fl.fin |v| ∧ (0 < v ↔ 0 < det a b p) ∧ (v < 0 ↔ det a b p < 0) ∧
      ∀ D, LeastDist (realPt p) (fun c => OnInfLine c (realPt a) (realPt b)) D → |((|v| : ℚ) : ℝ) - D| ≤ ((1 + ε) * (1 + 1 / 2 ^ 53) ^ 2 - 1) * D := by
  obtain ⟨v, e1, e2, s1, s2, acc⟩ := C90_line h1 h2 lib hp ha hb hab
  have idx : (⟨toB64 a, toB64 b⟩ : LineSeg (B64 sq hy)).orientation (toB64 p) = sgn (det a b p) :=
    C65_index_on_grid g h1 h2 a b p (ha.mono (show 24 ≤ 52 by omega)) (hb.mono (show 24 ≤ 52 by omega)) (hp.mono (show 24 ≤ 52 by omega))
  have ne : (toB64 a : Coord (B64 sq hy)).equals2D (toB64 b) = false := by rw [toB64_equals]; simpa using hab
  have dp : (⟨toB64 a, toB64 b⟩ : LineSeg (B64 sq hy)).distancePerpendicular (toB64 p) = Fl.fin |v| := by
    unfold LineSeg.distancePerpendicular
    rw [if_neg (by rw [ne]; decide)]
    exact e2
  refine ⟨-v, ?_, by rw [abs_neg]; exact dp, by rw [neg_pos]; exact s2, by rw [neg_lt_zero]; exact s1, fun D hD => by rw [abs_neg]; exact acc D hD⟩
  unfold LineSeg.distancePerpendicularOriented
  rw [if_neg (by rw [ne]; decide)]
  dsimp only
  rw [idx, dp]
  by_cases h : det a b p < 0
  · rw [if_pos (by unfold sgn; rw [if_neg h.not_gt, if_pos h]; decide)]
    show Fl.fin (-|v|) = _
    rw [abs_of_pos (s1.mpr h)]
  · rw [if_neg (by unfold sgn; rw [if_neg h]; split_ifs <;> decide), abs_of_nonpos (not_lt.mp fun k => h (s1.mp k))]

/-! Examples: the segment from (1, 2) to (4, 6), of length 5. -/

theorem within_seg : Sized 8 ⟨1, 2, 0, 0⟩ ∧ Sized 8 ⟨4, 6, 0, 0⟩ ∧ Sized 8 ⟨8, 1, 0, 0⟩ := by
  refine ⟨⟨f64_of (by decide +kernel), f64_of (by decide +kernel), ?_, ?_⟩, ⟨f64_of (by decide +kernel), f64_of (by decide +kernel), ?_, ?_⟩,
    ⟨f64_of (by decide +kernel), f64_of (by decide +kernel), ?_, ?_⟩⟩ <;> norm_num

example : (8 : ℝ) ≤ 2 ^ 200 := by
  calc (8 : ℝ) = 2 ^ 3 := by norm_num
    _ ≤ 2 ^ 200 := pow_le_pow_right₀ (by norm_num) (by norm_num)
example : (1 : ℝ) / 2 ^ 200 ≤ |((4 : ℚ) : ℝ) - ((1 : ℚ) : ℝ)| := by
  have : (1 : ℝ) / 2 ^ 200 ≤ 1 := by rw [div_le_one (by positivity)]; exact one_le_pow₀ (by norm_num)
  norm_num at this ⊢
example : Foot ⟨88 / 25, 134 / 25, 0, 0⟩ (realPt ⟨8, 2, 0, 0⟩) (realPt ⟨1, 2, 0, 0⟩) (realPt ⟨4, 6, 0, 0⟩) :=
  ⟨⟨21 / 25, by simp [realPt]; norm_num, by simp [realPt]; norm_num⟩, by simp [realPt]; norm_num⟩
example : MirrorImage ⟨-24 / 25, 218 / 25, 0, 0⟩ (realPt ⟨8, 2, 0, 0⟩) (realPt ⟨1, 2, 0, 0⟩) (realPt ⟨4, 6, 0, 0⟩) :=
  ⟨⟨88 / 25, 134 / 25, 0, 0⟩, ⟨⟨21 / 25, by simp [realPt]; norm_num, by simp [realPt]; norm_num⟩, by simp [realPt]; norm_num⟩, by simp [realPt]; norm_num, by simp [realPt]; norm_num⟩
example : OffsetPoint ⟨1 / 2 * 3 + 1 - 8, 4 + 6, 0, 0⟩ (1 / 2) 10 (realPt ⟨1, 2, 0, 0⟩) (realPt ⟨4, 6, 0, 0⟩) := by
  have : dist (realPt ⟨1, 2, 0, 0⟩) (realPt ⟨4, 6, 0, 0⟩) = 5 := by
    show √((((1 : ℚ) : ℝ) - ((4 : ℚ) : ℝ)) ^ 2 + (((2 : ℚ) : ℝ) - ((6 : ℚ) : ℝ)) ^ 2) = 5
    rw [show (((1 : ℚ) : ℝ) - ((4 : ℚ) : ℝ)) ^ 2 + (((2 : ℚ) : ℝ) - ((6 : ℚ) : ℝ)) ^ 2 = 5 ^ 2 by norm_num]
    exact Real.sqrt_sq (by norm_num)
  refine ⟨by simp [realPt]; norm_num, ?_⟩
  rw [this]
  simp [det, realPt]; norm_num
example : (⟨toB64 ⟨1, 2, 0, 0⟩, toB64 ⟨4, 6, 0, 0⟩⟩ : LineSeg X64).reflect (toB64 ⟨8, 2, 0, 0⟩) ≠ toB64 ⟨8, 2, 0, 0⟩ := by
  decide +kernel

end Verif.Props
