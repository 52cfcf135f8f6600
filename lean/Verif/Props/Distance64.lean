import Verif.Props.SegmentDistance
import Verif.Props.Area64
import Verif.Props.Length64

/-! # C90: distances of grid points to segments in binary64 -/

set_option linter.unusedSectionVars false

namespace Verif.Props
open Flt Verif.Spec Verif.Binary64
variable {sq : ℚ → Val} {hy : ℚ → ℚ → Val}

local notation "R" => (Fl.round (r := binary64 sq hy))

/-- Library functions `sqrt` and `hypot` with a relative error of at most `ε`, away from underflow and overflow. -/
structure Lib64 (sq : ℚ → Val) (hy : ℚ → ℚ → Val) (ε : ℝ) : Prop where
  nonneg : 0 ≤ ε
  le_half : ε ≤ 1 / 2
  sqrt : ∀ a : ℚ, IsF64 a → 2 ^ (-1022 : ℤ) ≤ a → ∃ v : ℚ, sq a = .fin v ∧ |(v : ℝ) - √(a : ℝ)| ≤ ε * √(a : ℝ)
  zero : hy 0 0 = .fin 0
  hypot : ∀ a b : ℚ, IsF64 a → IsF64 b → |a| ≤ 2 ^ (1000 : ℤ) → |b| ≤ 2 ^ (1000 : ℤ) → (2 ^ (-1022 : ℤ) ≤ |a| ∨ 2 ^ (-1022 : ℤ) ≤ |b|) →
    ∃ v : ℚ, hy a b = .fin v ∧ |(v : ℝ) - √((a : ℝ) ^ 2 + (b : ℝ) ^ 2)| ≤ ε * √((a : ℝ) ^ 2 + (b : ℝ) ^ 2)

/-! ## Exact operations on the grid -/

theorem OrdB.neg {k : ℕ} {g : ℤ} {x : ℚ} (h : OrdB k g x) : OrdB k g (-x) := by
  obtain ⟨m, hm, rfl⟩ := h
  exact ⟨-m, by rwa [abs_neg], by push_cast; ring⟩

theorem OrdB.add {k : ℕ} {g : ℤ} {x y : ℚ} (h : OrdB k g x) (h' : OrdB k g y) : OrdB (k + 1) g (x + y) := by
  obtain ⟨m, hm, rfl⟩ := h
  obtain ⟨n, hn, rfl⟩ := h'
  refine ⟨m + n, ?_, by push_cast; ring⟩
  rw [pow_succ]
  have := abs_add_le m n
  linarith

theorem OrdB.sub {k : ℕ} {g : ℤ} {x y : ℚ} (h : OrdB k g x) (h' : OrdB k g y) : OrdB (k + 1) g (x - y) := by
  rw [sub_eq_add_neg]; exact h.add h'.neg

theorem OrdB.mul {j k : ℕ} {g h : ℤ} {x y : ℚ} (hx : OrdB j g x) (hy : OrdB k h y) : OrdB (j + k) (g + h) (x * y) := by
  obtain ⟨m, hm, rfl⟩ := hx
  obtain ⟨n, hn, rfl⟩ := hy
  refine ⟨m * n, ?_, by push_cast; rw [two_add]; ring⟩
  rw [abs_mul, pow_add]
  exact mul_le_mul hm hn (abs_nonneg _) (by positivity)

theorem sub_fin {x y : ℚ} (h : IsF64 (x - y)) : (Fl.fin x : B64 sq hy) -. Fl.fin y = Fl.fin (x - y) :=
  (show _ = R (x + -y) from rfl).trans (by rw [← sub_eq_add_neg]; exact fin_of h)
theorem add_fin {x y : ℚ} (h : IsF64 (x + y)) : (Fl.fin x : B64 sq hy) +. Fl.fin y = Fl.fin (x + y) := fin_of h
theorem mul_fin {x y : ℚ} (h : IsF64 (x * y)) : (Fl.fin x : B64 sq hy) *. Fl.fin y = Fl.fin (x * y) := fin_of h

/-- Twice a product of differences: what the code computes from ordinates of 24 bits has 51 bits. -/
theorem ord_sum {g : ℤ} {a b c d e f i j : ℚ} (ha : OrdB 24 g a) (hb : OrdB 24 g b) (hc : OrdB 24 g c) (hd : OrdB 24 g d) (he : OrdB 24 g e)
    (hf : OrdB 24 g f) (hi : OrdB 24 g i) (hj : OrdB 24 g j) :
    OrdB 51 (g + g) ((a - b) * (c - d) + (e - f) * (i - j)) ∧ OrdB 51 (g + g) ((a - b) * (c - d) - (e - f) * (i - j)) :=
  ⟨((ha.sub hb).mul (hc.sub hd)).add ((he.sub hf).mul (hi.sub hj)), ((ha.sub hb).mul (hc.sub hd)).sub ((he.sub hf).mul (hi.sub hj))⟩

theorem sum_fin {g : ℤ} (h1 : -484 ≤ g) (h2 : g ≤ 400) {a b c d e f i j : ℚ} (ha : OrdB 24 g a) (hb : OrdB 24 g b) (hc : OrdB 24 g c) (hd : OrdB 24 g d)
    (he : OrdB 24 g e) (hf : OrdB 24 g f) (hi : OrdB 24 g i) (hj : OrdB 24 g j) :
    ((Fl.fin a : B64 sq hy) -. Fl.fin b) *. (Fl.fin c -. Fl.fin d) +. (Fl.fin e -. Fl.fin f) *. (Fl.fin i -. Fl.fin j) = Fl.fin ((a - b) * (c - d) + (e - f) * (i - j)) ∧
    ((Fl.fin a : B64 sq hy) -. Fl.fin b) *. (Fl.fin c -. Fl.fin d) -. (Fl.fin e -. Fl.fin f) *. (Fl.fin i -. Fl.fin j) = Fl.fin ((a - b) * (c - d) - (e - f) * (i - j)) := by
  have f1 : ∀ {x y : ℚ}, OrdB 24 g x → OrdB 24 g y → (Fl.fin x : B64 sq hy) -. Fl.fin y = Fl.fin (x - y) := fun hx hy =>
    sub_fin (ordB_f64 (hx.sub hy) (by omega) (by omega) (by omega))
  have o := ord_sum ha hb hc hd he hf hi hj
  rw [f1 ha hb, f1 hc hd, f1 he hf, f1 hi hj, mul_fin (ordB_f64 ((ha.sub hb).mul (hc.sub hd)) (by omega) (by omega) (by omega)),
    mul_fin (ordB_f64 ((he.sub hf).mul (hi.sub hj)) (by omega) (by omega) (by omega))]
  exact ⟨add_fin (ordB_f64 o.1 (by omega) (by omega) (by omega)), sub_fin (ordB_f64 o.2 (by omega) (by omega) (by omega))⟩

/-! ## Ratios -/

theorem f64_near1 (s : ℚ) (hs : s = 1 ∨ s = -1) : Rep (1 + s * 2 ^ (-51 : ℤ)) ∧ Rep (2 ^ (-51 : ℤ) : ℚ) ∧ Rep (1 : ℚ) := by
  rcases hs with rfl | rfl
  · exact ⟨(f64_of (by decide +kernel)).1, (f64_of (by decide +kernel)).1, (f64_of (by decide +kernel)).1⟩
  · exact ⟨(f64_of (by decide +kernel)).1, (f64_of (by decide +kernel)).1, (f64_of (by decide +kernel)).1⟩

/-- A quotient of two numbers of 51 bits on the same grid is rounded to the right side of 0 and 1. -/
theorem ratio64 {h : ℤ} {n d : ℚ} (hn : OrdB 51 h n) (hd : OrdB 51 h d) (d0 : d ≠ 0) :
    (Fl.fin n : B64 sq hy) /. Fl.fin d = Fl.fin (near (n / d)) ∧ |near (n / d) - n / d| ≤ |n / d| / 2 ^ 53 ∧ (n = 0 ∨ 2 ^ (-51 : ℤ) ≤ |n / d|) ∧ |n / d| ≤ 2 ^ 51 ∧
    (near (n / d) ≤ 0 ↔ n / d ≤ 0) ∧ (near (n / d) < 0 ↔ n / d < 0) ∧ (1 ≤ near (n / d) ↔ 1 ≤ n / d) ∧ (1 < near (n / d) ↔ 1 < n / d) := by
  obtain ⟨N, hN, rfl⟩ := hn
  obtain ⟨M, hM, rfl⟩ := hd
  have hp := two_pos h
  have M0 : M ≠ 0 := by rintro rfl; exact d0 (by simp)
  have e : (N : ℚ) * 2 ^ h / (M * 2 ^ h) = N / M := mul_div_mul_right _ _ hp.ne'
  have M1 : (1 : ℚ) ≤ |(M : ℚ)| := by exact_mod_cast Int.one_le_abs M0
  have M2 : |(M : ℚ)| ≤ 2 ^ 51 := by exact_mod_cast hM
  have N2 : |(N : ℚ)| ≤ 2 ^ 51 := by exact_mod_cast hN
  have M0q : (M : ℚ) ≠ 0 := by exact_mod_cast M0
  have t51 : (2 : ℚ) ^ (-51 : ℤ) = 1 / 2 ^ 51 := by rw [zpow_neg, one_div]; rfl
  have low : ∀ K : ℤ, K ≠ 0 → 2 ^ (-51 : ℤ) ≤ |(K : ℚ) / M| := by
    intro K hK
    have K1 : (1 : ℚ) ≤ |(K : ℚ)| := by exact_mod_cast Int.one_le_abs hK
    rw [abs_div, t51, div_le_div_iff₀ (by positivity) (by linarith)]
    nlinarith
  have a1 : (N : ℚ) = 0 ∨ 2 ^ (-51 : ℤ) ≤ |(N : ℚ) / M| := by
    by_cases hN0 : N = 0
    · exact Or.inl (by exact_mod_cast hN0)
    · exact Or.inr (low N hN0)
  have a2 : (N : ℚ) / M = 1 ∨ 2 ^ (-51 : ℤ) ≤ |(N : ℚ) / M - 1| := by
    by_cases hN0 : N - M = 0
    · left; rw [show N = M by omega, div_self M0q]
    · right
      have := low (N - M) hN0
      rwa [show (((N - M : ℤ) : ℚ)) / M = N / M - 1 by push_cast; field_simp] at this
  have a3 : |(N : ℚ) / M| ≤ 2 ^ 51 := by
    rw [abs_div, div_le_iff₀ (by linarith)]
    nlinarith
  rw [e]
  generalize hq : (N : ℚ) / M = q at *
  have r1 := f64_near1 1 (Or.inl rfl)
  have r2 := f64_near1 (-1) (Or.inr rfl)
  have z0 := near_of_rep rep_zero
  have z1 := near_of_rep r1.2.2
  have zp := near_of_rep r1.2.1
  have zm := near_of_rep r1.2.1.neg
  have z1p := near_of_rep r1.1
  have z1m := near_of_rep r2.1
  have h51 := two_pos (-51)
  have q0 : (N : ℚ) = 0 → q = 0 := fun h => by rw [← hq, h, zero_div]
  have err : |near q - q| ≤ |q| / 2 ^ 53 := by
    rcases a1 with h | h
    · rw [q0 h, z0]; simp
    · rw [abs_sub_comm]
      exact near_rel q (le_trans (two_mono (by norm_num)) h)
  have fin : (Fl.fin ((N : ℚ) * 2 ^ h) : B64 sq hy) /. Fl.fin (M * 2 ^ h) = Fl.fin (near q) := by
    refine div_fin64 d0 (by rw [e]) ?_
    have : |near q| ≤ 2 * 2 ^ 51 := by
      have := abs_sub_abs_le_abs_sub (near q) q
      have h0 := abs_nonneg q
      have : |q| / 2 ^ 53 ≤ |q| := div_le_self h0 (by norm_num)
      linarith
    refine lt_of_le_of_lt this ?_
    rw [← pow_succ']
    exact pow_lt_pow_right₀ (by norm_num) (by norm_num)
  refine ⟨fin, err, ?_, a3, ?_, ?_, ?_, ?_⟩
  · rcases a1 with h | h
    · left; rw [h, zero_mul]
    · exact Or.inr h
  · constructor
    · intro hh; by_contra hc; push Not at hc
      rcases a1 with h | h
      · exact absurd (q0 h) hc.ne'
      · rw [abs_of_pos hc] at h
        have := near_mono h
        rw [zp] at this; linarith
    · intro hh; have := near_mono hh; rwa [z0] at this
  · constructor
    · intro hh; by_contra hc; push Not at hc
      have := near_mono hc
      rw [z0] at this; linarith
    · intro hc
      rcases a1 with h | h
      · exact absurd (q0 h) hc.ne
      · rw [abs_of_neg hc] at h
        have := near_mono (show q ≤ -2 ^ (-51 : ℤ) by linarith)
        rw [zm] at this; linarith
  · constructor
    · intro hh; by_contra hc; push Not at hc
      rcases a2 with h | h
      · exact absurd h hc.ne
      · rw [abs_of_neg (by linarith)] at h
        have := near_mono (show q ≤ 1 + -1 * 2 ^ (-51 : ℤ) by linarith)
        rw [z1m] at this; linarith
    · intro hh; have := near_mono hh; rwa [z1] at this
  · constructor
    · intro hh; by_contra hc; push Not at hc
      have := near_mono hc
      rw [z1] at this; linarith
    · intro hc
      rcases a2 with h | h
      · exact absurd h hc.ne'
      · rw [abs_of_pos (by linarith)] at h
        have := near_mono (show 1 + 1 * 2 ^ (-51 : ℤ) ≤ q by linarith)
        rw [z1p] at this; linarith

/-! ## Distances -/

/-- Inner product of `ap` and `ab`, squared length of `ab`, and cross product. -/
def dotN (p a b : Coord ℚ) : ℚ := (p.x - a.x) * (b.x - a.x) + (p.y - a.y) * (b.y - a.y)
def len2Q (a b : Coord ℚ) : ℚ := (b.x - a.x) * (b.x - a.x) + (b.y - a.y) * (b.y - a.y)
def crossC (p a b : Coord ℚ) : ℚ := (a.y - p.y) * (b.x - a.x) - (a.x - p.x) * (b.y - a.y)

/-- The relative error of a distance. -/
noncomputable def distErr (ε : ℝ) : ℝ := (1 + ε) * (1 + 1 / 2 ^ 53) ^ 2 - 1

theorem distErr_bounds {ε : ℝ} (h0 : 0 ≤ ε) (h1 : ε ≤ 1 / 2) : ε ≤ distErr ε ∧ distErr ε < 1 := by
  unfold distErr
  constructor <;> norm_num <;> nlinarith

/-- The computed distance `x` is close to the true distance `D`. -/
def DistOk (ε : ℝ) (x : B64 sq hy) (D : ℝ) : Prop := ∃ v : ℚ, x = Fl.fin v ∧ |(v : ℝ) - D| ≤ distErr ε * D

theorem distOk_zero {ε : ℝ} (h0 : 0 ≤ ε) (h1 : ε ≤ 1 / 2) {v : ℚ} {D : ℝ} (hD : 0 ≤ D) (h : |(v : ℝ) - D| ≤ distErr ε * D) : 0 ≤ v ∧ (v = 0 ↔ D = 0) := by
  have := distErr_bounds h0 h1
  have k := abs_le.mp h
  have m : distErr ε * D ≤ D := by nlinarith
  have v0 : (0 : ℝ) ≤ v := by linarith
  refine ⟨by exact_mod_cast v0, fun e => ?_, fun e => ?_⟩
  · rw [e, Rat.cast_zero] at k
    by_contra hc
    have : 0 < D := lt_of_le_of_ne hD (Ne.symm hc)
    nlinarith
  · rw [e, mul_zero, sub_zero] at h
    have := abs_eq_zero.mp (le_antisymm h (abs_nonneg _))
    exact_mod_cast this

theorem ord_abs {k : ℕ} {g : ℤ} {x : ℚ} (h : OrdB k g x) : |x| ≤ 2 ^ ((k : ℤ) + g) ∧ (x = 0 ∨ 2 ^ g ≤ |x|) := by
  obtain ⟨m, hm, rfl⟩ := h
  have hp := two_pos g
  rw [abs_mul, abs_of_pos hp, two_add, zpow_natCast]
  refine ⟨mul_le_mul_of_nonneg_right (by exact_mod_cast hm) hp.le, ?_⟩
  by_cases h0 : m = 0
  · left; simp [h0]
  · right
    have : (1 : ℚ) ≤ |(m : ℚ)| := by exact_mod_cast Int.one_le_abs h0
    nlinarith

theorem grid_dist {g : ℤ} (h1 : -484 ≤ g) (h2 : g ≤ 400) {ε : ℝ} (lib : Lib64 sq hy ε) {p a : Coord ℚ} (hp : OnGridB 24 g p) (ha : OnGridB 24 g a) :
    DistOk ε (Coord.distance (toB64 p : Coord (B64 sq hy)) (toB64 a)) (dist (realPt p) (realPt a)) := by
  obtain ⟨m, n, hm, hn, hx, hy'⟩ := hp
  obtain ⟨m', n', hm', hn', hx', hy''⟩ := ha
  have ox := OrdB.sub (⟨m, hm, hx⟩ : OrdB 24 g p.x) (⟨m', hm', hx'⟩ : OrdB 24 g a.x)
  have oy := OrdB.sub (⟨n, hn, hy'⟩ : OrdB 24 g p.y) (⟨n', hn', hy''⟩ : OrdB 24 g a.y)
  have fx := ordB_f64 ox (by omega) (by omega) (by omega)
  have fy := ordB_f64 oy (by omega) (by omega) (by omega)
  have e : Coord.distance (toB64 p : Coord (B64 sq hy)) (toB64 a) = hy (p.x - a.x) (p.y - a.y) := by
    show FltSqrt.hypot ((Fl.fin p.x : B64 sq hy) -. Fl.fin a.x) ((Fl.fin p.y : B64 sq hy) -. Fl.fin a.y) = _
    rw [sub_fin fx, sub_fin fy]
    rfl
  have ed : dist (realPt p) (realPt a) = √(((p.x - a.x : ℚ) : ℝ) ^ 2 + ((p.y - a.y : ℚ) : ℝ) ^ 2) := by
    unfold Spec.dist realPt
    push_cast
    rfl
  unfold DistOk
  rw [e, ed]
  have b := distErr_bounds lib.nonneg lib.le_half
  obtain ⟨bx, lx⟩ := ord_abs ox
  obtain ⟨by', ly⟩ := ord_abs oy
  by_cases h0 : p.x - a.x = 0 ∧ p.y - a.y = 0
  · refine ⟨0, by rw [h0.1, h0.2]; exact lib.zero, ?_⟩
    rw [h0.1, h0.2]; simp
  · have big : 2 ^ (-1022 : ℤ) ≤ |p.x - a.x| ∨ 2 ^ (-1022 : ℤ) ≤ |p.y - a.y| := by
      have t : (2 : ℚ) ^ (-1022 : ℤ) ≤ 2 ^ g := two_mono (by omega)
      rcases lx with lx | lx
      · rcases ly with ly | ly
        · exact (h0 ⟨lx, ly⟩).elim
        · exact Or.inr (t.trans ly)
      · exact Or.inl (t.trans lx)
    obtain ⟨v, hv, hve⟩ := lib.hypot _ _ fx fy (bx.trans (two_mono (by push_cast; omega))) (by'.trans (two_mono (by push_cast; omega))) big
    exact ⟨v, hv, hve.trans (mul_le_mul_of_nonneg_right b.1 (Real.sqrt_nonneg _))⟩

theorem rel_mul {x y x' y' α β : ℝ} (hx : 0 ≤ x) (hy : 0 ≤ y) (hα : 0 ≤ α) (h1 : |x' - x| ≤ α * x) (h2 : |y' - y| ≤ β * y) :
    |x' * y' - x * y| ≤ ((1 + α) * (1 + β) - 1) * (x * y) := by
  have e : x' * y' - x * y = (x' - x) * (y' - y) + (x' - x) * y + x * (y' - y) := by ring
  rw [e]
  have t1 : |(x' - x) * (y' - y)| ≤ (α * x) * (β * y) := by
    rw [abs_mul]; exact mul_le_mul h1 h2 (abs_nonneg _) (by positivity)
  have t2 : |(x' - x) * y| ≤ (α * x) * y := by rw [abs_mul, abs_of_nonneg hy]; exact mul_le_mul_of_nonneg_right h1 hy
  have t3 : |x * (y' - y)| ≤ x * (β * y) := by rw [abs_mul, abs_of_nonneg hx]; exact mul_le_mul_of_nonneg_left h2 hx
  have := abs_add_le ((x' - x) * (y' - y) + (x' - x) * y) (x * (y' - y))
  have := abs_add_le ((x' - x) * (y' - y)) ((x' - x) * y)
  linarith

/-- The product of the rounded quotient with the square root. -/
theorem perp64 {g : ℤ} (h1 : -484 ≤ g) (h2 : g ≤ 400) {ε : ℝ} (lib : Lib64 sq hy ε) {C L : ℚ} (hC : OrdB 51 (g + g) C) (hL : OrdB 51 (g + g) L) (L0 : 0 < L) :
    ∃ v : ℚ, ((Fl.fin C : B64 sq hy) /. Fl.fin L) *. FltSqrt.sqrt (Fl.fin L) = Fl.fin v ∧ Flt.abs ((Fl.fin C : B64 sq hy) /. Fl.fin L) *. FltSqrt.sqrt (Fl.fin L) = Fl.fin |v| ∧
      (0 < v ↔ 0 < C) ∧ (v < 0 ↔ C < 0) ∧ |((|v| : ℚ) : ℝ) - |((C / L : ℚ) : ℝ)| * √(L : ℝ)| ≤ distErr ε * (|((C / L : ℚ) : ℝ)| * √(L : ℝ)) := by
  obtain ⟨eq, err, low, high, -⟩ := ratio64 (sq := sq) (hy := hy) hC hL L0.ne'
  obtain ⟨bL, lL⟩ := ord_abs hL
  rw [abs_of_pos L0] at bL lL
  have lL : 2 ^ (g + g) ≤ L := lL.resolve_left L0.ne'
  obtain ⟨w, hw, hwe⟩ := lib.sqrt L (ordB_f64 hL (by omega) (by omega) (by omega)) ((two_mono (by omega)).trans lL)
  have hsq : FltSqrt.sqrt (Fl.fin L : B64 sq hy) = Fl.fin w := by
    refine Eq.trans (b := if L < 0 then (Val.nan : Val) else sq L) rfl ?_
    rw [if_neg (not_lt.mpr L0.le), hw]
  have s1 : (2 : ℝ) ^ g ≤ √(L : ℝ) := by
    apply Real.le_sqrt_of_sq_le
    have : ((2 ^ (g + g) : ℚ) : ℝ) ≤ L := by exact_mod_cast lL
    push_cast at this
    rwa [zpow_add₀ (by norm_num), ← pow_two] at this
  have s2 : √(L : ℝ) ≤ 2 ^ (g + 26) := by
    rw [Real.sqrt_le_left (zpow_pos (by norm_num) _).le]
    have : (L : ℝ) ≤ ((2 ^ ((51 : ℕ) + (g + g)) : ℚ) : ℝ) := by exact_mod_cast bL
    push_cast at this
    refine this.trans ?_
    rw [← zpow_natCast, ← zpow_mul]
    apply zpow_le_zpow_right₀ (by norm_num)
    push_cast; omega
  have gp : (0 : ℝ) < 2 ^ g := zpow_pos (by norm_num) _
  have k := abs_le.mp hwe
  have n0 := lib.nonneg
  have n1 := lib.le_half
  have w1 : (2 : ℝ) ^ (g - 1) ≤ w := by
    rw [zpow_sub_one₀ (by norm_num)]
    nlinarith
  have w2 : (w : ℝ) ≤ 2 ^ (g + 27) := by
    rw [show g + 27 = g + 26 + 1 by ring, zpow_add_one₀ (by norm_num)]
    nlinarith
  have w1 : (2 : ℚ) ^ (g - 1) ≤ w := by
    have : (((2 : ℚ) ^ (g - 1) : ℚ) : ℝ) ≤ w := by push_cast; exact w1
    exact_mod_cast this
  have w2 : w ≤ (2 : ℚ) ^ (g + 27) := by
    have : (w : ℝ) ≤ (((2 : ℚ) ^ (g + 27) : ℚ) : ℝ) := by push_cast; exact w2
    exact_mod_cast this
  have w0 : 0 < w := (two_pos _).trans_le w1
  have CL0 : (0 < C / L ↔ 0 < C) ∧ (C / L < 0 ↔ C < 0) := ⟨div_pos_iff_of_pos_right L0, by rw [div_lt_iff₀ L0, zero_mul]⟩
  have zq : C = 0 → near (C / L) = 0 := fun h => by rw [h, zero_div, near_of_rep rep_zero]
  rw [eq, hsq]
  generalize hq : C / L = q at *
  generalize near q = s at *
  have ed : |s - q| ≤ |q| / 2 := err.trans (div_le_div_of_nonneg_left (abs_nonneg q) (by norm_num) (by norm_num))
  have es := abs_le.mp ed
  -- the product
  have prod : (C = 0 ∧ s = 0) ∨ 2 ^ (-1022 : ℤ) ≤ |s * w| := by
    rcases low with h | h
    · exact Or.inl ⟨h, zq h⟩
    · right
      have : (2 : ℚ) ^ (-52 : ℤ) ≤ |s| := by
        have e1 : (2 : ℚ) ^ (-51 : ℤ) = 2 ^ (-52 : ℤ) * 2 := by rw [show (-51 : ℤ) = -52 + 1 by norm_num, two_add, zpow_one]
        have := abs_sub_abs_le_abs_sub q s
        rw [abs_sub_comm] at this
        linarith
      rw [abs_mul, abs_of_pos w0]
      calc (2 : ℚ) ^ (-1022 : ℤ) ≤ 2 ^ (-52 + (g - 1) : ℤ) := two_mono (by omega)
        _ = 2 ^ (-52 : ℤ) * 2 ^ (g - 1) := two_add _ _
        _ ≤ |s| * w := mul_le_mul this w1 (two_pos _).le (abs_nonneg _)
  have errp : |near (s * w) - s * w| ≤ |s * w| / 2 ^ 53 := by
    rcases prod with ⟨-, h⟩ | h
    · rw [h, zero_mul, near_of_rep rep_zero]; simp
    · rw [abs_sub_comm]; exact near_rel _ h
  have bnd : |near (s * w)| < 2 ^ 1024 := by
    have a1 : |s| ≤ 2 ^ (52 : ℤ) := by
      have := abs_sub_abs_le_abs_sub s q
      have e1 : (2 : ℚ) ^ (52 : ℤ) = 2 * 2 ^ 51 := by norm_num
      linarith
    have a2 : |s * w| ≤ 2 ^ (52 + (g + 27)) := by
      rw [abs_mul, abs_of_pos w0, two_add]
      exact mul_le_mul a1 w2 w0.le (two_pos _).le
    have a3 : |near (s * w)| ≤ 2 * |s * w| := by
      have := abs_sub_abs_le_abs_sub (near (s * w)) (s * w)
      have := div_le_self (abs_nonneg (s * w)) (by norm_num : (1 : ℚ) ≤ 2 ^ 53)
      linarith
    have a4 : (2 : ℚ) * 2 ^ (52 + (g + 27)) = 2 ^ (52 + (g + 27) + 1) := by rw [two_add _ 1, zpow_one, mul_comm]
    refine lt_of_le_of_lt (a3.trans (mul_le_mul_of_nonneg_left a2 (by norm_num))) ?_
    rw [a4, ← zpow_natCast, two_lt_iff]
    push_cast; omega
  have v1 : (Fl.fin s : B64 sq hy) *. Fl.fin w = Fl.fin (near (s * w)) := (rnd_fin_iff _ _).mpr ⟨rfl, bnd⟩
  have v2 : Flt.abs (Fl.fin s : B64 sq hy) *. Fl.fin w = Fl.fin |near (s * w)| := by
    show (Fl.fin |s| : B64 sq hy) *. Fl.fin w = _
    have e : near (|s| * w) = |near (s * w)| := by
      rcases le_total 0 s with h | h
      · have := near_mono (mul_nonneg h w0.le)
        rw [near_of_rep rep_zero] at this
        rw [abs_of_nonneg h, abs_of_nonneg this]
      · have := near_mono (mul_nonpos_of_nonpos_of_nonneg h w0.le)
        rw [near_of_rep rep_zero] at this
        rw [abs_of_nonpos h, abs_of_nonpos this, neg_mul, near_neg]
    exact (rnd_fin_iff _ _).mpr ⟨e, by rwa [abs_abs]⟩
  have vp := abs_le.mp (errp.trans (div_le_div_of_nonneg_left (abs_nonneg _) (by norm_num) (by norm_num : (2 : ℚ) ≤ 2 ^ 53)))
  have pos : 0 < C → 0 < near (s * w) := fun h => by
    have h := CL0.1.mpr h
    have s0 : 0 < s := by rw [abs_of_pos h] at es; linarith
    have := mul_pos s0 w0
    rw [abs_of_pos this] at vp
    linarith
  have neg : C < 0 → near (s * w) < 0 := fun h => by
    have h := CL0.2.mpr h
    have s0 : s < 0 := by rw [abs_of_neg h] at es; linarith
    have := mul_neg_of_neg_of_pos s0 w0
    rw [abs_of_neg this] at vp
    linarith
  have zero : C = 0 → near (s * w) = 0 := fun h => by rw [zq h, zero_mul, near_of_rep rep_zero]
  refine ⟨_, v1, v2, ⟨fun h => ?_, pos⟩, ⟨fun h => ?_, neg⟩, ?_⟩
  · rcases lt_trichotomy C 0 with c | c | c
    · have := neg c; linarith
    · have := zero c; linarith
    · exact c
  · rcases lt_trichotomy C 0 with c | c | c
    · exact c
    · have := zero c; linarith
    · have := pos c; linarith
  · have b1 : |(((|s| : ℚ) : ℝ) - (|(q : ℝ)|))| ≤ 1 / 2 ^ 53 * |(q : ℝ)| := by
      have : |(|s| - |q|)| ≤ |q| / 2 ^ 53 := (abs_abs_sub_abs_le s q).trans err
      have : ((|(|s| - |q|)| : ℚ) : ℝ) ≤ ((|q| / 2 ^ 53 : ℚ) : ℝ) := by exact_mod_cast this
      push_cast at this ⊢
      linarith
    have b2 := rel_mul (abs_nonneg (q : ℝ)) (Real.sqrt_nonneg (L : ℝ)) (by positivity) b1 hwe
    have b3 : |((|near (s * w)| : ℚ) : ℝ) - ((|s| : ℚ) : ℝ) * w| ≤ 1 / 2 ^ 53 * (((|s| : ℚ) : ℝ) * w) := by
      have : |(|near (s * w)| - |s * w|)| ≤ |s * w| / 2 ^ 53 := (abs_abs_sub_abs_le _ _).trans errp
      rw [abs_mul s w, abs_of_pos w0] at this
      have : ((|(|near (s * w)| - |s| * w)| : ℚ) : ℝ) ≤ ((|s| * w / 2 ^ 53 : ℚ) : ℝ) := by exact_mod_cast this
      push_cast at this ⊢
      linarith
    have D0 : 0 ≤ |(q : ℝ)| * √(L : ℝ) := mul_nonneg (abs_nonneg _) (Real.sqrt_nonneg _)
    generalize |(q : ℝ)| * √(L : ℝ) = D at *
    generalize ((|s| : ℚ) : ℝ) * w = X at *
    generalize ((|near (s * w)| : ℚ) : ℝ) = V at *
    have b4 := abs_sub_le V X D
    have b5 : X ≤ (1 + 1 / 2 ^ 53) * (1 + ε) * D := by have := (abs_le.mp b2).2; linarith
    have b6 : 1 / 2 ^ 53 * X ≤ 1 / 2 ^ 53 * ((1 + 1 / 2 ^ 53) * (1 + ε) * D) := mul_le_mul_of_nonneg_left b5 (by positivity)
    unfold distErr
    have e : ((1 + ε) * (1 + 1 / 2 ^ 53) ^ 2 - 1) * D = ((1 + 1 / 2 ^ 53) * (1 + ε) - 1) * D + 1 / 2 ^ 53 * ((1 + 1 / 2 ^ 53) * (1 + ε) * D) := by ring
    linarith

section grid
variable {g : ℤ} (h1 : -484 ≤ g) (h2 : g ≤ 400) {ε : ℝ} (lib : Lib64 sq hy ε)
include h1 h2 lib

theorem len2Q_pos {a b : Coord ℚ} (h : ¬ (a.x = b.x ∧ a.y = b.y)) : 0 < len2Q a b := by
  have h' : ¬ ((realPt a).x = (realPt b).x ∧ (realPt a).y = (realPt b).y) := by
    simpa [realPt] using h
  have := len2_pos h'
  have e : ((len2Q a b : ℚ) : ℝ) = ((realPt b).x - (realPt a).x) * ((realPt b).x - (realPt a).x) + ((realPt b).y - (realPt a).y) * ((realPt b).y - (realPt a).y) := by
    unfold len2Q realPt; push_cast; rfl
  rw [← e] at this
  exact_mod_cast this

theorem grid_segment {p a b : Coord ℚ} (hp : OnGridB 24 g p) (ha : OnGridB 24 g a) (hb : OnGridB 24 g b) :
    DistOk ε (Distance.pointToSegment (toB64 p : Coord (B64 sq hy)) (toB64 a) (toB64 b)) (Distance.pointToSegment (realPt p) (realPt a) (realPt b)) := by
  have dpa := grid_dist h1 h2 lib hp ha
  have dpb := grid_dist h1 h2 lib hp hb
  obtain ⟨m, n, hm, hn, hx, hy'⟩ := hp
  have px : OrdB 24 g p.x := ⟨m, hm, hx⟩
  have py : OrdB 24 g p.y := ⟨n, hn, hy'⟩
  obtain ⟨m, n, hm, hn, hx, hy'⟩ := ha
  have ax : OrdB 24 g a.x := ⟨m, hm, hx⟩
  have ay : OrdB 24 g a.y := ⟨n, hn, hy'⟩
  obtain ⟨m, n, hm, hn, hx, hy'⟩ := hb
  have bx : OrdB 24 g b.x := ⟨m, hm, hx⟩
  have by' : OrdB 24 g b.y := ⟨n, hn, hy'⟩
  have oL := (ord_sum bx ax bx ax by' ay by' ay).1
  have oN := (ord_sum px ax bx ax py ay by' ay).1
  have oC := (ord_sum ay py bx ax ax px by' ay).2
  have fL := (sum_fin (sq := sq) (hy := hy) h1 h2 bx ax bx ax by' ay by' ay).1
  have fN := (sum_fin (sq := sq) (hy := hy) h1 h2 px ax bx ax py ay by' ay).1
  have fC := (sum_fin (sq := sq) (hy := hy) h1 h2 ay py bx ax ax px by' ay).2
  have eR : Distance.pointToSegment (realPt p) (realPt a) (realPt b) =
      if a.x = b.x ∧ a.y = b.y then dist (realPt p) (realPt a) else if dotN p a b / len2Q a b ≤ 0 then dist (realPt p) (realPt a)
      else if 1 ≤ dotN p a b / len2Q a b then dist (realPt p) (realPt b) else |((crossC p a b / len2Q a b : ℚ) : ℝ)| * √((len2Q a b : ℚ) : ℝ) := by
    unfold Distance.pointToSegment
    simp only [distance_eq, real_toFlt, exact_eq, exact_lit, exact_le, exact_sub, exact_mul, exact_add, exact_div, exact_abs,
      Rat.cast_zero, Rat.cast_one, real_sqrt, Bool.and_eq_true, decide_eq_true_eq, ← abs_eq_max_neg]
    have c1 : ((realPt a).x = (realPt b).x ∧ (realPt a).y = (realPt b).y) ↔ (a.x = b.x ∧ a.y = b.y) := by simp [realPt]
    have c2 : ((realPt p).x - (realPt a).x) * ((realPt b).x - (realPt a).x) + ((realPt p).y - (realPt a).y) * ((realPt b).y - (realPt a).y) = ((dotN p a b : ℚ) : ℝ) := by
      unfold dotN realPt; push_cast; rfl
    have c3 : ((realPt b).x - (realPt a).x) * ((realPt b).x - (realPt a).x) + ((realPt b).y - (realPt a).y) * ((realPt b).y - (realPt a).y) = ((len2Q a b : ℚ) : ℝ) := by
      unfold len2Q realPt; push_cast; rfl
    have c4 : ((realPt a).y - (realPt p).y) * ((realPt b).x - (realPt a).x) - ((realPt a).x - (realPt p).x) * ((realPt b).y - (realPt a).y) = ((crossC p a b : ℚ) : ℝ) := by
      unfold crossC realPt; push_cast; rfl
    simp only [c1, c2, c3, c4]
    have c5 : ((dotN p a b : ℚ) : ℝ) / ((len2Q a b : ℚ) : ℝ) ≤ 0 ↔ dotN p a b / len2Q a b ≤ 0 := by
      rw [← Rat.cast_div]; exact_mod_cast Iff.rfl
    have c6 : 1 ≤ ((dotN p a b : ℚ) : ℝ) / ((len2Q a b : ℚ) : ℝ) ↔ 1 ≤ dotN p a b / len2Q a b := by
      rw [← Rat.cast_div]; exact_mod_cast Iff.rfl
    simp only [c5, c6, Rat.cast_div]
  rw [eR]
  unfold Distance.pointToSegment
  by_cases h : a.x = b.x ∧ a.y = b.y
  · rw [if_pos h, if_pos (show _ = true from by
      show (decide (a.x = b.x) && decide (a.y = b.y)) = true
      simp [h])]
    exact dpa
  · rw [if_neg h, if_neg (show ¬ _ = true from by
      show ¬ (decide (a.x = b.x) && decide (a.y = b.y)) = true
      simpa using h)]
    have L0 := len2Q_pos h1 h2 lib h
    obtain ⟨eq, -, -, -, c0, -, c1, -⟩ := ratio64 (sq := sq) (hy := hy) oN oL (show len2Q a b ≠ 0 from L0.ne')
    have one : (lit 1 : B64 sq hy) = Fl.fin 1 := rnd_of_f64 (f64_of (by decide +kernel))
    simp only [show ∀ c : Coord ℚ, (toB64 c : Coord (B64 sq hy)).x = Fl.fin c.x from fun _ => rfl,
      show ∀ c : Coord ℚ, (toB64 c : Coord (B64 sq hy)).y = Fl.fin c.y from fun _ => rfl]
    rw [fN, fL, fC, eq, lit64, one]
    simp only [show ∀ u v : ℚ, ((Fl.fin u : B64 sq hy) ≤. Fl.fin v) = decide (u ≤ v) from fun _ _ => rfl, decide_eq_true_eq]
    by_cases k0 : dotN p a b / len2Q a b ≤ 0
    · rw [if_pos k0, if_pos (c0.mpr k0)]; exact dpa
    · rw [if_neg k0, if_neg (fun k => k0 (c0.mp k))]
      by_cases k1 : 1 ≤ dotN p a b / len2Q a b
      · rw [if_pos k1, if_pos (c1.mpr k1)]; exact dpb
      · rw [if_neg k1, if_neg (fun k => k1 (c1.mp k))]
        obtain ⟨v, -, hv, -, -, hve⟩ := perp64 h1 h2 lib oC oL L0
        exact ⟨|v|, hv, hve⟩

/-- C90: the computed distance of a point to a segment is close to the true one, relatively, and zero exactly for the points of the segment. -/
theorem C90_segment {p a b : Coord ℚ} (hp : OnGridB 24 g p) (ha : OnGridB 24 g a) (hb : OnGridB 24 g b) :
    ∃ v : ℚ, Distance.pointToSegment (toB64 p : Coord (B64 sq hy)) (toB64 a) (toB64 b) = Fl.fin v ∧ 0 ≤ v ∧
      (v = 0 ↔ OnSegment (realPt p) (realPt a) (realPt b)) ∧
      ∀ D, LeastDist (realPt p) (fun c => OnSegment c (realPt a) (realPt b)) D → |(v : ℝ) - D| ≤ ((1 + ε) * (1 + 1 / 2 ^ 53) ^ 2 - 1) * D := by
  obtain ⟨v, hv, he⟩ := grid_segment h1 h2 lib hp ha hb
  have hD := C36_segment (realPt p) (realPt a) (realPt b)
  generalize Distance.pointToSegment (realPt p) (realPt a) (realPt b) = D at *
  have D0 : 0 ≤ D := by obtain ⟨⟨c, -, rfl⟩, -⟩ := hD; exact dist_nonneg _ _
  obtain ⟨v0, vz⟩ := distOk_zero lib.nonneg lib.le_half D0 he
  refine ⟨v, hv, v0, vz.trans ?_, fun D' hD' => by rw [hD'.unique hD]; exact he⟩
  constructor
  · rintro rfl
    obtain ⟨⟨c, ⟨t, t0, t1, tx, ty⟩, hc⟩, -⟩ := hD
    rw [dist_eq_zero] at hc
    exact ⟨t, t0, t1, hc.1.trans tx, hc.2.trans ty⟩
  · intro h
    have := hD.2 _ h
    rw [(dist_eq_zero _ _).mpr ⟨rfl, rfl⟩] at this
    exact le_antisymm this D0

/-- C90: the signed distance to a line is the distance with a sign; the sign is exact, and the distance close to the true one. -/
theorem C90_line {p a b : Coord ℚ} (hp : OnGridB 24 g p) (ha : OnGridB 24 g a) (hb : OnGridB 24 g b) (hab : ¬ (a.x = b.x ∧ a.y = b.y)) :
    ∃ v : ℚ, Distance.pointToLinePerpendicularSigned (toB64 p : Coord (B64 sq hy)) (toB64 a) (toB64 b) = Fl.fin v ∧
      Distance.pointToLinePerpendicular (toB64 p : Coord (B64 sq hy)) (toB64 a) (toB64 b) = Fl.fin |v| ∧
      (0 < v ↔ det a b p < 0) ∧ (v < 0 ↔ 0 < det a b p) ∧
      ∀ D, LeastDist (realPt p) (fun c => OnInfLine c (realPt a) (realPt b)) D → |((|v| : ℚ) : ℝ) - D| ≤ ((1 + ε) * (1 + 1 / 2 ^ 53) ^ 2 - 1) * D := by
  obtain ⟨m, n, hm, hn, hx, hy'⟩ := hp
  have px : OrdB 24 g p.x := ⟨m, hm, hx⟩
  have py : OrdB 24 g p.y := ⟨n, hn, hy'⟩
  obtain ⟨m, n, hm, hn, hx, hy'⟩ := ha
  have ax : OrdB 24 g a.x := ⟨m, hm, hx⟩
  have ay : OrdB 24 g a.y := ⟨n, hn, hy'⟩
  obtain ⟨m, n, hm, hn, hx, hy'⟩ := hb
  have bx : OrdB 24 g b.x := ⟨m, hm, hx⟩
  have by' : OrdB 24 g b.y := ⟨n, hn, hy'⟩
  have L0 := len2Q_pos h1 h2 lib hab
  obtain ⟨v, e1, e2, s1, s2, he⟩ := perp64 h1 h2 lib (ord_sum ay py bx ax ax px by' ay).2 (ord_sum bx ax bx ax by' ay by' ay).1 L0
  have fL := (sum_fin (sq := sq) (hy := hy) h1 h2 bx ax bx ax by' ay by' ay).1
  have fC := (sum_fin (sq := sq) (hy := hy) h1 h2 ay py bx ax ax px by' ay).2
  have ec : (a.y - p.y) * (b.x - a.x) - (a.x - p.x) * (b.y - a.y) = -det a b p := by unfold det; ring
  refine ⟨v, ?_, ?_, ?_, ?_, fun D hD => ?_⟩
  · unfold Distance.pointToLinePerpendicularSigned
    simp only [show ∀ c : Coord ℚ, (toB64 c : Coord (B64 sq hy)).x = Fl.fin c.x from fun _ => rfl,
      show ∀ c : Coord ℚ, (toB64 c : Coord (B64 sq hy)).y = Fl.fin c.y from fun _ => rfl]
    rw [fL, fC]; exact e1
  · unfold Distance.pointToLinePerpendicular
    simp only [show ∀ c : Coord ℚ, (toB64 c : Coord (B64 sq hy)).x = Fl.fin c.x from fun _ => rfl,
      show ∀ c : Coord ℚ, (toB64 c : Coord (B64 sq hy)).y = Fl.fin c.y from fun _ => rfl]
    rw [fL, fC]; exact e2
  · rw [s1, ec]; constructor <;> intro h <;> linarith
  · rw [s2, ec]; constructor <;> intro h <;> linarith
  · have := C36_line (realPt p) (realPt a) (realPt b) (by simpa [realPt] using hab)
    rw [hD.unique this]
    have e : Distance.pointToLinePerpendicular (realPt p) (realPt a) (realPt b) = |((crossC p a b / len2Q a b : ℚ) : ℝ)| * √((len2Q a b : ℚ) : ℝ) := by
      unfold Distance.pointToLinePerpendicular
      simp only [real_toFlt, exact_sub, exact_mul, exact_add, exact_div, exact_abs, real_sqrt, ← abs_eq_max_neg]
      unfold crossC len2Q realPt
      push_cast
      rfl
    rw [e]
    exact he

theorem distOk_min {ε : ℝ} (h0 : 0 ≤ ε) (h1 : ε ≤ 1 / 2) {u v : ℚ} {D E : ℝ} (hu : |(u : ℝ) - D| ≤ distErr ε * D) (hv : |(v : ℝ) - E| ≤ distErr ε * E)
    (hD : 0 ≤ D) (hE : 0 ≤ E) : |((min v u : ℚ) : ℝ) - min E D| ≤ distErr ε * min E D := by
  have b := distErr_bounds h0 h1
  have hu := abs_le.mp hu
  have hv := abs_le.mp hv
  rw [Rat.cast_min, abs_le]
  rcases le_total E D with h | h
  · rw [min_eq_left h]
    rcases le_total (v : ℝ) u with k | k
    · rw [min_eq_left k]; exact hv
    · rw [min_eq_right k]; constructor <;> nlinarith
  · rw [min_eq_right h]
    rcases le_total (v : ℝ) u with k | k
    · rw [min_eq_left k]; constructor <;> nlinarith
    · rw [min_eq_right k]; exact hu

theorem grid_noIntersection {a b c d : Coord ℚ} (ha : OnGridB 24 g a) (hb : OnGridB 24 g b) (hc : OnGridB 24 g c) (hd : OnGridB 24 g d) :
    Distance.noIntersection (toB64 a : Coord (B64 sq hy)) (toB64 b) (toB64 c) (toB64 d) = Distance.noIntersection (realPt a) (realPt b) (realPt c) (realPt d) := by
  have gp : ∀ {c : Coord ℚ}, OnGridB 24 g c → OnGrid g c := by
    rintro c ⟨m, n, hm, hn, hx, hy'⟩
    exact ⟨m, n, by linarith [hm], by linarith [hn], hx, hy'⟩
  have sim := sim_grid_real (sq := sq) (hy := hy) g h1 h2
  have i4 := sim.intersects4 ⟨a, gp ha⟩ ⟨b, gp hb⟩ ⟨c, gp hc⟩ ⟨d, gp hd⟩
  obtain ⟨m, n, hm, hn, hx, hy'⟩ := ha
  have ax : OrdB 24 g a.x := ⟨m, hm, hx⟩
  have ay : OrdB 24 g a.y := ⟨n, hn, hy'⟩
  obtain ⟨m, n, hm, hn, hx, hy'⟩ := hb
  have bx : OrdB 24 g b.x := ⟨m, hm, hx⟩
  have by' : OrdB 24 g b.y := ⟨n, hn, hy'⟩
  obtain ⟨m, n, hm, hn, hx, hy'⟩ := hc
  have cx : OrdB 24 g c.x := ⟨m, hm, hx⟩
  have cy : OrdB 24 g c.y := ⟨n, hn, hy'⟩
  obtain ⟨m, n, hm, hn, hx, hy'⟩ := hd
  have dx : OrdB 24 g d.x := ⟨m, hm, hx⟩
  have dy : OrdB 24 g d.y := ⟨n, hn, hy'⟩
  have oD := (ord_sum bx ax dy cy by' ay dx cx).2
  have oR := (ord_sum ay cy dx cx ax cx dy cy).2
  have oS := (ord_sum ay cy bx ax ax cx by' ay).2
  have fD := (sum_fin (sq := sq) (hy := hy) h1 h2 bx ax dy cy by' ay dx cx).2
  have fR := (sum_fin (sq := sq) (hy := hy) h1 h2 ay cy dx cx ax cx dy cy).2
  have fS := (sum_fin (sq := sq) (hy := hy) h1 h2 ay cy bx ax ax cx by' ay).2
  unfold Distance.noIntersection
  simp only [show ∀ c : Coord ℚ, (toB64 c : Coord (B64 sq hy)).x = Fl.fin c.x from fun _ => rfl,
      show ∀ c : Coord ℚ, (toB64 c : Coord (B64 sq hy)).y = Fl.fin c.y from fun _ => rfl]
  rw [show Env.intersects4 (toB64 a : Coord (B64 sq hy)) (toB64 b) (toB64 c) (toB64 d) = Env.intersects4 (realPt a) (realPt b) (realPt c) (realPt d) from i4]
  rw [fD, fR, fS, lit64]
  have one : (lit 1 : B64 sq hy) = Fl.fin 1 := rnd_of_f64 (f64_of (by decide +kernel))
  rw [one]
  by_cases k : (!Env.intersects4 (realPt a) (realPt b) (realPt c) (realPt d)) = true
  · rw [if_pos k, if_pos k]
  · rw [if_neg k, if_neg k]
    have eD : ((realPt b).x - (realPt a).x) * ((realPt d).y - (realPt c).y) - ((realPt b).y - (realPt a).y) * ((realPt d).x - (realPt c).x) =
        (((b.x - a.x) * (d.y - c.y) - (b.y - a.y) * (d.x - c.x) : ℚ) : ℝ) := by unfold realPt; push_cast; rfl
    have eR : ((realPt a).y - (realPt c).y) * ((realPt d).x - (realPt c).x) - ((realPt a).x - (realPt c).x) * ((realPt d).y - (realPt c).y) =
        (((a.y - c.y) * (d.x - c.x) - (a.x - c.x) * (d.y - c.y) : ℚ) : ℝ) := by unfold realPt; push_cast; rfl
    have eS : ((realPt a).y - (realPt c).y) * ((realPt b).x - (realPt a).x) - ((realPt a).x - (realPt c).x) * ((realPt b).y - (realPt a).y) =
        (((a.y - c.y) * (b.x - a.x) - (a.x - c.x) * (b.y - a.y) : ℚ) : ℝ) := by unfold realPt; push_cast; rfl
    simp only [real_toFlt, exact_sub, exact_mul, exact_div, exact_eq, exact_lt, exact_lit, Rat.cast_zero, Rat.cast_one, eD, eR, eS]
    generalize (b.x - a.x) * (d.y - c.y) - (b.y - a.y) * (d.x - c.x) = D at *
    generalize (a.y - c.y) * (d.x - c.x) - (a.x - c.x) * (d.y - c.y) = N at *
    generalize (a.y - c.y) * (b.x - a.x) - (a.x - c.x) * (b.y - a.y) = S at *
    simp only [show ∀ u v : ℚ, ((Fl.fin u : B64 sq hy) ==. Fl.fin v) = decide (u = v) from fun _ _ => rfl]
    by_cases z : D = 0
    · rw [if_pos (by simpa using z), if_pos (by simpa using z)]
    · rw [if_neg (by simpa using z), if_neg (by simpa using z)]
      obtain ⟨e1, -, -, -, -, l1, -, g1⟩ := ratio64 (sq := sq) (hy := hy) oR oD z
      obtain ⟨e2, -, -, -, -, l2, -, g2⟩ := ratio64 (sq := sq) (hy := hy) oS oD z
      rw [e1, e2]
      simp only [show ∀ u v : ℚ, ((Fl.fin u : B64 sq hy) <. Fl.fin v) = decide (u < v) from fun _ _ => rfl, l1, l2, g1, g2, ← Rat.cast_div]
      have c0 : ∀ q : ℚ, ((q : ℝ) < 0 ↔ q < 0) := fun q => by exact_mod_cast Iff.rfl
      have c1 : ∀ q : ℚ, (1 < (q : ℝ) ↔ 1 < q) := fun q => by exact_mod_cast Iff.rfl
      simp only [c0, c1]

/-- C90: the computed distance of two segments is close to the true one, relatively, and zero exactly if they have a point in common. -/
theorem C90_segments {a b c d : Coord ℚ} (ha : OnGridB 24 g a) (hb : OnGridB 24 g b) (hc : OnGridB 24 g c) (hd : OnGridB 24 g d) :
    ∃ v : ℚ, Distance.segmentToSegment (toB64 a : Coord (B64 sq hy)) (toB64 b) (toB64 c) (toB64 d) = Fl.fin v ∧ 0 ≤ v ∧
      (v = 0 ↔ ∃ p, OnSegment p (realPt a) (realPt b) ∧ OnSegment p (realPt c) (realPt d)) ∧
      ∀ D, LeastDist2 (fun u => OnSegment u (realPt a) (realPt b)) (fun u => OnSegment u (realPt c) (realPt d)) D →
        |(v : ℝ) - D| ≤ ((1 + ε) * (1 + 1 / 2 ^ 53) ^ 2 - 1) * D := by
  have main : DistOk ε (Distance.segmentToSegment (toB64 a : Coord (B64 sq hy)) (toB64 b) (toB64 c) (toB64 d))
      (Distance.segmentToSegment (realPt a) (realPt b) (realPt c) (realPt d)) := by
    have eq2 : ∀ x y : Coord ℚ, (toB64 x : Coord (B64 sq hy)).equals2D (toB64 y) = (realPt x).equals2D (realPt y) := by
      intro x y
      unfold Coord.equals2D
      have e : ∀ u v : ℚ, ((Fl.fin u : B64 sq hy) ==. Fl.fin v) = ((u : ℝ) ==. (v : ℝ)) := by
        intro u v
        show decide (u = v) = decide ((u : ℝ) = v)
        simp
      simp only [realPt, show ∀ c : Coord ℚ, (toB64 c : Coord (B64 sq hy)).x = Fl.fin c.x from fun _ => rfl,
        show ∀ c : Coord ℚ, (toB64 c : Coord (B64 sq hy)).y = Fl.fin c.y from fun _ => rfl, e]
      rfl
    unfold Distance.segmentToSegment
    rw [eq2, eq2, grid_noIntersection h1 h2 lib ha hb hc hd]
    split_ifs
    · exact grid_segment h1 h2 lib ha hc hd
    · exact grid_segment h1 h2 lib hd ha hb
    · obtain ⟨v1, e1, w1⟩ := grid_segment h1 h2 lib ha hc hd
      obtain ⟨v2, e2, w2⟩ := grid_segment h1 h2 lib hb hc hd
      obtain ⟨v3, e3, w3⟩ := grid_segment h1 h2 lib hc ha hb
      obtain ⟨v4, e4, w4⟩ := grid_segment h1 h2 lib hd ha hb
      rw [e1, e2, e3, e4]
      have n : ∀ p a b : Coord ℝ, 0 ≤ Distance.pointToSegment p a b := fun p a b => by
        obtain ⟨⟨c, -, hc⟩, -⟩ := C36_segment p a b
        rw [← hc]; exact dist_nonneg _ _
      have n1 := n (realPt a) (realPt c) (realPt d)
      have n2 := n (realPt b) (realPt c) (realPt d)
      have n3 := n (realPt c) (realPt a) (realPt b)
      have n4 := n (realPt d) (realPt a) (realPt b)
      have m1 := distOk_min h1 h2 lib lib.nonneg lib.le_half w1 w2 n1 n2
      have m2 := distOk_min h1 h2 lib lib.nonneg lib.le_half m1 w3 (le_min n2 n1) n3
      have m3 := distOk_min h1 h2 lib lib.nonneg lib.le_half m2 w4 (le_min n3 (le_min n2 n1)) n4
      have mq : ∀ u v : ℚ, (if (Fl.fin v : B64 sq hy) <. Fl.fin u then (Fl.fin v : B64 sq hy) else Fl.fin u) = Fl.fin (min v u) := by
        intro u v
        show (if decide (v < u) = true then (Fl.fin v : B64 sq hy) else Fl.fin u) = _
        by_cases h : v < u
        · rw [if_pos (by simpa using h), min_eq_left h.le]
        · rw [if_neg (by simpa using h), min_eq_right (not_lt.mp h)]
      have mr : ∀ u v : ℝ, (if v <. u then v else u) = min v u := by
        intro u v
        show (if decide (v < u) = true then v else u) = _
        by_cases h : v < u
        · rw [if_pos (by simpa using h), min_eq_left h.le]
        · rw [if_neg (by simpa using h), min_eq_right (not_lt.mp h)]
      refine ⟨min v4 (min v3 (min v2 v1)), ?_, ?_⟩
      · unfold MathUtil.min4
        simp only [mq]
      · unfold MathUtil.min4
        simp only [mr]
        exact m3
    · refine ⟨0, lit64, ?_⟩
      simp [real_toFlt]
  obtain ⟨v, hv, he⟩ := main
  have hz := C37_zero_iff (realPt a) (realPt b) (realPt c) (realPt d)
  have hD := C37_segments (realPt a) (realPt b) (realPt c) (realPt d)
  generalize Distance.segmentToSegment (realPt a) (realPt b) (realPt c) (realPt d) = D at *
  have D0 : 0 ≤ D := by obtain ⟨⟨c, d, -, -, rfl⟩, -⟩ := hD; exact dist_nonneg _ _
  obtain ⟨v0, vz⟩ := distOk_zero lib.nonneg lib.le_half D0 he
  exact ⟨v, hv, v0, vz.trans hz, fun D' hD' => by rw [hD'.unique hD]; exact he⟩

theorem grid_fold {p : Coord ℚ} (hp : OnGridB 24 g p) : ∀ (l : List (Coord ℚ × Coord ℚ)), (∀ t ∈ l, OnGridB 24 g t.1 ∧ OnGridB 24 g t.2) →
    ∀ (m : B64 sq hy) (D : ℝ), DistOk ε m D → 0 ≤ D →
    DistOk ε ((l.map (fun t => ((toB64 t.1 : Coord (B64 sq hy)), (toB64 t.2 : Coord (B64 sq hy))))).foldl (fun m s =>
        let d := Distance.pointToSegment (toB64 p) s.1 s.2
        if d <. m then d else m) m)
      ((l.map (fun t => (realPt t.1, realPt t.2))).foldl (fun m s =>
        let d := Distance.pointToSegment (realPt p) s.1 s.2
        if d <. m then d else m) D) := by
  intro l
  induction l with
  | nil => intro _ m D h _; exact h
  | cons t l ih =>
    intro hl m D h hD
    simp only [List.map_cons, List.foldl_cons]
    obtain ⟨v, hv, he⟩ := grid_segment h1 h2 lib hp (hl t (by simp)).1 (hl t (by simp)).2
    obtain ⟨u, hu, hd⟩ := h
    have n : 0 ≤ Distance.pointToSegment (realPt p) (realPt t.1) (realPt t.2) := by
      obtain ⟨⟨c, -, hc⟩, -⟩ := C36_segment (realPt p) (realPt t.1) (realPt t.2)
      rw [← hc]; exact dist_nonneg _ _
    have e : (if Distance.pointToSegment (realPt p) (realPt t.1) (realPt t.2) <. D then Distance.pointToSegment (realPt p) (realPt t.1) (realPt t.2) else D) =
        min (Distance.pointToSegment (realPt p) (realPt t.1) (realPt t.2)) D := by
      show (if decide (Distance.pointToSegment (realPt p) (realPt t.1) (realPt t.2) < D) = true then _ else D) = _
      by_cases k : Distance.pointToSegment (realPt p) (realPt t.1) (realPt t.2) < D
      · rw [if_pos (by simpa using k), min_eq_left k.le]
      · rw [if_neg (by simpa using k), min_eq_right (not_lt.mp k)]
    rw [e]
    refine ih (fun t ht => hl t (by simp [ht])) _ _ ⟨min v u, ?_, distOk_min h1 h2 lib lib.nonneg lib.le_half hd he hD n⟩ (le_min n hD)
    rw [hv, hu]
    show (if decide (v < u) = true then (Fl.fin v : B64 sq hy) else Fl.fin u) = _
    by_cases k : v < u
    · rw [if_pos (by simpa using k), min_eq_left k.le]
    · rw [if_neg (by simpa using k), min_eq_right (not_lt.mp k)]

/-- C90: the same for the distance to a chain of segments. -/
theorem C90_chain {p : Coord ℚ} (hp : OnGridB 24 g p) {line : List (Coord ℚ)} (hl : ∀ c ∈ line, OnGridB 24 g c) (hne : line ≠ []) :
    ∃ v : ℚ, Distance.pointToSegmentString (toB64 p : Coord (B64 sq hy)) (line.map toB64) = .ok (Fl.fin v) ∧ 0 ≤ v ∧
      (v = 0 ↔ OnChain (line.map realPt) (realPt p)) ∧
      ∀ D, LeastDist (realPt p) (OnChain (line.map realPt)) D → |(v : ℝ) - D| ≤ ((1 + ε) * (1 + 1 / 2 ^ 53) ^ 2 - 1) * D := by
  obtain ⟨E, hE, hD⟩ := C36_chain (realPt p) (line.map realPt) (by simpa using hne)
  have hE' := C36_chain_steps (realPt p) (line.map realPt)
  obtain ⟨c, l, rfl⟩ := List.exists_cons_of_ne_nil hne
  have hF := C36_chain_steps (toB64 p : Coord (B64 sq hy)) ((c :: l).map toB64)
  rw [segs_map64] at hE' hF
  rw [hE] at hE'
  have main := grid_fold h1 h2 lib hp (segs (c :: l)) (fun t ht => ⟨hl _ (mem_segs64 ht).1, hl _ (mem_segs64 ht).2⟩) _ _
    (grid_dist h1 h2 lib hp (hl c (by simp))) (dist_nonneg _ _)
  rw [← distance_eq] at main
  obtain ⟨v, hv, he⟩ := main
  replace he : |(v : ℝ) - E| ≤ distErr ε * E := by rw [Except.ok.inj hE']; exact he
  have D0 : 0 ≤ E := by obtain ⟨⟨c, -, rfl⟩, -⟩ := hD; exact dist_nonneg _ _
  obtain ⟨v0, vz⟩ := distOk_zero lib.nonneg lib.le_half D0 he
  refine ⟨v, hF.trans (congrArg _ hv), v0, vz.trans ?_, fun D' hD' => by rw [hD'.unique hD]; exact he⟩
  constructor
  · rintro rfl
    obtain ⟨⟨q, hq, hc⟩, -⟩ := hD
    rw [dist_eq_zero] at hc
    rcases hq with ⟨w, hw, e1, e2⟩ | ⟨w, hw, t, t0, t1, tx, ty⟩
    · exact Or.inl ⟨w, hw, hc.1.trans e1, hc.2.trans e2⟩
    · exact Or.inr ⟨w, hw, t, t0, t1, hc.1.trans tx, hc.2.trans ty⟩
  · intro h
    have := hD.2 _ h
    rw [(dist_eq_zero _ _).mpr ⟨rfl, rfl⟩] at this
    exact le_antisymm this D0

end grid

/-- C90: outside the grid the distance can be lost: the squared length of a segment of length 2^-600 underflows, and the distance of its
own first endpoint is NaN, although the endpoints are doubles. -/
theorem C90_underflow :
    Distance.pointToSegment (toB64 ⟨0, 0, 0, 0⟩ : Coord (B64 sq hy)) (toB64 ⟨0, 0, 0, 0⟩) (toB64 ⟨2 ^ (-600 : ℤ), 0, 0, 0⟩) = (nan : B64 sq hy) ∧
      IsF64 (2 ^ (-600 : ℤ)) ∧ IsF64 0 ∧ OnSegment (realPt ⟨0, 0, 0, 0⟩) (realPt ⟨0, 0, 0, 0⟩) (realPt ⟨2 ^ (-600 : ℤ), 0, 0, 0⟩) := by
  refine ⟨?_, f64_of (by decide +kernel), f64_of (by decide +kernel), ⟨0, le_rfl, zero_le_one, by simp [realPt], by simp [realPt]⟩⟩
  have r1 : ((Fl.fin (2 ^ (-600 : ℤ)) : B64 sq hy) -. Fl.fin 0) = Fl.fin (2 ^ (-600 : ℤ)) :=
    (by decide +kernel : rnd (2 ^ (-600 : ℤ) + -0) = Val.fin (2 ^ (-600 : ℤ)))
  have r0 : ((Fl.fin 0 : B64 sq hy) -. Fl.fin 0) = Fl.fin 0 :=
    (by decide +kernel : rnd (0 + -0) = Val.fin 0)
  have m1 : ((Fl.fin (2 ^ (-600 : ℤ)) : B64 sq hy) *. Fl.fin (2 ^ (-600 : ℤ))) = Fl.fin 0 :=
    (by decide +kernel : rnd (2 ^ (-600 : ℤ) * 2 ^ (-600 : ℤ)) = Val.fin 0)
  have m0 : ((Fl.fin 0 : B64 sq hy) *. Fl.fin 0) = Fl.fin 0 :=
    (by decide +kernel : rnd (0 * 0) = Val.fin 0)
  have m2 : ((Fl.fin 0 : B64 sq hy) *. Fl.fin (2 ^ (-600 : ℤ))) = Fl.fin 0 :=
    (by decide +kernel : rnd (0 * 2 ^ (-600 : ℤ)) = Val.fin 0)
  have a0 : ((Fl.fin 0 : B64 sq hy) +. Fl.fin 0) = Fl.fin 0 :=
    (by decide +kernel : rnd (0 + 0) = Val.fin 0)
  have d0 : ((Fl.fin 0 : B64 sq hy) /. Fl.fin 0) = nan := rfl
  unfold Distance.pointToSegment
  simp only [show ∀ c : Coord ℚ, (toB64 c : Coord (B64 sq hy)).x = Fl.fin c.x from fun _ => rfl,
    show ∀ c : Coord ℚ, (toB64 c : Coord (B64 sq hy)).y = Fl.fin c.y from fun _ => rfl]
  rw [r1, r0, m1, m0, m2, a0, r0, d0]
  have c : ((Fl.fin 0 : B64 sq hy) ==. Fl.fin (2 ^ (-600 : ℤ))) = false := (by decide +kernel : decide ((0 : ℚ) = 2 ^ (-600 : ℤ)) = false)
  have one : (lit 1 : B64 sq hy) = Fl.fin 1 := rnd_of_f64 (f64_of (by decide +kernel))
  rw [c, lit64, one, Bool.false_and, if_neg (by decide), if_neg (by rintro ⟨⟩), if_neg (by rintro ⟨⟩)]
  show Fl.mul (nan : B64 sq hy) _ = nan
  generalize (FltSqrt.sqrt (Fl.fin 0 : B64 sq hy)) = w
  cases w <;> rfl

/-! ## Such libraries exist, and an example -/

/-- There is a library rounded to doubles with a relative error of 2^-52. -/
theorem lib64_exists : ∃ (sq : ℚ → Val) (hy : ℚ → ℚ → Val), Lib64 sq hy (1 / 2 ^ 52) := by
  have ex : ∀ x : ℝ, 0 ≤ x → ∃ q : ℚ, x ≤ q ∧ (q : ℝ) ≤ x * (1 + 1 / 2 ^ 60) := by
    intro x hx
    rcases hx.eq_or_lt with rfl | h
    · exact ⟨0, by simp, by simp⟩
    · obtain ⟨q, q1, q2⟩ := exists_rat_btwn (show x < x * (1 + 1 / 2 ^ 60) by linarith)
      exact ⟨q, q1.le, q2.le⟩
  choose! f f1 f2 using ex
  have key : ∀ x : ℝ, (2 : ℝ) ^ (-1022 : ℤ) ≤ x → |((near (f x) : ℚ) : ℝ) - x| ≤ 1 / 2 ^ 52 * x := by
    intro x hx
    have x0 : 0 < x := lt_of_lt_of_le (zpow_pos (by norm_num) _) hx
    have h1 := f1 x x0.le
    have h2 := f2 x x0.le
    have p0 : (0 : ℚ) < f x := by exact_mod_cast x0.trans_le h1
    have h3 : (2 : ℚ) ^ (-1022 : ℤ) ≤ |f x| := by
      rw [abs_of_pos p0]
      have := hx.trans h1
      rw [← Rat.cast_le (K := ℝ), Rat.cast_zpow, Rat.cast_ofNat]
      exact this
    have h4 := near_rel _ h3
    rw [abs_of_pos p0] at h4
    have h5 : |((f x : ℚ) : ℝ) - (near (f x) : ℚ)| ≤ (f x : ℝ) / 2 ^ 53 := by exact_mod_cast h4
    rw [abs_le] at h5 ⊢
    constructor <;> linarith [h5.1, h5.2]
  refine ⟨fun a => .fin (near (f √(a : ℝ))), fun a b => if a = 0 ∧ b = 0 then .fin 0 else .fin (near (f √((a : ℝ) ^ 2 + (b : ℝ) ^ 2))), ?_, ?_, ?_, ?_, ?_⟩
  · norm_num
  · norm_num
  · intro a _ h
    refine ⟨_, rfl, key _ ?_⟩
    apply Real.le_sqrt_of_sq_le
    have h' : ((2 : ℝ) ^ (-1022 : ℤ)) ≤ a := by
      rw [← Rat.cast_le (K := ℝ), Rat.cast_zpow, Rat.cast_ofNat] at h
      exact h
    refine le_trans ?_ h'
    rw [pow_two, ← zpow_add₀ (by norm_num)]
    exact zpow_le_zpow_right₀ (by norm_num) (by norm_num)
  · rw [if_pos ⟨rfl, rfl⟩]
  · intro a b _ _ _ _ h
    have ne : ¬ (a = 0 ∧ b = 0) := by
      rintro ⟨rfl, rfl⟩
      rw [abs_zero] at h
      rcases h with h | h <;> exact absurd h (not_le.mpr (two_pos _))
    refine ⟨_, by rw [if_neg ne], key _ ?_⟩
    rcases h with h | h
    · have h' : ((2 : ℝ) ^ (-1022 : ℤ)) ≤ |(a : ℝ)| := by
        rw [← Rat.cast_le (K := ℝ), Rat.cast_zpow, Rat.cast_ofNat, Rat.cast_abs] at h
        exact h
      exact h'.trans (Real.abs_le_sqrt (by nlinarith [sq_nonneg (b : ℝ)]))
    · have h' : ((2 : ℝ) ^ (-1022 : ℤ)) ≤ |(b : ℝ)| := by
        rw [← Rat.cast_le (K := ℝ), Rat.cast_zpow, Rat.cast_ofNat, Rat.cast_abs] at h
        exact h
      exact h'.trans (Real.abs_le_sqrt (by nlinarith [sq_nonneg (a : ℝ)]))

/-- Two segments on the unit grid that miss each other: their computed distance is positive, with every library as above. -/
example : ∃ (sq : ℚ → Val) (hy : ℚ → ℚ → Val) (v : ℚ), Lib64 sq hy (1 / 2 ^ 52) ∧ 0 < v ∧
    Distance.segmentToSegment (toB64 ⟨0, 0, 0, 0⟩ : Coord (B64 sq hy)) (toB64 ⟨3, 1, 0, 0⟩) (toB64 ⟨1, 2, 0, 0⟩) (toB64 ⟨4, 5, 0, 0⟩) = Fl.fin v := by
  obtain ⟨sq, hy, lib⟩ := lib64_exists
  have on : ∀ m n : ℤ, |m| ≤ 2 ^ 24 → |n| ≤ 2 ^ 24 → OnGridB 24 0 (⟨m, n, 0, 0⟩ : Coord ℚ) := fun m n h k => ⟨m, n, h, k, by simp, by simp⟩
  obtain ⟨v, hv, v0, vz, -⟩ := C90_segments (g := 0) (by norm_num) (by norm_num) lib (a := ⟨0, 0, 0, 0⟩) (b := ⟨3, 1, 0, 0⟩) (c := ⟨1, 2, 0, 0⟩) (d := ⟨4, 5, 0, 0⟩)
    (by simpa using on 0 0 (by norm_num) (by norm_num)) (by simpa using on 3 1 (by norm_num) (by norm_num))
    (by simpa using on 1 2 (by norm_num) (by norm_num)) (by simpa using on 4 5 (by norm_num) (by norm_num))
  refine ⟨sq, hy, v, lib, lt_of_le_of_ne v0 fun h => ?_, hv⟩
  obtain ⟨p, ⟨t, t0, t1, tx, ty⟩, ⟨u, u0, u1, ux, uy⟩⟩ := vz.mp h.symm
  simp only [realPt] at tx ty ux uy
  push_cast at tx ty ux uy
  linarith

end Verif.Props
