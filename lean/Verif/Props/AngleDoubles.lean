import Verif.Props.Angle64
import Verif.Props.TriangleSizes64
import Verif.Model.Vectors
import Mathlib.Analysis.SpecialFunctions.Trigonometric.Arctan
import Mathlib.Analysis.SpecialFunctions.Trigonometric.ArctanDeriv

set_option linter.unusedSectionVars false

/-! # C127: the accuracy of directions and angles for arbitrary doubles -/

namespace Verif.Props
open Flt Verif.Spec Verif.Binary64

/-- The vector `(x, y)` is not zero and has the direction `θ`. -/
def HasDirection (θ x y : ℝ) : Prop := ∃ r > 0, x = r * Real.cos θ ∧ y = r * Real.sin θ

theorem HasDirection.size {θ x y : ℝ} (h : HasDirection θ x y) : x = √(x ^ 2 + y ^ 2) * Real.cos θ ∧ y = √(x ^ 2 + y ^ 2) * Real.sin θ := by
  obtain ⟨r, r0, rfl, rfl⟩ := h
  have : (r * Real.cos θ) ^ 2 + (r * Real.sin θ) ^ 2 = r ^ 2 := by
    have := Real.sin_sq_add_cos_sq θ
    linear_combination r ^ 2 * this
  rw [this, Real.sqrt_sq r0.le]
  exact ⟨rfl, rfl⟩

/-- A vector that makes a small angle with one of direction `θ'` has a direction near `θ'`. -/
theorem direction_perturb {θ' x' y' x y κ : ℝ} (h : HasDirection θ' x' y') (hp : 0 < x * x' + y * y') (hc : |x' * y - y' * x| ≤ κ * (x * x' + y * y')) :
    ∃ θ, HasDirection θ x y ∧ |θ - θ'| ≤ κ := by
  obtain ⟨r', r0, rfl, rfl⟩ := h
  set a := x * Real.cos θ' + y * Real.sin θ' with ha
  set b := y * Real.cos θ' - x * Real.sin θ' with hb
  have e1 : x * (r' * Real.cos θ') + y * (r' * Real.sin θ') = r' * a := by rw [ha]; ring
  have e2 : r' * Real.cos θ' * y - r' * Real.sin θ' * x = r' * b := by rw [hb]; ring
  rw [e1] at hp hc
  rw [e2, abs_mul, abs_of_pos r0] at hc
  have a0 : 0 < a := by by_contra hh; exact absurd hp (not_lt.mpr (mul_nonpos_of_nonneg_of_nonpos r0.le (not_lt.mp hh)))
  have hba : |b| ≤ κ * a := le_of_mul_le_mul_left (by linarith) r0
  have cs := Real.sin_sq_add_cos_sq θ'
  have ex : x = a * Real.cos θ' - b * Real.sin θ' := by rw [ha, hb]; linear_combination -x * cs
  have ey : y = a * Real.sin θ' + b * Real.cos θ' := by rw [ha, hb]; linear_combination -y * cs
  refine ⟨θ' + Real.arctan (b / a), ⟨a * √(1 + (b / a) ^ 2), by positivity, ?_, ?_⟩, ?_⟩
  · rw [Real.cos_add, Real.cos_arctan, Real.sin_arctan]
    have : √(1 + (b / a) ^ 2) ≠ 0 := by positivity
    field_simp
    linarith
  · rw [Real.sin_add, Real.cos_arctan, Real.sin_arctan]
    have : √(1 + (b / a) ^ 2) ≠ 0 := by positivity
    field_simp
    linarith
  · rw [add_sub_cancel_left]
    have h1 : |Real.arctan (b / a)| ≤ |b / a| := by
      rw [abs_le]
      have key : ∀ t : ℝ, 0 ≤ t → Real.arctan t ≤ t := fun t ht => by
        rcases ht.eq_or_lt with rfl | h
        · simp
        · have h2 := Real.arctan_pos.mpr h
          have h3 := Real.lt_tan h2 (Real.arctan_lt_pi_div_two t)
          rw [Real.tan_arctan] at h3
          exact h3.le
      rcases le_total 0 (b / a) with h | h
      · rw [abs_of_nonneg h]
        exact ⟨by have := Real.arctan_nonneg.mpr h; linarith, key _ h⟩
      · rw [abs_of_nonpos h]
        have := key (-(b / a)) (by linarith)
        rw [Real.arctan_neg] at this
        have h0 := Real.arctan_nonneg.mpr (show 0 ≤ -(b / a) by linarith)
        rw [Real.arctan_neg] at h0
        exact ⟨by linarith, by linarith⟩
    refine h1.trans ?_
    rw [abs_div, abs_of_pos a0, div_le_iff₀ a0]
    exact hba

/-- Changing both ordinates by a relative amount of at most `u` turns a vector by little. -/
theorem direction_relative {θ' x' y' x y u : ℝ} (h : HasDirection θ' x' y') (u0 : 0 ≤ u) (u1 : u ≤ 1 / 2) (hx : |x' - x| ≤ u * |x|) (hy : |y' - y| ≤ u * |y|) :
    ∃ θ, HasDirection θ x y ∧ |θ - θ'| ≤ u + 2 * u ^ 2 := by
  have hx' : |x * (x' - x)| ≤ u * x ^ 2 := by
    rw [abs_mul, ← sq_abs x]
    nlinarith [abs_nonneg x]
  have hy' : |y * (y' - y)| ≤ u * y ^ 2 := by
    rw [abs_mul, ← sq_abs y]
    nlinarith [abs_nonneg y]
  have X := abs_le.mp hx'
  have Y := abs_le.mp hy'
  have n0 : 0 < x ^ 2 + y ^ 2 := by
    by_contra hn
    have hx0 : x = 0 := by nlinarith [sq_nonneg x, sq_nonneg y]
    have hy0 : y = 0 := by nlinarith [sq_nonneg x, sq_nonneg y]
    subst hx0; subst hy0
    rw [abs_zero, mul_zero, sub_zero] at hx hy
    have ex := abs_nonpos_iff.mp hx
    have ey := abs_nonpos_iff.mp hy
    obtain ⟨r, r0, h1, h2⟩ := h
    rw [ex] at h1; rw [ey] at h2
    have cs := Real.sin_sq_add_cos_sq θ'
    have c0 : Real.cos θ' = 0 := by rcases mul_eq_zero.mp h1.symm with h | h <;> [exact absurd h r0.ne'; exact h]
    have s0 : Real.sin θ' = 0 := by rcases mul_eq_zero.mp h2.symm with h | h <;> [exact absurd h r0.ne'; exact h]
    rw [c0, s0] at cs; norm_num at cs
  have dot : (1 - u) * (x ^ 2 + y ^ 2) ≤ x * x' + y * y' := by linarith [X.1, Y.1, show x * x' + y * y' = x ^ 2 + y ^ 2 + (x * (x' - x) + y * (y' - y)) by ring]
  refine direction_perturb h (lt_of_lt_of_le (by apply mul_pos; linarith; exact n0) dot) ?_
  have cross : |x' * y - y' * x| ≤ u * (x ^ 2 + y ^ 2) := by
    have e : x' * y - y' * x = (x' - x) * y - (y' - y) * x := by ring
    rw [e]
    have a1 : |(x' - x) * y| ≤ u * (|x| * |y|) := by rw [abs_mul]; nlinarith [abs_nonneg y]
    have a2 : |(y' - y) * x| ≤ u * (|x| * |y|) := by rw [abs_mul]; nlinarith [abs_nonneg x]
    have a3 : 2 * (|x| * |y|) ≤ x ^ 2 + y ^ 2 := by rw [← sq_abs x, ← sq_abs y]; nlinarith [sq_nonneg (|x| - |y|)]
    have := abs_sub ((x' - x) * y) ((y' - y) * x)
    nlinarith
  refine cross.trans ?_
  have : u ≤ (u + 2 * u ^ 2) * (1 - u) := by nlinarith [sq_nonneg u]
  calc u * (x ^ 2 + y ^ 2) ≤ (u + 2 * u ^ 2) * (1 - u) * (x ^ 2 + y ^ 2) := mul_le_mul_of_nonneg_right this n0.le
    _ = (u + 2 * u ^ 2) * ((1 - u) * (x ^ 2 + y ^ 2)) := by ring
    _ ≤ _ := mul_le_mul_of_nonneg_left dot (by positivity)

/-- A library with the double nearest to π and an `atan2` that answers with doubles in `[-π, π]` within `ε` of a direction of the vector. -/
structure Trig64 (sq : ℚ → Val) (hy : ℚ → ℚ → Val) [FltTrig (B64 sq hy)] (ε : ℝ) : Prop where
  pi_eq : (Angle.pi : B64 sq hy) = Fl.fin pi64
  atan2 : ∀ x y : ℚ, IsF64 x → IsF64 y → ¬ (x = 0 ∧ y = 0) → ∃ (t : ℚ) (θ : ℝ), FltTrig.atan2 (Fl.fin y : B64 sq hy) (Fl.fin x) = Fl.fin t ∧ IsF64 t ∧
    |t| ≤ pi64 ∧ HasDirection θ x y ∧ |(t : ℝ) - θ| ≤ ε

variable {sq : ℚ → Val} {hy : ℚ → ℚ → Val} [FltTrig (B64 sq hy)] {ε : ℝ}

/-- Doubles up to 2^1022: their differences do not overflow. -/
def Half64 (c : Coord ℚ) : Prop := (IsF64 c.x ∧ IsF64 c.y) ∧ |c.x| ≤ 2 ^ (1022 : ℤ) ∧ |c.y| ≤ 2 ^ (1022 : ℤ)

theorem half_sub {a b : ℚ} (ha : IsF64 a) (hb : IsF64 b) (ba : |a| ≤ 2 ^ (1022 : ℤ)) (bb : |b| ≤ 2 ^ (1022 : ℤ)) :
    ∃ d : ℚ, (Fl.fin a : B64 sq hy) -. Fl.fin b = Fl.fin d ∧ IsF64 d ∧ |d - (a - b)| ≤ |a - b| / 2 ^ 53 ∧ (d = 0 ↔ a = b) := by
  have hle : |a - b| ≤ 2 ^ (1023 : ℤ) := by
    have e : (2 : ℚ) ^ (1023 : ℤ) = 2 ^ (1022 : ℤ) + 2 ^ (1022 : ℤ) := by
      rw [show (1023 : ℤ) = 1022 + 1 by norm_num, two_add]; ring
    have := abs_sub a b
    rw [e]
    clear e
    generalize (2 : ℚ) ^ (1022 : ℤ) = W at *
    linarith
  have hr : |a - b - near (a - b)| ≤ |a - b| / 2 ^ 53 := by
    have := near_add_rel ha.1 hb.1.neg
    rwa [← sub_eq_add_neg] at this
  refine ⟨near (a - b), ?_, ⟨near_rep _, lt_of_le_of_lt (near_le_pow (by norm_num) hle) (by rw [← zpow_natCast, two_lt_iff]; norm_num)⟩, ?_, ?_⟩
  · rw [fl_sub_fin]; exact fin_below hle
  · rw [abs_sub_comm]; exact hr
  · constructor
    · intro h
      rw [h, sub_zero] at hr
      have h0 := abs_nonneg (a - b)
      have : |a - b| = 0 := by linarith
      exact sub_eq_zero.mp (abs_eq_zero.mp this)
    · rintro rfl
      rw [sub_self, near_of_rep rep_zero]

/-- C127: the direction from one point to another, for arbitrary doubles that do not overflow: as accurate as the library, and a rounding of the differences. -/
theorem C127_direction (lib : Trig64 sq hy ε) {p q : Coord ℚ} (hp : Half64 p) (hq : Half64 q) (hne : ¬ (p.x = q.x ∧ p.y = q.y)) :
    ∃ (t : ℚ) (θ : ℝ), Angle.angleCoordinates (toB64 p : Coord (B64 sq hy)) (toB64 q) = Fl.fin t ∧ IsF64 t ∧ |t| ≤ pi64 ∧
      HasDirection θ ((q.x : ℝ) - p.x) ((q.y : ℝ) - p.y) ∧ |(t : ℝ) - θ| ≤ ε + 1 / 2 ^ 53 + 1 / 2 ^ 105 := by
  obtain ⟨⟨px, py⟩, bpx, bpy⟩ := hp
  obtain ⟨⟨qx, qy⟩, bqx, bqy⟩ := hq
  obtain ⟨dx, ex, fx, rx, zx⟩ := half_sub (sq := sq) (hy := hy) qx px bqx bpx
  obtain ⟨dy, ey, fy, ry, zy⟩ := half_sub (sq := sq) (hy := hy) qy py bqy bpy
  obtain ⟨t, θ', h1, h2, h3, h4, h5⟩ := lib.atan2 dx dy fx fy (fun h => hne ⟨(zx.mp h.1).symm, (zy.mp h.2).symm⟩)
  have rx' : |(dx : ℝ) - (q.x - p.x)| ≤ 1 / 2 ^ 53 * |(q.x : ℝ) - p.x| := by
    have := (Rat.cast_le (K := ℝ)).mpr rx
    push_cast at this
    linarith
  have ry' : |(dy : ℝ) - (q.y - p.y)| ≤ 1 / 2 ^ 53 * |(q.y : ℝ) - p.y| := by
    have := (Rat.cast_le (K := ℝ)).mpr ry
    push_cast at this
    linarith
  obtain ⟨θ, k1, k2⟩ := direction_relative h4 (by norm_num) (by norm_num) rx' ry'
  refine ⟨t, θ, ?_, h2, h3, k1, ?_⟩
  · unfold Angle.angleCoordinates toB64
    show FltTrig.atan2 ((Fl.fin q.y : B64 sq hy) -. Fl.fin p.y) ((Fl.fin q.x : B64 sq hy) -. Fl.fin p.x) = _
    rw [ex, ey, h1]
  · have e : (t : ℝ) - θ = (t - θ') - (θ - θ') := by ring
    rw [e]
    have := abs_sub ((t : ℝ) - θ') (θ - θ')
    have k3 : (1 : ℝ) / 2 ^ 53 + 2 * (1 / 2 ^ 53) ^ 2 = 1 / 2 ^ 53 + 1 / 2 ^ 105 := by norm_num
    linarith

/-- C127: the angle of a line segment, for arbitrary doubles. -/
theorem C127_segment (lib : Trig64 sq hy ε) {p q : Coord ℚ} (hp : Half64 p) (hq : Half64 q) (hne : ¬ (p.x = q.x ∧ p.y = q.y)) :
    ∃ (t : ℚ) (θ : ℝ), (⟨toB64 p, toB64 q⟩ : LineSeg (B64 sq hy)).angle = Fl.fin t ∧ |t| ≤ pi64 ∧
      HasDirection θ ((q.x : ℝ) - p.x) ((q.y : ℝ) - p.y) ∧ |(t : ℝ) - θ| ≤ ε + 1 / 2 ^ 53 + 1 / 2 ^ 105 := by
  obtain ⟨t, θ, h1, _, h3, h4, h5⟩ := C127_direction lib hp hq hne
  exact ⟨t, θ, h1, h3, h4, h5⟩

/-! ## Angles from directions -/

/-- The vectors `(x, y)` and `(x', y')` are not zero, and `φ` is the angle from the first to the second, up to whole turns. -/
def TurnsBy (φ x y x' y' : ℝ) : Prop := ∃ r > 0, x * x' + y * y' = r * Real.cos φ ∧ x * y' - y * x' = r * Real.sin φ

/-- The vectors are not zero, and `φ` in `[0, π]` is the angle between them. -/
def AngleIs (φ x y x' y' : ℝ) : Prop := 0 ≤ φ ∧ φ ≤ Real.pi ∧ ∃ r > 0, r ^ 2 = (x ^ 2 + y ^ 2) * (x' ^ 2 + y' ^ 2) ∧ x * x' + y * y' = r * Real.cos φ

theorem turn_of_directions {θ θ' x y x' y' : ℝ} (h : HasDirection θ x y) (h' : HasDirection θ' x' y') {φ : ℝ} (hφ : TurnsBy φ x y x' y') :
    ∃ k : ℤ, φ = θ' - θ + k * (2 * Real.pi) := by
  obtain ⟨r, r0, rfl, rfl⟩ := h
  obtain ⟨r', r0', rfl, rfl⟩ := h'
  obtain ⟨s, s0, e1, e2⟩ := hφ
  have c : r * r' * Real.cos (θ' - θ) = s * Real.cos φ := by rw [← e1, Real.cos_sub]; ring
  have d : r * r' * Real.sin (θ' - θ) = s * Real.sin φ := by rw [← e2, Real.sin_sub]; ring
  have p0 : 0 < r * r' := mul_pos r0 r0'
  have hs : r * r' = s := by
    have h1 := Real.sin_sq_add_cos_sq (θ' - θ)
    have h2 := Real.sin_sq_add_cos_sq φ
    have : (r * r') ^ 2 = s ^ 2 := by
      calc (r * r') ^ 2 = (r * r' * Real.sin (θ' - θ)) ^ 2 + (r * r' * Real.cos (θ' - θ)) ^ 2 := by linear_combination -(r * r') ^ 2 * h1
        _ = s ^ 2 := by rw [c, d]; linear_combination s ^ 2 * h2
    exact (pow_left_inj₀ p0.le s0.le two_ne_zero).mp this
  rw [hs] at c d
  have := Real.Angle.cos_sin_inj (mul_left_cancel₀ s0.ne' c).symm (mul_left_cancel₀ s0.ne' d).symm
  obtain ⟨k, hk⟩ := Real.Angle.angle_eq_iff_two_pi_dvd_sub.mp this
  exact ⟨k, by linarith⟩

theorem cos_of_directions {θ θ' x y x' y' : ℝ} (h : HasDirection θ x y) (h' : HasDirection θ' x' y') {φ : ℝ} (hφ : AngleIs φ x y x' y') :
    0 ≤ φ ∧ φ ≤ Real.pi ∧ Real.cos φ = Real.cos (θ' - θ) := by
  obtain ⟨r, r0, rfl, rfl⟩ := h
  obtain ⟨r', r0', rfl, rfl⟩ := h'
  obtain ⟨f0, f1, s, s0, e1, e2⟩ := hφ
  refine ⟨f0, f1, ?_⟩
  have p0 : 0 < r * r' := mul_pos r0 r0'
  have hs : s = r * r' := by
    have h1 := Real.sin_sq_add_cos_sq θ
    have h2 := Real.sin_sq_add_cos_sq θ'
    have : s ^ 2 = (r * r') ^ 2 := by
      rw [e1, show ((r * Real.cos θ) ^ 2 + (r * Real.sin θ) ^ 2) = r ^ 2 by linear_combination r ^ 2 * h1,
        show ((r' * Real.cos θ') ^ 2 + (r' * Real.sin θ') ^ 2) = r' ^ 2 by linear_combination r' ^ 2 * h2]
      ring
    exact (pow_left_inj₀ s0.le p0.le two_ne_zero).mp this
  have c : r * r' * Real.cos (θ' - θ) = s * Real.cos φ := by rw [← e2, Real.cos_sub]; ring
  rw [← hs] at c
  exact (mul_left_cancel₀ s0.ne' c).symm

/-- The angle in `[0, π]` with the cosine of `δ`, compared with the lesser of the turns `s` and `2π - s`. -/
theorem lesser_turn {φ δ s : ℝ} (f0 : 0 ≤ φ) (f1 : φ ≤ Real.pi) (hc : Real.cos φ = Real.cos δ) (hs : |s| ≤ 2 * Real.pi) :
    |min |s| (2 * Real.pi - |s|) - φ| ≤ |δ - s| := by
  have pp := Real.pi_pos
  -- φ = ±δ + 2πk
  have hk : ∃ k : ℤ, φ = |δ - k * (2 * Real.pi)| := by
    obtain ⟨k, h | h⟩ := Real.cos_eq_cos_iff.mp hc
    · exact ⟨k, by rw [show δ - k * (2 * Real.pi) = φ by linarith, abs_of_nonneg f0]⟩
    · exact ⟨k, by rw [show δ - k * (2 * Real.pi) = -φ by linarith, abs_neg, abs_of_nonneg f0]⟩
  obtain ⟨k, hk⟩ := hk
  have least : ∀ j : ℤ, φ ≤ |δ - j * (2 * Real.pi)| := by
    intro j
    rcases eq_or_ne j k with rfl | hj
    · exact hk.le
    · have h1 : (1 : ℝ) ≤ |((j - k : ℤ) : ℝ)| := by
        have : (1 : ℤ) ≤ |j - k| := Int.one_le_abs (sub_ne_zero.mpr hj)
        exact_mod_cast this
      have h2 : |((j - k : ℤ) : ℝ) * (2 * Real.pi)| ≤ |δ - j * (2 * Real.pi)| + |δ - k * (2 * Real.pi)| := by
        have e : ((j - k : ℤ) : ℝ) * (2 * Real.pi) = (δ - k * (2 * Real.pi)) - (δ - j * (2 * Real.pi)) := by push_cast; ring
        rw [e]
        have := abs_sub (δ - k * (2 * Real.pi)) (δ - j * (2 * Real.pi))
        linarith
      rw [abs_mul, abs_of_pos (show 0 < 2 * Real.pi by linarith)] at h2
      nlinarith
  have g1 : min |s| (2 * Real.pi - |s|) ≤ |s - k * (2 * Real.pi)| := by
    rcases eq_or_ne k 0 with rfl | h0
    · simp
    · refine (min_le_right _ _).trans ?_
      have h1 : (1 : ℝ) ≤ |(k : ℝ)| := by exact_mod_cast Int.one_le_abs h0
      have h2 : |(k : ℝ) * (2 * Real.pi)| ≤ |s - k * (2 * Real.pi)| + |s| := by
        have e : (k : ℝ) * (2 * Real.pi) = s - (s - k * (2 * Real.pi)) := by ring
        have := abs_sub s (s - k * (2 * Real.pi))
        rw [← e] at this
        linarith
      rw [abs_mul, abs_of_pos (show 0 < 2 * Real.pi by linarith)] at h2
      nlinarith
  have sh : ∀ j : ℤ, |s - j * (2 * Real.pi)| ≤ |δ - j * (2 * Real.pi)| + |δ - s| ∧ |δ - j * (2 * Real.pi)| ≤ |s - j * (2 * Real.pi)| + |δ - s| := by
    intro j
    constructor
    · have := abs_sub (δ - j * (2 * Real.pi)) (δ - s)
      rwa [show δ - j * (2 * Real.pi) - (δ - s) = s - j * (2 * Real.pi) by ring] at this
    · have := abs_add_le (s - j * (2 * Real.pi)) (δ - s)
      rwa [show s - j * (2 * Real.pi) + (δ - s) = δ - j * (2 * Real.pi) by ring] at this
  rw [abs_le]
  constructor
  · have : φ - |δ - s| ≤ min |s| (2 * Real.pi - |s|) := by
      refine le_min ?_ ?_
      · have h1 := least 0
        have h2 := (sh 0).2
        simp only [Int.cast_zero, zero_mul, sub_zero] at h1 h2
        linarith
      · rcases le_total 0 s with h | h
        · have h1 := least 1
          have h2 := (sh 1).2
          rw [Int.cast_one, one_mul] at h1 h2
          rw [abs_of_nonneg h] at hs ⊢
          rw [abs_of_nonpos (show s - 2 * Real.pi ≤ 0 by linarith)] at h2
          linarith
        · have h1 := least (-1)
          have h2 := (sh (-1)).2
          rw [Int.cast_neg, Int.cast_one, neg_one_mul] at h1 h2
          rw [abs_of_nonpos h] at hs ⊢
          rw [abs_of_nonneg (show 0 ≤ s - -(2 * Real.pi) by linarith)] at h2
          linarith
    linarith
  · have := (sh k).1
    linarith

theorem pi64_real : |Real.pi - (pi64 : ℝ)| ≤ 1 / 2 ^ 52 ∧ (pi64 : ℝ) ≤ Real.pi := by
  refine ⟨by have := C83_pi.2.1.le; rwa [zpow_neg, ← one_div] at this, ?_⟩
  have h1 := Real.pi_gt_d20
  unfold pi64
  norm_num at h1 ⊢
  linarith

/-- `E` bounds the errors of both directions. -/
structure Directed (a b : ℚ) (x y x' y' E : ℝ) : Prop where
  fa : IsF64 a
  ra : |a| ≤ pi64
  rb : |b| ≤ pi64
  near : ∃ θ θ', HasDirection θ x y ∧ HasDirection θ' x' y' ∧ |(a : ℝ) - θ| ≤ E ∧ |(b : ℝ) - θ'| ≤ E

theorem diff_accurate (hpi : (Angle.pi : B64 sq hy) = Fl.fin pi64) {a b : ℚ} {x y x' y' E : ℝ} (h : Directed a b x y x' y' E) :
    ∃ d, Angle.diff (Fl.fin a : B64 sq hy) (Fl.fin b) = Fl.fin d ∧ 0 ≤ d ∧ d ≤ pi64 ∧ ∀ φ, AngleIs φ x y x' y' → |(d : ℝ) - φ| ≤ 2 * E + 1 / 2 ^ 50 := by
  obtain ⟨θ, θ', hθ, hθ', ea, eb⟩ := h.near
  obtain ⟨d, d1, d2, d3, d4⟩ := (C83_diff hpi).2 a b h.ra h.rb
  refine ⟨d, d1, d2, d3, fun φ hφ => ?_⟩
  obtain ⟨f0, f1, fc⟩ := cos_of_directions hθ hθ' hφ
  obtain ⟨q1, q2⟩ := pi64_real
  have hs : |(b : ℝ) - a| ≤ 2 * pi64 := by
    have h1 := (Rat.cast_le (K := ℝ)).mpr h.ra
    have h2 := (Rat.cast_le (K := ℝ)).mpr h.rb
    push_cast at h1 h2
    have := abs_sub (b : ℝ) a
    linarith
  have k1 := lesser_turn f0 f1 fc (s := (b : ℝ) - a) (hs.trans (by linarith))
  have k2 : |θ' - θ - ((b : ℝ) - a)| ≤ 2 * E := by
    have := abs_sub ((a : ℝ) - θ) (b - θ')
    rw [show (a : ℝ) - θ - (b - θ') = θ' - θ - (b - a) by ring] at this
    linarith
  have k3 : |(d : ℝ) - min |(b : ℝ) - a| (2 * pi64 - |(b : ℝ) - a|)| ≤ 1 / 2 ^ 51 := by
    have := (Rat.cast_le (K := ℝ)).mpr d4
    push_cast at this
    rw [abs_sub_comm (b : ℝ)]
    rwa [zpow_neg, ← one_div] at this
  have k4 : |min |(b : ℝ) - a| (2 * pi64 - |(b : ℝ) - a|) - min |(b : ℝ) - a| (2 * Real.pi - |(b : ℝ) - a|)| ≤ 1 / 2 ^ 51 := by
    have := abs_min_sub_min_le_max |(b : ℝ) - a| (2 * pi64 - |(b : ℝ) - a|) |(b : ℝ) - a| (2 * Real.pi - |(b : ℝ) - a|)
    refine this.trans (max_le (by rw [sub_self, abs_zero]; positivity) ?_)
    rw [show 2 * (pi64 : ℝ) - |(b : ℝ) - a| - (2 * Real.pi - |(b : ℝ) - a|) = -(2 * (Real.pi - pi64)) by ring, abs_neg, abs_mul, abs_two]
    linarith
  have e50 : (1 : ℝ) / 2 ^ 50 = 1 / 2 ^ 51 + 1 / 2 ^ 51 := by norm_num
  have k5 := abs_le.mp (k1.trans k2)
  rw [abs_le] at k3 k4 ⊢
  constructor <;> linarith [k5.1, k5.2, k3.1, k3.2, k4.1, k4.2]

/-- Whole turns of the double 2π and of 2π. -/
theorem turns_real (k : ℤ) (c : ℝ) (hk : |(k : ℝ)| ≤ c) : |(k : ℝ) * (2 * pi64) - k * (2 * Real.pi)| ≤ c / 2 ^ 51 := by
  obtain ⟨q1, _⟩ := pi64_real
  rw [show (k : ℝ) * (2 * pi64) - k * (2 * Real.pi) = -(2 * (k * (Real.pi - pi64))) by ring, abs_neg, abs_mul, abs_mul, abs_two]
  have : |(k : ℝ)| * |Real.pi - pi64| ≤ c * (1 / 2 ^ 52) := mul_le_mul hk q1 (abs_nonneg _) ((abs_nonneg _).trans hk)
  have e : c / 2 ^ 51 = 2 * (c * (1 / 2 ^ 52)) := by ring
  linarith

theorem oriented_accurate (hpi : (Angle.pi : B64 sq hy) = Fl.fin pi64) {a b : ℚ} {E : ℝ} (ra : |a| ≤ pi64) (rb : |b| ≤ pi64) {θ θ' : ℝ} (ea : |(a : ℝ) - θ| ≤ E)
    (eb : |(b : ℝ) - θ'| ≤ E) : ∃ d, Angle.orientedDiff (Fl.fin a : B64 sq hy) (Fl.fin b) = Fl.fin d ∧ IsF64 d ∧ -pi64 < d ∧ d ≤ pi64 ∧
      ∃ k : ℤ, |(d : ℝ) - (θ' - θ + k * (2 * Real.pi))| ≤ 2 * E + 1 / 2 ^ 50 := by
  obtain ⟨d, d1, d2, d3, d4, k, k1, k2⟩ := C83_oriented_diff hpi a b ra rb
  refine ⟨d, d1, d2, d3, d4, k, ?_⟩
  have k3 := (Rat.cast_le (K := ℝ)).mpr k2
  push_cast at k3
  rw [zpow_neg, ← one_div] at k3
  have k4 := turns_real k 1 (by exact_mod_cast k1)
  have e50 : (1 : ℝ) / 2 ^ 50 = 1 / 2 ^ 51 + 1 / 2 ^ 51 := by norm_num
  have z51 : ((2 : ℝ) ^ (51 : ℤ)) = 2 ^ 51 := by norm_cast
  rw [z51] at k3
  rw [abs_le] at k3 k4 ea eb ⊢
  constructor <;> linarith [k3.1, k3.2, k4.1, k4.2, ea.1, ea.2, eb.1, eb.2]

/-- C127: the angle between two directions from a point, for arbitrary doubles: within 2 ε + 3/2^51 of the angle between the vectors. -/
theorem C127_between (lib : Trig64 sq hy ε) {p0 p1 p2 : Coord ℚ} (h0 : Half64 p0) (h1 : Half64 p1) (h2 : Half64 p2) (n0 : ¬ (p1.x = p0.x ∧ p1.y = p0.y))
    (n2 : ¬ (p1.x = p2.x ∧ p1.y = p2.y)) :
    ∃ d : ℚ, Angle.angleBetween (toB64 p0 : Coord (B64 sq hy)) (toB64 p1) (toB64 p2) = Fl.fin d ∧ 0 ≤ d ∧ d ≤ pi64 ∧
      ∀ φ, AngleIs φ ((p0.x : ℝ) - p1.x) (p0.y - p1.y) (p2.x - p1.x) (p2.y - p1.y) → |(d : ℝ) - φ| ≤ 2 * ε + 3 / 2 ^ 51 := by
  obtain ⟨a, θ, e1, fa, ra, hθ, ea⟩ := C127_direction lib h1 h0 n0
  obtain ⟨b, θ', e2, fb, rb, hθ', eb⟩ := C127_direction lib h1 h2 n2
  obtain ⟨d, d1, d2, d3, d4⟩ := diff_accurate (sq := sq) (hy := hy) lib.pi_eq (⟨fa, ra, rb, θ, θ', hθ, hθ', ea, eb⟩ : Directed a b _ _ _ _ _)
  refine ⟨d, ?_, d2, d3, fun φ hφ => (d4 φ hφ).trans ?_⟩
  · unfold Angle.angleBetween
    rw [e1, e2, d1]
  · norm_num; linarith

/-- C127: the turn from one direction to another, for arbitrary doubles: within 2 ε + 3/2^51 of a turn from the first vector to the second. -/
theorem C127_oriented (lib : Trig64 sq hy ε) {p0 p1 p2 : Coord ℚ} (h0 : Half64 p0) (h1 : Half64 p1) (h2 : Half64 p2) (n0 : ¬ (p1.x = p0.x ∧ p1.y = p0.y))
    (n2 : ¬ (p1.x = p2.x ∧ p1.y = p2.y)) :
    ∃ d : ℚ, Angle.angleBetweenOriented (toB64 p0 : Coord (B64 sq hy)) (toB64 p1) (toB64 p2) = Fl.fin d ∧ -pi64 < d ∧ d ≤ pi64 ∧
      ∀ φ, TurnsBy φ ((p0.x : ℝ) - p1.x) (p0.y - p1.y) (p2.x - p1.x) (p2.y - p1.y) → ∃ k : ℤ, |(d : ℝ) - (φ + k * (2 * Real.pi))| ≤ 2 * ε + 3 / 2 ^ 51 := by
  obtain ⟨a, θ, e1, fa, ra, hθ, ea⟩ := C127_direction lib h1 h0 n0
  obtain ⟨b, θ', e2, fb, rb, hθ', eb⟩ := C127_direction lib h1 h2 n2
  obtain ⟨d, d1, _, d2, d3, k, d4⟩ := oriented_accurate (sq := sq) (hy := hy) lib.pi_eq ra rb ea eb
  refine ⟨d, ?_, d2, d3, fun φ hφ => ?_⟩
  · unfold Angle.angleBetweenOriented
    rw [e1, e2, d1]
  · obtain ⟨j, hj⟩ := turn_of_directions hθ hθ' hφ
    refine ⟨k - j, ?_⟩
    rw [hj, show θ' - θ + (j : ℝ) * (2 * Real.pi) + ((k - j : ℤ) : ℝ) * (2 * Real.pi) = θ' - θ + k * (2 * Real.pi) by push_cast; ring]
    refine d4.trans ?_
    norm_num; linarith

/-- C127: so left and right turns are told apart, unless the angle is within that error of 0 or of half a turn. -/
theorem C127_side (lib : Trig64 sq hy ε) {p0 p1 p2 : Coord ℚ} (h0 : Half64 p0) (h1 : Half64 p1) (h2 : Half64 p2) {φ : ℝ}
    (hφ : TurnsBy φ ((p0.x : ℝ) - p1.x) (p0.y - p1.y) (p2.x - p1.x) (p2.y - p1.y)) (f0 : 2 * ε + 3 / 2 ^ 51 < |φ|) (f1 : |φ| < Real.pi - (2 * ε + 3 / 2 ^ 51)) :
    ∃ d : ℚ, Angle.angleBetweenOriented (toB64 p0 : Coord (B64 sq hy)) (toB64 p1) (toB64 p2) = Fl.fin d ∧ |(d : ℝ) - φ| ≤ 2 * ε + 3 / 2 ^ 51 ∧ (0 < d ↔ 0 < φ) ∧ (d < 0 ↔ φ < 0) := by
  have n0 : ¬ (p1.x = p0.x ∧ p1.y = p0.y) := by
    rintro ⟨e1, e2⟩
    obtain ⟨r, r0, k1, k2⟩ := hφ
    rw [e1, e2] at k1 k2
    have := Real.sin_sq_add_cos_sq φ
    have c : Real.cos φ = 0 := by
      have : r * Real.cos φ = 0 := by rw [← k1]; ring
      exact (mul_eq_zero.mp this).resolve_left r0.ne'
    have s : Real.sin φ = 0 := by
      have : r * Real.sin φ = 0 := by rw [← k2]; ring
      exact (mul_eq_zero.mp this).resolve_left r0.ne'
    rw [c, s] at this; norm_num at this
  have n2 : ¬ (p1.x = p2.x ∧ p1.y = p2.y) := by
    rintro ⟨e1, e2⟩
    obtain ⟨r, r0, k1, k2⟩ := hφ
    rw [e1, e2] at k1 k2
    have := Real.sin_sq_add_cos_sq φ
    have c : Real.cos φ = 0 := by
      have : r * Real.cos φ = 0 := by rw [← k1]; ring
      exact (mul_eq_zero.mp this).resolve_left r0.ne'
    have s : Real.sin φ = 0 := by
      have : r * Real.sin φ = 0 := by rw [← k2]; ring
      exact (mul_eq_zero.mp this).resolve_left r0.ne'
    rw [c, s] at this; norm_num at this
  obtain ⟨d, d1, d2, d3, d4⟩ := C127_oriented lib h0 h1 h2 n0 n2
  obtain ⟨k, hk⟩ := d4 φ hφ
  obtain ⟨q1, q2⟩ := pi64_real
  have pp := Real.pi_gt_three
  have d2' : -(pi64 : ℝ) < d := by exact_mod_cast d2
  have d3' : (d : ℝ) ≤ pi64 := by exact_mod_cast d3
  have k0 : k = 0 := by
    by_contra h
    have h1 : (1 : ℝ) ≤ |(k : ℝ)| := by exact_mod_cast Int.one_le_abs h
    have h2 : |(k : ℝ) * (2 * Real.pi)| ≤ |(d : ℝ) - (φ + k * (2 * Real.pi))| + (|(d : ℝ)| + |φ|) := by
      have e : (k : ℝ) * (2 * Real.pi) = (d - φ) - (d - (φ + k * (2 * Real.pi))) := by ring
      have := abs_sub ((d : ℝ) - φ) (d - (φ + k * (2 * Real.pi)))
      rw [← e] at this
      have := abs_sub (d : ℝ) φ
      linarith
    rw [abs_mul, abs_of_pos (show 0 < 2 * Real.pi by linarith)] at h2
    have h3 : |(d : ℝ)| ≤ Real.pi := by rw [abs_le]; constructor <;> linarith
    nlinarith
  rw [k0, Int.cast_zero, zero_mul, add_zero] at hk
  refine ⟨d, d1, hk, ?_⟩
  have hk' := abs_le.mp hk
  have z1 : (0 < d ↔ 0 < (d : ℝ)) := by exact_mod_cast Iff.rfl
  have z2 : (d < 0 ↔ (d : ℝ) < 0) := by exact_mod_cast Iff.rfl
  rw [z1, z2]
  rcases le_total 0 φ with h | h
  · rw [abs_of_nonneg h] at f0
    have E0 : 0 ≤ 2 * ε + 3 / 2 ^ 51 := (abs_nonneg _).trans hk
    constructor <;> constructor <;> intro _ <;> linarith
  · rw [abs_of_nonpos h] at f0
    have E0 : 0 ≤ 2 * ε + 3 / 2 ^ 51 := (abs_nonneg _).trans hk
    constructor <;> constructor <;> intro _ <;> linarith

/-- C127: the interior angle at a point, for arbitrary doubles: ends in `[0, 2π)`, within 2 ε + 3/2^50 of a turn from the first vector to the second. -/
theorem C127_interior (lib : Trig64 sq hy ε) {p0 p1 p2 : Coord ℚ} (h0 : Half64 p0) (h1 : Half64 p1) (h2 : Half64 p2) (n0 : ¬ (p1.x = p0.x ∧ p1.y = p0.y))
    (n2 : ¬ (p1.x = p2.x ∧ p1.y = p2.y)) :
    ∃ (f : ℕ) (d : ℚ), (∀ g, f ≤ g → Angle.interiorAngle g (toB64 p0 : Coord (B64 sq hy)) (toB64 p1) (toB64 p2) = some (Fl.fin d)) ∧ 0 ≤ d ∧ d < 2 * pi64 ∧
      ∀ φ, TurnsBy φ ((p0.x : ℝ) - p1.x) (p0.y - p1.y) (p2.x - p1.x) (p2.y - p1.y) → ∃ k : ℤ, |(d : ℝ) - (φ + k * (2 * Real.pi))| ≤ 2 * ε + 3 / 2 ^ 50 := by
  obtain ⟨a, θ, e1, fa, ra, hθ, ea⟩ := C127_direction lib h1 h0 n0
  obtain ⟨b, θ', e2, fb, rb, hθ', eb⟩ := C127_direction lib h1 h2 n2
  obtain ⟨f, d, d1, d2, d3, k, hk⟩ := (C83_between lib.pi_eq _ _ _ a b e1 e2 fa ra rb).2.2.1
  refine ⟨f, d, d1, d2, d3, fun φ hφ => ?_⟩
  obtain ⟨j, hj⟩ := turn_of_directions hθ hθ' hφ
  refine ⟨k - j, ?_⟩
  rw [hj, show θ' - θ + (j : ℝ) * (2 * Real.pi) + ((k - j : ℤ) : ℝ) * (2 * Real.pi) = θ' - θ + k * (2 * Real.pi) by push_cast; ring]
  obtain ⟨b1, b2⟩ := pi64_bounds
  have hk2 : |k| ≤ 2 := by
    by_contra h
    have h3 : 3 ≤ |k| := by omega
    have h4 : (3 : ℚ) ≤ |(k : ℚ)| := by exact_mod_cast h3
    have h5 : |(k : ℚ) * (2 * pi64)| ≤ |d - (b - a + k * (2 * pi64))| + (|d| + (|b| + |a|)) := by
      have e : (k : ℚ) * (2 * pi64) = (d - (b - a)) - (d - (b - a + k * (2 * pi64))) := by ring
      have t1 := abs_sub (d - (b - a)) (d - (b - a + k * (2 * pi64)))
      rw [← e] at t1
      have t2 := abs_sub d (b - a)
      have t3 := abs_sub b a
      linarith
    rw [abs_mul, abs_of_pos (show 0 < 2 * pi64 by linarith), abs_of_nonneg d2] at h5
    have h6 : (2 : ℚ) ^ (-50 : ℤ) ≤ 1 := by norm_num [zpow_neg]
    nlinarith
  have k3 := (Rat.cast_le (K := ℝ)).mpr hk
  push_cast at k3
  rw [zpow_neg, ← one_div, show ((2 : ℝ) ^ (50 : ℤ)) = 2 ^ 50 by norm_cast] at k3
  have k4 := turns_real k 2 (by exact_mod_cast hk2)
  have en : (3 : ℝ) / 2 ^ 50 = 1 / 2 ^ 50 + 2 / 2 ^ 51 + 1 / 2 ^ 50 := by norm_num
  have es : 2 * ((1 : ℝ) / 2 ^ 53 + 1 / 2 ^ 105) ≤ 1 / 2 ^ 50 := by norm_num
  rw [abs_le] at k3 k4 ea eb ⊢
  constructor <;> linarith [k3.1, k3.2, k4.1, k4.2, ea.1, ea.2, eb.1, eb.2]

/-- C127: the bisector of two directions from a point, for arbitrary doubles: ends in `(-π, π]`, within 2 ε + 3/2^50 of a direction of the first vector turned by half of a turn `φ`
of at most about π from the first vector to the second. -/
theorem C127_bisector (lib : Trig64 sq hy ε) {p0 p1 p2 : Coord ℚ} (h0 : Half64 p0) (h1 : Half64 p1) (h2 : Half64 p2) (n0 : ¬ (p1.x = p0.x ∧ p1.y = p0.y))
    (n2 : ¬ (p1.x = p2.x ∧ p1.y = p2.y)) :
    ∃ (f : ℕ) (d : ℚ) (θ φ : ℝ), (∀ g, f ≤ g → Angle.bisector g (toB64 p0 : Coord (B64 sq hy)) (toB64 p1) (toB64 p2) = some (Fl.fin d)) ∧ -pi64 < d ∧ d ≤ pi64 ∧
      HasDirection θ ((p0.x : ℝ) - p1.x) (p0.y - p1.y) ∧ HasDirection (θ + φ) ((p2.x : ℝ) - p1.x) (p2.y - p1.y) ∧ |φ| ≤ Real.pi + (2 * ε + 3 / 2 ^ 51) ∧
      |(d : ℝ) - (θ + φ / 2)| ≤ 2 * ε + 3 / 2 ^ 50 := by
  obtain ⟨a, θ, e1, fa, ra, hθ, ea⟩ := C127_direction lib h1 h0 n0
  obtain ⟨b, θ', e2, fb, rb, hθ', eb⟩ := C127_direction lib h1 h2 n2
  obtain ⟨o, d1, d0, d2, d3, k, d4⟩ := oriented_accurate (sq := sq) (hy := hy) lib.pi_eq ra rb ea eb
  obtain ⟨b1, b2⟩ := pi64_bounds
  obtain ⟨q1, q2⟩ := pi64_real
  have m1 := near_mono (show o / 2 ≤ pi64 by linarith)
  have m2 := near_mono (show -pi64 ≤ o / 2 by linarith)
  rw [near_neg] at m2
  rw [near_of_rep pi64_rep] at m1 m2
  have hr : ((binary64 sq hy).rnd (o / 2) : Val) = .fin (near (o / 2)) := rnd_near (by rw [abs_le]; norm_num; constructor <;> linarith)
  have ra' := abs_le.mp ra
  have hs : |a + near (o / 2)| ≤ 2 * pi64 := by rw [abs_le]; constructor <;> linarith
  obtain ⟨s1, s2⟩ := turn_err hs
  have ho : |o / 2| ≤ 2 * pi64 := by rw [abs_le]; constructor <;> linarith
  obtain ⟨o1, _⟩ := turn_err ho
  have hr2 : ((binary64 sq hy).rnd (a + near (o / 2)) : Val) = .fin (near (a + near (o / 2))) := rnd_near (turn_small s2)
  obtain ⟨f, r, r1, _, r3, r4, r5⟩ := C83_normalize lib.pi_eq (near (a + near (o / 2))) ⟨near_rep _, lt_2_1024 (turn_small s2)⟩ (turn_small s2)
  obtain ⟨j, hj⟩ := r5 (by linarith)
  have hj1 : |j| ≤ 1 := by
    by_contra h
    have h3 : 2 ≤ |j| := by omega
    have h4 : (2 : ℚ) ≤ |(j : ℚ)| := by exact_mod_cast h3
    have s2' := abs_le.mp s2
    rcases abs_cases (j : ℚ) with ⟨h, _⟩ | ⟨h, _⟩ <;> rw [h] at h4 <;> nlinarith
  have j4 := turns_real j 1 (by exact_mod_cast hj1)
  have s1' := (Rat.cast_le (K := ℝ)).mpr s1
  have o1' := (Rat.cast_le (K := ℝ)).mpr o1
  push_cast at s1' o1'
  rw [zpow_neg, ← one_div, show ((2 : ℝ) ^ (51 : ℤ)) = 2 ^ 51 by norm_cast] at s1' o1'
  have hjr : (r : ℝ) = near (a + near (o / 2)) - j * (2 * pi64) := by rw [hj]; push_cast; ring
  have es : 2 * ((1 : ℝ) / 2 ^ 53 + 1 / 2 ^ 105) ≤ 1 / 2 ^ 51 := by norm_num
  have e50 : (1 : ℝ) / 2 ^ 50 = 1 / 2 ^ 51 + 1 / 2 ^ 51 := by norm_num
  have e350 : (3 : ℝ) / 2 ^ 50 = 6 * (1 / 2 ^ 51) := by norm_num
  have e351 : (3 : ℝ) / 2 ^ 51 = 3 * (1 / 2 ^ 51) := by norm_num
  have d2' : -(pi64 : ℝ) < o := by exact_mod_cast d2
  have d3' : (o : ℝ) ≤ pi64 := by exact_mod_cast d3
  refine ⟨f, r, θ - j * (2 * Real.pi), θ' - θ + k * (2 * Real.pi), fun g hg => ?_, r3, r4, ?_, ?_, ?_, ?_⟩
  · have := r1 g hg
    rw [← this]
    unfold Angle.bisector Angle.angleBetweenOriented
    rw [e1, e2, d1]
    simp only
    rw [lit64_two]
    have hdiv : (Fl.fin o : B64 sq hy) /. Fl.fin 2 = (binary64 sq hy).rnd (o / 2) := rfl
    rw [hdiv, hr]
    have hadd : (Fl.fin a : B64 sq hy) +. Fl.fin (near (o / 2)) = (binary64 sq hy).rnd (a + near (o / 2)) := rfl
    congr 1
  · obtain ⟨s, s0, h1, h2⟩ := hθ
    exact ⟨s, s0, by rw [Real.cos_sub_int_mul_two_pi]; exact h1, by rw [Real.sin_sub_int_mul_two_pi]; exact h2⟩
  · obtain ⟨s, s0, h1, h2⟩ := hθ'
    refine ⟨s, s0, ?_, ?_⟩
    · rw [show θ - (j : ℝ) * (2 * Real.pi) + (θ' - θ + k * (2 * Real.pi)) = θ' + ((k - j : ℤ) : ℝ) * (2 * Real.pi) by push_cast; ring, Real.cos_add_int_mul_two_pi]; exact h1
    · rw [show θ - (j : ℝ) * (2 * Real.pi) + (θ' - θ + k * (2 * Real.pi)) = θ' + ((k - j : ℤ) : ℝ) * (2 * Real.pi) by push_cast; ring, Real.sin_add_int_mul_two_pi]; exact h2
  · rw [abs_le] at d4 ⊢
    constructor <;> linarith [d4.1, d4.2]
  · rw [hjr]
    rw [abs_le] at d4 j4 s1' o1' ea ⊢
    constructor <;> linarith [d4.1, d4.2, j4.1, j4.2, s1'.1, s1'.2, o1'.1, o1'.2, ea.1, ea.2]

/-- C127: the angle of a vector, the angle between vectors and the turn from one vector to another, for all doubles. -/
theorem C127_vectors (lib : Trig64 sq hy ε) {x y x' y' : ℚ} (hx : IsF64 x) (hY : IsF64 y) (hx' : IsF64 x') (hY' : IsF64 y') (n : ¬ (x = 0 ∧ y = 0)) (n' : ¬ (x' = 0 ∧ y' = 0)) :
    (∃ (t : ℚ) (θ : ℝ), (⟨Fl.fin x, Fl.fin y⟩ : Vec2 (B64 sq hy)).angle = Fl.fin t ∧ HasDirection θ x y ∧ |(t : ℝ) - θ| ≤ ε) ∧
    (∃ d : ℚ, (⟨Fl.fin x, Fl.fin y⟩ : Vec2 (B64 sq hy)).angleWith ⟨Fl.fin x', Fl.fin y'⟩ = Fl.fin d ∧ 0 ≤ d ∧ d ≤ pi64 ∧
      ∀ φ, AngleIs φ x y x' y' → |(d : ℝ) - φ| ≤ 2 * ε + 1 / 2 ^ 50) ∧
    ∃ d : ℚ, (⟨Fl.fin x, Fl.fin y⟩ : Vec2 (B64 sq hy)).angleTo ⟨Fl.fin x', Fl.fin y'⟩ = Fl.fin d ∧ -pi64 < d ∧ d ≤ pi64 ∧
      ∀ φ, TurnsBy φ x y x' y' → ∃ k : ℤ, |(d : ℝ) - (φ + k * (2 * Real.pi))| ≤ 2 * ε + 1 / 2 ^ 50 := by
  obtain ⟨a, θ, e1, fa, ra, hθ, ea⟩ := lib.atan2 x y hx hY n
  obtain ⟨b, θ', e2, fb, rb, hθ', eb⟩ := lib.atan2 x' y' hx' hY' n'
  refine ⟨⟨a, θ, e1, hθ, ea⟩, ?_, ?_⟩
  · obtain ⟨d, d1, d2, d3, d4⟩ := diff_accurate (sq := sq) (hy := hy) lib.pi_eq (⟨fb, rb, ra, θ', θ, hθ', hθ, eb, ea⟩ : Directed b a _ _ _ _ _)
    refine ⟨d, ?_, d2, d3, fun φ hφ => d4 φ ?_⟩
    · unfold Vec2.angleWith Vec2.angle
      rw [e1, e2, d1]
    · obtain ⟨f0, f1, r, r0, h1, h2⟩ := hφ
      exact ⟨f0, f1, r, r0, by rw [h1]; ring, by rw [← h2]; ring⟩
  · obtain ⟨d, d1, _, d2, d3, k, d4⟩ := oriented_accurate (sq := sq) (hy := hy) lib.pi_eq ra rb ea eb
    refine ⟨d, ?_, d2, d3, fun φ hφ => ?_⟩
    · unfold Vec2.angleTo Vec2.angle
      rw [e1, e2, d1]
    · obtain ⟨j, hj⟩ := turn_of_directions hθ hθ' hφ
      refine ⟨k - j, ?_⟩
      rw [hj, show θ' - θ + (j : ℝ) * (2 * Real.pi) + ((k - j : ℤ) : ℝ) * (2 * Real.pi) = θ' - θ + k * (2 * Real.pi) by push_cast; ring]
      exact d4

/-! ## Such libraries exist, and an example -/

/-- A double near a number of at most 4 in size. -/
theorem double_near (x : ℝ) (h : |x| ≤ 4) : ∃ t : ℚ, IsF64 t ∧ |(t : ℝ) - x| ≤ 1 / 2 ^ 52 := by
  refine ⟨(round (x * 2 ^ 51) : ℤ) / 2 ^ 51, ?_, ?_⟩
  · have hb : |(round (x * 2 ^ 51) : ℤ)| ≤ 2 ^ 53 := by
      have h1 := abs_sub_round (x * 2 ^ 51)
      have h2 : |x * 2 ^ 51| ≤ 2 ^ 53 := by rw [abs_mul, abs_of_pos (show (0 : ℝ) < 2 ^ 51 by norm_num)]; norm_num at h ⊢; linarith
      have h3 : |((round (x * 2 ^ 51) : ℤ) : ℝ)| ≤ 2 ^ 53 + 1 / 2 := by
        rw [abs_le] at h1 h2 ⊢
        constructor <;> linarith [h1.1, h1.2, h2.1, h2.2]
      have h4 : ((|(round (x * 2 ^ 51) : ℤ)| : ℤ) : ℝ) < ((2 ^ 53 + 1 : ℤ) : ℝ) := by
        rw [Int.cast_abs]; norm_num at h3 ⊢; linarith
      have h5 : |(round (x * 2 ^ 51) : ℤ)| < 2 ^ 53 + 1 := by exact_mod_cast h4
      omega
    refine ⟨⟨round (x * 2 ^ 51), -51, hb, by norm_num, by rw [zpow_neg, div_eq_mul_inv]; norm_cast⟩, ?_⟩
    have hb' : |((round (x * 2 ^ 51) : ℤ) : ℚ)| ≤ 2 ^ 53 := by exact_mod_cast hb
    rw [abs_div, abs_of_pos (show (0 : ℚ) < 2 ^ 51 by norm_num)]
    refine lt_of_le_of_lt (b := (2 : ℚ) ^ 53) ?_ (pow_lt_pow_right₀ (by norm_num) (by norm_num))
    refine (div_le_self (abs_nonneg _) (by norm_num)).trans hb'
  · have h1 := abs_sub_round (x * 2 ^ 51)
    push_cast
    have e : ((round (x * 2 ^ 51) : ℤ) : ℝ) / 2 ^ 51 - x = -(x * 2 ^ 51 - round (x * 2 ^ 51)) / 2 ^ 51 := by ring
    rw [e, abs_div, abs_neg, abs_of_pos (show (0 : ℝ) < 2 ^ 51 by norm_num), div_le_iff₀ (by norm_num)]
    norm_num at h1 ⊢
    linarith

theorem direction_arg {x y : ℝ} (h : ¬ (x = 0 ∧ y = 0)) : HasDirection (Complex.arg ⟨x, y⟩) x y := by
  have h0 : (⟨x, y⟩ : ℂ) ≠ 0 := fun hh => h ⟨congrArg Complex.re hh, congrArg Complex.im hh⟩
  refine ⟨‖(⟨x, y⟩ : ℂ)‖, norm_pos_iff.mpr h0, ?_, ?_⟩
  · rw [Complex.norm_mul_cos_arg]
  · rw [Complex.norm_mul_sin_arg]

/-- There is a library that meets the hypotheses with an error of 2^-52. -/
theorem trig64_exists (sq : ℚ → Val) (hy : ℚ → ℚ → Val) : ∃ inst : FltTrig (B64 sq hy), @Trig64 sq hy inst (1 / 2 ^ 52) := by
  have ex : ∀ x y : ℚ, ∃ t : ℚ, IsF64 t ∧ |t| ≤ pi64 ∧ |(t : ℝ) - Complex.arg ⟨x, y⟩| ≤ 1 / 2 ^ 52 := by
    intro x y
    obtain ⟨q1, q2⟩ := pi64_real
    have hl := Complex.neg_pi_lt_arg ⟨x, y⟩
    have hu := Complex.arg_le_pi ⟨x, y⟩
    have h4 := Real.pi_le_four
    obtain ⟨t, t1, t2⟩ := double_near (Complex.arg ⟨x, y⟩) (by rw [abs_le]; constructor <;> linarith)
    have f := C83_pi.1
    have p0 : 0 < pi64 := lt_trans (by norm_num) pi64_bounds.1
    rw [abs_of_nonneg (by linarith)] at q1
    rw [abs_le] at t2
    rcases lt_or_ge pi64 t with h | h
    · have h' : (pi64 : ℝ) < t := by exact_mod_cast h
      exact ⟨pi64, f, (abs_of_pos p0).le, by rw [abs_le]; constructor <;> linarith⟩
    · rcases lt_or_ge t (-pi64) with h2 | h2
      · have h' : (t : ℝ) < -pi64 := by exact_mod_cast h2
        refine ⟨-pi64, ⟨f.1.neg, by rw [abs_neg]; exact f.2⟩, by rw [abs_neg, abs_of_pos p0], ?_⟩
        rw [abs_le]; push_cast; constructor <;> linarith
      · exact ⟨t, t1, abs_le.mpr ⟨h2, h⟩, abs_le.mpr t2⟩
  choose f f1 f2 f3 using ex
  let inst : FltTrig (B64 sq hy) := ⟨Fl.fin pi64, id, id, fun y x => match y, x with | .fin y, .fin x => .fin (f x y) | _, _ => .nan⟩
  refine ⟨inst, rfl, fun x y hx hy' h => ?_⟩
  refine ⟨f x y, _, rfl, f1 x y, f2 x y, direction_arg (fun hh => h ⟨by exact_mod_cast hh.1, by exact_mod_cast hh.2⟩), f3 x y⟩

/-- A right angle at (1, 1) and a quarter turn to the right, with 2^-30 as ordinate: cases that meet the hypotheses. -/
example : Half64 ⟨1, 1, 0, 0⟩ ∧ Half64 ⟨1, 1 + 1 / 2 ^ 30, 0, 0⟩ ∧ Half64 ⟨1 + 1 / 2 ^ 52, 1, 0, 0⟩ ∧
    AngleIs (Real.pi / 2) (((1 : ℚ) : ℝ) - (1 : ℚ)) (((1 + 1 / 2 ^ 30 : ℚ) : ℝ) - (1 : ℚ)) (((1 + 1 / 2 ^ 52 : ℚ) : ℝ) - (1 : ℚ)) (((1 : ℚ) : ℝ) - (1 : ℚ)) ∧
    TurnsBy (-(Real.pi / 2)) (((1 : ℚ) : ℝ) - (1 : ℚ)) (((1 + 1 / 2 ^ 30 : ℚ) : ℝ) - (1 : ℚ)) (((1 + 1 / 2 ^ 52 : ℚ) : ℝ) - (1 : ℚ)) (((1 : ℚ) : ℝ) - (1 : ℚ)) := by
  have b : ∀ q : ℚ, |q| ≤ 2 → |q| ≤ 2 ^ (1022 : ℤ) := fun q h => h.trans (by
    rw [← zpow_one (2 : ℚ), ← zpow_mul]; exact two_mono (by norm_num))
  refine ⟨⟨⟨f64_of (by decide +kernel), f64_of (by decide +kernel)⟩, b _ (by norm_num), b _ (by norm_num)⟩,
    ⟨⟨f64_of (by decide +kernel), f64_of (by decide +kernel)⟩, b _ (by norm_num), b _ (by norm_num [abs_of_pos])⟩,
    ⟨⟨f64_of (by decide +kernel), f64_of (by decide +kernel)⟩, b _ (by norm_num [abs_of_pos]), b _ (by norm_num)⟩,
    ⟨by positivity, by linarith [Real.pi_pos], 1 / 2 ^ 82, by norm_num, by norm_num, by rw [Real.cos_pi_div_two]; norm_num⟩,
    1 / 2 ^ 82, by norm_num, by rw [Real.cos_neg, Real.cos_pi_div_two]; norm_num, by rw [Real.sin_neg, Real.sin_pi_div_two]; norm_num⟩

end Verif.Props
