import Verif.Model.Angle
import Verif.Spec.Metric
import Verif.Lemmas.Flt
import Verif.Lemmas.Ext
import Verif.Props.Orientation
import Mathlib.Analysis.SpecialFunctions.Trigonometric.Basic
import Mathlib.Algebra.Order.Round

set_option linter.unusedSectionVars false

/-! # C43: angles -/

namespace Verif.Props
open Flt Verif.Spec

/-! ### The loops -/

/-- More fuel does not change the result of a loop that has ended. -/
theorem whileFuel_mono {α : Type} (c : α → Bool) (s : α → α) (r : α) (f g : Nat) (hfg : f ≤ g) :
    ∀ a, whileFuel c s f a = some r → whileFuel c s g a = some r := by
  induction f generalizing g with
  | zero => intro a h; simp [whileFuel] at h
  | succ f ih =>
    intro a h
    obtain ⟨g, rfl⟩ : ∃ g', g = g' + 1 := ⟨g - 1, by omega⟩
    unfold whileFuel at h ⊢
    split_ifs at h ⊢ with hc
    · exact ih g (by omega) _ h
    · exact h

/-- A loop whose step does not change the state never ends. -/
theorem whileFuel_stuck {α : Type} (c : α → Bool) (s : α → α) (a : α) (hc : c a = true) (hs : s a = a) (f : Nat) :
    whileFuel c s f a = none := by
  induction f with
  | zero => rfl
  | succ f ih => unfold whileFuel; rw [if_pos hc, hs]; exact ih

/-- A loop that is not entered. -/
theorem whileFuel_skip {α : Type} (c : α → Bool) (s : α → α) (a : α) (hc : c a = false) (f : Nat) :
    whileFuel c s (f + 1) a = some a := by
  unfold whileFuel; rw [if_neg (by simp [hc])]

/-- Subtracting `p` while above `b` (strictly, or including `b`). -/
theorem while_down (b p : ℝ) (hp : 0 < p) (c : ℝ → Bool) (s : ℝ → ℝ) (hs : ∀ x, s x = x - p) (hc1 : ∀ x, b < x → c x = true) (hc2 : ∀ x, x < b → c x = false)
    (a : ℝ) : ∃ f r, whileFuel c s f a = some r ∧ c r = false ∧ (∃ k : ℕ, r = a - k * p ∧ (0 < k → b ≤ r + p)) := by
  obtain ⟨n, hn⟩ := exists_nat_gt ((a - b) / p)
  have : ∀ n : ℕ, ∀ a : ℝ, (a - b) / p < n → ∃ f r, whileFuel c s f a = some r ∧ c r = false ∧ (∃ k : ℕ, r = a - k * p ∧ (0 < k → b ≤ r + p)) := by
    intro n
    induction n with
    | zero =>
      intro a ha
      have : a < b := by rw [div_lt_iff₀ hp] at ha; simp at ha; exact ha
      exact ⟨1, a, whileFuel_skip _ _ _ (hc2 a this) 0, hc2 a this, 0, by simp, by simp⟩
    | succ n ih =>
      intro a ha
      by_cases hca : c a = true
      · have hb : b ≤ a := by by_contra hh; rw [hc2 a (not_le.mp hh)] at hca; exact absurd hca (by simp)
        obtain ⟨f, r, h1, h2, k, h3, h4⟩ := ih (a - p) (by
          rw [div_lt_iff₀ hp] at ha ⊢; push_cast at ha; linarith)
        refine ⟨f + 1, r, by unfold whileFuel; rw [if_pos hca, hs]; exact h1, h2, k + 1, by rw [h3]; push_cast; ring, fun _ => ?_⟩
        rcases Nat.eq_zero_or_pos k with hk | hk
        · rw [h3, hk]; simp; exact hb
        · exact h4 hk
      · exact ⟨1, a, whileFuel_skip _ _ _ (by simpa using hca) 0, by simpa using hca, 0, by simp, by simp⟩
  exact this n a hn

/-- Adding `p` while below `b`. -/
theorem while_up (b p : ℝ) (hp : 0 < p) (c : ℝ → Bool) (s : ℝ → ℝ) (hs : ∀ x, s x = x + p) (hc1 : ∀ x, x < b → c x = true) (hc2 : ∀ x, b < x → c x = false)
    (a : ℝ) : ∃ f r, whileFuel c s f a = some r ∧ c r = false ∧ (∃ k : ℕ, r = a + k * p ∧ (0 < k → r - p ≤ b)) := by
  obtain ⟨n, hn⟩ := exists_nat_gt ((b - a) / p)
  have : ∀ n : ℕ, ∀ a : ℝ, (b - a) / p < n → ∃ f r, whileFuel c s f a = some r ∧ c r = false ∧ (∃ k : ℕ, r = a + k * p ∧ (0 < k → r - p ≤ b)) := by
    intro n
    induction n with
    | zero =>
      intro a ha
      have : b < a := by rw [div_lt_iff₀ hp] at ha; simp at ha; exact ha
      exact ⟨1, a, whileFuel_skip _ _ _ (hc2 a this) 0, hc2 a this, 0, by simp, by simp⟩
    | succ n ih =>
      intro a ha
      by_cases hca : c a = true
      · have hb : a ≤ b := by by_contra hh; rw [hc2 a (not_le.mp hh)] at hca; exact absurd hca (by simp)
        obtain ⟨f, r, h1, h2, k, h3, h4⟩ := ih (a + p) (by
          rw [div_lt_iff₀ hp] at ha ⊢; push_cast at ha; linarith)
        refine ⟨f + 1, r, by unfold whileFuel; rw [if_pos hca, hs]; exact h1, h2, k + 1, by rw [h3]; push_cast; ring, fun _ => ?_⟩
        rcases Nat.eq_zero_or_pos k with hk | hk
        · rw [h3, hk]; simp; exact hb
        · exact h4 hk
      · exact ⟨1, a, whileFuel_skip _ _ _ (by simpa using hca) 0, by simpa using hca, 0, by simp, by simp⟩
  exact this n a hn

theorem twoPi_real : (Angle.twoPi : ℝ) = 2 * Real.pi := by simp [Angle.twoPi]

/-- In exact real arithmetic `normalize` ends and returns the angle of `(-π, π]` equivalent to the given one. -/
theorem C43_normalize (a : ℝ) :
    ∃ n r, (∀ fuel, n ≤ fuel → Angle.normalize fuel a = some r) ∧ -Real.pi < r ∧ r ≤ Real.pi ∧ ∃ k : ℤ, r = a + k * (2 * Real.pi) := by
  have hp : 0 < 2 * Real.pi := by positivity
  obtain ⟨f, r, h1, h2, k, h3, h4⟩ := while_down Real.pi (2 * Real.pi) hp (fun a => a >. Angle.pi) (fun a => a -. Angle.twoPi)
    (by simp [twoPi_real]) (by intro x hx; simpa using hx) (by intro x hx; simpa using hx.le) a
  obtain ⟨f', r', h1', h2', k', h3', h4'⟩ := while_up (-Real.pi) (2 * Real.pi) hp (fun a => a ≤. -.Angle.pi) (fun a => a +. Angle.twoPi)
    (by simp [twoPi_real]) (by intro x hx; simpa using hx.le) (by intro x hx; simpa using hx) r
  simp only [exact_lt, exact_le, exact_neg, real_pi, decide_eq_false_iff_not, not_lt, not_le] at h2 h2'
  refine ⟨f + f', r', fun fuel hf => ?_, h2', ?_, (k' : ℤ) - (k : ℤ), by rw [h3', h3]; push_cast; ring⟩
  · unfold Angle.normalize
    rw [whileFuel_mono _ _ r f fuel (by omega) _ h1]
    exact whileFuel_mono _ _ r' f' fuel (by omega) _ h1'
  · rcases Nat.eq_zero_or_pos k' with hk | hk
    · rw [h3', hk]; simpa using h2
    · have := h4' hk; linarith

/-- In exact real arithmetic `normalize_positive` ends and returns the angle of `[0, 2π)` equivalent to the given one. -/
theorem C43_normalize_positive (a : ℝ) :
    ∃ n r, (∀ fuel, n ≤ fuel → Angle.normalizePositive fuel a = some r) ∧ 0 ≤ r ∧ r < 2 * Real.pi ∧ ∃ k : ℤ, r = a + k * (2 * Real.pi) := by
  have hp : 0 < 2 * Real.pi := by positivity
  by_cases ha : a < 0
  · obtain ⟨f, r, h1, h2, k, h3, h4⟩ := while_up 0 (2 * Real.pi) hp (fun a => a <. lit 0) (fun a => a +. Angle.twoPi)
      (by simp [twoPi_real]) (by intro x hx; simpa using hx) (by intro x hx; simpa using hx.le) a
    simp only [exact_lt, exact_lit, Rat.cast_zero, decide_eq_false_iff_not, not_lt] at h2
    have hk : 0 < k := by
      rcases Nat.eq_zero_or_pos k with hk | hk
      · rw [hk] at h3; simp at h3; linarith
      · exact hk
    have h5 := h4 hk
    by_cases h6 : r < 2 * Real.pi
    · refine ⟨f, r, fun fuel hf => ?_, h2, h6, k, by rw [h3]; push_cast; ring⟩
      unfold Angle.normalizePositive
      rw [if_pos (by simpa using ha), whileFuel_mono _ _ r f fuel hf _ h1]
      have : ((r ≥. Angle.twoPi) : Bool) = false := by simp [twoPi_real]; linarith
      show some (if (r ≥. Angle.twoPi) = true then lit 0 else r) = some r
      rw [if_neg (by rw [this]; simp)]
    · exfalso
      -- the last value before was below zero
      obtain ⟨k, rfl⟩ : ∃ k', k = k' + 1 := ⟨k - 1, by omega⟩
      have h7 : r = 2 * Real.pi := by linarith
      rw [h7] at h1
      -- replay: the loop would have stopped at 0
      have : ∀ (f : ℕ) (a r : ℝ), a < 0 → whileFuel (fun a : ℝ => a <. lit 0) (fun a => a +. Angle.twoPi) f a = some r → r < 2 * Real.pi := by
        intro f
        induction f with
        | zero => intro a r _ h; simp [whileFuel] at h
        | succ f ih =>
          intro a r ha h
          unfold whileFuel at h
          rw [if_pos (by simpa using ha)] at h
          by_cases h0 : a + 2 * Real.pi < 0
          · exact ih _ _ (by simpa [twoPi_real] using h0) h
          · cases f with
            | zero => simp [whileFuel] at h
            | succ f =>
              rw [whileFuel_skip _ _ _ (by simpa [twoPi_real] using h0)] at h
              simp [twoPi_real] at h; linarith
      exact absurd (this f a _ ha h1) (lt_irrefl _)
  · obtain ⟨f, r, h1, h2, k, h3, h4⟩ := while_down (2 * Real.pi) (2 * Real.pi) hp (fun a => a ≥. Angle.twoPi) (fun a => a -. Angle.twoPi)
      (by simp [twoPi_real]) (by intro x hx; simp [twoPi_real]; linarith) (by intro x hx; simpa [twoPi_real] using hx) a
    simp only [exact_le, twoPi_real, decide_eq_false_iff_not, not_le] at h2
    have h0 : 0 ≤ r := by
      rcases Nat.eq_zero_or_pos k with hk | hk
      · rw [h3, hk]; simp; exact not_lt.mp ha
      · have := h4 hk; linarith
    refine ⟨f, r, fun fuel hf => ?_, h0, h2, -(k : ℤ), by rw [h3]; push_cast; ring⟩
    unfold Angle.normalizePositive
    rw [if_neg (by simpa using ha), whileFuel_mono _ _ r f fuel hf _ h1]
    simp [not_lt.mpr h0]

/-- The angle of a half-open range of length 2π is determined by its class: so `normalize` is the unique representative, angles
already in range are kept, and equivalent angles get equal results. -/
theorem rep_unique (lo : ℝ) (r r' : ℝ)
    (h' : (lo ≤ r' ∧ r' < lo + 2 * Real.pi) ∧ (lo ≤ r ∧ r < lo + 2 * Real.pi) ∨ (lo < r' ∧ r' ≤ lo + 2 * Real.pi) ∧ (lo < r ∧ r ≤ lo + 2 * Real.pi))
    (k : ℤ) (e : r = r' + k * (2 * Real.pi)) : r = r' := by
  have hp := Real.pi_pos
  have h1 : (-1 : ℝ) < k ∧ (k : ℝ) < 1 := by
    constructor
    · by_contra hh; rw [not_lt] at hh
      have : (k : ℝ) * (2 * Real.pi) ≤ -1 * (2 * Real.pi) := mul_le_mul_of_nonneg_right hh (by positivity)
      rcases h' with h' | h' <;> linarith [h'.1.1, h'.1.2, h'.2.1, h'.2.2]
    · by_contra hh; rw [not_lt] at hh
      have : 1 * (2 * Real.pi) ≤ (k : ℝ) * (2 * Real.pi) := mul_le_mul_of_nonneg_right hh (by positivity)
      rcases h' with h' | h' <;> linarith [h'.1.1, h'.1.2, h'.2.1, h'.2.2]
  have : k = 0 := by
    have a1 : (-1 : ℤ) < k := by exact_mod_cast h1.1
    have a2 : k < 1 := by exact_mod_cast h1.2
    omega
  rw [e, this]; simp

/-- Two angles have the same normal form exactly if they differ by a multiple of a full turn, and a normal form is its own. -/
theorem C43_normalize_canonical (a b r s : ℝ) (f g : Nat) (ha : Angle.normalize f a = some r) (hb : Angle.normalize g b = some s) :
    (r = s ↔ ∃ k : ℤ, b = a + k * (2 * Real.pi)) ∧ (-Real.pi < a → a ≤ Real.pi → r = a) := by
  have mono : ∀ (a r : ℝ) (f g : Nat), f ≤ g → Angle.normalize f a = some r → Angle.normalize g a = some r := by
    intro a r f g hfg h
    unfold Angle.normalize at h ⊢
    cases h1 : whileFuel (fun a : ℝ => a >. Angle.pi) (fun a => a -. Angle.twoPi) f a with
    | none => rw [h1] at h; exact absurd h (by simp)
    | some u =>
      rw [h1] at h
      rw [whileFuel_mono _ _ u f g hfg _ h1]
      exact whileFuel_mono _ _ r f g hfg _ h
  have key : ∀ (a r : ℝ) (f : Nat), Angle.normalize f a = some r → -Real.pi < r ∧ r ≤ Real.pi ∧ ∃ k : ℤ, r = a + k * (2 * Real.pi) := by
    intro a r f h
    obtain ⟨n, r', h1, h2⟩ := C43_normalize a
    have := h1 (n + f) (by omega)
    rw [mono a r f (n + f) (by omega) h] at this
    rw [Option.some.inj this]; exact h2
  obtain ⟨r1, r2, kr, er⟩ := key a r f ha
  obtain ⟨s1, s2, ks, es⟩ := key b s g hb
  have hpi := Real.pi_pos
  refine ⟨⟨fun h => ⟨kr - ks, ?_⟩, ?_⟩, fun h1 h2 => ?_⟩
  · push_cast; rw [h] at er; linarith
  · rintro ⟨k, hk⟩
    refine rep_unique (-Real.pi) r s (.inr ⟨⟨s1, by linarith⟩, ⟨r1, by linarith⟩⟩) (kr - k - ks) ?_
    push_cast; linarith
  · exact rep_unique (-Real.pi) r a (.inr ⟨⟨h1, by linarith⟩, ⟨r1, by linarith⟩⟩) kr er

/-- In any arithmetic: if subtracting a full turn does not change a value above π, `normalize` never ends; likewise the others. -/
theorem C43_diverges {α : Type} [Flt α] [FltTrig α] (a : α) (fuel : Nat) :
    ((a >. Angle.pi) = true → a -. Angle.twoPi = a → Angle.normalize fuel a = none) ∧
    ((a <. lit 0) = false → (a ≥. Angle.twoPi) = true → a -. Angle.twoPi = a → Angle.normalizePositive fuel a = none) ∧
    ((a <. lit 0) = true → a +. Angle.twoPi = a → Angle.normalizePositive fuel a = none) := by
  refine ⟨fun h1 h2 => ?_, fun h0 h1 h2 => ?_, fun h1 h2 => ?_⟩
  · unfold Angle.normalize; rw [whileFuel_stuck _ _ _ h1 h2]; rfl
  · unfold Angle.normalizePositive; rw [if_neg (by simp [h0]), whileFuel_stuck _ _ _ h1 h2]; rfl
  · unfold Angle.normalizePositive; rw [if_pos h1, whileFuel_stuck (fun a : α => a <. lit 0) (fun a => a +. Angle.twoPi) a h1 h2]; rfl

/-- An instance: whatever the rounding and the library, normalising an infinite angle never ends (`π` and `2π` finite). -/
theorem C43_infinite_angle_diverges {rd : Rounding} [FltTrig (Fl rd)] (p q : ℚ) (hp : (Angle.pi : Fl rd) = Fl.fin p) (hq : (Angle.twoPi : Fl rd) = Fl.fin q)
    (h0 : ∃ z, (lit 0 : Fl rd) = Fl.fin z) (fuel : Nat) :
    Angle.normalize fuel (Fl.pinf : Fl rd) = none ∧ Angle.normalizePositive fuel (Fl.pinf : Fl rd) = none ∧
    Angle.normalizePositive fuel (Fl.ninf : Fl rd) = none := by
  obtain ⟨z, hz⟩ := h0
  refine ⟨(C43_diverges _ fuel).1 (by rw [hp]; rfl) (by rw [hq]; rfl), (C43_diverges _ fuel).2.1 (by rw [hz]; rfl) (by rw [hq]; rfl) (by rw [hq]; rfl),
    (C43_diverges _ fuel).2.2 (by rw [hz]; rfl) (by rw [hq]; rfl)⟩

/-- The difference of two angles is symmetric; for angles less than a full turn apart it is in `[0, π]` and equivalent to their
difference up to sign. -/
theorem C43_diff_partial (a b : ℝ) :
    Angle.diff a b = Angle.diff b a ∧
    (|a - b| ≤ 2 * Real.pi → 0 ≤ Angle.diff a b ∧ Angle.diff a b ≤ Real.pi ∧
      ∃ k : ℤ, Angle.diff a b = (a - b) + k * (2 * Real.pi) ∨ Angle.diff a b = (b - a) + k * (2 * Real.pi)) := by
  have e : ∀ a b : ℝ, Angle.diff a b = if |a - b| > Real.pi then 2 * Real.pi - |a - b| else |a - b| := by
    intro a b
    unfold Angle.diff
    simp only [exact_lt, exact_sub, real_pi, twoPi_real, decide_eq_true_eq]
    have : (if a < b then b - a else a - b) = |a - b| := by
      split_ifs with h
      · rw [abs_of_neg (by linarith)]; ring
      · rw [abs_of_nonneg (by linarith)]
    rw [this]
  rw [e, e]
  refine ⟨by rw [abs_sub_comm], fun h => ?_⟩
  have hn := abs_nonneg (a - b)
  split_ifs with h1
  · refine ⟨by linarith, by linarith, 1, ?_⟩
    rcases abs_cases (a - b) with ⟨h2, _⟩ | ⟨h2, _⟩
    · right; rw [h2]; push_cast; ring
    · left; rw [h2]; push_cast; ring
  · refine ⟨hn, not_lt.mp h1, 0, ?_⟩
    rcases abs_cases (a - b) with ⟨h2, _⟩ | ⟨h2, _⟩
    · left; rw [h2]; push_cast; ring
    · right; rw [h2]; push_cast; ring

/-- Without that bound the result can be negative: the angles must be normalised first. -/
theorem C43_diff_out_of_range : Angle.diff (0 : ℝ) (3 * Real.pi) = -Real.pi ∧ Angle.diff (0 : ℝ) (3 * Real.pi) < 0 := by
  have hp := Real.pi_pos
  have : Angle.diff (0 : ℝ) (3 * Real.pi) = -Real.pi := by
    unfold Angle.diff
    simp only [exact_lt, exact_sub, real_pi, twoPi_real, decide_eq_true_eq]
    rw [if_pos (show (0:ℝ) < 3 * Real.pi by linarith), if_pos (by linarith)]; ring
  exact ⟨this, by rw [this]; linarith⟩

/-! ### Angles between directions -/

/-- Inner product and cross product of `p - t` and `q - t`. -/
def dotAt (t p q : Coord ℝ) : ℝ := (p.x - t.x) * (q.x - t.x) + (p.y - t.y) * (q.y - t.y)

theorem arg_polar (x y : ℝ) : Real.sqrt (x ^ 2 + y ^ 2) * Real.cos (Complex.arg ⟨x, y⟩) = x ∧
    Real.sqrt (x ^ 2 + y ^ 2) * Real.sin (Complex.arg ⟨x, y⟩) = y := by
  have hn : ‖(⟨x, y⟩ : ℂ)‖ = Real.sqrt (x ^ 2 + y ^ 2) := by
    rw [Complex.norm_eq_sqrt_sq_add_sq]
  exact ⟨by rw [← hn]; exact Complex.norm_mul_cos_arg ⟨x, y⟩, by rw [← hn]; exact Complex.norm_mul_sin_arg ⟨x, y⟩⟩

theorem arg_diff (x y u v : ℝ) :
    Real.sqrt (x ^ 2 + y ^ 2) * Real.sqrt (u ^ 2 + v ^ 2) * Real.cos (Complex.arg ⟨u, v⟩ - Complex.arg ⟨x, y⟩) = x * u + y * v ∧
    Real.sqrt (x ^ 2 + y ^ 2) * Real.sqrt (u ^ 2 + v ^ 2) * Real.sin (Complex.arg ⟨u, v⟩ - Complex.arg ⟨x, y⟩) = x * v - y * u := by
  obtain ⟨h1, h2⟩ := arg_polar x y
  obtain ⟨h3, h4⟩ := arg_polar u v
  rw [Real.cos_sub, Real.sin_sub]
  obtain ⟨a, ha⟩ : ∃ a, a = Real.sqrt (x ^ 2 + y ^ 2) := ⟨_, rfl⟩
  obtain ⟨b, hb⟩ : ∃ a, a = Real.sqrt (u ^ 2 + v ^ 2) := ⟨_, rfl⟩
  rw [← ha] at h1 h2 ⊢; rw [← hb] at h3 h4 ⊢
  obtain ⟨c1, hc1⟩ : ∃ a, a = Real.cos (Complex.arg ⟨x, y⟩) := ⟨_, rfl⟩
  obtain ⟨s1, hs1⟩ : ∃ a, a = Real.sin (Complex.arg ⟨x, y⟩) := ⟨_, rfl⟩
  obtain ⟨c2, hc2⟩ : ∃ a, a = Real.cos (Complex.arg ⟨u, v⟩) := ⟨_, rfl⟩
  obtain ⟨s2, hs2⟩ : ∃ a, a = Real.sin (Complex.arg ⟨u, v⟩) := ⟨_, rfl⟩
  rw [← hc1] at h1 ⊢; rw [← hs1] at h2 ⊢; rw [← hc2] at h3 ⊢; rw [← hs2] at h4 ⊢
  constructor
  · linear_combination (b * c2) * h1 + (b * s2) * h2 + x * h3 + y * h4
  · linear_combination (b * s2) * h1 - (b * c2) * h2 + x * h4 - y * h3

theorem arg_range (x y : ℝ) : -Real.pi < Complex.arg ⟨x, y⟩ ∧ Complex.arg ⟨x, y⟩ ≤ Real.pi :=
  ⟨Complex.neg_pi_lt_arg _, Complex.arg_le_pi _⟩

/-- `orientedDiff` on angles in `(-π, π]`. -/
theorem oriented_spec (a1 a2 : ℝ) (h1 : -Real.pi < a1 ∧ a1 ≤ Real.pi) (h2 : -Real.pi < a2 ∧ a2 ≤ Real.pi) :
    -Real.pi < Angle.orientedDiff a1 a2 ∧ Angle.orientedDiff a1 a2 ≤ Real.pi ∧
    ∃ k : ℤ, Angle.orientedDiff a1 a2 = a2 - a1 + k * (2 * Real.pi) := by
  unfold Angle.orientedDiff
  simp only [exact_lt, exact_le, exact_sub, exact_add, exact_neg, real_pi, twoPi_real, decide_eq_true_eq]
  split_ifs with k1 k2
  · exact ⟨by linarith [h1.1, h1.2, h2.1, h2.2], by linarith [h1.1, h1.2, h2.1, h2.2], 1, by push_cast; ring⟩
  · exact ⟨by linarith [h1.1, h1.2, h2.1, h2.2], by linarith [h1.1, h1.2, h2.1, h2.2], -1, by push_cast; ring⟩
  · exact ⟨not_le.mp k1, not_lt.mp k2, 0, by simp⟩

/-- The oriented angle at `tail` is in `(-π, π]`, and its cosine and sine are those of the turn from `tip1` to `tip2`. -/
theorem C43_between_oriented (tip1 tail tip2 : Coord ℝ) :
    -Real.pi < Angle.angleBetweenOriented tip1 tail tip2 ∧ Angle.angleBetweenOriented tip1 tail tip2 ≤ Real.pi ∧
    Spec.dist tip1 tail * Spec.dist tip2 tail * Real.cos (Angle.angleBetweenOriented tip1 tail tip2) = dotAt tail tip1 tip2 ∧
    Spec.dist tip1 tail * Spec.dist tip2 tail * Real.sin (Angle.angleBetweenOriented tip1 tail tip2) = det tail tip1 tip2 := by
  unfold Angle.angleBetweenOriented Angle.angleCoordinates
  simp only [exact_sub, real_atan2]
  obtain ⟨h1, h2, k, h3⟩ := oriented_spec _ _ (arg_range (tip1.x - tail.x) (tip1.y - tail.y)) (arg_range (tip2.x - tail.x) (tip2.y - tail.y))
  obtain ⟨c, s⟩ := arg_diff (tip1.x - tail.x) (tip1.y - tail.y) (tip2.x - tail.x) (tip2.y - tail.y)
  refine ⟨h1, h2, ?_, ?_⟩
  · rw [h3, Real.cos_add_int_mul_two_pi]; exact c
  · rw [h3, Real.sin_add_int_mul_two_pi]; exact s

/-- The unoriented angle at `tail` is in `[0, π]`, is the absolute value of the oriented one, symmetric, and its cosine is that of the
two directions. -/
theorem C43_between (tip1 tail tip2 : Coord ℝ) :
    0 ≤ Angle.angleBetween tip1 tail tip2 ∧ Angle.angleBetween tip1 tail tip2 ≤ Real.pi ∧
    Angle.angleBetween tip1 tail tip2 = |Angle.angleBetweenOriented tip1 tail tip2| ∧
    Angle.angleBetween tip2 tail tip1 = Angle.angleBetween tip1 tail tip2 ∧
    Spec.dist tip1 tail * Spec.dist tip2 tail * Real.cos (Angle.angleBetween tip1 tail tip2) = dotAt tail tip1 tip2 := by
  have r1 := arg_range (tip1.x - tail.x) (tip1.y - tail.y)
  have r2 := arg_range (tip2.x - tail.x) (tip2.y - tail.y)
  have sym : Angle.angleBetween tip2 tail tip1 = Angle.angleBetween tip1 tail tip2 := (C43_diff_partial _ _).1
  have ab : Angle.angleBetween tip1 tail tip2 = |Angle.angleBetweenOriented tip1 tail tip2| := by
    unfold Angle.angleBetween Angle.angleBetweenOriented Angle.angleCoordinates Angle.diff Angle.orientedDiff
    simp only [exact_sub, real_atan2, exact_lt, exact_le, exact_add, exact_neg, real_pi, twoPi_real, decide_eq_true_eq]
    obtain ⟨a, ha⟩ : ∃ a, a = Complex.arg ⟨tip1.x - tail.x, tip1.y - tail.y⟩ := ⟨_, rfl⟩
    obtain ⟨b, hb⟩ : ∃ a, a = Complex.arg ⟨tip2.x - tail.x, tip2.y - tail.y⟩ := ⟨_, rfl⟩
    rw [← ha] at r1 ⊢; rw [← hb] at r2 ⊢
    have hp := Real.pi_pos
    obtain ⟨p, hpe⟩ : ∃ p, p = Real.pi := ⟨_, rfl⟩
    rw [← hpe] at r1 r2 hp ⊢
    rw [abs_eq_max_neg]
    grind
  obtain ⟨h1, h2, h3, _⟩ := C43_between_oriented tip1 tail tip2
  refine ⟨by rw [ab]; exact abs_nonneg _, by rw [ab, abs_le]; exact ⟨h1.le, h2⟩, ab, sym, ?_⟩
  rw [ab, Real.cos_abs]; exact h3

/-- Acute, right and obtuse angles: the two tests compare the angle with a right one. -/
theorem C43_acute_obtuse (p0 p1 p2 : Coord ℝ) (h0 : ¬ (p0.x = p1.x ∧ p0.y = p1.y)) (h2 : ¬ (p2.x = p1.x ∧ p2.y = p1.y)) :
    (Angle.isAcute p0 p1 p2 = true ↔ Angle.angleBetween p0 p1 p2 < Real.pi / 2) ∧
    (Angle.isObtuse p0 p1 p2 = true ↔ Real.pi / 2 < Angle.angleBetween p0 p1 p2) := by
  obtain ⟨a1, a2, _, _, a3⟩ := C43_between p0 p1 p2
  have d0 : 0 < Spec.dist p0 p1 := lt_of_le_of_ne (Spec.dist_nonneg _ _) (fun e => h0 ((Spec.dist_eq_zero _ _).mp e.symm))
  have d2 : 0 < Spec.dist p2 p1 := lt_of_le_of_ne (Spec.dist_nonneg _ _) (fun e => h2 ((Spec.dist_eq_zero _ _).mp e.symm))
  have dp := mul_pos d0 d2
  have hA : Angle.isAcute p0 p1 p2 = true ↔ 0 < dotAt p1 p0 p2 := by simp [Angle.isAcute, dotAt]
  have hO : Angle.isObtuse p0 p1 p2 = true ↔ dotAt p1 p0 p2 < 0 := by simp [Angle.isObtuse, dotAt]
  have c1 : ∀ t : ℝ, 0 ≤ t → t ≤ Real.pi → (0 < Real.cos t ↔ t < Real.pi / 2) := by
    intro t t0 t1
    constructor
    · intro h; by_contra hh; rw [not_lt] at hh
      exact absurd h (not_lt.mpr (Real.cos_nonpos_of_pi_div_two_le_of_le hh (by linarith)))
    · intro h; exact Real.cos_pos_of_mem_Ioo ⟨by linarith [Real.pi_pos], h⟩
  have c2 : ∀ t : ℝ, 0 ≤ t → t ≤ Real.pi → (Real.cos t < 0 ↔ Real.pi / 2 < t) := by
    intro t t0 t1
    constructor
    · intro h; by_contra hh; rw [not_lt] at hh
      exact absurd h (not_lt.mpr (Real.cos_nonneg_of_neg_pi_div_two_le_of_le (by linarith [Real.pi_pos]) hh))
    · intro h; exact Real.cos_neg_of_pi_div_two_lt_of_lt h (by linarith [Real.pi_pos])
  rw [hA, hO, ← a3, mul_pos_iff_of_pos_left dp, c1 _ a1 a2]
  refine ⟨Iff.rfl, ?_⟩
  rw [← c2 _ a1 a2]
  constructor
  · intro h; by_contra hh; exact absurd h (not_lt.mpr (mul_nonneg dp.le (not_lt.mp hh)))
  · intro h; exact mul_neg_of_pos_of_neg dp h

/-- The turn from one direction to another: the sign of the sine of the angle; for the directions of two vectors it is the
orientation of the three points. -/
theorem C43_turn (a b : ℝ) (t p q : Coord ℝ) (hp : ¬ (p.x = t.x ∧ p.y = t.y)) (hq : ¬ (q.x = t.x ∧ q.y = t.y)) :
    Angle.getTurn b a = -Angle.getTurn a b ∧ (∀ k : ℤ, Angle.getTurn a (b + k * (2 * Real.pi)) = Angle.getTurn a b) ∧
    Angle.getTurn (Angle.angleCoordinates t p) (Angle.angleCoordinates t q) = Orientation.index t p q := by
  have e : ∀ a b : ℝ, Angle.getTurn a b = sgn (Real.sin (b - a)) := by
    intro a b; unfold Angle.getTurn sgn; simp only [exact_lt, exact_sub, exact_lit, Rat.cast_zero, real_sin, decide_eq_true_eq]
  refine ⟨?_, fun k => ?_, ?_⟩
  · rw [e, e, ← sgn_neg, ← Real.sin_neg]; congr 2; ring
  · rw [e, e, show b + k * (2 * Real.pi) - a = b - a + k * (2 * Real.pi) by ring, Real.sin_add_int_mul_two_pi]
  · have dp : 0 < Spec.dist p t := lt_of_le_of_ne (Spec.dist_nonneg _ _) (fun e => hp ((Spec.dist_eq_zero _ _).mp e.symm))
    have dq : 0 < Spec.dist q t := lt_of_le_of_ne (Spec.dist_nonneg _ _) (fun e => hq ((Spec.dist_eq_zero _ _).mp e.symm))
    rw [e, C29_index_is_sign]
    have := (arg_diff (p.x - t.x) (p.y - t.y) (q.x - t.x) (q.y - t.y)).2
    have d : det t p q = Spec.dist p t * Spec.dist q t * Real.sin (Angle.angleCoordinates t q - Angle.angleCoordinates t p) := this.symm
    rw [d, sgn_mul_pos (mul_pos dp dq)]

/-- The interior angle of a corner is in `[0, 2π)` and turns the direction to `p0` into the direction to `p2`; taken from the other
side the two add up to a full turn, unless both are zero. -/
theorem C43_interior (p0 p1 p2 : Coord ℝ) :
    ∃ n r s, (∀ fuel, n ≤ fuel → Angle.interiorAngle fuel p0 p1 p2 = some r ∧ Angle.interiorAngle fuel p2 p1 p0 = some s) ∧
      0 ≤ r ∧ r < 2 * Real.pi ∧ (r + s = 2 * Real.pi ∨ (r = 0 ∧ s = 0)) ∧
      Spec.dist p0 p1 * Spec.dist p2 p1 * Real.cos r = dotAt p1 p0 p2 ∧
      Spec.dist p0 p1 * Spec.dist p2 p1 * Real.sin r = det p1 p0 p2 := by
  obtain ⟨n, r, h1, h2, h3, k, h4⟩ := C43_normalize_positive (Angle.angleCoordinates p1 p2 - Angle.angleCoordinates p1 p0)
  obtain ⟨m, s, g1, g2, g3, l, g4⟩ := C43_normalize_positive (Angle.angleCoordinates p1 p0 - Angle.angleCoordinates p1 p2)
  obtain ⟨c, s'⟩ := arg_diff (p0.x - p1.x) (p0.y - p1.y) (p2.x - p1.x) (p2.y - p1.y)
  refine ⟨n + m, r, s, fun fuel hf => ⟨h1 fuel (by omega), g1 fuel (by omega)⟩, h2, h3, ?_, ?_, ?_⟩
  · have hp := Real.pi_pos
    have sum : r + s = ((k + l : ℤ) : ℝ) * (2 * Real.pi) := by rw [h4, g4]; push_cast; ring
    have b1 : 0 ≤ ((k + l : ℤ) : ℝ) := by
      by_contra hh
      have := mul_neg_of_neg_of_pos (not_le.mp hh) (show 0 < 2 * Real.pi by positivity)
      linarith
    have b2 : ((k + l : ℤ) : ℝ) < 2 := by
      by_contra hh
      have := mul_le_mul_of_nonneg_right (not_lt.mp hh) (show 0 ≤ 2 * Real.pi by positivity)
      linarith
    have b1' : 0 ≤ k + l := by exact_mod_cast b1
    have b2' : k + l < 2 := by exact_mod_cast b2
    rcases (by omega : k + l = 0 ∨ k + l = 1) with h | h
    · rw [h] at sum; right; simp at sum; exact ⟨by linarith, by linarith⟩
    · rw [h] at sum; left; simpa using sum
  · rw [h4, Real.cos_add_int_mul_two_pi]; exact c
  · rw [h4, Real.sin_add_int_mul_two_pi]; exact s'

/-- The bisector direction is in `(-π, π]` and makes the same turn from the first side as to the second one. -/
theorem C43_bisector (tip1 tail tip2 : Coord ℝ) :
    ∃ n r, (∀ fuel, n ≤ fuel → Angle.bisector fuel tip1 tail tip2 = some r) ∧ -Real.pi < r ∧ r ≤ Real.pi ∧
      (∃ k : ℤ, r - Angle.angleCoordinates tail tip1 = Angle.angleCoordinates tail tip2 - r + k * (2 * Real.pi)) ∧
      (∃ k : ℤ, |r - Angle.angleCoordinates tail tip1 + k * (2 * Real.pi)| = Angle.angleBetween tip1 tail tip2 / 2) := by
  obtain ⟨n, r, h1, h2, h3, k, h4⟩ := C43_normalize (Angle.angleCoordinates tail tip1 + Angle.angleBetweenOriented tip1 tail tip2 / 2)
  obtain ⟨_, _, j, o3⟩ := oriented_spec _ _ (arg_range (tip1.x - tail.x) (tip1.y - tail.y)) (arg_range (tip2.x - tail.x) (tip2.y - tail.y))
  have o : Angle.angleBetweenOriented tip1 tail tip2 = Angle.angleCoordinates tail tip2 - Angle.angleCoordinates tail tip1 + j * (2 * Real.pi) := o3
  refine ⟨n, r, fun fuel hf => ?_, h2, h3, ⟨2 * k + j, ?_⟩, ⟨-k, ?_⟩⟩
  · unfold Angle.bisector
    simp only [exact_add, exact_div, exact_lit, Rat.cast_ofNat]
    exact h1 fuel hf
  · rw [h4, o]; push_cast; ring
  · rw [(C43_between tip1 tail tip2).2.2.1, h4]
    push_cast
    rw [show Angle.angleCoordinates tail tip1 + Angle.angleBetweenOriented tip1 tail tip2 / 2 + k * (2 * Real.pi) - Angle.angleCoordinates tail tip1
      + -(k : ℝ) * (2 * Real.pi) = Angle.angleBetweenOriented tip1 tail tip2 / 2 by ring, abs_div]
    norm_num

/-- Degrees and radians are inverse to each other, and a half turn is 180 degrees. -/
theorem C43_degrees (a : ℝ) : Angle.toRadians (Angle.toDegrees a) = a ∧ Angle.toDegrees (Angle.toRadians a) = a ∧ Angle.toDegrees Real.pi = 180 := by
  have hp := Real.pi_ne_zero
  unfold Angle.toRadians Angle.toDegrees
  simp only [exact_mul, exact_div, exact_lit, Rat.cast_ofNat, real_pi]
  exact ⟨by field_simp, by field_simp, by field_simp⟩

/-- The snapped sine and cosine differ from the exact ones by less than 5e-16, and small values become exactly zero. -/
theorem C43_snap (a : ℝ) :
    |Angle.sinSnap a - Real.sin a| < 5 / 10 ^ 16 ∧ |Angle.cosSnap a - Real.cos a| < 5 / 10 ^ 16 ∧
    (Angle.sinSnap a = 0 ∨ 5 / 10 ^ 16 ≤ |Angle.sinSnap a|) ∧ (Angle.cosSnap a = 0 ∨ 5 / 10 ^ 16 ≤ |Angle.cosSnap a|) := by
  have e : (Angle.snapEps : ℝ) = 5 / 10 ^ 16 := by unfold Angle.snapEps; simp only [exact_lit]; norm_num
  have h : ∀ x : ℝ, |(if Flt.abs x <. (Angle.snapEps : ℝ) then lit 0 else x) - x| < 5 / 10 ^ 16 ∧
      ((if Flt.abs x <. (Angle.snapEps : ℝ) then lit 0 else x) = 0 ∨ 5 / 10 ^ 16 ≤ |(if Flt.abs x <. (Angle.snapEps : ℝ) then lit 0 else x)|) := by
    intro x
    have ea : Flt.abs x = |x| := by rw [abs_eq_max_neg]; rfl
    rw [ea, e]
    simp only [exact_lt, exact_lit, Rat.cast_zero, decide_eq_true_eq]
    split_ifs with hx
    · simpa using hx
    · exact ⟨by simp, .inr (not_lt.mp hx)⟩
  exact ⟨(h (Real.sin a)).1, (h (Real.cos a)).1, (h (Real.sin a)).2, (h (Real.cos a)).2⟩

/-- Projecting a point by an angle and a distance misses the exact target by less than 5e-16 times the distance in each ordinate. -/
theorem C43_project (p : Coord ℝ) (a d : ℝ) :
    |(Angle.project p a d).x - (p.x + d * Real.cos a)| ≤ |d| * (5 / 10 ^ 16) ∧
    |(Angle.project p a d).y - (p.y + d * Real.sin a)| ≤ |d| * (5 / 10 ^ 16) := by
  obtain ⟨h1, h2, _, _⟩ := C43_snap a
  unfold Angle.project
  simp only [exact_add, exact_mul]
  constructor
  · rw [show p.x + d * Angle.cosSnap a - (p.x + d * Real.cos a) = d * (Angle.cosSnap a - Real.cos a) by ring, abs_mul]
    exact mul_le_mul_of_nonneg_left h2.le (abs_nonneg _)
  · rw [show p.y + d * Angle.sinSnap a - (p.y + d * Real.sin a) = d * (Angle.sinSnap a - Real.sin a) by ring, abs_mul]
    exact mul_le_mul_of_nonneg_left h1.le (abs_nonneg _)

/-! ### Non-trivial cases -/
section examples
example : ∃ fuel, Angle.normalize fuel (3 * Real.pi) = some Real.pi := by
  obtain ⟨n, r, h, h1, h2, k, h3⟩ := C43_normalize (3 * Real.pi)
  have hp := Real.pi_pos
  refine ⟨n, ?_⟩
  rw [h n le_rfl]
  congr 1
  exact rep_unique (-Real.pi) r Real.pi (.inr ⟨⟨by linarith, by linarith⟩, ⟨h1, by linarith⟩⟩) (k + 1) (by push_cast; linarith)
example : Angle.isAcute (⟨1, 0, 0, 0⟩ : Coord ℝ) ⟨0, 0, 0, 0⟩ ⟨1, 1, 0, 0⟩ = true := by simp [Angle.isAcute]
/-- exact rational arithmetic with a rational value for π meets the hypotheses of the divergence theorem -/
example : ∃ (_ : FltTrig EQ) (p q : ℚ), (Angle.pi : EQ) = Fl.fin p ∧ (Angle.twoPi : EQ) = Fl.fin q ∧ ∃ z, (lit 0 : EQ) = Fl.fin z :=
  ⟨⟨Fl.fin 3, id, id, fun a _ => a⟩, 3, 6, rfl, by simp only [Angle.twoPi, Angle.pi, EQ.lit_fin, EQ.mul_fin]; norm_num, 0, rfl⟩
end examples
end Verif.Props
