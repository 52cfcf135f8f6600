import Verif.Model.PrecisionModel
import Verif.Lemmas.Flt
import Verif.Spec.Order
import Mathlib.Tactic.Linarith
import Mathlib.Tactic.FieldSimp
import Mathlib.Tactic.Ring
import Mathlib.Tactic.Positivity

set_option linter.unusedSectionVars false

/-! # C28: precision models (exact arithmetic, any ordered field with floor) -/

namespace Verif.Props
open Flt Verif.Spec

section exact
variable {K : Type} [Field K] [LinearOrder K] [IsStrictOrderedRing K] [FloorRing K]

theorem roundAway_err (v : K) : |(roundAway v : K) - v| ≤ 1 / 2 := by
  unfold roundAway
  split_ifs with h
  · have h1 := Int.floor_le (v + 1 / 2)
    have h2 := Int.lt_floor_add_one (v + 1 / 2)
    rw [abs_le]; constructor <;> linarith
  · have h1 := Int.le_ceil (v - 1 / 2)
    have h2 := Int.ceil_lt_add_one (v - 1 / 2)
    rw [abs_le]; constructor <;> linarith

theorem roundAway_tie (v : K) (h : |(roundAway v : K) - v| = 1 / 2) : |v| ≤ |(roundAway v : K)| := by
  unfold roundAway at *
  split_ifs at * with h0
  · have h1 := Int.floor_le (v + 1 / 2)
    have h2 := Int.lt_floor_add_one (v + 1 / 2)
    have h3 : (⌊v + 1 / 2⌋ : K) - v = 1 / 2 := by
      rcases (abs_eq (by norm_num)).mp h with h | h
      · exact h
      · linarith
    rw [abs_of_nonneg h0, abs_of_nonneg (by linarith)]; linarith
  · have h1 := Int.le_ceil (v - 1 / 2)
    have h2 := Int.ceil_lt_add_one (v - 1 / 2)
    have h3 : (⌈v - 1 / 2⌉ : K) - v = -(1 / 2) := by
      rcases (abs_eq (by norm_num)).mp h with h | h
      · linarith
      · exact h
    push Not at h0
    rw [abs_of_neg h0, abs_of_neg (by linarith)]; linarith

theorem roundAway_mono {v w : K} (h : v ≤ w) : roundAway v ≤ roundAway w := by
  unfold roundAway
  split_ifs with h1 h2 h2
  · exact Int.floor_le_floor (by linarith)
  · linarith
  · have a : ⌈v - 1 / 2⌉ ≤ 0 := by rw [Int.ceil_le]; push Not at h1; simp; linarith
    have b : 0 ≤ ⌊w + 1 / 2⌋ := by rw [Int.le_floor]; simp; linarith
    omega
  · exact Int.ceil_le_ceil (by linarith)

theorem roundAway_int (k : ℤ) : roundAway (k : K) = k := by
  have h := roundAway_err (k : K)
  rw [← Int.cast_sub, ← Int.cast_abs] at h
  have : |roundAway (k : K) - k| < 1 := by
    have : ((|roundAway (k : K) - k| : ℤ) : K) < 1 := by linarith
    exact_mod_cast this
  rw [Int.abs_lt_one_iff] at this
  omega

theorem roundAway_neg (v : K) : roundAway (-v) = - roundAway v := by
  unfold roundAway
  rcases lt_trichotomy v 0 with h | h | h
  · rw [if_pos (by linarith), if_neg (by linarith), ← Int.floor_neg]; congr 1; ring
  · subst h
    have : ⌊(2⁻¹ : K)⌋ = 0 := by rw [Int.floor_eq_zero_iff]; constructor <;> norm_num
    simp [this]
  · rw [if_neg (by linarith), if_pos h.le, ← Int.ceil_neg]; congr 1; ring

/-- The width of a grid cell for a scale as given to `new_with_scale`: `1 / scale`, or `-scale` for a negative one. -/
def cell (scale : K) : K := if scale < 0 then -scale else 1 / scale

theorem makePrecise_eq (s : K) (hs : s ≠ 0) (v : K) :
    (PM.newWithScale s).makePrecise v = (roundAway (v / cell s) : K) * cell s ∧ 0 < cell s := by
  unfold cell
  by_cases h : s < 0
  · have e : max s (-s) = -s := max_eq_right (by linarith)
    simp [PM.newWithScale, PM.setScale, PM.makePrecise, h, e, FltRound.round]
  · have h' : 0 < s := lt_of_le_of_ne (not_lt.mp h) (Ne.symm hs)
    have e : max s (-s) = s := max_eq_left (by linarith)
    simp [PM.newWithScale, PM.setScale, PM.makePrecise, h, e, FltRound.round, h', div_eq_mul_inv]

/-- `make_precise` for a fixed model gives a grid point nearest to the value, at most half a cell away, and of two nearest ones the
one farther from zero. -/
theorem C28_nearest (s : K) (hs : s ≠ 0) (v : K) :
    (∃ k : ℤ, (PM.newWithScale s).makePrecise v = k * cell s) ∧
    |(PM.newWithScale s).makePrecise v - v| ≤ cell s / 2 ∧
    (∀ j : ℤ, |(PM.newWithScale s).makePrecise v - v| ≤ |j * cell s - v|) ∧
    (|(PM.newWithScale s).makePrecise v - v| = cell s / 2 → |v| ≤ |(PM.newWithScale s).makePrecise v|) := by
  obtain ⟨e, hc⟩ := makePrecise_eq s hs v
  rw [e]
  have he := roundAway_err (v / cell s)
  have hfac : ∀ x : K, |x * cell s - v| = |x - v / cell s| * cell s := by
    intro x
    rw [← abs_of_pos hc, ← abs_mul, abs_of_pos hc, sub_mul, div_mul_cancel₀ _ hc.ne']
  have hfac2 : ∀ x : K, |x * cell s| = |x| * cell s := by intro x; rw [abs_mul, abs_of_pos hc]
  refine ⟨⟨_, rfl⟩, ?_, ?_, ?_⟩
  · rw [hfac]; nlinarith
  · intro j
    rw [hfac, hfac]
    apply mul_le_mul_of_nonneg_right _ hc.le
    by_contra hlt
    push Not at hlt
    have h1 : |(j : K) - v / cell s| < 1 / 2 := lt_of_lt_of_le hlt he
    have h2 : |(roundAway (v / cell s) : K) - j| < 1 := by
      have := abs_sub_le (roundAway (v / cell s) : K) (v / cell s) j
      rw [abs_sub_comm (v / cell s)] at this
      linarith
    have h3 : roundAway (v / cell s) = j := by
      rw [← Int.cast_sub, ← Int.cast_abs] at h2
      have : |roundAway (v / cell s) - j| < 1 := by exact_mod_cast h2
      rw [Int.abs_lt_one_iff] at this; omega
    rw [h3] at hlt; exact lt_irrefl _ hlt
  · intro ht
    rw [hfac] at ht
    have : |(roundAway (v / cell s) : K) - v / cell s| = 1 / 2 := by
      have := mul_right_cancel₀ hc.ne' (b := cell s) (a := |(roundAway (v / cell s) : K) - v / cell s|) (c := 1 / 2) (by rw [ht]; ring)
      exact this
    have ht' := roundAway_tie _ this
    rw [hfac2]
    rw [abs_div, abs_of_pos hc, div_le_iff₀ hc] at ht'
    exact ht'

/-- It is monotone, idempotent, odd, and fixes exactly the grid points. -/
theorem C28_laws (s : K) (hs : s ≠ 0) (v w : K) :
    (v ≤ w → (PM.newWithScale s).makePrecise v ≤ (PM.newWithScale s).makePrecise w) ∧
    (PM.newWithScale s).makePrecise ((PM.newWithScale s).makePrecise v) = (PM.newWithScale s).makePrecise v ∧
    (PM.newWithScale s).makePrecise (-v) = -(PM.newWithScale s).makePrecise v ∧
    ((PM.newWithScale s).makePrecise v = v ↔ ∃ k : ℤ, v = k * cell s) := by
  have hE := fun v => (makePrecise_eq s hs v).1
  have hc := (makePrecise_eq s hs v).2
  simp only [hE]
  have hgrid : ∀ k : ℤ, (roundAway ((k : K) * cell s / cell s) : K) * cell s = k * cell s := by
    intro k; rw [mul_div_cancel_right₀ _ hc.ne', roundAway_int]
  refine ⟨fun h => ?_, hgrid _, ?_, ?_, ?_⟩
  · apply mul_le_mul_of_nonneg_right _ hc.le
    exact_mod_cast roundAway_mono (div_le_div_of_nonneg_right h hc.le)
  · rw [neg_div, roundAway_neg]; push_cast; ring
  · intro h; exact ⟨_, h.symm⟩
  · rintro ⟨k, rfl⟩; exact hgrid k

/-- Models that compare equal round equally, and `grid_size` is the width of a cell. -/
theorem C28_equals_sound (s t : K) (hs : s ≠ 0) (ht : t ≠ 0) (v : K) :
    ((PM.newWithScale s).equals (PM.newWithScale t) = true →
      (PM.newWithScale s).makePrecise v = (PM.newWithScale t).makePrecise v) ∧
    (PM.newWithScale s).getGridSize = cell s := by
  have hsc : ∀ s : K, s ≠ 0 → (PM.newWithScale s).scale = 1 / cell s ∧ (PM.newWithScale s).getGridSize = cell s := by
    intro s hs
    unfold cell
    by_cases h : s < 0
    · have e : max s (-s) = -s := max_eq_right (by linarith)
      simp [PM.newWithScale, PM.setScale, h, e, PM.getGridSize, PM.isFloating, hs]
    · have h' : 0 < s := lt_of_le_of_ne (not_lt.mp h) (Ne.symm hs)
      have e : max s (-s) = s := max_eq_left (by linarith)
      simp [PM.newWithScale, PM.setScale, h, e, PM.getGridSize, PM.isFloating]
  refine ⟨fun h => ?_, (hsc s hs).2⟩
  have h2 : (PM.newWithScale s).scale = (PM.newWithScale t).scale := by
    simp only [PM.equals, Bool.and_eq_true, exact_eq] at h
    simpa using h.2
  rw [(hsc s hs).1, (hsc t ht).1, one_div, one_div, inv_inj] at h2
  rw [(makePrecise_eq s hs v).1, (makePrecise_eq t ht v).1, h2]

/-- Coordinates are rounded in x and y; z and m are kept. -/
theorem C28_coordinate (s : K) (hs : s ≠ 0) (c : Coord K) :
    ((PM.newWithScale s).makePreciseCoordinate c) =
      ⟨(PM.newWithScale s).makePrecise c.x, (PM.newWithScale s).makePrecise c.y, c.z, c.m⟩ := by
  have : (PM.newWithScale s).modelType = .fixed := by
    unfold PM.newWithScale PM.setScale; split_ifs <;> rfl
  simp [PM.makePreciseCoordinate, this]

/-- The fixed model made from its type alone rounds to whole numbers: to a nearest one, of two nearest ones to the one farther from zero. -/
theorem C28_of_type (v : K) : (∃ k : ℤ, (PM.newWithType .fixed).makePrecise v = k) ∧ |(PM.newWithType .fixed).makePrecise v - v| ≤ 1 / 2 ∧
    (|(PM.newWithType .fixed).makePrecise v - v| = 1 / 2 → |v| ≤ |(PM.newWithType .fixed).makePrecise v|) ∧
    (PM.newWithType .fixed : PM K).getGridSize = 1 ∧ (PM.newWithType .fixed : PM K).equals (PM.newWithScale 1) = true := by
  have e : (PM.newWithType .fixed : PM K) = PM.newWithScale 1 := by
    show (PM.mk .fixed nan nan).setScale (lit 1) = (PM.mk .fixed nan nan).setScale 1
    simp
  have c1 : cell (1 : K) = 1 := by unfold cell; norm_num
  rw [e]
  obtain ⟨⟨k, h1⟩, h2, -, h3⟩ := C28_nearest (1 : K) one_ne_zero v
  rw [c1] at h1 h2 h3
  refine ⟨⟨k, by rw [h1, mul_one]⟩, h2, h3, ?_, ?_⟩
  · rw [(C28_equals_sound (1 : K) 1 one_ne_zero one_ne_zero v).2, c1]
  · simp [PM.equals]

end exact

section all
variable {α : Type} [Flt α] [FltRound α]

/-- Floating models (and the single precision one, against its documentation) and NaN are left alone, for every arithmetic. -/
theorem C28_floating_identity (pm : PM α) (v : α) (c : Coord α) :
    (isNaN v = true → pm.makePrecise v = v) ∧
    (pm.isFloating = true → pm.makePrecise v = v ∧ pm.makePreciseCoordinate c = c) := by
  refine ⟨fun h => by simp [PM.makePrecise, h], fun h => ?_⟩
  obtain ⟨t, sc, g⟩ := pm
  cases t <;> simp [PM.isFloating, PM.makePrecise, PM.makePreciseCoordinate] at *

/-- Equal models have the same type, and equality is symmetric and transitive; a model is equal to itself unless its scale is NaN. -/
theorem C28_equals_laws [FltOrd α] (a b c : PM α) :
    (a.equals b = true → a.modelType = b.modelType) ∧ a.equals b = b.equals a ∧ (a.equals b = true → b.equals c = true → a.equals c = true) ∧
    (a.equals a = true ↔ isNaN a.scale = false) ∧ a.fromPM = a := by
  have h : ∀ a b : PM α, a.equals b = true ↔ a.modelType = b.modelType ∧ isNaN a.scale = false ∧ isNaN b.scale = false ∧
      FltOrd.key a.scale = FltOrd.key b.scale := by
    intro a b
    unfold PM.equals
    rw [Bool.and_eq_true, decide_eq_true_iff, FltOrd.eq_iff]
  refine ⟨fun k => ((h a b).mp k).1, ?_, ?_, ?_, rfl⟩
  · rw [Bool.eq_iff_iff, h, h]
    exact ⟨fun ⟨p, q, r, t⟩ => ⟨p.symm, r, q, t.symm⟩, fun ⟨p, q, r, t⟩ => ⟨p.symm, r, q, t.symm⟩⟩
  · rw [h, h, h]
    exact fun ⟨p, q, _, t⟩ ⟨p', _, r', t'⟩ => ⟨p.trans p', q, r', t.trans t'⟩
  · rw [h]
    exact ⟨fun k => k.2.1, fun k => ⟨rfl, k, k, rfl⟩⟩

/-- `compare_to` is a total preorder, by the number of significant digits. -/
theorem C28_compareTo (digits : α → Int) :
    TotalOrderOn (fun _ : PM α => True) (PM.compareTo digits) (fun a b => a.maxDigits digits = b.maxDigits digits) where
  range a b := by unfold PM.compareTo; split_ifs <;> simp
  zero_iff a b _ _ := by unfold PM.compareTo; split_ifs <;> simp_all
  swap a b _ _ := by unfold PM.compareTo; split_ifs <;> first | rfl | omega
  trans a b c _ _ _ := by unfold PM.compareTo; split_ifs <;> omega

end all

section examples
local notation "F" => Fl exactRounding
/-- Floating models are not equal to themselves: their scale is NaN. -/
theorem C28_floating_not_equal_itself : (PM.default : PM F).equals PM.default = false ∧
    (PM.newWithType .floatingSingle : PM F).equals (PM.newWithType .floatingSingle) = false := by decide +kernel
/-- With scale zero every number becomes NaN. -/
theorem C28_zero_scale : (PM.newWithScale (Fl.fin 0 : F)).makePrecise (Fl.fin 5) = Fl.nan := by decide +kernel
example : (PM.newWithScale (10 : ℚ)).makePrecise (-5 / 4) = -13 / 10 ∧ (PM.newWithScale (-10 : ℚ)).makePrecise 15 = 20 := by
  decide +kernel
example : (10 : ℚ) ≠ 0 ∧ cell (-10 : ℚ) = 10 ∧ (PM.newWithScale (-10 : ℚ)).equals (PM.newWithScale (1 / 10)) = true := by
  decide +kernel
example : (PM.newWithType .floatingSingle : PM F).isFloating = true := by decide +kernel
example : (PM.newWithType .fixed).makePrecise (-5 / 2 : ℚ) = -3 := by decide +kernel
end examples

end Verif.Props
