import Verif.Spec.Plane
import Verif.Model.Envelope
import Mathlib.Tactic.Linarith
import Mathlib.Tactic.Ring
import Mathlib.Tactic.FieldSimp
import Mathlib.Tactic.LinearCombination

/-! # Lemmas about the plane -/

namespace Verif
open Flt Verif.Spec
variable {K : Type} [Field K] [LinearOrder K] [IsStrictOrderedRing K]

/-- The box test in exact arithmetic. -/
theorem intersects3_iff (a b q : Coord K) :
    Env.intersects3 a b q = true ↔
      min a.x b.x ≤ q.x ∧ q.x ≤ max a.x b.x ∧ min a.y b.y ≤ q.y ∧ q.y ≤ max a.y b.y := by
  have h1 : ∀ u v : K, (if (u <. v) = true then u else v) = min u v := by
    intro u v; simp only [exact_lt, decide_eq_true_eq]
    split_ifs with h
    · exact (min_eq_left h.le).symm
    · exact (min_eq_right (not_lt.mp h)).symm
  have h2 : ∀ u v : K, (if (v <. u) = true then u else v) = max u v := by
    intro u v; simp only [exact_lt, decide_eq_true_eq]
    split_ifs with h
    · exact (max_eq_left h.le).symm
    · exact (max_eq_right (not_lt.mp h)).symm
  unfold Env.intersects3
  simp only [h1, h2]
  simp [and_assoc]

omit [LinearOrder K] [IsStrictOrderedRing K] in
theorem equals2D_iff [LinearOrder K] (a b : Coord K) : a.equals2D b = true ↔ a.x = b.x ∧ a.y = b.y := by
  by_cases h1 : a.x = b.x <;> by_cases h2 : a.y = b.y <;> simp [Coord.equals2D, h1, h2]

/-- A point is on a segment if it is collinear with its ends and in their box. -/
theorem onSegment_iff (p a b : Coord K) :
    OnSegment p a b ↔ det a b p = 0 ∧ min a.x b.x ≤ p.x ∧ p.x ≤ max a.x b.x ∧ min a.y b.y ≤ p.y ∧ p.y ≤ max a.y b.y := by
  constructor
  · rintro ⟨t, h0, h1, hx, hy⟩
    refine ⟨by unfold det; rw [hx, hy]; ring, ?_⟩
    have key : ∀ u v : K, min u v ≤ u + t * (v - u) ∧ u + t * (v - u) ≤ max u v := by
      intro u v
      rcases le_total u v with h | h
      · rw [min_eq_left h, max_eq_right h]; constructor <;> nlinarith
      · rw [min_eq_right h, max_eq_left h]; constructor <;> nlinarith
    rw [hx, hy]
    exact ⟨(key _ _).1, (key _ _).2, (key _ _).1, (key _ _).2⟩
  · rintro ⟨hd, h1, h2, h3, h4⟩
    unfold det at hd
    have frac : ∀ u v w : K, u ≠ v → min u v ≤ w → w ≤ max u v → 0 ≤ (w - u) / (v - u) ∧ (w - u) / (v - u) ≤ 1 := by
      intro u v w hne hl hu
      rcases lt_or_gt_of_ne hne with h | h
      · rw [min_eq_left h.le] at hl; rw [max_eq_right h.le] at hu
        exact ⟨div_nonneg (by linarith) (by linarith), (div_le_one (by linarith)).mpr (by linarith)⟩
      · rw [min_eq_right h.le] at hl; rw [max_eq_left h.le] at hu
        exact ⟨div_nonneg_of_nonpos (by linarith) (by linarith), (div_le_one_of_neg (by linarith)).mpr (by linarith)⟩
    by_cases hx : a.x = b.x
    · by_cases hy : a.y = b.y
      · refine ⟨0, le_refl _, zero_le_one, ?_, ?_⟩
        · rw [hx, min_self] at h1; rw [hx, max_self] at h2; rw [hx]; linarith
        · rw [hy, min_self] at h3; rw [hy, max_self] at h4; rw [hy]; linarith
      · obtain ⟨f0, f1⟩ := frac _ _ _ hy h3 h4
        have hne : b.y - a.y ≠ 0 := sub_ne_zero.mpr (Ne.symm hy)
        refine ⟨_, f0, f1, ?_, ?_⟩
        · rw [hx, min_self] at h1; rw [hx, max_self] at h2; rw [hx]; linarith
        · field_simp; ring
    · obtain ⟨f0, f1⟩ := frac _ _ _ hx h1 h2
      have hne : b.x - a.x ≠ 0 := sub_ne_zero.mpr (Ne.symm hx)
      refine ⟨_, f0, f1, ?_, ?_⟩
      · field_simp; ring
      · field_simp; linear_combination hd

omit [IsStrictOrderedRing K] in
theorem onSegment_end [IsStrictOrderedRing K] (p a b : Coord K) : ((p.x = a.x ∧ p.y = a.y) → OnSegment p a b) ∧
    ((p.x = b.x ∧ p.y = b.y) → OnSegment p a b) :=
  ⟨fun h => ⟨0, le_refl _, zero_le_one, by rw [h.1]; ring, by rw [h.2]; ring⟩,
   fun h => ⟨1, zero_le_one, le_refl _, by rw [h.1]; ring, by rw [h.2]; ring⟩⟩

theorem onSegment_swap (p a b : Coord K) : OnSegment p a b ↔ OnSegment p b a := by
  have h : ∀ a b : Coord K, OnSegment p a b → OnSegment p b a := by
    rintro a b ⟨t, h0, h1, hx, hy⟩
    exact ⟨1 - t, by linarith, by linarith, by rw [hx]; ring, by rw [hy]; ring⟩
  exact ⟨h a b, h b a⟩

/-- The box-box test in exact arithmetic. -/
theorem intersects4_iff (a b c d : Coord K) :
    Env.intersects4 a b c d = true ↔
      (min a.x b.x ≤ max c.x d.x ∧ min c.x d.x ≤ max a.x b.x) ∧ (min a.y b.y ≤ max c.y d.y ∧ min c.y d.y ≤ max a.y b.y) := by
  have h1 : ∀ u v : K, fmin u v = min u v := by
    intro u v; simp only [fmin, exact_isNaN, exact_lt, decide_eq_true_eq, Bool.false_eq_true, if_false]
    split_ifs with h
    · exact (min_eq_left h.le).symm
    · exact (min_eq_right (not_lt.mp h)).symm
  have h2 : ∀ u v : K, fmax u v = max u v := by
    intro u v; simp only [fmax, exact_isNaN, exact_lt, decide_eq_true_eq, Bool.false_eq_true, if_false]
    split_ifs with h
    · exact (max_eq_left h.le).symm
    · exact (max_eq_right (not_lt.mp h)).symm
  unfold Env.intersects4
  simp only [h1, h2, exact_lt, decide_eq_true_eq]
  split_ifs with i1 i2 i3 i4
  · simp only [false_iff]; rintro ⟨⟨h, _⟩, _⟩; exact absurd h (not_le.mpr i1)
  · simp only [false_iff]; rintro ⟨⟨_, h⟩, _⟩; exact absurd h (not_le.mpr i2)
  · simp only [false_iff]; rintro ⟨_, h, _⟩; exact absurd h (not_le.mpr i3)
  · simp only [false_iff]; rintro ⟨_, _, h⟩; exact absurd h (not_le.mpr i4)
  · simp only [not_lt] at i1 i2 i3 i4; exact ⟨fun _ => ⟨⟨i1, i2⟩, i3, i4⟩, fun _ => rfl⟩

/-- Segments with a common point have boxes that meet. -/
theorem intersects4_of_common {a b c d p : Coord K} (h1 : OnSegment p a b) (h2 : OnSegment p c d) :
    Env.intersects4 a b c d = true := by
  rw [intersects4_iff]
  obtain ⟨_, a1, a2, a3, a4⟩ := (onSegment_iff p a b).mp h1
  obtain ⟨_, b1, b2, b3, b4⟩ := (onSegment_iff p c d).mp h2
  exact ⟨⟨a1.trans b2, b1.trans a2⟩, a3.trans b4, b3.trans a4⟩

end Verif
