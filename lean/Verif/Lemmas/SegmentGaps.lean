import Verif.Lemmas.Plane
import Mathlib.Data.Real.Basic
import Mathlib.Tactic.Linarith
import Mathlib.Tactic.FieldSimp
import Mathlib.Tactic.Ring

/-! # Two segments that nearly meet, in the real plane -/

namespace Verif.Props
open Flt Verif.Spec

/-- Within `ν` in both ordinates. -/
def Tie (ν : ℝ) (u v : Coord ℝ) : Prop := |u.x - v.x| ≤ ν ∧ |u.y - v.y| ≤ ν

theorem Tie.symm {ν : ℝ} {u v : Coord ℝ} (h : Tie ν u v) : Tie ν v u := ⟨by rw [abs_sub_comm]; exact h.1, by rw [abs_sub_comm]; exact h.2⟩

/-- The point at the fraction `t` from `a` to `b`. -/
def onLine (a b : Coord ℝ) (t : ℝ) : Coord ℝ := ⟨a.x + t * (b.x - a.x), a.y + t * (b.y - a.y), 0, 0⟩

theorem onLine_swap (a b : Coord ℝ) (t : ℝ) : onLine b a (1 - t) = onLine a b t := by
  unfold onLine; congr 1 <;> ring

theorem onLine_seg {a b : Coord ℝ} {t : ℝ} (h0 : 0 ≤ t) (h1 : t ≤ 1) : OnSegment (onLine a b t) a b := ⟨t, h0, h1, rfl, rfl⟩

/-- A point whose cross product with a segment is small is near the line. -/
theorem near_line {c d : Coord ℝ} {p : Coord ℝ} {N η : ℝ} (N0 : 0 < N) (hx : |d.x - c.x| ≤ N) (hy : |d.y - c.y| ≤ N)
    (hL : N * N ≤ (d.x - c.x) * (d.x - c.x) + (d.y - c.y) * (d.y - c.y))
    (h : |(p.y - c.y) * (d.x - c.x) - (p.x - c.x) * (d.y - c.y)| ≤ η * N) : ∃ φ, Tie η p (onLine c d φ) := by
  have L0 : 0 < (d.x - c.x) * (d.x - c.x) + (d.y - c.y) * (d.y - c.y) := lt_of_lt_of_le (mul_pos N0 N0) hL
  have η0 : 0 ≤ η * N := (abs_nonneg _).trans h
  have key : ∀ w : ℝ, |w| ≤ N → |((p.y - c.y) * (d.x - c.x) - (p.x - c.x) * (d.y - c.y)) * w / ((d.x - c.x) * (d.x - c.x) + (d.y - c.y) * (d.y - c.y))| ≤ η := by
    intro w hw
    rw [abs_div, abs_of_pos L0, div_le_iff₀ L0, abs_mul]
    have h1 := mul_le_mul h hw (abs_nonneg _) η0
    have η1 : 0 ≤ η := by
      by_contra k; push Not at k
      have := mul_neg_of_neg_of_pos k N0
      linarith
    have h2 := mul_le_mul_of_nonneg_left hL η1
    linarith
  obtain ⟨φ, hφ⟩ : ∃ φ, φ * ((d.x - c.x) * (d.x - c.x) + (d.y - c.y) * (d.y - c.y)) = (p.x - c.x) * (d.x - c.x) + (p.y - c.y) * (d.y - c.y) :=
    ⟨_, div_mul_cancel₀ _ L0.ne'⟩
  refine ⟨φ, ?_, ?_⟩
  · have := key (-(d.y - c.y)) (by rwa [abs_neg])
    convert this using 2
    rw [eq_div_iff L0.ne']
    dsimp only [onLine]
    linear_combination -(d.x - c.x) * hφ
  · have := key (d.x - c.x) hx
    convert this using 2
    rw [eq_div_iff L0.ne']
    dsimp only [onLine]
    linear_combination -(d.y - c.y) * hφ

/-- One ordinate of two segments whose chords swap sides past their ends. -/
theorem chord_gap {a b c d r γ s φ ν : ℝ} (r0 : 0 ≤ r) (r1 : r ≤ 1) (γ1 : 1 < γ) (s0 : 0 ≤ s) (s1 : s ≤ 1) (φ1 : 1 < φ)
    (h1 : |(a + r * (b - a)) - (c + φ * (d - c))| ≤ ν) (h2 : |(a + γ * (b - a)) - (c + s * (d - c))| ≤ ν)
    (e1 : min a b ≤ max c d) (e2 : min c d ≤ max a b) (hl : (1 - r) / (γ - r) ≤ (φ - 1) / (φ - s)) : |b - d| ≤ ν := by
  obtain ⟨l1, l1e⟩ : ∃ l, l = (1 - r) / (γ - r) := ⟨_, rfl⟩
  obtain ⟨l2, l2e⟩ : ∃ l, l = (φ - 1) / (φ - s) := ⟨_, rfl⟩
  have γr : 0 < γ - r := by linarith
  have φs : 0 < φ - s := by linarith
  have m1 : l1 * (γ - r) = 1 - r := by rw [l1e, div_mul_cancel₀ _ γr.ne']
  have m2 : l2 * (φ - s) = φ - 1 := by rw [l2e, div_mul_cancel₀ _ φs.ne']
  rw [← l1e, ← l2e] at hl
  have l10 : 0 ≤ l1 := by rw [l1e]; exact div_nonneg (by linarith) γr.le
  have l11 : l1 ≤ 1 := by rw [l1e, div_le_one γr]; linarith
  -- the chords stay within ν
  have mid : |(a + (r + l1 * (γ - r)) * (b - a)) - (c + (φ - l1 * (φ - s)) * (d - c))| ≤ ν := by
    have e : (a + (r + l1 * (γ - r)) * (b - a)) - (c + (φ - l1 * (φ - s)) * (d - c)) =
        (1 - l1) * ((a + r * (b - a)) - (c + φ * (d - c))) + l1 * ((a + γ * (b - a)) - (c + s * (d - c))) := by ring
    rw [e]
    have t := abs_add_le ((1 - l1) * ((a + r * (b - a)) - (c + φ * (d - c)))) (l1 * ((a + γ * (b - a)) - (c + s * (d - c))))
    rw [abs_mul, abs_mul, abs_of_nonneg (show 0 ≤ 1 - l1 by linarith), abs_of_nonneg l10] at t
    have := mul_le_mul_of_nonneg_left h1 (show 0 ≤ 1 - l1 by linarith)
    have := mul_le_mul_of_nonneg_left h2 l10
    linarith
  have eA : a + (r + l1 * (γ - r)) * (b - a) = b := by rw [m1]; ring
  have eC : c + (φ - l1 * (φ - s)) * (d - c) = d + (l2 - l1) * (φ - s) * (d - c) := by
    have : φ = 1 + l2 * (φ - s) := by linarith
    have e : c + (φ - l1 * (φ - s)) * (d - c) = c + (1 + l2 * (φ - s) - l1 * (φ - s)) * (d - c) := by rw [← this]
    rw [e]; ring
  rw [eA, eC] at mid
  have k0 : 0 ≤ (l2 - l1) * (φ - s) := mul_nonneg (by linarith) φs.le
  obtain ⟨mA, mB⟩ := abs_le.mp mid
  obtain ⟨pA, pB⟩ := abs_le.mp h1
  obtain ⟨qA, qB⟩ := abs_le.mp h2
  rw [abs_le]
  rcases le_total 0 (b - a) with ha | ha <;> rcases le_total 0 (d - c) with hd | hd
  · have u1 : 0 ≤ (1 - r) * (b - a) := mul_nonneg (by linarith) ha
    have u2 : 0 ≤ (γ - 1) * (b - a) := mul_nonneg (by linarith) ha
    have u3 : 0 ≤ (1 - s) * (d - c) := mul_nonneg (by linarith) hd
    have u4 : 0 ≤ (φ - 1) * (d - c) := mul_nonneg (by linarith) hd
    constructor <;> linarith
  · have u1 := mul_nonneg k0 (neg_nonneg.mpr hd)
    rw [min_eq_right (by linarith), max_eq_right (by linarith)] at e2
    constructor <;> linarith
  · have u1 := mul_nonneg k0 hd
    rw [min_eq_right (by linarith), max_eq_right (by linarith)] at e1
    constructor <;> linarith
  · have u1 : 0 ≤ (1 - r) * -(b - a) := mul_nonneg (by linarith) (by linarith)
    have u2 : 0 ≤ (γ - 1) * -(b - a) := mul_nonneg (by linarith) (by linarith)
    have u3 : 0 ≤ (1 - s) * -(d - c) := mul_nonneg (by linarith) (by linarith)
    have u4 : 0 ≤ (φ - 1) * -(d - c) := mul_nonneg (by linarith) (by linarith)
    constructor <;> linarith

/-- The boxes of two segments meet. -/
def BoxesTouch (a b c d : Coord ℝ) : Prop :=
  (min a.x b.x ≤ max c.x d.x ∧ min c.x d.x ≤ max a.x b.x) ∧ (min a.y b.y ≤ max c.y d.y ∧ min c.y d.y ≤ max a.y b.y)

/-- Some points of the two segments are within `ν` in both ordinates. -/
def SegmentsTie (ν : ℝ) (a b c d : Coord ℝ) : Prop := ∃ u v, OnSegment u a b ∧ OnSegment v c d ∧ Tie ν u v

theorem SegmentsTie.swapL {ν : ℝ} {a b c d : Coord ℝ} (h : SegmentsTie ν b a c d) : SegmentsTie ν a b c d := by
  obtain ⟨u, v, hu, hv, k⟩ := h
  exact ⟨u, v, (onSegment_swap _ _ _).mp hu, hv, k⟩

theorem SegmentsTie.swapR {ν : ℝ} {a b c d : Coord ℝ} (h : SegmentsTie ν a b d c) : SegmentsTie ν a b c d := by
  obtain ⟨u, v, hu, hv, k⟩ := h
  exact ⟨u, v, hu, (onSegment_swap _ _ _).mp hv, k⟩

theorem tie_core {a b c d : Coord ℝ} {r γ s φ ν : ℝ} (r0 : 0 ≤ r) (r1 : r ≤ 1) (γ1 : 1 < γ) (s0 : 0 ≤ s) (s1 : s ≤ 1) (φ1 : 1 < φ)
    (h1 : Tie ν (onLine a b r) (onLine c d φ)) (h2 : Tie ν (onLine a b γ) (onLine c d s)) (hb : BoxesTouch a b c d) : SegmentsTie ν a b c d := by
  rcases le_total ((1 - r) / (γ - r)) ((φ - 1) / (φ - s)) with hl | hl
  · exact ⟨b, d, (onSegment_end b a b).2 ⟨rfl, rfl⟩, (onSegment_end d c d).2 ⟨rfl, rfl⟩,
      chord_gap r0 r1 γ1 s0 s1 φ1 h1.1 h2.1 hb.1.1 hb.1.2 hl, chord_gap r0 r1 γ1 s0 s1 φ1 h1.2 h2.2 hb.2.1 hb.2.2 hl⟩
  · obtain ⟨l2, l2e⟩ : ∃ l, l = (φ - 1) / (φ - s) := ⟨_, rfl⟩
    have γr : 0 < γ - r := by linarith
    have φs : 0 < φ - s := by linarith
    have m2 : l2 * (φ - s) = φ - 1 := by rw [l2e, div_mul_cancel₀ _ φs.ne']
    rw [← l2e] at hl
    have l20 : 0 ≤ l2 := by rw [l2e]; exact div_nonneg (by linarith) φs.le
    have l21 : l2 ≤ 1 := by rw [l2e, div_le_one φs]; linarith
    have le : l2 * (γ - r) ≤ 1 - r := by rwa [le_div_iff₀ γr] at hl
    have g : ∀ a b c d : ℝ, |(a + r * (b - a)) - (c + φ * (d - c))| ≤ ν → |(a + γ * (b - a)) - (c + s * (d - c))| ≤ ν →
        |(a + (r + l2 * (γ - r)) * (b - a)) - d| ≤ ν := by
      intro a b c d h1 h2
      have e0 : d = c + (φ - l2 * (φ - s)) * (d - c) := by rw [m2]; ring
      have e : (a + (r + l2 * (γ - r)) * (b - a)) - (c + (φ - l2 * (φ - s)) * (d - c)) =
          (1 - l2) * ((a + r * (b - a)) - (c + φ * (d - c))) + l2 * ((a + γ * (b - a)) - (c + s * (d - c))) := by ring
      rw [show (a + (r + l2 * (γ - r)) * (b - a)) - d = (a + (r + l2 * (γ - r)) * (b - a)) - (c + (φ - l2 * (φ - s)) * (d - c)) by rw [← e0], e]
      have t := abs_add_le ((1 - l2) * ((a + r * (b - a)) - (c + φ * (d - c)))) (l2 * ((a + γ * (b - a)) - (c + s * (d - c))))
      rw [abs_mul, abs_mul, abs_of_nonneg (show 0 ≤ 1 - l2 by linarith), abs_of_nonneg l20] at t
      have := mul_le_mul_of_nonneg_left h1 (show 0 ≤ 1 - l2 by linarith)
      have := mul_le_mul_of_nonneg_left h2 l20
      linarith
    have p0 := mul_nonneg l20 γr.le
    exact ⟨onLine a b (r + l2 * (γ - r)), d, onLine_seg (by linarith) (by linarith), (onSegment_end d c d).2 ⟨rfl, rfl⟩,
      g _ _ _ _ h1.1 h2.1, g _ _ _ _ h1.2 h2.2⟩

theorem BoxesTouch.swapL {a b c d : Coord ℝ} (h : BoxesTouch a b c d) : BoxesTouch b a c d := by
  unfold BoxesTouch at *
  rwa [min_comm b.x, max_comm b.x, min_comm b.y, max_comm b.y]

theorem BoxesTouch.swapR {a b c d : Coord ℝ} (h : BoxesTouch a b c d) : BoxesTouch a b d c := by
  unfold BoxesTouch at *
  rwa [min_comm d.x, max_comm d.x, min_comm d.y, max_comm d.y]

/-- If a point of each segment is within `ν` of the line of the other and the boxes of the segments meet, some points of the segments are within `ν`. -/
theorem segments_tie {a b c d : Coord ℝ} {r γ s φ ν : ℝ} (r0 : 0 ≤ r) (r1 : r ≤ 1) (s0 : 0 ≤ s) (s1 : s ≤ 1)
    (h1 : Tie ν (onLine a b r) (onLine c d φ)) (h2 : Tie ν (onLine a b γ) (onLine c d s)) (hb : BoxesTouch a b c d) : SegmentsTie ν a b c d := by
  have go : ∀ {a b c d : Coord ℝ} {r γ s φ : ℝ}, 0 ≤ r → r ≤ 1 → 0 ≤ s → s ≤ 1 → 1 < γ →
      Tie ν (onLine a b r) (onLine c d φ) → Tie ν (onLine a b γ) (onLine c d s) → BoxesTouch a b c d → SegmentsTie ν a b c d := by
    intro a b c d r γ s φ r0 r1 s0 s1 γ1 h1 h2 hb
    rcases lt_or_ge 1 φ with k | k
    · exact tie_core r0 r1 γ1 s0 s1 k h1 h2 hb
    · rcases lt_or_ge φ 0 with k' | k'
      · refine (tie_core (s := 1 - s) (φ := 1 - φ) r0 r1 γ1 (by linarith) (by linarith) (by linarith) ?_ ?_ hb.swapR).swapR
        · rwa [onLine_swap]
        · rwa [onLine_swap]
      · exact ⟨_, _, onLine_seg r0 r1, onLine_seg k' k, h1⟩
  rcases lt_or_ge 1 γ with k | k
  · exact go r0 r1 s0 s1 k h1 h2 hb
  · rcases lt_or_ge γ 0 with k' | k'
    · refine (go (r := 1 - r) (γ := 1 - γ) (s := s) (φ := φ) (by linarith) (by linarith) s0 s1 (by linarith) ?_ ?_ hb.swapL).swapL
      · rwa [onLine_swap]
      · rwa [onLine_swap]
    · exact ⟨_, _, onLine_seg k' k, onLine_seg s0 s1, h2⟩

/-- An end of one of the segments is within `ν` of a point of the other. -/
def EndTie (ν : ℝ) (a b c d : Coord ℝ) : Prop :=
  ∃ v, (OnSegment v c d ∧ (Tie ν a v ∨ Tie ν b v)) ∨ (OnSegment v a b ∧ (Tie ν c v ∨ Tie ν d v))

theorem EndTie.swapL {ν : ℝ} {a b c d : Coord ℝ} (h : EndTie ν b a c d) : EndTie ν a b c d := by
  obtain ⟨v, ⟨h1, h2⟩ | ⟨h1, h2⟩⟩ := h
  · exact ⟨v, Or.inl ⟨h1, h2.symm⟩⟩
  · exact ⟨v, Or.inr ⟨(onSegment_swap _ _ _).mp h1, h2⟩⟩

theorem EndTie.swap {ν : ℝ} {a b c d : Coord ℝ} (h : EndTie ν c d a b) : EndTie ν a b c d := by
  obtain ⟨v, h | h⟩ := h
  · exact ⟨v, Or.inr h⟩
  · exact ⟨v, Or.inl h⟩

/-- If the segments meet and the end of one is within `ν` of the line of the other, some end is within `ν` of the other segment. -/
theorem end_tie {a b c d : Coord ℝ} {ρ σ φ ν : ℝ} (r0 : 0 ≤ ρ) (r1 : ρ ≤ 1) (s0 : 0 ≤ σ) (s1 : σ ≤ 1) (hm : onLine a b ρ = onLine c d σ)
    (h : Tie ν b (onLine c d φ)) : EndTie ν a b c d := by
  have mx : a.x + ρ * (b.x - a.x) = c.x + σ * (d.x - c.x) := congrArg Coord.x hm
  have my : a.y + ρ * (b.y - a.y) = c.y + σ * (d.y - c.y) := congrArg Coord.y hm
  have ν0 : 0 ≤ ν := (abs_nonneg _).trans h.1
  have g : ∀ {l z : ℝ}, 0 ≤ l → l ≤ 1 → |z| ≤ ν → |l * z| ≤ ν := by
    intro l z l0 l1 hz
    rw [abs_mul, abs_of_nonneg l0]
    calc l * |z| ≤ 1 * |z| := mul_le_mul_of_nonneg_right l1 (abs_nonneg _)
      _ ≤ ν := by rwa [one_mul]
  rcases lt_or_ge 1 φ with k | k
  · have p : 0 < φ - σ := by linarith
    obtain ⟨l, le⟩ : ∃ l, l = (1 - σ) / (φ - σ) := ⟨_, rfl⟩
    have l0 : 0 ≤ l := by rw [le]; exact div_nonneg (by linarith) p.le
    have l1 : l ≤ 1 := by rw [le, div_le_one p]; linarith
    have m : l * (φ - σ) = 1 - σ := by rw [le, div_mul_cancel₀ _ p.ne']
    have q := mul_nonneg l0 (show 0 ≤ 1 - ρ by linarith)
    have q' := mul_nonneg (show 0 ≤ 1 - l by linarith) (show 0 ≤ 1 - ρ by linarith)
    refine ⟨onLine a b (ρ + l * (1 - ρ)), Or.inr ⟨onLine_seg (by linarith) (by linarith), Or.inr (Tie.symm ⟨?_, ?_⟩)⟩⟩
    · have := g l0 l1 h.1
      have e : l * (b.x - (onLine c d φ).x) = (onLine a b (ρ + l * (1 - ρ))).x - d.x := by
        dsimp only [onLine]
        linear_combination (l - 1) * mx - (d.x - c.x) * m
      rwa [e] at this
    · have := g l0 l1 h.2
      have e : l * (b.y - (onLine c d φ).y) = (onLine a b (ρ + l * (1 - ρ))).y - d.y := by
        dsimp only [onLine]
        linear_combination (l - 1) * my - (d.y - c.y) * m
      rwa [e] at this
  · rcases lt_or_ge φ 0 with k' | k'
    · have p : 0 < σ - φ := by linarith
      obtain ⟨l, le⟩ : ∃ l, l = σ / (σ - φ) := ⟨_, rfl⟩
      have l0 : 0 ≤ l := by rw [le]; exact div_nonneg (by linarith) p.le
      have l1 : l ≤ 1 := by rw [le, div_le_one p]; linarith
      have m : l * (σ - φ) = σ := by rw [le, div_mul_cancel₀ _ p.ne']
      have q := mul_nonneg l0 (show 0 ≤ 1 - ρ by linarith)
      have q' := mul_nonneg (show 0 ≤ 1 - l by linarith) (show 0 ≤ 1 - ρ by linarith)
      refine ⟨onLine a b (ρ + l * (1 - ρ)), Or.inr ⟨onLine_seg (by linarith) (by linarith), Or.inl (Tie.symm ⟨?_, ?_⟩)⟩⟩
      · have := g l0 l1 h.1
        have e : l * (b.x - (onLine c d φ).x) = (onLine a b (ρ + l * (1 - ρ))).x - c.x := by
          dsimp only [onLine]
          linear_combination (l - 1) * mx + (d.x - c.x) * m
        rwa [e] at this
      · have := g l0 l1 h.2
        have e : l * (b.y - (onLine c d φ).y) = (onLine a b (ρ + l * (1 - ρ))).y - c.y := by
          dsimp only [onLine]
          linear_combination (l - 1) * my + (d.y - c.y) * m
        rwa [e] at this
    · exact ⟨_, Or.inl ⟨onLine_seg k' k, Or.inr h⟩⟩

/-- A product within `e₁` of a ratio below zero or above one, as computed, of numbers whose exact ratio is in [0, 1]. -/
theorem ratio_out {n m n' m' ρ e₁ e₂ : ℝ} (r0 : 0 ≤ ρ) (r1 : ρ ≤ 1) (h : n = ρ * m) (hn : |n' - n| ≤ e₁) (hm : |m' - m| ≤ e₂) :
    (m' = 0 → |n| ≤ e₁ + e₂) ∧ (0 < m' → n' ≤ 0 → |n| ≤ e₁ + e₂) ∧ (m' < 0 → 0 ≤ n' → |n| ≤ e₁ + e₂) ∧
      (0 < m' → m' ≤ n' → |n - m| ≤ e₁ + e₂) ∧ (m' < 0 → n' ≤ m' → |n - m| ≤ e₁ + e₂) := by
  obtain ⟨n1, n2⟩ := abs_le.mp hn
  obtain ⟨m1, m2⟩ := abs_le.mp hm
  have e20 : 0 ≤ e₂ := (abs_nonneg _).trans hm
  have e10 : 0 ≤ e₁ := (abs_nonneg _).trans hn
  have u1 : -e₂ ≤ m → -e₂ ≤ ρ * m ∧ -e₂ ≤ (1 - ρ) * m := by
    intro k
    have a1 := mul_nonneg r0 (show 0 ≤ m + e₂ by linarith)
    have a2 := mul_nonneg (show 0 ≤ 1 - ρ by linarith) (show 0 ≤ m + e₂ by linarith)
    have a3 := mul_nonneg r0 e20
    have a4 := mul_nonneg (show 0 ≤ 1 - ρ by linarith) e20
    constructor <;> linarith
  have u2 : m ≤ e₂ → ρ * m ≤ e₂ ∧ (1 - ρ) * m ≤ e₂ := by
    intro k
    have a1 := mul_nonneg r0 (show 0 ≤ e₂ - m by linarith)
    have a2 := mul_nonneg (show 0 ≤ 1 - ρ by linarith) (show 0 ≤ e₂ - m by linarith)
    have a3 := mul_nonneg r0 e20
    have a4 := mul_nonneg (show 0 ≤ 1 - ρ by linarith) e20
    constructor <;> linarith
  refine ⟨fun k => ?_, fun k l => ?_, fun k l => ?_, fun k l => ?_, fun k l => ?_⟩ <;> rw [abs_le]
  · have := (u1 (by linarith)).1; have := (u2 (by linarith)).1; constructor <;> linarith
  · have := (u1 (by linarith)).1; constructor <;> linarith
  · have := (u2 (by linarith)).1; constructor <;> linarith
  · have := (u1 (by linarith)).2; constructor <;> linarith
  · have := (u2 (by linarith)).2; constructor <;> linarith

end Verif.Props
