import Verif.Model.Distance
import Verif.Base.RealFlt
import Verif.Spec.Nearest
import Verif.Lemmas.Plane
import Verif.Lemmas.Loop

set_option linter.unusedSectionVars false

/-! # C36: distance of a point to segments, lines and chains of segments -/

namespace Verif.Props
open Flt Verif.Spec

theorem distance_eq (a b : Coord ℝ) : a.distance b = Spec.dist a b := rfl

/-- Squared distance to a point of the line, in terms of the foot of the perpendicular. -/
theorem foot_identity (p a b : Coord ℝ) (t x y : ℝ) (hx : x = a.x + t * (b.x - a.x)) (hy : y = a.y + t * (b.y - a.y)) :
    ((b.x - a.x) * (b.x - a.x) + (b.y - a.y) * (b.y - a.y)) * ((p.x - x) ^ 2 + (p.y - y) ^ 2) =
      ((a.y - p.y) * (b.x - a.x) - (a.x - p.x) * (b.y - a.y)) ^ 2 +
      (((p.x - a.x) * (b.x - a.x) + (p.y - a.y) * (b.y - a.y)) -
        t * ((b.x - a.x) * (b.x - a.x) + (b.y - a.y) * (b.y - a.y))) ^ 2 := by
  subst hx hy; ring

theorem len2_pos {a b : Coord ℝ} (h : ¬ (a.x = b.x ∧ a.y = b.y)) :
    0 < (b.x - a.x) * (b.x - a.x) + (b.y - a.y) * (b.y - a.y) := by
  rcases lt_or_eq_of_le (add_nonneg (mul_self_nonneg (b.x - a.x)) (mul_self_nonneg (b.y - a.y))) with h' | h'
  · exact h'
  · exfalso; apply h
    have h1 := mul_self_nonneg (b.x - a.x)
    have h2 := mul_self_nonneg (b.y - a.y)
    have e1 : (b.x - a.x) * (b.x - a.x) = 0 := by linarith
    have e2 : (b.y - a.y) * (b.y - a.y) = 0 := by linarith
    exact ⟨by linarith [mul_self_eq_zero.mp e1], by linarith [mul_self_eq_zero.mp e2]⟩

/-- `|s| * sqrt len2` is the distance to the foot, and least over the line. -/
theorem perp_least (p a b : Coord ℝ) (h : ¬ (a.x = b.x ∧ a.y = b.y)) :
    let L := (b.x - a.x) * (b.x - a.x) + (b.y - a.y) * (b.y - a.y)
    let C := (a.y - p.y) * (b.x - a.x) - (a.x - p.x) * (b.y - a.y)
    let r := ((p.x - a.x) * (b.x - a.x) + (p.y - a.y) * (b.y - a.y)) / L
    |C / L| * Real.sqrt L = Spec.dist p ⟨a.x + r * (b.x - a.x), a.y + r * (b.y - a.y), 0, 0⟩ ∧
    ∀ c t, c.x = a.x + t * (b.x - a.x) → c.y = a.y + t * (b.y - a.y) → |C / L| * Real.sqrt L ≤ Spec.dist p c := by
  intro L C r
  have hL : 0 < L := len2_pos h
  have hd : |C / L| * Real.sqrt L = Real.sqrt (C ^ 2 / L) := by
    rw [← Real.sqrt_sq_eq_abs, ← Real.sqrt_mul (sq_nonneg _)]
    congr 1; field_simp
  rw [hd]
  constructor
  · unfold Spec.dist
    congr 1
    have := foot_identity p a b r _ _ rfl rfl
    have hr : (p.x - a.x) * (b.x - a.x) + (p.y - a.y) * (b.y - a.y) - r * L = 0 := by
      simp only [r]; field_simp; ring
    rw [show ((p.x - a.x) * (b.x - a.x) + (p.y - a.y) * (b.y - a.y) - r * ((b.x - a.x) * (b.x - a.x) + (b.y - a.y) * (b.y - a.y))) = 0 from hr] at this
    rw [div_eq_iff hL.ne', mul_comm]
    simp only [L, C]
    linarith
  · intro c t hx hy
    unfold Spec.dist
    apply Real.sqrt_le_sqrt
    have := foot_identity p a b t _ _ hx hy
    rw [div_le_iff₀ hL, mul_comm]
    simp only [L, C]
    nlinarith [sq_nonneg ((p.x - a.x) * (b.x - a.x) + (p.y - a.y) * (b.y - a.y) - t * ((b.x - a.x) * (b.x - a.x) + (b.y - a.y) * (b.y - a.y)))]

/-- The distance to a segment is attained at a point of the segment and least over it, for degenerate segments too. -/
theorem C36_segment (p a b : Coord ℝ) :
    LeastDist p (fun c => OnSegment c a b) (Distance.pointToSegment p a b) := by
  unfold Distance.pointToSegment
  simp only [distance_eq, real_toFlt, exact_eq, exact_lit, exact_le, exact_sub, exact_mul, exact_add, exact_div, exact_abs,
    Rat.cast_zero, Rat.cast_one, real_sqrt, Bool.and_eq_true, decide_eq_true_eq]
  by_cases h : a.x = b.x ∧ a.y = b.y
  · rw [if_pos h]
    refine ⟨⟨a, (onSegment_end a a b).1 ⟨rfl, rfl⟩, rfl⟩, ?_⟩
    rintro c ⟨t, _, _, hx, hy⟩
    rw [dist_le_iff]
    have e1 : c.x = a.x := by rw [hx, h.1]; ring
    have e2 : c.y = a.y := by rw [hy, h.2]; ring
    rw [e1, e2]
  · rw [if_neg h]
    obtain ⟨q1, q2⟩ := perp_least p a b h
    have hL := len2_pos h
    obtain ⟨L, hLdef⟩ : ∃ L, L = (b.x - a.x) * (b.x - a.x) + (b.y - a.y) * (b.y - a.y) := ⟨_, rfl⟩
    obtain ⟨u, hu⟩ : ∃ u, u = (p.x - a.x) * (b.x - a.x) + (p.y - a.y) * (b.y - a.y) := ⟨_, rfl⟩
    have exp : ∀ t x y, x = a.x + t * (b.x - a.x) → y = a.y + t * (b.y - a.y) →
        (p.x - x) ^ 2 + (p.y - y) ^ 2 = (p.x - a.x) ^ 2 + (p.y - a.y) ^ 2 - 2 * t * u + t ^ 2 * L := by
      rintro t x y rfl rfl; rw [hu, hLdef]; ring
    rw [← hLdef] at hL q1 q2 ⊢
    rw [← hu] at q1 ⊢
    split_ifs with h1 h2
    · refine ⟨⟨a, (onSegment_end a a b).1 ⟨rfl, rfl⟩, rfl⟩, ?_⟩
      rintro c ⟨t, t0, t1, hx, hy⟩
      rw [dist_le_iff, exp t _ _ hx hy]
      have : u ≤ 0 := by
        by_contra hc; push Not at hc
        exact absurd (div_pos hc hL) (not_lt.mpr h1)
      nlinarith [mul_nonneg t0 (neg_nonneg.mpr this), mul_nonneg (mul_nonneg t0 t0) hL.le]
    · refine ⟨⟨b, (onSegment_end b a b).2 ⟨rfl, rfl⟩, rfl⟩, ?_⟩
      rintro c ⟨t, t0, t1, hx, hy⟩
      rw [dist_le_iff, exp t _ _ hx hy, exp 1 b.x b.y (by ring) (by ring)]
      have : L ≤ u := by rwa [le_div_iff₀ hL, one_mul] at h2
      have e : 0 ≤ (1 - t) * (1 - t) * L := mul_nonneg (mul_self_nonneg _) hL.le
      have e2 : 0 ≤ (1 - t) * (u - L) := mul_nonneg (by linarith) (by linarith)
      nlinarith
    · push Not at h1 h2
      rw [← abs_eq_max_neg]
      refine ⟨⟨_, ⟨u / L, h1.le, h2.le, rfl, rfl⟩, q1.symm⟩, ?_⟩
      rintro c ⟨t, _, _, hx, hy⟩
      exact q2 c t hx hy

/-- The distance to the infinite line. -/
theorem C36_line (p a b : Coord ℝ) (h : ¬ (a.x = b.x ∧ a.y = b.y)) :
    LeastDist p (fun c => OnInfLine c a b) (Distance.pointToLinePerpendicular p a b) := by
  unfold Distance.pointToLinePerpendicular
  simp only [real_toFlt, exact_sub, exact_mul, exact_add, exact_div, exact_abs, real_sqrt, ← abs_eq_max_neg]
  obtain ⟨q1, q2⟩ := perp_least p a b h
  exact ⟨⟨_, ⟨_, rfl, rfl⟩, q1.symm⟩, fun c ⟨t, hx, hy⟩ => q2 c t hx hy⟩

/-- The signed distance has the same size; it is positive exactly on the right, negative on the left of `a -> b`. -/
theorem C36_signed (p a b : Coord ℝ) (h : ¬ (a.x = b.x ∧ a.y = b.y)) :
    |Distance.pointToLinePerpendicularSigned p a b| = Distance.pointToLinePerpendicular p a b ∧
    (0 < Distance.pointToLinePerpendicularSigned p a b ↔ det a b p < 0) ∧
    (Distance.pointToLinePerpendicularSigned p a b < 0 ↔ 0 < det a b p) := by
  unfold Distance.pointToLinePerpendicular Distance.pointToLinePerpendicularSigned
  simp only [real_toFlt, exact_sub, exact_mul, exact_add, exact_div, exact_abs, real_sqrt, ← abs_eq_max_neg]
  have hL := len2_pos h
  have hs := Real.sqrt_pos.mpr hL
  have e : (a.y - p.y) * (b.x - a.x) - (a.x - p.x) * (b.y - a.y) = -det a b p := by unfold det; ring
  rw [e]
  refine ⟨by rw [abs_mul, abs_of_pos hs], ?_, ?_⟩
  · rw [mul_pos_iff_of_pos_right hs, div_pos_iff_of_pos_right hL]; constructor <;> intro h <;> linarith
  · rw [mul_neg_iff]
    constructor
    · rintro (⟨_, h2⟩ | ⟨h1, _⟩)
      · linarith
      · rw [div_neg_iff] at h1; rcases h1 with ⟨_, h1⟩ | ⟨h1, _⟩ <;> linarith
    · intro hd; exact Or.inr ⟨div_neg_of_neg_of_pos (by linarith) hL, hs⟩

/-- The points of a chain of segments: its vertices and the points of its segments. -/
def OnChain (line : List (Coord ℝ)) (c : Coord ℝ) : Prop :=
  (∃ v ∈ line, c.x = v.x ∧ c.y = v.y) ∨ ∃ s ∈ segs line, OnSegment c s.1 s.2

/-- (Every arithmetic.) The distance to a chain is NaN for the empty chain, else the least of the distances to its first point and
to its segments in turn; there is no panic. -/
theorem C36_chain_steps {α : Type} [FltSqrt α] (p : Coord α) (line : List (Coord α)) :
    Distance.pointToSegmentString p line = .ok (match line with
      | [] => nan
      | c :: _ => (segs line).foldl (fun m s =>
          let d := Distance.pointToSegment p s.1 s.2
          if d <. m then d else m) (p.distance c)) := by
  unfold Distance.pointToSegmentString
  cases line with
  | nil => rfl
  | cons c l =>
    rw [if_neg (by simp), Res.get_lt (by simp)]
    simp only [Res.bind_ok, List.getElem_cons_zero]
    rw [forRange_foldl (segs (c :: l)) 0 ((c :: l).length - 1) (by rw [length_segs]; rfl) _
      (fun m s => let d := Distance.pointToSegment p s.1 s.2; if d <. m then d else m)]
    intro k hk s
    rw [length_segs] at hk
    rw [Res.get_lt (by omega), Res.bind_ok, Res.get_lt (by omega), Res.bind_ok, getElem_segs]
    simp only [Nat.zero_add]
    rfl

theorem least_fold (p : Coord ℝ) (l : List (Coord ℝ × Coord ℝ)) (S : Coord ℝ → Prop) (d : ℝ) (h : LeastDist p S d) :
    LeastDist p (fun c => S c ∨ ∃ s ∈ l, OnSegment c s.1 s.2)
      (l.foldl (fun m s => if Distance.pointToSegment p s.1 s.2 < m then Distance.pointToSegment p s.1 s.2 else m) d) := by
  induction l generalizing S d with
  | nil => simpa using h
  | cons s l ih =>
    rw [List.foldl_cons]
    have h' : LeastDist p (fun c => S c ∨ OnSegment c s.1 s.2)
        (if Distance.pointToSegment p s.1 s.2 < d then Distance.pointToSegment p s.1 s.2 else d) := by
      obtain ⟨⟨c, hc, e⟩, h1⟩ := h
      obtain ⟨⟨c', hc', e'⟩, h1'⟩ := C36_segment p s.1 s.2
      split_ifs with hlt
      · exact ⟨⟨c', Or.inr hc', e'⟩, fun q hq => hq.elim (fun hq => hlt.le.trans (h1 q hq)) (h1' q)⟩
      · exact ⟨⟨c, Or.inl hc, e⟩, fun q hq => hq.elim (h1 q) (fun hq => (not_lt.mp hlt).trans (h1' q hq))⟩
    refine (ih _ _ h').congr (fun c => ?_)
    simp only [List.mem_cons, exists_eq_or_imp, or_assoc]

/-- The distance to a chain is the least distance to its points. -/
theorem C36_chain (p : Coord ℝ) (line : List (Coord ℝ)) (h : line ≠ []) :
    ∃ d, Distance.pointToSegmentString p line = .ok d ∧ LeastDist p (OnChain line) d := by
  obtain ⟨c, l, rfl⟩ := List.exists_cons_of_ne_nil h
  refine ⟨_, C36_chain_steps p (c :: l), ?_⟩
  simp only [distance_eq, real_toFlt, exact_lt, decide_eq_true_eq]
  have h0 : LeastDist p (fun q => q.x = c.x ∧ q.y = c.y) (Spec.dist p c) :=
    ⟨⟨c, ⟨rfl, rfl⟩, rfl⟩, fun q hq => by rw [dist_le_iff, hq.1, hq.2]⟩
  refine (least_fold p (segs (c :: l)) _ _ h0).congr (fun q => ?_)
  unfold OnChain
  constructor
  · rintro (h | h)
    · exact Or.inl ⟨c, List.mem_cons_self, h⟩
    · exact Or.inr h
  · rintro (⟨v, hv, hq⟩ | h)
    · obtain ⟨i, hi, rfl⟩ := List.getElem_of_mem hv
      cases i with
      | zero => exact Or.inl hq
      | succ i =>
        have hs : i < (segs (c :: l)).length := by rw [length_segs]; omega
        refine Or.inr ⟨(segs (c :: l))[i], List.getElem_mem hs, ?_⟩
        rw [getElem_segs]
        exact (onSegment_end q _ _).2 hq
    · exact Or.inr h

/-- An empty chain has distance NaN. -/
theorem C36_chain_empty {α : Type} [FltSqrt α] (p : Coord α) : Distance.pointToSegmentString p [] = .ok nan := rfl

/-! Examples -/

noncomputable example : Distance.pointToSegment (⟨1, 2, 0, 0⟩ : Coord ℝ) ⟨0, 0, 0, 0⟩ ⟨4, 0, 0, 0⟩ = 2 := by
  have h := C36_segment (⟨1, 2, 0, 0⟩ : Coord ℝ) ⟨0, 0, 0, 0⟩ ⟨4, 0, 0, 0⟩
  refine h.unique ⟨⟨⟨1, 0, 0, 0⟩, ⟨1 / 4, by norm_num, by norm_num, by norm_num, by norm_num⟩, ?_⟩, ?_⟩
  · unfold Spec.dist; norm_num
    rw [show (4 : ℝ) = 2 ^ 2 by norm_num]; exact Real.sqrt_sq (by norm_num)
  · rintro c ⟨t, _, _, hx, hy⟩
    unfold Spec.dist
    apply Real.le_sqrt_of_sq_le
    simp at hy
    rw [hy]; simp; nlinarith [sq_nonneg (1 - c.x)]

example : ¬ ((⟨0, 0, 0, 0⟩ : Coord ℝ).x = (⟨4, 1, 0, 0⟩ : Coord ℝ).x ∧ (⟨0, 0, 0, 0⟩ : Coord ℝ).y = (⟨4, 1, 0, 0⟩ : Coord ℝ).y) := by
  norm_num

end Verif.Props
