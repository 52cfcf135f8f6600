import Verif.Lemmas.Plane
import Verif.Spec.Crossing
import Mathlib.Data.ZMod.Basic
import Mathlib.Algebra.CharP.Two
import Mathlib.Algebra.BigOperators.Group.Finset.Basic

set_option linter.unusedSectionVars false

/-! # Parity of crossings along a closed polygon -/

namespace Verif.Jordan
open Verif.Spec
variable {K : Type} [Field K] [LinearOrder K] [IsStrictOrderedRing K]

/-- The ray to the right from `p` crosses the edge `a b`. -/
def cx (p a b : Coord K) : Prop := (a.y ≤ p.y ∧ p.y < b.y ∧ 0 < det a b p) ∨ (b.y ≤ p.y ∧ p.y < a.y ∧ det a b p < 0)

/-- `v` lies to the right of the segment `p q`, upper end included. -/
def gx (p q v : Coord K) : Prop := (p.y < v.y ∧ v.y ≤ q.y ∧ det p q v < 0) ∨ (q.y < v.y ∧ v.y ≤ p.y ∧ 0 < det p q v)

/-- The segments have a point in common. -/
def Meet (p q a b : Coord K) : Prop := ∃ s : Coord K, OnSegment s p q ∧ OnSegment s a b

theorem det_swap' (a b p : Coord K) : det b a p = -det a b p := by unfold det; ring

theorem cx_swap (p a b : Coord K) : cx p a b ↔ cx p b a := by
  unfold cx
  rw [det_swap' a b p]
  constructor <;> rintro (⟨h1, h2, h3⟩ | ⟨h1, h2, h3⟩)
  · exact Or.inr ⟨h1, h2, by linarith⟩
  · exact Or.inl ⟨h1, h2, by linarith⟩
  · exact Or.inr ⟨h1, h2, by linarith⟩
  · exact Or.inl ⟨h1, h2, by linarith⟩

theorem gx_swap (p q v : Coord K) : gx p q v ↔ gx q p v := by
  unfold gx
  rw [det_swap' p q v]
  constructor <;> rintro (⟨h1, h2, h3⟩ | ⟨h1, h2, h3⟩)
  · exact Or.inr ⟨h1, h2, by linarith⟩
  · exact Or.inl ⟨h1, h2, by linarith⟩
  · exact Or.inr ⟨h1, h2, by linarith⟩
  · exact Or.inl ⟨h1, h2, by linarith⟩

theorem meet_swap (p q a b : Coord K) (h : Meet q p a b) : Meet p q a b := by
  obtain ⟨s, h1, h2⟩ := h; exact ⟨s, (onSegment_swap _ _ _).mp h1, h2⟩

theorem meet_swap' (p q a b : Coord K) (h : Meet p q b a) : Meet p q a b := by
  obtain ⟨s, h1, h2⟩ := h; exact ⟨s, h1, (onSegment_swap _ _ _).mp h2⟩

/-- The four turns of two segments. -/
theorem four (p q a b : Coord K) : det p q b - det p q a = det a b p - det a b q := by unfold det; ring

theorem four_y (p q a b : Coord K) : det p q b * a.y - det p q a * b.y + det a b q * p.y - det a b p * q.y = 0 := by
  unfold det; ring

/-- Segments each of which does not leave the other on one side meet. -/
theorem meet_of (p q a b : Coord K) (h1 : det a b q ≤ 0) (h2 : 0 ≤ det a b p) (h3 : det p q a ≤ 0) (h4 : 0 ≤ det p q b)
    (hne : det a b q < det a b p) : Meet p q a b := by
  have hf := four p q a b
  have hd : (0 : K) < det a b p - det a b q := by linarith
  refine ⟨⟨p.x + det a b p / (det a b p - det a b q) * (q.x - p.x), p.y + det a b p / (det a b p - det a b q) * (q.y - p.y), 0, 0⟩,
    ⟨det a b p / (det a b p - det a b q), div_nonneg h2 hd.le, (div_le_one hd).mpr (by linarith), rfl, rfl⟩,
    ⟨-det p q a / (det a b p - det a b q), div_nonneg (by linarith) hd.le, (div_le_one hd).mpr (by linarith), ?_, ?_⟩⟩
  · simp only
    field_simp
    unfold det; ring
  · simp only
    field_simp
    unfold det; ring

theorem meet_of' (p q a b : Coord K) (h1 : det a b p ≤ 0) (h2 : 0 ≤ det a b q) (h3 : det p q b ≤ 0) (h4 : 0 ≤ det p q a)
    (hne : det a b p < det a b q) : Meet p q a b := by
  refine meet_swap _ _ _ _ (meet_of q p a b h1 h2 ?_ ?_ hne)
  · rw [det_swap']; linarith
  · rw [det_swap']; linarith

/-- Both ends of `p q` are between the heights of `a` and `b`. -/
theorem cc_up (p q a b : Coord K) (hn : ¬ Meet p q a b) (p1 : a.y ≤ p.y) (p2 : p.y ≤ b.y) (q1 : a.y ≤ q.y) (q2 : q.y ≤ b.y)
    (hab : a.y < b.y) (h : 0 < det a b p) : 0 < det a b q := by
  by_contra hq
  push Not at hq
  have hy := four_y p q a b
  have hf := four p q a b
  refine hn (meet_of p q a b hq h.le ?_ ?_ (by linarith))
  · have e : det p q a * (b.y - a.y) = (det a b q) * (p.y - a.y) - det a b p * (q.y - a.y) := by
      linear_combination (-1 : K) * hy + (a.y) * hf
    by_contra hc; push Not at hc
    have := mul_pos hc (show 0 < b.y - a.y by linarith)
    have := mul_nonneg (neg_nonneg.mpr hq) (show 0 ≤ p.y - a.y by linarith)
    have := mul_nonneg h.le (show 0 ≤ q.y - a.y by linarith)
    linarith
  · have e : det p q b * (b.y - a.y) = (det a b q) * (p.y - b.y) - det a b p * (q.y - b.y) := by
      linear_combination (-1 : K) * hy + (b.y) * hf
    by_contra hc; push Not at hc
    have := mul_pos (neg_pos.mpr hc) (show 0 < b.y - a.y by linarith)
    have := mul_nonneg (neg_nonneg.mpr hq) (show 0 ≤ b.y - p.y by linarith)
    have := mul_nonneg h.le (show 0 ≤ b.y - q.y by linarith)
    linarith

/-- `p` is beside `a b` and `a`, the upper end, beside `p q`. -/
theorem cg_up (p q a b : Coord K) (hn : ¬ Meet p q a b) (h1 : b.y ≤ p.y) (h2 : p.y < a.y) (h3 : a.y ≤ q.y) :
    det a b p < 0 ↔ det p q a < 0 := by
  have hy := four_y p q a b
  have hf := four p q a b
  have e1 : det p q a * (a.y - b.y) = det a b q * (a.y - p.y) + det a b p * (q.y - a.y) := by
    linear_combination hy - (a.y) * hf
  have e2 : det p q b * (a.y - p.y) = det p q a * (b.y - p.y) + det a b p * (q.y - p.y) := by
    linear_combination hy - (p.y) * hf
  constructor
  · intro h
    by_contra hc; push Not at hc
    have i1 := mul_nonneg hc (show 0 ≤ a.y - b.y by linarith)
    have i2 := mul_nonneg (neg_nonneg.mpr h.le) (show 0 ≤ q.y - a.y by linarith)
    have i3 := mul_nonneg hc (show 0 ≤ p.y - b.y by linarith)
    have i4 := mul_pos (neg_pos.mpr h) (show 0 < q.y - p.y by linarith)
    have hq : 0 ≤ det a b q := by
      by_contra hh; push Not at hh
      have := mul_pos (neg_pos.mpr hh) (show 0 < a.y - p.y by linarith)
      linarith
    have hb : det p q b ≤ 0 := by
      by_contra hh; push Not at hh
      have := mul_pos hh (show 0 < a.y - p.y by linarith)
      linarith
    exact hn (meet_of' p q a b h.le hq hb hc (by linarith))
  · intro h
    by_contra hc; push Not at hc
    have i1 := mul_pos (neg_pos.mpr h) (show 0 < a.y - b.y by linarith)
    have i2 := mul_nonneg hc (show 0 ≤ q.y - a.y by linarith)
    have i3 := mul_nonneg (neg_nonneg.mpr h.le) (show 0 ≤ p.y - b.y by linarith)
    have i4 := mul_nonneg hc (show 0 ≤ q.y - p.y by linarith)
    have hq : det a b q < 0 := by
      by_contra hh; push Not at hh
      have := mul_nonneg hh (show 0 ≤ a.y - p.y by linarith)
      linarith
    have hb : 0 ≤ det p q b := by
      by_contra hh; push Not at hh
      have := mul_pos (neg_pos.mpr hh) (show 0 < a.y - p.y by linarith)
      linarith
    exact hn (meet_of p q a b hq.le hc h.le hb (by linarith))

/-- `p` is beside `a b` and `a`, the lower end, beside `p q`. -/
theorem cg_down (p q a b : Coord K) (hn : ¬ Meet p q a b) (h1 : q.y < a.y) (h2 : a.y ≤ p.y) (h3 : p.y < b.y) :
    0 < det a b p ↔ 0 < det p q a := by
  have hy := four_y p q a b
  have hf := four p q a b
  have e1 : det p q a * (b.y - a.y) = det a b q * (p.y - a.y) + det a b p * (a.y - q.y) := by
    linear_combination (-1 : K) * hy + (a.y) * hf
  have e3 : det p q b * (p.y - a.y) = det p q a * (p.y - b.y) + det a b p * (p.y - q.y) := by
    linear_combination (-1 : K) * hy + (p.y) * hf
  constructor
  · intro h
    by_contra hc; push Not at hc
    have i1 := mul_nonneg (neg_nonneg.mpr hc) (show 0 ≤ b.y - a.y by linarith)
    have i2 := mul_pos h (show 0 < a.y - q.y by linarith)
    have hq : det a b q < 0 := by
      by_contra hh; push Not at hh
      have := mul_nonneg hh (show 0 ≤ p.y - a.y by linarith)
      linarith
    have i3 := mul_nonneg (neg_nonneg.mpr hc) (show 0 ≤ b.y - p.y by linarith)
    have i4 := mul_pos h (show 0 < p.y - q.y by linarith)
    have hb : 0 ≤ det p q b := by
      by_contra hh; push Not at hh
      have := mul_nonneg (neg_nonneg.mpr hh.le) (show 0 ≤ p.y - a.y by linarith)
      linarith
    exact hn (meet_of p q a b hq.le h.le hc hb (by linarith))
  · intro h
    by_contra hc; push Not at hc
    have i1 := mul_pos h (show 0 < b.y - a.y by linarith)
    have i2 := mul_nonneg (neg_nonneg.mpr hc) (show 0 ≤ a.y - q.y by linarith)
    have hq : 0 < det a b q := by
      by_contra hh; push Not at hh
      have := mul_nonneg (neg_nonneg.mpr hh) (show 0 ≤ p.y - a.y by linarith)
      linarith
    have i3 := mul_pos h (show 0 < b.y - p.y by linarith)
    have i4 := mul_nonneg (neg_nonneg.mpr hc) (show 0 ≤ p.y - q.y by linarith)
    have hb : det p q b ≤ 0 := by
      by_contra hh; push Not at hh
      have := mul_nonneg hh.le (show 0 ≤ p.y - a.y by linarith)
      linarith
    exact hn (meet_of' p q a b hc hq.le hb h.le (by linarith))

/-- Both ends of `a b` are between the heights of `p` and `q`. -/
theorem gg_up (p q a b : Coord K) (hn : ¬ Meet p q a b) (p1 : p.y ≤ a.y) (p2 : a.y ≤ q.y) (q1 : p.y ≤ b.y) (q2 : b.y ≤ q.y)
    (hpq : p.y < q.y) (h : det p q a < 0) : det p q b < 0 := by
  by_contra hc
  push Not at hc
  have hy := four_y p q a b
  have hf := four p q a b
  refine hn (meet_of p q a b ?_ ?_ h.le hc (by linarith))
  · have e : det a b q * (q.y - p.y) = det p q a * (q.y - b.y) - det p q b * (q.y - a.y) := by
      linear_combination (-1 : K) * hy + (q.y) * hf
    by_contra hh; push Not at hh
    have := mul_pos hh (show 0 < q.y - p.y by linarith)
    have := mul_nonneg (neg_nonneg.mpr h.le) (show 0 ≤ q.y - b.y by linarith)
    have := mul_nonneg hc (show 0 ≤ q.y - a.y by linarith)
    linarith
  · have e : det a b p * (q.y - p.y) = det p q b * (a.y - p.y) - det p q a * (b.y - p.y) := by
      linear_combination (-1 : K) * hy + (p.y) * hf
    by_contra hh; push Not at hh
    have := mul_pos (neg_pos.mpr hh) (show 0 < q.y - p.y by linarith)
    have := mul_nonneg (neg_nonneg.mpr h.le) (show 0 ≤ b.y - p.y by linarith)
    have := mul_nonneg hc (show 0 ≤ a.y - p.y by linarith)
    linarith

open Classical in
/-- 1 if the statement holds. -/
noncomputable def ind (h : Prop) : ZMod 2 := if h then 1 else 0

theorem ind_congr {h h' : Prop} (e : h ↔ h') : ind h = ind h' := by rw [propext e]
theorem ind_true {h : Prop} (e : h) : ind h = 1 := by unfold ind; rw [if_pos e]
theorem ind_false {h : Prop} (e : ¬ h) : ind h = 0 := by unfold ind; rw [if_neg e]
theorem two_self (x : ZMod 2) : x + x = 0 := CharTwo.add_self_eq_zero x

/-- Parity of the crossings that the rays from the ends of `p q` and the region between them have with one edge. -/
noncomputable def defect (p q a b : Coord K) : ZMod 2 := ind (cx p a b) + ind (cx q a b) + (ind (gx p q a) + ind (gx p q b))

theorem defect_swap (p q a b : Coord K) : defect p q a b = defect q p a b := by
  unfold defect; rw [ind_congr (gx_swap p q a), ind_congr (gx_swap p q b)]; ring

theorem defect_swap' (p q a b : Coord K) : defect p q a b = defect p q b a := by
  unfold defect; rw [ind_congr (cx_swap p a b), ind_congr (cx_swap q a b)]; ring

theorem no_cx (p a b : Coord K) (h : (a.y ≤ p.y ∧ b.y ≤ p.y) ∨ (p.y < a.y ∧ p.y < b.y)) : ¬ cx p a b := by
  rintro (⟨h1, h2, _⟩ | ⟨h1, h2, _⟩) <;> rcases h with h | h <;> linarith [h.1, h.2]

theorem no_gx (p q v : Coord K) (h : (v.y ≤ p.y ∧ v.y ≤ q.y) ∨ (p.y < v.y ∧ q.y < v.y)) : ¬ gx p q v := by
  rintro (⟨h1, h2, _⟩ | ⟨h1, h2, _⟩) <;> rcases h with h | h <;> linarith [h.1, h.2]

theorem cx_up {p a b : Coord K} (h1 : a.y ≤ p.y) (h2 : p.y < b.y) : cx p a b ↔ 0 < det a b p := by
  unfold cx
  constructor
  · rintro (⟨_, _, h⟩ | ⟨h3, h4, _⟩)
    · exact h
    · linarith
  · exact fun h => Or.inl ⟨h1, h2, h⟩

theorem gx_up {p q v : Coord K} (h1 : p.y < v.y) (h2 : v.y ≤ q.y) : gx p q v ↔ det p q v < 0 := by
  unfold gx
  constructor
  · rintro (⟨_, _, h⟩ | ⟨h3, h4, _⟩)
    · exact h
    · linarith
  · exact fun h => Or.inl ⟨h1, h2, h⟩

theorem cx_down {p a b : Coord K} (h1 : b.y ≤ p.y) (h2 : p.y < a.y) : cx p a b ↔ det a b p < 0 := by
  rw [cx_swap, cx_up h1 h2, det_swap']; constructor <;> intro h <;> linarith

theorem gx_down {p q v : Coord K} (h1 : q.y < v.y) (h2 : v.y ≤ p.y) : gx p q v ↔ 0 < det p q v := by
  rw [gx_swap, gx_up h1 h2, det_swap']; constructor <;> intro h <;> linarith

/-- Disjoint segments have no defect. -/
theorem defect_zero (p q a b : Coord K) (hn : ¬ Meet p q a b) : defect p q a b = 0 := by
  have key : ∀ a b : Coord K, ¬ Meet p q a b → a.y ≤ b.y → defect p q a b = 0 := by
    clear hn a b
    intro a b hn hab
    have key2 : ∀ p q : Coord K, ¬ Meet p q a b → p.y ≤ q.y → defect p q a b = 0 := by
      clear hn p q
      intro p q hn hpq
      unfold defect
      rcases lt_or_ge p.y a.y with h1 | h1
      · rw [ind_false (no_cx p a b (Or.inr ⟨h1, by linarith⟩))]
        rcases lt_or_ge q.y a.y with h2 | h2
        · rw [ind_false (no_cx q a b (Or.inr ⟨h2, by linarith⟩)), ind_false (no_gx p q a (Or.inr ⟨h1, h2⟩)),
            ind_false (no_gx p q b (Or.inr ⟨by linarith, by linarith⟩))]; rfl
        · rcases lt_or_ge q.y b.y with h3 | h3
          · -- p < a ≤ q < b
            rw [ind_false (no_gx p q b (Or.inr ⟨by linarith, h3⟩)), ind_congr (cx_up h2 h3), ind_congr (gx_up h1 h2)]
            have := cg_down q p a b (fun hm => hn (meet_swap _ _ _ _ hm)) h1 h2 h3
            rw [ind_congr this, det_swap' p q a, show (0 < -det p q a) = (det p q a < 0) by rw [neg_pos]]
            simp [two_self]
          · -- p < a ≤ b ≤ q
            rw [ind_false (no_cx q a b (Or.inl ⟨h2, h3⟩)), ind_congr (gx_up h1 h2), ind_congr (gx_up (by linarith : p.y < b.y) h3)]
            have : det p q a < 0 ↔ det p q b < 0 :=
              ⟨gg_up p q a b hn h1.le h2 (by linarith) h3 (by linarith),
               gg_up p q b a (fun hm => hn (meet_swap' _ _ _ _ hm)) (by linarith) h3 h1.le h2 (by linarith)⟩
            rw [ind_congr this]; simp [two_self]
      · rcases lt_or_ge p.y b.y with h2 | h2
        · rw [ind_congr (cx_up h1 h2), ind_false (no_gx p q a (Or.inl ⟨h1, by linarith⟩))]
          rcases lt_or_ge q.y b.y with h3 | h3
          · rw [ind_congr (cx_up (by linarith : a.y ≤ q.y) h3), ind_false (no_gx p q b (Or.inr ⟨h2, h3⟩))]
            have : 0 < det a b p ↔ 0 < det a b q :=
              ⟨cc_up p q a b hn h1 h2.le (by linarith) h3.le (by linarith),
               cc_up q p a b (fun hm => hn (meet_swap _ _ _ _ hm)) (by linarith) h3.le h1 h2.le (by linarith)⟩
            rw [ind_congr this]; simp [two_self]
          · -- a ≤ p < b ≤ q
            rw [ind_false (no_cx q a b (Or.inl ⟨by linarith, h3⟩)), ind_congr (gx_up h2 h3)]
            have := cg_up p q b a (fun hm => hn (meet_swap' _ _ _ _ hm)) h1 h2 h3
            rw [det_swap' a b p, neg_lt_zero] at this
            rw [ind_congr this]; simp [two_self]
        · rw [ind_false (no_cx p a b (Or.inl ⟨h1, h2⟩)), ind_false (no_cx q a b (Or.inl ⟨by linarith, by linarith⟩)),
            ind_false (no_gx p q a (Or.inl ⟨h1, by linarith⟩)), ind_false (no_gx p q b (Or.inl ⟨h2, by linarith⟩))]; rfl
    rcases le_total p.y q.y with h | h
    · exact key2 p q hn h
    · rw [defect_swap]; exact key2 q p (fun hm => hn (meet_swap _ _ _ _ hm)) h
  rcases le_total a.y b.y with h | h
  · exact key a b hn h
  · rw [defect_swap']; exact key b a (fun hm => hn (meet_swap' _ _ _ _ hm)) h

/-! ## Closed polygons -/

/-- Parity of the crossings of the ray to the right with the first `n` edges of a polygon. -/
noncomputable def par (P : Nat → Coord K) (n : Nat) (p : Coord K) : ZMod 2 := ∑ i ∈ Finset.range n, ind (cx p (P i) (P (i + 1)))

/-- The crossings from two points differ by the defects of the edges. -/
theorem par_add (P : Nat → Coord K) (n : Nat) (hP : (P n).x = (P 0).x ∧ (P n).y = (P 0).y) (p q : Coord K) :
    par P n p + par P n q = ∑ i ∈ Finset.range n, defect p q (P i) (P (i + 1)) := by
  have tel : ∑ i ∈ Finset.range n, (ind (gx p q (P i)) + ind (gx p q (P (i + 1)))) = 0 := by
    rw [Finset.sum_add_distrib]
    have h1 := Finset.sum_range_succ (fun i => ind (gx p q (P i))) n
    have h2 := Finset.sum_range_succ' (fun i => ind (gx p q (P i))) n
    have : ∑ i ∈ Finset.range n, ind (gx p q (P (i + 1))) = ∑ i ∈ Finset.range n, ind (gx p q (P i)) := by
      have h3 := h2.symm.trans h1
      have hg : gx p q (P n) ↔ gx p q (P 0) := by unfold gx Spec.det; rw [hP.1, hP.2]
      rw [ind_congr hg] at h3
      exact add_right_cancel h3
    rw [this]; exact two_self _
  unfold par defect
  rw [← Finset.sum_add_distrib, Finset.sum_add_distrib (f := fun i => ind (cx p (P i) (P (i + 1))) + ind (cx q (P i) (P (i + 1)))), tel,
    add_zero]

/-! ## One corner -/

/-- `p` is on the segment from `a` to `b`, but is none of its ends. -/
def Inside (p a b : Coord K) : Prop := ∃ t : K, 0 < t ∧ t < 1 ∧ p.x = a.x + t * (b.x - a.x) ∧ p.y = a.y + t * (b.y - a.y)

/-- Seen from the edge `a b`, the next edge starts to the right, at the heights just before `b`. -/
def turn (a b c : Coord K) : Prop :=
  (a.y < b.y ∧ c.y ≤ b.y ∧ det a b c < 0) ∨ (b.y < a.y ∧ b.y < c.y ∧ 0 < det a b c) ∨ (a.y = b.y ∧ b.y < c.y ∧ a.x < b.x)

/-- The edge goes up, or to the left. -/
def lam (a b : Coord K) : Prop := a.y < b.y ∨ (a.y = b.y ∧ b.x < a.x)

/-- The edges `a b` and `b c` do not run back on each other. -/
def NoFold (a b c : Coord K) : Prop := ¬ (det a b c = 0 ∧ 0 < (a.x - b.x) * (c.x - b.x) + (a.y - b.y) * (c.y - b.y))

theorem not_cx_of_det {p a b : Coord K} (h : det a b p = 0) : ¬ cx p a b := by
  rintro (⟨_, _, h'⟩ | ⟨_, _, h'⟩) <;> linarith

theorem not_gx_of_det {p q v : Coord K} (h : det p q v = 0) : ¬ gx p q v := by
  rintro (⟨_, _, h'⟩ | ⟨_, _, h'⟩) <;> linarith

theorem Inside.swap {p a b : Coord K} (h : Inside p a b) : Inside p b a := by
  obtain ⟨t, h1, h2, h3, h4⟩ := h
  exact ⟨1 - t, by linarith, by linarith, by rw [h3]; ring, by rw [h4]; ring⟩

theorem Inside.det {p a b : Coord K} (h : Inside p a b) : det a b p = 0 := by
  obtain ⟨t, _, _, h3, h4⟩ := h
  unfold Spec.det; rw [h3, h4]; ring

/-- The edge on which `p` lies has no defect up to its end. -/
theorem defect_self (p a b : Coord K) (h : Inside p a b) : defect p b a b = 0 := by
  have hd := h.det
  obtain ⟨t, h1, h2, h3, h4⟩ := h
  unfold defect
  rw [ind_false (not_cx_of_det hd), ind_false (not_cx_of_det (show det a b b = 0 by unfold Spec.det; ring)),
    ind_false (not_gx_of_det (show det p b b = 0 by unfold Spec.det; ring)),
    ind_false (not_gx_of_det (show det p b a = 0 by unfold Spec.det; rw [h3, h4]; ring))]
  rfl

/-- The next edge. -/
theorem defect_next (p a b c : Coord K) (h : Inside p a b) (hab : ¬ (a.x = b.x ∧ a.y = b.y)) : defect p b b c = ind (turn a b c) := by
  obtain ⟨t, h1, h2, h3, h4⟩ := h
  have e1 : det p b c = (1 - t) * det a b c := by unfold det; rw [h3, h4]; ring
  have e2 : det b c p = (1 - t) * det a b c := by unfold det; rw [h3, h4]; ring
  have ht : 0 < 1 - t := by linarith
  have s1 : det p b c < 0 ↔ det a b c < 0 := by rw [e1, mul_neg_iff]; constructor <;> intro h <;> [rcases h with h | h <;> [exact h.2; linarith [h.1]]; exact Or.inl ⟨ht, h⟩]
  have s2 : 0 < det p b c ↔ 0 < det a b c := by rw [e1, mul_pos_iff_of_pos_left ht]
  have s3 : det b c p < 0 ↔ det a b c < 0 := by rw [e2, ← e1, s1]
  have s4 : 0 < det b c p ↔ 0 < det a b c := by rw [e2, ← e1, s2]
  unfold defect
  rw [ind_false (not_cx_of_det (show det b c b = 0 by unfold det; ring)),
    ind_false (not_gx_of_det (show det p b b = 0 by unfold det; ring)), add_zero, zero_add]
  have hp : p.y - b.y = (1 - t) * (a.y - b.y) := by rw [h4]; ring
  rcases lt_trichotomy a.y b.y with hy | hy | hy
  · have hpb : p.y < b.y := by
      have := mul_pos ht (show 0 < b.y - a.y by linarith); linarith
    rcases lt_or_ge b.y c.y with hc | hc
    · rw [ind_false (no_cx p b c (Or.inr ⟨hpb, by linarith⟩)), ind_false (no_gx p b c (Or.inr ⟨by linarith, hc⟩)), ind_false]; rfl
      rintro (h | h | h) <;> linarith [h.1, h.2.1]
    · have ht' : turn a b c ↔ det a b c < 0 := by
        unfold turn
        constructor
        · rintro (h | h | h)
          · exact h.2.2
          · linarith [h.1]
          · linarith [h.1]
        · exact fun h => Or.inl ⟨hy, hc, h⟩
      rcases lt_or_ge p.y c.y with hpc | hpc
      · rw [ind_false (no_cx p b c (Or.inr ⟨hpb, hpc⟩)), ind_congr (gx_up hpc hc), ind_congr s1, ind_congr ht', zero_add]
      · rw [ind_false (no_gx p b c (Or.inl ⟨hpc, hc⟩)), ind_congr (cx_down hpc hpb), ind_congr s3, ind_congr ht', add_zero]
  · have hpb : p.y = b.y := by rw [hy, sub_self, mul_zero] at hp; linarith
    have hg : ¬ gx p b c := by
      rcases lt_or_ge b.y c.y with hc | hc
      · exact no_gx p b c (Or.inr ⟨by linarith, hc⟩)
      · exact no_gx p b c (Or.inl ⟨by linarith, hc⟩)
    rw [ind_false hg, add_zero]
    apply ind_congr
    rcases lt_or_ge b.y c.y with hc | hc
    · rw [cx_up (by linarith) (by linarith), s4]
      have e : det a b c = (b.x - a.x) * (c.y - b.y) := by unfold det; rw [hy]; ring
      rw [e, mul_pos_iff_of_pos_right (by linarith), sub_pos]
      unfold turn
      constructor
      · exact fun h => Or.inr (Or.inr ⟨hy, hc, h⟩)
      · rintro (h | h | h)
        · linarith [h.1]
        · linarith [h.1]
        · exact h.2.2
    · refine iff_of_false (no_cx p b c (Or.inl ⟨by linarith, by linarith⟩)) ?_
      rintro (h | h | h)
      · linarith [h.1]
      · linarith [h.1]
      · linarith [h.2.1]
  · have hpb : b.y < p.y := by
      have := mul_pos ht (show 0 < a.y - b.y by linarith); linarith
    rcases lt_or_ge b.y c.y with hc | hc
    · have ht' : turn a b c ↔ 0 < det a b c := by
        unfold turn
        constructor
        · rintro (h | h | h)
          · linarith [h.1]
          · exact h.2.2
          · linarith [h.1]
        · exact fun h => Or.inr (Or.inl ⟨hy, hc, h⟩)
      rcases lt_or_ge p.y c.y with hpc | hpc
      · rw [ind_false (no_gx p b c (Or.inr ⟨hpc, hc⟩)), ind_congr (cx_up hpb.le hpc), ind_congr s4, ind_congr ht', add_zero]
      · rw [ind_false (no_cx p b c (Or.inl ⟨hpb.le, hpc⟩)), ind_congr (gx_down hc hpc), ind_congr s2, ind_congr ht', zero_add]
    · rw [ind_false (no_cx p b c (Or.inl ⟨hpb.le, by linarith⟩)), ind_false (no_gx p b c (Or.inl ⟨by linarith, hc⟩)), ind_false]; rfl
      rintro (h | h | h) <;> linarith [h.1, h.2.1]

theorem lam_up {a b : Coord K} (h : a.y < b.y) : ind (lam a b) = 1 := ind_true (Or.inl h)
theorem lam_down {a b : Coord K} (h : b.y < a.y) : ind (lam a b) = 0 := ind_false (by rintro (h' | h') <;> linarith [h'])
theorem lam_flat {a b : Coord K} (h : a.y = b.y) : ind (lam a b) = ind (b.x < a.x) :=
  ind_congr ⟨by rintro (h' | h') <;> [exact absurd h (ne_of_lt h'); exact h'.2], fun h' => Or.inr ⟨h, h'⟩⟩

theorem turn_up {a b c : Coord K} (h : a.y < b.y) (hc : c.y ≤ b.y) : ind (turn a b c) = ind (det a b c < 0) :=
  ind_congr ⟨by rintro (h' | h' | h') <;> [exact h'.2.2; (exfalso; linarith [h'.1]); (exfalso; linarith [h'.1])], fun h' => Or.inl ⟨h, hc, h'⟩⟩
theorem turn_up' {a b c : Coord K} (h : a.y < b.y) (hc : b.y < c.y) : ind (turn a b c) = 0 :=
  ind_false (by rintro (h' | h' | h') <;> linarith [h'.1, h'.2.1])
theorem turn_down {a b c : Coord K} (h : b.y < a.y) (hc : b.y < c.y) : ind (turn a b c) = ind (0 < det a b c) :=
  ind_congr ⟨by rintro (h' | h' | h') <;> [(exfalso; linarith [h'.1]); exact h'.2.2; (exfalso; linarith [h'.1])], fun h' => Or.inr (Or.inl ⟨h, hc, h'⟩)⟩
theorem turn_down' {a b c : Coord K} (h : b.y < a.y) (hc : c.y ≤ b.y) : ind (turn a b c) = 0 :=
  ind_false (by rintro (h' | h' | h') <;> linarith [h'.1, h'.2.1])
theorem turn_flat {a b c : Coord K} (h : a.y = b.y) (hc : b.y < c.y) : ind (turn a b c) = ind (a.x < b.x) :=
  ind_congr ⟨by rintro (h' | h' | h') <;> [(exfalso; linarith [h'.1]); (exfalso; linarith [h'.1]); exact h'.2.2], fun h' => Or.inr (Or.inr ⟨h, hc, h'⟩)⟩
theorem turn_flat' {a b c : Coord K} (h : a.y = b.y) (hc : c.y ≤ b.y) : ind (turn a b c) = 0 :=
  ind_false (by rintro (h' | h' | h') <;> linarith [h'.1, h'.2.1])

theorem ind_lt {x y : K} (h : x ≠ y) : 1 + ind (x < y) = ind (y < x) := by
  rcases lt_or_gt_of_ne h with h | h
  · rw [ind_true h, ind_false (not_lt.mpr h.le)]; rfl
  · rw [ind_false (not_lt.mpr h.le), ind_true h]; rfl

theorem noFold_det {a b c : Coord K} (hf : NoFold a b c) (h : 0 < (a.y - b.y) * (c.y - b.y)) : det a b c ≠ 0 := by
  intro hd
  refine hf ⟨hd, ?_⟩
  have e : (a.x - b.x) * (c.y - b.y) = (a.y - b.y) * (c.x - b.x) := by unfold det at hd; linear_combination -hd
  have hne : c.y - b.y ≠ 0 := fun h0 => by rw [h0, mul_zero] at h; exact lt_irrefl _ h
  have e2 : (a.x - b.x) * (c.x - b.x) * ((c.y - b.y) * (c.y - b.y)) = ((a.y - b.y) * (c.y - b.y)) * ((c.x - b.x) * (c.x - b.x)) := by
    linear_combination (c.x - b.x) * (c.y - b.y) * e
  have h2 : 0 ≤ (a.x - b.x) * (c.x - b.x) := by
    by_contra hc; push Not at hc
    have h3 := mul_pos (neg_pos.mpr hc) (mul_self_pos.mpr hne)
    have h4 := mul_nonneg h.le (mul_self_nonneg (c.x - b.x))
    linarith
  linarith

/-- Both edges of a corner have the same parity on their left. -/
theorem corner_side (a b c : Coord K) (hab : ¬ (a.x = b.x ∧ a.y = b.y)) (hbc : ¬ (b.x = c.x ∧ b.y = c.y)) (hf : NoFold a b c) :
    ind (lam a b) + ind (turn a b c) = ind (lam b c) + ind (turn c b a) := by
  have e : det c b a = -det a b c := by unfold det; ring
  rcases lt_trichotomy a.y b.y with h1 | h1 | h1 <;> rcases lt_trichotomy b.y c.y with h2 | h2 | h2
  · rw [lam_up h1, lam_up h2, turn_up' h1 h2, turn_down' h2 h1.le]
  · rw [lam_up h1, lam_flat h2, turn_up h1 h2.symm.le, turn_flat' h2.symm h1.le, add_zero]
    have e1 : det a b c = (b.y - a.y) * (b.x - c.x) := by unfold det; rw [← h2]; ring
    have : det a b c < 0 ↔ b.x < c.x := by
      rw [e1]; constructor
      · intro h; by_contra hc; push Not at hc
        have := mul_nonneg (show 0 ≤ b.y - a.y by linarith) (show 0 ≤ b.x - c.x by linarith); linarith
      · intro h; have := mul_pos (show 0 < b.y - a.y by linarith) (show 0 < c.x - b.x by linarith); linarith
    rw [ind_congr this]
    exact ind_lt (fun h => hbc ⟨h, h2⟩)
  · rw [lam_up h1, lam_down h2, turn_up h1 h2.le, turn_up h2 h1.le, e, neg_lt_zero, zero_add]
    exact ind_lt (noFold_det hf (mul_pos_of_neg_of_neg (by linarith) (by linarith)))
  · rw [lam_flat h1, lam_up h2, turn_flat h1 h2, turn_down' h2 h1.le, add_zero]
    rw [← ind_lt (fun h => hab ⟨h, h1⟩), add_assoc, two_self, add_zero]
  · rw [lam_flat h1, lam_flat h2, turn_flat' h1 h2.symm.le, turn_flat' h2.symm h1.le, add_zero, add_zero]
    apply ind_congr
    have hd : det a b c = 0 := by unfold det; rw [← h2, h1]; ring
    have hh : ¬ 0 < (a.x - b.x) * (c.x - b.x) := fun h => hf ⟨hd, by rw [h1, sub_self, zero_mul, add_zero]; exact h⟩
    have na : a.x ≠ b.x := fun h => hab ⟨h, h1⟩
    have nb : b.x ≠ c.x := fun h => hbc ⟨h, h2⟩
    rcases lt_or_gt_of_ne na with i1 | i1 <;> rcases lt_or_gt_of_ne nb with i2 | i2
    · exact iff_of_false (by linarith) (by linarith)
    · exact absurd (mul_pos_of_neg_of_neg (by linarith) (by linarith)) hh
    · exact absurd (mul_pos (by linarith) (by linarith)) hh
    · exact iff_of_true i1 i2
  · rw [lam_flat h1, lam_down h2, turn_flat' h1 h2.le, turn_up h2 h1.le, e, add_zero, zero_add, neg_lt_zero]
    apply ind_congr
    have e1 : det a b c = (a.x - b.x) * (b.y - c.y) := by unfold det; rw [h1]; ring
    rw [e1, mul_pos_iff_of_pos_right (by linarith), sub_pos]
  · rw [lam_down h1, lam_up h2, turn_down h1 h2, turn_down h2 h1, e, neg_pos, zero_add]
    exact (ind_lt (noFold_det hf (mul_pos (by linarith) (by linarith)))).symm
  · rw [lam_down h1, lam_flat h2, turn_down' h1 h2.symm.le, turn_flat h2.symm h1, add_zero, ind_congr Iff.rfl, two_self]
  · rw [lam_down h1, lam_down h2, turn_down' h1 h2.le, turn_up' h2 h1]

/-! ## Simple polygons -/

/-- Around the polygon with `n` corners no corner is repeated at once, and two edges have only a common end in common, if they follow
each other, else nothing. -/
structure Simple (P : Nat → Coord K) (n : Nat) : Prop where
  three : 3 ≤ n
  period : ∀ i, P (i + n) = P i
  step : ∀ i, ¬ ((P i).x = (P (i + 1)).x ∧ (P i).y = (P (i + 1)).y)
  apart : ∀ i j, i < n → j < n → i ≠ j → ∀ s : Coord K, OnSegment s (P i) (P (i + 1)) → OnSegment s (P j) (P (j + 1)) →
    ((i + 1) % n = j ∧ s.x = (P j).x ∧ s.y = (P j).y) ∨ ((j + 1) % n = i ∧ s.x = (P i).x ∧ s.y = (P i).y)

variable {P : Nat → Coord K} {n : Nat}

theorem Simple.mod (h : Simple P n) (i : Nat) : P (i % n) = P i := by
  conv_rhs => rw [← Nat.mod_add_div i n]
  generalize i / n = k
  induction k with
  | zero => simp
  | succ k ih => rw [Nat.mul_succ, ← Nat.add_assoc, h.period, ← ih]

theorem Simple.mod_succ (h : Simple P n) (i : Nat) : P (i % n + 1) = P (i + 1) := by
  rw [← h.mod (i % n + 1), ← h.mod (i + 1), Nat.mod_add_mod]

/-- The conditions around the ring, for edges given by any number. -/
theorem Simple.apart' (h : Simple P n) (i j : Nat) (hij : i % n ≠ j % n) (s : Coord K) (h1 : OnSegment s (P i) (P (i + 1)))
    (h2 : OnSegment s (P j) (P (j + 1))) :
    ((i + 1) % n = j % n ∧ s.x = (P j).x ∧ s.y = (P j).y) ∨ ((j + 1) % n = i % n ∧ s.x = (P i).x ∧ s.y = (P i).y) := by
  have hn : 0 < n := by have := h.three; omega
  have := h.apart (i % n) (j % n) (Nat.mod_lt _ hn) (Nat.mod_lt _ hn) hij s (by rw [h.mod, h.mod_succ]; exact h1)
    (by rw [h.mod, h.mod_succ]; exact h2)
  rw [h.mod, h.mod, Nat.mod_add_mod, Nat.mod_add_mod] at this
  exact this

theorem mod_ne (hn : 3 ≤ n) (i : Nat) : i % n ≠ (i + 1) % n ∧ (i + 2) % n ≠ i % n := by
  have h1 := Nat.mod_lt i (show 0 < n by omega)
  constructor
  · rw [← Nat.mod_add_mod]
    intro h
    by_cases hc : i % n + 1 < n
    · rw [Nat.mod_eq_of_lt hc] at h; omega
    · rw [show i % n + 1 = n by omega, Nat.mod_self] at h; omega
  · rw [← Nat.mod_add_mod]
    intro h
    by_cases hc : i % n + 2 < n
    · rw [Nat.mod_eq_of_lt hc] at h; omega
    · rw [show i % n + 2 = n + (i % n + 2 - n) by omega, Nat.add_mod_left, Nat.mod_eq_of_lt (by omega)] at h; omega

theorem succ_mod_inj (hn : 0 < n) {i j : Nat} (h : (i + 1) % n = (j + 1) % n) : i % n = j % n := by
  have : i + 1 ≡ j + 1 [MOD n] := h
  exact Nat.ModEq.add_right_cancel' 1 this

theorem Simple.noFold (h : Simple P n) (i : Nat) : NoFold (P i) (P (i + 1)) (P (i + 2)) := by
  rintro ⟨hd, hp⟩
  have ha := h.step i
  obtain ⟨m1, m2⟩ := mod_ne h.three i
  set a := P i
  set b := P (i + 1)
  set c := P (i + 2)
  have hq : 0 < (a.x - b.x) * (a.x - b.x) + (a.y - b.y) * (a.y - b.y) := by
    by_contra hc
    have := mul_self_nonneg (a.x - b.x)
    have := mul_self_nonneg (a.y - b.y)
    have e1 : (a.x - b.x) * (a.x - b.x) = 0 := by linarith
    have e2 : (a.y - b.y) * (a.y - b.y) = 0 := by linarith
    exact ha ⟨by linarith [mul_self_eq_zero.mp e1], by linarith [mul_self_eq_zero.mp e2]⟩
  obtain ⟨k, hk⟩ : ∃ k, k = ((a.x - b.x) * (c.x - b.x) + (a.y - b.y) * (c.y - b.y)) / ((a.x - b.x) * (a.x - b.x) + (a.y - b.y) * (a.y - b.y)) := ⟨_, rfl⟩
  have hkp : 0 < k := by rw [hk]; exact div_pos hp hq
  have hk' : k * ((a.x - b.x) * (a.x - b.x) + (a.y - b.y) * (a.y - b.y)) = (a.x - b.x) * (c.x - b.x) + (a.y - b.y) * (c.y - b.y) := by
    rw [hk]; exact div_mul_cancel₀ _ hq.ne'
  have hd' : (a.x - b.x) * (c.y - b.y) = (a.y - b.y) * (c.x - b.x) := by unfold det at hd; linear_combination -hd
  have cx' : c.x - b.x = k * (a.x - b.x) := by
    apply mul_left_cancel₀ hq.ne'
    linear_combination (a.x - b.x) * (-hk') + (a.y - b.y) * (-hd')
  have cy' : c.y - b.y = k * (a.y - b.y) := by
    apply mul_left_cancel₀ hq.ne'
    linear_combination (a.y - b.y) * (-hk') + (a.x - b.x) * hd'
  -- a common point other than `b`
  have fin : ∀ s : Coord K, OnSegment s a b → OnSegment s b c → ¬ (s.x = b.x ∧ s.y = b.y) → False := by
    intro s s1 s2 s3
    rcases h.apart' i (i + 1) m1 s s1 s2 with ⟨_, e⟩ | ⟨e, _⟩
    · exact s3 e
    · exact m2 e
  by_cases h1 : k ≤ 1
  · refine fin c ((onSegment_swap _ _ _).mp ⟨k, hkp.le, h1, by linarith, by linarith⟩) ((onSegment_end _ _ _).2 ⟨rfl, rfl⟩) ?_
    exact fun hc => h.step (i + 1) ⟨hc.1.symm, hc.2.symm⟩
  · push Not at h1
    refine fin a ((onSegment_end _ _ _).1 ⟨rfl, rfl⟩) ⟨1 / k, by positivity, (div_le_one hkp).mpr h1.le, ?_, ?_⟩ ha
    · rw [cx']; field_simp; ring
    · rw [cy']; field_simp; ring

theorem Inside.onSegment {p a b : Coord K} (h : Inside p a b) : OnSegment p a b := by
  obtain ⟨t, h1, h2, h3⟩ := h; exact ⟨t, h1.le, h2.le, h3⟩

/-- The part of an edge from a point inside it to its end: it belongs to the edge, and the start of the edge is not on it. -/
theorem Inside.rest {p a b s : Coord K} (h : Inside p a b) (hab : ¬ (a.x = b.x ∧ a.y = b.y)) (hs : OnSegment s p b) :
    OnSegment s a b ∧ ¬ (s.x = a.x ∧ s.y = a.y) := by
  obtain ⟨t, h1, h2, h3, h4⟩ := h
  obtain ⟨u, u1, u2, u3, u4⟩ := hs
  have e1 : s.x = a.x + (t + u * (1 - t)) * (b.x - a.x) := by rw [u3, h3]; ring
  have e2 : s.y = a.y + (t + u * (1 - t)) * (b.y - a.y) := by rw [u4, h4]; ring
  have hu := mul_nonneg u1 (show 0 ≤ 1 - t by linarith)
  have hu2 : u * (1 - t) ≤ 1 * (1 - t) := mul_le_mul_of_nonneg_right u2 (by linarith)
  refine ⟨⟨t + u * (1 - t), by linarith, by linarith, e1, e2⟩, ?_⟩
  rintro ⟨f1, f2⟩
  have ht : t + u * (1 - t) ≠ 0 := by linarith
  have g1 : (t + u * (1 - t)) * (b.x - a.x) = 0 := by linarith
  have g2 : (t + u * (1 - t)) * (b.y - a.y) = 0 := by linarith
  have g1' := (mul_eq_zero.mp g1).resolve_left ht
  have g2' := (mul_eq_zero.mp g2).resolve_left ht
  exact hab ⟨by linarith, by linarith⟩

/-- From a point inside an edge to the end of the edge. -/
theorem Simple.to_end (h : Simple P n) (i : Nat) (p : Coord K) (hp : Inside p (P i) (P (i + 1))) :
    par P n p + par P n (P (i + 1)) = ind (turn (P i) (P (i + 1)) (P (i + 2))) := by
  have hn : 0 < n := by have := h.three; omega
  obtain ⟨m1, m2⟩ := mod_ne h.three i
  have h0 : (P n).x = (P 0).x ∧ (P n).y = (P 0).y := by have := h.period 0; rw [Nat.zero_add] at this; rw [this]; exact ⟨rfl, rfl⟩
  rw [par_add P n h0, Finset.sum_eq_single ((i + 1) % n), h.mod, h.mod_succ]
  · exact defect_next p _ _ _ hp (h.step i)
  · intro j hj hne
    have hj' := Finset.mem_range.mp hj
    by_cases hji : j = i % n
    · rw [hji, h.mod, h.mod_succ]; exact defect_self p _ _ hp
    · apply defect_zero
      rintro ⟨s, s1, s2⟩
      obtain ⟨r1, r2⟩ := hp.rest (h.step i) s1
      have hjm : j % n = j := Nat.mod_eq_of_lt hj'
      rcases h.apart' i j (by rw [hjm]; exact Ne.symm hji) s r1 s2 with ⟨e, _⟩ | ⟨_, e⟩
      · rw [hjm] at e; exact hne e.symm
      · exact r2 e
  · exact fun hc => absurd (Finset.mem_range.mpr (Nat.mod_lt _ hn)) hc

/-- From a point inside an edge to its start. -/
theorem Simple.to_start (h : Simple P n) (i : Nat) (p : Coord K) (hp : Inside p (P (i + 1)) (P (i + 2))) :
    par P n p + par P n (P (i + 1)) = ind (turn (P (i + 2)) (P (i + 1)) (P i)) := by
  have hn : 0 < n := by have := h.three; omega
  obtain ⟨m1, m2⟩ := mod_ne h.three i
  have h0 : (P n).x = (P 0).x ∧ (P n).y = (P 0).y := by have := h.period 0; rw [Nat.zero_add] at this; rw [this]; exact ⟨rfl, rfl⟩
  have hst : ¬ ((P (i + 2)).x = (P (i + 1)).x ∧ (P (i + 2)).y = (P (i + 1)).y) := fun hc => h.step (i + 1) ⟨hc.1.symm, hc.2.symm⟩
  rw [par_add P n h0, Finset.sum_eq_single (i % n), h.mod, h.mod_succ, defect_swap']
  · exact defect_next p _ _ _ hp.swap hst
  · intro j hj hne
    have hj' := Finset.mem_range.mp hj
    by_cases hji : j = (i + 1) % n
    · rw [hji, h.mod, h.mod_succ, defect_swap']; exact defect_self p _ _ hp.swap
    · apply defect_zero
      rintro ⟨s, s1, s2⟩
      obtain ⟨r1, r2⟩ := hp.swap.rest hst s1
      have hjm : j % n = j := Nat.mod_eq_of_lt hj'
      rcases h.apart' (i + 1) j (by rw [hjm]; exact Ne.symm hji) s ((onSegment_swap _ _ _).mp r1) s2 with ⟨e, e2⟩ | ⟨e, _⟩
      · apply r2
        rw [hjm] at e
        have : P j = P (i + 2) := by rw [← e, h.mod]
        rwa [this] at e2
      · apply hne
        rw [← hjm]
        exact succ_mod_inj hn e
  · exact fun hc => absurd (Finset.mem_range.mpr (Nat.mod_lt _ hn)) hc

/-! ## The side of an edge -/

/-- Parity on the left of the edge `i`. -/
noncomputable def side (P : Nat → Coord K) (n i : Nat) : ZMod 2 :=
  ind (lam (P i) (P (i + 1))) + ind (turn (P i) (P (i + 1)) (P (i + 2))) + par P n (P (i + 1))

theorem exists_inside (a b : Coord K) : ∃ p, Inside p a b :=
  ⟨⟨a.x + 1 / 2 * (b.x - a.x), a.y + 1 / 2 * (b.y - a.y), 0, 0⟩, 1 / 2, by norm_num, by norm_num, rfl, rfl⟩

theorem two_move {x y z : ZMod 2} (h : x + y = z) : x = z + y := by rw [← h, add_assoc, two_self, add_zero]

theorem Simple.inside_side (h : Simple P n) (i : Nat) (p : Coord K) (hp : Inside p (P i) (P (i + 1))) :
    ind (lam (P i) (P (i + 1))) + par P n p = side P n i := by
  rw [two_move (h.to_end i p hp)]; unfold side; rw [add_assoc]

theorem Simple.side_succ (h : Simple P n) (i : Nat) : side P n (i + 1) = side P n i := by
  obtain ⟨p, hp⟩ := exists_inside (P (i + 1)) (P (i + 2))
  rw [← h.inside_side (i + 1) p hp, two_move (h.to_start i p hp), ← add_assoc]
  rw [← corner_side _ _ _ (h.step i) (h.step (i + 1)) (h.noFold i)]
  rfl

theorem Simple.side_const (h : Simple P n) (i j : Nat) : side P n i = side P n j := by
  have : ∀ i, side P n i = side P n 0 := by
    intro i
    induction i with
    | zero => rfl
    | succ i ih => rw [h.side_succ, ih]
  rw [this i, this j]

theorem ind_lt' {x y : K} (h : x ≠ y) : ind (x < y) = 1 + ind (y < x) := by
  rw [← ind_lt h, ← add_assoc, two_self, zero_add]

/-- Leaving an edge, which is crossed at one of its points. -/
theorem defect_leave (p q a b : Coord K) (hp : Inside p a b) (hq : det a b q ≠ 0) :
    defect p q a b = ind (lam a b) + ind (det a b q < 0) := by
  have up : ∀ a b : Coord K, Inside p a b → det a b q ≠ 0 → a.y < b.y → defect p q a b = 1 + ind (det a b q < 0) := by
    clear hp hq a b
    intro a b hp hq hab
    have hd := hp.det
    obtain ⟨t, h1, h2, h3, h4⟩ := hp
    have ht : 0 < 1 - t := by linarith
    have e1 : det p q a = t * det a b q := by unfold det; rw [h3, h4]; ring
    have e2 : det p q b = -((1 - t) * det a b q) := by unfold det; rw [h3, h4]; ring
    have i1 := mul_pos h1 (show 0 < b.y - a.y by linarith)
    have i2 := mul_pos ht (show 0 < b.y - a.y by linarith)
    have hpa : a.y < p.y := by linarith
    have hpb : p.y < b.y := by linarith
    rw [ind_lt hq]
    unfold defect
    rw [ind_false (not_cx_of_det hd), zero_add]
    rcases lt_or_ge q.y a.y with hqa | hqa
    · rw [ind_false (no_cx q a b (Or.inr ⟨hqa, by linarith⟩)), ind_false (no_gx p q b (Or.inr ⟨hpb, by linarith⟩)),
        ind_congr (gx_down hqa hpa.le), e1, mul_pos_iff_of_pos_left h1, zero_add, add_zero]
    · rw [ind_false (no_gx p q a (Or.inl ⟨hpa.le, hqa⟩)), zero_add]
      rcases lt_or_ge q.y b.y with hqb | hqb
      · rw [ind_congr (cx_up hqa hqb), ind_false (no_gx p q b (Or.inr ⟨hpb, hqb⟩)), add_zero]
      · rw [ind_false (no_cx q a b (Or.inl ⟨hqa, hqb⟩)), ind_congr (gx_up hpb hqb), e2, neg_lt_zero, mul_pos_iff_of_pos_left ht,
          zero_add]
  rcases lt_trichotomy a.y b.y with hy | hy | hy
  · rw [up a b hp hq hy, lam_up hy]
  · have hd := hp.det
    obtain ⟨t, h1, h2, h3, h4⟩ := hp
    have ht : 0 < 1 - t := by linarith
    have e1 : det p q a = t * det a b q := by unfold det; rw [h3, h4]; ring
    have e2 : det p q b = -((1 - t) * det a b q) := by unfold det; rw [h3, h4]; ring
    have e3 : det a b q = (b.x - a.x) * (q.y - a.y) := by unfold det; rw [hy]; ring
    have hpa : p.y = a.y := by rw [h4, hy]; ring
    have hx : a.x ≠ b.x := fun hc => hq (by rw [e3, hc]; ring)
    have hqa : q.y ≠ a.y := fun hc => hq (by rw [e3, hc]; ring)
    rw [lam_flat hy]
    unfold defect
    rw [ind_false (not_cx_of_det hd), zero_add]
    have hcx : ¬ cx q a b := by
      rcases lt_or_ge q.y a.y with hc | hc
      · exact no_cx q a b (Or.inr ⟨hc, by linarith⟩)
      · exact no_cx q a b (Or.inl ⟨hc, by linarith⟩)
    rw [ind_false hcx, zero_add]
    rcases lt_or_gt_of_ne hqa with hc | hc
    · rw [ind_congr (gx_down hc hpa.symm.le), ind_congr (gx_down (by linarith : q.y < b.y) (by linarith)), e1, e2,
        mul_pos_iff_of_pos_left h1, neg_pos]
      have : (1 - t) * det a b q < 0 ↔ det a b q < 0 := by
        rw [mul_neg_iff]; exact ⟨fun h => h.elim (fun h => h.2) (fun h => absurd h.1 (by linarith)), fun h => Or.inl ⟨ht, h⟩⟩
      rw [ind_congr this]
      congr 1
      apply ind_congr
      rw [e3]
      constructor
      · intro h; by_contra hh; push Not at hh
        have := mul_nonneg (show 0 ≤ b.x - a.x by linarith) (show 0 ≤ a.y - q.y by linarith); linarith
      · intro h
        have := mul_pos (show 0 < a.x - b.x by linarith) (show 0 < a.y - q.y by linarith); linarith
    · rw [ind_false (no_gx p q a (Or.inl ⟨hpa.symm.le, hc.le⟩)), ind_false (no_gx p q b (Or.inl ⟨by linarith, by linarith⟩))]
      have : det a b q < 0 ↔ b.x < a.x := by
        rw [e3]
        constructor
        · intro h; by_contra hh; push Not at hh
          have := mul_nonneg (show 0 ≤ b.x - a.x by linarith) (show 0 ≤ q.y - a.y by linarith); linarith
        · intro h
          have := mul_pos (show 0 < a.x - b.x by linarith) (show 0 < q.y - a.y by linarith); linarith
      rw [ind_congr this, two_self, two_self]
  · have hq' : det b a q ≠ 0 := by rw [det_swap']; exact neg_ne_zero.mpr hq
    rw [defect_swap', up b a hp.swap hq' hy, lam_down hy, zero_add, ind_lt hq', det_swap', neg_pos]

/-- A segment that leaves the polygon inside an edge and does not meet it again: the parity of its end. -/
theorem Simple.leave (h : Simple P n) (i : Nat) (p q : Coord K) (hp : Inside p (P i) (P (i + 1)))
    (hq : det (P i) (P (i + 1)) q ≠ 0)
    (hn : ∀ j s, j < n → OnSegment s p q → OnSegment s (P j) (P (j + 1)) → s.x = p.x ∧ s.y = p.y) :
    par P n q = side P n 0 + ind (det (P i) (P (i + 1)) q < 0) := by
  have hn0 : 0 < n := by have := h.three; omega
  have h0 : (P n).x = (P 0).x ∧ (P n).y = (P 0).y := by have := h.period 0; rw [Nat.zero_add] at this; rw [this]; exact ⟨rfl, rfl⟩
  have key : par P n p + par P n q = ind (lam (P i) (P (i + 1))) + ind (det (P i) (P (i + 1)) q < 0) := by
    rw [par_add P n h0, Finset.sum_eq_single (i % n), h.mod, h.mod_succ]
    · exact defect_leave p q _ _ hp hq
    · intro j hj hne
      have hj' := Finset.mem_range.mp hj
      have hjm : j % n = j := Nat.mod_eq_of_lt hj'
      apply defect_zero
      rintro ⟨s, s1, s2⟩
      obtain ⟨e1, e2⟩ := hn j s hj' s1 s2
      have hs : Inside s (P i) (P (i + 1)) := by
        obtain ⟨t, t1, t2, t3, t4⟩ := hp; exact ⟨t, t1, t2, by rw [e1, t3], by rw [e2, t4]⟩
      have nb : ¬ (s.x = (P (i + 1)).x ∧ s.y = (P (i + 1)).y) :=
        (hs.swap.rest (fun hc => h.step i ⟨hc.1.symm, hc.2.symm⟩) ((onSegment_end _ _ _).1 ⟨rfl, rfl⟩)).2
      have na : ¬ (s.x = (P i).x ∧ s.y = (P i).y) := (hs.rest (h.step i) ((onSegment_end _ _ _).1 ⟨rfl, rfl⟩)).2
      rcases h.apart' i j (by rw [hjm]; exact Ne.symm hne) s hs.onSegment s2 with ⟨e, e3⟩ | ⟨_, e3⟩
      · have : P j = P (i + 1) := by rw [← h.mod j, ← e, h.mod]
        rw [this] at e3; exact nb e3
      · exact na e3
    · exact fun hc => absurd (Finset.mem_range.mpr (Nat.mod_lt _ hn0)) hc
  have hs := h.inside_side i p hp
  rw [h.side_const i 0] at hs
  rw [add_comm] at key
  rw [two_move key, ← hs]
  ring

/-- The top of the polygon decides the side. -/
theorem Simple.side_top (h : Simple P n) (i : Nat) (hup : (P i).y < (P (i + 1)).y) (hmax : ∀ j, (P j).y ≤ (P (i + 1)).y) :
    side P n 0 = ind (0 < det (P i) (P (i + 1)) (P (i + 2))) ∧ det (P i) (P (i + 1)) (P (i + 2)) ≠ 0 := by
  have h0 : par P n (P (i + 1)) = 0 := by
    unfold par
    exact Finset.sum_eq_zero (fun j _ => ind_false (no_cx _ _ _ (Or.inl ⟨hmax j, hmax (j + 1)⟩)))
  have hd : det (P i) (P (i + 1)) (P (i + 2)) ≠ 0 := by
    rcases lt_or_eq_of_le (hmax (i + 2)) with hc | hc
    · exact noFold_det (h.noFold i) (mul_pos_of_neg_of_neg (by linarith) (by linarith))
    · have hst := h.step (i + 1)
      have e : det (P i) (P (i + 1)) (P (i + 2)) = ((P (i + 1)).y - (P i).y) * ((P (i + 1)).x - (P (i + 2)).x) := by
        unfold det; rw [hc]; ring
      rw [e]
      refine mul_ne_zero (by linarith) (fun hz => hst ⟨by linarith, hc.symm⟩)
  refine ⟨?_, hd⟩
  rw [h.side_const 0 i]
  unfold side
  rw [h0, lam_up hup, turn_up hup (hmax _), add_zero, ind_lt hd]

end Verif.Jordan
