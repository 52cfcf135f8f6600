import Verif.Model.LineIntersector
import Verif.Props.Intersection
import Verif.Props.Envelope

set_option linter.unusedSectionVars false

/-! # C38: the segment intersector -/

namespace Verif.Props
open Flt Verif.Spec

/-- The same position in the plane. -/
def Same {K : Type} (a b : Coord K) : Prop := a.x = b.x ∧ a.y = b.y

/-- `c` is a point of both closed segments. -/
def Common {K : Type} [Field K] [LinearOrder K] (c p1 p2 q1 q2 : Coord K) : Prop := OnSegment c p1 p2 ∧ OnSegment c q1 q2

/-- `c` is on the segment but is none of its ends. -/
def Inside {K : Type} [Field K] [LinearOrder K] (c a b : Coord K) : Prop := OnSegment c a b ∧ ¬ Same c a ∧ ¬ Same c b

section Exact
variable {K : Type} [Field K] [LinearOrder K] [IsStrictOrderedRing K]

/-! ## Four points on one line -/

/-- Four points, each pair on the line of the other: they have positions along a common direction. -/
theorem line_param (p1 p2 q1 q2 : Coord K) (h1 : det p1 p2 q1 = 0) (h2 : det p1 p2 q2 = 0) (h3 : det q1 q2 p1 = 0)
    (h4 : det q1 q2 p2 = 0) : ∃ ox oy dx dy u1 u2 v1 v2 : K, ¬ (dx = 0 ∧ dy = 0) ∧
      (p1.x = ox + u1 * dx ∧ p1.y = oy + u1 * dy) ∧ (p2.x = ox + u2 * dx ∧ p2.y = oy + u2 * dy) ∧
      (q1.x = ox + v1 * dx ∧ q1.y = oy + v1 * dy) ∧ (q2.x = ox + v2 * dx ∧ q2.y = oy + v2 * dy) := by
  have key : ∀ a b c : Coord K, ¬ (b.x - a.x = 0 ∧ b.y - a.y = 0) → det a b c = 0 →
      ∃ t, c.x = a.x + t * (b.x - a.x) ∧ c.y = a.y + t * (b.y - a.y) := by
    intro a b c hne hd
    unfold det at hd
    by_cases hx : b.x - a.x = 0
    · have hy : b.y - a.y ≠ 0 := fun h => hne ⟨hx, h⟩
      refine ⟨(c.y - a.y) / (b.y - a.y), ?_, ?_⟩
      · rw [hx] at hd ⊢
        have : c.x - a.x = 0 := by
          apply mul_left_cancel₀ hy; linear_combination -hd
        linear_combination this
      · rw [div_mul_cancel₀ _ hy]; ring
    · refine ⟨(c.x - a.x) / (b.x - a.x), ?_, ?_⟩
      · rw [div_mul_cancel₀ _ hx]; ring
      · apply mul_left_cancel₀ hx
        have := div_mul_cancel₀ (c.x - a.x) hx
        linear_combination hd - (b.y - a.y) * this
  by_cases hp : p2.x - p1.x = 0 ∧ p2.y - p1.y = 0
  · by_cases hq : q2.x - q1.x = 0 ∧ q2.y - q1.y = 0
    · by_cases hr : q1.x - p1.x = 0 ∧ q1.y - p1.y = 0
      · refine ⟨p1.x, p1.y, 1, 0, 0, 0, 0, 0, by simp, ?_, ?_, ?_, ?_⟩ <;> constructor <;> linarith [hp.1, hp.2, hq.1, hq.2, hr.1, hr.2]
      · refine ⟨p1.x, p1.y, q1.x - p1.x, q1.y - p1.y, 0, 0, 1, 1, hr, ?_, ?_, ?_, ?_⟩ <;> constructor <;>
          linarith [hp.1, hp.2, hq.1, hq.2]
    · obtain ⟨t1, e1⟩ := key q1 q2 p1 hq h3
      obtain ⟨t2, e2⟩ := key q1 q2 p2 hq h4
      exact ⟨q1.x, q1.y, _, _, t1, t2, 0, 1, hq, e1, e2, ⟨by ring, by ring⟩, ⟨by ring, by ring⟩⟩
  · obtain ⟨t1, e1⟩ := key p1 p2 q1 hp h1
    obtain ⟨t2, e2⟩ := key p1 p2 q2 hp h2
    exact ⟨p1.x, p1.y, _, _, 0, 1, t1, t2, hp, ⟨by ring, by ring⟩, ⟨by ring, by ring⟩, e1, e2⟩

/-- Between in one coordinate. -/
theorem between_scale (o d u v w : K) :
    (min u v ≤ w ∧ w ≤ max u v) → min (o + u * d) (o + v * d) ≤ o + w * d ∧ o + w * d ≤ max (o + u * d) (o + v * d) := by
  rintro ⟨h1, h2⟩
  rcases le_total u v with h | h
  · rw [min_eq_left h] at h1
    rw [max_eq_right h] at h2
    rcases le_total 0 d with hd | hd
    · exact ⟨(min_le_left _ _).trans (by nlinarith), le_trans (by nlinarith) (le_max_right _ _)⟩
    · exact ⟨(min_le_right _ _).trans (by nlinarith), le_trans (by nlinarith) (le_max_left _ _)⟩
  · rw [min_eq_right h] at h1
    rw [max_eq_left h] at h2
    rcases le_total 0 d with hd | hd
    · exact ⟨(min_le_right _ _).trans (by nlinarith), le_trans (by nlinarith) (le_max_left _ _)⟩
    · exact ⟨(min_le_left _ _).trans (by nlinarith), le_trans (by nlinarith) (le_max_right _ _)⟩

theorem between_unscale (o d u v w : K) (hd : d ≠ 0) :
    (min (o + u * d) (o + v * d) ≤ o + w * d ∧ o + w * d ≤ max (o + u * d) (o + v * d)) → (min u v ≤ w ∧ w ≤ max u v) := by
  intro h
  have := between_scale (-o / d) (1 / d) (o + u * d) (o + v * d) (o + w * d) h
  have e : ∀ x : K, -o / d + (o + x * d) * (1 / d) = x := by intro x; field_simp; ring
  rwa [e, e, e] at this

/-- The box test along a line is the test of the positions. -/
theorem box_param (ox oy dx dy u v w : K) (hd : ¬ (dx = 0 ∧ dy = 0)) (a b c : Coord K) (ha : a.x = ox + u * dx ∧ a.y = oy + u * dy)
    (hb : b.x = ox + v * dx ∧ b.y = oy + v * dy) (hc : c.x = ox + w * dx ∧ c.y = oy + w * dy) :
    Env.intersects3 a b c = true ↔ (min u v ≤ w ∧ w ≤ max u v) := by
  rw [intersects3_iff, ha.1, ha.2, hb.1, hb.2, hc.1, hc.2]
  constructor
  · rintro ⟨h1, h2, h3, h4⟩
    by_cases hx : dx = 0
    · exact between_unscale oy dy u v w (fun h => hd ⟨hx, h⟩) ⟨h3, h4⟩
    · exact between_unscale ox dx u v w hx ⟨h1, h2⟩
  · intro h
    obtain ⟨h1, h2⟩ := between_scale ox dx u v w h
    obtain ⟨h3, h4⟩ := between_scale oy dy u v w h
    exact ⟨h1, h2, h3, h4⟩

/-- A point is on a segment of the line if it has a position between those of the ends. -/
theorem onSegment_param (ox oy dx dy u v : K) (a b : Coord K) (ha : a.x = ox + u * dx ∧ a.y = oy + u * dy)
    (hb : b.x = ox + v * dx ∧ b.y = oy + v * dy) (c : Coord K) :
    OnSegment c a b ↔ ∃ w, (min u v ≤ w ∧ w ≤ max u v) ∧ c.x = ox + w * dx ∧ c.y = oy + w * dy := by
  constructor
  · rintro ⟨t, t0, t1, hx, hy⟩
    refine ⟨u + t * (v - u), ?_, ?_, ?_⟩
    · rcases le_total u v with h | h
      · rw [min_eq_left h, max_eq_right h]; constructor <;> nlinarith
      · rw [min_eq_right h, max_eq_left h]; constructor <;> nlinarith
    · rw [hx, ha.1, hb.1]; ring
    · rw [hy, ha.2, hb.2]; ring
  · rintro ⟨w, ⟨h1, h2⟩, hx, hy⟩
    rcases eq_or_ne u v with e | e
    · have : w = u := by rw [← e, min_self] at h1; rw [← e, max_self] at h2; exact le_antisymm h2 h1
      exact (onSegment_end c a b).1 ⟨by rw [hx, ha.1, this], by rw [hy, ha.2, this]⟩
    · have hne : v - u ≠ 0 := sub_ne_zero.mpr (Ne.symm e)
      refine ⟨(w - u) / (v - u), ?_, ?_, ?_, ?_⟩
      · rcases lt_or_gt_of_ne e with h | h
        · rw [min_eq_left h.le] at h1; exact div_nonneg (by linarith) (by linarith)
        · rw [max_eq_left h.le] at h2; exact div_nonneg_of_nonpos (by linarith) (by linarith)
      · rcases lt_or_gt_of_ne e with h | h
        · rw [max_eq_right h.le] at h2; exact (div_le_one (by linarith)).mpr (by linarith)
        · rw [min_eq_right h.le] at h1; exact (div_le_one_of_neg (by linarith)).mpr (by linarith)
      · have := div_mul_cancel₀ (w - u) hne
        rw [hx, ha.1, hb.1]; linear_combination -dx * this
      · have := div_mul_cancel₀ (w - u) hne
        rw [hy, ha.2, hb.2]; linear_combination -dy * this

/-- Positions are unique. -/
theorem param_inj (ox oy dx dy u v : K) (hd : ¬ (dx = 0 ∧ dy = 0)) (h : ox + u * dx = ox + v * dx ∧ oy + u * dy = oy + v * dy) : u = v := by
  by_cases hx : dx = 0
  · exact mul_right_cancel₀ (fun h => hd ⟨hx, h⟩) (add_left_cancel h.2)
  · exact mul_right_cancel₀ hx (add_left_cancel h.1)

/-! ## Two lines that are not parallel -/

/-- The four orientations are related. -/
theorem dets (p1 p2 q1 q2 : Coord K) :
    det p1 p2 q2 - det p1 p2 q1 = dirDet p1 p2 q1 q2 ∧ det q1 q2 p1 - det q1 q2 p2 = dirDet p1 p2 q1 q2 := by
  unfold det dirDet; constructor <;> ring

/-- The crossing point of the two lines, by its position on either segment. -/
theorem crossing_param (p1 p2 q1 q2 c : Coord K) (hw : dirDet p1 p2 q1 q2 ≠ 0) (h1 : OnLineOf c p1 p2) (h2 : OnLineOf c q1 q2) :
    (c.x = p1.x + det q1 q2 p1 / dirDet p1 p2 q1 q2 * (p2.x - p1.x) ∧ c.y = p1.y + det q1 q2 p1 / dirDet p1 p2 q1 q2 * (p2.y - p1.y)) ∧
    (c.x = q1.x + -det p1 p2 q1 / dirDet p1 p2 q1 q2 * (q2.x - q1.x) ∧ c.y = q1.y + -det p1 p2 q1 / dirDet p1 p2 q1 q2 * (q2.y - q1.y)) := by
  let a : Coord K := ⟨p1.x + det q1 q2 p1 / dirDet p1 p2 q1 q2 * (p2.x - p1.x), p1.y + det q1 q2 p1 / dirDet p1 p2 q1 q2 * (p2.y - p1.y), 0, 0⟩
  let b : Coord K := ⟨q1.x + -det p1 p2 q1 / dirDet p1 p2 q1 q2 * (q2.x - q1.x), q1.y + -det p1 p2 q1 / dirDet p1 p2 q1 q2 * (q2.y - q1.y), 0, 0⟩
  have a1 : OnLineOf a p1 p2 := by unfold OnLineOf det; simp only [a]; ring
  have a2 : OnLineOf a q1 q2 := by
    unfold OnLineOf
    have := det_along q1 q2 p1 p2 a _ rfl rfl
    rw [this]
    have e := (dets p1 p2 q1 q2).2
    have e2 : det q1 q2 p2 = det q1 q2 p1 - dirDet p1 p2 q1 q2 := by linear_combination -e
    rw [e2]; field_simp; ring
  have b2 : OnLineOf b q1 q2 := by unfold OnLineOf det; simp only [b]; ring
  have b1 : OnLineOf b p1 p2 := by
    unfold OnLineOf
    have := det_along p1 p2 q1 q2 b _ rfl rfl
    rw [this]
    have e := (dets p1 p2 q1 q2).1
    have e2 : det p1 p2 q2 = det p1 p2 q1 + dirDet p1 p2 q1 q2 := by linear_combination e
    rw [e2]; field_simp; ring
  exact ⟨common_unique p1 p2 q1 q2 c a hw h1 h2 a1 a2, common_unique p1 p2 q1 q2 c b hw h1 h2 b1 b2⟩

end Exact

/-! ## The intersector -/

theorem copyWithZ_xy {α : Type} [FltSqrt α] [FltRound α] (p : Coord α) (z : α) :
    (LI.copyWithZ p z).x = p.x ∧ (LI.copyWithZ p z).y = p.y := by
  unfold LI.copyWithZ; split_ifs <;> exact ⟨rfl, rfl⟩

theorem copyWithZInterpolate_xy {α : Type} [FltSqrt α] [FltRound α] (p a b : Coord α) :
    (LI.copyWithZInterpolate p a b).x = p.x ∧ (LI.copyWithZInterpolate p a b).y = p.y := copyWithZ_xy _ _

/-- Position `w` is between `u` and `v`. -/
def In (u v w : ℝ) : Prop := min u v ≤ w ∧ w ≤ max u v

theorem In_iff (u v w : ℝ) : In u v w ↔ (u ≤ w ∨ v ≤ w) ∧ (w ≤ u ∨ w ≤ v) := by simp [In]

theorem in_inner (u1 u2 v1 v2 : ℝ) (h1 : In u1 u2 v1) (h2 : In u1 u2 v2) (w : ℝ) : In u1 u2 w ∧ In v1 v2 w ↔ In v1 v2 w := by
  simp only [In_iff] at *; grind
theorem in_overlap (u1 u2 v1 v2 : ℝ) (h1 : In u1 u2 v1) (h2 : In v1 v2 u1) (h3 : ¬ In u1 u2 v2) (h4 : ¬ In v1 v2 u2) (w : ℝ) :
    In u1 u2 w ∧ In v1 v2 w ↔ In v1 u1 w := by
  simp only [In_iff] at *; grind
theorem in_none (u1 u2 v1 v2 : ℝ) (h1 : ¬ In u1 u2 v1) (h2 : ¬ In u1 u2 v2) (w : ℝ) (hw : In u1 u2 w ∧ In v1 v2 w) :
    In v1 v2 u1 ∧ In v1 v2 u2 := by
  simp only [In_iff] at *; grind
theorem in_some (u1 u2 v1 v2 : ℝ) (h1 : ¬ In v1 v2 u1) (h2 : ¬ In v1 v2 u2) (w : ℝ) (hw : In u1 u2 w ∧ In v1 v2 w) :
    In u1 u2 v1 ∧ In u1 u2 v2 := in_none v1 v2 u1 u2 h1 h2 w hw.symm
theorem In_self (u w : ℝ) : In u u w ↔ w = u := by simp only [In_iff]; grind
theorem In_comm (u v w : ℝ) : In u v w ↔ In v u w := by simp only [In_iff]; grind

/-- What the intersector must report for two segments: the code and the points. -/
structure Reports (code : Int) (pt0 pt1 p1 p2 q1 q2 : Coord ℝ) : Prop where
  codes : code = 0 ∨ code = 1 ∨ code = 2
  none : code = 0 → ∀ c, ¬ Common c p1 p2 q1 q2
  one : code = 1 → ∀ c, Common c p1 p2 q1 q2 ↔ Same c pt0
  more : code = 2 → (∀ c, Common c p1 p2 q1 q2 ↔ OnSegment c pt0 pt1) ∧ (¬ Same p1 p2 → ¬ Same q1 q2 → ¬ Same pt0 pt1)

theorem collinear_case (s : LI ℝ) (p1 p2 q1 q2 : Coord ℝ) (h1 : det p1 p2 q1 = 0) (h2 : det p1 p2 q2 = 0) (h3 : det q1 q2 p1 = 0)
    (h4 : det q1 q2 p2 = 0) :
    Reports (s.computeCollinear p1 p2 q1 q2).1 (s.computeCollinear p1 p2 q1 q2).2.pt0 (s.computeCollinear p1 p2 q1 q2).2.pt1 p1 p2 q1 q2 ∧
      (s.computeCollinear p1 p2 q1 q2).2.isProper = s.isProper := by
  obtain ⟨ox, oy, dx, dy, u1, u2, v1, v2, hd, e1, e2, f1, f2⟩ := line_param p1 p2 q1 q2 h1 h2 h3 h4
  have a1 : Env.intersects3 p1 p2 q1 = true ↔ In u1 u2 v1 := box_param ox oy dx dy u1 u2 v1 hd p1 p2 q1 e1 e2 f1
  have a2 : Env.intersects3 p1 p2 q2 = true ↔ In u1 u2 v2 := box_param ox oy dx dy u1 u2 v2 hd p1 p2 q2 e1 e2 f2
  have a3 : Env.intersects3 q1 q2 p1 = true ↔ In v1 v2 u1 := box_param ox oy dx dy v1 v2 u1 hd q1 q2 p1 f1 f2 e1
  have a4 : Env.intersects3 q1 q2 p2 = true ↔ In v1 v2 u2 := box_param ox oy dx dy v1 v2 u2 hd q1 q2 p2 f1 f2 e2
  have co : ∀ c, Common c p1 p2 q1 q2 ↔ ∃ w, (In u1 u2 w ∧ In v1 v2 w) ∧ c.x = ox + w * dx ∧ c.y = oy + w * dy := by
    intro c
    unfold Common
    rw [onSegment_param ox oy dx dy u1 u2 p1 p2 e1 e2, onSegment_param ox oy dx dy v1 v2 q1 q2 f1 f2]
    constructor
    · rintro ⟨⟨w, hw, hx, hy⟩, w', hw', hx', hy'⟩
      have : w = w' := param_inj ox oy dx dy w w' hd ⟨by rw [← hx, hx'], by rw [← hy, hy']⟩
      subst this
      exact ⟨w, ⟨hw, hw'⟩, hx, hy⟩
    · rintro ⟨w, ⟨hw, hw'⟩, hx, hy⟩
      exact ⟨⟨w, hw, hx, hy⟩, w, hw', hx, hy⟩
  have se : ∀ (a b c : Coord ℝ) (i j : ℝ), (a.x = ox + i * dx ∧ a.y = oy + i * dy) → (b.x = ox + j * dx ∧ b.y = oy + j * dy) →
      (Same a b ↔ i = j) := by
    intro a b c i j ha hb
    unfold Same
    rw [ha.1, ha.2, hb.1, hb.2]
    exact ⟨fun h => param_inj ox oy dx dy i j hd h, fun h => by rw [h]; exact ⟨rfl, rfl⟩⟩
  -- what a report with given points needs
  have two : ∀ (a b : Coord ℝ) (i j : ℝ), (a.x = ox + i * dx ∧ a.y = oy + i * dy) → (b.x = ox + j * dx ∧ b.y = oy + j * dy) →
      (∀ w, In u1 u2 w ∧ In v1 v2 w ↔ In i j w) → (u1 ≠ u2 → v1 ≠ v2 → i ≠ j) → Reports 2 a b p1 p2 q1 q2 := by
    intro a b i j ha hb h hne
    refine ⟨by simp, by simp, by simp, fun _ => ⟨fun c => ?_, ?_⟩⟩
    · rw [co, onSegment_param ox oy dx dy i j a b ha hb]
      exact exists_congr fun w => and_congr_left fun _ => h w
    · rw [se p1 p2 p1 u1 u2 e1 e2, se q1 q2 q1 v1 v2 f1 f2, se a b a i j ha hb]
      exact hne
  have one : ∀ (a b : Coord ℝ) (i : ℝ), (a.x = ox + i * dx ∧ a.y = oy + i * dy) →
      (∀ w, In u1 u2 w ∧ In v1 v2 w ↔ In i i w) → Reports 1 a b p1 p2 q1 q2 := by
    intro a b i ha h
    refine ⟨by simp, by simp, fun _ c => ?_, by simp⟩
    rw [co]
    unfold Same
    rw [ha.1, ha.2]
    constructor
    · rintro ⟨w, hw, hx, hy⟩
      rw [(In_self i w).mp ((h w).mp hw)] at hx hy
      exact ⟨hx, hy⟩
    · intro hc
      exact ⟨i, (h i).mpr ((In_self i i).mpr rfl), hc⟩
  have tr : ∀ (p a b : Coord ℝ) (i : ℝ), (p.x = ox + i * dx ∧ p.y = oy + i * dy) →
      ((LI.copyWithZInterpolate p a b).x = ox + i * dx ∧ (LI.copyWithZInterpolate p a b).y = oy + i * dy) := by
    intro p a b i h
    rw [(copyWithZInterpolate_xy p a b).1, (copyWithZInterpolate_xy p a b).2]; exact h
  have eqd : ∀ (a b : Coord ℝ) (i j : ℝ), (a.x = ox + i * dx ∧ a.y = oy + i * dy) → (b.x = ox + j * dx ∧ b.y = oy + j * dy) →
      (a.equals2D b = true ↔ i = j) := fun a b i j ha hb => (equals2D_iff a b).trans (se a b a i j ha hb)
  have mixed : ∀ (p q p' q' : Coord ℝ) (i j : ℝ) (b : Bool), (b = true ↔ i = j) → (p'.x = ox + i * dx ∧ p'.y = oy + i * dy) →
      (q'.x = ox + j * dx ∧ q'.y = oy + j * dy) → (∀ w, In u1 u2 w ∧ In v1 v2 w ↔ In i j w) →
      Reports (if b = true then 1 else 2) p' q' p1 p2 q1 q2 := by
    intro p q p' q' i j b hb hp hq hw
    split_ifs with h
    · have hij := hb.mp h
      subst hij
      exact one p' q' i hp hw
    · exact two p' q' i j hp hq hw (fun _ _ => fun h' => h (hb.mpr h'))
  unfold LI.computeCollinear
  simp only [real_toFlt]
  cases k1 : Env.intersects3 p1 p2 q1 <;> cases k2 : Env.intersects3 p1 p2 q2 <;> cases k3 : Env.intersects3 q1 q2 p1 <;>
    cases k4 : Env.intersects3 q1 q2 p2 <;> rw [k1] at a1 <;> rw [k2] at a2 <;> rw [k3] at a3 <;> rw [k4] at a4 <;>
    simp only [Bool.false_eq_true, false_iff, true_iff] at a1 a2 a3 a4 <;>
    simp only [Bool.and_true, Bool.and_false, Bool.not_true, Bool.not_false, Bool.true_and, Bool.false_and, Bool.false_eq_true, if_true, if_false,
      and_true, Bool.and_self]
  all_goals first
    | exact two _ _ v1 v2 (tr _ _ _ _ f1) (tr _ _ _ _ f2) (in_inner u1 u2 v1 v2 a1 a2) (fun _ h => h)
    | exact two _ _ u1 u2 (tr _ _ _ _ e1) (tr _ _ _ _ e2) (fun w => and_comm.trans (in_inner v1 v2 u1 u2 a3 a4 w)) (fun h _ => h)
    | exact mixed q1 p1 _ _ v1 u1 _ (eqd _ _ _ _ f1 e1) (tr _ _ _ _ f1) (tr _ _ _ _ e1) (in_overlap u1 u2 v1 v2 a1 a3 a2 a4)
    | exact mixed q1 p2 _ _ v1 u2 _ (eqd _ _ _ _ f1 e2) (tr _ _ _ _ f1) (tr _ _ _ _ e2) (fun w => by
        rw [In_comm u1 u2] at *; exact in_overlap u2 u1 v1 v2 a1 a4 a2 a3 w)
    | exact mixed q2 p1 _ _ v2 u1 _ (eqd _ _ _ _ f2 e1) (tr _ _ _ _ f2) (tr _ _ _ _ e1) (fun w => by
        rw [In_comm v1 v2] at *; exact in_overlap u1 u2 v2 v1 a2 a3 a1 a4 w)
    | exact mixed q2 p2 _ _ v2 u2 _ (eqd _ _ _ _ f2 e2) (tr _ _ _ _ f2) (tr _ _ _ _ e2) (fun w => by
        rw [In_comm v1 v2, In_comm u1 u2] at *; exact in_overlap u2 u1 v2 v1 a2 a4 a1 a3 w)
    | exact ⟨by simp, fun _ c hc => by
        obtain ⟨w, hw, -⟩ := (co c).mp hc
        exact a3 (in_none u1 u2 v1 v2 a1 a2 w hw).1, by simp, by simp⟩
    | (exfalso; simp only [In_iff] at a1 a2 a3 a4; grind)

theorem collinear_one_end (s : LI ℝ) (p1 p2 q1 q2 : Coord ℝ) (h : (s.computeCollinear p1 p2 q1 q2).1 = 1) :
    Same (s.computeCollinear p1 p2 q1 q2).2.pt0 q1 ∨ Same (s.computeCollinear p1 p2 q1 q2).2.pt0 q2 := by
  have e := @copyWithZInterpolate_xy ℝ _ _
  revert h
  unfold LI.computeCollinear Same
  simp only
  split_ifs <;> simp [e]

/-- If no pair of ends is strictly on one side of the other line and the four points are not on one line, there is one common point. -/
theorem crossing_unique (p1 p2 q1 q2 : Coord ℝ) (h1 : det p1 p2 q1 * det p1 p2 q2 ≤ 0) (h2 : det q1 q2 p1 * det q1 q2 p2 ≤ 0)
    (hn : ¬ (det p1 p2 q1 = 0 ∧ det p1 p2 q2 = 0 ∧ det q1 q2 p1 = 0 ∧ det q1 q2 p2 = 0)) :
    dirDet p1 p2 q1 q2 ≠ 0 ∧ ∃ c, Common c p1 p2 q1 q2 ∧ ∀ c', (OnLineOf c' p1 p2 ∧ OnLineOf c' q1 q2) ↔ Same c' c := by
  obtain ⟨k1, k2⟩ := dets p1 p2 q1 q2
  have hw : dirDet p1 p2 q1 q2 ≠ 0 := by
    intro h0
    rw [h0] at k1 k2
    have e1 : det p1 p2 q2 = det p1 p2 q1 := by linarith
    have e2 : det q1 q2 p1 = det q1 q2 p2 := by linarith
    rw [e1] at h1; rw [e2] at h2
    have z1 : det p1 p2 q1 = 0 := by nlinarith [mul_self_nonneg (det p1 p2 q1), mul_self_eq_zero.mp (le_antisymm h1 (mul_self_nonneg _))]
    have z2 : det q1 q2 p2 = 0 := mul_self_eq_zero.mp (le_antisymm h2 (mul_self_nonneg _))
    exact hn ⟨z1, e1 ▸ z1, e2.trans z2, z2⟩
  refine ⟨hw, formula p1 p2 q1 q2, ?_, fun c' => ⟨fun h => ?_, fun h => ?_⟩⟩
  · obtain ⟨f1, f2⟩ := formula_on p1 p2 q1 q2 hw
    obtain ⟨g1, g2⟩ := crossing_param p1 p2 q1 q2 _ hw f1 f2
    obtain ⟨D, hD⟩ : ∃ D, D = dirDet p1 p2 q1 q2 := ⟨_, rfl⟩
    rw [← hD] at g1 g2 hw k1 k2
    refine ⟨⟨_, ?_, ?_, g1⟩, ⟨_, ?_, ?_, g2⟩⟩
    · rw [← mul_div_mul_right _ _ hw]
      exact div_nonneg (by rw [← k2]; nlinarith [mul_self_nonneg (det q1 q2 p1)]) (mul_self_nonneg _)
    · rw [← mul_div_mul_right _ _ hw, div_le_one (mul_self_pos.mpr hw)]
      have : det q1 q2 p1 = D + det q1 q2 p2 := by linarith
      have e : D = det q1 q2 p1 - det q1 q2 p2 := by linarith
      rw [e]; nlinarith [mul_self_nonneg (det q1 q2 p2)]
    · rw [← mul_div_mul_right _ _ hw]
      exact div_nonneg (by rw [← k1]; nlinarith [mul_self_nonneg (det p1 p2 q1)]) (mul_self_nonneg _)
    · rw [← mul_div_mul_right _ _ hw, div_le_one (mul_self_pos.mpr hw)]
      have e : D = det p1 p2 q2 - det p1 p2 q1 := by linarith
      rw [e]; nlinarith [mul_self_nonneg (det p1 p2 q2)]
  · exact common_unique p1 p2 q1 q2 _ _ hw h.1 h.2 (formula_on p1 p2 q1 q2 hw).1 (formula_on p1 p2 q1 q2 hw).2
  · have := formula_on p1 p2 q1 q2 hw
    unfold OnLineOf det at *
    rw [h.1, h.2]; exact this

theorem onSegment_line (c a b : Coord ℝ) (h : OnSegment c a b) : OnLineOf c a b := ((onSegment_iff c a b).mp h).1

/-- Both ends strictly on one side: no common point. -/
theorem same_side (a b s1 s2 c : Coord ℝ) (h : 0 < det a b s1 * det a b s2) (h1 : OnLineOf c a b) (h2 : OnSegment c s1 s2) : False := by
  obtain ⟨t, t0, t1, hx, hy⟩ := h2
  unfold OnLineOf at h1
  rw [det_along a b s1 s2 c t hx hy] at h1
  have hs : 0 ≤ 1 - t := by linarith
  rcases pos_and_pos_or_neg_and_neg_of_mul_pos h with ⟨l1, l2⟩ | ⟨l1, l2⟩ <;> rcases eq_or_lt_of_le t0 with e | e
  · rw [← e] at h1; linarith
  · nlinarith [mul_pos e l2, mul_nonneg hs l1.le]
  · rw [← e] at h1; linarith
  · nlinarith [mul_neg_of_pos_of_neg e l2, mul_nonneg hs (neg_nonneg.mpr l1.le)]

theorem sgn_same (a b : ℝ) : ((sgn a > 0 ∧ sgn b > 0) ∨ (sgn a < 0 ∧ sgn b < 0)) ↔ 0 < a * b := by
  have p : ∀ x : ℝ, sgn x > 0 ↔ 0 < x := by
    intro x; unfold sgn; split_ifs with h1 h2 <;> simp [h1]
  have n : ∀ x : ℝ, sgn x < 0 ↔ x < 0 := by
    intro x; unfold sgn; split_ifs with h1 h2
    · simp; exact h1.le
    · simp [h2]
    · simp; exact not_lt.mp h2
  rw [p, p, n, n, mul_pos_iff]

theorem same_common {c d p1 p2 q1 q2 : Coord ℝ} (h : Same c d) (hd : Common d p1 p2 q1 q2) : Common c p1 p2 q1 q2 := by
  unfold Common OnSegment at *
  rw [h.1, h.2]; exact hd

/-- The box of a segment covers its points. -/
theorem covers_onSegment (a b c : Coord ℝ) (h : OnSegment c a b) : (Env.newCoordinates a b).coversCoordinate c = true := by
  rw [← C09_intersects3 a b c ⟨rfl, rfl⟩ ⟨rfl, rfl⟩, intersects3_iff]
  exact ((onSegment_iff c a b).mp h).2

theorem touch_common (p1 p2 q1 q2 : Coord ℝ) (h1 : det p1 p2 q1 * det p1 p2 q2 ≤ 0) (h2 : det q1 q2 p1 * det q1 q2 p2 ≤ 0)
    (hn : ¬ (det p1 p2 q1 = 0 ∧ det p1 p2 q2 = 0 ∧ det q1 q2 p1 = 0 ∧ det q1 q2 p2 = 0))
    (ht : sgn (det p1 p2 q1) = 0 ∨ sgn (det p1 p2 q2) = 0 ∨ sgn (det q1 q2 p1) = 0 ∨ sgn (det q1 q2 p2) = 0) :
    let p := (LI.touchPoint (sgn (det p1 p2 q1)) (sgn (det p1 p2 q2)) (sgn (det q1 q2 p1)) (sgn (det q1 q2 p2)) p1 p2 q1 q2).1
    Common p p1 p2 q1 q2 ∧ (Same p p1 ∨ Same p p2 ∨ Same p q1 ∨ Same p q2) := by
  obtain ⟨hw, c, hc, hu⟩ := crossing_unique p1 p2 q1 q2 h1 h2 hn
  have ends : OnSegment p1 p1 p2 ∧ OnSegment p2 p1 p2 ∧ OnSegment q1 q1 q2 ∧ OnSegment q2 q1 q2 :=
    ⟨(onSegment_end _ _ _).1 ⟨rfl, rfl⟩, (onSegment_end _ _ _).2 ⟨rfl, rfl⟩, (onSegment_end _ _ _).1 ⟨rfl, rfl⟩, (onSegment_end _ _ _).2 ⟨rfl, rfl⟩⟩
  have on : ∀ d : Coord ℝ, OnLineOf d p1 p2 → OnLineOf d q1 q2 → Common d p1 p2 q1 q2 := fun d a b => same_common ((hu d).mp ⟨a, b⟩) hc
  have fc : ∀ d : Coord ℝ, Common d p1 p2 q1 q2 → Common d.fromCoordinate p1 p2 q1 q2 := fun d h => h
  have r : ∀ d : Coord ℝ, Same d.fromCoordinate d := fun d => ⟨rfl, rfl⟩
  intro p
  simp only [p]
  unfold LI.touchPoint
  split_ifs with k1 k2 k3 k4 k5 k6 k7 k8
  · rw [equals2D_iff] at k1
    exact ⟨fc _ ⟨ends.1, (onSegment_end _ _ _).1 k1⟩, .inl (r _)⟩
  · rw [equals2D_iff] at k2
    exact ⟨fc _ ⟨ends.1, (onSegment_end _ _ _).2 k2⟩, .inl (r _)⟩
  · rw [equals2D_iff] at k3
    exact ⟨fc _ ⟨ends.2.1, (onSegment_end _ _ _).1 k3⟩, .inr (.inl (r _))⟩
  · rw [equals2D_iff] at k4
    exact ⟨fc _ ⟨ends.2.1, (onSegment_end _ _ _).2 k4⟩, .inr (.inl (r _))⟩
  · exact ⟨fc _ (on _ (sgn_zero.mp k5) (onSegment_line _ _ _ ends.2.2.1)), .inr (.inr (.inl (r _)))⟩
  · exact ⟨fc _ (on _ (sgn_zero.mp k6) (onSegment_line _ _ _ ends.2.2.2)), .inr (.inr (.inr (r _)))⟩
  · exact ⟨fc _ (on _ (onSegment_line _ _ _ ends.1) (sgn_zero.mp k7)), .inl (r _)⟩
  · exact ⟨fc _ (on _ (onSegment_line _ _ _ ends.2.1) (sgn_zero.mp k8)), .inr (.inl (r _))⟩
  · exfalso; tauto

theorem proper_point (s : LI ℝ) (p1 p2 q1 q2 c : Coord ℝ) (hs : s.pm = none) (i1 : Same s.in00 p1) (i2 : Same s.in01 p2)
    (i3 : Same s.in10 q1) (i4 : Same s.in11 q2) (hw : dirDet p1 p2 q1 q2 ≠ 0) (hc : Common c p1 p2 q1 q2)
    (hu : ∀ c', (OnLineOf c' p1 p2 ∧ OnLineOf c' q1 q2) ↔ Same c' c) : Same (s.intersection p1 p2 q1 q2) c := by
  have e : Intersection.intersection p1 p2 q1 q2 = some (formula p1 p2 q1 q2) := dd_exact p1 p2 q1 q2 hw
  have hf := (hu _).mp (formula_on p1 p2 q1 q2 hw)
  have hcf := same_common hf hc
  unfold LI.intersection LI.intersectionSafe LI.isInSegmentEnvelopes
  simp only [real_toFlt]
  rw [e, hs]
  have b1 : (Env.newCoordinates s.in00 s.in01).coversCoordinate (formula p1 p2 q1 q2) = true := by
    apply covers_onSegment; unfold OnSegment; rw [i1.1, i1.2, i2.1, i2.2]; exact hcf.1
  have b2 : (Env.newCoordinates s.in10 s.in11).coversCoordinate (formula p1 p2 q1 q2) = true := by
    apply covers_onSegment; unfold OnSegment; rw [i3.1, i3.2, i4.1, i4.2]; exact hcf.2
  simp only [b1, b2, Bool.and_self, Bool.not_true, Bool.false_eq_true, if_false]
  exact hf

/-- Reports together with the meaning of the proper flag. -/
theorem intersect_reports (s : LI ℝ) (p1 p2 q1 q2 : Coord ℝ) (hs : s.pm = none) (i1 : Same s.in00 p1) (i2 : Same s.in01 p2)
    (i3 : Same s.in10 q1) (i4 : Same s.in11 q2) :
    Reports (s.computeIntersect p1 p2 q1 q2).1 (s.computeIntersect p1 p2 q1 q2).2.pt0 (s.computeIntersect p1 p2 q1 q2).2.pt1 p1 p2 q1 q2 ∧
      ((s.computeIntersect p1 p2 q1 q2).2.isProper = true ↔
        ∃ c, Inside c p1 p2 ∧ Inside c q1 q2 ∧ ∀ c', Common c' p1 p2 q1 q2 → Same c' c) := by
  have no : ∀ r : Int × LI ℝ, r.1 = 0 → r.2.isProper = false → (∀ c, ¬ Common c p1 p2 q1 q2) →
      Reports r.1 r.2.pt0 r.2.pt1 p1 p2 q1 q2 ∧ (r.2.isProper = true ↔
        ∃ c, Inside c p1 p2 ∧ Inside c q1 q2 ∧ ∀ c', Common c' p1 p2 q1 q2 → Same c' c) := by
    intro r h0 h1 hc
    refine ⟨⟨.inl h0, fun _ => hc, by rw [h0]; simp, by rw [h0]; simp⟩, ?_⟩
    rw [h1]
    simp only [Bool.false_eq_true, false_iff]
    rintro ⟨c, c1, c2, -⟩
    exact hc c ⟨c1.1, c2.1⟩
  unfold LI.computeIntersect
  simp only [real_toFlt, C29_index_is_sign]
  by_cases hb : Env.intersects4 p1 p2 q1 q2 = true
  swap
  · rw [if_pos (by simpa using hb)]
    exact no _ rfl rfl fun c hc => hb (intersects4_of_common hc.1 hc.2)
  rw [if_neg (by simp [hb])]
  by_cases g1 : 0 < det p1 p2 q1 * det p1 p2 q2
  · rw [if_pos ((sgn_same _ _).mpr g1)]
    exact no _ rfl rfl fun c hc => same_side _ _ _ _ c g1 (onSegment_line _ _ _ hc.1) hc.2
  rw [if_neg (fun h => g1 ((sgn_same _ _).mp h))]
  by_cases g2 : 0 < det q1 q2 p1 * det q1 q2 p2
  · rw [if_pos ((sgn_same _ _).mpr g2)]
    exact no _ rfl rfl fun c hc => same_side _ _ _ _ c g2 (onSegment_line _ _ _ hc.2) hc.1
  rw [if_neg (fun h => g2 ((sgn_same _ _).mp h))]
  by_cases g3 : det p1 p2 q1 = 0 ∧ det p1 p2 q2 = 0 ∧ det q1 q2 p1 = 0 ∧ det q1 q2 p2 = 0
  · rw [if_pos (by simpa only [sgn_zero] using g3)]
    obtain ⟨hr, hp⟩ := collinear_case { s with isProper := false } p1 p2 q1 q2 g3.1 g3.2.1 g3.2.2.1 g3.2.2.2
    have he := collinear_one_end { s with isProper := false } p1 p2 q1 q2
    refine ⟨hr, ?_⟩
    rw [hp]
    simp only [Bool.false_eq_true, false_iff]
    rintro ⟨c, c1, c2, hu⟩
    have cc : Common c p1 p2 q1 q2 := ⟨c1.1, c2.1⟩
    have deg : ∀ a b : Coord ℝ, Inside c a b → ¬ Same a b := by
      rintro a b ⟨⟨t, -, -, hx, hy⟩, h1, -⟩ h
      exact h1 ⟨by rw [hx, h.1]; ring, by rw [hy, h.2]; ring⟩
    rcases hr.codes with h | h | h
    · exact hr.none h c cc
    · have := (hr.one h c).mp cc
      rcases he h with k | k
      · exact c2.2.1 ⟨this.1.trans k.1, this.2.trans k.2⟩
      · exact c2.2.2 ⟨this.1.trans k.1, this.2.trans k.2⟩
    · obtain ⟨m1, m2⟩ := hr.more h
      have a := hu _ ((m1 _).mpr ((onSegment_end _ _ _).1 ⟨rfl, rfl⟩))
      have b := hu _ ((m1 _).mpr ((onSegment_end _ _ _).2 ⟨rfl, rfl⟩))
      exact m2 (deg _ _ c1) (deg _ _ c2) ⟨a.1.trans b.1.symm, a.2.trans b.2.symm⟩
  rw [if_neg (by simpa only [sgn_zero] using g3)]
  obtain ⟨hw, c, hc, hu⟩ := crossing_unique p1 p2 q1 q2 (not_lt.mp g1) (not_lt.mp g2) g3
  have one : ∀ p : Coord ℝ, Same p c → ∀ d, Common d p1 p2 q1 q2 ↔ Same d p := by
    intro p hp d
    constructor
    · intro hd
      have := (hu d).mp ⟨onSegment_line _ _ _ hd.1, onSegment_line _ _ _ hd.2⟩
      exact ⟨this.1.trans hp.1.symm, this.2.trans hp.2.symm⟩
    · intro hd
      exact same_common ⟨hd.1.trans hp.1, hd.2.trans hp.2⟩ hc
  by_cases g4 : sgn (det p1 p2 q1) = 0 ∨ sgn (det p1 p2 q2) = 0 ∨ sgn (det q1 q2 p1) = 0 ∨ sgn (det q1 q2 p2) = 0
  · rw [if_pos g4]
    obtain ⟨t1, t2⟩ := touch_common p1 p2 q1 q2 (not_lt.mp g1) (not_lt.mp g2) g3 g4
    have tc := (hu _).mp ⟨onSegment_line _ _ _ t1.1, onSegment_line _ _ _ t1.2⟩
    refine ⟨⟨by simp, by simp, fun _ => one _ ?_, by simp⟩, ?_⟩
    · exact ⟨(copyWithZ_xy _ _).1.trans tc.1, (copyWithZ_xy _ _).2.trans tc.2⟩
    · simp only [Bool.false_eq_true, false_iff]
      rintro ⟨d, d1, d2, hd⟩
      have k := hd _ t1
      rcases t2 with h | h | h | h
      · exact d1.2.1 ⟨k.1.symm.trans h.1, k.2.symm.trans h.2⟩
      · exact d1.2.2 ⟨k.1.symm.trans h.1, k.2.symm.trans h.2⟩
      · exact d2.2.1 ⟨k.1.symm.trans h.1, k.2.symm.trans h.2⟩
      · exact d2.2.2 ⟨k.1.symm.trans h.1, k.2.symm.trans h.2⟩
  · rw [if_neg g4]
    have pp := proper_point { s with isProper := true } p1 p2 q1 q2 c hs i1 i2 i3 i4 hw hc hu
    refine ⟨⟨by simp, by simp, fun _ => one _ ?_, by simp⟩, ?_⟩
    · exact ⟨(copyWithZ_xy _ _).1.trans pp.1, (copyWithZ_xy _ _).2.trans pp.2⟩
    · simp only [true_iff]
      simp only [sgn_zero, not_or] at g4
      have ne : ∀ a b e : Coord ℝ, OnLineOf c a b → det a b e ≠ 0 → ¬ Same c e := by
        intro a b e h1 h2 h
        unfold OnLineOf det at *
        rw [h.1, h.2] at h1; exact h2 h1
      have l1 := onSegment_line _ _ _ hc.1
      have l2 := onSegment_line _ _ _ hc.2
      exact ⟨c, ⟨hc.1, ne _ _ _ l2 g4.2.2.1, ne _ _ _ l2 g4.2.2.2⟩, ⟨hc.2, ne _ _ _ l1 g4.1, ne _ _ _ l1 g4.2.1⟩,
        fun d hd => (one c ⟨rfl, rfl⟩ d).mp hd⟩

theorem compute4_reports (s : LI ℝ) (p1 p2 q1 q2 : Coord ℝ) (hs : s.pm = none) :
    Reports (s.compute4 p1 p2 q1 q2).result (s.compute4 p1 p2 q1 q2).pt0 (s.compute4 p1 p2 q1 q2).pt1 p1 p2 q1 q2 ∧
      ((s.compute4 p1 p2 q1 q2).isProper = true ↔
        ∃ c, Inside c p1 p2 ∧ Inside c q1 q2 ∧ ∀ c', Common c' p1 p2 q1 q2 → Same c' c) :=
  intersect_reports { s with in00 := p1.fromCoordinate, in01 := p2.fromCoordinate, in10 := q1.fromCoordinate, in11 := q2.fromCoordinate }
    p1 p2 q1 q2 hs ⟨rfl, rfl⟩ ⟨rfl, rfl⟩ ⟨rfl, rfl⟩ ⟨rfl, rfl⟩

theorem collinear_flag {α : Type} [FltSqrt α] [FltRound α] (s : LI α) (p1 p2 q1 q2 : Coord α) :
    (s.computeCollinear p1 p2 q1 q2).2.isProper = s.isProper := by
  unfold LI.computeCollinear
  generalize Env.intersects3 p1 p2 q1 = a
  generalize Env.intersects3 p1 p2 q2 = b
  generalize Env.intersects3 q1 q2 p1 = c
  generalize Env.intersects3 q1 q2 p2 = d
  cases a <;> cases b <;> cases c <;> cases d <;> rfl

theorem collinear_code {α : Type} [FltSqrt α] [FltRound α] (s s' : LI α) (p1 p2 q1 q2 : Coord α) :
    (s.computeCollinear p1 p2 q1 q2).1 = (s'.computeCollinear p1 p2 q1 q2).1 := by
  unfold LI.computeCollinear
  generalize Env.intersects3 p1 p2 q1 = a
  generalize Env.intersects3 p1 p2 q2 = b
  generalize Env.intersects3 q1 q2 p1 = c
  generalize Env.intersects3 q1 q2 p2 = d
  cases a <;> cases b <;> cases c <;> cases d <;> rfl

/-- In every arithmetic: the code and the proper flag depend on the four points alone, not on what was computed before nor on the
precision model. -/
theorem C38_no_history {α : Type} [FltSqrt α] [FltRound α] (s s' : LI α) (p1 p2 q1 q2 : Coord α) :
    (s.compute4 p1 p2 q1 q2).result = (s'.compute4 p1 p2 q1 q2).result ∧
    (s.compute4 p1 p2 q1 q2).isProper = (s'.compute4 p1 p2 q1 q2).isProper := by
  unfold LI.compute4 LI.computeIntersect
  generalize Orientation.index p1 p2 q1 = a
  generalize Orientation.index p1 p2 q2 = b
  generalize Orientation.index q1 q2 p1 = c
  generalize Orientation.index q1 q2 p2 = d
  generalize Env.intersects4 p1 p2 q1 q2 = e
  generalize LI.touchPoint a b c d p1 p2 q1 q2 = z
  simp only
  constructor <;> split_ifs <;> first | rfl | exact collinear_code _ _ _ _ _ _ | (rw [collinear_flag, collinear_flag])

/-- There is an intersection exactly if the closed segments have a common point, whatever the segments (degenerate ones too) and
whatever was computed before. -/
theorem C38_none_iff_disjoint (s : LI ℝ) (p1 p2 q1 q2 : Coord ℝ) :
    ((s.compute4 p1 p2 q1 q2).result = 0 ↔ ¬ ∃ c, OnSegment c p1 p2 ∧ OnSegment c q1 q2) ∧
    ((s.compute4 p1 p2 q1 q2).hasIntersection = true ↔ ∃ c, OnSegment c p1 p2 ∧ OnSegment c q1 q2) := by
  unfold LI.hasIntersection
  rw [(C38_no_history s { s with pm := none } p1 p2 q1 q2).1]
  obtain ⟨r, -⟩ := compute4_reports { s with pm := none } p1 p2 q1 q2 rfl
  obtain ⟨s, hs⟩ : ∃ u : LI ℝ, u = { s with pm := none } := ⟨_, rfl⟩
  rw [← hs] at r ⊢
  have h : (s.compute4 p1 p2 q1 q2).result = 0 ↔ ¬ ∃ c, Common c p1 p2 q1 q2 := by
    constructor
    · intro h; rintro ⟨c, hc⟩; exact r.none h c hc
    · intro h
      rcases r.codes with k | k | k
      · exact k
      · exact absurd ⟨_, (r.one k _).mpr ⟨rfl, rfl⟩⟩ h
      · exact absurd ⟨_, ((r.more k).1 (s.compute4 p1 p2 q1 q2).pt0).mpr ((onSegment_end _ _ _).1 ⟨rfl, rfl⟩)⟩ h
  refine ⟨h, ?_⟩
  rw [decide_eq_true_iff]
  change ¬ (s.compute4 p1 p2 q1 q2).result = 0 ↔ _
  rw [h, not_not]; rfl

/-- For segments with different ends the code tells the kind of the set of common points: empty, one point, a segment. -/
theorem C38_classification (s : LI ℝ) (p1 p2 q1 q2 : Coord ℝ) (hp : ¬ Same p1 p2) (hq : ¬ Same q1 q2) :
    ((s.compute4 p1 p2 q1 q2).result = 1 ↔ ∃ d, ∀ c, (OnSegment c p1 p2 ∧ OnSegment c q1 q2) ↔ Same c d) ∧
    ((s.compute4 p1 p2 q1 q2).result = 2 ↔ ∃ a b, ¬ Same a b ∧ ∀ c, (OnSegment c p1 p2 ∧ OnSegment c q1 q2) ↔ OnSegment c a b) := by
  rw [(C38_no_history s { s with pm := none } p1 p2 q1 q2).1]
  obtain ⟨r, -⟩ := compute4_reports { s with pm := none } p1 p2 q1 q2 rfl
  obtain ⟨s, hs⟩ : ∃ u : LI ℝ, u = { s with pm := none } := ⟨_, rfl⟩
  rw [← hs] at r ⊢
  have nb : ∀ (a b d : Coord ℝ), ¬ Same a b → (∀ c, Common c p1 p2 q1 q2 ↔ OnSegment c a b) → (∀ c, Common c p1 p2 q1 q2 ↔ Same c d) → False := by
    intro a b d hab h1 h2
    have ea := (h2 a).mp ((h1 a).mpr ((onSegment_end _ _ _).1 ⟨rfl, rfl⟩))
    have eb := (h2 b).mp ((h1 b).mpr ((onSegment_end _ _ _).2 ⟨rfl, rfl⟩))
    exact hab ⟨ea.1.trans eb.1.symm, ea.2.trans eb.2.symm⟩
  constructor
  · refine ⟨fun h => ⟨_, r.one h⟩, ?_⟩
    rintro ⟨d, hd⟩
    rcases r.codes with k | k | k
    · exact absurd ((hd d).mpr ⟨rfl, rfl⟩) (r.none k d)
    · exact k
    · exact (nb _ _ d ((r.more k).2 hp hq) (r.more k).1 hd).elim
  · refine ⟨fun h => ⟨_, _, (r.more h).2 hp hq, (r.more h).1⟩, ?_⟩
    rintro ⟨a, b, hab, h⟩
    rcases r.codes with k | k | k
    · exact absurd ((h a).mpr ((onSegment_end _ _ _).1 ⟨rfl, rfl⟩)) (r.none k a)
    · exact (nb a b _ hab h (r.one k)).elim
    · exact k

/-- The reported points: the one common point, or the ends of the common segment (for all segments). -/
theorem C38_points (s : LI ℝ) (p1 p2 q1 q2 : Coord ℝ) (hs : s.pm = none) :
    ((s.compute4 p1 p2 q1 q2).result = 1 → ∃ d, (s.compute4 p1 p2 q1 q2).getIntersection 0 = .ok d ∧
      ∀ c, (OnSegment c p1 p2 ∧ OnSegment c q1 q2) ↔ Same c d) ∧
    ((s.compute4 p1 p2 q1 q2).result = 2 → ∃ d e, (s.compute4 p1 p2 q1 q2).getIntersection 0 = .ok d ∧
      (s.compute4 p1 p2 q1 q2).getIntersection 1 = .ok e ∧ ∀ c, (OnSegment c p1 p2 ∧ OnSegment c q1 q2) ↔ OnSegment c d e) := by
  obtain ⟨r, -⟩ := compute4_reports s p1 p2 q1 q2 hs
  exact ⟨fun h => ⟨_, rfl, r.one h⟩, fun h => ⟨_, _, rfl, rfl, (r.more h).1⟩⟩

/-- The intersection is proper exactly if the only common point is inside both segments. -/
theorem C38_proper (s : LI ℝ) (p1 p2 q1 q2 : Coord ℝ) :
    (s.compute4 p1 p2 q1 q2).isProper = true ↔
      ∃ c, Inside c p1 p2 ∧ Inside c q1 q2 ∧ ∀ c', (OnSegment c' p1 p2 ∧ OnSegment c' q1 q2) → Same c' c := by
  rw [(C38_no_history s { s with pm := none } p1 p2 q1 q2).2]
  exact (compute4_reports { s with pm := none } p1 p2 q1 q2 rfl).2

/-- The order of the segments and of their ends does not matter for the code and the proper flag. -/
theorem C38_symmetric (s s' : LI ℝ) (p1 p2 q1 q2 a1 a2 b1 b2 : Coord ℝ) (hp : ¬ Same p1 p2)
    (hq : ¬ Same q1 q2) (h : ((a1, a2, b1, b2) = (p2, p1, q1, q2) ∨ (a1, a2, b1, b2) = (p1, p2, q2, q1)) ∨ (a1, a2, b1, b2) = (q1, q2, p1, p2)) :
    (s'.compute4 a1 a2 b1 b2).result = (s.compute4 p1 p2 q1 q2).result ∧
    (s'.compute4 a1 a2 b1 b2).isProper = (s.compute4 p1 p2 q1 q2).isProper := by
  have hc : ∀ c, (OnSegment c a1 a2 ∧ OnSegment c b1 b2) ↔ (OnSegment c p1 p2 ∧ OnSegment c q1 q2) := by
    intro c
    rcases h with (h | h) | h <;> simp only [Prod.mk.injEq] at h <;> obtain ⟨rfl, rfl, rfl, rfl⟩ := h
    · rw [onSegment_swap c a1 a2]
    · rw [onSegment_swap c b1 b2]
    · exact and_comm
  have hi : ∀ c, (Inside c a1 a2 ∧ Inside c b1 b2) ↔ (Inside c p1 p2 ∧ Inside c q1 q2) := by
    intro c
    have sw : ∀ a b : Coord ℝ, Inside c a b ↔ Inside c b a := by
      intro a b; unfold Inside; rw [onSegment_swap c a b, and_comm (a := ¬ Same c a)]
    rcases h with (h | h) | h <;> simp only [Prod.mk.injEq] at h <;> obtain ⟨rfl, rfl, rfl, rfl⟩ := h
    · rw [sw a1 a2]
    · rw [sw b1 b2]
    · exact and_comm
  have hd : ¬ Same a1 a2 ∧ ¬ Same b1 b2 := by
    have sw : ∀ a b : Coord ℝ, Same a b → Same b a := fun a b h => ⟨h.1.symm, h.2.symm⟩
    rcases h with (h | h) | h <;> simp only [Prod.mk.injEq] at h <;> obtain ⟨rfl, rfl, rfl, rfl⟩ := h
    · exact ⟨fun h => hp (sw _ _ h), hq⟩
    · exact ⟨hp, fun h => hq (sw _ _ h)⟩
    · exact ⟨hq, hp⟩
  have n := C38_none_iff_disjoint s p1 p2 q1 q2
  have n' := C38_none_iff_disjoint s' a1 a2 b1 b2
  have k := C38_classification s p1 p2 q1 q2 hp hq
  have k' := C38_classification s' a1 a2 b1 b2 hd.1 hd.2
  simp only [hc] at n' k'
  constructor
  · rw [(C38_no_history s { s with pm := none } p1 p2 q1 q2).1] at n k ⊢
    rcases (compute4_reports { s with pm := none } p1 p2 q1 q2 rfl).1.codes with e | e | e
    · rw [e]; exact n'.1.mpr (n.1.mp e)
    · rw [e]; exact k'.1.mpr (k.1.mp e)
    · rw [e]; exact k'.2.mpr (k.2.mp e)
  · rw [Bool.eq_iff_iff, C38_proper, C38_proper]
    simp only [hc, ← and_assoc, hi]

/-- A segment of one point on the other segment is reported as a collinear intersection, although there is one common point only. -/
theorem C38_degenerate_reported_collinear (s : LI ℝ) (p q1 q2 : Coord ℝ) (h : OnSegment p q1 q2) :
    (s.compute4 p p q1 q2).result = 2 ∧ ∀ c, (OnSegment c p p ∧ OnSegment c q1 q2) → Same c p := by
  constructor
  · have hp : OnSegment p p p := (onSegment_end _ _ _).1 ⟨rfl, rfl⟩
    have z : ∀ c : Coord ℝ, det p p c = 0 := by intro c; unfold det; ring
    have zl : det q1 q2 p = 0 := onSegment_line _ _ _ h
    have b : Env.intersects3 q1 q2 p = true := by rw [intersects3_iff]; exact ((onSegment_iff p q1 q2).mp h).2
    unfold LI.compute4 LI.computeIntersect LI.computeCollinear
    simp only [real_toFlt, C29_index_is_sign, z, zl, intersects4_of_common hp h, b]
    have s0 : sgn (0 : ℝ) = 0 := by simp [sgn]
    simp only [s0, lt_irrefl, and_self, or_self, if_false, Bool.not_true, Bool.false_eq_true, gt_iff_lt, if_true, Bool.and_self]
    split_ifs <;> rfl
  · rintro c ⟨⟨t, -, -, hx, hy⟩, -⟩
    exact ⟨by rw [hx]; ring, by rw [hy]; ring⟩

/-- The test of a point against a segment. -/
theorem C38_point_segment (s : LI ℝ) (p a b : Coord ℝ) :
    ((s.compute3 p a b).result = 1 ↔ OnSegment p a b) ∧ ((s.compute3 p a b).result = 0 ↔ ¬ OnSegment p a b) ∧
    ((s.compute3 p a b).isProper = true ↔ Inside p a b) := by
  have h : (Env.intersects3 a b p && (decide (Orientation.index a b p = 0) && decide (Orientation.index b a p = 0))) = true ↔ OnSegment p a b := by
    have e : det b a p = -det a b p := by unfold det; ring
    rw [onSegment_iff, Bool.and_eq_true, intersects3_iff, Bool.and_eq_true, decide_eq_true_iff, decide_eq_true_iff, C29_index_is_sign, C29_index_is_sign,
      sgn_zero, sgn_zero, e, neg_eq_zero]
    tauto
  unfold LI.compute3
  by_cases k : OnSegment p a b
  · rw [if_pos (h.mpr k)]
    refine ⟨by simp [k], by simp [k], ?_⟩
    unfold Inside Same
    rw [← equals2D_iff, ← equals2D_iff]
    cases p.equals2D a <;> cases p.equals2D b <;> simp [k]
  · rw [if_neg (fun hh => k (h.mp hh))]
    refine ⟨by simp [k], by simp [k], ?_⟩
    unfold Inside
    simp [k]

/-! ## Heights -/

/-- In exact arithmetic the height at a point of a segment is interpolated linearly. -/
theorem C38_height (p a b : Coord ℝ) (t : ℝ) (ht : 0 ≤ t) (hx : p.x = a.x + t * (b.x - a.x)) (hy : p.y = a.y + t * (b.y - a.y))
    (hab : ¬ Same a b) : LI.zInterpolate3 p a b = a.z + t * (b.z - a.z) := by
  have hl : (b.x - a.x) * (b.x - a.x) + (b.y - a.y) * (b.y - a.y) ≠ 0 := by
    intro h
    apply hab
    have h1 : (b.x - a.x) * (b.x - a.x) = 0 := by nlinarith [mul_self_nonneg (b.x - a.x), mul_self_nonneg (b.y - a.y)]
    have h2 : (b.y - a.y) * (b.y - a.y) = 0 := by nlinarith [mul_self_nonneg (b.x - a.x), mul_self_nonneg (b.y - a.y)]
    exact ⟨by linarith [mul_self_eq_zero.mp h1], by linarith [mul_self_eq_zero.mp h2]⟩
  have along : ∀ r : ℝ, (a.x + t * (b.x - a.x) = a.x + r * (b.x - a.x)) → (a.y + t * (b.y - a.y) = a.y + r * (b.y - a.y)) → t = r := by
    intro r h1 h2
    apply mul_right_cancel₀ hl
    linear_combination (b.x - a.x) * h1 + (b.y - a.y) * h2
  unfold LI.zInterpolate3
  simp only [real_toFlt, exact_isNaN, Bool.false_eq_true, if_false]
  split_ifs with h1 h2 h3
  · rw [equals2D_iff, hx, hy] at h1
    rw [along 0 (by rw [h1.1]; ring) (by rw [h1.2]; ring)]; ring
  · rw [equals2D_iff, hx, hy] at h2
    rw [along 1 (by rw [h2.1]; ring) (by rw [h2.2]; ring)]; ring
  · simp only [exact_sub, exact_lit, Rat.cast_zero, exact_eq, decide_eq_true_eq] at h3
    rw [h3]; ring
  · simp only [exact_sub, exact_mul, exact_add, exact_div, real_sqrt, hx, hy]
    have e : ((a.x + t * (b.x - a.x) - a.x) * (a.x + t * (b.x - a.x) - a.x) + (a.y + t * (b.y - a.y) - a.y) * (a.y + t * (b.y - a.y) - a.y)) /
        ((b.x - a.x) * (b.x - a.x) + (b.y - a.y) * (b.y - a.y)) = t ^ 2 := by
      rw [div_eq_iff hl]; ring
    rw [e, Real.sqrt_sq ht]; ring

/-- In every arithmetic: an end without height takes the height of the other end, and an own height is kept. -/
theorem C38_missing_height {α : Type} [FltSqrt α] [FltRound α] (p a b : Coord α) :
    (isNaN a.z = true → LI.zInterpolate3 p a b = b.z) ∧
    (isNaN a.z = false → isNaN b.z = true → LI.zInterpolate3 p a b = a.z) ∧
    (isNaN p.z = false → (LI.copyWithZInterpolate p a b).z = p.z) ∧
    (isNaN p.z = true → isNaN a.z = true → isNaN b.z = true → isNaN (LI.copyWithZInterpolate p a b).z = true) := by
  unfold LI.copyWithZInterpolate LI.getZOrInterpolate LI.copyWithZ LI.zInterpolate3
  refine ⟨fun h => by simp [h], fun h1 h2 => by simp [h1, h2], fun h => by simp [h], fun h1 h2 h3 => by simp [h1, h2, h3, Coord.fromCoordinate]⟩

/-! Examples: crossing, touching, overlapping segments, a point on a segment. -/

example : Inside (⟨1, 1, 0, 0⟩ : Coord ℝ) ⟨0, 0, 0, 0⟩ ⟨2, 2, 0, 0⟩ ∧ Inside (⟨1, 1, 0, 0⟩ : Coord ℝ) ⟨0, 2, 0, 0⟩ ⟨2, 0, 0, 0⟩ := by
  constructor <;> exact ⟨⟨1 / 2, by norm_num, by norm_num, by norm_num, by norm_num⟩, by simp [Same], by simp [Same]⟩
example : ¬ Same (⟨0, 0, 0, 0⟩ : Coord ℝ) ⟨2, 2, 0, 0⟩ := by simp [Same]
example : (LI.default : LI ℝ).pm = none := rfl
example : OnSegment (⟨1, 1, 0, 0⟩ : Coord ℝ) ⟨0, 0, 0, 0⟩ ⟨2, 2, 0, 0⟩ := ⟨1 / 2, by norm_num, by norm_num, by norm_num, by norm_num⟩

end Verif.Props
