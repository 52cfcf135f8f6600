import Verif.Model.Intersection
import Verif.Lemmas.Plane
import Verif.Lemmas.Ext
import Verif.Props.Orientation
import Verif.Props.Distance

set_option linter.unusedSectionVars false

/-! # C39: the common point of two lines -/

namespace Verif.Props
open Flt Verif.Spec
variable {K : Type} [Field K] [LinearOrder K] [IsStrictOrderedRing K]

/-- Cross product of the directions of two lines: zero exactly for parallel lines. -/
def dirDet (p1 p2 q1 q2 : Coord K) : K := (p2.x - p1.x) * (q2.y - q1.y) - (p2.y - p1.y) * (q2.x - q1.x)

/-- `c` is on the line through `a` and `b`. -/
def OnLineOf (c a b : Coord K) : Prop := det a b c = 0

/-- Lines that are not parallel have at most one common point. -/
theorem common_unique (p1 p2 q1 q2 c c' : Coord K) (hw : dirDet p1 p2 q1 q2 ≠ 0) (h1 : OnLineOf c p1 p2) (h2 : OnLineOf c q1 q2)
    (h1' : OnLineOf c' p1 p2) (h2' : OnLineOf c' q1 q2) : c.x = c'.x ∧ c.y = c'.y := by
  unfold OnLineOf det at *
  unfold dirDet at hw
  constructor
  · apply mul_left_cancel₀ hw
    linear_combination (q2.x - q1.x) * h1 - (q2.x - q1.x) * h1' - (p2.x - p1.x) * h2 + (p2.x - p1.x) * h2'
  · apply mul_left_cancel₀ hw
    linear_combination (q2.y - q1.y) * h1 - (q2.y - q1.y) * h1' - (p2.y - p1.y) * h2 + (p2.y - p1.y) * h2'

/-- The formula of the three implementations. -/
def formula (p1 p2 q1 q2 : Coord K) : Coord K :=
  let pw := p1.x * p2.y - p2.x * p1.y
  let qw := q1.x * q2.y - q2.x * q1.y
  let w := dirDet p1 p2 q1 q2
  ⟨((p2.x - p1.x) * qw - (q2.x - q1.x) * pw) / w, ((q1.y - q2.y) * pw - (p1.y - p2.y) * qw) / w, 0, 0⟩

theorem formula_on (p1 p2 q1 q2 : Coord K) (hw : dirDet p1 p2 q1 q2 ≠ 0) :
    OnLineOf (formula p1 p2 q1 q2) p1 p2 ∧ OnLineOf (formula p1 p2 q1 q2) q1 q2 := by
  unfold OnLineOf det formula
  simp only
  constructor
  · field_simp; unfold dirDet; ring
  · field_simp; unfold dirDet; ring

theorem hcoord_exact (p1 p2 q1 q2 : Coord K) : HCoord.intersection p1 p2 q1 q2 = some (formula p1 p2 q1 q2) := by
  unfold HCoord.intersection formula dirDet
  simp only [exact_isNaN, isInf, exact_isFinite, exact_sub, exact_mul, exact_div, Bool.not_false, Bool.not_true, Bool.and_false, Bool.or_false,
    Bool.false_eq_true, if_false, Coord.xy, Option.some.injEq, Coord.mk.injEq]
  refine ⟨?_, ?_, rfl, rfl⟩
  · congr 1; ring
  · congr 1; ring

/-- Double-double operations on plain numbers, in exact arithmetic. -/
theorem plain_sub (a b : K) : (⟨a, 0⟩ : DD K).selfSub ⟨b, 0⟩ = ⟨a - b, 0⟩ := by
  simp [DD.selfSub, DD.isNaN, DD.addHiLo, sub_eq_add_neg]
theorem plain_subF (a b : K) : (⟨a, 0⟩ : DD K).selfSubF b = ⟨a - b, 0⟩ := by
  simp [DD.selfSubF, DD.isNaN, DD.addHiLo, sub_eq_add_neg]
theorem plain_mul (a b : K) : (⟨a, 0⟩ : DD K).mul ⟨b, 0⟩ = ⟨a * b, 0⟩ := by
  simp [DD.mul, DD.selfMul, DD.isNaN, DD.mulHiLo]
theorem plain_mulF (a b : K) : (⟨a, 0⟩ : DD K).selfMulF b = ⟨a * b, 0⟩ := by
  simp [DD.selfMulF, DD.isNaN, DD.mulHiLo]
theorem plain_div (a b : K) (hb : b ≠ 0) : (⟨a, 0⟩ : DD K).div ⟨b, 0⟩ = ⟨a / b, 0⟩ := by
  simp [DD.div, DD.divHiLo, hb]

theorem dd_exact (p1 p2 q1 q2 : Coord K) (hw : dirDet p1 p2 q1 q2 ≠ 0) :
    CGDD.intersection p1 p2 q1 q2 = some (formula p1 p2 q1 q2) := by
  have e : (p1.y - p2.y) * (q2.x - q1.x) - (q1.y - q2.y) * (p2.x - p1.x) = dirDet p1 p2 q1 q2 := by unfold dirDet; ring
  unfold CGDD.intersection formula
  simp only [DD.ofF, exact_lit, Rat.cast_zero, plain_subF, plain_mulF, plain_sub, plain_mul, e, plain_div _ _ hw,
    DD.doubleValue, exact_isNaN, isInf, exact_isFinite, exact_add, add_zero, Bool.not_false, Bool.not_true,
    Bool.and_false, Bool.or_false, Bool.false_eq_true, if_false, Coord.xy]
  rfl

theorem kernelMid_any (p1 p2 q1 q2 : Coord K) (hw : dirDet p1 p2 q1 q2 ≠ 0) :
    ∃ c, Intersection.intersectionFP p1 p2 q1 q2 = some c ∧ OnLineOf c p1 p2 ∧ OnLineOf c q1 q2 := by
  obtain ⟨mx, hmx⟩ : ∃ m, m = Intersection.kernelMid p1.x p2.x q1.x q2.x := ⟨_, rfl⟩
  obtain ⟨my, hmy⟩ : ∃ m, m = Intersection.kernelMid p1.y p2.y q1.y q2.y := ⟨_, rfl⟩
  unfold Intersection.intersectionFP
  rw [← hmx, ← hmy]
  simp only [exact_isNaN, isInf, exact_isFinite, exact_sub, exact_mul, exact_div, exact_add, Bool.not_false, Bool.not_true, Bool.and_false,
    Bool.or_false, Bool.false_eq_true, if_false, Option.some.injEq, exists_eq_left', Coord.xy]
  unfold OnLineOf det
  simp only
  have e : (p1.y - my - (p2.y - my)) * (q2.x - mx - (q1.x - mx)) - (q1.y - my - (q2.y - my)) * (p2.x - mx - (p1.x - mx)) = dirDet p1 p2 q1 q2 := by
    unfold dirDet; ring
  rw [e]
  constructor
  · field_simp; unfold dirDet; ring
  · field_simp; unfold dirDet; ring

/-- If the lines are not parallel, the double-double, the homogeneous and the conditioned version all return the one common point of
the two infinite lines. -/
theorem C39_common_point (p1 p2 q1 q2 : Coord K) (hw : dirDet p1 p2 q1 q2 ≠ 0) :
    ∃ c : Coord K, (∀ c', (OnLineOf c' p1 p2 ∧ OnLineOf c' q1 q2) ↔ (c'.x = c.x ∧ c'.y = c.y)) ∧
      (∃ d : Coord K, Intersection.intersection p1 p2 q1 q2 = some d ∧ d.x = c.x ∧ d.y = c.y) ∧
      (∃ d : Coord K, HCoord.intersection p1 p2 q1 q2 = some d ∧ d.x = c.x ∧ d.y = c.y) ∧
      (∃ d : Coord K, Intersection.intersectionFP p1 p2 q1 q2 = some d ∧ d.x = c.x ∧ d.y = c.y) := by
  obtain ⟨f1, f2⟩ := formula_on p1 p2 q1 q2 hw
  obtain ⟨c, e, h1, h2⟩ := kernelMid_any p1 p2 q1 q2 hw
  refine ⟨formula p1 p2 q1 q2, fun c' => ⟨fun h => common_unique p1 p2 q1 q2 _ _ hw h.1 h.2 f1 f2, fun h => ?_⟩,
    ⟨_, dd_exact p1 p2 q1 q2 hw, rfl, rfl⟩, ⟨_, hcoord_exact p1 p2 q1 q2, rfl, rfl⟩,
    ⟨c, e, common_unique p1 p2 q1 q2 _ _ hw h1 h2 f1 f2⟩⟩
  unfold OnLineOf det at *
  rw [h.1, h.2]
  exact ⟨f1, f2⟩

/-- Homogeneous coordinates: the cross product of two points is the line, the cross product of two lines is their common point, and
`get_coordinate` divides by the weight. -/
theorem C39_homogeneous (p1 p2 q1 q2 : Coord K) :
    HCoord.cross (HCoord.ofCoord p1) (HCoord.ofCoord p2) = HCoord.ofLine p1 p2 ∧
    HCoord.cross (HCoord.ofLine p1 p2) (HCoord.ofLine q1 q2) = HCoord.ofLines p1 p2 q1 q2 ∧
    (∀ c : Coord K, (HCoord.ofLine p1 p2).x * c.x + (HCoord.ofLine p1 p2).y * c.y + (HCoord.ofLine p1 p2).w = det p1 p2 c) ∧
    (HCoord.ofLines p1 p2 q1 q2).w = dirDet p1 p2 q1 q2 ∧
    ∃ c : Coord K, HCoord.intersection p1 p2 q1 q2 = some c ∧ (HCoord.ofLines p1 p2 q1 q2).getCoordinate.x = c.x ∧
      (HCoord.ofLines p1 p2 q1 q2).getCoordinate.y = c.y := by
  refine ⟨?_, ?_, ?_, ?_, ?_⟩
  · simp [HCoord.cross, HCoord.ofCoord, HCoord.ofLine]
  · simp only [HCoord.cross, HCoord.ofLine, HCoord.ofLines, exact_sub, exact_mul, HCoord.mk.injEq]
  · intro c; simp only [HCoord.ofLine, exact_sub, exact_mul, det]; ring
  · simp only [HCoord.ofLines, exact_sub, exact_mul, dirDet]; ring
  · refine ⟨_, rfl, ?_, ?_⟩
    · simp [HCoord.getCoordinate, HCoord.getX, HCoord.ofLines, isInf, Coord.xy]
    · simp [HCoord.getCoordinate, HCoord.getY, HCoord.ofLines, isInf, Coord.xy]

/-! ### Parallel lines: exact rational arithmetic with NaN and infinities -/

/-- A point with finite coordinates. -/
def ep (a b : ℚ) : Coord EQ := ⟨Fl.fin a, Fl.fin b, Fl.nan, Fl.nan⟩

/-- The same point in plain exact arithmetic. -/
def qp (a b : ℚ) : Coord ℚ := ⟨a, b, 0, 0⟩

theorem ext_sub (a b : ℚ) : (⟨Fl.fin a, Fl.fin 0⟩ : DD EQ).selfSub ⟨Fl.fin b, Fl.fin 0⟩ = ⟨Fl.fin (a - b), Fl.fin 0⟩ := by
  simp [DD.selfSub, DD.isNaN, DD.addHiLo, sub_eq_add_neg]
theorem ext_subF (a b : ℚ) : (⟨Fl.fin a, Fl.fin 0⟩ : DD EQ).selfSubF (Fl.fin b) = ⟨Fl.fin (a - b), Fl.fin 0⟩ := by
  simp [DD.selfSubF, DD.isNaN, DD.addHiLo, sub_eq_add_neg]
theorem ext_mul (a b : ℚ) : (⟨Fl.fin a, Fl.fin 0⟩ : DD EQ).mul ⟨Fl.fin b, Fl.fin 0⟩ = ⟨Fl.fin (a * b), Fl.fin 0⟩ := by
  simp [DD.mul, DD.selfMul, DD.isNaN, DD.mulHiLo, DD.SPLIT]
theorem ext_mulF (a b : ℚ) : (⟨Fl.fin a, Fl.fin 0⟩ : DD EQ).selfMulF (Fl.fin b) = ⟨Fl.fin (a * b), Fl.fin 0⟩ := by
  simp [DD.selfMulF, DD.isNaN, DD.mulHiLo, DD.SPLIT]
theorem ext_div (a b : ℚ) (hb : b ≠ 0) :
    (⟨Fl.fin a, Fl.fin 0⟩ : DD EQ).div ⟨Fl.fin b, Fl.fin 0⟩ = ⟨Fl.fin (a / b), Fl.fin 0⟩ := by
  simp [DD.div, DD.divHiLo, DD.SPLIT, EQ.div_fin _ _ hb, hb]
theorem ext_div_zero (a : ℚ) : Flt.isNaN ((⟨Fl.fin a, Fl.fin 0⟩ : DD EQ).div ⟨Fl.fin 0, Fl.fin 0⟩).doubleValue = true := by
  rcases lt_trichotomy a 0 with h | h | h
  · have e : (Fl.fin a : EQ) /. Fl.fin 0 = Fl.ninf := by rw [EQ.div_zero]; simp [h, not_lt.mpr h.le]
    simp only [DD.div, DD.divHiLo, DD.SPLIT, e, DD.doubleValue]
    rfl
  · have e : (Fl.fin a : EQ) /. Fl.fin 0 = Fl.nan := by rw [EQ.div_zero]; simp [h]
    simp only [DD.div, DD.divHiLo, DD.SPLIT, e, DD.doubleValue]
    rfl
  · have e : (Fl.fin a : EQ) /. Fl.fin 0 = Fl.pinf := by rw [EQ.div_zero]; simp [h]
    simp only [DD.div, DD.divHiLo, DD.SPLIT, e, DD.doubleValue]
    rfl

/-- Parallel lines (identical lines and degenerate lines included) give no point, other lines give the point of the exact formula:
for all finite coordinates, in all three versions. -/
theorem C39_none_iff_parallel (a b c d e f g h : ℚ) :
    (Intersection.intersection (ep a b) (ep c d) (ep e f) (ep g h) = none ↔ dirDet (qp a b) (qp c d) (qp e f) (qp g h) = 0) ∧
    (HCoord.intersection (ep a b) (ep c d) (ep e f) (ep g h) = none ↔ dirDet (qp a b) (qp c d) (qp e f) (qp g h) = 0) ∧
    (Intersection.intersectionFP (ep a b) (ep c d) (ep e f) (ep g h) = none ↔ dirDet (qp a b) (qp c d) (qp e f) (qp g h) = 0) := by
  have hdir : dirDet (qp a b) (qp c d) (qp e f) (qp g h) = (b - d) * (g - e) - (f - h) * (c - a) := by
    simp only [dirDet, qp]; ring
  rw [hdir]
  refine ⟨?_, ?_, ?_⟩
  · unfold Intersection.intersection CGDD.intersection
    simp only [ep, DD.ofF, EQ.lit_fin, ext_subF, ext_mulF, ext_sub, ext_mul]
    by_cases hw : (b - d) * (g - e) - (f - h) * (c - a) = 0
    · rw [hw]
      simp only [ext_div_zero, Bool.true_or, if_true]
    · rw [ext_div _ _ hw, ext_div _ _ hw]
      simp [DD.doubleValue, hw]
  · unfold HCoord.intersection
    simp only [ep, EQ.sub_fin, EQ.mul_fin]
    by_cases hw : (b - d) * (g - e) - (f - h) * (c - a) = 0
    · rw [hw]
      simp only [EQ.div_zero_bad, Bool.true_or, if_true]
    · rw [EQ.div_fin _ _ hw, EQ.div_fin _ _ hw]
      simp [hw]
  · have hmid : ∀ u v w z : ℚ, ∃ m, Intersection.kernelMid (Fl.fin u : EQ) (Fl.fin v) (Fl.fin w) (Fl.fin z) = Fl.fin m := by
      intro u v w z
      have pick : ∀ (b : Bool) (u v : ℚ), ∃ m, (if b = true then (Fl.fin u : EQ) else Fl.fin v) = Fl.fin m := by
        intro b u v; cases b
        · exact ⟨v, rfl⟩
        · exact ⟨u, rfl⟩
      unfold Intersection.kernelMid
      obtain ⟨m1, e1⟩ := pick ((Fl.fin u : EQ) <. Fl.fin v) u v
      obtain ⟨m2, e2⟩ := pick ((Fl.fin v : EQ) <. Fl.fin u) u v
      obtain ⟨m3, e3⟩ := pick ((Fl.fin w : EQ) <. Fl.fin z) w z
      obtain ⟨m4, e4⟩ := pick ((Fl.fin z : EQ) <. Fl.fin w) w z
      simp only [e1, e2, e3, e4]
      obtain ⟨m5, e5⟩ := pick ((Fl.fin m3 : EQ) <. Fl.fin m1) m1 m3
      obtain ⟨m6, e6⟩ := pick ((Fl.fin m2 : EQ) <. Fl.fin m4) m2 m4
      simp only [e5, e6, EQ.add_fin, EQ.lit_fin]
      exact ⟨_, EQ.div_fin _ _ (by norm_num)⟩
    obtain ⟨mx, hmx⟩ := hmid a c e g
    obtain ⟨my, hmy⟩ := hmid b d f h
    unfold Intersection.intersectionFP
    simp only [ep, hmx, hmy, EQ.sub_fin, EQ.mul_fin]
    have ew : (b - my - (d - my)) * (g - mx - (e - mx)) - (f - my - (h - my)) * (c - mx - (a - mx)) = (b - d) * (g - e) - (f - h) * (c - a) := by
      ring
    rw [ew]
    by_cases hw : (b - d) * (g - e) - (f - h) * (c - a) = 0
    · rw [hw]
      simp only [EQ.div_zero_bad, Bool.true_or, if_true]
    · rw [EQ.div_fin _ _ hw, EQ.div_fin _ _ hw]
      simp [hw]

/-! ### A line and a segment -/

/-- The determinant along a segment. -/
theorem det_along (a b s1 s2 c : Coord K) (t : K) (hx : c.x = s1.x + t * (s2.x - s1.x)) (hy : c.y = s1.y + t * (s2.y - s1.y)) :
    det a b c = (1 - t) * det a b s1 + t * det a b s2 := by
  unfold det; rw [hx, hy]; ring

theorem dirDet_det (a b s1 s2 : Coord K) : dirDet a b s1 s2 = det a b s2 - det a b s1 := by
  unfold dirDet det; ring

/-- If the ends of a segment are strictly on different sides of a line, the computed point is on the line and on the segment. -/
theorem crossing_point (a b s1 s2 : Coord K) (h : det a b s1 * det a b s2 < 0) :
    ∃ c : Coord K, Intersection.intersection a b s1 s2 = some c ∧ OnLineOf c a b ∧
      ∃ t : K, 0 < t ∧ t < 1 ∧ c.x = s1.x + t * (s2.x - s1.x) ∧ c.y = s1.y + t * (s2.y - s1.y) := by
  obtain ⟨d1, e1⟩ : ∃ d, d = det a b s1 := ⟨_, rfl⟩
  obtain ⟨d2, e2⟩ : ∃ d, d = det a b s2 := ⟨_, rfl⟩
  rw [← e1, ← e2] at h
  have hw : dirDet a b s1 s2 ≠ 0 := by
    rw [dirDet_det, ← e1, ← e2]
    intro h0
    have : d2 = d1 := by linarith
    rw [this] at h; nlinarith [mul_self_nonneg d1]
  refine ⟨_, dd_exact a b s1 s2 hw, (formula_on a b s1 s2 hw).1, d1 / (d1 - d2), ?_⟩
  have hne : d1 - d2 ≠ 0 := by
    intro h0; apply hw; rw [dirDet_det, ← e1, ← e2]; linarith
  have ht : 0 < d1 / (d1 - d2) ∧ d1 / (d1 - d2) < 1 := by
    rcases mul_neg_iff.mp h with ⟨h1, h2⟩ | ⟨h1, h2⟩
    · exact ⟨div_pos h1 (by linarith), (div_lt_one (by linarith)).mpr (by linarith)⟩
    · exact ⟨div_pos_of_neg_of_neg h1 (by linarith), (div_lt_one_of_neg (by linarith)).mpr (by linarith)⟩
  refine ⟨ht.1, ht.2, ?_⟩
  let q : Coord K := ⟨s1.x + d1 / (d1 - d2) * (s2.x - s1.x), s1.y + d1 / (d1 - d2) * (s2.y - s1.y), 0, 0⟩
  have q1 : OnLineOf q a b := by
    unfold OnLineOf
    rw [det_along a b s1 s2 q _ rfl rfl, ← e1, ← e2]
    field_simp; ring
  have q2 : OnLineOf q s1 s2 := by unfold OnLineOf det; simp only [q]; ring
  exact common_unique a b s1 s2 _ q hw (formula_on a b s1 s2 hw).1 (formula_on a b s1 s2 hw).2 q1 q2

/-- The intersection of an infinite line with a segment: some point of both if there is one, none otherwise. -/
theorem C39_line_segment (a b s1 s2 : Coord ℝ) :
    (∀ c, Intersection.lineSegment a b s1 s2 = some c → OnLineOf c a b ∧ OnSegment c s1 s2) ∧
    (Intersection.lineSegment a b s1 s2 = none ↔ ¬ ∃ c, OnLineOf c a b ∧ OnSegment c s1 s2) := by
  suffices h : (∃ c, Intersection.lineSegment a b s1 s2 = some c ∧ OnLineOf c a b ∧ OnSegment c s1 s2) ∨
      (Intersection.lineSegment a b s1 s2 = none ∧ ¬ ∃ c, OnLineOf c a b ∧ OnSegment c s1 s2) by
    rcases h with ⟨c, e, h1, h2⟩ | ⟨e, h⟩
    · rw [e]
      refine ⟨fun c' hc => by cases hc; exact ⟨h1, h2⟩, by simp; exact ⟨c, h1, h2⟩⟩
    · rw [e]; exact ⟨fun c hc => (by cases hc), ⟨fun _ => h, fun _ => rfl⟩⟩
  unfold Intersection.lineSegment
  simp only [real_toFlt, C29_index_is_sign]
  by_cases h1 : det a b s1 = 0
  · left
    rw [if_pos (sgn_zero.mpr h1)]
    exact ⟨_, rfl, h1, (onSegment_end _ s1 s2).1 ⟨rfl, rfl⟩⟩
  rw [if_neg (fun h => h1 (sgn_zero.mp h))]
  by_cases h2 : det a b s2 = 0
  · left
    rw [if_pos (sgn_zero.mpr h2)]
    exact ⟨_, rfl, h2, (onSegment_end _ s1 s2).2 ⟨rfl, rfl⟩⟩
  rw [if_neg (fun h => h2 (sgn_zero.mp h))]
  rcases lt_or_gt_of_ne h1 with l1 | l1 <;> rcases lt_or_gt_of_ne h2 with l2 | l2
  · right
    rw [sgn_neg_iff.mpr l1, sgn_neg_iff.mpr l2]
    refine ⟨by simp, ?_⟩
    rintro ⟨c, hc, t, t0, t1, hx, hy⟩
    unfold OnLineOf at hc
    rw [det_along a b s1 s2 c t hx hy] at hc
    rcases eq_or_lt_of_le t0 with e | e
    · rw [← e] at hc; linarith
    · nlinarith [mul_neg_of_pos_of_neg e l2, mul_nonneg (sub_nonneg.mpr t1) (neg_nonneg.mpr l1.le)]
  · left
    obtain ⟨c, e, hc, t, t0, t1, hx, hy⟩ := crossing_point a b s1 s2 (mul_neg_of_neg_of_pos l1 l2)
    rw [sgn_neg_iff.mpr l1, sgn_pos.mpr l2, e]
    exact ⟨c, by simp, hc, t, t0.le, t1.le, hx, hy⟩
  · left
    obtain ⟨c, e, hc, t, t0, t1, hx, hy⟩ := crossing_point a b s1 s2 (mul_neg_of_pos_of_neg l1 l2)
    rw [sgn_pos.mpr l1, sgn_neg_iff.mpr l2, e]
    exact ⟨c, by simp, hc, t, t0.le, t1.le, hx, hy⟩
  · right
    rw [sgn_pos.mpr l1, sgn_pos.mpr l2]
    refine ⟨by simp, ?_⟩
    rintro ⟨c, hc, t, t0, t1, hx, hy⟩
    unfold OnLineOf at hc
    rw [det_along a b s1 s2 c t hx hy] at hc
    rcases eq_or_lt_of_le t0 with e | e
    · rw [← e] at hc; linarith
    · nlinarith [mul_pos e l2, mul_nonneg (sub_nonneg.mpr t1) l1.le]

/-- If the two points of the line coincide there is no line; the code then returns the first end of the segment whatever the points
are. -/
theorem C39_degenerate_line (a s1 s2 : Coord ℝ) :
    Intersection.lineSegment a a s1 s2 = some s1 := by
  unfold Intersection.lineSegment
  simp only [real_toFlt, C29_index_is_sign]
  rw [if_pos (sgn_zero.mpr (by unfold det; ring))]
  rfl

/-! Examples: lines that cross, lines that are parallel, a segment across a line. -/

example : dirDet (⟨0, 0, 0, 0⟩ : Coord ℚ) ⟨2, 2, 0, 0⟩ ⟨0, 2, 0, 0⟩ ⟨2, 0, 0, 0⟩ ≠ 0 := by unfold dirDet; norm_num
example : (Intersection.intersection (⟨0, 0, 0, 0⟩ : Coord ℚ) ⟨2, 2, 0, 0⟩ ⟨0, 2, 0, 0⟩ ⟨2, 0, 0, 0⟩).map (fun c => (c.x, c.y)) = some (1, 1) := by
  unfold Intersection.intersection
  rw [dd_exact _ _ _ _ (by unfold dirDet; norm_num)]
  simp only [formula, dirDet, Option.map_some]; norm_num
example : Intersection.intersection (ep 0 0) (ep 1 1) (ep 0 1) (ep 1 2) = none :=
  (C39_none_iff_parallel 0 0 1 1 0 1 1 2).1.mpr (by simp only [dirDet, qp]; norm_num)
example : det (⟨0, 0, 0, 0⟩ : Coord ℚ) ⟨1, 1, 0, 0⟩ ⟨0, 1, 0, 0⟩ * det (⟨0, 0, 0, 0⟩ : Coord ℚ) ⟨1, 1, 0, 0⟩ ⟨1, 0, 0, 0⟩ < 0 := by
  unfold det; norm_num

end Verif.Props
