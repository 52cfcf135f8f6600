import Verif.Props.RingDoubles
import Verif.Props.Intersection64
import Verif.Props.IntersectorAny

set_option linter.unusedSectionVars false
set_option linter.unusedVariables false

/-! # C100: the segment intersector for arbitrary doubles -/

namespace Verif.Props
open Flt Verif.Spec Verif.Binary64

variable {sq : ℚ → Val} {hy : ℚ → ℚ → Val}

/-- The orientation of three doubles is computed exactly: both products of the determinant vanish, or it is decided. -/
def Settled (a b p : Coord ℚ) : Prop := Flat a b p ∨ (IsModerate a ∧ IsModerate b ∧ IsModerate p ∧ Decided a b p)

theorem flat_zero {a b p : Coord ℚ} (h : Flat a b p) : Orientation.index a b p = 0 := by
  rw [C29_index_is_sign, sgn_zero, det_left_right]
  rcases h with ⟨e | e, f | f⟩ <;> rw [e, f] <;> ring

theorem Settled.index {a b p : Coord ℚ} (h : Settled a b p) :
    Orientation.index (toB64 a : Coord (B64 sq hy)) (toB64 b) (toB64 p) = Orientation.index (realPt a) (realPt b) (realPt p) := by
  rw [← sim_real.index a b p]
  rcases h with h | ⟨h1, h2, h3, h4⟩
  · rw [index_flat a b p h, flat_zero h]
  · exact h4.index h1 h2 h3

/-- The boxes of two segments have a common point. -/
def BoxesMeet (p1 p2 q1 q2 : Coord ℚ) : Prop :=
  (min p1.x p2.x ≤ max q1.x q2.x ∧ min q1.x q2.x ≤ max p1.x p2.x) ∧ (min p1.y p2.y ≤ max q1.y q2.y ∧ min q1.y q2.y ≤ max p1.y p2.y)

/-- Two points strictly on one side of a line. -/
def OneSide (a b c d : Coord ℚ) : Prop := (0 < det a b c ∧ 0 < det a b d) ∨ (det a b c < 0 ∧ det a b d < 0)

/-- The orientations that matter for two segments are settled: none if their boxes are apart; else those of the ends of the second with the first,
and, if these are not on one side of it, those of the ends of the first with the second. -/
def SettledPair (p1 p2 q1 q2 : Coord ℚ) : Prop :=
  BoxesMeet p1 p2 q1 q2 → Settled p1 p2 q1 ∧ Settled p1 p2 q2 ∧ (¬ OneSide p1 p2 q1 q2 → Settled q1 q2 p1 ∧ Settled q1 q2 p2)

/-- The points with double ordinates. -/
abbrev DoublePt : Type := {c : Coord ℚ // IsPoint c}

theorem simOrd_real : SimOrd (fun c : DoublePt => (toB64 c.1 : Coord (B64 sq hy))) (fun c => realPt c.1) where
  nx _ := rfl
  ny _ := rfl
  ltx a b := sim_real.ltx a.1 b.1
  lty a b := sim_real.lty a.1 b.1
  lex a b := sim_real.lex a.1 b.1
  ley a b := sim_real.ley a.1 b.1
  eqx a b := sim_real.eqx a.1 b.1
  eqy a b := sim_real.eqy a.1 b.1
  dx a b := by
    have h := sub_neg64 (sq := sq) (hy := hy) a.2.x.1 b.2.x.1
    refine h.trans ?_
    rw [← sim_real.dx a.1 b.1]
    simp only [exact_sub, exact_lt, exact_lit, Rat.cast_zero]
    exact decide_eq_decide.mpr sub_neg.symm

theorem SettledPair.turns {p1 p2 q1 q2 : Coord ℚ} (h1 : IsPoint p1) (h2 : IsPoint p2) (h3 : IsPoint q1) (h4 : IsPoint q2)
    (h : SettledPair p1 p2 q1 q2) :
    SameTurns (fun c : DoublePt => (toB64 c.1 : Coord (B64 sq hy))) (fun c => realPt c.1) ⟨p1, h1⟩ ⟨p2, h2⟩ ⟨q1, h3⟩ ⟨q2, h4⟩ := by
  intro hb
  have hb' : BoxesMeet p1 p2 q1 q2 := by
    have := sim_real.intersects4 p1 p2 q1 q2
    rw [← this] at hb
    exact (intersects4_iff _ _ _ _).mp hb
  obtain ⟨s1, s2, s3⟩ := h hb'
  refine ⟨s1.index, s2.index, fun hn => ?_⟩
  have hn' : ¬ OneSide p1 p2 q1 q2 := by
    intro ho
    apply hn
    dsimp only
    rw [← sim_real.index p1 p2 q1, ← sim_real.index p1 p2 q2, C29_index_is_sign, C29_index_is_sign]
    simp only [gt_iff_lt, sgnq_pos, sgnq_neg]
    exact ho
  exact ⟨(s3 hn').1.index, (s3 hn').2.index⟩

/-- C100: whether two segments of doubles have a common point, and whether they cross properly. -/
theorem C100_segments_meet (s : LI (B64 sq hy)) (p1 p2 q1 q2 : Coord ℚ) (hp1 : IsPoint p1) (hp2 : IsPoint p2) (hq1 : IsPoint q1) (hq2 : IsPoint q2)
    (h : SettledPair p1 p2 q1 q2) :
    ((s.compute4 (toB64 p1) (toB64 p2) (toB64 q1) (toB64 q2)).hasIntersection = true ↔
      ∃ c, OnSegment c (realPt p1) (realPt p2) ∧ OnSegment c (realPt q1) (realPt q2)) ∧
    ((s.compute4 (toB64 p1) (toB64 p2) (toB64 q1) (toB64 q2)).isProper = true ↔
      ∃ c, Inside c (realPt p1) (realPt p2) ∧ Inside c (realPt q1) (realPt q2) ∧
        ∀ c', (OnSegment c' (realPt p1) (realPt p2) ∧ OnSegment c' (realPt q1) (realPt q2)) → Same c' c) := by
  obtain ⟨e1, e2⟩ := (simOrd_real (sq := sq) (hy := hy)).compute4_at s (LI.default : LI ℝ) _ _ _ _ (h.turns hp1 hp2 hq1 hq2)
  rw [← (C38_none_iff_disjoint LI.default _ _ _ _).2, ← C38_proper (LI.default : LI ℝ)]
  unfold LI.hasIntersection
  dsimp only at e1 e2
  rw [e1, e2]
  exact ⟨Iff.rfl, Iff.rfl⟩

/-- C100: a point or an overlap. -/
theorem C100_classification (s : LI (B64 sq hy)) (p1 p2 q1 q2 : Coord ℚ) (hp1 : IsPoint p1) (hp2 : IsPoint p2) (hq1 : IsPoint q1) (hq2 : IsPoint q2)
    (h : SettledPair p1 p2 q1 q2) (hp : ¬ Same p1 p2) (hq : ¬ Same q1 q2) :
    ((s.compute4 (toB64 p1) (toB64 p2) (toB64 q1) (toB64 q2)).result = 1 ↔
      ∃ d, ∀ c, (OnSegment c (realPt p1) (realPt p2) ∧ OnSegment c (realPt q1) (realPt q2)) ↔ Same c d) ∧
    ((s.compute4 (toB64 p1) (toB64 p2) (toB64 q1) (toB64 q2)).result = 2 ↔
      ∃ a b, ¬ Same a b ∧ ∀ c, (OnSegment c (realPt p1) (realPt p2) ∧ OnSegment c (realPt q1) (realPt q2)) ↔ OnSegment c a b) := by
  obtain ⟨e1, e2⟩ := (simOrd_real (sq := sq) (hy := hy)).compute4_at s (LI.default : LI ℝ) _ _ _ _ (h.turns hp1 hp2 hq1 hq2)
  have k : ∀ a b : Coord ℚ, ¬ Same a b → ¬ Same (realPt a) (realPt b) := by
    rintro a b h ⟨u, v⟩
    exact h ⟨Rat.cast_injective u, Rat.cast_injective v⟩
  have c := C38_classification (LI.default : LI ℝ) _ _ _ _ (k _ _ hp) (k _ _ hq)
  dsimp only at e1
  rw [e1]
  exact c

/-- C100: unless they cross properly the reported points are ends of the segments that bound what they have in common. -/
theorem C100_touching (s : LI (B64 sq hy)) (p1 p2 q1 q2 : Coord ℚ) (hp1 : IsPoint p1) (hp2 : IsPoint p2) (hq1 : IsPoint q1) (hq2 : IsPoint q2)
    (hst : SettledPair p1 p2 q1 q2) (h : (s.compute4 (toB64 p1) (toB64 p2) (toB64 q1) (toB64 q2)).isProper = false) :
    ((s.compute4 (toB64 p1) (toB64 p2) (toB64 q1) (toB64 q2)).result = 1 → ∃ d ∈ [p1, p2, q1, q2], ∃ d',
      (s.compute4 (toB64 p1) (toB64 p2) (toB64 q1) (toB64 q2)).getIntersection 0 = .ok d' ∧ d'.x = Fl.fin d.x ∧ d'.y = Fl.fin d.y ∧
      ∀ c, (OnSegment c (realPt p1) (realPt p2) ∧ OnSegment c (realPt q1) (realPt q2)) ↔ Same c (realPt d)) ∧
    ((s.compute4 (toB64 p1) (toB64 p2) (toB64 q1) (toB64 q2)).result = 2 → ∃ d ∈ [p1, p2, q1, q2], ∃ e ∈ [p1, p2, q1, q2], ∃ d' e',
      (s.compute4 (toB64 p1) (toB64 p2) (toB64 q1) (toB64 q2)).getIntersection 0 = .ok d' ∧ d'.x = Fl.fin d.x ∧ d'.y = Fl.fin d.y ∧
      (s.compute4 (toB64 p1) (toB64 p2) (toB64 q1) (toB64 q2)).getIntersection 1 = .ok e' ∧ e'.x = Fl.fin e.x ∧ e'.y = Fl.fin e.y ∧
      ∀ c, (OnSegment c (realPt p1) (realPt p2) ∧ OnSegment c (realPt q1) (realPt q2)) ↔ OnSegment c (realPt d) (realPt e)) := by
  have sim := simOrd_real (sq := sq) (hy := hy)
  have ht := hst.turns (sq := sq) (hy := hy) hp1 hp2 hq1 hq2
  obtain ⟨e1, e2⟩ := sim.compute4_at s (LI.default : LI ℝ) _ _ _ _ ht
  have pts := sim.points_at s (LI.default : LI ℝ) _ _ _ _ ht
  have k := C38_points (LI.default : LI ℝ) (realPt p1) (realPt p2) (realPt q1) (realPt q2) rfl
  dsimp only at e1 e2 pts
  rw [e2] at h
  rw [e1]
  have mem : ∀ m : DoublePt, m ∈ [(⟨p1, hp1⟩ : DoublePt), ⟨p2, hp2⟩, ⟨q1, hq1⟩, ⟨q2, hq2⟩] → m.1 ∈ [p1, p2, q1, q2] := by
    intro m hm
    have := List.mem_map_of_mem (f := Subtype.val) hm
    exact this
  constructor
  · intro hr
    obtain ⟨m, hm, n, -, ⟨b1, b2⟩, -⟩ := pts h (by rw [hr]; decide)
    obtain ⟨d, hd, hc⟩ := k.1 hr
    refine ⟨m.1, mem m hm, _, rfl, b1.1, b1.2, fun c => (hc c).trans ?_⟩
    have hd' : (LI.default.compute4 (realPt p1) (realPt p2) (realPt q1) (realPt q2)).pt0 = d := Except.ok.inj hd
    rw [hd'] at b2
    unfold Same
    rw [b2.1, b2.2]
  · intro hr
    obtain ⟨m, hm, n, hn, ⟨b1, b2⟩, b3⟩ := pts h (by rw [hr]; decide)
    obtain ⟨b3, b4⟩ := b3 hr
    obtain ⟨d, e, hd, he, hc⟩ := k.2 hr
    refine ⟨m.1, mem m hm, n.1, mem n hn, _, _, rfl, b1.1, b1.2, rfl, b3.1, b3.2, fun c => (hc c).trans ?_⟩
    have hd' : (LI.default.compute4 (realPt p1) (realPt p2) (realPt q1) (realPt q2)).pt0 = d := Except.ok.inj hd
    have he' : (LI.default.compute4 (realPt p1) (realPt p2) (realPt q1) (realPt q2)).pt1 = e := Except.ok.inj he
    rw [hd'] at b2
    rw [he'] at b4
    unfold OnSegment
    rw [b2.1, b2.2, b4.1, b4.2]


/-- C100: a point and a segment. -/
theorem C100_point_segment (s : LI (B64 sq hy)) (p a b : Coord ℚ) (h : Boxed a b p → Settled a b p ∧ Settled b a p) :
    ((s.compute3 (toB64 p) (toB64 a) (toB64 b)).hasIntersection = true ↔ OnSegment p a b) ∧
    ((s.compute3 (toB64 p) (toB64 a) (toB64 b)).isProper = true ↔ Inside p a b) := by
  classical
  have key : (Env.intersects3 (toB64 a : Coord (B64 sq hy)) (toB64 b) (toB64 p) &&
      (decide (Orientation.index (toB64 a : Coord (B64 sq hy)) (toB64 b) (toB64 p) = 0) &&
        decide (Orientation.index (toB64 b : Coord (B64 sq hy)) (toB64 a) (toB64 p) = 0))) = decide (OnSegment p a b) := by
    rw [intersects3_b64]
    by_cases hb : Env.intersects3 a b p = true
    · have hb' := (intersects3_iff a b p).mp hb
      obtain ⟨s1, s2⟩ := h hb'
      rw [s1.index, s2.index, ← sim_real.index a b p, ← sim_real.index b a p, C29_index_is_sign, C29_index_is_sign, hb, Bool.true_and,
        Bool.eq_iff_iff, Bool.and_eq_true, decide_eq_true_iff, decide_eq_true_iff, decide_eq_true_iff, sgn_zero, sgn_zero,
        show det b a p = -det a b p by unfold det; ring, neg_eq_zero, and_self]
      exact ⟨fun k => (onSegment_iff p a b).mpr ⟨k, hb'⟩, fun k => ((onSegment_iff p a b).mp k).1⟩
    · have : ¬ OnSegment p a b := fun k => hb ((intersects3_iff a b p).mpr ((onSegment_iff p a b).mp k).2)
      rw [decide_eq_false this, (Bool.not_eq_true _).mp hb]
      rfl
  unfold LI.compute3 LI.hasIntersection
  rw [key]
  by_cases k : OnSegment p a b
  · rw [decide_eq_true k]
    simp only [if_true, equals2D_b64]
    refine ⟨by simp [k], ?_⟩
    unfold Inside
    have e1 := equals2D_iff p a
    have e2 := equals2D_iff p b
    by_cases c1 : p.equals2D a = true
    · have : Same p a := e1.mp c1
      simp [c1, this]
    · by_cases c2 : p.equals2D b = true
      · have : Same p b := e2.mp c2
        simp [c2, this]
      · have n1 : ¬ Same p a := fun hh => c1 (e1.mpr hh)
        have n2 : ¬ Same p b := fun hh => c2 (e2.mpr hh)
        simp [c1, c2, n1, n2, k]
  · rw [decide_eq_false k]
    simp [k, Inside]

theorem fmin_b64 (x y : ℚ) : fmin (Fl.fin x : B64 sq hy) (Fl.fin y) = Fl.fin (min x y) := by
  have : fmin (Fl.fin x : B64 sq hy) (Fl.fin y) = if decide (x < y) = true then Fl.fin x else Fl.fin y := rfl
  rw [this]
  by_cases h : x < y
  · rw [if_pos (decide_eq_true h), min_eq_left h.le]
  · rw [if_neg (by simpa using h), min_eq_right (not_lt.mp h)]

theorem fmax_b64 (x y : ℚ) : fmax (Fl.fin x : B64 sq hy) (Fl.fin y) = Fl.fin (max x y) := by
  have : fmax (Fl.fin x : B64 sq hy) (Fl.fin y) = if decide (y < x) = true then Fl.fin x else Fl.fin y := rfl
  rw [this]
  by_cases h : y < x
  · rw [if_pos (decide_eq_true h), max_eq_left h.le]
  · rw [if_neg (by simpa using h), max_eq_right (not_lt.mp h)]

theorem intersects4_b64 (a b c d : Coord ℚ) :
    Env.intersects4 (toB64 a : Coord (B64 sq hy)) (toB64 b) (toB64 c) (toB64 d) = Env.intersects4 a b c d := by
  have lt : ∀ x y : ℚ, ((Fl.fin x : B64 sq hy) <. Fl.fin y) = decide (x < y) := fun _ _ => rfl
  rw [Bool.eq_iff_iff, intersects4_iff]
  unfold Env.intersects4 toB64 Coord.xy
  simp only [fmin_b64, fmax_b64, lt, decide_eq_true_eq]
  split_ifs with h1 h2 h3 h4
  · exact ⟨False.elim, fun h => absurd h1 (not_lt.mpr h.1.1)⟩
  · exact ⟨False.elim, fun h => absurd h2 (not_lt.mpr h.1.2)⟩
  · exact ⟨False.elim, fun h => absurd h3 (not_lt.mpr h.2.1)⟩
  · exact ⟨False.elim, fun h => absurd h4 (not_lt.mpr h.2.2)⟩
  · exact ⟨fun _ => ⟨⟨not_lt.mp h1, not_lt.mp h2⟩, not_lt.mp h3, not_lt.mp h4⟩, fun _ => rfl⟩

/-- C100: consecutive segments `a b` and `b c` of any finite doubles, without any margin: they are reported to meet, not properly; and if neither
far end is in the box of the other segment, in exactly one point, which is `b`. -/
theorem C100_shared_end (s : LI (B64 sq hy)) (a b c : Coord ℚ) :
    (s.compute4 (toB64 a) (toB64 b) (toB64 b) (toB64 c)).hasIntersection = true ∧
    (s.compute4 (toB64 a) (toB64 b) (toB64 b) (toB64 c)).isProper = false ∧
    (¬ Boxed a b c → ¬ Boxed b c a → (s.compute4 (toB64 a) (toB64 b) (toB64 b) (toB64 c)).result = 1) ∧
    ((s.compute4 (toB64 a) (toB64 b) (toB64 b) (toB64 c)).result = 1 →
      Same (s.compute4 (toB64 a) (toB64 b) (toB64 b) (toB64 c)).pt0 (toB64 b)) := by
  have i1 : Orientation.index (toB64 a : Coord (B64 sq hy)) (toB64 b) (toB64 b) = 0 := index_flat a b b ⟨Or.inr rfl, Or.inr rfl⟩
  have i2 : Orientation.index (toB64 b : Coord (B64 sq hy)) (toB64 c) (toB64 b) = 0 := index_flat b c b ⟨Or.inl rfl, Or.inl rfl⟩
  have hb : Env.intersects4 (toB64 a : Coord (B64 sq hy)) (toB64 b) (toB64 b) (toB64 c) = true := by
    rw [intersects4_b64, intersects4_iff]
    exact ⟨⟨(min_le_right _ _).trans (le_max_left _ _), (min_le_left _ _).trans (le_max_right _ _)⟩,
      (min_le_right _ _).trans (le_max_left _ _), (min_le_left _ _).trans (le_max_right _ _)⟩
  have bb : Env.intersects3 a b b = true ∧ Env.intersects3 b c b = true := by
    rw [intersects3_iff, intersects3_iff]
    exact ⟨⟨min_le_right _ _, le_max_right _ _, min_le_right _ _, le_max_right _ _⟩, min_le_left _ _, le_max_left _ _, min_le_left _ _, le_max_left _ _⟩
  have eb : ∀ x : Coord ℚ, x.equals2D x = true := fun x => (equals2D_iff x x).mpr ⟨rfl, rfl⟩
  unfold LI.hasIntersection LI.compute4 LI.computeIntersect
  simp only [hb, i1, i2]
  have hac : a.equals2D c = true → Orientation.index (toB64 a : Coord (B64 sq hy)) (toB64 b) (toB64 c) = 0 ∧
      Orientation.index (toB64 b : Coord (B64 sq hy)) (toB64 c) (toB64 a) = 0 := by
    intro h
    obtain ⟨h1, h2⟩ := (equals2D_iff a c).mp h
    exact ⟨index_flat a b c ⟨Or.inl h1, Or.inl h2⟩, index_flat b c a ⟨Or.inr h2.symm, Or.inr h1.symm⟩⟩
  revert hac
  generalize Orientation.index (toB64 a : Coord (B64 sq hy)) (toB64 b) (toB64 c) = X
  generalize Orientation.index (toB64 b : Coord (B64 sq hy)) (toB64 c) (toB64 a) = Y
  intro hac
  by_cases h0 : X = 0 ∧ Y = 0
  · obtain ⟨rfl, rfl⟩ := h0
    unfold LI.computeCollinear
    simp only [intersects3_b64, bb, equals2D_b64, eb]
    have n1 := intersects3_iff a b c
    have n2 := intersects3_iff b c a
    unfold Boxed
    rw [← n1, ← n2]
    cases k1 : Env.intersects3 a b c <;> cases k2 : Env.intersects3 b c a <;>
      simp [LI.copyWithZInterpolate, copyWithZ_xy, Same]
  · have h1 : ¬ ((0 : Int) > 0 ∧ X > 0 ∨ (0 : Int) < 0 ∧ X < 0) := by omega
    have h2 : ¬ (Y > 0 ∧ (0 : Int) > 0 ∨ Y < 0 ∧ (0 : Int) < 0) := by omega
    have h3 : ¬ (True ∧ X = 0 ∧ Y = 0 ∧ True) := fun h => h0 ⟨h.2.1, h.2.2.1⟩
    have h4 : True ∨ X = 0 ∨ Y = 0 ∨ True := Or.inl trivial
    simp only [if_neg h1, if_neg h2, if_neg h3, if_pos h4, Bool.not_true, Bool.false_eq_true, if_false]
    refine ⟨by decide, trivial, fun _ _ => trivial, fun _ => ?_⟩
    unfold Same
    rw [(copyWithZ_xy _ _).1, (copyWithZ_xy _ _).2]
    unfold LI.touchPoint
    simp only [equals2D_b64, eb]
    by_cases k1 : a.equals2D b = true
    · obtain ⟨x, y⟩ := (equals2D_iff a b).mp k1
      simp only [k1, if_true]
      exact ⟨congrArg Fl.fin x, congrArg Fl.fin y⟩
    · have k2 : ¬ a.equals2D c = true := fun h => h0 (hac h)
      simp only [k1, k2, if_false, if_true, Bool.false_eq_true]
      exact ⟨rfl, rfl⟩

/-- C100: without the margin disjoint segments are reported to cross properly, and crossing segments to be apart. -/
theorem C100_limits : ∃ p1 p2 q1 q2 q3 : Coord ℚ, IsModerate p1 ∧ IsModerate p2 ∧ IsModerate q1 ∧ IsModerate q2 ∧ IsModerate q3 ∧
    (¬ ∃ c, OnSegment c p1 p2 ∧ OnSegment c q1 q2) ∧
    ((LI.default : LI X64).compute4 (toB64 p1) (toB64 p2) (toB64 q1) (toB64 q2)).isProper = true ∧
    (∃ c, Inside c p1 p2 ∧ Inside c q1 q3) ∧
    ((LI.default : LI X64).compute4 (toB64 p1) (toB64 p2) (toB64 q1) (toB64 q3)).hasIntersection = false := by
  refine ⟨Coord.xy (-1 / 2 ^ 80) 0, Coord.xy 11471633658268050522112 9967463889179775074304, Coord.xy 6964925429 6051678843,
    Coord.xy 6964925430 6051678842, Coord.xy 6964925428 6051678844,
    moderate_of (by decide +kernel), moderate_of (by decide +kernel), moderate_of (by decide +kernel), moderate_of (by decide +kernel), moderate_of (by decide +kernel),
    ?_, by decide +kernel, ?_, by decide +kernel⟩
  · rintro ⟨c, h1, h2⟩
    exact apart_of_side (Or.inr ⟨by decide +kernel, by decide +kernel⟩) h1 h2
  · obtain ⟨-, c, h1, h2, -⟩ := crossing_rational (p1 := Coord.xy (-1 / 2 ^ 80) 0) (p2 := Coord.xy 11471633658268050522112 9967463889179775074304)
      (q1 := Coord.xy 6964925429 6051678843) (q2 := Coord.xy 6964925428 6051678844)
      (by decide +kernel) (by decide +kernel) (by decide +kernel) (by decide +kernel) (by decide +kernel) (by decide +kernel)
    exact ⟨c, h1, h2⟩

/-! ## The hypotheses are met -/

section Examples

theorem settled_of {a b p : Coord ℚ} (h1 : IsModerate a) (h2 : IsModerate b) (h3 : IsModerate p) (h : Decided a b p) : Settled a b p :=
  Or.inr ⟨h1, h2, h3, h⟩

/-- Two segments of doubles of very different sizes that cross, and two that are apart although their boxes meet. -/
example : let p1 : Coord ℚ := Coord.xy (-3 / 2 ^ 60) 0; let p2 : Coord ℚ := Coord.xy (2 ^ 70) (2 ^ 69 + 2 ^ 20)
    let q1 : Coord ℚ := Coord.xy 2 (1 / 2); let q2 : Coord ℚ := Coord.xy (1 + 1 / 2 ^ 40) 7; let q3 : Coord ℚ := Coord.xy 5 (5 / 4)
    IsPoint p1 ∧ IsPoint p2 ∧ IsPoint q1 ∧ IsPoint q2 ∧ IsPoint q3 ∧ BoxesMeet p1 p2 q1 q2 ∧ SettledPair p1 p2 q1 q2 ∧
    ((LI.default : LI X64).compute4 (toB64 p1) (toB64 p2) (toB64 q1) (toB64 q2)).isProper = true ∧
    BoxesMeet p1 p2 q1 q3 ∧ SettledPair p1 p2 q1 q3 ∧
    ((LI.default : LI X64).compute4 (toB64 p1) (toB64 p2) (toB64 q1) (toB64 q3)).hasIntersection = false := by
  intro p1 p2 q1 q2 q3
  have m1 : IsModerate p1 := moderate_of (by decide +kernel)
  have m2 : IsModerate p2 := moderate_of (by decide +kernel)
  have m3 : IsModerate q1 := moderate_of (by decide +kernel)
  have m4 : IsModerate q2 := moderate_of (by decide +kernel)
  have m5 : IsModerate q3 := moderate_of (by decide +kernel)
  refine ⟨m1.1, m2.1, m3.1, m4.1, m5.1, by unfold BoxesMeet; decide +kernel, fun _ => ?_, by decide +kernel,
    by unfold BoxesMeet; decide +kernel, fun _ => ?_, by decide +kernel⟩
  · exact ⟨settled_of m1 m2 m3 (by decide +kernel), settled_of m1 m2 m4 (by decide +kernel),
      fun _ => ⟨settled_of m3 m4 m1 (by decide +kernel), settled_of m3 m4 m2 (by decide +kernel)⟩⟩
  · exact ⟨settled_of m1 m2 m3 (by decide +kernel), settled_of m1 m2 m5 (by decide +kernel),
      fun h => absurd (by unfold OneSide; decide +kernel) h⟩

/-- Overlapping segments on an axis, of any doubles. -/
example : let p1 : Coord ℚ := Coord.xy (1 / 2 ^ 80) 3; let p2 : Coord ℚ := Coord.xy (2 ^ 90) 3
    let q1 : Coord ℚ := Coord.xy (2 ^ 100) 3; let q2 : Coord ℚ := Coord.xy 1 3
    SettledPair p1 p2 q1 q2 ∧ ¬ Same p1 p2 ∧ ¬ Same q1 q2 ∧
    ((LI.default : LI X64).compute4 (toB64 p1) (toB64 p2) (toB64 q1) (toB64 q2)).result = 2 ∧
    ((LI.default : LI X64).compute4 (toB64 p1) (toB64 p2) (toB64 q1) (toB64 q2)).isProper = false := by
  intro p1 p2 q1 q2
  refine ⟨fun _ => ⟨Or.inl (by decide +kernel), Or.inl (by decide +kernel), fun _ => ⟨Or.inl (by decide +kernel), Or.inl (by decide +kernel)⟩⟩,
    by unfold Same; decide +kernel, by unfold Same; decide +kernel, by decide +kernel, by decide +kernel⟩

/-- The point of `C99`'s example with its segment, in both directions. -/
example : let a : Coord ℚ := Coord.xy 0 0; let b : Coord ℚ := Coord.xy 11471633658268050522112 (9967463889179775074304 + 2 ^ 22)
    let p : Coord ℚ := Coord.xy 6964925429 6051678843
    Boxed a b p ∧ Settled a b p ∧ Settled b a p := by
  intro a b p
  have m1 : IsModerate a := moderate_of (by decide +kernel)
  have m2 : IsModerate b := moderate_of (by decide +kernel)
  have m3 : IsModerate p := moderate_of (by decide +kernel)
  exact ⟨by decide +kernel, settled_of m1 m2 m3 (by decide +kernel), settled_of m2 m1 m3 (by decide +kernel)⟩

/-- Consecutive segments of a line. -/
example : let a : Coord ℚ := Coord.xy 0 0; let b : Coord ℚ := Coord.xy 1 3; let c : Coord ℚ := Coord.xy 2 (1 / 2 ^ 70)
    ¬ Boxed a b c ∧ ¬ Boxed b c a := by
  intro a b c
  exact ⟨by decide +kernel, by decide +kernel⟩

end Examples

end Verif.Props
