import Verif.Lemmas.Mirror
import Verif.Props.Filter
import Verif.Model.LineSegment
import Verif.Model.RingAlgorithms
import Verif.Lemmas.Loop

/-! # C137: mirror images are computed exactly

For every arithmetic whose rounding treats positive and negative numbers alike, binary64 in particular, and for all values, NaN and
infinities included: mirroring the input in one or both axes mirrors the output, with no rounding difference at all. -/

namespace Verif.Props
open Flt Verif.Spec Verif.Binary64 Verif.Mirror

/-- The mirror image: the sign of x changes if `fx`, the sign of y if `fy`; z and m stay. -/
def mirror {α : Type} [Flt α] (fx fy : Bool) (c : Coord α) : Coord α :=
  ⟨if fx then -.c.x else c.x, if fy then -.c.y else c.y, c.z, c.m⟩

/-- Does the mirror image turn the plane over (exactly one axis changes its sign)? -/
def turns (fx fy : Bool) : Bool := fx != fy

section mirror
variable {r : Rounding} [hr : Rounding.Even r]

omit hr in
theorem mirror_ff (c : Coord (Fl r)) : mirror false false c = c := rfl

theorem mirror_default (fx fy : Bool) : mirror fx fy (Coord.default : Coord (Fl r)) = Coord.default := by
  cases fx <;> cases fy <;> simp [mirror, Coord.default, m_zero]

omit hr in
theorem mirror_equals (fx fy : Bool) (p q : Coord (Fl r)) : (mirror fx fy p).equals2D (mirror fx fy q) = p.equals2D q := by
  cases fx <;> cases fy <;> simp [mirror, Coord.equals2D, m_eq]

theorem mirror_dist (fx fy : Bool) (p q : Coord (Fl r)) : (mirror fx fy p).distance (mirror fx fy q) = p.distance q := by
  cases fx <;> cases fy <;> simp [mirror, Coord.distance, m_sub, m_hypot_left, m_hypot_right]

theorem signum_neg (x : Fl r) : CGDD.signum (-.x) = -CGDD.signum x := by
  have h := dd_signum (DD.mk x (lit 0))
  have e : (lit 0 <. (lit 0 : Fl r)) = false := by
    change Fl.lt (Fl.round 0) (Fl.round 0) = false
    rw [show (Fl.round 0 : Fl r) = Fl.fin 0 from hr.rnd_zero]
    simp [Fl.lt]
  simp only [DD.signum, ddNeg, m_zero, e, Bool.false_eq_true, if_false] at h
  exact h

/-- The filter looks at the products of the differences only. -/
def filt (l d : Fl r) : Int :=
  let det := l -. d
  let finish (detsum : Fl r) : Int :=
    let errbound := CGDD.eps *. detsum
    if (det ≥. errbound) || ((-.det) ≥. errbound) then CGDD.signum det else 2
  if l >. lit 0 then
    if d ≤. lit 0 then CGDD.signum det else finish (l +. d)
  else if l <. lit 0 then
    if d ≥. lit 0 then CGDD.signum det else finish ((-.l) -. d)
  else CGDD.signum det

theorem filt_neg (l d : Fl r) : filt (-.l) (-.d) = if filt l d = 2 then 2 else -filt l d := by
  have hs : ∀ x : Fl r, CGDD.signum x ≠ 2 ∧ CGDD.signum x ≠ -2 := by
    intro x; unfold CGDD.signum; split
    · simp
    · split <;> simp
  have h0 : (l >. lit 0) = true → (l <. lit 0) = false := by
    change (Fl.lt (Fl.round 0) l) = true → Fl.lt l (Fl.round 0) = false
    rw [show (Fl.round 0 : Fl r) = Fl.fin 0 from hr.rnd_zero]
    cases l <;> simp [Fl.lt]; intro h; linarith
  have e0 : (-.l) -. d = -.(l +. d) := by rw [← m_sub_neg, ← m_sub, m_neg_neg]
  have e1 : (-.l) -. (-.d) = -.(l -. d) := m_sub l d
  have e2 : (-.(-.l)) -. (-.d) = l +. d := by rw [m_neg_neg, m_sub_neg]
  have e3 : (-.l) +. (-.d) = -.(l +. d) := m_add l d
  simp only [filt, e0, e1, e2, e3, m_zero_lt, m_le_zero, m_lt_zero, m_zero_le]
  generalize l -. d = x
  generalize l +. d = t
  simp only [m_neg_neg, signum_neg]
  have hc : ∀ x b : Fl r, (if (b ≤. (-.x) || b ≤. x) = true then -CGDD.signum x else 2) =
      if (if (b ≤. x || b ≤. (-.x)) = true then CGDD.signum x else 2) = 2 then 2
      else -(if (b ≤. x || b ≤. (-.x)) = true then CGDD.signum x else 2) := by
    intro x b
    rw [Bool.or_comm]
    split
    · rw [if_neg (hs x).1]
    · rfl
  by_cases h1 : (l >. lit 0) = true
  · have h2 := h0 h1
    simp only [h1, h2, if_true, Bool.false_eq_true, if_false]
    split
    · rw [if_neg (hs _).1]
    · exact hc _ _
  · by_cases h2 : (l <. lit 0) = true
    · simp only [h1, h2, if_true, Bool.false_eq_true, if_false]
      split
      · rw [if_neg (hs _).1]
      · exact hc _ _
    · simp only [h1, h2, Bool.false_eq_true, if_false]
      rw [if_neg (hs _).1]

/-- Orientation changes its sign exactly if the plane is turned over. -/
theorem C137_orientation (fx fy : Bool) (p q c : Coord (Fl r)) :
    Orientation.index (mirror fx fy p) (mirror fx fy q) (mirror fx fy c) =
      if turns fx fy then -Orientation.index p q c else Orientation.index p q c := by
  have hf : ∀ a b c d e f : Fl r, CGDD.filter a b c d e f = filt ((a -. e) *. (d -. f)) ((b -. f) *. (c -. e)) := fun _ _ _ _ _ _ => rfl
  have key : ∀ (i i' j j' : Int), i' = (if i = 2 then 2 else -i) → j' = -j → (i ≤ 1 ∨ i = 2) → -1 ≤ i →
      (if i' ≤ 1 then i' else j') = -(if i ≤ 1 then i else j) := by
    intro i i' j j' h1 h2 h3 h4
    rcases h3 with h3 | h3
    · rw [if_neg (by omega)] at h1
      rw [if_pos (by omega), if_pos h3, h1]
    · subst h3; simp at h1; subst h1; simp [h2]
  have hr' : ∀ l d : Fl r, (filt l d ≤ 1 ∨ filt l d = 2) ∧ -1 ≤ filt l d := by
    intro l d
    have hs : ∀ x : Fl r, CGDD.signum x = 1 ∨ CGDD.signum x = -1 ∨ CGDD.signum x = 0 := by
      intro x; unfold CGDD.signum; split
      · simp
      · split <;> simp
    have := hs (l -. d)
    unfold filt
    simp only
    split_ifs <;> omega
  have hx : ∀ p q c : Coord (Fl r), Orientation.index (mirror true false p) (mirror true false q) (mirror true false c) =
      -Orientation.index p q c := by
    intro p q c
    simp only [mirror, Orientation.index, CGDD.index, CGDD.indexXY, if_true, Bool.false_eq_true, if_false, hf, m_sub,
      m_mul_left, m_mul_right, filt_neg]
    refine key _ _ _ _ rfl ?_ (hr' _ _).1 (hr' _ _).2
    simp only [CGDD.ddIndex, dd_ofF, dd_addF, dd_selfMul_left, dd_selfMul_right, dd_selfSub, dd_signum]
  have hy : ∀ p q c : Coord (Fl r), Orientation.index (mirror false true p) (mirror false true q) (mirror false true c) =
      -Orientation.index p q c := by
    intro p q c
    simp only [mirror, Orientation.index, CGDD.index, CGDD.indexXY, if_true, Bool.false_eq_true, if_false, hf, m_sub,
      m_mul_left, m_mul_right, filt_neg]
    refine key _ _ _ _ rfl ?_ (hr' _ _).1 (hr' _ _).2
    simp only [CGDD.ddIndex, dd_ofF, dd_addF, dd_selfMul_left, dd_selfMul_right, dd_selfSub, dd_signum]
  cases fx <;> cases fy
  · rfl
  · exact hy p q c
  · exact hx p q c
  · change Orientation.index (mirror true false (mirror false true p)) (mirror true false (mirror false true q))
      (mirror true false (mirror false true c)) = _
    rw [hx, hy, neg_neg]
    rfl

/-! ## Distances -/

theorem mirror_pointToSegment (fx fy : Bool) (p a b : Coord (Fl r)) :
    Distance.pointToSegment (mirror fx fy p) (mirror fx fy a) (mirror fx fy b) = Distance.pointToSegment p a b := by
  cases fx <;> cases fy
  · rfl
  all_goals
    simp only [Distance.pointToSegment, mirror_dist]
    simp only [mirror, if_true, Bool.false_eq_true, if_false, m_eq, m_sub, m_mul_left, m_mul_right, m_neg_neg, m_div_left, m_abs]

omit hr in
theorem mirror_intersects3 (fx fy : Bool) (a b p : Coord (Fl r)) :
    Env.intersects3 (mirror fx fy a) (mirror fx fy b) (mirror fx fy p) = Env.intersects3 a b p := by
  cases fx <;> cases fy
  · rfl
  all_goals
    simp only [Env.intersects3, mirror, if_true, Bool.false_eq_true, if_false, m_lt]
    have h2 : ∀ c : Bool, ∀ a b : Fl r, (if c then -.a else -.b) = -.(if c then a else b) := by
      intro c a b; cases c <;> rfl
    simp only [h2, m_le]
    congr 2
    grind

omit hr in
theorem mirror_intersects4 (fx fy : Bool) (a b c d : Coord (Fl r)) :
    Env.intersects4 (mirror fx fy a) (mirror fx fy b) (mirror fx fy c) (mirror fx fy d) = Env.intersects4 a b c d := by
  cases fx <;> cases fy
  · rfl
  all_goals
    simp only [Env.intersects4, mirror, if_true, Bool.false_eq_true, if_false, m_fmin, m_fmax, m_lt]
    grind

omit hr in
theorem span_comm (a b p : Fl r) (h1 : ¬(a <. b) = true) (h2 : ¬(b <. a) = true) :
    ((a ≤. p) && (p ≤. b)) = ((b ≤. p) && (p ≤. a)) := by
  revert h1 h2
  change ¬Fl.lt a b = true → ¬Fl.lt b a = true → (Fl.le a p && Fl.le p b) = (Fl.le b p && Fl.le p a)
  cases a <;> cases b <;> cases p <;> simp [Fl.lt, Fl.le]
  rename_i x y z
  intro h1 h2
  obtain rfl : x = y := le_antisymm h2 h1
  rfl

/-- One coordinate of the box of two points. -/
def inSpan (a b p : Fl r) : Bool := if a <. b then (a ≤. p) && (p ≤. b) else (b ≤. p) && (p ≤. a)

omit hr in
theorem inSpan_neg (a b p : Fl r) : inSpan (-.a) (-.b) (-.p) = inSpan a b p := by
  simp only [inSpan, m_lt, m_le]
  by_cases h1 : (a <. b) = true
  · have h2 : ¬(b <. a) = true := by
      revert h1
      change Fl.lt a b = true → ¬Fl.lt b a = true
      cases a <;> cases b <;> simp [Fl.lt]; intro h; linarith
    rw [if_pos h1, if_neg h2, Bool.and_comm]
  · by_cases h2 : (b <. a) = true
    · rw [if_neg h1, if_pos h2, Bool.and_comm]
    · rw [if_neg h1, if_neg h2, Bool.and_comm, span_comm a b p h1 h2]

omit hr in
theorem box_spans (a b c : Coord (Fl r)) :
    (Env.newCoordinates a b).coversCoordinate c = (inSpan a.x b.x c.x && inSpan a.y b.y c.y) := by
  have hn : (Env.newCoordinates a b).isNull = false := by
    unfold Env.newCoordinates Env.isNull
    by_cases h1 : (a.x <. b.x) = true
    · simp only [h1, if_true]
      revert h1
      generalize a.x = u
      generalize b.x = v
      change Fl.lt u v = true → Fl.lt v u = false
      cases u <;> cases v <;> simp [Fl.lt]; intro h; linarith
    · simp only [h1, if_false, Bool.false_eq_true]
  unfold Env.coversCoordinate Env.coversXY
  rw [hn]
  unfold Env.newCoordinates inSpan
  simp only [Bool.false_eq_true, if_false]
  grind

omit hr in
/-- Boxes spanned by two points: a point lies in one, or two of them meet, exactly if that holds for the mirror images. -/
theorem C137_boxes (fx fy : Bool) (a b c d : Coord (Fl r)) :
    (Env.newCoordinates (mirror fx fy a) (mirror fx fy b)).coversCoordinate (mirror fx fy c) =
        (Env.newCoordinates a b).coversCoordinate c ∧
      Env.intersects3 (mirror fx fy a) (mirror fx fy b) (mirror fx fy c) = Env.intersects3 a b c ∧
      Env.intersects4 (mirror fx fy a) (mirror fx fy b) (mirror fx fy c) (mirror fx fy d) = Env.intersects4 a b c d := by
  refine ⟨?_, mirror_intersects3 fx fy a b c, mirror_intersects4 fx fy a b c d⟩
  rw [box_spans, box_spans]
  cases fx <;> cases fy <;> simp only [mirror, if_true, Bool.false_eq_true, if_false, inSpan_neg]

theorem mirror_noIntersection (fx fy : Bool) (a b c d : Coord (Fl r)) :
    Distance.noIntersection (mirror fx fy a) (mirror fx fy b) (mirror fx fy c) (mirror fx fy d) =
      Distance.noIntersection a b c d := by
  unfold Distance.noIntersection
  rw [mirror_intersects4]
  split
  · rfl
  · cases fx <;> cases fy
    · rfl
    all_goals
      simp only [mirror, if_true, Bool.false_eq_true, if_false, m_sub, m_mul_left, m_mul_right, m_neg_neg, m_eq_zero]
    all_goals
      by_cases hz : ((b.x -. a.x) *. (d.y -. c.y) -. (b.y -. a.y) *. (d.x -. c.x) : Fl r) ==. lit 0
      · simp only [hz, if_true]
      · have hz' : ((b.x -. a.x) *. (d.y -. c.y) -. (b.y -. a.y) *. (d.x -. c.x) : Fl r) ≠ Fl.fin 0 := by
          intro e
          rw [e] at hz
          apply hz
          change Fl.eq (Fl.fin 0) (Fl.round 0) = true
          rw [show (Fl.round 0 : Fl r) = Fl.fin 0 from hr.rnd_zero]
          simp [Fl.eq]
        simp only [m_div_left, m_div_right _ _ hz', m_neg_neg]

/-- All distances are the same; the signed one changes its sign exactly if the plane is turned over. -/
theorem C137_distance (fx fy : Bool) (p a b c d : Coord (Fl r)) :
    (mirror fx fy p).distance (mirror fx fy a) = p.distance a ∧
      Distance.pointToSegment (mirror fx fy p) (mirror fx fy a) (mirror fx fy b) = Distance.pointToSegment p a b ∧
      Distance.segmentToSegment (mirror fx fy a) (mirror fx fy b) (mirror fx fy c) (mirror fx fy d) =
        Distance.segmentToSegment a b c d ∧
      Distance.pointToLinePerpendicular (mirror fx fy p) (mirror fx fy a) (mirror fx fy b) =
        Distance.pointToLinePerpendicular p a b ∧
      Distance.pointToLinePerpendicularSigned (mirror fx fy p) (mirror fx fy a) (mirror fx fy b) =
        (if turns fx fy then -.(Distance.pointToLinePerpendicularSigned p a b) else Distance.pointToLinePerpendicularSigned p a b) := by
  refine ⟨mirror_dist fx fy p a, mirror_pointToSegment fx fy p a b, ?_, ?_, ?_⟩
  · simp only [Distance.segmentToSegment, mirror_equals, mirror_pointToSegment, mirror_noIntersection]
  · cases fx <;> cases fy
    · rfl
    all_goals
      simp only [Distance.pointToLinePerpendicular, mirror, if_true, Bool.false_eq_true, if_false, m_sub, m_mul_left, m_mul_right,
        m_neg_neg, m_div_left, m_abs]
  · cases fx <;> cases fy
    · rfl
    all_goals
      simp only [Distance.pointToLinePerpendicularSigned, mirror, if_true, Bool.false_eq_true, if_false, m_sub, m_mul_left,
        m_mul_right, m_neg_neg, m_div_left, turns]
      rfl


/-! ## Crossings -/

omit hr in
theorem ddiv_zero (a y : DD (Fl r)) (h : y.hi = Fl.fin 0) : isNaN (a.div y).doubleValue = true := by
  have hm : ∀ v : Fl r, (v /. (Fl.fin 0 : Fl r)) *. (Fl.fin 0 : Fl r) = Fl.nan := by
    intro v
    cases v with
    | nan => rfl
    | pinf => change Fl.mul (if (0 : ℚ) < 0 then Fl.ninf else Fl.pinf) (Fl.fin 0) = Fl.nan; simp [Fl.mul, Fl.infOf]
    | ninf => change Fl.mul (if (0 : ℚ) < 0 then Fl.pinf else Fl.ninf) (Fl.fin 0) = Fl.nan; simp [Fl.mul, Fl.infOf]
    | fin q =>
      change Fl.mul (if (0 : ℚ) = 0 then Fl.infOf q else Fl.round (q / 0)) (Fl.fin 0) = Fl.nan
      simp only [if_true]
      unfold Fl.infOf
      split_ifs <;> simp [Fl.mul, Fl.infOf]
  have s1 : ∀ v : Fl r, v -. (Fl.nan : Fl r) = Fl.nan := by intro v; cases v <;> rfl
  have s2 : ∀ v : Fl r, (Fl.nan : Fl r) -. v = Fl.nan := by intro v; cases v <;> rfl
  have s3 : ∀ v : Fl r, v +. (Fl.nan : Fl r) = Fl.nan := by intro v; cases v <;> rfl
  have s4 : ∀ v : Fl r, (Fl.nan : Fl r) +. v = Fl.nan := by intro v; cases v <;> rfl
  have s5 : ∀ v : Fl r, (Fl.nan : Fl r) /. v = Fl.nan := by intro v; cases v <;> rfl
  simp only [DD.doubleValue, DD.div, DD.divHiLo, h, hm, s1, s2, s3, s4, s5]
  rfl

/-- The crossing point of two lines, from its three double-double components. -/
def quot (x y w : DD (Fl r)) : Option (Coord (Fl r)) :=
  let xInt := (x.div w).doubleValue
  let yInt := (y.div w).doubleValue
  if isNaN xInt || isInf xInt || isNaN yInt || isInf yInt then none else some (Coord.xy xInt yInt)

theorem quot_neg (x y w : DD (Fl r)) : quot (ddNeg x) (ddNeg y) (ddNeg w) = quot x y w := by
  by_cases h : w.hi = Fl.fin 0
  · have h' : (ddNeg w).hi = Fl.fin 0 := by
      change (-.w.hi) = _; rw [h]; change Fl.fin (-0) = _; rw [neg_zero]
    simp only [quot, ddiv_zero _ _ h, ddiv_zero _ _ h', Bool.true_or, if_true]
  · simp only [quot, dd_div_left, dd_div_right _ _ h, dd_neg_neg]

theorem quot_neg_x (x y w : DD (Fl r)) : quot (ddNeg x) y w = (quot x y w).map (mirror true false) := by
  simp only [quot, dd_div_left, dd_value, m_isNaN, m_isInf]
  split <;> rfl

theorem quot_neg_y (x y w : DD (Fl r)) : quot x (ddNeg y) w = (quot x y w).map (mirror false true) := by
  simp only [quot, dd_div_left, dd_value, m_isNaN, m_isInf]
  split <;> rfl

omit hr in
theorem crossing_eq (p1 p2 q1 q2 : Coord (Fl r)) :
    CGDD.intersection p1 p2 q1 q2 =
      quot
        (((((DD.ofF p2.x).selfSubF p1.x)).mul (((DD.ofF q1.x).selfMulF q2.y).selfSub ((DD.ofF q2.x).selfMulF q1.y))).selfSub
          ((((DD.ofF q2.x).selfSubF q1.x)).mul (((DD.ofF p1.x).selfMulF p2.y).selfSub ((DD.ofF p2.x).selfMulF p1.y))))
        (((((DD.ofF q1.y).selfSubF q2.y)).mul (((DD.ofF p1.x).selfMulF p2.y).selfSub ((DD.ofF p2.x).selfMulF p1.y))).selfSub
          ((((DD.ofF p1.y).selfSubF p2.y)).mul (((DD.ofF q1.x).selfMulF q2.y).selfSub ((DD.ofF q2.x).selfMulF q1.y))))
        (((((DD.ofF p1.y).selfSubF p2.y)).mul (((DD.ofF q2.x).selfSubF q1.x))).selfSub
          ((((DD.ofF q1.y).selfSubF q2.y)).mul (((DD.ofF p2.x).selfSubF p1.x)))) := rfl

omit hr in
theorem mirror_mirror (p : Coord (Fl r)) : mirror true true p = mirror true false (mirror false true p) := rfl

theorem mirror_crossing (fx fy : Bool) (p1 p2 q1 q2 : Coord (Fl r)) :
    CGDD.intersection (mirror fx fy p1) (mirror fx fy p2) (mirror fx fy q1) (mirror fx fy q2) =
      (CGDD.intersection p1 p2 q1 q2).map (mirror fx fy) := by
  have hx : ∀ p1 p2 q1 q2 : Coord (Fl r), CGDD.intersection (mirror true false p1) (mirror true false p2) (mirror true false q1)
      (mirror true false q2) = (CGDD.intersection p1 p2 q1 q2).map (mirror true false) := by
    intro p1 p2 q1 q2
    rw [crossing_eq, crossing_eq, ← quot_neg_x, ← quot_neg]
    simp only [mirror, if_true, Bool.false_eq_true, if_false, dd_ofF, dd_selfSubF, dd_selfMulF_left, dd_selfSub,
      ddmul_left, ddmul_right, dd_neg_neg]
  have hy : ∀ p1 p2 q1 q2 : Coord (Fl r), CGDD.intersection (mirror false true p1) (mirror false true p2) (mirror false true q1)
      (mirror false true q2) = (CGDD.intersection p1 p2 q1 q2).map (mirror false true) := by
    intro p1 p2 q1 q2
    rw [crossing_eq, crossing_eq, ← quot_neg_y, ← quot_neg]
    simp only [mirror, if_true, Bool.false_eq_true, if_false, dd_ofF, dd_selfSubF, dd_selfMulF_right, dd_selfSub,
      ddmul_left, ddmul_right, dd_neg_neg]
  cases fx <;> cases fy
  · cases h : CGDD.intersection p1 p2 q1 q2 <;> simpa [mirror_ff] using h
  · exact hy _ _ _ _
  · exact hx _ _ _ _
  · simp only [mirror_mirror]
    rw [hx, hy, Option.map_map]
    rfl

/-- The same without double-double numbers. -/
def quotF (x y w mx my : Fl r) : Option (Coord (Fl r)) :=
  let xInt := x /. w
  let yInt := y /. w
  if isNaN xInt || isInf xInt || isNaN yInt || isInf yInt then none else some (Coord.xy (xInt +. mx) (yInt +. my))

omit hr in
theorem fdiv_zero (a : Fl r) : (isNaN (a /. (Fl.fin 0 : Fl r)) || isInf (a /. (Fl.fin 0 : Fl r))) = true := by
  cases a with
  | nan => rfl
  | pinf => change (isNaN (if (0 : ℚ) < 0 then Fl.ninf else Fl.pinf : Fl r) || _) = true; rfl
  | ninf => change (isNaN (if (0 : ℚ) < 0 then Fl.pinf else Fl.ninf : Fl r) || _) = true; rfl
  | fin q =>
    change (isNaN (if (0 : ℚ) = 0 then Fl.infOf q else Fl.round (q / 0) : Fl r) ||
      isInf (if (0 : ℚ) = 0 then Fl.infOf q else Fl.round (q / 0) : Fl r)) = true
    simp only [if_true]
    unfold Fl.infOf
    split_ifs <;> rfl

theorem quotF_neg (x y w mx my : Fl r) : quotF (-.x) (-.y) (-.w) mx my = quotF x y w mx my := by
  by_cases h : w = Fl.fin 0
  · have h' : (-.w) = (Fl.fin 0 : Fl r) := by rw [h]; change Fl.fin (-0) = _; rw [neg_zero]
    simp only [quotF, h']
    simp only [h, fdiv_zero, Bool.true_or, if_true]
  · simp only [quotF, m_div_left, m_div_right _ _ h, m_neg_neg]

theorem quotF_neg_x (x y w mx my : Fl r) : quotF (-.x) y w (-.mx) my = (quotF x y w mx my).map (mirror true false) := by
  simp only [quotF, m_div_left, m_isNaN, m_isInf, m_add]
  split <;> rfl

theorem quotF_neg_y (x y w mx my : Fl r) : quotF x (-.y) w mx (-.my) = (quotF x y w mx my).map (mirror false true) := by
  simp only [quotF, m_div_left, m_isNaN, m_isInf, m_add]
  split <;> rfl

theorem kernelMid_neg (a b c d : Fl r) : Intersection.kernelMid (-.a) (-.b) (-.c) (-.d) = -.(Intersection.kernelMid a b c d) := by
  have h2 : ∀ c : Bool, ∀ a b : Fl r, (if c then -.a else -.b) = -.(if c then a else b) := by
    intro c a b; cases c <;> rfl
  simp only [Intersection.kernelMid, m_lt, h2, m_add, m_div_left]
  rw [m_add_comm]

theorem mirror_crossing_fp (fx fy : Bool) (p1 p2 q1 q2 : Coord (Fl r)) :
    Intersection.intersectionFP (mirror fx fy p1) (mirror fx fy p2) (mirror fx fy q1) (mirror fx fy q2) =
      (Intersection.intersectionFP p1 p2 q1 q2).map (mirror fx fy) := by
  have hx : ∀ p1 p2 q1 q2 : Coord (Fl r), Intersection.intersectionFP (mirror true false p1) (mirror true false p2)
      (mirror true false q1) (mirror true false q2) = (Intersection.intersectionFP p1 p2 q1 q2).map (mirror true false) := by
    intro p1 p2 q1 q2
    refine Eq.trans ?_ (quotF_neg_x _ _ _ _ _)
    refine Eq.trans ?_ (quotF_neg _ _ _ _ _)
    simp only [Intersection.intersectionFP, mirror, if_true, Bool.false_eq_true, if_false, kernelMid_neg, m_sub, m_mul_left,
      m_mul_right, m_neg_neg, quotF]
  have hy : ∀ p1 p2 q1 q2 : Coord (Fl r), Intersection.intersectionFP (mirror false true p1) (mirror false true p2)
      (mirror false true q1) (mirror false true q2) = (Intersection.intersectionFP p1 p2 q1 q2).map (mirror false true) := by
    intro p1 p2 q1 q2
    refine Eq.trans ?_ (quotF_neg_y _ _ _ _ _)
    refine Eq.trans ?_ (quotF_neg _ _ _ _ _)
    simp only [Intersection.intersectionFP, mirror, if_true, Bool.false_eq_true, if_false, kernelMid_neg, m_sub, m_mul_left,
      m_mul_right, m_neg_neg, quotF]
  cases fx <;> cases fy
  · cases h : Intersection.intersectionFP p1 p2 q1 q2 <;> simpa [mirror_ff] using h
  · exact hy _ _ _ _
  · exact hx _ _ _ _
  · simp only [mirror_mirror]
    rw [hx, hy, Option.map_map]
    rfl

/-- The same for homogeneous coordinates. -/
def quotH (x y w : Fl r) : Option (Coord (Fl r)) :=
  let xInt := x /. w
  let yInt := y /. w
  if isNaN xInt || isInf xInt || isNaN yInt || isInf yInt then none else some (Coord.xy xInt yInt)

theorem quotH_neg (x y w : Fl r) : quotH (-.x) (-.y) (-.w) = quotH x y w := by
  by_cases h : w = Fl.fin 0
  · have h' : (-.w) = (Fl.fin 0 : Fl r) := by rw [h]; change Fl.fin (-0) = _; rw [neg_zero]
    simp only [quotH, h']
    simp only [h, fdiv_zero, Bool.true_or, if_true]
  · simp only [quotH, m_div_left, m_div_right _ _ h, m_neg_neg]

theorem quotH_neg_x (x y w : Fl r) : quotH (-.x) y w = (quotH x y w).map (mirror true false) := by
  simp only [quotH, m_div_left, m_isNaN, m_isInf]
  split <;> rfl

theorem quotH_neg_y (x y w : Fl r) : quotH x (-.y) w = (quotH x y w).map (mirror false true) := by
  simp only [quotH, m_div_left, m_isNaN, m_isInf]
  split <;> rfl

theorem mirror_crossing_h (fx fy : Bool) (p1 p2 q1 q2 : Coord (Fl r)) :
    HCoord.intersection (mirror fx fy p1) (mirror fx fy p2) (mirror fx fy q1) (mirror fx fy q2) =
      (HCoord.intersection p1 p2 q1 q2).map (mirror fx fy) := by
  have hx : ∀ p1 p2 q1 q2 : Coord (Fl r), HCoord.intersection (mirror true false p1) (mirror true false p2)
      (mirror true false q1) (mirror true false q2) = (HCoord.intersection p1 p2 q1 q2).map (mirror true false) := by
    intro p1 p2 q1 q2
    refine Eq.trans ?_ (quotH_neg_x _ _ _)
    refine Eq.trans ?_ (quotH_neg _ _ _)
    simp only [HCoord.intersection, mirror, if_true, Bool.false_eq_true, if_false, m_sub, m_mul_left,
      m_mul_right, m_neg_neg, quotH]
  have hy : ∀ p1 p2 q1 q2 : Coord (Fl r), HCoord.intersection (mirror false true p1) (mirror false true p2)
      (mirror false true q1) (mirror false true q2) = (HCoord.intersection p1 p2 q1 q2).map (mirror false true) := by
    intro p1 p2 q1 q2
    refine Eq.trans ?_ (quotH_neg_y _ _ _)
    refine Eq.trans ?_ (quotH_neg _ _ _)
    simp only [HCoord.intersection, mirror, if_true, Bool.false_eq_true, if_false, m_sub, m_mul_left,
      m_mul_right, m_neg_neg, quotH]
  cases fx <;> cases fy
  · cases h : HCoord.intersection p1 p2 q1 q2 <;> simpa [mirror_ff] using h
  · exact hy _ _ _ _
  · exact hx _ _ _ _
  · simp only [mirror_mirror]
    rw [hx, hy, Option.map_map]
    rfl

theorem mirror_perp (fx fy : Bool) (p a b : Coord (Fl r)) :
    Distance.pointToLinePerpendicular (mirror fx fy p) (mirror fx fy a) (mirror fx fy b) =
      Distance.pointToLinePerpendicular p a b := (C137_distance fx fy p a b p p).2.2.2.1

theorem mirror_lineSegment (fx fy : Bool) (p1 p2 q1 q2 : Coord (Fl r)) :
    Intersection.lineSegment (mirror fx fy p1) (mirror fx fy p2) (mirror fx fy q1) (mirror fx fy q2) =
      (Intersection.lineSegment p1 p2 q1 q2).map (mirror fx fy) := by
  simp only [Intersection.lineSegment, C137_orientation, Intersection.intersection, mirror_crossing, mirror_perp]
  cases turns fx fy
  all_goals
    simp only [if_true, Bool.false_eq_true, if_false, neg_eq_zero, Left.neg_pos_iff, Left.neg_neg_iff, gt_iff_lt]
    split_ifs <;> first | rfl | omega | skip
    all_goals
      cases CGDD.intersection p1 p2 q1 q2 <;> simp only [Option.map_none, Option.map_some]
      try rfl

/-- The crossing point of two lines, in all three ways, and of a line and a segment. -/
theorem C137_crossing (fx fy : Bool) (p1 p2 q1 q2 : Coord (Fl r)) :
    Intersection.intersection (mirror fx fy p1) (mirror fx fy p2) (mirror fx fy q1) (mirror fx fy q2) =
        (Intersection.intersection p1 p2 q1 q2).map (mirror fx fy) ∧
      Intersection.intersectionFP (mirror fx fy p1) (mirror fx fy p2) (mirror fx fy q1) (mirror fx fy q2) =
        (Intersection.intersectionFP p1 p2 q1 q2).map (mirror fx fy) ∧
      HCoord.intersection (mirror fx fy p1) (mirror fx fy p2) (mirror fx fy q1) (mirror fx fy q2) =
        (HCoord.intersection p1 p2 q1 q2).map (mirror fx fy) ∧
      Intersection.lineSegment (mirror fx fy p1) (mirror fx fy p2) (mirror fx fy q1) (mirror fx fy q2) =
        (Intersection.lineSegment p1 p2 q1 q2).map (mirror fx fy) :=
  ⟨mirror_crossing fx fy p1 p2 q1 q2, mirror_crossing_fp fx fy p1 p2 q1 q2, mirror_crossing_h fx fy p1 p2 q1 q2,
    mirror_lineSegment fx fy p1 p2 q1 q2⟩

/-! ## Segments -/

/-- The mirror image of a segment. -/
def mirrorSeg {α : Type} [Flt α] (fx fy : Bool) (s : LineSeg α) : LineSeg α := ⟨mirror fx fy s.p0, mirror fx fy s.p1⟩

theorem mirror_factor (fx fy : Bool) (s : LineSeg (Fl r)) (p : Coord (Fl r)) :
    (mirrorSeg fx fy s).projectionFactor (mirror fx fy p) = s.projectionFactor p := by
  simp only [LineSeg.projectionFactor, mirrorSeg, mirror_equals]
  cases fx <;> cases fy
  · rfl
  all_goals simp only [mirror, if_true, Bool.false_eq_true, if_false, m_sub, m_mul_left, m_mul_right, m_neg_neg]

theorem mirror_projectWith (fx fy : Bool) (s : LineSeg (Fl r)) (p : Coord (Fl r)) (f : Fl r) :
    (mirrorSeg fx fy s).projectWith (mirror fx fy p) f = mirror fx fy (s.projectWith p f) := by
  cases fx <;> cases fy
  · rfl
  all_goals
    simp only [LineSeg.projectWith, mirrorSeg, Coord.fromCoordinate, mirror, if_true, Bool.false_eq_true, if_false, m_sub, m_mul_right,
      m_add]

theorem mirror_closestPoint (fx fy : Bool) (s : LineSeg (Fl r)) (p : Coord (Fl r)) :
    (mirrorSeg fx fy s).closestPoint (mirror fx fy p) = mirror fx fy (s.closestPoint p) := by
  simp only [LineSeg.closestPoint, mirror_factor, mirror_projectWith]
  simp only [mirrorSeg, mirror_dist]
  split
  · rfl
  · split <;> rfl

/-- One coordinate of the reflected point. -/
def refl1 (a x b c d : Fl r) : Fl r := (a *. x -. b -. c) /. d

theorem refl_neg (a x b c d : Fl r) : refl1 a (-.x) (-.b) (-.c) d = -.(refl1 a x b c d) := by
  simp only [refl1, m_mul_right, m_sub, m_div_left]

omit hr in
theorem reflect_parts (s : LineSeg (Fl r)) (p : Coord (Fl r)) :
    s.reflect p =
      ⟨refl1 (-.((s.p1.y -. s.p0.y) *. (s.p1.y -. s.p0.y) -. (s.p0.x -. s.p1.x) *. (s.p0.x -. s.p1.x))) p.x
          (lit 2 *. (s.p1.y -. s.p0.y) *. (s.p0.x -. s.p1.x) *. p.y)
          (lit 2 *. (s.p1.y -. s.p0.y) *. (s.p0.y *. (s.p1.x -. s.p0.x) -. s.p0.x *. (s.p1.y -. s.p0.y)))
          ((s.p1.y -. s.p0.y) *. (s.p1.y -. s.p0.y) +. (s.p0.x -. s.p1.x) *. (s.p0.x -. s.p1.x)),
        refl1 ((s.p1.y -. s.p0.y) *. (s.p1.y -. s.p0.y) -. (s.p0.x -. s.p1.x) *. (s.p0.x -. s.p1.x)) p.y
          (lit 2 *. (s.p1.y -. s.p0.y) *. (s.p0.x -. s.p1.x) *. p.x)
          (lit 2 *. (s.p0.x -. s.p1.x) *. (s.p0.y *. (s.p1.x -. s.p0.x) -. s.p0.x *. (s.p1.y -. s.p0.y)))
          ((s.p1.y -. s.p0.y) *. (s.p1.y -. s.p0.y) +. (s.p0.x -. s.p1.x) *. (s.p0.x -. s.p1.x)),
        p.z, p.m⟩ := rfl

/-- Points on and beside a segment. The side of an offset is the other one if the plane is turned over. -/
theorem C137_points (fx fy : Bool) (s : LineSeg (Fl r)) (p : Coord (Fl r)) (f d : Fl r) :
    (mirrorSeg fx fy s).midPoint = mirror fx fy s.midPoint ∧
      (mirrorSeg fx fy s).pointAlong f = mirror fx fy (s.pointAlong f) ∧
      (mirrorSeg fx fy s).pointAlongOffset f (if turns fx fy then -.d else d) = mirror fx fy (s.pointAlongOffset f d) ∧
      (mirrorSeg fx fy s).project (mirror fx fy p) = mirror fx fy (s.project p) ∧
      (mirrorSeg fx fy s).closestPoint (mirror fx fy p) = mirror fx fy (s.closestPoint p) ∧
      (mirrorSeg fx fy s).reflect (mirror fx fy p) = mirror fx fy (s.reflect p) := by
  have hz1 : ∀ a : Fl r, (-.a) +. lit 0 = -.(a +. lit 0) := by intro a; rw [← m_add, m_zero]
  have hz2 : ∀ a : Fl r, (-.a) -. lit 0 = -.(a -. lit 0) := by intro a; rw [← m_sub, m_zero]
  have hz3 : ∀ a b : Fl r, (-.a) +. b = -.(a -. b) := by intro a b; rw [← m_sub, m_sub_neg]
  refine ⟨?_, ?_, ?_, ?_, mirror_closestPoint fx fy s p, ?_⟩
  · cases fx <;> cases fy
    · rfl
    all_goals simp only [LineSeg.midPoint, LineSeg.midPointOf, mirrorSeg, Coord.xy, mirror, if_true, Bool.false_eq_true, if_false,
      m_add, m_div_left]
  · cases fx <;> cases fy
    · rfl
    all_goals simp only [LineSeg.pointAlong, mirrorSeg, mirror, if_true, Bool.false_eq_true, if_false, m_sub, m_add, m_mul_right]
  · cases fx <;> cases fy
    · rfl
    all_goals
      simp only [LineSeg.pointAlongOffset, mirrorSeg, mirror, turns, if_true, Bool.false_eq_true, if_false, m_sub, m_hypot_left,
        m_hypot_right, show (true != false) = true from rfl, show (false != true) = true from rfl,
        show (true != true) = false from rfl, m_eq_zero]
      split <;>
        simp only [m_mul_left, m_mul_right, m_neg_neg, m_div_left, m_sub_neg, hz1, hz2, hz3]
  · simp only [LineSeg.project, mirror_factor, mirror_projectWith]
    simp only [mirrorSeg, mirror_equals]
    split <;> rfl
  · have hx : ∀ (s : LineSeg (Fl r)) p, (mirrorSeg true false s).reflect (mirror true false p) = mirror true false (s.reflect p) := by
      intro s p
      rw [reflect_parts, reflect_parts]
      simp only [mirrorSeg, mirror, if_true, Bool.false_eq_true, if_false, m_sub, m_mul_left, m_mul_right, m_neg_neg, refl_neg]
    have hy : ∀ (s : LineSeg (Fl r)) p, (mirrorSeg false true s).reflect (mirror false true p) = mirror false true (s.reflect p) := by
      intro s p
      rw [reflect_parts, reflect_parts]
      simp only [mirrorSeg, mirror, if_true, Bool.false_eq_true, if_false, m_sub, m_mul_left, m_mul_right, m_neg_neg, refl_neg]
    cases fx <;> cases fy
    · rfl
    · exact hy s p
    · exact hx s p
    · change (mirrorSeg true false (mirrorSeg false true s)).reflect (mirror true false (mirror false true p)) =
        mirror true false (mirror false true (s.reflect p))
      rw [hx, hy]

/-! ## Segment intersection -/

/-- The mirror image of the state of a segment intersector. -/
def mirrorLI {α : Type} [Flt α] (fx fy : Bool) (s : LI α) : LI α :=
  ⟨s.result, mirror fx fy s.in00, mirror fx fy s.in01, mirror fx fy s.in10, mirror fx fy s.in11, mirror fx fy s.pt0,
    mirror fx fy s.pt1, s.isProper, s.pm⟩

theorem mirror_z3 (fx fy : Bool) (p p1 p2 : Coord (Fl r)) :
    LI.zInterpolate3 (mirror fx fy p) (mirror fx fy p1) (mirror fx fy p2) = LI.zInterpolate3 p p1 p2 := by
  simp only [LI.zInterpolate3, mirror_equals]
  cases fx <;> cases fy
  · rfl
  all_goals simp only [mirror, if_true, Bool.false_eq_true, if_false, m_sub, m_mul_left, m_mul_right, m_neg_neg]

theorem mirror_zor (fx fy : Bool) (p p1 p2 : Coord (Fl r)) :
    LI.getZOrInterpolate (mirror fx fy p) (mirror fx fy p1) (mirror fx fy p2) = LI.getZOrInterpolate p p1 p2 := by
  simp only [LI.getZOrInterpolate, mirror_z3]
  rfl

theorem mirror_z5 (fx fy : Bool) (p p1 p2 q1 q2 : Coord (Fl r)) :
    LI.zInterpolate5 (mirror fx fy p) (mirror fx fy p1) (mirror fx fy p2) (mirror fx fy q1) (mirror fx fy q2) =
      LI.zInterpolate5 p p1 p2 q1 q2 := by
  simp only [LI.zInterpolate5, mirror_z3]

omit hr in
theorem mirror_copyZ (fx fy : Bool) (p : Coord (Fl r)) (z : Fl r) :
    LI.copyWithZ (mirror fx fy p) z = mirror fx fy (LI.copyWithZ p z) := by
  unfold LI.copyWithZ
  split <;> rfl

theorem mirror_copyZI (fx fy : Bool) (p p1 p2 : Coord (Fl r)) :
    LI.copyWithZInterpolate (mirror fx fy p) (mirror fx fy p1) (mirror fx fy p2) = mirror fx fy (LI.copyWithZInterpolate p p1 p2) := by
  simp only [LI.copyWithZInterpolate, mirror_zor, mirror_copyZ]

theorem mirror_nearest (fx fy : Bool) (p1 p2 q1 q2 : Coord (Fl r)) :
    LI.nearestEndpoint (mirror fx fy p1) (mirror fx fy p2) (mirror fx fy q1) (mirror fx fy q2) =
      mirror fx fy (LI.nearestEndpoint p1 p2 q1 q2) := by
  simp only [LI.nearestEndpoint, mirror_pointToSegment]
  generalize Distance.pointToSegment p1 q1 q2 = a
  generalize Distance.pointToSegment p2 q1 q2 = b
  generalize Distance.pointToSegment q1 p1 p2 = c
  generalize Distance.pointToSegment q2 p1 p2 = d
  have h : ∀ (t : Bool) (u v : Coord (Fl r) × Fl r), (if t then u else v) = bif t then u else v := by intro t; cases t <;> simp
  cases hb : (b <. a) <;> simp only [if_true, Bool.false_eq_true, if_false] <;>
    split <;> simp only [] <;> split <;> rfl

theorem mirror_safe (fx fy : Bool) (p1 p2 q1 q2 : Coord (Fl r)) :
    LI.intersectionSafe (mirror fx fy p1) (mirror fx fy p2) (mirror fx fy q1) (mirror fx fy q2) =
      mirror fx fy (LI.intersectionSafe p1 p2 q1 q2) := by
  simp only [LI.intersectionSafe, Intersection.intersection, mirror_crossing, mirror_nearest]
  cases CGDD.intersection p1 p2 q1 q2 <;> rfl

omit hr in
theorem mirror_inEnv (fx fy : Bool) (s : LI (Fl r)) (p : Coord (Fl r)) :
    (mirrorLI fx fy s).isInSegmentEnvelopes (mirror fx fy p) = s.isInSegmentEnvelopes p := by
  simp only [LI.isInSegmentEnvelopes, mirrorLI, (C137_boxes fx fy _ _ _ p).1]

theorem mirror_point (fx fy : Bool) (s : LI (Fl r)) (hs : s.pm = none) (p1 p2 q1 q2 : Coord (Fl r)) :
    (mirrorLI fx fy s).intersection (mirror fx fy p1) (mirror fx fy p2) (mirror fx fy q1) (mirror fx fy q2) =
      mirror fx fy (s.intersection p1 p2 q1 q2) := by
  simp only [LI.intersection, mirror_safe, mirror_inEnv, mirror_nearest, hs, show (mirrorLI fx fy s).pm = none from hs]
  split <;> rfl

theorem mirror_collinear (fx fy : Bool) (s : LI (Fl r)) (p1 p2 q1 q2 : Coord (Fl r)) :
    (mirrorLI fx fy s).computeCollinear (mirror fx fy p1) (mirror fx fy p2) (mirror fx fy q1) (mirror fx fy q2) =
      ((s.computeCollinear p1 p2 q1 q2).1, mirrorLI fx fy (s.computeCollinear p1 p2 q1 q2).2) := by
  simp only [LI.computeCollinear, mirror_intersects3, mirror_equals, mirror_copyZI]
  split_ifs <;> rfl

theorem mirror_touch (fx fy : Bool) (a b c d : Int) (p1 p2 q1 q2 : Coord (Fl r)) :
    LI.touchPoint a b c d (mirror fx fy p1) (mirror fx fy p2) (mirror fx fy q1) (mirror fx fy q2) =
      (mirror fx fy (LI.touchPoint a b c d p1 p2 q1 q2).1, (LI.touchPoint a b c d p1 p2 q1 q2).2) := by
  simp only [LI.touchPoint, mirror_equals, mirror_zor]
  split_ifs <;> first | rfl | simp only [mirror_default]

/-- The intersector: same code, same flag, mirrored points. -/
theorem C137_intersector (fx fy : Bool) (s : LI (Fl r)) (hs : s.pm = none) (p1 p2 q1 q2 : Coord (Fl r)) :
    (mirrorLI fx fy s).compute4 (mirror fx fy p1) (mirror fx fy p2) (mirror fx fy q1) (mirror fx fy q2) =
      mirrorLI fx fy (s.compute4 p1 p2 q1 q2) := by
  have hI : ∀ (s : LI (Fl r)), s.pm = none →
      (mirrorLI fx fy s).computeIntersect (mirror fx fy p1) (mirror fx fy p2) (mirror fx fy q1) (mirror fx fy q2) =
        ((s.computeIntersect p1 p2 q1 q2).1, mirrorLI fx fy (s.computeIntersect p1 p2 q1 q2).2) := by
    intro s hs
    rcases s with ⟨res, a, b, c, d, e, f, pr, pm⟩
    obtain rfl : pm = none := hs
    have hp := mirror_point fx fy ⟨res, a, b, c, d, e, f, true, none⟩ rfl p1 p2 q1 q2
    have hc := mirror_collinear fx fy ⟨res, a, b, c, d, e, f, false, none⟩ p1 p2 q1 q2
    simp only [mirrorLI] at hp hc
    simp only [LI.computeIntersect, mirror_intersects4, C137_orientation, mirrorLI, hp, hc, mirror_touch, mirror_z5, mirror_copyZ]
    generalize Orientation.index p1 p2 q1 = o1
    generalize Orientation.index p1 p2 q2 = o2
    generalize Orientation.index q1 q2 p1 = o3
    generalize Orientation.index q1 q2 p2 = o4
    have ht : LI.touchPoint (-o1) (-o2) (-o3) (-o4) p1 p2 q1 q2 = LI.touchPoint o1 o2 o3 o4 p1 p2 q1 q2 := by
      simp only [LI.touchPoint, neg_eq_zero]
    cases turns fx fy
    all_goals
      simp only [if_true, Bool.false_eq_true, if_false, neg_eq_zero, Left.neg_pos_iff, Left.neg_neg_iff, gt_iff_lt, ht]
      split_ifs <;> first | rfl | omega
  have h := hI ⟨s.result, p1, p2, q1, q2, s.pt0, s.pt1, s.isProper, s.pm⟩ hs
  simp only [LI.compute4]
  have e1 : ∀ p : Coord (Fl r), p.fromCoordinate = p := fun _ => rfl
  simp only [e1]
  simp only [mirrorLI] at h ⊢
  rw [h]

/-! ## Areas and lengths -/

omit hr in
theorem map_get (fx fy : Bool) (l : List (Coord (Fl r))) (i : Nat) :
    Res.get (l.map (mirror fx fy)) i = (Res.get l i).map (mirror fx fy) := by
  unfold Res.get
  rw [List.getElem?_map]
  cases l[i]? <;> rfl

/-- Two loops whose rounds correspond. -/
theorem forRange_map {σ : Type} (m : σ → σ) (f f' : Nat → σ → Res σ) (h : ∀ i s, f' i (m s) = (f i s).map m) (lo hi : Nat) (s : σ) :
    forRange lo hi (m s) f' = (forRange lo hi s f).map m := by
  unfold forRange
  induction List.range' lo (hi - lo) generalizing s with
  | nil => rfl
  | cons i l ih =>
    simp only [List.foldlM_cons, h]
    cases f i s with
    | error e => rfl
    | ok s' => exact ih s'

/-- A loop that leaves with the first hit, over corresponding rounds. -/
theorem forFind_same {β : Type} (f f' : Nat → Res (Option β)) (h : ∀ i, f' i = f i) (lo hi : Nat) : forFind lo hi f' = forFind lo hi f := by
  rw [funext h]

/-- Rings and lines of any length: areas, lengths, distances and the test whether a point is on the line. -/
theorem C137_strings (fx fy : Bool) (p : Coord (Fl r)) (l : List (Coord (Fl r))) :
    Area.ofRingSigned (l.map (mirror fx fy)) = (Area.ofRingSigned l).map (fun a => if turns fx fy then -.a else a) ∧
      Area.ofRing (l.map (mirror fx fy)) = Area.ofRing l ∧
      Distance.pointToSegmentString (mirror fx fy p) (l.map (mirror fx fy)) = Distance.pointToSegmentString p l ∧
      PointLocation.isOnLine (mirror fx fy p) (l.map (mirror fx fy)) = PointLocation.isOnLine p l := by
  have hsig : Area.ofRingSigned (l.map (mirror fx fy)) = (Area.ofRingSigned l).map (fun a => if turns fx fy then -.a else a) := by
    unfold Area.ofRingSigned
    rw [List.length_map]
    by_cases hl : l.length < 3
    · rw [if_pos hl, if_pos hl]
      cases turns fx fy
      · rfl
      · change Except.ok _ = Except.ok _
        simp only [if_true, m_zero]
    · rw [if_neg hl, if_neg hl, map_get]
      cases Res.get l 0 with
      | error e => rfl
      | ok c0 =>
        change (forRange 1 (l.length - 1) _ _ >>= _) = Except.map _ (forRange 1 (l.length - 1) _ _ >>= _)
        have h0 : (lit 0 : Fl r) = (fun a => if turns fx fy then -.a else a) (lit 0) := by
          cases turns fx fy <;> simp [m_zero]
        rw [h0, forRange_map (fun a : Fl r => if turns fx fy then -.a else a)
          (fun i sum => do
            let ci ← Res.get l i
            let cn ← Res.get l (i + 1)
            let cp ← Res.get l (i - 1)
            pure (sum +. (ci.x -. c0.x) *. (cp.y -. cn.y))), ← h0]
        · cases forRange 1 (l.length - 1) (lit 0 : Fl r) (fun i sum => do
            let ci ← Res.get l i
            let cn ← Res.get l (i + 1)
            let cp ← Res.get l (i - 1)
            pure (sum +. (ci.x -. c0.x) *. (cp.y -. cn.y))) with
          | error e => rfl
          | ok v =>
            change Except.ok _ = Except.ok _
            cases turns fx fy
            · rfl
            · simp only [if_true, m_div_left]
        · intro i v
          simp only [map_get]
          cases Res.get l i with
          | error e => rfl
          | ok ci =>
            cases Res.get l (i + 1) with
            | error e => rfl
            | ok cn =>
              cases Res.get l (i - 1) with
              | error e => rfl
              | ok cp =>
                change Except.ok _ = Except.ok _
                cases fx <;> cases fy
                · rfl
                all_goals
                  simp only [mirror, turns, if_true, Bool.false_eq_true, if_false, m_sub, m_mul_left, m_mul_right, m_neg_neg,
                    show (true != false) = true from rfl, show (false != true) = true from rfl,
                    show (true != true) = false from rfl, m_add]
  refine ⟨hsig, ?_, ?_, ?_⟩
  · unfold Area.ofRing
    rw [hsig]
    cases Area.ofRingSigned l with
    | error e => rfl
    | ok v =>
      change Except.ok _ = Except.ok _
      cases turns fx fy
      · rfl
      · simp only [if_true, m_abs]
  · unfold Distance.pointToSegmentString
    rw [List.length_map, map_get]
    split
    · rfl
    · cases Res.get l 0 with
      | error e => rfl
      | ok c0 =>
        change forRange 0 _ ((mirror fx fy p).distance (mirror fx fy c0)) _ = forRange 0 _ _ _
        rw [mirror_dist]
        congr 1
        funext i v
        simp only [map_get]
        cases Res.get l i with
        | error e => rfl
        | ok a =>
          cases Res.get l (i + 1) with
          | error e => rfl
          | ok b =>
            change Except.ok (if Distance.pointToSegment (mirror fx fy p) (mirror fx fy a) (mirror fx fy b) <. v then
              Distance.pointToSegment (mirror fx fy p) (mirror fx fy a) (mirror fx fy b) else v) = _
            rw [mirror_pointToSegment]
            rfl
  · unfold PointLocation.isOnLine
    rw [List.length_map]
    congr 1
    apply forFind_same
    intro i
    simp only [map_get]
    cases Res.get l (i - 1) with
    | error e => rfl
    | ok a =>
      cases Res.get l i with
      | error e => rfl
      | ok b =>
        have h : PointLocation.isOnSegment (mirror fx fy p) (mirror fx fy a) (mirror fx fy b) = PointLocation.isOnSegment p a b := by
          unfold PointLocation.isOnSegment
          rw [mirror_intersects3, mirror_equals, C137_orientation]
          cases turns fx fy
          · rfl
          · by_cases h0 : Orientation.index a b p = 0 <;>
              simp [h0, Orientation.COLLINEAR, eq_comm (a := (0 : Int))]
        change (if PointLocation.isOnSegment (mirror fx fy p) (mirror fx fy a) (mirror fx fy b) then _ else _) = _
        rw [h]
        rfl

/-- The oriented distance changes its sign with the side the point is on. -/
theorem C137_oriented_distance (fx fy : Bool) (s : LineSeg (Fl r)) (p : Coord (Fl r)) :
    (mirrorSeg fx fy s).orientation (mirror fx fy p) = (if turns fx fy then -s.orientation p else s.orientation p) ∧
      (mirrorSeg fx fy s).distancePerpendicular (mirror fx fy p) = s.distancePerpendicular p ∧
      (s.p0.equals2D s.p1 = false → s.orientation p ≠ 0 →
        (mirrorSeg fx fy s).distancePerpendicularOriented (mirror fx fy p) =
          if turns fx fy then -.s.distancePerpendicularOriented p else s.distancePerpendicularOriented p) := by
  have h1 : (mirrorSeg fx fy s).orientation (mirror fx fy p) = (if turns fx fy then -s.orientation p else s.orientation p) :=
    C137_orientation fx fy s.p0 s.p1 p
  have h2 : (mirrorSeg fx fy s).distancePerpendicular (mirror fx fy p) = s.distancePerpendicular p := by
    simp only [LineSeg.distancePerpendicular, mirrorSeg, mirror_equals, mirror_dist, mirror_perp]
  refine ⟨h1, h2, ?_⟩
  intro h3 h4
  have h5 : (mirrorSeg fx fy s).p0.equals2D (mirrorSeg fx fy s).p1 = false := by
    simpa only [mirrorSeg, mirror_equals] using h3
  simp only [LineSeg.distancePerpendicularOriented, h3, h5, h1, h2, Bool.false_eq_true, if_false]
  cases turns fx fy
  · rfl
  · simp only [if_true]
    rcases lt_or_gt_of_ne h4 with h | h
    · rw [if_neg (by omega), if_pos h, m_neg_neg]
    · rw [if_pos (by omega), if_neg (by omega)]

end mirror

/-! ## Binary64 -/

/-- An even hypotenuse for the examples. -/
abbrev Even64 : Rounding := binary64 Val.fin (fun a b => Val.fin (|a| + |b|))

instance : Rounding.Even Even64 := even64 _ _ (fun a b => by simp) (fun a b => by simp)

private def pt (x y : ℚ) : Coord (Fl Even64) := Coord.xy (lit x) (lit y)

/-- Decimal fractions, which binary64 rounds: the side is found from rounded differences, and it is the other one in the mirror. -/
example : Orientation.index (pt (1/10) (2/10)) (pt (7/10) (5/10)) (pt (3/10) (31/100)) = 1 ∧
    Orientation.index (mirror true false (pt (1/10) (2/10))) (mirror true false (pt (7/10) (5/10))) (mirror true false (pt (3/10) (31/100))) = -1 := by
  decide +kernel

example : Orientation.index (mirror true false (pt (1/10) (2/10))) (mirror true false (pt (7/10) (5/10))) (mirror true false (pt (3/10) (31/100))) =
    if turns true false then -Orientation.index (pt (1/10) (2/10)) (pt (7/10) (5/10)) (pt (3/10) (31/100)) else
      Orientation.index (pt (1/10) (2/10)) (pt (7/10) (5/10)) (pt (3/10) (31/100)) := C137_orientation _ _ _ _ _

/-- Two segments that cross at a point binary64 can only approximate: the approximations are mirror images. -/
example : ((LI.default.compute4 (pt (1/10) (1/10)) (pt (8/10) (9/10)) (pt (1/10) (7/10)) (pt (9/10) (2/10))).isProper = true ∧
      (LI.default.compute4 (pt (1/10) (1/10)) (pt (8/10) (9/10)) (pt (1/10) (7/10)) (pt (9/10) (2/10))).pt0.x ≠
        (lit (5/10) : Fl Even64)) ∧
    ((mirrorLI false true LI.default).compute4 (mirror false true (pt (1/10) (1/10))) (mirror false true (pt (8/10) (9/10)))
        (mirror false true (pt (1/10) (7/10))) (mirror false true (pt (9/10) (2/10)))).pt0 =
      mirror false true (LI.default.compute4 (pt (1/10) (1/10)) (pt (8/10) (9/10)) (pt (1/10) (7/10)) (pt (9/10) (2/10))).pt0 := by
  refine ⟨by decide +kernel, ?_⟩
  rw [C137_intersector false true LI.default rfl]
  rfl

/-- A new intersector is its own mirror image. -/
example : mirrorLI true true (LI.default : LI (Fl Even64)) = LI.default := by
  simp only [mirrorLI, LI.default, mirror_default]

example : Intersection.intersection (pt (1/10) (1/10)) (pt (8/10) (9/10)) (pt (1/10) (7/10)) (pt (9/10) (2/10)) ≠ none := by decide +kernel

/-- A triangle with a rounded area. -/
example : Area.ofRingSigned [pt 0 0, pt (7/10) (1/10), pt (3/10) (9/10), pt 0 0] = .ok (-.(lit (3/10) : Fl Even64)) ∧
    Area.ofRingSigned ([pt 0 0, pt (7/10) (1/10), pt (3/10) (9/10), pt 0 0].map (mirror true false)) = .ok (lit (3/10) : Fl Even64) := by
  decide +kernel

example : (LineSeg.mk (pt 0 0) (pt (7/10) (1/10))).p0.equals2D (LineSeg.mk (pt 0 0) (pt (7/10) (1/10))).p1 = false ∧
    (LineSeg.mk (pt 0 0) (pt (7/10) (1/10))).orientation (pt (3/10) (9/10)) ≠ 0 := by
  decide +kernel

end Verif.Props
