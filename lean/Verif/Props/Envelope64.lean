import Verif.Props.Angle64
import Verif.Props.Envelope
import Verif.Model.LineSegment

set_option linter.unusedSectionVars false

/-! # C84: boxes and midpoints in binary64

All statements are about finite binary64 sides; results may overflow. `hypot` is a parameter. -/

namespace Verif.Props
open Flt Verif.Spec Verif.Binary64

variable {sq : ℚ → Val} {hy : ℚ → ℚ → Val}

local notation "R" => (Fl.round (r := binary64 sq hy))

/-- A box with finite binary64 sides in order. -/
structure Box64 (a b c d : ℚ) : Prop where
  fa : IsF64 a
  fb : IsF64 b
  fc : IsF64 c
  fd : IsF64 d
  hx : a ≤ b
  hy : c ≤ d

/-- The envelope with these sides. -/
def box64 (sq : ℚ → Val) (hy : ℚ → ℚ → Val) (a b c d : ℚ) : Env (B64 sq hy) := ⟨Fl.fin a, Fl.fin b, Fl.fin c, Fl.fin d⟩

theorem fin_lt (a b : ℚ) : ((Fl.fin a : B64 sq hy) <. Fl.fin b) = decide (a < b) := rfl
theorem fin_le (a b : ℚ) : ((Fl.fin a : B64 sq hy) ≤. Fl.fin b) = decide (a ≤ b) := rfl

/-- Rounding keeps the order, with or without overflow. -/
theorem rnd_le {a b : ℚ} (h : a ≤ b) : ((R a) ≤. (R b)) = true := by
  have hm := near_mono h
  have h2 : (0 : ℚ) < 2 ^ 1024 := by positivity
  unfold Fl.round binary64 rnd
  simp only []
  generalize (2 : ℚ) ^ 1024 = M at *
  split_ifs <;> first | rfl | (exfalso; linarith) | exact decide_eq_true hm

theorem le_not_lt {x y : B64 sq hy} (h : (x ≤. y) = true) : (y <. x) = false := by
  cases x <;> cases y <;> first | rfl | exact absurd h Bool.false_ne_true | skip
  exact decide_eq_false (not_lt.mpr (of_decide_eq_true h))

theorem le_eq {x y : B64 sq hy} (h : (x ≤. y) = true) (h' : ¬ (x <. y) = true) : x = y := by
  cases x <;> cases y <;> first | rfl | exact absurd h Bool.false_ne_true | exact absurd rfl h' | skip
  exact congrArg Fl.fin (le_antisymm (of_decide_eq_true h) (not_lt.mp fun hh => h' (decide_eq_true hh)))

theorem rnd_not_lt {a b : ℚ} (h : a ≤ b) : ((R b) <. (R a)) = false := le_not_lt (rnd_le h)

theorem fin_rnd {a : ℚ} (h : IsF64 a) : (Fl.fin a : B64 sq hy) = R a := (rnd_of_f64 h).symm

theorem box64_notNull {a b c d : ℚ} (h : Box64 a b c d) : (box64 sq hy a b c d).isNull = false :=
  decide_eq_false (not_lt.mpr h.hx)

theorem add_rnd (a b : ℚ) : (Fl.fin a : B64 sq hy) +. Fl.fin b = R (a + b) := rfl
theorem sub_rnd (a b : ℚ) : (Fl.fin a : B64 sq hy) -. Fl.fin b = R (a - b) := by
  rw [sub_eq_add_neg]; rfl

/-- The difference of two binary64 numbers is rounded to zero only if they are equal. -/
theorem near_sub_zero {a b : ℚ} (ha : Rep a) (hb : Rep b) : near (b - a) = 0 ↔ a = b := by
  constructor
  · intro h
    have := near_add_rel hb ha.neg
    rw [← sub_eq_add_neg, h, sub_zero] at this
    have h0 : |b - a| ≤ 0 := by
      have : |b - a| * (1 - 1 / 2 ^ 53) ≤ 0 := by linarith
      have h2 : (0 : ℚ) < 1 - 1 / 2 ^ 53 := by norm_num
      by_contra hc
      push Not at hc
      have := mul_pos hc h2
      linarith
    have := abs_nonpos_iff.mp h0
    linarith
  · rintro rfl; rw [sub_self, near_zero]

theorem rnd_zero_iff (q : ℚ) : ((R q) ==. lit 0) = true ↔ near q = 0 := by
  rw [lit64]
  have h2 : (0 : ℚ) < 2 ^ 1024 := by positivity
  unfold Fl.round binary64 rnd
  simp only []
  generalize (2 : ℚ) ^ 1024 = M at *
  split_ifs with h h'
  · exact ⟨fun hh => absurd hh Bool.false_ne_true, fun hh => absurd hh (by linarith)⟩
  · exact ⟨fun hh => absurd hh Bool.false_ne_true, fun hh => absurd hh (by linarith)⟩
  · exact decide_eq_true_iff

/-- A side length is never negative and never NaN, it is zero exactly if the two sides coincide, and it is the exact
length up to one part in 2^53 unless it overflows. -/
theorem C84_sides (a b c d : ℚ) (h : Box64 a b c d) :
    (lit 0 ≤. (box64 sq hy a b c d).width) = true ∧ (lit 0 ≤. (box64 sq hy a b c d).height) = true ∧
    (((box64 sq hy a b c d).width ==. lit 0) = true ↔ a = b) ∧ (((box64 sq hy a b c d).height ==. lit 0) = true ↔ c = d) ∧
    (∀ w, (box64 sq hy a b c d).width = Fl.fin w → |b - a - w| ≤ (b - a) / 2 ^ 53) ∧
    (∀ w, (box64 sq hy a b c d).height = Fl.fin w → |d - c - w| ≤ (d - c) / 2 ^ 53) := by
  have hw : (box64 sq hy a b c d).width = R (b - a) := by
    unfold Env.width; rw [box64_notNull h]; exact sub_rnd b a
  have hh : (box64 sq hy a b c d).height = R (d - c) := by
    unfold Env.height; rw [box64_notNull h]; exact sub_rnd d c
  have hx := h.hx
  have hy' := h.hy
  have hz : (lit 0 : B64 sq hy) = R 0 := rfl
  have err : ∀ a b w : ℚ, Rep a → Rep b → a ≤ b → (R (b - a)) = Fl.fin w → |b - a - w| ≤ (b - a) / 2 ^ 53 := by
    intro a b w ha hb hab e
    obtain ⟨e1, _⟩ := (rnd_fin_iff _ _).mp e
    have := near_add_rel hb ha.neg
    rw [← sub_eq_add_neg, e1, abs_of_nonneg (by linarith : 0 ≤ b - a)] at this
    exact this
  rw [hw, hh]
  refine ⟨?_, ?_, ?_, ?_, fun w => err a b w h.fa.1 h.fb.1 hx, fun w => err c d w h.fc.1 h.fd.1 hy'⟩
  · rw [hz]; exact rnd_le (by linarith)
  · rw [hz]; exact rnd_le (by linarith)
  · rw [rnd_zero_iff, near_sub_zero h.fa.1 h.fb.1]
  · rw [rnd_zero_iff, near_sub_zero h.fc.1 h.fd.1]

/-- The rounded midpoint of two numbers lies between them unless their sum overflows. -/
theorem mid_between {a b v : ℚ} (ha : IsF64 a) (hb : IsF64 b) (hab : a ≤ b) (hs : rnd (a + b) = .fin v) :
    ∃ m, rnd (v / 2) = .fin m ∧ a ≤ m ∧ m ≤ b ∧ IsF64 m := by
  obtain ⟨hv, _⟩ := (rnd_fin_iff _ _).mp hs
  have two : ∀ x, Rep x → Rep (2 * x) := by
    rintro x ⟨m, e, h1, h2, rfl⟩
    exact ⟨m, e + 1, h1, by omega, by rw [two_add]; ring⟩
  have l1 : 2 * a ≤ v := by
    rw [← hv, ← near_of_rep (two a ha.1)]; exact near_mono (by linarith)
  have l2 : v ≤ 2 * b := by
    rw [← hv, ← near_of_rep (two b hb.1)]; exact near_mono (by linarith)
  have m1 : a ≤ near (v / 2) := by
    have := near_mono (show a ≤ v / 2 by linarith); rwa [near_of_rep ha.1] at this
  have m2 : near (v / 2) ≤ b := by
    have := near_mono (show v / 2 ≤ b by linarith); rwa [near_of_rep hb.1] at this
  have hf : rnd (v / 2) = .fin (near (v / 2)) := by
    rw [rnd_fin_iff]
    refine ⟨rfl, ?_⟩
    have h1 := abs_lt.mp ha.2
    have h2 := abs_lt.mp hb.2
    generalize (2 : ℚ) ^ 1024 = M at *
    rw [abs_lt]
    exact ⟨by linarith, by linarith⟩
  exact ⟨_, hf, m1, m2, rnd_f64 hf⟩

theorem lit64_two' : (lit 2 : B64 sq hy) = Fl.fin 2 := rnd_of_f64 ⟨⟨2, 0, by norm_num, by norm_num, by norm_num⟩, lt_2_1024 (by norm_num [abs_of_pos])⟩

theorem div_two (v : ℚ) : (Fl.fin v : B64 sq hy) /. lit 2 = R (v / 2) := by
  rw [lit64_two']; rfl

/-- The centre of a box is covered by it unless a sum of opposite sides overflows. -/
theorem C84_centre (a b c d : ℚ) (h : Box64 a b c d)
    (h1 : isFinite ((Fl.fin a : B64 sq hy) +. Fl.fin b) = true) (h2 : isFinite ((Fl.fin c : B64 sq hy) +. Fl.fin d) = true) :
    ∃ x y, (box64 sq hy a b c d).centre = some (Coord.xy (Fl.fin x) (Fl.fin y)) ∧ a ≤ x ∧ x ≤ b ∧ c ≤ y ∧ y ≤ d ∧
      (box64 sq hy a b c d).coversXY (Fl.fin x) (Fl.fin y) = true := by
  obtain ⟨v, hv⟩ := finite_fin h1
  obtain ⟨w, hw⟩ := finite_fin h2
  obtain ⟨x, x1, x2, x3, x4⟩ := mid_between h.fa h.fb h.hx hv
  obtain ⟨y, y1, y2, y3, y4⟩ := mid_between h.fc h.fd h.hy hw
  refine ⟨x, y, ?_, x2, x3, y2, y3, ?_⟩
  · unfold Env.centre
    rw [box64_notNull h]
    show some (Coord.xy (((Fl.fin a : B64 sq hy) +. Fl.fin b) /. lit 2) (((Fl.fin c : B64 sq hy) +. Fl.fin d) /. lit 2)) = _
    rw [hv, hw, div_two, div_two, show R (v / 2) = Fl.fin x from x1, show R (w / 2) = Fl.fin y from y1]
  · unfold Env.coversXY
    rw [box64_notNull h]
    show (decide (a ≤ x) && decide (x ≤ b) && decide (c ≤ y) && decide (y ≤ d)) = true
    simp [x2, x3, y2, y3]

/-- The midpoint of a segment lies in the box of its ends unless a sum of coordinates overflows. -/
theorem C84_midpoint (p q : Coord (B64 sq hy)) (a b c d : ℚ) (ha : IsF64 a) (hb : IsF64 b) (hc : IsF64 c) (hd : IsF64 d)
    (hp : p.x = Fl.fin a ∧ p.y = Fl.fin c) (hq : q.x = Fl.fin b ∧ q.y = Fl.fin d)
    (h1 : isFinite (p.x +. q.x) = true) (h2 : isFinite (p.y +. q.y) = true) :
    ∃ x y, LineSeg.midPointOf p q = Coord.xy (Fl.fin x) (Fl.fin y) ∧ min a b ≤ x ∧ x ≤ max a b ∧ min c d ≤ y ∧ y ≤ max c d ∧
      Env.intersects3 p q (LineSeg.midPointOf p q) = true := by
  obtain ⟨v, hv⟩ := finite_fin h1
  obtain ⟨w, hw⟩ := finite_fin h2
  have key : ∀ a b v : ℚ, IsF64 a → IsF64 b → (Fl.fin a : B64 sq hy) +. Fl.fin b = Fl.fin v →
      ∃ m, rnd (v / 2) = .fin m ∧ min a b ≤ m ∧ m ≤ max a b := by
    intro a b v ha hb hv
    rcases le_total a b with hab | hab
    · obtain ⟨m, m1, m2, m3, _⟩ := mid_between ha hb hab hv
      exact ⟨m, m1, by rwa [min_eq_left hab], by rwa [max_eq_right hab]⟩
    · have hv' : rnd (b + a) = .fin v := by rw [add_comm]; exact hv
      obtain ⟨m, m1, m2, m3, _⟩ := mid_between hb ha hab hv'
      exact ⟨m, m1, by rwa [min_eq_right hab], by rwa [max_eq_left hab]⟩
  have hv' := hv
  have hw' := hw
  rw [hp.1, hq.1] at hv'
  rw [hp.2, hq.2] at hw'
  obtain ⟨x, x1, x2, x3⟩ := key a b v ha hb hv'
  obtain ⟨y, y1, y2, y3⟩ := key c d w hc hd hw'
  have hm : LineSeg.midPointOf p q = Coord.xy (Fl.fin x) (Fl.fin y) := by
    unfold LineSeg.midPointOf
    rw [hv, hw, div_two, div_two, show R (v / 2) = Fl.fin x from x1, show R (w / 2) = Fl.fin y from y1]
  refine ⟨x, y, hm, x2, x3, y2, y3, ?_⟩
  rw [hm]
  unfold Env.intersects3
  simp only [hp.1, hp.2, hq.1, hq.2, Coord.xy]
  have lo : ∀ a b : ℚ, (if (Fl.fin a : B64 sq hy) <. Fl.fin b then (Fl.fin a : B64 sq hy) else Fl.fin b) = Fl.fin (min a b) := by
    intro a b
    simp only [fin_lt, decide_eq_true_eq]
    split_ifs with h
    · rw [min_eq_left h.le]
    · rw [min_eq_right (not_lt.mp h)]
  have hi : ∀ a b : ℚ, (if (Fl.fin a : B64 sq hy) >. Fl.fin b then (Fl.fin a : B64 sq hy) else Fl.fin b) = Fl.fin (max a b) := by
    intro a b
    simp only [fin_lt, decide_eq_true_eq]
    split_ifs with h
    · rw [max_eq_left h.le]
    · rw [max_eq_right (not_lt.mp h)]
  simp only [lo, hi, fin_le]
  simp [x2, x3, y2, y3]

/-- Growing by a non-negative distance gives a non-null box that covers the original, and covers every binary64 point
whose exact distance in each axis from a covered point is at most the given one. -/
theorem C84_expandBy (a b c d t : ℚ) (h : Box64 a b c d) (ht : 0 ≤ t) :
    ((box64 sq hy a b c d).expandBy (Fl.fin t)).covers (box64 sq hy a b c d) = true ∧
    ∀ x y : ℚ, IsF64 x → IsF64 y → a - t ≤ x → x ≤ b + t → c - t ≤ y → y ≤ d + t →
      ((box64 sq hy a b c d).expandBy (Fl.fin t)).coversXY (Fl.fin x) (Fl.fin y) = true := by
  have hx := h.hx
  have hy' := h.hy
  have e : (box64 sq hy a b c d).expandBy (Fl.fin t) = ⟨R (a - t), R (b + t), R (c - t), R (d + t)⟩ := by
    unfold Env.expandBy
    rw [box64_notNull h]
    show (if (((R (b + t)) <. ((Fl.fin a : B64 sq hy) -. Fl.fin t)) || ((R (d + t)) <. ((Fl.fin c : B64 sq hy) -. Fl.fin t)))
      then (Env.null : Env (B64 sq hy)) else ⟨(Fl.fin a : B64 sq hy) -. Fl.fin t, R (b + t), (Fl.fin c : B64 sq hy) -. Fl.fin t, R (d + t)⟩) = _
    rw [sub_rnd, sub_rnd, rnd_not_lt (by linarith), rnd_not_lt (by linarith)]
    rfl
  have hn : (⟨R (a - t), R (b + t), R (c - t), R (d + t)⟩ : Env (B64 sq hy)).isNull = false := rnd_not_lt (by linarith)
  have pts : ∀ x y : ℚ, IsF64 x → IsF64 y → a - t ≤ x → x ≤ b + t → c - t ≤ y → y ≤ d + t →
      ((box64 sq hy a b c d).expandBy (Fl.fin t)).coversXY (Fl.fin x) (Fl.fin y) = true := by
    intro x y fx fy x1 x2 y1 y2
    rw [e]
    unfold Env.coversXY
    rw [hn, fin_rnd fx, fin_rnd fy]
    show (((R (a - t)) ≤. R x) && ((R x) ≤. R (b + t)) && ((R (c - t)) ≤. R y)
      && ((R y) ≤. R (d + t))) = true
    rw [rnd_le x1, rnd_le x2, rnd_le y1, rnd_le y2]; rfl
  refine ⟨?_, pts⟩
  rw [e]
  unfold Env.covers
  rw [hn, box64_notNull h]
  show (((R (a - t)) ≤. Fl.fin a) && ((Fl.fin b : B64 sq hy) ≤. R (b + t)) && ((R (c - t)) ≤. Fl.fin c)
      && ((Fl.fin d : B64 sq hy) ≤. R (d + t))) = true
  rw [fin_rnd h.fa, fin_rnd h.fb, fin_rnd h.fc, fin_rnd h.fd, rnd_le (by linarith), rnd_le (by linarith), rnd_le (by linarith), rnd_le (by linarith)]
  rfl

/-- A point of a box, moved by the same vector with the same rounding as the box, is in the moved box. -/
theorem C84_translate (a b c d tx ty x y : ℚ) (h : Box64 a b c d) (hx : a ≤ x ∧ x ≤ b) (hy' : c ≤ y ∧ y ≤ d) :
    ((box64 sq hy a b c d).translate (Fl.fin tx) (Fl.fin ty)).coversXY ((Fl.fin x : B64 sq hy) +. Fl.fin tx)
      ((Fl.fin y : B64 sq hy) +. Fl.fin ty) = true := by
  obtain ⟨x1, x2⟩ := hx
  obtain ⟨y1, y2⟩ := hy'
  have sw : ∀ p q : ℚ, p ≤ q → (if ((R p) <. R q) = true then ((R p), (R q)) else (R q, R p)) = (R p, R q) := by
    intro p q hpq
    split_ifs with hc
    · rfl
    · have hle := rnd_le (sq := sq) (hy := hy) hpq
      have : R p = R q := le_eq hle hc
      rw [this]
  have e : (box64 sq hy a b c d).translate (Fl.fin tx) (Fl.fin ty) = ⟨R (a + tx), R (b + tx), R (c + ty), R (d + ty)⟩ := by
    unfold Env.translate
    rw [box64_notNull h]
    show (⟨(if ((R (a + tx)) <. R (b + tx)) = true then ((R (a + tx)), (R (b + tx))) else (R (b + tx), R (a + tx))).1,
      (if ((R (a + tx)) <. R (b + tx)) = true then ((R (a + tx)), (R (b + tx))) else (R (b + tx), R (a + tx))).2,
      (if ((R (c + ty)) <. R (d + ty)) = true then ((R (c + ty)), (R (d + ty))) else (R (d + ty), R (c + ty))).1,
      (if ((R (c + ty)) <. R (d + ty)) = true then ((R (c + ty)), (R (d + ty))) else (R (d + ty), R (c + ty))).2⟩ : Env (B64 sq hy)) = _
    rw [sw _ _ (by linarith [h.hx]), sw _ _ (by linarith [h.hy])]
  rw [e]
  unfold Env.coversXY
  have hn : (⟨R (a + tx), R (b + tx), R (c + ty), R (d + ty)⟩ : Env (B64 sq hy)).isNull = false := rnd_not_lt (by linarith)
  rw [hn]
  show (((R (a + tx)) ≤. R (x + tx)) && ((R (x + tx)) ≤. R (b + tx)) && ((R (c + ty)) ≤. R (y + ty))
      && ((R (y + ty)) ≤. R (d + ty))) = true
  rw [rnd_le (by linarith), rnd_le (by linarith), rnd_le (by linarith), rnd_le (by linarith)]; rfl

/-- The distance of two boxes is zero exactly if they meet, whatever the rounding of the differences, as long as `hypot`
is not zero on positive arguments. -/
theorem C84_distance (hyp : ∀ u v : ℚ, IsF64 u → IsF64 v → 0 < u → 0 < v → hy u v ≠ .fin 0)
    (a b c d a' b' c' d' : ℚ) (h : Box64 a b c d) (h' : Box64 a' b' c' d') :
    (((box64 sq hy a b c d).distance (box64 sq hy a' b' c' d') ==. lit 0) = true ↔
      ∃ x y : ℚ, (a ≤ x ∧ x ≤ b ∧ c ≤ y ∧ y ≤ d) ∧ a' ≤ x ∧ x ≤ b' ∧ c' ≤ y ∧ y ≤ d') := by
  have hx := h.hx
  have hy1 := h.hy
  have hx' := h'.hx
  have hy1' := h'.hy
  have hz : ((lit 0 : B64 sq hy) ==. lit 0) = true := by rw [lit64]; rfl
  have hint : (box64 sq hy a b c d).intersects (box64 sq hy a' b' c' d') = true ↔ a' ≤ b ∧ a ≤ b' ∧ c' ≤ d ∧ c ≤ d' := by
    unfold Env.intersects
    rw [box64_notNull h, box64_notNull h']
    show (!(decide (b < a') || decide (b' < a) || decide (d < c') || decide (d' < c))) = true ↔ _
    simp [and_assoc]
  have hpt : (∃ x y : ℚ, (a ≤ x ∧ x ≤ b ∧ c ≤ y ∧ y ≤ d) ∧ a' ≤ x ∧ x ≤ b' ∧ c' ≤ y ∧ y ≤ d') ↔ a' ≤ b ∧ a ≤ b' ∧ c' ≤ d ∧ c ≤ d' := by
    constructor
    · rintro ⟨x, y, ⟨p1, p2, p3, p4⟩, q1, q2, q3, q4⟩
      exact ⟨by linarith, by linarith, by linarith, by linarith⟩
    · rintro ⟨p1, p2, p3, p4⟩
      exact ⟨max a a', max c c', ⟨le_max_left _ _, max_le hx p1, le_max_left _ _, max_le hy1 p3⟩, le_max_right _ _, max_le p2 hx', le_max_right _ _, max_le p4 hy1'⟩
  rw [hpt]
  unfold Env.distance
  by_cases hi : (box64 sq hy a b c d).intersects (box64 sq hy a' b' c' d') = true
  · rw [if_pos hi]
    exact ⟨fun _ => hint.mp hi, fun _ => hz⟩
  · rw [if_neg hi]
    rw [← hint]
    refine ⟨fun hd => ?_, fun hh => absurd hh hi⟩
    exfalso
    -- one gap
    have gap : ∀ a b a' b' : ℚ, IsF64 a → IsF64 b → IsF64 a' → IsF64 b' → 
        ∀ g : B64 sq hy, g = (if ((Fl.fin b : B64 sq hy) <. Fl.fin a') = true then (Fl.fin a' : B64 sq hy) -. Fl.fin b
          else if ((Fl.fin b' : B64 sq hy) <. Fl.fin a) = true then (Fl.fin a : B64 sq hy) -. Fl.fin b' else lit 0) →
        ((g ==. lit 0) = true → a' ≤ b ∧ a ≤ b') ∧ ((g ==. lit 0) = true ∨ g = Fl.pinf ∨ ∃ u : ℚ, g = Fl.fin u ∧ IsF64 u ∧ 0 < u) := by
      intro a b a' b' fa fb fa' fb' g hg
      have pos : ∀ p q : ℚ, IsF64 p → IsF64 q → p < q → g = (Fl.fin q : B64 sq hy) -. Fl.fin p →
          (¬ (g ==. lit 0) = true) ∧ (g = Fl.pinf ∨ ∃ u : ℚ, g = Fl.fin u ∧ IsF64 u ∧ 0 < u) := by
        intro p q fp fq hpq e
        rw [sub_rnd] at e
        have nz : near (q - p) ≠ 0 := fun hh => hpq.ne ((near_sub_zero fp.1 fq.1).mp hh)
        have np : 0 < near (q - p) := lt_of_le_of_ne (near_nonneg (by linarith)) (Ne.symm nz)
        refine ⟨fun hh => nz ((rnd_zero_iff (q - p)).mp (e ▸ hh)), ?_⟩
        cases hr : rnd (q - p) with
        | nan => exact absurd hr (rnd_not_nan _)
        | ninf =>
          exfalso
          have h2 : (0 : ℚ) < 2 ^ 1024 := by positivity
          unfold rnd at hr
          generalize (2 : ℚ) ^ 1024 = M at *
          split_ifs at hr with k1 k2
          linarith
        | pinf => left; rw [e]; exact hr
        | fin u =>
          right
          refine ⟨u, by rw [e]; exact hr, rnd_f64 hr, ?_⟩
          obtain ⟨e1, _⟩ := (rnd_fin_iff _ _).mp hr
          rw [← e1]; exact np
      simp only [fin_lt, decide_eq_true_eq] at hg
      split_ifs at hg with k1 k2
      · obtain ⟨z, w⟩ := pos b a' fb fa' k1 hg
        exact ⟨fun hh => absurd hh z, .inr w⟩
      · obtain ⟨z, w⟩ := pos b' a fb' fa k2 hg
        exact ⟨fun hh => absurd hh z, .inr w⟩
      · exact ⟨fun _ => ⟨not_lt.mp k1, not_lt.mp k2⟩, .inl (hg ▸ hz)⟩
    obtain ⟨gx1, gx2⟩ := gap a b a' b' h.fa h.fb h'.fa h'.fb ((box64 sq hy a b c d).gaps (box64 sq hy a' b' c' d')).1 rfl
    obtain ⟨gy1, gy2⟩ := gap c d c' d' h.fc h.fd h'.fc h'.fd ((box64 sq hy a b c d).gaps (box64 sq hy a' b' c' d')).2 rfl
    revert gx1 gx2 gy1 gy2
    revert hd
    generalize ((box64 sq hy a b c d).gaps (box64 sq hy a' b' c' d')) = g
    intro hd gx1 gx2 gy1 gy2
    revert hd
    show ((if (g.1 ==. lit 0) = true then g.2 else if (g.2 ==. lit 0) = true then g.1 else FltSqrt.hypot g.1 g.2) ==. lit 0) = true → False
    split_ifs with k1 k2
    · intro hd
      obtain ⟨p1, p2⟩ := gx1 k1
      obtain ⟨p3, p4⟩ := gy1 hd
      exact hi (hint.mpr ⟨p1, p2, p3, p4⟩)
    · intro hd; exact k1 hd
    · intro hd
      rcases gx2 with z | z | ⟨u, z, fu, pu⟩
      · exact k1 z
      · rw [z, lit64] at hd
        cases hg : g.2 <;> rw [hg] at hd <;> exact absurd hd Bool.false_ne_true
      · rcases gy2 with z' | z' | ⟨v, z', fv, pv⟩
        · exact k2 z'
        · rw [z, z', lit64] at hd; exact absurd hd Bool.false_ne_true
        · rw [z, z', lit64] at hd
          have hne := hyp u v fu fv pu pv
          have hd' : Fl.eq (hy u v : B64 sq hy) (Fl.fin 0) = true := hd
          cases hv : hy u v with
          | fin w =>
            rw [hv] at hd'
            exact hne (by rw [hv, of_decide_eq_true hd'])
          | nan => rw [hv] at hd'; exact absurd hd' Bool.false_ne_true
          | pinf => rw [hv] at hd'; exact absurd hd' Bool.false_ne_true
          | ninf => rw [hv] at hd'; exact absurd hd' Bool.false_ne_true

/-! ## What does not hold -/

/-- The largest binary64 number. -/
def max64 : ℚ := (2 ^ 53 - 1) * 2 ^ 971

theorem max64_f64 : IsF64 max64 := by
  refine ⟨⟨2 ^ 53 - 1, 971, by norm_num [abs_of_pos], by norm_num, by unfold max64; push_cast; rw [show ((971 : ℤ)) = ((971 : ℕ) : ℤ) from rfl, zpow_natCast]; congr 1; norm_num⟩, ?_⟩
  unfold max64
  rw [abs_of_pos (by positivity)]
  rw [show (1024 : ℕ) = 53 + 971 from rfl, pow_add]
  exact mul_lt_mul_of_pos_right (by norm_num) (by positivity)

/-- Without the condition on sums: the centre of the box that consists of the point (M, M), with M the largest number, is not in it; nor is the
midpoint of the segment from that point to itself in the box of its ends. -/
theorem C84_centre_overflow : Box64 max64 max64 max64 max64 ∧
    (box64 (fun _ => .nan) (fun _ _ => .nan) max64 max64 max64 max64).centre = some (Coord.xy Fl.pinf Fl.pinf) ∧
    (box64 (fun _ => .nan) (fun _ _ => .nan) max64 max64 max64 max64).coversXY Fl.pinf Fl.pinf = false ∧
    LineSeg.midPointOf (Coord.xy (Fl.fin max64) (Fl.fin 0) : Coord X64) (Coord.xy (Fl.fin max64) (Fl.fin 0)) = Coord.xy Fl.pinf (Fl.fin 0) :=
  ⟨⟨max64_f64, max64_f64, max64_f64, max64_f64, le_rfl, le_rfl⟩, by decide +kernel, by decide +kernel, by decide +kernel⟩

/-- The area of a box with distinct sides can be zero, and the area of a box with finite sides can be NaN. -/
theorem C84_area : Box64 0 (2 ^ (-600 : ℤ)) 0 (2 ^ (-600 : ℤ)) ∧ Box64 (-max64) max64 0 0 ∧
    (box64 (fun _ => .nan) (fun _ _ => .nan) 0 (2 ^ (-600 : ℤ)) 0 (2 ^ (-600 : ℤ))).area = Fl.fin 0 ∧
    (box64 (fun _ => .nan) (fun _ _ => .nan) (-max64) max64 0 0).area = Fl.nan := by
  have f0 : IsF64 0 := ⟨rep_zero, by rw [abs_zero]; positivity⟩
  have fs : IsF64 (2 ^ (-600 : ℤ)) := by
    refine ⟨⟨1, -600, by norm_num, by norm_num, by simp⟩, ?_⟩
    rw [abs_of_pos (by positivity), ← zpow_natCast]
    exact two_lt_iff.mpr (by norm_num)
  have fm : IsF64 (-max64) := ⟨max64_f64.1.neg, by rw [abs_neg]; exact max64_f64.2⟩
  exact ⟨⟨f0, fs, f0, fs, by positivity, by positivity⟩, ⟨fm, max64_f64, f0, f0, by unfold max64; norm_num, le_rfl⟩, by decide +kernel, by decide +kernel⟩

/-- Growing and shrinking by the same distance need not give the box back. -/
theorem C84_expand_shrink : ((box64 (fun _ => .nan) (fun _ _ => .nan) 0 (1 / 2 ^ 60) 0 1).expandBy (Fl.fin 1)).expandBy (Fl.fin (-1)) =
    box64 (fun _ => .nan) (fun _ _ => .nan) 0 0 0 1 := by decide +kernel

/-! ## Examples -/

theorem f64_int (m : ℤ) (h : |m| ≤ 2 ^ 53) : IsF64 m := by
  have h' : |(m : ℚ)| ≤ 2 ^ 53 := by exact_mod_cast h
  exact ⟨⟨m, 0, h, by norm_num, by simp⟩, lt_2_1024 (le_trans h' (by norm_num))⟩

theorem box64_small : Box64 1 4 2 7 :=
  ⟨by exact_mod_cast f64_int 1 (by norm_num), by exact_mod_cast f64_int 4 (by norm_num), by exact_mod_cast f64_int 2 (by norm_num),
    by exact_mod_cast f64_int 7 (by norm_num), by norm_num, by norm_num⟩

theorem box64_far : Box64 10 14 20 27 :=
  ⟨by exact_mod_cast f64_int 10 (by norm_num), by exact_mod_cast f64_int 14 (by norm_num), by exact_mod_cast f64_int 20 (by norm_num),
    by exact_mod_cast f64_int 27 (by norm_num), by norm_num, by norm_num⟩

example : (box64 (fun _ => .nan) (fun _ _ => .nan) 1 4 2 7).centre = some (Coord.xy (Fl.fin (5 / 2)) (Fl.fin (9 / 2))) ∧
    isFinite ((Fl.fin 1 : X64) +. Fl.fin 4) = true ∧ isFinite ((Fl.fin 2 : X64) +. Fl.fin 7) = true := by decide +kernel

example : ((box64 (fun _ => .nan) (fun _ _ => .nan) 1 4 2 7).expandBy (Fl.fin 1)) = box64 (fun _ => .nan) (fun _ _ => .nan) 0 5 1 8 ∧
    ((box64 (fun _ => .nan) (fun _ _ => .nan) 1 4 2 7).translate (Fl.fin 1) (Fl.fin (-1))) = box64 (fun _ => .nan) (fun _ _ => .nan) 2 5 1 6 := by
  decide +kernel

/-- a `hypot` that meets the hypothesis of `C84_distance` -/
example : ∀ u v : ℚ, IsF64 u → IsF64 v → 0 < u → 0 < v → (fun u v : ℚ => Val.fin (max u v)) u v ≠ .fin 0 := by
  intro u v _ _ hu _ h
  injection h with h
  have := le_max_left u v
  linarith

example : (box64 (fun _ => .nan) (fun u v => .fin (max u v)) 1 4 2 7).distance (box64 _ _ 10 14 20 27) = Fl.fin 13 := by decide +kernel

end Verif.Props
