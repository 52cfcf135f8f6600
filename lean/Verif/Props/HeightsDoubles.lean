import Verif.Props.CrossingDoubles
import Verif.Props.IntersectorHeights
import Verif.Props.Space64

/-! C122: heights do not influence where segments meet, and the accuracy of the height of a crossing point in IEEE doubles. -/

namespace Verif.Props
open Flt Verif.Spec Verif.Binary64

/-! ## Heights do not influence the plane -/

section Any
variable {α : Type} [FltSqrt α] [FltRound α]

/-- The point without height and measure. -/
def flatPt (c : Coord α) : Coord α := Coord.xy c.x c.y

omit [FltRound α] in
theorem flat_end (p1 p2 q1 q2 : Coord α) : Same (LI.nearestEndpoint (flatPt p1) (flatPt p2) (flatPt q1) (flatPt q2)) (LI.nearestEndpoint p1 p2 q1 q2) := by
  unfold LI.nearestEndpoint
  simp only [show ∀ a b c : Coord α, Distance.pointToSegment (flatPt a) (flatPt b) (flatPt c) = Distance.pointToSegment a b c from fun _ _ _ => rfl]
  split_ifs <;> exact ⟨rfl, rfl⟩

omit [FltRound α] in
theorem flat_safe (p1 p2 q1 q2 : Coord α) :
    Same (LI.intersectionSafe (flatPt p1) (flatPt p2) (flatPt q1) (flatPt q2)) (LI.intersectionSafe p1 p2 q1 q2) := by
  unfold LI.intersectionSafe
  rw [show Intersection.intersection (flatPt p1) (flatPt p2) (flatPt q1) (flatPt q2) = Intersection.intersection p1 p2 q1 q2 from rfl]
  split
  · exact ⟨rfl, rfl⟩
  · exact flat_end _ _ _ _

theorem flat_precise (pm : PM α) {c d : Coord α} (h : Same c d) : Same (pm.makePreciseCoordinate c) (pm.makePreciseCoordinate d) := by
  unfold PM.makePreciseCoordinate
  split_ifs
  · exact h
  · exact ⟨by dsimp only; rw [h.1], by dsimp only; rw [h.2]⟩

theorem flat_intersection (s t : LI α) (hpm : s.pm = t.pm) (p1 p2 q1 q2 : Coord α) (h0 : Same s.in00 t.in00) (h1 : Same s.in01 t.in01) (h2 : Same s.in10 t.in10)
    (h3 : Same s.in11 t.in11) :
    Same (s.intersection (flatPt p1) (flatPt p2) (flatPt q1) (flatPt q2)) (t.intersection p1 p2 q1 q2) := by
  have e : ∀ c d : Coord α, Same c d → s.isInSegmentEnvelopes c = t.isInSegmentEnvelopes d := by
    intro c d h
    unfold LI.isInSegmentEnvelopes Env.newCoordinates Env.coversCoordinate
    rw [h0.1, h0.2, h1.1, h1.2, h2.1, h2.2, h3.1, h3.2, h.1, h.2]
  unfold LI.intersection
  dsimp only
  rw [e _ _ (flat_safe p1 p2 q1 q2), hpm]
  have key : Same (if (!t.isInSegmentEnvelopes (LI.intersectionSafe p1 p2 q1 q2)) = true then (LI.nearestEndpoint (flatPt p1) (flatPt p2) (flatPt q1) (flatPt q2)).fromCoordinate
      else LI.intersectionSafe (flatPt p1) (flatPt p2) (flatPt q1) (flatPt q2))
      (if (!t.isInSegmentEnvelopes (LI.intersectionSafe p1 p2 q1 q2)) = true then (LI.nearestEndpoint p1 p2 q1 q2).fromCoordinate
      else LI.intersectionSafe p1 p2 q1 q2) := by
    split_ifs
    · exact flat_end _ _ _ _
    · exact flat_safe _ _ _ _
  split
  · exact flat_precise _ key
  · exact key

/-- C122: heights and measures have no influence on whether, how and where in x and y two segments meet, in every arithmetic. -/
theorem C122_plane (s : LI α) (p1 p2 q1 q2 : Coord α) :
    (s.compute4 p1 p2 q1 q2).result = (s.compute4 (flatPt p1) (flatPt p2) (flatPt q1) (flatPt q2)).result ∧
    (s.compute4 p1 p2 q1 q2).isProper = (s.compute4 (flatPt p1) (flatPt p2) (flatPt q1) (flatPt q2)).isProper ∧
    Same (s.compute4 p1 p2 q1 q2).pt0 (s.compute4 (flatPt p1) (flatPt p2) (flatPt q1) (flatPt q2)).pt0 ∧
    Same (s.compute4 p1 p2 q1 q2).pt1 (s.compute4 (flatPt p1) (flatPt p2) (flatPt q1) (flatPt q2)).pt1 := by
  have cz : ∀ c d : Coord α, ∀ y z, Same c d → Same (LI.copyWithZ c y) (LI.copyWithZ d z) := fun c d y z h =>
    ⟨by rw [(copyWithZ_xy _ _).1, (copyWithZ_xy _ _).1, h.1], by rw [(copyWithZ_xy _ _).2, (copyWithZ_xy _ _).2, h.2]⟩
  have ci : ∀ c a b a' b' : Coord α, Same (LI.copyWithZInterpolate c a b) (LI.copyWithZInterpolate (flatPt c) a' b') := fun c a b a' b' => cz _ _ _ _ ⟨rfl, rfl⟩
  have tp : ∀ i j k l, Same (LI.touchPoint i j k l p1 p2 q1 q2).1 (LI.touchPoint i j k l (flatPt p1) (flatPt p2) (flatPt q1) (flatPt q2)).1 := by
    intro i j k l
    unfold LI.touchPoint
    simp only [show ∀ a b : Coord α, (flatPt a).equals2D (flatPt b) = a.equals2D b from fun _ _ => rfl]
    split_ifs <;> exact ⟨rfl, rfl⟩
  unfold LI.compute4 LI.computeIntersect
  simp only [show ∀ a b c d : Coord α, Env.intersects4 (flatPt a) (flatPt b) (flatPt c) (flatPt d) = Env.intersects4 a b c d from fun _ _ _ _ => rfl,
    show ∀ a b c : Coord α, Orientation.index (flatPt a) (flatPt b) (flatPt c) = Orientation.index a b c from fun _ _ _ => rfl]
  split_ifs
  · exact ⟨rfl, rfl, ⟨rfl, rfl⟩, rfl, rfl⟩
  · exact ⟨rfl, rfl, ⟨rfl, rfl⟩, rfl, rfl⟩
  · exact ⟨rfl, rfl, ⟨rfl, rfl⟩, rfl, rfl⟩
  · unfold LI.computeCollinear
    simp only [show ∀ a b c : Coord α, Env.intersects3 (flatPt a) (flatPt b) (flatPt c) = Env.intersects3 a b c from fun _ _ _ => rfl,
      show ∀ a b : Coord α, (flatPt a).equals2D (flatPt b) = a.equals2D b from fun _ _ => rfl]
    split_ifs <;> exact ⟨rfl, rfl, by first | exact ci _ _ _ _ _ | exact ⟨rfl, rfl⟩, by first | exact ci _ _ _ _ _ | exact ⟨rfl, rfl⟩⟩
  · exact ⟨rfl, rfl, cz _ _ _ _ (tp _ _ _ _), rfl, rfl⟩
  · refine ⟨rfl, rfl, cz _ _ _ _ ?_, rfl, rfl⟩
    have := flat_intersection { s with in00 := (flatPt p1).fromCoordinate, in01 := (flatPt p2).fromCoordinate, in10 := (flatPt q1).fromCoordinate, in11 := (flatPt q2).fromCoordinate, isProper := true }
      { s with in00 := p1.fromCoordinate, in01 := p2.fromCoordinate, in10 := q1.fromCoordinate, in11 := q2.fromCoordinate, isProper := true } rfl p1 p2 q1 q2
      ⟨rfl, rfl⟩ ⟨rfl, rfl⟩ ⟨rfl, rfl⟩ ⟨rfl, rfl⟩
    exact ⟨this.1.symm, this.2.symm⟩

end Any

/-! ## Squared distances and their quotient -/

variable {sq : ℚ → Val} {hy : ℚ → ℚ → Val}

theorem near_small {v : ℚ} (h : |(v : ℝ)| ≤ 2 ^ 1000) : |near v| < 2 ^ 1024 := by
  have m : Mid 1000 ((2 : ℝ) ^ 1000) := ⟨by
    rw [div_le_iff₀ (by positivity)]
    exact one_le_mul_of_one_le_of_one_le (one_le_pow₀ (by norm_num)) (one_le_pow₀ (by norm_num)), le_rfl⟩
  exact (sc_round (e := 0) (v := v) (x := v) h (by simp) le_rfl (by norm_num) m).1

/-- The smallest positive double, halved. -/
noncomputable def tiny : ℝ := (2 : ℝ) ^ (-1075 : ℤ)

theorem tiny_pos : 0 < tiny := by unfold tiny; positivity

theorem tiny_le {k : ℕ} (h : k ≤ 1075) : tiny ≤ 1 / 2 ^ k := by
  unfold tiny
  rw [one_div, ← zpow_natCast, ← zpow_neg]
  exact zpow_le_zpow_right₀ (by norm_num) (by omega)

theorem sq_close {d : ℚ} {x : ℝ} (h : |(d : ℝ) - x| ≤ |x| / 2 ^ 53) (hx : |x| ≤ 2 ^ 300) :
    ∃ m : ℚ, (Fl.fin d : B64 sq hy) *. Fl.fin d = Fl.fin m ∧ IsF64 m ∧ 0 ≤ m ∧ |(m : ℝ) - x ^ 2| ≤ 4 / 2 ^ 53 * x ^ 2 + tiny := by
  have s0 : 0 ≤ x ^ 2 := sq_nonneg x
  have e1 : |((d * d : ℚ) : ℝ) - x ^ 2| ≤ (2 / 2 ^ 53 + 1 / 2 ^ 106) * x ^ 2 := by
    rw [show ((d * d : ℚ) : ℝ) - x ^ 2 = (d - x) * (2 * x + (d - x)) by push_cast; ring, abs_mul]
    have a1 : |2 * x + ((d : ℝ) - x)| ≤ 2 * |x| + |x| / 2 ^ 53 := by
      refine (abs_add_le _ _).trans (add_le_add ?_ h)
      rw [abs_mul, abs_two]
    calc _ ≤ |x| / 2 ^ 53 * (2 * |x| + |x| / 2 ^ 53) := mul_le_mul h a1 (abs_nonneg _) (by positivity)
      _ = (2 / 2 ^ 53 + 1 / 2 ^ 106) * |x| ^ 2 := by ring
      _ = _ := by rw [sq_abs]
  have e2 : |((d * d : ℚ) : ℝ)| ≤ 2 * x ^ 2 := by
    have := abs_sub_abs_le_abs_sub ((d * d : ℚ) : ℝ) (x ^ 2)
    rw [abs_of_nonneg s0] at this
    linarith
  have e3 : x ^ 2 ≤ 2 ^ 600 := by
    rw [← sq_abs]
    calc |x| ^ 2 ≤ (2 ^ 300) ^ 2 := pow_le_pow_left₀ (abs_nonneg _) hx 2
      _ = 2 ^ 600 := by rw [← pow_mul]
  have fin : |near (d * d)| < 2 ^ 1024 := near_small (e2.trans (by
    calc 2 * x ^ 2 ≤ 2 * 2 ^ 600 := by linarith
      _ = 2 ^ 601 := (pow_succ' 2 600).symm
      _ ≤ 2 ^ 1000 := pow_le_pow_right₀ (by norm_num) (by norm_num)))
  refine ⟨near (d * d), (rnd_fin_iff _ _).mpr ⟨rfl, fin⟩, ⟨near_rep _, fin⟩, near_nonneg (mul_self_nonneg d), ?_⟩
  have r := near_err_real (d * d)
  have r2 : |((d * d : ℚ) : ℝ)| ≤ (1 + 3 / 2 ^ 53) * x ^ 2 := by
    have := abs_sub_abs_le_abs_sub ((d * d : ℚ) : ℝ) (x ^ 2)
    rw [abs_of_nonneg s0] at this
    linarith
  have t := abs_sub_le (((near (d * d) : ℚ)) : ℝ) ((d * d : ℚ) : ℝ) (x ^ 2)
  change _ ≤ _ + tiny at r
  linarith

/-- The computed sum of the squares of two differences of doubles. -/
theorem sqsum_close {ax bx ay by' : ℚ} (fax : IsF64 ax) (fbx : IsF64 bx) (fay : IsF64 ay) (fby : IsF64 by') (hx : |(bx : ℝ) - ax| ≤ 2 ^ 300)
    (hy' : |(by' : ℝ) - ay| ≤ 2 ^ 300) :
    ∃ v : ℚ, ((Fl.fin bx : B64 sq hy) -. Fl.fin ax) *. (Fl.fin bx -. Fl.fin ax) +. (Fl.fin by' -. Fl.fin ay) *. (Fl.fin by' -. Fl.fin ay) = Fl.fin v ∧ IsF64 v ∧ 0 ≤ v ∧
      |(v : ℝ) - (((bx : ℝ) - ax) ^ 2 + ((by' : ℝ) - ay) ^ 2)| ≤ 6 / 2 ^ 53 * (((bx : ℝ) - ax) ^ 2 + ((by' : ℝ) - ay) ^ 2) + 4 * tiny := by
  have m3 : Mid 1000 ((2 : ℝ) ^ 300) := ⟨by
    rw [div_le_iff₀ (by positivity)]
    exact one_le_mul_of_one_le_of_one_le (one_le_pow₀ (by norm_num)) (one_le_pow₀ (by norm_num)), pow_le_pow_right₀ (by norm_num) (by norm_num)⟩
  obtain ⟨d, d1, -, d3⟩ := diff_rel (sq := sq) (hy := hy) fax fbx hx m3
  obtain ⟨e, e1, -, e3⟩ := diff_rel (sq := sq) (hy := hy) fay fby hy' m3
  obtain ⟨m, m1, m2, m0, m3⟩ := sq_close (sq := sq) (hy := hy) d3 hx
  obtain ⟨n, n1, n2, n0, n3⟩ := sq_close (sq := sq) (hy := hy) e3 hy'
  rw [d1, e1, m1, n1]
  obtain ⟨x, hxx⟩ : ∃ x, x = (bx : ℝ) - ax := ⟨_, rfl⟩
  obtain ⟨y, hyy⟩ : ∃ y, y = (by' : ℝ) - ay := ⟨_, rfl⟩
  rw [← hxx] at hx m3 ⊢
  rw [← hyy] at hy' n3 ⊢
  have x0 := sq_nonneg x
  have y0 := sq_nonneg y
  have x1 : x ^ 2 ≤ 2 ^ 600 := by
    rw [← sq_abs]
    calc |x| ^ 2 ≤ (2 ^ 300) ^ 2 := pow_le_pow_left₀ (abs_nonneg _) hx 2
      _ = 2 ^ 600 := by rw [← pow_mul]
  have y1 : y ^ 2 ≤ 2 ^ 600 := by
    rw [← sq_abs]
    calc |y| ^ 2 ≤ (2 ^ 300) ^ 2 := pow_le_pow_left₀ (abs_nonneg _) hy' 2
      _ = 2 ^ 600 := by rw [← pow_mul]
  have t0 := tiny_pos
  have t1 : tiny ≤ 1 := (tiny_le (k := 0) (by norm_num)).trans (by norm_num)
  have r := near_add_rel m2.1 n2.1
  have r' : |((near (m + n) : ℚ) : ℝ) - ((m : ℝ) + n)| ≤ ((m : ℝ) + n) / 2 ^ 53 := by
    rw [abs_of_nonneg (add_nonneg m0 n0)] at r
    have : ((|m + n - near (m + n)| : ℚ) : ℝ) ≤ (((m + n) / 2 ^ 53 : ℚ) : ℝ) := by exact_mod_cast r
    push_cast at this
    rwa [abs_sub_comm] at this
  have ma := abs_le.mp m3
  have na := abs_le.mp n3
  have b : ((m : ℝ) + n) ≤ 2 ^ 603 := by
    have p3 : (2 : ℝ) ^ 603 = 8 * 2 ^ 600 := by rw [show (603 : ℕ) = 3 + 600 from rfl, pow_add, show (2 : ℝ) ^ 3 = 8 by norm_num]
    have p6 : (1 : ℝ) ≤ 2 ^ 600 := one_le_pow₀ (by norm_num)
    rw [p3]
    clear p3 hx hy'
    generalize (2 : ℝ) ^ 600 = Z at *
    linarith [ma.2, na.2]
  have fin : |near (m + n)| < 2 ^ 1024 := near_small (by
    have c0 : (0 : ℝ) ≤ ((m + n : ℚ) : ℝ) := by exact_mod_cast add_nonneg m0 n0
    rw [abs_of_nonneg c0]
    push_cast
    exact b.trans (pow_le_pow_right₀ (by norm_num) (by norm_num)))
  refine ⟨near (m + n), (rnd_fin_iff _ _).mpr ⟨rfl, fin⟩, ⟨near_rep _, fin⟩, near_nonneg (add_nonneg m0 n0), ?_⟩
  rw [abs_le] at r' ⊢
  constructor <;> linarith [ma.1, ma.2, na.1, na.2, r'.1, r'.2]

/-- Roots of close numbers. -/
theorem root_close {a b k t : ℝ} (a0 : 0 ≤ a) (b0 : 0 ≤ b) (k0 : 0 ≤ k) (k1 : k ≤ 1) (t0 : 0 ≤ t) (h : |a - b| ≤ k * b + t ^ 2) : |√a - √b| ≤ k * √b + t := by
  have sa := Real.sq_sqrt a0
  have sb := Real.sq_sqrt b0
  have ra := Real.sqrt_nonneg a
  have rb := Real.sqrt_nonneg b
  obtain ⟨h1, h2⟩ := abs_le.mp h
  rw [abs_le]
  constructor
  · have : (√b * (1 - k)) ^ 2 ≤ (√a + t) ^ 2 := by
      have e1 : (√b * (1 - k)) ^ 2 = b * (1 - k) ^ 2 := by rw [mul_pow, sb]
      have e2 : b * (1 - k) ^ 2 ≤ b * (1 - k) := by
        apply mul_le_mul_of_nonneg_left _ b0
        nlinarith
      have e3 : (√a + t) ^ 2 = a + 2 * (√a * t) + t ^ 2 := by rw [add_sq, sa]; ring
      have := mul_nonneg ra t0
      rw [e1, e3]; linarith
    have := (le_abs_self _).trans (abs_le_of_sq_le_sq this (by positivity))
    linarith
  · have : √a ^ 2 ≤ (√b * (1 + k) + t) ^ 2 := by
      have e1 : (√b * (1 + k) + t) ^ 2 = b * (1 + k) ^ 2 + 2 * (√b * (1 + k) * t) + t ^ 2 := by rw [add_sq, mul_pow, sb]; ring
      have e2 : b * (1 + k) ≤ b * (1 + k) ^ 2 := by
        apply mul_le_mul_of_nonneg_left _ b0
        nlinarith
      have : 0 ≤ √b * (1 + k) * t := by positivity
      rw [sa, e1]; linarith
    have := (le_abs_self _).trans (abs_le_of_sq_le_sq this (by positivity))
    linarith

/-- The root of a double that is too small to be normal is small. -/
def SmallRoots (sq : ℚ → Val) : Prop := ∀ a : ℚ, IsF64 a → 0 ≤ a → a < 2 ^ (-1022 : ℤ) → ∃ v : ℚ, sq a = .fin v ∧ |(v : ℝ)| ≤ 1 / 2 ^ 500

section Frac
variable {ε : ℝ} (lib : Lib64 sq hy ε) (hε : ε ≤ 1 / 2 ^ 52) (hr : SmallRoots sq)
include lib hε hr

/-- The computed root of the quotient of two squared distances. -/
theorem ratio_close {P' S' : ℚ} {P S : ℝ} (P0 : 0 ≤ P') (p0 : 0 ≤ P) (hP : |(P' : ℝ) - P| ≤ 6 / 2 ^ 53 * P + 4 * tiny) (hS : |(S' : ℝ) - S| ≤ 6 / 2 ^ 53 * S + 4 * tiny)
    (S1 : 1 / 2 ^ 400 ≤ S) (P1 : P ≤ 2 ^ 404) :
    ∃ f : ℚ, FltSqrt.sqrt ((Fl.fin P' : B64 sq hy) /. Fl.fin S') = Fl.fin f ∧ |(f : ℝ) - √(P / S)| ≤ 20 / 2 ^ 53 * √(P / S) + 1 / 2 ^ 298 := by
  have t0 := tiny_pos
  have s0 : 0 < S := lt_of_lt_of_le (by positivity) S1
  -- the denominator
  have t1 : 4 * tiny ≤ S / 2 ^ 600 := by
    have e : (4 : ℝ) * (1 / 2 ^ 1073) ≤ 1 / 2 ^ 400 / 2 ^ 600 := by
      rw [div_div, ← pow_add, mul_one_div, div_le_div_iff₀ (by positivity) (by positivity), one_mul]
      rw [show (1073 : ℕ) = 2 + 1071 from rfl, pow_add (2 : ℝ) 2 1071]
      have : (2 : ℝ) ^ (400 + 600) ≤ 2 ^ 1071 := pow_le_pow_right₀ (by norm_num) (by norm_num)
      have : (2 : ℝ) ^ 2 = 4 := by norm_num
      rw [this]
      linarith
    have := tiny_le (k := 1073) (by norm_num)
    have := div_le_div_of_nonneg_right S1 (show (0 : ℝ) ≤ 2 ^ 600 by positivity)
    linarith
  have hS' : |(S' : ℝ) - S| ≤ 7 / 2 ^ 53 * S := by
    have : S / 2 ^ 600 ≤ S / 2 ^ 53 := div_le_div_of_nonneg_left s0.le (by norm_num) (pow_le_pow_right₀ (by norm_num) (by norm_num))
    linarith
  obtain ⟨u1, u2⟩ := abs_le.mp hS'
  have s1 : (1 - 7 / 2 ^ 53) * S ≤ S' := by linarith
  have s2 : (0 : ℝ) < S' := lt_of_lt_of_le (by positivity) s1
  have s3 : S' ≠ 0 := by rintro rfl; simp at s2
  have s4 : 0 < S' := by exact_mod_cast s2
  -- the exact quotient of the computed values
  obtain ⟨Q, hQ⟩ : ∃ Q, Q = P / S := ⟨_, rfl⟩
  have q0 : 0 ≤ Q := by rw [hQ]; positivity
  have qs : Q * S = P := by rw [hQ]; field_simp
  have T : 4 * tiny / S ≤ 1 / 2 ^ 600 := by
    rw [div_le_iff₀ s0]
    calc _ ≤ S / 2 ^ 600 := t1
      _ = _ := by ring
  have d1 : |((P' / S' : ℚ) : ℝ) - Q| ≤ 14 / 2 ^ 53 * Q + 2 * (4 * tiny / S) := by
    have e : ((P' / S' : ℚ) : ℝ) - Q = ((P' - P) - Q * (S' - S)) / S' := by
      push_cast
      rw [eq_div_iff s2.ne', sub_mul, div_mul_cancel₀ _ s2.ne', ← qs]; ring
    rw [e, abs_div, abs_of_pos s2, div_le_iff₀ s2]
    have a1 : |(P' : ℝ) - P - Q * (S' - S)| ≤ 6 / 2 ^ 53 * P + 4 * tiny + Q * (7 / 2 ^ 53 * S) := by
      refine (abs_sub _ _).trans (add_le_add hP ?_)
      rw [abs_mul, abs_of_nonneg q0]
      exact mul_le_mul_of_nonneg_left hS' q0
    have a2 : (14 / 2 ^ 53 * Q + 2 * (4 * tiny / S)) * ((1 - 7 / 2 ^ 53) * S) ≤ (14 / 2 ^ 53 * Q + 2 * (4 * tiny / S)) * S' :=
      mul_le_mul_of_nonneg_left s1 (by positivity)
    have a3 : (14 / 2 ^ 53 * Q + 2 * (4 * tiny / S)) * ((1 - 7 / 2 ^ 53) * S) = (1 - 7 / 2 ^ 53) * (14 / 2 ^ 53) * P + (1 - 7 / 2 ^ 53) * (8 * tiny) := by
      rw [← qs]; field_simp; ring
    have a4 : Q * (7 / 2 ^ 53 * S) = 7 / 2 ^ 53 * P := by rw [← qs]; ring
    rw [a4] at a1
    rw [a3] at a2
    refine a1.trans (le_trans ?_ a2)
    linarith
  have z6 : (0 : ℝ) < 1 / 2 ^ 600 := by positivity
  have d2 : |((P' / S' : ℚ) : ℝ)| ≤ 2 * Q + 1 := by
    have := abs_sub_abs_le_abs_sub ((P' / S' : ℚ) : ℝ) Q
    rw [abs_of_nonneg q0] at this
    have h1 : (1 : ℝ) / 2 ^ 600 ≤ 1 / 4 := one_div_le_one_div_of_le (by norm_num) (by
      calc (4 : ℝ) = 2 ^ 2 := by norm_num
        _ ≤ 2 ^ 600 := pow_le_pow_right₀ (by norm_num) (by norm_num))
    generalize (1 : ℝ) / 2 ^ 600 = Z at *
    linarith
  have q1 : Q ≤ 2 ^ 804 := by
    rw [hQ, div_le_iff₀ s0]
    calc P ≤ 2 ^ 404 := P1
      _ = 2 ^ 804 * (1 / 2 ^ 400) := by rw [mul_one_div, eq_div_iff (by positivity), ← pow_add]
      _ ≤ _ := mul_le_mul_of_nonneg_left S1 (by positivity)
  have fin : |near (P' / S')| < 2 ^ 1024 := near_small (d2.trans (by
    have e : (2 : ℝ) ^ 806 = 4 * 2 ^ 804 := by rw [show (806 : ℕ) = 2 + 804 from rfl, pow_add, show (2 : ℝ) ^ 2 = 4 by norm_num]
    have e1 : (1 : ℝ) ≤ 2 ^ 804 := one_le_pow₀ (by norm_num)
    have e2 : (2 : ℝ) ^ 806 ≤ 2 ^ 1000 := pow_le_pow_right₀ (by norm_num) (by norm_num)
    rw [e] at e2
    refine le_trans ?_ e2
    clear e e2 T P1 S1 t1 z6
    generalize (2 : ℝ) ^ 804 = Z at *
    linarith))
  have dv : (Fl.fin P' : B64 sq hy) /. Fl.fin S' = Fl.fin (near (P' / S')) := div_fin64 s3 rfl fin
  have fq : IsF64 (near (P' / S')) := ⟨near_rep _, fin⟩
  have nq : 0 ≤ near (P' / S') := near_nonneg (div_nonneg P0 s4.le)
  have d3 : |((near (P' / S') : ℚ) : ℝ) - Q| ≤ 16 / 2 ^ 53 * Q + (1 / 2 ^ 299) ^ 2 := by
    have r := near_err_real (P' / S')
    change _ ≤ _ + tiny at r
    have r2 : |((P' / S' : ℚ) : ℝ)| ≤ (1 + 14 / 2 ^ 53) * Q + 2 * (1 / 2 ^ 600) := by
      have := abs_sub_abs_le_abs_sub ((P' / S' : ℚ) : ℝ) Q
      rw [abs_of_nonneg q0] at this
      linarith
    have t2 : tiny ≤ 1 / 2 ^ 600 := tiny_le (by norm_num)
    have t3 : ((1 : ℝ) / 2 ^ 299) ^ 2 = 4 * (1 / 2 ^ 600) := by
      rw [div_pow, one_pow, ← pow_mul, show (600 : ℕ) = 2 + 299 * 2 from rfl, pow_add, show (2 : ℝ) ^ 2 = 4 by norm_num, mul_one_div,
        div_eq_div_iff (by positivity) (by positivity), one_mul]
    have t := abs_sub_le ((near (P' / S') : ℚ) : ℝ) ((P' / S' : ℚ) : ℝ) Q
    rw [t3]
    clear fin d2 q1 t3 hP hS S1 P1 t1
    generalize (1 : ℝ) / 2 ^ 600 = Z at *
    linarith
  have d4 := root_close (by exact_mod_cast nq) q0 (by norm_num) (by norm_num) (by positivity) d3
  have rq := Real.sqrt_nonneg Q
  have rn := Real.sqrt_nonneg ((near (P' / S') : ℚ) : ℝ)
  have root : ∃ f : ℚ, FltSqrt.sqrt (Fl.fin (near (P' / S')) : B64 sq hy) = Fl.fin f ∧
      |(f : ℝ) - √((near (P' / S') : ℚ) : ℝ)| ≤ 1 / 2 ^ 52 * √((near (P' / S') : ℚ) : ℝ) + 2 * (1 / 2 ^ 500) := by
    rcases lt_or_ge (near (P' / S')) (2 ^ (-1022 : ℤ)) with k | k
    · obtain ⟨f, f1, f2⟩ := hr _ fq nq k
      refine ⟨f, (if_neg (not_lt.mpr nq)).trans f1, ?_⟩
      have b : √((near (P' / S') : ℚ) : ℝ) ≤ 1 / 2 ^ 500 := by
        rw [Real.sqrt_le_left (by positivity)]
        have k' : ((near (P' / S') : ℚ) : ℝ) ≤ (((2 : ℚ) ^ (-1022 : ℤ) : ℚ) : ℝ) := by exact_mod_cast k.le
        refine k'.trans ?_
        rw [Rat.cast_zpow, Rat.cast_ofNat, zpow_neg, ← one_div, div_pow, one_pow, ← pow_mul]
        exact one_div_le_one_div_of_le (by positivity) (by
          rw [show (1022 : ℤ) = ((1022 : ℕ) : ℤ) from rfl, zpow_natCast]
          exact pow_le_pow_right₀ (by norm_num) (by norm_num))
      have := abs_sub (f : ℝ) √((near (P' / S') : ℚ) : ℝ)
      rw [abs_of_nonneg rn] at this
      have : 0 ≤ 1 / 2 ^ 52 * √((near (P' / S') : ℚ) : ℝ) := by positivity
      generalize (1 : ℝ) / 2 ^ 500 = Z at *
      linarith
    · obtain ⟨f, f1, f2⟩ := lib.sqrt _ fq k
      refine ⟨f, (if_neg (not_lt.mpr nq)).trans f1, f2.trans ?_⟩
      have := mul_le_mul_of_nonneg_right hε rn
      have z : (0 : ℝ) ≤ 2 * (1 / 2 ^ 500) := by positivity
      linarith
  obtain ⟨f, f1, f2⟩ := root
  refine ⟨f, by rw [dv, f1], ?_⟩
  rw [← hQ]
  obtain ⟨a1, a2⟩ := abs_le.mp d4
  obtain ⟨b1, b2⟩ := abs_le.mp f2
  have z1 : (1 : ℝ) / 2 ^ 500 ≤ 1 / 2 ^ 299 / 100 := by
    rw [div_div, one_div_le_one_div (by positivity) (by positivity), show (500 : ℕ) = 299 + 201 from rfl, pow_add]
    refine mul_le_mul_of_nonneg_left ?_ (by positivity)
    calc (100 : ℝ) ≤ 2 ^ 7 := by norm_num
      _ ≤ 2 ^ 201 := pow_le_pow_right₀ (by norm_num) (by norm_num)
  have z2 : (2 : ℝ) * (1 / 2 ^ 299) = 1 / 2 ^ 298 := by
    rw [show (299 : ℕ) = 1 + 298 from rfl, pow_add, pow_one, mul_one_div, ← div_div, div_self (by norm_num)]
  have z3 : (0 : ℝ) < 1 / 2 ^ 299 := by positivity
  rw [← z2]
  clear z2 d4 d3 d2 d1 fin T t1 S1 P1 q1 z6
  generalize (1 : ℝ) / 2 ^ 500 = Z at *
  generalize (1 : ℝ) / 2 ^ 299 = W at *
  rw [abs_le]
  constructor <;> linarith

/-- The height of the point of the line through `a` and `b` that is as far from `a` as `c`, on the side of `b`. -/
noncomputable def heightAt (c a b : Coord ℚ) : ℝ := a.z + (b.z - a.z) * (Spec.dist (realPt c) (realPt a) / Spec.dist (realPt a) (realPt b))

/-- The computed height of a point between two points with heights. -/
theorem height_close {M H : ℝ} (hM : M ≤ 2 ^ 200) (hH : Mid 200 H) {a b c : Coord ℚ} (ha : Sized M a) (hb : Sized M b) (hc : Sized M c)
    (hab : (1 : ℝ) / 2 ^ 200 ≤ |(b.x : ℝ) - a.x| ∨ (1 : ℝ) / 2 ^ 200 ≤ |(b.y : ℝ) - a.y|) (za : IsF64 a.z) (zb : IsF64 b.z) (ia : |(a.z : ℝ)| ≤ H) (ib : |(b.z : ℝ)| ≤ H)
    (hn : Spec.dist (realPt c) (realPt a) ≤ 2 * Spec.dist (realPt a) (realPt b)) (cc : Coord (B64 sq hy)) (cx : cc.x = Fl.fin c.x) (cy : cc.y = Fl.fin c.y) :
    ∃ z : ℚ, LI.zInterpolate3 cc (p3 a) (p3 b) = Fl.fin z ∧ IsF64 z ∧ |(z : ℝ) - heightAt c a b| ≤ H / 2 ^ 46 := by
  have H0 := hH.pos
  obtain ⟨fax, fay, ax, ay⟩ := ha
  obtain ⟨fbx, fby, bx, by'⟩ := hb
  obtain ⟨fcx, fcy, cx', cy'⟩ := hc
  have far : ∀ {u v : ℝ}, |u| ≤ M → |v| ≤ M → |u - v| ≤ 2 ^ 201 := fun hu hv => by
    have := abs_sub _ _ |>.trans (add_le_add hu hv)
    calc _ ≤ M + M := this
      _ ≤ 2 * 2 ^ 200 := by linarith
      _ = 2 ^ 201 := (pow_succ' 2 200).symm
  have far3 : ∀ {u v : ℝ}, |u| ≤ M → |v| ≤ M → |u - v| ≤ 2 ^ 300 := fun hu hv => (far hu hv).trans (pow_le_pow_right₀ (by norm_num) (by norm_num))
  obtain ⟨S', S1, -, -, S4⟩ := sqsum_close (sq := sq) (hy := hy) fax fbx fay fby (far3 bx ax) (far3 by' ay)
  obtain ⟨P', P1, -, P3, P4⟩ := sqsum_close (sq := sq) (hy := hy) fax fcx fay fcy (far3 cx' ax) (far3 cy' ay)
  obtain ⟨S, hS⟩ : ∃ S, S = ((b.x : ℝ) - a.x) ^ 2 + ((b.y : ℝ) - a.y) ^ 2 := ⟨_, rfl⟩
  obtain ⟨P, hP⟩ : ∃ P, P = ((c.x : ℝ) - a.x) ^ 2 + ((c.y : ℝ) - a.y) ^ 2 := ⟨_, rfl⟩
  rw [← hS] at S4
  rw [← hP] at P4
  have p0 : 0 ≤ P := by rw [hP]; positivity
  have lo : 1 / 2 ^ 400 ≤ S := by
    have e : (1 : ℝ) / 2 ^ 400 = (1 / 2 ^ 200) ^ 2 := by rw [div_pow, one_pow, ← pow_mul]
    have z : (0 : ℝ) ≤ 1 / 2 ^ 200 := by positivity
    rw [e, hS]
    rcases hab with k | k
    · have := pow_le_pow_left₀ z k 2
      rw [sq_abs] at this
      linarith [sq_nonneg ((b.y : ℝ) - a.y)]
    · have := pow_le_pow_left₀ z k 2
      rw [sq_abs] at this
      linarith [sq_nonneg ((b.x : ℝ) - a.x)]
  have s0 : 0 < S := lt_of_lt_of_le (by positivity) lo
  have hi : P ≤ 2 ^ 404 := by
    have q : ∀ {u v : ℝ}, |u| ≤ M → |v| ≤ M → (u - v) ^ 2 ≤ 2 ^ 402 := fun hu hv => by
      have := pow_le_pow_left₀ (abs_nonneg _) (far hu hv) 2
      rwa [sq_abs, ← pow_mul] at this
    have e : (2 : ℝ) ^ 404 = 4 * 2 ^ 402 := by rw [show (404 : ℕ) = 2 + 402 from rfl, pow_add, show (2 : ℝ) ^ 2 = 4 by norm_num]
    have z : (0 : ℝ) < 2 ^ 402 := by positivity
    have q1 := q cx' ax
    have q2 := q cy' ay
    rw [e, hP]
    clear e
    generalize (2 : ℝ) ^ 402 = Z at *
    linarith
  obtain ⟨f, f1, f2⟩ := ratio_close lib hε hr P3 p0 P4 S4 lo hi
  have dS : Spec.dist (realPt a) (realPt b) = √S := by
    rw [hS]; unfold Spec.dist realPt; congr 1; ring
  have dP : Spec.dist (realPt c) (realPt a) = √P := by
    rw [hP]; unfold Spec.dist realPt; congr 1
  have rS : 0 < √S := Real.sqrt_pos.mpr s0
  have F0 : 0 ≤ √(P / S) := Real.sqrt_nonneg _
  have hF : √(P / S) = Spec.dist (realPt c) (realPt a) / Spec.dist (realPt a) (realPt b) := by rw [dS, dP, Real.sqrt_div p0]
  have F2 : √(P / S) ≤ 2 := by
    rw [hF, dS, div_le_iff₀ rS, ← dS]; exact hn
  unfold heightAt
  rw [← hF]
  obtain ⟨F, eF⟩ : ∃ F, F = √(P / S) := ⟨_, rfl⟩
  rw [← eF] at f2 F0 F2 ⊢
  have m2 : Mid 1000 (2 * H) := (mid_two.mul hH).mono (by norm_num)
  have hz : |(b.z : ℝ) - a.z| ≤ 2 * H := (abs_sub _ _).trans (by linarith)
  obtain ⟨d, d1, -, d3⟩ := diff_rel (sq := sq) (hy := hy) za zb hz m2
  have near0 : 0 ≤ H / 2 ^ 46 := by positivity
  -- the formula
  have formula : ∃ z : ℚ, Fl.fin a.z +. (Fl.fin d : B64 sq hy) *. Fl.fin f = Fl.fin z ∧ IsF64 z ∧ |(z : ℝ) - (a.z + (b.z - a.z) * F)| ≤ H / 2 ^ 46 := by
    have t1 : tiny ≤ H / 2 ^ 53 := by
      refine (tiny_le (k := 253) (by norm_num)).trans ?_
      rw [show (253 : ℕ) = 200 + 53 from rfl, pow_add, ← div_div]
      exact div_le_div_of_nonneg_right hH.1 (by norm_num)
    have g1 : |(f : ℝ) - F| ≤ 41 / 2 ^ 53 := by
      have : (1 : ℝ) / 2 ^ 298 ≤ 1 / 2 ^ 53 := one_div_le_one_div_of_le (by positivity) (pow_le_pow_right₀ (by norm_num) (by norm_num))
      generalize (1 : ℝ) / 2 ^ 298 = Z at *
      linarith
    obtain ⟨D, hD⟩ : ∃ D, D = (b.z : ℝ) - a.z := ⟨_, rfl⟩
    rw [← hD] at hz d3 ⊢
    have g2 : |(d : ℝ) - D| ≤ 2 * H / 2 ^ 53 := d3.trans (div_le_div_of_nonneg_right hz (by norm_num))
    have g3 : |(f : ℝ)| ≤ 3 := by
      have := abs_sub_abs_le_abs_sub (f : ℝ) F
      rw [abs_of_nonneg F0] at this
      linarith
    have g4 : |(d : ℝ)| ≤ 3 * H := by
      have := abs_sub_abs_le_abs_sub (d : ℝ) D
      linarith
    have g5 : |((d * f : ℚ) : ℝ)| ≤ 9 * H := by
      push_cast
      rw [abs_mul]
      calc _ ≤ 3 * H * 3 := mul_le_mul g4 g3 (abs_nonneg _) (by linarith)
        _ = _ := by ring
    have g6 : |((d * f : ℚ) : ℝ) - D * F| ≤ 88 * H / 2 ^ 53 := by
      rw [show ((d * f : ℚ) : ℝ) - D * F = (d - D) * f + D * (f - F) by push_cast; ring]
      refine (abs_add_le _ _).trans ?_
      rw [abs_mul, abs_mul]
      have k1 := mul_le_mul g2 g3 (abs_nonneg _) (by positivity)
      have k2 := mul_le_mul hz g1 (abs_nonneg _) (by positivity)
      linarith
    have big : ∀ {v : ℚ} {k : ℝ}, |(v : ℝ)| ≤ k * H → k ≤ 100 → |near v| < 2 ^ 1024 := fun {v k} h hk => near_small (h.trans (by
      calc k * H ≤ 2 ^ 7 * 2 ^ 200 := mul_le_mul (by linarith) hH.2 H0.le (by norm_num)
        _ = 2 ^ 207 := by rw [← pow_add]
        _ ≤ _ := pow_le_pow_right₀ (by norm_num) (by norm_num)))
    have f9 := big g5 (by norm_num)
    have e1 : (Fl.fin d : B64 sq hy) *. Fl.fin f = Fl.fin (near (d * f)) := (rnd_fin_iff _ _).mpr ⟨rfl, f9⟩
    have r1 := near_err_real (d * f)
    change _ ≤ _ + tiny at r1
    have g7 : |((near (d * f) : ℚ) : ℝ) - D * F| ≤ 98 * H / 2 ^ 53 := by
      have := abs_sub_le ((near (d * f) : ℚ) : ℝ) ((d * f : ℚ) : ℝ) (D * F)
      linarith
    have g8 : |D * F| ≤ 4 * H := by
      rw [abs_mul, abs_of_nonneg F0]
      calc _ ≤ 2 * H * 2 := mul_le_mul hz F2 F0 (by linarith)
        _ = _ := by ring
    have g9 : |((a.z + near (d * f) : ℚ) : ℝ)| ≤ 6 * H := by
      push_cast
      have := abs_add_le (a.z : ℝ) ((near (d * f) : ℚ) : ℝ)
      have := abs_sub_abs_le_abs_sub ((near (d * f) : ℚ) : ℝ) (D * F)
      linarith
    have f6 := big g9 (by norm_num)
    rw [e1]
    refine ⟨near (a.z + near (d * f)), (rnd_fin_iff _ _).mpr ⟨rfl, f6⟩, ⟨near_rep _, f6⟩, ?_⟩
    have r2 := near_err_real (a.z + near (d * f))
    change _ ≤ _ + tiny at r2
    have := abs_sub_le ((near (a.z + near (d * f)) : ℚ) : ℝ) ((a.z + near (d * f) : ℚ) : ℝ) (a.z + D * F)
    have e2 : ((a.z + near (d * f) : ℚ) : ℝ) - (a.z + D * F) = (near (d * f) : ℚ) - D * F := by push_cast; ring
    rw [e2] at this
    linarith
  have ea : ∀ x y : ℚ, ((Fl.fin x : B64 sq hy) ==. Fl.fin y) = decide (x = y) := fun _ _ => rfl
  have l0 : (lit 0 : B64 sq hy) = Fl.fin 0 := lit64
  have at2 : ∀ p : Coord ℚ, cc.equals2D (p3 p) = true ↔ c.x = p.x ∧ c.y = p.y := fun p => by
    unfold Coord.equals2D
    rw [cx, cy]
    change (if (!(decide (c.x = p.x))) = true then false else if (!(decide (c.y = p.y))) = true then false else true) = true ↔ _
    by_cases h : c.x = p.x <;> by_cases k : c.y = p.y <;> simp [h, k]
  have na : isNaN (p3 a : Coord (B64 sq hy)).z = false := rfl
  have nb : isNaN (p3 b : Coord (B64 sq hy)).z = false := rfl
  unfold LI.zInterpolate3
  rw [na, nb, if_neg (by decide), if_neg (by decide), cx, cy]
  by_cases ka : cc.equals2D (p3 a) = true
  · rw [if_pos ka]
    obtain ⟨h1, h2⟩ := (at2 a).mp ka
    refine ⟨a.z, rfl, za, ?_⟩
    have P0 : P = 0 := by rw [hP, h1, h2]; ring
    rw [eF, P0, zero_div, Real.sqrt_zero, mul_zero, add_zero, sub_self, abs_zero]
    exact near0
  rw [if_neg ka]
  by_cases kb : cc.equals2D (p3 b) = true
  · rw [if_pos kb]
    obtain ⟨h1, h2⟩ := (at2 b).mp kb
    refine ⟨b.z, rfl, zb, ?_⟩
    have PS : P = S := by rw [hP, hS, h1, h2]
    rw [eF, PS, div_self s0.ne', Real.sqrt_one, mul_one, add_sub_cancel, sub_self, abs_zero]
    exact near0
  rw [if_neg kb]
  dsimp only
  have d1' : (p3 b : Coord (B64 sq hy)).z -. (p3 a).z = Fl.fin d := d1
  rw [d1', l0, ea]
  by_cases kd : d = 0
  · rw [if_pos (decide_eq_true kd)]
    refine ⟨a.z, rfl, za, ?_⟩
    have : (b.z : ℝ) - a.z = 0 := by
      rw [kd, Rat.cast_zero, zero_sub, abs_neg] at d3
      have n := abs_nonneg ((b.z : ℝ) - a.z)
      exact abs_eq_zero.mp (by linarith)
    rw [this, zero_mul, add_zero, sub_self, abs_zero]
    exact near0
  rw [if_neg (by simpa using kd)]
  have S1' : ((p3 b : Coord (B64 sq hy)).x -. (p3 a).x) *. ((p3 b).x -. (p3 a).x) +. ((p3 b).y -. (p3 a).y) *. ((p3 b).y -. (p3 a).y) = Fl.fin S' := S1
  have P1' : ((Fl.fin c.x : B64 sq hy) -. (p3 a).x) *. (Fl.fin c.x -. (p3 a).x) +. (Fl.fin c.y -. (p3 a).y) *. (Fl.fin c.y -. (p3 a).y) = Fl.fin P' := P1
  rw [S1', P1', f1]
  exact formula

omit lib hε hr in
/-- The height on the segment above a point of it. -/
theorem height_above {a b : Coord ℚ} (hab : 0 < Spec.dist (realPt a) (realPt b)) {f : Coord ℝ} {u : ℝ} (h : Above u f (r3 a) (r3 b)) :
    u = a.z + (b.z - a.z) * (Spec.dist f (realPt a) / Spec.dist (realPt a) (realPt b)) ∧ Spec.dist f (realPt a) ≤ Spec.dist (realPt a) (realPt b) := by
  obtain ⟨t, t0, t1, hx, hy', hz⟩ := h
  have e : Spec.dist f (realPt a) = t * Spec.dist (realPt a) (realPt b) := by
    have hx' : f.x - (realPt a).x = t * ((realPt b).x - (realPt a).x) := by rw [hx]; simp only [r3, realPt]; ring
    have hy'' : f.y - (realPt a).y = t * ((realPt b).y - (realPt a).y) := by rw [hy']; simp only [r3, realPt]; ring
    unfold Spec.dist
    rw [hx', hy'', ← Real.sqrt_sq t0, ← Real.sqrt_mul (sq_nonneg t), Real.sqrt_sq t0]
    congr 1
    ring
  rw [e, mul_div_assoc, div_self hab.ne', mul_one]
  exact ⟨by rw [hz]; simp only [r3]; ring, mul_le_of_le_one_left hab.le t1⟩

/-- C122: the height interpolated at a point `c` on the segment from `a` to `b`, which may be off the segment by rounding. -/
theorem C122_height {M H : ℝ} (hM : M ≤ 2 ^ 200) (hH : Mid 200 H) {a b c : Coord ℚ} (ha : Sized M a) (hb : Sized M b) (hc : Sized M c)
    (hab : (1 : ℝ) / 2 ^ 200 ≤ |(b.x : ℝ) - a.x| ∨ (1 : ℝ) / 2 ^ 200 ≤ |(b.y : ℝ) - a.y|) (za : IsF64 a.z) (zb : IsF64 b.z) (ia : |(a.z : ℝ)| ≤ H) (ib : |(b.z : ℝ)| ≤ H)
    {f : Coord ℝ} {u : ℝ} (hu : Above u f (r3 a) (r3 b)) (hn : Spec.dist (realPt c) f ≤ Spec.dist (realPt a) (realPt b))
    (cc : Coord (B64 sq hy)) (cx : cc.x = Fl.fin c.x) (cy : cc.y = Fl.fin c.y) :
    ∃ z : ℚ, LI.zInterpolate3 cc (p3 a) (p3 b) = Fl.fin z ∧ IsF64 z ∧ |(z : ℝ)| ≤ 6 * H ∧
      |(z : ℝ) - u| ≤ H / 2 ^ 46 + 2 * H * Spec.dist (realPt c) f / Spec.dist (realPt a) (realPt b) := by
  have H0 := hH.pos
  have L0 : 0 < Spec.dist (realPt a) (realPt b) := by
    have z : (0 : ℝ) < 1 / 2 ^ 200 := by positivity
    refine Real.sqrt_pos.mpr ?_
    change 0 < ((a.x : ℝ) - b.x) ^ 2 + ((a.y : ℝ) - b.y) ^ 2
    rcases hab with k | k
    · have : (a.x : ℝ) - b.x ≠ 0 := fun h => by
        have h' : (b.x : ℝ) - a.x = 0 := by linarith
        rw [h', abs_zero] at k
        exact absurd (z.trans_le k) (lt_irrefl 0)
      positivity
    · have : (a.y : ℝ) - b.y ≠ 0 := fun h => by
        have h' : (b.y : ℝ) - a.y = 0 := by linarith
        rw [h', abs_zero] at k
        exact absurd (z.trans_le k) (lt_irrefl 0)
      positivity
  obtain ⟨u1, u2⟩ := height_above L0 hu
  have t1 := dist_triangle (realPt c) f (realPt a)
  have t2 := dist_triangle f (realPt c) (realPt a)
  rw [Spec.dist_comm f (realPt c)] at t2
  obtain ⟨z, z1, z2, z3⟩ := height_close lib hε hr hM hH ha hb hc hab za zb ia ib (by linarith) cc cx cy
  have c0 : 0 ≤ Spec.dist (realPt c) (realPt a) := Real.sqrt_nonneg _
  unfold heightAt at z3
  have hz : |(b.z : ℝ) - a.z| ≤ 2 * H := (abs_sub _ _).trans (by linarith)
  generalize Spec.dist (realPt a) (realPt b) = L at *
  generalize Spec.dist (realPt c) (realPt a) = C at *
  generalize Spec.dist f (realPt a) = G at *
  generalize Spec.dist (realPt c) f = E at *
  refine ⟨z, z1, z2, ?_, ?_⟩
  · have k1 : |((b.z : ℝ) - a.z) * (C / L)| ≤ 2 * H * 2 := by
      rw [abs_mul, abs_of_nonneg (div_nonneg c0 L0.le)]
      exact mul_le_mul hz ((div_le_iff₀ L0).mpr (by linarith)) (div_nonneg c0 L0.le) (by linarith)
    have k2 := abs_add_le (a.z : ℝ) ((b.z - a.z) * (C / L))
    have k3 := abs_sub_abs_le_abs_sub (z : ℝ) (a.z + (b.z - a.z) * (C / L))
    linarith
  · have k1 : |((b.z : ℝ) - a.z) * (C / L) - (b.z - a.z) * (G / L)| ≤ 2 * H * E / L := by
      rw [← mul_sub, ← sub_div, abs_mul, abs_div, abs_of_pos L0, mul_div_assoc]
      exact mul_le_mul hz (div_le_div_of_nonneg_right (abs_le.mpr ⟨by linarith, by linarith⟩) L0.le) (by positivity) (by linarith)
    have k2 := abs_sub_le (z : ℝ) (a.z + (b.z - a.z) * (C / L)) u
    rw [u1] at k2 ⊢
    rw [show (a.z : ℝ) + (b.z - a.z) * (C / L) - (a.z + (b.z - a.z) * (G / L)) = (b.z - a.z) * (C / L) - (b.z - a.z) * (G / L) by ring] at k2
    linarith

omit lib hε hr in
/-- The mean of two heights in doubles. -/
theorem mean_close {H : ℝ} (hH : Mid 200 H) {u v : ℚ} (hu : |(u : ℝ)| ≤ 6 * H) (hv : |(v : ℝ)| ≤ 6 * H) :
    ∃ z : ℚ, ((Fl.fin u : B64 sq hy) +. Fl.fin v) /. lit 2 = Fl.fin z ∧ IsF64 z ∧ |(z : ℝ) - (u + v) / 2| ≤ 16 * H / 2 ^ 53 := by
  have H0 := hH.pos
  have t1 : tiny ≤ H / 2 ^ 53 := by
    refine (tiny_le (k := 253) (by norm_num)).trans ?_
    rw [show (253 : ℕ) = 200 + 53 from rfl, pow_add, ← div_div]
    exact div_le_div_of_nonneg_right hH.1 (by norm_num)
  have big : ∀ {v : ℚ} {k : ℝ}, |(v : ℝ)| ≤ k * H → k ≤ 100 → |near v| < 2 ^ 1024 := fun {v k} h hk => near_small (h.trans (by
    calc k * H ≤ 2 ^ 7 * 2 ^ 200 := mul_le_mul (by linarith) hH.2 H0.le (by norm_num)
      _ = 2 ^ 207 := by rw [← pow_add]
      _ ≤ _ := pow_le_pow_right₀ (by norm_num) (by norm_num)))
  have b1 : |((u + v : ℚ) : ℝ)| ≤ 12 * H := by push_cast; exact (abs_add_le _ _).trans (by linarith)
  have n1 := big b1 (by norm_num)
  have r1 := near_err_real (u + v)
  change _ ≤ _ + tiny at r1
  have b2 : |((near (u + v) / 2 : ℚ) : ℝ)| ≤ 7 * H := by
    push_cast
    rw [abs_div, abs_of_pos (show (0 : ℝ) < 2 by norm_num)]
    have := abs_sub_abs_le_abs_sub ((near (u + v) : ℚ) : ℝ) ((u + v : ℚ) : ℝ)
    push_cast at this r1 b1
    linarith
  have n2 := big b2 (by norm_num)
  have r2 := near_err_real (near (u + v) / 2)
  change _ ≤ _ + tiny at r2
  have e1 : (Fl.fin u : B64 sq hy) +. Fl.fin v = Fl.fin (near (u + v)) := (rnd_fin_iff _ _).mpr ⟨rfl, n1⟩
  rw [e1, div_two]
  refine ⟨near (near (u + v) / 2), (rnd_fin_iff _ _).mpr ⟨rfl, n2⟩, ⟨near_rep _, n2⟩, ?_⟩
  have := abs_sub_le ((near (near (u + v) / 2) : ℚ) : ℝ) ((near (u + v) / 2 : ℚ) : ℝ) ((u + v) / 2)
  have e2 : |((near (u + v) / 2 : ℚ) : ℝ) - (u + v) / 2| = |((near (u + v) : ℚ) : ℝ) - ((u + v : ℚ) : ℝ)| / 2 := by
    push_cast
    rw [← sub_div, abs_div, abs_of_pos (show (0 : ℝ) < 2 by norm_num)]
  rw [e2] at this
  linarith

omit lib hε hr in
theorem box_dist {a b c : Coord ℚ} {x y : ℚ} (h : InBox a b x y) (k : InBox a b c.x c.y) :
    Spec.dist (realPt (Coord.xy x y)) (realPt c) ≤ Spec.dist (realPt a) (realPt b) := by
  have key : ∀ {u v w w' : ℚ}, min u v ≤ w ∧ w ≤ max u v → min u v ≤ w' ∧ w' ≤ max u v → ((w : ℝ) - w') ^ 2 ≤ ((u : ℝ) - v) ^ 2 := by
    intro u v w w' h1 h2
    have : |w - w'| ≤ |u - v| := by
      rcases le_total u v with k | k
      · rw [min_eq_left k, max_eq_right k] at h1 h2
        rw [abs_of_nonpos (show u - v ≤ 0 by linarith), abs_le]; constructor <;> linarith [h1.1, h1.2, h2.1, h2.2]
      · rw [min_eq_right k, max_eq_left k] at h1 h2
        rw [abs_of_nonneg (show 0 ≤ u - v by linarith), abs_le]; constructor <;> linarith [h1.1, h1.2, h2.1, h2.2]
    exact sq_le_sq.mpr (by exact_mod_cast this)
  refine Real.sqrt_le_sqrt ?_
  exact add_le_add (key h.1 k.1) (key h.2 k.2)

omit lib hε hr in
theorem box_onSegment {a b c : Coord ℚ} (h : OnSegment c a b) : InBox a b c.x c.y := by
  obtain ⟨t, t0, t1, hx, hy'⟩ := h
  have key : ∀ {u v : ℚ}, min u v ≤ u + t * (v - u) ∧ u + t * (v - u) ≤ max u v := by
    intro u v
    rcases le_total u v with k | k
    · rw [min_eq_left k, max_eq_right k]; constructor <;> nlinarith
    · rw [min_eq_right k, max_eq_left k]; constructor <;> nlinarith
  rw [InBox, hx, hy']
  exact ⟨key, key⟩

/-- C122: the height of a proper crossing of two segments with heights: the mean of the heights of the segments above the crossing point `c`. -/
theorem C122_crossing {κ M : ℚ} {H : ℝ} {p1 p2 q1 q2 c : Coord ℚ} (hm : Meets κ p1 p2 q1 q2) (hp1 : FinePt p1) (hp2 : FinePt p2) (hq1 : FinePt q1) (hq2 : FinePt q2)
    (r1 : Reach M p1) (r2 : Reach M p2) (r3' : Reach M q1) (r4 : Reach M q2) (hM : M ≤ 2 ^ 80)
    (hH : Mid 200 H) (hz : ∀ e ∈ [p1, p2, q1, q2], IsF64 e.z ∧ |(e.z : ℝ)| ≤ H)
    (long : (κ : ℝ) ^ 2 * M / 2 ^ 36 ≤ Spec.dist (realPt p1) (realPt p2) ∧ (κ : ℝ) ^ 2 * M / 2 ^ 36 ≤ Spec.dist (realPt q1) (realPt q2))
    (cp : OnSegment c p1 p2) (cq : OnSegment c q1 q2) {u v : ℝ} (hu : Above u (realPt c) (r3 p1) (r3 p2)) (hv : Above v (realPt c) (r3 q1) (r3 q2))
    (s : LI (B64 sq hy)) (hs : s.pm = none) (h : (s.compute4 (p3 p1) (p3 p2) (p3 q1) (p3 q2)).isProper = true) :
    ∃ x y z d, (s.compute4 (p3 p1) (p3 p2) (p3 q1) (p3 q2)).getIntersection 0 = .ok d ∧ d.x = Fl.fin x ∧ d.y = Fl.fin y ∧ d.z = Fl.fin z ∧
      ((|x - c.x| ≤ |c.x| / 2 ^ 53 + κ * (2 * |c.x| + |c.y|) / 2 ^ 95 ∧ |y - c.y| ≤ |c.y| / 2 ^ 53 + κ * (2 * |c.y| + |c.x|) / 2 ^ 95) ∨
        (|x - c.x| ≤ κ ^ 2 * M / 2 ^ 37 ∧ |y - c.y| ≤ κ ^ 2 * M / 2 ^ 37)) ∧
      |(z : ℝ) - (u + v) / 2| ≤ H / 2 ^ 45 +
        H * Spec.dist (realPt (Coord.xy x y)) (realPt c) * (1 / Spec.dist (realPt p1) (realPt p2) + 1 / Spec.dist (realPt q1) (realPt q2)) := by
  have H0 := hH.pos
  obtain ⟨-, f2, f3, -⟩ := C122_plane s (p3 p1) (p3 p2) (p3 q1) (p3 q2)
  have h' : (s.compute4 (toB64 p1) (toB64 p2) (toB64 q1) (toB64 q2)).isProper = true := f2.symm.trans h
  obtain ⟨x, y, d, hd, dx, dy, fx, fy, pos, -⟩ := C121_crossing lib hε hm hp1 hp2 hq1 hq2 r1 r2 r3' r4 hM cp cq s hs h'
  have ed : d = (s.compute4 (toB64 p1) (toB64 p2) (toB64 q1) (toB64 q2)).pt0 := by cases hd; rfl
  rw [ed] at dx dy
  have ex : (s.compute4 (p3 p1) (p3 p2) (p3 q1) (p3 q2)).pt0.x = Fl.fin x := f3.1.trans dx
  have ey : (s.compute4 (p3 p1) (p3 p2) (p3 q1) (p3 q2)).pt0.y = Fl.fin y := f3.2.trans dy
  have M0 : (M : ℝ) ≤ 2 ^ 200 := le_trans (by exact_mod_cast hM) (pow_le_pow_right₀ (by norm_num : (1 : ℝ) ≤ 2) (by norm_num : 80 ≤ 200))
  have sz : ∀ {p : Coord ℚ}, FinePt p → Reach M p → Sized (M : ℝ) p := fun h k => (h.ordinary k).1
  -- the reported point
  have place : (|(x : ℝ)| ≤ M ∧ |(y : ℝ)| ≤ M) ∧ Spec.dist (realPt (Coord.xy x y)) (realPt c) ≤ Spec.dist (realPt p1) (realPt p2) ∧
      Spec.dist (realPt (Coord.xy x y)) (realPt c) ≤ Spec.dist (realPt q1) (realPt q2) := by
    rcases pos with ⟨i1, i2, -, -⟩ | ⟨e, he, rfl, rfl, k1, k2⟩
    · refine ⟨?_, box_dist i1 (box_onSegment cp), box_dist i2 (box_onSegment cq)⟩
      have key : ∀ {a b w : ℚ}, |a| ≤ M → |b| ≤ M → min a b ≤ w ∧ w ≤ max a b → |(w : ℝ)| ≤ M := by
        intro a b w ha hb hw
        have : |w| ≤ M := abs_le.mpr ⟨le_trans (le_min (abs_le.mp ha).1 (abs_le.mp hb).1) hw.1, hw.2.trans (max_le (abs_le.mp ha).2 (abs_le.mp hb).2)⟩
        exact_mod_cast this
      exact ⟨key r1.1 r2.1 i1.1, key r1.2 r2.2 i1.2⟩
    · have re : Reach M e := by
        simp only [List.mem_cons, List.not_mem_nil, or_false] at he
        rcases he with rfl | rfl | rfl | rfl <;> assumption
      have k : Spec.dist (realPt (Coord.xy e.x e.y)) (realPt c) ≤ (κ : ℝ) ^ 2 * M / 2 ^ 36 := by
        have k1' : |(e.x : ℝ) - c.x| ≤ (κ : ℝ) ^ 2 * M / 2 ^ 37 := by exact_mod_cast k1
        have k2' : |(e.y : ℝ) - c.y| ≤ (κ : ℝ) ^ 2 * M / 2 ^ 37 := by exact_mod_cast k2
        have t : Spec.dist (realPt (Coord.xy e.x e.y)) (realPt c) ≤ |(e.x : ℝ) - c.x| + |(e.y : ℝ) - c.y| := by
          refine Real.sqrt_le_iff.mpr ⟨by positivity, ?_⟩
          change ((e.x : ℝ) - c.x) ^ 2 + ((e.y : ℝ) - c.y) ^ 2 ≤ _
          nlinarith [sq_abs ((e.x : ℝ) - c.x), sq_abs ((e.y : ℝ) - c.y), mul_nonneg (abs_nonneg ((e.x : ℝ) - c.x)) (abs_nonneg ((e.y : ℝ) - c.y))]
        linarith
      exact ⟨⟨by exact_mod_cast re.1, by exact_mod_cast re.2⟩, k.trans long.1, k.trans long.2⟩
  obtain ⟨inM, near1, near2⟩ := place
  have sx : Sized (M : ℝ) (Coord.xy x y) := ⟨fx, fy, inM.1, inM.2⟩
  have wide : ∀ {a b w : Coord ℚ}, Extends a b → ¬ Same a b → (1 : ℝ) / 2 ^ 200 ≤ |(b.x : ℝ) - a.x| ∨ (1 : ℝ) / 2 ^ 200 ≤ |(b.y : ℝ) - a.y| := by
    intro a b _ h n
    rcases h with k | k
    · exact absurd k n
    · exact k
  have np : ¬ Same p1 p2 := fun k => hm.ne (by unfold dirDet; rw [k.1, k.2]; ring)
  have nq : ¬ Same q1 q2 := fun k => hm.ne (by unfold dirDet; rw [k.1, k.2]; ring)
  obtain ⟨z1, z2, z3, z4⟩ : (IsF64 p1.z ∧ |(p1.z : ℝ)| ≤ H) ∧ (IsF64 p2.z ∧ |(p2.z : ℝ)| ≤ H) ∧ (IsF64 q1.z ∧ |(q1.z : ℝ)| ≤ H) ∧ (IsF64 q2.z ∧ |(q2.z : ℝ)| ≤ H) :=
    ⟨hz _ (by simp), hz _ (by simp), hz _ (by simp), hz _ (by simp)⟩
  obtain ⟨U, U1, U2, U3, U4⟩ := C122_height lib hε hr M0 hH (sz hp1 r1) (sz hp2 r2) sx (wide (w := p1) (hp1.extends hp2) np) z1.1 z2.1 z1.2 z2.2 hu near1 _ ex ey
  obtain ⟨V, V1, V2, V3, V4⟩ := C122_height lib hε hr M0 hH (sz hq1 r3') (sz hq2 r4) sx (wide (w := p1) (hq1.extends hq2) nq) z3.1 z4.1 z3.2 z4.2 hv near2 _ ex ey
  obtain ⟨z, e1, e2, e3⟩ := mean_close (sq := sq) (hy := hy) hH U3 V3
  have k := (C95_crossing s (p3 p1) (p3 p2) (p3 q1) (p3 q2) h).1
  rw [U1, V1, e1] at k
  refine ⟨x, y, z, _, rfl, ex, ey, k rfl rfl rfl, ?_, ?_⟩
  · rcases pos with ⟨-, -, a1, a2⟩ | ⟨e, -, rfl, rfl, a1, a2⟩
    · exact Or.inl ⟨a1, a2⟩
    · exact Or.inr ⟨a1, a2⟩
  · generalize Spec.dist (realPt p1) (realPt p2) = L1 at *
    generalize Spec.dist (realPt q1) (realPt q2) = L2 at *
    generalize Spec.dist (realPt (Coord.xy x y)) (realPt c) = E at *
    have a1 := abs_sub_le (z : ℝ) (((U : ℝ) + V) / 2) ((u + v) / 2)
    have a2 : |((U : ℝ) + V) / 2 - (u + v) / 2| ≤ (|(U : ℝ) - u| + |(V : ℝ) - v|) / 2 := by
      rw [← sub_div, abs_div, abs_of_pos (show (0 : ℝ) < 2 by norm_num), show (U : ℝ) + V - (u + v) = (U - u) + (V - v) by ring]
      exact div_le_div_of_nonneg_right (abs_add_le _ _) (by norm_num)
    have a3 : H * E * (1 / L1 + 1 / L2) = (2 * H * E / L1 + 2 * H * E / L2) / 2 := by ring
    rw [a3]
    linarith

end Frac

/-- C122: the interpolated height can leave the range of the heights of the segment (by the rounding), even at a point of the segment. -/
theorem C122_leaves_range : ∃ (a b c : Coord ℚ) (z : ℚ), OnSegment c a b ∧ ¬ Same c a ∧ ¬ Same c b ∧ IsF64 a.z ∧ IsF64 b.z ∧
    LI.zInterpolate3 (toB64 c : Coord X64) (p3 a) (p3 b) = Fl.fin z ∧ a.z < b.z ∧ b.z < z := by
  refine ⟨Coord.xyz (-2 ^ 53) 0 (-1), Coord.xyz (3 / 2) 0 (1 - 1 / 2 ^ 53), Coord.xy (5 / 4) 0, 1, ⟨(5 / 4 + 2 ^ 53) / (3 / 2 + 2 ^ 53), by decide +kernel⟩,
    by unfold Same; decide +kernel, by unfold Same; decide +kernel, f64_of (by decide +kernel), f64_of (by decide +kernel), by decide +kernel, by decide +kernel, by decide +kernel⟩

/-- There is a library as assumed: square roots and distances with a relative error of at most `2^-52`, and small roots of numbers below `2^-1022`. -/
theorem roots_exist : ∃ (sq : ℚ → Val) (hy : ℚ → ℚ → Val), Lib64 sq hy (1 / 2 ^ 52) ∧ SmallRoots sq := by
  obtain ⟨sq, hy, h1, h2, h3, h4, h5⟩ := lib64_exists
  refine ⟨fun a => if a < 2 ^ (-1022 : ℤ) then .fin 0 else sq a, hy, ⟨h1, h2, fun a fa ha => ?_, h4, h5⟩, fun a _ _ ha => ⟨0, if_pos ha, by
    rw [Rat.cast_zero, abs_zero]; positivity⟩⟩
  obtain ⟨v, v1, v2⟩ := h3 a fa ha
  exact ⟨v, by rw [if_neg (not_lt.mpr ha)]; exact v1, v2⟩

/-- Two segments of doubles with heights of different sizes that cross properly. -/
example : let p1 : Coord ℚ := Coord.xyz (-3 / 2 ^ 60) 0 (1 / 2 ^ 30); let p2 : Coord ℚ := Coord.xyz (2 ^ 20) (2 ^ 19 + 1 / 2 ^ 20) (-1000)
    let q1 : Coord ℚ := Coord.xyz 2 (1 / 2) 7; let q2 : Coord ℚ := Coord.xyz (1 + 1 / 2 ^ 40) 7 (7 + 1 / 2 ^ 49)
    FinePt p1 ∧ FinePt p2 ∧ FinePt q1 ∧ FinePt q2 ∧ Meets 2 p1 p2 q1 q2 ∧ Reach (2 ^ 21) p1 ∧ Reach (2 ^ 21) p2 ∧ Reach (2 ^ 21) q1 ∧ Reach (2 ^ 21) q2 ∧
    Mid 200 1024 ∧ (∀ e ∈ [p1, p2, q1, q2], IsF64 e.z ∧ |(e.z : ℝ)| ≤ 1024) ∧
    (((2 : ℚ) : ℝ) ^ 2 * (2 ^ 21 : ℚ) / 2 ^ 36 ≤ Spec.dist (realPt p1) (realPt p2) ∧ ((2 : ℚ) : ℝ) ^ 2 * (2 ^ 21 : ℚ) / 2 ^ 36 ≤ Spec.dist (realPt q1) (realPt q2)) ∧
    (∃ (c : Coord ℚ) (u v : ℝ), OnSegment c p1 p2 ∧ OnSegment c q1 q2 ∧ Above u (realPt c) (r3 p1) (r3 p2) ∧ Above v (realPt c) (r3 q1) (r3 q2)) ∧
    ((LI.default : LI X64).compute4 (p3 p1) (p3 p2) (p3 q1) (p3 q2)).isProper = true := by
  intro p1 p2 q1 q2
  have fo : ∀ {x : ℚ}, rnd x = .fin x → (2 ^ (-78 : ℤ) ≤ |x| ∧ |x| ≤ 2 ^ (80 : ℤ)) → FineOrd x := fun h k => fineOrd_of (f64_of h) k.1 k.2
  refine ⟨⟨fo (by decide +kernel) (by decide +kernel), ⟨f64_of (by decide +kernel), ⟨0, by norm_num [p1, Coord.xyz]⟩, by decide +kernel⟩⟩,
    ⟨fo (by decide +kernel) (by decide +kernel), fo (by decide +kernel) (by decide +kernel)⟩,
    ⟨fo (by decide +kernel) (by decide +kernel), fo (by decide +kernel) (by decide +kernel)⟩,
    ⟨fo (by decide +kernel) (by decide +kernel), fo (by decide +kernel) (by decide +kernel)⟩,
    ⟨by decide +kernel, by decide +kernel, 2 ^ 20 + 1, 13 / 2, by unfold Wide; decide +kernel, by unfold Wide; decide +kernel, by decide +kernel⟩,
    by unfold Reach; decide +kernel, by unfold Reach; decide +kernel, by unfold Reach; decide +kernel, by unfold Reach; decide +kernel,
    ⟨by norm_num, by norm_num⟩, ?_, ?_, ?_, by decide +kernel⟩
  · have key : ∀ e ∈ [p1, p2, q1, q2], rnd e.z = .fin e.z ∧ |e.z| ≤ 1024 := by decide +kernel
    exact fun e he => ⟨f64_of (key e he).1, by exact_mod_cast (key e he).2⟩
  · have key : ∀ {a b : Coord ℚ} {w : ℝ}, 0 ≤ w → w ^ 2 ≤ ((a.x : ℝ) - b.x) ^ 2 + ((a.y : ℝ) - b.y) ^ 2 → w ≤ Spec.dist (realPt a) (realPt b) :=
      fun h k => Real.le_sqrt_of_sq_le k
    constructor <;> apply key (by norm_num) <;> norm_num [p1, p2, q1, q2, Coord.xyz]
  · obtain ⟨t, ht⟩ : ∃ t : ℚ, t = ((q1.x - p1.x) * (q2.y - q1.y) - (q1.y - p1.y) * (q2.x - q1.x)) / dirDet p1 p2 q1 q2 := ⟨_, rfl⟩
    obtain ⟨w, hw⟩ : ∃ w : ℚ, w = ((q1.x - p1.x) * (p2.y - p1.y) - (q1.y - p1.y) * (p2.x - p1.x)) / dirDet p1 p2 q1 q2 := ⟨_, rfl⟩
    have k : (0 ≤ t ∧ t ≤ 1 ∧ 0 ≤ w ∧ w ≤ 1) ∧ p1.x + t * (p2.x - p1.x) = q1.x + w * (q2.x - q1.x) ∧ p1.y + t * (p2.y - p1.y) = q1.y + w * (q2.y - q1.y) := by
      rw [ht, hw]; decide +kernel
    obtain ⟨⟨t0, t1, w0, w1⟩, kx, ky⟩ := k
    refine ⟨Coord.xy (p1.x + t * (p2.x - p1.x)) (p1.y + t * (p2.y - p1.y)), _, _, ⟨t, t0, t1, rfl, rfl⟩, ⟨w, w0, w1, kx, ky⟩,
      ⟨t, by exact_mod_cast t0, by exact_mod_cast t1, ?_, ?_, rfl⟩, ⟨w, by exact_mod_cast w0, by exact_mod_cast w1, ?_, ?_, rfl⟩⟩
    · simp only [realPt, r3, Coord.xy]; push_cast; ring
    · simp only [realPt, r3, Coord.xy]; push_cast; ring
    · rw [kx, ky]; simp only [realPt, r3, Coord.xy]; push_cast; ring
    · rw [kx, ky]; simp only [realPt, r3, Coord.xy]; push_cast; ring

end Verif.Props
