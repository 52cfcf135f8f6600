import Verif.Props.OrientationGrid
import Verif.Lemmas.DDMul

/-! # C67: the accuracy of double-double products and of the orientation index of arbitrary binary64 points -/

namespace Verif.Props
open Flt Verif.Spec Verif.Binary64

variable {sq : ℚ → Val} {hy : ℚ → ℚ → Val}

theorem IsPair.zero {l : ℚ} (p : IsPair 0 l) : l = 0 := by
  have := p.near
  rwa [zero_add, near_of_rep p.lo.1] at this

theorem finite_fin {x : B64 sq hy} (h : isFinite x = true) : ∃ v, x = Fl.fin v := by
  revert h
  cases x <;> intro h <;> first | exact ⟨_, rfl⟩ | cases h

/-- The product of two normalised pairs is normalised and has a relative error of at most `2^-100`. -/
theorem C67_product (a b c d : ℚ) (p : IsPair a b) (q : IsPair c d) (hu : NoUnderflow a c)
    (hfin : isFinite ((⟨Fl.fin a, Fl.fin b⟩ : DD (B64 sq hy)).selfMul ⟨Fl.fin c, Fl.fin d⟩).hi = true) :
    ∃ h l, (⟨Fl.fin a, Fl.fin b⟩ : DD (B64 sq hy)).selfMul ⟨Fl.fin c, Fl.fin d⟩ = ⟨Fl.fin h, Fl.fin l⟩ ∧ IsPair h l ∧
      |h + l - (a + b) * (c + d)| ≤ |(a + b) * (c + d)| / 2 ^ 100 := by
  obtain ⟨v, hv⟩ := finite_fin hfin
  unfold DD.selfMul at hv ⊢
  rw [mulHiLo_errPart] at hv ⊢
  dsimp only at hv ⊢
  have k0 : ∀ p q : ℚ, (Fl.fin p : B64 sq hy) +. Fl.fin q = rnd (p + q) := fun _ _ => rfl
  have k1 : ∀ p q : ℚ, (Fl.fin p : B64 sq hy) -. Fl.fin q = rnd (p - q) := fun p q => fl_sub_fin p q
  obtain ⟨x, w, e1, e2, e3, e4⟩ := add64 hv
  obtain ⟨e, t, f1, f2, f3, f4⟩ := add64 e2
  obtain ⟨t1, t2, g1, g2, g3, g4⟩ := add64 f2
  obtain ⟨a', d', i1, i2, i3, -⟩ := mul64 g1
  obtain ⟨b', c', j1, j2, j3, -⟩ := mul64 g2
  obtain rfl := fin_inj i1
  obtain rfl := fin_inj i2
  obtain rfl := fin_inj j1
  obtain rfl := fin_inj j2
  obtain ⟨p1, p2, p3, p4⟩ := prod_part p.hi.1 q.hi.1 hu f1
  rw [p1] at e1
  obtain rfl := fin_inj e1
  have rw' : Rep w := f3 ▸ near_rep _
  have rx : Rep (near (a * c)) := near_rep _
  subst p3
  have main : |w| ≤ |near (a * c)| / 4 ∧ |near (a * c) + w - (a + b) * (c + d)| ≤ |(a + b) * (c + d)| / 2 ^ 100 := by
    have triv : (a + b) * (c + d) = 0 → a * c = 0 → a * d = 0 → b * c = 0 →
        |w| ≤ |near (a * c)| / 4 ∧ |near (a * c) + w - (a + b) * (c + d)| ≤ |(a + b) * (c + d)| / 2 ^ 100 := by
      intro z1 z2 z3 z4
      rw [z3, near_zero] at i3
      rw [z4, near_zero] at j3
      rw [← i3, ← j3, add_zero, near_zero] at g3
      rw [z2, near_zero, ← g3] at f3
      simp only [sub_zero, add_zero, near_zero] at f3
      rw [z1, z2, near_zero, ← f3]; simp
    rcases hu with rfl | rfl | ⟨-, -, hac⟩
    · obtain rfl := p.zero
      exact triv (by ring) (by ring) (by ring) (by ring)
    · obtain rfl := q.zero
      exact triv (by ring) (by ring) (by ring) (by ring)
    · have lb := low_rel p.hi.1 p.lo.1 p.near
      have ld := low_rel q.hi.1 q.lo.1 q.near
      obtain ⟨m1, m2, m3⟩ := mul_core hac lb ld i3 j3 g3 f3 p4
      have hn := abs_nonneg (a * c)
      refine ⟨by linarith, ?_⟩
      have h1 : |a| * (1 - 2 / 2 ^ 53) ≤ |a + b| := by
        have := abs_sub_abs_le_abs_sub a (-b)
        rw [abs_neg, sub_neg_eq_add] at this
        linarith
      have h2 : |c| * (1 - 2 / 2 ^ 53) ≤ |c + d| := by
        have := abs_sub_abs_le_abs_sub c (-d)
        rw [abs_neg, sub_neg_eq_add] at this
        linarith
      have h3 : |a * c| * (1 / 2) ≤ |(a + b) * (c + d)| := by
        rw [abs_mul, abs_mul]
        have hc1 : (0 : ℚ) ≤ 1 - 2 / 2 ^ 53 := by norm_num
        have := mul_le_mul h1 h2 (mul_nonneg (abs_nonneg c) hc1) (abs_nonneg _)
        refine le_trans ?_ this
        have hac' : (0 : ℚ) ≤ |a| * |c| := by positivity
        have : |a| * (1 - 2 / 2 ^ 53) * (|c| * (1 - 2 / 2 ^ 53)) = |a| * |c| * ((1 - 2 / 2 ^ 53) * (1 - 2 / 2 ^ 53)) := by ring
        rw [this]
        exact mul_le_mul_of_nonneg_left (by norm_num) hac'
      have h4 : |a * c| / 2 ^ 101 = |a * c| * (1 / 2) / 2 ^ 100 := by ring
      rw [h4] at m2
      exact le_trans m2 (div_le_div_of_nonneg_right h3 (by positivity))
  obtain ⟨m0, m2⟩ := main
  have hp0 := abs_nonneg (near (a * c))
  have m1 : |w| ≤ |near (a * c)| := by linarith
  have hr : Rep (near (a * c) - v) := by
    have := (fast_rep rx rw' (expo_mono m1)).neg
    rwa [neg_sub, e3] at this
  have re := err_rep rx rw'
  rw [e3] at re
  have hle : |near (a * c) + w - v| ≤ |w| := by
    have h := err_le_left (a := w) rx
    rw [add_comm w] at h
    rwa [e3] at h
  have hd2 : |near (a * c) - v| ≤ |near (a * c)| := by
    have : near (a * c) - v = (near (a * c) + w - v) + -w := by ring
    rw [this]
    refine le_trans (abs_add_le _ _) ?_
    rw [abs_neg]; linarith
  have s1 : (Fl.fin (near (a * c)) : B64 sq hy) -. Fl.fin v = Fl.fin (near (a * c) - v) := by
    rw [k1]
    exact rnd_of_f64 ⟨hr, lt_of_le_of_lt hd2 p2⟩
  have s2 : (Fl.fin w : B64 sq hy) +. Fl.fin (near (a * c) - v) = Fl.fin (near (a * c) + w - v) := by
    rw [k0, show w + (near (a * c) - v) = near (a * c) + w - v by ring]
    exact rnd_of_f64 ⟨re, lt_of_le_of_lt hle f4⟩
  refine ⟨v, near (a * c) + w - v, ?_, ⟨⟨e3 ▸ near_rep _, e4⟩, ⟨re, lt_of_le_of_lt hle f4⟩, ?_⟩, ?_⟩
  · rw [e2, p1, show (Fl.fin (near (a * c)) : B64 sq hy) +. Fl.fin w = Fl.fin v from (rnd_fin_iff _ _).mpr ⟨e3, e4⟩, s1, s2]
  · rw [show v + (near (a * c) + w - v) = near (a * c) + w by ring]
    exact (rnd_fin_iff _ _).mpr ⟨e3, e4⟩
  · rw [show v + (near (a * c) + w - v) = near (a * c) + w by ring]
    exact m2

/-- Two such pairs whose product does not fit into a pair. -/
example : IsPair 1 (1 / 2 ^ 60) ∧ IsPair 3 (1 / 2 ^ 70) ∧ NoUnderflow 1 3 ∧
    isFinite ((⟨Fl.fin 1, Fl.fin (1 / 2 ^ 60)⟩ : DD X64).selfMul ⟨Fl.fin 3, Fl.fin (1 / 2 ^ 70)⟩).hi = true := by
  refine ⟨⟨f64_of (by decide +kernel), f64_of (by decide +kernel), by decide +kernel⟩,
    ⟨f64_of (by decide +kernel), f64_of (by decide +kernel), by decide +kernel⟩,
    Or.inr (Or.inr ⟨by unfold Normal; decide +kernel, by unfold Normal; decide +kernel, by decide +kernel⟩), by decide +kernel⟩

/-! ## The orientation index of arbitrary points -/

theorem bd_selfMul' {k : ℤ} {x y : DD (B64 sq hy)} (xh : Bd k x.hi) (xl : Bd k x.lo) (yh : Bd k y.hi) (yl : Bd k y.lo) (h1 : -537 ≤ k)
    (h2 : 2 * k + 70 ≤ 1023) : Bd (2 * k + 70) (x.selfMul y).hi := by
  unfold DD.selfMul
  rw [mulHiLo_errPart]
  dsimp only
  have e := bd_errPart xh yh (by omega) (by omega)
  have p := xh.mul yh (by omega) (by omega)
  have z1 := xh.mul yl (by omega) (by omega)
  have z2 := xl.mul yh (by omega) (by omega)
  have z := z1.add z2 (by omega) (by omega)
  have c := e.add (z.mono (by omega)) (by omega) (by omega)
  exact ((p.mono (by omega)).add c (by omega) (by omega)).mono (by omega)

/-- A product that neither vanishes by underflow nor is tiny. -/
def Tame (u v : ℚ) : Prop := u * v = 0 ∨ 2 ^ (-500 : ℤ) ≤ |u * v|

/-- The ordinates are binary64 numbers of size at most `2^400`. -/
structure IsModerate (p : Coord ℚ) : Prop where
  pt : IsPoint p
  bx : |p.x| ≤ 2 ^ (400 : ℤ)
  by' : |p.y| ≤ 2 ^ (400 : ℤ)

theorem diff_bound {x y : ℚ} (hx : |x| ≤ 2 ^ (400 : ℤ)) (hy : |y| ≤ 2 ^ (400 : ℤ)) : |x - y| ≤ 2 ^ (401 : ℤ) := by
  rw [show (401 : ℤ) = 400 + 1 by norm_num, two_add, zpow_one]
  linarith [abs_sub x y]

theorem IsPair.low_le {h l : ℚ} (hp : IsPair h l) : |l| ≤ |h| := by
  have := low_rel hp.hi.1 hp.lo.1 hp.near
  have h0 := abs_nonneg h
  refine this.trans (mul_le_of_le_one_left h0 ?_)
  norm_num

/-- A difference of two numbers as a pair. -/
theorem diff_is_pair {x y : ℚ} (fx : IsF64 x) (fy : IsF64 y) (hx : |x| ≤ 2 ^ (400 : ℤ)) (hy' : |y| ≤ 2 ^ (400 : ℤ)) :
    ∃ h l, (DD.ofF (Fl.fin x : B64 sq hy)).addF (-.(Fl.fin y)) = ⟨Fl.fin h, Fl.fin l⟩ ∧ h + l = x - y ∧ h = near (x - y) ∧ IsPair h l ∧
      |h| ≤ 2 ^ (401 : ℤ) ∧ |l| ≤ 2 ^ (401 : ℤ) := by
  have fny : IsF64 (-y) := ⟨fy.1.neg, by rw [abs_neg]; exact fy.2⟩
  have bx : Bd 400 (Fl.fin x : B64 sq hy) := ⟨x, rfl, hx⟩
  have by' : Bd 400 (Fl.fin y : B64 sq hy) := ⟨y, rfl, hy'⟩
  obtain ⟨h, l, e1, e2, e3, e4⟩ := C63_sum (sq := sq) (hy := hy) x (-y) fx fny (bd_addF bx by'.neg (by omega) (by omega)).finite
  have hp : IsPair h l := ⟨rnd_f64 e3, e4, by rw [e2]; exact e3⟩
  have e5 := ((rnd_fin_iff _ _).mp e3).1
  rw [← sub_eq_add_neg] at e2 e5
  have hh : |h| ≤ 2 ^ (401 : ℤ) := by rw [← e5]; exact near_le_pow (by norm_num) (diff_bound hx hy')
  refine ⟨h, l, e1, e2, e5.symm, hp, hh, ?_⟩
  exact hp.low_le.trans hh

theorem near_half {x y : ℚ} (rx : Rep x) (ry : Rep y) : |x - y| / 2 ≤ |near (x - y)| := by
  have := near_ge_rel rx ry.neg
  rw [← sub_eq_add_neg] at this
  have h0 := abs_nonneg (x - y)
  linarith

theorem tame_big {u v : ℚ} (hv : |v| ≤ 2 ^ (401 : ℤ)) (h : 2 ^ (-500 : ℤ) ≤ |u * v|) : 2 ^ (-901 : ℤ) ≤ |u| := by
  by_contra hc
  push Not at hc
  rw [abs_mul] at h
  have h1 := mul_le_mul hc.le hv (abs_nonneg v) (two_pos _).le
  rw [← two_add] at h1
  have hv0 : 0 < |v| := by
    rcases eq_or_lt_of_le (abs_nonneg v) with h0 | h0
    · rw [← h0, mul_zero] at h
      exact absurd h (not_le.mpr (two_pos _))
    · exact h0
  have h2 : |u| * |v| < 2 ^ (-901 : ℤ) * |v| := mul_lt_mul_of_pos_right hc hv0
  have h3 : (2 : ℚ) ^ (-901 : ℤ) * |v| ≤ 2 ^ (-901 : ℤ) * 2 ^ (401 : ℤ) := mul_le_mul_of_nonneg_left hv (two_pos _).le
  rw [← two_add] at h3
  norm_num at h h2 h3
  linarith

theorem tame_noUnderflow {x x' y y' : ℚ} (rx : Rep x) (rx' : Rep x') (ry : Rep y) (ry' : Rep y') (hu : |x - x'| ≤ 2 ^ (401 : ℤ))
    (hv : |y - y'| ≤ 2 ^ (401 : ℤ)) (h : Tame (x - x') (y - y')) :
    NoUnderflow (near (x - x')) (near (y - y')) ∧
      (near (x - x') * near (y - y') = 0 ∨ 2 ^ (-1022 : ℤ) ≤ |near (x - x') * near (y - y')|) := by
  rcases h with h | h
  · rcases mul_eq_zero.mp h with h | h <;> rw [h, near_zero]
    · exact ⟨Or.inl rfl, Or.inl (by ring)⟩
    · exact ⟨Or.inr (Or.inl rfl), Or.inl (by ring)⟩
  · have a1 := tame_big hv h
    have a2 := tame_big hu (by rw [mul_comm (y - y')]; exact h)
    have b1 := near_half rx rx'
    have b2 := near_half ry ry'
    have c : |(x - x') * (y - y')| / 4 ≤ |near (x - x') * near (y - y')| := by
      rw [abs_mul, abs_mul]
      have := mul_le_mul b1 b2 (by positivity) (abs_nonneg _)
      linarith
    have n : ∀ {w z : ℚ}, 2 ^ (-901 : ℤ) ≤ |w| → |w| / 2 ≤ |z| → Normal z := by
      intro w z h1 h2
      refine le_trans (two_mono (by norm_num : (-1022 : ℤ) ≤ -902)) (le_trans ?_ h2)
      rw [le_div_iff₀ (by norm_num)]
      refine le_trans (le_of_eq ?_) h1
      rw [show (-901 : ℤ) = -902 + 1 by norm_num, two_add _ 1, zpow_one]
    have d : 2 ^ (-502 : ℤ) ≤ |near (x - x') * near (y - y')| := by
      refine le_trans ?_ c
      rw [le_div_iff₀ (by norm_num)]
      refine le_trans (le_of_eq ?_) h
      rw [show (-500 : ℤ) = -502 + 2 by norm_num, two_add _ 2]; norm_num
    exact ⟨Or.inr (Or.inr ⟨n a1 b1, n a2 b2, le_trans (two_mono (by norm_num)) d⟩), Or.inr (le_trans (two_mono (by norm_num)) d)⟩

/-- A product of two differences as a pair. -/
theorem prod_is_pair {x x' y y' : ℚ} (fx : IsF64 x) (fx' : IsF64 x') (fy : IsF64 y) (fy' : IsF64 y') (bx : |x| ≤ 2 ^ (400 : ℤ))
    (bx' : |x'| ≤ 2 ^ (400 : ℤ)) (by1 : |y| ≤ 2 ^ (400 : ℤ)) (by2 : |y'| ≤ 2 ^ (400 : ℤ)) (h : Tame (x - x') (y - y')) :
    ∃ h l, ((DD.ofF (Fl.fin x : B64 sq hy)).addF (-.(Fl.fin x'))).selfMul ((DD.ofF (Fl.fin y)).addF (-.(Fl.fin y'))) = ⟨Fl.fin h, Fl.fin l⟩ ∧
      IsPair h l ∧ |h + l - (x - x') * (y - y')| ≤ |(x - x') * (y - y')| / 2 ^ 100 ∧ |h| ≤ 2 ^ (872 : ℤ) ∧ |l| ≤ 2 ^ (872 : ℤ) := by
  obtain ⟨a, b, e1, e2, e3, e4, e5, e6⟩ := diff_is_pair (sq := sq) (hy := hy) fx fx' bx bx'
  obtain ⟨c, d, f1, f2, f3, f4, f5, f6⟩ := diff_is_pair (sq := sq) (hy := hy) fy fy' by1 by2
  rw [e1, f1]
  have hb : Bd (2 * 401 + 70) ((⟨Fl.fin a, Fl.fin b⟩ : DD (B64 sq hy)).selfMul ⟨Fl.fin c, Fl.fin d⟩).hi :=
    bd_selfMul' (k := 401) ⟨a, rfl, e5⟩ ⟨b, rfl, e6⟩ ⟨c, rfl, f5⟩ ⟨d, rfl, f6⟩ (by norm_num) (by norm_num)
  have hu := (tame_noUnderflow fx.1 fx'.1 fy.1 fy'.1 (diff_bound bx bx') (diff_bound by1 by2) h).1
  rw [← e3, ← f3] at hu
  obtain ⟨s, t, g1, g2, g3⟩ := C67_product (sq := sq) (hy := hy) a b c d e4 f4 hu hb.finite
  rw [e2, f2] at g3
  have hs : |s| ≤ 2 ^ (872 : ℤ) := by
    obtain ⟨v, v1, v2⟩ := hb
    rw [g1] at v1
    have := fin_inj v1
    rw [this]; exact v2
  refine ⟨s, t, g1, g2, g3, hs, ?_⟩
  exact g2.low_le.trans hs

/-- The two products of the determinant, as the double-double part takes them, are not too close, or both vanish. -/
def Resolved (p q r : Coord ℚ) : Prop :=
  (|(q.x - p.x) * (r.y - q.y)| + |(q.y - p.y) * (r.x - q.x)|) / 2 ^ 100 < |det p q r| ∨
  ((q.x - p.x) * (r.y - q.y) = 0 ∧ (q.y - p.y) * (r.x - q.x) = 0)

theorem ddIndex_general {p q r : Coord ℚ} (hp : IsModerate p) (hq : IsModerate q) (hr : IsModerate r)
    (t1 : Tame (q.x - p.x) (r.y - q.y)) (t2 : Tame (q.y - p.y) (r.x - q.x)) (hm : Resolved p q r) :
    CGDD.ddIndex (Fl.fin p.x : B64 sq hy) (Fl.fin p.y) (Fl.fin q.x) (Fl.fin q.y) (Fl.fin r.x) (Fl.fin r.y) = sgn (det p q r) := by
  unfold CGDD.ddIndex
  dsimp only
  obtain ⟨a, b, e1, e2, e3, e4, e5⟩ := prod_is_pair (sq := sq) (hy := hy) hq.pt.x hp.pt.x hr.pt.y hq.pt.y hq.bx hp.bx hr.by' hq.by' t1
  obtain ⟨c, d, f1, f2, f3, f4, f5⟩ := prod_is_pair (sq := sq) (hy := hy) hq.pt.y hp.pt.y hr.pt.x hq.pt.x hq.by' hp.by' hr.bx hq.bx t2
  rw [e1, f1]
  have hb : Bd (872 + 12) ((⟨Fl.fin a, Fl.fin b⟩ : DD (B64 sq hy)).sub ⟨Fl.fin c, Fl.fin d⟩).hi :=
    bd_addHiLo (k := 872) ⟨a, rfl, e4⟩ ⟨b, rfl, e5⟩ ⟨-c, rfl, by rw [abs_neg]; exact f4⟩ ⟨-d, rfl, by rw [abs_neg]; exact f5⟩ (by norm_num) (by norm_num)
  rw [(C64_difference_sign a b c d e2 f2 hb.finite).2]
  have hd : det p q r = (q.x - p.x) * (r.y - q.y) - (q.y - p.y) * (r.x - q.x) := by unfold det; ring
  rcases hm with hm | ⟨z1, z2⟩
  · apply sgn_of_close
    refine lt_of_le_of_lt ?_ hm
    have : a + b - (c + d) - det p q r = (a + b - (q.x - p.x) * (r.y - q.y)) - (c + d - (q.y - p.y) * (r.x - q.x)) := by rw [hd]; ring
    rw [this]
    refine le_trans (abs_sub _ _) ?_
    rw [add_div]
    exact add_le_add e3 f3
  · rw [z1] at e3
    rw [z2] at f3
    simp only [sub_zero, abs_zero, zero_div, abs_nonpos_iff] at e3 f3
    rw [e3, f3, hd, z1, z2]

theorem safe_general {x x' y y' : ℚ} (fx : IsF64 x) (fx' : IsF64 x') (fy : IsF64 y) (fy' : IsF64 y') (bx : |x| ≤ 2 ^ (400 : ℤ))
    (bx' : |x'| ≤ 2 ^ (400 : ℤ)) (by1 : |y| ≤ 2 ^ (400 : ℤ)) (by2 : |y'| ≤ 2 ^ (400 : ℤ)) (h : Tame (x - x') (y - y')) :
    ∃ w, SafeProduct x x' y y' w := by
  have h1 := near_le_pow (by norm_num) (diff_bound bx bx')
  have h2 := near_le_pow (by norm_num) (diff_bound by1 by2)
  have big : ∀ k : ℤ, k ≤ 1023 → (2 : ℚ) ^ k < 2 ^ 1024 := by
    intro k hk; rw [← zpow_natCast, two_lt_iff]; push_cast; omega
  have h3 : |near (x - x') * near (y - y')| ≤ 2 ^ (802 : ℤ) := by
    rw [abs_mul, show (802 : ℤ) = 401 + 401 by norm_num, two_add]
    exact mul_le_mul h1 h2 (abs_nonneg _) (two_pos _).le
  exact ⟨_, _, _, (rnd_fin_iff _ _).mpr ⟨rfl, lt_of_le_of_lt h1 (big _ (by norm_num))⟩, (rnd_fin_iff _ _).mpr ⟨rfl, lt_of_le_of_lt h2 (big _ (by norm_num))⟩,
    (rnd_fin_iff _ _).mpr ⟨rfl, lt_of_le_of_lt (near_le_pow (by norm_num) h3) (big _ (by norm_num))⟩,
    (tame_noUnderflow fx.1 fx'.1 fy.1 fy'.1 (diff_bound bx bx') (diff_bound by1 by2) h).2⟩

/-- The orientation index of any three binary64 points of moderate size is the sign of the exact determinant, unless the determinant
is smaller than `2^-100` of its two products. -/
theorem C67_index (p q r : Coord ℚ) (hp : IsModerate p) (hq : IsModerate q) (hr : IsModerate r)
    (t1 : Tame (q.x - p.x) (r.y - q.y)) (t2 : Tame (q.y - p.y) (r.x - q.x))
    (t3 : Tame (p.x - r.x) (q.y - r.y)) (t4 : Tame (p.y - r.y) (q.x - r.x)) (hm : Resolved p q r) :
    Orientation.index (toB64 p : Coord (B64 sq hy)) (toB64 q) (toB64 r) = sgn (det p q r) := by
  obtain ⟨l, hl⟩ := safe_general hp.pt.x hr.pt.x hq.pt.y hr.pt.y hp.bx hr.bx hq.by' hr.by' t3
  obtain ⟨m, hm'⟩ := safe_general hp.pt.y hr.pt.y hq.pt.x hr.pt.x hp.by' hr.by' hq.bx hr.bx t4
  have hd := ddIndex_general (sq := sq) (hy := hy) hp hq hr t1 t2 hm
  have hs : sgn (det p q r) ≤ 1 := by unfold sgn; split_ifs <;> simp
  rcases C30_filter_never_lies (sq := sq) (hy := hy) p q r hp.pt hq.pt hr.pt hl hm' with hf | hf
  · exact (congrArg (fun i => if i ≤ 1 then i else CGDD.ddIndex (Fl.fin p.x : B64 sq hy) (Fl.fin p.y) (Fl.fin q.x) (Fl.fin q.y) (Fl.fin r.x) (Fl.fin r.y)) hf).trans
      (if_pos hs)
  · refine (congrArg (fun i => if i ≤ 1 then i else CGDD.ddIndex (Fl.fin p.x : B64 sq hy) (Fl.fin p.y) (Fl.fin q.x) (Fl.fin q.y) (Fl.fin r.x) (Fl.fin r.y)) hf).trans ?_
    exact (if_neg (by norm_num)).trans hd

/-- Nearer than that the index is not to be trusted: three exactly collinear points are reported as a right turn. -/
theorem C67_collinear_missed : ∃ p q r : Coord ℚ, IsModerate p ∧ IsModerate q ∧ IsModerate r ∧ det p q r = 0 ∧
    Orientation.index (toB64 p : Coord X64) (toB64 q) (toB64 r) = -1 := by
  refine ⟨Coord.xy 0 0, Coord.xy 6964925429 6051678843, Coord.xy 11471633658268050522112 9967463889179775074304,
    ⟨⟨f64_of (by decide +kernel), f64_of (by decide +kernel)⟩, by decide +kernel, by decide +kernel⟩,
    ⟨⟨f64_of (by decide +kernel), f64_of (by decide +kernel)⟩, by decide +kernel, by decide +kernel⟩,
    ⟨⟨f64_of (by decide +kernel), f64_of (by decide +kernel)⟩, by decide +kernel, by decide +kernel⟩, by decide +kernel, by decide +kernel⟩

/-- And a left turn is reported as a right turn. -/
theorem C67_wrong_turn : ∃ p q r : Coord ℚ, IsModerate p ∧ IsModerate q ∧ IsModerate r ∧ 0 < det p q r ∧
    Orientation.index (toB64 p : Coord X64) (toB64 q) (toB64 r) = -1 := by
  refine ⟨Coord.xy (-1 / 2 ^ 80) 0, Coord.xy 6964925429 6051678843, Coord.xy 11471633658268050522112 9967463889179775074304,
    ⟨⟨f64_of (by decide +kernel), f64_of (by decide +kernel)⟩, by decide +kernel, by decide +kernel⟩,
    ⟨⟨f64_of (by decide +kernel), f64_of (by decide +kernel)⟩, by decide +kernel, by decide +kernel⟩,
    ⟨⟨f64_of (by decide +kernel), f64_of (by decide +kernel)⟩, by decide +kernel, by decide +kernel⟩, by decide +kernel, by decide +kernel⟩

/-- Two ulps to the left of the third point the same triple satisfies the hypotheses, although the floating point filter cannot decide it. -/
example : let p : Coord ℚ := Coord.xy 0 0; let q : Coord ℚ := Coord.xy 6964925429 6051678843
    let r : Coord ℚ := Coord.xy 11471633658268050522112 (9967463889179775074304 + 2 ^ 22)
    IsModerate r ∧ Tame (q.x - p.x) (r.y - q.y) ∧ Tame (q.y - p.y) (r.x - q.x) ∧ Tame (p.x - r.x) (q.y - r.y) ∧ Tame (p.y - r.y) (q.x - r.x) ∧
    Resolved p q r ∧ sgn (det p q r) = 1 ∧ CGDD.filter (Fl.fin p.x : X64) (Fl.fin p.y) (Fl.fin q.x) (Fl.fin q.y) (Fl.fin r.x) (Fl.fin r.y) = 2 := by
  refine ⟨⟨⟨f64_of (by decide +kernel), f64_of (by decide +kernel)⟩, by decide +kernel, by decide +kernel⟩, Or.inr (by decide +kernel),
    Or.inr (by decide +kernel), Or.inr (by decide +kernel), Or.inr (by decide +kernel), Or.inl (by decide +kernel), by decide +kernel, by decide +kernel⟩

end Verif.Props
