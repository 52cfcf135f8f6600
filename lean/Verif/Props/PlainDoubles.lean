import Verif.Props.CrossingDoubles
import Verif.Props.TriangleDoubles

/-! # C126: the plain formulas for the common point of two lines, for arbitrary doubles -/

set_option linter.unusedSectionVars false
set_option linter.unusedVariables false

namespace Verif.Props
open Flt Verif.Spec Verif.Binary64

variable {sq : ℚ → Val} {hy : ℚ → ℚ → Val}

/-- The plain formula, for values at most `N` in size known up to `N / 2^52`. -/
theorem plain_core {N κ : ℝ} (mN : Mid 150 N) (hκ : κ ≤ 2 ^ 42) {f1 g1 f2 g2 h1 k1 h2 k2 : B64 sq hy} {a1 b1 a2 b2 c1 d1 c2 d2 : ℝ}
    (sf1 : Sc 1 N f1 a1) (sg1 : Sc 1 N g1 b1) (sf2 : Sc 1 N f2 a2) (sg2 : Sc 1 N g2 b2) (sh1 : Sc 1 N h1 c1) (sk1 : Sc 1 N k1 d1) (sh2 : Sc 1 N h2 c2) (sk2 : Sc 1 N k2 d2)
    {w x y : ℝ} (ew : (b1 - b2) * (c2 - c1) - (d1 - d2) * (a2 - a1) = w) (h0 : w ≠ 0) (fl : N * N ≤ κ * |w|)
    (hp : a1 * b2 - a2 * b1 = x * (b2 - b1) - y * (a2 - a1)) (hq : c1 * d2 - c2 * d1 = x * (d2 - d1) - y * (c2 - c1)) :
    (∃ u : ℚ, ((f2 -. f1) *. (h1 *. k2 -. h2 *. k1) -. (h2 -. h1) *. (f1 *. g2 -. f2 *. g1)) /. ((g1 -. g2) *. (h2 -. h1) -. (k1 -. k2) *. (f2 -. f1)) = Fl.fin u ∧
      |x| ≤ 8 * κ * N ∧ |(u : ℝ) - x| ≤ κ * (130 * N + 200 * |x|) / 2 ^ 52) ∧
    (∃ u : ℚ, ((k1 -. k2) *. (f1 *. g2 -. f2 *. g1) -. (g1 -. g2) *. (h1 *. k2 -. h2 *. k1)) /. ((g1 -. g2) *. (h2 -. h1) -. (k1 -. k2) *. (f2 -. f1)) = Fl.fin u ∧
      |y| ≤ 8 * κ * N ∧ |(u : ℝ) - y| ≤ κ * (130 * N + 200 * |y|) / 2 ^ 52) ∧ 1 / 8 ≤ κ := by
  have N0 := mN.pos
  have m2 := mN.add mN
  have mm := mN.mul mN
  have mmm := mm.add mm
  have dif : ∀ {f g : B64 sq hy} {a b : ℝ}, Sc 1 N f a → Sc 1 N g b → Sc 2 (N + N) (f -. g) (a - b) := fun hf hg =>
    (hf.sub hg (e := 1) le_rfl le_rfl (by norm_num) (by norm_num) (m2.mono (by norm_num))).mono (by norm_num) (by norm_num) le_rfl
  have crs : ∀ {f g h k : B64 sq hy} {a b c d : ℝ}, Sc 1 N f a → Sc 1 N g b → Sc 1 N h c → Sc 1 N k d → Sc 5 (N * N + N * N) (f *. g -. h *. k) (a * b - c * d) := fun hf hg hh hk =>
    ((hf.mul hg (by norm_num) (by norm_num) (by norm_num) (by norm_num) (mm.mono (by norm_num))).sub
      (hh.mul hk (by norm_num) (by norm_num) (by norm_num) (by norm_num) (mm.mono (by norm_num))) (e := 4) (by norm_num) (by norm_num) (by norm_num) (by norm_num) (mmm.mono (by norm_num))).mono
        (by norm_num) (by norm_num) le_rfl
  have big := m2.mul mmm
  have num : ∀ {f g h k : B64 sq hy} {a b c d : ℝ}, Sc 2 (N + N) f a → Sc 5 (N * N + N * N) g b → Sc 2 (N + N) h c → Sc 5 (N * N + N * N) k d →
      Sc 10 ((N + N) * (N * N + N * N) + (N + N) * (N * N + N * N)) (f *. g -. h *. k) (a * b - c * d) := fun hf hg hh hk =>
    ((hf.mul hg (by norm_num) (by norm_num) (by norm_num) (by norm_num) (big.mono (by norm_num))).sub
      (hh.mul hk (by norm_num) (by norm_num) (by norm_num) (by norm_num) (big.mono (by norm_num))) (e := 9) (by norm_num) (by norm_num) (by norm_num) (by norm_num)
        ((big.add big).mono (by norm_num))).mono (by norm_num) (by norm_num) le_rfl
  have mden := m2.mul m2
  have den : Sc 7 ((N + N) * (N + N) + (N + N) * (N + N)) ((g1 -. g2) *. (h2 -. h1) -. (k1 -. k2) *. (f2 -. f1)) ((b1 - b2) * (c2 - c1) - (d1 - d2) * (a2 - a1)) :=
    (((dif sg1 sg2).mul (dif sh2 sh1) (by norm_num) (by norm_num) (by norm_num) (by norm_num) (mden.mono (by norm_num))).sub
      ((dif sk1 sk2).mul (dif sf2 sf1) (by norm_num) (by norm_num) (by norm_num) (by norm_num) (mden.mono (by norm_num))) (e := 6) (by norm_num) (by norm_num) (by norm_num) (by norm_num)
        ((mden.add mden).mono (by norm_num))).mono (by norm_num) (by norm_num) le_rfl
  rw [ew] at den
  have pw := crs sf1 sg2 sf2 sg1
  have qw := crs sh1 sk2 sh2 sk1
  obtain ⟨nx, ex, lx, rx⟩ := num (dif sf2 sf1) qw (dif sh2 sh1) pw
  obtain ⟨ny, ey, ly, ry⟩ := num (dif sk1 sk2) pw (dif sg1 sg2) qw
  obtain ⟨dn, ed, ld, rd⟩ := den
  have a0 : 0 < |w| := abs_pos.mpr h0
  have k0 : 1 / 8 ≤ κ := by
    by_contra hc
    have := mul_lt_mul_of_pos_right (not_le.mp hc) a0
    have : (N + N) * (N + N) + (N + N) * (N + N) = 8 * (N * N) := by ring
    linarith
  have X : (a2 - a1) * (c1 * d2 - c2 * d1) - (c2 - c1) * (a1 * b2 - a2 * b1) = x * w := by
    rw [hp, hq, ← ew]; ring
  have Y : (d1 - d2) * (a1 * b2 - a2 * b1) - (b1 - b2) * (c1 * d2 - c2 * d1) = y * w := by
    rw [hp, hq, ← ew]; ring
  rw [X] at lx rx
  rw [Y] at ly ry
  have w2 : 2 * (w / 2) = w := by ring
  have quot : ∀ {n : ℚ} {z : ℝ}, |z * w| ≤ (N + N) * (N * N + N * N) + (N + N) * (N * N + N * N) → |(n : ℝ) - z * w| ≤ 10 * ((N + N) * (N * N + N * N) + (N + N) * (N * N + N * N)) / 2 ^ 52 →
      ∃ u : ℚ, (Fl.fin n : B64 sq hy) /. Fl.fin dn = Fl.fin u ∧ |z| ≤ 8 * κ * N ∧ |(u : ℝ) - z| ≤ κ * (130 * N + 200 * |z|) / 2 ^ 52 := by
    intro n z l r
    have e1 : (N + N) * (N * N + N * N) + (N + N) * (N * N + N * N) = 8 * (N * N * N) := by ring
    rw [e1] at l r
    have n3 : 0 ≤ N * N * N := by positivity
    have n2 : 0 ≤ N * N := by positivity
    have zl : |z| ≤ 8 * κ * N := by
      rw [abs_mul] at l
      have := mul_le_mul_of_nonneg_right fl N0.le
      have l2 : |z| * |w| ≤ 8 * κ * N * |w| := l.trans (by linarith)
      exact le_of_mul_le_mul_right l2 a0
    have zq : z * w / (2 * (w / 2)) = z := by rw [w2, mul_div_cancel_right₀ _ h0]
    have kN : 0 ≤ κ * N := mul_nonneg (by linarith) N0.le
    obtain ⟨u, u1, u2⟩ := circum_quot (sq := sq) (hy := hy) (κ := 10 * κ) (Q := 5 * (N * N)) (D := N) (n := n) (d := dn) (N := z * w) (δ := w / 2) (by linarith) (by linarith) (mN.mono (by norm_num))
      (by refine r.trans (div_le_div_of_nonneg_right ?_ (by positivity)); linarith)
      (by
        rw [w2]
        refine rd.trans (div_le_div_of_nonneg_right ?_ (by positivity))
        have : (N + N) * (N + N) + (N + N) * (N + N) = 8 * (N * N) := by ring
        linarith) (div_ne_zero h0 two_ne_zero) (by
        rw [abs_div, abs_two]
        linarith) (by rw [zq]; linarith)
    rw [zq] at u2
    refine ⟨u, u1, zl, u2.trans (le_of_eq (by ring))⟩
  rw [ex, ey, ed]
  exact ⟨quot lx rx, quot ly ry, k0⟩

/-- The homogeneous equation of a line through a point. -/
theorem line_eq {c a b : Coord ℚ} (h : OnLineOf c a b) (m n : ℝ) :
    ((a.x : ℝ) - m) * (b.y - n) - (b.x - m) * (a.y - n) = (c.x - m) * ((b.y - n) - (a.y - n)) - (c.y - n) * ((b.x - m) - (a.x - m)) := by
  unfold OnLineOf det at h
  have : ((b.x : ℝ) - a.x) * (c.y - a.y) - (b.y - a.y) * (c.x - a.x) = 0 := by exact_mod_cast h
  linarith

/-- C126: the common point of two lines found with homogeneous coordinates, if the determinant of the directions is at least M²/κ: each ordinate is within κ/2^44 times M and its own size. -/
theorem C126_homogeneous {M κ : ℝ} (hM : Mid 150 M) (hκ : κ ≤ 2 ^ 42) {p1 p2 q1 q2 : Coord ℚ} (hp1 : Sized M p1) (hp2 : Sized M p2) (hq1 : Sized M q1) (hq2 : Sized M q2)
    (fl : M * M ≤ κ * |((dirDet p1 p2 q1 q2 : ℚ) : ℝ)|) (hd : dirDet p1 p2 q1 q2 ≠ 0) {c : Coord ℚ} (hc : OnLineOf c p1 p2) (hc' : OnLineOf c q1 q2) :
    ∃ u v : ℚ, HCoord.intersection (toB64 p1 : Coord (B64 sq hy)) (toB64 p2) (toB64 q1) (toB64 q2) = some (Coord.xy (Fl.fin u) (Fl.fin v)) ∧
      (HCoord.ofLines (toB64 p1 : Coord (B64 sq hy)) (toB64 p2) (toB64 q1) (toB64 q2)).getCoordinate = Coord.xy (Fl.fin u) (Fl.fin v) ∧
      |(u : ℝ) - c.x| ≤ κ * (M + |(c.x : ℝ)|) / 2 ^ 44 ∧ |(v : ℝ) - c.y| ≤ κ * (M + |(c.y : ℝ)|) / 2 ^ 44 := by
  have s : ∀ {x : ℚ}, |(x : ℝ)| ≤ M → Sc 1 M (Fl.fin x : B64 sq hy) x := fun h => (sc_exact h).mono (by norm_num) le_rfl le_rfl
  have ew : ((p1.y : ℝ) - p2.y) * (q2.x - q1.x) - (q1.y - q2.y) * (p2.x - p1.x) = ((dirDet p1 p2 q1 q2 : ℚ) : ℝ) := by unfold dirDet; push_cast; ring
  have l1 := line_eq hc 0 0
  have l2 := line_eq hc' 0 0
  simp only [sub_zero] at l1 l2
  obtain ⟨⟨u, u1, -, u2⟩, ⟨v, v1, -, v2⟩, k0⟩ := plain_core (sq := sq) (hy := hy) hM hκ (s hp1.2.2.1) (s hp1.2.2.2) (s hp2.2.2.1) (s hp2.2.2.2) (s hq1.2.2.1) (s hq1.2.2.2) (s hq2.2.2.1) (s hq2.2.2.2)
    ew (by exact_mod_cast hd) fl l1 l2
  have M0 := hM.pos
  have fin : ∀ {x : ℝ}, κ * (130 * M + 200 * |x|) / 2 ^ 52 ≤ κ * (M + |x|) / 2 ^ 44 := by
    intro x
    have : κ * (130 * M + 200 * |x|) ≤ κ * (256 * (M + |x|)) := mul_le_mul_of_nonneg_left (by linarith [abs_nonneg x]) (by linarith)
    calc _ ≤ κ * (256 * (M + |x|)) / 2 ^ 52 := div_le_div_of_nonneg_right this (by positivity)
      _ = _ := by ring
  have test : ∀ X Y : B64 sq hy, X = Fl.fin u → Y = Fl.fin v → (if isNaN X || isInf X || isNaN Y || isInf Y then none else some (Coord.xy X Y)) = some (Coord.xy (Fl.fin u) (Fl.fin v)) := by
    rintro _ _ rfl rfl; rfl
  have get : ∀ X Y : B64 sq hy, X = Fl.fin u → Y = Fl.fin v →
      ({ Coord.default with x := if isNaN X || isInf X then nan else X, y := if isNaN Y || isInf Y then nan else Y } : Coord (B64 sq hy)) = Coord.xy (Fl.fin u) (Fl.fin v) := by
    rintro _ _ rfl rfl; rfl
  exact ⟨u, v, test _ _ u1 v1, get _ _ u1 v1, u2.trans fin, v2.trans fin⟩

theorem twice_900 : (2 : ℝ) * 2 ^ 900 ≤ 2 ^ 1000 := by
  rw [← pow_succ']; exact pow_le_pow_right₀ (by norm_num) (by norm_num)

/-- The middle of the common part of the extents is a double of every interval that holds them. -/
theorem kernelMid_between {a b c d : ℚ} (ha : IsF64 a) (hb : IsF64 b) (hc : IsF64 c) (hd : IsF64 d)
    (la : |(a : ℝ)| ≤ 2 ^ 900) (lb : |(b : ℝ)| ≤ 2 ^ 900) (lc : |(c : ℝ)| ≤ 2 ^ 900) (ld : |(d : ℝ)| ≤ 2 ^ 900) :
    ∃ m : ℚ, Intersection.kernelMid (Fl.fin a : B64 sq hy) (Fl.fin b) (Fl.fin c) (Fl.fin d) = Fl.fin m ∧ IsF64 m ∧
      ∀ L U : ℝ, L ≤ a → a ≤ U → L ≤ b → b ≤ U → L ≤ c → c ≤ U → L ≤ d → d ≤ U → L ≤ m ∧ m ≤ U := by
  have pick : ∀ x y : ℚ, ∀ z w : ℚ, ∃ v, (if ((Fl.fin x : B64 sq hy) <. Fl.fin y) = true then (Fl.fin z : B64 sq hy) else Fl.fin w) = Fl.fin v ∧ (v = z ∨ v = w) := by
    intro x y z w
    split_ifs
    · exact ⟨z, rfl, Or.inl rfl⟩
    · exact ⟨w, rfl, Or.inr rfl⟩
  have pick' : ∀ x y : ℚ, ∀ z w : ℚ, ∃ v, (if ((Fl.fin x : B64 sq hy) >. Fl.fin y) = true then (Fl.fin z : B64 sq hy) else Fl.fin w) = Fl.fin v ∧ (v = z ∨ v = w) :=
    fun x y z w => pick y x z w
  unfold Intersection.kernelMid
  dsimp only
  obtain ⟨v1, e1, k1⟩ := pick a b a b
  obtain ⟨v2, e2, k2⟩ := pick' a b a b
  obtain ⟨v3, e3, k3⟩ := pick c d c d
  obtain ⟨v4, e4, k4⟩ := pick' c d c d
  rw [e1, e2, e3, e4]
  obtain ⟨v5, e5, k5⟩ := pick' v1 v3 v1 v3
  obtain ⟨v6, e6, k6⟩ := pick v2 v4 v2 v4
  rw [e5, e6]
  have all : ∀ P : ℚ → Prop, P a → P b → P c → P d → P v5 ∧ P v6 := by
    intro P pa pb pc pd
    refine ⟨?_, ?_⟩
    · rcases k5 with rfl | rfl
      · rcases k1 with rfl | rfl <;> assumption
      · rcases k3 with rfl | rfl <;> assumption
    · rcases k6 with rfl | rfl
      · rcases k2 with rfl | rfl <;> assumption
      · rcases k4 with rfl | rfl <;> assumption
  obtain ⟨f5, f6⟩ := all IsF64 ha hb hc hd
  obtain ⟨b5, b6⟩ := all (fun v => |(v : ℝ)| ≤ 2 ^ 900) la lb lc ld
  have fs : ∀ {x y : ℚ}, |(x : ℝ)| ≤ 2 ^ 900 → |(y : ℝ)| ≤ 2 ^ 900 → rnd (x + y) = .fin (near (x + y)) := by
    intro x y hx hy'
    refine (rnd_fin_iff _ _).mpr ⟨rfl, near_small ?_⟩
    push_cast
    have h := abs_add_le (x : ℝ) y
    refine le_trans ?_ twice_900
    generalize (2 : ℝ) ^ 900 = Z at *
    linarith
  have key : ∃ m, (Fl.fin v5 : B64 sq hy) +. Fl.fin v6 = Fl.fin (near (v5 + v6)) ∧ rnd (near (v5 + v6) / 2) = .fin m ∧ min v5 v6 ≤ m ∧ m ≤ max v5 v6 ∧ IsF64 m := by
    have s := fs b5 b6
    rcases le_total v5 v6 with h | h
    · obtain ⟨m, m1, m2, m3, m4⟩ := mid_between f5 f6 h s
      exact ⟨m, (rnd_fin_iff _ _).mpr ((rnd_fin_iff _ _).mp s), m1, by rwa [min_eq_left h], by rwa [max_eq_right h], m4⟩
    · obtain ⟨m, m1, m2, m3, m4⟩ := mid_between f6 f5 h (by rw [add_comm v6 v5]; exact s)
      exact ⟨m, (rnd_fin_iff _ _).mpr ((rnd_fin_iff _ _).mp s), m1, by rwa [min_eq_right h], by rwa [max_eq_left h], m4⟩
  obtain ⟨m, m0, m1, m2, m3, m4⟩ := key
  refine ⟨m, ?_, m4, fun L U l1 u1 l2 u2 l3 u3 l4 u4 => ?_⟩
  · rw [m0, div_two]
    exact (rnd_fin_iff _ _).mpr ((rnd_fin_iff _ _).mp m1)
  · obtain ⟨a1, a2⟩ := all (fun v => L ≤ v) l1 l2 l3 l4
    obtain ⟨b1, b2⟩ := all (fun v => (v : ℝ) ≤ U) u1 u2 u3 u4
    constructor
    · have : ((min v5 v6 : ℚ) : ℝ) ≤ m := by exact_mod_cast m2
      refine le_trans ?_ this
      push_cast; exact le_min a1 a2
    · have : (m : ℝ) ≤ ((max v5 v6 : ℚ) : ℝ) := by exact_mod_cast m3
      refine this.trans ?_
      push_cast; exact max_le b1 b2

/-- Four doubles at most `N` apart are at most `N` away from the middle of the common part of the extents. -/
theorem kernelMid_near {a b c d : ℚ} {N : ℝ} (ha : IsF64 a) (hb : IsF64 b) (hc : IsF64 c) (hd : IsF64 d)
    (la : |(a : ℝ)| ≤ 2 ^ 900) (lb : |(b : ℝ)| ≤ 2 ^ 900) (lc : |(c : ℝ)| ≤ 2 ^ 900) (ld : |(d : ℝ)| ≤ 2 ^ 900)
    (h : ∀ x ∈ [a, b, c, d], ∀ y ∈ [a, b, c, d], (x : ℝ) - y ≤ N) :
    ∃ m : ℚ, Intersection.kernelMid (Fl.fin a : B64 sq hy) (Fl.fin b) (Fl.fin c) (Fl.fin d) = Fl.fin m ∧ IsF64 m ∧ |(m : ℝ)| ≤ 2 ^ 900 ∧ ∀ x ∈ [a, b, c, d], |(x : ℝ) - m| ≤ N := by
  obtain ⟨m, e, f, bd⟩ := kernelMid_between (sq := sq) (hy := hy) ha hb hc hd la lb lc ld
  obtain ⟨a1, a2⟩ := abs_le.mp la
  obtain ⟨b1, b2⟩ := abs_le.mp lb
  obtain ⟨c1, c2⟩ := abs_le.mp lc
  obtain ⟨d1, d2⟩ := abs_le.mp ld
  refine ⟨m, e, f, abs_le.mpr (bd _ _ a1 a2 b1 b2 c1 c2 d1 d2), fun x hx => ?_⟩
  have up : ∀ y ∈ [a, b, c, d], (y : ℝ) ≤ x + N := fun y hy' => by linarith [h y hy' x hx]
  have lo : ∀ y ∈ [a, b, c, d], (x : ℝ) - N ≤ y := fun y hy' => by linarith [h x hx y hy']
  obtain ⟨l, u⟩ := bd (x - N) (x + N) (lo a (by simp)) (up a (by simp)) (lo b (by simp)) (up b (by simp)) (lo c (by simp)) (up c (by simp)) (lo d (by simp)) (up d (by simp))
  exact abs_le.mpr ⟨by linarith, by linarith⟩

/-- C126: the formula that first subtracts the middle of the common extents, for four points at most N apart in x and in y, if the determinant of the directions is at least N²/κ:
each ordinate is off by half a unit in the last place and κ/2^44 times 2 N and its distance from the first point. -/
theorem C126_conditioned {N κ : ℝ} (hN : Mid 150 N) (hκ : κ ≤ 2 ^ 42) {p1 p2 q1 q2 : Coord ℚ} (hs : ∀ p ∈ [p1, p2, q1, q2], Sized (2 ^ 900) p)
    (hx : ∀ p ∈ [p1, p2, q1, q2], ∀ q ∈ [p1, p2, q1, q2], (p.x : ℝ) - q.x ≤ N ∧ (p.y : ℝ) - q.y ≤ N)
    (fl : N * N ≤ κ * |((dirDet p1 p2 q1 q2 : ℚ) : ℝ)|) (hd : dirDet p1 p2 q1 q2 ≠ 0) {c : Coord ℚ} (hc : OnLineOf c p1 p2) (hc' : OnLineOf c q1 q2) :
    ∃ u v : ℚ, Intersection.intersectionFP (toB64 p1 : Coord (B64 sq hy)) (toB64 p2) (toB64 q1) (toB64 q2) = some (Coord.xy (Fl.fin u) (Fl.fin v)) ∧
      |(u : ℝ) - c.x| ≤ |(c.x : ℝ)| / 2 ^ 53 + κ * (2 * N + |(c.x : ℝ) - p1.x|) / 2 ^ 44 ∧ |(v : ℝ) - c.y| ≤ |(c.y : ℝ)| / 2 ^ 53 + κ * (2 * N + |(c.y : ℝ) - p1.y|) / 2 ^ 44 := by
  have N0 := hN.pos
  have s1 := hs p1 (by simp)
  have s2 := hs p2 (by simp)
  have s3 := hs q1 (by simp)
  have s4 := hs q2 (by simp)
  obtain ⟨mx, ex, fx, bx, nx⟩ := kernelMid_near (sq := sq) (hy := hy) (N := N) s1.1 s2.1 s3.1 s4.1 s1.2.2.1 s2.2.2.1 s3.2.2.1 s4.2.2.1 (by
    have := fun p hp q hq => (hx p hp q hq).1
    simpa using this)
  obtain ⟨my, ey, fy, by', ny⟩ := kernelMid_near (sq := sq) (hy := hy) (N := N) s1.2.1 s2.2.1 s3.2.1 s4.2.1 s1.2.2.2 s2.2.2.2 s3.2.2.2 s4.2.2.2 (by
    have := fun p hp q hq => (hx p hp q hq).2
    simpa using this)
  have sx : ∀ {x : ℚ}, IsF64 x → |(x : ℝ) - mx| ≤ N → Sc 1 N ((Fl.fin x : B64 sq hy) -. Fl.fin mx) (x - mx) := fun f h => sc_diff fx f h (hN.mono (by norm_num))
  have sy : ∀ {x : ℚ}, IsF64 x → |(x : ℝ) - my| ≤ N → Sc 1 N ((Fl.fin x : B64 sq hy) -. Fl.fin my) (x - my) := fun f h => sc_diff fy f h (hN.mono (by norm_num))
  have ew : (((p1.y : ℝ) - my) - (p2.y - my)) * ((q2.x - mx) - (q1.x - mx)) - ((q1.y - my) - (q2.y - my)) * ((p2.x - mx) - (p1.x - mx)) = ((dirDet p1 p2 q1 q2 : ℚ) : ℝ) := by
    unfold dirDet; push_cast; ring
  obtain ⟨⟨u, u1, u3, u2⟩, ⟨v, v1, v3, v2⟩, k0⟩ := plain_core (sq := sq) (hy := hy) hN hκ (sx s1.1 (nx _ (by simp))) (sy s1.2.1 (ny _ (by simp))) (sx s2.1 (nx _ (by simp))) (sy s2.2.1 (ny _ (by simp)))
    (sx s3.1 (nx _ (by simp))) (sy s3.2.1 (ny _ (by simp))) (sx s4.1 (nx _ (by simp))) (sy s4.2.1 (ny _ (by simp)))
    ew (by exact_mod_cast hd) fl (line_eq hc mx my) (line_eq hc' mx my)
  have last : ∀ {u m x p : ℚ}, |(m : ℝ)| ≤ 2 ^ 900 → |(p : ℝ) - m| ≤ N → |(x : ℝ) - m| ≤ 8 * κ * N → |(u : ℝ) - (x - m)| ≤ κ * (130 * N + 200 * |(x : ℝ) - m|) / 2 ^ 52 →
      (Fl.fin u : B64 sq hy) +. Fl.fin m = Fl.fin (near (u + m)) ∧ |((near (u + m) : ℚ) : ℝ) - x| ≤ |(x : ℝ)| / 2 ^ 53 + κ * (2 * N + |(x : ℝ) - p|) / 2 ^ 44 := by
    intro u m x p lm lp lx lu
    have q0 := abs_nonneg ((x : ℝ) - m)
    have kN : κ * N ≤ 2 ^ 42 * N := mul_le_mul_of_nonneg_right hκ N0.le
    have kN0 : 1 / 8 * N ≤ κ * N := mul_le_mul_of_nonneg_right k0 N0.le
    have E1 : κ * (130 * N + 200 * |(x : ℝ) - m|) / 2 ^ 52 ≤ 130 * N + 200 * |(x : ℝ) - m| := by
      rw [div_le_iff₀ (by positivity), mul_comm]
      exact mul_le_mul_of_nonneg_left (hκ.trans (by norm_num)) (by positivity)
    have t : ((u + m : ℚ) : ℝ) - x = u - (x - m) := by push_cast; ring
    have tx : |(x : ℝ)| ≤ |(x : ℝ) - m| + 2 ^ 900 := by
      have := abs_add_le ((x : ℝ) - m) m
      rw [sub_add_cancel] at this
      linarith
    have b1 := abs_sub_abs_le_abs_sub ((u + m : ℚ) : ℝ) x
    rw [t] at b1
    have big : |((u + m : ℚ) : ℝ)| ≤ 2 ^ 1000 := by
      have h1 : |((u + m : ℚ) : ℝ)| ≤ 2 ^ 60 * N + 2 ^ 900 := by
        have : (2 : ℝ) ^ 60 * N = 2 ^ 18 * (2 ^ 42 * N) := by ring
        have : (1 : ℝ) * N ≤ 2 ^ 42 * N := mul_le_mul_of_nonneg_right (by norm_num) N0.le
        have l8 : 8 * κ * N = 8 * (κ * N) := by ring
        rw [l8] at lx
        generalize (2 : ℝ) ^ 900 = Z at *
        linarith
      refine h1.trans ?_
      have m60 : Mid 60 ((2 : ℝ) ^ 60) := ⟨by norm_num, le_rfl⟩
      have h2 := ((m60.mul hN).mono (show 60 + 150 ≤ 900 by norm_num)).2
      refine le_trans ?_ twice_900
      clear lx tx lm b1
      generalize (2 : ℝ) ^ 900 = Z at *
      linarith
    refine ⟨(rnd_fin_iff _ _).mpr ⟨rfl, near_small big⟩, ?_⟩
    have k1 := near_err_real (u + m)
    have t2 : (2 : ℝ) ^ (-1075 : ℤ) ≤ N / 2 ^ 100 := tiny_mid hN (by norm_num)
    have tri := abs_sub_le ((near (u + m) : ℚ) : ℝ) ((u + m : ℚ) : ℝ) x
    rw [t] at tri
    have k2 : |((u + m : ℚ) : ℝ)| / 2 ^ 53 ≤ (|(x : ℝ)| + κ * (130 * N + 200 * |(x : ℝ) - m|) / 2 ^ 52) / 2 ^ 53 := div_le_div_of_nonneg_right (by linarith) (by positivity)
    have tp : |(x : ℝ) - m| ≤ |(x : ℝ) - p| + N := by have := abs_sub_le (x : ℝ) p m; linarith
    have p0 := abs_nonneg ((x : ℝ) - p)
    have kk : 0 ≤ κ := by linarith
    have m1 : κ * |(x : ℝ) - m| ≤ κ * |(x : ℝ) - p| + κ * N := by
      have := mul_le_mul_of_nonneg_left tp kk
      linarith
    have z0 : 0 ≤ κ * |(x : ℝ) - p| := mul_nonneg kk p0
    have e1 : κ * (130 * N + 200 * |(x : ℝ) - m|) / 2 ^ 52 = (130 * (κ * N) + 200 * (κ * |(x : ℝ) - m|)) / 2 ^ 52 := by ring
    have e2 : κ * (2 * N + |(x : ℝ) - p|) / 2 ^ 44 = (2 * (κ * N) + κ * |(x : ℝ) - p|) / 2 ^ 44 := by ring
    rw [e1] at lu k2
    rw [e2]
    generalize (2 : ℝ) ^ (-1075 : ℤ) = τ at *
    clear big b1 tx E1 lm lx tp e1 e2 kN
    generalize κ * N = A at *
    generalize κ * |(x : ℝ) - p| = B at *
    generalize κ * |(x : ℝ) - m| = C at *
    linarith
  obtain ⟨w1, w2⟩ := last (p := p1.x) bx (nx p1.x (by simp)) u3 u2
  obtain ⟨z1, z2⟩ := last (p := p1.y) by' (ny p1.y (by simp)) v3 v2
  have test : ∀ X Y : B64 sq hy, X = Fl.fin u → Y = Fl.fin v → (if isNaN X || isInf X || isNaN Y || isInf Y then none else some (Coord.xy (X +. Fl.fin mx) (Y +. Fl.fin my))) =
      some (Coord.xy (Fl.fin (near (u + mx))) (Fl.fin (near (v + my)))) := by
    rintro _ _ rfl rfl
    rw [w1, z1]; rfl
  refine ⟨near (u + mx), near (v + my), ?_, w2, z2⟩
  rw [← test _ _ u1 v1, ← ex, ← ey]
  rfl

/-- The lines through (0.1,0), (1,1) and through (0,1), (1,0.1), with the double nearest to 0.1, meet the hypotheses of both theorems with κ = 1. -/
example : let p1 : Coord ℚ := Coord.xy (3602879701896397 / 2 ^ 55) 0; let p2 : Coord ℚ := Coord.xy 1 1
    let q1 : Coord ℚ := Coord.xy 0 1; let q2 : Coord ℚ := Coord.xy 1 (3602879701896397 / 2 ^ 55)
    Mid 150 1 ∧ (∀ p ∈ [p1, p2, q1, q2], Sized 1 p) ∧ (∀ p ∈ [p1, p2, q1, q2], ∀ q ∈ [p1, p2, q1, q2], (p.x : ℝ) - q.x ≤ 1 ∧ (p.y : ℝ) - q.y ≤ 1) ∧
    (1 : ℝ) * 1 ≤ 1 * |((dirDet p1 p2 q1 q2 : ℚ) : ℝ)| ∧ dirDet p1 p2 q1 q2 ≠ 0 ∧ ∃ c, OnLineOf c p1 p2 ∧ OnLineOf c q1 q2 := by
  intro p1 p2 q1 q2
  have f0 : IsF64 0 := f64_zero
  have f1 : IsF64 1 := f64_of (by decide +kernel)
  have fx : IsF64 (3602879701896397 / 2 ^ 55) := f64_of (by decide +kernel)
  have hd : dirDet p1 p2 q1 q2 ≠ 0 := by norm_num [dirDet, p1, p2, q1, q2, Coord.xy]
  refine ⟨mid_one.mono (by norm_num), ?_, ?_, ?_, hd, _, (formula_on p1 p2 q1 q2 hd).1, (formula_on p1 p2 q1 q2 hd).2⟩
  · intro p hp
    simp only [List.mem_cons, List.not_mem_nil, or_false] at hp
    rcases hp with rfl | rfl | rfl | rfl
    · exact ⟨fx, f0, by norm_num [p1, Coord.xy, abs_le], by norm_num [p1, Coord.xy]⟩
    · exact ⟨f1, f1, by norm_num [p2, Coord.xy], by norm_num [p2, Coord.xy]⟩
    · exact ⟨f0, f1, by norm_num [q1, Coord.xy], by norm_num [q1, Coord.xy]⟩
    · exact ⟨f1, fx, by norm_num [q2, Coord.xy], by norm_num [q2, Coord.xy, abs_le]⟩
  · intro p hp q hq
    simp only [List.mem_cons, List.not_mem_nil, or_false] at hp hq
    rcases hp with rfl | rfl | rfl | rfl <;> rcases hq with rfl | rfl | rfl | rfl <;> norm_num [p1, p2, q1, q2, Coord.xy]
  · norm_num [dirDet, p1, p2, q1, q2, Coord.xy, abs_of_neg]

end Verif.Props
