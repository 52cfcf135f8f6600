import Verif.Props.NearbyDoubles
import Verif.Props.LineSegmentReal

/-! # C131: closest points of segments of doubles -/

set_option linter.unusedSectionVars false

namespace Verif.Props
open Flt Verif.Spec Verif.Binary64
variable {sq : ℚ → Val} {hy : ℚ → ℚ → Val}

/-- Both ordinates are doubles of at most the size `M` and multiples of 2^-180 (as zero and every double of more than 2^-127 is, `rep_fine`). -/
structure Solid (M : ℚ) (c : Coord ℚ) : Prop where
  pt : IsPoint c
  bx : |c.x| ≤ M
  by' : |c.y| ≤ M
  mx : Mul2 (-180) c.x
  my : Mul2 (-180) c.y

/-- A double is a multiple of 2^e if it is larger than 2^(e+53). -/
theorem rep_fine {e : ℤ} {x : ℚ} (h : Rep x) (hx : 2 ^ (e + 53) < |x|) : Mul2 e x := by
  obtain ⟨m, f, hm, -, rfl⟩ := h
  by_cases he : e ≤ f
  · exact Mul2.mono ⟨m, rfl⟩ he
  · exfalso
    have h1 : (2 : ℚ) ^ f ≤ 2 ^ e := zpow_le_zpow_right₀ (by norm_num) (by omega)
    have h2 : |(m : ℚ)| ≤ 2 ^ (53 : ℤ) := by exact_mod_cast hm
    rw [abs_mul, abs_of_pos (two_pos f)] at hx
    have h3 : |(m : ℚ)| * 2 ^ f ≤ 2 ^ (53 : ℤ) * 2 ^ e := mul_le_mul h2 h1 (two_pos f).le (two_pos 53).le
    rw [← two_add, add_comm] at h3
    linarith

theorem Solid.fair {M : ℚ} {c : Coord ℚ} (h : Solid M c) : Fair M c := ⟨h.pt, h.bx, h.by', h.mx.mono (by norm_num), h.my.mono (by norm_num)⟩

theorem Solid.ordinary {M : ℚ} {c : Coord ℚ} (h : Solid M c) : Ordinary M c :=
  ⟨⟨h.pt.x, h.pt.y, by exact_mod_cast h.bx, by exact_mod_cast h.by'⟩, h.mx.mono (by norm_num), h.my.mono (by norm_num)⟩

theorem solid_apart {u v : ℚ} (hu : Mul2 (-180) u) (hv : Mul2 (-180) v) (h : u ≠ v) : (1 : ℝ) / 2 ^ 200 ≤ |(v : ℝ) - u| := by
  have k := (hv.sub hu).le_abs (sub_ne_zero.mpr (Ne.symm h))
  have k2 : (2 : ℚ) ^ (-200 : ℤ) ≤ |v - u| := (zpow_le_zpow_right₀ (by norm_num) (by norm_num)).trans k
  have k3 := (Rat.cast_le (K := ℝ)).mpr k2
  push_cast at k3
  rw [zpow_neg] at k3
  rw [one_div]
  exact_mod_cast k3

theorem Solid.extends {M : ℚ} {a b : Coord ℚ} (ha : Solid M a) (hb : Solid M b) : Extends a b := by
  by_cases h1 : a.x = b.x
  · by_cases h2 : a.y = b.y
    · exact Or.inl ⟨h1, h2⟩
    · exact Or.inr (Or.inr (solid_apart ha.my hb.my h2))
  · exact Or.inr (Or.inl (solid_apart ha.mx hb.mx h1))

theorem two_four {T : ℚ} (h : 0 < T) : T + T ≤ 4 * T := by linarith

/-- The computed fraction is not tiny: a multiple of 2^-780. -/
theorem factor_fine {M : ℚ} (hM : M ≤ 2 ^ (180 : ℤ)) {p a b : Coord ℚ} (hp : Solid M p) (ha : Solid M a) (hb : Solid M b) {f : ℚ}
    (h : (⟨toB64 a, toB64 b⟩ : LineSeg (B64 sq hy)).projectionFactor (toB64 p) = Fl.fin f) : Mul2 (-780) f := by
  unfold LineSeg.projectionFactor at h
  dsimp only at h
  rw [lit64, one64] at h
  split_ifs at h with h1 h2 h3
  · rw [← fin_inj h]; exact mul2_zero _
  · rw [← fin_inj h]
    exact Mul2.mono (f := 0) ⟨1, by norm_num⟩ (by norm_num)
  · have hl : ∃ l, (((toB64 b : Coord (B64 sq hy)).x -. (toB64 a).x) *. ((toB64 b).x -. (toB64 a).x) +. ((toB64 b).y -. (toB64 a).y) *. ((toB64 b).y -. (toB64 a).y)) = Fl.fin l ∧ |l| ≤ 2 ^ (364 : ℤ) := by
      have op : ∀ {q : ℚ} {k : ℤ}, 0 ≤ k → k ≤ 1023 → |q| ≤ 2 ^ k → rnd q = .fin (near q) ∧ |near q| ≤ 2 ^ k := by
        intro q k k0 k1 hq
        have hb := near_le_pow (q := q) (k := k) (by omega) hq
        exact ⟨(rnd_fin_iff _ _).mpr ⟨rfl, lt_of_le_of_lt hb (zpow_lt_zpow_right₀ (by norm_num) (by omega : k < 1024))⟩, hb⟩
      have gap : ∀ {u v : ℚ}, |u| ≤ M → |v| ≤ M → |u + -v| ≤ 2 ^ (181 : ℤ) := by
        intro u v k1 k2
        rw [← sub_eq_add_neg]
        have := gap_two k1 k2
        have e : (2 : ℚ) ^ (181 : ℤ) = 2 * 2 ^ (180 : ℤ) := by rw [show (181 : ℤ) = 1 + 180 by norm_num, two_add]; norm_num
        rw [e]; linarith
      have sqr : ∀ {u : ℚ}, |u| ≤ 2 ^ (181 : ℤ) → |u * u| ≤ 2 ^ (362 : ℤ) := by
        intro u k
        rw [abs_mul, show (362 : ℤ) = 181 + 181 by norm_num, two_add]
        exact mul_le_mul k k (abs_nonneg _) (two_pos _).le
      obtain ⟨x1, x2⟩ := op (by norm_num) (by norm_num) (gap hb.bx ha.bx)
      obtain ⟨y1, y2⟩ := op (by norm_num) (by norm_num) (gap hb.by' ha.by')
      obtain ⟨x3, x4⟩ := op (by norm_num) (by norm_num) (sqr x2)
      obtain ⟨y3, y4⟩ := op (by norm_num) (by norm_num) (sqr y2)
      obtain ⟨z1, z2⟩ := op (q := near (near (b.x + -a.x) * near (b.x + -a.x)) + near (near (b.y + -a.y) * near (b.y + -a.y))) (k := 364) (by norm_num) (by norm_num) (by
        have := abs_add_le (near (near (b.x + -a.x) * near (b.x + -a.x))) (near (near (b.y + -a.y) * near (b.y + -a.y)))
        have e : (2 : ℚ) ^ (364 : ℤ) = 4 * 2 ^ (362 : ℤ) := by rw [show (364 : ℤ) = 2 + 362 by norm_num, two_add]; norm_num
        refine this.trans ((add_le_add x4 y4).trans ?_)
        rw [e]
        exact two_four (two_pos 362))
      refine ⟨_, ?_, z2⟩
      simp only [xB64, yB64]
      rw [show (Fl.fin b.x : B64 sq hy) -. Fl.fin a.x = Fl.fin (near (b.x + -a.x)) from x1, show (Fl.fin b.y : B64 sq hy) -. Fl.fin a.y = Fl.fin (near (b.y + -a.y)) from y1,
        show (Fl.fin (near (b.x + -a.x)) : B64 sq hy) *. Fl.fin (near (b.x + -a.x)) = _ from x3, show (Fl.fin (near (b.y + -a.y)) : B64 sq hy) *. Fl.fin (near (b.y + -a.y)) = _ from y3]
      exact z1
    obtain ⟨l, el, bl⟩ := hl
    rw [el] at h
    obtain ⟨n, en, l0, e, -⟩ := div64 h
    have mn : Mul2 (-360) n := by
      obtain ⟨u, v, eu, ev, e1, -⟩ := add64 en
      obtain ⟨u1, u2, eu1, eu2, e2, -⟩ := mul64 eu
      obtain ⟨v1, v2, ev1, ev2, e3, -⟩ := mul64 ev
      obtain ⟨x1, x2, ex1, ex2, e4, -⟩ := sub64 eu1
      obtain ⟨x3, x4, ex3, ex4, e5, -⟩ := sub64 eu2
      obtain ⟨y1, y2, ey1, ey2, e6, -⟩ := sub64 ev1
      obtain ⟨y3, y4, ey3, ey4, e7, -⟩ := sub64 ev2
      simp only [xB64, yB64] at ex1 ex2 ex3 ex4 ey1 ey2 ey3 ey4
      have k1 : Mul2 (-180) u1 := by rw [← e4, ← fin_inj ex1, ← fin_inj ex2]; exact near_keeps (by norm_num) (hp.mx.sub ha.mx)
      have k2 : Mul2 (-180) u2 := by rw [← e5, ← fin_inj ex3, ← fin_inj ex4]; exact near_keeps (by norm_num) (hb.mx.sub ha.mx)
      have k3 : Mul2 (-180) v1 := by rw [← e6, ← fin_inj ey1, ← fin_inj ey2]; exact near_keeps (by norm_num) (hp.my.sub ha.my)
      have k4 : Mul2 (-180) v2 := by rw [← e7, ← fin_inj ey3, ← fin_inj ey4]; exact near_keeps (by norm_num) (hb.my.sub ha.my)
      rw [← e1, ← e2, ← e3]
      exact near_keeps (by norm_num) ((near_keeps (by norm_num) (k1.mul k2)).add (near_keeps (by norm_num) (k3.mul k4)))
    by_cases n0 : n = 0
    · rw [← e, n0, zero_div, Binary64.near_zero]; exact mul2_zero _
    · have c1 := mn.le_abs n0
      have c2 : (2 : ℚ) ^ (-724 : ℤ) ≤ |n / l| := by
        rw [abs_div, le_div_iff₀ (abs_pos.mpr l0)]
        calc (2 : ℚ) ^ (-724 : ℤ) * |l| ≤ 2 ^ (-724 : ℤ) * 2 ^ (364 : ℤ) := mul_le_mul_of_nonneg_left bl (two_pos _).le
          _ = 2 ^ (-360 : ℤ) := by rw [← two_add]; norm_num
          _ ≤ |n| := c1
      have c3 : (2 : ℚ) ^ (-724 : ℤ) ≤ |f| := by
        have r : Rep ((2 : ℚ) ^ (-724 : ℤ)) := ⟨1, -724, by norm_num, by norm_num, by simp⟩
        rw [← e]
        rcases le_or_gt 0 (n / l) with k | k
        · rw [abs_of_nonneg k] at c2
          have := near_mono c2
          rw [near_of_rep r] at this
          exact this.trans (le_abs_self _)
        · rw [abs_of_neg k] at c2
          have := near_mono c2
          rw [near_of_rep r, near_neg] at this
          exact this.trans (neg_le_abs _)
      refine rep_fine (by rw [← e]; exact near_rep _) (lt_of_lt_of_le ?_ c3)
      exact zpow_lt_zpow_right₀ (by norm_num) (by norm_num)

/-- One ordinate of a projected point is a multiple of 2^-1000. -/
theorem along_fine {a b f u : ℚ} (ha : Mul2 (-180) a) (hb : Mul2 (-180) b) (hf : Mul2 (-780) f)
    (h : (Fl.fin a : B64 sq hy) +. Fl.fin f *. (Fl.fin b -. Fl.fin a) = Fl.fin u) : Mul2 (-1000) u ∧ IsF64 u := by
  have e := along1_inv h
  obtain ⟨-, -, -, -, -, hb'⟩ := add64 h
  refine ⟨?_, by rw [e]; exact near_rep _, hb'⟩
  rw [e]
  refine near_keeps (by norm_num) ((ha.mono (by norm_num)).add (near_keeps (by norm_num) (Mul2.mono (hf.mul (near_keeps (by norm_num) (hb.sub ha))) (by norm_num))))

theorem seg_le {M : ℝ} {q : Coord ℝ} {a b : Coord ℚ} (h : OnSegment q (realPt a) (realPt b)) (ha : Sized M a) (hb : Sized M b) : |q.x| ≤ M ∧ |q.y| ≤ M := by
  obtain ⟨t, t0, t1, tx, ty⟩ := h
  have mix : ∀ {u v : ℝ}, |u| ≤ M → |v| ≤ M → |u + t * (v - u)| ≤ M := by
    intro u v hu hv
    rw [abs_le] at *
    have t1' : 0 ≤ 1 - t := by linarith
    have e : u + t * (v - u) = (1 - t) * u + t * v := by ring
    rw [e]
    have a1 := mul_le_mul_of_nonneg_left hu.1 t1'
    have a2 := mul_le_mul_of_nonneg_left hu.2 t1'
    have a3 := mul_le_mul_of_nonneg_left hv.1 t0
    have a4 := mul_le_mul_of_nonneg_left hv.2 t0
    constructor <;> linarith
  rw [tx, ty]
  exact ⟨mix ha.2.2.1 hb.2.2.1, mix ha.2.2.2 hb.2.2.2⟩

section all
variable {ε : ℝ} (lib : Lib64 sq hy ε) (hε : ε ≤ 1 / 2 ^ 52) {M : ℚ} (hM : M ≤ 2 ^ 180)
include lib hε hM

theorem closest_core {p a b : Coord ℚ} (hp : Solid M p) (ha : Solid M a) (hb : Solid M b) :
    ∃ u : Coord ℚ, (⟨toB64 a, toB64 b⟩ : LineSeg (B64 sq hy)).closestPoint (toB64 p) = toB64 u ∧ Ordinary (2 * M) u ∧
      (∃ r, OnSegment r (realPt a) (realPt b) ∧ CloseTo (M / 2 ^ 45) u r) ∧
      ∀ q, Nearest (realPt p) q (realPt a) (realPt b) → dist (realPt p) (realPt u) ≤ dist (realPt p) q + M / 2 ^ 43 := by
  have M0 : (0 : ℝ) ≤ M := by exact_mod_cast (abs_nonneg _).trans ha.bx
  have hM' : (M : ℝ) ≤ 2 ^ 200 := by
    have h := (Rat.cast_le (K := ℝ)).mpr hM
    push_cast at h
    exact h.trans (pow_le_pow_right₀ (by norm_num) (by norm_num))
  have self : ∀ c : Coord ℚ, CloseTo ((M : ℝ) / 2 ^ 45) c (realPt c) := fun c => ⟨by simp [realPt]; positivity, by simp [realPt]; positivity⟩
  have wide : ∀ {c : Coord ℚ}, Solid M c → Ordinary (2 * M) c := fun h =>
    ⟨⟨h.ordinary.1.1, h.ordinary.1.2.1, h.ordinary.1.2.2.1.trans (by linarith), h.ordinary.1.2.2.2.trans (by linarith)⟩, h.ordinary.2⟩
  obtain ⟨d0, d01, d02⟩ := C118_point lib hε hM' ha.ordinary hp.ordinary
  obtain ⟨d1, d11, d12⟩ := C118_point lib hε hM' hb.ordinary hp.ordinary
  have s0 := dist_sized ha.ordinary.1 hp.ordinary.1
  have s1 := dist_sized hb.ordinary.1 hp.ordinary.1
  rw [Spec.dist_comm] at d02 d12 s0 s1
  rw [abs_le] at d02 d12
  -- the ends are compared
  have ends : ∀ q, (∀ q, Nearest (realPt p) q (realPt a) (realPt b) → dist (realPt p) (realPt a) ≤ dist (realPt p) q + M / 2 ^ 44 ∨ dist (realPt p) (realPt b) ≤ dist (realPt p) q + M / 2 ^ 44) →
      Nearest (realPt p) q (realPt a) (realPt b) → dist (realPt p) (realPt (if d0 < d1 then a else b)) ≤ dist (realPt p) q + M / 2 ^ 43 := by
    intro q h hq
    have e1 : (M : ℝ) / 2 ^ 43 = 2 * (M / 2 ^ 44) := by ring
    have e2 : (M : ℝ) / 2 ^ 44 = 256 * (M / 2 ^ 52) := by ring
    have e3 : 3 / 2 ^ 52 * (4 * (M : ℝ)) = 12 * (M / 2 ^ 52) := by ring
    have m0 : 0 ≤ (M : ℝ) / 2 ^ 52 := by positivity
    have t0 : 3 / 2 ^ 52 * dist (realPt p) (realPt a) ≤ 3 / 2 ^ 52 * (4 * (M : ℝ)) := mul_le_mul_of_nonneg_left s0 (by norm_num)
    have t1 : 3 / 2 ^ 52 * dist (realPt p) (realPt b) ≤ 3 / 2 ^ 52 * (4 * (M : ℝ)) := mul_le_mul_of_nonneg_left s1 (by norm_num)
    rw [e3] at t0 t1
    rw [e1, e2]
    have h := h q hq
    rw [e2] at h
    generalize (M : ℝ) / 2 ^ 52 = m at *
    generalize dist (realPt p) q = D at *
    split_ifs with k
    · have k : (d0 : ℝ) < d1 := by exact_mod_cast k
      rcases h with h | h
      · linarith
      · linarith [d02.1, d02.2, d12.1, d12.2]
    · have k : (d1 : ℝ) ≤ d0 := by exact_mod_cast not_lt.mp k
      rcases h with h | h
      · linarith [d02.1, d02.2, d12.1, d12.2]
      · linarith
  have pick : (if (toB64 a : Coord (B64 sq hy)).distance (toB64 p) <. (toB64 b : Coord (B64 sq hy)).distance (toB64 p) then (toB64 a : Coord (B64 sq hy)) else toB64 b) =
      toB64 (if d0 < d1 then a else b) := by
    rw [d01, d11, show ((Fl.fin d0 : B64 sq hy) <. Fl.fin d1) = decide (d0 < d1) from rfl]
    by_cases k : d0 < d1 <;> simp [k]
  have picked : ∀ {P : Coord ℚ → Prop}, P a → P b → P (if d0 < d1 then a else b) := by
    intro P h1 h2; split_ifs <;> assumption
  have near_q : ∀ {u : Coord ℚ} {q : Coord ℝ}, CloseTo ((M : ℝ) / 2 ^ 45) u q → dist (realPt p) (realPt u) ≤ dist (realPt p) q + M / 2 ^ 44 := by
    intro u q h
    have t := dist_tie (u := realPt u) (v := q) (ν := M / 2 ^ 45) h
    have := dist_triangle (realPt p) q (realPt u)
    rw [Spec.dist_comm q] at this
    have e : (M : ℝ) / 2 ^ 44 = 2 * (M / 2 ^ 45) := by ring
    linarith
  have atEnds : (⟨toB64 a, toB64 b⟩ : LineSeg (B64 sq hy)).closestPoint (toB64 p) = toB64 (if d0 < d1 then a else b) →
      (∀ q, Nearest (realPt p) q (realPt a) (realPt b) → dist (realPt p) (realPt a) ≤ dist (realPt p) q + M / 2 ^ 44 ∨ dist (realPt p) (realPt b) ≤ dist (realPt p) q + M / 2 ^ 44) →
      ∃ u : Coord ℚ, (⟨toB64 a, toB64 b⟩ : LineSeg (B64 sq hy)).closestPoint (toB64 p) = toB64 u ∧ Ordinary (2 * M) u ∧
      (∃ r, OnSegment r (realPt a) (realPt b) ∧ CloseTo (M / 2 ^ 45) u r) ∧
      ∀ q, Nearest (realPt p) q (realPt a) (realPt b) → dist (realPt p) (realPt u) ≤ dist (realPt p) q + M / 2 ^ 43 := by
    intro e h
    exact ⟨_, e, picked (wide ha) (wide hb), picked (P := fun u => ∃ r, OnSegment r (realPt a) (realPt b) ∧ CloseTo (M / 2 ^ 45) u r)
      ⟨_, ends_on.1, self a⟩ ⟨_, ends_on.2, self b⟩, fun q hq => ends q h hq⟩
  by_cases hab : a.x = b.x ∧ a.y = b.y
  · refine atEnds ?_ ?_
    · unfold LineSeg.closestPoint
      dsimp only
      rw [pick]
      have fac : (⟨toB64 a, toB64 b⟩ : LineSeg (B64 sq hy)).projectionFactor (toB64 p) = lit 0 ∨ (⟨toB64 a, toB64 b⟩ : LineSeg (B64 sq hy)).projectionFactor (toB64 p) = lit 1 ∨
          (⟨toB64 a, toB64 b⟩ : LineSeg (B64 sq hy)).projectionFactor (toB64 p) = nan := by
        unfold LineSeg.projectionFactor
        dsimp only
        split_ifs with h1 h2 h3
        · exact Or.inl rfl
        · exact Or.inr (Or.inl rfl)
        · exact Or.inr (Or.inr rfl)
        · exfalso
          apply h3
          simp only [xB64, yB64]
          rw [hab.1, hab.2]
          have z : ∀ u : ℚ, (Fl.fin u : B64 sq hy) -. Fl.fin u = Fl.fin 0 := by
            intro u
            show rnd (u + -u) = Val.fin 0
            rw [add_neg_cancel, rnd_of_f64 (f64_of (by decide +kernel))]
          rw [z, z, lit64, show (Fl.fin 0 : B64 sq hy) *. Fl.fin 0 = Fl.fin 0 from (by decide +kernel : rnd (0 * 0) = Val.fin 0),
            show (Fl.fin 0 : B64 sq hy) +. Fl.fin 0 = Fl.fin 0 from (by decide +kernel : rnd (0 + 0) = Val.fin 0)]
          rfl
      rcases fac with e | e | e <;> rw [e, lit64, one64]
      · rfl
      · rfl
      · rfl
    · rintro q ⟨⟨t, -, -, tx, ty⟩, -⟩
      left
      have : dist (realPt p) (realPt a) = dist (realPt p) q := by
        unfold Spec.dist
        rw [tx, ty]
        dsimp only [realPt]
        rw [hab.1, hab.2]; congr 1; ring
      rw [this]
      have : 0 ≤ (M : ℝ) / 2 ^ 44 := by positivity
      linarith
  have hab' := (ha.extends hb).proper hab
  obtain ⟨f, w, f1, f2, f3, f4, f5⟩ := seg_end (sq := sq) (hy := hy) hM' ha.ordinary.1 hb.ordinary.1 hab' hp.ordinary.1
  have cp : (⟨toB64 a, toB64 b⟩ : LineSeg (B64 sq hy)).closestPoint (toB64 p) = if 0 < f ∧ f < 1 then toB64 w else toB64 (if d0 < d1 then a else b) := by
    unfold LineSeg.closestPoint
    dsimp only
    rw [pick, f1, lit64, one64]
    simp only [show ((Fl.fin f : B64 sq hy) >. Fl.fin 0) = decide (0 < f) from rfl, show ((Fl.fin f : B64 sq hy) <. Fl.fin 1) = decide (f < 1) from rfl, Bool.and_eq_true, decide_eq_true_eq]
    by_cases k : 0 < f ∧ f < 1
    · rw [if_pos k, if_pos k, f4 k.1.le k.2.le]
    · rw [if_neg k, if_neg k]
  by_cases k : 0 < f ∧ f < 1
  · have e := f4 k.1.le k.2.le
    have ff := factor_fine (hM.trans (by norm_num)) hp ha hb f1
    unfold LineSeg.projectWith at e
    simp only [xB64, yB64] at e
    obtain ⟨wx, fx⟩ := along_fine (sq := sq) (hy := hy) ha.mx hb.mx ff (congrArg Coord.x e)
    obtain ⟨wy, fy⟩ := along_fine (sq := sq) (hy := hy) ha.my hb.my ff (congrArg Coord.y e)
    obtain ⟨q, hq⟩ : ∃ q, Nearest (realPt p) q (realPt a) (realPt b) := by
      obtain ⟨⟨q, hq, e⟩, hm⟩ := C36_segment (realPt p) (realPt a) (realPt b)
      exact ⟨q, hq, fun c hc => by rw [e]; exact hm c hc⟩
    obtain ⟨g, -, -⟩ := f5 q hq
    rw [if_pos k] at cp
    have e43 : (M : ℝ) / 2 ^ 43 = 2 * (M / 2 ^ 44) := by ring
    have m44 : 0 ≤ (M : ℝ) / 2 ^ 44 := by positivity
    refine ⟨w, cp, ⟨⟨fx, fy, ?_, ?_⟩, wx, wy⟩, ⟨q, hq.1, g⟩, fun q' hq' => (near_q (f5 q' hq').1).trans (by linarith)⟩
    · have b1 := seg_le hq.1 ha.ordinary.1 hb.ordinary.1
      have := abs_sub_abs_le_abs_sub (w.x : ℝ) q.x
      have := g.1
      have : (M : ℝ) / 2 ^ 45 ≤ M := div_le_self M0 (by norm_num)
      linarith [b1.1]
    · have b1 := seg_le hq.1 ha.ordinary.1 hb.ordinary.1
      have := abs_sub_abs_le_abs_sub (w.y : ℝ) q.y
      have := g.2
      have : (M : ℝ) / 2 ^ 45 ≤ M := div_le_self M0 (by norm_num)
      linarith [b1.2]
  · rw [if_neg k] at cp
    refine atEnds cp fun q hq => ?_
    obtain ⟨-, g1, g2⟩ := f5 q hq
    rcases lt_or_ge 0 f with k1 | k1
    · exact Or.inr (near_q (g2 (not_lt.mp fun k2 => k ⟨k1, k2⟩)))
    · exact Or.inl (near_q (g1 k1))

/-- C131: the closest point of a segment is within `M / 2^44` of the segment and at most `M / 2^43` farther away than the nearest point of the segment. -/
theorem C131_point {p a b : Coord ℚ} (hp : Solid M p) (ha : Solid M a) (hb : Solid M b) :
    ∃ u : Coord ℚ, (⟨toB64 a, toB64 b⟩ : LineSeg (B64 sq hy)).closestPoint (toB64 p) = toB64 u ∧ NearSegment (M / 2 ^ 44) (realPt u) (realPt a) (realPt b) ∧
      ∀ D, LeastDist (realPt p) (fun c => OnSegment c (realPt a) (realPt b)) D → |dist (realPt p) (realPt u) - D| ≤ M / 2 ^ 43 := by
  have M0 : (0 : ℝ) ≤ M := by exact_mod_cast (abs_nonneg _).trans ha.bx
  obtain ⟨u, h1, -, ⟨r, hr, h3⟩, h4⟩ := closest_core lib hε hM hp ha hb
  have t : dist (realPt u) r ≤ M / 2 ^ 44 := (dist_tie (u := realPt u) (v := r) (ν := M / 2 ^ 45) h3).trans (le_of_eq (by ring))
  refine ⟨u, h1, ⟨r, hr, t⟩, ?_⟩
  rintro D ⟨⟨q, hq, e⟩, hm⟩
  have k1 := h4 q ⟨hq, fun c hc => by rw [e]; exact hm c hc⟩
  rw [e] at k1
  have k2 := hm r hr
  have k3 := dist_triangle (realPt p) (realPt u) r
  have e43 : (M : ℝ) / 2 ^ 43 = 2 * (M / 2 ^ 44) := by ring
  have m44 : 0 ≤ (M : ℝ) / 2 ^ 44 := by positivity
  rw [abs_le]
  constructor <;> linarith

/-- What is known of a pair of points during the search. -/
structure Pair (a b c d : Coord ℚ) (st : B64 sq hy × Coord (B64 sq hy) × Coord (B64 sq hy)) (v : ℚ) (x y : Coord ℚ) (M : ℝ) : Prop where
  val : st = (Fl.fin v, toB64 x, toB64 y)
  err : |(v : ℝ) - dist (realPt x) (realPt y)| ≤ 24 * (M / 2 ^ 52)
  fst : NearSegment (M / 2 ^ 44) (realPt x) (realPt a) (realPt b)
  snd : NearSegment (M / 2 ^ 44) (realPt y) (realPt c) (realPt d)

omit lib hε hM in
theorem pair_step {a b c d : Coord ℚ} {st st' : B64 sq hy × Coord (B64 sq hy) × Coord (B64 sq hy)} {v v' : ℚ} {x y x' y' : Coord ℚ} {M : ℝ}
    (h : Pair a b c d st v x y M) (h' : Pair a b c d st' v' x' y' M) :
    ∃ w X Y, Pair a b c d (if st'.1 <. st.1 then st' else st) w X Y M ∧ w ≤ v ∧ w ≤ v' := by
  rw [h.val, h'.val, show ((Fl.fin v' : B64 sq hy) <. Fl.fin v) = decide (v' < v) from rfl]
  by_cases k : v' < v
  · exact ⟨v', x', y', ⟨by simp [k], h'.err, h'.fst, h'.snd⟩, k.le, le_rfl⟩
  · exact ⟨v, x, y, ⟨by simp [k], h.err, h.fst, h.snd⟩, le_rfl, not_lt.mp k⟩

/-- C131: if the segments are not reported to intersect, the closest points are within `M / 2^44` of their segments and their distance is within `M / 2^42` of the least one. -/
theorem C131_points {a b c d : Coord ℚ} (ha : Solid M a) (hb : Solid M b) (hc : Solid M c) (hd : Solid M d)
    (h : ((LI.default : LI (B64 sq hy)).compute4 (toB64 a) (toB64 b) (toB64 c) (toB64 d)).hasIntersection = false) :
    ∃ u v : Coord ℚ, (⟨toB64 a, toB64 b⟩ : LineSeg (B64 sq hy)).closestPoints ⟨toB64 c, toB64 d⟩ = [toB64 u, toB64 v] ∧
      NearSegment (M / 2 ^ 44) (realPt u) (realPt a) (realPt b) ∧ NearSegment (M / 2 ^ 44) (realPt v) (realPt c) (realPt d) ∧
      ∀ D, LeastDist2 (fun x => OnSegment x (realPt a) (realPt b)) (fun x => OnSegment x (realPt c) (realPt d)) D →
        |dist (realPt u) (realPt v) - D| ≤ M / 2 ^ 42 := by
  have M0 : (0 : ℝ) ≤ M := by exact_mod_cast (abs_nonneg _).trans ha.bx
  have hM2 : 2 * (M : ℝ) ≤ 2 ^ 200 := by
    have h := (Rat.cast_le (K := ℝ)).mpr hM
    push_cast at h
    have p1 : (2 : ℝ) * 2 ^ 180 ≤ 2 ^ 200 := by
      rw [← pow_succ']
      exact pow_le_pow_right₀ (by norm_num) (by norm_num)
    generalize (2 : ℝ) ^ 200 = Q at *
    generalize (2 : ℝ) ^ 180 = P at *
    linarith
  have wide : ∀ {c : Coord ℚ}, Solid M c → Ordinary (2 * M) c := fun h =>
    ⟨⟨h.ordinary.1.1, h.ordinary.1.2.1, h.ordinary.1.2.2.1.trans (by linarith), h.ordinary.1.2.2.2.trans (by linarith)⟩, h.ordinary.2⟩
  have on : ∀ {a b p : Coord ℝ}, OnSegment p a b → NearSegment ((M : ℝ) / 2 ^ 44) p a b := fun k => ⟨_, k, by rw [dist_same rfl rfl]; positivity⟩
  have mm : (0 : ℝ) ≤ M / 2 ^ 52 := by positivity
  -- one candidate
  have cand : ∀ {p a b : Coord ℚ}, Solid M p → Solid M a → Solid M b → ∃ (u : Coord ℚ) (v : ℚ),
      (⟨toB64 a, toB64 b⟩ : LineSeg (B64 sq hy)).closestPoint (toB64 p) = toB64 u ∧ (toB64 u : Coord (B64 sq hy)).distance (toB64 p) = Fl.fin v ∧
      |(v : ℝ) - dist (realPt u) (realPt p)| ≤ 24 * (M / 2 ^ 52) ∧ NearSegment (M / 2 ^ 44) (realPt u) (realPt a) (realPt b) ∧
      ∀ q, OnSegment q (realPt a) (realPt b) → (v : ℝ) ≤ dist (realPt p) q + (M / 2 ^ 43 + 24 * (M / 2 ^ 52)) := by
    intro p a b hp ha hb
    obtain ⟨u, h1, h2, ⟨r, hr, h3⟩, h4⟩ := closest_core lib hε hM hp ha hb
    obtain ⟨v, v1, v2⟩ := C118_point lib hε hM2 h2 (wide hp)
    have s0 := dist_sized h2.1 (wide hp).1
    have e : |(v : ℝ) - dist (realPt u) (realPt p)| ≤ 24 * (M / 2 ^ 52) := by
      refine v2.trans ?_
      have : 3 / 2 ^ 52 * dist (realPt u) (realPt p) ≤ 3 / 2 ^ 52 * (4 * (2 * (M : ℝ))) := mul_le_mul_of_nonneg_left s0 (by norm_num)
      linarith
    refine ⟨u, v, h1, v1, e, ⟨r, hr, (dist_tie (u := realPt u) (v := r) (ν := M / 2 ^ 45) h3).trans (le_of_eq (by ring))⟩, fun q hq => ?_⟩
    obtain ⟨⟨q', hq', e'⟩, hm⟩ := C36_segment (realPt p) (realPt a) (realPt b)
    have k1 := h4 q' ⟨hq', fun c hc => by rw [e']; exact hm c hc⟩
    have k2 := hm q hq
    rw [e'] at k1
    rw [Spec.dist_comm, abs_le] at e
    linarith [e.2]
  obtain ⟨u0, v0, a1, a2, a3, a4, a5⟩ := cand hc ha hb
  obtain ⟨u1, v1, b1, b2, b3, b4, b5⟩ := cand hd ha hb
  obtain ⟨u2, v2, c1, c2, c3, c4, c5⟩ := cand ha hc hd
  obtain ⟨u3, v3, d1, d2, d3, d4, d5⟩ := cand hb hc hd
  have p0 : Pair (sq := sq) (hy := hy) a b c d (Fl.fin v0, toB64 u0, toB64 c) v0 u0 c M := ⟨rfl, a3, a4, on ends_on.1⟩
  have p1 : Pair (sq := sq) (hy := hy) a b c d (Fl.fin v1, toB64 u1, toB64 d) v1 u1 d M := ⟨rfl, b3, b4, on ends_on.2⟩
  have p2 : Pair (sq := sq) (hy := hy) a b c d (Fl.fin v2, toB64 a, toB64 u2) v2 a u2 M := ⟨rfl, by rw [Spec.dist_comm]; exact c3, on ends_on.1, c4⟩
  have p3 : Pair (sq := sq) (hy := hy) a b c d (Fl.fin v3, toB64 b, toB64 u3) v3 b u3 M := ⟨rfl, by rw [Spec.dist_comm]; exact d3, on ends_on.2, d4⟩
  obtain ⟨w1, x1, y1, q1, l1, m1⟩ := pair_step p0 p1
  obtain ⟨w2, x2, y2, q2, l2, m2⟩ := pair_step q1 p2
  obtain ⟨w3, x3, y3, q3, l3, m3⟩ := pair_step q2 p3
  refine ⟨x3, y3, ?_, q3.fst, q3.snd, ?_⟩
  · unfold LineSeg.closestPoints LineSeg.intersection
    dsimp only
    rw [h]
    simp only [Bool.false_eq_true, if_false]
    rw [a1, b1, c1, d1, a2, b2, c2, d2]
    have e := congrArg Prod.snd q3.val
    have e1 := congrArg Prod.fst e
    have e2 := congrArg Prod.snd e
    dsimp only at e1 e2
    rw [← e1, ← e2]
  · intro D hD
    have least : (w3 : ℝ) ≤ D + (2 * (M / 2 ^ 98) + (M / 2 ^ 43 + 24 * (M / 2 ^ 52))) := by
      have L3 : (w3 : ℝ) ≤ v3 := by exact_mod_cast m3
      have L2 : (w3 : ℝ) ≤ v2 := by exact_mod_cast l3.trans m2
      have L1 : (w3 : ℝ) ≤ v1 := by exact_mod_cast (l3.trans l2).trans m1
      have L0 : (w3 : ℝ) ≤ v0 := by exact_mod_cast (l3.trans l2).trans l1
      have t0 : (0 : ℝ) ≤ M / 2 ^ 98 := div_nonneg M0 (pow_nonneg zero_le_two _)
      by_cases hx : ∃ p, OnSegment p (realPt a) (realPt b) ∧ OnSegment p (realPt c) (realPt d)
      · have D0 : 0 ≤ D := by
          obtain ⟨⟨u, v, -, -, rfl⟩, -⟩ := hD
          exact dist_nonneg _ _
        have hM4 : M ≤ 2 ^ 400 := hM.trans (by decide +kernel)
        obtain ⟨z, ⟨z1, z2 | z2⟩ | ⟨z1, z2 | z2⟩⟩ := missed_tie hM4 ha.fair hb.fair hc.fair hd.fair h hx
        · have := c5 z z1
          have := dist_tie z2
          linarith
        · have := d5 z z1
          have := dist_tie z2
          linarith
        · have := a5 z z1
          have := dist_tie z2
          linarith
        · have := b5 z z1
          have := dist_tie z2
          linarith
      · have e := hD.unique (C37_segments (realPt a) (realPt b) (realPt c) (realPt d))
        rcases segseg_ends (realPt a) (realPt b) (realPt c) (realPt d) hx with k | k | k | k
        · obtain ⟨⟨q, hq, e'⟩, -⟩ := C36_segment (realPt c) (realPt a) (realPt b)
          have := a5 q hq
          rw [e', ← k, ← e] at this
          linarith
        · obtain ⟨⟨q, hq, e'⟩, -⟩ := C36_segment (realPt d) (realPt a) (realPt b)
          have := b5 q hq
          rw [e', ← k, ← e] at this
          linarith
        · obtain ⟨⟨q, hq, e'⟩, -⟩ := C36_segment (realPt a) (realPt c) (realPt d)
          have := c5 q hq
          rw [e', ← k, ← e] at this
          linarith
        · obtain ⟨⟨q, hq, e'⟩, -⟩ := C36_segment (realPt b) (realPt c) (realPt d)
          have := d5 q hq
          rw [e', ← k, ← e] at this
          linarith
    obtain ⟨r, hr, r1⟩ := q3.fst
    obtain ⟨s, hs, s1⟩ := q3.snd
    have k1 := hD.2 r s hr hs
    have k2 := dist_triangle r (realPt x3) s
    have k3 := dist_triangle (realPt x3) (realPt y3) s
    rw [Spec.dist_comm r (realPt x3)] at k2
    have er := abs_le.mp q3.err
    have e42 : (M : ℝ) / 2 ^ 42 = 1024 * (M / 2 ^ 52) := by ring
    have e43 : (M : ℝ) / 2 ^ 43 = 512 * (M / 2 ^ 52) := by ring
    have e44 : (M : ℝ) / 2 ^ 44 = 256 * (M / 2 ^ 52) := by ring
    have e98 : (M : ℝ) / 2 ^ 98 ≤ M / 2 ^ 52 := div_le_div_of_nonneg_left M0 (by norm_num) (by norm_num)
    rw [e43] at least
    rw [e44] at r1 s1
    rw [e42, abs_le]
    generalize (M : ℝ) / 2 ^ 98 = m98 at *
    generalize (M : ℝ) / 2 ^ 52 = m at *
    constructor <;> linarith [er.1, er.2]

end all

/-! Cases. -/

local notation "pt" => (Coord.xy : ℚ → ℚ → Coord ℚ)

/-- Small whole ordinates. -/
theorem ex_solid (x y : ℚ) (h : ((x = 0 ∨ x = 1 ∨ x = 2 ∨ x = 3 ∨ x = 4) ∧ (y = 0 ∨ y = 1 ∨ y = 2 ∨ y = 3 ∨ y = 4))) : Solid 4 (pt x y) := by
  have f : ∀ z : ℚ, (z = 0 ∨ z = 1 ∨ z = 2 ∨ z = 3 ∨ z = 4) → IsF64 z ∧ |z| ≤ 4 ∧ Mul2 (-180) z := by
    rintro z (rfl | rfl | rfl | rfl | rfl)
    · exact ⟨f64_of (by decide +kernel), by norm_num, Mul2.mono ⟨0, by norm_num⟩ (show (-180 : ℤ) ≤ 0 by norm_num)⟩
    · exact ⟨f64_of (by decide +kernel), by norm_num, Mul2.mono ⟨1, by norm_num⟩ (show (-180 : ℤ) ≤ 0 by norm_num)⟩
    · exact ⟨f64_of (by decide +kernel), by norm_num, Mul2.mono ⟨2, by norm_num⟩ (show (-180 : ℤ) ≤ 0 by norm_num)⟩
    · exact ⟨f64_of (by decide +kernel), by norm_num [abs_of_pos], Mul2.mono ⟨3, by norm_num⟩ (show (-180 : ℤ) ≤ 0 by norm_num)⟩
    · exact ⟨f64_of (by decide +kernel), by norm_num [abs_of_pos], Mul2.mono ⟨4, by norm_num⟩ (show (-180 : ℤ) ≤ 0 by norm_num)⟩
  obtain ⟨a1, a2, a3⟩ := f x h.1
  obtain ⟨b1, b2, b3⟩ := f y h.2
  exact ⟨⟨a1, b1⟩, a2, b2, a3, b3⟩

/-- The third of the way point of a segment of slope 1/3 is not a double, and still found to within 2^-42. -/
example : ∃ (sq : ℚ → Val) (hy : ℚ → ℚ → Val) (u : Coord ℚ), (⟨toB64 (pt 0 0), toB64 (pt 3 1)⟩ : LineSeg (B64 sq hy)).closestPoint (toB64 (pt 1 2)) = toB64 u ∧
    NearSegment (4 / 2 ^ 44) (realPt u) (realPt (pt 0 0)) (realPt (pt 3 1)) := by
  obtain ⟨sq, hy, lib⟩ := lib64_exists
  obtain ⟨u, h1, h2, -⟩ := C131_point lib le_rfl (M := 4) (by decide +kernel) (ex_solid 1 2 (by norm_num)) (ex_solid 0 0 (by norm_num)) (ex_solid 3 1 (by norm_num))
  exact ⟨sq, hy, u, h1, by simpa using h2⟩

/-- Two segments apart: the closest points are found. -/
example : ∃ (sq : ℚ → Val) (hy : ℚ → ℚ → Val) (u v : Coord ℚ),
    (⟨toB64 (pt 0 0), toB64 (pt 3 1)⟩ : LineSeg (B64 sq hy)).closestPoints ⟨toB64 (pt 1 2), toB64 (pt 2 4)⟩ = [toB64 u, toB64 v] ∧
      NearSegment (4 / 2 ^ 44) (realPt u) (realPt (pt 0 0)) (realPt (pt 3 1)) := by
  obtain ⟨sq, hy, lib⟩ := lib64_exists
  obtain ⟨u, v, h1, h2, -⟩ := C131_points lib le_rfl (M := 4) (by decide +kernel) (ex_solid 0 0 (by norm_num)) (ex_solid 3 1 (by norm_num))
    (ex_solid 1 2 (by norm_num)) (ex_solid 2 4 (by norm_num)) rfl
  exact ⟨sq, hy, u, v, h1, by simpa using h2⟩

end Verif.Props
