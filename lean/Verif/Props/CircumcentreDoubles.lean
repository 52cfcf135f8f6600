import Verif.Props.CrossingDoubles
import Verif.Props.TriangleDoubles

/-! # C125: the circumcentre in double-double arithmetic, for arbitrary doubles -/

set_option linter.unusedSectionVars false
set_option linter.unusedVariables false

namespace Verif.Props
open Flt Verif.Spec Verif.Binary64

variable {sq : ℚ → Val} {hy : ℚ → ℚ → Val}

/-! ## Sums and products of inexact pairs -/

theorem ApD.cast {e k e' k' : ℤ} {v r v' : ℚ} {A : DD (B64 sq hy)} (h : ApD e k v r A) (he : e = e') (hk : k = k') (hv : v = v') : ApD e' k' v' r A := by
  subst he hk hv; exact h

theorem ApD.negPair {e k : ℤ} {v r : ℚ} {A : DD (B64 sq hy)} (h : ApD e k v r A) : ApD e k (-v) r (⟨-.A.hi, -.A.lo⟩ : DD (B64 sq hy)) := by
  obtain ⟨a, b, rfl, e2, e3, e4, e5⟩ := h.pair
  refine ⟨⟨-a, -b, rfl, e2.neg, ?_, ?_, ?_⟩⟩
  · rw [← neg_add]; exact e3.neg
  · rw [← neg_add, abs_neg]; exact e4
  · rw [← neg_add, ← neg_sub', abs_neg]; exact e5

theorem ApD.add' {e k : ℤ} {u v r s : ℚ} {A B : DD (B64 sq hy)} (ha : ApD e k u r A) (hb : ApD e k v s B) (he : -1074 ≤ e) (hk0 : -1074 ≤ k)
    (h2 : k ≤ 1000) : ApD e (k + 2) (u + v) (r + s + (|u + v| + (r + s)) / 2 ^ 101) (A.add B) := by
  have h := ha.selfSub hb.negPair he hk0 h2
  rw [sub_neg_eq_add] at h
  obtain ⟨a, b, rfl, -, -⟩ := ha.pair
  obtain ⟨c, d, rfl, -, -⟩ := hb.pair
  have n : ∀ q : ℚ, (-. (-. (Fl.fin q : B64 sq hy))) = Fl.fin q := fun q => congrArg Fl.fin (neg_neg q)
  unfold DD.selfSub at h
  simp only [n] at h
  exact h

/-- A fine ordinate of size at most `2^78`. -/
def FineOrd78 (x : ℚ) : Prop := FineOrd x ∧ |x| ≤ 2 ^ (78 : ℤ)

/-- A point with such ordinates. -/
def FinePt78 (p : Coord ℚ) : Prop := FineOrd78 p.x ∧ FineOrd78 p.y

theorem apD_subF {x y : ℚ} (hx : FineOrd78 x) (hy' : FineOrd78 y) :
    ApD (-130) 80 (x - y) (|x - y| / 2 ^ 101) ((DD.ofF (Fl.fin x) : DD (B64 sq hy)).subF (Fl.fin y)) := by
  have h := ((apD_ofF (sq := sq) (hy := hy) hx.1.1 hx.1.2.1 hx.2).add' (apD_ofF hy'.1.1 hy'.1.2.1 hy'.2).negPair (by norm_num) (by norm_num) (by norm_num))
  have e : (DD.ofF (Fl.fin x) : DD (B64 sq hy)).subF (Fl.fin y) = (DD.ofF (Fl.fin x)).add ⟨-.(DD.ofF (Fl.fin y : B64 sq hy)).hi, -.(DD.ofF (Fl.fin y : B64 sq hy)).lo⟩ := by
    unfold DD.subF DD.ofF
    rw [lit64, addF_eq f64_zero]
    unfold DD.ofF
    rw [lit64, show (-. (Fl.fin 0 : B64 sq hy)) = Fl.fin 0 from congrArg Fl.fin neg_zero]
  rw [e]
  refine (h.cast rfl (by norm_num) (sub_eq_add_neg x y).symm).mono (le_of_eq ?_)
  rw [← sub_eq_add_neg]; ring

/-- The sum of two squares. -/
theorem apD_squares {u v : ℚ} {A B : DD (B64 sq hy)} (ha : ApD (-130) 80 u (|u| / 2 ^ 101) A) (hb : ApD (-130) 80 v (|v| / 2 ^ 101) B) :
    ApD (-260) 163 (u * u + v * v) ((u * u + v * v) * (3 / 2 ^ 100)) (A.sqr.add B.sqr) := by
  have m1 := ha.mulRel ha (by omega) (by omega) (by omega) (by omega) (by omega) (by omega) (by omega)
  have m2 := hb.mulRel hb (by omega) (by omega) (by omega) (by omega) (by omega) (by omega) (by omega)
  have s := m1.add' m2 (by omega) (by omega) (by omega)
  refine (s.cast (by norm_num) (by norm_num) rfl).mono ?_
  rw [abs_mul_self u, abs_mul_self v, abs_of_nonneg (by nlinarith [mul_self_nonneg u, mul_self_nonneg v] : 0 ≤ u * u + v * v)]
  have := mul_self_nonneg u
  have := mul_self_nonneg v
  generalize u * u = x at *
  generalize v * v = y at *
  linarith

/-- A product with a sum of squares. -/
theorem ApD.mulSquares {e f k m : ℤ} {u v : ℚ} {A B : DD (B64 sq hy)} (ha : ApD e k u (|u| / 2 ^ 101) A) (hb : ApD f m v (v * (3 / 2 ^ 100)) B) (hv : 0 ≤ v)
    (he : -900 ≤ e) (hf : -900 ≤ f) (hef : -968 ≤ e + f) (hk0 : -400 ≤ k) (hm0 : -400 ≤ m) (hk1 : k ≤ 450) (hm1 : m ≤ 450) :
    ApD (e + f) (k + m + 1) (u * v) (|u| * v * (5 / 2 ^ 100)) (A.mul B) ∧ ApD (f + e) (m + k + 1) (v * u) (|u| * v * (5 / 2 ^ 100)) (B.mul A) := by
  have u0 := abs_nonneg u
  constructor
  · refine (ha.mul' hb he hf hef hk0 hm0 hk1 hm1).mono ?_
    rw [abs_mul, abs_of_nonneg hv]
    have : (|u| + |u| / 2 ^ 101) * (v + v * (3 / 2 ^ 100)) * (1 + 1 / 2 ^ 100) - |u| * v = |u| * v * ((1 + 1 / 2 ^ 101) * (1 + 3 / 2 ^ 100) * (1 + 1 / 2 ^ 100) - 1) := by ring
    rw [this]
    exact mul_le_mul_of_nonneg_left (by norm_num) (by positivity)
  · refine (hb.mul' ha hf he (by omega) hm0 hk0 hm1 hk1).mono ?_
    rw [abs_mul, abs_of_nonneg hv]
    have : (v + v * (3 / 2 ^ 100)) * (|u| + |u| / 2 ^ 101) * (1 + 1 / 2 ^ 100) - v * |u| = |u| * v * ((1 + 1 / 2 ^ 101) * (1 + 3 / 2 ^ 100) * (1 + 1 / 2 ^ 100) - 1) := by ring
    rw [this]
    exact mul_le_mul_of_nonneg_left (by norm_num) (by positivity)

/-! ## The parts of the formula -/

theorem abs_mul_le_mul {x y P Q : ℚ} (h1 : |x| ≤ P) (h2 : |y| ≤ Q) : |x * y| ≤ P * Q := by
  rw [abs_mul]; exact mul_le_mul h1 h2 (abs_nonneg _) ((abs_nonneg _).trans h1)

theorem sum_squares_le {x y P : ℚ} (h1 : |x| ≤ P) (h2 : |y| ≤ P) : x * x + y * y ≤ 2 * (P * P) := by
  have a := abs_mul_le_mul h1 h1
  have b := abs_mul_le_mul h2 h2
  have := le_abs_self (x * x)
  have := le_abs_self (y * y)
  linarith

/-- The numerators and the denominator with their errors. -/
theorem circumDD_ap {a b c : Coord ℚ} (ha : FinePt78 a) (hb : FinePt78 b) (hc : FinePt78 c) {P Q : ℚ} (ax : |a.x - c.x| ≤ P) (ay : |a.y - c.y| ≤ P)
    (bx : |b.x - c.x| ≤ Q) (by' : |b.y - c.y| ≤ Q) :
    ∃ X Y D : DD (B64 sq hy),
      ApD (-390) 248 ((a.y - c.y) * ((b.x - c.x) * (b.x - c.x) + (b.y - c.y) * (b.y - c.y)) - ((a.x - c.x) * (a.x - c.x) + (a.y - c.y) * (a.y - c.y)) * (b.y - c.y))
        (12 * (P * Q * (P + Q)) / 2 ^ 100) X ∧
      ApD (-390) 248 ((a.x - c.x) * ((b.x - c.x) * (b.x - c.x) + (b.y - c.y) * (b.y - c.y)) - ((a.x - c.x) * (a.x - c.x) + (a.y - c.y) * (a.y - c.y)) * (b.x - c.x))
        (12 * (P * Q * (P + Q)) / 2 ^ 100) Y ∧
      ApD (-260) 167 (2 * det c a b) (17 * (P * Q) / 2 ^ 100) D ∧
      Triangle.circumcentreDD (toB64 a : Coord (B64 sq hy)) (toB64 b) (toB64 c) =
        Coord.xy ((DD.ofF (Fl.fin c.x)).sub (X.div D)).doubleValue ((DD.ofF (Fl.fin c.y)).add (Y.div D)).doubleValue := by
  have sax := apD_subF (sq := sq) (hy := hy) ha.1 hc.1
  have say := apD_subF (sq := sq) (hy := hy) ha.2 hc.2
  have sbx := apD_subF (sq := sq) (hy := hy) hb.1 hc.1
  have sby := apD_subF (sq := sq) (hy := hy) hb.2 hc.2
  have SA := apD_squares sax say
  have SB := apD_squares sbx sby
  have P0 := (abs_nonneg _).trans ax
  have Q0 := (abs_nonneg _).trans bx
  have n : ∀ {u v w z : ℚ} {A B C D : DD (B64 sq hy)}, ApD (-130) 80 u (|u| / 2 ^ 101) A → ApD (-260) 163 v (v * (3 / 2 ^ 100)) B → ApD (-130) 80 w (|w| / 2 ^ 101) C →
      ApD (-260) 163 z (z * (3 / 2 ^ 100)) D → |u| ≤ P → |w| ≤ Q → 0 ≤ v → 0 ≤ z → v ≤ 2 * (P * P) → z ≤ 2 * (Q * Q) →
      ApD (-390) 248 (u * z - v * w) (12 * (P * Q * (P + Q)) / 2 ^ 100) (DD.determinant A B C D) := by
    intro u v w z A B C D hu hv hw hz lu lw v0 z0 lv lz
    have p1 := (hu.mulSquares hz z0 (by omega) (by omega) (by omega) (by omega) (by omega) (by omega) (by omega)).1
    have p2 := (hw.mulSquares hv v0 (by omega) (by omega) (by omega) (by omega) (by omega) (by omega) (by omega)).2
    have p3 := (p1.cast (e' := -390) (k' := 244) (by norm_num) (by norm_num) rfl).selfSub (p2.cast (by norm_num) (by norm_num) rfl) (by omega) (by omega) (by omega)
    refine (p3.widen (by norm_num)).mono ?_
    have t1 : |u| * z ≤ P * (2 * (Q * Q)) := mul_le_mul lu lz z0 P0
    have t2 : |w| * v ≤ Q * (2 * (P * P)) := mul_le_mul lw lv v0 Q0
    have t3 : |u * z - v * w| ≤ |u| * z + |w| * v := by
      refine (abs_sub _ _).trans (le_of_eq ?_)
      rw [abs_mul, abs_mul, abs_of_nonneg z0, abs_of_nonneg v0]; ring
    have w0 : 0 ≤ |u| * z := mul_nonneg (abs_nonneg _) z0
    have w1 : 0 ≤ |w| * v := mul_nonneg (abs_nonneg _) v0
    have t4 : |u| * z + |w| * v ≤ 2 * (P * Q * (P + Q)) := le_trans (add_le_add t1 t2) (le_of_eq (by ring))
    generalize P * Q * (P + Q) = W at *
    generalize |u| * z = x at *
    generalize |w| * v = y at *
    generalize |u * z - v * w| = t at *
    clear p1 p2 p3 hu hv hw hz t1 t2 lu lw lv lz SA SB sax say sbx sby ax ay bx by'
    linarith
  have m1 := sax.mulRel sby (by omega) (by omega) (by omega) (by omega) (by omega) (by omega) (by omega)
  have m2 := say.mulRel sbx (by omega) (by omega) (by omega) (by omega) (by omega) (by omega) (by omega)
  have d := (apD_det m1 m2 (by omega) (by omega) (by omega)).cast (e' := -260) (k' := 163) (by norm_num) (by norm_num) rfl
  have two : ApD 0 1 2 0 (DD.ofF (Fl.fin 2) : DD (B64 sq hy)) := apD_ofF (f64_of (by decide +kernel)) ⟨2, by norm_num⟩ (by norm_num)
  have D := d.mul' two (by omega) (by omega) (by omega) (by omega) (by omega) (by omega) (by omega)
  have a0 : 0 ≤ (a.x - c.x) * (a.x - c.x) + (a.y - c.y) * (a.y - c.y) := add_nonneg (mul_self_nonneg _) (mul_self_nonneg _)
  have b0 : 0 ≤ (b.x - c.x) * (b.x - c.x) + (b.y - c.y) * (b.y - c.y) := add_nonneg (mul_self_nonneg _) (mul_self_nonneg _)
  have la := sum_squares_le ax ay
  have lb := sum_squares_le bx by'
  refine ⟨_, _, _, n say SA sby SB ay by' a0 b0 la lb, n sax SA sbx SB ax bx a0 b0 la lb,
    ((D.cast (e' := -260) (k' := 165) (by norm_num) (by norm_num) ?_).widen (by norm_num)).mono ?_, ?_⟩
  · unfold det; ring
  · have h1 := abs_mul_le_mul ax by'
    have h2 := abs_mul_le_mul ay bx
    have h3 := abs_sub ((a.x - c.x) * (b.y - c.y)) ((a.y - c.y) * (b.x - c.x))
    rw [abs_mul _ (2 : ℚ), abs_two]
    have h4 := abs_nonneg ((a.x - c.x) * (b.y - c.y))
    have h5 := abs_nonneg ((a.y - c.y) * (b.x - c.x))
    have h6 := abs_nonneg ((a.x - c.x) * (b.y - c.y) - (a.y - c.y) * (b.x - c.x))
    generalize |(a.x - c.x) * (b.y - c.y) - (a.y - c.y) * (b.x - c.x)| = t at *
    generalize |(a.x - c.x) * (b.y - c.y)| = x at *
    generalize |(a.y - c.y) * (b.x - c.x)| = y at *
    generalize P * Q = W at *
    clear n la lb a0 b0 SA SB sax say sbx sby m1 m2 d D
    linarith
  · unfold Triangle.circumcentreDD
    simp only [xB64, yB64, two_lit64]
    rfl

/-! ## The last sum -/

theorem lastDD {x h l q E : ℚ} (hx : FineOrd78 x) (p : IsPair h l) (he : |h + l - q| ≤ E) (hs : |h + l| ≤ 2 ^ (290 : ℤ)) :
    ∃ u, ((DD.ofF (Fl.fin x) : DD (B64 sq hy)).add ⟨Fl.fin h, Fl.fin l⟩).doubleValue = Fl.fin u ∧
      |u - (x + q)| ≤ |x + q| * (1 / 2 ^ 53 + 1 / 2 ^ 100) + 3 * E ∧ (E ≤ |x + q| / 2 ^ 58 → Adjacent u (x + q)) := by
  obtain ⟨lh, ll⟩ := pair_le (by omega) p hs
  have bx : Bd 300 (Fl.fin x : B64 sq hy) := ⟨x, rfl, hx.2.trans (two_mono (by omega))⟩
  have bz : Bd 300 (Fl.fin 0 : B64 sq hy) := ⟨0, rfl, by rw [abs_zero]; exact (two_pos _).le⟩
  have hb := bd_addHiLo (a := (⟨Fl.fin x, Fl.fin 0⟩ : DD (B64 sq hy))) bx bz ⟨h, rfl, lh.trans (two_mono (by omega))⟩ ⟨l, rfl, ll.trans (two_mono (by omega))⟩ (by omega) (by omega)
  obtain ⟨v, w, f1, f2, f3⟩ := C74_sum x 0 h l (.ofF hx.1.1) p hb.finite
  have e : (DD.ofF (Fl.fin x) : DD (B64 sq hy)) = ⟨Fl.fin x, Fl.fin 0⟩ := by unfold DD.ofF; rw [lit64]
  rw [add_zero] at f3
  have E0 := (abs_nonneg _).trans he
  have o0 := abs_nonneg (x + q)
  have t1 : |x + (h + l)| ≤ |x + q| + E := by
    have := abs_add_le (x + q) (h + l - q)
    rw [show x + q + (h + l - q) = x + (h + l) by ring] at this
    linarith
  have t2 : |v + w - (x + q)| ≤ |x + q| / 2 ^ 101 + E * (1 + 1 / 2 ^ 101) := by
    have := abs_sub_le (v + w) (x + (h + l)) (x + q)
    rw [show x + (h + l) - (x + q) = h + l - q by ring] at this
    linarith
  refine ⟨v, by rw [e, f1]; exact f2.norm, ?_, fun hq' => adjacent_of f2 (t2.trans ?_)⟩
  · have := pair_rounded f2 t2
    linarith
  · linarith

/-- One ordinate: the difference from that of the third vertex is `N / (2 δ)`. -/
theorem ordinateDD {K P Q : ℚ} (hK : K ≤ 2 ^ 95) (k0 : 1 / 2 ≤ K) (hP : P ≤ 2 ^ 79) (hQ : Q ≤ 2 ^ 79) (P0 : 0 ≤ P) (Q0 : 0 ≤ Q) {N δ : ℚ} {X D : DD (B64 sq hy)}
    (hX : ApD (-390) 248 N (12 * (P * Q * (P + Q)) / 2 ^ 100) X) (hD : ApD (-260) 167 (2 * δ) (17 * (P * Q) / 2 ^ 100) D) (h0 : δ ≠ 0) (fl : P * Q ≤ K * |δ|)
    (hN : |N| ≤ 2 * (P * Q * (P + Q))) :
    ∃ h l, X.div D = ⟨Fl.fin h, Fl.fin l⟩ ∧ IsPair h l ∧ |h + l - N / (2 * δ)| ≤ K * (13 * (P + Q) + 20 * |N / (2 * δ)|) / 2 ^ 100 ∧ |h + l| ≤ 2 ^ (290 : ℤ) := by
  have a0 : 0 < |δ| := abs_pos.mpr h0
  have e2 : |2 * δ| = 2 * |δ| := by rw [abs_mul, abs_two]
  have PQ := mul_nonneg P0 Q0
  obtain ⟨h, l, g1, g2, g3⟩ := apD_quotient hX hD (by
    rw [e2]
    have := mul_le_mul_of_nonneg_right hK a0.le
    linarith) (mul_ne_zero two_ne_zero h0)
  have q0 := abs_nonneg (N / (2 * δ))
  have hq : |N / (2 * δ)| ≤ K * (P + Q) := by
    rw [abs_div, e2, div_le_iff₀ (by positivity)]
    have := mul_le_mul_of_nonneg_right fl (add_nonneg P0 Q0)
    linarith
  rw [e2] at g3
  generalize hqq : |N / (2 * δ)| = q at *
  have T : 2 * (12 * (P * Q * (P + Q)) / 2 ^ 100 + q * (17 * (P * Q) / 2 ^ 100)) / (2 * |δ|) ≤ K * (12 * (P + Q) + 17 * q) / 2 ^ 100 := by
    rw [div_le_iff₀ (by positivity)]
    have := mul_le_mul_of_nonneg_right fl (by linarith : 0 ≤ 12 * (P + Q) + 17 * q)
    have e : 2 * (12 * (P * Q * (P + Q)) / 2 ^ 100 + q * (17 * (P * Q) / 2 ^ 100)) = P * Q * (12 * (P + Q) + 17 * q) * (2 / 2 ^ 100) := by ring
    rw [e]
    have e' : K * (12 * (P + Q) + 17 * q) / 2 ^ 100 * (2 * |δ|) = K * |δ| * (12 * (P + Q) + 17 * q) * (2 / 2 ^ 100) := by ring
    rw [e']
    exact mul_le_mul_of_nonneg_right this (by norm_num)
  generalize 2 * (12 * (P * Q * (P + Q)) / 2 ^ 100 + q * (17 * (P * Q) / 2 ^ 100)) / (2 * |δ|) = t at *
  have kq : 1 / 2 * q ≤ K * q := mul_le_mul_of_nonneg_right k0 q0
  have kP : 0 ≤ K * P := mul_nonneg (by linarith) P0
  have kQ : 0 ≤ K * Q := mul_nonneg (by linarith) Q0
  have E : |h + l - N / (2 * δ)| ≤ K * (13 * (P + Q) + 20 * q) / 2 ^ 100 := by
    refine g3.trans ?_
    have e1 : K * (12 * (P + Q) + 17 * q) / 2 ^ 100 = (12 * (K * P) + 12 * (K * Q) + 17 * (K * q)) / 2 ^ 100 := by ring
    have e3 : K * (13 * (P + Q) + 20 * q) / 2 ^ 100 = (13 * (K * P) + 13 * (K * Q) + 20 * (K * q)) / 2 ^ 100 := by ring
    rw [e1] at T
    rw [e3]
    generalize K * P = x at *
    generalize K * Q = y at *
    generalize K * q = z at *
    clear g3 hq hN fl hP hQ hK
    linarith
  refine ⟨h, l, g1, g2, E, ?_⟩
  have h1 := abs_sub_abs_le_abs_sub (h + l) (N / (2 * δ))
  have kk : K * (P + Q) ≤ 2 ^ 95 * (P + Q) := mul_le_mul_of_nonneg_right hK (add_nonneg P0 Q0)
  have k3 : K * q ≤ 2 ^ 95 * q := mul_le_mul_of_nonneg_right hK q0
  have e3 : K * (13 * (P + Q) + 20 * q) / 2 ^ 100 = (13 * (K * (P + Q)) + 20 * (K * q)) / 2 ^ 100 := by ring
  rw [e3] at E
  have : (2 : ℚ) ^ (290 : ℤ) = 2 ^ 290 := by norm_cast
  rw [this]
  have big : (2 : ℚ) ^ 180 ≤ 2 ^ 290 := pow_le_pow_right₀ (by norm_num) (by norm_num)
  refine le_trans ?_ big
  rw [hqq] at h1
  generalize K * (P + Q) = x at *
  generalize K * q = z at *
  clear T g3 kq kP kQ e3 fl hN this big
  linarith

/-- C125: when the corner at the third vertex is not flatter than 2^-95, the ordinates of the circumcentre in double-double arithmetic are finite, off by half a unit in the last
place and κ/2^92 of the circumradius; and no double is between the ordinate and its exact value unless that is 2^35 times smaller than κ times the circumradius. -/
theorem C125_circumcentre {κ : ℝ} (hκ : κ ≤ 2 ^ 95) {a b c : Coord ℚ} (ha : FinePt78 a) (hb : FinePt78 b) (hc : FinePt78 c) (hd : det c a b ≠ 0)
    (fl : extent c a * extent c b ≤ κ * |((det c a b : ℚ) : ℝ)|) :
    ∃ u v : ℚ, Triangle.circumcentreDD (toB64 a : Coord (B64 sq hy)) (toB64 b) (toB64 c) = Coord.xy (Fl.fin u) (Fl.fin v) ∧
      ∀ o : Coord ℝ, dist o (realPt a) = dist o (realPt c) → dist o (realPt b) = dist o (realPt c) →
        |(u : ℝ) - o.x| ≤ |o.x| * (1 / 2 ^ 53 + 1 / 2 ^ 100) + κ * dist o (realPt c) / 2 ^ 92 ∧
        |(v : ℝ) - o.y| ≤ |o.y| * (1 / 2 ^ 53 + 1 / 2 ^ 100) + κ * dist o (realPt c) / 2 ^ 92 ∧
        (κ * dist o (realPt c) ≤ 2 ^ 35 * |o.x| → ∃ q : ℚ, o.x = q ∧ Adjacent u q) ∧
        (κ * dist o (realPt c) ≤ 2 ^ 35 * |o.y| → ∃ q : ℚ, o.y = q ∧ Adjacent v q) := by
  obtain ⟨P, eP⟩ : ∃ P : ℚ, P = max |a.x - c.x| |a.y - c.y| := ⟨_, rfl⟩
  obtain ⟨Q, eQ⟩ : ∃ Q : ℚ, Q = max |b.x - c.x| |b.y - c.y| := ⟨_, rfl⟩
  have ax : |a.x - c.x| ≤ P := eP ▸ le_max_left _ _
  have ay : |a.y - c.y| ≤ P := eP ▸ le_max_right _ _
  have bx : |b.x - c.x| ≤ Q := eQ ▸ le_max_left _ _
  have by' : |b.y - c.y| ≤ Q := eQ ▸ le_max_right _ _
  have xP : extent c a = P := by rw [eP]; unfold extent; push_cast; rfl
  have xQ : extent c b = Q := by rw [eQ]; unfold extent; push_cast; rfl
  have P0 := (abs_nonneg _).trans ax
  have Q0 := (abs_nonneg _).trans bx
  have two79 : (2 : ℚ) ^ (78 : ℤ) + 2 ^ (78 : ℤ) = 2 ^ 79 := by norm_num
  have wide : ∀ {x y : ℚ}, FineOrd78 x → FineOrd78 y → |x - y| ≤ 2 ^ 79 := fun hx hy' => (abs_sub _ _).trans (two79 ▸ add_le_add hx.2 hy'.2)
  have lP : P ≤ 2 ^ 79 := eP ▸ max_le (wide ha.1 hc.1) (wide ha.2 hc.2)
  have lQ : Q ≤ 2 ^ 79 := eQ ▸ max_le (wide hb.1 hc.1) (wide hb.2 hc.2)
  have d0 : 0 < |det c a b| := abs_pos.mpr hd
  have half := det_extents c a b
  rw [xP, xQ] at fl half
  obtain ⟨δ, eδ⟩ : ∃ δ, det c a b = δ := ⟨_, rfl⟩
  have eδ' : ((a.x : ℝ) - c.x) * (b.y - c.y) - (a.y - c.y) * (b.x - c.x) = (δ : ℝ) := by rw [← eδ]; unfold det; push_cast; ring
  obtain ⟨X, Y, D, hX, hY, hD, e⟩ := circumDD_ap (sq := sq) (hy := hy) ha hb hc ax ay bx by'
  rw [eδ] at hD hd d0 fl half
  obtain ⟨K, eK⟩ : ∃ K : ℚ, K = P * Q / |δ| := ⟨_, rfl⟩
  have flK : P * Q ≤ K * |δ| := by rw [eK, div_mul_cancel₀ _ d0.ne']
  have half' : |δ| ≤ 2 * (P * Q) := by exact_mod_cast half
  have k0 : 1 / 2 ≤ K := by rw [eK, le_div_iff₀ d0]; linarith
  have Kκ : (K : ℝ) ≤ κ := by
    rw [eK]; push_cast
    rw [div_le_iff₀ (by exact_mod_cast d0)]
    exact fl
  have hK : K ≤ 2 ^ 95 := by
    have := Kκ.trans hκ
    exact_mod_cast this
  have sA := sum_squares_le ax ay
  have sB := sum_squares_le bx by'
  have a0 : 0 ≤ (a.x - c.x) * (a.x - c.x) + (a.y - c.y) * (a.y - c.y) := add_nonneg (mul_self_nonneg _) (mul_self_nonneg _)
  have b0 : 0 ≤ (b.x - c.x) * (b.x - c.x) + (b.y - c.y) * (b.y - c.y) := add_nonneg (mul_self_nonneg _) (mul_self_nonneg _)
  have num : ∀ {u v w z : ℚ}, |u| ≤ P → |w| ≤ Q → 0 ≤ v → 0 ≤ z → v ≤ 2 * (P * P) → z ≤ 2 * (Q * Q) → |u * z - v * w| ≤ 2 * (P * Q * (P + Q)) := by
    intro u v w z lu lw v0 z0 lv lz
    have t1 := abs_mul_le_mul lu ((abs_of_nonneg z0).le.trans lz)
    have t2 := abs_mul_le_mul ((abs_of_nonneg v0).le.trans lv) lw
    exact (abs_sub _ _).trans ((add_le_add t1 t2).trans (le_of_eq (by ring)))
  obtain ⟨h, l, g1, g2, g3, g4⟩ := ordinateDD hK k0 lP lQ P0 Q0 hX hD hd flK (num ay by' a0 b0 sA sB)
  obtain ⟨h', l', g1', g2', g3', g4'⟩ := ordinateDD hK k0 lP lQ P0 Q0 hY hD hd flK (num ax bx a0 b0 sA sB)
  obtain ⟨r, er⟩ : ∃ r, ((a.y - c.y) * ((b.x - c.x) * (b.x - c.x) + (b.y - c.y) * (b.y - c.y)) - ((a.x - c.x) * (a.x - c.x) + (a.y - c.y) * (a.y - c.y)) * (b.y - c.y)) / (2 * δ) = r := ⟨_, rfl⟩
  obtain ⟨r', er'⟩ : ∃ r', ((a.x - c.x) * ((b.x - c.x) * (b.x - c.x) + (b.y - c.y) * (b.y - c.y)) - ((a.x - c.x) * (a.x - c.x) + (a.y - c.y) * (a.y - c.y)) * (b.x - c.x)) / (2 * δ) = r' := ⟨_, rfl⟩
  rw [er] at g3
  rw [er'] at g3'
  obtain ⟨u, u1, u2, u3⟩ := lastDD (sq := sq) (hy := hy) (q := -r) (E := K * (13 * (P + Q) + 20 * |r|) / 2 ^ 100) hc.1 g2.neg (by rw [show -h + -l - -r = -(h + l - r) by ring, abs_neg]; exact g3) (by rw [← neg_add, abs_neg]; exact g4)
  obtain ⟨v, v1, v2, v3⟩ := lastDD (sq := sq) (hy := hy) hc.2 g2' g3' g4'
  refine ⟨u, v, ?_, ?_⟩
  · rw [e, g1, g1', v1]
    have : ((DD.ofF (Fl.fin c.x) : DD (B64 sq hy)).sub ⟨Fl.fin h, Fl.fin l⟩).doubleValue = Fl.fin u := u1
    rw [this]
  · intro o oa ob
    obtain ⟨c1, c2⟩ := chord_le oa
    obtain ⟨c3, c4⟩ := chord_le ob
    obtain ⟨r1, r2⟩ := abs_le_dist o (realPt c)
    have hP : (P : ℝ) ≤ 2 * dist o (realPt c) := by rw [← xP]; exact max_le c1 c2
    have hQ : (Q : ℝ) ≤ 2 * dist o (realPt c) := by rw [← xQ]; exact max_le c3 c4
    have sa := congrArg (· ^ 2) oa
    have sb := congrArg (· ^ 2) ob
    simp only [Spec.dist_sq] at sa sb
    generalize dist o (realPt c) = R at *
    simp only [realPt] at sa sb r1 r2
    have hd0 : (δ : ℝ) ≠ 0 := by exact_mod_cast hd
    have Ex : o.x = ((c.x + -r : ℚ) : ℝ) := by
      have : -(r : ℝ) = o.x - c.x := by
        rw [← er]; push_cast
        rw [← neg_div, div_eq_iff (mul_ne_zero two_ne_zero hd0), ← eδ']
        linear_combination ((b.y : ℝ) - c.y) * sa - ((a.y : ℝ) - c.y) * sb
      push_cast; linarith
    have Ey : o.y = ((c.y + r' : ℚ) : ℝ) := by
      have : (r' : ℝ) = o.y - c.y := by
        rw [← er']; push_cast
        rw [div_eq_iff (mul_ne_zero two_ne_zero hd0), ← eδ']
        linear_combination ((a.x : ℝ) - c.x) * sb - ((b.x : ℝ) - c.x) * sa
      push_cast; linarith
    have R0 : 0 ≤ R := (abs_nonneg _).trans r1
    have qx : (|r| : ℝ) ≤ R := by
      have : o.x - c.x = -(r : ℝ) := by rw [Ex]; push_cast; ring
      rw [← abs_neg, ← this]; exact r1
    have qy : (|r'| : ℝ) ≤ R := by
      have : o.y - c.y = (r' : ℝ) := by rw [Ey]; push_cast; ring
      rw [← this]; exact r2
    have K0 : (0 : ℝ) ≤ K := by exact_mod_cast (by linarith : (0 : ℚ) ≤ K)
    have err : ∀ {r : ℚ}, (|r| : ℝ) ≤ R → ((K * (13 * (P + Q) + 20 * |r|) / 2 ^ 100 : ℚ) : ℝ) ≤ κ * R * (72 / 2 ^ 100) := by
      intro r hr
      push_cast
      have : (K : ℝ) * (13 * (P + Q) + 20 * |(r : ℝ)|) ≤ κ * (72 * R) := mul_le_mul Kκ (by linarith) (by positivity) (K0.trans Kκ)
      calc _ ≤ κ * (72 * R) / 2 ^ 100 := div_le_div_of_nonneg_right this (by positivity)
        _ = _ := by ring
    have kR : 0 ≤ κ * R := mul_nonneg (K0.trans Kκ) R0
    have bound : ∀ {u q E : ℚ}, |u - q| ≤ |q| * (1 / 2 ^ 53 + 1 / 2 ^ 100) + 3 * E → (E : ℝ) ≤ κ * R * (72 / 2 ^ 100) → |(u : ℝ) - q| ≤ |(q : ℝ)| * (1 / 2 ^ 53 + 1 / 2 ^ 100) + κ * R / 2 ^ 92 := by
      intro u q E hu hE
      have : |(u : ℝ) - q| ≤ |(q : ℝ)| * (1 / 2 ^ 53 + 1 / 2 ^ 100) + 3 * E := by
        have := (Rat.cast_le (K := ℝ)).mpr hu
        push_cast at this
        exact this
      linarith
    have adj : ∀ {q E : ℚ}, (E : ℝ) ≤ κ * R * (72 / 2 ^ 100) → κ * R ≤ 2 ^ 35 * |(q : ℝ)| → E ≤ |q| / 2 ^ 58 := by
      intro q E hE hq
      have : (E : ℝ) ≤ |(q : ℝ)| / 2 ^ 58 := by have := abs_nonneg (q : ℝ); linarith
      exact_mod_cast this
    rw [Ex, Ey]
    exact ⟨bound u2 (err qx), bound v2 (err qy), fun hq => ⟨_, rfl, u3 (adj (err qx) hq)⟩, fun hq => ⟨_, rfl, v3 (adj (err qy) hq)⟩⟩

/-! ## Limits and examples -/

theorem fineOrd78_of {x : ℚ} (n : ℤ) (h : rnd x = .fin x) (hn : x * 2 ^ 130 = n) (hx : |x| ≤ 2) : FineOrd78 x := by
  refine ⟨⟨f64_of h, ⟨n, ?_⟩, hx.trans (by norm_num)⟩, hx.trans (by norm_num)⟩
  rw [← hn]; norm_num; ring

/-- C125: the triangle (1,1), (1+2^-52,1+2^-52), (-2^-60-2^-112,-2^-60) is proper, but too flat for double-double arithmetic: no finite circumcentre is found. -/
theorem C125_too_flat : ∃ a b c : Coord ℚ, FinePt78 a ∧ FinePt78 b ∧ FinePt78 c ∧ det c a b ≠ 0 ∧
    isFinite (Triangle.circumcentreDD (toB64 a : Coord X64) (toB64 b) (toB64 c)).x = false ∧
    isFinite (Triangle.circumcentreDD (toB64 a : Coord X64) (toB64 b) (toB64 c)).y = false := by
  refine ⟨Coord.xy 1 1, Coord.xy (1 + 1 / 2 ^ 52) (1 + 1 / 2 ^ 52), Coord.xy (-(1 / 2 ^ 60 + 1 / 2 ^ 112)) (-(1 / 2 ^ 60)), ⟨fineOrd78_of (2 ^ 130) (by decide +kernel) ?_ ?_, fineOrd78_of (2 ^ 130) (by decide +kernel) ?_ ?_⟩,
    ⟨fineOrd78_of (2 ^ 130 + 2 ^ 78) (by decide +kernel) ?_ ?_, fineOrd78_of (2 ^ 130 + 2 ^ 78) (by decide +kernel) ?_ ?_⟩,
    ⟨fineOrd78_of (-(2 ^ 70 + 2 ^ 18)) (by decide +kernel) ?_ ?_, fineOrd78_of (-(2 ^ 70)) (by decide +kernel) ?_ ?_⟩, ?_, by decide +kernel, by decide +kernel⟩
  all_goals norm_num [Coord.xy, det, abs_le]

/-- The triangle (1,1), (1+2^-40,1+2^-41), (0.1,0.1), with the double nearest to 0.1: it meets the hypotheses with κ = 2^42. -/
example : let a : Coord ℚ := Coord.xy 1 1; let b : Coord ℚ := Coord.xy (1 + 1 / 2 ^ 40) (1 + 1 / 2 ^ 41)
    let c : Coord ℚ := Coord.xy (3602879701896397 / 2 ^ 55) (3602879701896397 / 2 ^ 55)
    FinePt78 a ∧ FinePt78 b ∧ FinePt78 c ∧ det c a b ≠ 0 ∧ extent c a * extent c b ≤ 2 ^ 42 * |((det c a b : ℚ) : ℝ)| := by
  refine ⟨⟨fineOrd78_of (2 ^ 130) (by decide +kernel) ?_ ?_, fineOrd78_of (2 ^ 130) (by decide +kernel) ?_ ?_⟩,
    ⟨fineOrd78_of (2 ^ 130 + 2 ^ 90) (by decide +kernel) ?_ ?_, fineOrd78_of (2 ^ 130 + 2 ^ 89) (by decide +kernel) ?_ ?_⟩,
    ⟨fineOrd78_of (3602879701896397 * 2 ^ 75) (by decide +kernel) ?_ ?_, fineOrd78_of (3602879701896397 * 2 ^ 75) (by decide +kernel) ?_ ?_⟩, ?_, ?_⟩
  all_goals norm_num [Coord.xy, det, abs_le, extent]

end Verif.Props
