import Verif.Props.SegmentsDoubles
import Verif.Props.CircumcentreDD64
import Verif.Props.DistanceDoubles

set_option linter.unusedSectionVars false
set_option linter.unusedVariables false

/-! # C121: the common point of two lines or segments of arbitrary doubles -/

namespace Verif.Props
open Flt Verif.Spec Verif.Binary64

variable {sq : ℚ → Val} {hy : ℚ → ℚ → Val}

/-! ## Inexact pairs -/

/-- A normalised pair whose value is a multiple of `2^e` of size at most `2^k` and within `r` of `v`. -/
structure ApD (e k : ℤ) (v r : ℚ) (A : DD (B64 sq hy)) : Prop where
  pair : ∃ h l, A = ⟨Fl.fin h, Fl.fin l⟩ ∧ IsPair h l ∧ Mul2 e (h + l) ∧ |h + l| ≤ 2 ^ k ∧ |h + l - v| ≤ r

theorem apD_ofF {e k : ℤ} {x : ℚ} (f : IsF64 x) (hm : Mul2 e x) (hb : |x| ≤ 2 ^ k) : ApD e k x 0 (DD.ofF (Fl.fin x) : DD (B64 sq hy)) :=
  ⟨⟨x, 0, by unfold DD.ofF; rw [lit64], .ofF f, by rwa [add_zero], by rwa [add_zero], by simp⟩⟩

theorem ApD.mono {e k : ℤ} {v r r' : ℚ} {A : DD (B64 sq hy)} (h : ApD e k v r A) (hr : r ≤ r') : ApD e k v r' A := by
  obtain ⟨a, b, e1, e2, e3, e4, e5⟩ := h.pair
  exact ⟨⟨a, b, e1, e2, e3, e4, e5.trans hr⟩⟩

theorem ApD.widen {e k k' : ℤ} {v r : ℚ} {A : DD (B64 sq hy)} (h : ApD e k v r A) (hk : k ≤ k') : ApD e k' v r A := by
  obtain ⟨a, b, e1, e2, e3, e4, e5⟩ := h.pair
  exact ⟨⟨a, b, e1, e2, e3, e4.trans (two_mono hk), e5⟩⟩

/-- An upper bound of the size of a pair with a small relative error. -/
theorem grown {k : ℤ} {x y : ℚ} {n : ℕ} (h : |x| ≤ 2 ^ k) (he : |y - x| ≤ |x| / 2 ^ n) : |y| ≤ 2 ^ (k + 1) := by
  have h1 : |x| / 2 ^ n ≤ |x| := div_le_self (abs_nonneg _) (one_le_pow₀ (by norm_num))
  rw [two_add, zpow_one]
  have := abs_sub_abs_le_abs_sub y x
  linarith

theorem ApD.selfSub {e k : ℤ} {u v r s : ℚ} {A B : DD (B64 sq hy)} (ha : ApD e k u r A) (hb : ApD e k v s B) (he : -1074 ≤ e) (hk0 : -1074 ≤ k)
    (h2 : k ≤ 1000) : ApD e (k + 2) (u - v) (r + s + (|u - v| + (r + s)) / 2 ^ 101) (A.selfSub B) := by
  obtain ⟨a, b, rfl, pa, ma, la, ra⟩ := ha.pair
  obtain ⟨c, d, rfl, pb, mb, lb, rb⟩ := hb.pair
  obtain ⟨m1, m2⟩ := pair_mul2 he pa ma
  obtain ⟨m3, m4⟩ := pair_mul2 he pb mb
  obtain ⟨l1, l2⟩ := pair_le hk0 pa la
  obtain ⟨l3, l4⟩ := pair_le hk0 pb lb
  have hle : |a + b - (c + d)| ≤ 2 ^ (k + 1) := by
    rw [two_add, zpow_one]
    linarith [abs_sub (a + b) (c + d)]
  have hfin := (bd_addHiLo (a := (⟨Fl.fin a, Fl.fin b⟩ : DD (B64 sq hy))) (yhi := Fl.fin (-c)) (ylo := Fl.fin (-d)) ⟨a, rfl, l1⟩ ⟨b, rfl, l2⟩
    ⟨-c, rfl, by rwa [abs_neg]⟩ ⟨-d, rfl, by rwa [abs_neg]⟩ hk0 (by omega)).finite
  obtain ⟨h, l, e1, e2, e3, e4⟩ := C74_difference a b c d pa pb hfin
  have pm := pm_addHiLo (a := (⟨Fl.fin a, Fl.fin b⟩ : DD (B64 sq hy))) (yhi := Fl.fin (-c)) (ylo := Fl.fin (-d)) (pm_fin m1) (pm_fin m2)
    (pm_fin m3.neg) (pm_fin m4.neg) he
  have e1' : (⟨Fl.fin a, Fl.fin b⟩ : DD (B64 sq hy)).addHiLo (Fl.fin (-c)) (Fl.fin (-d)) = ⟨Fl.fin h, Fl.fin l⟩ := e1
  rw [e1'] at pm
  refine ⟨⟨h, l, e2, e3, (pm.1 h rfl).add (pm.2 l rfl), ?_, ?_⟩⟩
  · have := grown hle e4
    rwa [show k + 1 + 1 = k + 2 by ring] at this
  · have d1 : |a + b - (c + d) - (u - v)| ≤ r + s := by
      rw [show a + b - (c + d) - (u - v) = (a + b - u) - (c + d - v) by ring]
      exact (abs_sub _ _).trans (add_le_add ra rb)
    have d2 : |a + b - (c + d)| ≤ |u - v| + (r + s) := by
      have := abs_sub_abs_le_abs_sub (a + b - (c + d)) (u - v)
      linarith
    have d3 : |a + b - (c + d)| / 2 ^ 101 ≤ (|u - v| + (r + s)) / 2 ^ 101 := div_le_div_of_nonneg_right d2 (by positivity)
    have d4 := abs_sub_le (h + l) (a + b - (c + d)) (u - v)
    linarith

theorem ApD.selfMul {e f k m : ℤ} {u v r s : ℚ} {A B : DD (B64 sq hy)} (ha : ApD e k u r A) (hb : ApD f m v s B) (he : -900 ≤ e) (hf : -900 ≤ f)
    (hef : -968 ≤ e + f) (hk0 : -400 ≤ k) (hm0 : -400 ≤ m) (hk1 : k ≤ 450) (hm1 : m ≤ 450) :
    ApD (e + f) (k + m + 1) (u * v) ((|u| + r) * (|v| + s) * (1 + 1 / 2 ^ 100) - |u * v|) (A.selfMul B) := by
  obtain ⟨a, b, rfl, pa, ma, la, ra⟩ := ha.pair
  obtain ⟨c, d, rfl, pb, mb, lb, rb⟩ := hb.pair
  obtain ⟨m1, m2⟩ := pair_mul2 (by omega) pa ma
  obtain ⟨m3, m4⟩ := pair_mul2 (by omega) pb mb
  obtain ⟨l1, l2⟩ := pair_le (by omega) pa la
  obtain ⟨l3, l4⟩ := pair_le (by omega) pb lb
  have hle : |(a + b) * (c + d)| ≤ 2 ^ (k + m) := by
    rw [abs_mul, two_add]
    exact mul_le_mul la lb (abs_nonneg _) (two_pos _).le
  have nu : NoUnderflow a c := by
    by_cases h0 : a = 0
    · exact Or.inl h0
    by_cases h00 : c = 0
    · exact Or.inr (Or.inl h00)
    refine Or.inr (Or.inr ⟨?_, ?_, ?_⟩)
    · exact le_trans (two_mono (by omega)) (m1.le_abs h0)
    · exact le_trans (two_mono (by omega)) (m3.le_abs h00)
    · exact le_trans (two_mono hef) ((m1.mul m3).le_abs (mul_ne_zero h0 h00))
  obtain ⟨K, hK⟩ : ∃ K, K = max k m := ⟨_, rfl⟩
  have k1 : k ≤ K := by omega
  have k2 : m ≤ K := by omega
  have hfin := (bd_mulHiLo (k := K) (a := (⟨Fl.fin a, Fl.fin b⟩ : DD (B64 sq hy))) (b := ⟨Fl.fin c, Fl.fin d⟩)
    ⟨a, rfl, l1.trans (two_mono k1)⟩ ⟨b, rfl, l2.trans (two_mono k1)⟩
    ⟨c, rfl, l3.trans (two_mono k2)⟩ ⟨d, rfl, l4.trans (two_mono k2)⟩ (by omega) (by omega)).finite
  obtain ⟨h, l, e1, e2, e3⟩ := C67_product a b c d pa pb nu hfin
  have pm := pm_mulHiLo (a := (⟨Fl.fin a, Fl.fin b⟩ : DD (B64 sq hy))) (b := ⟨Fl.fin c, Fl.fin d⟩) (pm_fin m1) (pm_fin m2) (pm_fin m3) (pm_fin m4)
    (by omega) (by omega) (by omega)
  have e1' : (⟨Fl.fin a, Fl.fin b⟩ : DD (B64 sq hy)).mulHiLo (Fl.fin c) (Fl.fin d) = ⟨Fl.fin h, Fl.fin l⟩ := e1
  rw [e1'] at pm
  refine ⟨⟨h, l, e1, e2, (pm.1 h rfl).add (pm.2 l rfl), grown hle e3, ?_⟩⟩
  have r0 := (abs_nonneg _).trans ra
  have s0 := (abs_nonneg _).trans rb
  have n1 : |a + b| ≤ |u| + r := by have := abs_sub_abs_le_abs_sub (a + b) u; linarith
  have n2 : |c + d| ≤ |v| + s := by have := abs_sub_abs_le_abs_sub (c + d) v; linarith
  have n3 : |(a + b) * (c + d)| ≤ (|u| + r) * (|v| + s) := by
    rw [abs_mul]; exact mul_le_mul n1 n2 (abs_nonneg _) (by positivity)
  have n4 : |(a + b) * (c + d)| / 2 ^ 100 ≤ (|u| + r) * (|v| + s) / 2 ^ 100 := div_le_div_of_nonneg_right n3 (by positivity)
  have n5 : |(a + b) * (c + d) - u * v| ≤ (|u| + r) * (|v| + s) - |u| * |v| := by
    rw [show (a + b) * (c + d) - u * v = (a + b - u) * (c + d - v) + (a + b - u) * v + u * (c + d - v) by ring]
    have t1 := abs_add_three ((a + b - u) * (c + d - v)) ((a + b - u) * v) (u * (c + d - v))
    rw [abs_mul, abs_mul, abs_mul] at t1
    have t2 : |a + b - u| * |c + d - v| ≤ r * s := mul_le_mul ra rb (abs_nonneg _) r0
    have t3 : |a + b - u| * |v| ≤ r * |v| := mul_le_mul_of_nonneg_right ra (abs_nonneg _)
    have t4 : |u| * |c + d - v| ≤ |u| * s := mul_le_mul_of_nonneg_left rb (abs_nonneg _)
    linarith
  have n6 := abs_sub_le (h + l) ((a + b) * (c + d)) (u * v)
  rw [abs_mul u v]
  have n7 : (|u| + r) * (|v| + s) * (1 + 1 / 2 ^ 100) = (|u| + r) * (|v| + s) + (|u| + r) * (|v| + s) / 2 ^ 100 := by ring
  rw [n7]
  linarith

theorem ApD.mul' {e f k m : ℤ} {u v r s : ℚ} {A B : DD (B64 sq hy)} (ha : ApD e k u r A) (hb : ApD f m v s B) (he : -900 ≤ e) (hf : -900 ≤ f)
    (hef : -968 ≤ e + f) (hk0 : -400 ≤ k) (hm0 : -400 ≤ m) (hk1 : k ≤ 450) (hm1 : m ≤ 450) :
    ApD (e + f) (k + m + 1) (u * v) ((|u| + r) * (|v| + s) * (1 + 1 / 2 ^ 100) - |u * v|) (A.mul B) := by
  have : A.mul B = A.selfMul B := by
    obtain ⟨c, d, rfl, -, -⟩ := hb.pair
    rfl
  rw [this]
  exact ha.selfMul hb he hf hef hk0 hm0 hk1 hm1

/-- The product of two numbers with relative errors `2^-101`. -/
theorem ApD.mulRel {e f k m : ℤ} {u v : ℚ} {A B : DD (B64 sq hy)} (ha : ApD e k u (|u| / 2 ^ 101) A) (hb : ApD f m v (|v| / 2 ^ 101) B)
    (he : -900 ≤ e) (hf : -900 ≤ f)
    (hef : -968 ≤ e + f) (hk0 : -400 ≤ k) (hm0 : -400 ≤ m) (hk1 : k ≤ 450) (hm1 : m ≤ 450) :
    ApD (e + f) (k + m + 1) (u * v) (|u * v| * (9 / 2 ^ 102)) (A.mul B) := by
  refine (ha.mul' hb he hf hef hk0 hm0 hk1 hm1).mono ?_
  rw [abs_mul]
  have : (|u| + |u| / 2 ^ 101) * (|v| + |v| / 2 ^ 101) * (1 + 1 / 2 ^ 100) - |u| * |v| =
    |u| * |v| * ((1 + 1 / 2 ^ 101) * (1 + 1 / 2 ^ 101) * (1 + 1 / 2 ^ 100) - 1) := by ring
  rw [this]
  refine mul_le_mul_of_nonneg_left (by norm_num) (by positivity)

/-- A two by two determinant of such numbers. -/
theorem apD_det {e k : ℤ} {a b c d : ℚ} {P Q : DD (B64 sq hy)} (hp : ApD e k (a * b) (|a * b| * (9 / 2 ^ 102)) P)
    (hq : ApD e k (c * d) (|c * d| * (9 / 2 ^ 102)) Q) (he : -1074 ≤ e) (hk0 : -1074 ≤ k) (h2 : k ≤ 1000) :
    ApD e (k + 2) (a * b - c * d) ((|a * b| + |c * d|) * (3 / 2 ^ 100)) (P.selfSub Q) := by
  refine (hp.selfSub hq he hk0 h2).mono ?_
  have h := abs_sub (a * b) (c * d)
  have h1 := abs_nonneg (a * b)
  have h3 := abs_nonneg (c * d)
  generalize |a * b| = x at *
  generalize |c * d| = y at *
  generalize |a * b - c * d| = z at *
  have : x * (9 / 2 ^ 102) + y * (9 / 2 ^ 102) + (z + (x * (9 / 2 ^ 102) + y * (9 / 2 ^ 102))) / 2 ^ 101 ≤
      x * (9 / 2 ^ 102) + y * (9 / 2 ^ 102) + (x + y + (x * (9 / 2 ^ 102) + y * (9 / 2 ^ 102))) / 2 ^ 101 := by gcongr
  refine this.trans ?_
  have e : x * (9 / 2 ^ 102) + y * (9 / 2 ^ 102) + (x + y + (x * (9 / 2 ^ 102) + y * (9 / 2 ^ 102))) / 2 ^ 101 =
    (x + y) * (9 / 2 ^ 102 + (1 + 9 / 2 ^ 102) / 2 ^ 101) := by ring
  rw [e]
  exact mul_le_mul_of_nonneg_left (by norm_num) (by positivity)

/-! ## The lines -/

/-- A double that is a multiple of `2^-130` of size at most `2^80`: zero, or any double of size between `2^-78` and `2^80`. -/
def FineOrd (x : ℚ) : Prop := IsF64 x ∧ Mul2 (-130) x ∧ |x| ≤ 2 ^ (80 : ℤ)

/-- A point with such ordinates. -/
def FinePt (p : Coord ℚ) : Prop := FineOrd p.x ∧ FineOrd p.y

theorem fineOrd_of {x : ℚ} (f : IsF64 x) (h1 : 2 ^ (-78 : ℤ) ≤ |x|) (h2 : |x| ≤ 2 ^ (80 : ℤ)) : FineOrd x := by
  refine ⟨f, f.1.mul2.mono (le_expo ?_), h2⟩
  exact h1

theorem apD_diff {x y : ℚ} (hx : FineOrd x) (hy' : FineOrd y) :
    ApD (-130) 82 (x - y) (|x - y| / 2 ^ 101) ((DD.ofF (Fl.fin x) : DD (B64 sq hy)).selfSubF (Fl.fin y)) := by
  rw [selfSubF_eq]
  refine ((apD_ofF hx.1 hx.2.1 hx.2.2).selfSub (apD_ofF hy'.1 hy'.2.1 hy'.2.2) (by norm_num) (by norm_num) (by norm_num)).mono (le_of_eq ?_)
  ring

theorem apD_cross {a b c d : ℚ} (ha : FineOrd a) (hb : FineOrd b) (hc : FineOrd c) (hd : FineOrd d) :
    ApD (-260) 163 (a * b - c * d) (|a * b - c * d| / 2 ^ 101)
      (((DD.ofF (Fl.fin a) : DD (B64 sq hy)).selfMulF (Fl.fin b)).selfSub ((DD.ofF (Fl.fin c)).selfMulF (Fl.fin d))) := by
  have prod : ∀ {a b : ℚ}, FineOrd a → FineOrd b → ApD (-260) 161 (a * b) 0 ((DD.ofF (Fl.fin a) : DD (B64 sq hy)).selfMulF (Fl.fin b)) := by
    intro a b ha hb
    rw [selfMulF_eq]
    obtain ⟨h, l, e1, e2, e3, e4, -⟩ := ((apD_ofF (sq := sq) (hy := hy) ha.1 ha.2.1 ha.2.2).selfMul (apD_ofF hb.1 hb.2.1 hb.2.2) (by norm_num) (by norm_num) (by norm_num) (by norm_num)
      (by norm_num) (by norm_num) (by norm_num)).pair
    refine ⟨⟨h, l, e1, e2, by simpa using e3, by simpa using e4, ?_⟩⟩
    have nu : NoUnderflow a b := by
      by_cases h0 : a = 0
      · exact Or.inl h0
      by_cases h00 : b = 0
      · exact Or.inr (Or.inl h00)
      refine Or.inr (Or.inr ⟨?_, ?_, ?_⟩)
      · exact le_trans (two_mono (by norm_num)) (ha.2.1.le_abs h0)
      · exact le_trans (two_mono (by norm_num)) (hb.2.1.le_abs h00)
      · exact le_trans (two_mono (by norm_num)) ((ha.2.1.mul hb.2.1).le_abs (mul_ne_zero h0 h00))
    obtain ⟨h', l', g1, g2, -, -⟩ := C63_product (sq := sq) (hy := hy) a b ha.1 hb.1 nu (by rw [e1]; rfl)
    rw [e1] at g1
    injection g1 with g3 g4
    rw [fin_inj g3, fin_inj g4, g2, sub_self, abs_zero]
  refine ((prod ha hb).selfSub (prod hc hd) (by norm_num) (by norm_num) (by norm_num)).mono (le_of_eq ?_)
  ring

theorem bd_errPart' {k l : ℤ} {x y : B64 sq hy} (hx : Bd k x) (hy' : Bd l y) (h1 : -500 ≤ k) (h3 : -500 ≤ l) (hk : k ≤ 900) (hl : l ≤ 900)
    (h2 : k + l + 66 ≤ 1023) : Bd (k + l + 66) (errPart x y) := by
  obtain ⟨a1, a2⟩ := bd_half hx (by omega) (by omega)
  obtain ⟨b1, b2⟩ := bd_half hy' (by omega) (by omega)
  have p := hx.mul hy' (by omega) (by omega)
  have q1 := a1.mul b1 (by omega) (by omega)
  have q2 := a1.mul b2 (by omega) (by omega)
  have q3 := a2.mul b1 (by omega) (by omega)
  have q4 := a2.mul b2 (by omega) (by omega)
  have s1 := (q1.mono (by omega : _ ≤ k + l + 62)).sub (p.mono (by omega)) (by omega) (by omega)
  have s2 := s1.add (q2.mono (by omega)) (by omega) (by omega)
  have s3 := s2.add (q3.mono (by omega)) (by omega) (by omega)
  exact (s3.add (q4.mono (by omega)) (by omega) (by omega)).mono (by omega)

/-- The quotient of two such pairs. -/
theorem apD_quotient {u v r s : ℚ} {A B : DD (B64 sq hy)} (ha : ApD (-390) 248 u r A) (hb : ApD (-260) 167 v s B) (hs : s ≤ |v| / 2) (hv : v ≠ 0) :
    ∃ h l, A.div B = ⟨Fl.fin h, Fl.fin l⟩ ∧ IsPair h l ∧
      |h + l - u / v| ≤ (|u / v| + 2 * (r + |u / v| * s) / |v|) / 2 ^ 100 + 2 * (r + |u / v| * s) / |v| := by
  obtain ⟨a, b, rfl, pa, ma, la, ra⟩ := ha.pair
  obtain ⟨c, d, rfl, pb, mb, lb, rb⟩ := hb.pair
  obtain ⟨m1, m2⟩ := pair_mul2 (by omega) pa ma
  obtain ⟨m3, m4⟩ := pair_mul2 (by omega) pb mb
  obtain ⟨l1, l2⟩ := pair_le (by omega) pa la
  obtain ⟨l3, l4⟩ := pair_le (by omega) pb lb
  have vp := abs_pos.mpr hv
  have w0 : |v| / 2 ≤ |c + d| := by
    have := abs_sub_abs_le_abs_sub v (c + d)
    rw [abs_sub_comm] at this
    linarith
  have c0 : c ≠ 0 := by
    rintro rfl
    have := pb.zero
    rw [this, add_zero, abs_zero] at w0
    linarith
  have cd0 : c + d ≠ 0 := by
    intro h
    rw [h, abs_zero] at w0
    linarith
  have hc := m3.le_abs c0
  have bA : Bd 248 (Fl.fin a : B64 sq hy) := ⟨a, rfl, l1⟩
  have bb : Bd 248 (Fl.fin b : B64 sq hy) := ⟨b, rfl, l2⟩
  have bc : Bd 167 (Fl.fin c : B64 sq hy) := ⟨c, rfl, l3⟩
  have bd : Bd 167 (Fl.fin d : B64 sq hy) := ⟨d, rfl, l4⟩
  have bq : Bd 508 ((Fl.fin a : B64 sq hy) /. Fl.fin c) :=
    (Bd.div (k := 248) (m := -260) ⟨a, rfl, l1⟩ hc (by omega) (by omega)).mono (by omega)
  have hfin : isFinite ((⟨Fl.fin a, Fl.fin b⟩ : DD (B64 sq hy)).div ⟨Fl.fin c, Fl.fin d⟩).hi = true := by
    unfold DD.div
    rw [divHiLo_errPart]
    dsimp only
    have e := bd_errPart' bq bc (by omega) (by omega) (by omega) (by omega) (by omega)
    have r1 := (bA.mono (by omega : (248 : ℤ) ≤ 675)).sub ((bq.mul bc (by omega) (by omega)).mono (by omega)) (by omega) (by omega)
    have r2 := (r1.mono (by omega : (675 + 1 : ℤ) ≤ 741)).sub (e.mono (by omega)) (by omega) (by omega)
    have r3 := r2.add (bb.mono (by omega)) (by omega) (by omega)
    have r4 := r3.sub ((bq.mul bd (by omega) (by omega)).mono (by omega)) (by omega) (by omega)
    have r5 := (r4.div hc (by omega) (by omega)).mono (by omega : _ ≤ (1010 : ℤ))
    exact ((bq.mono (by omega)).add r5 (by omega) (by omega)).finite
  have hu : NoUnderflowDiv a c := by
    refine ⟨(two_mono (by omega)).trans hc, ?_⟩
    by_cases a0 : a = 0
    · exact Or.inl a0
    have ha' := m1.le_abs a0
    refine Or.inr ⟨(two_mono (by omega)).trans ha', ?_⟩
    rw [abs_div, le_div_iff₀ (abs_pos.mpr c0)]
    calc (2 : ℚ) ^ (-960 : ℤ) * |c| ≤ 2 ^ (-960 : ℤ) * 2 ^ (167 : ℤ) := mul_le_mul_of_nonneg_left l3 (two_pos _).le
      _ = 2 ^ (-960 + 167 : ℤ) := (two_add _ _).symm
      _ ≤ 2 ^ (-390 : ℤ) := two_mono (by omega)
      _ ≤ |a| := ha'
  obtain ⟨h, l, e1, e2, e3⟩ := C75_quotient a b c d pa pb hu hfin
  refine ⟨h, l, e1, e2, ?_⟩
  have q1 : |(a + b) / (c + d) - u / v| ≤ 2 * (r + |u / v| * s) / |v| := by
    have : (a + b) / (c + d) - u / v = ((a + b - u) - u / v * (c + d - v)) / (c + d) := by field_simp; ring
    rw [this, abs_div, div_le_div_iff₀ (abs_pos.mpr cd0) vp]
    have t : |a + b - u - u / v * (c + d - v)| ≤ r + |u / v| * s := by
      refine (abs_sub _ _).trans (add_le_add ra ?_)
      rw [abs_mul]
      exact mul_le_mul_of_nonneg_left rb (abs_nonneg _)
    have t0 := (abs_nonneg _).trans t
    calc _ ≤ (r + |u / v| * s) * |v| := mul_le_mul_of_nonneg_right t (abs_nonneg _)
      _ = 2 * (r + |u / v| * s) * (|v| / 2) := by ring
      _ ≤ _ := mul_le_mul_of_nonneg_left w0 (by linarith)
  have q2 : |(a + b) / (c + d)| ≤ |u / v| + 2 * (r + |u / v| * s) / |v| := by
    have := abs_sub_abs_le_abs_sub ((a + b) / (c + d)) (u / v)
    linarith
  have q3 : |(a + b) / (c + d)| / 2 ^ 100 ≤ (|u / v| + 2 * (r + |u / v| * s) / |v|) / 2 ^ 100 := div_le_div_of_nonneg_right q2 (by positivity)
  have q4 := abs_sub_le (h + l) ((a + b) / (c + d)) (u / v)
  linarith

/-- The sum of the sizes of the two terms of the determinant of the directions of two lines: of `dirDet`. -/
def spreadW (p1 p2 q1 q2 : Coord ℚ) : ℚ := |(p1.y - p2.y) * (q2.x - q1.x)| + |(q1.y - q2.y) * (p2.x - p1.x)|

theorem spreadW_ge (p1 p2 q1 q2 : Coord ℚ) : |dirDet p1 p2 q1 q2| ≤ spreadW p1 p2 q1 q2 := by
  unfold dirDet spreadW
  rw [show (p2.x - p1.x) * (q2.y - q1.y) - (p2.y - p1.y) * (q2.x - q1.x) = (p1.y - p2.y) * (q2.x - q1.x) - (q1.y - q2.y) * (p2.x - p1.x) by ring]
  exact abs_sub _ _

/-- The numerators in terms of the common point. -/
theorem numerators {p1 p2 q1 q2 c : Coord ℚ} (hp : OnLineOf c p1 p2) (hq : OnLineOf c q1 q2) :
    |(p2.x - p1.x) * (q1.x * q2.y - q2.x * q1.y)| + |(q2.x - q1.x) * (p1.x * p2.y - p2.x * p1.y)| ≤
      |c.x| * spreadW p1 p2 q1 q2 + 2 * (|c.y| * |(p2.x - p1.x) * (q2.x - q1.x)|) ∧
    |(q1.y - q2.y) * (p1.x * p2.y - p2.x * p1.y)| + |(p1.y - p2.y) * (q1.x * q2.y - q2.x * q1.y)| ≤
      |c.y| * spreadW p1 p2 q1 q2 + 2 * (|c.x| * |(p2.y - p1.y) * (q2.y - q1.y)|) := by
  have line : ∀ {a b : Coord ℚ}, OnLineOf c a b → a.x * b.y - b.x * a.y = c.x * (b.y - a.y) - c.y * (b.x - a.x) := by
    intro a b h
    unfold OnLineOf det at h
    linarith
  rw [line hp, line hq]
  unfold spreadW
  have tri : ∀ a b c d e f g : ℚ, a = b - c → |b| = d * e → |c| = f * g → |a| ≤ d * e + f * g := by
    intro a b c d e f g h1 h2 h3
    rw [h1, ← h2, ← h3]; exact abs_sub _ _
  constructor
  · have t1 := tri ((p2.x - p1.x) * (c.x * (q2.y - q1.y) - c.y * (q2.x - q1.x))) (c.x * ((q1.y - q2.y) * (p2.x - p1.x)) * (-1)) (c.y * ((p2.x - p1.x) * (q2.x - q1.x))) |c.x|
      |(q1.y - q2.y) * (p2.x - p1.x)| |c.y| |(p2.x - p1.x) * (q2.x - q1.x)| (by ring) (by rw [mul_neg_one, abs_neg, abs_mul]) (abs_mul _ _)
    have t2 := tri ((q2.x - q1.x) * (c.x * (p2.y - p1.y) - c.y * (p2.x - p1.x))) (c.x * ((p1.y - p2.y) * (q2.x - q1.x)) * (-1)) (c.y * ((p2.x - p1.x) * (q2.x - q1.x))) |c.x|
      |(p1.y - p2.y) * (q2.x - q1.x)| |c.y| |(p2.x - p1.x) * (q2.x - q1.x)| (by ring) (by rw [mul_neg_one, abs_neg, abs_mul]) (abs_mul _ _)
    linarith
  · have t1 := tri ((q1.y - q2.y) * (c.x * (p2.y - p1.y) - c.y * (p2.x - p1.x))) (c.y * ((q1.y - q2.y) * (p2.x - p1.x)) * (-1)) (c.x * ((p2.y - p1.y) * (q2.y - q1.y))) |c.y|
      |(q1.y - q2.y) * (p2.x - p1.x)| |c.x| |(p2.y - p1.y) * (q2.y - q1.y)| (by ring) (by rw [mul_neg_one, abs_neg, abs_mul]) (abs_mul _ _)
    have t2 := tri ((p1.y - p2.y) * (c.x * (q2.y - q1.y) - c.y * (q2.x - q1.x))) (c.y * ((p1.y - p2.y) * (q2.x - q1.x)) * (-1)) (c.x * ((p2.y - p1.y) * (q2.y - q1.y))) |c.y|
      |(p1.y - p2.y) * (q2.x - q1.x)| |c.x| |(p2.y - p1.y) * (q2.y - q1.y)| (by ring) (by rw [mul_neg_one, abs_neg, abs_mul]) (abs_mul _ _)
    linarith

/-- The final value with its error. -/
theorem ordinate_error {c S T w W E : ℚ} (hw : 0 < w) (hS : S ≤ c * W + 2 * T) (hS0 : 0 ≤ S) (hT : 0 ≤ T) (hW : w ≤ W)
    (h : E ≤ (c + 2 * (S * (3 / 2 ^ 100) + c * (W * (3 / 2 ^ 100))) / w) / 2 ^ 100 + 2 * (S * (3 / 2 ^ 100) + c * (W * (3 / 2 ^ 100))) / w)
    (hc : 0 ≤ c) : E ≤ (c * W + T) / w / 2 ^ 96 := by
  have e1 : 2 * (S * (3 / 2 ^ 100) + c * (W * (3 / 2 ^ 100))) / w = (S + c * W) / w * (6 / 2 ^ 100) := by ring
  have e3 : (S + c * W) / w ≤ (c * W + T) / w * 2 := by
    rw [div_mul_eq_mul_div]
    exact div_le_div_of_nonneg_right (by linarith) hw.le
  have e2 : c ≤ (S + c * W) / w := by
    rw [le_div_iff₀ hw]
    have := mul_le_mul_of_nonneg_left hW hc
    linarith
  rw [e1] at h
  generalize (S + c * W) / w = z at *
  refine h.trans ?_
  have z0 : 0 ≤ z := hc.trans e2
  linarith

/-- The bound for the error of the ordinates of a common point `c` of two lines before the last rounding. -/
def errX (p1 p2 q1 q2 c : Coord ℚ) : ℚ :=
  (|c.x| * spreadW p1 p2 q1 q2 + |c.y| * |(p2.x - p1.x) * (q2.x - q1.x)|) / |dirDet p1 p2 q1 q2| / 2 ^ 96

def errY (p1 p2 q1 q2 c : Coord ℚ) : ℚ :=
  (|c.y| * spreadW p1 p2 q1 q2 + |c.x| * |(p2.y - p1.y) * (q2.y - q1.y)|) / |dirDet p1 p2 q1 q2| / 2 ^ 96

/-- The two ordinates before the last rounding. -/
theorem crossing_pair {p1 p2 q1 q2 : Coord ℚ} (hp1 : FinePt p1) (hp2 : FinePt p2) (hq1 : FinePt q1) (hq2 : FinePt q2)
    (hw : dirDet p1 p2 q1 q2 ≠ 0) (hk : spreadW p1 p2 q1 q2 ≤ 2 ^ 97 * |dirDet p1 p2 q1 q2|) :
    ∃ h l h' l', IsPair h l ∧ IsPair h' l' ∧
      Intersection.intersection (toB64 p1 : Coord (B64 sq hy)) (toB64 p2) (toB64 q1) (toB64 q2) = some (Coord.xy (Fl.fin h) (Fl.fin h')) ∧
      ∀ c : Coord ℚ, OnLineOf c p1 p2 → OnLineOf c q1 q2 → |h + l - c.x| ≤ errX p1 p2 q1 q2 c ∧ |h' + l' - c.y| ≤ errY p1 p2 q1 q2 c := by
  have px := apD_diff (sq := sq) (hy := hy) hp1.2 hp2.2
  have py := apD_diff (sq := sq) (hy := hy) hp2.1 hp1.1
  have qx := apD_diff (sq := sq) (hy := hy) hq1.2 hq2.2
  have qy := apD_diff (sq := sq) (hy := hy) hq2.1 hq1.1
  have pw := apD_cross (sq := sq) (hy := hy) hp1.1 hp2.2 hp2.1 hp1.2
  have qw := apD_cross (sq := sq) (hy := hy) hq1.1 hq2.2 hq2.1 hq1.2
  have m1 := py.mulRel qw (by omega) (by omega) (by omega) (by omega) (by omega) (by omega) (by omega)
  have m2 := qy.mulRel pw (by omega) (by omega) (by omega) (by omega) (by omega) (by omega) (by omega)
  have m3 := qx.mulRel pw (by omega) (by omega) (by omega) (by omega) (by omega) (by omega) (by omega)
  have m4 := px.mulRel qw (by omega) (by omega) (by omega) (by omega) (by omega) (by omega) (by omega)
  have m5 := px.mulRel qy (by omega) (by omega) (by omega) (by omega) (by omega) (by omega) (by omega)
  have m6 := qx.mulRel py (by omega) (by omega) (by omega) (by omega) (by omega) (by omega) (by omega)
  have X := apD_det m1 m2 (by omega) (by omega) (by omega)
  have Y := apD_det m3 m4 (by omega) (by omega) (by omega)
  have W := apD_det m5 m6 (by omega) (by omega) (by omega)
  have ew : (p1.y - p2.y) * (q2.x - q1.x) - (q1.y - q2.y) * (p2.x - p1.x) = dirDet p1 p2 q1 q2 := by unfold dirDet; ring
  rw [ew] at W
  have hs : spreadW p1 p2 q1 q2 * (3 / 2 ^ 100) ≤ |dirDet p1 p2 q1 q2| / 2 := by
    have := abs_nonneg (dirDet p1 p2 q1 q2)
    linarith
  obtain ⟨h, l, g1, g2, g3⟩ := apD_quotient X W hs hw
  obtain ⟨h', l', g1', g2', g3'⟩ := apD_quotient Y W hs hw
  refine ⟨h, l, h', l', g2, g2', ?_, ?_⟩
  · have d1 : (⟨Fl.fin h, Fl.fin l⟩ : DD (B64 sq hy)).doubleValue = Fl.fin h := g2.norm
    have d2 : (⟨Fl.fin h', Fl.fin l'⟩ : DD (B64 sq hy)).doubleValue = Fl.fin h' := g2'.norm
    unfold Intersection.intersection CGDD.intersection toB64 Coord.xy
    dsimp only
    rw [g1, g1', d1, d2]
    rfl
  · intro c hc1 hc2
    obtain ⟨k1, k2⟩ := formula_on p1 p2 q1 q2 hw
    obtain ⟨u1, u2⟩ := common_unique p1 p2 q1 q2 c _ hw hc1 hc2 k1 k2
    have f1 : ((p2.x - p1.x) * (q1.x * q2.y - q2.x * q1.y) - (q2.x - q1.x) * (p1.x * p2.y - p2.x * p1.y)) / dirDet p1 p2 q1 q2 = c.x := by
      rw [u1]; rfl
    have f2 : ((q1.y - q2.y) * (p1.x * p2.y - p2.x * p1.y) - (p1.y - p2.y) * (q1.x * q2.y - q2.x * q1.y)) / dirDet p1 p2 q1 q2 = c.y := by
      rw [u2]; rfl
    rw [f1] at g3
    rw [f2] at g3'
    have wp := abs_pos.mpr hw
    obtain ⟨n1, n2⟩ := numerators hc1 hc2
    exact ⟨ordinate_error wp n1 (by positivity) (by positivity) (spreadW_ge _ _ _ _) g3 (abs_nonneg _),
      ordinate_error wp n2 (by positivity) (by positivity) (spreadW_ge _ _ _ _) g3' (abs_nonneg _)⟩

theorem pair_rounded {h l c E : ℚ} (p : IsPair h l) (he : |h + l - c| ≤ E) : |h - c| ≤ |c| / 2 ^ 53 + 2 * E := by
  have h1 := near_add_rel p.hi.1 p.lo.1
  rw [p.near] at h1
  have h2 : |h + l| ≤ |c| + E := by have := abs_sub_abs_le_abs_sub (h + l) c; linarith
  have h3 : |h - c| ≤ |h + l - h| + |h + l - c| := by
    have := abs_sub_le h (h + l) c
    rwa [abs_sub_comm h (h + l)] at this
  have h4 : |h + l| / 2 ^ 53 ≤ (|c| + E) / 2 ^ 53 := div_le_div_of_nonneg_right h2 (by positivity)
  have E0 := (abs_nonneg _).trans he
  linarith

/-- The ordinates of the two points differ by at most `D`. -/
def Wide (D : ℚ) (p q : Coord ℚ) : Prop := |q.x - p.x| ≤ D ∧ |q.y - p.y| ≤ D

/-- How nearly parallel two segments are: the product of their extents is at most `κ` times the determinant of their directions. -/
structure Meets (κ : ℚ) (p1 p2 q1 q2 : Coord ℚ) : Prop where
  ne : dirDet p1 p2 q1 q2 ≠ 0
  le : κ ≤ 2 ^ 96
  wide : ∃ D E, Wide D p1 p2 ∧ Wide E q1 q2 ∧ D * E ≤ κ * |dirDet p1 p2 q1 q2|

theorem Meets.bounds {κ : ℚ} {p1 p2 q1 q2 : Coord ℚ} (h : Meets κ p1 p2 q1 q2) :
    spreadW p1 p2 q1 q2 ≤ 2 * κ * |dirDet p1 p2 q1 q2| ∧ |(p2.x - p1.x) * (q2.x - q1.x)| ≤ κ * |dirDet p1 p2 q1 q2| ∧
    |(p2.y - p1.y) * (q2.y - q1.y)| ≤ κ * |dirDet p1 p2 q1 q2| ∧ 1 / 2 ≤ κ := by
  obtain ⟨hw, -, D, E, dp, dq, hk⟩ := h
  have D0 := (abs_nonneg _).trans dp.1
  have E0 := (abs_nonneg _).trans dq.1
  have mm : ∀ {a b A B : ℚ}, |a| ≤ A → |b| ≤ B → 0 ≤ A → |a * b| ≤ A * B := fun h1 h2 h3 => by
    rw [abs_mul]; exact mul_le_mul h1 h2 (abs_nonneg _) h3
  have sw : spreadW p1 p2 q1 q2 ≤ 2 * κ * |dirDet p1 p2 q1 q2| := by
    unfold spreadW
    have t1 := mm (by rw [abs_sub_comm]; exact dp.2) dq.1 D0
    have t2 := mm (by rw [abs_sub_comm]; exact dq.2) dp.1 E0
    linarith
  refine ⟨sw, (mm dp.1 dq.1 D0).trans hk, (mm dp.2 dq.2 D0).trans hk, ?_⟩
  have := (spreadW_ge p1 p2 q1 q2).trans sw
  have wp := abs_pos.mpr hw
  by_contra hc
  push Not at hc
  nlinarith

theorem Meets.err {κ : ℚ} {p1 p2 q1 q2 : Coord ℚ} (h : Meets κ p1 p2 q1 q2) (c : Coord ℚ) :
    errX p1 p2 q1 q2 c ≤ κ * (2 * |c.x| + |c.y|) / 2 ^ 96 ∧ errY p1 p2 q1 q2 c ≤ κ * (2 * |c.y| + |c.x|) / 2 ^ 96 := by
  obtain ⟨b1, b2, b3, -⟩ := h.bounds
  have wp := abs_pos.mpr h.ne
  unfold errX errY
  constructor
  all_goals
    refine div_le_div_of_nonneg_right ?_ (by positivity)
    rw [div_le_iff₀ wp]
  · have t1 := mul_le_mul_of_nonneg_left b1 (abs_nonneg c.x)
    have t2 := mul_le_mul_of_nonneg_left b2 (abs_nonneg c.y)
    linarith
  · have t1 := mul_le_mul_of_nonneg_left b1 (abs_nonneg c.y)
    have t2 := mul_le_mul_of_nonneg_left b3 (abs_nonneg c.x)
    linarith

theorem Meets.spread {κ : ℚ} {p1 p2 q1 q2 : Coord ℚ} (h : Meets κ p1 p2 q1 q2) : spreadW p1 p2 q1 q2 ≤ 2 ^ 97 * |dirDet p1 p2 q1 q2| := by
  have wp := abs_pos.mpr h.ne
  have := mul_le_mul_of_nonneg_right h.le wp.le
  linarith [h.bounds.1]

/-- C121: the computed common point of two lines through doubles. -/
theorem C121_lines {p1 p2 q1 q2 : Coord ℚ} (hp1 : FinePt p1) (hp2 : FinePt p2) (hq1 : FinePt q1) (hq2 : FinePt q2) {κ : ℚ}
    (hm : Meets κ p1 p2 q1 q2) :
    ∃ x y, IsF64 x ∧ IsF64 y ∧
      Intersection.intersection (toB64 p1 : Coord (B64 sq hy)) (toB64 p2) (toB64 q1) (toB64 q2) = some (Coord.xy (Fl.fin x) (Fl.fin y)) ∧
      ∀ c : Coord ℚ, OnLineOf c p1 p2 → OnLineOf c q1 q2 →
        (|x - c.x| ≤ |c.x| / 2 ^ 53 + κ * (2 * |c.x| + |c.y|) / 2 ^ 95 ∧ |y - c.y| ≤ |c.y| / 2 ^ 53 + κ * (2 * |c.y| + |c.x|) / 2 ^ 95) ∧
        (κ * (2 * |c.x| + |c.y|) ≤ 2 ^ 39 * |c.x| → Adjacent x c.x) ∧ (κ * (2 * |c.y| + |c.x|) ≤ 2 ^ 39 * |c.y| → Adjacent y c.y) := by
  obtain ⟨h, l, h', l', e1, e2, e3, e4⟩ := crossing_pair (sq := sq) (hy := hy) hp1 hp2 hq1 hq2 hm.ne hm.spread
  refine ⟨h, h', e1.hi, e2.hi, e3, fun c hc1 hc2 => ?_⟩
  obtain ⟨g1, g2⟩ := e4 c hc1 hc2
  obtain ⟨b1, b2⟩ := hm.err c
  refine ⟨⟨(pair_rounded e1 (g1.trans b1)).trans (le_of_eq (by ring)), (pair_rounded e2 (g2.trans b2)).trans (le_of_eq (by ring))⟩, fun k => ?_, fun k => ?_⟩
  · exact adjacent_of e1 (g1.trans (b1.trans (by linarith)))
  · exact adjacent_of e2 (g2.trans (b2.trans (by linarith)))

/-! ## The segments -/

/-- One axis: a number near a point of a segment that is rounded out of the range of the segment is near one of the ends of the segment, and the
other ordinate of that end is near too. -/
theorem axis_out {a b a' b' t h l S w g c c' : ℚ} (fa : IsF64 a) (fb : IsF64 b) (t0 : 0 ≤ t) (t1 : t ≤ 1) (hc : c = a + t * (b - a)) (hc' : c' = a' + t * (b' - a'))
    (p : IsPair h l) (hv : |h + l - c| ≤ (|c| * S + |c'| * (|b - a| * g)) / w / 2 ^ 96) (hw : 0 < w) (hS : w ≤ S) (hg : |b' - a'| * g ≤ S)
    (h0 : a = b → S = w) (hout : ¬ (min a b ≤ h ∧ h ≤ max a b)) :
    (|a - c| ≤ (|c| * S + |c'| * (|b - a| * g)) / w / 2 ^ 96 ∧ |a' - c'| ≤ (2 ^ 54 * (S * |b' - a'|) + |c'| * S) / w / 2 ^ 96) ∨
    (|b - c| ≤ (|c| * S + |c'| * (|b - a| * g)) / w / 2 ^ 96 ∧ |b' - c'| ≤ (2 ^ 54 * (S * |b' - a'|) + |c'| * S) / w / 2 ^ 96) := by
  by_cases hab : a = b
  · exfalso
    subst hab
    have ea : c = a := by rw [hc]; ring
    rw [sub_self, abs_zero, zero_mul, mul_zero, add_zero, h0 rfl, mul_div_assoc, div_self hw.ne', mul_one] at hv
    have := (adjacent_of p (hv.trans (by have := abs_nonneg c; linarith))).exact (ea ▸ fa)
    apply hout
    rw [min_self, max_self, this, ea]
    exact ⟨le_rfl, le_rfl⟩
  have D0 : 0 < |b - a| := abs_pos.mpr (sub_ne_zero.mpr (Ne.symm hab))
  have ga := rep_gap fb.1 fa.1 (Ne.symm hab)
  have gb := rep_gap fa.1 fb.1 hab
  rw [abs_sub_comm] at ga
  have cb : |c| ≤ 2 ^ 54 * |b - a| := by
    have : c = (1 - t) * a + t * b := by rw [hc]; ring
    rw [this]
    refine (abs_add_le _ _).trans ?_
    rw [abs_mul, abs_mul, abs_of_nonneg t0, abs_of_nonneg (sub_nonneg.mpr t1)]
    have k1 := mul_le_mul_of_nonneg_left ga (sub_nonneg.mpr t1)
    have k2 := mul_le_mul_of_nonneg_left gb t0
    linarith
  generalize hδ : (|c| * S + |c'| * (|b - a| * g)) / w / 2 ^ 96 = δ at *
  have S0 : 0 < S := hw.trans_le hS
  have key : δ * |b' - a'| ≤ (2 ^ 54 * (S * |b' - a'|) + |c'| * S) / w / 2 ^ 96 * |b - a| := by
    rw [← hδ]
    have k1 : |c| * S * |b' - a'| ≤ 2 ^ 54 * |b - a| * S * |b' - a'| := by gcongr
    have k2 : |c'| * |b - a| * (|b' - a'| * g) ≤ |c'| * |b - a| * S := by gcongr
    have e1 : (|c| * S + |c'| * (|b - a| * g)) / w / 2 ^ 96 * |b' - a'| = (|c| * S * |b' - a'| + |c'| * |b - a| * (|b' - a'| * g)) / w / 2 ^ 96 := by ring
    have e2 : (2 ^ 54 * (S * |b' - a'|) + |c'| * S) / w / 2 ^ 96 * |b - a| = (2 ^ 54 * |b - a| * S * |b' - a'| + |c'| * |b - a| * S) / w / 2 ^ 96 := by ring
    rw [e1, e2]
    gcongr
  have other : ∀ {s : ℚ}, 0 ≤ s → s * |b - a| ≤ δ → s * |b' - a'| ≤ (2 ^ 54 * (S * |b' - a'|) + |c'| * S) / w / 2 ^ 96 := by
    intro s s0 hs
    rw [← mul_le_mul_iff_left₀ D0]
    refine le_trans ?_ key
    have := mul_le_mul_of_nonneg_right hs (abs_nonneg (b' - a'))
    linarith
  have ea : |a - c| = t * |b - a| := by rw [hc, show a - (a + t * (b - a)) = -(t * (b - a)) by ring, abs_neg, abs_mul, abs_of_nonneg t0]
  have ea' : |a' - c'| = t * |b' - a'| := by rw [hc', show a' - (a' + t * (b' - a')) = -(t * (b' - a')) by ring, abs_neg, abs_mul, abs_of_nonneg t0]
  have eb : |b - c| = (1 - t) * |b - a| := by
    rw [hc, show b - (a + t * (b - a)) = (1 - t) * (b - a) by ring, abs_mul, abs_of_nonneg (sub_nonneg.mpr t1)]
  have eb' : |b' - c'| = (1 - t) * |b' - a'| := by
    rw [hc', show b' - (a' + t * (b' - a')) = (1 - t) * (b' - a') by ring, abs_mul, abs_of_nonneg (sub_nonneg.mpr t1)]
  have first : |a - c| ≤ δ → |a' - c'| ≤ (2 ^ 54 * (S * |b' - a'|) + |c'| * S) / w / 2 ^ 96 := by
    rw [ea, ea']; exact other t0
  have second : |b - c| ≤ δ → |b' - c'| ≤ (2 ^ 54 * (S * |b' - a'|) + |c'| * S) / w / 2 ^ 96 := by
    rw [eb, eb']; exact other (sub_nonneg.mpr t1)
  have up : ∀ {z : ℚ}, IsF64 z → z < h → z ≤ h + l := by
    intro z fz hz
    by_contra hcon
    push Not at hcon
    have := near_mono hcon.le
    rw [p.near, near_of_rep fz.1] at this
    linarith
  have down : ∀ {z : ℚ}, IsF64 z → h < z → h + l ≤ z := by
    intro z fz hz
    by_contra hcon
    push Not at hcon
    have := near_mono hcon.le
    rw [p.near, near_of_rep fz.1] at this
    linarith
  obtain ⟨v1, v2⟩ := abs_le.mp hv
  have near' : ∀ {z : ℚ}, IsF64 z → (z < h ∧ c ≤ z ∨ h < z ∧ z ≤ c) → |z - c| ≤ δ := by
    rintro z fz (⟨k1, k2⟩ | ⟨k1, k2⟩)
    · have := up fz k1
      rw [abs_of_nonneg (by linarith)]; linarith
    · have := down fz k1
      rw [abs_of_nonpos (by linarith)]; linarith
  have cm : (a ≤ c ∧ c ≤ b) ∨ (b ≤ c ∧ c ≤ a) := by
    rcases le_total a b with k | k
    · left; constructor <;> rw [hc] <;> nlinarith [mul_nonneg t0 (sub_nonneg.mpr k), mul_nonneg (sub_nonneg.mpr t1) (sub_nonneg.mpr k)]
    · right; constructor <;> rw [hc] <;> nlinarith [mul_nonneg t0 (sub_nonneg.mpr k), mul_nonneg (sub_nonneg.mpr t1) (sub_nonneg.mpr k)]
  have out : h < min a b ∨ max a b < h := by
    by_contra hcon
    push Not at hcon
    exact hout hcon
  rcases cm with ⟨k1, k2⟩ | ⟨k1, k2⟩ <;> rcases out with o | o
  · rw [min_eq_left (k1.trans k2)] at o
    have := near' fa (Or.inr ⟨o, k1⟩)
    exact Or.inl ⟨this, first this⟩
  · rw [max_eq_right (k1.trans k2)] at o
    have := near' fb (Or.inl ⟨o, k2⟩)
    exact Or.inr ⟨this, second this⟩
  · rw [min_eq_right (k1.trans k2)] at o
    have := near' fb (Or.inr ⟨o, k1⟩)
    exact Or.inr ⟨this, second this⟩
  · rw [max_eq_left (k1.trans k2)] at o
    have := near' fa (Or.inl ⟨o, k2⟩)
    exact Or.inl ⟨this, first this⟩

/-- The ordinates have sizes up to `M`. -/
def Reach (M : ℚ) (p : Coord ℚ) : Prop := |p.x| ≤ M ∧ |p.y| ≤ M

/-- The point is in the box of the segment. -/
def InBox (a b : Coord ℚ) (x y : ℚ) : Prop := (min a.x b.x ≤ x ∧ x ≤ max a.x b.x) ∧ (min a.y b.y ≤ y ∧ y ≤ max a.y b.y)

theorem reach_segment {M : ℚ} {a b c : Coord ℚ} (ha : Reach M a) (hb : Reach M b) (h : OnSegment c a b) : Reach M c := by
  obtain ⟨t, t0, t1, hx, hy'⟩ := h
  have key : ∀ {u v : ℚ}, |u| ≤ M → |v| ≤ M → |u + t * (v - u)| ≤ M := by
    intro u v hu hv
    rw [show u + t * (v - u) = (1 - t) * u + t * v by ring]
    refine (abs_add_le _ _).trans ?_
    rw [abs_mul, abs_mul, abs_of_nonneg t0, abs_of_nonneg (sub_nonneg.mpr t1)]
    have k1 := mul_le_mul_of_nonneg_left hu (sub_nonneg.mpr t1)
    have k2 := mul_le_mul_of_nonneg_left hv t0
    linarith
  exact ⟨by rw [hx]; exact key ha.1 hb.1, by rw [hy']; exact key ha.2 hb.2⟩

/-- If the computed point is not in the box of the first segment then the crossing point is near one of the ends of this segment. -/
theorem box_out {κ M : ℚ} {p1 p2 q1 q2 c : Coord ℚ} (hm : Meets κ p1 p2 q1 q2) (hp1 : FinePt p1) (hp2 : FinePt p2) (r1 : Reach M p1) (r2 : Reach M p2)
    (hc : OnSegment c p1 p2) {h l h' l' : ℚ} (ph : IsPair h l) (ph' : IsPair h' l') (ex : |h + l - c.x| ≤ errX p1 p2 q1 q2 c)
    (ey : |h' + l' - c.y| ≤ errY p1 p2 q1 q2 c) (hout : ¬ InBox p1 p2 h h') :
    ∃ e ∈ [p1, p2], |e.x - c.x| + |e.y - c.y| ≤ κ * M / 2 ^ 39 := by
  have rc := reach_segment r1 r2 hc
  obtain ⟨b1, b2, b3, b4⟩ := hm.bounds
  have wp := abs_pos.mpr hm.ne
  have M0 := (abs_nonneg _).trans r1.1
  obtain ⟨be1, be2⟩ := hm.err c
  have κ0 : 0 ≤ κ := by linarith
  have eM : ∀ {u v : ℚ}, u ≤ M → v ≤ M → κ * (2 * u + v) / 2 ^ 96 ≤ κ * M / 2 ^ 42 := by
    intro u v hu hv
    have : κ * (2 * u + v) ≤ κ * (3 * M) := mul_le_mul_of_nonneg_left (by linarith) κ0
    have k : 0 ≤ κ * M := mul_nonneg κ0 M0
    linarith
  have oM : ∀ {d u : ℚ}, |d| ≤ 2 * M → |u| ≤ M →
      (2 ^ 54 * (spreadW p1 p2 q1 q2 * |d|) + |u| * spreadW p1 p2 q1 q2) / |dirDet p1 p2 q1 q2| / 2 ^ 96 ≤ κ * M / 2 ^ 40 + κ * M / 2 ^ 42 := by
    intro d u hd hu
    have S0 : 0 ≤ spreadW p1 p2 q1 q2 := wp.le.trans (spreadW_ge _ _ _ _)
    have k1 : spreadW p1 p2 q1 q2 * |d| ≤ 2 * κ * |dirDet p1 p2 q1 q2| * (2 * M) := mul_le_mul b1 hd (abs_nonneg _) (by positivity)
    have k2 : |u| * spreadW p1 p2 q1 q2 ≤ M * (2 * κ * |dirDet p1 p2 q1 q2|) := mul_le_mul hu b1 S0 M0
    rw [div_div, div_le_iff₀ (by positivity)]
    have k3 : 0 ≤ κ * M * |dirDet p1 p2 q1 q2| := mul_nonneg (mul_nonneg κ0 M0) wp.le
    have e : (κ * M / 2 ^ 40 + κ * M / 2 ^ 42) * (|dirDet p1 p2 q1 q2| * 2 ^ 96) = κ * M * |dirDet p1 p2 q1 q2| * (2 ^ 56 + 2 ^ 54) := by ring
    rw [e]
    nlinarith
  have wid : ∀ {u v : ℚ}, |u| ≤ M → |v| ≤ M → |v - u| ≤ 2 * M := fun hu hv => by have := abs_sub _ _ |>.trans (add_le_add hv hu); linarith
  have km : 0 ≤ κ * M := mul_nonneg κ0 M0
  obtain ⟨t, t0, t1, hx, hy'⟩ := hc
  have fin : ∀ {e : Coord ℚ}, (|e.x - c.x| ≤ κ * M / 2 ^ 42 ∧ |e.y - c.y| ≤ κ * M / 2 ^ 40 + κ * M / 2 ^ 42) ∨
      (|e.y - c.y| ≤ κ * M / 2 ^ 42 ∧ |e.x - c.x| ≤ κ * M / 2 ^ 40 + κ * M / 2 ^ 42) → |e.x - c.x| + |e.y - c.y| ≤ κ * M / 2 ^ 39 := by
    rintro e (⟨k1, k2⟩ | ⟨k1, k2⟩) <;> linarith
  by_cases hX : min p1.x p2.x ≤ h ∧ h ≤ max p1.x p2.x
  · have hY : ¬ (min p1.y p2.y ≤ h' ∧ h' ≤ max p1.y p2.y) := fun k => hout ⟨hX, k⟩
    have ey2 := ey
    unfold errY at ey2
    rw [abs_mul] at ey2
    have := axis_out (S := spreadW p1 p2 q1 q2) (w := |dirDet p1 p2 q1 q2|) (g := |q2.y - q1.y|) hp1.2.1 hp2.2.1 t0 t1 hy' hx ph' ey2 wp (spreadW_ge _ _ _ _)
      (by unfold spreadW; rw [← abs_mul, ← abs_neg, show -((p2.x - p1.x) * (q2.y - q1.y)) = (q1.y - q2.y) * (p2.x - p1.x) by ring]; exact le_add_of_nonneg_left (abs_nonneg _))
      (by
        intro h0
        unfold spreadW dirDet
        rw [h0, sub_self, zero_mul, abs_zero, zero_add, sub_zero, ← abs_neg]
        congr 1; ring) hY
    have de : (|c.y| * spreadW p1 p2 q1 q2 + |c.x| * (|p2.y - p1.y| * |q2.y - q1.y|)) / |dirDet p1 p2 q1 q2| / 2 ^ 96 ≤ κ * M / 2 ^ 42 := by
      refine le_trans ?_ (be2.trans (eM rc.2 rc.1))
      unfold errY
      rw [abs_mul (p2.y - p1.y)]
    rcases this with ⟨k1, k2⟩ | ⟨k1, k2⟩
    · exact ⟨p1, by simp, fin (Or.inr ⟨k1.trans de, k2.trans (oM (wid r1.1 r2.1) rc.1)⟩)⟩
    · exact ⟨p2, by simp, fin (Or.inr ⟨k1.trans de, k2.trans (oM (wid r1.1 r2.1) rc.1)⟩)⟩
  · have ex2 := ex
    unfold errX at ex2
    rw [abs_mul] at ex2
    have := axis_out (S := spreadW p1 p2 q1 q2) (w := |dirDet p1 p2 q1 q2|) (g := |q2.x - q1.x|) hp1.1.1 hp2.1.1 t0 t1 hx hy' ph ex2 wp (spreadW_ge _ _ _ _)
      (by unfold spreadW; rw [← abs_mul, ← abs_neg, show -((p2.y - p1.y) * (q2.x - q1.x)) = (p1.y - p2.y) * (q2.x - q1.x) by ring]; exact le_add_of_nonneg_right (abs_nonneg _))
      (by
        intro h0
        unfold spreadW dirDet
        rw [h0, sub_self, mul_zero, zero_mul, abs_zero, add_zero, zero_sub]
        congr 1; ring) hX
    have de : (|c.x| * spreadW p1 p2 q1 q2 + |c.y| * (|p2.x - p1.x| * |q2.x - q1.x|)) / |dirDet p1 p2 q1 q2| / 2 ^ 96 ≤ κ * M / 2 ^ 42 := by
      refine le_trans ?_ (be1.trans (eM rc.1 rc.2))
      unfold errX
      rw [abs_mul (p2.x - p1.x)]
    rcases this with ⟨k1, k2⟩ | ⟨k1, k2⟩
    · exact ⟨p1, by simp, fin (Or.inl ⟨k1.trans de, k2.trans (oM (wid r1.2 r2.2) rc.2)⟩)⟩
    · exact ⟨p2, by simp, fin (Or.inl ⟨k1.trans de, k2.trans (oM (wid r1.2 r2.2) rc.2)⟩)⟩

theorem box_covers_iff {a b : Coord ℚ} {x y : ℚ} {u v : Coord (B64 sq hy)} (hu : u.x = Fl.fin a.x ∧ u.y = Fl.fin a.y) (hv : v.x = Fl.fin b.x ∧ v.y = Fl.fin b.y) :
    (Env.newCoordinates u v).coversXY (Fl.fin x) (Fl.fin y) = true ↔ InBox a b x y := by
  refine ⟨fun h => ?_, fun h => box_covers hu hv h.1 h.2⟩
  have key : ∀ a b : ℚ, (if (Fl.fin a : B64 sq hy) <. Fl.fin b then ((Fl.fin a : B64 sq hy), (Fl.fin b : B64 sq hy)) else (Fl.fin b, Fl.fin a)) =
      (Fl.fin (min a b), Fl.fin (max a b)) := by
    intro a b
    by_cases h : a < b
    · rw [if_pos (show ((Fl.fin a : B64 sq hy) <. Fl.fin b) = true from decide_eq_true h), min_eq_left h.le, max_eq_right h.le]
    · rw [if_neg (show ¬ ((Fl.fin a : B64 sq hy) <. Fl.fin b) = true from fun k => h (of_decide_eq_true k)),
        min_eq_right (not_lt.mp h), max_eq_left (not_lt.mp h)]
  revert h
  unfold Env.newCoordinates
  rw [hu.1, hu.2, hv.1, hv.2, key, key]
  unfold Env.coversXY Env.isNull
  dsimp only
  rw [if_neg (show ¬ ((Fl.fin (max a.x b.x) : B64 sq hy) <. Fl.fin (min a.x b.x)) = true from
    fun k => absurd (of_decide_eq_true k) (not_lt.mpr min_le_max))]
  rw [Bool.and_eq_true, Bool.and_eq_true, Bool.and_eq_true]
  rintro ⟨⟨⟨k1, k2⟩, k3⟩, k4⟩
  exact ⟨⟨of_decide_eq_true k1, of_decide_eq_true k2⟩, of_decide_eq_true k3, of_decide_eq_true k4⟩

theorem abs_x_le_dist (a b : Coord ℝ) : |a.x - b.x| ≤ Spec.dist a b := by
  unfold Spec.dist
  rw [← Real.sqrt_sq_eq_abs]
  exact Real.sqrt_le_sqrt (by nlinarith [sq_nonneg (a.y - b.y)])

theorem abs_y_le_dist (a b : Coord ℝ) : |a.y - b.y| ≤ Spec.dist a b := by
  unfold Spec.dist
  rw [← Real.sqrt_sq_eq_abs]
  exact Real.sqrt_le_sqrt (by nlinarith [sq_nonneg (a.x - b.x)])

theorem dist_le_sum (a b : Coord ℝ) : Spec.dist a b ≤ |a.x - b.x| + |a.y - b.y| := by
  unfold Spec.dist
  rw [← Real.sqrt_sq (by positivity : 0 ≤ |a.x - b.x| + |a.y - b.y|)]
  refine Real.sqrt_le_sqrt ?_
  have := mul_nonneg (abs_nonneg (a.x - b.x)) (abs_nonneg (a.y - b.y))
  nlinarith [sq_abs (a.x - b.x), sq_abs (a.y - b.y)]

/-- An end of a segment that is near another segment is near the point where the segment meets the line of the other. -/
theorem end_near {a b u v c f : Coord ℝ} {t D E κ η : ℝ} (cx : c.x = a.x + t * (b.x - a.x)) (cy : c.y = a.y + t * (b.y - a.y)) (hc : det u v c = 0)
    (hf : OnSegment f u v) (hη : Spec.dist a f ≤ η) (ax : |b.x - a.x| ≤ D) (ay : |b.y - a.y| ≤ D) (ux : |v.x - u.x| ≤ E) (uy : |v.y - u.y| ≤ E)
    (w0 : dirDet a b u v ≠ 0) (hk : D * E ≤ κ * |dirDet a b u v|) : |a.x - c.x| ≤ 2 * κ * η ∧ |a.y - c.y| ≤ 2 * κ * η := by
  have wp := abs_pos.mpr w0
  have D0 := (abs_nonneg _).trans ax
  have E0 := (abs_nonneg _).trans ux
  have fx := (abs_x_le_dist a f).trans hη
  have fy := (abs_y_le_dist a f).trans hη
  have η0 := (abs_nonneg _).trans fx
  obtain ⟨r, -, -, f1, f2⟩ := hf
  have e1 : t * dirDet a b u v = (v.x - u.x) * (a.y - f.y) - (v.y - u.y) * (a.x - f.x) := by
    unfold det at hc
    rw [cx, cy] at hc
    rw [f1, f2]
    unfold dirDet
    linear_combination (-1 : ℝ) * hc
  have e2 : |t| * |dirDet a b u v| ≤ 2 * (E * η) := by
    rw [← abs_mul, e1]
    refine (abs_sub _ _).trans ?_
    rw [abs_mul, abs_mul]
    have k1 := mul_le_mul ux fy (abs_nonneg _) E0
    have k2 := mul_le_mul uy fx (abs_nonneg _) E0
    linarith
  have fin : ∀ {d : ℝ}, |d| ≤ D → |t * d| ≤ 2 * κ * η := by
    intro d hd
    rw [abs_mul, ← mul_le_mul_iff_left₀ wp]
    calc |t| * |d| * |dirDet a b u v| = |t| * |dirDet a b u v| * |d| := by ring
      _ ≤ 2 * (E * η) * D := mul_le_mul e2 hd (abs_nonneg _) (by positivity)
      _ = 2 * η * (D * E) := by ring
      _ ≤ 2 * η * (κ * |dirDet a b u v|) := mul_le_mul_of_nonneg_left hk (by positivity)
      _ = 2 * κ * η * |dirDet a b u v| := by ring
  constructor
  · rw [cx, show a.x - (a.x + t * (b.x - a.x)) = -(t * (b.x - a.x)) by ring, abs_neg]; exact fin ax
  · rw [cy, show a.y - (a.y + t * (b.y - a.y)) = -(t * (b.y - a.y)) by ring, abs_neg]; exact fin ay

theorem dirDet_real (a b u v : Coord ℚ) : dirDet (realPt a) (realPt b) (realPt u) (realPt v) = ((dirDet a b u v : ℚ) : ℝ) := by
  unfold dirDet realPt; push_cast; ring

theorem FinePt.ordinary {M : ℚ} {p : Coord ℚ} (h : FinePt p) (r : Reach M p) : Ordinary (M : ℝ) p :=
  ⟨⟨h.1.1, h.2.1, by exact_mod_cast r.1, by exact_mod_cast r.2⟩, h.1.2.1.mono (by norm_num), h.2.2.1.mono (by norm_num)⟩

theorem FinePt.extends {a b : Coord ℚ} (ha : FinePt a) (hb : FinePt b) : Extends a b := by
  have key : ∀ {u v : ℚ}, FineOrd u → FineOrd v → u ≠ v → (1 : ℝ) / 2 ^ 200 ≤ |(v : ℝ) - u| := by
    intro u v hu hv hne
    have h := (hv.2.1.sub hu.2.1).le_abs (sub_ne_zero.mpr (Ne.symm hne))
    have h2 : (1 : ℚ) / 2 ^ 200 ≤ |v - u| := by
      refine le_trans ?_ h
      norm_num
    have : ((1 / 2 ^ 200 : ℚ) : ℝ) ≤ ((|v - u| : ℚ) : ℝ) := by exact_mod_cast h2
    push_cast at this
    exact this
  by_cases hx : a.x = b.x
  · by_cases hy' : a.y = b.y
    · exact Or.inl ⟨hx, hy'⟩
    · exact Or.inr (Or.inr (key ha.2 hb.2 hy'))
  · exact Or.inr (Or.inl (key ha.1 hb.1 hx))


/-- The crossing point in terms of the other order of the segments. -/
theorem Meets.symm {κ : ℚ} {p1 p2 q1 q2 : Coord ℚ} (h : Meets κ p1 p2 q1 q2) : Meets κ q1 q2 p1 p2 := by
  have e : dirDet q1 q2 p1 p2 = -dirDet p1 p2 q1 q2 := by unfold dirDet; ring
  refine ⟨by rw [e]; exact neg_ne_zero.mpr h.ne, h.le, ?_⟩
  obtain ⟨D, E, k1, k2, k3⟩ := h.wide
  exact ⟨E, D, k2, k1, by rw [e, abs_neg, mul_comm]; exact k3⟩

theorem errX_symm (p1 p2 q1 q2 c : Coord ℚ) : errX q1 q2 p1 p2 c = errX p1 p2 q1 q2 c ∧ errY q1 q2 p1 p2 c = errY p1 p2 q1 q2 c := by
  have e : dirDet q1 q2 p1 p2 = -dirDet p1 p2 q1 q2 := by unfold dirDet; ring
  have e2 : spreadW q1 q2 p1 p2 = spreadW p1 p2 q1 q2 := by unfold spreadW; ring
  unfold errX errY
  rw [e, e2, abs_neg, mul_comm (q2.x - q1.x), mul_comm (q2.y - q1.y)]
  exact ⟨rfl, rfl⟩

section cross
variable {ε : ℝ} (lib : Lib64 sq hy ε) (hε : ε ≤ 1 / 2 ^ 52)
include lib hε

/-- The end with the least computed distance from the other segment, if some end is near the crossing point. -/
theorem fallback_near {κ M : ℚ} {p1 p2 q1 q2 c : Coord ℚ} (hm : Meets κ p1 p2 q1 q2) (hp1 : FinePt p1) (hp2 : FinePt p2) (hq1 : FinePt q1) (hq2 : FinePt q2)
    (r1 : Reach M p1) (r2 : Reach M p2) (r3 : Reach M q1) (r4 : Reach M q2) (hM : M ≤ 2 ^ 80)
    (cp : OnSegment c p1 p2) (cq : OnSegment c q1 q2)
    (hnear : ∃ e ∈ [p1, p2, q1, q2], |e.x - c.x| + |e.y - c.y| ≤ κ * M / 2 ^ 39) :
    ∃ e ∈ [p1, p2, q1, q2], LI.nearestEndpoint (toB64 p1 : Coord (B64 sq hy)) (toB64 p2) (toB64 q1) (toB64 q2) = toB64 e ∧
      |e.x - c.x| ≤ κ ^ 2 * M / 2 ^ 37 ∧ |e.y - c.y| ≤ κ ^ 2 * M / 2 ^ 37 := by
  have hM' : (M : ℝ) ≤ 2 ^ 200 := by
    have : (M : ℝ) ≤ 2 ^ 80 := by exact_mod_cast hM
    exact this.trans (by gcongr <;> norm_num)
  have M0 : 0 ≤ M := (abs_nonneg _).trans r1.1
  obtain ⟨-, -, -, κ2⟩ := hm.bounds
  have lp : OnLineOf c p1 p2 := by
    obtain ⟨t, -, -, h1, h2⟩ := cp; unfold OnLineOf det; rw [h1, h2]; ring
  have lq : OnLineOf c q1 q2 := by
    obtain ⟨t, -, -, h1, h2⟩ := cq; unfold OnLineOf det; rw [h1, h2]; ring
  -- the computed distance of each end
  have dist_of : ∀ {e u v : Coord ℚ}, FinePt e → FinePt u → FinePt v → Reach M e → Reach M u → Reach M v → OnSegment c u v →
      ∃ w : ℚ, Distance.pointToSegment (toB64 e : Coord (B64 sq hy)) (toB64 u) (toB64 v) = Fl.fin w ∧
        (w : ℝ) ≤ ((|e.x - c.x| + |e.y - c.y| : ℚ) : ℝ) + M / 2 ^ 43 ∧
        ∃ f, OnSegment f (realPt u) (realPt v) ∧ Spec.dist (realPt e) f ≤ w + M / 2 ^ 43 := by
    intro e u v he hu hv re ru rv hc
    obtain ⟨w, h1, h2⟩ := C118_segment lib hε hM' (he.ordinary re) (hu.ordinary ru) (hv.ordinary rv) (hu.extends hv)
    have hD := C36_segment (realPt e) (realPt u) (realPt v)
    obtain ⟨k1, k2⟩ := abs_le.mp (h2 _ hD)
    refine ⟨w, h1, ?_, ?_⟩
    · have := hD.2 (realPt c) (onSegment_real hc)
      have h3 := dist_le_sum (realPt e) (realPt c)
      have h4 : |(realPt e).x - (realPt c).x| + |(realPt e).y - (realPt c).y| = ((|e.x - c.x| + |e.y - c.y| : ℚ) : ℝ) := by
        unfold realPt; push_cast; rfl
      rw [h4] at h3
      linarith
    · obtain ⟨f, hf, hf2⟩ := hD.1
      exact ⟨f, hf, by rw [hf2]; linarith⟩
  obtain ⟨w1, a1, b1, f1, c1, d1⟩ := dist_of hp1 hq1 hq2 r1 r3 r4 cq
  obtain ⟨w2, a2, b2, f2, c2, d2⟩ := dist_of hp2 hq1 hq2 r2 r3 r4 cq
  obtain ⟨w3, a3, b3, f3, c3, d3⟩ := dist_of hq1 hp1 hp2 r3 r1 r2 cp
  obtain ⟨w4, a4, b4, f4, c4, d4⟩ := dist_of hq2 hp1 hp2 r4 r1 r2 cp
  obtain ⟨d, e, h1, h2, h3⟩ := C86_nearest (toB64 p1 : Coord (B64 sq hy)) (toB64 p2) (toB64 q1) (toB64 q2)
  rw [h1]
  -- the value of the least computed distance
  have least : ∀ {w : ℚ}, e = Fl.fin w → (w : ℝ) ≤ κ * M / 2 ^ 39 + M / 2 ^ 43 := by
    intro w hw
    have le : ∀ {d' : Coord (B64 sq hy)} {w' : ℚ}, endDistance (toB64 p1 : Coord (B64 sq hy)) (toB64 p2) (toB64 q1) (toB64 q2) d' (Fl.fin w') → w ≤ w' := by
      intro d' w' h
      have := h3 d' _ h
      rw [hw] at this
      exact not_lt.mp (fun k => this (decide_eq_true k))
    have one : ∀ {g : Coord ℚ} {w' : ℚ}, endDistance (toB64 p1 : Coord (B64 sq hy)) (toB64 p2) (toB64 q1) (toB64 q2) (toB64 g) (Fl.fin w') →
        (w' : ℝ) ≤ ((|g.x - c.x| + |g.y - c.y| : ℚ) : ℝ) + M / 2 ^ 43 → |g.x - c.x| + |g.y - c.y| ≤ κ * M / 2 ^ 39 →
        (w : ℝ) ≤ κ * M / 2 ^ 39 + M / 2 ^ 43 := by
      intro g w' k1 k2 k3
      have k4 : (w : ℝ) ≤ w' := by exact_mod_cast le k1
      have k5 : ((|g.x - c.x| + |g.y - c.y| : ℚ) : ℝ) ≤ ((κ * M / 2 ^ 39 : ℚ) : ℝ) := by exact_mod_cast k3
      push_cast at k5 k2
      linarith
    obtain ⟨g, hg, hg2⟩ := hnear
    simp only [List.mem_cons, List.not_mem_nil, or_false] at hg
    rcases hg with rfl | rfl | rfl | rfl
    · exact one (Or.inl ⟨by simp, a1.symm⟩) b1 hg2
    · exact one (Or.inl ⟨by simp, a2.symm⟩) b2 hg2
    · exact one (Or.inr ⟨by simp, a3.symm⟩) b3 hg2
    · exact one (Or.inr ⟨by simp, a4.symm⟩) b4 hg2
  obtain ⟨D, E, dp, dq, hk⟩ := hm.wide
  have cast : ∀ {x y z : ℚ}, |x - y| ≤ z → |(x : ℝ) - y| ≤ z := by
    intro x y z h
    have : ((|x - y| : ℚ) : ℝ) ≤ (z : ℝ) := by exact_mod_cast h
    push_cast at this
    exact this
  -- the error of an end with a small computed distance
  have fin : ∀ {a b u v : Coord ℚ} {f : Coord ℝ} {w t A B : ℚ}, c.x = a.x + t * (b.x - a.x) → c.y = a.y + t * (b.y - a.y) → OnLineOf c u v →
      OnSegment f (realPt u) (realPt v) → Spec.dist (realPt a) f ≤ w + M / 2 ^ 43 → (w : ℝ) ≤ κ * M / 2 ^ 39 + M / 2 ^ 43 →
      |b.x - a.x| ≤ A → |b.y - a.y| ≤ A → |v.x - u.x| ≤ B → |v.y - u.y| ≤ B → |dirDet a b u v| = |dirDet p1 p2 q1 q2| → A * B = D * E →
      |a.x - c.x| ≤ κ ^ 2 * M / 2 ^ 37 ∧ |a.y - c.y| ≤ κ ^ 2 * M / 2 ^ 37 := by
    intro a b u v f w t A B k1 k2 k3 k4 k5 k6 k7 k8 k9 k10 k11 k12
    have hw0 : dirDet a b u v ≠ 0 := by
      have := abs_pos.mpr hm.ne
      rw [← k11] at this
      exact abs_pos.mp this
    have hk' : (A : ℝ) * B ≤ κ * |dirDet (realPt a) (realPt b) (realPt u) (realPt v)| := by
      rw [dirDet_real]
      have : ((A * B : ℚ) : ℝ) ≤ ((κ * |dirDet a b u v| : ℚ) : ℝ) := by rw [k12, k11]; exact_mod_cast hk
      push_cast at this
      exact this
    obtain ⟨g1, g2⟩ := end_near (a := realPt a) (b := realPt b) (u := realPt u) (v := realPt v) (c := realPt c) (f := f) (t := (t : ℝ)) (D := (A : ℝ))
      (E := (B : ℝ)) (κ := (κ : ℝ)) (η := κ * M / 2 ^ 39 + M / 2 ^ 42)
      (by unfold realPt; dsimp only; rw [k1]; push_cast; ring) (by unfold realPt; dsimp only; rw [k2]; push_cast; ring)
      (by
        have : det (realPt u) (realPt v) (realPt c) = ((det u v c : ℚ) : ℝ) := by unfold det realPt; push_cast; ring
        rw [this, k3]; norm_num)
      k4 (by linarith) (cast k7) (cast k8) (cast k9) (cast k10)
      (by rw [dirDet_real]; exact_mod_cast hw0) hk'
    have c2 : 2 * (κ : ℝ) * (κ * M / 2 ^ 39 + M / 2 ^ 42) ≤ κ ^ 2 * M / 2 ^ 37 := by
      have κ2' : (1 / 2 : ℝ) ≤ κ := by
        have : ((1 / 2 : ℚ) : ℝ) ≤ (κ : ℝ) := by exact_mod_cast κ2
        push_cast at this
        exact this
      have M0' : (0 : ℝ) ≤ M := by exact_mod_cast M0
      have k : (κ : ℝ) * M ≤ 2 * (κ ^ 2 * M) := by nlinarith [mul_nonneg (by linarith : (0 : ℝ) ≤ κ) M0']
      have k0 : 0 ≤ (κ : ℝ) ^ 2 * M := by positivity
      have e : 2 * (κ : ℝ) * (κ * M / 2 ^ 39 + M / 2 ^ 42) = κ ^ 2 * M / 2 ^ 38 + κ * M / 2 ^ 41 := by ring
      rw [e]
      linarith
    have back : ∀ {x y : ℚ}, |(x : ℝ) - y| ≤ κ ^ 2 * M / 2 ^ 37 → |x - y| ≤ κ ^ 2 * M / 2 ^ 37 := by
      intro x y h
      have : ((|x - y| : ℚ) : ℝ) ≤ ((κ ^ 2 * M / 2 ^ 37 : ℚ) : ℝ) := by push_cast; exact h
      exact_mod_cast this
    exact ⟨back (g1.trans c2), back (g2.trans c2)⟩
  have flip : ∀ {x y z : ℚ}, |x - y| ≤ z → |y - x| ≤ z := fun h => by rw [abs_sub_comm]; exact h
  obtain ⟨t, t0, t1, cpx, cpy⟩ := cp
  obtain ⟨u, u0, u1, cqx, cqy⟩ := cq
  rcases h2 with ⟨hd, he⟩ | ⟨hd, he⟩ <;> simp only [List.mem_cons, List.not_mem_nil, or_false] at hd <;> rcases hd with rfl | rfl
  · refine ⟨p1, by simp, rfl, ?_⟩
    exact fin (t := t) cpx cpy lq c1 d1 (least (he.trans a1)) dp.1 dp.2 dq.1 dq.2 rfl rfl
  · refine ⟨p2, by simp, rfl, ?_⟩
    exact fin (b := p1) (t := 1 - t) (by rw [cpx]; ring) (by rw [cpy]; ring) lq c2 d2 (least (he.trans a2)) (flip dp.1) (flip dp.2) dq.1 dq.2
      (by rw [← abs_neg]; congr 1; unfold dirDet; ring) rfl
  · refine ⟨q1, by simp, rfl, ?_⟩
    exact fin (t := u) cqx cqy lp c3 d3 (least (he.trans a3)) dq.1 dq.2 dp.1 dp.2 (by rw [← abs_neg]; congr 1; unfold dirDet; ring) (mul_comm _ _)
  · refine ⟨q2, by simp, rfl, ?_⟩
    exact fin (b := q1) (t := 1 - u) (by rw [cqx]; ring) (by rw [cqy]; ring) lp c4 d4 (least (he.trans a4)) (flip dq.1) (flip dq.2) dp.1 dp.2
      (by congr 1; unfold dirDet; ring) (mul_comm _ _)

/-- C121: the point reported for a proper crossing of two segments of doubles is in the boxes of both segments and as accurate as the common point
of their lines, or it is one of the four ends and near the crossing point. -/
theorem C121_crossing {κ M : ℚ} {p1 p2 q1 q2 c : Coord ℚ} (hm : Meets κ p1 p2 q1 q2) (hp1 : FinePt p1) (hp2 : FinePt p2) (hq1 : FinePt q1) (hq2 : FinePt q2)
    (r1 : Reach M p1) (r2 : Reach M p2) (r3 : Reach M q1) (r4 : Reach M q2) (hM : M ≤ 2 ^ 80)
    (cp : OnSegment c p1 p2) (cq : OnSegment c q1 q2) (s : LI (B64 sq hy)) (hs : s.pm = none)
    (h : (s.compute4 (toB64 p1) (toB64 p2) (toB64 q1) (toB64 q2)).isProper = true) :
    ∃ x y d, (s.compute4 (toB64 p1) (toB64 p2) (toB64 q1) (toB64 q2)).getIntersection 0 = .ok d ∧ d.x = Fl.fin x ∧ d.y = Fl.fin y ∧ IsF64 x ∧ IsF64 y ∧
      ((InBox p1 p2 x y ∧ InBox q1 q2 x y ∧ |x - c.x| ≤ |c.x| / 2 ^ 53 + κ * (2 * |c.x| + |c.y|) / 2 ^ 95 ∧
          |y - c.y| ≤ |c.y| / 2 ^ 53 + κ * (2 * |c.y| + |c.x|) / 2 ^ 95) ∨
        (∃ e ∈ [p1, p2, q1, q2], x = e.x ∧ y = e.y ∧ |x - c.x| ≤ κ ^ 2 * M / 2 ^ 37 ∧ |y - c.y| ≤ κ ^ 2 * M / 2 ^ 37)) ∧
      (κ * (2 * |c.x| + |c.y|) ≤ 2 ^ 39 * |c.x| → κ * (2 * |c.y| + |c.x|) ≤ 2 ^ 39 * |c.y| →
        InBox p1 p2 x y ∧ InBox q1 q2 x y ∧ Adjacent x c.x ∧ Adjacent y c.y) := by
  have line : ∀ {a b : Coord ℚ}, OnSegment c a b → OnLineOf c a b := by
    rintro a b ⟨t, -, -, h1, h2⟩; unfold OnLineOf det; rw [h1, h2]; ring
  obtain ⟨-, -, -, -, e1, e2⟩ := proper_state s _ _ _ _ h
  obtain ⟨x, l, y, l', i1, i2, i3, i4⟩ := crossing_pair (sq := sq) (hy := hy) hp1 hp2 hq1 hq2 hm.ne hm.spread
  obtain ⟨g1, g2⟩ := i4 c (line cp) (line cq)
  obtain ⟨b1, b2⟩ := hm.err c
  have between : ∀ {a b : Coord ℚ}, FinePt a → FinePt b → OnSegment c a b → Adjacent x c.x → Adjacent y c.y → InBox a b x y := by
    rintro a b ha hb ⟨t, t0, t1, tx, ty⟩ hx hy'
    have key : ∀ {a b z w : ℚ}, IsF64 a → IsF64 b → w = a + t * (b - a) → Adjacent z w → min a b ≤ z ∧ z ≤ max a b := by
      intro a b z w fa fb hw hz
      rcases le_total a b with k | k
      · rw [min_eq_left k, max_eq_right k]
        exact ⟨hz.2.1 a fa (by rw [hw]; nlinarith [mul_nonneg t0 (sub_nonneg.mpr k)]),
          hz.2.2 b fb (by rw [hw]; nlinarith [mul_nonneg (sub_nonneg.mpr t1) (sub_nonneg.mpr k)])⟩
      · rw [min_eq_right k, max_eq_left k]
        exact ⟨hz.2.1 b fb (by rw [hw]; nlinarith [mul_nonneg (sub_nonneg.mpr t1) (sub_nonneg.mpr k)]),
          hz.2.2 a fa (by rw [hw]; nlinarith [mul_nonneg t0 (sub_nonneg.mpr k)])⟩
    exact ⟨key ha.1.1 hb.1.1 tx hx, key ha.2.1 hb.2.1 ty hy'⟩
  have safe : LI.intersectionSafe (toB64 p1 : Coord (B64 sq hy)) (toB64 p2) (toB64 q1) (toB64 q2) = Coord.xy (Fl.fin x) (Fl.fin y) := by
    unfold LI.intersectionSafe; rw [i3]
  obtain ⟨st, hst⟩ : ∃ st : LI (B64 sq hy), st = { s with
      in00 := (toB64 p1 : Coord (B64 sq hy)).fromCoordinate, in01 := (toB64 p2 : Coord (B64 sq hy)).fromCoordinate, in10 := (toB64 q1 : Coord (B64 sq hy)).fromCoordinate,
      in11 := (toB64 q2 : Coord (B64 sq hy)).fromCoordinate, isProper := true } := ⟨_, rfl⟩
  rw [← hst] at e1 e2
  have env : st.isInSegmentEnvelopes (Coord.xy (Fl.fin x) (Fl.fin y)) = true ↔ InBox p1 p2 x y ∧ InBox q1 q2 x y := by
    unfold LI.isInSegmentEnvelopes Env.coversCoordinate
    rw [Bool.and_eq_true, hst]
    exact and_congr (box_covers_iff ⟨rfl, rfl⟩ ⟨rfl, rfl⟩) (box_covers_iff ⟨rfl, rfl⟩ ⟨rfl, rfl⟩)
  have pm : st.pm = none := by rw [hst]; exact hs
  by_cases hin : InBox p1 p2 x y ∧ InBox q1 q2 x y
  · have e3 : st.intersection (toB64 p1 : Coord (B64 sq hy)) (toB64 p2) (toB64 q1) (toB64 q2) = Coord.xy (Fl.fin x) (Fl.fin y) := by
      unfold LI.intersection
      rw [safe, pm]
      dsimp only
      rw [env.mpr hin]
      rfl
    rw [e3] at e1 e2
    refine ⟨x, y, _, rfl, e1, e2, i1.hi, i2.hi, Or.inl ⟨hin.1, hin.2, (pair_rounded i1 (g1.trans b1)).trans (le_of_eq (by ring)),
      (pair_rounded i2 (g2.trans b2)).trans (le_of_eq (by ring))⟩, fun k1 k2 => ⟨hin.1, hin.2, ?_, ?_⟩⟩
    · exact adjacent_of i1 (g1.trans (b1.trans (by linarith)))
    · exact adjacent_of i2 (g2.trans (b2.trans (by linarith)))
  · have hnear : ∃ e ∈ [p1, p2, q1, q2], |e.x - c.x| + |e.y - c.y| ≤ κ * M / 2 ^ 39 := by
      by_cases hp : InBox p1 p2 x y
      · have hq : ¬ InBox q1 q2 x y := fun k => hin ⟨hp, k⟩
        obtain ⟨s1, s2⟩ := errX_symm p1 p2 q1 q2 c
        obtain ⟨e, he, he2⟩ := box_out hm.symm hq1 hq2 r3 r4 cq i1 i2 (s1 ▸ g1) (s2 ▸ g2) hq
        exact ⟨e, by simp only [List.mem_cons, List.not_mem_nil, or_false] at he ⊢; tauto, he2⟩
      · obtain ⟨e, he, he2⟩ := box_out hm hp1 hp2 r1 r2 cp i1 i2 g1 g2 hp
        exact ⟨e, by simp only [List.mem_cons, List.not_mem_nil, or_false] at he ⊢; tauto, he2⟩
    obtain ⟨e, he, f1, f2, f3⟩ := fallback_near lib hε hm hp1 hp2 hq1 hq2 r1 r2 r3 r4 hM cp cq hnear
    have e3 : st.intersection (toB64 p1 : Coord (B64 sq hy)) (toB64 p2) (toB64 q1) (toB64 q2) = (toB64 e : Coord (B64 sq hy)).fromCoordinate := by
      unfold LI.intersection
      rw [safe, pm]
      dsimp only
      rw [Bool.eq_false_iff.mpr (fun k => hin (env.mp k)), f1]
      rfl
    rw [e3] at e1 e2
    have fe : FinePt e := by
      simp only [List.mem_cons, List.not_mem_nil, or_false] at he
      rcases he with rfl | rfl | rfl | rfl <;> assumption
    refine ⟨e.x, e.y, _, rfl, e1, e2, fe.1.1, fe.2.1, Or.inr ⟨e, he, rfl, rfl, f2, f3⟩, fun k1 k2 => ?_⟩
    have a1 := adjacent_of i1 (g1.trans (b1.trans (by linarith)))
    have a2 := adjacent_of i2 (g2.trans (b2.trans (by linarith)))
    exact absurd ⟨between hp1 hp2 cp a1 a2, between hq1 hq2 cq a1 a2⟩ hin

end cross

/-- C121: segments of doubles that cross in an inner point of both are reported to cross properly, so the bounds apply to them. -/
theorem C121_settled {p1 p2 q1 q2 c : Coord ℚ} (hp1 : FinePt p1) (hp2 : FinePt p2) (hq1 : FinePt q1) (hq2 : FinePt q2)
    (hst : SettledPair p1 p2 q1 q2) (hw : dirDet p1 p2 q1 q2 ≠ 0) (cp : Inside c p1 p2) (cq : Inside c q1 q2) (s : LI (B64 sq hy)) :
    (s.compute4 (toB64 p1) (toB64 p2) (toB64 q1) (toB64 q2)).isProper = true := by
  have line : ∀ {c a b : Coord ℝ}, OnSegment c a b → OnLineOf c a b := by
    rintro c a b ⟨t, -, -, h1, h2⟩; unfold OnLineOf det; rw [h1, h2]; ring
  have same : ∀ {a b : Coord ℚ}, Same (realPt a) (realPt b) → Same a b := fun ⟨h1, h2⟩ => ⟨Rat.cast_injective h1, Rat.cast_injective h2⟩
  have inner : ∀ {a b : Coord ℚ}, Inside c a b → Inside (realPt c) (realPt a) (realPt b) :=
    fun h => ⟨onSegment_real h.1, fun k => h.2.1 (same k), fun k => h.2.2 (same k)⟩
  refine ((C100_segments_meet s p1 p2 q1 q2 ⟨hp1.1.1, hp1.2.1⟩ ⟨hp2.1.1, hp2.2.1⟩ ⟨hq1.1.1, hq1.2.1⟩ ⟨hq2.1.1, hq2.2.1⟩ hst).2).mpr
    ⟨realPt c, inner cp, inner cq, fun c' h => ?_⟩
  have hw' : dirDet (realPt p1) (realPt p2) (realPt q1) (realPt q2) ≠ 0 := by rw [dirDet_real]; exact_mod_cast hw
  exact common_unique _ _ _ _ _ _ hw' (line h.1) (line h.2) (line (inner cp).1) (line (inner cq).1)

/-- C121: parallel lines of doubles whose differences need more than 53 bits are reported to have a common point. -/
theorem C121_limits : ∃ p1 p2 q1 q2 : Coord ℚ, FinePt p1 ∧ FinePt p2 ∧ FinePt q1 ∧ FinePt q2 ∧ ¬ Same p1 p2 ∧ ¬ Same q1 q2 ∧
    (¬ ∃ c, OnLineOf c p1 p2 ∧ OnLineOf c q1 q2) ∧
    (Intersection.intersection (toB64 p1 : Coord X64) (toB64 p2) (toB64 q1) (toB64 q2)).isSome = true := by
  refine ⟨Coord.xy (-19073707761 / 2 ^ 28) (-278530262107 / 2 ^ 28), Coord.xy 1741070633533379328 19151776968867172352,
    Coord.xy (-48059857739 / 2 ^ 29) (-528658435129 / 2 ^ 29), Coord.xy 1637044339067000832 18007487729737009152,
    ?_, ?_, ?_, ?_, by unfold Same; decide +kernel, by unfold Same; decide +kernel, ?_, by decide +kernel⟩
  iterate 4 exact ⟨fineOrd_of (f64_of (by decide +kernel)) (by decide +kernel) (by decide +kernel),
    fineOrd_of (f64_of (by decide +kernel)) (by decide +kernel) (by decide +kernel)⟩
  rintro ⟨c, h1, h2⟩
  unfold OnLineOf det Coord.xy at h1 h2
  norm_num at h1 h2
  linarith

/-- Two segments of doubles of very different sizes that cross, and how well determined their crossing is. -/
example : let p1 : Coord ℚ := Coord.xy (-3 / 2 ^ 60) 0; let p2 : Coord ℚ := Coord.xy (2 ^ 70) (2 ^ 69 + 2 ^ 20)
    let q1 : Coord ℚ := Coord.xy 2 (1 / 2); let q2 : Coord ℚ := Coord.xy (1 + 1 / 2 ^ 40) 7
    FinePt p1 ∧ FinePt p2 ∧ FinePt q1 ∧ FinePt q2 ∧ Meets 2 p1 p2 q1 q2 ∧ Reach (2 ^ 71) p1 ∧ Reach (2 ^ 71) p2 ∧ Reach (2 ^ 71) q1 ∧ Reach (2 ^ 71) q2 ∧
    (∃ c, Inside c p1 p2 ∧ Inside c q1 q2 ∧ 2 * (2 * |c.x| + |c.y|) ≤ 2 ^ 39 * |c.x| ∧ 2 * (2 * |c.y| + |c.x|) ≤ 2 ^ 39 * |c.y|) ∧
    ((LI.default : LI X64).compute4 (toB64 p1) (toB64 p2) (toB64 q1) (toB64 q2)).isProper = true := by
  intro p1 p2 q1 q2
  have fo : ∀ {x : ℚ}, rnd x = .fin x → (2 ^ (-78 : ℤ) ≤ |x| ∧ |x| ≤ 2 ^ (80 : ℤ)) → FineOrd x := fun h k => fineOrd_of (f64_of h) k.1 k.2
  refine ⟨⟨fo (by decide +kernel) (by decide +kernel), ⟨f64_of (by decide +kernel), ⟨0, by norm_num [p1, Coord.xy]⟩, by decide +kernel⟩⟩,
    ⟨fo (by decide +kernel) (by decide +kernel), fo (by decide +kernel) (by decide +kernel)⟩,
    ⟨fo (by decide +kernel) (by decide +kernel), fo (by decide +kernel) (by decide +kernel)⟩,
    ⟨fo (by decide +kernel) (by decide +kernel), fo (by decide +kernel) (by decide +kernel)⟩,
    ⟨by decide +kernel, by decide +kernel, 2 ^ 70 + 1, 13 / 2, by unfold Wide; decide +kernel, by unfold Wide; decide +kernel, by decide +kernel⟩,
    by unfold Reach; decide +kernel, by unfold Reach; decide +kernel, by unfold Reach; decide +kernel, by unfold Reach; decide +kernel,
    ?_, by decide +kernel⟩
  obtain ⟨t, ht⟩ : ∃ t : ℚ, t = ((q1.x - p1.x) * (q2.y - q1.y) - (q1.y - p1.y) * (q2.x - q1.x)) / dirDet p1 p2 q1 q2 := ⟨_, rfl⟩
  obtain ⟨u, hu⟩ : ∃ u : ℚ, u = ((q1.x - p1.x) * (p2.y - p1.y) - (q1.y - p1.y) * (p2.x - p1.x)) / dirDet p1 p2 q1 q2 := ⟨_, rfl⟩
  refine ⟨Coord.xy (p1.x + t * (p2.x - p1.x)) (p1.y + t * (p2.y - p1.y)), ⟨⟨t, ?_, ?_, rfl, rfl⟩, ?_, ?_⟩, ⟨⟨u, ?_, ?_, ?_, ?_⟩, ?_, ?_⟩, ?_, ?_⟩ <;>
    subst ht hu <;> (try unfold Same) <;> decide +kernel

end Verif.Props
