import Verif.Props.Mirror
import Verif.Props.DDExact

/-! # C138: the order in which segments and their ends are given

What does not depend, bit for bit, on which of two segments is named first, or on which end of a segment is named first. -/

namespace Verif.Props
open Flt Verif.Spec Verif.Binary64 Verif.Mirror

/-! ## Numbers whose size is known -/

section size
variable {sq : ℚ → Val} {hy : ℚ → ℚ → Val}

/-- A finite double of absolute value at most `2 ^ k`. -/
structure Upto (k : ℕ) (v : B64 sq hy) : Prop where
  out : ∃ q : ℚ, v = Fl.fin q ∧ Rep q ∧ |q| ≤ 2 ^ k

theorem near_upto {q : ℚ} {k : ℕ} (h : |q| ≤ 2 ^ k) : |near q| ≤ 2 ^ k := by
  have hr : Rep ((2 : ℚ) ^ k) := ⟨1, k, by norm_num, by have := Int.natCast_nonneg k; omega, by simp⟩
  have h1 := near_of_rep hr
  have h2 := near_of_rep hr.neg
  obtain ⟨h3, h4⟩ := abs_le.mp h
  have h5 := near_mono h3
  have h6 := near_mono h4
  rw [h1] at h6
  rw [h2] at h5
  exact abs_le.mpr ⟨h5, h6⟩

theorem rnd_upto {q : ℚ} {k : ℕ} (h : |q| ≤ 2 ^ k) (hk : k ≤ 1023) : Binary64.rnd q = .fin (near q) := by
  refine (rnd_fin_iff _ _).mpr ⟨rfl, lt_of_le_of_lt (near_upto h) ?_⟩
  exact pow_lt_pow_right₀ (by norm_num) (by omega)

theorem upto_round {q : ℚ} {k : ℕ} (h : |q| ≤ 2 ^ k) (hk : k ≤ 1023) : Upto k (Fl.round q : B64 sq hy) :=
  ⟨near q, rnd_upto h hk, near_rep q, near_upto h⟩

theorem upto_add {k l m : ℕ} {a b : B64 sq hy} (ha : Upto k a) (hb : Upto l b) (hk : k < m) (hl : l < m) (hm : m ≤ 1023) : Upto m (a +. b) := by
  obtain ⟨p, rfl, -, hp⟩ := ha.out
  obtain ⟨q, rfl, -, hq⟩ := hb.out
  refine upto_round ?_ hm
  have e1 : (2 : ℚ) ^ k ≤ 2 ^ (m - 1) := pow_le_pow_right₀ (by norm_num) (by omega)
  have e2 : (2 : ℚ) ^ l ≤ 2 ^ (m - 1) := pow_le_pow_right₀ (by norm_num) (by omega)
  have e3 : (2 : ℚ) ^ m = 2 ^ (m - 1) * 2 := by rw [← pow_succ]; congr 1; omega
  rw [e3]
  linarith [abs_add_le p q]

theorem upto_neg {k : ℕ} {a : B64 sq hy} (ha : Upto k a) : Upto k (-.a) := by
  obtain ⟨p, rfl, h, hp⟩ := ha.out
  exact ⟨-p, rfl, h.neg, by rwa [abs_neg]⟩

theorem upto_sub {k l m : ℕ} {a b : B64 sq hy} (ha : Upto k a) (hb : Upto l b) (hk : k < m) (hl : l < m) (hm : m ≤ 1023) : Upto m (a -. b) :=
  upto_add ha (upto_neg hb) hk hl hm

theorem upto_mul {k l m : ℕ} {a b : B64 sq hy} (ha : Upto k a) (hb : Upto l b) (hk : k + l ≤ m) (hm : m ≤ 1023) : Upto m (a *. b) := by
  obtain ⟨p, rfl, -, hp⟩ := ha.out
  obtain ⟨q, rfl, -, hq⟩ := hb.out
  refine upto_round ?_ hm
  rw [abs_mul]
  calc |p| * |q| ≤ 2 ^ k * 2 ^ l := mul_le_mul hp hq (abs_nonneg _) (by positivity)
    _ = 2 ^ (k + l) := (pow_add _ _ _).symm
    _ ≤ 2 ^ m := pow_le_pow_right₀ (by norm_num) hk

theorem upto_zero {k : ℕ} : Upto k (lit 0 : B64 sq hy) :=
  ⟨0, rnd_of_f64 f64_zero, rep_zero, by rw [abs_zero]; positivity⟩

theorem upto_mono {k l : ℕ} {a : B64 sq hy} (h : Upto k a) (hk : k ≤ l) : Upto l a := by
  obtain ⟨q, e, h1, h2⟩ := h.out
  exact ⟨q, e, h1, h2.trans (pow_le_pow_right₀ (by norm_num) hk)⟩

/-- A double-double number of known size. -/
structure UptoD (k : ℕ) (a : DD (B64 sq hy)) : Prop where
  hi : Upto k a.hi
  lo : Upto k a.lo

theorem uptoD_ofF {k : ℕ} {a : B64 sq hy} (h : Upto k a) : UptoD k (DD.ofF a) := ⟨h, upto_zero⟩

theorem uptoD_notNaN {k : ℕ} {a : DD (B64 sq hy)} (h : UptoD k a) : a.isNaN = false := by
  obtain ⟨q, e, -⟩ := h.hi.out
  unfold DD.isNaN
  rw [e]
  rfl

/-- A sum and its error, as `self_add_hi_lo` computes them. -/
def sumErr (a b : B64 sq hy) : B64 sq hy := (b -. ((a +. b) -. a)) +. (a -. ((a +. b) -. ((a +. b) -. a)))

theorem upto_sumErr {k m : ℕ} {a b : B64 sq hy} (ha : Upto k a) (hb : Upto k b) (hk : k + 5 ≤ m) (hm : m ≤ 1023) : Upto m (sumErr a b) := by
  have h1 : Upto (k + 1) (a +. b) := upto_add ha hb (by omega) (by omega) (by omega)
  have h2 : Upto (k + 2) ((a +. b) -. a) := upto_sub h1 ha (by omega) (by omega) (by omega)
  have h3 : Upto (k + 3) ((a +. b) -. ((a +. b) -. a)) := upto_sub h1 h2 (by omega) (by omega) (by omega)
  exact upto_add (upto_sub hb h2 (by omega) (by omega) (by omega) : Upto (k + 4) _) (upto_sub ha h3 (by omega) (by omega) (by omega) : Upto (k + 4) _)
    (by omega) (by omega) hm

/-- The error does not depend on the order of the operands. -/
theorem sumErr_comm {k : ℕ} {a b : B64 sq hy} (ha : Upto k a) (hb : Upto k b) (hk : k + 5 ≤ 1023) : sumErr a b = sumErr b a := by
  obtain ⟨u, hu, -⟩ := upto_sumErr ha hb hk le_rfl |>.out
  obtain ⟨v, hv, -⟩ := upto_sumErr hb ha hk le_rfl |>.out
  obtain ⟨p, rfl, rp, -⟩ := ha.out
  obtain ⟨q, rfl, rq, -⟩ := hb.out
  obtain ⟨-, -, e1⟩ := sum_part rp rq hu
  obtain ⟨-, -, e2⟩ := sum_part rq rp hv
  rw [hu, hv, e1, e2, add_comm p q]

/-- The rest of the sum of two double-double numbers. -/
def sumRest (ss tt s t : B64 sq hy) : DD (B64 sq hy) :=
  let e := s +. tt
  let hh := ss +. e
  let h := e +. (ss -. hh)
  let e := t +. h
  let zhi := hh +. e
  ⟨zhi, e +. (hh -. zhi)⟩

theorem addHiLo_eq (a : DD (B64 sq hy)) (y z : B64 sq hy) :
    a.addHiLo y z = sumRest (a.hi +. y) (a.lo +. z) (sumErr a.hi y) (sumErr a.lo z) := rfl

/-- The sum of two double-double numbers does not depend on their order. -/
theorem addHiLo_comm {k : ℕ} {a b : DD (B64 sq hy)} (ha : UptoD k a) (hb : UptoD k b) (hk : k + 5 ≤ 1023) :
    a.addHiLo b.hi b.lo = b.addHiLo a.hi a.lo := by
  rw [addHiLo_eq, addHiLo_eq, m_add_comm a.hi, m_add_comm a.lo, sumErr_comm ha.hi hb.hi hk, sumErr_comm ha.lo hb.lo hk]

theorem uptoD_addHiLo {k : ℕ} {a : DD (B64 sq hy)} {y z : B64 sq hy} (ha : UptoD k a) (h1 : Upto k y) (h2 : Upto k z) (hk : k + 13 ≤ 1023) :
    UptoD (k + 13) (a.addHiLo y z) := by
  rw [addHiLo_eq]
  have hss : Upto (k + 1) (a.hi +. y) := upto_add ha.hi h1 (by omega) (by omega) (by omega)
  have htt : Upto (k + 1) (a.lo +. z) := upto_add ha.lo h2 (by omega) (by omega) (by omega)
  have hs : Upto (k + 5) (sumErr a.hi y) := upto_sumErr ha.hi h1 le_rfl (by omega)
  have ht : Upto (k + 5) (sumErr a.lo z) := upto_sumErr ha.lo h2 le_rfl (by omega)
  generalize a.hi +. y = ss at *
  generalize a.lo +. z = tt at *
  generalize sumErr a.hi y = s at *
  generalize sumErr a.lo z = t at *
  have e1 : Upto (k + 6) (s +. tt) := upto_add hs htt (by omega) (by omega) (by omega)
  have e2 : Upto (k + 7) (ss +. (s +. tt)) := upto_add hss e1 (by omega) (by omega) (by omega)
  have e3 : Upto (k + 9) ((s +. tt) +. (ss -. (ss +. (s +. tt)))) :=
    upto_add e1 (upto_sub hss e2 (by omega) (by omega) (by omega) : Upto (k + 8) _) (by omega) (by omega) (by omega)
  have e4 : Upto (k + 10) (t +. ((s +. tt) +. (ss -. (ss +. (s +. tt))))) := upto_add ht e3 (by omega) (by omega) (by omega)
  have e5 : Upto (k + 11) ((ss +. (s +. tt)) +. (t +. ((s +. tt) +. (ss -. (ss +. (s +. tt)))))) := upto_add e2 e4 (by omega) (by omega) (by omega)
  exact ⟨upto_mono e5 (by omega), upto_add e4 (upto_sub e2 e5 (by omega) (by omega) (by omega) : Upto (k + 12) _) (by omega) (by omega) (by omega)⟩

theorem upto_split : Upto 28 (DD.SPLIT : B64 sq hy) :=
  ⟨134217729, split64, ⟨134217729, 0, by norm_num, by norm_num, by norm_num⟩, by norm_num [abs_of_pos]⟩

theorem uptoD_mulHiLo {k l : ℕ} {a : DD (B64 sq hy)} {y z : B64 sq hy} (ha : UptoD k a) (h1 : Upto l y) (h2 : Upto l z)
    (hk : k + l + 70 ≤ 1023) : UptoD (k + l + 70) (a.mulHiLo y z) := by
  simp only [DD.mulHiLo]
  have c1 : Upto (k + 28) (DD.SPLIT *. a.hi) := upto_mul upto_split ha.hi (by omega) (by omega)
  have c2 : Upto (k + 29) (DD.SPLIT *. a.hi -. a.hi) := upto_sub c1 ha.hi (by omega) (by omega) (by omega)
  have c3 : Upto (k + 30) (DD.SPLIT *. a.hi -. (DD.SPLIT *. a.hi -. a.hi)) := upto_sub c1 c2 (by omega) (by omega) (by omega)
  have c4 : Upto (k + 31) (a.hi -. (DD.SPLIT *. a.hi -. (DD.SPLIT *. a.hi -. a.hi))) := upto_sub ha.hi c3 (by omega) (by omega) (by omega)
  have d1 : Upto (l + 28) (DD.SPLIT *. y) := upto_mul upto_split h1 (by omega) (by omega)
  have d2 : Upto (l + 29) (DD.SPLIT *. y -. y) := upto_sub d1 h1 (by omega) (by omega) (by omega)
  have d3 : Upto (l + 30) (DD.SPLIT *. y -. (DD.SPLIT *. y -. y)) := upto_sub d1 d2 (by omega) (by omega) (by omega)
  have d4 : Upto (l + 31) (y -. (DD.SPLIT *. y -. (DD.SPLIT *. y -. y))) := upto_sub h1 d3 (by omega) (by omega) (by omega)
  have p0 : Upto (k + l) (a.hi *. y) := upto_mul ha.hi h1 le_rfl (by omega)
  have p1 : Upto (k + l) (a.hi *. z) := upto_mul ha.hi h2 le_rfl (by omega)
  have p2 : Upto (k + l) (a.lo *. y) := upto_mul ha.lo h1 le_rfl (by omega)
  generalize DD.SPLIT *. a.hi -. (DD.SPLIT *. a.hi -. a.hi) = hx at *
  generalize DD.SPLIT *. y -. (DD.SPLIT *. y -. y) = hy' at *
  generalize a.hi -. hx = tx at *
  generalize y -. hy' = ty at *
  have q1 : Upto (k + l + 60) (hx *. hy') := upto_mul c3 d3 (by omega) (by omega)
  have q2 : Upto (k + l + 61) (hx *. ty) := upto_mul c3 d4 (by omega) (by omega)
  have q3 : Upto (k + l + 61) (tx *. hy') := upto_mul c4 d3 (by omega) (by omega)
  have q4 : Upto (k + l + 62) (tx *. ty) := upto_mul c4 d4 (by omega) (by omega)
  have r1 : Upto (k + l + 61) (hx *. hy' -. a.hi *. y) := upto_sub q1 p0 (by omega) (by omega) (by omega)
  have r2 : Upto (k + l + 62) ((hx *. hy' -. a.hi *. y) +. hx *. ty) := upto_add r1 q2 (by omega) (by omega) (by omega)
  have r3 : Upto (k + l + 63) (((hx *. hy' -. a.hi *. y) +. hx *. ty) +. tx *. hy') := upto_add r2 q3 (by omega) (by omega) (by omega)
  have r4 : Upto (k + l + 64) ((((hx *. hy' -. a.hi *. y) +. hx *. ty) +. tx *. hy') +. tx *. ty) := upto_add r3 q4 (by omega) (by omega) (by omega)
  have r5 : Upto (k + l + 1) (a.hi *. z +. a.lo *. y) := upto_add p1 p2 (by omega) (by omega) (by omega)
  have r6 : Upto (k + l + 65) (((((hx *. hy' -. a.hi *. y) +. hx *. ty) +. tx *. hy') +. tx *. ty) +. (a.hi *. z +. a.lo *. y)) :=
    upto_add r4 r5 (by omega) (by omega) (by omega)
  generalize ((((hx *. hy' -. a.hi *. y) +. hx *. ty) +. tx *. hy') +. tx *. ty) +. (a.hi *. z +. a.lo *. y) = c at *
  have r7 : Upto (k + l + 66) (a.hi *. y +. c) := upto_add p0 r6 (by omega) (by omega) (by omega)
  have r8 : Upto (k + l + 67) (a.hi *. y -. (a.hi *. y +. c)) := upto_sub p0 r7 (by omega) (by omega) (by omega)
  have r9 : Upto (k + l + 70) (c +. (a.hi *. y -. (a.hi *. y +. c))) := upto_add r6 r8 (by omega) (by omega) (by omega)
  exact ⟨upto_mono r7 (by omega), r9⟩

theorem uptoD_mul {k l : ℕ} {a b : DD (B64 sq hy)} (ha : UptoD k a) (hb : UptoD l b) (hk : k + l + 70 ≤ 1023) : UptoD (k + l + 70) (a.mul b) := by
  unfold DD.mul
  rw [uptoD_notNaN hb]
  exact uptoD_mulHiLo ha hb.hi hb.lo hk

theorem uptoD_selfMulF {k l : ℕ} {a : DD (B64 sq hy)} {y : B64 sq hy} (ha : UptoD k a) (hb : Upto l y) (hk : k + l + 70 ≤ 1023) :
    UptoD (k + l + 70) (a.selfMulF y) := uptoD_mulHiLo ha hb upto_zero hk

theorem uptoD_selfSub {k : ℕ} {a b : DD (B64 sq hy)} (ha : UptoD k a) (hb : UptoD k b) (hk : k + 13 ≤ 1023) : UptoD (k + 13) (a.selfSub b) := by
  unfold DD.selfSub
  rw [uptoD_notNaN ha]
  exact uptoD_addHiLo ha (upto_neg hb.hi) (upto_neg hb.lo) hk

theorem uptoD_mono {k l : ℕ} {a : DD (B64 sq hy)} (h : UptoD k a) (hk : k ≤ l) : UptoD l a := ⟨upto_mono h.hi hk, upto_mono h.lo hk⟩

variable [hev : Rounding.Even (binary64 sq hy)]

theorem selfSubF_ofF (a : DD (B64 sq hy)) (y : B64 sq hy) : a.selfSubF y = a.selfSub (DD.ofF y) := by
  unfold DD.selfSubF DD.selfSub DD.ofF
  split
  · rfl
  · simp only [m_zero]

theorem uptoD_selfSubF {k : ℕ} {a : DD (B64 sq hy)} {y : B64 sq hy} (ha : UptoD k a) (hb : Upto k y) (hk : k + 13 ≤ 1023) :
    UptoD (k + 13) (a.selfSubF y) := by
  rw [selfSubF_ofF]
  exact uptoD_selfSub ha (uptoD_ofF hb) hk

/-- The difference taken the other way round is the same number with the other sign. -/
theorem selfSub_swap {k : ℕ} {a b : DD (B64 sq hy)} (ha : UptoD k a) (hb : UptoD k b) (hk : k + 5 ≤ 1023) :
    a.selfSub b = ddNeg (b.selfSub a) := by
  unfold DD.selfSub
  rw [uptoD_notNaN ha, uptoD_notNaN hb]
  simp only [Bool.false_eq_true, if_false]
  have hb' : UptoD k (ddNeg b) := ⟨upto_neg hb.hi, upto_neg hb.lo⟩
  have h1 := addHiLo_comm ha hb' hk
  have h2 := dd_addHiLo b (-.a.hi) (-.a.lo)
  rw [m_neg_neg, m_neg_neg] at h2
  rw [← h2, ← h1]
  rfl

/-! ## The common point of two lines -/

/-- A point with finite double coordinates of absolute value at most `2 ^ 256`. -/
def Point256 (p : Coord (B64 sq hy)) : Prop := Upto 256 p.x ∧ Upto 256 p.y

omit hev in
theorem u256_px {a b : B64 sq hy} (ha : Upto 256 a) (hb : Upto 256 b) [Rounding.Even (binary64 sq hy)] : UptoD 269 ((DD.ofF a).selfSubF b) :=
  uptoD_selfSubF (uptoD_ofF ha) hb (by norm_num)

theorem u256_px_swap {a b : B64 sq hy} (ha : Upto 256 a) (hb : Upto 256 b) : (DD.ofF a).selfSubF b = ddNeg ((DD.ofF b).selfSubF a) := by
  rw [selfSubF_ofF, selfSubF_ofF]
  exact selfSub_swap (uptoD_ofF ha) (uptoD_ofF hb) (by norm_num)

omit hev in
theorem u256_prod {a b : B64 sq hy} (ha : Upto 256 a) (hb : Upto 256 b) : UptoD 582 ((DD.ofF a).selfMulF b) :=
  uptoD_selfMulF (uptoD_ofF ha) hb (by norm_num)

omit hev in
/-- Line coordinates of two points. -/
theorem u256_pw {p1 p2 : Coord (B64 sq hy)} (h1 : Point256 p1) (h2 : Point256 p2) :
    UptoD 595 (((DD.ofF p1.x).selfMulF p2.y).selfSub ((DD.ofF p2.x).selfMulF p1.y)) :=
  uptoD_selfSub (u256_prod h1.1 h2.2) (u256_prod h2.1 h1.2) (by norm_num)

theorem u256_pw_swap {p1 p2 : Coord (B64 sq hy)} (h1 : Point256 p1) (h2 : Point256 p2) :
    ((DD.ofF p1.x).selfMulF p2.y).selfSub ((DD.ofF p2.x).selfMulF p1.y) =
      ddNeg (((DD.ofF p2.x).selfMulF p1.y).selfSub ((DD.ofF p1.x).selfMulF p2.y)) :=
  selfSub_swap (u256_prod h1.1 h2.2) (u256_prod h2.1 h1.2) (by norm_num)

theorem swap_lines {p1 p2 q1 q2 : Coord (B64 sq hy)} (h1 : Point256 p1) (h2 : Point256 p2) (h3 : Point256 q1) (h4 : Point256 q2) :
    CGDD.intersection q1 q2 p1 p2 = CGDD.intersection p1 p2 q1 q2 := by
  rw [crossing_eq, crossing_eq, ← quot_neg]
  have ax := u256_px h1.2 h2.2
  have ay := u256_px h2.1 h1.1
  have aw := u256_pw h1 h2
  have bx := u256_px h3.2 h4.2
  have b_y := u256_px h4.1 h3.1
  have bw := u256_pw h3 h4
  rw [selfSub_swap (k := 934) (uptoD_mul b_y aw (by norm_num)) (uptoD_mul ay bw (by norm_num)) (by norm_num),
    selfSub_swap (k := 934) (uptoD_mul ax bw (by norm_num)) (uptoD_mul bx aw (by norm_num)) (by norm_num),
    selfSub_swap (k := 608) (uptoD_mul bx ay (by norm_num)) (uptoD_mul ax b_y (by norm_num)) (by norm_num)]
  simp only [dd_neg_neg]

theorem swap_ends {p1 p2 q1 q2 : Coord (B64 sq hy)} (h1 : Point256 p1) (h2 : Point256 p2) :
    CGDD.intersection p2 p1 q1 q2 = CGDD.intersection p1 p2 q1 q2 := by
  rw [crossing_eq, crossing_eq p1 p2, ← quot_neg]
  rw [u256_px_swap h1.1 h2.1, u256_px_swap h2.2 h1.2, u256_pw_swap h2 h1]
  simp only [ddmul_left, ddmul_right, dd_selfSub, dd_neg_neg]

/-- C138: in binary64 the common point of two lines (or that there is none) is the same, bit for bit, whichever line is named first and
whichever point of each line is named first. -/
theorem C138_lines {p1 p2 q1 q2 : Coord (B64 sq hy)} (h1 : Point256 p1) (h2 : Point256 p2) (h3 : Point256 q1) (h4 : Point256 q2) :
    Intersection.intersection q1 q2 p1 p2 = Intersection.intersection p1 p2 q1 q2 ∧
      Intersection.intersection p2 p1 q1 q2 = Intersection.intersection p1 p2 q1 q2 ∧
      Intersection.intersection p1 p2 q2 q1 = Intersection.intersection p1 p2 q1 q2 := by
  refine ⟨swap_lines h1 h2 h3 h4, swap_ends h1 h2, ?_⟩
  change CGDD.intersection p1 p2 q2 q1 = CGDD.intersection p1 p2 q1 q2
  rw [← swap_lines h1 h2 h3 h4, ← swap_lines h1 h2 h4 h3]
  exact swap_ends h3 h4

end size

/-! ## Every arithmetic that treats both signs alike -/

section even
variable {r : Rounding} [hr : Rounding.Even r]

omit hr in
theorem m_mul_comm (a b : Fl r) : a *. b = b *. a := by
  cases a <;> cases b <;> first
    | rfl
    | (change Fl.round _ = Fl.round _; rw [mul_comm])

theorem m_sub_swap (a b : Fl r) : a -. b = -.(b -. a) := by
  rw [← m_sub, m_sub_neg, m_add_comm]
  rfl

omit hr in
theorem m_eq_comm (a b : Fl r) : (a ==. b) = (b ==. a) := by
  cases a <;> cases b <;> first | rfl | (change decide _ = decide _; simp [eq_comm])

omit hr in
theorem m_eq_eq {a b : Fl r} (h : (a ==. b) = true) : a = b := by
  revert h
  cases a <;> cases b <;> intro h <;> first
    | rfl
    | (exfalso; revert h; exact Bool.false_ne_true)
    | (have := of_decide_eq_true h; rw [this])

omit hr in
theorem equals2D_comm (a b : Coord (Fl r)) : a.equals2D b = b.equals2D a := by
  simp only [Coord.equals2D, m_eq_comm a.x, m_eq_comm a.y]

omit hr in
theorem equals2D_xy {a b : Coord (Fl r)} (h : a.equals2D b = true) : a.x = b.x ∧ a.y = b.y := by
  unfold Coord.equals2D at h
  by_cases h1 : (a.x ==. b.x) = true
  · by_cases h2 : (a.y ==. b.y) = true
    · exact ⟨m_eq_eq h1, m_eq_eq h2⟩
    · simp [h1, h2] at h
  · simp [h1] at h

theorem fp_swap (p1 p2 q1 q2 : Coord (Fl r)) : HCoord.intersection q1 q2 p1 p2 = HCoord.intersection p1 p2 q1 q2 := by
  refine Eq.trans ?_ (quotH_neg _ _ _)
  simp only [HCoord.intersection, quotH, ← m_sub_swap]

theorem fp_swap_ends (p1 p2 q1 q2 : Coord (Fl r)) : HCoord.intersection p2 p1 q1 q2 = HCoord.intersection p1 p2 q1 q2 := by
  refine Eq.trans ?_ (quotH_neg _ _ _)
  have e1 := m_sub_swap p2.y p1.y
  have e2 := m_sub_swap p1.x p2.x
  have e3 := m_sub_swap (p2.x *. p1.y) (p1.x *. p2.y)
  simp only [HCoord.intersection, quotH]
  rw [e1, e2, e3]
  simp only [m_mul_left, m_mul_right, m_sub]

/-- C138: the plain formula for the common point of two lines. -/
theorem C138_plain_formula (p1 p2 q1 q2 : Coord (Fl r)) :
    HCoord.intersection q1 q2 p1 p2 = HCoord.intersection p1 p2 q1 q2 ∧
      HCoord.intersection p2 p1 q1 q2 = HCoord.intersection p1 p2 q1 q2 ∧
      HCoord.intersection p1 p2 q2 q1 = HCoord.intersection p1 p2 q1 q2 := by
  refine ⟨fp_swap _ _ _ _, fp_swap_ends _ _ _ _, ?_⟩
  rw [← fp_swap, fp_swap_ends, fp_swap]

omit hr in
theorem boxes_exchange (p1 p2 q1 q2 : Coord (Fl r)) : Env.intersects4 q1 q2 p1 p2 = Env.intersects4 p1 p2 q1 q2 := by
  unfold Env.intersects4
  simp only []
  split_ifs <;> rfl

theorem dist_swap (a b : Coord (Fl r)) : a.distance b = b.distance a := by
  simp only [Coord.distance]
  rw [m_sub_swap a.x, m_sub_swap a.y, m_hypot_left, m_hypot_right]

theorem dist3_swap (a b : Coord (Fl r)) : a.distance3D b = b.distance3D a := by
  simp only [Coord.distance3D]
  rw [m_sub_swap a.x, m_sub_swap a.y, m_sub_swap a.z]
  simp only [m_mul_left, m_mul_right, m_neg_neg]

/-- The smaller of two numbers. -/
def least (a b : Fl r) : Fl r := if b <. a then b else a

omit hr in
theorem least_comm {a b : Fl r} (ha : isNaN a = false) (hb : isNaN b = false) : least a b = least b a := by
  unfold least
  cases a <;> cases b <;> first
    | rfl
    | (exfalso; revert ha; exact fun h => Bool.noConfusion h)
    | (exfalso; revert hb; exact fun h => Bool.noConfusion h)
    | (rename_i x y
       rcases lt_trichotomy x y with h | h | h
       · have e1 : ((Fl.fin y : Fl r) <. Fl.fin x) = false := decide_eq_false (by linarith)
         have e2 : ((Fl.fin x : Fl r) <. Fl.fin y) = true := decide_eq_true h
         rw [e1, e2]; rfl
       · rw [h]
       · have e1 : ((Fl.fin y : Fl r) <. Fl.fin x) = true := decide_eq_true h
         have e2 : ((Fl.fin x : Fl r) <. Fl.fin y) = false := decide_eq_false (by linarith)
         rw [e1, e2]; rfl)

omit hr in
theorem least_num {a b : Fl r} (ha : isNaN a = false) (hb : isNaN b = false) : isNaN (least a b) = false := by
  unfold least
  split <;> assumption

omit hr in
theorem fl_lt_trans {a b c : Fl r} (h1 : (a <. b) = true) (h2 : (b <. c) = true) : (a <. c) = true := by
  revert h1 h2
  cases a <;> cases b <;> cases c <;> intro h1 h2 <;> first
    | rfl
    | exact absurd h1 Bool.false_ne_true
    | exact absurd h2 Bool.false_ne_true
    | exact decide_eq_true (lt_trans (of_decide_eq_true h1) (of_decide_eq_true h2))

omit hr in
theorem fl_lt_of_lt_of_not {a b c : Fl r} (ha : isNaN b = false) (h1 : (c <. a) = true) (h2 : ¬ (b <. a) = true) : (c <. b) = true := by
  revert h1 h2
  cases a <;> cases b <;> cases c <;> intro h1 h2 <;> first
    | rfl
    | exact absurd h1 Bool.false_ne_true
    | exact absurd rfl h2
    | exact absurd ha (fun h => Bool.noConfusion h)
    | exact decide_eq_true (lt_of_lt_of_le (of_decide_eq_true h1) (le_of_not_gt fun h => h2 (decide_eq_true h)))

omit hr in
theorem least_assoc {a b c : Fl r} (hb : isNaN b = false) : least (least a b) c = least a (least b c) := by
  unfold least
  by_cases h1 : (b <. a) = true
  · rw [if_pos h1]
    by_cases h2 : (c <. b) = true
    · rw [if_pos h2, if_pos (fl_lt_trans h2 h1)]
    · rw [if_neg h2, if_pos h1]
  · rw [if_neg h1]
    by_cases h2 : (c <. b) = true
    · rw [if_pos h2]
    · rw [if_neg h2, if_neg h1, if_neg fun h => h2 (fl_lt_of_lt_of_not hb h h1)]

omit hr in
/-- The least of four numbers does not depend on which pair comes first. -/
theorem min4_swap {a b c d : Fl r} (ha : isNaN a = false) (hb : isNaN b = false) (hc : isNaN c = false) (hd : isNaN d = false) :
    MathUtil.min4 a b c d = MathUtil.min4 c d a b := by
  change least (least (least a b) c) d = least (least (least c d) a) b
  rw [least_assoc hc, least_assoc ha, least_comm (least_num ha hb) (least_num hc hd)]

omit hr in
theorem pointToSegment_congr {p p' a b : Coord (Fl r)} (hx : p.x = p'.x) (hy : p.y = p'.y) :
    Distance.pointToSegment p a b = Distance.pointToSegment p' a b := by
  simp only [Distance.pointToSegment, Coord.distance, hx, hy]

theorem noIntersection_swap (a b c d : Coord (Fl r)) : Distance.noIntersection c d a b = Distance.noIntersection a b c d := by
  unfold Distance.noIntersection
  rw [boxes_exchange]
  split
  · rfl
  have e0 : (d.x -. c.x) *. (b.y -. a.y) -. (d.y -. c.y) *. (b.x -. a.x) = -.((b.x -. a.x) *. (d.y -. c.y) -. (b.y -. a.y) *. (d.x -. c.x)) := by
    rw [m_sub_swap, m_mul_comm (d.y -. c.y), m_mul_comm (d.x -. c.x)]
  have e1 : (c.y -. a.y) *. (b.x -. a.x) -. (c.x -. a.x) *. (b.y -. a.y) = -.((a.y -. c.y) *. (b.x -. a.x) -. (a.x -. c.x) *. (b.y -. a.y)) := by
    rw [m_sub_swap c.y, m_sub_swap c.x]
    simp only [m_mul_left, m_sub]
  have e2 : (c.y -. a.y) *. (d.x -. c.x) -. (c.x -. a.x) *. (d.y -. c.y) = -.((a.y -. c.y) *. (d.x -. c.x) -. (a.x -. c.x) *. (d.y -. c.y)) := by
    rw [m_sub_swap c.y, m_sub_swap c.x]
    simp only [m_mul_left, m_sub]
  simp only [e0, e1, e2, m_eq_zero]
  generalize (b.x -. a.x) *. (d.y -. c.y) -. (b.y -. a.y) *. (d.x -. c.x) = w
  split
  · rfl
  · rename_i h
    have hw : w ≠ Fl.fin 0 := by
      intro e
      apply h
      rw [e, show (lit 0 : Fl r) = Fl.fin 0 from hr.rnd_zero]
      exact decide_eq_true (rfl : (0 : ℚ) = 0)
    simp only [m_div_left, m_div_right _ _ hw, m_neg_neg]
    have hb : ∀ a b c d : Bool, (a || b || c || d) = (c || d || a || b) := by decide
    exact hb _ _ _ _

/-- C138: the distance of two points, in the plane and in space, and of two segments. -/
theorem C138_distance (a b c d : Coord (Fl r)) :
    a.distance b = b.distance a ∧ a.distance3D b = b.distance3D a ∧
      (isNaN (Distance.pointToSegment a c d) = false → isNaN (Distance.pointToSegment b c d) = false →
        isNaN (Distance.pointToSegment c a b) = false → isNaN (Distance.pointToSegment d a b) = false →
        Distance.segmentToSegment c d a b = Distance.segmentToSegment a b c d) := by
  refine ⟨dist_swap a b, dist3_swap a b, fun h1 h2 h3 h4 => ?_⟩
  unfold Distance.segmentToSegment
  rw [noIntersection_swap, min4_swap h3 h4 h1 h2]
  by_cases e1 : a.equals2D b = true
  · by_cases e2 : c.equals2D d = true
    · rw [if_pos e2, if_pos e1]
      have t1 : ((a.x ==. b.x) && (a.y ==. b.y)) = true := by
        unfold Coord.equals2D at e1
        revert e1
        cases (a.x ==. b.x) <;> cases (a.y ==. b.y) <;> simp
      have t2 : ((c.x ==. d.x) && (c.y ==. d.y)) = true := by
        unfold Coord.equals2D at e2
        revert e2
        cases (c.x ==. d.x) <;> cases (c.y ==. d.y) <;> simp
      simp only [Distance.pointToSegment, if_pos t1, if_pos t2]
      exact dist_swap c a
    · rw [if_neg e2, if_pos e1, if_pos e1]
      obtain ⟨hx, hy⟩ := equals2D_xy e1
      exact pointToSegment_congr hx.symm hy.symm
  · by_cases e2 : c.equals2D d = true
    · rw [if_pos e2, if_neg e1, if_pos e2]
      obtain ⟨hx, hy⟩ := equals2D_xy e2
      exact pointToSegment_congr hx hy
    · rw [if_neg e2, if_neg e1, if_neg e1, if_neg e2]

/-! ## The intersector -/

omit hr in
theorem collinear_code_swap (s t : LI (Fl r)) (p1 p2 q1 q2 : Coord (Fl r)) :
    (s.computeCollinear p1 p2 q1 q2).1 = (t.computeCollinear q1 q2 p1 p2).1 := by
  unfold LI.computeCollinear
  simp only [equals2D_comm p1 q1, equals2D_comm p1 q2, equals2D_comm p2 q1, equals2D_comm p2 q2]
  cases Env.intersects3 p1 p2 q1 <;> cases Env.intersects3 p1 p2 q2 <;> cases Env.intersects3 q1 q2 p1 <;> cases Env.intersects3 q1 q2 p2 <;>
    simp

omit hr in
theorem collinear_keeps_flag (s : LI (Fl r)) (p1 p2 q1 q2 : Coord (Fl r)) : (s.computeCollinear p1 p2 q1 q2).2.isProper = s.isProper := by
  unfold LI.computeCollinear
  simp only []
  split_ifs <;> rfl

omit hr in
/-- C138: whether two segments meet, in a point or in a part of a line, and whether the crossing is proper. -/
theorem C138_intersector (s : LI (Fl r)) (p1 p2 q1 q2 : Coord (Fl r)) :
    (s.compute4 q1 q2 p1 p2).result = (s.compute4 p1 p2 q1 q2).result ∧
      (s.compute4 q1 q2 p1 p2).isProper = (s.compute4 p1 p2 q1 q2).isProper ∧
      (s.compute4 q1 q2 p1 p2).hasIntersection = (s.compute4 p1 p2 q1 q2).hasIntersection := by
  have key : ∀ s t : LI (Fl r), (s.computeIntersect q1 q2 p1 p2).1 = (t.computeIntersect p1 p2 q1 q2).1 ∧
      (s.computeIntersect q1 q2 p1 p2).2.isProper = (t.computeIntersect p1 p2 q1 q2).2.isProper := by
    intro s t
    unfold LI.computeIntersect
    simp only [boxes_exchange q1 q2 p1 p2]
    generalize Orientation.index p1 p2 q1 = a
    generalize Orientation.index p1 p2 q2 = b
    generalize Orientation.index q1 q2 p1 = c
    generalize Orientation.index q1 q2 p2 = d
    split
    · exact ⟨rfl, rfl⟩
    by_cases h1 : (a > 0 ∧ b > 0) ∨ (a < 0 ∧ b < 0) <;> by_cases h2 : (c > 0 ∧ d > 0) ∨ (c < 0 ∧ d < 0) <;>
      simp only [h1, h2, if_true, if_false, and_self]
    by_cases h3 : a = 0 ∧ b = 0 ∧ c = 0 ∧ d = 0
    · have h3' : c = 0 ∧ d = 0 ∧ a = 0 ∧ b = 0 := by omega
      rw [if_pos h3, if_pos h3']
      exact ⟨collinear_code_swap _ _ _ _ _ _, by rw [collinear_keeps_flag, collinear_keeps_flag]⟩
    · have h3' : ¬ (c = 0 ∧ d = 0 ∧ a = 0 ∧ b = 0) := by omega
      rw [if_neg h3, if_neg h3']
      by_cases h4 : a = 0 ∨ b = 0 ∨ c = 0 ∨ d = 0
      · have h4' : c = 0 ∨ d = 0 ∨ a = 0 ∨ b = 0 := by omega
        rw [if_pos h4, if_pos h4']
        exact ⟨rfl, rfl⟩
      · have h4' : ¬ (c = 0 ∨ d = 0 ∨ a = 0 ∨ b = 0) := by omega
        rw [if_neg h4, if_neg h4']
        exact ⟨rfl, rfl⟩
  have h := key { s with in00 := q1.fromCoordinate, in01 := q2.fromCoordinate, in10 := p1.fromCoordinate, in11 := p2.fromCoordinate }
    { s with in00 := p1.fromCoordinate, in01 := p2.fromCoordinate, in10 := q1.fromCoordinate, in11 := q2.fromCoordinate }
  refine ⟨h.1, h.2, ?_⟩
  unfold LI.hasIntersection
  congr 2
  exact h.1

omit hr in
theorem nan_of_isNaN {a : Fl r} (h : isNaN a = true) : a = Fl.nan := by
  revert h
  cases a <;> intro h <;> first | rfl | exact absurd h Bool.false_ne_true

omit hr in
theorem z5_swap (p p1 p2 q1 q2 : Coord (Fl r)) : LI.zInterpolate5 p q1 q2 p1 p2 = LI.zInterpolate5 p p1 p2 q1 q2 := by
  unfold LI.zInterpolate5
  simp only []
  generalize LI.zInterpolate3 p p1 p2 = a
  generalize LI.zInterpolate3 p q1 q2 = b
  by_cases h1 : isNaN a = true <;> by_cases h2 : isNaN b = true
  · rw [nan_of_isNaN h1, nan_of_isNaN h2]
  · rw [if_neg h2, if_pos h1, if_pos h1]
  · rw [if_pos h2, if_neg h1, if_pos h2]
  · rw [if_neg h2, if_neg h1, if_neg h1, if_neg h2, m_add_comm]

/-- A point, rounded if there is a precision model. -/
def snapPt (pm : Option (PM (Fl r))) (c : Coord (Fl r)) : Coord (Fl r) := (pm.map fun m => m.makePreciseCoordinate c).getD c

omit hr in
/-- The point reported for a proper crossing. -/
theorem proper_pt0 (s : LI (Fl r)) (p1 p2 q1 q2 : Coord (Fl r)) (h : (s.compute4 p1 p2 q1 q2).isProper = true)
    {c : Coord (Fl r)} (hc : Intersection.intersection p1 p2 q1 q2 = some c) (h1 : (Env.newCoordinates p1 p2).coversCoordinate c = true)
    (h2 : (Env.newCoordinates q1 q2).coversCoordinate c = true) :
    (s.compute4 p1 p2 q1 q2).pt0 =
      LI.copyWithZ (snapPt s.pm c) (LI.zInterpolate5 (snapPt s.pm c) p1 p2 q1 q2) := by
  revert h
  unfold LI.compute4 LI.computeIntersect
  simp only []
  split_ifs
  · intro h; exact h.elim
  · intro h; exact h.elim
  · intro h; exact h.elim
  · intro h; rw [collinear_keeps_flag] at h; exact absurd (show false = true from h) Bool.false_ne_true
  · intro h; exact h.elim
  · intro h
    have e : LI.intersectionSafe p1 p2 q1 q2 = c := by unfold LI.intersectionSafe; rw [hc]
    have e2 : ∀ t : LI (Fl r), t.in00 = p1.fromCoordinate → t.in01 = p2.fromCoordinate → t.in10 = q1.fromCoordinate →
        t.in11 = q2.fromCoordinate → t.pm = s.pm → t.intersection p1 p2 q1 q2 = snapPt s.pm c := by
      intro t t1 t2 t3 t4 t5
      have e3 : t.isInSegmentEnvelopes c = true := by
        unfold LI.isInSegmentEnvelopes
        rw [t1, t2, t3, t4, Bool.and_eq_true]
        exact ⟨h1, h2⟩
      unfold LI.intersection
      simp only [e, e3, t5, Bool.not_true, Bool.false_eq_true, if_false]
      cases s.pm <;> rfl
    exact congrArg (fun p => LI.copyWithZ p (LI.zInterpolate5 p p1 p2 q1 q2)) (e2 _ rfl rfl rfl rfl rfl)

end even

/-- C138: the point of a proper crossing, its height included. -/
theorem C138_crossing {sq : ℚ → Val} {hy : ℚ → ℚ → Val} [Rounding.Even (binary64 sq hy)] (s : LI (B64 sq hy))
    {p1 p2 q1 q2 c : Coord (B64 sq hy)} (h1 : Point256 p1) (h2 : Point256 p2) (h3 : Point256 q1) (h4 : Point256 q2)
    (h : (s.compute4 p1 p2 q1 q2).isProper = true) (hc : Intersection.intersection p1 p2 q1 q2 = some c)
    (b1 : (Env.newCoordinates p1 p2).coversCoordinate c = true) (b2 : (Env.newCoordinates q1 q2).coversCoordinate c = true) :
    (s.compute4 q1 q2 p1 p2).pt0 = (s.compute4 p1 p2 q1 q2).pt0 := by
  have h' : (s.compute4 q1 q2 p1 p2).isProper = true := by rw [(C138_intersector s p1 p2 q1 q2).2.1]; exact h
  have hc' : Intersection.intersection q1 q2 p1 p2 = some c := by rw [(C138_lines h1 h2 h3 h4).1]; exact hc
  rw [proper_pt0 s p1 p2 q1 q2 h hc b1 b2, proper_pt0 s q1 q2 p1 p2 h' hc' b2 b1]
  simp only [z5_swap _ p1 p2 q1 q2]

/-- The order of the ends of a segment does matter for the orientation index and so for the intersector: three points on a line of which
the third is found on the line through the first two, but on the left of it if the first two are exchanged; and so a segment that starts there
meets the segment of the first two, or does not, if its ends are exchanged. -/
theorem C138_ends_matter : ∃ p1 p2 q q' : Coord ℚ,
    (IsF64 p1.x ∧ IsF64 p1.y ∧ IsF64 p2.x ∧ IsF64 p2.y ∧ IsF64 q.x ∧ IsF64 q.y ∧ IsF64 q'.x ∧ IsF64 q'.y) ∧
    det p1 p2 q = 0 ∧ q.x = (1 - 9 / (2 ^ 60 - 63)) * p2.x + 9 / (2 ^ 60 - 63) * p1.x ∧
    q.y = (1 - 9 / (2 ^ 60 - 63)) * p2.y + 9 / (2 ^ 60 - 63) * p1.y ∧
    Orientation.index (toB64 p1 : Coord X64) (toB64 p2) (toB64 q) = 0 ∧
    Orientation.index (toB64 p2 : Coord X64) (toB64 p1) (toB64 q) = 1 ∧
    (LI.default.compute4 (toB64 p1 : Coord X64) (toB64 p2) (toB64 q) (toB64 q')).hasIntersection = true ∧
    (LI.default.compute4 (toB64 p2 : Coord X64) (toB64 p1) (toB64 q) (toB64 q')).hasIntersection = false := by
  refine ⟨Coord.xy (2 ^ 20) (3 * 2 ^ 20), Coord.xy (63 / 2 ^ 40) (189 / 2 ^ 40), Coord.xy (72 / 2 ^ 40) (216 / 2 ^ 40), Coord.xy 1 5, ?_, ?_, ?_, ?_, ?_, ?_, ?_, ?_⟩
  · refine ⟨f64_of ?_, f64_of ?_, f64_of ?_, f64_of ?_, f64_of ?_, f64_of ?_, f64_of ?_, f64_of ?_⟩ <;> decide +kernel
  · unfold det; simp only [Coord.xy]; norm_num
  · simp only [Coord.xy]; norm_num
  · simp only [Coord.xy]; norm_num
  all_goals decide +kernel

/-! ## Examples -/

private def pt (x y : ℚ) : Coord (Fl Even64) := Coord.xy (lit x) (lit y)

theorem upto_lit {k : ℕ} {x : ℚ} (h : |x| ≤ 2 ^ k) (hk : k ≤ 1023) : Upto k (lit x : Fl Even64) := upto_round h hk

/-- Two segments with decimal ends, which cross in a point that binary64 can only approximate. -/
example : Point256 (pt (1/10) (1/10)) ∧ Point256 (pt (8/10) (9/10)) ∧ Point256 (pt (1/10) (7/10)) ∧ Point256 (pt (9/10) (2/10)) ∧
    (∃ c, Intersection.intersection (pt (1/10) (1/10)) (pt (8/10) (9/10)) (pt (1/10) (7/10)) (pt (9/10) (2/10)) = some c ∧
      (Env.newCoordinates (pt (1/10) (1/10)) (pt (8/10) (9/10))).coversCoordinate c = true ∧
      (Env.newCoordinates (pt (1/10) (7/10)) (pt (9/10) (2/10))).coversCoordinate c = true) ∧
    (LI.default.compute4 (pt (1/10) (1/10)) (pt (8/10) (9/10)) (pt (1/10) (7/10)) (pt (9/10) (2/10))).isProper = true := by
  have h : ∀ x : ℚ, |x| ≤ 1 → Upto 256 (lit x : Fl Even64) := fun x hx => upto_lit (hx.trans (one_le_pow₀ (by norm_num))) (by norm_num)
  refine ⟨⟨h _ ?_, h _ ?_⟩, ⟨h _ ?_, h _ ?_⟩, ⟨h _ ?_, h _ ?_⟩, ⟨h _ ?_, h _ ?_⟩, ?_, by decide +kernel⟩
  all_goals first | (norm_num [abs_of_pos]; done) | skip
  refine ⟨(Intersection.intersection (pt (1/10) (1/10)) (pt (8/10) (9/10)) (pt (1/10) (7/10)) (pt (9/10) (2/10))).get (by decide +kernel), ?_, ?_, ?_⟩
  · exact (Option.some_get _).symm
  · decide +kernel
  · decide +kernel

/-- The distance of two segments that do not meet, with rounding. -/
example : Distance.segmentToSegment (pt (1/10) (1/10)) (pt (8/10) (1/10)) (pt (3/10) (7/10)) (pt (9/10) (4/10)) =
      Distance.segmentToSegment (pt (3/10) (7/10)) (pt (9/10) (4/10)) (pt (1/10) (1/10)) (pt (8/10) (1/10)) ∧
    Distance.segmentToSegment (pt (1/10) (1/10)) (pt (8/10) (1/10)) (pt (3/10) (7/10)) (pt (9/10) (4/10)) ≠ lit 0 :=
  ⟨(C138_distance _ _ _ _).2.2 (by decide +kernel) (by decide +kernel) (by decide +kernel) (by decide +kernel), by decide +kernel⟩

/-- Segments on a line that overlap. -/
example : (LI.default.compute4 (pt 0 0) (pt 4 4) (pt 2 2) (pt 6 6)).result = 2 ∧ (LI.default.compute4 (pt 2 2) (pt 6 6) (pt 0 0) (pt 4 4)).result = 2 := by
  decide +kernel

example : HCoord.intersection (pt (1/10) (1/10)) (pt (8/10) (9/10)) (pt (1/10) (7/10)) (pt (9/10) (2/10)) ≠ none := by decide +kernel

end Verif.Props
