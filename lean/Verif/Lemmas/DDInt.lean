import Verif.Props.OrientationGrid
import Verif.Props.DDDiv

set_option linter.unusedSectionVars false

/-! # Double-double arithmetic is exact on multiples of a power of two of moderate size -/

namespace Verif.Props
open Flt Verif.Spec Verif.Binary64

variable {sq : ℚ → Val} {hy : ℚ → ℚ → Val}

/-! ## Multiples of a power of two -/

/-- If finite, a multiple of `2^e`. -/
def Pm (e : ℤ) (x : B64 sq hy) : Prop := ∀ q, x = Fl.fin q → Mul2 e q

theorem Pm.add {e : ℤ} {x y : B64 sq hy} (hx : Pm e x) (hy' : Pm e y) (he : -1074 ≤ e) : Pm e (x +. y) := by
  intro q h
  obtain ⟨a, b, h1, h2, h3, -⟩ := add64 h
  rw [← h3]; exact near_keeps he ((hx a h1).add (hy' b h2))

theorem Pm.sub {e : ℤ} {x y : B64 sq hy} (hx : Pm e x) (hy' : Pm e y) (he : -1074 ≤ e) : Pm e (x -. y) := by
  intro q h
  obtain ⟨a, b, h1, h2, h3, -⟩ := sub64 h
  rw [← h3]; exact near_keeps he ((hx a h1).sub (hy' b h2))

theorem Pm.mul {e f : ℤ} {x y : B64 sq hy} (hx : Pm e x) (hy' : Pm f y) (he : -1074 ≤ e + f) : Pm (e + f) (x *. y) := by
  intro q h
  obtain ⟨a, b, h1, h2, h3, -⟩ := mul64 h
  rw [← h3]; exact near_keeps he ((hx a h1).mul (hy' b h2))

theorem pm_fin {e : ℤ} {q : ℚ} (h : Mul2 e q) : Pm e (Fl.fin q : B64 sq hy) := fun _ h' => fin_inj h' ▸ h

theorem pm_addHiLo {e : ℤ} {a : DD (B64 sq hy)} {yhi ylo : B64 sq hy} (ah : Pm e a.hi) (al : Pm e a.lo) (bh : Pm e yhi) (bl : Pm e ylo)
    (he : -1074 ≤ e) : Pm e (a.addHiLo yhi ylo).hi ∧ Pm e (a.addHiLo yhi ylo).lo := by
  have ss := ah.add bh he
  have tt := al.add bl he
  have ee := ss.sub ah he
  have f := tt.sub al he
  have s := ss.sub ee he
  have t := tt.sub f he
  have s' := (bh.sub ee he).add (ah.sub s he) he
  have t' := (bl.sub f he).add (al.sub t he) he
  have e1 := s'.add tt he
  have hh := ss.add e1 he
  have h := e1.add (ss.sub hh he) he
  have e2 := t'.add h he
  have z := hh.add e2 he
  exact ⟨z, e2.add (hh.sub z he) he⟩

theorem pm_half {e : ℤ} {x : B64 sq hy} (hx : Pm e x) (he : -1074 ≤ e) : Pm e (half x) := by
  have hs : Pm 0 (DD.SPLIT : B64 sq hy) := by rw [split64]; exact pm_fin ⟨134217729, by norm_num⟩
  have c : Pm e (DD.SPLIT *. x) := by have := hs.mul hx (by omega); rwa [zero_add] at this
  exact c.sub (c.sub hx he) he

theorem pm_mulHiLo {e f : ℤ} {a b : DD (B64 sq hy)} (ah : Pm e a.hi) (al : Pm e a.lo) (bh : Pm f b.hi) (bl : Pm f b.lo)
    (he : -1074 ≤ e) (hf : -1074 ≤ f) (hef : -1074 ≤ e + f) : Pm (e + f) (a.mulHiLo b.hi b.lo).hi ∧ Pm (e + f) (a.mulHiLo b.hi b.lo).lo := by
  rw [mulHiLo_errPart]
  have ha := pm_half ah he
  have hb := pm_half bh hf
  have ta := ah.sub ha he
  have tb := bh.sub hb hf
  have p := ah.mul bh hef
  have er : Pm (e + f) (errPart a.hi b.hi) :=
    (((((ha.mul hb hef).sub p hef).add (ha.mul tb hef) hef).add (ta.mul hb hef) hef).add (ta.mul tb hef) hef)
  have c := er.add ((ah.mul bl hef).add (al.mul bh hef) hef) hef
  have z := p.add c hef
  exact ⟨z, c.add (p.sub z hef) hef⟩

/-! ## Sizes -/

theorem bd_mulHiLo {k : ℤ} {a b : DD (B64 sq hy)} (ah : Bd k a.hi) (al : Bd k a.lo) (bh : Bd k b.hi) (bl : Bd k b.lo)
    (h1 : -537 ≤ k) (h2 : 2 * k + 70 ≤ 1023) : Bd (2 * k + 70) (a.mulHiLo b.hi b.lo).hi := by
  rw [mulHiLo_errPart]
  have e := bd_errPart ah bh (by omega) (by omega)
  have p := ah.mul bh (by omega) (by omega)
  have z := (ah.mul bl (by omega) (by omega)).add (al.mul bh (by omega) (by omega)) (by omega) (by omega)
  have c := e.add (z.mono (by omega)) (by omega) (by omega)
  exact ((p.mono (by omega)).add c (by omega) (by omega)).mono (by omega)

/-! ## Exact pairs -/

/-- A normalised pair with the value `v`, a multiple of `2^e` of size at most `2^k`. -/
structure Ex (e k : ℤ) (v : ℚ) (A : DD (B64 sq hy)) : Prop where
  pair : ∃ h l, A = ⟨Fl.fin h, Fl.fin l⟩ ∧ IsPair h l ∧ h + l = v
  mul : Mul2 e v
  le : |v| ≤ 2 ^ k

theorem pair_mul2 {e : ℤ} {h l : ℚ} (he : -1074 ≤ e) (p : IsPair h l) (hm : Mul2 e (h + l)) : Mul2 e h ∧ Mul2 e l := by
  have h1 : Mul2 e h := by have := near_keeps he hm; rwa [p.near] at this
  refine ⟨h1, ?_⟩
  have := hm.sub h1
  rwa [add_sub_cancel_left] at this

theorem pair_le {k : ℤ} {h l : ℚ} (hk : -1074 ≤ k) (p : IsPair h l) (hb : |h + l| ≤ 2 ^ k) : |h| ≤ 2 ^ k ∧ |l| ≤ 2 ^ k := by
  have h1 := near_le_pow hk hb
  rw [p.near] at h1
  refine ⟨h1, ?_⟩
  have h2 := near_nearest (h + l) 0 rep_zero
  rw [p.near, sub_zero, add_sub_cancel_left] at h2
  exact h2.trans hb

theorem ex_ofF {e k : ℤ} {x : ℚ} (f : IsF64 x) (hm : Mul2 e x) (hb : |x| ≤ 2 ^ k) : Ex e k x (DD.ofF (Fl.fin x) : DD (B64 sq hy)) :=
  ⟨⟨x, 0, by unfold DD.ofF; rw [lit64], .ofF f, add_zero x⟩, hm, hb⟩

theorem Ex.mono {e k k' : ℤ} {v : ℚ} {A : DD (B64 sq hy)} (h : Ex e k v A) (hk : k ≤ k') : Ex e k' v A :=
  ⟨h.pair, h.mul, h.le.trans (two_mono hk)⟩

/-- A multiple of `2^e` nearer than that to another one. -/
theorem mul2_close {e : ℤ} {u v : ℚ} (hu : Mul2 e u) (hv : Mul2 e v) (h : |u - v| < 2 ^ e) : u = v := by
  by_contra hne
  exact absurd ((hu.sub hv).le_abs (sub_ne_zero.mpr hne)) (not_le.mpr h)

theorem Ex.selfSub {e k : ℤ} {u v : ℚ} {A B : DD (B64 sq hy)} (ha : Ex e k u A) (hb : Ex e k v B) (he : -1074 ≤ e) (hk0 : -1074 ≤ k)
    (hk : k ≤ e + 99) (h2 : k ≤ 1000) : Ex e (k + 1) (u - v) (A.selfSub B) := by
  obtain ⟨a, b, rfl, pa, rfl⟩ := ha.pair
  obtain ⟨c, d, rfl, pb, rfl⟩ := hb.pair
  obtain ⟨ma, mb⟩ := pair_mul2 he pa ha.mul
  obtain ⟨mc, md⟩ := pair_mul2 he pb hb.mul
  obtain ⟨la, lb⟩ := pair_le hk0 pa ha.le
  obtain ⟨lc, ld⟩ := pair_le hk0 pb hb.le
  have hle : |a + b - (c + d)| ≤ 2 ^ (k + 1) := by
    rw [two_add, zpow_one]
    linarith [abs_sub (a + b) (c + d), ha.le, hb.le]
  refine ⟨?_, ha.mul.sub hb.mul, hle⟩
  have hfin := (bd_addHiLo (a := (⟨Fl.fin a, Fl.fin b⟩ : DD (B64 sq hy))) (yhi := Fl.fin (-c)) (ylo := Fl.fin (-d)) ⟨a, rfl, la⟩ ⟨b, rfl, lb⟩
    ⟨-c, rfl, by rwa [abs_neg]⟩ ⟨-d, rfl, by rwa [abs_neg]⟩ hk0 (by omega)).finite
  obtain ⟨h, l, e1, e2, e3, e4⟩ := C74_difference a b c d pa pb hfin
  refine ⟨h, l, e2, e3, ?_⟩
  have pm := pm_addHiLo (a := (⟨Fl.fin a, Fl.fin b⟩ : DD (B64 sq hy))) (yhi := Fl.fin (-c)) (ylo := Fl.fin (-d)) (pm_fin ma) (pm_fin mb)
    (pm_fin mc.neg) (pm_fin md.neg) he
  have e1' : (⟨Fl.fin a, Fl.fin b⟩ : DD (B64 sq hy)).addHiLo (Fl.fin (-c)) (Fl.fin (-d)) = ⟨Fl.fin h, Fl.fin l⟩ := e1
  rw [e1'] at pm
  have mh := pm.1 h rfl
  have ml := pm.2 l rfl
  refine mul2_close (mh.add ml) (ha.mul.sub hb.mul) (lt_of_le_of_lt e4 ?_)
  rw [div_lt_iff₀ (by positivity)]
  refine lt_of_le_of_lt hle ?_
  rw [← zpow_natCast, ← two_add, two_lt_iff]
  push_cast; omega

theorem Ex.selfMul {e f k m : ℤ} {u v : ℚ} {A B : DD (B64 sq hy)} (ha : Ex e k u A) (hb : Ex f m v B) (he : -900 ≤ e) (hf : -900 ≤ f)
    (hef : -968 ≤ e + f) (hk0 : -400 ≤ k) (hm0 : -400 ≤ m) (hkm : k + m ≤ e + f + 99) (hk1 : k ≤ 450) (hm1 : m ≤ 450) :
    Ex (e + f) (k + m) (u * v) (A.selfMul B) := by
  obtain ⟨a, b, rfl, pa, rfl⟩ := ha.pair
  obtain ⟨c, d, rfl, pb, rfl⟩ := hb.pair
  obtain ⟨ma, mb⟩ := pair_mul2 (by omega) pa ha.mul
  obtain ⟨mc, md⟩ := pair_mul2 (by omega) pb hb.mul
  obtain ⟨la, lb⟩ := pair_le (by omega) pa ha.le
  obtain ⟨lc, ld⟩ := pair_le (by omega) pb hb.le
  have hle : |(a + b) * (c + d)| ≤ 2 ^ (k + m) := by
    rw [abs_mul, two_add]
    exact mul_le_mul ha.le hb.le (abs_nonneg _) (two_pos _).le
  refine ⟨?_, ha.mul.mul hb.mul, hle⟩
  have nu : NoUnderflow a c := by
    by_cases h0 : a = 0
    · exact Or.inl h0
    by_cases h00 : c = 0
    · exact Or.inr (Or.inl h00)
    refine Or.inr (Or.inr ⟨?_, ?_, ?_⟩)
    · exact le_trans (two_mono (by omega)) (ma.le_abs h0)
    · exact le_trans (two_mono (by omega)) (mc.le_abs h00)
    · exact le_trans (two_mono hef) ((ma.mul mc).le_abs (mul_ne_zero h0 h00))
  obtain ⟨K, hK⟩ : ∃ K, K = max k m := ⟨_, rfl⟩
  have k1 : k ≤ K := by omega
  have k2 : m ≤ K := by omega
  have hfin := (bd_mulHiLo (k := K) (a := (⟨Fl.fin a, Fl.fin b⟩ : DD (B64 sq hy))) (b := ⟨Fl.fin c, Fl.fin d⟩)
    ⟨a, rfl, la.trans (two_mono k1)⟩ ⟨b, rfl, lb.trans (two_mono k1)⟩
    ⟨c, rfl, lc.trans (two_mono k2)⟩ ⟨d, rfl, ld.trans (two_mono k2)⟩ (by omega) (by omega)).finite
  obtain ⟨h, l, e1, e2, e3⟩ := C67_product a b c d pa pb nu hfin
  refine ⟨h, l, e1, e2, ?_⟩
  have pm := pm_mulHiLo (a := (⟨Fl.fin a, Fl.fin b⟩ : DD (B64 sq hy))) (b := ⟨Fl.fin c, Fl.fin d⟩) (pm_fin ma) (pm_fin mb) (pm_fin mc) (pm_fin md)
    (by omega) (by omega) (by omega)
  have e1' : (⟨Fl.fin a, Fl.fin b⟩ : DD (B64 sq hy)).mulHiLo (Fl.fin c) (Fl.fin d) = ⟨Fl.fin h, Fl.fin l⟩ := e1
  rw [e1'] at pm
  have mh := pm.1 h rfl
  have ml := pm.2 l rfl
  refine mul2_close (mh.add ml) (ha.mul.mul hb.mul) (lt_of_le_of_lt e3 ?_)
  rw [div_lt_iff₀ (by positivity)]
  refine lt_of_le_of_lt hle ?_
  rw [← zpow_natCast, ← two_add, two_lt_iff]
  push_cast; omega

theorem Ex.mul' {e f k m : ℤ} {u v : ℚ} {A B : DD (B64 sq hy)} (ha : Ex e k u A) (hb : Ex f m v B) (he : -900 ≤ e) (hf : -900 ≤ f)
    (hef : -968 ≤ e + f) (hk0 : -400 ≤ k) (hm0 : -400 ≤ m) (hkm : k + m ≤ e + f + 99) (hk1 : k ≤ 450) (hm1 : m ≤ 450) :
    Ex (e + f) (k + m) (u * v) (A.mul B) := by
  have : A.mul B = A.selfMul B := by
    obtain ⟨c, d, rfl, -, -⟩ := hb.pair
    rfl
  rw [this]
  exact ha.selfMul hb he hf hef hk0 hm0 hkm hk1 hm1

/-! ## Faithful rounding -/

/-- The double `x` is a faithful rounding of `q`: no double lies strictly between, and it is the nearest double up to `2^-47` of half a unit. -/
structure Faithful (x q : ℚ) : Prop where
  f64 : IsF64 x
  below : ∀ d, IsF64 d → d ≤ q → d ≤ x
  above : ∀ d, IsF64 d → q ≤ d → x ≤ d
  rel : |x - q| ≤ |q| * (1 / 2 ^ 53 + 1 / 2 ^ 99)

/-- Two distinct numbers of the format are not too close. -/
theorem rep_gap {a b : ℚ} (ra : Rep a) (rb : Rep b) (h : a ≠ b) : |b| ≤ 2 ^ 54 * |b - a| := by
  by_contra hc
  push Not at hc
  have h1 : |b| ≤ |a| + |b - a| := by have := abs_sub_abs_le_abs_sub b a; linarith
  have ha : |b| ≤ 2 * |a| := by linarith [abs_nonneg (b - a)]
  obtain ⟨t, ht⟩ : ∃ t, t = max (expo b - 1) (-1074) := ⟨_, rfl⟩
  have hta : t ≤ expo a := by
    rcases le_or_gt (expo b - 1) (-1074) with h2 | h2
    · have := expo_ge a; omega
    · apply le_trans (b := expo b - 1) (by omega)
      apply le_expo
      have h3 := expo_le_abs b (by rintro rfl; rw [expo_zero] at h2; omega) (by omega)
      have h4 : (2 : ℚ) ^ (expo b + 52) = 2 * 2 ^ (expo b - 1 + 52) := by
        rw [show expo b + 52 = 1 + (expo b - 1 + 52) by ring, two_add, zpow_one]
      linarith
  have htb : t ≤ expo b := by have := expo_ge b; omega
  have m := (rb.mul2.mono htb).sub (ra.mul2.mono hta)
  have h5 := m.le_abs (sub_ne_zero.mpr (Ne.symm h))
  have h6 := abs_lt_expo b
  have h7 : (2 : ℚ) ^ (expo b + 53) ≤ 2 ^ 54 * 2 ^ t := by
    rw [← zpow_natCast, ← two_add]
    exact two_mono (by push_cast; omega)
  linarith

theorem faithful_below {h v q d : ℚ} (hn : near v = h) (he : |v - q| ≤ |q| / 2 ^ 100) (rd : Rep d) (hd : d ≤ q) : d ≤ h := by
  rcases le_or_gt d v with h1 | h1
  · have := near_mono h1
    rwa [near_of_rep rd, hn] at this
  · by_contra hc
    push Not at hc
    have rh : Rep h := hn ▸ near_rep _
    have g := rep_gap rh rd hc.ne
    have n := near_nearest v d rd
    rw [hn, abs_sub_comm v d, abs_of_pos (by linarith : 0 < d - v)] at n
    rw [abs_of_pos (by linarith : 0 < d - h)] at g
    have n2 := (abs_le.mp n).2
    have e1 : d - v ≤ |q| / 2 ^ 100 := by
      have := (abs_le.mp he).1
      linarith
    have e2 : d - h ≤ 2 * (|q| / 2 ^ 100) := by linarith
    have e3 : |q| ≤ |d| + |q| / 2 ^ 100 := by
      have a1 : |q - d| ≤ |q| / 2 ^ 100 := by
        rw [abs_of_nonneg (by linarith)]
        have := (abs_le.mp he).1
        linarith
      have := abs_sub_abs_le_abs_sub q d
      linarith
    have hq := abs_nonneg q
    have e4 : |d| ≤ 2 ^ 54 * (2 * (|q| / 2 ^ 100)) := le_trans g (by linarith)
    have e5 : |q| ≤ 0 := by
      have : |q| * (1 - 1 / 2 ^ 100 - 2 ^ 55 / 2 ^ 100) ≤ 0 := by linarith
      have c : (0 : ℚ) < 1 - 1 / 2 ^ 100 - 2 ^ 55 / 2 ^ 100 := by norm_num
      nlinarith
    have : |q| = 0 := le_antisymm e5 hq
    rw [this, zero_div] at e1
    linarith

theorem faithful_of {h l q : ℚ} (p : IsPair h l) (he : |h + l - q| ≤ |q| / 2 ^ 100) : Faithful h q := by
  refine ⟨p.hi, fun d fd hd => faithful_below p.near he fd.1 hd, fun d fd hd => ?_, ?_⟩
  · have := faithful_below (h := -h) (v := -(h + l)) (q := -q) (d := -d) (by rw [near_neg, p.near])
      (by rw [abs_neg, neg_sub_neg, abs_sub_comm]; exact he) fd.1.neg (by linarith)
    linarith
  · have h1 := near_add_rel p.hi.1 p.lo.1
    rw [p.near] at h1
    have h2 : |h + l| ≤ |q| + |q| / 2 ^ 100 := by have := abs_sub_abs_le_abs_sub (h + l) q; linarith
    have h3 : |h - q| ≤ |h + l - h| + |h + l - q| := by
      have := abs_sub_le h (h + l) q
      rwa [abs_sub_comm h (h + l)] at this
    have hq := abs_nonneg q
    have : |q| * (1 / 2 ^ 53 + 1 / 2 ^ 99) = |q| / 2 ^ 53 + |q| / 2 ^ 99 := by ring
    rw [this]
    have h4 : |h + l| / 2 ^ 53 ≤ (|q| + |q| / 2 ^ 100) / 2 ^ 53 := div_le_div_of_nonneg_right h2 (by positivity)
    linarith

end Verif.Props
