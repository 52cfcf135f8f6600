import Verif.Props.DDExact

/-! # C65: the orientation index of binary64 points on a grid is exact -/

namespace Verif.Props
open Flt Verif.Spec Verif.Binary64

variable {sq : ℚ → Val} {hy : ℚ → ℚ → Val}

/-! ## Sizes -/

theorem near_le_pow {q : ℚ} {k : ℤ} (hk : -1074 ≤ k) (h : |q| ≤ 2 ^ k) : |near q| ≤ 2 ^ k := by
  have hr : Rep (2 ^ k) := ⟨1, k, by norm_num, hk, by simp⟩
  have h1 := near_mono (abs_le.mp h).2
  have h2 := near_mono (abs_le.mp h).1
  rw [near_neg, near_of_rep hr] at h2
  rw [near_of_rep hr] at h1
  exact abs_le.mpr ⟨h2, h1⟩

/-- A finite value of size at most `2^k`. -/
def Bd (k : ℤ) (x : B64 sq hy) : Prop := ∃ q, x = Fl.fin q ∧ |q| ≤ 2 ^ k

theorem Bd.mono {k l : ℤ} {x : B64 sq hy} (h : Bd k x) (hl : k ≤ l) : Bd l x := by
  obtain ⟨q, h1, h2⟩ := h
  exact ⟨q, h1, le_trans h2 (two_mono hl)⟩

theorem bd_round {q : ℚ} {k : ℤ} (h1 : -1074 ≤ k) (h2 : k ≤ 1023) (h : |q| ≤ 2 ^ k) : Bd k (Fl.round q : B64 sq hy) := by
  have h3 := near_le_pow h1 h
  refine ⟨near q, (rnd_fin_iff _ _).mpr ⟨rfl, lt_of_le_of_lt h3 ?_⟩, h3⟩
  rw [← zpow_natCast, two_lt_iff]
  push_cast; omega

theorem Bd.add {k : ℤ} {x y : B64 sq hy} (hx : Bd k x) (hy' : Bd k y) (h1 : -1074 ≤ k) (h2 : k + 1 ≤ 1023) : Bd (k + 1) (x +. y) := by
  obtain ⟨a, rfl, ha⟩ := hx
  obtain ⟨b, rfl, hb⟩ := hy'
  refine bd_round (q := a + b) (by omega) h2 ?_
  rw [two_add, zpow_one]
  linarith [abs_add_le a b]

theorem Bd.neg {k : ℤ} {x : B64 sq hy} (hx : Bd k x) : Bd k (-.x) := by
  obtain ⟨a, rfl, ha⟩ := hx
  exact ⟨-a, rfl, by rwa [abs_neg]⟩

theorem Bd.sub {k : ℤ} {x y : B64 sq hy} (hx : Bd k x) (hy' : Bd k y) (h1 : -1074 ≤ k) (h2 : k + 1 ≤ 1023) : Bd (k + 1) (x -. y) :=
  hx.add hy'.neg h1 h2

theorem Bd.mul {k l : ℤ} {x y : B64 sq hy} (hx : Bd k x) (hy' : Bd l y) (h1 : -1074 ≤ k + l) (h2 : k + l ≤ 1023) : Bd (k + l) (x *. y) := by
  obtain ⟨a, rfl, ha⟩ := hx
  obtain ⟨b, rfl, hb⟩ := hy'
  refine bd_round (q := a * b) (by omega) h2 ?_
  rw [two_add, abs_mul]
  exact mul_le_mul ha hb (abs_nonneg _) (two_pos _).le

theorem Bd.finite {k : ℤ} {x : B64 sq hy} (hx : Bd k x) : isFinite x = true := by
  obtain ⟨a, rfl, ha⟩ := hx; rfl

theorem bd_zero (k : ℤ) : Bd k (lit 0 : B64 sq hy) := ⟨0, lit64, by rw [abs_zero]; exact (two_pos _).le⟩

theorem bd_addF {k : ℤ} {x y : B64 sq hy} (hx : Bd k x) (hy' : Bd k y) (h1 : -1074 ≤ k) (h2 : k + 10 ≤ 1023) :
    Bd (k + 10) ((DD.ofF x).addF y).hi := by
  have ss := hx.add hy' h1 (by omega)
  have e := ss.sub (hx.mono (by omega)) (by omega) (by omega)
  have s := (ss.mono (by omega)).sub e (by omega) (by omega)
  have s' := (((hy'.mono (by omega : k ≤ k + 1 + 1)).sub e (by omega) (by omega)).mono (by omega)).add
    ((hx.mono (by omega : k ≤ k + 1 + 1 + 1)).sub s (by omega) (by omega)) (by omega) (by omega)
  have f := s'.add (bd_zero _) (by omega) (by omega)
  have hh := (ss.mono (by omega)).add f (by omega) (by omega)
  have h := (f.mono (by omega)).add ((ss.mono (by omega)).sub hh (by omega) (by omega)) (by omega) (by omega)
  exact ((hh.mono (by omega)).add h (by omega) (by omega)).mono (by omega)

theorem bd_half {k : ℤ} {x : B64 sq hy} (hx : Bd k x) (h1 : -1000 ≤ k) (h2 : k + 31 ≤ 1023) :
    Bd (k + 30) (half x) ∧ Bd (k + 31) (x -. half x) := by
  have hs : Bd 28 (DD.SPLIT : B64 sq hy) := ⟨134217729, split64, by rw [abs_of_pos (by norm_num)]; norm_num⟩
  have c := hs.mul hx (by omega) (by omega)
  have d := c.sub (hx.mono (by omega)) (by omega) (by omega)
  have h := ((c.mono (by omega)).sub d (by omega) (by omega)).mono (by omega : 28 + k + 1 + 1 ≤ k + 30)
  exact ⟨h, ((hx.mono (by omega)).sub h (by omega) (by omega)).mono (by omega)⟩

theorem bd_errPart {k : ℤ} {x y : B64 sq hy} (hx : Bd k x) (hy' : Bd k y) (h1 : -537 ≤ k) (h2 : 2 * k + 66 ≤ 1023) :
    Bd (2 * k + 66) (errPart x y) := by
  obtain ⟨a1, a2⟩ := bd_half hx (by omega) (by omega)
  obtain ⟨b1, b2⟩ := bd_half hy' (by omega) (by omega)
  have p := hx.mul hy' (by omega) (by omega)
  have q1 := a1.mul b1 (by omega) (by omega)
  have q2 := a1.mul b2 (by omega) (by omega)
  have q3 := a2.mul b1 (by omega) (by omega)
  have q4 := a2.mul b2 (by omega) (by omega)
  have s1 := q1.sub (p.mono (by omega)) (by omega) (by omega)
  have s2 := s1.add (q2.mono (by omega)) (by omega) (by omega)
  have s3 := s2.add (q3.mono (by omega)) (by omega) (by omega)
  have s4 := s3.add (q4.mono (by omega)) (by omega) (by omega)
  exact s4.mono (by omega)

theorem bd_selfMul {k : ℤ} {x y : B64 sq hy} (hx : Bd k x) (hy' : Bd k y) (h1 : -537 ≤ k) (h2 : 2 * k + 70 ≤ 1023) :
    Bd (2 * k + 70) ((DD.ofF x).selfMul (DD.ofF y)).hi := by
  unfold DD.selfMul
  rw [mulHiLo_errPart]
  unfold DD.ofF
  dsimp only
  have e := bd_errPart hx hy' (by omega) (by omega)
  have p := hx.mul hy' (by omega) (by omega)
  have z1 := hx.mul (bd_zero k) (by omega) (by omega)
  have z2 := (bd_zero k).mul hy' (by omega) (by omega)
  have z := z1.add z2 (by omega) (by omega)
  have c := e.add (z.mono (by omega)) (by omega) (by omega)
  exact ((p.mono (by omega)).add c (by omega) (by omega)).mono (by omega)

theorem bd_addHiLo {k : ℤ} {a : DD (B64 sq hy)} {yhi ylo : B64 sq hy} (ah : Bd k a.hi) (al : Bd k a.lo) (bh : Bd k yhi) (bl : Bd k ylo)
    (h1 : -1074 ≤ k) (h2 : k + 12 ≤ 1023) : Bd (k + 12) (a.addHiLo yhi ylo).hi := by
  have ss := ah.add bh h1 (by omega)
  have tt := al.add bl h1 (by omega)
  have e := ss.sub (ah.mono (by omega)) (by omega) (by omega)
  have f := tt.sub (al.mono (by omega)) (by omega) (by omega)
  have s := (ss.mono (by omega)).sub e (by omega) (by omega)
  have t := (tt.mono (by omega)).sub f (by omega) (by omega)
  have s' := (((bh.mono (by omega : k ≤ k + 1 + 1)).sub e (by omega) (by omega)).mono (by omega)).add
    ((ah.mono (by omega : k ≤ k + 1 + 1 + 1)).sub s (by omega) (by omega)) (by omega) (by omega)
  have t' := (((bl.mono (by omega : k ≤ k + 1 + 1)).sub f (by omega) (by omega)).mono (by omega)).add
    ((al.mono (by omega : k ≤ k + 1 + 1 + 1)).sub t (by omega) (by omega)) (by omega) (by omega)
  have e1 := s'.add (tt.mono (by omega)) (by omega) (by omega)
  have hh := (ss.mono (by omega)).add e1 (by omega) (by omega)
  have h := (e1.mono (by omega)).add ((ss.mono (by omega)).sub hh (by omega) (by omega)) (by omega) (by omega)
  have e2 := (t'.mono (by omega)).add h (by omega) (by omega)
  exact ((hh.mono (by omega)).add e2 (by omega) (by omega)).mono (by omega)

/-! ## Points on a grid -/

/-- The ordinates are multiples of `2^g` by integers of at most 52 bits. -/
def OnGrid (g : ℤ) (p : Coord ℚ) : Prop := ∃ m n : ℤ, |m| ≤ 2 ^ 52 ∧ |n| ≤ 2 ^ 52 ∧ p.x = m * 2 ^ g ∧ p.y = n * 2 ^ g

/-- One ordinate on the grid. -/
def Ord (g : ℤ) (x : ℚ) : Prop := Mul2 g x ∧ |x| ≤ 2 ^ (g + 52)

theorem ord_of {g m : ℤ} {x : ℚ} (hm : |m| ≤ 2 ^ 52) (hx : x = m * 2 ^ g) : Ord g x := by
  refine ⟨⟨m, hx⟩, ?_⟩
  rw [hx, abs_mul, abs_of_pos (two_pos g), two_add, mul_comm]
  apply mul_le_mul_of_nonneg_left _ (two_pos g).le
  exact_mod_cast hm

theorem Ord.f64 {g : ℤ} {x : ℚ} (h : Ord g x) (h1 : -1074 ≤ g) (h2 : g ≤ 900) : IsF64 x := by
  refine ⟨rep_mul2 h1 h.1 (le_trans h.2 (two_mono (by omega))), lt_of_le_of_lt h.2 ?_⟩
  rw [← zpow_natCast, two_lt_iff]; push_cast; omega

/-- Differences of ordinates. -/
theorem ord_diff {g : ℤ} {x y : ℚ} (hx : Ord g x) (hy : Ord g y) : Mul2 g (x - y) ∧ |x - y| ≤ 2 ^ (g + 53) := by
  refine ⟨hx.1.sub hy.1, ?_⟩
  have : (2 : ℚ) ^ (g + 53) = 2 ^ (g + 52) * 2 := by rw [show g + 53 = g + 52 + 1 by ring, two_add _ 1, zpow_one]
  have h := abs_sub x y
  rw [this]
  linarith [hx.2, hy.2]

theorem diff_f64 {g : ℤ} {d : ℚ} (h : Mul2 g d ∧ |d| ≤ 2 ^ (g + 53)) (h1 : -1074 ≤ g) (h2 : g ≤ 900) : IsF64 d := by
  refine ⟨rep_mul2 h1 h.1 h.2, lt_of_le_of_lt h.2 ?_⟩
  rw [← zpow_natCast, two_lt_iff]; push_cast; omega

/-- A difference as a pair. -/
theorem diff_pair {g : ℤ} {x y : ℚ} (hx : Ord g x) (hy' : Ord g y) (h1 : -1074 ≤ g) (h2 : g ≤ 900) :
    (DD.ofF (Fl.fin x : B64 sq hy)).addF (-.(Fl.fin y)) = DD.ofF (Fl.fin (x - y)) := by
  have fx := hx.f64 h1 h2
  have fy := hy'.f64 h1 h2
  have fny : IsF64 (-y) := ⟨fy.1.neg, by rw [abs_neg]; exact fy.2⟩
  have bx : Bd (g + 52) (Fl.fin x : B64 sq hy) := ⟨x, rfl, hx.2⟩
  have by' : Bd (g + 52) (Fl.fin y : B64 sq hy) := ⟨y, rfl, hy'.2⟩
  obtain ⟨h, l, e1, e2, e3, -⟩ := C63_sum (sq := sq) (hy := hy) x (-y) fx fny (bd_addF bx by'.neg (by omega) (by omega)).finite
  have fd := diff_f64 (ord_diff hx hy') h1 h2
  rw [← sub_eq_add_neg, rnd_of_f64 fd] at e3
  injection e3 with e3
  rw [← e3, ← sub_eq_add_neg] at e2
  have hl : l = 0 := by linarith
  have : (DD.ofF (Fl.fin x : B64 sq hy)).addF (-.(Fl.fin y)) = (DD.ofF (Fl.fin x : B64 sq hy)).addF (Fl.fin (-y)) := rfl
  rw [this, e1, ← e3, hl]
  unfold DD.ofF
  rw [lit64]

/-- The product of two differences as a pair. -/
theorem prod_pair {g : ℤ} {u v : ℚ} (hu : Mul2 g u ∧ |u| ≤ 2 ^ (g + 53)) (hv : Mul2 g v ∧ |v| ≤ 2 ^ (g + 53)) (h1 : -484 ≤ g) (h2 : g ≤ 400) :
    ∃ h l, (DD.ofF (Fl.fin u : B64 sq hy)).selfMul (DD.ofF (Fl.fin v)) = ⟨Fl.fin h, Fl.fin l⟩ ∧ h + l = u * v ∧ IsPair h l ∧
      |h| ≤ 2 ^ (2 * g + 106) ∧ |l| ≤ 2 ^ (2 * g + 107) := by
  have bu : Bd (g + 53) (Fl.fin u : B64 sq hy) := ⟨u, rfl, hu.2⟩
  have bv : Bd (g + 53) (Fl.fin v : B64 sq hy) := ⟨v, rfl, hv.2⟩
  have fu := diff_f64 hu (by omega) (by omega)
  have fv := diff_f64 hv (by omega) (by omega)
  have nu : NoUnderflow u v := by
    by_cases h0 : u = 0
    · exact Or.inl h0
    by_cases h00 : v = 0
    · exact Or.inr (Or.inl h00)
    refine Or.inr (Or.inr ⟨?_, ?_, ?_⟩)
    · exact le_trans (two_mono (by omega)) (hu.1.le_abs h0)
    · exact le_trans (two_mono (by omega)) (hv.1.le_abs h00)
    · exact le_trans (two_mono (by omega)) ((hu.1.mul hv.1).le_abs (mul_ne_zero h0 h00))
  obtain ⟨h, l, e1, e2, e3, e4⟩ := C63_product (sq := sq) (hy := hy) u v fu fv nu (bd_selfMul bu bv (by omega) (by omega)).finite
  have huv : |u * v| ≤ 2 ^ (2 * g + 106) := by
    rw [show 2 * g + 106 = (g + 53) + (g + 53) by ring, two_add, abs_mul]
    exact mul_le_mul hu.2 hv.2 (abs_nonneg _) (two_pos _).le
  have hh : |h| ≤ 2 ^ (2 * g + 106) := by
    have := (rnd_fin_iff _ _).mp e3
    rw [← this.1]
    exact near_le_pow (by omega) huv
  refine ⟨h, l, e1, e2, ⟨rnd_f64 e3, e4, by rw [e2]; exact e3⟩, hh, ?_⟩
  have : l = u * v - h := by linarith
  rw [this, show 2 * g + 107 = 2 * g + 106 + 1 by ring, two_add _ 1, zpow_one]
  linarith [abs_sub (u * v) h]

/-- The double-double part is exact on a grid. -/
theorem ddIndex_grid {g : ℤ} (h1 : -484 ≤ g) (h2 : g ≤ 400) {p q r : Coord ℚ} (px : Ord g p.x) (py : Ord g p.y) (qx : Ord g q.x) (qy : Ord g q.y)
    (rx : Ord g r.x) (ry : Ord g r.y) :
    CGDD.ddIndex (Fl.fin p.x : B64 sq hy) (Fl.fin p.y) (Fl.fin q.x) (Fl.fin q.y) (Fl.fin r.x) (Fl.fin r.y) = sgn (det p q r) := by
  unfold CGDD.ddIndex
  dsimp only
  rw [diff_pair qx px (by omega) (by omega), diff_pair qy py (by omega) (by omega), diff_pair rx qx (by omega) (by omega), diff_pair ry qy (by omega) (by omega)]
  obtain ⟨a, b, e1, e2, e3, e4, e5⟩ := prod_pair (sq := sq) (hy := hy) (ord_diff qx px) (ord_diff ry qy) h1 h2
  obtain ⟨c, d, f1, f2, f3, f4, f5⟩ := prod_pair (sq := sq) (hy := hy) (ord_diff qy py) (ord_diff rx qx) h1 h2
  rw [e1, f1]
  have hb : Bd (2 * g + 107 + 12) ((⟨Fl.fin a, Fl.fin b⟩ : DD (B64 sq hy)).sub ⟨Fl.fin c, Fl.fin d⟩).hi :=
    bd_addHiLo (k := 2 * g + 107) ⟨a, rfl, le_trans e4 (two_mono (by omega))⟩ ⟨b, rfl, e5⟩
      ⟨-c, rfl, by rw [abs_neg]; exact le_trans f4 (two_mono (by omega))⟩ ⟨-d, rfl, by rw [abs_neg]; exact f5⟩ (by omega) (by omega)
  rw [(C64_difference_sign a b c d e3 f3 hb.finite).2, e2, f2]
  congr 1
  unfold det; ring

theorem safe_grid {g : ℤ} (h1 : -484 ≤ g) (h2 : g ≤ 400) {x x' y y' : ℚ} (hx : Ord g x) (hx' : Ord g x') (hy : Ord g y) (hy' : Ord g y') :
    ∃ w, SafeProduct x x' y y' w := by
  have d1 := ord_diff hx hx'
  have d2 := ord_diff hy hy'
  have huv : |(x - x') * (y - y')| ≤ 2 ^ (2 * g + 106) := by
    rw [show 2 * g + 106 = (g + 53) + (g + 53) by ring, two_add, abs_mul]
    exact mul_le_mul d1.2 d2.2 (abs_nonneg _) (two_pos _).le
  refine ⟨near ((x - x') * (y - y')), x - x', y - y', rnd_of_f64 (diff_f64 d1 (by omega) (by omega)), rnd_of_f64 (diff_f64 d2 (by omega) (by omega)),
    (rnd_fin_iff _ _).mpr ⟨rfl, lt_of_le_of_lt (near_le_pow (by omega) huv) ?_⟩, ?_⟩
  · rw [← zpow_natCast, two_lt_iff]; push_cast; omega
  · by_cases h0 : (x - x') * (y - y') = 0
    · exact Or.inl h0
    · exact Or.inr (le_trans (two_mono (by omega)) ((d1.1.mul d2.1).le_abs h0))

/-- The orientation index of three binary64 points on a common grid is the sign of the exact determinant. -/
theorem C65_index_on_grid (g : ℤ) (h1 : -484 ≤ g) (h2 : g ≤ 400) (p q r : Coord ℚ) (hp : OnGrid g p) (hq : OnGrid g q) (hr : OnGrid g r) :
    Orientation.index (toB64 p : Coord (B64 sq hy)) (toB64 q) (toB64 r) = sgn (det p q r) := by
  obtain ⟨_, _, m1, m2, m3, m4⟩ := hp
  obtain ⟨_, _, n1, n2, n3, n4⟩ := hq
  obtain ⟨_, _, k1, k2, k3, k4⟩ := hr
  have px := ord_of m1 m3
  have py := ord_of m2 m4
  have qx := ord_of n1 n3
  have qy := ord_of n2 n4
  have rx := ord_of k1 k3
  have ry := ord_of k2 k4
  obtain ⟨l, hl⟩ := safe_grid h1 h2 px rx qy ry
  obtain ⟨m, hm⟩ := safe_grid h1 h2 py ry qx rx
  have hd := ddIndex_grid (sq := sq) (hy := hy) h1 h2 px py qx qy rx ry
  have hf := C30_filter_never_lies (sq := sq) (hy := hy) p q r ⟨px.f64 (by omega) (by omega), py.f64 (by omega) (by omega)⟩
    ⟨qx.f64 (by omega) (by omega), qy.f64 (by omega) (by omega)⟩ ⟨rx.f64 (by omega) (by omega), ry.f64 (by omega) (by omega)⟩ hl hm
  have hs : sgn (det p q r) ≤ 1 := by unfold sgn; split_ifs <;> simp
  rcases hf with hf | hf
  · exact (congrArg (fun i => if i ≤ 1 then i else CGDD.ddIndex (Fl.fin p.x : B64 sq hy) (Fl.fin p.y) (Fl.fin q.x) (Fl.fin q.y) (Fl.fin r.x) (Fl.fin r.y)) hf).trans
      (if_pos hs)
  · refine (congrArg (fun i => if i ≤ 1 then i else CGDD.ddIndex (Fl.fin p.x : B64 sq hy) (Fl.fin p.y) (Fl.fin q.x) (Fl.fin q.y) (Fl.fin r.x) (Fl.fin r.y)) hf).trans ?_
    exact (if_neg (by norm_num)).trans hd

/-- In particular for integer coordinates up to `2^52`. -/
theorem C65_index_integers (p q r : Coord ℚ) (h : ∀ c ∈ [p, q, r], ∃ m n : ℤ, |m| ≤ 2 ^ 52 ∧ |n| ≤ 2 ^ 52 ∧ c.x = m ∧ c.y = n) :
    Orientation.index (toB64 p : Coord (B64 sq hy)) (toB64 q) (toB64 r) = sgn (det p q r) := by
  have hg : ∀ c ∈ [p, q, r], OnGrid 0 c := by
    intro c hc
    obtain ⟨m, n, h1, h2, h3, h4⟩ := h c hc
    exact ⟨m, n, h1, h2, by rw [h3]; simp, by rw [h4]; simp⟩
  exact C65_index_on_grid 0 (by norm_num) (by norm_num) p q r (hg p (by simp)) (hg q (by simp)) (hg r (by simp))

/-! Examples: an almost flat triangle on the integer grid, for which the fast filter gives up. -/

example : OnGrid 0 (Coord.xy 4503599627370495 4503599627370494) := ⟨4503599627370495, 4503599627370494, by norm_num, by norm_num, by simp [Coord.xy], by simp [Coord.xy]⟩

example : Orientation.index (toB64 (Coord.xy 0 0) : Coord X64) (toB64 (Coord.xy 4503599627370495 4503599627370494))
    (toB64 (Coord.xy 4503599627370494 4503599627370493)) = -1 := by decide +kernel

end Verif.Props
