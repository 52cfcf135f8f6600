import Verif.Props.IntersectorAny
import Verif.Props.Intersection64
import Verif.Props.PrecisionModel64

/-! # C132: crossing points rounded to a precision model -/

namespace Verif.Props
open Flt Verif.Spec Verif.Binary64
variable {sq : ℚ → Val} {hy : ℚ → ℚ → Val}

/-! ## Exact arithmetic -/

/-- The value lies between two others. -/
def Between {K : Type} [LinearOrder K] (v a b : K) : Prop := min a b ≤ v ∧ v ≤ max a b

theorem between_seg {a b t : ℝ} (t0 : 0 ≤ t) (t1 : t ≤ 1) : Between (a + t * (b - a)) a b := by
  unfold Between
  rcases le_total a b with k | k
  · rw [min_eq_left k, max_eq_right k]
    constructor <;> nlinarith [mul_nonneg t0 (sub_nonneg.mpr k), mul_nonneg (sub_nonneg.mpr t1) (sub_nonneg.mpr k)]
  · rw [min_eq_right k, max_eq_left k]
    constructor <;> nlinarith [mul_nonneg t0 (sub_nonneg.mpr k), mul_nonneg (sub_nonneg.mpr t1) (sub_nonneg.mpr k)]

/-- A monotone function that fixes two values keeps what is between them there. -/
theorem between_mono {K : Type} [LinearOrder K] {f : K → K} (hf : ∀ x y, x ≤ y → f x ≤ f y) {v a b : K} (ha : f a = a) (hb : f b = b) (h : Between v a b) : Between (f v) a b := by
  unfold Between at *
  rcases le_total a b with k | k
  · rw [min_eq_left k, max_eq_right k] at *
    exact ⟨ha ▸ hf _ _ h.1, hb ▸ hf _ _ h.2⟩
  · rw [min_eq_right k, max_eq_left k] at *
    exact ⟨hb ▸ hf _ _ h.1, ha ▸ hf _ _ h.2⟩

/-- On a grid of the given cell. -/
def OnCells (g : ℝ) (c : Coord ℝ) : Prop := (∃ k : ℤ, c.x = k * g) ∧ ∃ k : ℤ, c.y = k * g

/-- C132: in exact arithmetic, the point of a proper crossing is moved to the nearest point of the grid; it stays in the boxes of segments with ends on the grid. -/
theorem C132_exact (scale : ℝ) (hs : scale ≠ 0) (s : LI ℝ) (p1 p2 q1 q2 : Coord ℝ)
    (h : ((s.setPrecisionModel (PM.newWithScale scale)).compute4 p1 p2 q1 q2).isProper = true) :
    ∃ c d, (Inside c p1 p2 ∧ Inside c q1 q2) ∧ ((s.setPrecisionModel (PM.newWithScale scale)).compute4 p1 p2 q1 q2).getIntersection 0 = .ok d ∧
      OnCells (cell scale) d ∧ |d.x - c.x| ≤ cell scale / 2 ∧ |d.y - c.y| ≤ cell scale / 2 ∧
      (∀ e, OnCells (cell scale) e → |d.x - c.x| ≤ |e.x - c.x| ∧ |d.y - c.y| ≤ |e.y - c.y|) ∧
      (OnCells (cell scale) p1 → OnCells (cell scale) p2 → Between d.x p1.x p2.x ∧ Between d.y p1.y p2.y) ∧
      (OnCells (cell scale) q1 → OnCells (cell scale) q2 → Between d.x q1.x q2.x ∧ Between d.y q1.y q2.y) := by
  obtain ⟨t, ht⟩ : ∃ t : LI ℝ, t = { s with pm := none } := ⟨_, rfl⟩
  have e0 : s.setPrecisionModel (PM.newWithScale scale) = t.setPrecisionModel (PM.newWithScale scale) := by rw [ht]; rfl
  rw [e0] at h ⊢
  obtain ⟨k1, k2, -, k4⟩ := C86_precision t (PM.newWithScale scale) p1 p2 q1 q2
  have hp := k2 ▸ h
  have hn : t.pm = none := by rw [ht]
  obtain ⟨c, c1, c2, -⟩ := (C38_proper t p1 p2 q1 q2).mp hp
  have r1 := (C86_codes t p1 p2 q1 q2).2.2.2 hp
  obtain ⟨d, hd, hd2⟩ := (C38_points t p1 p2 q1 q2 hn).1 r1
  have sd : (t.compute4 p1 p2 q1 q2).pt0 = d := by
    have : (t.compute4 p1 p2 q1 q2).getIntersection 0 = .ok (t.compute4 p1 p2 q1 q2).pt0 := rfl
    rw [this] at hd
    exact Except.ok.inj hd
  have same := k4 hn hp
  rw [sd, C28_coordinate scale hs] at same
  obtain ⟨ex, ey⟩ := (hd2 c).mp ⟨c1.1, c2.1⟩
  refine ⟨c, _, ⟨c1, c2⟩, rfl, ?_⟩
  rw [← ex, ← ey] at same
  obtain ⟨sx, sy⟩ := same
  dsimp only at sx sy
  have nx := C28_nearest scale hs c.x
  have ny := C28_nearest scale hs c.y
  have mono := fun v w => (C28_laws scale hs v w).1
  have fix := fun v => (C28_laws scale hs v v).2.2.2.mpr
  unfold OnCells
  rw [sx, sy]
  refine ⟨⟨nx.1, ny.1⟩, nx.2.1, ny.2.1, ?_, ?_, ?_⟩
  · rintro e ⟨⟨i, hi⟩, ⟨j, hj⟩⟩
    rw [hi, hj]
    exact ⟨nx.2.2.1 i, ny.2.2.1 j⟩
  · rintro ⟨a1, a2⟩ ⟨b1, b2⟩
    obtain ⟨r, r0, r1, rx, ry⟩ := c1.1
    refine ⟨between_mono mono (fix _ a1) (fix _ b1) ?_, between_mono mono (fix _ a2) (fix _ b2) ?_⟩
    · rw [rx]; exact between_seg r0 r1
    · rw [ry]; exact between_seg r0 r1
  · rintro ⟨a1, a2⟩ ⟨b1, b2⟩
    obtain ⟨r, r0, r1, rx, ry⟩ := c2.1
    refine ⟨between_mono mono (fix _ a1) (fix _ b1) ?_, between_mono mono (fix _ a2) (fix _ b2) ?_⟩
    · rw [rx]; exact between_seg r0 r1
    · rw [ry]; exact between_seg r0 r1

/-! ## Doubles -/

/-- The number of cells after rounding is at most four times the exact number. -/
theorem cells_le (q : ℚ) : |(roundAway (near q) : ℚ)| ≤ 4 * |q| := by
  have e := roundAway_err (near q)
  have t := abs_sub_abs_le_abs_sub (roundAway (near q) : ℚ) (near q)
  by_cases h : |near q| < 1 / 2
  · have k : |(roundAway (near q) : ℚ)| < 1 := by linarith
    have : |roundAway (near q)| < 1 := by exact_mod_cast k
    rw [Int.abs_lt_one_iff.mp this]
    simp
  · have n : (2 : ℚ) ^ (-1022 : ℤ) ≤ |q| := by
      by_contra c
      have := near_le_pow (by norm_num) (not_le.mp c).le
      have h2 : (2 : ℚ) ^ (-1022 : ℤ) ≤ 2 ^ (-2 : ℤ) := two_mono (by norm_num)
      have h3 : (2 : ℚ) ^ (-2 : ℤ) = 1 / 4 := by norm_num
      rw [h3] at h2
      generalize (2 : ℚ) ^ (-1022 : ℤ) = z at *
      linarith
    have r := near_rel q n
    have t2 := abs_sub_abs_le_abs_sub (near q) q
    rw [abs_sub_comm] at r
    have : |q| / 2 ^ 53 ≤ |q| := div_le_self (abs_nonneg q) (by norm_num)
    rw [not_lt] at h
    linarith

theorem small_finite {q : ℚ} {k : ℤ} (hk : -1074 ≤ k) (hk2 : k < 1024) (h : |q| ≤ 2 ^ k) : |near q| < 2 ^ 1024 := by
  refine (near_le_pow hk h).trans_lt ?_
  rw [← zpow_natCast]
  exact two_lt_iff.mpr (by exact_mod_cast hk2)

/-- With a scale, values that are not huge stay finite. -/
theorem finite_scale {s v : ℚ} (hs : 0 < s) (hs2 : s ≤ 2 ^ (800 : ℤ)) (hv : |v| ≤ 2 ^ (200 : ℤ)) :
    ∃ w, (PM.newWithScale (Fl.fin s : B64 sq hy)).makePrecise (Fl.fin v) = Fl.fin w := by
  rw [precise_scale s hs _ rfl]
  have h1 : |v * s| ≤ 2 ^ (1000 : ℤ) := by
    rw [abs_mul, abs_of_pos hs, show (1000 : ℤ) = 200 + 800 by norm_num, two_add]
    exact mul_le_mul hv hs2 hs.le (two_pos _).le
  rw [mul_fin64 rfl (small_finite (by norm_num) (by norm_num) h1)]
  refine ⟨near (roundAway (near (v * s)) / s), ?_⟩
  change (Fl.fin (roundAway (near (v * s)) : ℚ) : B64 sq hy) /. Fl.fin s = _
  refine div_fin64 hs.ne' rfl (small_finite (k := 202) (by norm_num) (by norm_num) ?_)
  have h2 := cells_le (v * s)
  rw [abs_div, abs_of_pos hs, div_le_iff₀ hs]
  rw [abs_mul, abs_of_pos hs] at h2
  refine h2.trans ?_
  rw [← mul_assoc, show (202 : ℤ) = 2 + 200 by norm_num, two_add]
  refine mul_le_mul_of_nonneg_right ?_ hs.le
  have : (2 : ℚ) ^ (2 : ℤ) = 4 := by norm_num
  rw [this]
  exact mul_le_mul_of_nonneg_left hv (by norm_num)

/-- With a grid size, values that are not huge stay finite. -/
theorem finite_grid {g v : ℚ} (hg : 2 ^ (-800 : ℤ) ≤ g) (hv : |v| ≤ 2 ^ (200 : ℤ)) :
    ∃ w, (PM.newWithScale (Fl.fin (-g) : B64 sq hy)).makePrecise (Fl.fin v) = Fl.fin w := by
  have g0 : 0 < g := (two_pos _).trans_le hg
  rw [precise_grid g g0 _ rfl]
  have h1 : |v / g| ≤ 2 ^ (1000 : ℤ) := by
    rw [abs_div, abs_of_pos g0, div_le_iff₀ g0]
    refine hv.trans ?_
    rw [show (200 : ℤ) = 1000 + (-800) by norm_num, two_add]
    exact mul_le_mul_of_nonneg_left hg (two_pos _).le
  rw [div_fin64 g0.ne' rfl (small_finite (by norm_num) (by norm_num) h1)]
  refine ⟨near (roundAway (near (v / g)) * g), ?_⟩
  change (Fl.fin (roundAway (near (v / g)) : ℚ) : B64 sq hy) *. Fl.fin g = _
  refine mul_fin64 rfl (small_finite (k := 202) (by norm_num) (by norm_num) ?_)
  have h2 := cells_le (v / g)
  rw [abs_mul, abs_of_pos g0]
  rw [abs_div, abs_of_pos g0, ← mul_div_assoc, le_div_iff₀ g0] at h2
  refine h2.trans ?_
  rw [show (202 : ℤ) = 2 + 200 by norm_num, two_add]
  have : (2 : ℚ) ^ (2 : ℤ) = 4 := by norm_num
  rw [this]
  exact mul_le_mul_of_nonneg_left hv (by norm_num)

/-- The model keeps both ordinates of the point. -/
def OnModel (m : PM (B64 sq hy)) (c : Coord ℚ) : Prop := m.makePrecise (Fl.fin c.x) = Fl.fin c.x ∧ m.makePrecise (Fl.fin c.y) = Fl.fin c.y

/-- A monotone rounding of doubles keeps a value between kept ones. -/
theorem kept_between {m : PM (B64 sq hy)} (hm : ∀ x y : B64 sq hy, (x ≤. y) = true → (m.makePrecise x ≤. m.makePrecise y) = true) {a b x w : ℚ}
    (ha : m.makePrecise (Fl.fin a) = Fl.fin a) (hb : m.makePrecise (Fl.fin b) = Fl.fin b) (hw : m.makePrecise (Fl.fin x) = Fl.fin w)
    (h : min a b ≤ x ∧ x ≤ max a b) : Between w a b := by
  have step : ∀ {u v u' v' : ℚ}, m.makePrecise (Fl.fin u) = Fl.fin u' → m.makePrecise (Fl.fin v) = Fl.fin v' → u ≤ v → u' ≤ v' := by
    intro u v u' v' h1 h2 h3
    have := hm (Fl.fin u) (Fl.fin v) (decide_eq_true h3)
    rw [h1, h2] at this
    exact of_decide_eq_true this
  unfold Between
  rcases le_total a b with k | k
  · rw [min_eq_left k, max_eq_right k] at *
    exact ⟨step ha hw h.1, step hw hb h.2⟩
  · rw [min_eq_right k, max_eq_left k] at *
    exact ⟨step hb hw h.1, step hw ha h.2⟩

theorem grid32_le {g : ℤ} (h2 : g ≤ 100) {p : Coord ℚ} (h : OnGrid32 g p) : |p.x| ≤ 2 ^ (200 : ℤ) ∧ |p.y| ≤ 2 ^ (200 : ℤ) := by
  obtain ⟨m, n, hm, hn, hx, hy⟩ := h
  have key : ∀ m : ℤ, |m| ≤ 2 ^ 32 → |(m : ℚ) * 2 ^ g| ≤ 2 ^ (200 : ℤ) := by
    intro m hm
    rw [abs_mul, abs_of_pos (two_pos g)]
    have h1 : |(m : ℚ)| ≤ 2 ^ (32 : ℤ) := by exact_mod_cast hm
    calc |(m : ℚ)| * 2 ^ g ≤ 2 ^ (32 : ℤ) * 2 ^ g := mul_le_mul_of_nonneg_right h1 (two_pos g).le
      _ = 2 ^ (32 + g) := (two_add _ _).symm
      _ ≤ 2 ^ (200 : ℤ) := two_mono (by omega)
  rw [hx, hy]
  exact ⟨key m hm, key n hn⟩

theorem between_size {a b x B : ℚ} (ha : |a| ≤ B) (hb : |b| ≤ B) (h : min a b ≤ x ∧ x ≤ max a b) : |x| ≤ B := by
  rw [abs_le] at *
  exact ⟨(le_min ha.1 hb.1).trans h.1, h.2.trans (max_le ha.2 hb.2)⟩

/-- What is common to both forms of a model: every value of moderate size is rounded to a grid point, and the order is kept. -/
structure Snaps (m : PM (B64 sq hy)) (G : ℚ → ℚ → Prop) : Prop where
  fixed : m.modelType = .fixed
  near : ∀ v : ℚ, |v| ≤ 2 ^ (200 : ℤ) → ∃ w, m.makePrecise (Fl.fin v) = Fl.fin w ∧ G v w
  mono : ∀ x y : B64 sq hy, (x ≤. y) = true → (m.makePrecise x ≤. m.makePrecise y) = true

theorem snaps_crossing {m : PM (B64 sq hy)} {G : ℚ → ℚ → Prop} (hm : Snaps m G) (g : ℤ) (h1 : -100 ≤ g) (h2 : g ≤ 100) (s : LI (B64 sq hy)) (p1 p2 q1 q2 : Coord ℚ) (hp1 : OnGrid32 g p1)
    (hp2 : OnGrid32 g p2) (hq1 : OnGrid32 g q1) (hq2 : OnGrid32 g q2)
    (h : ((s.setPrecisionModel m).compute4 (toB64 p1) (toB64 p2) (toB64 q1) (toB64 q2)).isProper = true) :
    ∃ c : Coord ℚ, (Inside c p1 p2 ∧ Inside c q1 q2) ∧
      ∃ x y X Y d, ((s.setPrecisionModel m).compute4 (toB64 p1) (toB64 p2) (toB64 q1) (toB64 q2)).getIntersection 0 = .ok d ∧ d.x = Fl.fin X ∧ d.y = Fl.fin Y ∧
        Faithful x c.x ∧ Faithful y c.y ∧ G x X ∧ G y Y ∧
        (OnModel m p1 → OnModel m p2 → Between X p1.x p2.x ∧ Between Y p1.y p2.y) ∧
        (OnModel m q1 → OnModel m q2 → Between X q1.x q2.x ∧ Between Y q1.y q2.y) := by
  obtain ⟨t, ht⟩ : ∃ t : LI (B64 sq hy), t = { s with pm := none } := ⟨_, rfl⟩
  have e0 : s.setPrecisionModel m = t.setPrecisionModel m := by rw [ht]; rfl
  rw [e0] at h ⊢
  obtain ⟨-, k2, -, k4⟩ := C86_precision t m (toB64 p1) (toB64 p2) (toB64 q1) (toB64 q2)
  have hp := k2 ▸ h
  have hn : t.pm = none := by rw [ht]
  obtain ⟨c, ⟨c1, c2, -⟩, x, y, d, d1, d2, d3, f1, f2, b1, b2, b3, b4⟩ := C85_crossing g h1 h2 t hn p1 p2 q1 q2 hp1 hp2 hq1 hq2 hp
  have sd : (t.compute4 (toB64 p1) (toB64 p2) (toB64 q1) (toB64 q2)).pt0 = d := by
    have e : (t.compute4 (toB64 p1) (toB64 p2) (toB64 q1) (toB64 q2)).getIntersection 0 = .ok (t.compute4 (toB64 p1) (toB64 p2) (toB64 q1) (toB64 q2)).pt0 := rfl
    rw [e] at d1
    exact Except.ok.inj d1
  have same := k4 hn hp
  have md : m.makePreciseCoordinate d = { d with x := m.makePrecise d.x, y := m.makePrecise d.y } := by
    unfold PM.makePreciseCoordinate
    rw [hm.fixed]
    simp
  rw [sd, md, d2, d3] at same
  obtain ⟨X, X1, X2⟩ := hm.near x (between_size (grid32_le h2 hp1).1 (grid32_le h2 hp2).1 b1)
  obtain ⟨Y, Y1, Y2⟩ := hm.near y (between_size (grid32_le h2 hp1).2 (grid32_le h2 hp2).2 b2)
  refine ⟨c, ⟨c1, c2⟩, x, y, X, Y, _, rfl, same.1.trans X1, same.2.trans Y1, f1, f2, X2, Y2, ?_, ?_⟩
  · rintro ⟨k1, k2⟩ ⟨k3, k4⟩
    exact ⟨kept_between hm.mono k1 k3 X1 b1, kept_between hm.mono k2 k4 Y1 b2⟩
  · rintro ⟨k1, k2⟩ ⟨k3, k4⟩
    exact ⟨kept_between hm.mono k1 k3 X1 b3, kept_between hm.mono k2 k4 Y1 b4⟩

theorem scale_fixed (s : B64 sq hy) : (PM.newWithScale s).modelType = .fixed := by
  unfold PM.newWithScale PM.setScale; split_ifs <;> rfl

/-- The double nearest to a grid point at most half a cell (and rounding errors) from the exact value. -/
theorem snapped_err {s x c : ℚ} {k : ℤ} (hf : Faithful x c) (hk : |k - x * s| ≤ 1 / 2 + |x * s| / 2 ^ 53 + 2 ^ (-1075 : ℤ)) :
    |k - c * s| ≤ 1 / 2 + |c * s| / 2 ^ 51 + 2 ^ (-1075 : ℤ) := by
  have h1 : |x * s - c * s| ≤ |c * s| * (1 / 2 ^ 53 + 1 / 2 ^ 99) := by
    rw [← sub_mul, abs_mul, abs_mul c]
    have := mul_le_mul_of_nonneg_right hf.rel (abs_nonneg s)
    linarith
  have t1 := abs_sub_abs_le_abs_sub (x * s) (c * s)
  have t2 := abs_add_le ((k : ℚ) - x * s) (x * s - c * s)
  rw [sub_add_sub_cancel] at t2
  have h0 := abs_nonneg (c * s)
  generalize (2 : ℚ) ^ (-1075 : ℤ) = z at *
  generalize |c * s| = w at *
  generalize |x * s| = w' at *
  norm_num at h1 hk ⊢
  linarith

/-- C132: with a scale, the reported point of a crossing of segments on a grid of 32 bits. -/
theorem C132_scale {m : ℚ} (hm : 0 < m) (hm2 : m ≤ 2 ^ (800 : ℤ)) (g : ℤ) (h1 : -100 ≤ g) (h2 : g ≤ 100) (s : LI (B64 sq hy)) (p1 p2 q1 q2 : Coord ℚ) (hp1 : OnGrid32 g p1)
    (hp2 : OnGrid32 g p2) (hq1 : OnGrid32 g q1) (hq2 : OnGrid32 g q2)
    (h : ((s.setPrecisionModel (PM.newWithScale (Fl.fin m))).compute4 (toB64 p1) (toB64 p2) (toB64 q1) (toB64 q2)).isProper = true) :
    ∃ c : Coord ℚ, (Inside c p1 p2 ∧ Inside c q1 q2) ∧
      ∃ (i j : ℤ) (d : Coord (B64 sq hy)), ((s.setPrecisionModel (PM.newWithScale (Fl.fin m))).compute4 (toB64 p1) (toB64 p2) (toB64 q1) (toB64 q2)).getIntersection 0 = .ok d ∧
        d.x = Fl.fin (near (i / m)) ∧ d.y = Fl.fin (near (j / m)) ∧
        |i - c.x * m| ≤ 1 / 2 + |c.x * m| / 2 ^ 51 + 2 ^ (-1075 : ℤ) ∧ |j - c.y * m| ≤ 1 / 2 + |c.y * m| / 2 ^ 51 + 2 ^ (-1075 : ℤ) ∧
        (OnModel (PM.newWithScale (Fl.fin m : B64 sq hy)) p1 → OnModel (PM.newWithScale (Fl.fin m : B64 sq hy)) p2 → Between (near (i / m)) p1.x p2.x ∧ Between (near (j / m)) p1.y p2.y) ∧
        (OnModel (PM.newWithScale (Fl.fin m : B64 sq hy)) q1 → OnModel (PM.newWithScale (Fl.fin m : B64 sq hy)) q2 → Between (near (i / m)) q1.x q2.x ∧ Between (near (j / m)) q1.y q2.y) := by
  have sn : Snaps (PM.newWithScale (Fl.fin m : B64 sq hy)) (fun v w => ∃ k : ℤ, w = near (k / m) ∧ |k - v * m| ≤ 1 / 2 + |v * m| / 2 ^ 53 + 2 ^ (-1075 : ℤ)) :=
    ⟨scale_fixed _, fun v hv => by
      obtain ⟨w, hw⟩ := finite_scale (sq := sq) (hy := hy) hm hm2 hv
      exact ⟨w, hw, C80_scale_nearest m v hm w hw⟩, fun x y => C80_mono m hm.ne' x y⟩
  obtain ⟨c, c1, x, y, X, Y, d, d1, d2, d3, f1, f2, ⟨i, rfl, i2⟩, ⟨j, rfl, j2⟩, k1, k2⟩ := snaps_crossing sn g h1 h2 s p1 p2 q1 q2 hp1 hp2 hq1 hq2 h
  exact ⟨c, c1, i, j, d, d1, d2, d3, snapped_err f1 i2, snapped_err f2 j2, k1, k2⟩

/-- C132: with a grid size, the reported point of a crossing of segments on a grid of 32 bits. -/
theorem C132_grid {m : ℚ} (hm : 2 ^ (-800 : ℤ) ≤ m) (g : ℤ) (h1 : -100 ≤ g) (h2 : g ≤ 100) (s : LI (B64 sq hy)) (p1 p2 q1 q2 : Coord ℚ) (hp1 : OnGrid32 g p1)
    (hp2 : OnGrid32 g p2) (hq1 : OnGrid32 g q1) (hq2 : OnGrid32 g q2)
    (h : ((s.setPrecisionModel (PM.newWithScale (Fl.fin (-m)))).compute4 (toB64 p1) (toB64 p2) (toB64 q1) (toB64 q2)).isProper = true) :
    ∃ c : Coord ℚ, (Inside c p1 p2 ∧ Inside c q1 q2) ∧
      ∃ (i j : ℤ) (d : Coord (B64 sq hy)), ((s.setPrecisionModel (PM.newWithScale (Fl.fin (-m)))).compute4 (toB64 p1) (toB64 p2) (toB64 q1) (toB64 q2)).getIntersection 0 = .ok d ∧
        d.x = Fl.fin (near (i * m)) ∧ d.y = Fl.fin (near (j * m)) ∧
        |i - c.x / m| ≤ 1 / 2 + |c.x / m| / 2 ^ 51 + 2 ^ (-1075 : ℤ) ∧ |j - c.y / m| ≤ 1 / 2 + |c.y / m| / 2 ^ 51 + 2 ^ (-1075 : ℤ) ∧
        (OnModel (PM.newWithScale (Fl.fin (-m) : B64 sq hy)) p1 → OnModel (PM.newWithScale (Fl.fin (-m) : B64 sq hy)) p2 → Between (near (i * m)) p1.x p2.x ∧ Between (near (j * m)) p1.y p2.y) ∧
        (OnModel (PM.newWithScale (Fl.fin (-m) : B64 sq hy)) q1 → OnModel (PM.newWithScale (Fl.fin (-m) : B64 sq hy)) q2 → Between (near (i * m)) q1.x q2.x ∧ Between (near (j * m)) q1.y q2.y) := by
  have m0 : 0 < m := (two_pos _).trans_le hm
  have sn : Snaps (PM.newWithScale (Fl.fin (-m) : B64 sq hy)) (fun v w => ∃ k : ℤ, w = near (k * m) ∧ |k - v / m| ≤ 1 / 2 + |v / m| / 2 ^ 53 + 2 ^ (-1075 : ℤ)) :=
    ⟨scale_fixed _, fun v hv => by
      obtain ⟨w, hw⟩ := finite_grid (sq := sq) (hy := hy) hm hv
      exact ⟨w, hw, C80_grid_nearest m v m0 w hw⟩, fun x y => C80_mono (-m) (neg_ne_zero.mpr m0.ne') x y⟩
  obtain ⟨c, c1, x, y, X, Y, d, d1, d2, d3, f1, f2, ⟨i, rfl, i2⟩, ⟨j, rfl, j2⟩, k1, k2⟩ := snaps_crossing sn g h1 h2 s p1 p2 q1 q2 hp1 hp2 hq1 hq2 h
  rw [div_eq_mul_inv] at i2 j2
  refine ⟨c, c1, i, j, d, d1, d2, d3, ?_, ?_, k1, k2⟩
  · rw [div_eq_mul_inv]; exact snapped_err f1 i2
  · rw [div_eq_mul_inv]; exact snapped_err f2 j2

/-- C132: for arbitrary doubles, with a scale: the reported point is the grid point next to the one reported without a precision model. -/
theorem C132_any {m : ℚ} (hm : 0 < m) (hm2 : m ≤ 2 ^ (800 : ℤ)) (s : LI (B64 sq hy)) (hn : s.pm = none) (p1 p2 q1 q2 : Coord (B64 sq hy)) {x y : ℚ}
    (h : (s.compute4 p1 p2 q1 q2).isProper = true) (hx : (s.compute4 p1 p2 q1 q2).pt0.x = Fl.fin x) (hy' : (s.compute4 p1 p2 q1 q2).pt0.y = Fl.fin y)
    (bx : |x| ≤ 2 ^ (200 : ℤ)) (by' : |y| ≤ 2 ^ (200 : ℤ)) :
    ∃ (i j : ℤ) (d : Coord (B64 sq hy)), ((s.setPrecisionModel (PM.newWithScale (Fl.fin m))).compute4 p1 p2 q1 q2).getIntersection 0 = .ok d ∧
      d.x = Fl.fin (near (i / m)) ∧ d.y = Fl.fin (near (j / m)) ∧
      |i - x * m| ≤ 1 / 2 + |x * m| / 2 ^ 53 + 2 ^ (-1075 : ℤ) ∧ |j - y * m| ≤ 1 / 2 + |y * m| / 2 ^ 53 + 2 ^ (-1075 : ℤ) := by
  obtain ⟨-, -, -, k4⟩ := C86_precision s (PM.newWithScale (Fl.fin m)) p1 p2 q1 q2
  have same := k4 hn h
  have md : (PM.newWithScale (Fl.fin m : B64 sq hy)).makePreciseCoordinate (s.compute4 p1 p2 q1 q2).pt0 =
      { (s.compute4 p1 p2 q1 q2).pt0 with x := (PM.newWithScale (Fl.fin m)).makePrecise (s.compute4 p1 p2 q1 q2).pt0.x,
                                          y := (PM.newWithScale (Fl.fin m)).makePrecise (s.compute4 p1 p2 q1 q2).pt0.y } := by
    unfold PM.makePreciseCoordinate
    rw [scale_fixed]
    simp
  rw [md] at same
  obtain ⟨sx, sy⟩ := same
  dsimp only at sx sy
  rw [hx] at sx
  rw [hy'] at sy
  obtain ⟨X, X1⟩ := finite_scale (sq := sq) (hy := hy) hm hm2 bx
  obtain ⟨Y, Y1⟩ := finite_scale (sq := sq) (hy := hy) hm hm2 by'
  obtain ⟨i, rfl, i2⟩ := C80_scale_nearest m x hm X X1
  obtain ⟨j, rfl, j2⟩ := C80_scale_nearest m y hm Y Y1
  exact ⟨i, j, _, rfl, sx.trans X1, sy.trans Y1, i2, j2⟩

local notation "pt" => (Coord.xy : ℚ → ℚ → Coord ℚ)

/-- What an intersector with the given scale reports: code, properness, and the first point. -/
def snapReport (scale : ℚ) (p1 p2 q1 q2 : Coord ℚ) : Int × Bool × X64 × X64 :=
  let r := ((LI.default : LI X64).setPrecisionModel (PM.newWithScale (Fl.fin scale))).compute4 (toB64 p1) (toB64 p2) (toB64 q1) (toB64 q2)
  (r.result, r.isProper, r.pt0.x, r.pt0.y)

/-- C132: the limits. The rounded point need not be on the segments, may be an end although the crossing is proper, is outside the boxes of segments with ends off the grid, and a
point where segments touch is not rounded at all. -/
theorem C132_limits :
    (snapReport 1 (pt 0 0) (pt 5 3) (pt 0 4) (pt 5 0) = (1, true, Fl.fin 3, Fl.fin 2) ∧
      det (pt 0 0) (pt 5 3) (pt 3 2) ≠ 0 ∧ det (pt 0 4) (pt 5 0) (pt 3 2) ≠ 0) ∧
    snapReport 1 (pt 0 0) (pt 1 3) (pt 0 1) (pt 4 1) = (1, true, Fl.fin 0, Fl.fin 1) ∧
    snapReport 1 (pt (1 / 4) (1 / 4)) (pt (3 / 8) (3 / 8)) (pt (1 / 4) (3 / 8)) (pt (3 / 8) (1 / 4)) = (1, true, Fl.fin 0, Fl.fin 0) ∧
    snapReport 1 (pt (1 / 4) (1 / 4)) (pt 1 1) (pt (1 / 4) (1 / 4)) (pt 1 0) = (1, false, Fl.fin (1 / 4), Fl.fin (1 / 4)) := by
  refine ⟨⟨by decide +kernel, by decide +kernel, by decide +kernel⟩, by decide +kernel, by decide +kernel, by decide +kernel⟩

/-- Millimetres: all ends are kept. -/
example : (((LI.default : LI X64).setPrecisionModel (PM.newWithScale (Fl.fin 1000))).compute4 (toB64 (pt 0 0)) (toB64 (pt 5 3)) (toB64 (pt 0 4)) (toB64 (pt 5 0))).isProper = true ∧
    OnModel (PM.newWithScale (Fl.fin 1000 : X64)) (pt 5 3) ∧ OnGrid32 0 (pt 5 3) ∧
    snapReport 1000 (pt 0 0) (pt 5 3) (pt 0 4) (pt 5 0) = (1, true, Fl.fin (near (2857 / 1000)), Fl.fin (near (1714 / 1000))) := by
  refine ⟨by decide +kernel, by unfold OnModel; decide +kernel, ⟨5, 3, by norm_num, by norm_num, by simp [Coord.xy], by simp [Coord.xy]⟩, by decide +kernel⟩

/-- A grid of cells of size 10. -/
example : snapReport (-10) (pt 0 0) (pt 50 30) (pt 0 40) (pt 50 0) = (1, true, Fl.fin 30, Fl.fin 20) ∧ (2 : ℚ) ^ (-800 : ℤ) ≤ 10 := by
  refine ⟨by decide +kernel, by decide +kernel⟩

example : (((LI.default : LI ℝ).setPrecisionModel (PM.newWithScale 1)).compute4 (Coord.xy 0 0) (Coord.xy 4 4) (Coord.xy 0 4) (Coord.xy 4 0)).isProper = true := by
  rw [C38_proper]
  refine ⟨Coord.xy 2 2, ⟨⟨1 / 2, by norm_num, by norm_num, by norm_num [Coord.xy], by norm_num [Coord.xy]⟩, by simp [Same, Coord.xy], by simp [Same, Coord.xy]⟩,
    ⟨⟨1 / 2, by norm_num, by norm_num, by norm_num [Coord.xy], by norm_num [Coord.xy]⟩, by simp [Same, Coord.xy], by simp [Same, Coord.xy]⟩, ?_⟩
  rintro c ⟨⟨t, -, -, h1, h2⟩, ⟨u, -, -, h3, h4⟩⟩
  norm_num [Coord.xy] at h1 h2 h3 h4
  exact ⟨by simp only [Coord.xy]; linarith, by simp only [Coord.xy]; linarith⟩

end Verif.Props
