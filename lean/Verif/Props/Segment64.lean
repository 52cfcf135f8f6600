import Verif.Props.Distance64
import Verif.Model.LineSegment

/-! # C92: positions along segments in binary64 -/

set_option linter.unusedSectionVars false

namespace Verif.Props
open Flt Verif.Spec Verif.Binary64
variable {sq : ℚ → Val} {hy : ℚ → ℚ → Val}

local notation "R" => (Fl.round (r := binary64 sq hy))

theorem one64 : (lit 1 : B64 sq hy) = Fl.fin 1 := rnd_of_f64 (f64_of (by decide +kernel))

/-! ## All inputs -/

/-- C92: the fraction along a segment is a number between 0 and 1 for all inputs, NaN and infinities included. -/
theorem C92_fraction (s : LineSeg (B64 sq hy)) (p : Coord (B64 sq hy)) : ∃ v : ℚ, s.segmentFraction p = Fl.fin v ∧ 0 ≤ v ∧ v ≤ 1 := by
  unfold LineSeg.segmentFraction
  dsimp only
  generalize s.projectionFactor p = f
  rw [lit64, one64]
  cases f with
  | nan => exact ⟨1, rfl, by norm_num, le_rfl⟩
  | ninf => exact ⟨0, rfl, le_rfl, by norm_num⟩
  | pinf => exact ⟨1, rfl, by norm_num, le_rfl⟩
  | fin q =>
    by_cases h : q < 0
    · exact ⟨0, if_pos (decide_eq_true h), le_rfl, by norm_num⟩
    · refine ⟨if 1 < q then 1 else q, ?_, ?_, ?_⟩
      · refine (if_neg (by show ¬ decide (q < 0) = true; simpa using h)).trans ?_
        by_cases k : 1 < q
        · rw [if_pos k]
          exact if_pos (by show (decide (1 < q) || false) = true; simpa using k)
        · rw [if_neg k]
          exact if_neg (by show ¬ (decide (1 < q) || false) = true; simpa using k)
      · split_ifs <;> linarith
      · split_ifs <;> linarith

/-- One ordinate of a point along a segment. -/
def along1 (a b f : B64 sq hy) : B64 sq hy := a +. f *. (b -. a)

theorem along1_inv {a b f u : ℚ} (h : along1 (Fl.fin a : B64 sq hy) (Fl.fin b) (Fl.fin f) = Fl.fin u) :
    u = near (a + near (f * near (b - a))) := by
  unfold along1 at h
  obtain ⟨a', m, e1, e2, e3, -⟩ := add64 h
  obtain ⟨f', d, e4, e5, e6, -⟩ := mul64 e2
  obtain ⟨b', a'', e7, e8, e9, -⟩ := sub64 e5
  rw [← fin_inj e1] at e3
  rw [← fin_inj e4] at e6
  rw [← fin_inj e7, ← fin_inj e8] at e9
  rw [e9, e6, e3]

/-- C92: without overflow, a point further along a segment is never further back in any ordinate, and the point at 0 is the start. -/
theorem C92_monotone (a b : Coord ℚ) (f f' : ℚ) (hf : f ≤ f') (u v u' v' : ℚ)
    (h : (⟨toB64 a, toB64 b⟩ : LineSeg (B64 sq hy)).pointAlong (Fl.fin f) = Coord.xy (Fl.fin u) (Fl.fin v))
    (h' : (⟨toB64 a, toB64 b⟩ : LineSeg (B64 sq hy)).pointAlong (Fl.fin f') = Coord.xy (Fl.fin u') (Fl.fin v')) :
    (a.x ≤ b.x → u ≤ u') ∧ (b.x ≤ a.x → u' ≤ u) ∧ (a.y ≤ b.y → v ≤ v') ∧ (b.y ≤ a.y → v' ≤ v) ∧
      (IsF64 a.x → f = 0 → u = a.x) ∧ (IsF64 a.y → f = 0 → v = a.y) := by
  have e1 := along1_inv (congrArg Coord.x h)
  have e2 := along1_inv (congrArg Coord.y h)
  have e3 := along1_inv (congrArg Coord.x h')
  have e4 := along1_inv (congrArg Coord.y h')
  have key : ∀ {x y w w' : ℚ}, w = near (x + near (f * near (y - x))) → w' = near (x + near (f' * near (y - x))) →
      (x ≤ y → w ≤ w') ∧ (y ≤ x → w' ≤ w) ∧ (IsF64 x → f = 0 → w = x) := by
    rintro x y w w' rfl rfl
    refine ⟨fun hxy => ?_, fun hxy => ?_, fun hx h0 => ?_⟩
    · apply near_mono
      have : 0 ≤ near (y - x) := near_nonneg (by linarith)
      have := near_mono (mul_le_mul_of_nonneg_right hf this)
      linarith
    · apply near_mono
      have : near (y - x) ≤ 0 := near_nonpos (by linarith)
      have := near_mono (mul_le_mul_of_nonpos_right hf this)
      linarith
    · rw [h0, zero_mul, near_zero, add_zero, near_of_rep hx.1]
  have k1 := key e1 e3
  have k2 := key e2 e4
  exact ⟨k1.1, k1.2.1, k2.1, k2.2.1, k1.2.2, k2.2.2⟩

/-- C92: the point at 1 need not be the end: from (1, 0) to (2^-60, 0) the point at 1 is the origin, outside the box of the segment. From
-2^1023 to 2^1023 the point at 0 is not a number, though both ends are doubles. -/
theorem C92_end_missed :
    (⟨toB64 ⟨1, 0, 0, 0⟩, toB64 ⟨2 ^ (-60 : ℤ), 0, 0, 0⟩⟩ : LineSeg (B64 sq hy)).pointAlong (lit 1) = Coord.xy (Fl.fin 0) (Fl.fin 0) ∧
    IsF64 1 ∧ IsF64 (2 ^ (-60 : ℤ)) ∧
    ((⟨toB64 ⟨-2 ^ 1023, 0, 0, 0⟩, toB64 ⟨2 ^ 1023, 0, 0, 0⟩⟩ : LineSeg (B64 sq hy)).pointAlong (lit 0)).x = nan ∧ IsF64 (2 ^ 1023) ∧ IsF64 (-2 ^ 1023) := by
  have s1 : ((Fl.fin (2 ^ (-60 : ℤ)) : B64 sq hy) -. Fl.fin 1) = Fl.fin (-1) := (by decide +kernel : rnd (2 ^ (-60 : ℤ) + -1) = Val.fin (-1))
  have s0 : ((Fl.fin 0 : B64 sq hy) -. Fl.fin 0) = Fl.fin 0 := (by decide +kernel : rnd (0 + -0) = Val.fin 0)
  have m1 : ((Fl.fin 1 : B64 sq hy) *. Fl.fin (-1)) = Fl.fin (-1) := (by decide +kernel : rnd (1 * -1) = Val.fin (-1))
  have m0 : ((Fl.fin 1 : B64 sq hy) *. Fl.fin 0) = Fl.fin 0 := (by decide +kernel : rnd (1 * 0) = Val.fin 0)
  have a1 : ((Fl.fin 1 : B64 sq hy) +. Fl.fin (-1)) = Fl.fin 0 := (by decide +kernel : rnd (1 + -1) = Val.fin 0)
  have a0 : ((Fl.fin 0 : B64 sq hy) +. Fl.fin 0) = Fl.fin 0 := (by decide +kernel : rnd (0 + 0) = Val.fin 0)
  have d : ((Fl.fin (2 ^ 1023) : B64 sq hy) -. Fl.fin (-2 ^ 1023)) = Fl.pinf := (by decide +kernel : rnd (2 ^ 1023 + -(-2 ^ 1023)) = Val.pinf)
  refine ⟨?_, f64_of (by decide +kernel), f64_of (by decide +kernel), ?_, f64_of (by decide +kernel), f64_of (by decide +kernel)⟩
  · unfold LineSeg.pointAlong
    simp only [show ∀ c : Coord ℚ, (toB64 c : Coord (B64 sq hy)).x = Fl.fin c.x from fun _ => rfl,
      show ∀ c : Coord ℚ, (toB64 c : Coord (B64 sq hy)).y = Fl.fin c.y from fun _ => rfl]
    rw [one64, s1, s0, m1, m0, a1, a0]
    rfl
  · unfold LineSeg.pointAlong
    simp only [show ∀ c : Coord ℚ, (toB64 c : Coord (B64 sq hy)).x = Fl.fin c.x from fun _ => rfl]
    rw [d, lit64]
    rfl

/-! ## Grids -/

/-- One ordinate of a point along a segment of the grid: between the ends, exact at the ends, and accurate. -/
theorem along_grid {k : ℕ} {g : ℤ} (hk : k ≤ 52) (h1 : -1022 ≤ g) (h2 : g ≤ 900) {a b f : ℚ} (ha : OrdB k g a) (hb : OrdB k g b) (f0 : 0 ≤ f) (f1 : f ≤ 1) :
    ∃ u, along1 (Fl.fin a : B64 sq hy) (Fl.fin b) (Fl.fin f) = Fl.fin u ∧ min a b ≤ u ∧ u ≤ max a b ∧ (f = 0 → u = a) ∧ (f = 1 → u = b) ∧
      |u - (a + f * (b - a))| ≤ 2 ^ ((k : ℤ) + g - 51) := by
  have fa := ordB_f64 ha (by omega) (by omega) h2
  have fb := ordB_f64 hb (by omega) (by omega) h2
  have od := hb.sub ha
  have fd := ordB_f64 od (by omega) (by omega) h2
  have md := (ord_abs od).1
  have ma := (ord_abs ha).1
  have mb := (ord_abs hb).1
  have big : ∀ {x : ℚ}, |x| ≤ 2 ^ (((k + 1 : ℕ) : ℤ) + g) → |x| < 2 ^ 1024 := by
    intro x hx
    refine lt_of_le_of_lt hx ?_
    rw [← zpow_natCast]
    exact two_lt_iff.mpr (by push_cast; omega)
  have dd : near (b - a) = b - a := near_of_rep fd.1
  have hd : (Fl.fin b : B64 sq hy) -. Fl.fin a = Fl.fin (b - a) := sub_fin fd
  -- the product
  have m1 : min 0 (b - a) ≤ near (f * (b - a)) ∧ near (f * (b - a)) ≤ max 0 (b - a) := by
    rcases le_total 0 (b - a) with h | h
    · rw [min_eq_left h, max_eq_right h]
      refine ⟨near_nonneg (mul_nonneg f0 h), ?_⟩
      have := near_mono (show f * (b - a) ≤ b - a by nlinarith)
      rwa [dd] at this
    · rw [min_eq_right h, max_eq_left h]
      refine ⟨?_, near_nonpos (by nlinarith)⟩
      have := near_mono (show b - a ≤ f * (b - a) by nlinarith)
      rwa [dd] at this
  have m2 : |near (f * (b - a))| ≤ |b - a| := by
    rcases le_total 0 (b - a) with h | h
    · rw [min_eq_left h, max_eq_right h] at m1
      rw [abs_of_nonneg h, abs_of_nonneg m1.1]; exact m1.2
    · rw [min_eq_right h, max_eq_left h] at m1
      rw [abs_of_nonpos h, abs_of_nonpos m1.2]; linarith [m1.1]
  have hm : (Fl.fin f : B64 sq hy) *. Fl.fin (b - a) = Fl.fin (near (f * (b - a))) :=
    (rnd_fin_iff _ _).mpr ⟨rfl, big (m2.trans md)⟩
  have m3 := near_err_abs (f * (b - a))
  have m4 := near_rep (f * (b - a))
  have m5 : (f = 0 → near (f * (b - a)) = 0) ∧ (f = 1 → near (f * (b - a)) = b - a) := by
    constructor
    · rintro rfl; rw [zero_mul, near_zero]
    · rintro rfl; rw [one_mul, dd]
  generalize near (f * (b - a)) = m at *
  -- the sum
  have s1 : min a b ≤ a + m ∧ a + m ≤ max a b := by
    rcases le_total 0 (b - a) with h | h
    · rw [min_eq_left h, max_eq_right h] at m1
      rw [min_eq_left (by linarith), max_eq_right (by linarith)]
      constructor <;> linarith [m1.1, m1.2]
    · rw [min_eq_right h, max_eq_left h] at m1
      rw [min_eq_right (by linarith), max_eq_left (by linarith)]
      constructor <;> linarith [m1.1, m1.2]
  have rmin : near (min a b) = min a b := by
    rcases min_choice a b with h | h <;> rw [h]
    · exact near_of_rep fa.1
    · exact near_of_rep fb.1
  have rmax : near (max a b) = max a b := by
    rcases max_choice a b with h | h <;> rw [h]
    · exact near_of_rep fa.1
    · exact near_of_rep fb.1
  have n1 := near_mono s1.1
  have n2 := near_mono s1.2
  rw [rmin] at n1
  rw [rmax] at n2
  have between : ∀ {x : ℚ}, min a b ≤ x → x ≤ max a b → |x| ≤ 2 ^ ((k : ℤ) + g) := by
    intro x l r
    rw [abs_le] at ma mb ⊢
    constructor
    · exact le_trans (le_min ma.1 mb.1) l
    · exact le_trans r (max_le ma.2 mb.2)
  have hs : (Fl.fin a : B64 sq hy) +. Fl.fin m = Fl.fin (near (a + m)) :=
    (rnd_fin_iff _ _).mpr ⟨rfl, big ((between n1 n2).trans (two_mono (by push_cast; omega)))⟩
  refine ⟨near (a + m), ?_, n1, n2, ?_, ?_, ?_⟩
  · unfold along1; rw [hd, hm, hs]
  · intro h; rw [m5.1 h, add_zero, near_of_rep fa.1]
  · intro h; rw [m5.2 h, add_sub_cancel, near_of_rep fb.1]
  · have t1 := near_add_rel fa.1 m4
    have t2 := between s1.1 s1.2
    have t3 : |f * (b - a)| ≤ 2 ^ (((k + 1 : ℕ) : ℤ) + g) := by
      rw [abs_mul, abs_of_nonneg f0]
      have := abs_nonneg (b - a)
      nlinarith
    have e1 : (2 : ℚ) ^ (((k + 1 : ℕ) : ℤ) + g) = 2 * 2 ^ ((k : ℤ) + g) := by
      push_cast
      rw [show (k : ℤ) + 1 + g = 1 + (k + g) by ring, two_add]; norm_num
    have e2 : (2 : ℚ) ^ ((k : ℤ) + g - 51) = 2 ^ ((k : ℤ) + g) / 2 ^ 51 := by
      rw [zpow_sub₀ (by norm_num)]; rfl
    have e3 : (2 : ℚ) ^ (-1075 : ℤ) ≤ 2 ^ ((k : ℤ) + g) / 2 ^ 53 := by
      rw [show (2 : ℚ) ^ ((k : ℤ) + g) / 2 ^ 53 = 2 ^ ((k : ℤ) + g - 53) by rw [zpow_sub₀ (by norm_num)]; rfl]
      exact two_mono (by omega)
    rw [e1] at t3
    rw [e2]
    generalize (2 : ℚ) ^ ((k : ℤ) + g) = T at *
    have t4 : |near (a + m) - (a + f * (b - a))| ≤ |a + m - near (a + m)| + |f * (b - a) - m| := by
      rw [abs_sub_comm (a + m), abs_sub_comm _ m]
      have := abs_add_le (near (a + m) - (a + m)) (m - f * (b - a))
      rwa [show near (a + m) - (a + m) + (m - f * (b - a)) = near (a + m) - (a + f * (b - a)) by ring] at this
    have t5 : |a + m| / 2 ^ 53 ≤ T / 2 ^ 53 := div_le_div_of_nonneg_right t2 (by norm_num)
    have t6 : |f * (b - a)| / 2 ^ 53 ≤ 2 * T / 2 ^ 53 := div_le_div_of_nonneg_right t3 (by norm_num)
    have : T / 2 ^ 51 = 4 * (T / 2 ^ 53) := by ring
    have : 2 * T / 2 ^ 53 = 2 * (T / 2 ^ 53) := by ring
    linarith

theorem onGridB_ord {k : ℕ} {g : ℤ} {c : Coord ℚ} (h : OnGridB k g c) : OrdB k g c.x ∧ OrdB k g c.y := by
  obtain ⟨m, n, hm, hn, hx, hy'⟩ := h
  exact ⟨⟨m, hm, hx⟩, ⟨n, hn, hy'⟩⟩

/-- C92: on a grid of `k ≤ 52` bits, points at a fraction between 0 and 1 are in the box of the segment, at 0 and 1 they are the ends, and
they are accurate to 2^-51 of the size of the grid. -/
theorem C92_along_grid {k : ℕ} (hk : k ≤ 52) {g : ℤ} (h1 : -1022 ≤ g) (h2 : g ≤ 900) {a b : Coord ℚ} (ha : OnGridB k g a) (hb : OnGridB k g b)
    {f : ℚ} (f0 : 0 ≤ f) (f1 : f ≤ 1) :
    ∃ u v, (⟨toB64 a, toB64 b⟩ : LineSeg (B64 sq hy)).pointAlong (Fl.fin f) = Coord.xy (Fl.fin u) (Fl.fin v) ∧
      (min a.x b.x ≤ u ∧ u ≤ max a.x b.x ∧ min a.y b.y ≤ v ∧ v ≤ max a.y b.y) ∧
      (f = 0 → u = a.x ∧ v = a.y) ∧ (f = 1 → u = b.x ∧ v = b.y) ∧
      |u - (a.x + f * (b.x - a.x))| ≤ 2 ^ (k + g - 51) ∧ |v - (a.y + f * (b.y - a.y))| ≤ 2 ^ (k + g - 51) := by
  obtain ⟨ax, ay⟩ := onGridB_ord ha
  obtain ⟨bx, by'⟩ := onGridB_ord hb
  obtain ⟨u, u1, u2, u3, u4, u5, u6⟩ := along_grid (sq := sq) (hy := hy) hk h1 h2 ax bx f0 f1
  obtain ⟨v, v1, v2, v3, v4, v5, v6⟩ := along_grid (sq := sq) (hy := hy) hk h1 h2 ay by' f0 f1
  refine ⟨u, v, ?_, ⟨u2, u3, v2, v3⟩, fun h => ⟨u4 h, v4 h⟩, fun h => ⟨u5 h, v5 h⟩, u6, v6⟩
  rw [← u1, ← v1]
  rfl

theorem toB64_equals (x y : Coord ℚ) : (toB64 x : Coord (B64 sq hy)).equals2D (toB64 y) = decide (x.x = y.x ∧ x.y = y.y) := by
  unfold Coord.equals2D
  show (if (!decide (x.x = y.x)) = true then false else if (!decide (x.y = y.y)) = true then false else true) = _
  by_cases h : x.x = y.x <;> by_cases k : x.y = y.y <;> simp [h, k]

/-- C92: on a grid of 24 bits the projection factor of a point is the exact quotient, rounded, on the exact side of 0 and 1; it is NaN only
for a segment of one point. -/
theorem C92_factor {g : ℤ} (h1 : -484 ≤ g) (h2 : g ≤ 400) {p a b : Coord ℚ} (hp : OnGridB 24 g p) (ha : OnGridB 24 g a) (hb : OnGridB 24 g b)
    (hab : ¬ (a.x = b.x ∧ a.y = b.y)) :
    ∃ f, (⟨toB64 a, toB64 b⟩ : LineSeg (B64 sq hy)).projectionFactor (toB64 p) = Fl.fin f ∧
      (let t := ((p.x - a.x) * (b.x - a.x) + (p.y - a.y) * (b.y - a.y)) / ((b.x - a.x) ^ 2 + (b.y - a.y) ^ 2)
      |f - t| ≤ |t| / 2 ^ 53 ∧ (f ≤ 0 ↔ t ≤ 0) ∧ (f < 0 ↔ t < 0) ∧ (1 ≤ f ↔ 1 ≤ t) ∧ (1 < f ↔ 1 < t)) := by
  obtain ⟨px, py⟩ := onGridB_ord hp
  obtain ⟨ax, ay⟩ := onGridB_ord ha
  obtain ⟨bx, by'⟩ := onGridB_ord hb
  have oL := (ord_sum bx ax bx ax by' ay by' ay).1
  have oN := (ord_sum px ax bx ax py ay by' ay).1
  have fL := (sum_fin (sq := sq) (hy := hy) h1 h2 bx ax bx ax by' ay by' ay).1
  have fN := (sum_fin (sq := sq) (hy := hy) h1 h2 px ax bx ax py ay by' ay).1
  have L0 : 0 < (b.x - a.x) * (b.x - a.x) + (b.y - a.y) * (b.y - a.y) := by
    rcases eq_or_ne a.x b.x with h | h
    · have : b.y - a.y ≠ 0 := fun k => hab ⟨h, by linarith⟩
      nlinarith [mul_self_pos.mpr this, mul_self_nonneg (b.x - a.x)]
    · have : b.x - a.x ≠ 0 := fun k => h (by linarith)
      nlinarith [mul_self_pos.mpr this, mul_self_nonneg (b.y - a.y)]
  rw [show (b.x - a.x) ^ 2 + (b.y - a.y) ^ 2 = (b.x - a.x) * (b.x - a.x) + (b.y - a.y) * (b.y - a.y) by ring]
  unfold LineSeg.projectionFactor
  dsimp only
  simp only [toB64_equals, decide_eq_true_eq]
  by_cases c1 : p.x = a.x ∧ p.y = a.y
  · rw [if_pos c1]
    refine ⟨0, lit64, ?_⟩
    rw [c1.1, c1.2]
    simp
  by_cases c2 : p.x = b.x ∧ p.y = b.y
  · rw [if_neg c1, if_pos c2]
    refine ⟨1, one64, ?_⟩
    rw [c2.1, c2.2, div_self L0.ne']
    simp
  · rw [if_neg c1, if_neg c2]
    simp only [show ∀ c : Coord ℚ, (toB64 c : Coord (B64 sq hy)).x = Fl.fin c.x from fun _ => rfl,
      show ∀ c : Coord ℚ, (toB64 c : Coord (B64 sq hy)).y = Fl.fin c.y from fun _ => rfl]
    rw [fL, fN, lit64]
    obtain ⟨e, e1, -, -, e2, e3, e4, e5⟩ := ratio64 (sq := sq) (hy := hy) oN oL L0.ne'
    refine ⟨_, (if_neg ?_).trans e, e1, e2, e3, e4, e5⟩
    show ¬ decide (_ ≤ (0 : ℚ)) = true
    simpa using L0

/-- A nearest point of a segment. -/
def Nearest (p q a b : Coord ℝ) : Prop := OnSegment q a b ∧ ∀ c, OnSegment c a b → dist p q ≤ dist p c

/-- The nearest point of a segment that is not a point: the fraction along, clamped. -/
theorem nearest_param {p q a b : Coord ℝ} (h : Nearest p q a b) (hab : ¬ (a.x = b.x ∧ a.y = b.y)) :
    let n := (p.x - a.x) * (b.x - a.x) + (p.y - a.y) * (b.y - a.y)
    let L := (b.x - a.x) ^ 2 + (b.y - a.y) ^ 2
    (n ≤ 0 → q.x = a.x ∧ q.y = a.y) ∧ (L ≤ n → q.x = b.x ∧ q.y = b.y) ∧
    (0 < n → n < L → q.x = a.x + n / L * (b.x - a.x) ∧ q.y = a.y + n / L * (b.y - a.y)) := by
  intro n L
  obtain ⟨⟨t, t0, t1, tx, ty⟩, hq⟩ := h
  have L0 : 0 < L := by
    rcases eq_or_ne a.x b.x with h | h
    · have : b.y - a.y ≠ 0 := fun k => hab ⟨h, by linarith⟩
      have := pow_pos (abs_pos.mpr this) 2
      rw [sq_abs] at this
      have := sq_nonneg (b.x - a.x)
      show 0 < (b.x - a.x) ^ 2 + (b.y - a.y) ^ 2
      linarith
    · have : b.x - a.x ≠ 0 := fun k => h (by linarith)
      have := pow_pos (abs_pos.mpr this) 2
      rw [sq_abs] at this
      have := sq_nonneg (b.y - a.y)
      show 0 < (b.x - a.x) ^ 2 + (b.y - a.y) ^ 2
      linarith
  have key : ∀ u, 0 ≤ u → u ≤ 1 → t ^ 2 * L - 2 * t * n ≤ u ^ 2 * L - 2 * u * n := by
    intro u u0 u1
    have := hq ⟨a.x + u * (b.x - a.x), a.y + u * (b.y - a.y), 0, 0⟩ ⟨u, u0, u1, rfl, rfl⟩
    rw [dist_le_iff, tx, ty] at this
    dsimp only at this
    show t ^ 2 * ((b.x - a.x) ^ 2 + (b.y - a.y) ^ 2) - 2 * t * ((p.x - a.x) * (b.x - a.x) + (p.y - a.y) * (b.y - a.y)) ≤
      u ^ 2 * ((b.x - a.x) ^ 2 + (b.y - a.y) ^ 2) - 2 * u * ((p.x - a.x) * (b.x - a.x) + (p.y - a.y) * (b.y - a.y))
    linarith
  clear_value n L
  refine ⟨fun hn => ?_, fun hn => ?_, fun hn hn' => ?_⟩
  · have := key 0 le_rfl zero_le_one
    have t2 : t = 0 := by
      by_contra hc
      have : 0 < t := lt_of_le_of_ne t0 (Ne.symm hc)
      nlinarith [mul_pos (mul_pos this this) L0, mul_nonneg this.le (neg_nonneg.mpr hn)]
    rw [tx, ty, t2]; simp
  · have := key 1 zero_le_one le_rfl
    have t2 : t = 1 := by
      by_contra hc
      have h1 : 0 < 1 - t := by
        have := lt_of_le_of_ne t1 hc
        linarith
      nlinarith [mul_pos (mul_pos h1 h1) L0, mul_nonneg h1.le (sub_nonneg.mpr hn)]
    rw [tx, ty, t2]; simp
  · have := key (n / L) (by positivity) (by rw [div_le_one L0]; exact hn'.le)
    have e : (n / L) ^ 2 * L - 2 * (n / L) * n = -(n / L) * n := by field_simp; ring
    rw [e] at this
    have t2 : t = n / L := by
      have h3 : L * (t - n / L) ^ 2 ≤ 0 := by
        have : L * (t - n / L) ^ 2 = t ^ 2 * L - 2 * t * n + n / L * n := by field_simp; ring
        linarith
      have h4 : (t - n / L) ^ 2 ≤ 0 := by
        by_contra hc
        push Not at hc
        have := mul_pos L0 hc
        linarith
      have := pow_eq_zero_iff (n := 2) (by norm_num) |>.mp (le_antisymm h4 (sq_nonneg _))
      linarith
    rw [tx, ty, t2]
    exact ⟨rfl, rfl⟩

/-- Rounded distances tell the ends apart if their squares differ by the square of a grid cell. -/
theorem far_end {g : ℤ} {ε D E x y : ℝ} (h0 : 0 ≤ ε) (hε : ε ≤ 1 / 2 ^ 52) (D0 : 0 ≤ D) (E0 : 0 ≤ E) (hD : D ^ 2 ≤ 2 ^ 47 * (2 ^ g) ^ 2)
    (hE : D ^ 2 + (2 ^ g) ^ 2 ≤ E ^ 2) (hx : |x - D| ≤ distErr ε * D) (hy : |y - E| ≤ distErr ε * E) : x < y := by
  have e1 : distErr ε ≤ 3 / 2 ^ 52 := by
    unfold distErr
    have : (1 + ε) * (1 + 1 / 2 ^ 53) ^ 2 ≤ (1 + 1 / 2 ^ 52) * (1 + 1 / 2 ^ 53) ^ 2 := mul_le_mul_of_nonneg_right (by linarith) (by positivity)
    have : (1 + (1 : ℝ) / 2 ^ 52) * (1 + 1 / 2 ^ 53) ^ 2 - 1 ≤ 3 / 2 ^ 52 := by norm_num
    linarith
  have e0 : 0 ≤ distErr ε := h0.trans (distErr_bounds h0 (hε.trans (by norm_num))).1
  generalize distErr ε = e at *
  have hx := (abs_le.mp hx).2
  have hy := (abs_le.mp hy).1
  have G0 : 0 < ((2 : ℝ) ^ g) ^ 2 := pow_pos (zpow_pos (by norm_num) _) 2
  generalize ((2 : ℝ) ^ g) ^ 2 = G at *
  have : (1 + e) * D < (1 - e) * E := by
    apply lt_of_pow_lt_pow_left₀ 2 (mul_nonneg (by norm_num at e1; linarith) E0)
    rw [mul_pow, mul_pow]
    have e2 : 4 * e * D ^ 2 ≤ 4 * (3 / 2 ^ 52) * (2 ^ 47 * G) := by
      apply mul_le_mul (by linarith) hD (by positivity) (by norm_num)
    have e3 : (1 - e) ^ 2 * (D ^ 2 + G) ≤ (1 - e) ^ 2 * E ^ 2 := mul_le_mul_of_nonneg_left hE (sq_nonneg _)
    have e4 : (1 : ℝ) / 2 ≤ (1 - e) ^ 2 := by norm_num at e1; nlinarith
    have e5 : (1 + e) ^ 2 * D ^ 2 = (1 - e) ^ 2 * D ^ 2 + 4 * e * D ^ 2 := by ring
    have e6 : 1 / 2 * G ≤ (1 - e) ^ 2 * G := mul_le_mul_of_nonneg_right e4 G0.le
    have e7 : 4 * ((3 : ℝ) / 2 ^ 52) * (2 ^ 47 * G) = 3 / 8 * G := by ring
    rw [e5]
    linarith
  linarith

theorem OnGridB.mono {j k : ℕ} (h : j ≤ k) {g : ℤ} {c : Coord ℚ} (hc : OnGridB j g c) : OnGridB k g c := by
  obtain ⟨m, n, hm, hn, hx, hy'⟩ := hc
  have := pow_le_pow_right₀ (by norm_num : (1 : ℤ) ≤ 2) h
  exact ⟨m, n, hm.trans this, hn.trans this, hx, hy'⟩

/-- The squared distance of two points of a grid of 22 bits. -/
theorem grid_sq {g : ℤ} {a b : Coord ℚ} (ha : OnGridB 22 g a) (hb : OnGridB 22 g b) :
    dist (realPt a) (realPt b) ^ 2 ≤ 2 ^ 47 * (2 ^ g) ^ 2 ∧ (¬ (a.x = b.x ∧ a.y = b.y) → (2 ^ g) ^ 2 ≤ dist (realPt a) (realPt b) ^ 2) := by
  obtain ⟨m, n, hm, hn, hx, hy'⟩ := ha
  obtain ⟨m', n', hm', hn', hx', hy''⟩ := hb
  have e : dist (realPt a) (realPt b) ^ 2 = (((m - m') ^ 2 + (n - n') ^ 2 : ℤ) : ℝ) * (2 ^ g) ^ 2 := by
    rw [Spec.dist_sq]; unfold realPt; rw [hx, hy', hx', hy'']; push_cast; ring
  have G0 : 0 < ((2 : ℝ) ^ g) ^ 2 := pow_pos (zpow_pos (by norm_num) _) 2
  rw [e]
  constructor
  · apply mul_le_mul_of_nonneg_right _ G0.le
    have : (m - m') ^ 2 + (n - n') ^ 2 ≤ (2 : ℤ) ^ 47 := by
      rw [abs_le] at hm hn hm' hn'
      nlinarith
    exact_mod_cast this
  · intro h
    have : 1 ≤ (m - m') ^ 2 + (n - n') ^ 2 := by
      by_contra hc
      have h1 := sq_nonneg (m - m')
      have h2 := sq_nonneg (n - n')
      have h3 : (m - m') ^ 2 = 0 := by omega
      have h4 : (n - n') ^ 2 = 0 := by omega
      have h5 := pow_eq_zero_iff (n := 2) (by norm_num) |>.mp h3
      have h6 := pow_eq_zero_iff (n := 2) (by norm_num) |>.mp h4
      apply h
      rw [hx, hy', hx', hy'', show m = m' by omega, show n = n' by omega]
      exact ⟨rfl, rfl⟩
    have : (1 : ℝ) ≤ (((m - m') ^ 2 + (n - n') ^ 2 : ℤ) : ℝ) := by exact_mod_cast this
    nlinarith

/-- C92: on a grid of 22 bits, with library errors of at most 2^-52, the computed closest point of a segment is in its box, is exactly the end
if the nearest point is an end, and else is within 2^-28 of a grid cell of the nearest point in each ordinate. -/
theorem C92_closest {g : ℤ} (h1 : -484 ≤ g) (h2 : g ≤ 400) {ε : ℝ} (lib : Lib64 sq hy ε) (hε : ε ≤ 1 / 2 ^ 52) {p a b : Coord ℚ}
    (hp : OnGridB 22 g p) (ha : OnGridB 22 g a) (hb : OnGridB 22 g b) :
    ∃ u v : ℚ, ((⟨toB64 a, toB64 b⟩ : LineSeg (B64 sq hy)).closestPoint (toB64 p)).x = Fl.fin u ∧
      ((⟨toB64 a, toB64 b⟩ : LineSeg (B64 sq hy)).closestPoint (toB64 p)).y = Fl.fin v ∧
      (min a.x b.x ≤ u ∧ u ≤ max a.x b.x ∧ min a.y b.y ≤ v ∧ v ≤ max a.y b.y) ∧
      ∀ q : Coord ℝ, Nearest (realPt p) q (realPt a) (realPt b) →
        (q.x = a.x ∧ q.y = a.y → u = a.x ∧ v = a.y) ∧ (q.x = b.x ∧ q.y = b.y → u = b.x ∧ v = b.y) ∧
        |(u : ℝ) - q.x| ≤ 2 ^ (g - 28) ∧ |(v : ℝ) - q.y| ≤ 2 ^ (g - 28) := by
  have E0 : (0 : ℝ) ≤ 2 ^ (g - 28) := (zpow_pos (by norm_num) _).le
  by_cases hab : a.x = b.x ∧ a.y = b.y
  · -- a segment of one point
    have hf : (⟨toB64 a, toB64 b⟩ : LineSeg (B64 sq hy)).projectionFactor (toB64 p) = Fl.fin 0 ∨
        (⟨toB64 a, toB64 b⟩ : LineSeg (B64 sq hy)).projectionFactor (toB64 p) = nan := by
      unfold LineSeg.projectionFactor
      dsimp only
      simp only [toB64_equals, decide_eq_true_eq]
      by_cases c : p.x = a.x ∧ p.y = a.y
      · rw [if_pos c]; exact Or.inl lit64
      · rw [if_neg c, if_neg (by rw [← hab.1, ← hab.2]; exact c)]
        right
        obtain ⟨ax, ay⟩ := onGridB_ord (ha.mono (show 22 ≤ 24 by omega))
        obtain ⟨bx, by'⟩ := onGridB_ord (hb.mono (show 22 ≤ 24 by omega))
        have fL := (sum_fin (sq := sq) (hy := hy) h1 h2 bx ax bx ax by' ay by' ay).1
        simp only [show ∀ c : Coord ℚ, (toB64 c : Coord (B64 sq hy)).x = Fl.fin c.x from fun _ => rfl,
          show ∀ c : Coord ℚ, (toB64 c : Coord (B64 sq hy)).y = Fl.fin c.y from fun _ => rfl]
        rw [fL, lit64]
        refine if_pos ?_
        show decide (_ ≤ (0 : ℚ)) = true
        rw [hab.1, hab.2]
        simp
    have hc : (⟨toB64 a, toB64 b⟩ : LineSeg (B64 sq hy)).closestPoint (toB64 p) = toB64 a ∨
        (⟨toB64 a, toB64 b⟩ : LineSeg (B64 sq hy)).closestPoint (toB64 p) = toB64 b := by
      unfold LineSeg.closestPoint
      dsimp only
      have : ¬ ((((⟨toB64 a, toB64 b⟩ : LineSeg (B64 sq hy)).projectionFactor (toB64 p)) >. lit 0) &&
          (((⟨toB64 a, toB64 b⟩ : LineSeg (B64 sq hy)).projectionFactor (toB64 p)) <. lit 1)) = true := by
        rw [lit64, one64]
        rcases hf with h | h <;> rw [h]
        · show ¬ (decide ((0 : ℚ) < 0) && _) = true
          simp
        · rintro ⟨⟩
      rw [if_neg this]
      split_ifs
      · exact Or.inl rfl
      · exact Or.inr rfl
    refine ⟨a.x, a.y, ?_, ?_, ⟨min_le_left _ _, le_max_left _ _, min_le_left _ _, le_max_left _ _⟩, ?_⟩
    · rcases hc with h | h <;> rw [h]
      · rfl
      · exact congrArg Fl.fin hab.1.symm
    · rcases hc with h | h <;> rw [h]
      · rfl
      · exact congrArg Fl.fin hab.2.symm
    · rintro q ⟨⟨t, -, -, tx, ty⟩, -⟩
      have e1 : q.x = a.x := by rw [tx]; unfold realPt; dsimp only; rw [← hab.1]; ring
      have e2 : q.y = a.y := by rw [ty]; unfold realPt; dsimp only; rw [← hab.2]; ring
      rw [e1, e2]
      exact ⟨fun _ => ⟨rfl, rfl⟩, fun _ => hab, by simpa using E0, by simpa using E0⟩
  · obtain ⟨f, hf, f1, f2, f3, f4, f5⟩ := C92_factor (sq := sq) (hy := hy) h1 h2 (hp.mono (by omega)) (ha.mono (by omega)) (hb.mono (by omega)) hab
    have habR : ¬ ((realPt a).x = (realPt b).x ∧ (realPt a).y = (realPt b).y) := by simpa [realPt] using hab
    have L0 : 0 < (b.x - a.x) ^ 2 + (b.y - a.y) ^ 2 := by
      rcases eq_or_ne a.x b.x with h | h
      · have : b.y - a.y ≠ 0 := fun k => hab ⟨h, by linarith⟩
        nlinarith [mul_self_pos.mpr this, mul_self_nonneg (b.x - a.x)]
      · have : b.x - a.x ≠ 0 := fun k => h (by linarith)
        nlinarith [mul_self_pos.mpr this, mul_self_nonneg (b.y - a.y)]
    have nq : ∀ q : Coord ℝ, Nearest (realPt p) q (realPt a) (realPt b) →
        ((p.x - a.x) * (b.x - a.x) + (p.y - a.y) * (b.y - a.y) ≤ 0 → q.x = a.x ∧ q.y = a.y) ∧
        ((b.x - a.x) ^ 2 + (b.y - a.y) ^ 2 ≤ (p.x - a.x) * (b.x - a.x) + (p.y - a.y) * (b.y - a.y) → q.x = b.x ∧ q.y = b.y) ∧
        (0 < (p.x - a.x) * (b.x - a.x) + (p.y - a.y) * (b.y - a.y) →
          (p.x - a.x) * (b.x - a.x) + (p.y - a.y) * (b.y - a.y) < (b.x - a.x) ^ 2 + (b.y - a.y) ^ 2 →
          q.x = ((a.x + ((p.x - a.x) * (b.x - a.x) + (p.y - a.y) * (b.y - a.y)) / ((b.x - a.x) ^ 2 + (b.y - a.y) ^ 2) * (b.x - a.x) : ℚ) : ℝ) ∧
          q.y = ((a.y + ((p.x - a.x) * (b.x - a.x) + (p.y - a.y) * (b.y - a.y)) / ((b.x - a.x) ^ 2 + (b.y - a.y) ^ 2) * (b.y - a.y) : ℚ) : ℝ)) := by
      intro q hq
      have := nearest_param hq habR
      dsimp only [realPt] at this
      refine ⟨fun h => this.1 (by exact_mod_cast h), fun h => this.2.1 (by exact_mod_cast h), fun h h' => ?_⟩
      have := this.2.2 (by exact_mod_cast h) (by exact_mod_cast h')
      exact_mod_cast this
    -- the squares of the distances
    have sqs : dist (realPt b) (realPt p) ^ 2 = dist (realPt a) (realPt p) ^ 2 + (((b.x - a.x) ^ 2 + (b.y - a.y) ^ 2 : ℚ) : ℝ) -
        2 * (((p.x - a.x) * (b.x - a.x) + (p.y - a.y) * (b.y - a.y) : ℚ) : ℝ) := by
      rw [Spec.dist_sq, Spec.dist_sq]; unfold realPt; push_cast; ring
    have sL : (2 ^ g) ^ 2 ≤ (((b.x - a.x) ^ 2 + (b.y - a.y) ^ 2 : ℚ) : ℝ) := by
      refine ((grid_sq ha hb).2 hab).trans (le_of_eq ?_)
      rw [Spec.dist_sq]; unfold realPt; push_cast; ring
    obtain ⟨x0, hx0, k0⟩ := grid_dist h1 h2 lib (ha.mono (show 22 ≤ 24 by omega)) (hp.mono (show 22 ≤ 24 by omega))
    obtain ⟨x1, hx1, k1⟩ := grid_dist h1 h2 lib (hb.mono (show 22 ≤ 24 by omega)) (hp.mono (show 22 ≤ 24 by omega))
    generalize (p.x - a.x) * (b.x - a.x) + (p.y - a.y) * (b.y - a.y) = n at *
    generalize hL : (b.x - a.x) ^ 2 + (b.y - a.y) ^ 2 = L at *
    have t0 : n / L ≤ 0 ↔ n ≤ 0 := by rw [div_le_iff₀ L0, zero_mul]
    have t1 : 1 ≤ n / L ↔ L ≤ n := by rw [le_div_iff₀ L0, one_mul]
    rw [t0] at f2
    rw [t1] at f4
    unfold LineSeg.closestPoint
    dsimp only
    rw [hf, lit64, one64, hx0, hx1]
    simp only [show ∀ u v : ℚ, ((Fl.fin u : B64 sq hy) <. Fl.fin v) = decide (u < v) from fun _ _ => rfl, Bool.and_eq_true, decide_eq_true_eq]
    rcases le_or_gt n 0 with c0 | c0
    · have : x0 < x1 := by
        have := far_end lib.nonneg hε (dist_nonneg _ _) (dist_nonneg _ _) (grid_sq ha hp).1 (by
          rw [sqs]
          have : ((n : ℚ) : ℝ) ≤ 0 := by exact_mod_cast c0
          linarith) k0 k1
        exact_mod_cast this
      rw [if_neg (fun h => absurd (f2.mpr c0) (not_le.mpr h.1)), if_pos this]
      refine ⟨a.x, a.y, rfl, rfl, ⟨min_le_left _ _, le_max_left _ _, min_le_left _ _, le_max_left _ _⟩, fun q hq => ?_⟩
      obtain ⟨qx, qy⟩ := (nq q hq).1 c0
      rw [qx, qy]
      exact ⟨fun _ => ⟨rfl, rfl⟩, fun h => ⟨by exact_mod_cast h.1, by exact_mod_cast h.2⟩, by simpa using E0, by simpa using E0⟩
    rcases le_or_gt L n with c1 | c1
    · have : x1 < x0 := by
        have := far_end lib.nonneg hε (dist_nonneg _ _) (dist_nonneg _ _) (grid_sq hb hp).1 (by
          rw [sqs]
          have : ((L : ℚ) : ℝ) ≤ n := by exact_mod_cast c1
          linarith) k1 k0
        exact_mod_cast this
      rw [if_neg (fun h => absurd (f4.mpr c1) (not_le.mpr h.2)), if_neg this.not_gt]
      refine ⟨b.x, b.y, rfl, rfl, ⟨min_le_right _ _, le_max_right _ _, min_le_right _ _, le_max_right _ _⟩, fun q hq => ?_⟩
      obtain ⟨qx, qy⟩ := (nq q hq).2.1 c1
      rw [qx, qy]
      exact ⟨fun h => ⟨by exact_mod_cast h.1, by exact_mod_cast h.2⟩, fun _ => ⟨rfl, rfl⟩, by simpa using E0, by simpa using E0⟩
    · have g0 : 0 < f := not_le.mp fun h => absurd (f2.mp h) (not_le.mpr c0)
      have g1 : f < 1 := not_le.mp fun h => absurd (f4.mp h) (not_le.mpr c1)
      rw [if_pos ⟨g0, g1⟩]
      obtain ⟨ax, ay⟩ := onGridB_ord ha
      obtain ⟨bx, by'⟩ := onGridB_ord hb
      obtain ⟨u, u1, u2, u3, -, -, u6⟩ := along_grid (sq := sq) (hy := hy) (by omega) (by omega) (by omega) ax bx g0.le g1.le
      obtain ⟨v, v1, v2, v3, -, -, v6⟩ := along_grid (sq := sq) (hy := hy) (by omega) (by omega) (by omega) ay by' g0.le g1.le
      refine ⟨u, v, u1, v1, ⟨u2, u3, v2, v3⟩, fun q hq => ?_⟩
      obtain ⟨qx, qy⟩ := (nq q hq).2.2 c0 c1
      have r0 : 0 < n / L := div_pos c0 L0
      have r1 : n / L < 1 := by rw [div_lt_one L0]; exact c1
      have acc : ∀ {x y w : ℚ}, OrdB 22 g x → OrdB 22 g y → |w - (x + f * (y - x))| ≤ 2 ^ (((22 : ℕ) : ℤ) + g - 51) →
          |w - (x + n / L * (y - x))| ≤ 2 ^ (g - 28) := by
        intro x y w ox oy hw
        have hd := (ord_abs (oy.sub ox)).1
        have h3 : |f * (y - x) - n / L * (y - x)| ≤ 1 / 2 ^ 53 * 2 ^ (((22 + 1 : ℕ) : ℤ) + g) := by
          rw [← sub_mul, abs_mul]
          apply mul_le_mul _ hd (abs_nonneg _) (by norm_num)
          refine f1.trans ?_
          rw [abs_of_pos r0]
          apply div_le_div_of_nonneg_right r1.le (by norm_num)
        have h4 := abs_sub_le w (x + f * (y - x)) (x + n / L * (y - x))
        rw [add_sub_add_left_eq_sub] at h4
        have e1 : (2 : ℚ) ^ (((22 : ℕ) : ℤ) + g - 51) = 2 ^ (g - 28) / 2 := by
          rw [show ((22 : ℕ) : ℤ) + g - 51 = (g - 28) + -1 by push_cast; ring, two_add]; norm_num; ring
        have e2 : (1 : ℚ) / 2 ^ 53 * 2 ^ (((22 + 1 : ℕ) : ℤ) + g) = 2 ^ (g - 28) / 4 := by
          rw [show ((22 + 1 : ℕ) : ℤ) + g = (g - 28) + 51 by push_cast; ring, two_add]; norm_num; ring
        have := two_pos (g - 28)
        rw [e1] at hw
        rw [e2] at h3
        linarith
      have ux := acc ax bx u6
      have vy := acc ay by' v6
      have castR : ∀ {w z : ℚ}, |w - z| ≤ 2 ^ (g - 28) → |(w : ℝ) - ((z : ℚ) : ℝ)| ≤ 2 ^ (g - 28) := by
        intro w z h
        rw [← Rat.cast_le (K := ℝ), Rat.cast_zpow, Rat.cast_ofNat, Rat.cast_abs, Rat.cast_sub] at h
        exact h
      refine ⟨fun h => ?_, fun h => ?_, by rw [qx]; exact castR ux, by rw [qy]; exact castR vy⟩
      · exfalso
        rw [qx, qy] at h
        apply hab
        have i1 : a.x + n / L * (b.x - a.x) = a.x := by exact_mod_cast h.1
        have i2 : a.y + n / L * (b.y - a.y) = a.y := by exact_mod_cast h.2
        have j1 : n / L * (b.x - a.x) = 0 := by linarith
        have j2 : n / L * (b.y - a.y) = 0 := by linarith
        have := (mul_eq_zero.mp j1).resolve_left r0.ne'
        have := (mul_eq_zero.mp j2).resolve_left r0.ne'
        constructor <;> linarith
      · exfalso
        rw [qx, qy] at h
        apply hab
        have i1 : a.x + n / L * (b.x - a.x) = b.x := by exact_mod_cast h.1
        have i2 : a.y + n / L * (b.y - a.y) = b.y := by exact_mod_cast h.2
        have j1 : (1 - n / L) * (b.x - a.x) = 0 := by linarith
        have j2 : (1 - n / L) * (b.y - a.y) = 0 := by linarith
        have nz : 1 - n / L ≠ 0 := by linarith
        have := (mul_eq_zero.mp j1).resolve_left nz
        have := (mul_eq_zero.mp j2).resolve_left nz
        constructor <;> linarith

/-- C92: beyond such grids the wrong end can be returned: from (0, 0) to (0, 1) the nearest point to (10^9, 0) is the start, but with a
correctly rounded hypot the two distances are the same double, and the end is returned. -/
theorem C92_wrong_end (h1 : hy (-1000000000) 0 = .fin 1000000000) (h2 : hy (-1000000000) 1 = .fin 1000000000) :
    (⟨toB64 ⟨0, 0, 0, 0⟩, toB64 ⟨0, 1, 0, 0⟩⟩ : LineSeg (B64 sq hy)).closestPoint (toB64 ⟨1000000000, 0, 0, 0⟩) = toB64 ⟨0, 1, 0, 0⟩ ∧
    (∀ v : ℚ, IsF64 v → |((1000000000 : ℚ) : ℝ) - √((-1000000000 : ℝ) ^ 2 + 1 ^ 2)| ≤ |(v : ℝ) - √((-1000000000 : ℝ) ^ 2 + 1 ^ 2)|) ∧
    ∀ q : Coord ℝ, Nearest (realPt ⟨1000000000, 0, 0, 0⟩) q (realPt ⟨0, 0, 0, 0⟩) (realPt ⟨0, 1, 0, 0⟩) → q.x = 0 ∧ q.y = 0 := by
  refine ⟨?_, ?_, ?_⟩
  · have e0 : ((Fl.fin 0 : B64 sq hy) -. Fl.fin 0) = Fl.fin 0 := (by decide +kernel : rnd (0 + -0) = Val.fin 0)
    have e1 : ((Fl.fin 1 : B64 sq hy) -. Fl.fin 0) = Fl.fin 1 := (by decide +kernel : rnd (1 + -0) = Val.fin 1)
    have e2 : ((Fl.fin 1000000000 : B64 sq hy) -. Fl.fin 0) = Fl.fin 1000000000 := (by decide +kernel : rnd (1000000000 + -0) = Val.fin 1000000000)
    have e3 : ((Fl.fin 0 : B64 sq hy) -. Fl.fin 1000000000) = Fl.fin (-1000000000) := (by decide +kernel : rnd (0 + -1000000000) = Val.fin (-1000000000))
    have m0 : ((Fl.fin 0 : B64 sq hy) *. Fl.fin 0) = Fl.fin 0 := (by decide +kernel : rnd (0 * 0) = Val.fin 0)
    have m1 : ((Fl.fin 1 : B64 sq hy) *. Fl.fin 1) = Fl.fin 1 := (by decide +kernel : rnd (1 * 1) = Val.fin 1)
    have m2 : ((Fl.fin 1000000000 : B64 sq hy) *. Fl.fin 0) = Fl.fin 0 := (by decide +kernel : rnd (1000000000 * 0) = Val.fin 0)
    have m3 : ((Fl.fin 0 : B64 sq hy) *. Fl.fin 1) = Fl.fin 0 := (by decide +kernel : rnd (0 * 1) = Val.fin 0)
    have a0 : ((Fl.fin 0 : B64 sq hy) +. Fl.fin 0) = Fl.fin 0 := (by decide +kernel : rnd (0 + 0) = Val.fin 0)
    have a1 : ((Fl.fin 0 : B64 sq hy) +. Fl.fin 1) = Fl.fin 1 := (by decide +kernel : rnd (0 + 1) = Val.fin 1)
    have d0 : ((Fl.fin 0 : B64 sq hy) /. Fl.fin 1) = Fl.fin 0 := (by decide +kernel : rnd (0 / 1) = Val.fin 0)
    have hf : (⟨toB64 ⟨0, 0, 0, 0⟩, toB64 ⟨0, 1, 0, 0⟩⟩ : LineSeg (B64 sq hy)).projectionFactor (toB64 ⟨1000000000, 0, 0, 0⟩) = Fl.fin 0 := by
      unfold LineSeg.projectionFactor
      dsimp only
      simp only [toB64_equals, decide_eq_true_eq]
      rw [if_neg (by norm_num), if_neg (by norm_num)]
      simp only [show ∀ c : Coord ℚ, (toB64 c : Coord (B64 sq hy)).x = Fl.fin c.x from fun _ => rfl,
        show ∀ c : Coord ℚ, (toB64 c : Coord (B64 sq hy)).y = Fl.fin c.y from fun _ => rfl]
      rw [e0, e1, e2, m0, m1, m2, m3, a0, a1, d0, lit64]
      exact if_neg (by show ¬ decide ((1 : ℚ) ≤ 0) = true; decide)
    have hd0 : Coord.distance (toB64 ⟨0, 0, 0, 0⟩ : Coord (B64 sq hy)) (toB64 ⟨1000000000, 0, 0, 0⟩) = Fl.fin 1000000000 := by
      unfold Coord.distance
      dsimp only
      simp only [show ∀ c : Coord ℚ, (toB64 c : Coord (B64 sq hy)).x = Fl.fin c.x from fun _ => rfl,
        show ∀ c : Coord ℚ, (toB64 c : Coord (B64 sq hy)).y = Fl.fin c.y from fun _ => rfl]
      rw [e3, e0]; exact h1
    have hd1 : Coord.distance (toB64 ⟨0, 1, 0, 0⟩ : Coord (B64 sq hy)) (toB64 ⟨1000000000, 0, 0, 0⟩) = Fl.fin 1000000000 := by
      unfold Coord.distance
      dsimp only
      simp only [show ∀ c : Coord ℚ, (toB64 c : Coord (B64 sq hy)).x = Fl.fin c.x from fun _ => rfl,
        show ∀ c : Coord ℚ, (toB64 c : Coord (B64 sq hy)).y = Fl.fin c.y from fun _ => rfl]
      rw [e3, e1]; exact h2
    unfold LineSeg.closestPoint
    dsimp only
    rw [hf, lit64, one64, hd0, hd1]
    rfl
  · intro v hv
    have s1 : (1000000000 : ℝ) ≤ √((-1000000000 : ℝ) ^ 2 + 1 ^ 2) := Real.le_sqrt_of_sq_le (by norm_num)
    have s2 : √((-1000000000 : ℝ) ^ 2 + 1 ^ 2) ≤ 1000000000 + 1 / 2 ^ 24 := by
      rw [Real.sqrt_le_left (by norm_num)]; norm_num
    rw [Rat.cast_ofNat, abs_of_nonpos (by linarith)]
    rcases le_or_gt v 1000000000 with h | h
    · have h' : (v : ℝ) ≤ 1000000000 := by exact_mod_cast h
      rw [abs_of_nonpos (by linarith)]
      linarith
    · -- the next double is 2^-23 away
      have n : near (1000000000 + 1 / 2 ^ 24) = 1000000000 := by decide +kernel
      have h3 : 1000000000 + 1 / 2 ^ 24 < v := by
        by_contra hc
        push Not at hc
        have := near_mono hc
        rw [n, near_of_rep hv.1] at this
        linarith
      have h4 := near_nearest (1000000000 + 1 / 2 ^ 24) v hv.1
      rw [n, abs_of_pos (by norm_num), abs_of_neg (by linarith)] at h4
      have h5 : (1000000000 + 1 / 8388608 : ℚ) ≤ v := by norm_num at h4 ⊢; linarith
      have h6 : (1000000000 + 1 / 8388608 : ℝ) ≤ v := by
        have := (Rat.cast_le (K := ℝ)).mpr h5
        push_cast at this
        exact this
      have s3 : √((-1000000000 : ℝ) ^ 2 + 1 ^ 2) ≤ 1000000000 + 1 / 16777216 := s2.trans (by norm_num)
      generalize √((-1000000000 : ℝ) ^ 2 + 1 ^ 2) = w at *
      rw [abs_of_nonneg (by linarith)]
      linarith
  · intro q hq
    have := (nearest_param hq (by simp [realPt])).1 (by simp [realPt])
    simpa [realPt] using this

/-- The hypotheses can be met: the point (3, 1), the segment from (0, 0) to (4, 2), a library rounded to doubles. -/
example : ∃ (sq : ℚ → Val) (hy : ℚ → ℚ → Val), Lib64 sq hy (1 / 2 ^ 52) ∧
    ∃ u v : ℚ, ((⟨toB64 ⟨0, 0, 0, 0⟩, toB64 ⟨4, 2, 0, 0⟩⟩ : LineSeg (B64 sq hy)).closestPoint (toB64 ⟨3, 1, 0, 0⟩)).x = Fl.fin u ∧ 0 ≤ u ∧ u ≤ 4 ∧
      ((⟨toB64 ⟨0, 0, 0, 0⟩, toB64 ⟨4, 2, 0, 0⟩⟩ : LineSeg (B64 sq hy)).closestPoint (toB64 ⟨3, 1, 0, 0⟩)).y = Fl.fin v ∧ 0 ≤ v ∧ v ≤ 2 := by
  obtain ⟨sq, hy, lib⟩ := lib64_exists
  have on : ∀ m n : ℤ, |m| ≤ 2 ^ 22 → |n| ≤ 2 ^ 22 → OnGridB 22 0 (⟨m, n, 0, 0⟩ : Coord ℚ) := fun m n h k => ⟨m, n, h, k, by simp, by simp⟩
  obtain ⟨u, v, e1, e2, ⟨b1, b2, b3, b4⟩, -⟩ := C92_closest (g := 0) (by norm_num) (by norm_num) lib le_rfl (p := ⟨3, 1, 0, 0⟩) (a := ⟨0, 0, 0, 0⟩) (b := ⟨4, 2, 0, 0⟩)
    (by simpa using on 3 1 (by norm_num) (by norm_num)) (by simpa using on 0 0 (by norm_num) (by norm_num))
    (by simpa using on 4 2 (by norm_num) (by norm_num))
  norm_num at b1 b2 b3 b4
  exact ⟨sq, hy, lib, u, v, e1, b1, b2, e2, b3, b4⟩

end Verif.Props
