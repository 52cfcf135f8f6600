import Verif.Props.TriangleObject
import Verif.Props.Space64
import Verif.Props.PrecisionModel64

/-! # C113: lengths, radii, centres and areas in space of triangles in binary64 -/

set_option linter.unusedSectionVars false

namespace Verif.Props
open Flt Verif.Spec Verif.Binary64
variable {sq : ℚ → Val} {hy : ℚ → ℚ → Val}

/-! ## Errors relative to a bound -/

/-- `v` is within `β · B` of `X`, and `X` is at most `B`. -/
structure Ap (β B : ℝ) (v X : ℝ) : Prop where
  bound : |X| ≤ B
  err : |v - X| ≤ β * B

theorem Ap.nonneg {β B v X : ℝ} (h : Ap β B v X) : 0 ≤ B := (abs_nonneg _).trans h.bound

theorem Ap.size {β B v X : ℝ} (h : Ap β B v X) : |v| ≤ (1 + β) * B := by
  have := abs_sub_abs_le_abs_sub v X
  have := h.bound; have := h.err; linarith

theorem Ap.mul {α β A B v w X Y : ℝ} (hα : 0 ≤ α) (h : Ap α A v X) (k : Ap β B w Y) : Ap ((1 + α) * (1 + β) - 1) (A * B) (v * w) (X * Y) := by
  have a0 := h.nonneg
  have b0 := k.nonneg
  refine ⟨by rw [abs_mul]; exact mul_le_mul h.bound k.bound (abs_nonneg _) a0, ?_⟩
  have e : v * w - X * Y = (v - X) * (w - Y) + (v - X) * Y + X * (w - Y) := by ring
  rw [e]
  have t1 : |(v - X) * (w - Y)| ≤ (α * A) * (β * B) := by rw [abs_mul]; exact mul_le_mul h.err k.err (abs_nonneg _) (by positivity)
  have t2 : |(v - X) * Y| ≤ (α * A) * B := by rw [abs_mul]; exact mul_le_mul h.err k.bound (abs_nonneg _) (by positivity)
  have t3 : |X * (w - Y)| ≤ A * (β * B) := by rw [abs_mul]; exact mul_le_mul h.bound k.err (abs_nonneg _) a0
  have := abs_add_le ((v - X) * (w - Y) + (v - X) * Y) (X * (w - Y))
  have := abs_add_le ((v - X) * (w - Y)) ((v - X) * Y)
  linarith

theorem Ap.add {β A B v w X Y : ℝ} (h : Ap β A v X) (k : Ap β B w Y) : Ap β (A + B) (v + w) (X + Y) := by
  have a := h.bound; have b := k.bound; have c := h.err; have d := k.err
  refine ⟨(abs_add_le _ _).trans (add_le_add a b), ?_⟩
  rw [show v + w - (X + Y) = (v - X) + (w - Y) by ring, mul_add]
  exact (abs_add_le _ _).trans (add_le_add c d)

theorem Ap.mono {α β B v X : ℝ} (hab : α ≤ β) (h : Ap α B v X) : Ap β B v X :=
  ⟨h.bound, h.err.trans (mul_le_mul_of_nonneg_right hab h.nonneg)⟩

theorem Ap.exact {B X : ℝ} (h : |X| ≤ B) : Ap 0 B X X := ⟨h, by simp⟩

theorem Ap.round {β B X : ℝ} {q n : ℚ} (h : Ap β B q X) (r : |q - n| ≤ |q| / 2 ^ 53) : Ap ((1 + β) * (1 + 1 / 2 ^ 53) - 1) B n X := by
  refine ⟨h.bound, ?_⟩
  have s := h.size
  have r' : |(n : ℝ) - q| ≤ |(q : ℝ)| / 2 ^ 53 := by
    have : ((|q - n| : ℚ) : ℝ) ≤ ((|q| / 2 ^ 53 : ℚ) : ℝ) := by exact_mod_cast r
    push_cast at this
    rwa [abs_sub_comm] at this
  have := abs_sub_le (n : ℝ) q X
  have := h.err
  have : |(q : ℝ)| / 2 ^ 53 ≤ (1 + β) * B / 2 ^ 53 := by gcongr
  have e : ((1 + β) * (1 + 1 / 2 ^ 53) - 1) * B = (1 + β) * B / 2 ^ 53 + β * B := by ring
  linarith

/-! ## Distances -/

/-- A distance on the grid: its relative error, and its size. -/
theorem grid_side {g : ℤ} (h1 : -484 ≤ g) (h2 : g ≤ 400) {ε : ℝ} (lib : Lib64 sq hy ε) {p a : Coord ℚ} (hp : OnGridB 24 g p) (ha : OnGridB 24 g a) :
    ∃ v : ℚ, Coord.distance (toB64 p : Coord (B64 sq hy)) (toB64 a) = Fl.fin v ∧ |(v : ℝ) - dist (realPt p) (realPt a)| ≤ ε * dist (realPt p) (realPt a) ∧
      (dist (realPt p) (realPt a) = 0 ∨ (2 : ℝ) ^ g ≤ dist (realPt p) (realPt a)) ∧ dist (realPt p) (realPt a) ≤ (2 : ℝ) ^ (g + 26) := by
  obtain ⟨m, n, hm, hn, hx, hy'⟩ := hp
  obtain ⟨m', n', hm', hn', hx', hy''⟩ := ha
  have ox := OrdB.sub (⟨m, hm, hx⟩ : OrdB 24 g p.x) (⟨m', hm', hx'⟩ : OrdB 24 g a.x)
  have oy := OrdB.sub (⟨n, hn, hy'⟩ : OrdB 24 g p.y) (⟨n', hn', hy''⟩ : OrdB 24 g a.y)
  have fx := ordB_f64 ox (by omega) (by omega) (by omega)
  have fy := ordB_f64 oy (by omega) (by omega) (by omega)
  have e : Coord.distance (toB64 p : Coord (B64 sq hy)) (toB64 a) = hy (p.x - a.x) (p.y - a.y) := by
    show FltSqrt.hypot ((Fl.fin p.x : B64 sq hy) -. Fl.fin a.x) ((Fl.fin p.y : B64 sq hy) -. Fl.fin a.y) = _
    rw [sub_fin fx, sub_fin fy]
    rfl
  have ed : dist (realPt p) (realPt a) = √(((p.x - a.x : ℚ) : ℝ) ^ 2 + ((p.y - a.y : ℚ) : ℝ) ^ 2) := by
    unfold Spec.dist realPt
    push_cast
    rfl
  rw [e, ed]
  obtain ⟨bx, lx⟩ := ord_abs ox
  obtain ⟨by', ly⟩ := ord_abs oy
  by_cases h0 : p.x - a.x = 0 ∧ p.y - a.y = 0
  · refine ⟨0, by rw [h0.1, h0.2]; exact lib.zero, ?_⟩
    rw [h0.1, h0.2]; simp; positivity
  have big : 2 ^ g ≤ |p.x - a.x| ∨ 2 ^ g ≤ |p.y - a.y| := by
    rcases lx with lx | lx
    · rcases ly with ly | ly
      · exact (h0 ⟨lx, ly⟩).elim
      · exact Or.inr ly
    · exact Or.inl lx
  have t : (2 : ℚ) ^ (-1022 : ℤ) ≤ 2 ^ g := two_mono (by omega)
  obtain ⟨v, hv, hve⟩ := lib.hypot _ _ fx fy (bx.trans (two_mono (by push_cast; omega))) (by'.trans (two_mono (by push_cast; omega)))
    (big.imp t.trans t.trans)
  refine ⟨v, hv, hve, Or.inr ?_, ?_⟩
  · have gp : (0 : ℝ) < 2 ^ g := zpow_pos (by norm_num) _
    apply Real.le_sqrt_of_sq_le
    rw [← sq_abs ((p.x - a.x : ℚ) : ℝ), ← sq_abs ((p.y - a.y : ℚ) : ℝ)]
    rcases big with big | big
    · have : (2 : ℝ) ^ g ≤ |((p.x - a.x : ℚ) : ℝ)| := by
        have : ((2 ^ g : ℚ) : ℝ) ≤ ((|p.x - a.x| : ℚ) : ℝ) := by exact_mod_cast big
        push_cast at this ⊢; exact this
      have := pow_le_pow_left₀ gp.le this 2
      have := sq_nonneg |((p.y - a.y : ℚ) : ℝ)|
      linarith
    · have : (2 : ℝ) ^ g ≤ |((p.y - a.y : ℚ) : ℝ)| := by
        have : ((2 ^ g : ℚ) : ℝ) ≤ ((|p.y - a.y| : ℚ) : ℝ) := by exact_mod_cast big
        push_cast at this ⊢; exact this
      have := pow_le_pow_left₀ gp.le this 2
      have := sq_nonneg |((p.x - a.x : ℚ) : ℝ)|
      linarith
  · have cx := cast_bound bx
    have cy := cast_bound by'
    have gp : (0 : ℝ) < 2 ^ (g + 26) := zpow_pos (by norm_num) _
    rw [Real.sqrt_le_left gp.le]
    have e : (2 : ℝ) ^ (g + 26) = 2 * 2 ^ (((24 + 1 : ℕ) : ℤ) + g) := by
      rw [show g + 26 = 1 + (((24 + 1 : ℕ) : ℤ) + g) by push_cast; ring, zpow_add₀ (by norm_num), zpow_one]
    rw [e]
    have := sq_le_sq' (by linarith [(abs_le.mp cx).1]) (abs_le.mp cx).2
    have := sq_le_sq' (by linarith [(abs_le.mp cy).1]) (abs_le.mp cy).2
    nlinarith [sq_nonneg ((2 : ℝ) ^ (((24 + 1 : ℕ) : ℤ) + g))]

theorem zpow2_mono {j k : ℤ} (h : j ≤ k) : (2 : ℝ) ^ j ≤ 2 ^ k := zpow_le_zpow_right₀ (by norm_num) h

theorem Ap.of_rel {ε D : ℝ} {v : ℝ} (hD : 0 ≤ D) (h : |v - D| ≤ ε * D) : Ap ε D v D := ⟨by rw [abs_of_nonneg hD], h⟩

theorem fin_below {q : ℚ} (h : |q| ≤ 2 ^ (1023 : ℤ)) : (Fl.round q : B64 sq hy) = Fl.fin (near q) :=
  (rnd_fin_iff _ _).mpr ⟨rfl, lt_of_le_of_lt (near_le_pow (by norm_num) h) (by rw [← zpow_natCast, two_lt_iff]; norm_num)⟩

theorem dbl_zpow (k : ℤ) : 2 * (2 : ℝ) ^ k = 2 ^ (1 + k) := by rw [zpow_add₀ two_ne_zero 1 k, zpow_one]

/-- Rounding a number close to a positive one, away from underflow and overflow. -/
theorem pos_round {β X : ℝ} {q : ℚ} (h : Ap β X q X) (hβ : β ≤ 1 / 2) (low : X = 0 ∨ (2 : ℝ) ^ (-1021 : ℤ) ≤ X) (high : X ≤ (2 : ℝ) ^ (1022 : ℤ)) :
    (Fl.round q : B64 sq hy) = Fl.fin (near q) ∧ Ap ((1 + β) * (1 + 1 / 2 ^ 53) - 1) X (near q) X := by
  have x0 := h.nonneg
  have e := h.err
  have s := h.size
  have m : β * X ≤ X / 2 := by nlinarith
  have b : |q| ≤ 2 ^ (1023 : ℤ) := by
    have : |(q : ℝ)| ≤ 2 ^ (1023 : ℤ) := by
      rw [show (1023 : ℤ) = 1022 + 1 by norm_num, zpow_add₀ (by norm_num), zpow_one]
      generalize (2 : ℝ) ^ (1022 : ℤ) = P at high ⊢
      linarith
    have : ((|q| : ℚ) : ℝ) ≤ ((2 ^ (1023 : ℤ) : ℚ) : ℝ) := by push_cast; exact this
    exact_mod_cast this
  refine ⟨fin_below b, h.round ?_⟩
  rcases low with low | low
  · rw [low, mul_zero, sub_zero] at e
    have : (q : ℝ) = 0 := abs_eq_zero.mp (le_antisymm e (abs_nonneg _))
    have : q = 0 := by exact_mod_cast this
    rw [this, near_of_rep rep_zero]; simp
  · apply near_rel
    have l := (abs_le.mp e).1
    have : (2 : ℝ) ^ (-1022 : ℤ) ≤ q := by
      rw [show (-1021 : ℤ) = -1022 + 1 by norm_num, zpow_add₀ (by norm_num), zpow_one] at low
      linarith
    have : (2 : ℚ) ^ (-1022 : ℤ) ≤ q := by
      have : (((2 : ℚ) ^ (-1022 : ℤ) : ℚ) : ℝ) ≤ q := by push_cast; exact this
      exact_mod_cast this
    exact this.trans (le_abs_self q)

/-- The triangle of the points as doubles, and as real points. -/
def tri64 (a b c : Coord ℚ) : Tri (B64 sq hy) := Tri.new (toB64 a) (toB64 b) (toB64 c)
noncomputable def triR (a b c : Coord ℚ) : Tri ℝ := Tri.new (realPt a) (realPt b) (realPt c)

section grid
variable {g : ℤ} (h1 : -484 ≤ g) (h2 : g ≤ 400) {ε : ℝ} (lib : Lib64 sq hy ε)
include h1 h2 lib

/-- The sum of three distances. -/
theorem three_sides (hε : ε ≤ 1 / 4) {x y z : ℚ} {X Y Z : ℝ} (x0 : 0 ≤ X) (y0 : 0 ≤ Y) (z0 : 0 ≤ Z) (hx : |(x : ℝ) - X| ≤ ε * X) (hy' : |(y : ℝ) - Y| ≤ ε * Y)
    (hz : |(z : ℝ) - Z| ≤ ε * Z) (lx : X = 0 ∨ (2 : ℝ) ^ g ≤ X) (ly : Y = 0 ∨ (2 : ℝ) ^ g ≤ Y) (lz : Z = 0 ∨ (2 : ℝ) ^ g ≤ Z)
    (bx : X ≤ 2 ^ (g + 26)) (by' : Y ≤ 2 ^ (g + 26)) (bz : Z ≤ 2 ^ (g + 26)) :
    ∃ w : ℚ, (Fl.fin x : B64 sq hy) +. Fl.fin y +. Fl.fin z = Fl.fin w ∧ |(w : ℝ) - (X + Y + Z)| ≤ distErr ε * (X + Y + Z) := by
  have n0 := lib.nonneg
  have t1 : (2 : ℝ) ^ (-1021 : ℤ) ≤ 2 ^ g := zpow2_mono (by omega)
  have t2 : 4 * (2 : ℝ) ^ (g + 26) ≤ 2 ^ (1022 : ℤ) := by
    rw [show 4 * (2 : ℝ) ^ (g + 26) = 2 ^ (2 + (g + 26)) by rw [zpow_add₀ two_ne_zero 2 (g + 26)]; norm_num]
    exact zpow2_mono (by omega)
  have t3 : X + Y + Z ≤ 4 * (2 : ℝ) ^ (g + 26) := by linarith
  have t4 : X + Y ≤ 4 * (2 : ℝ) ^ (g + 26) := by linarith
  have l1 : X + Y = 0 ∨ (2 : ℝ) ^ (-1021 : ℤ) ≤ X + Y := by
    rcases lx with h | h
    · rcases ly with k | k
      · left; rw [h, k, add_zero]
      · right; linarith
    · right; linarith
  have l2 : X + Y + Z = 0 ∨ (2 : ℝ) ^ (-1021 : ℤ) ≤ X + Y + Z := by
    rcases l1 with h | h
    · rcases lz with k | k
      · left; rw [h, k, add_zero]
      · right; linarith
    · right; linarith
  have s1 := (Ap.of_rel x0 hx).add (Ap.of_rel y0 hy')
  rw [show (x : ℝ) + y = ((x + y : ℚ) : ℝ) by push_cast; rfl] at s1
  obtain ⟨r1, a1⟩ := pos_round (sq := sq) (hy := hy) s1 (by linarith) l1 (t4.trans t2)
  have hz' := (Ap.of_rel z0 hz).mono (β := (1 + ε) * (1 + 1 / 2 ^ 53) - 1) (by norm_num; nlinarith)
  have s2 := a1.add hz'
  rw [show ((near (x + y) : ℚ) : ℝ) + z = ((near (x + y) + z : ℚ) : ℝ) by push_cast; rfl] at s2
  obtain ⟨r2, a2⟩ := pos_round (sq := sq) (hy := hy) s2 (by norm_num; nlinarith) l2 (t3.trans t2)
  refine ⟨_, Eq.trans (congrArg (· +. (Fl.fin z : B64 sq hy)) r1) r2, ?_⟩
  have := a2.err
  unfold distErr
  rwa [show (1 + ((1 + ε) * (1 + 1 / 2 ^ 53) - 1)) * (1 + 1 / 2 ^ 53) - 1 = (1 + ε) * (1 + 1 / 2 ^ 53) ^ 2 - 1 by ring] at this

/-- C113: the length of a triangle of grid points has relative error at most (1+ε)(1+2^-53)²-1, the longest side at most ε. -/
theorem C113_length (hε : ε ≤ 1 / 4) {a b c : Coord ℚ} (ha : OnGridB 24 g a) (hb : OnGridB 24 g b) (hc : OnGridB 24 g c) :
    (∃ w : ℚ, (tri64 a b c : Tri (B64 sq hy)).length = Fl.fin w ∧ |(w : ℝ) - (triR a b c).length| ≤ ((1 + ε) * (1 + 1 / 2 ^ 53) ^ 2 - 1) * (triR a b c).length) ∧
    ∃ w : ℚ, (tri64 a b c : Tri (B64 sq hy)).longestSide = Fl.fin w ∧ |(w : ℝ) - (triR a b c).longestSide| ≤ ε * (triR a b c).longestSide := by
  obtain ⟨x, ex, rx, lx, bx⟩ := grid_side h1 h2 lib ha hb
  obtain ⟨y, ey, ry, ly, by'⟩ := grid_side h1 h2 lib hb hc
  obtain ⟨z, ez, rz, lz, bz⟩ := grid_side h1 h2 lib hc ha
  have x0 := Spec.dist_nonneg (realPt a) (realPt b)
  have y0 := Spec.dist_nonneg (realPt b) (realPt c)
  have z0 := Spec.dist_nonneg (realPt c) (realPt a)
  constructor
  · obtain ⟨w, hw, he⟩ := three_sides h1 h2 lib hε x0 y0 z0 rx ry rz lx ly lz bx by' bz
    refine ⟨w, ?_, ?_⟩
    · show (Coord.distance (toB64 a : Coord (B64 sq hy)) (toB64 b)) +. (Coord.distance (toB64 b : Coord (B64 sq hy)) (toB64 c)) +.
        (Coord.distance (toB64 c : Coord (B64 sq hy)) (toB64 a)) = _
      rw [ex, ey, ez, hw]
    · have : (triR a b c).length = _ := (C41_sides (realPt a) (realPt b) (realPt c)).1
      rw [this]; exact he
  · have : (triR a b c).longestSide = _ := (C41_sides (realPt a) (realPt b) (realPt c)).2.1
    rw [this]
    have l : (tri64 a b c : Tri (B64 sq hy)).longestSide = pick64 (pick64 (Fl.fin x) (Fl.fin y)) (Fl.fin z) := by
      rw [← ex, ← ey, ← ez]; rfl
    refine ⟨max (max x y) z, by rw [l, pick64_fin, pick64_fin], ?_⟩
    have n0 := lib.nonneg
    have mx : ∀ {p q P Q : ℝ}, 0 ≤ P → 0 ≤ Q → |p - P| ≤ ε * P → |q - Q| ≤ ε * Q → |max p q - max P Q| ≤ ε * max P Q := by
      intro p q P Q p0 q0 hp hq
      refine (abs_max_sub_max_le_max p q P Q).trans (max_le (hp.trans ?_) (hq.trans ?_))
      · exact mul_le_mul_of_nonneg_left (le_max_left _ _) n0
      · exact mul_le_mul_of_nonneg_left (le_max_right _ _) n0
    push_cast
    exact mx (x0.trans (le_max_left _ _)) z0 (mx x0 y0 rx ry) rz

end grid

theorem ord_det {g : ℤ} {a b c : Coord ℚ} (ha : OnGridB 24 g a) (hb : OnGridB 24 g b) (hc : OnGridB 24 g c) : OrdB 51 (g + g) (det a b c) := by
  have := (ord_sum hc.ordx ha.ordx hb.ordy ha.ordy hb.ordx ha.ordx hc.ordy ha.ordy).2.neg
  rwa [show -((c.x - a.x) * (b.y - a.y) - (b.x - a.x) * (c.y - a.y)) = det a b c by unfold det; ring] at this

theorem det_real (a b c : Coord ℚ) : det (realPt a) (realPt b) (realPt c) = ((det a b c : ℚ) : ℝ) := by
  unfold det realPt; push_cast; ring

theorem lit4_64 : (lit 4 : B64 sq hy) = Fl.fin 4 := rnd_of_f64 (f64_of (by decide +kernel))

theorem Ap.div_exact {β B v X : ℝ} (d : ℝ) (hd : 0 < d) (h : Ap β B v X) : Ap β (B / d) (v / d) (X / d) := by
  refine ⟨by rw [abs_div, abs_of_pos hd]; exact div_le_div_of_nonneg_right h.bound hd.le, ?_⟩
  rw [← sub_div, abs_div, abs_of_pos hd, ← mul_div_assoc]
  exact div_le_div_of_nonneg_right h.err hd.le

theorem low_mul {X Y : ℝ} {j k : ℤ} (hx : X = 0 ∨ (2 : ℝ) ^ j ≤ X) (hy : Y = 0 ∨ (2 : ℝ) ^ k ≤ Y) : X * Y = 0 ∨ (2 : ℝ) ^ (j + k) ≤ X * Y := by
  rcases hx with h | h
  · left; rw [h, zero_mul]
  · rcases hy with h' | h'
    · left; rw [h', mul_zero]
    · right
      have p : (0 : ℝ) < 2 ^ j := zpow_pos (by norm_num) _
      have q : (0 : ℝ) < 2 ^ k := zpow_pos (by norm_num) _
      rw [zpow_add₀ two_ne_zero]; exact mul_le_mul h h' q.le (p.le.trans h)

theorem high_mul {X Y : ℝ} {j k : ℤ} (y0 : 0 ≤ Y) (hx : X ≤ (2 : ℝ) ^ j) (hy : Y ≤ (2 : ℝ) ^ k) : X * Y ≤ (2 : ℝ) ^ (j + k) := by
  rw [zpow_add₀ two_ne_zero]; exact mul_le_mul hx hy y0 (zpow_pos (by norm_num) _).le

/-- C113: the circumradius of a triangle of grid points that is not flat has relative error at most (1+ε)³(1+2^-53)³-1; the circumradius
of a flat triangle is infinite. -/
theorem C113_circumradius {g : ℤ} (h1 : -340 ≤ g) (h2 : g ≤ 314) {ε : ℝ} (lib : Lib64 sq hy ε) (hε : ε ≤ 1 / 16)
    {a b c : Coord ℚ} (ha : OnGridB 24 g a) (hb : OnGridB 24 g b) (hc : OnGridB 24 g c) :
    (det a b c = 0 → (tri64 a b c : Tri (B64 sq hy)).circumradius = Fl.pinf) ∧
    (det a b c ≠ 0 → ∃ w : ℚ, (tri64 a b c : Tri (B64 sq hy)).circumradius = Fl.fin w ∧
      |(w : ℝ) - (triR a b c).circumradius| ≤ ((1 + ε) ^ 3 * (1 + 1 / 2 ^ 53) ^ 3 - 1) * (triR a b c).circumradius) := by
  obtain ⟨x, ex, rx, lx, bx⟩ := grid_side (by omega) (by omega) lib ha hb
  obtain ⟨y, ey, ry, ly, by'⟩ := grid_side (by omega) (by omega) lib hb hc
  obtain ⟨z, ez, rz, lz, bz⟩ := grid_side (by omega) (by omega) lib hc ha
  have x0 := Spec.dist_nonneg (realPt a) (realPt b)
  have y0 := Spec.dist_nonneg (realPt b) (realPt c)
  have z0 := Spec.dist_nonneg (realPt c) (realPt a)
  have ar := (C93_area (sq := sq) (hy := hy) (g := g) (by omega) (by omega) ha hb hc).2
  have e : (tri64 a b c : Tri (B64 sq hy)).circumradius =
      if (Fl.fin (|det a b c| / 2) : B64 sq hy) ==. lit 0 then pinf
      else (Fl.fin x *. Fl.fin y *. Fl.fin z) /. (lit 4 *. Fl.fin (|det a b c| / 2)) := by
    rw [← ex, ← ey, ← ez, ← ar]; rfl
  have z64 : (lit 0 : B64 sq hy) = Fl.fin 0 := rnd_of_f64 (f64_of (by decide +kernel))
  refine ⟨fun h0 => ?_, fun h0 => ?_⟩
  · rw [e, h0, z64, if_pos (by exact decide_eq_true (by simp))]; rfl
  have od := ord_det ha hb hc
  obtain ⟨bd, ld⟩ := ord_abs od
  have ld := ld.resolve_left h0
  have d0 : 0 < |det a b c| := abs_pos.mpr h0
  rw [e, z64, if_neg (by intro h; have := of_decide_eq_true h; linarith), lit4_64]
  have f4 : (Fl.fin 4 : B64 sq hy) *. Fl.fin (|det a b c| / 2) = Fl.fin (2 * |det a b c|) := by
    have : (4 : ℚ) * (|det a b c| / 2) = 2 * |det a b c| := by ring
    refine (mul_fin (this ▸ ?_)).trans (congrArg Fl.fin this)
    have ob : OrdB 51 (g + g) |det a b c| := by
      rcases abs_choice (det a b c) with h | h
      · rw [h]; exact od
      · rw [h]; exact od.neg
    have := ob.add ob
    rw [two_mul]
    exact ordB_f64 this (by omega) (by omega) (by omega)
  rw [f4]
  have n0 := lib.nonneg
  generalize hX : dist (realPt a) (realPt b) = X at *
  generalize hY : dist (realPt b) (realPt c) = Y at *
  generalize hZ : dist (realPt c) (realPt a) = Z at *
  have re : (triR a b c).circumradius = X * Y * Z / (2 * |((det a b c : ℚ) : ℝ)|) := by
    have : (triR a b c).circumradius = _ := circumradius_eq (realPt a) (realPt b) (realPt c)
    rw [this, det_real, if_neg (by exact_mod_cast h0), hX, hY, hZ]
  rw [re]
  have m1 := (Ap.of_rel x0 rx).mul n0 (Ap.of_rel y0 ry)
  rw [show (x : ℝ) * y = ((x * y : ℚ) : ℝ) by push_cast; rfl] at m1
  obtain ⟨r1, a1⟩ := pos_round (sq := sq) (hy := hy) m1 (by nlinarith)
    ((low_mul lx ly).imp id (fun h => (zpow2_mono (by omega)).trans h)) ((high_mul y0 bx by').trans (zpow2_mono (by omega)))
  have m2 := a1.mul (by norm_num; nlinarith) (Ap.of_rel z0 rz)
  rw [show ((near (x * y) : ℚ) : ℝ) * z = ((near (x * y) * z : ℚ) : ℝ) by push_cast; rfl] at m2
  have lxyz := low_mul (low_mul lx ly) lz
  have bxyz := high_mul z0 (high_mul y0 bx by') bz
  have g3 : ε ^ 2 ≤ 1 / 256 := by nlinarith
  have g4 : ε ^ 3 ≤ 1 / 4096 := by nlinarith
  obtain ⟨r2, a2⟩ := pos_round (sq := sq) (hy := hy) m2 (by ring_nf; nlinarith)
    (lxyz.imp id (fun h => (zpow2_mono (by omega)).trans h)) (bxyz.trans (zpow2_mono (by omega)))
  have dR : (0 : ℝ) < 2 * |((det a b c : ℚ) : ℝ)| := by
    have : (0 : ℝ) < |((det a b c : ℚ) : ℝ)| := by exact_mod_cast d0
    linarith
  have m3 := a2.div_exact _ dR
  generalize hw : near (near (x * y) * z) = w at *
  rw [show (w : ℝ) / (2 * |((det a b c : ℚ) : ℝ)|) = ((w / (2 * |det a b c|) : ℚ) : ℝ) by push_cast; rfl] at m3
  have dl : (2 : ℝ) ^ (g + g) ≤ |((det a b c : ℚ) : ℝ)| := by
    have : ((2 ^ (g + g) : ℚ) : ℝ) ≤ ((|det a b c| : ℚ) : ℝ) := by exact_mod_cast ld
    push_cast at this ⊢; exact this
  have dh := cast_bound bd
  obtain ⟨r3, a3⟩ := pos_round (sq := sq) (hy := hy) m3 (by ring_nf; nlinarith) (by
      refine lxyz.imp (fun h => by rw [h, zero_div]) (fun h => ?_)
      rw [le_div_iff₀ dR]
      refine le_trans ?_ h
      calc (2 : ℝ) ^ (-1021 : ℤ) * (2 * |((det a b c : ℚ) : ℝ)|) ≤ 2 ^ (-1021 : ℤ) * (2 * 2 ^ (((51 : ℕ) : ℤ) + (g + g))) := by gcongr
        _ = 2 ^ (-1021 + (1 + (((51 : ℕ) : ℤ) + (g + g)))) := by rw [dbl_zpow, ← zpow_add₀ two_ne_zero]
        _ ≤ _ := zpow2_mono (by push_cast; omega)) (by
      rw [div_le_iff₀ dR]
      refine bxyz.trans ?_
      calc (2 : ℝ) ^ (g + 26 + (g + 26) + (g + 26)) ≤ 2 ^ (1022 + (1 + (g + g))) := zpow2_mono (by omega)
        _ = 2 ^ (1022 : ℤ) * (2 * 2 ^ (g + g)) := by rw [dbl_zpow, ← zpow_add₀ two_ne_zero]
        _ ≤ _ := by gcongr)
  refine ⟨near (w / (2 * |det a b c|)), ?_, ?_⟩
  · show (Fl.fin x *. Fl.fin y *. Fl.fin z : B64 sq hy) /. Fl.fin (2 * |det a b c|) = _
    have p1 : (Fl.fin x : B64 sq hy) *. Fl.fin y = Fl.fin (near (x * y)) := r1
    have p2 : (Fl.fin (near (x * y)) : B64 sq hy) *. Fl.fin z = Fl.fin w := r2
    rw [p1, p2]
    have : (Fl.fin w : B64 sq hy) /. Fl.fin (2 * |det a b c|) = if 2 * |det a b c| = 0 then Fl.infOf w else Fl.round (w / (2 * |det a b c|)) := rfl
    rw [this, if_neg (by positivity), r3]
  · have := a3.err
    refine this.trans (le_of_eq ?_)
    congr 1; ring

/-! ## Weighted means -/

theorem near_err_real (q : ℚ) : |((near q : ℚ) : ℝ) - q| ≤ |(q : ℝ)| / 2 ^ 53 + 2 ^ (-1075 : ℤ) := by
  have : ((|q - near q| : ℚ) : ℝ) ≤ ((|q| / 2 ^ 53 + 2 ^ (-1075 : ℤ) : ℚ) : ℝ) := by exact_mod_cast near_err_abs q
  push_cast at this
  rwa [abs_sub_comm] at this

theorem low_add {X Y l : ℝ} (x0 : 0 ≤ X) (y0 : 0 ≤ Y) (hx : X = 0 ∨ l ≤ X) (hy : Y = 0 ∨ l ≤ Y) : X + Y = 0 ∨ l ≤ X + Y := by
  rcases hx with h | h
  · rcases hy with k | k
    · left; rw [h, k, add_zero]
    · right; linarith
  · right; linarith

section mean
variable {g : ℤ} (h1 : -484 ≤ g) (h2 : g ≤ 400) {ε : ℝ} (lib : Lib64 sq hy ε) (hε : ε ≤ 1 / 2 ^ 52)
include h1 h2 lib hε

/-- The product of a computed length and an ordinate. -/
theorem weight64 {l x : ℚ} {L : ℝ} (L0 : 0 ≤ L) (hl : |(l : ℝ) - L| ≤ ε * L) (lL : L = 0 ∨ (2 : ℝ) ^ g ≤ L) (bL : L ≤ 2 ^ (g + 26)) (hx : OrdB 24 g x) :
    (Fl.fin l : B64 sq hy) *. Fl.fin x = Fl.fin (near (l * x)) ∧
    Ap ((1 + ε) * (1 + 1 / 2 ^ 53) - 1) (L * 2 ^ (g + 24)) (near (l * x)) (L * x) := by
  have n0 := lib.nonneg
  obtain ⟨bx, lx⟩ := ord_abs hx
  have cx : |(x : ℝ)| ≤ (2 : ℝ) ^ (g + 24) := by have := cast_bound bx; rwa [show (((24 : ℕ) : ℤ) + g) = g + 24 by push_cast; ring] at this
  have m := (Ap.of_rel L0 hl).mul n0 (Ap.exact cx)
  rw [show (l : ℝ) * x = ((l * x : ℚ) : ℝ) by push_cast; rfl, show (1 + ε) * (1 + 0) - 1 = ε by ring] at m
  refine ⟨fin_below ?_, m.round ?_⟩
  · have s := m.size
    have : (1 + ε) * (L * (2 : ℝ) ^ (g + 24)) ≤ 2 ^ (1023 : ℤ) := by
      have k := high_mul (zpow_pos (by norm_num) _).le bL (le_refl ((2 : ℝ) ^ (g + 24)))
      have k0 : 0 ≤ L * (2 : ℝ) ^ (g + 24) := mul_nonneg L0 (zpow_pos (by norm_num) _).le
      calc (1 + ε) * (L * (2 : ℝ) ^ (g + 24)) ≤ 2 * 2 ^ (g + 26 + (g + 24)) := by
            refine mul_le_mul (by norm_num at hε ⊢; linarith) k k0 (by norm_num)
        _ = 2 ^ (1 + (g + 26 + (g + 24))) := dbl_zpow _
        _ ≤ _ := zpow2_mono (by omega)
    have := s.trans this
    have : ((|l * x| : ℚ) : ℝ) ≤ ((2 ^ (1023 : ℤ) : ℚ) : ℝ) := by push_cast at this ⊢; exact this
    exact_mod_cast this
  · have zero : l * x = 0 → |l * x - near (l * x)| ≤ |l * x| / 2 ^ 53 := fun h => by rw [h, near_of_rep rep_zero]; simp
    rcases lL with h | h
    · apply zero
      rw [h, mul_zero, sub_zero] at hl
      have : (l : ℝ) = 0 := abs_eq_zero.mp (le_antisymm hl (abs_nonneg _))
      have : l = 0 := by exact_mod_cast this
      rw [this, zero_mul]
    · rcases lx with h' | h'
      · exact zero (by rw [h', mul_zero])
      · apply near_rel
        have ll : (2 : ℝ) ^ (g - 1) ≤ l := by
          have := (abs_le.mp hl).1
          rw [zpow_sub_one₀ (by norm_num)]
          have : ε * L ≤ 1 / 2 * L := mul_le_mul_of_nonneg_right lib.le_half L0
          linarith
        have ll : (2 : ℚ) ^ (g - 1) ≤ l := by
          have : (((2 : ℚ) ^ (g - 1) : ℚ) : ℝ) ≤ l := by push_cast; exact ll
          exact_mod_cast this
        rw [abs_mul]
        calc (2 : ℚ) ^ (-1022 : ℤ) ≤ 2 ^ (g - 1 + g) := two_mono (by omega)
          _ = 2 ^ (g - 1) * 2 ^ g := two_add _ _
          _ ≤ |l| * |x| := mul_le_mul (ll.trans (le_abs_self l)) h' (two_pos _).le (abs_nonneg _)

/-- The mean of three ordinates, weighted with computed lengths. -/
theorem mean64 {l m n x y z : ℚ} {L M N : ℝ} (L0 : 0 ≤ L) (M0 : 0 ≤ M) (N0 : 0 ≤ N) (hl : |(l : ℝ) - L| ≤ ε * L) (hm : |(m : ℝ) - M| ≤ ε * M)
    (hn : |(n : ℝ) - N| ≤ ε * N) (lL : L = 0 ∨ (2 : ℝ) ^ g ≤ L) (lM : M = 0 ∨ (2 : ℝ) ^ g ≤ M) (lN : N = 0 ∨ (2 : ℝ) ^ g ≤ N)
    (bL : L ≤ 2 ^ (g + 26)) (bM : M ≤ 2 ^ (g + 26)) (bN : N ≤ 2 ^ (g + 26)) (S0 : 0 < L + M + N)
    (hx : OrdB 24 g x) (hy' : OrdB 24 g y) (hz : OrdB 24 g z) :
    ∃ w : ℚ, ((Fl.fin l : B64 sq hy) *. Fl.fin x +. Fl.fin m *. Fl.fin y +. Fl.fin n *. Fl.fin z) /. (Fl.fin l +. Fl.fin m +. Fl.fin n) = Fl.fin w ∧
      |(w : ℝ) - (L * x + M * y + N * z) / (L + M + N)| ≤ 2 ^ (g - 25) := by
  have n0 := lib.nonneg
  have hε4 : ε ≤ 1 / 4 := hε.trans (by norm_num)
  obtain ⟨s, es, rs⟩ := three_sides h1 h2 lib hε4 L0 M0 N0 hl hm hn lL lM lN bL bM bN
  obtain ⟨e1, a1⟩ := weight64 h1 h2 lib hε L0 hl lL bL hx
  obtain ⟨e2, a2⟩ := weight64 h1 h2 lib hε M0 hm lM bM hy'
  obtain ⟨e3, a3⟩ := weight64 h1 h2 lib hε N0 hn lN bN hz
  rw [es, e1, e2, e3]
  generalize hp : near (l * x) = p at *
  generalize hq : near (m * y) = q at *
  generalize hr : near (n * z) = r at *
  have rp : Rep p := hp ▸ near_rep _
  have rq : Rep q := hq ▸ near_rep _
  have rr : Rep r := hr ▸ near_rep _
  obtain ⟨P, hP⟩ : ∃ P : ℝ, P = 2 ^ (g + 24) := ⟨_, rfl⟩
  have P0 : 0 < P := by rw [hP]; exact zpow_pos (by norm_num) _
  rw [← hP] at a1 a2 a3
  have S26 : (L + M + N) * P ≤ 2 ^ (g + 28 + (g + 24)) := by
    rw [hP]
    refine high_mul (zpow_pos (by norm_num) _).le ?_ le_rfl
    rw [show (2 : ℝ) ^ (g + 28) = 4 * 2 ^ (g + 26) by rw [show g + 28 = 2 + (g + 26) by ring, zpow_add₀ two_ne_zero 2]; norm_num]
    linarith
  have small : ∀ {t T : ℝ}, |t| ≤ 2 * T → T ≤ (L + M + N) * P → |t| ≤ 2 ^ (1023 : ℤ) := fun {t T} h k => by
    refine h.trans ((mul_le_mul_of_nonneg_left (k.trans S26) (by norm_num)).trans ?_)
    rw [dbl_zpow]; exact zpow2_mono (by omega)
  have ss := a1.add a2
  rw [show (p : ℝ) + q = ((p + q : ℚ) : ℝ) by push_cast; rfl] at ss
  have b4 := ss.round (near_add_rel rp rq)
  have f4 : (Fl.fin p : B64 sq hy) +. Fl.fin q = Fl.fin (near (p + q)) := by
    refine fin_below ?_
    have k : |((p + q : ℚ) : ℝ)| ≤ 2 ^ (1023 : ℤ) := small (T := L * P + M * P) (ss.size.trans (mul_le_mul_of_nonneg_right (by norm_num at hε ⊢; linarith) ss.nonneg))
      (by have := mul_nonneg N0 P0.le; linarith)
    have : ((|p + q| : ℚ) : ℝ) ≤ ((2 ^ (1023 : ℤ) : ℚ) : ℝ) := by push_cast at k ⊢; exact k
    exact_mod_cast this
  rw [f4]
  generalize hv : near (p + q) = v at *
  have rv : Rep v := hv ▸ near_rep _
  have k5 := b4.add (a3.mono (β := (1 + ((1 + ε) * (1 + 1 / 2 ^ 53) - 1)) * (1 + 1 / 2 ^ 53) - 1) (by norm_num; nlinarith))
  rw [show (v : ℝ) + r = ((v + r : ℚ) : ℝ) by push_cast; rfl] at k5
  have b5 := k5.round (near_add_rel rv rr)
  have f5 : (Fl.fin v : B64 sq hy) +. Fl.fin r = Fl.fin (near (v + r)) := by
    refine fin_below ?_
    have k : |((v + r : ℚ) : ℝ)| ≤ 2 ^ (1023 : ℤ) := small (T := L * P + M * P + N * P) (k5.size.trans (mul_le_mul_of_nonneg_right (by norm_num at hε ⊢; linarith) k5.nonneg))
      (by linarith)
    have : ((|v + r| : ℚ) : ℝ) ≤ ((2 ^ (1023 : ℤ) : ℚ) : ℝ) := by push_cast at k ⊢; exact k
    exact_mod_cast this
  rw [f5]
  generalize near (v + r) = t at *
  have er := b5.err
  have bn := b5.bound
  generalize hS : L + M + N = S at *
  rw [show L * P + M * P + N * P = S * P by rw [← hS]; ring] at er bn
  generalize hT : L * (x : ℝ) + M * y + N * z = T at *
  have er' : |(t : ℝ) - T| ≤ 6 / 2 ^ 53 * (S * P) := by
    refine er.trans (mul_le_mul_of_nonneg_right ?_ (by positivity))
    norm_num at hε ⊢; linarith
  have rs' : |(s : ℝ) - S| ≤ 5 / 2 ^ 53 * S := by
    refine rs.trans (mul_le_mul_of_nonneg_right ?_ S0.le)
    unfold distErr; norm_num at hε ⊢; linarith
  have sl := (abs_le.mp rs').1
  have s1 : (1 - 5 / 2 ^ 53) * S ≤ s := by linarith
  have s0 : (0 : ℝ) < s := lt_of_lt_of_le (by norm_num; exact S0) s1
  have sq0 : 0 < s := by exact_mod_cast s0
  -- the quotient before rounding
  have quo : |((t / s : ℚ) : ℝ) - T / S| ≤ 23 / 2 * (1 / 2 ^ 53) * P := by
    have e : ((t / s : ℚ) : ℝ) - T / S = ((t - T) * S + T * (S - s)) / (s * S) := by push_cast; field_simp; ring
    rw [e, abs_div, abs_of_pos (mul_pos s0 S0), div_le_iff₀ (mul_pos s0 S0)]
    have u1 : |((t : ℝ) - T) * S| ≤ 6 / 2 ^ 53 * (S * P) * S := by rw [abs_mul, abs_of_pos S0]; exact mul_le_mul_of_nonneg_right er' S0.le
    have u2 : |T * (S - s)| ≤ S * P * (5 / 2 ^ 53 * S) := by
      rw [abs_mul, abs_sub_comm S]; exact mul_le_mul bn rs' (abs_nonneg _) (by positivity)
    have u3 := abs_add_le (((t : ℝ) - T) * S) (T * (S - s))
    have u4 : 11 / 2 ^ 53 * (S * P * S) ≤ 23 / 2 * (1 / 2 ^ 53) * P * (s * S) := by
      have : (1 - 5 / 2 ^ 53) * S * (S * P) ≤ s * (S * P) := mul_le_mul_of_nonneg_right s1 (by positivity)
      have p0 : 0 ≤ S * P * S := by positivity
      norm_num at this ⊢
      nlinarith
    linarith
  have TS : |T / S| ≤ P := by rw [abs_div, abs_of_pos S0, div_le_iff₀ S0]; linarith
  have rb : |((t / s : ℚ) : ℝ)| ≤ 2 * P := by
    have := abs_sub_abs_le_abs_sub ((t / s : ℚ) : ℝ) (T / S)
    norm_num at quo this ⊢
    linarith
  have ne := near_err_real (t / s)
  have tiny : (2 : ℝ) ^ (-1075 : ℤ) ≤ 1 / 2 ^ 53 * P := by
    rw [hP, show (1 : ℝ) / 2 ^ 53 = 2 ^ (-53 : ℤ) by norm_num, ← zpow_add₀ two_ne_zero]
    exact zpow2_mono (by omega)
  refine ⟨near (t / s), ?_, ?_⟩
  · have : (Fl.fin t : B64 sq hy) /. Fl.fin s = if s = 0 then Fl.infOf t else Fl.round (t / s) := rfl
    rw [this, if_neg sq0.ne']
    refine fin_below ?_
    have k : |((t / s : ℚ) : ℝ)| ≤ 2 ^ (1023 : ℤ) := by
      refine rb.trans ?_
      rw [hP, dbl_zpow]; exact zpow2_mono (by omega)
    have : ((|t / s| : ℚ) : ℝ) ≤ ((2 ^ (1023 : ℤ) : ℚ) : ℝ) := by push_cast at k ⊢; exact k
    exact_mod_cast this
  · have e : (2 : ℝ) ^ (g - 25) = 16 * (1 / 2 ^ 53) * P := by
      rw [hP, show (16 : ℝ) * (1 / 2 ^ 53) = 2 ^ (-49 : ℤ) by norm_num, ← zpow_add₀ two_ne_zero]; congr 1; ring
    rw [e]
    have k := abs_sub_le ((near (t / s) : ℚ) : ℝ) ((t / s : ℚ) : ℝ) (T / S)
    have : |((t / s : ℚ) : ℝ)| / 2 ^ 53 ≤ 2 * (1 / 2 ^ 53) * P :=
      (div_le_div_of_nonneg_right rb (by norm_num)).trans (le_of_eq (by ring))
    linarith

/-- A point between two ordinates, cut in the ratio of two computed lengths. -/
theorem cut64 {l n x z : ℚ} {L N : ℝ} (L0 : 0 ≤ L) (N0 : 0 ≤ N) (hl : |(l : ℝ) - L| ≤ ε * L) (hn : |(n : ℝ) - N| ≤ ε * N)
    (lL : L = 0 ∨ (2 : ℝ) ^ g ≤ L) (lN : N = 0 ∨ (2 : ℝ) ^ g ≤ N) (bL : L ≤ 2 ^ (g + 26)) (bN : N ≤ 2 ^ (g + 26)) (S0 : 0 < L + N)
    (hx : OrdB 24 g x) (hz : OrdB 24 g z) :
    ∃ w : ℚ, (Fl.fin x : B64 sq hy) +. Fl.fin l /. (Fl.fin l +. Fl.fin n) *. (Fl.fin z -. Fl.fin x) = Fl.fin w ∧
      |(w : ℝ) - (x + L / (L + N) * (z - x))| ≤ 2 ^ (g - 25) := by
  have n0 := lib.nonneg
  obtain ⟨u, hu⟩ : ∃ u : ℝ, u = 1 / 2 ^ 53 := ⟨_, rfl⟩
  have u0 : 0 < u := by rw [hu]; norm_num
  have u1 : u ≤ 1 / 1000000 := by rw [hu]; norm_num
  have εu : ε ≤ 2 * u := by rw [hu]; exact hε.trans (by norm_num)
  obtain ⟨P, hP⟩ : ∃ P : ℝ, P = 2 ^ (g + 24) := ⟨_, rfl⟩
  have P0 : 0 < P := by rw [hP]; exact zpow_pos (by norm_num) _
  have tiny : (2 : ℝ) ^ (-1075 : ℤ) ≤ 1 / 1000 * u := by
    rw [hu]; refine (zpow2_mono (show (-1075 : ℤ) ≤ -63 by norm_num)).trans ?_; norm_num
  have tinyP : (2 : ℝ) ^ (-1075 : ℤ) ≤ 1 / 1000 * u * P := by
    have : (2 : ℝ) ^ (-63 : ℤ) * P ≤ 1 / 1000 * u * P := mul_le_mul_of_nonneg_right (by rw [hu]; norm_num) P0.le
    refine le_trans ?_ this
    rw [hP, ← zpow_add₀ two_ne_zero]
    exact zpow2_mono (by omega)
  have fin_real : ∀ {q : ℚ}, |(q : ℝ)| ≤ 2 ^ (1023 : ℤ) → (Fl.round q : B64 sq hy) = Fl.fin (near q) := fun {q} h => by
    refine fin_below ?_
    have : ((|q| : ℚ) : ℝ) ≤ ((2 ^ (1023 : ℤ) : ℚ) : ℝ) := by push_cast; exact h
    exact_mod_cast this
  -- the sum of the lengths
  have ap := (Ap.of_rel L0 hl).add (Ap.of_rel N0 hn)
  rw [show (l : ℝ) + n = ((l + n : ℚ) : ℝ) by push_cast; rfl] at ap
  obtain ⟨fs, as⟩ := pos_round (sq := sq) (hy := hy) ap (hε.trans (by norm_num)) (low_add L0 N0 (lL.imp_right ((zpow2_mono (by omega)).trans ·)) (lN.imp_right ((zpow2_mono (by omega)).trans ·))) (by
    have : L + N ≤ 2 * 2 ^ (g + 26) := by linarith
    refine this.trans ?_
    rw [dbl_zpow]; exact zpow2_mono (by omega))
  have fs : (Fl.fin l : B64 sq hy) +. Fl.fin n = Fl.fin (near (l + n)) := fs
  rw [fs]
  generalize near (l + n) = s at *
  have es := as.err
  rw [← hu] at es
  generalize hS : L + N = S at *
  have LS : L ≤ S := by linarith
  have es' : |(s : ℝ) - S| ≤ 3001 / 1000 * u * S := by
    refine es.trans (mul_le_mul_of_nonneg_right ?_ S0.le)
    have : ε * u ≤ 1 / 1000000 * u := mul_le_mul_of_nonneg_right (by linarith) u0.le
    linarith
  have sl := (abs_le.mp es').1
  have uS : 3001 / 1000 * u * S ≤ 1 / 100000 * S := mul_le_mul_of_nonneg_right (by linarith) S0.le
  have s1 : (1 - 1 / 100000) * S ≤ s := by linarith
  have s0 : (0 : ℝ) < s := lt_of_lt_of_le (by norm_num; exact S0) s1
  have sq0 : 0 < s := by exact_mod_cast s0
  -- the fraction
  have quo : |((l / s : ℚ) : ℝ) - L / S| ≤ 5010 / 1000 * u := by
    have e : ((l / s : ℚ) : ℝ) - L / S = ((l - L) * S + L * (S - s)) / (s * S) := by push_cast; field_simp; ring
    rw [e, abs_div, abs_of_pos (mul_pos s0 S0), div_le_iff₀ (mul_pos s0 S0)]
    have v1 : |((l : ℝ) - L) * S| ≤ 2 * u * (S * S) := by
      rw [abs_mul, abs_of_pos S0, ← mul_assoc]
      refine mul_le_mul_of_nonneg_right (hl.trans ?_) S0.le
      exact mul_le_mul εu LS L0 (by linarith)
    have v2 : |L * (S - s)| ≤ 3001 / 1000 * u * (S * S) := by
      rw [abs_mul, abs_sub_comm S, abs_of_nonneg L0]
      calc L * |(s : ℝ) - S| ≤ S * (3001 / 1000 * u * S) := mul_le_mul LS es' (abs_nonneg _) S0.le
        _ = _ := by ring
    have v3 := abs_add_le (((l : ℝ) - L) * S) (L * (S - s))
    have v4 : 5010 / 1000 * u * ((1 - 1 / 100000) * S * S) ≤ 5010 / 1000 * u * (s * S) :=
      mul_le_mul_of_nonneg_left (mul_le_mul_of_nonneg_right s1 S0.le) (by linarith)
    have v5 : 0 ≤ u * (S * S) := by positivity
    linarith
  have F0 : 0 ≤ L / S := div_nonneg L0 S0.le
  have F1 : L / S ≤ 1 := by rw [div_le_one S0]; exact LS
  generalize L / S = F at *
  have qb : |((l / s : ℚ) : ℝ)| ≤ 1001 / 1000 := by
    have := abs_sub_abs_le_abs_sub ((l / s : ℚ) : ℝ) F
    rw [abs_of_nonneg F0] at this
    linarith
  have fq : (Fl.fin l : B64 sq hy) /. Fl.fin s = Fl.fin (near (l / s)) := by
    have : (Fl.fin l : B64 sq hy) /. Fl.fin s = if s = 0 then Fl.infOf l else Fl.round (l / s) := rfl
    rw [this, if_neg sq0.ne']
    refine fin_real (qb.trans ?_)
    refine le_trans ?_ (zpow2_mono (show (1 : ℤ) ≤ 1023 by norm_num)); norm_num
  have ef : |((near (l / s) : ℚ) : ℝ) - F| ≤ 6020 / 1000 * u := by
    have a := near_err_real (l / s)
    have b := abs_sub_le ((near (l / s) : ℚ) : ℝ) ((l / s : ℚ) : ℝ) F
    have c : |((l / s : ℚ) : ℝ)| / 2 ^ 53 ≤ 1001 / 1000 * u := by rw [hu, div_eq_mul_one_div]; exact mul_le_mul_of_nonneg_right qb (by norm_num)
    linarith
  rw [fq]
  generalize near (l / s) = f at *
  -- the difference
  have od := hz.sub hx
  have fd : (Fl.fin z : B64 sq hy) -. Fl.fin x = Fl.fin (z - x) := sub_fin (ordB_f64 od (by omega) (by omega) (by omega))
  rw [fd]
  have bd : |((z - x : ℚ) : ℝ)| ≤ 2 * P := by
    have := cast_bound (ord_abs od).1
    rw [hP, dbl_zpow]; refine this.trans (zpow2_mono (by push_cast; omega))
  have bx : |(x : ℝ)| ≤ P := by rw [hP]; exact (cast_bound (ord_abs hx).1).trans (zpow2_mono (by push_cast; omega))
  have bz : |(z : ℝ)| ≤ P := by rw [hP]; exact (cast_bound (ord_abs hz).1).trans (zpow2_mono (by push_cast; omega))
  have zx : ((z - x : ℚ) : ℝ) = z - x := by push_cast; rfl
  generalize z - x = d at *
  -- the product
  have uP : 0 ≤ u * P := by positivity
  have uP1 : u * P ≤ 1 / 1000000 * P := mul_le_mul_of_nonneg_right u1 P0.le
  have ep : |((f * d : ℚ) : ℝ) - F * d| ≤ 12040 / 1000 * (u * P) := by
    have : ((f * d : ℚ) : ℝ) - F * d = (f - F) * d := by push_cast; ring
    rw [this, abs_mul]
    exact (mul_le_mul ef bd (abs_nonneg _) (by linarith)).trans (le_of_eq (by ring))
  have Fd : |F * d| ≤ 2 * P := by
    rw [abs_mul, abs_of_nonneg F0]
    exact (mul_le_mul F1 bd (abs_nonneg _) (by norm_num)).trans (le_of_eq (by ring))
  have pb : |((f * d : ℚ) : ℝ)| ≤ 2001 / 1000 * P := by
    have := abs_sub_abs_le_abs_sub ((f * d : ℚ) : ℝ) (F * d)
    linarith
  have cap : ∀ {t : ℝ}, t ≤ 4 * P → t ≤ 2 ^ (1023 : ℤ) := fun {t} h => by
    refine h.trans ?_
    rw [hP, show 4 * (2 : ℝ) ^ (g + 24) = 2 ^ (2 + (g + 24)) by rw [zpow_add₀ two_ne_zero 2 (g + 24)]; norm_num]
    exact zpow2_mono (by omega)
  have fp : (Fl.fin f : B64 sq hy) *. Fl.fin d = Fl.fin (near (f * d)) := fin_real (cap (by linarith))
  rw [fp]
  have ep2 : |((near (f * d) : ℚ) : ℝ) - F * d| ≤ 14045 / 1000 * (u * P) := by
    have a := near_err_real (f * d)
    have b := abs_sub_le ((near (f * d) : ℚ) : ℝ) ((f * d : ℚ) : ℝ) (F * d)
    have c : |((f * d : ℚ) : ℝ)| / 2 ^ 53 ≤ 2001 / 1000 * P * u := by rw [hu, div_eq_mul_one_div]; exact mul_le_mul_of_nonneg_right pb (by norm_num)
    linarith
  generalize near (f * d) = p at *
  -- the sum
  have et : |((x + p : ℚ) : ℝ) - (x + F * d)| ≤ 14045 / 1000 * (u * P) := by
    have : ((x + p : ℚ) : ℝ) - (x + F * d) = p - F * d := by push_cast; ring
    rwa [this]
  have cv : |(x : ℝ) + F * d| ≤ P := by
    have : (x : ℝ) + F * d = (1 - F) * x + F * z := by rw [zx]; ring
    rw [this]
    have a := abs_add_le ((1 - F) * (x : ℝ)) (F * z)
    rw [abs_mul, abs_mul, abs_of_nonneg F0, abs_of_nonneg (by linarith : 0 ≤ 1 - F)] at a
    have b := mul_le_mul_of_nonneg_left bx (by linarith : 0 ≤ 1 - F)
    have c := mul_le_mul_of_nonneg_left bz F0
    linarith
  have tb : |((x + p : ℚ) : ℝ)| ≤ 1001 / 1000 * P := by
    have := abs_sub_abs_le_abs_sub ((x + p : ℚ) : ℝ) (x + F * d)
    linarith
  refine ⟨near (x + p), fin_real (cap (by linarith)), ?_⟩
  have a := near_err_real (x + p)
  have b := abs_sub_le ((near (x + p) : ℚ) : ℝ) ((x + p : ℚ) : ℝ) (x + F * d)
  have c : |((x + p : ℚ) : ℝ)| / 2 ^ 53 ≤ 1001 / 1000 * P * u := by rw [hu, div_eq_mul_one_div]; exact mul_le_mul_of_nonneg_right tb (by norm_num)
  have e : (2 : ℝ) ^ (g - 25) = 16 * (u * P) := by
    rw [hP, hu, ← mul_assoc, show (16 : ℝ) * (1 / 2 ^ 53) = 2 ^ (-49 : ℤ) by norm_num, ← zpow_add₀ two_ne_zero]; congr 1; ring
  rw [e, ← zx]
  linarith

end mean

/-- C113: the computed in-centre of a triangle of grid points that are not all the same is within 2^-49 of the size of the grid. -/
theorem C113_in_centre {g : ℤ} (h1 : -484 ≤ g) (h2 : g ≤ 400) {ε : ℝ} (lib : Lib64 sq hy ε) (hε : ε ≤ 1 / 2 ^ 52)
    {a b c : Coord ℚ} (ha : OnGridB 24 g a) (hb : OnGridB 24 g b) (hc : OnGridB 24 g c) (hne : ¬ ((a.x = b.x ∧ a.y = b.y) ∧ b.x = c.x ∧ b.y = c.y)) :
    ∃ u v : ℚ, (tri64 a b c : Tri (B64 sq hy)).inCentre = Coord.xy (Fl.fin u) (Fl.fin v) ∧
      |(u : ℝ) - (triR a b c).inCentre.x| ≤ 2 ^ (g - 25) ∧ |(v : ℝ) - (triR a b c).inCentre.y| ≤ 2 ^ (g - 25) := by
  obtain ⟨l, el, rl, ll, bl⟩ := grid_side h1 h2 lib hb hc
  obtain ⟨m, em, rm, lm, bm⟩ := grid_side h1 h2 lib ha hc
  obtain ⟨n, en, rn, ln, bn⟩ := grid_side h1 h2 lib ha hb
  have l0 := Spec.dist_nonneg (realPt b) (realPt c)
  have m0 := Spec.dist_nonneg (realPt a) (realPt c)
  have n0 := Spec.dist_nonneg (realPt a) (realPt b)
  have S0 : 0 < dist (realPt b) (realPt c) + dist (realPt a) (realPt c) + dist (realPt a) (realPt b) := by
    by_contra h
    have e1 : dist (realPt b) (realPt c) = 0 := by linarith
    have e2 : dist (realPt a) (realPt b) = 0 := by linarith
    obtain ⟨x1, y1⟩ := (Spec.dist_eq_zero _ _).mp e1
    obtain ⟨x2, y2⟩ := (Spec.dist_eq_zero _ _).mp e2
    simp only [realPt, Rat.cast_inj] at x1 y1 x2 y2
    exact hne ⟨⟨x2, y2⟩, x1, y1⟩
  obtain ⟨u, hu, eu⟩ := mean64 h1 h2 lib hε l0 m0 n0 rl rm rn ll lm ln bl bm bn S0 ha.ordx hb.ordx hc.ordx
  obtain ⟨v, hv, ev⟩ := mean64 h1 h2 lib hε l0 m0 n0 rl rm rn ll lm ln bl bm bn S0 ha.ordy hb.ordy hc.ordy
  refine ⟨u, v, ?_, ?_, ?_⟩
  · rw [← hu, ← hv, ← el, ← em, ← en]; rfl
  · have : (triR a b c).inCentre.x = _ := congrArg Coord.x (inCentre_xy (realPt a) (realPt b) (realPt c))
    rw [this, Spec.dist_comm (realPt c) (realPt a)]; exact eu
  · have : (triR a b c).inCentre.y = _ := congrArg Coord.y (inCentre_xy (realPt a) (realPt b) (realPt c))
    rw [this, Spec.dist_comm (realPt c) (realPt a)]; exact ev

/-- C113: the computed foot of the bisector at b is as close to the exact one, for points a, b, c with b different from a or c. -/
theorem C113_angle_bisector {g : ℤ} (h1 : -484 ≤ g) (h2 : g ≤ 400) {ε : ℝ} (lib : Lib64 sq hy ε) (hε : ε ≤ 1 / 2 ^ 52)
    {a b c : Coord ℚ} (ha : OnGridB 24 g a) (hb : OnGridB 24 g b) (hc : OnGridB 24 g c) (hne : ¬ ((b.x = a.x ∧ b.y = a.y) ∧ b.x = c.x ∧ b.y = c.y)) :
    ∃ u v : ℚ, Triangle.angleBisector (toB64 a : Coord (B64 sq hy)) (toB64 b) (toB64 c) = Coord.xy (Fl.fin u) (Fl.fin v) ∧
      |(u : ℝ) - (Triangle.angleBisector (realPt a) (realPt b) (realPt c)).x| ≤ 2 ^ (g - 25) ∧
      |(v : ℝ) - (Triangle.angleBisector (realPt a) (realPt b) (realPt c)).y| ≤ 2 ^ (g - 25) := by
  obtain ⟨l, el, rl, ll, bl⟩ := grid_side h1 h2 lib hb ha
  obtain ⟨n, en, rn, ln, bn⟩ := grid_side h1 h2 lib hb hc
  have l0 := Spec.dist_nonneg (realPt b) (realPt a)
  have n0 := Spec.dist_nonneg (realPt b) (realPt c)
  have S0 : 0 < dist (realPt b) (realPt a) + dist (realPt b) (realPt c) := by
    by_contra h
    have e1 : dist (realPt b) (realPt a) = 0 := by linarith
    have e2 : dist (realPt b) (realPt c) = 0 := by linarith
    obtain ⟨x1, y1⟩ := (Spec.dist_eq_zero _ _).mp e1
    obtain ⟨x2, y2⟩ := (Spec.dist_eq_zero _ _).mp e2
    simp only [realPt, Rat.cast_inj] at x1 y1 x2 y2
    exact hne ⟨⟨x1, y1⟩, x2, y2⟩
  obtain ⟨u, hu, eu⟩ := cut64 h1 h2 lib hε l0 n0 rl rn ll ln bl bn S0 ha.ordx hc.ordx
  obtain ⟨v, hv, ev⟩ := cut64 h1 h2 lib hε l0 n0 rl rn ll ln bl bn S0 ha.ordy hc.ordy
  refine ⟨u, v, ?_, ?_, ?_⟩
  · rw [← hu, ← hv, ← el, ← en]; rfl
  · have : (Triangle.angleBisector (realPt a) (realPt b) (realPt c)).x = (a.x : ℝ) + dist (realPt b) (realPt a) / (dist (realPt b) (realPt a) + dist (realPt b) (realPt c)) * (c.x - a.x) := by
      unfold Triangle.angleBisector; simp only [distance_eq, real_toFlt, exact_add, exact_mul, exact_div, exact_sub]; rfl
    rw [this]; exact eu
  · have : (Triangle.angleBisector (realPt a) (realPt b) (realPt c)).y = (a.y : ℝ) + dist (realPt b) (realPt a) / (dist (realPt b) (realPt a) + dist (realPt b) (realPt c)) * (c.y - a.y) := by
      unfold Triangle.angleBisector; simp only [distance_eq, real_toFlt, exact_add, exact_mul, exact_div, exact_sub]; rfl
    rw [this]; exact ev

/-! ## The area in space -/

/-- The triangle of points in space. -/
def tri3 (a b c : Coord ℚ) : Tri (B64 sq hy) := Tri.new (p3 a) (p3 b) (p3 c)

theorem sq_ap {g : ℤ} (h1 : -250 ≤ g) (h2 : g ≤ 200) {x : ℚ} (hx : OrdB 51 (g + g) x) :
    (Fl.fin x : B64 sq hy) *. Fl.fin x = Fl.fin (near (x * x)) ∧
    Ap (1 / 2 ^ 53) ((x : ℝ) * x) (near (x * x)) ((x : ℝ) * x) ∧ ((x : ℝ) * x = 0 ∨ (2 : ℝ) ^ (-1021 : ℤ) ≤ (x : ℝ) * x) ∧ (x : ℝ) * x ≤ 2 ^ (1000 : ℤ) := by
  obtain ⟨b, l⟩ := ord_abs hx
  have n := mul_self_nonneg (x : ℝ)
  have cb := cast_bound b
  have low : (x : ℝ) * x = 0 ∨ (2 : ℝ) ^ (-1021 : ℤ) ≤ (x : ℝ) * x := by
    rcases l with l | l
    · left; rw [l]; simp
    · right
      have : (2 : ℝ) ^ (g + g) ≤ |(x : ℝ)| := by
        have : ((2 ^ (g + g) : ℚ) : ℝ) ≤ ((|x| : ℚ) : ℝ) := by exact_mod_cast l
        push_cast at this ⊢; exact this
      rw [← abs_mul_abs_self]
      have p : (0 : ℝ) < 2 ^ (g + g) := zpow_pos (by norm_num) _
      have := mul_le_mul this this p.le (abs_nonneg _)
      rw [← zpow_add₀ two_ne_zero] at this
      exact (zpow2_mono (by omega)).trans this
  have high : (x : ℝ) * x ≤ 2 ^ (1000 : ℤ) := by
    rw [← abs_mul_abs_self]
    exact (high_mul (abs_nonneg _) cb cb).trans (zpow2_mono (by push_cast; omega))
  have ap : Ap 0 ((x : ℝ) * x) ((x * x : ℚ) : ℝ) ((x : ℝ) * x) := by
    push_cast; exact Ap.exact (by rw [abs_of_nonneg n])
  obtain ⟨r, a⟩ := pos_round (sq := sq) (hy := hy) ap (by norm_num) low (high.trans (zpow2_mono (by norm_num)))
  rw [show (1 + 0) * (1 + (1 : ℝ) / 2 ^ 53) - 1 = 1 / 2 ^ 53 by ring] at a
  exact ⟨r, a, low, high⟩

/-- A root of an approximate square. -/
theorem sqrt_ap {τ t T : ℝ} (hT : 0 ≤ T) (t0 : 0 ≤ t) (h : |t - T| ≤ τ * T) (hτ : 0 ≤ τ) : |√t - √T| ≤ τ * √T := by
  rcases eq_or_lt_of_le hT with h0 | h0
  · rw [← h0, mul_zero, sub_zero] at h
    have : t = 0 := abs_eq_zero.mp (le_antisymm h (abs_nonneg _))
    rw [this, ← h0]; simp
  · have p : 0 < √T := Real.sqrt_pos.mpr h0
    have q := Real.sqrt_nonneg t
    have e : (√t - √T) * (√t + √T) = t - T := by
      have a := Real.mul_self_sqrt t0
      have b := Real.mul_self_sqrt hT
      linear_combination a - b
    have k : |√t - √T| * (√t + √T) = |t - T| := by rw [← e, abs_mul, abs_of_pos (by linarith : 0 < √t + √T)]
    have : |√t - √T| * √T ≤ τ * √T * √T := by
      have b := Real.mul_self_sqrt hT
      rw [mul_assoc, b]
      refine le_trans ?_ h
      rw [← k]
      exact mul_le_mul_of_nonneg_left (by linarith) (abs_nonneg _)
    exact le_of_mul_le_mul_right this p

/-- C113: the computed area in space of a triangle whose ordinates are on a grid of 24 bits has relative error at most
(1+ε)(1+2^-53)⁴-1. In particular it is 0 exactly for points on a line. -/
theorem C113_area_3d {g : ℤ} (h1 : -250 ≤ g) (h2 : g ≤ 200) {ε : ℝ} (lib : Lib64 sq hy ε) (hε : ε ≤ 1 / 16) (h0 : sq 0 = .fin 0)
    {a b c : Coord ℚ} (ha : Grid3 24 g a) (hb : Grid3 24 g b) (hc : Grid3 24 g c) :
    ∃ w : ℚ, (tri3 a b c : Tri (B64 sq hy)).area3D = Fl.fin w ∧
      |(w : ℝ) - Triangle.area3D (r3 a) (r3 b) (r3 c)| ≤ ((1 + ε) * (1 + 1 / 2 ^ 53) ^ 4 - 1) * Triangle.area3D (r3 a) (r3 b) (r3 c) := by
  have n0 := lib.nonneg
  have ox := (ord_sum hb.2.1 ha.2.1 hc.2.2 ha.2.2 hb.2.2 ha.2.2 hc.2.1 ha.2.1).2
  have oy := (ord_sum hb.2.2 ha.2.2 hc.1 ha.1 hb.1 ha.1 hc.2.2 ha.2.2).2
  have oz := (ord_sum hb.1 ha.1 hc.2.1 ha.2.1 hb.2.1 ha.2.1 hc.1 ha.1).2
  have ex := (sum_fin (sq := sq) (hy := hy) (by omega) (by omega) hb.2.1 ha.2.1 hc.2.2 ha.2.2 hb.2.2 ha.2.2 hc.2.1 ha.2.1).2
  have ey := (sum_fin (sq := sq) (hy := hy) (by omega) (by omega) hb.2.2 ha.2.2 hc.1 ha.1 hb.1 ha.1 hc.2.2 ha.2.2).2
  have ez := (sum_fin (sq := sq) (hy := hy) (by omega) (by omega) hb.1 ha.1 hc.2.1 ha.2.1 hb.2.1 ha.2.1 hc.1 ha.1).2
  generalize hX : (b.y - a.y) * (c.z - a.z) - (b.z - a.z) * (c.y - a.y) = x at *
  generalize hY : (b.z - a.z) * (c.x - a.x) - (b.x - a.x) * (c.z - a.z) = y at *
  generalize hZ : (b.x - a.x) * (c.y - a.y) - (b.y - a.y) * (c.x - a.x) = z at *
  have e : (tri3 a b c : Tri (B64 sq hy)).area3D =
      FltSqrt.sqrt ((Fl.fin x : B64 sq hy) *. Fl.fin x +. Fl.fin y *. Fl.fin y +. Fl.fin z *. Fl.fin z) /. lit 2 := by
    rw [← ex, ← ey, ← ez]; rfl
  have eR : Triangle.area3D (r3 a) (r3 b) (r3 c) = √((x : ℝ) * x + (y : ℝ) * y + (z : ℝ) * z) / 2 := by
    rw [← hX, ← hY, ← hZ]
    unfold Triangle.area3D r3
    simp only [real_toFlt, real_sqrt, exact_add, exact_mul, exact_div, exact_sub, exact_lit, Rat.cast_ofNat]
    push_cast; rfl
  obtain ⟨fx, ax, lx, bx⟩ := sq_ap (sq := sq) (hy := hy) h1 h2 ox
  obtain ⟨fy, ay, ly, by'⟩ := sq_ap (sq := sq) (hy := hy) h1 h2 oy
  obtain ⟨fz, az, lz, bz⟩ := sq_ap (sq := sq) (hy := hy) h1 h2 oz
  rw [e, eR, fx, fy, fz, two_lit64]
  have X0 := ax.nonneg
  have Y0 := ay.nonneg
  have Z0 := az.nonneg
  generalize (x : ℝ) * x = X at *
  generalize (y : ℝ) * y = Y at *
  generalize (z : ℝ) * z = Z at *
  generalize near (x * x) = p at *
  generalize near (y * y) = q at *
  generalize near (z * z) = r at *
  have big : 4 * (2 : ℝ) ^ (1000 : ℤ) ≤ 2 ^ (1022 : ℤ) := by
    rw [show 4 * (2 : ℝ) ^ (1000 : ℤ) = 2 ^ (2 + 1000 : ℤ) by rw [zpow_add₀ two_ne_zero 2 1000]; norm_num]
    exact zpow2_mono (by norm_num)
  have t1 : X + Y ≤ 4 * (2 : ℝ) ^ (1000 : ℤ) := by
    generalize (2 : ℝ) ^ (1000 : ℤ) = K at *; linarith
  have t2 : X + Y + Z ≤ 4 * (2 : ℝ) ^ (1000 : ℤ) := by
    generalize (2 : ℝ) ^ (1000 : ℤ) = K at *; linarith
  have l1 := low_add X0 Y0 lx ly
  have l2 := low_add (by linarith) Z0 l1 lz
  have s1 := ax.add ay
  rw [show (p : ℝ) + q = ((p + q : ℚ) : ℝ) by push_cast; rfl] at s1
  obtain ⟨f1, a1⟩ := pos_round (sq := sq) (hy := hy) s1 (by norm_num) l1 (t1.trans big)
  have s2 := a1.add (az.mono (β := (1 + 1 / 2 ^ 53) * (1 + 1 / 2 ^ 53) - 1) (by norm_num))
  rw [show ((near (p + q) : ℚ) : ℝ) + r = ((near (p + q) + r : ℚ) : ℝ) by push_cast; rfl] at s2
  obtain ⟨f2, a2⟩ := pos_round (sq := sq) (hy := hy) s2 (by norm_num) l2 (t2.trans big)
  have f1 : (Fl.fin p : B64 sq hy) +. Fl.fin q = Fl.fin (near (p + q)) := f1
  have f2 : (Fl.fin (near (p + q)) : B64 sq hy) +. Fl.fin r = Fl.fin (near (near (p + q) + r)) := f2
  rw [f1, f2]
  have f64 : IsF64 (near (near (p + q) + r)) := ⟨near_rep _, ((rnd_fin_iff _ _).mp f2).2⟩
  generalize near (near (p + q) + r) = t at *
  generalize hT : X + Y + Z = T at *
  have T0 : 0 ≤ T := a2.nonneg
  have er := a2.err
  have er' : |(t : ℝ) - T| ≤ ((1 + 1 / 2 ^ 53) ^ 3 - 1) * T := er.trans (le_of_eq (by ring))
  rcases l2 with l2 | l2
  · have : (t : ℝ) = 0 := by
      rw [l2, mul_zero, sub_zero] at er'; exact abs_eq_zero.mp (le_antisymm er' (abs_nonneg _))
    have : t = 0 := by exact_mod_cast this
    subst this
    refine ⟨0, ?_, ?_⟩
    · rw [sqrt_of_sq 0 le_rfl, h0]
      exact div_fin64 two_ne_zero (by rw [zero_div, near_of_rep rep_zero]) (by norm_num)
    · rw [l2]; simp
  · have hs : (1 + 1 / 2 ^ 53 : ℝ) ^ 3 - 1 ≤ 1 / 2 := by norm_num
    have lo := (abs_le.mp er').1
    have half : ((1 + 1 / 2 ^ 53 : ℝ) ^ 3 - 1) * T ≤ 1 / 2 * T := mul_le_mul_of_nonneg_right hs T0
    have tl : (2 : ℝ) ^ (-1022 : ℤ) ≤ t := by
      rw [show (-1021 : ℤ) = 1 + -1022 by norm_num, ← dbl_zpow] at l2
      generalize (2 : ℝ) ^ (-1022 : ℤ) = K at *
      linarith
    have tq : (2 : ℚ) ^ (-1022 : ℤ) ≤ t := by
      have : (((2 : ℚ) ^ (-1022 : ℤ) : ℚ) : ℝ) ≤ t := by push_cast; exact tl
      exact_mod_cast this
    have t0 : 0 < t := (two_pos _).trans_le tq
    obtain ⟨v, hv, ve⟩ := lib.sqrt t f64 tq
    rw [sqrt_of_sq t t0.le, hv]
    have k := sqrt_ap T0 (by exact_mod_cast t0.le) er' (by norm_num)
    have R0 : 0 ≤ √T := Real.sqrt_nonneg T
    have up : √(t : ℝ) ≤ (1 + 1 / 2 ^ 53) ^ 3 * √T := by have := (abs_le.mp k).2; linarith
    have ap : Ap ((1 + ε) * (1 + 1 / 2 ^ 53) ^ 3 - 1) √T v √T := by
      refine ⟨by rw [abs_of_nonneg R0], ?_⟩
      have j := abs_sub_le (v : ℝ) √(t : ℝ) √T
      have : ε * √(t : ℝ) ≤ ε * ((1 + 1 / 2 ^ 53) ^ 3 * √T) := mul_le_mul_of_nonneg_left up n0
      linarith
    have ap2 := ap.div_exact 2 (by norm_num)
    rw [show (v : ℝ) / 2 = ((v / 2 : ℚ) : ℝ) by push_cast; rfl] at ap2
    have rootl : (2 : ℝ) ^ (-511 : ℤ) ≤ √T := by
      apply Real.le_sqrt_of_sq_le
      rw [pow_two, ← zpow_add₀ two_ne_zero]
      exact (zpow2_mono (by norm_num)).trans l2
    have rooth : √T ≤ (2 : ℝ) ^ (511 : ℤ) := by
      rw [Real.sqrt_le_left (zpow_pos (by norm_num) _).le, pow_two, ← zpow_add₀ two_ne_zero]
      exact t2.trans (big.trans (zpow2_mono (by norm_num)))
    obtain ⟨f3, a3⟩ := pos_round (sq := sq) (hy := hy) ap2 (by norm_num at hε ⊢; linarith) (Or.inr (by
        rw [le_div_iff₀ (by norm_num)]
        refine le_trans ?_ rootl
        rw [mul_comm, dbl_zpow]; exact zpow2_mono (by norm_num))) (by
        rw [div_le_iff₀ (by norm_num)]
        refine rooth.trans ?_
        rw [mul_comm, dbl_zpow]; exact zpow2_mono (by norm_num))
    refine ⟨near (v / 2), div_fin64 two_ne_zero rfl ((rnd_fin_iff _ _).mp f3).2, ?_⟩
    exact a3.err.trans (le_of_eq (by ring))

/-! ## Cases meeting the hypotheses -/

section cases

local notation "pt" => fun (x y : ℚ) => (Coord.xy x y : Coord ℚ)

theorem cA : OnGridB 24 0 (pt 0 0) := ⟨0, 0, by norm_num, by norm_num, by norm_num [Coord.xy], by norm_num [Coord.xy]⟩
theorem cB : OnGridB 24 0 (pt 4 0) := ⟨4, 0, by norm_num, by norm_num, by norm_num [Coord.xy], by norm_num [Coord.xy]⟩
theorem cC : OnGridB 24 0 (pt 0 3) := ⟨0, 3, by norm_num, by norm_num, by norm_num [Coord.xy], by norm_num [Coord.xy]⟩

theorem dAB : dist (realPt (pt 0 0)) (realPt (pt 4 0)) = 4 := by
  unfold Spec.dist realPt Coord.xy; rw [Real.sqrt_eq_iff_mul_self_eq_of_pos (by norm_num)]; norm_num
theorem dBC : dist (realPt (pt 4 0)) (realPt (pt 0 3)) = 5 := by
  unfold Spec.dist realPt Coord.xy; rw [Real.sqrt_eq_iff_mul_self_eq_of_pos (by norm_num)]; norm_num
theorem dAC : dist (realPt (pt 0 0)) (realPt (pt 0 3)) = 3 := by
  unfold Spec.dist realPt Coord.xy; rw [Real.sqrt_eq_iff_mul_self_eq_of_pos (by norm_num)]; norm_num

/-- The triangle (0,0), (4,0), (0,3) has sides 4, 5 and 3, and its computed in-centre is within 2^-25 of (1,1). -/
example : ∃ (sq : ℚ → Val) (hy : ℚ → ℚ → Val) (u v : ℚ), (tri64 (pt 0 0) (pt 4 0) (pt 0 3) : Tri (B64 sq hy)).inCentre = Coord.xy (Fl.fin u) (Fl.fin v) ∧
    |(u : ℝ) - 1| ≤ 2 ^ (0 - 25 : ℤ) ∧ |(v : ℝ) - 1| ≤ 2 ^ (0 - 25 : ℤ) := by
  obtain ⟨sq, hy, lib⟩ := lib64_exists
  obtain ⟨u, v, h, k, k'⟩ := C113_in_centre (g := 0) (by norm_num) (by norm_num) lib le_rfl cA cB cC (by norm_num [Coord.xy])
  refine ⟨sq, hy, u, v, h, ?_, ?_⟩
  · have : (triR (pt 0 0) (pt 4 0) (pt 0 3)).inCentre.x = 1 := by
      have := congrArg Coord.x (inCentre_xy (realPt (pt 0 0)) (realPt (pt 4 0)) (realPt (pt 0 3)))
      refine this.trans ?_
      rw [Spec.dist_comm (realPt (pt 0 3)), dAB, dBC, dAC]
      norm_num [realPt, Coord.xy]
    rwa [this] at k
  · have : (triR (pt 0 0) (pt 4 0) (pt 0 3)).inCentre.y = 1 := by
      have := congrArg Coord.y (inCentre_xy (realPt (pt 0 0)) (realPt (pt 4 0)) (realPt (pt 0 3)))
      refine this.trans ?_
      rw [Spec.dist_comm (realPt (pt 0 3)), dAB, dBC, dAC]
      norm_num [realPt, Coord.xy]
    rwa [this] at k'

/-- The other hypotheses hold of it too; it is not flat. -/
example : ∃ (sq : ℚ → Val) (hy : ℚ → ℚ → Val), Lib64 sq hy (1 / 2 ^ 52) ∧
    (∃ w : ℚ, (tri64 (pt 0 0) (pt 4 0) (pt 0 3) : Tri (B64 sq hy)).length = Fl.fin w) ∧
    (∃ w : ℚ, (tri64 (pt 0 0) (pt 4 0) (pt 0 3) : Tri (B64 sq hy)).circumradius = Fl.fin w) ∧
    (∃ u v : ℚ, Triangle.angleBisector (toB64 (pt 0 0) : Coord (B64 sq hy)) (toB64 (pt 4 0)) (toB64 (pt 0 3)) = Coord.xy (Fl.fin u) (Fl.fin v)) := by
  obtain ⟨sq, hy, lib⟩ := lib64_exists
  obtain ⟨⟨w, h, -⟩, -⟩ := C113_length (g := 0) (by norm_num) (by norm_num) lib (by norm_num) cA cB cC
  obtain ⟨r, hr, -⟩ := (C113_circumradius (g := 0) (by norm_num) (by norm_num) lib (by norm_num) cA cB cC).2 (by norm_num [Spec.det, Coord.xy])
  obtain ⟨u, v, k, -, -⟩ := C113_angle_bisector (g := 0) (by norm_num) (by norm_num) lib le_rfl cA cB cC (by norm_num [Coord.xy])
  exact ⟨sq, hy, lib, ⟨w, h⟩, ⟨r, hr⟩, u, v, k⟩

/-- The triangle (1,0,0), (0,1,0), (0,0,1). -/
example : ∃ (sq : ℚ → Val) (hy : ℚ → ℚ → Val) (w : ℚ),
    (tri3 ⟨1, 0, 0, 0⟩ ⟨0, 1, 0, 0⟩ ⟨0, 0, 1, 0⟩ : Tri (B64 sq hy)).area3D = Fl.fin w := by
  obtain ⟨sq, hy, lib, z, -⟩ := lib64_zero
  have o0 : OrdB 24 0 (0 : ℚ) := ⟨0, by norm_num, by norm_num⟩
  have o1 : OrdB 24 0 (1 : ℚ) := ⟨1, by norm_num, by norm_num⟩
  obtain ⟨w, h, -⟩ := C113_area_3d (g := 0) (by norm_num) (by norm_num) lib (by norm_num) z (a := ⟨1, 0, 0, 0⟩) (b := ⟨0, 1, 0, 0⟩) (c := ⟨0, 0, 1, 0⟩)
    ⟨o1, o0, o0⟩ ⟨o0, o1, o0⟩ ⟨o0, o0, o1⟩
  exact ⟨sq, hy, w, h⟩

end cases

end Verif.Props
