import Verif.Props.Segment64
import Verif.Props.Triangle

/-! # C93: triangles in binary64 -/

set_option linter.unusedSectionVars false

namespace Verif.Props
open Flt Verif.Spec Verif.Binary64
variable {sq : ℚ → Val} {hy : ℚ → ℚ → Val}

local notation "pt" => fun (x y : ℚ) => (Coord.xy x y : Coord ℚ)
local notation "R" => (Fl.round (r := binary64 sq hy))

theorem xB64 (c : Coord ℚ) : (toB64 c : Coord (B64 sq hy)).x = Fl.fin c.x := rfl
theorem yB64 (c : Coord ℚ) : (toB64 c : Coord (B64 sq hy)).y = Fl.fin c.y := rfl
theorem three64 : (lit 3 : B64 sq hy) = Fl.fin 3 := rnd_of_f64 (f64_of (by decide +kernel))

theorem OnGridB.ordx {k : ℕ} {g : ℤ} {p : Coord ℚ} (h : OnGridB k g p) : OrdB k g p.x := by
  obtain ⟨m, n, hm, hn, hx, hy⟩ := h
  exact ⟨m, hm, hx⟩
theorem OnGridB.ordy {k : ℕ} {g : ℤ} {p : Coord ℚ} (h : OnGridB k g p) : OrdB k g p.y := by
  obtain ⟨m, n, hm, hn, hx, hy⟩ := h
  exact ⟨n, hn, hy⟩

theorem OrdB.half {k : ℕ} {g : ℤ} {x : ℚ} (h : OrdB k g x) : OrdB k (g - 1) (x / 2) := by
  obtain ⟨m, hm, rfl⟩ := h
  refine ⟨m, hm, ?_⟩
  rw [zpow_sub_one₀ two_ne_zero]; ring

theorem OrdB.twice {k : ℕ} {g : ℤ} {x : ℚ} (h : OrdB k g x) : OrdB k (g + 1) (2 * x) := by
  obtain ⟨m, hm, rfl⟩ := h
  refine ⟨m, hm, ?_⟩
  rw [zpow_add_one₀ two_ne_zero]; ring

/-! ## Areas -/

/-- C93: on grids of 24 bits the signed area is exact, and so is its sign. -/
theorem C93_area {g : ℤ} (h1 : -484 ≤ g) (h2 : g ≤ 400) {a b c : Coord ℚ} (ha : OnGridB 24 g a) (hb : OnGridB 24 g b) (hc : OnGridB 24 g c) :
    Triangle.signedArea (toB64 a : Coord (B64 sq hy)) (toB64 b) (toB64 c) = Fl.fin (-(det a b c) / 2) ∧
    Triangle.area (toB64 a : Coord (B64 sq hy)) (toB64 b) (toB64 c) = Fl.fin (|det a b c| / 2) := by
  have e : ((c.x - a.x) * (b.y - a.y) - (b.x - a.x) * (c.y - a.y)) / 2 = -(det a b c) / 2 := by unfold det; ring
  have s : Triangle.signedArea (toB64 a : Coord (B64 sq hy)) (toB64 b) (toB64 c) = Fl.fin (-(det a b c) / 2) := by
    unfold Triangle.signedArea
    rw [xB64, xB64, xB64, yB64, yB64, yB64, two_lit64, (sum_fin h1 h2 hc.ordx ha.ordx hb.ordy ha.ordy hb.ordx ha.ordx hc.ordy ha.ordy).2, ← e]
    have f := ordB_f64 (ord_sum hc.ordx ha.ordx hb.ordy ha.ordy hb.ordx ha.ordx hc.ordy ha.ordy).2.half (by omega) (by omega) (by omega)
    exact div_fin64 two_ne_zero (near_of_rep f.1) f.2
  refine ⟨s, ?_⟩
  show abs (Triangle.signedArea (toB64 a : Coord (B64 sq hy)) (toB64 b) (toB64 c)) = _
  rw [s]
  show Fl.fin |(-(det a b c) / 2)| = _
  rw [abs_div, abs_neg, abs_two]

/-- C93: for all doubles, without overflow, the error of the signed area is at most about 5·2^-53 of the size of its two products. -/
theorem C93_area_error {a b c : Coord ℚ} (ha : IsF64 a.x ∧ IsF64 a.y) (hb : IsF64 b.x ∧ IsF64 b.y) (hc : IsF64 c.x ∧ IsF64 c.y) (v : ℚ)
    (h : Triangle.signedArea (toB64 a : Coord (B64 sq hy)) (toB64 b) (toB64 c) = Fl.fin v) :
    |v - -(det a b c) / 2| ≤ ((1 + u64) ^ 5 - 1) * ((|(c.x - a.x) * (b.y - a.y)| + |(b.x - a.x) * (c.y - a.y)|) / 2) + 3 * eta64 := by
  unfold Triangle.signedArea at h
  rw [xB64, xB64, xB64, yB64, yB64, yB64, two_lit64] at h
  obtain ⟨d, hd, -, nv, -⟩ := div64 h
  obtain ⟨p, q, hp, hq, nd, -⟩ := sub64 hd
  obtain ⟨p1, p2, hp1, hp2, np, -⟩ := mul64 hp
  obtain ⟨q1, q2, hq1, hq2, nq, -⟩ := mul64 hq
  have sd : ∀ {x y w : ℚ}, (Fl.fin x : B64 sq hy) -. Fl.fin y = Fl.fin w → near (x - y) = w := by
    intro x y w hw
    obtain ⟨x', y', e1, e2, e3, -⟩ := sub64 hw
    rwa [← fin_inj e1, ← fin_inj e2] at e3
  rw [← sd hp1, ← sd hp2] at np
  rw [← sd hq1, ← sd hq2] at nq
  have t1 := term_err hc.1.1 ha.1.1 hb.2.1 ha.2.1 np
  have t2 := term_err hb.1.1 ha.1.1 hc.2.1 ha.2.1 nq
  have rp : Rep p := np ▸ near_rep _
  have rq : Rep q := nq ▸ near_rep _
  have s1 := near_add_rel rp rq.neg
  rw [← sub_eq_add_neg, nd, abs_sub_comm] at s1
  have s2 := near_err_abs (d / 2)
  rw [nv, abs_sub_comm] at s2
  rw [show -(det a b c) / 2 = ((c.x - a.x) * (b.y - a.y) - (b.x - a.x) * (c.y - a.y)) / 2 by unfold det; ring]
  generalize (c.x - a.x) * (b.y - a.y) = P at *
  generalize (b.x - a.x) * (c.y - a.y) = Q at *
  have hu : (0 : ℚ) < u64 := by unfold u64; positivity
  have hu1 : u64 ≤ 1 / 8 := by unfold u64; norm_num
  have he : (0 : ℚ) < eta64 := two_pos _
  have s1' : |d - (p - q)| ≤ u64 * |p - q| := by unfold u64; linarith
  have s2' : |v - d / 2| ≤ u64 * (|d| / 2) + eta64 := by
    rw [abs_div, abs_two] at s2; unfold u64 eta64; linarith
  have b1 : |p - q - (P - Q)| ≤ ((1 + u64) ^ 3 - 1) * (|P| + |Q|) + 2 * eta64 := by
    rw [show p - q - (P - Q) = (p - P) - (q - Q) by ring]
    have := abs_sub (p - P) (q - Q)
    linarith
  have b2 : |p - q| ≤ (1 + u64) ^ 3 * (|P| + |Q|) + 2 * eta64 := by
    have := abs_sub_abs_le_abs_sub (p - q) (P - Q)
    have := abs_sub P Q
    linarith
  have b3 : |d - (P - Q)| ≤ ((1 + u64) ^ 4 - 1) * (|P| + |Q|) + (2 + 2 * u64) * eta64 := by
    have := abs_sub_le d (p - q) (P - Q)
    have := mul_le_mul_of_nonneg_left b2 hu.le
    linarith
  have b4 : |d| ≤ (1 + u64) ^ 4 * (|P| + |Q|) + (2 + 2 * u64) * eta64 := by
    have := abs_sub_abs_le_abs_sub d (P - Q)
    have := abs_sub P Q
    linarith
  have b5 : |v - (P - Q) / 2| ≤ |v - d / 2| + |d - (P - Q)| / 2 := by
    have := abs_sub_le v (d / 2) ((P - Q) / 2)
    rwa [show d / 2 - (P - Q) / 2 = (d - (P - Q)) / 2 by ring, abs_div, abs_two] at this
  have b6 := mul_le_mul_of_nonneg_left b4 hu.le
  have b7 : (u64 * (2 + 2 * u64) / 2 + 1 + (2 + 2 * u64) / 2) * eta64 ≤ 3 * eta64 := by
    refine mul_le_mul_of_nonneg_right ?_ he.le
    nlinarith
  linarith

/-- C93: on grids of 52 bits the sign of the signed area is never the wrong one: it is right or 0. -/
theorem C93_area_sign {g : ℤ} (h1 : -484 ≤ g) (h2 : g ≤ 400) {a b c : Coord ℚ} (ha : OnGridB 52 g a) (hb : OnGridB 52 g b) (hc : OnGridB 52 g c) :
    ∃ v : ℚ, Triangle.signedArea (toB64 a : Coord (B64 sq hy)) (toB64 b) (toB64 c) = Fl.fin v ∧ (0 < v → det a b c < 0) ∧ (v < 0 → 0 < det a b c) := by
  have f1 : ∀ {x y : ℚ}, OrdB 52 g x → OrdB 52 g y → (Fl.fin x : B64 sq hy) -. Fl.fin y = Fl.fin (x - y) := fun hx hy =>
    sub_fin (ordB_f64 (hx.sub hy) (by omega) (by omega) (by omega))
  have f2 : ∀ {x y : ℚ}, OrdB 53 g x → OrdB 53 g y → (Fl.fin x : B64 sq hy) *. Fl.fin y = Fl.fin (near (x * y)) ∧ |near (x * y)| ≤ 2 ^ (1000 : ℤ) := by
    intro x y hx hy
    have b := (ord_abs (hx.mul hy)).1
    have b2 := near_le_pow (by push_cast; omega) b
    have b3 : |near (x * y)| ≤ 2 ^ (1000 : ℤ) := b2.trans (two_mono (by push_cast; omega))
    exact ⟨(rnd_fin_iff _ _).mpr ⟨rfl, lt_of_le_of_lt b3 (by decide +kernel)⟩, b3⟩
  have p1 := f2 (hc.ordx.sub ha.ordx) (hb.ordy.sub ha.ordy)
  have p2 := f2 (hb.ordx.sub ha.ordx) (hc.ordy.sub ha.ordy)
  have b3 : |near ((c.x - a.x) * (b.y - a.y)) - near ((b.x - a.x) * (c.y - a.y))| ≤ 2 ^ (1001 : ℤ) := by
    have := abs_sub (near ((c.x - a.x) * (b.y - a.y))) (near ((b.x - a.x) * (c.y - a.y)))
    rw [show (2 : ℚ) ^ (1001 : ℤ) = 2 ^ (1000 : ℤ) + 2 ^ (1000 : ℤ) by decide +kernel]
    linarith [p1.2, p2.2]
  have b4 := near_le_pow (by norm_num) b3
  have p3 : (Fl.fin (near ((c.x - a.x) * (b.y - a.y))) : B64 sq hy) -. Fl.fin (near ((b.x - a.x) * (c.y - a.y))) =
      Fl.fin (near (near ((c.x - a.x) * (b.y - a.y)) - near ((b.x - a.x) * (c.y - a.y)))) := by
    refine (show _ = R (near ((c.x - a.x) * (b.y - a.y)) + -near ((b.x - a.x) * (c.y - a.y))) from rfl).trans ?_
    rw [← sub_eq_add_neg]
    exact (rnd_fin_iff _ _).mpr ⟨rfl, lt_of_le_of_lt b4 (by decide +kernel)⟩
  have b5 : |near (near ((c.x - a.x) * (b.y - a.y)) - near ((b.x - a.x) * (c.y - a.y))) / 2| ≤ 2 ^ (1001 : ℤ) := by
    rw [abs_div, abs_two]
    exact (half_le_self (abs_nonneg _)).trans b4
  have b6 := near_le_pow (by norm_num) b5
  refine ⟨near (near (near ((c.x - a.x) * (b.y - a.y)) - near ((b.x - a.x) * (c.y - a.y))) / 2), ?_, ?_, ?_⟩
  · unfold Triangle.signedArea
    rw [xB64, xB64, xB64, yB64, yB64, yB64, two_lit64, f1 hc.ordx ha.ordx, f1 hb.ordy ha.ordy, f1 hb.ordx ha.ordx, f1 hc.ordy ha.ordy, p1.1, p2.1, p3]
    exact div_fin64 two_ne_zero rfl (lt_of_le_of_lt b6 (by decide +kernel))
  · intro h
    by_contra hc'
    push Not at hc'
    have e : (c.x - a.x) * (b.y - a.y) ≤ (b.x - a.x) * (c.y - a.y) := by unfold det at hc'; linarith
    have := near_mono e
    have n := near_nonpos (show near (near ((c.x - a.x) * (b.y - a.y)) - near ((b.x - a.x) * (c.y - a.y))) / 2 ≤ 0 by
      have := near_nonpos (show near ((c.x - a.x) * (b.y - a.y)) - near ((b.x - a.x) * (c.y - a.y)) ≤ 0 by linarith)
      linarith)
    exact absurd h (not_lt.mpr n)
  · intro h
    by_contra hc'
    push Not at hc'
    have e : (b.x - a.x) * (c.y - a.y) ≤ (c.x - a.x) * (b.y - a.y) := by unfold det at hc'; linarith
    have := near_mono e
    have n := near_nonneg (show 0 ≤ near (near ((c.x - a.x) * (b.y - a.y)) - near ((b.x - a.x) * (c.y - a.y))) / 2 by
      have := near_nonneg (show 0 ≤ near ((c.x - a.x) * (b.y - a.y)) - near ((b.x - a.x) * (c.y - a.y)) by linarith)
      linarith)
    exact absurd h (not_lt.mpr n)

/-- C93: exceptions. A triangle of integers of 28 bits that turns has the area 0. A triangle of doubles near (1/2, 1/2), (12, 12), (24, 24) turns left, and `is_ccw`
says so, but its signed area is that of a right turn. -/
theorem C93_area_wrong :
    det (pt 0 0) (pt 132491049 76210438) (pt 151879750 87363051) = -1 ∧
    Triangle.area (toB64 (pt 0 0) : Coord X64) (toB64 (pt 132491049 76210438)) (toB64 (pt 151879750 87363051)) = Fl.fin 0 ∧
    0 < det (pt (1 / 2 + 41 / 2 ^ 53) (1 / 2 + 48 / 2 ^ 53)) (pt 12 12) (pt 24 24) ∧
    Triangle.isCCW (toB64 (pt (1 / 2 + 41 / 2 ^ 53) (1 / 2 + 48 / 2 ^ 53)) : Coord X64) (toB64 (pt 12 12)) (toB64 (pt 24 24)) = true ∧
    Triangle.signedArea (toB64 (pt (1 / 2 + 41 / 2 ^ 53) (1 / 2 + 48 / 2 ^ 53)) : Coord X64) (toB64 (pt 12 12)) (toB64 (pt 24 24)) = Fl.fin (2 ^ (-45 : ℤ)) ∧
    IsF64 (1 / 2 + 41 / 2 ^ 53) ∧ IsF64 (1 / 2 + 48 / 2 ^ 53) := by
  refine ⟨?_, ?_, ?_, ?_, ?_, f64_of (by decide +kernel), f64_of (by decide +kernel)⟩
  · decide +kernel
  · decide +kernel
  · decide +kernel
  · decide +kernel
  · decide +kernel

/-! ## Predicates -/

/-- C93: on grids of 52 bits the turn of a triangle and the point test are exact. -/
theorem C93_predicates {g : ℤ} (h1 : -484 ≤ g) (h2 : g ≤ 400) {a b c p : Coord ℚ} (ha : OnGrid g a) (hb : OnGrid g b) (hc : OnGrid g c) (hp : OnGrid g p) :
    (Triangle.isCCW (toB64 a : Coord (B64 sq hy)) (toB64 b) (toB64 c) = true ↔ 0 < det a b c) ∧
    (det a b c ≠ 0 → (Triangle.intersects (toB64 a : Coord (B64 sq hy)) (toB64 b) (toB64 c) (toB64 p) = true ↔ InClosedTriangle p a b c)) := by
  have s := (sim_grid (sq := sq) (hy := hy) g h1 h2).index
  have i1 := s ⟨a, ha⟩ ⟨b, hb⟩ ⟨c, hc⟩
  have i2 := s ⟨a, ha⟩ ⟨b, hb⟩ ⟨p, hp⟩
  have i3 := s ⟨b, hb⟩ ⟨c, hc⟩ ⟨p, hp⟩
  have i4 := s ⟨c, hc⟩ ⟨a, ha⟩ ⟨p, hp⟩
  dsimp only at i1 i2 i3 i4
  have e : Triangle.isCCW (toB64 a : Coord (B64 sq hy)) (toB64 b) (toB64 c) = Triangle.isCCW a b c := by
    unfold Triangle.isCCW; rw [i1]
  refine ⟨?_, fun h => ?_⟩
  · rw [e]; exact (C41_is_ccw a b c).1
  · rw [← C41_intersects a b c p h]
    unfold Triangle.intersects
    rw [e, i2, i3, i4]

/-- C93: on grids of 24 bits the tests for acute and obtuse angles are exact. -/
theorem C93_acute {g : ℤ} (h1 : -484 ≤ g) (h2 : g ≤ 400) {a b c : Coord ℚ} (ha : OnGridB 24 g a) (hb : OnGridB 24 g b) (hc : OnGridB 24 g c) :
    (Angle.isAcute (toB64 a : Coord (B64 sq hy)) (toB64 b) (toB64 c) = true ↔ sq2 a c < sq2 a b + sq2 b c) ∧
    (Angle.isObtuse (toB64 a : Coord (B64 sq hy)) (toB64 b) (toB64 c) = true ↔ sq2 a b + sq2 b c < sq2 a c) ∧
    (Triangle.isAcute (toB64 a : Coord (B64 sq hy)) (toB64 b) (toB64 c) = true ↔
      sq2 a b < sq2 b c + sq2 c a ∧ sq2 b c < sq2 c a + sq2 a b ∧ sq2 c a < sq2 a b + sq2 b c) := by
  have ac : ∀ {a b c : Coord ℚ}, OnGridB 24 g a → OnGridB 24 g b → OnGridB 24 g c →
      Angle.isAcute (toB64 a : Coord (B64 sq hy)) (toB64 b) (toB64 c) = decide (0 < (a.x - b.x) * (c.x - b.x) + (a.y - b.y) * (c.y - b.y)) := by
    intro a b c ha hb hc
    unfold Angle.isAcute
    rw [xB64, xB64, xB64, yB64, yB64, yB64, (sum_fin h1 h2 ha.ordx hb.ordx hc.ordx hb.ordx ha.ordy hb.ordy hc.ordy hb.ordy).1, lit64]
    rfl
  refine ⟨?_, ?_, ?_⟩
  · rw [ac ha hb hc, decide_eq_true_eq]
    unfold sq2
    constructor <;> intro h <;> nlinarith
  · unfold Angle.isObtuse
    rw [xB64, xB64, xB64, yB64, yB64, yB64, (sum_fin h1 h2 ha.ordx hb.ordx hc.ordx hb.ordx ha.ordy hb.ordy hc.ordy hb.ordy).1, lit64]
    show decide _ = true ↔ _
    rw [decide_eq_true_eq]
    unfold sq2
    constructor <;> intro h <;> nlinarith
  · rw [← C41_acute]
    unfold Triangle.isAcute
    rw [ac ha hb hc, ac hb hc ha, ac hc ha hb]
    rfl

/-! ## Centroid -/

/-- C93: on grids of 50 bits the centroid is the correctly rounded one, and in the box of the triangle. -/
theorem C93_centroid {g : ℤ} (h1 : -484 ≤ g) (h2 : g ≤ 400) {a b c : Coord ℚ} (ha : OnGridB 50 g a) (hb : OnGridB 50 g b) (hc : OnGridB 50 g c) :
    ∃ u v : ℚ, Triangle.centroid (toB64 a : Coord (B64 sq hy)) (toB64 b) (toB64 c) = Coord.xy (Fl.fin u) (Fl.fin v) ∧
      u = near ((a.x + b.x + c.x) / 3) ∧ v = near ((a.y + b.y + c.y) / 3) ∧
      min a.x (min b.x c.x) ≤ u ∧ u ≤ max a.x (max b.x c.x) ∧ min a.y (min b.y c.y) ≤ v ∧ v ≤ max a.y (max b.y c.y) := by
  have key : ∀ {x y z : ℚ}, OrdB 50 g x → OrdB 50 g y → OrdB 50 g z →
      ((Fl.fin x : B64 sq hy) +. Fl.fin y +. Fl.fin z) /. lit 3 = Fl.fin (near ((x + y + z) / 3)) ∧
      min x (min y z) ≤ near ((x + y + z) / 3) ∧ near ((x + y + z) / 3) ≤ max x (max y z) := by
    intro x y z hx hy' hz
    have f : ∀ {w}, OrdB 50 g w → IsF64 w := fun h => ordB_f64 h (by omega) (by omega) (by omega)
    have oz : OrdB 51 g z := by
      obtain ⟨m, hm, e⟩ := hz
      exact ⟨m, hm.trans (by norm_num), e⟩
    have fm : IsF64 (min x (min y z)) := by
      rcases min_choice x (min y z) with h | h <;> rw [h]
      · exact f hx
      · rcases min_choice y z with h | h <;> rw [h]
        · exact f hy'
        · exact f hz
    have fM : IsF64 (max x (max y z)) := by
      rcases max_choice x (max y z) with h | h <;> rw [h]
      · exact f hx
      · rcases max_choice y z with h | h <;> rw [h]
        · exact f hy'
        · exact f hz
    have lo : min x (min y z) ≤ (x + y + z) / 3 := by
      have m1 := min_le_left x (min y z)
      have m2 := (min_le_right x (min y z)).trans (min_le_left y z)
      have m3 := (min_le_right x (min y z)).trans (min_le_right y z)
      linarith
    have hi : (x + y + z) / 3 ≤ max x (max y z) := by
      have m1 := le_max_left x (max y z)
      have m2 := (le_max_left y z).trans (le_max_right x (max y z))
      have m3 := (le_max_right y z).trans (le_max_right x (max y z))
      linarith
    have lo' := near_mono lo
    have hi' := near_mono hi
    rw [near_of_rep fm.1] at lo'
    rw [near_of_rep fM.1] at hi'
    refine ⟨?_, lo', hi'⟩
    rw [add_fin (ordB_f64 (hx.add hy') (by omega) (by omega) (by omega)), add_fin (ordB_f64 ((hx.add hy').add oz) (by omega) (by omega) (by omega)), three64]
    refine div_fin64 (by norm_num) rfl ?_
    rw [abs_lt]
    exact ⟨lt_of_lt_of_le (abs_lt.mp fm.2).1 lo', lt_of_le_of_lt hi' (abs_lt.mp fM.2).2⟩
  have kx := key ha.ordx hb.ordx hc.ordx
  have ky := key ha.ordy hb.ordy hc.ordy
  refine ⟨_, _, ?_, rfl, rfl, kx.2.1, kx.2.2, ky.2.1, ky.2.2⟩
  unfold Triangle.centroid
  rw [xB64, xB64, xB64, yB64, yB64, yB64, kx.1, ky.1]
  rfl

/-- C93: beyond these grids the centroid may leave the box: three times the same point with x = 9007199254740986 has the centroid 9007199254740987. -/
theorem C93_centroid_moves :
    IsF64 9007199254740986 ∧
    Triangle.centroid (toB64 ⟨9007199254740986, 0, 0, 0⟩ : Coord (B64 sq hy)) (toB64 ⟨9007199254740986, 0, 0, 0⟩) (toB64 ⟨9007199254740986, 0, 0, 0⟩) =
      Coord.xy (Fl.fin 9007199254740987) (Fl.fin 0) := by
  have a1 : ((Fl.fin 9007199254740986 : B64 sq hy) +. Fl.fin 9007199254740986) = Fl.fin 18014398509481972 :=
    (by decide +kernel : rnd (9007199254740986 + 9007199254740986) = Val.fin 18014398509481972)
  have a2 : ((Fl.fin 18014398509481972 : B64 sq hy) +. Fl.fin 9007199254740986) = Fl.fin 27021597764222960 :=
    (by decide +kernel : rnd (18014398509481972 + 9007199254740986) = Val.fin 27021597764222960)
  have z1 : ((Fl.fin 0 : B64 sq hy) +. Fl.fin 0) = Fl.fin 0 := (by decide +kernel : rnd (0 + 0) = Val.fin 0)
  have d1 : ((Fl.fin 27021597764222960 : B64 sq hy) /. Fl.fin 3) = Fl.fin 9007199254740987 :=
    div_fin64 (by norm_num) (by decide +kernel) (by decide +kernel)
  have d2 : ((Fl.fin 0 : B64 sq hy) /. Fl.fin 3) = Fl.fin 0 := div_fin64 (by norm_num) (by decide +kernel) (by decide +kernel)
  refine ⟨f64_of (by decide +kernel), ?_⟩
  unfold Triangle.centroid
  simp only [xB64, yB64, three64]
  rw [a1, a2, z1, z1, d1, d2]
  rfl

/-! ## Circumcentre -/

/-- A quotient of grid numbers is not zero by underflow and accurate. -/
theorem quot64 {j k : ℕ} {g h : ℤ} (hb : j + g - h ≤ 1000) (hl : -1000 ≤ g - h - k) {n d : ℚ} (hn : OrdB j g n) (hd : OrdB k h d) (d0 : d ≠ 0) :
    (Fl.fin n : B64 sq hy) /. Fl.fin d = Fl.fin (near (n / d)) ∧ |near (n / d) - n / d| ≤ |n / d| / 2 ^ 53 ∧ |n / d| ≤ 2 ^ (j + g - h) := by
  have n1 := ord_abs hn
  have d1 := ord_abs hd
  have dl : 2 ^ h ≤ |d| := d1.2.resolve_left d0
  have dp : 0 < |d| := abs_pos.mpr d0
  have hi : |n / d| ≤ 2 ^ (j + g - h) := by
    rw [abs_div, div_le_iff₀ dp]
    refine n1.1.trans ?_
    rw [show (j : ℤ) + g = (j + g - h) + h by ring, two_add]
    rw [show (j : ℤ) + g - h + h - h = j + g - h by ring]
    exact mul_le_mul_of_nonneg_left dl (two_pos _).le
  have err : |near (n / d) - n / d| ≤ |n / d| / 2 ^ 53 := by
    rcases n1.2 with h0 | h0
    · rw [h0, zero_div, near_of_rep rep_zero]; simp
    · rw [abs_sub_comm]
      refine near_rel _ ?_
      rw [abs_div, le_div_iff₀ dp]
      refine le_trans ?_ h0
      refine (mul_le_mul_of_nonneg_left d1.1 (two_pos _).le).trans ?_
      rw [← two_add]
      exact two_mono (by omega)
  refine ⟨div_fin64 d0 rfl ?_, err, hi⟩
  have := abs_sub_abs_le_abs_sub (near (n / d)) (n / d)
  have h0 := abs_nonneg (n / d)
  have : |n / d| / 2 ^ 53 ≤ |n / d| := div_le_self h0 (by norm_num)
  have b : (2 : ℚ) * 2 ^ ((j : ℤ) + g - h) < 2 ^ 1024 := by
    rw [← zpow_one_add₀ two_ne_zero, ← zpow_natCast]
    exact two_lt_iff.mpr (by push_cast; omega)
  refine lt_of_le_of_lt ?_ b
  linarith

section circum
variable {g : ℤ} (h1 : -300 ≤ g) (h2 : g ≤ 300)
include h1 h2

/-- The parts of the formula. -/
theorem circum_parts {a b c : Coord ℚ} (ha : OnGridB 16 g a) (hb : OnGridB 16 g b) (hc : OnGridB 16 g c) :
    ∃ nx ny : ℚ, OrdB 53 (g + (g + g)) nx ∧ OrdB 53 (g + (g + g)) ny ∧ OrdB 35 (g + g + 1) (2 * det a b c) ∧
      nx = (a.y - c.y) * sq2 b c - sq2 a c * (b.y - c.y) ∧ ny = (a.x - c.x) * sq2 b c - sq2 a c * (b.x - c.x) ∧
      Triangle.circumcentre (toB64 a : Coord (B64 sq hy)) (toB64 b) (toB64 c) =
        Coord.xy (Fl.fin c.x -. Fl.fin nx /. Fl.fin (2 * det a b c)) (Fl.fin c.y +. Fl.fin ny /. Fl.fin (2 * det a b c)) := by
  have oax := ha.ordx.sub hc.ordx
  have oay := ha.ordy.sub hc.ordy
  have obx := hb.ordx.sub hc.ordx
  have oby := hb.ordy.sub hc.ordy
  have oA := (oax.mul oax).add (oay.mul oay)
  have oB := (obx.mul obx).add (oby.mul oby)
  have f : ∀ {k : ℕ} {i : ℤ} {x : ℚ}, OrdB k i x → k ≤ 53 → -1000 ≤ i → i ≤ 900 → IsF64 x := fun h a b c => ordB_f64 h a (by omega) c
  have od := (oax.mul oby).sub (oay.mul obx)
  have q1 := oby.mul oA
  have q2 := obx.mul oA
  rw [mul_comm (b.y - c.y) _] at q1
  rw [mul_comm (b.x - c.x) _] at q2
  have ox := (oay.mul oB).sub q1
  have oy := (oax.mul oB).sub q2
  have e : (a.x - c.x) * (b.y - c.y) - (a.y - c.y) * (b.x - c.x) = det a b c := by unfold det; ring
  have od2 := od.twice
  have p1 : (Fl.fin a.x : B64 sq hy) -. Fl.fin c.x = Fl.fin (a.x - c.x) := sub_fin (f oax (by omega) (by omega) (by omega))
  have p2 : (Fl.fin a.y : B64 sq hy) -. Fl.fin c.y = Fl.fin (a.y - c.y) := sub_fin (f oay (by omega) (by omega) (by omega))
  have p3 : (Fl.fin b.x : B64 sq hy) -. Fl.fin c.x = Fl.fin (b.x - c.x) := sub_fin (f obx (by omega) (by omega) (by omega))
  have p4 : (Fl.fin b.y : B64 sq hy) -. Fl.fin c.y = Fl.fin (b.y - c.y) := sub_fin (f oby (by omega) (by omega) (by omega))
  refine ⟨_, _, ox, oy, e ▸ od2, ?_, ?_, ?_⟩
  · unfold sq2; ring
  · unfold sq2; ring
  · unfold Triangle.circumcentre Triangle.det2
    simp only [xB64, yB64, two_lit64, p1, p2, p3, p4]
    generalize a.x - c.x = ax at *
    generalize a.y - c.y = ay at *
    generalize b.x - c.x = bx at *
    generalize b.y - c.y = by' at *
    have m : ∀ {x y : ℚ}, OrdB 17 g x → OrdB 17 g y → (Fl.fin x : B64 sq hy) *. Fl.fin y = Fl.fin (x * y) := fun hx hy =>
      mul_fin (f (hx.mul hy) (by omega) (by omega) (by omega))
    rw [m oax oax, m oay oay, m obx obx, m oby oby, m oax oby, m oay obx, add_fin (f oA (by omega) (by omega) (by omega)),
      add_fin (f oB (by omega) (by omega) (by omega)), sub_fin (f od (by omega) (by omega) (by omega)), mul_fin (f od2 (by omega) (by omega) (by omega)), e,
      mul_fin (f (oay.mul oB) (by omega) (by omega) (by omega)), mul_fin (f (oax.mul oB) (by omega) (by omega) (by omega)),
      mul_fin (f q1 (by omega) (by omega) (by omega)), mul_fin (f q2 (by omega) (by omega) (by omega)), sub_fin (f ox (by omega) (by omega) (by omega)),
      sub_fin (f oy (by omega) (by omega) (by omega))]
    rfl

/-- C93: on grids of 16 bits the circumcentre of a proper triangle is finite and, in each ordinate, within 2^-53 of its size plus 2^-52 of its distance from the third
vertex. -/
theorem C93_circumcentre {a b c : Coord ℚ} (ha : OnGridB 16 g a) (hb : OnGridB 16 g b) (hc : OnGridB 16 g c) (hd : det a b c ≠ 0) :
    ∃ u v : ℚ, Triangle.circumcentre (toB64 a : Coord (B64 sq hy)) (toB64 b) (toB64 c) = Coord.xy (Fl.fin u) (Fl.fin v) ∧
      ∀ o : Coord ℚ, sq2 o a = sq2 o c → sq2 o b = sq2 o c → |u - o.x| ≤ (|o.x| + 2 * |o.x - c.x|) / 2 ^ 53 ∧ |v - o.y| ≤ (|o.y| + 2 * |o.y - c.y|) / 2 ^ 53 := by
  obtain ⟨nx, ny, ox, oy, od, ex, ey, e⟩ := circum_parts (sq := sq) (hy := hy) h1 h2 ha hb hc
  have d0 : 2 * det a b c ≠ 0 := mul_ne_zero two_ne_zero hd
  have qx := quot64 (sq := sq) (hy := hy) (by push_cast; omega) (by push_cast; omega) ox od d0
  have qy := quot64 (sq := sq) (hy := hy) (by push_cast; omega) (by push_cast; omega) oy od d0
  have fin : ∀ {x q : ℚ}, OrdB 16 g x → |q| ≤ 2 ^ (((53 : ℕ) : ℤ) + (g + (g + g)) - (g + g + 1)) → |near q - q| ≤ |q| / 2 ^ 53 →
      (Fl.fin x : B64 sq hy) +. Fl.fin (near q) = Fl.fin (near (x + near q)) ∧ |near (x + near q) - (x + q)| ≤ (|x + q| + 2 * |q|) / 2 ^ 53 := by
    intro x q hx hq hn
    have rx := (ordB_f64 hx (by omega) (by omega) (by omega)).1
    have s1 := near_add_rel rx (near_rep q)
    rw [abs_sub_comm] at s1
    have t1 : |x + near q| ≤ |x + q| + |q| / 2 ^ 53 := by
      have := abs_add_le (x + q) (near q - q)
      rw [show x + q + (near q - q) = x + near q by ring] at this
      linarith
    have t2 := abs_sub_le (near (x + near q)) (x + near q) (x + q)
    rw [show x + near q - (x + q) = near q - q by ring] at t2
    have q0 := abs_nonneg q
    have t3 : |near (x + near q) - (x + q)| ≤ (|x + q| + 2 * |q|) / 2 ^ 53 := by
      have : |q| / 2 ^ 53 ≤ |q| := div_le_self q0 (by norm_num)
      have : |x + near q| / 2 ^ 53 ≤ (|x + q| + |q|) / 2 ^ 53 := by
        apply div_le_div_of_nonneg_right _ (by positivity)
        linarith
      rw [show |x + q| + 2 * |q| = (|x + q| + |q|) + |q| by ring, add_div]
      linarith
    refine ⟨(rnd_fin_iff _ _).mpr ⟨rfl, ?_⟩, t3⟩
    have k1 := abs_sub_abs_le_abs_sub (near (x + near q)) (x + q)
    have k2 := abs_add_le x q
    have k3 := (ord_abs hx).1
    have k4 : (|x + q| + 2 * |q|) / 2 ^ 53 ≤ |x + q| + 2 * |q| := div_le_self (by positivity) (by norm_num)
    have k5 : (2 : ℚ) ^ (((53 : ℕ) : ℤ) + (g + (g + g)) - (g + g + 1)) ≤ 2 ^ (400 : ℤ) := two_mono (by push_cast; omega)
    have k6 : (2 : ℚ) ^ (((16 : ℕ) : ℤ) + g) ≤ 2 ^ (400 : ℤ) := two_mono (by push_cast; omega)
    have k7 : (8 : ℚ) * 2 ^ (400 : ℤ) < 2 ^ 1024 := by decide +kernel
    refine lt_of_le_of_lt ?_ k7
    generalize (2 : ℚ) ^ (400 : ℤ) = Z at *
    linarith
  have fx := fin (x := c.x) (q := -(nx / (2 * det a b c))) hc.ordx (by rw [abs_neg]; exact qx.2.2)
    (by rw [near_neg, abs_neg, show -near (nx / (2 * det a b c)) - -(nx / (2 * det a b c)) = -(near (nx / (2 * det a b c)) - nx / (2 * det a b c)) by ring, abs_neg]
        exact qx.2.1)
  have fy := fin hc.ordy qy.2.2 qy.2.1
  refine ⟨near (c.x + near (-(nx / (2 * det a b c)))), near (c.y + near (ny / (2 * det a b c))), ?_, fun o h3 h4 => ?_⟩
  · rw [e, qx.1, qy.1, fy.1, ← fx.1, near_neg]
    rfl
  · obtain ⟨e1, e2⟩ := (C41_circumcentre a b c o hd).mp ⟨h3, h4⟩
    have D : (a.x - c.x) * (b.y - c.y) - (a.y - c.y) * (b.x - c.x) = det a b c := by unfold det; ring
    have ox : o.x = c.x + -(nx / (2 * det a b c)) := by
      rw [e1, ex]
      unfold Triangle.circumcentre Triangle.det2 sq2
      simp only [exact_sub, exact_mul, exact_add, exact_div, exact_lit, Rat.cast_ofNat]
      rw [D, ← sub_eq_add_neg]
      simp only [pow_two]
    have oy : o.y = c.y + ny / (2 * det a b c) := by
      rw [e2, ey]
      unfold Triangle.circumcentre Triangle.det2 sq2
      simp only [exact_sub, exact_mul, exact_add, exact_div, exact_lit, Rat.cast_ofNat]
      rw [D]
      simp only [pow_two]
    refine ⟨?_, ?_⟩
    · have := fx.2
      have k : -(nx / (2 * det a b c)) = o.x - c.x := by rw [ox]; ring
      rw [← ox, k] at this
      rw [k]; exact this
    · have := fy.2
      have k : ny / (2 * det a b c) = o.y - c.y := by rw [oy]; ring
      rw [← oy, k] at this
      rw [k]; exact this

/-- C93: the circumcentre of collinear points has no finite ordinate. -/
theorem C93_circumcentre_collinear {a b c : Coord ℚ} (ha : OnGridB 16 g a) (hb : OnGridB 16 g b) (hc : OnGridB 16 g c) (hd : det a b c = 0) (u : ℚ) :
    (Triangle.circumcentre (toB64 a : Coord (B64 sq hy)) (toB64 b) (toB64 c)).x ≠ Fl.fin u ∧
    (Triangle.circumcentre (toB64 a : Coord (B64 sq hy)) (toB64 b) (toB64 c)).y ≠ Fl.fin u := by
  obtain ⟨nx, ny, ox, oy, od, ex, ey, e⟩ := circum_parts (sq := sq) (hy := hy) h1 h2 ha hb hc
  rw [e, hd, mul_zero]
  constructor
  · intro h
    obtain ⟨_, q, -, h', -⟩ := sub64 h
    obtain ⟨_, -, h'', -⟩ := div64 h'
    exact h'' rfl
  · intro h
    obtain ⟨_, q, -, h', -⟩ := add64 h
    obtain ⟨_, -, h'', -⟩ := div64 h'
    exact h'' rfl

end circum

/-! ## Interpolation -/

/-- A point of three doubles. -/
def zB64 (c : Coord ℚ) : Coord (B64 sq hy) := ⟨Fl.fin c.x, Fl.fin c.y, Fl.fin c.z, nan⟩

/-- The two weights: exact up to one rounding. -/
theorem interp_weights {g : ℤ} (h1 : -484 ≤ g) (h2 : g ≤ 400) {p a b c : Coord ℚ} (hp : OnGridB 24 g p) (ha : OnGridB 24 g a) (hb : OnGridB 24 g b)
    (hc : OnGridB 24 g c) (hd : det a b c ≠ 0) :
    Triangle.interpolateZ (zB64 p : Coord (B64 sq hy)) (zB64 a) (zB64 b) (zB64 c) =
      Fl.fin a.z +. Fl.fin (near (det c a p / det a b c)) *. (Fl.fin b.z -. Fl.fin a.z) +. Fl.fin (near (det a b p / det a b c)) *. (Fl.fin c.z -. Fl.fin a.z) ∧
    |near (det c a p / det a b c) - det c a p / det a b c| ≤ |det c a p / det a b c| / 2 ^ 53 ∧
    |near (det a b p / det a b c) - det a b p / det a b c| ≤ |det a b p / det a b c| / 2 ^ 53 := by
  have oD := (ord_sum hb.ordx ha.ordx hc.ordy ha.ordy hc.ordx ha.ordx hb.ordy ha.ordy).2
  have oT := (ord_sum hc.ordy ha.ordy hp.ordx ha.ordx hc.ordx ha.ordx hp.ordy ha.ordy).2
  have oU := (ord_sum hb.ordx ha.ordx hp.ordy ha.ordy hb.ordy ha.ordy hp.ordx ha.ordx).2
  have eD : (b.x - a.x) * (c.y - a.y) - (c.x - a.x) * (b.y - a.y) = det a b c := by unfold det; ring
  have eT : (c.y - a.y) * (p.x - a.x) - (c.x - a.x) * (p.y - a.y) = det c a p := by unfold det; ring
  have eU : (b.x - a.x) * (p.y - a.y) - (b.y - a.y) * (p.x - a.x) = det a b p := by unfold det; ring
  have s1 := (sum_fin (sq := sq) (hy := hy) h1 h2 hb.ordx ha.ordx hc.ordy ha.ordy hc.ordx ha.ordx hb.ordy ha.ordy).2
  have s2 := (sum_fin (sq := sq) (hy := hy) h1 h2 hc.ordy ha.ordy hp.ordx ha.ordx hc.ordx ha.ordx hp.ordy ha.ordy).2
  rw [eD] at s1 oD
  rw [eT] at s2 oT
  rw [eU] at oU
  have f1 : ∀ {x y : ℚ}, OrdB 24 g x → OrdB 24 g y → (Fl.fin x : B64 sq hy) -. Fl.fin y = Fl.fin (x - y) := fun hx hy =>
    sub_fin (ordB_f64 (hx.sub hy) (by omega) (by omega) (by omega))
  have s3 : (-.((Fl.fin b.y : B64 sq hy) -. Fl.fin a.y)) *. (Fl.fin p.x -. Fl.fin a.x) +. (Fl.fin b.x -. Fl.fin a.x) *. (Fl.fin p.y -. Fl.fin a.y) =
      Fl.fin (det a b p) := by
    rw [f1 hb.ordy ha.ordy, f1 hp.ordx ha.ordx, f1 hb.ordx ha.ordx, f1 hp.ordy ha.ordy]
    have e : (-.(Fl.fin (b.y - a.y) : B64 sq hy)) = Fl.fin (-(b.y - a.y)) := rfl
    rw [e, mul_fin (ordB_f64 ((hb.ordy.sub ha.ordy).neg.mul (hp.ordx.sub ha.ordx)) (by omega) (by omega) (by omega)),
      mul_fin (ordB_f64 ((hb.ordx.sub ha.ordx).mul (hp.ordy.sub ha.ordy)) (by omega) (by omega) (by omega))]
    have e2 : -(b.y - a.y) * (p.x - a.x) + (b.x - a.x) * (p.y - a.y) = det a b p := by unfold det; ring
    rw [add_fin (by rw [e2]; exact ordB_f64 oU (by omega) (by omega) (by omega)), e2]
  have rT := ratio64 (sq := sq) (hy := hy) oT oD hd
  have rU := ratio64 (sq := sq) (hy := hy) oU oD hd
  refine ⟨?_, rT.2.1, rU.2.1⟩
  unfold Triangle.interpolateZ zB64
  dsimp only
  rw [s1, s2, s3, rT.1, rU.1]

/-- C93: with x and y on a grid of 24 bits and z on a grid of at most 51 bits, the interpolated z of a grid point of the triangle is within 2^-48 of the size of the
z grid of the exact one, and it is the z of the vertex at every vertex. -/
theorem C93_interpolate {g i : ℤ} {k : ℕ} (h1 : -484 ≤ g) (h2 : g ≤ 400) (i1 : -484 ≤ i) (i2 : i ≤ 400) (hk : k ≤ 51) {p a b c : Coord ℚ} (hp : OnGridB 24 g p)
    (ha : OnGridB 24 g a) (hb : OnGridB 24 g b) (hc : OnGridB 24 g c) (hd : det a b c ≠ 0) (za : OrdB k i a.z) (zb : OrdB k i b.z) (zc : OrdB k i c.z)
    {r s t : ℚ} (r0 : 0 ≤ r) (s0 : 0 ≤ s) (t0 : 0 ≤ t) (sum : r + s + t = 1) (px : p.x = r * a.x + s * b.x + t * c.x) (py : p.y = r * a.y + s * b.y + t * c.y) :
    ∃ v : ℚ, Triangle.interpolateZ (zB64 p : Coord (B64 sq hy)) (zB64 a) (zB64 b) (zB64 c) = Fl.fin v ∧
      |v - (r * a.z + s * b.z + t * c.z)| ≤ 2 ^ ((k : ℤ) + i - 48) ∧ (r = 1 → v = a.z) ∧ (s = 1 → v = b.z) ∧ (t = 1 → v = c.z) := by
  obtain ⟨e, eT, eU⟩ := interp_weights (sq := sq) (hy := hy) h1 h2 hp ha hb hc hd
  have wT : det c a p / det a b c = s := by
    rw [div_eq_iff hd]
    unfold det; rw [px, py, show r = 1 - s - t by linarith]; ring
  have wU : det a b p / det a b c = t := by
    rw [div_eq_iff hd]
    unfold det; rw [px, py, show r = 1 - s - t by linarith]; ring
  rw [wT] at e eT
  rw [wU] at e eU
  rw [e]
  have ob := zb.sub za
  have oc := zc.sub za
  have fb := ordB_f64 ob (by omega) (by omega) (by omega)
  have fc := ordB_f64 oc (by omega) (by omega) (by omega)
  have fa := ordB_f64 za (by omega) (by omega) (by omega)
  have fzb := ordB_f64 zb (by omega) (by omega) (by omega)
  have fzc := ordB_f64 zc (by omega) (by omega) (by omega)
  obtain ⟨M, hM⟩ : ∃ M : ℚ, M = 2 ^ ((k : ℤ) + i) := ⟨_, rfl⟩
  have Mpos : 0 < M := hM ▸ two_pos _
  have ma : |a.z| ≤ M := hM ▸ (ord_abs za).1
  have M2 : (2 : ℚ) ^ (((k + 1 : ℕ) : ℤ) + i) = 2 * M := by
    rw [hM, ← zpow_one_add₀ two_ne_zero]; congr 1; push_cast; ring
  have mb : |b.z - a.z| ≤ 2 * M := M2 ▸ (ord_abs ob).1
  have mc : |c.z - a.z| ≤ 2 * M := M2 ▸ (ord_abs oc).1
  have eta : (2 : ℚ) ^ (-1075 : ℤ) ≤ M / 2 ^ 53 := by
    rw [hM, le_div_iff₀ (by positivity), ← zpow_natCast (2 : ℚ) 53, ← two_add]
    exact two_mono (by push_cast; omega)
  have big : M ≤ 2 ^ (451 : ℤ) := by rw [hM]; exact two_mono (by omega)
  have big' : (8 : ℚ) * 2 ^ (451 : ℤ) < 2 ^ 1024 := by decide +kernel
  have fin8 : ∀ {x : ℚ}, |x| ≤ 8 * M → |x| < 2 ^ 1024 := fun h => lt_of_le_of_lt (h.trans (mul_le_mul_of_nonneg_left big (by norm_num))) big'
  have n1 : near (1 : ℚ) = 1 := near_of_rep (f64_of (by decide +kernel)).1
  have n0 : near (0 : ℚ) = 0 := near_zero
  -- one product
  have prod : ∀ {w d : ℚ}, 0 ≤ w → w ≤ 1 → IsF64 d → |d| ≤ 2 * M → |near w - w| ≤ |w| / 2 ^ 53 →
      |near (near w * d)| ≤ 2 * M ∧ |near (near w * d) - w * d| ≤ 5 * M / 2 ^ 53 := by
    intro w d w0 w1 fd md ew
    have nw0 := near_nonneg w0
    have nw1 := near_mono w1
    rw [n1] at nw1
    have pd : |near w * d| ≤ |d| := by
      rw [abs_mul, abs_of_nonneg nw0]
      exact mul_le_of_le_one_left (abs_nonneg _) nw1
    have b1 : |near (near w * d)| ≤ |d| := by
      rw [abs_le] at pd ⊢
      have l := near_mono pd.1
      have u := near_mono pd.2
      have ra : Rep |d| := by rcases abs_choice d with h | h <;> rw [h]; exacts [fd.1, fd.1.neg]
      rw [near_of_rep ra.neg] at l
      rw [near_of_rep ra] at u
      exact ⟨l, u⟩
    have b2 := near_err_abs (near w * d)
    rw [abs_sub_comm] at b2
    have b3 : |near w * d - w * d| ≤ 2 * M / 2 ^ 53 := by
      rw [← sub_mul, abs_mul]
      have : |w| ≤ 1 := by rw [abs_of_nonneg w0]; exact w1
      have : |near w - w| ≤ 1 / 2 ^ 53 := ew.trans (div_le_div_of_nonneg_right this (by positivity))
      have := mul_le_mul this md (abs_nonneg _) (by positivity)
      linarith
    have b4 := abs_sub_le (near (near w * d)) (near w * d) (w * d)
    have b5 : |near w * d| / 2 ^ 53 ≤ 2 * M / 2 ^ 53 := div_le_div_of_nonneg_right (pd.trans md) (by positivity)
    refine ⟨b1.trans md, ?_⟩
    have : 5 * M / 2 ^ 53 = 2 * M / 2 ^ 53 + 2 * M / 2 ^ 53 + M / 2 ^ 53 := by ring
    linarith
  have s1 : s ≤ 1 := by linarith
  have t1 : t ≤ 1 := by linarith
  have pb := prod s0 s1 fb mb eT
  have pc := prod t0 t1 fc mc eU
  rw [sub_fin fb, sub_fin fc]
  have q1 : (Fl.fin (near s) : B64 sq hy) *. Fl.fin (b.z - a.z) = Fl.fin (near (near s * (b.z - a.z))) :=
    (rnd_fin_iff _ _).mpr ⟨rfl, fin8 (by linarith [pb.1])⟩
  have q2 : (Fl.fin (near t) : B64 sq hy) *. Fl.fin (c.z - a.z) = Fl.fin (near (near t * (c.z - a.z))) :=
    (rnd_fin_iff _ _).mpr ⟨rfl, fin8 (by linarith [pc.1])⟩
  rw [q1, q2]
  have rb := near_rep (near s * (b.z - a.z))
  have rc := near_rep (near t * (c.z - a.z))
  have vb : s = 0 → near (near s * (b.z - a.z)) = 0 := by rintro rfl; rw [n0, zero_mul, n0]
  have vb' : s = 1 → near (near s * (b.z - a.z)) = b.z - a.z := by rintro rfl; rw [n1, one_mul, near_of_rep fb.1]
  have vc : t = 0 → near (near t * (c.z - a.z)) = 0 := by rintro rfl; rw [n0, zero_mul, n0]
  have vc' : t = 1 → near (near t * (c.z - a.z)) = c.z - a.z := by rintro rfl; rw [n1, one_mul, near_of_rep fc.1]
  generalize near (near s * (b.z - a.z)) = B at *
  generalize near (near t * (c.z - a.z)) = C at *
  have w1 := near_add_rel fa.1 rb
  rw [abs_sub_comm] at w1
  have w2 : |a.z + B| ≤ 3 * M := by have := abs_add_le a.z B; linarith [pb.1]
  have w3 : |near (a.z + B) - (a.z + B)| ≤ 3 * M / 2 ^ 53 := w1.trans (div_le_div_of_nonneg_right w2 (by positivity))
  have sm : 3 * M / 2 ^ 53 ≤ M := by rw [div_le_iff₀ (by positivity)]; linarith
  have w4 : |near (a.z + B)| ≤ 4 * M := by have := abs_sub_abs_le_abs_sub (near (a.z + B)) (a.z + B); linarith
  have w5 : (Fl.fin a.z : B64 sq hy) +. Fl.fin B = Fl.fin (near (a.z + B)) := (rnd_fin_iff _ _).mpr ⟨rfl, fin8 (by linarith)⟩
  rw [w5]
  have x1 := near_add_rel (near_rep (a.z + B)) rc
  rw [abs_sub_comm] at x1
  have x2 : |near (a.z + B) + C| ≤ 6 * M := by have := abs_add_le (near (a.z + B)) C; linarith [pc.1]
  have x3 : |near (near (a.z + B) + C) - (near (a.z + B) + C)| ≤ 6 * M / 2 ^ 53 := x1.trans (div_le_div_of_nonneg_right x2 (by positivity))
  have sm' : 6 * M / 2 ^ 53 ≤ M := by rw [div_le_iff₀ (by positivity)]; linarith
  have x4 : |near (near (a.z + B) + C)| ≤ 7 * M := by
    have := abs_sub_abs_le_abs_sub (near (near (a.z + B) + C)) (near (a.z + B) + C); linarith
  refine ⟨_, (rnd_fin_iff _ _).mpr ⟨rfl, fin8 (by linarith)⟩, ?_, ?_, ?_, ?_⟩
  · have g1 : 2 ^ ((k : ℤ) + i - 48) = 32 * M / 2 ^ 53 := by
      rw [hM, zpow_sub₀ two_ne_zero]; norm_num; ring
    rw [g1]
    have e1 : near (near (a.z + B) + C) - (r * a.z + s * b.z + t * c.z) =
        (near (near (a.z + B) + C) - (near (a.z + B) + C)) + (near (a.z + B) - (a.z + B)) + (B - s * (b.z - a.z)) + (C - t * (c.z - a.z)) := by
      rw [show r = 1 - s - t by linarith]; ring
    rw [e1]
    have y1 := abs_add_le ((near (near (a.z + B) + C) - (near (a.z + B) + C)) + (near (a.z + B) - (a.z + B)) + (B - s * (b.z - a.z))) (C - t * (c.z - a.z))
    have y2 := abs_add_le ((near (near (a.z + B) + C) - (near (a.z + B) + C)) + (near (a.z + B) - (a.z + B))) (B - s * (b.z - a.z))
    have y3 := abs_add_le (near (near (a.z + B) + C) - (near (a.z + B) + C)) (near (a.z + B) - (a.z + B))
    have y4 : (0 : ℚ) ≤ M / 2 ^ 53 := by positivity
    have l1 := pb.2
    have l2 := pc.2
    simp only [mul_div_assoc] at *
    linarith
  · intro hr
    rw [vb (by linarith), vc (by linarith), add_zero, add_zero, near_of_rep fa.1, near_of_rep fa.1]
  · intro hs
    rw [vb' hs, vc (by linarith), add_zero, show a.z + (b.z - a.z) = b.z by ring, near_of_rep fzb.1, near_of_rep fzb.1]
  · intro ht
    rw [vb (by linarith), vc' ht, add_zero, near_of_rep fa.1, show a.z + (c.z - a.z) = c.z by ring, near_of_rep fzc.1]

/-! Examples -/

theorem exB {k : ℕ} {x y : ℤ} (hx : |x| ≤ 2 ^ k) (hy : |y| ≤ 2 ^ k) : OnGridB k 0 (pt x y) := ⟨x, y, hx, hy, by simp [Coord.xy], by simp [Coord.xy]⟩

/-- A proper triangle on the grid of 16 bits, and a collinear triple. -/
example : OnGridB 16 0 (pt (0 : ℤ) (0 : ℤ)) ∧ OnGridB 16 0 (pt (65535 : ℤ) (1 : ℤ)) ∧ OnGridB 16 0 (pt (3 : ℤ) (7 : ℤ)) ∧
    det (pt (0 : ℤ) (0 : ℤ)) (pt (65535 : ℤ) (1 : ℤ)) (pt (3 : ℤ) (7 : ℤ)) ≠ 0 ∧ det (pt 0 0) (pt 1 2) (pt 2 4) = 0 :=
  ⟨exB (by norm_num) (by norm_num), exB (by norm_num) (by norm_num), exB (by norm_num) (by norm_num), by simp [det, Coord.xy]; norm_num, by simp [det, Coord.xy]; norm_num⟩

/-- The circumcentre of (0,0), (65535,1), (3,7) is not a double, and is computed as the point next to it. -/
example : ∃ u v : ℚ, Triangle.circumcentre (toB64 (pt 0 0) : Coord X64) (toB64 (pt 65535 1)) (toB64 (pt 3 7)) = Coord.xy (Fl.fin u) (Fl.fin v) := by
  obtain ⟨u, v, h, -⟩ := C93_circumcentre (sq := Val.fin) (hy := fun a _ => Val.fin a) (g := 0) (a := pt (0 : ℤ) (0 : ℤ)) (b := pt (65535 : ℤ) (1 : ℤ)) (c := pt (3 : ℤ) (7 : ℤ))
    (by norm_num) (by norm_num) (exB (by norm_num) (by norm_num)) (exB (by norm_num) (by norm_num)) (exB (by norm_num) (by norm_num)) (by simp [det, Coord.xy]; norm_num)
  exact ⟨u, v, by exact_mod_cast h⟩

/-- An acute triangle, and one that is not. -/
example : Triangle.isAcute (toB64 (pt 0 0) : Coord X64) (toB64 (pt 4 0)) (toB64 (pt 2 3)) = true ∧
    Triangle.isAcute (toB64 (pt 0 0) : Coord X64) (toB64 (pt 4 0)) (toB64 (pt 0 3)) = false := by decide +kernel

/-- A point inside a triangle whose z is not a double. -/
example : ∃ v : ℚ, Triangle.interpolateZ (zB64 ⟨1, 1, 0, 0⟩ : Coord X64) (zB64 ⟨0, 0, 1, 0⟩) (zB64 ⟨3, 0, 2, 0⟩) (zB64 ⟨0, 3, 4, 0⟩) = Fl.fin v ∧
    |v - 7 / 3| ≤ 2 ^ (-45 : ℤ) := by
  obtain ⟨v, h, e, -⟩ := C93_interpolate (sq := Val.fin) (hy := fun a _ => Val.fin a) (g := 0) (i := 0) (k := 3) (p := ⟨1, 1, 0, 0⟩) (a := ⟨0, 0, 1, 0⟩) (b := ⟨3, 0, 2, 0⟩)
    (c := ⟨0, 3, 4, 0⟩) (r := 1 / 3) (s := 1 / 3) (t := 1 / 3) (by norm_num) (by norm_num) (by norm_num) (by norm_num) (by norm_num)
    ⟨1, 1, by norm_num, by norm_num, by norm_num, by norm_num⟩ ⟨0, 0, by norm_num, by norm_num, by norm_num, by norm_num⟩
    ⟨3, 0, by norm_num, by norm_num, by norm_num, by norm_num⟩ ⟨0, 3, by norm_num, by norm_num, by norm_num, by norm_num⟩ (by simp [det])
    ⟨1, by norm_num, by norm_num⟩ ⟨2, by norm_num, by norm_num⟩ ⟨4, by norm_num, by norm_num⟩ (by norm_num) (by norm_num) (by norm_num) (by norm_num) (by norm_num) (by norm_num)
  refine ⟨v, h, ?_⟩
  have : (1 : ℚ) / 3 * 1 + 1 / 3 * 2 + 1 / 3 * 4 = 7 / 3 := by norm_num
  rwa [this] at e

end Verif.Props
