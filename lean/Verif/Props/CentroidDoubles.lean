import Verif.Props.Centroid64
import Verif.Props.DistanceDoubles
import Verif.Props.RingDoubles

/-! # C120: centroids of lines and polygons of arbitrary doubles -/

set_option linter.unusedSectionVars false

namespace Verif.Props
open Flt Verif.Spec Verif.Binary64

variable {sq : ℚ → Val} {hy : ℚ → ℚ → Val}

/-! ## Long sums -/

/-- Rounding adds one unit, however many there are. -/
theorem sc_round_long {e B : ℝ} {v : ℚ} {x : ℝ} (hx : |x| ≤ B) (h : |(v : ℝ) - x| ≤ e * B / 2 ^ 52) (e1 : e ≤ 2 ^ 50) (hB : Mid 1000 B) :
    |near v| < 2 ^ 1024 ∧ |((near v : ℚ) : ℝ) - x| ≤ (e + 1) * B / 2 ^ 52 := by
  have b0 := hB.pos
  have k1 := near_err_real v
  have k2 : |(v : ℝ)| ≤ B + e * B / 2 ^ 52 := by
    have := abs_sub_abs_le_abs_sub (v : ℝ) x
    linarith
  have k3 : e * B / 2 ^ 52 ≤ B / 4 := by
    have : e * B ≤ 2 ^ 50 * B := mul_le_mul_of_nonneg_right e1 b0.le
    rw [div_le_iff₀ (by norm_num)]
    linarith
  have k4 : (2 : ℝ) ^ (-1075 : ℤ) ≤ B / 2 ^ 75 := by
    have : (2 : ℝ) ^ (-1075 : ℤ) = 1 / 2 ^ 1000 / 2 ^ 75 := by
      rw [show (-1075 : ℤ) = -1000 + -75 by norm_num, zpow_add₀ (by norm_num)]
      rw [zpow_neg, zpow_neg, ← div_eq_mul_inv, ← one_div]
      norm_cast
    rw [this]
    exact div_le_div_of_nonneg_right hB.1 (by positivity)
  have k5 : |((near v : ℚ) : ℝ) - v| ≤ B / 2 ^ 52 := by
    refine k1.trans ?_
    have : |(v : ℝ)| / 2 ^ 53 ≤ (B + B / 4) / 2 ^ 53 := div_le_div_of_nonneg_right (by linarith) (by norm_num)
    have e1 : B / 2 ^ 52 = (B + B / 4) / 2 ^ 53 + B / 2 ^ 75 + B * (3 / 4 / 2 ^ 53 - 1 / 2 ^ 75) := by ring
    have : 0 ≤ B * (3 / 4 / 2 ^ 53 - 1 / 2 ^ 75) := mul_nonneg b0.le (by norm_num)
    linarith
  have k6 := abs_sub_le ((near v : ℚ) : ℝ) v x
  refine ⟨?_, ?_⟩
  · have k7 : |((near v : ℚ) : ℝ)| ≤ 3 * B := by
      have := abs_sub_abs_le_abs_sub ((near v : ℚ) : ℝ) x
      have : B / 2 ^ 52 ≤ B := div_le_self b0.le (by norm_num)
      linarith
    have : ((|near v| : ℚ) : ℝ) < ((2 ^ 1024 : ℚ) : ℝ) := by
      push_cast
      refine lt_of_le_of_lt k7 ?_
      rw [show (1024 : ℕ) = 24 + 1000 from rfl, pow_add]
      have k8 := hB.2
      generalize (2 : ℝ) ^ 1000 = P at k8
      have : (2 : ℝ) ^ 24 = 16777216 := by norm_num
      rw [this]
      linarith
    exact_mod_cast this
  · have : (e + 1) * B / 2 ^ 52 = e * B / 2 ^ 52 + B / 2 ^ 52 := by ring
    linarith

theorem Sc.add_long {e₁ e₂ B₁ B₂ e : ℝ} {f g : B64 sq hy} {x y : ℝ} (h : Sc e₁ B₁ f x) (k : Sc e₂ B₂ g y) (l₁ : e₁ ≤ e) (l₂ : e₂ ≤ e) (e1 : e ≤ 2 ^ 50)
    (hB : Mid 1000 (B₁ + B₂)) : Sc (e + 1) (B₁ + B₂) (f +. g) (x + y) := by
  obtain ⟨v, rfl, a1, a2⟩ := h
  obtain ⟨w, rfl, b1, b2⟩ := k
  have s1 : |x + y| ≤ B₁ + B₂ := (abs_add_le _ _).trans (add_le_add a1 b1)
  have s2 : |((v + w : ℚ) : ℝ) - (x + y)| ≤ e * (B₁ + B₂) / 2 ^ 52 := by
    have t : ((v + w : ℚ) : ℝ) - (x + y) = (v - x) + (w - y) := by push_cast; ring
    rw [t]
    have p1 : e₁ * B₁ ≤ e * B₁ := mul_le_mul_of_nonneg_right l₁ ((abs_nonneg _).trans a1)
    have p2 : e₂ * B₂ ≤ e * B₂ := mul_le_mul_of_nonneg_right l₂ ((abs_nonneg _).trans b1)
    have q1 : e₁ * B₁ / 2 ^ 52 ≤ e * B₁ / 2 ^ 52 := div_le_div_of_nonneg_right p1 (by norm_num)
    have q2 : e₂ * B₂ / 2 ^ 52 ≤ e * B₂ / 2 ^ 52 := div_le_div_of_nonneg_right p2 (by norm_num)
    have r : e * (B₁ + B₂) / 2 ^ 52 = e * B₁ / 2 ^ 52 + e * B₂ / 2 ^ 52 := by ring
    have := abs_add_le ((v : ℝ) - x) (w - y)
    linarith
  obtain ⟨c1, c2⟩ := sc_round_long s1 s2 e1 hB
  exact ⟨near (v + w), (rnd_fin_iff _ _).mpr ⟨rfl, c1⟩, s1, c2⟩

/-- Division by an exact positive number. -/
theorem Sc.scale_down {e B : ℝ} {f : B64 sq hy} {x : ℝ} {d : ℚ} (h : Sc e B f x) (hd : 0 < d) (e1 : e ≤ 2 ^ 50) (hB : Mid 1000 (B / d)) :
    Sc (e + 1) (B / d) (f /. Fl.fin d) (x / d) := by
  obtain ⟨v, rfl, a1, a2⟩ := h
  have d0 : (0 : ℝ) < d := by exact_mod_cast hd
  have s1 : |x / d| ≤ B / d := by rw [abs_div, abs_of_pos d0]; exact div_le_div_of_nonneg_right a1 d0.le
  have s2 : |((v / d : ℚ) : ℝ) - x / d| ≤ e * (B / d) / 2 ^ 52 := by
    have t : ((v / d : ℚ) : ℝ) - x / d = (v - x) / d := by push_cast; ring
    rw [t, abs_div, abs_of_pos d0, show e * (B / (d : ℝ)) / 2 ^ 52 = e * B / 2 ^ 52 / d by ring]
    exact div_le_div_of_nonneg_right a2 d0.le
  obtain ⟨c1, c2⟩ := sc_round_long s1 s2 e1 hB
  exact ⟨near (v / d), div_fin64 hd.ne' rfl c1, s1, c2⟩

/-- A quotient of two numbers known with the error `t C` in the quotient of the first by the second, and `t` in the second. -/
theorem quot_close {v w : ℚ} {x y C t : ℝ} (y0 : y ≠ 0) (hv : |(v : ℝ) - x| ≤ t * C * |y|) (hw : |(w : ℝ) - y| ≤ t * |y|) (t1 : t ≤ 1 / 4) :
    w ≠ 0 ∧ |((v / w : ℚ) : ℝ) - x / y| ≤ 4 / 3 * t * (C + |x / y|) := by
  have ay : 0 < |y| := abs_pos.mpr y0
  have wy : 3 / 4 * |y| ≤ |(w : ℝ)| := by
    have := abs_sub_abs_le_abs_sub y (w : ℝ)
    rw [abs_sub_comm] at this
    have := mul_le_mul_of_nonneg_right t1 ay.le
    linarith
  have w0 : 0 < |(w : ℝ)| := lt_of_lt_of_le (by linarith) wy
  have w0' : (w : ℝ) ≠ 0 := abs_pos.mp w0
  refine ⟨by exact_mod_cast w0', ?_⟩
  have e : ((v / w : ℚ) : ℝ) - x / y = ((v - x) - x / y * (w - y)) / w := by
    push_cast; field_simp; ring
  have u1 : |x / y * (w - y)| ≤ |x / y| * (t * |y|) := by rw [abs_mul]; exact mul_le_mul_of_nonneg_left hw (abs_nonneg _)
  have u2 : |(v - x) - x / y * (w - y)| ≤ t * (C + |x / y|) * |y| := by
    have := abs_sub ((v : ℝ) - x) (x / y * (w - y))
    linarith
  have T0 : 0 ≤ t * (C + |x / y|) := by
    have := (abs_nonneg _).trans u2
    exact nonneg_of_mul_nonneg_left this ay
  rw [e, abs_div, div_le_iff₀ w0]
  calc _ ≤ t * (C + |x / y|) * |y| := u2
    _ = 4 / 3 * (t * (C + |x / y|)) * (3 / 4 * |y|) := by ring
    _ ≤ 4 / 3 * (t * (C + |x / y|)) * |(w : ℝ)| := mul_le_mul_of_nonneg_left wy (by linarith)
    _ = _ := by ring

/-! ## Lines -/

theorem realPt_dist_map (l : List (Coord ℚ)) (i : ℕ) (f : Coord ℝ × Coord ℝ → ℝ) :
    (((segs (l.map realPt)).take i).map f) = (((segs l).take i).map (fun s => f (realPt s.1, realPt s.2))) := by
  rw [segs_map, ← List.map_take, List.map_map]
  rfl

section lines
variable {ε : ℝ} (lib : Lib64 sq hy ε) (hε : ε ≤ 1 / 2 ^ 52) {M : ℝ} (hM : M ≤ 2 ^ 200)
include lib hε hM

/-- What one segment of positive length adds. -/
theorem segment_terms {a b : Coord ℚ} (ha : Sized M a) (hb : Sized M b) (hab : (1 : ℝ) / 2 ^ 200 ≤ |(b.x : ℝ) - a.x| ∨ (1 : ℝ) / 2 ^ 200 ≤ |(b.y : ℝ) - a.y|) :
    ∃ L : ℝ, L = dist (realPt a) (realPt b) ∧ Mid 203 L ∧ Mid 202 M ∧ Sc 3 L ((toB64 a : Coord (B64 sq hy)).distance (toB64 b)) L ∧
      ((toB64 a : Coord (B64 sq hy)).distance (toB64 b) ==. lit 0) = false ∧
      Sc 7 (L * M) ((toB64 a : Coord (B64 sq hy)).distance (toB64 b) *. (((toB64 a : Coord (B64 sq hy)).x +. (toB64 b).x) /. lit 2)) (L * ((a.x + b.x) / 2)) ∧
      Sc 7 (L * M) ((toB64 a : Coord (B64 sq hy)).distance (toB64 b) *. (((toB64 a : Coord (B64 sq hy)).y +. (toB64 b).y) /. lit 2)) (L * ((a.y + b.y) / 2)) := by
  obtain ⟨fax, fay, ax, ay⟩ := ha
  obtain ⟨fbx, fby, bx, bY⟩ := hb
  obtain ⟨L, hL⟩ : ∃ L, L = dist (realPt a) (realPt b) := ⟨_, rfl⟩
  have eL : L = √(((a.x : ℝ) - b.x) ^ 2 + ((a.y : ℝ) - b.y) ^ 2) := by rw [hL]; rfl
  have lx : |(b.x : ℝ) - a.x| ≤ L := by
    rw [eL]; apply Real.le_sqrt_of_sq_le; rw [sq_abs]; nlinarith [sq_nonneg ((a.y : ℝ) - b.y)]
  have ly : |(b.y : ℝ) - a.y| ≤ L := by
    rw [eL]; apply Real.le_sqrt_of_sq_le; rw [sq_abs]; nlinarith [sq_nonneg ((a.x : ℝ) - b.x)]
  have dx : |(b.x : ℝ) - a.x| ≤ 2 * M := by have := abs_sub (b.x : ℝ) a.x; linarith
  have dy : |(b.y : ℝ) - a.y| ≤ 2 * M := by have := abs_sub (b.y : ℝ) a.y; linarith
  have L1 : 1 / 2 ^ 200 ≤ L := by rcases hab with h | h <;> linarith
  have M1 : 1 / 2 ^ 201 ≤ M := by
    have e : (1 : ℝ) / 2 ^ 201 = 1 / 2 ^ 200 / 2 := by rw [pow_succ]; field_simp
    rw [e]
    rcases hab with h | h <;> linarith
  have L2 : L ≤ 4 * M := by
    rw [eL]
    apply Real.sqrt_le_iff.mpr
    have M0 : 0 ≤ M := (abs_nonneg _).trans ax
    refine ⟨by linarith, ?_⟩
    have q1 := sq_le_sq' (by linarith [(abs_le.mp dx).1, (abs_le.mp dx).2]) (show (a.x : ℝ) - b.x ≤ 2 * M by linarith [(abs_le.mp dx).1])
    have q2 := sq_le_sq' (by linarith [(abs_le.mp dy).1, (abs_le.mp dy).2]) (show (a.y : ℝ) - b.y ≤ 2 * M by linarith [(abs_le.mp dy).1])
    nlinarith
  have mM : Mid 202 M := ⟨(one_div_le_one_div_of_le (by positivity) (pow_le_pow_right₀ (by norm_num) (by norm_num))).trans M1,
    hM.trans (pow_le_pow_right₀ (by norm_num) (by norm_num))⟩
  have mL : Mid 203 L := ⟨(one_div_le_one_div_of_le (by positivity) (pow_le_pow_right₀ (by norm_num) (by norm_num))).trans L1, by
    have e : (2 : ℝ) ^ 203 = 8 * 2 ^ 200 := by rw [show (203 : ℕ) = 3 + 200 from rfl, pow_add]; norm_num
    rw [e]
    generalize (2 : ℝ) ^ 200 = P at hM
    have := (abs_nonneg _).trans ax
    linarith⟩
  have big : ∀ {u : ℝ}, |u| ≤ 2 * M → |u| ≤ 2 ^ 900 := by
    intro u hu
    have p1 : (2 : ℝ) * 2 ^ 200 ≤ 2 ^ 900 := by
      rw [← pow_succ']
      exact pow_le_pow_right₀ (by norm_num) (by norm_num)
    generalize (2 : ℝ) ^ 900 = Q at *
    generalize (2 : ℝ) ^ 200 = P at *
    linarith
  have thou : (1 : ℝ) / 2 ^ 1000 ≤ 1 / 2 ^ 200 := one_div_le_one_div_of_le (by positivity) (pow_le_pow_right₀ (by norm_num) (by norm_num))
  obtain ⟨w, hw, we⟩ := hypot_diff lib hε fbx fax fby fay (big (by rwa [abs_sub_comm])) (big (by rwa [abs_sub_comm]))
    (hab.imp (fun h => by rw [abs_sub_comm]; exact thou.trans h) (fun h => by rw [abs_sub_comm]; exact thou.trans h))
  rw [← eL] at we
  have hd : (toB64 a : Coord (B64 sq hy)).distance (toB64 b) = Fl.fin w := by
    unfold Coord.distance
    simpa only [xB64, yB64] using hw
  have L0 := mL.pos
  have sL : Sc 3 L (Fl.fin w : B64 sq hy) L := ⟨w, rfl, (abs_of_pos L0).le, by linarith⟩
  have w0 : w ≠ 0 := by
    rintro rfl
    have : |((0 : ℚ) : ℝ) - L| = L := by rw [Rat.cast_zero, zero_sub, abs_neg, abs_of_pos L0]
    rw [this] at we
    linarith
  have two : (lit 2 : B64 sq hy) = Fl.fin 2 := lit64_two'
  have mid : ∀ u v : ℚ, |(u : ℝ)| ≤ M → |(v : ℝ)| ≤ M → Sc 2 M ((((Fl.fin u : B64 sq hy) +. Fl.fin v)) /. lit 2) ((u + v) / 2) := by
    intro u v hu hv
    have m2 : Mid 1000 (M + M) := (mM.add mM).mono (by norm_num)
    have s := Sc.add (sc_exact (sq := sq) (hy := hy) hu) (sc_exact (sq := sq) (hy := hy) hv) le_rfl le_rfl le_rfl (by norm_num) m2
    have e : (M + M) / ((2 : ℚ) : ℝ) = M := by push_cast; ring
    have := s.scale_down (d := 2) (by norm_num) (by norm_num) (by rw [e]; exact mM.mono (by norm_num))
    rw [e, ← two] at this
    convert this using 1
    · norm_num
    · push_cast; ring
  have mLM : Mid 1000 (L * M) := (mL.mul mM).mono (by norm_num)
  refine ⟨L, hL, mL, mM, by rw [hd]; exact sL, ?_, ?_, ?_⟩
  · rw [hd, lit64]
    show decide (w = 0) = false
    simpa using w0
  · rw [hd, xB64, xB64]
    have := sL.mul (mid _ _ ax bx) (by norm_num) (by norm_num) (by norm_num) (by norm_num) mLM
    convert this using 1
    norm_num
  · rw [hd, yB64, yB64]
    have := sL.mul (mid _ _ ay bY) (by norm_num) (by norm_num) (by norm_num) (by norm_num) mLM
    convert this using 1
    norm_num

/-- The sums over a line: `k` segments of the total length `Λ`. -/
structure LineAcc (M : ℝ) (k : ℕ) (Λ X Y : ℝ) (st : Centroid (B64 sq hy) × B64 sq hy) : Prop where
  nonneg : 0 ≤ Λ
  le : Λ ≤ k * 2 ^ 203
  x : Sc (k + 7) (Λ * M) st.1.lineCentSum.1 X
  y : Sc (k + 7) (Λ * M) st.1.lineCentSum.2 Y
  len : Sc (k + 7) Λ st.2 Λ
  area : st.1.areasum2 = lit 0
  total : st.1.totalLength = lit 0
  count : st.1.ptCount = 0
  pts : st.1.ptCentSum = (lit 0, lit 0)
  zero : Λ = 0 → st.2 = lit 0

/-- One step of the loop over the segments. -/
theorem line_step {k : ℕ} (hk : k ≤ 2 ^ 40) {Λ X Y : ℝ} {st : Centroid (B64 sq hy) × B64 sq hy} (h : LineAcc M k Λ X Y st) {a b : Coord ℚ} (ha : Sized M a) (hb : Sized M b)
    (hab : Extends a b) :
    LineAcc M (k + 1) (Λ + dist (realPt a) (realPt b)) (X + dist (realPt a) (realPt b) * ((a.x + b.x) / 2)) (Y + dist (realPt a) (realPt b) * ((a.y + b.y) / 2))
      (if (toB64 a : Coord (B64 sq hy)).distance (toB64 b) ==. lit 0 then st
        else ({ st.1 with lineCentSum := (st.1.lineCentSum.1 +. (toB64 a : Coord (B64 sq hy)).distance (toB64 b) *. (((toB64 a : Coord (B64 sq hy)).x +. (toB64 b).x) /. lit 2),
                st.1.lineCentSum.2 +. (toB64 a : Coord (B64 sq hy)).distance (toB64 b) *. (((toB64 a : Coord (B64 sq hy)).y +. (toB64 b).y) /. lit 2)) },
              st.2 +. (toB64 a : Coord (B64 sq hy)).distance (toB64 b))) := by
  have M0 : 0 ≤ M := (abs_nonneg _).trans ha.2.2.1
  have hk' : (k : ℝ) ≤ 2 ^ 40 := by exact_mod_cast hk
  by_cases hz : a.x = b.x ∧ a.y = b.y
  · have hd : (toB64 a : Coord (B64 sq hy)).distance (toB64 b) = Fl.fin 0 := by
      have e0 : ∀ u : ℚ, (Fl.fin u : B64 sq hy) -. Fl.fin u = Fl.fin 0 := by
        intro u
        show rnd (u + -u) = Val.fin 0
        rw [add_neg_cancel, rnd_of_f64 (f64_of (by decide +kernel))]
      unfold Coord.distance
      simp only [xB64, yB64, hz.1, hz.2, e0]
      exact lib.zero
    have dz : dist (realPt a) (realPt b) = 0 := by rw [dist_eq_zero]; unfold realPt; simp [hz.1, hz.2]
    rw [hd, dz, lit64]
    have eqz : ((Fl.fin 0 : B64 sq hy) ==. Fl.fin 0) = true := by
      show decide ((0 : ℚ) = 0) = true
      decide
    rw [if_pos eqz]
    simp only [zero_mul, add_zero]
    have kk : (k : ℝ) + 7 ≤ ((k + 1 : ℕ) : ℝ) + 7 := by push_cast; linarith
    have k0 : (0 : ℝ) ≤ k + 7 := by positivity
    refine ⟨h.nonneg, h.le.trans ?_, h.x.mono kk k0 le_rfl, h.y.mono kk k0 le_rfl, h.len.mono kk k0 le_rfl, h.area, h.total, h.count, h.pts, h.zero⟩
    apply mul_le_mul_of_nonneg_right _ (by positivity)
    push_cast; linarith
  · obtain ⟨L, hL, mL, mM, sL, ne, tx, ty⟩ := segment_terms lib hε hM ha hb (hab.proper hz)
    rw [← hL, ne, if_neg (by simp)]
    have L0 := mL.pos
    have up : Λ + L ≤ 2 ^ 300 := by
      have e1 := h.le
      have e2 := mL.2
      have e3 : (2 : ℝ) ^ 300 = 2 ^ 97 * 2 ^ 203 := by rw [← pow_add]
      rw [e3]
      have e4 : (k : ℝ) * 2 ^ 203 ≤ 2 ^ 40 * 2 ^ 203 := mul_le_mul_of_nonneg_right hk' (by positivity)
      have e5 : (0 : ℝ) < 2 ^ 203 := by positivity
      clear e3
      generalize (2 : ℝ) ^ 203 = P at *
      norm_num at e4 ⊢
      linarith
    have mS : Mid 300 (Λ + L) := ⟨(mL.mono (show 203 ≤ 300 by norm_num)).1.trans (by linarith [h.nonneg]), up⟩
    have e50 : (k : ℝ) + 7 ≤ 2 ^ 50 := by linarith
    have sx := h.x.add_long tx le_rfl (by linarith [show (0 : ℝ) ≤ k by positivity]) e50 (by rw [← add_mul]; exact (mS.mul mM).mono (by norm_num))
    have sy := h.y.add_long ty le_rfl (by linarith [show (0 : ℝ) ≤ k by positivity]) e50 (by rw [← add_mul]; exact (mS.mul mM).mono (by norm_num))
    have sl := h.len.add_long sL le_rfl (by linarith [show (0 : ℝ) ≤ k by positivity]) e50 (mS.mono (by norm_num))
    rw [← add_mul] at sx sy
    have ek : (k : ℝ) + 7 + 1 = ((k + 1 : ℕ) : ℝ) + 7 := by push_cast; ring
    rw [ek] at sx sy sl
    refine ⟨by linarith [h.nonneg], ?_, sx, sy, sl, h.area, h.total, h.count, h.pts, fun e => ?_⟩
    · have e1 := h.le
      have e2 := mL.2
      push_cast
      generalize (2 : ℝ) ^ 203 = P at *
      linarith
    · exact absurd e (by linarith [h.nonneg])

/-- The loop over the segments. -/
theorem line_loop (l : List (Coord ℚ)) (hl : l ≠ []) (hn : l.length ≤ 2 ^ 40) (hp : ∀ p ∈ l, Sized M p) (he : ∀ s ∈ segs l, Extends s.1 s.2) :
    ∃ st, Centroid.segmentLoop Centroid.init (l.map (toB64 : Coord ℚ → Coord (B64 sq hy))) (l.length - 1) = .ok st ∧
      LineAcc M (l.length - 1) (lineLength (l.map realPt)) (lineX (l.map realPt)) (lineY (l.map realPt)) st := by
  have hl' : 1 ≤ l.length := List.length_pos_iff.mpr hl
  unfold Centroid.segmentLoop
  obtain ⟨st, h1, h2⟩ := forRange_inv 0 (l.length - 1) (fun i (st : Centroid (B64 sq hy) × B64 sq hy) => do
      let a ← Res.get (l.map toB64) i
      let b ← Res.get (l.map toB64) (i + 1)
      let len := a.distance b
      if len ==. lit 0 then pure st
      else
        let midx := (a.x +. b.x) /. lit 2
        let midy := (a.y +. b.y) /. lit 2
        pure ({ st.1 with lineCentSum := (st.1.lineCentSum.1 +. len *. midx, st.1.lineCentSum.2 +. len *. midy) }, st.2 +. len))
    (fun i st => LineAcc M i (((segs (l.map realPt)).take i).map (fun s => Spec.dist s.1 s.2)).sum
      (((segs (l.map realPt)).take i).map (fun s => Spec.dist s.1 s.2 * ((s.1.x + s.2.x) / 2))).sum
      (((segs (l.map realPt)).take i).map (fun s => Spec.dist s.1 s.2 * ((s.1.y + s.2.y) / 2))).sum st) (Nat.zero_le _) (Centroid.init, lit 0) (by
      have z : ∀ B : ℝ, 0 ≤ B → Sc 7 B (lit 0 : B64 sq hy) 0 := by
        intro B hB
        rw [lit64]
        exact ⟨0, rfl, by simpa using hB, by simp; positivity⟩
      refine ⟨by simp, by simp, ?_, ?_, ?_, rfl, rfl, rfl, rfl, fun _ => rfl⟩ <;> simpa [Centroid.init] using z 0 le_rfl) (by
      intro i st _ hi h
      have hs : i < (segs l).length := by rw [length_segs]; omega
      rw [Res.get_lt (by rw [List.length_map]; omega : i < (l.map _).length), Res.get_lt (by rw [List.length_map]; omega : i + 1 < (l.map _).length)]
      simp only [Res.bind_ok, Res.pure_eq, List.getElem_map]
      have hx := he _ (List.getElem_mem hs)
      rw [getElem_segs] at hx
      have := line_step lib hε hM (by omega : i ≤ 2 ^ 40) h (hp _ (List.getElem_mem (by omega : i < l.length))) (hp _ (List.getElem_mem (by omega : i + 1 < l.length))) hx
      refine ⟨_, (apply_ite Except.ok _ _ _).symm, ?_⟩
      convert this using 1 <;>
      · simp only [realPt_dist_map]
        rw [take_succ' _ _ hs, getElem_segs]
        simp [realPt])
  refine ⟨st, h1, ?_⟩
  rwa [List.take_of_length_le (by simp)] at h2

/-- C120: the centroid of a line of arbitrary doubles, which may have repeated points: within (3 n + 20) / 2^52 of the greatest ordinate
of the centroid in real arithmetic; exact if all points coincide. -/
theorem C120_line (pts : List (Coord ℚ)) (h0 : pts ≠ []) (hn : pts.length ≤ 2 ^ 40) (hp : ∀ p ∈ pts, Sized M p) (he : ∀ s ∈ segs pts, Extends s.1 s.2)
    (l : LineString (B64 sq hy)) (hl : l.getCoordinates = pts.map toB64) (l' : LineString ℝ) (hl' : l'.getCoordinates = pts.map realPt) :
    ∃ c c' u q, Centroid.ofLineString l = .ok c ∧ c.getCentroid = some (Coord.xy (Fl.fin u.x) (Fl.fin u.y)) ∧
      Centroid.ofLineString l' = .ok c' ∧ c'.getCentroid = some q ∧ CloseTo ((3 * pts.length + 20) * M / 2 ^ 52) u q ∧
      (lineLength (pts.map realPt) = 0 → CloseTo 0 u q) := by
  obtain ⟨st, h1, h2⟩ := line_loop lib hε hM pts h0 hn hp he
  have hlen : 1 ≤ pts.length := List.length_pos_iff.mpr h0
  obtain ⟨c', k1, k2, k3⟩ := (C46_line l').2 (by rw [hl']; simpa using h0)
  rw [hl'] at k2 k3
  generalize hΛ : lineLength (pts.map realPt) = Λ at *
  generalize lineX (pts.map realPt) = X at *
  generalize lineY (pts.map realPt) = Y at *
  have run : Centroid.ofLineString l = (if (st.2 ==. lit 0) && decide ((pts.map (toB64 : Coord ℚ → Coord (B64 sq hy))).length > 0) then do
      let p ← Res.get (pts.map toB64) 0
      pure (Centroid.addPoint { st.1 with totalLength := st.1.totalLength +. st.2 } p)
    else pure { st.1 with totalLength := st.1.totalLength +. st.2 }) := by
    unfold Centroid.ofLineString Centroid.addLineSegments
    rw [hl, List.length_map, Res.sub_le hlen, Res.bind_ok, h1, Res.bind_ok]
  have z : (lit 0 : B64 sq hy) = Fl.fin 0 := lit64
  have zz : (Fl.fin 0 : B64 sq hy) +. Fl.fin 0 = Fl.fin 0 := by
    show rnd (0 + 0) = Val.fin 0
    rw [add_zero, rnd_of_f64 (f64_of (by decide +kernel))]
  have noarea : ¬ (Flt.abs (Fl.fin 0 : B64 sq hy) >. Fl.fin 0) = true := by
    show ¬ decide ((0 : ℚ) < |(0 : ℚ)|) = true
    simp
  by_cases hz : Λ = 0
  · have hp0 := hp pts[0] (List.getElem_mem _)
    have e1 : st.2 = Fl.fin 0 := (h2.zero hz).trans z
    have eqz : ((Fl.fin 0 : B64 sq hy) ==. Fl.fin 0) = true := by
      show decide ((0 : ℚ) = 0) = true
      decide
    rw [e1, z, eqz, Bool.true_and, if_pos (by simp; omega), Res.get_lt (by simp; omega : 0 < (pts.map _).length), Res.bind_ok, Res.pure_eq] at run
    have keep : ∀ v : ℚ, IsF64 v → (Fl.fin 0 : B64 sq hy) +. Fl.fin v = Fl.fin v := by
      intro v hv
      show rnd (0 + v) = Val.fin v
      rw [zero_add, rnd_of_f64 hv]
    have one : (lit 1 : B64 sq hy) = Fl.fin 1 := one64
    have div1 : ∀ v : ℚ, IsF64 v → (Fl.fin v : B64 sq hy) /. Fl.fin 1 = Fl.fin v := by
      intro v hv
      exact div_fin64 one_ne_zero (by rw [div_one, near_of_rep hv.1]) hv.2
    have nototal : ¬ ((Fl.fin 0 : B64 sq hy) >. Fl.fin 0) = true := by
      show ¬ decide ((0 : ℚ) < 0) = true
      simp
    have c0 : CloseTo 0 pts[0] (Coord.xy (realPt pts[0]).x (realPt pts[0]).y) := ⟨by simp [realPt, Coord.xy], by simp [realPt, Coord.xy]⟩
    refine ⟨_, c', pts[0], _, run, ?_, k1, k3 hz (realPt pts[0]) (List.mem_map_of_mem (List.getElem_mem _)), ?_, fun _ => c0⟩
    · unfold Centroid.getCentroid Centroid.addPoint
      simp only [h2.area, h2.total, h2.count, h2.pts, z, zz, if_neg noarea, if_neg nototal]
      rw [if_pos (by norm_num)]
      simp only [List.getElem_map, xB64, yB64, keep _ hp0.1, keep _ hp0.2.1, zero_add, Int.cast_one, one, div1 _ hp0.1, div1 _ hp0.2.1]
    · have M0 : 0 ≤ M := (abs_nonneg _).trans hp0.2.2.1
      have : 0 ≤ (3 * (pts.length : ℝ) + 20) * M / 2 ^ 52 := by positivity
      exact ⟨c0.1.trans this, c0.2.trans this⟩
  · obtain ⟨s, hs, hne⟩ : ∃ s ∈ segs pts, ¬ (s.1.x = s.2.x ∧ s.1.y = s.2.y) := by
      by_contra hcon
      push Not at hcon
      apply hz
      rw [← hΛ]
      unfold lineLength
      apply List.sum_eq_zero
      intro x hx
      rw [segs_map, List.map_map] at hx
      obtain ⟨t, ht, rfl⟩ := List.mem_map.mp hx
      have := hcon t ht
      show Spec.dist (realPt t.1) (realPt t.2) = 0
      rw [dist_eq_zero]
      unfold realPt
      by_cases hx : t.1.x = t.2.x
      · simp [hx, (hcon t ht).2]
      · simp_all
    obtain ⟨m1, m2⟩ := mem_of_segs hs
    obtain ⟨L, hL, mL, mM, _⟩ := segment_terms lib hε hM (hp _ m1) (hp _ m2) ((he s hs).proper hne)
    have L1 : L ≤ Λ := by
      rw [← hΛ, hL]
      unfold lineLength
      apply List.single_le_sum
      · intro x hx
        obtain ⟨t, _, rfl⟩ := List.mem_map.mp hx
        exact Spec.dist_nonneg _ _
      · rw [segs_map, List.map_map]
        exact List.mem_map.mpr ⟨s, hs, rfl⟩
    have Λ0 : 0 < Λ := lt_of_le_of_ne h2.nonneg (Ne.symm hz)
    have n1 : (((pts.length - 1 : ℕ) : ℝ)) = pts.length - 1 := by rw [Nat.cast_sub hlen]; simp
    have n40 : (pts.length : ℝ) ≤ 2 ^ 40 := by exact_mod_cast hn
    have nn : (1 : ℝ) ≤ pts.length := by exact_mod_cast hlen
    obtain ⟨w, ew, -, bw⟩ := h2.len
    obtain ⟨vx, ex, ax, bx⟩ := h2.x
    obtain ⟨vy, ey, ay, bY⟩ := h2.y
    generalize hN : (pts.length : ℝ) = N at *
    rw [n1] at bw bx bY
    have N40 : N ≤ 2 ^ 40 := n40
    have mΛ : Mid 300 Λ := by
      refine ⟨(mL.mono (show 203 ≤ 300 by norm_num)).1.trans L1, h2.le.trans ?_⟩
      rw [n1]
      have e3 : (2 : ℝ) ^ 300 = 2 ^ 97 * 2 ^ 203 := by rw [← pow_add]
      rw [e3]
      apply mul_le_mul_of_nonneg_right _ (by positivity)
      have : (2 : ℝ) ^ 40 ≤ 2 ^ 97 := pow_le_pow_right₀ (by norm_num) (by norm_num)
      linarith
    obtain ⟨b1, b2⟩ := sc_round_long (v := w) (abs_of_pos Λ0).le bw (by linarith) (mΛ.mono (by norm_num))
    have tot : (Fl.fin 0 : B64 sq hy) +. Fl.fin w = Fl.fin (near w) := by
      refine (rnd_fin_iff _ _).mpr ⟨?_, b1⟩
      rw [zero_add]
    have t1 : (N + 7) / 2 ^ 52 ≤ (1 : ℝ) / 4 := by rw [div_le_iff₀ (by norm_num)]; linarith
    have bw' : |((near w : ℚ) : ℝ) - Λ| ≤ (N + 7) / 2 ^ 52 * |Λ| := by
      rw [abs_of_pos Λ0]
      refine b2.trans (le_of_eq ?_)
      ring
    have wpos : 0 < near w := by
      have := (abs_le.mp bw').1
      rw [abs_of_pos Λ0] at this
      have h3 := mul_le_mul_of_nonneg_right t1 Λ0.le
      have : (0 : ℝ) < ((near w : ℚ) : ℝ) := by linarith
      exact_mod_cast this
    have wne : w ≠ 0 := by rintro rfl; rw [near_of_rep (f64_of (by decide +kernel)).1] at wpos; exact lt_irrefl _ wpos
    have nez : ¬ ((Fl.fin w : B64 sq hy) ==. Fl.fin 0) = true := by
      show ¬ decide (w = 0) = true
      simpa using wne
    have pos : ((Fl.fin (near w) : B64 sq hy) >. Fl.fin 0) = true := by
      show decide (0 < near w) = true
      simpa using wpos
    have quot : ∀ (v : ℚ) (V : ℝ), |V| ≤ Λ * M → |(v : ℝ) - V| ≤ (N - 1 + 7) * (Λ * M) / 2 ^ 52 →
        (Fl.fin v : B64 sq hy) /. Fl.fin (near w) = Fl.fin (near (v / near w)) ∧ |((near (v / near w) : ℚ) : ℝ) - V / Λ| ≤ (3 * N + 20) * M / 2 ^ 52 := by
      intro v V hV hv
      have M0 := mM.pos
      obtain ⟨q1, q2⟩ := quot_close (v := v) (w := near w) (x := V) (y := Λ) (C := M) (t := (N + 7) / 2 ^ 52) hz (by
        rw [abs_of_pos Λ0]
        refine hv.trans ?_
        have : (N + 7) / 2 ^ 52 * M * Λ = (N + 7) * (Λ * M) / 2 ^ 52 := by ring
        rw [this]
        apply div_le_div_of_nonneg_right _ (by norm_num)
        exact mul_le_mul_of_nonneg_right (by linarith) (by positivity)) bw' t1
      have q3 : |V / Λ| ≤ M := by rw [abs_div, abs_of_pos Λ0, div_le_iff₀ Λ0]; linarith
      have q4 : |((v / near w : ℚ) : ℝ) - V / Λ| ≤ (8 / 3 * (N + 7)) * M / 2 ^ 52 := by
        refine q2.trans ?_
        have : 4 / 3 * ((N + 7) / 2 ^ 52) * (M + |V / Λ|) ≤ 4 / 3 * ((N + 7) / 2 ^ 52) * (M + M) :=
          mul_le_mul_of_nonneg_left (by linarith) (by positivity)
        refine this.trans (le_of_eq ?_)
        ring
      obtain ⟨r1, r2⟩ := sc_round_long q3 q4 (by linarith) (mM.mono (by norm_num))
      refine ⟨div_fin64 q1 rfl r1, r2.trans ?_⟩
      apply div_le_div_of_nonneg_right _ (by norm_num)
      exact mul_le_mul_of_nonneg_right (by linarith) M0.le
    obtain ⟨fx, gx⟩ := quot vx X ax bx
    obtain ⟨fy, gy⟩ := quot vy Y ay bY
    rw [ew, z, Bool.eq_false_iff.mpr nez, Bool.false_and, if_neg (by simp), Res.pure_eq] at run
    refine ⟨_, c', ⟨near (vx / near w), near (vy / near w), 0, 0⟩, _, run, ?_, k1, k2 hz, ⟨gx, gy⟩, fun h => absurd h hz⟩
    unfold Centroid.getCentroid
    simp only [h2.area, h2.total, z, tot, if_neg noarea, if_pos pos, ex, ey, fx, fy]

end lines

/-! ## Triangles of a polygon -/

/-- The sums over `k` triangles of extent `D` with ordinates up to `M`. -/
structure AreaAcc (D M : ℝ) (k : ℕ) (c : Centroid (B64 sq hy)) (S X Y : ℚ) : Prop where
  area : Sc (k + 11) (k * (2 * D ^ 2)) c.areasum2 S
  x : Sc (k + 11) (k * (6 * D ^ 2 * M)) c.cg3.1 X
  y : Sc (k + 11) (k * (6 * D ^ 2 * M)) c.cg3.2 Y

theorem AreaAcc.congr {D M : ℝ} {k : ℕ} {c c' : Centroid (B64 sq hy)} {S X Y : ℚ} (h : AreaAcc D M k c S X Y) (h1 : c'.areasum2 = c.areasum2) (h2 : c'.cg3 = c.cg3) :
    AreaAcc D M k c' S X Y := by
  obtain ⟨a, b, d⟩ := h
  rw [← h1] at a
  rw [← h2] at b d
  exact ⟨a, b, d⟩

/-- The two points differ by at most `D` in both ordinates. -/
def WithinD (D : ℝ) (p q : Coord ℚ) : Prop := |(q.x : ℝ) - p.x| ≤ D ∧ |(q.y : ℝ) - p.y| ≤ D

section areas
variable {D M : ℝ} (hD : Mid 200 D) (hM : Mid 200 M)
include hD hM

theorem AreaAcc.mono {k l : ℕ} {c : Centroid (B64 sq hy)} {S X Y : ℚ} (h : AreaAcc D M k c S X Y) (hl : k ≤ l) : AreaAcc D M l c S X Y := by
  have hk : (k : ℝ) ≤ l := by exact_mod_cast hl
  have h0 : (0 : ℝ) ≤ k + 11 := by positivity
  have d0 := hD.pos
  have m0 := hM.pos
  have e1 : (k : ℝ) * (2 * D ^ 2) ≤ l * (2 * D ^ 2) := mul_le_mul_of_nonneg_right hk (by positivity)
  have e2 : (k : ℝ) * (6 * D ^ 2 * M) ≤ l * (6 * D ^ 2 * M) := mul_le_mul_of_nonneg_right hk (by positivity)
  exact ⟨h.area.mono (by linarith) h0 e1, h.x.mono (by linarith) h0 e2, h.y.mono (by linarith) h0 e2⟩

/-- One triangle. -/
theorem area_triangle {k : ℕ} (hk : k ≤ 2 ^ 20) {c : Centroid (B64 sq hy)} {S X Y : ℚ} (hc : AreaAcc D M k c S X Y) (pos : Bool)
    {b p q : Coord ℚ} (hb : Sized M b) (hp : Sized M p) (hq : Sized M q) (hbp : WithinD D b p) (hbq : WithinD D b q) :
    AreaAcc D M (k + 1) (c.addTriangle (toB64 b) (toB64 p) (toB64 q) pos) (S + (if pos then 1 else -1) * det b p q)
      (X + (if pos then 1 else -1) * (det b p q * (b.x + p.x + q.x))) (Y + (if pos then 1 else -1) * (det b p q * (b.y + p.y + q.y))) := by
  have d0 := hD.pos
  have m0 := hM.pos
  have mD2 : Mid 400 (D * D) := hD.mul hD
  have mDM : Mid 607 (2 * D ^ 2 * (3 * M)) := by
    have t3 : Mid 2 (3 : ℝ) := ⟨by norm_num, by norm_num⟩
    have := ((mid_two.mul mD2).mul (t3.mul hM)).mono (show 1 + 400 + (2 + 200) ≤ 607 by norm_num)
    convert this using 1
    ring
  have sx1 := sc_diff (sq := sq) (hy := hy) hb.1 hp.1 hbp.1 (hD.mono (by norm_num))
  have sx2 := sc_diff (sq := sq) (hy := hy) hb.1 hq.1 hbq.1 (hD.mono (by norm_num))
  have sy1 := sc_diff (sq := sq) (hy := hy) hb.2.1 hp.2.1 hbp.2 (hD.mono (by norm_num))
  have sy2 := sc_diff (sq := sq) (hy := hy) hb.2.1 hq.2.1 hbq.2 (hD.mono (by norm_num))
  have p1 := sx1.mul sy2 (by norm_num) (by norm_num) (by norm_num) (by norm_num) (mD2.mono (by norm_num))
  have p2 := sx2.mul sy1 (by norm_num) (by norm_num) (by norm_num) (by norm_num) (mD2.mono (by norm_num))
  have ar := p1.sub p2 le_rfl le_rfl (by norm_num) (by norm_num) ((mD2.add mD2).mono (by norm_num))
  have sg : Sc 0 1 (if pos then lit 1 else -.(lit 1) : B64 sq hy) ((if pos then 1 else -1 : ℚ) : ℝ) := by
    have one : (lit 1 : B64 sq hy) = Fl.fin 1 := one64
    rw [one]
    cases pos
    · exact ⟨-1, rfl, by norm_num, by norm_num⟩
    · exact ⟨1, rfl, by norm_num, by norm_num⟩
  have sa := sg.mul ar (by norm_num) (by norm_num) (by norm_num) (by norm_num) (by rw [one_mul]; exact (mD2.add mD2).mono (by norm_num))
  have cent : ∀ u v w : ℚ, |(u : ℝ)| ≤ M → |(v : ℝ)| ≤ M → |(w : ℝ)| ≤ M → Sc 2 (3 * M) ((Fl.fin u : B64 sq hy) +. Fl.fin v +. Fl.fin w) ((u + v + w : ℚ) : ℝ) := by
    intro u v w hu hv hw
    have m2 := hM.add hM
    have s1 := Sc.add (sc_exact (sq := sq) (hy := hy) hu) (sc_exact (sq := sq) (hy := hy) hv) le_rfl le_rfl le_rfl (by norm_num) (m2.mono (by norm_num))
    have s2 := s1.add (sc_exact (sq := sq) (hy := hy) hw) le_rfl (by norm_num) (by norm_num) (by norm_num) ((m2.add (hM.mono (by norm_num))).mono (by norm_num))
    convert s2 using 1
    · norm_num
    · ring
    · push_cast; ring
  have eB : 1 * (D * D + D * D) * (3 * M) = 6 * D ^ 2 * M := by ring
  have eB' : 1 * (D * D + D * D) = 2 * D ^ 2 := by ring
  have mB : Mid 1000 (1 * (D * D + D * D) * (3 * M)) := by rw [eB']; exact mDM.mono (by norm_num)
  have mx := sa.mul (cent _ _ _ hb.2.2.1 hp.2.2.1 hq.2.2.1) (by norm_num) (by norm_num) (by norm_num) (by norm_num) mB
  have my := sa.mul (cent _ _ _ hb.2.2.2 hp.2.2.2 hq.2.2.2) (by norm_num) (by norm_num) (by norm_num) (by norm_num) mB
  rw [eB] at mx my
  rw [eB'] at sa
  have k0 : (0 : ℝ) ≤ k := by positivity
  have k20 : (k : ℝ) ≤ 2 ^ 20 := by exact_mod_cast hk
  have k21 : (k : ℝ) + 1 ≤ 2 ^ 21 := by linarith
  have grow : ∀ B : ℝ, Mid 607 B → Mid 1000 (k * B + B) := by
    intro B hB
    have b0 := hB.pos
    refine ⟨(hB.mono (show 607 ≤ 1000 by norm_num)).1.trans ?_, ?_⟩
    · have : 0 ≤ (k : ℝ) * B := by positivity
      linarith
    · have e1 : (k : ℝ) * B + B = (k + 1) * B := by ring
      have e2 : (2 : ℝ) ^ 1000 = 2 ^ 393 * 2 ^ 607 := by rw [← pow_add]
      rw [e1, e2]
      apply mul_le_mul _ hB.2 b0.le (by positivity)
      have e3 : (2 : ℝ) ^ 21 ≤ 2 ^ 393 := pow_le_pow_right₀ (by norm_num) (by norm_num)
      exact k21.trans e3
  have mA : Mid 607 (2 * D ^ 2) := by
    have := (mid_two.mul mD2).mono (show 1 + 400 ≤ 607 by norm_num)
    convert this using 1
    ring
  have mX : Mid 607 (6 * D ^ 2 * M) := by
    convert mDM using 1
    ring
  have ek : (k : ℝ) + 11 + 1 = ((k + 1 : ℕ) : ℝ) + 11 := by push_cast; ring
  have eA : (k : ℝ) * (2 * D ^ 2) + 2 * D ^ 2 = ((k + 1 : ℕ) : ℝ) * (2 * D ^ 2) := by push_cast; ring
  have eX : (k : ℝ) * (6 * D ^ 2 * M) + 6 * D ^ 2 * M = ((k + 1 : ℕ) : ℝ) * (6 * D ^ 2 * M) := by push_cast; ring
  have fA := hc.area.add_long sa le_rfl (by linarith) (by linarith) (grow _ mA)
  have fX := hc.x.add_long mx le_rfl (by linarith) (by linarith) (grow _ mX)
  have fY := hc.y.add_long my le_rfl (by linarith) (by linarith) (grow _ mX)
  rw [ek, eA] at fA
  rw [ek, eX] at fX fY
  refine ⟨?_, ?_, ?_⟩
  · rw [show ((S + (if pos then 1 else -1) * det b p q : ℚ) : ℝ) =
      S + ((if pos then 1 else -1 : ℚ) : ℝ) * ((p.x - b.x) * (q.y - b.y) - (q.x - b.x) * (p.y - b.y)) by unfold det; push_cast; ring]
    exact fA
  · rw [show ((X + (if pos then 1 else -1) * (det b p q * (b.x + p.x + q.x)) : ℚ) : ℝ) =
      X + ((if pos then 1 else -1 : ℚ) : ℝ) * ((p.x - b.x) * (q.y - b.y) - (q.x - b.x) * (p.y - b.y)) * ((b.x + p.x + q.x : ℚ) : ℝ) by unfold det; push_cast; ring]
    exact fX
  · rw [show ((Y + (if pos then 1 else -1) * (det b p q * (b.y + p.y + q.y)) : ℚ) : ℝ) =
      Y + ((if pos then 1 else -1 : ℚ) : ℝ) * ((p.x - b.x) * (q.y - b.y) - (q.x - b.x) * (p.y - b.y)) * ((b.y + p.y + q.y : ℚ) : ℝ) by unfold det; push_cast; ring]
    exact fY

theorem triangleLoopD {k : ℕ} {b : Coord ℚ} (hb : Sized M b) (pts : List (Coord ℚ)) (hne : pts ≠ []) (hp : ∀ p ∈ pts, Sized M p ∧ WithinD D b p)
    (hcl : Closed2D pts) (hk : k + pts.length ≤ 2 ^ 20) {c : Centroid (B64 sq hy)} {S X Y : ℚ} (hc : AreaAcc D M k c S X Y)
    (hb' : c.areaBasePt = some (toB64 b)) (pos : Bool) :
    ∃ c', Centroid.triangleLoop c (pts.map toB64) pos = .ok c' ∧ c'.areaBasePt = some (toB64 b) ∧
      AreaAcc D M (k + pts.length) c' (S + (if pos then 1 else -1) * shoelace pts) (X + (if pos then 1 else -1) * momentX pts)
        (Y + (if pos then 1 else -1) * momentY pts) := by
  have hl : 1 ≤ pts.length := List.length_pos_iff.mpr hne
  obtain ⟨f1, f2, f3⟩ := fan_sum b pts hcl
  unfold Centroid.triangleLoop
  rw [List.length_map, Res.sub_le hl, Res.bind_ok]
  obtain ⟨g, hg⟩ : ∃ g : ℚ, g = if pos then 1 else -1 := ⟨_, rfl⟩
  obtain ⟨c', h1, h2, h3⟩ := forRange_inv 0 (pts.length - 1) (Centroid.triangleStep (pts.map (toB64 : Coord ℚ → Coord (B64 sq hy))) pos)
    (fun i c => c.areaBasePt = some (toB64 b) ∧ AreaAcc D M (k + i) c (S + g * (((segs pts).take i).map (fun s => det b s.1 s.2)).sum)
        (X + g * (((segs pts).take i).map (fun s => det b s.1 s.2 * (b.x + s.1.x + s.2.x))).sum)
        (Y + g * (((segs pts).take i).map (fun s => det b s.1 s.2 * (b.y + s.1.y + s.2.y))).sum)) (Nat.zero_le _) c ⟨hb', by simpa using hc⟩ (by
      rintro i c _ hi ⟨h1, h2⟩
      have hs : i < (segs pts).length := by rw [length_segs]; omega
      simp only [Centroid.triangleStep, h1]
      rw [Res.get_lt (by rw [List.length_map]; omega : i < (pts.map _).length), Res.get_lt (by rw [List.length_map]; omega : i + 1 < (pts.map _).length)]
      simp only [Res.bind_ok, Res.pure_eq, List.getElem_map]
      refine ⟨_, rfl, h1, ?_⟩
      have m1 := hp pts[i] (List.getElem_mem _)
      have m2 := hp pts[i + 1] (List.getElem_mem _)
      have := area_triangle hD hM (by omega : k + i ≤ 2 ^ 20) h2 pos hb m1.1 m2.1 m1.2 m2.2
      rw [← hg] at this
      rw [take_succ' _ _ hs, getElem_segs]
      simp only [List.map_append, List.map_cons, List.map_nil, List.sum_append, List.sum_cons, List.sum_nil, add_zero, mul_add g, ← add_assoc]
      simpa only [add_assoc] using this)
  refine ⟨c', h1, h2, ?_⟩
  rw [List.take_of_length_le (by simp), f1, f2, f3, hg] at h3
  exact h3.mono hD hM (by omega)

end areas

/-- 1 for rings the orientation test calls counterclockwise in doubles, -1 for others. -/
def turnD (sq : ℚ → Val) (hy : ℚ → ℚ → Val) (r : List (Coord ℚ)) : ℚ :=
  if Orientation.isCCW (r.map (toB64 : Coord ℚ → Coord (B64 sq hy))) = .ok true then 1 else -1

/-- A closed ring of doubles up to `M`, all within `D` of the point `b`. -/
def RingD (D M : ℝ) (b : Coord ℚ) (r : List (Coord ℚ)) : Prop := r ≠ [] ∧ Closed2D r ∧ ∀ p ∈ r, Sized M p ∧ WithinD D b p

theorem ccwD (r : List (Coord ℚ)) (h : r ≠ []) :
    ∃ o, Orientation.isCCW (r.map (toB64 : Coord ℚ → Coord (B64 sq hy))) = .ok o ∧ turnD sq hy r = if o then 1 else -1 := by
  obtain ⟨o, ho⟩ := (C34_total (r.map (toB64 : Coord ℚ → Coord (B64 sq hy)))).2.1 (by simpa using h)
  refine ⟨o, ho, ?_⟩
  rw [turnD, ho]
  cases o <;> simp

/-- A quantity of the shell less that of the holes, each with the orientation computed in doubles. -/
def Rings.netD (sq : ℚ → Val) (hy : ℚ → ℚ → Val) (R : Rings) (f : List (Coord ℚ) → ℚ) : ℚ :=
  turnD sq hy R.1 * f R.1 - (R.2.map (fun h => turnD sq hy h * f h)).sum

/-- All rings are of doubles up to `M`, within `D` of the first point of the shell. -/
def RingsD (D M : ℝ) (R : Rings) : Prop := ∃ b, R.1.head? = some b ∧ Sized M b ∧ RingD D M b R.1 ∧ ∀ h ∈ R.2, RingD D M b h

section areas
variable {D M : ℝ} (hD : Mid 200 D) (hM : Mid 200 M)
include hD hM

theorem addHoleD {k : ℕ} {b : Coord ℚ} (hb : Sized M b) {r : List (Coord ℚ)} (hr : RingD D M b r)
    (hk : k + r.length ≤ 2 ^ 20) {c : Centroid (B64 sq hy)} {S X Y : ℚ} (hc : AreaAcc D M k c S X Y)
    (hb' : c.areaBasePt = some (toB64 b)) :
    ∃ c', c.addHole (r.map toB64) = .ok c' ∧ c'.areaBasePt = some (toB64 b) ∧
      AreaAcc D M (k + r.length) c' (S + turnD sq hy r * shoelace r) (X + turnD sq hy r * momentX r) (Y + turnD sq hy r * momentY r) := by
  obtain ⟨o, ho, ht⟩ := ccwD (sq := sq) (hy := hy) r hr.1
  obtain ⟨c1, h1, h2, h3⟩ := triangleLoopD hD hM hb r hr.1 hr.2.2 hr.2.1 hk hc hb' o
  obtain ⟨c2, g1, g2, g3, g4⟩ := addLineSegments_keeps c1 (r.map (toB64 : Coord ℚ → Coord (B64 sq hy))) (by simpa using hr.1)
  unfold Centroid.addHole
  rw [ho, Res.bind_ok, h1, Res.bind_ok, g1]
  refine ⟨_, rfl, g4.trans h2, ?_⟩
  rw [ht]
  exact h3.congr g2 g3

theorem addShellD {k : ℕ} {b : Coord ℚ} {r : List (Coord ℚ)} (hh : r.head? = some b) (hb : Sized M b) (hr : RingD D M b r)
    (hk : k + r.length ≤ 2 ^ 20) {c : Centroid (B64 sq hy)} {S X Y : ℚ} (hc : AreaAcc D M k c S X Y) :
    ∃ c', c.addShell (r.map toB64) = .ok c' ∧ c'.areaBasePt = some (toB64 b) ∧
      AreaAcc D M (k + r.length) c' (S - turnD sq hy r * shoelace r) (X - turnD sq hy r * momentX r) (Y - turnD sq hy r * momentY r) := by
  obtain ⟨o, ho, ht⟩ := ccwD (sq := sq) (hy := hy) r hr.1
  have hl : 0 < r.length := List.length_pos_iff.mpr hr.1
  have e0 : r[0] = b := by
    rw [List.head?_eq_getElem?, List.getElem?_eq_getElem hl] at hh
    exact Option.some.inj hh
  obtain ⟨c1, h1, h2, h3⟩ := triangleLoopD hD hM hb r hr.1 hr.2.2 hr.2.1 hk
    (c := { c with areaBasePt := some (toB64 b) }) (hc.congr rfl rfl) rfl (!o)
  obtain ⟨c2, g1, g2, g3, g4⟩ := addLineSegments_keeps c1 (r.map (toB64 : Coord ℚ → Coord (B64 sq hy))) (by simpa using hr.1)
  refine ⟨c2, ?_, g4.trans h2, ?_⟩
  · unfold Centroid.addShell
    rw [if_pos (by simpa using hl), Res.get_lt (by simpa using hl : 0 < (r.map _).length)]
    simp only [Res.bind_ok, Res.pure_eq, List.getElem_map]
    rw [ho, Res.bind_ok, e0]
    change (Centroid.triangleLoop { c with areaBasePt := some (toB64 b) } _ _ >>= _) = _
    rw [h1, Res.bind_ok, g1]
  · have e : turnD sq hy r = -(if !o then 1 else -1) := by rw [ht]; cases o <;> simp
    rw [e]
    simp only [neg_mul, sub_neg_eq_add]
    exact h3.congr g2 g3

theorem addPolygonD {k : ℕ} {R : Rings} (hR : RingsD D M R) (hk : k + R.size ≤ 2 ^ 20) {p : Polygon (B64 sq hy)} (hp : HasRings64 p R)
    {c : Centroid (B64 sq hy)} {S X Y : ℚ} (hc : AreaAcc D M k c S X Y) :
    ∃ c', c.addPolygon p = .ok c' ∧ AreaAcc D M (k + R.size) c' (S - R.netD sq hy shoelace) (X - R.netD sq hy momentX) (Y - R.netD sq hy momentY) := by
  obtain ⟨s, hs⟩ := R
  obtain ⟨p1, p2⟩ := hp
  obtain ⟨b, r1, r2, r3, r4⟩ := hR
  unfold Rings.size at hk ⊢
  simp only [] at hk p1 p2 r1 r3 r4 ⊢
  obtain ⟨c1, h1, h3, h4⟩ := addShellD hD hM r1 r2 r3 (by omega) hc
  have hlen : p.holes.length = hs.length := by have := congrArg List.length p2; simpa using this
  have hget : ∀ i (h : i < p.holes.length) (h' : i < hs.length), p.holes[i].getCoordinates = hs[i].map toB64 := by
    intro i h h'
    have e : (p.holes.map LinearRing.getCoordinates)[i]'(by simpa using h) = (hs.map (List.map toB64))[i]'(by simpa using h') := by simp only [p2]
    simpa using e
  have hsum : ∀ i, i < hs.length → ((hs.take (i + 1)).map List.length).sum ≤ (hs.map List.length).sum := by
    intro i _
    calc ((hs.take (i + 1)).map List.length).sum ≤ ((hs.take (i + 1)).map List.length).sum + ((hs.drop (i + 1)).map List.length).sum := Nat.le_add_right _ _
      _ = (hs.map List.length).sum := by rw [← List.sum_append, ← List.map_append, List.take_append_drop]
  unfold Centroid.addPolygon Polygon.getExteriorRing
  rw [ringCopy, Res.bind_ok]
  change ∃ c', (c.addShell p.shell.getCoordinates >>= _) = _ ∧ _
  rw [p1, h1, Res.bind_ok]
  obtain ⟨c2, g1, g2, g3⟩ := forRange_inv 0 p.getNumInteriorRing (fun i (c : Centroid (B64 sq hy)) => do
      let h ← p.getInteriorRing i
      c.addHole h.getCoordinates)
    (fun i c => c.areaBasePt = some (toB64 b) ∧ AreaAcc D M (k + s.length + ((hs.take i).map List.length).sum) c
      (S - turnD sq hy s * shoelace s + ((hs.take i).map (fun h => turnD sq hy h * shoelace h)).sum)
      (X - turnD sq hy s * momentX s + ((hs.take i).map (fun h => turnD sq hy h * momentX h)).sum)
      (Y - turnD sq hy s * momentY s + ((hs.take i).map (fun h => turnD sq hy h * momentY h)).sum)) (Nat.zero_le _) c1 ⟨h3, by simpa using h4⟩ (by
      rintro i c _ hi ⟨i1, i2⟩
      have hi' : i < p.holes.length := hi
      have hi'' : i < hs.length := by omega
      have hle := hsum i hi''
      rw [take_succ' _ _ hi'', List.map_append, List.sum_append, List.map_cons, List.map_nil, List.sum_singleton] at hle
      obtain ⟨c', e1, e2, e3⟩ := addHoleD hD hM r2 (r4 _ (List.getElem_mem hi'')) (by omega) i2 i1
      refine ⟨c', ?_, e2, ?_⟩
      · rw [Polygon.getInteriorRing, Res.get_lt hi', Res.bind_ok, ringCopy, Res.bind_ok]
        change c.addHole p.holes[i].getCoordinates = _
        rw [hget i hi' hi'', e1]
      · rw [take_succ' _ _ hi'']
        simp only [List.map_append, List.sum_append, List.map_cons, List.map_nil, List.sum_singleton, ← add_assoc]
        exact e3)
  refine ⟨c2, g1, ?_⟩
  have hn : p.getNumInteriorRing = hs.length := hlen
  rw [hn, List.take_of_length_le le_rfl] at g3
  unfold Rings.netD
  simp only [sub_sub_eq_add_sub]
  rw [← add_assoc]
  convert g3 using 1 <;> ring

/-- The result for sums of this accuracy: the area must be large enough for its sign to be certain. -/
theorem area_centroid {n : ℕ} (hn : n ≤ 2 ^ 20) {c : Centroid (B64 sq hy)} {S X Y : ℚ} (h : AreaAcc D M n c S X Y)
    (hA : 16 * n * (n + 12) * D ^ 2 ≤ 2 ^ 52 * |(S : ℝ)|) (h0 : S ≠ 0) :
    ∃ u : Coord ℚ, c.getCentroid = some (Coord.xy (Fl.fin u.x) (Fl.fin u.y)) ∧
      |(u.x : ℝ) - X / (3 * S)| ≤ 3 * n * (n + 12) * D ^ 2 / |(S : ℝ)| * (M + |(X : ℝ) / (3 * S)|) / 2 ^ 52 ∧
      |(u.y : ℝ) - Y / (3 * S)| ≤ 3 * n * (n + 12) * D ^ 2 / |(S : ℝ)| * (M + |(Y : ℝ) / (3 * S)|) / 2 ^ 52 := by
  have d0 := hD.pos
  have m0 := hM.pos
  have S0 : (S : ℝ) ≠ 0 := by exact_mod_cast h0
  have aS : 0 < |(S : ℝ)| := abs_pos.mpr S0
  obtain ⟨w, ew, w1, w2⟩ := h.area
  have hX := h.x
  have hY := h.y
  have n1 : 1 ≤ n := by
    rcases Nat.eq_zero_or_pos n with rfl | hn
    · simp only [Nat.cast_zero, zero_mul] at w1
      linarith
    · exact hn
  have N1 : (1 : ℝ) ≤ n := by exact_mod_cast n1
  have N20 : (n : ℝ) ≤ 2 ^ 20 := by exact_mod_cast hn
  generalize (n : ℝ) = N at *
  obtain ⟨κ, hκ⟩ : ∃ κ, κ = 2 * N * (N + 12) * D ^ 2 / |(S : ℝ)| := ⟨_, rfl⟩
  have κS : κ * |(S : ℝ)| = 2 * N * (N + 12) * D ^ 2 := by rw [hκ]; field_simp
  have κ1 : κ ≤ 2 ^ 49 := by
    rw [hκ, div_le_iff₀ aS]
    linarith
  have κ2 : 12 ≤ κ := by
    have e1 : N * (2 * D ^ 2) * (N + 12) = κ * |(S : ℝ)| := by rw [κS]; ring
    have e2 : |(S : ℝ)| * (N + 12) ≤ κ * |(S : ℝ)| := by rw [← e1]; exact mul_le_mul_of_nonneg_right w1 (by linarith)
    have e3 : 12 * |(S : ℝ)| ≤ κ * |(S : ℝ)| := by nlinarith
    exact le_of_mul_le_mul_right e3 aS
  have t1 : κ / 2 ^ 52 ≤ (1 : ℝ) / 4 := by rw [div_le_iff₀ (by norm_num)]; linarith
  have hw : |(w : ℝ) - S| ≤ κ / 2 ^ 52 * |(S : ℝ)| := by
    refine w2.trans ?_
    rw [show κ / 2 ^ 52 * |(S : ℝ)| = κ * |(S : ℝ)| / 2 ^ 52 by ring, κS]
    apply div_le_div_of_nonneg_right _ (by norm_num)
    have : 0 ≤ N * D ^ 2 := by positivity
    linarith
  have three : (lit 3 : B64 sq hy) = Fl.fin 3 := (rnd_of_f64 (by simpa using f64_int 3 (by norm_num)) : rnd 3 = .fin 3)
  have mB : Mid 1000 (N * (6 * D ^ 2 * M) / ((3 : ℚ) : ℝ)) := by
    have e : N * (6 * D ^ 2 * M) / ((3 : ℚ) : ℝ) = N * (2 * (D * D) * M) := by push_cast; ring
    have m1 : Mid 20 N := ⟨le_trans (by rw [div_le_one (by positivity)]; norm_num) N1, N20⟩
    rw [e]
    exact (m1.mul ((mid_two.mul (hD.mul hD)).mul hM)).mono (by norm_num)
  have e50 : N + 11 ≤ 2 ^ 50 := by linarith
  have wpos : (Flt.abs (Fl.fin w : B64 sq hy) >. lit 0) = true := by
    rw [lit64]
    show decide ((0 : ℚ) < |w|) = true
    have : w ≠ 0 := (quot_close (v := 0) (w := w) (x := 0) (y := S) (C := 0) S0 (by simp) hw t1).1
    simpa using this
  have quot : ∀ (f : B64 sq hy) (V : ℚ), Sc (N + 11) (N * (6 * D ^ 2 * M)) f V →
      ∃ u : ℚ, f /. lit 3 /. Fl.fin w = Fl.fin u ∧ |(u : ℝ) - V / (3 * S)| ≤ 3 * N * (N + 12) * D ^ 2 / |(S : ℝ)| * (M + |(V : ℝ) / (3 * S)|) / 2 ^ 52 := by
    intro f V hf
    obtain ⟨v, hv, v1, v2⟩ := hf.scale_down (d := 3) (by norm_num) e50 mB
    rw [three, hv]
    have eB : N * (6 * D ^ 2 * M) / ((3 : ℚ) : ℝ) = N * (2 * D ^ 2 * M) := by push_cast; ring
    have eV : (V : ℝ) / ((3 : ℚ) : ℝ) = V / 3 := by push_cast; ring
    rw [eB, eV] at v1 v2
    obtain ⟨q1, q2⟩ := quot_close (v := v) (w := w) (x := (V : ℝ) / 3) (y := S) (C := M) (t := κ / 2 ^ 52) S0 (by
      refine v2.trans (le_of_eq ?_)
      rw [show κ / 2 ^ 52 * M * |(S : ℝ)| = κ * |(S : ℝ)| * M / 2 ^ 52 by ring, κS]
      ring) hw t1
    have eQ : (V : ℝ) / 3 / S = V / (3 * S) := by rw [div_div]
    rw [eQ] at q2
    have c1 : |(V : ℝ) / (3 * S)| ≤ 2 ^ 50 * M := by
      rw [← eQ, abs_div, div_le_iff₀ aS]
      refine v1.trans ?_
      have : N * (2 * D ^ 2) ≤ κ * |(S : ℝ)| := by
        rw [κS]
        have : 0 ≤ N * D ^ 2 := by positivity
        nlinarith
      have : N * (2 * D ^ 2) ≤ 2 ^ 50 * |(S : ℝ)| := this.trans (mul_le_mul_of_nonneg_right (by linarith) aS.le)
      calc N * (2 * D ^ 2 * M) = N * (2 * D ^ 2) * M := by ring
        _ ≤ 2 ^ 50 * |(S : ℝ)| * M := mul_le_mul_of_nonneg_right this m0.le
        _ = _ := by ring
    obtain ⟨C, hC⟩ : ∃ C, C = (V : ℝ) / (3 * S) := ⟨_, rfl⟩
    rw [← hC] at q2 c1 ⊢
    have mC : Mid 1000 (M + |C|) := by
      refine ⟨(hM.mono (show 200 ≤ 1000 by norm_num)).1.trans (by linarith [abs_nonneg C]), ?_⟩
      have e2 : (2 : ℝ) ^ 251 ≤ 2 ^ 1000 := pow_le_pow_right₀ (by norm_num) (by norm_num)
      refine le_trans ?_ e2
      have e3 : (2 : ℝ) ^ 251 = 2 ^ 51 * 2 ^ 200 := by rw [← pow_add]
      rw [e3]
      have := hM.2
      clear e2 e3
      generalize (2 : ℝ) ^ 200 = P at *
      linarith
    obtain ⟨r1, r2⟩ := sc_round_long (e := 4 / 3 * κ) (B := M + |C|) (v := v / w) (x := C) (by linarith) (by
      refine q2.trans (le_of_eq ?_)
      ring) (by linarith) mC
    refine ⟨near (v / w), div_fin64 q1 rfl r1, r2.trans ?_⟩
    apply div_le_div_of_nonneg_right _ (by norm_num)
    apply mul_le_mul_of_nonneg_right _ (by linarith [abs_nonneg C])
    have : 3 * N * (N + 12) * D ^ 2 / |(S : ℝ)| = 3 / 2 * κ := by rw [hκ]; ring
    rw [this]
    linarith
  obtain ⟨ux, x1, x2⟩ := quot _ _ hX
  obtain ⟨uy, y1, y2⟩ := quot _ _ hY
  refine ⟨⟨ux, uy, 0, 0⟩, ?_, x2, y2⟩
  unfold Centroid.getCentroid
  rw [ew, if_pos wpos, x1, y1]

theorem area_init : AreaAcc D M 0 (Centroid.init : Centroid (B64 sq hy)) 0 0 0 := by
  have z : Sc ((0 : ℕ) + 11) ((0 : ℕ) * (2 * D ^ 2)) (lit 0 : B64 sq hy) ((0 : ℚ) : ℝ) := by
    rw [lit64]
    exact ⟨0, rfl, by simp, by simp⟩
  have z' : Sc ((0 : ℕ) + 11) ((0 : ℕ) * (6 * D ^ 2 * M)) (lit 0 : B64 sq hy) ((0 : ℚ) : ℝ) := by
    rw [lit64]
    exact ⟨0, rfl, by simp, by simp⟩
  exact ⟨z, z', z'⟩

end areas

/-- The orientation test in doubles agrees with exact arithmetic for this ring (C99 tells when it does). -/
def Agrees (sq : ℚ → Val) (hy : ℚ → ℚ → Val) (r : List (Coord ℚ)) : Prop :=
  Orientation.isCCW (r.map (toB64 : Coord ℚ → Coord (B64 sq hy))) = Orientation.isCCW r

theorem turnD_agrees {r : List (Coord ℚ)} (h : Agrees sq hy r) : turnD sq hy r = turnQ r := by
  unfold turnD turnQ
  rw [h]

theorem netD_agrees {R : Rings} (h : ∀ r ∈ R.1 :: R.2, Agrees sq hy r) (f : List (Coord ℚ) → ℚ) : R.netD sq hy f = R.net f := by
  unfold Rings.netD Rings.net
  rw [turnD_agrees (h _ (by simp))]
  congr 2
  apply List.map_congr_left
  intro r hr
  rw [turnD_agrees (h r (by simp [hr]))]

/-- Without holes the orientation does not matter. -/
theorem netD_single {R : Rings} (h : R.2 = []) : ∃ g : ℚ, (g = 1 ∨ g = -1) ∧ ∀ f, R.netD sq hy f = g * R.net f := by
  obtain ⟨g, hg⟩ : ∃ g, g = turnD sq hy R.1 * turnQ R.1 := ⟨_, rfl⟩
  have t1 : turnD sq hy R.1 = 1 ∨ turnD sq hy R.1 = -1 := by unfold turnD; split_ifs <;> simp
  have t2 : turnQ R.1 = 1 ∨ turnQ R.1 = -1 := by unfold turnQ; split_ifs <;> simp
  refine ⟨g, by rw [hg]; rcases t1 with e | e <;> rcases t2 with e' | e' <;> rw [e, e'] <;> norm_num, fun f => ?_⟩
  unfold Rings.netD Rings.net
  rw [h, hg]
  rcases t2 with e' | e' <;> rw [e'] <;> simp

theorem properD {D M : ℝ} {R : Rings} (hR : RingsD D M R) {p : Polygon ℝ} (hp : HasRingsR p R) : Proper p := by
  obtain ⟨b, _, _, hs, hh⟩ := hR
  refine ⟨by rw [hp.1]; exact ⟨by simpa using hs.1, closed2D_real hs.2.1⟩, ?_⟩
  intro h hmem
  have : h.getCoordinates ∈ p.holes.map LinearRing.getCoordinates := List.mem_map_of_mem hmem
  rw [hp.2] at this
  obtain ⟨h', m, e⟩ := List.mem_map.mp this
  rw [← e]
  exact ⟨by simpa using (hh h' m).1, closed2D_real (hh h' m).2.1⟩

/-- C120: the centroid of a polygon of arbitrary doubles. With `n` points, ordinates up to `M`, all points within `D` of the first in x and y,
and the doubled area `A`, it is within `3 n (n + 12) D² / A * (M + size of the centroid) / 2^52` of the centroid in real arithmetic,
provided `A` is at least `16 n (n + 12) D² / 2^52`, and with holes provided the orientation of the rings is found correctly. -/
theorem C120_polygon {D M : ℝ} (hD : Mid 200 D) (hM : Mid 200 M) (R : Rings) (hR : RingsD D M R) (hn : R.size ≤ 2 ^ 20)
    (ho : R.2 = [] ∨ ∀ r ∈ R.1 :: R.2, Agrees sq hy r) (h0 : R.net shoelace ≠ 0)
    (hA : 16 * (R.size : ℝ) * (R.size + 12) * D ^ 2 ≤ 2 ^ 52 * |((R.net shoelace : ℚ) : ℝ)|)
    (p : Polygon (B64 sq hy)) (hp : HasRings64 p R) (p' : Polygon ℝ) (hp' : HasRingsR p' R) :
    ∃ (u : Coord ℚ) (q : Coord ℝ), Centroid.fromPolygon p = .ok (some (Coord.xy (Fl.fin u.x) (Fl.fin u.y))) ∧ Centroid.fromPolygon p' = .ok (some q) ∧
      |(u.x : ℝ) - q.x| ≤ 3 * R.size * (R.size + 12) * D ^ 2 / |((R.net shoelace : ℚ) : ℝ)| * (M + |q.x|) / 2 ^ 52 ∧
      |(u.y : ℝ) - q.y| ≤ 3 * R.size * (R.size + 12) * D ^ 2 / |((R.net shoelace : ℚ) : ℝ)| * (M + |q.y|) / 2 ^ 52 := by
  obtain ⟨g, g1, hg⟩ : ∃ g : ℚ, (g = 1 ∨ g = -1) ∧ ∀ f, R.netD sq hy f = g * R.net f := by
    rcases ho with h | h
    · exact netD_single h
    · exact ⟨1, Or.inl rfl, fun f => by rw [netD_agrees h, one_mul]⟩
  obtain ⟨c, h1, h2⟩ := addPolygonD hD hM hR (by simpa using hn) hp (area_init hD hM)
  rw [hg, hg, hg, zero_add] at h2
  have aS : |((0 - g * R.net shoelace : ℚ) : ℝ)| = |((R.net shoelace : ℚ) : ℝ)| := by
    push_cast
    rcases g1 with rfl | rfl <;> simp
  have eS : ∀ V : ℚ, ((0 - g * V : ℚ) : ℝ) / (3 * ((0 - g * R.net shoelace : ℚ) : ℝ)) = (V : ℝ) / (3 * ((R.net shoelace : ℚ) : ℝ)) := by
    intro V
    push_cast
    rcases g1 with rfl | rfl
    · simp only [Rat.cast_one, one_mul, zero_sub, mul_neg, neg_div_neg_eq]
    · simp
  obtain ⟨u, h3, h4, h5⟩ := area_centroid hD hM hn h2 (by rw [aS]; exact hA) (by rcases g1 with rfl | rfl <;> simpa using h0)
  rw [aS, eS] at h4 h5
  refine ⟨u, Coord.xy (wsum (ringsW p') momentX / (3 * wsum (ringsW p') shoelace)) (wsum (ringsW p') momentY / (3 * wsum (ringsW p') shoelace)), ?_, ?_, ?_⟩
  · unfold Centroid.fromPolygon Centroid.ofPolygon
    rw [h1, Res.bind_ok, h3]; rfl
  · rw [C46_polygon p' (properD hR hp'), centroidOf, if_neg (by simp [ringsW]), if_pos (by
      rw [net_cast R p' hp' shoelace shoelace (fun r => (integrals_cast r).1)]; exact_mod_cast h0)]
    rfl
  · rw [net_cast R p' hp' shoelace shoelace (fun r => (integrals_cast r).1), net_cast R p' hp' momentX momentX (fun r => (integrals_cast r).2.1),
      net_cast R p' hp' momentY momentY (fun r => (integrals_cast r).2.2)]
    exact ⟨h4, h5⟩

/-- C120: the same for several polygons together, if the orientations of all rings are found correctly. -/
theorem C120_multi_polygon {D M : ℝ} (hD : Mid 200 D) (hM : Mid 200 M) (Rs : List Rings) (hR : ∀ R ∈ Rs, RingsD D M R) (hn : (Rs.map Rings.size).sum ≤ 2 ^ 20)
    (ho : ∀ R ∈ Rs, ∀ r ∈ R.1 :: R.2, Agrees sq hy r) (h0 : (Rs.map (fun R => R.net shoelace)).sum ≠ 0)
    (hA : 16 * (((Rs.map Rings.size).sum : ℕ) : ℝ) * (((Rs.map Rings.size).sum : ℕ) + 12) * D ^ 2 ≤ 2 ^ 52 * |(((Rs.map (fun R => R.net shoelace)).sum : ℚ) : ℝ)|)
    (m : MultiPolygon (B64 sq hy)) (hm : List.Forall₂ HasRings64 m.polygons Rs) (m' : MultiPolygon ℝ) (hm' : List.Forall₂ HasRingsR m'.polygons Rs) :
    ∃ (u : Coord ℚ) (q : Coord ℝ), Centroid.fromMultiPolygon m = .ok (some (Coord.xy (Fl.fin u.x) (Fl.fin u.y))) ∧ Centroid.fromMultiPolygon m' = .ok (some q) ∧
      |(u.x : ℝ) - q.x| ≤ 3 * ((Rs.map Rings.size).sum : ℕ) * (((Rs.map Rings.size).sum : ℕ) + 12) * D ^ 2 / |(((Rs.map (fun R => R.net shoelace)).sum : ℚ) : ℝ)| * (M + |q.x|) / 2 ^ 52 ∧
      |(u.y : ℝ) - q.y| ≤ 3 * ((Rs.map Rings.size).sum : ℕ) * (((Rs.map Rings.size).sum : ℕ) + 12) * D ^ 2 / |(((Rs.map (fun R => R.net shoelace)).sum : ℚ) : ℝ)| * (M + |q.y|) / 2 ^ 52 := by
  have hlen := hm.length_eq
  have hsum : ∀ i, i < Rs.length → ((Rs.take (i + 1)).map Rings.size).sum ≤ (Rs.map Rings.size).sum := by
    intro i _
    calc ((Rs.take (i + 1)).map Rings.size).sum ≤ ((Rs.take (i + 1)).map Rings.size).sum + ((Rs.drop (i + 1)).map Rings.size).sum := Nat.le_add_right _ _
      _ = (Rs.map Rings.size).sum := by rw [← List.sum_append, ← List.map_append, List.take_append_drop]
  obtain ⟨c, h1, h2⟩ := forRange_inv 0 m.polygons.length (fun i (c : Centroid (B64 sq hy)) => do
      let p ← m.getPolygon i
      c.addPolygon p)
    (fun i c => AreaAcc D M ((Rs.take i).map Rings.size).sum c (0 - ((Rs.take i).map (fun R => R.net shoelace)).sum)
      (0 - ((Rs.take i).map (fun R => R.net momentX)).sum) (0 - ((Rs.take i).map (fun R => R.net momentY)).sum)) (Nat.zero_le _) Centroid.init
    (by simpa using area_init hD hM) (by
      intro i c _ hi hc
      have hi' : i < Rs.length := by omega
      have hp := List.forall₂_iff_get.mp hm |>.2 i hi hi'
      simp only [List.get_eq_getElem] at hp
      obtain ⟨q, hq, e1⟩ : ∃ q, m.getPolygon i = .ok q ∧ HasRings64 q Rs[i] := by
        rw [MultiPolygon.getPolygon, Res.get_lt hi, Res.bind_ok, (C50_copy ⟨CASeq.ofCoordinates [], none⟩ m.polygons[i].shell m.polygons[i] Point.default (by simp [Point.default, CASeq.ofCoordinates, CASeq.size])).2.2.1]
        refine ⟨_, rfl, hp.1, ?_⟩
        rw [← hp.2]
        simp [LinearRing.getCoordinates, Function.comp_def]
      have hle := hsum i hi'
      rw [take_succ' _ _ hi', List.map_append, List.sum_append, List.map_cons, List.map_nil, List.sum_singleton] at hle
      obtain ⟨c', g1, g2⟩ := addPolygonD hD hM (hR _ (List.getElem_mem hi')) (by omega) e1 hc
      rw [netD_agrees (ho _ (List.getElem_mem hi')), netD_agrees (ho _ (List.getElem_mem hi')), netD_agrees (ho _ (List.getElem_mem hi'))] at g2
      refine ⟨c', by rw [hq]; exact g1, ?_⟩
      rw [take_succ' _ _ hi']
      simp only [List.map_append, List.sum_append, List.map_cons, List.map_nil, List.sum_singleton, ← sub_sub]
      exact g2)
  rw [hlen, List.take_of_length_le le_rfl] at h2
  have aS : |((0 - (Rs.map (fun R => R.net shoelace)).sum : ℚ) : ℝ)| = |(((Rs.map (fun R => R.net shoelace)).sum : ℚ) : ℝ)| := by
    push_cast; rw [zero_sub, abs_neg]
  have neg : ∀ V S : ℚ, ((0 - V : ℚ) : ℝ) / (3 * ((0 - S : ℚ) : ℝ)) = (V : ℝ) / (3 * S) := by
    intro V S
    push_cast
    rw [zero_sub, zero_sub, mul_neg, neg_div_neg_eq]
  obtain ⟨u, h3, h4, h5⟩ := area_centroid hD hM hn h2 (by rw [aS]; exact hA) (by rwa [zero_sub, neg_ne_zero])
  rw [aS, neg] at h4 h5
  have cast : ∀ (f : List (Coord ℝ) → ℝ) (g : List (Coord ℚ) → ℚ), (∀ r : List (Coord ℚ), f (r.map realPt) = ((g r : ℚ) : ℝ)) →
      wsum (m'.polygons.flatMap ringsW) f = (((Rs.map (fun R => R.net g)).sum : ℚ) : ℝ) := by
    intro f g h
    generalize m'.polygons = ps at hm'
    clear * - hm' h
    induction hm' with
    | nil => simp [wsum]
    | cons a b ih => rw [List.flatMap_cons, wsum_append, ih, net_cast _ _ a f g h, List.map_cons, List.sum_cons]; push_cast; rfl
  have hne : m'.polygons.flatMap ringsW ≠ [] := by
    intro e
    apply h0
    have := cast shoelace shoelace (fun r => (integrals_cast r).1)
    rw [e] at this
    simp only [wsum, List.map_nil, List.sum_nil] at this
    exact_mod_cast this.symm
  have hpr : ∀ p ∈ m'.polygons, Proper p := by
    intro p hp
    obtain ⟨i, hi, rfl⟩ := List.mem_iff_getElem.mp hp
    have hi' : i < Rs.length := by rw [← hm'.length_eq]; exact hi
    have := List.forall₂_iff_get.mp hm' |>.2 i hi hi'
    exact properD (hR _ (List.getElem_mem hi')) this
  refine ⟨u, Coord.xy (wsum (m'.polygons.flatMap ringsW) momentX / (3 * wsum (m'.polygons.flatMap ringsW) shoelace))
    (wsum (m'.polygons.flatMap ringsW) momentY / (3 * wsum (m'.polygons.flatMap ringsW) shoelace)), ?_, ?_, ?_⟩
  · unfold Centroid.fromMultiPolygon Centroid.ofMultiPolygon
    rw [h1, Res.bind_ok, h3]; rfl
  · rw [C46_multi_polygon m' hpr, centroidOf, if_neg hne, if_pos (by
      rw [cast shoelace shoelace (fun r => (integrals_cast r).1)]; exact_mod_cast h0)]
    rfl
  · rw [cast shoelace shoelace (fun r => (integrals_cast r).1), cast momentX momentX (fun r => (integrals_cast r).2.1),
      cast momentY momentY (fun r => (integrals_cast r).2.2)]
    exact ⟨h4, h5⟩

/-- C120: the centroid of a point is the point, exactly. -/
theorem C120_point (p : Point (B64 sq hy)) (c : Coord ℚ) (l : List (Coord (B64 sq hy))) (hc : IsF64 c.x ∧ IsF64 c.y) (hp : p.coordinates.coordinates = toB64 c :: l) :
    Centroid.fromPoint p = .ok (some (Coord.xy (Fl.fin c.x) (Fl.fin c.y))) := by
  have z : (lit 0 : B64 sq hy) = Fl.fin 0 := lit64
  have one : (lit 1 : B64 sq hy) = Fl.fin 1 := one64
  have keep : ∀ v : ℚ, IsF64 v → (Fl.fin 0 : B64 sq hy) +. Fl.fin v = Fl.fin v := by
    intro v hv
    show rnd (0 + v) = Val.fin v
    rw [zero_add, rnd_of_f64 hv]
  have div1 : ∀ v : ℚ, IsF64 v → (Fl.fin v : B64 sq hy) /. Fl.fin 1 = Fl.fin v := by
    intro v hv
    exact div_fin64 one_ne_zero (by rw [div_one, near_of_rep hv.1]) hv.2
  have nototal : ¬ ((Fl.fin 0 : B64 sq hy) >. Fl.fin 0) = true := by
    show ¬ decide ((0 : ℚ) < 0) = true
    simp
  have noarea : ¬ (Flt.abs (Fl.fin 0 : B64 sq hy) >. Fl.fin 0) = true := by
    show ¬ decide ((0 : ℚ) < |(0 : ℚ)|) = true
    simp
  simp [Centroid.fromPoint, Centroid.ofPoint, Point.getCoordinate, CASeq.getCoordinate, CASeq.size, hp, Centroid.init, Centroid.getCentroid,
      Res.get, Centroid.addPoint, z, one, xB64, yB64, keep _ hc.1, keep _ hc.2, div1 _ hc.1, div1 _ hc.2, nototal, noarea]

/-! ## Without area -/

/-- A polygon without area: five points of one line through the origin. -/
def noArea : Rings := ([⟨515101102535955 / 1073741824, 598175110819065 / 1073741824, 0, 0⟩, ⟨524518722702, 609111577386, 0, 0⟩, ⟨297166170641092, 345092266702156, 0, 0⟩,
  ⟨625418701029729, 726284410875747, 0, 0⟩, ⟨426307590403041, 495061239195363, 0, 0⟩, ⟨515101102535955 / 1073741824, 598175110819065 / 1073741824, 0, 0⟩], [])

/-- C120: without a bound on the area there is none on the error: for this polygon of doubles below 2^50 the computed centroid is beyond 2^55,
the one of real arithmetic is among its points. -/
theorem C120_without_area : (∀ c ∈ noArea.1, IsF64 c.x ∧ IsF64 c.y ∧ 0 ≤ c.x ∧ c.x ≤ 2 ^ 50 ∧ 0 ≤ c.y ∧ c.y ≤ 2 ^ 50) ∧ noArea.net shoelace = 0 ∧
    (∃ u : Coord ℚ, Centroid.fromPolygon (poly64 noArea) = .ok (some (Coord.xy (Fl.fin u.x) (Fl.fin u.y))) ∧ 2 ^ 55 < u.x) ∧
    ∃ q : Coord ℝ, Centroid.fromPolygon (polyR noArea) = .ok (some q) ∧ 0 ≤ q.x ∧ q.x ≤ 2 ^ 50 := by
  have hpts : ∀ c ∈ noArea.1, 0 ≤ c.x ∧ c.x ≤ 2 ^ 50 ∧ 0 ≤ c.y ∧ c.y ≤ 2 ^ 50 := by decide +kernel
  have hf : ∀ c ∈ noArea.1, rnd c.x = .fin c.x ∧ rnd c.y = .fin c.y := by decide +kernel
  have h0 : noArea.net shoelace = 0 := by decide +kernel
  refine ⟨fun c hc => ⟨f64_of (hf c hc).1, f64_of (hf c hc).2, hpts c hc⟩, h0, ⟨⟨44179501508693080, 51304643070626856, 0, 0⟩, by decide +kernel, by norm_num⟩, ?_⟩
  · have hp : HasRingsR (polyR noArea) noArea := ⟨rfl, rfl⟩
    have hpr : Proper (polyR noArea) := by
      refine ⟨⟨by simp [polyR, noArea, LinearRing.getCoordinates], ?_⟩, by simp [polyR, noArea]⟩
      rw [hp.1]
      apply closed2D_real
      intro a b ha hb; simp [noArea] at ha hb; subst ha hb; exact ⟨rfl, rfl⟩
    obtain ⟨r, hr⟩ : ∃ r, r = noArea.1.map realPt := ⟨_, rfl⟩
    have eU : ∀ f : List (Coord ℝ) → ℝ, usum (ringsW (polyR noArea)) f = f r := by
      intro f
      simp [usum, ringsW, hp.1, hr]
      simp [polyR, noArea]
    have ends : ∀ s ∈ segs r, (0 ≤ s.1.x ∧ s.1.x ≤ 2 ^ 50) ∧ 0 ≤ s.2.x ∧ s.2.x ≤ 2 ^ 50 := by
      have one : ∀ c ∈ r, 0 ≤ c.x ∧ c.x ≤ 2 ^ 50 := by
        intro c hc
        rw [hr] at hc
        obtain ⟨d, hd, rfl⟩ := List.mem_map.mp hc
        obtain ⟨a1, a2, -⟩ := hpts d hd
        refine ⟨show (0 : ℝ) ≤ ((d.x : ℚ) : ℝ) by exact_mod_cast a1, ?_⟩
        have : ((d.x : ℚ) : ℝ) ≤ ((2 ^ 50 : ℚ) : ℝ) := by exact_mod_cast a2
        push_cast at this
        exact this
      intro s hs
      exact ⟨one _ (segs_mem _ _ hs).1, one _ (segs_mem _ _ hs).2⟩
    have L0 : 0 < lineLength r := by
      have : Spec.dist (realPt ⟨297166170641092, 345092266702156, 0, 0⟩) (realPt ⟨625418701029729, 726284410875747, 0, 0⟩) ≤ lineLength r := by
        unfold lineLength
        apply List.single_le_sum
        · intro x hx
          obtain ⟨t, _, rfl⟩ := List.mem_map.mp hx
          exact Spec.dist_nonneg _ _
        · rw [hr]
          simp [noArea, segs]
      refine lt_of_lt_of_le ?_ this
      apply lt_of_le_of_ne (Spec.dist_nonneg _ _)
      intro e
      rw [eq_comm, Spec.dist_eq_zero] at e
      simp [realPt] at e
    have up := weighted_le (segs r) (fun s => Spec.dist s.1 s.2) (fun s => (s.1.x + s.2.x) / 2) (fun s => (s.1.y + s.2.y) / 2) 1 0 (2 ^ 50)
      (fun s _ => Spec.dist_nonneg _ _) (fun s hs => by have := ends s hs; linarith)
    have lo := weighted_le (segs r) (fun s => Spec.dist s.1 s.2) (fun s => (s.1.x + s.2.x) / 2) (fun s => (s.1.y + s.2.y) / 2) (-1) 0 0
      (fun s _ => Spec.dist_nonneg _ _) (fun s hs => by have := ends s hs; linarith)
    refine ⟨Coord.xy (lineX r / lineLength r) (lineY r / lineLength r), ?_, ?_, ?_⟩
    · rw [C46_polygon _ hpr, centroidOf, if_neg (by simp [ringsW]), if_neg (by
        rw [net_cast _ _ hp shoelace shoelace (fun r => (integrals_cast r).1), h0]; simp), eU, eU, eU, if_pos L0.ne']
      rfl
    · apply div_nonneg _ L0.le
      unfold lineX
      linarith
    · show lineX r / lineLength r ≤ _
      rw [div_le_iff₀ L0]
      unfold lineX lineLength
      linarith

/-! ## Cases -/

/-- A square of side 1 with a triangular hole, with ordinates that are on no common coarse grid. -/
def tenths : Rings := ([⟨0, 0, 0, 0⟩, ⟨1, tenth, 0, 0⟩, ⟨1, 1, 0, 0⟩, ⟨tenth, 1, 0, 0⟩, ⟨0, 0, 0, 0⟩],
  [[⟨1 / 2, tenth + tenth, 0, 0⟩, ⟨3 / 4, tenth + tenth, 0, 0⟩, ⟨1 / 2, 1 / 2, 0, 0⟩, ⟨1 / 2, tenth + tenth, 0, 0⟩]])

theorem tenths_rings : RingsD 1 1 tenths := by
  have key : ∀ r ∈ tenths.1 :: tenths.2, ∀ p ∈ r, rnd p.x = .fin p.x ∧ rnd p.y = .fin p.y ∧ |p.x| ≤ 1 ∧ |p.y| ≤ 1 := by decide +kernel
  have pts : ∀ r ∈ tenths.1 :: tenths.2, ∀ p ∈ r, Sized 1 p ∧ WithinD 1 ⟨0, 0, 0, 0⟩ p := by
    intro r hr p hp
    obtain ⟨a, b, c, d⟩ := key r hr p hp
    have c' : |(p.x : ℝ)| ≤ 1 := by exact_mod_cast c
    have d' : |(p.y : ℝ)| ≤ 1 := by exact_mod_cast d
    exact ⟨⟨f64_of a, f64_of b, c', d'⟩, by simpa [WithinD] using ⟨c', d'⟩⟩
  have closed : ∀ r ∈ tenths.1 :: tenths.2, r ≠ [] ∧ Closed2D r := by
    intro r hr
    simp only [tenths, List.mem_cons, List.not_mem_nil, or_false] at hr
    rcases hr with rfl | rfl
    · refine ⟨by simp, ?_⟩
      intro a b ha hb; simp at ha hb; subst ha hb; exact ⟨rfl, rfl⟩
    · refine ⟨by simp, ?_⟩
      intro a b ha hb; simp at ha hb; subst ha hb; exact ⟨rfl, rfl⟩
  refine ⟨⟨0, 0, 0, 0⟩, rfl, (pts tenths.1 (by simp) ⟨0, 0, 0, 0⟩ (by simp [tenths])).1, ⟨(closed _ (by simp)).1, (closed _ (by simp)).2, pts _ (by simp)⟩, ?_⟩
  intro h hh
  have hm : h ∈ tenths.1 :: tenths.2 := List.mem_cons_of_mem _ hh
  exact ⟨(closed h hm).1, (closed h hm).2, pts h hm⟩

/-- The hypotheses of `C120_polygon` hold for it. -/
example : Mid 200 1 ∧ RingsD 1 1 tenths ∧ tenths.size ≤ 2 ^ 20 ∧ (∀ r ∈ tenths.1 :: tenths.2, Agrees (fun q => .fin q) (fun a _ => .fin a) r) ∧ tenths.net shoelace ≠ 0 ∧
    16 * (tenths.size : ℝ) * (tenths.size + 12) * 1 ^ 2 ≤ 2 ^ 52 * |((tenths.net shoelace : ℚ) : ℝ)| ∧ HasRings64 (poly64 tenths) tenths ∧ HasRingsR (polyR tenths) tenths := by
  have a : (1 : ℚ) ≤ |tenths.net shoelace| := by decide +kernel
  have a' : (1 : ℝ) ≤ |((tenths.net shoelace : ℚ) : ℝ)| := by exact_mod_cast a
  refine ⟨mid_one.mono (by norm_num), tenths_rings, by decide +kernel, ?_, by decide +kernel, ?_, ⟨rfl, rfl⟩, rfl, rfl⟩
  · have : ∀ r ∈ tenths.1 :: tenths.2, Orientation.isCCW (r.map (toB64 : Coord ℚ → Coord (B64 (fun q => .fin q) (fun a _ => .fin a)))) = Orientation.isCCW r := by decide +kernel
    exact this
  · have : tenths.size = 9 := by decide +kernel
    rw [this]
    norm_num
    linarith

/-- A line of doubles with a repeated point meets the hypotheses of `C120_line`. -/
example : ∀ p ∈ [(⟨0, 0, 0, 0⟩ : Coord ℚ), ⟨1, tenth, 0, 0⟩, ⟨1, tenth, 0, 0⟩, ⟨tenth, 1, 0, 0⟩], Sized 1 p := by
  have key : ∀ p ∈ [(⟨0, 0, 0, 0⟩ : Coord ℚ), ⟨1, tenth, 0, 0⟩, ⟨1, tenth, 0, 0⟩, ⟨tenth, 1, 0, 0⟩], rnd p.x = .fin p.x ∧ rnd p.y = .fin p.y ∧ |p.x| ≤ 1 ∧ |p.y| ≤ 1 := by
    decide +kernel
  intro p hp
  obtain ⟨a, b, c, d⟩ := key p hp
  exact ⟨f64_of a, f64_of b, by exact_mod_cast c, by exact_mod_cast d⟩

example : ∀ s ∈ segs [(⟨0, 0, 0, 0⟩ : Coord ℚ), ⟨1, tenth, 0, 0⟩, ⟨1, tenth, 0, 0⟩, ⟨tenth, 1, 0, 0⟩], Extends s.1 s.2 := by
  have half : (1 : ℝ) / 2 ^ 200 ≤ 1 / 2 := one_div_le_one_div_of_le (by norm_num) (le_self_pow₀ (by norm_num) (by norm_num))
  intro s hs
  simp only [segs, List.tail_cons, List.zip_cons_cons, List.zip_nil_right, List.mem_cons, List.not_mem_nil, or_false] at hs
  rcases hs with rfl | rfl | rfl
  · exact Or.inr (Or.inl (half.trans (by norm_num)))
  · exact Or.inl ⟨rfl, rfl⟩
  · refine Or.inr (Or.inl (half.trans ?_))
    have : (1 / 2 : ℚ) ≤ |tenth - 1| := by decide +kernel
    have : ((1 / 2 : ℚ) : ℝ) ≤ ((|tenth - 1| : ℚ) : ℝ) := by exact_mod_cast this
    push_cast at this ⊢
    simpa using this

end Verif.Props
