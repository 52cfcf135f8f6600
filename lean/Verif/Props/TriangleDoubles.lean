import Verif.Props.CentroidDoubles
import Verif.Props.SpaceDoubles

/-! # C124: triangles of arbitrary doubles -/

set_option linter.unusedSectionVars false

namespace Verif.Props
open Flt Verif.Spec Verif.Binary64

variable {sq : ℚ → Val} {hy : ℚ → ℚ → Val}

/-! ## Sides, in-centre, bisector -/

section Sides
variable {ε : ℝ} (lib : Lib64 sq hy ε) (hε : ε ≤ 1 / 2 ^ 52) {M : ℝ} (hM : Mid 200 M)
include lib hε hM

theorem side_sc {a b : Coord ℚ} (ha : Ordinary M a) (hb : Ordinary M b) {S : ℝ} (hS : dist (realPt a) (realPt b) ≤ S) :
    Sc 3 S ((toB64 a : Coord (B64 sq hy)).distance (toB64 b)) (dist (realPt a) (realPt b)) := by
  obtain ⟨v, e, h⟩ := C118_point lib hε hM.2 ha hb
  have d0 := Spec.dist_nonneg (realPt a) (realPt b)
  refine ⟨v, e, by rwa [abs_of_nonneg d0], h.trans ?_⟩
  have := mul_le_mul_of_nonneg_left hS (show (0 : ℝ) ≤ 3 / 2 ^ 52 by positivity)
  calc _ ≤ 3 / 2 ^ 52 * S := this
    _ = _ := by ring

omit lib hε hM in
/-- A mean of three ordinates with computed weights. -/
theorem weights_sc {S M : ℝ} (mS : Mid 210 S) (mM : Mid 210 M) {f g h : B64 sq hy} {X Y Z : ℝ} (X0 : 0 ≤ X) (Y0 : 0 ≤ Y) (Z0 : 0 ≤ Z) (hS : X + Y + Z = S)
    (hf : Sc 3 S f X) (hg : Sc 3 S g Y) (hh : Sc 3 S h Z) {x y z : ℚ} (hx : |(x : ℝ)| ≤ M) (hy' : |(y : ℝ)| ≤ M) (hz : |(z : ℝ)| ≤ M) :
    ∃ u : ℚ, (f *. Fl.fin x +. g *. Fl.fin y +. h *. Fl.fin z) /. (f +. g +. h) = Fl.fin u ∧ |(u : ℝ) - (X * x + Y * y + Z * z) / (X + Y + Z)| ≤ M / 2 ^ 45 := by
  have S0 := mS.pos
  have M0 := mM.pos
  have mm := mS.mul mM
  have term : ∀ {f : B64 sq hy} {X : ℝ} {x : ℚ}, Sc 3 S f X → |(x : ℝ)| ≤ M → Sc 5 (S * M) (f *. Fl.fin x) (X * x) := fun {f X x} hf hx =>
    (hf.mul (sc_exact hx) (by norm_num) le_rfl (by norm_num) (by norm_num) (mm.mono (by norm_num))).mono (by norm_num) (by norm_num) le_rfl
  have mm2 := mm.add mm
  have n1 := (term hf hx).add (term hg hy') le_rfl le_rfl (by norm_num) (by norm_num) (mm2.mono (by norm_num))
  have n2 := n1.add (term hh hz) (e := 6) (by norm_num) (by norm_num) (by norm_num) (by norm_num) ((mm2.add (mm.mono (by norm_num))).mono (by norm_num))
  have ms2 := mS.add mS
  have d1 := hf.add hg le_rfl le_rfl (by norm_num) (by norm_num) (ms2.mono (by norm_num))
  have d2 := d1.add hh (e := 4) (by norm_num) (by norm_num) (by norm_num) (by norm_num) ((ms2.add (mS.mono (by norm_num))).mono (by norm_num))
  have bn : |X * x + Y * y + Z * z| ≤ S * M := by
    have t : ∀ {X : ℝ} {x : ℚ}, 0 ≤ X → |(x : ℝ)| ≤ M → |X * x| ≤ X * M := fun {X x} h k => by
      rw [abs_mul, abs_of_nonneg h]; exact mul_le_mul_of_nonneg_left k h
    have := abs_add_le (X * x + Y * y) (Z * z)
    have := abs_add_le (X * x) (Y * y)
    have e : S * M = X * M + Y * M + Z * M := by rw [← hS]; ring
    linarith [t X0 hx, t Y0 hy', t Z0 hz]
  have bd : |X + Y + Z| ≤ S := by rw [abs_of_nonneg (by linarith), hS]
  have n3 := Sc.shrink n2 bn (e' := 21) (by ring)
  have d3 := Sc.shrink d2 bd (e' := 15) (by ring)
  have mq : Mid 1000 (2 * (S * M) / S) := by
    rw [show 2 * (S * M) / S = 2 * M by field_simp]
    exact (mid_two.mul mM).mono (by norm_num)
  obtain ⟨u, u1, -, u3⟩ := n3.div d3 (by norm_num) (by norm_num) (by norm_num) (by norm_num) (by linarith) S0 mq
  refine ⟨u, u1, u3.trans ?_⟩
  rw [show (21 + 2 * 15 + 2) * (2 * (S * M) / S) / 2 ^ 52 = M * (106 / 2 ^ 52) by field_simp; norm_num, div_eq_mul_one_div M]
  exact mul_le_mul_of_nonneg_left (by norm_num) M0.le

omit lib hε in
theorem dist_big {a b : Coord ℚ} (ha : Sized M a) (hb : Sized M b) : dist (realPt a) (realPt b) ≤ 2 ^ 202 := by
  refine (dist_sized ha hb).trans ?_
  rw [show (202 : ℕ) = 2 + 200 from rfl, pow_add]
  have := hM.2
  generalize (2 : ℝ) ^ 200 = P at *
  linarith

omit lib hε hM in
theorem ord_apart {u v : ℚ} (hu : Mul2 (-1000) u) (hv : Mul2 (-1000) v) (h : u ≠ v) : 1 / 2 ^ 1000 ≤ |(u : ℝ) - v| := by
  obtain ⟨m, rfl⟩ := hu
  obtain ⟨n, rfl⟩ := hv
  have hmn : m - n ≠ 0 := by rintro k; apply h; rw [sub_eq_zero.mp k]
  have h1 : (1 : ℝ) ≤ |((m - n : ℤ) : ℝ)| := by exact_mod_cast Int.one_le_abs hmn
  have e : (((m : ℚ) * 2 ^ (-1000 : ℤ) : ℚ) : ℝ) - ((n : ℚ) * 2 ^ (-1000 : ℤ) : ℚ) = ((m - n : ℤ) : ℝ) * (1 / 2 ^ 1000) := by
    push_cast
    rw [one_div, ← zpow_natCast (2 : ℝ) 1000, ← zpow_neg]
    push_cast
    ring
  rw [e, abs_mul, abs_of_pos (show (0 : ℝ) < 1 / 2 ^ 1000 by positivity)]
  calc (1 : ℝ) / 2 ^ 1000 = 1 * (1 / 2 ^ 1000) := (one_mul _).symm
    _ ≤ _ := mul_le_mul_of_nonneg_right h1 (by positivity)

omit lib hε hM in
theorem abs_le_dist (p q : Coord ℝ) : |p.x - q.x| ≤ dist p q ∧ |p.y - q.y| ≤ dist p q := by
  unfold Spec.dist
  exact ⟨Real.abs_le_sqrt (by nlinarith [sq_nonneg (p.y - q.y)]), Real.abs_le_sqrt (by nlinarith [sq_nonneg (p.x - q.x)])⟩

omit lib hε hM in
theorem dist_low {a b : Coord ℚ} (ha : Ordinary M a) (hb : Ordinary M b) : dist (realPt a) (realPt b) = 0 ∨ (2 : ℝ) ^ (-1021 : ℤ) ≤ dist (realPt a) (realPt b) := by
  have t : (2 : ℝ) ^ (-1021 : ℤ) ≤ 1 / 2 ^ 1000 := by
    rw [one_div, ← zpow_natCast (2 : ℝ) 1000, ← zpow_neg]
    exact zpow2_mono (by norm_num)
  obtain ⟨h1, h2⟩ := abs_le_dist (realPt a) (realPt b)
  by_cases hx : a.x = b.x
  · by_cases hy' : a.y = b.y
    · left; rw [dist_eq_zero]; unfold realPt; simp [hx, hy']
    · exact Or.inr ((t.trans (ord_apart ha.2.2 hb.2.2 hy')).trans h2)
  · exact Or.inr ((t.trans (ord_apart ha.2.1 hb.2.1 hx)).trans h1)

/-- C124: the longest side of a triangle has relative error at most 3/2^52, its length at most 5/2^52. -/
theorem C124_length {a b c : Coord ℚ} (ha : Ordinary M a) (hb : Ordinary M b) (hc : Ordinary M c) :
    (∃ w : ℚ, Triangle.longestSide (toB64 a : Coord (B64 sq hy)) (toB64 b) (toB64 c) = Fl.fin w ∧
      |(w : ℝ) - max (max (dist (realPt a) (realPt b)) (dist (realPt b) (realPt c))) (dist (realPt c) (realPt a))| ≤
        3 / 2 ^ 52 * max (max (dist (realPt a) (realPt b)) (dist (realPt b) (realPt c))) (dist (realPt c) (realPt a))) ∧
    ∃ w : ℚ, Triangle.length (toB64 a : Coord (B64 sq hy)) (toB64 b) (toB64 c) = Fl.fin w ∧
      |(w : ℝ) - (dist (realPt a) (realPt b) + dist (realPt b) (realPt c) + dist (realPt c) (realPt a))| ≤
        5 / 2 ^ 52 * (dist (realPt a) (realPt b) + dist (realPt b) (realPt c) + dist (realPt c) (realPt a)) := by
  obtain ⟨x, ex, rx⟩ := C118_point lib hε hM.2 ha hb
  obtain ⟨y, ey, ry⟩ := C118_point lib hε hM.2 hb hc
  obtain ⟨z, ez, rz⟩ := C118_point lib hε hM.2 hc ha
  have lx := dist_low ha hb
  have ly := dist_low hb hc
  have lz := dist_low hc ha
  have bx := dist_big hM ha.1 hb.1
  have by' := dist_big hM hb.1 hc.1
  have bz := dist_big hM hc.1 ha.1
  have x0 := Spec.dist_nonneg (realPt a) (realPt b)
  have y0 := Spec.dist_nonneg (realPt b) (realPt c)
  have z0 := Spec.dist_nonneg (realPt c) (realPt a)
  constructor
  · have l : Triangle.longestSide (toB64 a : Coord (B64 sq hy)) (toB64 b) (toB64 c) = pick64 (pick64 (Fl.fin x) (Fl.fin y)) (Fl.fin z) := by
      rw [← ex, ← ey, ← ez]; rfl
    refine ⟨max (max x y) z, by rw [l, pick64_fin, pick64_fin], ?_⟩
    have n0 : (0 : ℝ) ≤ 3 / 2 ^ 52 := by positivity
    have mx : ∀ {p q P Q : ℝ}, |p - P| ≤ 3 / 2 ^ 52 * P → |q - Q| ≤ 3 / 2 ^ 52 * Q → |max p q - max P Q| ≤ 3 / 2 ^ 52 * max P Q := by
      intro p q P Q hp hq
      refine (abs_max_sub_max_le_max p q P Q).trans (max_le (hp.trans ?_) (hq.trans ?_))
      · exact mul_le_mul_of_nonneg_left (le_max_left _ _) n0
      · exact mul_le_mul_of_nonneg_left (le_max_right _ _) n0
    push_cast
    exact mx (mx rx ry) rz
  · show ∃ w : ℚ, (Coord.distance (toB64 a : Coord (B64 sq hy)) (toB64 b)) +. (Coord.distance (toB64 b : Coord (B64 sq hy)) (toB64 c)) +.
        (Coord.distance (toB64 c : Coord (B64 sq hy)) (toB64 a)) = Fl.fin w ∧ _
    rw [ex, ey, ez]
    generalize dist (realPt a) (realPt b) = X at *
    generalize dist (realPt b) (realPt c) = Y at *
    generalize dist (realPt c) (realPt a) = Z at *
    have hi : ∀ {T : ℝ}, T ≤ 3 * 2 ^ 202 → T ≤ 2 ^ (1022 : ℤ) := fun {T} h => h.trans (by
      calc (3 : ℝ) * 2 ^ 202 ≤ 2 ^ 2 * 2 ^ 202 := mul_le_mul_of_nonneg_right (by norm_num) (by positivity)
        _ = 2 ^ 204 := by rw [← pow_add]
        _ = 2 ^ (204 : ℤ) := by norm_cast
        _ ≤ _ := zpow2_mono (by norm_num))
    have l1 := low_add x0 y0 lx ly
    have l2 := low_add (add_nonneg x0 y0) z0 l1 lz
    have s1 := (Ap.of_rel x0 rx).add (Ap.of_rel y0 ry)
    rw [show (x : ℝ) + y = ((x + y : ℚ) : ℝ) by push_cast; rfl] at s1
    have g1 : X + Y ≤ 3 * 2 ^ 202 := by generalize (2 : ℝ) ^ 202 = P at *; linarith
    have g2 : X + Y + Z ≤ 3 * 2 ^ 202 := by generalize (2 : ℝ) ^ 202 = P at *; linarith
    obtain ⟨r1, a1⟩ := pos_round (sq := sq) (hy := hy) s1 (by norm_num) l1 (hi g1)
    have hz' := (Ap.of_rel z0 rz).mono (β := (1 + 3 / 2 ^ 52) * (1 + 1 / 2 ^ 53) - 1) (by norm_num)
    have s2 := a1.add hz'
    rw [show ((near (x + y) : ℚ) : ℝ) + z = ((near (x + y) + z : ℚ) : ℝ) by push_cast; rfl] at s2
    obtain ⟨r2, a2⟩ := pos_round (sq := sq) (hy := hy) s2 (by norm_num) l2 (hi g2)
    refine ⟨_, Eq.trans (congrArg (· +. (Fl.fin z : B64 sq hy)) r1) r2, a2.err.trans ?_⟩
    exact mul_le_mul_of_nonneg_right (by norm_num) (by linarith)

/-- C124: the in-centre of a triangle whose perimeter is not below 2^-200, within M/2^45. -/
theorem C124_in_centre {a b c : Coord ℚ} (ha : Ordinary M a) (hb : Ordinary M b) (hc : Ordinary M c)
    (hS : 1 / 2 ^ 200 ≤ dist (realPt a) (realPt b) + dist (realPt b) (realPt c) + dist (realPt c) (realPt a)) :
    ∃ u : Coord ℚ, Triangle.inCentre (toB64 a : Coord (B64 sq hy)) (toB64 b) (toB64 c) = toB64 u ∧
      CloseTo (M / 2 ^ 45) u (Triangle.inCentre (realPt a) (realPt b) (realPt c)) := by
  have x0 := Spec.dist_nonneg (realPt a) (realPt b)
  have y0 := Spec.dist_nonneg (realPt b) (realPt c)
  have z0 := Spec.dist_nonneg (realPt a) (realPt c)
  have bx := dist_big hM ha.1 hb.1
  have by' := dist_big hM hb.1 hc.1
  have bz := dist_big hM ha.1 hc.1
  rw [Spec.dist_comm (realPt c) (realPt a)] at hS
  obtain ⟨S, eS⟩ : ∃ S, dist (realPt b) (realPt c) + dist (realPt a) (realPt c) + dist (realPt a) (realPt b) = S := ⟨_, rfl⟩
  have mS : Mid 210 S := by
    refine ⟨?_, ?_⟩
    · have : (1 : ℝ) / 2 ^ 210 ≤ 1 / 2 ^ 200 := one_div_le_one_div_of_le (by positivity) (pow_le_pow_right₀ (by norm_num) (by norm_num))
      linarith
    · rw [show (210 : ℕ) = 8 + 202 from rfl, pow_add]
      clear hS
      generalize (2 : ℝ) ^ 202 = P at *
      linarith
  have h0 := side_sc lib hε hM hb hc (S := S) (by linarith)
  have h1 := side_sc lib hε hM ha hc (S := S) (by linarith)
  have h2 := side_sc lib hε hM ha hb (S := S) (by linarith)
  obtain ⟨⟨-, -, ax, ay⟩, -⟩ := ha
  obtain ⟨⟨-, -, bx', by''⟩, -⟩ := hb
  obtain ⟨⟨-, -, cx, cy⟩, -⟩ := hc
  obtain ⟨u, u1, u2⟩ := weights_sc mS (hM.mono (by norm_num)) y0 z0 x0 eS h0 h1 h2 ax bx' cx
  obtain ⟨v, v1, v2⟩ := weights_sc mS (hM.mono (by norm_num)) y0 z0 x0 eS h0 h1 h2 ay by'' cy
  refine ⟨⟨u, v, 0, 0⟩, ?_, ?_⟩
  · show ({ Coord.default with x := _, y := _ } : Coord (B64 sq hy)) = _
    dsimp only
    simp only [xB64, yB64]
    rw [u1, v1]
    rfl
  · rw [inCentre_xy, Spec.dist_comm (realPt c) (realPt a)]
    exact ⟨u2, v2⟩

/-- C124: the point where the bisector of the angle at `b` meets the side `ac`, within M/2^44. -/
theorem C124_angle_bisector {a b c : Coord ℚ} (ha : Ordinary M a) (hb : Ordinary M b) (hc : Ordinary M c)
    (hS : 1 / 2 ^ 200 ≤ dist (realPt b) (realPt a) + dist (realPt b) (realPt c)) :
    ∃ u : Coord ℚ, Triangle.angleBisector (toB64 a : Coord (B64 sq hy)) (toB64 b) (toB64 c) = toB64 u ∧
      CloseTo (M / 2 ^ 44) u (Triangle.angleBisector (realPt a) (realPt b) (realPt c)) := by
  have M0 := hM.pos
  have x0 := Spec.dist_nonneg (realPt b) (realPt a)
  have y0 := Spec.dist_nonneg (realPt b) (realPt c)
  have bx := dist_big hM hb.1 ha.1
  have by' := dist_big hM hb.1 hc.1
  obtain ⟨S, eS⟩ : ∃ S, dist (realPt b) (realPt a) + dist (realPt b) (realPt c) = S := ⟨_, rfl⟩
  have mS : Mid 210 S := by
    refine ⟨?_, ?_⟩
    · have : (1 : ℝ) / 2 ^ 210 ≤ 1 / 2 ^ 200 := one_div_le_one_div_of_le (by positivity) (pow_le_pow_right₀ (by norm_num) (by norm_num))
      linarith
    · rw [show (210 : ℕ) = 8 + 202 from rfl, pow_add]
      clear hS
      generalize (2 : ℝ) ^ 202 = P at *
      linarith
  have S0 := mS.pos
  have h0 := side_sc lib hε hM hb ha (S := S) (by linarith)
  have h2 := side_sc lib hε hM hb hc (S := S) (by linarith)
  have ms2 := mS.add mS
  have d1 := h0.add h2 le_rfl le_rfl (by norm_num) (by norm_num) (ms2.mono (by norm_num))
  rw [eS] at d1
  have d2 := Sc.shrink d1 (by rw [abs_of_pos S0]) (e' := 8) (by ring)
  have mq : Mid 1000 (2 * S / S) := by
    rw [show 2 * S / S = 2 by field_simp]
    exact mid_two.mono (by norm_num)
  have f := h0.div d2 (by norm_num) (by norm_num) (by norm_num) (by norm_num) (by linarith) S0 mq
  have f1 := Sc.shrink f (B' := 1) (by rw [abs_of_nonneg (by positivity), div_le_one S0]; linarith) (e' := 42) (by field_simp; norm_num)
  obtain ⟨⟨fax, fay, ax, ay⟩, -⟩ := ha
  obtain ⟨⟨fcx, fcy, cx, cy⟩, -⟩ := hc
  have m2 := mid_two.mul hM
  have one : ∀ {x z : ℚ}, IsF64 x → IsF64 z → |(x : ℝ)| ≤ M → |(z : ℝ)| ≤ M →
      ∃ u : ℚ, (Fl.fin x : B64 sq hy) +. ((toB64 b : Coord (B64 sq hy)).distance (toB64 a) /. ((toB64 b : Coord (B64 sq hy)).distance (toB64 a) +. (toB64 b : Coord (B64 sq hy)).distance (toB64 c))) *.
        (Fl.fin z -. Fl.fin x) = Fl.fin u ∧ |(u : ℝ) - (x + dist (realPt b) (realPt a) / S * (z - x))| ≤ M / 2 ^ 44 := by
    intro x z fx fz hx hz
    have dd := sc_diff (sq := sq) (hy := hy) fx fz (show |(z : ℝ) - x| ≤ 2 * M from (abs_sub _ _).trans (by linarith)) (m2.mono (by norm_num))
    have p := f1.mul dd (by norm_num) (by norm_num) (by norm_num) (by norm_num) (by rw [one_mul]; exact m2.mono (by norm_num))
    rw [one_mul] at p
    obtain ⟨u, u1, -, u3⟩ := (sc_exact (sq := sq) (hy := hy) hx).add p (e := 45) (by norm_num) (by norm_num) (by norm_num) (by norm_num)
      (((hM.mono (by norm_num)).add m2).mono (by norm_num))
    refine ⟨u, u1, u3.trans ?_⟩
    rw [show (45 + 1) * (M + 2 * M) / 2 ^ 52 = M * (138 / 2 ^ 52) by ring, div_eq_mul_one_div M]
    exact mul_le_mul_of_nonneg_left (by norm_num) M0.le
  obtain ⟨u, u1, u2⟩ := one fax fcx ax cx
  obtain ⟨v, v1, v2⟩ := one fay fcy ay cy
  refine ⟨⟨u, v, 0, 0⟩, ?_, ?_⟩
  · show ({ Coord.default with x := _, y := _ } : Coord (B64 sq hy)) = _
    dsimp only
    simp only [xB64, yB64]
    rw [u1, v1]
    rfl
  · unfold Triangle.angleBisector
    simp only [distance_eq, real_toFlt, exact_add, exact_sub, exact_mul, exact_div, eS]
    exact ⟨u2, v2⟩

end Sides

/-! ## Centroid, acute corners -/

/-- C124: the centroid, within 3M/2^52. -/
theorem C124_centroid {M : ℝ} (hM : Mid 200 M) {a b c : Coord ℚ} (ha : Sized M a) (hb : Sized M b) (hc : Sized M c) :
    ∃ u : Coord ℚ, Triangle.centroid (toB64 a : Coord (B64 sq hy)) (toB64 b) (toB64 c) = toB64 u ∧
      |(u.x : ℝ) - (a.x + b.x + c.x) / 3| ≤ 3 * M / 2 ^ 52 ∧ |(u.y : ℝ) - (a.y + b.y + c.y) / 3| ≤ 3 * M / 2 ^ 52 := by
  have m2 := hM.add hM
  have m3 := m2.add (hM.mono (show 200 ≤ 201 by norm_num))
  have one : ∀ {x y z : ℚ}, |(x : ℝ)| ≤ M → |(y : ℝ)| ≤ M → |(z : ℝ)| ≤ M →
      ∃ u : ℚ, ((Fl.fin x : B64 sq hy) +. Fl.fin y +. Fl.fin z) /. lit 3 = Fl.fin u ∧ |(u : ℝ) - (x + y + z) / 3| ≤ 3 * M / 2 ^ 52 := by
    intro x y z hx hy' hz
    have s1 := (sc_exact (sq := sq) (hy := hy) hx).add (sc_exact hy') (e := 0) le_rfl le_rfl le_rfl (by norm_num) (m2.mono (by norm_num))
    have s2 := s1.add (sc_exact hz) (e := 1) (by norm_num) (by norm_num) (by norm_num) (by norm_num) (m3.mono (by norm_num))
    have e3 : (M + M + M) / ((3 : ℚ) : ℝ) = M := by push_cast; ring
    have s3 := s2.scale_down (d := 3) (by norm_num) (by norm_num) (by rw [e3]; exact hM.mono (by norm_num))
    rw [e3] at s3
    obtain ⟨u, u1, -, u3⟩ := s3
    refine ⟨u, by rw [three64]; exact u1, ?_⟩
    push_cast at u3
    convert u3 using 2
    norm_num
  obtain ⟨-, -, ax, ay⟩ := ha
  obtain ⟨-, -, bx, by'⟩ := hb
  obtain ⟨-, -, cx, cy⟩ := hc
  obtain ⟨u, u1, u2⟩ := one ax bx cx
  obtain ⟨v, v1, v2⟩ := one ay by' cy
  refine ⟨⟨u, v, 0, 0⟩, ?_, u2, v2⟩
  show ({ Coord.default with x := _, y := _ } : Coord (B64 sq hy)) = _
  dsimp only
  simp only [xB64, yB64]
  rw [u1, v1]
  rfl

/-- The larger of the extents of a segment in x and y. -/
def extent (a b : Coord ℚ) : ℝ := max |(b.x : ℝ) - a.x| |(b.y : ℝ) - a.y|

theorem extent_x (a b : Coord ℚ) : |(b.x : ℝ) - a.x| ≤ extent a b := le_max_left _ _
theorem extent_y (a b : Coord ℚ) : |(b.y : ℝ) - a.y| ≤ extent a b := le_max_right _ _

theorem extent_mid {M : ℝ} (hM : Mid 200 M) {a b : Coord ℚ} (ha : Sized M a) (hb : Sized M b) (h : 1 / 2 ^ 200 ≤ extent a b) : Mid 201 (extent a b) := by
  obtain ⟨-, -, ax, ay⟩ := ha
  obtain ⟨-, -, bx, by'⟩ := hb
  refine ⟨(one_div_le_one_div_of_le (by positivity) (pow_le_pow_right₀ (by norm_num) (by norm_num))).trans h, ?_⟩
  have := hM.2
  rw [pow_succ]
  clear h
  generalize (2 : ℝ) ^ 200 = P at *
  exact max_le ((abs_sub _ _).trans (by linarith)) ((abs_sub _ _).trans (by linarith))

/-- The dot product of the sides at the corner `o`. -/
def cornerDot (a o b : Coord ℚ) : ℝ := ((a.x : ℝ) - o.x) * (b.x - o.x) + ((a.y : ℝ) - o.y) * (b.y - o.y)

/-- C124: a corner is told acute or not unless the dot product of its sides is below 2^-48 of the product of their extents. -/
theorem C124_acute_corner {M : ℝ} (hM : Mid 200 M) {a o b : Coord ℚ} (ha : Sized M a) (ho : Sized M o) (hb : Sized M b) (ea : 1 / 2 ^ 200 ≤ extent o a)
    (eb : 1 / 2 ^ 200 ≤ extent o b) (h : extent o a * extent o b / 2 ^ 48 ≤ |cornerDot a o b|) :
    (Angle.isAcute (toB64 a : Coord (B64 sq hy)) (toB64 o) (toB64 b) = true ↔ 0 < cornerDot a o b) ∧
    (Angle.isObtuse (toB64 a : Coord (B64 sq hy)) (toB64 o) (toB64 b) = true ↔ cornerDot a o b < 0) := by
  have mA := extent_mid hM ho ha ea
  have mB := extent_mid hM ho hb eb
  have mm := mA.mul mB
  have d : ∀ {x y : ℚ} {N : ℝ}, IsF64 x → IsF64 y → |(y : ℝ) - x| ≤ N → Mid 201 N → Sc 1 N ((Fl.fin y : B64 sq hy) -. Fl.fin x) (y - x) := fun fx fy hN mN =>
    sc_diff fx fy hN (mN.mono (by norm_num))
  have q1 := (d ho.1 ha.1 (extent_x o a) mA).mul (d ho.1 hb.1 (extent_x o b) mB) (by norm_num) (by norm_num) (by norm_num) (by norm_num) (mm.mono (by norm_num))
  have q2 := (d ho.2.1 ha.2.1 (extent_y o a) mA).mul (d ho.2.1 hb.2.1 (extent_y o b) mB) (by norm_num) (by norm_num) (by norm_num) (by norm_num) (mm.mono (by norm_num))
  obtain ⟨v, v1, -, v3⟩ := q1.add q2 le_rfl le_rfl (by norm_num) (by norm_num) ((mm.add mm).mono (by norm_num))
  have P0 := mm.pos
  have e : (1 + 1 + 2 + 1) * (extent o a * extent o b + extent o a * extent o b) / 2 ^ 52 < |cornerDot a o b| := by
    refine lt_of_lt_of_le ?_ h
    rw [show (1 + 1 + 2 + 1) * (extent o a * extent o b + extent o a * extent o b) / 2 ^ 52 = extent o a * extent o b * (10 / 2 ^ 52) by ring, div_eq_mul_one_div]
    exact mul_lt_mul_of_pos_left (by norm_num) P0
  have w : |(v : ℝ) - cornerDot a o b| < |cornerDot a o b| := lt_of_le_of_lt v3 e
  obtain ⟨w1, w2⟩ := abs_lt.mp w
  have z : (lit 0 : B64 sq hy) = Fl.fin 0 := rnd_of_f64 (f64_of (by decide +kernel))
  have p1 : 0 < v ↔ 0 < cornerDot a o b := by
    rw [← Rat.cast_pos (K := ℝ)]
    constructor
    · intro k; by_contra n; rw [abs_of_nonpos (not_lt.mp n)] at w1 w2; linarith
    · intro k; rw [abs_of_pos k] at w1; linarith
  have p2 : v < 0 ↔ cornerDot a o b < 0 := by
    rw [← Rat.cast_lt_zero (K := ℝ)]
    constructor
    · intro k; by_contra n; rw [abs_of_nonneg (not_lt.mp n)] at w1; linarith
    · intro k; rw [abs_of_neg k] at w2; linarith
  unfold Angle.isAcute Angle.isObtuse
  simp only [xB64, yB64]
  rw [v1, z, ← p1, ← p2]
  exact ⟨decide_eq_true_iff, decide_eq_true_iff⟩

/-- C124: so is a triangle. -/
theorem C124_acute {M : ℝ} (hM : Mid 200 M) {a b c : Coord ℚ} (ha : Sized M a) (hb : Sized M b) (hc : Sized M c) (eab : 1 / 2 ^ 200 ≤ extent a b)
    (ebc : 1 / 2 ^ 200 ≤ extent b c) (eca : 1 / 2 ^ 200 ≤ extent c a) (h1 : extent b a * extent b c / 2 ^ 48 ≤ |cornerDot a b c|)
    (h2 : extent c b * extent c a / 2 ^ 48 ≤ |cornerDot b c a|) (h3 : extent a c * extent a b / 2 ^ 48 ≤ |cornerDot c a b|) :
    Triangle.isAcute (toB64 a : Coord (B64 sq hy)) (toB64 b) (toB64 c) = true ↔ 0 < cornerDot a b c ∧ 0 < cornerDot b c a ∧ 0 < cornerDot c a b := by
  have sy : ∀ p q : Coord ℚ, extent p q = extent q p := fun p q => by unfold extent; rw [abs_sub_comm, abs_sub_comm (q.y : ℝ)]
  unfold Triangle.isAcute
  rw [Bool.and_eq_true, Bool.and_eq_true, (C124_acute_corner hM ha hb hc (by rwa [sy]) ebc h1).1, (C124_acute_corner hM hb hc ha (by rwa [sy]) eca h2).1,
    (C124_acute_corner hM hc ha hb (by rwa [sy]) eab h3).1]

/-! ## Circumcentre -/

/-- How flat the corner `o` is: the product of the extents of its sides is at most `κ` times the determinant. -/
structure Corner (κ : ℝ) (o a b : Coord ℚ) : Prop where
  first : 1 / 2 ^ 200 ≤ extent o a
  second : 1 / 2 ^ 200 ≤ extent o b
  ne : det o a b ≠ 0
  flat : extent o a * extent o b ≤ κ * |((det o a b : ℚ) : ℝ)|

theorem det_extents (o a b : Coord ℚ) : |((det o a b : ℚ) : ℝ)| ≤ 2 * (extent o a * extent o b) := by
  have e : ((det o a b : ℚ) : ℝ) = ((a.x : ℝ) - o.x) * (b.y - o.y) - (a.y - o.y) * (b.x - o.x) := by unfold det; push_cast; ring
  rw [e]
  have e0 : 0 ≤ extent o a := (abs_nonneg _).trans (extent_x o a)
  have h1 : |((a.x : ℝ) - o.x) * (b.y - o.y)| ≤ extent o a * extent o b := by
    rw [abs_mul]; exact mul_le_mul (extent_x o a) (extent_y o b) (abs_nonneg _) e0
  have h2 : |((a.y : ℝ) - o.y) * (b.x - o.x)| ≤ extent o a * extent o b := by
    rw [abs_mul]; exact mul_le_mul (extent_y o a) (extent_x o b) (abs_nonneg _) e0
  have := abs_sub (((a.x : ℝ) - o.x) * (b.y - o.y)) ((a.y - o.y) * (b.x - o.x))
  linarith

theorem Corner.half_le {κ : ℝ} {o a b : Coord ℚ} (h : Corner κ o a b) : 1 / 2 ≤ κ := by
  have d0 : 0 < |((det o a b : ℚ) : ℝ)| := abs_pos.mpr (by exact_mod_cast h.ne)
  have := det_extents o a b
  have f := h.flat
  by_contra k
  have := mul_lt_mul_of_pos_right (not_le.mp k) d0
  linarith

theorem tiny_mid {k : ℕ} {B : ℝ} (h : Mid k B) (hk : k ≤ 900) : tiny ≤ B / 2 ^ 100 := by
  refine (tiny_le (k := 1000) (by norm_num)).trans ?_
  rw [show (1000 : ℕ) = 900 + 100 from rfl, pow_add, ← div_div]
  exact div_le_div_of_nonneg_right (h.mono hk).1 (by positivity)

/-- The quotient of a numerator by twice the determinant. -/
theorem circum_quot {κ Q D : ℝ} (hκ : κ ≤ 2 ^ 46) (k0 : 1 / 2 ≤ κ) {n d : ℚ} {N δ : ℝ} (mD : Mid 210 D)
    (hn : |(n : ℝ) - N| ≤ 18 * (Q * D) / 2 ^ 52) (hd : |(d : ℝ) - 2 * δ| ≤ 28 * Q / 2 ^ 52) (h0 : δ ≠ 0) (hQ : Q ≤ κ * |δ|) (hr : |N / (2 * δ)| ≤ κ * D) :
    ∃ u : ℚ, (Fl.fin n : B64 sq hy) /. Fl.fin d = Fl.fin u ∧ |(u : ℝ) - N / (2 * δ)| ≤ κ * (13 * D + 20 * |N / (2 * δ)|) / 2 ^ 52 := by
  have D0 := mD.pos
  have a0 : 0 < |δ| := abs_pos.mpr h0
  have e2 : |2 * δ| = 2 * |δ| := by rw [abs_mul, abs_two]
  have hv : |(n : ℝ) - N| ≤ 14 * κ / 2 ^ 52 * (9 / 14 * D) * |2 * δ| := by
    refine hn.trans ?_
    have := mul_le_mul_of_nonneg_right hQ (show 0 ≤ 18 * D / 2 ^ 52 by positivity)
    rw [e2]
    calc 18 * (Q * D) / 2 ^ 52 = Q * (18 * D / 2 ^ 52) := by ring
      _ ≤ κ * |δ| * (18 * D / 2 ^ 52) := this
      _ = _ := by ring
  have hw : |(d : ℝ) - 2 * δ| ≤ 14 * κ / 2 ^ 52 * |2 * δ| := by
    refine hd.trans ?_
    rw [e2]
    have := mul_le_mul_of_nonneg_right hQ (show (0 : ℝ) ≤ 28 / 2 ^ 52 by positivity)
    calc 28 * Q / 2 ^ 52 = Q * (28 / 2 ^ 52) := by ring
      _ ≤ κ * |δ| * (28 / 2 ^ 52) := this
      _ = _ := by ring
  have t1 : 14 * κ / 2 ^ 52 ≤ 1 / 4 := by
    rw [div_le_iff₀ (by positivity)]
    refine (mul_le_mul_of_nonneg_left hκ (by norm_num)).trans (by norm_num)
  obtain ⟨d0, q⟩ := quot_close (mul_ne_zero two_ne_zero h0) hv hw t1
  obtain ⟨r, er⟩ : ∃ r, N / (2 * δ) = r := ⟨_, rfl⟩
  rw [er] at q hr ⊢
  have r0 := abs_nonneg r
  have k1 := near_err_real (n / d)
  have q1 : |((n / d : ℚ) : ℝ)| ≤ |r| + 4 / 3 * (14 * κ / 2 ^ 52) * (9 / 14 * D + |r|) := by
    have := abs_sub_abs_le_abs_sub ((n / d : ℚ) : ℝ) r
    linarith
  have q2 : 4 / 3 * (14 * κ / 2 ^ 52) * (9 / 14 * D + |r|) ≤ 4 / 3 * (1 / 4) * (9 / 14 * D + |r|) :=
    mul_le_mul_of_nonneg_right (mul_le_mul_of_nonneg_left t1 (by norm_num)) (by positivity)
  have t2 : (2 : ℝ) ^ (-1075 : ℤ) ≤ D / 2 ^ 100 := tiny_mid mD (by norm_num)
  have big : |((n / d : ℚ) : ℝ)| ≤ 2 ^ 1000 := by
    have h1 : |((n / d : ℚ) : ℝ)| ≤ 2 ^ 48 * D := by
      have : κ * D ≤ 2 ^ 46 * D := mul_le_mul_of_nonneg_right hκ D0.le
      have : (2 : ℝ) ^ 48 * D = 4 * (2 ^ 46 * D) := by ring
      have : (1 : ℝ) * D ≤ 2 ^ 46 * D := mul_le_mul_of_nonneg_right (by norm_num) D0.le
      linarith
    refine h1.trans ?_
    have m48 : Mid 48 ((2 : ℝ) ^ 48) := ⟨by norm_num, le_rfl⟩
    exact ((m48.mul mD).mono (show 48 + 210 ≤ 1000 by norm_num)).2
  refine ⟨near (n / d), div_fin64 d0 rfl (near_small big), ?_⟩
  have tri := abs_sub_le ((near (n / d) : ℚ) : ℝ) ((n / d : ℚ) : ℝ) r
  have k2 : |((n / d : ℚ) : ℝ)| / 2 ^ 53 ≤ (|r| + 4 / 3 * (1 / 4) * (9 / 14 * D + |r|)) / 2 ^ 53 := div_le_div_of_nonneg_right (by linarith) (by positivity)
  have k3 : (|r| + 4 / 3 * (1 / 4) * (9 / 14 * D + |r|)) / 2 ^ 53 + D / 2 ^ 100 ≤ 1 / 2 * (1 * D + 4 / 3 * |r|) / 2 ^ 52 := by
    have : 1 / 2 * (1 * D + 4 / 3 * |r|) / 2 ^ 52 - ((|r| + 4 / 3 * (1 / 4) * (9 / 14 * D + |r|)) / 2 ^ 53 + D / 2 ^ 100) =
      D * (1 / 2 / 2 ^ 52 - 4 / 3 * (1 / 4) * (9 / 14) / 2 ^ 53 - 1 / 2 ^ 100) + |r| * (1 / 2 * (4 / 3) / 2 ^ 52 - (1 + 4 / 3 * (1 / 4)) / 2 ^ 53) := by ring
    have : 0 ≤ D * (1 / 2 / 2 ^ 52 - 4 / 3 * (1 / 4) * (9 / 14) / 2 ^ 53 - 1 / 2 ^ 100) := mul_nonneg D0.le (by norm_num)
    have : 0 ≤ |r| * (1 / 2 * (4 / 3) / 2 ^ 52 - (1 + 4 / 3 * (1 / 4)) / 2 ^ 53) := mul_nonneg r0 (by norm_num)
    linarith
  have k4 : 1 / 2 * (1 * D + 4 / 3 * |r|) / 2 ^ 52 ≤ κ * (1 * D + 4 / 3 * |r|) / 2 ^ 52 :=
    div_le_div_of_nonneg_right (mul_le_mul_of_nonneg_right k0 (by positivity)) (by positivity)
  have fin : κ * (13 * D + 20 * |r|) / 2 ^ 52 = 4 / 3 * (14 * κ / 2 ^ 52) * (9 / 14 * D + |r|) + κ * (1 * D + 4 / 3 * |r|) / 2 ^ 52 := by ring
  linarith

/-- The sides at the corner `c`. -/
theorem chord_le {o a c : Coord ℝ} (h : dist o a = dist o c) : |a.x - c.x| ≤ 2 * dist o c ∧ |a.y - c.y| ≤ 2 * dist o c := by
  obtain ⟨h1, h2⟩ := abs_le_dist o a
  obtain ⟨h3, h4⟩ := abs_le_dist o c
  rw [h] at h1 h2
  constructor
  · have := abs_sub_le a.x o.x c.x
    rw [abs_sub_comm a.x o.x] at this
    linarith
  · have := abs_sub_le a.y o.y c.y
    rw [abs_sub_comm a.y o.y] at this
    linarith

/-- C124: the circumcentre, when the corner at the third vertex is not too flat: off by half a unit in the last place and κ/2^45 of the circumradius. -/
theorem C124_circumcentre {κ M : ℝ} (hκ : κ ≤ 2 ^ 46) (hM : Mid 200 M) {a b c : Coord ℚ} (ha : Sized M a) (hb : Sized M b) (hc : Sized M c) (hk : Corner κ c a b) :
    ∃ u : Coord ℚ, Triangle.circumcentre (toB64 a : Coord (B64 sq hy)) (toB64 b) (toB64 c) = toB64 u ∧
      ∀ o : Coord ℝ, dist o (realPt a) = dist o (realPt c) → dist o (realPt b) = dist o (realPt c) →
        |(u.x : ℝ) - o.x| ≤ |o.x| / 2 ^ 53 + κ * dist o (realPt c) / 2 ^ 45 ∧ |(u.y : ℝ) - o.y| ≤ |o.y| / 2 ^ 53 + κ * dist o (realPt c) / 2 ^ 45 := by
  have k0 := hk.half_le
  have mP := extent_mid hM hc ha hk.first
  have mQ := extent_mid hM hc hb hk.second
  obtain ⟨P, eP⟩ : ∃ P, extent c a = P := ⟨_, rfl⟩
  obtain ⟨Q, eQ⟩ : ∃ Q, extent c b = Q := ⟨_, rfl⟩
  have fl := hk.flat
  have ex1 := extent_x c a
  have ey1 := extent_y c a
  have ex2 := extent_x c b
  have ey2 := extent_y c b
  rw [eP] at mP fl ex1 ey1
  rw [eQ] at mQ fl ex2 ey2
  have P0 := mP.pos
  have Q0 := mQ.pos
  have hd0 : ((det c a b : ℚ) : ℝ) ≠ 0 := by exact_mod_cast hk.ne
  obtain ⟨δ, eδ⟩ : ∃ δ : ℝ, ((det c a b : ℚ) : ℝ) = δ := ⟨_, rfl⟩
  have eδ' : ((a.x : ℝ) - c.x) * (b.y - c.y) - (a.y - c.y) * (b.x - c.x) = δ := by rw [← eδ]; unfold det; push_cast; ring
  rw [eδ] at hd0 fl
  have mm := mP.mul mQ
  -- the sides
  have d : ∀ {x y : ℚ} {N : ℝ}, IsF64 x → IsF64 y → |(y : ℝ) - x| ≤ N → Mid 201 N → Sc 1 N ((Fl.fin y : B64 sq hy) -. Fl.fin x) (y - x) := fun fx fy hN mN =>
    sc_diff fx fy hN (mN.mono (by norm_num))
  have sax := d hc.1 ha.1 ex1 mP
  have say := d hc.2.1 ha.2.1 ey1 mP
  have sbx := d hc.1 hb.1 ex2 mQ
  have sby := d hc.2.1 hb.2.1 ey2 mQ
  -- the denominator
  have sd := sc_cross sax sby say sbx mP mQ (by norm_num)
  rw [eδ'] at sd
  have two : Sc 0 2 (lit 2 : B64 sq hy) 2 := ⟨2, rnd_of_f64 (f64_of (by decide +kernel)), by norm_num, by norm_num⟩
  have sden := two.mul sd (by norm_num) (by norm_num) (by norm_num) (by norm_num) ((mid_two.mul (mm.add mm)).mono (by norm_num))
  -- the squares
  have sqs : ∀ {f g : B64 sq hy} {x y N : ℝ}, Sc 1 N f x → Sc 1 N g y → Mid 201 N → Sc 5 (N * N + N * N) (f *. f +. g *. g) (x * x + y * y) := fun {f g x y N} hf hg mN =>
    (((hf.mul hf (by norm_num) (by norm_num) (by norm_num) (by norm_num) ((mN.mul mN).mono (by norm_num))).add
      (hg.mul hg (by norm_num) (by norm_num) (by norm_num) (by norm_num) ((mN.mul mN).mono (by norm_num))) le_rfl le_rfl (by norm_num) (by norm_num)
      (((mN.mul mN).add (mN.mul mN)).mono (by norm_num))).mono (by norm_num) (by norm_num) le_rfl)
  have sa := sqs sax say mP
  have sb := sqs sbx sby mQ
  have mpp := (mP.mul mP).add (mP.mul mP)
  have mqq := (mQ.mul mQ).add (mQ.mul mQ)
  have num : ∀ {f g : B64 sq hy} {x y : ℝ}, Sc 1 P f x → Sc 1 Q g y → ∃ n : ℚ, Triangle.det2 f (((Fl.fin a.x : B64 sq hy) -. Fl.fin c.x) *. (Fl.fin a.x -. Fl.fin c.x) +. (Fl.fin a.y -. Fl.fin c.y) *. (Fl.fin a.y -. Fl.fin c.y)) g
      (((Fl.fin b.x : B64 sq hy) -. Fl.fin c.x) *. (Fl.fin b.x -. Fl.fin c.x) +. (Fl.fin b.y -. Fl.fin c.y) *. (Fl.fin b.y -. Fl.fin c.y)) = Fl.fin n ∧
      |x * (((b.x : ℝ) - c.x) * (b.x - c.x) + (b.y - c.y) * (b.y - c.y)) - (((a.x : ℝ) - c.x) * (a.x - c.x) + (a.y - c.y) * (a.y - c.y)) * y| ≤ 2 * (P * Q * (P + Q)) ∧
      |(n : ℝ) - (x * (((b.x : ℝ) - c.x) * (b.x - c.x) + (b.y - c.y) * (b.y - c.y)) - (((a.x : ℝ) - c.x) * (a.x - c.x) + (a.y - c.y) * (a.y - c.y)) * y)| ≤ 18 * (P * Q * (P + Q)) / 2 ^ 52 := by
    intro f g x y hf hg
    have p1 := hf.mul sb (by norm_num) (by norm_num) (by norm_num) (by norm_num) ((mP.mul mqq).mono (by norm_num))
    have p2 := sa.mul hg (by norm_num) (by norm_num) (by norm_num) (by norm_num) ((mpp.mul mQ).mono (by norm_num))
    obtain ⟨n, n1, n2, n3⟩ := p1.sub p2 (e := 8) (by norm_num) (by norm_num) (by norm_num) (by norm_num)
      (((mP.mul mqq).add ((mpp.mul mQ).mono (by norm_num))).mono (by norm_num))
    refine ⟨n, n1, n2.trans (le_of_eq (by ring)), n3.trans (le_of_eq (by ring))⟩
  obtain ⟨nx, ex, bx, rx⟩ := num say sby
  obtain ⟨ny, ey, by', ry⟩ := num sax sbx
  obtain ⟨dn, ed, -, rd⟩ := sden
  have mD : Mid 210 (P + Q) := (mP.add mQ).mono (by norm_num)
  have D0 := mD.pos
  have rd' : |(dn : ℝ) - 2 * δ| ≤ 28 * (P * Q) / 2 ^ 52 := rd.trans (le_of_eq (by ring))
  have a0 : 0 < |δ| := abs_pos.mpr hd0
  have rat : ∀ {N : ℝ}, |N| ≤ 2 * (P * Q * (P + Q)) → |N / (2 * δ)| ≤ κ * (P + Q) := by
    intro N hN
    rw [abs_div, abs_mul, abs_two, div_le_iff₀ (by positivity)]
    have := mul_le_mul_of_nonneg_right fl D0.le
    linarith
  obtain ⟨ux, u1, u2⟩ := circum_quot (sq := sq) (hy := hy) hκ k0 mD rx rd' hd0 fl (rat bx)
  obtain ⟨uy, v1, v2⟩ := circum_quot (sq := sq) (hy := hy) hκ k0 mD ry rd' hd0 fl (rat by')
  -- the last sum
  have last : ∀ {x u : ℚ} {r : ℝ}, |(x : ℝ)| ≤ M → |r| ≤ κ * (P + Q) → |(u : ℝ) - r| ≤ κ * (13 * (P + Q) + 20 * |r|) / 2 ^ 52 →
      (Fl.fin x : B64 sq hy) +. Fl.fin u = Fl.fin (near (x + u)) ∧
      |((near (x + u) : ℚ) : ℝ) - (x + r)| ≤ |(x : ℝ) + r| / 2 ^ 53 + κ * (14 * (P + Q) + 21 * |r|) / 2 ^ 52 := by
    intro x u r hx hr hu
    have r0 := abs_nonneg r
    have kd : κ * (P + Q) ≤ 2 ^ 46 * (P + Q) := mul_le_mul_of_nonneg_right hκ D0.le
    have E1 : κ * (13 * (P + Q) + 20 * |r|) / 2 ^ 52 ≤ 13 * (P + Q) + 20 * |r| := by
      rw [div_le_iff₀ (by positivity), mul_comm]
      exact mul_le_mul_of_nonneg_left (hκ.trans (by norm_num)) (by positivity)
    have t : ((x + u : ℚ) : ℝ) - (x + r) = u - r := by push_cast; ring
    have b1 : |((x + u : ℚ) : ℝ)| ≤ |(x : ℝ) + r| + κ * (13 * (P + Q) + 20 * |r|) / 2 ^ 52 := by
      have := abs_sub_abs_le_abs_sub ((x + u : ℚ) : ℝ) (x + r)
      rw [t] at this
      linarith
    have big : |((x + u : ℚ) : ℝ)| ≤ 2 ^ 1000 := by
      have h1 : |((x + u : ℚ) : ℝ)| ≤ 2 ^ 52 * (P + Q) + M := by
        have := abs_add_le (x : ℝ) r
        have : (2 : ℝ) ^ 52 * (P + Q) = 64 * (2 ^ 46 * (P + Q)) := by ring
        have : (1 : ℝ) * (P + Q) ≤ 2 ^ 46 * (P + Q) := mul_le_mul_of_nonneg_right (by norm_num) D0.le
        linarith
      refine h1.trans ?_
      have m52 : Mid 52 ((2 : ℝ) ^ 52) := ⟨by norm_num, le_rfl⟩
      exact (((m52.mul mD).add (hM.mono (by norm_num))).mono (by norm_num)).2
    refine ⟨(rnd_fin_iff _ _).mpr ⟨rfl, near_small big⟩, ?_⟩
    have k1 := near_err_real (x + u)
    have t2 : (2 : ℝ) ^ (-1075 : ℤ) ≤ (P + Q) / 2 ^ 100 := tiny_mid mD (by norm_num)
    have tri := abs_sub_le ((near (x + u) : ℚ) : ℝ) ((x + u : ℚ) : ℝ) (x + r)
    rw [t] at tri
    have k2 : |((x + u : ℚ) : ℝ)| / 2 ^ 53 ≤ (|(x : ℝ) + r| + κ * (13 * (P + Q) + 20 * |r|) / 2 ^ 52) / 2 ^ 53 := div_le_div_of_nonneg_right b1 (by positivity)
    have k3 : (P + Q) / 2 ^ 100 ≤ κ * (P + Q) / 2 ^ 99 := by
      rw [show (P + Q) / 2 ^ 100 = 1 / 2 * (P + Q) / 2 ^ 99 by ring]
      exact div_le_div_of_nonneg_right (mul_le_mul_of_nonneg_right k0 D0.le) (by positivity)
    have k4 : κ * (13 * (P + Q) + 20 * |r|) / 2 ^ 52 / 2 ^ 53 + κ * (P + Q) / 2 ^ 99 ≤ κ * (1 * (P + Q) + 1 * |r|) / 2 ^ 52 := by
      have : κ * (1 * (P + Q) + 1 * |r|) / 2 ^ 52 - (κ * (13 * (P + Q) + 20 * |r|) / 2 ^ 52 / 2 ^ 53 + κ * (P + Q) / 2 ^ 99) =
        κ * ((P + Q) * (1 / 2 ^ 52 - 13 / 2 ^ 52 / 2 ^ 53 - 1 / 2 ^ 99) + |r| * (1 / 2 ^ 52 - 20 / 2 ^ 52 / 2 ^ 53)) := by ring
      have : 0 ≤ κ * ((P + Q) * (1 / 2 ^ 52 - 13 / 2 ^ 52 / 2 ^ 53 - 1 / 2 ^ 99) + |r| * (1 / 2 ^ 52 - 20 / 2 ^ 52 / 2 ^ 53)) :=
        mul_nonneg (by linarith) (add_nonneg (mul_nonneg D0.le (by norm_num)) (mul_nonneg r0 (by norm_num)))
      linarith
    have e1 : (|(x : ℝ) + r| + κ * (13 * (P + Q) + 20 * |r|) / 2 ^ 52) / 2 ^ 53 = |(x : ℝ) + r| / 2 ^ 53 + κ * (13 * (P + Q) + 20 * |r|) / 2 ^ 52 / 2 ^ 53 := by ring
    have e2 : κ * (14 * (P + Q) + 21 * |r|) / 2 ^ 52 = κ * (13 * (P + Q) + 20 * |r|) / 2 ^ 52 + κ * (1 * (P + Q) + 1 * |r|) / 2 ^ 52 := by ring
    linarith
  obtain ⟨w1, w2⟩ := last (x := c.x) (u := -ux) (r := -((((a.y : ℝ) - c.y) * (((b.x : ℝ) - c.x) * (b.x - c.x) + (b.y - c.y) * (b.y - c.y)) - (((a.x : ℝ) - c.x) * (a.x - c.x) + (a.y - c.y) * (a.y - c.y)) * (b.y - c.y)) / (2 * δ)))
    hc.2.2.1 (by rw [abs_neg]; exact rat bx) (by
      rw [abs_neg]
      convert u2 using 1
      rw [← abs_neg]; congr 1; push_cast; ring)
  obtain ⟨z1, z2⟩ := last hc.2.2.2 (rat by') v2
  refine ⟨⟨near (c.x + -ux), near (c.y + uy), 0, 0⟩, ?_, ?_⟩
  · show ({ Coord.default with x := _, y := _ } : Coord (B64 sq hy)) = _
    dsimp only
    simp only [xB64, yB64]
    have ed' : (lit 2 : B64 sq hy) *. Triangle.det2 ((Fl.fin a.x : B64 sq hy) -. Fl.fin c.x) (Fl.fin a.y -. Fl.fin c.y) (Fl.fin b.x -. Fl.fin c.x) (Fl.fin b.y -. Fl.fin c.y) = Fl.fin dn := ed
    rw [ed', ex, ey, u1, v1, z1]
    have : (Fl.fin c.x : B64 sq hy) -. Fl.fin ux = Fl.fin (near (c.x + -ux)) := w1
    rw [this]
    rfl
  · intro o oa ob
    obtain ⟨c1, c2⟩ := chord_le oa
    obtain ⟨c3, c4⟩ := chord_le ob
    obtain ⟨r1, r2⟩ := abs_le_dist o (realPt c)
    have hP : P ≤ 2 * dist o (realPt c) := by rw [← eP]; exact max_le c1 c2
    have hQ : Q ≤ 2 * dist o (realPt c) := by rw [← eQ]; exact max_le c3 c4
    have sa := congrArg (· ^ 2) oa
    have sb := congrArg (· ^ 2) ob
    simp only [Spec.dist_sq] at sa sb
    generalize dist o (realPt c) = R at *
    simp only [realPt] at sa sb r1 r2
    have Ex : -((((a.y : ℝ) - c.y) * (((b.x : ℝ) - c.x) * (b.x - c.x) + (b.y - c.y) * (b.y - c.y)) - (((a.x : ℝ) - c.x) * (a.x - c.x) + (a.y - c.y) * (a.y - c.y)) * (b.y - c.y)) / (2 * δ)) = o.x - c.x := by
      rw [← neg_div, div_eq_iff (mul_ne_zero two_ne_zero hd0), ← eδ']
      linear_combination ((b.y : ℝ) - c.y) * sa - ((a.y : ℝ) - c.y) * sb
    have Ey : (((a.x : ℝ) - c.x) * (((b.x : ℝ) - c.x) * (b.x - c.x) + (b.y - c.y) * (b.y - c.y)) - (((a.x : ℝ) - c.x) * (a.x - c.x) + (a.y - c.y) * (a.y - c.y)) * (b.x - c.x)) / (2 * δ) = o.y - c.y := by
      rw [div_eq_iff (mul_ne_zero two_ne_zero hd0), ← eδ']
      linear_combination ((a.x : ℝ) - c.x) * sb - ((b.x : ℝ) - c.x) * sa
    rw [Ex, show (c.x : ℝ) + (o.x - c.x) = o.x by ring] at w2
    rw [Ey, show (c.y : ℝ) + (o.y - c.y) = o.y by ring] at z2
    have R0 : 0 ≤ R := (abs_nonneg _).trans r1
    have fin : ∀ {r : ℝ}, |r| ≤ R → κ * (14 * (P + Q) + 21 * |r|) / 2 ^ 52 ≤ κ * R / 2 ^ 45 := by
      intro r hr
      have : κ * (14 * (P + Q) + 21 * |r|) ≤ κ * (128 * R) := mul_le_mul_of_nonneg_left (by linarith) (by linarith)
      calc _ ≤ κ * (128 * R) / 2 ^ 52 := div_le_div_of_nonneg_right this (by positivity)
        _ = _ := by ring
    exact ⟨w2.trans (add_le_add le_rfl (fin r1)), z2.trans (add_le_add le_rfl (fin r2))⟩

/-! ## Circumradius -/

theorem det_sides (o a b : Coord ℚ) : |((det o a b : ℚ) : ℝ)| ≤ dist (realPt o) (realPt a) * dist (realPt o) (realPt b) := by
  unfold Spec.dist
  rw [← Real.sqrt_mul (by positivity)]
  apply Real.abs_le_sqrt
  have e : ((det o a b : ℚ) : ℝ) = ((a.x : ℝ) - o.x) * (b.y - o.y) - (a.y - o.y) * (b.x - o.x) := by unfold det; push_cast; ring
  rw [e]
  simp only [realPt]
  nlinarith [sq_nonneg (((a.x : ℝ) - o.x) * (b.x - o.x) + (a.y - o.y) * (b.y - o.y))]

theorem dist_extent (a b : Coord ℚ) : dist (realPt a) (realPt b) ≤ 2 * extent a b ∧ extent a b ≤ dist (realPt a) (realPt b) := by
  constructor
  · apply dist_tie
    constructor
    · simp only [realPt]; rw [abs_sub_comm]; exact extent_x a b
    · simp only [realPt]; rw [abs_sub_comm]; exact extent_y a b
  · obtain ⟨h1, h2⟩ := abs_le_dist (realPt a) (realPt b)
    simp only [realPt] at h1 h2
    rw [abs_sub_comm] at h1 h2
    exact max_le h1 h2

/-- C124: the circumradius, when the corner at the first vertex is not too flat, has relative error at most κ/2^45. -/
theorem C124_circumradius {ε : ℝ} (lib : Lib64 sq hy ε) (hε : ε ≤ 1 / 2 ^ 52) {κ M : ℝ} (hκ : κ ≤ 2 ^ 46) (hM : Mid 200 M) {a b c : Coord ℚ} (ha : Ordinary M a)
    (hb : Ordinary M b) (hc : Ordinary M c) (hk : Corner κ a b c) :
    ∃ u : ℚ, Triangle.circumradius (toB64 a : Coord (B64 sq hy)) (toB64 b) (toB64 c) = Fl.fin u ∧
      |(u : ℝ) - Triangle.circumradius (realPt a) (realPt b) (realPt c)| ≤ κ * Triangle.circumradius (realPt a) (realPt b) (realPt c) / 2 ^ 45 := by
  have k0 := hk.half_le
  have mP := extent_mid hM ha.1 hb.1 hk.first
  have mQ := extent_mid hM ha.1 hc.1 hk.second
  have fl := hk.flat
  have hd0 : ((det a b c : ℚ) : ℝ) ≠ 0 := by exact_mod_cast hk.ne
  have a0 : 0 < |((det a b c : ℚ) : ℝ)| := abs_pos.mpr hd0
  obtain ⟨X1, X2⟩ := dist_extent a b
  obtain ⟨Z1, Z2⟩ := dist_extent a c
  rw [Spec.dist_comm (realPt a) (realPt c)] at Z1 Z2
  have Y1 := det_sides b c a
  have Y2 := det_sides c a b
  have cy1 : det b c a = det a b c := by unfold det; ring
  have cy2 : det c a b = det a b c := by unfold det; ring
  rw [cy1, Spec.dist_comm (realPt b) (realPt a)] at Y1
  rw [cy2, Spec.dist_comm (realPt c) (realPt b)] at Y2
  have sx := side_sc lib hε hM ha hb (S := dist (realPt a) (realPt b)) le_rfl
  have sy := side_sc lib hε hM hb hc (S := dist (realPt b) (realPt c)) le_rfl
  have sz := side_sc lib hε hM hc ha (S := dist (realPt c) (realPt a)) le_rfl
  have bX := dist_big hM ha.1 hb.1
  have bY := dist_big hM hb.1 hc.1
  have bZ := dist_big hM hc.1 ha.1
  -- the area
  have d : ∀ {x y : ℚ} {N : ℝ}, IsF64 x → IsF64 y → |(y : ℝ) - x| ≤ N → Mid 201 N → Sc 1 N ((Fl.fin y : B64 sq hy) -. Fl.fin x) (y - x) := fun fx fy hN mN =>
    sc_diff fx fy hN (mN.mono (by norm_num))
  have mm := mQ.mul mP
  have mm' := mP.mul mQ
  have p1 := (d ha.1.1 hc.1.1 (extent_x a c) mQ).mul (d ha.1.2.1 hb.1.2.1 (extent_y a b) mP) (by norm_num) (by norm_num) (by norm_num) (by norm_num) (mm.mono (by norm_num))
  have p2 := (d ha.1.1 hb.1.1 (extent_x a b) mP).mul (d ha.1.2.1 hc.1.2.1 (extent_y a c) mQ) (by norm_num) (by norm_num) (by norm_num) (by norm_num) (mm'.mono (by norm_num))
  have s1 := p1.sub p2 le_rfl le_rfl (by norm_num) (by norm_num) ((mm.add mm').mono (by norm_num))
  have eh : (extent a c * extent a b + extent a b * extent a c) / ((2 : ℚ) : ℝ) = extent a b * extent a c := by push_cast; ring
  have s2 := (s1.scale_down (d := 2) (by norm_num) (by norm_num) (by rw [eh]; exact mm'.mono (by norm_num))).abs
  rw [eh] at s2
  have ed : |(((c.x : ℝ) - a.x) * (b.y - a.y) - (b.x - a.x) * (c.y - a.y)) / ((2 : ℚ) : ℝ)| = |((det a b c : ℚ) : ℝ)| / 2 := by
    rw [abs_div, ← abs_neg, show -(((c.x : ℝ) - a.x) * (b.y - a.y) - (b.x - a.x) * (c.y - a.y)) = ((det a b c : ℚ) : ℝ) by unfold det; push_cast; ring]
    norm_num
  rw [ed] at s2
  have eA : Triangle.area (toB64 a : Coord (B64 sq hy)) (toB64 b) (toB64 c) = Flt.abs ((((Fl.fin c.x : B64 sq hy) -. Fl.fin a.x) *. (Fl.fin b.y -. Fl.fin a.y) -.
      (Fl.fin b.x -. Fl.fin a.x) *. (Fl.fin c.y -. Fl.fin a.y)) /. Fl.fin 2) := by rw [← lit64_two' (sq := sq) (hy := hy)]; rfl
  have eR : Triangle.circumradius (realPt a) (realPt b) (realPt c) =
      dist (realPt a) (realPt b) * dist (realPt b) (realPt c) * dist (realPt c) (realPt a) / (2 * |((det a b c : ℚ) : ℝ)|) := by
    have ar := (C41_signed_area (realPt a) (realPt b) (realPt c)).2.2.2.2.2
    rw [det_real] at ar
    unfold Triangle.circumradius
    simp only [distance_eq, real_toFlt, exact_mul, exact_div, ar]
    have ne : (|((det a b c : ℚ) : ℝ)| / 2 ==. (lit 0 : ℝ)) = false := by
      have : |((det a b c : ℚ) : ℝ)| / 2 ≠ ((0 : ℚ) : ℝ) := by push_cast; linarith [a0]
      exact decide_eq_false this
    rw [ne, if_neg (by simp)]
    congr 1
    show ((4 : ℚ) : ℝ) * _ = _
    push_cast
    ring
  rw [eR]
  unfold Triangle.circumradius
  dsimp only
  rw [eA]
  generalize extent a b = P at *
  generalize extent a c = Q at *
  generalize dist (realPt a) (realPt b) = X at *
  generalize dist (realPt b) (realPt c) = Y at *
  generalize dist (realPt c) (realPt a) = Z at *
  generalize |((det a b c : ℚ) : ℝ)| = δ at *
  have P0 := mP.pos
  have Q0 := mQ.pos
  have X0 : 0 < X := lt_of_lt_of_le P0 X2
  have Z0 : 0 < Z := lt_of_lt_of_le Q0 Z2
  have κ0 : 0 < κ := by linarith
  have Y0 : 0 < Y := by
    by_contra n
    have : Y * X ≤ 0 := mul_nonpos_of_nonpos_of_nonneg (not_lt.mp n) X0.le
    linarith
  have mX : Mid 202 X := ⟨(mP.mono (by norm_num)).1.trans X2, bX⟩
  have mZ : Mid 202 Z := ⟨(mQ.mono (by norm_num)).1.trans Z2, bZ⟩
  have mY : Mid 260 Y := by
    refine ⟨?_, bY.trans (pow_le_pow_right₀ (by norm_num) (by norm_num))⟩
    have h1 : P * Q ≤ κ * (Y * X) := fl.trans (mul_le_mul_of_nonneg_left Y1 κ0.le)
    have h2 : κ * (Y * X) ≤ κ * (Y * (2 * P)) := mul_le_mul_of_nonneg_left (mul_le_mul_of_nonneg_left X1 Y0.le) κ0.le
    have h3 : Q ≤ 2 * κ * Y := le_of_mul_le_mul_left (show P * Q ≤ P * (2 * κ * Y) by linarith) P0
    have h4 : 2 * κ * Y ≤ 2 * 2 ^ 46 * Y := mul_le_mul_of_nonneg_right (mul_le_mul_of_nonneg_left hκ (by norm_num)) Y0.le
    have h5 := mQ.1
    rw [show (260 : ℕ) = 201 + 59 from rfl, pow_add, ← div_div, div_le_iff₀ (by positivity)]
    have h6 : 2 * 2 ^ 46 * Y ≤ Y * 2 ^ 59 := by
      rw [mul_comm Y]; exact mul_le_mul_of_nonneg_right (by norm_num) Y0.le
    linarith
  obtain ⟨n, n1, -, n3⟩ := (sx.mul sy (by norm_num) (by norm_num) (by norm_num) (by norm_num) ((mX.mul mY).mono (by norm_num))).mul sz (by norm_num) (by norm_num)
    (by norm_num) (by norm_num) (((mX.mul mY).mul mZ).mono (by norm_num))
  have four : Sc 0 4 (lit 4 : B64 sq hy) 4 := ⟨4, lit4_64, by norm_num, by norm_num⟩
  have m4 : Mid 2 (4 : ℝ) := ⟨by norm_num, by norm_num⟩
  obtain ⟨dn, d1, -, d3⟩ := four.mul s2 (by norm_num) (by norm_num) (by norm_num) (by norm_num) ((m4.mul mm').mono (by norm_num))
  obtain ⟨ar, e1, -, r1⟩ := s2
  rw [e1] at d1 ⊢
  have kd : κ * δ / 2 ^ 52 ≤ δ / 64 := by
    rw [div_le_iff₀ (by positivity)]
    have := mul_le_mul_of_nonneg_right hκ a0.le
    linarith
  have arne : ar ≠ 0 := by
    rintro rfl
    have t : (1 + 1 + 2 + 1 + 1) * (P * Q) / 2 ^ 52 ≤ 6 * (κ * δ / 2 ^ 52) := by
      rw [show (1 + 1 + 2 + 1 + 1) * (P * Q) / 2 ^ 52 = 6 * (P * Q / 2 ^ 52) by ring]
      exact mul_le_mul_of_nonneg_left (div_le_div_of_nonneg_right fl (by positivity)) (by norm_num)
    rw [Rat.cast_zero, zero_sub, abs_neg, abs_of_pos (by linarith)] at r1
    linarith
  have zz : (lit 0 : B64 sq hy) = Fl.fin 0 := rnd_of_f64 (f64_of (by decide +kernel))
  have br : ((Fl.fin ar : B64 sq hy) ==. lit 0) = false := by rw [zz]; exact decide_eq_false arne
  rw [br, if_neg (by simp), n1, d1]
  obtain ⟨N, eN⟩ : ∃ N, X * Y * Z = N := ⟨_, rfl⟩
  rw [eN] at n3 ⊢
  have N0 : 0 < N := by rw [← eN]; positivity
  obtain ⟨R, eR'⟩ : ∃ R, N / (2 * δ) = R := ⟨_, rfl⟩
  have eRN : N = R * (2 * δ) := by rw [← eR']; field_simp
  have R0 : 0 < R := by rw [← eR']; positivity
  have e2 : |2 * δ| = 2 * δ := abs_of_pos (by linarith)
  have hv : |(n : ℝ) - N| ≤ 16 * κ / 2 ^ 52 * (2 * R) * |2 * δ| := by
    rw [e2, show 16 * κ / 2 ^ 52 * (2 * R) * (2 * δ) = 32 * κ * (R * (2 * δ)) / 2 ^ 52 by ring, ← eRN]
    refine n3.trans (div_le_div_of_nonneg_right (mul_le_mul_of_nonneg_right ?_ N0.le) (by positivity))
    linarith
  have hw : |(dn : ℝ) - 2 * δ| ≤ 16 * κ / 2 ^ 52 * |2 * δ| := by
    rw [e2, show (2 : ℝ) * δ = 4 * (δ / 2) by ring]
    refine d3.trans ?_
    rw [show 16 * κ / 2 ^ 52 * (4 * (δ / 2)) = 32 * (κ * δ) / 2 ^ 52 by ring, show (0 + (1 + 1 + 2 + 1 + 1) + 2) * (4 * (P * Q)) / 2 ^ 52 = 32 * (P * Q) / 2 ^ 52 by ring]
    exact div_le_div_of_nonneg_right (mul_le_mul_of_nonneg_left fl (by norm_num)) (by positivity)
  have t1 : 16 * κ / 2 ^ 52 ≤ 1 / 4 := by
    rw [div_le_iff₀ (by positivity)]
    refine (mul_le_mul_of_nonneg_left hκ (by norm_num)).trans (by norm_num)
  obtain ⟨d0, q⟩ := quot_close (by linarith) hv hw t1
  rw [eR', abs_of_pos R0] at q
  rw [eR']
  have q' : |((n / dn : ℚ) : ℝ) - R| ≤ 64 * κ * R / 2 ^ 52 := q.trans (le_of_eq (by ring))
  have q2 : 64 * κ * R / 2 ^ 52 ≤ R := by
    rw [show 64 * κ * R / 2 ^ 52 = 64 * κ / 2 ^ 52 * R by ring]
    have : 64 * κ / 2 ^ 52 ≤ 1 := by linarith
    calc _ ≤ 1 * R := mul_le_mul_of_nonneg_right this R0.le
      _ = R := one_mul R
  have q3 : |((n / dn : ℚ) : ℝ)| ≤ 2 * R := by
    have := abs_sub_abs_le_abs_sub ((n / dn : ℚ) : ℝ) R
    rw [abs_of_pos R0] at this
    linarith
  -- the size of the radius
  have lowR : X / 2 ≤ R := by
    rw [← eR', ← eN, div_le_div_iff₀ (by norm_num) (by linarith)]
    have := mul_le_mul_of_nonneg_left Y2 (show (0 : ℝ) ≤ 2 * X by linarith)
    linarith
  have highR : R ≤ 2 * κ * Y := by
    rw [← eR', div_le_iff₀ (by linarith), ← eN]
    have h1 : X * Z ≤ 2 * P * (2 * Q) := mul_le_mul X1 Z1 Z0.le (by linarith)
    have h2 : X * Z ≤ 4 * (κ * δ) := by linarith
    have := mul_le_mul_of_nonneg_right h2 Y0.le
    linarith
  have big : |((n / dn : ℚ) : ℝ)| ≤ 2 ^ 1000 := by
    have h1 : 2 * κ * Y ≤ 2 * 2 ^ 46 * Y := mul_le_mul_of_nonneg_right (mul_le_mul_of_nonneg_left hκ (by norm_num)) Y0.le
    have h2 : |((n / dn : ℚ) : ℝ)| ≤ 2 ^ 48 * Y := by
      rw [show (2 : ℝ) ^ 48 * Y = 2 * (2 * 2 ^ 46 * Y) by ring]; linarith
    have m48 : Mid 48 ((2 : ℝ) ^ 48) := ⟨by norm_num, le_rfl⟩
    exact h2.trans ((m48.mul mY).mono (show 48 + 260 ≤ 1000 by norm_num)).2
  refine ⟨near (n / dn), div_fin64 d0 rfl (near_small big), ?_⟩
  have k1 := near_err_real (n / dn)
  have t2 : (2 : ℝ) ^ (-1075 : ℤ) ≤ X / 2 ^ 100 := tiny_mid mX (by norm_num)
  have t3 : X / 2 ^ 100 ≤ 2 * R / 2 ^ 100 := div_le_div_of_nonneg_right (by linarith) (by positivity)
  have tri := abs_sub_le ((near (n / dn) : ℚ) : ℝ) ((n / dn : ℚ) : ℝ) R
  have k2 : |((n / dn : ℚ) : ℝ)| / 2 ^ 53 ≤ 2 * R / 2 ^ 53 := div_le_div_of_nonneg_right q3 (by positivity)
  have k3 : 2 * R / 2 ^ 53 + 2 * R / 2 ^ 100 ≤ 1 / 2 * R * (64 / 2 ^ 52) := by
    have : 1 / 2 * R * (64 / 2 ^ 52) - (2 * R / 2 ^ 53 + 2 * R / 2 ^ 100) = R * (32 / 2 ^ 52 - 2 / 2 ^ 53 - 2 / 2 ^ 100) := by ring
    have : 0 ≤ R * (32 / 2 ^ 52 - 2 / 2 ^ 53 - 2 / 2 ^ 100) := mul_nonneg R0.le (by norm_num)
    linarith
  have k4 : 1 / 2 * R * (64 / 2 ^ 52) ≤ κ * R * (64 / 2 ^ 52) := mul_le_mul_of_nonneg_right (mul_le_mul_of_nonneg_right k0 R0.le) (by positivity)
  have fin : κ * R / 2 ^ 45 = 64 * κ * R / 2 ^ 52 + κ * R * (64 / 2 ^ 52) := by ring
  linarith

/-! ## Heights inside a triangle, area in space -/

/-- A product with a factor known only roughly. -/
theorem Sc.mul_long {e₁ e₂ B₁ B₂ : ℝ} {f g : B64 sq hy} {x y : ℝ} (h : Sc e₁ B₁ f x) (k : Sc e₂ B₂ g y) (p₁ : 0 ≤ e₁) (p₂ : 0 ≤ e₂) (l₁ : e₁ ≤ 2 ^ 49) (l₂ : e₂ ≤ 1)
    (hB : Mid 1000 (B₁ * B₂)) : Sc (e₁ + e₂ + 2) (B₁ * B₂) (f *. g) (x * y) := by
  obtain ⟨v, rfl, a1, a2⟩ := h
  obtain ⟨w, rfl, b1, b2⟩ := k
  have A0 : 0 ≤ B₁ := (abs_nonneg _).trans a1
  have B0 : 0 ≤ B₂ := (abs_nonneg _).trans b1
  have s1 : |x * y| ≤ B₁ * B₂ := by rw [abs_mul]; exact mul_le_mul a1 b1 (abs_nonneg _) A0
  have s2 : |((v * w : ℚ) : ℝ) - x * y| ≤ (e₁ + e₂ + 1) * (B₁ * B₂) / 2 ^ 52 := by
    have t : ((v * w : ℚ) : ℝ) - x * y = (v - x) * y + x * (w - y) + (v - x) * (w - y) := by push_cast; ring
    rw [t]
    have u1 : |(v - x) * y| ≤ e₁ * B₁ / 2 ^ 52 * B₂ := by rw [abs_mul]; exact mul_le_mul a2 b1 (abs_nonneg _) (by positivity)
    have u2 : |x * (w - y)| ≤ B₁ * (e₂ * B₂ / 2 ^ 52) := by rw [abs_mul]; exact mul_le_mul a1 b2 (abs_nonneg _) A0
    have u3 : |(v - x) * (w - y)| ≤ e₁ * B₁ / 2 ^ 52 * (e₂ * B₂ / 2 ^ 52) := by rw [abs_mul]; exact mul_le_mul a2 b2 (abs_nonneg _) (by positivity)
    have u4 : e₁ * e₂ ≤ 2 ^ 49 * 1 := mul_le_mul l₁ l₂ p₂ (by norm_num)
    have u5 : e₁ * B₁ / 2 ^ 52 * (e₂ * B₂ / 2 ^ 52) ≤ B₁ * B₂ / 2 ^ 52 := by
      have : e₁ * B₁ / 2 ^ 52 * (e₂ * B₂ / 2 ^ 52) = (e₁ * e₂) / 2 ^ 52 * (B₁ * B₂ / 2 ^ 52) := by ring
      rw [this]
      have : e₁ * e₂ / 2 ^ 52 ≤ 1 := by rw [div_le_one (by norm_num)]; linarith
      have z : 0 ≤ B₁ * B₂ / 2 ^ 52 := by positivity
      calc _ ≤ 1 * (B₁ * B₂ / 2 ^ 52) := mul_le_mul_of_nonneg_right this z
        _ = _ := one_mul _
    have r : (e₁ + e₂ + 1) * (B₁ * B₂) / 2 ^ 52 = e₁ * B₁ / 2 ^ 52 * B₂ + B₁ * (e₂ * B₂ / 2 ^ 52) + B₁ * B₂ / 2 ^ 52 := by ring
    have := abs_add_le ((v - x) * y + x * (w - y)) ((v - x) * (w - y))
    have := abs_add_le ((v - x) * y) (x * (w - y))
    linarith
  obtain ⟨c1, c2⟩ := sc_round_long s1 s2 (by linarith) hB
  refine ⟨near (v * w), (rnd_fin_iff _ _).mpr ⟨rfl, c1⟩, s1, ?_⟩
  convert c2 using 2
  ring

/-- A computed weight. -/
theorem weight_close {κ Q : ℝ} (hκ : κ ≤ 2 ^ 44) (k0 : 1 / 2 ≤ κ) {f g : B64 sq hy} {N δ w : ℝ} (hn : Sc 5 (Q + Q) f N) (hd : Sc 5 (Q + Q) g δ) (h0 : δ ≠ 0)
    (hQ : Q ≤ κ * |δ|) (hw : N / δ = w) (w1 : |w| ≤ 1) : Sc (30 * κ) 1 (f /. g) w := by
  obtain ⟨n, rfl, -, n3⟩ := hn
  obtain ⟨d, rfl, -, d3⟩ := hd
  have a0 : 0 < |δ| := abs_pos.mpr h0
  have bd : 5 * (Q + Q) / 2 ^ 52 ≤ 10 * κ / 2 ^ 52 * |δ| := by
    rw [show 5 * (Q + Q) / 2 ^ 52 = 10 * Q / 2 ^ 52 by ring, show 10 * κ / 2 ^ 52 * |δ| = 10 * (κ * |δ|) / 2 ^ 52 by ring]
    exact div_le_div_of_nonneg_right (mul_le_mul_of_nonneg_left hQ (by norm_num)) (by positivity)
  have t1 : 10 * κ / 2 ^ 52 ≤ 1 / 16 := by
    rw [div_le_iff₀ (by positivity)]
    refine (mul_le_mul_of_nonneg_left hκ (by norm_num)).trans (by norm_num)
  obtain ⟨d0, q⟩ := quot_close h0 (C := 1) ((n3.trans bd).trans (le_of_eq (by ring))) (d3.trans bd) (by linarith)
  rw [hw] at q
  have κ0 : 0 < κ := by linarith
  have q' : |((n / d : ℚ) : ℝ) - w| ≤ 80 / 3 * κ / 2 ^ 52 := by
    refine q.trans ?_
    have : 4 / 3 * (10 * κ / 2 ^ 52) * (1 + |w|) ≤ 4 / 3 * (10 * κ / 2 ^ 52) * 2 := mul_le_mul_of_nonneg_left (by linarith) (by positivity)
    linarith
  have q2 : |((n / d : ℚ) : ℝ)| ≤ 2 := by
    have := abs_sub_abs_le_abs_sub ((n / d : ℚ) : ℝ) w
    have : 80 / 3 * κ / 2 ^ 52 = 8 / 3 * (10 * κ / 2 ^ 52) := by ring
    linarith
  have big : |((n / d : ℚ) : ℝ)| ≤ 2 ^ 1000 := q2.trans (by
    calc (2 : ℝ) = 2 ^ 1 := by norm_num
      _ ≤ _ := pow_le_pow_right₀ (by norm_num) (by norm_num))
  refine ⟨near (n / d), div_fin64 d0 rfl (near_small big), w1, ?_⟩
  have k1 := near_err_real (n / d)
  have t2 : (2 : ℝ) ^ (-1075 : ℤ) ≤ 1 / 2 ^ 100 := tiny_le (by norm_num)
  have tri := abs_sub_le ((near (n / d) : ℚ) : ℝ) ((n / d : ℚ) : ℝ) w
  have k2 : |((n / d : ℚ) : ℝ)| / 2 ^ 53 ≤ 2 / 2 ^ 53 := div_le_div_of_nonneg_right q2 (by positivity)
  have k3 : (2 : ℝ) / 2 ^ 53 + 1 / 2 ^ 100 ≤ 10 / 3 * (1 / 2) / 2 ^ 52 := by norm_num
  have k4 : 10 / 3 * (1 / 2) / 2 ^ 52 ≤ 10 / 3 * κ / 2 ^ 52 := div_le_div_of_nonneg_right (mul_le_mul_of_nonneg_left k0 (by norm_num)) (by positivity)
  have fin : 30 * κ * 1 / 2 ^ 52 = 80 / 3 * κ / 2 ^ 52 + 10 / 3 * κ / 2 ^ 52 := by ring
  linarith

/-- C124: the height interpolated at a point of a triangle whose extents are at most `D`, with D² at most κ times the determinant: within κ/2^44 of the largest height. -/
theorem C124_interpolate {κ M D H : ℝ} (hκ : κ ≤ 2 ^ 44) (hM : Mid 200 M) (hD : Mid 201 D) (hH : Mid 200 H) {p a b c : Coord ℚ} (hp : Sized M p) (ha : Sized M a) (hb : Sized M b)
    (hc : Sized M c) (hab : extent a b ≤ D) (hac : extent a c ≤ D) (hd : det a b c ≠ 0) (fl : D * D ≤ κ * |((det a b c : ℚ) : ℝ)|)
    (za : IsF64 a.z ∧ |(a.z : ℝ)| ≤ H) (zb : IsF64 b.z ∧ |(b.z : ℝ)| ≤ H) (zc : IsF64 c.z ∧ |(c.z : ℝ)| ≤ H)
    {r s t : ℚ} (r0 : 0 ≤ r) (s0 : 0 ≤ s) (t0 : 0 ≤ t) (sum : r + s + t = 1) (px : p.x = r * a.x + s * b.x + t * c.x) (py : p.y = r * a.y + s * b.y + t * c.y) :
    ∃ v : ℚ, Triangle.interpolateZ (zB64 p : Coord (B64 sq hy)) (zB64 a) (zB64 b) (zB64 c) = Fl.fin v ∧
      |(v : ℝ) - (r * a.z + s * b.z + t * c.z)| ≤ κ * H / 2 ^ 44 := by
  have hd0 : ((det a b c : ℚ) : ℝ) ≠ 0 := by exact_mod_cast hd
  have a0 : 0 < |((det a b c : ℚ) : ℝ)| := abs_pos.mpr hd0
  have D0 := hD.pos
  have H0 := hH.pos
  have e0 : ∀ p q : Coord ℚ, 0 ≤ extent p q := fun p q => (abs_nonneg _).trans (extent_x p q)
  have k0 : 1 / 2 ≤ κ := by
    have h1 := det_extents a b c
    have h2 : extent a b * extent a c ≤ D * D := mul_le_mul hab hac (e0 a c) D0.le
    by_contra k
    have := mul_lt_mul_of_pos_right (not_le.mp k) a0
    linarith
  have rs : (s : ℝ) + t ≤ 1 := by
    have : s + t ≤ 1 := by linarith
    exact_mod_cast this
  have sR : (0 : ℝ) ≤ s := by exact_mod_cast s0
  have tR : (0 : ℝ) ≤ t := by exact_mod_cast t0
  have er : (r : ℝ) = 1 - s - t := by
    have : r = 1 - s - t := by linarith
    rw [this]; push_cast; ring
  have pxR : (p.x : ℝ) = r * a.x + s * b.x + t * c.x := by rw [px]; push_cast; ring
  have pyR : (p.y : ℝ) = r * a.y + s * b.y + t * c.y := by rw [py]; push_cast; ring
  have inD : ∀ {x y z w : ℝ}, x = r * y + s * z + t * w → |z - y| ≤ D → |w - y| ≤ D → |x - y| ≤ D := by
    intro x y z w e h1 h2
    rw [show x - y = s * (z - y) + t * (w - y) by rw [e, er]; ring]
    have u1 : |(s : ℝ) * (z - y)| ≤ s * D := by rw [abs_mul, abs_of_nonneg sR]; exact mul_le_mul_of_nonneg_left h1 sR
    have u2 : |(t : ℝ) * (w - y)| ≤ t * D := by rw [abs_mul, abs_of_nonneg tR]; exact mul_le_mul_of_nonneg_left h2 tR
    have u3 := mul_le_mul_of_nonneg_right rs D0.le
    have := abs_add_le ((s : ℝ) * (z - y)) (t * (w - y))
    linarith
  have bx := (extent_x a b).trans hab
  have by' := (extent_y a b).trans hab
  have cx := (extent_x a c).trans hac
  have cy := (extent_y a c).trans hac
  have d : ∀ {x y : ℚ}, IsF64 x → IsF64 y → |(y : ℝ) - x| ≤ D → Sc 1 D ((Fl.fin y : B64 sq hy) -. Fl.fin x) (y - x) := fun fx fy hN => sc_diff fx fy hN (hD.mono (by norm_num))
  have sbx := d ha.1 hb.1 bx
  have sby := d ha.2.1 hb.2.1 by'
  have scx := d ha.1 hc.1 cx
  have scy := d ha.2.1 hc.2.1 cy
  have spx := d ha.1 hp.1 (inD pxR bx cx)
  have spy := d ha.2.1 hp.2.1 (inD pyR by' cy)
  have mm := hD.mul hD
  have sd := sc_cross sbx scy scx sby hD hD (by norm_num)
  have edet : ((b.x : ℝ) - a.x) * (c.y - a.y) - (c.x - a.x) * (b.y - a.y) = ((det a b c : ℚ) : ℝ) := by unfold det; push_cast; ring
  rw [edet] at sd
  have nt := sc_cross scy spx scx spy hD hD (by norm_num)
  have nu := (sby.neg.mul spx (by norm_num) (by norm_num) (by norm_num) (by norm_num) (mm.mono (by norm_num))).add
    (sbx.mul spy (by norm_num) (by norm_num) (by norm_num) (by norm_num) (mm.mono (by norm_num))) le_rfl le_rfl (by norm_num) (by norm_num) ((mm.add mm).mono (by norm_num))
  have nu' := nu.mono (e' := 5) (B' := D * D + D * D) (by norm_num) (by norm_num) le_rfl
  have wt := weight_close hκ k0 nt sd hd0 fl (w := s) (by
    rw [div_eq_iff hd0, ← edet, pxR, pyR, er]; ring) (by rw [abs_of_nonneg sR]; linarith)
  have wu := weight_close hκ k0 nu' sd hd0 fl (w := t) (by
    rw [div_eq_iff hd0, ← edet, pxR, pyR, er]; ring) (by rw [abs_of_nonneg tR]; linarith)
  have m2 := mid_two.mul hH
  have dz : ∀ {x y : ℚ}, IsF64 x → IsF64 y → |(x : ℝ)| ≤ H → |(y : ℝ)| ≤ H → Sc 1 (2 * H) ((Fl.fin y : B64 sq hy) -. Fl.fin x) (y - x) := fun fx fy hx hy' =>
    sc_diff fx fy ((abs_sub _ _).trans (by linarith)) (m2.mono (by norm_num))
  have kl : 30 * κ ≤ 2 ^ 49 := (mul_le_mul_of_nonneg_left hκ (by norm_num)).trans (by norm_num)
  have m1 : Mid 1000 (1 * (2 * H)) := by rw [one_mul]; exact m2.mono (by norm_num)
  have z1 := wt.mul_long (dz za.1 zb.1 za.2 zb.2) (by linarith) (by norm_num) kl le_rfl m1
  have z2 := wu.mul_long (dz za.1 zc.1 za.2 zc.2) (by linarith) (by norm_num) kl le_rfl m1
  rw [one_mul] at z1 z2
  have mh := (hH.mono (show 200 ≤ 1 + 200 by norm_num)).add m2
  have y1 := (sc_exact (sq := sq) (hy := hy) za.2).add_long z1 (e := 30 * κ + 1 + 2) (by linarith) le_rfl (by linarith) (mh.mono (by norm_num))
  obtain ⟨v, v1, -, v3⟩ := y1.add_long z2 (e := 30 * κ + 1 + 2 + 1) le_rfl (by linarith) (by linarith) ((mh.add (m2.mono (by norm_num))).mono (by norm_num))
  refine ⟨v, v1, ?_⟩
  rw [show (r : ℝ) * a.z + s * b.z + t * c.z = a.z + s * (b.z - a.z) + t * (c.z - a.z) by rw [er]; ring]
  refine v3.trans ?_
  rw [show κ * H / 2 ^ 44 = 256 * κ * H / 2 ^ 52 by ring, show (30 * κ + 1 + 2 + 1 + 1) * (H + 2 * H + 2 * H) / 2 ^ 52 = (150 * κ + 25) * H / 2 ^ 52 by ring]
  exact div_le_div_of_nonneg_right (mul_le_mul_of_nonneg_right (by linarith) H0.le) (by positivity)

/-- C124: the area in space, within PQ/2^47, the sides at the first vertex extending at most P and Q. -/
theorem C124_area_3d {ε : ℝ} (lib : Lib64 sq hy ε) (hε : ε ≤ 1 / 2 ^ 52) (hr : SmallRoots sq) {P Q : ℝ} (mP : Mid 140 P) (mQ : Mid 140 Q) {a b c : Coord ℚ}
    (fa : IsF64 a.x ∧ IsF64 a.y ∧ IsF64 a.z) (fb : IsF64 b.x ∧ IsF64 b.y ∧ IsF64 b.z) (fc : IsF64 c.x ∧ IsF64 c.y ∧ IsF64 c.z)
    (hb : |(b.x : ℝ) - a.x| ≤ P ∧ |(b.y : ℝ) - a.y| ≤ P ∧ |(b.z : ℝ) - a.z| ≤ P) (hc : |(c.x : ℝ) - a.x| ≤ Q ∧ |(c.y : ℝ) - a.y| ≤ Q ∧ |(c.z : ℝ) - a.z| ≤ Q) :
    ∃ u : ℚ, Triangle.area3D (p3 a : Coord (B64 sq hy)) (p3 b) (p3 c) = Fl.fin u ∧ |(u : ℝ) - Triangle.area3D (r3 a) (r3 b) (r3 c)| ≤ P * Q / 2 ^ 47 := by
  have mm := mP.mul mQ
  have PQ0 := mm.pos
  have d : ∀ {x y : ℚ} {N : ℝ}, IsF64 x → IsF64 y → |(y : ℝ) - x| ≤ N → Mid 140 N → Sc 1 N ((Fl.fin y : B64 sq hy) -. Fl.fin x) (y - x) := fun fx fy hN mN =>
    sc_diff fx fy hN (mN.mono (by norm_num))
  have ux := d fa.1 fb.1 hb.1 mP
  have uy := d fa.2.1 fb.2.1 hb.2.1 mP
  have uz := d fa.2.2 fb.2.2 hb.2.2 mP
  have vx := d fa.1 fc.1 hc.1 mQ
  have vy := d fa.2.1 fc.2.1 hc.2.1 mQ
  have vz := d fa.2.2 fc.2.2 hc.2.2 mQ
  obtain ⟨x, x1, x2, x3⟩ := sc_cross uy vz uz vy mP mQ (by norm_num)
  obtain ⟨y, y1, y2, y3⟩ := sc_cross uz vx ux vz mP mQ (by norm_num)
  obtain ⟨z, z1, z2, z3⟩ := sc_cross ux vy uy vx mP mQ (by norm_num)
  have e : Triangle.area3D (p3 a : Coord (B64 sq hy)) (p3 b) (p3 c) =
      FltSqrt.sqrt ((Fl.fin x : B64 sq hy) *. Fl.fin x +. Fl.fin y *. Fl.fin y +. Fl.fin z *. Fl.fin z) /. lit 2 := by
    rw [← x1, ← y1, ← z1]; rfl
  have eR : Triangle.area3D (r3 a) (r3 b) (r3 c) = len3 (((b.y : ℝ) - a.y) * (c.z - a.z) - (b.z - a.z) * (c.y - a.y)) (((b.z : ℝ) - a.z) * (c.x - a.x) - (b.x - a.x) * (c.z - a.z))
      (((b.x : ℝ) - a.x) * (c.y - a.y) - (b.y - a.y) * (c.x - a.x)) / 2 := by
    unfold Triangle.area3D r3 len3
    simp only [real_toFlt, exact_add, exact_sub, exact_mul, exact_div, real_sqrt, pow_two]
    norm_num
  rw [e, eR]
  generalize ((b.y : ℝ) - a.y) * (c.z - a.z) - (b.z - a.z) * (c.y - a.y) = X at *
  generalize ((b.z : ℝ) - a.z) * (c.x - a.x) - (b.x - a.x) * (c.z - a.z) = Y at *
  generalize ((b.x : ℝ) - a.x) * (c.y - a.y) - (b.y - a.y) * (c.x - a.x) = Z at *
  have e10 : 5 * (P * Q + P * Q) / 2 ^ 52 = 10 * (P * Q) / 2 ^ 52 := by ring
  have s10 : 10 * (P * Q) / 2 ^ 52 ≤ P * Q := by
    rw [show 10 * (P * Q) / 2 ^ 52 = 10 / 2 ^ 52 * (P * Q) by ring]
    calc _ ≤ 1 * (P * Q) := mul_le_mul_of_nonneg_right (by norm_num) PQ0.le
      _ = _ := one_mul _
  rw [e10] at x3 y3 z3
  have sz : ∀ {x : ℚ} {X : ℝ}, |X| ≤ P * Q + P * Q → |(x : ℝ) - X| ≤ 10 * (P * Q) / 2 ^ 52 → |(x : ℝ)| ≤ 2 ^ 300 := by
    intro x X h1 h2
    have := abs_sub_abs_le_abs_sub (x : ℝ) X
    have h3 : |(x : ℝ)| ≤ 4 * (P * Q) := by linarith
    have m4 : Mid 2 (4 : ℝ) := ⟨by norm_num, by norm_num⟩
    exact h3.trans ((m4.mul mm).mono (by norm_num)).2
  have ex : ∀ x : ℚ, |(x : ℝ) - x| ≤ |(x : ℝ)| / 2 ^ 53 := fun x => by rw [sub_self, abs_zero]; positivity
  obtain ⟨v, v1, v2⟩ := root3_close lib hε hr (ex x) (ex y) (ex z) (sz x2 x3) (sz y2 y3) (sz z2 z3)
  have c1 := len3_close (x : ℝ) y z X Y Z _ x3 y3 z3
  have c2 := len3_le x2 y2 z2
  have c0 := len3_nonneg X Y Z
  have l0 := len3_nonneg (x : ℝ) y z
  rw [v1]
  generalize len3 (x : ℝ) y z = L' at *
  generalize len3 X Y Z = L at *
  have t : (1 : ℝ) / 2 ^ 498 ≤ P * Q / 2 ^ 100 := by
    rw [show (498 : ℕ) = 398 + 100 from rfl, pow_add, ← div_div]
    exact div_le_div_of_nonneg_right (mm.mono (show 140 + 140 ≤ 398 by norm_num)).1 (by positivity)
  have L5 : L' ≤ 6 * (P * Q) := by
    have := (abs_le.mp c1).2
    linarith
  have w1 : |(v : ℝ) - L| ≤ 52 * (P * Q) / 2 ^ 52 := by
    have := abs_sub_le (v : ℝ) L' L
    have h : 11 / 2 ^ 53 * L' ≤ 11 / 2 ^ 53 * (6 * (P * Q)) := mul_le_mul_of_nonneg_left L5 (by positivity)
    have : 52 * (P * Q) / 2 ^ 52 - (11 / 2 ^ 53 * (6 * (P * Q)) + P * Q / 2 ^ 100 + 7 / 4 * (10 * (P * Q) / 2 ^ 52)) = P * Q * (52 / 2 ^ 52 - 66 / 2 ^ 53 - 1 / 2 ^ 100 - 7 / 4 * 10 / 2 ^ 52) := by ring
    have : 0 ≤ P * Q * (52 / 2 ^ 52 - 66 / 2 ^ 53 - 1 / 2 ^ 100 - 7 / 4 * 10 / 2 ^ 52) := mul_nonneg PQ0.le (by norm_num)
    linarith
  have L4 : |L| ≤ 4 * (P * Q) := by rw [abs_of_nonneg c0]; linarith
  have sv : Sc 13 (4 * (P * Q)) (Fl.fin v : B64 sq hy) L := ⟨v, rfl, L4, w1.trans (le_of_eq (by ring))⟩
  have m4 : Mid 2 (4 : ℝ) := ⟨by norm_num, by norm_num⟩
  have eh : 4 * (P * Q) / ((2 : ℚ) : ℝ) = 2 * (P * Q) := by push_cast; ring
  obtain ⟨u, u1, -, u3⟩ := sv.scale_down (d := 2) (by norm_num) (by norm_num) (by rw [eh]; exact (mid_two.mul mm).mono (by norm_num))
  refine ⟨u, by rw [lit64_two' (sq := sq) (hy := hy)]; exact u1, ?_⟩
  rw [eh] at u3
  push_cast at u3
  refine u3.trans ?_
  rw [show P * Q / 2 ^ 47 = 32 * (P * Q) / 2 ^ 52 by ring]
  exact div_le_div_of_nonneg_right (by linarith) (by positivity)

/-! ## Cases -/

/-- C124: the triangle (-134217729, 134217728), (0, 0), (134217727, 134217728) is acute but is called not acute. -/
theorem C124_nearly_right : ∃ a b c : Coord ℚ, (IsF64 a.x ∧ IsF64 a.y) ∧ (IsF64 b.x ∧ IsF64 b.y) ∧ (IsF64 c.x ∧ IsF64 c.y) ∧
    0 < cornerDot a b c ∧ 0 < cornerDot b c a ∧ 0 < cornerDot c a b ∧ Triangle.isAcute (toB64 a : Coord X64) (toB64 b) (toB64 c) = false := by
  refine ⟨Coord.xy (-134217729) 134217728, Coord.xy 0 0, Coord.xy 134217727 134217728, ⟨f64_of (by decide +kernel), f64_of (by decide +kernel)⟩,
    ⟨f64_of (by decide +kernel), f64_of (by decide +kernel)⟩, ⟨f64_of (by decide +kernel), f64_of (by decide +kernel)⟩, ?_, ?_, ?_, by decide +kernel⟩
  all_goals norm_num [cornerDot, Coord.xy]

theorem dyadic_mul (e : ℚ) (k n : ℕ) (m : ℤ) (hn : n ≤ k) (h : e = m / 2 ^ n) : Mul2 (-(k : ℤ)) e := by
  refine ⟨m * 2 ^ (k - n), ?_⟩
  rw [h]
  push_cast
  rw [zpow_neg, ← div_eq_mul_inv, zpow_natCast, div_eq_div_iff (by positivity) (by positivity), mul_assoc, ← pow_add, Nat.sub_add_cancel hn]

/-- A triangle with ordinates on no common coarse grid meets the hypotheses, with κ = 2 at each of its corners. -/
example : let a : Coord ℚ := ⟨1, tenth, 0, 0⟩; let b : Coord ℚ := ⟨tenth, 1, 3, 0⟩; let c : Coord ℚ := ⟨0, 0, tenth, 0⟩
    Mid 200 1 ∧ Ordinary 1 a ∧ Ordinary 1 b ∧ Ordinary 1 c ∧ Corner 2 c a b ∧ Corner 2 a b c ∧ extent a b ≤ 1 ∧ extent a c ≤ 1 ∧ (1 : ℝ) * 1 ≤ 2 * |((det a b c : ℚ) : ℝ)| ∧
    1 / 2 ^ 200 ≤ dist (realPt a) (realPt b) + dist (realPt b) (realPt c) + dist (realPt c) (realPt a) ∧ extent c b * extent c a / 2 ^ 48 ≤ |cornerDot b c a| := by
  intro a b c
  have ord : ∀ {e : Coord ℚ}, (rnd e.x = .fin e.x ∧ rnd e.y = .fin e.y ∧ |e.x| ≤ 1 ∧ |e.y| ≤ 1) → Mul2 (-((1000 : ℕ) : ℤ)) e.x → Mul2 (-((1000 : ℕ) : ℤ)) e.y → Ordinary 1 e :=
    fun h k l => ⟨⟨f64_of h.1, f64_of h.2.1, by exact_mod_cast h.2.2.1, by exact_mod_cast h.2.2.2⟩, by simpa using k, by simpa using l⟩
  have one : (1 : ℝ) / 2 ^ 200 ≤ 1 / 2 := one_div_le_one_div_of_le (by norm_num) (by
    calc (2 : ℝ) = 2 ^ 1 := by norm_num
      _ ≤ _ := pow_le_pow_right₀ (by norm_num) (by norm_num))
  have ext : ∀ {p q : Coord ℚ} {k : ℚ}, max |q.x - p.x| |q.y - p.y| = k → extent p q = k := by
    rintro p q k rfl; unfold extent; push_cast; rfl
  have eca : extent c a = 1 := by rw [ext (k := 1) (by decide +kernel)]; norm_num
  have ecb : extent c b = 1 := by rw [ext (k := 1) (by decide +kernel)]; norm_num
  have eac : extent a c = 1 := by rw [ext (k := 1) (by decide +kernel)]; norm_num
  have eab : extent a b = ((1 - tenth : ℚ) : ℝ) := ext (by decide +kernel)
  have tn : (0 : ℝ) ≤ ((tenth : ℚ) : ℝ) ∧ ((tenth : ℚ) : ℝ) ≤ 1 / 4 := by
    have : (0 : ℚ) ≤ tenth ∧ tenth ≤ 1 / 4 := by decide +kernel
    constructor
    · exact_mod_cast this.1
    · have h : ((tenth : ℚ) : ℝ) ≤ ((1 / 4 : ℚ) : ℝ) := by exact_mod_cast this.2
      push_cast at h; linarith
  have d1 : (1 : ℝ) / 2 ≤ |((det c a b : ℚ) : ℝ)| := by
    have : (1 / 2 : ℚ) ≤ |det c a b| := by decide +kernel
    have : ((1 / 2 : ℚ) : ℝ) ≤ ((|det c a b| : ℚ) : ℝ) := by exact_mod_cast this
    push_cast at this; exact this
  have d2 : (1 : ℝ) / 2 ≤ |((det a b c : ℚ) : ℝ)| := by
    have cyc : ∀ p q r : Coord ℚ, det p q r = det r p q := fun p q r => by unfold det; ring
    rw [cyc a b c]; exact d1
  have pos : (0 : ℝ) < 1 / 2 := by norm_num
  have n1 : det c a b ≠ 0 := by decide +kernel
  have n2 : det a b c ≠ 0 := by decide +kernel
  have cd : (1 : ℝ) / 16 ≤ |cornerDot b c a| := by
    have e : cornerDot b c a = 2 * ((tenth : ℚ) : ℝ) := by simp [cornerDot, a, b, c]; ring
    have : (1 / 16 : ℚ) ≤ tenth := by decide +kernel
    have h : ((1 / 16 : ℚ) : ℝ) ≤ ((tenth : ℚ) : ℝ) := by exact_mod_cast this
    push_cast at h
    rw [e, abs_of_nonneg (by linarith)]
    linarith
  have dd : (1 : ℝ) ≤ dist (realPt c) (realPt a) := by rw [← eca]; exact (dist_extent c a).2
  refine ⟨mid_one.mono (by norm_num), ord (by decide +kernel) (dyadic_mul _ 1000 0 1 (by norm_num) (by norm_num [a])) (dyadic_mul _ 1000 55 3602879701896397 (by norm_num) (by decide +kernel)),
    ord (by decide +kernel) (dyadic_mul _ 1000 55 3602879701896397 (by norm_num) (by decide +kernel)) (dyadic_mul _ 1000 0 1 (by norm_num) (by norm_num [b])),
    ord (by decide +kernel) (dyadic_mul _ 1000 0 0 (by norm_num) (by norm_num [c])) (dyadic_mul _ 1000 0 0 (by norm_num) (by norm_num [c])), ⟨?_, ?_, n1, ?_⟩, ⟨?_, ?_, n2, ?_⟩, ?_, ?_, ?_, ?_, ?_⟩
  · rw [eca]; linarith
  · rw [ecb]; linarith
  · rw [eca, ecb]; linarith
  · rw [eab]; push_cast; linarith
  · rw [eac]; linarith
  · rw [eab, eac]; push_cast; linarith
  · rw [eab]; push_cast; linarith
  · rw [eac]
  · linarith
  · have := Spec.dist_nonneg (realPt a) (realPt b)
    have := Spec.dist_nonneg (realPt b) (realPt c)
    linarith
  · rw [eca, ecb]; norm_num; linarith

end Verif.Props
