import Verif.Props.Segment64
import Verif.Props.Vectors64
import Verif.Props.Angle64
import Verif.Props.Distance3DExact

set_option linter.unusedSectionVars false

/-! # C111: distances in space in double precision -/

namespace Verif.Props
open Flt Verif.Spec Verif.Binary64 Verif.Distance3D

variable {sq : ℚ → Val} {hy : ℚ → ℚ → Val}

/-- A point in space as the program sees it. -/
def p3 (p : Coord ℚ) : Coord (B64 sq hy) := Coord.xyz (Fl.fin p.x) (Fl.fin p.y) (Fl.fin p.z)

/-- The same point with real ordinates. -/
def r3 (p : Coord ℚ) : Coord ℝ := ⟨p.x, p.y, p.z, 0⟩

/-- All three ordinates are integers of `k` bits times `2 ^ g`. -/
def Grid3 (k : ℕ) (g : ℤ) (p : Coord ℚ) : Prop := OrdB k g p.x ∧ OrdB k g p.y ∧ OrdB k g p.z

theorem OrdB.mono {j k : ℕ} {g : ℤ} {x : ℚ} (hjk : j ≤ k) (h : OrdB j g x) : OrdB k g x := by
  obtain ⟨m, hm, hx⟩ := h
  exact ⟨m, hm.trans (pow_le_pow_right₀ (by norm_num) hjk), hx⟩

theorem Grid3.mono {j k : ℕ} {g : ℤ} {p : Coord ℚ} (hjk : j ≤ k) (h : Grid3 j g p) : Grid3 k g p :=
  ⟨h.1.mono hjk, h.2.1.mono hjk, h.2.2.mono hjk⟩

/-! ## Lengths -/

/-- The length of a vector. -/
noncomputable def len3 (x y z : ℝ) : ℝ := √(x ^ 2 + y ^ 2 + z ^ 2)

theorem len3_nonneg (x y z : ℝ) : 0 ≤ len3 x y z := Real.sqrt_nonneg _

theorem len3_tri (x y z X Y Z : ℝ) : len3 x y z ≤ len3 X Y Z + len3 (x - X) (y - Y) (z - Z) := by
  unfold len3
  apply Real.sqrt_le_iff.mpr
  have a := Real.sqrt_nonneg (X ^ 2 + Y ^ 2 + Z ^ 2)
  have b := Real.sqrt_nonneg ((x - X) ^ 2 + (y - Y) ^ 2 + (z - Z) ^ 2)
  refine ⟨by linarith, ?_⟩
  have c : X * (x - X) + Y * (y - Y) + Z * (z - Z) ≤ √(X ^ 2 + Y ^ 2 + Z ^ 2) * √((x - X) ^ 2 + (y - Y) ^ 2 + (z - Z) ^ 2) := by
    rw [← Real.sqrt_mul (by positivity)]
    apply Real.le_sqrt_of_sq_le
    have : (X ^ 2 + Y ^ 2 + Z ^ 2) * ((x - X) ^ 2 + (y - Y) ^ 2 + (z - Z) ^ 2) - (X * (x - X) + Y * (y - Y) + Z * (z - Z)) ^ 2 =
      (X * (y - Y) - Y * (x - X)) ^ 2 + (X * (z - Z) - Z * (x - X)) ^ 2 + (Y * (z - Z) - Z * (y - Y)) ^ 2 := by ring
    have := sq_nonneg (X * (y - Y) - Y * (x - X))
    have := sq_nonneg (X * (z - Z) - Z * (x - X))
    have := sq_nonneg (Y * (z - Z) - Z * (y - Y))
    linarith
  have e1 := Real.sq_sqrt (show 0 ≤ X ^ 2 + Y ^ 2 + Z ^ 2 by positivity)
  have e2 := Real.sq_sqrt (show 0 ≤ (x - X) ^ 2 + (y - Y) ^ 2 + (z - Z) ^ 2 by positivity)
  rw [add_sq, e1, e2]
  linarith

theorem len3_le {x y z h : ℝ} (hx : |x| ≤ h) (hy : |y| ≤ h) (hz : |z| ≤ h) : len3 x y z ≤ 7 / 4 * h := by
  have h0 := (abs_nonneg x).trans hx
  unfold len3
  apply Real.sqrt_le_iff.mpr
  refine ⟨by linarith, ?_⟩
  have a := sq_le_sq' (neg_le_of_abs_le hx) (le_of_abs_le hx)
  have b := sq_le_sq' (neg_le_of_abs_le hy) (le_of_abs_le hy)
  have c := sq_le_sq' (neg_le_of_abs_le hz) (le_of_abs_le hz)
  have d := sq_nonneg h
  rw [mul_pow]
  linarith

theorem len3_close (x y z X Y Z h : ℝ) (hx : |x - X| ≤ h) (hy : |y - Y| ≤ h) (hz : |z - Z| ≤ h) : |len3 x y z - len3 X Y Z| ≤ 7 / 4 * h := by
  have a := len3_tri x y z X Y Z
  have b := len3_tri X Y Z x y z
  have c := len3_le hx hy hz
  have d := len3_le (x := X - x) (y := Y - y) (z := Z - z) (h := h) (by rwa [abs_sub_comm]) (by rwa [abs_sub_comm]) (by rwa [abs_sub_comm])
  rw [abs_le]
  constructor <;> linarith

theorem dist3_len (p a : Coord ℚ) : dist3 (r3 p) (r3 a) = len3 ((p.x - a.x : ℚ) : ℝ) ((p.y - a.y : ℚ) : ℝ) ((p.z - a.z : ℚ) : ℝ) := by
  unfold dist3 len3 r3
  push_cast
  rfl

theorem same3_r3 (p a : Coord ℚ) : Same3 (r3 p) (r3 a) ↔ p.x = a.x ∧ p.y = a.y ∧ p.z = a.z := by simp [Same3, r3]

/-- The sum of squares of a nonzero vector on the grid, and its root. -/
theorem sqrt_of_sq (t : ℚ) (t0 : 0 ≤ t) : (FltSqrt.sqrt (Fl.fin t : B64 sq hy)) = sq t := by
  refine Eq.trans (b := if t < 0 then (Val.nan : Val) else sq t) rfl ?_
  rw [if_neg (not_lt.mpr t0)]

/-- C111: the distance of two points on a grid of 24 bits has the relative error of the square root only, and is 0 only for points that agree. -/
theorem C111_points {g : ℤ} (h1 : -484 ≤ g) (h2 : g ≤ 400) {ε : ℝ} (lib : Lib64 sq hy ε) (h0 : sq 0 = .fin 0) {p a : Coord ℚ}
    (hp : Grid3 24 g p) (ha : Grid3 24 g a) :
    ∃ v : ℚ, Distance3D.distance (p3 p : Coord (B64 sq hy)) (p3 a) = Fl.fin v ∧ 0 ≤ v ∧
      |(v : ℝ) - dist3 (r3 p) (r3 a)| ≤ ε * dist3 (r3 p) (r3 a) ∧ (v = 0 ↔ Same3 (r3 p) (r3 a)) := by
  have ox := hp.1.sub ha.1
  have oy := hp.2.1.sub ha.2.1
  have oz := hp.2.2.sub ha.2.2
  have mx := ox.mul ox
  have my := oy.mul oy
  have mz := oz.mul oz
  have s1 := mx.add my
  have s2 := s1.add (mz.mono (by omega))
  have fx := ordB_f64 ox (by omega) (by omega) (by omega)
  have fy := ordB_f64 oy (by omega) (by omega) (by omega)
  have fz := ordB_f64 oz (by omega) (by omega) (by omega)
  have fs := ordB_f64 s2 (by omega) (by omega) (by omega)
  have e : Distance3D.distance (p3 p : Coord (B64 sq hy)) (p3 a) =
      sq ((p.x - a.x) * (p.x - a.x) + (p.y - a.y) * (p.y - a.y) + (p.z - a.z) * (p.z - a.z)) := by
    have : Distance3D.distance (p3 p : Coord (B64 sq hy)) (p3 a) = FltSqrt.sqrt
      ((Fl.fin p.x -. Fl.fin a.x) *. (Fl.fin p.x -. Fl.fin a.x) +. (Fl.fin p.y -. Fl.fin a.y) *. (Fl.fin p.y -. Fl.fin a.y) +.
        (Fl.fin p.z -. Fl.fin a.z) *. ((Fl.fin p.z : B64 sq hy) -. Fl.fin a.z)) := rfl
    rw [this, sub_fin fx, sub_fin fy, sub_fin fz, mul_fin (ordB_f64 mx (by omega) (by omega) (by omega)),
      mul_fin (ordB_f64 my (by omega) (by omega) (by omega)), mul_fin (ordB_f64 mz (by omega) (by omega) (by omega)),
      add_fin (ordB_f64 s1 (by omega) (by omega) (by omega)), add_fin fs]
    exact sqrt_of_sq _ (by nlinarith [mul_self_nonneg (p.x - a.x), mul_self_nonneg (p.y - a.y), mul_self_nonneg (p.z - a.z)])
  have eD : dist3 (r3 p) (r3 a) =
      √(((p.x - a.x) * (p.x - a.x) + (p.y - a.y) * (p.y - a.y) + (p.z - a.z) * (p.z - a.z) : ℚ) : ℝ) := by
    rw [dist3_len]
    unfold len3
    push_cast
    congr 1
    ring
  have same : Same3 (r3 p) (r3 a) ↔ (p.x - a.x) * (p.x - a.x) + (p.y - a.y) * (p.y - a.y) + (p.z - a.z) * (p.z - a.z) = 0 := by
    rw [same3_r3]
    constructor
    · rintro ⟨k1, k2, k3⟩
      rw [k1, k2, k3]; ring
    · intro k
      have n1 := mul_self_nonneg (p.x - a.x)
      have n2 := mul_self_nonneg (p.y - a.y)
      have n3 := mul_self_nonneg (p.z - a.z)
      exact ⟨sub_eq_zero.mp (mul_self_eq_zero.mp (by linarith)), sub_eq_zero.mp (mul_self_eq_zero.mp (by linarith)),
        sub_eq_zero.mp (mul_self_eq_zero.mp (by linarith))⟩
  have S0 : 0 ≤ (p.x - a.x) * (p.x - a.x) + (p.y - a.y) * (p.y - a.y) + (p.z - a.z) * (p.z - a.z) := by
    have n1 := mul_self_nonneg (p.x - a.x)
    have n2 := mul_self_nonneg (p.y - a.y)
    have n3 := mul_self_nonneg (p.z - a.z)
    linarith
  rw [e, eD, same]
  generalize (p.x - a.x) * (p.x - a.x) + (p.y - a.y) * (p.y - a.y) + (p.z - a.z) * (p.z - a.z) = S at *
  by_cases hS : S = 0
  · subst hS
    exact ⟨0, h0, le_rfl, by simp, by simp⟩
  · have big : 2 ^ (-1022 : ℤ) ≤ S := by
      have := (ord_abs s2).2.resolve_left hS
      rw [abs_of_nonneg S0] at this
      exact (two_mono (by omega)).trans this
    obtain ⟨v, hv, ve⟩ := lib.sqrt S fs big
    have L0 : 0 < √(S : ℝ) := Real.sqrt_pos.mpr (by exact_mod_cast lt_of_le_of_ne S0 (Ne.symm hS))
    have v0 : (0 : ℝ) < v := by
      have k := (abs_le.mp ve).1
      have : ε * √(S : ℝ) ≤ 1 / 2 * √(S : ℝ) := mul_le_mul_of_nonneg_right lib.le_half L0.le
      linarith
    have v0' : 0 < v := by exact_mod_cast v0
    exact ⟨v, hv, v0'.le, ve, ⟨fun h => absurd h v0'.ne', fun h => absurd h hS⟩⟩

/-! ## The foot of a point on a segment -/

/-- The root of the sum of squares of numbers on a fine grid. -/
theorem root64 {g : ℤ} (h1 : -376 ≤ g) (h2 : g ≤ 400) {ε : ℝ} (lib : Lib64 sq hy ε) (hε : ε ≤ 1 / 2 ^ 52) (h0 : sq 0 = .fin 0) {x y z : ℚ}
    (hx : IsF64 x ∧ |x| ≤ 2 ^ (g + 25) ∧ ∃ l : ℤ, x = l * 2 ^ (g - 104)) (hy' : IsF64 y ∧ |y| ≤ 2 ^ (g + 25) ∧ ∃ l : ℤ, y = l * 2 ^ (g - 104))
    (hz : IsF64 z ∧ |z| ≤ 2 ^ (g + 25) ∧ ∃ l : ℤ, z = l * 2 ^ (g - 104)) :
    ∃ w : ℚ, FltSqrt.sqrt (Fl.fin x *. Fl.fin x +. Fl.fin y *. Fl.fin y +. Fl.fin z *. (Fl.fin z : B64 sq hy)) = Fl.fin w ∧ 0 ≤ w ∧
      |(w : ℝ) - len3 x y z| ≤ 1 / 2 ^ 51 * len3 x y z := by
  have low : ∀ {x : ℚ}, (∃ l : ℤ, x = l * 2 ^ (g - 104)) → x ≠ 0 → 2 ^ (-480 : ℤ) ≤ |x| := by
    rintro x ⟨l, rfl⟩ hne
    have l0 : l ≠ 0 := by rintro rfl; simp at hne
    have l1 : (1 : ℚ) ≤ |(l : ℚ)| := by exact_mod_cast Int.one_le_abs l0
    rw [abs_mul, abs_of_pos (two_pos _)]
    calc (2 : ℚ) ^ (-480 : ℤ) ≤ 1 * 2 ^ (g - 104) := by rw [one_mul]; exact two_mono (by omega)
      _ ≤ _ := mul_le_mul_of_nonneg_right l1 (two_pos _).le
  have up : ∀ {x : ℚ}, |x| ≤ 2 ^ (g + 25) → |x| ≤ 2 ^ (500 : ℤ) := fun h => h.trans (two_mono (by omega))
  by_cases hall : x = 0 ∧ y = 0 ∧ z = 0
  · obtain ⟨rfl, rfl, rfl⟩ := hall
    refine ⟨0, ?_, le_rfl, by simp [len3]⟩
    rw [mul_fin (by rw [mul_zero]; exact hx.1), mul_zero, add_fin (by rw [add_zero]; exact hx.1), add_zero, add_fin (by rw [add_zero]; exact hx.1), add_zero,
      sqrt_of_sq _ le_rfl]
    exact h0
  · have S : Squarable x y z := by
      refine ⟨⟨hx.1, hy'.1, hz.1⟩, ⟨up hx.2.1, up hy'.2.1, up hz.2.1⟩, ?_⟩
      by_cases x0 : x = 0
      · by_cases y0 : y = 0
        · exact .inr (.inr (low hz.2.2 (fun z0 => hall ⟨x0, y0, z0⟩)))
        · exact .inr (.inl (low hy'.2.2 y0))
      · exact .inl (low hx.2.2 x0)
    obtain ⟨w, hw, w0, we⟩ := C98_length3 lib hε S
    exact ⟨w, hw, w0.le, we⟩

/-- One ordinate of the point of a segment at the exact parameter `t`. -/
theorem pos64 {k : ℕ} (hk : k ≤ 23) {g : ℤ} (h1 : -376 ≤ g) (h2 : g ≤ 400) {a b t : ℚ} (ha : OrdB k g a) (hb : OrdB k g b)
    (t0 : t = 0 ∨ 2 ^ (-51 : ℤ) ≤ t) (t1 : t ≤ 1) :
    ∃ u, along1 (Fl.fin a) (Fl.fin b) (Fl.fin (near t) : B64 sq hy) = Fl.fin u ∧ (|u| ≤ 2 ^ (g + k) ∧ ∃ l : ℤ, u = l * 2 ^ (g - 104)) ∧
      |u - (a + t * (b - a))| ≤ 3 * 2 ^ (g + k - 52) := by
  have tp : 0 ≤ t := by
    rcases t0 with rfl | t0
    · exact le_rfl
    · exact (two_pos _).le.trans t0
  have f0 : 0 ≤ near t := by rw [← near_zero]; exact near_mono tp
  have f1 : near t ≤ 1 := by
    have : near 1 = 1 := near_of_rep (f64_of (by decide +kernel) : IsF64 1).1
    rw [← this]; exact near_mono t1
  obtain ⟨u, hu, u1, u2, -, -, ue⟩ := along_grid (sq := sq) (hy := hy) (k := k) (by omega) (by omega) (by omega) ha hb f0 f1
  have ui := along1_inv hu
  have od := hb.sub ha
  have fd := ordB_f64 od (by omega) (by omega) (by omega)
  obtain ⟨n, hn⟩ : ∃ n : ℤ, near t = n * 2 ^ (-104 : ℤ) := by
    rcases t0 with rfl | t0
    · exact ⟨0, by rw [near_zero]; simp⟩
    · exact near_mult_expo t (-104) (expo_gt_of (by rw [abs_of_nonneg tp]; exact (two_mono (by norm_num)).trans t0))
  have aa := (ord_abs ha).1
  have ba := (ord_abs hb).1
  have da := (ord_abs od).1
  obtain ⟨m, -, hm⟩ := od
  obtain ⟨m2, -, hm2⟩ := ha
  have ee : (2 : ℚ) ^ g = 2 ^ (104 : ℕ) * 2 ^ (g - 104) := by
    rw [← zpow_natCast, ← two_add]; congr 1; push_cast; ring
  obtain ⟨k1, hk1⟩ := near_mult (near t * near (b - a)) (n * m) (g - 104) (by omega) (by
    rw [near_of_rep fd.1, hn, hm]
    push_cast
    rw [show (g - 104 : ℤ) = -104 + g by ring, two_add]; ring)
  obtain ⟨k2, hk2⟩ := near_mult (a + near (near t * near (b - a))) (m2 * 2 ^ 104 + k1) (g - 104) (by omega) (by
    rw [hk1, hm2, ee]; push_cast; ring)
  rw [← ui] at hk2
  push_cast at da
  rw [add_comm] at aa ba
  have c2 := abs_le.mp aa
  have c3 := abs_le.mp ba
  have e2 : |(near t - t) * (b - a)| ≤ 2 ^ (g + k - 52) := by
    have kk : |near t - t| ≤ 1 / 2 ^ 53 := by
      rcases t0 with rfl | t0
      · rw [near_zero, sub_zero, abs_zero]; positivity
      · have := near_rel t (by rw [abs_of_nonneg tp]; exact (two_mono (by norm_num)).trans t0)
        rw [abs_sub_comm, abs_of_nonneg tp] at this
        exact this.trans (by gcongr)
    rw [abs_mul]
    refine (mul_le_mul kk da (abs_nonneg _) (by positivity)).trans (le_of_eq ?_)
    rw [one_div, ← zpow_natCast, ← zpow_neg, ← two_add]
    congr 1
    push_cast
    ring
  refine ⟨u, hu, ⟨?_, k2, hk2⟩, ?_⟩
  · rw [abs_le]
    exact ⟨le_trans (le_min c2.1 c3.1) u1, u2.trans (max_le c2.2 c3.2)⟩
  · have P : (2 : ℚ) ^ ((k : ℤ) + g - 51) = 2 * 2 ^ (g + k - 52) := by rw [show (k : ℤ) + g - 51 = 1 + (g + k - 52) by ring, two_add]; norm_num
    rw [P] at ue
    have a1 := abs_le.mp ue
    have a3 := abs_le.mp e2
    rw [abs_le]
    constructor <;> linarith

/-- The difference of two such ordinates. -/
theorem diff64 {k : ℕ} (hk : k ≤ 23) {g : ℤ} (h1 : -376 ≤ g) (h2 : g ≤ 400) {p u : ℚ} (hp : |p| ≤ 2 ^ (g + k) ∧ ∃ l : ℤ, p = l * 2 ^ (g - 104))
    (hu : |u| ≤ 2 ^ (g + k) ∧ ∃ l : ℤ, u = l * 2 ^ (g - 104)) :
    ∃ d, (Fl.fin p : B64 sq hy) -. Fl.fin u = Fl.fin d ∧ (IsF64 d ∧ |d| ≤ 2 ^ (g + 25) ∧ ∃ l : ℤ, d = l * 2 ^ (g - 104)) ∧ |d| ≤ 2 ^ (g + k + 1) ∧
      |d - (p - u)| ≤ 2 ^ (g + k - 52) := by
  obtain ⟨bp, m3, hm3⟩ := hp
  obtain ⟨bu, k2, hk2⟩ := hu
  have hpd : p - u = ((m3 - k2 : ℤ) : ℚ) * 2 ^ (g - 104) := by
    rw [hk2, hm3]; push_cast; ring
  obtain ⟨k3, hk3⟩ := near_mult (p - u) _ (g - 104) (by omega) hpd
  have P24 : (2 : ℚ) ^ (g + k + 1) = 2 * 2 ^ (g + k) := by rw [show g + (k : ℤ) + 1 = 1 + (g + k) by ring, two_add]; norm_num
  have hx : |p - u| ≤ 2 ^ (g + k + 1) := by
    have c4 := abs_le.mp bp
    have c5 := abs_le.mp bu
    rw [P24, abs_le]
    constructor <;> linarith
  have hn24 := near_le_pow (by omega) hx
  have lt : |near (p - u)| < 2 ^ 1024 := by
    refine lt_of_le_of_lt hn24 ?_
    rw [← zpow_natCast]
    exact two_lt_iff.mpr (by push_cast; omega)
  refine ⟨near (p - u), ?_, ⟨⟨near_rep _, lt⟩, hn24.trans (two_mono (by omega)), k3, hk3⟩, hn24, ?_⟩
  · refine (show _ = Fl.round (r := binary64 sq hy) (p + -u) from rfl).trans ?_
    rw [← sub_eq_add_neg]
    exact (rnd_fin_iff _ _).mpr ⟨rfl, lt⟩
  · by_cases hz : p - u = 0
    · rw [hz, near_zero, sub_zero, abs_zero]; exact (two_pos _).le
    · have big : 2 ^ (-1022 : ℤ) ≤ |p - u| := by
        rw [hpd] at hz ⊢
        generalize (m3 - k2 : ℤ) = l at *
        have l0 : l ≠ 0 := by rintro rfl; simp at hz
        have l1 : (1 : ℚ) ≤ |(l : ℚ)| := by exact_mod_cast Int.one_le_abs l0
        rw [abs_mul, abs_of_pos (two_pos _)]
        calc (2 : ℚ) ^ (-1022 : ℤ) ≤ 1 * 2 ^ (g - 104) := by rw [one_mul]; exact two_mono (by omega)
          _ ≤ _ := mul_le_mul_of_nonneg_right l1 (two_pos _).le
      have := near_rel _ big
      rw [abs_sub_comm] at this
      refine this.trans ?_
      rw [div_le_iff₀ (by positivity)]
      refine hx.trans (le_of_eq ?_)
      rw [← zpow_natCast, ← two_add]
      congr 1
      push_cast
      ring

theorem ord_fine {k : ℕ} {g : ℤ} {x : ℚ} (h : OrdB k g x) : |x| ≤ 2 ^ (g + k) ∧ ∃ l : ℤ, x = l * 2 ^ (g - 104) := by
  refine ⟨by rw [add_comm]; exact (ord_abs h).1, ?_⟩
  obtain ⟨m, -, rfl⟩ := h
  refine ⟨m * 2 ^ 104, ?_⟩
  have ee : (2 : ℚ) ^ g = 2 ^ (104 : ℕ) * 2 ^ (g - 104) := by
    rw [← zpow_natCast, ← two_add]; congr 1; push_cast; ring
  rw [ee]; push_cast; ring

/-- One ordinate of the way from the foot, at the exact parameter `t`, to a point. -/
theorem foot64 {k : ℕ} (hk : k ≤ 23) {g : ℤ} (h1 : -376 ≤ g) (h2 : g ≤ 400) {a b p t : ℚ} (ha : OrdB k g a) (hb : OrdB k g b) (hp : OrdB k g p)
    (t0 : t = 0 ∨ 2 ^ (-51 : ℤ) ≤ t) (t1 : t ≤ 1) :
    ∃ d, (Fl.fin p : B64 sq hy) -. along1 (Fl.fin a) (Fl.fin b) (Fl.fin (near t)) = Fl.fin d ∧
      (IsF64 d ∧ |d| ≤ 2 ^ (g + 25) ∧ ∃ l : ℤ, d = l * 2 ^ (g - 104)) ∧ |d| ≤ 2 ^ (g + k + 1) ∧
      |d - (p - (a + t * (b - a)))| ≤ 2 ^ (g + k - 50) := by
  obtain ⟨u, hu, fu, ue⟩ := pos64 (sq := sq) (hy := hy) hk h1 h2 ha hb t0 t1
  obtain ⟨d, hd, fd, bd, de⟩ := diff64 (sq := sq) (hy := hy) hk h1 h2 (ord_fine hp) fu
  rw [hu]
  refine ⟨d, hd, fd, bd, ?_⟩
  have P : (2 : ℚ) ^ (g + k - 50) = 4 * 2 ^ (g + k - 52) := by rw [show g + (k : ℤ) - 50 = 2 + (g + k - 52) by ring, two_add]; norm_num
  have a1 := abs_le.mp ue
  have a3 := abs_le.mp de
  rw [P, abs_le]
  constructor <;> linarith

/-! ## Point and segment -/

theorem leastDist3_unique {S T : Coord ℝ → Prop} {d e : ℝ} (h : LeastDist3 S T d) (h' : LeastDist3 S T e) : d = e := by
  obtain ⟨⟨u, v, hu, hv, rfl⟩, h1⟩ := h
  obtain ⟨⟨u', v', hu', hv', rfl⟩, h1'⟩ := h'
  exact le_antisymm (h1 _ _ hu' hv') (h1' _ _ hu hv)

theorem p3_equals (a b : Coord ℚ) : (p3 a : Coord (B64 sq hy)).equals3D (p3 b) = decide (a.x = b.x ∧ a.y = b.y ∧ a.z = b.z) := by
  have e : (p3 a : Coord (B64 sq hy)).equals3D (p3 b) = ((decide (a.x = b.x) && decide (a.y = b.y)) && (decide (a.z = b.z) || (false && false))) := rfl
  rw [e]
  simp [Bool.decide_and, Bool.and_assoc]

/-- The inner product of the ways from `a` to `b` and from `c` to `d`. -/
def dot3Q (a b c d : Coord ℚ) : ℚ := (b.x - a.x) * (d.x - c.x) + (b.y - a.y) * (d.y - c.y) + (b.z - a.z) * (d.z - c.z)

theorem inner3_r3 (a b c d : Coord ℚ) : inner3 (r3 a) (r3 b) (r3 c) (r3 d) = (dot3Q a b c d : ℝ) := by
  unfold inner3 dot3Q r3; push_cast; rfl

theorem dot3Q_pos {a b : Coord ℚ} (h : ¬ (a.x = b.x ∧ a.y = b.y ∧ a.z = b.z)) : 0 < dot3Q a b a b := by
  have := inner3_pos (a := r3 a) (b := r3 b) (by rwa [same3_r3])
  rw [inner3_r3] at this
  exact_mod_cast this

/-- The distance from `p` to the point of the line at parameter `t`. -/
noncomputable def toFoot (p a b : Coord ℚ) (t : ℚ) : ℝ :=
  len3 ((p.x - (a.x + t * (b.x - a.x)) : ℚ) : ℝ) ((p.y - (a.y + t * (b.y - a.y)) : ℚ) : ℝ) ((p.z - (a.z + t * (b.z - a.z)) : ℚ) : ℝ)

/-- The least distance, by cases. -/
theorem least_cases (p a b : Coord ℚ) (D : ℝ) (hD : LeastDist3 (fun q => Same3 q (r3 p)) (fun q => OnSegment3 q (r3 a) (r3 b)) D) :
    ((a.x = b.x ∧ a.y = b.y ∧ a.z = b.z) → D = dist3 (r3 p) (r3 a)) ∧
    (¬ (a.x = b.x ∧ a.y = b.y ∧ a.z = b.z) →
      (dot3Q a p a b / dot3Q a b a b ≤ 0 → D = dist3 (r3 p) (r3 a)) ∧
      (1 ≤ dot3Q a p a b / dot3Q a b a b → D = dist3 (r3 p) (r3 b)) ∧
      (0 < dot3Q a p a b / dot3Q a b a b → dot3Q a p a b / dot3Q a b a b < 1 → D = toFoot p a b (dot3Q a p a b / dot3Q a b a b) ∧
        D < dist3 (r3 p) (r3 a) ∧ D < dist3 (r3 p) (r3 b))) := by
  have e := leastDist3_unique hD (C54_point_segment (r3 p) (r3 a) (r3 b))
  unfold pointSegment at e
  refine ⟨fun h => ?_, fun h => ?_⟩
  · rw [if_pos ((equals3D_real _ _).mpr ((same3_r3 a b).mpr h)), distance3_real] at e
    exact e
  rw [if_neg (fun hc => h ((same3_r3 a b).mp ((equals3D_real _ _).mp hc)))] at e
  have hA := dot3Q_pos h
  simp only [distance3_real, real_toFlt, exact_isNaN, exact_sub, exact_mul, exact_add, exact_div, exact_le, exact_lit, Rat.cast_zero, Rat.cast_one, real_sqrt,
    Bool.false_eq_true, if_false, decide_eq_true_eq] at e
  have e1 : ((r3 b).x - (r3 a).x) * ((r3 b).x - (r3 a).x) + ((r3 b).y - (r3 a).y) * ((r3 b).y - (r3 a).y) + ((r3 b).z - (r3 a).z) * ((r3 b).z - (r3 a).z)
      = ((dot3Q a b a b : ℚ) : ℝ) := by unfold dot3Q r3; push_cast; rfl
  have e2 : ((r3 p).x - (r3 a).x) * ((r3 b).x - (r3 a).x) + ((r3 p).y - (r3 a).y) * ((r3 b).y - (r3 a).y) + ((r3 p).z - (r3 a).z) * ((r3 b).z - (r3 a).z)
      = ((dot3Q a p a b : ℚ) : ℝ) := by unfold dot3Q r3; push_cast; rfl
  rw [e1, e2, ← Rat.cast_div] at e
  obtain ⟨t, ht⟩ : ∃ t, t = dot3Q a p a b / dot3Q a b a b := ⟨_, rfl⟩
  rw [← ht] at e ⊢
  refine ⟨fun h0 => ?_, fun h1 => ?_, fun h0 h1 => ?_⟩
  · rw [if_pos (by exact_mod_cast h0)] at e; exact e
  · rw [if_neg (not_le.mpr (by exact_mod_cast lt_of_lt_of_le one_pos h1)), if_pos (by exact_mod_cast h1)] at e; exact e
  · rw [if_neg (not_le.mpr (by exact_mod_cast h0)), if_neg (not_le.mpr (by exact_mod_cast h1))] at e
    have e3 : D = toFoot p a b t := by
      rw [e]; unfold toFoot len3 r3; push_cast; congr 1; ring
    refine ⟨e3, ?_⟩
    have hD' : dot3Q a p a b = t * dot3Q a b a b := by rw [ht]; field_simp
    have sqs : ∀ s : ℚ, (p.x - (a.x + s * (b.x - a.x))) ^ 2 + (p.y - (a.y + s * (b.y - a.y))) ^ 2 + (p.z - (a.z + s * (b.z - a.z))) ^ 2 =
        dot3Q a p a p - 2 * s * dot3Q a p a b + s ^ 2 * dot3Q a b a b := by intro s; unfold dot3Q; ring
    have less : ∀ s : ℚ, s ≠ t → toFoot p a b t < toFoot p a b s := by
      intro s hs
      unfold toFoot len3
      apply Real.sqrt_lt_sqrt (by positivity)
      have := sqs s
      have k := sqs t
      have : (p.x - (a.x + t * (b.x - a.x))) ^ 2 + (p.y - (a.y + t * (b.y - a.y))) ^ 2 + (p.z - (a.z + t * (b.z - a.z))) ^ 2 <
        (p.x - (a.x + s * (b.x - a.x))) ^ 2 + (p.y - (a.y + s * (b.y - a.y))) ^ 2 + (p.z - (a.z + s * (b.z - a.z))) ^ 2 := by
        rw [this, k, hD']
        have : 0 < (s - t) ^ 2 * dot3Q a b a b := mul_pos (pow_two_pos_of_ne_zero (sub_ne_zero.mpr hs)) hA
        linarith
      exact_mod_cast this
    have z0 : toFoot p a b 0 = dist3 (r3 p) (r3 a) := by
      rw [dist3_len]; unfold toFoot; congr 3 <;> ring
    have z1 : toFoot p a b 1 = dist3 (r3 p) (r3 b) := by
      rw [dist3_len]; unfold toFoot; congr 3 <;> ring
    rw [e3, ← z0, ← z1]
    exact ⟨less 0 h0.ne, less 1 h1.ne'⟩

theorem cast_close {u v : ℚ} {k : ℤ} (h : |u - v| ≤ 2 ^ k) : |(u : ℝ) - (v : ℝ)| ≤ (2 : ℝ) ^ k := by
  have : ((|u - v| : ℚ) : ℝ) ≤ (((2 : ℚ) ^ k : ℚ) : ℝ) := Rat.cast_le.mpr h
  push_cast at this
  exact this

theorem cast_bound {u : ℚ} {k : ℤ} (h : |u| ≤ 2 ^ k) : |(u : ℝ)| ≤ (2 : ℝ) ^ k := by
  have := cast_close (v := 0) (by simpa using h)
  simpa using this

/-- The foot inside the segment: the computed distance. -/
theorem toFoot64 {k : ℕ} (hk : k ≤ 23) {g : ℤ} (h1 : -376 ≤ g) (h2 : g ≤ 400) {ε : ℝ} (lib : Lib64 sq hy ε) (hε : ε ≤ 1 / 2 ^ 52) (h0 : sq 0 = .fin 0)
    {p a b : Coord ℚ} (hp : Grid3 k g p) (ha : Grid3 k g a) (hb : Grid3 k g b) {t : ℚ} (t0 : t = 0 ∨ 2 ^ (-51 : ℤ) ≤ t) (t1 : t ≤ 1) :
    ∃ v : ℚ, (let f : B64 sq hy := Fl.fin (near t)
      let dx := Fl.fin p.x -. along1 (Fl.fin a.x) (Fl.fin b.x) f
      let dy := Fl.fin p.y -. along1 (Fl.fin a.y) (Fl.fin b.y) f
      let dz := Fl.fin p.z -. along1 (Fl.fin a.z) (Fl.fin b.z) f
      FltSqrt.sqrt (dx *. dx +. dy *. dy +. dz *. dz)) = Fl.fin v ∧ 0 ≤ v ∧ |(v : ℝ) - toFoot p a b t| ≤ 2 ^ (g + k - 48) := by
  obtain ⟨x, ex, fx, bx, qx⟩ := foot64 (sq := sq) (hy := hy) hk h1 h2 ha.1 hb.1 hp.1 t0 t1
  obtain ⟨y, ey, fy, bY, qy⟩ := foot64 (sq := sq) (hy := hy) hk h1 h2 ha.2.1 hb.2.1 hp.2.1 t0 t1
  obtain ⟨z, ez, fz, bz, qz⟩ := foot64 (sq := sq) (hy := hy) hk h1 h2 ha.2.2 hb.2.2 hp.2.2 t0 t1
  obtain ⟨w, hw, w0, we⟩ := root64 h1 h2 lib hε h0 fx fy fz
  dsimp only
  rw [ex, ey, ez]
  refine ⟨w, hw, w0, ?_⟩
  have k1 := len3_close _ _ _ _ _ _ _ (cast_close qx) (cast_close qy) (cast_close qz)
  have k2 := len3_le (cast_bound bx) (cast_bound bY) (cast_bound bz)
  rw [show len3 ((p.x - (a.x + t * (b.x - a.x)) : ℚ) : ℝ) ((p.y - (a.y + t * (b.y - a.y)) : ℚ) : ℝ) ((p.z - (a.z + t * (b.z - a.z)) : ℚ) : ℝ) = toFoot p a b t from rfl] at k1
  have P27 : (2 : ℝ) ^ (g + k + 1) = 2 ^ 51 * 2 ^ (g + k - 50) := by
    rw [← zpow_natCast, ← zpow_add₀ (by norm_num)]; congr 1; push_cast; ring
  have P25 : (2 : ℝ) ^ (g + k - 48) = 4 * 2 ^ (g + k - 50) := by
    rw [show g + (k : ℤ) - 48 = 2 + (g + k - 50) by ring, zpow_add₀ (by norm_num)]; norm_num
  have pos : (0 : ℝ) < 2 ^ (g + k - 50) := by positivity
  rw [P27] at k2
  rw [P25]
  have a1 := abs_le.mp we
  have a2 := abs_le.mp k1
  have : 1 / 2 ^ 51 * len3 (x : ℝ) y z ≤ 7 / 4 * 2 ^ (g + k - 50) := by
    calc 1 / 2 ^ 51 * len3 (x : ℝ) y z ≤ 1 / 2 ^ 51 * (7 / 4 * (2 ^ 51 * 2 ^ (g + k - 50))) := by gcongr
      _ = _ := by ring
  rw [abs_le]
  constructor <;> linarith

/-- C111: on grids of at most 23 bits the distance of a point to a segment is within 2^-48 of the size of the grid of the least distance, and has the relative error
of the square root only if an end of the segment is nearest. -/
theorem C111_point_segment {k : ℕ} (hk : k ≤ 23) {g : ℤ} (h1 : -376 ≤ g) (h2 : g ≤ 400) {ε : ℝ} (lib : Lib64 sq hy ε) (hε : ε ≤ 1 / 2 ^ 52) (h0 : sq 0 = .fin 0) {p a b : Coord ℚ}
    (hp : Grid3 k g p) (ha : Grid3 k g a) (hb : Grid3 k g b) {D : ℝ}
    (hD : LeastDist3 (fun q => Same3 q (r3 p)) (fun q => OnSegment3 q (r3 a) (r3 b)) D) :
    ∃ v : ℚ, pointSegment (p3 p : Coord (B64 sq hy)) (p3 a) (p3 b) = Fl.fin v ∧ 0 ≤ v ∧ |(v : ℝ) - D| ≤ 2 ^ (g + k - 48) ∧
      (D = dist3 (r3 p) (r3 a) ∨ D = dist3 (r3 p) (r3 b) → |(v : ℝ) - D| ≤ ε * D) := by
  obtain ⟨c1, c2⟩ := least_cases p a b D hD
  have small : ∀ {q : Coord ℚ}, Grid3 k g q → ε * dist3 (r3 p) (r3 q) ≤ 2 ^ (g + k - 48) := by
    intro q hq
    rw [dist3_len]
    have c : ∀ {u v : ℚ}, OrdB k g u → OrdB k g v → |((u - v : ℚ) : ℝ)| ≤ (2 : ℝ) ^ (g + k + 1) := by
      intro u v hu hv
      have : ((|u - v| : ℚ) : ℝ) ≤ (((2 : ℚ) ^ (((k + 1 : ℕ) : ℤ) + g) : ℚ) : ℝ) := Rat.cast_le.mpr (ord_abs (hu.sub hv)).1
      push_cast at this ⊢
      rw [show g + (k : ℤ) + 1 = k + 1 + g by ring]
      exact this
    have kl := len3_le (c hp.1 hq.1) (c hp.2.1 hq.2.1) (c hp.2.2 hq.2.2)
    have P25 : (2 : ℝ) ^ (g + k + 1) = 2 ^ 49 * 2 ^ (g + k - 48) := by
      rw [← zpow_natCast, ← zpow_add₀ (by norm_num)]; congr 1; push_cast; ring
    have pos : (0 : ℝ) < 2 ^ (g + k - 48) := by positivity
    refine (mul_le_mul hε kl (len3_nonneg _ _ _) (by norm_num)).trans ?_
    rw [P25]
    have : 1 / 2 ^ 52 * (7 / 4 * (2 ^ 49 * (2 : ℝ) ^ (g + k - 48))) = 7 / 32 * 2 ^ (g + k - 48) := by ring
    rw [this]
    linarith
  have fin : ∀ {q : Coord ℚ}, Grid3 k g q → D = dist3 (r3 p) (r3 q) →
      pointSegment (p3 p : Coord (B64 sq hy)) (p3 a) (p3 b) = Distance3D.distance (p3 p) (p3 q) →
      ∃ v : ℚ, pointSegment (p3 p : Coord (B64 sq hy)) (p3 a) (p3 b) = Fl.fin v ∧ 0 ≤ v ∧ |(v : ℝ) - D| ≤ 2 ^ (g + k - 48) ∧
      (D = dist3 (r3 p) (r3 a) ∨ D = dist3 (r3 p) (r3 b) → |(v : ℝ) - D| ≤ ε * D) := by
    intro q hq e1 e2
    obtain ⟨v, hv, v0, ve, -⟩ := C111_points (by omega) h2 lib h0 (hp.mono (by omega : k ≤ 24)) (hq.mono (by omega : k ≤ 24))
    rw [e2, e1]
    exact ⟨v, hv, v0, ve.trans (small hq), fun _ => ve⟩
  by_cases hs : a.x = b.x ∧ a.y = b.y ∧ a.z = b.z
  · apply fin ha (c1 hs)
    unfold pointSegment
    rw [p3_equals, if_pos (decide_eq_true hs)]
  · obtain ⟨c3, c4, c5⟩ := c2 hs
    have up : ∀ {q : Coord ℚ}, Grid3 k g q → Grid3 24 g q := fun h => h.mono (by omega)
    have dl : Vec3.dot4 (p3 a : Coord (B64 sq hy)) (p3 b) (p3 a) (p3 b) = Fl.fin (dot3Q a b a b) :=
      C98_dot4_grid (by omega) h2 (by simp only [List.mem_cons, List.not_mem_nil, or_false]; rintro q (rfl | rfl | rfl | rfl) <;> first | exact up ha | exact up hb)
    have dn : Vec3.dot4 (p3 a : Coord (B64 sq hy)) (p3 p) (p3 a) (p3 b) = Fl.fin (dot3Q a p a b) :=
      C98_dot4_grid (by omega) h2 (by
        simp only [List.mem_cons, List.not_mem_nil, or_false]; rintro q (rfl | rfl | rfl | rfl) <;> first | exact up ha | exact up hb | exact up hp)
    have od : ∀ {a b c d : Coord ℚ}, Grid3 k g a → Grid3 k g b → Grid3 k g c → Grid3 k g d → OrdB 51 (g + g) (dot3Q a b c d) := by
      intro a b c d ha hb hc hd
      have m1 := (hb.1.sub ha.1).mul (hd.1.sub hc.1)
      have m2 := (hb.2.1.sub ha.2.1).mul (hd.2.1.sub hc.2.1)
      have m3 := (hb.2.2.sub ha.2.2).mul (hd.2.2.sub hc.2.2)
      exact ((m1.add m2).add (m3.mono (by omega))).mono (by omega)
    have A0 := dot3Q_pos hs
    obtain ⟨r1, r2, r3', r4, r5, -, r7, -⟩ := ratio64 (sq := sq) (hy := hy) (od ha hp ha hb) (od ha hb ha hb) A0.ne'
    have e : pointSegment (p3 p : Coord (B64 sq hy)) (p3 a) (p3 b) =
        if (p3 a : Coord (B64 sq hy)).equals3D (p3 b) then Distance3D.distance (p3 p) (p3 a)
        else
          let len2 := Vec3.dot4 (p3 a : Coord (B64 sq hy)) (p3 b) (p3 a) (p3 b)
          if isNaN len2 then nan
          else
            let r := Vec3.dot4 (p3 a : Coord (B64 sq hy)) (p3 p) (p3 a) (p3 b) /. len2
            if r ≤. lit 0 then Distance3D.distance (p3 p) (p3 a)
            else if r ≥. lit 1 then Distance3D.distance (p3 p) (p3 b)
            else
              let dx := Fl.fin p.x -. along1 (Fl.fin a.x) (Fl.fin b.x) r
              let dy := Fl.fin p.y -. along1 (Fl.fin a.y) (Fl.fin b.y) r
              let dz := Fl.fin p.z -. along1 (Fl.fin a.z) (Fl.fin b.z) r
              FltSqrt.sqrt (dx *. dx +. dy *. dy +. dz *. dz) := rfl
    have z64 : (lit 0 : B64 sq hy) = Fl.fin 0 := rnd_of_f64 (f64_of (by decide +kernel))
    dsimp only at e
    rw [p3_equals, if_neg (by simpa using hs), dl, if_neg (show ¬ (isNaN (Fl.fin (dot3Q a b a b) : B64 sq hy) = true) from Bool.false_ne_true), dn, r1, z64, one64] at e
    have r3' : dot3Q a p a b / dot3Q a b a b = 0 ∨ 2 ^ (-51 : ℤ) ≤ |dot3Q a p a b / dot3Q a b a b| := r3'.imp_left (fun h => by rw [h, zero_div])
    generalize dot3Q a p a b / dot3Q a b a b = t at *
    rw [show ((Fl.fin (near t) : B64 sq hy) ≤. Fl.fin 0) = decide (near t ≤ 0) from rfl,
      show ((Fl.fin (near t) : B64 sq hy) ≥. Fl.fin 1) = decide (1 ≤ near t) from rfl] at e
    by_cases k0 : t ≤ 0
    · rw [if_pos (decide_eq_true (r5.mpr k0))] at e
      exact fin ha (c3 k0) e
    rw [if_neg (by simpa using fun h => k0 (r5.mp (not_lt.mp (not_lt.mpr h))))] at e
    by_cases k1 : 1 ≤ t
    · rw [if_pos (decide_eq_true (r7.mpr k1))] at e
      exact fin hb (c4 k1) e
    rw [if_neg (by simpa using fun h => k1 (r7.mp h))] at e
    push Not at k0 k1
    obtain ⟨d1, d2, d3⟩ := c5 k0 k1
    have t0 : 2 ^ (-51 : ℤ) ≤ t := by
      have := r3'.resolve_left k0.ne'
      rwa [abs_of_pos k0] at this
    obtain ⟨v, hv, v0, ve⟩ := toFoot64 hk h1 h2 lib hε h0 hp ha hb (.inr t0) k1.le
    refine ⟨v, e.trans hv, v0, by rw [d1]; exact ve, ?_⟩
    rintro (h | h)
    · exact absurd h d2.ne
    · exact absurd h d3.ne

/-! ## Segment and segment -/

/-- The part of the computation that follows the parameters `s` and `t`. -/
def tail3 {α : Type} [FltSqrt α] (s t : α) (ac bc cc dd : Coord α) : α :=
  if s <. lit 0 then pointSegment ac cc dd
  else if s >. lit 1 then pointSegment bc cc dd
  else if t <. lit 0 then pointSegment cc ac bc
  else if t >. lit 1 then pointSegment dd ac bc
  else
    Distance3D.distance (Coord.xyz (ac.x +. s *. (bc.x -. ac.x)) (ac.y +. s *. (bc.y -. ac.y)) (ac.z +. s *. (bc.z -. ac.z)))
      (Coord.xyz (cc.x +. t *. (dd.x -. cc.x)) (cc.y +. t *. (dd.y -. cc.y)) (cc.z +. t *. (dd.z -. cc.z)))

theorem segmentSegment_tail {α : Type} [FltSqrt α] (ac bc cc dd : Coord α) :
    segmentSegment ac bc cc dd =
      if ac.equals3D bc then pointSegment ac cc dd
      else if cc.equals3D bc then pointSegment cc ac bc
      else
        let a := Vec3.dot4 ac bc ac bc
        let b := Vec3.dot4 ac bc cc dd
        let c := Vec3.dot4 cc dd cc dd
        let d := Vec3.dot4 ac bc cc ac
        let e := Vec3.dot4 cc dd cc ac
        let denom := a *. c -. b *. b
        if isNaN denom then nan else tail3 (params a b c d e denom).1 (params a b c d e denom).2 ac bc cc dd := rfl

/-- What rounding keeps of a parameter. -/
def Kept (x : ℚ) : Prop := (x = 0 ∨ 2 ^ (-51 : ℤ) ≤ |x|) ∧ (near x < 0 ↔ x < 0) ∧ (1 < near x ↔ 1 < x)

theorem kept_zero : Kept 0 := by
  refine ⟨.inl rfl, by rw [near_zero], by rw [near_zero]⟩

theorem kept_ratio {h : ℤ} {n d : ℚ} (hn : OrdB 51 h n) (hd : OrdB 51 h d) (d0 : d ≠ 0) :
    (Fl.fin n : B64 sq hy) /. Fl.fin d = Fl.fin (near (n / d)) ∧ Kept (n / d) := by
  obtain ⟨r1, -, r3, -, -, r6, -, r8⟩ := ratio64 (sq := sq) (hy := hy) hn hd d0
  exact ⟨r1, r3.imp_left (fun h => by rw [h, zero_div]), r6, r8⟩

/-- Both parameters are the rounded values of the exact ones. -/
theorem params64 {h : ℤ} (h1 : -1074 ≤ h + h) (h2 : h + h ≤ 900) {A B C D E : ℚ} (hA : OrdB 24 h A) (hB : OrdB 24 h B) (hC : OrdB 24 h C) (hD : OrdB 24 h D)
    (hE : OrdB 24 h E) (C0 : 0 < C) :
    (Fl.fin A : B64 sq hy) *. Fl.fin C -. Fl.fin B *. Fl.fin B = Fl.fin (A * C - B * B) ∧
    ∃ s t : ℚ, params (Fl.fin A : B64 sq hy) (Fl.fin B) (Fl.fin C) (Fl.fin D) (Fl.fin E) (Fl.fin (A * C - B * B)) = (Fl.fin (near s), Fl.fin (near t)) ∧
      params (A : ℝ) B C D E ((A : ℝ) *. (C : ℝ) -. (B : ℝ) *. (B : ℝ)) = ((s : ℝ), (t : ℝ)) ∧ Kept s ∧ Kept t := by
  have z64 : (lit 0 : B64 sq hy) = Fl.fin 0 := rnd_of_f64 (f64_of (by decide +kernel))
  have m : ∀ {x y : ℚ}, OrdB 24 h x → OrdB 24 h y → (Fl.fin x : B64 sq hy) *. Fl.fin y = Fl.fin (x * y) := fun hx hy' =>
    mul_fin (ordB_f64 (hx.mul hy') (by omega) h1 h2)
  have md : ∀ {x y u v : ℚ}, OrdB 24 h x → OrdB 24 h y → OrdB 24 h u → OrdB 24 h v →
      (Fl.fin x : B64 sq hy) *. Fl.fin y -. Fl.fin u *. Fl.fin v = Fl.fin (x * y - u * v) ∧ OrdB 51 (h + h) (x * y - u * v) := fun hx hy' hu hv => by
    have o := (hx.mul hy').sub (hu.mul hv)
    refine ⟨?_, o.mono (by omega)⟩
    rw [m hx hy', m hu hv]
    exact sub_fin (ordB_f64 o (by omega) h1 h2)
  obtain ⟨e1, o1⟩ := md hA hC hB hB
  obtain ⟨e2, o2⟩ := md hB hE hC hD
  obtain ⟨e3, o3⟩ := md hA hE hB hD
  refine ⟨e1, ?_⟩
  unfold params
  rw [z64, e2, e3]
  rw [show ((Fl.fin (A * C - B * B) : B64 sq hy) ≤. Fl.fin 0) = decide (A * C - B * B ≤ 0) from rfl,
    show ((Fl.fin B : B64 sq hy) >. Fl.fin C) = decide (C < B) from rfl]
  simp only [exact_sub, exact_mul, exact_le, exact_lit, exact_lt, exact_div, Rat.cast_zero]
  have up : ∀ {x : ℚ}, OrdB 24 h x → OrdB 51 h x := fun h => h.mono (by omega)
  by_cases k : A * C - B * B ≤ 0
  · have k' : (A : ℝ) * C - B * B ≤ 0 := by exact_mod_cast k
    simp only [k, k', decide_true, if_true]
    by_cases kb : C < B
    · have kb' : (C : ℝ) < B := by exact_mod_cast kb
      obtain ⟨r, kr⟩ := kept_ratio (sq := sq) (hy := hy) (up hD) (up hB) (C0.trans kb).ne'
      refine ⟨0, D / B, ?_, ?_, kept_zero, kr⟩
      · simp only [kb, decide_true, if_true, r, near_zero]
      · simp only [kb', decide_true, if_true]; push_cast; rfl
    · have kb' : ¬ (C : ℝ) < B := by exact_mod_cast kb
      obtain ⟨r, kr⟩ := kept_ratio (sq := sq) (hy := hy) (up hE) (up hC) C0.ne'
      refine ⟨0, E / C, ?_, ?_, kept_zero, kr⟩
      · simp only [kb, decide_false, Bool.false_eq_true, if_false, r, near_zero]
      · simp only [kb', decide_false, Bool.false_eq_true, if_false]; push_cast; rfl
  · have k' : ¬ (A : ℝ) * C - B * B ≤ 0 := by exact_mod_cast k
    have n0 : A * C - B * B ≠ 0 := fun h => k h.le
    obtain ⟨r, kr⟩ := kept_ratio (sq := sq) (hy := hy) o2 o1 n0
    obtain ⟨r', kr'⟩ := kept_ratio (sq := sq) (hy := hy) o3 o1 n0
    refine ⟨_, _, ?_, ?_, kr, kr'⟩
    · simp only [k, decide_false, Bool.false_eq_true, if_false, r, r']
    · simp only [k', decide_false, Bool.false_eq_true, if_false]; push_cast; rfl

/-- The distance of the two points inside their segments. -/
theorem inner64 {k : ℕ} (hk : k ≤ 23) {g : ℤ} (h1 : -376 ≤ g) (h2 : g ≤ 400) {ε : ℝ} (lib : Lib64 sq hy ε) (hε : ε ≤ 1 / 2 ^ 52) (h0 : sq 0 = .fin 0)
    {a b c d : Coord ℚ} (ha : Grid3 k g a) (hb : Grid3 k g b) (hc : Grid3 k g c) (hd : Grid3 k g d) {s t : ℚ} (s0 : s = 0 ∨ 2 ^ (-51 : ℤ) ≤ s) (s1 : s ≤ 1)
    (t0 : t = 0 ∨ 2 ^ (-51 : ℤ) ≤ t) (t1 : t ≤ 1) :
    ∃ v : ℚ, Distance3D.distance
        (Coord.xyz (along1 (Fl.fin a.x) (Fl.fin b.x) (Fl.fin (near s))) (along1 (Fl.fin a.y) (Fl.fin b.y) (Fl.fin (near s))) (along1 (Fl.fin a.z) (Fl.fin b.z) (Fl.fin (near s))))
        (Coord.xyz (along1 (Fl.fin c.x) (Fl.fin d.x) (Fl.fin (near t))) (along1 (Fl.fin c.y) (Fl.fin d.y) (Fl.fin (near t))) (along1 (Fl.fin c.z) (Fl.fin d.z) (Fl.fin (near t)))) =
        (Fl.fin v : B64 sq hy) ∧ 0 ≤ v ∧
      |(v : ℝ) - len3 ((a.x + s * (b.x - a.x)) - (c.x + t * (d.x - c.x))) ((a.y + s * (b.y - a.y)) - (c.y + t * (d.y - c.y)))
        ((a.z + s * (b.z - a.z)) - (c.z + t * (d.z - c.z)))| ≤ 2 ^ (g + k - 47) := by
  have one : ∀ {a b c d : ℚ}, OrdB k g a → OrdB k g b → OrdB k g c → OrdB k g d →
      ∃ u v w, along1 (Fl.fin a) (Fl.fin b) (Fl.fin (near s) : B64 sq hy) = Fl.fin u ∧ along1 (Fl.fin c) (Fl.fin d) (Fl.fin (near t) : B64 sq hy) = Fl.fin v ∧
        (Fl.fin u : B64 sq hy) -. Fl.fin v = Fl.fin w ∧ (IsF64 w ∧ |w| ≤ 2 ^ (g + 25) ∧ ∃ l : ℤ, w = l * 2 ^ (g - 104)) ∧ |(w : ℝ)| ≤ 2 ^ (g + k + 1) ∧
        |(w : ℝ) - ((a + s * (b - a)) - (c + t * (d - c)))| ≤ 7 / 4 * 2 ^ (g + k - 50) := by
    intro a b c d ha hb hc hd
    obtain ⟨u, hu, fu, ue⟩ := pos64 (sq := sq) (hy := hy) hk h1 h2 ha hb s0 s1
    obtain ⟨v, hv, fv, ve⟩ := pos64 (sq := sq) (hy := hy) hk h1 h2 hc hd t0 t1
    obtain ⟨w, hw, fw, bw, we⟩ := diff64 (sq := sq) (hy := hy) hk h1 h2 fu fv
    refine ⟨u, v, w, hu, hv, hw, fw, cast_bound bw, ?_⟩
    have P : (2 : ℚ) ^ (g + k - 50) = 4 * 2 ^ (g + k - 52) := by rw [show g + (k : ℤ) - 50 = 2 + (g + k - 52) by ring, two_add]; norm_num
    have : |w - ((a + s * (b - a)) - (c + t * (d - c)))| ≤ 7 / 4 * 2 ^ (g + k - 50) := by
      have a1 := abs_le.mp ue
      have a2 := abs_le.mp ve
      have a3 := abs_le.mp we
      rw [P, abs_le]
      constructor <;> linarith
    have : ((|w - ((a + s * (b - a)) - (c + t * (d - c)))| : ℚ) : ℝ) ≤ ((7 / 4 * 2 ^ (g + k - 50) : ℚ) : ℝ) := Rat.cast_le.mpr this
    push_cast at this
    exact this
  obtain ⟨ux, vx, x, e1, e2, e3, fx, bx, qx⟩ := one ha.1 hb.1 hc.1 hd.1
  obtain ⟨uy, vy, y, e4, e5, e6, fy, bY, qy⟩ := one ha.2.1 hb.2.1 hc.2.1 hd.2.1
  obtain ⟨uz, vz, z, e7, e8, e9, fz, bz, qz⟩ := one ha.2.2 hb.2.2 hc.2.2 hd.2.2
  obtain ⟨w, hw, w0, we⟩ := root64 h1 h2 lib hε h0 fx fy fz
  rw [e1, e2, e4, e5, e7, e8]
  refine ⟨w, ?_, w0, ?_⟩
  · refine Eq.trans ?_ hw
    rw [← e3, ← e6, ← e9]
    rfl
  have k1 := len3_close _ _ _ _ _ _ _ qx qy qz
  have k2 := len3_le bx bY bz
  have P27 : (2 : ℝ) ^ (g + k + 1) = 2 ^ 51 * 2 ^ (g + k - 50) := by
    rw [← zpow_natCast, ← zpow_add₀ (by norm_num)]; congr 1; push_cast; ring
  have P25 : (2 : ℝ) ^ (g + k - 47) = 8 * 2 ^ (g + k - 50) := by
    rw [show g + (k : ℤ) - 47 = 3 + (g + k - 50) by ring, zpow_add₀ (by norm_num)]; norm_num
  have pos : (0 : ℝ) < 2 ^ (g + k - 50) := by positivity
  rw [P27] at k2
  rw [P25]
  have a1 := abs_le.mp we
  have a2 := abs_le.mp k1
  have : 1 / 2 ^ 51 * len3 (x : ℝ) y z ≤ 7 / 4 * 2 ^ (g + k - 50) := by
    calc 1 / 2 ^ 51 * len3 (x : ℝ) y z ≤ 1 / 2 ^ 51 * (7 / 4 * (2 ^ 51 * 2 ^ (g + k - 50))) := by gcongr
      _ = _ := by ring
  rw [abs_le]
  constructor <;> linarith

theorem kept_pos {x : ℚ} (h : Kept x) (n : ¬ x < 0) : x = 0 ∨ 2 ^ (-51 : ℤ) ≤ x :=
  h.1.imp_right fun k => by rwa [abs_of_nonneg (not_lt.mp n)] at k

theorem r3_equals (a b : Coord ℚ) : (r3 a).equals3D (r3 b) = decide (a.x = b.x ∧ a.y = b.y ∧ a.z = b.z) := by
  rw [Bool.eq_iff_iff, equals3D_real, same3_r3, decide_eq_true_iff]

/-- C111: on grids of at most 10 bits the distance of two segments, the second of which is no point, is within 2^-47 of the size of the grid of what the formula gives without rounding. -/
theorem C111_segments {k : ℕ} (hk : k ≤ 10) {g : ℤ} (h1 : -268 ≤ g) (h2 : g ≤ 225) {ε : ℝ} (lib : Lib64 sq hy ε) (hε : ε ≤ 1 / 2 ^ 52) (h0 : sq 0 = .fin 0)
    {a b c d : Coord ℚ} (ha : Grid3 k g a) (hb : Grid3 k g b) (hc : Grid3 k g c) (hd : Grid3 k g d) (hcd : ¬ (c.x = d.x ∧ c.y = d.y ∧ c.z = d.z)) :
    ∃ v : ℚ, segmentSegment (p3 a : Coord (B64 sq hy)) (p3 b) (p3 c) (p3 d) = Fl.fin v ∧ 0 ≤ v ∧
      |(v : ℝ) - segmentSegment (r3 a) (r3 b) (r3 c) (r3 d)| ≤ 2 ^ (g + k - 47) := by
  have one : ∀ {p a b : Coord ℚ}, Grid3 k g p → Grid3 k g a → Grid3 k g b →
      ∃ v : ℚ, pointSegment (p3 p : Coord (B64 sq hy)) (p3 a) (p3 b) = Fl.fin v ∧ 0 ≤ v ∧ |(v : ℝ) - pointSegment (r3 p) (r3 a) (r3 b)| ≤ 2 ^ (g + k - 47) := by
    intro p a b hp ha hb
    obtain ⟨v, e, v0, ve, -⟩ := C111_point_segment (by omega) (by omega) (by omega) lib hε h0 hp ha hb (C54_point_segment (r3 p) (r3 a) (r3 b))
    exact ⟨v, e, v0, ve.trans (zpow_le_zpow_right₀ (by norm_num) (by omega))⟩
  rw [segmentSegment_tail, segmentSegment_tail, p3_equals, p3_equals, r3_equals, r3_equals]
  by_cases k1 : a.x = b.x ∧ a.y = b.y ∧ a.z = b.z
  · rw [if_pos (decide_eq_true k1), if_pos (decide_eq_true k1)]
    exact one ha hc hd
  have n1 : ¬ (decide (a.x = b.x ∧ a.y = b.y ∧ a.z = b.z) = true) := by rwa [decide_eq_true_iff]
  rw [if_neg n1, if_neg n1]
  by_cases k2 : c.x = b.x ∧ c.y = b.y ∧ c.z = b.z
  · rw [if_pos (decide_eq_true k2), if_pos (decide_eq_true k2)]
    exact one hc ha hb
  have n2 : ¬ (decide (c.x = b.x ∧ c.y = b.y ∧ c.z = b.z) = true) := by rwa [decide_eq_true_iff]
  rw [if_neg n2, if_neg n2]
  have up : ∀ {q : Coord ℚ}, Grid3 k g q → Grid3 24 g q := fun h => h.mono (by omega)
  have dt : ∀ {a b c d : Coord ℚ}, Grid3 k g a → Grid3 k g b → Grid3 k g c → Grid3 k g d →
      Vec3.dot4 (p3 a : Coord (B64 sq hy)) (p3 b) (p3 c) (p3 d) = Fl.fin (dot3Q a b c d) := fun ha hb hc hd =>
    C98_dot4_grid (g := g) (by omega) (by omega) (by
      simp only [List.mem_cons, List.not_mem_nil, or_false]; rintro q (rfl | rfl | rfl | rfl) <;> apply up <;> assumption)
  have od : ∀ {a b c d : Coord ℚ}, Grid3 k g a → Grid3 k g b → Grid3 k g c → Grid3 k g d → OrdB 24 (g + g) (dot3Q a b c d) := by
    intro a b c d ha hb hc hd
    have m1 := (hb.1.sub ha.1).mul (hd.1.sub hc.1)
    have m2 := (hb.2.1.sub ha.2.1).mul (hd.2.1.sub hc.2.1)
    have m3 := (hb.2.2.sub ha.2.2).mul (hd.2.2.sub hc.2.2)
    exact ((m1.add m2).add (m3.mono (by omega))).mono (by omega)
  have rt : ∀ a b c d : Coord ℚ, Vec3.dot4 (r3 a) (r3 b) (r3 c) (r3 d) = (dot3Q a b c d : ℝ) := fun a b c d => inner3_r3 a b c d
  obtain ⟨f1, s, t, f2, f3, ks, kt⟩ := params64 (sq := sq) (hy := hy) (by omega) (by omega) (od ha hb ha hb) (od ha hb hc hd) (od hc hd hc hd) (od ha hb hc ha) (od hc hd hc ha) (dot3Q_pos hcd)
  dsimp only
  rw [dt ha hb ha hb, dt ha hb hc hd, dt hc hd hc hd, dt ha hb hc ha, dt hc hd hc ha, f1, f2, rt, rt, rt, rt, rt, f3, exact_isNaN, if_neg Bool.false_ne_true,
    if_neg (show ¬ (isNaN (Fl.fin (dot3Q a b a b * dot3Q c d c d - dot3Q a b c d * dot3Q a b c d) : B64 sq hy) = true) from Bool.false_ne_true)]
  have z64 : (lit 0 : B64 sq hy) = Fl.fin 0 := rnd_of_f64 (f64_of (by decide +kernel))
  have lt : ∀ x y : ℚ, ((Fl.fin x : B64 sq hy) <. Fl.fin y) = decide (x < y) := fun _ _ => rfl
  have gt : ∀ x y : ℚ, ((Fl.fin x : B64 sq hy) >. Fl.fin y) = decide (y < x) := fun _ _ => rfl
  have c0 : ∀ x : ℚ, ((x : ℝ) < 0) = (x < 0) := fun x => by norm_cast
  have c1 : ∀ x : ℚ, ((1 : ℝ) < (x : ℝ)) = (1 < x) := fun x => by norm_cast
  unfold tail3
  simp only [exact_lt, exact_lit, Rat.cast_zero, Rat.cast_one, c0, c1]
  rw [z64, one64]
  simp only [lt, ks.2.1, ks.2.2, kt.2.1, kt.2.2]
  by_cases s0 : s < 0
  · simp only [s0, decide_true, if_true]; exact one ha hc hd
  by_cases s1 : 1 < s
  · simp only [s0, s1, decide_true, decide_false, Bool.false_eq_true, if_true, if_false]; exact one hb hc hd
  by_cases t0 : t < 0
  · simp only [s0, s1, t0, decide_true, decide_false, Bool.false_eq_true, if_true, if_false]; exact one hc ha hb
  by_cases t1 : 1 < t
  · simp only [s0, s1, t0, t1, decide_true, decide_false, Bool.false_eq_true, if_true, if_false]; exact one hd ha hb
  simp only [s0, s1, t0, t1, decide_false, Bool.false_eq_true, if_false]
  obtain ⟨v, hv, v0, ve⟩ := inner64 (by omega : k ≤ 23) (by omega) (by omega) lib hε h0 ha hb hc hd (kept_pos ks s0) (not_lt.mp s1) (kept_pos kt t0) (not_lt.mp t1)
  refine ⟨v, hv, v0, ?_⟩
  rw [distance3_real]
  exact ve

/-- C111: so it is that close to the least distance, if that is not more than the distances of the ends of the second segment to the first; otherwise the least of three answers is. -/
theorem C111_segments_least {k : ℕ} (hk : k ≤ 10) {g : ℤ} (h1 : -268 ≤ g) (h2 : g ≤ 225) {ε : ℝ} (lib : Lib64 sq hy ε) (hε : ε ≤ 1 / 2 ^ 52) (h0 : sq 0 = .fin 0)
    {a b c d : Coord ℚ} (ha : Grid3 k g a) (hb : Grid3 k g b) (hc : Grid3 k g c) (hd : Grid3 k g d) (hcd : ¬ (c.x = d.x ∧ c.y = d.y ∧ c.z = d.z)) {D : ℝ}
    (hD : LeastDist3 (fun q => OnSegment3 q (r3 a) (r3 b)) (fun q => OnSegment3 q (r3 c) (r3 d)) D) :
    ∃ v u w : ℚ, segmentSegment (p3 a : Coord (B64 sq hy)) (p3 b) (p3 c) (p3 d) = Fl.fin v ∧ pointSegment (p3 c : Coord (B64 sq hy)) (p3 a) (p3 b) = Fl.fin u ∧
      pointSegment (p3 d : Coord (B64 sq hy)) (p3 a) (p3 b) = Fl.fin w ∧ |((min v (min u w) : ℚ) : ℝ) - D| ≤ 2 ^ (g + k - 47) ∧
      (NearOnOne (r3 a) (r3 b) (r3 c) (r3 d) → |(v : ℝ) - D| ≤ 2 ^ (g + k - 47)) := by
  have hcd' : ¬ Same3 (r3 c) (r3 d) := by rwa [same3_r3]
  obtain ⟨v, hv, -, ve⟩ := C111_segments hk h1 h2 lib hε h0 ha hb hc hd hcd
  obtain ⟨u, hu, -, ue, -⟩ := C111_point_segment (by omega) (by omega) (by omega) lib hε h0 hc ha hb (C54_point_segment (r3 c) (r3 a) (r3 b))
  obtain ⟨w, hw, -, we, -⟩ := C111_point_segment (by omega) (by omega) (by omega) lib hε h0 hd ha hb (C54_point_segment (r3 d) (r3 a) (r3 b))
  have le : (2 : ℝ) ^ (g + k - 48) ≤ 2 ^ (g + k - 47) := zpow_le_zpow_right₀ (by norm_num) (by omega)
  refine ⟨v, u, w, hv, hu, hw, ?_, fun hn => ?_⟩
  · rw [leastDist3_unique hD (C109_segments_in_space _ _ _ _ hcd').1]
    push_cast
    have mm : ∀ {p q r s e : ℝ}, |p - r| ≤ e → |q - s| ≤ e → |min p q - min r s| ≤ e := fun h h' =>
      (abs_min_sub_min_le_max _ _ _ _).trans (max_le h h')
    exact mm ve (mm (ue.trans le) (we.trans le))
  · rw [leastDist3_unique hD (C54_segment_segment_partial _ _ _ _ hcd' hn)]
    exact ve

/-- The point (1, 0, 0) is on the segment from the origin to (49, 0, 0), but its distance to it comes out as 2^-53, not 0. -/
theorem C111_on_segment_not_zero (hs : sq (1 / 2 ^ 106) = .fin (1 / 2 ^ 53)) :
    pointSegment (p3 ⟨1, 0, 0, 0⟩ : Coord (B64 sq hy)) (p3 ⟨0, 0, 0, 0⟩) (p3 ⟨49, 0, 0, 0⟩) = Fl.fin (1 / 2 ^ 53) ∧
    OnSegment3 (r3 ⟨1, 0, 0, 0⟩) (r3 ⟨0, 0, 0, 0⟩) (r3 ⟨49, 0, 0, 0⟩) := by
  constructor
  · have s0 : ((Fl.fin 0 : B64 sq hy) -. Fl.fin 0) = Fl.fin 0 := (by decide +kernel : rnd (0 + -0) = Val.fin 0)
    have s1 : ((Fl.fin 1 : B64 sq hy) -. Fl.fin 0) = Fl.fin 1 := (by decide +kernel : rnd (1 + -0) = Val.fin 1)
    have s2 : ((Fl.fin 49 : B64 sq hy) -. Fl.fin 0) = Fl.fin 49 := (by decide +kernel : rnd (49 + -0) = Val.fin 49)
    have m0 : ((Fl.fin 0 : B64 sq hy) *. Fl.fin 0) = Fl.fin 0 := (by decide +kernel : rnd (0 * 0) = Val.fin 0)
    have m1 : ((Fl.fin 49 : B64 sq hy) *. Fl.fin 49) = Fl.fin 2401 := (by decide +kernel : rnd (49 * 49) = Val.fin 2401)
    have m2 : ((Fl.fin 1 : B64 sq hy) *. Fl.fin 49) = Fl.fin 49 := (by decide +kernel : rnd (1 * 49) = Val.fin 49)
    have a0 : ((Fl.fin 2401 : B64 sq hy) +. Fl.fin 0) = Fl.fin 2401 := (by decide +kernel : rnd (2401 + 0) = Val.fin 2401)
    have a1 : ((Fl.fin 49 : B64 sq hy) +. Fl.fin 0) = Fl.fin 49 := (by decide +kernel : rnd (49 + 0) = Val.fin 49)
    have d : ((Fl.fin 49 : B64 sq hy) /. Fl.fin 2401) = Fl.fin (5882252574524729 / 2 ^ 58) :=
      (by decide +kernel : rnd (49 / 2401) = Val.fin (5882252574524729 / 2 ^ 58))
    have m3 : ((Fl.fin (5882252574524729 / 2 ^ 58) : B64 sq hy) *. Fl.fin 49) = Fl.fin (1 - 1 / 2 ^ 53) :=
      (by decide +kernel : rnd (5882252574524729 / 2 ^ 58 * 49) = Val.fin (1 - 1 / 2 ^ 53))
    have m4 : ((Fl.fin (5882252574524729 / 2 ^ 58) : B64 sq hy) *. Fl.fin 0) = Fl.fin 0 :=
      (by decide +kernel : rnd (5882252574524729 / 2 ^ 58 * 0) = Val.fin 0)
    have a2 : ((Fl.fin 0 : B64 sq hy) +. Fl.fin (1 - 1 / 2 ^ 53)) = Fl.fin (1 - 1 / 2 ^ 53) := (by decide +kernel : rnd (0 + (1 - 1 / 2 ^ 53)) = Val.fin (1 - 1 / 2 ^ 53))
    have a3 : ((Fl.fin 0 : B64 sq hy) +. Fl.fin 0) = Fl.fin 0 := (by decide +kernel : rnd (0 + 0) = Val.fin 0)
    have s3 : ((Fl.fin 1 : B64 sq hy) -. Fl.fin (1 - 1 / 2 ^ 53)) = Fl.fin (1 / 2 ^ 53) := (by decide +kernel : rnd (1 + -(1 - 1 / 2 ^ 53)) = Val.fin (1 / 2 ^ 53))
    have m5 : ((Fl.fin (1 / 2 ^ 53) : B64 sq hy) *. Fl.fin (1 / 2 ^ 53)) = Fl.fin (1 / 2 ^ 106) := (by decide +kernel : rnd (1 / 2 ^ 53 * (1 / 2 ^ 53)) = Val.fin (1 / 2 ^ 106))
    have a4 : ((Fl.fin (1 / 2 ^ 106) : B64 sq hy) +. Fl.fin 0) = Fl.fin (1 / 2 ^ 106) := (by decide +kernel : rnd (1 / 2 ^ 106 + 0) = Val.fin (1 / 2 ^ 106))
    have z64 : (lit 0 : B64 sq hy) = Fl.fin 0 := rnd_of_f64 (f64_of (by decide +kernel))
    have le : ((Fl.fin (5882252574524729 / 2 ^ 58) : B64 sq hy) ≤. Fl.fin 0) = false := (by decide +kernel : decide ((5882252574524729 / 2 ^ 58 : ℚ) ≤ 0) = false)
    have ge : ((Fl.fin 1 : B64 sq hy) ≤. Fl.fin (5882252574524729 / 2 ^ 58)) = false := (by decide +kernel : decide ((1 : ℚ) ≤ 5882252574524729 / 2 ^ 58) = false)
    have nn : isNaN (Fl.fin 2401 : B64 sq hy) = false := rfl
    unfold pointSegment
    rw [p3_equals, if_neg (by norm_num)]
    simp only [p3, Coord.xyz, s0, s1, s2, m0, m1, m2, a0, a1, d, z64, one64, le, ge, nn, Bool.false_eq_true, if_false, m3, m4, a2, a3, s3, m5, a4]
    rw [sqrt_of_sq _ (by norm_num), hs]
  · refine ⟨1 / 49, by norm_num, by norm_num, ?_⟩
    simp [Same3, along, r3]

theorem lib64_zero : ∃ (sq : ℚ → Val) (hy : ℚ → ℚ → Val), Lib64 sq hy (1 / 2 ^ 52) ∧ sq 0 = .fin 0 ∧ sq (1 / 2 ^ 106) = .fin (1 / 2 ^ 53) := by
  obtain ⟨sq, hy, lib⟩ := lib64_exists
  refine ⟨fun a => if a = 0 then .fin 0 else if a = 1 / 2 ^ 106 then .fin (1 / 2 ^ 53) else sq a, hy, ⟨lib.nonneg, lib.le_half, fun a ha h => ?_, lib.zero, lib.hypot⟩, if_pos rfl, ?_⟩
  · have a0 : a ≠ 0 := ((two_pos _).trans_le h).ne'
    rw [if_neg a0]
    by_cases k : a = 1 / 2 ^ 106
    · rw [if_pos k]
      refine ⟨_, rfl, ?_⟩
      have : √(a : ℝ) = 1 / 2 ^ 53 := by
        rw [k, Real.sqrt_eq_iff_mul_self_eq (by norm_num) (by norm_num)]
        norm_num
      rw [this]
      norm_num
    · rw [if_neg k]
      exact lib.sqrt a ha h
  · exact (if_neg (by norm_num)).trans (if_pos rfl)

/-- A library as in the witness above. -/
example : ∃ (sq : ℚ → Val) (hy : ℚ → ℚ → Val), Lib64 sq hy (1 / 2 ^ 52) ∧
    pointSegment (p3 ⟨1, 0, 0, 0⟩ : Coord (B64 sq hy)) (p3 ⟨0, 0, 0, 0⟩) (p3 ⟨49, 0, 0, 0⟩) = Fl.fin (1 / 2 ^ 53) := by
  obtain ⟨sq, hy, lib, -, h⟩ := lib64_zero
  exact ⟨sq, hy, lib, (C111_on_segment_not_zero h).1⟩

/-- The hypotheses can be met: a point and two segments on the grid of the integers. -/
example : ∃ (sq : ℚ → Val) (hy : ℚ → ℚ → Val), Lib64 sq hy (1 / 2 ^ 52) ∧
    (∃ v : ℚ, Distance3D.distance (p3 ⟨1, 2, 3, 0⟩ : Coord (B64 sq hy)) (p3 ⟨4, 5, 7, 0⟩) = Fl.fin v ∧ v ≠ 0) ∧
    (∃ v : ℚ, pointSegment (p3 ⟨1, 2, 3, 0⟩ : Coord (B64 sq hy)) (p3 ⟨0, 0, 0, 0⟩) (p3 ⟨4, 5, 7, 0⟩) = Fl.fin v ∧ 0 ≤ v) ∧
    (∃ v : ℚ, segmentSegment (p3 ⟨1, 2, 3, 0⟩ : Coord (B64 sq hy)) (p3 ⟨0, 0, 0, 0⟩) (p3 ⟨4, 5, 7, 0⟩) (p3 ⟨9, -1, 6, 0⟩) = Fl.fin v ∧ 0 ≤ v) := by
  obtain ⟨sq, hy, lib, h0, -⟩ := lib64_zero
  have on : ∀ (k : ℕ) (m n l : ℤ), |m| ≤ 2 ^ k → |n| ≤ 2 ^ k → |l| ≤ 2 ^ k → Grid3 k 0 (⟨m, n, l, 0⟩ : Coord ℚ) := fun k m n l h h' h'' =>
    ⟨⟨m, h, by simp⟩, ⟨n, h', by simp⟩, ⟨l, h'', by simp⟩⟩
  have g1 : ∀ k, 10 ≤ k → Grid3 k 0 (⟨1, 2, 3, 0⟩ : Coord ℚ) := fun k hk => Grid3.mono hk (by simpa using on 10 1 2 3 (by norm_num) (by norm_num) (by norm_num))
  have g2 : ∀ k, 10 ≤ k → Grid3 k 0 (⟨4, 5, 7, 0⟩ : Coord ℚ) := fun k hk => Grid3.mono hk (by simpa using on 10 4 5 7 (by norm_num) (by norm_num) (by norm_num))
  have g3 : ∀ k, 10 ≤ k → Grid3 k 0 (⟨0, 0, 0, 0⟩ : Coord ℚ) := fun k hk => Grid3.mono hk (by simpa using on 10 0 0 0 (by norm_num) (by norm_num) (by norm_num))
  have g4 : ∀ k, 10 ≤ k → Grid3 k 0 (⟨9, -1, 6, 0⟩ : Coord ℚ) := fun k hk => Grid3.mono hk (by simpa using on 10 9 (-1) 6 (by norm_num) (by norm_num) (by norm_num))
  refine ⟨sq, hy, lib, ?_, ?_, ?_⟩
  · obtain ⟨v, hv, -, -, hz⟩ := C111_points (g := 0) (by norm_num) (by norm_num) lib h0 (g1 24 (by norm_num)) (g2 24 (by norm_num))
    refine ⟨v, hv, fun h => ?_⟩
    have := hz.mp h
    norm_num [Same3, r3] at this
  · obtain ⟨v, hv, v0, -⟩ := C111_point_segment (k := 23) le_rfl (g := 0) (by norm_num) (by norm_num) lib le_rfl h0 (g1 23 (by norm_num)) (g3 23 (by norm_num)) (g2 23 (by norm_num)) (C54_point_segment _ _ _)
    exact ⟨v, hv, v0⟩
  · obtain ⟨v, hv, v0, -⟩ := C111_segments (k := 10) le_rfl (g := 0) (by norm_num) (by norm_num) lib le_rfl h0 (g1 10 le_rfl) (g3 10 le_rfl) (g2 10 le_rfl) (g4 10 le_rfl) (by norm_num)
    exact ⟨v, hv, v0⟩

end Verif.Props
