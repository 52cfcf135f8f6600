import Verif.Props.HeightsDoubles

/-! # C123: distances in space for arbitrary doubles -/

namespace Verif.Props
open Flt Verif.Spec Verif.Binary64 Verif.Distance3D

variable {sq : ℚ → Val} {hy : ℚ → ℚ → Val}

/-- The computed sum of three squares. -/
theorem sum3_close {d e f : ℚ} {x y z : ℝ} (hd : |(d : ℝ) - x| ≤ |x| / 2 ^ 53) (he : |(e : ℝ) - y| ≤ |y| / 2 ^ 53) (hf : |(f : ℝ) - z| ≤ |z| / 2 ^ 53)
    (hx : |x| ≤ 2 ^ 300) (hy' : |y| ≤ 2 ^ 300) (hz : |z| ≤ 2 ^ 300) :
    ∃ v : ℚ, (Fl.fin d : B64 sq hy) *. Fl.fin d +. Fl.fin e *. Fl.fin e +. Fl.fin f *. Fl.fin f = Fl.fin v ∧ IsF64 v ∧ 0 ≤ v ∧
      |(v : ℝ) - (x ^ 2 + y ^ 2 + z ^ 2)| ≤ 8 / 2 ^ 53 * (x ^ 2 + y ^ 2 + z ^ 2) + 7 * tiny := by
  obtain ⟨m, m1, m2, m0, m3⟩ := sq_close (sq := sq) (hy := hy) hd hx
  obtain ⟨n, n1, n2, n0, n3⟩ := sq_close (sq := sq) (hy := hy) he hy'
  obtain ⟨l, l1, l2, l0, l3⟩ := sq_close (sq := sq) (hy := hy) hf hz
  rw [m1, n1, l1]
  have x0 := sq_nonneg x
  have y0 := sq_nonneg y
  have z0 := sq_nonneg z
  have sm : ∀ {x : ℝ}, |x| ≤ 2 ^ 300 → x ^ 2 ≤ 2 ^ 600 := fun {x} hx => by
    rw [← sq_abs]
    calc |x| ^ 2 ≤ (2 ^ 300) ^ 2 := pow_le_pow_left₀ (abs_nonneg _) hx 2
      _ = 2 ^ 600 := by rw [← pow_mul]
  have x1 := sm hx
  have y1 := sm hy'
  have z1 := sm hz
  have t0 := tiny_pos
  have t1 : tiny ≤ 1 := (tiny_le (k := 0) (by norm_num)).trans (by norm_num)
  have add : ∀ {m n : ℚ}, IsF64 m → IsF64 n → 0 ≤ m → 0 ≤ n → (m : ℝ) + n ≤ 16 * 2 ^ 600 →
      (Fl.fin m : B64 sq hy) +. Fl.fin n = Fl.fin (near (m + n)) ∧ IsF64 (near (m + n)) ∧ 0 ≤ near (m + n) ∧
      |((near (m + n) : ℚ) : ℝ) - ((m : ℝ) + n)| ≤ ((m : ℝ) + n) / 2 ^ 53 := by
    intro m n m2 n2 m0 n0 b
    have r := near_add_rel m2.1 n2.1
    have r' : |((near (m + n) : ℚ) : ℝ) - ((m : ℝ) + n)| ≤ ((m : ℝ) + n) / 2 ^ 53 := by
      rw [abs_of_nonneg (add_nonneg m0 n0)] at r
      have : ((|m + n - near (m + n)| : ℚ) : ℝ) ≤ (((m + n) / 2 ^ 53 : ℚ) : ℝ) := by exact_mod_cast r
      push_cast at this
      rwa [abs_sub_comm] at this
    have fin : |near (m + n)| < 2 ^ 1024 := near_small (by
      have c0 : (0 : ℝ) ≤ ((m + n : ℚ) : ℝ) := by exact_mod_cast add_nonneg m0 n0
      rw [abs_of_nonneg c0]
      push_cast
      refine b.trans ?_
      calc (16 : ℝ) * 2 ^ 600 = 2 ^ 4 * 2 ^ 600 := by norm_num
        _ = 2 ^ 604 := by rw [← pow_add]
        _ ≤ 2 ^ 1000 := pow_le_pow_right₀ (by norm_num) (by norm_num))
    exact ⟨(rnd_fin_iff _ _).mpr ⟨rfl, fin⟩, ⟨near_rep _, fin⟩, near_nonneg (add_nonneg m0 n0), r'⟩
  have p6 : (1 : ℝ) ≤ 2 ^ 600 := one_le_pow₀ (by norm_num)
  have ma := abs_le.mp m3
  have na := abs_le.mp n3
  have la := abs_le.mp l3
  have q1 : (m : ℝ) + n ≤ 5 * 2 ^ 600 := by
    clear add hx hy' hz
    generalize (2 : ℝ) ^ 600 = Z at *
    linarith [ma.2, na.2]
  obtain ⟨a1, a2, a3, a4⟩ := add m2 n2 m0 n0 (q1.trans (mul_le_mul_of_nonneg_right (by norm_num) (by positivity)))
  have q2 : ((near (m + n) : ℚ) : ℝ) + l ≤ 16 * 2 ^ 600 := by
    have := abs_le.mp a4
    clear add hx hy' hz
    generalize (2 : ℝ) ^ 600 = Z at *
    linarith [la.2, this.2]
  obtain ⟨b1, b2, b3, b4⟩ := add a2 l2 a3 l0 q2
  rw [a1, b1]
  refine ⟨_, rfl, b2, b3, ?_⟩
  obtain ⟨c1, c2⟩ := abs_le.mp a4
  obtain ⟨d1, d2⟩ := abs_le.mp b4
  rw [abs_le]
  constructor <;> linarith [ma.1, ma.2, na.1, na.2, la.1, la.2]

section Roots
variable {ε : ℝ} (lib : Lib64 sq hy ε) (hε : ε ≤ 1 / 2 ^ 52) (hr : SmallRoots sq)
include lib hε hr

/-- Square roots of all doubles that are not negative. -/
theorem root_any {a : ℚ} (fa : IsF64 a) (a0 : 0 ≤ a) : ∃ v : ℚ, FltSqrt.sqrt (Fl.fin a : B64 sq hy) = Fl.fin v ∧ |(v : ℝ) - √(a : ℝ)| ≤ 1 / 2 ^ 52 * √(a : ℝ) + 2 * (1 / 2 ^ 500) := by
  have rn := Real.sqrt_nonneg (a : ℝ)
  rcases lt_or_ge a (2 ^ (-1022 : ℤ)) with k | k
  · obtain ⟨f, f1, f2⟩ := hr _ fa a0 k
    refine ⟨f, (sqrt_of_sq _ a0).trans f1, ?_⟩
    have b : √(a : ℝ) ≤ 1 / 2 ^ 500 := by
      rw [Real.sqrt_le_left (by positivity)]
      have k' : (a : ℝ) ≤ (((2 : ℚ) ^ (-1022 : ℤ) : ℚ) : ℝ) := by exact_mod_cast k.le
      refine k'.trans ?_
      rw [Rat.cast_zpow, Rat.cast_ofNat, zpow_neg, ← one_div, div_pow, one_pow, ← pow_mul]
      exact one_div_le_one_div_of_le (by positivity) (by
        rw [show (1022 : ℤ) = ((1022 : ℕ) : ℤ) from rfl, zpow_natCast]
        exact pow_le_pow_right₀ (by norm_num) (by norm_num))
    have := abs_sub (f : ℝ) √(a : ℝ)
    rw [abs_of_nonneg rn] at this
    have : 0 ≤ 1 / 2 ^ 52 * √(a : ℝ) := by positivity
    generalize (1 : ℝ) / 2 ^ 500 = Z at *
    linarith
  · obtain ⟨f, f1, f2⟩ := lib.sqrt _ fa k
    refine ⟨f, (sqrt_of_sq _ a0).trans f1, f2.trans ?_⟩
    have := mul_le_mul_of_nonneg_right hε rn
    have z : (0 : ℝ) ≤ 2 * (1 / 2 ^ 500) := by positivity
    linarith

/-- The computed length of a vector whose ordinates have small relative errors. -/
theorem root3_close {d e f : ℚ} {x y z : ℝ} (hd : |(d : ℝ) - x| ≤ |x| / 2 ^ 53) (he : |(e : ℝ) - y| ≤ |y| / 2 ^ 53) (hf : |(f : ℝ) - z| ≤ |z| / 2 ^ 53)
    (hx : |x| ≤ 2 ^ 300) (hy' : |y| ≤ 2 ^ 300) (hz : |z| ≤ 2 ^ 300) :
    ∃ v : ℚ, FltSqrt.sqrt ((Fl.fin d : B64 sq hy) *. Fl.fin d +. Fl.fin e *. Fl.fin e +. Fl.fin f *. Fl.fin f) = Fl.fin v ∧
      |(v : ℝ) - len3 x y z| ≤ 11 / 2 ^ 53 * len3 x y z + 1 / 2 ^ 498 := by
  obtain ⟨s, s1, s2, s3, s4⟩ := sum3_close (sq := sq) (hy := hy) hd he hf hx hy' hz
  obtain ⟨v, v1, v2⟩ := root_any lib hε hr s2 s3
  rw [s1]
  refine ⟨v, v1, ?_⟩
  unfold len3
  have S0 : 0 ≤ x ^ 2 + y ^ 2 + z ^ 2 := by positivity
  have tt : 7 * tiny ≤ (1 / 2 ^ 530) ^ 2 := by
    have : tiny ≤ 1 / 2 ^ 1063 := tiny_le (by norm_num)
    have e : ((1 : ℝ) / 2 ^ 530) ^ 2 = 8 * (1 / 2 ^ 1063) := by
      rw [div_pow, one_pow, ← pow_mul, show (1063 : ℕ) = 3 + 530 * 2 from rfl, pow_add, ← one_div_mul_one_div, ← mul_assoc]; norm_num
    rw [e]
    have z : (0 : ℝ) < 1 / 2 ^ 1063 := by positivity
    generalize (1 : ℝ) / 2 ^ 1063 = Z at *
    linarith
  have q := root_close (show (0 : ℝ) ≤ (s : ℝ) by exact_mod_cast s3) S0 (show (0 : ℝ) ≤ 8 / 2 ^ 53 by norm_num) (by norm_num) (show (0 : ℝ) ≤ 1 / 2 ^ 530 by positivity)
    (s4.trans (add_le_add le_rfl tt))
  have z1 : (1 : ℝ) / 2 ^ 530 ≤ 1 / 2 ^ 500 := one_div_le_one_div_of_le (by positivity) (pow_le_pow_right₀ (by norm_num) (by norm_num))
  have z2 : (4 : ℝ) * (1 / 2 ^ 500) = 1 / 2 ^ 498 := by
    rw [show (500 : ℕ) = 2 + 498 from rfl, pow_add, ← one_div_mul_one_div, ← mul_assoc]; norm_num
  have rs := Real.sqrt_nonneg (x ^ 2 + y ^ 2 + z ^ 2)
  have z3 : (0 : ℝ) < 1 / 2 ^ 500 := by positivity
  rw [← z2]
  obtain ⟨a1, a2⟩ := abs_le.mp q
  obtain ⟨b1, b2⟩ := abs_le.mp v2
  clear s4 tt z2 hx hy' hz
  generalize (1 : ℝ) / 2 ^ 500 = Z at *
  generalize (1 : ℝ) / 2 ^ 530 = Y at *
  rw [abs_le]
  constructor <;> linarith

end Roots

/-- All three ordinates are doubles of at most the size `M`. -/
def Sized3 (M : ℝ) (c : Coord ℚ) : Prop := Sized M c ∧ IsF64 c.z ∧ |(c.z : ℝ)| ≤ M

theorem Sc.shrink {e e' B B' : ℝ} {f : B64 sq hy} {x : ℝ} (h : Sc e B f x) (hx : |x| ≤ B') (he : e * B = e' * B') : Sc e' B' f x := by
  obtain ⟨v, v1, -, v3⟩ := h
  exact ⟨v, v1, hx, by rwa [← he]⟩

theorem toFoot_zero (p a b : Coord ℚ) : toFoot p a b 0 = dist3 (r3 p) (r3 a) := by
  rw [dist3_len]; unfold toFoot; congr 3 <;> ring

theorem toFoot_one (p a b : Coord ℚ) : toFoot p a b 1 = dist3 (r3 p) (r3 b) := by
  rw [dist3_len]; unfold toFoot; congr 3 <;> ring

theorem len3_scale (k x y z : ℝ) : len3 (k * x) (k * y) (k * z) = |k| * len3 x y z := by
  unfold len3
  rw [← Real.sqrt_sq_eq_abs, ← Real.sqrt_mul (sq_nonneg k)]
  congr 1
  ring

/-- Moving the point of the line moves the distance by no more. -/
theorem toFoot_moves (p a b : Coord ℚ) (s t : ℚ) : |toFoot p a b s - toFoot p a b t| ≤ |(s : ℝ) - t| * dist3 (r3 a) (r3 b) := by
  have key : ∀ s t : ℚ, toFoot p a b s ≤ toFoot p a b t + |(s : ℝ) - t| * dist3 (r3 a) (r3 b) := by
    intro s t
    have h := len3_tri ((p.x - (a.x + s * (b.x - a.x)) : ℚ) : ℝ) ((p.y - (a.y + s * (b.y - a.y)) : ℚ) : ℝ) ((p.z - (a.z + s * (b.z - a.z)) : ℚ) : ℝ)
      ((p.x - (a.x + t * (b.x - a.x)) : ℚ) : ℝ) ((p.y - (a.y + t * (b.y - a.y)) : ℚ) : ℝ) ((p.z - (a.z + t * (b.z - a.z)) : ℚ) : ℝ)
    unfold toFoot
    refine h.trans (add_le_add le_rfl (le_of_eq ?_))
    rw [dist3_len, ← len3_scale]
    congr 1 <;> (push_cast; ring)
  rw [abs_le]
  have k1 := key s t
  have k2 := key t s
  rw [abs_sub_comm (t : ℝ)] at k2
  constructor <;> linarith

/-- The least distance is that to the point at the parameter cut off at 0 and 1. -/
theorem least_clip {p a b : Coord ℚ} {D : ℝ} (hD : LeastDist3 (fun q => Same3 q (r3 p)) (fun q => OnSegment3 q (r3 a) (r3 b)) D)
    (h : ¬ (a.x = b.x ∧ a.y = b.y ∧ a.z = b.z)) : D = toFoot p a b (max 0 (min 1 (dot3Q a p a b / dot3Q a b a b))) := by
  obtain ⟨c1, c2, c3⟩ := (least_cases p a b D hD).2 h
  generalize dot3Q a p a b / dot3Q a b a b = t at *
  rcases le_or_gt t 0 with k | k
  · rw [max_eq_left ((min_le_right _ _).trans k), toFoot_zero]; exact c1 k
  · rcases le_or_gt 1 t with l | l
    · rw [min_eq_left l, max_eq_right zero_le_one, toFoot_one]; exact c2 l
    · rw [min_eq_right l.le, max_eq_right k.le]; exact (c3 k l).1

theorem clip_close (s t : ℚ) : |max 0 (min 1 s) - max 0 (min 1 t)| ≤ |s - t| := by
  have h1 := abs_max_sub_max_le_max 0 (min 1 s) 0 (min 1 t)
  have h2 := abs_min_sub_min_le_max 1 s 1 t
  simp only [sub_self, abs_zero, abs_nonneg, sup_of_le_right] at h1 h2
  exact h1.trans h2

section Dist
variable {ε : ℝ} (lib : Lib64 sq hy ε) (hε : ε ≤ 1 / 2 ^ 52) (hr : SmallRoots sq)
include lib hε hr

/-- C123: the distance of two points in space. -/
theorem C123_points {M : ℝ} (hM : M ≤ 2 ^ 200) {p a : Coord ℚ} (hp : Sized3 M p) (ha : Sized3 M a) :
    ∃ v : ℚ, Distance3D.distance (p3 p : Coord (B64 sq hy)) (p3 a) = Fl.fin v ∧ |(v : ℝ) - dist3 (r3 p) (r3 a)| ≤ 11 / 2 ^ 53 * dist3 (r3 p) (r3 a) + 1 / 2 ^ 498 := by
  have far : ∀ {u v : ℝ}, |u| ≤ M → |v| ≤ M → |u - v| ≤ 2 ^ 300 := fun hu hv => by
    have := abs_sub _ _ |>.trans (add_le_add hu hv)
    calc _ ≤ M + M := this
      _ ≤ 2 * 2 ^ 200 := by linarith
      _ = 2 ^ 201 := (pow_succ' 2 200).symm
      _ ≤ 2 ^ 300 := pow_le_pow_right₀ (by norm_num) (by norm_num)
  have m3 : Mid 1000 ((2 : ℝ) ^ 300) := ⟨by
    rw [div_le_iff₀ (by positivity)]
    exact one_le_mul_of_one_le_of_one_le (one_le_pow₀ (by norm_num)) (one_le_pow₀ (by norm_num)), pow_le_pow_right₀ (by norm_num) (by norm_num)⟩
  obtain ⟨⟨px, py, bx, by'⟩, pz, bz⟩ := hp
  obtain ⟨⟨ax, ay, cx, cy⟩, az, cz⟩ := ha
  obtain ⟨d, d1, -, d3⟩ := diff_rel (sq := sq) (hy := hy) ax px (far bx cx) m3
  obtain ⟨e, e1, -, e3⟩ := diff_rel (sq := sq) (hy := hy) ay py (far by' cy) m3
  obtain ⟨f, f1, -, f3⟩ := diff_rel (sq := sq) (hy := hy) az pz (far bz cz) m3
  obtain ⟨v, v1, v2⟩ := root3_close lib hε hr d3 e3 f3 (far bx cx) (far by' cy) (far bz cz)
  refine ⟨v, ?_, ?_⟩
  · have e : Distance3D.distance (p3 p : Coord (B64 sq hy)) (p3 a) =
      FltSqrt.sqrt ((Fl.fin p.x -. Fl.fin a.x) *. (Fl.fin p.x -. Fl.fin a.x) +. (Fl.fin p.y -. Fl.fin a.y) *. (Fl.fin p.y -. Fl.fin a.y) +.
        (Fl.fin p.z -. Fl.fin a.z) *. (Fl.fin p.z -. Fl.fin a.z)) := rfl
    rw [e, d1, e1, f1]
    exact v1
  · rw [dist3_len]; push_cast; exact v2

/-- C123: the distance of a point to a segment in space. -/
theorem C123_point_segment {M : ℝ} (hM : Mid 200 M) {p a b : Coord ℚ} (hp : Sized3 M p) (ha : Sized3 M a) (hb : Sized3 M b)
    (hab : Same3 (r3 a) (r3 b) ∨ 1 / 2 ^ 200 ≤ dist3 (r3 a) (r3 b)) {D : ℝ}
    (hD : LeastDist3 (fun q => Same3 q (r3 p)) (fun q => OnSegment3 q (r3 a) (r3 b)) D) :
    ∃ v : ℚ, pointSegment (p3 p : Coord (B64 sq hy)) (p3 a) (p3 b) = Fl.fin v ∧ |(v : ℝ) - D| ≤ M / 2 ^ 42 := by
  have M0 := hM.pos
  have size : ∀ {q : Coord ℚ}, Sized3 M q → dist3 (r3 p) (r3 q) ≤ 4 * M := by
    intro q hq
    rw [dist3_len]
    have c : ∀ {u v : ℚ}, |(u : ℝ)| ≤ M → |(v : ℝ)| ≤ M → |((u - v : ℚ) : ℝ)| ≤ 2 * M := fun hu hv => by
      push_cast; exact (abs_sub _ _).trans (by linarith)
    exact (len3_le (c hp.1.2.2.1 hq.1.2.2.1) (c hp.1.2.2.2 hq.1.2.2.2) (c hp.2.2 hq.2.2)).trans (by linarith)
  have t4 : (1 : ℝ) / 2 ^ 498 ≤ M / 2 ^ 52 := by
    have : (1 : ℝ) / 2 ^ 498 ≤ 1 / 2 ^ 252 := one_div_le_one_div_of_le (by positivity) (pow_le_pow_right₀ (by norm_num) (by norm_num))
    refine this.trans ?_
    rw [show (252 : ℕ) = 200 + 52 from rfl, pow_add, ← div_div]
    exact div_le_div_of_nonneg_right hM.1 (by norm_num)
  have ends : ∀ {q : Coord ℚ}, Sized3 M q → ∃ v : ℚ, Distance3D.distance (p3 p : Coord (B64 sq hy)) (p3 q) = Fl.fin v ∧ |(v : ℝ) - dist3 (r3 p) (r3 q)| ≤ 23 * M / 2 ^ 52 := by
    intro q hq
    obtain ⟨v, v1, v2⟩ := C123_points lib hε hr hM.2 hp hq
    refine ⟨v, v1, v2.trans ?_⟩
    have := size hq
    generalize (1 : ℝ) / 2 ^ 498 = Z at *
    linarith
  by_cases hs : a.x = b.x ∧ a.y = b.y ∧ a.z = b.z
  · rw [(least_cases p a b D hD).1 hs]
    obtain ⟨v, v1, v2⟩ := ends ha
    refine ⟨v, ?_, v2.trans (by linarith)⟩
    unfold pointSegment
    rw [p3_equals, if_pos (decide_eq_true hs)]
    exact v1
  have hL := hab.resolve_left (fun h => hs ((same3_r3 _ _).mp h))
  rw [least_clip hD hs]
  obtain ⟨L, eL⟩ : ∃ L, L = dist3 (r3 a) (r3 b) := ⟨_, rfl⟩
  have lip := toFoot_moves p a b
  rw [← eL] at hL lip
  have L0 : 0 < L := lt_of_lt_of_le (by positivity) hL
  have e2 : L ^ 2 = (dot3Q a b a b : ℚ) := by
    rw [eL, dist3, Real.sq_sqrt (by positivity)]
    unfold dot3Q r3
    push_cast
    ring
  have two : ∀ {u v : ℚ}, |(u : ℝ)| ≤ M → |(v : ℝ)| ≤ M → |(u : ℝ) - v| ≤ 2 * M := fun hu hv => (abs_sub _ _).trans (by linarith)
  -- the ordinates of the segment are at most its length
  have cL : |(b.x : ℝ) - a.x| ≤ L ∧ |(b.y : ℝ) - a.y| ≤ L ∧ |(b.z : ℝ) - a.z| ≤ L := by
    have s2 : L ^ 2 = ((b.x : ℝ) - a.x) ^ 2 + ((b.y : ℝ) - a.y) ^ 2 + ((b.z : ℝ) - a.z) ^ 2 := by
      rw [e2]; unfold dot3Q; push_cast; ring
    have k1 := sq_nonneg ((b.x : ℝ) - a.x)
    have k2 := sq_nonneg ((b.y : ℝ) - a.y)
    have k3 := sq_nonneg ((b.z : ℝ) - a.z)
    exact ⟨abs_le_of_sq_le_sq (by linarith) L0.le, abs_le_of_sq_le_sq (by linarith) L0.le, abs_le_of_sq_le_sq (by linarith) L0.le⟩
  have L4 : L ≤ 4 * M := by
    have : |((a.x - b.x : ℚ) : ℝ)| ≤ 2 * M ∧ |((a.y - b.y : ℚ) : ℝ)| ≤ 2 * M ∧ |((a.z - b.z : ℚ) : ℝ)| ≤ 2 * M := by
      push_cast
      exact ⟨two ha.1.2.2.1 hb.1.2.2.1, two ha.1.2.2.2 hb.1.2.2.2, two ha.2.2 hb.2.2⟩
    rw [eL, dist3_len]
    exact (len3_le this.1 this.2.1 this.2.2).trans (by linarith)
  have mP : Mid 201 (2 * M) := mid_two.mul hM |>.mono (by norm_num)
  have m4 : Mid 202 (4 * M) := by
    have := mP.add mP
    rwa [show 2 * M + 2 * M = 4 * M by ring] at this
  have mL : Mid 202 L := ⟨(one_div_le_one_div_of_le (by positivity) (pow_le_pow_right₀ (by norm_num) (by norm_num))).trans hL, L4.trans m4.2⟩
  have sd : ∀ {u v : ℚ}, IsF64 u → IsF64 v → |(v : ℝ) - u| ≤ L → Sc 1 L ((Fl.fin v : B64 sq hy) -. Fl.fin u) (v - u) := fun fu fv h => sc_diff fu fv h (mL.mono (by norm_num))
  have sp : ∀ {u v : ℚ}, IsF64 u → IsF64 v → |(v : ℝ) - u| ≤ 2 * M → Sc 1 (2 * M) ((Fl.fin v : B64 sq hy) -. Fl.fin u) (v - u) := fun fu fv h => sc_diff fu fv h (mP.mono (by norm_num))
  have dbx := sd ha.1.1 hb.1.1 cL.1
  have dby := sd ha.1.2.1 hb.1.2.1 cL.2.1
  have dbz := sd ha.2.1 hb.2.1 cL.2.2
  have dpx := sp ha.1.1 hp.1.1 (two hp.1.2.2.1 ha.1.2.2.1)
  have dpy := sp ha.1.2.1 hp.1.2.1 (two hp.1.2.2.2 ha.1.2.2.2)
  have dpz := sp ha.2.1 hp.2.1 (two hp.2.2 ha.2.2)
  have mLL : Mid 404 (L * L) := mL.mul mL
  have mPL : Mid 403 (2 * M * L) := mP.mul mL
  have sLL : Sc 6 (L * L + L * L + L * L) _ _ :=
    ((dbx.mul dbx (by norm_num) (by norm_num) (by norm_num) (by norm_num) (mLL.mono (by norm_num))).add
      (dby.mul dby (by norm_num) (by norm_num) (by norm_num) (by norm_num) (mLL.mono (by norm_num))) (e := 4) (by norm_num) (by norm_num) (by norm_num) (by norm_num)
      ((mLL.add mLL).mono (by norm_num))).add
      (dbz.mul dbz (by norm_num) (by norm_num) (by norm_num) (by norm_num) (mLL.mono (by norm_num))) (e := 5) (by norm_num) (by norm_num) (by norm_num) (by norm_num)
      (((mLL.add mLL).add (mLL.mono (by norm_num))).mono (by norm_num)) |>.mono (by norm_num) (by norm_num) le_rfl
  have sPL : Sc 6 (2 * M * L + 2 * M * L + 2 * M * L) _ _ :=
    ((dpx.mul dbx (by norm_num) (by norm_num) (by norm_num) (by norm_num) (mPL.mono (by norm_num))).add
      (dpy.mul dby (by norm_num) (by norm_num) (by norm_num) (by norm_num) (mPL.mono (by norm_num))) (e := 4) (by norm_num) (by norm_num) (by norm_num) (by norm_num)
      ((mPL.add mPL).mono (by norm_num))).add
      (dpz.mul dbz (by norm_num) (by norm_num) (by norm_num) (by norm_num) (mPL.mono (by norm_num))) (e := 5) (by norm_num) (by norm_num) (by norm_num) (by norm_num)
      (((mPL.add mPL).add (mPL.mono (by norm_num))).mono (by norm_num)) |>.mono (by norm_num) (by norm_num) le_rfl
  have x2 : ((b.x : ℝ) - a.x) * (b.x - a.x) + (b.y - a.y) * (b.y - a.y) + (b.z - a.z) * (b.z - a.z) = L ^ 2 := by
    rw [e2]; unfold dot3Q; push_cast; ring
  have xn : ((p.x : ℝ) - a.x) * (b.x - a.x) + (p.y - a.y) * (b.y - a.y) + (p.z - a.z) * (b.z - a.z) = (dot3Q a p a b : ℚ) := by
    unfold dot3Q; push_cast; ring
  rw [x2] at sLL
  rw [xn] at sPL
  have sL := sLL.shrink (e' := 18) (B' := L ^ 2) (le_of_eq (abs_of_nonneg (sq_nonneg L))) (by ring)
  have sR := sPL.div sL (by norm_num) (by norm_num) (by norm_num) (by norm_num) (by have := sq_nonneg L; linarith) (by positivity) (by
    rw [show 2 * (2 * M * L + 2 * M * L + 2 * M * L) / L ^ 2 = (2 + 1) * (4 * M) / L by field_simp; ring]
    exact (((mid_two.add (mid_one.mono (by norm_num))).mul m4).div mL).mono (by norm_num))
  obtain ⟨S, S1, -, -⟩ := sL
  obtain ⟨r, R1, -, R3⟩ := sR
  rw [S1] at R1
  have ex : ((dot3Q a p a b : ℚ) : ℝ) / L ^ 2 = ((dot3Q a p a b / dot3Q a b a b : ℚ) : ℝ) := by rw [e2]; push_cast; rfl
  rw [ex] at R3
  obtain ⟨t, ht⟩ : ∃ t, t = dot3Q a p a b / dot3Q a b a b := ⟨_, rfl⟩
  rw [← ht] at R3 ⊢
  have R4 : |toFoot p a b (max 0 (min 1 r)) - toFoot p a b (max 0 (min 1 t))| ≤ 528 * M / 2 ^ 52 := by
    refine (lip _ _).trans ?_
    have c : |((max 0 (min 1 r) : ℚ) : ℝ) - (max 0 (min 1 t) : ℚ)| ≤ |(r : ℝ) - t| := by exact_mod_cast clip_close r t
    calc _ ≤ ((6 + 2 * 18 + 2) * (2 * (2 * M * L + 2 * M * L + 2 * M * L) / L ^ 2) / 2 ^ 52) * L := mul_le_mul_of_nonneg_right (c.trans R3) L0.le
      _ = _ := by field_simp; ring
  have e : pointSegment (p3 p : Coord (B64 sq hy)) (p3 a) (p3 b) =
      if (p3 a : Coord (B64 sq hy)).equals3D (p3 b) then Distance3D.distance (p3 p) (p3 a)
      else
        let len2 := ((Fl.fin b.x : B64 sq hy) -. Fl.fin a.x) *. (Fl.fin b.x -. Fl.fin a.x) +. (Fl.fin b.y -. Fl.fin a.y) *. (Fl.fin b.y -. Fl.fin a.y) +.
          (Fl.fin b.z -. Fl.fin a.z) *. (Fl.fin b.z -. Fl.fin a.z)
        if isNaN len2 then nan
        else
          let r := (((Fl.fin p.x : B64 sq hy) -. Fl.fin a.x) *. (Fl.fin b.x -. Fl.fin a.x) +. (Fl.fin p.y -. Fl.fin a.y) *. (Fl.fin b.y -. Fl.fin a.y) +.
            (Fl.fin p.z -. Fl.fin a.z) *. (Fl.fin b.z -. Fl.fin a.z)) /. len2
          if r ≤. lit 0 then Distance3D.distance (p3 p) (p3 a)
          else if r ≥. lit 1 then Distance3D.distance (p3 p) (p3 b)
          else
            let dx := Fl.fin p.x -. (Fl.fin a.x +. r *. (Fl.fin b.x -. Fl.fin a.x))
            let dy := Fl.fin p.y -. (Fl.fin a.y +. r *. (Fl.fin b.y -. Fl.fin a.y))
            let dz := Fl.fin p.z -. (Fl.fin a.z +. r *. (Fl.fin b.z -. Fl.fin a.z))
            FltSqrt.sqrt (dx *. dx +. dy *. dy +. dz *. dz) := rfl
  dsimp only at e
  rw [p3_equals, if_neg (by simpa using hs), S1, if_neg (show ¬ (isNaN (Fl.fin S : B64 sq hy) = true) from Bool.false_ne_true), R1, lit64, one64] at e
  rw [show ((Fl.fin r : B64 sq hy) ≤. Fl.fin 0) = decide (r ≤ 0) from rfl,
    show ((Fl.fin r : B64 sq hy) ≥. Fl.fin 1) = decide (1 ≤ r) from rfl] at e
  have done : ∀ {v : ℚ}, |(v : ℝ) - toFoot p a b (max 0 (min 1 r))| ≤ 400 * M / 2 ^ 52 → |(v : ℝ) - toFoot p a b (max 0 (min 1 t))| ≤ M / 2 ^ 42 := by
    intro v h
    have := abs_sub_le (v : ℝ) (toFoot p a b (max 0 (min 1 r))) (toFoot p a b (max 0 (min 1 t)))
    linarith
  by_cases k0 : r ≤ 0
  · rw [if_pos (decide_eq_true k0)] at e
    obtain ⟨v, v1, v2⟩ := ends ha
    refine ⟨v, e.trans v1, done ?_⟩
    rw [max_eq_left ((min_le_right _ _).trans k0), toFoot_zero]
    linarith
  rw [if_neg (by simpa using k0)] at e
  by_cases k1 : 1 ≤ r
  · rw [if_pos (decide_eq_true k1)] at e
    obtain ⟨v, v1, v2⟩ := ends hb
    refine ⟨v, e.trans v1, done ?_⟩
    rw [min_eq_left k1, max_eq_right zero_le_one, toFoot_one]
    linarith
  rw [if_neg (by simpa using k1)] at e
  push Not at k0 k1
  rw [min_eq_right k1.le, max_eq_right k0.le] at done
  have comp : ∀ {u v w : ℚ}, IsF64 u → IsF64 v → |(u : ℝ)| ≤ M → |(v : ℝ)| ≤ M → |(w : ℝ)| ≤ M →
      Sc 5 (4 * M) ((Fl.fin w : B64 sq hy) -. (Fl.fin u +. Fl.fin r *. (Fl.fin v -. Fl.fin u))) ((w - (u + r * (v - u)) : ℚ) : ℝ) := by
    intro u v w fu fv hu hv hw
    have s1 := sp fu fv (two hv hu)
    have sr : Sc 0 1 (Fl.fin r : B64 sq hy) r := sc_exact (by rw [abs_of_pos (by exact_mod_cast k0)]; exact_mod_cast k1.le)
    have s2 := sr.mul s1 (by norm_num) (by norm_num) (by norm_num) (by norm_num) ((mid_one.mul mP).mono (by norm_num))
    rw [one_mul] at s2
    have m3 : Mid 1000 (M + 2 * M) := ((hM.mono (by norm_num)).add mP).mono (by norm_num)
    have s3 := (sc_exact hu).add s2 (e := 3) (by norm_num) (by norm_num) (by norm_num) (by norm_num) m3
    have s4 := (sc_exact hw).sub s3 (e := 4) (by norm_num) (by norm_num) (by norm_num) (by norm_num) ((hM.mono (show 200 ≤ 202 by norm_num)).add ((hM.mono (show 200 ≤ 201 by norm_num)).add mP) |>.mono (by norm_num))
    have e5 : ((w - (u + r * (v - u)) : ℚ) : ℝ) = w - (u + r * (v - u)) := by push_cast; ring
    rw [e5]
    exact s4.mono (by norm_num) (by norm_num) (by linarith)
  obtain ⟨x, x1, x2, x3⟩ := comp ha.1.1 hb.1.1 ha.1.2.2.1 hb.1.2.2.1 hp.1.2.2.1
  obtain ⟨y, y1, y2, y3⟩ := comp ha.1.2.1 hb.1.2.1 ha.1.2.2.2 hb.1.2.2.2 hp.1.2.2.2
  obtain ⟨z, z1, z2, z3⟩ := comp ha.2.1 hb.2.1 ha.2.2 hb.2.2 hp.2.2
  rw [x1, y1, z1] at e
  have small : ∀ {x : ℚ} {X : ℝ}, |X| ≤ 4 * M → |(x : ℝ) - X| ≤ 5 * (4 * M) / 2 ^ 52 → |(x : ℝ)| ≤ 5 * M := by
    intro x X h1 h2
    have := abs_sub_abs_le_abs_sub (x : ℝ) X
    linarith
  have b3 : 5 * M ≤ 2 ^ 300 := by
    calc 5 * M ≤ 2 ^ 3 * 2 ^ 200 := mul_le_mul (by norm_num) hM.2 M0.le (by norm_num)
      _ = 2 ^ 203 := by rw [← pow_add]
      _ ≤ _ := pow_le_pow_right₀ (by norm_num) (by norm_num)
  have q1 := small x2 x3
  have q2 := small y2 y3
  have q3 := small z2 z3
  have self : ∀ x : ℚ, |(x : ℝ) - x| ≤ |(x : ℝ)| / 2 ^ 53 := fun x => by rw [sub_self, abs_zero]; positivity
  obtain ⟨v, v1, v2⟩ := root3_close lib hε hr (self x) (self y) (self z) (q1.trans b3) (q2.trans b3) (q3.trans b3)
  refine ⟨v, e.trans v1, done ?_⟩
  have c1 := len3_close _ _ _ _ _ _ _ x3 y3 z3
  have c2 := len3_le q1 q2 q3
  have c3 := abs_sub_le (v : ℝ) (len3 x y z) (toFoot p a b r)
  unfold toFoot at c3 ⊢
  generalize (1 : ℝ) / 2 ^ 498 = Z at *
  linarith

omit lib hε hr in
/-- The computed scalar product of the ways between four points. -/
theorem sc_dot {A B : ℝ} (hA : Mid 202 A) (hB : Mid 202 B) {a b c d : Coord ℚ} {M : ℝ} (ha : Sized3 M a) (hb : Sized3 M b) (hc : Sized3 M c) (hd : Sized3 M d)
    (h1 : |(b.x : ℝ) - a.x| ≤ A ∧ |(b.y : ℝ) - a.y| ≤ A ∧ |(b.z : ℝ) - a.z| ≤ A) (h2 : |(d.x : ℝ) - c.x| ≤ B ∧ |(d.y : ℝ) - c.y| ≤ B ∧ |(d.z : ℝ) - c.z| ≤ B) :
    Sc 6 (A * B + A * B + A * B) (Vec3.dot4 (p3 a : Coord (B64 sq hy)) (p3 b) (p3 c) (p3 d)) (dot3Q a b c d : ℚ) := by
  have sa : ∀ {u v : ℚ}, IsF64 u → IsF64 v → |(v : ℝ) - u| ≤ A → Sc 1 A ((Fl.fin v : B64 sq hy) -. Fl.fin u) (v - u) := fun fu fv h => sc_diff fu fv h (hA.mono (by norm_num))
  have sb : ∀ {u v : ℚ}, IsF64 u → IsF64 v → |(v : ℝ) - u| ≤ B → Sc 1 B ((Fl.fin v : B64 sq hy) -. Fl.fin u) (v - u) := fun fu fv h => sc_diff fu fv h (hB.mono (by norm_num))
  have m : Mid 404 (A * B) := hA.mul hB
  have k : Sc 6 (A * B + A * B + A * B) _ _ :=
    (((sa ha.1.1 hb.1.1 h1.1).mul (sb hc.1.1 hd.1.1 h2.1) (by norm_num) (by norm_num) (by norm_num) (by norm_num) (m.mono (by norm_num))).add
      ((sa ha.1.2.1 hb.1.2.1 h1.2.1).mul (sb hc.1.2.1 hd.1.2.1 h2.2.1) (by norm_num) (by norm_num) (by norm_num) (by norm_num) (m.mono (by norm_num)))
      (e := 4) (by norm_num) (by norm_num) (by norm_num) (by norm_num) ((m.add m).mono (by norm_num))).add
      ((sa ha.2.1 hb.2.1 h1.2.2).mul (sb hc.2.1 hd.2.1 h2.2.2) (by norm_num) (by norm_num) (by norm_num) (by norm_num) (m.mono (by norm_num)))
      (e := 5) (by norm_num) (by norm_num) (by norm_num) (by norm_num) (((m.add m).add (m.mono (by norm_num))).mono (by norm_num)) |>.mono (by norm_num) (by norm_num) le_rfl
  have e : ((b.x : ℝ) - a.x) * (d.x - c.x) + (b.y - a.y) * (d.y - c.y) + (b.z - a.z) * (d.z - c.z) = (dot3Q a b c d : ℚ) := by
    unfold dot3Q; push_cast; ring
  rw [e] at k
  exact k

omit lib hε hr in
theorem two_dot {M : ℝ} (hM : Mid 200 M) {a b c d : Coord ℚ} (ha : Sized3 M a) (hb : Sized3 M b) (hc : Sized3 M c) (hd : Sized3 M d) :
    ∃ v : ℚ, Vec3.dot4 (p3 a : Coord (B64 sq hy)) (p3 b) (p3 c) (p3 d) = Fl.fin v ∧ |(v : ℝ)| ≤ 2 ^ 404 := by
  have M0 := hM.pos
  have two : ∀ {u v : ℚ}, |(u : ℝ)| ≤ M → |(v : ℝ)| ≤ M → |(u : ℝ) - v| ≤ 2 * M := fun hu hv => (abs_sub _ _).trans (by linarith)
  have mP : Mid 202 (2 * M) := mid_two.mul hM |>.mono (by norm_num)
  obtain ⟨v, v1, v2, v3⟩ := sc_dot (sq := sq) (hy := hy) mP mP ha hb hc hd ⟨two hb.1.2.2.1 ha.1.2.2.1, two hb.1.2.2.2 ha.1.2.2.2, two hb.2.2 ha.2.2⟩
    ⟨two hd.1.2.2.1 hc.1.2.2.1, two hd.1.2.2.2 hc.1.2.2.2, two hd.2.2 hc.2.2⟩
  refine ⟨v, v1, ?_⟩
  have := abs_sub_abs_le_abs_sub (v : ℝ) ((dot3Q a b c d : ℚ) : ℝ)
  have z : 0 ≤ M * M := by positivity
  calc |(v : ℝ)| ≤ 2 ^ 4 * (M * M) := by linarith
    _ ≤ 2 ^ 4 * (2 ^ 200 * 2 ^ 200) := mul_le_mul_of_nonneg_left (mul_le_mul hM.2 hM.2 M0.le (by positivity)) (by norm_num)
    _ = 2 ^ 404 := by rw [← pow_add, ← pow_add]

omit lib hε hr in
theorem len_pos {M : ℝ} (hM : Mid 200 M) {a b : Coord ℚ} (ha : Sized3 M a) (hb : Sized3 M b) (hL : 1 / 2 ^ 200 ≤ dist3 (r3 a) (r3 b)) {v : ℚ}
    (hv : Vec3.dot4 (p3 a : Coord (B64 sq hy)) (p3 b) (p3 a) (p3 b) = Fl.fin v) : 0 < v := by
  have M0 := hM.pos
  have two : ∀ {u v : ℚ}, |(u : ℝ)| ≤ M → |(v : ℝ)| ≤ M → |(u : ℝ) - v| ≤ 2 * M := fun hu hv => (abs_sub _ _).trans (by linarith)
  obtain ⟨L, eL⟩ : ∃ L, L = dist3 (r3 a) (r3 b) := ⟨_, rfl⟩
  rw [← eL] at hL
  have L0 : 0 < L := lt_of_lt_of_le (by positivity) hL
  have e2 : L ^ 2 = (dot3Q a b a b : ℚ) := by
    rw [eL, dist3, Real.sq_sqrt (by positivity)]
    unfold dot3Q r3
    push_cast
    ring
  have cL : |(b.x : ℝ) - a.x| ≤ L ∧ |(b.y : ℝ) - a.y| ≤ L ∧ |(b.z : ℝ) - a.z| ≤ L := by
    have s2 : L ^ 2 = ((b.x : ℝ) - a.x) ^ 2 + ((b.y : ℝ) - a.y) ^ 2 + ((b.z : ℝ) - a.z) ^ 2 := by
      rw [e2]; unfold dot3Q; push_cast; ring
    have k1 := sq_nonneg ((b.x : ℝ) - a.x)
    have k2 := sq_nonneg ((b.y : ℝ) - a.y)
    have k3 := sq_nonneg ((b.z : ℝ) - a.z)
    exact ⟨abs_le_of_sq_le_sq (by linarith) L0.le, abs_le_of_sq_le_sq (by linarith) L0.le, abs_le_of_sq_le_sq (by linarith) L0.le⟩
  have L4 : L ≤ 4 * M := by
    have : |((a.x - b.x : ℚ) : ℝ)| ≤ 2 * M ∧ |((a.y - b.y : ℚ) : ℝ)| ≤ 2 * M ∧ |((a.z - b.z : ℚ) : ℝ)| ≤ 2 * M := by
      push_cast
      exact ⟨two ha.1.2.2.1 hb.1.2.2.1, two ha.1.2.2.2 hb.1.2.2.2, two ha.2.2 hb.2.2⟩
    rw [eL, dist3_len]
    exact (len3_le this.1 this.2.1 this.2.2).trans (by linarith)
  have mP : Mid 201 (2 * M) := mid_two.mul hM |>.mono (by norm_num)
  have m4 : Mid 202 (4 * M) := by
    have := mP.add mP
    rwa [show 2 * M + 2 * M = 4 * M by ring] at this
  have mL : Mid 202 L := ⟨(one_div_le_one_div_of_le (by positivity) (pow_le_pow_right₀ (by norm_num) (by norm_num))).trans hL, L4.trans m4.2⟩
  obtain ⟨w, w1, -, w3⟩ := sc_dot (sq := sq) (hy := hy) mL mL ha hb ha hb cL cL
  rw [hv] at w1
  cases w1
  rw [← e2] at w3
  have := (abs_le.mp w3).1
  have z : 0 < L * L := by positivity
  have : (0 : ℝ) < v := by nlinarith
  exact_mod_cast this

omit lib hε hr in
/-- A quotient by a number that is not 0 is no NaN. -/
theorem div_three {a b : ℚ} (hb : b ≠ 0) : (∃ v : ℚ, (Fl.fin a : B64 sq hy) /. Fl.fin b = Fl.fin v) ∨ (Fl.fin a : B64 sq hy) /. Fl.fin b = Fl.pinf ∨
    (Fl.fin a : B64 sq hy) /. Fl.fin b = Fl.ninf := by
  have e : (Fl.fin a : B64 sq hy) /. Fl.fin b = rnd (a / b) := by
    change Fl.div (Fl.fin a) (Fl.fin b) = _
    simp only [Fl.div]
    rw [if_neg hb]
    rfl
  rw [e]
  unfold rnd
  split_ifs
  · exact Or.inr (Or.inl rfl)
  · exact Or.inr (Or.inr rfl)
  · exact Or.inl ⟨_, rfl⟩

/-- C123: the computed distance of two segments in space is close to the distance of two of their points. -/
theorem C123_segments {M : ℝ} (hM : Mid 200 M) {a b c d : Coord ℚ} (ha : Sized3 M a) (hb : Sized3 M b) (hc : Sized3 M c) (hd : Sized3 M d)
    (hab : Same3 (r3 a) (r3 b) ∨ 1 / 2 ^ 200 ≤ dist3 (r3 a) (r3 b)) (hcd : 1 / 2 ^ 200 ≤ dist3 (r3 c) (r3 d)) :
    ∃ w : ℚ, segmentSegment (p3 a : Coord (B64 sq hy)) (p3 b) (p3 c) (p3 d) = Fl.fin w ∧
      ∃ u v, OnSegment3 u (r3 a) (r3 b) ∧ OnSegment3 v (r3 c) (r3 d) ∧ |(w : ℝ) - dist3 u v| ≤ M / 2 ^ 42 := by
  have M0 := hM.pos
  have onA : ∀ p q : Coord ℝ, OnSegment3 p p q := fun p q => ⟨0, le_rfl, zero_le_one, by simp [Same3, along]⟩
  have onB : ∀ p q : Coord ℝ, OnSegment3 q p q := fun p q => ⟨1, zero_le_one, le_rfl, by simp [Same3, along]⟩
  -- a point and a segment
  have ps : ∀ {p e f : Coord ℚ}, Sized3 M p → Sized3 M e → Sized3 M f → (Same3 (r3 e) (r3 f) ∨ 1 / 2 ^ 200 ≤ dist3 (r3 e) (r3 f)) →
      ∃ w : ℚ, pointSegment (p3 p : Coord (B64 sq hy)) (p3 e) (p3 f) = Fl.fin w ∧ ∃ v, OnSegment3 v (r3 e) (r3 f) ∧ |(w : ℝ) - dist3 (r3 p) v| ≤ M / 2 ^ 42 := by
    intro p e f hp he hf h
    have L := C54_point_segment (r3 p) (r3 e) (r3 f)
    obtain ⟨w, w1, w2⟩ := C123_point_segment lib hε hr hM hp he hf h L
    obtain ⟨⟨u, v, hu, hv, h'⟩, -⟩ := L
    refine ⟨w, w1, v, hv, ?_⟩
    rw [← dist3_congr hu (Same3.refl v), h']
    exact w2
  have first : ∀ {p : Coord ℚ}, Sized3 M p → OnSegment3 (r3 p) (r3 a) (r3 b) → ∃ w : ℚ, pointSegment (p3 p : Coord (B64 sq hy)) (p3 c) (p3 d) = Fl.fin w ∧
      ∃ u v, OnSegment3 u (r3 a) (r3 b) ∧ OnSegment3 v (r3 c) (r3 d) ∧ |(w : ℝ) - dist3 u v| ≤ M / 2 ^ 42 := by
    intro p hp on
    obtain ⟨w, w1, v, hv, w2⟩ := ps hp hc hd (Or.inr hcd)
    exact ⟨w, w1, _, v, on, hv, w2⟩
  have second : ∀ {p : Coord ℚ}, Sized3 M p → OnSegment3 (r3 p) (r3 c) (r3 d) → ∃ w : ℚ, pointSegment (p3 p : Coord (B64 sq hy)) (p3 a) (p3 b) = Fl.fin w ∧
      ∃ u v, OnSegment3 u (r3 a) (r3 b) ∧ OnSegment3 v (r3 c) (r3 d) ∧ |(w : ℝ) - dist3 u v| ≤ M / 2 ^ 42 := by
    intro p hp on
    obtain ⟨w, w1, v, hv, w2⟩ := ps hp ha hb hab
    refine ⟨w, w1, v, _, hv, on, ?_⟩
    rw [show dist3 v (r3 p) = dist3 (r3 p) v by unfold dist3; congr 1; ring]
    exact w2
  rw [segmentSegment_tail]
  by_cases h1 : (p3 a : Coord (B64 sq hy)).equals3D (p3 b) = true
  · rw [if_pos h1]; exact first ha (onA _ _)
  rw [if_neg h1]
  by_cases h2 : (p3 c : Coord (B64 sq hy)).equals3D (p3 b) = true
  · rw [if_pos h2]; exact second hc (onA _ _)
  rw [if_neg h2]
  obtain ⟨A, eA, bA⟩ := two_dot (sq := sq) (hy := hy) hM ha hb ha hb
  obtain ⟨B, eB, bB⟩ := two_dot (sq := sq) (hy := hy) hM ha hb hc hd
  obtain ⟨C, eC, bC⟩ := two_dot (sq := sq) (hy := hy) hM hc hd hc hd
  obtain ⟨D, eD, bD⟩ := two_dot (sq := sq) (hy := hy) hM ha hb hc ha
  obtain ⟨E, eE, bE⟩ := two_dot (sq := sq) (hy := hy) hM hc hd hc ha
  have C0 := len_pos hM hc hd hcd eC
  have mul : ∀ {u v : ℚ}, |(u : ℝ)| ≤ 2 ^ 404 → |(v : ℝ)| ≤ 2 ^ 404 → ∃ w : ℚ, (Fl.fin u : B64 sq hy) *. Fl.fin v = Fl.fin w ∧ |(w : ℝ)| ≤ 2 ^ 810 := by
    intro u v hu hv
    have m : Mid 1000 ((2 : ℝ) ^ 808) := ⟨by
      rw [div_le_iff₀ (by positivity)]
      exact one_le_mul_of_one_le_of_one_le (one_le_pow₀ (by norm_num)) (one_le_pow₀ (by norm_num)), pow_le_pow_right₀ (by norm_num) (by norm_num)⟩
    have e8 : (2 : ℝ) ^ 404 * 2 ^ 404 = 2 ^ 808 := by rw [← pow_add]
    obtain ⟨w, w1, w2, w3⟩ := (sc_exact (sq := sq) (hy := hy) hu).mul (sc_exact (sq := sq) (hy := hy) hv) le_rfl le_rfl (by norm_num) (by norm_num) (by rw [e8]; exact m)
    refine ⟨w, w1, ?_⟩
    rw [e8] at w2 w3
    have := abs_sub_abs_le_abs_sub (w : ℝ) ((u : ℝ) * v)
    have z : (0 : ℝ) < 2 ^ 808 := by positivity
    have e10 : (2 : ℝ) ^ 810 = 4 * 2 ^ 808 := by rw [show (810 : ℕ) = 2 + 808 from rfl, pow_add, show (2 : ℝ) ^ 2 = 4 by norm_num]
    rw [e10]
    clear e8 e10 m hu hv bA bB bC bD bE
    generalize (2 : ℝ) ^ 808 = Z at *
    linarith
  have sub : ∀ {u v : ℚ}, |(u : ℝ)| ≤ 2 ^ 810 → |(v : ℝ)| ≤ 2 ^ 810 → ∃ w : ℚ, (Fl.fin u : B64 sq hy) -. Fl.fin v = Fl.fin w := by
    intro u v hu hv
    have m : Mid 1000 ((2 : ℝ) ^ 810 + 2 ^ 810) := by
      have : Mid 810 ((2 : ℝ) ^ 810) := ⟨by
        rw [div_le_iff₀ (by positivity)]
        exact one_le_mul_of_one_le_of_one_le (one_le_pow₀ (by norm_num)) (one_le_pow₀ (by norm_num)), le_rfl⟩
      exact (this.add this).mono (by norm_num)
    obtain ⟨w, w1, -, -⟩ := (sc_exact (sq := sq) (hy := hy) hu).sub (sc_exact (sq := sq) (hy := hy) hv) (e := 0) le_rfl le_rfl le_rfl (by norm_num) m
    exact ⟨w, w1⟩
  have msub : ∀ {u v w x : ℚ}, |(u : ℝ)| ≤ 2 ^ 404 → |(v : ℝ)| ≤ 2 ^ 404 → |(w : ℝ)| ≤ 2 ^ 404 → |(x : ℝ)| ≤ 2 ^ 404 →
      ∃ y : ℚ, (Fl.fin u : B64 sq hy) *. Fl.fin v -. Fl.fin w *. Fl.fin x = Fl.fin y := by
    intro u v w x hu hv hw hx
    obtain ⟨m, m1, m2⟩ := mul hu hv
    obtain ⟨n, n1, n2⟩ := mul hw hx
    rw [m1, n1]
    exact sub m2 n2
  obtain ⟨N, eN⟩ := msub bA bC bB bB
  obtain ⟨S, eS⟩ := msub bB bE bC bD
  obtain ⟨T, eT⟩ := msub bA bE bB bD
  dsimp only
  rw [eA, eB, eC, eD, eE, eN, if_neg (show ¬ (isNaN (Fl.fin N : B64 sq hy) = true) from Bool.false_ne_true)]
  have three : ∃ s t : B64 sq hy, params (Fl.fin A) (Fl.fin B) (Fl.fin C) (Fl.fin D) (Fl.fin E) (Fl.fin N : B64 sq hy) = (s, t) ∧
      ((∃ v : ℚ, s = Fl.fin v) ∨ s = Fl.pinf ∨ s = Fl.ninf) ∧ ((∃ v : ℚ, t = Fl.fin v) ∨ t = Fl.pinf ∨ t = Fl.ninf) := by
    refine ⟨(params (Fl.fin A) (Fl.fin B) (Fl.fin C) (Fl.fin D) (Fl.fin E) (Fl.fin N : B64 sq hy)).1, (params (Fl.fin A) (Fl.fin B) (Fl.fin C) (Fl.fin D) (Fl.fin E) (Fl.fin N : B64 sq hy)).2,
      rfl, ?_⟩
    unfold params
    rw [lit64, eS, eT, show ((Fl.fin N : B64 sq hy) ≤. Fl.fin 0) = decide (N ≤ 0) from rfl, show ((Fl.fin B : B64 sq hy) >. Fl.fin C) = decide (C < B) from rfl]
    by_cases k : N ≤ 0
    · rw [if_pos (decide_eq_true k)]
      refine ⟨Or.inl ⟨0, rfl⟩, ?_⟩
      dsimp only
      by_cases l : C < B
      · rw [if_pos (decide_eq_true l)]; exact div_three (C0.trans l).ne'
      · rw [if_neg (by simpa using l)]; exact div_three C0.ne'
    · rw [if_neg (by simpa using k)]
      have : N ≠ 0 := fun h => k h.le
      exact ⟨div_three this, div_three this⟩
  obtain ⟨s, t, est, hs, ht⟩ := three
  rw [est]
  unfold tail3
  rw [lit64, one64]
  dsimp only
  by_cases s0 : (s <. Fl.fin 0) = true
  · rw [if_pos s0]; exact first ha (onA _ _)
  rw [if_neg s0]
  by_cases s1 : (s >. Fl.fin 1) = true
  · rw [if_pos s1]; exact first hb (onB _ _)
  rw [if_neg s1]
  by_cases t0 : (t <. Fl.fin 0) = true
  · rw [if_pos t0]; exact second hc (onA _ _)
  rw [if_neg t0]
  by_cases t1 : (t >. Fl.fin 1) = true
  · rw [if_pos t1]; exact second hd (onB _ _)
  rw [if_neg t1]
  have fin : ∀ {s : B64 sq hy}, ((∃ v : ℚ, s = Fl.fin v) ∨ s = Fl.pinf ∨ s = Fl.ninf) → ¬ (s <. Fl.fin 0) = true → ¬ (s >. Fl.fin 1) = true → ∃ v : ℚ, s = Fl.fin v ∧ 0 ≤ v ∧ v ≤ 1 := by
    rintro s (⟨v, rfl⟩ | rfl | rfl) h0 h1
    · rw [show ((Fl.fin v : B64 sq hy) <. Fl.fin 0) = decide (v < 0) from rfl] at h0
      rw [show ((Fl.fin v : B64 sq hy) >. Fl.fin 1) = decide (1 < v) from rfl] at h1
      exact ⟨v, rfl, by simpa using h0, by simpa using h1⟩
    · exact absurd rfl h1
    · exact absurd rfl h0
  obtain ⟨s, rfl, s0, s1⟩ := fin hs s0 s1
  obtain ⟨t, rfl, t0, t1⟩ := fin ht t0 t1
  have mP : Mid 201 (2 * M) := mid_two.mul hM |>.mono (by norm_num)
  have m3 : Mid 202 (M + 2 * M) := (hM.mono (by norm_num)).add mP
  have two : ∀ {u v : ℚ}, |(u : ℝ)| ≤ M → |(v : ℝ)| ≤ M → |(u : ℝ) - v| ≤ 2 * M := fun hu hv => (abs_sub _ _).trans (by linarith)
  have on : ∀ {u v r : ℚ}, 0 ≤ r → r ≤ 1 → IsF64 u → IsF64 v → |(u : ℝ)| ≤ M → |(v : ℝ)| ≤ M →
      Sc 4 (M + 2 * M) ((Fl.fin u : B64 sq hy) +. Fl.fin r *. (Fl.fin v -. Fl.fin u)) (u + r * (v - u)) := by
    intro u v r k0 k1 fu fv hu hv
    have s1 : Sc 1 (2 * M) ((Fl.fin v : B64 sq hy) -. Fl.fin u) (v - u) := sc_diff fu fv (two hv hu) (mP.mono (by norm_num))
    have sr : Sc 0 1 (Fl.fin r : B64 sq hy) r := sc_exact (by rw [abs_of_nonneg (by exact_mod_cast k0)]; exact_mod_cast k1)
    have s2 := sr.mul s1 (by norm_num) (by norm_num) (by norm_num) (by norm_num) ((mid_one.mul mP).mono (by norm_num))
    rw [one_mul] at s2
    exact ((sc_exact hu).add s2 (e := 3) (by norm_num) (by norm_num) (by norm_num) (by norm_num) (m3.mono (by norm_num))).mono (by norm_num) (by norm_num) le_rfl
  have comp : ∀ {u v w x : ℚ}, IsF64 u → IsF64 v → |(u : ℝ)| ≤ M → |(v : ℝ)| ≤ M → IsF64 w → IsF64 x → |(w : ℝ)| ≤ M → |(x : ℝ)| ≤ M →
      Sc 5 (6 * M) (((Fl.fin u : B64 sq hy) +. Fl.fin s *. (Fl.fin v -. Fl.fin u)) -. (Fl.fin w +. Fl.fin t *. (Fl.fin x -. Fl.fin w)))
        ((u + s * (v - u)) - (w + t * (x - w))) := by
    intro u v w x fu fv hu hv fw fx hw hx
    exact ((on s0 s1 fu fv hu hv).sub (on t0 t1 fw fx hw hx) (e := 4) (by norm_num) (by norm_num) (by norm_num) (by norm_num) ((m3.add m3).mono (by norm_num))).mono
      (by norm_num) (by norm_num) (by linarith)
  obtain ⟨x, x1, x2, x3⟩ := comp ha.1.1 hb.1.1 ha.1.2.2.1 hb.1.2.2.1 hc.1.1 hd.1.1 hc.1.2.2.1 hd.1.2.2.1
  obtain ⟨y, y1, y2, y3⟩ := comp ha.1.2.1 hb.1.2.1 ha.1.2.2.2 hb.1.2.2.2 hc.1.2.1 hd.1.2.1 hc.1.2.2.2 hd.1.2.2.2
  obtain ⟨z, z1, z2, z3⟩ := comp ha.2.1 hb.2.1 ha.2.2 hb.2.2 hc.2.1 hd.2.1 hc.2.2 hd.2.2
  have small : ∀ {x : ℚ} {X : ℝ}, |X| ≤ 6 * M → |(x : ℝ) - X| ≤ 5 * (6 * M) / 2 ^ 52 → |(x : ℝ)| ≤ 7 * M := by
    intro x X h1 h2
    have := abs_sub_abs_le_abs_sub (x : ℝ) X
    linarith
  have b3 : 7 * M ≤ 2 ^ 300 := by
    calc 7 * M ≤ 2 ^ 3 * 2 ^ 200 := mul_le_mul (by norm_num) hM.2 M0.le (by norm_num)
      _ = 2 ^ 203 := by rw [← pow_add]
      _ ≤ _ := pow_le_pow_right₀ (by norm_num) (by norm_num)
  have q1 := small x2 x3
  have q2 := small y2 y3
  have q3 := small z2 z3
  have self : ∀ x : ℚ, |(x : ℝ) - x| ≤ |(x : ℝ)| / 2 ^ 53 := fun x => by rw [sub_self, abs_zero]; positivity
  obtain ⟨w, w1, w2⟩ := root3_close lib hε hr (self x) (self y) (self z) (q1.trans b3) (q2.trans b3) (q3.trans b3)
  have nn : ∀ {r u v : ℚ}, 0 ≤ r → r ≤ 1 → IsF64 u → IsF64 v → |(u : ℝ)| ≤ M → |(v : ℝ)| ≤ M → isNaN ((Fl.fin u : B64 sq hy) +. Fl.fin r *. (Fl.fin v -. Fl.fin u)) = false := by
    intro r u v k0 k1 fu fv hu hv
    obtain ⟨n, n1, -, -⟩ := on k0 k1 fu fv hu hv
    rw [n1]; rfl
  refine ⟨w, ?_, along (r3 a) (r3 b) s, along (r3 c) (r3 d) t, ⟨s, by exact_mod_cast s0, by exact_mod_cast s1, Same3.refl _⟩,
    ⟨t, by exact_mod_cast t0, by exact_mod_cast t1, Same3.refl _⟩, ?_⟩
  · unfold Distance3D.distance
    have na := nn s0 s1 ha.2.1 hb.2.1 ha.2.2 hb.2.2
    have nc := nn t0 t1 hc.2.1 hd.2.1 hc.2.2 hd.2.2
    refine (if_neg ?_).trans ?_
    · change ¬ (isNaN ((Fl.fin a.z : B64 sq hy) +. Fl.fin s *. (Fl.fin b.z -. Fl.fin a.z)) || isNaN ((Fl.fin c.z : B64 sq hy) +. Fl.fin t *. (Fl.fin d.z -. Fl.fin c.z))) = true
      rw [na, nc]; decide
    · rw [← w1, ← x1, ← y1, ← z1]; rfl
  · have c1 := len3_close _ _ _ _ _ _ _ x3 y3 z3
    have c2 := len3_le q1 q2 q3
    have e : dist3 (along (r3 a) (r3 b) s) (along (r3 c) (r3 d) t) = len3 ((a.x + s * (b.x - a.x)) - (c.x + t * (d.x - c.x)))
      ((a.y + s * (b.y - a.y)) - (c.y + t * (d.y - c.y))) ((a.z + s * (b.z - a.z)) - (c.z + t * (d.z - c.z))) := rfl
    rw [e]
    have c3 := abs_sub_le (w : ℝ) (len3 x y z) (len3 ((a.x + s * (b.x - a.x)) - (c.x + t * (d.x - c.x)))
      ((a.y + s * (b.y - a.y)) - (c.y + t * (d.y - c.y))) ((a.z + s * (b.z - a.z)) - (c.z + t * (d.z - c.z))))
    have t4 : (1 : ℝ) / 2 ^ 498 ≤ M / 2 ^ 52 := by
      have : (1 : ℝ) / 2 ^ 498 ≤ 1 / 2 ^ 252 := one_div_le_one_div_of_le (by positivity) (pow_le_pow_right₀ (by norm_num) (by norm_num))
      refine this.trans ?_
      rw [show (252 : ℕ) = 200 + 52 from rfl, pow_add, ← div_div]
      exact div_le_div_of_nonneg_right hM.1 (by norm_num)
    generalize (1 : ℝ) / 2 ^ 498 = Z at *
    linarith

/-- C123: the computed distance of two segments in space is not less than their distance, but for rounding. -/
theorem C123_segments_not_below {M : ℝ} (hM : Mid 200 M) {a b c d : Coord ℚ} (ha : Sized3 M a) (hb : Sized3 M b) (hc : Sized3 M c) (hd : Sized3 M d)
    (hab : Same3 (r3 a) (r3 b) ∨ 1 / 2 ^ 200 ≤ dist3 (r3 a) (r3 b)) (hcd : 1 / 2 ^ 200 ≤ dist3 (r3 c) (r3 d)) {D : ℝ}
    (hD : LeastDist3 (fun q => OnSegment3 q (r3 a) (r3 b)) (fun q => OnSegment3 q (r3 c) (r3 d)) D) :
    ∃ w : ℚ, segmentSegment (p3 a : Coord (B64 sq hy)) (p3 b) (p3 c) (p3 d) = Fl.fin w ∧ D - M / 2 ^ 42 ≤ w := by
  obtain ⟨w, w1, u, v, hu, hv, k⟩ := C123_segments lib hε hr hM ha hb hc hd hab hcd
  refine ⟨w, w1, ?_⟩
  have := hD.2 u v hu hv
  have := (abs_le.mp k).1
  linarith

end Dist

/-- C123: a segment whose squared length is 0 in doubles has no distance from the middle of it. -/
theorem C123_underflow : ∃ p a b : Coord ℚ, IsF64 p.x ∧ IsF64 p.y ∧ IsF64 p.z ∧ IsF64 a.x ∧ IsF64 a.y ∧ IsF64 a.z ∧ IsF64 b.x ∧ IsF64 b.y ∧ IsF64 b.z ∧
    ¬ Same3 (r3 a) (r3 b) ∧ isNaN (pointSegment (p3 p : Coord X64) (p3 a) (p3 b)) = true := by
  refine ⟨Coord.xyz (1 / 2 ^ 601) 0 0, Coord.xyz 0 0 0, Coord.xyz (1 / 2 ^ 600) 0 0, ?_⟩
  refine ⟨f64_of (by decide +kernel), f64_of (by decide +kernel), f64_of (by decide +kernel), f64_of (by decide +kernel), f64_of (by decide +kernel), f64_of (by decide +kernel),
    f64_of (by decide +kernel), f64_of (by decide +kernel), f64_of (by decide +kernel), ?_, by decide +kernel⟩
  rw [same3_r3]
  decide +kernel

/-- A point and two segments of different sizes, in space. -/
example : let p : Coord ℚ := Coord.xyz (1 / 2 ^ 60) 3 (-7); let a : Coord ℚ := Coord.xyz (2 ^ 60) 1 0; let b : Coord ℚ := Coord.xyz (-5) (1 / 2 ^ 30) 1
    let c : Coord ℚ := Coord.xyz 0 0 (2 ^ 40)
    Mid 200 (2 ^ 60) ∧ Sized3 (2 ^ 60) p ∧ Sized3 (2 ^ 60) a ∧ Sized3 (2 ^ 60) b ∧ Sized3 (2 ^ 60) c ∧ 1 / 2 ^ 200 ≤ dist3 (r3 a) (r3 b) ∧ 1 / 2 ^ 200 ≤ dist3 (r3 p) (r3 c) ∧
    (∃ D, LeastDist3 (fun q => Same3 q (r3 p)) (fun q => OnSegment3 q (r3 a) (r3 b)) D) := by
  intro p a b c
  have f : ∀ {e : Coord ℚ}, (rnd e.x = .fin e.x ∧ rnd e.y = .fin e.y ∧ rnd e.z = .fin e.z ∧ |e.x| ≤ 2 ^ 60 ∧ |e.y| ≤ 2 ^ 60 ∧ |e.z| ≤ 2 ^ 60) → Sized3 (2 ^ 60) e :=
    fun h => ⟨⟨f64_of h.1, f64_of h.2.1, by exact_mod_cast h.2.2.2.1, by exact_mod_cast h.2.2.2.2.1⟩, f64_of h.2.2.1, by exact_mod_cast h.2.2.2.2.2⟩
  have one : (1 : ℝ) / 2 ^ 200 ≤ 1 := by
    rw [div_le_one (by positivity)]; exact one_le_pow₀ (by norm_num)
  refine ⟨⟨one.trans (by norm_num), by norm_num⟩, f (by decide +kernel), f (by decide +kernel), f (by decide +kernel), f (by decide +kernel), one.trans ?_, one.trans ?_,
    _, C54_point_segment _ _ _⟩
  · exact Real.le_sqrt_of_sq_le (by norm_num [r3, a, b, Coord.xyz])
  · exact Real.le_sqrt_of_sq_le (by norm_num [r3, p, c, Coord.xyz])

end Verif.Props
