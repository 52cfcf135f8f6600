import Verif.Props.SegmentMoves64
import Verif.Props.SegmentsDoubles
import Verif.Lemmas.SegmentGaps

/-! # C118: distances of arbitrary doubles -/

set_option linter.unusedSectionVars false

namespace Verif.Props
open Flt Verif.Spec Verif.Binary64
variable {sq : ℚ → Val} {hy : ℚ → ℚ → Val}

/-- Both ordinates are doubles of at most the size `M` and multiples of 2^-1000 (as every double of at least 2^-948 is). -/
def Ordinary (M : ℝ) (c : Coord ℚ) : Prop := Sized M c ∧ Mul2 (-1000) c.x ∧ Mul2 (-1000) c.y

/-- The ends coincide or are at least 2^-200 apart in x or y. -/
def Extends (a b : Coord ℚ) : Prop :=
  (a.x = b.x ∧ a.y = b.y) ∨ (1 : ℝ) / 2 ^ 200 ≤ |(b.x : ℝ) - a.x| ∨ (1 : ℝ) / 2 ^ 200 ≤ |(b.y : ℝ) - a.y|

theorem Extends.proper {a b : Coord ℚ} (h : Extends a b) (hab : ¬ (a.x = b.x ∧ a.y = b.y)) :
    (1 : ℝ) / 2 ^ 200 ≤ |(b.x : ℝ) - a.x| ∨ (1 : ℝ) / 2 ^ 200 ≤ |(b.y : ℝ) - a.y| := h.resolve_left hab

theorem add_f64 {a b v : ℚ} (h : (Fl.fin a : B64 sq hy) +. Fl.fin b = Fl.fin v) : IsF64 v := by
  obtain ⟨rfl, k⟩ := (rnd_fin_iff _ _).mp h
  exact ⟨near_rep _, k⟩

theorem Sc.abs {e B : ℝ} {f : B64 sq hy} {x : ℝ} (h : Sc e B f x) : Sc e B (Flt.abs f) |x| := by
  obtain ⟨v, rfl, h1, h2⟩ := h
  refine ⟨|v|, rfl, by rwa [abs_abs], ?_⟩
  rw [Rat.cast_abs]
  exact (abs_abs_sub_abs_le_abs_sub _ _).trans h2

/-- The differences of products of accurate differences. -/
theorem sc_cross {A B : ℝ} {f g f' g' : B64 sq hy} {x y x' y' : ℝ} (h1 : Sc 1 A f x) (h2 : Sc 1 B g y) (h3 : Sc 1 A f' x') (h4 : Sc 1 B g' y') {j k : ℕ}
    (mA : Mid j A) (mB : Mid k B) (hjk : j + k ≤ 999) : Sc 5 (A * B + A * B) (f *. g -. f' *. g') (x * y - x' * y') := by
  have m := mA.mul mB
  have q1 := h1.mul h2 (by norm_num) (by norm_num) (by norm_num) (by norm_num) (m.mono (by omega))
  have q2 := h3.mul h4 (by norm_num) (by norm_num) (by norm_num) (by norm_num) (m.mono (by omega))
  have := q1.sub q2 le_rfl le_rfl (by norm_num) (by norm_num) ((m.add m).mono (by omega))
  rwa [show (1 : ℝ) + 1 + 2 + 1 = 5 by norm_num] at this

/-- The root of the squared length. -/
theorem sc_root {ε : ℝ} (lib : Lib64 sq hy ε) (hε : ε ≤ 1 / 2 ^ 52) {N L : ℝ} (mN : Mid 202 N) {f : B64 sq hy} (hf : Sc 5 (N * N + N * N) f L) (hL : N * N ≤ L)
    (hd : ∀ v : ℚ, f = Fl.fin v → IsF64 v) : Sc 12 (2 * N) (FltSqrt.sqrt f) √L := by
  have N0 := mN.pos
  obtain ⟨v, rfl, v1, v2⟩ := hf
  have L0 : 0 < L := lt_of_lt_of_le (mul_pos N0 N0) hL
  rw [abs_of_pos L0] at v1
  have k1 : |(v : ℝ) - L| ≤ 10 / 2 ^ 52 * L := by
    refine v2.trans ?_
    have : 5 * (N * N + N * N) / 2 ^ 52 = 10 / 2 ^ 52 * (N * N) := by ring
    rw [this]
    exact mul_le_mul_of_nonneg_left hL (by norm_num)
  have k2 : L / 2 ≤ v := by
    have := (abs_le.mp k1).1
    have : 0 ≤ L * (1 / 2 - 10 / 2 ^ 52) := mul_nonneg L0.le (by norm_num)
    linarith
  have k3 : (2 : ℚ) ^ (-1022 : ℤ) ≤ v := by
    have : (((2 : ℚ) ^ (-1022 : ℤ) : ℚ) : ℝ) ≤ v := by
      rw [Rat.cast_zpow, Rat.cast_ofNat]
      have h1 := ((mN.mul mN).div mid_two).mono (show 202 + 202 + 1 ≤ 1000 by omega) |>.1
      have h3 : (2 : ℝ) ^ (-1022 : ℤ) ≤ 1 / 2 ^ 1000 := by
        rw [one_div, ← zpow_natCast, ← zpow_neg]
        exact zpow_le_zpow_right₀ (by norm_num) (by norm_num)
      refine (h3.trans h1).trans (le_trans ?_ k2)
      linarith
    exact_mod_cast this
  obtain ⟨w, hw, we⟩ := lib.sqrt v (hd v rfl) k3
  have v0 : (0 : ℝ) ≤ v := by linarith
  have k4 := sqrt_ap L0.le v0 k1 (by norm_num)
  have r0 := Real.sqrt_nonneg L
  have r1 : √L ≤ 2 * N := by
    apply Real.sqrt_le_iff.mpr
    refine ⟨by linarith, ?_⟩
    have := mul_pos N0 N0
    linarith [show (2 * N) ^ 2 = 4 * (N * N) by ring]
  refine ⟨w, (if_neg (not_lt.mpr (by exact_mod_cast v0))).trans hw, by rwa [abs_of_nonneg r0], ?_⟩
  generalize √L = T at *
  generalize √(v : ℝ) = t at *
  have i1 := abs_sub_le (w : ℝ) t T
  have i3 : t ≤ (1 + 10 / 2 ^ 52) * T := by
    have := (abs_le.mp k4).2
    linarith
  have i4 : ε * t ≤ 1 / 2 ^ 52 * ((1 + 10 / 2 ^ 52) * T) := by
    calc ε * t ≤ ε * ((1 + 10 / 2 ^ 52) * T) := mul_le_mul_of_nonneg_left i3 lib.nonneg
      _ ≤ _ := mul_le_mul_of_nonneg_right hε (by positivity)
  have i5 : 12 * (2 * N) / 2 ^ 52 - (1 / 2 ^ 52 * ((1 + 10 / 2 ^ 52) * T) + 10 / 2 ^ 52 * T) = 12 / 2 ^ 52 * (2 * N - T) + T * (12 / 2 ^ 52 - (1 / 2 ^ 52 * (1 + 10 / 2 ^ 52) + 10 / 2 ^ 52)) := by ring
  have i6 : 0 ≤ T * (12 / 2 ^ 52 - (1 / 2 ^ 52 * (1 + 10 / 2 ^ 52) + 10 / 2 ^ 52)) := mul_nonneg r0 (by norm_num)
  have i7 : 0 ≤ 12 / 2 ^ 52 * (2 * N - T) := mul_nonneg (by norm_num) (by linarith)
  linarith

theorem dist_tie {ν : ℝ} {u v : Coord ℝ} (h : Tie ν u v) : dist u v ≤ 2 * ν := by
  have ν0 : 0 ≤ ν := (abs_nonneg _).trans h.1
  unfold Spec.dist
  apply Real.sqrt_le_iff.mpr
  refine ⟨by linarith, ?_⟩
  have i1 := sq_le_sq' (neg_le_of_abs_le h.1) (le_of_abs_le h.1)
  have i2 := sq_le_sq' (neg_le_of_abs_le h.2) (le_of_abs_le h.2)
  have := sq_nonneg ν
  linarith [show (2 * ν) ^ 2 = 4 * ν ^ 2 by ring]

/-- The distance of points of this size is at most 4M. -/
theorem dist_sized {M : ℝ} {p a : Coord ℚ} (hp : Sized M p) (ha : Sized M a) : dist (realPt p) (realPt a) ≤ 4 * M := by
  obtain ⟨-, -, px, py⟩ := hp
  obtain ⟨-, -, ax, ay⟩ := ha
  have : Tie (2 * M) (realPt p) (realPt a) := by
    constructor
    · have := abs_sub (p.x : ℝ) a.x; dsimp only [realPt]; linarith
    · have := abs_sub (p.y : ℝ) a.y; dsimp only [realPt]; linarith
  have := dist_tie this
  linarith

theorem units_le {M : ℝ} (M0 : 0 ≤ M) : 384 * M / 2 ^ 52 ≤ M / 2 ^ 43 := by
  have : 384 * M / 2 ^ 52 = M * (384 / 2 ^ 52) := by ring
  rw [this, div_eq_mul_one_div M]
  exact mul_le_mul_of_nonneg_left (by norm_num) M0

theorem min_units {κ : ℝ} {u v : ℚ} {D E : ℝ} (h1 : |(u : ℝ) - D| ≤ κ) (h2 : |(v : ℝ) - E| ≤ κ) : |((min v u : ℚ) : ℝ) - min E D| ≤ κ := by
  rw [Rat.cast_min]
  obtain ⟨a1, a2⟩ := abs_le.mp h1
  obtain ⟨b1, b2⟩ := abs_le.mp h2
  rw [abs_le]
  rcases min_choice (v : ℝ) u with k | k <;> rcases min_choice E D with l | l <;> rw [k, l]
  · exact ⟨b1, b2⟩
  · have := min_le_left E D; have := min_le_right (v : ℝ) u; constructor <;> linarith
  · have := min_le_right E D; have := min_le_left (v : ℝ) u; constructor <;> linarith
  · exact ⟨a1, a2⟩

theorem least64 (u v : ℚ) : (if (Fl.fin v : B64 sq hy) <. Fl.fin u then (Fl.fin v : B64 sq hy) else Fl.fin u) = Fl.fin (min v u) := by
  show (if decide (v < u) = true then (Fl.fin v : B64 sq hy) else Fl.fin u) = _
  by_cases h : v < u
  · rw [if_pos (by simpa using h), min_eq_left h.le]
  · rw [if_neg (by simpa using h), min_eq_right (not_lt.mp h)]

theorem leastR (u v : ℝ) : (if v <. u then v else u) = min v u := by
  show (if decide (v < u) = true then v else u) = _
  by_cases h : v < u
  · rw [if_pos (by simpa using h), min_eq_left h.le]
  · rw [if_neg (by simpa using h), min_eq_right (not_lt.mp h)]

/-- A quotient of doubles below 0, above 1, or between. -/
theorem quot_outcome {n m : ℚ} (hm : m ≠ 0) :
    (((Fl.fin n : B64 sq hy) /. Fl.fin m <. Fl.fin 0) = true → n / m < 0) ∧ (((Fl.fin 1 : B64 sq hy) <. Fl.fin n /. Fl.fin m) = true → 1 < n / m) ∧
    (((Fl.fin n : B64 sq hy) /. Fl.fin m <. Fl.fin 0) = false → ((Fl.fin 1 : B64 sq hy) <. Fl.fin n /. Fl.fin m) = false →
      ∃ r : ℚ, 0 ≤ r ∧ r ≤ 1 ∧ |(r : ℝ) - n / m| ≤ 1 / 2 ^ 52) := by
  have e : (Fl.fin n : B64 sq hy) /. Fl.fin m = rnd (n / m) := by
    show Fl.div (Fl.fin n) (Fl.fin m) = _
    simp only [Fl.div]
    rw [if_neg hm]; rfl
  rw [e]
  have one : near 1 = 1 := near_of_rep (f64_of (by decide +kernel)).1
  have lo : n / m < 0 ∨ 0 ≤ near (n / m) := (lt_or_ge (n / m) 0).imp_right near_nonneg
  have hi : 1 < n / m ∨ near (n / m) ≤ 1 := (lt_or_ge 1 (n / m)).imp_right fun h => by have := near_mono h; rwa [one] at this
  have b1 : (1 : ℚ) < 2 ^ 1024 := one_lt_pow₀ (by norm_num) (by norm_num)
  refine ⟨fun h => ?_, fun h => ?_, fun h k => ?_⟩
  · rcases lo with l | l
    · exact l
    · exfalso
      unfold rnd at h
      split_ifs at h with h1 h2
      · exact absurd (show false = true from h) (by decide)
      · generalize (2 : ℚ) ^ 1024 = P at *; linarith
      · have h' : decide (near (n / m) < 0) = true := h
        rw [decide_eq_true_eq] at h'; linarith
  · rcases hi with l | l
    · exact l
    · exfalso
      unfold rnd at h
      split_ifs at h with h1 h2
      · generalize (2 : ℚ) ^ 1024 = P at *; linarith
      · exact absurd (show false = true from h) (by decide)
      · have h' : decide (1 < near (n / m)) = true := h
        rw [decide_eq_true_eq] at h'; linarith
  · have fin : 0 ≤ near (n / m) ∧ near (n / m) ≤ 1 := by
      unfold rnd at h k
      split_ifs at h with h1 h2
      · rw [if_pos h1] at k; exact absurd (show true = false from k) (by decide)
      · exact absurd (show true = false from h) (by decide)
      · rw [if_neg h1, if_neg h2] at k
        have h' : decide (near (n / m) < 0) = false := h
        have k' : decide (1 < near (n / m)) = false := k
        rw [decide_eq_false_iff_not] at h' k'
        exact ⟨not_lt.mp h', not_lt.mp k'⟩
    refine ⟨near (n / m), fin.1, fin.2, ?_⟩
    have er := near_err_real (n / m)
    have f0 : (0 : ℝ) ≤ ((near (n / m) : ℚ) : ℝ) := by exact_mod_cast fin.1
    have f1 : ((near (n / m) : ℚ) : ℝ) ≤ 1 := by exact_mod_cast fin.2
    have tiny : (2 : ℝ) ^ (-1075 : ℤ) ≤ 1 / 2 ^ 60 := by
      rw [one_div, ← zpow_natCast, ← zpow_neg]
      exact zpow_le_zpow_right₀ (by norm_num) (by norm_num)
    rw [Rat.cast_div] at er
    generalize ((near (n / m) : ℚ) : ℝ) = r at *
    generalize (n : ℝ) / m = q at *
    generalize (2 : ℝ) ^ (-1075 : ℤ) = z at *
    have a1 := abs_sub_abs_le_abs_sub q r
    rw [abs_sub_comm q r, abs_of_nonneg f0] at a1
    have a2 : |q| ≤ 3 / 2 := by
      have : |q| / 2 ^ 53 ≤ |q| / 4 := div_le_div_of_nonneg_left (abs_nonneg _) (by norm_num) (by norm_num)
      have : (1 : ℝ) / 2 ^ 60 ≤ 1 / 8 := by norm_num
      linarith
    have a3 : |q| / 2 ^ 53 ≤ 3 / 2 / 2 ^ 53 := div_le_div_of_nonneg_right a2 (by norm_num)
    have a4 : (3 : ℝ) / 2 / 2 ^ 53 + 1 / 2 ^ 60 ≤ 1 / 2 ^ 52 := by norm_num
    linarith

theorem boxes_real {a b c d : Coord ℚ} : Env.intersects4 a b c d = true ↔ BoxesTouch (realPt a) (realPt b) (realPt c) (realPt d) := by
  rw [intersects4_iff]
  unfold BoxesTouch realPt
  dsimp only
  simp only [← Rat.cast_min, ← Rat.cast_max, Rat.cast_le]

section all
variable {ε : ℝ} (lib : Lib64 sq hy ε) (hε : ε ≤ 1 / 2 ^ 52) {M : ℝ} (hM : M ≤ 2 ^ 200)
include lib hε hM

/-- C118: the distance of two points has a relative error of at most 3/2^52. -/
theorem C118_point {p a : Coord ℚ} (hp : Ordinary M p) (ha : Ordinary M a) :
    ∃ v : ℚ, (toB64 p : Coord (B64 sq hy)).distance (toB64 a) = Fl.fin v ∧ |(v : ℝ) - dist (realPt p) (realPt a)| ≤ 3 / 2 ^ 52 * dist (realPt p) (realPt a) := by
  obtain ⟨⟨fpx, fpy, px, py⟩, mpx, mpy⟩ := hp
  obtain ⟨⟨fax, fay, ax, ay⟩, max', may⟩ := ha
  have sep : ∀ {u v : ℚ}, Mul2 (-1000) u → Mul2 (-1000) v → u ≠ v → 1 / 2 ^ 1000 ≤ |(u : ℝ) - v| := by
    rintro u v ⟨m, rfl⟩ ⟨n, rfl⟩ h
    have hmn : m - n ≠ 0 := by rintro k; apply h; rw [sub_eq_zero.mp k]
    have h1 : (1 : ℝ) ≤ |((m - n : ℤ) : ℝ)| := by exact_mod_cast Int.one_le_abs hmn
    have e : (((m : ℚ) * 2 ^ (-1000 : ℤ) : ℚ) : ℝ) - ((n : ℚ) * 2 ^ (-1000 : ℤ) : ℚ) = ((m - n : ℤ) : ℝ) * (1 / 2 ^ 1000) := by
      push_cast
      rw [one_div, ← zpow_natCast (2 : ℝ) 1000, ← zpow_neg]
      push_cast
      ring
    rw [e, abs_mul, abs_of_pos (show (0 : ℝ) < 1 / 2 ^ 1000 by positivity)]
    calc (1 : ℝ) / 2 ^ 1000 = 1 * (1 / 2 ^ 1000) := (one_mul _).symm
      _ ≤ _ := mul_le_mul_of_nonneg_right h1 (by positivity)
  have big : ∀ {u v : ℝ}, |u| ≤ M → |v| ≤ M → |u - v| ≤ 2 ^ 900 := by
    intro u v hu hv
    have := abs_sub u v
    have p1 : (2 : ℝ) * 2 ^ 200 ≤ 2 ^ 900 := by
      rw [← pow_succ']
      exact pow_le_pow_right₀ (by norm_num) (by norm_num)
    generalize (2 : ℝ) ^ 900 = Q at *
    generalize (2 : ℝ) ^ 200 = P at *
    linarith
  unfold Coord.distance
  dsimp only
  simp only [xB64, yB64]
  by_cases h : p.x = a.x ∧ p.y = a.y
  · have e0 : ∀ u : ℚ, (Fl.fin u : B64 sq hy) -. Fl.fin u = Fl.fin 0 := by
      intro u
      show rnd (u + -u) = Val.fin 0
      rw [add_neg_cancel, rnd_of_f64 (f64_of (by decide +kernel))]
    rw [h.1, h.2, e0, e0]
    refine ⟨0, lib.zero, ?_⟩
    rw [show dist (realPt p) (realPt a) = 0 by rw [dist_eq_zero]; unfold realPt; simp [h.1, h.2]]
    simp
  · refine hypot_diff lib hε fax fpx fay fpy (big px ax) (big py ay) ?_
    by_cases h1 : p.x = a.x
    · exact Or.inr (sep mpy may fun k => h ⟨h1, k⟩)
    · exact Or.inl (sep mpx max' h1)

/-- The scaled offset from the line, as computed. -/
theorem sc_perp {a b : Coord ℚ} (ha : Sized M a) (hb : Sized M b) (hab : (1 : ℝ) / 2 ^ 200 ≤ |(b.x : ℝ) - a.x| ∨ (1 : ℝ) / 2 ^ 200 ≤ |(b.y : ℝ) - a.y|)
    {p : Coord ℚ} (hp : Sized M p) :
    ∃ (f g : B64 sq hy) (s : ℝ), (((Fl.fin a.y : B64 sq hy) -. Fl.fin p.y) *. (Fl.fin b.x -. Fl.fin a.x) -. (Fl.fin a.x -. Fl.fin p.x) *. (Fl.fin b.y -. Fl.fin a.y)) /.
          ((Fl.fin b.x -. Fl.fin a.x) *. (Fl.fin b.x -. Fl.fin a.x) +. (Fl.fin b.y -. Fl.fin a.y) *. (Fl.fin b.y -. Fl.fin a.y)) = f ∧
        FltSqrt.sqrt (((Fl.fin b.x : B64 sq hy) -. Fl.fin a.x) *. (Fl.fin b.x -. Fl.fin a.x) +. (Fl.fin b.y -. Fl.fin a.y) *. (Fl.fin b.y -. Fl.fin a.y)) = g ∧
        Sc 31 (8 * M) (f *. g) s ∧ Sc 31 (8 * M) (Flt.abs f *. g) |s| ∧
        s = -det (realPt a) (realPt b) (realPt p) / dist (realPt a) (realPt b) := by
  obtain ⟨N, mN, mM, nm, hx, hy', hL⟩ := seg_size hM ha hb hab
  have N0 := mN.pos
  have M0 := mM.pos
  obtain ⟨l, -⟩ := seg_ratio (sq := sq) (hy := hy) hM ha hb hab hp mN mM hx hy' hL
  have r := sc_root lib hε mN l hL (by
    intro v hv
    obtain ⟨fx, -⟩ := sc_diff (sq := sq) (hy := hy) ha.1 hb.1 hx (mN.mono (by omega))
    have q1 := sc_diff (sq := sq) (hy := hy) ha.1 hb.1 hx (mN.mono (by omega))
    have q2 := sc_diff (sq := sq) (hy := hy) ha.2.1 hb.2.1 hy' (mN.mono (by omega))
    obtain ⟨u1, e1, -⟩ := q1.mul q1 (by norm_num) (by norm_num) (by norm_num) (by norm_num) ((mN.mul mN).mono (by omega))
    obtain ⟨u2, e2, -⟩ := q2.mul q2 (by norm_num) (by norm_num) (by norm_num) (by norm_num) ((mN.mul mN).mono (by omega))
    rw [e1, e2] at hv
    exact add_f64 hv)
  have L0 : 0 < ((b.x : ℝ) - a.x) * (b.x - a.x) + ((b.y : ℝ) - a.y) * (b.y - a.y) := lt_of_lt_of_le (mul_pos N0 N0) hL
  have hp' := hp
  obtain ⟨fax, fay, ax, ay⟩ := ha
  obtain ⟨fbx, fby, bx, by'⟩ := hb
  obtain ⟨fpx, fpy, px, py⟩ := hp
  have m2 := mid_two.mul mM
  have s1 := sc_diff (sq := sq) (hy := hy) fax fbx hx (mN.mono (by omega))
  have s2 := sc_diff (sq := sq) (hy := hy) fay fby hy' (mN.mono (by omega))
  have s3 := sc_diff (sq := sq) (hy := hy) (N := 2 * M) fpy fay (by have := abs_sub (a.y : ℝ) p.y; linarith) (m2.mono (by omega))
  have s4 := sc_diff (sq := sq) (hy := hy) (N := 2 * M) fpx fax (by have := abs_sub (a.x : ℝ) p.x; linarith) (m2.mono (by omega))
  have n := sc_cross s3 s1 s4 s2 m2 mN (by omega)
  have mL := (mN.mul mN).add (mN.mul mN)
  have eB : 2 * (2 * M * N + 2 * M * N) / (N * N + N * N) = 4 * M / N := by field_simp; ring
  have mR : Mid 1000 (4 * M / N) := ((((mid_two.mul mid_two).mul mM).div mN).mono (by omega) : Mid 1000 (2 * 2 * M / N)) |> fun h => by convert h using 2; norm_num
  have d := n.div l (by norm_num) (by norm_num) (by norm_num) (by norm_num) (by linarith) mL.pos (by rw [eB]; exact mR)
  rw [eB, show (5 : ℝ) + 2 * 5 + 2 = 17 by norm_num] at d
  have e8 : 4 * M / N * (2 * N) = 8 * M := by field_simp; ring
  have m8 : Mid 1000 (8 * M) := by
    have := (((mid_two.mul mid_two).mul mid_two).mul mM).mono (show 1 + 1 + 1 + 202 ≤ 1000 by omega)
    convert this using 2; norm_num
  have t1 := d.mul r (by norm_num) (by norm_num) (by norm_num) (by norm_num) (by rw [e8]; exact m8)
  have t2 := d.abs.mul r (by norm_num) (by norm_num) (by norm_num) (by norm_num) (by rw [e8]; exact m8)
  rw [e8, show (17 : ℝ) + 12 + 2 = 31 by norm_num] at t1 t2
  refine ⟨_, _, _, rfl, rfl, t1, ?_, ?_⟩
  · rwa [abs_mul, abs_of_nonneg (Real.sqrt_nonneg _)]
  · have hd : dist (realPt a) (realPt b) = √(((b.x : ℝ) - a.x) * (b.x - a.x) + ((b.y : ℝ) - a.y) * (b.y - a.y)) := by
      unfold Spec.dist realPt; congr 1; ring
    have hdet : -det (realPt a) (realPt b) (realPt p) = ((a.y : ℝ) - p.y) * (b.x - a.x) - ((a.x : ℝ) - p.x) * (b.y - a.y) := by
      unfold det realPt; ring
    rw [hd, hdet]
    have q0 := Real.sqrt_pos.mpr L0
    have q1 := Real.mul_self_sqrt L0.le
    rw [eq_div_iff q0.ne', mul_assoc, q1, div_mul_cancel₀ _ L0.ne']

/-- C118: the signed distance to the line through a segment is within M/2^44 of the exact one (positive on the right). -/
theorem C118_signed {a b : Coord ℚ} (ha : Sized M a) (hb : Sized M b) (hab : (1 : ℝ) / 2 ^ 200 ≤ |(b.x : ℝ) - a.x| ∨ (1 : ℝ) / 2 ^ 200 ≤ |(b.y : ℝ) - a.y|)
    {p : Coord ℚ} (hp : Sized M p) :
    ∃ v : ℚ, Distance.pointToLinePerpendicularSigned (toB64 p : Coord (B64 sq hy)) (toB64 a) (toB64 b) = Fl.fin v ∧
      |(v : ℝ) - -det (realPt a) (realPt b) (realPt p) / dist (realPt a) (realPt b)| ≤ M / 2 ^ 44 := by
  obtain ⟨N, mN, mM, -⟩ := seg_size hM ha hb hab
  obtain ⟨f, g, s, h1, h2, ⟨v, v1, -, v3⟩, -, h5⟩ := sc_perp lib hε hM ha hb hab hp
  unfold Distance.pointToLinePerpendicularSigned
  dsimp only
  simp only [xB64, yB64]
  rw [h1, h2, ← h5]
  refine ⟨v, v1, v3.trans ?_⟩
  have : 31 * (8 * M) / 2 ^ 52 = M * (248 / 2 ^ 52) := by ring
  rw [this, div_eq_mul_one_div M]
  exact mul_le_mul_of_nonneg_left (by norm_num) mM.pos.le

/-- C118: the distance to the line through a segment is within M/2^44 of the exact one. -/
theorem C118_line {a b : Coord ℚ} (ha : Sized M a) (hb : Sized M b) (hab : (1 : ℝ) / 2 ^ 200 ≤ |(b.x : ℝ) - a.x| ∨ (1 : ℝ) / 2 ^ 200 ≤ |(b.y : ℝ) - a.y|)
    {p : Coord ℚ} (hp : Sized M p) :
    ∃ v : ℚ, Distance.pointToLinePerpendicular (toB64 p : Coord (B64 sq hy)) (toB64 a) (toB64 b) = Fl.fin v ∧
      ∀ D, LeastDist (realPt p) (fun c => OnInfLine c (realPt a) (realPt b)) D → |(v : ℝ) - D| ≤ M / 2 ^ 44 := by
  obtain ⟨N, mN, mM, -, -, -, hL⟩ := seg_size hM ha hb hab
  have L0 : 0 < ((b.x : ℝ) - a.x) * (b.x - a.x) + ((b.y : ℝ) - a.y) * (b.y - a.y) := lt_of_lt_of_le (mul_pos mN.pos mN.pos) hL
  obtain ⟨f, g, s, h1, h2, -, ⟨v, v1, -, v3⟩, h5⟩ := sc_perp lib hε hM ha hb hab hp
  unfold Distance.pointToLinePerpendicular
  dsimp only
  simp only [xB64, yB64]
  rw [h1, h2]
  refine ⟨v, v1, fun D hD => ?_⟩
  have hne : ¬ ((realPt a).x = (realPt b).x ∧ (realPt a).y = (realPt b).y) := by
    rintro ⟨k1, k2⟩
    dsimp only [realPt] at k1 k2
    rw [k1, k2] at L0
    simp at L0
  have e : D = |s| := by
    rw [hD.unique (C36_line _ _ _ hne), ← (C36_signed _ _ _ hne).1, h5]
    congr 1
    unfold Distance.pointToLinePerpendicularSigned
    simp only [real_toFlt, exact_sub, exact_mul, exact_add, exact_div, real_sqrt]
    have hd : dist (realPt a) (realPt b) = √(((b.x : ℝ) - a.x) * (b.x - a.x) + ((b.y : ℝ) - a.y) * (b.y - a.y)) := by
      unfold Spec.dist realPt; congr 1; ring
    have hdet : -det (realPt a) (realPt b) (realPt p) = ((a.y : ℝ) - p.y) * (b.x - a.x) - ((a.x : ℝ) - p.x) * (b.y - a.y) := by
      unfold det realPt; ring
    rw [hd, hdet]
    have q0 := Real.sqrt_pos.mpr L0
    have q1 := Real.mul_self_sqrt L0.le
    rw [eq_div_iff q0.ne']
    dsimp only [realPt]
    rw [mul_assoc, q1, div_mul_cancel₀ _ L0.ne']
  rw [e]
  refine v3.trans ?_
  have : 31 * (8 * M) / 2 ^ 52 = M * (248 / 2 ^ 52) := by ring
  rw [this, div_eq_mul_one_div M]
  exact mul_le_mul_of_nonneg_left (by norm_num) mM.pos.le

/-- The distance to a segment, in units of 2^-52. -/
theorem segment_units {p a b : Coord ℚ} (hp : Ordinary M p) (ha : Ordinary M a) (hb : Ordinary M b) (hab : Extends a b) :
    ∃ v : ℚ, Distance.pointToSegment (toB64 p : Coord (B64 sq hy)) (toB64 a) (toB64 b) = Fl.fin v ∧
      |(v : ℝ) - Distance.pointToSegment (realPt p) (realPt a) (realPt b)| ≤ 384 * M / 2 ^ 52 := by
  have M0 : 0 ≤ M := (abs_nonneg _).trans hp.1.2.2.1
  have hD := C36_segment (realPt p) (realPt a) (realPt b)
  generalize Distance.pointToSegment (realPt p) (realPt a) (realPt b) = D at *
  obtain ⟨w0, w01, w02⟩ := C118_point lib hε hM hp ha
  obtain ⟨w1, w11, w12⟩ := C118_point lib hε hM hp hb
  have d0 := dist_sized hp.1 ha.1
  have d1 := dist_sized hp.1 hb.1
  unfold Distance.pointToSegment
  have eq : (((toB64 a : Coord (B64 sq hy)).x ==. (toB64 b : Coord (B64 sq hy)).x) && ((toB64 a : Coord (B64 sq hy)).y ==. (toB64 b : Coord (B64 sq hy)).y)) =
      decide (a.x = b.x ∧ a.y = b.y) := by
    show (decide (a.x = b.x) && decide (a.y = b.y)) = _
    rw [Bool.decide_and]
  rw [eq]
  by_cases c : a.x = b.x ∧ a.y = b.y
  · rw [if_pos (by simpa using c)]
    refine ⟨w0, w01, ?_⟩
    have : D = dist (realPt p) (realPt a) := by
      obtain ⟨⟨q, ⟨t, -, -, tx, ty⟩, e⟩, -⟩ := hD
      rw [← e]
      unfold Spec.dist
      dsimp only [realPt] at tx ty ⊢
      rw [tx, ty, c.1, c.2]; congr 1; ring
    rw [this]
    refine w02.trans ?_
    have : 3 / 2 ^ 52 * dist (realPt p) (realPt a) ≤ 3 / 2 ^ 52 * (4 * M) := mul_le_mul_of_nonneg_left d0 (by norm_num)
    have : 0 ≤ M / 2 ^ 52 := by positivity
    linarith
  · rw [if_neg (by simpa using c)]
    have hab' := hab.proper c
    obtain ⟨N, mN, mM, nm, hx, hy', hL⟩ := seg_size hM ha.1 hb.1 hab'
    have N0 := mN.pos
    have L0 : 0 < ((b.x : ℝ) - a.x) * (b.x - a.x) + ((b.y : ℝ) - a.y) * (b.y - a.y) := lt_of_lt_of_le (mul_pos N0 N0) hL
    obtain ⟨-, f, f1, f2, f3⟩ := seg_ratio (sq := sq) (hy := hy) hM ha.1 hb.1 hab' hp.1 mN mM hx hy' hL
    obtain ⟨g, h, s, g1, g2, -, ⟨v, v1, v2, v3⟩, g5⟩ := sc_perp lib hε hM ha.1 hb.1 hab' hp.1
    dsimp only
    have len : (((toB64 b : Coord (B64 sq hy)).x -. (toB64 a).x) *. ((toB64 b).x -. (toB64 a).x) +. ((toB64 b).y -. (toB64 a).y) *. ((toB64 b).y -. (toB64 a).y)) =
      ((Fl.fin b.x -. Fl.fin a.x) *. (Fl.fin b.x -. Fl.fin a.x) +. (Fl.fin b.y -. Fl.fin a.y) *. (Fl.fin b.y -. Fl.fin a.y)) := rfl
    have num : (((toB64 p : Coord (B64 sq hy)).x -. (toB64 a).x) *. ((toB64 b).x -. (toB64 a).x) +. ((toB64 p).y -. (toB64 a).y) *. ((toB64 b).y -. (toB64 a).y)) =
      ((Fl.fin p.x -. Fl.fin a.x) *. (Fl.fin b.x -. Fl.fin a.x) +. (Fl.fin p.y -. Fl.fin a.y) *. (Fl.fin b.y -. Fl.fin a.y)) := rfl
    have off : (((toB64 a : Coord (B64 sq hy)).y -. (toB64 p).y) *. ((toB64 b).x -. (toB64 a).x) -. ((toB64 a).x -. (toB64 p).x) *. ((toB64 b).y -. (toB64 a).y)) =
      ((Fl.fin a.y -. Fl.fin p.y) *. (Fl.fin b.x -. Fl.fin a.x) -. (Fl.fin a.x -. Fl.fin p.x) *. (Fl.fin b.y -. Fl.fin a.y)) := rfl
    rw [len, num, off, f1, g1, g2, v1, w01, w11, lit64, one64]
    obtain ⟨⟨q, hq, hqD⟩, hmin⟩ := hD
    have hn : Nearest (realPt p) q (realPt a) (realPt b) := ⟨hq, fun c hc => by rw [hqD]; exact hmin c hc⟩
    obtain ⟨τ, τ0, τ1, qx, qy, τf, τlo, τhi⟩ := nearest_frac L0 q hn
    have sm : ∀ {z d : ℝ}, |z| ≤ 17 * (4 * M / N) / 2 ^ 52 → |d| ≤ N → |z * d| ≤ 68 * M / 2 ^ 52 := by
      intro z d h k
      rw [abs_mul]
      refine (mul_le_mul h k (abs_nonneg _) (by have := mM.pos; positivity)).trans (le_of_eq ?_)
      field_simp; ring
    have cl : ∀ {u : Coord ℝ} {z : ℝ}, u.x = a.x + z * (b.x - a.x) → u.y = a.y + z * (b.y - a.y) → |z - τ| ≤ 17 * (4 * M / N) / 2 ^ 52 →
        |dist (realPt p) u - D| ≤ 136 * M / 2 ^ 52 := by
      intro u z ux uy h
      have t : Tie (68 * M / 2 ^ 52) u q := by
        constructor
        · rw [ux, qx]; convert sm h hx using 2; ring
        · rw [uy, qy]; convert sm h hy' using 2; ring
      have t' := dist_tie t
      have e1 := dist_triangle (realPt p) u q
      have e2 := dist_triangle (realPt p) q u
      rw [Spec.dist_comm q u] at e2
      rw [← hqD, abs_le]
      constructor <;> linarith
    have pos : 0 ≤ 17 * (4 * M / N) / 2 ^ 52 := by positivity
    have fin : ∀ {u : Coord ℚ} {w : ℚ}, |(w : ℝ) - dist (realPt p) (realPt u)| ≤ 3 / 2 ^ 52 * dist (realPt p) (realPt u) → dist (realPt p) (realPt u) ≤ 4 * M →
        |dist (realPt p) (realPt u) - D| ≤ 136 * M / 2 ^ 52 → |(w : ℝ) - D| ≤ 384 * M / 2 ^ 52 := by
      intro u w h1 h2 h3
      have i1 := abs_sub_le (w : ℝ) (dist (realPt p) (realPt u)) D
      have : 3 / 2 ^ 52 * dist (realPt p) (realPt u) ≤ 3 / 2 ^ 52 * (4 * M) := mul_le_mul_of_nonneg_left h2 (by norm_num)
      have : 0 ≤ M / 2 ^ 52 := by positivity
      linarith
    show ∃ v', (if decide (f ≤ 0) = true then (Fl.fin w0 : B64 sq hy) else if decide (1 ≤ f) = true then Fl.fin w1 else Fl.fin v) = Fl.fin v' ∧ _
    by_cases c0 : f ≤ 0
    · rw [if_pos (by simpa using c0)]
      refine ⟨w0, rfl, fin w02 d0 (cl (z := 0) ?_ ?_ ?_)⟩
      · simp [realPt]
      · simp [realPt]
      · have c0' : (f : ℝ) ≤ 0 := by exact_mod_cast c0
        rw [zero_sub, abs_neg, abs_of_nonneg τ0]
        rcases eq_or_lt_of_le τ0 with k | k
        · rw [← k]; exact pos
        · have := τlo k
          have := (abs_le.mp f3).1
          linarith
    · rw [if_neg (by simpa using c0)]
      by_cases c1 : 1 ≤ f
      · rw [if_pos (by simpa using c1)]
        refine ⟨w1, rfl, fin w12 d1 (cl (z := 1) ?_ ?_ ?_)⟩
        · simp [realPt]
        · simp [realPt]
        · have c1' : (1 : ℝ) ≤ f := by exact_mod_cast c1
          rw [abs_of_nonneg (by linarith)]
          rcases eq_or_lt_of_le τ1 with k | k
          · rw [k, sub_self]; exact pos
          · have := τhi k
            have := (abs_le.mp f3).2
            linarith
      · rw [if_neg (by simpa using c1)]
        refine ⟨v, rfl, ?_⟩
        push Not at c0 c1
        have c0' : (0 : ℝ) < f := by exact_mod_cast c0
        have c1' : (f : ℝ) < 1 := by exact_mod_cast c1
        generalize ht : (((p.x : ℝ) - a.x) * (b.x - a.x) + ((p.y : ℝ) - a.y) * (b.y - a.y)) / (((b.x : ℝ) - a.x) * (b.x - a.x) + ((b.y : ℝ) - a.y) * (b.y - a.y)) = t at *
        -- the fraction of the foot is as close to [0, 1] as the computed one
        have tt : |t - τ| ≤ 17 * (4 * M / N) / 2 ^ 52 := by
          obtain ⟨k1, k2⟩ := abs_le.mp f3
          rw [abs_le]
          constructor
          · rcases eq_or_lt_of_le τ0 with k | k
            · rw [← k]; linarith
            · have := τlo k; linarith
          · rcases eq_or_lt_of_le τ1 with k | k
            · rw [k]; linarith
            · have := τhi k; linarith
        have hne : ¬ ((realPt a).x = (realPt b).x ∧ (realPt a).y = (realPt b).y) := by
          rintro ⟨k1, k2⟩
          dsimp only [realPt] at k1 k2
          rw [k1, k2] at L0
          simp at L0
        obtain ⟨q1, -⟩ := perp_least (realPt p) (realPt a) (realPt b) hne
        have e : dist (realPt p) (onLine (realPt a) (realPt b) t) = |s| := by
          have : dist (realPt p) (onLine (realPt a) (realPt b) t) = Distance.pointToLinePerpendicular (realPt p) (realPt a) (realPt b) := by
            unfold Distance.pointToLinePerpendicular
            simp only [real_toFlt, exact_sub, exact_mul, exact_add, exact_div, exact_abs, real_sqrt, ← abs_eq_max_neg]
            rw [q1]
            unfold Spec.dist onLine
            dsimp only [realPt]
            rw [← ht]
          rw [this, ← (C36_signed _ _ _ hne).1, g5]
          congr 1
          unfold Distance.pointToLinePerpendicularSigned
          simp only [real_toFlt, exact_sub, exact_mul, exact_add, exact_div, real_sqrt]
          have hd : dist (realPt a) (realPt b) = √(((b.x : ℝ) - a.x) * (b.x - a.x) + ((b.y : ℝ) - a.y) * (b.y - a.y)) := by
            unfold Spec.dist realPt; congr 1; ring
          have hdet : -det (realPt a) (realPt b) (realPt p) = ((a.y : ℝ) - p.y) * (b.x - a.x) - ((a.x : ℝ) - p.x) * (b.y - a.y) := by
            unfold det realPt; ring
          rw [hd, hdet]
          have q0 := Real.sqrt_pos.mpr L0
          have q1 := Real.mul_self_sqrt L0.le
          rw [eq_div_iff q0.ne']
          dsimp only [realPt]
          rw [mul_assoc, q1, div_mul_cancel₀ _ L0.ne']
        have k := cl (u := onLine (realPt a) (realPt b) t) (z := t) rfl rfl tt
        rw [e] at k
        have i1 := abs_sub_le (v : ℝ) |s| D
        have : 31 * (8 * M) / 2 ^ 52 = 248 * (M / 2 ^ 52) := by ring
        have : 136 * M / 2 ^ 52 = 136 * (M / 2 ^ 52) := by ring
        have : 384 * M / 2 ^ 52 = 384 * (M / 2 ^ 52) := by ring
        linarith

/-- C118: the distance to a segment is within M/2^43 of the exact one. -/
theorem C118_segment {p a b : Coord ℚ} (hp : Ordinary M p) (ha : Ordinary M a) (hb : Ordinary M b) (hab : Extends a b) :
    ∃ v : ℚ, Distance.pointToSegment (toB64 p : Coord (B64 sq hy)) (toB64 a) (toB64 b) = Fl.fin v ∧
      ∀ D, LeastDist (realPt p) (fun c => OnSegment c (realPt a) (realPt b)) D → |(v : ℝ) - D| ≤ M / 2 ^ 43 := by
  obtain ⟨v, h1, h2⟩ := segment_units lib hε hM hp ha hb hab
  refine ⟨v, h1, fun D hD => ?_⟩
  rw [hD.unique (C36_segment _ _ _)]
  exact h2.trans (units_le ((abs_nonneg _).trans hp.1.2.2.1))

theorem fold_units {p : Coord ℚ} (hp : Ordinary M p) : ∀ (l : List (Coord ℚ × Coord ℚ)), (∀ t ∈ l, Ordinary M t.1 ∧ Ordinary M t.2 ∧ Extends t.1 t.2) →
    ∀ (u : ℚ) (D : ℝ), |(u : ℝ) - D| ≤ 384 * M / 2 ^ 52 →
    ∃ v : ℚ, (l.map (fun t => ((toB64 t.1 : Coord (B64 sq hy)), (toB64 t.2 : Coord (B64 sq hy))))).foldl (fun m s =>
        let d := Distance.pointToSegment (toB64 p) s.1 s.2
        if d <. m then d else m) (Fl.fin u) = Fl.fin v ∧
      |(v : ℝ) - (l.map (fun t => (realPt t.1, realPt t.2))).foldl (fun m s =>
        let d := Distance.pointToSegment (realPt p) s.1 s.2
        if d <. m then d else m) D| ≤ 384 * M / 2 ^ 52 := by
  intro l
  induction l with
  | nil => intro _ u D h; exact ⟨u, rfl, h⟩
  | cons t l ih =>
    intro hl u D h
    simp only [List.map_cons, List.foldl_cons]
    obtain ⟨v, hv, he⟩ := segment_units lib hε hM hp (hl t (by simp)).1 (hl t (by simp)).2.1 (hl t (by simp)).2.2
    rw [hv, least64, leastR]
    exact ih (fun t ht => hl t (by simp [ht])) _ _ (min_units h he)

/-- C118: the distance to a chain of segments is within M/2^43 of the exact one. -/
theorem C118_chain {p : Coord ℚ} (hp : Ordinary M p) {line : List (Coord ℚ)} (hl : ∀ c ∈ line, Ordinary M c) (he : ∀ s ∈ segs line, Extends s.1 s.2) (hne : line ≠ []) :
    ∃ v : ℚ, Distance.pointToSegmentString (toB64 p : Coord (B64 sq hy)) (line.map toB64) = .ok (Fl.fin v) ∧
      ∀ D, LeastDist (realPt p) (OnChain (line.map realPt)) D → |(v : ℝ) - D| ≤ M / 2 ^ 43 := by
  have M0 : 0 ≤ M := (abs_nonneg _).trans hp.1.2.2.1
  obtain ⟨E, hE, hD⟩ := C36_chain (realPt p) (line.map realPt) (by simpa using hne)
  have hE' := C36_chain_steps (realPt p) (line.map realPt)
  obtain ⟨c, l, rfl⟩ := List.exists_cons_of_ne_nil hne
  have hF := C36_chain_steps (toB64 p : Coord (B64 sq hy)) ((c :: l).map toB64)
  rw [segs_map64] at hE' hF
  rw [hE] at hE'
  obtain ⟨w0, w01, w02⟩ := C118_point lib hε hM hp (hl c (by simp))
  have d0 := dist_sized hp.1 (hl c (by simp)).1
  have w03 : |(w0 : ℝ) - dist (realPt p) (realPt c)| ≤ 384 * M / 2 ^ 52 := by
    refine w02.trans ?_
    have : 3 / 2 ^ 52 * dist (realPt p) (realPt c) ≤ 3 / 2 ^ 52 * (4 * M) := mul_le_mul_of_nonneg_left d0 (by norm_num)
    have : 0 ≤ M / 2 ^ 52 := by positivity
    linarith
  obtain ⟨v, hv, e⟩ := fold_units lib hε hM hp (segs (c :: l)) (fun t ht => ⟨hl _ (mem_segs64 ht).1, hl _ (mem_segs64 ht).2, he t ht⟩) _ _ w03
  rw [← distance_eq] at e
  replace e : |(v : ℝ) - E| ≤ 384 * M / 2 ^ 52 := by rw [Except.ok.inj hE']; exact e
  refine ⟨v, hF.trans (congrArg _ ?_), fun D hD' => ?_⟩
  · rw [← hv, ← w01]; rfl
  · rw [hD'.unique hD]
    exact e.trans (units_le M0)

/-- What the computed test for an intersection says about the segments. -/
theorem cross_units {a b c d : Coord ℚ} (ha : Sized M a) (hb : Sized M b) (hc : Sized M c) (hd : Sized M d)
    (hab : (1 : ℝ) / 2 ^ 200 ≤ |(b.x : ℝ) - a.x| ∨ (1 : ℝ) / 2 ^ 200 ≤ |(b.y : ℝ) - a.y|) (hcd : (1 : ℝ) / 2 ^ 200 ≤ |(d.x : ℝ) - c.x| ∨ (1 : ℝ) / 2 ^ 200 ≤ |(d.y : ℝ) - c.y|) :
    (Distance.noIntersection (toB64 a : Coord (B64 sq hy)) (toB64 b) (toB64 c) (toB64 d) = false → SegmentsTie (48 * M / 2 ^ 52) (realPt a) (realPt b) (realPt c) (realPt d)) ∧
    (Distance.noIntersection (toB64 a : Coord (B64 sq hy)) (toB64 b) (toB64 c) (toB64 d) = true →
      (∃ p, OnSegment p (realPt a) (realPt b) ∧ OnSegment p (realPt c) (realPt d)) → EndTie (48 * M / 2 ^ 52) (realPt a) (realPt b) (realPt c) (realPt d)) := by
  obtain ⟨N₁, m1, mM, n1, hx1, hy1, hL1⟩ := seg_size hM ha hb hab
  obtain ⟨N₂, m2, -, n2, hx2, hy2, hL2⟩ := seg_size hM hc hd hcd
  have p1 := m1.pos
  have p2 := m2.pos
  have M0 := mM.pos
  have mm := mid_two.mul mM
  have bd : ∀ {u v : ℝ}, |u| ≤ M → |v| ≤ M → |u - v| ≤ 2 * M := by
    intro u v hu hv; have := abs_sub u v; linarith
  have s1 := sc_diff (sq := sq) (hy := hy) ha.1 hb.1 hx1 (m1.mono (by omega))
  have s2 := sc_diff (sq := sq) (hy := hy) ha.2.1 hb.2.1 hy1 (m1.mono (by omega))
  have s3 := sc_diff (sq := sq) (hy := hy) hc.1 hd.1 hx2 (m2.mono (by omega))
  have s4 := sc_diff (sq := sq) (hy := hy) hc.2.1 hd.2.1 hy2 (m2.mono (by omega))
  have s5 := sc_diff (sq := sq) (hy := hy) hc.1 ha.1 (bd ha.2.2.1 hc.2.2.1) (mm.mono (by omega))
  have s6 := sc_diff (sq := sq) (hy := hy) hc.2.1 ha.2.1 (bd ha.2.2.2 hc.2.2.2) (mm.mono (by omega))
  obtain ⟨m', fm, bm, em⟩ := sc_cross s1 s4 s2 s3 m1 m2 (by omega)
  obtain ⟨r', fr, br, er⟩ := sc_cross s6 s3 s5 s4 mm m2 (by omega)
  obtain ⟨t', ft, bt, et⟩ := sc_cross s6 s1 s5 s2 mm m1 (by omega)
  have ni : Distance.noIntersection (toB64 a : Coord (B64 sq hy)) (toB64 b) (toB64 c) (toB64 d) =
      (if !Env.intersects4 a b c d then true else if decide (m' = 0) then true else
        ((Fl.fin r' : B64 sq hy) /. Fl.fin m' <. Fl.fin 0) || ((Fl.fin 1 : B64 sq hy) <. Fl.fin r' /. Fl.fin m') ||
        ((Fl.fin t' : B64 sq hy) /. Fl.fin m' <. Fl.fin 0) || ((Fl.fin 1 : B64 sq hy) <. Fl.fin t' /. Fl.fin m')) := by
    unfold Distance.noIntersection
    rw [intersects4_b64]
    dsimp only
    have e1 : (((toB64 b : Coord (B64 sq hy)).x -. (toB64 a).x) *. ((toB64 d).y -. (toB64 c).y) -. ((toB64 b).y -. (toB64 a).y) *. ((toB64 d).x -. (toB64 c).x)) = Fl.fin m' := fm
    have e2 : (((toB64 a : Coord (B64 sq hy)).y -. (toB64 c).y) *. ((toB64 d).x -. (toB64 c).x) -. ((toB64 a).x -. (toB64 c).x) *. ((toB64 d).y -. (toB64 c).y)) = Fl.fin r' := fr
    have e3 : (((toB64 a : Coord (B64 sq hy)).y -. (toB64 c).y) *. ((toB64 b).x -. (toB64 a).x) -. ((toB64 a).x -. (toB64 c).x) *. ((toB64 b).y -. (toB64 a).y)) = Fl.fin t' := ft
    rw [e1, e2, e3, lit64, one64]
    rfl
  rw [ni]
  -- the exact values
  generalize hm : ((b.x : ℝ) - a.x) * (d.y - c.y) - (b.y - a.y) * (d.x - c.x) = m at *
  generalize hr : ((a.y : ℝ) - c.y) * (d.x - c.x) - (a.x - c.x) * (d.y - c.y) = r at *
  generalize ht : ((a.y : ℝ) - c.y) * (b.x - a.x) - (a.x - c.x) * (b.y - a.y) = t at *
  have q1 : N₁ * N₂ ≤ 2 * (M * N₂) := by have := mul_le_mul_of_nonneg_right n1 p2.le; linarith
  have q2 : N₁ * N₂ ≤ 2 * (M * N₁) := by have := mul_le_mul_of_nonneg_left n2 p1.le; linarith
  have w1 : 0 < M * N₁ := mul_pos M0 p1
  have w2 : 0 < M * N₂ := mul_pos M0 p2
  have em' : 5 * (N₁ * N₂ + N₁ * N₂) / 2 ^ 52 = 10 * (N₁ * N₂) / 2 ^ 52 := by ring
  have er' : 5 * (2 * M * N₂ + 2 * M * N₂) / 2 ^ 52 = 20 * (M * N₂) / 2 ^ 52 := by ring
  have et' : 5 * (2 * M * N₁ + 2 * M * N₁) / 2 ^ 52 = 20 * (M * N₁) / 2 ^ 52 := by ring
  rw [em'] at em
  rw [er'] at er
  rw [et'] at et
  have tot : ∀ {N : ℝ}, N₁ * N₂ ≤ 2 * (M * N) → 0 < M * N → 20 * (M * N) / 2 ^ 52 + 10 * (N₁ * N₂) / 2 ^ 52 ≤ 48 * M / 2 ^ 52 * N := by
    intro N h k
    have : 48 * M / 2 ^ 52 * N = 48 / 2 ^ 52 * (M * N) := by ring
    linarith
  have tot1 := tot q2 w1
  have tot2 := tot q1 w2
  constructor
  · intro h
    by_cases k1 : Env.intersects4 a b c d = true
    swap
    · rw [if_pos (by simpa using k1)] at h; exact absurd h (by decide)
    rw [if_neg (by simpa using k1)] at h
    by_cases k2 : m' = 0
    · rw [if_pos (by simpa using k2)] at h; exact absurd h (by decide)
    rw [if_neg (by simpa using k2)] at h
    simp only [Bool.or_eq_false_iff] at h
    obtain ⟨⟨⟨h1, h2⟩, h3⟩, h4⟩ := h
    obtain ⟨ρ, ρ0, ρ1, ρe⟩ := (quot_outcome (sq := sq) (hy := hy) (n := r') k2).2.2 h1 h2
    obtain ⟨σ, σ0, σ1, σe⟩ := (quot_outcome (sq := sq) (hy := hy) (n := t') k2).2.2 h3 h4
    have ρ0' : (0 : ℝ) ≤ ρ := by exact_mod_cast ρ0
    have ρ1' : (ρ : ℝ) ≤ 1 := by exact_mod_cast ρ1
    have σ0' : (0 : ℝ) ≤ σ := by exact_mod_cast σ0
    have σ1' : (σ : ℝ) ≤ 1 := by exact_mod_cast σ1
    have k2' : (m' : ℝ) ≠ 0 := by exact_mod_cast k2
    have bm' : |(m' : ℝ)| ≤ 3 * (N₁ * N₂) := by
      have i1 := abs_sub_abs_le_abs_sub (m' : ℝ) m
      have i2 := mul_pos p1 p2
      linarith
    have gap : ∀ {x n : ℚ} {y N : ℝ}, N₁ * N₂ ≤ 2 * (M * N) → 0 < M * N → 0 ≤ (x : ℝ) → (x : ℝ) ≤ 1 → |(x : ℝ) - n / m'| ≤ 1 / 2 ^ 52 → |(n : ℝ) - y| ≤ 20 * (M * N) / 2 ^ 52 →
        |y - x * m| ≤ 48 * M / 2 ^ 52 * N := by
      intro x n y N g1 g2 x0 x1 g3 g4
      have i1 : |(n : ℝ) - x * m'| ≤ 1 / 2 ^ 52 * (3 * (N₁ * N₂)) := by
        have e : (n : ℝ) - x * m' = -((x - n / m') * m') := by field_simp; ring
        rw [e, abs_neg, abs_mul]
        exact mul_le_mul g3 bm' (abs_nonneg _) (by norm_num)
      have i2 : |x * ((m' : ℝ) - m)| ≤ 10 * (N₁ * N₂) / 2 ^ 52 := by
        rw [abs_mul, abs_of_nonneg x0]
        calc (x : ℝ) * |(m' : ℝ) - m| ≤ 1 * |(m' : ℝ) - m| := mul_le_mul_of_nonneg_right x1 (abs_nonneg _)
          _ ≤ _ := by rw [one_mul]; exact em
      have e : y - x * m = -((n : ℝ) - y) + ((n : ℝ) - x * m') + x * ((m' : ℝ) - m) := by ring
      rw [e]
      have j1 := abs_add_le (-((n : ℝ) - y) + ((n : ℝ) - x * m')) (x * ((m' : ℝ) - m))
      have j2 := abs_add_le (-((n : ℝ) - y)) ((n : ℝ) - x * m')
      rw [abs_neg] at j2
      have : 48 * M / 2 ^ 52 * N = 48 / 2 ^ 52 * (M * N) := by ring
      linarith
    have g1 := gap q1 w2 ρ0' ρ1' ρe er
    have g2 := gap q2 w1 σ0' σ1' σe et
    obtain ⟨φ, hφ⟩ := near_line (c := realPt c) (d := realPt d) (p := onLine (realPt a) (realPt b) ρ) (η := 48 * M / 2 ^ 52) p2 hx2 hy2 hL2 (by
      convert g1 using 2
      rw [← hr, ← hm]
      dsimp only [onLine, realPt]; ring)
    obtain ⟨γ, hγ⟩ := near_line (c := realPt a) (d := realPt b) (p := onLine (realPt c) (realPt d) σ) (η := 48 * M / 2 ^ 52) p1 hx1 hy1 hL1 (by
      rw [← abs_neg]
      convert g2 using 2
      rw [← ht, ← hm]
      dsimp only [onLine, realPt]; ring)
    exact segments_tie ρ0' ρ1' σ0' σ1' hφ hγ.symm (boxes_real.mp k1)
  · rintro h ⟨x, ⟨ρ, ρ0, ρ1, xa, ya⟩, ⟨σ, σ0, σ1, xc, yc⟩⟩
    have k1 : Env.intersects4 a b c d = true := by
      rw [boxes_real]
      exact (intersects4_iff _ _ _ _).mp (intersects4_of_common (p := x) ⟨ρ, ρ0, ρ1, xa, ya⟩ ⟨σ, σ0, σ1, xc, yc⟩)
    rw [if_neg (by simpa using k1)] at h
    have mx : (a.x : ℝ) + ρ * (b.x - a.x) = c.x + σ * (d.x - c.x) := xa.symm.trans xc
    have my : (a.y : ℝ) + ρ * (b.y - a.y) = c.y + σ * (d.y - c.y) := ya.symm.trans yc
    have meet : onLine (realPt a) (realPt b) ρ = onLine (realPt c) (realPt d) σ := by
      unfold onLine realPt
      rw [Coord.mk.injEq]
      exact ⟨mx, my, rfl, rfl⟩
    have er0 : r = ρ * m := by rw [← hr, ← hm]; linear_combination (d.x - c.x : ℝ) * my - (d.y - c.y : ℝ) * mx
    have et0 : t = σ * m := by rw [← ht, ← hm]; linear_combination (b.x - a.x : ℝ) * my - (b.y - a.y : ℝ) * mx
    obtain ⟨u0, u1, u2, u3, u4⟩ := ratio_out ρ0 ρ1 er0 er em
    obtain ⟨z0, z1, z2, z3, z4⟩ := ratio_out σ0 σ1 et0 et em
    have endA : |r| ≤ 20 * (M * N₂) / 2 ^ 52 + 10 * (N₁ * N₂) / 2 ^ 52 → EndTie (48 * M / 2 ^ 52) (realPt a) (realPt b) (realPt c) (realPt d) := by
      intro k
      obtain ⟨φ, hφ⟩ := near_line (c := realPt c) (d := realPt d) (p := realPt a) (η := 48 * M / 2 ^ 52) p2 hx2 hy2 hL2 (by
        refine le_trans (le_of_eq ?_) (k.trans tot2)
        rw [← hr]; rfl)
      refine (end_tie (ρ := 1 - ρ) (σ := σ) (by linarith) (by linarith) σ0 σ1 ?_ hφ).swapL
      rw [onLine_swap]; exact meet
    have endB : |r - m| ≤ 20 * (M * N₂) / 2 ^ 52 + 10 * (N₁ * N₂) / 2 ^ 52 → EndTie (48 * M / 2 ^ 52) (realPt a) (realPt b) (realPt c) (realPt d) := by
      intro k
      obtain ⟨φ, hφ⟩ := near_line (c := realPt c) (d := realPt d) (p := realPt b) (η := 48 * M / 2 ^ 52) p2 hx2 hy2 hL2 (by
        refine le_trans (le_of_eq ?_) (k.trans tot2)
        rw [← hr, ← hm]
        congr 1
        dsimp only [realPt]; ring)
      exact end_tie ρ0 ρ1 σ0 σ1 meet hφ
    have endC : |t| ≤ 20 * (M * N₁) / 2 ^ 52 + 10 * (N₁ * N₂) / 2 ^ 52 → EndTie (48 * M / 2 ^ 52) (realPt a) (realPt b) (realPt c) (realPt d) := by
      intro k
      obtain ⟨φ, hφ⟩ := near_line (c := realPt a) (d := realPt b) (p := realPt c) (η := 48 * M / 2 ^ 52) p1 hx1 hy1 hL1 (by
        refine le_trans (le_of_eq ?_) (k.trans tot1)
        rw [← ht, ← abs_neg]
        congr 1
        dsimp only [realPt]; ring)
      refine ((end_tie (ρ := 1 - σ) (σ := ρ) (by linarith) (by linarith) ρ0 ρ1 ?_ hφ).swapL).swap
      rw [onLine_swap]; exact meet.symm
    have endD : |t - m| ≤ 20 * (M * N₁) / 2 ^ 52 + 10 * (N₁ * N₂) / 2 ^ 52 → EndTie (48 * M / 2 ^ 52) (realPt a) (realPt b) (realPt c) (realPt d) := by
      intro k
      obtain ⟨φ, hφ⟩ := near_line (c := realPt a) (d := realPt b) (p := realPt d) (η := 48 * M / 2 ^ 52) p1 hx1 hy1 hL1 (by
        refine le_trans (le_of_eq ?_) (k.trans tot1)
        rw [← ht, ← hm, ← abs_neg]
        congr 1
        dsimp only [realPt]; ring)
      exact (end_tie σ0 σ1 ρ0 ρ1 meet.symm hφ).swap
    by_cases k2 : m' = 0
    · exact endA (u0 (by exact_mod_cast k2))
    rw [if_neg (by simpa using k2)] at h
    simp only [Bool.or_eq_true] at h
    have sg : (m' : ℝ) < 0 ∨ 0 < (m' : ℝ) := lt_or_gt_of_ne (by exact_mod_cast k2)
    have neg : ∀ {n : ℚ}, n / m' < 0 → ((m' : ℝ) < 0 → (0 : ℝ) ≤ n) ∧ (0 < (m' : ℝ) → (n : ℝ) ≤ 0) := by
      intro n hn
      have hn' : (n : ℝ) / m' < 0 := by exact_mod_cast hn
      rw [div_neg_iff] at hn'
      constructor <;> intro k <;> rcases hn' with ⟨a1, a2⟩ | ⟨a1, a2⟩ <;> linarith
    have big : ∀ {n : ℚ}, 1 < n / m' → ((m' : ℝ) < 0 → (n : ℝ) ≤ m') ∧ (0 < (m' : ℝ) → (m' : ℝ) ≤ n) := by
      intro n hn
      have hn' : (1 : ℝ) < (n : ℝ) / m' := by exact_mod_cast hn
      constructor <;> intro k
      · rw [lt_div_iff_of_neg k] at hn'; linarith
      · rw [lt_div_iff₀ k] at hn'; linarith
    rcases h with ((h | h) | h) | h
    · obtain ⟨g1, g2⟩ := neg ((quot_outcome k2).1 h)
      rcases sg with k | k
      · exact endA (u2 k (g1 k))
      · exact endA (u1 k (g2 k))
    · obtain ⟨g1, g2⟩ := big ((quot_outcome k2).2.1 h)
      rcases sg with k | k
      · exact endB (u4 k (g1 k))
      · exact endB (u3 k (g2 k))
    · obtain ⟨g1, g2⟩ := neg ((quot_outcome k2).1 h)
      rcases sg with k | k
      · exact endC (z2 k (g1 k))
      · exact endC (z1 k (g2 k))
    · obtain ⟨g1, g2⟩ := big ((quot_outcome k2).2.1 h)
      rcases sg with k | k
      · exact endD (z4 k (g1 k))
      · exact endD (z3 k (g2 k))

/-- C118: the distance of two segments is within M/2^43 of the exact one. -/
theorem C118_segments {a b c d : Coord ℚ} (ha : Ordinary M a) (hb : Ordinary M b) (hc : Ordinary M c) (hd : Ordinary M d) (hab : Extends a b) (hcd : Extends c d) :
    ∃ v : ℚ, Distance.segmentToSegment (toB64 a : Coord (B64 sq hy)) (toB64 b) (toB64 c) (toB64 d) = Fl.fin v ∧
      ∀ D, LeastDist2 (fun u => OnSegment u (realPt a) (realPt b)) (fun u => OnSegment u (realPt c) (realPt d)) D → |(v : ℝ) - D| ≤ M / 2 ^ 43 := by
  have M0 : 0 ≤ M := (abs_nonneg _).trans ha.1.2.2.1
  have hD := C37_segments (realPt a) (realPt b) (realPt c) (realPt d)
  have hz := C37_zero_iff (realPt a) (realPt b) (realPt c) (realPt d)
  obtain ⟨v1, e1, w1⟩ := segment_units lib hε hM ha hc hd hcd
  obtain ⟨v2, e2, w2⟩ := segment_units lib hε hM hb hc hd hcd
  obtain ⟨v3, e3, w3⟩ := segment_units lib hε hM hc ha hb hab
  obtain ⟨v4, e4, w4⟩ := segment_units lib hε hM hd ha hb hab
  have u := units_le M0
  suffices h : ∃ v : ℚ, Distance.segmentToSegment (toB64 a : Coord (B64 sq hy)) (toB64 b) (toB64 c) (toB64 d) = Fl.fin v ∧
      |(v : ℝ) - Distance.segmentToSegment (realPt a) (realPt b) (realPt c) (realPt d)| ≤ M / 2 ^ 43 by
    obtain ⟨v, h1, h2⟩ := h
    exact ⟨v, h1, fun D' hD' => by rw [hD'.unique hD]; exact h2⟩
  have rq : ∀ x y : Coord ℚ, (realPt x).equals2D (realPt y) = decide (x.x = y.x ∧ x.y = y.y) := by
    intro x y
    rw [Bool.eq_iff_iff, equals2D_iff, decide_eq_true_eq]
    unfold realPt
    simp
  by_cases k1 : a.x = b.x ∧ a.y = b.y
  · have f : Distance.segmentToSegment (toB64 a : Coord (B64 sq hy)) (toB64 b) (toB64 c) (toB64 d) = Distance.pointToSegment (toB64 a) (toB64 c) (toB64 d) := by
      unfold Distance.segmentToSegment
      rw [toB64_equals, if_pos (by simpa using k1)]
    have g : Distance.segmentToSegment (realPt a) (realPt b) (realPt c) (realPt d) = Distance.pointToSegment (realPt a) (realPt c) (realPt d) := by
      unfold Distance.segmentToSegment
      rw [rq, if_pos (by simpa using k1)]
    rw [f, g]
    exact ⟨v1, e1, w1.trans u⟩
  by_cases k2 : c.x = d.x ∧ c.y = d.y
  · have f : Distance.segmentToSegment (toB64 a : Coord (B64 sq hy)) (toB64 b) (toB64 c) (toB64 d) = Distance.pointToSegment (toB64 d) (toB64 a) (toB64 b) := by
      unfold Distance.segmentToSegment
      rw [toB64_equals, if_neg (by simpa using k1), toB64_equals, if_pos (by simpa using k2)]
    have g : Distance.segmentToSegment (realPt a) (realPt b) (realPt c) (realPt d) = Distance.pointToSegment (realPt d) (realPt a) (realPt b) := by
      unfold Distance.segmentToSegment
      rw [rq, if_neg (by simpa using k1), rq, if_pos (by simpa using k2)]
    rw [f, g]
    exact ⟨v4, e4, w4.trans u⟩
  obtain ⟨cf, ct⟩ := cross_units (sq := sq) (hy := hy) lib hε hM ha.1 hb.1 hc.1 hd.1 (hab.proper k1) (hcd.proper k2)
  have f : Distance.segmentToSegment (toB64 a : Coord (B64 sq hy)) (toB64 b) (toB64 c) (toB64 d) =
      if Distance.noIntersection (toB64 a : Coord (B64 sq hy)) (toB64 b) (toB64 c) (toB64 d) then Fl.fin (min v4 (min v3 (min v2 v1))) else Fl.fin 0 := by
    unfold Distance.segmentToSegment
    rw [toB64_equals, if_neg (by simpa using k1), toB64_equals, if_neg (by simpa using k2), e1, e2, e3, e4, lit64]
    unfold MathUtil.min4
    simp only [least64]
  have g : Distance.segmentToSegment (realPt a) (realPt b) (realPt c) (realPt d) =
      if Distance.noIntersection (realPt a) (realPt b) (realPt c) (realPt d) then
        min (Distance.pointToSegment (realPt d) (realPt a) (realPt b)) (min (Distance.pointToSegment (realPt c) (realPt a) (realPt b))
          (min (Distance.pointToSegment (realPt b) (realPt c) (realPt d)) (Distance.pointToSegment (realPt a) (realPt c) (realPt d)))) else 0 := by
    unfold Distance.segmentToSegment
    rw [rq, if_neg (by simpa using k1), rq, if_neg (by simpa using k2)]
    unfold MathUtil.min4
    simp only [leastR]
    simp [real_toFlt]
  have l1 := C36_segment (realPt a) (realPt c) (realPt d)
  have l2 := C36_segment (realPt b) (realPt c) (realPt d)
  have l3 := C36_segment (realPt c) (realPt a) (realPt b)
  have l4 := C36_segment (realPt d) (realPt a) (realPt b)
  have mw := min_units (min_units (min_units w1 w2) w3) w4
  generalize Distance.segmentToSegment (realPt a) (realPt b) (realPt c) (realPt d) = D at *
  generalize Distance.pointToSegment (realPt a) (realPt c) (realPt d) = D₁ at *
  generalize Distance.pointToSegment (realPt b) (realPt c) (realPt d) = D₂ at *
  generalize Distance.pointToSegment (realPt c) (realPt a) (realPt b) = D₃ at *
  generalize Distance.pointToSegment (realPt d) (realPt a) (realPt b) = D₄ at *
  have D0 : 0 ≤ D := by obtain ⟨⟨x, y, -, -, rfl⟩, -⟩ := hD; exact dist_nonneg _ _
  have bound : 96 * M / 2 ^ 52 + 384 * M / 2 ^ 52 ≤ M / 2 ^ 43 := by
    have : 96 * M / 2 ^ 52 + 384 * M / 2 ^ 52 = M * (480 / 2 ^ 52) := by ring
    rw [this, div_eq_mul_one_div M]
    exact mul_le_mul_of_nonneg_left (by norm_num) M0
  have s0 : 0 ≤ 384 * M / 2 ^ 52 := by positivity
  rw [f]
  cases hn : Distance.noIntersection (toB64 a : Coord (B64 sq hy)) (toB64 b) (toB64 c) (toB64 d)
  · rw [if_neg (by decide)]
    refine ⟨0, rfl, ?_⟩
    obtain ⟨x, y, hx, hy', txy⟩ := cf hn
    have := hD.2 x y hx hy'
    have := dist_tie txy
    rw [Rat.cast_zero, zero_sub, abs_neg, abs_of_nonneg D0]
    linarith
  · rw [if_pos rfl]
    refine ⟨_, rfl, ?_⟩
    cases hr : Distance.noIntersection (realPt a) (realPt b) (realPt c) (realPt d)
    · rw [hr, if_neg (by decide)] at g
      have et := ct hn (hz.mp g)
      have E0 : min D₄ (min D₃ (min D₂ D₁)) ≤ 96 * M / 2 ^ 52 := by
        have tie : ∀ {x y : Coord ℝ}, Tie (48 * M / 2 ^ 52) x y → dist x y ≤ 96 * M / 2 ^ 52 := by
          intro x y h; have := dist_tie h; linarith
        obtain ⟨y, ⟨hy', h | h⟩ | ⟨hy', h | h⟩⟩ := et
        · exact ((((min_le_right _ _).trans (min_le_right _ _)).trans (min_le_right _ _)).trans (l1.2 y hy')).trans (tie h)
        · exact ((((min_le_right _ _).trans (min_le_right _ _)).trans (min_le_left _ _)).trans (l2.2 y hy')).trans (tie h)
        · exact (((min_le_right _ _).trans (min_le_left _ _)).trans (l3.2 y hy')).trans (tie h)
        · exact ((min_le_left _ _).trans (l4.2 y hy')).trans (tie h)
      have n : ∀ {p : Coord ℝ} {S : Coord ℝ → Prop} {e : ℝ}, LeastDist p S e → 0 ≤ e := by
        rintro p S e ⟨⟨x, -, rfl⟩, -⟩; exact dist_nonneg _ _
      have E1 : 0 ≤ min D₄ (min D₃ (min D₂ D₁)) := le_min (n l4) (le_min (n l3) (le_min (n l2) (n l1)))
      rw [g, sub_zero]
      have := abs_sub_abs_le_abs_sub ((min v4 (min v3 (min v2 v1)) : ℚ) : ℝ) (min D₄ (min D₃ (min D₂ D₁)))
      rw [abs_of_nonneg E1] at this
      linarith
    · rw [hr, if_pos rfl] at g
      rw [g]
      exact mw.trans u

end all

/-! ## The error is not relative -/

theorem pts_low {p a b : Coord ℚ} {r : ℚ} (hab : ¬ (a.x = b.x ∧ a.y = b.y))
    (h : (((toB64 p : Coord (B64 sq hy)).x -. (toB64 a).x) *. ((toB64 b).x -. (toB64 a).x) +. ((toB64 p).y -. (toB64 a).y) *. ((toB64 b).y -. (toB64 a).y)) /.
      (((toB64 b).x -. (toB64 a).x) *. ((toB64 b).x -. (toB64 a).x) +. ((toB64 b).y -. (toB64 a).y) *. ((toB64 b).y -. (toB64 a).y)) = Fl.fin r) (hr : r ≤ 0) :
    Distance.pointToSegment (toB64 p : Coord (B64 sq hy)) (toB64 a) (toB64 b) = (toB64 p).distance (toB64 a) := by
  unfold Distance.pointToSegment
  have eq : (((toB64 a : Coord (B64 sq hy)).x ==. (toB64 b : Coord (B64 sq hy)).x) && ((toB64 a : Coord (B64 sq hy)).y ==. (toB64 b : Coord (B64 sq hy)).y)) =
      decide (a.x = b.x ∧ a.y = b.y) := by
    show (decide (a.x = b.x) && decide (a.y = b.y)) = _
    rw [Bool.decide_and]
  rw [eq, if_neg (by simpa using hab)]
  dsimp only
  rw [h, lit64]
  exact if_pos (show decide (r ≤ 0) = true by simpa using hr)

theorem pts_high {p a b : Coord ℚ} {r : ℚ} (hab : ¬ (a.x = b.x ∧ a.y = b.y))
    (h : (((toB64 p : Coord (B64 sq hy)).x -. (toB64 a).x) *. ((toB64 b).x -. (toB64 a).x) +. ((toB64 p).y -. (toB64 a).y) *. ((toB64 b).y -. (toB64 a).y)) /.
      (((toB64 b).x -. (toB64 a).x) *. ((toB64 b).x -. (toB64 a).x) +. ((toB64 b).y -. (toB64 a).y) *. ((toB64 b).y -. (toB64 a).y)) = Fl.fin r) (hr : 1 ≤ r) :
    Distance.pointToSegment (toB64 p : Coord (B64 sq hy)) (toB64 a) (toB64 b) = (toB64 p).distance (toB64 b) := by
  unfold Distance.pointToSegment
  have eq : (((toB64 a : Coord (B64 sq hy)).x ==. (toB64 b : Coord (B64 sq hy)).x) && ((toB64 a : Coord (B64 sq hy)).y ==. (toB64 b : Coord (B64 sq hy)).y)) =
      decide (a.x = b.x ∧ a.y = b.y) := by
    show (decide (a.x = b.x) && decide (a.y = b.y)) = _
    rw [Bool.decide_and]
  rw [eq, if_neg (by simpa using hab)]
  dsimp only
  rw [h, lit64, one64]
  refine (if_neg (show ¬ decide (r ≤ 0) = true by rw [decide_eq_true_eq]; linarith)).trans ?_
  exact if_pos (show decide (1 ≤ r) = true by simpa using hr)

theorem pts_mid {p a b : Coord ℚ} {r s l : ℚ} (hab : ¬ (a.x = b.x ∧ a.y = b.y))
    (hl : (((toB64 b : Coord (B64 sq hy)).x -. (toB64 a).x) *. ((toB64 b).x -. (toB64 a).x) +. ((toB64 b).y -. (toB64 a).y) *. ((toB64 b).y -. (toB64 a).y)) = Fl.fin l)
    (h : (((toB64 p : Coord (B64 sq hy)).x -. (toB64 a).x) *. ((toB64 b).x -. (toB64 a).x) +. ((toB64 p).y -. (toB64 a).y) *. ((toB64 b).y -. (toB64 a).y)) /. Fl.fin l = Fl.fin r)
    (hs : (((toB64 a : Coord (B64 sq hy)).y -. (toB64 p).y) *. ((toB64 b).x -. (toB64 a).x) -. ((toB64 a).x -. (toB64 p).x) *. ((toB64 b).y -. (toB64 a).y)) /. Fl.fin l = Fl.fin s)
    (h0 : 0 < r) (h1 : r < 1) :
    Distance.pointToSegment (toB64 p : Coord (B64 sq hy)) (toB64 a) (toB64 b) = Flt.abs (Fl.fin s : B64 sq hy) *. FltSqrt.sqrt (Fl.fin l) := by
  unfold Distance.pointToSegment
  have eq : (((toB64 a : Coord (B64 sq hy)).x ==. (toB64 b : Coord (B64 sq hy)).x) && ((toB64 a : Coord (B64 sq hy)).y ==. (toB64 b : Coord (B64 sq hy)).y)) =
      decide (a.x = b.x ∧ a.y = b.y) := by
    show (decide (a.x = b.x) && decide (a.y = b.y)) = _
    rw [Bool.decide_and]
  rw [eq, if_neg (by simpa using hab)]
  dsimp only
  rw [hl, h, hs, lit64, one64]
  refine (if_neg (show ¬ decide (r ≤ 0) = true by rw [decide_eq_true_eq]; linarith)).trans ?_
  exact if_neg (show ¬ decide (1 ≤ r) = true by rw [decide_eq_true_eq]; linarith)

theorem mul_int (k : ℤ) : Mul2 (-1000) (k : ℚ) :=
  ⟨k * 2 ^ 1000, by
    have : (2 : ℚ) ^ 1000 * 2 ^ (-1000 : ℤ) = 1 := by
      rw [zpow_neg]
      exact mul_inv_cancel₀ (pow_ne_zero 1000 two_ne_zero)
    push_cast
    rw [mul_assoc, this, mul_one]⟩

theorem ordinary_int {M : ℝ} (j k : ℤ) (hj : IsF64 (j : ℚ)) (hk : IsF64 (k : ℚ)) (bj : |(j : ℝ)| ≤ M) (bk : |(k : ℝ)| ≤ M) : Ordinary M ⟨j, k, 0, 0⟩ :=
  ⟨⟨hj, hk, by simpa using bj, by simpa using bk⟩, mul_int j, mul_int k⟩

theorem crossing_missed : Distance.noIntersection (toB64 ⟨-8545532595495735, -6422486831709649, 0, 0⟩ : Coord (B64 sq hy)) (toB64 ⟨17091065190991470, 12844973663419298, 0, 0⟩ : Coord (B64 sq hy)) (toB64 ⟨0, 0, 0, 0⟩ : Coord (B64 sq hy)) (toB64 ⟨1, 0, 0, 0⟩ : Coord (B64 sq hy)) = true := by
  have o0 : (Fl.fin (17091065190991470) : B64 sq hy) -. Fl.fin (-8545532595495735) = Fl.fin (25636597786487204) := (by decide +kernel : rnd ((17091065190991470) + -(-8545532595495735)) = Val.fin (25636597786487204))
  have o1 : (Fl.fin (12844973663419298) : B64 sq hy) -. Fl.fin (-6422486831709649) = Fl.fin (19267460495128948) := (by decide +kernel : rnd ((12844973663419298) + -(-6422486831709649)) = Val.fin (19267460495128948))
  have o2 : (Fl.fin (1) : B64 sq hy) -. Fl.fin (0) = Fl.fin (1) := (by decide +kernel : rnd ((1) + -(0)) = Val.fin (1))
  have o3 : (Fl.fin (0) : B64 sq hy) -. Fl.fin (0) = Fl.fin (0) := (by decide +kernel : rnd ((0) + -(0)) = Val.fin (0))
  have o4 : (Fl.fin (-8545532595495735) : B64 sq hy) -. Fl.fin (0) = Fl.fin (-8545532595495735) := (by decide +kernel : rnd ((-8545532595495735) + -(0)) = Val.fin (-8545532595495735))
  have o5 : (Fl.fin (-6422486831709649) : B64 sq hy) -. Fl.fin (0) = Fl.fin (-6422486831709649) := (by decide +kernel : rnd ((-6422486831709649) + -(0)) = Val.fin (-6422486831709649))
  have o6 : (Fl.fin (25636597786487204) : B64 sq hy) *. Fl.fin (0) = Fl.fin (0) := (by decide +kernel : rnd ((25636597786487204) * (0)) = Val.fin (0))
  have o7 : (Fl.fin (19267460495128948) : B64 sq hy) *. Fl.fin (1) = Fl.fin (19267460495128948) := (by decide +kernel : rnd ((19267460495128948) * (1)) = Val.fin (19267460495128948))
  have o8 : (Fl.fin (0) : B64 sq hy) -. Fl.fin (19267460495128948) = Fl.fin (-19267460495128948) := (by decide +kernel : rnd ((0) + -(19267460495128948)) = Val.fin (-19267460495128948))
  have o9 : (Fl.fin (-6422486831709649) : B64 sq hy) *. Fl.fin (1) = Fl.fin (-6422486831709649) := (by decide +kernel : rnd ((-6422486831709649) * (1)) = Val.fin (-6422486831709649))
  have o10 : (Fl.fin (-8545532595495735) : B64 sq hy) *. Fl.fin (0) = Fl.fin (0) := (by decide +kernel : rnd ((-8545532595495735) * (0)) = Val.fin (0))
  have o11 : (Fl.fin (-6422486831709649) : B64 sq hy) *. Fl.fin (25636597786487204) = Fl.fin (-164650711693550800203339131781120) := (by decide +kernel : rnd ((-6422486831709649) * (25636597786487204)) = Val.fin (-164650711693550800203339131781120))
  have o12 : (Fl.fin (-8545532595495735) : B64 sq hy) *. Fl.fin (19267460495128948) = Fl.fin (-164650711693550836232136150745088) := (by decide +kernel : rnd ((-8545532595495735) * (19267460495128948)) = Val.fin (-164650711693550836232136150745088))
  have o13 : (Fl.fin (-164650711693550800203339131781120) : B64 sq hy) -. Fl.fin (-164650711693550836232136150745088) = Fl.fin (36028797018963968) := (by decide +kernel : rnd ((-164650711693550800203339131781120) + -(-164650711693550836232136150745088)) = Val.fin (36028797018963968))
  have o14 : (Fl.fin (36028797018963968) : B64 sq hy) /. Fl.fin (-19267460495128948) = Fl.fin (-8421414792584343 / 4503599627370496) := div_fin64 (by norm_num) (by decide +kernel) (by decide +kernel)
  have o15 : (Fl.fin (-6422486831709649) : B64 sq hy) /. Fl.fin (-19267460495128948) = Fl.fin (6004799503160661 / 18014398509481984) := div_fin64 (by norm_num) (by decide +kernel) (by decide +kernel)
  unfold Distance.noIntersection
  cases Env.intersects4 (toB64 ⟨-8545532595495735, -6422486831709649, 0, 0⟩ : Coord (B64 sq hy)) (toB64 ⟨17091065190991470, 12844973663419298, 0, 0⟩ : Coord (B64 sq hy)) (toB64 ⟨0, 0, 0, 0⟩ : Coord (B64 sq hy)) (toB64 ⟨1, 0, 0, 0⟩ : Coord (B64 sq hy))
  · rfl
  · simp only [xB64, yB64, o0, o1, o2, o3, o4, o5, o6, o7, o8, o9, o10, o11, o12, o13, o14, o15]
    rw [lit64, one64]
    have neg : (Fl.fin (-8421414792584343 / 4503599627370496) : B64 sq hy) <. Fl.fin 0 := show decide (_ < _) = true by norm_num
    rw [neg]
    simp

theorem start_off : ∃ l s : ℚ, l = 1028470179997475264342841278595072 ∧ s = 1421044251700609 / 40564819207303340847894502572032 ∧
    Distance.pointToSegment (toB64 ⟨0, 0, 0, 0⟩ : Coord (B64 sq hy)) (toB64 ⟨-8545532595495735, -6422486831709649, 0, 0⟩) (toB64 ⟨17091065190991470, 12844973663419298, 0, 0⟩) = Flt.abs (Fl.fin s : B64 sq hy) *. FltSqrt.sqrt (Fl.fin l) ∧
    Distance.pointToSegment (toB64 ⟨1, 0, 0, 0⟩ : Coord (B64 sq hy)) (toB64 ⟨-8545532595495735, -6422486831709649, 0, 0⟩) (toB64 ⟨17091065190991470, 12844973663419298, 0, 0⟩) = Flt.abs (Fl.fin s : B64 sq hy) *. FltSqrt.sqrt (Fl.fin l) := by
  have o0 : (Fl.fin (17091065190991470) : B64 sq hy) -. Fl.fin (-8545532595495735) = Fl.fin (25636597786487204) := (by decide +kernel : rnd ((17091065190991470) + -(-8545532595495735)) = Val.fin (25636597786487204))
  have o1 : (Fl.fin (12844973663419298) : B64 sq hy) -. Fl.fin (-6422486831709649) = Fl.fin (19267460495128948) := (by decide +kernel : rnd ((12844973663419298) + -(-6422486831709649)) = Val.fin (19267460495128948))
  have o4 : (Fl.fin (-8545532595495735) : B64 sq hy) -. Fl.fin (0) = Fl.fin (-8545532595495735) := (by decide +kernel : rnd ((-8545532595495735) + -(0)) = Val.fin (-8545532595495735))
  have o5 : (Fl.fin (-6422486831709649) : B64 sq hy) -. Fl.fin (0) = Fl.fin (-6422486831709649) := (by decide +kernel : rnd ((-6422486831709649) + -(0)) = Val.fin (-6422486831709649))
  have o11 : (Fl.fin (-6422486831709649) : B64 sq hy) *. Fl.fin (25636597786487204) = Fl.fin (-164650711693550800203339131781120) := (by decide +kernel : rnd ((-6422486831709649) * (25636597786487204)) = Val.fin (-164650711693550800203339131781120))
  have o12 : (Fl.fin (-8545532595495735) : B64 sq hy) *. Fl.fin (19267460495128948) = Fl.fin (-164650711693550836232136150745088) := (by decide +kernel : rnd ((-8545532595495735) * (19267460495128948)) = Val.fin (-164650711693550836232136150745088))
  have o13 : (Fl.fin (-164650711693550800203339131781120) : B64 sq hy) -. Fl.fin (-164650711693550836232136150745088) = Fl.fin (36028797018963968) := (by decide +kernel : rnd ((-164650711693550800203339131781120) + -(-164650711693550836232136150745088)) = Val.fin (36028797018963968))
  have o29 : (Fl.fin (25636597786487204) : B64 sq hy) *. Fl.fin (25636597786487204) = Fl.fin (657235146066120594019030015148032) := (by decide +kernel : rnd ((25636597786487204) * (25636597786487204)) = Val.fin (657235146066120594019030015148032))
  have o30 : (Fl.fin (19267460495128948) : B64 sq hy) *. Fl.fin (19267460495128948) = Fl.fin (371235033931354670323811263447040) := (by decide +kernel : rnd ((19267460495128948) * (19267460495128948)) = Val.fin (371235033931354670323811263447040))
  have o31 : (Fl.fin (657235146066120594019030015148032) : B64 sq hy) +. Fl.fin (371235033931354670323811263447040) = Fl.fin (1028470179997475264342841278595072) := (by decide +kernel : rnd ((657235146066120594019030015148032) + (371235033931354670323811263447040)) = Val.fin (1028470179997475264342841278595072))
  have o32 : (Fl.fin (0) : B64 sq hy) -. Fl.fin (-8545532595495735) = Fl.fin (8545532595495735) := (by decide +kernel : rnd ((0) + -(-8545532595495735)) = Val.fin (8545532595495735))
  have o33 : (Fl.fin (8545532595495735) : B64 sq hy) *. Fl.fin (25636597786487204) = Fl.fin (219078382022040210015942344704000) := (by decide +kernel : rnd ((8545532595495735) * (25636597786487204)) = Val.fin (219078382022040210015942344704000))
  have o34 : (Fl.fin (0) : B64 sq hy) -. Fl.fin (-6422486831709649) = Fl.fin (6422486831709649) := (by decide +kernel : rnd ((0) + -(-6422486831709649)) = Val.fin (6422486831709649))
  have o35 : (Fl.fin (6422486831709649) : B64 sq hy) *. Fl.fin (19267460495128948) = Fl.fin (123745011310451544765004748161024) := (by decide +kernel : rnd ((6422486831709649) * (19267460495128948)) = Val.fin (123745011310451544765004748161024))
  have o36 : (Fl.fin (219078382022040210015942344704000) : B64 sq hy) +. Fl.fin (123745011310451544765004748161024) = Fl.fin (342823393332491754780947092865024) := (by decide +kernel : rnd ((219078382022040210015942344704000) + (123745011310451544765004748161024)) = Val.fin (342823393332491754780947092865024))
  have o37 : (Fl.fin (342823393332491754780947092865024) : B64 sq hy) /. Fl.fin (1028470179997475264342841278595072) = Fl.fin (6004799503160661 / 18014398509481984) := div_fin64 (by norm_num) (by decide +kernel) (by decide +kernel)
  have o38 : (Fl.fin (36028797018963968) : B64 sq hy) /. Fl.fin (1028470179997475264342841278595072) = Fl.fin (1421044251700609 / 40564819207303340847894502572032) := div_fin64 (by norm_num) (by decide +kernel) (by decide +kernel)
  have o39 : (Fl.fin (1) : B64 sq hy) -. Fl.fin (-8545532595495735) = Fl.fin (8545532595495736) := (by decide +kernel : rnd ((1) + -(-8545532595495735)) = Val.fin (8545532595495736))
  have o40 : (Fl.fin (8545532595495736) : B64 sq hy) *. Fl.fin (25636597786487204) = Fl.fin (219078382022040246044739363667968) := (by decide +kernel : rnd ((8545532595495736) * (25636597786487204)) = Val.fin (219078382022040246044739363667968))
  have o41 : (Fl.fin (219078382022040246044739363667968) : B64 sq hy) +. Fl.fin (123745011310451544765004748161024) = Fl.fin (342823393332491754780947092865024) := (by decide +kernel : rnd ((219078382022040246044739363667968) + (123745011310451544765004748161024)) = Val.fin (342823393332491754780947092865024))
  have o42 : (Fl.fin (-8545532595495735) : B64 sq hy) -. Fl.fin (1) = Fl.fin (-8545532595495736) := (by decide +kernel : rnd ((-8545532595495735) + -(1)) = Val.fin (-8545532595495736))
  have o43 : (Fl.fin (-8545532595495736) : B64 sq hy) *. Fl.fin (19267460495128948) = Fl.fin (-164650711693550836232136150745088) := (by decide +kernel : rnd ((-8545532595495736) * (19267460495128948)) = Val.fin (-164650711693550836232136150745088))
  refine ⟨_, _, rfl, rfl, ?_, ?_⟩
  · refine pts_mid (r := 6004799503160661 / 18014398509481984) (by norm_num) ?_ ?_ ?_ (by norm_num) (by norm_num)
    · simp only [xB64, yB64, o0, o1, o29, o30, o31]
    · simp only [xB64, yB64, o0, o1, o32, o33, o34, o35, o36, o37]
    · simp only [xB64, yB64, o0, o1, o4, o5, o11, o12, o13, o38]
  · refine pts_mid (r := 6004799503160661 / 18014398509481984) (by norm_num) ?_ ?_ ?_ (by norm_num) (by norm_num)
    · simp only [xB64, yB64, o0, o1, o29, o30, o31]
    · simp only [xB64, yB64, o0, o1, o34, o35, o39, o40, o41, o37]
    · simp only [xB64, yB64, o0, o1, o5, o11, o42, o43, o13, o38]

theorem ends_off : Distance.pointToSegment (toB64 ⟨-8545532595495735, -6422486831709649, 0, 0⟩ : Coord (B64 sq hy)) (toB64 ⟨0, 0, 0, 0⟩) (toB64 ⟨1, 0, 0, 0⟩) = (toB64 ⟨-8545532595495735, -6422486831709649, 0, 0⟩).distance (toB64 ⟨0, 0, 0, 0⟩) ∧
    Distance.pointToSegment (toB64 ⟨17091065190991470, 12844973663419298, 0, 0⟩ : Coord (B64 sq hy)) (toB64 ⟨0, 0, 0, 0⟩) (toB64 ⟨1, 0, 0, 0⟩) = (toB64 ⟨17091065190991470, 12844973663419298, 0, 0⟩).distance (toB64 ⟨1, 0, 0, 0⟩) := by
  have o2 : (Fl.fin (1) : B64 sq hy) -. Fl.fin (0) = Fl.fin (1) := (by decide +kernel : rnd ((1) + -(0)) = Val.fin (1))
  have o3 : (Fl.fin (0) : B64 sq hy) -. Fl.fin (0) = Fl.fin (0) := (by decide +kernel : rnd ((0) + -(0)) = Val.fin (0))
  have o4 : (Fl.fin (-8545532595495735) : B64 sq hy) -. Fl.fin (0) = Fl.fin (-8545532595495735) := (by decide +kernel : rnd ((-8545532595495735) + -(0)) = Val.fin (-8545532595495735))
  have o5 : (Fl.fin (-6422486831709649) : B64 sq hy) -. Fl.fin (0) = Fl.fin (-6422486831709649) := (by decide +kernel : rnd ((-6422486831709649) + -(0)) = Val.fin (-6422486831709649))
  have o16 : (Fl.fin (1) : B64 sq hy) *. Fl.fin (1) = Fl.fin (1) := (by decide +kernel : rnd ((1) * (1)) = Val.fin (1))
  have o17 : (Fl.fin (0) : B64 sq hy) *. Fl.fin (0) = Fl.fin (0) := (by decide +kernel : rnd ((0) * (0)) = Val.fin (0))
  have o18 : (Fl.fin (1) : B64 sq hy) +. Fl.fin (0) = Fl.fin (1) := (by decide +kernel : rnd ((1) + (0)) = Val.fin (1))
  have o19 : (Fl.fin (-8545532595495735) : B64 sq hy) *. Fl.fin (1) = Fl.fin (-8545532595495735) := (by decide +kernel : rnd ((-8545532595495735) * (1)) = Val.fin (-8545532595495735))
  have o20 : (Fl.fin (-6422486831709649) : B64 sq hy) *. Fl.fin (0) = Fl.fin (0) := (by decide +kernel : rnd ((-6422486831709649) * (0)) = Val.fin (0))
  have o21 : (Fl.fin (-8545532595495735) : B64 sq hy) +. Fl.fin (0) = Fl.fin (-8545532595495735) := (by decide +kernel : rnd ((-8545532595495735) + (0)) = Val.fin (-8545532595495735))
  have o22 : (Fl.fin (-8545532595495735) : B64 sq hy) /. Fl.fin (1) = Fl.fin (-8545532595495735) := div_fin64 (by norm_num) (by decide +kernel) (by decide +kernel)
  have o23 : (Fl.fin (17091065190991470) : B64 sq hy) -. Fl.fin (0) = Fl.fin (17091065190991470) := (by decide +kernel : rnd ((17091065190991470) + -(0)) = Val.fin (17091065190991470))
  have o24 : (Fl.fin (17091065190991470) : B64 sq hy) *. Fl.fin (1) = Fl.fin (17091065190991470) := (by decide +kernel : rnd ((17091065190991470) * (1)) = Val.fin (17091065190991470))
  have o25 : (Fl.fin (12844973663419298) : B64 sq hy) -. Fl.fin (0) = Fl.fin (12844973663419298) := (by decide +kernel : rnd ((12844973663419298) + -(0)) = Val.fin (12844973663419298))
  have o26 : (Fl.fin (12844973663419298) : B64 sq hy) *. Fl.fin (0) = Fl.fin (0) := (by decide +kernel : rnd ((12844973663419298) * (0)) = Val.fin (0))
  have o27 : (Fl.fin (17091065190991470) : B64 sq hy) +. Fl.fin (0) = Fl.fin (17091065190991470) := (by decide +kernel : rnd ((17091065190991470) + (0)) = Val.fin (17091065190991470))
  have o28 : (Fl.fin (17091065190991470) : B64 sq hy) /. Fl.fin (1) = Fl.fin (17091065190991470) := div_fin64 (by norm_num) (by decide +kernel) (by decide +kernel)
  constructor
  · refine pts_low (r := -8545532595495735) (by norm_num) ?_ (by norm_num)
    simp only [xB64, yB64, o2, o3, o4, o5, o16, o17, o18, o19, o20, o21, o22]
  · refine pts_high (r := 17091065190991470) (by norm_num) ?_ (by norm_num)
    simp only [xB64, yB64, o2, o3, o16, o17, o18, o23, o24, o25, o26, o27, o28]

/-- C118: the error is not relative: two segments of which one begins in the interior of the other can get a positive distance. -/
theorem C118_not_relative {ε : ℝ} (lib : Lib64 sq hy ε) (hε : ε ≤ 1 / 2 ^ 52) :
    ∃ a b c d : Coord ℚ, Ordinary (2 ^ 54) a ∧ Ordinary (2 ^ 54) b ∧ Ordinary (2 ^ 54) c ∧ Ordinary (2 ^ 54) d ∧ Extends a b ∧ Extends c d ∧
      (∃ p, OnSegment p (realPt a) (realPt b) ∧ OnSegment p (realPt c) (realPt d)) ∧
      ∃ v : ℚ, Distance.segmentToSegment (toB64 a : Coord (B64 sq hy)) (toB64 b) (toB64 c) (toB64 d) = Fl.fin v ∧ 0 < v := by
  have OA : Ordinary (2 ^ 54) ⟨-8545532595495735, -6422486831709649, 0, 0⟩ := by
    have := ordinary_int (M := 2 ^ 54) (-8545532595495735) (-6422486831709649) (f64_of (by decide +kernel)) (f64_of (by decide +kernel)) (by norm_num) (by norm_num)
    exact_mod_cast this
  have OB : Ordinary (2 ^ 54) ⟨17091065190991470, 12844973663419298, 0, 0⟩ := by
    have := ordinary_int (M := 2 ^ 54) 17091065190991470 12844973663419298 (f64_of (by decide +kernel)) (f64_of (by decide +kernel)) (by norm_num) (by norm_num)
    exact_mod_cast this
  have OC : Ordinary (2 ^ 54) ⟨0, 0, 0, 0⟩ := by
    have := ordinary_int (M := 2 ^ 54) 0 0 (f64_of (by decide +kernel)) (f64_of (by decide +kernel)) (by norm_num) (by norm_num)
    exact_mod_cast this
  have OD : Ordinary (2 ^ 54) ⟨1, 0, 0, 0⟩ := by
    have := ordinary_int (M := 2 ^ 54) 1 0 (f64_of (by decide +kernel)) (f64_of (by decide +kernel)) (by norm_num) (by norm_num)
    exact_mod_cast this
  have tiny : (1 : ℝ) / 2 ^ 200 ≤ 1 := (div_le_one (by positivity)).mpr (one_le_pow₀ (by norm_num))
  refine ⟨_, _, _, _, OA, OB, OC, OD, Or.inr (Or.inl ?_), Or.inr (Or.inl ?_), ⟨⟨0, 0, 0, 0⟩, ⟨1 / 3, by norm_num, by norm_num, ?_, ?_⟩, ⟨0, le_rfl, zero_le_one, ?_, ?_⟩⟩, ?_⟩
  · refine tiny.trans ?_; norm_num
  · refine tiny.trans ?_; norm_num
  · simp only [realPt]; norm_num
  · simp only [realPt]; norm_num
  · simp [realPt]
  · simp [realPt]
  obtain ⟨u1, e1, w1⟩ := C118_point lib hε (by norm_num) OA OC
  obtain ⟨u2, e2, w2⟩ := C118_point lib hε (by norm_num) OB OD
  obtain ⟨l, s, hl, hs, e3, e4⟩ := start_off (sq := sq) (hy := hy)
  obtain ⟨f1, f2⟩ := ends_off (sq := sq) (hy := hy)
  obtain ⟨w, hw, we⟩ := lib.sqrt l (by rw [hl]; exact f64_of (by decide +kernel)) ((zpow_le_one_of_nonpos₀ one_le_two (by decide)).trans (by rw [hl]; norm_num))
  have root : FltSqrt.sqrt (Fl.fin l : B64 sq hy) = Fl.fin w := (if_neg (by rw [hl]; norm_num)).trans hw
  have pos : ∀ {u : ℚ} {x : ℝ}, |(u : ℝ) - x| ≤ 3 / 2 ^ 52 * x → 0 < x → 0 < u := by
    intro u x h k
    have := (abs_le.mp h).1
    have : 0 < x * (1 - 3 / 2 ^ 52) := mul_pos k (by norm_num)
    have : (0 : ℝ) < u := by linarith
    exact_mod_cast this
  have p1 : 0 < u1 := pos w1 (by
    unfold Spec.dist realPt
    exact Real.sqrt_pos.mpr (by norm_num))
  have p2 : 0 < u2 := pos w2 (by
    unfold Spec.dist realPt
    exact Real.sqrt_pos.mpr (by norm_num))
  have wr : (2 : ℚ) ^ 53 ≤ w ∧ w ≤ 2 ^ 56 := by
    have r1 : (2 : ℝ) ^ 54 ≤ √(l : ℝ) := Real.le_sqrt_of_sq_le (by rw [hl]; norm_num)
    have r2 : √(l : ℝ) ≤ (2 : ℝ) ^ 55 := Real.sqrt_le_iff.mpr ⟨by positivity, by rw [hl]; norm_num⟩
    have h := abs_le.mp (we.trans (mul_le_mul_of_nonneg_right (hε.trans (by norm_num : (1 : ℝ) / 2 ^ 52 ≤ 1 / 2)) (Real.sqrt_nonneg _)))
    have h1 : (2 : ℝ) ^ 53 ≤ w := by linarith [h.1]
    have h2 : (w : ℝ) ≤ 2 ^ 56 := by linarith [h.2]
    exact ⟨by exact_mod_cast h1, by exact_mod_cast h2⟩
  have low := near_mono (x := 1 / 4) (y := s * w) (by rw [hs]; linarith [wr.1])
  have high := near_mono (x := s * w) (y := 16) (by rw [hs]; linarith [wr.2])
  rw [near_of_rep (f64_of (q := 1 / 4) (by decide +kernel)).1] at low
  rw [near_of_rep (f64_of (q := 16) (by decide +kernel)).1] at high
  have p3 : 0 < near (s * w) := lt_of_lt_of_le (by norm_num) low
  have top : |near (s * w)| < 2 ^ 1024 := by
    rw [abs_of_pos p3]
    refine lt_of_le_of_lt high ?_
    calc (16 : ℚ) < 2 ^ 5 := by norm_num
      _ ≤ 2 ^ 1024 := pow_le_pow_right₀ one_le_two (by norm_num)
  have e5 : Flt.abs (Fl.fin s : B64 sq hy) *. FltSqrt.sqrt (Fl.fin l) = Fl.fin (near (s * w)) := by
    have ea : Flt.abs (Fl.fin s : B64 sq hy) = Fl.fin s := by
      show Fl.fin |s| = _
      rw [abs_of_nonneg (by rw [hs]; norm_num)]
    rw [ea, root]
    exact (rnd_fin_iff _ _).mpr ⟨rfl, top⟩
  refine ⟨min (near (s * w)) (min (near (s * w)) (min u2 u1)), ?_, lt_min p3 (lt_min p3 (lt_min p2 p1))⟩
  unfold Distance.segmentToSegment
  rw [toB64_equals, if_neg (by norm_num), toB64_equals, if_neg (by norm_num), if_pos crossing_missed, f1, f2, e1, e2, e3, e4, e5]
  unfold MathUtil.min4
  simp only [least64]

/-! Examples: a point, a segment and a chain with ordinates that are not on a coarse grid. -/

theorem ordinary_third : Ordinary 8 ⟨6004799503160661 / 18014398509481984, 1, 0, 0⟩ := by
  refine ⟨⟨f64_of (by decide +kernel), f64_of (by decide +kernel), by norm_num [abs_of_pos], by norm_num⟩, ?_, by simpa using mul_int 1⟩
  refine ⟨6004799503160661 * 2 ^ 946, ?_⟩
  have : (2 : ℚ) ^ 946 * 2 ^ (-1000 : ℤ) = 1 / 18014398509481984 := by
    rw [← zpow_natCast, ← zpow_add₀ two_ne_zero]
    norm_num
  push_cast
  rw [mul_assoc, this]
  norm_num

theorem ordinary_small (j k : ℤ) (hj : IsF64 (j : ℚ)) (hk : IsF64 (k : ℚ)) (bj : |(j : ℝ)| ≤ 8) (bk : |(k : ℝ)| ≤ 8) : Ordinary 8 ⟨j, k, 0, 0⟩ := ordinary_int j k hj hk bj bk

example : ∃ (sq : ℚ → Val) (hy : ℚ → ℚ → Val) (v : ℚ),
    Distance.pointToSegment (toB64 ⟨6004799503160661 / 18014398509481984, 1, 0, 0⟩ : Coord (B64 sq hy)) (toB64 ⟨-7, 0, 0, 0⟩) (toB64 ⟨5, 3, 0, 0⟩) = Fl.fin v := by
  obtain ⟨sq, hy, lib⟩ := lib64_exists
  have h8 : (8 : ℝ) ≤ 2 ^ 200 := by
    calc (8 : ℝ) = 2 ^ 3 := by norm_num
      _ ≤ 2 ^ 200 := pow_le_pow_right₀ (by norm_num) (by norm_num)
  have a : Ordinary 8 ⟨-7, 0, 0, 0⟩ := by
    have := ordinary_small (-7) 0 (f64_of (by decide +kernel)) (f64_of (by decide +kernel)) (by norm_num) (by norm_num)
    exact_mod_cast this
  have b : Ordinary 8 ⟨5, 3, 0, 0⟩ := by
    have := ordinary_small 5 3 (f64_of (by decide +kernel)) (f64_of (by decide +kernel)) (by norm_num) (by norm_num)
    exact_mod_cast this
  obtain ⟨v, hv, -⟩ := C118_segment lib le_rfl h8 ordinary_third a b (Or.inr (Or.inl (by
    have : (1 : ℝ) / 2 ^ 200 ≤ 1 := by rw [div_le_one (by positivity)]; exact one_le_pow₀ (by norm_num)
    refine this.trans ?_
    norm_num)))
  exact ⟨sq, hy, v, hv⟩

end Verif.Props
