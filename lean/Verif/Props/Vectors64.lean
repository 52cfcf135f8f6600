import Verif.Props.Triangle64
import Verif.Props.CoordinateData
import Verif.Props.Vectors

/-! # C98: vectors in binary64 -/

set_option linter.unusedSectionVars false

namespace Verif.Props
open Flt Verif.Spec Verif.Binary64
variable {sq : ℚ → Val} {hy : ℚ → ℚ → Val}

local notation "R" => (Fl.round (r := binary64 sq hy))

/-! ## Laws that hold for all doubles, NaN and infinities included -/

theorem add_comm64 (a b : B64 sq hy) : a +. b = b +. a := by
  cases a <;> cases b <;> first | rfl | exact congrArg R (add_comm _ _)

theorem mul_comm64 (a b : B64 sq hy) : a *. b = b *. a := by
  cases a <;> cases b <;> first | rfl | exact congrArg R (mul_comm _ _)

theorem neg_neg64 (a : B64 sq hy) : -.(-.a) = a := by
  cases a <;> first | rfl | exact congrArg Fl.fin (neg_neg _)

theorem neg_add64 (a b : B64 sq hy) : -.(a +. b) = (-.a) +. (-.b) := by
  cases a <;> cases b <;> first | rfl | exact (rnd_neg' _).trans (congrArg R (neg_add _ _))

theorem neg_infOf (q : ℚ) : Fl.neg (Fl.infOf q : B64 sq hy) = Fl.infOf (-q) := by
  unfold Fl.infOf
  rcases lt_trichotomy q 0 with h | h | h
  · rw [if_neg (by linarith), if_pos h, if_pos (by linarith)]; rfl
  · subst h; simp; rfl
  · rw [if_pos h, if_neg (by linarith), if_pos (by linarith)]; rfl

theorem neg_mul64 (a b : B64 sq hy) : (-.a) *. b = -.(a *. b) := by
  cases a <;> cases b <;> first
    | rfl
    | exact (congrArg R (neg_mul _ _)).trans (rnd_neg' _).symm
    | exact (neg_infOf _).symm
    | exact (congrArg Fl.infOf (neg_neg _)).symm.trans (neg_infOf _).symm

/-- C98: sums and products of vectors do not depend on the order of the arguments, negation is an involution, and differences change
sign: exactly, for all doubles. -/
theorem C98_laws (a b : Vec2 (B64 sq hy)) (k : B64 sq hy) :
    a.add b = b.add a ∧ a.dot b = b.dot a ∧ a.negate.negate = a ∧ a.subtract b = a.add b.negate ∧
    (b.subtract a) = (a.subtract b).negate ∧ (a.negate).dot b = -.(a.dot b) ∧ (a.negate).multiply k = (a.multiply k).negate ∧
    a.negate.lengthSquared = a.lengthSquared ∧ a.lengthSquared = a.dot a := by
  have hs : ∀ x y : B64 sq hy, x -. y = x +. (-.y) := fun _ _ => rfl
  refine ⟨?_, ?_, ?_, rfl, ?_, ?_, ?_, ?_, rfl⟩
  · exact congrArg₂ Vec2.mk (add_comm64 _ _) (add_comm64 _ _)
  · simp only [Vec2.dot]; rw [mul_comm64 a.x, mul_comm64 a.y]
  · simp only [Vec2.negate, neg_neg64]
  · simp only [Vec2.subtract, Vec2.negate, hs, neg_add64, neg_neg64]
    exact congrArg₂ Vec2.mk (add_comm64 _ _) (add_comm64 _ _)
  · simp only [Vec2.dot, Vec2.negate, neg_mul64, neg_add64]
  · simp only [Vec2.multiply, Vec2.negate, neg_mul64]
  · simp only [Vec2.lengthSquared, Vec2.negate, neg_mul64]
    rw [mul_comm64 a.x, mul_comm64 a.y, neg_mul64, neg_mul64, neg_neg64, neg_neg64]

/-- C98: turning by quarters never fails; turns add up, four quarters are none, and the squared length is the same double: exactly, for
all doubles. -/
theorem C98_quarter_turns (a : Vec2 (B64 sq hy)) (m n : ℤ) : ∃ b c, a.rotateByQuarterCircle m = some b ∧ b.rotateByQuarterCircle n = some c ∧
    a.rotateByQuarterCircle (m + n) = some c ∧ b.lengthSquared = a.lengthSquared ∧ (m % 4 = 0 → b = a) ∧ (m % 4 = 2 → b = a.negate) := by
  simp only [quarter_cases]
  refine ⟨_, _, rfl, rfl, ?_, ?_, ?_, ?_⟩
  · congr 1
    have hm : m % 4 = 0 ∨ m % 4 = 1 ∨ m % 4 = 2 ∨ m % 4 = 3 := by omega
    have hn : n % 4 = 0 ∨ n % 4 = 1 ∨ n % 4 = 2 ∨ n % 4 = 3 := by omega
    rcases hm with h1 | h1 | h1 | h1 <;> rcases hn with h2 | h2 | h2 | h2 <;>
      simp [Int.add_emod m n, h1, h2, neg_neg64]
  · have sqn : ∀ x : B64 sq hy, (-.x) *. (-.x) = x *. x := by
      intro x; rw [neg_mul64, mul_comm64, neg_mul64, neg_neg64]
    unfold Vec2.lengthSquared
    split_ifs <;> simp only [sqn, add_comm64 (a.y *. a.y)]
  · intro h; rw [if_pos h]
  · intro h; rw [if_neg (by omega), if_neg (by omega), if_pos h]; rfl

/-- C98: unless the product of its ordinates overflows, a vector and its quarter turn have the scalar product 0: exactly. -/
theorem C98_quarter_perpendicular (a : Vec2 (B64 sq hy)) (h : isFinite (a.x *. a.y) = true) :
    ∃ b, a.rotateByQuarterCircle 1 = some b ∧ a.dot b = Fl.fin 0 := by
  refine ⟨⟨-.a.y, a.x⟩, by rw [quarter_cases]; rfl, ?_⟩
  obtain ⟨v, hv⟩ := finite_fin h
  unfold Vec2.dot
  rw [mul_comm64 a.x, neg_mul64, mul_comm64 a.y, hv]
  show R (-v + v) = _
  rw [neg_add_cancel]
  exact lit64

/-! ## Averages -/

/-- C98: unless halving loses a bit (below 2^-1021), the average of two vectors is the double nearest to the mean in each ordinate. It
never overflows, does not depend on the order, and lies between the two. -/
theorem C98_average (a b : Vec2 ℚ) (ha : IsF64 a.x ∧ IsF64 a.y ∧ Rep (a.x / 2) ∧ Rep (a.y / 2)) (hb : IsF64 b.x ∧ IsF64 b.y ∧ Rep (b.x / 2) ∧ Rep (b.y / 2)) :
    ∃ u v : ℚ, (⟨Fl.fin a.x, Fl.fin a.y⟩ : Vec2 (B64 sq hy)).average ⟨Fl.fin b.x, Fl.fin b.y⟩ = ⟨Fl.fin u, Fl.fin v⟩ ∧
      (⟨Fl.fin b.x, Fl.fin b.y⟩ : Vec2 (B64 sq hy)).average ⟨Fl.fin a.x, Fl.fin a.y⟩ = ⟨Fl.fin u, Fl.fin v⟩ ∧
      u = near ((a.x + b.x) / 2) ∧ v = near ((a.y + b.y) / 2) ∧
      (min a.x b.x ≤ u ∧ u ≤ max a.x b.x) ∧ (min a.y b.y ≤ v ∧ v ≤ max a.y b.y) := by
  have half : (lit (1 / 2) : B64 sq hy) = Fl.fin (1 / 2) := rnd_of_f64 (f64_of (by decide +kernel))
  have one : (lit 1 : B64 sq hy) -. Fl.fin (1 / 2) = Fl.fin (1 / 2) := by
    rw [one64]; exact (by decide +kernel : rnd (1 + -(1 / 2)) = Val.fin (1 / 2))
  have key : ∀ x y : ℚ, IsF64 x → IsF64 y → Rep (x / 2) → Rep (y / 2) →
      Fl.fin (1 / 2) *. Fl.fin x +. Fl.fin (1 / 2) *. (Fl.fin y : B64 sq hy) = Fl.fin (near ((x + y) / 2)) ∧
      min x y ≤ near ((x + y) / 2) ∧ near ((x + y) / 2) ≤ max x y := by
    intro x y fx fy hx hy'
    have hh : ∀ x : ℚ, IsF64 x → Rep (x / 2) → (Fl.fin (1 / 2) : B64 sq hy) *. Fl.fin x = Fl.fin (x / 2) := by
      intro x fx hx
      have : 1 / 2 * x = x / 2 := by ring
      refine (congrArg R this).trans (rnd_of_f64 ⟨hx, ?_⟩)
      rw [abs_div, abs_two]
      exact lt_of_le_of_lt (half_le_self (abs_nonneg x)) fx.2
    rw [hh x fx hx, hh y fy hy']
    have bnd : min x y ≤ near ((x + y) / 2) ∧ near ((x + y) / 2) ≤ max x y := by
      have r1 : Rep (min x y) := by rcases min_choice x y with h | h <;> rw [h]; exacts [fx.1, fy.1]
      have r2 : Rep (max x y) := by rcases max_choice x y with h | h <;> rw [h]; exacts [fx.1, fy.1]
      have h1 := min_le_left x y
      have h2 := min_le_right x y
      have h3 := le_max_left x y
      have h4 := le_max_right x y
      constructor
      · have := near_mono (show min x y ≤ (x + y) / 2 by linarith)
        rwa [near_of_rep r1] at this
      · have := near_mono (show (x + y) / 2 ≤ max x y by linarith)
        rwa [near_of_rep r2] at this
    refine ⟨?_, bnd⟩
    have e : x / 2 + y / 2 = (x + y) / 2 := by ring
    refine (congrArg R e).trans ((rnd_fin_iff _ _).mpr ⟨rfl, ?_⟩)
    have b1 := abs_lt.mp fx.2
    have b2 := abs_lt.mp fy.2
    rw [abs_lt]
    exact ⟨lt_of_lt_of_le (lt_min b1.1 b2.1) bnd.1, lt_of_le_of_lt bnd.2 (max_lt b1.2 b2.2)⟩
  obtain ⟨k1, k2⟩ := key a.x b.x ha.1 hb.1 ha.2.2.1 hb.2.2.1
  obtain ⟨k3, k4⟩ := key a.y b.y ha.2.1 hb.2.1 ha.2.2.2 hb.2.2.2
  obtain ⟨k5, -⟩ := key b.x a.x hb.1 ha.1 hb.2.2.1 ha.2.2.1
  obtain ⟨k6, -⟩ := key b.y a.y hb.2.1 ha.2.1 hb.2.2.2 ha.2.2.2
  refine ⟨_, _, ?_, ?_, rfl, rfl, k2, k4⟩
  · simp only [Vec2.average, Vec2.weightedSum, half, one]
    rw [k1, k3]
  · simp only [Vec2.average, Vec2.weightedSum, half, one]
    rw [k5, k6, add_comm b.x, add_comm b.y]

/-- C98: the smallest double averaged with itself gives 0. -/
theorem C98_average_tiny :
    (⟨Fl.fin (1 / 2 ^ 1074), Fl.fin 0⟩ : Vec2 X64).average ⟨Fl.fin (1 / 2 ^ 1074), Fl.fin 0⟩ = ⟨Fl.fin 0, Fl.fin 0⟩ := by
  have h : ∀ a b : Vec2 X64, a.x = b.x → a.y = b.y → a = b := fun a b h1 h2 => Vec2.ext h1 h2
  exact h _ _ (by decide +kernel) (by decide +kernel)

/-- C98: at the weights 1 and 0 a weighted sum of finite doubles is exactly one of the two vectors. -/
theorem C98_weighted_ends (a b : Vec2 ℚ) (ha : IsF64 a.x ∧ IsF64 a.y) (hb : IsF64 b.x ∧ IsF64 b.y) :
    (⟨Fl.fin a.x, Fl.fin a.y⟩ : Vec2 (B64 sq hy)).weightedSum ⟨Fl.fin b.x, Fl.fin b.y⟩ (lit 1) = ⟨Fl.fin a.x, Fl.fin a.y⟩ ∧
    (⟨Fl.fin a.x, Fl.fin a.y⟩ : Vec2 (B64 sq hy)).weightedSum ⟨Fl.fin b.x, Fl.fin b.y⟩ (lit 0) = ⟨Fl.fin b.x, Fl.fin b.y⟩ := by
  have z : IsF64 0 := ⟨rep_zero, by rw [abs_zero]; positivity⟩
  have e1 : (Fl.fin 1 : B64 sq hy) -. Fl.fin 1 = Fl.fin 0 := (by decide +kernel : rnd (1 + -1) = Val.fin 0)
  have e0 : (Fl.fin 1 : B64 sq hy) -. Fl.fin 0 = Fl.fin 1 := (by decide +kernel : rnd (1 + -0) = Val.fin 1)
  have m1 : ∀ x : ℚ, IsF64 x → (Fl.fin 1 : B64 sq hy) *. Fl.fin x = Fl.fin x := fun x h => (congrArg R (one_mul x)).trans (rnd_of_f64 h)
  have m0 : ∀ x : ℚ, (Fl.fin 0 : B64 sq hy) *. Fl.fin x = Fl.fin 0 := fun x => (congrArg R (zero_mul x)).trans (rnd_of_f64 z)
  have p1 : ∀ x : ℚ, IsF64 x → (Fl.fin x : B64 sq hy) +. Fl.fin 0 = Fl.fin x := fun x h => (congrArg R (add_zero x)).trans (rnd_of_f64 h)
  have p0 : ∀ x : ℚ, IsF64 x → (Fl.fin 0 : B64 sq hy) +. Fl.fin x = Fl.fin x := fun x h => (congrArg R (zero_add x)).trans (rnd_of_f64 h)
  constructor
  · simp only [Vec2.weightedSum, one64, e1, m0, m1 _ ha.1, m1 _ ha.2, p1 _ ha.1, p1 _ ha.2]
  · simp only [Vec2.weightedSum, one64, lit64, e0, m0, m1 _ hb.1, m1 _ hb.2, p0 _ hb.1, p0 _ hb.2]

/-! ## Scalar products -/

/-- C98: for all doubles, without overflow, the error of the scalar product is at most two units of rounding of the sum of the sizes of its
terms, and a subnormal amount. -/
theorem C98_dot_error (a b : Vec2 ℚ) (v : ℚ) (h : (⟨Fl.fin a.x, Fl.fin a.y⟩ : Vec2 (B64 sq hy)).dot ⟨Fl.fin b.x, Fl.fin b.y⟩ = Fl.fin v) :
    |v - (a.x * b.x + a.y * b.y)| ≤ (2 * u64 + u64 ^ 2) * (|a.x * b.x| + |a.y * b.y|) + 3 * eta64 := by
  obtain ⟨p, q, hp, hq, hv, -⟩ := add64 h
  obtain ⟨_, _, e1, e2, np, -⟩ := mul64 hp
  obtain ⟨_, _, e3, e4, nq, -⟩ := mul64 hq
  obtain rfl := fin_inj e1; obtain rfl := fin_inj e2; obtain rfl := fin_inj e3; obtain rfl := fin_inj e4
  have k1 := near_err_abs (a.x * b.x)
  have k2 := near_err_abs (a.y * b.y)
  have k3 := near_add_rel (np ▸ near_rep _ : Rep p) (nq ▸ near_rep _ : Rep q)
  rw [np] at k1
  rw [nq] at k2
  rw [hv] at k3
  have hu : u64 = 1 / 2 ^ 53 := rfl
  have he : eta64 = 2 ^ (-1075 : ℤ) := rfl
  rw [← he] at k1 k2
  have e0 : 0 < eta64 := two_pos _
  generalize a.x * b.x = P at *
  generalize a.y * b.y = Q at *
  have t1 : |p + q| ≤ |P| + |Q| + (|P| / 2 ^ 53 + eta64) + (|Q| / 2 ^ 53 + eta64) := by
    have e : p + q = P + Q - (P - p) - (Q - q) := by ring
    rw [e]
    have := abs_sub (P + Q - (P - p)) (Q - q)
    have := abs_sub (P + Q) (P - p)
    have := abs_add_le P Q
    linarith
  have e : v - (P + Q) = -(p + q - v) - (P - p) - (Q - q) := by ring
  rw [e]
  have := abs_sub (-(p + q - v) - (P - p)) (Q - q)
  have := abs_sub (-(p + q - v)) (P - p)
  rw [abs_neg] at this
  rw [hu]
  have n1 := abs_nonneg P
  have n2 := abs_nonneg Q
  have t2 : |p + q| / 2 ^ 53 ≤ (|P| + |Q| + (|P| / 2 ^ 53 + eta64) + (|Q| / 2 ^ 53 + eta64)) / 2 ^ 53 := by
    apply div_le_div_of_nonneg_right t1; positivity
  have t3 : 2 * eta64 / 2 ^ 53 ≤ eta64 := by rw [div_le_iff₀ (by positivity)]; nlinarith
  have t4 : (|P| + |Q| + (|P| / 2 ^ 53 + eta64) + (|Q| / 2 ^ 53 + eta64)) / 2 ^ 53 =
    (|P| + |Q|) / 2 ^ 53 + (|P| + |Q|) / 2 ^ 53 / 2 ^ 53 + 2 * eta64 / 2 ^ 53 := by ring
  have t5 : (2 * (1 / 2 ^ 53) + (1 / 2 ^ 53) ^ 2) * (|P| + |Q|) = 2 * ((|P| + |Q|) / 2 ^ 53) + (|P| + |Q|) / 2 ^ 53 / 2 ^ 53 := by ring
  have t6 : (|P| + |Q|) / 2 ^ 53 = |P| / 2 ^ 53 + |Q| / 2 ^ 53 := by ring
  rw [t5]
  linarith

/-- C98: on grids of 26 bits the scalar product and the squared length are exact; perpendicular vectors are recognised. -/
theorem C98_dot_grid {g i : ℤ} (g1 : -500 ≤ g) (g2 : g ≤ 400) (i1 : -500 ≤ i) (i2 : i ≤ 400) {a b : Vec2 ℚ}
    (ha : OrdB 26 g a.x ∧ OrdB 26 g a.y) (hb : OrdB 26 i b.x ∧ OrdB 26 i b.y) :
    (⟨Fl.fin a.x, Fl.fin a.y⟩ : Vec2 (B64 sq hy)).dot ⟨Fl.fin b.x, Fl.fin b.y⟩ = Fl.fin (a.x * b.x + a.y * b.y) ∧
    (⟨Fl.fin a.x, Fl.fin a.y⟩ : Vec2 (B64 sq hy)).lengthSquared = Fl.fin (a.x ^ 2 + a.y ^ 2) := by
  have key : ∀ {g i : ℤ} {x y u v : ℚ}, -500 ≤ g → g ≤ 400 → -500 ≤ i → i ≤ 400 → OrdB 26 g x → OrdB 26 g y → OrdB 26 i u → OrdB 26 i v →
      (Fl.fin x : B64 sq hy) *. Fl.fin u +. Fl.fin y *. Fl.fin v = Fl.fin (x * u + y * v) := by
    intro g i x y u v g1 g2 i1 i2 hx hy hu hv
    rw [mul_fin (ordB_f64 (hx.mul hu) (by omega) (by omega) (by omega)), mul_fin (ordB_f64 (hy.mul hv) (by omega) (by omega) (by omega)),
      add_fin (ordB_f64 ((hx.mul hu).add (hy.mul hv)) (by omega) (by omega) (by omega))]
  refine ⟨key g1 g2 i1 i2 ha.1 ha.2 hb.1 hb.2, ?_⟩
  rw [pow_two, pow_two]
  exact key g1 g2 g1 g2 ha.1 ha.2 ha.1 ha.2

/-! ## Lengths and directions -/

/-- The rounded quotient by an approximate length. -/
theorem quotient_err {x v n : ℚ} {L e : ℝ} (hL : 0 < L) (he : 0 ≤ e) (he1 : e ≤ 1 / 2 ^ 20) (hx : |(x : ℝ)| ≤ L) (hv : |(v : ℝ) - L| ≤ e * L)
    (hn : near (x / v) = n) : |n| ≤ 2 ∧ |(n : ℝ) - x / L| ≤ (e + 1 / 2 ^ 53) * (1 + 2 * e) * |(x : ℝ) / L| + (2 : ℝ) ^ (-1075 : ℤ) := by
  have k := abs_le.mp hv
  have v1 : (1 - e) * L ≤ v := by linarith
  have e1 : 0 < 1 - e := by linarith [show (1 : ℝ) / 2 ^ 20 < 1 by norm_num]
  have v0 : (0 : ℝ) < v := lt_of_lt_of_le (mul_pos e1 hL) v1
  have inv : L / v ≤ 1 + 2 * e := by
    rw [div_le_iff₀ v0]
    have : 1 ≤ (1 + 2 * e) * (1 - e) := by nlinarith
    nlinarith
  have q1 : |(x : ℝ) / v| ≤ (1 + 2 * e) * |(x : ℝ) / L| := by
    have : (x : ℝ) / v = (x / L) * (L / v) := by field_simp
    rw [this, abs_mul, abs_of_pos (div_pos hL v0), mul_comm]
    exact mul_le_mul_of_nonneg_right inv (abs_nonneg _)
  have xL : |(x : ℝ) / L| ≤ 1 := by rw [abs_div, abs_of_pos hL, div_le_one hL]; exact hx
  have q2 : |(x : ℝ) / v - x / L| ≤ e * (1 + 2 * e) * |(x : ℝ) / L| := by
    have : (x : ℝ) / v - x / L = (x / L) * ((L / v) * ((L - v) / L)) := by field_simp
    rw [this, abs_mul, abs_mul, abs_of_pos (div_pos hL v0)]
    have h1 : |(L - v) / L| ≤ e := by
      rw [abs_div, abs_of_pos hL, div_le_iff₀ hL, abs_sub_comm]; exact hv
    have h2 : L / v * |(L - v) / L| ≤ (1 + 2 * e) * e := mul_le_mul inv h1 (abs_nonneg _) (by positivity)
    have := mul_le_mul_of_nonneg_left h2 (abs_nonneg ((x : ℝ) / L))
    linarith
  have q3 : |(n : ℝ) - x / v| ≤ |(x : ℝ) / v| / 2 ^ 53 + (2 : ℝ) ^ (-1075 : ℤ) := by
    have := near_err_abs (x / v)
    rw [hn, abs_sub_comm] at this
    have h : ((|n - x / v| : ℚ) : ℝ) ≤ ((|x / v| / 2 ^ 53 + 2 ^ (-1075 : ℤ) : ℚ) : ℝ) := Rat.cast_le.mpr this
    push_cast at h
    exact h
  constructor
  · have h2 : |x / v| ≤ 2 ^ (1 : ℤ) := by
      have : |(x : ℝ) / v| ≤ 2 := by
        refine q1.trans ?_
        have : (1 + 2 * e) ≤ 2 := by linarith [show (1 : ℝ) / 2 ^ 20 < 1 / 2 by norm_num]
        have := abs_nonneg ((x : ℝ) / L)
        nlinarith
      have h : ((|x / v| : ℚ) : ℝ) ≤ ((2 : ℚ) : ℝ) := by push_cast; exact this
      have := Rat.cast_le.mp h
      simpa using this
    have := near_le_pow (by norm_num) h2
    rw [hn] at this
    simpa using this
  · have t := abs_sub_le (n : ℝ) (x / v) (x / L)
    have q4 : |(x : ℝ) / v| / 2 ^ 53 ≤ (1 + 2 * e) * |(x : ℝ) / L| / 2 ^ 53 := by
      apply div_le_div_of_nonneg_right q1; positivity
    have : (e + 1 / 2 ^ 53) * (1 + 2 * e) * |(x : ℝ) / L| = e * (1 + 2 * e) * |(x : ℝ) / L| + (1 + 2 * e) * |(x : ℝ) / L| / 2 ^ 53 := by ring
    linarith

/-- A vector close to a unit vector has a length close to one. -/
theorem near_unit {X Y Z x y z d h : ℝ} (hd : 0 ≤ d) (hd1 : d ≤ 1 / 4) (hh : 0 ≤ h) (hh1 : h ≤ 1 / 16) (hu : X ^ 2 + Y ^ 2 + Z ^ 2 = 1)
    (hx : |x - X| ≤ d * |X| + h) (hy : |y - Y| ≤ d * |Y| + h) (hz : |z - Z| ≤ d * |Z| + h) :
    |√(x ^ 2 + y ^ 2 + z ^ 2) - 1| ≤ d + 2 * h := by
  have comp : ∀ {x X : ℝ}, |x - X| ≤ d * |X| + h → x ^ 2 ≤ (1 + d) ^ 2 * X ^ 2 + 2 * (1 + d) * h * |X| + h ^ 2 ∧
      (1 - d) ^ 2 * X ^ 2 - 2 * (1 - d) * h * |X| ≤ x ^ 2 := by
    intro x X hx
    have a1 := abs_sub_abs_le_abs_sub x X
    have a2 := abs_sub_abs_le_abs_sub X x
    rw [abs_sub_comm] at a2
    have n1 := abs_nonneg x
    have n2 := abs_nonneg X
    rw [← sq_abs x, ← sq_abs X]
    constructor
    · have : |x| ≤ (1 + d) * |X| + h := by linarith
      nlinarith
    · have b : (1 - d) * |X| - h ≤ |x| := by linarith
      have c : 0 ≤ (1 - d) * |X| := mul_nonneg (by linarith) n2
      rcases le_total 0 ((1 - d) * |X| - h) with t | t
      · nlinarith
      · nlinarith [sq_nonneg |x|]
  obtain ⟨x1, x2⟩ := comp hx
  obtain ⟨y1, y2⟩ := comp hy
  obtain ⟨z1, z2⟩ := comp hz
  have S : |X| + |Y| + |Z| ≤ 7 / 4 := by
    rw [← sq_abs X, ← sq_abs Y, ← sq_abs Z] at hu
    nlinarith [sq_nonneg (|X| - |Y|), sq_nonneg (|Y| - |Z|), sq_nonneg (|X| - |Z|), abs_nonneg X, abs_nonneg Y, abs_nonneg Z]
  have S0 : 0 ≤ |X| + |Y| + |Z| := by positivity
  generalize |X| = a at *
  generalize |Y| = b at *
  generalize |Z| = c at *
  rw [abs_le]
  constructor
  · have : 1 - (d + 2 * h) ≤ √(x ^ 2 + y ^ 2 + z ^ 2) := by
      apply Real.le_sqrt_of_sq_le
      have e : (1 - d) ^ 2 * X ^ 2 + (1 - d) ^ 2 * Y ^ 2 + (1 - d) ^ 2 * Z ^ 2 = (1 - d) ^ 2 := by
        rw [← mul_add, ← mul_add, hu, mul_one]
      have : 2 * (1 - d) * h * (a + b + c) ≤ 2 * (1 - d) * h * (7 / 4) :=
        mul_le_mul_of_nonneg_left S (by have : 0 ≤ 1 - d := by linarith
                                        positivity)
      nlinarith [mul_nonneg hh (show 0 ≤ 1 - d - 8 * h by linarith)]
    linarith
  · have : √(x ^ 2 + y ^ 2 + z ^ 2) ≤ 1 + (d + 2 * h) := by
      rw [Real.sqrt_le_left (by linarith)]
      have e : (1 + d) ^ 2 * X ^ 2 + (1 + d) ^ 2 * Y ^ 2 + (1 + d) ^ 2 * Z ^ 2 = (1 + d) ^ 2 := by
        rw [← mul_add, ← mul_add, hu, mul_one]
      have : 2 * (1 + d) * h * (a + b + c) ≤ 2 * (1 + d) * h * (7 / 4) :=
        mul_le_mul_of_nonneg_left S (by positivity)
      nlinarith [mul_nonneg hh hd, mul_nonneg hh hh]
    linarith

theorem div_by_length {x v : ℚ} (v0 : v ≠ 0) (hn : |near (x / v)| ≤ 2) : (Fl.fin x : B64 sq hy) /. Fl.fin v = Fl.fin (near (x / v)) :=
  div_fin64 v0 rfl (lt_of_le_of_lt hn (by decide +kernel))

/-- C98: away from underflow and overflow, normalising a vector other than 0 gives its direction within 2^-51, and a length of 1 within 2^-50. -/
theorem C98_normalize {ε : ℝ} (lib : Lib64 sq hy ε) (hε : ε ≤ 1 / 2 ^ 52) (x y : ℚ) (fx : IsF64 x) (fy : IsF64 y) (bx : |x| ≤ 2 ^ (1000 : ℤ))
    (bY : |y| ≤ 2 ^ (1000 : ℤ)) (h0 : 2 ^ (-1022 : ℤ) ≤ |x| ∨ 2 ^ (-1022 : ℤ) ≤ |y|) :
    ∃ u v : ℚ, (⟨Fl.fin x, Fl.fin y⟩ : Vec2 (B64 sq hy)).normalize = ⟨Fl.fin u, Fl.fin v⟩ ∧
      |(u : ℝ) - x / √((x : ℝ) ^ 2 + (y : ℝ) ^ 2)| ≤ 1 / 2 ^ 51 * |(x : ℝ) / √((x : ℝ) ^ 2 + (y : ℝ) ^ 2)| + (2 : ℝ) ^ (-1075 : ℤ) ∧
      |(v : ℝ) - y / √((x : ℝ) ^ 2 + (y : ℝ) ^ 2)| ≤ 1 / 2 ^ 51 * |(y : ℝ) / √((x : ℝ) ^ 2 + (y : ℝ) ^ 2)| + (2 : ℝ) ^ (-1075 : ℤ) ∧
      |√((u : ℝ) ^ 2 + (v : ℝ) ^ 2) - 1| ≤ 1 / 2 ^ 50 := by
  obtain ⟨w, hw, we⟩ := lib.hypot x y fx fy bx bY h0
  have n0 := lib.nonneg
  have Lp : 0 < (x : ℝ) ^ 2 + (y : ℝ) ^ 2 := by
    have p := two_pos (-1022)
    rcases h0 with h | h
    · have : (x : ℝ) ≠ 0 := by
        intro c
        have : x = 0 := by exact_mod_cast c
        rw [this, abs_zero] at h; linarith
      positivity
    · have : (y : ℝ) ≠ 0 := by
        intro c
        have : y = 0 := by exact_mod_cast c
        rw [this, abs_zero] at h; linarith
      positivity
  have L0 := Real.sqrt_pos.mpr Lp
  have sx : |(x : ℝ)| ≤ √((x : ℝ) ^ 2 + (y : ℝ) ^ 2) := Real.abs_le_sqrt (by nlinarith [sq_nonneg (y : ℝ)])
  have sy : |(y : ℝ)| ≤ √((x : ℝ) ^ 2 + (y : ℝ) ^ 2) := Real.abs_le_sqrt (by nlinarith [sq_nonneg (x : ℝ)])
  have sL : √((x : ℝ) ^ 2 + (y : ℝ) ^ 2) ^ 2 = (x : ℝ) ^ 2 + (y : ℝ) ^ 2 := Real.sq_sqrt Lp.le
  generalize √((x : ℝ) ^ 2 + (y : ℝ) ^ 2) = L at *
  have e20 : ε ≤ 1 / 2 ^ 20 := hε.trans (by norm_num)
  have w0 : (0 : ℝ) < w := by
    have := (abs_le.mp we).1
    have : ε * L ≤ 1 / 2 ^ 20 * L := mul_le_mul_of_nonneg_right e20 L0.le
    linarith
  have w0' : 0 < w := by exact_mod_cast w0
  obtain ⟨u2, ue⟩ := quotient_err L0 n0 e20 sx we rfl
  obtain ⟨v2, ve⟩ := quotient_err L0 n0 e20 sy we rfl
  have coef : (ε + 1 / 2 ^ 53) * (1 + 2 * ε) ≤ 1 / 2 ^ 51 := by
    calc (ε + 1 / 2 ^ 53) * (1 + 2 * ε) ≤ (1 / 2 ^ 52 + 1 / 2 ^ 53) * (1 + 2 * (1 / 2 ^ 52)) := by
          apply mul_le_mul <;> first | positivity | linarith
      _ ≤ 1 / 2 ^ 51 := by norm_num
  have ue' := ue.trans (add_le_add_left (mul_le_mul_of_nonneg_right coef (abs_nonneg _)) _)
  have ve' := ve.trans (add_le_add_left (mul_le_mul_of_nonneg_right coef (abs_nonneg _)) _)
  refine ⟨near (x / w), near (y / w), ?_, ue', ve', ?_⟩
  · have hl : (⟨Fl.fin x, Fl.fin y⟩ : Vec2 (B64 sq hy)).length = Fl.fin w := hw
    have hp : ((Fl.fin w : B64 sq hy) >. lit 0) = true := by rw [lit64]; exact decide_eq_true w0'
    simp only [Vec2.normalize, hl, hp, if_true, Vec2.divide]
    rw [div_by_length w0'.ne' u2, div_by_length w0'.ne' v2]
  · have eta : (2 : ℝ) ^ (-1075 : ℤ) ≤ 1 / 2 ^ 60 := by
      rw [one_div, ← zpow_natCast, ← zpow_neg]
      exact zpow_le_zpow_right₀ (by norm_num) (by norm_num)
    have eta0 : (0 : ℝ) ≤ (2 : ℝ) ^ (-1075 : ℤ) := by positivity
    have unit : ((x : ℝ) / L) ^ 2 + ((y : ℝ) / L) ^ 2 + 0 ^ 2 = 1 := by
      rw [div_pow, div_pow, ← add_div, ← sL, div_self (by positivity)]; ring
    have k := near_unit (d := 1 / 2 ^ 51) (h := (2 : ℝ) ^ (-1075 : ℤ)) (z := 0) (Z := 0) (by positivity) (by norm_num) eta0
      (eta.trans (by norm_num)) unit ue' ve' (by rw [sub_zero, abs_zero, mul_zero, zero_add]; exact eta0)
    rw [show ((near (x / w) : ℚ) : ℝ) ^ 2 + ((near (y / w) : ℚ) : ℝ) ^ 2 + 0 ^ 2 = ((near (x / w) : ℚ) : ℝ) ^ 2 + ((near (y / w) : ℚ) : ℝ) ^ 2 by ring] at k
    refine k.trans ?_
    calc (1 : ℝ) / 2 ^ 51 + 2 * 2 ^ (-1075 : ℤ) ≤ 1 / 2 ^ 51 + 2 * (1 / 2 ^ 60) := by linarith
      _ ≤ 1 / 2 ^ 50 := by norm_num

/-- C98: the vector 0 is its own direction. -/
theorem C98_normalize_zero {ε : ℝ} (lib : Lib64 sq hy ε) :
    (⟨Fl.fin 0, Fl.fin 0⟩ : Vec2 (B64 sq hy)).normalize = ⟨Fl.fin 0, Fl.fin 0⟩ := by
  have hl : (⟨Fl.fin 0, Fl.fin 0⟩ : Vec2 (B64 sq hy)).length = Fl.fin 0 := lib.zero
  have hp : ((Fl.fin 0 : B64 sq hy) >. Fl.fin 0) = false := decide_eq_false (lt_irrefl (0 : ℚ))
  simp only [Vec2.normalize, hl, lit64, hp, Bool.false_eq_true, if_false]

/-! ## Three dimensions -/

/-- C98: scalar products of three dimensional vectors are exact on grids of 25 bits, and those of differences of points on grids of 24 bits. -/
theorem C98_dot3_grid {g : ℤ} (g1 : -484 ≤ g) (g2 : g ≤ 400) {ax ay az bx by' bz : ℚ}
    (ha : OrdB 25 g ax ∧ OrdB 25 g ay ∧ OrdB 25 g az) (hb : OrdB 25 g bx ∧ OrdB 25 g by' ∧ OrdB 25 g bz) :
    (⟨Fl.fin ax, Fl.fin ay, Fl.fin az⟩ : Vec3 (B64 sq hy)).dot ⟨Fl.fin bx, Fl.fin by', Fl.fin bz⟩ = Fl.fin (ax * bx + ay * by' + az * bz) := by
  have up : ∀ {j k : ℕ} {g : ℤ} {x : ℚ}, j ≤ k → OrdB j g x → OrdB k g x := by
    rintro j k g x hjk ⟨m, hm, hx⟩
    exact ⟨m, hm.trans (pow_le_pow_right₀ (by norm_num) hjk), hx⟩
  have m1 := ha.1.mul hb.1
  have m2 := ha.2.1.mul hb.2.1
  have m3 := ha.2.2.mul hb.2.2
  have s1 := m1.add m2
  have s2 := s1.add (up (by omega) m3)
  unfold Vec3.dot
  rw [mul_fin (ordB_f64 m1 (by omega) (by omega) (by omega)), mul_fin (ordB_f64 m2 (by omega) (by omega) (by omega)),
    mul_fin (ordB_f64 m3 (by omega) (by omega) (by omega)), add_fin (ordB_f64 s1 (by omega) (by omega) (by omega)),
    add_fin (ordB_f64 s2 (by omega) (by omega) (by omega))]

/-- C98: the scalar product of the vectors from `a` to `b` and from `c` to `d`. -/
theorem C98_dot4_grid {g : ℤ} (g1 : -484 ≤ g) (g2 : g ≤ 400) {a b c d : Coord ℚ} (h : ∀ p ∈ [a, b, c, d], OrdB 24 g p.x ∧ OrdB 24 g p.y ∧ OrdB 24 g p.z) :
    let f (p : Coord ℚ) : Coord (B64 sq hy) := Coord.xyz (Fl.fin p.x) (Fl.fin p.y) (Fl.fin p.z)
    Vec3.dot4 (f a) (f b) (f c) (f d) = Fl.fin ((b.x - a.x) * (d.x - c.x) + (b.y - a.y) * (d.y - c.y) + (b.z - a.z) * (d.z - c.z)) := by
  intro f
  obtain ⟨a1, a2, a3⟩ := h a (by simp)
  obtain ⟨b1, b2, b3⟩ := h b (by simp)
  obtain ⟨c1, c2, c3⟩ := h c (by simp)
  obtain ⟨d1, d2, d3⟩ := h d (by simp)
  have e : Vec3.dot4 (f a) (f b) (f c) (f d) = (⟨Fl.fin b.x -. Fl.fin a.x, Fl.fin b.y -. Fl.fin a.y, Fl.fin b.z -. Fl.fin a.z⟩ : Vec3 (B64 sq hy)).dot
      ⟨Fl.fin d.x -. Fl.fin c.x, Fl.fin d.y -. Fl.fin c.y, Fl.fin d.z -. Fl.fin c.z⟩ := rfl
  have s : ∀ {x y : ℚ}, OrdB 24 g x → OrdB 24 g y → (Fl.fin x : B64 sq hy) -. Fl.fin y = Fl.fin (x - y) :=
    fun hx hy => sub_fin (ordB_f64 (hx.sub hy) (by omega) (by omega) (by omega))
  rw [e, s b1 a1, s b2 a2, s b3 a3, s d1 c1, s d2 c2, s d3 c3]
  exact C98_dot3_grid g1 g2 ⟨b1.sub a1, b2.sub a2, b3.sub a3⟩ ⟨d1.sub c1, d2.sub c2, d3.sub c3⟩

/-- Ordinates that are neither too large nor all too small for squares. -/
def Squarable (x y z : ℚ) : Prop := (IsF64 x ∧ IsF64 y ∧ IsF64 z) ∧ (|x| ≤ 2 ^ (500 : ℤ) ∧ |y| ≤ 2 ^ (500 : ℤ) ∧ |z| ≤ 2 ^ (500 : ℤ)) ∧
  (2 ^ (-480 : ℤ) ≤ |x| ∨ 2 ^ (-480 : ℤ) ≤ |y| ∨ 2 ^ (-480 : ℤ) ≤ |z|)

theorem two_double (k : ℤ) : (2 : ℚ) ^ k + 2 ^ k = 2 ^ (k + 1) := by rw [two_add]; norm_num; ring

/-- The rounded sum of three squares. -/
theorem squares64 {x y z : ℚ} (h : Squarable x y z) : ∃ t : ℚ, Fl.fin x *. Fl.fin x +. Fl.fin y *. Fl.fin y +. Fl.fin z *. (Fl.fin z : B64 sq hy) = Fl.fin t ∧
    IsF64 t ∧ 2 ^ (-1022 : ℤ) ≤ t ∧ |t - (x ^ 2 + y ^ 2 + z ^ 2)| ≤ (x ^ 2 + y ^ 2 + z ^ 2) * (13 / 2 ^ 55) ∧ 2 ^ (-960 : ℤ) ≤ x ^ 2 + y ^ 2 + z ^ 2 := by
  obtain ⟨-, ⟨bx, bY, bz⟩, h0⟩ := h
  have P500 : ((2 : ℚ) ^ (500 : ℤ)) ^ 2 = 2 ^ (1000 : ℤ) := by rw [← zpow_natCast, ← zpow_mul]; norm_num
  have P480 : ((2 : ℚ) ^ (-480 : ℤ)) ^ 2 = 2 ^ (-960 : ℤ) := by rw [← zpow_natCast, ← zpow_mul]; norm_num
  have sqb : ∀ {w : ℚ}, |w| ≤ 2 ^ (500 : ℤ) → w ^ 2 ≤ 2 ^ (1000 : ℤ) := by
    intro w hw
    rw [← sq_abs w, ← P500]
    exact pow_le_pow_left₀ (abs_nonneg _) hw 2
  have sqs : ∀ {w : ℚ}, 2 ^ (-480 : ℤ) ≤ |w| → 2 ^ (-960 : ℤ) ≤ w ^ 2 := by
    intro w hw
    rw [← sq_abs w, ← P480]
    exact pow_le_pow_left₀ (two_pos _).le hw 2
  have S1 : 2 ^ (-960 : ℤ) ≤ x ^ 2 + y ^ 2 + z ^ 2 := by
    have := sq_nonneg x
    have := sq_nonneg y
    have := sq_nonneg z
    rcases h0 with h | h | h <;> have := sqs h <;> linarith
  have eta : (2 : ℚ) ^ (-1075 : ℤ) ≤ (x ^ 2 + y ^ 2 + z ^ 2) * (1 / 2 ^ 100) := by
    have e : (2 : ℚ) ^ (-1075 : ℤ) = 2 ^ (-960 : ℤ) * 2 ^ (-115 : ℤ) := by rw [← two_add]; norm_num
    rw [e]
    apply mul_le_mul S1 _ (two_pos _).le ((two_pos _).le.trans S1)
    norm_num
  have lim : (2 : ℚ) ^ (1002 : ℤ) < 2 ^ 1024 := by
    rw [← zpow_natCast]; exact two_lt_iff.mpr (by norm_num)
  have fin3 : ∀ {q : ℚ}, 0 ≤ q → q ≤ 2 ^ (1002 : ℤ) → (R q : B64 sq hy) = Fl.fin (near q) ∧ 0 ≤ near q ∧ near q ≤ 2 ^ (1002 : ℤ) := by
    intro q q0 q1
    have a := near_le_pow (k := 1002) (by norm_num) (by rwa [abs_of_nonneg q0])
    have b := near_nonneg q0
    rw [abs_of_nonneg b] at a
    exact ⟨(rnd_fin_iff _ _).mpr ⟨rfl, by rw [abs_of_nonneg b]; exact lt_of_le_of_lt a lim⟩, b, a⟩
  have near3 : ∀ {w : ℚ}, |w| ≤ 2 ^ (500 : ℤ) → (R (w * w) : B64 sq hy) = Fl.fin (near (w * w)) ∧ 0 ≤ near (w * w) ∧ near (w * w) ≤ 2 ^ (1000 : ℤ) ∧
      |w ^ 2 - near (w * w)| ≤ w ^ 2 / 2 ^ 53 + 2 ^ (-1075 : ℤ) := by
    intro w hw
    have a := sqb hw
    have c := near_le_pow (q := w * w) (k := 1000) (by norm_num) (by rw [abs_of_nonneg (mul_self_nonneg w), ← pow_two]; exact a)
    have b := near_nonneg (mul_self_nonneg w)
    rw [abs_of_nonneg b] at c
    have d := near_err_abs (w * w)
    rw [abs_of_nonneg (mul_self_nonneg w), ← pow_two] at d
    refine ⟨(fin3 (mul_self_nonneg w) ?_).1, b, c, ?_⟩
    · rw [← pow_two]; exact a.trans (two_mono (by norm_num))
    · rw [← pow_two]; exact d
  obtain ⟨ex, x0, x1, xe⟩ := near3 bx
  obtain ⟨ey, y0, y1, ye⟩ := near3 bY
  obtain ⟨ez, z0, z1, ze⟩ := near3 bz
  have rx := near_rep (x * x)
  have ry := near_rep (y * y)
  have rz := near_rep (z * z)
  generalize near (x * x) = p at *
  generalize near (y * y) = q at *
  generalize near (z * z) = r at *
  have s1 := near_add_rel rx ry
  obtain ⟨es, s0, s2⟩ := fin3 (q := p + q) (by linarith) (((add_le_add x1 y1).trans (two_double 1000).le).trans (two_mono (by norm_num)))
  have rs := near_rep (p + q)
  have s3 : near (p + q) ≤ 2 ^ (1001 : ℤ) := by
    have : |p + q| ≤ 2 ^ (1001 : ℤ) := by
      rw [abs_of_nonneg (by linarith)]
      exact (add_le_add x1 y1).trans (two_double 1000).le
    have := near_le_pow (by norm_num) this
    rwa [abs_of_nonneg s0] at this
  generalize near (p + q) = s at *
  have t1 := near_add_rel rs rz
  obtain ⟨et, t0, t2⟩ := fin3 (q := s + r) (by linarith)
    ((add_le_add s3 (z1.trans (two_mono (by norm_num)))).trans (two_double 1001).le)
  have rt := near_rep (s + r)
  generalize near (s + r) = t at *
  rw [abs_of_nonneg (by linarith : 0 ≤ p + q)] at s1
  rw [abs_of_nonneg (by linarith : 0 ≤ s + r)] at t1
  have xe := abs_le.mp xe
  have ye := abs_le.mp ye
  have ze := abs_le.mp ze
  have s1 := abs_le.mp s1
  have t1 := abs_le.mp t1
  have nx := sq_nonneg x
  have ny := sq_nonneg y
  have nz := sq_nonneg z
  have err : |t - (x ^ 2 + y ^ 2 + z ^ 2)| ≤ (x ^ 2 + y ^ 2 + z ^ 2) * (13 / 2 ^ 55) := by
    generalize (2 : ℚ) ^ (-1075 : ℤ) = η at *
    generalize x ^ 2 = X at *
    generalize y ^ 2 = Y at *
    generalize z ^ 2 = Z at *
    norm_num at *
    rw [abs_le]
    constructor <;> linarith
  refine ⟨t, ?_, ⟨rt, ?_⟩, ?_, err, S1⟩
  · have mx : (Fl.fin x : B64 sq hy) *. Fl.fin x = Fl.fin p := ex
    have my : (Fl.fin y : B64 sq hy) *. Fl.fin y = Fl.fin q := ey
    have mz : (Fl.fin z : B64 sq hy) *. Fl.fin z = Fl.fin r := ez
    have as : (Fl.fin p : B64 sq hy) +. Fl.fin q = Fl.fin s := es
    have at' : (Fl.fin s : B64 sq hy) +. Fl.fin r = Fl.fin t := et
    rw [mx, my, mz, as, at']
  · rw [abs_of_nonneg t0]; exact lt_of_le_of_lt t2 lim
  · have e := (abs_le.mp err).1
    have : (2 : ℚ) ^ (-1022 : ℤ) ≤ 2 ^ (-961 : ℤ) := two_mono (by norm_num)
    have h : (2 : ℚ) ^ (-961 : ℤ) * 2 = 2 ^ (-960 : ℤ) := by
      rw [show (-960 : ℤ) = -961 + 1 by norm_num, two_add]; norm_num
    have : (x ^ 2 + y ^ 2 + z ^ 2) * (13 / 2 ^ 55) ≤ (x ^ 2 + y ^ 2 + z ^ 2) * (1 / 2) :=
      mul_le_mul_of_nonneg_left (by norm_num) (by linarith)
    linarith

/-- The square root of a number close to a square. -/
theorem sqrt_close {S t : ℝ} (hS : 0 ≤ S) (h : |t - S| ≤ S * (13 / 2 ^ 55)) : |√t - √S| ≤ √S * (7 / 2 ^ 55) := by
  have k := abs_le.mp h
  have u : √t ≤ (1 + 7 / 2 ^ 55) * √S := by
    rw [← Real.sqrt_sq (by positivity : (0 : ℝ) ≤ 1 + 7 / 2 ^ 55), ← Real.sqrt_mul (by positivity)]
    apply Real.sqrt_le_sqrt
    have : t ≤ S * (1 + 13 / 2 ^ 55) := by linarith
    refine this.trans ?_
    rw [mul_comm]
    exact mul_le_mul_of_nonneg_right (by norm_num) hS
  have l : (1 - 7 / 2 ^ 55) * √S ≤ √t := by
    rw [← Real.sqrt_sq (by norm_num : (0 : ℝ) ≤ 1 - 7 / 2 ^ 55), ← Real.sqrt_mul (by positivity)]
    apply Real.sqrt_le_sqrt
    have : S * (1 - 13 / 2 ^ 55) ≤ t := by linarith
    refine le_trans ?_ this
    rw [mul_comm]
    exact mul_le_mul_of_nonneg_left (by norm_num) hS
  rw [abs_le]
  constructor <;> linarith

/-- C98: away from underflow and overflow, the length of a three dimensional vector is accurate to 2^-51. -/
theorem C98_length3 {ε : ℝ} (lib : Lib64 sq hy ε) (hε : ε ≤ 1 / 2 ^ 52) {x y z : ℚ} (h : Squarable x y z) :
    ∃ w : ℚ, (⟨Fl.fin x, Fl.fin y, Fl.fin z⟩ : Vec3 (B64 sq hy)).length = Fl.fin w ∧ 0 < w ∧
      |(w : ℝ) - √((x : ℝ) ^ 2 + (y : ℝ) ^ 2 + (z : ℝ) ^ 2)| ≤ 1 / 2 ^ 51 * √((x : ℝ) ^ 2 + (y : ℝ) ^ 2 + (z : ℝ) ^ 2) := by
  obtain ⟨t, ht, ft, tl, te, S1⟩ := squares64 (sq := sq) (hy := hy) h
  obtain ⟨w, hw, we⟩ := lib.sqrt t ft tl
  have t0 : 0 < t := lt_of_lt_of_le (two_pos _) tl
  have te' : |(t : ℝ) - ((x : ℝ) ^ 2 + (y : ℝ) ^ 2 + (z : ℝ) ^ 2)| ≤ ((x : ℝ) ^ 2 + (y : ℝ) ^ 2 + (z : ℝ) ^ 2) * (13 / 2 ^ 55) := by
    have : ((|t - (x ^ 2 + y ^ 2 + z ^ 2)| : ℚ) : ℝ) ≤ (((x ^ 2 + y ^ 2 + z ^ 2) * (13 / 2 ^ 55) : ℚ) : ℝ) := Rat.cast_le.mpr te
    push_cast at this
    exact this
  have S0 : (0 : ℝ) < (x : ℝ) ^ 2 + (y : ℝ) ^ 2 + (z : ℝ) ^ 2 := by
    have : ((0 : ℚ) : ℝ) < ((x ^ 2 + y ^ 2 + z ^ 2 : ℚ) : ℝ) := Rat.cast_lt.mpr (lt_of_lt_of_le (two_pos _) S1)
    push_cast at this
    exact this
  have k := sqrt_close S0.le te'
  have L0 := Real.sqrt_pos.mpr S0
  generalize √((x : ℝ) ^ 2 + (y : ℝ) ^ 2 + (z : ℝ) ^ 2) = L at *
  have n0 := lib.nonneg
  have k' := abs_le.mp k
  have T0 := Real.sqrt_nonneg (t : ℝ)
  generalize √(t : ℝ) = T at *
  have T1 : T ≤ 2 * L := by
    have : L * (7 / 2 ^ 55) ≤ L * 1 := mul_le_mul_of_nonneg_left (by norm_num) L0.le
    linarith
  have err : |(w : ℝ) - L| ≤ 1 / 2 ^ 51 * L := by
    have a := abs_sub_le (w : ℝ) T L
    have b : ε * T ≤ 1 / 2 ^ 52 * (L + L * (7 / 2 ^ 55)) := mul_le_mul hε (by linarith) T0 (by norm_num)
    have c : 1 / 2 ^ 52 * (L + L * (7 / 2 ^ 55)) + L * (7 / 2 ^ 55) ≤ 1 / 2 ^ 51 * L := by
      have : 1 / 2 ^ 52 * (L + L * (7 / 2 ^ 55)) + L * (7 / 2 ^ 55) = L * (1 / 2 ^ 52 * (1 + 7 / 2 ^ 55) + 7 / 2 ^ 55) := by ring
      rw [this, mul_comm]
      exact mul_le_mul_of_nonneg_right (by norm_num) L0.le
    linarith
  have w0 : (0 : ℝ) < w := by
    have := (abs_le.mp err).1
    have : 1 / 2 ^ 51 * L < 1 * L := mul_lt_mul_of_pos_right (by norm_num) L0
    linarith
  refine ⟨w, ?_, by exact_mod_cast w0, err⟩
  unfold Vec3.length
  show FltSqrt.sqrt (Fl.fin x *. Fl.fin x +. Fl.fin y *. Fl.fin y +. Fl.fin z *. (Fl.fin z : B64 sq hy)) = _
  rw [ht]
  refine Eq.trans (b := if t < 0 then (Val.nan : Val) else sq t) rfl ?_
  rw [if_neg (not_lt.mpr t0.le), hw]

/-- C98: away from underflow and overflow, normalising a three dimensional vector, or the coordinate with these ordinates, gives its
direction within 2^-50 and a length of 1 within 2^-49. -/
theorem C98_normalize3 {ε : ℝ} (lib : Lib64 sq hy ε) (hε : ε ≤ 1 / 2 ^ 52) {x y z : ℚ} (h : Squarable x y z) :
    let L : ℝ := √((x : ℝ) ^ 2 + (y : ℝ) ^ 2 + (z : ℝ) ^ 2)
    ∃ u v w : ℚ, (⟨Fl.fin x, Fl.fin y, Fl.fin z⟩ : Vec3 (B64 sq hy)).normalize = ⟨Fl.fin u, Fl.fin v, Fl.fin w⟩ ∧
      (∀ m, (Vec3.normalizeCoordinate { (Coord.xyz (Fl.fin x) (Fl.fin y) (Fl.fin z) : Coord (B64 sq hy)) with m := m }).x = Fl.fin u ∧
        (Vec3.normalizeCoordinate { (Coord.xyz (Fl.fin x) (Fl.fin y) (Fl.fin z) : Coord (B64 sq hy)) with m := m }).y = Fl.fin v ∧
        (Vec3.normalizeCoordinate { (Coord.xyz (Fl.fin x) (Fl.fin y) (Fl.fin z) : Coord (B64 sq hy)) with m := m }).z = Fl.fin w) ∧
      |(u : ℝ) - x / L| ≤ 1 / 2 ^ 50 * |(x : ℝ) / L| + (2 : ℝ) ^ (-1075 : ℤ) ∧
      |(v : ℝ) - y / L| ≤ 1 / 2 ^ 50 * |(y : ℝ) / L| + (2 : ℝ) ^ (-1075 : ℤ) ∧
      |(w : ℝ) - z / L| ≤ 1 / 2 ^ 50 * |(z : ℝ) / L| + (2 : ℝ) ^ (-1075 : ℤ) ∧
      |√((u : ℝ) ^ 2 + (v : ℝ) ^ 2 + (w : ℝ) ^ 2) - 1| ≤ 1 / 2 ^ 49 := by
  intro L
  obtain ⟨d, hd, d0, de⟩ := C98_length3 lib hε h
  have S0 : (0 : ℝ) < (x : ℝ) ^ 2 + (y : ℝ) ^ 2 + (z : ℝ) ^ 2 := by
    obtain ⟨-, -, -, -, -, S1⟩ := squares64 (sq := sq) (hy := hy) h
    have : ((0 : ℚ) : ℝ) < ((x ^ 2 + y ^ 2 + z ^ 2 : ℚ) : ℝ) := Rat.cast_lt.mpr (lt_of_lt_of_le (two_pos _) S1)
    push_cast at this
    exact this
  have L0 : 0 < L := Real.sqrt_pos.mpr S0
  have nx := sq_nonneg (x : ℝ)
  have ny := sq_nonneg (y : ℝ)
  have nz := sq_nonneg (z : ℝ)
  have sx : |(x : ℝ)| ≤ L := Real.abs_le_sqrt (by linarith)
  have sy : |(y : ℝ)| ≤ L := Real.abs_le_sqrt (by linarith)
  have sz : |(z : ℝ)| ≤ L := Real.abs_le_sqrt (by linarith)
  have sL : L ^ 2 = (x : ℝ) ^ 2 + (y : ℝ) ^ 2 + (z : ℝ) ^ 2 := Real.sq_sqrt S0.le
  have de : |(d : ℝ) - L| ≤ 1 / 2 ^ 51 * L := de
  clear_value L
  obtain ⟨u2, ue⟩ := quotient_err L0 (by positivity) (by norm_num) sx de rfl
  obtain ⟨v2, ve⟩ := quotient_err L0 (by positivity) (by norm_num) sy de rfl
  obtain ⟨w2, we⟩ := quotient_err L0 (by positivity) (by norm_num) sz de rfl
  have coef : ((1 : ℝ) / 2 ^ 51 + 1 / 2 ^ 53) * (1 + 2 * (1 / 2 ^ 51)) ≤ 1 / 2 ^ 50 := by norm_num
  have ue' := ue.trans (add_le_add_left (mul_le_mul_of_nonneg_right coef (abs_nonneg _)) _)
  have ve' := ve.trans (add_le_add_left (mul_le_mul_of_nonneg_right coef (abs_nonneg _)) _)
  have we' := we.trans (add_le_add_left (mul_le_mul_of_nonneg_right coef (abs_nonneg _)) _)
  have q1 := div_by_length (sq := sq) (hy := hy) d0.ne' u2
  have q2 := div_by_length (sq := sq) (hy := hy) d0.ne' v2
  have q3 := div_by_length (sq := sq) (hy := hy) d0.ne' w2
  refine ⟨near (x / d), near (y / d), near (z / d), ?_, ?_, ue', ve', we', ?_⟩
  · have hp : ((Fl.fin d : B64 sq hy) >. lit 0) = true := by rw [lit64]; exact decide_eq_true d0
    simp only [Vec3.normalize, hd, hp, if_true, Vec3.divide]
    rw [q1, q2, q3]
  · intro m
    have hd' : Vec3.lengthOfCoordinate { (Coord.xyz (Fl.fin x) (Fl.fin y) (Fl.fin z) : Coord (B64 sq hy)) with m := m } = Fl.fin d := hd
    simp only [Vec3.normalizeCoordinate, hd']
    exact ⟨q1, q2, q3⟩
  · have eta : (2 : ℝ) ^ (-1075 : ℤ) ≤ 1 / 2 ^ 60 := by
      rw [one_div, ← zpow_natCast, ← zpow_neg]
      exact zpow_le_zpow_right₀ (by norm_num) (by norm_num)
    have eta0 : (0 : ℝ) ≤ (2 : ℝ) ^ (-1075 : ℤ) := by positivity
    have unit : ((x : ℝ) / L) ^ 2 + ((y : ℝ) / L) ^ 2 + ((z : ℝ) / L) ^ 2 = 1 := by
      rw [div_pow, div_pow, div_pow, ← add_div, ← add_div, ← sL, div_self (by positivity)]
    have k := near_unit (d := 1 / 2 ^ 50) (h := (2 : ℝ) ^ (-1075 : ℤ)) (by positivity) (by norm_num) eta0
      (eta.trans (by norm_num)) unit ue' ve' we'
    refine k.trans ?_
    calc (1 : ℝ) / 2 ^ 50 + 2 * 2 ^ (-1075 : ℤ) ≤ 1 / 2 ^ 50 + 2 * (1 / 2 ^ 60) := by linarith
      _ ≤ 1 / 2 ^ 49 := by norm_num

/-- C98: squares limit three dimensional lengths: a large vector has an infinite length and normalises to 0, a small one has the length 0
and normalises to 0 as a vector, but to an infinite ordinate and NaN as a coordinate. -/
theorem C98_length3_limits (h0 : sq 0 = .fin 0) :
    (⟨Fl.fin (2 ^ 600), Fl.fin 0, Fl.fin 0⟩ : Vec3 (B64 sq hy)).length = Fl.pinf ∧
    (⟨Fl.fin (2 ^ 600), Fl.fin 0, Fl.fin 0⟩ : Vec3 (B64 sq hy)).normalize = ⟨Fl.fin 0, Fl.fin 0, Fl.fin 0⟩ ∧
    (⟨Fl.fin (1 / 2 ^ 600), Fl.fin 0, Fl.fin 0⟩ : Vec3 (B64 sq hy)).length = Fl.fin 0 ∧
    (⟨Fl.fin (1 / 2 ^ 600), Fl.fin 0, Fl.fin 0⟩ : Vec3 (B64 sq hy)).normalize = ⟨Fl.fin 0, Fl.fin 0, Fl.fin 0⟩ ∧
    (Vec3.normalizeCoordinate (Coord.xyz (Fl.fin (1 / 2 ^ 600)) (Fl.fin 0) (Fl.fin 0) : Coord (B64 sq hy))).x = Fl.pinf ∧
    (Vec3.normalizeCoordinate (Coord.xyz (Fl.fin (1 / 2 ^ 600)) (Fl.fin 0) (Fl.fin 0) : Coord (B64 sq hy))).y = Fl.nan := by
  have z : (Fl.fin 0 : B64 sq hy) *. Fl.fin 0 = Fl.fin 0 := (by decide +kernel : rnd (0 * 0) = Val.fin 0)
  have zz : (Fl.fin 0 : B64 sq hy) +. Fl.fin 0 = Fl.fin 0 := (by decide +kernel : rnd (0 + 0) = Val.fin 0)
  have b : (Fl.fin (2 ^ 600) : B64 sq hy) *. Fl.fin (2 ^ 600) = Fl.pinf := (by decide +kernel : rnd (2 ^ 600 * 2 ^ 600) = Val.pinf)
  have t : (Fl.fin (1 / 2 ^ 600) : B64 sq hy) *. Fl.fin (1 / 2 ^ 600) = Fl.fin 0 := (by decide +kernel : rnd (1 / 2 ^ 600 * (1 / 2 ^ 600)) = Val.fin 0)
  have s0 : FltSqrt.sqrt (Fl.fin 0 : B64 sq hy) = Fl.fin 0 := by
    refine Eq.trans (b := if (0 : ℚ) < 0 then (Val.nan : Val) else sq 0) rfl ?_
    rw [if_neg (lt_irrefl _), h0]
  have l1 : (⟨Fl.fin (2 ^ 600), Fl.fin 0, Fl.fin 0⟩ : Vec3 (B64 sq hy)).length = Fl.pinf := by
    simp only [Vec3.length, b, z]; rfl
  have l2 : (⟨Fl.fin (1 / 2 ^ 600), Fl.fin 0, Fl.fin 0⟩ : Vec3 (B64 sq hy)).length = Fl.fin 0 := by
    simp only [Vec3.length, t, z, zz, s0]
  have l3 : Vec3.lengthOfCoordinate (Coord.xyz (Fl.fin (1 / 2 ^ 600)) (Fl.fin 0) (Fl.fin 0) : Coord (B64 sq hy)) = Fl.fin 0 := l2
  refine ⟨l1, ?_, l2, ?_, ?_, ?_⟩
  · have hp : ((Fl.pinf : B64 sq hy) >. Fl.fin 0) = true := rfl
    have dv : ∀ q : ℚ, (Fl.fin q : B64 sq hy) /. Fl.pinf = Fl.fin 0 := fun q => rfl
    simp only [Vec3.normalize, l1, lit64, hp, if_true, Vec3.divide, dv]
  · have hp : ((Fl.fin 0 : B64 sq hy) >. Fl.fin 0) = false := decide_eq_false (lt_irrefl (0 : ℚ))
    simp only [Vec3.normalize, l2, lit64, hp, Bool.false_eq_true, if_false]
  · simp only [Vec3.normalizeCoordinate, l3]
    exact (by decide +kernel : Fl.div (Fl.fin (1 / 2 ^ 600)) (Fl.fin 0) = (Fl.pinf : X64))
  · simp only [Vec3.normalizeCoordinate, l3]
    exact (by decide +kernel : Fl.div (Fl.fin 0) (Fl.fin 0) = (Fl.nan : X64))

/-! ## Examples -/

example : IsF64 3 ∧ IsF64 4 ∧ |(3 : ℚ)| ≤ 2 ^ (1000 : ℤ) ∧ 2 ^ (-1022 : ℤ) ≤ |(3 : ℚ)| :=
  ⟨f64_of (by decide +kernel), f64_of (by decide +kernel), by decide +kernel, by decide +kernel⟩
example : Squarable 1 (-2) 2 :=
  ⟨⟨f64_of (by decide +kernel), f64_of (by decide +kernel), f64_of (by decide +kernel)⟩, by decide +kernel, .inl (by decide +kernel)⟩
example : (⟨Fl.fin 3, Fl.fin 1⟩ : Vec2 X64).dot ⟨Fl.fin (-1), Fl.fin 3⟩ = Fl.fin 0 := by decide +kernel
example : IsF64 tenth ∧ Rep (tenth / 2) := ⟨tenth_isF64, (f64_of (by decide +kernel) : IsF64 (tenth / 2)).1⟩

end Verif.Props
