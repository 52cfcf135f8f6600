import Verif.Model.Vectors
import Verif.Props.Angle
import Verif.Props.Intersection
import Mathlib.Analysis.SpecialFunctions.Trigonometric.Basic

set_option linter.unusedSectionVars false

/-! # C42: vectors -/

namespace Verif.Props
open Flt Verif.Spec
variable {K : Type} [Field K] [LinearOrder K] [IsStrictOrderedRing K]

/-- A plane vector as a pair, with the vector space structure of pairs. -/
def pair (v : Vec2 K) : K × K := (v.x, v.y)

/-- A space vector as a triple, with the vector space structure of triples. -/
def triple (v : Vec3 K) : K × K × K := (v.x, v.y, v.z)

/-- The operations on plane vectors are those of the vector space of pairs; equality is equality. -/
theorem C42_vector_space (a b : Vec2 K) (d : K) (p q : Coord K) :
    pair (a.add b) = pair a + pair b ∧ pair (a.subtract b) = pair a - pair b ∧ pair (a.multiply d) = d • pair a ∧
    (d ≠ 0 → d • pair (a.divide d) = pair a) ∧ pair a.negate = -pair a ∧ pair (Vec2.default : Vec2 K) = 0 ∧
    pair (Vec2.fromTo p q) = pair (Vec2.ofCoord q) - pair (Vec2.ofCoord p) ∧ (a.equals b = true ↔ pair a = pair b) := by
  refine ⟨rfl, rfl, ?_, fun h => ?_, rfl, ?_, rfl, ?_⟩
  · simp [pair, Vec2.multiply, mul_comm]
  · simp only [pair, Vec2.divide, exact_div, Prod.smul_mk, smul_eq_mul, Prod.mk.injEq]
    exact ⟨mul_div_cancel₀ _ h, mul_div_cancel₀ _ h⟩
  · simp [pair, Vec2.default]
  · simp [pair, Vec2.equals]

/-- Weighted sums run along the segment from the second to the first vector; the average is the midpoint. -/
theorem C42_weighted_sum (a b : Vec2 K) (t : K) :
    pair (a.weightedSum b t) = pair b + t • (pair a - pair b) ∧
    pair (a.average b) = pair (b.average a) ∧ (2 : K) • pair (a.average b) = pair a + pair b := by
  refine ⟨?_, ?_, ?_⟩
  · simp only [pair, Vec2.weightedSum, exact_add, exact_mul, exact_sub, exact_lit, Rat.cast_one, Prod.mk_sub_mk, Prod.smul_mk, smul_eq_mul,
      Prod.mk_add_mk, Prod.mk.injEq]
    constructor <;> ring
  · simp only [pair, Vec2.average, Vec2.weightedSum, exact_add, exact_mul, exact_sub, exact_lit, Rat.cast_one, Prod.mk.injEq]
    push_cast; constructor <;> ring
  · simp only [pair, Vec2.average, Vec2.weightedSum, exact_add, exact_mul, exact_sub, exact_lit, Rat.cast_one, Prod.smul_mk, smul_eq_mul,
      Prod.mk_add_mk, Prod.mk.injEq]
    push_cast; constructor <;> ring

/-- Inner product: symmetric, bilinear, positive definite, and the squared length is the product of a vector with itself. -/
theorem C42_dot (a b c : Vec2 K) (d : K) :
    a.dot b = b.dot a ∧ (a.add b).dot c = a.dot c + b.dot c ∧ (a.multiply d).dot c = d * a.dot c ∧
    a.lengthSquared = a.dot a ∧ 0 ≤ a.dot a ∧ (a.dot a = 0 ↔ pair a = 0) ∧ a.dot b ^ 2 ≤ a.lengthSquared * b.lengthSquared := by
  simp only [Vec2.dot, Vec2.add, Vec2.multiply, Vec2.lengthSquared, exact_add, exact_mul, pair]
  refine ⟨by ring, by ring, by ring, trivial, by nlinarith [mul_self_nonneg a.x, mul_self_nonneg a.y], ⟨fun h => ?_, fun h => ?_⟩, ?_⟩
  · have h1 := mul_self_nonneg a.x
    have h2 := mul_self_nonneg a.y
    rw [Prod.mk_eq_zero]
    exact ⟨mul_self_eq_zero.mp (by linarith), mul_self_eq_zero.mp (by linarith)⟩
  · rw [Prod.mk_eq_zero] at h; rw [h.1, h.2]; ring
  · nlinarith [sq_nonneg (a.x * b.y - a.y * b.x)]

/-- Parallel: one of the two is a multiple of the other. -/
theorem C42_parallel (a b : Vec2 K) :
    a.isParallel b = true ↔ (∃ t : K, pair a = t • pair b) ∨ pair b = 0 := by
  have e : a.isParallel b = true ↔ a.x * b.y - a.y * b.x = 0 := by
    unfold Vec2.isParallel CGDD.signOfDetF CGDD.signOfDetDD
    simp only [DD.ofF, exact_lit, Rat.cast_zero, plain_mul, plain_sub, decide_eq_true_eq]
    unfold DD.signum
    simp only [exact_lt, exact_lit, Rat.cast_zero, lt_self_iff_false, decide_false, decide_eq_true_eq, Bool.false_eq_true, if_false]
    rcases lt_trichotomy (a.x * b.y - a.y * b.x) 0 with h | h | h
    · rw [if_neg (not_lt.mpr h.le), if_pos h]; constructor
      · intro h'; simp at h'
      · intro h'; rw [h'] at h; exact absurd h (lt_irrefl _)
    · rw [h]; simp
    · rw [if_pos h]; constructor
      · intro h'; simp at h'
      · intro h'; rw [h'] at h; exact absurd h (lt_irrefl _)
  rw [e]
  simp only [pair, Prod.smul_mk, smul_eq_mul, Prod.mk.injEq, Prod.mk_eq_zero]
  constructor
  · intro h
    by_cases hx : b.x = 0
    · by_cases hy : b.y = 0
      · exact .inr ⟨hx, hy⟩
      · refine .inl ⟨a.y / b.y, ?_, by field_simp⟩
        rw [hx] at h ⊢
        have : a.x = 0 := by
          have : a.x * b.y = 0 := by linear_combination h
          exact (mul_eq_zero.mp this).resolve_right hy
        rw [this]; ring
    · refine .inl ⟨a.x / b.x, by field_simp, ?_⟩
      field_simp; linear_combination -h
  · rintro (⟨t, h1, h2⟩ | ⟨h1, h2⟩)
    · rw [h1, h2]; ring
    · rw [h1, h2]; ring

/-- Translating a point by a vector; translating by the vector from `p` to `q` takes `p` to `q`. -/
theorem C42_translate (a : Vec2 K) (p q : Coord K) :
    pair (Vec2.ofCoord (a.translate p)) = pair a + pair (Vec2.ofCoord p) ∧ pair (Vec2.ofCoord a.toCoordinate) = pair a ∧
    ((Vec2.fromTo p q).translate p).x = q.x ∧ ((Vec2.fromTo p q).translate p).y = q.y := by
  refine ⟨rfl, rfl, ?_, ?_⟩
  · simp [Vec2.translate, Vec2.fromTo]
  · simp [Vec2.translate, Vec2.fromTo]

/-! ### Quarter circle rotations: any arithmetic -/

/-- A turn by one right angle to the left, as the definition of rotation says. -/
def quarter {α : Type} [Flt α] (v : Vec2 α) : Vec2 α := ⟨-.v.y, v.x⟩

/-- Which of the four formulas `rotate_by_quarter_circle` uses. -/
theorem quarter_cases {α : Type} [Flt α] (v : Vec2 α) (n : Int) :
    v.rotateByQuarterCircle n = some (if n % 4 = 0 then v else if n % 4 = 1 then ⟨-.v.y, v.x⟩ else if n % 4 = 2 then ⟨-.v.x, -.v.y⟩ else ⟨v.y, -.v.x⟩) := by
  unfold Vec2.rotateByQuarterCircle
  dsimp only
  have key : (if n < 0 ∧ n.tmod 4 ≠ 0 then n.tmod 4 + 4 else n.tmod 4) = n % 4 := by
    rw [Int.tmod_eq_emod]
    split_ifs <;> omega
  rw [key]
  have h1 := Int.emod_nonneg n (show (4 : Int) ≠ 0 by decide)
  have h2 := Int.emod_lt_of_pos n (show (0 : Int) < 4 by decide)
  split_ifs <;> first | rfl | (exfalso; omega)

/-- In every arithmetic with an involutive negation (floats included), the rotation by `n` quarter circles always succeeds, depends
only on `n` modulo 4 (negative numbers included), is the `n`-fold repetition of the rotation by one quarter, and rotations add up. -/
theorem C42_quarter_circle {α : Type} [Flt α] (hneg : ∀ x : α, -.(-.x) = x) (v : Vec2 α) (n m : Int) (k : Nat) :
    (∃ w, v.rotateByQuarterCircle n = some w ∧ w.rotateByQuarterCircle m = v.rotateByQuarterCircle (n + m)) ∧
    v.rotateByQuarterCircle (n + 4 * m) = v.rotateByQuarterCircle n ∧
    v.rotateByQuarterCircle k = some (quarter^[k] v) ∧
    v.rotateByQuarterCircle (-1) = some ⟨v.y, -.v.x⟩ := by
  refine ⟨⟨_, quarter_cases v n, ?_⟩, ?_, ?_, ?_⟩
  · rw [quarter_cases, quarter_cases]
    have h1 := Int.emod_nonneg n (show (4 : Int) ≠ 0 by decide)
    have h2 := Int.emod_lt_of_pos n (show (0 : Int) < 4 by decide)
    have h3 := Int.emod_nonneg m (show (4 : Int) ≠ 0 by decide)
    have h4 := Int.emod_lt_of_pos m (show (0 : Int) < 4 by decide)
    have e : (n + m) % 4 = (n % 4 + m % 4) % 4 := Int.add_emod n m 4
    obtain ⟨a, ha⟩ : ∃ a, a = n % 4 := ⟨_, rfl⟩
    obtain ⟨b, hb⟩ : ∃ a, a = m % 4 := ⟨_, rfl⟩
    rw [e, ← ha, ← hb]
    rw [← ha] at h1 h2; rw [← hb] at h3 h4
    rcases (by omega : a = 0 ∨ a = 1 ∨ a = 2 ∨ a = 3) with h | h | h | h <;>
      rcases (by omega : b = 0 ∨ b = 1 ∨ b = 2 ∨ b = 3) with h' | h' | h' | h' <;> subst h <;> subst h' <;> simp [hneg]
  · rw [quarter_cases, quarter_cases]
    rw [show (n + 4 * m) % 4 = n % 4 by omega]
  · induction k with
    | zero => rw [quarter_cases]; simp
    | succ k ih =>
      rw [Function.iterate_succ_apply']
      rw [quarter_cases] at ih ⊢
      rw [← Option.some.inj ih]
      push_cast
      unfold quarter
      rcases (by omega : (k : Int) % 4 = 0 ∨ (k : Int) % 4 = 1 ∨ (k : Int) % 4 = 2 ∨ (k : Int) % 4 = 3) with h | h | h | h
      · rw [show ((k : Int) + 1) % 4 = 1 by omega, h]; simp
      · rw [show ((k : Int) + 1) % 4 = 2 by omega, h]; simp
      · rw [show ((k : Int) + 1) % 4 = 3 by omega, h]; simp [hneg]
      · rw [show ((k : Int) + 1) % 4 = 0 by omega, h]; simp [hneg]
  · rw [quarter_cases]; rfl

/-- Quarter rotations keep inner products, and one quarter is a left turn at a right angle. -/
theorem C42_quarter_circle_isometry (v w v' w' : Vec2 K) (n : Int) (hv : v.rotateByQuarterCircle n = some v') (hw : w.rotateByQuarterCircle n = some w') :
    v'.dot w' = v.dot w ∧ (quarter v).dot v = 0 ∧ v.x * (quarter v).y - v.y * (quarter v).x = v.lengthSquared := by
  rw [quarter_cases] at hv hw
  rw [← Option.some.inj hv, ← Option.some.inj hw]
  refine ⟨?_, ?_, ?_⟩
  · split_ifs <;> simp [Vec2.dot] <;> ring
  · simp [quarter, Vec2.dot]; ring
  · simp [quarter, Vec2.lengthSquared]

/-! ### Lengths and angles: exact real arithmetic -/

theorem vec_length (v : Vec2 ℝ) : v.length = Real.sqrt (v.x ^ 2 + v.y ^ 2) := rfl

/-- Length and distance are the Euclidean ones; normalising gives the vector of length one in the same direction, zero for zero. -/
theorem C42_length (v w : Vec2 ℝ) :
    v.length = Spec.dist ⟨v.x, v.y, 0, 0⟩ ⟨0, 0, 0, 0⟩ ∧ v.length ^ 2 = v.lengthSquared ∧ v.distance w = (w.subtract v).length ∧
    pair v = v.length • pair v.normalize ∧ (pair v ≠ 0 → v.normalize.length = 1) ∧ (pair v = 0 → pair v.normalize = 0) ∧
    |v.dot w| ≤ v.length * w.length := by
  have l0 : 0 ≤ v.length := by rw [vec_length]; exact Real.sqrt_nonneg _
  have lsq : v.length ^ 2 = v.lengthSquared := by
    rw [vec_length, Real.sq_sqrt (by positivity)]; simp [Vec2.lengthSquared, sq]
  have nz : pair v ≠ 0 → 0 < v.length := by
    intro h
    rcases lt_or_eq_of_le l0 with h' | h'
    · exact h'
    · exfalso; apply h
      rw [← h'] at lsq
      simp only [Vec2.lengthSquared, exact_add, exact_mul] at lsq
      have h1 := mul_self_nonneg v.x
      have h2 := mul_self_nonneg v.y
      simp only [pair, Prod.mk_eq_zero]
      exact ⟨mul_self_eq_zero.mp (by linarith), mul_self_eq_zero.mp (by linarith)⟩
  have z : pair v = 0 → v.length = 0 := by
    intro h; simp only [pair, Prod.mk_eq_zero] at h; rw [vec_length, h.1, h.2]; simp
  have norm : ∀ v : Vec2 ℝ, v.normalize = if 0 < v.length then v.divide v.length else ⟨0, 0⟩ := by
    intro v; unfold Vec2.normalize; simp only [real_toFlt, exact_lt, exact_lit, Rat.cast_zero, decide_eq_true_eq]
  refine ⟨?_, lsq, rfl, ?_, ?_, ?_, ?_⟩
  · rw [vec_length]; unfold Spec.dist; simp
  · by_cases h : pair v = 0
    · rw [z h, h]; simp
    · have hl := nz h
      rw [norm, if_pos hl]
      have := (C42_vector_space v v v.length ⟨0, 0, 0, 0⟩ ⟨0, 0, 0, 0⟩).2.2.2.1 hl.ne'
      exact this.symm
  · intro h
    have hl := nz h
    rw [norm, if_pos hl]
    have : (v.divide v.length).length = Real.sqrt ((v.x / v.length) ^ 2 + (v.y / v.length) ^ 2) := rfl
    rw [this, div_pow, div_pow, ← add_div, lsq]
    have : v.lengthSquared = v.x ^ 2 + v.y ^ 2 := by simp [Vec2.lengthSquared, sq]
    rw [this, div_self, Real.sqrt_one]
    rw [← this, ← lsq]; positivity
  · intro h
    rw [norm, if_neg (by rw [z h]; exact lt_irrefl _)]; rfl
  · have cs := (C42_dot v w v (1 : ℝ)).2.2.2.2.2.2
    have w0 : 0 ≤ w.length := by rw [vec_length]; exact Real.sqrt_nonneg _
    have wsq : w.length ^ 2 = w.lengthSquared := by
      rw [vec_length, Real.sq_sqrt (by positivity)]; simp [Vec2.lengthSquared, sq]
    rw [← lsq, ← wsq, ← mul_pow] at cs
    exact abs_le_of_sq_le_sq cs (mul_nonneg l0 w0)

/-- Angles of vectors: the turn to another vector is in `(-π, π]` and rotating by it gives its direction; the unoriented angle is its
absolute value and has the cosine of the inner product. -/
theorem C42_angles (v w : Vec2 ℝ) :
    -Real.pi < v.angleTo w ∧ v.angleTo w ≤ Real.pi ∧
    w.length • pair (v.rotate (v.angleTo w)) = v.length • pair w ∧
    v.angleWith w = |v.angleTo w| ∧ w.angleWith v = v.angleWith w ∧
    v.length * w.length * Real.cos (v.angleWith w) = v.dot w := by
  have r1 := arg_range v.x v.y
  have r2 := arg_range w.x w.y
  obtain ⟨h1, h2, k, h3⟩ := oriented_spec _ _ r1 r2
  obtain ⟨c, s⟩ := arg_diff v.x v.y w.x w.y
  have e : v.angleTo w = Angle.orientedDiff (Complex.arg ⟨v.x, v.y⟩) (Complex.arg ⟨w.x, w.y⟩) := rfl
  have hc : Real.cos (v.angleTo w) = Real.cos (Complex.arg ⟨w.x, w.y⟩ - Complex.arg ⟨v.x, v.y⟩) := by
    rw [e, h3, Real.cos_add_int_mul_two_pi]
  have hs : Real.sin (v.angleTo w) = Real.sin (Complex.arg ⟨w.x, w.y⟩ - Complex.arg ⟨v.x, v.y⟩) := by
    rw [e, h3, Real.sin_add_int_mul_two_pi]
  have c' : v.length * w.length * Real.cos (v.angleTo w) = v.x * w.x + v.y * w.y := by rw [hc]; exact c
  have s' : v.length * w.length * Real.sin (v.angleTo w) = v.x * w.y - v.y * w.x := by rw [hs]; exact s
  have lsq : v.length ^ 2 = v.x ^ 2 + v.y ^ 2 := by rw [vec_length, Real.sq_sqrt (by positivity)]
  have ab : v.angleWith w = |v.angleTo w| := by
    have b := (C43_between (⟨v.x, v.y, 0, 0⟩ : Coord ℝ) ⟨0, 0, 0, 0⟩ ⟨w.x, w.y, 0, 0⟩).2.2.1
    have e1 : Angle.angleBetween (⟨v.x, v.y, 0, 0⟩ : Coord ℝ) ⟨0, 0, 0, 0⟩ ⟨w.x, w.y, 0, 0⟩ = v.angleWith w := by
      unfold Angle.angleBetween Angle.angleCoordinates Vec2.angleWith Vec2.angle
      simp only [exact_sub, sub_zero]; exact (C43_diff_partial _ _).1
    have e2 : Angle.angleBetweenOriented (⟨v.x, v.y, 0, 0⟩ : Coord ℝ) ⟨0, 0, 0, 0⟩ ⟨w.x, w.y, 0, 0⟩ = v.angleTo w := by
      unfold Angle.angleBetweenOriented Angle.angleCoordinates Vec2.angleTo Vec2.angle
      simp only [exact_sub, sub_zero]
    rw [e1, e2] at b; exact b
  refine ⟨h1, h2, ?_, ab, (C43_diff_partial _ _).1, ?_⟩
  · simp only [pair, Vec2.rotate, exact_sub, exact_add, exact_mul, real_cos, real_sin, Prod.smul_mk, smul_eq_mul, Prod.mk.injEq]
    obtain ⟨C, hC⟩ : ∃ C, C = Real.cos (v.angleTo w) := ⟨_, rfl⟩
    obtain ⟨S, hS⟩ : ∃ C, C = Real.sin (v.angleTo w) := ⟨_, rfl⟩
    rw [← hC] at c' ⊢; rw [← hS] at s' ⊢
    by_cases hl : v.length = 0
    · rw [hl] at lsq ⊢
      have h1 := sq_nonneg v.x
      have h2 := sq_nonneg v.y
      have hx : v.x = 0 := pow_eq_zero_iff (two_ne_zero) |>.mp (by linarith)
      have hy : v.y = 0 := pow_eq_zero_iff (two_ne_zero) |>.mp (by linarith)
      rw [hx, hy]; constructor <;> ring
    · constructor
      · apply mul_left_cancel₀ hl
        linear_combination v.x * c' - v.y * s' - w.x * lsq
      · apply mul_left_cancel₀ hl
        linear_combination v.y * c' + v.x * s' - w.y * lsq
  · rw [ab, Real.cos_abs, c']; simp [Vec2.dot]

/-- Rotation keeps lengths, adds up, and turns by its angle; quarter circles are the rotations by multiples of π/2. -/
theorem C42_rotate (v : Vec2 ℝ) (s t : ℝ) (n : Int) :
    (v.rotate s).length = v.length ∧ (v.rotate s).rotate t = v.rotate (s + t) ∧
    v.rotateByQuarterCircle n = some (v.rotate (n * (Real.pi / 2))) := by
  refine ⟨?_, ?_, ?_⟩
  · rw [vec_length, vec_length]; congr 1
    simp only [Vec2.rotate, exact_sub, exact_add, exact_mul, real_cos, real_sin]
    linear_combination (v.x ^ 2 + v.y ^ 2) * (Real.sin_sq_add_cos_sq s)
  · simp only [Vec2.rotate, exact_sub, exact_add, exact_mul, real_cos, real_sin, Real.cos_add, Real.sin_add, Vec2.mk.injEq]
    constructor <;> ring
  · rw [quarter_cases]
    congr 1
    have d : n = 4 * (n / 4) + n % 4 := by omega
    have per : ∀ r : ℤ, n = 4 * (n / 4) + r → (n : ℝ) * (Real.pi / 2) = r * (Real.pi / 2) + (n / 4 : ℤ) * (2 * Real.pi) := by
      intro r hr
      have : (n : ℝ) = 4 * ((n / 4 : ℤ) : ℝ) + r := by exact_mod_cast hr
      rw [this]; ring
    rcases (by omega : n % 4 = 0 ∨ n % 4 = 1 ∨ n % 4 = 2 ∨ n % 4 = 3) with h | h | h | h
    · rw [h] at d ⊢
      simp only [Vec2.rotate, exact_sub, exact_add, exact_mul, real_cos, real_sin]
      rw [per 0 d, Real.cos_add_int_mul_two_pi, Real.sin_add_int_mul_two_pi]
      simp
    · rw [h] at d ⊢
      simp only [Vec2.rotate, exact_sub, exact_add, exact_mul, real_cos, real_sin]
      rw [per 1 d, Real.cos_add_int_mul_two_pi, Real.sin_add_int_mul_two_pi]
      simp
    · rw [h] at d ⊢
      simp only [Vec2.rotate, exact_sub, exact_add, exact_mul, real_cos, real_sin]
      rw [per 2 d, Real.cos_add_int_mul_two_pi, Real.sin_add_int_mul_two_pi]
      rw [show ((2 : ℤ) : ℝ) * (Real.pi / 2) = Real.pi by push_cast; ring]
      simp
    · rw [h] at d ⊢
      simp only [Vec2.rotate, exact_sub, exact_add, exact_mul, real_cos, real_sin]
      rw [per 3 d, Real.cos_add_int_mul_two_pi, Real.sin_add_int_mul_two_pi]
      rw [show ((3 : ℤ) : ℝ) * (Real.pi / 2) = Real.pi / 2 + Real.pi by push_cast; ring, Real.cos_add_pi, Real.sin_add_pi]
      simp

/-! ### Vectors in space -/

/-- The operations on space vectors are those of the vector space of triples; `dot_4` and `dot_2` are the inner product of the
vectors between, and to, the given points. -/
theorem C42_vector_space_3d (a b c : Vec3 K) (d : K) (p q r s : Coord K) :
    triple (a.add b) = triple a + triple b ∧ triple (a.subtract b) = triple a - triple b ∧
    (d ≠ 0 → d • triple (a.divide d) = triple a) ∧ triple (Vec3.fromTo p q) = triple (Vec3.ofCoord q) - triple (Vec3.ofCoord p) ∧
    (a.equals b = true ↔ triple a = triple b) ∧
    a.dot b = b.dot a ∧ (a.add b).dot c = a.dot c + b.dot c ∧ (d ≠ 0 → d * (a.divide d).dot c = a.dot c) ∧ 0 ≤ a.dot a ∧ (a.dot a = 0 ↔ triple a = 0) ∧
    Vec3.dot4 p q r s = (Vec3.fromTo p q).dot (Vec3.fromTo r s) ∧ Vec3.dot2 p q = (Vec3.ofCoord p).dot (Vec3.ofCoord q) := by
  refine ⟨rfl, rfl, fun h => ?_, rfl, ?_, ?_, ?_, fun h => ?_, ?_, ?_, rfl, rfl⟩
  · simp only [triple, Vec3.divide, exact_div, Prod.smul_mk, smul_eq_mul, Prod.mk.injEq]
    exact ⟨mul_div_cancel₀ _ h, mul_div_cancel₀ _ h, mul_div_cancel₀ _ h⟩
  · simp [triple, Vec3.equals]
  · simp only [Vec3.dot, exact_add, exact_mul]; ring
  · simp only [Vec3.dot, Vec3.add, exact_add, exact_mul]; ring
  · simp only [Vec3.dot, Vec3.divide, exact_add, exact_mul, exact_div]; field_simp
  · simp only [Vec3.dot, exact_add, exact_mul]; nlinarith [mul_self_nonneg a.x, mul_self_nonneg a.y, mul_self_nonneg a.z]
  · simp only [Vec3.dot, exact_add, exact_mul, triple, Prod.mk_eq_zero]
    constructor
    · intro h
      have h1 := mul_self_nonneg a.x
      have h2 := mul_self_nonneg a.y
      have h3 := mul_self_nonneg a.z
      exact ⟨mul_self_eq_zero.mp (by linarith), mul_self_eq_zero.mp (by linarith), mul_self_eq_zero.mp (by linarith)⟩
    · rintro ⟨h1, h2, h3⟩; rw [h1, h2, h3]; ring

/-- Length and normalisation in space. -/
theorem C42_length_3d (v : Vec3 ℝ) (p : Coord ℝ) :
    v.length ^ 2 = v.dot v ∧ 0 ≤ v.length ∧ Vec3.lengthOfCoordinate p = (Vec3.ofCoord p).length ∧
    triple v = v.length • triple v.normalize ∧ (triple v ≠ 0 → v.normalize.length = 1) ∧ (triple v = 0 → triple v.normalize = 0) ∧
    (triple (Vec3.ofCoord p) ≠ 0 → Vec3.ofCoord (Vec3.normalizeCoordinate p) = (Vec3.ofCoord p).normalize) := by
  have e : ∀ v : Vec3 ℝ, v.length = Real.sqrt (v.dot v) := fun v => rfl
  have pos : ∀ v : Vec3 ℝ, 0 ≤ v.dot v := fun v => (C42_vector_space_3d v v v (1 : ℝ) p p p p).2.2.2.2.2.2.2.2.1
  have zero : ∀ v : Vec3 ℝ, v.dot v = 0 ↔ triple v = 0 := fun v => (C42_vector_space_3d v v v (1 : ℝ) p p p p).2.2.2.2.2.2.2.2.2.1
  have lsq : ∀ v : Vec3 ℝ, v.length ^ 2 = v.dot v := fun v => by rw [e, Real.sq_sqrt (pos v)]
  have nz : ∀ v : Vec3 ℝ, triple v ≠ 0 → 0 < v.length := by
    intro v h
    rw [e]; exact Real.sqrt_pos.mpr (lt_of_le_of_ne (pos v) (fun h' => h ((zero v).mp h'.symm)))
  have z : triple v = 0 → v.length = 0 := by intro h; rw [e, (zero v).mpr h, Real.sqrt_zero]
  have norm : ∀ v : Vec3 ℝ, v.normalize = if 0 < v.length then v.divide v.length else ⟨0, 0, 0⟩ := by
    intro v; unfold Vec3.normalize; simp only [real_toFlt, exact_lt, exact_lit, Rat.cast_zero, decide_eq_true_eq]
  refine ⟨lsq v, by rw [e]; exact Real.sqrt_nonneg _, rfl, ?_, ?_, ?_, ?_⟩
  · by_cases h : triple v = 0
    · rw [z h, h]; simp
    · have hl := nz v h
      rw [norm, if_pos hl]
      exact ((C42_vector_space_3d v v v v.length p p p p).2.2.1 hl.ne').symm
  · intro h
    have hl := nz v h
    rw [norm, if_pos hl, e]
    have : (v.divide v.length).dot (v.divide v.length) = v.dot v / v.length ^ 2 := by
      simp only [Vec3.dot, Vec3.divide, exact_add, exact_mul, exact_div]; field_simp
    rw [this, lsq, div_self, Real.sqrt_one]
    rw [← lsq]; positivity
  · intro h; rw [norm, if_neg (by rw [z h]; exact lt_irrefl _)]; rfl
  · intro h; rw [norm, if_pos (nz _ h)]; rfl

/-- `normalize_coordinate` has no case for the zero vector: it yields NaN (exact rationals with NaN; root of zero is zero). -/
theorem C42_normalize_zero_coordinate (m : EQ) (hs : exactRounding.sqrt 0 = Val.fin 0) :
    Vec3.normalizeCoordinate (⟨Fl.fin 0, Fl.fin 0, Fl.fin 0, m⟩ : Coord EQ) = ⟨Fl.nan, Fl.nan, Fl.nan, Fl.nan⟩ ∧
    Vec3.normalize (⟨Fl.fin 0, Fl.fin 0, Fl.fin 0⟩ : Vec3 EQ) = ⟨Fl.fin 0, Fl.fin 0, Fl.fin 0⟩ := by
  have hs' : (FltSqrt.sqrt (Fl.fin 0 : EQ)) = Fl.fin 0 := by
    show Fl.sqrt (Fl.fin 0) = _
    simp only [Fl.sqrt, lt_irrefl, if_false]; exact hs
  have l : Vec3.lengthOfCoordinate (⟨Fl.fin 0, Fl.fin 0, Fl.fin 0, m⟩ : Coord EQ) = Fl.fin 0 := by
    unfold Vec3.lengthOfCoordinate; simp only [EQ.mul_fin, EQ.add_fin, mul_zero, add_zero]; exact hs'
  have l' : Vec3.length (⟨Fl.fin 0, Fl.fin 0, Fl.fin 0⟩ : Vec3 EQ) = Fl.fin 0 := by
    unfold Vec3.length; simp only [EQ.mul_fin, EQ.add_fin, mul_zero, add_zero]; exact hs'
  constructor
  · unfold Vec3.normalizeCoordinate
    simp only [l]
    rfl
  · unfold Vec3.normalize
    simp only [l', EQ.lit_fin, EQ.lt_fin, lt_self_iff_false, decide_false, Bool.false_eq_true, if_false]

/-! ### Non-trivial cases -/
section examples
example : exactRounding.sqrt 0 = Val.fin 0 := by decide +kernel
example : (⟨1, 2⟩ : Vec2 ℚ).isParallel ⟨-2, -4⟩ = true := by decide +kernel
example : (⟨1, 2⟩ : Vec2 ℚ).isParallel ⟨2, 1⟩ = false := by decide +kernel
example : ∀ x : ℚ, -.(-.x) = x := by simp
example : (⟨1, 2⟩ : Vec2 ℚ).rotateByQuarterCircle (-5) = some ⟨2, -1⟩ := by rw [quarter_cases]; rfl
end examples
end Verif.Props
