import Verif.Model.Coordinate
import Mathlib.Algebra.Order.Field.Basic

/-! # Plane geometry, independent of the modelled code -/

namespace Verif.Spec
variable {K : Type} [Field K] [LinearOrder K]

/-- Twice the signed area of the triangle `p q r`, positive if it turns left. -/
def det (p q r : Coord K) : K := (q.x - p.x) * (r.y - p.y) - (q.y - p.y) * (r.x - p.x)

/-- Sign of a number. -/
def sgn (a : K) : Int := if 0 < a then 1 else if a < 0 then -1 else 0

/-- The point is on the closed segment from `a` to `b`. -/
def OnSegment (p a b : Coord K) : Prop :=
  ∃ t : K, 0 ≤ t ∧ t ≤ 1 ∧ p.x = a.x + t * (b.x - a.x) ∧ p.y = a.y + t * (b.y - a.y)

/-- Moved by a vector. -/
def shift (u v : K) (c : Coord K) : Coord K := { c with x := c.x + u, y := c.y + v }

/-- Multiplied by a factor. -/
def scale (k : K) (c : Coord K) : Coord K := { c with x := k * c.x, y := k * c.y }

variable [IsStrictOrderedRing K]

theorem sgn_neg (a : K) : sgn (-a) = -sgn a := by
  unfold sgn
  rcases lt_trichotomy a 0 with h | h | h
  · simp [h, not_lt.mpr h.le]
  · simp [h]
  · simp [h, not_lt.mpr h.le]

theorem sgn_pos {a : K} : sgn a = 1 ↔ 0 < a := by unfold sgn; split_ifs <;> simp_all
theorem sgn_neg_iff {a : K} : sgn a = -1 ↔ a < 0 := by
  unfold sgn
  split_ifs with h1 h2
  · simp [not_lt.mpr h1.le]
  · simp [h2]
  · simp [h2]
theorem sgn_zero {a : K} : sgn a = 0 ↔ a = 0 := by
  unfold sgn
  split_ifs with h1 h2
  · simp [h1.ne']
  · simp [h2.ne]
  · simp; exact le_antisymm (not_lt.mp h1) (not_lt.mp h2)

theorem sgn_mul_pos {k a : K} (hk : 0 < k) : sgn (k * a) = sgn a := by
  unfold sgn
  simp only [mul_pos_iff_of_pos_left hk, mul_neg_iff, hk, not_lt.mpr hk.le, true_and, false_and, or_false]

end Verif.Spec
