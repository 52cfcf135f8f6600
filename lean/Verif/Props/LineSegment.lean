import Verif.Model.LineSegment
import Verif.Lemmas.Plane
import Verif.Props.Orientation
import Verif.Props.Coordinate

set_option linter.unusedSectionVars false

/-! # C40: line segments in exact arithmetic over an ordered field -/

namespace Verif.Props
open Flt Verif.Spec
variable {K : Type} [Field K] [LinearOrder K] [IsStrictOrderedRing K]

/-- Inner product of `p - a` with `b - a`. -/
def along (a b p : Coord K) : K := (p.x - a.x) * (b.x - a.x) + (p.y - a.y) * (b.y - a.y)

theorem along_pos {a b : Coord K} (h : ¬ (a.x = b.x ∧ a.y = b.y)) : 0 < along a b b := by
  unfold along
  rcases lt_or_eq_of_le (add_nonneg (mul_self_nonneg (b.x - a.x)) (mul_self_nonneg (b.y - a.y))) with h' | h'
  · exact h'
  · exfalso; apply h
    have h1 := mul_self_nonneg (b.x - a.x)
    have h2 := mul_self_nonneg (b.y - a.y)
    exact ⟨by linarith [mul_self_eq_zero.mp (by linarith : (b.x - a.x) * (b.x - a.x) = 0)],
      by linarith [mul_self_eq_zero.mp (by linarith : (b.y - a.y) * (b.y - a.y) = 0)]⟩

/-- The projection factor, whichever branch computes it. -/
theorem factor_eq (s : LineSeg K) (p : Coord K) (h : ¬ (s.p0.x = s.p1.x ∧ s.p0.y = s.p1.y)) :
    s.projectionFactor p = along s.p0 s.p1 p / along s.p0 s.p1 s.p1 := by
  have hp := along_pos h
  unfold LineSeg.projectionFactor
  dsimp only
  split_ifs with h1 h2 h3
  · rw [equals2D_iff] at h1
    have : along s.p0 s.p1 p = 0 := by unfold along; rw [h1.1, h1.2]; ring
    rw [this]; simp
  · rw [equals2D_iff] at h2
    have : along s.p0 s.p1 p = along s.p0 s.p1 s.p1 := by unfold along; rw [h2.1, h2.2]
    rw [this, div_self hp.ne']; simp
  · exfalso
    simp only [exact_le, exact_lit, exact_add, exact_mul, exact_sub, Rat.cast_zero, decide_eq_true_eq] at h3
    unfold along at hp; linarith
  · rfl

/-- `project` gives the foot of the perpendicular on the line of the segment, with the height and measure of the point. -/
theorem C40_project (s : LineSeg K) (p : Coord K) (h : ¬ (s.p0.x = s.p1.x ∧ s.p0.y = s.p1.y)) :
    det s.p0 s.p1 (s.project p) = 0 ∧
    (p.x - (s.project p).x) * (s.p1.x - s.p0.x) + (p.y - (s.project p).y) * (s.p1.y - s.p0.y) = 0 ∧
    (s.project p).z = p.z ∧ (s.project p).m = p.m := by
  have hp := along_pos h
  have hf := factor_eq s p h
  unfold LineSeg.project
  split_ifs with h1
  · rw [Bool.or_eq_true, equals2D_iff, equals2D_iff] at h1
    refine ⟨?_, by simp only [Coord.fromCoordinate]; ring, rfl, rfl⟩
    unfold det Coord.fromCoordinate
    rcases h1 with h1 | h1 <;> rw [h1.1, h1.2] <;> ring
  · unfold LineSeg.projectWith
    simp only [exact_add, exact_mul, exact_sub, Coord.fromCoordinate]
    refine ⟨by unfold det; ring, ?_, trivial, trivial⟩
    rw [hf]
    have := div_mul_cancel₀ (along s.p0 s.p1 p) hp.ne'
    unfold along at *
    linear_combination -this

/-- The point at a fraction of the segment, and back. -/
theorem C40_point_along (s : LineSeg K) (f : K) (h : ¬ (s.p0.x = s.p1.x ∧ s.p0.y = s.p1.y)) :
    (s.pointAlong f).x = s.p0.x + f * (s.p1.x - s.p0.x) ∧ (s.pointAlong f).y = s.p0.y + f * (s.p1.y - s.p0.y) ∧
    s.projectionFactor (s.pointAlong f) = f ∧
    (0 ≤ f → f ≤ 1 → s.segmentFraction (s.pointAlong f) = f) ∧
    (f ≤ 0 → s.segmentFraction (s.pointAlong f) = 0) ∧ (1 ≤ f → s.segmentFraction (s.pointAlong f) = 1) := by
  have hp := along_pos h
  have e : s.projectionFactor (s.pointAlong f) = f := by
    rw [factor_eq s _ h, div_eq_iff hp.ne']
    unfold along LineSeg.pointAlong
    simp only [exact_add, exact_mul, exact_sub]
    ring
  have g : s.segmentFraction (s.pointAlong f) = if f < 0 then 0 else if f > 1 then 1 else f := by
    unfold LineSeg.segmentFraction
    rw [e]
    simp
  refine ⟨rfl, rfl, e, fun h0 h1 => ?_, fun h0 => ?_, fun h1 => ?_⟩
  · rw [g, if_neg (not_lt.mpr h0), if_neg (not_lt.mpr h1)]
  · rw [g]
    rcases lt_or_eq_of_le h0 with k | k
    · rw [if_pos k]
    · rw [k]; simp
  · rw [g, if_neg (by linarith)]
    rcases lt_or_eq_of_le h1 with k | k
    · rw [if_pos k]
    · rw [← k]; simp

/-- The projected point is the point at the projection factor, and the middle is the point at one half. -/
theorem C40_project_along (s : LineSeg K) (p : Coord K) (h : ¬ (s.p0.x = s.p1.x ∧ s.p0.y = s.p1.y)) :
    (s.project p).x = (s.pointAlong (s.projectionFactor p)).x ∧ (s.project p).y = (s.pointAlong (s.projectionFactor p)).y ∧
    s.midPoint.x = (s.pointAlong (1 / 2)).x ∧ s.midPoint.y = (s.pointAlong (1 / 2)).y := by
  have hp := along_pos h
  have hf := factor_eq s p h
  refine ⟨?_, ?_, ?_, ?_⟩
  · unfold LineSeg.project
    split_ifs with h1
    · rw [Bool.or_eq_true, equals2D_iff, equals2D_iff] at h1
      rw [hf]
      unfold LineSeg.pointAlong along
      simp only [exact_add, exact_mul, exact_sub, Coord.fromCoordinate]
      rcases h1 with h1 | h1 <;> rw [h1.1, h1.2]
      · simp
      · unfold along at hp; rw [div_self hp.ne']; ring
    · rfl
  · unfold LineSeg.project
    split_ifs with h1
    · rw [Bool.or_eq_true, equals2D_iff, equals2D_iff] at h1
      rw [hf]
      unfold LineSeg.pointAlong along
      simp only [exact_add, exact_mul, exact_sub, Coord.fromCoordinate]
      rcases h1 with h1 | h1 <;> rw [h1.1, h1.2]
      · simp
      · unfold along at hp; rw [div_self hp.ne']; ring
    · rfl
  · unfold LineSeg.midPoint LineSeg.midPointOf LineSeg.pointAlong Coord.xy
    simp only [exact_add, exact_mul, exact_sub, exact_div, exact_lit]
    push_cast; ring
  · unfold LineSeg.midPoint LineSeg.midPointOf LineSeg.pointAlong Coord.xy
    simp only [exact_add, exact_mul, exact_sub, exact_div, exact_lit]
    push_cast; ring

/-- Squared distance. -/
def sqDist (a b : Coord K) : K := (a.x - b.x) ^ 2 + (a.y - b.y) ^ 2

/-- The reflected point, through the foot of the perpendicular. -/
theorem reflect_eq (s : LineSeg K) (p : Coord K) (h : ¬ (s.p0.x = s.p1.x ∧ s.p0.y = s.p1.y)) :
    let r := along s.p0 s.p1 p / along s.p0 s.p1 s.p1
    (s.reflect p).x = 2 * (s.p0.x + r * (s.p1.x - s.p0.x)) - p.x ∧ (s.reflect p).y = 2 * (s.p0.y + r * (s.p1.y - s.p0.y)) - p.y := by
  have hp := along_pos h
  intro r
  have e : (s.p1.y - s.p0.y) * (s.p1.y - s.p0.y) + (s.p0.x - s.p1.x) * (s.p0.x - s.p1.x) = along s.p0 s.p1 s.p1 := by unfold along; ring
  have hr : r * along s.p0 s.p1 s.p1 = along s.p0 s.p1 p := div_mul_cancel₀ _ hp.ne'
  unfold LineSeg.reflect
  simp only [exact_add, exact_mul, exact_sub, exact_div, exact_lit, exact_neg, Rat.cast_ofNat, e]
  constructor
  · rw [div_eq_iff hp.ne']
    have : (2 * (s.p0.x + r * (s.p1.x - s.p0.x)) - p.x) * along s.p0 s.p1 s.p1 =
        (2 * s.p0.x - p.x) * along s.p0 s.p1 s.p1 + 2 * (s.p1.x - s.p0.x) * along s.p0 s.p1 p := by rw [← hr]; ring
    rw [this]; unfold along; ring
  · rw [div_eq_iff hp.ne']
    have : (2 * (s.p0.y + r * (s.p1.y - s.p0.y)) - p.y) * along s.p0 s.p1 s.p1 =
        (2 * s.p0.y - p.y) * along s.p0 s.p1 s.p1 + 2 * (s.p1.y - s.p0.y) * along s.p0 s.p1 p := by rw [← hr]; ring
    rw [this]; unfold along; ring

/-- The reflection in the line of the segment: the line is fixed point by point, the middle of a point and its image is the projection,
the image of the image is the point, and distances are kept. -/
theorem C40_reflect (s : LineSeg K) (h : ¬ (s.p0.x = s.p1.x ∧ s.p0.y = s.p1.y)) :
    (∀ p, ((s.reflect p).x = p.x ∧ (s.reflect p).y = p.y) ↔ det s.p0 s.p1 p = 0) ∧
    (∀ p, (s.reflect p).x + p.x = 2 * (s.project p).x ∧ (s.reflect p).y + p.y = 2 * (s.project p).y) ∧
    (∀ p, (s.reflect (s.reflect p)).x = p.x ∧ (s.reflect (s.reflect p)).y = p.y ∧ (s.reflect (s.reflect p)).z = p.z) ∧
    (∀ p q, sqDist (s.reflect p) (s.reflect q) = sqDist p q) := by
  have hp := along_pos h
  have pr : ∀ p, (s.project p).x = s.p0.x + along s.p0 s.p1 p / along s.p0 s.p1 s.p1 * (s.p1.x - s.p0.x) ∧
      (s.project p).y = s.p0.y + along s.p0 s.p1 p / along s.p0 s.p1 s.p1 * (s.p1.y - s.p0.y) := by
    intro p
    obtain ⟨h1, h2, -⟩ := C40_project_along s p h
    rw [factor_eq s p h] at h1 h2
    exact ⟨h1, h2⟩
  obtain ⟨L, hL⟩ : ∃ L, L = along s.p0 s.p1 s.p1 := ⟨_, rfl⟩
  have hl : L ≠ 0 := by rw [hL]; exact hp.ne'
  have hLx : L = (s.p1.x - s.p0.x) * (s.p1.x - s.p0.x) + (s.p1.y - s.p0.y) * (s.p1.y - s.p0.y) := hL
  have rx : ∀ p, (s.reflect p).x = 2 * (s.p0.x + along s.p0 s.p1 p / L * (s.p1.x - s.p0.x)) - p.x := fun p => hL ▸ (reflect_eq s p h).1
  have ry : ∀ p, (s.reflect p).y = 2 * (s.p0.y + along s.p0 s.p1 p / L * (s.p1.y - s.p0.y)) - p.y := fun p => hL ▸ (reflect_eq s p h).2
  have ar : ∀ p, along s.p0 s.p1 (s.reflect p) = along s.p0 s.p1 p := by
    intro p
    have hr : along s.p0 s.p1 p / L * L = along s.p0 s.p1 p := div_mul_cancel₀ _ hl
    obtain ⟨r, er⟩ : ∃ r, r = along s.p0 s.p1 p / L := ⟨_, rfl⟩
    have : along s.p0 s.p1 (s.reflect p) = 2 * (r * L) - along s.p0 s.p1 p := by
      unfold along
      rw [rx p, ry p, ← er, hLx]; ring
    rw [this, er, hr]; ring
  refine ⟨fun p => ?_, fun p => ?_, fun p => ⟨?_, ?_, rfl⟩, fun p q => ?_⟩
  · rw [rx p, ry p]
    have hr : along s.p0 s.p1 p / L * L = along s.p0 s.p1 p := div_mul_cancel₀ _ hl
    obtain ⟨r, er⟩ : ∃ r, r = along s.p0 s.p1 p / L := ⟨_, rfl⟩
    rw [← er] at hr ⊢
    constructor
    · rintro ⟨h1, h2⟩
      have h1' : p.x = s.p0.x + r * (s.p1.x - s.p0.x) := by linarith
      have h2' : p.y = s.p0.y + r * (s.p1.y - s.p0.y) := by linarith
      unfold det; rw [h1', h2']; ring
    · intro hd
      have k1 : (p.x - s.p0.x - r * (s.p1.x - s.p0.x)) * L = 0 := by
        have : (p.x - s.p0.x - r * (s.p1.x - s.p0.x)) * L = (p.x - s.p0.x) * L - (s.p1.x - s.p0.x) * (r * L) := by ring
        rw [this, hr, hLx]
        unfold along det at *
        linear_combination (-(s.p1.y - s.p0.y)) * hd
      have k2 : (p.y - s.p0.y - r * (s.p1.y - s.p0.y)) * L = 0 := by
        have : (p.y - s.p0.y - r * (s.p1.y - s.p0.y)) * L = (p.y - s.p0.y) * L - (s.p1.y - s.p0.y) * (r * L) := by ring
        rw [this, hr, hLx]
        unfold along det at *
        linear_combination (s.p1.x - s.p0.x) * hd
      have j1 := (mul_eq_zero.mp k1).resolve_right hl
      have j2 := (mul_eq_zero.mp k2).resolve_right hl
      constructor <;> linarith
  · rw [rx p, ry p, (pr p).1, (pr p).2, ← hL]; constructor <;> ring
  · rw [rx (s.reflect p), ar p, rx p]; ring
  · rw [ry (s.reflect p), ar p, ry p]; ring
  · unfold sqDist
    rw [rx p, ry p, rx q, ry q]
    have hrp : along s.p0 s.p1 p / L * L = along s.p0 s.p1 p := div_mul_cancel₀ _ hl
    have hrq : along s.p0 s.p1 q / L * L = along s.p0 s.p1 q := div_mul_cancel₀ _ hl
    obtain ⟨r, er⟩ : ∃ r, r = along s.p0 s.p1 p / L := ⟨_, rfl⟩
    obtain ⟨t, et⟩ : ∃ r, r = along s.p0 s.p1 q / L := ⟨_, rfl⟩
    rw [← er] at hrp ⊢
    rw [← et] at hrq ⊢
    have key : (r - t) * L = (p.x - q.x) * (s.p1.x - s.p0.x) + (p.y - q.y) * (s.p1.y - s.p0.y) := by
      rw [sub_mul, hrp, hrq]; unfold along; ring
    rw [hLx] at key
    linear_combination 4 * (r - t) * key

/-! ## Direction and order -/

/-- Over every arithmetic: reversing twice changes nothing; normalising gives the segment or its reverse, its first end is not after
its second, and it is the same segment as point set. -/
theorem C40_normalize {α : Type} [Flt α] [FltOrd α] (s : LineSeg α) (h0 : s.p0.NN) (h1 : s.p1.NN) :
    s.reverse.reverse = s ∧ (s.normalize = s ∨ s.normalize = s.reverse) ∧ s.normalize.p0.compareTo s.normalize.p1 ≤ 0 ∧
    s.normalize.normalize = s.normalize ∧ s.equalsTopo s.normalize = true ∧ s.equalsTopo s.reverse = true := by
  have o : ∀ a b : Coord α, a.NN → b.NN → a.compareTo b = -b.compareTo a := by
    rintro a b ⟨a1, a2⟩ ⟨b1, b2⟩
    simp only [Coord.compareTo, lt_eq, a1, a2, b1, b2]
    grind
  have r : ∀ a : Coord α, a.NN → a.equals2D a = true := by
    rintro a ⟨a1, a2⟩; simp [Coord.equals2D, eq_eq, a1, a2]
  have t1 : s.equalsTopo s = true := by simp [LineSeg.equalsTopo, r _ h0, r _ h1]
  have t2 : s.equalsTopo s.reverse = true := by simp [LineSeg.equalsTopo, LineSeg.reverse, r _ h0, r _ h1]
  have k := o s.p1 s.p0 h1 h0
  refine ⟨rfl, ?_, ?_, ?_, ?_, t2⟩
  · unfold LineSeg.normalize; split_ifs <;> simp
  · unfold LineSeg.normalize
    split_ifs with h
    · exact h.le
    · omega
  · unfold LineSeg.normalize
    split_ifs with h k'
    · simp only [LineSeg.reverse] at k' ⊢; omega
    · rfl
    · rfl
  · unfold LineSeg.normalize; split_ifs <;> assumption

/-- Both ends are made of numbers. -/
def SegNN {α : Type} [Flt α] (s : LineSeg α) : Prop := s.p0.NN ∧ s.p1.NN

/-- Over every arithmetic the comparison of segments is a total order with `equals` as its equality, decided by the first ends unless
they are equal. -/
theorem C40_compare {α : Type} [Flt α] [FltOrd α] :
    TotalOrderOn (SegNN (α := α)) LineSeg.compareTo (fun s t => s.equals t = true) ∧
    (∀ s t : LineSeg α, SegNN s → SegNN t → s.p0.compareTo t.p0 < 0 → s.compareTo t < 0) ∧
    (∀ s t : LineSeg α, SegNN s → SegNN t → s.p0.equals2D t.p0 = true → s.compareTo t = s.p1.compareTo t.p1) := by
  have c := C01_compareTo_total_order (α := α)
  refine ⟨⟨?_, ?_, ?_, ?_⟩, ?_, ?_⟩
  · intro s t
    unfold LineSeg.compareTo
    dsimp only
    split_ifs
    · exact c.range _ _
    · exact c.range _ _
  · rintro s t ⟨s0, s1⟩ ⟨t0, t1⟩
    have h0 := c.zero_iff s.p0 t.p0 s0 t0
    have h1 := c.zero_iff s.p1 t.p1 s1 t1
    unfold LineSeg.compareTo LineSeg.equals
    dsimp only
    rw [Bool.and_eq_true, ← h0, ← h1]
    split_ifs with h
    · simp [h]
    · push Not at h; simp [h]
  · rintro s t ⟨s0, s1⟩ ⟨t0, t1⟩
    have h0 := c.swap s.p0 t.p0 s0 t0
    have h1 := c.swap s.p1 t.p1 s1 t1
    unfold LineSeg.compareTo
    dsimp only
    rw [h0, h1]
    split_ifs <;> omega
  · rintro s t u ⟨s0, s1⟩ ⟨t0, t1⟩ ⟨u0, u1⟩
    have a0 := c.trans s.p0 t.p0 u.p0 s0 t0 u0
    have a1 := c.trans s.p1 t.p1 u.p1 s1 t1 u1
    have b0 := fun h => c.congr_left (a := s.p0) (b := t.p0) (c := u.p0) s0 t0 u0 h
    have b1 := fun h => c.congr_left (a := u.p0) (b := t.p0) (c := s.p0) u0 t0 s0 h
    have k := fun h1 h2 => c.lt_trans (a := s.p0) (b := t.p0) (c := u.p0) s0 t0 u0 h1 h2
    have w1 := c.swap s.p0 t.p0 s0 t0
    have w2 := c.swap t.p0 u.p0 t0 u0
    have w3 := c.swap s.p0 u.p0 s0 u0
    unfold LineSeg.compareTo
    dsimp only
    split_ifs <;> intro h1 h2 <;> omega
  · intro s t _ _ h
    unfold LineSeg.compareTo
    dsimp only
    rw [if_pos (by omega)]; exact h
  · rintro s t ⟨s0, _⟩ ⟨t0, _⟩ h
    unfold LineSeg.compareTo
    dsimp only
    rw [if_neg (by simp [(c.zero_iff _ _ s0 t0).mpr h])]

/-- The side of a segment relative to a segment: 1 (left) exactly if both ends are on the left or on the line and one is strictly on
the left, -1 likewise on the right, 0 otherwise. -/
theorem C40_orientation (s t : LineSeg K) :
    (s.orientationSeg t = 1 ↔ 0 ≤ det s.p0 s.p1 t.p0 ∧ 0 ≤ det s.p0 s.p1 t.p1 ∧ (0 < det s.p0 s.p1 t.p0 ∨ 0 < det s.p0 s.p1 t.p1)) ∧
    (s.orientationSeg t = -1 ↔ det s.p0 s.p1 t.p0 ≤ 0 ∧ det s.p0 s.p1 t.p1 ≤ 0 ∧ (det s.p0 s.p1 t.p0 < 0 ∨ det s.p0 s.p1 t.p1 < 0)) ∧
    (s.orientationSeg t = 1 ∨ s.orientationSeg t = -1 ∨ s.orientationSeg t = 0) := by
  unfold LineSeg.orientationSeg
  rw [C29_index_is_sign, C29_index_is_sign]
  generalize det s.p0 s.p1 t.p0 = a
  generalize det s.p0 s.p1 t.p1 = b
  unfold sgn
  rcases lt_trichotomy a 0 with ha | ha | ha <;> rcases lt_trichotomy b 0 with hb | hb | hb <;>
    simp [ha, hb, ha.le, hb.le, not_lt.mpr, not_le.mpr]

/-- `set_coordinates` takes over x and y only: afterwards the ends are not the given coordinates if their heights differ. -/
theorem C40_set_coordinates_ignores_heights {α : Type} (s : LineSeg α) (a b : Coord α) (h : a.z ≠ s.p0.z) :
    (s.setCoordinates a b).p0.x = a.x ∧ (s.setCoordinates a b).p0.y = a.y ∧ (s.setCoordinates a b).p1.x = b.x ∧
    (s.setCoordinates a b).p1.y = b.y ∧ (s.setCoordinates a b).p0 ≠ a :=
  ⟨rfl, rfl, rfl, rfl, fun e => h (by rw [← e]; rfl)⟩

/-! Examples: the segment from (0,0) to (4,2). -/

example : ¬ ((⟨0, 0, 0, 0⟩ : Coord ℚ).x = (⟨4, 2, 0, 0⟩ : Coord ℚ).x ∧ (⟨0, 0, 0, 0⟩ : Coord ℚ).y = (⟨4, 2, 0, 0⟩ : Coord ℚ).y) := by simp
example : ((⟨⟨0, 0, 0, 0⟩, ⟨4, 2, 0, 0⟩⟩ : LineSeg ℚ).reflect ⟨0, 5, 7, 0⟩) = ⟨4, -3, 7, 0⟩ := by
  simp only [LineSeg.reflect, exact_add, exact_mul, exact_sub, exact_div, exact_lit, exact_neg, Coord.fromCoordinate, Coord.mk.injEq]
  norm_num
example : (⟨⟨4, 2, 0, 0⟩, ⟨0, 0, 0, 0⟩⟩ : LineSeg ℚ).normalize.p0 = ⟨0, 0, 0, 0⟩ := by decide +kernel

end Verif.Props
