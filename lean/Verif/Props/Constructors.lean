import Verif.Props.Scaling
import Verif.Props.Factory
import Verif.Props.SequenceFactories
import Verif.Props.Angle
import Verif.Props.Intersection
import Verif.Props.Octagon64
import Verif.Props.More
import Verif.Model.Kinds
import Verif.Model.Vectors
import Verif.Model.Position

/-! # C140: what constructors store is what accessors give back -/

namespace Verif.Props
open Flt Verif.Spec Verif.Binary64

section Plain
variable {α : Type} [Flt α]

/-! ## Segments and vectors -/

/-- A segment made from four numbers has the two points without height and measure; index 0 reads the first end and every other
index the second. The segment without arguments has both ends at the origin. A copy reads the same, a reversed segment the other way round. -/
theorem C140_segments (x0 y0 x1 y1 : α) (s : LineSeg α) (i : Nat) :
    (LineSeg.ofXY x0 y0 x1 y1).getCoordinate 0 = ⟨x0, y0, nan, nan⟩ ∧
    (LineSeg.ofXY x0 y0 x1 y1).getCoordinate (i + 1) = ⟨x1, y1, nan, nan⟩ ∧
    (LineSeg.default : LineSeg α).getCoordinate i = ⟨lit 0, lit 0, nan, nan⟩ ∧
    (LineSeg.ofSeg s).getCoordinate i = s.getCoordinate i ∧
    s.reverse.getCoordinate 0 = s.getCoordinate (i + 1) ∧ s.reverse.getCoordinate (i + 1) = s.getCoordinate 0 := by
  refine ⟨rfl, rfl, ?_, rfl, rfl, rfl⟩
  unfold LineSeg.getCoordinate
  split <;> rfl

/-- Component 0 of the vector between two points is the difference in x, every other one the difference in y. -/
theorem C140_components (p q : Coord α) (i : Nat) :
    (Vec2.fromTo p q).getComponent 0 = q.x -. p.x ∧ (Vec2.fromTo p q).getComponent (i + 1) = q.y -. p.y := ⟨rfl, rfl⟩

/-! ## Sequences -/

/-- A sequence made from a size alone has that many points, all at the origin without height and measure, in three dimensions, and
so has heights and no measures. -/
theorem C140_sized (n : Nat) : (CASeq.newWithSize n : CASeq α).size = n ∧ (CASeq.newWithSize n : CASeq α).dimension = 3 ∧
    (CASeq.newWithSize n : CASeq α).hasZ = true ∧ (CASeq.newWithSize n : CASeq α).hasM = false ∧
    (∀ i < n, (CASeq.newWithSize n : CASeq α).getCoordinate i = .ok ⟨lit 0, lit 0, nan, nan⟩) ∧
    ∀ i, n ≤ i → (CASeq.newWithSize n : CASeq α).getCoordinate i = .error .index := by
  refine ⟨by simp [CASeq.newWithSize, CASeq.size], rfl, rfl, rfl, ?_, ?_⟩
  · intro i hi
    simp only [CASeq.newWithSize, CASeq.getCoordinate]
    rw [Res.get_lt (by simpa using hi)]
    simp [Coord.default]
  · intro i hi
    simp [CASeq.newWithSize, CASeq.getCoordinate, Res.get, hi]

/-- Reading heights and measures: the stored value where the sequence has them, aborting exactly past the end; where it has none
the answer is NaN for every index, even past the end. -/
theorem C140_heights (s : CASeq α) (i : Nat) :
    (s.hasZ = true → ∀ c, s.coordinates[i]? = some c → s.getZ i = .ok c.z) ∧
    (s.hasZ = true → s.coordinates.length ≤ i → s.getZ i = .error .index) ∧ (s.hasZ = false → s.getZ i = .ok nan) ∧
    (s.hasM = true → ∀ c, s.coordinates[i]? = some c → s.getM i = .ok c.m) ∧
    (s.hasM = true → s.coordinates.length ≤ i → s.getM i = .error .index) ∧ (s.hasM = false → s.getM i = .ok nan) := by
  refine ⟨?_, ?_, ?_, ?_, ?_, ?_⟩
  · intro h c e; simp [CASeq.getZ, h, Res.get, e]
  · intro h e; simp [CASeq.getZ, h, Res.get, e]
  · intro h; simp [CASeq.getZ, h]
  · intro h c e; simp [CASeq.getM, h, Res.get, e]
  · intro h e; simp [CASeq.getM, h, Res.get, e]
  · intro h; simp [CASeq.getM, h]

/-- With the dimension given, an array sequence keeps the points, takes the dimension as given without any check, and the number
of measures from the points. -/
theorem C140_array_dimension (l : List (Coord α)) (d : Int) :
    (CASeq.ofCoordinatesDim l d).coordinates = l ∧ (CASeq.ofCoordinatesDim l d).dimension = d ∧
    (CASeq.ofCoordinatesDim l d).measures = (CASeq.ofCoordinates l).measures ∧
    ((CASeq.ofCoordinatesDim l d).hasZ = true ↔ (CASeq.ofCoordinates l).measures + 2 < d) := by
  refine ⟨rfl, rfl, rfl, ?_⟩
  show decide (d - CoordArrays.measures l > 2) = true ↔ CoordArrays.measures l + 2 < d
  rw [decide_eq_true_eq]
  omega

/-- A packed sequence made from ordinates and a dimension holds the ordinates and has no measures. Made from points it aborts on
every non-empty list, and from no points it is empty, with all dimensions above three as measures. -/
theorem C140_packed (o : List α) (l : List (Coord α)) (d : Int) :
    PSeq.createFromOrdinates o d = .ok ⟨d, 0, o⟩ ∧
    (l ≠ [] → PSeq.ofCoordinatesDim l d = .error .index) ∧
    PSeq.ofCoordinatesDim ([] : List (Coord α)) d = .ok ⟨d, if d ≤ 3 then 0 else d - 3, []⟩ := by
  refine ⟨(C105_copies (CASeq.ofCoordinates []) o d 0).2.2.2.1, fun h => (C55_packed_from_coordinates_panics l h d 0).2.1, ?_⟩
  have e : max 0 (d - 3) = if d ≤ 3 then 0 else d - 3 := by split <;> omega
  rw [← e]; rfl

/-! ## Geometries -/

/-- The factory's line and ring without arguments are empty; a polygon made from a sequence has the sequence's points in order and
no holes. -/
theorem C140_factory (s : CASeq α) :
    (∃ l : LineString α, GeometryFactory.createLineString = .ok l ∧ l.getCoordinates = [] ∧ l.isEmpty = true) ∧
    (∃ r : LinearRing α, GeometryFactory.createLinearRing = .ok r ∧ r.getCoordinates = [] ∧ r.isEmpty = true) ∧
    ∃ p : Polygon α, GeometryFactory.createPolygonSeq s = .ok p ∧ p.getCoordinates = .ok s.coordinates ∧
      p.getNumPoints = .ok s.coordinates.length ∧ p.getNumInteriorRing = 0 := by
  refine ⟨?_, ?_, ⟨⟨s, none, none⟩, [], none, none⟩, ?_, ?_, ?_, rfl⟩
  · obtain ⟨l, h1, h2, -, h3, -⟩ := C68_line ([] : List (Coord α))
    exact ⟨l, h1, h2, h3⟩
  · obtain ⟨l, h1, h2, -, h3, -⟩ := C68_ring ([] : List (Coord α))
    exact ⟨l, h1, h2, h3⟩
  · rw [GeometryFactory.createPolygonSeq, GeometryFactory.createLinearRingSeq, ringOfSeq, Res.bind_ok, GeometryFactory.createPolygonRing,
      Polygon.ofShell, ofRings_eq]
  · by_cases h : s.coordinates = []
    · rw [h]; exact (C50_empty_shell _ h).1
    · exact (C50_coordinates_partial _ h).trans (by simp [ringsOf])
  · rw [C50_num_points]; simp [ringsOf]

omit [Flt α] in
/-- A multi point made from points has exactly those, counts them (empty ones too), and is empty only if there are none. -/
theorem C140_multi_point (ps : List (Point α)) :
    (GeometryFactory.createMultiPointPoints ps).points = ps ∧ (GeometryFactory.createMultiPointPoints ps).getNumPoints = ps.length ∧
    ((GeometryFactory.createMultiPointPoints ps).isEmpty = true ↔ ps = []) := by
  refine ⟨rfl, rfl, ?_⟩
  simp [GeometryFactory.createMultiPointPoints, MultiPoint.ofPoints, MultiPoint.isEmpty]

/-- Every point that can be made has as many coordinates as it counts, at most one, and is simple. -/
theorem C140_point (s : CASeq α) (p : Point α) (h : Point.ofSeq s = .ok p) :
    p.getNumPoints = s.coordinates.length ∧ p.getNumPoints ≤ 1 ∧ (∃ l, p.getCoordinates = .ok l ∧ l.length = p.getNumPoints) ∧
    Point.isSimple p = true := by
  have hs : s.size ≤ 1 := by
    by_contra hs
    obtain ⟨e, he⟩ := (C68_point (Coord.default : Coord α) s).2.2.2 (by omega)
    rw [GeometryFactory.createPointSeq, h] at he
    exact absurd he (by simp)
  have hp : p = ⟨s, none, none⟩ := by
    have : decide (s.size ≤ 1) = true := by simpa using hs
    simp only [Point.ofSeq, Res.assert, this] at h
    injection h with h
    exact h.symm
  subst hp
  match s, hs with
  | ⟨_, _, []⟩, _ => exact ⟨rfl, Nat.zero_le _, ⟨_, rfl, rfl⟩, rfl⟩
  | ⟨_, _, [c]⟩, _ => exact ⟨rfl, le_rfl, ⟨_, rfl, rfl⟩, rfl⟩
  | ⟨_, _, _ :: _ :: _⟩, h => simp [CASeq.size] at h

/-- Giving a line new points replaces all of them: everything read afterwards, its box too, is that of a line made from them. -/
theorem C140_line_init (l : LineString α) (s : CASeq α) :
    (l.init s).getCoordinates = s.coordinates ∧ (l.init s).getNumPoints = s.coordinates.length ∧
    (l.init s).computeEnvelope = s.coordinates.foldl Env.expandToInclude Env.null ∧ (l.init s).isClosed = (LineString.ofSeq s).isClosed := by
  refine ⟨rfl, rfl, ?_, rfl⟩
  obtain ⟨d, m, cs⟩ := s
  cases cs <;> rfl

/-! ## Octagonal envelopes -/

/-- An octagonal envelope made from one or two points (whose sums and differences are numbers) is not null, covers them, and each of its eight bounds is attained at one of them:
it is the smallest. -/
theorem C140_octagon [FltOrd α] (hnan : isNaN (nan : α) = true) (p q : Coord α) (hp : Measurable4 p) (hq : Measurable4 q) (k : Axis) :
    (Oct.newCoordinate p).isNull = false ∧ k.lo (Oct.newCoordinate p) = k.of p ∧ k.hi (Oct.newCoordinate p) = k.of p ∧
    (Oct.newCoordinates p q).isNull = false ∧
    (k.lo (Oct.newCoordinates p q) = k.of p ∨ k.lo (Oct.newCoordinates p q) = k.of q) ∧
    (k.hi (Oct.newCoordinates p q) = k.of p ∨ k.hi (Oct.newCoordinates p q) = k.of q) ∧
    (∀ c ∈ [p, q], (k.lo (Oct.newCoordinates p q) ≤. k.of c) = true ∧ (k.of c ≤. k.hi (Oct.newCoordinates p q)) = true) := by
  have e1 : Oct.newCoordinate p = octOf [p] := rfl
  have e2 : Oct.newCoordinates p q = octOf [p, q] := rfl
  obtain ⟨a1, a2⟩ := C47_bounds_partial hnan [p] (by simp) (by simpa using hp)
  obtain ⟨b1, b2⟩ := C47_bounds_partial hnan [p, q] (by simp) (by simpa using ⟨hp, hq⟩)
  rw [e1, e2]
  refine ⟨a1, ?_, ?_, b1, ?_, ?_, (b2 k).2.2⟩
  · simpa using (a2 k).1
  · simpa using (a2 k).2.1
  · simpa using (b2 k).1
  · simpa using (b2 k).2.1

/-! ## Sides -/

omit [Flt α] in
/-- On, left and right are three different sides; taking the opposite exchanges left and right and leaves on. -/
theorem C140_sides : Position.ON ≠ Position.LEFT ∧ Position.ON ≠ Position.RIGHT ∧ Position.LEFT ≠ Position.RIGHT ∧
    ∀ s ∈ [Position.ON, Position.LEFT, Position.RIGHT], Position.opposite (Position.opposite s) = s ∧
      (Position.opposite s = s ↔ s = Position.ON) := by
  refine ⟨by decide, by decide, by decide, ?_⟩
  intro s hs
  simp only [List.mem_cons, List.not_mem_nil, or_false] at hs
  rcases hs with rfl | rfl | rfl <;> decide

end Plain

/-! ## Homogeneous coordinates -/

/-- A homogeneous point made from two finite doubles, or from a point, gives the same two numbers back, exactly. Without arguments
it is the origin. -/
theorem C140_homogeneous {sq : ℚ → Val} {hy : ℚ → ℚ → Val} (x y : ℚ) (hx : IsF64 x) (hy' : IsF64 y) (z m : B64 sq hy) :
    (HCoord.ofXY (Fl.fin x : B64 sq hy) (Fl.fin y)).getCoordinate = Coord.xy (Fl.fin x) (Fl.fin y) ∧
    (HCoord.ofCoord (⟨Fl.fin x, Fl.fin y, z, m⟩ : Coord (B64 sq hy))).getCoordinate = Coord.xy (Fl.fin x) (Fl.fin y) ∧
    (HCoord.default : HCoord (B64 sq hy)).getCoordinate = Coord.xy (Fl.fin 0) (Fl.fin 0) := by
  have one : (lit 1 : B64 sq hy) = Fl.fin 1 := rnd_of_f64 (by simpa using f64_int 1 (by norm_num))
  have zero : (lit 0 : B64 sq hy) = Fl.fin 0 := rnd_of_f64 (by simpa using f64_int 0 (by norm_num))
  have d : ∀ v : ℚ, IsF64 v → (Fl.fin v : B64 sq hy) /. lit 1 = Fl.fin v := by
    intro v hv
    rw [one, div_round v one_ne_zero, div_one]
    exact rnd_of_f64 hv
  have nn : ∀ v : ℚ, (isNaN (Fl.fin v : B64 sq hy) || isInf (Fl.fin v : B64 sq hy)) = false := fun v => rfl
  have main : ∀ u v : ℚ, IsF64 u → IsF64 v →
      (⟨Fl.fin u, Fl.fin v, lit 1⟩ : HCoord (B64 sq hy)).getCoordinate = Coord.xy (Fl.fin u) (Fl.fin v) := by
    intro u v hu hv
    simp only [HCoord.getCoordinate, HCoord.getX, HCoord.getY, d u hu, d v hv, nn]
    rfl
  refine ⟨main x y hx hy', main x y hx hy', ?_⟩
  rw [HCoord.default, zero]
  exact main 0 0 (by simpa using f64_int 0 (by norm_num)) (by simpa using f64_int 0 (by norm_num))

/-! ## Angles and turns -/

/-- In exact arithmetic: the angle of a point is its angle as seen from the origin; a half and a quarter of π are 90 and 45
degrees. -/
theorem C140_angles (p : Coord ℝ) : Angle.angleCoordinate p = Angle.angleCoordinates ⟨0, 0, 0, 0⟩ p ∧
    Angle.toDegrees (Angle.halfPi : ℝ) = 90 ∧ Angle.toDegrees (Angle.quarterPi : ℝ) = 45 ∧
    Angle.toRadians (90 : ℝ) = Angle.halfPi ∧ Angle.toRadians (45 : ℝ) = Angle.quarterPi := by
  have hpi := Real.pi_ne_zero
  refine ⟨?_, ?_, ?_, ?_, ?_⟩
  · simp [Angle.angleCoordinate, Angle.angleCoordinates]
  all_goals
    simp only [Angle.toDegrees, Angle.toRadians, Angle.halfPi, Angle.quarterPi, exact_div, exact_mul, exact_lit, real_pi]
    push_cast
    field_simp
    try norm_num

/-- The point on the diagonal has the angle of a quarter of π, the one straight up half of π. -/
theorem C140_axis_angles (t : ℝ) (ht : 0 < t) (z m : ℝ) :
    Angle.angleCoordinate ⟨t, t, z, m⟩ = Angle.quarterPi ∧ Angle.angleCoordinate ⟨0, t, z, m⟩ = Angle.halfPi := by
  have hpi := Real.pi_pos
  constructor
  · have e : (⟨t, t⟩ : ℂ) = (t * Real.sqrt 2 : ℝ) * (Real.cos (Real.pi / 4) + Real.sin (Real.pi / 4) * Complex.I) := by
      have h2 : Real.sqrt 2 * Real.sqrt 2 = 2 := Real.mul_self_sqrt (by norm_num)
      apply Complex.ext <;> simp [Real.cos_pi_div_four, Real.sin_pi_div_four] <;> linear_combination (-t / 2) * h2
    simp only [Angle.angleCoordinate, Angle.quarterPi, exact_div, exact_lit, real_pi, real_atan2]
    rw [e, Complex.arg_real_mul _ (by positivity), Complex.ofReal_cos, Complex.ofReal_sin,
      Complex.arg_cos_add_sin_mul_I (by constructor <;> linarith)]
    push_cast; rfl
  · have e : (⟨0, t⟩ : ℂ) = (t : ℝ) * Complex.I := by apply Complex.ext <;> simp
    simp only [Angle.angleCoordinate, Angle.halfPi, exact_div, exact_lit, real_pi, real_atan2]
    rw [e, Complex.arg_real_mul _ ht, Complex.arg_I]
    push_cast; rfl

/-- The names of the turns: clockwise is right, straight is collinear; a turn is one of the three, and the three differ. -/
theorem C140_turns {K : Type} [Field K] [LinearOrder K] [IsStrictOrderedRing K] (a b c : Coord K) :
    (Orientation.index a b c = Orientation.CLOCKWISE ↔ det a b c < 0) ∧ (Orientation.index a b c = Orientation.STRAIGHT ↔ det a b c = 0) ∧
    (Orientation.index a b c = Orientation.COUNTERCLOCKWISE ↔ 0 < det a b c) ∧
    (Orientation.index b a c = Orientation.CLOCKWISE ↔ Orientation.index a b c = Orientation.COUNTERCLOCKWISE) := by
  obtain ⟨h1, h2, h3⟩ := C29_meaning a b c
  refine ⟨h2, h3, h1, ?_⟩
  rw [(C29_symmetries a b c).1]
  unfold Orientation.CLOCKWISE Orientation.COUNTERCLOCKWISE
  omega

/-! ## Examples -/

example : (LineSeg.ofXY (Fl.fin 1 : EQ) (Fl.fin 2) (Fl.fin 3) (Fl.fin 4)).getCoordinate 7 = Coord.xy (Fl.fin 3) (Fl.fin 4) := by decide +kernel
example : (CASeq.ofCoordinates [Coord.xym (Fl.fin 1 : EQ) (Fl.fin 2) (Fl.fin 7)]).getM 0 = .ok (Fl.fin 7) ∧
    (CASeq.ofCoordinates [Coord.xym (Fl.fin 1 : EQ) (Fl.fin 2) (Fl.fin 7)]).getM 1 = .error .index ∧
    (CASeq.ofCoordinates [Coord.xym (Fl.fin 1 : EQ) (Fl.fin 2) (Fl.fin 7)]).getZ 1 = .ok Fl.nan := by decide +kernel
example : ∃ p : Point EQ, Point.ofSeq (CASeq.ofCoordinates [Coord.xy (Fl.fin 1) (Fl.fin 2)]) = .ok p := ⟨_, rfl⟩
example : ∀ k : Axis, isNaN (k.of (Coord.xy (Fl.fin 1 : EQ) (Fl.fin 2))) = false := by intro k; cases k <;> decide +kernel
example : IsF64 3 ∧ IsF64 (-7) := ⟨by simpa using f64_int 3 (by norm_num), by simpa using f64_int (-7) (by norm_num)⟩

end Verif.Props
