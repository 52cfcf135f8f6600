import Verif.Model.GeometryFactory
import Verif.Props.Geometries

/-! # C68: geometries built by the factory hold the coordinates they were given -/

set_option linter.unusedSectionVars false

namespace Verif.Props
open Flt Verif.Spec Verif.GeometryFactory SeqOps SeqLaws

section
variable {α : Type} [Flt α]

/-! ## Dimension and measures of a list of coordinates -/

theorem foldl_max (f : Coord α → Int) (l : List (Coord α)) (a : Int) :
    a ≤ l.foldl (fun d c => max d (f c)) a ∧ (∀ c ∈ l, f c ≤ l.foldl (fun d c => max d (f c)) a) ∧
      (l.foldl (fun d c => max d (f c)) a = a ∨ ∃ c ∈ l, l.foldl (fun d c => max d (f c)) a = f c) := by
  induction l generalizing a with
  | nil => simp
  | cons c l ih =>
    obtain ⟨h1, h2, h3⟩ := ih (max a (f c))
    rw [List.foldl_cons]
    refine ⟨le_trans (le_max_left _ _) h1, ?_, ?_⟩
    · intro d hd
      rcases List.mem_cons.mp hd with rfl | hd
      · exact le_trans (le_max_right _ _) h1
      · exact h2 d hd
    · rcases h3 with h3 | ⟨d, hd, h3⟩
      · rcases max_choice a (f c) with hm | hm
        · left; rw [h3, hm]
        · right; exact ⟨c, List.mem_cons_self, by rw [h3, hm]⟩
      · right; exact ⟨d, List.mem_cons_of_mem _ hd, h3⟩

theorem coord_dimension (c : Coord α) : Coordinates.dimension c = 2 ∨ Coordinates.dimension c = 3 ∨ Coordinates.dimension c = 4 := by
  unfold Coordinates.dimension; split_ifs <;> simp

theorem coord_measures (c : Coord α) : Coordinates.measures c = 0 ∨ Coordinates.measures c = 1 := by
  unfold Coordinates.measures; split_ifs <;> simp

/-- C68: the dimension (the number of measures) of an array sequence built from coordinates is the greatest of its coordinates', 3 (0) if there are none. -/
theorem C68_dimension (l : List (Coord α)) :
    (l = [] → (CASeq.ofCoordinates l).dimension = 3 ∧ (CASeq.ofCoordinates l).measures = 0) ∧
    (∀ c ∈ l, Coordinates.dimension c ≤ (CASeq.ofCoordinates l).dimension ∧ Coordinates.measures c ≤ (CASeq.ofCoordinates l).measures) ∧
    (l ≠ [] → (∃ c ∈ l, (CASeq.ofCoordinates l).dimension = Coordinates.dimension c) ∧
      ∃ c ∈ l, (CASeq.ofCoordinates l).measures = Coordinates.measures c) := by
  refine ⟨?_, ?_, ?_⟩
  · rintro rfl; exact ⟨rfl, rfl⟩
  · intro c hc
    have hl : ¬l.length = 0 := by cases l <;> simp_all
    simp only [CASeq.ofCoordinates, CoordArrays.dimension, CoordArrays.measures, if_neg hl]
    exact ⟨(foldl_max _ l 0).2.1 c hc, (foldl_max _ l 0).2.1 c hc⟩
  · intro h
    have hl : ¬l.length = 0 := by cases l <;> simp_all
    obtain ⟨c, hc⟩ := List.exists_mem_of_ne_nil l h
    simp only [CASeq.ofCoordinates, CoordArrays.dimension, CoordArrays.measures, if_neg hl]
    obtain ⟨-, a2, a3⟩ := foldl_max Coordinates.dimension l 0
    obtain ⟨-, b2, b3⟩ := foldl_max Coordinates.measures l 0
    refine ⟨a3.resolve_left ?_, ?_⟩
    · intro h0
      have := a2 c hc
      rw [h0] at this
      rcases coord_dimension c with e | e | e <;> omega
    · rcases b3 with b3 | b3
      · refine ⟨c, hc, ?_⟩
        have := b2 c hc
        rw [b3] at this ⊢
        rcases coord_measures c with e | e <;> omega
      · exact b3

/-- C68: the dimension of a coordinate counts the ordinates it has: x, y, and z or m if they are numbers. -/
theorem C68_coordinate_dimension (c : Coord α) (h : c.NN) :
    (isNaN c.m = true → Coordinates.measures c = 0) ∧ (isNaN c.m = false → Coordinates.measures c = 1) ∧
    (isNaN c.z = true → isNaN c.m = true → Coordinates.dimension c = 2) ∧ (isNaN c.z = false → isNaN c.m = true → Coordinates.dimension c = 3) ∧
    (isNaN c.z = true → isNaN c.m = false → Coordinates.dimension c = 3) ∧ (isNaN c.z = false → isNaN c.m = false → Coordinates.dimension c = 4) := by
  obtain ⟨h1, h2⟩ := h
  simp only [Coordinates.measures, Coordinates.dimension, Coord.isXY, Coord.isXYM, Coord.isXYZM, h1, h2]
  cases isNaN c.z <;> cases isNaN c.m <;> decide

/-! ## Points, lines, rings, polygons -/

/-- C68: a point created from a coordinate has that coordinate and no other, also with height and measure; the empty point has none. A
sequence makes a point exactly if it has at most one coordinate. -/
theorem C68_point (c : Coord α) (s : CASeq α) :
    (∃ p : Point α, createPointCoordinate c = .ok p ∧ p.getCoordinates = .ok [c] ∧ p.getX = .ok (some c.x) ∧ p.getY = .ok (some c.y) ∧ p.isEmpty = false) ∧
    (∃ p : Point α, createPoint = .ok p ∧ p.getCoordinates = .ok [] ∧ p.isEmpty = true) ∧
    (s.size ≤ 1 → ∃ p : Point α, createPointSeq s = .ok p ∧ p.getCoordinates = .ok s.coordinates) ∧
    (1 < s.size → ∃ e, createPointSeq s = .error e) := by
  refine ⟨⟨_, rfl, rfl, rfl, rfl, rfl⟩, ⟨_, rfl, rfl, rfl⟩, ?_, ?_⟩
  · intro h
    refine ⟨⟨s.copy, none, none⟩, by simp [createPointSeq, Point.ofSeq, Res.assert, h], ?_⟩
    obtain ⟨d, m, l⟩ := s
    match l, h with
    | [], _ => rfl
    | [c], _ => rfl
    | _ :: _ :: _, h => simp [CASeq.size] at h
  · intro h
    have : decide (s.size ≤ 1) = false := by simpa using h
    exact ⟨_, by simp [createPointSeq, Point.ofSeq, Res.assert, this]; rfl⟩

/-- C68: a line created from coordinates has exactly those, in order; it is closed if the first equals the last (an empty line is not). -/
theorem C68_line (l : List (Coord α)) : ∃ s : LineString α, createLineStringCoordinates l = .ok s ∧ s.getCoordinates = l ∧
    s.getNumPoints = l.length ∧ s.isEmpty = l.isEmpty ∧ s.computeEnvelope = l.foldl Env.expandToInclude Env.null ∧
    s.isClosed = .ok (match l.head?, l.getLast? with | some a, some b => a.equals2D b | _, _ => false) := by
  refine ⟨LineString.ofSeq (CASeq.ofCoordinates l), by rw [createLineStringCoordinates, createLineStringSeq, newFrom_eq]; rfl, rfl, rfl, ?_, ?_, ?_⟩
  · cases l <;> rfl
  · cases l <;> rfl
  · cases l with
    | nil => rfl
    | cons a t =>
      simp only [LineString.isClosed, LineString.ofSeq, LineString.isEmpty, CASeq.size, CASeq.ofCoordinates, CASeq.getCoordinate, LineString.getNumPoints,
        Res.get, Res.sub, List.head?_cons]
      simp [List.getLast?_eq_getElem?]

/-- C68: a ring holds its coordinates as well. Nothing is checked: open, short and repeated coordinates are accepted. -/
theorem C68_ring (l : List (Coord α)) : ∃ r : LinearRing α, createLinearRingCoordinates l = .ok r ∧ r.getCoordinates = l ∧
    r.getNumPoints = l.length ∧ r.isEmpty = l.isEmpty ∧
    r.isClosed = .ok (match l.head?, l.getLast? with | some a, some b => a.equals2D b | _, _ => true) := by
  refine ⟨⟨CASeq.ofCoordinates l, none, none⟩, by rw [createLinearRingCoordinates, createLinearRingSeq, ringOfSeq], rfl, rfl, ?_, ?_⟩
  · cases l <;> rfl
  · cases l with
    | nil => rfl
    | cons a t =>
      simp only [LinearRing.isClosed, LinearRing.isEmpty, CASeq.size, CASeq.ofCoordinates, CASeq.getCoordinate, LinearRing.getNumPoints,
        Res.get, Res.sub, List.head?_cons]
      simp [List.getLast?_eq_getElem?]

/-- C68: a polygon created from a shell and holes has the coordinates of the shell followed by those of the holes (if the shell is
not empty, else none), and gives back the shell and every hole. -/
theorem C68_polygon (shell : LinearRing α) (holes : List (LinearRing α)) : ∃ p : Polygon α, createPolygonRings shell holes = .ok p ∧
    (shell.getCoordinates ≠ [] → p.getCoordinates = .ok (shell.getCoordinates ++ (holes.map (·.getCoordinates)).flatten)) ∧
    (shell.getCoordinates = [] → p.getCoordinates = .ok []) ∧
    (∃ r, p.getExteriorRing = .ok r ∧ r.points = shell.points) ∧ p.getNumInteriorRing = holes.length ∧
    (∀ i h, holes[i]? = some h → ∃ r, p.getInteriorRing i = .ok r ∧ r.points = h.points) := by
  refine ⟨_, ofRings_eq _ _ _, ?_, ?_, ⟨_, ringCopy _, rfl⟩, rfl, ?_⟩
  · intro h
    exact C50_coordinates_partial _ h
  · intro h
    exact (C50_empty_shell _ h).1
  · intro i h hi
    refine ⟨⟨h.points, none, none⟩, ?_, rfl⟩
    obtain ⟨hi', rfl⟩ := List.getElem?_eq_some_iff.mp hi
    rw [Polygon.getInteriorRing, Res.get_lt (l := holes) hi', Res.bind_ok, ringCopy]

/-- C68: and from coordinates alone it has those as its shell. -/
theorem C68_polygon_coordinates (l : List (Coord α)) : ∃ p : Polygon α, createPolygonCoordinates l = .ok p ∧
    p.getCoordinates = .ok l ∧ p.getNumPoints = .ok l.length ∧ p.getNumInteriorRing = 0 := by
  refine ⟨⟨⟨CASeq.ofCoordinates l, none, none⟩, [], none, none⟩, ?_, ?_, ?_, rfl⟩
  · rw [createPolygonCoordinates, createLinearRingCoordinates, createLinearRingSeq, ringOfSeq, Res.bind_ok, createPolygonRing, Polygon.ofShell, ofRings_eq]
  · by_cases h : l = []
    · subst h; rfl
    · exact (C50_coordinates_partial _ h).trans (by simp [ringsOf, CASeq.ofCoordinates])
  · rw [C50_num_points]; simp [ringsOf, CASeq.ofCoordinates]

/-- C68: the polygons of a multi polygon are those given. -/
theorem C68_multi_polygon (ps : List (Polygon α)) : (createMultiPolygon ps).polygons = ps ∧
    ∀ i p, ps[i]? = some p → ∃ q, (createMultiPolygon ps).getPolygon i = .ok q ∧ ringsOf q = ringsOf p := by
  refine ⟨rfl, ?_⟩
  intro i p hi
  obtain ⟨hi', rfl⟩ := List.getElem?_eq_some_iff.mp hi
  have h := (C50_copy (LineString.ofSeq (CASeq.ofCoordinates [])) ps[i].shell ps[i] Point.default (by simp [Point.default, CASeq.ofCoordinates, CASeq.size])).2.2.1
  refine ⟨⟨⟨ps[i].shell.points, none, none⟩, ps[i].holes.map (fun h => ⟨h.points, none, none⟩), none, none⟩, ?_, ?_⟩
  · rw [createMultiPolygon, MultiPolygon.getPolygon, MultiPolygon.ofPolygons, Res.get_lt hi', Res.bind_ok, h]
  · simp [ringsOf, Function.comp_def]

/-! ## Collections of points -/

/-- What a collection of points keeps of a coordinate: x, y and z. -/
theorem point_row (s : CASeq α) (hd : 2 ≤ s.dimension) (hm : 0 ≤ s.measures) (hs : s.dimension - s.measures ≤ 3) (hm1 : s.measures ≤ 1) (h2 : 2 ≤ s.dimension - s.measures)
    (i : Nat) (c : Coord α) (hi : s.coordinates[i]? = some c) :
    ∃ p : Point α, (do
      let pt ← Seqs.copy s i (CASeq.createMeasures 1 s.dimension s.measures) 0 1
      Point.ofSeq pt) = .ok p ∧
      p.coordinates.coordinates = [⟨c.x, c.y, if s.dimension = 2 then nan else c.z, if s.measures = 0 then nan else lit 0⟩] := by
  obtain ⟨hi', hc⟩ := List.getElem?_eq_some_iff.mp hi
  have hdest : (CASeq.createMeasures 1 s.dimension s.measures : CASeq α) = CASeq.newWithSizeDimensionMeasures 1 s.dimension s.measures := by
    simp only [CASeq.createMeasures]
    rw [if_neg (by omega), if_neg (by omega : ¬ s.dimension - s.measures > 3), if_neg (by omega), sub_add_cancel]
  rw [hdest]
  obtain ⟨d', e1, e2, e3, e4⟩ := copy_spec s (CASeq.newWithSizeDimensionMeasures 1 s.dimension s.measures) hd hd i 0 1
    (by show i + 1 ≤ s.coordinates.length; omega) (by show 0 + 1 ≤ (List.replicate 1 _).length; simp)
  obtain ⟨f1, f2, f3, f4, f5⟩ := e3
  have f3' : d'.coordinates.length = 1 := by rw [f3]; simp [CASeq.newWithSizeDimensionMeasures]
  obtain ⟨q, hq⟩ := List.length_eq_one_iff.mp f3'
  refine ⟨⟨d'.copy, none, none⟩, ?_, ?_⟩
  · rw [e1, Res.bind_ok, Point.ofSeq, CASeq.size, f3']; rfl
  · show d'.coordinates = _
    rw [hq]
    have g4 := f4 0
    have g : ∀ k, k < s.dimension.toNat → k < 3 → d'.ord 0 k = s.ord i k := by
      intro k h1 h3
      have := e4 0 (by show 0 < (List.replicate 1 _).length; simp) k h1
      rw [if_pos ⟨by omega, h1, h3⟩] at this
      exact this
    have g0 := g 0 (by omega) (by omega)
    have g1 := g 1 (by omega) (by omega)
    simp only [CASeq.ord, hq, hi, List.getElem?_cons_zero] at g0 g1
    simp [hq, CASeq.newWithSizeDimensionMeasures] at g0 g1 g4
    have hz : q.z = if s.dimension = 2 then nan else c.z := by
      split_ifs with h
      · have := f5 0 2 (by show s.dimension.toNat ≤ 2; omega)
        simp only [CASeq.ord, hq] at this
        simp [CASeq.newWithSizeDimensionMeasures, Coordinates.createDimMeasures, h, Coord.default] at this
        exact this
      · have := g 2 (by omega) (by omega)
        simp only [CASeq.ord, hq, hi] at this
        simpa using this
    have hm' : q.m = if s.measures = 0 then nan else lit 0 := by
      rw [g4]
      unfold Coordinates.createDimMeasures
      by_cases hm0 : s.measures = 0
      · rw [hm0]; simp [Coord.default]
      · have : s.measures = 1 := by omega
        rw [this]
        have : s.dimension = 3 ∨ s.dimension = 4 := by omega
        rcases this with h | h <;> simp [h, Coord.defaultXYM, Coord.defaultXYZM]
    obtain ⟨qx, qy, qz, qm⟩ := q
    dsimp only at g0 g1 hz hm'
    rw [g0, g1, hz, hm']

theorem multi_point_rows (s : CASeq α) (hd : 2 ≤ s.dimension) (hm : 0 ≤ s.measures) (hs : s.dimension - s.measures ≤ 3) (hm1 : s.measures ≤ 1)
    (h2 : 2 ≤ s.dimension - s.measures) :
    ∃ m : MultiPoint α, MultiPoint.ofSeq s = .ok m ∧ m.points.map (·.coordinates.coordinates) =
      (s.coordinates.map (fun c => (⟨c.x, c.y, if s.dimension = 2 then nan else c.z, if s.measures = 0 then nan else lit 0⟩ : Coord α))).map (fun c => [c]) := by
  obtain ⟨ps, e1, e2, e3⟩ := forRange_inv 0 s.size (fun i ps => do
      let pt ← Seqs.copy s i (CASeq.createMeasures 1 s.dimension s.measures) 0 1
      let p ← Point.ofSeq pt
      Res.set ps i p)
    (fun k ps => ps.length = s.coordinates.length ∧ ∀ i < k, ∀ c, s.coordinates[i]? = some c →
      (ps[i]?).map (·.coordinates.coordinates) = some [⟨c.x, c.y, if s.dimension = 2 then nan else c.z, if s.measures = 0 then nan else lit 0⟩])
    (Nat.zero_le _) (List.replicate s.size Point.default) ⟨by simp [CASeq.size], by intro i hi; omega⟩ (by
      rintro i ps - hi ⟨hl, hp⟩
      have hi' : i < s.coordinates.length := hi
      obtain ⟨p, q1, q2⟩ := point_row s hd hm hs hm1 h2 i _ (List.getElem?_eq_getElem hi')
      refine ⟨ps.set i p, ?_, by simpa using hl, ?_⟩
      · cases hc : Seqs.copy s i (CASeq.createMeasures 1 s.dimension s.measures) 0 1 with
        | error e => rw [hc] at q1; cases q1
        | ok pt =>
          rw [hc, Res.bind_ok] at q1
          rw [Res.bind_ok, q1, Res.bind_ok, Res.set_lt (by omega)]
      · intro j hj c hcj
        by_cases hji : j = i
        · subst hji
          rw [List.getElem?_set_self (by omega)]
          rw [List.getElem?_eq_getElem hi'] at hcj
          cases hcj
          rw [Option.map_some, q2]
        · rw [List.getElem?_set_ne (Ne.symm hji)]
          exact hp j (by omega) c hcj)
  refine ⟨MultiPoint.ofPoints ps none, by rw [MultiPoint.ofSeq, e1]; rfl, ?_⟩
  apply List.ext_getElem
  · simpa [MultiPoint.ofPoints] using e2
  · intro i h3 h4
    have hi : i < s.coordinates.length := by simpa using h4
    have hi2 : i < ps.length := by omega
    have := e3 i hi _ (List.getElem?_eq_getElem hi)
    rw [List.getElem?_eq_getElem hi2, Option.map_some] at this
    simpa [MultiPoint.ofPoints] using this

theorem list_dim_meas (l : List (Coord α)) : 2 ≤ CoordArrays.dimension l ∧ 0 ≤ CoordArrays.measures l ∧ CoordArrays.measures l ≤ 1 ∧
    CoordArrays.dimension l - CoordArrays.measures l ≤ 3 ∧ 2 ≤ CoordArrays.dimension l - CoordArrays.measures l := by
  obtain ⟨h1, h2, h3⟩ := C68_dimension l
  have hc : ∀ c : Coord α, Coordinates.dimension c - Coordinates.measures c = 2 ∨ Coordinates.dimension c - Coordinates.measures c = 3 := by
    intro c
    unfold Coordinates.dimension Coordinates.measures
    split_ifs <;> simp
  simp only [CASeq.ofCoordinates] at h1 h2 h3
  by_cases h : l = []
  · obtain ⟨a, b⟩ := h1 h; omega
  · obtain ⟨⟨c, c1, c2⟩, ⟨d, d1, d2⟩⟩ := h3 h
    have a1 := h2 c c1
    have a2 := h2 d d1
    have b1 := hc c
    have b2 := hc d
    rcases coord_dimension c with e | e | e <;> rcases coord_measures c with e' | e' <;>
      rcases coord_measures d with f | f <;> rcases coord_dimension d with f' | f' | f' <;> omega

end

/-! ## The same over numbers with one NaN -/

/-- C68: a collection of points created from coordinates has one point for each, in order, with the same x, y and z; without measures the
coordinates are the same altogether. -/
theorem C68_multi_point {r : Rounding} (l : List (Coord (Fl r))) : ∃ (m : MultiPoint (Fl r)) (cs : List (Coord (Fl r))),
    createMultiPointCoordinates l = .ok m ∧ m.getCoordinates = .ok cs ∧ m.getNumPoints = l.length ∧
    cs.map (fun c => (c.x, c.y, c.z)) = l.map (fun c => (c.x, c.y, c.z)) ∧
    ((∀ c ∈ l, isNaN c.m = true) → cs = l) := by
  have nan_of : ∀ x : Fl r, isNaN x = true → x = nan := by
    intro x h; cases x <;> first | rfl | cases h
  obtain ⟨a1, a2, a3, a4, a5⟩ := list_dim_meas l
  obtain ⟨m, e1, e2⟩ := multi_point_rows (CASeq.ofCoordinates l) a1 a2 a4 a3 a5
  obtain ⟨g1, g2⟩ := C50_multi_point_coordinates_partial m _ e2
  have hz : ∀ c ∈ l, (if (CASeq.ofCoordinates l).dimension = 2 then nan else c.z) = c.z := by
    intro c hc
    split_ifs with h
    · have := ((C68_dimension l).2.1 c hc).1
      rw [h] at this
      have h2 : Coordinates.dimension c = 2 := by rcases coord_dimension c with e | e | e <;> omega
      have : c.isXY = true := by
        unfold Coordinates.dimension at h2
        by_contra h1
        rw [if_neg h1] at h2
        split_ifs at h2 <;> omega
      rw [Coord.isXY] at this
      simp only [Bool.and_eq_true] at this
      exact (nan_of _ this.1.2).symm
    · rfl
  refine ⟨m, _, e1, g1, by rw [g2]; simp [CASeq.ofCoordinates], ?_, ?_⟩
  · rw [List.map_map]
    apply List.map_congr_left
    intro c hc
    simp only [Function.comp]
    rw [hz c hc]
  · intro hm
    have : (CASeq.ofCoordinates l).measures = 0 := by
      by_cases h : l = []
      · exact ((C68_dimension l).1 h).2
      · obtain ⟨-, c, hc, e⟩ := (C68_dimension l).2.2 h
        rw [e]
        simp [Coordinates.measures, Coord.isXYM, Coord.isXYZM, hm c hc]
    conv_rhs => rw [← List.map_id l]
    apply List.map_congr_left
    intro c hc
    rw [hz c hc, this, if_pos rfl, ← nan_of _ (hm c hc)]
    rfl

/-- C68: a measure is lost on the way: it is 0 in the collection. -/
theorem C68_multi_point_measures : (createMultiPointCoordinates [Coord.xym (Fl.fin 1 : EQ) (Fl.fin 2) (Fl.fin 7)]).bind (·.getCoordinates) =
    .ok [Coord.xym (Fl.fin 1) (Fl.fin 2) (Fl.fin 0)] := by decide +kernel

/-! ## Examples -/

example : (createMultiPointCoordinates [Coord.xy (Fl.fin 1 : EQ) (Fl.fin 2), Coord.xyz (Fl.fin 1) (Fl.fin 2) (Fl.fin 3)]).bind (·.getCoordinates) =
    .ok [Coord.xy (Fl.fin 1) (Fl.fin 2), Coord.xyz (Fl.fin 1) (Fl.fin 2) (Fl.fin 3)] := by decide +kernel

/-- A ring that is not closed. -/
example : ∃ r : LinearRing EQ, createLinearRingCoordinates [Coord.xy (Fl.fin 0) (Fl.fin 0), Coord.xy (Fl.fin 1) (Fl.fin 2)] = .ok r ∧ r.isClosed = .ok false :=
  ⟨_, rfl, by decide +kernel⟩

example : (CASeq.ofCoordinates [Coord.xy (Fl.fin 1 : EQ) (Fl.fin 2), Coord.xyzm (Fl.fin 1) (Fl.fin 2) (Fl.fin 3) (Fl.fin 4)]).dimension = 4 := by decide +kernel

example : ∃ e, createPointSeq (CASeq.ofCoordinates [Coord.xy (Fl.fin 1 : EQ) (Fl.fin 2), Coord.xy (Fl.fin 1) (Fl.fin 2)]) = .error e :=
  (C68_point (Coord.xy (Fl.fin 0) (Fl.fin 0)) _).2.2.2 (by decide)

end Verif.Props
