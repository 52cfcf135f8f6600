import Verif.Props.Centroid

set_option linter.unusedSectionVars false

/-! # C46: centroids of particular shapes, lines and points; panics -/

namespace Verif.Props
open Flt Verif.Spec

/-- The centroid of a triangle with an area is the mean of its vertices. -/
theorem C46_triangle (p : Polygon ℝ) (a b c : Coord ℝ) (hp : HasRings p [a, b, c] []) (hd : det a b c ≠ 0) :
    Centroid.fromPolygon p = .ok (some (Coord.xy ((a.x + b.x + c.x) / 3) ((a.y + b.y + c.y) / 3))) := by
  rw [C46_polygon p hp.proper, hp.rings]
  obtain ⟨t, ht, ht0⟩ : ∃ t, t = turnOf (closed [a, b, c]) ∧ t ≠ 0 := ⟨_, rfl, by unfold turnOf; split_ifs <;> norm_num⟩
  rw [← ht, List.map_nil]
  have hc : closed [a, b, c] = [a, b, c, a] := rfl
  have h1 : shoelace (closed [a, b, c]) = det a b c := by rw [hc]; simp [shoelace, det]; ring
  have h2 : momentX (closed [a, b, c]) = det a b c * (a.x + b.x + c.x) := by rw [hc]; simp [momentX, det]; ring
  have h3 : momentY (closed [a, b, c]) = det a b c * (a.y + b.y + c.y) := by rw [hc]; simp [momentY, det]; ring
  unfold centroidOf
  rw [if_neg (by simp)]
  simp only [wsum, List.map_cons, List.map_nil, List.sum_cons, List.sum_nil, add_zero, h1, h2, h3]
  rw [if_pos (mul_ne_zero ht0 hd)]
  simp only [Option.map_some]
  congr 3 <;> field_simp

/-- Nonnegative weights keep a mean within a half plane. -/
theorem weighted_le {A : Type} (l : List A) (d x y : A → ℝ) (u v w : ℝ) (hd : ∀ s ∈ l, 0 ≤ d s) (h : ∀ s ∈ l, u * x s + v * y s ≤ w) :
    u * (l.map (fun s => d s * x s)).sum + v * (l.map (fun s => d s * y s)).sum ≤ w * (l.map d).sum := by
  induction l with
  | nil => simp
  | cons s l ih =>
    have := ih (fun s hs => hd s (by simp [hs])) (fun s hs => h s (by simp [hs]))
    simp only [List.map_cons, List.sum_cons]
    nlinarith [mul_le_mul_of_nonneg_left (h s (by simp)) (hd s (by simp))]

/-- Both ends of a segment are points of the line. -/
theorem segs_mem {A : Type} (l : List A) (s : A × A) (hs : s ∈ segs l) : s.1 ∈ l ∧ s.2 ∈ l := by
  obtain ⟨i, hi, rfl⟩ := List.mem_iff_getElem.mp hs
  rw [getElem_segs]
  exact ⟨List.getElem_mem _, List.getElem_mem _⟩

theorem convex_inside (v : List (Coord ℝ)) (hv : ConvexLeft v) (p : Polygon ℝ) (hp : HasRings p v []) :
    ∃ c, Centroid.fromPolygon p = .ok (some c) ∧ ∀ f g h : ℝ, (∀ q ∈ v, f * q.x + g * q.y ≤ h) → f * c.x + g * c.y ≤ h := by
  cases v with
  | nil => exact absurd rfl hp.2.1
  | cons a l =>
    obtain ⟨f1, f2, f3⟩ := fan_sum a (closed (a :: l)) (closed2D_closed _)
    have hget : ∀ i (h : i < (segs (closed (a :: l))).length), ∃ p q, (a :: l)[i]? = some p ∧ (a :: l)[(i + 1) % (a :: l).length]? = some q ∧
        (segs (closed (a :: l)))[i] = (p, q) := by
      intro i h
      have hlen : (closed (a :: l)).length = (a :: l).length + 1 := by simp [closed]
      have hi : i < (a :: l).length := by rw [length_segs, hlen] at h; omega
      have e1 := closed_get (a :: l) i (by omega)
      have e2 := closed_get (a :: l) (i + 1) (by omega)
      rw [Nat.mod_eq_of_lt hi] at e1
      rw [getElem_segs]
      refine ⟨_, _, ?_, ?_, rfl⟩
      · rw [← e1, List.getElem?_eq_getElem]
      · rw [← e2, List.getElem?_eq_getElem]
    have nonneg : ∀ s ∈ segs (closed (a :: l)), 0 ≤ det a s.1 s.2 := by
      intro s hs
      obtain ⟨i, hi, rfl⟩ := List.mem_iff_getElem.mp hs
      obtain ⟨p, q, h1, h2, h3⟩ := hget i hi
      rw [h3]
      have hin := getElem?_length h1
      by_cases h0 : i = 0
      · subst h0; simp at h1; subst h1
        simp [det]
      · by_cases hl : i + 1 = (a :: l).length
        · rw [hl, Nat.mod_self] at h2; simp at h2; subst h2
          simp [det]
        · rw [Nat.mod_eq_of_lt (by omega)] at h2
          exact hv.1 0 i (i + 1) a p q (by omega) (by omega) rfl h1 h2
    have hmem : ∀ s ∈ segs (closed (a :: l)), s.1 ∈ a :: l ∧ s.2 ∈ a :: l := by
      intro s hs
      have := segs_mem _ _ hs
      have hm : ∀ b, b ∈ closed (a :: l) → b ∈ a :: l := by
        intro b hb
        rcases List.mem_append.mp hb with h | h
        · exact h
        · exact List.mem_of_mem_take h
      exact ⟨hm _ this.1, hm _ this.2⟩
    have hS : 0 < shoelace (closed (a :: l)) := by
      have hpos := convex_fan_pos a l hv
      have := C33_fan a l
      rw [(C33_shoelace _ (closed2D_closed _)).1] at this
      injection this with this
      have e : ((segs l).map (fun s => -(det a s.1 s.2) / 2)).sum = -((segs l).map (fun s => det a s.1 s.2)).sum / 2 := by
        induction segs l with
        | nil => simp
        | cons s r ih => rw [List.map_cons, List.sum_cons, List.map_cons, List.sum_cons, ih]; ring
      rw [e] at this
      linarith
    obtain ⟨t, ht, ht0⟩ : ∃ t, t = turnOf (closed (a :: l)) ∧ t ≠ 0 := ⟨_, rfl, by unfold turnOf; split_ifs <;> norm_num⟩
    refine ⟨Coord.xy (momentX (closed (a :: l)) / (3 * shoelace (closed (a :: l)))) (momentY (closed (a :: l)) / (3 * shoelace (closed (a :: l)))), ?_, ?_⟩
    · rw [C46_polygon p hp.proper, hp.rings, ← ht, List.map_nil]
      unfold centroidOf
      rw [if_neg (by simp)]
      simp only [wsum, List.map_cons, List.map_nil, List.sum_cons, List.sum_nil, add_zero]
      rw [if_pos (mul_ne_zero ht0 hS.ne')]
      simp only [Option.map_some]
      congr 3 <;> field_simp
    · intro f g h hq
      have := weighted_le (segs (closed (a :: l))) (fun s => det a s.1 s.2) (fun s => a.x + s.1.x + s.2.x) (fun s => a.y + s.1.y + s.2.y)
        f g (3 * h) nonneg (fun s hs => by
          have h1 := hq a (by simp)
          have h2 := hq _ (hmem s hs).1
          have h3 := hq _ (hmem s hs).2
          linarith)
      rw [f1, f2, f3] at this
      simp only [Coord.xy]
      have h3 : (0 : ℝ) < 3 * shoelace (closed (a :: l)) := by linarith
      rw [show f * (momentX (closed (a :: l)) / (3 * shoelace (closed (a :: l)))) + g * (momentY (closed (a :: l)) / (3 * shoelace (closed (a :: l))))
        = (f * momentX (closed (a :: l)) + g * momentY (closed (a :: l))) / (3 * shoelace (closed (a :: l))) by ring, div_le_iff₀ h3]
      linarith

/-- The centroid of a convex polygon without holes is inside: in every half plane that contains its vertices. -/
theorem C46_convex_inside (v : List (Coord ℝ)) (hv : ConvexLeft v ∨ ConvexLeft v.reverse) (p : Polygon ℝ) (hp : HasRings p v []) :
    ∃ c, Centroid.fromPolygon p = .ok (some c) ∧ ∀ f g h : ℝ, (∀ q ∈ v, f * q.x + g * q.y ≤ h) → f * c.x + g * c.y ≤ h := by
  rcases hv with hv | hv
  · exact convex_inside v hv p hp
  · obtain ⟨p', hp'⟩ : ∃ p' : Polygon ℝ, HasRings p' v.reverse [] :=
      ⟨⟨⟨⟨2, 0, closed v.reverse⟩, none, none⟩, [], none, none⟩, rfl, by simpa using hp.2.1, rfl, by simp⟩
    obtain ⟨c, hc, hin⟩ := convex_inside v.reverse hv p' hp'
    refine ⟨c, ?_, fun f g h hq => hin f g h (fun q hq' => hq q (by simpa using hq'))⟩
    rw [← hc]
    exact C46_direction_start_partial p' p _ v [] [] hp' hp ⟨0, Or.inr (by simp)⟩ .nil (Or.inl rfl)

/-! ## Lines and points -/

/-- A line: an empty one panics; otherwise the mean over its length, or the common point of a line without length. -/
theorem C46_line (l : LineString ℝ) :
    (l.getCoordinates = [] → Centroid.ofLineString l = .error .arith) ∧
    (l.getCoordinates ≠ [] → ∃ c, Centroid.ofLineString l = .ok c ∧
      (lineLength l.getCoordinates ≠ 0 → c.getCentroid =
        some (Coord.xy (lineX l.getCoordinates / lineLength l.getCoordinates) (lineY l.getCoordinates / lineLength l.getCoordinates))) ∧
      (lineLength l.getCoordinates = 0 → ∀ q ∈ l.getCoordinates, c.getCentroid = some (Coord.xy q.x q.y))) := by
  constructor
  · intro h
    unfold Centroid.ofLineString Centroid.addLineSegments
    rw [h]; rfl
  · intro h
    refine ⟨_, addLineSegments_eq _ _ h, ?_, ?_⟩
    · intro hl
      have hpos : 0 < lineLength l.getCoordinates := lt_of_le_of_ne (lineLength_nonneg _) (Ne.symm hl)
      simp [Centroid.getCentroid, addRing, Centroid.init, hpos]
    · intro hz q hq
      have hh : headX l.getCoordinates = q.x ∧ headY l.getCoordinates = q.y := by
        cases hc : l.getCoordinates with
        | nil => exact absurd hc h
        | cons a r =>
          rw [hc] at hz hq
          have := all_eq_of_length_zero a r hz q hq
          simp [headX, headY, this.1, this.2]
      simp [Centroid.getCentroid, addRing, Centroid.init, hz, hh.1, hh.2]

/-- The centroid of a line is the same for the reversed line, moves with it, and is in every half plane that contains it. -/
theorem C46_line_laws (l l' : LineString ℝ) (h : l.getCoordinates ≠ []) :
    ∃ c, Centroid.ofLineString l = .ok c ∧ ∃ q, c.getCentroid = some q ∧
      (l'.getCoordinates = l.getCoordinates.reverse → ∃ c', Centroid.ofLineString l' = .ok c' ∧ c'.getCentroid = some q) ∧
      (∀ u v, l'.getCoordinates = l.getCoordinates.map (shift u v) → ∃ c', Centroid.ofLineString l' = .ok c' ∧ c'.getCentroid = some (shift u v q)) ∧
      (∀ f g w : ℝ, (∀ b ∈ l.getCoordinates, f * b.x + g * b.y ≤ w) → f * q.x + g * q.y ≤ w) := by
  obtain ⟨c, hc, h1, h2⟩ := (C46_line l).2 h
  obtain ⟨C, hC⟩ : ∃ C, C = l.getCoordinates := ⟨_, rfl⟩
  have revX : lineX C.reverse = lineX C := by
    unfold lineX
    rw [segs_reverse, List.map_reverse, List.sum_reverse, List.map_map]; congr 1
    exact List.map_congr_left (fun s _ => by simp only [Function.comp, Prod.fst_swap, Prod.snd_swap]; rw [Spec.dist_comm]; ring)
  have revY : lineY C.reverse = lineY C := by
    unfold lineY
    rw [segs_reverse, List.map_reverse, List.sum_reverse, List.map_map]; congr 1
    exact List.map_congr_left (fun s _ => by simp only [Function.comp, Prod.fst_swap, Prod.snd_swap]; rw [Spec.dist_comm]; ring)
  have lin : ∀ (l : List (Coord ℝ × Coord ℝ)) (f g h : Coord ℝ × Coord ℝ → ℝ) (c : ℝ), (∀ s, f s = g s + c * h s) →
      (l.map f).sum = (l.map g).sum + c * (l.map h).sum := by
    intro l f g h c e
    induction l with
    | nil => simp
    | cons s l ih => simp only [List.map_cons, List.sum_cons, ih, e]; ring
  have shX : ∀ u v, lineX (C.map (shift u v)) = lineX C + u * lineLength C := by
    intro u v; unfold lineX lineLength
    rw [segs_map, List.map_map]
    exact lin _ _ _ _ _ (fun s => by simp only [Function.comp, dist_shift]; simp only [shift]; ring)
  have shY : ∀ u v, lineY (C.map (shift u v)) = lineY C + v * lineLength C := by
    intro u v; unfold lineY lineLength
    rw [segs_map, List.map_map]
    exact lin _ _ _ _ _ (fun s => by simp only [Function.comp, dist_shift]; simp only [shift]; ring)
  have shL : ∀ u v, lineLength (C.map (shift u v)) = lineLength C := by
    intro u v; unfold lineLength
    rw [segs_map, List.map_map]; congr 1
    exact List.map_congr_left (fun s _ => by simp only [Function.comp, dist_shift])
  refine ⟨c, hc, ?_⟩
  rw [← hC] at h h1 h2 ⊢
  by_cases hz : lineLength C = 0
  · obtain ⟨b, hb⟩ : ∃ b, b ∈ C := List.exists_mem_of_ne_nil C h
    have hq := h2 hz b hb
    refine ⟨_, hq, ?_, ?_, ?_⟩
    · intro e
      obtain ⟨c', hc', _, k2⟩ := (C46_line l').2 (by rw [e]; simpa using h)
      exact ⟨c', hc', k2 (by rw [e, lineLength_reverse]; exact hz) b (by rw [e]; simpa using hb)⟩
    · intro u v e
      obtain ⟨c', hc', _, k2⟩ := (C46_line l').2 (by rw [e]; simpa using h)
      exact ⟨c', hc', k2 (by rw [e, shL]; exact hz) (shift u v b) (by rw [e]; exact List.mem_map_of_mem hb)⟩
    · intro f g w hw; exact hw b hb
  · refine ⟨_, h1 hz, ?_, ?_, ?_⟩
    · intro e
      obtain ⟨c', hc', k1, _⟩ := (C46_line l').2 (by rw [e]; simpa using h)
      refine ⟨c', hc', ?_⟩
      rw [k1 (by rw [e, lineLength_reverse]; exact hz), e, lineLength_reverse, revX, revY]
    · intro u v e
      obtain ⟨c', hc', k1, _⟩ := (C46_line l').2 (by rw [e]; simpa using h)
      refine ⟨c', hc', ?_⟩
      rw [k1 (by rw [e, shL]; exact hz), e, shL, shX, shY]
      simp only [shift, Coord.xy]
      congr 2 <;> field_simp
    · intro f g w hw
      have hpos : 0 < lineLength C := lt_of_le_of_ne (lineLength_nonneg _) (Ne.symm hz)
      have := weighted_le (segs C) (fun s => Spec.dist s.1 s.2) (fun s => (s.1.x + s.2.x) / 2) (fun s => (s.1.y + s.2.y) / 2) f g w
        (fun s _ => Spec.dist_nonneg _ _) (fun s hs => by
          have h2 := hw _ (segs_mem _ _ hs).1
          have h3 := hw _ (segs_mem _ _ hs).2
          linarith)
      simp only [Coord.xy]
      rw [show f * (lineX C / lineLength C) + g * (lineY C / lineLength C) = (f * lineX C + g * lineY C) / lineLength C by ring, div_le_iff₀ hpos]
      exact this

/-- A point is its own centroid; an empty point has none. -/
theorem C46_point (p : Point ℝ) :
    (p.coordinates.coordinates = [] → Centroid.fromPoint p = .ok none) ∧
    (∀ c l, p.coordinates.coordinates = c :: l → Centroid.fromPoint p = .ok (some (Coord.xy c.x c.y))) := by
  constructor
  · intro h
    simp [Centroid.fromPoint, Centroid.ofPoint, Point.getCoordinate, CASeq.size, h, Centroid.init, Centroid.getCentroid]
  · intro c l h
    simp [Centroid.fromPoint, Centroid.ofPoint, Point.getCoordinate, CASeq.getCoordinate, CASeq.size, h, Centroid.init, Centroid.getCentroid,
      Res.get, Centroid.addPoint]

/-! ## The `get_centroid` methods -/

section methods
variable {α : Type} [FltSqrt α] [FltRound α]

/-- The centroid of a polygon, as a point: empty for an empty polygon, otherwise the coordinate, made precise if the polygon has a
precision model. -/
theorem C46_get_centroid (p : Polygon α) :
    (p.shell.getCoordinates = [] → p.getCentroid = .ok Point.default) ∧
    (p.shell.getCoordinates ≠ [] → ∀ c, Centroid.fromPolygon p = .ok (some c) →
      ∃ q, p.getCentroid = .ok q ∧ q.coordinates.coordinates = [match p.precisionModel with
        | some pm => pm.makePreciseCoordinate c
        | none => c]) := by
  have he : p.isEmpty = decide (p.shell.getCoordinates.length = 0) := rfl
  constructor
  · intro h
    unfold Polygon.getCentroid
    rw [he, h]; rfl
  · intro h c hc
    have hl : p.shell.getCoordinates.length ≠ 0 := by simpa using h
    unfold Polygon.getCentroid
    rw [he, if_neg (by simp [h]), hc, Res.bind_ok]
    exact ⟨_, rfl, rfl⟩

/-- An empty shell, an empty hole or an empty part of a multipolygon makes the computation panic, in every arithmetic. -/
theorem C46_empty_parts [FltOrd α] (c : Centroid α) (p : Polygon α) (m : MultiPolygon α) (k : Nat) (hk : k < m.polygons.length) :
    (p.shell.getCoordinates = [] → c.addPolygon p = .error .arith) ∧
    c.addHole ([] : List (Coord α)) = .error .arith ∧
    (m.polygons[k].shell.getCoordinates = [] → (∃ j, ∃ h : j < m.polygons.length, m.polygons[j].shell.getCoordinates ≠ []) →
      ∃ e, m.getCentroid = .error e) := by
  have hs : ∀ (c : Centroid α) (p : Polygon α), p.shell.getCoordinates = [] → c.addPolygon p = .error .arith := by
    intro c p h
    unfold Centroid.addPolygon Polygon.getExteriorRing
    rw [ringCopy, Res.bind_ok]
    change (c.addShell p.shell.getCoordinates >>= _) = _
    rw [h]; rfl
  refine ⟨hs c p, rfl, ?_⟩
  rintro h ⟨j, hj, hne⟩
  have hcopy : m.getPolygon k = .ok ⟨⟨m.polygons[k].shell.points, none, none⟩, m.polygons[k].holes.map (fun h => ⟨h.points, none, none⟩), none, none⟩ := by
    rw [MultiPolygon.getPolygon, Res.get_lt hk, Res.bind_ok]
    exact (C50_copy ⟨CASeq.ofCoordinates [], none⟩ m.polygons[k].shell m.polygons[k] Point.default (by simp [Point.default, CASeq.ofCoordinates, CASeq.size])).2.2.1
  obtain ⟨e, he⟩ : ∃ e, Centroid.ofMultiPolygon m = .error e := by
    unfold Centroid.ofMultiPolygon
    cases hpre : forRange 0 k (Centroid.init : Centroid α) (fun i c => do
      let p ← m.getPolygon i
      c.addPolygon p) with
    | ok c' =>
      refine ⟨.arith, forRange_panic _ _ _ k _ _ (Nat.zero_le _) hk ?_⟩
      rw [hpre, Res.bind_ok, hcopy, Res.bind_ok]
      exact hs _ _ h
    | error e =>
      refine ⟨e, forRange_panic _ _ _ k _ _ (Nat.zero_le _) hk ?_⟩
      rw [hpre]; rfl
  refine ⟨e, ?_⟩
  have hem : m.isEmpty = .ok false := by
    unfold MultiPolygon.isEmpty
    rw [forFind_findSome m.polygons 0 m.polygons.length (by omega) _ (fun p => if !p.isEmpty then some false else none) (by
      intro i hi; rw [Nat.zero_add, Res.get_lt hi]; rfl)]
    simp only [Res.bind_ok]
    have : m.polygons.findSome? (fun p => if !p.isEmpty then some false else none) = some false := by
      have hsome : (m.polygons.findSome? (fun p => if !p.isEmpty then some false else none)).isSome := by
        rw [List.findSome?_isSome_iff]
        refine ⟨m.polygons[j], List.getElem_mem hj, ?_⟩
        have : m.polygons[j].isEmpty = false := by
          have e : m.polygons[j].isEmpty = decide (m.polygons[j].shell.getCoordinates.length = 0) := rfl
          rw [e]; simpa using hne
        simp [this]
      obtain ⟨b, hb⟩ := Option.isSome_iff_exists.mp hsome
      obtain ⟨_, a, _, _, h2, _⟩ := List.findSome?_eq_some_iff.mp hb
      rw [hb]
      split_ifs at h2
      exact h2.symm
    rw [this]; rfl
  unfold MultiPolygon.getCentroid
  rw [hem, Res.bind_ok]
  simp only [Bool.false_eq_true, if_false]
  unfold Centroid.fromMultiPolygon
  rw [he]; rfl

end methods

section examples

/-- A polygon with the given vertices. -/
def polyOf (s : List (Coord ℝ)) (hs : List (List (Coord ℝ))) : Polygon ℝ :=
  ⟨⟨⟨2, 0, closed s⟩, none, none⟩, hs.map (fun h => ⟨⟨2, 0, closed h⟩, none, none⟩), none, none⟩

theorem polyOf_rings (s : List (Coord ℝ)) (hs : List (List (Coord ℝ))) (h1 : s ≠ []) (h2 : ∀ h ∈ hs, h ≠ []) : HasRings (polyOf s hs) s hs :=
  ⟨rfl, h1, by simp [polyOf, Function.comp_def, LinearRing.getCoordinates], h2⟩

theorem turnOf_cast (v : List (Coord ℚ)) : turnOf (closed (v.map realPt)) = if Orientation.isCCW (closed v) = .ok true then 1 else -1 := by
  have : closed (v.map realPt) = (closed v).map realPt := by simp [closed]
  unfold turnOf
  rw [this, isCCW_cast]

private def sq : List (Coord ℚ) := [Coord.xy (-10) (-10), Coord.xy 10 (-10), Coord.xy 10 10, Coord.xy (-10) 10]
private def bow : List (Coord ℚ) := [Coord.xy 0 0, Coord.xy 1 2, Coord.xy 2 0, Coord.xy 6 0, Coord.xy 5 2, Coord.xy 4 0]

/-- A hole with two tops: the centroid depends on where the hole starts. -/
theorem C46_start_matters_with_two_tops :
    ∃ s h : List (Coord ℝ), SameRing h (h.rotate 3) ∧ s ≠ [] ∧ h ≠ [] ∧
      Centroid.fromPolygon (polyOf s [h]) ≠ Centroid.fromPolygon (polyOf s [h.rotate 3]) := by
  refine ⟨sq.map realPt, bow.map realPt, ⟨3, Or.inl rfl⟩, by simp [sq], by simp [bow], ?_⟩
  have r1 := polyOf_rings (sq.map realPt) [bow.map realPt] (by simp [sq]) (by simp [bow])
  have r2 := polyOf_rings (sq.map realPt) [(bow.map realPt).rotate 3] (by simp [sq]) (by simp [bow])
  rw [C46_polygon _ r1.proper, C46_polygon _ r2.proper, r1.rings, r2.rings]
  have hr : (bow.map realPt).rotate 3 = (bow.rotate 3).map realPt := by rw [List.map_rotate]
  have t1 : turnOf (closed (sq.map realPt)) = 1 := by rw [turnOf_cast, if_pos (by decide +kernel)]
  have t2 : turnOf (closed (bow.map realPt)) = 1 := by rw [turnOf_cast, if_pos (by decide +kernel)]
  have t3 : turnOf (closed ((bow.map realPt).rotate 3)) = -1 := by rw [hr, turnOf_cast, if_neg (by decide +kernel)]
  have a1 : shoelace (closed (sq.map realPt)) = 800 := by simp [sq, realPt, closed, shoelace, Coord.xy]; norm_num
  have a2 : shoelace (closed (bow.map realPt)) = 0 := by simp [bow, realPt, closed, shoelace, Coord.xy]; norm_num
  have a3 : shoelace (closed ((bow.map realPt).rotate 3)) = 0 := by rw [hr]; simp [bow, realPt, closed, shoelace, Coord.xy]; norm_num
  have m1 : momentX (closed (sq.map realPt)) = 0 := by simp [sq, realPt, closed, momentX, Coord.xy]; norm_num
  have m2 : momentX (closed (bow.map realPt)) = 48 := by simp [bow, realPt, closed, momentX, Coord.xy]; norm_num
  have m3 : momentX (closed ((bow.map realPt).rotate 3)) = 48 := by rw [hr]; simp [bow, realPt, closed, momentX, Coord.xy]; norm_num
  have area : ∀ ws : List (ℝ × List (Coord ℝ)), ws ≠ [] → wsum ws shoelace ≠ 0 →
      centroidOf ws = some (wsum ws momentX / (3 * wsum ws shoelace), wsum ws momentY / (3 * wsum ws shoelace)) := by
    intro ws h1 h2; unfold centroidOf; rw [if_neg h1, if_pos h2]
  rw [area _ (by simp) (by simp [wsum, t1, a1, a2]), area _ (by simp) (by simp [wsum, t1, a1, a3])]
  simp only [wsum, List.map_cons, List.map_nil, List.sum_cons, List.sum_nil, add_zero, t1, t2, t3, a1, a2, a3, m1, m2, m3]
  simp only [Option.map_some, ne_eq, Except.ok.injEq, Option.some.injEq, Coord.xy, Coord.mk.injEq]
  norm_num

example : Proper (polyOf (sq.map realPt) [bow.map realPt]) := (polyOf_rings _ _ (by simp [sq]) (by simp [bow])).proper
example : Moved 3 4 (polyOf (sq.map realPt) []) ⟨⟨⟨2, 0, (closed (sq.map realPt)).map (shift 3 4)⟩, none, none⟩, [], none, none⟩ := ⟨rfl, rfl⟩
example : HasRings (polyOf [Coord.xy 0 0, Coord.xy 3 0, Coord.xy 0 3] []) [Coord.xy 0 0, Coord.xy 3 0, Coord.xy 0 3] [] ∧
    det (Coord.xy (0 : ℝ) 0) (Coord.xy 3 0) (Coord.xy 0 3) ≠ 0 := ⟨polyOf_rings _ _ (by simp) (by simp), by simp [det, Coord.xy]⟩
/-- A triangle standing on its side with a hole: both rings have one top. -/
example : OneTop [Coord.xy 0 0, Coord.xy 6 0, Coord.xy 3 6] ∧ OneTop [Coord.xy 2 1, Coord.xy 4 1, Coord.xy 4 2, Coord.xy 2 2] := by
  constructor
  · refine ⟨[Coord.xy 3 6], [Coord.xy 0 0, Coord.xy 6 0], 1, ⟨by simp, by simp, 6, by simp [Coord.xy], by simp [Coord.xy]⟩, by simp, rfl, ?_⟩
    simp [det, Coord.xy]
  · refine ⟨[Coord.xy 4 2, Coord.xy 2 2], [Coord.xy 2 1, Coord.xy 4 1], 2, ⟨by simp, by simp, 2, by simp [Coord.xy], by simp [Coord.xy]⟩, by simp, rfl, ?_⟩
    simp [Coord.xy]
example : ConvexLeft [Coord.xy (0 : ℝ) 0, Coord.xy 3 0, Coord.xy 0 3] := by
  refine ⟨?_, 0, 1, 2, _, _, _, by omega, by omega, rfl, rfl, rfl, by simp [det, Coord.xy]⟩
  intro i j k a b c h1 h2 ha hb hc
  have hk := getElem?_length hc
  simp only [List.length_cons, List.length_nil] at hk
  obtain rfl : k = 2 := by omega
  obtain rfl : j = 1 := by omega
  obtain rfl : i = 0 := by omega
  simp at ha hb hc
  subst ha hb hc
  simp [det, Coord.xy]
example : ∃ l : LineString ℝ, l.getCoordinates ≠ [] ∧ lineLength l.getCoordinates ≠ 0 :=
  ⟨⟨⟨2, 0, [Coord.xy 0 0, Coord.xy 4 0]⟩, none⟩, by simp [LineString.getCoordinates], by
    simp [LineString.getCoordinates, lineLength, Spec.dist, Coord.xy]⟩
/-- An empty polygon next to another one. -/
example : ∃ m : MultiPolygon ℝ, ∃ h : 1 < m.polygons.length, m.polygons[1].shell.getCoordinates = [] ∧
    ∃ j, ∃ h : j < m.polygons.length, m.polygons[j].shell.getCoordinates ≠ [] :=
  ⟨⟨[polyOf (sq.map realPt) [], polyOf [] []], none, none⟩, by simp, rfl, 0, by simp, by simp [polyOf, sq, LinearRing.getCoordinates, closed]⟩

end examples
end Verif.Props
