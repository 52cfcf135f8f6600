import Verif.Props.CentroidSimple
import Verif.Props.PolygonMeasures
import Verif.Props.Boxes

set_option linter.unusedSectionVars false

/-! # C148: centroids of things put together -/

namespace Verif.Props
open Flt Verif.Spec

theorem sum_join (f : Coord ℝ × Coord ℝ → ℝ) (u v : List (Coord ℝ)) (w : Coord ℝ) :
    ((segs (u ++ w :: v)).map f).sum = ((segs (u ++ [w])).map f).sum + ((segs (w :: v)).map f).sum := by
  rw [segs_join, List.map_append, List.sum_append]

theorem weightless {A : Type} (l : List A) (f g : A → ℝ) (h : ∀ t ∈ l, 0 ≤ f t) (hz : (l.map f).sum = 0) : (l.map (fun t => f t * g t)).sum = 0 := by
  induction l with
  | nil => simp
  | cons a l ih =>
    rw [List.map_cons, List.sum_cons] at hz ⊢
    have h1 := h a (by simp)
    have h2 : 0 ≤ (l.map f).sum := List.sum_nonneg (by
      intro x hx
      obtain ⟨t, ht, rfl⟩ := List.mem_map.mp hx
      exact h t (by simp [ht]))
    rw [ih (fun t ht => h t (by simp [ht])) (by linarith), show f a = 0 by linarith]
    ring

/-- C148: the centroid of a line divided at one of its points is the mean of the centroids of its parts, weighted by length. -/
theorem C148_line (l l1 l2 : LineString ℝ) (u v : List (Coord ℝ)) (w : Coord ℝ) (h : l.getCoordinates = u ++ w :: v)
    (h1 : l1.getCoordinates = u ++ [w]) (h2 : l2.getCoordinates = w :: v) :
    ∃ c c1 c2 q q1 q2 L L1 L2, Centroid.ofLineString l = .ok c ∧ Centroid.ofLineString l1 = .ok c1 ∧ Centroid.ofLineString l2 = .ok c2 ∧
      c.getCentroid = some q ∧ c1.getCentroid = some q1 ∧ c2.getCentroid = some q2 ∧
      Length.ofLine ⟨2, 0, u ++ w :: v⟩ = .ok L ∧ Length.ofLine ⟨2, 0, u ++ [w]⟩ = .ok L1 ∧ Length.ofLine ⟨2, 0, w :: v⟩ = .ok L2 ∧
      L = L1 + L2 ∧ L * q.x = L1 * q1.x + L2 * q2.x ∧ L * q.y = L1 * q1.y + L2 * q2.y := by
  have one : ∀ (s : LineString ℝ), s.getCoordinates ≠ [] → ∃ c q, Centroid.ofLineString s = .ok c ∧ c.getCentroid = some q ∧
      lineLength s.getCoordinates * q.x = lineX s.getCoordinates ∧ lineLength s.getCoordinates * q.y = lineY s.getCoordinates := by
    intro s hs
    obtain ⟨c, hc, k1, k2⟩ := (C46_line s).2 hs
    by_cases hz : lineLength s.getCoordinates = 0
    · obtain ⟨b, hb⟩ := List.exists_mem_of_ne_nil _ hs
      refine ⟨c, _, hc, k2 hz b hb, ?_⟩
      have zx : lineX s.getCoordinates = 0 := weightless _ _ _ (fun t _ => Spec.dist_nonneg _ _) hz
      have zy : lineY s.getCoordinates = 0 := weightless _ _ _ (fun t _ => Spec.dist_nonneg _ _) hz
      rw [hz, zx, zy]; simp
    · refine ⟨c, _, hc, k1 hz, ?_, ?_⟩ <;> (simp only [Coord.xy]; field_simp)
  obtain ⟨c, q, e, e1, e2, e3⟩ := one l (by simp [h])
  obtain ⟨c1, q1, f, f1, f2, f3⟩ := one l1 (by simp [h1])
  obtain ⟨c2, q2, g, g1, g2, g3⟩ := one l2 (by simp [h2])
  rw [h] at e2 e3
  rw [h1] at f2 f3
  rw [h2] at g2 g3
  refine ⟨c, c1, c2, q, q1, q2, _, _, _, e, f, g, e1, f1, g1, C35_exact _, C35_exact _, C35_exact _, ?_, ?_, ?_⟩
  · exact sum_join _ _ _ _
  · rw [e2, f2, g2]; exact sum_join _ _ _ _
  · rw [e3, f3, g3]; exact sum_join _ _ _ _

/-- C148: the envelope of a line covers its centroid. -/
theorem C148_line_box (l : LineString ℝ) (h : l.getCoordinates ≠ []) :
    ∃ c q, Centroid.ofLineString l = .ok c ∧ c.getCentroid = some q ∧ (CoordArrays.envelope l.getCoordinates).coversXY q.x q.y = true := by
  obtain ⟨c, hc, q, hq, -, -, k⟩ := C46_line_laws l l h
  refine ⟨c, q, hc, hq, ?_⟩
  have bx := box_facts l.getCoordinates
  obtain ⟨v, hv⟩ := List.exists_mem_of_ne_nil _ h
  obtain ⟨b1, b2, b3, b4⟩ := bx v hv
  rw [coversXY_exact]
  have k1 := k (-1) 0 (-(CoordArrays.envelope l.getCoordinates).minx) (fun b hb => by linarith [(bx b hb).1])
  have k2 := k 1 0 (CoordArrays.envelope l.getCoordinates).maxx (fun b hb => by linarith [(bx b hb).2.1])
  have k3 := k 0 (-1) (-(CoordArrays.envelope l.getCoordinates).miny) (fun b hb => by linarith [(bx b hb).2.2.1])
  have k4 := k 0 1 (CoordArrays.envelope l.getCoordinates).maxy (fun b hb => by linarith [(bx b hb).2.2.2])
  refine ⟨?_, ?_, ?_, ?_, ?_⟩ <;> linarith

theorem centroidOf_perm {ws vs : List (ℝ × List (Coord ℝ))} (h : ws.Perm vs) : centroidOf ws = centroidOf vs := by
  have hw : ∀ f, wsum ws f = wsum vs f := fun f => (h.map _).sum_eq
  have hu : ∀ f, usum ws f = usum vs f := fun f => (h.map _).sum_eq
  have hn : ws = [] ↔ vs = [] := ⟨fun k => by subst k; simpa using h, fun k => by subst k; simpa using h⟩
  unfold centroidOf
  simp only [hw, hu, hn, h.length_eq]

/-- C148: the centroid does not depend on the order of the holes of a polygon. -/
theorem C148_holes (p p' : Polygon ℝ) (hp : Proper p) (hs : p'.shell.getCoordinates = p.shell.getCoordinates)
    (hh : (p.holes.map LinearRing.getCoordinates).Perm (p'.holes.map LinearRing.getCoordinates)) :
    Centroid.fromPolygon p' = Centroid.fromPolygon p := by
  have hp' : Proper p' := by
    refine ⟨by rw [hs]; exact hp.1, fun r hr => ?_⟩
    have : r.getCoordinates ∈ p.holes.map LinearRing.getCoordinates := hh.symm.subset (List.mem_map_of_mem hr)
    obtain ⟨r', hr', e⟩ := List.mem_map.mp this
    rw [← e]; exact hp.2 r' hr'
  rw [C46_polygon p hp, C46_polygon p' hp']
  congr 2
  symm
  apply centroidOf_perm
  unfold ringsW
  rw [hs]
  refine List.Perm.cons _ ?_
  have := hh.map (fun r => (-turnOf r, r))
  simpa [List.map_map, Function.comp_def] using this

/-- C148: nor on the order of the polygons of a multipolygon. -/
theorem C148_order (m m' : MultiPolygon ℝ) (hp : ∀ p ∈ m.polygons, Proper p) (h : m.polygons.Perm m'.polygons) :
    Centroid.fromMultiPolygon m' = Centroid.fromMultiPolygon m := by
  rw [C46_multi_polygon m hp, C46_multi_polygon m' (fun p k => hp p (h.symm.subset k))]
  congr 2
  exact (centroidOf_perm (h.flatMap_right _)).symm

/-- A polygon whose rings neither cross nor touch themselves. -/
def SimplePolygon (p : Polygon ℝ) : Prop := ∃ s hs, HasRings p s hs ∧ SimpleRing s ∧ ∀ v ∈ hs, SimpleRing v

theorem simple_weight {p : Polygon ℝ} (h : SimplePolygon p) : ∃ A, p.getArea = .ok A ∧ wsum (ringsW p) shoelace = 2 * A ∧ A = ringsArea (ringsOf p) ∧ (∀ r ∈ ringsOf p, Closed2D r) := by
  obtain ⟨s, hs, hp, h1, h2⟩ := h
  have er : ringsOf p = closed s :: hs.map closed := by
    have := hp.1
    have := hp.2.2.1
    unfold ringsOf
    rw [show p.shell.points.coordinates = closed s from hp.1, ← hp.2.2.1]; rfl
  have hc : ∀ r ∈ ringsOf p, Closed2D r := by
    rw [er]
    intro r hr
    rcases List.mem_cons.mp hr with rfl | hr
    · exact closed2D_closed s
    · obtain ⟨v, -, rfl⟩ := List.mem_map.mp hr
      exact closed2D_closed v
  refine ⟨_, C69_area p hc, ?_, rfl, hc⟩
  rw [er, hp.rings]
  have sums : ∀ l : List (List (Coord ℝ)), (∀ v ∈ l, SimpleRing v) →
      ((l.map (fun v => (-turnOf (closed v), closed v))).map (fun w => w.1 * shoelace w.2)).sum = -(2 * ((l.map closed).map ringArea).sum) := by
    intro l
    induction l with
    | nil => simp
    | cons v l ih =>
      intro hl
      have i1 := ih (fun v hv => hl v (by simp [hv]))
      have t2 := (turn_area v (hl v (by simp))).2.1
      simp only [List.map_cons, List.sum_cons] at i1 ⊢
      rw [i1]
      unfold ringArea
      linear_combination -t2
  unfold wsum ringsArea
  rw [List.map_cons, List.sum_cons, sums hs h2]
  unfold ringArea
  linear_combination (turn_area s h1).2.1

/-- C148: the area of a multipolygon times its centroid is the sum of the areas of its polygons times their centroids. -/
theorem C148_multi (m : MultiPolygon ℝ) (area : Polygon ℝ → ℝ) (centre : Polygon ℝ → Coord ℝ) (hs : ∀ p ∈ m.polygons, SimplePolygon p)
    (ha : ∀ p ∈ m.polygons, p.getArea = .ok (area p)) (hc : ∀ p ∈ m.polygons, Centroid.fromPolygon p = .ok (some (centre p)))
    (h0 : ∀ p ∈ m.polygons, 0 < area p) (hn : m.polygons ≠ []) :
    ∃ A c, m.getArea = .ok A ∧ 0 < A ∧ Centroid.fromMultiPolygon m = .ok (some c) ∧
      A = (m.polygons.map area).sum ∧
      A * c.x = (m.polygons.map (fun p => area p * (centre p).x)).sum ∧
      A * c.y = (m.polygons.map (fun p => area p * (centre p).y)).sum := by
  have prop : ∀ p ∈ m.polygons, Proper p := fun p hp => by obtain ⟨s, hs', k, -, -⟩ := hs p hp; exact k.proper
  have each : ∀ p ∈ m.polygons, wsum (ringsW p) shoelace = 2 * area p ∧ wsum (ringsW p) momentX = 6 * (area p * (centre p).x) ∧
      wsum (ringsW p) momentY = 6 * (area p * (centre p).y) := by
    intro p hp
    obtain ⟨A, a1, a2, -, -⟩ := simple_weight (hs p hp)
    rw [ha p hp] at a1
    injection a1 with a1
    subst a1
    have k := hc p hp
    have pos := h0 p hp
    rw [C46_polygon p (prop p hp)] at k
    unfold centroidOf at k
    rw [if_neg (by simp [ringsW]), a2, if_pos (by linarith [h0 p hp] : (2 * area p ≠ 0))] at k
    injection k with k
    simp only [Option.map_some, Option.some.injEq] at k
    refine ⟨a2, ?_, ?_⟩ <;> (rw [← k]; simp only [Coord.xy]; field_simp; ring)
  have tot : ∀ (f : List (Coord ℝ) → ℝ) (l : List (Polygon ℝ)), wsum (l.flatMap ringsW) f = (l.map (fun p => wsum (ringsW p) f)).sum := by
    intro f l
    induction l with
    | nil => simp [wsum]
    | cons p l ih => rw [List.flatMap_cons, wsum_append, ih, List.map_cons, List.sum_cons]
  have scale : ∀ (k : ℝ) (g : Polygon ℝ → ℝ) (l : List (Polygon ℝ)), (l.map (fun p => k * g p)).sum = k * (l.map g).sum := by
    intro k g l; rw [List.sum_map_mul_left]
  have t1 : wsum (m.polygons.flatMap ringsW) shoelace = 2 * (m.polygons.map area).sum := by
    rw [tot, ← scale]; congr 1; exact List.map_congr_left (fun p hp => (each p hp).1)
  have t2 : wsum (m.polygons.flatMap ringsW) momentX = 6 * (m.polygons.map (fun p => area p * (centre p).x)).sum := by
    rw [tot, ← scale]; congr 1; exact List.map_congr_left (fun p hp => (each p hp).2.1)
  have t3 : wsum (m.polygons.flatMap ringsW) momentY = 6 * (m.polygons.map (fun p => area p * (centre p).y)).sum := by
    rw [tot, ← scale]; congr 1; exact List.map_congr_left (fun p hp => (each p hp).2.2)
  have hpos : 0 < (m.polygons.map area).sum := by
    apply List.sum_pos
    · intro x hx
      obtain ⟨p, hp, rfl⟩ := List.mem_map.mp hx
      exact h0 p hp
    · simpa using hn
  have hA : m.getArea = .ok ((m.polygons.map area).sum) := by
    rw [C69_multi_area m (fun p hp => by obtain ⟨A, -, -, -, k⟩ := simple_weight (hs p hp); exact k)]
    congr 2
    refine List.map_congr_left (fun p hp => ?_)
    obtain ⟨A, a1, -, a3, -⟩ := simple_weight (hs p hp)
    rw [ha p hp] at a1
    injection a1 with a1
    rw [a1, a3]
  have hne : m.polygons.flatMap ringsW ≠ [] := by
    intro k; rw [k] at t1; simp [wsum] at t1; linarith
  refine ⟨_, Coord.xy ((m.polygons.map (fun p => area p * (centre p).x)).sum / (m.polygons.map area).sum)
      ((m.polygons.map (fun p => area p * (centre p).y)).sum / (m.polygons.map area).sum), hA, hpos, ?_, rfl, ?_, ?_⟩
  · rw [C46_multi_polygon m prop]
    unfold centroidOf
    rw [if_neg hne, t1, t2, t3, if_pos (by linarith : (2 * (m.polygons.map area).sum ≠ 0))]
    simp only [Option.map_some]
    congr 3 <;> field_simp <;> ring
  · simp only [Coord.xy]; field_simp
  · simp only [Coord.xy]; field_simp

/-- C148: the centroid of a multipolygon without holes is strictly on the same side of any line as all vertices are. -/
theorem C148_multi_hull (m : MultiPolygon ℝ) (hs : ∀ p ∈ m.polygons, ∃ v, HasRings p v [] ∧ SimpleRing v) (hn : m.polygons ≠ []) :
    ∃ c, Centroid.fromMultiPolygon m = .ok (some c) ∧
      ∀ f g h : ℝ, (∀ p ∈ m.polygons, ∀ q ∈ p.shell.getCoordinates, f * q.x + g * q.y ≤ h) → ¬ (f = 0 ∧ g = 0) → f * c.x + g * c.y < h := by
  have simple : ∀ p ∈ m.polygons, SimplePolygon p := fun p hp => by
    obtain ⟨v, k1, k2⟩ := hs p hp
    exact ⟨v, [], k1, k2, by simp⟩
  have data : ∀ p : Polygon ℝ, ∃ (A : ℝ) (c : Coord ℝ), p ∈ m.polygons → p.getArea = .ok A ∧ Centroid.fromPolygon p = .ok (some c) ∧ 0 < A ∧
      ∀ f g h : ℝ, (∀ q ∈ p.shell.getCoordinates, f * q.x + g * q.y ≤ h) → ¬ (f = 0 ∧ g = 0) → f * c.x + g * c.y < h := by
    intro p
    by_cases hp : p ∈ m.polygons
    · obtain ⟨v, k1, k2⟩ := hs p hp
      obtain ⟨A, a1, a2, -, -⟩ := simple_weight (simple p hp)
      obtain ⟨c, c1, c2⟩ := C82_hull p v k1 k2
      refine ⟨A, c, fun _ => ⟨a1, c1, ?_, fun f g h hq => c2 f g h (fun q hv => hq q ?_)⟩⟩
      · rw [k1.rings] at a2
        simp only [wsum, List.map_cons, List.map_nil, List.sum_cons, List.sum_nil, add_zero] at a2
        have := abs_pos.mpr (turn_area v k2).1
        linarith [(turn_area v k2).2.1]
      · rw [k1.1]
        cases v with
        | nil => simp at hv
        | cons a l => simp only [closed, List.mem_append]; exact Or.inl hv
    · exact ⟨0, Coord.xy 0 0, fun k => absurd k hp⟩
  choose area centre hd using data
  obtain ⟨A, c, -, a2, a3, a4, a5, a6⟩ := C148_multi m area centre simple (fun p hp => (hd p hp).1) (fun p hp => (hd p hp).2.1)
    (fun p hp => (hd p hp).2.2.1) hn
  refine ⟨c, a3, fun f g h hq hfg => ?_⟩
  have lt : ∀ l : List (Polygon ℝ), l ≠ [] → (∀ p ∈ l, p ∈ m.polygons) →
      f * (l.map (fun p => area p * (centre p).x)).sum + g * (l.map (fun p => area p * (centre p).y)).sum < h * (l.map area).sum := by
    intro l
    induction l with
    | nil => simp
    | cons p l ih =>
      intro _ hl
      have hp := hl p (by simp)
      have k := mul_lt_mul_of_pos_left ((hd p hp).2.2.2 f g h (hq p hp) hfg) (hd p hp).2.2.1
      simp only [List.map_cons, List.sum_cons]
      by_cases e : l = []
      · subst e; simp; linarith
      · linarith [ih e (fun p hp => hl p (by simp [hp]))]
  have := lt m.polygons hn (fun p hp => hp)
  rw [← a4, ← a5, ← a6] at this
  nlinarith

/-- Two triangles, the second four times as large and far away: positive areas, simple rings. -/
noncomputable example : ∃ c, Centroid.fromMultiPolygon (⟨[polyOf [Coord.xy 0 0, Coord.xy 1 0, Coord.xy 0 1] [], polyOf [Coord.xy 10 10, Coord.xy 12 10, Coord.xy 10 12] []], none, none⟩ : MultiPolygon ℝ) =
    .ok (some c) ∧ c.x < 12 ∧ 0 < c.x := by
  obtain ⟨c, h1, h2⟩ := C148_multi_hull ⟨[polyOf [Coord.xy 0 0, Coord.xy 1 0, Coord.xy 0 1] [], polyOf [Coord.xy 10 10, Coord.xy 12 10, Coord.xy 10 12] []], none, none⟩ (by
    intro p hp
    simp only [List.mem_cons, List.not_mem_nil, or_false] at hp
    rcases hp with rfl | rfl
    · exact ⟨_, polyOf_rings _ _ (by simp) (by simp), triangle_simple _ _ _ (by norm_num [det, Coord.xy])⟩
    · exact ⟨_, polyOf_rings _ _ (by simp) (by simp), triangle_simple _ _ _ (by norm_num [det, Coord.xy])⟩) (by simp)
  refine ⟨c, h1, ?_, ?_⟩
  · have := h2 1 0 12 (by simp [polyOf, LinearRing.getCoordinates, closed, Coord.xy]; norm_num) (by norm_num)
    linarith
  · have := h2 (-1) 0 0 (by simp [polyOf, LinearRing.getCoordinates, closed, Coord.xy]) (by norm_num)
    linarith

/-- Two different holes, exchanged. -/
noncomputable example : Centroid.fromPolygon (polyOf [Coord.xy 0 0, Coord.xy 9 0, Coord.xy 0 9] [[Coord.xy 1 1, Coord.xy 2 1, Coord.xy 1 2], [Coord.xy 3 3, Coord.xy 4 3, Coord.xy 3 4]]) =
    Centroid.fromPolygon (polyOf [Coord.xy 0 0, Coord.xy 9 0, Coord.xy 0 9] [[Coord.xy 3 3, Coord.xy 4 3, Coord.xy 3 4], [Coord.xy 1 1, Coord.xy 2 1, Coord.xy 1 2]]) :=
  C148_holes _ _ (polyOf_rings _ _ (by simp) (by simp)).proper rfl (List.Perm.swap _ _ _)

/-- The two arms of an angle, of lengths 4 and 3. -/
noncomputable example : ∃ c q, Centroid.ofLineString (⟨⟨2, 0, [Coord.xy 0 4, Coord.xy 0 0, Coord.xy 3 0]⟩, none⟩ : LineString ℝ) = .ok c ∧ c.getCentroid = some q ∧
    (CoordArrays.envelope [Coord.xy 0 4, Coord.xy 0 0, Coord.xy 3 0]).coversXY q.x q.y = true :=
  C148_line_box ⟨⟨2, 0, [Coord.xy 0 4, Coord.xy 0 0, Coord.xy 3 0]⟩, none⟩ (by simp [LineString.getCoordinates])

/-- That angle and its arms. -/
noncomputable example : (⟨⟨2, 0, [Coord.xy 0 4, Coord.xy 0 0, Coord.xy 3 0]⟩, none⟩ : LineString ℝ).getCoordinates = [Coord.xy 0 4] ++ Coord.xy 0 0 :: [Coord.xy 3 0] ∧
    lineLength ([Coord.xy 0 4] ++ [Coord.xy 0 0] : List (Coord ℝ)) = 4 ∧ lineLength (Coord.xy 0 0 :: [Coord.xy 3 0] : List (Coord ℝ)) = 3 := by
  refine ⟨rfl, ?_, ?_⟩
  · simp [lineLength, segs, Spec.dist, Coord.xy]
  · simp [lineLength, segs, Spec.dist, Coord.xy]

end Verif.Props
