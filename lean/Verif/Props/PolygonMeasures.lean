import Verif.Props.Area
import Verif.Props.Length
import Verif.Props.Geometries
import Mathlib.Data.List.Forall2

/-! # C69: area and length of polygons and collections of polygons -/

set_option linter.unusedSectionVars false

namespace Verif.Spec
variable {K : Type} [Field K] [LinearOrder K] [IsStrictOrderedRing K]

/-- The area enclosed by a ring, without sign. -/
def ringArea (ring : List (Coord K)) : K := |shoelace ring| / 2

/-- The area of a shell less those of the holes. -/
def ringsArea : List (List (Coord K)) → K
  | [] => 0
  | shell :: holes => ringArea shell - (holes.map ringArea).sum

/-- Two closed lists of coordinates of one ring: started elsewhere, and perhaps traversed backwards. -/
def SameRing {A : Type} (a b : List (Coord A)) : Prop :=
  ∃ (l : List (Coord A)) (k : Nat), a = closed l ∧ (b = closed (l.rotate k) ∨ b = (closed (l.rotate k)).reverse)

end Verif.Spec

namespace Verif.Props
open Flt Verif.Spec

section field
variable {K : Type} [Field K] [LinearOrder K] [IsStrictOrderedRing K]
local instance : Flt K := exactFlt K

theorem foldl_sub_sum {A : Type} (l : List A) (f : A → K) (a : K) : l.foldl (fun s t => s - f t) a = a - (l.map f).sum := by
  induction l generalizing a with
  | nil => simp
  | cons b l ih => rw [List.foldl_cons, ih, List.map_cons, List.sum_cons]; ring

theorem forRange_foldl_mem {σ A : Type} (xs : List A) (f : Nat → σ → Res σ) (g : σ → A → σ) (s : σ)
    (h : ∀ k (hk : k < xs.length) s, f k s = .ok (g s xs[k])) : forRange 0 xs.length s f = .ok (xs.foldl g s) :=
  forRange_foldl xs 0 xs.length (by omega) f g (by intro k hk s; rw [Nat.zero_add]; exact h k hk s) s

/-- C69: the area of a polygon with closed rings is the area inside its shell less those of its holes. -/
theorem C69_area (p : Polygon K) (h : ∀ r ∈ ringsOf p, Closed2D r) : p.getArea = .ok (ringsArea (ringsOf p)) := by
  have hs : Area.ofRingSeq p.shell.getSeq = .ok (ringArea p.shell.points.coordinates) := by
    rw [(C33_sequence _).2]
    exact (C33_shoelace _ (h p.shell.points.coordinates (by simp [ringsOf]))).2
  rw [Polygon.getArea, hs, Res.bind_ok, forRange_foldl_mem p.holes _ (fun s t => s - ringArea t.points.coordinates) _ (by
    intro k hk s
    rw [Res.get_lt hk, Res.bind_ok, (C33_sequence _).2,
      show (p.holes[k].getSeq).coordinates = p.holes[k].points.coordinates from rfl,
      (C33_shoelace p.holes[k].points.coordinates (h _ (by simp [ringsOf]; right; exact ⟨_, List.getElem_mem hk, rfl⟩))).2]
    rfl), foldl_sub_sum p.holes (fun t => ringArea t.points.coordinates)]
  simp [ringsOf, ringsArea, Function.comp_def]

/-- C69: the area of a collection of polygons is the sum of their areas. -/
theorem C69_multi_area (m : MultiPolygon K) (h : ∀ p ∈ m.polygons, ∀ r ∈ ringsOf p, Closed2D r) :
    m.getArea = .ok ((m.polygons.map (fun p => ringsArea (ringsOf p))).sum) := by
  rw [MultiPolygon.getArea]
  rw [forRange_foldl_mem m.polygons _ (fun s p => s + ringsArea (ringsOf p)) _ (by
    intro k hk s
    rw [Res.get_lt hk, Res.bind_ok, C69_area _ (h _ (List.getElem_mem hk))]
    rfl), foldl_add_sum m.polygons (fun p => ringsArea (ringsOf p))]
  simp

theorem sameRing_area {a b : List (Coord K)} (h : SameRing a b) : ringArea b = ringArea a ∧ Closed2D a ∧ Closed2D b := by
  obtain ⟨l, k, rfl, rfl | rfl⟩ := h
  all_goals
    have e : shoelace (closed (l.rotate k)) = shoelace (closed l) := by
      unfold shoelace
      exact ((segs_closed_rotate l k).map _).sum_eq
  · exact ⟨by rw [ringArea, e, ringArea], closed2D_closed _, closed2D_closed _⟩
  · exact ⟨by rw [ringArea, shoelace_reverse, abs_neg, e, ringArea], closed2D_closed _, closed2D_reverse _ (closed2D_closed _)⟩

/-- C69: the directions and the starts of the rings do not matter, nor does the order of the holes. -/
theorem C69_area_same (p q : Polygon K) (hs : SameRing p.shell.points.coordinates q.shell.points.coordinates) (hq : List (LinearRing K))
    (hp : List.Perm hq q.holes) (hh : List.Forall₂ (fun a b => SameRing a.points.coordinates b.points.coordinates) p.holes hq) :
    ∃ a, p.getArea = .ok a ∧ q.getArea = .ok a := by
  obtain ⟨e, c1, c2⟩ := sameRing_area hs
  have hsum : ∀ (as bs : List (LinearRing K)), List.Forall₂ (fun a b => SameRing a.points.coordinates b.points.coordinates) as bs →
      (bs.map (fun t => ringArea t.points.coordinates)).sum = (as.map (fun t => ringArea t.points.coordinates)).sum ∧
      (∀ t ∈ as, Closed2D t.points.coordinates) ∧ (∀ t ∈ bs, Closed2D t.points.coordinates) := by
    intro as bs h
    induction h with
    | nil => simp
    | cons h1 _ ih =>
      obtain ⟨i1, i2, i3⟩ := ih
      obtain ⟨j1, j2, j3⟩ := sameRing_area h1
      refine ⟨by rw [List.map_cons, List.sum_cons, List.map_cons, List.sum_cons, i1, j1], ?_, ?_⟩
      · intro t ht; rcases List.mem_cons.mp ht with rfl | ht
        · exact j2
        · exact i2 t ht
      · intro t ht; rcases List.mem_cons.mp ht with rfl | ht
        · exact j3
        · exact i3 t ht
  obtain ⟨s1, s2, s3⟩ := hsum _ _ hh
  refine ⟨_, C69_area p ?_, (C69_area q ?_).trans ?_⟩
  · intro r hr
    rcases List.mem_cons.mp hr with rfl | hr
    · exact c1
    · obtain ⟨t, ht, rfl⟩ := List.mem_map.mp hr
      exact s2 t ht
  · intro r hr
    rcases List.mem_cons.mp hr with rfl | hr
    · exact c2
    · obtain ⟨t, ht, rfl⟩ := List.mem_map.mp hr
      exact s3 t (hp.mem_iff.mpr ht)
  · congr 1
    have := (hp.map (fun t => ringArea t.points.coordinates)).sum_eq
    simp only [ringsOf, ringsArea, List.map_map, Function.comp_def, e]
    rw [← this, s1]

/-- A polygon with every coordinate replaced. -/
def mapPolygon {A : Type} (f : Coord A → Coord A) (p : Polygon A) : Polygon A :=
  let g : LinearRing A → LinearRing A := fun r => { r with points := { r.points with coordinates := r.points.coordinates.map f } }
  { p with shell := g p.shell, holes := p.holes.map g }

theorem ringsOf_map {A : Type} (f : Coord A → Coord A) (p : Polygon A) : ringsOf (mapPolygon f p) = (ringsOf p).map (List.map f) := by
  simp [ringsOf, mapPolygon, Function.comp_def]

/-- C69: moving a polygon does not change its area, scaling multiplies it by the square of the factor. -/
theorem C69_area_move_scale (p : Polygon K) (u v k : K) (h : ∀ r ∈ ringsOf p, Closed2D r) : ∃ a, p.getArea = .ok a ∧
    (mapPolygon (shift u v) p).getArea = .ok a ∧ (mapPolygon (scale k) p).getArea = .ok (k ^ 2 * a) := by
  have hr : ∀ r : List (Coord K), Closed2D r → Closed2D (r.map (shift u v)) ∧ Closed2D (r.map (scale k)) ∧
      ringArea (r.map (shift u v)) = ringArea r ∧ ringArea (r.map (scale k)) = k ^ 2 * ringArea r := by
    intro r hc
    have c1 : Closed2D (r.map (shift u v)) := by
      intro a b ha hb
      rw [List.head?_map, Option.map_eq_some_iff] at ha
      rw [List.getLast?_map, Option.map_eq_some_iff] at hb
      obtain ⟨a', ha, rfl⟩ := ha
      obtain ⟨b', hb, rfl⟩ := hb
      obtain ⟨e1, e2⟩ := hc a' b' ha hb
      simp [shift, e1, e2]
    have c2 : Closed2D (r.map (scale k)) := by
      intro a b ha hb
      rw [List.head?_map, Option.map_eq_some_iff] at ha
      rw [List.getLast?_map, Option.map_eq_some_iff] at hb
      obtain ⟨a', ha, rfl⟩ := ha
      obtain ⟨b', hb, rfl⟩ := hb
      obtain ⟨e1, e2⟩ := hc a' b' ha hb
      simp [scale, e1, e2]
    obtain ⟨a, m1, m2, m3⟩ := C33_move_scale r u v k
    rw [(C33_shoelace r hc).1] at m1
    rw [(C33_shoelace _ c1).1] at m2
    rw [(C33_shoelace _ c2).1] at m3
    have m1 : -(shoelace r) / 2 = a := by injection m1
    have m2 : -(shoelace (r.map (shift u v))) / 2 = a := by injection m2
    have m3 : -(shoelace (r.map (scale k))) / 2 = k ^ 2 * a := by injection m3
    have e1 : shoelace (r.map (shift u v)) = shoelace r := by linarith
    have e2 : shoelace (r.map (scale k)) = k ^ 2 * shoelace r := by
      have : a = -(shoelace r) / 2 := m1.symm
      rw [this] at m3; linarith
    refine ⟨c1, c2, by rw [ringArea, e1, ringArea], ?_⟩
    rw [ringArea, e2, abs_mul, abs_of_nonneg (sq_nonneg k), ringArea]; ring
  have hm : ∀ (f : Coord K → Coord K) (c : K), (∀ r ∈ ringsOf p, ringArea (r.map f) = c * ringArea r) →
      ringsArea ((ringsOf p).map (List.map f)) = c * ringsArea (ringsOf p) := by
    intro f c hf
    obtain ⟨shell, holes, pm, env⟩ := p
    simp only [ringsOf, List.map_cons, ringsArea, List.map_map] at hf ⊢
    rw [hf _ List.mem_cons_self, mul_sub]
    congr 1
    have hf' := fun r hr => hf r (List.mem_cons_of_mem _ hr)
    clear hf hr h
    induction holes with
    | nil => simp
    | cons a l ih =>
      simp only [List.map_cons, List.sum_cons, Function.comp_apply, mul_add] at ih hf' ⊢
      rw [ih (fun r hr => hf' r (List.mem_cons_of_mem _ hr)), hf' _ List.mem_cons_self]
  refine ⟨_, C69_area p h, ?_, ?_⟩
  · rw [C69_area, ringsOf_map, hm _ 1 (by intro r hr'; rw [(hr r (h r hr')).2.2.1, one_mul]), one_mul]
    rw [ringsOf_map]
    intro r hr'
    obtain ⟨s, hs, rfl⟩ := List.mem_map.mp hr'
    exact (hr s (h s hs)).1
  · rw [C69_area, ringsOf_map, hm _ (k ^ 2) (by intro r hr'; rw [(hr r (h r hr')).2.2.2])]
    rw [ringsOf_map]
    intro r hr'
    obtain ⟨s, hs, rfl⟩ := List.mem_map.mp hr'
    exact (hr s (h s hs)).2.1

end field

/-- C69: the length of a polygon is the sum of the lengths of its rings; reversing rings does not change it. -/
theorem C69_length (p q : Polygon ℝ) : p.getLength = .ok ((ringsOf p).map lineLength).sum ∧
    (List.Forall₂ (fun a b => a = b ∨ a = b.reverse) (ringsOf p) (ringsOf q) → p.getLength = q.getLength) := by
  have main : ∀ p : Polygon ℝ, p.getLength = .ok ((ringsOf p).map lineLength).sum := by
    intro p
    have hs : p.shell.getLength = .ok (lineLength p.shell.points.coordinates) := C35_exact _
    rw [Polygon.getLength, hs, Res.bind_ok, forRange_foldl_mem p.holes _ (fun s t => s + lineLength t.points.coordinates) _ (by
      intro k hk s
      rw [Res.get_lt hk, Res.bind_ok, show p.holes[k].getLength = .ok (lineLength p.holes[k].points.coordinates) from C35_exact _]
      rfl), foldl_real p.holes (fun t => lineLength t.points.coordinates)]
    simp [ringsOf, Function.comp_def]
  refine ⟨main p, ?_⟩
  intro h
  rw [main p, main q]
  congr 2
  generalize ringsOf p = as at h ⊢
  generalize ringsOf q = bs at h ⊢
  induction h with
  | nil => rfl
  | cons h1 _ ih =>
    rw [List.map_cons, List.map_cons, ih]
    rcases h1 with rfl | rfl
    · rfl
    · rw [lineLength_reverse]

/-! ## Cases -/

section cases
local instance : Flt ℚ := exactFlt ℚ

/-- A ring of rational points. -/
def ratRing (l : List (ℚ × ℚ)) : LinearRing ℚ :=
  ⟨CASeq.ofCoordinates (l.map (fun p => Coord.xy p.1 p.2)), none, none⟩

/-- A polygon of rational points. -/
def ratPolygon (s : List (ℚ × ℚ)) (hs : List (List (ℚ × ℚ))) : Polygon ℚ := ⟨ratRing s, hs.map ratRing, none, none⟩

theorem ratPolygon_closed (s : List (ℚ × ℚ)) (hs : List (List (ℚ × ℚ))) (h : ∀ r ∈ s :: hs, r.head? = r.getLast?) :
    ∀ r ∈ ringsOf (ratPolygon s hs), Closed2D r := by
  intro r hr
  have : r ∈ (s :: hs).map (fun l => l.map (fun p : ℚ × ℚ => (Coord.xy p.1 p.2 : Coord ℚ))) := by
    simpa [ringsOf, ratPolygon, ratRing, CASeq.ofCoordinates, Function.comp_def] using hr
  obtain ⟨l, hl, rfl⟩ := List.mem_map.mp this
  intro a b ha hb
  rw [List.head?_map] at ha
  rw [List.getLast?_map, ← h l hl] at hb
  rw [ha] at hb
  cases hb
  exact ⟨rfl, rfl⟩

/-- C69: nothing keeps the holes inside the shell: with a hole larger than the shell the area is negative. -/
theorem C69_negative_area : (ratPolygon [(0,0),(2,0),(2,2),(0,2),(0,0)] [[(0,0),(3,0),(3,3),(0,3),(0,0)]]).getArea = .ok (-5) := by
  rw [C69_area _ (ratPolygon_closed _ _ (by decide))]
  norm_num [ringsOf, ratPolygon, ratRing, CASeq.ofCoordinates, ringsArea, ringArea, shoelace, segs, Coord.xy, abs_of_pos, abs_of_neg]

/-- A square with a triangular hole. -/
example : (ratPolygon [(0,0),(4,0),(4,4),(0,4),(0,0)] [[(1,1),(1,2),(2,1),(1,1)]]).getArea = .ok (31 / 2) := by
  rw [C69_area _ (ratPolygon_closed _ _ (by decide))]
  norm_num [ringsOf, ratPolygon, ratRing, CASeq.ofCoordinates, ringsArea, ringArea, shoelace, segs, Coord.xy, abs_of_pos, abs_of_neg]

/-- Two triangles. -/
example : (⟨[ratPolygon [(0,0),(1,0),(0,1),(0,0)] [], ratPolygon [(5,5),(5,9),(9,5),(5,5)] []], none, none⟩ : MultiPolygon ℚ).getArea =
    .ok (17 / 2) := by
  rw [C69_multi_area]
  · norm_num [ringsOf, ratPolygon, ratRing, CASeq.ofCoordinates, ringsArea, ringArea, shoelace, segs, Coord.xy, abs_of_pos, abs_of_neg]
  · intro p hp
    simp only [List.mem_cons, List.not_mem_nil, or_false] at hp
    rcases hp with rfl | rfl
    · exact ratPolygon_closed _ _ (by decide)
    · exact ratPolygon_closed _ _ (by decide)

/-- The triangle started elsewhere and traversed backwards. -/
example : SameRing (ratRing [(0,0),(1,0),(0,1),(0,0)]).points.coordinates (ratRing [(0,1),(1,0),(0,0),(0,1)]).points.coordinates :=
  ⟨[Coord.xy 0 0, Coord.xy 1 0, Coord.xy 0 1], 2, rfl, Or.inr rfl⟩

end cases

/-- A triangle with sides 3, 4 and 5. -/
example : (⟨⟨CASeq.ofCoordinates [Coord.xy 0 0, Coord.xy 3 0, Coord.xy 3 4, Coord.xy 0 0], none, none⟩, [], none, none⟩ : Polygon ℝ).getLength =
    .ok 12 := by
  rw [(C69_length _ (⟨⟨CASeq.ofCoordinates [], none, none⟩, [], none, none⟩)).1]
  have h1 : Real.sqrt 9 = 3 := by rw [show (9 : ℝ) = 3 ^ 2 by norm_num]; exact Real.sqrt_sq (by norm_num)
  have h2 : Real.sqrt 16 = 4 := by rw [show (16 : ℝ) = 4 ^ 2 by norm_num]; exact Real.sqrt_sq (by norm_num)
  have h3 : Real.sqrt 25 = 5 := by rw [show (25 : ℝ) = 5 ^ 2 by norm_num]; exact Real.sqrt_sq (by norm_num)
  norm_num [ringsOf, CASeq.ofCoordinates, lineLength, segs, Coord.xy, Spec.dist, h1, h2, h3]

end Verif.Props
