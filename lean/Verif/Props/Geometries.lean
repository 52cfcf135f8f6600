import Verif.Props.LineString
import Verif.Props.Envelope
import Verif.Props.EqualsExact

/-!
# C50: copies, reversals and coordinate lists of geometries; C51: cached envelopes
-/

set_option linter.unusedSectionVars false

namespace Verif.Props
open Flt Verif.Spec
variable {α : Type} [Flt α]

/-! ## C50: coordinates -/

/-- Writing a list into the free places of a vector. -/
theorem writeAll_fill (P src : List (Coord α)) (n : Nat) (d : Coord α) (h : src.length ≤ n) :
    Polygon.writeAll (P ++ List.replicate n d) P.length src = .ok (P ++ src ++ List.replicate (n - src.length) d, P.length + src.length) := by
  have key := forRange_closed (σ := List (Coord α) × Nat) 0 src.length (fun j st => do
      let c ← Res.get src j
      let l ← Res.set st.1 st.2 c
      pure (l, st.2 + 1))
    (fun k => (P ++ src.take k ++ List.replicate (n - k) d, P.length + k)) (by omega) (by
      intro i _ hi
      dsimp only
      rw [Res.get_lt hi, Res.bind_ok, Res.set_lt (by simp; omega), Res.bind_ok, Res.pure_eq,
        set_fill (P ++ src.take i) (n - i) (P.length + i) d src[i] (by simp; omega) (by omega), take_succ' _ _ hi]
      simp only [List.append_assoc, Nat.add_assoc, Nat.sub_sub])
  simpa [Polygon.writeAll] using key

/-- C50: the number of points of a polygon is that of all its rings together. -/
theorem C50_num_points (p : Polygon α) : p.getNumPoints = .ok (ringsOf p).flatten.length := by
  rw [Polygon.getNumPoints, forRange_foldl p.holes 0 p.holes.length (by omega) _ (fun n h => n + h.getNumPoints) (by
    intro k hk s
    rw [Nat.zero_add, Res.get_lt hk]; rfl)]
  congr 1
  have e : ∀ (l : List (LinearRing α)) n, l.foldl (fun n h => n + h.getNumPoints) n = n + (l.map (·.points.coordinates)).flatten.length := by
    intro l
    induction l with
    | nil => intro n; simp
    | cons a l ih => intro n; rw [List.foldl_cons, ih, List.map_cons, List.flatten_cons, List.length_append, Nat.add_assoc]; rfl
  rw [e, ringsOf, List.flatten_cons, List.length_append]; rfl

/-- C50: the coordinates of a polygon with a shell are those of its rings, the shell first, each once and in order. -/
theorem C50_coordinates_partial (p : Polygon α) (h : p.shell.points.coordinates ≠ []) :
    p.getCoordinates = .ok (ringsOf p).flatten := by
  have he : p.isEmpty = false := by
    rw [Polygon.isEmpty, LinearRing.isEmpty, decide_eq_false_iff_not]
    intro c; exact h (List.eq_nil_of_length_eq_zero c)
  rw [Polygon.getCoordinates, he, if_neg (by simp), C50_num_points, Res.bind_ok]
  obtain ⟨N, hN⟩ : ∃ N, N = (ringsOf p).flatten.length := ⟨_, rfl⟩
  rw [← hN]
  have hN' : N = p.shell.points.coordinates.length + (p.holes.map (·.points.coordinates)).flatten.length := by
    rw [hN, ringsOf, List.flatten_cons, List.length_append]
  have w := writeAll_fill [] p.shell.points.coordinates N Coord.default (by omega)
  rw [List.nil_append, List.length_nil, Nat.zero_add] at w
  rw [show p.shell.getCoordinates = p.shell.points.coordinates from rfl, w, Res.bind_ok]
  obtain ⟨pre, hpre⟩ : ∃ pre : Nat → List (Coord α), pre = fun k => p.shell.points.coordinates ++ ((p.holes.take k).map (·.points.coordinates)).flatten :=
    ⟨_, rfl⟩
  have hlen : ∀ k, k ≤ p.holes.length → (pre k).length ≤ N := by
    intro k _
    have : ((p.holes.map (·.points.coordinates)).flatten).length =
        (((p.holes.take k).map (·.points.coordinates)).flatten).length + (((p.holes.drop k).map (·.points.coordinates)).flatten).length := by
      rw [← List.length_append, ← List.flatten_append, ← List.map_append, List.take_append_drop]
    rw [hpre]; simp only [List.length_append]; omega
  have hstep : ∀ k (hk : k < p.holes.length), pre (k + 1) = pre k ++ p.holes[k].points.coordinates := by
    intro k hk
    rw [hpre]; dsimp only
    rw [take_succ' _ _ hk, List.map_append, List.flatten_append, List.append_assoc]; simp
  have key := forRange_closed (σ := List (Coord α) × Nat) 0 p.holes.length (fun i st => do
      let h ← Res.get p.holes i
      Polygon.writeAll st.1 st.2 h.getCoordinates)
    (fun k => (pre k ++ List.replicate (N - (pre k).length) Coord.default, (pre k).length)) (by omega) (by
      intro i _ hi
      dsimp only
      have h1 := hlen (i + 1) (by omega)
      rw [hstep i hi, List.length_append] at h1
      rw [Res.get_lt hi, Res.bind_ok, show p.holes[i].getCoordinates = p.holes[i].points.coordinates from rfl,
        writeAll_fill _ _ _ _ (by omega), hstep i hi, List.length_append]
      congr 3
      congr 1
      omega)
  have h0 : pre 0 = p.shell.points.coordinates := by rw [hpre]; simp
  rw [h0] at key
  rw [List.nil_append, key, Res.bind_ok]
  dsimp only
  have hend : pre p.holes.length = (ringsOf p).flatten := by rw [hpre]; simp [ringsOf]
  rw [hend, ← hN, Nat.sub_self]; simp

/-- C50: a polygon with an empty shell has no coordinates, but its number of points still counts those of the holes. -/
theorem C50_empty_shell (p : Polygon α) (h : p.shell.points.coordinates = []) :
    p.getCoordinates = .ok [] ∧ p.getNumPoints = .ok (p.holes.map (·.points.coordinates)).flatten.length := by
  refine ⟨?_, ?_⟩
  · rw [Polygon.getCoordinates, if_pos]
    · rfl
    · simp [Polygon.isEmpty, LinearRing.isEmpty, CASeq.size, h]
  · rw [C50_num_points, ringsOf, h]; simp

/-- C50: the coordinates of a collection of points are those of its points in order, if none of them is empty; then their number is
the number of points. -/
theorem C50_multi_point_coordinates_partial (m : MultiPoint α) (cs : List (Coord α))
    (h : m.points.map (·.coordinates.coordinates) = cs.map (fun c => [c])) :
    m.getCoordinates = .ok cs ∧ m.getNumPoints = cs.length := by
  have hl : m.points.length = cs.length := by simpa using congrArg List.length h
  refine ⟨?_, hl⟩
  have hp : ∀ i (a : i < m.points.length) (b : i < cs.length), m.points[i].getCoordinates = .ok [cs[i]] := by
    intro i a b
    have e : m.points[i].coordinates.coordinates = [cs[i]] := by
      have h1 : (m.points.map (·.coordinates.coordinates))[i]'(by simpa using a) = (cs.map (fun c => [c]))[i]'(by simpa using b) := by
        congr 1
      simpa using h1
    simp [Point.getCoordinates, Point.isEmpty, Point.getCoordinate, CASeq.size, CASeq.getCoordinate, e, Res.get, Res.unwrap]
  have key := forRange_closed (σ := List (Coord α) × Nat) 0 m.points.length (fun i st => do
      let p ← Res.get m.points i
      let cs ← p.getCoordinates
      Polygon.writeAll st.1 st.2 cs)
    (fun k => (cs.take k ++ List.replicate (m.points.length - k) Coord.default, k)) (by omega) (by
      intro i _ hi
      dsimp only
      have hi' : i < cs.length := by omega
      rw [Res.get_lt hi, Res.bind_ok, hp i hi hi', Res.bind_ok]
      have := writeAll_fill (cs.take i) [cs[i]] (m.points.length - i) Coord.default (by simp; omega)
      have e : (cs.take i).length = i := by simp; omega
      rw [e] at this
      rw [this, take_succ' _ _ hi', List.length_singleton, Nat.sub_sub])
  simp only [List.take_zero, List.nil_append, Nat.sub_zero] at key
  rw [MultiPoint.getCoordinates, show m.getNumPoints = m.points.length from rfl, key, Res.bind_ok]
  simp [hl]

/-! ## C50: copies -/

/-- C50: a copy of a line, ring, point or polygon has the same coordinates, dimension and measures in every place. It has no cached
envelope and no precision model. -/
theorem C50_copy (l : LineString α) (r : LinearRing α) (p : Polygon α) (q : Point α) (hq : q.coordinates.size ≤ 1) :
    l.copy = { l with envelope := none } ∧
    r.copy = .ok { r with envelope := none, precisionModel := none } ∧
    p.copy = .ok ⟨⟨p.shell.points, none, none⟩, p.holes.map (fun h => ⟨h.points, none, none⟩), none, none⟩ ∧
    q.copy = .ok { q with envelope := none, precisionModel := none } := by
  refine ⟨rfl, ringCopy r, ?_, ?_⟩
  · rw [Polygon.copy, ringCopy, Res.bind_ok, forRange_foldl p.holes 0 p.holes.length (by omega) _
      (fun hs h => hs ++ [⟨h.points, none, none⟩]) (by
        intro k hk s
        rw [Nat.zero_add, Res.get_lt hk, Res.bind_ok, ringCopy]; rfl), Res.bind_ok, ofRings_eq]
    congr 2
    have e : ∀ (l acc : List (LinearRing α)), l.foldl (fun hs h => hs ++ [⟨h.points, none, none⟩]) acc = acc ++ l.map (fun h => ⟨h.points, none, none⟩) := by
      intro l
      induction l with
      | nil => simp
      | cons a l ih => intro acc; rw [List.foldl_cons, ih]; simp
    rw [e, List.nil_append]
  · rw [Point.copy, Point.ofSeq, casCopy, decide_eq_true hq]; rfl

theorem forRange_empty_set {A B : Type} (l : List A) (h : l ≠ []) (f : A → Res B) :
    ∃ e, forRange 0 l.length ([] : List B) (fun i bs => do
      let a ← Res.get l i
      let b ← f a
      Res.set bs i b) = .error e := by
  have hl : 0 < l.length := List.length_pos_iff.mpr h
  rw [forRange_first _ _ hl, Res.get_lt hl, Res.bind_ok]
  cases hf : f l[0] with
  | error e => exact ⟨e, rfl⟩
  | ok b => exact ⟨.index, by rw [Res.bind_ok, Res.set_ge (by simp)]; rfl⟩

/-- C50: copying any collection that is not empty panics. -/
theorem C50_collections_never_copied (m : MultiPoint α) (l : MultiLineString α) (p : MultiPolygon α) :
    (m.points ≠ [] → ∃ e, m.copy = .error e) ∧ (l.lineStrings ≠ [] → ∃ e, l.copy = .error e) ∧
    (p.polygons ≠ [] → ∃ e, p.copy = .error e) := by
  refine ⟨fun h => ?_, fun h => ?_, fun h => ?_⟩
  · obtain ⟨e, he⟩ := forRange_empty_set m.points h Point.copy
    exact ⟨e, by rw [MultiPoint.copy, he]; rfl⟩
  · obtain ⟨e, he⟩ := forRange_empty_set l.lineStrings h (fun l => .ok l.copy)
    refine ⟨e, ?_⟩
    rw [MultiLineString.copy]
    simp only [Res.bind_ok] at he
    rw [he]; rfl
  · obtain ⟨e, he⟩ := forRange_empty_set p.polygons h Polygon.copy
    exact ⟨e, by rw [MultiPolygon.copy, he]; rfl⟩

/-! ## C50: reversals -/

/-- C50: the reversal of a ring without measures lists its coordinates in the opposite order and keeps the cached envelope. -/
theorem C50_reverse_ring_partial (r : LinearRing α) (hu : Unmeasured r.points) :
    r.reverse = .ok ⟨{ r.points with coordinates := r.points.coordinates.reverse }, none, r.envelope⟩ := by
  rw [LinearRing.reverse, LinearRing.reverseInternal, casCopy, hu.reverse, Res.bind_ok, ringOfSeq, Res.bind_ok]
  cases r.envelope <;> rfl

/-- C50: the reversal of a polygon without holes reverses its shell; a polygon with holes cannot be reversed: it panics. -/
theorem C50_reverse_polygon_partial (p : Polygon α) (hu : Unmeasured p.shell.points) :
    (p.holes = [] → p.reverse = .ok
      ⟨⟨{ p.shell.points with coordinates := p.shell.points.coordinates.reverse }, none, none⟩, [], none, p.envelope⟩) ∧
    (p.holes ≠ [] → ∃ e, p.reverse = .error e) := by
  have hs : p.getExteriorRing >>= LinearRing.reverse =
      .ok ⟨{ p.shell.points with coordinates := p.shell.points.coordinates.reverse }, none, none⟩ := by
    rw [Polygon.getExteriorRing, ringCopy, Res.bind_ok, C50_reverse_ring_partial (⟨p.shell.points, none, none⟩ : LinearRing α) hu]
  refine ⟨fun h => ?_, fun h => ?_⟩
  · rw [Polygon.reverse, Polygon.reverseInternal, ← bind_assoc, hs, Res.bind_ok, Polygon.getNumInteriorRing, h, List.length_nil,
      forRange_self _ _ (Nat.le_refl _), Res.bind_ok, ofRings_eq, Res.bind_ok]
    cases p.envelope <;> rfl
  · obtain ⟨e, he⟩ := forRange_empty_set p.holes h (fun h => do let c ← h.copy; c.reverse)
    refine ⟨e, ?_⟩
    rw [Polygon.reverse, Polygon.reverseInternal, ← bind_assoc, hs, Res.bind_ok, Polygon.getNumInteriorRing]
    simp only [Polygon.getInteriorRing, bind_assoc] at he ⊢
    rw [he]; rfl

/-- C50: reversing a ring or a polygon without holes twice gives its coordinates back. -/
theorem C50_reverse_twice_partial (r : LinearRing α) (p : Polygon α) (hr : Unmeasured r.points) (hp : Unmeasured p.shell.points) (hh : p.holes = []) :
    (r.reverse >>= LinearRing.reverse) = .ok { r with precisionModel := none } ∧
    (∃ q, (p.reverse >>= Polygon.reverse) = .ok q ∧ q.shell.points = p.shell.points ∧ q.holes = p.holes ∧ q.envelope = p.envelope) := by
  refine ⟨?_, ?_⟩
  · rw [C50_reverse_ring_partial r hr, Res.bind_ok, C50_reverse_ring_partial _ hr.flip]
    simp
  · rw [(C50_reverse_polygon_partial p hp).1 hh, Res.bind_ok, (C50_reverse_polygon_partial _ hp.flip).1 rfl]
    exact ⟨_, rfl, by simp, by simp [hh], rfl⟩

/-- C50: reversing a collection of points or polygons that is not empty panics; the reversal of a collection of lines has no lines. -/
theorem C50_collections_never_reversed (m : MultiPoint α) (l : MultiLineString α) (p : MultiPolygon α) :
    (m.points ≠ [] → ∃ e, m.reverse = .error e) ∧ (∃ k, l.reverse = .ok k ∧ k.lineStrings = []) ∧
    (p.polygons ≠ [] → ∃ e, p.reverse = .error e) := by
  refine ⟨fun h => ?_, ?_, fun h => ?_⟩
  · obtain ⟨e, he⟩ := (C50_collections_never_copied m l p).1 h
    exact ⟨e, by rw [MultiPoint.reverse, he]; rfl⟩
  · rw [MultiLineString.reverse, MultiLineString.reverseInternal]
    cases h : l.envelope with
    | none => exact ⟨_, rfl, rfl⟩
    | some e => exact ⟨_, rfl, rfl⟩
  · obtain ⟨e, he⟩ := forRange_empty_set p.polygons h Polygon.reverse
    exact ⟨e, by rw [MultiPolygon.reverse, he]; rfl⟩

/-- C50: `normalize` of a polygon changes none of its rings (it only panics on some): the work is done on copies. -/
theorem C50_normalize_no_effect (p q : Polygon α) (h : p.selfNormalize = .ok q) : ringsOf q = ringsOf p := by
  have hn : ∀ (r r' : LinearRing α) b, Polygon.normalized r b = .ok r' → r'.points = r.points := by
    intro r r' b hr
    rw [Polygon.normalized, ringCopy, Res.bind_ok] at hr
    cases hx : Polygon.normalizeRing (⟨r.points, none, none⟩ : LinearRing α) b with
    | error e => rw [hx] at hr; cases hr
    | ok u => rw [hx] at hr; injection hr with hr; rw [← hr]
  rw [Polygon.selfNormalize] at h
  cases hs : Polygon.normalized p.shell true with
  | error e => rw [hs] at h; cases h
  | ok s =>
    rw [hs, Res.bind_ok] at h
    have hs' := hn _ _ _ hs
    have key : ∀ k, k ≤ p.holes.length → ∀ q, forRange 0 k { p with shell := s } (fun i q => do
        let h ← Res.get q.holes i
        let h' ← Polygon.normalized h false
        let hs ← Res.set q.holes i h'
        pure { q with holes := hs }) = .ok q → ringsOf q = ringsOf p ∧ q.holes.length = p.holes.length := by
      intro k
      induction k with
      | zero =>
        intro _ q hq
        rw [forRange_self _ _ (Nat.le_refl _)] at hq
        injection hq with hq
        rw [← hq]; exact ⟨by simp [ringsOf, hs'], rfl⟩
      | succ k ih =>
        intro hk q hq
        rw [forRange_succ _ _ (by omega)] at hq
        cases hr : forRange 0 k { p with shell := s } (fun i q => do
            let h ← Res.get q.holes i
            let h' ← Polygon.normalized h false
            let hs ← Res.set q.holes i h'
            pure { q with holes := hs }) with
        | error e => rw [hr] at hq; cases hq
        | ok q1 =>
          obtain ⟨i1, i2⟩ := ih (by omega) q1 hr
          rw [hr, Res.bind_ok, Res.get_lt (by omega), Res.bind_ok] at hq
          cases hx : Polygon.normalized (q1.holes[k]'(by omega)) false with
          | error e => rw [hx] at hq; cases hq
          | ok h' =>
            rw [hx, Res.bind_ok, Res.set_lt (by omega), Res.bind_ok] at hq
            injection hq with hq
            rw [← hq]
            refine ⟨?_, by simpa using i2⟩
            rw [← i1]
            simp only [ringsOf, List.map_set, hn _ _ _ hx]
            congr 1
            apply List.ext_getElem
            · simp
            · intro i a b
              rw [List.getElem_set]
              split_ifs with e
              · subst e; simp
              · rfl
    exact (key _ (Nat.le_refl _) q h).1

/-! ## C51: cached envelopes -/

section cache
variable [FltOrd α] [FltLit α]

theorem compute_line (l : LineString α) : l.computeEnvelope = envOf l.points.coordinates := by
  rw [LineString.computeEnvelope]
  split_ifs with h
  · have : l.points.coordinates = [] := by
      rw [LineString.isEmpty, decide_eq_true_eq] at h
      exact List.eq_nil_of_length_eq_zero h
    rw [this]; rfl
  · rfl

theorem compute_ring (r : LinearRing α) : r.computeEnvelope = envOf r.points.coordinates := by
  rw [LinearRing.computeEnvelope]
  split_ifs with h
  · have : r.points.coordinates = [] := by
      rw [LinearRing.isEmpty, decide_eq_true_eq] at h
      exact List.eq_nil_of_length_eq_zero h
    rw [this]; rfl
  · rfl

/-- A cached envelope is absent or that of the coordinates in some order. -/
def Fresh (cache : Option (Env α)) (cs : List (Coord α)) : Prop := ∀ e, cache = some e → ∃ ps, ps.Perm cs ∧ e = envOf ps

theorem Fresh.ring {r : LinearRing α} (h : Fresh r.envelope r.points.coordinates) :
    (∃ ps, ps.Perm r.points.coordinates ∧ r.getEnvelope.1 = envOf ps) ∧ Fresh r.getEnvelope.2.envelope r.points.coordinates ∧
    r.getEnvelope.2.points = r.points := by
  rw [LinearRing.getEnvelope]
  cases he : r.envelope with
  | none =>
    dsimp only
    rw [compute_ring]
    refine ⟨⟨_, List.Perm.refl _, rfl⟩, ?_, rfl⟩
    intro e h'; injection h' with h'; exact ⟨_, List.Perm.refl _, h'.symm⟩
  | some e =>
    dsimp only
    refine ⟨h e he, ?_, rfl⟩
    exact h

/-- What one may do to a ring or polygon. -/
inductive GeoOp | query | copy | reverse

def ringStep (r : LinearRing α) : GeoOp → Res (LinearRing α)
  | .query => .ok r.getEnvelope.2
  | .copy => r.copy
  | .reverse => r.reverse

def polygonStep (p : Polygon α) : GeoOp → Res (Polygon α)
  | .query => .ok p.getEnvelope.2
  | .copy => p.copy
  | .reverse => p.reverse

/-- C51: through any history of envelope queries, copies and reversals of a ring of numbers without measures, no step panics and the
envelope returned next is the one computed from the coordinates. -/
theorem C51_ring_partial (s : CASeq α) (hu : Unmeasured s) (h : ∀ c ∈ s.coordinates, c.NN) (ops : List GeoOp) :
    ∃ r, (LinearRing.ofSeq s >>= fun r => ops.foldlM ringStep r) = .ok r ∧
      r.getEnvelope.1.equals r.computeEnvelope = true ∧ r.getEnvelope.1.equals (envOf s.coordinates) = true := by
  rw [ringOfSeq, Res.bind_ok]
  have key : ∀ (ops : List GeoOp) (r : LinearRing α), Unmeasured r.points → r.points.coordinates.Perm s.coordinates →
      Fresh r.envelope r.points.coordinates → ∃ r', ops.foldlM ringStep r = .ok r' ∧ r'.points.coordinates.Perm s.coordinates ∧
        Fresh r'.envelope r'.points.coordinates := by
    intro ops
    induction ops with
    | nil => intro r _ h2 h3; exact ⟨r, rfl, h2, h3⟩
    | cons o ops ih =>
      intro r h1 h2 h3
      rw [List.foldlM_cons]
      cases o with
      | query =>
        obtain ⟨-, a, b⟩ := h3.ring
        rw [ringStep, Res.bind_ok]
        exact ih _ (b ▸ h1) (b ▸ h2) (by rw [b]; exact a)
      | copy =>
        rw [ringStep, ringCopy, Res.bind_ok]
        exact ih _ h1 h2 (fun e he => by cases he)
      | reverse =>
        rw [ringStep, C50_reverse_ring_partial r h1, Res.bind_ok]
        refine ih _ h1.flip ((List.reverse_perm _).trans h2) ?_
        intro e he
        obtain ⟨ps, p1, p2⟩ := h3 e he
        exact ⟨ps, p1.trans (List.reverse_perm _).symm, p2⟩
  obtain ⟨r, h1, h2, h3⟩ := key ops ⟨s, none, none⟩ hu (List.Perm.refl _) (fun e he => by cases he)
  refine ⟨r, h1, ?_⟩
  obtain ⟨⟨ps, a, b⟩, -⟩ := h3.ring
  have hps : ∀ c ∈ ps, c.NN := fun c hc => h c (h2.mem_iff.mp (a.mem_iff.mp hc))
  rw [b, compute_ring]
  exact ⟨C02_perm _ _ hps a, C02_perm _ _ hps (a.trans h2)⟩

/-- C51: the same for polygons whose shell consists of numbers: whenever the history does not panic (reversing panics on holes), the
envelope returned next is the one computed from the shell. -/
theorem C51_polygon_partial (shell : LinearRing α) (holes : List (LinearRing α)) (pm : Option (PM α)) (hu : Unmeasured shell.points)
    (h : ∀ c ∈ shell.points.coordinates, c.NN) (ops : List GeoOp) (p : Polygon α)
    (hp : (Polygon.ofRings shell holes pm >>= fun p => ops.foldlM polygonStep p) = .ok p) :
    p.getEnvelope.1.equals (envOf p.shell.points.coordinates) = true ∧ p.getEnvelope.1.equals (envOf shell.points.coordinates) = true := by
  rw [ofRings_eq, Res.bind_ok] at hp
  have key : ∀ (ops : List GeoOp) (p q : Polygon α), Unmeasured p.shell.points → p.shell.points.coordinates.Perm shell.points.coordinates →
      Fresh p.shell.envelope p.shell.points.coordinates → Fresh p.envelope p.shell.points.coordinates →
      ops.foldlM polygonStep p = .ok q → q.shell.points.coordinates.Perm shell.points.coordinates ∧
        Fresh q.shell.envelope q.shell.points.coordinates ∧ Fresh q.envelope q.shell.points.coordinates := by
    intro ops
    induction ops with
    | nil => intro p q _ h2 h3 h4 e; injection e with e; subst e; exact ⟨h2, h3, h4⟩
    | cons o ops ih =>
      intro p q h1 h2 h3 h4 e
      rw [List.foldlM_cons] at e
      cases o with
      | query =>
        rw [polygonStep, Res.bind_ok] at e
        obtain ⟨⟨ps, a1, a2⟩, b, c⟩ := h3.ring
        rw [Polygon.getEnvelope] at e
        cases he : p.envelope with
        | none =>
          rw [he] at e
          simp only [Polygon.computeEnvelope] at e
          refine ih _ q ?_ ?_ ?_ ?_ e
          · dsimp only; rw [c]; exact h1
          · dsimp only; rw [c]; exact h2
          · dsimp only; rw [c]; exact b
          · dsimp only; rw [c]; intro e' he'; injection he' with he'; exact ⟨ps, a1, by rw [← he', a2]⟩
        | some e' => rw [he] at e; exact ih p q h1 h2 h3 h4 e
      | copy =>
        rw [polygonStep, (C50_copy ⟨p.shell.points, none⟩ p.shell p Point.default (Nat.zero_le 1)).2.2.1, Res.bind_ok] at e
        exact ih ⟨⟨p.shell.points, none, none⟩, _, none, none⟩ q h1 h2 (fun e he => by cases he) (fun e he => by cases he) e
      | reverse =>
        rw [polygonStep] at e
        by_cases hh : p.holes = []
        · rw [(C50_reverse_polygon_partial p h1).1 hh, Res.bind_ok] at e
          refine ih _ q h1.flip ((List.reverse_perm _).trans h2) (fun e he => by cases he) ?_ e
          intro e' he'
          obtain ⟨ps, p1, p2⟩ := h4 e' he'
          exact ⟨ps, p1.trans (List.reverse_perm _).symm, p2⟩
        · obtain ⟨x, hx⟩ := (C50_reverse_polygon_partial p h1).2 hh
          rw [hx] at e; cases e
  obtain ⟨h2, h3, h4⟩ := key ops _ p hu (List.Perm.refl _) (fun e he => by cases he) (fun e he => by cases he) hp
  have fin : ∀ ps : List (Coord α), ps.Perm p.shell.points.coordinates →
      (envOf ps).equals (envOf p.shell.points.coordinates) = true ∧ (envOf ps).equals (envOf shell.points.coordinates) = true := by
    intro ps a
    have hps : ∀ c ∈ ps, c.NN := fun c hc => h c (h2.mem_iff.mp (a.mem_iff.mp hc))
    exact ⟨C02_perm _ _ hps a, C02_perm _ _ hps (a.trans h2)⟩
  rw [Polygon.getEnvelope]
  cases he : p.envelope with
  | none =>
    dsimp only [Polygon.computeEnvelope]
    obtain ⟨⟨ps, a, b⟩, -⟩ := h3.ring
    rw [b]; exact fin ps a
  | some e =>
    obtain ⟨ps, a, b⟩ := h4 e he
    dsimp only
    rw [b]; exact fin ps a

theorem expandEnv_point (e : Env α) (c : Coord α) : e.expandToIncludeEnv ⟨c.x, c.x, c.y, c.y⟩ = e.expandToInclude c := by
  have hn : (⟨c.x, c.x, c.y, c.y⟩ : Env α).isNull = false := by simp [Env.isNull, lt_eq]
  unfold Env.expandToIncludeEnv Env.expandToInclude
  rw [hn]
  simp only [Bool.false_eq_true, if_false]

/-- The cache of a point with the coordinates `cs` is absent or right. -/
def PointFresh (p : Point α) : Prop := p.coordinates.size ≤ 1 ∧ ∀ e, p.envelope = some e → e = envOf p.coordinates.coordinates

theorem point_query (p : Point α) (h : PointFresh p) : ∃ p', p.getEnvelope = .ok (envOf p.coordinates.coordinates, p') ∧
    p'.coordinates = p.coordinates ∧ PointFresh p' := by
  have hc : p.computeEnvelope = .ok (envOf p.coordinates.coordinates) := by
    obtain ⟨⟨d, m, cs⟩, env, pm⟩ := p
    have := h.1
    cases cs with
    | nil => rfl
    | cons c cs => cases cs with
      | nil => rfl
      | cons c' cs => simp [CASeq.size] at this
  rw [Point.getEnvelope]
  cases he : p.envelope with
  | none =>
    dsimp only
    rw [hc, Res.bind_ok]
    exact ⟨_, rfl, rfl, h.1, fun e h' => by injection h' with h'; exact h'.symm⟩
  | some e =>
    dsimp only
    rw [h.2 e he]
    exact ⟨p, rfl, rfl, h⟩

/-- C51: the envelope of a collection of points is that of all its coordinates, whatever envelopes were asked for before: of the
collection or of single points. -/
theorem C51_multi_point (m : MultiPoint α) (hp : ∀ p ∈ m.points, PointFresh p)
    (hm : ∀ e, m.envelope = some e → e = envOf (m.points.flatMap (·.coordinates.coordinates))) :
    ∃ m', m.getEnvelope = .ok (envOf (m.points.flatMap (·.coordinates.coordinates)), m') ∧
      m'.points.map (·.coordinates) = m.points.map (·.coordinates) ∧ (∀ p ∈ m'.points, PointFresh p) ∧
      m'.envelope = some (envOf (m.points.flatMap (·.coordinates.coordinates))) := by
  have key := forRange_inv 0 m.points.length (fun i (st : Env α × MultiPoint α) => do
      let p ← Res.get st.2.points i
      let r ← p.getEnvelope
      let ps ← Res.set st.2.points i r.2
      pure (st.1.expandToIncludeEnv r.1, { st.2 with points := ps }))
    (fun k st => st.1 = envOf ((m.points.take k).flatMap (·.coordinates.coordinates)) ∧
      st.2.points.map (·.coordinates) = m.points.map (·.coordinates) ∧ (∀ p ∈ st.2.points, PointFresh p)) (by omega) (Env.null, m)
    ⟨rfl, rfl, hp⟩ (by
      rintro i ⟨e, n⟩ - hi ⟨h1, h2, h3⟩
      dsimp only at h1 h2 h3
      have hl : n.points.length = m.points.length := by simpa using congrArg List.length h2
      have hi' : i < n.points.length := by omega
      have hc : n.points[i].coordinates = m.points[i].coordinates := by
        have : (n.points.map (·.coordinates))[i]'(by simpa using hi') = (m.points.map (·.coordinates))[i]'(by simpa using hi) := by congr 1
        simpa using this
      obtain ⟨p', a, b, c⟩ := point_query n.points[i] (h3 _ (List.getElem_mem hi'))
      dsimp only
      rw [Res.get_lt hi', Res.bind_ok, a, Res.bind_ok, Res.set_lt hi', Res.bind_ok]
      refine ⟨_, rfl, ?_, ?_, ?_⟩
      · dsimp only
        rw [take_succ' _ _ hi, List.flatMap_append, h1, hc]
        have hs := (h3 _ (List.getElem_mem hi')).1
        rw [hc] at hs
        obtain ⟨pre, hpre⟩ : ∃ pre, pre = (m.points.take i).flatMap (·.coordinates.coordinates) := ⟨_, rfl⟩
        rw [← hpre]
        simp only [List.flatMap_cons, List.flatMap_nil, List.append_nil]
        cases hcs : m.points[i].coordinates.coordinates with
        | nil =>
          rw [List.append_nil]
          show (envOf pre).expandToIncludeEnv Env.null = _
          rw [Env.expandToIncludeEnv, Env.null_isNull, if_pos rfl]
        | cons c cs => cases cs with
          | nil =>
            have e1 : envOf [c] = ⟨c.x, c.x, c.y, c.y⟩ := by
              show Env.null.expandToInclude c = _
              rw [Env.expandToInclude, Env.null_isNull, if_pos rfl]
            rw [e1, expandEnv_point, envOf, envOf, List.foldl_append]; rfl
          | cons c' cs => rw [CASeq.size, hcs] at hs; simp at hs
      · dsimp only
        rw [List.map_set, b, hc, h2]
        apply List.ext_getElem
        · simp
        · intro j a b
          rw [List.getElem_set]
          split_ifs with e
          · subst e; simp
          · rfl
      · intro p hp'
        rcases List.mem_or_eq_of_mem_set hp' with h | h
        · exact h3 p h
        · exact h ▸ c)
  obtain ⟨st, k1, k2, k3, k4⟩ := key
  rw [List.take_length] at k2
  rw [MultiPoint.getEnvelope]
  cases he : m.envelope with
  | none =>
    dsimp only
    rw [MultiPoint.computeEnvelope, k1, Res.bind_ok, k2]
    exact ⟨_, rfl, k3, k4, rfl⟩
  | some e =>
    dsimp only
    rw [hm e he]
    exact ⟨m, rfl, rfl, hp, by rw [he, hm e he]⟩

/-- C51: reversal keeps the envelope of a line of numbers. -/
theorem C51_reverse_line (l : LineString α) (hu : Unmeasured l.points) (h : ∀ c ∈ l.points.coordinates, c.NN) :
    ∃ k, l.reverse = .ok k ∧ k.computeEnvelope.equals l.computeEnvelope = true := by
  refine ⟨_, (C48_reverse_partial l hu).1, ?_⟩
  rw [compute_line, compute_line]
  exact C02_perm _ _ (by simpa [flipped] using h) (List.reverse_perm _)

end cache

/-! ## Examples -/

section examples
private def sq (x y : ℚ) : Coord EQ := Coord.xy (.fin x) (.fin y)
private def ring (l : List (Coord EQ)) : LinearRing EQ := ⟨CASeq.ofCoordinates l, none, none⟩
private def big : LinearRing EQ := ring [sq 0 0, sq 4 0, sq 4 4, sq 0 4, sq 0 0]
private def small : LinearRing EQ := ring [sq 1 1, sq 2 1, sq 2 2, sq 1 1]
private def poly : Polygon EQ := ⟨big, [small], none, none⟩

example : poly.getCoordinates = .ok [sq 0 0, sq 4 0, sq 4 4, sq 0 4, sq 0 0, sq 1 1, sq 2 1, sq 2 2, sq 1 1] ∧
    poly.getNumPoints = .ok 9 := by decide +kernel
example : poly.shell.points.coordinates ≠ [] := by decide +kernel
example : poly.reverse = .error .index := by decide +kernel
example : (⟨big, [], none, none⟩ : Polygon EQ).reverse = .ok ⟨ring [sq 0 0, sq 0 4, sq 4 4, sq 4 0, sq 0 0], [], none, none⟩ := by decide +kernel
example : poly.selfNormalize = .ok poly := by decide +kernel
example : (⟨[], some PM.default, none⟩ : MultiPoint EQ).copy = .ok ⟨[], none, none⟩ := by decide +kernel
example : Unmeasured big.points := ⟨by decide +kernel, ⟨.nan, by decide +kernel⟩, .inr ⟨.nan, by decide +kernel⟩⟩

/-- C50: a ring of one point makes `normalize` panic. -/
theorem C50_normalize_panics : (⟨ring [sq 0 0], [], none, none⟩ : Polygon EQ).selfNormalize = .error .arith := by decide +kernel

/-- C50: empty points leave default coordinates at the end of the coordinates of a collection. -/
theorem C50_empty_points_pad :
    (MultiPoint.ofPoints [Point.default, Point.ofCoordinate (sq 1 2) none] none).getCoordinates =
      .ok [Coord.fromCoordinate (sq 1 2), Coord.default] := by decide +kernel

/-- C50: asking a collection of points for its first point panics, as does asking for the one after the last. -/
theorem C50_point_at_index :
    let m : MultiPoint EQ := MultiPoint.ofPoints [Point.ofCoordinate (sq 1 2) none] none
    m.getPointAtIndex 0 = .error .arith ∧ m.getPointAtIndex 1 = .error .index ∧ m.getPointAtIndex 2 = .error .index ∧
    m.getPointAtIndex 3 = .ok none := by decide +kernel

/-- C50: copies lose the precision model. -/
theorem C50_copy_loses_precision (r : LinearRing α) (pm : PM α) : ∃ r', ({ r with precisionModel := some pm } : LinearRing α).copy = .ok r' ∧
    r'.precisionModel = none := ⟨_, ringCopy _, rfl⟩

/-- C51: with NaN in the coordinates the envelope kept through a reversal is not the one computed after it. -/
theorem C51_nan_stale :
    let r := (ring [Coord.xy .nan .nan, sq 0 0, sq 1 1]).getEnvelope.2
    ∃ r', r.reverse = .ok r' ∧ r'.getEnvelope.1.equals r'.computeEnvelope = false := by
  exact ⟨_, rfl, by decide +kernel⟩

end examples
end Verif.Props
