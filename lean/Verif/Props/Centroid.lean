import Verif.Model.Centroid
import Verif.Spec.Centroid
import Verif.Lemmas.Geometries
import Verif.Props.CCWMotion
import Verif.Props.Length
import Verif.Props.Geometries
import Mathlib.Tactic.NormNum

set_option linter.unusedSectionVars false

/-! # C46: centroids in exact real arithmetic -/

namespace Verif.Props
open Flt Verif.Spec

/-- What one ring with a weight adds to the sums. -/
noncomputable def addRing (c : Centroid ℝ) (w : ℝ × List (Coord ℝ)) : Centroid ℝ :=
  open Classical in
  { c with
    areasum2 := c.areasum2 + w.1 * shoelace w.2
    cg3 := (c.cg3.1 + w.1 * momentX w.2, c.cg3.2 + w.1 * momentY w.2)
    lineCentSum := (c.lineCentSum.1 + lineX w.2, c.lineCentSum.2 + lineY w.2)
    totalLength := c.totalLength + lineLength w.2
    ptCount := c.ptCount + (if lineLength w.2 = 0 then 1 else 0)
    ptCentSum := (c.ptCentSum.1 + (if lineLength w.2 = 0 then headX w.2 else 0), c.ptCentSum.2 + (if lineLength w.2 = 0 then headY w.2 else 0)) }

theorem distance_real (a b : Coord ℝ) : a.distance b = Spec.dist a b := by simp [Coord.distance, Spec.dist]

theorem addLineSegments_eq (c : Centroid ℝ) (pts : List (Coord ℝ)) (h : pts ≠ []) :
    c.addLineSegments pts = .ok { addRing c (0, pts) with areasum2 := c.areasum2, cg3 := c.cg3 } := by
  have hl : 1 ≤ pts.length := List.length_pos_iff.mpr h
  unfold Centroid.addLineSegments
  rw [Res.sub_le hl, Res.bind_ok, Centroid.segmentLoop]
  rw [forRange_foldl (segs pts) 0 (pts.length - 1) (by simp) _
    (fun (st : Centroid ℝ × ℝ) s => if Spec.dist s.1 s.2 = 0 then st else
      ({ st.1 with lineCentSum := (st.1.lineCentSum.1 + Spec.dist s.1 s.2 * ((s.1.x + s.2.x) / 2),
          st.1.lineCentSum.2 + Spec.dist s.1 s.2 * ((s.1.y + s.2.y) / 2)) }, st.2 + Spec.dist s.1 s.2)) (by
      intro k hk st
      have hk' : k + 1 < pts.length := by rw [length_segs] at hk; omega
      rw [Nat.zero_add, Res.get_lt (by omega : k < pts.length), Res.get_lt hk', getElem_segs]
      simp only [Res.bind_ok, distance_real, real_toFlt, exact_eq, exact_add, exact_mul, exact_div, exact_lit, decide_eq_true_eq,
        Rat.cast_zero, Rat.cast_ofNat]
      split_ifs <;> rfl)]
  have fold : ∀ (l : List (Coord ℝ × Coord ℝ)) (d : Centroid ℝ) (t : ℝ),
      l.foldl (fun (st : Centroid ℝ × ℝ) s => if Spec.dist s.1 s.2 = 0 then st else
        ({ st.1 with lineCentSum := (st.1.lineCentSum.1 + Spec.dist s.1 s.2 * ((s.1.x + s.2.x) / 2),
          st.1.lineCentSum.2 + Spec.dist s.1 s.2 * ((s.1.y + s.2.y) / 2)) }, st.2 + Spec.dist s.1 s.2)) (d, t)
      = ({ d with lineCentSum := (d.lineCentSum.1 + (l.map (fun s => Spec.dist s.1 s.2 * ((s.1.x + s.2.x) / 2))).sum,
            d.lineCentSum.2 + (l.map (fun s => Spec.dist s.1 s.2 * ((s.1.y + s.2.y) / 2))).sum) },
          t + (l.map (fun s => Spec.dist s.1 s.2)).sum) := by
    intro l
    induction l with
    | nil => intro d t; simp
    | cons s l ih =>
      intro d t
      rw [List.foldl_cons]
      by_cases hz : Spec.dist s.1 s.2 = 0
      · rw [if_pos hz, ih]; simp [hz]
      · rw [if_neg hz, ih]; simp [add_assoc]
  rw [fold]
  have hp : pts[0]? = some pts[0] := List.getElem?_eq_getElem (by omega)
  simp only [Res.bind_ok, real_toFlt, exact_lit, Rat.cast_zero, zero_add, exact_eq, exact_add, Bool.and_eq_true, decide_eq_true_eq]
  have hpos : pts.length > 0 := by omega
  rw [Res.get_lt (by omega : 0 < pts.length)]
  simp only [hpos, and_true, Res.bind_ok, addRing, Centroid.addPoint, exact_add, headX, headY, List.head?_eq_getElem?, hp, Option.map_some,
    Option.getD_some]
  unfold lineLength lineX lineY
  by_cases hz : ((segs pts).map (fun s => Spec.dist s.1 s.2)).sum = 0
  · rw [if_pos hz, if_pos hz, if_pos hz, if_pos hz, hz, add_zero]; rfl
  · rw [if_neg hz, if_neg hz, if_neg hz, if_neg hz]; simp

/-- Triangles from any base point add up to the integrals over a closed ring. -/
theorem fan_sum {K : Type} [Field K] [LinearOrder K] [IsStrictOrderedRing K] (b : Coord K) (r : List (Coord K)) (hc : Closed2D r) :
    ((segs r).map (fun s => det b s.1 s.2)).sum = shoelace r ∧
    ((segs r).map (fun s => det b s.1 s.2 * (b.x + s.1.x + s.2.x))).sum = momentX r ∧
    ((segs r).map (fun s => det b s.1 s.2 * (b.y + s.1.y + s.2.y))).sum = momentY r := by
  have tele : ∀ (G : Coord K → K) (a : Coord K) (l : List (Coord K)),
      ((segs (a :: l)).map (fun s => G s.2 - G s.1)).sum = G ((a :: l).getLast (by simp)) - G a := by
    intro G a l
    induction l generalizing a with
    | nil => simp
    | cons c l ih =>
      rw [segs_cons, List.map_cons, List.sum_cons, ih, List.getLast_cons (List.cons_ne_nil c l)]; ring
  have add : ∀ (l : List (Coord K × Coord K)) (f g h : Coord K × Coord K → K), (∀ s, f s = g s + h s) →
      (l.map f).sum = (l.map g).sum + (l.map h).sum := by
    intro l f g h e
    induction l with
    | nil => simp
    | cons s l ih => simp only [List.map_cons, List.sum_cons, ih, e]; ring
  cases r with
  | nil => simp [shoelace, momentX, momentY]
  | cons a l =>
    obtain ⟨hx, hy⟩ := hc a ((a :: l).getLast (by simp)) rfl (List.getLast?_eq_some_getLast _)
    have same : ∀ G : Coord K → K, (∀ p q : Coord K, p.x = q.x → p.y = q.y → G p = G q) →
        ((segs (a :: l)).map (fun s => G s.2 - G s.1)).sum = 0 := by
      intro G hG; rw [tele, hG _ a hx.symm hy.symm, sub_self]
    refine ⟨?_, ?_, ?_⟩
    · rw [add _ _ (fun s => s.1.x * s.2.y - s.2.x * s.1.y) (fun s => (fun q : Coord K => q.x * b.y - b.x * q.y) s.2 - (fun q : Coord K => q.x * b.y - b.x * q.y) s.1)
        (fun s => by simp only [det]; ring), same (fun q => q.x * b.y - b.x * q.y) (fun p q h1 h2 => by simp only [h1, h2]), add_zero]; rfl
    · rw [add _ _ (fun s => (s.1.x + s.2.x) * (s.1.x * s.2.y - s.2.x * s.1.y))
        (fun s => (fun q : Coord K => (q.x + b.x) * (q.x * b.y - b.x * q.y)) s.2 - (fun q : Coord K => (q.x + b.x) * (q.x * b.y - b.x * q.y)) s.1)
        (fun s => by simp only [det]; ring), same (fun q => (q.x + b.x) * (q.x * b.y - b.x * q.y)) (fun p q h1 h2 => by simp only [h1, h2]), add_zero]; rfl
    · rw [add _ _ (fun s => (s.1.y + s.2.y) * (s.1.x * s.2.y - s.2.x * s.1.y))
        (fun s => (fun q : Coord K => (q.y + b.y) * (q.x * b.y - b.x * q.y)) s.2 - (fun q : Coord K => (q.y + b.y) * (q.x * b.y - b.x * q.y)) s.1)
        (fun s => by simp only [det]; ring), same (fun q => (q.y + b.y) * (q.x * b.y - b.x * q.y)) (fun p q h1 h2 => by simp only [h1, h2]), add_zero]; rfl

theorem triangleLoop_eq (c : Centroid ℝ) (b : Coord ℝ) (hb : c.areaBasePt = some b) (pts : List (Coord ℝ)) (h : pts ≠ []) (hc : Closed2D pts)
    (pos : Bool) :
    Centroid.triangleLoop c pts pos = .ok { c with
      areasum2 := c.areasum2 + (if pos then 1 else -1) * shoelace pts
      cg3 := (c.cg3.1 + (if pos then 1 else -1) * momentX pts, c.cg3.2 + (if pos then 1 else -1) * momentY pts) } := by
  have hl : 1 ≤ pts.length := List.length_pos_iff.mpr h
  obtain ⟨f1, f2, f3⟩ := fan_sum b pts hc
  unfold Centroid.triangleLoop
  rw [Res.sub_le hl, Res.bind_ok]
  obtain ⟨g, hg⟩ : ∃ g : ℝ, g = if pos then 1 else -1 := ⟨_, rfl⟩
  have key : ∀ k, k ≤ pts.length - 1 → forRange 0 k c (Centroid.triangleStep pts pos) = .ok { c with
        areasum2 := c.areasum2 + g * (((segs pts).take k).map (fun s => det b s.1 s.2)).sum
        cg3 := (c.cg3.1 + g * (((segs pts).take k).map (fun s => det b s.1 s.2 * (b.x + s.1.x + s.2.x))).sum,
          c.cg3.2 + g * (((segs pts).take k).map (fun s => det b s.1 s.2 * (b.y + s.1.y + s.2.y))).sum) } := by
    intro k
    induction k with
    | zero => intro _; rw [forRange_self _ _ le_rfl]; simp
    | succ k ih =>
      intro hk
      have hs : k < (segs pts).length := by rw [length_segs]; omega
      rw [forRange_succ _ _ (Nat.zero_le _), ih (by omega), Res.bind_ok]
      simp only [Centroid.triangleStep, hb]
      rw [Res.get_lt (by omega : k < pts.length), Res.get_lt (by omega : k + 1 < pts.length)]
      simp only [Res.bind_ok, Res.pure_eq, Centroid.addTriangle, Centroid.centroid3, Centroid.area2, real_toFlt, exact_add, exact_sub, exact_mul,
        exact_lit, exact_neg, Rat.cast_one, ← hg]
      rw [take_succ' _ _ hs, getElem_segs]
      simp only [List.map_append, List.map_cons, List.map_nil, List.sum_append, List.sum_cons, List.sum_nil, add_zero, hb, det]
      congr 2
      · ring
      · congr 1 <;> ring
  rw [key _ le_rfl, List.take_of_length_le (by simp), f1, f2, f3, hg]

/-- 1 for rings the orientation test calls counterclockwise, -1 for others. -/
noncomputable def turnOf (r : List (Coord ℝ)) : ℝ := if Orientation.isCCW r = .ok true then 1 else -1

theorem addHole_eq (c : Centroid ℝ) (b : Coord ℝ) (hb : c.areaBasePt = some b) (pts : List (Coord ℝ)) (h : pts ≠ []) (hc : Closed2D pts) :
    c.addHole pts = .ok (addRing c (turnOf pts, pts)) := by
  obtain ⟨o, ho⟩ := (C34_total pts).2.1 h
  unfold Centroid.addHole
  rw [ho, Res.bind_ok, triangleLoop_eq c b hb pts h hc, Res.bind_ok, addLineSegments_eq _ _ h]
  have : turnOf pts = if o then 1 else -1 := by rw [turnOf, ho]; cases o <;> simp
  rw [this]
  rfl

theorem addShell_eq (c : Centroid ℝ) (pts : List (Coord ℝ)) (h : pts ≠ []) (hc : Closed2D pts) :
    ∃ b, c.addShell pts = .ok (addRing { c with areaBasePt := some b } (-turnOf pts, pts)) := by
  obtain ⟨o, ho⟩ := (C34_total pts).2.1 h
  have hl : pts.length > 0 := List.length_pos_iff.mpr h
  refine ⟨pts[0], ?_⟩
  unfold Centroid.addShell
  simp only [real_toFlt]
  rw [if_pos hl, Res.get_lt hl]
  simp only [Res.bind_ok, Res.pure_eq]
  rw [ho, Res.bind_ok, triangleLoop_eq _ pts[0] rfl pts h hc, Res.bind_ok, addLineSegments_eq _ _ h]
  have : -turnOf pts = if !o then 1 else -1 := by rw [turnOf, ho]; cases o <;> simp
  rw [this]
  rfl

theorem addRing_base (c : Centroid ℝ) (w : ℝ × List (Coord ℝ)) : (addRing c w).areaBasePt = c.areaBasePt := rfl

/-- A polygon all of whose rings are closed and not empty. -/
def Proper (p : Polygon ℝ) : Prop :=
  (p.shell.getCoordinates ≠ [] ∧ Closed2D p.shell.getCoordinates) ∧ ∀ h ∈ p.holes, h.getCoordinates ≠ [] ∧ Closed2D h.getCoordinates

/-- The rings of a polygon as the centroid weighs them: the shell by its orientation, the holes against theirs. -/
noncomputable def ringsW (p : Polygon ℝ) : List (ℝ × List (Coord ℝ)) :=
  (turnOf p.shell.getCoordinates, p.shell.getCoordinates) :: p.holes.map (fun h => (-turnOf h.getCoordinates, h.getCoordinates))

/-- All weights negated. -/
def negW (ws : List (ℝ × List (Coord ℝ))) : List (ℝ × List (Coord ℝ)) := ws.map (fun w => (-w.1, w.2))

theorem addPolygon_eq (c : Centroid ℝ) (p : Polygon ℝ) (hp : Proper p) :
    ∃ b, c.addPolygon p = .ok ((negW (ringsW p)).foldl addRing { c with areaBasePt := some b }) := by
  obtain ⟨b, hb⟩ := addShell_eq c p.shell.getCoordinates hp.1.1 hp.1.2
  refine ⟨b, ?_⟩
  unfold Centroid.addPolygon Polygon.getExteriorRing
  rw [ringCopy, Res.bind_ok]
  change (c.addShell p.shell.getCoordinates >>= _) = _
  rw [hb, Res.bind_ok]
  obtain ⟨d, hd⟩ : ∃ d, d = addRing { c with areaBasePt := some b } (-turnOf p.shell.getCoordinates, p.shell.getCoordinates) := ⟨_, rfl⟩
  have hdb : d.areaBasePt = some b := by rw [hd]; rfl
  rw [← hd]
  have hfold : (negW (ringsW p)).foldl addRing { c with areaBasePt := some b }
      = p.holes.foldl (fun c h => addRing c (turnOf h.getCoordinates, h.getCoordinates)) d := by
    rw [negW, ringsW, List.map_cons, List.map_map, List.foldl_cons, ← hd, List.foldl_map]
    simp only [Function.comp, neg_neg]
  rw [hfold]
  have key : ∀ k, k ≤ p.holes.length → forRange 0 k d (fun i c => do
      let h ← p.getInteriorRing i
      c.addHole h.getCoordinates)
        = .ok ((p.holes.take k).foldl (fun c h => addRing c (turnOf h.getCoordinates, h.getCoordinates)) d) ∧
      ((p.holes.take k).foldl (fun c h => addRing c (turnOf h.getCoordinates, h.getCoordinates)) d).areaBasePt = some b := by
    intro k
    induction k with
    | zero => intro _; exact ⟨by rw [forRange_self _ _ le_rfl]; rfl, hdb⟩
    | succ k ih =>
      intro hk
      obtain ⟨i1, i2⟩ := ih (by omega)
      have hk' : k < p.holes.length := by omega
      have hh := hp.2 p.holes[k] (List.getElem_mem hk')
      rw [take_succ' _ _ hk', List.foldl_append, List.foldl_cons, List.foldl_nil]
      refine ⟨?_, by rw [addRing_base]; exact i2⟩
      rw [forRange_succ _ _ (Nat.zero_le _), i1, Res.bind_ok, Polygon.getInteriorRing, Res.get_lt hk', Res.bind_ok, ringCopy, Res.bind_ok]
      exact addHole_eq _ b i2 _ hh.1 hh.2
  have := (key p.holes.length le_rfl).1
  rw [List.take_of_length_le le_rfl] at this
  exact this

theorem foldl_addRing (ws : List (ℝ × List (Coord ℝ))) (c : Centroid ℝ) :
    (ws.foldl addRing c).areasum2 = c.areasum2 + wsum ws shoelace ∧
    (ws.foldl addRing c).cg3 = (c.cg3.1 + wsum ws momentX, c.cg3.2 + wsum ws momentY) ∧
    (ws.foldl addRing c).lineCentSum = (c.lineCentSum.1 + usum ws lineX, c.lineCentSum.2 + usum ws lineY) ∧
    (ws.foldl addRing c).totalLength = c.totalLength + usum ws lineLength ∧
    ((∀ w ∈ ws, lineLength w.2 = 0) → (ws.foldl addRing c).ptCount = c.ptCount + ws.length ∧
      (ws.foldl addRing c).ptCentSum = (c.ptCentSum.1 + usum ws headX, c.ptCentSum.2 + usum ws headY)) := by
  induction ws generalizing c with
  | nil => simp [wsum, usum]
  | cons w ws ih =>
    obtain ⟨h1, h2, h3, h4, h5⟩ := ih (addRing c w)
    rw [List.foldl_cons, h1, h2, h3, h4]
    simp only [wsum, usum, List.map_cons, List.sum_cons, addRing] at *
    refine ⟨by ring, by congr 1 <;> ring, by congr 1 <;> ring, by ring, ?_⟩
    intro hz
    have h0 := hz w (by simp)
    obtain ⟨h6, h7⟩ := h5 (fun w' h' => hz w' (by simp [h']))
    rw [h6, h7]
    simp only [h0, if_true, List.length_cons]
    exact ⟨by push_cast; ring, by congr 1 <;> ring⟩

theorem wsum_neg (ws : List (ℝ × List (Coord ℝ))) (f : List (Coord ℝ) → ℝ) : wsum (negW ws) f = -wsum ws f := by
  induction ws with
  | nil => simp [wsum, negW]
  | cons w ws ih =>
    simp only [wsum, negW, List.map_cons, List.sum_cons] at *
    rw [ih]; ring

theorem usum_neg (ws : List (ℝ × List (Coord ℝ))) (f : List (Coord ℝ) → ℝ) : usum (negW ws) f = usum ws f := by
  simp [usum, negW, Function.comp_def]

theorem usum_length_nonneg (ws : List (ℝ × List (Coord ℝ))) : 0 ≤ usum ws lineLength :=
  List.sum_nonneg (by simp only [List.mem_map]; rintro _ ⟨w, _, rfl⟩; exact lineLength_nonneg _)

theorem usum_length_zero (ws : List (ℝ × List (Coord ℝ))) (h : usum ws lineLength = 0) : ∀ w ∈ ws, lineLength w.2 = 0 := by
  induction ws with
  | nil => simp
  | cons w ws ih =>
    simp only [usum, List.map_cons, List.sum_cons] at h ih
    have h1 := lineLength_nonneg w.2
    have h2 : 0 ≤ (ws.map (fun w => lineLength w.2)).sum := usum_length_nonneg ws
    intro w' hw'
    rcases List.mem_cons.mp hw' with rfl | hw'
    · linarith
    · exact ih (by linarith) w' hw'

/-- The sums of a state are those of the weighted rings (negated where weighted). -/
def Holds (ws : List (ℝ × List (Coord ℝ))) (c : Centroid ℝ) : Prop :=
  c.areasum2 = -wsum ws shoelace ∧ c.cg3 = (-wsum ws momentX, -wsum ws momentY) ∧ c.lineCentSum = (usum ws lineX, usum ws lineY) ∧
  c.totalLength = usum ws lineLength ∧
  (usum ws lineLength = 0 → c.ptCount = ws.length ∧ c.ptCentSum = (usum ws headX, usum ws headY))

theorem wsum_append (ws vs : List (ℝ × List (Coord ℝ))) (f : List (Coord ℝ) → ℝ) : wsum (ws ++ vs) f = wsum ws f + wsum vs f := by
  simp [wsum]

theorem usum_append (ws vs : List (ℝ × List (Coord ℝ))) (f : List (Coord ℝ) → ℝ) : usum (ws ++ vs) f = usum ws f + usum vs f := by
  simp [usum]

theorem holds_init : Holds [] (Centroid.init : Centroid ℝ) := by
  simp [Holds, wsum, usum, Centroid.init]

theorem holds_addRings (ws vs : List (ℝ × List (Coord ℝ))) (c : Centroid ℝ) (b : Option (Coord ℝ)) (h : Holds ws c) :
    Holds (ws ++ vs) ((negW vs).foldl addRing { c with areaBasePt := b }) := by
  obtain ⟨a1, a2, a3, a4, a5⟩ := h
  obtain ⟨h1, h2, h3, h4, h5⟩ := foldl_addRing (negW vs) { c with areaBasePt := b }
  refine ⟨?_, ?_, ?_, ?_, ?_⟩
  · rw [h1, wsum_append, wsum_neg]; simp only [a1]; ring
  · rw [h2, wsum_append, wsum_neg, wsum_append, wsum_neg]; simp only [a2]; congr 1 <;> ring
  · rw [h3, usum_append, usum_append, usum_neg, usum_neg]; simp only [a3]
  · rw [h4, usum_append, usum_neg]; simp only [a4]
  · intro hz
    rw [usum_append] at hz
    have n1 := usum_length_nonneg ws
    have n2 := usum_length_nonneg vs
    obtain ⟨b1, b2⟩ := a5 (by linarith)
    obtain ⟨b3, b4⟩ := h5 (usum_length_zero _ (by rw [usum_neg]; linarith))
    rw [b3, b4]
    have hl : (negW vs).length = vs.length := by simp [negW]
    simp only [b1, b2, usum_append, usum_neg, List.length_append, hl]
    exact ⟨by push_cast; ring, trivial⟩

theorem holds_addPolygon (ws : List (ℝ × List (Coord ℝ))) (c : Centroid ℝ) (p : Polygon ℝ) (h : Holds ws c) (hp : Proper p) :
    ∃ c', c.addPolygon p = .ok c' ∧ Holds (ws ++ ringsW p) c' := by
  obtain ⟨b, hb⟩ := addPolygon_eq c p hp
  exact ⟨_, hb, holds_addRings ws (ringsW p) c (some b) h⟩

/-- The centroid read off the sums. -/
theorem holds_centroid (ws : List (ℝ × List (Coord ℝ))) (c : Centroid ℝ) (h : Holds ws c) (hw : ws = [] → c.ptCount = 0) :
    c.getCentroid = (centroidOf ws).map (fun q => Coord.xy q.1 q.2) := by
  obtain ⟨h1, h2, h3, h4, h5⟩ := h
  unfold Centroid.getCentroid
  rw [h1, h2, h3, h4]
  simp only [real_toFlt, exact_lit, Rat.cast_zero, exact_abs, exact_lt, exact_div, decide_eq_true_eq, Rat.cast_ofNat]
  have hab : 0 < max (-wsum ws shoelace) (- -wsum ws shoelace) ↔ wsum ws shoelace ≠ 0 := by
    rw [← abs_eq_max_neg, abs_neg, abs_pos]
  simp only [hab]
  unfold centroidOf
  by_cases hn : ws = []
  · have := hw hn; subst hn; simp [wsum, usum, this]
  · rw [if_neg hn]
    by_cases ha : wsum ws shoelace ≠ 0
    · rw [if_pos ha, if_pos ha]
      simp only [Option.map_some]
      congr 2 <;> (rw [div_div, mul_neg, neg_div_neg_eq])
    · rw [if_neg ha, if_neg ha]
      by_cases hl : usum ws lineLength ≠ 0
      · rw [if_pos hl, if_pos (lt_of_le_of_ne (usum_length_nonneg ws) (Ne.symm hl))]; rfl
      · rw [if_neg hl]
        push Not at hl
        obtain ⟨h6, h7⟩ := h5 hl
        have hpos : 0 < ws.length := List.length_pos_iff.mpr hn
        rw [if_neg (by rw [hl]; exact lt_irrefl _), h6, h7, if_pos (by omega)]
        simp

/-- The centroid of a polygon with closed rings: the area formula over its weighted rings, or its fallbacks. It does not mention the
base point of the triangles. -/
theorem C46_polygon (p : Polygon ℝ) (hp : Proper p) :
    Centroid.fromPolygon p = .ok ((centroidOf (ringsW p)).map (fun q => Coord.xy q.1 q.2)) := by
  obtain ⟨c, hc, hh⟩ := holds_addPolygon [] Centroid.init p holds_init hp
  unfold Centroid.fromPolygon Centroid.ofPolygon
  rw [hc, Res.bind_ok, holds_centroid _ c hh (by simp [ringsW])]; rfl

/-- The same for several polygons together. -/
theorem C46_multi_polygon (m : MultiPolygon ℝ) (hp : ∀ p ∈ m.polygons, Proper p) :
    Centroid.fromMultiPolygon m = .ok ((centroidOf (m.polygons.flatMap ringsW)).map (fun q => Coord.xy q.1 q.2)) := by
  obtain ⟨c, hc, hh, h0⟩ := forRange_inv 0 m.polygons.length (fun i (c : Centroid ℝ) => do
      let p ← m.getPolygon i
      c.addPolygon p)
    (fun k c => Holds ((m.polygons.take k).flatMap ringsW) c ∧ (k = 0 → c.ptCount = 0)) (Nat.zero_le _) Centroid.init
    ⟨by simpa using holds_init, fun _ => rfl⟩ (by
      rintro i c _ hi ⟨h1, _⟩
      have hp' := hp m.polygons[i] (List.getElem_mem hi)
      obtain ⟨q, hq, e1, e2⟩ : ∃ q, m.getPolygon i = .ok q ∧ Proper q ∧ ringsW q = ringsW m.polygons[i] := by
        rw [MultiPolygon.getPolygon, Res.get_lt hi, Res.bind_ok, (C50_copy ⟨CASeq.ofCoordinates [], none⟩ m.polygons[i].shell m.polygons[i] Point.default (by simp [Point.default, CASeq.ofCoordinates, CASeq.size])).2.2.1]
        refine ⟨_, rfl, ?_, ?_⟩
        · refine ⟨hp'.1, ?_⟩
          intro h hh
          obtain ⟨h', hh', rfl⟩ := List.mem_map.mp hh
          exact hp'.2 h' hh'
        · simp [ringsW, LinearRing.getCoordinates, Function.comp_def]
      obtain ⟨c', hc', hh'⟩ := holds_addPolygon _ c q h1 e1
      refine ⟨c', by rw [hq]; exact hc', ?_, fun h => absurd h (by omega)⟩
      rw [take_succ' _ _ hi, List.flatMap_append, List.flatMap_cons, List.flatMap_nil, List.append_nil, ← e2]
      exact hh')
  rw [List.take_of_length_le le_rfl] at hh
  unfold Centroid.fromMultiPolygon Centroid.ofMultiPolygon
  rw [hc, Res.bind_ok, holds_centroid _ c hh (by
    intro he
    apply h0
    rw [List.length_eq_zero_iff]
    cases hm : m.polygons with
    | nil => rfl
    | cons p ps => rw [hm] at he; simp [ringsW] at he)]
  rfl

/-! ## Direction and start of rings -/

/-- The two vertex lists go around the same ring, from any start, in either direction. -/
def SameRing (v v' : List (Coord ℝ)) : Prop := ∃ k, v' = v.rotate k ∨ v' = v.reverse.rotate k

/-- Two weighted rings contribute the same. -/
def SameW (w v : ℝ × List (Coord ℝ)) : Prop :=
  w.1 * shoelace w.2 = v.1 * shoelace v.2 ∧ w.1 * momentX w.2 = v.1 * momentX v.2 ∧ w.1 * momentY w.2 = v.1 * momentY v.2 ∧
  lineX w.2 = lineX v.2 ∧ lineY w.2 = lineY v.2 ∧ lineLength w.2 = lineLength v.2 ∧
  (lineLength w.2 = 0 → headX w.2 = headX v.2 ∧ headY w.2 = headY v.2)

theorem wsum_congr (ws vs : List (ℝ × List (Coord ℝ))) (f : List (Coord ℝ) → ℝ) (h : List.Forall₂ (fun w v => w.1 * f w.2 = v.1 * f v.2) ws vs) :
    wsum ws f = wsum vs f := by
  induction h with
  | nil => rfl
  | cons h1 _ ih => simp only [wsum, List.map_cons, List.sum_cons] at *; rw [h1, ih]

theorem usum_congr (ws vs : List (ℝ × List (Coord ℝ))) (f : List (Coord ℝ) → ℝ) (h : List.Forall₂ (fun w v => f w.2 = f v.2) ws vs) :
    usum ws f = usum vs f := by
  induction h with
  | nil => rfl
  | cons h1 _ ih => simp only [usum, List.map_cons, List.sum_cons] at *; rw [h1, ih]

theorem forall₂_of_mem {A B : Type} {R S : A → B → Prop} {l : List A} {m : List B} (h : List.Forall₂ R l m)
    (hRS : ∀ a b, a ∈ l → R a b → S a b) : List.Forall₂ S l m := by
  induction h with
  | nil => exact .nil
  | cons h1 _ ih => exact .cons (hRS _ _ (by simp) h1) (ih (fun a b ha => hRS a b (by simp [ha])))

theorem centroidOf_congr (ws vs : List (ℝ × List (Coord ℝ))) (h : List.Forall₂ SameW ws vs) : centroidOf ws = centroidOf vs := by
  have e1 := wsum_congr ws vs shoelace (h.imp fun _ _ h => h.1)
  have e2 := wsum_congr ws vs momentX (h.imp fun _ _ h => h.2.1)
  have e3 := wsum_congr ws vs momentY (h.imp fun _ _ h => h.2.2.1)
  have e4 := usum_congr ws vs lineX (h.imp fun _ _ h => h.2.2.2.1)
  have e5 := usum_congr ws vs lineY (h.imp fun _ _ h => h.2.2.2.2.1)
  have e6 := usum_congr ws vs lineLength (h.imp fun _ _ h => h.2.2.2.2.2.1)
  have e7 : ws.length = vs.length := h.length_eq
  have e8 : ws = [] ↔ vs = [] := by rw [← List.length_eq_zero_iff, ← List.length_eq_zero_iff, e7]
  unfold centroidOf
  simp only [e1, e2, e3, e4, e5, e6, e7, e8]
  by_cases hn : vs = []
  · rw [if_pos hn, if_pos hn]
  · rw [if_neg hn, if_neg hn]
    by_cases ha : wsum vs shoelace ≠ 0
    · rw [if_pos ha, if_pos ha]
    · rw [if_neg ha, if_neg ha]
      by_cases hl : usum vs lineLength ≠ 0
      · rw [if_pos hl, if_pos hl]
      · rw [if_neg hl, if_neg hl]
        push Not at hl
        have hz := usum_length_zero ws (by rw [e6]; exact hl)
        rw [usum_congr ws vs headX (forall₂_of_mem h fun a b ha hh => (hh.2.2.2.2.2.2 (hz a ha)).1),
          usum_congr ws vs headY (forall₂_of_mem h fun a b ha hh => (hh.2.2.2.2.2.2 (hz a ha)).2)]

theorem centroidOf_neg (ws : List (ℝ × List (Coord ℝ))) : centroidOf (negW ws) = centroidOf ws := by
  unfold centroidOf
  have e : negW ws = [] ↔ ws = [] := by simp [negW]
  have e7 : (negW ws).length = ws.length := by simp [negW]
  simp only [wsum_neg, usum_neg, e, e7, mul_neg, neg_div_neg_eq, ne_eq, neg_eq_zero]

/-- The points of a line without length all coincide. -/
theorem all_eq_of_length_zero (a : Coord ℝ) (l : List (Coord ℝ)) (h : lineLength (a :: l) = 0) : ∀ b ∈ a :: l, b.x = a.x ∧ b.y = a.y := by
  have := (C35_zero 2 0 a l).mp (by rw [C35_exact]; simp [h])
  intro b hb
  rcases List.mem_cons.mp hb with rfl | hb
  · exact ⟨rfl, rfl⟩
  · exact this b hb

theorem head_of_length_zero (l m : List (Coord ℝ)) (h : lineLength l = 0) (hm : ∀ b ∈ m, b ∈ l) (hn : m ≠ []) : headX m = headX l ∧ headY m = headY l := by
  cases m with
  | nil => exact absurd rfl hn
  | cons b m =>
    cases l with
    | nil => exact absurd (hm b (by simp)) (by simp)
    | cons a l =>
      have := all_eq_of_length_zero a l h b (hm b (by simp))
      simpa [headX, headY] using this

/-- The integrals of a ring seen from another start, or in the other direction. -/
theorem sameRing_integrals (v v' : List (Coord ℝ)) (h : SameRing v v') :
    ∃ s : ℝ, (s = 1 ∨ s = -1) ∧ shoelace (closed v') = s * shoelace (closed v) ∧ momentX (closed v') = s * momentX (closed v) ∧
      momentY (closed v') = s * momentY (closed v) ∧ lineX (closed v') = lineX (closed v) ∧ lineY (closed v') = lineY (closed v) ∧
      lineLength (closed v') = lineLength (closed v) ∧
      (lineLength (closed v) = 0 → headX (closed v') = headX (closed v) ∧ headY (closed v') = headY (closed v)) ∧
      (closed v' = [] ↔ closed v = []) ∧ ((s = 1 ∧ ∃ k, v' = v.rotate k) ∨ (s = -1 ∧ ∃ k, v' = v.reverse.rotate k)) := by
  have memc : ∀ (l : List (Coord ℝ)) b, b ∈ closed l ↔ b ∈ l := by
    intro l b; simp only [closed, List.mem_append]; exact ⟨fun h => h.elim id (fun h => List.mem_of_mem_take h), Or.inl⟩
  have nilc : ∀ l : List (Coord ℝ), closed l = [] ↔ l = [] := by intro l; cases l <;> simp [closed]
  have hlast : ∀ (l m : List (Coord ℝ)), (∀ b, b ∈ m ↔ b ∈ l) → lineLength (closed l) = 0 →
      headX (closed m) = headX (closed l) ∧ headY (closed m) = headY (closed l) := by
    intro l m hm hz
    by_cases hn : m = []
    · have : l = [] := List.eq_nil_iff_forall_not_mem.mpr (fun b hb => by rw [← hm, hn] at hb; simp at hb)
      rw [hn, this]; exact ⟨rfl, rfl⟩
    · exact head_of_length_zero _ _ hz (fun b hb => (memc l b).mpr ((hm b).mp ((memc m b).mp hb))) (by rw [Ne, nilc]; exact hn)
  have rot : ∀ (l : List (Coord ℝ)) k (f : Coord ℝ × Coord ℝ → ℝ),
      ((segs (closed (l.rotate k))).map f).sum = ((segs (closed l)).map f).sum := fun l k f => ((segs_closed_rotate l k).map f).sum_eq
  have rev : ∀ (l : List (Coord ℝ)) (f g : Coord ℝ × Coord ℝ → ℝ), (∀ s, f s.swap = g s) →
      ((segs (closed l.reverse)).map f).sum = ((segs (closed l)).map g).sum := by
    intro l f g hfg
    cases l with
    | nil => rfl
    | cons a l =>
      have hr : (closed (a :: l)).reverse = closed (a :: l.reverse) := closed_reverse a l
      have hrot : (a :: l).reverse.rotate l.length = a :: l.reverse := by
        have := List.rotate_append_length_eq l.reverse [a]
        rw [List.length_reverse] at this
        rw [List.reverse_cons, this]; rfl
      rw [← rot ((a :: l).reverse) l.length f, hrot, ← hr, segs_reverse, List.map_reverse, List.sum_reverse, List.map_map]
      congr 1
      exact List.map_congr_left (fun s _ => hfg s)
  have negsum : ∀ (l : List (Coord ℝ × Coord ℝ)) (f : Coord ℝ × Coord ℝ → ℝ), (l.map (fun s => -f s)).sum = -1 * (l.map f).sum := by
    intro l f
    induction l with
    | nil => simp
    | cons s l ih => simp only [List.map_cons, List.sum_cons, ih]; ring
  obtain ⟨k, rfl | rfl⟩ := h
  · refine ⟨1, Or.inl rfl, ?_, ?_, ?_, rot v k _, rot v k _, rot v k _, hlast v _ (fun b => List.mem_rotate), ?_, Or.inl ⟨rfl, k, rfl⟩⟩
    · rw [one_mul]; exact rot v k _
    · rw [one_mul]; exact rot v k _
    · rw [one_mul]; exact rot v k _
    · rw [nilc, nilc, List.rotate_eq_nil_iff]
  · refine ⟨-1, Or.inr rfl, ?_, ?_, ?_, ?_, ?_, ?_, hlast v _ (fun b => by rw [List.mem_rotate, List.mem_reverse]), ?_, Or.inr ⟨rfl, k, rfl⟩⟩
    · unfold shoelace; rw [rot, rev v _ _ (fun s => rfl), ← negsum]
      congr 1; exact List.map_congr_left (fun s _ => by simp only [Prod.fst_swap, Prod.snd_swap]; ring)
    · unfold momentX; rw [rot, rev v _ _ (fun s => rfl), ← negsum]
      congr 1; exact List.map_congr_left (fun s _ => by simp only [Prod.fst_swap, Prod.snd_swap]; ring)
    · unfold momentY; rw [rot, rev v _ _ (fun s => rfl), ← negsum]
      congr 1; exact List.map_congr_left (fun s _ => by simp only [Prod.fst_swap, Prod.snd_swap]; ring)
    · unfold lineX; rw [rot]; exact rev v _ _ (fun s => by simp only [Prod.fst_swap, Prod.snd_swap]; rw [Spec.dist_comm]; ring)
    · unfold lineY; rw [rot]; exact rev v _ _ (fun s => by simp only [Prod.fst_swap, Prod.snd_swap]; rw [Spec.dist_comm]; ring)
    · unfold lineLength; rw [rot]; exact rev v _ _ (fun s => by simp only [Prod.fst_swap, Prod.snd_swap]; rw [Spec.dist_comm])
    · rw [nilc, nilc, List.rotate_eq_nil_iff, List.reverse_eq_nil_iff]

/-- The vertices have one top, be it a point or a row of points, and it is no spike. -/
def OneTop (v : List (Coord ℝ)) : Prop :=
  ∃ (t w : List (Coord ℝ)) (k : Nat) (ht : Top t w), 3 ≤ (t ++ w).length ∧ v = (t ++ w).rotate k ∧
    ((t.head ht.1).x = (t.getLast ht.1).x → det (w.getLast ht.2.1) (t.head ht.1) (w.head ht.2.1) ≠ 0)

theorem turn_rotate (v : List (Coord ℝ)) (hv : OneTop v) (k : Nat) : turnOf (closed (v.rotate k)) = turnOf (closed v) := by
  obtain ⟨t, w, j, ht, hl, rfl, _⟩ := hv
  unfold turnOf
  rw [List.rotate_rotate, C34_start_partial t w ht hl (j + k) j]

theorem turn_reverse (v : List (Coord ℝ)) (hv : OneTop v) (k : Nat) : turnOf (closed (v.reverse.rotate k)) = -turnOf (closed v) := by
  obtain ⟨t, w, j, ht, hl, rfl, hs⟩ := hv
  have ht' : Top t.reverse w.reverse := by
    obtain ⟨n1, n2, Y, hY, hw⟩ := ht
    exact ⟨by simpa using n1, by simpa using n2, Y, fun q hq => hY q (by simpa using hq), fun q hq => hw q (by simpa using hq)⟩
  have hl' : 3 ≤ (t.reverse ++ w.reverse).length := by simp at hl ⊢; omega
  have hR : ∀ x : List (Coord ℝ), x.IsRotated ((t ++ w).rotate j).reverse → (t.reverse ++ w.reverse).IsRotated x := by
    intro x hx
    refine List.isRotated_append.trans ?_
    rw [← List.reverse_append]
    exact ((List.IsRotated.forall (t ++ w) j).reverse.symm).trans hx.symm
  obtain ⟨b, h1, h2⟩ := C34_reverse_partial t w ht hl j hs
  obtain ⟨n1, e1⟩ := hR (((t ++ w).rotate j).reverse.rotate k) (List.IsRotated.forall _ _)
  obtain ⟨a, l, hal⟩ : ∃ a l, (t ++ w).rotate j = a :: l := by
    cases h : (t ++ w).rotate j with
    | nil => rw [List.rotate_eq_nil_iff] at h; rw [h] at hl; simp at hl
    | cons a l => exact ⟨a, l, rfl⟩
  obtain ⟨n2, e2⟩ := hR (a :: l.reverse) (by
    rw [hal, List.reverse_cons]; exact (List.isRotated_concat a l.reverse).symm)
  unfold turnOf
  rw [← e1, C34_start_partial _ _ ht' hl' n1 n2, e2, ← closed_reverse, ← hal, h2, h1]
  cases b <;> simp

/-- The vertices of the rings of a polygon: its shell and its holes, all closed. -/
def HasRings (p : Polygon ℝ) (s : List (Coord ℝ)) (hs : List (List (Coord ℝ))) : Prop :=
  p.shell.getCoordinates = closed s ∧ s ≠ [] ∧ p.holes.map LinearRing.getCoordinates = hs.map closed ∧ ∀ h ∈ hs, h ≠ []

theorem HasRings.proper {p : Polygon ℝ} {s : List (Coord ℝ)} {hs : List (List (Coord ℝ))} (h : HasRings p s hs) : Proper p := by
  obtain ⟨h1, h2, h3, h4⟩ := h
  have nilc : ∀ l : List (Coord ℝ), closed l ≠ [] ↔ l ≠ [] := by intro l; cases l <;> simp [closed]
  refine ⟨⟨by rw [h1, nilc]; exact h2, by rw [h1]; exact closed2D_closed s⟩, ?_⟩
  intro r hr
  have : r.getCoordinates ∈ hs.map closed := by rw [← h3]; exact List.mem_map_of_mem hr
  obtain ⟨v, hv, e⟩ := List.mem_map.mp this
  rw [← e]
  exact ⟨(nilc v).mpr (h4 v hv), closed2D_closed v⟩

theorem HasRings.rings {p : Polygon ℝ} {s : List (Coord ℝ)} {hs : List (List (Coord ℝ))} (h : HasRings p s hs) :
    ringsW p = (turnOf (closed s), closed s) :: hs.map (fun v => (-turnOf (closed v), closed v)) := by
  obtain ⟨h1, _, h3, _⟩ := h
  have : p.holes.map (fun h => (-turnOf h.getCoordinates, h.getCoordinates)) = hs.map (fun v => (-turnOf (closed v), closed v)) := by
    have := congrArg (List.map (fun r : List (Coord ℝ) => (-turnOf r, r))) h3
    simpa [Function.comp_def] using this
  rw [ringsW, h1, this]

theorem sameW_of_sameRing (v v' : List (Coord ℝ)) (hv : OneTop v) (h : SameRing v v') (e : ℝ) :
    SameW (e * turnOf (closed v), closed v) (e * turnOf (closed v'), closed v') := by
  obtain ⟨s, hs, a1, a2, a3, a4, a5, a6, a7, _, a9⟩ := sameRing_integrals v v' h
  have ht : turnOf (closed v') = s * turnOf (closed v) := by
    rcases a9 with ⟨rfl, k, rfl⟩ | ⟨rfl, k, rfl⟩
    · rw [one_mul, turn_rotate v hv]
    · rw [turn_reverse v hv]; ring
  have hss : s * s = 1 := by rcases hs with rfl | rfl <;> norm_num
  refine ⟨?_, ?_, ?_, a4.symm, a5.symm, a6.symm, fun hz => ⟨(a7 hz).1.symm, (a7 hz).2.symm⟩⟩
  · simp only [ht, a1]; linear_combination (-(e * turnOf (closed v) * shoelace (closed v))) * hss
  · simp only [ht, a2]; linear_combination (-(e * turnOf (closed v) * momentX (closed v))) * hss
  · simp only [ht, a3]; linear_combination (-(e * turnOf (closed v) * momentY (closed v))) * hss

/-- The centroid does not depend on where rings start nor on their direction. Polygons without holes have no restriction; the rings of
polygons with holes must have one top that is no spike (the orientation test is wrong for other rings, see C34). -/
theorem C46_direction_start_partial (p p' : Polygon ℝ) (s s' : List (Coord ℝ)) (hs hs' : List (List (Coord ℝ)))
    (hp : HasRings p s hs) (hp' : HasRings p' s' hs') (h : SameRing s s') (hh : List.Forall₂ SameRing hs hs')
    (ht : hs = [] ∨ (OneTop s ∧ ∀ v ∈ hs, OneTop v)) :
    Centroid.fromPolygon p' = Centroid.fromPolygon p := by
  rw [C46_polygon p hp.proper, C46_polygon p' hp'.proper, hp.rings, hp'.rings]
  congr 2
  rcases ht with rfl | ⟨h1, h2⟩
  · have : hs' = [] := by simpa using hh
    subst this
    obtain ⟨e, he, a1, a2, a3, a4, a5, a6, a7, _, _⟩ := sameRing_integrals s s' h
    have key : ∀ t t' : ℝ, (t = 1 ∨ t = -1) → (t' = 1 ∨ t' = -1) → centroidOf [(t', closed s')] = centroidOf [(t, closed s)] := by
      have base : centroidOf [(e, closed s')] = centroidOf [(1, closed s)] := by
        have hee : e * e = 1 := by rcases he with rfl | rfl <;> norm_num
        refine centroidOf_congr _ _ (.cons ⟨?_, ?_, ?_, a4, a5, a6, fun hz => a7 (by rw [← a6]; exact hz)⟩ .nil)
        · simp only [a1]; linear_combination shoelace (closed s) * hee
        · simp only [a2]; linear_combination momentX (closed s) * hee
        · simp only [a3]; linear_combination momentY (closed s) * hee
      have neg : ∀ (t : ℝ) (l : List (Coord ℝ)), centroidOf [(-t, l)] = centroidOf [(t, l)] := fun t l => centroidOf_neg [(t, l)]
      have one : ∀ (t u : ℝ) (l : List (Coord ℝ)), (t = 1 ∨ t = -1) → (u = 1 ∨ u = -1) → centroidOf [(t, l)] = centroidOf [(u, l)] := by
        rintro t u l (rfl | rfl) (rfl | rfl)
        · rfl
        · rw [neg]
        · rw [neg]
        · rfl
      intro t t' h1 h2
      rw [one t' e _ h2 he, base, one 1 t _ (Or.inl rfl) h1]
    refine key _ _ ?_ ?_ <;> (unfold turnOf; split_ifs <;> simp)
  · symm
    apply centroidOf_congr
    refine .cons (by simpa using sameW_of_sameRing s s' h1 h 1) ?_
    rw [List.forall₂_map_left_iff, List.forall₂_map_right_iff]
    exact forall₂_of_mem hh (fun v v' hv hvv => by simpa using sameW_of_sameRing v v' (h2 v hv) hvv (-1))

/-! ## Translations -/

theorem segs_map {A B : Type} (f : A → B) (l : List A) : segs (l.map f) = (segs l).map (fun s => (f s.1, f s.2)) := by
  induction l with
  | nil => rfl
  | cons a l ih =>
    cases l with
    | nil => rfl
    | cons b l => simp only [List.map_cons, segs_cons] at ih ⊢; rw [ih]

theorem dist_shift (u v : ℝ) (a b : Coord ℝ) : Spec.dist (shift u v a) (shift u v b) = Spec.dist a b := by
  unfold Spec.dist shift; congr 1; ring

/-- The integrals of a moved closed ring. -/
theorem shift_integrals (u v : ℝ) (r : List (Coord ℝ)) (hc : Closed2D r) :
    shoelace (r.map (shift u v)) = shoelace r ∧ momentX (r.map (shift u v)) = momentX r + 3 * u * shoelace r ∧
    momentY (r.map (shift u v)) = momentY r + 3 * v * shoelace r ∧ lineX (r.map (shift u v)) = lineX r + u * lineLength r ∧
    lineY (r.map (shift u v)) = lineY r + v * lineLength r ∧ lineLength (r.map (shift u v)) = lineLength r := by
  have hc' : Closed2D (r.map (shift u v)) := by
    intro a b ha hb
    rw [List.head?_map, Option.map_eq_some_iff] at ha
    rw [List.getLast?_map, Option.map_eq_some_iff] at hb
    obtain ⟨a', ha', rfl⟩ := ha
    obtain ⟨b', hb', rfl⟩ := hb
    obtain ⟨h1, h2⟩ := hc a' b' ha' hb'
    simp [shift, h1, h2]
  obtain ⟨O, hO⟩ : ∃ O : Coord ℝ, O = ⟨0, 0, 0, 0⟩ := ⟨_, rfl⟩
  obtain ⟨f1, f2, f3⟩ := fan_sum (shift u v O) _ hc'
  obtain ⟨g1, g2, g3⟩ := fan_sum O _ hc
  have lin : ∀ (l : List (Coord ℝ × Coord ℝ)) (f g h : Coord ℝ × Coord ℝ → ℝ) (c : ℝ), (∀ s, f s = g s + c * h s) →
      (l.map f).sum = (l.map g).sum + c * (l.map h).sum := by
    intro l f g h c e
    induction l with
    | nil => simp
    | cons s l ih => simp only [List.map_cons, List.sum_cons, ih, e]; ring
  refine ⟨?_, ?_, ?_, ?_, ?_, ?_⟩
  · rw [← f1, ← g1, segs_map, List.map_map]; congr 1
    exact List.map_congr_left (fun s _ => by simp only [Function.comp, det, shift]; ring)
  · rw [← f2, ← g2, ← g1, segs_map, List.map_map]
    exact lin _ _ _ _ _ (fun s => by simp only [Function.comp, det, shift]; ring)
  · rw [← f3, ← g3, ← g1, segs_map, List.map_map]
    exact lin _ _ _ _ _ (fun s => by simp only [Function.comp, det, shift]; ring)
  · unfold lineX lineLength
    rw [segs_map, List.map_map]
    exact lin _ _ _ _ _ (fun s => by simp only [Function.comp, dist_shift]; simp only [shift]; ring)
  · unfold lineY lineLength
    rw [segs_map, List.map_map]
    exact lin _ _ _ _ _ (fun s => by simp only [Function.comp, dist_shift]; simp only [shift]; ring)
  · unfold lineLength
    rw [segs_map, List.map_map]; congr 1
    exact List.map_congr_left (fun s _ => by simp only [Function.comp, dist_shift])

theorem centroidOf_shift (u v : ℝ) (ws : List (ℝ × List (Coord ℝ))) (hc : ∀ w ∈ ws, Closed2D w.2 ∧ w.2 ≠ []) :
    centroidOf (ws.map (fun w => (w.1, w.2.map (shift u v)))) = (centroidOf ws).map (fun q => (q.1 + u, q.2 + v)) := by
  have W : ∀ (ws : List (ℝ × List (Coord ℝ))) (f g : List (Coord ℝ) → ℝ) (c : ℝ), (∀ w ∈ ws, f (w.2.map (shift u v)) = f w.2 + c * g w.2) →
      wsum (ws.map (fun w => (w.1, w.2.map (shift u v)))) f = wsum ws f + c * wsum ws g := by
    intro ws f g c h
    induction ws with
    | nil => simp [wsum]
    | cons w ws ih =>
      have := ih (fun w' h' => h w' (by simp [h']))
      have hw := h w (by simp)
      simp only [wsum, List.map_cons, List.sum_cons, List.map_map, Function.comp_def] at this ⊢
      rw [this, hw]; ring
  have U : ∀ (ws : List (ℝ × List (Coord ℝ))) (f g : List (Coord ℝ) → ℝ) (c : ℝ), (∀ w ∈ ws, f (w.2.map (shift u v)) = f w.2 + c * g w.2) →
      usum (ws.map (fun w => (w.1, w.2.map (shift u v)))) f = usum ws f + c * usum ws g := by
    intro ws f g c h
    induction ws with
    | nil => simp [usum]
    | cons w ws ih =>
      have := ih (fun w' h' => h w' (by simp [h']))
      have hw := h w (by simp)
      simp only [usum, List.map_cons, List.sum_cons, List.map_map, Function.comp_def] at this ⊢
      rw [this, hw]; ring
  have e1 := W ws shoelace shoelace 0 (fun w hw => by rw [(shift_integrals u v w.2 (hc w hw).1).1]; ring)
  have e2 := W ws momentX shoelace (3 * u) (fun w hw => by rw [(shift_integrals u v w.2 (hc w hw).1).2.1])
  have e3 := W ws momentY shoelace (3 * v) (fun w hw => by rw [(shift_integrals u v w.2 (hc w hw).1).2.2.1])
  have e4 := U ws lineX lineLength u (fun w hw => by rw [(shift_integrals u v w.2 (hc w hw).1).2.2.2.1])
  have e5 := U ws lineY lineLength v (fun w hw => by rw [(shift_integrals u v w.2 (hc w hw).1).2.2.2.2.1])
  have e6 := U ws lineLength lineLength 0 (fun w hw => by rw [(shift_integrals u v w.2 (hc w hw).1).2.2.2.2.2]; ring)
  have e7 := U ws headX (fun _ => 1) u (fun w hw => by
    cases h : w.2 with
    | nil => exact absurd h (hc w hw).2
    | cons a l => simp [headX, shift])
  have e8 := U ws headY (fun _ => 1) v (fun w hw => by
    cases h : w.2 with
    | nil => exact absurd h (hc w hw).2
    | cons a l => simp [headY, shift])
  have e9 : usum ws (fun _ => 1) = ws.length := by simp [usum]
  unfold centroidOf
  simp only [List.map_eq_nil_iff, List.length_map]
  by_cases hn : ws = []
  · rw [if_pos hn, if_pos hn]; rfl
  · rw [if_neg hn, if_neg hn, e1, e2, e3, e4, e5, e6, e7, e8, e9]
    simp only [zero_mul, add_zero]
    have hpos : (ws.length : ℝ) ≠ 0 := by simpa using hn
    by_cases ha : wsum ws shoelace ≠ 0
    · rw [if_pos ha, if_pos ha]
      simp only [Option.map_some]
      congr 2 <;> field_simp
    · rw [if_neg ha, if_neg ha]
      by_cases hl : usum ws lineLength ≠ 0
      · rw [if_pos hl, if_pos hl]
        simp only [Option.map_some]
        congr 2 <;> field_simp
      · rw [if_neg hl, if_neg hl]
        simp only [Option.map_some]
        congr 2 <;> field_simp

/-- A polygon moved as a whole. -/
def Moved (u v : ℝ) (p p' : Polygon ℝ) : Prop :=
  p'.shell.getCoordinates = p.shell.getCoordinates.map (shift u v) ∧
  p'.holes.map LinearRing.getCoordinates = p.holes.map (fun h => h.getCoordinates.map (shift u v))

theorem Moved.rings {u v : ℝ} {p p' : Polygon ℝ} (h : Moved u v p p') :
    ringsW p' = (ringsW p).map (fun w => (w.1, w.2.map (shift u v))) := by
  have ht : ∀ r : List (Coord ℝ), turnOf (r.map (shift u v)) = turnOf r := fun r => by unfold turnOf; rw [C34_translate]
  have : p'.holes.map (fun h => (-turnOf h.getCoordinates, h.getCoordinates))
      = p.holes.map (fun h => (-turnOf h.getCoordinates, h.getCoordinates.map (shift u v))) := by
    have := congrArg (List.map (fun r : List (Coord ℝ) => (-turnOf r, r))) h.2
    simpa [Function.comp_def, ht] using this
  rw [ringsW, this, h.1, ht, ringsW]
  simp [Function.comp_def]

theorem Moved.proper {u v : ℝ} {p p' : Polygon ℝ} (h : Moved u v p p') (hp : Proper p) : Proper p' := by
  have hc : ∀ r : List (Coord ℝ), Closed2D r → Closed2D (r.map (shift u v)) := by
    intro r hr a b ha hb
    rw [List.head?_map, Option.map_eq_some_iff] at ha
    rw [List.getLast?_map, Option.map_eq_some_iff] at hb
    obtain ⟨a', ha', rfl⟩ := ha
    obtain ⟨b', hb', rfl⟩ := hb
    obtain ⟨h1, h2⟩ := hr a' b' ha' hb'
    simp [shift, h1, h2]
  refine ⟨⟨by rw [h.1]; simpa using hp.1.1, by rw [h.1]; exact hc _ hp.1.2⟩, ?_⟩
  intro r hr
  have : r.getCoordinates ∈ p.holes.map (fun h => h.getCoordinates.map (shift u v)) := by rw [← h.2]; exact List.mem_map_of_mem hr
  obtain ⟨q, hq, e⟩ := List.mem_map.mp this
  rw [← e]
  exact ⟨by simpa using (hp.2 q hq).1, hc _ (hp.2 q hq).2⟩

/-- The centroid moves with the polygon. -/
theorem C46_translate (u v : ℝ) (p p' : Polygon ℝ) (hp : Proper p) (h : Moved u v p p') :
    ∃ c, Centroid.fromPolygon p = .ok (some c) ∧ Centroid.fromPolygon p' = .ok (some (shift u v c)) := by
  rw [C46_polygon p hp, C46_polygon p' (h.proper hp), h.rings, centroidOf_shift]
  · obtain ⟨q, hq⟩ : ∃ q, centroidOf (ringsW p) = some q := by
      unfold centroidOf
      rw [if_neg (by simp [ringsW])]
      split_ifs <;> exact ⟨_, rfl⟩
    rw [hq]
    exact ⟨_, rfl, rfl⟩
  · intro w hw
    rcases List.mem_cons.mp hw with rfl | hw
    · exact ⟨hp.1.2, hp.1.1⟩
    · obtain ⟨q, hq, rfl⟩ := List.mem_map.mp hw
      exact ⟨(hp.2 q hq).2, (hp.2 q hq).1⟩

end Verif.Props
