import Verif.Lemmas.Envelope
import Verif.Spec.Order
import Mathlib.Data.List.Perm.Basic

/-!
# C02-C05, C07, C09: envelopes

All theorems of this file hold for every scalar type whose comparisons are a total order on non-NaN values, in
particular for IEEE values under any rounding, since the operations concerned only compare.
`Env.WF` (null, or ordered sides) is the set of reachable envelopes, see `C04_wf_reachable`.
-/

set_option linter.unusedSectionVars false

namespace Verif.Props
open Flt Verif.Spec
variable {α : Type} [Flt α] [FltOrd α]

/-- The envelope grown from the null envelope by a list of points. -/
def envOf [FltLit α] (ps : List (Coord α)) : Env α := ps.foldl Env.expandToInclude Env.null

/-! ## C02 -/

/-- The two overloads of expand_to_include agree. -/
theorem C02_expand_overloads (e : Env α) (p : Coord α) :
    e.expandToInclude p = e.expandToIncludeXY p.x p.y := rfl

theorem foldl_expand_box (ps : List (Coord α)) (h : ∀ p ∈ ps, p.NN) (e : Env α) (he : e.Box) :
    (ps.foldl Env.expandToInclude e).Box ∧ (ps.foldl Env.expandToInclude e).covers e = true ∧
    (∀ p ∈ ps, (ps.foldl Env.expandToInclude e).coversCoordinate p = true) ∧
    (∀ f : Env α, f.WF → f.covers e = true → (∀ p ∈ ps, f.coversCoordinate p = true) →
      f.covers (ps.foldl Env.expandToInclude e) = true) := by
  induction ps generalizing e with
  | nil =>
    refine ⟨he, ?_, by simp, fun f _ hfe _ => hfe⟩
    rw [List.foldl_nil, he.covers_iff he]; simp
  | cons p ps ih =>
    have hp := h p (by simp)
    obtain ⟨hb, k1, k2, k3, k4⟩ := he.expandXY hp.1 hp.2
    rw [← Env.expandToInclude_eq] at hb k1 k2 k3 k4
    obtain ⟨i1, i2, i3, i4⟩ := ih (fun q hq => h q (by simp [hq])) (e.expandToInclude p) hb
    simp only [List.foldl_cons]
    rw [i1.covers_iff hb, k1, k2, k3, k4] at i2
    refine ⟨i1, ?_, ?_, ?_⟩
    · rw [i1.covers_iff he]
      refine ⟨i2.1.trans (min_le_right _ _), (le_max_right _ _).trans i2.2.1,
        i2.2.2.1.trans (min_le_right _ _), (le_max_right _ _).trans i2.2.2.2⟩
    · intro q hq
      rcases List.mem_cons.mp hq with rfl | hq
      · rw [Env.coversCoordinate, i1.coversXY_iff]
        exact ⟨hp.1, hp.2, i2.1.trans (min_le_left _ _), (le_max_left _ _).trans i2.2.1,
          i2.2.2.1.trans (min_le_left _ _), (le_max_left _ _).trans i2.2.2.2⟩
      · exact i3 q hq
    · intro f hf hfe hq
      apply i4 f hf _ (fun q hq' => hq q (by simp [hq']))
      have hpq := hq p (by simp)
      rcases hf.cases with hn | hfb
      · simp [Env.covers_null_left hn] at hfe
      · rw [hfb.covers_iff he] at hfe
        rw [Env.coversCoordinate, hfb.coversXY_iff] at hpq
        rw [hfb.covers_iff hb, k1, k2, k3, k4]
        exact ⟨le_min hpq.2.2.1 hfe.1, max_le hpq.2.2.2.1 hfe.2.1, le_min hpq.2.2.2.2.1 hfe.2.2.1,
          max_le hpq.2.2.2.2.2 hfe.2.2.2⟩

variable [FltLit α]

theorem envOf_cons (p : Coord α) (ps : List (Coord α)) :
    envOf (p :: ps) = ps.foldl Env.expandToInclude (Env.newCoordinate p) := by
  simp [envOf, Env.expandToInclude, Env.null_isNull, Env.newCoordinate]

/-- The envelope of a non-empty list of points is a proper (non-null) box that covers every point of the list. -/
theorem C02_covers_all (ps : List (Coord α)) (h : ∀ p ∈ ps, p.NN) (p : Coord α) (hp : p ∈ ps) :
    (envOf ps).coversCoordinate p = true ∧ (envOf ps).isNull = false ∧ (envOf ps).WF := by
  cases ps with
  | nil => simp at hp
  | cons q ps =>
    rw [envOf_cons]
    have hq := h q (by simp)
    obtain ⟨i1, i2, i3, -⟩ := foldl_expand_box ps (fun q hq => h q (by simp [hq])) _ (Env.newCoordinate_box hq)
    refine ⟨?_, i1.notNull, i1.wf⟩
    rcases List.mem_cons.mp hp with rfl | hp
    · rw [i1.covers_iff (Env.newCoordinate_box hq)] at i2
      rw [Env.coversCoordinate, i1.coversXY_iff]
      exact ⟨hq.1, hq.2, i2.1, i2.2.1, i2.2.2.1, i2.2.2.2⟩
    · exact i3 p hp

/-- It is the least such envelope: every envelope that covers all points covers it. -/
theorem C02_least (ps : List (Coord α)) (h : ∀ p ∈ ps, p.NN) (hne : ps ≠ []) (f : Env α) (hf : f.WF)
    (hcov : ∀ p ∈ ps, f.coversCoordinate p = true) : f.covers (envOf ps) = true := by
  cases ps with
  | nil => simp at hne
  | cons q ps =>
    rw [envOf_cons]
    have hq := h q (by simp)
    have hb := Env.newCoordinate_box hq
    obtain ⟨-, -, -, i4⟩ := foldl_expand_box ps (fun q hq => h q (by simp [hq])) _ hb
    apply i4 f hf _ (fun p hp => hcov p (by simp [hp]))
    have := hcov q (by simp)
    rcases hf.cases with hn | hfb
    · simp [Env.coversCoordinate, Env.coversXY_of_null hn] at this
    · rw [Env.coversCoordinate, hfb.coversXY_iff] at this
      rw [hfb.covers_iff hb]
      exact ⟨this.2.2.1, this.2.2.2.1, this.2.2.2.2.1, this.2.2.2.2.2⟩

/-- The result depends only on the set of points: order and multiplicity are irrelevant. -/
theorem C02_set_only (ps qs : List (Coord α)) (h : ∀ p ∈ ps, p.NN) (hs : ∀ p, p ∈ ps ↔ p ∈ qs) :
    (envOf ps).equals (envOf qs) = true := by
  cases ps with
  | nil =>
    cases qs with
    | nil => simp [envOf, Env.equals, Env.null_isNull]
    | cons q qs => have := hs q; simp at this
  | cons p ps =>
    have hq : ∀ q ∈ qs, q.NN := fun q hq => h q ((hs q).mpr hq)
    have hpq : p ∈ qs := (hs p).mp (by simp)
    obtain ⟨-, a2, a3⟩ := C02_covers_all (p :: ps) h p (by simp)
    obtain ⟨-, b2, b3⟩ := C02_covers_all qs hq p hpq
    have c1 := C02_least (p :: ps) h (by simp) _ b3
      (fun r hr => (C02_covers_all qs hq r ((hs r).mp hr)).1)
    have c2 := C02_least qs hq (by rintro rfl; simp at hpq) _ a3
      (fun r hr => (C02_covers_all (p :: ps) h r ((hs r).mpr hr)).1)
    have a := a3.box a2
    have b := b3.box b2
    rw [a.covers_iff b] at c2
    rw [b.covers_iff a] at c1
    rw [a.equals_iff b]
    exact ⟨le_antisymm c2.1 c1.1, le_antisymm c1.2.1 c2.2.1, le_antisymm c2.2.2.1 c1.2.2.1,
      le_antisymm c1.2.2.2 c2.2.2.2⟩

/-- In particular the order in which points are included does not matter. -/
theorem C02_perm (ps qs : List (Coord α)) (h : ∀ p ∈ ps, p.NN) (hs : ps.Perm qs) :
    (envOf ps).equals (envOf qs) = true :=
  C02_set_only ps qs h (fun _ => hs.mem_iff)

/-! ## C03: the null envelope is the empty set -/

/-- The default envelope and the result of set_to_null are null; null is neutral for expansion and covers, meets and contains
nothing; width, height and area-free quantities are zero; no movement resurrects it. -/
theorem C03_null_is_empty (e f : Env α) (he : e.isNull = true) :
    (Env.null : Env α).isNull = true ∧
    (∀ x y, e.coversXY x y = false) ∧ (∀ x y, e.intersectsXY x y = false) ∧
    e.covers f = false ∧ f.covers e = false ∧ e.intersects f = false ∧ f.intersects e = false ∧
    e.disjoint f = true ∧ (∀ a b, e.intersectsAB a b = false) ∧
    (e.intersection f).isNull = true ∧ (f.intersection e).isNull = true ∧
    f.expandToIncludeEnv e = f ∧
    e.width = lit 0 ∧ e.height = lit 0 ∧ e.minExtent = lit 0 ∧ e.maxExtent = lit 0 ∧
    (∀ dx dy, e.expandByXY dx dy = e) ∧ (∀ d, e.expandBy d = e) ∧ (∀ tx ty, e.translate tx ty = e) ∧
    e.centre = none ∧ (e.equals f = f.isNull) := by
  refine ⟨Env.null_isNull, ?_⟩
  have hn := Env.null_isNull (α := α)
  simp [Env.coversXY, Env.intersectsXY, Env.covers, Env.intersects, Env.disjoint, Env.intersectsAB,
    Env.intersection, Env.expandToIncludeEnv, Env.width, Env.height, Env.minExtent, Env.maxExtent,
    Env.expandByXY, Env.expandBy, Env.translate, Env.centre, Env.equals, he, hn]

/-- Expanding a null envelope by a non-null one gives that one. -/
theorem C03_expand_null (e f : Env α) (he : e.isNull = true) (hf : f.isNull = false) :
    e.expandToIncludeEnv f = f := by
  simp [Env.expandToIncludeEnv, he, hf]

/-- Among reachable envelopes the null ones are exactly those that cover no point. -/
theorem C03_null_iff_no_point (e : Env α) (h : e.WF) :
    e.isNull = true ↔ ∀ x y, e.coversXY x y = false := by
  constructor
  · intro hn x y; exact Env.coversXY_of_null hn x y
  · intro hc
    rcases h.cases with hn | hb
    · exact hn
    · have := hc e.minx e.miny
      have h2 : e.coversXY e.minx e.miny = true := by
        rw [hb.coversXY_iff]; exact ⟨hb.nx1, hb.ny1, le_refl _, hb.hx, le_refl _, hb.hy⟩
      simp [h2] at this

/-! ## C04: intersection -/

/-- Comparison-only operations that produce envelopes. -/
inductive EnvOp (α : Type) where
  | setToNull
  | init (p q : Coord α)
  | single (p : Coord α)
  | includeXY (x y : α)
  | includeCoord (p : Coord α)
  | includeEnv (p q : Coord α)
  | intersectWith (p q : Coord α)

/-- The inputs of the operation are numbers. -/
def EnvOp.NN : EnvOp α → Prop
  | .setToNull => True
  | .init p q => p.NN ∧ q.NN
  | .single p => p.NN
  | .includeXY x y => isNaN x = false ∧ isNaN y = false
  | .includeCoord p => p.NN
  | .includeEnv p q => p.NN ∧ q.NN
  | .intersectWith p q => p.NN ∧ q.NN

/-- Effect of an operation on an envelope variable. -/
def EnvOp.run (e : Env α) : EnvOp α → Env α
  | .setToNull => Env.null
  | .init p q => Env.newCoordinates p q
  | .single p => Env.newCoordinate p
  | .includeXY x y => e.expandToIncludeXY x y
  | .includeCoord p => e.expandToInclude p
  | .includeEnv p q => e.expandToIncludeEnv (Env.newCoordinates p q)
  | .intersectWith p q => e.intersection (Env.newCoordinates p q)

theorem wf_expandXY (e : Env α) (h : e.WF) (x y : α) (hx : isNaN x = false) (hy : isNaN y = false) :
    (e.expandToIncludeXY x y).WF := by
  rcases h.cases with hn | hb
  · rw [Env.expandXY_null hn]
    exact (Env.newCoordinate_box (p := ⟨x, y, x, x⟩) ⟨hx, hy⟩).wf
  · exact (hb.expandXY hx hy).1.wf

theorem wf_expandEnv (e f : Env α) (h : e.WF) (hf : f.WF) : (e.expandToIncludeEnv f).WF := by
  rcases hf.cases with hn | hb
  · simpa [Env.expandToIncludeEnv, hn] using h
  · rcases h.cases with hn' | hb'
    · rw [C03_expand_null e f hn' hb.notNull]; exact hf
    · exact (hb'.expandEnv hb).1.wf

theorem wf_intersection (e f : Env α) (h : e.WF) (hf : f.WF) : (e.intersection f).WF := by
  rcases h.cases with hn | hb
  · exact .inl (by simp [Env.intersection, hn, Env.null_isNull])
  rcases hf.cases with hn' | hb'
  · exact .inl (by simp [Env.intersection, hn', Env.null_isNull])
  cases hi : e.intersects f with
  | false => exact .inl (by simp [Env.intersection, hi, Env.null_isNull])
  | true => exact (hb.intersection hb' hi).1.wf

theorem newCoordinates_wf (p q : Coord α) (hp : p.NN) (hq : q.NN) : (Env.newCoordinates p q).WF :=
  (Env.newXY_box hp.1 hq.1 hp.2 hq.2).1.wf

/-- Every envelope obtained by a history of constructions, inclusions and intersections from numeric inputs is
null or has ordered sides. -/
theorem C04_wf_reachable (ops : List (EnvOp α)) (h : ∀ o ∈ ops, o.NN) :
    (ops.foldl EnvOp.run (Env.null : Env α)).WF := by
  suffices ∀ e : Env α, e.WF → (ops.foldl EnvOp.run e).WF from this _ (.inl Env.null_isNull)
  induction ops with
  | nil => intro e he; simpa using he
  | cons o ops ih =>
    intro e he
    have ho := h o (by simp)
    apply ih (fun o ho => h o (by simp [ho]))
    cases o with
    | setToNull => exact .inl Env.null_isNull
    | init p q => exact newCoordinates_wf p q ho.1 ho.2
    | single p => exact (Env.newCoordinate_box ho).wf
    | includeXY x y => exact wf_expandXY e he x y ho.1 ho.2
    | includeCoord p => exact wf_expandXY e he p.x p.y ho.1 ho.2
    | includeEnv p q => exact wf_expandEnv e _ he (newCoordinates_wf p q ho.1 ho.2)
    | intersectWith p q => exact wf_intersection e _ he (newCoordinates_wf p q ho.1 ho.2)

/-- A point is in the intersection iff it is in both envelopes. -/
theorem C04_intersection_pointwise (e f : Env α) (he : e.WF) (hf : f.WF) (x y : α) :
    (e.intersection f).coversXY x y = (e.coversXY x y && f.coversXY x y) := by
  rcases he.cases with hn | hb
  · simp [Env.intersection, hn, Env.coversXY_of_null, Env.null_isNull]
  rcases hf.cases with hn' | hb'
  · simp [Env.intersection, hn', Env.coversXY_of_null, Env.null_isNull]
  cases hi : e.intersects f with
  | false =>
    have : (e.intersection f) = Env.null := by simp [Env.intersection, hi]
    rw [this, Env.coversXY_of_null Env.null_isNull]
    symm
    rw [Bool.and_eq_false_iff]
    by_contra hc
    simp only [not_or, Bool.not_eq_false] at hc
    rw [hb.coversXY_iff, hb'.coversXY_iff] at hc
    have h3 : e.intersects f = true := by
      rw [hb.intersects_iff hb']
      obtain ⟨⟨_, _, a1, a2, a3, a4⟩, ⟨_, _, b1, b2, b3, b4⟩⟩ := hc
      exact ⟨b1.trans a2, a1.trans b2, b3.trans a4, a3.trans b4⟩
    simp [h3] at hi
  | true =>
    obtain ⟨ib, k1, k2, k3, k4⟩ := hb.intersection hb' hi
    rw [Bool.eq_iff_iff, ib.coversXY_iff, Bool.and_eq_true, hb.coversXY_iff, hb'.coversXY_iff, k1, k2,
      k3, k4]
    simp only [max_le_iff, le_min_iff]
    tauto

/-- The intersection is null exactly when the envelopes do not meet. -/
theorem C04_intersection_null_iff (e f : Env α) (he : e.WF) (hf : f.WF) :
    (e.intersection f).isNull = !(e.intersects f) := by
  cases hi : e.intersects f with
  | false => simp [Env.intersection, hi, Env.null_isNull]
  | true =>
    rcases he.cases with hn | hb
    · simp [Env.intersects, hn] at hi
    rcases hf.cases with hn' | hb'
    · simp [Env.intersects, hn'] at hi
    simp [(hb.intersection hb' hi).1.notNull]

omit [FltLit α] in
/-- Two envelopes intersect iff they have a common point; `disjoint` is the negation; both are symmetric. -/
theorem C04_intersects_iff_common_point (e f : Env α) (he : e.WF) (hf : f.WF) :
    (e.intersects f = true ↔ ∃ x y, e.coversXY x y = true ∧ f.coversXY x y = true) ∧
    e.intersects f = f.intersects e ∧ e.disjoint f = !(e.intersects f) := by
  refine ⟨?_, ?_, rfl⟩
  · rcases he.cases with hn | hb
    · simp [Env.intersects_null_left hn, Env.coversXY_of_null hn]
    rcases hf.cases with hn' | hb'
    · simp [Env.intersects_null_right hn', Env.coversXY_of_null hn']
    rw [hb.intersects_iff hb']
    simp only [hb.coversXY_iff, hb'.coversXY_iff]
    have := hb.hx; have := hb.hy; have := hb'.hx; have := hb'.hy
    constructor
    · rintro ⟨h1, h2, h3, h4⟩
      have hx : ∃ x : α, isNaN x = false ∧ FltOrd.key x = max (FltOrd.key e.minx) (FltOrd.key f.minx) :=
        ⟨_, Env.key_ite_max hb.nx1 hb'.nx1⟩
      have hy : ∃ y : α, isNaN y = false ∧ FltOrd.key y = max (FltOrd.key e.miny) (FltOrd.key f.miny) :=
        ⟨_, Env.key_ite_max hb.ny1 hb'.ny1⟩
      obtain ⟨x, hx1, hx2⟩ := hx
      obtain ⟨y, hy1, hy2⟩ := hy
      refine ⟨x, y, ⟨hx1, hy1, ?_⟩, ⟨hx1, hy1, ?_⟩⟩ <;> rw [hx2, hy2] <;>
        simp only [le_max_left, le_max_right, max_le_iff, true_and] <;> tauto
    · rintro ⟨x, y, ⟨_, _, a1, a2, a3, a4⟩, ⟨_, _, b1, b2, b3, b4⟩⟩
      exact ⟨b1.trans a2, a1.trans b2, b3.trans a4, a3.trans b4⟩
  · rcases he.cases with hn | hb
    · simp [Env.intersects_null_left hn, Env.intersects_null_right hn]
    rcases hf.cases with hn' | hb'
    · simp [Env.intersects_null_left hn', Env.intersects_null_right hn']
    rw [Bool.eq_iff_iff, hb.intersects_iff hb', hb'.intersects_iff hb]
    tauto

/-- Intersecting a point test: for numbers, `intersects_xy` and `covers_xy` agree; for a NaN ordinate they
disagree on every box (`intersects_xy` then ignores the NaN ordinate, `covers_xy` is false). -/
theorem C04_intersectsXY_eq_coversXY (e : Env α) (he : e.WF) (x y : α) (hx : isNaN x = false)
    (hy : isNaN y = false) : e.intersectsXY x y = e.coversXY x y := by
  rcases he.cases with hn | hb
  · simp [Env.intersectsXY, Env.coversXY, hn]
  · rw [Bool.eq_iff_iff, hb.coversXY_iff]
    simp only [Env.intersectsXY, hb.notNull, lt_eq, hb.nx1, hb.nx2, hb.ny1, hb.ny2, hx, hy]
    simp; tauto

theorem C04_intersectsXY_nan (e : Env α) (he : e.isNull = false) (x y : α) (hx : isNaN x = true)
    (hy : isNaN y = true) : e.intersectsXY x y = true ∧ e.coversXY x y = false := by
  simp [Env.intersectsXY, Env.coversXY, he, lt_eq, le_eq, hx, hy]

/-! ## C05: covering is inclusion -/

/-- `covers` between reachable envelopes is: both non-null, and every point of the second is in the first. -/
theorem C05_covers_iff_subset (e f : Env α) (he : e.WF) (hf : f.WF) :
    e.covers f = true ↔ e.isNull = false ∧ f.isNull = false ∧
      ∀ x y, f.coversXY x y = true → e.coversXY x y = true := by
  rcases he.cases with hn | hb
  · simp [Env.covers_null_left hn, hn]
  rcases hf.cases with hn' | hb'
  · simp [Env.covers_null_right hn', hn']
  rw [hb.covers_iff hb']
  simp only [hb.notNull, hb'.notNull, true_and]
  constructor
  · intro h x y hxy
    rw [hb'.coversXY_iff] at hxy
    rw [hb.coversXY_iff]
    obtain ⟨n1, n2, a1, a2, a3, a4⟩ := hxy
    exact ⟨n1, n2, h.1.trans a1, a2.trans h.2.1, h.2.2.1.trans a3, a4.trans h.2.2.2⟩
  · intro h
    have c1 := h f.minx f.miny (by
      rw [hb'.coversXY_iff]; exact ⟨hb'.nx1, hb'.ny1, le_refl _, hb'.hx, le_refl _, hb'.hy⟩)
    have c2 := h f.maxx f.maxy (by
      rw [hb'.coversXY_iff]; exact ⟨hb'.nx2, hb'.ny2, hb'.hx, le_refl _, hb'.hy, le_refl _⟩)
    rw [hb.coversXY_iff] at c1 c2
    exact ⟨c1.2.2.1, c2.2.2.2.1, c1.2.2.2.2.1, c2.2.2.2.2.2⟩

/-- `covers` is a partial order on non-null reachable envelopes, antisymmetric up to `equals`; `contains` is
the same relation and `contains_properly` its irreflexive part. -/
theorem C05_covers_partial_order (e f g : Env α) (he : e.WF) (hf : f.WF) (hg : g.WF) :
    (e.isNull = false → e.covers e = true) ∧
    (e.covers f = true → f.covers g = true → e.covers g = true) ∧
    (e.covers f = true → f.covers e = true → e.equals f = true) ∧
    e.contains f = e.covers f ∧
    (e.containsProperly f = true ↔ e.covers f = true ∧ e.equals f = false) := by
  refine ⟨?_, ?_, ?_, rfl, ?_⟩
  · intro hn; have hb := he.box hn; rw [hb.covers_iff hb]; simp
  · intro h1 h2
    rw [C05_covers_iff_subset _ _ he hf] at h1
    rw [C05_covers_iff_subset _ _ hf hg] at h2
    rw [C05_covers_iff_subset _ _ he hg]
    exact ⟨h1.1, h2.2.1, fun x y h => h1.2.2 x y (h2.2.2 x y h)⟩
  · intro h1 h2
    have n := (C05_covers_iff_subset _ _ he hf).mp h1
    have hb := he.box n.1
    have hb' := hf.box n.2.1
    rw [hb.covers_iff hb'] at h1
    rw [hb'.covers_iff hb] at h2
    rw [hb.equals_iff hb']
    exact ⟨le_antisymm h1.1 h2.1, le_antisymm h2.2.1 h1.2.1, le_antisymm h1.2.2.1 h2.2.2.1,
      le_antisymm h2.2.2.2 h1.2.2.2⟩
  · unfold Env.containsProperly; split <;> simp_all

/-- Two reachable envelopes are `equals` iff they cover the same points. -/
theorem C05_equals_iff_same_points (e f : Env α) (he : e.WF) (hf : f.WF) :
    e.equals f = true ↔ ∀ x y, e.coversXY x y = f.coversXY x y := by
  rcases he.cases with hn | hb
  · simp only [Env.equals, hn, if_true, Env.coversXY_of_null hn]
    rw [C03_null_iff_no_point f hf]
    exact ⟨fun h x y => (h x y).symm, fun h x y => (h x y).symm⟩
  rcases hf.cases with hn' | hb'
  · have : e.equals f = false := by
      simp only [Env.isNull, lt_eq, Bool.and_eq_true, decide_eq_true_eq] at hn'
      have := hb.hx
      simp only [Env.equals, hb.notNull, eq_eq, hb.nx1, hb.nx2, hb.ny1, hb.ny2]
      simp
      intro _ a _ _ _ b
      rw [← a, ← b] at hn'
      exact absurd hn'.2 (not_lt.mpr this)
    simp only [this, Env.coversXY_of_null hn']
    have h3 := (C03_null_iff_no_point e he).not
    simp only [hb.notNull] at h3
    simpa using h3
  · rw [hb.equals_iff hb']
    constructor
    · rintro ⟨h1, h2, h3, h4⟩ x y
      rw [Bool.eq_iff_iff, hb.coversXY_iff, hb'.coversXY_iff, h1, h2, h3, h4]
    · intro h
      have c1 := (C05_covers_iff_subset _ _ he hf).mpr
        ⟨hb.notNull, hb'.notNull, fun x y hxy => by rw [h]; exact hxy⟩
      have c2 := (C05_covers_iff_subset _ _ hf he).mpr
        ⟨hb'.notNull, hb.notNull, fun x y hxy => by rw [← h]; exact hxy⟩
      rw [hb.covers_iff hb'] at c1
      rw [hb'.covers_iff hb] at c2
      exact ⟨le_antisymm c1.1 c2.1, le_antisymm c2.2.1 c1.2.1, le_antisymm c1.2.2.1 c2.2.2.1,
        le_antisymm c2.2.2.2 c1.2.2.2⟩

/-- `expand_to_include` of an envelope is the least upper bound for `covers`. -/
theorem C05_expand_is_join (e f g : Env α) (he : e.WF) (hf : f.WF) (hg : g.WF)
    (hen : e.isNull = false) (hfn : f.isNull = false) :
    (e.expandToIncludeEnv f).covers e = true ∧ (e.expandToIncludeEnv f).covers f = true ∧
    (g.covers e = true → g.covers f = true → g.covers (e.expandToIncludeEnv f) = true) ∧
    (e.expandToIncludeEnv f).equals (f.expandToIncludeEnv e) = true := by
  have hb := he.box hen
  have hb' := hf.box hfn
  obtain ⟨ib, k1, k2, k3, k4⟩ := hb.expandEnv hb'
  obtain ⟨jb, l1, l2, l3, l4⟩ := hb'.expandEnv hb
  refine ⟨?_, ?_, ?_, ?_⟩
  · rw [ib.covers_iff hb, k1, k2, k3, k4]; simp
  · rw [ib.covers_iff hb', k1, k2, k3, k4]; simp
  · intro h1 h2
    rcases hg.cases with hn | hgb
    · simp [Env.covers_null_left hn] at h1
    rw [hgb.covers_iff hb] at h1
    rw [hgb.covers_iff hb'] at h2
    rw [hgb.covers_iff ib, k1, k2, k3, k4]
    exact ⟨le_min h2.1 h1.1, max_le h2.2.1 h1.2.1, le_min h2.2.2.1 h1.2.2.1, max_le h2.2.2.2 h1.2.2.2⟩
  · rw [ib.equals_iff jb, k1, k2, k3, k4, l1, l2, l3, l4]
    exact ⟨min_comm _ _, max_comm _ _, min_comm _ _, max_comm _ _⟩

/-! ## C07: comparison -/

/-- Envelope comparison is a total order on reachable envelopes with `equals` as equality; nulls come first. -/
theorem C07_compareTo_total_order :
    TotalOrderOn (Env.WF (α := α)) Env.compareTo (fun a b => a.equals b = true) where
  range a b := by unfold Env.compareTo; split_ifs <;> simp
  zero_iff a b ha hb := by
    rcases ha.cases with hn | hA
    · simp only [Env.compareTo, Env.equals, hn, if_true]
      cases b.isNull <;> simp
    rcases hb.cases with hn' | hB
    · have h1 : a.compareTo b = 1 := by simp [Env.compareTo, hA.notNull, hn']
      have h2 := (C05_equals_iff_same_points a b ha hb)
      have h3 := (C03_null_iff_no_point a ha)
      rw [h1]
      simp only [hA.notNull] at h3
      constructor
      · simp
      · intro h
        rw [h2] at h
        simp only [Env.coversXY_of_null hn'] at h
        exact absurd (h3.mpr h) (by simp)
    rw [hA.equals_iff hB]
    simp only [Env.compareTo, hA.notNull, hB.notNull, lt_eq, hA.nx1, hA.nx2, hA.ny1, hA.ny2, hB.nx1,
      hB.nx2, hB.ny1, hB.ny2]
    grind
  swap a b ha hb := by
    rcases ha.cases with hn | hA
    · rcases hb.cases with hn' | hB
      · simp [Env.compareTo, hn, hn']
      · simp [Env.compareTo, hn, hB.notNull]
    rcases hb.cases with hn' | hB
    · simp [Env.compareTo, hn', hA.notNull]
    simp only [Env.compareTo, hA.notNull, hB.notNull, lt_eq, hA.nx1, hA.nx2, hA.ny1, hA.ny2, hB.nx1,
      hB.nx2, hB.ny1, hB.ny2]
    grind
  trans a b c ha hb hc := by
    rcases ha.cases with hn | hA
    · simp only [Env.compareTo, hn]
      cases c.isNull <;> simp
    rcases hb.cases with hn' | hB
    · simp [Env.compareTo, hn', hA.notNull]
    rcases hc.cases with hn' | hC
    · simp [Env.compareTo, hn', hB.notNull]
    simp only [Env.compareTo, hA.notNull, hB.notNull, hC.notNull, lt_eq, hA.nx1, hA.nx2, hA.ny1, hA.ny2,
      hB.nx1, hB.nx2, hB.ny1, hB.ny2, hC.nx1, hC.nx2, hC.ny1, hC.ny2, Bool.not_false, Bool.true_and,
      decide_eq_true_eq]
    grind (splits := 40)

/-! ## C09: box tests on points -/

/-- The static point-in-box test agrees with building the envelope. -/
theorem C09_intersects3 (p1 p2 q : Coord α) (h1 : p1.NN) (h2 : p2.NN) :
    Env.intersects3 p1 p2 q = (Env.newCoordinates p1 p2).coversCoordinate q := by
  obtain ⟨b, k1, k2, k3, k4⟩ := Env.newXY_box h1.1 h2.1 h1.2 h2.2
  rw [← Env.newCoordinates_eq] at b k1 k2 k3 k4
  have a1 := Env.key_ite_min h1.1 h2.1
  have a2 := Env.key_ite_max h1.1 h2.1
  have a3 := Env.key_ite_min h1.2 h2.2
  have a4 := Env.key_ite_max h1.2 h2.2
  rw [Bool.eq_iff_iff, Env.coversCoordinate, b.coversXY_iff, k1, k2, k3, k4]
  rw [← a1.2, ← a2.2, ← a3.2, ← a4.2]
  simp only [Env.intersects3, le_eq, a1.1, a2.1, a3.1, a4.1]
  simp
  tauto

/-- The static box-box test agrees with building both envelopes. -/
theorem C09_intersects4 (p1 p2 q1 q2 : Coord α) (h1 : p1.NN) (h2 : p2.NN) (h3 : q1.NN) (h4 : q2.NN) :
    Env.intersects4 p1 p2 q1 q2 = (Env.newCoordinates p1 p2).intersects (Env.newCoordinates q1 q2) := by
  obtain ⟨b, k1, k2, k3, k4⟩ := Env.newXY_box h1.1 h2.1 h1.2 h2.2
  obtain ⟨c, l1, l2, l3, l4⟩ := Env.newXY_box h3.1 h4.1 h3.2 h4.2
  rw [← Env.newCoordinates_eq] at b k1 k2 k3 k4 c l1 l2 l3 l4
  rw [Bool.eq_iff_iff, b.intersects_iff c, k1, k2, k3, k4, l1, l2, l3, l4]
  obtain ⟨a1, a1'⟩ := Env.key_fmin h3.1 h4.1
  obtain ⟨a2, a2'⟩ := Env.key_fmax h3.1 h4.1
  obtain ⟨a3, a3'⟩ := Env.key_fmin h1.1 h2.1
  obtain ⟨a4, a4'⟩ := Env.key_fmax h1.1 h2.1
  obtain ⟨b1, b1'⟩ := Env.key_fmin h3.2 h4.2
  obtain ⟨b2, b2'⟩ := Env.key_fmax h3.2 h4.2
  obtain ⟨b3, b3'⟩ := Env.key_fmin h1.2 h2.2
  obtain ⟨b4, b4'⟩ := Env.key_fmax h1.2 h2.2
  simp only [Env.intersects4, lt_eq, a1, a2, a3, a4, b1, b2, b3, b4, a1', a2', a3', a4', b1', b2', b3',
    b4', Bool.not_false, Bool.true_and, decide_eq_true_eq]
  split_ifs with i1 i2 i3 i4
  all_goals try simp only [not_lt] at *
  · simp only [false_iff]; rintro ⟨_, h, _, _⟩; exact absurd h (not_le.mpr i1)
  · simp only [false_iff]; rintro ⟨h, _, _, _⟩; exact absurd h (not_le.mpr i2)
  · simp only [false_iff]; rintro ⟨_, _, _, h⟩; exact absurd h (not_le.mpr i3)
  · simp only [false_iff]; rintro ⟨_, _, h, _⟩; exact absurd h (not_le.mpr i4)
  · exact ⟨fun _ => ⟨i2, i1, i4, i3⟩, fun _ => trivial⟩

/-- The test of an envelope against the box of two points agrees with building that envelope. -/
theorem C09_intersectsAB (e : Env α) (he : e.WF) (a b : Coord α) (ha : a.NN) (hb : b.NN) :
    e.intersectsAB a b = e.intersects (Env.newCoordinates a b) := by
  rcases he.cases with hn | hB
  · simp [Env.intersectsAB, Env.intersects, hn]
  obtain ⟨c, l1, l2, l3, l4⟩ := Env.newXY_box ha.1 hb.1 ha.2 hb.2
  rw [← Env.newCoordinates_eq] at c l1 l2 l3 l4
  rw [Bool.eq_iff_iff, hB.intersects_iff c, l1, l2, l3, l4]
  obtain ⟨a1, a1'⟩ := Env.key_ite_min ha.1 hb.1
  obtain ⟨a2, a2'⟩ := Env.key_ite_max ha.1 hb.1
  obtain ⟨a3, a3'⟩ := Env.key_ite_min ha.2 hb.2
  obtain ⟨a4, a4'⟩ := Env.key_ite_max ha.2 hb.2
  rw [← a1', ← a2', ← a3', ← a4']
  simp only [Env.intersectsAB, hB.notNull]
  generalize (if a.x <. b.x then a.x else b.x) = u1 at *
  generalize (if a.x >. b.x then a.x else b.x) = u2 at *
  generalize (if a.y <. b.y then a.y else b.y) = u3 at *
  generalize (if a.y >. b.y then a.y else b.y) = u4 at *
  simp only [lt_eq, a1, a2, a3, a4, hB.nx1, hB.nx2, hB.ny1, hB.ny2, Bool.not_false, Bool.true_and,
    decide_eq_true_eq]
  grind

section examples
local notation "F" => Fl exactRounding
local notation "pt" => fun (x y : ℚ) => (Coord.xy (Fl.fin x) (Fl.fin y) : Coord F)

-- C02: a list with repetitions and an infinite ordinate
example : (∀ p ∈ [pt 1 2, pt (-3) 5, Coord.xy Fl.pinf (Fl.fin 0), pt 1 2], p.NN) ∧
    envOf [pt 1 2, pt (-3) 5, Coord.xy Fl.pinf (Fl.fin 0), pt 1 2]
      = (⟨Fl.fin (-3), Fl.pinf, Fl.fin 0, Fl.fin 5⟩ : Env F) := by decide +kernel
-- C03
example : (Env.null : Env F).isNull = true := by decide +kernel
-- C04, C05: two overlapping boxes
example : (Env.newXY (Fl.fin 0) (Fl.fin 4) (Fl.fin 0) (Fl.fin 4) : Env F).WF ∧
    (Env.newXY (Fl.fin 2) (Fl.fin 6) (Fl.fin 3) (Fl.fin 5) : Env F).WF ∧
    (Env.newXY (Fl.fin 0) (Fl.fin 4) (Fl.fin 0) (Fl.fin 4) : Env F).intersects
      (Env.newXY (Fl.fin 2) (Fl.fin 6) (Fl.fin 3) (Fl.fin 5)) = true := by decide +kernel
example : ∃ ops : List (EnvOp F), (∀ o ∈ ops, o.NN) ∧ ops.length = 3 ∧
    (ops.foldl EnvOp.run Env.null).isNull = false :=
  ⟨[.includeCoord (pt 1 1), .includeEnv (pt 0 0) (pt 5 5), .intersectWith (pt 2 2) (pt 9 9)], by
    refine ⟨?_, rfl, by decide +kernel⟩
    intro o ho
    simp only [List.mem_cons, List.not_mem_nil, or_false] at ho
    rcases ho with rfl | rfl | rfl
    · exact ⟨rfl, rfl⟩
    · exact ⟨⟨rfl, rfl⟩, ⟨rfl, rfl⟩⟩
    · exact ⟨⟨rfl, rfl⟩, ⟨rfl, rfl⟩⟩⟩
-- C07
example : (Env.newXY (Fl.fin 0) (Fl.fin 4) (Fl.fin 0) (Fl.fin 4) : Env F).compareTo
      (Env.newXY (Fl.fin 0) (Fl.fin 4) (Fl.fin 0) (Fl.fin 5)) = -1 := by decide +kernel
-- C09
example : Env.intersects4 (pt 0 0) (pt 2 2) (pt 2 1) (pt 5 9) = true ∧
    Env.intersects3 (pt 0 0) (pt 2 2) (pt 2 3) = false := by decide +kernel
end examples

end Verif.Props
