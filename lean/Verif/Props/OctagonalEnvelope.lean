import Verif.Model.OctagonalEnvelope
import Verif.Lemmas.Flt
import Verif.Lemmas.Ext
import Verif.Base.RealFlt
import Mathlib.Tactic.Linarith
import Mathlib.Tactic.Ring
import Mathlib.Tactic.FieldSimp

/-!
# C47: octagonal envelopes

`octOf ps` is the octagonal envelope grown from the null one by a list of points. The bounds theorems hold for every scalar type
whose comparisons order the non-NaN values; the statements on points of the plane are for finite points in exact arithmetic.
-/

set_option linter.unusedSectionVars false

namespace Verif.Props
open Flt

section Order
variable {α : Type} [Flt α] [FltOrd α]

/-- The four measures bounded by an octagonal envelope: x, y, x + y, x - y. -/
inductive Axis | x | y | sum | diff
  deriving DecidableEq

/-- The value of a point along an axis. -/
def Axis.of (k : Axis) (p : Coord α) : α :=
  match k with
  | .x => p.x
  | .y => p.y
  | .sum => p.x +. p.y
  | .diff => p.x -. p.y

/-- The lower and upper bound an envelope keeps for an axis. -/
def Axis.lo (k : Axis) (o : Oct α) : α := match k with | .x => o.minx | .y => o.miny | .sum => o.mina | .diff => o.minb
def Axis.hi (k : Axis) (o : Oct α) : α := match k with | .x => o.maxx | .y => o.maxy | .sum => o.maxa | .diff => o.maxb

/-- None of the four measures of the point is NaN. -/
def Measurable4 (p : Coord α) : Prop := ∀ k : Axis, isNaN (k.of p) = false

/-- The envelope grown from the null one. -/
def octOf (ps : List (Coord α)) : Oct α := ps.foldl Oct.expandToInclude Oct.default

def lowFold (k : Axis) (m : α) (l : List (Coord α)) : α := l.foldl (fun m q => if k.of q <. m then k.of q else m) m
def highFold (k : Axis) (m : α) (l : List (Coord α)) : α := l.foldl (fun m q => if k.of q >. m then k.of q else m) m

theorem lowFold_nn (k : Axis) (m : α) (l : List (Coord α)) (hm : isNaN m = false) (h : ∀ q ∈ l, Measurable4 q) :
    isNaN (lowFold k m l) = false := by
  induction l generalizing m with
  | nil => exact hm
  | cons q l ih =>
    rw [lowFold, List.foldl_cons]
    apply ih _ _ (fun r hr => h r (by simp [hr]))
    split_ifs
    · exact h q (by simp) k
    · exact hm

theorem foldl_oct (o : Oct α) (l : List (Coord α)) (ho : isNaN o.minx = false) (h : ∀ q ∈ l, Measurable4 q) :
    l.foldl Oct.expandToInclude o =
      ⟨lowFold .x o.minx l, highFold .x o.maxx l, lowFold .y o.miny l, highFold .y o.maxy l,
       lowFold .sum o.mina l, highFold .sum o.maxa l, lowFold .diff o.minb l, highFold .diff o.maxb l⟩ := by
  induction l generalizing o with
  | nil => rfl
  | cons q l ih =>
    have hq := h q (by simp)
    rw [List.foldl_cons]
    have e : o.expandToInclude q =
        ⟨if q.x <. o.minx then q.x else o.minx, if q.x >. o.maxx then q.x else o.maxx,
         if q.y <. o.miny then q.y else o.miny, if q.y >. o.maxy then q.y else o.maxy,
         if q.x +. q.y <. o.mina then q.x +. q.y else o.mina, if q.x +. q.y >. o.maxa then q.x +. q.y else o.maxa,
         if q.x -. q.y <. o.minb then q.x -. q.y else o.minb, if q.x -. q.y >. o.maxb then q.x -. q.y else o.maxb⟩ := by
      rw [Oct.expandToInclude, Oct.expandToIncludeXY, Oct.isNull, ho]; rfl
    rw [e, ih _ _ (fun r hr => h r (by simp [hr]))]
    · rfl
    · dsimp only
      split_ifs
      · exact hq .x
      · exact ho

theorem octOf_cons (hnan : isNaN (nan : α) = true) (p : Coord α) (l : List (Coord α)) (h : ∀ q ∈ p :: l, Measurable4 q) :
    octOf (p :: l) =
      ⟨lowFold .x p.x l, highFold .x p.x l, lowFold .y p.y l, highFold .y p.y l,
       lowFold .sum (p.x +. p.y) l, highFold .sum (p.x +. p.y) l, lowFold .diff (p.x -. p.y) l, highFold .diff (p.x -. p.y) l⟩ := by
  have e : (Oct.default : Oct α).expandToInclude p = ⟨p.x, p.x, p.y, p.y, p.x +. p.y, p.x +. p.y, p.x -. p.y, p.x -. p.y⟩ := by
    rw [Oct.expandToInclude, Oct.expandToIncludeXY, Oct.isNull, Oct.default, hnan]; rfl
  rw [octOf, List.foldl_cons, e, foldl_oct _ _ (h p (by simp) .x) (fun q hq => h q (by simp [hq]))]

theorem lowFold_spec (k : Axis) (m : α) (l : List (Coord α)) (hm : isNaN m = false) (h : ∀ q ∈ l, Measurable4 q) :
    (lowFold k m l = m ∨ ∃ q ∈ l, lowFold k m l = k.of q) ∧ (lowFold k m l ≤. m) = true ∧
      ∀ q ∈ l, (lowFold k m l ≤. k.of q) = true := by
  induction l generalizing m with
  | nil => simp [lowFold, le_eq, hm]
  | cons q l ih =>
    have hq := h q (by simp) k
    have hn : isNaN (if k.of q <. m then k.of q else m) = false := by split_ifs <;> assumption
    obtain ⟨h1, h2, h3⟩ := ih (if k.of q <. m then k.of q else m) hn (fun r hr => h r (by simp [hr]))
    have e : lowFold k m (q :: l) = lowFold k (if k.of q <. m then k.of q else m) l := rfl
    rw [e]
    have hv := lowFold_nn k _ l hn (fun r hr => h r (by simp [hr]))
    generalize lowFold k (if k.of q <. m then k.of q else m) l = v at *
    refine ⟨?_, ?_, ?_⟩
    · rcases h1 with h1 | ⟨r, hr, h1⟩
      · split_ifs at h1
        · exact .inr ⟨q, by simp, h1⟩
        · exact .inl h1
      · exact .inr ⟨r, by simp [hr], h1⟩
    · simp only [lt_eq, le_eq] at *
      split_ifs at h2 <;> grind
    · intro r hr
      rcases List.mem_cons.mp hr with rfl | hr
      · simp only [lt_eq, le_eq] at *
        split_ifs at h2 <;> grind
      · exact h3 r hr

theorem highFold_spec (k : Axis) (m : α) (l : List (Coord α)) (hm : isNaN m = false) (h : ∀ q ∈ l, Measurable4 q) :
    (highFold k m l = m ∨ ∃ q ∈ l, highFold k m l = k.of q) ∧ (m ≤. highFold k m l) = true ∧
      ∀ q ∈ l, (k.of q ≤. highFold k m l) = true := by
  induction l generalizing m with
  | nil => simp [highFold, le_eq, hm]
  | cons q l ih =>
    have hq := h q (by simp) k
    have hn : isNaN (if k.of q >. m then k.of q else m) = false := by split_ifs <;> assumption
    obtain ⟨h1, h2, h3⟩ := ih (if k.of q >. m then k.of q else m) hn (fun r hr => h r (by simp [hr]))
    have e : highFold k m (q :: l) = highFold k (if k.of q >. m then k.of q else m) l := rfl
    rw [e]
    generalize highFold k (if k.of q >. m then k.of q else m) l = v at *
    refine ⟨?_, ?_, ?_⟩
    · rcases h1 with h1 | ⟨r, hr, h1⟩
      · split_ifs at h1
        · exact .inr ⟨q, by simp, h1⟩
        · exact .inl h1
      · exact .inr ⟨r, by simp [hr], h1⟩
    · simp only [lt_eq, le_eq] at *
      split_ifs at h2 <;> grind
    · intro r hr
      rcases List.mem_cons.mp hr with rfl | hr
      · simp only [lt_eq, le_eq] at *
        split_ifs at h2 <;> grind
      · exact h3 r hr

/-- C47: the envelope of a non-empty list of points is not null, and along each of the four axes its bounds are the least and the
greatest value attained by a point of the list. -/
theorem C47_bounds_partial (hnan : isNaN (nan : α) = true) (ps : List (Coord α)) (hne : ps ≠ []) (h : ∀ q ∈ ps, Measurable4 q) :
    (octOf ps).isNull = false ∧ ∀ k : Axis,
      (∃ q ∈ ps, k.lo (octOf ps) = k.of q) ∧ (∃ q ∈ ps, k.hi (octOf ps) = k.of q) ∧
      ∀ q ∈ ps, (k.lo (octOf ps) ≤. k.of q) = true ∧ (k.of q ≤. k.hi (octOf ps)) = true := by
  obtain ⟨p, l, rfl⟩ := List.exists_cons_of_ne_nil hne
  have hp := h p (by simp)
  have hl : ∀ q ∈ l, Measurable4 q := fun q hq => h q (by simp [hq])
  rw [octOf_cons hnan p l h]
  refine ⟨lowFold_nn .x _ l (hp .x) hl, ?_⟩
  intro k
  have e1 : ∀ a b c d e f g i : α, (⟨a, b, c, d, e, f, g, i⟩ : Oct α).isNull = isNaN a := fun _ _ _ _ _ _ _ _ => rfl
  have key : k.lo (⟨lowFold .x p.x l, highFold .x p.x l, lowFold .y p.y l, highFold .y p.y l,
       lowFold .sum (p.x +. p.y) l, highFold .sum (p.x +. p.y) l, lowFold .diff (p.x -. p.y) l, highFold .diff (p.x -. p.y) l⟩ : Oct α)
        = lowFold k (k.of p) l ∧
      k.hi (⟨lowFold .x p.x l, highFold .x p.x l, lowFold .y p.y l, highFold .y p.y l,
       lowFold .sum (p.x +. p.y) l, highFold .sum (p.x +. p.y) l, lowFold .diff (p.x -. p.y) l, highFold .diff (p.x -. p.y) l⟩ : Oct α)
        = highFold k (k.of p) l := by cases k <;> exact ⟨rfl, rfl⟩
  rw [key.1, key.2]
  obtain ⟨a1, a2, a3⟩ := lowFold_spec k (k.of p) l (hp k) hl
  obtain ⟨b1, b2, b3⟩ := highFold_spec k (k.of p) l (hp k) hl
  refine ⟨?_, ?_, ?_⟩
  · rcases a1 with e | ⟨q, hq, e⟩
    · exact ⟨p, by simp, e⟩
    · exact ⟨q, by simp [hq], e⟩
  · rcases b1 with e | ⟨q, hq, e⟩
    · exact ⟨p, by simp, e⟩
    · exact ⟨q, by simp [hq], e⟩
  · intro q hq
    rcases List.mem_cons.mp hq with rfl | hq
    · exact ⟨a2, b2⟩
    · exact ⟨a3 q hq, b3 q hq⟩

theorem lt_not_le (a b : α) (ha : isNaN a = false) (hb : isNaN b = false) : (b <. a) = !(a ≤. b) := by
  rw [Bool.eq_iff_iff]
  simp [lt_eq, le_eq, ha, hb]

theorem forall_axis (P : Axis → Prop) : (∀ k, P k) ↔ P .x ∧ P .y ∧ P .sum ∧ P .diff :=
  ⟨fun h => ⟨h _, h _, h _, h _⟩, fun h k => by cases k <;> simp [h]⟩

/-- What the point test decides: the point lies between the bounds along every axis (with no NaN involved). -/
theorem intersectsCoordinate_iff (o : Oct α) (p : Coord α) (hp : Measurable4 p)
    (ho : ∀ k : Axis, isNaN (k.lo o) = false ∧ isNaN (k.hi o) = false) :
    o.intersectsCoordinate p = true ↔ ∀ k : Axis, (k.lo o ≤. k.of p) = true ∧ (k.of p ≤. k.hi o) = true := by
  have hx := hp .x; have hy := hp .y; have hs := hp .sum; have hd := hp .diff
  have ox := ho .x; have oy := ho .y; have os := ho .sum; have od := ho .diff
  simp only [Axis.of, Axis.lo, Axis.hi] at hx hy hs hd ox oy os od
  rw [forall_axis]
  simp only [Axis.of, Axis.lo, Axis.hi]
  unfold Oct.intersectsCoordinate Oct.computeA Oct.computeB
  dsimp only
  rw [lt_not_le _ _ ox.1 hx, lt_not_le _ _ hx ox.2, lt_not_le _ _ oy.1 hy, lt_not_le _ _ hy oy.2, lt_not_le _ _ os.1 hs, lt_not_le _ _ hs os.2, lt_not_le _ _ od.1 hd, lt_not_le _ _ hd od.2]
  cases (o.minx ≤. p.x) <;> cases (p.x ≤. o.maxx) <;> cases (o.miny ≤. p.y) <;> cases (p.y ≤. o.maxy) <;>
    cases (o.mina ≤. p.x +. p.y) <;> cases (p.x +. p.y ≤. o.maxa) <;> cases (o.minb ≤. p.x -. p.y) <;>
    cases (p.x -. p.y ≤. o.maxb) <;> simp

theorem bounds_nn (hnan : isNaN (nan : α) = true) (ps : List (Coord α)) (hne : ps ≠ []) (h : ∀ q ∈ ps, Measurable4 q) (k : Axis) :
    isNaN (k.lo (octOf ps)) = false ∧ isNaN (k.hi (octOf ps)) = false := by
  obtain ⟨⟨q, hq, e⟩, ⟨r, hr, e'⟩, -⟩ := (C47_bounds_partial hnan ps hne h).2 k
  rw [e, e']
  exact ⟨h q hq k, h r hr k⟩

/-- C47: the envelope of a list of points intersects each of them. -/
theorem C47_contains_points_partial (hnan : isNaN (nan : α) = true) (ps : List (Coord α)) (h : ∀ q ∈ ps, Measurable4 q) (p : Coord α)
    (hp : p ∈ ps) : (octOf ps).intersectsCoordinate p = true := by
  have hne : ps ≠ [] := List.ne_nil_of_mem hp
  rw [intersectsCoordinate_iff _ _ (h p hp) (bounds_nn hnan ps hne h)]
  exact fun k => ((C47_bounds_partial hnan ps hne h).2 k).2.2 p hp

/-- What the containment test of two envelopes decides. -/
theorem contains_iff (o o' : Oct α) :
    o.contains o' = true ↔ (o.isNull = false ∧ o'.isNull = false ∧
      ∀ k : Axis, (k.lo o ≤. k.lo o') = true ∧ (k.hi o' ≤. k.hi o) = true) := by
  rw [Oct.contains]
  cases h1 : o.isNull <;> cases h2 : o'.isNull <;> simp
  constructor
  · rintro ⟨⟨⟨⟨⟨⟨⟨a1, a2⟩, a3⟩, a4⟩, a5⟩, a6⟩, a7⟩, a8⟩ k
    cases k
    · exact ⟨a1, a2⟩
    · exact ⟨a3, a4⟩
    · exact ⟨a5, a6⟩
    · exact ⟨a7, a8⟩
  · intro h
    have kx := h .x; have ky := h .y; have ks := h .sum; have kd := h .diff
    exact ⟨⟨⟨⟨⟨⟨⟨kx.1, kx.2⟩, ky.1⟩, ky.2⟩, ks.1⟩, ks.2⟩, kd.1⟩, kd.2⟩

/-- C47: it is the least such envelope. A (non-null, NaN-free) octagonal envelope contains the one of the list iff it intersects
each of the points. -/
theorem C47_least_partial (hnan : isNaN (nan : α) = true) (ps : List (Coord α)) (hne : ps ≠ []) (h : ∀ q ∈ ps, Measurable4 q) (o : Oct α)
    (ho : ∀ k : Axis, isNaN (k.lo o) = false ∧ isNaN (k.hi o) = false) :
    o.contains (octOf ps) = true ↔ ∀ p ∈ ps, o.intersectsCoordinate p = true := by
  obtain ⟨b1, b2⟩ := C47_bounds_partial hnan ps hne h
  rw [contains_iff]
  constructor
  · rintro ⟨-, -, hk⟩ p hp
    rw [intersectsCoordinate_iff _ _ (h p hp) ho]
    intro k
    have := hk k
    obtain ⟨-, -, b3⟩ := b2 k
    have := b3 p hp
    have := h p hp k
    simp only [le_eq] at *
    grind
  · intro hi
    refine ⟨(ho .x).1, b1, ?_⟩
    intro k
    obtain ⟨⟨q, hq, e⟩, ⟨r, hr, e'⟩, -⟩ := b2 k
    rw [e, e']
    have h1 := (intersectsCoordinate_iff _ _ (h q hq) ho).1 (hi q hq) k
    have h2 := (intersectsCoordinate_iff _ _ (h r hr) ho).1 (hi r hr) k
    exact ⟨h1.1, h2.2⟩

/-- What the intersection test of two envelopes decides: the ranges overlap along every axis. -/
theorem intersects_iff (o o' : Oct α) (ho : ∀ k : Axis, isNaN (k.lo o) = false ∧ isNaN (k.hi o) = false)
    (ho' : ∀ k : Axis, isNaN (k.lo o') = false ∧ isNaN (k.hi o') = false) :
    o.intersects o' = true ↔ ∀ k : Axis, (k.lo o ≤. k.hi o') = true ∧ (k.lo o' ≤. k.hi o) = true := by
  have n1 : o.isNull = false := (ho .x).1
  have n2 : o'.isNull = false := (ho' .x).1
  have ox := ho .x; have oy := ho .y; have os := ho .sum; have od := ho .diff
  have px := ho' .x; have py := ho' .y; have ps := ho' .sum; have pd := ho' .diff
  simp only [Axis.lo, Axis.hi] at ox oy os od px py ps pd
  rw [forall_axis]
  simp only [Axis.lo, Axis.hi]
  rw [Oct.intersects, n1, n2, lt_not_le _ _ ox.1 px.2, lt_not_le _ _ px.1 ox.2, lt_not_le _ _ oy.1 py.2, lt_not_le _ _ py.1 oy.2,
    lt_not_le _ _ os.1 ps.2, lt_not_le _ _ ps.1 os.2, lt_not_le _ _ od.1 pd.2, lt_not_le _ _ pd.1 od.2]
  cases (o.minx ≤. o'.maxx) <;> cases (o'.minx ≤. o.maxx) <;> cases (o.miny ≤. o'.maxy) <;> cases (o'.miny ≤. o.maxy) <;>
    cases (o.mina ≤. o'.maxa) <;> cases (o'.mina ≤. o.maxa) <;> cases (o.minb ≤. o'.maxb) <;> cases (o'.minb ≤. o.maxb) <;> simp

/-- C47: a null envelope neither contains nor intersects any envelope, and is contained in none. -/
theorem C47_null (o o' : Oct α) (h : o.isNull = true) :
    o.contains o' = false ∧ o'.contains o = false ∧ o.intersects o' = false ∧ o'.intersects o = false := by
  simp [Oct.contains, Oct.intersects, h]

theorem lowFold_append (k : Axis) (m : α) (l : List (Coord α)) (q : Coord α) (l' : List (Coord α)) (hm : isNaN m = false)
    (h : ∀ r ∈ l, Measurable4 r) (h' : ∀ r ∈ q :: l', Measurable4 r) :
    lowFold k m (l ++ q :: l') =
      if lowFold k (k.of q) l' <. lowFold k m l then lowFold k (k.of q) l' else lowFold k m l := by
  have hv := lowFold_nn k m l hm h
  have e : lowFold k m (l ++ q :: l') = lowFold k (lowFold k m l) (q :: l') := by
    rw [lowFold, List.foldl_append]; rfl
  rw [e]
  generalize lowFold k m l = v at *
  clear h hm e m
  induction l' generalizing v q with
  | nil => rfl
  | cons r l' ih =>
    have hq := h' q (by simp) k
    have hr := h' r (by simp) k
    have e1 : lowFold k v (q :: r :: l') = lowFold k (if k.of q <. v then k.of q else v) (r :: l') := rfl
    have e2 : lowFold k (k.of q) (r :: l') = if lowFold k (k.of r) l' <. k.of q then lowFold k (k.of r) l' else k.of q :=
      ih r (fun t ht => h' t (List.mem_cons_of_mem _ ht)) (k.of q) hq
    have h'' : ∀ t ∈ r :: l', Measurable4 t := fun t ht => h' t (List.mem_cons_of_mem _ ht)
    have hn := lowFold_nn k (k.of r) l' hr (fun t ht => h'' t (by simp [ht]))
    rw [e1, e2, ih r h'' _ (by split_ifs <;> assumption)]
    generalize lowFold k (k.of r) l' = w at *
    simp only [lt_eq] at *
    split_ifs <;> first | rfl | (exfalso; grind)

theorem highFold_nn (k : Axis) (m : α) (l : List (Coord α)) (hm : isNaN m = false) (h : ∀ q ∈ l, Measurable4 q) :
    isNaN (highFold k m l) = false := by
  induction l generalizing m with
  | nil => exact hm
  | cons q l ih =>
    rw [highFold, List.foldl_cons]
    apply ih _ _ (fun r hr => h r (by simp [hr]))
    split_ifs
    · exact h q (by simp) k
    · exact hm

theorem highFold_append (k : Axis) (m : α) (l : List (Coord α)) (q : Coord α) (l' : List (Coord α)) (hm : isNaN m = false)
    (h : ∀ r ∈ l, Measurable4 r) (h' : ∀ r ∈ q :: l', Measurable4 r) :
    highFold k m (l ++ q :: l') =
      if highFold k (k.of q) l' >. highFold k m l then highFold k (k.of q) l' else highFold k m l := by
  have hv := highFold_nn k m l hm h
  have e : highFold k m (l ++ q :: l') = highFold k (highFold k m l) (q :: l') := by
    rw [highFold, List.foldl_append]; rfl
  rw [e]
  generalize highFold k m l = v at *
  clear h hm e m
  induction l' generalizing v q with
  | nil => rfl
  | cons r l' ih =>
    have hq := h' q (by simp) k
    have hr := h' r (by simp) k
    have e1 : highFold k v (q :: r :: l') = highFold k (if k.of q >. v then k.of q else v) (r :: l') := rfl
    have e2 : highFold k (k.of q) (r :: l') = if highFold k (k.of r) l' >. k.of q then highFold k (k.of r) l' else k.of q :=
      ih r (fun t ht => h' t (List.mem_cons_of_mem _ ht)) (k.of q) hq
    have h'' : ∀ t ∈ r :: l', Measurable4 t := fun t ht => h' t (List.mem_cons_of_mem _ ht)
    have hn := highFold_nn k (k.of r) l' hr (fun t ht => h'' t (by simp [ht]))
    rw [e1, e2, ih r h'' _ (by split_ifs <;> assumption)]
    generalize highFold k (k.of r) l' = w at *
    simp only [lt_eq] at *
    split_ifs <;> first | rfl | (exfalso; grind)

/-- C47: merging two envelopes gives the envelope of all the points. -/
theorem C47_join (hnan : isNaN (nan : α) = true) (ps qs : List (Coord α)) (hp : ∀ q ∈ ps, Measurable4 q) (hq : ∀ q ∈ qs, Measurable4 q) :
    (octOf ps).expandToIncludeOct (octOf qs) = octOf (ps ++ qs) := by
  have hd : (Oct.default : Oct α).isNull = true := hnan
  cases qs with
  | nil =>
    rw [List.append_nil, Oct.expandToIncludeOct]
    show (if (Oct.default : Oct α).isNull = true then _ else _) = _
    rw [if_pos hd]
  | cons q qs =>
    have b2 := (C47_bounds_partial hnan (q :: qs) (by simp) hq).1
    cases ps with
    | nil =>
      rw [Oct.expandToIncludeOct, if_neg (by simp [b2])]
      show (if (Oct.default : Oct α).isNull = true then _ else _) = _
      rw [if_pos hd]; rfl
    | cons p ps =>
      have b1 := (C47_bounds_partial hnan (p :: ps) (by simp) hp).1
      have hall : ∀ r ∈ p :: (ps ++ q :: qs), Measurable4 r := by
        intro r hr
        rw [← List.cons_append] at hr
        rcases List.mem_append.mp hr with hr | hr
        · exact hp r hr
        · exact hq r hr
      have hps : ∀ r ∈ ps, Measurable4 r := fun r hr => hp r (by simp [hr])
      have h0 := hp p (by simp)
      rw [Oct.expandToIncludeOct, if_neg (by simp [b2]), if_neg (by simp [b1]), List.cons_append, octOf_cons hnan _ _ hall,
        octOf_cons hnan _ _ hp, octOf_cons hnan _ _ hq,
        lowFold_append .x p.x _ _ _ (h0 .x) hps hq, highFold_append .x p.x _ _ _ (h0 .x) hps hq,
        lowFold_append .y p.y _ _ _ (h0 .y) hps hq, highFold_append .y p.y _ _ _ (h0 .y) hps hq,
        lowFold_append .sum (p.x +. p.y) _ _ _ (h0 .sum) hps hq, highFold_append .sum (p.x +. p.y) _ _ _ (h0 .sum) hps hq,
        lowFold_append .diff (p.x -. p.y) _ _ _ (h0 .diff) hps hq, highFold_append .diff (p.x -. p.y) _ _ _ (h0 .diff) hps hq]
      rfl

/-- C47: an envelope of points is valid; a copy made by the copy constructor is the same. -/
theorem C47_valid (hnan : isNaN (nan : α) = true) (ps : List (Coord α)) (h : ∀ q ∈ ps, Measurable4 q) :
    (octOf ps).isValid = true ∧ Oct.newOct (octOf ps) = octOf ps := by
  constructor
  · cases ps with
    | nil => rw [Oct.isValid, if_pos (show (octOf ([] : List (Coord α))).isNull = true from hnan)]
    | cons p ps =>
      obtain ⟨b1, b2⟩ := C47_bounds_partial hnan (p :: ps) (by simp) h
      have key : ∀ k : Axis, (k.lo (octOf (p :: ps)) ≤. k.hi (octOf (p :: ps))) = true := by
        intro k
        have := (b2 k).2.2 p (by simp)
        simp only [le_eq] at *
        grind
      have kx := key .x; have ky := key .y; have ks := key .sum; have kd := key .diff
      simp only [Axis.lo, Axis.hi] at kx ky ks kd
      rw [Oct.isValid, b1, kx, ky, ks, kd]; rfl
  · exact C47_join hnan [] ps (by simp) h

end Order

/-! ## The plane -/

/-- Bounds of an octagon each of which is attained by a point of the octagon. -/
structure TightQ (lx ux ly uy la ua lb ub : ℚ) : Prop where
  x : lx ≤ ux
  y : ly ≤ uy
  a : la ≤ ua
  b : lb ≤ ub
  a1 : lx + uy ≤ ua
  a2 : ux + ly ≤ ua
  a3 : la ≤ lx + uy
  a4 : la ≤ ux + ly
  a5 : lx + ly ≤ la
  a6 : ua ≤ ux + uy
  b1 : lx - ly ≤ ub
  b2 : ux - uy ≤ ub
  b3 : lb ≤ lx - ly
  b4 : lb ≤ ux - uy
  b5 : lx - uy ≤ lb
  b6 : ub ≤ ux - ly
  x1 : 2 * lx ≤ la + ub
  x2 : 2 * lx ≤ ua + lb
  x3 : la + ub ≤ 2 * ux
  x4 : ua + lb ≤ 2 * ux
  x5 : la + lb ≤ 2 * lx
  x6 : 2 * ux ≤ ua + ub
  y1 : 2 * ly ≤ la - lb
  y2 : 2 * ly ≤ ua - ub
  y3 : la - lb ≤ 2 * uy
  y4 : ua - ub ≤ 2 * uy
  y5 : la - ub ≤ 2 * ly
  y6 : 2 * uy ≤ ua - lb

theorem oct_meet (lx ux ly uy la ua lb ub lx' ux' ly' uy' la' ua' lb' ub' : ℚ) (t : TightQ lx ux ly uy la ua lb ub)
    (t' : TightQ lx' ux' ly' uy' la' ua' lb' ub')
    (o1 : lx ≤ ux') (o2 : lx' ≤ ux) (o3 : ly ≤ uy') (o4 : ly' ≤ uy) (o5 : la ≤ ua') (o6 : la' ≤ ua) (o7 : lb ≤ ub') (o8 : lb' ≤ ub) :
    ∃ x y : ℚ, (lx ≤ x ∧ x ≤ ux ∧ ly ≤ y ∧ y ≤ uy ∧ la ≤ x + y ∧ x + y ≤ ua ∧ lb ≤ x - y ∧ x - y ≤ ub) ∧
      (lx' ≤ x ∧ x ≤ ux' ∧ ly' ≤ y ∧ y ≤ uy' ∧ la' ≤ x + y ∧ x + y ≤ ua' ∧ lb' ≤ x - y ∧ x - y ≤ ub') := by
  obtain ⟨Lx, hLx⟩ : ∃ v, v = max lx lx' := ⟨_, rfl⟩
  obtain ⟨Ux, hUx⟩ : ∃ v, v = min ux ux' := ⟨_, rfl⟩
  obtain ⟨Ly, hLy⟩ : ∃ v, v = max ly ly' := ⟨_, rfl⟩
  obtain ⟨Uy, hUy⟩ : ∃ v, v = min uy uy' := ⟨_, rfl⟩
  obtain ⟨La, hLa⟩ : ∃ v, v = max la la' := ⟨_, rfl⟩
  obtain ⟨Ua, hUa⟩ : ∃ v, v = min ua ua' := ⟨_, rfl⟩
  obtain ⟨Lb, hLb⟩ : ∃ v, v = max lb lb' := ⟨_, rfl⟩
  obtain ⟨Ub, hUb⟩ : ∃ v, v = min ub ub' := ⟨_, rfl⟩
  obtain ⟨s1, s2, s3, s4, s5, s6, s7, s8, s9, s10, s11, s12, s13, s14, s15, s16, s17, s18, s19, s20, s21, s22, s23, s24, s25, s26, s27, s28⟩ := t
  obtain ⟨r1, r2, r3, r4, r5, r6, r7, r8, r9, r10, r11, r12, r13, r14, r15, r16, r17, r18, r19, r20, r21, r22, r23, r24, r25, r26, r27, r28⟩ := t'
  have c1 : Lx ≤ Ux := by rw [hLx, hUx]; simp [*]
  have c2 : Lx ≤ Ua - Ly := by
    rw [hLx, hUa, hLy]; rcases max_choice lx lx' with h | h <;> rcases max_choice ly ly' with h' | h' <;> rcases min_choice ua ua' with h'' | h'' <;> rw [h, h', h''] <;> linarith
  have c3 : Lx ≤ Uy + Ub := by
    rw [hLx, hUy, hUb]; rcases max_choice lx lx' with h | h <;> rcases min_choice uy uy' with h' | h' <;> rcases min_choice ub ub' with h'' | h'' <;> rw [h, h', h''] <;> linarith
  have c4 : 2 * Lx ≤ Ua + Ub := by
    rw [hLx, hUa, hUb]; rcases max_choice lx lx' with h | h <;> rcases min_choice ua ua' with h' | h' <;> rcases min_choice ub ub' with h'' | h'' <;> rw [h, h', h''] <;> linarith
  have d1 : Ly + Lb ≤ Ux := by
    rw [hLy, hLb, hUx]; rcases max_choice ly ly' with h | h <;> rcases max_choice lb lb' with h' | h' <;> rcases min_choice ux ux' with h'' | h'' <;> rw [h, h', h''] <;> linarith
  have d2 : Ly + Lb ≤ Ua - Ly := by
    rw [hLy, hLb, hUa]; rcases max_choice ly ly' with h | h <;> rcases max_choice lb lb' with h' | h' <;> rcases min_choice ua ua' with h'' | h'' <;> rw [h, h', h''] <;> linarith
  have d3 : Ly + Lb ≤ Uy + Ub := by
    have : Ly ≤ Uy := by rw [hLy, hUy]; simp [*]
    have : Lb ≤ Ub := by rw [hLb, hUb]; simp [*]
    linarith
  have d4 : 2 * (Ly + Lb) ≤ Ua + Ub := by
    have : Lb ≤ Ub := by rw [hLb, hUb]; simp [*]
    linarith
  have e1 : La - Uy ≤ Ux := by
    rw [hLa, hUy, hUx]; rcases max_choice la la' with h | h <;> rcases min_choice uy uy' with h' | h' <;> rcases min_choice ux ux' with h'' | h'' <;> rw [h, h', h''] <;> linarith
  have e2 : La - Uy ≤ Ua - Ly := by
    have : Ly ≤ Uy := by rw [hLy, hUy]; simp [*]
    have : La ≤ Ua := by rw [hLa, hUa]; simp [*]
    linarith
  have e3 : La - Uy ≤ Uy + Ub := by
    rw [hLa, hUy, hUb]; rcases max_choice la la' with h | h <;> rcases min_choice uy uy' with h' | h' <;> rcases min_choice ub ub' with h'' | h'' <;> rw [h, h', h''] <;> linarith
  have e4 : 2 * (La - Uy) ≤ Ua + Ub := by
    have : La ≤ Ua := by rw [hLa, hUa]; simp [*]
    linarith
  have f1 : La + Lb ≤ 2 * Ux := by
    rw [hLa, hLb, hUx]; rcases max_choice la la' with h | h <;> rcases max_choice lb lb' with h' | h' <;> rcases min_choice ux ux' with h'' | h'' <;> rw [h, h', h''] <;> linarith
  have f2 : La + Lb ≤ 2 * (Ua - Ly) := by
    have : La ≤ Ua := by rw [hLa, hUa]; simp [*]
    linarith
  have f3 : La + Lb ≤ 2 * (Uy + Ub) := by
    have : Lb ≤ Ub := by rw [hLb, hUb]; simp [*]
    linarith
  have f4 : La + Lb ≤ Ua + Ub := by
    have : Lb ≤ Ub := by rw [hLb, hUb]; simp [*]
    have : La ≤ Ua := by rw [hLa, hUa]; simp [*]
    linarith
  refine ⟨max (max Lx (Ly + Lb)) (max (La - Uy) ((La + Lb) / 2)), ?_⟩
  obtain ⟨x, hx⟩ : ∃ v, v = max (max Lx (Ly + Lb)) (max (La - Uy) ((La + Lb) / 2)) := ⟨_, rfl⟩
  rw [← hx]
  have x1 : Lx ≤ x := by rw [hx]; exact le_max_of_le_left (le_max_left _ _)
  have x2 : Ly + Lb ≤ x := by rw [hx]; exact le_max_of_le_left (le_max_right _ _)
  have x3 : La - Uy ≤ x := by rw [hx]; exact le_max_of_le_right (le_max_left _ _)
  have x4 : (La + Lb) / 2 ≤ x := by rw [hx]; exact le_max_of_le_right (le_max_right _ _)
  have x5 : x ≤ Ux := by rw [hx]; refine max_le (max_le ?_ ?_) (max_le ?_ ?_) <;> linarith
  have x6 : x ≤ Ua - Ly := by rw [hx]; refine max_le (max_le ?_ ?_) (max_le ?_ ?_) <;> linarith
  have x7 : x ≤ Uy + Ub := by rw [hx]; refine max_le (max_le ?_ ?_) (max_le ?_ ?_) <;> linarith
  have x8 : x ≤ (Ua + Ub) / 2 := by rw [hx]; refine max_le (max_le ?_ ?_) (max_le ?_ ?_) <;> linarith
  refine ⟨max Ly (max (La - x) (x - Ub)), ?_⟩
  obtain ⟨y, hy⟩ : ∃ v, v = max Ly (max (La - x) (x - Ub)) := ⟨_, rfl⟩
  rw [← hy]
  have y1 : Ly ≤ y := by rw [hy]; exact le_max_left _ _
  have y2 : La - x ≤ y := by rw [hy]; exact le_max_of_le_right (le_max_left _ _)
  have y3 : x - Ub ≤ y := by rw [hy]; exact le_max_of_le_right (le_max_right _ _)
  have g : Ly ≤ Uy := by rw [hLy, hUy]; simp [*]
  have g2 : La ≤ Ua := by rw [hLa, hUa]; simp [*]
  have g3 : Lb ≤ Ub := by rw [hLb, hUb]; simp [*]
  have y4 : y ≤ Uy := by rw [hy]; refine max_le ?_ (max_le ?_ ?_) <;> linarith
  have y5 : y ≤ Ua - x := by rw [hy]; refine max_le ?_ (max_le ?_ ?_) <;> linarith
  have y6 : y ≤ x - Lb := by rw [hy]; refine max_le ?_ (max_le ?_ ?_) <;> linarith
  have m1 := le_max_left lx lx'; have m2 := le_max_right lx lx'; have m3 := min_le_left ux ux'; have m4 := min_le_right ux ux'
  have m5 := le_max_left ly ly'; have m6 := le_max_right ly ly'; have m7 := min_le_left uy uy'; have m8 := min_le_right uy uy'
  have m9 := le_max_left la la'; have m10 := le_max_right la la'; have m11 := min_le_left ua ua'; have m12 := min_le_right ua ua'
  have m13 := le_max_left lb lb'; have m14 := le_max_right lb lb'; have m15 := min_le_left ub ub'; have m16 := min_le_right ub ub'
  rw [← hLx] at m1 m2; rw [← hUx] at m3 m4; rw [← hLy] at m5 m6; rw [← hUy] at m7 m8
  rw [← hLa] at m9 m10; rw [← hUa] at m11 m12; rw [← hLb] at m13 m14; rw [← hUb] at m15 m16
  clear hLx hUx hLy hUy hLa hUa hLb hUb hx hy
  refine ⟨⟨?_, ?_, ?_, ?_, ?_, ?_, ?_, ?_⟩, ?_, ?_, ?_, ?_, ?_, ?_, ?_, ?_⟩ <;> linarith

/-- A finite point. -/
def fpt (p : ℚ × ℚ) : Coord EQ := Coord.xy (.fin p.1) (.fin p.2)

/-- The value of a rational point along an axis. -/
def Axis.val (k : Axis) (p : ℚ × ℚ) : ℚ := match k with | .x => p.1 | .y => p.2 | .sum => p.1 + p.2 | .diff => p.1 - p.2

theorem of_fpt (k : Axis) (p : ℚ × ℚ) : k.of (fpt p) = .fin (k.val p) := by cases k <;> simp [Axis.of, Axis.val, fpt, Coord.xy]

theorem measurable_fpt (p : ℚ × ℚ) : Measurable4 (fpt p) := by intro k; rw [of_fpt]; rfl

theorem measurable_map (ps : List (ℚ × ℚ)) : ∀ q ∈ ps.map fpt, Measurable4 q := by
  intro q hq
  obtain ⟨p, -, rfl⟩ := List.mem_map.mp hq
  exact measurable_fpt p

/-- The bounds of the envelope of finite points, as rational numbers. -/
theorem fin_bounds (ps : List (ℚ × ℚ)) (hne : ps ≠ []) : ∃ lo hi : Axis → ℚ, ∀ k,
    k.lo (octOf (ps.map fpt)) = .fin (lo k) ∧ k.hi (octOf (ps.map fpt)) = .fin (hi k) ∧
    (∃ q ∈ ps, lo k = k.val q) ∧ (∃ q ∈ ps, hi k = k.val q) ∧ ∀ q ∈ ps, lo k ≤ k.val q ∧ k.val q ≤ hi k := by
  have hb := (C47_bounds_partial (α := EQ) rfl (ps.map fpt) (by simpa using hne) (measurable_map ps)).2
  have key : ∀ k : Axis, ∃ l h : ℚ, k.lo (octOf (ps.map fpt)) = .fin l ∧ k.hi (octOf (ps.map fpt)) = .fin h ∧
      (∃ q ∈ ps, l = k.val q) ∧ (∃ q ∈ ps, h = k.val q) ∧ ∀ q ∈ ps, l ≤ k.val q ∧ k.val q ≤ h := by
    intro k
    obtain ⟨⟨q, hq, e⟩, ⟨r, hr, e'⟩, h3⟩ := hb k
    obtain ⟨q, hq1, rfl⟩ := List.mem_map.mp hq
    obtain ⟨r, hr1, rfl⟩ := List.mem_map.mp hr
    rw [of_fpt] at e e'
    refine ⟨k.val q, k.val r, e, e', ⟨q, hq1, rfl⟩, ⟨r, hr1, rfl⟩, ?_⟩
    intro s hs
    have := h3 (fpt s) (List.mem_map_of_mem hs)
    rw [e, e', of_fpt] at this
    simpa using this
  choose lo hi h using key
  exact ⟨lo, hi, h⟩

/-- Point test on envelopes of finite points. -/
theorem fin_point (ps : List (ℚ × ℚ)) (hne : ps ≠ []) (lo hi : Axis → ℚ)
    (h : ∀ k : Axis, k.lo (octOf (ps.map fpt)) = .fin (lo k) ∧ k.hi (octOf (ps.map fpt)) = .fin (hi k)) (p : ℚ × ℚ) :
    (octOf (ps.map fpt)).intersectsCoordinate (fpt p) = true ↔ ∀ k : Axis, lo k ≤ k.val p ∧ k.val p ≤ hi k := by
  rw [intersectsCoordinate_iff _ _ (measurable_fpt p)
    (bounds_nn (α := EQ) rfl (ps.map fpt) (by simpa using hne) (measurable_map ps))]
  apply forall_congr'
  intro k
  rw [(h k).1, (h k).2, of_fpt]
  simp

theorem tight_of (ps : List (ℚ × ℚ)) (lo hi : Axis → ℚ)
    (h : ∀ k : Axis, (∃ q ∈ ps, lo k = k.val q) ∧ (∃ q ∈ ps, hi k = k.val q) ∧ ∀ q ∈ ps, lo k ≤ k.val q ∧ k.val q ≤ hi k) :
    TightQ (lo .x) (hi .x) (lo .y) (hi .y) (lo .sum) (hi .sum) (lo .diff) (hi .diff) := by
  have all : ∀ q ∈ ps, (lo .x ≤ q.1 ∧ q.1 ≤ hi .x) ∧ (lo .y ≤ q.2 ∧ q.2 ≤ hi .y) ∧ (lo .sum ≤ q.1 + q.2 ∧ q.1 + q.2 ≤ hi .sum) ∧
      (lo .diff ≤ q.1 - q.2 ∧ q.1 - q.2 ≤ hi .diff) :=
    fun q hq => ⟨(h .x).2.2 q hq, (h .y).2.2 q hq, (h .sum).2.2 q hq, (h .diff).2.2 q hq⟩
  obtain ⟨⟨q1, m1, e1⟩, ⟨q2, m2, e2⟩, -⟩ := h .x
  obtain ⟨⟨q3, m3, e3⟩, ⟨q4, m4, e4⟩, -⟩ := h .y
  obtain ⟨⟨q5, m5, e5⟩, ⟨q6, m6, e6⟩, -⟩ := h .sum
  obtain ⟨⟨q7, m7, e7⟩, ⟨q8, m8, e8⟩, -⟩ := h .diff
  have a1 := all q1 m1; have a2 := all q2 m2; have a3 := all q3 m3; have a4 := all q4 m4
  have a5 := all q5 m5; have a6 := all q6 m6; have a7 := all q7 m7; have a8 := all q8 m8
  simp only [Axis.val] at e1 e2 e3 e4 e5 e6 e7 e8
  clear all h m1 m2 m3 m4 m5 m6 m7 m8
  obtain ⟨⟨_, _⟩, ⟨_, _⟩, ⟨_, _⟩, _, _⟩ := a1
  obtain ⟨⟨_, _⟩, ⟨_, _⟩, ⟨_, _⟩, _, _⟩ := a2
  obtain ⟨⟨_, _⟩, ⟨_, _⟩, ⟨_, _⟩, _, _⟩ := a3
  obtain ⟨⟨_, _⟩, ⟨_, _⟩, ⟨_, _⟩, _, _⟩ := a4
  obtain ⟨⟨_, _⟩, ⟨_, _⟩, ⟨_, _⟩, _, _⟩ := a5
  obtain ⟨⟨_, _⟩, ⟨_, _⟩, ⟨_, _⟩, _, _⟩ := a6
  obtain ⟨⟨_, _⟩, ⟨_, _⟩, ⟨_, _⟩, _, _⟩ := a7
  obtain ⟨⟨_, _⟩, ⟨_, _⟩, ⟨_, _⟩, _, _⟩ := a8
  constructor <;> linarith

/-- C47: the envelopes of two lists of finite points intersect iff they have a point of the plane in common. -/
theorem C47_intersects_exact (ps qs : List (ℚ × ℚ)) (hp : ps ≠ []) (hq : qs ≠ []) :
    (octOf (ps.map fpt)).intersects (octOf (qs.map fpt)) = true ↔
      ∃ r : ℚ × ℚ, (octOf (ps.map fpt)).intersectsCoordinate (fpt r) = true ∧ (octOf (qs.map fpt)).intersectsCoordinate (fpt r) = true := by
  obtain ⟨lo, hi, h⟩ := fin_bounds ps hp
  obtain ⟨lo', hi', h'⟩ := fin_bounds qs hq
  have t := tight_of ps lo hi (fun k => (h k).2.2)
  have t' := tight_of qs lo' hi' (fun k => (h' k).2.2)
  rw [intersects_iff _ _ (bounds_nn (α := EQ) rfl (ps.map fpt) (by simpa using hp) (measurable_map ps))
    (bounds_nn (α := EQ) rfl (qs.map fpt) (by simpa using hq) (measurable_map qs))]
  have e : (∀ k : Axis, (k.lo (octOf (ps.map fpt)) ≤. k.hi (octOf (qs.map fpt))) = true ∧
      (k.lo (octOf (qs.map fpt)) ≤. k.hi (octOf (ps.map fpt))) = true) ↔ ∀ k : Axis, lo k ≤ hi' k ∧ lo' k ≤ hi k := by
    apply forall_congr'
    intro k
    rw [(h k).1, (h k).2.1, (h' k).1, (h' k).2.1]
    simp
  rw [e]
  constructor
  · intro ho
    obtain ⟨x, y, ⟨a1, a2, a3, a4, a5, a6, a7, a8⟩, b1, b2, b3, b4, b5, b6, b7, b8⟩ :=
      oct_meet _ _ _ _ _ _ _ _ _ _ _ _ _ _ _ _ t t' (ho .x).1 (ho .x).2 (ho .y).1 (ho .y).2 (ho .sum).1 (ho .sum).2
        (ho .diff).1 (ho .diff).2
    refine ⟨(x, y), (fin_point ps hp lo hi (fun k => ⟨(h k).1, (h k).2.1⟩) _).2 ?_,
      (fin_point qs hq lo' hi' (fun k => ⟨(h' k).1, (h' k).2.1⟩) _).2 ?_⟩
    · intro k; cases k <;> simp only [Axis.val] <;> constructor <;> assumption
    · intro k; cases k <;> simp only [Axis.val] <;> constructor <;> assumption
  · rintro ⟨r, h1, h2⟩ k
    have k1 := (fin_point ps hp lo hi (fun k => ⟨(h k).1, (h k).2.1⟩) _).1 h1 k
    have k2 := (fin_point qs hq lo' hi' (fun k => ⟨(h' k).1, (h' k).2.1⟩) _).1 h2 k
    exact ⟨k1.1.trans k2.2, k2.1.trans k1.2⟩

/-- C47: the envelope of one list of finite points contains that of another iff every point of the plane intersected by the second
is intersected by the first. -/
theorem C47_contains_exact (ps qs : List (ℚ × ℚ)) (hp : ps ≠ []) (hq : qs ≠ []) :
    (octOf (ps.map fpt)).contains (octOf (qs.map fpt)) = true ↔
      ∀ r : ℚ × ℚ, (octOf (qs.map fpt)).intersectsCoordinate (fpt r) = true → (octOf (ps.map fpt)).intersectsCoordinate (fpt r) = true := by
  constructor
  · intro hc r hr
    obtain ⟨lo, hi, h⟩ := fin_bounds ps hp
    obtain ⟨lo', hi', h'⟩ := fin_bounds qs hq
    have hk := ((contains_iff _ _).1 hc).2.2
    rw [fin_point ps hp lo hi (fun k => ⟨(h k).1, (h k).2.1⟩)]
    have := (fin_point qs hq lo' hi' (fun k => ⟨(h' k).1, (h' k).2.1⟩) _).1 hr
    intro k
    have e := hk k
    rw [(h k).1, (h k).2.1, (h' k).1, (h' k).2.1] at e
    have e' : lo k ≤ lo' k ∧ hi' k ≤ hi k := by simpa using e
    exact ⟨e'.1.trans (this k).1, (this k).2.trans e'.2⟩
  · intro hr
    rw [C47_least_partial (α := EQ) rfl (qs.map fpt) (by simpa using hq) (measurable_map qs) _
      (bounds_nn (α := EQ) rfl (ps.map fpt) (by simpa using hp) (measurable_map ps))]
    intro p hp'
    obtain ⟨q, hq', rfl⟩ := List.mem_map.mp hp'
    exact hr q (C47_contains_points_partial (α := EQ) rfl _ (measurable_map qs) _ hp')

/-- C47: the octagonal envelope of a (finite, non-null) envelope intersects exactly the points the envelope covers. -/
theorem C47_of_envelope (x1 x2 y1 y2 : ℚ) (hx : x1 ≤ x2) (hy : y1 ≤ y2) (p : ℚ × ℚ) :
    (Oct.newEnvelope (⟨.fin x1, .fin x2, .fin y1, .fin y2⟩ : Env EQ)).intersectsCoordinate (fpt p) =
      (⟨.fin x1, .fin x2, .fin y1, .fin y2⟩ : Env EQ).coversCoordinate (fpt p) := by
  have e : Oct.newEnvelope (⟨.fin x1, .fin x2, .fin y1, .fin y2⟩ : Env EQ) =
      octOf ([(x1, y1), (x1, y2), (x2, y1), (x2, y2)].map fpt) := rfl
  obtain ⟨lo, hi, h⟩ := fin_bounds [(x1, y1), (x1, y2), (x2, y1), (x2, y2)] (by simp)
  rw [e, Bool.eq_iff_iff, fin_point _ (by simp) lo hi (fun k => ⟨(h k).1, (h k).2.1⟩)]
  have hc : (⟨.fin x1, .fin x2, .fin y1, .fin y2⟩ : Env EQ).coversCoordinate (fpt p) = true ↔
      x1 ≤ p.1 ∧ p.1 ≤ x2 ∧ y1 ≤ p.2 ∧ p.2 ≤ y2 := by
    simp [Env.coversCoordinate, Env.coversXY, Env.isNull, fpt, Coord.xy, not_lt.mpr hx, and_assoc]
  rw [hc]
  have hb := fun k => (h k).2.2.2.2
  have ha := fun k => (h k).2.2.1
  have ha' := fun k => (h k).2.2.2.1
  simp only [List.mem_cons, List.not_mem_nil, or_false, forall_eq_or_imp, forall_eq, exists_eq_or_imp, exists_eq_left] at ha ha' hb
  rw [forall_axis]
  have b1 := hb .x; have b2 := hb .y; have b3 := hb .sum; have b4 := hb .diff
  have c1 := ha .x; have c2 := ha .y; have c1' := ha' .x; have c2' := ha' .y
  simp only [Axis.val] at *
  have f1 : lo .x = x1 := by rcases c1 with c | c | c | c <;> linarith [b1.1.1, b1.2.2.1.1]
  have f2 : hi .x = x2 := by rcases c1' with c | c | c | c <;> linarith [b1.1.2, b1.2.2.1.2]
  have f3 : lo .y = y1 := by rcases c2 with c | c | c | c <;> linarith [b2.1.1, b2.2.1.1]
  have f4 : hi .y = y2 := by rcases c2' with c | c | c | c <;> linarith [b2.1.2, b2.2.1.2]
  rw [f1, f2, f3, f4]
  constructor
  · rintro ⟨⟨h1, h2⟩, ⟨h3, h4⟩, -⟩; exact ⟨h1, h2, h3, h4⟩
  · rintro ⟨h1, h2, h3, h4⟩
    refine ⟨⟨h1, h2⟩, ⟨h3, h4⟩, ⟨?_, ?_⟩, ?_, ?_⟩
    · linarith [b3.1.1]
    · linarith [b3.2.2.2.2]
    · linarith [b4.2.1.1]
    · linarith [b4.2.2.1.2]

example : (octOf ([(0, 0), (4, 0)].map fpt)).intersects (octOf ([(3, -1), (5, 2)].map fpt)) = true := by decide +kernel
example : (octOf ([(0, 0), (4, 0), (0, 4)].map fpt)).intersects (octOf ([(3, 3), (5, 5)].map fpt)) = false := by decide +kernel
example : (octOf ([(0, 0), (4, 0), (0, 4)].map fpt)).contains (octOf ([(1, 1), (2, 2)].map fpt)) = true := by decide +kernel
example : (octOf ([(0, 0), (4, 0), (0, 4)].map fpt)).contains (octOf ([(1, 1), (3, 2)].map fpt)) = false := by decide +kernel

/-! ## Growing by a distance -/

/-- C47: growing or shrinking never leaves an invalid envelope: where opposite sides would cross, the result is null. -/
theorem C47_expand_valid {α : Type} [FltSqrt α] (hnan : isNaN (nan : α) = true) (o : Oct α) (d : α) :
    (o.expandBy d).isValid = true ∧ (o.isNull = true → o.expandBy d = o) := by
  refine ⟨?_, fun h => by rw [Oct.expandBy, if_pos h]⟩
  rw [Oct.expandBy]
  by_cases h : o.isNull = true
  · rw [if_pos h, Oct.isValid, if_pos h]
  · rw [if_neg h]
    dsimp only
    split_ifs with h1
    · rw [Oct.isValid, if_pos (show Oct.isNull (Oct.setToNull _) = true from hnan)]
    · simpa using h1

theorem real_isNull (o : Oct ℝ) : o.isNull = false := rfl

theorem real_point (o : Oct ℝ) (p : Coord ℝ) : o.intersectsCoordinate p = true ↔
    (o.minx ≤ p.x ∧ p.x ≤ o.maxx) ∧ (o.miny ≤ p.y ∧ p.y ≤ o.maxy) ∧ (o.mina ≤ p.x + p.y ∧ p.x + p.y ≤ o.maxa) ∧
      (o.minb ≤ p.x - p.y ∧ p.x - p.y ≤ o.maxb) := by
  rw [Oct.intersectsCoordinate]
  simp only [Oct.computeA, Oct.computeB, exact_lt, exact_add, exact_sub, decide_eq_true_eq]
  split_ifs <;> simp <;> grind

theorem real_expandBy (o : Oct ℝ) (d : ℝ) (hv : (Oct.isValid (⟨o.minx - d, o.maxx + d, o.miny - d, o.maxy + d,
      o.mina - √2 * d, o.maxa + √2 * d, o.minb - √2 * d, o.maxb + √2 * d⟩ : Oct ℝ)) = true) :
    o.expandBy d = ⟨o.minx - d, o.maxx + d, o.miny - d, o.maxy + d,
      o.mina - √2 * d, o.maxa + √2 * d, o.minb - √2 * d, o.maxb + √2 * d⟩ := by
  rw [Oct.expandBy, real_isNull]
  simp only [exact_sub, exact_add, exact_mul, real_sqrt, exact_lit, Rat.cast_ofNat, Bool.false_eq_true, if_false]
  rw [hv]; rfl

/-- C47: growing a valid envelope by a distance `d ≥ 0` includes every point within `d` of a point of the envelope, and the growth
is tight: each side moves by `d` measured perpendicular to it. -/
theorem C47_expand_by (o : Oct ℝ) (hv : o.isValid = true) (d : ℝ) (hd : 0 ≤ d) (p q : Coord ℝ) (hp : o.intersectsCoordinate p = true)
    (hpq : (q.x - p.x) ^ 2 + (q.y - p.y) ^ 2 ≤ d ^ 2) : (o.expandBy d).intersectsCoordinate q = true := by
  have s2 : (√2 : ℝ) ^ 2 = 2 := Real.sq_sqrt (by norm_num)
  have s0 : (0 : ℝ) ≤ √2 := Real.sqrt_nonneg 2
  rw [real_expandBy]
  · rw [real_point] at hp ⊢
    obtain ⟨⟨h1, h2⟩, ⟨h3, h4⟩, ⟨h5, h6⟩, h7, h8⟩ := hp
    obtain ⟨u, hu⟩ : ∃ u, u = q.x - p.x := ⟨_, rfl⟩
    obtain ⟨v, hvv⟩ : ∃ v, v = q.y - p.y := ⟨_, rfl⟩
    rw [← hu, ← hvv] at hpq
    have bu : |u| ≤ d := abs_le_of_sq_le_sq (by nlinarith [sq_nonneg v]) hd
    have bv : |v| ≤ d := abs_le_of_sq_le_sq (by nlinarith [sq_nonneg u]) hd
    have ba : |u + v| ≤ √2 * d := abs_le_of_sq_le_sq (by nlinarith [sq_nonneg (u - v)]) (by positivity)
    have bb : |u - v| ≤ √2 * d := abs_le_of_sq_le_sq (by nlinarith [sq_nonneg (u + v)]) (by positivity)
    rw [abs_le] at bu bv ba bb
    have ex : q.x = p.x + u := by rw [hu]; ring
    have ey : q.y = p.y + v := by rw [hvv]; ring
    dsimp only
    rw [ex, ey]
    refine ⟨⟨?_, ?_⟩, ⟨?_, ?_⟩, ⟨?_, ?_⟩, ?_, ?_⟩ <;> linarith [bu.1, bu.2, bv.1, bv.2, ba.1, ba.2, bb.1, bb.2]
  · rw [Oct.isValid, real_isNull] at hv ⊢
    simp only [exact_le, Bool.false_eq_true, if_false, Bool.and_eq_true, decide_eq_true_eq] at hv ⊢
    obtain ⟨⟨⟨h1, h2⟩, h3⟩, h4⟩ := hv
    have := mul_nonneg s0 hd
    refine ⟨⟨⟨?_, ?_⟩, ?_⟩, ?_⟩ <;> linarith

/-- C47: growing and shrinking back gives the same envelope. -/
theorem C47_expand_back (o : Oct ℝ) (hv : o.isValid = true) (d : ℝ) (hd : 0 ≤ d) : (o.expandBy d).expandBy (-d) = o := by
  have s0 : (0 : ℝ) ≤ √2 := Real.sqrt_nonneg 2
  have e : ∀ a b : ℝ, a - b - -b = a ∧ a + b + -b = a := fun a b => ⟨by ring, by ring⟩
  have hv' := hv
  rw [Oct.isValid, real_isNull] at hv'
  simp only [exact_le, Bool.false_eq_true, if_false, Bool.and_eq_true, decide_eq_true_eq] at hv'
  obtain ⟨⟨⟨h1, h2⟩, h3⟩, h4⟩ := hv'
  have := mul_nonneg s0 hd
  rw [real_expandBy o d]
  · rw [real_expandBy]
    · simp only [mul_neg, e]
    · simp only [mul_neg, e]; exact hv
  · rw [Oct.isValid, real_isNull]
    simp only [exact_le, Bool.false_eq_true, if_false, Bool.and_eq_true, decide_eq_true_eq]
    refine ⟨⟨⟨?_, ?_⟩, ?_⟩, ?_⟩ <;> linarith

example : (⟨0, 4, 0, 4, 0, 8, -4, 4⟩ : Oct ℝ).isValid = true ∧
    (⟨0, 4, 0, 4, 0, 8, -4, 4⟩ : Oct ℝ).intersectsCoordinate (Coord.xy 4 4) = true ∧ ((5 : ℝ) - 4) ^ 2 + (5 - 4) ^ 2 ≤ 2 ^ 2 := by
  refine ⟨?_, ?_, by norm_num⟩
  · rw [Oct.isValid, real_isNull]; simp
  · rw [real_point]; norm_num [Coord.xy]

/-! ## Where the code departs -/

/-- C47: the null envelope intersects the origin, although it is empty and intersects no envelope, not even that of the origin. -/
theorem C47_null_intersects_origin : (Oct.default : Oct EQ).isNull = true ∧
    (Oct.default : Oct EQ).intersectsCoordinate (fpt (0, 0)) = true ∧
    (Oct.default : Oct EQ).intersects (octOf [fpt (0, 0)]) = false := by decide +kernel

/-- C47: expanding by a null envelope adds points (the corners of its internal representation). -/
theorem C47_null_envelope_adds_points : (Env.null : Env EQ).isNull = true ∧ (Oct.newEnvelope (Env.null : Env EQ)).isNull = false ∧
    (Oct.newEnvelope (Env.null : Env EQ)).intersectsCoordinate (fpt (-1, -1)) = true := by decide +kernel

/-- C47: an infinite point leaves NaN bounds behind: no point is then ever reported outside along x + y. -/
theorem C47_infinite_point : isNaN (octOf ([Coord.xy .pinf .ninf] : List (Coord EQ))).mina = true ∧
    (octOf ([Coord.xy .pinf .ninf] : List (Coord EQ))).isNull = false := by decide +kernel

end Verif.Props
