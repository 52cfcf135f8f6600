import Verif.Props.Geometries
import Verif.Props.SequencesMore
import Verif.Props.ArrayFilters

/-!
# C114: the exact extent of exceptions with NaN, heights and measures

Normalisation of lines, envelopes kept through reversals, ordinates past the dimension and consistent dimensions: what the code does
for all inputs, and exactly when it is what C48, C51, C55 and C58 ask for.
-/

set_option linter.unusedSectionVars false

namespace Verif.Props
open Flt Verif.Spec
variable {α : Type} [Flt α]

/-! ## Normalisation of lines, with NaN -/

/-- The first pair of a coordinate in the first half and its mirror image that are not equal in the plane. -/
def firstDiff (cs : List (Coord α)) : Option (Coord α × Coord α) :=
  ((cs.zip cs.reverse).take (cs.length / 2)).find? (fun p => !(p.1.equals2D p.2))

theorem firstDiff_eq (cs : List (Coord α)) :
    firstDiff cs = (List.range' 0 (cs.length / 2)).findSome? (fun i => if h : i < cs.length ∧ cs.length - 1 - i < cs.length then
      (if !(cs[i].equals2D cs[cs.length - 1 - i]) then some (cs[i], cs[cs.length - 1 - i]) else none) else none) := by
  have e : (cs.zip cs.reverse).take (cs.length / 2) = (List.range' 0 (cs.length / 2)).filterMap (fun i => if h : i < cs.length ∧ cs.length - 1 - i < cs.length then
      some (cs[i], cs[cs.length - 1 - i]) else none) := by
    have : ∀ k, k ≤ cs.length / 2 → (cs.zip cs.reverse).take k = (List.range' 0 k).filterMap (fun i => if h : i < cs.length ∧ cs.length - 1 - i < cs.length then
      some (cs[i], cs[cs.length - 1 - i]) else none) := by
      intro k
      induction k with
      | zero => intro _; simp
      | succ k ih =>
        intro hk
        have h1 : k < cs.length := by omega
        have h2 : cs.length - 1 - k < cs.length := by omega
        rw [List.take_succ, ih (by omega), List.range'_concat, List.filterMap_append]
        congr 1
        simp only [Nat.zero_add, Nat.one_mul, List.filterMap_cons, List.filterMap_nil, dif_pos (And.intro h1 h2)]
        rw [List.getElem?_eq_getElem (by simp; exact h1)]
        simp [List.getElem_zip, List.getElem_reverse]
    exact this _ le_rfl
  rw [firstDiff, e]
  generalize List.range' 0 (cs.length / 2) = ks
  induction ks with
  | nil => rfl
  | cons k ks ih =>
    rw [List.filterMap_cons, List.findSome?_cons]
    by_cases h : k < cs.length ∧ cs.length - 1 - k < cs.length
    · simp only [dif_pos h, List.find?_cons]
      split_ifs with hc
      · rw [hc]
      · simp only [Bool.not_eq_true] at hc
        rw [hc]; exact ih
    · simp only [dif_neg h]
      exact ih

/-- C114: normalising a line looks at the first pair of mirrored coordinates that are not equal, and reverses the line exactly if
that pair is in descending order; NaN and heights are allowed. -/
theorem C114_normalize (l : LineString α) (hu : Unmeasured l.points) :
    l.normalize = .ok (match firstDiff l.points.coordinates with
      | some (a, b) => if a.compareTo b > 0 then flipped l else l
      | none => l) := by
  obtain ⟨⟨d, m, cs⟩, env⟩ := l
  simp only at *
  have hr : Seqs.reverse (⟨d, m, cs⟩ : CASeq α).copy = .ok ⟨d, m, cs.reverse⟩ := hu.reverse
  have hget : ∀ i (a : i < cs.length), CASeq.getCoordinate ⟨d, m, cs⟩ i = .ok cs[i] := fun i a => Res.get_lt a
  rw [LineString.normalize]
  rw [forFind_ok 0 _ _ (fun i => if h : i < cs.length ∧ cs.length - 1 - i < cs.length then
      (if !(cs[i].equals2D cs[cs.length - 1 - i]) then
        (if cs[i].compareTo cs[cs.length - 1 - i] > 0 then some (flipped ⟨⟨d, m, cs⟩, env⟩) else some ⟨⟨d, m, cs⟩, env⟩) else none) else none) (by
      intro i _ hi
      have hsz : (⟨d, m, cs⟩ : CASeq α).size = cs.length := rfl
      rw [hsz] at hi ⊢
      have h1 : i < cs.length := by omega
      have h2 : cs.length - 1 - i < cs.length := by omega
      rw [Res.sub_le (by omega), Res.bind_ok, Res.sub_le (by omega), Res.bind_ok, hget i h1, Res.bind_ok, hget _ h2, Res.bind_ok,
        dif_pos ⟨h1, h2⟩, hr]
      split_ifs <;> rfl), Res.bind_ok, Res.pure_eq]
  have hsz : (⟨d, m, cs⟩ : CASeq α).size = cs.length := rfl
  rw [hsz, firstDiff_eq, Nat.sub_zero]
  congr 1
  generalize List.range' 0 (cs.length / 2) = ks
  induction ks with
  | nil => rfl
  | cons k ks ih =>
    rw [List.findSome?_cons, List.findSome?_cons]
    by_cases h : k < cs.length ∧ cs.length - 1 - k < cs.length
    · simp only [dif_pos h]
      split_ifs with h1 h2
      · simp only [if_pos h2]; rfl
      · simp only [if_neg h2]; rfl
      · exact ih
    · simp only [dif_neg h]
      exact ih

section Order
variable [FltOrd α]

theorem eqv_comm (a b : α) : (a ==. b) = (b ==. a) := by
  rw [eq_eq, eq_eq, Bool.and_comm (!isNaN a)]
  congr 1
  exact decide_eq_decide.mpr eq_comm

theorem equals2D_swap (a b : Coord α) : a.equals2D b = b.equals2D a := by
  unfold Coord.equals2D
  rw [eqv_comm a.x, eqv_comm a.y]

theorem lt_not_gt {a b : α} (h : (a <. b) = true) : (b <. a) = false := by
  have := (FltOrd.lt_iff a b).mp h
  by_contra c
  simp only [Bool.not_eq_false] at c
  exact lt_asymm this.2.2 ((FltOrd.lt_iff b a).mp c).2.2

/-- The comparison of two coordinates changes sign with their order, NaN or not. -/
theorem compareTo_swap (a b : Coord α) : b.compareTo a = -a.compareTo b := by
  unfold Coord.compareTo
  by_cases h1 : (a.x <. b.x) = true
  · simp [h1, lt_not_gt h1]
  · by_cases h2 : (b.x <. a.x) = true
    · simp [h1, h2]
    · by_cases h3 : (a.y <. b.y) = true
      · simp [h1, h2, h3, lt_not_gt h3]
      · by_cases h4 : (b.y <. a.y) = true
        · simp [h1, h2, h3, h4]
        · simp [h1, h2, h3, h4]

/-- In the reversed line the first pair that differs is the same one, the other way round. -/
theorem firstDiff_reverse (cs : List (Coord α)) : firstDiff cs.reverse = (firstDiff cs).map Prod.swap := by
  unfold firstDiff
  rw [List.length_reverse, List.reverse_reverse]
  have : cs.reverse.zip cs = (cs.zip cs.reverse).map Prod.swap := (List.zip_swap cs cs.reverse).symm
  rw [this, ← List.map_take, List.find?_map]
  congr 2
  funext p
  simp only [Function.comp, Prod.fst_swap, Prod.snd_swap]
  rw [equals2D_swap]

theorem flipped_flipped (l : LineString α) : flipped (flipped l) = l := by
  obtain ⟨⟨d, m, cs⟩, env⟩ := l; simp [flipped]

/-- C114: normalising twice is normalising once, and keeps the coordinates up to their order: also with NaN. -/
theorem C114_normalize_idempotent (l : LineString α) (hu : Unmeasured l.points) :
    (l.normalize >>= LineString.normalize) = l.normalize ∧
    ∃ l', l.normalize = .ok l' ∧ (l' = l ∨ l' = flipped l) ∧ l'.points.coordinates.Perm l.points.coordinates := by
  have hf : Unmeasured (flipped l).points := hu.flip
  have e := C114_normalize l hu
  have e' := C114_normalize (flipped l) hf
  have fr : firstDiff (flipped l).points.coordinates = (firstDiff l.points.coordinates).map Prod.swap := firstDiff_reverse _
  rw [fr, flipped_flipped] at e'
  have perm : (flipped l).points.coordinates.Perm l.points.coordinates := List.reverse_perm _
  rcases h : firstDiff l.points.coordinates with _ | ⟨a, b⟩
  · rw [h] at e
    simp only at e
    rw [e, Res.bind_ok]
    exact ⟨e, l, rfl, .inl rfl, List.Perm.refl _⟩
  · rw [h] at e e'
    simp only [Option.map_some, Prod.swap] at e e'
    rw [compareTo_swap a b] at e'
    by_cases c : a.compareTo b > 0
    · rw [if_pos c] at e
      rw [if_neg (by omega)] at e'
      rw [e, Res.bind_ok]
      exact ⟨e', _, rfl, .inr rfl, perm⟩
    · rw [if_neg c] at e
      rw [e, Res.bind_ok]
      exact ⟨e, _, rfl, .inl rfl, List.Perm.refl _⟩

/-- C114: a line and its reverse have the same normal form exactly if the line is its own reverse, or the first pair of mirrored
coordinates that are not equal is in a strict order (which fails only if one of the two has NaN). -/
theorem C114_normalize_canonical (l : LineString α) (hu : Unmeasured l.points) :
    ((flipped l).normalize = l.normalize ↔ flipped l = l ∨ ∃ a b, firstDiff l.points.coordinates = some (a, b) ∧ a.compareTo b ≠ 0) ∧
    (∀ a b, firstDiff l.points.coordinates = some (a, b) → a.compareTo b = 0 → ¬ (a.NN ∧ b.NN)) := by
  have hf : Unmeasured (flipped l).points := hu.flip
  have e := C114_normalize l hu
  have e' := C114_normalize (flipped l) hf
  have fr : firstDiff (flipped l).points.coordinates = (firstDiff l.points.coordinates).map Prod.swap := firstDiff_reverse _
  rw [fr, flipped_flipped] at e'
  constructor
  · rcases h : firstDiff l.points.coordinates with _ | ⟨a, b⟩
    · rw [h] at e e'
      simp only [Option.map_none] at e e'
      rw [e, e']
      constructor
      · intro k; injection k with k; exact .inl k
      · rintro (k | ⟨a, b, k, -⟩)
        · rw [k]
        · cases k
    · rw [h] at e e'
      simp only [Option.map_some, Prod.swap] at e e'
      rw [compareTo_swap a b] at e'
      rw [e, e']
      rcases lt_trichotomy (a.compareTo b) 0 with c | c | c
      · rw [if_pos (by omega), if_neg (by omega)]
        exact ⟨fun _ => .inr ⟨a, b, rfl, by omega⟩, fun _ => rfl⟩
      · rw [if_neg (by omega), if_neg (by omega)]
        constructor
        · intro k; injection k with k; exact .inl k
        · rintro (k | ⟨a', b', k, k'⟩)
          · rw [k]
          · injection k with k; injection k with k1 k2; subst k1 k2; exact absurd c k'
      · rw [if_neg (by omega), if_pos c]
        exact ⟨fun _ => .inr ⟨a, b, rfl, by omega⟩, fun _ => rfl⟩
  · rintro a b h c ⟨ha, hb⟩
    rw [firstDiff] at h
    have := List.find?_some h
    simp only [Bool.not_eq_true'] at this
    rw [(equals_iff_compare a b ha hb).mpr c] at this
    exact absurd this (by simp)

/-! ## Envelopes with NaN -/

/-- The same number, or both NaN. -/
def Agree (a b : α) : Prop := (isNaN a = true ∧ isNaN b = true) ∨ (a ==. b) = true

/-- The same envelope, bound by bound. -/
def AgreeEnv (e f : Env α) : Prop := Agree e.minx f.minx ∧ Agree e.maxx f.maxx ∧ Agree e.miny f.miny ∧ Agree e.maxy f.maxy

/-- What an envelope says about one axis: NaN, or the least and the greatest of those ordinates that are numbers. -/
def AxisEnv (first : α) (vs : List α) (lo hi : α) : Prop :=
  (isNaN first = true → isNaN lo = true ∧ isNaN hi = true) ∧
  (isNaN first = false → lo ∈ vs ∧ hi ∈ vs ∧ isNaN lo = false ∧ isNaN hi = false ∧
    ∀ v ∈ vs, isNaN v = false → (lo ≤. v) = true ∧ (v ≤. hi) = true)

theorem AxisEnv.step {first : α} {vs : List α} {lo hi : α} (h : AxisEnv first vs lo hi) (x : α) :
    AxisEnv first (vs ++ [x]) (if x <. lo then x else lo) (if x >. hi then x else hi) := by
  constructor
  · intro hn
    obtain ⟨h1, h2⟩ := h.1 hn
    have a : ¬ (x <. lo) = true := fun k => by have := ((FltOrd.lt_iff _ _).mp k).2.1; rw [h1] at this; cases this
    have b : ¬ (hi <. x) = true := fun k => by have := ((FltOrd.lt_iff _ _).mp k).1; rw [h2] at this; cases this
    rw [if_neg a, if_neg b]
    exact ⟨h1, h2⟩
  · intro hn
    obtain ⟨m1, m2, n1, n2, h3⟩ := h.2 hn
    have low : (if x <. lo then x else lo) ∈ vs ++ [x] ∧ isNaN (if x <. lo then x else lo) = false ∧
        ∀ v ∈ vs ++ [x], isNaN v = false → ((if x <. lo then x else lo) ≤. v) = true := by
      split_ifs with c
      · have k := (FltOrd.lt_iff _ _).mp c
        refine ⟨by simp, k.1, fun v hv nv => ?_⟩
        rcases List.mem_append.mp hv with hv | hv
        · have := (FltOrd.le_iff _ _).mp (h3 v hv nv).1
          exact (FltOrd.le_iff _ _).mpr ⟨k.1, nv, k.2.2.le.trans this.2.2⟩
        · rw [List.mem_singleton.mp hv]; exact (FltOrd.le_iff _ _).mpr ⟨k.1, k.1, le_rfl⟩
      · refine ⟨by simp [m1], n1, fun v hv nv => ?_⟩
        rcases List.mem_append.mp hv with hv | hv
        · exact (h3 v hv nv).1
        · rw [List.mem_singleton.mp hv] at nv ⊢
          refine (FltOrd.le_iff _ _).mpr ⟨n1, nv, not_lt.mp fun k => c ((FltOrd.lt_iff _ _).mpr ⟨nv, n1, k⟩)⟩
    have high : (if x >. hi then x else hi) ∈ vs ++ [x] ∧ isNaN (if x >. hi then x else hi) = false ∧
        ∀ v ∈ vs ++ [x], isNaN v = false → (v ≤. (if x >. hi then x else hi)) = true := by
      split_ifs with c
      · have k := (FltOrd.lt_iff _ _).mp c
        refine ⟨by simp, k.2.1, fun v hv nv => ?_⟩
        rcases List.mem_append.mp hv with hv | hv
        · have := (FltOrd.le_iff _ _).mp (h3 v hv nv).2
          exact (FltOrd.le_iff _ _).mpr ⟨nv, k.2.1, this.2.2.trans k.2.2.le⟩
        · rw [List.mem_singleton.mp hv]; exact (FltOrd.le_iff _ _).mpr ⟨k.2.1, k.2.1, le_rfl⟩
      · refine ⟨by simp [m2], n2, fun v hv nv => ?_⟩
        rcases List.mem_append.mp hv with hv | hv
        · exact (h3 v hv nv).2
        · rw [List.mem_singleton.mp hv] at nv ⊢
          refine (FltOrd.le_iff _ _).mpr ⟨nv, n2, not_lt.mp fun k => c ((FltOrd.lt_iff _ _).mpr ⟨n2, nv, k⟩)⟩
    exact ⟨low.1, high.1, low.2.1, high.2.1, fun v hv nv => ⟨low.2.2 v hv nv, high.2.2 v hv nv⟩⟩

/-- The bounds of an axis are ordered or NaN. -/
theorem AxisEnv.not_null {first : α} {vs : List α} {lo hi : α} (h : AxisEnv first vs lo hi) : (hi <. lo) = false := by
  by_contra c
  simp only [Bool.not_eq_false] at c
  have k := (FltOrd.lt_iff _ _).mp c
  cases hn : isNaN first with
  | true => have := (h.1 hn).2; rw [k.1] at this; cases this
  | false =>
    obtain ⟨m1, m2, n1, n2, h3⟩ := h.2 hn
    have := (FltOrd.le_iff _ _).mp (h3 hi m2 n2).1
    exact absurd k.2.2 (not_lt.mpr this.2.2)

/-- The bounds do not depend on the order of the ordinates, except for which one is first. -/
theorem AxisEnv.agree {f g : α} {vs ws : List α} {a b c d : α} (h : AxisEnv f vs a b) (k : AxisEnv g ws c d) (hp : ∀ v, v ∈ vs ↔ v ∈ ws) :
    (Agree a c ∧ Agree b d ↔ isNaN f = isNaN g) := by
  cases hf : isNaN f with
  | true =>
    obtain ⟨h1, h2⟩ := h.1 hf
    cases hg : isNaN g with
    | true =>
      obtain ⟨k1, k2⟩ := k.1 hg
      exact ⟨fun _ => rfl, fun _ => ⟨.inl ⟨h1, k1⟩, .inl ⟨h2, k2⟩⟩⟩
    | false =>
      obtain ⟨-, -, k1, -, -⟩ := k.2 hg
      refine ⟨?_, fun x => by cases x⟩
      rintro ⟨⟨-, x⟩ | x, -⟩
      · rw [k1] at x; cases x
      · have := ((FltOrd.eq_iff _ _).mp x).1; rw [h1] at this; cases this
  | false =>
    obtain ⟨m1, m2, n1, n2, h3⟩ := h.2 hf
    cases hg : isNaN g with
    | true =>
      obtain ⟨k1, k2⟩ := k.1 hg
      refine ⟨?_, fun x => by cases x⟩
      rintro ⟨⟨x, -⟩ | x, -⟩
      · rw [n1] at x; cases x
      · have := ((FltOrd.eq_iff _ _).mp x).2.1; rw [k1] at this; cases this
    | false =>
      obtain ⟨m1', m2', n1', n2', h3'⟩ := k.2 hg
      refine ⟨fun _ => rfl, fun _ => ⟨.inr ((FltOrd.eq_iff _ _).mpr ⟨n1, n1', ?_⟩), .inr ((FltOrd.eq_iff _ _).mpr ⟨n2, n2', ?_⟩)⟩⟩
      · exact le_antisymm ((FltOrd.le_iff _ _).mp (h3 c ((hp c).mpr m1') n1').1).2.2 ((FltOrd.le_iff _ _).mp (h3' a ((hp a).mp m1) n1).1).2.2
      · exact le_antisymm ((FltOrd.le_iff _ _).mp (h3' b ((hp b).mp m2) n2).2).2.2 ((FltOrd.le_iff _ _).mp (h3 d ((hp d).mpr m2') n2').2).2.2

variable [FltLit α]

/-- C114: the envelope of coordinates, NaN allowed: if the first ordinate of an axis is NaN both bounds are; otherwise they are the
least and the greatest of the ordinates that are numbers. -/
theorem C114_envelope (c : Coord α) (t : List (Coord α)) :
    AxisEnv c.x ((c :: t).map Coord.x) (envOf (c :: t)).minx (envOf (c :: t)).maxx ∧
    AxisEnv c.y ((c :: t).map Coord.y) (envOf (c :: t)).miny (envOf (c :: t)).maxy ∧ (envOf (c :: t)).isNull = false := by
  have one : ∀ v : α, AxisEnv v [v] v v := fun v => ⟨fun h => ⟨h, h⟩, fun h => ⟨by simp, by simp, h, h, fun w hw nw => by
    rw [List.mem_singleton.mp hw]; exact ⟨(FltOrd.le_iff _ _).mpr ⟨h, h, le_rfl⟩, (FltOrd.le_iff _ _).mpr ⟨h, h, le_rfl⟩⟩⟩⟩
  have first : envOf [c] = ⟨c.x, c.x, c.y, c.y⟩ := by
    have : (Env.null : Env α).isNull = true := by
      have a := FltLit.nn_lit (α := α) 0 (by norm_num)
      have b := FltLit.nn_lit (α := α) (-1) (by norm_num)
      have l := FltLit.lt_lit (α := α) (-1) 0 (by norm_num) (by norm_num) (by norm_num)
      push_cast at a b l
      exact (FltOrd.lt_iff _ _).mpr ⟨b, a, l⟩
    show Env.expandToInclude Env.null c = _
    rw [Env.expandToInclude, if_pos this]
  induction t using List.reverseRecOn with
  | nil =>
    rw [first]
    exact ⟨one _, one _, (one c.x).not_null⟩
  | append_singleton t p ih =>
    obtain ⟨hx, hy, hn⟩ := ih
    have e : envOf (c :: (t ++ [p])) = (envOf (c :: t)).expandToInclude p := by
      rw [← List.cons_append]; unfold envOf; rw [List.foldl_append]; rfl
    rw [e, Env.expandToInclude, hn]
    simp only [Bool.false_eq_true, if_false]
    have x' := hx.step p.x
    have y' := hy.step p.y
    refine ⟨by simpa using x', by simpa using y', x'.not_null⟩

/-- C114: the envelope of the reversed list is the same exactly if, for x and for y, the first and the last ordinate are both NaN or both
numbers. -/
theorem C114_envelope_reverse (cs : List (Coord α)) (a b : Coord α) (ha : cs.head? = some a) (hb : cs.getLast? = some b) :
    AgreeEnv (envOf cs.reverse) (envOf cs) ↔ isNaN a.x = isNaN b.x ∧ isNaN a.y = isNaN b.y := by
  obtain ⟨t, rfl⟩ : ∃ t, cs = a :: t := by
    cases cs with
    | nil => cases ha
    | cons c t => injection ha with ha; exact ⟨t, by rw [ha]⟩
  obtain ⟨u, hu⟩ : ∃ u, (a :: t).reverse = b :: u := by
    have : (a :: t).reverse.head? = some b := by rw [List.head?_reverse]; exact hb
    cases h : (a :: t).reverse with
    | nil => rw [h] at this; cases this
    | cons c u => rw [h] at this; injection this with this; exact ⟨u, by rw [this]⟩
  have mem : ∀ (f : Coord α → α) v, v ∈ (b :: u).map f ↔ v ∈ (a :: t).map f := fun f v => by
    rw [← hu, List.map_reverse, List.mem_reverse]
  obtain ⟨x1, y1, -⟩ := C114_envelope a t
  obtain ⟨x2, y2, -⟩ := C114_envelope b u
  rw [hu]
  have kx := x2.agree x1 (mem Coord.x)
  have ky := y2.agree y1 (mem Coord.y)
  unfold AgreeEnv
  rw [eq_comm (a := isNaN a.x), eq_comm (a := isNaN a.y), ← kx, ← ky]
  tauto

theorem Agree.refl (a : α) : Agree a a := by
  unfold Agree
  rw [eq_eq]
  cases isNaN a <;> simp

theorem Agree.symm {a b : α} (h : Agree a b) : Agree b a := by
  rcases h with h | h
  · exact .inl h.symm
  · exact .inr (by rw [eqv_comm]; exact h)

theorem AgreeEnv.refl (e : Env α) : AgreeEnv e e := ⟨Agree.refl _, Agree.refl _, Agree.refl _, Agree.refl _⟩

/-- C114: the envelope a ring answers with is that of its coordinates, through all histories of queries, copies and reversals, exactly if
the ordinates of its first and of its last coordinate are NaN at the same places. In particular this holds for all closed rings. -/
theorem C114_stale (s : CASeq α) (hu : Unmeasured s) (a b : Coord α) (ha : s.coordinates.head? = some a) (hb : s.coordinates.getLast? = some b) :
    (∀ ops : List GeoOp, ∃ r, (LinearRing.ofSeq s >>= fun r => ops.foldlM ringStep r) = .ok r ∧ AgreeEnv r.getEnvelope.1 r.computeEnvelope) ↔
      (isNaN a.x = isNaN b.x ∧ isNaN a.y = isNaN b.y) := by
  constructor
  · intro h
    obtain ⟨r, hr, k⟩ := h [.query, .reverse]
    rw [ringOfSeq, Res.bind_ok, List.foldlM_cons, ringStep, Res.bind_ok, List.foldlM_cons, ringStep,
      C50_reverse_ring_partial _ (by exact hu), Res.bind_ok] at hr
    injection hr with hr
    rw [← hr, compute_ring] at k
    have e : (LinearRing.getEnvelope (⟨s, none, none⟩ : LinearRing α)).2.envelope = some (envOf s.coordinates) := by
      show some _ = some _
      rw [compute_ring]
    have e2 : (LinearRing.getEnvelope (⟨s, none, none⟩ : LinearRing α)).2.points = s := rfl
    rw [e, e2] at k
    have := (C114_envelope_reverse s.coordinates a b ha hb)
    rw [← this]
    exact ⟨k.1.symm, k.2.1.symm, k.2.2.1.symm, k.2.2.2.symm⟩
  · intro h ops
    have ag := (C114_envelope_reverse s.coordinates a b ha hb).mpr h
    have ag' : AgreeEnv (envOf s.coordinates) (envOf s.coordinates.reverse) := ⟨ag.1.symm, ag.2.1.symm, ag.2.2.1.symm, ag.2.2.2.symm⟩
    have key : ∀ (ops : List GeoOp) (r : LinearRing α), Unmeasured r.points →
        (r.points.coordinates = s.coordinates ∨ r.points.coordinates = s.coordinates.reverse) →
        (∀ e, r.envelope = some e → e = envOf s.coordinates ∨ e = envOf s.coordinates.reverse) →
        ∃ r', ops.foldlM ringStep r = .ok r' ∧ (r'.points.coordinates = s.coordinates ∨ r'.points.coordinates = s.coordinates.reverse) ∧
          (∀ e, r'.envelope = some e → e = envOf s.coordinates ∨ e = envOf s.coordinates.reverse) := by
      intro ops
      induction ops with
      | nil => intro r _ h2 h3; exact ⟨r, rfl, h2, h3⟩
      | cons o ops ih =>
        intro r h1 h2 h3
        rw [List.foldlM_cons]
        cases o with
        | query =>
          rw [ringStep, Res.bind_ok]
          have p : r.getEnvelope.2.points = r.points := by unfold LinearRing.getEnvelope; split <;> rfl
          refine ih _ (p ▸ h1) (p ▸ h2) fun e he => ?_
          unfold LinearRing.getEnvelope at he
          split at he
          · injection he with he
            rw [← he, compute_ring]
            rcases h2 with h2 | h2
            · exact .inl (by rw [h2])
            · exact .inr (by rw [h2])
          · exact h3 e he
        | copy =>
          rw [ringStep, ringCopy, Res.bind_ok]
          exact ih _ h1 h2 (fun e he => by cases he)
        | reverse =>
          rw [ringStep, C50_reverse_ring_partial r h1, Res.bind_ok]
          refine ih _ h1.flip ?_ h3
          rcases h2 with h2 | h2
          · exact .inr (by show r.points.coordinates.reverse = _; rw [h2])
          · exact .inl (by show r.points.coordinates.reverse = _; rw [h2, List.reverse_reverse])
    rw [ringOfSeq, Res.bind_ok]
    obtain ⟨r, hr, h2, h3⟩ := key ops ⟨s, none, none⟩ hu (.inl rfl) (fun e he => by cases he)
    refine ⟨r, hr, ?_⟩
    have hc : r.computeEnvelope = envOf s.coordinates ∨ r.computeEnvelope = envOf s.coordinates.reverse := by
      rw [compute_ring]
      rcases h2 with h2 | h2
      · exact .inl (by rw [h2])
      · exact .inr (by rw [h2])
    have hg : r.getEnvelope.1 = envOf s.coordinates ∨ r.getEnvelope.1 = envOf s.coordinates.reverse := by
      unfold LinearRing.getEnvelope
      split
      · exact hc
      · rename_i e he; exact h3 e he
    rcases hc with hc | hc <;> rcases hg with hg | hg <;> rw [hc, hg]
    · exact AgreeEnv.refl _
    · exact ag
    · exact ag'
    · exact AgreeEnv.refl _

end Order

/-! ## Ordinates of packed sequences past the dimension -/

/-- C114: in a packed sequence an ordinate index past the dimension means an ordinate of a following coordinate, for reading and writing;
an access panics exactly if that coordinate does not exist. -/
theorem C114_packed_ordinate (s : PSeq α) (h : s.WF) (hm : s.coords.length = s.n * s.dimension.toNat) (i k : Nat) (hk : k < 2 ^ 31) (v : α) :
    s.getOrd i (k : Int) = s.getOrd (i + k / s.dimension.toNat) ((k % s.dimension.toNat : Nat) : Int) ∧
    s.setOrd i (k : Int) v = s.setOrd (i + k / s.dimension.toNat) ((k % s.dimension.toNat : Nat) : Int) v ∧
    ((∃ e, s.getOrd i (k : Int) = .error e) ↔ s.n ≤ i + k / s.dimension.toNat) ∧
    ((∃ e, s.setOrd i (k : Int) v = .error e) ↔ s.n ≤ i + k / s.dimension.toNat) := by
  have h1 := h.1; have h2 := h.2
  have hd : 0 < s.dimension.toNat := by omega
  have e : asUsize s.dimension = s.dimension.toNat := asUsize_of _ (by omega) (by omega)
  have hmod : k % s.dimension.toNat ≤ k := Nat.mod_le _ _
  have idx : (i + k / s.dimension.toNat) * s.dimension.toNat + k % s.dimension.toNat = i * s.dimension.toNat + k := by
    have := Nat.div_add_mod k s.dimension.toNat
    rw [Nat.add_mul, Nat.mul_comm (k / _), Nat.add_assoc, this]
  have big : s.coords.length ≤ i * s.dimension.toNat + k ↔ s.n ≤ i + k / s.dimension.toNat := by
    rw [hm, ← idx]
    constructor
    · intro h
      by_contra c
      have c : i + k / s.dimension.toNat + 1 ≤ s.n := by omega
      have := Nat.mul_le_mul_right s.dimension.toNat c
      rw [Nat.add_mul] at this
      have := Nat.mod_lt k hd
      omega
    · intro h
      have := Nat.mul_le_mul_right s.dimension.toNat h
      omega
  simp only [PSeq.getOrd, PSeq.setOrd, e, asUsize_ofNat k (by omega), asUsize_ofNat (k % s.dimension.toNat) (by omega), idx]
  refine ⟨trivial, trivial, ?_, ?_⟩
  · rw [← big]
    constructor
    · rintro ⟨x, hx⟩
      by_contra c
      rw [Res.get_lt (by omega)] at hx; cases hx
    · intro c; exact ⟨_, Res.get_ge c⟩
  · rw [← big]
    constructor
    · rintro ⟨x, hx⟩
      by_contra c
      rw [Res.set_lt (by omega)] at hx; cases hx
    · intro c; exact ⟨_, by rw [Res.set_ge c]; rfl⟩

/-! ## Consistent dimensions -/

/-- The kind of a coordinate: XY, XYZ, XYM or XYZM. -/
def kindOf (c : Coord α) : Int × Int := (Coordinates.dimension c, Coordinates.measures c)

theorem kind_cases (c : Coord α) : kindOf c = (2, 0) ∨ kindOf c = (3, 0) ∨ kindOf c = (3, 1) ∨ kindOf c = (4, 1) := by
  unfold kindOf Coordinates.dimension Coordinates.measures
  by_cases h1 : c.isXY = true
  · simp [h1]
  · by_cases h2 : c.isXYM = true
    · simp [h1, h2]
    · by_cases h3 : c.isXYZM = true
      · simp [h1, h2, h3]
      · simp [h1, h2, h3]

/-- What the scan has found after some coordinates. -/
structure Scanned (ps : List (Coord α)) (s : Int × Int × Bool) : Prop where
  dim : ∃ d ∈ ps, (kindOf d).1 = s.1
  le : ∀ d ∈ ps, (kindOf d).1 ≤ s.1 ∧ (kindOf d).2 ≤ s.2.1
  mea : ∃ d ∈ ps, (kindOf d).2 = s.2.1
  same : s.2.2 = true → ∀ d ∈ ps, kindOf d = (s.1, s.2.1)
  mixed : s.2.2 = false → ¬ ∀ c ∈ ps, ∀ d ∈ ps, kindOf c = kindOf d

theorem scan_all (c : Coord α) (t : List (Coord α)) : Scanned (c :: t) (CoordArrays.scanConsistency (c :: t)) := by
  induction t using List.reverseRecOn with
  | nil =>
    have : CoordArrays.scanConsistency [c] = ((kindOf c).1, (kindOf c).2, true) := rfl
    rw [this]
    refine ⟨⟨c, by simp⟩, ?_, ⟨c, by simp⟩, ?_, fun h => by cases h⟩ <;> intros <;> simp_all
  | append_singleton t p ih =>
    have e : CoordArrays.scanConsistency (c :: (t ++ [p])) =
        (let s := CoordArrays.scanConsistency (c :: t)
         if s.1 = -1 then ((kindOf p).1, (kindOf p).2, s.2.2)
         else if (kindOf p).1 ≠ s.1 ∨ (kindOf p).2 ≠ s.2.1 then (max s.1 (kindOf p).1, max s.2.1 (kindOf p).2, false) else s) := by
      rw [← List.cons_append]; unfold CoordArrays.scanConsistency; rw [List.foldl_append]; rfl
    rw [e, ← List.cons_append]
    generalize CoordArrays.scanConsistency (c :: t) = s at *
    obtain ⟨D, M, b⟩ := s
    obtain ⟨⟨d, hd, h1⟩, h2, ⟨m, hm, h3⟩, h4, h5⟩ := ih
    simp only at *
    have : D ≠ -1 := by
      rcases kind_cases d with k | k | k | k <;> rw [k] at h1 <;> simp at h1 <;> omega
    rw [if_neg this]
    split_ifs with hc
    · refine ⟨?_, ?_, ?_, (fun h => by cases h), fun _ h => ?_⟩
      · rcases le_total D (kindOf p).1 with k | k
        · exact ⟨p, by simp, (max_eq_right k).symm⟩
        · exact ⟨d, by simp only [List.mem_append]; exact .inl hd, by rw [h1]; exact (max_eq_left k).symm⟩
      · intro q hq
        rcases List.mem_append.mp hq with hq | hq
        · exact ⟨(h2 q hq).1.trans (le_max_left _ _), (h2 q hq).2.trans (le_max_left _ _)⟩
        · rw [List.mem_singleton.mp hq]; exact ⟨le_max_right _ _, le_max_right _ _⟩
      · rcases le_total M (kindOf p).2 with k | k
        · exact ⟨p, by simp, (max_eq_right k).symm⟩
        · exact ⟨m, by simp only [List.mem_append]; exact .inl hm, by rw [h3]; exact (max_eq_left k).symm⟩
      · cases b with
        | false =>
          exact h5 rfl fun x hx y hy => h x (List.mem_append.mpr (.inl hx)) y (List.mem_append.mpr (.inl hy))
        | true =>
          have a := h4 rfl c (by simp)
          have := h p (by simp) c (by simp)
          rw [a] at this
          rw [this] at hc
          simp at hc
    · simp only [not_or, not_not] at hc
      have hp : kindOf p = (D, M) := Prod.ext hc.1 hc.2
      refine ⟨⟨d, by simp only [List.mem_append]; exact .inl hd, h1⟩, ?_, ⟨m, by simp only [List.mem_append]; exact .inl hm, h3⟩, ?_, ?_⟩
      · intro q hq
        rcases List.mem_append.mp hq with hq | hq
        · exact h2 q hq
        · rw [List.mem_singleton.mp hq, hp]; exact ⟨le_rfl, le_rfl⟩
      · intro hb q hq
        rcases List.mem_append.mp hq with hq | hq
        · exact h4 hb q hq
        · rw [List.mem_singleton.mp hq, hp]
      · intro hb h
        exact h5 hb fun x hx y hy => h x (List.mem_append.mpr (.inl hx)) y (List.mem_append.mpr (.inl hy))

/-- C114: enforcing consistency changes nothing if all coordinates are of one kind; otherwise it keeps x, y and z of each coordinate and
replaces all measures by the same value: 0 if there was a coordinate with a measure, else NaN. -/
theorem C114_consistency (cs : List (Coord α)) :
    ((∀ c ∈ cs, ∀ d ∈ cs, kindOf c = kindOf d) → CoordArrays.enforceConsistency cs = cs) ∧
    (¬ (∀ c ∈ cs, ∀ d ∈ cs, kindOf c = kindOf d) →
      ((∃ c ∈ cs, Coordinates.measures c = 1) → CoordArrays.enforceConsistency cs = cs.map (fun c => { c with m := lit 0 })) ∧
      ((∀ c ∈ cs, Coordinates.measures c = 0) → CoordArrays.enforceConsistency cs = cs.map (fun c => { c with m := nan }))) := by
  cases cs with
  | nil => exact ⟨fun _ => rfl, fun h => absurd (by simp) h⟩
  | cons c t =>
    have sc := scan_all c t
    have e : CoordArrays.enforceConsistency (c :: t) = (let s := CoordArrays.scanConsistency (c :: t)
      if !s.2.2 then CoordArrays.enforceDimMeasures (c :: t) s.1 s.2.1 else c :: t) := rfl
    rw [e]
    generalize CoordArrays.scanConsistency (c :: t) = s at *
    obtain ⟨D, M, b⟩ := s
    obtain ⟨⟨d, hd, h1⟩, h2, ⟨m, hm, h3⟩, h4, h5⟩ := sc
    simp only at *
    constructor
    · intro h
      cases b with
      | true => rfl
      | false => exact absurd h (h5 rfl)
    · intro h
      cases b with
      | true =>
        exact absurd (fun x hx y hy => (h4 rfl x hx).trans (h4 rfl y hy).symm) h
      | false =>
        simp only [Bool.not_false, if_true, CoordArrays.enforceDimMeasures]
        have mk : ∀ x : α, (Coordinates.createDimMeasures D M : Coord α).m = x →
            (c :: t).map (fun c => (Coordinates.createDimMeasures D M).setCoordinate c) = (c :: t).map (fun c => { c with m := x }) := by
          intro x hx
          apply List.map_congr_left
          intro p _
          rw [← hx]; rfl
        have mr : M = 0 ∨ M = 1 := by
          rw [← h3]; rcases kind_cases m with k | k | k | k <;> rw [k] <;> simp
        constructor
        · rintro ⟨q, hq, hq1⟩
          apply mk
          have k2 := h2 q hq
          have kq : (kindOf q).2 = 1 := hq1
          have M1 : M = 1 := by omega
          have D3 : 3 ≤ D := by
            rcases kind_cases q with k | k | k | k <;> rw [k] at kq k2 <;> simp at kq k2 <;> omega
          have D4 : D ≤ 4 := by
            rw [← h1]; rcases kind_cases d with k | k | k | k <;> rw [k] <;> simp
          subst M1
          rcases (by omega : D = 3 ∨ D = 4) with rfl | rfl <;> rfl
        · intro hz
          apply mk
          have M0 : M = 0 := by rw [← h3]; exact hz m hm
          subst M0
          unfold Coordinates.createDimMeasures
          split_ifs <;> simp_all [Coord.default]

/-! ## Cases -/

section cases

private def q (x y : ℚ) : Coord EQ := Coord.xy (.fin x) (.fin y)

/-- A line with NaN at one end is its own normal form, and so is its reverse. -/
example : firstDiff [Coord.xy .nan (.fin 0), q 0 0, q 1 1] = some (Coord.xy .nan (.fin 0), q 1 1) ∧
    firstDiff [q 0 0, Coord.xy .nan (.fin 0), q 1 1, q 0 0] = some (Coord.xy .nan (.fin 0), q 1 1) := by decide +kernel

/-- Without NaN the first pair that differs is in a strict order. -/
example : firstDiff [q 0 0, q 5 0, q 3 3, q 0 0] = some (q 5 0, q 3 3) ∧ (q 5 0).compareTo (q 3 3) = 1 := by decide +kernel

/-- The lines above have no measures. -/
example : Unmeasured (CASeq.ofCoordinates [Coord.xy .nan (.fin 0), q 0 0, q 1 1]) :=
  ⟨by decide, ⟨.nan, by decide⟩, .inl (by decide)⟩

/-- NaN inside is ignored, NaN in front is not. -/
example : envOf [q 0 0, Coord.xy .nan (.fin 7), q 1 1] = ⟨.fin 0, .fin 1, .fin 0, .fin 7⟩ ∧
    envOf [Coord.xy .nan (.fin 7), q 0 0, q 1 1] = ⟨.nan, .nan, .fin 0, .fin 7⟩ := by decide +kernel

/-- Ordinate 5 of coordinate 0 in a packed sequence of dimension 2 is y of coordinate 2. -/
example : (⟨2, 0, [.fin 0, .fin 1, .fin 2, .fin 3, .fin 4, .fin 5]⟩ : PSeq EQ).getOrd 0 5 = .ok (.fin 5) := by decide +kernel

/-- The measure 7 is lost because the second coordinate has none. -/
example : CoordArrays.enforceConsistency [(⟨.fin 1, .fin 2, .nan, .fin 7⟩ : Coord EQ), q 3 4] = [⟨.fin 1, .fin 2, .nan, .fin 0⟩, ⟨.fin 3, .fin 4, .nan, .fin 0⟩] := by
  decide +kernel

end cases

end Verif.Props
