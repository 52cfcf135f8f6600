import Verif.Lemmas.Geometries
import Verif.Lemmas.Ext
import Verif.Spec.Metric
import Verif.Base.RealFlt

/-!
# C49: `equals_exact`

What the comparison decides, for every geometry type and over every arithmetic (`C49_*_decides`); from it the laws in exact real
arithmetic (`C49_laws_partial`), and equality with tolerance zero over every arithmetic (`C49_zero_tolerance`).
-/

set_option linter.unusedSectionVars false

namespace Verif.Props
open Flt Verif.Spec

/-! ## What is decided -/

/-- Two lists match: they have the same length and the elements in the same place are related. -/
abbrev Match {A : Type} (R : A → A → Prop) : List A → List A → Prop := List.Forall₂ R

/-- The value of a comparison is given by a relation; in particular it does not panic. -/
def Decides {G A : Type} (eq : G → G → A → Res Bool) (R : A → G → G → Prop) : Prop :=
  ∀ g h t, ∃ b, eq g h t = .ok b ∧ (b = true ↔ R t g h)

section decides
variable {α : Type} [FltSqrt α]

/-- Two coordinates are near: at most the tolerance apart, or equal in the plane if the tolerance is zero. -/
def Near (t : α) (a b : Coord α) : Prop :=
  if (t ==. lit 0) = true then ((a.x ==. b.x) = true ∧ (a.y ==. b.y) = true)
  else (FltSqrt.hypot (a.x -. b.x) (a.y -. b.y) ≤. t) = true

theorem equal_iff (t : α) (a b : Coord α) : Coordinates.equal a b t = true ↔ Near t a b := by
  unfold Coordinates.equal Near
  by_cases h : (t ==. lit 0) = true
  · rw [if_pos h, if_pos h]
    simp only [Coord.equals2D]
    constructor
    · intro h
      by_cases h1 : (a.x ==. b.x) = true
      · by_cases h2 : (a.y ==. b.y) = true
        · exact ⟨h1, h2⟩
        · simp [h2] at h
      · simp [h1] at h
    · rintro ⟨h1, h2⟩; simp [h1, h2]
  · rw [if_neg h, if_neg h]; rfl

/-- The loops of `equals_exact`. -/
theorem matchLoop {A : Type} (R : A → A → Prop) (l m : List A) (f : Nat → Res (Option Bool))
    (hf : ∀ i (a : i < l.length) (b : i < m.length), ∃ r, (r = true ↔ R l[i] m[i]) ∧ f i = .ok (if !r then some false else none)) :
    ∃ b, (if l.length ≠ m.length then pure false else (do let r ← forFind 0 l.length f; pure (r.getD true) : Res Bool)) = .ok b ∧
      (b = true ↔ Match R l m) := by
  classical
  by_cases hl : l.length = m.length
  · rw [if_neg (by simpa using hl)]
    rw [allLoop l m hl f (fun a b => decide (R a b)) (by
      intro i a b
      obtain ⟨r, h1, h2⟩ := hf i a b
      rw [h2]
      have : r = decide (R l[i] m[i]) := by rw [Bool.eq_iff_iff, h1, decide_eq_true_eq]
      rw [this])]
    exact ⟨_, rfl, by simp⟩
  · rw [if_pos hl]
    exact ⟨false, rfl, by
      constructor
      · intro h; cases h
      · intro h; exact absurd h.length_eq hl⟩

theorem coordLoop (s o : CASeq α) (t : α) :
    ∃ b, (if s.size ≠ o.size then pure false else (do
      let r ← forFind 0 s.size (fun i => do
        let a ← s.getCoordinate i
        let b ← o.getCoordinate i
        pure (if !(Coordinates.equal a b t) then some false else none))
      pure (r.getD true) : Res Bool)) = .ok b ∧ (b = true ↔ Match (Near t) s.coordinates o.coordinates) := by
  refine matchLoop (Near t) s.coordinates o.coordinates _ ?_
  intro i a b
  refine ⟨_, equal_iff t _ _, ?_⟩
  rw [CASeq.getCoordinate, CASeq.getCoordinate, Res.get_lt a, Res.get_lt b]; rfl

/-- C49: lines. -/
theorem C49_line_decides : Decides (LineString.equalsExact (α := α)) (fun t l m => Match (Near t) l.points.coordinates m.points.coordinates) :=
  fun _ _ t => coordLoop _ _ t

/-- C49: rings. -/
theorem C49_ring_decides : Decides (LinearRing.equalsExact (α := α)) (fun t l m => Match (Near t) l.points.coordinates m.points.coordinates) :=
  fun _ _ t => coordLoop _ _ t

/-- C49: points, which have one coordinate or none. The coordinates are compared in the opposite order. -/
theorem C49_point_decides : Decides (Point.equalsExact (α := α))
    (fun t p q => Match (fun a b => Near t b a) (p.coordinates.coordinates.take 1) (q.coordinates.coordinates.take 1)) := by
  rintro ⟨⟨d, m, cs⟩, e, pm⟩ ⟨⟨d', m', cs'⟩, e', pm'⟩ t
  cases cs with
  | nil => cases cs' with
    | nil => exact ⟨true, rfl, by simp⟩
    | cons b cs' => exact ⟨false, rfl, by simp⟩
  | cons a cs => cases cs' with
    | nil => exact ⟨false, rfl, by simp⟩
    | cons b cs' =>
      refine ⟨Coordinates.equal b a t, ?_, ?_⟩
      · rfl
      · rw [equal_iff]; simp

/-- C49: polygons: the shells and then the holes, place by place. -/
theorem C49_polygon_decides : Decides (Polygon.equalsExact (α := α))
    (fun t p q => Match (Near t) p.shell.points.coordinates q.shell.points.coordinates ∧
      Match (fun a b => Match (Near t) a.points.coordinates b.points.coordinates) p.holes q.holes) := by
  intro p q t
  rw [Polygon.equalsExact, ringCopy, ringCopy, Res.bind_ok, Res.bind_ok]
  obtain ⟨b, h1, h2⟩ := C49_ring_decides (⟨p.shell.points, none, none⟩ : LinearRing α) ⟨q.shell.points, none, none⟩ t
  rw [h1, Res.bind_ok]
  cases b with
  | false =>
    exact ⟨false, rfl, Iff.intro (fun h => by simp at h) (fun h => h2.mpr h.1)⟩
  | true =>
    obtain ⟨c, h3, h4⟩ := matchLoop (fun a b : LinearRing α => Match (Near t) a.points.coordinates b.points.coordinates) p.holes q.holes
      (fun i => do
        let a ← Res.get p.holes i
        let b ← Res.get q.holes i
        let e ← a.equalsExact b t
        pure (if !e then some false else none)) (by
          intro i a b
          obtain ⟨r, h5, h6⟩ := C49_ring_decides (p.holes[i]) (q.holes[i]) t
          refine ⟨r, h6, ?_⟩
          rw [Res.get_lt a, Res.get_lt b, Res.bind_ok, Res.bind_ok, h5]; rfl)
    exact ⟨c, h3, h4.trans ⟨fun h => ⟨h2.mp rfl, h⟩, fun h => h.2⟩⟩

theorem partsLoop {G H : Type} (parts : G → List H) (eqH : H → H → α → Res Bool) (R : α → H → H → Prop) (hd : Decides eqH R) (g h : G) (t : α) :
    ∃ b, (if (parts g).length ≠ (parts h).length then pure false else (do
      let r ← forFind 0 (parts g).length (fun i => do
        let a ← Res.get (parts g) i
        let b ← Res.get (parts h) i
        let e ← eqH a b t
        pure (if !e then some false else none))
      pure (r.getD true) : Res Bool)) = .ok b ∧ (b = true ↔ Match (R t) (parts g) (parts h)) := by
  refine matchLoop (R t) _ _ _ ?_
  intro i a b
  obtain ⟨r, h5, h6⟩ := hd (parts g)[i] (parts h)[i] t
  refine ⟨r, h6, ?_⟩
  rw [Res.get_lt a, Res.get_lt b, Res.bind_ok, Res.bind_ok, h5]; rfl

/-- C49: collections of points, lines and polygons: part by part, in order. -/
theorem C49_multi_decides :
    Decides (MultiPoint.equalsExact (α := α)) (fun t m n => Match
      (fun p q => Match (fun a b => Near t b a) (p.coordinates.coordinates.take 1) (q.coordinates.coordinates.take 1)) m.points n.points) ∧
    Decides (MultiLineString.equalsExact (α := α)) (fun t m n => Match
      (fun l k => Match (Near t) l.points.coordinates k.points.coordinates) m.lineStrings n.lineStrings) ∧
    Decides (MultiPolygon.equalsExact (α := α)) (fun t m n => Match
      (fun p q => Match (Near t) p.shell.points.coordinates q.shell.points.coordinates ∧
        Match (fun a b => Match (Near t) a.points.coordinates b.points.coordinates) p.holes q.holes) m.polygons n.polygons) :=
  ⟨fun g h t => partsLoop MultiPoint.points Point.equalsExact _ C49_point_decides g h t,
   fun g h t => partsLoop MultiLineString.lineStrings LineString.equalsExact _ C49_line_decides g h t,
   fun g h t => partsLoop MultiPolygon.polygons Polygon.equalsExact _ C49_polygon_decides g h t⟩

/-- C49: equal polygons have the same number of holes, and rings of the same length in every place. -/
theorem C49_same_shape (p q : Polygon α) (t : α) (h : p.equalsExact q t = .ok true) :
    p.shell.points.coordinates.length = q.shell.points.coordinates.length ∧
    p.holes.map (·.points.coordinates.length) = q.holes.map (·.points.coordinates.length) := by
  obtain ⟨b, h1, h2⟩ := C49_polygon_decides p q t
  rw [h] at h1
  injection h1 with h1
  obtain ⟨h3, h4⟩ := h2.mp h1.symm
  refine ⟨h3.length_eq, ?_⟩
  generalize p.holes = l at h4
  generalize q.holes = m at h4
  induction h4 with
  | nil => rfl
  | cons ha _ ih => simp [ih, ha.length_eq]

end decides

/-! ## Laws in exact real arithmetic -/

/-- The laws of an equality up to a tolerance. -/
structure ToleranceLaws {G : Type} (R : ℝ → G → G → Prop) : Prop where
  refl : ∀ t g, 0 ≤ t → R t g g
  symm : ∀ t g h, R t g h → R t h g
  mono : ∀ s t g h, 0 ≤ s → s ≤ t → R s g h → R t g h
  triangle : ∀ s t g h k, 0 ≤ s → 0 ≤ t → R s g h → R t h k → R (s + t) g k

theorem near_real (t : ℝ) (a b : Coord ℝ) : Near t a b ↔ (if t = 0 then dist a b = 0 else dist a b ≤ t) := by
  unfold Near
  simp only [real_toFlt, exact_eq, exact_lit, exact_sub, exact_le, real_hypot, decide_eq_true_eq, Rat.cast_zero]
  by_cases h : t = 0
  · rw [if_pos h, if_pos h, dist_eq_zero]
  · rw [if_neg h, if_neg h]; rfl

theorem near_real' (t : ℝ) (ht : 0 ≤ t) (a b : Coord ℝ) : Near t a b ↔ dist a b ≤ t := by
  rw [near_real]
  split_ifs with h
  · rw [h]; exact ⟨fun h => h.le, fun h => le_antisymm h (dist_nonneg a b)⟩
  · rfl

theorem near_laws : ToleranceLaws (Near (α := ℝ)) where
  refl t a ht := by rw [near_real' t ht, (dist_eq_zero a a).mpr ⟨rfl, rfl⟩]; exact ht
  symm t a b h := by rw [near_real] at *; rw [dist_comm]; exact h
  mono s t a b hs hst h := by
    rw [near_real' s hs] at h; rw [near_real' t (hs.trans hst)]; exact h.trans hst
  triangle s t a b c hs ht h1 h2 := by
    rw [near_real' s hs] at h1; rw [near_real' t ht] at h2; rw [near_real' _ (add_nonneg hs ht)]
    have := dist_triangle a b c; linarith

theorem match_trans {A : Type} {R S T : A → A → Prop} (h : ∀ a b c, R a b → S b c → T a c) {l m n : List A}
    (h1 : Match R l m) (h2 : Match S m n) : Match T l n := by
  induction h1 generalizing n with
  | nil => cases h2; exact .nil
  | cons ha _ ih => cases h2 with | cons hb h2 => exact .cons (h _ _ _ ha hb) (ih h2)

theorem match_refl {A : Type} {R : A → A → Prop} (l : List A) (h : ∀ a ∈ l, R a a) : Match R l l :=
  List.forall₂_same.mpr h

theorem match_symm {A : Type} {R S : A → A → Prop} (h : ∀ a b, R a b → S b a) {l m : List A} (h1 : Match R l m) : Match S m l := by
  induction h1 with
  | nil => exact .nil
  | cons ha _ ih => exact .cons (h _ _ ha) ih

theorem match_mono {A : Type} {R S : A → A → Prop} (h : ∀ a b, R a b → S a b) {l m : List A} (h1 : Match R l m) : Match S l m :=
  h1.imp h

theorem ToleranceLaws.list {A : Type} {R : ℝ → A → A → Prop} (h : ToleranceLaws R) : ToleranceLaws (fun t => Match (R t)) where
  refl t l ht := match_refl l (fun a _ => h.refl t a ht)
  symm t l m := match_symm (h.symm t)
  mono s t l m hs hst := match_mono (fun a b => h.mono s t a b hs hst)
  triangle s t l m n hs ht := match_trans (fun a b c => h.triangle s t a b c hs ht)

theorem ToleranceLaws.on {A B : Type} {R : ℝ → A → A → Prop} (h : ToleranceLaws R) (f : B → A) : ToleranceLaws (fun t a b => R t (f a) (f b)) :=
  ⟨fun t g => h.refl t _, fun t g k => h.symm t _ _, fun s t g k => h.mono s t _ _, fun s t g k l => h.triangle s t _ _ _⟩

theorem ToleranceLaws.and {A : Type} {R S : ℝ → A → A → Prop} (h : ToleranceLaws R) (k : ToleranceLaws S) :
    ToleranceLaws (fun t a b => R t a b ∧ S t a b) where
  refl t g ht := ⟨h.refl t g ht, k.refl t g ht⟩
  symm t a b e := ⟨h.symm t a b e.1, k.symm t a b e.2⟩
  mono s t a b hs hst e := ⟨h.mono s t a b hs hst e.1, k.mono s t a b hs hst e.2⟩
  triangle s t a b c hs ht e f := ⟨h.triangle s t a b c hs ht e.1 f.1, k.triangle s t a b c hs ht e.2 f.2⟩

theorem ToleranceLaws.swap {A : Type} {R : ℝ → A → A → Prop} (h : ToleranceLaws R) : ToleranceLaws (fun t a b => R t b a) where
  refl := h.refl
  symm t a b := h.symm t b a
  mono s t a b := h.mono s t b a
  triangle s t a b c hs ht e f := by rw [add_comm]; exact h.triangle t s c b a ht hs f e

theorem ToleranceLaws.decided {G : Type} {R : ℝ → G → G → Prop} (h : ToleranceLaws R) {eq : G → G → ℝ → Res Bool} (hd : Decides eq R) :
    ToleranceLaws (fun t g k => eq g k t = .ok true) := by
  have e : (fun t g k => eq g k t = .ok true) = R := by
    funext t g k
    obtain ⟨b, h1, h2⟩ := hd g k t
    rw [h1]
    simp only [Except.ok.injEq, eq_iff_iff]
    exact h2
  rw [e]; exact h

/-- C49: in exact arithmetic, for every geometry type: every geometry equals itself up to any tolerance from zero on, equality is
symmetric for every tolerance, a greater tolerance accepts more, and tolerances add up along a chain. With tolerance zero this is an
equivalence relation. -/
theorem C49_laws_partial :
    ToleranceLaws (fun t (g h : Point ℝ) => g.equalsExact h t = .ok true) ∧
    ToleranceLaws (fun t (g h : LineString ℝ) => g.equalsExact h t = .ok true) ∧
    ToleranceLaws (fun t (g h : LinearRing ℝ) => g.equalsExact h t = .ok true) ∧
    ToleranceLaws (fun t (g h : Polygon ℝ) => g.equalsExact h t = .ok true) ∧
    ToleranceLaws (fun t (g h : MultiPoint ℝ) => g.equalsExact h t = .ok true) ∧
    ToleranceLaws (fun t (g h : MultiLineString ℝ) => g.equalsExact h t = .ok true) ∧
    ToleranceLaws (fun t (g h : MultiPolygon ℝ) => g.equalsExact h t = .ok true) := by
  have hp := near_laws.swap.list.on (fun p : Point ℝ => p.coordinates.coordinates.take 1)
  have hl := near_laws.list.on (fun p : LineString ℝ => p.points.coordinates)
  have hr := near_laws.list.on (fun p : LinearRing ℝ => p.points.coordinates)
  have hg := (hr.on Polygon.shell).and (hr.list.on Polygon.holes)
  exact ⟨hp.decided C49_point_decides, hl.decided C49_line_decides, hr.decided C49_ring_decides, hg.decided C49_polygon_decides,
    (hp.list.on MultiPoint.points).decided C49_multi_decides.1, (hl.list.on MultiLineString.lineStrings).decided C49_multi_decides.2.1,
    (hg.list.on MultiPolygon.polygons).decided C49_multi_decides.2.2⟩

/-! ## Tolerance zero, every arithmetic -/

/-- An equivalence relation between the elements of a class. -/
structure EquivOn {G : Type} (D : G → Prop) (R : G → G → Prop) : Prop where
  refl : ∀ g, D g → R g g
  symm : ∀ g h, R g h → R h g
  trans : ∀ g h k, R g h → R h k → R g k

section zero
variable {α : Type} [FltSqrt α] [FltOrd α]

theorem near_zero (t : α) (ht : (t ==. lit 0) = true) : EquivOn Coord.NN (Near t) := by
  unfold Near
  simp only [ht, if_true]
  constructor
  · rintro a ⟨h1, h2⟩; simp [eq_eq, h1, h2]
  · intro a b h; simp only [eq_eq] at *; grind
  · intro a b c h k; simp only [eq_eq] at *; grind

theorem EquivOn.list {A : Type} {D : A → Prop} {R : A → A → Prop} (h : EquivOn D R) : EquivOn (fun l : List A => ∀ a ∈ l, D a) (Match R) :=
  ⟨fun l hl => match_refl l (fun a ha => h.refl a (hl a ha)), fun _ _ => match_symm h.symm, fun _ _ _ => match_trans h.trans⟩

theorem EquivOn.on {A B : Type} {D : A → Prop} {R : A → A → Prop} (h : EquivOn D R) (f : B → A) : EquivOn (fun b => D (f b)) (fun a b => R (f a) (f b)) :=
  ⟨fun _ => h.refl _, fun _ _ => h.symm _ _, fun _ _ _ => h.trans _ _ _⟩

theorem EquivOn.decided {G A : Type} {D : G → Prop} {R : A → G → G → Prop} {t : A} (h : EquivOn D (R t)) {eq : G → G → A → Res Bool}
    (hd : Decides eq R) : EquivOn D (fun g k => eq g k t = .ok true) := by
  have e : (fun g k => eq g k t = .ok true) = R t := by
    funext g k
    obtain ⟨b, h1, h2⟩ := hd g k t
    rw [h1]
    simp only [Except.ok.injEq, eq_iff_iff]
    exact h2
  rw [e]; exact h

/-- C49: with a zero tolerance (of either sign) equality is symmetric and transitive on all lines and polygons, NaN and infinities
included, and reflexive on those without NaN. -/
theorem C49_zero_tolerance (t : α) (ht : (t ==. lit 0) = true) :
    EquivOn (fun l : LineString α => ∀ c ∈ l.points.coordinates, c.NN) (fun l m => l.equalsExact m t = .ok true) ∧
    EquivOn (fun p : Polygon α => (∀ c ∈ p.shell.points.coordinates, c.NN) ∧ ∀ h ∈ p.holes, ∀ c ∈ h.points.coordinates, c.NN)
      (fun p q => p.equalsExact q t = .ok true) := by
  have hl := (near_zero t ht).list.on (fun p : LineString α => p.points.coordinates)
  have hr := (near_zero t ht).list.on (fun p : LinearRing α => p.points.coordinates)
  have h1 := hr.on Polygon.shell
  have h2 := hr.list.on Polygon.holes
  refine ⟨hl.decided C49_line_decides, EquivOn.decided (R := fun t p q => Match (Near t) p.shell.points.coordinates q.shell.points.coordinates ∧
      Match (fun a b => Match (Near t) a.points.coordinates b.points.coordinates) p.holes q.holes) ?_ C49_polygon_decides⟩
  exact ⟨fun p hp => ⟨h1.refl p hp.1, h2.refl p hp.2⟩, fun p q h => ⟨h1.symm p q h.1, h2.symm p q h.2⟩,
    fun p q r h k => ⟨h1.trans p q r h.1 k.1, h2.trans p q r h.2 k.2⟩⟩

end zero

/-! ## Examples and limits -/

private noncomputable def ln (x y : ℝ) : LineString ℝ := LineString.ofSeq (CASeq.ofCoordinates [⟨0, 0, 0, 0⟩, ⟨x, y, 0, 0⟩])

theorem ln_equals (x y x' y' t : ℝ) (ht : 0 < t) :
    (ln x y).equalsExact (ln x' y') t = .ok true ↔ (x - x') ^ 2 + (y - y') ^ 2 ≤ t ^ 2 := by
  obtain ⟨b, h1, h2⟩ := C49_line_decides (ln x y) (ln x' y') t
  rw [h1]
  simp only [Except.ok.injEq, h2, ln, LineString.ofSeq, CASeq.ofCoordinates, Match, List.forall₂_cons, List.forall₂_nil_right_iff,
    near_real' t ht.le, and_true]
  have h0 : Spec.dist (⟨0, 0, 0, 0⟩ : Coord ℝ) ⟨0, 0, 0, 0⟩ ≤ t := by rw [(dist_eq_zero _ _).mpr ⟨rfl, rfl⟩]; exact ht.le
  rw [and_iff_right h0]
  unfold Spec.dist
  rw [Real.sqrt_le_left ht.le]

example : (ln 1 1).equalsExact (ln 4 5) 5 = .ok true := by rw [ln_equals _ _ _ _ _ (by norm_num)]; norm_num
example : ¬ (ln 1 1).equalsExact (ln 4 5) 4 = .ok true := by rw [ln_equals _ _ _ _ _ (by norm_num)]; norm_num

/-- C49: with a positive tolerance equality is not transitive. -/
theorem C49_not_transitive : (ln 0 0).equalsExact (ln 1 0) 1 = .ok true ∧
    (ln 1 0).equalsExact (ln 2 0) 1 = .ok true ∧ ¬ (ln 0 0).equalsExact (ln 2 0) 1 = .ok true := by
  refine ⟨?_, ?_, ?_⟩ <;> rw [ln_equals _ _ _ _ _ (by norm_num)] <;> norm_num

/-- C49: with a positive tolerance a line with an infinite coordinate is not equal to itself (the difference of infinities is NaN),
although it is with tolerance zero. -/
theorem C49_infinite_not_reflexive :
    let l : LineString EQ := LineString.ofSeq (CASeq.ofCoordinates [Coord.xy .pinf (.fin 0)])
    (∀ c ∈ l.points.coordinates, c.NN) ∧ l.equalsExact l (.fin 1) = .ok false ∧ l.equalsExact l (.fin 0) = .ok true := by
  decide +kernel

end Verif.Props
