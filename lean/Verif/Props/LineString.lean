import Verif.Lemmas.Geometries
import Verif.Props.Sequences
import Verif.Props.Coordinate
import Verif.Lemmas.Ext

/-!
# C48: normalisation and comparison of lines

A line "without measures" is one whose sequence has dimension at least two and carries no measures (and no heights in dimension two):
what the constructors of the crate give for XY and XYZ coordinates. On other lines reversal itself does not move the measures, see
`C18_measures_not_reversed`.
-/

set_option linter.unusedSectionVars false

namespace Verif.Props
open Flt Verif.Spec
variable {α : Type} [Flt α]

/-- The sequence has no measures, and no heights unless its dimension has room for them. -/
structure Unmeasured (s : CASeq α) : Prop where
  dim : 2 ≤ s.dimension
  m : ∃ m0, ∀ c ∈ s.coordinates, c.m = m0
  z : 3 ≤ s.dimension ∨ ∃ z0, ∀ c ∈ s.coordinates, c.z = z0

theorem Unmeasured.reverse {s : CASeq α} (h : Unmeasured s) :
    Seqs.reverse s = .ok { s with coordinates := s.coordinates.reverse } := by
  obtain ⟨h1, ⟨m0, h2⟩, h3⟩ := h
  cases hs : s.coordinates with
  | nil =>
    have hsz : s.size = 0 := by rw [CASeq.size, hs]; rfl
    rw [Seqs.reverse]
    show (do let n ← (pure s.size : Res Nat); _) = _
    rw [Res.pure_eq, Res.bind_ok, hsz, if_pos (by omega), List.reverse_nil, ← hs]; rfl
  | cons c l =>
    rw [← hs]
    rcases h3 with h3 | ⟨z0, h3⟩
    · exact C18_array_reverse_list_partial s h1 m0 m0 h2 (.inl h3)
    · exact C18_array_reverse_list_partial s h1 m0 z0 h2 (.inr h3)

theorem Unmeasured.flip {s : CASeq α} (h : Unmeasured s) : Unmeasured { s with coordinates := s.coordinates.reverse } := by
  obtain ⟨h1, ⟨m0, h2⟩, h3⟩ := h
  refine ⟨h1, ⟨m0, by simpa using h2⟩, ?_⟩
  rcases h3 with h3 | ⟨z0, h3⟩
  · exact .inl h3
  · exact .inr ⟨z0, by simpa using h3⟩

/-- The line with its coordinates in the opposite order. -/
def flipped (l : LineString α) : LineString α := { l with points := { l.points with coordinates := l.points.coordinates.reverse } }

section Order
variable [FltOrd α]

theorem equals_iff_compare (a b : Coord α) (ha : a.NN) (hb : b.NN) : a.equals2D b = true ↔ a.compareTo b = 0 :=
  (C01_compareTo_total_order.zero_iff a b ha hb).symm

/-- C48: normalising chooses the smaller of the line and its reverse, in the lexicographic order of coordinates. -/
theorem C48_normalize_smaller_partial (l : LineString α) (hu : Unmeasured l.points) (h : ∀ c ∈ l.points.coordinates, c.NN) :
    l.normalize = .ok (if lexCmp Coord.compareTo l.points.coordinates l.points.coordinates.reverse > 0 then flipped l else l) := by
  obtain ⟨⟨d, m, cs⟩, env⟩ := l
  simp only at *
  have hr : Seqs.reverse (⟨d, m, cs⟩ : CASeq α).copy = .ok ⟨d, m, cs.reverse⟩ := hu.reverse
  have hget : ∀ i (a : i < cs.length), CASeq.getCoordinate ⟨d, m, cs⟩ i = .ok cs[i] := fun i a => Res.get_lt a
  rw [LineString.normalize]
  rw [forFind_ok 0 _ _ (fun i => if h : i < cs.length ∧ cs.length - 1 - i < cs.length then
      (if !(cs[i].equals2D cs[cs.length - 1 - i]) then
        (if cs[i].compareTo cs[cs.length - 1 - i] > 0 then some (flipped ⟨⟨d, m, cs⟩, env⟩) else some ⟨⟨d, m, cs⟩, env⟩) else none) else none) (by
      intro i _ hi
      have hsz : (⟨d, m, cs⟩ : CASeq α).size = cs.length := rfl
      rw [hsz] at hi ⊢
      have h1 : i < cs.length := by omega
      have h2 : cs.length - 1 - i < cs.length := by omega
      rw [Res.sub_le (by omega), Res.bind_ok, Res.sub_le (by omega), Res.bind_ok, hget i h1, Res.bind_ok, hget _ h2, Res.bind_ok,
        dif_pos ⟨h1, h2⟩, hr]
      split_ifs <;> rfl), Res.bind_ok, Res.pure_eq]
  have hsz : (⟨d, m, cs⟩ : CASeq α).size = cs.length := rfl
  rw [hsz]
  have hNN : ∀ i (a : i < cs.length), cs[i].NN := fun i a => h _ (List.getElem_mem a)
  have hrev : ∀ i (a : i < cs.length) (b : i < cs.reverse.length), cs.reverse[i] = cs[cs.length - 1 - i]'(by omega) := by
    intro i a b; rw [List.getElem_reverse]
  congr 1
  rcases hf : (List.range' 0 (cs.length / 2 - 0)).findSome? _ with _ | b
  · rw [findSome?_range'_none] at hf
    have hz : ∀ i (a : i < cs.length), i < cs.length / 2 → cs[i].compareTo (cs[cs.length - 1 - i]'(by omega)) = 0 := by
      intro i a hi
      have := hf i (by omega) (by omega)
      rw [dif_pos ⟨a, by omega⟩] at this
      rw [← equals_iff_compare _ _ (hNN _ _) (hNN _ _)]
      by_contra c
      simp only [Bool.not_eq_true] at c
      rw [c] at this
      simp only [Bool.not_false, if_true] at this
      split_ifs at this
    have hz' : ∀ i (a : i < cs.length), cs[i].compareTo (cs[cs.length - 1 - i]'(by omega)) = 0 := by
      intro i a
      by_cases hi : i < cs.length / 2
      · exact hz i a hi
      · by_cases hm : i = cs.length - 1 - i
        · have e : cs[cs.length - 1 - i]'(by omega) = cs[i] := by congr 1; omega
          rw [e, ← equals_iff_compare _ _ (hNN _ _) (hNN _ _)]
          have := hNN i a
          simp [Coord.equals2D, eq_eq, this.1, this.2]
        · have := hz (cs.length - 1 - i) (by omega) (by omega)
          have e : cs[cs.length - 1 - (cs.length - 1 - i)]'(by omega) = cs[i] := by congr 1; omega
          rw [e] at this
          have s := C01_compareTo_total_order.swap (cs[cs.length - 1 - i]'(by omega)) cs[i] (hNN _ _) (hNN _ _)
          omega
    rw [lexCmp_prefix _ _ _ (fun i a b => by rw [hrev i a b]; exact hz' i a)]
    simp
  · rw [findSome?_range'_some] at hf
    obtain ⟨k, -, h2, h3, h4⟩ := hf
    have hk : k < cs.length := by omega
    have hk' : cs.length - 1 - k < cs.length := by omega
    have hk2 : k < cs.length / 2 := by omega
    rw [dif_pos ⟨hk, hk'⟩] at h3
    have hne : cs[k].compareTo cs[cs.length - 1 - k] ≠ 0 := by
      intro c
      rw [← equals_iff_compare _ _ (hNN _ _) (hNN _ _)] at c
      rw [c] at h3
      simp at h3
    have hneq : cs[k].equals2D cs[cs.length - 1 - k] = false := by
      by_contra c
      simp only [Bool.not_eq_false] at c
      rw [equals_iff_compare _ _ (hNN _ _) (hNN _ _)] at c
      exact hne c
    have hl := lexCmp_first Coord.compareTo cs cs.reverse k hk (by simpa using hk) (by rw [hrev k hk (by simpa using hk)]; exact hne)
      (by
        intro i hi a b
        rw [hrev i a b]
        have := h4 i (by omega) hi
        rw [dif_pos ⟨a, by omega⟩] at this
        rw [← equals_iff_compare _ _ (hNN _ _) (hNN _ _)]
        by_contra c
        simp only [Bool.not_eq_true] at c
        rw [c] at this
        simp only [Bool.not_false, if_true] at this
        split_ifs at this)
    rw [hrev k hk (by simpa using hk)] at hl
    rw [hl]
    rw [hneq] at h3
    simp only [Bool.not_false, if_true] at h3
    rw [← apply_ite some] at h3
    injection h3 with h3
    rw [← h3]; rfl

/-- C48: on lines without NaN, the result of normalising is the line or its reverse, never greater than its own reverse; the
coordinates are a permutation of those of the line. -/
theorem C48_normalize_ascending_partial (l l' : LineString α) (hu : Unmeasured l.points) (h : ∀ c ∈ l.points.coordinates, c.NN)
    (hn : l.normalize = .ok l') :
    lexCmp Coord.compareTo l'.points.coordinates l'.points.coordinates.reverse ≤ 0 ∧
    (l' = l ∨ l' = flipped l) ∧ l'.points.coordinates.Perm l.points.coordinates := by
  rw [C48_normalize_smaller_partial l hu h] at hn
  injection hn with hn
  have tot := C01_compareTo_total_order (α := α).lex
  have sw := tot.swap l.points.coordinates l.points.coordinates.reverse h (by simpa using h)
  split_ifs at hn with hc
  · subst hn
    refine ⟨?_, .inr rfl, List.reverse_perm _⟩
    simp only [flipped, List.reverse_reverse]
    omega
  · subst hn
    exact ⟨by omega, .inl rfl, List.Perm.refl _⟩

/-- C48: normalising twice is normalising once. -/
theorem C48_normalize_idempotent_partial (l : LineString α) (hu : Unmeasured l.points) (h : ∀ c ∈ l.points.coordinates, c.NN) :
    (l.normalize >>= LineString.normalize) = l.normalize := by
  obtain ⟨l', hl⟩ : ∃ l', l.normalize = .ok l' := ⟨_, C48_normalize_smaller_partial l hu h⟩
  obtain ⟨h1, h2, h3⟩ := C48_normalize_ascending_partial l l' hu h hl
  rw [hl, Res.bind_ok]
  have hu' : Unmeasured l'.points := by
    rcases h2 with rfl | rfl
    · exact hu
    · exact hu.flip
  rw [C48_normalize_smaller_partial l' hu' (fun c hc => h c (h3.mem_iff.mp hc)), if_neg (by omega)]

/-- C48: a line and its reverse normalise to the same coordinates (in the plane); if the line is not its own mirror image, to the
very same line. -/
theorem C48_normalize_canonical_partial (l : LineString α) (hu : Unmeasured l.points) (h : ∀ c ∈ l.points.coordinates, c.NN) :
    ∃ l1 l2, l.normalize = .ok l1 ∧ (flipped l).normalize = .ok l2 ∧
      List.Forall₂ (fun a b => a.equals2D b = true) l1.points.coordinates l2.points.coordinates ∧
      (¬ List.Forall₂ (fun a b => a.equals2D b = true) l.points.coordinates l.points.coordinates.reverse → l1 = l2) := by
  have tot := C01_compareTo_total_order (α := α).lex
  have sw := tot.swap l.points.coordinates l.points.coordinates.reverse h (by simpa using h)
  have ze := tot.zero_iff l.points.coordinates l.points.coordinates.reverse h (by simpa using h)
  have ze' := tot.zero_iff l.points.coordinates l.points.coordinates h h
  have sw' := tot.swap l.points.coordinates l.points.coordinates h h
  have refl : List.Forall₂ (fun a b => a.equals2D b = true) l.points.coordinates l.points.coordinates := by
    apply ze'.mp; omega
  have zer := tot.zero_iff l.points.coordinates.reverse l.points.coordinates.reverse (by simpa using h) (by simpa using h)
  have swr := tot.swap l.points.coordinates.reverse l.points.coordinates.reverse (by simpa using h) (by simpa using h)
  have reflr : List.Forall₂ (fun a b => a.equals2D b = true) l.points.coordinates.reverse l.points.coordinates.reverse := by
    apply zer.mp; omega
  refine ⟨_, _, C48_normalize_smaller_partial l hu h, C48_normalize_smaller_partial (flipped l) hu.flip (by simpa [flipped] using h), ?_⟩
  have e : flipped (flipped l) = l := by simp [flipped]
  simp only [flipped, List.reverse_reverse] at e ⊢
  rw [sw]
  split_ifs with h1 h2 h2
  · omega
  · exact ⟨reflr, fun _ => rfl⟩
  · exact ⟨by simpa using refl, fun _ => rfl⟩
  · have h0 : lexCmp Coord.compareTo l.points.coordinates l.points.coordinates.reverse = 0 := by omega
    exact ⟨ze.mp h0, fun hn => absurd (ze.mp h0) hn⟩

end Order

/-- C48: reversing a line without measures lists its coordinates in the opposite order, and reversing twice gives the line back. -/
theorem C48_reverse_partial (l : LineString α) (hu : Unmeasured l.points) :
    l.reverse = .ok (flipped l) ∧ (l.reverse >>= LineString.reverse) = .ok l := by
  have key : ∀ l : LineString α, Unmeasured l.points → l.reverse = .ok (flipped l) := by
    intro l hu
    rw [LineString.reverse, LineString.reverseInternal, casCopy, hu.reverse, Res.bind_ok, newFrom_eq]
    obtain ⟨p, env⟩ := l
    cases env <;> rfl
  refine ⟨key l hu, ?_⟩
  rw [key l hu, Res.bind_ok, key _ hu.flip]
  simp [flipped]

/-- C48: comparing lines is the lexicographic comparison of their coordinates, on every line; -/
theorem C48_compare (l m : LineString α) : l.compareTo m = .ok (lexCmp Coord.compareTo l.points.coordinates m.points.coordinates) := by
  rw [LineString.compareTo]
  exact lexLoop Coord.compareTo l.points.coordinates m.points.coordinates _ (by
    intro i a b
    rw [CASeq.getCoordinate, CASeq.getCoordinate, Res.get_lt a, Res.get_lt b]; rfl)

/-- C48: on lines without NaN it is a total order, whose equality is equality of the coordinates in the plane. -/
theorem C48_compare_total_order [FltOrd α] : ∃ cmp : LineString α → LineString α → Int,
    (∀ l m, LineString.compareTo l m = .ok (cmp l m)) ∧
    TotalOrderOn (fun l : LineString α => ∀ c ∈ l.points.coordinates, c.NN) cmp
      (fun l m => List.Forall₂ (fun a b => a.equals2D b = true) l.points.coordinates m.points.coordinates) := by
  have tot := C01_compareTo_total_order (α := α).lex
  refine ⟨fun l m => lexCmp Coord.compareTo l.points.coordinates m.points.coordinates, C48_compare, ?_⟩
  exact ⟨fun a b => tot.range _ _, fun a b => tot.zero_iff _ _, fun a b => tot.swap _ _, fun a b c => tot.trans _ _ _⟩

/-- C48: rings compare in the same way, and polygons by their shells and then, lexicographically, by their holes. -/
theorem C48_compare_ring (l m : LinearRing α) : l.compareTo m = .ok (lexCmp Coord.compareTo l.points.coordinates m.points.coordinates) := by
  rw [LinearRing.compareTo]
  exact lexLoop Coord.compareTo l.points.coordinates m.points.coordinates _ (by
    intro i a b
    rw [CASeq.getCoordinate, CASeq.getCoordinate, Res.get_lt a, Res.get_lt b]; rfl)

/-- All rings of a polygon, the shell first. -/
def ringsOf (p : Polygon α) : List (List (Coord α)) := p.shell.points.coordinates :: p.holes.map (·.points.coordinates)

theorem C48_compare_polygon (p q : Polygon α) :
    p.compareTo q = .ok (lexCmp (lexCmp Coord.compareTo) (ringsOf p) (ringsOf q)) := by
  rw [Polygon.compareTo, Polygon.compareBy, ringCopy, ringCopy, Res.bind_ok, Res.bind_ok, C48_compare_ring, Res.bind_ok]
  simp only [ringsOf, lexCmp]
  by_cases h : lexCmp Coord.compareTo p.shell.points.coordinates q.shell.points.coordinates = 0
  · rw [if_neg (by simpa using h), if_pos h]
    have := lexLoop (fun a b : LinearRing α => lexCmp Coord.compareTo a.points.coordinates b.points.coordinates) p.holes q.holes
      (fun i => do
        let a ← p.getInteriorRing i
        let b ← q.getInteriorRing i
        let c ← LinearRing.compareTo a b
        pure (if c ≠ 0 then some c else none)) (by
          intro i a b
          rw [Polygon.getInteriorRing, Polygon.getInteriorRing, Res.get_lt a, Res.get_lt b, Res.bind_ok, Res.bind_ok, ringCopy, ringCopy,
            Res.bind_ok, Res.bind_ok, C48_compare_ring]; rfl)
    have e : ∀ l m : List (LinearRing α), lexCmp (fun a b : LinearRing α => lexCmp Coord.compareTo a.points.coordinates b.points.coordinates) l m
        = lexCmp (lexCmp Coord.compareTo) (l.map (·.points.coordinates)) (m.map (·.points.coordinates)) := by
      intro l
      induction l with
      | nil => intro m; cases m <;> rfl
      | cons a l ih => intro m; cases m with
        | nil => rfl
        | cons b m => simp only [lexCmp, List.map_cons, ih]
    rw [← e]
    exact this
  · rw [if_pos (by simpa using h), if_neg h]; rfl

theorem C48_compare_polygon_total_order [FltOrd α] : ∃ cmp : Polygon α → Polygon α → Int,
    (∀ p q, Polygon.compareTo p q = .ok (cmp p q)) ∧
    TotalOrderOn (fun p : Polygon α => ∀ r ∈ ringsOf p, ∀ c ∈ r, c.NN) cmp
      (fun p q => List.Forall₂ (List.Forall₂ (fun a b => a.equals2D b = true)) (ringsOf p) (ringsOf q)) := by
  have tot := C01_compareTo_total_order (α := α).lex.lex
  refine ⟨fun p q => lexCmp (lexCmp Coord.compareTo) (ringsOf p) (ringsOf q), C48_compare_polygon, ?_⟩
  exact ⟨fun a b => tot.range _ _, fun a b => tot.zero_iff _ _, fun a b => tot.swap _ _, fun a b c => tot.trans _ _ _⟩

/-! ## Examples -/

private def pt (x y : ℚ) : Coord EQ := Coord.xy (.fin x) (.fin y)
private def line (l : List (Coord EQ)) : LineString EQ := LineString.ofSeq (CASeq.ofCoordinates l)

example : (line [pt 3 0, pt 1 1, pt 0 0]).normalize = .ok (line [pt 0 0, pt 1 1, pt 3 0]) := by decide +kernel
example : (line [pt 0 0, pt 2 1, pt 1 1, pt 0 0]).normalize = .ok (line [pt 0 0, pt 1 1, pt 2 1, pt 0 0]) := by decide +kernel
example : Unmeasured (line [pt 3 0, pt 1 1, pt 0 0]).points :=
  ⟨by decide +kernel, ⟨.nan, by decide +kernel⟩, .inr ⟨.nan, by decide +kernel⟩⟩
example : (line [pt 0 0, pt 1 1]).compareTo (line [pt 0 0, pt 1 1, pt 2 2]) = .ok (-1) := by decide +kernel

/-- C48: with heights only, a mirror symmetric line and its reverse stay different: normalising looks at the plane alone. -/
theorem C48_heights_not_normalized :
    let l : LineString EQ := LineString.ofSeq (CASeq.ofCoordinates [Coord.xyz (.fin 0) (.fin 0) (.fin 1), Coord.xyz (.fin 0) (.fin 0) (.fin 2)])
    l.normalize = .ok l ∧ (flipped l).normalize = .ok (flipped l) ∧ flipped l ≠ l := by decide +kernel

/-- C48: a NaN at one end is taken for a difference, so that a line and its reverse both stay as they are. -/
theorem C48_nan_not_normalized :
    let l : LineString EQ := LineString.ofSeq (CASeq.ofCoordinates [Coord.xy .nan (.fin 0), Coord.xy (.fin 0) (.fin 0)])
    l.normalize = .ok l ∧ (flipped l).normalize = .ok (flipped l) ∧ flipped l ≠ l := by decide +kernel

end Verif.Props
