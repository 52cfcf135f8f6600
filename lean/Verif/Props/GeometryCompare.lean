import Verif.Props.Geometries
import Verif.Props.SequenceComparator
import Verif.Props.CCW

/-!
# C97: comparing geometries with a sequence comparator, normalising polygons, coordinates on lines
-/

set_option linter.unusedSectionVars false

namespace Verif.Props
open Flt Verif.Spec Verif.SeqCompare
variable {α : Type} [Flt α]

/-- The sequences are the same for a comparator limited to `limit` ordinates: same capped dimension, as many coordinates, and ordinates
within that dimension equal or both NaN. -/
def SameUpTo (limit : Int) (s t : CASeq α) : Prop :=
  min s.dimension limit = min t.dimension limit ∧
    List.Forall₂ (List.Forall₂ NanEq) (s.coordinates.map (ordinates (min s.dimension limit).toNat))
      (t.coordinates.map (ordinates (min t.dimension limit).toNat))

theorem compareSeq_val (limit : Int) (s t : CASeq α) : compareSeq limit s t = .ok (cmpVal limit s t) := by
  rw [cmpVal, C21_compare_key]

/-- The sequences of the rings of a polygon, the shell first. -/
def ringSeqs (p : Polygon α) : List (CASeq α) := p.shell.points :: p.holes.map (·.points)

/-- What comparing polygons with a comparator computes: the lexicographic order of the lists of rings. -/
theorem C97_compare_polygon_key (limit : Int) (p q : Polygon α) :
    p.compareToWith limit q = .ok (lexCmp (cmpVal limit) (ringSeqs p) (ringSeqs q)) := by
  have ring : ∀ r s : LinearRing α, LinearRing.compareToWith limit r s = .ok (cmpVal limit r.points s.points) :=
    fun r s => compareSeq_val limit _ _
  rw [Polygon.compareToWith, Polygon.compareBy, ringCopy, ringCopy, Res.bind_ok, Res.bind_ok, ring, Res.bind_ok]
  simp only [ringSeqs, lexCmp]
  by_cases h : cmpVal limit p.shell.points q.shell.points = 0
  · rw [if_neg (by simpa using h), if_pos h]
    have := lexLoop (fun a b : LinearRing α => cmpVal limit a.points b.points) p.holes q.holes
      (fun i => do
        let a ← p.getInteriorRing i
        let b ← q.getInteriorRing i
        let c ← LinearRing.compareToWith limit a b
        pure (if c ≠ 0 then some c else none)) (by
          intro i a b
          rw [Polygon.getInteriorRing, Polygon.getInteriorRing, Res.get_lt a, Res.get_lt b, Res.bind_ok, Res.bind_ok, ringCopy, ringCopy,
            Res.bind_ok, Res.bind_ok, ring]; rfl)
    have e : ∀ l m : List (LinearRing α), lexCmp (fun a b : LinearRing α => cmpVal limit a.points b.points) l m
        = lexCmp (cmpVal limit) (l.map (·.points)) (m.map (·.points)) := by
      intro l
      induction l with
      | nil => intro m; cases m <;> rfl
      | cons a l ih => intro m; cases m with
        | nil => rfl
        | cons b m => simp only [lexCmp, List.map_cons, ih]
    rw [← e]
    exact this
  · rw [if_pos (by simpa using h), if_neg h]; rfl

/-! ## Limited to x and y -/

theorem lexCmp_congr {A B : Type} (f : A → A → Int) (g : B → B → Int) (u : A → B) (l m : List A)
    (h : ∀ a ∈ l, ∀ b ∈ m, g (u a) (u b) = f a b) : lexCmp g (l.map u) (m.map u) = lexCmp f l m := by
  induction l generalizing m with
  | nil => cases m <;> rfl
  | cons a l ih => cases m with
    | nil => rfl
    | cons b m =>
      simp only [List.map_cons, lexCmp, h a (by simp) b (by simp)]
      rw [ih m (fun a ha b hb => h a (by simp [ha]) b (by simp [hb]))]

/-- Limited to two ordinates, numeric sequences compare like their lists of coordinates. -/
theorem cmpVal_two (s t : CASeq α) (hs : 2 ≤ s.dimension) (ht : 2 ≤ t.dimension)
    (h : ∀ c ∈ s.coordinates, c.NN) (h' : ∀ c ∈ t.coordinates, c.NN) :
    cmpVal 2 s t = lexCmp Coord.compareTo s.coordinates t.coordinates := by
  rw [cmpVal, C21_compare_key]
  simp only [min_eq_right hs, min_eq_right ht, lt_irrefl, if_false]
  refine lexCmp_congr _ _ _ _ _ (fun a ha b hb => ?_)
  obtain ⟨h1, h2⟩ := h a ha
  obtain ⟨h3, h4⟩ := h' b hb
  show lexCmp compareF64 [a.x, a.y] [b.x, b.y] = _
  simp only [lexCmp, compareF64, Coord.compareTo, h1, h2, h3, h4, Bool.false_eq_true, if_false]
  split_ifs <;> simp_all

/-- C97: limited to x and y, the comparator orders numeric lines as `compare_to` does. -/
theorem C97_compare_line_two (l m : LineString α) (hl : 2 ≤ l.points.dimension) (hm : 2 ≤ m.points.dimension)
    (nl : ∀ c ∈ l.points.coordinates, c.NN) (nm : ∀ c ∈ m.points.coordinates, c.NN) : l.compareToWith 2 m = l.compareTo m := by
  rw [C48_compare, ← cmpVal_two _ _ hl hm nl nm]
  exact compareSeq_val 2 _ _

/-- C97: limited to x and y, the comparator orders numeric polygons as `compare_to` does. -/
theorem C97_compare_polygon_two (p q : Polygon α) (hp : ∀ s ∈ ringSeqs p, 2 ≤ s.dimension ∧ ∀ c ∈ s.coordinates, c.NN)
    (hq : ∀ s ∈ ringSeqs q, 2 ≤ s.dimension ∧ ∀ c ∈ s.coordinates, c.NN) : p.compareToWith 2 q = p.compareTo q := by
  rw [C48_compare_polygon, C97_compare_polygon_key]
  have e : ∀ p : Polygon α, ringsOf p = (ringSeqs p).map (·.coordinates) := by
    intro p; simp [ringsOf, ringSeqs, Function.comp_def]
  rw [e, e, lexCmp_congr (cmpVal 2)]
  exact fun a ha b hb => (cmpVal_two a b (hp a ha).1 (hq b hb).1 (hp a ha).2 (hq b hb).2).symm

section Order
variable [FltOrd α]

/-- C97: with a comparator, comparing lines never panics and is a total order on all lines, NaN included. -/
theorem C97_compare_line (limit : Int) : ∃ cmp : LineString α → LineString α → Int,
    (∀ l m : LineString α, l.compareToWith limit m = .ok (cmp l m)) ∧
    TotalOrderOn (fun _ => True) cmp (fun l m => SameUpTo limit l.points m.points) := by
  have T := C21_total_order (α := α) limit
  exact ⟨fun l m => cmpVal limit l.points m.points, fun l m => compareSeq_val limit _ _,
    fun a b => T.range _ _, fun a b _ _ => T.zero_iff _ _ trivial trivial, fun a b _ _ => T.swap _ _ trivial trivial,
    fun a b c _ _ _ => T.trans _ _ _ trivial trivial trivial⟩

/-- C97: the same for points. -/
theorem C97_compare_point (limit : Int) : ∃ cmp : Point α → Point α → Int,
    (∀ p q : Point α, p.compareTo limit q = .ok (cmp p q)) ∧
    TotalOrderOn (fun _ => True) cmp (fun p q => SameUpTo limit p.coordinates q.coordinates) := by
  have T := C21_total_order (α := α) limit
  exact ⟨fun l m => cmpVal limit l.coordinates m.coordinates, fun l m => compareSeq_val limit _ _,
    fun a b => T.range _ _, fun a b _ _ => T.zero_iff _ _ trivial trivial, fun a b _ _ => T.swap _ _ trivial trivial,
    fun a b c _ _ _ => T.trans _ _ _ trivial trivial trivial⟩

/-- C97: the same for rings. -/
theorem C97_compare_ring (limit : Int) : ∃ cmp : LinearRing α → LinearRing α → Int,
    (∀ l m : LinearRing α, l.compareToWith limit m = .ok (cmp l m)) ∧
    TotalOrderOn (fun _ => True) cmp (fun l m => SameUpTo limit l.points m.points) := by
  have T := C21_total_order (α := α) limit
  exact ⟨fun l m => cmpVal limit l.points m.points, fun l m => compareSeq_val limit _ _,
    fun a b => T.range _ _, fun a b _ _ => T.zero_iff _ _ trivial trivial, fun a b _ _ => T.swap _ _ trivial trivial,
    fun a b c _ _ _ => T.trans _ _ _ trivial trivial trivial⟩

/-- C97: with a comparator, comparing polygons never panics and is a total order on all polygons; polygons are equal for it if they
have as many holes, and shells and holes of the same place are equal. -/
theorem C97_compare_polygon (limit : Int) : ∃ cmp : Polygon α → Polygon α → Int,
    (∀ p q : Polygon α, p.compareToWith limit q = .ok (cmp p q)) ∧
    TotalOrderOn (fun _ => True) cmp (fun p q => List.Forall₂ (SameUpTo limit) (ringSeqs p) (ringSeqs q)) := by
  have T := (C21_total_order (α := α) limit).lex
  refine ⟨fun p q => lexCmp (cmpVal limit) (ringSeqs p) (ringSeqs q), C97_compare_polygon_key limit, ?_⟩
  exact ⟨fun a b => T.range _ _, fun a b _ _ => T.zero_iff _ _ (fun _ _ => trivial) (fun _ _ => trivial),
    fun a b _ _ => T.swap _ _ (fun _ _ => trivial) (fun _ _ => trivial),
    fun a b c _ _ _ => T.trans _ _ _ (fun _ _ => trivial) (fun _ _ => trivial) (fun _ _ => trivial)⟩

end Order

/-! ## Coordinates on lines -/

/-- C97: `is_coordinate` never panics and says whether some coordinate of the line equals the point in x and y. -/
theorem C97_is_coordinate (l : LineString α) (c : Coord α) :
    ∃ b, l.isCoordinate c = .ok b ∧ (b = true ↔ ∃ d ∈ l.points.coordinates, d.x ==. c.x ∧ d.y ==. c.y) := by
  rw [LineString.isCoordinate, forFind_ok 0 l.points.size _
    (fun i => if h : i < l.points.coordinates.length then (if l.points.coordinates[i].equals2D c then some true else none) else none) (by
      intro i _ hi
      have hi' : i < l.points.coordinates.length := hi
      rw [CASeq.getCoordinate, Res.get_lt hi', Res.bind_ok, dif_pos hi']; rfl), Res.bind_ok]
  refine ⟨_, rfl, ?_⟩
  have eq2 : ∀ d : Coord α, d.equals2D c = true ↔ (d.x ==. c.x ∧ d.y ==. c.y) := by
    intro d; rw [Coord.equals2D]; grind
  rcases h : (List.range' 0 (l.points.size - 0)).findSome? _ with _ | b
  · rw [findSome?_range'_none] at h
    simp only [Option.getD_none, Bool.false_eq_true, false_iff]
    rintro ⟨d, hd, e⟩
    obtain ⟨i, hi, rfl⟩ := List.getElem_of_mem hd
    have := h i (by omega) (by simp only [CASeq.size]; omega)
    rw [dif_pos hi, if_pos ((eq2 _).mpr e)] at this
    cases this
  · rw [findSome?_range'_some] at h
    obtain ⟨k, -, h2, h3, -⟩ := h
    have hk : k < l.points.coordinates.length := by simp only [CASeq.size] at h2; omega
    rw [dif_pos hk] at h3
    by_cases e : l.points.coordinates[k].equals2D c = true
    · rw [if_pos e] at h3
      injection h3 with h3
      subst h3
      simp only [Option.getD_some, true_iff]
      exact ⟨_, List.getElem_mem hk, (eq2 _).mp e⟩
    · rw [if_neg e] at h3; cases h3

/-! ## Normalising polygons -/

/-- The place of the smallest coordinate is within the range, whatever the coordinates (NaN included). -/
theorem minIndex_range (s : CASeq α) (hi : Nat) (h1 : hi < s.coordinates.length) (h2 : s.coordinates.length < 2 ^ 31) :
    ∃ k, Seqs.minCoordinateIndexFromTo s 0 hi = .ok k ∧ k ≤ hi := by
  obtain ⟨r, e1, e2⟩ := forRange_inv 0 (hi + 1) (fun i (st : Option (Coord α) × Int) => do
      let t ← SeqOps.getCoord s i
      match st.1 with
      | none => pure (some t, (i : Int))
      | some c => if c.compareTo t > 0 then pure (some t, (i : Int)) else pure st)
    (fun i st => (i = 0 ∧ st.1 = none) ∨ ∃ (k : Nat) (m : Coord α), st = (some m, (k : Int)) ∧ k < i)
    (by omega) (none, -1) (.inl ⟨rfl, rfl⟩) (by
      rintro i st hi1 hi2 hst
      have hi3 : i < s.coordinates.length := by omega
      simp only [SeqOps.getCoord, CASeq.getCoordinate, Res.get_lt hi3, Res.bind_ok]
      rcases hst with ⟨rfl, hst⟩ | ⟨k, m, rfl, hk2⟩
      · rw [hst]
        exact ⟨_, rfl, .inr ⟨0, _, rfl, by omega⟩⟩
      · simp only
        by_cases hc : m.compareTo s.coordinates[i] > 0
        · rw [if_pos hc]; exact ⟨_, rfl, .inr ⟨i, _, rfl, by omega⟩⟩
        · rw [if_neg hc]; exact ⟨_, rfl, .inr ⟨k, m, rfl, by omega⟩⟩)
  rcases e2 with ⟨h0, -⟩ | ⟨k, m, rfl, hk⟩
  · omega
  · exact ⟨k, (congrArg (· >>= _) e1).trans (by rw [Res.bind_ok]; simp only [asUsize_ofNat k (by omega)]; rfl), by omega⟩

/-- A ring as the constructors make them: at least two ordinates, and a number of coordinates that fits an `i32`. -/
def Regular (r : LinearRing α) : Prop := 2 ≤ r.points.dimension ∧ r.points.coordinates.length < 2 ^ 31

theorem normalizeRing_eq [FltOrd α] (r : LinearRing α) (hr : Regular r) (b : Bool) :
    Polygon.normalizeRing r b = if r.points.coordinates.length = 1 then .error .arith else .ok () := by
  obtain ⟨hd, hl⟩ := hr
  rw [Polygon.normalizeRing]
  by_cases h0 : r.points.coordinates.length = 0
  · rw [if_pos (by simp [LinearRing.isEmpty, CASeq.size, h0]), if_neg (by omega)]; rfl
  rw [if_neg (by simpa [LinearRing.isEmpty, CASeq.size] using h0)]
  by_cases h1 : r.points.coordinates.length = 1
  · rw [if_pos h1]
    simp only [LinearRing.getSeq, casCopy, CASeq.size, h1]
    rfl
  rw [if_neg h1]
  have hsz : Res.sub r.points.size 2 = .ok (r.points.coordinates.length - 2) := if_pos (by simp only [CASeq.size]; omega)
  simp only [LinearRing.getSeq, casCopy, hsz, Res.bind_ok]
  obtain ⟨k, e1, e2⟩ := minIndex_range r.points (r.points.coordinates.length - 2) (by omega) hl
  rw [e1, Res.bind_ok]
  obtain ⟨s', e3, e4, e5⟩ : ∃ s', Seqs.scrollEnsureRing r.points k true = .ok s' ∧ 2 ≤ s'.dimension ∧ s'.coordinates ≠ [] := by
    by_cases hk : k = 0
    · exact ⟨r.points, by rw [Seqs.scrollEnsureRing, if_pos (by omega)]; rfl, hd, by intro h; simp [h] at h0⟩
    · obtain ⟨s', e1, e2, -, e3, -⟩ := C19_array_scroll_ring r.points hd k (by omega) (by omega)
      exact ⟨s', e1, by omega, by intro h; rw [h] at e3; simp at e3; omega⟩
  rw [e3, Res.bind_ok, C34_sequence]
  obtain ⟨c, e6⟩ := (C34_total s'.coordinates).2.1 e5
  rw [e6, Res.bind_ok]
  obtain ⟨s'', e7, -⟩ := C18_array_reverse_partial s' e4
  by_cases hc : c = b
  · rw [if_pos hc, e7]; rfl
  · rw [if_neg hc]; rfl

/-- The ring without its cached envelope. -/
def bare (r : LinearRing α) : LinearRing α := ⟨r.points, none, none⟩

theorem normalized_eq [FltOrd α] (r : LinearRing α) (hr : Regular r) (b : Bool) :
    Polygon.normalized r b = if r.points.coordinates.length = 1 then .error .arith else .ok (bare r) := by
  rw [Polygon.normalized, ringCopy, Res.bind_ok, normalizeRing_eq ⟨r.points, none, none⟩ hr]
  by_cases h : r.points.coordinates.length = 1
  · rw [if_pos h, if_pos h]; rfl
  · rw [if_neg h, if_neg h]; rfl

/-- C97: normalising a polygon panics exactly if its shell or a hole consists of a single coordinate. Otherwise every ring keeps its
coordinates: normalising does not even choose an orientation. -/
theorem C97_normalize_polygon [FltOrd α] (p : Polygon α) (hs : Regular p.shell) (hh : ∀ r ∈ p.holes, Regular r) :
    p.selfNormalize = if p.shell.points.coordinates.length = 1 ∨ ∃ r ∈ p.holes, r.points.coordinates.length = 1
      then .error .arith else .ok { p with shell := bare p.shell, holes := p.holes.map bare } := by
  rw [Polygon.selfNormalize, normalized_eq _ hs]
  by_cases h1 : p.shell.points.coordinates.length = 1
  · rw [if_pos h1, if_pos (.inl h1)]; rfl
  rw [if_neg h1, Res.bind_ok]
  have step : ∀ i (q : Polygon α) (hi : i < q.holes.length), Regular q.holes[i] → (do
      let h ← Res.get q.holes i
      let h' ← Polygon.normalized h false
      let hs ← Res.set q.holes i h'
      pure { q with holes := hs } : Res (Polygon α)) = if q.holes[i].points.coordinates.length = 1 then .error .arith
        else .ok { q with holes := q.holes.set i (bare q.holes[i]) } := by
    intro i q hi hr
    rw [Res.get_lt hi, Res.bind_ok, normalized_eq _ hr]
    by_cases h : q.holes[i].points.coordinates.length = 1
    · rw [if_pos h, if_pos h]; rfl
    · rw [if_neg h, if_neg h, Res.bind_ok, Res.set_lt hi]; rfl
  have key : ∀ k, k ≤ p.holes.length → forRange 0 k { p with shell := bare p.shell } (fun i q => do
        let h ← Res.get q.holes i
        let h' ← Polygon.normalized h false
        let hs ← Res.set q.holes i h'
        pure { q with holes := hs }) = if ∃ r ∈ p.holes.take k, r.points.coordinates.length = 1 then .error .arith
          else .ok { p with shell := bare p.shell, holes := (p.holes.take k).map bare ++ p.holes.drop k } := by
    intro k
    induction k with
    | zero => intro _; rw [forRange_self _ _ (Nat.le_refl _)]; simp
    | succ k ih =>
      intro hk
      rw [forRange_succ _ _ (by omega), ih (by omega)]
      have ht : p.holes.take (k + 1) = p.holes.take k ++ [p.holes[k]] := by rw [List.take_succ_eq_append_getElem (by omega)]
      by_cases h : ∃ r ∈ p.holes.take k, r.points.coordinates.length = 1
      · rw [if_pos h, if_pos (by obtain ⟨r, a, b⟩ := h; exact ⟨r, by rw [ht]; exact List.mem_append_left _ a, b⟩)]; rfl
      · rw [if_neg h, Res.bind_ok]
        have hd : p.holes.drop k = p.holes[k] :: p.holes.drop (k + 1) := List.drop_eq_getElem_cons (by omega)
        have hlen : (p.holes.take k).length = k := by simp; omega
        have hlt : k < ((p.holes.take k).map bare ++ p.holes.drop k).length := by simp; omega
        have hget : ((p.holes.take k).map bare ++ p.holes.drop k)[k]'hlt = p.holes[k] := by
          rw [← Option.some_inj, ← List.getElem?_eq_getElem, List.getElem?_append_right (by simp), List.length_map, hlen, Nat.sub_self, hd]; rfl
        rw [step k _ hlt (by rw [hget]; exact hh _ (List.getElem_mem _)), hget]
        by_cases h2 : p.holes[k].points.coordinates.length = 1
        · rw [if_pos h2, if_pos ⟨p.holes[k], by rw [ht]; exact List.mem_append_right _ (List.mem_singleton.mpr rfl), h2⟩]
        · rw [if_neg h2, if_neg (by
            rintro ⟨r, a, b⟩
            rw [ht, List.mem_append] at a
            rcases a with a | a
            · exact h ⟨r, a, b⟩
            · rw [List.mem_singleton] at a; subst a; exact h2 b)]
          congr 2
          rw [ht, hd, List.set_append_right _ _ (by simp), List.length_map, hlen, Nat.sub_self, List.set_cons_zero, List.map_append,
            List.append_assoc]; rfl
  rw [key _ (Nat.le_refl _), List.take_length, List.drop_length, List.append_nil]
  by_cases h : ∃ r ∈ p.holes, r.points.coordinates.length = 1
  · rw [if_pos h, if_pos (.inr h)]
  · rw [if_neg h, if_neg (by rintro (a | a); exacts [h1 a, h a])]

/-! ## Examples -/

private def ringOf (l : List (Coord EQ)) : LinearRing EQ := ⟨CASeq.ofCoordinates l, none, none⟩
private def at' (x y : ℚ) : Coord EQ := Coord.xy (.fin x) (.fin y)
private def tri : LinearRing EQ := ringOf [at' 4 0, at' 0 0, at' 0 4, at' 4 0]
private def one : LinearRing EQ := ringOf [at' 1 1]

example : Regular tri := ⟨by decide +kernel, by decide +kernel⟩
example : (⟨tri, [tri], none, none⟩ : Polygon EQ).selfNormalize = .ok ⟨tri, [tri], none, none⟩ := by decide +kernel
example : (⟨tri, [tri, one], none, none⟩ : Polygon EQ).selfNormalize = .error .arith := by decide +kernel
example : Polygon.compareToWith 2 (⟨tri, [tri], none, none⟩ : Polygon EQ) ⟨tri, [one, one], none, none⟩ = .ok 1 := by decide +kernel
example : ∀ s ∈ ringSeqs (⟨tri, [one], none, none⟩ : Polygon EQ), 2 ≤ s.dimension ∧ ∀ c ∈ s.coordinates, c.NN := by decide +kernel
example : SameUpTo 2 (CASeq.ofCoordinates [Coord.xyz (.fin 0) .nan (.fin 1)] : CASeq EQ) (CASeq.ofCoordinates [Coord.xyz (.fin 0) .nan (.fin 2)]) := by
  refine ⟨by decide +kernel, ?_⟩
  refine .cons (.cons ?_ (.cons ?_ .nil)) .nil
  · exact .inl (by decide +kernel)
  · exact .inr (by decide +kernel)
example : (⟨CASeq.ofCoordinates [at' 0 0, at' 3 4], none⟩ : LineString EQ).isCoordinate (at' 3 4) = .ok true := by decide +kernel

end Verif.Props
