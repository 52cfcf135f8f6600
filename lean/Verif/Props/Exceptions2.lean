import Verif.Props.EqualsExact
import Verif.Props.Sequences
import Verif.Props.CoordinateArrays
import Verif.Props.OctagonalEnvelope
import Verif.Props.DD
import Verif.Lemmas.Doubles

set_option linter.unusedSectionVars false

/-! # C109: the exact extent of further exceptions -/

namespace Verif.Props
open Flt Verif.Spec

/-! ## Equality with itself -/

section refl
variable {r : Rounding}

/-- x and y are finite. -/
def Finite2 (c : Coord (Fl r)) : Prop := isFinite c.x = true ∧ isFinite c.y = true

/-- x and y are numbers or infinite. -/
def Number2 (c : Coord (Fl r)) : Prop := isNaN c.x = false ∧ isNaN c.y = false

/-- When a coordinate is near itself. -/
def SelfNear (t : Fl r) (c : Coord (Fl r)) : Prop :=
  ((t ==. .fin 0) = true ∧ Number2 c) ∨ ((Fl.fin 0 <. t) = true ∧ Finite2 c)

theorem fl_self_sub (h0 : r.rnd 0 = .fin 0) (x : Fl r) : x -. x = if isFinite x = true then Fl.fin 0 else Fl.nan := by
  cases x with
  | fin q =>
    show Fl.round (q + -q) = _
    rw [add_neg_cancel]; exact h0
  | nan => rfl
  | pinf => rfl
  | ninf => rfl

theorem near_self (h0 : r.rnd 0 = .fin 0) (hh : r.hypot 0 0 = .fin 0) (t : Fl r) (c : Coord (Fl r)) : Near t c c ↔ SelfNear t c := by
  have hl : (lit 0 : Fl r) = .fin 0 := h0
  unfold Near SelfNear
  rw [hl]
  by_cases ht : (t ==. .fin 0) = true
  · have hn : (Fl.fin 0 <. t) = false := by
      cases t with
      | fin q =>
        have : q = 0 := of_decide_eq_true ht
        rw [this]; exact decide_eq_false (lt_irrefl (0 : ℚ))
      | nan => cases ht
      | pinf => cases ht
      | ninf => cases ht
    rw [if_pos ht]
    simp only [ht, hn, true_and, Bool.false_eq_true, false_and, or_false]
    have : ∀ x : Fl r, (x ==. x) = true ↔ isNaN x = false := by
      intro x
      cases x with
      | fin q => exact ⟨fun _ => rfl, fun _ => decide_eq_true rfl⟩
      | nan => exact ⟨nofun, nofun⟩
      | pinf => exact ⟨fun _ => rfl, fun _ => rfl⟩
      | ninf => exact ⟨fun _ => rfl, fun _ => rfl⟩
    unfold Number2
    rw [this, this]
  · rw [if_neg ht]
    simp only [ht, false_and, Bool.false_eq_true, false_or]
    have hz : FltSqrt.hypot (Fl.fin 0 : Fl r) (Fl.fin 0) = Fl.fin 0 := hh
    have hle : ((Fl.fin 0 : Fl r) ≤. t) = (Fl.fin 0 <. t) := by
      cases t with
      | fin q =>
        have hq : q ≠ 0 := fun e => ht (by rw [e]; exact decide_eq_true (rfl : (0 : ℚ) = 0))
        show decide (0 ≤ q) = decide (0 < q)
        exact decide_eq_decide.mpr ⟨fun h => lt_of_le_of_ne h hq.symm, le_of_lt⟩
      | nan => rfl
      | pinf => rfl
      | ninf => rfl
    have n1 : ((FltSqrt.hypot (Fl.fin 0 : Fl r) Fl.nan) ≤. t) = false := rfl
    have n2 : ((FltSqrt.hypot (Fl.nan : Fl r) (Fl.fin 0)) ≤. t) = false := rfl
    have n3 : ((FltSqrt.hypot (Fl.nan : Fl r) Fl.nan) ≤. t) = false := rfl
    unfold Finite2
    rw [fl_self_sub h0, fl_self_sub h0]
    cases isFinite c.x <;> cases isFinite c.y <;> simp [n1, n2, n3, hz, hle]

theorem Decides.same {G A : Type} {eq : G → G → A → Res Bool} {R : A → G → G → Prop} (h : Decides eq R) (g : G) (t : A) :
    eq g g t = .ok true ↔ R t g g := by
  obtain ⟨b, h1, h2⟩ := h g g t
  rw [h1, ← h2]
  exact ⟨fun h => by injection h, fun h => by rw [h]⟩

/-- C109: in every rounding with 0 and the hypotenuse of 0 and 0 exact, a geometry equals itself exactly if the tolerance is zero and no x or y
is NaN, or the tolerance is positive and every x and y is finite, or it has no coordinates. Of a point only its one coordinate counts. -/
theorem C109_equals_itself (h0 : r.rnd 0 = .fin 0) (hh : r.hypot 0 0 = .fin 0) (t : Fl r) :
    (∀ p : Point (Fl r), p.equalsExact p t = .ok true ↔ ∀ c ∈ p.coordinates.coordinates.take 1, SelfNear t c) ∧
    (∀ l : LineString (Fl r), l.equalsExact l t = .ok true ↔ ∀ c ∈ l.points.coordinates, SelfNear t c) ∧
    (∀ l : LinearRing (Fl r), l.equalsExact l t = .ok true ↔ ∀ c ∈ l.points.coordinates, SelfNear t c) ∧
    (∀ p : Polygon (Fl r), p.equalsExact p t = .ok true ↔
      (∀ c ∈ p.shell.points.coordinates, SelfNear t c) ∧ ∀ h ∈ p.holes, ∀ c ∈ h.points.coordinates, SelfNear t c) ∧
    (∀ p : MultiPoint (Fl r), p.equalsExact p t = .ok true ↔ ∀ q ∈ p.points, ∀ c ∈ q.coordinates.coordinates.take 1, SelfNear t c) ∧
    (∀ p : MultiLineString (Fl r), p.equalsExact p t = .ok true ↔ ∀ l ∈ p.lineStrings, ∀ c ∈ l.points.coordinates, SelfNear t c) ∧
    (∀ p : MultiPolygon (Fl r), p.equalsExact p t = .ok true ↔ ∀ q ∈ p.polygons,
      (∀ c ∈ q.shell.points.coordinates, SelfNear t c) ∧ ∀ h ∈ q.holes, ∀ c ∈ h.points.coordinates, SelfNear t c) := by
  refine ⟨fun p => ?_, fun p => ?_, fun p => ?_, fun p => ?_, fun p => ?_, fun p => ?_, fun p => ?_⟩
  · rw [C49_point_decides.same]; simp only [Match, List.forall₂_same, near_self h0 hh]
  · rw [C49_line_decides.same]; simp only [Match, List.forall₂_same, near_self h0 hh]
  · rw [C49_ring_decides.same]; simp only [Match, List.forall₂_same, near_self h0 hh]
  · rw [C49_polygon_decides.same]; simp only [Match, List.forall₂_same, near_self h0 hh]
  · rw [C49_multi_decides.1.same]; simp only [Match, List.forall₂_same, near_self h0 hh]
  · rw [C49_multi_decides.2.1.same]; simp only [Match, List.forall₂_same, near_self h0 hh]
  · rw [C49_multi_decides.2.2.same]; simp only [Match, List.forall₂_same, near_self h0 hh]

/-- Doubles with a library function that gets zero right meet the conditions. -/
example (sq : ℚ → Val) : (binary64 sq fun a b => if a = 0 ∧ b = 0 then .fin 0 else .nan).rnd 0 = .fin 0 ∧
    (binary64 sq fun a b => if a = 0 ∧ b = 0 then .fin 0 else .nan).hypot 0 0 = .fin 0 := by
  refine ⟨?_, by simp [binary64]⟩
  show Binary64.rnd 0 = .fin 0
  simpa using Binary64.rnd_of_f64 (f64_int 0 (by norm_num))

end refl

section any
variable {α : Type} [FltSqrt α] [FltOrd α]

/-! ## Extraction -/

/-- C109: extraction, for all indices: a start after the end (within the list) is an arithmetic error, otherwise the answer is empty if there is
nothing to extract and an index error if there is. -/
theorem C109_extract (pts : List (Coord α)) (start stop : Nat) :
    CoordArrays.extract pts start stop =
      if min stop pts.length < min start pts.length then .error .arith
      else if min start pts.length = min stop pts.length then .ok [] else .error .index := by
  have e1 : (MathUtil.clampI32 (start : Int) 0 (pts.length : Int)).toNat = min start pts.length := by
    unfold MathUtil.clampI32; split_ifs <;> omega
  have e2 : (MathUtil.clampI32 (stop : Int) (-1) (pts.length : Int)).toNat = min stop pts.length := by
    unfold MathUtil.clampI32; split_ifs <;> omega
  unfold CoordArrays.extract
  simp only [e1, e2]
  by_cases hab : min start pts.length ≤ min stop pts.length
  · rw [if_neg (show ¬ min stop pts.length < min start pts.length by omega), Res.sub_le hab, Res.bind_ok,
      if_neg (show ¬ min stop pts.length < min start pts.length by omega)]
    by_cases hp : min start pts.length ≥ pts.length
    · rw [if_pos hp, if_pos rfl, if_pos (by omega)]; rfl
    · rw [if_neg hp, if_neg (by omega)]
      rcases Nat.eq_or_lt_of_le hab with h' | h'
      · rw [if_pos h', forRange_self _ _ (by omega)]; rfl
      · rw [if_neg (by omega), forRange_first _ _ h', Res.get_lt (by omega), Res.bind_ok, Res.set_ge (by simp)]
        rfl
  · rw [if_pos (by omega), Res.sub, if_neg hab]; rfl

/-! ## Reversal of array sequences -/

/-- C109: reversing an array sequence of dimension two or more leaves every measure in its place (and in dimension two every z), and gives the
reversed list exactly if these read the same backwards. -/
theorem C109_reverse (s : CASeq α) (h : 2 ≤ s.dimension) :
    ∃ s', Seqs.reverse s = .ok s' ∧ s'.coordinates.map Coord.m = s.coordinates.map Coord.m ∧
      (s.dimension = 2 → s'.coordinates.map Coord.z = s.coordinates.map Coord.z) ∧
      (s'.coordinates = s.coordinates.reverse ↔ (s.coordinates.map Coord.m).reverse = s.coordinates.map Coord.m ∧
        (s.dimension = 2 → (s.coordinates.map Coord.z).reverse = s.coordinates.map Coord.z)) := by
  obtain ⟨s', e1, e2, e3, e4, e5⟩ := C18_array_reverse_partial s h
  have row : ∀ i (hi : i < s.coordinates.length), s'.coordinates[i]? =
      some (mergeRow s.dimension s.coordinates[i] (s.coordinates[s.coordinates.length - 1 - i])) := fun i hi =>
    e5 i _ _ (List.getElem?_eq_getElem hi) (List.getElem?_eq_getElem (by omega))
  have hm : s'.coordinates.map Coord.m = s.coordinates.map Coord.m := by
    apply List.ext_getElem?
    intro i
    by_cases hi : i < s.coordinates.length
    · rw [List.getElem?_map, List.getElem?_map, row i hi, List.getElem?_eq_getElem hi]; rfl
    · rw [List.getElem?_eq_none (by simpa [e4] using hi), List.getElem?_eq_none (by simpa using hi)]
  have hz : s.dimension = 2 → s'.coordinates.map Coord.z = s.coordinates.map Coord.z := by
    intro hd
    apply List.ext_getElem?
    intro i
    by_cases hi : i < s.coordinates.length
    · rw [List.getElem?_map, List.getElem?_map, row i hi, List.getElem?_eq_getElem hi]
      simp [mergeRow, hd]
    · rw [List.getElem?_eq_none (by simpa [e4] using hi), List.getElem?_eq_none (by simpa using hi)]
  refine ⟨s', e1, hm, hz, fun he => ?_, fun ⟨p1, p2⟩ => ?_⟩
  · rw [he, List.map_reverse] at hm
    rw [he, List.map_reverse] at hz
    exact ⟨hm, hz⟩
  · apply List.ext_getElem?
    intro i
    by_cases hi : i < s.coordinates.length
    · rw [row i hi, List.getElem?_reverse hi, List.getElem?_eq_getElem (by omega)]
      have q1 : s.coordinates[i].m = s.coordinates[s.coordinates.length - 1 - i].m := by
        have := congrArg (fun l => l[i]?) p1
        simp only [List.getElem?_map] at this
        rw [List.getElem?_reverse (by simpa using hi), List.getElem?_map, List.getElem?_eq_getElem hi,
          List.getElem?_eq_getElem (by simp; omega)] at this
        simpa using this.symm
      have q2 : s.dimension = 2 → s.coordinates[i].z = s.coordinates[s.coordinates.length - 1 - i].z := by
        intro hd
        have := congrArg (fun l => l[i]?) (p2 hd)
        simp only [List.getElem?_map] at this
        rw [List.getElem?_reverse (by simpa using hi), List.getElem?_map, List.getElem?_eq_getElem hi,
          List.getElem?_eq_getElem (by simp; omega)] at this
        simpa using this.symm
      congr 1
      unfold mergeRow
      rw [q1]
      split_ifs with hd
      · rfl
      · rw [q2 (by omega)]
    · rw [List.getElem?_eq_none (by omega), List.getElem?_eq_none (by simpa using hi)]

example : (2 : Int) ≤ exM.dimension ∧ (exM.coordinates.map Coord.m).reverse ≠ exM.coordinates.map Coord.m := by decide +kernel

/-! ## Closing array sequences -/

/-- C109: if an array sequence is no ring, then closing it gives a ring exactly if its first coordinate has no NaN, and no coordinate of the result
has a measure. -/
theorem C109_close_sequence (s : CASeq α) (h : 2 ≤ s.dimension) (hr : Seqs.isRing s = .ok false) :
    ∃ s' c0, s.coordinates.head? = some c0 ∧ Seqs.ensureValidRing s = .ok s' ∧ (Seqs.isRing s' = .ok true ↔ c0.NN) ∧
      ∀ c ∈ s'.coordinates, c.m = (Coord.default : Coord α).m := by
  obtain ⟨s', c0, h1, h2, h3, h4, h5, h6⟩ := (C20_array_partial s h).2.2 hr
  have hself : SelfEq c0 ↔ c0.NN := by
    unfold SelfEq Coord.NN
    simp only [eq_eq]
    constructor
    · rintro ⟨a, b⟩
      simp at a b
      exact ⟨a, b⟩
    · rintro ⟨a, b⟩
      simp [a, b]
  refine ⟨s', c0, h1, h2, ⟨fun hring => ?_, fun hn => h6 (hself.mpr hn)⟩, ?_⟩
  · rw [← hself]
    obtain ⟨b, hb, hiff⟩ := C19_isRing_array s' (by rw [h3]; omega)
    rw [hring] at hb
    injection hb with hb
    rcases hiff.mp hb.symm with h0 | ⟨-, p, q, hp, hq, k1, k2⟩
    · exfalso
      have : s'.coordinates.length = 0 := by simpa using h0
      omega
    · rw [List.head?_eq_getElem?, h5 0 (by omega)] at hp
      rw [List.getLast?_eq_getElem?, h5 _ (by omega)] at hq
      have e0 : s.coordinates[0]? = some c0 := by rw [← List.head?_eq_getElem?]; exact h1
      rw [e0] at hp
      rw [List.getElem?_eq_none (by omega)] at hq
      injection hp with hp
      injection hq with hq
      subst hp hq
      exact ⟨k1, k2⟩
  · intro c hc
    obtain ⟨i, hi, rfl⟩ := List.getElem_of_mem hc
    have := h5 i hi
    rw [List.getElem?_eq_getElem hi] at this
    injection this with this
    rw [this]; rfl

example : (2 : Int) ≤ exM.dimension ∧ Seqs.isRing exM = .ok false := by decide +kernel

end any

/-! ## Null octagons -/

/-- C109: an octagon set to null answers about finite points as if only its left bound were gone; the default octagon meets the origin only. -/
theorem C109_null_octagon (a b c d e f g h : ℚ) (p : ℚ × ℚ) :
    ((Oct.setToNull (⟨.fin a, .fin b, .fin c, .fin d, .fin e, .fin f, .fin g, .fin h⟩ : Oct EQ)).intersectsCoordinate (fpt p) = true ↔
      p.1 ≤ b ∧ (c ≤ p.2 ∧ p.2 ≤ d) ∧ (e ≤ p.1 + p.2 ∧ p.1 + p.2 ≤ f) ∧ (g ≤ p.1 - p.2 ∧ p.1 - p.2 ≤ h)) ∧
    ((Oct.default : Oct EQ).intersectsCoordinate (fpt p) = true ↔ p = (0, 0)) := by
  have key : ∀ b c d e f g h : ℚ, ((⟨Fl.nan, .fin b, .fin c, .fin d, .fin e, .fin f, .fin g, .fin h⟩ : Oct EQ).intersectsCoordinate (fpt p) = true ↔
      p.1 ≤ b ∧ (c ≤ p.2 ∧ p.2 ≤ d) ∧ (e ≤ p.1 + p.2 ∧ p.1 + p.2 ≤ f) ∧ (g ≤ p.1 - p.2 ∧ p.1 - p.2 ≤ h)) := by
    intro b c d e f g h
    have e1 : Oct.computeA (Fl.fin p.1 : EQ) (.fin p.2) = .fin (p.1 + p.2) := by simp [Oct.computeA]
    have e2 : Oct.computeB (Fl.fin p.1 : EQ) (.fin p.2) = .fin (p.1 - p.2) := by simp [Oct.computeB]
    have hl : ∀ u v : ℚ, ((Fl.fin u : EQ) <. .fin v) = decide (u < v) := fun _ _ => rfl
    have hn : ∀ u : ℚ, ((Fl.fin u : EQ) <. Fl.nan) = false := fun _ => rfl
    have hx : (fpt p).x = .fin p.1 := rfl
    have hy : (fpt p).y = .fin p.2 := rfl
    unfold Oct.intersectsCoordinate
    simp only [e1, e2, hx, hy, hl, hn, decide_eq_true_eq, Bool.false_eq_true, if_false, ← not_lt]
    clear e1 e2 hl hn hx hy
    split_ifs <;> simp only [*, Bool.false_eq_true, not_true_eq_false, not_false_eq_true, and_true, and_false, false_and]
  refine ⟨key b c d e f g h, ?_⟩
  rw [show (Oct.default : Oct EQ) = ⟨Fl.nan, .fin 0, .fin 0, .fin 0, .fin 0, .fin 0, .fin 0, .fin 0⟩ from rfl, key]
  obtain ⟨x, y⟩ := p
  simp only [Prod.mk.injEq]
  constructor
  · rintro ⟨-, ⟨h1, h2⟩, ⟨h3, h4⟩, -⟩
    exact ⟨by linarith, by linarith⟩
  · rintro ⟨rfl, rfl⟩
    norm_num

/-! ## Pairs of doubles -/

/-- C109: in exact arithmetic a product is exact exactly if one of the factors has no low part, and a quotient exactly if the divisor has none or the
two pairs are proportional. -/
theorem C109_pairs {K : Type} [Field K] [LinearOrder K] [IsStrictOrderedRing K] (a b : DD K) :
    (ddVal (a.mul b) = ddVal a * ddVal b ↔ a.lo = 0 ∨ b.lo = 0) ∧
    (b.hi ≠ 0 → ddVal b ≠ 0 → (ddVal (a.div b) = ddVal a / ddVal b ↔ b.lo = 0 ∨ a.lo * b.hi = a.hi * b.lo)) ∧
    (b.hi ≠ 0 → ddVal b ≠ 0 → (ddVal b.reciprocal = (ddVal b)⁻¹ ↔ b.lo = 0)) := by
  refine ⟨?_, fun hb hv => ?_, fun hb hv => ?_⟩
  · rw [(C45_mul_partial a b 0).1, sub_eq_self, mul_eq_zero]
  · rw [(C45_div_partial a b 1 hb one_ne_zero).1, eq_div_iff hv]
    unfold ddVal
    have e : (a.hi / b.hi + (a.lo - a.hi / b.hi * b.lo) / b.hi) * (b.hi + b.lo) = a.hi + a.lo + (a.lo * b.hi - a.hi * b.lo) * b.lo / b.hi ^ 2 := by
      field_simp; ring
    rw [e, add_eq_left, div_eq_zero_iff, mul_eq_zero, sub_eq_zero]
    have : b.hi ^ 2 ≠ 0 := pow_ne_zero _ hb
    tauto
  · rw [(C45_div_partial a b 1 hb one_ne_zero).2.2.1, inv_eq_one_div, eq_div_iff hv]
    unfold ddVal
    have e : (1 / b.hi - b.lo / b.hi ^ 2) * (b.hi + b.lo) = 1 - b.lo ^ 2 / b.hi ^ 2 := by
      field_simp; ring
    rw [e, sub_eq_self, div_eq_zero_iff]
    have : b.hi ^ 2 ≠ 0 := pow_ne_zero _ hb
    simp [this]

example : (⟨2, 1⟩ : DD ℚ).hi ≠ 0 ∧ ddVal (⟨2, 1⟩ : DD ℚ) ≠ 0 := by norm_num [ddVal]

end Verif.Props
