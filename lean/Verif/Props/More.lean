import Verif.Props.IntersectionMatrix
import Verif.Props.IntersectionPatterns
import Verif.Props.OctagonalEnvelope
import Verif.Props.DDDiv
import Verif.Props.DDAccuracy
import Verif.Props.SegmentSets
import Verif.Props.EnvelopeExact

/-! # Further operations covered by earlier claims: texts against patterns (C24), octagons of sequences (C47), diameters (C08),
double-double squares and quotients by a double (C67, C75), setting segments (C96) -/

namespace Verif.Props
open Flt Verif.Spec Verif.Binary64

/-! ## C24 -/

/-- Comparing a text with a pattern: both of nine symbols; the answer says whether each symbol of the pattern admits the value that the
symbol at its place in the text stands for. -/
theorem C24_two_texts (actual required : String) (h9 : actual.toList.length = 9) (hv : ∀ c ∈ actual.toList, ∃ v, Dimension.toDimensionValue c = some v)
    (hascii : ∀ c ∈ required.toList, c.utf8Size = 1) :
    ∃ b, IM.matchesStringString actual.toList required.toList = .ok b ∧
      (b = true ↔ required.toList.length = 9 ∧ ∀ (i : Nat) (a r : Char), actual.toList[i]? = some a → required.toList[i]? = some r →
        ∃ v, ((v, a) ∈ dimensionCodes ∨ (a = 'f' ∧ v = -1) ∨ (a = 't' ∧ v = -2)) ∧ SymHolds r v) := by
  obtain ⟨m, e1, e2⟩ := (C22_setString IM.default actual.toList).1 (fun i hi => by
    rw [List.getElem?_eq_none (by omega)]; rfl)
  obtain ⟨b, f1, f2⟩ := C24_matchesString m required hascii
  refine ⟨b, ?_, ?_⟩
  · unfold IM.matchesStringString IM.newWithElements
    rw [e1]; exact f1
  · rw [f2]
    unfold PatHolds
    refine and_congr_right fun hr => ?_
    have cell : ∀ (i j : Fin 3) (a : Char), actual.toList[3 * i.val + j.val]? = some a → Dimension.toDimensionValue a = some (m.m i j) := by
      intro i j a ha
      obtain ⟨v, hv'⟩ := hv a (List.mem_of_getElem? ha)
      have : cellValue actual.toList i j = some v := by
        unfold cellValue; rw [ha]; exact hv'
      rw [e2, this, hv']; rfl
    constructor
    · intro h i a r ha hr'
      have hi : i < 9 := by
        rw [← h9]; exact (List.getElem?_eq_some_iff.mp ha).1
      have hij : 3 * (⟨i / 3, by omega⟩ : Fin 3).val + (⟨i % 3, by omega⟩ : Fin 3).val = i := by show 3 * (i / 3) + i % 3 = i; omega
      refine ⟨_, (C26_value_iff _ _).mp (cell ⟨i / 3, by omega⟩ ⟨i % 3, by omega⟩ a (by rw [hij]; exact ha)), h _ _ r (by rw [hij]; exact hr')⟩
    · intro h i j r hr'
      have hlt : 3 * i.val + j.val < actual.toList.length := by omega
      obtain ⟨v, hc, hs⟩ := h _ (actual.toList[3 * i.val + j.val]) r (List.getElem?_eq_getElem hlt) hr'
      have := cell i j _ (List.getElem?_eq_getElem hlt)
      rw [(C26_value_iff _ _).mpr hc] at this
      rw [← Option.some.inj this]; exact hs

example : IM.matchesStringString "012FF0f2t".toList "T*2FF**2*".toList = .ok true := by decide

/-! ## C47 -/

section Octagons
variable {α : Type} [Flt α] [FltOrd α]

/-- The octagonal envelope of a sequence is that of its points; extending by a sequence is extending by its points in turn. -/
theorem C47_of_sequence (hnan : isNaN (nan : α) = true) (s : CASeq α) (ps : List (Coord α)) (h : ∀ q ∈ s.coordinates, Measurable4 q)
    (hp : ∀ q ∈ ps, Measurable4 q) :
    (∀ p ∈ s.coordinates, (Oct.newSeq s).intersectsCoordinate p = true) ∧
    (s.coordinates = [] → (Oct.newSeq s).isNull = true) ∧
    (s.coordinates ≠ [] → ∀ o : Oct α, (∀ k : Axis, isNaN (k.lo o) = false ∧ isNaN (k.hi o) = false) →
      (o.contains (Oct.newSeq s) = true ↔ ∀ p ∈ s.coordinates, o.intersectsCoordinate p = true)) ∧
    ((octOf ps).expandToIncludeSeq s = (octOf ps).expandToIncludeOct (Oct.newSeq s)) := by
  have e : Oct.newSeq s = octOf s.coordinates := rfl
  rw [e]
  refine ⟨fun p hp => C47_contains_points_partial hnan _ h p hp, fun h0 => ?_, fun h0 o ho => C47_least_partial hnan _ h0 h o ho, ?_⟩
  · rw [h0]; exact hnan
  · rw [C47_join hnan ps _ hp h]
    unfold Oct.expandToIncludeSeq octOf
    rw [List.foldl_append]

end Octagons

example : (Oct.newSeq (⟨2, 0, [Coord.xy (Fl.fin 1 : EQ) (Fl.fin 2), Coord.xy (Fl.fin 3) (Fl.fin 0)]⟩ : CASeq EQ)).intersectsCoordinate (Coord.xy (Fl.fin 2) (Fl.fin 1)) = true := by
  decide +kernel

/-! ## C08 -/

/-- The diameter of an envelope is the greatest distance of two of its points, and zero for the empty envelope. -/
theorem C08_diameter (e : Env ℝ) (he : e.WF) :
    (e.isNull = true → e.diameter = 0) ∧
    (∀ p q : Coord ℝ, e.coversCoordinate p = true → e.coversCoordinate q = true → Spec.dist p q ≤ e.diameter) ∧
    (e.isNull = false → ∃ p q : Coord ℝ, e.coversCoordinate p = true ∧ e.coversCoordinate q = true ∧ Spec.dist p q = e.diameter) := by
  have key : ∀ p : Coord ℝ, e.coversCoordinate p = true ↔ e.isNull = false ∧ e.minx ≤ p.x ∧ p.x ≤ e.maxx ∧ e.miny ≤ p.y ∧ p.y ≤ e.maxy := by
    intro p
    unfold Env.coversCoordinate Env.coversXY
    cases e.isNull <;> simp [and_assoc]
  refine ⟨fun h => ?_, fun p q hp hq => ?_, fun h => ?_⟩
  · rw [Env.diameter, if_pos h]; simp
  · rw [key] at hp hq
    rw [Env.diameter, if_neg (by rw [hp.1]; simp), Env.width, Env.height, if_neg (by rw [hp.1]; simp), if_neg (by rw [hp.1]; simp)]
    simp only [real_hypot, real_toFlt, exact_sub]
    obtain ⟨-, a1, a2, a3, a4⟩ := hp
    obtain ⟨-, b1, b2, b3, b4⟩ := hq
    unfold Spec.dist
    apply Real.sqrt_le_sqrt
    apply add_le_add
    · apply sq_le_sq'; all_goals linarith
    · apply sq_le_sq'; all_goals linarith
  · have hw : e.minx ≤ e.maxx ∧ e.miny ≤ e.maxy := by
      rcases he with he | he
      · rw [h] at he; exact absurd he (by simp)
      · simpa using he
    refine ⟨⟨e.maxx, e.maxy, 0, 0⟩, ⟨e.minx, e.miny, 0, 0⟩, (key _).mpr ⟨h, hw.1, le_rfl, hw.2, le_rfl⟩, (key _).mpr ⟨h, le_rfl, hw.1, le_rfl, hw.2⟩, ?_⟩
    rw [Env.diameter, if_neg (by rw [h]; simp), Env.width, Env.height, if_neg (by rw [h]; simp), if_neg (by rw [h]; simp)]
    simp only [real_hypot, real_toFlt, exact_sub, Spec.dist]

example : (⟨0, 3, 0, 4⟩ : Env ℝ).WF ∧ (⟨0, 3, 0, 4⟩ : Env ℝ).isNull = false := by
  constructor
  · right; simp
  · simp [Env.isNull]

/-! ## C67 and C75 -/

section Pairs
variable {sq : ℚ → Val} {hy : ℚ → ℚ → Val}

/-- Squaring in place and squaring agree, and are accurate. -/
theorem C67_square (a b : ℚ) (p : IsPair a b) (hu : NoUnderflow a a)
    (hfin : isFinite ((⟨Fl.fin a, Fl.fin b⟩ : DD (B64 sq hy)).selfSqr).hi = true) :
    ∃ h l, (⟨Fl.fin a, Fl.fin b⟩ : DD (B64 sq hy)).selfSqr = ⟨Fl.fin h, Fl.fin l⟩ ∧ (⟨Fl.fin a, Fl.fin b⟩ : DD (B64 sq hy)).sqr = ⟨Fl.fin h, Fl.fin l⟩ ∧
      IsPair h l ∧ |h + l - (a + b) ^ 2| ≤ (a + b) ^ 2 / 2 ^ 100 := by
  obtain ⟨h, l, e, hp, hb⟩ := C67_product (sq := sq) (hy := hy) a b a b p p hu hfin
  refine ⟨h, l, e, ?_, hp, ?_⟩
  · have : (⟨Fl.fin a, Fl.fin b⟩ : DD (B64 sq hy)).sqr = (⟨Fl.fin a, Fl.fin b⟩ : DD (B64 sq hy)).selfMul ⟨Fl.fin a, Fl.fin b⟩ := rfl
    rw [this, e]
  · rw [pow_two]
    rwa [abs_of_nonneg (mul_self_nonneg (a + b))] at hb

/-- Dividing by a double: accurate, and not a number for a divisor that is not a number. -/
theorem C75_quotient_double (a b c : ℚ) (p : IsPair a b) (fc : IsF64 c) (hu : NoUnderflowDiv a c)
    (hfin : isFinite ((⟨Fl.fin a, Fl.fin b⟩ : DD (B64 sq hy)).divF (Fl.fin c)).hi = true) :
    (∃ h l, (⟨Fl.fin a, Fl.fin b⟩ : DD (B64 sq hy)).divF (Fl.fin c) = ⟨Fl.fin h, Fl.fin l⟩ ∧ IsPair h l ∧
      |h + l - (a + b) / c| ≤ |(a + b) / c| / 2 ^ 100) ∧
    (∀ x : DD (B64 sq hy), x.divF Fl.nan = DD.nan) := by
  have e : (⟨Fl.fin a, Fl.fin b⟩ : DD (B64 sq hy)).divF (Fl.fin c) = (⟨Fl.fin a, Fl.fin b⟩ : DD (B64 sq hy)).div ⟨Fl.fin c, Fl.fin 0⟩ := by
    have n : isNaN (Fl.fin c : B64 sq hy) = false := rfl
    unfold DD.divF DD.div
    rw [n, lit64]; rfl
  rw [e] at hfin ⊢
  have := C75_quotient a b c 0 p (IsPair.ofF fc) hu hfin
  rw [add_zero] at this
  exact ⟨this, fun x => rfl⟩

example : IsPair 3 0 ∧ NoUnderflow 3 3 ∧ NoUnderflowDiv 3 7 := by
  have n3 : Normal 3 := by unfold Normal; decide +kernel
  have n7 : Normal 7 := by unfold Normal; decide +kernel
  exact ⟨IsPair.ofF (f64_of (by decide +kernel)), Or.inr (Or.inr ⟨n3, n3, by decide +kernel⟩), n7, Or.inr (by decide +kernel)⟩

end Pairs

/-! ## C96 -/

/-- A segment set from another one becomes equal to it and keeps its own heights and measures. -/
theorem C96_set {α : Type} [Flt α] [FltOrd α] (s t : LineSeg α) (ht : SegNN t) :
    (s.setCoordinatesSeg t).equals t = true ∧ (s.setCoordinatesSeg t).equalsTopo t = true ∧
    (s.setCoordinatesSeg t).p0.z = s.p0.z ∧ (s.setCoordinatesSeg t).p1.z = s.p1.z ∧
    (s.setCoordinatesSeg t).p0.m = s.p0.m ∧ (s.setCoordinatesSeg t).p1.m = s.p1.m := by
  obtain ⟨⟨h1, h2⟩, h3, h4⟩ := ht
  have e : (s.setCoordinatesSeg t).equals t = true := by
    simp [LineSeg.setCoordinatesSeg, LineSeg.setCoordinates, LineSeg.equals, Coord.equals2D, eq_eq, h1, h2, h3, h4]
  refine ⟨e, ?_, rfl, rfl, rfl, rfl⟩
  unfold LineSeg.equals at e
  unfold LineSeg.equalsTopo
  rw [e]; rfl

example : SegNN (⟨Coord.xy (Fl.fin 1 : EQ) (Fl.fin 2), Coord.xy (Fl.fin 3) (Fl.fin 0)⟩ : LineSeg EQ) :=
  ⟨⟨rfl, rfl⟩, rfl, rfl⟩

end Verif.Props
