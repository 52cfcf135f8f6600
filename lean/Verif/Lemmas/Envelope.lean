import Verif.Model.Envelope
import Verif.Lemmas.Flt

/-! # Helper lemmas about envelopes -/

set_option linter.unusedSectionVars false

namespace Verif
open Flt
variable {α : Type} [Flt α] [FltOrd α]

namespace Env

/-- The states an envelope reaches when it is built from numbers (no NaN): null, or ordered sides. -/
def WF (e : Env α) : Prop :=
  e.isNull = true ∨ ((e.minx ≤. e.maxx) = true ∧ (e.miny ≤. e.maxy) = true)

instance (e : Env α) : Decidable e.WF := inferInstanceAs (Decidable (_ ∨ _))

/-- Non-null with ordered sides, in terms of keys. -/
structure Box (e : Env α) : Prop where
  nx1 : isNaN e.minx = false
  nx2 : isNaN e.maxx = false
  ny1 : isNaN e.miny = false
  ny2 : isNaN e.maxy = false
  hx : FltOrd.key e.minx ≤ FltOrd.key e.maxx
  hy : FltOrd.key e.miny ≤ FltOrd.key e.maxy

theorem Box.notNull {e : Env α} (h : e.Box) : e.isNull = false := by
  have := h.hx
  simp only [isNull, lt_eq, h.nx1, h.nx2]
  simpa using this

theorem Box.wf {e : Env α} (h : e.Box) : e.WF := by
  right
  simp [le_eq, h.nx1, h.nx2, h.ny1, h.ny2, h.hx, h.hy]

theorem WF.box {e : Env α} (h : e.WF) (hn : e.isNull = false) : e.Box := by
  rcases h with h | ⟨h1, h2⟩
  · simp [hn] at h
  · rw [FltOrd.le_iff] at h1 h2
    exact ⟨h1.1, h1.2.1, h2.1, h2.2.1, h1.2.2, h2.2.2⟩

theorem WF.cases {e : Env α} (h : e.WF) : e.isNull = true ∨ e.Box := by
  cases hn : e.isNull with
  | true => exact .inl rfl
  | false => exact .inr (h.box hn)

theorem Box.coversXY_iff {e : Env α} (h : e.Box) (x y : α) :
    e.coversXY x y = true ↔ isNaN x = false ∧ isNaN y = false ∧
      FltOrd.key e.minx ≤ FltOrd.key x ∧ FltOrd.key x ≤ FltOrd.key e.maxx ∧
      FltOrd.key e.miny ≤ FltOrd.key y ∧ FltOrd.key y ≤ FltOrd.key e.maxy := by
  simp only [coversXY, h.notNull, le_eq, h.nx1, h.nx2, h.ny1, h.ny2]
  simp; tauto

theorem coversXY_of_null {e : Env α} (h : e.isNull = true) (x y : α) : e.coversXY x y = false := by
  simp [coversXY, h]

theorem Box.intersects_iff {e f : Env α} (he : e.Box) (hf : f.Box) :
    e.intersects f = true ↔
      FltOrd.key f.minx ≤ FltOrd.key e.maxx ∧ FltOrd.key e.minx ≤ FltOrd.key f.maxx ∧
      FltOrd.key f.miny ≤ FltOrd.key e.maxy ∧ FltOrd.key e.miny ≤ FltOrd.key f.maxy := by
  simp only [intersects, he.notNull, hf.notNull, lt_eq, he.nx1, he.nx2, he.ny1, he.ny2, hf.nx1,
    hf.nx2, hf.ny1, hf.ny2]
  simp; tauto

theorem intersects_null_left {e f : Env α} (h : e.isNull = true) : e.intersects f = false := by
  simp [intersects, h]

theorem intersects_null_right {e f : Env α} (h : f.isNull = true) : e.intersects f = false := by
  simp [intersects, h]

theorem Box.covers_iff {e f : Env α} (he : e.Box) (hf : f.Box) :
    e.covers f = true ↔
      FltOrd.key e.minx ≤ FltOrd.key f.minx ∧ FltOrd.key f.maxx ≤ FltOrd.key e.maxx ∧
      FltOrd.key e.miny ≤ FltOrd.key f.miny ∧ FltOrd.key f.maxy ≤ FltOrd.key e.maxy := by
  simp only [covers, he.notNull, hf.notNull, le_eq, he.nx1, he.nx2, he.ny1, he.ny2, hf.nx1,
    hf.nx2, hf.ny1, hf.ny2]
  simp; tauto

theorem covers_null_left {e f : Env α} (h : e.isNull = true) : e.covers f = false := by
  simp [covers, h]

theorem covers_null_right {e f : Env α} (h : f.isNull = true) : e.covers f = false := by
  simp [covers, h]

theorem Box.equals_iff {e f : Env α} (he : e.Box) (hf : f.Box) :
    e.equals f = true ↔
      FltOrd.key e.minx = FltOrd.key f.minx ∧ FltOrd.key e.maxx = FltOrd.key f.maxx ∧
      FltOrd.key e.miny = FltOrd.key f.miny ∧ FltOrd.key e.maxy = FltOrd.key f.maxy := by
  simp only [equals, he.notNull, eq_eq, he.nx1, he.nx2, he.ny1, he.ny2, hf.nx1,
    hf.nx2, hf.ny1, hf.ny2]
  simp; tauto

theorem newCoordinate_box {p : Coord α} (h : p.NN) : (newCoordinate p).Box :=
  ⟨h.1, h.1, h.2, h.2, le_refl _, le_refl _⟩

theorem expandToInclude_eq (e : Env α) (p : Coord α) :
    e.expandToInclude p = e.expandToIncludeXY p.x p.y := rfl

/-- Minimum in key order, choosing the first argument only if strictly smaller. -/
theorem key_ite_min {a b : α} (ha : isNaN a = false) (hb : isNaN b = false) :
    isNaN (if a <. b then a else b) = false ∧
    FltOrd.key (if a <. b then a else b) = min (FltOrd.key a) (FltOrd.key b) := by
  simp only [lt_eq, ha, hb]
  split <;> rename_i h <;> simp at h
  · exact ⟨ha, (min_eq_left h.le).symm⟩
  · exact ⟨hb, (min_eq_right h).symm⟩

theorem key_ite_max {a b : α} (ha : isNaN a = false) (hb : isNaN b = false) :
    isNaN (if b <. a then a else b) = false ∧
    FltOrd.key (if b <. a then a else b) = max (FltOrd.key a) (FltOrd.key b) := by
  simp only [lt_eq, ha, hb]
  split <;> rename_i h <;> simp at h
  · exact ⟨ha, (max_eq_left h.le).symm⟩
  · exact ⟨hb, (max_eq_right h).symm⟩

theorem key_fmin {a b : α} (ha : isNaN a = false) (hb : isNaN b = false) :
    isNaN (fmin a b) = false ∧ FltOrd.key (fmin a b) = min (FltOrd.key a) (FltOrd.key b) := by
  have := key_ite_min ha hb
  simpa [fmin, ha, hb] using this

theorem key_fmax {a b : α} (ha : isNaN a = false) (hb : isNaN b = false) :
    isNaN (fmax a b) = false ∧ FltOrd.key (fmax a b) = max (FltOrd.key a) (FltOrd.key b) := by
  have := key_ite_max ha hb
  simpa [fmax, ha, hb] using this

theorem Box.expandXY {e : Env α} (h : e.Box) {x y : α} (hx : isNaN x = false) (hy : isNaN y = false) :
    (e.expandToIncludeXY x y).Box ∧
    FltOrd.key (e.expandToIncludeXY x y).minx = min (FltOrd.key x) (FltOrd.key e.minx) ∧
    FltOrd.key (e.expandToIncludeXY x y).maxx = max (FltOrd.key x) (FltOrd.key e.maxx) ∧
    FltOrd.key (e.expandToIncludeXY x y).miny = min (FltOrd.key y) (FltOrd.key e.miny) ∧
    FltOrd.key (e.expandToIncludeXY x y).maxy = max (FltOrd.key y) (FltOrd.key e.maxy) := by
  have h1 := key_ite_min hx h.nx1
  have h2 := key_ite_max hx h.nx2
  have h3 := key_ite_min hy h.ny1
  have h4 := key_ite_max hy h.ny2
  have hxx := h.hx
  have hyy := h.hy
  have e1 : e.expandToIncludeXY x y = ⟨if x <. e.minx then x else e.minx, if x >. e.maxx then x else e.maxx,
      if y <. e.miny then y else e.miny, if y >. e.maxy then y else e.maxy⟩ := by
    simp [expandToIncludeXY, h.notNull]
  rw [e1]
  refine ⟨⟨h1.1, h2.1, h3.1, h4.1, ?_, ?_⟩, h1.2, h2.2, h3.2, h4.2⟩
  · show FltOrd.key (if x <. e.minx then x else e.minx) ≤ FltOrd.key (if x >. e.maxx then x else e.maxx)
    rw [h1.2, h2.2]; exact (min_le_left _ _).trans (le_max_left _ _)
  · show FltOrd.key (if y <. e.miny then y else e.miny) ≤ FltOrd.key (if y >. e.maxy then y else e.maxy)
    rw [h3.2, h4.2]; exact (min_le_left _ _).trans (le_max_left _ _)

theorem expandXY_null {e : Env α} (h : e.isNull = true) (x y : α) :
    e.expandToIncludeXY x y = ⟨x, x, y, y⟩ := by simp [expandToIncludeXY, h]

theorem Box.expandEnv {e f : Env α} (h : e.Box) (hf : f.Box) :
    (e.expandToIncludeEnv f).Box ∧
    FltOrd.key (e.expandToIncludeEnv f).minx = min (FltOrd.key f.minx) (FltOrd.key e.minx) ∧
    FltOrd.key (e.expandToIncludeEnv f).maxx = max (FltOrd.key f.maxx) (FltOrd.key e.maxx) ∧
    FltOrd.key (e.expandToIncludeEnv f).miny = min (FltOrd.key f.miny) (FltOrd.key e.miny) ∧
    FltOrd.key (e.expandToIncludeEnv f).maxy = max (FltOrd.key f.maxy) (FltOrd.key e.maxy) := by
  have h1 := key_ite_min hf.nx1 h.nx1
  have h2 := key_ite_max hf.nx2 h.nx2
  have h3 := key_ite_min hf.ny1 h.ny1
  have h4 := key_ite_max hf.ny2 h.ny2
  have hxx := h.hx
  have hyy := h.hy
  have e1 : e.expandToIncludeEnv f = ⟨if f.minx <. e.minx then f.minx else e.minx,
      if f.maxx >. e.maxx then f.maxx else e.maxx,
      if f.miny <. e.miny then f.miny else e.miny, if f.maxy >. e.maxy then f.maxy else e.maxy⟩ := by
    simp [expandToIncludeEnv, h.notNull, hf.notNull]
  rw [e1]
  refine ⟨⟨h1.1, h2.1, h3.1, h4.1, ?_, ?_⟩, h1.2, h2.2, h3.2, h4.2⟩
  · show FltOrd.key (if f.minx <. e.minx then f.minx else e.minx) ≤
      FltOrd.key (if f.maxx >. e.maxx then f.maxx else e.maxx)
    rw [h1.2, h2.2]; exact (min_le_right _ _).trans (hxx.trans (le_max_right _ _))
  · show FltOrd.key (if f.miny <. e.miny then f.miny else e.miny) ≤
      FltOrd.key (if f.maxy >. e.maxy then f.maxy else e.maxy)
    rw [h3.2, h4.2]; exact (min_le_right _ _).trans (hyy.trans (le_max_right _ _))

theorem newXY_box {x1 x2 y1 y2 : α} (h1 : isNaN x1 = false) (h2 : isNaN x2 = false)
    (h3 : isNaN y1 = false) (h4 : isNaN y2 = false) :
    (newXY x1 x2 y1 y2).Box ∧
    FltOrd.key (newXY x1 x2 y1 y2).minx = min (FltOrd.key x1) (FltOrd.key x2) ∧
    FltOrd.key (newXY x1 x2 y1 y2).maxx = max (FltOrd.key x1) (FltOrd.key x2) ∧
    FltOrd.key (newXY x1 x2 y1 y2).miny = min (FltOrd.key y1) (FltOrd.key y2) ∧
    FltOrd.key (newXY x1 x2 y1 y2).maxy = max (FltOrd.key y1) (FltOrd.key y2) := by
  have key2 : ∀ {a b : α}, isNaN a = false → isNaN b = false →
      isNaN (if a <. b then (a, b) else (b, a)).1 = false ∧
      isNaN (if a <. b then (a, b) else (b, a)).2 = false ∧
      FltOrd.key (if a <. b then (a, b) else (b, a)).1 = min (FltOrd.key a) (FltOrd.key b) ∧
      FltOrd.key (if a <. b then (a, b) else (b, a)).2 = max (FltOrd.key a) (FltOrd.key b) := by
    intro a b ha hb
    simp only [lt_eq, ha, hb]
    split <;> rename_i h <;> simp at h
    · exact ⟨ha, hb, (min_eq_left h.le).symm, (max_eq_right h.le).symm⟩
    · exact ⟨hb, ha, (min_eq_right h).symm, (max_eq_left h).symm⟩
  obtain ⟨a1, a2, a3, a4⟩ := key2 h1 h2
  obtain ⟨b1, b2, b3, b4⟩ := key2 h3 h4
  refine ⟨⟨a1, a2, b1, b2, ?_, ?_⟩, a3, a4, b3, b4⟩
  · show FltOrd.key (if x1 <. x2 then (x1, x2) else (x2, x1)).1 ≤
      FltOrd.key (if x1 <. x2 then (x1, x2) else (x2, x1)).2
    rw [a3, a4]; exact (min_le_left _ _).trans (le_max_left _ _)
  · show FltOrd.key (if y1 <. y2 then (y1, y2) else (y2, y1)).1 ≤
      FltOrd.key (if y1 <. y2 then (y1, y2) else (y2, y1)).2
    rw [b3, b4]; exact (min_le_left _ _).trans (le_max_left _ _)

theorem newCoordinates_eq (p q : Coord α) : newCoordinates p q = newXY p.x q.x p.y q.y := rfl

theorem Box.intersection {e f : Env α} (he : e.Box) (hf : f.Box) (hi : e.intersects f = true) :
    (e.intersection f).Box ∧
    FltOrd.key (e.intersection f).minx = max (FltOrd.key e.minx) (FltOrd.key f.minx) ∧
    FltOrd.key (e.intersection f).maxx = min (FltOrd.key e.maxx) (FltOrd.key f.maxx) ∧
    FltOrd.key (e.intersection f).miny = max (FltOrd.key e.miny) (FltOrd.key f.miny) ∧
    FltOrd.key (e.intersection f).maxy = min (FltOrd.key e.maxy) (FltOrd.key f.maxy) := by
  have h1 := key_ite_max he.nx1 hf.nx1
  have h2 := key_ite_min he.nx2 hf.nx2
  have h3 := key_ite_max he.ny1 hf.ny1
  have h4 := key_ite_min he.ny2 hf.ny2
  have e1 : e.intersection f = newXY (if e.minx >. f.minx then e.minx else f.minx)
      (if e.maxx <. f.maxx then e.maxx else f.maxx)
      (if e.miny >. f.miny then e.miny else f.miny)
      (if e.maxy <. f.maxy then e.maxy else f.maxy) := by
    simp [Env.intersection, he.notNull, hf.notNull, hi]
  rw [e1]
  obtain ⟨hb, k1, k2, k3, k4⟩ := newXY_box h1.1 h2.1 h3.1 h4.1
  rw [he.intersects_iff hf] at hi
  have := he.hx; have := he.hy; have := hf.hx; have := hf.hy
  refine ⟨hb, ?_, ?_, ?_, ?_⟩
  · rw [k1, h1.2, h2.2]; apply min_eq_left; simp; tauto
  · rw [k2, h1.2, h2.2]; apply max_eq_right; simp; tauto
  · rw [k3, h3.2, h4.2]; apply min_eq_left; simp; tauto
  · rw [k4, h3.2, h4.2]; apply max_eq_right; simp; tauto

theorem null_isNull [FltLit α] : (null : Env α).isNull = true := by
  simp [null, isNull, lt_eq, nn_lit0, nn_lit_neg1, lit_neg1_lt_lit0]

end Env
end Verif
