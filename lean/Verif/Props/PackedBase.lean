import Verif.Model.PackedBase
import Verif.Lemmas.Sequences

/-! # C72: a base packed sequence never holds a point -/

set_option linter.unusedSectionVars false

namespace Verif.Props
open Flt
variable {α : Type} [Flt α]

/-- A program that sets ordinates one after the other: place, ordinate, value. -/
def setAll (s : PBase α) (ops : List (Nat × Int × α)) : Res (PBase α) := ops.foldlM (fun s o => s.setOrd o.1 o.2.1 o.2.2) s

/-- C72: one is made exactly if at least two dimensions are left beside the measures, and it has no points. -/
theorem C72_new (d m : Int) : ((PBase.new d m : Option (PBase α)).isSome ↔ 2 ≤ d - m) ∧
    ∀ s : PBase α, PBase.new d m = some s → s.dimension = d ∧ s.measures = m ∧ s.size = 0 ∧ s.toCoordinateArray = .ok [] ∧
      (s.hasZ = true ↔ 2 < d - m) ∧ (s.hasM = true ↔ 0 < m) := by
  unfold PBase.new
  constructor
  · split_ifs with h <;> simp <;> omega
  · intro s h
    split_ifs at h
    cases h
    exact ⟨rfl, rfl, rfl, rfl, by simp [PBase.hasZ], by simp [PBase.hasM]⟩

/-- C72: no sequence of calls gives it one: every call that sets an ordinate panics, so the only sequence that can be observed is the empty one. -/
theorem C72_always_empty (d m : Int) (s s' : PBase α) (h : PBase.new d m = some s) (ops : List (Nat × Int × α)) :
    (ops ≠ [] → ∃ e, setAll s ops = .error e) ∧ (setAll s ops = .ok s' → s' = s ∧ s'.size = 0) := by
  have hs : s.coords = [] := by
    unfold PBase.new at h
    split_ifs at h
    cases h; rfl
  have key : ops ≠ [] → ∃ e, setAll s ops = .error e := by
    intro hne
    cases ops with
    | nil => exact absurd rfl hne
    | cons o t =>
      refine ⟨.index, ?_⟩
      rw [setAll, List.foldlM_cons, PBase.setOrd, hs]
      rfl
  refine ⟨key, ?_⟩
  intro he
  cases ops with
  | nil => cases he; exact ⟨rfl, by rw [PBase.size, hs]; rfl⟩
  | cons o t =>
    obtain ⟨e, h2⟩ := key (by simp)
    rw [h2] at he; cases he

/-- C72: every access to a point or to its x and y panics; so do z and m if the dimension has them, else they are NaN. -/
theorem C72_access (d m : Int) (s : PBase α) (h : PBase.new d m = some s) (i : Nat) (k : Int) (c : Coord α) :
    (∃ e, s.getCoordinate i = .error e) ∧ (∃ e, s.getCoordinateInternal i = .error e) ∧ (∃ e, s.getOrd i k = .error e) ∧
    (∃ e, s.fill i c = .error e) ∧
    (if s.hasZ then ∃ e, s.getZ i = .error e else s.getZ i = .ok nan) ∧
    (if s.hasM then ∃ e, s.getM i = .error e else s.getM i = .ok nan) := by
  have hs : s.coords = [] := by
    unfold PBase.new at h
    split_ifs at h
    cases h; rfl
  have ho : ∀ k, s.getOrd i k = .error .index := by intro k; rw [PBase.getOrd, hs]; rfl
  refine ⟨⟨.index, by rw [PBase.getCoordinate, hs]; rfl⟩, ⟨.index, by rw [PBase.getCoordinateInternal, hs]; rfl⟩, ⟨_, ho k⟩, ⟨.index, by rw [PBase.fill, ho]; rfl⟩, ?_, ?_⟩
  · split_ifs with hz
    · exact ⟨.index, by rw [PBase.getZ, if_pos hz, ho]⟩
    · rw [PBase.getZ, if_neg hz]; rfl
  · split_ifs with hz
    · exact ⟨.index, by rw [PBase.getM, if_pos hz, ho]⟩
    · rw [PBase.getM, if_neg hz]; rfl

/-- C72: the copy is an empty packed sequence of the same dimension, with as many measures as the dimension exceeds three: that need not be the
number of measures of the original. -/
theorem C72_copy (d m : Int) (s : PBase α) (h : PBase.new d m = some s) : s.copy = .ok ⟨d, max 0 (d - 3), []⟩ := by
  unfold PBase.new at h
  split_ifs at h
  cases h; rfl

example : ∃ (s : PBase α) (p : PSeq α), PBase.new 3 1 = some s ∧ s.measures = 1 ∧ s.copy = .ok p ∧ p.measures = 0 := ⟨_, _, rfl, rfl, rfl, rfl⟩

example : ∃ s : PBase α, PBase.new 4 1 = some s ∧ s.hasZ = true ∧ s.hasM = true := ⟨_, rfl, rfl, rfl⟩

end Verif.Props
