import Verif.Props.PointInRingMore

set_option linter.unusedSectionVars false

/-! # C32: membership of segments and lines -/

namespace Verif.Props
open Flt Verif.Spec
variable {K : Type} [Field K] [LinearOrder K] [IsStrictOrderedRing K]

/-- Reported on the segment exactly if it is a convex combination of its ends. -/
theorem C32_onSegment (p a b : Coord K) : PointLocation.isOnSegment p a b = true ↔ OnSegment p a b := by
  unfold PointLocation.isOnSegment
  by_cases h1 : Env.intersects3 a b p = true
  · simp only [h1, Bool.not_true, Bool.false_eq_true, if_false]
    have hbox := (intersects3_iff a b p).mp h1
    by_cases h2 : p.equals2D a = true
    · simp only [h2, if_true, true_iff]
      exact (onSegment_end p a b).1 ((equals2D_iff p a).mp h2)
    · simp only [h2, Bool.false_eq_true, if_false, decide_eq_true_eq]
      rw [onSegment_iff, C29_index_is_sign, eq_comm, sgn_zero]
      exact ⟨fun h => ⟨h, hbox⟩, fun h => h.1⟩
  · simp only [h1, Bool.not_false, if_true, Bool.false_eq_true, false_iff]
    intro h
    exact h1 ((intersects3_iff a b p).mpr ((onSegment_iff p a b).mp h).2)

/-- The direction of the segment does not matter, ends are on it, and every line is covered by its segments. -/
theorem C32_onSegment_symm (p a b : Coord K) :
    PointLocation.isOnSegment p a b = PointLocation.isOnSegment p b a ∧
    PointLocation.isOnSegment a a b = true ∧ PointLocation.isOnSegment b a b = true := by
  refine ⟨?_, (C32_onSegment a a b).mpr ((onSegment_end a a b).1 ⟨rfl, rfl⟩), (C32_onSegment b a b).mpr ((onSegment_end b a b).2 ⟨rfl, rfl⟩)⟩
  rw [Bool.eq_iff_iff, C32_onSegment, C32_onSegment, onSegment_swap]

theorem findSome_any {A : Type} (l : List A) (q : A → Bool) :
    (l.findSome? (fun s => if q s then some true else none)).getD false = l.any q := by
  induction l with
  | nil => rfl
  | cons a l ih => by_cases h : q a <;> simp_all [List.findSome?_cons]

section
variable {α : Type} [Flt α]
/-- (Every arithmetic.) The loop over a line is the disjunction over its consecutive pairs. -/
theorem isOnLine_any (p : Coord α) (line : List (Coord α)) :
    PointLocation.isOnLine p line = .ok ((segs line).any (fun s => PointLocation.isOnSegment p s.1 s.2)) := by
  unfold PointLocation.isOnLine
  rw [forFind_findSome (segs line) 1 line.length (by simp) _
    (fun s => if PointLocation.isOnSegment p s.1 s.2 then some true else none) (by
      intro k hk
      have hk' : k + 1 < line.length := by rw [length_segs] at hk; omega
      rw [getElem_segs, Nat.add_comm 1 k, Nat.add_sub_cancel, Res.get_lt hk', Res.get_lt (by omega : k < line.length)]
      simp only [Res.bind_ok]
      split_ifs <;> rfl)]
  simp only [Res.bind_ok, findSome_any]
  rfl

/-- (Every arithmetic.) The sequence version agrees with the vector version. -/
theorem C32_sequence (p : Coord α) (line : CASeq α) :
    PointLocation.isOnLineSeq p line = PointLocation.isOnLine p line.coordinates := by
  rw [isOnLine_any]
  unfold PointLocation.isOnLineSeq
  rw [forFind_findSome (segs line.coordinates) 1 line.size (by simp [CASeq.size]) _
    (fun s => if PointLocation.isOnSegment p s.1 s.2 then some true else none) (by
      intro k hk
      have hk' : k + 1 < line.coordinates.length := by rw [length_segs] at hk; omega
      rw [getElem_segs, Nat.add_comm 1 k, Nat.add_sub_cancel, Res.get_lt hk', Res.get_lt (by omega : k < line.coordinates.length)]
      simp only [Res.bind_ok]
      have : ∀ c0 c1 : Coord α, PointLocation.isOnSegment p (Coord.default.setCoordinate c0) (Coord.default.setCoordinate c1) =
        PointLocation.isOnSegment p c0 c1 := fun _ _ => rfl
      rw [this]
      split_ifs <;> rfl)]
  simp only [Res.bind_ok, findSome_any]
  rfl
end

/-- Reported on the line exactly if it is on one of its segments; never a panic. -/
theorem C32_onLine (p : Coord K) (line : List (Coord K)) :
    ∃ b, PointLocation.isOnLine p line = .ok b ∧ (b = true ↔ OnLine p line) := by
  refine ⟨_, isOnLine_any p line, ?_⟩
  rw [List.any_eq_true]
  unfold OnLine
  simp only [C32_onSegment]

/-- A closed ring: on the ring exactly if the location is BOUNDARY. -/
theorem C32_boundary (p : Coord K) (ring : List (Coord K)) (hc : Closed2D ring) :
    PointLocation.isOnLine p ring = .ok true ↔ PointLocation.locateInRing p ring = .ok Location.BOUNDARY := by
  obtain ⟨b, e, hb⟩ := C32_onLine p ring
  obtain ⟨loc, e2, l1, l2, l3⟩ := C31_locate p ring hc
  rw [e, e2]
  by_cases h : OnLine p ring
  · rw [l1 h, hb.mpr h]; simp
  · have : b = false := by simpa using (fun hh => h (hb.mp hh) : ¬ b = true)
    rw [this]
    rcases Nat.mod_two_eq_zero_or_one (crossings p ring) with hm | hm
    · rw [l3 h hm]; simp
    · rw [l2 h hm]; simp

section examples
local notation "pt" => fun (x y : ℚ) => (Coord.xy x y : Coord ℚ)
example : PointLocation.isOnLine (pt 2 2) [pt 0 0, pt 1 1, pt 3 3] = .ok true ∧
    PointLocation.isOnLine (pt 2 3) [pt 0 0, pt 1 1, pt 3 3] = .ok false := by decide +kernel
example : OnSegment (pt 2 1) (pt 0 0) (pt 4 2) := ⟨1/2, by norm_num, by norm_num, by norm_num [Coord.xy], by norm_num [Coord.xy]⟩
end examples

end Verif.Props
