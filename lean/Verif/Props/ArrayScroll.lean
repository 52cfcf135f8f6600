import Verif.Lemmas.CoordinateList
import Mathlib.Data.List.Rotate

/-! # C13: scrolling coordinate arrays -/

set_option linter.unusedSectionVars false

namespace Verif.Props
open Flt CoordArrays
variable {α : Type} [Flt α]

/-- Without the ring flag, scrolling to `i ≤ len` is rotation by `i`; beyond it panics. -/
theorem C13_scroll_rotation (l : List (Coord α)) (i : Nat) :
    (i ≤ l.length → scrollIndexEnsureRing l i false = .ok (l.rotate i)) ∧
    (l.length < i → scrollIndexEnsureRing l i false = .error .arith) := by
  constructor
  · intro h
    rw [scrollIndexEnsureRing]
    split
    · rename_i h0
      have : i = 0 := by omega
      subst this; simp
    · rename_i h0
      simp only [Bool.not_false, if_true]
      rw [Res.sub_le h, Res.bind_ok]
      have l1 := forRange_closed 0 (l.length - i) (fun _ (s : List (Coord α) × Nat × Nat) => do
        let c ← Res.get l s.2.2
        let n ← Res.set s.1 s.2.1 c
        pure (n, s.2.1 + 1, s.2.2 + 1))
        (fun k => ((l.drop i).take k ++ List.replicate (l.length - k) Coord.default, k, i + k)) (Nat.zero_le _) ?_
      · have e1 : ((l.drop i).take 0 ++ List.replicate (l.length - 0) (Coord.default : Coord α), 0, i + 0) =
            (List.replicate l.length (Coord.default : Coord α), 0, i) := by simp
        rw [e1] at l1
        rw [l1, Res.bind_ok, Res.bind_ok]
        have l2 := forRange_closed 0 i (fun _ (s : List (Coord α) × Nat × Nat) => do
          let c ← Res.get l s.2.2
          let n ← Res.set s.1 s.2.1 c
          pure (n, s.2.1 + 1, s.2.2 + 1))
          (fun k => (l.drop i ++ l.take k ++ List.replicate (i - k) Coord.default, l.length - i + k, k)) (Nat.zero_le _) ?_
        · have e2 : (l.drop i ++ l.take 0 ++ List.replicate (i - 0) (Coord.default : Coord α), l.length - i + 0, 0) =
              ((l.drop i).take (l.length - i) ++ List.replicate (l.length - (l.length - i)) (Coord.default : Coord α),
                l.length - i, 0) := by
            have : l.length - (l.length - i) = i := by omega
            rw [this, List.take_of_length_le (l := l.drop i) (by simp)]; simp
          rw [e2] at l2
          rw [l2, Res.bind_ok, List.rotate_eq_drop_append_take h]
          simp
        · intro k _ hk
          have h1 : k < l.length := by omega
          simp only [Res.get_lt h1, Res.bind_ok]
          rw [Res.set_lt (by simp; omega)]
          simp only [Res.bind_ok, Res.pure_eq]
          congr 1
          refine Prod.ext ?_ rfl
          simp only
          rw [set_fill _ _ _ _ _ (by simp; omega) (by omega), take_succ' l k h1, Nat.sub_sub]
          simp
      · intro k _ hk
        have h1 : i + k < l.length := by omega
        simp only [Res.get_lt h1, Res.bind_ok]
        rw [Res.set_lt (by simp; omega)]
        simp only [Res.bind_ok, Res.pure_eq]
        congr 1
        refine Prod.ext ?_ rfl
        simp only
        rw [set_fill _ _ _ _ _ (by simp; omega) (by omega), take_succ' (l.drop i) k (by simp; omega), Nat.sub_sub]
        simp
  · intro h
    rw [scrollIndexEnsureRing, if_neg (by omega)]
    simp [Res.sub, Nat.not_le.mpr h]

theorem scroll_ring_aux (l : List (Coord α)) (i : Nat) (hi : 0 < i) (h2 : 2 ≤ l.length) (a : Coord α)
    (ha : (l.dropLast.rotate i)[0]? = some a) :
    scrollIndexEnsureRing l i true = .ok (l.dropLast.rotate i ++ [a]) := by
  rw [scrollIndexEnsureRing, if_neg (by omega)]
  simp only [Bool.not_true, Bool.false_eq_true, if_false]
  rw [Res.sub_le (by omega), Res.bind_ok]
  have l1 := forRange_closed 0 (l.length - 1) (fun j (new : List (Coord α)) => do
        let c ← Res.get l ((i + j) % (l.length - 1))
        Res.set new j c)
    (fun k => (l.dropLast.rotate i).take k ++ List.replicate (l.length - k) Coord.default) (Nat.zero_le _) ?_
  · have e1 : (l.dropLast.rotate i).take 0 ++ List.replicate (l.length - 0) (Coord.default : Coord α) =
        List.replicate l.length (Coord.default : Coord α) := by simp
    rw [e1] at l1
    rw [l1, Res.bind_ok]
    have hlen : (l.dropLast.rotate i).length = l.length - 1 := by simp
    have h1 : l.length - (l.length - 1) = 1 := by omega
    rw [List.take_of_length_le (by omega), h1]
    have hg : Res.get (l.dropLast.rotate i ++ List.replicate 1 (Coord.default : Coord α)) 0 = .ok a := by
      rw [Res.get_eq_ok, List.getElem?_append_left (by omega), ha]
    rw [hg, Res.bind_ok, Res.set_lt (by simp)]
    congr 1
    rw [List.set_append_right _ _ (by omega)]
    simp [hlen]
  · intro j _ hj
    have hm : (i + j) % (l.length - 1) < l.length - 1 := Nat.mod_lt _ (by omega)
    rw [Res.get_lt (by omega), Res.bind_ok, Res.set_lt (by simp; omega)]
    congr 1
    have hr : (l.dropLast.rotate i)[j]? = some l[(i + j) % (l.length - 1)] := by
      rw [List.getElem?_eq_getElem (by simp; omega), List.getElem_rotate]
      simp [Nat.add_comm]
    rw [set_fill _ _ _ _ _ (by simp; omega) (by omega), List.take_add_one, hr, Nat.sub_sub]
    rfl

/-- With the ring flag, an array of at least two points is scrolled without its last point, then closed with the new first
point: cyclic order kept, result closed. Any index is accepted (it wraps around). -/
theorem C13_scroll_ring (l : List (Coord α)) (i : Nat) (hi : 0 < i) (h2 : 2 ≤ l.length) :
    ∃ a, l.dropLast[i % (l.length - 1)]? = some a ∧
      scrollIndexEnsureRing l i true = .ok (l.dropLast.rotate i ++ [a]) ∧
      (l.dropLast.rotate i ++ [a]).head? = some a := by
  have hm : i % (l.length - 1) < l.length - 1 := Nat.mod_lt _ (by omega)
  have h0 : (l.dropLast.rotate i)[0]? = l.dropLast[i % (l.length - 1)]? := by
    rw [List.getElem?_eq_getElem (by simp; omega), List.getElem_rotate, List.getElem?_eq_getElem (by simpa using hm)]
    simp
  refine ⟨l.dropLast[i % (l.length - 1)]'(by simpa using hm), List.getElem?_eq_getElem _, ?_, ?_⟩
  · apply scroll_ring_aux l i hi h2
    rw [h0]; exact List.getElem?_eq_getElem _
  · have : (l.dropLast.rotate i ++ [l.dropLast[i % (l.length - 1)]'(by simpa using hm)]).head? =
        (l.dropLast.rotate i)[0]? := by
      rw [List.head?_eq_getElem?, List.getElem?_append_left (by simp; omega)]
    rw [this, h0]; exact List.getElem?_eq_getElem _

/-- The remaining inputs of the ring flag: index 0 changes nothing, an empty array panics, and a single point is
overwritten by the default coordinate (0, 0). -/
theorem C13_scroll_ring_edge (l : List (Coord α)) (c : Coord α) (i : Nat) :
    scrollIndexEnsureRing l 0 true = .ok l ∧
    (0 < i → scrollIndexEnsureRing ([] : List (Coord α)) i true = .error .arith) ∧
    (0 < i → scrollIndexEnsureRing [c] i true = .ok [Coord.default]) := by
  refine ⟨rfl, fun h => ?_, fun h => ?_⟩
  · rw [scrollIndexEnsureRing, if_neg (by omega)]; rfl
  · rw [scrollIndexEnsureRing, if_neg (by omega)]; rfl

/-- `is_ring`: at least four points, the first and last equal (2D). Never panics. -/
theorem C13_isRing (l : List (Coord α)) :
    ∃ b, isRing l = .ok b ∧
      (b = true ↔ 4 ≤ l.length ∧ ∃ p q, l.head? = some p ∧ l.getLast? = some q ∧ p.equals2D q = true) := by
  rw [isRing]
  split
  · exact ⟨false, rfl, by simp; intros; omega⟩
  · rename_i h
    rw [Res.get_lt (by omega), Res.bind_ok, Res.get_lt (by omega), Res.bind_ok]
    rw [List.head?_eq_getElem?, List.getLast?_eq_getElem?, List.getElem?_eq_getElem (by omega),
      List.getElem?_eq_getElem (by omega)]
    split
    · rename_i hc
      refine ⟨false, rfl, ?_⟩
      simp at hc
      simp [hc]
    · rename_i hc
      refine ⟨true, rfl, ?_⟩
      simp at hc
      simp [hc]
      omega

/-- `scroll_index` never panics for `i < len`, puts the requested coordinate first, keeps the number of points;
an array that is no ring is rotated; of a ring, the vertices without the closing point are rotated and the result is a ring
(for a NaN-free start). -/
theorem C13_scrollIndex [FltOrd α] (l : List (Coord α)) (i : Nat) (hi : i < l.length) :
    ∃ r, scrollIndex l i = .ok r ∧ r.length = l.length ∧
      (isRing l = .ok false → r = l.rotate i ∧ r.head? = l[i]? ∧ r.Perm l) ∧
      (isRing l = .ok true → 0 < i →
        r.dropLast = l.dropLast.rotate i ∧ r.head? = r.getLast? ∧
        (i < l.length - 1 → r.head? = l[i]?) ∧
        ((∀ c ∈ l, c.NN) → isRing r = .ok true)) := by
  obtain ⟨b, hb, hb'⟩ := C13_isRing l
  rw [scrollIndex, hb, Res.bind_ok]
  cases b with
  | false =>
    refine ⟨l.rotate i, (C13_scroll_rotation l i).1 (by omega), by simp, fun _ => ⟨rfl, ?_, List.rotate_perm l i⟩,
      fun h => by simp at h⟩
    rw [List.head?_eq_getElem?, List.getElem?_eq_getElem (by simp; omega), List.getElem_rotate,
      List.getElem?_eq_getElem hi]
    simp [Nat.mod_eq_of_lt hi]
  | true =>
    obtain ⟨h4, p, q, -, -, -⟩ := hb'.mp rfl
    rcases Nat.eq_zero_or_pos i with rfl | hpos
    · exact ⟨l, rfl, rfl, fun h => by simp at h, fun _ h => by omega⟩
    · obtain ⟨a, ha, hr, hhead⟩ := C13_scroll_ring l i hpos (by omega)
      have hlast : (l.dropLast.rotate i ++ [a]).getLast? = some a := List.getLast?_concat
      refine ⟨_, hr, by simp; omega, fun h => by simp at h, fun _ _ => ⟨by simp, ?_, ?_, ?_⟩⟩
      · rw [hhead, hlast]
      · intro hlt
        rw [hhead, ← ha, Nat.mod_eq_of_lt hlt, List.getElem?_dropLast, if_pos hlt]
      · intro hnn
        obtain ⟨b2, hb2, hb2'⟩ := C13_isRing (l.dropLast.rotate i ++ [a])
        rw [hb2, hb2'.mpr]
        refine ⟨by simp; omega, a, a, hhead, hlast, ?_⟩
        have : a ∈ l := List.dropLast_subset _ (List.mem_of_getElem? ha)
        obtain ⟨h1, h2⟩ := hnn a this
        simp [Coord.equals2D, eq_eq, h1, h2]

/-- Scrolling to a coordinate brings the first coordinate equal to it to the front, and does nothing if there is none. -/
theorem C13_scrollCoordinate [FltOrd α] (l : List (Coord α)) (c : Coord α) :
    (∀ p ∈ l, p.equals2D c = false) ∧ scrollCoordinate l c = .ok l ∨
    (∃ r p, scrollCoordinate l c = .ok r ∧ r.length = l.length ∧ r.head? = some p ∧ p ∈ l ∧ p.equals2D c = true) := by
  rw [scrollCoordinate]
  cases h : l.findIdx? (fun r => r.equals2D c) with
  | none =>
    left
    rw [List.findIdx?_eq_none_iff] at h
    exact ⟨h, rfl⟩
  | some i =>
    right
    rw [List.findIdx?_eq_some_iff_getElem] at h
    obtain ⟨hi, hc, hmin⟩ := h
    obtain ⟨r, hr, hlen, hno, hyes⟩ := C13_scrollIndex l i hi
    obtain ⟨b, hb, hb'⟩ := C13_isRing l
    cases b with
    | false =>
      refine ⟨r, l[i], hr, hlen, ?_, List.getElem_mem _, hc⟩
      rw [(hno hb).2.1, List.getElem?_eq_getElem hi]
    | true =>
      rcases Nat.eq_zero_or_pos i with rfl | hpos
      · have : r = l := by
          have h0 : scrollIndex l 0 = .ok l := by rw [scrollIndex, hb]; rfl
          rw [h0] at hr; cases hr; rfl
        subst this
        exact ⟨r, r[0], hr, rfl, by simp [List.head?_eq_getElem?, hi], List.getElem_mem _, hc⟩
      · have hlt : i < l.length - 1 := by
          by_contra hge
          have hil : i = l.length - 1 := by omega
          obtain ⟨h4, p, q, hp, hq, hpq⟩ := hb'.mp rfl
          have := hmin 0 (by omega)
          have e0 : p = l[0] := by
            rw [List.head?_eq_getElem?, List.getElem?_eq_getElem (by omega)] at hp
            simpa using hp.symm
          have e1 : q = l[i] := by
            rw [List.getLast?_eq_getElem?, List.getElem?_eq_getElem (by omega)] at hq
            simp only [hil]; simpa using hq.symm
          subst e0 e1
          apply this
          revert hpq hc
          simp only [Coord.equals2D, eq_eq]
          grind
        refine ⟨r, l[i], hr, hlen, ?_, List.getElem_mem _, hc⟩
        rw [(hyes hb hpos).2.2.1 hlt, List.getElem?_eq_getElem hi]

section examples
local notation "F" => Fl exactRounding
local notation "pt" => fun (x y : ℚ) => (Coord.xy (Fl.fin x) (Fl.fin y) : Coord F)

example : scrollIndex [pt 0 0, pt 1 0, pt 2 0] 1 = .ok [pt 1 0, pt 2 0, pt 0 0] := by decide +kernel
example : isRing [pt 0 0, pt 1 0, pt 1 1, pt 0 0] = .ok true ∧
    scrollIndex [pt 0 0, pt 1 0, pt 1 1, pt 0 0] 2 = .ok [pt 1 1, pt 0 0, pt 1 0, pt 1 1] := by decide +kernel
end examples

end Verif.Props
