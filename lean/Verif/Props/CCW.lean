import Verif.Lemmas.CCW
import Mathlib.Algebra.Order.BigOperators.Group.List

set_option linter.unusedSectionVars false

/-! # C34: ring orientation -/

namespace Verif.Spec
variable {K : Type} [Field K] [LinearOrder K]

/-- The cap entered by `ul → uh` and left by `dh → dl` turns left: for a peak by the sign of its turn, for a flat top by its
direction. -/
def CapLeft (ul uh dh dl : Coord K) : Prop := if uh.x = dh.x ∧ uh.y = dh.y then 0 < det ul uh dl else dh.x < uh.x

instance (ul uh dh dl : Coord K) : Decidable (CapLeft ul uh dh dl) := by unfold CapLeft; infer_instance

/-- The points of `t` are the highest ones, all on one height. -/
def Top (t w : List (Coord K)) : Prop := t ≠ [] ∧ w ≠ [] ∧ ∃ Y : K, (∀ q ∈ t, q.y = Y) ∧ ∀ q ∈ w, q.y < Y

/-- Every three vertices, in their order, turn left or are in line, and some turn left. -/
def ConvexLeft (v : List (Coord K)) : Prop :=
  (∀ (i j k : Nat) (a b c : Coord K), i < j → j < k → v[i]? = some a → v[j]? = some b → v[k]? = some c → 0 ≤ det a b c) ∧
  ∃ (i j k : Nat) (a b c : Coord K), i < j ∧ j < k ∧ v[i]? = some a ∧ v[j]? = some b ∧ v[k]? = some c ∧ 0 < det a b c

end Verif.Spec

namespace Verif.Props
open Flt Verif.Spec

section floats
variable {α : Type} [Flt α]

/-- Only the coordinates of a sequence matter (every arithmetic). -/
theorem C34_sequence (s : CASeq α) : Orientation.isCCWSeq s = Orientation.isCCW s.coordinates := by
  have h : ∀ fuel n hiY u i, Orientation.findDown s n hiY u fuel i = Orientation.findDown (Orientation.asSeq s.coordinates) n hiY u fuel i := by
    intro fuel n hiY u
    induction fuel with
    | zero => intro i; rfl
    | succ fuel ih => intro i; simp only [Orientation.findDown, ih]; rfl
  unfold Orientation.isCCW Orientation.isCCWSeq
  simp only [h]
  rfl

/-- Every arithmetic with ordered comparisons, NaN included: only the empty ring panics, the search always ends, and rings of fewer
than four points are never counterclockwise. -/
theorem C34_total [FltOrd α] (r : List (Coord α)) :
    (Orientation.isCCW r = .error .arith ↔ r = []) ∧ (r ≠ [] → ∃ b, Orientation.isCCW r = .ok b) ∧
    (r ≠ [] → r.length < 4 → Orientation.isCCW r = .ok false) := by
  have hnil : Orientation.isCCW ([] : List (Coord α)) = .error .arith := rfl
  have hshort : r ≠ [] → r.length < 4 → Orientation.isCCW r = .ok false := by
    intro h1 h2
    have h3 : 1 ≤ r.length := List.length_pos_iff.mpr h1
    unfold Orientation.isCCW Orientation.isCCWSeq Orientation.asSeq
    have hsz : Res.sub (⟨2, 0, r⟩ : CASeq α).size 1 = .ok (r.length - 1) := if_pos h3
    rw [hsz]
    simp only [Res.bind_ok]
    rw [if_pos (by omega)]; rfl
  have hok : r ≠ [] → ∃ b, Orientation.isCCW r = .ok b := by
    intro h1
    by_cases h2 : r.length < 4
    · exact ⟨_, hshort h1 h2⟩
    · obtain ⟨st, _, _, ⟨_, h⟩ | ⟨k, n, e, ul, uh, dh, dl, _, _, _, _, _, _, _, _, _, _, _, _, _, h⟩⟩ :=
        isCCW_any r 2 0 (by omega) (fun _ _ => True) trivial (fun _ _ _ _ _ _ => trivial)
      · exact ⟨_, h⟩
      · exact ⟨_, h⟩
  refine ⟨⟨fun h => ?_, fun h => by rw [h]; exact hnil⟩, hok, hshort⟩
  by_contra hne
  obtain ⟨b, hb⟩ := hok hne
  rw [hb] at h; cases h

end floats

variable {K : Type} [Field K] [LinearOrder K] [IsStrictOrderedRing K]

theorem capAnswer_exact (ul uh dh dl : Coord K) (h1 : ul.y < uh.y) (h2 : dl.y < uh.y) :
    capAnswer ul uh dh dl = decide (CapLeft ul uh dh dl) := by
  unfold capAnswer CapLeft
  by_cases h : uh.equals2D dh = true
  · have hh := (equals2D_iff uh dh).mp h
    simp only [h, if_true, hh, and_self]
    have n1 : ul.equals2D uh = false := by
      rw [← Bool.not_eq_true, equals2D_iff]; intro hh; exact h1.ne hh.2
    have n2 : dl.equals2D uh = false := by
      rw [← Bool.not_eq_true, equals2D_iff]; intro hh; exact h2.ne hh.2
    simp only [n1, n2, Bool.false_or, C29_index_is_sign]
    by_cases h3 : ul.equals2D dl = true
    · have hd := (equals2D_iff ul dl).mp h3
      have : det ul uh dl = 0 := by unfold det; rw [← hd.1, ← hd.2]; ring
      simp [h3, this]
    · simp only [h3, Bool.false_eq_true, if_false]
      exact decide_eq_decide.mpr sgn_pos
  · have hh := mt (equals2D_iff uh dh).mpr h
    simp only [h, hh, if_false, exact_sub, exact_lt, exact_lit, Rat.cast_zero, Bool.false_eq_true]
    exact decide_eq_decide.mpr sub_neg

/-- What the test computes on rings whose ends have one height, with any invariant of its scan. -/
theorem isCCW_exact_inv (r : List (Coord K)) (hl : 4 ≤ r.length) (hends : ∀ a b, r.head? = some a → r.getLast? = some b → a.y = b.y)
    (Q : Nat → Orientation.Scan K → Prop) (hQ0 : Q 1 ⟨r[0], r[0].y, Coord.default, 0⟩)
    (hQ : ∀ i st (h : i < r.length), 1 ≤ i → Q i st →
      Q (i + 1) (if (r[i].y >. st.prevY) && (r[i].y ≥. st.upHi.y) then ⟨r[i], r[i].y, r[i - 1], i⟩
        else { st with prevY := r[i].y })) :
    ∃ st, Q r.length st ∧
    ((st.iUpHi = 0 ∧ (∀ a ∈ r, ∀ b ∈ r, a.y = b.y) ∧ Orientation.isCCW r = .ok false) ∨
    ∃ k n e ul uh dh dl, n + 1 = r.length ∧ k < n ∧ st.iUpHi = k + 1 ∧ 1 ≤ e ∧ e < n ∧
        r[k]? = some ul ∧ r[k + 1]? = some uh ∧ r[(k + e) % n]? = some dh ∧ r[(k + 1 + e) % n]? = some dl ∧
        ul.y < uh.y ∧ dl.y < uh.y ∧ (∀ q ∈ r, q.y ≤ uh.y) ∧
        (∀ f, 1 ≤ f → f < e → ∀ q, r[(k + 1 + f) % n]? = some q → q.y = uh.y) ∧
        Orientation.isCCW r = .ok (decide (CapLeft ul uh dh dl))) := by
  obtain ⟨st, hs, ⟨⟨hq1, hq2⟩, hqq⟩, hh⟩ := isCCW_any r 2 0 hl
    (fun i st => ((∀ j q, j < i → r[j]? = some q → q.y ≤ st.upHi.y) ∧
      (st.iUpHi = 0 → (∀ j q, j < i → r[j]? = some q → q.y = r[0].y) ∨ st.prevY < r[0].y)) ∧ Q i st) (by
      refine ⟨⟨?_, fun _ => Or.inl ?_⟩, hQ0⟩
      · intro j q hj hq
        obtain rfl : j = 0 := by omega
        rw [List.getElem?_eq_getElem (by omega)] at hq; cases hq; exact le_rfl
      · intro j q hj hq
        obtain rfl : j = 0 := by omega
        rw [List.getElem?_eq_getElem (by omega)] at hq; cases hq; rfl) (by
      rintro i st hi h1 hinv ⟨⟨a1, a2⟩, a3⟩
      refine ⟨?_, hQ i st hi h1 a3⟩
      have hp : st.prevY = r[i - 1].y := hinv.1 _ (List.getElem?_eq_getElem (by omega))
      have hup : r[i - 1].y ≤ st.upHi.y := a1 (i - 1) _ (by omega) (List.getElem?_eq_getElem (by omega))
      by_cases hc : ((r[i].y >. st.prevY) && (r[i].y ≥. st.upHi.y)) = true
      · rw [if_pos hc]
        simp only [Bool.and_eq_true, exact_lt, exact_le, decide_eq_true_eq] at hc
        refine ⟨?_, fun h => absurd h (by simp; omega)⟩
        intro j q hj hq
        rcases Nat.lt_succ_iff_lt_or_eq.mp hj with hj | rfl
        · exact (a1 j q hj hq).trans hc.2
        · rw [List.getElem?_eq_getElem hi] at hq; cases hq; exact le_rfl
      · rw [if_neg hc]
        simp only [Bool.and_eq_true, exact_lt, exact_le, decide_eq_true_eq, not_and, not_le] at hc
        have hle : r[i].y ≤ st.upHi.y := by
          by_cases hb : st.prevY < r[i].y
          · exact (hc hb).le
          · push Not at hb; rw [hp] at hb; exact hb.trans hup
        refine ⟨?_, ?_⟩
        · intro j q hj hq
          rcases Nat.lt_succ_iff_lt_or_eq.mp hj with hj | rfl
          · exact a1 j q hj hq
          · rw [List.getElem?_eq_getElem hi] at hq; cases hq; exact hle
        · intro h0
          have hup0 : st.upHi = r[0] := by
            rcases hinv.2 with h | h
            · have := h.2; rw [List.getElem?_eq_getElem (by omega)] at this; injection this with this; exact this.symm
            · simp only at h0; omega
          rw [hup0] at hle hc
          rcases a2 h0 with h | h
          · rcases lt_or_eq_of_le hle with hlt | heq
            · exact Or.inr hlt
            · refine Or.inl ?_
              intro j q hj hq
              rcases Nat.lt_succ_iff_lt_or_eq.mp hj with hj | rfl
              · exact h j q hj hq
              · rw [List.getElem?_eq_getElem hi] at hq; cases hq; exact heq
          · refine Or.inr ?_
            by_cases hb : st.prevY < r[i].y
            · exact hc hb
            · push Not at hb; exact lt_of_le_of_lt hb h)
  refine ⟨st, hqq, ?_⟩
  have hends' : r[0].y = r[r.length - 1].y := hends _ _ (by rw [List.head?_eq_getElem?, List.getElem?_eq_getElem])
    (by rw [List.getLast?_eq_getElem?, List.getElem?_eq_getElem])
  rcases hh with ⟨h0, h⟩ | ⟨k, n, e, ul, uh, dh, dl, b1, b2, b3, b4, b5, b6, b7, b8, b9, b10, b11, b12, b13, b14⟩
  · refine Or.inl ⟨h0, ?_, h⟩
    have hall : ∀ j q, j < r.length → r[j]? = some q → q.y = r[0].y := by
      rcases hq2 h0 with h | h
      · exact h
      · have := hs.1 _ (List.getElem?_eq_getElem (show r.length - 1 < r.length by omega))
        rw [this, ← hends'] at h
        exact absurd h (lt_irrefl _)
    intro a ha b hb
    obtain ⟨i, hi, rfl⟩ := List.mem_iff_getElem.mp ha
    obtain ⟨j, hj, rfl⟩ := List.mem_iff_getElem.mp hb
    rw [hall i _ hi (List.getElem?_eq_getElem hi), hall j _ hj (List.getElem?_eq_getElem hj)]
  · have hul : ul.y < uh.y := by simpa using b10
    have hmax : ∀ q ∈ r, q.y ≤ uh.y := by
      intro q hq
      obtain ⟨i, hi, rfl⟩ := List.mem_iff_getElem.mp hq
      have := hq1 i _ hi (List.getElem?_eq_getElem hi)
      rw [b11] at this; exact this
    have hdl : dl.y < uh.y := by
      refine lt_of_le_of_ne (hmax dl (List.mem_of_getElem? b9)) ?_
      simpa using b12
    refine Or.inr ⟨k, n, e, ul, uh, dh, dl, b1, b2, b3, b4, b5, b6, b7, b8, b9, hul, hdl, hmax, ?_, ?_⟩
    · intro f f1 f2 q hq; simpa using b13 f f1 f2 q hq
    · rw [← capAnswer_exact ul uh dh dl hul hdl]; exact b14

/-- What the test computes on rings whose ends have one height. -/
theorem isCCW_exact (r : List (Coord K)) (hl : 4 ≤ r.length) (hends : ∀ a b, r.head? = some a → r.getLast? = some b → a.y = b.y) :
    ((∀ a ∈ r, ∀ b ∈ r, a.y = b.y) ∧ Orientation.isCCW r = .ok false) ∨
    ∃ k n e ul uh dh dl, n + 1 = r.length ∧ k < n ∧ 1 ≤ e ∧ e < n ∧
        r[k]? = some ul ∧ r[k + 1]? = some uh ∧ r[(k + e) % n]? = some dh ∧ r[(k + 1 + e) % n]? = some dl ∧
        ul.y < uh.y ∧ dl.y < uh.y ∧ (∀ q ∈ r, q.y ≤ uh.y) ∧
        (∀ f, 1 ≤ f → f < e → ∀ q, r[(k + 1 + f) % n]? = some q → q.y = uh.y) ∧
        Orientation.isCCW r = .ok (decide (CapLeft ul uh dh dl)) := by
  obtain ⟨st, -, h | ⟨k, n, e, ul, uh, dh, dl, b1, b2, -, b⟩⟩ :=
    isCCW_exact_inv r hl hends (fun _ _ => True) trivial (fun _ _ _ _ _ => trivial)
  · exact Or.inl h.2
  · exact Or.inr ⟨k, n, e, ul, uh, dh, dl, b1, b2, b⟩

theorem closed_get (v : List (Coord K)) (i : Nat) (h : i ≤ v.length) : (closed v)[i]? = v[i % v.length]? := by
  unfold closed
  rcases Nat.lt_or_eq_of_le h with h | rfl
  · rw [List.getElem?_append_left h, Nat.mod_eq_of_lt h]
  · rw [List.getElem?_append_right le_rfl, Nat.sub_self, Nat.mod_self]
    cases v <;> simp

theorem closed_ends (v : List (Coord K)) : ∀ a b, (closed v).head? = some a → (closed v).getLast? = some b → a.y = b.y :=
  fun a b h1 h2 => (closed2D_closed v a b h1 h2).2

/-- The same for the closed ring of a list of vertices, with indices taken around the ring. -/
theorem isCCW_closed (v : List (Coord K)) (hl : 3 ≤ v.length) :
    ((∀ a ∈ v, ∀ b ∈ v, a.y = b.y) ∧ Orientation.isCCW (closed v) = .ok false) ∨
    ∃ k e ul uh dh dl, k < v.length ∧ 1 ≤ e ∧ e < v.length ∧
        v[k]? = some ul ∧ v[(k + 1) % v.length]? = some uh ∧ v[(k + e) % v.length]? = some dh ∧
        v[(k + 1 + e) % v.length]? = some dl ∧
        ul.y < uh.y ∧ dl.y < uh.y ∧ (∀ q ∈ v, q.y ≤ uh.y) ∧
        (∀ f, 1 ≤ f → f < e → ∀ q, v[(k + 1 + f) % v.length]? = some q → q.y = uh.y) ∧
        Orientation.isCCW (closed v) = .ok (decide (CapLeft ul uh dh dl)) := by
  have hlen : (closed v).length = v.length + 1 := by simp [closed]; omega
  have hmem : ∀ a ∈ v, a ∈ closed v := fun a ha => List.mem_append_left _ ha
  have hget : ∀ i, (closed v)[i % v.length]? = v[i % v.length]? := by
    intro i
    have := Nat.mod_lt i (show 0 < v.length by omega)
    rw [closed_get v _ (by omega), Nat.mod_mod]
  rcases isCCW_exact (closed v) (by omega) (closed_ends v) with ⟨h1, h2⟩ |
    ⟨k, n, e, ul, uh, dh, dl, b1, b2, b4, b5, b6, b7, b8, b9, hul, hdl, hmax, h13, h14⟩
  · exact Or.inl ⟨fun a ha b hb => h1 a (hmem a ha) b (hmem b hb), h2⟩
  · obtain rfl : n = v.length := by omega
    refine Or.inr ⟨k, e, ul, uh, dh, dl, b2, b4, b5, ?_, ?_, ?_, ?_, hul, hdl, fun q hq => hmax q (hmem q hq), ?_, h14⟩
    · rw [closed_get v k (by omega), Nat.mod_eq_of_lt b2] at b6; exact b6
    · rw [closed_get v (k + 1) (by omega)] at b7; exact b7
    · rw [hget] at b8; exact b8
    · rw [hget] at b9; exact b9
    · intro f f1 f2 q hq; exact h13 f f1 f2 q (by rw [hget]; exact hq)

/-- Rings with one top: the answer is read off its top, wherever the ring starts. -/
theorem C34_top (t w : List (Coord K)) (ht : Top t w) (hl : 3 ≤ (t ++ w).length) (k : Nat) :
    Orientation.isCCW (closed ((t ++ w).rotate k)) =
      .ok (decide (CapLeft (w.getLast ht.2.1) (t.head ht.1) (t.getLast ht.1) (w.head ht.2.1))) := by
  obtain ⟨n1, n2, Y, hY, hw⟩ := ht
  have p1 := List.length_pos_iff.mpr n1
  have p2 := List.length_pos_iff.mpr n2
  obtain ⟨n, hn⟩ : ∃ n, n = (t ++ w).length := ⟨_, rfl⟩
  have hn' : n = t.length + w.length := by rw [hn, List.length_append]
  have hlen : ((t ++ w).rotate k).length = n := by rw [List.length_rotate, hn]
  have hget : ∀ i, i < n → ((t ++ w).rotate k)[i]? = (t ++ w)[(i + k) % n]? := by
    intro i hi; rw [List.getElem?_rotate (by omega), hn]
  have hlow : ∀ i q, (t ++ w)[i]? = some q → (q.y < Y ↔ t.length ≤ i) ∧ (q.y = Y ↔ i < t.length) := by
    intro i q hq
    by_cases hi : i < t.length
    · rw [List.getElem?_append_left hi] at hq
      have := hY q (List.mem_of_getElem? hq)
      rw [this]; simp [hi]
    · rw [List.getElem?_append_right (by omega)] at hq
      have := hw q (List.mem_of_getElem? hq)
      simp [this, this.ne, hi]; omega
  rcases isCCW_closed ((t ++ w).rotate k) (by rw [List.length_rotate]; exact hl) with ⟨h1, _⟩ |
    ⟨j, e, ul, uh, dh, dl, b2, b4, b5, b6, b7, b8, b9, hul, hdl, hmax, h13, h14⟩
  · exfalso
    have m1 : t.head n1 ∈ (t ++ w).rotate k := by rw [List.mem_rotate]; exact List.mem_append_left _ (List.head_mem n1)
    have m2 : w.head n2 ∈ (t ++ w).rotate k := by rw [List.mem_rotate]; exact List.mem_append_right _ (List.head_mem n2)
    have := h1 _ m1 _ m2
    rw [hY _ (List.head_mem n1)] at this
    exact (hw _ (List.head_mem n2)).ne this.symm
  · rw [hlen] at b2 b5 b7 b8 b9 h13
    have huh : uh.y = Y := by
      have h1 := hmax (t.head n1) (by rw [List.mem_rotate]; exact List.mem_append_left _ (List.head_mem n1))
      rw [hY _ (List.head_mem n1)] at h1
      have h2 : uh ∈ t ++ w := by rw [← List.mem_rotate (n := k)]; exact List.mem_of_getElem? b7
      rcases List.mem_append.mp h2 with h | h
      · exact hY _ h
      · exact absurd (hw _ h) (not_lt.mpr h1)
    rw [huh] at hul hdl h13
    have hnpos : 0 < n := by omega
    have hmod : ∀ i, (i % n + k) % n = ((j + k) % n + (i - j)) % n ∨ i < j := by
      intro i
      by_cases hij : i < j
      · exact Or.inr hij
      · left; rw [Nat.mod_add_mod, Nat.mod_add_mod]; congr 1; omega
    have hmod' : ∀ i, j ≤ i → (i % n + k) % n = ((j + k) % n + (i - j)) % n := fun i hi =>
      (hmod i).resolve_right (by omega)
    rw [hget j b2] at b6
    rw [hget _ (Nat.mod_lt _ hnpos), hmod' _ (by omega), show j + 1 - j = 1 by omega] at b7
    rw [hget _ (Nat.mod_lt _ hnpos), hmod' _ (by omega), show j + e - j = e by omega] at b8
    rw [hget _ (Nat.mod_lt _ hnpos), hmod' _ (by omega), show j + 1 + e - j = 1 + e by omega] at b9
    have ha := Nat.mod_lt (j + k) hnpos
    obtain ⟨a, hadef⟩ : ∃ a, a = (j + k) % n := ⟨_, rfl⟩
    rw [← hadef] at b6 b7 b8 b9 ha
    have c1 : t.length ≤ a := (hlow a ul b6).1.mp hul
    have c2 : (a + 1) % n < t.length := (hlow _ uh b7).2.mp huh
    have c3 : a + 1 = n := by
      by_contra hne
      rw [Nat.mod_eq_of_lt (by omega)] at c2; omega
    have c4 : ∀ f, f < n → (a + (1 + f)) % n = f := by
      intro f hf
      rw [show a + (1 + f) = n + f by omega, Nat.add_mod_left, Nat.mod_eq_of_lt hf]
    rw [c4 e b5] at b9
    have c5 : t.length ≤ e := (hlow e dl b9).1.mp hdl
    have c6 : e ≤ t.length := by
      by_contra hgt; push Not at hgt
      have hlt : t.length < n := by omega
      have hx := h13 t.length p1 hgt ((t ++ w)[t.length]'(by omega)) (by
        rw [hget _ (Nat.mod_lt _ hnpos), hmod' _ (by omega), show j + 1 + t.length - j = 1 + t.length by omega, ← hadef,
          c4 _ hlt]
        exact List.getElem?_eq_getElem _)
      have := (hlow t.length _ (List.getElem?_eq_getElem (by omega))).2.mp hx
      omega
    have c7 : e = t.length := by omega
    have e1 : ul = w.getLast n2 := by
      rw [List.getElem?_append_right c1, show a - t.length = w.length - 1 by omega] at b6
      rw [List.getLast_eq_getElem]
      rw [List.getElem?_eq_getElem (by omega)] at b6; injection b6 with b6; exact b6.symm
    have e2 : uh = t.head n1 := by
      rw [show (a + 1) % n = 0 by rw [c3, Nat.mod_self], List.getElem?_append_left p1, List.getElem?_eq_getElem p1] at b7
      injection b7 with b7
      rw [List.head_eq_getElem]; exact b7.symm
    have e3 : dh = t.getLast n1 := by
      rw [show a + e = a + (1 + (e - 1)) by omega, c4 (e - 1) (by omega), List.getElem?_append_left (by omega),
        List.getElem?_eq_getElem (by omega)] at b8
      injection b8 with b8
      rw [List.getLast_eq_getElem, ← b8]; congr 1; omega
    have e4 : dl = w.head n2 := by
      rw [c7, List.getElem?_append_right le_rfl, Nat.sub_self, List.getElem?_eq_getElem p2] at b9
      injection b9 with b9
      rw [List.head_eq_getElem]; exact b9.symm
    rw [h14, e1, e2, e3, e4]

/-- Rings with one top do not depend on the start. -/
theorem C34_start_partial (t w : List (Coord K)) (ht : Top t w) (hl : 3 ≤ (t ++ w).length) (k j : Nat) :
    Orientation.isCCW (closed ((t ++ w).rotate k)) = Orientation.isCCW (closed ((t ++ w).rotate j)) := by
  rw [C34_top t w ht hl, C34_top t w ht hl]

/-- Rings with one top, which is no spike, flip when reversed. -/
theorem C34_reverse_partial (t w : List (Coord K)) (ht : Top t w) (hl : 3 ≤ (t ++ w).length) (k : Nat)
    (hspike : (t.head ht.1).x = (t.getLast ht.1).x → det (w.getLast ht.2.1) (t.head ht.1) (w.head ht.2.1) ≠ 0) :
    ∃ b, Orientation.isCCW (closed ((t ++ w).rotate k)) = .ok b ∧ Orientation.isCCW (closed ((t ++ w).rotate k)).reverse = .ok (!b) := by
  have ht' : Top t.reverse w.reverse := by
    obtain ⟨n1, n2, Y, hY, hw⟩ := ht
    exact ⟨by simpa using n1, by simpa using n2, Y, fun q hq => hY q (by simpa using hq), fun q hq => hw q (by simpa using hq)⟩
  refine ⟨_, C34_top t w ht hl k, ?_⟩
  have hrot : ∃ j, (closed ((t ++ w).rotate k)).reverse = closed ((t.reverse ++ w.reverse).rotate j) := by
    obtain ⟨a, l, hal⟩ : ∃ a l, (t ++ w).rotate k = a :: l := by
      cases h : (t ++ w).rotate k with
      | nil => have := congrArg List.length h; simp only [List.length_rotate, List.length_nil] at this; omega
      | cons a l => exact ⟨a, l, rfl⟩
    rw [hal, closed_reverse]
    have r1 : (a :: l.reverse) ~r (t.reverse ++ w.reverse) := by
      have s1 : (t ++ w) ~r (a :: l) := ⟨k, hal⟩
      have s2 : (t ++ w).reverse ~r (a :: l).reverse := s1.reverse
      rw [List.reverse_append, List.reverse_cons] at s2
      have s3 : (t.reverse ++ w.reverse) ~r (w.reverse ++ t.reverse) := List.isRotated_append
      have s4 : (l.reverse ++ [a]) ~r ([a] ++ l.reverse) := List.isRotated_append
      exact ((s3.trans s2).trans s4).symm
    obtain ⟨j, hj⟩ := r1.symm
    exact ⟨j, by rw [hj]⟩
  obtain ⟨j, hj⟩ := hrot
  rw [hj, C34_top t.reverse w.reverse ht' (by simpa using hl) j]
  congr 1
  have g1 : w.reverse.getLast ht'.2.1 = w.head ht.2.1 := by rw [List.getLast_reverse]
  have g2 : t.reverse.head ht'.1 = t.getLast ht.1 := by rw [List.head_reverse]
  have g3 : t.reverse.getLast ht'.1 = t.head ht.1 := by rw [List.getLast_reverse]
  have g4 : w.reverse.head ht'.2.1 = w.getLast ht.2.1 := by rw [List.head_reverse]
  rw [g1, g2, g3, g4]
  have hy : (t.head ht.1).y = (t.getLast ht.1).y := by
    obtain ⟨n1, n2, Y, hY, hw⟩ := ht
    rw [hY _ (List.head_mem n1), hY _ (List.getLast_mem n1)]
  unfold CapLeft
  by_cases hx : (t.head ht.1).x = (t.getLast ht.1).x
  · have hd := hspike hx
    simp only [hx, hy, and_self, if_true]
    have e : det (w.head ht.2.1) (t.getLast ht.1) (w.getLast ht.2.1) = - det (w.getLast ht.2.1) (t.head ht.1) (w.head ht.2.1) := by
      unfold det; rw [hx, hy]; ring
    rw [e]
    rcases lt_or_gt_of_ne hd with h | h <;> simp [h, h.le, not_lt.mpr h.le]
  · simp only [hx, Ne.symm hx, false_and, if_false]
    rcases lt_or_gt_of_ne hx with h | h <;> simp [h, not_lt.mpr h.le]

theorem det_cycle (a b c : Coord K) : det b c a = det a b c := by unfold det; ring

/-- Order around the ring: the orientation of three vertices met in the order `i`, `i + d`, `i + d + e`. -/
theorem convex_cyclic (v : List (Coord K)) (h : ConvexLeft v) (i d e : Nat) (hn : 0 < v.length) (hd : 1 ≤ d) (he : 1 ≤ e)
    (hde : d + e < v.length) (a b c : Coord K) (ha : v[i % v.length]? = some a) (hb : v[(i + d) % v.length]? = some b)
    (hc : v[(i + d + e) % v.length]? = some c) : 0 ≤ det a b c := by
  obtain ⟨n, hN⟩ : ∃ n, n = v.length := ⟨_, rfl⟩
  rw [← hN] at hn hde ha hb hc
  have hi := Nat.mod_lt i hn
  have r1 : (i + d) % n = (i % n + d) % n := by rw [Nat.mod_add_mod]
  have r2 : (i + d + e) % n = (i % n + d + e) % n := by rw [Nat.add_assoc, Nat.add_assoc, Nat.mod_add_mod]
  rw [r1] at hb
  rw [r2] at hc
  obtain ⟨j, hj⟩ : ∃ j, j = i % n := ⟨_, rfl⟩
  rw [← hj] at ha hb hc hi
  by_cases c1 : j + d + e < n
  · rw [Nat.mod_eq_of_lt (by omega)] at hb hc
    exact h.1 _ _ _ a b c (by omega) (by omega) ha hb hc
  · by_cases c2 : j + d < n
    · rw [Nat.mod_eq_of_lt c2] at hb
      rw [show j + d + e = n + (j + d + e - n) by omega, Nat.add_mod_left, Nat.mod_eq_of_lt (by omega)] at hc
      rw [← det_cycle, ← det_cycle]
      exact h.1 _ _ _ c a b (by omega) (by omega) hc ha hb
    · rw [show j + d = n + (j + d - n) by omega, Nat.add_mod_left, Nat.mod_eq_of_lt (by omega)] at hb
      rw [show j + d + e = n + (j + d + e - n) by omega, Nat.add_mod_left, Nat.mod_eq_of_lt (by omega)] at hc
      rw [← det_cycle]
      exact h.1 _ _ _ b c a (by omega) (by omega) hb hc ha

theorem getElem?_length {A : Type} {v : List A} {k : Nat} {a : A} (h : v[k]? = some a) : k < v.length := by
  by_contra hh; rw [List.getElem?_eq_none (by omega)] at h; cases h

/-- Convex rings, also with vertices in line or repeated: counterclockwise ones are reported as such. -/
theorem C34_convex_left (v : List (Coord K)) (h : ConvexLeft v) : Orientation.isCCW (closed v) = .ok true := by
  have hl : 3 ≤ v.length := by
    obtain ⟨i, j, k, a, b, c, h1, h2, _, _, h3, _⟩ := h.2
    have := getElem?_length h3
    omega
  have hn : 0 < v.length := by omega
  rcases isCCW_closed v hl with ⟨h1, _⟩ | ⟨k, e, ul, uh, dh, dl, b2, b4, b5, b6, b7, b8, b9, hul, hdl, hmax, h13, h14⟩
  · exfalso
    obtain ⟨i, j, k, a, b, c, _, _, ha, hb, hc, hp⟩ := h.2
    have e1 := h1 a (List.mem_of_getElem? ha) b (List.mem_of_getElem? hb)
    have e2 := h1 a (List.mem_of_getElem? ha) c (List.mem_of_getElem? hc)
    unfold det at hp
    rw [← e1, ← e2] at hp
    simp at hp
  · rw [h14]
    congr 1
    rw [decide_eq_true_eq]
    unfold CapLeft
    have hdhy : dh.y = uh.y := by
      by_cases he : e = 1
      · subst he
        rw [b7] at b8; injection b8 with b8; rw [b8]
      · exact h13 (e - 1) (by omega) (by omega) dh (by rw [show k + 1 + (e - 1) = k + e by omega]; exact b8)
    have b6' : v[k % v.length]? = some ul := by rw [Nat.mod_eq_of_lt b2]; exact b6
    split_ifs with hcap
    · have hge : 0 ≤ det ul uh dl ∨ dl = ul := by
        by_cases he : e + 1 = v.length
        · right
          rw [show k + 1 + e = k + v.length by omega, Nat.add_mod_right, b6'] at b9
          injection b9 with b9; exact b9.symm
        · exact Or.inl (convex_cyclic v h k 1 e hn le_rfl b4 (by omega) ul uh dl b6' b7 b9)
      have hge : 0 ≤ det ul uh dl := by
        rcases hge with h | h
        · exact h
        · rw [h]; unfold det; apply le_of_eq; ring
      refine lt_of_le_of_ne hge fun hz => ?_
      -- all vertices are on the line through `ul` and `uh`
      have hline : ∀ m q, v[m % v.length]? = some q → det ul uh q = 0 := by
        intro m q hq
        -- position of `m` after `k`
        obtain ⟨g, hg1, hg2⟩ : ∃ g, g < v.length ∧ (k + g) % v.length = m % v.length := by
          have hm := Nat.mod_lt m hn
          by_cases hkm : k ≤ m % v.length
          · exact ⟨m % v.length - k, by omega, by rw [show k + (m % v.length - k) = m % v.length by omega, Nat.mod_mod]⟩
          · exact ⟨m % v.length + v.length - k, by omega, by
              rw [show k + (m % v.length + v.length - k) = m % v.length + v.length by omega, Nat.add_mod_right, Nat.mod_mod]⟩
        rw [← hg2] at hq
        have q1 : 0 ≤ det ul uh q := by
          by_cases g0 : g = 0
          · subst g0; rw [Nat.add_zero, b6'] at hq; injection hq with hq; rw [← hq]; unfold det; apply le_of_eq; ring
          · by_cases g1 : g = 1
            · subst g1; rw [b7] at hq; injection hq with hq; rw [← hq]; unfold det; apply le_of_eq; ring
            · refine convex_cyclic v h k 1 (g - 1) hn le_rfl (by omega) (by omega) ul uh q b6' b7 ?_
              rw [show k + 1 + (g - 1) = k + g by omega]; exact hq
        have q2 : 0 ≤ det dh dl q := by
          -- from `dh` at `k + e`
          have hdl' : v[(k + e + 1) % v.length]? = some dl := by rw [show k + e + 1 = k + 1 + e by omega]; exact b9
          by_cases ge : g = e
          · subst ge; rw [b8] at hq; injection hq with hq; rw [← hq]; unfold det; apply le_of_eq; ring
          · by_cases ge1 : g = e + 1
            · subst ge1; rw [← Nat.add_assoc, hdl'] at hq; injection hq with hq; rw [← hq]; unfold det; apply le_of_eq; ring
            · by_cases glt : g < e
              · by_cases gw : e + 1 = v.length + g
                · rw [show k + e + 1 = k + g + v.length by omega, Nat.add_mod_right, hq] at hdl'
                  injection hdl' with hdl'; rw [← hdl']; unfold det; apply le_of_eq; ring
                · refine convex_cyclic v h (k + e) 1 (v.length + g - e - 1) hn le_rfl (by omega) (by omega) dh dl q b8 hdl' ?_
                  rw [show k + e + 1 + (v.length + g - e - 1) = k + g + v.length by omega, Nat.add_mod_right]; exact hq
              · refine convex_cyclic v h (k + e) 1 (g - e - 1) hn le_rfl (by omega) (by omega) dh dl q b8 hdl' ?_
                rw [show k + e + 1 + (g - e - 1) = k + g by omega]; exact hq
        have q3 : det dh dl q * (uh.y - ul.y) = - det ul uh q * (uh.y - dl.y) := by
          have hz' : det ul uh dl = 0 := hz.symm
          unfold det at hz' ⊢
          rw [← hcap.1, ← hcap.2]
          linear_combination (uh.y - q.y) * hz'
        nlinarith [mul_nonneg q2 (sub_pos.mpr hul).le, mul_nonneg q1 (sub_pos.mpr hdl).le, sub_pos.mpr hdl]
      obtain ⟨i, j, l, a, b, c, _, _, ha, hb, hc, hp⟩ := h.2
      have la := hline i a (by rw [Nat.mod_eq_of_lt (getElem?_length ha)]; exact ha)
      have lb := hline j b (by rw [Nat.mod_eq_of_lt (getElem?_length hb)]; exact hb)
      have lc := hline l c (by rw [Nat.mod_eq_of_lt (getElem?_length hc)]; exact hc)
      have : det a b c * (uh.y - ul.y) = 0 := by
        unfold det at la lb lc ⊢
        linear_combination (c.y - b.y) * la + (a.y - c.y) * lb + (b.y - a.y) * lc
      rcases mul_eq_zero.mp this with h0 | h0
      · exact hp.ne' h0
      · linarith
    · -- flat top
      have hne : uh.x ≠ dh.x := fun hx => hcap ⟨hx, hdhy.symm⟩
      have he : 2 ≤ e := by
        by_contra hlt
        obtain rfl : e = 1 := by omega
        rw [b7] at b8; injection b8 with b8; exact hne (by rw [b8])
      have hd := convex_cyclic v h k 1 (e - 1) hn le_rfl (by omega) (by omega) ul uh dh b6' b7 (by
        rw [show k + 1 + (e - 1) = k + e by omega]; exact b8)
      refine lt_of_le_of_ne ?_ (Ne.symm hne)
      have : det ul uh dh = (uh.y - ul.y) * (uh.x - dh.x) := by unfold det; rw [hdhy]; ring
      rw [this] at hd
      by_contra hlt; push Not at hlt
      nlinarith [mul_pos (sub_pos.mpr hul) (sub_pos.mpr hlt)]

/-- Clockwise convex rings (the reversed list turns left) are not counterclockwise. -/
theorem C34_convex_right (v : List (Coord K)) (h : ConvexLeft v.reverse) : Orientation.isCCW (closed v) = .ok false := by
  have hl : 3 ≤ v.length := by
    obtain ⟨i, j, k, a, b, c, h1, h2, _, _, h3, _⟩ := h.2
    have := getElem?_length h3
    rw [List.length_reverse] at this
    omega
  have hn : 0 < v.length := by omega
  have hneg : ∀ (i d e : Nat), 1 ≤ d → 1 ≤ e → d + e < v.length → ∀ a b c : Coord K, v[i % v.length]? = some a →
      v[(i + d) % v.length]? = some b → v[(i + d + e) % v.length]? = some c → det a b c ≤ 0 := by
    have base : ∀ (i j k : Nat) (a b c : Coord K), i < j → j < k → v[i]? = some a → v[j]? = some b → v[k]? = some c → det a b c ≤ 0 := by
      intro i j k a b c h1 h2 ha hb hc
      have hk := getElem?_length hc
      have := h.1 (v.length - 1 - k) (v.length - 1 - j) (v.length - 1 - i) c b a (by omega) (by omega)
        (by rw [List.getElem?_reverse (by omega), show v.length - 1 - (v.length - 1 - k) = k by omega]; exact hc)
        (by rw [List.getElem?_reverse (by omega), show v.length - 1 - (v.length - 1 - j) = j by omega]; exact hb)
        (by rw [List.getElem?_reverse (by omega), show v.length - 1 - (v.length - 1 - i) = i by omega]; exact ha)
      have e : det c b a = - det a b c := by unfold det; ring
      rw [e] at this; linarith
    intro i d e hd he hde a b c ha hb hc
    obtain ⟨n, hN⟩ : ∃ n, n = v.length := ⟨_, rfl⟩
    rw [← hN] at hn hde ha hb hc
    have hi := Nat.mod_lt i hn
    have r1 : (i + d) % n = (i % n + d) % n := by rw [Nat.mod_add_mod]
    have r2 : (i + d + e) % n = (i % n + d + e) % n := by rw [Nat.add_assoc, Nat.add_assoc, Nat.mod_add_mod]
    rw [r1] at hb
    rw [r2] at hc
    obtain ⟨j, hj⟩ : ∃ j, j = i % n := ⟨_, rfl⟩
    rw [← hj] at ha hb hc hi
    by_cases c1 : j + d + e < n
    · rw [Nat.mod_eq_of_lt (by omega)] at hb hc
      exact base _ _ _ a b c (by omega) (by omega) ha hb hc
    · by_cases c2 : j + d < n
      · rw [Nat.mod_eq_of_lt c2] at hb
        rw [show j + d + e = n + (j + d + e - n) by omega, Nat.add_mod_left, Nat.mod_eq_of_lt (by omega)] at hc
        rw [← det_cycle, ← det_cycle]
        exact base _ _ _ c a b (by omega) (by omega) hc ha hb
      · rw [show j + d = n + (j + d - n) by omega, Nat.add_mod_left, Nat.mod_eq_of_lt (by omega)] at hb
        rw [show j + d + e = n + (j + d + e - n) by omega, Nat.add_mod_left, Nat.mod_eq_of_lt (by omega)] at hc
        rw [← det_cycle]
        exact base _ _ _ b c a (by omega) (by omega) hb hc ha
  rcases isCCW_closed v hl with ⟨_, h2⟩ | ⟨k, e, ul, uh, dh, dl, b2, b4, b5, b6, b7, b8, b9, hul, hdl, hmax, h13, h14⟩
  · exact h2
  · rw [h14]
    congr 1
    rw [decide_eq_false_iff_not]
    unfold CapLeft
    have b6' : v[k % v.length]? = some ul := by rw [Nat.mod_eq_of_lt b2]; exact b6
    split_ifs with hcap
    · push Not
      by_cases he : e + 1 = v.length
      · rw [show k + 1 + e = k + v.length by omega, Nat.add_mod_right, b6'] at b9
        injection b9 with b9
        rw [← b9]; unfold det; apply le_of_eq; ring
      · exact hneg k 1 e le_rfl b4 (by omega) ul uh dl b6' b7 b9
    · push Not
      by_cases he : e = 1
      · subst he
        rw [b7] at b8; injection b8 with b8; rw [b8]
      · have hdhy : dh.y = uh.y :=
          h13 (e - 1) (by omega) (by omega) dh (by rw [show k + 1 + (e - 1) = k + e by omega]; exact b8)
        have hd := hneg k 1 (e - 1) le_rfl (by omega) (by omega) ul uh dh b6' b7 (by
          rw [show k + 1 + (e - 1) = k + e by omega]; exact b8)
        have : det ul uh dh = (uh.y - ul.y) * (uh.x - dh.x) := by unfold det; rw [hdhy]; ring
        rw [this] at hd
        by_contra hlt; push Not at hlt
        nlinarith [mul_pos (sub_pos.mpr hul) (sub_pos.mpr hlt)]

/-- Triangles: counterclockwise exactly if the vertices turn left. -/
theorem C34_triangle (a b c : Coord K) : Orientation.isCCW [a, b, c, a] = .ok (decide (0 < det a b c)) := by
  have hcl : ∀ u v w : Coord K, closed [u, v, w] = [u, v, w, u] := fun _ _ _ => rfl
  have hconv : ∀ u v w : Coord K, 0 < det u v w → ConvexLeft [u, v, w] := by
    intro u v w h
    refine ⟨?_, 0, 1, 2, u, v, w, by omega, by omega, rfl, rfl, rfl, h⟩
    intro i j k a b c h1 h2 ha hb hc
    have hk := getElem?_length hc
    simp only [List.length_cons, List.length_nil] at hk
    obtain rfl : k = 2 := by omega
    obtain rfl : j = 1 := by omega
    obtain rfl : i = 0 := by omega
    simp at ha hb hc
    subst ha hb hc
    exact h.le
  rcases lt_trichotomy (det a b c) 0 with h | h | h
  · have := C34_convex_right [a, b, c] (by
      rw [show [a, b, c].reverse = [c, b, a] from rfl]
      refine hconv c b a ?_
      have : det c b a = - det a b c := by unfold det; ring
      rw [this]; linarith)
    rw [hcl] at this
    rw [this, decide_eq_false (not_lt.mpr h.le)]
  · rw [decide_eq_false (by rw [h]; exact lt_irrefl _)]
    rcases isCCW_closed [a, b, c] (by simp) with ⟨_, h2⟩ | ⟨k, e, ul, uh, dh, dl, b2, b4, b5, b6, b7, b8, b9, hul, hdl, hmax, h13, h14⟩
    · exact h2
    · rw [← hcl, h14]
      congr 1
      rw [decide_eq_false_iff_not]
      -- collinear: the cap is a spike or the flat top would be in line with a lower point
      have all0 : ∀ p q r : Coord K, p ∈ [a, b, c] → q ∈ [a, b, c] → r ∈ [a, b, c] → det p q r = 0 := by
        intro p q r hp hq hr
        simp only [List.mem_cons, List.not_mem_nil, or_false] at hp hq hr
        have h' := h
        unfold det at h'
        rcases hp with rfl | rfl | rfl <;> rcases hq with rfl | rfl | rfl <;> rcases hr with rfl | rfl | rfl <;> unfold det <;>
          first
          | ring1
          | linear_combination h'
          | linear_combination -h'
      unfold CapLeft
      split_ifs with hcap
      · rw [all0 ul uh dl (List.mem_of_getElem? b6) (List.mem_of_getElem? b7) (List.mem_of_getElem? b9)]; exact lt_irrefl _
      · intro hx
        have hdhy : dh.y = uh.y := by
          by_cases he : e = 1
          · subst he
            rw [b7] at b8; injection b8 with b8; rw [b8]
          · exact h13 (e - 1) (by omega) (by omega) dh (by rw [show k + 1 + (e - 1) = k + e by omega]; exact b8)
        have h0 := all0 ul uh dh (List.mem_of_getElem? b6) (List.mem_of_getElem? b7) (List.mem_of_getElem? b8)
        have : det ul uh dh = (uh.y - ul.y) * (uh.x - dh.x) := by unfold det; rw [hdhy]; ring
        rw [this] at h0
        rcases mul_eq_zero.mp h0 with h0 | h0 <;> linarith
  · have := C34_convex_left [a, b, c] (hconv a b c h)
    rw [hcl] at this
    rw [this, decide_eq_true h]

/-- The sums over a fan of a convex ring. -/
theorem fan_ge (v : List (Coord K)) (p : Coord K) (h : ∀ (i j k : Nat) (a b c : Coord K), i < j → j < k → v[i]? = some a →
    v[j]? = some b → v[k]? = some c → 0 ≤ det a b c) (hp : v[0]? = some p) (i : Nat) (q : Coord K) (hi : 1 ≤ i) (hq : v[i]? = some q)
    (m : Nat) (r : Coord K) (hm : i ≤ m) (hr : v[m]? = some r) :
    det p q r ≤ (((segs v).drop i).take (m - i) |>.map (fun s => det p s.1 s.2)).sum := by
  induction m, hm using Nat.le_induction generalizing r with
  | base =>
    rw [hq] at hr; injection hr with hr; subst hr
    simp [det, mul_comm]
  | succ m hm ih =>
    have hml := getElem?_length hr
    have hsl : m < (segs v).length := by rw [length_segs]; omega
    have ih' := ih v[m] (List.getElem?_eq_getElem (by omega))
    rw [show m + 1 - i = (m - i) + 1 by omega, List.take_add_one, List.getElem?_drop, show i + (m - i) = m by omega,
      List.getElem?_eq_getElem hsl, getElem_segs]
    simp only [Option.toList_some, List.map_append, List.sum_append, List.map_cons, List.map_nil, List.sum_cons, List.sum_nil, add_zero]
    rw [List.getElem?_eq_getElem (by omega)] at hr
    injection hr with hr
    rw [hr]
    have key : det p q v[m] + det p v[m] r = det p q r + det q v[m] r := by unfold det; ring
    have hnn : 0 ≤ det q v[m] r := by
      rcases Nat.lt_or_eq_of_le hm with hlt | heq
      · exact h i m (m + 1) q _ r hlt (by omega) hq (List.getElem?_eq_getElem (by omega)) (by rw [List.getElem?_eq_getElem (by omega), hr])
      · have : q = v[m] := by
          rw [heq, List.getElem?_eq_getElem (by omega)] at hq; injection hq with hq; exact hq.symm
        rw [← this]; unfold det; apply le_of_eq; ring
    linarith

theorem segs_append_single (v : List (Coord K)) : ∀ s ∈ segs v, s ∈ segs (closed v) := by
  intro s hs
  obtain ⟨i, hi, rfl⟩ := List.mem_iff_getElem.mp hs
  rw [List.mem_iff_getElem]
  have hi' := hi
  rw [length_segs] at hi'
  refine ⟨i, by rw [length_segs]; simp [closed]; omega, ?_⟩
  rw [getElem_segs, getElem_segs]
  simp only [closed]
  rw [List.getElem_append_left (by omega), List.getElem_append_left (by omega)]

/-- The fan sum of a convex ring is positive. -/
theorem convex_fan_pos (p : Coord K) (l : List (Coord K)) (h : ConvexLeft (p :: l)) : 0 < ((segs l).map (fun s => det p s.1 s.2)).sum := by
  have hv : ∀ i : Nat, 1 ≤ i → ∀ m, ((segs (p :: l)).drop i).take m = ((segs l).drop (i - 1)).take m := by
    intro i hi m
    cases l with
    | nil => simp
    | cons b l => rw [segs_cons]; obtain ⟨j, rfl⟩ : ∃ j, i = j + 1 := ⟨i - 1, by omega⟩; simp
  have nonneg : ∀ s ∈ segs l, 0 ≤ det p s.1 s.2 := by
    intro s hs
    obtain ⟨i, hi, rfl⟩ := List.mem_iff_getElem.mp hs
    rw [getElem_segs]
    rw [length_segs] at hi
    exact h.1 0 (i + 1) (i + 2) p _ _ (by omega) (by omega) rfl
      (by rw [List.getElem?_cons_succ, List.getElem?_eq_getElem (by omega)])
      (by rw [List.getElem?_cons_succ, List.getElem?_eq_getElem (by omega)])
  obtain ⟨i, j, k, a, b, c, hij, hjk, ha, hb, hc, hp⟩ := h.2
  have split3 : ∀ (L : List K) (u w x : Nat), u ≤ w → w ≤ x → (∀ y ∈ L, 0 ≤ y) →
      ((L.drop u).take (w - u)).sum + ((L.drop w).take (x - w)).sum ≤ L.sum := by
    intro L u w x h1 h2 h3
    have nn : ∀ M : List K, (∀ y ∈ M, y ∈ L) → 0 ≤ M.sum := fun M hM => List.sum_nonneg fun y hy => h3 y (hM y hy)
    have e1 : L = L.take u ++ ((L.drop u).take (w - u) ++ ((L.drop w).take (x - w) ++ L.drop x)) := by
      conv_lhs => rw [← List.take_append_drop u L]
      congr 1
      conv_lhs => rw [← List.take_append_drop (w - u) (L.drop u)]
      congr 1
      rw [List.drop_drop, show u + (w - u) = w by omega]
      conv_lhs => rw [← List.take_append_drop (x - w) (L.drop w)]
      congr 1
      rw [List.drop_drop, show w + (x - w) = x by omega]
    have e2 := congrArg List.sum e1
    rw [List.sum_append, List.sum_append, List.sum_append] at e2
    have n1 := nn (L.take u) (fun y hy => List.mem_of_mem_take hy)
    have n2 := nn (L.drop x) (fun y hy => List.mem_of_mem_drop hy)
    linarith
  have hnn : ∀ y ∈ (segs l).map (fun s => det p s.1 s.2), 0 ≤ y := by
    intro y hy
    obtain ⟨s, hs, rfl⟩ := List.mem_map.mp hy
    exact nonneg s hs
  have hj1 : 1 ≤ j := by omega
  have g2 := fan_ge (p :: l) p h.1 rfl j b hj1 hb k c hjk.le hc
  rw [hv j hj1] at g2
  by_cases hi0 : i = 0
  · subst hi0
    have : a = p := by simpa using ha.symm
    subst this
    have s := split3 ((segs l).map (fun s => det a s.1 s.2)) (j - 1) (j - 1) (k - 1) le_rfl (by omega) hnn
    rw [Nat.sub_self, List.take_zero, List.sum_nil, zero_add, ← List.map_drop, ← List.map_take,
      show k - 1 - (j - 1) = k - j by omega] at s
    linarith
  · have g1 := fan_ge (p :: l) p h.1 rfl i a (by omega) ha j b hij.le hb
    rw [hv i (by omega)] at g1
    have s := split3 ((segs l).map (fun s => det p s.1 s.2)) (i - 1) (j - 1) (k - 1) (by omega) (by omega) hnn
    rw [← List.map_drop, ← List.map_take, ← List.map_drop, ← List.map_take,
      show k - 1 - (j - 1) = k - j by omega, show j - 1 - (i - 1) = j - i by omega] at s
    have hik := h.1 0 i k p a c (by omega) (by omega) rfl ha hc
    have key : det p a b + det p b c = det p a c + det a b c := by unfold det; ring
    linarith

/-- On convex rings the test agrees with the test by area and with the sign of the signed area. -/
theorem C34_area (v : List (Coord K)) (h : ConvexLeft v ∨ ConvexLeft v.reverse) :
    Orientation.isCCW (closed v) = Orientation.isCCWArea (closed v) ∧
    ∃ A, Area.ofRingSigned (closed v) = .ok A ∧ A ≠ 0 ∧ Orientation.isCCW (closed v) = .ok (decide (A < 0)) := by
  have hA : ∀ w : List (Coord K), ConvexLeft w → ∃ A, Area.ofRingSigned (closed w) = .ok A ∧ A < 0 := by
    intro w hw
    cases w with
    | nil => obtain ⟨i, j, k, a, b, c, _, _, ha, _⟩ := hw.2; simp at ha
    | cons p l =>
      refine ⟨_, C33_fan p l, ?_⟩
      have hpos := convex_fan_pos p l hw
      have : ((segs l).map (fun s => -(det p s.1 s.2) / 2)).sum = -((segs l).map (fun s => det p s.1 s.2)).sum / 2 := by
        induction segs l with
        | nil => simp
        | cons s r ih => rw [List.map_cons, List.sum_cons, List.map_cons, List.sum_cons, ih]; ring
      rw [this]; linarith
  have hAll : ∃ A, Area.ofRingSigned (closed v) = .ok A ∧ A ≠ 0 ∧ Orientation.isCCW (closed v) = .ok (decide (A < 0)) := by
    rcases h with h | h
    · obtain ⟨A, h1, h2⟩ := hA v h
      exact ⟨A, h1, h2.ne, by rw [C34_convex_left v h, decide_eq_true h2]⟩
    · obtain ⟨A, h1, h2⟩ := hA v.reverse h
      have e : Area.ofRingSigned (closed v) = .ok (-A) := by
        cases v with
        | nil => obtain ⟨i, j, k, a, b, c, _, _, ha, _⟩ := h.2; simp at ha
        | cons p l =>
          obtain ⟨a', _, s1, s2, _⟩ := C33_reverse (closed (p :: l)) (closed2D_closed _)
          rw [closed_reverse] at s2
          have rot : ∃ j, (l.reverse ++ [p]).rotate j = p :: l.reverse := by
            have : (l.reverse ++ [p]) ~r ([p] ++ l.reverse) := List.isRotated_append
            exact this
          obtain ⟨j, hj⟩ := rot
          rw [← hj, (C33_rotate _ j).1, ← List.reverse_cons, h1] at s2
          injection s2 with s2
          rw [s1, s2, neg_neg]
      exact ⟨-A, e, neg_ne_zero.mpr h2.ne, by
        rw [C34_convex_right v h, decide_eq_false (by linarith)]⟩
  refine ⟨?_, hAll⟩
  obtain ⟨A, h1, _, h3⟩ := hAll
  rw [h3]
  unfold Orientation.isCCWArea
  rw [h1]
  simp [Res.bind_ok]

/-- Rings on one height are not counterclockwise. -/
theorem C34_flat (v : List (Coord K)) (hl : v ≠ []) (h : ∀ a ∈ v, ∀ b ∈ v, a.y = b.y) : Orientation.isCCW (closed v) = .ok false := by
  by_cases h3 : 3 ≤ v.length
  · rcases isCCW_closed v h3 with ⟨_, h2⟩ | ⟨k, e, ul, uh, dh, dl, _, _, _, b6, b7, _, _, hul, _⟩
    · exact h2
    · exact absurd (h ul (List.mem_of_getElem? b6) uh (List.mem_of_getElem? b7)) hul.ne
  · exact (C34_total (closed v)).2.2 (by cases v <;> simp_all [closed]) (by simp [closed]; omega)

section examples
local notation "pt" => fun (x y : ℚ) => (Coord.xy x y : Coord ℚ)

/-- A ring that crosses itself and has two tops: the answer depends on the start. -/
theorem C34_start_matters_with_two_tops :
    Orientation.isCCW (closed [pt 0 0, pt 1 2, pt 2 0, pt 6 0, pt 5 2, pt 4 0]) = .ok true ∧
    Orientation.isCCW (closed ([pt 0 0, pt 1 2, pt 2 0, pt 6 0, pt 5 2, pt 4 0].rotate 3)) = .ok false := by decide +kernel

/-- A ring with a spike at its top is never counterclockwise. -/
theorem C34_spike :
    Orientation.isCCW (closed [pt 0 0, pt 4 0, pt 4 1, pt 2 1, pt 2 5, pt 2 1]) = .ok false ∧
    Orientation.isCCW (closed [pt 0 0, pt 4 0, pt 4 1, pt 2 1, pt 2 5, pt 2 1].reverse) = .ok false := by decide +kernel

example : Top [pt 1 2, pt 0 2] [pt 0 0, pt 5 1] := ⟨by simp, by simp, 2, by simp [Coord.xy], by simp [Coord.xy]⟩
example : ConvexLeft [pt 0 0, pt 4 0, pt 4 3] := by
  refine ⟨?_, 0, 1, 2, _, _, _, by omega, by omega, rfl, rfl, rfl, by simp [det, Coord.xy]⟩
  intro i j k a b c h1 h2 ha hb hc
  have hk := getElem?_length hc
  simp only [List.length_cons, List.length_nil] at hk
  obtain rfl : k = 2 := by omega
  obtain rfl : j = 1 := by omega
  obtain rfl : i = 0 := by omega
  simp at ha hb hc
  subst ha hb hc
  simp [det, Coord.xy]
example : Orientation.isCCW [pt 0 0, pt 4 0, pt 4 3, pt 0 0] = .ok true ∧
    Orientation.isCCW [pt 0 0, pt 4 3, pt 4 0, pt 0 0] = .ok false := by decide +kernel
end examples

end Verif.Props
