import Verif.Props.Area
import Mathlib.Data.Nat.ModEq

set_option linter.unusedSectionVars false

/-! # The ring orientation test: what its scans find -/

namespace Verif.Props
open Flt Verif.Spec

section any
variable {α : Type} [Flt α]

theorem getOrd_asSeq (r : List (Coord α)) (d m : Int) (i : Nat) (h : i < r.length) :
    (⟨d, m, r⟩ : CASeq α).getOrd i 1 = .ok r[i].y := by
  simp [CASeq.getOrd, Res.get_lt h]

/-- What the scan has found after `i` rounds. -/
def ScanInv (r : List (Coord α)) (i : Nat) (st : Orientation.Scan α) : Prop :=
  (∀ q, r[i - 1]? = some q → st.prevY = q.y) ∧
  ((st.iUpHi = 0 ∧ r[0]? = some st.upHi) ∨
   (1 ≤ st.iUpHi ∧ st.iUpHi < i ∧ r[st.iUpHi]? = some st.upHi ∧ r[st.iUpHi - 1]? = some st.upLow ∧
     (st.upLow.y <. st.upHi.y) = true))

theorem scan_any (r : List (Coord α)) (d m : Int) (hl : 0 < r.length)
    (Q : Nat → Orientation.Scan α → Prop) (hQ0 : Q 1 ⟨r[0], r[0].y, Coord.default, 0⟩)
    (hQ : ∀ i st (h : i < r.length), 1 ≤ i → ScanInv r i st → Q i st →
      Q (i + 1) (if (r[i].y >. st.prevY) && (r[i].y ≥. st.upHi.y) then ⟨r[i], r[i].y, r[i - 1], i⟩
        else { st with prevY := r[i].y })) :
    ∃ st, Orientation.scan (⟨d, m, r⟩ : CASeq α) (r.length - 1) = .ok st ∧ ScanInv r r.length st ∧ Q r.length st := by
  unfold Orientation.scan
  simp only [CASeq.getCoordinate]
  rw [Res.get_lt hl]
  simp only [Res.bind_ok, show r.length - 1 + 1 = r.length by omega]
  refine forRange_inv 1 r.length _ (fun i st => ScanInv r i st ∧ Q i st) (by omega) _ ⟨⟨?_, Or.inl ⟨rfl, ?_⟩⟩, hQ0⟩ ?_
  · intro q hq; rw [Nat.sub_self, List.getElem?_eq_getElem hl] at hq; cases hq; rfl
  · exact List.getElem?_eq_getElem hl
  · rintro i st h1 h2 ⟨hs, hq⟩
    have hq' := hQ i st h2 h1 hs hq
    have hprev : st.prevY = r[i - 1].y := hs.1 r[i - 1] (List.getElem?_eq_getElem (by omega))
    rw [getOrd_asSeq r d m i h2]
    simp only [Res.bind_ok]
    by_cases hc : ((r[i].y >. st.prevY) && (r[i].y ≥. st.upHi.y)) = true
    · rw [if_pos hc, Res.get_lt h2, Res.get_lt (by omega : i - 1 < r.length)]
      rw [if_pos hc] at hq'
      refine ⟨_, rfl, ⟨?_, Or.inr ⟨h1, Nat.lt_succ_self i, List.getElem?_eq_getElem h2, List.getElem?_eq_getElem (show i - 1 < r.length by omega), ?_⟩⟩, hq'⟩
      · intro q hq; rw [Nat.add_sub_cancel, List.getElem?_eq_getElem h2] at hq; cases hq; rfl
      · rw [Bool.and_eq_true] at hc
        have := hc.1
        rw [hprev] at this
        exact this
    · rw [if_neg hc]
      rw [if_neg hc] at hq'
      refine ⟨_, rfl, ⟨?_, ?_⟩, hq'⟩
      · intro q hq; rw [Nat.add_sub_cancel, List.getElem?_eq_getElem h2] at hq; cases hq; rfl
      · rcases hs.2 with h | ⟨a, b, c⟩
        · exact Or.inl h
        · exact Or.inr ⟨a, Nat.lt_succ_of_lt b, c⟩

/-- The search stops at the first index that is the start or has another height. -/
theorem findDown_any (r : List (Coord α)) (d m : Int) (n : Nat) (hn : 0 < n) (hl : n ≤ r.length) (hiY : α) (u : Nat)
    (stop : Nat → Prop) (hstop : ∀ i (h : i < n), stop i ↔ (i = u ∨ (r[i].y ==. hiY) = false)) :
    ∀ fuel i k, 1 ≤ k → k ≤ fuel → stop ((i + k) % n) →
      ∃ e, 1 ≤ e ∧ e ≤ k ∧ Orientation.findDown (⟨d, m, r⟩ : CASeq α) n hiY u fuel i = .ok ((i + e) % n) ∧
        stop ((i + e) % n) ∧ ∀ f, 1 ≤ f → f < e → ¬ stop ((i + f) % n) := by
  intro fuel
  induction fuel with
  | zero => intro i k h1 h2; omega
  | succ fuel ih =>
    intro i k h1 h2 hk
    have hi : (i + 1) % n < n := Nat.mod_lt _ hn
    by_cases hs : stop ((i + 1) % n)
    · refine ⟨1, le_rfl, h1, ?_, hs, fun f hf hf' => by omega⟩
      rcases (hstop _ hi).mp hs with h | h
      · simp only [Orientation.findDown, if_pos h]; rfl
      · simp only [Orientation.findDown]
        split_ifs with hu
        · rfl
        · rw [getOrd_asSeq r d m _ (by omega)]
          simp only [Res.bind_ok, h, Bool.false_eq_true, if_false]; rfl
    · have hk1 : k ≠ 1 := by rintro rfl; exact hs hk
      have hmod : ∀ f, ((i + 1) % n + f) % n = (i + (f + 1)) % n := by
        intro f; rw [Nat.mod_add_mod]; congr 1; omega
      obtain ⟨e, e1, e2, e3, e4, e5⟩ := ih ((i + 1) % n) (k - 1) (by omega) (by omega) (by
        rw [hmod, show k - 1 + 1 = k by omega]; exact hk)
      refine ⟨e + 1, by omega, by omega, ?_, by rw [← hmod]; exact e4, ?_⟩
      · have hs' := mt (hstop _ hi).mpr hs
        push Not at hs'
        simp only [Orientation.findDown, if_neg hs'.1]
        rw [getOrd_asSeq r d m _ (by omega)]
        have : (r[(i + 1) % n].y ==. hiY) = true := by
          cases hh : (r[(i + 1) % n].y ==. hiY)
          · exact absurd hh hs'.2
          · rfl
        simp only [Res.bind_ok, this, if_true]
        rw [e3, hmod]
      · intro f f1 f2
        by_cases hf : f = 1
        · rw [hf]; exact hs
        · have := e5 (f - 1) (by omega) (by omega)
          rw [hmod, show f - 1 + 1 = f by omega] at this
          exact this

theorem prev_mod (m n : Nat) (hn : 0 < n) :
    (if (m + 1) % n > 0 then (m + 1) % n - 1 else n - 1) = m % n := by
  have h := Nat.mod_lt m hn
  by_cases hc : m % n + 1 = n
  · have : (m + 1) % n = 0 := by rw [Nat.add_mod, ← Nat.add_mod_mod]; simp [hc]
    simp only [this]; split_ifs <;> omega
  · have : (m + 1) % n = m % n + 1 := by
      rw [← Nat.mod_add_mod]; exact Nat.mod_eq_of_lt (by omega)
    rw [this]; split_ifs <;> omega

/-- The answer for the two segments that bound the cap. -/
def capAnswer (ul uh dh dl : Coord α) : Bool :=
  if uh.equals2D dh then
    if ul.equals2D uh || dl.equals2D uh || ul.equals2D dl then false
    else decide (Orientation.index ul uh dl = Orientation.COUNTERCLOCKWISE)
  else (dh.x -. uh.x) <. lit 0

variable [FltOrd α]

/-- Rings of more than three points: either no segment rises to the height of the first point, and the answer is `false`, or the
answer is that of a cap: `ul → uh` rises, from `uh` the ring stays on its height up to `dh`, and then leaves it to `dl`. -/
theorem isCCW_any (r : List (Coord α)) (d m : Int) (hl : 4 ≤ r.length)
    (Q : Nat → Orientation.Scan α → Prop) (hQ0 : Q 1 ⟨r[0], r[0].y, Coord.default, 0⟩)
    (hQ : ∀ i st (h : i < r.length), 1 ≤ i → ScanInv r i st → Q i st →
      Q (i + 1) (if (r[i].y >. st.prevY) && (r[i].y ≥. st.upHi.y) then ⟨r[i], r[i].y, r[i - 1], i⟩
        else { st with prevY := r[i].y })) :
    ∃ st, ScanInv r r.length st ∧ Q r.length st ∧
      ((st.iUpHi = 0 ∧ Orientation.isCCWSeq (⟨d, m, r⟩ : CASeq α) = .ok false) ∨
       ∃ k n e ul uh dh dl, n + 1 = r.length ∧ k < n ∧ st.iUpHi = k + 1 ∧ 1 ≤ e ∧ e < n ∧
        r[k]? = some ul ∧ r[k + 1]? = some uh ∧ r[(k + e) % n]? = some dh ∧ r[(k + 1 + e) % n]? = some dl ∧
        (ul.y <. uh.y) = true ∧ st.upHi = uh ∧ (dl.y ==. uh.y) = false ∧
        (∀ f, 1 ≤ f → f < e → ∀ q, r[(k + 1 + f) % n]? = some q → (q.y ==. uh.y) = true) ∧
        Orientation.isCCWSeq (⟨d, m, r⟩ : CASeq α) = .ok (capAnswer ul uh dh dl)) := by
  obtain ⟨st, e, hs, hq⟩ := scan_any r d m (by omega) Q hQ0 hQ
  refine ⟨st, hs, hq, ?_⟩
  have hsz : Res.sub (⟨d, m, r⟩ : CASeq α).size 1 = .ok (r.length - 1) := by
    exact if_pos (show 1 ≤ r.length by omega)
  rcases hs.2 with ⟨h0, _⟩ | ⟨h1, h2, h3, h4, h5⟩
  · refine Or.inl ⟨h0, ?_⟩
    unfold Orientation.isCCWSeq
    rw [hsz]
    simp only [Res.bind_ok]
    rw [if_neg (by omega), e]
    simp only [Res.bind_ok, if_pos h0]; rfl
  · refine Or.inr ?_
    obtain ⟨n, hn⟩ : ∃ n, n + 1 = r.length := ⟨r.length - 1, by omega⟩
    obtain ⟨k, hk⟩ : ∃ k, st.iUpHi = k + 1 := ⟨st.iUpHi - 1, by omega⟩
    have hk1 : k + 1 < r.length := by omega
    have hkn : k < n := by omega
    have hnn : 0 < n := by omega
    rw [hk, List.getElem?_eq_getElem hk1] at h3
    rw [hk, Nat.add_sub_cancel, List.getElem?_eq_getElem (by omega : k < r.length)] at h4
    have e3 : r[k + 1] = st.upHi := by injection h3
    have e4 : r[k] = st.upLow := by injection h4
    obtain ⟨w, w1, w2, w3, w4, w5⟩ := findDown_any r d m n hnn (by omega) st.upHi.y (k + 1)
      (fun i => i = k + 1 ∨ ∀ q, r[i]? = some q → (q.y ==. st.upHi.y) = false) (by
        intro i hi
        constructor
        · rintro (h | h)
          · exact Or.inl h
          · exact Or.inr (h _ (List.getElem?_eq_getElem (by omega)))
        · rintro (h | h)
          · exact Or.inl h
          · refine Or.inr fun q hq => ?_
            rw [List.getElem?_eq_getElem (by omega)] at hq; cases hq; exact h) (n + 1) (k + 1) (n - 1) (by omega) (by omega) (by
        have : (k + 1 + (n - 1)) % n = k := by
          rw [show k + 1 + (n - 1) = k + n by omega, Nat.add_mod_right, Nat.mod_eq_of_lt hkn]
        rw [this]
        refine Or.inr fun q hq => ?_
        rw [List.getElem?_eq_getElem (by omega)] at hq; cases hq
        rw [e4]
        simp only [lt_eq] at h5
        simp only [eq_eq]
        grind)
    have hne : ∀ f, 1 ≤ f → f ≤ w → (k + 1 + f) % n ≠ k + 1 := by
      intro f f1 f2 hh
      have : (k + 1 + f) % n < n := Nat.mod_lt _ hnn
      have hk2 : k + 1 < n := by omega
      have : (k + 1 + f) % n = (k + 1) % n := by rw [hh, Nat.mod_eq_of_lt hk2]
      have h6 : f ≡ 0 [MOD n] := Nat.ModEq.add_left_cancel' (k + 1) (by simpa [Nat.ModEq] using this)
      have h7 : f % n = 0 % n := h6
      rw [Nat.mod_eq_of_lt (by omega), Nat.zero_mod] at h7; omega
    have ew : r.length - 1 = n := by omega
    have hlt := Nat.mod_lt (k + 1 + w) hnn
    have hlt2 := Nat.mod_lt (k + w) hnn
    refine ⟨k, n, w, r[k], r[k + 1], r[(k + w) % n], r[(k + 1 + w) % n], hn, hkn, hk, w1, by omega,
      List.getElem?_eq_getElem _, List.getElem?_eq_getElem _, List.getElem?_eq_getElem _, List.getElem?_eq_getElem _,
      by rw [e3, e4]; exact h5, e3.symm, ?_, ?_, ?_⟩
    · rcases w4 with h | h
      · exact absurd h (hne w w1 le_rfl)
      · rw [e3]; exact h _ (List.getElem?_eq_getElem _)
    · intro f f1 f2 q hq
      have := w5 f f1 f2
      push Not at this
      obtain ⟨_, q', hq', h6⟩ := this
      rw [hq] at hq'; cases hq'
      rw [e3]
      cases hh : (q.y ==. st.upHi.y)
      · exact absurd hh h6
      · rfl
    · unfold Orientation.isCCWSeq
      rw [hsz]
      simp only [Res.bind_ok]
      rw [if_neg (by omega), e]
      simp only [Res.bind_ok, hk]
      rw [if_neg (by omega), ew, w3]
      simp only [Res.bind_ok, CASeq.getCoordinate]
      rw [Res.get_lt (by omega : (k + 1 + w) % n < r.length)]
      simp only [Res.bind_ok]
      have hp := prev_mod (k + w) n hnn
      rw [show k + w + 1 = k + 1 + w by omega] at hp
      rw [hp, Res.get_lt (by omega : (k + w) % n < r.length)]
      simp only [Res.bind_ok]
      rw [← e3, ← e4]
      unfold capAnswer
      split_ifs <;> rfl

end any
end Verif.Props
