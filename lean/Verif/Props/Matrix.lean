import Verif.Model.Matrix
import Verif.Lemmas.Loop
import Verif.Lemmas.Ext
import Mathlib.Tactic.NormNum
import Mathlib.Tactic.Linarith

set_option linter.unusedSectionVars false

/-! # C53: the linear solver

The statement is false for the code: `solve` never returns a solution (`C53_never_solves`), and panics for every regular system
(`C53_regular_panics`). What holds is that `None` is only returned for systems that are of a wrong shape or have no unique solution. -/

namespace Verif.Props
open Flt Verif.Matrix

section any
variable {α : Type} [Flt α]

/-- The back substitution never ends well. -/
theorem backSubst_fails (a : List (List α)) (b : List α) (n j : Nat) (sol x : List α) : backSubst a b n j sol ≠ .ok x := by
  induction j generalizing sol with
  | zero =>
    unfold backSubst
    intro h
    cases h1 : (forRange (0 + 1) n (lit 0) (fun k t => do .ok (t +. (← at2 a 0 k) *. (← Res.get sol k))) : Res α) with
    | error e => rw [h1] at h; cases h
    | ok t =>
      rw [h1] at h
      cases h2 : (Res.get b 0) with
      | error e => simp only [Res.bind_ok, h2, Res.bind_error] at h; cases h
      | ok b0 =>
        cases h3 : at2 a 0 0 with
        | error e => simp only [Res.bind_ok, h2, h3, Res.bind_error] at h; cases h
        | ok a0 =>
          cases h4 : Res.set sol 0 ((b0 -. t) /. a0) with
          | error e => simp only [Res.bind_ok, h2, h3, h4, Res.bind_error] at h; cases h
          | ok s => simp only [Res.bind_ok, h2, h3, h4] at h; cases h
  | succ j ih =>
    unfold backSubst
    intro h
    cases h1 : (forRange (j + 1 + 1) n (lit 0) (fun k t => do .ok (t +. (← at2 a (j + 1) k) *. (← Res.get sol k))) : Res α) with
    | error e => rw [h1] at h; cases h
    | ok t =>
      rw [h1] at h
      cases h2 : (Res.get b (j + 1)) with
      | error e => simp only [Res.bind_ok, h2, Res.bind_error] at h; cases h
      | ok b0 =>
        cases h3 : at2 a (j + 1) (j + 1) with
        | error e => simp only [Res.bind_ok, h2, h3, Res.bind_error] at h; cases h
        | ok a0 =>
          cases h4 : Res.set sol (j + 1) ((b0 -. t) /. a0) with
          | error e => simp only [Res.bind_ok, h2, h3, h4, Res.bind_error] at h; cases h
          | ok s => simp only [Res.bind_ok, h2, h3, h4] at h; exact ih s h

theorem solve_ok (a : List (List α)) (b : List α) (o : Option (List α)) :
    solve a b = .ok o ↔ ∃ s, solveInPlace a b = .ok (o, s) := by
  unfold solve
  cases h : solveInPlace a b with
  | error e => simp
  | ok r =>
    obtain ⟨o', s⟩ := r
    simp

/-- `solve` never returns a solution, whatever the numbers. -/
theorem C53_never_solves (a : List (List α)) (b x : List α) : solve a b ≠ .ok (some x) := by
  intro h
  obtain ⟨s', h⟩ := (solve_ok a b _).mp h
  unfold solveInPlace at h
  dsimp only at h
  split_ifs at h with h1
  · cases h
  cases h2 : Res.get a 0 with
  | error e => rw [h2] at h; cases h
  | ok r =>
    rw [h2, Res.bind_ok] at h
    split_ifs at h with h3
    · cases h
    cases h4 : stages b.length b.length 0 (a, b) with
    | error e => rw [h4] at h; cases h
    | ok o =>
      rw [h4, Res.bind_ok] at h
      match o, h with
      | (false, s), h => cases h
      | (true, s), h =>
        unfold finish at h
        dsimp only at h
        cases h5 : Res.sub b.length 1 with
        | error e => rw [h5] at h; cases h
        | ok j =>
          rw [h5, Res.bind_ok] at h
          cases h6 : backSubst s.1 s.2 b.length j (List.replicate b.length nan) with
          | error e => rw [h6] at h; cases h
          | ok x' => exact backSubst_fails _ _ _ _ _ _ h6

/-- Systems of a wrong shape are reported: the number of rows or the length of the first row is not the number of right sides. Other
rows are not looked at, and the system with no rows panics (`C53_no_rows_panics`). -/
theorem C53_shape_partial (a : List (List α)) (b : List α)
    (h : a.length ≠ b.length ∨ ∃ r rs, a = r :: rs ∧ r.length ≠ b.length) : solve a b = .ok none := by
  rw [solve_ok]
  refine ⟨(a, b), ?_⟩
  unfold solveInPlace
  dsimp only
  by_cases h1 : a.length ≠ b.length
  · rw [if_pos h1]
  · rw [if_neg h1]
    obtain ⟨r, rs, rfl, hr⟩ := h.resolve_left h1
    rw [Res.get_lt (by simp), Res.bind_ok]
    exact if_pos hr

/-- The system with no rows and no right sides panics. -/
theorem C53_no_rows_panics : solve ([] : List (List α)) ([] : List α) = .error .index := rfl

/-- The elimination with the first row never ends well. -/
theorem elimRow_fails (j : Nat) (f : α) (k : Nat) (a a' : List (List α)) : elimRow 0 j f k a ≠ .ok a' := by
  induction k generalizing a with
  | zero =>
    unfold elimRow
    rw [if_pos (Nat.le_refl 0)]
    intro h
    cases h1 : at2 a j 0 with
    | error e => rw [h1] at h; cases h
    | ok u =>
      cases h2 : at2 a 0 0 with
      | error e => simp only [h1, h2, Res.bind_ok, Res.bind_error] at h; cases h
      | ok v =>
        cases h3 : set2 a j 0 (u -. v *. f) with
        | error e => simp only [h1, h2, h3, Res.bind_ok, Res.bind_error] at h; cases h
        | ok w => simp only [h1, h2, h3, Res.bind_ok] at h; cases h
  | succ k ih =>
    unfold elimRow
    rw [if_pos (Nat.zero_le _)]
    intro h
    cases h1 : at2 a j (k + 1) with
    | error e => rw [h1] at h; cases h
    | ok u =>
      cases h2 : at2 a 0 (k + 1) with
      | error e => simp only [h1, h2, Res.bind_ok, Res.bind_error] at h; cases h
      | ok v =>
        cases h3 : set2 a j (k + 1) (u -. v *. f) with
        | error e => simp only [h1, h2, h3, Res.bind_ok, Res.bind_error] at h; cases h
        | ok w => simp only [h1, h2, h3, Res.bind_ok] at h; exact ih w h

theorem elimStep_fails (n j : Nat) (s s' : List (List α) × List α) : elimStep n 0 j s ≠ .ok s' := by
  unfold elimStep
  intro h
  cases h1 : at2 s.1 j 0 with
  | error e => rw [h1] at h; cases h
  | ok u =>
    cases h2 : at2 s.1 0 0 with
    | error e => simp only [h1, h2, Res.bind_ok, Res.bind_error] at h; cases h
    | ok v =>
      cases h3 : Res.sub n 1 with
      | error e => simp only [h1, h2, h3, Res.bind_ok, Res.bind_error] at h; cases h
      | ok k =>
        cases h4 : elimRow 0 j (u /. v) k s.1 with
        | error e => simp only [h1, h2, h3, h4, Res.bind_ok, Res.bind_error] at h; cases h
        | ok w => exact elimRow_fails _ _ _ _ _ h4

/-- With two rows or more the first stage never ends well. -/
theorem stage_zero_fails (n : Nat) (hn : 2 ≤ n) (s s' : List (List α) × List α) : stage n 0 s ≠ .ok (some s') := by
  unfold stage
  intro h
  cases h1 : pivotRow s.1 n 0 with
  | error e => rw [h1] at h; cases h
  | ok best =>
    rw [h1, Res.bind_ok] at h
    cases h2 : at2 s.1 best 0 with
    | error e => rw [h2] at h; cases h
    | ok p =>
      rw [h2, Res.bind_ok] at h
      split_ifs at h with h3
      · cases h
      cases h4 : swapRows2 s.1 0 best with
      | error e => rw [h4] at h; cases h
      | ok a =>
        rw [h4, Res.bind_ok] at h
        cases h5 : swapRows1 s.2 0 best with
        | error e => rw [h5] at h; cases h
        | ok b =>
          rw [h5, Res.bind_ok, forRange_first _ _ (by omega)] at h
          cases h6 : elimStep n 0 (0 + 1) (a, b) with
          | error e => rw [h6] at h; cases h
          | ok s'' => exact elimStep_fails _ _ _ _ h6

/-- After `None` both arguments hold what they held before, whatever the numbers and the shape. -/
theorem C53_none_keeps_arguments (a a' : List (List α)) (b b' : List α) (h : solveInPlace a b = .ok (none, a', b')) :
    a' = a ∧ b' = b := by
  unfold solveInPlace at h
  dsimp only at h
  split_ifs at h with h1
  · cases h; exact ⟨rfl, rfl⟩
  cases h2 : Res.get a 0 with
  | error e => rw [h2] at h; cases h
  | ok r =>
    rw [h2, Res.bind_ok] at h
    split_ifs at h with h3
    · cases h; exact ⟨rfl, rfl⟩
    cases h4 : stages b.length b.length 0 (a, b) with
    | error e => rw [h4] at h; cases h
    | ok o =>
      rw [h4, Res.bind_ok] at h
      match o, h with
      | (true, s), h =>
        unfold finish at h
        dsimp only at h
        cases h5 : Res.sub b.length 1 with
        | error e => rw [h5] at h; cases h
        | ok j =>
          rw [h5, Res.bind_ok] at h
          cases h6 : backSubst s.1 s.2 b.length j (List.replicate b.length nan) with
          | error e => rw [h6] at h; cases h
          | ok x' => rw [h6] at h; cases h
      | (false, s), h =>
        cases h
        obtain hn | ⟨n, hn⟩ : b.length = 0 ∨ ∃ n, b.length = n + 1 := by
          cases b.length with
          | zero => exact .inl rfl
          | succ n => exact .inr ⟨n, rfl⟩
        · rw [show stages b.length b.length 0 (a, b) = stages b.length 0 0 (a, b) by rw [hn]] at h4
          unfold stages at h4
          cases h4
        · rw [show stages b.length b.length 0 (a, b) = stages b.length (n + 1) 0 (a, b) by rw [hn]] at h4
          unfold stages at h4
          cases hq : stage b.length 0 (a, b) with
          | error e => rw [hq] at h4; cases h4
          | ok o =>
            cases o with
            | none => rw [hq] at h4; cases h4; exact ⟨rfl, rfl⟩
            | some s =>
              exfalso
              by_cases h2n : 2 ≤ b.length
              · exact stage_zero_fails _ h2n _ _ hq
              · obtain rfl : n = 0 := by omega
                rw [hq] at h4
                cases h4

/-- Rows are exchanged, nothing else changes. -/
theorem C53_swap_rows (m : List (List α)) (c i j : Nat) (hm : ∀ r ∈ m, r.length = c) (hi : i < m.length) (hj : j < m.length) :
    swapRows2 m i j = .ok ((m.set i m[j]).set j m[i]) := by
  unfold swapRows2
  by_cases hij : i = j
  · subst hij
    rw [if_pos rfl]
    simp
  rw [if_neg hij, Res.get_lt (by omega), Res.bind_ok, hm _ (List.getElem_mem _)]
  have lu : m[i].length = c := hm _ (List.getElem_mem _)
  have lv : m[j].length = c := hm _ (List.getElem_mem _)
  obtain ⟨u, hu⟩ : ∃ u, u = m[i] := ⟨_, rfl⟩
  obtain ⟨v, hv⟩ : ∃ v, v = m[j] := ⟨_, rfl⟩
  have m0 : (m.set i u).set j v = m := by rw [hu, hv]; simp
  rw [← hu, ← hv]
  rw [← hu] at lu
  rw [← hv] at lv
  have key := forRange_closed 0 c (fun col (m : List (List α)) => do
      let temp ← at2 m i col
      let m ← set2 m i col (← at2 m j col)
      set2 m j col temp)
    (fun k => (m.set i (v.take k ++ u.drop k)).set j (u.take k ++ v.drop k)) (Nat.zero_le _) (by
      intro k _ hk
      have g : ∀ (u v : List α) (hu : u.length = c), v.length = c →
          ((u.take k ++ v.drop k).set k (u[k]'(by omega))) = u.take (k + 1) ++ v.drop (k + 1) := by
        intro u v hu hv
        rw [List.set_append_right _ _ (by simp), List.length_take, Nat.min_eq_left (by omega), Nat.sub_self,
          List.drop_eq_getElem_cons (by omega), List.set_cons_zero, List.take_succ_eq_append_getElem (by omega)]
        simp only [List.append_assoc, List.singleton_append]
      have gi : Res.get ((m.set i (v.take k ++ u.drop k)).set j (u.take k ++ v.drop k)) i = .ok (v.take k ++ u.drop k) := by
        rw [Res.get_eq_ok]; simp [Ne.symm hij, hi]
      have gj : ∀ w, Res.get ((m.set i w).set j (u.take k ++ v.drop k)) j = .ok (u.take k ++ v.drop k) := by
        intro w; rw [Res.get_eq_ok]; simp [hj]
      have e1 : Res.get (v.take k ++ u.drop k) k = .ok (u[k]'(by omega)) := by
        rw [Res.get_eq_ok, List.getElem?_append_right (by simp)]; simp [lv, lu, hk, Nat.min_eq_left hk.le]
      have e2 : Res.get (u.take k ++ v.drop k) k = .ok (v[k]'(by omega)) := by
        rw [Res.get_eq_ok, List.getElem?_append_right (by simp)]; simp [lv, lu, hk, Nat.min_eq_left hk.le]
      have hl1 : k < (v.take k ++ u.drop k).length := by simp [lu, lv]; omega
      have hl2 : k < (u.take k ++ v.drop k).length := by simp [lu, lv]; omega
      have s1 : Res.set (v.take k ++ u.drop k) k (v[k]'(by omega)) = .ok (v.take (k + 1) ++ u.drop (k + 1)) := by
        rw [Res.set_lt hl1, g v u lv lu]
      have s2 : Res.set (u.take k ++ v.drop k) k (u[k]'(by omega)) = .ok (u.take (k + 1) ++ v.drop (k + 1)) := by
        rw [Res.set_lt hl2, g u v lu lv]
      have s3 : ∀ w w' w'', Res.set ((m.set i w).set j w') i w'' = .ok ((m.set i w'').set j w') := by
        intro w w' w''
        rw [Res.set_lt (by simpa using hi), List.set_comm _ _ (Ne.symm hij)]; simp
      have s4 : ∀ w w' w'', Res.set ((m.set i w).set j w') j w'' = .ok ((m.set i w).set j w'') := by
        intro w w' w''
        rw [Res.set_lt (by simpa using hj)]; simp
      simp only [at2, set2, gi, gj, e1, e2, s1, s2, s3, s4, Res.bind_ok])
  simp only [List.take_zero, List.drop_zero, List.nil_append, m0] at key
  rw [key]
  congr 3
  · rw [List.take_of_length_le (by omega), List.drop_eq_nil_of_le (by omega)]; simp
  · rw [List.take_of_length_le (by omega), List.drop_eq_nil_of_le (by omega)]; simp

/-- Right sides are exchanged, nothing else changes. -/
theorem C53_swap_right_sides (m : List α) (i j : Nat) (hi : i < m.length) (hj : j < m.length) :
    swapRows1 m i j = .ok ((m.set i m[j]).set j m[i]) := by
  unfold swapRows1
  by_cases hij : i = j
  · subst hij; rw [if_pos rfl]; simp
  · rw [if_neg hij, Res.get_lt hi, Res.get_lt hj]
    simp only [Res.bind_ok]
    rw [Res.set_lt hi, Res.bind_ok, Res.set_lt (by simpa using hj)]

end any

section exact
variable {K : Type} [Field K] [LinearOrder K] [IsStrictOrderedRing K]

attribute [local instance] exactFlt

/-- A square system of `n` equations. -/
def Square (a : List (List K)) (b : List K) : Prop := a.length = b.length ∧ ∀ r ∈ a, r.length = b.length

/-- `x` solves the system: every row times `x` is the right side. -/
def Solves (a : List (List K)) (b x : List K) : Prop :=
  x.length = b.length ∧ a.map (fun r => (List.zipWith (· * ·) r x).sum) = b

/-- The pivot has the greatest size in the column. -/
theorem pivot_max (a : List (List K)) (n : Nat) (hn : 0 < n) (hl : a.length = n) (hr : ∀ r ∈ a, 0 < r.length) :
    ∃ best p, pivotRow a n 0 = .ok best ∧ at2 a best 0 = .ok p ∧ ∀ r ∈ a, ∀ v, r[0]? = some v → |v| ≤ |p| := by
  have hget : ∀ k, k < n → ∃ v, at2 a k 0 = .ok v ∧ ∀ h : k < a.length, (a[k])[0]? = some v := by
    intro k hk
    have h1 : k < a.length := by omega
    have h2 := hr _ (List.getElem_mem h1)
    exact ⟨(a[k])[0], by simp [at2, h1, h2], fun h => by simp [h2]⟩
  obtain ⟨best, e, hb, p, hp, hmax⟩ := forRange_inv 1 n (fun j best => do
      if Flt.abs (← at2 a j 0) >. Flt.abs (← at2 a best 0) then .ok j else .ok best : Nat → Nat → Res Nat)
    (fun j best => best < n ∧ ∃ p, at2 a best 0 = .ok p ∧ ∀ k, k < j → ∀ v, at2 a k 0 = .ok v → |v| ≤ |p|) (by omega) 0
    (by
      obtain ⟨v, hv, _⟩ := hget 0 hn
      refine ⟨hn, v, hv, fun k hk w hw => ?_⟩
      obtain rfl : k = 0 := by omega
      rw [hv] at hw; cases hw; exact le_refl _)
    (by
      rintro j best h1 h2 ⟨hb, p, hp, hmax⟩
      obtain ⟨v, hv, _⟩ := hget j h2
      simp only [hv, hp, Res.bind_ok]
      by_cases hc : (Flt.abs v >. Flt.abs p) = true
      · rw [if_pos hc]
        simp only [exact_abs, ← abs_eq_max_neg, exact_lt, decide_eq_true_eq] at hc
        refine ⟨j, rfl, h2, v, hv, fun k hk w hw => ?_⟩
        rcases Nat.lt_succ_iff_lt_or_eq.mp hk with hk | rfl
        · exact le_trans (hmax k hk w hw) hc.le
        · rw [hv] at hw; cases hw; exact le_refl _
      · rw [if_neg hc]
        simp only [exact_abs, ← abs_eq_max_neg, exact_lt, decide_eq_true_eq, not_lt] at hc
        refine ⟨best, rfl, hb, p, hp, fun k hk w hw => ?_⟩
        rcases Nat.lt_succ_iff_lt_or_eq.mp hk with hk | rfl
        · exact hmax k hk w hw
        · rw [hv] at hw; cases hw; exact hc)
  refine ⟨best, p, e, hp, fun r hrm v hv => ?_⟩
  obtain ⟨k, hk, rfl⟩ := List.getElem_of_mem hrm
  obtain ⟨w, hw, hw'⟩ := hget k (by omega)
  have := hw' hk
  rw [hv] at this; cases this
  exact hmax k (by omega) v hw

/-- For square systems with at least one row: `None` is returned exactly if the first column is zero, every other system panics. -/
theorem C53_answer (a : List (List K)) (b : List K) (h : Square a b) (hb : b ≠ []) :
    (solve a b = .ok none ↔ ∀ r ∈ a, r[0]? = some 0) ∧ (solve a b ≠ .ok none → ∃ e, solve a b = .error e) := by
  refine ⟨?_, fun hne => ?_⟩
  · have hn : 0 < b.length := List.length_pos_iff.mpr hb
    obtain ⟨n, hn'⟩ : ∃ n, b.length = n + 1 := ⟨b.length - 1, by omega⟩
    obtain ⟨best, p, h1, h2, h3⟩ := pivot_max a b.length hn h.1 (fun r hr => by rw [h.2 r hr]; exact hn)
    have hp : p = 0 ↔ ∀ r ∈ a, r[0]? = some 0 := by
      constructor
      · rintro rfl r hr
        have hl : 0 < r.length := by rw [h.2 r hr]; exact hn
        have := h3 r hr (r[0]) (by simp [hl])
        rw [abs_zero] at this
        rw [List.getElem?_eq_getElem hl, abs_nonpos_iff.mp this]
      · intro hz
        unfold at2 at h2
        cases hg : Res.get a best with
        | error e => rw [hg] at h2; cases h2
        | ok r =>
          rw [hg, Res.bind_ok, Res.get_eq_ok] at h2
          rw [Res.get_eq_ok] at hg
          have := hz r (List.mem_of_getElem? hg)
          rw [this] at h2; cases h2; rfl
    rw [← hp]
    have hs : ∀ s, stage b.length 0 (a, b) = .ok s → (s = none ↔ p = 0) := by
      intro s hs
      unfold stage at hs
      dsimp only at hs
      rw [h1, Res.bind_ok, h2, Res.bind_ok] at hs
      by_cases hc : p = 0
      · rw [if_pos (by simpa using hc)] at hs
        cases hs; simp [hc]
      · rw [if_neg (by simpa using hc)] at hs
        simp only [hc, iff_false]
        rintro rfl
        cases h4 : swapRows2 a 0 best with
        | error e => rw [h4] at hs; cases hs
        | ok a' =>
          rw [h4, Res.bind_ok] at hs
          cases h5 : swapRows1 b 0 best with
          | error e => rw [h5] at hs; cases hs
          | ok b' =>
            rw [h5, Res.bind_ok] at hs
            cases h6 : forRange (0 + 1) b.length (a', b') (elimStep b.length 0) with
            | error e => rw [h6] at hs; cases hs
            | ok s' => rw [h6] at hs; cases hs
    have hs0 : p = 0 → stage b.length 0 (a, b) = .ok none := by
      intro hc
      unfold stage
      dsimp only
      rw [h1, Res.bind_ok, h2, Res.bind_ok, if_pos (by simpa using hc)]
    have hsolve : solveInPlace a b = (do finish b.length (← stages b.length b.length 0 (a, b))) := by
      unfold solveInPlace
      dsimp only
      rw [if_neg (by simp [h.1]), Res.get_lt (by rw [h.1]; exact hn), Res.bind_ok, if_neg (by simp [h.2 _ (List.getElem_mem _)])]
    rw [solve_ok]
    constructor
    · rintro ⟨s', hk⟩
      rw [hsolve] at hk
      have hst : ∃ s, stages b.length b.length 0 (a, b) = .ok (false, s) := by
        cases hq : stages b.length b.length 0 (a, b) with
        | error e => rw [hq] at hk; cases hk
        | ok o =>
          match o, hq with
          | (false, s), _ => exact ⟨s, rfl⟩
          | (true, s), hq =>
            exfalso
            rw [hq, Res.bind_ok] at hk
            unfold finish at hk
            dsimp only at hk
            rw [Res.sub_le hn, Res.bind_ok] at hk
            cases hz : backSubst s.1 s.2 b.length (b.length - 1) (List.replicate b.length nan) with
            | error e => rw [hz] at hk; cases hk
            | ok x => rw [hz] at hk; cases hk
      obtain ⟨s0, hst⟩ := hst
      rw [show stages b.length b.length 0 (a, b) = stages b.length (n + 1) 0 (a, b) by rw [hn']] at hst
      unfold stages at hst
      cases hq : stage b.length 0 (a, b) with
      | error e => rw [hq] at hst; cases hst
      | ok o =>
        cases o with
        | none => exact (hs _ hq).mp rfl
        | some s =>
          exfalso
          by_cases h2n : 2 ≤ b.length
          · exact stage_zero_fails _ h2n _ _ hq
          · obtain rfl : n = 0 := by omega
            rw [hq] at hst
            cases hst
    · intro hc
      refine ⟨(a, b), ?_⟩
      rw [hsolve]
      rw [show stages b.length b.length 0 (a, b) = stages b.length (n + 1) 0 (a, b) by rw [hn']]
      unfold stages
      rw [hs0 hc]
      rfl
  · cases hq : solve a b with
    | error e => exact ⟨e, rfl⟩
    | ok o =>
      cases o with
      | none => exact absurd hq hne
      | some x => exact absurd hq (C53_never_solves a b x)

/-- A zero first column: the first unknown is free. -/
theorem free_first (a : List (List K)) (b : List K) (h : Square a b) (hb : b ≠ []) (hz : ∀ r ∈ a, r[0]? = some 0) (x : List K)
    (hx : Solves a b x) : ∃ y, y ≠ x ∧ Solves a b y := by
  obtain ⟨hl, he⟩ := hx
  cases x with
  | nil => exact absurd (List.length_eq_zero_iff.mp hl.symm) hb
  | cons x0 xs =>
    refine ⟨(x0 + 1) :: xs, by simp, by simpa using hl, ?_⟩
    rw [← he]
    apply List.map_congr_left
    intro r hr
    cases r with
    | nil => simp
    | cons r0 rs =>
      have := hz _ hr
      simp only [List.getElem?_cons_zero, Option.some.injEq] at this
      simp [this]

/-- `None` is returned for systems without a unique solution only. -/
theorem C53_none_partial (a : List (List K)) (b : List K) (h : Square a b) (hn : solve a b = .ok none) :
    ¬ ∃! x, Solves a b x := by
  by_cases hb : b = []
  · subst hb
    have : a = [] := List.length_eq_zero_iff.mp h.1
    subst this
    cases hn
  · rintro ⟨x, hx, hu⟩
    obtain ⟨y, hy, hy'⟩ := free_first a b h hb (((C53_answer a b h hb).1).mp hn) x hx
    exact hy (hu y hy')

/-- Every regular system panics: the one with no unknowns too. -/
theorem C53_regular_panics (a : List (List K)) (b : List K) (h : Square a b) (hu : ∃! x, Solves a b x) :
    ∃ e, solve a b = .error e := by
  cases hq : solve a b with
  | error e => exact ⟨e, rfl⟩
  | ok o =>
    cases o with
    | none => exact absurd hu (C53_none_partial a b h hq)
    | some x => exact absurd hq (C53_never_solves a b x)

end exact

attribute [local instance] exactFlt

/-- `2 x = 6` is regular and panics, after the division. -/
example : Square [[(2 : ℚ)]] [6] ∧ (∃! x, Solves [[(2 : ℚ)]] [6] x) ∧ solve [[(2 : ℚ)]] [6] = .error .arith := by
  refine ⟨⟨rfl, by simp⟩, ⟨[3], ⟨rfl, by norm_num⟩, ?_⟩, by decide +kernel⟩
  rintro y ⟨hl, he⟩
  match y, hl with
  | [y0], _ =>
    simp at he
    rw [show y0 = 3 by linarith]

/-- A singular system is reported if its first column is zero, else it panics. -/
theorem C53_singular_panics : solve [[(1 : ℚ), 2], [2, 4]] [1, 2] = .error .arith ∧
    ¬ (∃! x, Solves [[(1 : ℚ), 2], [2, 4]] [1, 2] x) ∧
    solve [[(0 : ℚ), 2], [0, 4]] [1, 2] = .ok none := by
  refine ⟨by decide +kernel, ?_, by decide +kernel⟩
  rintro ⟨x, _, h⟩
  have h1 := h [1, 0] ⟨rfl, by norm_num⟩
  have h2 := h [3, -1] ⟨rfl, by norm_num⟩
  rw [← h1] at h2
  norm_num at h2

/-- Rows after the first are not looked at: a ragged system panics. -/
theorem C53_ragged_panics : solve [[(1 : ℚ), 2], []] [1, 2] = .error .index := by decide +kernel

example : solveInPlace [[(0 : ℚ), 2], [0, 4]] [1, 2] = .ok (none, [[0, 2], [0, 4]], [1, 2]) := by decide +kernel
example : swapRows2 [[(1 : ℚ), 2], [3, 4], [5, 6]] 0 2 = .ok [[5, 6], [3, 4], [1, 2]] := by decide +kernel
example : swapRows1 [(1 : ℚ), 2, 3] 0 2 = .ok [3, 2, 1] := by decide +kernel
example : solve [[(1 : ℚ), 2]] [1, 2] = .ok none ∧ solve [[(1 : ℚ)], [2]] [1, 2] = .ok none := by decide +kernel

end Verif.Props
