import Verif.Base.Res
import Mathlib.Order.Basic
import Mathlib.Data.Nat.Init

/-! # Loop lemmas -/

namespace Verif

theorem forRange_self {σ : Type} (lo hi : Nat) (h : hi ≤ lo) (s : σ) (f : Nat → σ → Res σ) :
    forRange lo hi s f = .ok s := by
  have : hi - lo = 0 := by omega
  simp [forRange, this]

theorem forRange_succ {σ : Type} (lo hi : Nat) (h : lo ≤ hi) (s : σ) (f : Nat → σ → Res σ) :
    forRange lo (hi + 1) s f = forRange lo hi s f >>= fun s => f hi s := by
  have : hi + 1 - lo = (hi - lo) + 1 := by omega
  rw [forRange, this, List.range'_1_concat, List.foldlM_append]
  simp only [forRange, Nat.add_sub_cancel' h]
  congr 1
  funext s
  simp only [List.foldlM_cons, List.foldlM_nil]
  cases f hi s <;> rfl

theorem forRange_first {σ : Type} (lo hi : Nat) (h : lo < hi) (s : σ) (f : Nat → σ → Res σ) :
    forRange lo hi s f = f lo s >>= fun s => forRange (lo + 1) hi s f := by
  have : hi - lo = (hi - (lo + 1)) + 1 := by omega
  rw [forRange, this, List.range'_succ, List.foldlM_cons]
  rfl

/-- A loop follows a closed form. -/
theorem forRange_closed {σ : Type} (lo hi : Nat) (f : Nat → σ → Res σ) (g : Nat → σ) (h : lo ≤ hi)
    (hf : ∀ i, lo ≤ i → i < hi → f i (g i) = .ok (g (i + 1))) :
    forRange lo hi (g lo) f = .ok (g hi) := by
  induction hi, h using Nat.le_induction with
  | base => exact forRange_self _ _ (Nat.le_refl _) _ _
  | succ n hn ih =>
    rw [forRange_succ lo n hn, ih (fun i h1 h2 => hf i h1 (by omega))]
    exact hf n hn (by omega)

/-- A loop keeps an invariant and never panics. -/
theorem forRange_inv {σ : Type} (lo hi : Nat) (f : Nat → σ → Res σ) (P : Nat → σ → Prop) (h : lo ≤ hi)
    (s : σ) (h0 : P lo s)
    (hf : ∀ i s, lo ≤ i → i < hi → P i s → ∃ s', f i s = .ok s' ∧ P (i + 1) s') :
    ∃ s', forRange lo hi s f = .ok s' ∧ P hi s' := by
  induction hi, h using Nat.le_induction with
  | base => exact ⟨s, forRange_self _ _ (Nat.le_refl _) _ _, h0⟩
  | succ n hn ih =>
    obtain ⟨s', h1, h2⟩ := ih (fun i s h1 h2 => hf i s h1 (by omega))
    rw [forRange_succ lo n hn, h1]
    exact hf n s' hn (by omega) h2

/-- A loop panics as soon as one iteration does. -/
theorem forRange_panic {σ : Type} (lo hi : Nat) (f : Nat → σ → Res σ) (k : Nat) (e : Panic) (s : σ) (h1 : lo ≤ k)
    (h2 : k < hi) (h3 : (forRange lo k s f >>= fun s => f k s) = .error e) :
    forRange lo hi s f = .error e := by
  induction hi, h2 using Nat.le_induction with
  | base => rw [forRange_succ lo k h1]; exact h3
  | succ n hn ih => rw [forRange_succ lo n (by omega), ih]; rfl

theorem loopFind_ok {β : Type} (f : Nat → Res (Option β)) (p : Nat → Option β) (l : List Nat)
    (h : ∀ i ∈ l, f i = .ok (p i)) : loopFind f l = .ok (l.findSome? p) := by
  induction l with
  | nil => rfl
  | cons i is ih =>
    rw [loopFind, h i (by simp)]
    rw [Res.bind_ok]
    rw [List.findSome?_cons]
    cases p i with
    | none => exact ih (fun j hj => h j (by simp [hj]))
    | some b => rfl

/-- A loop with early return whose body never panics. -/
theorem forFind_ok {β : Type} (lo hi : Nat) (f : Nat → Res (Option β)) (p : Nat → Option β)
    (h : ∀ i, lo ≤ i → i < hi → f i = .ok (p i)) :
    forFind lo hi f = .ok ((List.range' lo (hi - lo)).findSome? p) := by
  apply loopFind_ok
  intro i hi'
  rw [List.mem_range'_1] at hi'
  exact h i hi'.1 (by omega)

theorem findSome?_range'_none {β : Type} (lo n : Nat) (p : Nat → Option β) :
    (List.range' lo n).findSome? p = none ↔ ∀ i, lo ≤ i → i < lo + n → p i = none := by
  simp [List.findSome?_eq_none_iff, List.mem_range'_1]

/-- The loop returned `b` exactly if the body did so first at some index. -/
theorem findSome?_range'_some {β : Type} (lo n : Nat) (p : Nat → Option β) (b : β) :
    (List.range' lo n).findSome? p = some b ↔
      ∃ k, lo ≤ k ∧ k < lo + n ∧ p k = some b ∧ ∀ i, lo ≤ i → i < k → p i = none := by
  induction n generalizing lo with
  | zero => simp; intros; omega
  | succ n ih =>
    rw [List.range'_succ, List.findSome?_cons]
    cases h : p lo with
    | none =>
      simp only
      rw [ih]
      constructor
      · rintro ⟨k, h1, h2, h3, h4⟩
        refine ⟨k, by omega, by omega, h3, fun i hi1 hi2 => ?_⟩
        rcases Nat.eq_or_lt_of_le hi1 with rfl | h'
        · exact h
        · exact h4 i h' hi2
      · rintro ⟨k, h1, h2, h3, h4⟩
        rcases Nat.eq_or_lt_of_le h1 with rfl | h'
        · rw [h] at h3; cases h3
        · exact ⟨k, h', by omega, h3, fun i hi1 hi2 => h4 i (by omega) hi2⟩
    | some c =>
      simp only [Option.some.injEq]
      constructor
      · rintro rfl
        exact ⟨lo, Nat.le_refl _, by omega, h, fun i h1 h2 => by omega⟩
      · rintro ⟨k, h1, h2, h3, h4⟩
        rcases Nat.eq_or_lt_of_le h1 with rfl | h'
        · rw [h] at h3; simpa using h3
        · have := h4 lo (Nat.le_refl _) h'
          rw [h] at this; cases this

/-- A loop that visits the elements of a list. -/
theorem forRange_foldl {σ A : Type} (xs : List A) (lo hi : Nat) (hl : hi - lo = xs.length) (f : Nat → σ → Res σ) (g : σ → A → σ)
    (hf : ∀ k (hk : k < xs.length) s, f (lo + k) s = .ok (g s xs[k])) (s : σ) :
    forRange lo hi s f = .ok (xs.foldl g s) := by
  by_cases hh : hi ≤ lo
  · rw [forRange_self _ _ hh]
    have : xs = [] := List.eq_nil_of_length_eq_zero (by omega)
    simp [this]
  · have hc := forRange_closed lo hi f (fun i => (xs.take (i - lo)).foldl g s) (by omega) (by
      intro i h1 h2
      have hk : i - lo < xs.length := by omega
      have := hf (i - lo) hk ((xs.take (i - lo)).foldl g s)
      rw [Nat.add_sub_cancel' h1] at this
      rw [this]
      congr 1
      rw [show i + 1 - lo = i - lo + 1 by omega, List.take_succ_eq_append_getElem hk, List.foldl_append]
      rfl)
    simp only [Nat.sub_self, List.take_zero, List.foldl_nil] at hc
    rw [hc, hl, List.take_length]

/-- A search that visits the elements of a list. -/
theorem forFind_findSome {β A : Type} (xs : List A) (lo hi : Nat) (hl : hi - lo = xs.length) (f : Nat → Res (Option β))
    (p : A → Option β) (hf : ∀ k (hk : k < xs.length), f (lo + k) = .ok (p xs[k])) :
    forFind lo hi f = .ok (xs.findSome? p) := by
  unfold forFind
  rw [hl]
  clear hl
  induction xs generalizing lo with
  | nil => rfl
  | cons x xs ih =>
    have h0 := hf 0 (by simp)
    simp only [Nat.add_zero, List.getElem_cons_zero] at h0
    rw [List.length_cons, List.range'_succ, loopFind, h0, Res.bind_ok, List.findSome?_cons]
    cases p x with
    | some b => rfl
    | none =>
      exact ih (lo + 1) (fun k hk => by
        have := hf (k + 1) (by simpa using hk)
        simpa [Nat.add_assoc, Nat.add_comm 1 k] using this)

/-- Writing the next slot of a partially filled buffer. -/
theorem set_fill {A : Type} (P : List A) (n k : Nat) (d c : A) (hk : P.length = k) (hn : 0 < n) :
    (P ++ List.replicate n d).set k c = P ++ [c] ++ List.replicate (n - 1) d := by
  obtain ⟨m, rfl⟩ : ∃ m, n = m + 1 := ⟨n - 1, by omega⟩
  subst hk
  rw [List.set_append_right _ _ (Nat.le_refl _)]
  simp [List.replicate_succ]

theorem take_succ' {A : Type} (l : List A) (k : Nat) (h : k < l.length) : l.take (k + 1) = l.take k ++ [l[k]] := by
  simp

end Verif
