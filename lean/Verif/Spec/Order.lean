import Mathlib.Order.Defs.LinearOrder

/-! # What it means for a three-way comparison to be a total order -/

namespace Verif.Spec

/-- `cmp` is a total order on the elements satisfying `P`, with `eqv` as its equality:
it only returns -1, 0, 1, it is zero exactly on `eqv`, swapping the arguments negates it, and it is transitive. -/
structure TotalOrderOn {A : Type} (P : A → Prop) (cmp : A → A → Int) (eqv : A → A → Prop) : Prop where
  range : ∀ a b, cmp a b = -1 ∨ cmp a b = 0 ∨ cmp a b = 1
  zero_iff : ∀ a b, P a → P b → (cmp a b = 0 ↔ eqv a b)
  swap : ∀ a b, P a → P b → cmp b a = - cmp a b
  trans : ∀ a b c, P a → P b → P c → cmp a b ≤ 0 → cmp b c ≤ 0 → cmp a c ≤ 0

namespace TotalOrderOn
variable {A : Type} {P : A → Prop} {cmp : A → A → Int} {eqv : A → A → Prop}

theorem lt_trans (h : TotalOrderOn P cmp eqv) {a b c : A} (ha : P a) (hb : P b) (hc : P c)
    (h1 : cmp a b < 0) (h2 : cmp b c < 0) : cmp a c < 0 := by
  have h3 := h.trans a b c ha hb hc (by omega) (by omega)
  rcases Int.lt_or_eq_of_le h3 with h4 | h4
  · exact h4
  · have h5 : cmp c a ≤ 0 := by rw [h.swap a c ha hc, h4]; omega
    have h6 := h.trans b c a hb hc ha (by omega) h5
    have h7 := h.swap a b ha hb
    omega

/-- Equality in the sense of the comparison is an equivalence compatible with the order. -/
theorem congr_left (h : TotalOrderOn P cmp eqv) {a b c : A} (ha : P a) (hb : P b) (hc : P c)
    (h1 : cmp a b = 0) : cmp a c = cmp b c := by
  have s1 := h.swap a b ha hb
  have s2 := h.swap a c ha hc
  have s3 := h.swap b c hb hc
  have t1 := h.trans a b c ha hb hc
  have t2 := h.trans b a c hb ha hc
  have t3 := h.trans c a b hc ha hb
  have t4 := h.trans c b a hc hb ha
  rcases h.range a c with r1 | r1 | r1 <;> rcases h.range b c with r2 | r2 | r2 <;> omega

end TotalOrderOn
end Verif.Spec
