import Verif.Spec.Order
import Mathlib.Data.List.Forall2

/-! # Lexicographic comparison of lists -/

namespace Verif.Spec

/-- Lexicographic three-way comparison of lists: the first difference decides, a proper prefix comes first. -/
def lexCmp {A : Type} (cmp : A → A → Int) : List A → List A → Int
  | [], [] => 0
  | [], _ :: _ => -1
  | _ :: _, [] => 1
  | a :: l, b :: m => if cmp a b = 0 then lexCmp cmp l m else cmp a b

/-- The lexicographic comparison by a total order is a total order. -/
theorem TotalOrderOn.lex {A : Type} {P : A → Prop} {cmp : A → A → Int} {eqv : A → A → Prop} (h : TotalOrderOn P cmp eqv) :
    TotalOrderOn (fun l : List A => ∀ a ∈ l, P a) (lexCmp cmp) (List.Forall₂ eqv) where
  range l m := by
    induction l generalizing m with
    | nil => cases m <;> simp [lexCmp]
    | cons a l ih =>
      cases m with
      | nil => simp [lexCmp]
      | cons b m =>
        simp only [lexCmp]
        split
        · exact ih m
        · exact h.range a b
  zero_iff l m hl hm := by
    induction l generalizing m with
    | nil => cases m <;> simp [lexCmp]
    | cons a l ih =>
      cases m with
      | nil => simp [lexCmp]
      | cons b m =>
        have e := h.zero_iff a b (hl a (by simp)) (hm b (by simp))
        have i := ih m (fun x hx => hl x (by simp [hx])) (fun x hx => hm x (by simp [hx]))
        simp only [lexCmp, List.forall₂_cons]
        by_cases c : cmp a b = 0
        · simp [c, i, e.mp c]
        · simp [c]; intro h1; exact absurd (e.mpr h1) c
  swap l m hl hm := by
    induction l generalizing m with
    | nil => cases m <;> simp [lexCmp]
    | cons a l ih =>
      cases m with
      | nil => simp [lexCmp]
      | cons b m =>
        have s := h.swap a b (hl a (by simp)) (hm b (by simp))
        have i := ih m (fun x hx => hl x (by simp [hx])) (fun x hx => hm x (by simp [hx]))
        simp only [lexCmp]
        by_cases c : cmp a b = 0
        · have c' : cmp b a = 0 := by omega
          simp [c, c', i]
        · have c' : cmp b a ≠ 0 := by omega
          simp [c, c', s]
  trans l m k hl hm hk h1 h2 := by
    induction l generalizing m k with
    | nil => cases k <;> simp [lexCmp]
    | cons a l ih =>
      cases m with
      | nil => simp [lexCmp] at h1
      | cons b m =>
        cases k with
        | nil => simp [lexCmp] at h2
        | cons c k =>
          have pa := hl a (by simp)
          have pb := hm b (by simp)
          have pc := hk c (by simp)
          have i := ih m k (fun x hx => hl x (by simp [hx])) (fun x hx => hm x (by simp [hx])) (fun x hx => hk x (by simp [hx]))
          have t := h.trans a b c pa pb pc
          have cl := h.congr_left (c := c) pa pb pc
          have s1 := h.swap a b pa pb
          have s2 := h.swap b c pb pc
          have s3 := h.swap a c pa pc
          have cr := h.congr_left (c := a) pb pc pa
          have lt := h.lt_trans pa pb pc
          simp only [lexCmp] at h1 h2 ⊢
          by_cases c1 : cmp a b = 0
          · rw [if_pos c1] at h1
            rw [cl c1]
            by_cases c2 : cmp b c = 0
            · rw [if_pos c2] at h2 ⊢; exact i h1 h2
            · rw [if_neg c2] at h2 ⊢; exact h2
          · rw [if_neg c1] at h1
            by_cases c2 : cmp b c = 0
            · have := cr c2
              rw [if_neg (by omega)]; omega
            · rw [if_neg c2] at h2
              have := lt (by omega) (by omega)
              rw [if_neg (by omega)]; omega

end Verif.Spec
