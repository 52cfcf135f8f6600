import Verif.Props.Densify

set_option linter.unusedSectionVars false

/-! # C141: the direction test and points added along edges -/

namespace Verif.Props
open Flt Verif.Spec Verif.Binary64

section exact
variable {K : Type} [Field K] [LinearOrder K] [IsStrictOrderedRing K]

/-- The last top of a ring that ends below it. -/
def CapA (Y : K) (r : List (Coord K)) (ul uh dh dl : Coord K) : Prop :=
  ∃ W T V, r = W ++ (T ++ V) ∧ W.getLast? = some ul ∧ T.head? = some uh ∧ T.getLast? = some dh ∧ V.head? = some dl ∧ ul.y < Y ∧
    (∀ q ∈ W, q.y ≤ Y) ∧ (∀ q ∈ T, q.y = Y) ∧ ∀ q ∈ V, q.y < Y

/-- The top of a ring that ends on it. -/
def CapB (Y : K) (r : List (Coord K)) (ul uh dh dl : Coord K) : Prop :=
  ∃ F W T, r = F ++ (W ++ T) ∧ F.getLast? = some dh ∧ W.head? = some dl ∧ W.getLast? = some ul ∧ T.head? = some uh ∧ ul.y < Y ∧
    dl.y < Y ∧ (∀ q ∈ F, q.y = Y) ∧ (∀ q ∈ W, q.y ≤ Y) ∧ ∀ q ∈ T, q.y = Y

/-! ## What the test answers for a cap -/

/-- The last segment that rises to the top is found. -/
theorem cap_scan (Y : K) (W T V : List (Coord K)) (ul uh : Coord K) (hl : 4 ≤ (W ++ (T ++ V)).length) (h1 : W.getLast? = some ul)
    (h2 : T.head? = some uh) (hul : ul.y < Y) (hW : ∀ q ∈ W, q.y ≤ Y) (hT : ∀ q ∈ T, q.y = Y) (hV : ∀ q ∈ V, q.y < Y) :
    ∃ n e dh dl, n + 1 = (W ++ (T ++ V)).length ∧ 1 ≤ e ∧ e < n ∧ (W ++ (T ++ V))[(W.length - 1 + e) % n]? = some dh ∧
      (W ++ (T ++ V))[(W.length + e) % n]? = some dl ∧ dl.y ≠ Y ∧
      (∀ f, 1 ≤ f → f < e → ∀ q, (W ++ (T ++ V))[(W.length + f) % n]? = some q → q.y = Y) ∧
      Orientation.isCCW (W ++ (T ++ V)) = .ok (capAnswer ul uh dh dl) := by
  have wl : 0 < W.length := by
    rcases W with _ | ⟨w, W⟩
    · simp at h1
    · simp
  have tl : 0 < T.length := by
    rcases T with _ | ⟨w, T⟩
    · simp at h2
    · simp
  obtain ⟨r, hr⟩ : ∃ r, r = W ++ (T ++ V) := ⟨_, rfl⟩
  rw [← hr] at hl ⊢
  have hlen : r.length = W.length + (T.length + V.length) := by rw [hr]; simp
  have gul : r[W.length - 1]? = some ul := by
    rw [hr, List.getElem?_append_left (by omega), ← List.getLast?_eq_getElem?]; exact h1
  have guh : r[W.length]? = some uh := by
    rw [hr, List.getElem?_append_right le_rfl, Nat.sub_self, List.getElem?_append_left tl, ← List.head?_eq_getElem?]; exact h2
  have yT : ∀ (i : Nat) (q : Coord K), W.length ≤ i → i < W.length + T.length → r[i]? = some q → q.y = Y := by
    intro i q a b hq
    rw [hr, List.getElem?_append_right a, List.getElem?_append_left (by omega)] at hq
    exact hT q (List.mem_of_getElem? hq)
  have yV : ∀ (i : Nat) (q : Coord K), W.length + T.length ≤ i → r[i]? = some q → q.y < Y := by
    intro i q a hq
    rw [hr, List.getElem?_append_right (by omega), List.getElem?_append_right (by omega)] at hq
    exact hV q (List.mem_of_getElem? hq)
  have yall : ∀ (i : Nat) (q : Coord K), r[i]? = some q → q.y ≤ Y := by
    intro i q hq
    have := List.mem_of_getElem? hq
    rw [hr] at this
    rcases List.mem_append.mp this with h | h
    · exact hW q h
    · rcases List.mem_append.mp h with h | h
      · exact (hT q h).le
      · exact (hV q h).le
  have huh : uh.y = Y := yT _ _ le_rfl (by omega) guh
  obtain ⟨st, hs, hq, hh⟩ := isCCW_any r 2 0 hl (fun i st => W.length < i → st.iUpHi = W.length) (by intro h; omega) (by
    intro i st hi i1 hinv hq hlt
    have hp : st.prevY = r[i - 1].y := hinv.1 _ (List.getElem?_eq_getElem (by omega))
    have gi : r[i]? = some r[i] := List.getElem?_eq_getElem hi
    have gp : r[i - 1]? = some r[i - 1] := List.getElem?_eq_getElem (by omega)
    rcases Nat.lt_or_ge W.length i with hc | hc
    · have hu := hq hc
      have hup : st.upHi.y = Y := by
        rcases hinv.2 with h | h
        · omega
        · rw [hu, guh] at h
          have := h.2.2.1; injection this with this; rw [← this]; exact huh
      rw [if_neg, hu]
      simp only [Bool.and_eq_true, exact_lt, exact_le, decide_eq_true_eq, not_and, not_le]
      intro hb
      rcases Nat.lt_or_ge i (W.length + T.length) with hi2 | hi2
      · rw [hp, yT i _ (by omega) hi2 gi, yT (i - 1) _ (by omega) (by omega) gp] at hb
        exact absurd hb (lt_irrefl _)
      · rw [hup]; exact yV i _ hi2 gi
    · have hiW : i = W.length := by omega
      have hup : st.upHi.y ≤ Y := by
        rcases hinv.2 with h | h
        · exact yall _ _ h.2
        · exact yall _ _ h.2.2.1
      rw [if_pos]
      · exact hiW
      · simp only [Bool.and_eq_true, exact_lt, exact_le, decide_eq_true_eq]
        rw [hp]
        subst hiW
        rw [gi] at guh
        rw [gp] at gul
        injection guh with guh
        injection gul with gul
        rw [guh, gul, huh]
        exact ⟨hul, hup⟩)
  have hu := hq (by omega)
  rcases hh with ⟨h0, -⟩ | ⟨k, n, e, ul', uh', dh, dl, b1, b2, b3, b4, b5, b6, b7, b8, b9, b10, b11, b12, b13, b14⟩
  · omega
  · have hk : k = W.length - 1 := by omega
    subst hk
    rw [show W.length - 1 + 1 = W.length by omega] at b7 b9 b13
    rw [gul] at b6; injection b6 with b6; subst b6
    rw [guh] at b7; injection b7 with b7; subst b7
    refine ⟨n, e, dh, dl, b1, b4, b5, b8, b9, ?_, ?_, b14⟩
    · rw [← huh]; simpa using b12
    · intro f f1 f2 q hq
      have := b13 f f1 f2 q hq
      rw [← huh]; simpa using this

theorem capLeft_same (ul uh dh dl dl' : Coord K) (h1 : dl.x = dl'.x) (h2 : dl.y = dl'.y) : CapLeft ul uh dh dl ↔ CapLeft ul uh dh dl' := by
  unfold CapLeft det; rw [h1, h2]

theorem capA_answer (Y : K) (r : List (Coord K)) (ul uh dh dl : Coord K) (hl : 4 ≤ r.length) (hc : Closed2D r) (h : CapA Y r ul uh dh dl) :
    Orientation.isCCW r = .ok (decide (CapLeft ul uh dh dl)) := by
  obtain ⟨W, T, V, hr, h1, h2, h3, h4, hul, hW, hT, hV⟩ := h
  rw [hr] at hl
  obtain ⟨n, e, dh', dl', b1, b2, b3, b4, b5, b6, b7, b8⟩ := cap_scan Y W T V ul uh hl h1 h2 hul hW hT hV
  rw [← hr] at b1 b4 b5 b7 b8 hl
  have wl : 0 < W.length := by
    rcases W with _ | ⟨w, W⟩
    · simp at h1
    · simp
  have tl : 0 < T.length := by
    rcases T with _ | ⟨w, T⟩
    · simp at h2
    · simp
  have vl : 0 < V.length := by
    rcases V with _ | ⟨w, V⟩
    · simp at h4
    · simp
  have hlen : r.length = W.length + (T.length + V.length) := by rw [hr]; simp
  have yT : ∀ (i : Nat) (q : Coord K), W.length ≤ i → i < W.length + T.length → r[i]? = some q → q.y = Y := by
    intro i q a b hq
    rw [hr, List.getElem?_append_right a, List.getElem?_append_left (by omega)] at hq
    exact hT q (List.mem_of_getElem? hq)
  have gdl : r[W.length + T.length]? = some dl := by
    rw [hr, List.getElem?_append_right (by omega), Nat.add_sub_cancel_left, List.getElem?_append_right le_rfl, Nat.sub_self,
      ← List.head?_eq_getElem?]; exact h4
  have gdh : r[W.length + T.length - 1]? = some dh := by
    rw [hr, List.getElem?_append_right (by omega), List.getElem?_append_left (by omega), ← h3, List.getLast?_eq_getElem?]
    congr 1; omega
  have hdl : dl.y < Y := hV dl (List.mem_of_head? h4)
  -- the point after the top, with the end of the ring read as its start
  have after : ∀ q, r[(W.length + T.length) % n]? = some q → q.x = dl.x ∧ q.y = dl.y := by
    intro q hq
    rcases Nat.lt_or_ge (W.length + T.length) n with hlt | hge
    · rw [Nat.mod_eq_of_lt hlt, gdl] at hq; cases hq; exact ⟨rfl, rfl⟩
    · have : W.length + T.length = n := by omega
      rw [this, Nat.mod_self] at hq
      exact hc q dl (by rw [List.head?_eq_getElem?]; exact hq) (by
        rw [List.getLast?_eq_getElem?, ← gdl]; congr 1; omega)
  have he : e = T.length := by
    rcases lt_trichotomy e T.length with h | h | h
    · rw [Nat.mod_eq_of_lt (by omega)] at b5
      exact absurd (yT _ _ (by omega) (by omega) b5) b6
    · exact h
    · have hlt := Nat.mod_lt (W.length + T.length) (show 0 < n by omega)
      have g := List.getElem?_eq_getElem (l := r) (i := (W.length + T.length) % n) (by omega)
      have y1 := b7 T.length tl h _ g
      rw [(after _ g).2] at y1
      exact absurd y1 hdl.ne
  subst he
  rw [Nat.mod_eq_of_lt (by omega), show W.length - 1 + T.length = W.length + T.length - 1 by omega, gdh] at b4
  injection b4 with b4
  subst b4
  obtain ⟨e1, e2⟩ := after _ b5
  have huh : uh.y = Y := hT uh (List.mem_of_head? h2)
  rw [b8, capAnswer_exact ul uh dh dl' (by rw [huh]; exact hul) (by rw [huh, e2]; exact hdl)]
  congr 1
  exact decide_eq_decide.mpr (capLeft_same ul uh dh dl' dl e1 e2)

theorem capB_answer (Y : K) (r : List (Coord K)) (ul uh dh dl : Coord K) (hl : 4 ≤ r.length) (h : CapB Y r ul uh dh dl) :
    Orientation.isCCW r = .ok (decide (CapLeft ul uh dh dl)) := by
  obtain ⟨F, W, T, hr, h1, h2, h3, h4, hul, hdl, hF, hW, hT⟩ := h
  have wl : 0 < W.length := by
    rcases W with _ | ⟨w, W⟩
    · simp at h2
    · simp
  have fl : 0 < F.length := by
    rcases F with _ | ⟨w, F⟩
    · simp at h1
    · simp
  have tl : 0 < T.length := by
    rcases T with _ | ⟨w, T⟩
    · simp at h4
    · simp
  have hr' : r = (F ++ W) ++ (T ++ []) := by rw [hr]; simp
  rw [hr'] at hl
  obtain ⟨n, e, dh', dl', b1, b2, b3, b4, b5, b6, b7, b8⟩ := cap_scan Y (F ++ W) T [] ul uh hl
    (by rw [List.getLast?_append, h3]; rfl) h4 hul
    (by intro q hq; rcases List.mem_append.mp hq with h | h
        · exact (hF q h).le
        · exact hW q h) hT (by simp)
  rw [← hr'] at b1 b4 b5 b7 b8 hl
  rw [List.length_append] at b4 b5 b7
  have hlen : r.length = F.length + (W.length + T.length) := by rw [hr]; simp
  have yT : ∀ (i : Nat) (q : Coord K), F.length + W.length ≤ i → r[i]? = some q → q.y = Y := by
    intro i q a hq
    rw [hr, List.getElem?_append_right (by omega), List.getElem?_append_right (by omega)] at hq
    exact hT q (List.mem_of_getElem? hq)
  have yF : ∀ (i : Nat) (q : Coord K), i < F.length → r[i]? = some q → q.y = Y := by
    intro i q a hq
    rw [hr, List.getElem?_append_left a] at hq
    exact hF q (List.mem_of_getElem? hq)
  have gdl : r[F.length]? = some dl := by
    rw [hr, List.getElem?_append_right le_rfl, Nat.sub_self, List.getElem?_append_left wl, ← List.head?_eq_getElem?]; exact h2
  have gdh : r[F.length - 1]? = some dh := by
    rw [hr, List.getElem?_append_left (by omega), ← List.getLast?_eq_getElem?]; exact h1
  have wrap : ∀ f, T.length - 1 ≤ f → f - (T.length - 1) < n → (F.length + W.length + f) % n = f - (T.length - 1) := by
    intro f f1 f2
    rw [show F.length + W.length + f = f - (T.length - 1) + n by omega, Nat.add_mod_right, Nat.mod_eq_of_lt f2]
  have he : e = T.length - 1 + F.length := by
    rcases lt_trichotomy e (T.length - 1 + F.length) with h | h | h
    · rcases Nat.lt_or_ge e (T.length - 1) with h' | h'
      · rw [Nat.mod_eq_of_lt (by omega)] at b5
        exact absurd (yT _ _ (by omega) b5) b6
      · rw [wrap e h' (by omega)] at b5
        exact absurd (yF _ _ (by omega) b5) b6
    · exact h
    · have y1 := b7 (T.length - 1 + F.length) (by omega) h dl (by
        rw [wrap _ (by omega) (by omega), show T.length - 1 + F.length - (T.length - 1) = F.length by omega]; exact gdl)
      exact absurd y1 hdl.ne
  subst he
  rw [wrap _ (by omega) (by omega), show T.length - 1 + F.length - (T.length - 1) = F.length by omega, gdl] at b5
  rw [show F.length + W.length - 1 + (T.length - 1 + F.length) = F.length - 1 + n by omega, Nat.add_mod_right,
    Nat.mod_eq_of_lt (by omega), gdh] at b4
  injection b4 with b4
  injection b5 with b5
  subst b4 b5
  have huh : uh.y = Y := hT uh (List.mem_of_head? h4)
  rw [b8, capAnswer_exact ul uh dh dl (by rw [huh]; exact hul) (by rw [huh]; exact hdl)]

/-! ## Every ring that is not level has a cap -/

theorem last_with {A : Type} (P : A → Prop) (l : List A) (h : ∃ x ∈ l, P x) : ∃ u x v, l = u ++ x :: v ∧ P x ∧ ∀ q ∈ v, ¬ P q := by
  induction l using List.reverseRecOn with
  | nil => obtain ⟨x, hx, -⟩ := h; simp at hx
  | append_singleton l a ih =>
    by_cases ha : P a
    · exact ⟨l, a, [], rfl, ha, by simp⟩
    · obtain ⟨x, hx, px⟩ := h
      rcases List.mem_append.mp hx with hx | hx
      · obtain ⟨u, y, v, rfl, py, hv⟩ := ih ⟨x, hx, px⟩
        refine ⟨u, y, v ++ [a], by simp, py, ?_⟩
        intro q hq
        rcases List.mem_append.mp hq with hq | hq
        · exact hv q hq
        · rw [List.mem_singleton] at hq; subst hq; exact ha
      · rw [List.mem_singleton] at hx; subst hx; exact absurd px ha

theorem first_with {A : Type} (P : A → Prop) (l : List A) (h : ∃ x ∈ l, P x) : ∃ u x v, l = u ++ x :: v ∧ P x ∧ ∀ q ∈ u, ¬ P q := by
  obtain ⟨u, x, v, e, px, hv⟩ := last_with P l.reverse (by simpa using h)
  refine ⟨v.reverse, x, u.reverse, ?_, px, by simpa using hv⟩
  have := congrArg List.reverse e
  simpa using this

theorem cap_exists (r : List (Coord K)) (Y : K) (hc : Closed2D r) (hmax : ∀ q ∈ r, q.y ≤ Y) (htop : ∃ q ∈ r, q.y = Y)
    (hlow : ∃ q ∈ r, q.y < Y) : ∃ ul uh dh dl, CapA Y r ul uh dh dl ∨ CapB Y r ul uh dh dl := by
  obtain ⟨a, ha⟩ : ∃ a, r.head? = some a := by
    obtain ⟨q, hq, -⟩ := htop
    cases r with
    | nil => simp at hq
    | cons a r => exact ⟨a, rfl⟩
  obtain ⟨b, hb⟩ : ∃ b, r.getLast? = some b := by
    obtain ⟨q, hq, -⟩ := htop
    cases r with
    | nil => simp at hq
    | cons a r => exact ⟨_, List.getLast?_eq_getLast_of_ne_nil (by simp)⟩
  have hab := (hc a b ha hb).2
  rcases (hmax a (List.mem_of_head? ha)).lt_or_eq with hlt | heq
  · -- the ring starts and ends below its top
    obtain ⟨l, x, V, rfl, hx, hV⟩ := last_with (fun q : Coord K => q.y = Y) r htop
    have hVne : V ≠ [] := by
      rintro rfl
      rw [List.getLast?_append] at hb
      simp at hb
      rw [hab, ← hb, hx] at hlt
      exact lt_irrefl _ hlt
    have hlne : ∃ q ∈ l, q.y < Y := by
      cases l with
      | nil => simp at ha; rw [← ha, hx] at hlt; exact absurd hlt (lt_irrefl _)
      | cons c l => simp at ha; subst ha; exact ⟨c, by simp, hlt⟩
    obtain ⟨l2, ul, T0, rfl, hul, hT0⟩ := last_with (fun q : Coord K => q.y < Y) l hlne
    obtain ⟨dl, V', rfl⟩ := List.exists_cons_of_ne_nil hVne
    obtain ⟨uh, huh⟩ : ∃ uh, (T0 ++ [x]).head? = some uh := by cases T0 <;> exact ⟨_, rfl⟩
    refine ⟨ul, uh, x, dl, Or.inl ⟨l2 ++ [ul], T0 ++ [x], dl :: V', by simp, by simp, huh, by simp, rfl, hul, ?_, ?_, ?_⟩⟩
    · intro q hq; exact hmax q (by simp only [List.mem_append, List.mem_cons, List.not_mem_nil, or_false] at hq ⊢; tauto)
    · intro q hq
      rcases List.mem_append.mp hq with hq | hq
      · exact le_antisymm (hmax q (by simp [hq])) (not_lt.mp (hT0 q hq))
      · rw [List.mem_singleton] at hq; subst hq; exact hx
    · intro q hq
      exact lt_of_le_of_ne (hmax q (by simp only [List.mem_append, List.mem_cons] at hq ⊢; tauto)) (hV q hq)
  · -- the ring starts and ends on its top
    obtain ⟨F, dl, s, rfl, hdl, hF⟩ := first_with (fun q : Coord K => q.y < Y) r hlow
    have hFne : F ≠ [] := by
      rintro rfl
      simp at ha; rw [ha, heq] at hdl; exact lt_irrefl _ hdl
    obtain ⟨l3, ul, T, e3, hul, hT⟩ := last_with (fun q : Coord K => q.y < Y) (dl :: s) ⟨dl, by simp, hdl⟩
    have hTne : T ≠ [] := by
      rintro rfl
      rw [e3, List.getLast?_append, List.getLast?_append] at hb
      simp at hb
      rw [hb, ← hab, heq] at hul
      exact lt_irrefl _ hul
    obtain ⟨uh, T', rfl⟩ := List.exists_cons_of_ne_nil hTne
    have hmem : ∀ q ∈ dl :: s, q.y ≤ Y := fun q hq => hmax q (List.mem_append_right _ hq)
    refine ⟨ul, uh, F.getLast hFne, dl, Or.inr ⟨F, l3 ++ [ul], uh :: T', by rw [e3]; simp, List.getLast?_eq_getLast_of_ne_nil hFne, ?_, by simp, rfl, hul,
      hdl, ?_, ?_, ?_⟩⟩
    · have := congrArg List.head? e3
      cases l3 with
      | nil => simpa using this.symm
      | cons c l3 => simpa using this.symm
    · intro q hq; exact le_antisymm (hmax q (by simp [hq])) (not_lt.mp (hF q hq))
    · intro q hq; rw [e3] at hmem; exact hmem q (by simp only [List.mem_append, List.mem_cons, List.not_mem_nil, or_false] at hq ⊢; tauto)
    · intro q hq; rw [e3] at hmem; exact le_antisymm (hmem q (by simp only [List.mem_append, List.mem_cons] at hq ⊢; tauto)) (not_lt.mp (hT q hq))

/-! ## Caps and one more point -/

theorem cut_append {A : Type} (l t X Z : List A) (a b : A) (h : l ++ a :: b :: t = X ++ Z) :
    (∃ t1, X = l ++ a :: b :: t1 ∧ t = t1 ++ Z) ∨ (X = l ++ [a] ∧ Z = b :: t) ∨ ∃ l1, l = X ++ l1 ∧ Z = l1 ++ a :: b :: t := by
  rcases List.append_eq_append_iff.mp h with ⟨c, h1, h2⟩ | ⟨c, h1, h2⟩
  · rcases c with _ | ⟨x, _ | ⟨y, c⟩⟩
    · right; right; exact ⟨[], by simpa using h1.symm, by simpa using h2.symm⟩
    · right; left
      simp at h2
      exact ⟨by rw [h1, h2.1], h2.2.symm⟩
    · left
      simp at h2
      exact ⟨c, by rw [h1, h2.1, h2.2.1], h2.2.2⟩
  · right; right; exact ⟨c, h1, h2⟩

theorem seg_below {a m b : Coord K} {Y : K} (hm : OnSegment m a b) (ha : a.y ≤ Y) (hb : b.y ≤ Y) : m.y ≤ Y := by
  obtain ⟨t, t0, t1, -, my⟩ := hm; rw [my]; nlinarith

theorem seg_lt {a m b : Coord K} {Y : K} (hm : OnSegment m a b) (ha : a.y < Y) (hb : b.y < Y) : m.y < Y := by
  obtain ⟨t, t0, t1, -, my⟩ := hm; rw [my]
  rcases le_total a.y b.y with h | h <;> nlinarith

theorem seg_eq {a m b : Coord K} {Y : K} (hm : OnSegment m a b) (ha : a.y = Y) (hb : b.y = Y) : m.y = Y := by
  obtain ⟨t, t0, t1, -, my⟩ := hm; rw [my, ha, hb]; ring

/-- A point on a rising edge is its upper end or below it. -/
theorem seg_up {a m b : Coord K} (hm : OnSegment m a b) (h : a.y < b.y) : (m.x = b.x ∧ m.y = b.y) ∨ m.y < b.y := by
  obtain ⟨t, t0, t1, mx, my⟩ := hm
  rcases t1.eq_or_lt with rfl | ht
  · left; rw [mx, my]; exact ⟨by ring, by ring⟩
  · right; rw [my]; nlinarith

theorem mem_more {P : Coord K → Prop} {l t : List (Coord K)} {a m b : Coord K} (h : ∀ q ∈ l ++ a :: b :: t, P q) (hm : P m) :
    ∀ q ∈ l ++ a :: m :: b :: t, P q := by
  intro q hq
  simp only [List.mem_append, List.mem_cons] at hq
  rcases hq with hq | rfl | rfl | hq
  · exact h q (by simp [hq])
  · exact h q (by simp)
  · exact hm
  · exact h q (by simp only [List.mem_append, List.mem_cons]; tauto)

theorem last_more (l t : List (Coord K)) (a m b : Coord K) : (l ++ a :: m :: b :: t).getLast? = (l ++ a :: b :: t).getLast? := by
  simp [List.getLast?_append, List.getLast?_cons_cons]

theorem head_more (l t : List (Coord K)) (a m b : Coord K) : (l ++ a :: m :: b :: t).head? = (l ++ a :: b :: t).head? := by
  cases l <;> rfl

/-- Moving the lower end of the rising edge along it. -/
theorem cap_ul (ul uh dh dl m : Coord K) (hm : OnSegment m ul uh) (h : m.y < uh.y) : CapLeft m uh dh dl ↔ CapLeft ul uh dh dl := by
  obtain ⟨t, t0, t1, mx, my⟩ := hm
  have ht : 0 < 1 - t := by
    rcases t1.eq_or_lt with rfl | h'
    · rw [my] at h; linarith
    · linarith
  have : det m uh dl = (1 - t) * det ul uh dl := by unfold det; rw [mx, my]; ring
  unfold CapLeft
  rw [this, mul_pos_iff_of_pos_left ht]

/-- Moving the lower end of the falling edge along it. -/
theorem cap_dl (ul uh dh dl m : Coord K) (hm : OnSegment m dh dl) (h : m.y < dh.y) : CapLeft ul uh dh m ↔ CapLeft ul uh dh dl := by
  obtain ⟨t, t0, t1, mx, my⟩ := hm
  have ht : 0 < t := by
    rcases t0.eq_or_lt with h' | h'
    · rw [← h'] at my; rw [my] at h; linarith
    · exact h'
  unfold CapLeft
  split_ifs with hc
  · have : det ul uh m = t * det ul uh dl := by unfold det; rw [mx, my, ← hc.1, ← hc.2]; ring
    rw [this, mul_pos_iff_of_pos_left ht]
  · rfl

theorem cap_uh (ul uh dh dl m : Coord K) (h1 : m.x = uh.x) (h2 : m.y = uh.y) : CapLeft ul m dh dl ↔ CapLeft ul uh dh dl := by
  unfold CapLeft det; rw [h1, h2]

theorem cap_dh (ul uh dh dl m : Coord K) (h1 : m.x = dh.x) (h2 : m.y = dh.y) : CapLeft ul uh m dl ↔ CapLeft ul uh dh dl := by
  unfold CapLeft; rw [h1, h2]

theorem capA_more (Y : K) (r r' : List (Coord K)) (ul uh dh dl : Coord K) (h : CapA Y r ul uh dh dl) (hm : OneMore r r') :
    ∃ ul' uh' dh' dl', CapA Y r' ul' uh' dh' dl' ∧ (CapLeft ul' uh' dh' dl' ↔ CapLeft ul uh dh dl) := by
  obtain ⟨W, T, V, hr, h1, h2, h3, h4, hul, hW, hT, hV⟩ := h
  obtain ⟨l, a, m, b, t, rfl, hm, rfl⟩ := hm
  rcases cut_append l t W (T ++ V) a b hr with ⟨t1, rfl, rfl⟩ | ⟨rfl, e⟩ | ⟨l1, rfl, e⟩
  · exact ⟨ul, uh, dh, dl, ⟨l ++ a :: m :: b :: t1, T, V, by simp, by rw [last_more]; exact h1, h2, h3, h4, hul,
      mem_more hW (seg_below hm (hW a (by simp)) (hW b (by simp))), hT, hV⟩, Iff.rfl⟩
  · obtain ⟨T1, rfl⟩ : ∃ T1, T = uh :: T1 := by
      cases T with
      | nil => simp at h2
      | cons c T => simp at h2; subst h2; exact ⟨T, rfl⟩
    simp only [List.cons_append, List.cons.injEq] at e
    obtain ⟨e1, rfl⟩ := e
    subst e1
    simp at h1
    subst h1
    have hY : uh.y = Y := hT uh (by simp)
    rcases seg_up hm (by rw [hY]; exact hul) with ⟨mx, my⟩ | hlt
    · refine ⟨a, m, dh, dl, ⟨l ++ [a], m :: uh :: T1, V, by simp, by simp, rfl, ?_, h4, hul, hW, ?_, hV⟩, cap_uh _ _ _ _ _ mx my⟩
      · rw [List.getLast?_cons_cons]; exact h3
      · intro q hq
        rcases List.mem_cons.mp hq with rfl | hq
        · rw [my, hY]
        · exact hT q hq
    · refine ⟨m, uh, dh, dl, ⟨l ++ [a] ++ [m], uh :: T1, V, by simp, by simp, rfl, h3, h4, by rw [← hY]; exact hlt, ?_, hT, hV⟩,
        cap_ul _ _ _ _ _ hm hlt⟩
      intro q hq
      rcases List.mem_append.mp hq with hq | hq
      · exact hW q hq
      · rw [List.mem_singleton] at hq; subst hq; rw [← hY]; exact hlt.le
  · rcases cut_append l1 t T V a b e.symm with ⟨t1, rfl, rfl⟩ | ⟨rfl, rfl⟩ | ⟨l2, rfl, rfl⟩
    · exact ⟨ul, uh, dh, dl, ⟨W, l1 ++ a :: m :: b :: t1, V, by simp, h1, by rw [head_more]; exact h2, by rw [last_more]; exact h3, h4, hul, hW,
        mem_more hT (seg_eq hm (hT a (by simp)) (hT b (by simp))), hV⟩, Iff.rfl⟩
    · simp at h3 h4
      subst h3 h4
      have hY : a.y = Y := hT a (by simp)
      have hb : b.y < Y := hV b (by simp)
      rcases seg_up ((onSegment_swap m a b).mp hm) (by rw [hY]; exact hb) with ⟨mx, my⟩ | hlt
      · refine ⟨ul, uh, m, b, ⟨W, l1 ++ [a] ++ [m], b :: t, by simp, h1, ?_, by simp, rfl, hul, hW, ?_, hV⟩, cap_dh _ _ _ _ _ mx my⟩
        · cases l1 <;> simpa using h2
        · intro q hq
          rcases List.mem_append.mp hq with hq | hq
          · exact hT q hq
          · rw [List.mem_singleton] at hq; subst hq; rw [my, hY]
      · refine ⟨ul, uh, a, m, ⟨W, l1 ++ [a], m :: b :: t, by simp, h1, h2, by simp, rfl, hul, hW, hT, ?_⟩,
          cap_dl _ _ _ _ _ hm hlt⟩
        intro q hq
        rcases List.mem_cons.mp hq with rfl | hq
        · rw [← hY]; exact hlt
        · exact hV q hq
    · exact ⟨ul, uh, dh, dl, ⟨W, T, l2 ++ a :: m :: b :: t, by simp, h1, h2, h3, by rw [head_more]; exact h4, hul, hW, hT,
        mem_more hV (seg_lt hm (hV a (by simp)) (hV b (by simp)))⟩, Iff.rfl⟩

theorem capB_more (Y : K) (r r' : List (Coord K)) (ul uh dh dl : Coord K) (h : CapB Y r ul uh dh dl) (hm : OneMore r r') :
    ∃ ul' uh' dh' dl', CapB Y r' ul' uh' dh' dl' ∧ (CapLeft ul' uh' dh' dl' ↔ CapLeft ul uh dh dl) := by
  obtain ⟨F, W, T, hr, h1, h2, h3, h4, hul, hdl, hF, hW, hT⟩ := h
  obtain ⟨l, a, m, b, t, rfl, hm, rfl⟩ := hm
  rcases cut_append l t F (W ++ T) a b hr with ⟨t1, rfl, rfl⟩ | ⟨rfl, e⟩ | ⟨l1, rfl, e⟩
  · exact ⟨ul, uh, dh, dl, ⟨l ++ a :: m :: b :: t1, W, T, by simp, by rw [last_more]; exact h1, h2, h3, h4, hul, hdl,
      mem_more hF (seg_eq hm (hF a (by simp)) (hF b (by simp))), hW, hT⟩, Iff.rfl⟩
  · obtain ⟨W1, rfl⟩ : ∃ W1, W = dl :: W1 := by
      cases W with
      | nil => simp at h2
      | cons c W => simp at h2; subst h2; exact ⟨W, rfl⟩
    simp only [List.cons_append, List.cons.injEq] at e
    obtain ⟨e1, rfl⟩ := e
    subst e1
    simp at h1
    subst h1
    have hY : a.y = Y := hF a (by simp)
    rcases seg_up ((onSegment_swap m a dl).mp hm) (by rw [hY]; exact hdl) with ⟨mx, my⟩ | hlt
    · refine ⟨ul, uh, m, dl, ⟨l ++ [a] ++ [m], dl :: W1, T, by simp, by simp, rfl, h3, h4, hul, hdl, ?_, hW, hT⟩, cap_dh _ _ _ _ _ mx my⟩
      intro q hq
      rcases List.mem_append.mp hq with hq | hq
      · exact hF q hq
      · rw [List.mem_singleton] at hq; subst hq; rw [my, hY]
    · refine ⟨ul, uh, a, m, ⟨l ++ [a], m :: dl :: W1, T, by simp, by simp, rfl, ?_, h4, hul, by rw [← hY]; exact hlt, hF, ?_, hT⟩,
        cap_dl _ _ _ _ _ hm hlt⟩
      · rw [List.getLast?_cons_cons]; exact h3
      · intro q hq
        rcases List.mem_cons.mp hq with rfl | hq
        · rw [← hY]; exact hlt.le
        · exact hW q hq
  · rcases cut_append l1 t W T a b e.symm with ⟨t1, rfl, rfl⟩ | ⟨rfl, rfl⟩ | ⟨l2, rfl, rfl⟩
    · exact ⟨ul, uh, dh, dl, ⟨F, l1 ++ a :: m :: b :: t1, T, by simp, h1, by rw [head_more]; exact h2, by rw [last_more]; exact h3, h4, hul, hdl, hF,
        mem_more hW (seg_below hm (hW a (by simp)) (hW b (by simp))), hT⟩, Iff.rfl⟩
    · simp at h3 h4
      subst h3 h4
      have hY : b.y = Y := hT b (by simp)
      rcases seg_up hm (by rw [hY]; exact hul) with ⟨mx, my⟩ | hlt
      · refine ⟨a, m, dh, dl, ⟨F, l1 ++ [a], m :: b :: t, by simp, h1, h2, by simp, rfl, hul, hdl, hF, hW, ?_⟩, cap_uh _ _ _ _ _ mx my⟩
        intro q hq
        rcases List.mem_cons.mp hq with rfl | hq
        · rw [my, hY]
        · exact hT q hq
      · refine ⟨m, b, dh, dl, ⟨F, l1 ++ [a] ++ [m], b :: t, by simp, h1, ?_, by simp, rfl, by rw [← hY]; exact hlt, hdl, hF, ?_, hT⟩,
          cap_ul _ _ _ _ _ hm hlt⟩
        · cases l1 <;> simpa using h2
        · intro q hq
          rcases List.mem_append.mp hq with hq | hq
          · exact hW q hq
          · rw [List.mem_singleton] at hq; subst hq; rw [← hY]; exact hlt.le
    · exact ⟨ul, uh, dh, dl, ⟨F, W, l2 ++ a :: m :: b :: t, by simp, h1, h2, h3, by rw [head_more]; exact h4, hul, hdl, hF, hW,
        mem_more hT (seg_eq hm (hT a (by simp)) (hT b (by simp)))⟩, Iff.rfl⟩

theorem length_refined {r r' : List (Coord K)} (h : Refined r r') : r.length ≤ r'.length := by
  induction h with
  | refl => exact le_rfl
  | tail _ h ih =>
    obtain ⟨l, a, m, b, t, rfl, -, rfl⟩ := h
    simp only [List.length_append, List.length_cons] at ih ⊢; omega

/-- A ring on one level stays on it. -/
theorem level_refined {r r' : List (Coord K)} (Y : K) (h : Refined r r') (hr : ∀ q ∈ r, q.y = Y) : ∀ q ∈ r', q.y = Y := by
  induction h with
  | refl => exact hr
  | tail _ h ih =>
    obtain ⟨l, a, m, b, t, rfl, hm, rfl⟩ := h
    exact mem_more ih (seg_eq hm (ih a (by simp)) (ih b (by simp)))

theorem direction_long (r r' : List (Coord K)) (hl : 4 ≤ r.length) (hc : Closed2D r) (h : Refined r r') :
    Orientation.isCCW r' = Orientation.isCCW r := by
  have hl' := hl.trans (length_refined h)
  have hc' := closed2D_refined h hc
  rcases isCCW_exact r hl (fun a b h1 h2 => (hc a b h1 h2).2) with ⟨hflat, e⟩ |
    ⟨k, n, w, ul, uh, dh, dl, b1, b2, b4, b5, b6, b7, b8, b9, hul, hdl, hmax, -, -⟩
  · rw [e]
    obtain ⟨a, ha⟩ : ∃ a, a ∈ r := List.exists_mem_of_length_pos (by omega)
    have flat' := level_refined a.y h (fun q hq => hflat q hq a ha)
    rcases isCCW_exact r' hl' (fun a b h1 h2 => (hc' a b h1 h2).2) with ⟨-, e'⟩ |
      ⟨k, n, w, ul, uh, dh, dl, b1, b2, b4, b5, b6, b7, b8, b9, hul, hdl, hmax, -, -⟩
    · exact e'
    · rw [flat' ul (List.mem_of_getElem? b6), flat' uh (List.mem_of_getElem? b7)] at hul
      exact absurd hul (lt_irrefl _)
  · obtain ⟨Y, hY⟩ : ∃ Y, Y = uh.y := ⟨_, rfl⟩
    obtain ⟨ul, uh, dh, dl, hcap⟩ := cap_exists r Y hc (hY ▸ hmax) ⟨uh, List.mem_of_getElem? b7, hY.symm⟩ ⟨ul, List.mem_of_getElem? b6, hY ▸ hul⟩
    rcases hcap with hcap | hcap
    · have key : ∃ ul' uh' dh' dl', CapA Y r' ul' uh' dh' dl' ∧ (CapLeft ul' uh' dh' dl' ↔ CapLeft ul uh dh dl) := by
        clear hl' hc'
        induction h with
        | refl => exact ⟨_, _, _, _, hcap, Iff.rfl⟩
        | tail _ h ih =>
          obtain ⟨u1, u2, u3, u4, c1, c2⟩ := ih
          obtain ⟨v1, v2, v3, v4, d1, d2⟩ := capA_more _ _ _ _ _ _ _ c1 h
          exact ⟨v1, v2, v3, v4, d1, d2.trans c2⟩
      obtain ⟨u1, u2, u3, u4, c1, c2⟩ := key
      rw [capA_answer _ r _ _ _ _ hl hc hcap, capA_answer _ r' _ _ _ _ hl' hc' c1]
      congr 1
      exact decide_eq_decide.mpr c2
    · have key : ∃ ul' uh' dh' dl', CapB Y r' ul' uh' dh' dl' ∧ (CapLeft ul' uh' dh' dl' ↔ CapLeft ul uh dh dl) := by
        clear hl' hc'
        induction h with
        | refl => exact ⟨_, _, _, _, hcap, Iff.rfl⟩
        | tail _ h ih =>
          obtain ⟨u1, u2, u3, u4, c1, c2⟩ := ih
          obtain ⟨v1, v2, v3, v4, d1, d2⟩ := capB_more _ _ _ _ _ _ _ c1 h
          exact ⟨v1, v2, v3, v4, d1, d2.trans c2⟩
      obtain ⟨u1, u2, u3, u4, c1, c2⟩ := key
      rw [capB_answer _ r _ _ _ _ hl hcap, capB_answer _ r' _ _ _ _ hl' c1]
      congr 1
      exact decide_eq_decide.mpr c2

/-- Every vertex of a line with an edge is on it. -/
theorem vertex_onLine (r : List (Coord K)) (hl : 2 ≤ r.length) (q : Coord K) (hq : q ∈ r) : OnLine q r := by
  obtain ⟨i, hi, rfl⟩ := List.mem_iff_getElem.mp hq
  rcases Nat.lt_or_ge (i + 1) r.length with h | h
  · refine ⟨(segs r)[i]'(by simp; omega), List.getElem_mem _, ?_⟩
    rw [getElem_segs]; exact (onSegment_end _ _ _).1 ⟨rfl, rfl⟩
  · refine ⟨(segs r)[i - 1]'(by simp; omega), List.getElem_mem _, ?_⟩
    rw [getElem_segs]
    have : i - 1 + 1 = i := by omega
    simp only [this]
    exact (onSegment_end _ _ _).2 ⟨rfl, rfl⟩

theorem refined_single (a : Coord K) (r : List (Coord K)) (h : Refined [a] r) : r = [a] := by
  induction h with
  | refl => rfl
  | tail _ h ih =>
    obtain ⟨l, c, m, d, t, rfl, hm, rfl⟩ := h
    have := congrArg List.length ih
    simp at this; omega

/-- The vertices of a closed ring of at most three points, refined, are on one segment. -/
theorem short_on_segment (r r' : List (Coord K)) (hne : r ≠ []) (hl : r.length ≤ 3) (hc : Closed2D r) (h : Refined r r') :
    ∃ a b, ∀ q ∈ r', OnSegment q a b := by
  match r, hne, hl, hc, h with
  | [a], _, _, _, h =>
    obtain rfl := refined_single a r' h
    exact ⟨a, a, by intro q hq; rw [List.mem_singleton] at hq; subst hq; exact (onSegment_end _ _ _).1 ⟨rfl, rfl⟩⟩
  | [a, b], _, _, _, h =>
    refine ⟨a, b, fun q hq => ?_⟩
    have := (onLine_refined q h).mp (vertex_onLine r' (by have := length_refined h; simpa using this) q hq)
    obtain ⟨s, hs, ho⟩ := this
    simp at hs; subst hs; exact ho
  | [a, b, c], _, _, hc, h =>
    refine ⟨a, b, fun q hq => ?_⟩
    have := (onLine_refined q h).mp (vertex_onLine r' (by have := length_refined h; simp at this; omega) q hq)
    obtain ⟨s, hs, ho⟩ := this
    obtain ⟨e1, e2⟩ := hc a c rfl rfl
    simp at hs
    rcases hs with rfl | rfl
    · exact ho
    · rw [onSegment_swap]
      obtain ⟨t, t0, t1, h1, h2⟩ := ho
      exact ⟨t, t0, t1, by rw [e1]; exact h1, by rw [e2]; exact h2⟩

/-- On a segment the test answers no. -/
theorem segment_not_ccw (r : List (Coord K)) (hc : Closed2D r) (hne : r ≠ []) (a b : Coord K) (h : ∀ q ∈ r, OnSegment q a b) :
    Orientation.isCCW r = .ok false := by
  rcases Nat.lt_or_ge r.length 4 with hs | hl
  · have hp := List.length_pos_iff.mpr hne
    unfold Orientation.isCCW Orientation.isCCWSeq
    rw [show Res.sub (Orientation.asSeq r).size 1 = .ok (r.length - 1) from if_pos hp]
    simp only [Res.bind_ok]
    rw [if_pos (by omega)]; rfl
  · rcases isCCW_exact r hl (fun a b h1 h2 => (hc a b h1 h2).2) with ⟨-, e⟩ |
      ⟨k, n, w, ul, uh, dh, dl, b1, b2, b4, b5, b6, b7, b8, b9, hul, hdl, hmax, -, -⟩
    · exact e
    · obtain ⟨Y, hY⟩ : ∃ Y, Y = uh.y := ⟨_, rfl⟩
      obtain ⟨vl, vh, wh, wl, hcap⟩ := cap_exists r Y hc (hY ▸ hmax) ⟨uh, List.mem_of_getElem? b7, hY.symm⟩ ⟨ul, List.mem_of_getElem? b6, hY ▸ hul⟩
      have key : vl ∈ r → vh ∈ r → wh ∈ r → wl ∈ r → vl.y < Y → vh.y = Y → wh.y = Y → ¬ CapLeft vl vh wh wl := by
        intro m1 m2 m3 m4 y1 y2 y3
        obtain ⟨t1, -, -, x1, z1⟩ := h _ m1
        obtain ⟨t2, -, -, x2, z2⟩ := h _ m2
        obtain ⟨t3, -, -, x3, z3⟩ := h _ m3
        obtain ⟨t4, -, -, x4, z4⟩ := h _ m4
        have hne : b.y - a.y ≠ 0 := by
          intro h0; rw [z1, h0] at y1; rw [z2, h0] at y2; linarith
        have ht : t2 = t3 := by
          have : t2 * (b.y - a.y) = t3 * (b.y - a.y) := by linarith
          exact mul_right_cancel₀ hne this
        unfold CapLeft
        rw [if_pos ⟨by rw [x2, x3, ht], by rw [y2, y3]⟩]
        have : det vl vh wl = 0 := by unfold det; rw [x1, z1, x2, z2, x4, z4]; ring
        rw [this]; exact lt_irrefl _
      rcases hcap with hcap | hcap
      · rw [capA_answer _ r _ _ _ _ hl hc hcap]
        obtain ⟨W, T, V, rfl, h1, h2, h3, h4, hul, hW, hT, hV⟩ := hcap
        congr 1
        refine decide_eq_false (key ?_ ?_ ?_ ?_ hul (hT _ (List.mem_of_head? h2)) (hT _ (List.mem_of_getLast? h3)))
        · simp [List.mem_of_getLast? h1]
        · simp [List.mem_of_head? h2]
        · simp [List.mem_of_getLast? h3]
        · simp [List.mem_of_head? h4]
      · rw [capB_answer _ r _ _ _ _ hl hcap]
        obtain ⟨F, W, T, rfl, h1, h2, h3, h4, hul, hdl, hF, hW, hT⟩ := hcap
        congr 1
        refine decide_eq_false (key ?_ ?_ ?_ ?_ hul (hT _ (List.mem_of_head? h4)) (hF _ (List.mem_of_getLast? h1)))
        · simp [List.mem_of_getLast? h3]
        · simp [List.mem_of_head? h4]
        · simp [List.mem_of_getLast? h1]
        · simp [List.mem_of_head? h2]

/-- C141: the direction test answers the same for a closed ring and for the ring with points added along its edges. -/
theorem C141_direction (r r' : List (Coord K)) (hc : Closed2D r) (h : Refined r r') :
    Orientation.isCCW r' = Orientation.isCCW r := by
  rcases Nat.lt_or_ge r.length 4 with hl | hl
  · by_cases hne : r = []
    · subst hne
      have : r' = [] := by simpa using (ends_refined h).1
      rw [this]
    · obtain ⟨a, b, ho⟩ := short_on_segment r r' hne (by omega) hc h
      obtain ⟨a', b', ho'⟩ := short_on_segment r r hne (by omega) hc Relation.ReflTransGen.refl
      have hne' : r' ≠ [] := by
        rintro rfl
        have := length_refined h
        exact hne (List.length_eq_zero_iff.mp (by simpa using this))
      rw [segment_not_ccw r hc hne a' b' ho', segment_not_ccw r' (closed2D_refined h hc) hne' a b ho]
  · exact direction_long r r' hl hc h

end exact

/-- The centroid of a polygon with holes is unchanged. -/
theorem C141_polygon_with_holes (p p' : Polygon ℝ) (hp : Proper p)
    (h : List.Forall₂ Refined (p.shell.getCoordinates :: p.holes.map LinearRing.getCoordinates)
      (p'.shell.getCoordinates :: p'.holes.map LinearRing.getCoordinates)) :
    Centroid.fromPolygon p' = Centroid.fromPolygon p := by
  refine C141_holes_centroid p p' hp ?_
  have hc : ∀ r ∈ p.shell.getCoordinates :: p.holes.map LinearRing.getCoordinates, Closed2D r := by
    intro r hr
    rcases List.mem_cons.mp hr with rfl | hr
    · exact hp.1.2
    · obtain ⟨q, hq, rfl⟩ := List.mem_map.mp hr
      exact (hp.2 q hq).2
  exact forall₂_of_mem h (fun r r' hr hrr => ⟨hrr, C141_direction r r' (hc r hr) hrr⟩)

/-- The direction in doubles, if the points of both rings are on a common grid. -/
theorem C141_direction_doubles {sq : ℚ → Val} {hy : ℚ → ℚ → Val} (g : ℤ) (h1 : -484 ≤ g) (h2 : g ≤ 400) (r r' : List (Coord ℚ))
    (hr : ∀ c ∈ r, OnGrid g c) (hr' : ∀ c ∈ r', OnGrid g c) (hc : Closed2D r) (h : Refined r r') :
    Orientation.isCCW (r'.map (toB64 : Coord ℚ → Coord (B64 sq hy))) = Orientation.isCCW (r.map (toB64 : Coord ℚ → Coord (B64 sq hy))) := by
  rw [C66_isCCW g h1 h2 r hr, C66_isCCW g h1 h2 r' hr', C141_direction r r' hc h]

/-! ## Cases -/

section examples

/-- A triangle with a point on an edge and a repeated corner. -/
example : Orientation.isCCW [(Coord.xy 0 0 : Coord ℚ), Coord.xy 4 0, Coord.xy 2 1, Coord.xy 0 2, Coord.xy 0 2, Coord.xy 0 0] = .ok true := by
  rw [C141_direction _ _ (by intro u v h1 h2; simp at h1 h2; subst h1 h2; simp) triangle_refined]
  decide +kernel

/-- A ring with two tops that starts on one of them. -/
example : CapB (2 : ℚ) [Coord.xy 0 2, Coord.xy (-1) 0, Coord.xy 3 0, Coord.xy 2 2, Coord.xy 1 1, Coord.xy 0 2] (Coord.xy 1 1) (Coord.xy 0 2) (Coord.xy 0 2)
    (Coord.xy (-1) 0) :=
  ⟨[Coord.xy 0 2], [Coord.xy (-1) 0, Coord.xy 3 0, Coord.xy 2 2, Coord.xy 1 1], [Coord.xy 0 2], rfl, rfl, rfl, rfl, rfl,
    by norm_num [Coord.xy], by norm_num [Coord.xy], by simp [Coord.xy], by simp [Coord.xy], by simp [Coord.xy]⟩

end examples

end Verif.Props
