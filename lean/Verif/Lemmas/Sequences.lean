import Verif.Model.Sequences
import Verif.Lemmas.Loop
import Mathlib.Tactic.Ring
import Mathlib.Data.Nat.ModEq

set_option linter.unusedSectionVars false

/-! # Sequences as matrices of ordinates: helper lemmas -/

namespace Verif
open Flt SeqOps

theorem asUsize_ofNat (k : Nat) (h : k < 2 ^ 31) : asUsize (k : Int) = k := by
  unfold asUsize; omega

theorem asUsize_of (i : Int) (h0 : 0 ≤ i) (h : i < 2 ^ 31) : asUsize i = i.toNat := by
  unfold asUsize; omega

/-- A sequence type behaves as a matrix of ordinates: `n` rows, `dim` columns, of which those satisfying `Sup` can be stored. `Frame`
says that everything else is the same. -/
class SeqLaws (S : Type) (α : outParam Type) [SeqOps S α] where
  WF : S → Prop
  n : S → Nat
  ord : S → Nat → Nat → α
  Sup : Nat → Prop
  decSup : ∀ k, Decidable (Sup k)
  Frame : S → S → Prop
  sup0 : Sup 0
  sup1 : Sup 1
  dim_ge : ∀ s, WF s → 2 ≤ dim s
  size_eq : ∀ s, WF s → size s = .ok (n s)
  get_eq : ∀ s, WF s → ∀ i < n s, ∀ k < (dim s).toNat, getOrd s i (k : Int) = .ok (ord s i k)
  set_eq : ∀ s, WF s → ∀ i < n s, ∀ k < (dim s).toNat, ∀ v, ∃ s', setOrd s i (k : Int) v = .ok s' ∧ WF s' ∧ Frame s s' ∧
    ∀ i' < n s, ∀ k' < (dim s).toNat, ord s' i' k' = if i' = i ∧ k' = k ∧ Sup k then v else ord s i' k'
  copy_eq : ∀ s : S, SeqOps.copy s = s
  create_wf : ∀ (s : S) sz, WF s → WF (create sz (dim s) : S)
  create_n : ∀ (s : S) sz, WF s → n (create sz (dim s) : S) = sz
  create_dim : ∀ (s : S) sz k, WF s → Sup k → k < (dim s).toNat → k < (dim (create sz (dim s) : S)).toNat
  create_dim_le : ∀ (s : S) sz, WF s → dim (create sz (dim s) : S) ≤ dim s
  frame_refl : ∀ s, Frame s s
  frame_trans : ∀ a b c, Frame a b → Frame b c → Frame a c
  frame_symm : ∀ a b, Frame a b → Frame b a
  frame_n : ∀ a b, Frame a b → n b = n a
  frame_dim : ∀ a b, Frame a b → dim b = dim a
  ext : ∀ a b, WF a → Frame a b → (∀ i < n a, ∀ k < (dim a).toNat, Sup k → ord b i k = ord a i k) → b = a

attribute [instance] SeqLaws.decSup

namespace SeqLaws
variable {S α : Type} [SeqOps S α] [SeqLaws S α] [Flt α]

/-- Columns that exist and can be stored. -/
def Col (s : S) (k : Nat) : Prop := k < (dim s).toNat ∧ Sup (S := S) k

theorem col0 (s : S) (h : WF s) : Col s 0 := ⟨by have := dim_ge s h; omega, sup0⟩
theorem col1 (s : S) (h : WF s) : Col s 1 := ⟨by have := dim_ge s h; omega, sup1⟩

theorem forDim_inv {σ : Type} (d : Int) (s : σ) (f : Int → σ → Res σ) (P : Nat → σ → Prop) (h0 : P 0 s)
    (hf : ∀ (k : Nat) s, k < d.toNat → P k s → ∃ s', f (k : Int) s = .ok s' ∧ P (k + 1) s') :
    ∃ s', Seqs.forDim d s f = .ok s' ∧ P d.toNat s' :=
  forRange_inv 0 d.toNat _ P (Nat.zero_le _) s h0 (fun i s _ hi hp => hf i s hi hp)

/-- Writing one row, ordinate by ordinate. -/
theorem setRow (s : S) (hs : WF s) (i : Nat) (hi : i < n s) (d : Int) (hd : d ≤ dim s) (f : Int → S → Res S)
    (val : Nat → α)
    (hf : ∀ (k : Nat) (s' : S), k < d.toNat → WF s' → Frame s s' →
      (∀ i' < n s, ∀ k' < (dim s).toNat, i' ≠ i → ord s' i' k' = ord s i' k') → f (k : Int) s' = setOrd s' i (k : Int) (val k)) :
    ∃ s', Seqs.forDim d s f = .ok s' ∧ WF s' ∧ Frame s s' ∧
      ∀ i' < n s, ∀ k' < (dim s).toNat, ord s' i' k' =
        if i' = i ∧ k' < d.toNat ∧ Sup (S := S) k' then val k' else ord s i' k' := by
  obtain ⟨s', h1, h2⟩ := forDim_inv d s f (fun m s' => WF s' ∧ Frame s s' ∧
      ∀ i' < n s, ∀ k' < (dim s).toNat, ord s' i' k' =
        if i' = i ∧ k' < m ∧ Sup (S := S) k' then val k' else ord s i' k')
    ⟨hs, frame_refl s, fun i' _ k' _ => by rw [if_neg (by omega)]⟩ (by
      rintro k s' hk ⟨hw, hfr, ho⟩
      have hn := frame_n s s' hfr
      have hdim := frame_dim s s' hfr
      rw [hf k s' hk hw hfr (fun i' h1 k' h2 hne => by rw [ho i' h1 k' h2, if_neg (by tauto)])]
      obtain ⟨s2, e1, e2, e3, e4⟩ := set_eq s' hw i (by omega) k (by omega) (val k)
      refine ⟨s2, e1, e2, frame_trans _ _ _ hfr e3, ?_⟩
      intro i' h1 k' h2
      rw [e4 i' (by omega) k' (by omega), ho i' h1 k' h2]
      by_cases c1 : i' = i <;> by_cases c2 : k' = k
      · subst c1; subst c2
        by_cases c3 : Sup (S := S) k'
        · simp [c3]
        · simp [c3]
      · have : (k' < k + 1) = (k' < k) := by rw [eq_iff_iff]; omega
        simp [c2, this]
      · simp [c1]
      · simp [c1])
  exact ⟨s', h1, h2.1, h2.2.1, h2.2.2⟩

/-- `swap` exchanges two rows. -/
theorem swap_spec (s : S) (hs : WF s) (i j : Nat) (hi : i < n s) (hj : j < n s) :
    ∃ s', Seqs.swap s i j = .ok s' ∧ WF s' ∧ Frame s s' ∧
      ∀ r < n s, ∀ k, Col s k → ord s' r k = ord s (if r = i then j else if r = j then i else r) k := by
  unfold Seqs.swap
  by_cases hij : i = j
  · subst hij
    refine ⟨s, by simp, hs, frame_refl s, ?_⟩
    intro r _ k _
    by_cases h : r = i <;> simp [h]
  · rw [if_neg hij]
    obtain ⟨s', h1, h2⟩ := forDim_inv (dim s) s (fun d seq => do
        let tmp ← getOrd seq i d
        let v ← getOrd seq j d
        let seq ← setOrd seq i d v
        setOrd seq j d tmp) (fun m s' => WF s' ∧ Frame s s' ∧
        (∀ r < n s, ∀ k < (dim s).toNat, Sup (S := S) k → ord s' r k =
          if k < m then ord s (if r = i then j else if r = j then i else r) k else ord s r k))
      ⟨hs, frame_refl s, fun r _ k _ _ => by rw [if_neg (by omega)]⟩ (by
        rintro m s' hm ⟨hw, hfr, ho⟩
        have hn := frame_n s s' hfr
        have hdim := frame_dim s s' hfr
        rw [get_eq s' hw i (by omega) m (by omega), get_eq s' hw j (by omega) m (by omega)]
        obtain ⟨s1, e1, e2, e3, e4⟩ := set_eq s' hw i (by omega) m (by omega) (ord s' j m)
        have hn1 := frame_n s' s1 e3
        have hdim1 := frame_dim s' s1 e3
        obtain ⟨s2, g1, g2, g3, g4⟩ := set_eq s1 e2 j (by omega) m (by omega) (ord s' i m)
        refine ⟨s2, by simp [e1, g1], g2, frame_trans _ _ _ hfr (frame_trans _ _ _ e3 g3), ?_⟩
        intro r hr k hk hsup
        rw [g4 r (by omega) k (by omega), e4 r (by omega) k (by omega)]
        by_cases hkm : k = m
        · subst hkm
          have a1 := ho i hi k hk hsup
          have a2 := ho j hj k hk hsup
          have a3 := ho r hr k hk hsup
          rw [if_neg (by omega)] at a1 a2 a3
          rw [if_pos (show k < k + 1 by omega)]
          by_cases c1 : r = i
          · subst c1; simp [hij, hsup, a2]
          · by_cases c2 : r = j
            · subst c2; simp [hsup, c1, a1]
            · simp [c1, c2, a3]
        · rw [if_neg (by omega), if_neg (by omega), ho r hr k hk hsup]
          have : (k < m + 1) = (k < m) := by rw [eq_iff_iff]; omega
          simp [this])
    refine ⟨s', h1, h2.1, h2.2.1, ?_⟩
    rintro r hr k ⟨hk, hsup⟩
    rw [h2.2.2 r hr k hk hsup, if_pos hk]

/-- `reverse` reverses the rows. -/
theorem reverse_spec (s : S) (hs : WF s) :
    ∃ s', Seqs.reverse s = .ok s' ∧ WF s' ∧ Frame s s' ∧
      ∀ r < n s, ∀ k, Col s k → ord s' r k = ord s (n s - 1 - r) k := by
  unfold Seqs.reverse
  rw [size_eq s hs, Res.bind_ok]
  by_cases h1 : n s ≤ 1
  · rw [if_pos h1]
    refine ⟨s, rfl, hs, frame_refl s, ?_⟩
    intro r hr k _
    congr 1; omega
  · rw [if_neg h1]
    obtain ⟨s', e1, e2, e3, e4⟩ := forRange_inv 0 ((n s - 1) / 2 + 1) (fun i seq => do
        let j ← Res.sub (n s - 1) i
        Seqs.swap seq i j) (fun m s' => WF s' ∧ Frame s s' ∧
        ∀ r < n s, ∀ k, Col s k → ord s' r k =
          if r < m ∨ n s - 1 - r < m then ord s (n s - 1 - r) k else ord s r k) (Nat.zero_le _) s
      ⟨hs, frame_refl s, fun r _ k _ => by rw [if_neg (by omega)]⟩ (by
        rintro m s' - hm ⟨hw, hfr, ho⟩
        have hn := frame_n s s' hfr
        have hdim := frame_dim s s' hfr
        rw [Res.sub_le (by omega), Res.bind_ok]
        obtain ⟨s2, g1, g2, g3, g4⟩ := swap_spec s' hw m (n s - 1 - m) (by omega) (by omega)
        refine ⟨s2, g1, g2, frame_trans _ _ _ hfr g3, ?_⟩
        intro r hr k hk
        rw [g4 r (by omega) k ⟨by rw [hdim]; exact hk.1, hk.2⟩]
        by_cases c1 : r = m
        · subst c1
          rw [if_pos rfl, ho _ (by omega) k hk, if_pos (show r < r + 1 ∨ n s - 1 - r < r + 1 by omega), if_neg (by omega)]
        · rw [if_neg c1]
          by_cases c2 : r = n s - 1 - m
          · rw [if_pos c2, ho _ (by omega) k hk, if_pos (show r < m + 1 ∨ n s - 1 - r < m + 1 by omega), if_neg (by omega)]
            congr 1; omega
          · rw [if_neg c2, ho _ (by omega) k hk]
            by_cases c3 : r < m ∨ n s - 1 - r < m
            · rw [if_pos c3, if_pos (show r < m + 1 ∨ n s - 1 - r < m + 1 by omega)]
            · rw [if_neg c3, if_neg (show ¬ (r < m + 1 ∨ n s - 1 - r < m + 1) by omega)])
    refine ⟨s', e1, e2, e3, ?_⟩
    intro r hr k hk
    rw [e4 r hr k hk, if_pos (by omega)]

/-- `copy_coord` copies one row. -/
theorem copyCoord_spec (src dest : S) (hs : WF src) (hd : WF dest) (i j : Nat) (hi : i < n src) (hj : j < n dest) :
    ∃ d', Seqs.copyCoord src i dest j = .ok d' ∧ WF d' ∧ Frame dest d' ∧
      ∀ r < n dest, ∀ k < (dim dest).toNat, ord d' r k =
        if r = j ∧ k < (dim src).toNat ∧ Sup (S := S) k then ord src i k else ord dest r k := by
  obtain ⟨d', h1, h2, h3, h4⟩ := setRow dest hd j hj (min (dim src) (dim dest)) (min_le_right _ _)
    (fun d dest => do
      let v ← getOrd src i d
      setOrd dest j d v) (fun k => ord src i k) (by
      intro k s' hk hw hfr ho
      have := min_le_left (dim src) (dim dest)
      rw [get_eq src hs i hi k (by omega)]; rfl)
  refine ⟨d', h1, h2, h3, ?_⟩
  intro r hr k hk
  rw [h4 r hr k hk]
  have hmin : (min (dim src) (dim dest)).toNat = min (dim src).toNat (dim dest).toNat := by omega
  have : (k < (min (dim src) (dim dest)).toNat) = (k < (dim src).toNat) := by rw [eq_iff_iff, hmin]; omega
  simp only [this]

/-- `copy` copies a block of rows. -/
theorem copy_spec (src dest : S) (hs : WF src) (hd : WF dest) (i j len : Nat) (hi : i + len ≤ n src) (hj : j + len ≤ n dest) :
    ∃ d', Seqs.copy src i dest j len = .ok d' ∧ WF d' ∧ Frame dest d' ∧
      ∀ r < n dest, ∀ k < (dim dest).toNat, ord d' r k =
        if (j ≤ r ∧ r < j + len) ∧ k < (dim src).toNat ∧ Sup (S := S) k then ord src (i + (r - j)) k else ord dest r k := by
  obtain ⟨s', e1, e2, e3, e4⟩ := forRange_inv 0 len (fun m dest => Seqs.copyCoord src (i + m) dest (j + m))
      (fun m s' => WF s' ∧ Frame dest s' ∧
        ∀ r < n dest, ∀ k < (dim dest).toNat, ord s' r k =
        if (j ≤ r ∧ r < j + m) ∧ k < (dim src).toNat ∧ Sup (S := S) k then ord src (i + (r - j)) k else ord dest r k)
      (Nat.zero_le _) dest ⟨hd, frame_refl _, fun r _ k _ => by rw [if_neg (by omega)]⟩ (by
        rintro m s' - hm ⟨hw, hfr, ho⟩
        have hn := frame_n _ _ hfr
        have hdim := frame_dim _ _ hfr
        obtain ⟨s2, g1, g2, g3, g4⟩ := copyCoord_spec src s' hs hw (i + m) (j + m) (by omega) (by omega)
        refine ⟨s2, g1, g2, frame_trans _ _ _ hfr g3, ?_⟩
        intro r hr k hk
        rw [g4 r (by omega) k (by omega), ho r hr k hk]
        by_cases c1 : r = j + m
        · subst c1
          have : j + m - j = m := by omega
          by_cases c2 : k < (dim src).toNat ∧ Sup (S := S) k
          · rw [if_pos ⟨rfl, c2⟩, if_pos ⟨by omega, c2⟩, this]
          · rw [if_neg (by tauto), if_neg (by tauto), if_neg (by tauto)]
        · rw [if_neg (by tauto)]
          have : (j ≤ r ∧ r < j + (m + 1)) = (j ≤ r ∧ r < j + m) := by rw [eq_iff_iff]; omega
          simp only [this])
  exact ⟨s', e1, e2, e3, e4⟩

/-- Copying into a new sequence and filling the rest with row `p`. -/
theorem fill_spec (s : S) (hs : WF s) (sz p : Nat) (hp : p < n s) (hsz : n s ≤ sz) :
    ∃ s', (do
        let newseq ← Seqs.copy s 0 (create sz (dim s) : S) 0 (n s)
        forRange (n s) sz newseq (fun i newseq => Seqs.copy s p newseq i 1)) = .ok s' ∧
      WF s' ∧ n s' = sz ∧ Frame (create sz (dim s) : S) s' ∧
      (∀ k, Col s k → Col s' k) ∧
      ∀ r < sz, ∀ k, Col s k → ord s' r k = if r < n s then ord s r k else ord s p k := by
  have hcw := create_wf s sz hs
  have hcn := create_n s sz hs
  obtain ⟨d1, a1, a2, a3, a4⟩ := copy_spec s (create sz (dim s) : S) hs hcw 0 0 (n s) (by omega) (by omega)
  rw [a1, Res.bind_ok]
  have hcol : ∀ k, Col s k → k < (dim (create sz (dim s) : S)).toNat := fun k hk => create_dim s sz k hs hk.2 hk.1
  obtain ⟨s', e1, e2, e3, e4⟩ := forRange_inv (n s) sz (fun i newseq => Seqs.copy s p newseq i 1)
      (fun m s' => WF s' ∧ Frame (create sz (dim s) : S) s' ∧
        ∀ r < m, ∀ k, Col s k → ord s' r k = if r < n s then ord s r k else ord s p k)
      hsz d1 ⟨a2, a3, fun r hr k hk => by
        rw [a4 r (by omega) k (hcol k hk), if_pos ⟨by omega, hk⟩, if_pos hr]; congr 1; omega⟩ (by
        rintro m s' h0 hm ⟨hw, hfr, ho⟩
        have hn := frame_n _ _ hfr
        have hdim := frame_dim _ _ hfr
        obtain ⟨s2, g1, g2, g3, g4⟩ := copy_spec s s' hs hw p m 1 (by omega) (by omega)
        refine ⟨s2, g1, g2, frame_trans _ _ _ hfr g3, ?_⟩
        intro r hr k hk
        rw [g4 r (by omega) k (by rw [hdim]; exact hcol k hk)]
        by_cases c1 : r = m
        · subst c1
          rw [if_pos ⟨by omega, hk⟩, if_neg (by omega)]
          congr 1; omega
        · rw [if_neg (by omega), ho r (by omega) k hk])
  refine ⟨s', e1, e2, by rw [frame_n _ _ e3, hcn], e3, ?_, e4⟩
  intro k hk
  exact ⟨by rw [frame_dim _ _ e3]; exact hcol k hk, hk.2⟩

/-- The ring test reads x and y of the two ends. -/
theorem endsAgree_spec (s : S) (hs : WF s) (h : 0 < n s) :
    Seqs.endsAgree s (n s) = .ok ((ord s 0 0 ==. ord s (n s - 1) 0) && (ord s 0 1 ==. ord s (n s - 1) 1)) := by
  have c0 := (col0 s hs).1
  have c1 := (col1 s hs).1
  have g00 := get_eq s hs 0 h 0 c0
  have g01 := get_eq s hs 0 h 1 c1
  have gl0 := get_eq s hs (n s - 1) (by omega) 0 c0
  have gl1 := get_eq s hs (n s - 1) (by omega) 1 c1
  simp only [Nat.cast_zero, Nat.cast_one] at g00 g01 gl0 gl1
  simp only [Seqs.endsAgree, g00, g01, gl0, gl1, Res.bind_ok]
  cases (ord s 0 0 ==. ord s (n s - 1) 0) <;> rfl

theorem scroll_spec (s : S) (hs : WF s) (first : Nat) (hf : 0 < first) (e : Bool) (he : e = true → 0 < n s) :
    ∃ s', Seqs.scrollEnsureRing s first e = .ok s' ∧ WF s' ∧ Frame s s' ∧
      ∀ r < n s, ∀ k, Col s k → ord s' r k =
        if e = true ∧ r = n s - 1 then (if n s = 1 then ord s r k else ord s (first % (n s - 1)) k)
        else ord s ((first + r) % (if e then n s - 1 else n s)) k := by
  unfold Seqs.scrollEnsureRing
  rw [if_neg (by omega), copy_eq, size_eq s hs, Res.bind_ok]
  have hlast : Seqs.scrollLast (n s) e = (.ok (if e then n s - 1 else n s) : Res Nat) := by
    unfold Seqs.scrollLast
    cases e
    · rfl
    · simp only [if_true]; rw [Res.sub_le (by have := he rfl; omega)]
  rw [hlast, Res.bind_ok]
  generalize hl : (if e then n s - 1 else n s) = last
  have hln : last ≤ n s := by rw [← hl]; split <;> omega
  obtain ⟨s', e1, e2, e3, e4⟩ := forRange_inv 0 last (fun j seq => do
      let seq ← Seqs.forDim (dim seq) seq (fun k seq => do
        let v ← getOrd s ((first + j) % last) k
        setOrd seq j k v)
      if e then
        Seqs.forDim (dim seq) seq (fun k seq => do
          let v ← getOrd seq 0 k
          setOrd seq last k v)
      else pure seq)
      (fun m s' => WF s' ∧ Frame s s' ∧
        ∀ r < n s, ∀ k, Col s k → ord s' r k =
          if r < m then ord s ((first + r) % last) k
          else if e = true ∧ r = last ∧ 0 < m then ord s (first % last) k else ord s r k) (Nat.zero_le _) s
      ⟨hs, frame_refl _, fun r _ k _ => by rw [if_neg (by omega), if_neg (by omega)]⟩ (by
        rintro m s' - hm ⟨hw, hfr, ho⟩
        have hn := frame_n _ _ hfr
        have hdim := frame_dim _ _ hfr
        have hmod : (first + m) % last < last := Nat.mod_lt _ (by omega)
        obtain ⟨s1, a1, a2, a3, a4⟩ := setRow s' hw m (by omega) (dim s') (le_refl _) (fun k seq => do
            let v ← getOrd s ((first + m) % last) k
            setOrd seq m k v) (fun k => ord s ((first + m) % last) k) (by
          intro k s' hk hw hfr ho
          rw [get_eq s hs _ (by omega) k (by omega)]; rfl)
        rw [a1, Res.bind_ok]
        have hn1 := frame_n _ _ a3
        have hdim1 := frame_dim _ _ a3
        have hrow : ∀ r < n s, ∀ k, Col s k → ord s1 r k =
            if r < m + 1 then ord s ((first + r) % last) k
            else if e = true ∧ r = last ∧ 0 < m then ord s (first % last) k else ord s r k := by
          intro r hr k hk
          rw [a4 r (by omega) k (by rw [hdim]; exact hk.1), ho r hr k hk]
          by_cases c1 : r = m
          · subst c1; rw [if_pos ⟨rfl, by rw [hdim]; exact hk⟩, if_pos (by omega)]
          · rw [if_neg (by tauto)]
            by_cases c2 : r < m
            · rw [if_pos c2, if_pos (show r < m + 1 by omega)]
            · rw [if_neg c2, if_neg (show ¬ r < m + 1 by omega)]
        cases e with
        | false =>
          refine ⟨s1, rfl, a2, frame_trans _ _ _ hfr a3, ?_⟩
          intro r hr k hk
          rw [hrow r hr k hk]
          simp
        | true =>
          have hlast1 : last = n s - 1 := by rw [← hl]; rfl
          obtain ⟨s2, b1, b2, b3, b4⟩ := setRow s1 a2 last (by omega) (dim s1) (le_refl _) (fun k seq => do
            let v ← getOrd seq 0 k
            setOrd seq last k v) (fun k => ord s1 0 k) (by
              intro k s' hk hw hfr ho
              have hn := frame_n _ _ hfr
              have hdim := frame_dim _ _ hfr
              rw [get_eq s' hw 0 (by omega) k (by omega), ho 0 (by omega) k hk (by omega)]; rfl)
          refine ⟨s2, b1, b2, frame_trans _ _ _ hfr (frame_trans _ _ _ a3 b3), ?_⟩
          intro r hr k hk
          rw [b4 r (by omega) k (by rw [hdim1, hdim]; exact hk.1)]
          by_cases c1 : r = last
          · subst c1
            rw [if_pos ⟨rfl, by rw [hdim1, hdim]; exact hk⟩, hrow 0 (by omega) k hk, if_pos (by omega), if_neg (by omega),
              if_pos ⟨rfl, rfl, by omega⟩, Nat.add_zero]
          · rw [if_neg (by tauto), hrow r hr k hk]
            simp [c1])
  refine ⟨s', e1, e2, e3, ?_⟩
  intro r hr k hk
  rw [e4 r hr k hk]
  cases e with
  | false =>
    have : last = n s := by rw [← hl]; rfl
    simp only [Bool.false_eq_true, false_and, if_false]
    rw [if_pos (by omega)]
  | true =>
    have : last = n s - 1 := by rw [← hl]; rfl
    simp only [true_and]
    by_cases c : r < last
    · rw [if_pos c, if_neg (show ¬ r = n s - 1 by omega)]
    · rw [if_neg c, if_pos (show r = n s - 1 by omega)]
      by_cases c2 : n s = 1
      · rw [if_pos c2, if_neg (show ¬ (r = last ∧ 0 < last) by omega)]
      · rw [if_neg c2, if_pos (show r = last ∧ 0 < last by omega), this]

end SeqLaws

/-! ## The two instances -/

namespace CASeq
variable {α : Type} [Flt α]

def ord (s : CASeq α) (i k : Nat) : α :=
  match s.coordinates[i]? with
  | none => nan
  | some c => if k = 0 then c.x else if k = 1 then c.y else if k = 2 then c.z else nan

theorem getOrd_eq (s : CASeq α) (i : Nat) (hi : i < s.coordinates.length) (k : Nat) :
    s.getOrd i (k : Int) = .ok (s.ord i k) := by
  have hk : ∀ m : Nat, ((k : Int) = (m : Int)) = (k = m) := fun m => by rw [eq_iff_iff]; omega
  have h0 := hk 0
  have h1 := hk 1
  have h2 := hk 2
  simp only [Nat.cast_zero, Nat.cast_one, Nat.cast_ofNat] at h0 h1 h2
  simp only [getOrd, Res.get_lt hi, Res.bind_ok, ord, List.getElem?_eq_getElem hi, Coord.getOrdinate, h0, h1, h2]
  split_ifs <;> rfl

theorem ord_setOrd (c : Coord α) (k k' : Nat) (v : α) :
    (let c' := if (k : Int) = 0 then { c with x := v } else if (k : Int) = 1 then { c with y := v } else c.setOrdinate k v
     (if k' = 0 then c'.x else if k' = 1 then c'.y else if k' = 2 then c'.z else nan) =
      if k' = k ∧ k < 3 then v else (if k' = 0 then c.x else if k' = 1 then c.y else if k' = 2 then c.z else nan)) ∧
     (if (k : Int) = 0 then { c with x := v } else if (k : Int) = 1 then { c with y := v } else c.setOrdinate k v).m = c.m := by
  simp only [Coord.setOrdinate]
  constructor
  · by_cases h0 : k = 0
    · subst h0; by_cases c0 : k' = 0
      · subst c0; simp
      · simp [c0]
    · by_cases h1 : k = 1
      · subst h1; by_cases c0 : k' = 1
        · subst c0; simp
        · simp [c0]
      · by_cases h2 : k = 2
        · subst h2; by_cases c0 : k' = 2
          · subst c0; simp
          · simp [c0]
        · have e0 : ((k : Int) = 0) = False := by simp [h0]
          have e1 : ((k : Int) = 1) = False := by rw [eq_iff_iff]; simp; omega
          have e2 : ((k : Int) = 2) = False := by rw [eq_iff_iff]; simp; omega
          have e3 : (k < 3) = False := by rw [eq_iff_iff]; simp; omega
          simp only [e0, e1, e2, e3, if_false, and_false]
  · split_ifs <;> rfl

/-- Same dimension, measures and length; the ordinates outside of the dimension, and all measures, are the same. -/
def Frame (s s' : CASeq α) : Prop :=
  s'.dimension = s.dimension ∧ s'.measures = s.measures ∧ s'.coordinates.length = s.coordinates.length ∧
  (∀ i : Nat, (s'.coordinates[i]?).map Coord.m = (s.coordinates[i]?).map Coord.m) ∧
  (∀ i k, s.dimension.toNat ≤ k → s'.ord i k = s.ord i k)

theorem setOrd_spec (s : CASeq α) (i : Nat) (hi : i < s.coordinates.length) (k : Nat) (hk : k < s.dimension.toNat) (v : α) :
    ∃ s', s.setOrd i (k : Int) v = .ok s' ∧ s'.dimension = s.dimension ∧ Frame s s' ∧
      ∀ i' k', s'.ord i' k' = if i' = i ∧ k' = k ∧ k < 3 then v else s.ord i' k' := by
  have hord : ∀ i' k', (CASeq.mk s.dimension s.measures (s.coordinates.set i
      (if (k : Int) = 0 then { s.coordinates[i] with x := v } else if (k : Int) = 1 then { s.coordinates[i] with y := v }
        else (s.coordinates[i]).setOrdinate k v))).ord i' k' =
      if i' = i ∧ k' = k ∧ k < 3 then v else s.ord i' k' := by
    intro i' k'
    unfold ord
    by_cases c : i' = i
    · subst c
      rw [List.getElem?_set_self hi, List.getElem?_eq_getElem hi]
      simp only [true_and]
      exact (ord_setOrd s.coordinates[i'] k k' v).1
    · rw [List.getElem?_set_ne (Ne.symm c), if_neg (by tauto)]
  refine ⟨CASeq.mk s.dimension s.measures (s.coordinates.set i
      (if (k : Int) = 0 then { s.coordinates[i] with x := v } else if (k : Int) = 1 then { s.coordinates[i] with y := v }
        else (s.coordinates[i]).setOrdinate k v)), by simp only [setOrd, Res.get_lt hi, Res.bind_ok, Res.set_lt hi, Res.pure_eq], rfl, ⟨rfl, rfl, by simp, ?_, ?_⟩, hord⟩
  · intro i'
    by_cases c : i' = i
    · subst c
      rw [List.getElem?_set_self hi, List.getElem?_eq_getElem hi, Option.map_some, Option.map_some]
      rw [(ord_setOrd s.coordinates[i'] k 0 v).2]
    · rw [List.getElem?_set_ne (Ne.symm c)]
  · intro i' k' hk'
    rw [hord i' k', if_neg (by omega)]

instance : SeqLaws (CASeq α) α where
  WF s := 2 ≤ s.dimension
  n s := s.coordinates.length
  ord := ord
  Sup k := k < 3
  decSup k := inferInstance
  Frame := Frame
  sup0 := by omega
  sup1 := by omega
  dim_ge s h := h
  size_eq s h := rfl
  get_eq s h i hi k hk := getOrd_eq s i hi k
  set_eq s h i hi k hk v := by
    obtain ⟨s', h1, h2, h3, h4⟩ := setOrd_spec s i hi k hk v
    exact ⟨s', h1, by rw [h2]; exact h, h3, fun i' _ k' _ => h4 i' k'⟩
  copy_eq s := rfl
  create_wf s sz h := by
    simp only [SeqOps.create, SeqOps.dim, create, newWithSizeDimension]; split_ifs <;> omega
  create_n s sz h := by simp [SeqOps.create, create, newWithSizeDimension]
  create_dim s sz k h h1 h2 := by
    simp only [SeqOps.create, SeqOps.dim, create, newWithSizeDimension] at *; split_ifs <;> omega
  create_dim_le s sz h := by
    simp only [SeqOps.create, SeqOps.dim, create, newWithSizeDimension] at *; split_ifs <;> omega
  frame_refl s := ⟨rfl, rfl, rfl, fun _ => rfl, fun _ _ _ => rfl⟩
  frame_trans a b c h1 h2 := ⟨h2.1.trans h1.1, h2.2.1.trans h1.2.1, h2.2.2.1.trans h1.2.2.1,
    fun i => (h2.2.2.2.1 i).trans (h1.2.2.2.1 i),
    fun i k hk => (h2.2.2.2.2 i k (by rw [h1.1]; exact hk)).trans (h1.2.2.2.2 i k hk)⟩
  frame_symm a b h := ⟨h.1.symm, h.2.1.symm, h.2.2.1.symm, fun i => (h.2.2.2.1 i).symm,
    fun i k hk => (h.2.2.2.2 i k (by rw [← h.1]; exact hk)).symm⟩
  frame_n a b h := h.2.2.1
  frame_dim a b h := h.1
  ext a b hw h ho := by
    obtain ⟨d1, m1, c1⟩ := a
    obtain ⟨d2, m2, c2⟩ := b
    obtain ⟨h1, h2, h3, h4, h5⟩ := h
    simp only at h1 h2 h3 h4 h5
    subst h1 h2
    congr 1
    apply List.ext_getElem h3
    intro i hi1 hi2
    have hm := h4 i
    rw [List.getElem?_eq_getElem hi1, List.getElem?_eq_getElem hi2, Option.map_some, Option.map_some] at hm
    have hall : ∀ k < 3, (CASeq.mk d2 m2 c2).ord i k = (CASeq.mk d2 m2 c1).ord i k := by
      intro k hk
      by_cases hd : k < d2.toNat
      · exact ho i hi2 k hd hk
      · exact h5 i k (by omega)
    have e0 := hall 0 (by omega)
    have e1 := hall 1 (by omega)
    have e2 := hall 2 (by omega)
    simp only [ord, List.getElem?_eq_getElem hi1, List.getElem?_eq_getElem hi2] at e0 e1 e2
    simp at e0 e1 e2 hm
    cases hc1 : c1[i]; cases hc2 : c2[i]
    rw [hc1, hc2] at e0 e1 e2 hm
    simp_all

end CASeq

namespace PSeq
variable {α : Type} [Flt α]

def ord (s : PSeq α) (i k : Nat) : α := (s.coords[i * s.dimension.toNat + k]?).getD nan

def WF (s : PSeq α) : Prop := 2 ≤ s.dimension ∧ s.dimension < 2 ^ 31

def n (s : PSeq α) : Nat := s.coords.length / s.dimension.toNat

theorem idx_lt (s : PSeq α) (h : s.WF) (i : Nat) (hi : i < s.n) (k : Nat) (hk : k < s.dimension.toNat) :
    i * s.dimension.toNat + k < s.coords.length := by
  unfold n at hi
  have h1 : (i + 1) * s.dimension.toNat ≤ s.coords.length :=
    (Nat.le_div_iff_mul_le (by have := h.1; omega)).mp hi
  have h2 : (i + 1) * s.dimension.toNat = i * s.dimension.toNat + s.dimension.toNat := by ring
  omega

theorem idx_inj (d i k i' k' : Nat) (hk : k < d) (hk' : k' < d) (h : i * d + k = i' * d + k') : i = i' ∧ k = k' := by
  have h1 : (i * d + k) / d = i := by rw [Nat.mul_comm, Nat.mul_add_div (by omega), Nat.div_eq_of_lt hk]; omega
  have h2 : (i' * d + k') / d = i' := by rw [Nat.mul_comm, Nat.mul_add_div (by omega), Nat.div_eq_of_lt hk']; omega
  have h3 : i = i' := by rw [← h1, ← h2, h]
  subst h3
  exact ⟨rfl, by omega⟩

/-- Same dimension, measures and length, and the numbers beyond the last full coordinate are the same. -/
def Frame (s s' : PSeq α) : Prop :=
  s'.dimension = s.dimension ∧ s'.measures = s.measures ∧ s'.coords.length = s.coords.length ∧
  ∀ p, s.n * s.dimension.toNat ≤ p → s'.coords[p]? = s.coords[p]?

theorem setOrd_spec (s : PSeq α) (h : s.WF) (i : Nat) (hi : i < s.n) (k : Nat) (hk : k < s.dimension.toNat) (v : α) :
    ∃ s', s.setOrd i (k : Int) v = .ok s' ∧ s'.WF ∧ Frame s s' ∧
      ∀ i' < s.n, ∀ k' < s.dimension.toNat, s'.ord i' k' = if i' = i ∧ k' = k ∧ True then v else s.ord i' k' := by
  have hlt := idx_lt s h i hi k hk
  have hd := h.2
  have hd1 := h.1
  refine ⟨{ s with coords := s.coords.set (i * s.dimension.toNat + k) v }, ?_, h, ⟨rfl, rfl, by simp, ?_⟩, ?_⟩
  · simp only [setOrd]
    rw [asUsize_of _ (by omega) (by omega), asUsize_ofNat k (by omega), Res.set_lt hlt]; rfl
  · intro p hp
    have : (i + 1) * s.dimension.toNat ≤ s.n * s.dimension.toNat := Nat.mul_le_mul_right _ hi
    have h2 : (i + 1) * s.dimension.toNat = i * s.dimension.toNat + s.dimension.toNat := by ring
    rw [List.getElem?_set_ne (by omega)]
  · intro i' hi' k' hk'
    simp only [ord]
    by_cases c : i' = i ∧ k' = k
    · obtain ⟨rfl, rfl⟩ := c
      rw [List.getElem?_set_self hlt]; simp
    · rw [List.getElem?_set_ne, if_neg (by tauto)]
      intro he
      have := idx_inj _ _ _ _ _ hk hk' he
      exact c ⟨this.1.symm, this.2.symm⟩

instance : SeqLaws (PSeq α) α where
  WF := WF
  n := n
  ord := ord
  Sup k := True
  decSup k := inferInstance
  Frame := Frame
  sup0 := trivial
  sup1 := trivial
  dim_ge s h := h.1
  size_eq s h := by
    have h1 := h.1; have h2 := h.2
    simp only [SeqOps.size, size, n]
    rw [asUsize_of _ (by omega) (by omega), if_neg (by omega)]; rfl
  get_eq s h i hi k hk := by
    have h1 := h.1; have h2 := h.2
    have hk' : k < s.dimension.toNat := hk
    have hlt := idx_lt s h i hi k hk'
    simp only [SeqOps.getOrd, getOrd, ord]
    rw [asUsize_of _ (by omega) (by omega), asUsize_ofNat k (by omega), Res.get_lt hlt, List.getElem?_eq_getElem hlt]; rfl
  set_eq s h i hi k hk v := setOrd_spec s h i hi k hk v
  copy_eq s := rfl
  create_wf s sz h := h
  create_n s sz h := by
    have h1 := h.1; have h2 := h.2
    simp only [SeqOps.create, create, newWithSize, n, List.length_replicate, SeqOps.dim]
    rw [asUsize_of _ (by omega) (by omega), Nat.mul_div_cancel _ (by omega)]
  create_dim s sz k h h1 h2 := h2
  create_dim_le s sz h := le_refl _
  frame_refl s := ⟨rfl, rfl, rfl, fun _ _ => rfl⟩
  frame_trans a b c h1 h2 := ⟨h2.1.trans h1.1, h2.2.1.trans h1.2.1, h2.2.2.1.trans h1.2.2.1, fun p hp => by
    rw [h2.2.2.2 p (by simp only [n, h1.1, h1.2.2.1]; exact hp), h1.2.2.2 p hp]⟩
  frame_symm a b h := ⟨h.1.symm, h.2.1.symm, h.2.2.1.symm, fun p hp =>
    (h.2.2.2 p (by simp only [n, h.1, h.2.2.1] at hp; exact hp)).symm⟩
  frame_n a b h := by simp only [n, h.1, h.2.2.1]
  frame_dim a b h := h.1
  ext a b hw h ho := by
    obtain ⟨d1, m1, c1⟩ := a
    obtain ⟨d2, m2, c2⟩ := b
    obtain ⟨h1, h2, h3, h4⟩ := h
    simp only at h1 h2 h3 h4
    subst h1 h2
    congr 1
    have hd : 2 ≤ d2 := hw.1
    apply List.ext_getElem?
    intro p
    by_cases hp : p < (PSeq.mk d2 m2 c1).n * d2.toNat
    · have hr : p / d2.toNat < (PSeq.mk d2 m2 c1).n := Nat.div_lt_of_lt_mul (by rw [Nat.mul_comm]; exact hp)
      have hk : p % d2.toNat < d2.toNat := Nat.mod_lt _ (by omega)
      have := ho _ hr _ hk trivial
      simp only [ord] at this
      have e : p / d2.toNat * d2.toNat + p % d2.toNat = p := by rw [Nat.mul_comm]; exact Nat.div_add_mod _ _
      rw [e] at this
      have hlt := idx_lt _ hw _ hr _ hk
      simp only at hlt
      rw [e] at hlt
      rw [List.getElem?_eq_getElem hlt, List.getElem?_eq_getElem (by omega)] at this ⊢
      simpa using this
    · exact h4 p (by omega)

end PSeq
end Verif
