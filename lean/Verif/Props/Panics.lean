import Verif.Props.Geometries
import Verif.Props.GeometryCompare
import Verif.Props.CCW
import Verif.Props.Exceptions2
import Verif.Props.Factory
import Verif.Model.Centroid
import Verif.Model.Distance
import Verif.Lemmas.Loop

/-! # C134: exactly which calls abort

For every arithmetic (NaN and infinities included), every dimension and every number of measures: which calls on coordinate
sequences, arrays, lines, rings, points, polygons, collections and the algorithms on them return, and which abort. -/

namespace Verif.Props
open Flt Verif.Spec Verif.Binary64

/-- The call returns normally. -/
def Returns {β : Type} (r : Res β) : Prop := ∃ b, r = .ok b

section returns
variable {β γ σ : Type}

theorem returns_ok (b : β) : Returns (.ok b : Res β) := ⟨b, rfl⟩
theorem returns_pure (b : β) : Returns (pure b : Res β) := ⟨b, rfl⟩
theorem not_returns_error (e : Panic) : ¬ Returns (.error e : Res β) := fun ⟨_, h⟩ => nomatch h

theorem returns_bind (r : Res β) (f : β → Res γ) : Returns (r >>= f) ↔ ∃ b, r = .ok b ∧ Returns (f b) := by
  cases r with
  | ok b => simp
  | error e => simp [not_returns_error]

/-- The rest of the call always returns. -/
theorem returns_bind_iff {r : Res β} {f : β → Res γ} (h : ∀ b, r = .ok b → Returns (f b)) : Returns (r >>= f) ↔ Returns r := by
  rw [returns_bind]
  exact ⟨fun ⟨b, hb, _⟩ => ⟨b, hb⟩, fun ⟨b, hb⟩ => ⟨b, hb, h b hb⟩⟩

theorem returns_get (l : List β) (i : Nat) : Returns (Res.get l i) ↔ i < l.length := by
  by_cases h : i < l.length
  · simp [h, returns_ok]
  · rw [Res.get_ge (Nat.le_of_not_lt h)]; simp [not_returns_error, h]

theorem returns_sub (a b : Nat) : Returns (Res.sub a b) ↔ b ≤ a := by
  unfold Res.sub; split <;> simp [returns_ok, not_returns_error, *]

theorem returns_set (l : List β) (i : Nat) (a : β) : Returns (Res.set l i a) ↔ i < l.length := by
  unfold Res.set; split <;> simp [returns_ok, not_returns_error, *]

theorem returns_find {lo hi : Nat} {f : Nat → Res (Option β)} (h : ∀ i, lo ≤ i → i < hi → Returns (f i)) : Returns (forFind lo hi f) := by
  have h' : ∀ i, ∃ o, lo ≤ i → i < hi → f i = .ok o := by
    intro i
    by_cases hi' : lo ≤ i ∧ i < hi
    · obtain ⟨o, ho⟩ := h i hi'.1 hi'.2; exact ⟨o, fun _ _ => ho⟩
    · exact ⟨none, fun a b => absurd ⟨a, b⟩ hi'⟩
  choose p hp using h'
  exact ⟨_, forFind_ok lo hi f p hp⟩

/-- A loop whose rounds return whatever the state. -/
theorem returns_range {lo hi : Nat} {f : Nat → σ → Res σ} (s : σ) (h : ∀ i s, lo ≤ i → i < hi → Returns (f i s)) :
    Returns (forRange lo hi s f) := by
  by_cases hl : lo ≤ hi
  · obtain ⟨s', hs, -⟩ := forRange_inv lo hi f (fun _ _ => True) hl s trivial
      (fun i s h1 h2 _ => by obtain ⟨b, hb⟩ := h i s h1 h2; exact ⟨b, hb, trivial⟩)
    exact ⟨s', hs⟩
  · exact ⟨s, forRange_self _ _ (by omega) _ _⟩

/-- A loop whose rounds keep an invariant. -/
theorem range_keeps {lo hi : Nat} {f : Nat → σ → Res σ} {P : σ → Prop} {s : σ} (h0 : P s)
    (h : ∀ i s, lo ≤ i → i < hi → P s → ∃ s', f i s = .ok s' ∧ P s') : ∃ s', forRange lo hi s f = .ok s' ∧ P s' := by
  by_cases hl : lo ≤ hi
  · exact forRange_inv lo hi f (fun _ => P) hl s h0 h
  · exact ⟨s, forRange_self _ _ (by omega) _ _, h0⟩

/-- A loop returns exactly if every round does. -/
theorem returns_range_iff {lo hi : Nat} {f : Nat → σ → Res σ} {P : σ → Prop} {Q : Nat → Prop} {s : σ} (h0 : P s)
    (h : ∀ i s, lo ≤ i → i < hi → P s → (Returns (f i s) ↔ Q i)) (hP : ∀ i s s', lo ≤ i → i < hi → P s → f i s = .ok s' → P s') :
    Returns (forRange lo hi s f) ↔ ∀ i, lo ≤ i → i < hi → Q i := by
  by_cases hl : lo ≤ hi
  · have key : (Returns (forRange lo hi s f) ↔ ∀ i, lo ≤ i → i < hi → Q i) ∧ ∀ s', forRange lo hi s f = .ok s' → P s' := by
      induction hi, hl using Nat.le_induction with
      | base =>
        rw [forRange_self _ _ (Nat.le_refl _)]
        exact ⟨⟨fun _ i h1 h2 => by omega, fun _ => returns_ok s⟩, fun s' hs => by injection hs with hs; exact hs ▸ h0⟩
      | succ n hn ih =>
        obtain ⟨ih1, ih2⟩ := ih (fun i s h1 h2 => h i s h1 (by omega)) (fun i s s' h1 h2 => hP i s s' h1 (by omega))
        rw [forRange_succ lo n hn]
        constructor
        · rw [returns_bind]
          constructor
          · rintro ⟨b, hb, hr⟩ i h1 h2
            rcases Nat.lt_succ_iff_lt_or_eq.mp h2 with h3 | h3
            · exact ih1.mp ⟨b, hb⟩ i h1 h3
            · subst h3; exact (h i b h1 h2 (ih2 b hb)).mp hr
          · intro hQ
            obtain ⟨b, hb⟩ := ih1.mpr (fun i h1 h2 => hQ i h1 (by omega))
            exact ⟨b, hb, (h n b hn (by omega) (ih2 b hb)).mpr (hQ n hn (by omega))⟩
        · intro s' hs
          cases hr : forRange lo n s f with
          | error e => rw [hr] at hs; cases hs
          | ok b => rw [hr] at hs; exact hP n b s' hn (by omega) (ih2 b hr) hs
    exact key.1
  · rw [forRange_self _ _ (by omega)]
    exact ⟨fun _ i h1 h2 => by omega, fun _ => returns_ok s⟩

end returns

/-! ## Sequences -/

section sequences
variable {α : Type} [Flt α]

theorem seq_getOrd (s : CASeq α) (i : Nat) (k : Int) : Returns (s.getOrd i k) ↔ i < s.size := by
  rw [CASeq.getOrd, returns_bind_iff, returns_get]; · rfl
  intro b _
  split; · exact returns_pure _
  split; · exact returns_pure _
  split <;> exact returns_pure _

omit [Flt α] in
/-- Setting an ordinate keeps dimension and size. -/
theorem seq_setOrd (s : CASeq α) (i : Nat) (k : Int) (v : α) (h : i < s.size) :
    ∃ s', s.setOrd i k v = .ok s' ∧ s'.dimension = s.dimension ∧ s'.measures = s.measures ∧ s'.size = s.size := by
  have h' : i < s.coordinates.length := h
  rw [CASeq.setOrd, Res.get_lt h', Res.bind_ok]
  dsimp only
  rw [Res.set_lt h', Res.bind_ok]
  exact ⟨_, rfl, rfl, rfl, by simp [CASeq.size]⟩

omit [Flt α] in
theorem seq_setOrd_iff (s : CASeq α) (i : Nat) (k : Int) (v : α) : Returns (s.setOrd i k v) ↔ i < s.size := by
  constructor
  · rw [CASeq.setOrd, returns_bind]
    rintro ⟨b, hb, -⟩
    exact (returns_get _ _).mp ⟨b, hb⟩
  · intro h; obtain ⟨s', h1, -⟩ := seq_setOrd s i k v h; exact ⟨s', h1⟩

/-- Of the same dimension, measures and size. -/
def SameFrame (s t : CASeq α) : Prop := t.dimension = s.dimension ∧ t.measures = s.measures ∧ t.size = s.size

theorem seq_swap (s : CASeq α) (i j : Nat) (hi : i < s.size) (hj : j < s.size) : ∃ s', Seqs.swap s i j = .ok s' ∧ SameFrame s s' := by
  unfold Seqs.swap
  split
  · exact ⟨s, rfl, rfl, rfl, rfl⟩
  unfold Seqs.forDim
  refine range_keeps (P := SameFrame s) ⟨rfl, rfl, rfl⟩ (fun k t _ _ ht => ?_)
  obtain ⟨a, ha⟩ := (seq_getOrd t i k).mpr (by rw [ht.2.2]; exact hi)
  obtain ⟨b, hb⟩ := (seq_getOrd t j k).mpr (by rw [ht.2.2]; exact hj)
  obtain ⟨u, hu, u1, u2, u3⟩ := seq_setOrd t i k b (by rw [ht.2.2]; exact hi)
  obtain ⟨w, hw, w1, w2, w3⟩ := seq_setOrd u j k a (by rw [u3, ht.2.2]; exact hj)
  refine ⟨w, ?_, by rw [w1, u1, ht.1], by rw [w2, u2, ht.2.1], by rw [w3, u3, ht.2.2]⟩
  show (CASeq.getOrd t i k >>= fun tmp => CASeq.getOrd t j k >>= fun v => CASeq.setOrd t i k v >>= fun seq => CASeq.setOrd seq j k tmp) = _
  rw [ha, Res.bind_ok, hb, Res.bind_ok, hu, Res.bind_ok, hw]

theorem seq_reverse (s : CASeq α) : ∃ s', Seqs.reverse s = .ok s' ∧ SameFrame s s' := by
  show ∃ s', (Except.ok s.size >>= fun n => if n ≤ 1 then pure s else forRange 0 ((n - 1) / 2 + 1) s (fun i seq => do
      let j ← Res.sub (n - 1) i
      Seqs.swap seq i j) : Res (CASeq α)) = .ok s' ∧ _
  rw [Res.bind_ok]
  split
  · exact ⟨s, rfl, rfl, rfl, rfl⟩
  rename_i hn
  refine range_keeps (P := SameFrame s) ⟨rfl, rfl, rfl⟩ (fun i t _ hi ht => ?_)
  rw [Res.sub_le (by omega), Res.bind_ok]
  obtain ⟨u, hu, hs⟩ := seq_swap t i (s.size - 1 - i) (by rw [ht.2.2]; omega) (by rw [ht.2.2]; omega)
  exact ⟨u, hu, by rw [hs.1, ht.1], by rw [hs.2.1, ht.2.1], by rw [hs.2.2, ht.2.2]⟩

/-- Copying a coordinate returns exactly if both places exist, or if there is no ordinate to copy. -/
theorem seq_copyCoord (s t : CASeq α) (i j : Nat) : (i < s.size → j < t.size → ∃ t', Seqs.copyCoord s i t j = .ok t' ∧ SameFrame t t') ∧
    (Returns (Seqs.copyCoord s i t j) ↔ min s.dimension t.dimension ≤ 0 ∨ (i < s.size ∧ j < t.size)) := by
  have one : i < s.size → j < t.size → ∃ t', Seqs.copyCoord s i t j = .ok t' ∧ SameFrame t t' := by
    intro hi hj
    unfold Seqs.copyCoord Seqs.forDim
    refine range_keeps (P := SameFrame t) ⟨rfl, rfl, rfl⟩ (fun k u _ _ hu => ?_)
    obtain ⟨a, ha⟩ := (seq_getOrd s i k).mpr hi
    obtain ⟨w, hw, w1, w2, w3⟩ := seq_setOrd u j k a (by rw [hu.2.2]; exact hj)
    refine ⟨w, ?_, by rw [w1, hu.1], by rw [w2, hu.2.1], by rw [w3, hu.2.2]⟩
    show (CASeq.getOrd s i k >>= fun v => CASeq.setOrd u j k v) = _
    rw [ha, Res.bind_ok, hw]
  refine ⟨one, ⟨fun ⟨b, hb⟩ => ?_, ?_⟩⟩
  · by_contra hc
    rw [not_or] at hc
    obtain ⟨h1, h2⟩ := hc
    have hd : 0 < (min s.dimension t.dimension).toNat := by omega
    unfold Seqs.copyCoord Seqs.forDim at hb
    change forRange 0 (min s.dimension t.dimension).toNat t _ = _ at hb
    rw [forRange_first _ _ hd] at hb
    have : Returns (CASeq.getOrd s i ((0 : Nat) : Int) >>= fun v => CASeq.setOrd t j ((0 : Nat) : Int) v) := by
      cases hr : (CASeq.getOrd s i ((0 : Nat) : Int) >>= fun v => CASeq.setOrd t j ((0 : Nat) : Int) v) with
      | ok w => exact returns_ok w
      | error e =>
        change ((CASeq.getOrd s i ((0 : Nat) : Int) >>= fun v => CASeq.setOrd t j ((0 : Nat) : Int) v) >>= _) = _ at hb
        rw [hr] at hb; cases hb
    rw [returns_bind] at this
    obtain ⟨v, hv, hw⟩ := this
    exact h2 ⟨(seq_getOrd _ _ _).mp ⟨v, hv⟩, (seq_setOrd_iff _ _ _ _).mp hw⟩
  · rintro (h | h)
    · unfold Seqs.copyCoord Seqs.forDim
      change Returns (forRange 0 (min s.dimension t.dimension).toNat t _)
      rw [forRange_self _ _ (by omega)]; exact returns_ok t
    · obtain ⟨u, hu, -⟩ := one h.1 h.2; exact ⟨u, hu⟩

theorem seq_copy (s t : CASeq α) (i j n : Nat) (hi : i + n ≤ s.size) (hj : j + n ≤ t.size) : ∃ t', Seqs.copy s i t j n = .ok t' ∧ SameFrame t t' := by
  unfold Seqs.copy
  refine range_keeps (P := SameFrame t) ⟨rfl, rfl, rfl⟩ (fun k u _ hk hu => ?_)
  obtain ⟨w, hw, hs⟩ := (seq_copyCoord s u (i + k) (j + k)).1 (by omega) (by rw [hu.2.2]; omega)
  exact ⟨w, hw, by rw [hs.1, hu.1], by rw [hs.2.1, hu.2.1], by rw [hs.2.2, hu.2.2]⟩


theorem seq_create (n : Nat) (d : Int) : (CASeq.create n d : CASeq α).size = n ∧ 2 ≤ (CASeq.create n d : CASeq α).dimension := by
  constructor
  · simp [CASeq.create, CASeq.newWithSizeDimension, CASeq.size]
  · show 2 ≤ (if (if d > 3 then 3 else d) < 2 then 2 else (if d > 3 then 3 else d))
    split <;> omega

theorem seq_closed (s : CASeq α) (n : Nat) (h0 : 0 < s.size) (h : s.size ≤ n) : Returns (Seqs.createClosedRing s n) := by
  show Returns (Except.ok s.size >>= fun k => Seqs.copy s 0 (CASeq.create n s.dimension) 0 k >>= fun t =>
    forRange k n t (fun i t => Seqs.copy s 0 t i 1) : Res (CASeq α))
  rw [Res.bind_ok]
  obtain ⟨t, ht, hs⟩ := seq_copy s (CASeq.create n s.dimension) 0 0 s.size (by omega) (by rw [(seq_create n s.dimension).1]; omega)
  rw [ht, Res.bind_ok]
  have ht' : t.size = n := by rw [hs.2.2, (seq_create n s.dimension).1]
  obtain ⟨u, hu, -⟩ := range_keeps (lo := s.size) (hi := n) (f := fun i t => Seqs.copy s 0 t i 1) (P := fun t : CASeq α => t.size = n) ht' (fun i w _ hi hw => by
    obtain ⟨w', h1, h2⟩ := seq_copy s w 0 i 1 (by omega) (by omega)
    exact ⟨w', h1, by rw [h2.2.2, hw]⟩)
  exact ⟨u, hu⟩

theorem seq_ends (s : CASeq α) (h : 0 < s.size) : Returns (Seqs.endsAgree s s.size) := by
  show Returns (s.getOrd 0 0 >>= fun x0 => s.getOrd (s.size - 1) 0 >>= fun xl => if !(x0 ==. xl) then pure false else
    s.getOrd 0 1 >>= fun y0 => s.getOrd (s.size - 1) 1 >>= fun yl => pure (y0 ==. yl))
  rw [returns_bind_iff]; · exact (seq_getOrd _ _ _).mpr h
  intro x _
  rw [returns_bind_iff]; · exact (seq_getOrd _ _ _).mpr (by omega)
  intro y _
  split; · exact returns_pure _
  rw [returns_bind_iff]; · exact (seq_getOrd _ _ _).mpr h
  intro x _
  rw [returns_bind_iff]; · exact (seq_getOrd _ _ _).mpr (by omega)
  exact fun _ _ => returns_pure _

theorem seq_isRing (s : CASeq α) : Returns (Seqs.isRing s) := by
  show Returns (Except.ok s.size >>= fun n => if n = 0 then pure true else if n ≤ 3 then pure false else Seqs.endsAgree s n : Res Bool)
  rw [Res.bind_ok]
  split; · exact returns_pure _
  split; · exact returns_pure _
  exact seq_ends s (by omega)

theorem seq_ensure (s : CASeq α) : Returns (Seqs.ensureValidRing s) := by
  show Returns (Except.ok s.size >>= fun n => if n = 0 then pure s.copy else if n ≤ 3 then Seqs.createClosedRing s.copy 4 else
    Seqs.endsAgree s.copy n >>= fun closed => if closed then pure s.copy else Seqs.createClosedRing s (n + 1) : Res (CASeq α))
  rw [Res.bind_ok]
  split; · exact returns_pure _
  split; · exact seq_closed s.copy 4 (by show 0 < s.size; omega) (by show s.size ≤ 4; omega)
  rw [returns_bind_iff]; · exact seq_ends s.copy (by show 0 < s.size; omega)
  intro b _
  split; · exact returns_pure _
  exact seq_closed s _ (by omega) (by omega)

/-- Extending a sequence with at least one ordinate aborts exactly if it would lose coordinates. -/
theorem seq_extend (s : CASeq α) (n : Nat) (hd : 0 < s.dimension) : Returns (Seqs.extend s n) ↔ s.size ≤ n := by
  show Returns (Except.ok s.size >>= fun k => Seqs.copy s 0 (CASeq.create n s.dimension) 0 k >>= fun t =>
    if k > 0 then forRange k n t (fun i t => Seqs.copy s (k - 1) t i 1) else pure t : Res (CASeq α)) ↔ _
  rw [Res.bind_ok]
  have hc := seq_create (α := α) n s.dimension
  constructor
  · rw [returns_bind]
    rintro ⟨t, ht, -⟩
    by_contra hlt
    have hr : Returns (Seqs.copy s 0 (CASeq.create n s.dimension : CASeq α) 0 s.size) := ⟨t, ht⟩
    unfold Seqs.copy at hr
    rw [returns_range_iff (P := fun t : CASeq α => t.size = n ∧ 2 ≤ t.dimension) (Q := fun i => i < n) hc] at hr
    · exact absurd (hr n (Nat.zero_le _) (by omega)) (by omega)
    · intro i t _ hi ht
      rw [(seq_copyCoord s t (0 + i) (0 + i)).2, ht.1]
      omega
    · intro i t t' _ hi ht hres
      have := ((seq_copyCoord s t (0 + i) (0 + i)).2.mp ⟨t', hres⟩)
      obtain ⟨u, hu, hs⟩ := (seq_copyCoord s t (0 + i) (0 + i)).1 (by omega) (by omega)
      rw [hres] at hu; injection hu with hu; subst hu
      exact ⟨by rw [hs.2.2, ht.1], by rw [hs.1]; exact ht.2⟩
  · intro hn
    obtain ⟨t, ht, hs⟩ := seq_copy s (CASeq.create n s.dimension) 0 0 s.size (by omega) (by rw [hc.1]; omega)
    rw [ht, Res.bind_ok]
    split
    · rename_i h0
      have ht' : t.size = n := by rw [hs.2.2, hc.1]
      obtain ⟨u, hu, -⟩ := range_keeps (lo := s.size) (hi := n) (f := fun i t => Seqs.copy s (s.size - 1) t i 1) (P := fun t : CASeq α => t.size = n) ht' (fun i w _ hi hw => by
        obtain ⟨w', h1, h2⟩ := seq_copy s w (s.size - 1) i 1 (by omega) (by omega)
        exact ⟨w', h1, by rw [h2.2.2, hw]⟩)
      exact ⟨u, hu⟩
    · exact returns_pure _

theorem seq_isEqual (s t : CASeq α) : Returns (Seqs.isEqual s t) := by
  show Returns (Except.ok s.size >>= fun n1 => Except.ok t.size >>= fun n2 => if n1 ≠ n2 then pure false else
    forFind 0 n1 (fun i => forFind 0 (min s.dimension t.dimension).toNat (fun k => s.getOrd i (k : Int) >>= fun v1 => t.getOrd i (k : Int) >>= fun v2 =>
      if v1 ==. v2 then pure none else if isNaN v1 && isNaN v2 then pure none else pure (some false))) >>= fun r => pure (r.getD true) : Res Bool)
  rw [Res.bind_ok, Res.bind_ok]
  split; · exact returns_pure _
  rename_i hn
  rw [returns_bind_iff (fun _ _ => returns_pure _)]
  refine returns_find (fun i _ hi => returns_find (fun k _ _ => ?_))
  rw [returns_bind_iff]; · exact (seq_getOrd _ _ _).mpr hi
  intro a _
  rw [returns_bind_iff]; · exact (seq_getOrd _ _ _).mpr (by omega)
  intro b _
  split; · exact returns_pure _
  split <;> exact returns_pure _

theorem seq_min (s : CASeq α) : Returns (Seqs.minCoordinate s) := by
  show Returns (Except.ok s.size >>= fun n => forRange 0 n none (fun i mc => s.getCoordinate i >>= fun t => match mc with
    | none => pure (some t)
    | some c => if c.compareTo t > 0 then pure (some t) else pure (some c)) : Res (Option (Coord α)))
  rw [Res.bind_ok]
  refine returns_range _ (fun i o _ hi => ?_)
  rw [returns_bind_iff]; · exact (returns_get _ _).mpr hi
  intro c _
  split; · exact returns_pure _
  split <;> exact returns_pure _

/-- The place of the smallest coordinate of a stretch lies in the stretch. -/
theorem seq_minIndex (s : CASeq α) (hi : Nat) (h : hi < s.size) (hb : hi < 2 ^ 64) : ∃ m, Seqs.minCoordinateIndexFromTo s 0 hi = .ok m ∧ m ≤ hi := by
  show ∃ m, (forRange 0 (hi + 1) ((none : Option (Coord α)), (-1 : Int)) (fun i st => s.getCoordinate i >>= fun t => match st.1 with
    | none => pure (some t, (i : Int))
    | some c => if c.compareTo t > 0 then pure (some t, (i : Int)) else pure st) >>= fun r => pure (asUsize r.2) : Res Nat) = .ok m ∧ m ≤ hi
  obtain ⟨r, hr, hP⟩ := forRange_inv 0 (hi + 1) (fun i (st : Option (Coord α) × Int) => s.getCoordinate i >>= fun t => match st.1 with
    | none => pure (some t, (i : Int))
    | some c => if c.compareTo t > 0 then pure (some t, (i : Int)) else pure st)
    (fun i st => (i = 0 ∧ st.1 = none) ∨ (st.1 ≠ none ∧ 0 ≤ st.2 ∧ st.2 < i)) (Nat.zero_le _) (none, -1) (.inl ⟨rfl, rfl⟩) (by
      rintro i ⟨o, k⟩ _ hi' hP
      have hg : s.getCoordinate i = .ok (s.coordinates[i]'(by have : hi < s.coordinates.length := h; omega)) := Res.get_lt _
      rw [hg, Res.bind_ok]
      cases o with
      | none => exact ⟨_, rfl, .inr ⟨by simp, by simp, by simp⟩⟩
      | some c =>
        obtain ⟨-, h1, h2⟩ := hP.resolve_left (by simp)
        dsimp only at h1 h2 ⊢
        split
        · exact ⟨_, rfl, .inr ⟨by simp, by simp, by simp⟩⟩
        · exact ⟨_, rfl, .inr ⟨by simp, h1, by push_cast; omega⟩⟩)
  rw [hr, Res.bind_ok]
  obtain ⟨-, h1, h2⟩ := hP.resolve_left (by simp)
  refine ⟨_, rfl, ?_⟩
  push_cast at h2
  unfold asUsize
  rw [Int.emod_eq_of_lt h1 (by omega)]
  omega

theorem seq_minIndex_returns (s : CASeq α) (lo hi : Nat) (h : hi < s.size) : Returns (Seqs.minCoordinateIndexFromTo s lo hi) := by
  show Returns (forRange lo (hi + 1) ((none : Option (Coord α)), (-1 : Int)) (fun i st => s.getCoordinate i >>= fun t => match st.1 with
    | none => pure (some t, (i : Int))
    | some c => if c.compareTo t > 0 then pure (some t, (i : Int)) else pure st) >>= fun r => pure (asUsize r.2) : Res Nat)
  rw [returns_bind_iff (fun _ _ => returns_pure _)]
  refine returns_range _ (fun i o _ hi' => ?_)
  rw [returns_bind_iff]; · exact (returns_get _ _).mpr (by have : hi < s.coordinates.length := h; omega)
  intro c _
  split; · exact returns_pure _
  split <;> exact returns_pure _

theorem seq_scroll (s : CASeq α) (first : Nat) (b : Bool) : (Returns (Seqs.scrollEnsureRing s first b) ↔ first = 0 ∨ b = false ∨ 0 < s.size) ∧
    ∀ t, Seqs.scrollEnsureRing s first b = .ok t → SameFrame s t := by
  by_cases h0 : first ≤ 0
  · unfold Seqs.scrollEnsureRing
    rw [if_pos h0]
    exact ⟨⟨fun _ => .inl (by omega), fun _ => returns_pure _⟩, fun t ht => by injection ht with ht; subst ht; exact ⟨rfl, rfl, rfl⟩⟩
  have hdef : Seqs.scrollEnsureRing s first b = (Except.ok s.size >>= fun n => Seqs.scrollLast n b >>= fun last =>
      forRange 0 last s (fun j seq => Seqs.forDim seq.dimension seq (fun k seq => s.copy.getOrd ((first + j) % last) k >>= fun v => CASeq.setOrd seq j k v) >>= fun seq =>
        if b then Seqs.forDim seq.dimension seq (fun k seq => seq.getOrd 0 k >>= fun v => CASeq.setOrd seq last k v) else pure seq) : Res (CASeq α)) := by
    unfold Seqs.scrollEnsureRing; rw [if_neg h0]; rfl
  rw [hdef, Res.bind_ok]
  have loop : ∀ last, (b = true → last < s.size) → last ≤ s.size → ∃ t, forRange 0 last s (fun j seq =>
      Seqs.forDim seq.dimension seq (fun k seq => s.copy.getOrd ((first + j) % last) k >>= fun v => CASeq.setOrd seq j k v) >>= fun seq =>
        if b then Seqs.forDim seq.dimension seq (fun k seq => seq.getOrd 0 k >>= fun v => CASeq.setOrd seq last k v) else pure seq) = .ok t ∧ SameFrame s t := by
    intro last hb hl
    refine range_keeps (P := SameFrame s) ⟨rfl, rfl, rfl⟩ (fun j t _ hj ht => ?_)
    have hmod : (first + j) % last < s.copy.size := lt_of_lt_of_le (Nat.mod_lt _ (by omega)) hl
    obtain ⟨u, hu, hs⟩ : ∃ u, Seqs.forDim t.dimension t (fun k seq => s.copy.getOrd ((first + j) % last) k >>= fun v => CASeq.setOrd seq j k v) = .ok u ∧ SameFrame s u := by
      unfold Seqs.forDim
      refine range_keeps (P := SameFrame s) ht (fun k w _ _ hw => ?_)
      obtain ⟨a, ha⟩ := (seq_getOrd s.copy ((first + j) % last) k).mpr hmod
      obtain ⟨w', h1, h2, h3, h4⟩ := seq_setOrd w j k a (by rw [hw.2.2]; omega)
      exact ⟨w', by dsimp only; rw [ha, Res.bind_ok, h1], by rw [h2, hw.1], by rw [h3, hw.2.1], by rw [h4, hw.2.2]⟩
    rw [hu, Res.bind_ok]
    cases b with
    | false => exact ⟨u, rfl, hs⟩
    | true =>
      rw [if_pos rfl]
      unfold Seqs.forDim
      refine range_keeps (P := SameFrame s) hs (fun k w _ _ hw => ?_)
      obtain ⟨a, ha⟩ := (seq_getOrd w 0 k).mpr (by rw [hw.2.2]; omega)
      obtain ⟨w', h1, h2, h3, h4⟩ := seq_setOrd w last k a (by rw [hw.2.2]; exact hb rfl)
      exact ⟨w', by dsimp only; rw [ha, Res.bind_ok, h1], by rw [h2, hw.1], by rw [h3, hw.2.1], by rw [h4, hw.2.2]⟩
  cases b with
  | false =>
    obtain ⟨t, ht, hs⟩ := loop s.size (by simp) (Nat.le_refl _)
    have : Seqs.scrollLast s.size false = .ok s.size := rfl
    rw [this, Res.bind_ok, ht]
    exact ⟨⟨fun _ => .inr (.inl rfl), fun _ => returns_ok t⟩, fun t' h => by injection h with h; exact h ▸ hs⟩
  | true =>
    have : Seqs.scrollLast s.size true = Res.sub s.size 1 := rfl
    rw [this]
    by_cases hs : 1 ≤ s.size
    · obtain ⟨t, ht, hs'⟩ := loop (s.size - 1) (fun _ => by omega) (by omega)
      rw [Res.sub_le hs, Res.bind_ok, ht]
      exact ⟨⟨fun _ => .inr (.inr (by omega)), fun _ => returns_ok t⟩, fun t' h => by injection h with h; exact h ▸ hs'⟩
    · have : Res.sub s.size 1 = .error .arith := if_neg hs
      rw [this]
      refine ⟨⟨fun h => absurd h (not_returns_error _), ?_⟩, fun t h => nomatch h⟩
      rintro (h | h | h)
      · omega
      · cases h
      · omega

theorem seq_indexOf (c : Coord α) (s : CASeq α) : ∃ i, Seqs.indexOf c s = .ok i ∧ i < s.size := by
  show ∃ i, (Except.ok s.size >>= fun n => forFind 0 n (fun i => s.getOrd i 0 >>= fun x => if c.x ==. x then
    s.getOrd i 1 >>= fun y => if c.y ==. y then pure (some (i : Int)) else pure none else pure none) >>= fun r => pure (r.getD (-1)) : Res Int) = .ok i ∧ _
  rw [Res.bind_ok]
  have h' : ∀ i, ∃ o : Option Int, i < s.size → (s.getOrd i 0 >>= fun x => if c.x ==. x then
      s.getOrd i 1 >>= fun y => if c.y ==. y then pure (some (i : Int)) else pure none else pure none) = .ok o ∧ (o = none ∨ o = some (i : Int)) := by
    intro i
    by_cases hi : i < s.size
    · obtain ⟨x, hx⟩ := (seq_getOrd s i 0).mpr hi
      obtain ⟨y, hy⟩ := (seq_getOrd s i 1).mpr hi
      rw [hx, Res.bind_ok, hy, Res.bind_ok]
      by_cases h1 : (c.x ==. x) = true
      · by_cases h2 : (c.y ==. y) = true
        · exact ⟨some (i : Int), fun _ => ⟨by rw [if_pos h1, if_pos h2]; rfl, .inr rfl⟩⟩
        · exact ⟨none, fun _ => ⟨by rw [if_pos h1, if_neg h2]; rfl, .inl rfl⟩⟩
      · exact ⟨none, fun _ => ⟨by rw [if_neg h1]; rfl, .inl rfl⟩⟩
    · exact ⟨none, fun a => absurd a hi⟩
  choose p hp using h'
  rw [forFind_ok 0 s.size _ p (fun i _ hi => (hp i hi).1), Res.bind_ok]
  refine ⟨_, rfl, ?_⟩
  cases hf : (List.range' 0 (s.size - 0)).findSome? p with
  | none => simp only [Option.getD_none]; omega
  | some k =>
    rw [findSome?_range'_some] at hf
    obtain ⟨j, _, h2, h3, _⟩ := hf
    have := (hp j (by omega)).2
    rw [h3] at this
    simp only [reduceCtorEq, Option.some.injEq, false_or] at this
    simp only [Option.getD_some]
    omega

theorem seq_compare (limit : Int) (s t : CASeq α) : Returns (SeqCompare.compareSeq limit s t) := by
  unfold SeqCompare.compareSeq
  dsimp only
  generalize (if t.dimension < s.dimension then t.dimension else s.dimension) = d
  generalize (if decide (limit ≤ d) = true then limit else d) = e
  split; · exact returns_pure _
  split; · exact returns_pure _
  rw [returns_bind_iff]
  · refine returns_find (fun i _ hi => ?_)
    rw [returns_bind_iff]
    · unfold SeqCompare.compareCoordinate
      rw [returns_bind_iff (fun _ _ => returns_pure _)]
      refine returns_find (fun k _ _ => ?_)
      rw [returns_bind_iff]; · exact (seq_getOrd _ _ _).mpr (by omega)
      intro a _
      rw [returns_bind_iff]; · exact (seq_getOrd _ _ _).mpr (by omega)
      intro b _
      dsimp only
      split <;> exact returns_pure _
    · intro b _
      split <;> exact returns_pure _
  · intro r _
    split; · exact returns_pure _
    split; · exact returns_pure _
    split <;> exact returns_pure _


/-- C134: coordinate sequences. Reading or writing an ordinate aborts exactly at a place outside the sequence. Reversing, testing
for a ring, closing, comparing and searching never abort, whatever the dimension and the ordinates. The place of the smallest
coordinate exists exactly for sequences that are not empty; scrolling aborts exactly for an empty sequence and a place other than
0; extending exactly if coordinates would be lost. -/
theorem C134_sequences (s t : CASeq α) (c : Coord α) (v : α) (i : Nat) (k limit : Int) :
    (Returns (s.getCoordinate i) ↔ i < s.size) ∧ (Returns (s.getOrd i k) ↔ i < s.size) ∧ (Returns (s.setOrd i k v) ↔ i < s.size) ∧
    Returns (Seqs.reverse s) ∧ Returns (Seqs.isRing s) ∧ Returns (Seqs.ensureValidRing s) ∧ Returns (Seqs.isEqual s t) ∧
    Returns (Seqs.minCoordinate s) ∧ Returns (Seqs.indexOf c s) ∧ Returns (Seqs.scrollCoordinate s c) ∧
    Returns (SeqCompare.compareSeq limit s t) ∧ (Returns (Seqs.minCoordinateIndex s) ↔ 0 < s.size) ∧
    (Returns (Seqs.scrollIndex s i) ↔ i = 0 ∨ 0 < s.size) ∧ (0 < s.dimension → (Returns (Seqs.extend s i) ↔ s.size ≤ i)) := by
  refine ⟨returns_get _ _, seq_getOrd _ _ _, seq_setOrd_iff _ _ _ _, ?_, seq_isRing s, seq_ensure s, seq_isEqual s t, seq_min s, ?_, ?_,
    seq_compare limit s t, ?_, ?_, seq_extend s i⟩
  · obtain ⟨u, hu, -⟩ := seq_reverse s; exact ⟨u, hu⟩
  · obtain ⟨j, hj, -⟩ := seq_indexOf c s; exact ⟨j, hj⟩
  · obtain ⟨j, hj, hlt⟩ := seq_indexOf c s
    unfold Seqs.scrollCoordinate
    rw [hj, Res.bind_ok]
    split; · exact returns_pure _
    unfold Seqs.scrollIndex
    rw [returns_bind_iff]; · exact seq_isRing s
    intro b _
    exact (seq_scroll s _ b).1.mpr (.inr (.inr (by omega)))
  · show Returns (Except.ok s.size >>= fun n => Res.sub n 1 >>= fun l => Seqs.minCoordinateIndexFromTo s 0 l : Res Nat) ↔ _
    rw [Res.bind_ok, returns_bind_iff, returns_sub]; · exact Nat.succ_le_iff
    intro l hl
    have h1 : 1 ≤ s.size := (returns_sub _ _).mp ⟨l, hl⟩
    rw [Res.sub_le h1] at hl; injection hl with hl
    exact seq_minIndex_returns s 0 l (by omega)
  · unfold Seqs.scrollIndex
    obtain ⟨b, hb⟩ := seq_isRing s
    rw [hb, Res.bind_ok, (seq_scroll s i b).1]
    constructor
    · rintro (h | h | h)
      · exact .inl h
      · subst h
        right
        by_contra h0
        have h1 : s.size = 0 := by omega
        have h2 : Seqs.isRing s = .ok true := by
          show (Except.ok s.size >>= fun n => if n = 0 then pure true else if n ≤ 3 then pure false else Seqs.endsAgree s n : Res Bool) = _
          rw [Res.bind_ok, if_pos h1]; rfl
        rw [h2] at hb; cases hb
      · exact .inr h
    · rintro (h | h)
      · exact .inl h
      · exact .inr (.inr h)

/-! ## Arrays of coordinates -/

open CoordArrays in
/-- C134: arrays of coordinates. Ring tests, searches, comparisons, deep copies and the removal of repeated points never abort; comparing with the
reversed other array aborts exactly if the other is shorter; scrolling to an index aborts exactly if the array is not a ring and
the index exceeds its length; scrolling to a coordinate never does. -/
theorem C134_arrays (p q : List (Coord α)) (c : Coord α) (i : Nat) :
    Returns (isRing p) ∧ Returns (indexOf c p) ∧ Returns (ptNotInList p q) ∧ Returns (increasingDirection p) ∧ Returns (copyDeep p) ∧
    Returns (hasRepeatedPoints p) ∧ Returns (hasRepeatedOrInvalidPoints p) ∧ Returns (removeRepeatedOrInvalidPoints p) ∧ Returns (removeRepeatedPoints p) ∧
    Returns (equals p q) ∧ Returns (scrollCoordinate p c) ∧ (Returns (isEqualReversed p q) ↔ p.length ≤ q.length) ∧
    (Returns (scrollIndex p i) ↔ i ≤ p.length ∨ isRing p = .ok true) := by
  have ring : ∀ p : List (Coord α), Returns (isRing p) := by
    intro p
    unfold isRing
    split; · exact returns_ok _
    rw [returns_bind_iff]; · exact (returns_get _ _).mpr (by omega)
    intro a _
    rw [returns_bind_iff]; · exact (returns_get _ _).mpr (by omega)
    intro b _
    split <;> exact returns_pure _
  have index : ∀ (c : Coord α) (p : List (Coord α)), Returns (indexOf c p) := by
    intro c p
    unfold indexOf
    rw [returns_bind_iff (fun _ _ => returns_pure _)]
    refine returns_find (fun i _ hi => ?_)
    rw [returns_bind_iff]; · exact (returns_get _ _).mpr hi
    intro a _
    split <;> exact returns_pure _
  have scroll : ∀ i, Returns (scrollIndex p i) ↔ i ≤ p.length ∨ isRing p = .ok true := by
    intro i
    obtain ⟨b, hb⟩ := ring p
    unfold scrollIndex
    rw [hb, Res.bind_ok]
    have body : ∀ n (s : List (Coord α) × Nat × Nat), s.1.length = p.length → s.2.1 + n ≤ p.length → s.2.2 + n ≤ p.length →
        ∃ s', forRange 0 n s (fun _ s => do
          let c ← Res.get p s.2.2
          let n ← Res.set s.1 s.2.1 c
          pure (n, s.2.1 + 1, s.2.2 + 1)) = .ok s' ∧ s'.1.length = p.length := by
      intro n s h1 h2 h3
      obtain ⟨s', hs', hp⟩ := forRange_inv 0 n (fun _ (s : List (Coord α) × Nat × Nat) => do
          let c ← Res.get p s.2.2
          let n ← Res.set s.1 s.2.1 c
          pure (n, s.2.1 + 1, s.2.2 + 1)) (fun k t => t.1.length = p.length ∧ t.2.1 = s.2.1 + k ∧ t.2.2 = s.2.2 + k) (Nat.zero_le _) s ⟨h1, rfl, rfl⟩ (by
          rintro k ⟨l, a, b⟩ _ hk ⟨e1, e2, e3⟩
          dsimp only at e1 e2 e3 ⊢
          rw [Res.get_lt (by omega), Res.bind_ok, Res.set_lt (by omega), Res.bind_ok]
          exact ⟨_, rfl, by simpa using e1, by simp only; omega, by simp only; omega⟩)
      exact ⟨s', hs', hp.1⟩
    unfold scrollIndexEnsureRing
    by_cases h0 : i ≤ 0
    · rw [if_pos h0]; exact ⟨fun _ => .inl (by omega), fun _ => returns_ok _⟩
    rw [if_neg h0]
    cases b with
    | false =>
      dsimp only
      rw [if_pos (by rfl)]
      by_cases hi : i ≤ p.length
      · rw [Res.sub_le hi, Res.bind_ok]
        obtain ⟨s, hs, hl⟩ := body (p.length - i) (List.replicate p.length Coord.default, 0, i) (by simp) (by simp) (by simp only; omega)
        rw [hs, Res.bind_ok, Res.bind_ok]
        obtain ⟨s', hs', -⟩ := body i (s.1, p.length - i, 0) hl (by simp only; omega) (by simp only; omega)
        rw [hs', Res.bind_ok]
        exact ⟨fun _ => .inl hi, fun _ => returns_pure _⟩
      · have : Res.sub p.length i = .error .arith := if_neg hi
        rw [this]
        exact ⟨fun h => absurd h (not_returns_error _), fun h => by rcases h with h | h; exacts [absurd h hi, by simp at h]⟩
    | true =>
      refine ⟨fun _ => .inr rfl, fun _ => ?_⟩
      dsimp only
      rw [if_neg (by simp)]
      have hlen : 4 ≤ p.length := by
        by_contra h
        unfold isRing at hb
        rw [if_pos (by omega)] at hb; cases hb
      rw [Res.sub_le (by omega), Res.bind_ok]
      obtain ⟨l, hl, hp⟩ := range_keeps (lo := 0) (hi := p.length - 1) (f := fun j (new : List (Coord α)) => do
        let c ← Res.get p ((i + j) % (p.length - 1))
        Res.set new j c) (P := fun l => l.length = p.length) (s := List.replicate p.length Coord.default) (by simp) (by
          intro j l _ hj hl
          have : (i + j) % (p.length - 1) < p.length - 1 := Nat.mod_lt _ (by omega)
          rw [Res.get_lt (by omega), Res.bind_ok, Res.set_lt (by omega)]
          exact ⟨_, rfl, by simpa using hl⟩)
      rw [hl, Res.bind_ok, Res.get_lt (by omega), Res.bind_ok]
      exact (returns_set _ _ _).mpr (by omega)
  have repeated : Returns (hasRepeatedPoints p) := by
    unfold hasRepeatedPoints
    rw [returns_bind_iff (fun _ _ => returns_pure _)]
    refine returns_find (fun i _ hi => ?_)
    rw [returns_bind_iff]; · exact (returns_get _ _).mpr (by omega)
    intro a _
    rw [returns_bind_iff]; · exact (returns_get _ _).mpr (by omega)
    intro b _
    split <;> exact returns_pure _
  have invalid : Returns (hasRepeatedOrInvalidPoints p) := by
    unfold hasRepeatedOrInvalidPoints
    rw [returns_bind_iff (fun _ _ => returns_pure _)]
    refine returns_find (fun i _ hi => ?_)
    rw [returns_bind_iff]; · exact (returns_get _ _).mpr (by omega)
    intro a _
    split; · exact returns_pure _
    rw [returns_bind_iff]; · exact (returns_get _ _).mpr (by omega)
    intro b _
    split <;> exact returns_pure _
  refine ⟨ring p, index c p, ?_, ?_, ⟨p, C17_copyDeep p⟩, repeated, invalid, ?_, ?_, ?_, ?_, ?_, scroll i⟩
  · unfold ptNotInList
    refine returns_find (fun i _ hi => ?_)
    rw [returns_bind_iff]; · exact (returns_get _ _).mpr hi
    intro a _
    rw [returns_bind_iff]; · exact index _ _
    intro b _
    split <;> exact returns_pure _
  · unfold increasingDirection
    rw [returns_bind_iff (fun _ _ => returns_pure _)]
    refine returns_find (fun i _ hi => ?_)
    rw [Res.sub_le (by omega), Res.bind_ok, Res.sub_le (by omega), Res.bind_ok, Res.get_lt hi, Res.bind_ok, Res.get_lt (by omega), Res.bind_ok]
    dsimp only
    split <;> exact returns_pure _
  · unfold removeRepeatedOrInvalidPoints
    rw [returns_bind_iff]; · exact invalid
    intro b _
    split; · exact returns_pure _
    refine returns_range _ (fun i l _ hi => ?_)
    rw [returns_bind_iff]; · exact (returns_get _ _).mpr hi
    intro a _
    split <;> exact returns_pure _
  · unfold removeRepeatedPoints
    rw [returns_bind_iff]; · exact repeated
    intro b _
    split; · exact returns_pure _
    unfold CoordList.newWithRepeated CoordList.addList CoordList.addDirection
    rw [if_pos rfl]
    refine returns_range _ (fun i l _ hi => ?_)
    rw [returns_bind_iff]; · exact (returns_get _ _).mpr hi
    exact fun _ _ => returns_pure _
  · unfold equals
    split; · exact returns_ok _
    rename_i hn
    rw [returns_bind_iff (fun _ _ => returns_pure _)]
    refine returns_find (fun i _ hi => ?_)
    rw [returns_bind_iff]; · exact (returns_get _ _).mpr (by omega)
    intro a _
    rw [returns_bind_iff]; · exact (returns_get _ _).mpr (by omega)
    intro b _
    split <;> exact returns_pure _
  · unfold scrollCoordinate
    split
    · rename_i j hj
      have := (List.findIdx?_eq_some_iff_getElem.mp hj).1
      exact (scroll j).mpr (.inl (by omega))
    · exact returns_ok _
  · constructor
    · intro h
      by_contra hc
      rw [C15_isEqualReversed_panics p q (by omega)] at h
      exact not_returns_error _ h
    · intro h
      unfold isEqualReversed
      rw [returns_bind_iff (fun _ _ => returns_pure _)]
      refine returns_find (fun i _ hi => ?_)
      rw [Res.get_lt hi, Res.bind_ok, Res.sub_le (by omega), Res.bind_ok, Res.sub_le (by omega), Res.bind_ok, Res.get_lt (by omega), Res.bind_ok]
      split <;> exact returns_pure _

end sequences

/-! ## Lines, rings and points -/

section geometries
variable {α : Type} [FltSqrt α]

theorem line_length (s : CASeq α) : Returns (Length.ofLine s) := by
  unfold Length.ofLine
  split; · exact returns_pure _
  rw [returns_bind_iff]; · exact (returns_get _ _).mpr (by have : s.size = s.coordinates.length := rfl; omega)
  intro c _
  rw [returns_bind_iff (fun _ _ => returns_pure _)]
  refine returns_range _ (fun i st _ hi => ?_)
  rw [returns_bind_iff (fun _ _ => returns_pure _)]
  exact (returns_get _ _).mpr hi

/-- C134: lines. Only asking for a coordinate or point by number can abort, and does so exactly outside the line. -/
theorem C134_lines (l m : LineString α) (c : Coord α) (t : α) (n : Nat) (limit : Int) :
    (Returns (l.getCoordinateN n) ↔ n < l.getNumPoints) ∧ (Returns (l.getPointN n) ↔ n < l.getNumPoints) ∧
    Returns l.getCoordinate ∧ Returns l.getCoordinateSequence ∧ Returns l.getStartPoint ∧ Returns l.getEndPoint ∧ Returns l.isClosed ∧
    Returns l.isRing ∧ Returns l.getBoundaryDimension ∧ Returns l.getLength ∧ Returns l.reverse ∧ Returns l.normalize ∧
    Returns (l.isCoordinate c) ∧ Returns (l.equalsExact m t) ∧ Returns (l.compareTo m) ∧ Returns (l.compareToWith limit m) := by
  have hN : ∀ n, Returns (l.getPointN n) ↔ n < l.getNumPoints := by
    intro n
    unfold LineString.getPointN
    rw [returns_bind_iff]; · exact returns_get _ _
    exact fun c _ => ⟨_, rfl⟩
  have hsz : l.isEmpty = true ↔ l.getNumPoints = 0 := by simp [LineString.isEmpty, LineString.getNumPoints]
  have hcl : Returns l.isClosed := by
    unfold LineString.isClosed
    split; · exact returns_pure _
    rename_i h
    rw [hsz] at h
    rw [returns_bind_iff]; · exact (returns_get _ _).mpr (Nat.pos_of_ne_zero h)
    intro a _
    rw [Res.sub_le (Nat.pos_of_ne_zero h), Res.bind_ok, returns_bind_iff (fun _ _ => returns_pure _)]
    exact (returns_get _ _).mpr (by have : l.getNumPoints = l.points.coordinates.length := rfl; omega)
  refine ⟨returns_get _ _, hN n, ?_, ⟨_, newFrom_eq _⟩, ?_, ?_, hcl, hcl, ?_, line_length _, ?_, ?_, ?_, ?_, ?_, seq_compare _ _ _⟩
  · unfold LineString.getCoordinate
    split; · exact returns_pure _
    rename_i h
    rw [hsz] at h
    rw [returns_bind_iff (fun _ _ => returns_pure _)]
    exact (returns_get _ _).mpr (Nat.pos_of_ne_zero h)
  · unfold LineString.getStartPoint
    split; · exact returns_pure _
    rename_i h
    rw [hsz] at h
    rw [returns_bind_iff (fun _ _ => returns_pure _)]
    exact (hN 0).mpr (Nat.pos_of_ne_zero h)
  · unfold LineString.getEndPoint
    split; · exact returns_pure _
    rename_i h
    rw [hsz] at h
    rw [Res.sub_le (Nat.pos_of_ne_zero h), Res.bind_ok, returns_bind_iff (fun _ _ => returns_pure _)]
    exact (hN _).mpr (by omega)
  · unfold LineString.getBoundaryDimension
    rw [returns_bind_iff (fun _ _ => returns_pure _)]; exact hcl
  · unfold LineString.reverse LineString.reverseInternal
    rw [returns_bind_iff (fun _ _ => returns_pure _)]
    obtain ⟨u, hu, -⟩ := seq_reverse l.points.copy
    rw [hu, Res.bind_ok, newFrom_eq, Res.bind_ok]
    exact returns_pure _
  · unfold LineString.normalize
    rw [returns_bind_iff (fun _ _ => returns_pure _)]
    refine returns_find (fun i _ hi => ?_)
    have e : l.points.size = l.points.coordinates.length := rfl
    rw [Res.sub_le (by omega), Res.bind_ok, Res.sub_le (by omega), Res.bind_ok, returns_bind_iff]
    · exact (returns_get _ _).mpr (by omega)
    intro a _
    rw [returns_bind_iff]; · exact (returns_get _ _).mpr (by omega)
    intro b _
    split
    · split
      · obtain ⟨u, hu, -⟩ := seq_reverse l.points.copy
        rw [hu, Res.bind_ok]; exact returns_pure _
      · exact returns_pure _
    · exact returns_pure _
  · unfold LineString.isCoordinate
    rw [returns_bind_iff (fun _ _ => returns_pure _)]
    refine returns_find (fun i _ hi => ?_)
    rw [returns_bind_iff (fun _ _ => returns_pure _)]
    exact (returns_get _ _).mpr hi
  · unfold LineString.equalsExact
    split; · exact returns_pure _
    rename_i h
    rw [returns_bind_iff (fun _ _ => returns_pure _)]
    refine returns_find (fun i _ hi => ?_)
    rw [returns_bind_iff]; · exact (returns_get _ _).mpr hi
    intro a _
    rw [returns_bind_iff (fun _ _ => returns_pure _)]
    exact (returns_get _ _).mpr (by have : m.points.size = m.points.coordinates.length := rfl; omega)
  · exact ⟨_, C48_compare l m⟩

theorem ring_equals (r s : LinearRing α) (t : α) : Returns (r.equalsExact s t) := by
  unfold LinearRing.equalsExact
  split; · exact returns_pure _
  rename_i h
  rw [returns_bind_iff (fun _ _ => returns_pure _)]
  refine returns_find (fun i _ hi => ?_)
  rw [returns_bind_iff]; · exact (returns_get _ _).mpr hi
  intro a _
  rw [returns_bind_iff (fun _ _ => returns_pure _)]
  exact (returns_get _ _).mpr (by have : s.points.size = s.points.coordinates.length := rfl; omega)

theorem ring_reverse (r : LinearRing α) : Returns r.reverse := by
  unfold LinearRing.reverse LinearRing.reverseInternal
  rw [returns_bind_iff (fun _ _ => returns_pure _)]
  obtain ⟨u, hu, -⟩ := seq_reverse r.points.copy
  rw [hu, Res.bind_ok]
  exact ⟨_, by unfold LinearRing.ofSeq; rw [newFrom_eq, Res.bind_ok]; rfl⟩

omit [FltSqrt α] in
theorem ring_coordinate (r : LinearRing α) : Returns r.getCoordinate := by
  unfold LinearRing.getCoordinate
  split; · exact returns_pure _
  rename_i h
  rw [returns_bind_iff (fun _ _ => returns_pure _)]
  refine (returns_get _ _).mpr ?_
  have : r.points.size ≠ 0 := by simpa [LinearRing.isEmpty] using h
  exact Nat.pos_of_ne_zero this

/-- C134: rings, and making them: nothing aborts. -/
theorem C134_rings (r s : LinearRing α) (q : CASeq α) (l : List (Coord α)) (t : α) (limit : Int) :
    Returns (LinearRing.ofSeq q) ∧ Returns (LinearRing.ofCoordinates l) ∧ Returns r.getCoordinate ∧ Returns r.isClosed ∧ Returns r.getLength ∧
    Returns r.copy ∧ Returns r.reverse ∧ Returns (r.equalsExact s t) ∧ Returns (r.compareTo s) ∧ Returns (r.compareToWith limit s) := by
  have mk : ∀ q : CASeq α, Returns (LinearRing.ofSeq q) := fun q => ⟨_, by unfold LinearRing.ofSeq; rw [newFrom_eq, Res.bind_ok]; rfl⟩
  refine ⟨mk q, mk _, ring_coordinate r, ?_, line_length _, ⟨_, ringCopy r⟩, ring_reverse r, ring_equals r s t, ⟨_, C48_compare_ring r s⟩, seq_compare _ _ _⟩
  unfold LinearRing.isClosed
  split; · exact returns_pure _
  rename_i h
  have h0 : r.points.coordinates.length ≠ 0 := by simpa [LinearRing.isEmpty, CASeq.size] using h
  rw [returns_bind_iff]; · exact (returns_get _ _).mpr (Nat.pos_of_ne_zero h0)
  intro a _
  rw [show Res.sub r.getNumPoints 1 = .ok (r.getNumPoints - 1) from Res.sub_le (Nat.pos_of_ne_zero h0), Res.bind_ok, returns_bind_iff (fun _ _ => returns_pure _)]
  exact (returns_get _ _).mpr (by have : r.getNumPoints = r.points.coordinates.length := rfl; omega)

omit [FltSqrt α] in
theorem point_coordinate (p : Point α) : ∃ o, p.getCoordinate = .ok o ∧ (p.isEmpty = false → o.isSome) := by
  unfold Point.getCoordinate
  split
  · rename_i h
    obtain ⟨c, hc⟩ := (returns_get p.coordinates.coordinates 0).mpr (Nat.pos_of_ne_zero h)
    exact ⟨some c, by rw [CASeq.getCoordinate, hc]; rfl, fun _ => rfl⟩
  · rename_i h
    exact ⟨none, rfl, fun he => absurd he (by simpa [Point.isEmpty] using h)⟩

omit [FltSqrt α] in
theorem point_coordinates (p : Point α) : ∃ l, p.getCoordinates = .ok l ∧ l.length ≤ 1 := by
  unfold Point.getCoordinates
  split
  · exact ⟨[], rfl, by simp⟩
  · rename_i h
    obtain ⟨o, ho, hs⟩ := point_coordinate p
    rw [ho, Res.bind_ok]
    have := hs (by simpa using h)
    cases o with
    | none => cases this
    | some c => exact ⟨[c], rfl, by simp⟩

theorem point_equals (p q : Point α) (t : α) : Returns (p.equalsExact q t) := by
  unfold Point.equalsExact
  split; · exact returns_pure _
  split; · exact returns_pure _
  rename_i h1 h2
  obtain ⟨o, ho, hs⟩ := point_coordinate p
  obtain ⟨o', ho', hs'⟩ := point_coordinate q
  rw [ho, Res.bind_ok, ho', Res.bind_ok]
  cases hp : p.isEmpty <;> cases hq : q.isEmpty <;> rw [hp, hq] at h1 h2 <;> simp at h1 h2
  have a := hs hp
  have b := hs' hq
  cases o with
  | none => cases a
  | some c => cases o' with
    | none => cases b
    | some d => exact ⟨_, rfl⟩

theorem point_envelope (p : Point α) : Returns p.getEnvelope := by
  unfold Point.getEnvelope
  split
  · rw [returns_bind_iff (fun _ _ => returns_pure _)]
    unfold Point.computeEnvelope
    split; · exact returns_pure _
    rename_i h
    have h0 : p.coordinates.coordinates.length ≠ 0 := by simpa [Point.isEmpty, CASeq.size] using h
    have hx : p.coordinates.getX 0 = .ok (p.coordinates.coordinates[0]'(Nat.pos_of_ne_zero h0)).x := by
      unfold CASeq.getX; rw [Res.get_lt (Nat.pos_of_ne_zero h0), Res.bind_ok]; rfl
    have hy : p.coordinates.getY 0 = .ok (p.coordinates.coordinates[0]'(Nat.pos_of_ne_zero h0)).y := by
      unfold CASeq.getY; rw [Res.get_lt (Nat.pos_of_ne_zero h0), Res.bind_ok]; rfl
    rw [hx, Res.bind_ok, hy, Res.bind_ok]; exact returns_pure _
  · exact returns_pure _

omit [FltSqrt α] in
theorem point_make (q : CASeq α) : Returns (Point.ofSeq q) ↔ q.size ≤ 1 := by
  unfold Point.ofSeq Res.assert
  by_cases h : q.size ≤ 1
  · simp [h, Returns]
  · simp [h, not_returns_error]

/-- C134: points. Making a point from a sequence, copying and reversing it abort exactly if there is more than one coordinate; nothing
else aborts. -/
theorem C134_points (p o : Point α) (q : CASeq α) (c : Coord α) (t : α) (limit : Int) :
    (Returns (Point.ofSeq q) ↔ q.size ≤ 1) ∧ (Returns p.copy ↔ p.coordinates.size ≤ 1) ∧ (Returns p.reverse ↔ p.coordinates.size ≤ 1) ∧
    Returns (GeometryFactory.createPoint : Res (Point α)) ∧ Returns (GeometryFactory.createPointCoordinate c) ∧
    Returns p.getCoordinate ∧ Returns p.getCoordinates ∧ Returns p.getX ∧ Returns p.getY ∧ Returns p.getEnvelope ∧ Returns (p.equalsExact o t) ∧
    Returns (p.compareTo limit o) := by
  obtain ⟨k, hk, -⟩ := point_coordinate p
  obtain ⟨l, hl, -⟩ := point_coordinates p
  refine ⟨point_make q, point_make _, ?_, ⟨_, rfl⟩, ⟨_, rfl⟩, ⟨k, hk⟩, ⟨l, hl⟩, ?_, ?_, point_envelope p, point_equals p o t, seq_compare _ _ _⟩
  · unfold Point.reverse
    rw [returns_bind_iff (fun _ _ => returns_pure _)]; exact point_make _
  · unfold Point.getX; rw [hk]; exact ⟨_, rfl⟩
  · unfold Point.getY; rw [hk]; exact ⟨_, rfl⟩


/-! ## Polygons -/

/-- The body of a loop over places of a list that reads the place first. -/
theorem returns_at {A σ : Type} (l : List A) (i : Nat) (hi : i < l.length) (f : A → Res σ) (h : ∀ a ∈ l, Returns (f a)) :
    Returns (Res.get l i >>= f) := by
  rw [Res.get_lt hi, Res.bind_ok]; exact h _ (List.getElem_mem _)

theorem area_seq (s : CASeq α) : Returns (Area.ofRingSeq s) := by
  unfold Area.ofRingSeq
  rw [returns_bind_iff (fun _ _ => returns_pure _)]
  unfold Area.ofRingSignedSeq
  have e : s.size = s.coordinates.length := rfl
  split; · exact returns_pure _
  dsimp only
  rw [returns_bind_iff]; · exact (returns_get _ _).mpr (by omega)
  intro a _
  rw [returns_bind_iff]; · exact (returns_get _ _).mpr (by omega)
  intro b _
  rw [returns_bind_iff (fun _ _ => returns_pure _)]
  refine returns_range _ (fun i st _ hi => ?_)
  rw [returns_bind_iff (fun _ _ => returns_pure _)]
  exact (returns_get _ _).mpr (by omega)

theorem polygon_area (p : Polygon α) : Returns p.getArea := by
  unfold Polygon.getArea
  rw [returns_bind_iff]; · exact area_seq _
  intro a _
  refine returns_range _ (fun i st _ hi => returns_at _ _ hi _ (fun h _ => ?_))
  rw [returns_bind_iff (fun _ _ => returns_pure _)]; exact area_seq _

theorem polygon_copy (p : Polygon α) : ∃ q, p.copy = .ok q ∧ q.shell.points = p.shell.points ∧
    q.holes.map (·.points) = p.holes.map (·.points) := by
  unfold Polygon.copy
  rw [ringCopy, Res.bind_ok]
  have h := forRange_closed 0 p.holes.length (fun i hs => do
    let h ← Res.get p.holes i
    let c ← h.copy
    pure (hs ++ [c])) (fun i => (p.holes.take i).map (fun h : LinearRing α => (⟨h.points, none, none⟩ : LinearRing α))) (Nat.zero_le _) (by
      intro i _ hi
      rw [Res.get_lt hi, Res.bind_ok, ringCopy, Res.bind_ok, List.take_succ_eq_append_getElem hi, List.map_append]; rfl)
  rw [List.take_zero, List.map_nil] at h
  rw [h, Res.bind_ok, Polygon.ofRings, ringCopy, Res.bind_ok]
  exact ⟨_, rfl, rfl, by simp⟩

theorem polygon_equals (p q : Polygon α) (t : α) : Returns (p.equalsExact q t) := by
  unfold Polygon.equalsExact
  rw [ringCopy, Res.bind_ok, ringCopy, Res.bind_ok, returns_bind_iff]; · exact ring_equals _ _ _
  intro b _
  split; · exact returns_pure _
  split; · exact returns_pure _
  rename_i hl
  rw [returns_bind_iff (fun _ _ => returns_pure _)]
  refine returns_find (fun i _ hi => returns_at _ _ hi _ (fun a _ => returns_at _ _ (by omega) _ (fun b _ => ?_)))
  rw [returns_bind_iff (fun _ _ => returns_pure _)]; exact ring_equals _ _ _

theorem polygon_compare (cmp : LinearRing α → LinearRing α → Res Int) (h : ∀ a b, Returns (cmp a b)) (p q : Polygon α) :
    Returns (Polygon.compareBy cmp p q) := by
  unfold Polygon.compareBy
  rw [ringCopy, Res.bind_ok, ringCopy, Res.bind_ok, returns_bind_iff]; · exact h _ _
  intro c _
  split; · exact returns_pure _
  have e1 : p.getNumInteriorRing = p.holes.length := rfl
  have e2 : q.getNumInteriorRing = q.holes.length := rfl
  dsimp only
  rw [returns_bind_iff]
  · refine returns_find (fun i _ hi => ?_)
    have hi1 : p.getInteriorRing i = .ok ⟨(p.holes[i]'(by omega)).points, none, none⟩ := by
      unfold Polygon.getInteriorRing; rw [Res.get_lt (by omega), Res.bind_ok, ringCopy]
    have hi2 : q.getInteriorRing i = .ok ⟨(q.holes[i]'(by omega)).points, none, none⟩ := by
      unfold Polygon.getInteriorRing; rw [Res.get_lt (by omega), Res.bind_ok, ringCopy]
    rw [hi1, Res.bind_ok, hi2, Res.bind_ok, returns_bind_iff (fun _ _ => returns_pure _)]
    exact h _ _
  · intro r _
    split <;> exact returns_pure _

theorem ccw_seq [FltOrd α] (s : CASeq α) : Returns (Orientation.isCCWSeq s) ↔ 0 < s.size := by
  rw [C34_sequence]
  by_cases h : s.coordinates = []
  · rw [(C34_total s.coordinates).1.mpr h]
    have : s.size = 0 := by simp [CASeq.size, h]
    simp [not_returns_error, this]
  · exact ⟨fun _ => List.length_pos_iff.mpr h, fun _ => (C34_total s.coordinates).2.1 h⟩

/-- Normalising a ring aborts exactly if it has a single coordinate. -/
theorem ring_normalize [FltOrd α] (r : LinearRing α) (b : Bool) (hb : r.points.size < 2 ^ 64) : Returns (Polygon.normalized r b) ↔ r.points.size ≠ 1 := by
  unfold Polygon.normalized
  rw [ringCopy, Res.bind_ok, returns_bind_iff (fun _ _ => returns_pure _)]
  unfold Polygon.normalizeRing
  by_cases h0 : r.points.size = 0
  · rw [if_pos (by simpa [LinearRing.isEmpty] using h0)]
    exact ⟨fun _ => by omega, fun _ => returns_pure _⟩
  rw [if_neg (by simpa [LinearRing.isEmpty] using h0)]
  have e : (LinearRing.getSeq (⟨r.points, none, none⟩ : LinearRing α)) = r.points := rfl
  dsimp only
  rw [e]
  by_cases h1 : r.points.size = 1
  · have : Res.sub r.points.size 2 = .error .arith := if_neg (by omega)
    rw [this]
    exact ⟨fun h => absurd h (not_returns_error _), fun h => absurd h1 h⟩
  · refine ⟨fun _ => h1, fun _ => ?_⟩
    obtain ⟨m, hm, hle⟩ := seq_minIndex r.points (r.points.size - 2) (by omega) (by omega)
    rw [Res.sub_le (by omega), Res.bind_ok, hm, Res.bind_ok]
    obtain ⟨u, hu⟩ := (seq_scroll r.points m true).1.mpr (.inr (.inr (by omega)))
    have hs := (seq_scroll r.points m true).2 u hu
    rw [hu, Res.bind_ok, returns_bind_iff]; · exact (ccw_seq u).mpr (by rw [hs.2.2]; omega)
    intro c _
    split
    · obtain ⟨w, hw, -⟩ := seq_reverse u
      rw [hw]; exact ⟨_, rfl⟩
    · exact returns_pure _

/-- The rings of a polygon, shell first. -/
def allRings (p : Polygon α) : List (LinearRing α) := p.shell :: p.holes

/-- C134: polygons. A hole by number exists exactly for numbers below the number of holes; reversing aborts exactly if there are holes; normalising
aborts exactly if a ring has a single coordinate; nothing else aborts. (A vector holds fewer than 2^64 coordinates.) -/
theorem C134_polygons [FltOrd α] (p q : Polygon α) (t : α) (n : Nat) (limit : Int) (hb : ∀ r ∈ allRings p, r.points.size < 2 ^ 64) :
    (Returns (p.getInteriorRing n) ↔ n < p.getNumInteriorRing) ∧ (Returns p.reverse ↔ p.getNumInteriorRing = 0) ∧
    (Returns p.selfNormalize ↔ ∀ r ∈ allRings p, r.points.size ≠ 1) ∧
    Returns (Polygon.ofRings p.shell p.holes p.precisionModel) ∧ Returns p.getCoordinate ∧ Returns p.getNumPoints ∧ Returns p.getCoordinates ∧
    Returns p.getExteriorRing ∧ Returns p.copy ∧ Returns p.isRectangle ∧ Returns p.getArea ∧ Returns p.getLength ∧
    Returns (p.equalsExact q t) ∧ Returns (p.compareTo q) ∧ Returns (p.compareToWith limit q) := by
  have hint : ∀ n, Returns (p.getInteriorRing n) ↔ n < p.getNumInteriorRing := by
    intro n
    unfold Polygon.getInteriorRing
    rw [returns_bind_iff]; · exact returns_get _ _
    exact fun h _ => ⟨_, ringCopy h⟩
  obtain ⟨c, hc, -⟩ := polygon_copy p
  refine ⟨hint n, ?_, ?_, ⟨_, by unfold Polygon.ofRings; rw [ringCopy]; rfl⟩, ?_, ⟨_, C50_num_points p⟩, ?_, ⟨_, ringCopy _⟩, ⟨c, hc⟩, ?_, polygon_area p, ?_,
    polygon_equals p q t, polygon_compare _ (fun a b => ⟨_, C48_compare_ring a b⟩) p q, polygon_compare _ (fun a b => seq_compare _ _ _) p q⟩
  · unfold Polygon.reverse Polygon.reverseInternal
    rw [returns_bind_iff (fun _ _ => returns_pure _)]
    unfold Polygon.getExteriorRing
    rw [ringCopy, Res.bind_ok]
    obtain ⟨s, hs⟩ := ring_reverse (⟨p.shell.points, none, none⟩ : LinearRing α)
    rw [hs, Res.bind_ok, returns_bind_iff]
    · constructor
      · intro h
        by_contra h0
        rw [returns_range_iff (P := fun l : List (LinearRing α) => l = []) (Q := fun _ => False) rfl] at h
        · exact h 0 (Nat.le_refl _) (Nat.pos_of_ne_zero h0)
        · rintro i _ _ hi rfl
          rw [returns_bind]
          refine ⟨?_, False.elim⟩
          rintro ⟨a, _, h⟩
          rw [returns_bind] at h
          obtain ⟨b, _, h⟩ := h
          exact absurd ((returns_set _ _ _).mp h) (by simp)
        · rintro i _ s' _ hi rfl hs'
          exfalso
          have : Returns (do let h ← p.getInteriorRing i; let h ← h.reverse; Res.set ([] : List (LinearRing α)) i h) := ⟨s', hs'⟩
          rw [returns_bind] at this
          obtain ⟨a, _, h⟩ := this
          rw [returns_bind] at h
          obtain ⟨b, _, h⟩ := h
          exact absurd ((returns_set _ _ _).mp h) (by simp)
      · intro h
        rw [forRange_self _ _ (by omega)]; exact returns_ok _
    · exact fun hs _ => ⟨_, by unfold Polygon.ofRings; rw [ringCopy]; rfl⟩
  · unfold Polygon.selfNormalize
    have hsh := ring_normalize p.shell true (hb _ List.mem_cons_self)
    have hfix : ∀ (r r' : LinearRing α) b, Polygon.normalized r b = .ok r' → r'.points = r.points := by
      intro r r' b h
      unfold Polygon.normalized at h
      rw [ringCopy, Res.bind_ok] at h
      cases hn : Polygon.normalizeRing (⟨r.points, none, none⟩ : LinearRing α) b with
      | error e => rw [hn] at h; cases h
      | ok u => rw [hn] at h; injection h with h; subst h; rfl
    have loop : ∀ s, Returns (forRange 0 p.holes.length { p with shell := s } (fun i q => do
        let h ← Res.get q.holes i
        let h' ← Polygon.normalized h false
        let hs ← Res.set q.holes i h'
        pure { q with holes := hs })) ↔ ∀ i, 0 ≤ i → i < p.holes.length → (p.holes.map (·.points))[i]?.map (·.size) ≠ some 1 := by
      intro s
      refine returns_range_iff (P := fun q : Polygon α => q.holes.map (·.points) = p.holes.map (·.points)) rfl ?_ ?_
      · intro i q _ hi hq
        have hlen : q.holes.length = p.holes.length := by simpa using congrArg List.length hq
        have hq' : q.holes[i].points = p.holes[i].points := by
          have := congrArg (fun l : List (CASeq α) => l[i]?) hq
          simpa [hi, hlen] using this
        rw [Res.get_lt (by omega), Res.bind_ok, returns_bind_iff, ring_normalize _ _ (by
          rw [hq']; exact hb _ (List.mem_cons_of_mem _ (List.getElem_mem _))), hq']
        · simp [hi]
        · intro r _
          rw [Res.set_lt (by omega)]; exact ⟨_, rfl⟩
      · intro i q q' _ hi hq hres
        have hlen : q.holes.length = p.holes.length := by simpa using congrArg List.length hq
        rw [Res.get_lt (by omega), Res.bind_ok] at hres
        cases hn : Polygon.normalized (q.holes[i]'(by omega)) false with
        | error e => rw [hn] at hres; cases hres
        | ok r =>
          rw [hn, Res.bind_ok, Res.set_lt (by omega)] at hres
          injection hres with hres; subst hres
          rw [← hq]
          show (q.holes.set i r).map (·.points) = _
          rw [List.map_set, hfix _ _ _ hn]
          apply List.ext_getElem (by simp)
          intro j h1 h2
          by_cases hj : i = j
          · subst hj; simp
          · simp [hj]
    constructor
    · rw [returns_bind]
      rintro ⟨s, hs, hl⟩ r hr
      rcases List.mem_cons.mp hr with rfl | hr
      · exact hsh.mp ⟨s, hs⟩
      · obtain ⟨i, hi, rfl⟩ := List.getElem_of_mem hr
        have := (loop s).mp hl i (Nat.zero_le _) hi
        simpa [hi] using this
    · intro h
      rw [returns_bind]
      obtain ⟨s, hs⟩ := hsh.mpr (h _ List.mem_cons_self)
      refine ⟨s, hs, (loop s).mpr (fun i _ hi => ?_)⟩
      simpa [hi] using h _ (List.mem_cons_of_mem _ (List.getElem_mem hi))
  · unfold Polygon.getCoordinate
    rw [ringCopy, Res.bind_ok]; exact ring_coordinate _
  · by_cases h : p.shell.points.coordinates = []
    · unfold Polygon.getCoordinates
      rw [if_pos (by simp [Polygon.isEmpty, LinearRing.isEmpty, CASeq.size, h])]; exact returns_pure _
    · exact ⟨_, C50_coordinates_partial p h⟩
  · unfold Polygon.isRectangle
    split; · exact returns_pure _
    split; · exact returns_pure _
    rename_i h5
    have e : p.shell.getSeq.coordinates.length = 5 := by
      have : p.shell.points.size = 5 := by simpa [LinearRing.getNumPoints] using h5
      exact this
    have gx : ∀ i, i < 5 → Returns (p.shell.getSeq.getX i) := fun i hi => by
      unfold CASeq.getX
      rw [returns_bind_iff (fun _ _ => returns_pure _)]; exact (returns_get _ _).mpr (by omega)
    have gy : ∀ i, i < 5 → Returns (p.shell.getSeq.getY i) := fun i hi => by
      unfold CASeq.getY
      rw [returns_bind_iff (fun _ _ => returns_pure _)]; exact (returns_get _ _).mpr (by omega)
    dsimp only
    rw [hc, Res.bind_ok, returns_bind_iff]
    · refine returns_find (fun i _ hi => ?_)
      rw [returns_bind_iff]; · exact gx i hi
      intro x _
      split; · exact returns_pure _
      rw [returns_bind_iff]; · exact gy i hi
      intro y _
      split <;> exact returns_pure _
    · intro r _
      split; · exact returns_pure _
      rw [returns_bind_iff]; · exact gx 0 (by omega)
      intro x _
      rw [returns_bind_iff]; · exact gy 0 (by omega)
      intro y _
      rw [returns_bind_iff (fun _ _ => returns_pure _)]
      refine returns_range _ (fun i st _ hi => ?_)
      split; · exact returns_pure _
      rw [returns_bind_iff]; · exact gx i hi
      intro x _
      rw [returns_bind_iff (fun _ _ => returns_pure _)]; exact gy i hi
  · unfold Polygon.getLength
    rw [returns_bind_iff]; · exact line_length _
    intro a _
    refine returns_range _ (fun i st _ hi => returns_at _ _ hi _ (fun h _ => ?_))
    rw [returns_bind_iff (fun _ _ => returns_pure _)]; exact line_length _


/-! ## Collections -/

/-- A loop that writes to places of an empty vector returns exactly if it does not run. -/
theorem empty_places {A B : Type} (l : List A) (f : A → Res B) :
    Returns (forRange 0 l.length ([] : List B) (fun i ps => do
      let p ← Res.get l i
      let c ← f p
      Res.set ps i c)) ↔ l.length = 0 := by
  constructor
  · intro h
    by_contra h0
    obtain ⟨e, he⟩ := forRange_empty_set l (by intro h; simp [h] at h0) f
    rw [he] at h; exact not_returns_error _ h
  · intro h; rw [h, forRange_self _ _ (Nat.le_refl _)]; exact returns_ok _

omit [FltSqrt α] in
theorem writes (cs src : List (Coord α)) (k : Nat) (h : k + src.length ≤ cs.length) :
    ∃ st, Polygon.writeAll cs k src = .ok st ∧ st.1.length = cs.length ∧ st.2 = k + src.length := by
  unfold Polygon.writeAll
  exact forRange_inv 0 src.length _ (fun i (st : List (Coord α) × Nat) => st.1.length = cs.length ∧ st.2 = k + i) (Nat.zero_le _) (cs, k) ⟨rfl, rfl⟩ (by
    rintro i ⟨l, j⟩ _ hi ⟨e1, e2⟩
    dsimp only at e1 e2 ⊢
    rw [Res.get_lt hi, Res.bind_ok, Res.set_lt (by omega), Res.bind_ok]
    exact ⟨_, rfl, by simpa using e1, by simp only; omega⟩)

/-- C134: collections. Copies of collections, and reversed ones of points and polygons, abort exactly if the collection is not empty
(reversing a collection of lines never does). A point by number aborts exactly for a collection with members at number 0, at the
two numbers following the last, and at members with more than one coordinate; coordinate and polygon by number exactly outside.
Nothing else aborts. -/
theorem C134_collections (m o : MultiPoint α) (l k : MultiLineString α) (p q : MultiPolygon α) (s : CASeq α) (t : α) (n : Nat) :
    (Returns m.copy ↔ m.points.length = 0) ∧ (Returns m.reverse ↔ m.points.length = 0) ∧ (Returns l.copy ↔ l.lineStrings.length = 0) ∧
    (Returns p.copy ↔ p.polygons.length = 0) ∧ (Returns p.reverse ↔ p.polygons.length = 0) ∧ Returns l.reverse ∧
    (Returns (m.getPointAtIndex n) ↔ m.points.length = 0 ∨ m.points.length + 1 < n ∨ (1 ≤ n ∧ ∃ h : n < m.points.length, m.points[n].coordinates.size ≤ 1)) ∧
    (Returns (m.getCoordinate n) ↔ n < m.points.length) ∧ (Returns (p.getPolygon n) ↔ n < p.polygons.length) ∧
    Returns (MultiPoint.ofSeq s) ∧ Returns m.getEnvelope ∧ Returns m.getCoordinates ∧ Returns (m.equalsExact o t) ∧
    Returns l.isEmpty ∧ Returns l.isClosed ∧ Returns l.getBoundaryDimension ∧ Returns (l.equalsExact k t) ∧
    Returns p.getArea ∧ Returns p.isEmpty ∧ Returns (p.equalsExact q t) := by
  have lempty : Returns l.isEmpty := by
    unfold MultiLineString.isEmpty
    rw [returns_bind_iff (fun _ _ => returns_pure _)]
    exact returns_find (fun i _ hi => returns_at _ _ hi _ (fun a _ => returns_pure _))
  have lclosed : Returns l.isClosed := by
    unfold MultiLineString.isClosed
    rw [returns_bind_iff]; · exact lempty
    intro b _
    split; · exact returns_pure _
    rw [returns_bind_iff (fun _ _ => returns_pure _)]
    refine returns_find (fun i _ hi => returns_at _ _ hi _ (fun a _ => ?_))
    rw [returns_bind_iff (fun _ _ => returns_pure _)]
    exact (C134_lines a a Coord.default t 0 0).2.2.2.2.2.2.1
  refine ⟨?_, ?_, ?_, ?_, ?_, ?_, ?_, ?_, ?_, ?_, ?_, ?_, ?_, lempty, lclosed, ?_, ?_, ?_, ?_, ?_⟩
  · unfold MultiPoint.copy
    rw [returns_bind_iff (fun _ _ => returns_pure _)]; exact empty_places m.points Point.copy
  · unfold MultiPoint.reverse MultiPoint.copy
    rw [returns_bind_iff (fun _ _ => returns_pure _), returns_bind_iff (fun _ _ => returns_pure _)]; exact empty_places m.points Point.copy
  · unfold MultiLineString.copy
    rw [returns_bind_iff (fun _ _ => returns_pure _)]
    exact empty_places l.lineStrings (fun x => .ok x.copy)
  · unfold MultiPolygon.copy
    rw [returns_bind_iff (fun _ _ => returns_pure _)]; exact empty_places p.polygons Polygon.copy
  · unfold MultiPolygon.reverse
    rw [returns_bind_iff (fun _ _ => returns_pure _)]; exact empty_places p.polygons Polygon.reverse
  · unfold MultiLineString.reverse MultiLineString.reverseInternal
    rw [returns_bind_iff (fun _ _ => returns_pure _), returns_bind_iff (fun _ _ => returns_pure _)]
    exact ⟨[], forRange_self _ _ (Nat.le_refl _) _ _⟩
  · unfold MultiPoint.getPointAtIndex
    by_cases h0 : m.points.length = 0
    · rw [if_pos h0]; exact ⟨fun _ => .inl h0, fun _ => returns_pure _⟩
    rw [if_neg h0]
    by_cases h1 : 1 ≤ n
    · rw [Res.sub_le h1, Res.bind_ok]
      by_cases h2 : m.points.length < n - 1
      · rw [if_pos h2]; exact ⟨fun _ => .inr (.inl (by omega)), fun _ => returns_pure _⟩
      rw [if_neg h2]
      by_cases h3 : n < m.points.length
      · rw [Res.get_lt h3, Res.bind_ok, returns_bind_iff (fun _ _ => returns_pure _)]
        unfold Point.copy
        rw [point_make]
        exact ⟨fun h => .inr (.inr ⟨h1, h3, h⟩), fun h => by
          rcases h with h | h | ⟨_, _, h⟩
          · exact absurd h h0
          · omega
          · exact h⟩
      · rw [Res.get_ge (by omega)]
        exact ⟨fun h => absurd h (not_returns_error _), fun h => by
          rcases h with h | h | ⟨_, h, _⟩
          · exact absurd h h0
          · omega
          · exact absurd h h3⟩
    · have : Res.sub n 1 = .error .arith := if_neg h1
      rw [this]
      exact ⟨fun h => absurd h (not_returns_error _), fun h => by
          rcases h with h | h | ⟨h, _⟩
          · exact absurd h h0
          · omega
          · exact absurd h h1⟩
  · unfold MultiPoint.getCoordinate
    rw [returns_bind_iff]; · exact returns_get _ _
    intro a _
    obtain ⟨c, hc, -⟩ := point_coordinate a; exact ⟨c, hc⟩
  · unfold MultiPolygon.getPolygon
    rw [returns_bind_iff]; · exact returns_get _ _
    intro a _
    obtain ⟨c, hc, -⟩ := polygon_copy a; exact ⟨c, hc⟩
  · unfold MultiPoint.ofSeq
    rw [returns_bind_iff (fun _ _ => returns_pure _)]
    obtain ⟨r, hr, -⟩ := range_keeps (lo := 0) (hi := s.size) (f := fun i (ps : List (Point α)) => do
      let pt ← Seqs.copy s i (CASeq.createMeasures 1 s.dimension s.measures) 0 1
      let p ← Point.ofSeq pt
      Res.set ps i p) (P := fun l => l.length = s.size) (s := List.replicate s.size Point.default) (by simp) (by
        intro i ps _ hi hl
        have h1 : (CASeq.createMeasures 1 s.dimension s.measures : CASeq α).size = 1 := by
          simp [CASeq.createMeasures, CASeq.newWithSizeDimensionMeasures, CASeq.size]
        obtain ⟨u, hu, hs⟩ := seq_copy s (CASeq.createMeasures 1 s.dimension s.measures) i 0 1 (by omega) (by omega)
        rw [hu, Res.bind_ok]
        obtain ⟨w, hw⟩ := (point_make u).mpr (by rw [hs.2.2, h1])
        rw [hw, Res.bind_ok, Res.set_lt (by omega)]
        exact ⟨_, rfl, by simpa using hl⟩)
    exact ⟨r, hr⟩
  · unfold MultiPoint.getEnvelope
    split
    · rw [returns_bind_iff (fun _ _ => returns_pure _)]
      unfold MultiPoint.computeEnvelope
      obtain ⟨r, hr, -⟩ := range_keeps (lo := 0) (hi := m.points.length) (f := fun i (st : Env α × MultiPoint α) => do
        let p ← Res.get st.2.points i
        let r ← p.getEnvelope
        let ps ← Res.set st.2.points i r.2
        pure (st.1.expandToIncludeEnv r.1, { st.2 with points := ps })) (P := fun st => st.2.points.length = m.points.length) (s := (Env.null, m)) rfl (by
          rintro i ⟨e, m'⟩ _ hi hl
          dsimp only at hl ⊢
          rw [Res.get_lt (by omega), Res.bind_ok]
          obtain ⟨r, hr⟩ := point_envelope (m'.points[i]'(by omega))
          rw [hr, Res.bind_ok, Res.set_lt (by omega), Res.bind_ok]
          exact ⟨_, rfl, by simpa using hl⟩)
      exact ⟨r, hr⟩
    · exact returns_pure _
  · unfold MultiPoint.getCoordinates
    rw [returns_bind_iff (fun _ _ => returns_pure _)]
    obtain ⟨r, hr, -⟩ := forRange_inv 0 m.points.length (fun i (st : List (Coord α) × Nat) => do
      let p ← Res.get m.points i
      let cs ← p.getCoordinates
      Polygon.writeAll st.1 st.2 cs) (fun i st => st.1.length = m.points.length ∧ st.2 ≤ i) (Nat.zero_le _)
      (List.replicate m.getNumPoints Coord.default, 0) ⟨by simp [MultiPoint.getNumPoints], Nat.le_refl _⟩ (by
        rintro i ⟨l, j⟩ _ hi ⟨e1, e2⟩
        dsimp only at e1 e2 ⊢
        obtain ⟨cs, hcs, hl⟩ := point_coordinates m.points[i]
        rw [Res.get_lt hi, Res.bind_ok, hcs, Res.bind_ok]
        obtain ⟨st, h1, h2, h3⟩ := writes l cs j (by omega)
        exact ⟨st, h1, by omega, by omega⟩)
    exact ⟨r, hr⟩
  · unfold MultiPoint.equalsExact
    split; · exact returns_pure _
    rename_i hl
    rw [returns_bind_iff (fun _ _ => returns_pure _)]
    refine returns_find (fun i _ hi => returns_at _ _ hi _ (fun a _ => returns_at _ _ (by omega) _ (fun b _ => ?_)))
    rw [returns_bind_iff (fun _ _ => returns_pure _)]; exact point_equals _ _ _
  · unfold MultiLineString.getBoundaryDimension
    rw [returns_bind_iff (fun _ _ => returns_pure _)]; exact lclosed
  · unfold MultiLineString.equalsExact
    split; · exact returns_pure _
    rename_i hl
    rw [returns_bind_iff (fun _ _ => returns_pure _)]
    refine returns_find (fun i _ hi => returns_at _ _ hi _ (fun a _ => returns_at _ _ (by omega) _ (fun b _ => ?_)))
    rw [returns_bind_iff (fun _ _ => returns_pure _)]
    exact (C134_lines a b Coord.default t 0 0).2.2.2.2.2.2.2.2.2.2.2.2.2.1
  · unfold MultiPolygon.getArea
    refine returns_range _ (fun i st _ hi => returns_at _ _ hi _ (fun h _ => ?_))
    rw [returns_bind_iff (fun _ _ => returns_pure _)]; exact polygon_area _
  · unfold MultiPolygon.isEmpty
    rw [returns_bind_iff (fun _ _ => returns_pure _)]
    exact returns_find (fun i _ hi => returns_at _ _ hi _ (fun a _ => returns_pure _))
  · unfold MultiPolygon.equalsExact
    split; · exact returns_pure _
    rename_i hl
    rw [returns_bind_iff (fun _ _ => returns_pure _)]
    refine returns_find (fun i _ hi => returns_at _ _ hi _ (fun a _ => returns_at _ _ (by omega) _ (fun b _ => ?_)))
    rw [returns_bind_iff (fun _ _ => returns_pure _)]; exact polygon_equals _ _ _

/-! ## Algorithms -/

theorem ccw_list [FltOrd α] (r : List (Coord α)) : Returns (Orientation.isCCW r) ↔ r ≠ [] := by
  by_cases h : r = []
  · rw [(C34_total r).1.mpr h]; simp [not_returns_error, h]
  · exact ⟨fun _ => h, fun _ => (C34_total r).2.1 h⟩

theorem add_segments (c : Centroid α) (l : List (Coord α)) : Returns (c.addLineSegments l) ↔ l ≠ [] := by
  unfold Centroid.addLineSegments
  rw [returns_bind_iff, returns_sub]; · exact List.length_pos_iff
  intro n hn
  have h1 : 1 ≤ l.length := (returns_sub _ _).mp ⟨n, hn⟩
  rw [Res.sub_le h1] at hn; injection hn with hn
  rw [returns_bind_iff]
  · unfold Centroid.segmentLoop
    refine returns_range _ (fun i st _ hi => ?_)
    rw [Res.get_lt (by omega), Res.bind_ok, Res.get_lt (by omega), Res.bind_ok]
    dsimp only
    split <;> exact returns_pure _
  · intro st _
    dsimp only
    split
    · rw [Res.get_lt (by omega), Res.bind_ok]; exact returns_pure _
    · exact returns_pure _

theorem add_triangles (c : Centroid α) (l : List (Coord α)) (b : Bool) : Returns (c.triangleLoop l b) ↔ l ≠ [] := by
  unfold Centroid.triangleLoop
  rw [returns_bind_iff, returns_sub]; · exact List.length_pos_iff
  intro n hn
  have h1 : 1 ≤ l.length := (returns_sub _ _).mp ⟨n, hn⟩
  rw [Res.sub_le h1] at hn; injection hn with hn
  refine returns_range _ (fun i st _ hi => ?_)
  unfold Centroid.triangleStep
  split
  · rw [Res.get_lt (by omega), Res.bind_ok, Res.get_lt (by omega), Res.bind_ok]; exact returns_pure _
  · exact returns_pure _

theorem add_hole [FltOrd α] (c : Centroid α) (l : List (Coord α)) : Returns (c.addHole l) ↔ l ≠ [] := by
  unfold Centroid.addHole
  constructor
  · intro h
    rw [returns_bind] at h
    obtain ⟨b, hb, -⟩ := h
    exact (ccw_list l).mp ⟨b, hb⟩
  · intro h
    rw [returns_bind_iff]; · exact (ccw_list l).mpr h
    intro b _
    rw [returns_bind_iff]; · exact (add_triangles _ l _).mpr h
    exact fun c _ => (add_segments c l).mpr h

theorem add_shell [FltOrd α] (c : Centroid α) (l : List (Coord α)) : Returns (c.addShell l) ↔ l ≠ [] := by
  unfold Centroid.addShell
  by_cases h : l = []
  · subst h
    refine ⟨fun hr => ?_, fun hr => absurd rfl hr⟩
    exfalso
    rw [if_neg (by simp)] at hr
    rw [Res.pure_eq, Res.bind_ok] at hr
    dsimp only at hr
    rw [returns_bind] at hr
    obtain ⟨b, hb, -⟩ := hr
    exact (ccw_list ([] : List (Coord α))).mp ⟨b, hb⟩ rfl
  · refine ⟨fun _ => h, fun _ => ?_⟩
    rw [if_pos (List.length_pos_iff.mpr h), Res.get_lt (List.length_pos_iff.mpr h), Res.bind_ok, Res.pure_eq, Res.bind_ok, returns_bind_iff]
    · exact (ccw_list l).mpr h
    intro b _
    rw [returns_bind_iff]; · exact (add_triangles _ l _).mpr h
    exact fun c _ => (add_segments c l).mpr h

theorem add_polygon [FltOrd α] (c : Centroid α) (p : Polygon α) : Returns (c.addPolygon p) ↔ ∀ r ∈ allRings p, r.points.coordinates ≠ [] := by
  unfold Centroid.addPolygon Polygon.getExteriorRing
  rw [ringCopy, Res.bind_ok]
  have loop : ∀ c : Centroid α, Returns (forRange 0 p.getNumInteriorRing c (fun i c => do
      let h ← p.getInteriorRing i
      c.addHole h.getCoordinates)) ↔ ∀ i, 0 ≤ i → i < p.getNumInteriorRing → ∀ h : i < p.holes.length, p.holes[i].points.coordinates ≠ [] := by
    intro c
    refine returns_range_iff (P := fun _ => True) trivial (fun i c _ hi _ => ?_) (fun _ _ _ _ _ _ _ => trivial)
    have hi' : i < p.holes.length := hi
    have : p.getInteriorRing i = .ok ⟨p.holes[i].points, none, none⟩ := by
      unfold Polygon.getInteriorRing; rw [Res.get_lt hi', Res.bind_ok, ringCopy]
    rw [this, Res.bind_ok, add_hole]
    exact ⟨fun h _ => h, fun h => h hi'⟩
  constructor
  · rw [returns_bind]
    rintro ⟨b, hb, hl⟩ r hr
    rcases List.mem_cons.mp hr with rfl | hr
    · exact (add_shell _ _).mp ⟨b, hb⟩
    · obtain ⟨i, hi, rfl⟩ := List.getElem_of_mem hr
      exact (loop b).mp hl i (Nat.zero_le _) hi hi
  · intro h
    rw [returns_bind_iff]; · exact (add_shell _ _).mpr (h p.shell List.mem_cons_self)
    exact fun b _ => (loop b).mpr (fun i _ _ hi => h _ (List.mem_cons_of_mem _ (List.getElem_mem hi)))

theorem add_polygons [FltOrd α] (m : MultiPolygon α) : Returns (Centroid.ofMultiPolygon m) ↔ ∀ p ∈ m.polygons, ∀ r ∈ allRings p, r.points.coordinates ≠ [] := by
  unfold Centroid.ofMultiPolygon
  have := returns_range_iff (lo := 0) (hi := m.polygons.length) (s := (Centroid.init : Centroid α)) (f := fun i c => do
    let p ← m.getPolygon i
    c.addPolygon p) (P := fun _ => True) (Q := fun i => ∀ h : i < m.polygons.length, ∀ r ∈ allRings m.polygons[i], r.points.coordinates ≠ []) trivial
    (fun i c _ hi _ => by
      unfold MultiPolygon.getPolygon
      obtain ⟨q, hq, h1, h2⟩ := polygon_copy m.polygons[i]
      rw [Res.get_lt hi, Res.bind_ok, hq, Res.bind_ok, add_polygon]
      have e : (allRings q).map (·.points) = (allRings m.polygons[i]).map (·.points) := by simp [allRings, h1, h2]
      have t : ∀ a b : Polygon α, (allRings a).map (·.points) = (allRings b).map (·.points) → (∀ r ∈ allRings a, r.points.coordinates ≠ []) →
          ∀ r ∈ allRings b, r.points.coordinates ≠ [] := by
        intro a b hab h r hr
        have : r.points ∈ (allRings a).map (·.points) := by rw [hab]; exact List.mem_map_of_mem hr
        obtain ⟨r', hr', he⟩ := List.mem_map.mp this
        rw [← he]; exact h r' hr'
      exact ⟨fun h _ => t _ _ e h, fun h => t _ _ e.symm (h hi)⟩) (fun _ _ _ _ _ _ _ => trivial)
  rw [this]
  constructor
  · intro h p hp
    obtain ⟨i, hi, rfl⟩ := List.getElem_of_mem hp
    exact h i (Nat.zero_le _) hi hi
  · exact fun h i _ _ hi => h _ (List.getElem_mem hi)

omit [FltSqrt α] in
theorem internal_point [FltSqrt α] [FltRound α] (pm : Option (PM α)) (c : Coord α) : Returns (pointFromInternal pm c) := by
  unfold pointFromInternal
  dsimp only
  exact (point_make _).mpr (by simp [CASeq.ofCoordinates, CASeq.size])

/-- C134: algorithms on rings and lines. Locating points, testing for lines, areas and distances never abort; the orientation of a ring
aborts exactly for the ring without coordinates; the centroid of a line exactly for the line without coordinates; the centroid of a
polygon exactly if it has a shell with coordinates and a hole without; the centroid of polygons exactly if one of them has coordinates and
one of them a ring without. -/
theorem C134_algorithms [FltOrd α] [FltRound α] (c : Coord α) (r : List (Coord α)) (s : CASeq α) (l : LineString α) (p : Polygon α)
    (m : MultiPolygon α) (o : Point α) :
    Returns (PointLocation.locateInRing c r) ∧ Returns (PointLocation.isInRing c r) ∧ Returns (RayCounter.locateSeq c s) ∧
    Returns (PointLocation.isOnLine c r) ∧ Returns (PointLocation.isOnLineSeq c s) ∧ Returns (Area.ofRing r) ∧ Returns (Area.ofRingSigned r) ∧
    Returns (Area.ofRingSeq s) ∧ Returns (Length.ofLine s) ∧ Returns (Distance.pointToSegmentString c r) ∧ Returns (Orientation.isCCWArea r) ∧
    (Returns (Orientation.isCCW r) ↔ r ≠ []) ∧ Returns (Centroid.fromPoint o) ∧
    (Returns (Centroid.ofLineString l) ↔ l.points.coordinates ≠ []) ∧
    (Returns p.getCentroid ↔ p.isEmpty ∨ ∀ h ∈ p.holes, h.points.coordinates ≠ []) ∧
    (Returns m.getCentroid ↔ (∀ p ∈ m.polygons, p.isEmpty) ∨ ∀ p ∈ m.polygons, ∀ h ∈ allRings p, h.points.coordinates ≠ []) := by
  have loc : Returns (PointLocation.locateInRing c r) := by
    unfold PointLocation.locateInRing RayCounter.locateVec
    rw [returns_bind_iff (fun _ _ => returns_pure _)]
    refine returns_range _ (fun i st h1 hi => ?_)
    rw [Res.get_lt hi, Res.bind_ok, Res.get_lt (by omega), Res.bind_ok]; exact returns_pure _
  have area : Returns (Area.ofRingSigned r) := by
    unfold Area.ofRingSigned
    split; · exact returns_pure _
    rw [Res.get_lt (by omega), Res.bind_ok, returns_bind_iff (fun _ _ => returns_pure _)]
    refine returns_range _ (fun i st _ hi => ?_)
    rw [Res.get_lt (by omega), Res.bind_ok, Res.get_lt (by omega), Res.bind_ok, Res.get_lt (by omega), Res.bind_ok]
    exact returns_pure _
  refine ⟨loc, ?_, ?_, ?_, ?_, ?_, area, area_seq s, line_length s, ?_, ?_, ccw_list r, ?_, add_segments _ _, ?_, ?_⟩
  · unfold PointLocation.isInRing
    rw [returns_bind_iff (fun _ _ => returns_pure _)]; exact loc
  · show Returns (Except.ok s.size >>= fun n => forRange 1 n (RayCounter.new c) (fun i counter => s.getOrd i 0 >>= fun x1 => s.getOrd i 1 >>= fun y1 =>
      s.getOrd (i - 1) 0 >>= fun x2 => s.getOrd (i - 1) 1 >>= fun y2 =>
        pure (counter.step { Coord.default with x := x1, y := y1 } { Coord.default with x := x2, y := y2 })) >>= fun c => pure c.getLocation : Res Int)
    rw [Res.bind_ok, returns_bind_iff (fun _ _ => returns_pure _)]
    refine returns_range _ (fun i st h1 hi => ?_)
    rw [returns_bind_iff]; · exact (seq_getOrd _ _ _).mpr hi
    intro _ _
    rw [returns_bind_iff]; · exact (seq_getOrd _ _ _).mpr hi
    intro _ _
    rw [returns_bind_iff]; · exact (seq_getOrd _ _ _).mpr (by omega)
    intro _ _
    rw [returns_bind_iff (fun _ _ => returns_pure _)]; exact (seq_getOrd _ _ _).mpr (by omega)
  · unfold PointLocation.isOnLine
    rw [returns_bind_iff (fun _ _ => returns_pure _)]
    refine returns_find (fun i h1 hi => ?_)
    rw [Res.get_lt (by omega), Res.bind_ok, Res.get_lt (by omega), Res.bind_ok]
    split <;> exact returns_pure _
  · unfold PointLocation.isOnLineSeq
    have e : s.size = s.coordinates.length := rfl
    rw [returns_bind_iff (fun _ _ => returns_pure _)]
    refine returns_find (fun i h1 hi => ?_)
    rw [Res.get_lt (by omega), Res.bind_ok, Res.get_lt (by omega), Res.bind_ok]
    split <;> exact returns_pure _
  · unfold Area.ofRing
    rw [returns_bind_iff (fun _ _ => returns_pure _)]; exact area
  · unfold Distance.pointToSegmentString
    split; · exact returns_pure _
    rw [Res.get_lt (by omega), Res.bind_ok]
    refine returns_range _ (fun i st _ hi => ?_)
    rw [Res.get_lt (by omega), Res.bind_ok, Res.get_lt (by omega), Res.bind_ok]
    exact returns_pure _
  · unfold Orientation.isCCWArea
    rw [returns_bind_iff (fun _ _ => returns_pure _)]; exact area
  · unfold Centroid.fromPoint Centroid.ofPoint
    rw [returns_bind_iff (fun _ _ => returns_pure _)]
    obtain ⟨k, hk, -⟩ := point_coordinate o
    rw [hk, Res.bind_ok]
    cases k <;> exact returns_pure _
  · unfold Polygon.getCentroid
    have he : p.isEmpty = true ↔ p.shell.points.coordinates = [] := by simp [Polygon.isEmpty, LinearRing.isEmpty, CASeq.size]
    split
    · rename_i h; exact ⟨fun _ => .inl h, fun _ => returns_pure _⟩
    · rename_i h
      rw [returns_bind_iff]
      · unfold Centroid.fromPolygon Centroid.ofPolygon
        rw [returns_bind_iff (fun _ _ => returns_pure _), add_polygon]
        constructor
        · exact fun hr => .inr (fun x hx => hr x (List.mem_cons_of_mem _ hx))
        · rintro (hr | hr)
          · exact absurd hr h
          · intro x hx
            rcases List.mem_cons.mp hx with rfl | hx
            · exact fun e => h (he.mpr e)
            · exact hr x hx
      · intro x _
        cases x with
        | none => exact returns_pure _
        | some c => exact internal_point _ _
  · unfold MultiPolygon.getCentroid
    have hempty : ∃ b, m.isEmpty = .ok b ∧ (b = true ↔ ∀ p ∈ m.polygons, p.isEmpty = true) := by
      unfold MultiPolygon.isEmpty
      rw [forFind_findSome m.polygons 0 m.polygons.length (by simp) _ (fun p => if !p.isEmpty then some false else none)]
      · rw [Res.bind_ok]
        refine ⟨_, rfl, ?_⟩
        cases hf : m.polygons.findSome? (fun p => if !p.isEmpty then some false else none) with
        | none =>
          simp only [Option.getD_none, true_iff]
          intro p hp
          have := List.findSome?_eq_none_iff.mp hf p hp
          by_contra h
          simp [h] at this
        | some v =>
          obtain ⟨p, hp, h⟩ := List.exists_of_findSome?_eq_some hf
          have hv : v = false ∧ p.isEmpty = false := by
            by_cases hq : p.isEmpty = true
            · simp [hq] at h
            · simp only [hq, Bool.not_false, if_true, Option.some.injEq] at h; exact ⟨h.symm, by simpa using hq⟩
          simp only [Option.getD_some]
          rw [hv.1]
          simp only [Bool.false_eq_true, false_iff]
          intro hall
          rw [hall p hp] at hv; cases hv.2
      · intro i hi
        rw [Nat.zero_add, Res.get_lt hi, Res.bind_ok]; rfl
    obtain ⟨b, hb, hiff⟩ := hempty
    rw [hb, Res.bind_ok]
    split
    · rename_i h; exact ⟨fun _ => .inl (hiff.mp h), fun _ => returns_pure _⟩
    · rename_i h
      rw [returns_bind_iff]
      · unfold Centroid.fromMultiPolygon
        rw [returns_bind_iff (fun _ _ => returns_pure _), add_polygons]
        exact ⟨fun hr => .inr hr, fun hr => hr.resolve_left (fun hl => h (hiff.mpr hl))⟩
      · intro x _
        cases x with
        | none => exact returns_pure _
        | some c => exact internal_point _ _

end geometries

/-! ## Examples -/

section examples

private def pt (x y : ℚ) : Coord EQ := Coord.xy (Fl.fin x) (Fl.fin y)

private def ring (l : List (Coord EQ)) : LinearRing EQ := ⟨CASeq.ofCoordinates l, none, none⟩

private def sides : List (Coord EQ) := [pt 0 0, pt 9 0, pt 0 9, pt 0 0]

private def withNaN : CASeq EQ := ⟨7, 2, [⟨.nan, .pinf, .nan, .nan⟩, pt 1 2, ⟨.ninf, .nan, .fin 3, .nan⟩]⟩

/-- A sequence with NaN and infinities, of dimension 7: it can be reversed and closed, asking for its fourth coordinate aborts. -/
example : Returns (Seqs.reverse withNaN) ∧ Returns (Seqs.ensureValidRing withNaN) ∧ ¬ Returns (withNaN.getCoordinate 3) ∧ Returns (withNaN.getCoordinate 2) := by
  have h := C134_sequences withNaN withNaN (pt 0 0) (Fl.fin 1) 3 0 0
  have h' := C134_sequences withNaN withNaN (pt 0 0) (Fl.fin 1) 2 0 0
  exact ⟨h.2.2.2.1, h.2.2.2.2.2.1, fun hr => absurd (h.1.mp hr) (by decide), h'.1.mpr (by decide)⟩

/-- A sequence of dimension 7 cannot be extended to two coordinates, an empty one cannot be scrolled to its second place. -/
example : ¬ Returns (Seqs.extend withNaN 2) ∧ Returns (Seqs.extend withNaN 5) ∧ ¬ Returns (Seqs.scrollIndex (⟨2, 0, []⟩ : CASeq EQ) 1) := by
  refine ⟨fun h => absurd ((C134_sequences withNaN withNaN (pt 0 0) (Fl.fin 1) 2 0 0).2.2.2.2.2.2.2.2.2.2.2.2.2 (by decide) |>.mp h) (by decide),
    ((C134_sequences withNaN withNaN (pt 0 0) (Fl.fin 1) 5 0 0).2.2.2.2.2.2.2.2.2.2.2.2.2 (by decide)).mpr (by decide), fun h => ?_⟩
  exact absurd ((C134_sequences (⟨2, 0, []⟩ : CASeq EQ) withNaN (pt 0 0) (Fl.fin 1) 1 0 0).2.2.2.2.2.2.2.2.2.2.2.2.1.mp h) (by decide)

/-- Scrolling an open array of three to its fourth place is fine (it is out of range), to its fifth it aborts. -/
example : Returns (CoordArrays.scrollIndex [pt 0 0, pt 1 0, pt 2 0] 3) ∧ ¬ Returns (CoordArrays.scrollIndex [pt 0 0, pt 1 0, pt 2 0] 4) := by
  refine ⟨(C134_arrays _ [] (pt 0 0) 3).2.2.2.2.2.2.2.2.2.2.2.2.mpr (by decide), fun h => ?_⟩
  exact absurd ((C134_arrays _ [] (pt 0 0) 4).2.2.2.2.2.2.2.2.2.2.2.2.mp h) (by decide +kernel)

/-- A triangle with a hole: it cannot be reversed; with a hole of one coordinate it cannot be normalised. -/
example : ¬ Returns (⟨ring sides, [ring sides], none, none⟩ : Polygon EQ).reverse ∧
    Returns (⟨ring sides, [ring sides], none, none⟩ : Polygon EQ).selfNormalize ∧
    ¬ Returns (⟨ring sides, [ring [pt 1 1]], none, none⟩ : Polygon EQ).selfNormalize := by
  have h := C134_polygons (⟨ring sides, [ring sides], none, none⟩ : Polygon EQ) ⟨ring sides, [], none, none⟩ (Fl.fin 0) 0 0 (by decide)
  have h' := C134_polygons (⟨ring sides, [ring [pt 1 1]], none, none⟩ : Polygon EQ) ⟨ring sides, [], none, none⟩ (Fl.fin 0) 0 0 (by decide)
  exact ⟨fun hr => absurd (h.2.1.mp hr) (by decide), h.2.2.1.mpr (by decide), fun hr => absurd (h'.2.2.1.mp hr) (by decide)⟩

/-- A triangle with an empty hole has no centroid, it aborts; an empty polygon does not. -/
example : ¬ Returns (⟨ring sides, [ring []], none, none⟩ : Polygon EQ).getCentroid ∧ Returns (⟨ring [], [ring []], none, none⟩ : Polygon EQ).getCentroid := by
  have h := fun p : Polygon EQ => (C134_algorithms (pt 0 0) [] withNaN ⟨withNaN, none⟩ p ⟨[], none, none⟩ ⟨withNaN, none, none⟩).2.2.2.2.2.2.2.2.2.2.2.2.2.2.1
  exact ⟨fun hr => absurd ((h _).mp hr) (by decide), (h _).mpr (by decide)⟩

/-- A collection of two points: its member by number 1 is there, 0, 2 and 3 abort, 4 is not there. -/
example : let m : MultiPoint EQ := ⟨[⟨CASeq.ofCoordinates [pt 0 0], none, none⟩, ⟨CASeq.ofCoordinates [pt 1 0], none, none⟩], none, none⟩
    Returns (m.getPointAtIndex 1) ∧ Returns (m.getPointAtIndex 4) ∧ ¬ Returns (m.getPointAtIndex 0) ∧ ¬ Returns (m.getPointAtIndex 2) ∧
    ¬ Returns (m.getPointAtIndex 3) := by
  intro m
  have h := fun n => (C134_collections m m ⟨[], none, none⟩ ⟨[], none, none⟩ ⟨[], none, none⟩ ⟨[], none, none⟩ withNaN (Fl.fin 0) n).2.2.2.2.2.2.1
  exact ⟨(h 1).mpr (by decide), (h 4).mpr (by decide), fun hr => absurd ((h 0).mp hr) (by decide), fun hr => absurd ((h 2).mp hr) (by decide),
    fun hr => absurd ((h 3).mp hr) (by decide)⟩

/-- A point made of two coordinates. -/
example : ¬ Returns (Point.ofSeq (CASeq.ofCoordinates [pt 0 0, pt 1 1])) :=
  fun h => absurd ((C134_points (Point.default : Point EQ) Point.default _ (pt 0 0) (Fl.fin 0) 0).1.mp h) (by decide)

/-- A line with NaN: it can be normalised, reversed and measured; it has no third point beyond its last. -/
example : Returns (⟨withNaN, none⟩ : LineString EQ).normalize ∧ ¬ Returns ((⟨withNaN, none⟩ : LineString EQ).getPointN 3) := by
  have h := C134_lines (⟨withNaN, none⟩ : LineString EQ) ⟨withNaN, none⟩ (pt 0 0) (Fl.fin 0) 3 0
  exact ⟨h.2.2.2.2.2.2.2.2.2.2.2.1, fun hr => absurd (h.2.1.mp hr) (by decide)⟩

/-- A ring with NaN can be copied and reversed. -/
example : Returns (ring withNaN.coordinates).reverse := (C134_rings (ring withNaN.coordinates) (ring []) withNaN [] (Fl.fin 0) 0).2.2.2.2.2.2.1

end examples
end Verif.Props
