import Verif.Lemmas.Sequences
import Verif.Lemmas.Flt

set_option linter.unusedSectionVars false

/-! # C18, C19, C20: reversing, scrolling and closing sequences -/

namespace Verif.Props
open Flt SeqLaws
variable {α : Type} [Flt α]

/-! ## From ordinates to coordinates -/

/-- A coordinate of a result: x, y (and z if the dimension reaches it) from `b`, the rest from `a`. -/
def mergeRow (dim : Int) (a b : Coord α) : Coord α := ⟨b.x, b.y, if 3 ≤ dim then b.z else a.z, a.m⟩

theorem caseq_rows (s s' : CASeq α) (h : 2 ≤ s.dimension) (hf : SeqLaws.Frame s s') (ρ : Nat → Nat)
    (ho : ∀ r < SeqLaws.n s, ∀ k, Col s k → SeqLaws.ord s' r k = SeqLaws.ord s (ρ r) k) :
    s'.dimension = s.dimension ∧ s'.measures = s.measures ∧ s'.coordinates.length = s.coordinates.length ∧
    ∀ (r : Nat) (a b : Coord α), s.coordinates[r]? = some a → s.coordinates[ρ r]? = some b →
      s'.coordinates[r]? = some (mergeRow s.dimension a b) := by
  obtain ⟨h1, h2, h3, h4, h5⟩ := hf
  refine ⟨h1, h2, h3, ?_⟩
  intro r a b ha hb
  obtain ⟨hr, -⟩ := List.getElem?_eq_some_iff.mp ha
  have hr' : r < s'.coordinates.length := by omega
  have hm := h4 r
  have e : ∀ k < 3, (k < s.dimension.toNat → s'.ord r k = s.ord (ρ r) k) ∧
      (s.dimension.toNat ≤ k → s'.ord r k = s.ord r k) := by
    intro k hk
    exact ⟨fun hd => ho r hr k ⟨hd, hk⟩, fun hd => h5 r k hd⟩
  have e0 := (e 0 (by omega)).1 (by omega)
  have e1 := (e 1 (by omega)).1 (by omega)
  have e2 := e 2 (by omega)
  rw [List.getElem?_eq_getElem hr'] at hm ⊢
  rw [ha] at hm
  simp only [CASeq.ord, ha, hb, List.getElem?_eq_getElem hr'] at e0 e1 e2
  simp only [Option.map_some, Option.some.injEq] at hm
  simp at e0 e1 e2
  congr 1
  unfold mergeRow
  cases hc : s'.coordinates[r]
  rw [hc] at e0 e1 e2 hm
  simp only at e0 e1 e2 hm
  subst e0 e1 hm
  split
  · rw [e2.1 (by omega)]
  · rw [e2.2 (by omega)]

/-! ## C18 -/

/-- Reversing an array sequence: x and y (and z, from dimension 3 on) of coordinate `n - 1 - i` go to coordinate `i`. Size, dimension and
measure count stay. The measures themselves are not ordinates the sequence can address, and stay where they were. -/
theorem C18_array_reverse_partial (s : CASeq α) (h : 2 ≤ s.dimension) :
    ∃ s', Seqs.reverse s = .ok s' ∧ s'.dimension = s.dimension ∧ s'.measures = s.measures ∧
      s'.coordinates.length = s.coordinates.length ∧
      ∀ (i : Nat) (a b : Coord α), s.coordinates[i]? = some a → s.coordinates[s.coordinates.length - 1 - i]? = some b →
        s'.coordinates[i]? = some (mergeRow s.dimension a b) := by
  obtain ⟨s', e1, -, e3, e4⟩ := reverse_spec s h
  exact ⟨s', e1, caseq_rows s s' h e3 _ e4⟩

/-- Without measures (and, in dimension 2, without z) this is list reversal. -/
theorem C18_array_reverse_list_partial (s : CASeq α) (h : 2 ≤ s.dimension) (m0 z0 : α) (hm : ∀ c ∈ s.coordinates, c.m = m0)
    (hz : 3 ≤ s.dimension ∨ ∀ c ∈ s.coordinates, c.z = z0) :
    Seqs.reverse s = .ok { s with coordinates := s.coordinates.reverse } := by
  obtain ⟨s', e1, e2, e3, e4, e5⟩ := C18_array_reverse_partial s h
  rw [e1]
  obtain ⟨d, m, c⟩ := s'
  simp only at e2 e3 e4 e5
  subst e2 e3
  congr 2
  apply List.ext_getElem?
  intro i
  by_cases hi : i < s.coordinates.length
  · have hr : s.coordinates.length - 1 - i < s.coordinates.length := by omega
    rw [e5 i _ _ (List.getElem?_eq_getElem hi) (List.getElem?_eq_getElem hr), List.getElem?_reverse hi,
      List.getElem?_eq_getElem hr]
    congr 1
    have m1 := hm _ (List.getElem_mem hi)
    have m2 := hm _ (List.getElem_mem hr)
    unfold mergeRow
    rw [m1, ← m2]
    split
    · rfl
    · rename_i hd
      rcases hz with hz | hz
      · exact absurd hz hd
      · rw [hz _ (List.getElem_mem hi), ← hz _ (List.getElem_mem hr)]
  · rw [List.getElem?_eq_none (by omega), List.getElem?_eq_none (by simp; omega)]

/-- Reversing a packed sequence moves every ordinate, measures included. -/
theorem C18_packed_reverse (s : PSeq α) (h : s.WF) :
    ∃ s', Seqs.reverse s = .ok s' ∧ s'.dimension = s.dimension ∧ s'.measures = s.measures ∧
      s'.coords.length = s.coords.length ∧
      ∀ i k, i < s.coords.length / s.dimension.toNat → k < s.dimension.toNat →
        s'.coords[i * s.dimension.toNat + k]? =
          s.coords[(s.coords.length / s.dimension.toNat - 1 - i) * s.dimension.toNat + k]? := by
  obtain ⟨s', e1, e2, e3, e4⟩ := reverse_spec s h
  obtain ⟨f1, f2, f3, -⟩ := e3
  refine ⟨s', e1, f1, f2, f3, ?_⟩
  intro i k hi hk
  have := e4 i hi k ⟨hk, trivial⟩
  have l1 := PSeq.idx_lt s h i hi k hk
  have l2 := PSeq.idx_lt s h (s.coords.length / s.dimension.toNat - 1 - i) (by simp only [PSeq.n]; omega) k hk
  simp only [SeqLaws.ord, PSeq.ord, SeqLaws.n, PSeq.n, f1] at this
  rw [List.getElem?_eq_getElem (by omega), List.getElem?_eq_getElem l2] at this ⊢
  simpa using this

theorem reverse_twice {S : Type} [SeqOps S α] [SeqLaws S α] (s : S) (h : WF s) :
    (Seqs.reverse s >>= Seqs.reverse) = .ok s := by
  obtain ⟨s', e1, e2, e3, e4⟩ := reverse_spec s h
  rw [e1, Res.bind_ok]
  obtain ⟨s2, g1, g2, g3, g4⟩ := reverse_spec s' e2
  rw [g1]
  congr 1
  have hn := frame_n _ _ e3
  have hd := frame_dim _ _ e3
  apply ext s s2 h (frame_trans _ _ _ e3 g3)
  intro i hi k hk hs
  rw [g4 i (by omega) k ⟨by rw [hd]; exact hk, hs⟩, hn, e4 _ (by omega) k ⟨hk, hs⟩]
  congr 1; omega

/-- Reversing twice restores the sequence, for both kinds of sequences. -/
theorem C18_reverse_involution (s : CASeq α) (p : PSeq α) (hs : 2 ≤ s.dimension) (hp : p.WF) :
    (Seqs.reverse s >>= Seqs.reverse) = .ok s ∧ (Seqs.reverse p >>= Seqs.reverse) = .ok p :=
  ⟨reverse_twice s hs, reverse_twice p hp⟩

/-! ## C19 -/

/-- Scrolling an array sequence without the ring flag rotates its coordinates (measures excepted). -/
theorem C19_array_scroll (s : CASeq α) (h : 2 ≤ s.dimension) (first : Nat) :
    ∃ s', Seqs.scrollEnsureRing s first false = .ok s' ∧ s'.dimension = s.dimension ∧ s'.measures = s.measures ∧
      s'.coordinates.length = s.coordinates.length ∧
      ∀ (i : Nat) (a b : Coord α), s.coordinates[i]? = some a → s.coordinates[(first + i) % s.coordinates.length]? = some b →
        s'.coordinates[i]? = some (mergeRow s.dimension a b) := by
  by_cases hf : 0 < first
  · obtain ⟨s', e1, -, e3, e4⟩ := scroll_spec s h first hf false (by simp)
    refine ⟨s', e1, caseq_rows s s' h e3 _ ?_⟩
    intro r hr k hk
    rw [e4 r hr k hk]; simp; rfl
  · have : first = 0 := by omega
    subst this
    refine ⟨s, by simp [Seqs.scrollEnsureRing], rfl, rfl, rfl, ?_⟩
    intro i a b ha hb
    obtain ⟨hi, -⟩ := List.getElem?_eq_some_iff.mp ha
    rw [Nat.zero_add, Nat.mod_eq_of_lt hi, ha] at hb
    cases hb
    rw [ha]; simp [mergeRow]

/-- Scrolling with the ring flag rotates all but the last coordinate and makes the last equal to the first. -/
theorem C19_array_scroll_ring (s : CASeq α) (h : 2 ≤ s.dimension) (first : Nat) (hf : 0 < first)
    (hn : 2 ≤ s.coordinates.length) :
    ∃ s', Seqs.scrollEnsureRing s first true = .ok s' ∧ s'.dimension = s.dimension ∧ s'.measures = s.measures ∧
      s'.coordinates.length = s.coordinates.length ∧
      (∀ (i : Nat) (a b : Coord α), i < s.coordinates.length - 1 → s.coordinates[i]? = some a →
        s.coordinates[(first + i) % (s.coordinates.length - 1)]? = some b →
        s'.coordinates[i]? = some (mergeRow s.dimension a b)) ∧
      (∀ a b : Coord α, s.coordinates[s.coordinates.length - 1]? = some a →
        s.coordinates[first % (s.coordinates.length - 1)]? = some b →
        s'.coordinates[s.coordinates.length - 1]? = some (mergeRow s.dimension a b)) ∧
      (∀ c d : Coord α, s'.coordinates[0]? = some c → s'.coordinates[s.coordinates.length - 1]? = some d →
        d.x = c.x ∧ d.y = c.y ∧ (3 ≤ s.dimension → d.z = c.z)) := by
  obtain ⟨s', e1, -, e3, e4⟩ := scroll_spec s h first hf true (fun _ => by show 0 < s.coordinates.length; omega)
  obtain ⟨f1, f2, f3, f4⟩ := caseq_rows s s' h e3 (fun r => if r = s.coordinates.length - 1 then
    first % (s.coordinates.length - 1) else (first + r) % (s.coordinates.length - 1)) (by
      intro r hr k hk
      rw [e4 r hr k hk]
      simp only [SeqLaws.n] at *
      by_cases c : r = s.coordinates.length - 1
      · rw [if_pos (by simp [c]), if_neg (by omega), if_pos c]
      · rw [if_neg (by simp [c]), if_neg c]; simp)
  have g1 : ∀ (i : Nat) (a b : Coord α), i < s.coordinates.length - 1 → s.coordinates[i]? = some a →
        s.coordinates[(first + i) % (s.coordinates.length - 1)]? = some b →
        s'.coordinates[i]? = some (mergeRow s.dimension a b) := by
    intro i a b hi ha hb
    exact f4 i a b ha (by rw [if_neg (by omega)]; exact hb)
  have g2 : ∀ a b : Coord α, s.coordinates[s.coordinates.length - 1]? = some a →
        s.coordinates[first % (s.coordinates.length - 1)]? = some b →
        s'.coordinates[s.coordinates.length - 1]? = some (mergeRow s.dimension a b) := by
    intro a b ha hb
    exact f4 _ a b ha (by rw [if_pos rfl]; exact hb)
  refine ⟨s', e1, f1, f2, f3, g1, g2, ?_⟩
  intro c d hc hd
  have hmod : first % (s.coordinates.length - 1) < s.coordinates.length :=
    lt_of_lt_of_le (Nat.mod_lt _ (by omega)) (by omega)
  have k1 := g1 0 _ _ (by omega) (List.getElem?_eq_getElem (by omega))
    (by rw [Nat.add_zero]; exact List.getElem?_eq_getElem hmod)
  have k2 := g2 _ _ (List.getElem?_eq_getElem (by omega)) (List.getElem?_eq_getElem hmod)
  rw [k1] at hc
  rw [k2] at hd
  cases hc; cases hd
  refine ⟨rfl, rfl, fun h3 => ?_⟩
  simp [mergeRow, h3]

/-- Packed sequences: every ordinate is rotated. -/
theorem C19_packed_scroll (s : PSeq α) (h : s.WF) (first : Nat) (hf : 0 < first) (e : Bool)
    (he : e = true → 2 ≤ s.coords.length / s.dimension.toNat) :
    ∃ s', Seqs.scrollEnsureRing s first e = .ok s' ∧ s'.dimension = s.dimension ∧ s'.measures = s.measures ∧
      s'.coords.length = s.coords.length ∧
      ∀ i k, i < s.coords.length / s.dimension.toNat → k < s.dimension.toNat →
        s'.coords[i * s.dimension.toNat + k]? =
          s.coords[(if e = true then
              (if i = s.coords.length / s.dimension.toNat - 1 then first % (s.coords.length / s.dimension.toNat - 1)
                else (first + i) % (s.coords.length / s.dimension.toNat - 1))
            else (first + i) % (s.coords.length / s.dimension.toNat)) * s.dimension.toNat + k]? := by
  obtain ⟨s', e1, e2, e3, e4⟩ := scroll_spec s h first hf e (fun h => by
    have := he h; show 0 < s.coords.length / s.dimension.toNat; omega)
  obtain ⟨f1, f2, f3, -⟩ := e3
  refine ⟨s', e1, f1, f2, f3, ?_⟩
  intro i k hi hk
  have := e4 i hi k ⟨hk, trivial⟩
  have l1 := PSeq.idx_lt s h i hi k hk
  obtain ⟨N, hN⟩ : ∃ N, N = s.coords.length / s.dimension.toNat := ⟨_, rfl⟩
  have hN' : SeqLaws.n s = N := hN.symm
  rw [hN'] at this
  rw [← hN] at he hi ⊢
  have hrow : SeqLaws.ord s' i k = SeqLaws.ord s (if e = true then
              (if i = N - 1 then first % (N - 1) else (first + i) % (N - 1)) else (first + i) % N) k := by
    rw [this]
    cases e with
    | false => simp
    | true =>
      have := he rfl
      simp only [true_and, if_true]
      by_cases c : i = N - 1
      · rw [if_pos c, if_neg (by omega), if_pos c]
      · rw [if_neg c, if_neg c]
  obtain ⟨ρ, hρ⟩ : ∃ ρ, (if e = true then (if i = N - 1 then first % (N - 1) else (first + i) % (N - 1)) else (first + i) % N) = ρ := ⟨_, rfl⟩
  rw [hρ] at hrow ⊢
  have hρlt : ρ < N := by
    rw [← hρ]
    cases e with
    | false => simp only [Bool.false_eq_true, if_false]; exact Nat.mod_lt _ (by omega)
    | true =>
      have := he rfl
      simp only [if_true]
      split
      · have := Nat.mod_lt first (show N - 1 > 0 by omega); omega
      · have := Nat.mod_lt (first + i) (show N - 1 > 0 by omega); omega
  have l2 := PSeq.idx_lt s h ρ (by simp only [PSeq.n]; omega) k hk
  simp only [SeqLaws.ord, PSeq.ord, f1] at hrow
  rw [List.getElem?_eq_getElem (by omega), List.getElem?_eq_getElem l2] at hrow ⊢
  simpa using hrow

/-- `is_ring` on array sequences: empty, or at least four coordinates with the ends equal in x and y. -/
theorem C19_isRing_array (s : CASeq α) (h : 2 ≤ s.dimension) :
    ∃ b, Seqs.isRing s = .ok b ∧ (b = true ↔ s.coordinates = [] ∨ (4 ≤ s.coordinates.length ∧
      ∃ c d, s.coordinates.head? = some c ∧ s.coordinates.getLast? = some d ∧ (c.x ==. d.x) = true ∧ (c.y ==. d.y) = true)) := by
  unfold Seqs.isRing
  rw [size_eq s h, Res.bind_ok]
  simp only [SeqLaws.n]
  by_cases h0 : s.coordinates.length = 0
  · rw [if_pos h0]
    exact ⟨true, rfl, by simp [List.eq_nil_of_length_eq_zero h0]⟩
  · rw [if_neg h0]
    by_cases h3 : s.coordinates.length ≤ 3
    · rw [if_pos h3]
      refine ⟨false, rfl, ?_⟩
      simp only [Bool.false_eq_true, false_iff, not_or]
      refine ⟨fun hc => h0 (by rw [hc]; rfl), fun hc => by omega⟩
    · rw [if_neg h3]
      refine ⟨_, endsAgree_spec s h (by show 0 < s.coordinates.length; omega), ?_⟩
      have hne : s.coordinates ≠ [] := fun hc => h0 (by rw [hc]; rfl)
      simp only [SeqLaws.ord, CASeq.ord, SeqLaws.n]
      rw [List.getElem?_eq_getElem (show 0 < s.coordinates.length by omega),
        List.getElem?_eq_getElem (show s.coordinates.length - 1 < s.coordinates.length by omega)]
      simp only [Bool.and_eq_true, hne, false_or]
      constructor
      · rintro ⟨a, b⟩
        refine ⟨by omega, s.coordinates[0], s.coordinates[s.coordinates.length - 1], ?_, ?_, a, b⟩
        · rw [List.head?_eq_getElem?, List.getElem?_eq_getElem (by omega)]
        · rw [List.getLast?_eq_getElem?, List.getElem?_eq_getElem (by omega)]
      · rintro ⟨-, c, d, hc, hd, hx, hy⟩
        rw [List.head?_eq_getElem?, List.getElem?_eq_getElem (by omega)] at hc
        rw [List.getLast?_eq_getElem?, List.getElem?_eq_getElem (by omega)] at hd
        cases hc; cases hd
        exact ⟨hx, hy⟩

/-! ## C20 -/

/-- What `ensure_valid_ring` builds when it has to add coordinates. -/
theorem createClosedRing_spec {S : Type} [SeqOps S α] [SeqLaws S α] (s : S) (hs : WF s) (sz : Nat) (h0 : 0 < n s)
    (hsz : n s ≤ sz) :
    ∃ s', Seqs.createClosedRing s sz = .ok s' ∧ WF s' ∧ n s' = sz ∧
      SeqLaws.Frame (SeqOps.create sz (SeqOps.dim s) : S) s' ∧ (∀ k, Col s k → Col s' k) ∧
      ∀ r < sz, ∀ k, Col s k → ord s' r k = if r < n s then ord s r k else ord s 0 k := by
  unfold Seqs.createClosedRing
  rw [size_eq s hs, Res.bind_ok]
  exact fill_spec s hs sz 0 h0 hsz

/-- `ensure_valid_ring` for any sequence type: unchanged if empty or already a ring, else extended by copies of the first coordinate
to at least four coordinates. -/
theorem ensureValidRing_spec {S : Type} [SeqOps S α] [SeqLaws S α] (s : S) (hs : WF s) :
    (n s = 0 → Seqs.ensureValidRing s = .ok s) ∧
    (Seqs.isRing s = .ok true → Seqs.ensureValidRing s = .ok s) ∧
    (Seqs.isRing s = .ok false → ∃ s', Seqs.ensureValidRing s = .ok s' ∧ WF s' ∧ n s' = max 4 (n s + 1) ∧
      SeqLaws.Frame (SeqOps.create (max 4 (n s + 1)) (SeqOps.dim s) : S) s' ∧ (∀ k, Col s k → Col s' k) ∧
      ∀ r < n s', ∀ k, Col s k → ord s' r k = if r < n s then ord s r k else ord s 0 k) := by
  have hz : n s = 0 → Seqs.ensureValidRing s = .ok s := by
    intro h
    simp [Seqs.ensureValidRing, copy_eq, size_eq s hs, h]
  refine ⟨hz, ?_, ?_⟩
  · intro h
    by_cases h0 : n s = 0
    · exact hz h0
    · simp only [Seqs.isRing, size_eq s hs, Res.bind_ok, if_neg h0] at h
      by_cases h3 : n s ≤ 3
      · rw [if_pos h3] at h; cases h
      · rw [if_neg h3] at h
        simp only [Seqs.ensureValidRing, copy_eq, size_eq s hs, Res.bind_ok, if_neg h0, if_neg h3, h]
        rfl
  · intro h
    have h0 : n s ≠ 0 := by
      intro h0
      simp [Seqs.isRing, size_eq s hs, h0] at h
    simp only [Seqs.isRing, size_eq s hs, Res.bind_ok, if_neg h0] at h
    by_cases h3 : n s ≤ 3
    · have e : max 4 (n s + 1) = 4 := by omega
      rw [e]
      simp only [Seqs.ensureValidRing, copy_eq, size_eq s hs, Res.bind_ok, if_neg h0, if_pos h3]
      obtain ⟨s', a1, a2, a3, a4, a5, a6⟩ := createClosedRing_spec s hs 4 (by omega) (by omega)
      exact ⟨s', a1, a2, a3, a4, a5, fun r hr => a6 r (by omega)⟩
    · rw [if_neg h3] at h
      have e : max 4 (n s + 1) = n s + 1 := by omega
      rw [e]
      simp only [Seqs.ensureValidRing, copy_eq, size_eq s hs, Res.bind_ok, if_neg h0, if_neg h3, h]
      obtain ⟨s', a1, a2, a3, a4, a5, a6⟩ := createClosedRing_spec s hs (n s + 1) (by omega) (by omega)
      exact ⟨s', a1, a2, a3, a4, a5, fun r hr => a6 r (by omega)⟩

/-- x and y of a coordinate compare equal to themselves: they are numbers. -/
def SelfEq (c : Coord α) : Prop := (c.x ==. c.x) = true ∧ (c.y ==. c.y) = true

/-- `ensure_valid_ring` on array sequences. Empty sequences and rings are returned as they are. Otherwise the result has at least four
coordinates, starts with the input (x, y and z within the dimension; measures are lost), and continues with copies of the first
coordinate; it is a ring unless the first coordinate has a NaN. -/
theorem C20_array_partial (s : CASeq α) (h : 2 ≤ s.dimension) :
    (s.coordinates = [] → Seqs.ensureValidRing s = .ok s) ∧
    (Seqs.isRing s = .ok true → Seqs.ensureValidRing s = .ok s) ∧
    (Seqs.isRing s = .ok false → ∃ s' c0, s.coordinates.head? = some c0 ∧ Seqs.ensureValidRing s = .ok s' ∧
      s'.dimension = min 3 s.dimension ∧
      s'.coordinates.length = max 4 (s.coordinates.length + 1) ∧
      (∀ i < s'.coordinates.length, s'.coordinates[i]? =
        some (mergeRow s.dimension (Coord.default) ((s.coordinates[i]?).getD c0))) ∧
      (SelfEq c0 → Seqs.isRing s' = .ok true)) := by
  obtain ⟨e1, e2, e3⟩ := ensureValidRing_spec s h
  refine ⟨fun hn => e1 (by show s.coordinates.length = 0; rw [hn]; rfl), e2, fun hr => ?_⟩
  obtain ⟨s', a1, a2, a3, a4, a5, a6⟩ := e3 hr
  have h0 : 0 < s.coordinates.length := by
    rcases Nat.eq_zero_or_pos s.coordinates.length with h0 | h0
    · have : Seqs.isRing s = .ok true := by
        simp [Seqs.isRing, SeqOps.size, CASeq.size, h0]
      rw [this] at hr; cases hr
    · exact h0
  obtain ⟨f1, f2, f3, f4, f5⟩ := a4
  have hdim : s'.dimension = min 3 s.dimension := by
    rw [f1]; simp only [SeqOps.create, SeqOps.dim, CASeq.create, CASeq.newWithSizeDimension]; split_ifs <;> omega
  have hlen : s'.coordinates.length = max 4 (s.coordinates.length + 1) := a3
  have hcre : ∀ i < s'.coordinates.length, (SeqOps.create (max 4 (s.coordinates.length + 1)) (SeqOps.dim s) : CASeq α).coordinates[i]?
      = some Coord.default := by
    intro i hi
    have hdef : ∀ d : Int, (Coordinates.createDim d : Coord α) = Coord.default := by
      intro d
      unfold Coordinates.createDim Coordinates.createDimMeasures
      split_ifs <;> first | rfl | omega
    simp only [SeqOps.create, CASeq.create, CASeq.newWithSizeDimension, hdef]
    rw [List.getElem?_replicate, if_pos (by omega)]
  have hrow : ∀ i < s'.coordinates.length, s'.coordinates[i]? =
        some (mergeRow s.dimension (Coord.default) ((s.coordinates[i]?).getD s.coordinates[0])) := by
    intro i hi
    have hm := f4 i
    have o0 := a6 i hi 0 (col0 s h)
    have o1 := a6 i hi 1 (col1 s h)
    have o2 : (3 ≤ s.dimension → s'.ord i 2 = if i < s.coordinates.length then s.ord i 2 else s.ord 0 2) := by
      intro hd
      exact a6 i hi 2 ⟨by show 2 < s.dimension.toNat; omega, by show 2 < 3; omega⟩
    have o2' : (¬ 3 ≤ s.dimension → s'.ord i 2 = (SeqOps.create (max 4 (s.coordinates.length + 1)) (SeqOps.dim s) : CASeq α).ord i 2) := by
      intro hd
      exact f5 i 2 (by rw [← f1, hdim]; omega)
    change s'.ord i 0 = (if i < s.coordinates.length then s.ord i 0 else s.ord 0 0) at o0
    change s'.ord i 1 = (if i < s.coordinates.length then s.ord i 1 else s.ord 0 1) at o1
    change Option.map Coord.m s'.coordinates[i]? = Option.map Coord.m
      (SeqOps.create (max 4 (s.coordinates.length + 1)) (SeqOps.dim s) : CASeq α).coordinates[i]? at hm
    rw [hcre i hi, List.getElem?_eq_getElem hi] at hm
    simp only [CASeq.ord, hcre i hi, List.getElem?_eq_getElem hi, List.getElem?_eq_getElem h0] at o0 o1 o2 o2'
    rw [List.getElem?_eq_getElem hi]
    congr 1
    generalize hb : (s.coordinates[i]?).getD s.coordinates[0] = b
    have hbx : ∀ f : Coord α → α, (if i < s.coordinates.length then
        (match s.coordinates[i]? with | none => nan | some c => f c) else f s.coordinates[0]) = f b := by
      intro f
      rw [← hb]
      by_cases hlt : i < s.coordinates.length
      · rw [if_pos hlt, List.getElem?_eq_getElem hlt]; rfl
      · rw [if_neg hlt, List.getElem?_eq_none (by omega)]; rfl
    have b0 := hbx Coord.x
    have b1 := hbx Coord.y
    have b2 := hbx Coord.z
    simp only [Option.map_some, Option.some.injEq] at hm
    simp only [if_true, one_ne_zero, if_false, OfNat.ofNat_ne_zero, OfNat.ofNat_ne_one] at o0 o1 o2 o2'
    replace o0 := o0.trans b0
    replace o1 := o1.trans b1
    replace o2 := fun h => (o2 h).trans b2
    cases hc : s'.coordinates[i]
    rw [hc] at o0 o1 o2 o2' hm
    simp only at o0 o1 o2 o2' hm
    subst o0 o1 hm
    unfold mergeRow
    split
    · rename_i hd; rw [o2 hd]
    · rename_i hd; rw [o2' hd]
  refine ⟨s', s.coordinates[0], ?_, a1, hdim, hlen, hrow, ?_⟩
  · rw [List.head?_eq_getElem?, List.getElem?_eq_getElem h0]
  · intro hself
    obtain ⟨b, hb, hiff⟩ := C19_isRing_array s' (by rw [hdim]; omega)
    rw [hb]
    congr 1
    rw [hiff]
    right
    refine ⟨by omega, _, _, by rw [List.head?_eq_getElem?]; exact hrow 0 (by omega),
      by rw [List.getLast?_eq_getElem?]; exact hrow _ (by omega), ?_, ?_⟩
    · rw [List.getElem?_eq_getElem h0, List.getElem?_eq_none (by omega)]; exact hself.1
    · rw [List.getElem?_eq_getElem h0, List.getElem?_eq_none (by omega)]; exact hself.2

/-- The same for packed sequences: every ordinate of the input is kept. -/
theorem C20_packed_partial (s : PSeq α) (h : s.WF) :
    (s.coords.length < s.dimension.toNat → Seqs.ensureValidRing s = .ok s) ∧
    (Seqs.isRing s = .ok true → Seqs.ensureValidRing s = .ok s) ∧
    (Seqs.isRing s = .ok false → ∃ s', Seqs.ensureValidRing s = .ok s' ∧ s'.dimension = s.dimension ∧
      s'.measures = max 0 (s.dimension - 3) ∧
      s'.coords.length = max 4 (s.coords.length / s.dimension.toNat + 1) * s.dimension.toNat ∧
      (∀ i k, i < max 4 (s.coords.length / s.dimension.toNat + 1) → k < s.dimension.toNat →
        s'.coords[i * s.dimension.toNat + k]? = if i < s.coords.length / s.dimension.toNat then
          s.coords[i * s.dimension.toNat + k]? else s.coords[k]?)) := by
  obtain ⟨e1, e2, e3⟩ := ensureValidRing_spec s h
  have hd := h.1
  have hd2 := h.2
  refine ⟨fun hn => e1 (Nat.div_eq_of_lt hn), e2, fun hr => ?_⟩
  obtain ⟨s', a1, a2, a3, a4, a5, a6⟩ := e3 hr
  have h0 : 0 < s.n := by
    rcases Nat.eq_zero_or_pos s.n with h0 | h0
    · have : Seqs.isRing s = .ok true := by
        have := size_eq s h
        simp only [Seqs.isRing, this, Res.bind_ok]
        have e : SeqLaws.n s = 0 := h0
        simp [e]
      rw [this] at hr; cases hr
    · exact h0
  obtain ⟨f1, f2, f3, f4⟩ := a4
  have hlen : s'.coords.length = max 4 (s.coords.length / s.dimension.toNat + 1) * s.dimension.toNat := by
    rw [f3]
    simp only [SeqOps.create, PSeq.create, PSeq.newWithSize, List.length_replicate, SeqOps.dim]
    rw [asUsize_of _ (by omega) (by omega)]; rfl
  refine ⟨s', a1, f1, f2, hlen, ?_⟩
  intro i k hi hk
  have hi' : i < SeqLaws.n s' := by rw [a3]; exact hi
  have := a6 i hi' k ⟨hk, trivial⟩
  change s'.ord i k = (if i < s.n then s.ord i k else s.ord 0 k) at this
  have hd' : s'.dimension = s.dimension := f1
  have l1 := PSeq.idx_lt s' a2 i hi' k (by rw [hd']; exact hk)
  have l0 := PSeq.idx_lt s h 0 h0 k hk
  rw [hd'] at l1
  rw [List.getElem?_eq_getElem l1]
  simp only [PSeq.ord, hd', List.getElem?_eq_getElem l1, Option.getD_some, Nat.zero_mul, Nat.zero_add] at this
  simp only [Nat.zero_mul, Nat.zero_add] at l0
  by_cases c : i < s.n
  · have l2 := PSeq.idx_lt s h i c k hk
    rw [if_pos c, List.getElem?_eq_getElem l2, Option.getD_some] at this
    rw [if_pos (show i < s.coords.length / s.dimension.toNat from c), List.getElem?_eq_getElem l2, this]
  · rw [if_neg c, List.getElem?_eq_getElem l0, Option.getD_some] at this
    rw [if_neg (show ¬ i < s.coords.length / s.dimension.toNat from c), List.getElem?_eq_getElem l0, this]

section examples
local notation "F" => Fl exactRounding
local notation "q" => fun (x : ℚ) => (Fl.fin x : F)

/-- XYZM coordinates with distinct measures -/
def exM : CASeq F := ⟨4, 1, [⟨q 0, q 0, q 5, q 1⟩, ⟨q 1, q 0, q 6, q 2⟩, ⟨q 1, q 1, q 7, q 3⟩, ⟨q 2, q 2, q 8, q 4⟩]⟩

/-- Reversal of an array sequence leaves the measures where they were: the full claim of C18 is false for measures. -/
theorem C18_measures_not_reversed :
    (Seqs.reverse exM).map (fun s => s.coordinates.map Coord.m) = .ok [q 1, q 2, q 3, q 4] ∧
    (Seqs.reverse exM).map (fun s => s.coordinates.map Coord.z) = .ok [q 8, q 7, q 6, q 5] := by decide +kernel

/-- Closing an array sequence loses its measures. -/
theorem C20_measures_lost :
    (Seqs.ensureValidRing exM).map (fun s => (s.dimension, s.measures, s.coordinates.map Coord.m)) =
      .ok (3, 0, [Fl.nan, Fl.nan, Fl.nan, Fl.nan, Fl.nan]) := by decide +kernel

/-- A packed sequence of XYM coordinates, three of them. -/
def exPM : PSeq F := ⟨3, 1, [q 0, q 0, q 5, q 1, q 0, q 6, q 1, q 1, q 7]⟩

/-- Closing a packed XYM sequence turns its measures into z ordinates. -/
theorem C20_packed_measure_becomes_z :
    ((Seqs.ensureValidRing exPM) >>= fun s => s.getCoordinate 0) = .ok (Coord.xyz (q 0) (q 0) (q 5)) ∧
    exPM.getCoordinate 0 = .ok (Coord.xym (q 0) (q 0) (q 5)) := by decide +kernel

/-- With a NaN in the first coordinate the result is not a ring. -/
theorem C20_nan_not_ring :
    (Seqs.ensureValidRing (⟨2, 0, [Coord.xy Fl.nan (q 0), Coord.xy (q 1) (q 1)]⟩ : CASeq F) >>= Seqs.isRing) = .ok false := by
  decide +kernel

example : (2 : Int) ≤ exM.dimension ∧ Seqs.isRing exM = .ok false := by decide +kernel
example : exPM.WF ∧ Seqs.isRing exPM = .ok false := ⟨by unfold PSeq.WF; decide, by decide +kernel⟩
example : (Seqs.reverse exPM).map PSeq.coords = .ok [q 1, q 1, q 7, q 1, q 0, q 6, q 0, q 0, q 5] := by decide +kernel
example : SelfEq (Coord.xy (q 0) (q 1)) := by unfold SelfEq; decide +kernel
/-- a closed square scrolled to its third corner -/
example : (Seqs.scrollIndex (⟨2, 0, [Coord.xy (q 0) (q 0), Coord.xy (q 1) (q 0), Coord.xy (q 1) (q 1), Coord.xy (q 0) (q 1),
    Coord.xy (q 0) (q 0)]⟩ : CASeq F) 2).map CASeq.coordinates =
    .ok [Coord.xy (q 1) (q 1), Coord.xy (q 0) (q 1), Coord.xy (q 0) (q 0), Coord.xy (q 1) (q 0), Coord.xy (q 1) (q 1)] := by
  decide +kernel
end examples

end Verif.Props
