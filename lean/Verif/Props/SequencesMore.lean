import Verif.Props.SequenceComparator
import Verif.Props.CoordinateArrays

set_option linter.unusedSectionVars false

/-! # C55, C60, C61, C62: sequences as matrices, equality, extrema, search and extension -/

namespace Verif.Props
open Flt SeqLaws SeqCompare Verif.Spec
variable {α : Type} [Flt α]

/-! ## C55 -/

/-- A matrix of ordinates, the specification of a sequence. -/
abbrev Mat (α : Type) := Nat → Nat → α

/-- Setting one cell. -/
def Mat.set (m : Mat α) (op : Nat × Nat × α) : Mat α :=
  fun i k => if i = op.1 ∧ k = op.2.1 then op.2.2 else m i k

/-- Running a history of `set_ordinate` calls on an array sequence. -/
def runSets (s : CASeq α) (ops : List (Nat × Nat × α)) : Res (CASeq α) :=
  ops.foldlM (fun s op => s.setOrd op.1 (op.2.1 : Int) op.2.2) s

/-- Running a history of `set_ordinate` calls on a packed sequence. -/
def runSetsP (s : PSeq α) (ops : List (Nat × Nat × α)) : Res (PSeq α) :=
  ops.foldlM (fun s op => s.setOrd op.1 (op.2.1 : Int) op.2.2) s

/-- The content of an array sequence read as a matrix with columns x, y, z. -/
def caMat (s : CASeq α) : Mat α := fun i k =>
  match s.coordinates[i]? with
  | none => nan
  | some c => if k = 0 then c.x else if k = 1 then c.y else c.z

theorem caMat_ord (s : CASeq α) (i k : Nat) (hk : k < 3) : caMat s i k = s.ord i k := by
  unfold caMat CASeq.ord
  cases s.coordinates[i]? with
  | none => rfl
  | some c =>
    simp only
    match k, hk with
    | 0, _ => rfl
    | 1, _ => rfl
    | 2, _ => rfl

/-- After any history of writes to x, y and z ordinates of existing coordinates, reading any such ordinate gives what a matrix with the
same history holds; size, dimension and the measures are unchanged. -/
theorem C55_array_matrix (s : CASeq α) (ops : List (Nat × Nat × α))
    (hops : ∀ op ∈ ops, op.1 < s.coordinates.length ∧ op.2.1 < 3) :
    ∃ s', runSets s ops = .ok s' ∧ s'.dimension = s.dimension ∧ s'.measures = s.measures ∧ s'.size = s.coordinates.length ∧
      s'.coordinates.map Coord.m = s.coordinates.map Coord.m ∧
      ∀ i k : Nat, i < s.coordinates.length → k < 3 → s'.getOrd i (k : Int) = .ok (ops.foldl Mat.set (caMat s) i k) := by
  suffices H : ∀ (ops : List (Nat × Nat × α)) (s : CASeq α) (m : Mat α),
      (∀ i k, i < s.coordinates.length → k < 3 → s.ord i k = m i k) →
      (∀ op ∈ ops, op.1 < s.coordinates.length ∧ op.2.1 < 3) →
      ∃ s', runSets s ops = .ok s' ∧ s'.dimension = s.dimension ∧ s'.measures = s.measures ∧
        s'.coordinates.length = s.coordinates.length ∧ s'.coordinates.map Coord.m = s.coordinates.map Coord.m ∧
      ∀ i k, i < s.coordinates.length → k < 3 → s'.ord i k = ops.foldl Mat.set m i k by
    obtain ⟨s', h1, h2, h3, h4, h5, h6⟩ := H ops s (caMat s) (fun i k _ hk => (caMat_ord s i k hk).symm) hops
    refine ⟨s', h1, h2, h3, h4, h5, fun i k hi hk => ?_⟩
    rw [CASeq.getOrd_eq s' i (by omega), h6 i k hi hk]
  intro ops
  induction ops with
  | nil => intro s m hm _; exact ⟨s, rfl, rfl, rfl, rfl, rfl, hm⟩
  | cons op ops ih =>
    intro s m hm hops
    obtain ⟨hi, hk⟩ := hops op (by simp)
    have hset : ∃ s1 : CASeq α, s.setOrd op.1 (op.2.1 : Int) op.2.2 = .ok s1 ∧ s1.dimension = s.dimension ∧
        s1.measures = s.measures ∧ s1.coordinates.length = s.coordinates.length ∧
        s1.coordinates.map Coord.m = s.coordinates.map Coord.m ∧
        ∀ i k, i < s.coordinates.length → k < 3 → s1.ord i k = Mat.set m op i k := by
      have hc := fun k' => CASeq.ord_setOrd s.coordinates[op.1] op.2.1 k' op.2.2
      refine ⟨{ s with coordinates := s.coordinates.set op.1 (if (op.2.1 : Int) = 0 then { s.coordinates[op.1] with x := op.2.2 }
          else if (op.2.1 : Int) = 1 then { s.coordinates[op.1] with y := op.2.2 } else s.coordinates[op.1].setOrdinate op.2.1 op.2.2) },
        by simp only [CASeq.setOrd, Res.get_lt hi, Res.bind_ok, Res.set_lt hi]; rfl, rfl, rfl, by simp, ?_, ?_⟩
      · apply List.ext_getElem?
        intro j
        simp only [List.getElem?_map, List.getElem?_set]
        split
        · rename_i hj; subst hj
          simp only [hi, if_true, Option.map_some]
          rw [(hc 0).2, List.getElem?_eq_getElem hi]; rfl
        · rfl
      · intro i k hi' hk'
        have hck := (hc k).1
        have hmm := hm i k hi' hk'
        simp only [CASeq.ord, List.getElem?_set, Mat.set] at hmm ⊢
        by_cases hij : op.1 = i
        · subst hij
          simp only [hi, if_true]
          simp only at hck
          rw [hck]
          rw [List.getElem?_eq_getElem hi] at hmm
          simp only at hmm
          rw [hmm]
          by_cases hkk : k = op.2.1 <;> simp [hkk, hk]
        · have hij' : ¬ i = op.1 := fun h => hij h.symm
          simp only [hij, if_false, hij', false_and]
          exact hmm
    obtain ⟨s1, e1, e2, e3, e4, e5, e6⟩ := hset
    obtain ⟨s', f1, f2, f3, f4, f5, f6⟩ := ih s1 (Mat.set m op) (fun i k h1 h2 => e6 i k (by omega) h2)
      (fun o ho => by rw [e4]; exact hops o (by simp [ho]))
    refine ⟨s', ?_, f2.trans e2, f3.trans e3, f4.trans e4, f5.trans e5, fun i k h1 h2 => ?_⟩
    · rw [runSets, List.foldlM_cons, e1, Res.bind_ok]; exact f1
    · rw [f6 i k (by omega) h2]; rfl

/-- Reading or writing a coordinate that does not exist panics, whatever the ordinate. -/
theorem C55_array_out_of_range_partial (s : CASeq α) (i : Nat) (k : Int) (v : α) (h : s.coordinates.length ≤ i) :
    s.getOrd i k = .error .index ∧ s.setOrd i k v = .error .index ∧ s.getCoordinate i = .error .index := by
  simp [CASeq.getOrd, CASeq.setOrd, CASeq.getCoordinate, Res.get_ge h]

/-- An ordinate index other than 0, 1, 2 does not panic: it reads as NaN and writes nothing. In particular this holds for the measure. -/
theorem C55_array_bad_ordinate (s : CASeq α) (i : Nat) (k : Int) (v : α) (h : i < s.coordinates.length)
    (hk : k < 0 ∨ 2 < k) : s.getOrd i k = .ok nan ∧ s.setOrd i k v = .ok s := by
  have h0 : ¬ k = 0 := by omega
  have h1 : ¬ k = 1 := by omega
  have h2 : ¬ k = 2 := by omega
  simp [CASeq.getOrd, CASeq.setOrd, Res.get_lt h, Res.set_lt h, h0, h1, Coord.getOrdinate, Coord.setOrdinate, h2]

/-- The same for packed sequences, with all ordinates below the dimension. -/
theorem C55_packed_matrix (s : PSeq α) (h : s.WF) (ops : List (Nat × Nat × α))
    (hops : ∀ op ∈ ops, op.1 < s.coords.length / s.dimension.toNat ∧ op.2.1 < s.dimension.toNat) :
    ∃ s', runSetsP s ops = .ok s' ∧ s'.dimension = s.dimension ∧ s'.measures = s.measures ∧
      s'.size = .ok (s.coords.length / s.dimension.toNat) ∧
      ∀ i k : Nat, i < s.coords.length / s.dimension.toNat → k < s.dimension.toNat →
        s'.getOrd i (k : Int) = .ok (ops.foldl Mat.set (fun i k => s.coords[i * s.dimension.toNat + k]?.getD nan) i k) := by
  suffices H : ∀ (ops : List (Nat × Nat × α)) (s : PSeq α) (m : Mat α), s.WF →
      (∀ i k, i < s.n → k < s.dimension.toNat → s.ord i k = m i k) →
      (∀ op ∈ ops, op.1 < s.n ∧ op.2.1 < s.dimension.toNat) →
      ∃ s', runSetsP s ops = .ok s' ∧ s'.WF ∧ SeqLaws.Frame s s' ∧
      ∀ i k, i < s.n → k < s.dimension.toNat → s'.ord i k = ops.foldl Mat.set m i k by
    obtain ⟨s', h1, h2, h3, h4⟩ := H ops s (fun i k => s.coords[i * s.dimension.toNat + k]?.getD nan) h (fun i k _ _ => rfl) hops
    have hn : s'.n = s.n := SeqLaws.frame_n s s' h3
    have hd : s'.dimension = s.dimension := h3.1
    refine ⟨s', h1, hd, h3.2.1, ?_, fun i k hi hk => ?_⟩
    · have := SeqLaws.size_eq s' h2
      rw [show SeqLaws.n s' = s.n from hn] at this
      exact this
    · have := SeqLaws.get_eq s' h2 i (by show i < s'.n; rw [hn]; exact hi) k (by show k < s'.dimension.toNat; rw [hd]; exact hk)
      rw [← h4 i k hi hk]; exact this
  intro ops
  induction ops with
  | nil => intro s m hw hm _; exact ⟨s, rfl, hw, SeqLaws.frame_refl s, hm⟩
  | cons op ops ih =>
    intro s m hw hm hops
    obtain ⟨hi, hk⟩ := hops op (by simp)
    obtain ⟨s1, e1, e2, e3, e4⟩ := SeqLaws.set_eq s hw op.1 hi op.2.1 hk op.2.2
    have hn : s1.n = s.n := SeqLaws.frame_n s s1 e3
    have hd : s1.dimension = s.dimension := e3.1
    obtain ⟨s', f1, f2, f3, f4⟩ := ih s1 (Mat.set m op) e2 (fun i k h1 h2 => by
      rw [hn] at h1; rw [hd] at h2
      have := e4 i h1 k h2
      change s1.ord i k = if i = op.1 ∧ k = op.2.1 ∧ True then op.2.2 else s.ord i k at this
      rw [this, hm i k h1 h2]; simp [Mat.set])
      (fun o ho => by rw [hn, hd]; exact hops o (by simp [ho]))
    refine ⟨s', ?_, f2, SeqLaws.frame_trans _ _ _ e3 f3, fun i k h1 h2 => ?_⟩
    · have e1' : s.setOrd op.1 (op.2.1 : Int) op.2.2 = .ok s1 := e1
      rw [runSetsP, List.foldlM_cons, e1', Res.bind_ok]; exact f1
    · rw [f4 i k (by rw [hn]; exact h1) (by rw [hd]; exact h2)]; rfl

/-- Reading or writing coordinate `i` past the end of a packed sequence panics. -/
theorem C55_packed_out_of_range_partial (s : PSeq α) (h : s.WF) (i k : Nat) (v : α) (hm : s.coords.length = s.n * s.dimension.toNat)
    (hi : s.n ≤ i) (hk : k < s.dimension.toNat) :
    s.getOrd i (k : Int) = .error .index ∧ s.setOrd i (k : Int) v = .error .index := by
  have h1 := h.1; have h2 := h.2
  have hge : s.coords.length ≤ i * s.dimension.toNat + k := by
    rw [hm]; exact Nat.le_trans (Nat.mul_le_mul_right _ hi) (Nat.le_add_right _ _)
  simp only [PSeq.getOrd, PSeq.setOrd]
  rw [asUsize_of _ (by omega) (by omega), asUsize_ofNat k (by omega), Res.get_ge hge, Res.set_ge hge]
  exact ⟨rfl, rfl⟩

/-- But an ordinate index past the dimension reads the next coordinate: that part of the claim is false. -/
theorem C55_packed_ordinate_overrun (s : PSeq α) (h : s.WF) (i : Nat) :
    s.getOrd i s.dimension = s.getOrd (i + 1) 0 := by
  have h1 := h.1; have h2 := h.2
  simp only [PSeq.getOrd, asUsize_of s.dimension (by omega) (by omega), show asUsize 0 = 0 from rfl]
  congr 1; ring

/-- `get_coordinate` of a packed sequence is made of its ordinates, by dimension and measures. -/
theorem C55_packed_getCoordinate (s : PSeq α) (h : s.WF) (i : Nat) (hi : i < s.coords.length / s.dimension.toNat) :
    ∃ c, s.getCoordinate i = .ok c ∧ s.getOrd i 0 = .ok c.x ∧ s.getOrd i 1 = .ok c.y ∧
      (s.dimension = 3 ∧ s.measures = 0 → s.getOrd i 2 = .ok c.z) ∧
      (s.dimension = 3 ∧ s.measures = 1 → s.getOrd i 2 = .ok c.m) ∧
      (s.dimension = 4 → s.getOrd i 2 = .ok c.z ∧ s.getOrd i 3 = .ok c.m) := by
  have h1 := h.1; have h2 := h.2
  have l0 := PSeq.idx_lt s h i hi 0 (by omega)
  have l1 := PSeq.idx_lt s h i hi 1 (by omega)
  have l2 := fun hd => PSeq.idx_lt s h i hi 2 hd
  have l3 := fun hd => PSeq.idx_lt s h i hi 3 hd
  have e : asUsize s.dimension = s.dimension.toNat := asUsize_of _ (by omega) (by omega)
  have a0 : asUsize 0 = 0 := rfl
  have a1 : asUsize 1 = 1 := rfl
  have a2 : asUsize 2 = 2 := rfl
  have a3 : asUsize 3 = 3 := rfl
  simp only [Nat.add_zero] at l0
  simp only [PSeq.getCoordinate, PSeq.getOrd, e, a0, a1, a2, a3, Nat.add_zero, Res.get_lt l0, Res.get_lt l1, Res.bind_ok]
  by_cases c1 : s.dimension = 2 ∧ s.measures = 0
  · rw [if_pos c1]
    exact ⟨_, rfl, rfl, rfl, by omega, by omega, by omega⟩
  · rw [if_neg c1]
    by_cases c2 : s.dimension = 3 ∧ s.measures = 0
    · rw [if_pos c2, Res.get_lt (l2 (by omega)), Res.bind_ok]
      exact ⟨_, rfl, rfl, rfl, fun _ => rfl, by omega, by omega⟩
    · rw [if_neg c2]
      by_cases c3 : s.dimension = 3 ∧ s.measures = 1
      · rw [if_pos c3, Res.get_lt (l2 (by omega)), Res.bind_ok]
        exact ⟨_, rfl, rfl, rfl, by omega, fun _ => rfl, by omega⟩
      · rw [if_neg c3]
        by_cases c4 : s.dimension = 4
        · rw [if_pos c4, Res.get_lt (l2 (by omega)), Res.get_lt (l3 (by omega))]
          exact ⟨_, rfl, rfl, rfl, by omega, by omega, fun _ => ⟨rfl, rfl⟩⟩
        · rw [if_neg c4]
          exact ⟨_, rfl, rfl, rfl, fun h => absurd h c2, fun h => absurd h c3, fun h => absurd h c4⟩

/-- The constructors of packed sequences from coordinates panic on every non-empty list of coordinates. -/
theorem C55_packed_from_coordinates_panics (l : List (Coord α)) (hl : l ≠ []) (d m : Int) :
    PSeq.ofCoordinates l = .error .index ∧ PSeq.ofCoordinatesDim l d = .error .index ∧
    PSeq.ofCoordinatesDimMeasures l d m = .error .index ∧ PSeq.createFromCoordinates l = .error .index := by
  have key : ∀ d m : Int, PSeq.ofCoordinatesLoop l d m = .error .index := by
    intro d m
    obtain ⟨c, t, rfl⟩ := List.exists_cons_of_ne_nil hl
    unfold PSeq.ofCoordinatesLoop
    rw [forRange_panic 0 _ _ 0 .index _ (by omega) (by simp)]
    · rfl
    · rw [forRange_self 0 0 (by omega)]
      simp [Res.get, Res.set]
  refine ⟨key _ _, key _ _, key _ _, ?_⟩
  unfold PSeq.createFromCoordinates
  split
  · exact absurd rfl hl
  · exact key _ _

/-! ## C60 -/

/-- `is_equal` for both sequence types: same size, and all ordinates within both dimensions equal or both NaN. -/
theorem isEqual_spec {S : Type} [SeqOps S α] [SeqLaws S α] (a b : S) (ha : WF a) (hb : WF b) :
    ∃ r, Seqs.isEqual a b = .ok r ∧ (r = true ↔ n a = n b ∧ ∀ i < n a, ∀ k < (min (SeqOps.dim a) (SeqOps.dim b)).toNat,
      NanEq (ord a i k) (ord b i k)) := by
  unfold Seqs.isEqual
  rw [size_eq a ha, size_eq b hb]
  simp only [Res.bind_ok]
  by_cases hn : n a = n b
  · rw [if_neg (by simpa using hn)]
    have hd : ∀ i k, i < n a → k < (min (SeqOps.dim a) (SeqOps.dim b)).toNat →
        (do
          let v1 ← SeqOps.getOrd a i (k : Int)
          let v2 ← SeqOps.getOrd b i (k : Int)
          if v1 ==. v2 then pure none
          else if isNaN v1 && isNaN v2 then pure none
          else pure (some false) : Res (Option Bool)) =
        .ok (if (ord a i k ==. ord b i k) || (isNaN (ord a i k) && isNaN (ord b i k)) then none else some false) := by
      intro i k hi hk
      rw [get_eq a ha i hi k (by omega), get_eq b hb i (by omega) k (by omega)]
      simp only [Res.bind_ok]
      cases hc : (ord a i k ==. ord b i k)
      · simp only [Bool.false_eq_true, if_false, Bool.false_or]
        split <;> rfl
      · rfl
    have hrow : ∀ i, 0 ≤ i → i < n a → forFind 0 (min (SeqOps.dim a) (SeqOps.dim b)).toNat (fun k => (do
          let v1 ← SeqOps.getOrd a i (k : Int)
          let v2 ← SeqOps.getOrd b i (k : Int)
          if v1 ==. v2 then pure none
          else if isNaN v1 && isNaN v2 then pure none
          else pure (some false) : Res (Option Bool))) =
        .ok ((fun i => (List.range' 0 (min (SeqOps.dim a) (SeqOps.dim b)).toNat).findSome? (fun k =>
          if (ord a i k ==. ord b i k) || (isNaN (ord a i k) && isNaN (ord b i k)) then none else some false)) i) := by
      intro i _ hi
      have := forFind_ok 0 (min (SeqOps.dim a) (SeqOps.dim b)).toNat _ _ (fun k _ hk => hd i k hi hk)
      rw [Nat.sub_zero] at this
      exact this
    rw [forFind_ok 0 (n a) _ _ hrow, Res.bind_ok]
    refine ⟨_, rfl, ?_⟩
    rw [Nat.sub_zero]
    generalize hF : (List.range' 0 (n a)).findSome? _ = R
    cases R with
    | none =>
      rw [findSome?_range'_none] at hF
      simp only [Option.getD_none, true_iff]
      refine ⟨hn, fun i hi k hk => ?_⟩
      have h1 := hF i (by omega) (by omega)
      rw [findSome?_range'_none] at h1
      have h2 := h1 k (by omega) (by omega)
      unfold NanEq
      by_contra hc
      rw [if_neg (by simpa [Bool.or_eq_true, Bool.and_eq_true] using hc)] at h2
      cases h2
    | some v =>
      rw [findSome?_range'_some] at hF
      obtain ⟨i, -, hi, h1, -⟩ := hF
      rw [findSome?_range'_some] at h1
      obtain ⟨k, -, hk, h2, -⟩ := h1
      simp only [Option.getD_some]
      split at h2
      · cases h2
      · rename_i hc
        cases h2
        simp only [Bool.false_eq_true, false_iff]
        rintro ⟨-, h⟩
        apply hc
        simpa [NanEq, Bool.or_eq_true, Bool.and_eq_true] using h i (by omega) k (by omega)
  · rw [if_pos (by simpa using hn)]
    exact ⟨false, rfl, by simp [hn]⟩

theorem NanEq.refl [FltOrd α] (a : α) : NanEq a a := by
  unfold NanEq; simp only [eq_eq]; grind
theorem NanEq.symm [FltOrd α] {a b : α} (h : NanEq a b) : NanEq b a := by
  unfold NanEq at *; simp only [eq_eq] at *; grind
theorem NanEq.trans [FltOrd α] {a b c : α} (h : NanEq a b) (h' : NanEq b c) : NanEq a c := by
  unfold NanEq at *; simp only [eq_eq] at *; grind

theorem isEqual_equiv [FltOrd α] {S : Type} [SeqOps S α] [SeqLaws S α] (a b c : S) (ha : WF a) (hb : WF b) (hc : WF c) :
    Seqs.isEqual a a = .ok true ∧ Seqs.isEqual a b = Seqs.isEqual b a ∧
    (SeqOps.dim a = SeqOps.dim b → SeqOps.dim b = SeqOps.dim c → Seqs.isEqual a b = .ok true → Seqs.isEqual b c = .ok true →
      Seqs.isEqual a c = .ok true) := by
  refine ⟨?_, ?_, ?_⟩
  · obtain ⟨r, h1, h2⟩ := isEqual_spec a a ha ha
    rw [h1, h2.mpr ⟨rfl, fun i _ k _ => NanEq.refl _⟩]
  · obtain ⟨r, h1, h2⟩ := isEqual_spec a b ha hb
    obtain ⟨r', h1', h2'⟩ := isEqual_spec b a hb ha
    rw [h1, h1']
    congr 1
    rw [Bool.eq_iff_iff, h2, h2']
    constructor
    · rintro ⟨e, h⟩
      exact ⟨e.symm, fun i hi k hk => (h i (by omega) k (by omega)).symm⟩
    · rintro ⟨e, h⟩
      exact ⟨e.symm, fun i hi k hk => (h i (by omega) k (by omega)).symm⟩
  · intro d1 d2 e1 e2
    obtain ⟨r, h1, h2⟩ := isEqual_spec a b ha hb
    obtain ⟨r', h1', h2'⟩ := isEqual_spec b c hb hc
    obtain ⟨r'', h1'', h2''⟩ := isEqual_spec a c ha hc
    rw [h1] at e1; rw [h1'] at e2
    cases e1; cases e2
    obtain ⟨x1, x2⟩ := h2.mp rfl
    obtain ⟨y1, y2⟩ := h2'.mp rfl
    rw [h1'', h2''.mpr ⟨by omega, fun i hi k hk => (x2 i hi k (by omega)).trans (y2 i (by omega) k (by omega))⟩]

/-- `is_equal` never panics, is reflexive (NaN included) and symmetric, and transitive on sequences of the same dimension. Array sequences. -/
theorem C60_array_equivalence [FltOrd α] (a b c : CASeq α) (ha : 2 ≤ a.dimension) (hb : 2 ≤ b.dimension) (hc : 2 ≤ c.dimension) :
    Seqs.isEqual a a = .ok true ∧ Seqs.isEqual a b = Seqs.isEqual b a ∧
    (a.dimension = b.dimension → b.dimension = c.dimension → Seqs.isEqual a b = .ok true → Seqs.isEqual b c = .ok true →
      Seqs.isEqual a c = .ok true) := isEqual_equiv a b c ha hb hc

/-- The same for packed sequences. -/
theorem C60_packed_equivalence [FltOrd α] (a b c : PSeq α) (ha : a.WF) (hb : b.WF) (hc : c.WF) :
    Seqs.isEqual a a = .ok true ∧ Seqs.isEqual a b = Seqs.isEqual b a ∧
    (a.dimension = b.dimension → b.dimension = c.dimension → Seqs.isEqual a b = .ok true → Seqs.isEqual b c = .ok true →
      Seqs.isEqual a c = .ok true) := isEqual_equiv a b c ha hb hc

/-- What `is_equal` decides, on coordinates: same number of coordinates, with equal x, y and (if both have it) z. -/
theorem C60_array_isEqual_iff (a b : CASeq α) (ha : 2 ≤ a.dimension) (hb : 2 ≤ b.dimension)
    (hnan : isNaN (nan : α) = true) :
    Seqs.isEqual a b = .ok true ↔ List.Forall₂ (fun c d => NanEq c.x d.x ∧ NanEq c.y d.y ∧
      (3 ≤ a.dimension → 3 ≤ b.dimension → NanEq c.z d.z)) a.coordinates b.coordinates := by
  obtain ⟨r, h1, h2⟩ := isEqual_spec a b ha hb
  rw [h1]
  have : (Except.ok r : Res Bool) = .ok true ↔ r = true := by simp
  rw [this, h2, List.forall₂_iff_get]
  simp only [SeqLaws.n, SeqOps.dim, SeqLaws.ord, List.get_eq_getElem]
  constructor
  · rintro ⟨e, h⟩
    refine ⟨e, fun i hi1 hi2 => ?_⟩
    have g := fun k => h i hi1 k
    simp only [CASeq.ord, List.getElem?_eq_getElem hi1, List.getElem?_eq_getElem hi2] at g
    refine ⟨?_, ?_, fun d1 d2 => ?_⟩
    · simpa using g 0 (by omega)
    · simpa using g 1 (by omega)
    · simpa using g 2 (by omega)
  · rintro ⟨e, h⟩
    refine ⟨e, fun i hi k hk => ?_⟩
    obtain ⟨g0, g1, g2⟩ := h i hi (by omega)
    have hi2 : i < b.coordinates.length := by omega
    simp only [CASeq.ord, List.getElem?_eq_getElem hi, List.getElem?_eq_getElem hi2]
    by_cases k0 : k = 0
    · simp only [k0, if_true]; exact g0
    · by_cases k1 : k = 1
      · simp only [k1, one_ne_zero, if_true, if_false]; exact g1
      · by_cases k2 : k = 2
        · simp only [k2, OfNat.ofNat_ne_zero, OfNat.ofNat_ne_one, if_true, if_false]; exact g2 (by omega) (by omega)
        · simp only [k0, k1, k2, if_false]; exact Or.inr ⟨hnan, hnan⟩

theorem forall2_range {B : Type} (D : Nat) (f g : Nat → B) (R : B → B → Prop) :
    List.Forall₂ R ((List.range D).map f) ((List.range D).map g) ↔ ∀ k < D, R (f k) (g k) := by
  rw [List.forall₂_iff_get]
  simp only [List.length_map, List.length_range, true_and, List.get_eq_getElem, List.getElem_map, List.getElem_range]
  constructor
  · intro h k hk; exact h k hk hk
  · intro h k hk _; exact h k hk

/-- `is_equal` agrees with the comparator: on sequences of one dimension it holds exactly if they compare as 0. -/
theorem C60_agrees_with_comparator [FltOrd α] (a b : CASeq α) (ha : 2 ≤ a.dimension) (hd : a.dimension = b.dimension)
    (hl : a.dimension ≤ 2147483647) :
    Seqs.isEqual a b = .ok true ↔ compareSeq defaultLimit a b = .ok 0 := by
  obtain ⟨r, h1, h2⟩ := isEqual_spec a b ha (show 2 ≤ b.dimension by omega)
  have hr : (Except.ok r : Res Bool) = .ok true ↔ r = true := by simp
  rw [h1, hr, h2]
  have O := C21_total_order (α := α) defaultLimit
  have hz := O.zero_iff a b trivial trivial
  have hval : cmpVal defaultLimit a b = 0 ↔ compareSeq defaultLimit a b = .ok 0 := by
    unfold cmpVal; rw [C21_compare_key]; simp
  rw [← hval, hz, ← hd, min_eq_left (show a.dimension ≤ defaultLimit from hl)]
  simp only [true_and, SeqLaws.n, SeqOps.dim, SeqLaws.ord, ← hd, min_self]
  rw [List.forall₂_map_left_iff, List.forall₂_map_right_iff, List.forall₂_iff_get]
  simp only [List.get_eq_getElem, ordinates, forall2_range]
  have key : ∀ (s : CASeq α) i (hi : i < s.coordinates.length) k, s.ord i k =
      (match k with | 0 => s.coordinates[i].x | 1 => s.coordinates[i].y | 2 => s.coordinates[i].z | _ => nan) := by
    intro s i hi k
    have e1 := getOrd_ok s i hi k
    rw [CASeq.getOrd_eq s i hi] at e1
    exact Except.ok.inj e1
  constructor
  · rintro ⟨e, h⟩
    refine ⟨e, fun i hi1 hi2 k hk => ?_⟩
    have := h i hi1 k hk
    rw [key a i hi1, key b i hi2] at this
    exact this
  · rintro ⟨e, h⟩
    refine ⟨e, fun i hi1 k hk => ?_⟩
    rw [key a i hi1, key b i (by omega)]
    exact h i hi1 (by omega) k hk

/-! ## C61 -/

/-- `min_coordinate` of an array sequence is that of its coordinates (so C16 describes it). -/
theorem minCoordinate_array (s : CASeq α) : Seqs.minCoordinate s = .ok (CoordArrays.minCoordinate s.coordinates) := by
  unfold Seqs.minCoordinate
  show (forRange 0 s.coordinates.length none _) = _
  refine (forRange_closed 0 s.coordinates.length _ (fun i => CoordArrays.minCoordinate (s.coordinates.take i)) (by omega) ?_).trans ?_
  · intro i _ hi
    rw [take_succ' _ _ hi]
    simp only [SeqOps.getCoord, CASeq.getCoordinate, Res.get_lt hi, Res.bind_ok]
    rw [CoordArrays.minCoordinate, CoordArrays.minCoordinate, List.foldl_append]
    simp only [List.foldl_cons, List.foldl_nil]
    generalize List.foldl _ none (s.coordinates.take i) = r
    cases r with
    | none => rfl
    | some c => simp only; split <;> rfl
  · simp

/-- The minimum of a sequence: absent for the empty one, else the first of the smallest coordinates. -/
theorem C61_minCoordinate [FltOrd α] (s : CASeq α) (h : ∀ c ∈ s.coordinates, c.NN) :
    ∃ r, Seqs.minCoordinate s = .ok r ∧ (r = none ↔ s.coordinates = []) ∧
    ∀ m, r = some m → m ∈ s.coordinates ∧ (∀ c ∈ s.coordinates, m.compareTo c ≤ 0) ∧
      ∃ k : Nat, s.coordinates[k]? = some m ∧ ∀ j < k, ∀ c, s.coordinates[j]? = some c → m.compareTo c < 0 :=
  ⟨_, minCoordinate_array s, C16_minCoordinate s.coordinates h⟩

/-- `min_coordinate_index` of a range: the first index in it of a smallest coordinate. -/
theorem C61_minCoordinateIndexFromTo [FltOrd α] (s : CASeq α) (h : ∀ c ∈ s.coordinates, c.NN) (lo hi : Nat) (hlo : lo ≤ hi)
    (hhi : hi < s.coordinates.length) (hsz : s.coordinates.length < 2 ^ 31) :
    ∃ k m, Seqs.minCoordinateIndexFromTo s lo hi = .ok k ∧ lo ≤ k ∧ k ≤ hi ∧ s.coordinates[k]? = some m ∧
      (∀ j c, lo ≤ j → j ≤ hi → s.coordinates[j]? = some c → m.compareTo c ≤ 0) ∧
      (∀ j c, lo ≤ j → j < k → s.coordinates[j]? = some c → m.compareTo c < 0) := by
  have O := C01_compareTo_total_order (α := α)
  unfold Seqs.minCoordinateIndexFromTo
  obtain ⟨r, e1, e2⟩ := forRange_inv lo (hi + 1) (fun i (st : Option (Coord α) × Int) => do
      let t ← SeqOps.getCoord s i
      match st.1 with
      | none => pure (some t, (i : Int))
      | some c => if c.compareTo t > 0 then pure (some t, (i : Int)) else pure st)
    (fun i st => (i = lo ∧ st.1 = none) ∨ ∃ (k : Nat) (m : Coord α), st = (some m, (k : Int)) ∧ lo ≤ k ∧ k < i ∧
      s.coordinates[k]? = some m ∧ (∀ j c, lo ≤ j → j < i → s.coordinates[j]? = some c → m.compareTo c ≤ 0) ∧
      (∀ j c, lo ≤ j → j < k → s.coordinates[j]? = some c → m.compareTo c < 0)) (by omega) (none, -1) (.inl ⟨rfl, rfl⟩) (by
      rintro i st hi1 hi2 hst
      have hi3 : i < s.coordinates.length := by omega
      have nt := h _ (List.getElem_mem hi3)
      have htt : s.coordinates[i].compareTo s.coordinates[i] = 0 :=
        (O.zero_iff _ _ nt nt).mpr ((C01_equals2D_equivalence _ s.coordinates[i] s.coordinates[i]).1.mp nt)
      simp only [SeqOps.getCoord, CASeq.getCoordinate, Res.get_lt hi3, Res.bind_ok]
      rcases hst with ⟨rfl, hst⟩ | ⟨k, m, rfl, hk1, hk2, hk3, hk4, hk5⟩
      · rw [hst]
        refine ⟨_, rfl, .inr ⟨i, s.coordinates[i], rfl, le_refl _, by omega, List.getElem?_eq_getElem hi3, ?_, by omega⟩⟩
        intro j c h1 h2 h3
        have : j = i := by omega
        subst this
        rw [List.getElem?_eq_getElem hi3] at h3; cases h3; omega
      · have nm := h m (List.mem_of_getElem? hk3)
        simp only
        by_cases hc : m.compareTo s.coordinates[i] > 0
        · rw [if_pos hc]
          have hlt : ∀ j c, lo ≤ j → j < i → s.coordinates[j]? = some c → s.coordinates[i].compareTo c < 0 := by
            intro j c h1 h2 h3
            have nc := h c (List.mem_of_getElem? h3)
            have a1 := hk4 j c h1 h2 h3
            have a2 := O.swap m _ nm nt
            have a3 := O.trans _ _ _ nt nm nc (by omega) a1
            rcases Int.lt_or_eq_of_le a3 with a4 | a4
            · exact a4
            · have := O.congr_left nt nc nm a4
              have s2 := O.swap m c nm nc
              omega
          refine ⟨_, rfl, .inr ⟨i, s.coordinates[i], rfl, hi1, by omega, List.getElem?_eq_getElem hi3, ?_, hlt⟩⟩
          intro j c h1 h2 h3
          by_cases hji : j = i
          · subst hji; rw [List.getElem?_eq_getElem hi3] at h3; cases h3; omega
          · have := hlt j c h1 (by omega) h3; omega
        · rw [if_neg hc]
          refine ⟨_, rfl, .inr ⟨k, m, rfl, hk1, by omega, hk3, ?_, hk5⟩⟩
          intro j c h1 h2 h3
          by_cases hji : j = i
          · subst hji; rw [List.getElem?_eq_getElem hi3] at h3; cases h3; omega
          · exact hk4 j c h1 (by omega) h3)
  refine ⟨asUsize r.2, ?_⟩
  rcases e2 with ⟨h0, -⟩ | ⟨k, m, rfl, hk1, hk2, hk3, hk4, hk5⟩
  · omega
  · refine ⟨m, ?_, ?_⟩
    · refine (congrArg (· >>= _) e1).trans ?_
      rfl
    · simp only [asUsize_ofNat k (by omega)]
      exact ⟨hk1, by omega, hk3, fun j c h1 h2 => hk4 j c h1 (by omega), hk5⟩

/-- On the whole sequence; the empty sequence panics. -/
theorem C61_minCoordinateIndex [FltOrd α] (s : CASeq α) (h : ∀ c ∈ s.coordinates, c.NN)
    (hsz : s.coordinates.length < 2 ^ 31) :
    (s.coordinates = [] → Seqs.minCoordinateIndex s = .error .arith) ∧
    (s.coordinates ≠ [] → ∃ k m, Seqs.minCoordinateIndex s = .ok k ∧ s.coordinates[k]? = some m ∧
      (∀ c ∈ s.coordinates, m.compareTo c ≤ 0) ∧ (∀ j c, j < k → s.coordinates[j]? = some c → m.compareTo c < 0)) := by
  constructor
  · intro h0
    simp [Seqs.minCoordinateIndex, SeqOps.size, CASeq.size, h0, Res.sub]
  · intro h0
    have hpos : 0 < s.coordinates.length := List.length_pos_iff.mpr h0
    obtain ⟨k, m, e1, -, -, e4, e5, e6⟩ := C61_minCoordinateIndexFromTo s h 0 (s.coordinates.length - 1) (by omega) (by omega) hsz
    refine ⟨k, m, ?_, e4, ?_, fun j c hj => e6 j c (by omega) hj⟩
    · simp only [Seqs.minCoordinateIndex, SeqOps.size, CASeq.size, Res.bind_ok, Res.pure_eq]
      rw [Res.sub_le (by omega), Res.bind_ok]
      exact e1
    · intro c hc
      obtain ⟨j, hj, rfl⟩ := List.mem_iff_getElem.mp hc
      exact e5 j _ (by omega) (by omega) (List.getElem?_eq_getElem hj)

/-! ## C62 -/

/-- x and y agree with those of `c`. -/
def SameXY (c d : Coord α) : Prop := (c.x ==. d.x) = true ∧ (c.y ==. d.y) = true

/-- `index_of`: the first index with the same x and y, or -1. -/
theorem C62_indexOf (c : Coord α) (s : CASeq α) :
    ∃ r, Seqs.indexOf c s = .ok r ∧
      ((r = -1 ∧ ∀ p ∈ s.coordinates, ¬ SameXY c p) ∨
       (∃ (k : Nat) (p : Coord α), r = k ∧ s.coordinates[k]? = some p ∧ SameXY c p ∧
          ∀ j < k, ∀ q, s.coordinates[j]? = some q → ¬ SameXY c q)) := by
  classical
  unfold Seqs.indexOf
  have step : ∀ i, 0 ≤ i → i < s.coordinates.length → (do
      let x ← SeqOps.getOrd s i 0
      if c.x ==. x then do
        let y ← SeqOps.getOrd s i 1
        if c.y ==. y then pure (some (i : Int)) else pure none
      else pure none : Res (Option Int)) = .ok ((fun i : Nat => match s.coordinates[i]? with
        | some p => if (c.x ==. p.x) && (c.y ==. p.y) then some (i : Int) else none
        | none => none) i) := by
    intro i _ hi
    have e0 := getOrd_ok s i hi 0
    have e1 := getOrd_ok s i hi 1
    simp only [Nat.cast_zero, Nat.cast_one] at e0 e1
    simp only [SeqOps.getOrd, e0, e1, Res.bind_ok, List.getElem?_eq_getElem hi]
    cases (c.x ==. s.coordinates[i].x) <;> cases (c.y ==. s.coordinates[i].y) <;> rfl
  have hsize : (SeqOps.size s : Res Nat) = .ok s.coordinates.length := rfl
  rw [hsize, Res.bind_ok, forFind_ok 0 s.coordinates.length _ _ step, Res.bind_ok]
  refine ⟨_, rfl, ?_⟩
  generalize hf : (List.range' 0 (s.coordinates.length - 0)).findSome? _ = R
  cases R with
  | none =>
    left
    refine ⟨rfl, fun p hp => ?_⟩
    obtain ⟨i, hi, rfl⟩ := List.mem_iff_getElem.mp hp
    rw [findSome?_range'_none] at hf
    have := hf i (by omega) (by omega)
    simp only [List.getElem?_eq_getElem hi] at this
    intro hs
    simp [hs.1, hs.2] at this
  | some b =>
    right
    rw [findSome?_range'_some] at hf
    obtain ⟨k, -, hk, h1, h2⟩ := hf
    have hk' : k < s.coordinates.length := by omega
    simp only [List.getElem?_eq_getElem hk'] at h1
    split at h1
    · rename_i hc
      cases h1
      rw [Bool.and_eq_true] at hc
      refine ⟨k, _, rfl, List.getElem?_eq_getElem hk', hc, ?_⟩
      intro j hj q hq hs
      have := h2 j (by omega) hj
      simp [hq, hs.1, hs.2] at this
    · cases h1

/-- Scrolling to a coordinate: if it is absent, nothing changes; otherwise the result starts with a coordinate of the same x and y, and
has the same size. -/
theorem C62_scrollCoordinate [FltOrd α] (s : CASeq α) (h : 2 ≤ s.dimension) (c : Coord α) (hsz : s.coordinates.length < 2 ^ 31) :
    ∃ s', Seqs.scrollCoordinate s c = .ok s' ∧ s'.coordinates.length = s.coordinates.length ∧
      ((∀ p ∈ s.coordinates, ¬ SameXY c p) → s' = s) ∧
      ((∃ p ∈ s.coordinates, SameXY c p) → ∃ d, s'.coordinates[0]? = some d ∧ SameXY c d) := by
  obtain ⟨r, e1, e2⟩ := C62_indexOf c s
  unfold Seqs.scrollCoordinate
  rw [e1, Res.bind_ok]
  rcases e2 with ⟨rfl, hno⟩ | ⟨k, p, rfl, hk, hp, hmin⟩
  · rw [if_pos (by omega)]
    exact ⟨s, rfl, rfl, fun _ => rfl, fun ⟨p, hp, hs⟩ => absurd hs (hno p hp)⟩
  · have hmem := List.mem_of_getElem? hk
    obtain ⟨hkl, -⟩ := List.getElem?_eq_some_iff.mp hk
    by_cases k0 : k = 0
    · subst k0
      rw [if_pos (by simp)]
      exact ⟨s, rfl, rfl, fun _ => rfl, fun _ => ⟨p, hk, hp⟩⟩
    · rw [if_neg (by omega), asUsize_ofNat k (by omega)]
      unfold Seqs.scrollIndex
      obtain ⟨b, b1, b2⟩ := C19_isRing_array s h
      rw [b1, Res.bind_ok]
      have habs : (∀ q ∈ s.coordinates, ¬ SameXY c q) → False := fun hn => hn p hmem hp
      cases b with
      | false =>
        obtain ⟨s', f1, f2, f3, f4, f5⟩ := C19_array_scroll s h k
        refine ⟨s', f1, f4, fun hn => absurd hn habs, fun _ => ?_⟩
        have := f5 0 _ p (List.getElem?_eq_getElem (by omega)) (by rw [Nat.add_zero, Nat.mod_eq_of_lt hkl]; exact hk)
        exact ⟨_, this, hp⟩
      | true =>
        rcases b2.mp rfl with hnil | ⟨h4, cc, dd, hcc, hdd, hx, hy⟩
        · rw [hnil] at hmem; simp at hmem
        · obtain ⟨s', f1, f2, f3, f4, f5, f6, f7⟩ := C19_array_scroll_ring s h k (by omega) (by omega)
          refine ⟨s', f1, f4, fun hn => absurd hn habs, fun _ => ?_⟩
          by_cases hlast : k = s.coordinates.length - 1
          · have hm : k % (s.coordinates.length - 1) = 0 := by rw [hlast]; exact Nat.mod_self _
            have := f5 0 _ cc (by omega) (List.getElem?_eq_getElem (by omega))
              (by rw [Nat.add_zero, hm, ← List.head?_eq_getElem?]; exact hcc)
            rw [List.getLast?_eq_getElem?, ← hlast, hk] at hdd
            cases hdd
            have hcc0 : s.coordinates[0]? = some cc := by rw [← List.head?_eq_getElem?]; exact hcc
            exfalso
            refine hmin 0 (by omega) cc hcc0 ?_
            obtain ⟨p1, p2⟩ := hp
            simp only [SameXY, eq_eq, Bool.and_eq_true] at p1 p2 hx hy ⊢
            grind
          · have := f5 0 _ p (by omega) (List.getElem?_eq_getElem (by omega))
              (by rw [Nat.add_zero, Nat.mod_eq_of_lt (by omega)]; exact hk)
            exact ⟨_, this, hp⟩

/-- `extend` of a non-empty array sequence to at least its size: the coordinates (x, y, and z within the dimension), then copies of the
last one. -/
theorem C62_extend (s : CASeq α) (h : 2 ≤ s.dimension) (sz : Nat) (last : Coord α) (hlast : s.coordinates.getLast? = some last)
    (hsz : s.coordinates.length ≤ sz) :
    ∃ s', Seqs.extend s sz = .ok s' ∧ s'.coordinates.length = sz ∧ s'.dimension = min 3 s.dimension ∧
      ∀ i < sz, ∃ d, s'.coordinates[i]? = some d ∧ d.x = ((s.coordinates[i]?).getD last).x ∧
        d.y = ((s.coordinates[i]?).getD last).y ∧ (3 ≤ s.dimension → d.z = ((s.coordinates[i]?).getD last).z) := by
  have h0 : 0 < s.coordinates.length := by
    rcases Nat.eq_zero_or_pos s.coordinates.length with h0 | h0
    · rw [List.eq_nil_of_length_eq_zero h0] at hlast; cases hlast
    · exact h0
  rw [List.getLast?_eq_getElem?] at hlast
  obtain ⟨s', a1, a2, a3, a4, a5, a6⟩ := fill_spec s h sz (s.coordinates.length - 1)
    (by show _ < s.coordinates.length; omega) hsz
  have hl : s'.coordinates.length = sz := a3
  refine ⟨s', ?_, hl, ?_, ?_⟩
  · unfold Seqs.extend
    have hs : (SeqOps.size s : Res Nat) = .ok s.coordinates.length := rfl
    simp only [hs, Res.bind_ok, gt_iff_lt, if_pos h0]
    exact a1
  · rw [a4.1]
    simp only [SeqOps.create, SeqOps.dim, CASeq.create, CASeq.newWithSizeDimension]; split_ifs <;> omega
  · intro i hi
    have hi' : i < s'.coordinates.length := by omega
    refine ⟨_, List.getElem?_eq_getElem hi', ?_⟩
    have o := a6 i hi
    have o0 := o 0 (col0 s h)
    have o1 := o 1 (col1 s h)
    have o2 : 3 ≤ s.dimension → _ := fun hd => o 2 ⟨by show 2 < s.dimension.toNat; omega, by show 2 < 3; omega⟩
    change s'.ord i 0 = (if i < s.coordinates.length then s.ord i 0 else s.ord (s.coordinates.length - 1) 0) at o0
    change s'.ord i 1 = (if i < s.coordinates.length then s.ord i 1 else s.ord (s.coordinates.length - 1) 1) at o1
    change 3 ≤ s.dimension → s'.ord i 2 = (if i < s.coordinates.length then s.ord i 2 else s.ord (s.coordinates.length - 1) 2) at o2
    simp only [CASeq.ord, hlast, List.getElem?_eq_getElem hi'] at o0 o1 o2
    by_cases hc : i < s.coordinates.length
    · rw [if_pos hc] at o0 o1 o2
      simp only [List.getElem?_eq_getElem hc, Option.getD_some] at *
      exact ⟨o0, o1, o2⟩
    · rw [if_neg hc] at o0 o1 o2
      rw [List.getElem?_eq_none (by omega), Option.getD_none]
      exact ⟨o0, o1, o2⟩

/-- Extending the empty sequence gives default coordinates: (0, 0) of the requested number, and not an error. -/
theorem C62_extend_empty (d m : Int) (sz : Nat) :
    ∃ d', Seqs.extend (⟨d, m, []⟩ : CASeq α) sz = .ok ⟨d', 0, List.replicate sz Coord.default⟩ := by
  have hdef : ∀ d : Int, (Coordinates.createDim d : Coord α) = Coord.default := by
    intro d
    unfold Coordinates.createDim Coordinates.createDimMeasures
    split_ifs <;> first | rfl | omega
  simp only [Seqs.extend, SeqOps.size, CASeq.size, Seqs.copy, forRange_self, List.length_nil, Res.bind_ok, Res.pure_eq, SeqOps.create,
    CASeq.create, CASeq.newWithSizeDimension, hdef]
  rw [forRange_self 0 0 (by omega)]
  exact ⟨_, rfl⟩

section examples
local notation "F" => Fl exactRounding
local notation "q" => fun (x : ℚ) => (Fl.fin x : F)
local notation "pt" => fun (x y : ℚ) => (Coord.xy (Fl.fin x) (Fl.fin y) : Coord F)

def exS : CASeq F := ⟨2, 0, [pt 3 0, pt 1 0, pt 1 1, pt 1 0]⟩

/-- Comparing sequences of different dimensions is not transitive. -/
theorem C60_not_transitive_mixed_dimensions :
    Seqs.isEqual (⟨3, 0, [Coord.xyz (q 1) (q 2) (q 3)]⟩ : CASeq F) ⟨2, 0, [pt 1 2]⟩ = .ok true ∧
    Seqs.isEqual (⟨2, 0, [pt 1 2]⟩ : CASeq F) ⟨3, 0, [Coord.xyz (q 1) (q 2) (q 4)]⟩ = .ok true ∧
    Seqs.isEqual (⟨3, 0, [Coord.xyz (q 1) (q 2) (q 3)]⟩ : CASeq F) ⟨3, 0, [Coord.xyz (q 1) (q 2) (q 4)]⟩ = .ok false := by
  decide +kernel

example : (runSets exS [(1, 0, q 7), (2, 2, q 8), (1, 0, q 9)]).map CASeq.coordinates =
    .ok [pt 3 0, pt 9 0, ⟨q 1, q 1, q 8, Fl.nan⟩, pt 1 0] := by decide +kernel
example : exPM.WF ∧ exPM.coords.length = exPM.n * exPM.dimension.toNat :=
  ⟨by unfold PSeq.WF; decide, by decide⟩
example : Seqs.minCoordinate exS = .ok (some (pt 1 0)) ∧ Seqs.minCoordinateIndex exS = .ok 1 := by decide +kernel
example : Seqs.indexOf (pt 1 1) exS = .ok 2 ∧ (Seqs.scrollCoordinate exS (pt 1 1)).map CASeq.coordinates =
    .ok [pt 1 1, pt 1 0, pt 3 0, pt 1 0] := by decide +kernel
example : exS.coordinates.getLast? = some (pt 1 0) ∧ (Seqs.extend exS 6).map CASeq.coordinates =
    .ok [pt 3 0, pt 1 0, pt 1 1, pt 1 0, pt 1 0, pt 1 0] := by decide +kernel
example : isNaN (Fl.nan : F) = true ∧ exS.dimension ≤ 2147483647 := by decide +kernel
end examples

end Verif.Props
