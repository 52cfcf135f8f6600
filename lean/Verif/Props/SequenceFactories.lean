import Verif.Model.SequenceFactories
import Verif.Props.SequencesMore
import Verif.Props.Envelope
import Verif.Lemmas.Ext

/-! # C105: creating and copying coordinate sequences -/

namespace Verif.Props
open Flt Verif.Spec

variable {α : Type} [Flt α]

/-- A loop that overwrites every element of a vector. -/
theorem fill_loop {A : Type} (d : A) (l : List A) (f : Nat → Res A) (h : ∀ i (hi : i < l.length), f i = .ok l[i]) :
    forRange 0 l.length (List.replicate l.length d) (fun i v => do let c ← f i; Res.set v i c) = .ok l := by
  suffices H : ∀ (k : Nat), k ≤ l.length → forRange 0 k (List.replicate l.length d) (fun i v => do let c ← f i; Res.set v i c) =
      .ok (l.take k ++ List.replicate (l.length - k) d) by
    rw [H l.length le_rfl]; simp
  intro k
  induction k with
  | zero => intro _; simp [forRange]
  | succ k ih =>
    intro hk
    have e : forRange 0 (k + 1) (List.replicate l.length d) (fun i v => do let c ← f i; Res.set v i c) =
        (forRange 0 k (List.replicate l.length d) (fun i v => do let c ← f i; Res.set v i c) >>=
          fun v => do let c ← f k; Res.set v k c) := by
      unfold forRange
      rw [Nat.sub_zero, Nat.sub_zero, List.range'_1_concat, List.foldlM_append]
      congr 1
      funext v
      simp only [List.foldlM_cons, List.foldlM_nil, Nat.zero_add]
      rcases f k with e | c
      · rfl
      · simp only [Res.bind_ok]
        rcases Res.set v k c with e | c <;> rfl
    rw [e, ih (by omega), Res.bind_ok, h k (by omega), Res.bind_ok, Res.set_lt (by simp; omega)]
    congr 1
    obtain ⟨m, hm⟩ : ∃ m, l.length - k = m + 1 := ⟨l.length - k - 1, by omega⟩
    rw [hm, show l.length - (k + 1) = m by omega, List.set_append_right _ _ (by simp)]
    simp only [List.length_take, min_eq_left (show k ≤ l.length by omega), Nat.sub_self, List.replicate_succ, List.set_cons_zero]
    rw [List.take_succ_eq_append_getElem (by omega), List.append_assoc]
    rfl

/-- Copies are complete: of array sequences by both functions, and of packed ordinates. -/
theorem C105_copies (s : CASeq α) (l : List α) (d m : Int) :
    s.copyLoop = .ok s ∧ CASeq.newFrom s = .ok s ∧ SeqOps.copy s = s ∧ PSeq.ofOrdinatesLoop l d m = .ok ⟨d, m, l⟩ ∧
    SeqOps.copy (⟨d, m, l⟩ : PSeq α) = ⟨d, m, l⟩ := by
  refine ⟨?_, ?_, rfl, ?_, rfl⟩
  · rw [CASeq.copyLoop, fill_loop _ _ _ (fun i hi => Res.get_lt hi)]; rfl
  · rw [CASeq.newFrom]
    unfold CASeq.size CASeq.getCoordinate
    rw [fill_loop _ _ _ (fun i hi => Res.get_lt hi)]; rfl
  · rw [PSeq.ofOrdinatesLoop, fill_loop _ _ _ (fun i hi => Res.get_lt hi)]; rfl

/-- Sequences made by the array factory have the size asked for; dimensions are brought into 2 to 3, and the number of measures is
0. There are heights exactly if the dimension asked for is above 2; all coordinates are (0, 0) without height and measure. -/
theorem C105_array_factory (n : Nat) (d : Int) :
    (CASeq.create n d : CASeq α).size = n ∧ (CASeq.create n d : CASeq α).dimension = max 2 (min 3 d) ∧
    (CASeq.create n d : CASeq α).measures = 0 ∧ ((CASeq.create n d : CASeq α).hasZ = true ↔ 3 ≤ d) ∧
    (CASeq.create n d : CASeq α).hasM = false ∧ ∀ c ∈ (CASeq.create n d : CASeq α).coordinates, c = ⟨lit 0, lit 0, nan, nan⟩ := by
  have e : (CASeq.create n d : CASeq α) = ⟨max 2 (min 3 d), 0, List.replicate n (Coordinates.createDim (max 2 (min 3 d)))⟩ := by
    unfold CASeq.create CASeq.newWithSizeDimension
    have : (if (if d > 3 then 3 else d) < 2 then 2 else (if d > 3 then 3 else d)) = max 2 (min 3 d) := by split_ifs <;> omega
    simp only [this]
  rw [e]
  refine ⟨by simp [CASeq.size], rfl, rfl, ?_, rfl, fun c hc => ?_⟩
  · simp only [CASeq.hasZ, decide_eq_true_eq]; omega
  · rw [(List.mem_replicate.mp hc).2, Coordinates.createDim, Coordinates.createDimMeasures]
    rcases (show max 2 (min 3 d) = 2 ∨ max 2 (min 3 d) = 3 by omega) with h | h <;> simp [h, Coord.default]

/-- The same for sequences with measures: at most one measure and two or three other ordinates are kept. There are heights exactly if
more than two ordinates that are not measures were asked for, and measures exactly if any were asked for; x and y are 0, the
measure is 0 if there is one, and the height is 0 if there are both and missing otherwise. -/
theorem C105_array_factory_measures (n : Nat) (d m : Int) (hm : 0 ≤ m) :
    (CASeq.createMeasures n d m : CASeq α).size = n ∧
    (CASeq.createMeasures n d m : CASeq α).measures = min 1 m ∧
    (CASeq.createMeasures n d m : CASeq α).dimension = max 2 (min 3 (d - m)) + min 1 m ∧
    ((CASeq.createMeasures n d m : CASeq α).hasZ = true ↔ 3 ≤ d - m) ∧ ((CASeq.createMeasures n d m : CASeq α).hasM = true ↔ 1 ≤ m) ∧
    ∀ c ∈ (CASeq.createMeasures n d m : CASeq α).coordinates, c.x = lit 0 ∧ c.y = lit 0 ∧
      (c.z = if 1 ≤ m ∧ 3 ≤ d - m then lit 0 else nan) ∧ (c.m = if 1 ≤ m then lit 0 else nan) := by
  have e : (CASeq.createMeasures n d m : CASeq α) = ⟨max 2 (min 3 (d - m)) + min 1 m, min 1 m,
      List.replicate n (Coordinates.createDimMeasures (max 2 (min 3 (d - m)) + min 1 m) (min 1 m))⟩ := by
    unfold CASeq.createMeasures CASeq.newWithSizeDimensionMeasures
    have h1 : (if (if d - m > 3 then 3 else d - m) < 2 then 2 else (if d - m > 3 then 3 else d - m)) = max 2 (min 3 (d - m)) := by
      split_ifs <;> omega
    have h2 : (if m > 1 then 1 else m) = min 1 m := by split_ifs <;> omega
    simp only [h1, h2]
  rw [e]
  refine ⟨by simp [CASeq.size], rfl, rfl, ?_, ?_, fun c hc => ?_⟩
  · simp only [CASeq.hasZ, decide_eq_true_eq]; omega
  · simp only [CASeq.hasM, decide_eq_true_eq]; omega
  · rw [(List.mem_replicate.mp hc).2, Coordinates.createDimMeasures]
    rcases (show min 1 m = 0 ∨ min 1 m = 1 by omega) with h | h <;>
      rcases (show max 2 (min 3 (d - m)) = 2 ∨ max 2 (min 3 (d - m)) = 3 by omega) with h' | h' <;> rw [h, h']
    · have : ¬ 1 ≤ m := by omega
      simp [Coord.default, this]
    · have : ¬ 1 ≤ m := by omega
      simp [Coord.default, this]
    · have h1 : 1 ≤ m := by omega
      have h2 : ¬ 3 ≤ d - m := by omega
      simp [Coord.defaultXYM, h1, h2]
    · have h1 : 1 ≤ m := by omega
      have h2 : 3 ≤ d - m := by omega
      simp [Coord.defaultXYZM, h1, h2]

/-- A sequence of three dimensions made by the array factory falls back to two if it is made again from its coordinates, as their
heights are missing. -/
theorem C105_height_lost (hz : isNaN (lit 0 : α) = false) (hn : isNaN (nan : α) = true) (n : Nat) (hn0 : 0 < n) :
    (CASeq.create n 3 : CASeq α).dimension = 3 ∧ (CASeq.ofCoordinates (CASeq.create n 3 : CASeq α).coordinates).dimension = 2 := by
  have e : (CASeq.create n 3 : CASeq α) = ⟨3, 0, List.replicate n Coord.default⟩ := by
    simp [CASeq.create, CASeq.newWithSizeDimension, Coordinates.createDim, Coordinates.createDimMeasures]
  rw [e]
  refine ⟨rfl, ?_⟩
  unfold CASeq.ofCoordinates CoordArrays.dimension
  simp only [List.length_replicate, if_neg hn0.ne']
  have hd : Coordinates.dimension (Coord.default : Coord α) = 2 := by
    simp [Coordinates.dimension, Coord.isXY, Coord.default, hz, hn]
  have hs : ∀ (k : Nat) (m : Int), 2 ≤ m → (List.replicate k (Coord.default : Coord α)).foldl (fun d c => max d (Coordinates.dimension c)) m = m := by
    intro k
    induction k with
    | zero => intro m _; rfl
    | succ k ih => intro m hm; rw [List.replicate_succ, List.foldl_cons, hd, max_eq_left hm, ih m hm]
  obtain ⟨k, rfl⟩ := Nat.exists_eq_succ_of_ne_zero hn0.ne'
  rw [List.replicate_succ, List.foldl_cons, hd, show max (0 : Int) 2 = 2 by rfl, hs k 2 le_rfl]

/-- Packed sequences made by the factory: the size asked for, all ordinates missing. -/
theorem C105_packed_factory (n : Nat) (d m : Int) (hd : 2 ≤ d) (hd' : d < 2 ^ 31) :
    (PSeq.createMeasures n d m : PSeq α).size = .ok n ∧ (PSeq.createMeasures n d m : PSeq α).dimension = d ∧
    (PSeq.createMeasures n d m : PSeq α).measures = m ∧
    (∀ i k : Nat, i < n → (k : Int) < d → (PSeq.createMeasures n d m : PSeq α).getOrd i k = .ok nan) ∧
    (PSeq.create n d : PSeq α) = PSeq.createMeasures n d (max 0 (d - 3)) := by
  have e : asUsize d = d.toNat := asUsize_of _ (by omega) (by omega)
  have hp : 0 < d.toNat := by omega
  refine ⟨?_, rfl, rfl, fun i k hi hk => ?_, rfl⟩
  · unfold PSeq.createMeasures PSeq.newWithSize PSeq.size
    simp only [e, List.length_replicate]
    rw [if_neg hp.ne', Nat.mul_div_cancel _ hp]; rfl
  · unfold PSeq.createMeasures PSeq.newWithSize PSeq.getOrd
    simp only [e]
    have ek : asUsize (k : Int) = k := by rw [asUsize_of _ (by omega) (by omega)]; simp
    have : i * d.toNat + k < n * d.toNat := by
      have : (i + 1) * d.toNat ≤ n * d.toNat := Nat.mul_le_mul_right _ (by omega)
      rw [Nat.succ_mul] at this
      omega
    rw [ek, Res.get_lt (by simpa using this)]
    simp

/-- The coordinate array of a packed sequence has its coordinates in order; every one is read in full. -/
theorem C105_packed_array (s : PSeq α) (h : s.WF) :
    ∃ l, s.toCoordinateArray = .ok l ∧ l.length = s.coords.length / s.dimension.toNat ∧
      ∀ i (hi : i < l.length), s.getCoordinate i = .ok l[i] := by
  have hn : s.size = .ok (s.coords.length / s.dimension.toNat) := by
    have h1 := h.1; have h2 := h.2
    have e : asUsize s.dimension = s.dimension.toNat := asUsize_of _ (by omega) (by omega)
    rw [PSeq.size, e, if_neg (by omega)]; rfl
  generalize hN : s.coords.length / s.dimension.toNat = n at hn ⊢
  have hg : ∀ i : Fin n, ∃ c, s.getCoordinate i = .ok c := fun i => by
    obtain ⟨c, e, -⟩ := C55_packed_getCoordinate s h i (hN ▸ i.2)
    exact ⟨c, e⟩
  choose g hg using hg
  have hl : (List.ofFn g).length = n := List.length_ofFn
  have hf : ∀ i (hi : i < (List.ofFn g).length), s.getCoordinate i = .ok (List.ofFn g)[i] := fun i hi => by
    rw [List.getElem_ofFn, hg ⟨i, hl ▸ hi⟩]
  refine ⟨List.ofFn g, ?_, hl, hf⟩
  rw [PSeq.toCoordinateArray, hn, Res.bind_ok]
  have := fill_loop Coord.default (List.ofFn g) s.getCoordinate hf
  rw [hl] at this
  exact this

/-- Enlarging an envelope by a sequence: the smallest box that covers the envelope and every coordinate of the sequence. -/
theorem C105_expand_envelope [FltOrd α] (s : CASeq α) (h : ∀ p ∈ s.coordinates, p.NN) (e : Env α) (he : e.Box) :
    (s.expandEnvelope e).covers e = true ∧ (∀ p ∈ s.coordinates, (s.expandEnvelope e).coversCoordinate p = true) ∧
    (∀ f : Env α, f.WF → f.covers e = true → (∀ p ∈ s.coordinates, f.coversCoordinate p = true) →
      f.covers (s.expandEnvelope e) = true) := (foldl_expand_box s.coordinates h e he).2

/-- Reading a coordinate of an array sequence into another coordinate: x, y and height are taken over, the measure is kept. -/
theorem C105_fill (s : CASeq α) (i : Nat) (c : Coord α) :
    (∀ hi : i < s.coordinates.length, s.fill i c = .ok ⟨s.coordinates[i].x, s.coordinates[i].y, s.coordinates[i].z, c.m⟩) ∧
    (s.coordinates.length ≤ i → s.fill i c = .error .index) := by
  constructor
  · intro hi; rw [CASeq.fill, Res.get_lt hi]; rfl
  · intro hi; rw [CASeq.fill, Res.get_ge hi]; rfl

/-- Making a packed sequence from the other packed type: works for the empty one, and panics for every other. -/
theorem C105_from_sequence (s : PBase α) :
    (s.coords = [] → PSeq.createFromSequence s = .ok ⟨s.dimension, s.measures, []⟩) ∧
    (s.coords ≠ [] → PSeq.createFromSequence s = .error .index) := by
  have e : s.toCoordinateArray = .ok s.coords := by
    rw [PBase.toCoordinateArray]
    have := fill_loop Coord.default s.coords (fun i => s.getCoordinateInternal i >>= Res.unwrap)
      (fun i hi => by simp [PBase.getCoordinateInternal, hi, Res.unwrap])
    simpa using this
  rw [PSeq.createFromSequence, e, Res.bind_ok]
  constructor
  · intro h; rw [h]; rfl
  · intro h
    exact (C55_packed_from_coordinates_panics s.coords h s.dimension s.measures).2.2.1

/-- The smallest box around a sequence, from the empty envelope. -/
theorem C105_expand_null [FltOrd α] [FltLit α] (s : CASeq α) (h : ∀ p ∈ s.coordinates, p.NN) (hne : s.coordinates ≠ []) :
    (s.expandEnvelope Env.null).isNull = false ∧ (∀ p ∈ s.coordinates, (s.expandEnvelope Env.null).coversCoordinate p = true) ∧
    (∀ f : Env α, f.WF → (∀ p ∈ s.coordinates, f.coversCoordinate p = true) → f.covers (s.expandEnvelope Env.null) = true) := by
  obtain ⟨c, t, e⟩ := List.exists_cons_of_ne_nil hne
  exact ⟨(C02_covers_all _ h c (by rw [e]; simp)).2.1, fun p hp => (C02_covers_all _ h p hp).1, fun f hf hp => C02_least _ h hne f hf hp⟩

/-! ## Cases -/

example : (CASeq.create 2 7 : CASeq EQ).dimension = 3 ∧ (CASeq.createMeasures 2 9 4 : CASeq EQ).dimension = 4 ∧
    (CASeq.ofCoordinates (CASeq.create 2 3 : CASeq EQ).coordinates).dimension = 2 :=
  ⟨(C105_array_factory 2 7).2.1, (C105_array_factory_measures 2 9 4 (by norm_num)).2.2.1, (C105_height_lost rfl rfl 2 (by norm_num)).2⟩

example : (⟨3, 1, [.fin 1, .fin 2, .fin 3, .fin 4, .fin 5, .fin 6]⟩ : PSeq EQ).toCoordinateArray =
    .ok [⟨.fin 1, .fin 2, .nan, .fin 3⟩, ⟨.fin 4, .fin 5, .nan, .fin 6⟩] := by decide +kernel

end Verif.Props
