import Verif.Props.CoordinateArrays

/-! # C57, C58, C59: filtering, dimension enforcement, and envelopes of coordinate arrays -/

set_option linter.unusedSectionVars false

namespace Verif.Props
open Flt CoordArrays
variable {α : Type} [Flt α]

/-! ## C57 -/

theorem filterLoop (cs : List (Coord α)) :
    forRange 0 cs.length ([] : List (Coord α)) (fun i l => do
      let c ← Res.get cs i
      if !c.isValid then pure l else pure (CoordList.add l c false)) =
      .ok ((cs.filter (fun c => c.isValid)).destutter Diff) := by
  rw [← CoordList.foldl_add_nil]
  refine (forRange_closed 0 cs.length _ (fun k => ((cs.take k).filter (fun c => c.isValid)).foldl
    (fun l c => CoordList.add l c false) []) (Nat.zero_le _) ?_).trans ?_
  · intro i _ hi
    rw [Res.get_lt hi, Res.bind_ok, take_succ' cs i hi, List.filter_append, List.foldl_append]
    cases h : cs[i].isValid <;> simp [h]
  · simp

theorem hasRepeatedOrInvalid_ok (cs : List (Coord α)) :
    ∃ b, hasRepeatedOrInvalidPoints cs = .ok b ∧ (b = false ↔ NoRepeats cs ∧ ∀ c ∈ cs.tail, c.isValid = true) := by
  refine ⟨((List.range' 1 (cs.length - 1)).findSome? (fun i =>
      match cs[i - 1]?, cs[i]? with
      | some a, some b => if !b.isValid then some true else if a.equals2D b then some true else none
      | _, _ => none)).getD false, ?_, ?_⟩
  · rw [hasRepeatedOrInvalidPoints, forFind_ok (p := fun i =>
      match cs[i - 1]?, cs[i]? with
      | some a, some b => if !b.isValid then some true else if a.equals2D b then some true else none
      | _, _ => none)]
    · simp only [Res.bind_ok, Res.pure_eq]
    · intro i h1 h2
      have h3 : i - 1 < cs.length := by omega
      simp only [Res.get_lt h3, Res.get_lt h2, Res.bind_ok, List.getElem?_eq_getElem h3,
        List.getElem?_eq_getElem h2]
      split_ifs <;> rfl
  · cases hf : (List.range' 1 (cs.length - 1)).findSome? (fun i =>
      match cs[i - 1]?, cs[i]? with
      | some a, some b => if !b.isValid then some true else if a.equals2D b then some true else none
      | _, _ => none) with
    | none =>
      simp only [Option.getD_none, true_iff]
      rw [findSome?_range'_none] at hf
      constructor
      · intro i a b ha hb
        have hlen : i + 1 < cs.length := by
          by_contra hc; rw [List.getElem?_eq_none (by omega)] at hb; cases hb
        have := hf (i + 1) (by omega) (by omega)
        simp only [Nat.add_sub_cancel, ha, hb] at this
        by_contra hc
        split_ifs at this <;> simp_all
      · intro c hc
        obtain ⟨i, hi, rfl⟩ := List.mem_iff_getElem.mp hc
        simp only [List.length_tail] at hi
        have h1 : i + 1 < cs.length := by omega
        have h0 : i < cs.length := by omega
        have := hf (i + 1) (by omega) (by omega)
        simp only [Nat.add_sub_cancel, List.getElem?_eq_getElem h1, List.getElem?_eq_getElem h0] at this
        rw [List.getElem_tail]
        by_contra hc
        split_ifs at this <;> simp_all
    | some v =>
      rw [findSome?_range'_some] at hf
      obtain ⟨k, h1, h2, hv, -⟩ := hf
      have hk : k < cs.length := by omega
      have hk1 : k - 1 < cs.length := by omega
      simp only [List.getElem?_eq_getElem hk, List.getElem?_eq_getElem hk1] at hv
      obtain ⟨j, rfl⟩ : ∃ j, k = j + 1 := ⟨k - 1, by omega⟩
      simp only [Nat.add_sub_cancel] at hv hk1
      split_ifs at hv with c1 c2
      · cases hv
        simp only [Option.getD_some, Bool.true_eq_false, false_iff]
        rintro ⟨-, hall⟩
        have := hall cs[j + 1] (by
          rw [← List.getElem_tail (by simp; omega)]
          exact List.getElem_mem _)
        rw [this] at c1; cases c1
      · cases hv
        simp only [Option.getD_some, Bool.true_eq_false, false_iff]
        rintro ⟨hno, -⟩
        have := hno j _ _ (List.getElem?_eq_getElem hk1) (List.getElem?_eq_getElem hk)
        rw [this] at c2; cases c2

/-- `remove_repeated_or_invalid_points` for arrays whose first point is valid (finite): the invalid points are dropped, then runs
of equal points are collapsed; all result points are valid and no two neighbours are equal. Never panics. -/
theorem C57_removeRepeatedOrInvalid_partial (cs : List (Coord α)) (h0 : ∀ c, cs.head? = some c → c.isValid = true) :
    ∃ r, removeRepeatedOrInvalidPoints cs = .ok r ∧
      r = (cs.filter (fun c => c.isValid)).destutter (fun a b => a.equals2D b = false) ∧
      NoRepeats r ∧ (∀ c ∈ r, c.isValid = true) ∧ List.Sublist r cs ∧
      removeRepeatedOrInvalidPoints r = .ok r := by
  have main : ∀ cs : List (Coord α), (∀ c, cs.head? = some c → c.isValid = true) →
      removeRepeatedOrInvalidPoints cs = .ok ((cs.filter (fun c => c.isValid)).destutter Diff) := by
    intro cs h0
    obtain ⟨b, hb, hb'⟩ := hasRepeatedOrInvalid_ok cs
    rw [removeRepeatedOrInvalidPoints, hb, Res.bind_ok]
    cases b with
    | true => exact filterLoop cs
    | false =>
      obtain ⟨hno, hval⟩ := hb'.mp rfl
      have hall : ∀ c ∈ cs, c.isValid = true := by
        cases cs with
        | nil => simp
        | cons a l =>
          intro c hc
          rcases List.mem_cons.mp hc with rfl | hc
          · exact h0 c rfl
          · exact hval c hc
      rw [List.filter_eq_self.mpr hall, List.destutter_of_isChain _ _ ((noRepeats_iff cs).mp hno)]
      rfl
  have hsub : List.Sublist ((cs.filter (fun c => c.isValid)).destutter Diff) (cs.filter (fun c => c.isValid)) :=
    List.destutter_sublist _ _
  have hval : ∀ c ∈ (cs.filter (fun c => c.isValid)).destutter Diff, c.isValid = true := fun c hc =>
    (List.mem_filter.mp (hsub.subset hc)).2
  refine ⟨_, main cs h0, rfl, (noRepeats_iff _).mpr (List.isChain_destutter _ _), hval,
    hsub.trans List.filter_sublist, ?_⟩
  rw [main _ (fun c hc => hval c (List.mem_of_head? hc)), List.filter_eq_self.mpr hval, List.destutter_idem]

/-- Without that hypothesis the claim fails: the scan that decides whether there is work to do skips the first point, so an
invalid first point is returned as is. -/
theorem C57_first_point_not_checked (a b : Coord α) (ha : a.isValid = false) (hb : b.isValid = true)
    (hab : a.equals2D b = false) :
    removeRepeatedOrInvalidPoints [a] = .ok [a] ∧ removeRepeatedOrInvalidPoints [a, b] = .ok [a, b] := by
  constructor
  · rfl
  · obtain ⟨v, hv, hv'⟩ := hasRepeatedOrInvalid_ok [a, b]
    rw [removeRepeatedOrInvalidPoints, hv, Res.bind_ok, hv'.mpr ⟨?_, by simpa using hb⟩]
    · rfl
    · intro i x y hx hy
      cases i with
      | zero => simp at hx hy; subst hx; subst hy; exact hab
      | succ i => simp at hy

/-- `at_least_n_coordinates_or_nothing` returns the array or nothing, never something shorter. -/
theorem C57_atLeastN (n : Nat) (cs : List (Coord α)) :
    (n ≤ cs.length → atLeastNOrNothing n cs = cs) ∧ (cs.length < n → atLeastNOrNothing n cs = []) := by
  unfold atLeastNOrNothing
  constructor <;> intro h
  · rw [if_pos h]
  · rw [if_neg (by omega)]

/-! ## C58 -/

/-- Enforcing a dimension keeps the number of points and every x, y, z. -/
theorem C58_enforce_keeps_xyz_partial (cs : List (Coord α)) (d m : Int) :
    (enforceDimMeasures cs d m).length = cs.length ∧
    (∀ (i : Nat) (c : Coord α), cs[i]? = some c → ∃ e, (enforceDimMeasures cs d m)[i]? = some e ∧ e.x = c.x ∧ e.y = c.y ∧ e.z = c.z) ∧
    (enforceConsistency cs).length = cs.length ∧
    (∀ (i : Nat) (c : Coord α), cs[i]? = some c → ∃ e, (enforceConsistency cs)[i]? = some e ∧ e.x = c.x ∧ e.y = c.y ∧ e.z = c.z) := by
  have h : ∀ d m, (enforceDimMeasures cs d m).length = cs.length ∧
      (∀ (i : Nat) (c : Coord α), cs[i]? = some c → ∃ e, (enforceDimMeasures cs d m)[i]? = some e ∧ e.x = c.x ∧ e.y = c.y ∧ e.z = c.z) := by
    intro d m
    refine ⟨by simp [enforceDimMeasures], fun i c hc => ?_⟩
    exact ⟨(Coordinates.createDimMeasures d m).setCoordinate c, by simp [enforceDimMeasures, hc], rfl, rfl, rfl⟩
  refine ⟨(h d m).1, (h d m).2, ?_⟩
  unfold enforceConsistency
  simp only
  split
  · exact h _ _
  · exact ⟨rfl, fun i c hc => ⟨c, hc, rfl, rfl, rfl⟩⟩

/-- An array whose coordinates already agree in dimension and measures is unchanged. -/
theorem C58_consistent_unchanged (cs : List (Coord α)) (d m : Int) (hd : d ≠ -1)
    (h : ∀ c ∈ cs, Coordinates.dimension c = d ∧ Coordinates.measures c = m) : enforceConsistency cs = cs := by
  have key : ∀ cs : List (Coord α), (∀ c ∈ cs, Coordinates.dimension c = d ∧ Coordinates.measures c = m) →
      ∀ s : Int × Int × Bool, s.2.2 = true → (s.1 = -1 ∨ (s.1 = d ∧ s.2.1 = m)) →
      (cs.foldl (fun s c =>
        let d := Coordinates.dimension c
        let m := Coordinates.measures c
        if s.1 = -1 then (d, m, s.2.2)
        else if d ≠ s.1 ∨ m ≠ s.2.1 then (max s.1 d, max s.2.1 m, false)
        else s) s).2.2 = true := by
    intro cs
    induction cs with
    | nil => intro _ s hs _; exact hs
    | cons c cs ih =>
      intro hall s hs hinv
      obtain ⟨e1, e2⟩ := hall c (by simp)
      rw [List.foldl_cons]
      apply ih (fun c hc => hall c (by simp [hc]))
      · simp only [e1, e2]; rcases hinv with h | ⟨h1, h2⟩
        · simp [h, hs]
        · simp [h1, h2, hd, hs]
      · simp only [e1, e2]; rcases hinv with h | ⟨h1, h2⟩
        · simp [h]
        · simp [h1, h2, hd]
  have := key cs h (-1, -1, true) rfl (.inl rfl)
  unfold enforceConsistency
  simp only
  rw [show (scanConsistency cs).2.2 = true from this]
  rfl

/-- Measures are lost: `set_coordinate` does not copy m, so in a mixed array every m becomes the 0 (or NaN) of the freshly
created coordinate, also where the input had a measure. The claim that enforcement preserves the ordinates the target
dimension has is false. -/
theorem C58_measure_lost (cs : List (Coord α)) (d m : Int) (i : Nat) (c e : Coord α) (hc : cs[i]? = some c)
    (he : (enforceDimMeasures cs d m)[i]? = some e) :
    e.m = (Coordinates.createDimMeasures d m : Coord α).m := by
  simp [enforceDimMeasures, hc] at he
  subst he; rfl

/-! ## C59 -/

/-- `envelope` is the least envelope covering all points: `C02` applies to it. -/
theorem C59_envelope [FltOrd α] [FltLit α] (cs : List (Coord α)) (h : ∀ c ∈ cs, c.NN) :
    (cs ≠ [] → (envelope cs).isNull = false) ∧ (cs = [] → (envelope cs).isNull = true) ∧
    (∀ c ∈ cs, (envelope cs).coversCoordinate c = true) ∧
    (cs ≠ [] → ∀ f : Env α, f.WF → (∀ c ∈ cs, f.coversCoordinate c = true) → f.covers (envelope cs) = true) := by
  refine ⟨fun hne => ?_, fun he => ?_, fun c hc => ?_, fun hne f hf hcov => ?_⟩
  · obtain ⟨c, hc⟩ := List.exists_mem_of_ne_nil cs hne
    exact (C02_covers_all cs h c hc).2.1
  · subst he; exact Env.null_isNull
  · exact (C02_covers_all cs h c hc).1
  · exact C02_least cs h hne f hf hcov

/-- `intersection` keeps exactly the points that intersect the envelope, in order, duplicates included. -/
theorem C59_intersection (cs : List (Coord α)) (e : Env α) :
    intersection cs e = cs.filter (fun c => e.intersectsCoordinate c) := by
  have : ∀ (cs l : List (Coord α)), cs.foldl (fun l c => if e.intersectsCoordinate c then CoordList.add l c true else l) l =
      l ++ cs.filter (fun c => e.intersectsCoordinate c) := by
    intro cs
    induction cs with
    | nil => simp
    | cons c cs ih =>
      intro l
      rw [List.foldl_cons, ih]
      cases h : e.intersectsCoordinate c <;> simp [h, CoordList.add_true]
  rw [intersection, this]; rfl

/-- Cutting an array with its own envelope changes nothing. -/
theorem C59_own_envelope [FltOrd α] [FltLit α] (cs : List (Coord α)) (h : ∀ c ∈ cs, c.NN) :
    intersection cs (envelope cs) = cs := by
  rw [C59_intersection, List.filter_eq_self]
  intro c hc
  obtain ⟨h1, h2, h3⟩ := C02_covers_all cs h c hc
  have := C04_intersectsXY_eq_coversXY (envOf cs) h3 c.x c.y (h c hc).1 (h c hc).2
  exact this.trans h1

section examples
local notation "F" => Fl exactRounding
local notation "pt" => fun (x y : ℚ) => (Coord.xy (Fl.fin x) (Fl.fin y) : Coord F)
example : removeRepeatedOrInvalidPoints [pt 0 0, Coord.xy Fl.pinf (Fl.fin 0), pt 0 0, pt 1 1] =
    .ok [pt 0 0, pt 1 1] := by decide +kernel
example : (Coord.xy Fl.nan (Fl.fin 0) : Coord F).isValid = false ∧ (pt 1 1).isValid = true ∧
    (Coord.xy Fl.nan (Fl.fin 0) : Coord F).equals2D (pt 1 1) = false := by decide +kernel
example : (Coordinates.dimension (pt 1 2)) = 2 ∧ enforceConsistency [pt 1 2, pt 3 4] = [pt 1 2, pt 3 4] := by
  decide +kernel
/-- The measure 7 becomes 0. -/
example : enforceConsistency [pt 1 2, Coord.xym (Fl.fin 3) (Fl.fin 4) (Fl.fin 7)] =
    [Coord.xym (Fl.fin 1) (Fl.fin 2) (Fl.fin 0), Coord.xym (Fl.fin 3) (Fl.fin 4) (Fl.fin 0)] := by decide +kernel
example : intersection [pt 0 0, pt 5 5, pt 1 1] (envelope [pt 0 0, pt 2 2]) = [pt 0 0, pt 1 1] := by decide +kernel
end examples

end Verif.Props
