import Verif.Model.Coordinates
import Verif.Props.DDExact

/-! # C78: coordinates as records, and their equality tests in binary64 -/

namespace Verif.Props
open Flt Verif.Spec Verif.Binary64

section data
variable {α : Type} [Flt α]

/-- C78: what the constructors store. -/
theorem C78_constructors (x y z m : α) :
    (Coord.default : Coord α) = Coord.xy (lit 0) (lit 0) ∧ (Coord.defaultXYM : Coord α) = Coord.xym (lit 0) (lit 0) (lit 0) ∧
    (Coord.defaultXYZM : Coord α) = Coord.xyzm (lit 0) (lit 0) (lit 0) (lit 0) ∧
    Coord.xy x y = Coord.xyzm x y nan nan ∧ Coord.xyz x y z = Coord.xyzm x y z nan ∧ Coord.xym x y m = Coord.xyzm x y nan m ∧
    (Coord.xyzm x y z m).x = x ∧ (Coord.xyzm x y z m).y = y ∧ (Coord.xyzm x y z m).z = z ∧ (Coord.xyzm x y z m).m = m :=
  ⟨rfl, rfl, rfl, rfl, rfl, rfl, rfl, rfl, rfl, rfl⟩

omit [Flt α] in
/-- C78: an ordinate that has been set is read back, the other ordinates and the measure are kept. -/
theorem C78_ordinate (c : Coord α) (i j : Int) (v : α) (hi : 0 ≤ i) (hi2 : i ≤ 2) :
    (c.setOrdinate i v).getOrdinate i = some v ∧ (j ≠ i → (c.setOrdinate i v).getOrdinate j = c.getOrdinate j) ∧
    (c.setOrdinate i v).m = c.m ∧ c.getOrdinate 0 = some c.x ∧ c.getOrdinate 1 = some c.y ∧ c.getOrdinate 2 = some c.z := by
  have : i = 0 ∨ i = 1 ∨ i = 2 := by omega
  rcases this with rfl | rfl | rfl
  · refine ⟨rfl, fun h => ?_, rfl, rfl, rfl, rfl⟩
    simp [Coord.setOrdinate, Coord.getOrdinate, h]
  · refine ⟨rfl, fun h => ?_, rfl, rfl, rfl, rfl⟩
    simp [Coord.setOrdinate, Coord.getOrdinate, h]
  · refine ⟨rfl, fun h => ?_, rfl, rfl, rfl, rfl⟩
    simp [Coord.setOrdinate, Coord.getOrdinate, h]

omit [Flt α] in
/-- C78: every other index, among them that of the measure, has no value and cannot be set. -/
theorem C78_ordinate_other (c : Coord α) (i : Int) (v : α) (h : i < 0 ∨ 2 < i) : c.getOrdinate i = none ∧ c.setOrdinate i v = c := by
  have h0 : i ≠ 0 := by omega
  have h1 : i ≠ 1 := by omega
  have h2 : i ≠ 2 := by omega
  simp [Coord.getOrdinate, Coord.setOrdinate, h0, h1, h2]

omit [Flt α] in
/-- C78: copying makes an equal coordinate; setting from another leaves the measure. -/
theorem C78_copy (c d : Coord α) :
    Coord.fromCoordinate c = c ∧ (∀ i, (c.setCoordinate d).getOrdinate i = d.getOrdinate i) ∧ (c.setCoordinate d).m = c.m ∧
    (c.setCoordinate d = d ↔ c.m = d.m) := by
  refine ⟨rfl, fun i => rfl, rfl, ?_⟩
  obtain ⟨a1, a2, a3, a4⟩ := c
  obtain ⟨b1, b2, b3, b4⟩ := d
  simp [Coord.setCoordinate]

/-- C78: the coordinate made for a dimension and number of measures. -/
theorem C78_create (d m : Int) :
    (Coordinates.createDimMeasures 3 1 : Coord α) = Coord.xym (lit 0) (lit 0) (lit 0) ∧
    (Coordinates.createDimMeasures 4 1 : Coord α) = Coord.xyzm (lit 0) (lit 0) (lit 0) (lit 0) ∧
    (¬(d = 3 ∧ m = 1) → ¬(d = 4 ∧ m = 1) → (Coordinates.createDimMeasures d m : Coord α) = Coord.xy (lit 0) (lit 0)) ∧
    (Coordinates.createDim d : Coord α) = Coord.xy (lit 0) (lit 0) := by
  refine ⟨rfl, rfl, fun h1 h2 => ?_, ?_⟩
  · unfold Coordinates.createDimMeasures
    split_ifs <;> first | rfl | tauto
  · unfold Coordinates.createDim Coordinates.createDimMeasures
    split_ifs <;> first | rfl | omega

/-- C78: so it has that dimension, except that three dimensions without a measure, like every unknown request, give two. -/
theorem C78_create_dimension [FltOrd α] [FltLit α] (hn : isNaN (nan : α) = true) (d m : Int) :
    Coordinates.dimension (Coordinates.createDimMeasures d m : Coord α) = (if m = 1 ∧ (d = 3 ∨ d = 4) then d else 2) ∧
    Coordinates.measures (Coordinates.createDimMeasures d m : Coord α) = if m = 1 ∧ (d = 3 ∨ d = 4) then 1 else 0 := by
  have h0 : isNaN (lit 0 : α) = false := by
    have := FltLit.nn_lit (α := α) 0 (by norm_num)
    simpa using this
  by_cases h3 : d = 3 ∧ m = 1
  · obtain ⟨rfl, rfl⟩ := h3
    rw [(C78_create 0 0).1]
    simp [Coordinates.dimension, Coordinates.measures, Coord.isXY, Coord.isXYM, Coord.xym, h0, hn]
  · by_cases h4 : d = 4 ∧ m = 1
    · obtain ⟨rfl, rfl⟩ := h4
      rw [(C78_create 0 0).2.1]
      simp [Coordinates.dimension, Coordinates.measures, Coord.isXY, Coord.isXYM, Coord.isXYZM, Coord.xyzm, h0]
    · rw [(C78_create d m).2.2.1 h3 h4, if_neg (by tauto), if_neg (by tauto)]
      simp [Coordinates.dimension, Coordinates.measures, Coord.isXY, Coord.xy, h0, hn]

/-- C78: if x or y is not a number the coordinate counts as three-dimensional without a measure, whatever it holds. -/
theorem C78_dimension_nan (c : Coord α) (h : ¬c.NN) : Coordinates.dimension c = 3 ∧ Coordinates.measures c = 0 := by
  unfold Coord.NN at h
  unfold Coordinates.dimension Coordinates.measures Coord.isXY Coord.isXYM Coord.isXYZM
  cases hx : isNaN c.x <;> cases hy : isNaN c.y <;> simp_all

/-- C78: the kinds of coordinates by the ordinates that are numbers; no coordinate is of two kinds, and one with numeric x and y is of none exactly if
it has a height but no measure. -/
theorem C78_kinds (c : Coord α) :
    (c.isXY = true ↔ c.NN ∧ isNaN c.z = true ∧ isNaN c.m = true) ∧ (c.isXYM = true ↔ c.NN ∧ isNaN c.z = true ∧ isNaN c.m = false) ∧
    (c.isXYZM = true ↔ c.NN ∧ isNaN c.z = false ∧ isNaN c.m = false) ∧
    ¬ (c.isXY = true ∧ c.isXYM = true) ∧ ¬ (c.isXY = true ∧ c.isXYZM = true) ∧ ¬ (c.isXYM = true ∧ c.isXYZM = true) ∧
    (c.NN → ((c.isXY = false ∧ c.isXYM = false ∧ c.isXYZM = false) ↔ isNaN c.z = false ∧ isNaN c.m = true)) := by
  unfold Coord.isXY Coord.isXYM Coord.isXYZM Coord.NN
  cases isNaN c.x <;> cases isNaN c.y <;> cases isNaN c.z <;> cases isNaN c.m <;> simp

/-- C78: a coordinate is valid if x and y are finite; heights and measures do not matter. -/
theorem C78_valid (c : Coord α) : c.isValid = true ↔ isFinite c.x = true ∧ isFinite c.y = true := by
  unfold Coord.isValid
  cases isFinite c.x <;> cases isFinite c.y <;> simp

/-- C78: equality in space: equal in the plane, and the same height or none on both sides. -/
theorem C78_equals_3d (a b : Coord α) : a.equals3D b = true ↔
    a.equals2D b = true ∧ ((a.z ==. b.z) = true ∨ (isNaN a.z = true ∧ isNaN b.z = true)) := by
  unfold Coord.equals3D Coord.equals2D
  cases (a.x ==. b.x) <;> cases (a.y ==. b.y) <;> simp

/-- C78: on coordinates with numbers for x and y it is an equivalence. -/
theorem C78_equals_3d_equivalence [FltOrd α] (a b c : Coord α) (ha : a.NN) :
    a.equals3D a = true ∧ a.equals3D b = b.equals3D a ∧ (a.equals3D b = true → b.equals3D c = true → a.equals3D c = true) := by
  have sym : ∀ u v : α, (u ==. v) = (v ==. u) := fun u v => by
    rw [Bool.eq_iff_iff, FltOrd.eq_iff, FltOrd.eq_iff]
    exact ⟨fun ⟨p, q, r⟩ => ⟨q, p, r.symm⟩, fun ⟨p, q, r⟩ => ⟨q, p, r.symm⟩⟩
  have tr : ∀ u v w : α, (u ==. v) = true → (v ==. w) = true → (u ==. w) = true := fun u v w => by
    rw [FltOrd.eq_iff, FltOrd.eq_iff, FltOrd.eq_iff]
    exact fun ⟨p, _, r⟩ ⟨_, q, s⟩ => ⟨p, q, r.trans s⟩
  have nn : ∀ u v : α, (u ==. v) = true → isNaN u = false ∧ isNaN v = false := fun u v h => by
    rw [FltOrd.eq_iff] at h
    exact ⟨h.1, h.2.1⟩
  refine ⟨?_, ?_, ?_⟩
  · unfold Coord.equals3D
    have h1 : (a.x ==. a.x) = true := (FltOrd.eq_iff _ _).mpr ⟨ha.1, ha.1, rfl⟩
    have h2 : (a.y ==. a.y) = true := (FltOrd.eq_iff _ _).mpr ⟨ha.2, ha.2, rfl⟩
    rw [h1, h2]
    cases hz : isNaN a.z
    · have h3 : (a.z ==. a.z) = true := (FltOrd.eq_iff _ _).mpr ⟨hz, hz, rfl⟩
      rw [h3]; rfl
    · cases (a.z ==. a.z) <;> rfl
  · unfold Coord.equals3D
    rw [sym a.x, sym a.y, sym a.z, Bool.and_comm (isNaN a.z)]
  · unfold Coord.equals3D
    simp only [Bool.and_eq_true, Bool.or_eq_true]
    rintro ⟨⟨p1, p2⟩, p3⟩ ⟨⟨q1, q2⟩, q3⟩
    refine ⟨⟨tr _ _ _ p1 q1, tr _ _ _ p2 q2⟩, ?_⟩
    rcases p3 with p3 | ⟨p3, p4⟩
    · rcases q3 with q3 | ⟨q3, q4⟩
      · exact Or.inl (tr _ _ _ p3 q3)
      · rw [(nn _ _ p3).2] at q3; cases q3
    · rcases q3 with q3 | ⟨q3, q4⟩
      · rw [(nn _ _ q3).1] at p4; cases p4
      · exact Or.inr ⟨p3, q4⟩

end data

section tolerance
variable {sq : ℚ → Val} {hy : ℚ → ℚ → Val}

/-- Values that a binary64 variable can hold. -/
def Held : B64 sq hy → Prop
  | Fl.fin q => IsF64 q
  | _ => True

theorem rnd_neg' (q : ℚ) : (Fl.neg (Fl.round q : B64 sq hy)) = Fl.round (-q) := by
  have h1 : (Fl.round q : B64 sq hy) = rnd q := rfl
  have h2 : (Fl.round (-q) : B64 sq hy) = rnd (-q) := rfl
  rw [h1, h2]
  unfold rnd
  rw [near_neg]
  have p : (0 : ℚ) < 2 ^ 1024 := by positivity
  generalize (2 : ℚ) ^ 1024 = P at p
  by_cases c1 : P ≤ near q
  · rw [if_pos c1, if_neg (by linarith), if_pos (by linarith)]; rfl
  · by_cases c2 : near q ≤ -P
    · rw [if_neg c1, if_pos c2, if_pos (by linarith)]; rfl
    · rw [if_neg c1, if_neg c2, if_neg (by intro; apply c2; linarith), if_neg (by intro; apply c1; linarith)]; rfl

theorem abs_sub_comm64 (x y : B64 sq hy) : Flt.abs (x -. y) = Flt.abs (y -. x) := by
  cases x <;> cases y <;> try rfl
  rename_i p q
  change Fl.abs (Fl.round (p + -q) : B64 sq hy) = Fl.abs (Fl.round (q + -p))
  have e : q + -p = -(p + -q) := by ring
  rw [e, ← rnd_neg']
  generalize (Fl.round (p + -q) : B64 sq hy) = w
  cases w <;> try rfl
  change Fl.fin |_| = Fl.fin |_|
  rw [abs_neg]

/-- C78: comparing with a tolerance does not depend on the order of the arguments. -/
theorem C78_tolerance_symmetric (a b : Coord (B64 sq hy)) (t : B64 sq hy) :
    a.equals2DTol b t = b.equals2DTol a t ∧ a.equalInZ b t = b.equalInZ a t := by
  unfold Coord.equals2DTol Coord.equalInZ equalsWithTolerance
  rw [abs_sub_comm64 a.x, abs_sub_comm64 a.y, abs_sub_comm64 a.z]
  exact ⟨rfl, rfl⟩

/-- C78: a larger tolerance accepts more. -/
theorem C78_tolerance_mono (a b : Coord (B64 sq hy)) (s t : B64 sq hy) (hst : (s ≤. t) = true) :
    (a.equals2DTol b s = true → a.equals2DTol b t = true) ∧ (a.equalInZ b s = true → a.equalInZ b t = true) := by
  have tr : ∀ u : B64 sq hy, (u ≤. s) = true → (u ≤. t) = true := fun u h => by
    rw [FltOrd.le_iff] at h hst ⊢
    exact ⟨h.1, hst.2.1, h.2.2.trans hst.2.2⟩
  unfold Coord.equals2DTol Coord.equalInZ equalsWithTolerance
  refine ⟨fun h => ?_, tr _⟩
  cases h1 : (Flt.abs (a.x -. b.x) ≤. s)
  · rw [h1] at h; cases h
  · rw [h1] at h
    cases h2 : (Flt.abs (a.y -. b.y) ≤. s)
    · rw [h2] at h; cases h
    · rw [tr _ h1, tr _ h2]; rfl

/-- Two different numbers do not round to the same: the difference of two numbers of the format rounds to zero only if they are equal. -/
theorem near_sub_eq_zero {p q : ℚ} (hp : Rep p) (hq : Rep q) : near (p + -q) = 0 ↔ p = q := by
  constructor
  · intro h
    by_contra hne
    -- both are multiples of the least positive number
    have mult : ∀ v, Rep v → ∃ k : ℤ, v = k * 2 ^ (-1074 : ℤ) := by
      rintro v ⟨m, e, -, he, rfl⟩
      refine ⟨m * 2 ^ (e + 1074).toNat, ?_⟩
      push_cast
      rw [mul_assoc, ← zpow_natCast, ← two_add]
      congr 2
      omega
    obtain ⟨k, rfl⟩ := mult p hp
    obtain ⟨l, rfl⟩ := mult q hq
    have hkl : k ≠ l := fun h => hne (by rw [h])
    have e : (k : ℚ) * 2 ^ (-1074 : ℤ) + -(l * 2 ^ (-1074 : ℤ)) = (k - l : ℤ) * 2 ^ (-1074 : ℤ) := by push_cast; ring
    rw [e] at h
    have one : near (2 ^ (-1074 : ℤ)) = 2 ^ (-1074 : ℤ) := near_of_rep ⟨1, -1074, by norm_num, le_refl _, by push_cast; ring⟩
    have pos := two_pos (-1074)
    rcases lt_or_gt_of_ne hkl with h1 | h1
    · have : ((k - l : ℤ) : ℚ) * 2 ^ (-1074 : ℤ) ≤ -2 ^ (-1074 : ℤ) := by
        have : ((k - l : ℤ) : ℚ) ≤ -1 := by exact_mod_cast (by omega : k - l ≤ -1)
        nlinarith
      have := near_mono this
      rw [h, near_neg, one] at this
      linarith
    · have : (2 : ℚ) ^ (-1074 : ℤ) ≤ ((k - l : ℤ) : ℚ) * 2 ^ (-1074 : ℤ) := by
        have : (1 : ℚ) ≤ ((k - l : ℤ) : ℚ) := by exact_mod_cast (by omega : 1 ≤ k - l)
        nlinarith
      have := near_mono this
      rw [h, one] at this
      linarith
  · rintro rfl
    rw [add_neg_cancel, near_zero]

theorem equals_zero_fin (p q : ℚ) (hx : IsF64 p) (hy' : IsF64 q) :
    (Flt.abs ((Fl.fin p : B64 sq hy) -. Fl.fin q) ≤. Fl.fin 0) = true ↔ ∃ v, (Fl.fin p : B64 sq hy) = Fl.fin v ∧ (Fl.fin q : B64 sq hy) = Fl.fin v := by
  change (Flt.abs (Fl.round (p + -q) : B64 sq hy) ≤. Fl.fin 0) = true ↔ _
  have hr : (Fl.round (p + -q) : B64 sq hy) = rnd (p + -q) := rfl
  have key := near_sub_eq_zero hx.1 hy'.1
  constructor
  · intro h
    have : rnd (p + -q) = .fin 0 := by
      rw [hr] at h
      revert h
      generalize rnd (p + -q) = w
      intro h
      cases w with
      | fin v =>
        have h' : decide (|v| ≤ 0) = true := h
        have : v = 0 := abs_nonpos_iff.mp (of_decide_eq_true h')
        rw [this]
      | _ => cases h
    have := key.mp ((rnd_fin_iff _ _).mp this).1
    exact ⟨p, rfl, by rw [this]⟩
  · rintro ⟨v, h1, h2⟩
    cases h1; cases h2
    rw [hr, (rnd_fin_iff _ 0).mpr ⟨key.mpr rfl, by rw [abs_zero]; positivity⟩]
    change decide (|(0 : ℚ)| ≤ 0) = true
    decide

/-- Without tolerance, it is equality of finite numbers. -/
theorem equals_zero_tolerance (x y : B64 sq hy) (hx : Held x) (hy' : Held y) :
    equalsWithTolerance x y (lit 0) = true ↔ ∃ q, x = Fl.fin q ∧ y = Fl.fin q := by
  unfold equalsWithTolerance
  rw [lit64]
  cases x <;> cases y
  case fin.fin p q => exact equals_zero_fin p q hx hy'
  all_goals exact ⟨fun h => (by cases h), fun ⟨_, h1, h2⟩ => (by first | (cases h1; done) | cases h2)⟩

/-- C78: with tolerance zero the test is equality in the plane, for finite coordinates; infinite ones are not even equal to themselves. -/
theorem C78_tolerance_zero (a b : Coord (B64 sq hy)) (h1 : Held a.x) (h2 : Held a.y) (h3 : Held b.x) (h4 : Held b.y) :
    (a.equals2DTol b (lit 0) = true ↔ a.equals2D b = true ∧ a.isValid = true) ∧
    (a.isValid = false → ∀ t, (t <. Flt.pinf) = true → a.equals2DTol b t = false) := by
  have fe : ∀ x y : B64 sq hy, (∃ q, x = Fl.fin q ∧ y = Fl.fin q) ↔ (x ==. y) = true ∧ isFinite x = true := by
    intro x y
    cases x <;> cases y
    case fin.fin p q =>
      constructor
      · rintro ⟨v, h1, h2⟩
        cases h1; cases h2
        exact ⟨decide_eq_true rfl, rfl⟩
      · rintro ⟨h, -⟩
        have : p = q := of_decide_eq_true h
        exact ⟨p, rfl, by rw [this]⟩
    all_goals exact ⟨fun ⟨_, h1, h2⟩ => (by first | (cases h1; done) | cases h2), fun ⟨h1, h2⟩ => (by first | (cases h1; done) | cases h2)⟩
  constructor
  · rw [C78_valid]
    unfold Coord.equals2DTol Coord.equals2D
    have e1 := (equals_zero_tolerance a.x b.x h1 h3).trans (fe _ _)
    have e2 := (equals_zero_tolerance a.y b.y h2 h4).trans (fe _ _)
    cases g1 : equalsWithTolerance a.x b.x (lit 0)
    · rw [g1] at e1
      constructor
      · intro h; cases h
      · rintro ⟨h, i⟩
        refine absurd (e1.mpr ⟨?_, i.1⟩) Bool.false_ne_true
        cases g : (a.x ==. b.x)
        · rw [g] at h; cases h
        · rfl
    · rw [g1] at e1
      obtain ⟨f1, f2⟩ := e1.mp rfl
      cases g2 : equalsWithTolerance a.y b.y (lit 0)
      · rw [g2] at e2
        constructor
        · intro h; cases h
        · rintro ⟨h, i⟩
          refine absurd (e2.mpr ⟨?_, i.2⟩) Bool.false_ne_true
          cases g : (a.y ==. b.y)
          · rw [f1, g] at h; cases h
          · rfl
      · rw [g2] at e2
        obtain ⟨f3, f4⟩ := e2.mp rfl
        rw [f1, f3]
        exact ⟨fun _ => ⟨rfl, f2, f4⟩, fun _ => rfl⟩
  · intro h t ht
    have bad : ∀ x y : B64 sq hy, isFinite x = false → equalsWithTolerance x y t = false := by
      intro x y hx
      unfold equalsWithTolerance
      cases x with
      | fin q => cases hx
      | nan => rfl
      | pinf => cases y <;> cases t <;> first | rfl | cases ht
      | ninf => cases y <;> cases t <;> first | rfl | cases ht
    unfold Coord.isValid at h
    unfold Coord.equals2DTol
    cases hx : isFinite a.x
    · rw [bad _ _ hx]; rfl
    · cases hy' : isFinite a.y
      · rw [bad _ _ hy']; cases equalsWithTolerance a.x b.x t <;> rfl
      · rw [hx, hy'] at h; cases h

/-- C78: heights that are missing on both sides are not equal within any tolerance, although equality in space counts them as equal. -/
theorem C78_missing_heights (x y : ℚ) (t : B64 sq hy) :
    (Coord.xy (Fl.fin x) (Fl.fin y) : Coord (B64 sq hy)).equals3D (Coord.xy (Fl.fin x) (Fl.fin y)) = true ∧
    (Coord.xy (Fl.fin x) (Fl.fin y) : Coord (B64 sq hy)).equalInZ (Coord.xy (Fl.fin x) (Fl.fin y)) t = false := by
  constructor
  · rw [C78_equals_3d]
    refine ⟨?_, Or.inr ⟨rfl, rfl⟩⟩
    unfold Coord.equals2D
    rw [show ((Coord.xy (Fl.fin x) (Fl.fin y) : Coord (B64 sq hy)).x ==. (Coord.xy (Fl.fin x) (Fl.fin y) : Coord (B64 sq hy)).x) = true from decide_eq_true rfl,
      show ((Coord.xy (Fl.fin x) (Fl.fin y) : Coord (B64 sq hy)).y ==. (Coord.xy (Fl.fin x) (Fl.fin y) : Coord (B64 sq hy)).y) = true from decide_eq_true rfl]
    rfl
  · cases t <;> rfl

/-- Two neighbouring numbers: different without tolerance, equal with a small one. -/
example : let a : Coord X64 := Coord.xy (Fl.fin 1) (Fl.fin 2); let b : Coord X64 := Coord.xy (Fl.fin (1 + 1 / 2 ^ 52)) (Fl.fin 2)
    Held a.x ∧ Held b.x ∧ a.equals2DTol b (lit 0) = false ∧ a.equals2DTol b (Fl.fin (1 / 2 ^ 52)) = true := by
  refine ⟨f64_of (by decide +kernel), f64_of (by decide +kernel), by decide +kernel, by decide +kernel⟩

end tolerance
end Verif.Props
