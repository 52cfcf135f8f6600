import Verif.Props.IntersectionMatrix
import Verif.Props.IntersectionPatterns
import Mathlib.Data.Set.Lattice

/-! # C133: what the relations of a DE-9IM matrix say about two point sets -/

namespace Verif.Props
open IM

/-- A geometry: every point of the space is in exactly one of interior (0), boundary (1) and exterior (2). -/
structure Parts (X : Type) where
  part : Fin 3 → Set X
  cover : ∀ x, ∃ i, x ∈ part i
  apart : ∀ x i j, x ∈ part i → x ∈ part j → i = j

namespace Parts
variable {X : Type}

/-- The points of the geometry: interior and boundary. -/
def points (A : Parts X) : Set X := A.part 0 ∪ A.part 1

theorem not_points (A : Parts X) (x : X) : x ∉ A.points ↔ x ∈ A.part 2 := by
  constructor
  · intro h
    obtain ⟨i, hi⟩ := A.cover x
    have : i = 0 ∨ i = 1 ∨ i = 2 := by omega
    rcases this with rfl | rfl | rfl
    · exact absurd (Or.inl hi) h
    · exact absurd (Or.inr hi) h
    · exact hi
  · rintro h (k | k)
    · exact absurd (A.apart x _ _ h k) (by decide)
    · exact absurd (A.apart x _ _ h k) (by decide)

end Parts

/-- A dimension of sets: -1 for the empty set and 0, 1 or 2 for all others. -/
structure IsDim {X : Type} (dim : Set X → Int) : Prop where
  empty : ∀ s, dim s = -1 ↔ s = ∅
  range : ∀ s, -1 ≤ dim s ∧ dim s ≤ 2

/-- The matrix of two geometries: each cell is the dimension of the common part. -/
def Describes {X : Type} (dim : Set X → Int) (a : IM) (A B : Parts X) : Prop := ∀ i j, a.m i j = dim (A.part i ∩ B.part j)

variable {X : Type} {dim : Set X → Int} {a : IM} {A B C : Parts X}

theorem cell_false (hd : IsDim dim) (h : Describes dim a A B) (i j : Fin 3) : a.m i j = -1 ↔ ∀ x, x ∈ A.part i → x ∉ B.part j := by
  rw [h, hd.empty]
  constructor
  · intro e x h1 h2
    exact Set.notMem_empty x (e ▸ ⟨h1, h2⟩)
  · intro k
    ext x
    exact ⟨fun ⟨h1, h2⟩ => absurd h2 (k x h1), fun k => k.elim⟩

theorem cell_true (hd : IsDim dim) (h : Describes dim a A B) (i j : Fin 3) : IM.isTrue (a.m i j) = true ↔ ∃ x, x ∈ A.part i ∧ x ∈ B.part j := by
  have k := cell_false hd h i j
  have r := (hd.range (A.part i ∩ B.part j)).1
  rw [← h] at r
  have e : IM.isTrue (a.m i j) = true ↔ ¬ a.m i j = -1 := by
    simp only [IM.isTrue, Dimension.TRUE]
    split_ifs with c
    · simp only [true_iff]; omega
    · simp only [false_iff, not_not]; omega
  rw [e, k]
  push Not
  rfl

/-- A geometry is inside another exactly if no part of it meets the exterior. -/
theorem subset_iff (A B : Parts X) : A.points ⊆ B.points ↔ (∀ x, x ∈ A.part 0 → x ∉ B.part 2) ∧ ∀ x, x ∈ A.part 1 → x ∉ B.part 2 := by
  constructor
  · intro h
    exact ⟨fun x hx k => ((B.not_points x).mpr k) (h (Or.inl hx)), fun x hx k => ((B.not_points x).mpr k) (h (Or.inr hx))⟩
  · rintro ⟨h1, h2⟩ x (hx | hx)
    · by_contra k; exact h1 x hx ((B.not_points x).mp k)
    · by_contra k; exact h2 x hx ((B.not_points x).mp k)

/-- C133: disjoint and intersects. -/
theorem C133_disjoint (hd : IsDim dim) (h : Describes dim a A B) :
    (a.isDisjoint = true ↔ A.points ∩ B.points = ∅) ∧ (a.isIntersects = true ↔ (A.points ∩ B.points).Nonempty) := by
  have e : a.isDisjoint = true ↔ A.points ∩ B.points = ∅ := by
    simp only [isDisjoint, Dimension.FALSE, Bool.and_eq_true, beq_iff_eq, cell_false hd h]
    constructor
    · rintro ⟨⟨⟨h1, h2⟩, h3⟩, h4⟩
      ext x
      refine ⟨?_, fun k => k.elim⟩
      rintro ⟨k1 | k1, k2 | k2⟩
      · exact h1 x k1 k2
      · exact h2 x k1 k2
      · exact h3 x k1 k2
      · exact h4 x k1 k2
    · intro e
      have key : ∀ x, x ∈ A.points → x ∉ B.points := fun x h1 h2 => Set.notMem_empty x (e ▸ ⟨h1, h2⟩)
      exact ⟨⟨⟨fun x k1 k2 => key x (Or.inl k1) (Or.inl k2), fun x k1 k2 => key x (Or.inl k1) (Or.inr k2)⟩, fun x k1 k2 => key x (Or.inr k1) (Or.inl k2)⟩,
        fun x k1 k2 => key x (Or.inr k1) (Or.inr k2)⟩
  refine ⟨e, ?_⟩
  rw [isIntersects, Bool.not_eq_true', ← Bool.not_eq_true, e, Set.nonempty_iff_ne_empty]

/-- C133: within, contains, covers, covered by and equals are inclusions of the point sets. -/
theorem C133_inclusions (hd : IsDim dim) (h : Describes dim a A B) :
    (a.isWithin = true ↔ A.points ⊆ B.points ∧ (A.part 0 ∩ B.part 0).Nonempty) ∧
    (a.isContains = true ↔ B.points ⊆ A.points ∧ (A.part 0 ∩ B.part 0).Nonempty) ∧
    (a.isCoveredBy = true ↔ A.points ⊆ B.points ∧ A.points.Nonempty) ∧
    (a.isCovers = true ↔ B.points ⊆ A.points ∧ B.points.Nonempty) ∧
    (∀ da db, a.isEquals da db = true ↔ da = db ∧ A.points = B.points ∧ (A.part 0 ∩ B.part 0).Nonempty) := by
  have sub1 : (a.m 0 2 = -1 ∧ a.m 1 2 = -1) ↔ A.points ⊆ B.points := by
    rw [cell_false hd h, cell_false hd h, subset_iff]
  have sub2 : (a.m 2 0 = -1 ∧ a.m 2 1 = -1) ↔ B.points ⊆ A.points := by
    rw [cell_false hd h, cell_false hd h, subset_iff]
    exact ⟨fun ⟨h1, h2⟩ => ⟨fun x k1 k2 => h1 x k2 k1, fun x k1 k2 => h2 x k2 k1⟩, fun ⟨h1, h2⟩ => ⟨fun x k1 k2 => h1 x k2 k1, fun x k1 k2 => h2 x k2 k1⟩⟩
  have inter : IM.isTrue (a.m 0 0) = true ↔ (A.part 0 ∩ B.part 0).Nonempty := cell_true hd h 0 0
  have common : (IM.isTrue (a.m 0 0) || IM.isTrue (a.m 0 1) || IM.isTrue (a.m 1 0) || IM.isTrue (a.m 1 1)) = true ↔ (A.points ∩ B.points).Nonempty := by
    simp only [Bool.or_eq_true, cell_true hd h]
    constructor
    · rintro (((⟨x, k1, k2⟩ | ⟨x, k1, k2⟩) | ⟨x, k1, k2⟩) | ⟨x, k1, k2⟩)
      · exact ⟨x, Or.inl k1, Or.inl k2⟩
      · exact ⟨x, Or.inl k1, Or.inr k2⟩
      · exact ⟨x, Or.inr k1, Or.inl k2⟩
      · exact ⟨x, Or.inr k1, Or.inr k2⟩
    · rintro ⟨x, k1 | k1, k2 | k2⟩
      · exact Or.inl (Or.inl (Or.inl ⟨x, k1, k2⟩))
      · exact Or.inl (Or.inl (Or.inr ⟨x, k1, k2⟩))
      · exact Or.inl (Or.inr ⟨x, k1, k2⟩)
      · exact Or.inr ⟨x, k1, k2⟩
  refine ⟨?_, ?_, ?_, ?_, ?_⟩
  · simp only [isWithin, Dimension.FALSE, Bool.and_eq_true, beq_iff_eq, inter, ← sub1]; tauto
  · simp only [isContains, Dimension.FALSE, Bool.and_eq_true, beq_iff_eq, inter, ← sub2]; tauto
  · unfold isCoveredBy
    dsimp only
    rw [Bool.and_eq_true, Bool.and_eq_true, common, beq_iff_eq, beq_iff_eq, and_assoc, Dimension.FALSE, sub1]
    exact ⟨fun ⟨⟨x, k1, _⟩, k⟩ => ⟨k, x, k1⟩, fun ⟨k, x, k1⟩ => ⟨⟨x, k1, k k1⟩, k⟩⟩
  · unfold isCovers
    dsimp only
    rw [Bool.and_eq_true, Bool.and_eq_true, common, beq_iff_eq, beq_iff_eq, and_assoc, Dimension.FALSE, sub2]
    exact ⟨fun ⟨⟨x, _, k1⟩, k⟩ => ⟨k, x, k1⟩, fun ⟨k, x, k1⟩ => ⟨⟨x, k k1, k1⟩, k⟩⟩
  · intro da db
    rw [Set.Subset.antisymm_iff, ← sub1, ← sub2, ← inter]
    unfold isEquals
    simp only [Dimension.FALSE]
    split_ifs with e
    · simp [e]
    · simp only [not_not] at e
      simp only [Bool.and_eq_true, beq_iff_eq, e, true_and]
      tauto

/-- C133: touching, crossing and overlapping. -/
theorem C133_meetings (hd : IsDim dim) (h : Describes dim a A B) (da db : Int) :
    (da ∈ [0, 1, 2] → db ∈ [0, 1, 2] → ¬ (da = 0 ∧ db = 0) →
      (a.isTouches da db = true ↔ A.part 0 ∩ B.part 0 = ∅ ∧ (A.points ∩ B.points).Nonempty)) ∧
    (da ∈ [0, 1, 2] → db ∈ [0, 1, 2] → da < db → (a.isCrosses da db = true ↔ (A.part 0 ∩ B.part 0).Nonempty ∧ (A.part 0 ∩ B.part 2).Nonempty)) ∧
    (da ∈ [0, 1, 2] → db ∈ [0, 1, 2] → db < da → (a.isCrosses da db = true ↔ (A.part 0 ∩ B.part 0).Nonempty ∧ (A.part 2 ∩ B.part 0).Nonempty)) ∧
    (a.isCrosses 1 1 = true ↔ dim (A.part 0 ∩ B.part 0) = 0) ∧
    (da = 0 ∨ da = 2 → (a.isOverlaps da da = true ↔ (A.part 0 ∩ B.part 0).Nonempty ∧ (A.part 0 ∩ B.part 2).Nonempty ∧ (A.part 2 ∩ B.part 0).Nonempty)) ∧
    (a.isOverlaps 1 1 = true ↔ dim (A.part 0 ∩ B.part 0) = 1 ∧ (A.part 0 ∩ B.part 2).Nonempty ∧ (A.part 2 ∩ B.part 0).Nonempty) := by
  have tr : ∀ i j, IM.isTrue (a.m i j) = true ↔ (A.part i ∩ B.part j).Nonempty := fun i j => cell_true hd h i j
  have touch : (a.m 0 0 = -1 ∧ (IM.isTrue (a.m 0 1) = true ∨ IM.isTrue (a.m 1 0) = true ∨ IM.isTrue (a.m 1 1) = true)) ↔ A.part 0 ∩ B.part 0 = ∅ ∧ (A.points ∩ B.points).Nonempty := by
    rw [h 0 0, hd.empty, tr, tr, tr]
    constructor
    · rintro ⟨k, (⟨x, k1, k2⟩ | ⟨x, k1, k2⟩ | ⟨x, k1, k2⟩)⟩
      · exact ⟨k, x, Or.inl k1, Or.inr k2⟩
      · exact ⟨k, x, Or.inr k1, Or.inl k2⟩
      · exact ⟨k, x, Or.inr k1, Or.inr k2⟩
    · rintro ⟨k, x, k1 | k1, k2 | k2⟩
      · exact absurd (k ▸ (⟨k1, k2⟩ : x ∈ A.part 0 ∩ B.part 0)) (Set.notMem_empty x)
      · exact ⟨k, Or.inl ⟨x, k1, k2⟩⟩
      · exact ⟨k, Or.inr (Or.inl ⟨x, k1, k2⟩)⟩
      · exact ⟨k, Or.inr (Or.inr ⟨x, k1, k2⟩)⟩
  simp only [List.mem_cons, List.not_mem_nil, or_false]
  refine ⟨?_, ?_, ?_, ?_, ?_, ?_⟩
  · intro h1 h2 h3
    rw [← touch]
    rcases h1 with rfl | rfl | rfl <;> rcases h2 with rfl | rfl | rfl <;>
      first
      | exact absurd ⟨rfl, rfl⟩ h3
      | simp [isTouches, touchesOrdered, Dimension.A, Dimension.L, Dimension.P, Dimension.FALSE, or_assoc]
  · intro h1 h2 h3
    rw [← tr, ← tr]
    rcases h1 with rfl | rfl | rfl <;> rcases h2 with rfl | rfl | rfl <;> first | omega | simp [isCrosses, Dimension.A, Dimension.L, Dimension.P]
  · intro h1 h2 h3
    rw [← tr, ← tr]
    rcases h1 with rfl | rfl | rfl <;> rcases h2 with rfl | rfl | rfl <;> first | omega | simp [isCrosses, Dimension.A, Dimension.L, Dimension.P]
  · rw [← h 0 0]; simp [isCrosses, Dimension.A, Dimension.L, Dimension.P]
  · intro h1
    rw [← tr, ← tr, ← tr]
    rcases h1 with rfl | rfl <;> simp [isOverlaps, Dimension.A, Dimension.P, and_assoc]
  · rw [← h 0 0, ← tr, ← tr]; simp [isOverlaps, Dimension.A, Dimension.L, Dimension.P, and_assoc]

/-- C133: the transposed matrix is the matrix of the exchanged geometries. -/
theorem C133_transpose (h : Describes dim a A B) : Describes dim a.transpose B A := by
  intro i j
  rw [(C23_transpose a i j).1, h, Set.inter_comm]

/-- C133: covering is transitive, and two geometries of which each covers the other are equal. -/
theorem C133_order (hd : IsDim dim) {b c : IM} (h1 : Describes dim a A B) (h2 : Describes dim b B C) (h3 : Describes dim c A C) :
    (a.isCovers = true → b.isCovers = true → c.isCovers = true) ∧ (a.isCoveredBy = true → b.isCoveredBy = true → c.isCoveredBy = true) ∧
    (a.isCovers = true → a.isCoveredBy = true → A.points = B.points) ∧ (a.isWithin = true → b.isCoveredBy = true → c.isCoveredBy = true) ∧
    (a.isCoveredBy = true → b.isDisjoint = true → c.isDisjoint = true) := by
  obtain ⟨w, -, q1, p1, -⟩ := C133_inclusions hd h1
  obtain ⟨-, -, q2, p2, -⟩ := C133_inclusions hd h2
  obtain ⟨-, -, q3, p3, -⟩ := C133_inclusions hd h3
  rw [p1, p2, p3, q1, q2, q3, w, (C133_disjoint hd h2).1, (C133_disjoint hd h3).1]
  refine ⟨fun k1 k2 => ⟨k2.1.trans k1.1, k2.2⟩, fun k1 k2 => ⟨k1.1.trans k2.1, k1.2⟩, fun k1 k2 => Set.Subset.antisymm k2.1 k1.1,
    fun k1 k2 => ⟨k1.1.trans k2.1, ?_⟩, fun k1 k2 => ?_⟩
  · obtain ⟨x, hx, -⟩ := k1.2
    exact ⟨x, Or.inl hx⟩
  · rw [Set.eq_empty_iff_forall_notMem] at k2 ⊢
    exact fun x hx => k2 x ⟨k1.1 hx.1, hx.2⟩

/-- An observation: two parts have a common piece of some dimension. -/
abbrev Seen := Fin 3 × Fin 3 × Int

/-- Recording all observations, starting from the matrix of two geometries without common points. -/
def record (l : List Seen) : Res IM := l.foldlM (fun m o => m.setAtLeast o.1 o.2.1 o.2.2) IM.default

/-- C133: a matrix filled by `set_at_least` from observations is the matrix of the geometries, if every observation is at most the dimension of the common part it is about, and the
dimension of each common part that is not empty is observed. -/
theorem C133_recorded (hd : IsDim dim) (l : List Seen) (sound : ∀ o ∈ l, o.2.2 ≤ dim (A.part o.1 ∩ B.part o.2.1))
    (complete : ∀ i j, (A.part i ∩ B.part j).Nonempty → (i, j, dim (A.part i ∩ B.part j)) ∈ l) :
    ∃ m, record l = .ok m ∧ Describes dim m A B := by
  have key : ∀ (l : List Seen) (m0 : IM), ∃ m, l.foldlM (fun m o => m.setAtLeast o.1 o.2.1 o.2.2) m0 = .ok m ∧
      (∀ i j, m0.m i j ≤ m.m i j) ∧ (∀ o ∈ l, o.2.2 ≤ m.m o.1 o.2.1) ∧ ∀ i j, m.m i j = m0.m i j ∨ ∃ o ∈ l, o.1 = i ∧ o.2.1 = j ∧ m.m i j = o.2.2 := by
    intro l
    induction l with
    | nil => intro m0; exact ⟨m0, rfl, fun _ _ => le_rfl, by simp, fun _ _ => Or.inl rfl⟩
    | cons o l ih =>
      intro m0
      obtain ⟨m1, e1, e2, e3⟩ := (C25_setAtLeast m0 o.1 o.2.1 o.2.2).1 o.1.2 o.2.1.2
      obtain ⟨m, f1, f2, f3, f4⟩ := ih m1
      change m1.m o.1 o.2.1 = max (m0.m o.1 o.2.1) o.2.2 at e2
      have up : ∀ i j, m0.m i j ≤ m1.m i j := by
        intro i j
        by_cases c : (i, j) = (o.1, o.2.1)
        · obtain ⟨rfl, rfl⟩ := Prod.mk.inj c
          rw [e2]; exact le_max_left _ _
        · rw [e3 i j c]
      refine ⟨m, ?_, fun i j => (up i j).trans (f2 i j), ?_, ?_⟩
      · rw [List.foldlM_cons, e1]; exact f1
      · intro o' ho'
        rcases List.mem_cons.mp ho' with rfl | ho'
        · exact (e2 ▸ le_max_right _ _ : o'.2.2 ≤ m1.m o'.1 o'.2.1).trans (f2 _ _)
        · exact f3 o' ho'
      · intro i j
        rcases f4 i j with k | ⟨o', k1, k2⟩
        · by_cases c : (i, j) = (o.1, o.2.1)
          · obtain ⟨rfl, rfl⟩ := Prod.mk.inj c
            rw [k, e2]
            rcases max_choice (m0.m o.1 o.2.1) o.2.2 with k | k
            · exact Or.inl k
            · exact Or.inr ⟨o, List.mem_cons_self, rfl, rfl, k⟩
          · exact Or.inl (k.trans (e3 i j c))
        · exact Or.inr ⟨o', List.mem_cons_of_mem _ k1, k2⟩
  obtain ⟨m, e1, e2, e3, e4⟩ := key l IM.default
  refine ⟨m, e1, fun i j => ?_⟩
  rcases Set.eq_empty_or_nonempty (A.part i ∩ B.part j) with k | k
  · rw [(hd.empty _).mpr k]
    rcases e4 i j with e | ⟨o, ho, rfl, rfl, e⟩
    · exact e
    · have h1 := sound o ho
      rw [(hd.empty _).mpr k, ← e] at h1
      exact le_antisymm h1 (e2 o.1 o.2.1)
  · refine le_antisymm ?_ (e3 _ (complete i j k))
    rcases e4 i j with e | ⟨o, ho, rfl, rfl, e⟩
    · rw [e]; exact (hd.range _).1
    · rw [e]; exact sound o ho

/-! Cases: on the whole numbers, the interval from `a` to `b` with its ends as boundary, and dimension 1 for sets that are not empty. -/

open Classical in
noncomputable def exDim (s : Set ℤ) : Int := if s = ∅ then -1 else 1

theorem ex_dim : IsDim exDim := by
  constructor <;> intro s <;> unfold exDim <;> split_ifs with h <;> simp [h]

def exInterval (a b : ℤ) : Parts ℤ where
  part i := if i = 0 then {x | a < x ∧ x < b} else if i = 1 then {x | (x = a ∨ x = b)} else {x | (x < a ∨ b < x) ∧ x ≠ a ∧ x ≠ b}
  cover x := by
    by_cases h1 : x = a ∨ x = b
    · exact ⟨1, by simpa using h1⟩
    · by_cases h2 : a < x ∧ x < b
      · exact ⟨0, by simpa using h2⟩
      · refine ⟨2, ?_⟩
        simp only [Set.mem_ofPred_eq, show (2 : Fin 3) ≠ 0 by decide, show (2 : Fin 3) ≠ 1 by decide, if_false]
        omega
  apart x i j h1 h2 := by
    fin_cases i <;> fin_cases j <;> first | rfl | (exfalso; simp at h1 h2; omega)

theorem ex_points {a b x : ℤ} (h : a ≤ b) : x ∈ (exInterval a b).points ↔ a ≤ x ∧ x ≤ b := by
  simp only [Parts.points, exInterval, Set.mem_union, if_true, Set.mem_ofPred_eq, show (1 : Fin 3) ≠ 0 by decide, if_false]
  omega

example : ∃ m, Describes exDim m (exInterval 2 5) (exInterval 0 9) ∧ m.isWithin = true ∧ m.isContains = false ∧ m.isTouches 1 1 = false := by
  refine ⟨⟨fun i j => exDim ((exInterval 2 5).part i ∩ (exInterval 0 9).part j)⟩, fun _ _ => rfl, ?_, ?_, ?_⟩
  · rw [(C133_inclusions ex_dim fun _ _ => rfl).1]
    refine ⟨fun x hx => ?_, 3, by simp [exInterval], by simp [exInterval]⟩
    rw [ex_points (by omega)] at hx ⊢
    omega
  · rw [← Bool.not_eq_true, (C133_inclusions ex_dim fun _ _ => rfl).2.1]
    rintro ⟨h, -⟩
    have := @h 0 ((ex_points (by omega)).mpr (by omega))
    rw [ex_points (by omega)] at this
    omega
  · rw [← Bool.not_eq_true, (C133_meetings ex_dim (fun _ _ => rfl) 1 1).1 (by simp) (by simp) (by omega)]
    rintro ⟨h, -⟩
    have : (3 : ℤ) ∈ (exInterval 2 5).part 0 ∩ (exInterval 0 9).part 0 := ⟨by simp [exInterval], by simp [exInterval]⟩
    rw [h] at this
    exact this

example : ∃ m, Describes exDim m (exInterval 0 2) (exInterval 2 5) ∧ m.isTouches 1 1 = true ∧ m.isDisjoint = false := by
  refine ⟨⟨fun i j => exDim ((exInterval 0 2).part i ∩ (exInterval 2 5).part j)⟩, fun _ _ => rfl, ?_, ?_⟩
  · rw [(C133_meetings ex_dim (fun _ _ => rfl) 1 1).1 (by simp) (by simp) (by omega)]
    refine ⟨?_, 2, (ex_points (by omega)).mpr (by omega), (ex_points (by omega)).mpr (by omega)⟩
    ext x
    simp [exInterval]
    omega
  · rw [← Bool.not_eq_true, (C133_disjoint ex_dim fun _ _ => rfl).1]
    intro h
    have : (2 : ℤ) ∈ (exInterval 0 2).points ∩ (exInterval 2 5).points := ⟨(ex_points (by omega)).mpr (by omega), (ex_points (by omega)).mpr (by omega)⟩
    rw [h] at this
    exact this

/-- Recording three observations. -/
example : (record [(0, 0, 1), (0, 2, 1), (0, 0, 0)]).map (fun m => (m.m 0 0, m.m 0 2, m.m 1 1)) = .ok (1, 1, -1) := by decide +kernel

end Verif.Props
