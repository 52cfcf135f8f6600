import Verif.Props.Agree
import Verif.Props.ArrayFilters
import Verif.Props.Length

set_option linter.unusedSectionVars false

/-! # C147: lines put together, parts of lines, and points left out -/

namespace Verif.Props
open Flt Verif.Spec

theorem LeastDist.union {p : Coord ℝ} {S T U : Coord ℝ → Prop} {d e : ℝ} (h : LeastDist p S d) (h' : LeastDist p T e) (hu : ∀ c, U c ↔ S c ∨ T c) :
    LeastDist p U (min d e) := by
  constructor
  · rcases le_total d e with k | k
    · obtain ⟨c, c1, c2⟩ := h.1
      exact ⟨c, (hu c).mpr (Or.inl c1), by rw [min_eq_left k, c2]⟩
    · obtain ⟨c, c1, c2⟩ := h'.1
      exact ⟨c, (hu c).mpr (Or.inr c1), by rw [min_eq_right k, c2]⟩
  · intro c hc
    rcases (hu c).mp hc with k | k
    · exact (min_le_left _ _).trans (h.2 c k)
    · exact (min_le_right _ _).trans (h'.2 c k)

/-- C147: the distance to a line is the smaller of the distances to its two parts. -/
theorem C147_distance (p c : Coord ℝ) (l m : List (Coord ℝ)) :
    ∃ d e, Distance.pointToSegmentString p (l ++ [c]) = .ok d ∧ Distance.pointToSegmentString p (c :: m) = .ok e ∧
      Distance.pointToSegmentString p (l ++ c :: m) = .ok (min d e) := by
  obtain ⟨d, d1, d2⟩ := C36_chain p (l ++ [c]) (by simp)
  obtain ⟨e, e1, e2⟩ := C36_chain p (c :: m) (by simp)
  obtain ⟨f, f1, f2⟩ := C36_chain p (l ++ c :: m) (by simp)
  refine ⟨d, e, d1, e1, ?_⟩
  rw [f1]
  congr 1
  refine f2.unique (LeastDist.union d2 e2 (fun w => ?_))
  unfold OnChain
  rw [segs_join]
  simp only [List.mem_append, List.mem_cons, List.not_mem_nil, or_false]
  constructor
  · rintro (⟨v, (hv | hv | hv), k⟩ | ⟨s, (hs | hs), k⟩)
    · exact Or.inl (Or.inl ⟨v, Or.inl hv, k⟩)
    · exact Or.inl (Or.inl ⟨v, Or.inr hv, k⟩)
    · exact Or.inr (Or.inl ⟨v, Or.inr hv, k⟩)
    · exact Or.inl (Or.inr ⟨s, hs, k⟩)
    · exact Or.inr (Or.inr ⟨s, hs, k⟩)
  · rintro ((⟨v, (hv | hv), k⟩ | ⟨s, hs, k⟩) | (⟨v, (hv | hv), k⟩ | ⟨s, hs, k⟩))
    · exact Or.inl ⟨v, Or.inl hv, k⟩
    · exact Or.inl ⟨v, Or.inr (Or.inl hv), k⟩
    · exact Or.inr ⟨s, Or.inl hs, k⟩
    · exact Or.inl ⟨v, Or.inr (Or.inl hv), k⟩
    · exact Or.inl ⟨v, Or.inr (Or.inr hv), k⟩
    · exact Or.inr ⟨s, Or.inr hs, k⟩

theorem segs_infix {A : Type} (u l v : List A) : ∀ s ∈ segs l, s ∈ segs (u ++ l ++ v) := by
  intro s hs
  match l, hs with
  | a :: l, hs =>
    rw [List.append_assoc, List.cons_append, segs_join]
    apply List.mem_append_right
    rw [← List.cons_append]
    rcases List.eq_nil_or_concat (a :: l) with e | ⟨k, b, e⟩
    · simp at e
    · rw [e] at hs ⊢
      simp only [List.concat_eq_append, List.append_assoc, List.cons_append, List.nil_append] at hs ⊢
      rw [segs_join]
      exact List.mem_append_left _ hs

/-- C147: a line is at most as far away as each part of it. -/
theorem C147_part (p : Coord ℝ) (u l v : List (Coord ℝ)) (hl : l ≠ []) :
    ∃ d e, Distance.pointToSegmentString p l = .ok d ∧ Distance.pointToSegmentString p (u ++ l ++ v) = .ok e ∧ e ≤ d := by
  obtain ⟨d, d1, ⟨w, w1, w2⟩, -⟩ := C36_chain p l hl
  obtain ⟨e, e1, -, e3⟩ := C36_chain p (u ++ l ++ v) (by simp [hl])
  refine ⟨d, e, d1, e1, ?_⟩
  rw [← w2]
  apply e3
  rcases w1 with ⟨x, hx, k⟩ | ⟨s, hs, k⟩
  · exact Or.inl ⟨x, by simp [hx], k⟩
  · exact Or.inr ⟨s, segs_infix u l v s hs, k⟩

section exact
variable {K : Type} [Field K] [LinearOrder K] [IsStrictOrderedRing K]

/-- C147: a point is on a line exactly if it is on one of its two parts. -/
theorem C147_on_line (p c : Coord K) (l m : List (Coord K)) :
    ∃ a b, PointLocation.isOnLine p (l ++ [c]) = .ok a ∧ PointLocation.isOnLine p (c :: m) = .ok b ∧
      PointLocation.isOnLine p (l ++ c :: m) = .ok (a || b) := by
  obtain ⟨a, a1, a2⟩ := C32_onLine p (l ++ [c])
  obtain ⟨b, b1, b2⟩ := C32_onLine p (c :: m)
  obtain ⟨d, d1, d2⟩ := C32_onLine p (l ++ c :: m)
  refine ⟨a, b, a1, b1, ?_⟩
  rw [d1]
  congr 1
  rw [Bool.eq_iff_iff, Bool.or_eq_true, a2, b2, d2]
  unfold OnLine
  rw [segs_join]
  simp only [List.mem_append, or_and_right, exists_or]

end exact

section any
variable {α : Type} [Flt α] [FltOrd α] [FltLit α]

/-- C147, every arithmetic: the envelope of two lines together is the join of their envelopes. -/
theorem C147_box (l m : List (Coord α)) (hl : ∀ c ∈ l, c.NN) (hm : ∀ c ∈ m, c.NN) (nl : l ≠ []) (nm : m ≠ []) :
    (CoordArrays.envelope (l ++ m)).equals ((CoordArrays.envelope l).expandToIncludeEnv (CoordArrays.envelope m)) = true := by
  have hlm : ∀ c ∈ l ++ m, c.NN := fun c hc => (List.mem_append.mp hc).elim (hl c) (hm c)
  have wf : ∀ k : List (Coord α), k ≠ [] → (∀ c ∈ k, c.NN) → (CoordArrays.envelope k).WF ∧ (CoordArrays.envelope k).isNull = false := by
    intro k nk hk
    obtain ⟨c, hc⟩ := List.exists_mem_of_ne_nil k nk
    exact ⟨(C02_covers_all k hk c hc).2.2, (C02_covers_all k hk c hc).2.1⟩
  obtain ⟨w1, n1⟩ := wf l nl hl
  obtain ⟨w2, n2⟩ := wf m nm hm
  obtain ⟨w3, n3⟩ := wf (l ++ m) (by simp [nl]) hlm
  have j := fun g hg => C05_expand_is_join _ _ g w1 w2 hg n1 n2
  have wj : ((CoordArrays.envelope l).expandToIncludeEnv (CoordArrays.envelope m)).WF :=
    wf_expandEnv _ _ w1 w2
  have e1 := (C59_envelope l hl).2.2.2 nl _ w3 (fun c hc => (C59_envelope (l ++ m) hlm).2.2.1 c (by simp [hc]))
  have e2 := (C59_envelope m hm).2.2.2 nm _ w3 (fun c hc => (C59_envelope (l ++ m) hlm).2.2.1 c (by simp [hc]))
  have c1 := (j _ w3).2.2.1 e1 e2
  have sub := fun e (he : e.WF) f (hf : f.WF) => (C05_covers_iff_subset (α := α) e f he hf)
  have c2 := (C59_envelope (l ++ m) hlm).2.2.2 (by simp [nl]) _ wj (by
    intro c hc
    rcases List.mem_append.mp hc with k | k
    · exact ((sub _ wj _ w1).mp (j _ w3).1).2.2 c.x c.y ((C59_envelope l hl).2.2.1 c k)
    · exact ((sub _ wj _ w2).mp (j _ w3).2.1).2.2 c.x c.y ((C59_envelope m hm).2.2.1 c k))
  exact (C05_covers_partial_order _ _ _ w3 wj w3).2.2.1 c1 c2

/-- C147, every arithmetic: leaving out points does not enlarge the envelope. -/
theorem C147_leave_out_box (l l' : List (Coord α)) (hl : ∀ c ∈ l, c.NN) (h : l'.Sublist l) (hn : l' ≠ []) :
    (CoordArrays.envelope l).covers (CoordArrays.envelope l') = true := by
  have hl' : ∀ c ∈ l', c.NN := fun c hc => hl c (h.subset hc)
  obtain ⟨c, hc⟩ := List.exists_mem_of_ne_nil l' hn
  exact (C59_envelope l' hl').2.2.2 hn _ (C02_covers_all l hl c (h.subset hc)).2.2 (fun c hc => (C59_envelope l hl).2.2.1 c (h.subset hc))

end any

/-- C147: leaving out points does not make a line longer. -/
theorem C147_leave_out (d m : Int) (l l' : List (Coord ℝ)) (h : l'.Sublist l) :
    ∃ L L', Length.ofLine ⟨d, m, l⟩ = .ok L ∧ Length.ofLine ⟨d, m, l'⟩ = .ok L' ∧ L' ≤ L := by
  refine ⟨_, _, C35_exact ⟨d, m, l⟩, C35_exact ⟨d, m, l'⟩, ?_⟩
  dsimp only
  have e : ∀ u w l, lineLength (u :: w :: l) = Spec.dist u w + lineLength (w :: l) := by
    intro u w l; unfold lineLength; rw [segs_cons, List.map_cons, List.sum_cons]
  have drop : ∀ (u v : Coord ℝ) (k : List (Coord ℝ)), lineLength (u :: k) ≤ Spec.dist u v + lineLength (v :: k) := by
    intro u v k
    cases k with
    | nil => simp [lineLength]; exact Spec.dist_nonneg _ _
    | cons w k =>
      rw [e, e]
      linarith [Spec.dist_triangle u v w]
  have key : ∀ {l l' : List (Coord ℝ)}, l'.Sublist l → ∀ u, lineLength (u :: l') ≤ lineLength (u :: l) := by
    intro l l' h
    induction h with
    | slnil => intro u; exact le_refl _
    | @cons l' l v _ ih =>
      intro u
      rw [e u v l]
      exact (drop u v _).trans (by linarith [ih v])
    | @cons_cons l' l v _ ih =>
      intro u
      rw [e, e]
      linarith [ih v]
  have mono : ∀ (u : Coord ℝ) (k : List (Coord ℝ)), lineLength k ≤ lineLength (u :: k) := by
    intro u k
    cases k with
    | nil => simp [lineLength]
    | cons w k => rw [e]; linarith [Spec.dist_nonneg u w]
  induction h with
  | slnil => exact le_refl _
  | cons v _ ih => exact ih.trans (mono v _)
  | cons_cons v h _ => exact key h v

/-- A line of three points, cut at its middle point, and the point (1, 1). -/
example : ∃ d e, Distance.pointToSegmentString (⟨1, 1, 0, 0⟩ : Coord ℝ) ([⟨0, 0, 0, 0⟩] ++ [⟨4, 0, 0, 0⟩]) = .ok d ∧
    Distance.pointToSegmentString (⟨1, 1, 0, 0⟩ : Coord ℝ) (⟨4, 0, 0, 0⟩ :: [⟨4, 4, 0, 0⟩]) = .ok e ∧
    Distance.pointToSegmentString (⟨1, 1, 0, 0⟩ : Coord ℝ) ([⟨0, 0, 0, 0⟩] ++ ⟨4, 0, 0, 0⟩ :: [⟨4, 4, 0, 0⟩]) = .ok (min d e) :=
  C147_distance _ _ _ _

/-- The last segment of that line as a part of it. -/
example : ∃ d e, Distance.pointToSegmentString (⟨1, 1, 0, 0⟩ : Coord ℝ) [⟨4, 0, 0, 0⟩, ⟨4, 4, 0, 0⟩] = .ok d ∧
    Distance.pointToSegmentString (⟨1, 1, 0, 0⟩ : Coord ℝ) ([⟨0, 0, 0, 0⟩] ++ [⟨4, 0, 0, 0⟩, ⟨4, 4, 0, 0⟩] ++ []) = .ok e ∧ e ≤ d :=
  C147_part _ _ _ _ (by simp)

/-- A point on the second part only. -/
example : PointLocation.isOnLine (⟨4, 2, 0, 0⟩ : Coord ℚ) ([⟨0, 0, 0, 0⟩] ++ [⟨4, 0, 0, 0⟩]) = .ok false ∧
    PointLocation.isOnLine (⟨4, 2, 0, 0⟩ : Coord ℚ) (⟨4, 0, 0, 0⟩ :: [⟨4, 4, 0, 0⟩]) = .ok true ∧
    PointLocation.isOnLine (⟨4, 2, 0, 0⟩ : Coord ℚ) ([⟨0, 0, 0, 0⟩] ++ ⟨4, 0, 0, 0⟩ :: [⟨4, 4, 0, 0⟩]) = .ok true := by decide +kernel

/-- Two lines side by side. -/
example : (CoordArrays.envelope ([⟨0, 0, 0, 0⟩, ⟨1, 2, 0, 0⟩] ++ [⟨5, 1, 0, 0⟩] : List (Coord ℚ))).equals
    ((CoordArrays.envelope [⟨0, 0, 0, 0⟩, ⟨1, 2, 0, 0⟩]).expandToIncludeEnv (CoordArrays.envelope [⟨5, 1, 0, 0⟩])) = true :=
  C147_box _ _ (fun _ _ => ⟨rfl, rfl⟩) (fun _ _ => ⟨rfl, rfl⟩) (by simp) (by simp)

/-- The middle point of a detour left out. -/
example : ∃ L L', Length.ofLine ⟨2, 0, [(⟨0, 0, 0, 0⟩ : Coord ℝ), ⟨1, 2, 0, 0⟩, ⟨2, 0, 0, 0⟩]⟩ = .ok L ∧
    Length.ofLine ⟨2, 0, [(⟨0, 0, 0, 0⟩ : Coord ℝ), ⟨2, 0, 0, 0⟩]⟩ = .ok L' ∧ L' ≤ L :=
  C147_leave_out _ _ _ _ ((List.Sublist.refl _).cons _ |>.cons_cons _)

end Verif.Props
