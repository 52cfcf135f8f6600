import Verif.Model.RingAlgorithms
import Verif.Base.RealFlt
import Verif.Lemmas.Loop
import Verif.Spec.Metric

set_option linter.unusedSectionVars false

/-! # C35: length of lines -/

namespace Verif.Props
open Flt Verif.Spec

/-- (Every arithmetic.) The length is the left to right sum of the hypotenuses of the segments, 0 for fewer than two points; there
is no panic. -/
theorem C35_sum {α : Type} [FltSqrt α] (s : CASeq α) :
    Length.ofLine s = .ok (if s.coordinates.length ≤ 1 then lit 0 else
      (segs s.coordinates).foldl (fun a t => a +. FltSqrt.hypot (t.2.x -. t.1.x) (t.2.y -. t.1.y)) (lit 0)) := by
  unfold Length.ofLine
  by_cases h : s.coordinates.length ≤ 1
  · rw [if_pos h, if_pos (show s.size ≤ 1 from h)]; rfl
  · rw [if_neg h, if_neg (show ¬ s.size ≤ 1 from h)]
    simp only [CASeq.size, CASeq.getCoordinate]
    push Not at h
    rw [Res.get_lt (by omega : 0 < s.coordinates.length)]
    simp only [Res.bind_ok]
    let c := s.coordinates
    let g : α → Coord α × Coord α → α := fun a t => a +. FltSqrt.hypot (t.2.x -. t.1.x) (t.2.y -. t.1.y)
    have hl : 1 < c.length := h
    obtain ⟨st, e, h1, h2, h3⟩ := forRange_inv 1 c.length (fun i (st : α × α × α) => do
        let q ← Res.get c i
        pure (st.1 +. FltSqrt.hypot (q.x -. st.2.1) (q.y -. st.2.2), q.x, q.y))
      (fun i st => st.1 = ((segs c).take (i - 1)).foldl g (lit 0) ∧ (∀ q, c[i - 1]? = some q → st.2.1 = q.x) ∧
        (∀ q, c[i - 1]? = some q → st.2.2 = q.y)) (by omega) (lit 0, c[0].x, c[0].y)
      ⟨rfl, fun q hq => by
          rw [Nat.sub_self, List.getElem?_eq_getElem (by omega : 0 < c.length)] at hq; cases hq; rfl,
        fun q hq => by
          rw [Nat.sub_self, List.getElem?_eq_getElem (by omega : 0 < c.length)] at hq; cases hq; rfl⟩
      (by
        rintro i st i1 i2 ⟨a1, a2, a3⟩
        rw [Res.get_lt i2]
        refine ⟨_, rfl, ?_, ?_, ?_⟩
        · have hj : i - 1 < (segs c).length := by rw [length_segs]; omega
          have ht : (segs c).take i = (segs c).take (i - 1) ++ [(segs c)[i - 1]] := by
            have := List.take_concat_get' (segs c) (i - 1) hj
            rw [show i - 1 + 1 = i by omega] at this
            exact this.symm
          rw [Nat.add_sub_cancel, ht, List.foldl_append, ← a1, getElem_segs,
            a2 c[i - 1] (List.getElem?_eq_getElem (by omega)), a3 c[i - 1] (List.getElem?_eq_getElem (by omega))]
          have e1 : i - 1 + 1 = i := by omega
          simp only [List.foldl_cons, List.foldl_nil, g, e1]
        · intro q hq; rw [Nat.add_sub_cancel, List.getElem?_eq_getElem i2] at hq; cases hq; rfl
        · intro q hq; rw [Nat.add_sub_cancel, List.getElem?_eq_getElem i2] at hq; cases hq; rfl)
    refine Eq.trans (b := (do let st ← (Except.ok st : Res (α × α × α)); pure st.1)) ?_ ?_
    · rw [← e]
    · simp only [Res.bind_ok, h1]
      rw [List.take_of_length_le (by rw [length_segs])]
      rfl

theorem foldl_real {A : Type} (l : List A) (f : A → ℝ) (a : ℝ) : l.foldl (fun s t => s + f t) a = a + (l.map f).sum := by
  induction l generalizing a with
  | nil => simp
  | cons b l ih => simp [ih, add_assoc]

/-- In exact real arithmetic the length is the sum of the Euclidean lengths of the segments. -/
theorem C35_exact (s : CASeq ℝ) : Length.ofLine s = .ok (lineLength s.coordinates) := by
  rw [C35_sum]
  congr 1
  split_ifs with h
  · have : segs s.coordinates = [] := List.eq_nil_of_length_eq_zero (by rw [length_segs]; omega)
    simp [lineLength, this]
  · have := foldl_real (segs s.coordinates) (fun t => dist t.1 t.2) 0
    rw [zero_add] at this
    rw [lineLength, ← this]
    simp only [real_toFlt, exact_lit, Rat.cast_zero, exact_add, exact_sub, real_hypot]
    congr 1
    funext a t
    congr 1
    unfold Spec.dist
    congr 1
    ring

theorem lineLength_reverse (l : List (Coord ℝ)) : lineLength l.reverse = lineLength l := by
  unfold lineLength
  rw [segs_reverse, List.map_reverse, List.sum_reverse, List.map_map]
  congr 1
  refine List.map_congr_left ?_
  intro s _
  simp only [Function.comp, Prod.swap, dist_comm]

theorem lineLength_nonneg (l : List (Coord ℝ)) : 0 ≤ lineLength l := by
  unfold lineLength
  apply List.sum_nonneg
  intro v hv
  obtain ⟨s, _, rfl⟩ := List.mem_map.mp hv
  exact dist_nonneg _ _

theorem lineLength_ge (a b : Coord ℝ) (l : List (Coord ℝ)) (hb : (a :: l).getLast? = some b) :
    dist a b ≤ lineLength (a :: l) := by
  induction l generalizing a with
  | nil =>
    simp at hb; subst hb
    have : dist a a = 0 := (dist_eq_zero a a).mpr ⟨rfl, rfl⟩
    simp [lineLength, this]
  | cons c l ih =>
    have h := ih c (by simpa using hb)
    have t := dist_triangle a c b
    have e : lineLength (a :: c :: l) = dist a c + lineLength (c :: l) := by simp [lineLength]
    linarith

/-- Invariant under reversal, additive at a shared vertex, nonnegative, at least the distance of the ends, 0 for fewer than two
points. -/
theorem C35_laws (d m : Int) (a b : Coord ℝ) (l l' : List (Coord ℝ)) :
    Length.ofLine ⟨d, m, l.reverse⟩ = Length.ofLine ⟨d, m, l⟩ ∧
    (∃ u v, Length.ofLine ⟨d, m, l ++ a :: l'⟩ = .ok (u + v) ∧ Length.ofLine ⟨d, m, l ++ [a]⟩ = .ok u ∧
      Length.ofLine ⟨d, m, a :: l'⟩ = .ok v) ∧
    (∃ u, Length.ofLine ⟨d, m, l⟩ = .ok u ∧ 0 ≤ u) ∧
    (∀ u, Length.ofLine ⟨d, m, a :: l⟩ = .ok u → (a :: l).getLast? = some b → dist a b ≤ u) ∧
    (Length.ofLine (⟨d, m, []⟩ : CASeq ℝ) = .ok 0 ∧ Length.ofLine ⟨d, m, [a]⟩ = .ok 0) := by
  simp only [C35_exact]
  refine ⟨by rw [lineLength_reverse], ⟨_, _, ?_, rfl, rfl⟩, ⟨_, rfl, lineLength_nonneg l⟩, ?_, by simp [lineLength], by simp [lineLength]⟩
  · congr 1; simp only [lineLength, segs_join l l' a, List.map_append, List.sum_append]
  · intro u hu hb
    cases hu
    exact lineLength_ge a b l hb

/-- The length is 0 only if all points coincide. -/
theorem C35_zero (d m : Int) (a : Coord ℝ) (l : List (Coord ℝ)) :
    Length.ofLine ⟨d, m, a :: l⟩ = .ok 0 ↔ ∀ b ∈ l, b.x = a.x ∧ b.y = a.y := by
  rw [C35_exact]
  constructor
  · intro h
    have h0 : lineLength (a :: l) = 0 := by injection h
    clear h
    induction l generalizing a with
    | nil => simp
    | cons c l ih =>
      have e : lineLength (a :: c :: l) = dist a c + lineLength (c :: l) := by simp [lineLength]
      have p1 := dist_nonneg a c
      have p2 := lineLength_nonneg (c :: l)
      have d0 := (dist_eq_zero a c).mp (by linarith)
      have ih' := ih c (by linarith)
      intro b hb
      rcases List.mem_cons.mp hb with rfl | hb
      · exact ⟨d0.1.symm, d0.2.symm⟩
      · rw [d0.1, d0.2]; exact ih' b hb
  · intro h
    congr 1
    induction l generalizing a with
    | nil => simp [lineLength]
    | cons c l ih =>
      have e : lineLength (a :: c :: l) = dist a c + lineLength (c :: l) := by simp [lineLength]
      have hc := h c (by simp)
      simp only at *
      rw [e, (dist_eq_zero a c).mpr ⟨hc.1.symm, hc.2.symm⟩, ih c (fun b hb => by
        rw [hc.1, hc.2]; exact h b (by simp [hb]))]
      simp

example : Length.ofLine (⟨2, 0, [Coord.xy 0 0, Coord.xy 3 4, Coord.xy 3 6]⟩ : CASeq ℝ) = .ok 7 := by
  rw [C35_exact]
  have h1 : Real.sqrt 25 = 5 := by rw [show (25 : ℝ) = 5 ^ 2 by norm_num]; exact Real.sqrt_sq (by norm_num)
  have h2 : Real.sqrt 4 = 2 := by rw [show (4 : ℝ) = 2 ^ 2 by norm_num]; exact Real.sqrt_sq (by norm_num)
  congr 1
  simp only [lineLength, segs_cons, segs_single, List.map_cons, List.map_nil, List.sum_cons, List.sum_nil, Spec.dist, Coord.xy]
  norm_num [h1, h2]

end Verif.Props
