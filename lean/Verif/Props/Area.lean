import Verif.Props.OnLine
import Mathlib.Algebra.BigOperators.Group.List.Basic

set_option linter.unusedSectionVars false

/-! # C33: ring areas -/

namespace Verif.Spec
variable {K : Type} [Field K]

/-- Shoelace sum: twice the area enclosed by a closed ring, positive if counterclockwise. -/
def shoelace (ring : List (Coord K)) : K := ((segs ring).map (fun s => s.1.x * s.2.y - s.2.x * s.1.y)).sum

end Verif.Spec

namespace Verif.Props
open Flt Verif.Spec

section any
variable {α : Type} [Flt α]

/-- The loop as a fold over consecutive triples. -/
theorem area_fold (c0 : Coord α) (l : List (Coord α)) :
    Area.ofRingSigned (c0 :: l) =
      if (c0 :: l).length < 3 then .ok (lit 0)
      else .ok ((trips (c0 :: l)).foldl (fun s t => s +. (t.2.1.x -. c0.x) *. (t.1.y -. t.2.2.y)) (lit 0) /. lit 2) := by
  unfold Area.ofRingSigned
  split_ifs with h
  · rfl
  · rw [Res.get_lt (by simp : 0 < (c0 :: l).length)]
    simp only [Res.bind_ok, List.getElem_cons_zero]
    rw [forRange_foldl (trips (c0 :: l)) 1 ((c0 :: l).length - 1) (by simp) _
      (fun s t => s +. (t.2.1.x -. c0.x) *. (t.1.y -. t.2.2.y)) (by
        intro k hk s
        have hk' : k + 2 < (c0 :: l).length := by rw [length_trips] at hk; omega
        rw [getElem_trips, Nat.add_comm 1 k, Nat.add_sub_cancel, Res.get_lt (by omega : k + 1 < (c0 :: l).length),
          Res.get_lt hk', Res.get_lt (by omega : k < (c0 :: l).length)]
        rfl)]
    rfl

/-- The sequence version performs the same computation (every arithmetic). -/
theorem C33_sequence (s : CASeq α) : Area.ofRingSignedSeq s = Area.ofRingSigned s.coordinates ∧
    Area.ofRingSeq s = Area.ofRing s.coordinates := by
  have key : Area.ofRingSignedSeq s = Area.ofRingSigned s.coordinates := by
    unfold Area.ofRingSignedSeq Area.ofRingSigned
    by_cases h : s.coordinates.length < 3
    · simp [CASeq.size, h]
    · simp only [CASeq.size, h, if_false]
      push Not at h
      simp only [CASeq.getCoordinate]
      rw [Res.get_lt (show 0 < s.coordinates.length by omega), Res.get_lt (show 1 < s.coordinates.length by omega)]
      simp only [Res.bind_ok]
      -- the sums of the vector version
      let c := s.coordinates
      have hlen : 3 ≤ c.length := h
      let g : α → Coord α × Coord α × Coord α → α := fun a t => a +. (t.2.1.x -. c[0].x) *. (t.1.y -. t.2.2.y)
      have hv : ∀ k ≤ c.length - 2, forRange 1 (1 + k) (lit 0) (fun i sum => do
          let ci ← Res.get c i
          let cn ← Res.get c (i + 1)
          let cp ← Res.get c (i - 1)
          pure (sum +. (ci.x -. c[0].x) *. (cp.y -. cn.y))) = .ok (((trips c).take k).foldl g (lit 0)) := by
        intro k hk
        refine forRange_foldl ((trips c).take k) 1 (1 + k) (by rw [List.length_take, length_trips]; omega) _ g ?_ _
        intro j hj a
        have hj' : j < k ∧ j < c.length - 2 := by
          rw [List.length_take, length_trips] at hj; omega
        rw [List.getElem_take, getElem_trips, Nat.add_comm 1 j, Nat.add_sub_cancel, Res.get_lt (by omega : j + 1 < c.length),
          Res.get_lt (by omega : j + 2 < c.length), Res.get_lt (by omega : j < c.length)]
        rfl
      have he : c.length - 1 = 1 + (c.length - 2) := by omega
      have hV := hv (c.length - 2) le_rfl
      rw [← he] at hV
      change _ = (do
        let sum ← forRange 1 (c.length - 1) (lit 0) (fun i sum => do
          let ci ← Res.get c i
          let cn ← Res.get c (i + 1)
          let cp ← Res.get c (i - 1)
          pure (sum +. (ci.x -. c[0].x) *. (cp.y -. cn.y)))
        pure (sum /. lit 2))
      rw [hV]
      obtain ⟨st, e, _, _, _, h4⟩ := forRange_inv 1 (c.length - 1) (fun i (st : Area.St α) => do
          let p0 := { st.p0 with y := st.p1.y }
          let p1 := { st.p1 with x := st.p2.x, y := st.p2.y }
          let q ← Res.get c (i + 1)
          let p2 := st.p2.setCoordinate q
          let p2 := { p2 with x := p2.x -. c[0].x }
          pure (⟨p0, p1, p2, st.sum +. p1.x *. (p0.y -. p2.y)⟩ : Area.St α))
        (fun i st => (∀ q, c[i - 1]? = some q → st.p1.y = q.y) ∧ (∀ q, c[i]? = some q → st.p2.x = q.x -. c[0].x) ∧
          (∀ q, c[i]? = some q → st.p2.y = q.y) ∧ st.sum = ((trips c).take (i - 1)).foldl g (lit 0)) (by omega)
        (⟨Coordinates.createDimMeasures s.dimension s.measures,
          (Coordinates.createDimMeasures s.dimension s.measures : Coord α).setCoordinate c[0],
          { (Coordinates.createDimMeasures s.dimension s.measures : Coord α).setCoordinate c[1] with
            x := c[1].x -. c[0].x }, lit 0⟩ : Area.St α)
        (by
          refine ⟨?_, ?_, ?_, rfl⟩
          · intro q hq
            have : c[0]? = some c[0] := List.getElem?_eq_getElem (by omega)
            rw [Nat.sub_self, this] at hq; cases hq; rfl
          · intro q hq
            have : c[1]? = some c[1] := List.getElem?_eq_getElem (by omega)
            rw [this] at hq; cases hq; rfl
          · intro q hq
            have : c[1]? = some c[1] := List.getElem?_eq_getElem (by omega)
            rw [this] at hq; cases hq; rfl)
        (by
          rintro i st h1 h2 ⟨a1, a2, a3, a4⟩
          have hlt : i + 1 < c.length := by omega
          rw [Res.get_lt hlt]
          refine ⟨_, rfl, ?_, ?_, ?_, ?_⟩
          · intro q hq; rw [Nat.add_sub_cancel] at hq; exact a3 q hq
          · intro q hq; rw [List.getElem?_eq_getElem hlt] at hq; cases hq; rfl
          · intro q hq; rw [List.getElem?_eq_getElem hlt] at hq; cases hq; rfl
          · have b1 := a1 c[i - 1] (List.getElem?_eq_getElem (by omega))
            have b2 := a2 c[i] (List.getElem?_eq_getElem (by omega))
            have hj : i - 1 < (trips c).length := by simp; omega
            rw [Nat.add_sub_cancel]
            have : (trips c).take i = (trips c).take (i - 1) ++ [(trips c)[i - 1]] := by
              have := List.take_concat_get' (trips c) (i - 1) hj
              rw [show i - 1 + 1 = i by omega] at this
              exact this.symm
            rw [this, List.foldl_append, ← a4, getElem_trips]
            have e1 : i - 1 + 1 = i := by omega
            have e2 : i - 1 + 2 = i + 1 := by omega
            simp only [List.foldl_cons, List.foldl_nil, g, e1, e2, b1, b2, Coord.setCoordinate])
      refine Eq.trans (b := (do let st ← (Except.ok st : Res (Area.St α)); pure (st.sum /. lit 2))) ?_ ?_
      · rw [← e]; rfl
      · simp only [Res.bind_ok, h4, Nat.sub_sub]
  refine ⟨key, ?_⟩
  unfold Area.ofRingSeq Area.ofRing
  rw [key]

end any

section exact
variable {K : Type} [Field K] [LinearOrder K] [IsStrictOrderedRing K]

theorem foldl_add_sum {A : Type} (l : List A) (f : A → K) (a : K) : l.foldl (fun s t => s + f t) a = a + (l.map f).sum := by
  induction l generalizing a with
  | nil => simp
  | cons b l ih => simp [ih, add_assoc]

/-- Telescoping: the sum over triples against the sum over edges. -/
theorem trips_telescope (x0 : K) (a b : Coord K) (l : List (Coord K)) :
    ∃ y' : K, ((trips (a :: b :: l)).map (fun t => (t.2.1.x - x0) * (t.1.y - t.2.2.y))).sum
      + ((segs (a :: b :: l)).map (fun s => (s.1.x - x0) * s.2.y - (s.2.x - x0) * s.1.y)).sum
      = (a.x - x0) * b.y - (((b :: l).getLast (by simp)).x - x0) * y' := by
  induction l generalizing a b with
  | nil => exact ⟨a.y, by simp [trips]⟩
  | cons c l ih =>
    obtain ⟨y', h⟩ := ih b c
    refine ⟨y', ?_⟩
    rw [trips_cons, segs_cons, List.map_cons, List.map_cons, List.sum_cons, List.sum_cons]
    rw [List.getLast_cons (by simp)]
    linear_combination h

theorem shoelace_shift_x (x0 : K) (l : List (Coord K)) (hl : l ≠ []) :
    ((segs l).map (fun s => (s.1.x - x0) * s.2.y - (s.2.x - x0) * s.1.y)).sum
      = shoelace l - x0 * ((l.getLast hl).y - (l.head hl).y) := by
  unfold shoelace
  induction l with
  | nil => exact absurd rfl hl
  | cons a l ih =>
    cases l with
    | nil => simp
    | cons b l =>
      rw [segs_cons, List.map_cons, List.sum_cons, ih (by simp), List.map_cons, List.sum_cons, List.getLast_cons (by simp : b :: l ≠ [])]
      simp only [List.head_cons]; ring

/-- The signed area of a closed ring is minus half its shoelace sum (positive for clockwise rings); there is no panic. -/
theorem C33_shoelace (ring : List (Coord K)) (hc : Closed2D ring) :
    Area.ofRingSigned ring = .ok (-(shoelace ring) / 2) ∧ Area.ofRing ring = .ok (|shoelace ring| / 2) := by
  have main : Area.ofRingSigned ring = .ok (-(shoelace ring) / 2) := by
    match ring, hc with
    | [], _ => simp [Area.ofRingSigned, shoelace]
    | [a], _ => simp [Area.ofRingSigned, shoelace]
    | [a, b], hc =>
      have := hc a b rfl rfl
      simp [Area.ofRingSigned, shoelace, this.1, this.2]
    | a :: b :: c :: l, hc =>
      rw [area_fold]
      simp only [List.length_cons, show ¬ (l.length + 1 + 1 + 1 < 3) by omega, if_false]
      simp only [exact_add, exact_sub, exact_mul, exact_div, exact_lit, Int.cast_zero, Int.cast_ofNat]
      rw [foldl_add_sum (trips (a :: b :: c :: l)) (fun t => (t.2.1.x - a.x) * (t.1.y - t.2.2.y))]
      obtain ⟨y', h⟩ := trips_telescope a.x a b (c :: l)
      rw [shoelace_shift_x a.x (a :: b :: c :: l) (by simp)] at h
      have hz := hc a _ rfl (List.getLast?_eq_some_getLast (by simp))
      simp only [List.head_cons] at h
      rw [← hz.2] at h
      have hl : ((b :: c :: l).getLast (by simp)) = ((a :: b :: c :: l).getLast (by simp)) := by
        rw [List.getLast_cons (by simp : b :: c :: l ≠ [])]
      rw [hl, ← hz.1] at h
      have h2 : (((2 : ℚ)) : K) = 2 := by norm_num
      rw [h2, Rat.cast_zero]
      congr 1
      linear_combination h / 2
  refine ⟨main, ?_⟩
  unfold Area.ofRing
  rw [main]
  simp only [Res.bind_ok]
  show Except.ok _ = _
  rw [exact_abs, ← abs_eq_max_neg, abs_div, abs_neg, abs_of_pos (by norm_num : (0 : K) < 2)]

theorem shoelace_reverse (l : List (Coord K)) : shoelace l.reverse = -shoelace l := by
  unfold shoelace
  rw [segs_reverse, List.map_reverse, List.sum_reverse, List.map_map]
  induction segs l with
  | nil => simp
  | cons s r ih => rw [List.map_cons, List.sum_cons, List.map_cons, List.sum_cons, ih]; simp only [Function.comp, Prod.swap]; ring

/-- Reversing a closed ring negates the signed area and keeps the area. -/
theorem C33_reverse (ring : List (Coord K)) (hc : Closed2D ring) :
    ∃ a b, Area.ofRingSigned ring = .ok a ∧ Area.ofRingSigned ring.reverse = .ok (-a) ∧
      Area.ofRing ring = .ok b ∧ Area.ofRing ring.reverse = .ok b := by
  refine ⟨_, _, (C33_shoelace ring hc).1, ?_, (C33_shoelace ring hc).2, ?_⟩
  · rw [(C33_shoelace _ (closed2D_reverse ring hc)).1, shoelace_reverse]; congr 1; ring
  · rw [(C33_shoelace _ (closed2D_reverse ring hc)).2, shoelace_reverse, abs_neg]

/-- The vertex a closed ring starts at does not matter. -/
theorem C33_rotate (l : List (Coord K)) (k : Nat) :
    Area.ofRingSigned (closed (l.rotate k)) = Area.ofRingSigned (closed l) ∧
    Area.ofRing (closed (l.rotate k)) = Area.ofRing (closed l) := by
  have h : shoelace (closed (l.rotate k)) = shoelace (closed l) := by
    unfold shoelace
    exact ((segs_closed_rotate l k).map _).sum_eq
  rw [(C33_shoelace _ (closed2D_closed _)).1, (C33_shoelace _ (closed2D_closed _)).1, (C33_shoelace _ (closed2D_closed _)).2,
    (C33_shoelace _ (closed2D_closed _)).2, h]
  exact ⟨rfl, rfl⟩

theorem trips_map {A B : Type} (f : A → B) (l : List A) : trips (l.map f) = (trips l).map (fun t => (f t.1, f t.2.1, f t.2.2)) := by
  unfold trips
  rw [← List.map_tail, ← List.map_tail, List.zip_map, List.zip_map]
  rfl

/-- Moving a line does not change its signed area, scaling multiplies it by the square of the factor (closed or not). -/
theorem C33_move_scale (l : List (Coord K)) (u v k : K) :
    ∃ a, Area.ofRingSigned l = .ok a ∧ Area.ofRingSigned (l.map (shift u v)) = .ok a ∧
      Area.ofRingSigned (l.map (scale k)) = .ok (k ^ 2 * a) := by
  cases l with
  | nil => exact ⟨0, by simp [Area.ofRingSigned], by simp [Area.ofRingSigned], by simp [Area.ofRingSigned]⟩
  | cons c0 l =>
    rw [List.map_cons, List.map_cons, area_fold, area_fold, area_fold]
    simp only [List.length_cons, List.length_map]
    split_ifs with h
    · exact ⟨0, by simp, by simp, by simp⟩
    · refine ⟨_, rfl, ?_, ?_⟩
      · rw [← List.map_cons, trips_map, List.foldl_map]
        simp only [shift, exact_add, exact_sub, exact_mul, exact_div, add_sub_add_right_eq_sub]
      · rw [← List.map_cons, trips_map, List.foldl_map]
        simp only [scale, exact_add, exact_sub, exact_mul, exact_div, exact_lit, Int.cast_zero, Int.cast_ofNat]
        rw [foldl_add_sum _ (fun t : Coord K × Coord K × Coord K => (t.2.1.x - c0.x) * (t.1.y - t.2.2.y)),
          foldl_add_sum _ (fun t : Coord K × Coord K × Coord K => (k * t.2.1.x - k * c0.x) * (k * t.1.y - k * t.2.2.y))]
        congr 1
        have : ∀ t : List (Coord K × Coord K × Coord K),
            (t.map (fun t => (k * t.2.1.x - k * c0.x) * (k * t.1.y - k * t.2.2.y))).sum
              = k ^ 2 * (t.map (fun t => (t.2.1.x - c0.x) * (t.1.y - t.2.2.y))).sum := by
          intro t
          induction t with
          | nil => simp
          | cons a t ih => rw [List.map_cons, List.sum_cons, ih, List.map_cons, List.sum_cons]; ring
        rw [this]; ring

/-- The signed area of a ring is the sum of those of the triangles of the fan of its first vertex; a triangle counts minus half
its orientation determinant. -/
theorem C33_fan (a : Coord K) (l : List (Coord K)) :
    Area.ofRingSigned (closed (a :: l)) = .ok (((segs l).map (fun s => -(det a s.1 s.2) / 2)).sum) := by
  rw [(C33_shoelace _ (closed2D_closed _)).1]
  congr 1
  have key : ∀ l : List (Coord K), shoelace (closed (a :: l)) = ((segs l).map (fun s => det a s.1 s.2)).sum := by
    intro l
    unfold shoelace
    induction l with
    | nil => simp [closed]
    | cons u l ih =>
      cases l with
      | nil => simp [closed]
      | cons v l =>
        simp only [closed, List.take_succ_cons, List.take_zero, List.cons_append, segs_cons, List.map_cons, List.sum_cons] at ih ⊢
        rw [← ih]; unfold det; ring
  rw [key]
  induction segs l with
  | nil => simp
  | cons s r ih => rw [List.map_cons, List.sum_cons, List.map_cons, List.sum_cons, ← ih]; ring

/-- Cutting a ring along a chord from `a` to `b` splits the signed area. -/
theorem C33_cut (a b : Coord K) (l r : List (Coord K)) :
    ∃ A B, Area.ofRingSigned (a :: l ++ b :: r ++ [a]) = .ok (A + B) ∧
      Area.ofRingSigned (a :: l ++ [b, a]) = .ok A ∧ Area.ofRingSigned (a :: b :: r ++ [a]) = .ok B := by
  have hc : ∀ m : List (Coord K), Closed2D (a :: m ++ [a]) := by
    intro m u v h1 h2
    rw [List.getLast?_append] at h2
    simp at h1 h2; subst h1 h2; simp
  refine ⟨_, _, ?_, by rw [show a :: l ++ [b, a] = a :: (l ++ [b]) ++ [a] by simp, (C33_shoelace _ (hc _)).1],
    by rw [show a :: b :: r ++ [a] = a :: (b :: r) ++ [a] by simp, (C33_shoelace _ (hc _)).1]⟩
  rw [show a :: l ++ b :: r ++ [a] = a :: (l ++ b :: r) ++ [a] by simp, (C33_shoelace _ (hc _)).1]
  congr 1
  unfold shoelace
  rw [show a :: (l ++ b :: r) ++ [a] = (a :: l) ++ b :: (r ++ [a]) by simp, segs_join,
    show a :: (l ++ [b]) ++ [a] = (a :: l) ++ b :: [a] by simp, segs_join (a :: l) [a] b,
    show a :: (b :: r) ++ [a] = a :: b :: (r ++ [a]) by simp, segs_cons a b]
  simp only [List.map_append, List.sum_append, List.map_cons, List.sum_cons, segs_cons, segs_single, List.map_nil, List.sum_nil]
  ring

/-- A rectangle has area width times height. -/
theorem C33_rectangle (x0 x1 y0 y1 : K) :
    Area.ofRing [Coord.xy x0 y0, Coord.xy x0 y1, Coord.xy x1 y1, Coord.xy x1 y0, Coord.xy x0 y0] = .ok (|x1 - x0| * |y1 - y0|) := by
  rw [(C33_shoelace _ (by intro u v h1 h2; simp at h1 h2; subst h1 h2; simp)).2]
  congr 1
  rw [← abs_mul]
  have : shoelace [Coord.xy x0 y0, Coord.xy x0 y1, Coord.xy x1 y1, Coord.xy x1 y0, Coord.xy x0 y0]
      = (-2) * ((x1 - x0) * (y1 - y0)) := by
    simp only [shoelace, segs_cons, segs_single, Coord.xy, List.map_cons, List.map_nil, List.sum_cons, List.sum_nil]
    ring
  rw [this, abs_mul]; norm_num

end exact

section examples
local notation "pt" => fun (x y : ℚ) => (Coord.xy x y : Coord ℚ)
example : Area.ofRingSigned [pt 0 0, pt 4 0, pt 4 3, pt 0 0] = .ok (-6) ∧ Area.ofRing [pt 0 0, pt 4 0, pt 4 3, pt 0 0] = .ok 6 := by
  have h := C33_shoelace [pt 0 0, pt 4 0, pt 4 3, pt 0 0] (by intro u v h1 h2; simp at h1 h2; subst h1 h2; simp)
  rw [h.1, h.2]
  have : shoelace [pt 0 0, pt 4 0, pt 4 3, pt 0 0] = 12 := by
    simp only [shoelace, segs_cons, segs_single, Coord.xy, List.map_cons, List.map_nil, List.sum_cons, List.sum_nil]; norm_num
  rw [this]; norm_num
/-- The sum over an open line is not the shoelace sum: the last edge is missing. -/
theorem C33_open_line : Area.ofRingSigned [pt 0 0, pt 1 0, pt 1 1] = .ok (-1 / 2) ∧
    Area.ofRingSigned [pt 0 0, pt 1 0, pt 1 1, pt 2 2] ≠ Area.ofRingSigned [pt 0 0, pt 1 0, pt 1 1, pt 2 2, pt 0 0] := by
  constructor
  · rw [area_fold]; simp [trips, Coord.xy]
  · rw [area_fold, area_fold]; simp [trips, Coord.xy]
end examples

end Verif.Props
