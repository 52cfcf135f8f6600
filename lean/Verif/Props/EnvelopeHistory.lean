import Verif.Lemmas.Doubles

/-! # C84: histories of envelope operations in binary64, with shifts and enlargements -/

namespace Verif.Props
open Flt Verif.Spec Verif.Binary64

variable {sq : ℚ → Val} {hy : ℚ → ℚ → Val}

/-- All operations that change an envelope. -/
inductive EnvOp64 (sq : ℚ → Val) (hy : ℚ → ℚ → Val) where
  | compare (o : EnvOp (B64 sq hy))
  | translate (tx ty : B64 sq hy)
  | expandBy (d : B64 sq hy)
  | expandByXY (dx dy : B64 sq hy)

/-- Inputs are numbers; distances and shifts are finite. -/
def EnvOp64.Ok : EnvOp64 sq hy → Prop
  | .compare o => o.NN
  | .translate tx ty => isFinite tx = true ∧ isFinite ty = true
  | .expandBy d => isFinite d = true
  | .expandByXY dx dy => isFinite dx = true ∧ isFinite dy = true

/-- Effect of an operation on an envelope variable. -/
def EnvOp64.run (e : Env (B64 sq hy)) : EnvOp64 sq hy → Env (B64 sq hy)
  | .compare o => o.run e
  | .translate tx ty => e.translate tx ty
  | .expandBy d => e.expandBy d
  | .expandByXY dx dy => e.expandByXY dx dy

theorem fl_add_mono {x y t : B64 sq hy} (h : (x ≤. y) = true) (ht : isFinite t = true) : (x +. t ≤. y +. t) = true := by
  obtain ⟨c, rfl⟩ := finite_fin ht
  cases x <;> cases y <;> first | rfl | exact absurd h Bool.false_ne_true | skip
  · rename_i b
    show (Fl.ninf ≤. (Fl.fin b : B64 sq hy) +. Fl.fin c) = true
    rw [add_rnd]; unfold Fl.round binary64 rnd; simp only []; split_ifs <;> rfl
  · rename_i a b
    rw [add_rnd, add_rnd]
    exact rnd_le (by have : a ≤ b := of_decide_eq_true h; linarith)
  · rename_i a
    show ((Fl.fin a : B64 sq hy) +. Fl.fin c ≤. Fl.pinf) = true
    rw [add_rnd]; unfold Fl.round binary64 rnd; simp only []; split_ifs <;> rfl

theorem fl_num {x y : B64 sq hy} (h : (x ≤. y) = true) : x ≠ Fl.nan ∧ y ≠ Fl.nan := by
  constructor
  · rintro rfl; cases y <;> exact absurd h Bool.false_ne_true
  · rintro rfl; cases x <;> exact absurd h Bool.false_ne_true

theorem fl_not_gt {x y : B64 sq hy} (hx : x ≠ Fl.nan) (hy' : y ≠ Fl.nan) (h : ¬ (y <. x) = true) : (x ≤. y) = true := by
  cases x <;> cases y <;> first | rfl | exact absurd rfl hx | exact absurd rfl hy' | exact absurd rfl h | skip
  exact decide_eq_true (not_lt.mp fun hh => h (decide_eq_true hh))

theorem fl_add_num {x t : B64 sq hy} (hx : x ≠ Fl.nan) (ht : isFinite t = true) : x +. t ≠ Fl.nan ∧ x -. t ≠ Fl.nan := by
  obtain ⟨c, rfl⟩ := finite_fin ht
  cases x with
  | nan => exact absurd rfl hx
  | ninf => exact ⟨nofun, nofun⟩
  | pinf => exact ⟨nofun, nofun⟩
  | fin a =>
    constructor
    · rw [add_rnd]; unfold Fl.round binary64 rnd; simp only []; split_ifs <;> exact nofun
    · rw [sub_rnd]; unfold Fl.round binary64 rnd; simp only []; split_ifs <;> exact nofun

theorem wf_grow (e : Env (B64 sq hy)) (he : e.WF) (dx dy : B64 sq hy) (hx : isFinite dx = true) (hy' : isFinite dy = true) :
    (e.expandByXY dx dy).WF := by
  unfold Env.expandByXY
  by_cases hn : e.isNull = true
  · rw [if_pos hn]; exact he
  · rw [if_neg hn]
    obtain ⟨h1, h2⟩ := he.resolve_left hn
    simp only []
    split_ifs with hc
    · exact .inl Env.null_isNull
    · rw [Bool.or_eq_true, not_or] at hc
      exact .inr ⟨fl_not_gt (fl_add_num (fl_num h1).1 hx).2 (fl_add_num (fl_num h1).2 hx).1 hc.1,
        fl_not_gt (fl_add_num (fl_num h2).1 hy').2 (fl_add_num (fl_num h2).2 hy').1 hc.2⟩

theorem fl_sorted {x y : B64 sq hy} (h : (x ≤. y) = true) : ((if x <. y then (x, y) else (y, x)).1 ≤. (if x <. y then (x, y) else (y, x)).2) = true := by
  split_ifs with hl
  · exact h
  · rw [le_eq h hl]; rw [le_eq h hl] at h; exact h

theorem wf_shift (e : Env (B64 sq hy)) (he : e.WF) (tx ty : B64 sq hy) (hx : isFinite tx = true) (hy' : isFinite ty = true) :
    (e.translate tx ty).WF := by
  unfold Env.translate
  by_cases hn : e.isNull = true
  · rw [if_pos hn]; exact he
  · rw [if_neg hn]
    obtain ⟨h1, h2⟩ := he.resolve_left hn
    exact .inr ⟨fl_sorted (fl_add_mono h1 hx), fl_sorted (fl_add_mono h2 hy')⟩

/-- Every envelope obtained in binary64 by a history of constructions, inclusions, intersections, shifts and enlargements (or
reductions) from numbers, with finite shifts and distances, is null or has ordered sides that are numbers, although sums overflow. -/
theorem C84_history (ops : List (EnvOp64 sq hy)) (h : ∀ o ∈ ops, o.Ok) : (ops.foldl EnvOp64.run (Env.null : Env (B64 sq hy))).WF := by
  suffices ∀ e : Env (B64 sq hy), e.WF → (ops.foldl EnvOp64.run e).WF from this _ (.inl Env.null_isNull)
  induction ops with
  | nil => intro e he; exact he
  | cons o ops ih =>
    intro e he
    have ho := h o (by simp)
    apply ih (fun o ho => h o (by simp [ho]))
    cases o with
    | translate tx ty => exact wf_shift e he tx ty ho.1 ho.2
    | expandBy d => exact wf_grow e he d d ho ho
    | expandByXY dx dy => exact wf_grow e he dx dy ho.1 ho.2
    | compare o =>
      cases o with
      | setToNull => exact .inl Env.null_isNull
      | init p q => exact newCoordinates_wf p q ho.1 ho.2
      | single p => exact (Env.newCoordinate_box ho).wf
      | includeXY x y => exact wf_expandXY e he x y ho.1 ho.2
      | includeCoord p => exact wf_expandXY e he p.x p.y ho.1 ho.2
      | includeEnv p q => exact wf_expandEnv e _ he (newCoordinates_wf p q ho.1 ho.2)
      | intersectWith p q => exact wf_intersection e _ he (newCoordinates_wf p q ho.1 ho.2)

/-- Enlarged beyond the largest double and shifted, the sides stay in order. -/
example : ([.compare (.single (Coord.xy (Fl.fin 1) (Fl.fin 2))), .expandBy (Fl.fin max64), .expandBy (Fl.fin max64), .translate (Fl.fin (-3)) (Fl.fin 1)] :
    List (EnvOp64 (fun _ => .nan) (fun _ _ => .nan))).foldl EnvOp64.run Env.null = ⟨Fl.ninf, Fl.pinf, Fl.ninf, Fl.pinf⟩ := by
  decide +kernel

/-- Finite distances are needed: enlarging a box with an infinite side by an infinite distance gives a side that is not a number, and
neither an empty envelope nor one in order. -/
theorem C84_infinite_distance : ¬ ((Env.newCoordinate (Coord.xy (Fl.pinf : B64 sq hy) (Fl.fin 0))).expandBy Fl.pinf).WF := by
  intro h
  rcases h with h | ⟨h, -⟩ <;> exact absurd h Bool.false_ne_true

end Verif.Props
