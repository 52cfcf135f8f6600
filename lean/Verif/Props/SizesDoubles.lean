import Verif.Props.Envelope64
import Verif.Props.EnvelopeExact
import Verif.Props.Area64
import Verif.Props.Length64
import Verif.Props.PolygonMeasures

set_option linter.unusedSectionVars false

/-! # C129: sizes of boxes and polygons in double precision -/

namespace Verif.Props
open Flt Verif.Spec Verif.Binary64

variable {sq : ℚ → Val} {hy : ℚ → ℚ → Val}

/-! ## Sums of computed values -/

/-- A fold of sums or differences, `σ = 1` or `-1`, of computed values `f a` within `e a` of `E a`: if it does not overflow, it is that close to the exact sum. -/
theorem fold_err {A : Type} (op : B64 sq hy → B64 sq hy → B64 sq hy) (σ : ℚ) (hσ : σ = 1 ∨ σ = -1)
    (hop : ∀ x y v, op x y = Fl.fin v → ∃ a b, x = Fl.fin a ∧ y = Fl.fin b ∧ near (a + σ * b) = v) (f : A → B64 sq hy) (E e : A → ℝ) (l : List A)
    (hf : ∀ a ∈ l, ∀ w, f a = Fl.fin w → Rep w ∧ |(w : ℝ) - E a| ≤ e a) (s v : ℚ) (rs : Rep s) (h : l.foldl (fun x a => op x (f a)) (Fl.fin s) = Fl.fin v) :
    Rep v ∧ |(v : ℝ) - (s + σ * (l.map E).sum)| ≤ ((1 + 1 / 2 ^ 53) ^ l.length - 1) * (|(s : ℝ)| + (l.map (fun a => |E a| + e a)).sum) + (l.map e).sum := by
  induction l generalizing s with
  | nil =>
    have := fin_inj h
    subst this
    exact ⟨rs, by simp⟩
  | cons a l ih =>
    rw [List.foldl_cons] at h
    have hfin : ∃ t, op (Fl.fin s) (f a) = Fl.fin t := by
      have key : ∀ (l : List A) (x : B64 sq hy), l.foldl (fun x a => op x (f a)) x = Fl.fin v → ∃ t, x = Fl.fin t := by
        intro l
        induction l with
        | nil => intro x hx; exact ⟨v, hx⟩
        | cons b l ih2 =>
          intro x hx
          obtain ⟨t, ht⟩ := ih2 _ hx
          obtain ⟨p, _, hp, _⟩ := hop _ _ _ ht
          exact ⟨p, hp⟩
      exact key l _ h
    obtain ⟨t, ht⟩ := hfin
    obtain ⟨p, w, hp, hw, hn⟩ := hop _ _ _ ht
    have := fin_inj hp
    subst this
    obtain ⟨rw', hE⟩ := hf a (by simp) w hw
    rw [ht] at h
    have rt : Rep t := hn ▸ near_rep _
    obtain ⟨rv, hv⟩ := ih (fun b hb => hf b (by simp [hb])) t rt h
    refine ⟨rv, ?_⟩
    have rσ : Rep (σ * w) := by rcases hσ with rfl | rfl <;> simp [rw', rw'.neg]
    have e1 := (Rat.cast_le (K := ℝ)).mpr (near_add_rel rs rσ)
    rw [hn] at e1
    push_cast at e1
    have aσ : |(σ : ℝ)| = 1 := by rcases hσ with rfl | rfl <;> simp
    have e0 : 0 ≤ e a := (abs_nonneg _).trans hE
    have k1 : |(w : ℝ)| ≤ |E a| + e a := by have := abs_sub_abs_le_abs_sub (w : ℝ) (E a); linarith
    have k2 : |(s : ℝ) + σ * w| ≤ |(s : ℝ)| + (|E a| + e a) := by
      have := abs_add_le (s : ℝ) (σ * w)
      rw [abs_mul, aσ, one_mul] at this
      linarith
    have k3 : |(t : ℝ) - (s + σ * w)| ≤ (1 / 2 ^ 53) * (|(s : ℝ)| + (|E a| + e a)) := by
      rw [abs_sub_comm]
      refine e1.trans ?_
      rw [div_eq_mul_one_div, mul_comm]
      exact mul_le_mul_of_nonneg_left k2 (by positivity)
    have k4 : |(t : ℝ)| ≤ (1 + 1 / 2 ^ 53) * (|(s : ℝ)| + (|E a| + e a)) := by
      have := abs_sub_abs_le_abs_sub (t : ℝ) (s + σ * w)
      linarith
    have k5 : |(σ : ℝ) * w - σ * E a| ≤ e a := by rw [← mul_sub, abs_mul, aσ, one_mul]; exact hE
    simp only [List.map_cons, List.sum_cons, List.length_cons]
    set S := (l.map E).sum
    set T := (l.map (fun a => |E a| + e a)).sum with hT
    have T0 : 0 ≤ T := by
      refine List.sum_nonneg ?_
      intro x hx
      obtain ⟨b, hb, rfl⟩ := List.mem_map.mp hx
      have hb' := hf b (by simp [hb])
      -- the value of b is finite too, so its error is nonnegative
      have key : ∀ (l : List A) (x : B64 sq hy), l.foldl (fun x a => op x (f a)) x = Fl.fin v → ∀ b ∈ l, ∃ w, f b = Fl.fin w := by
        intro l
        induction l with
        | nil => intro x _ b hb; simp at hb
        | cons c l ih2 =>
          intro x hx b hb
          rcases List.mem_cons.mp hb with rfl | hb
          · have key2 : ∀ (l : List A) (x : B64 sq hy), l.foldl (fun x a => op x (f a)) x = Fl.fin v → ∃ t, x = Fl.fin t := by
              intro l
              induction l with
              | nil => intro x hx; exact ⟨v, hx⟩
              | cons b l ih3 =>
                intro x hx
                obtain ⟨t, ht⟩ := ih3 _ hx
                obtain ⟨p, _, hp, _⟩ := hop _ _ _ ht
                exact ⟨p, hp⟩
            obtain ⟨t, ht⟩ := key2 l _ hx
            obtain ⟨_, q, _, hq, _⟩ := hop _ _ _ ht
            exact ⟨q, hq⟩
          · exact ih2 _ hx b hb
      obtain ⟨w, hw⟩ := key l _ h b hb
      have := (abs_nonneg _).trans (hb' w hw).2
      have := abs_nonneg (E b)
      linarith
    set X := |(s : ℝ)| + (|E a| + e a) with hX
    have X0 : 0 ≤ X := by have := abs_nonneg (s : ℝ); have := abs_nonneg (E a); linarith
    have q1 : (1 : ℝ) ≤ (1 + 1 / 2 ^ 53) ^ l.length := one_le_pow₀ (by norm_num)
    have q2 : (1 + 1 / 2 ^ 53 : ℝ) ^ (l.length + 1) = (1 + 1 / 2 ^ 53) ^ l.length * (1 + 1 / 2 ^ 53) := pow_succ _ _
    rw [q2]
    generalize (1 + 1 / 2 ^ 53 : ℝ) ^ l.length = P at *
    have e3 : (v : ℝ) - (s + σ * (E a + S)) = (v - (t + σ * S)) + ((t - (s + σ * w)) + (σ * w - σ * E a)) := by ring
    have k6 := abs_add_le ((v : ℝ) - (t + σ * S)) ((t - (s + σ * w)) + (σ * w - σ * E a))
    have k7 := abs_add_le ((t : ℝ) - (s + σ * w)) (σ * w - σ * E a)
    rw [e3]
    have k8 : (P - 1) * (|(t : ℝ)| + T) ≤ (P - 1) * ((1 + 1 / 2 ^ 53) * X + T) := mul_le_mul_of_nonneg_left (by linarith) (by linarith)
    have k9 : (P - 1) * ((1 + 1 / 2 ^ 53) * X + T) + 1 / 2 ^ 53 * X ≤ (P * (1 + 1 / 2 ^ 53) - 1) * (X + T) := by
      have : 0 ≤ P * (1 / 2 ^ 53) * T := mul_nonneg (mul_nonneg (by linarith) (by norm_num)) T0
      linarith
    have e4 : |(s : ℝ)| + (|E a| + e a + T) = X + T := by rw [hX]; ring
    rw [e4]
    linarith

theorem sub_op (x y : B64 sq hy) (v : ℚ) (h : x -. y = Fl.fin v) : ∃ a b, x = Fl.fin a ∧ y = Fl.fin b ∧ near (a + -1 * b) = v := by
  obtain ⟨a, b, h1, h2, h3, _⟩ := sub64 h
  exact ⟨a, b, h1, h2, by rw [← h3]; congr 1; ring⟩

theorem add_op (x y : B64 sq hy) (v : ℚ) (h : x +. y = Fl.fin v) : ∃ a b, x = Fl.fin a ∧ y = Fl.fin b ∧ near (a + 1 * b) = v := by
  obtain ⟨a, b, h1, h2, h3, _⟩ := add64 h
  exact ⟨a, b, h1, h2, by rw [← h3, one_mul]⟩

/-! ## Polygons -/

/-- The rings of the polygon are these, with doubles as ordinates, closed, and with at most 2^50 points each. -/
structure Rings64 (p : Polygon (B64 sq hy)) (shell : List (Coord ℚ)) (holes : List (List (Coord ℚ))) : Prop where
  shell_eq : p.shell.points.coordinates = shell.map toB64
  holes_eq : p.holes.map (fun h => h.points.coordinates) = holes.map (fun h => h.map toB64)
  f64 : ∀ r ∈ shell :: holes, ∀ c ∈ r, IsF64 c.x ∧ IsF64 c.y
  closed : ∀ r ∈ shell :: holes, Closed2D r
  few : ∀ r ∈ shell :: holes, r.length ≤ 2 ^ 50

/-- The bound of C87 on the error of the area of a ring. -/
def ringErr (r : List (Coord ℚ)) : ℚ := (r.length + 2) / 2 ^ 52 * areaSize r + r.length * 2 ^ (-1074 : ℤ)

/-- The bound on the error of the area of a polygon: the errors of the rings and one rounding for each hole. -/
noncomputable def polyErr (shell : List (Coord ℚ)) (holes : List (List (Coord ℚ))) : ℝ :=
  (1 + 1 / 2 ^ 53) ^ holes.length * (((shell :: holes).map ringErr).sum : ℚ) + ((1 + 1 / 2 ^ 53) ^ holes.length - 1) * (((shell :: holes).map ringArea).sum : ℚ)

theorem area_rep {l : List (Coord (B64 sq hy))} {v : ℚ} (h : Area.ofRing l = .ok (Fl.fin v)) : Rep v := by
  unfold Area.ofRing at h
  match l with
  | [] =>
    have : Except.ok (Flt.abs (lit 0 : B64 sq hy)) = Except.ok (Fl.fin v) := h
    rw [lit64] at this
    have := fin_inj (Except.ok.inj this)
    subst this
    simpa using rep_zero
  | c0 :: l =>
    rw [area_fold] at h
    split_ifs at h with h3
    · have : Except.ok (Flt.abs (lit 0 : B64 sq hy)) = Except.ok (Fl.fin v) := h
      rw [lit64] at this
      have := fin_inj (Except.ok.inj this)
      subst this
      simpa using rep_zero
    · rw [Res.bind_ok] at h
      have h := Except.ok.inj h
      rw [two_lit64] at h
      generalize hx : (List.foldl _ _ _ : B64 sq hy) /. Fl.fin 2 = x at h
      match x, h with
      | Fl.fin w, h =>
        have := fin_inj h
        subst this
        obtain ⟨s, -, -, n1, -⟩ := div64 hx
        have : Rep w := n1 ▸ near_rep _
        rcases abs_choice w with h | h <;> rw [h]
        · exact this
        · exact this.neg

/-- One ring. -/
theorem ring_value (s : CASeq (B64 sq hy)) (r : List (Coord ℚ)) (hs : s.coordinates = r.map toB64) (hr : ∀ c ∈ r, IsF64 c.x ∧ IsF64 c.y) (hc : Closed2D r) (hn : r.length ≤ 2 ^ 50) :
    ∃ a, Area.ofRingSeq s = .ok a ∧ ∀ w, a = Fl.fin w → Rep w ∧ |(w : ℝ) - (ringArea r : ℚ)| ≤ (ringErr r : ℚ) := by
  obtain ⟨a, a1, a2, a3⟩ := C87_absolute (sq := sq) (hy := hy) r hr hc hn s hs
  refine ⟨a, a2, ?_⟩
  rintro w rfl
  obtain ⟨v, v1, v2⟩ := a3 rfl
  have := fin_inj v1
  subst this
  refine ⟨area_rep a1, ?_⟩
  have := (Rat.cast_le (K := ℝ)).mpr v2
  rw [Rat.cast_abs, Rat.cast_sub] at this
  exact this


/-- C129: the area of a polygon with closed rings of doubles, unless it overflows, is as accurate as the areas of its rings and the number of holes permit. -/
theorem C129_polygon_area (p : Polygon (B64 sq hy)) (shell : List (Coord ℚ)) (holes : List (List (Coord ℚ))) (h : Rings64 p shell holes) :
    ∃ a, p.getArea = .ok a ∧ ∀ v, a = Fl.fin v → Rep v ∧ |(v : ℝ) - (ringsArea (shell :: holes) : ℚ)| ≤ polyErr shell holes := by
  have hlen : p.holes.length = holes.length := by have := congrArg List.length h.holes_eq; simpa using this
  have hcoord : ∀ k (hk : k < p.holes.length), p.holes[k].points.coordinates = (holes[k]'(hlen ▸ hk)).map toB64 := by
    intro k hk
    have := List.getElem_of_eq h.holes_eq (i := k) (by simpa using hk)
    simpa using this
  obtain ⟨a0, a1, a2⟩ := ring_value p.shell.getSeq shell h.shell_eq (h.f64 _ (by simp)) (h.closed _ (by simp)) (h.few _ (by simp))
  have hval : ∀ r : List (Coord ℚ), ∃ a : B64 sq hy, ∀ r' ∈ holes, r = r' → (∀ s : CASeq (B64 sq hy), s.coordinates = r.map toB64 → Area.ofRingSeq s = .ok a) ∧
      ∀ w, a = Fl.fin w → Rep w ∧ |(w : ℝ) - (ringArea r : ℚ)| ≤ (ringErr r : ℚ) := by
    intro r
    by_cases hm : r ∈ holes
    · obtain ⟨a, b1, b2, b3⟩ := C87_absolute (sq := sq) (hy := hy) r (h.f64 r (by simp [hm])) (h.closed r (by simp [hm])) (h.few r (by simp [hm])) (CASeq.ofCoordinates (r.map toB64)) rfl
      refine ⟨a, fun r' _ _ => ⟨fun s hs => ?_, ?_⟩⟩
      · rw [(C33_sequence s).2, hs, b1]
      · rintro w rfl
        obtain ⟨v, v1, v2⟩ := b3 rfl
        have := fin_inj v1
        subst this
        refine ⟨area_rep b1, ?_⟩
        have := (Rat.cast_le (K := ℝ)).mpr v2
        rw [Rat.cast_abs, Rat.cast_sub] at this
        exact this
    · exact ⟨Fl.nan, fun r' hr' e => absurd (e ▸ hr') hm⟩
  choose f hf using hval
  have hfold : p.getArea = .ok (holes.foldl (fun s r => s -. f r) ((lit 0 : B64 sq hy) +. a0)) := by
    rw [Polygon.getArea, a1, Res.bind_ok, hlen]
    refine forRange_foldl_mem holes _ (fun s r => s -. f r) _ ?_
    intro k hk s
    rw [Res.get_lt (hlen ▸ hk), Res.bind_ok, ((hf holes[k]) _ (List.getElem_mem hk) rfl).1 p.holes[k].getSeq (hcoord k (hlen ▸ hk))]
    rfl
  refine ⟨_, hfold, ?_⟩
  intro v hv
  have h0 : ∃ s, (lit 0 : B64 sq hy) +. a0 = Fl.fin s := by
    have key : ∀ (l : List (List (Coord ℚ))) (x : B64 sq hy), l.foldl (fun x a => x -. f a) x = Fl.fin v → ∃ t, x = Fl.fin t := by
      intro l
      induction l with
      | nil => intro x hx; exact ⟨v, hx⟩
      | cons b l ih2 =>
        intro x hx
        obtain ⟨t, ht⟩ := ih2 _ hx
        obtain ⟨p, _, hp, _⟩ := sub_op _ _ _ ht
        exact ⟨p, hp⟩
    exact key _ _ hv
  obtain ⟨s, hs⟩ := h0
  obtain ⟨z, w, hz, hw, hn, _⟩ := add64 hs
  rw [lit64] at hz
  have := fin_inj hz
  subst this
  obtain ⟨rw', he⟩ := a2 w hw
  rw [zero_add, near_of_rep rw'] at hn
  subst hn
  rw [hs] at hv
  obtain ⟨rv, hv2⟩ := fold_err (fun x y => x -. y) (-1) (Or.inr rfl) sub_op f (fun r => ((ringArea r : ℚ) : ℝ)) (fun r => ((ringErr r : ℚ) : ℝ)) holes
    (fun r hr w hw => ((hf r) r hr rfl).2 w hw) w v rw' hv
  refine ⟨rv, ?_⟩
  unfold polyErr ringsArea
  simp only [List.map_cons, List.sum_cons]
  push_cast at hv2
  rw [Rat.cast_sub, Rat.cast_add, Rat.cast_add]
  have aE : ∀ r : List (Coord ℚ), |((ringArea r : ℚ) : ℝ)| = ringArea r := fun r => abs_of_nonneg (by
    have : 0 ≤ ringArea r := by unfold ringArea; positivity
    exact_mod_cast this)
  have e1 : (holes.map (fun a => |((ringArea a : ℚ) : ℝ)| + ((ringErr a : ℚ) : ℝ))).sum = (holes.map (fun r => ((ringArea r : ℚ) : ℝ))).sum + (holes.map (fun r => ((ringErr r : ℚ) : ℝ))).sum := by
    simp only [aE]
    exact List.sum_map_add
  have e2 : ∀ g : List (Coord ℚ) → ℚ, (((holes.map g).sum : ℚ) : ℝ) = (holes.map (fun r => ((g r : ℚ) : ℝ))).sum := by
    intro g
    rw [Rat.cast_list_sum, List.map_map]
    rfl
  rw [e1] at hv2
  rw [e2, e2]
  set S := (holes.map (fun r => ((ringArea r : ℚ) : ℝ))).sum
  set T := (holes.map (fun r => ((ringErr r : ℚ) : ℝ))).sum
  have q1 : (1 : ℝ) ≤ (1 + 1 / 2 ^ 53) ^ holes.length := one_le_pow₀ (by norm_num)
  generalize (1 + 1 / 2 ^ 53 : ℝ) ^ holes.length = P at *
  have k1 : |(w : ℝ)| ≤ (ringArea shell : ℚ) + (ringErr shell : ℚ) := by
    have := abs_sub_abs_le_abs_sub (w : ℝ) (ringArea shell : ℚ)
    rw [aE] at this
    linarith
  have k2 := mul_le_mul_of_nonneg_left k1 (show 0 ≤ P - 1 by linarith)
  have e3 : (v : ℝ) - ((ringArea shell : ℚ) - S) = (v - (w + -1 * S)) + (w - (ringArea shell : ℚ)) := by ring
  have k3 := abs_add_le ((v : ℝ) - (w + -1 * S)) (w - (ringArea shell : ℚ))
  rw [e3]
  linarith

/-- C129: the area of several polygons. -/
theorem C129_multi_area (m : MultiPolygon (B64 sq hy)) (ps : List (List (Coord ℚ) × List (List (Coord ℚ)))) (h : List.Forall₂ (fun p q => Rings64 p q.1 q.2) m.polygons ps) :
    ∃ a, m.getArea = .ok a ∧ ∀ v, a = Fl.fin v → |(v : ℝ) - (((ps.map (fun q => ringsArea (q.1 :: q.2))).sum : ℚ) : ℝ)| ≤
      ((1 + 1 / 2 ^ 53) ^ ps.length - 1) * (ps.map (fun q => |((ringsArea (q.1 :: q.2) : ℚ) : ℝ)| + polyErr q.1 q.2)).sum + (ps.map (fun q => polyErr q.1 q.2)).sum := by
  -- pairs of a polygon and its rings
  set l := m.polygons.zip ps with hl
  have hlen := h.length_eq
  have hz : ∀ x ∈ l, Rings64 x.1 x.2.1 x.2.2 := by
    intro x hx
    obtain ⟨n, hn, rfl⟩ := List.getElem_of_mem hx
    rw [hl, List.length_zip] at hn
    have := h.get (i := n) (by omega) (by omega)
    simpa [hl] using this
  have ex : ∀ x : Polygon (B64 sq hy) × List (Coord ℚ) × List (List (Coord ℚ)), ∃ a : B64 sq hy, Rings64 x.1 x.2.1 x.2.2 → x.1.getArea = .ok a ∧
      ∀ v, a = Fl.fin v → Rep v ∧ |(v : ℝ) - (ringsArea (x.2.1 :: x.2.2) : ℚ)| ≤ polyErr x.2.1 x.2.2 := by
    intro x
    by_cases hx : Rings64 x.1 x.2.1 x.2.2
    · obtain ⟨a, ha⟩ := C129_polygon_area x.1 x.2.1 x.2.2 hx
      exact ⟨a, fun _ => ha⟩
    · exact ⟨Fl.nan, fun h => absurd h hx⟩
  choose f ff using ex
  have ez : m.polygons.length = l.length := by rw [hl, List.length_zip]; omega
  have hfold : m.getArea = .ok (l.foldl (fun s x => s +. f x) (Fl.fin 0)) := by
    rw [MultiPolygon.getArea, ez, lit64]
    refine forRange_foldl_mem l _ (fun s x => s +. f x) _ ?_
    intro k hk s
    have hk' : k < m.polygons.length := ez ▸ hk
    have e : m.polygons[k] = l[k].1 := by simp [hl]
    rw [Res.get_lt hk', Res.bind_ok, e, (ff _ (hz _ (List.getElem_mem hk))).1]
    rfl
  refine ⟨_, hfold, fun v hv => ?_⟩
  obtain ⟨-, k⟩ := fold_err (fun x y => x +. y) 1 (Or.inl rfl) add_op f (fun x => ((ringsArea (x.2.1 :: x.2.2) : ℚ) : ℝ)) (fun x => polyErr x.2.1 x.2.2) l
    (fun x hx w hw => (ff x (hz x hx)).2 w hw) 0 v rep_zero hv
  have e2 : ∀ g : (List (Coord ℚ) × List (List (Coord ℚ))) → ℝ, (l.map (fun x => g x.2)).sum = (ps.map g).sum := by
    intro g
    have : l.map Prod.snd = ps := List.map_snd_zip (by omega)
    conv_rhs => rw [← this, List.map_map]
    rfl
  have e3 : l.length = ps.length := by omega
  rw [e2 (fun q => ((ringsArea (q.1 :: q.2) : ℚ) : ℝ)), e2 (fun q => |((ringsArea (q.1 :: q.2) : ℚ) : ℝ)| + polyErr q.1 q.2), e2 (fun q => polyErr q.1 q.2), e3] at k
  rw [Rat.cast_zero, abs_zero, zero_add, zero_add, Rat.cast_one, one_mul] at k
  rw [Rat.cast_list_sum, List.map_map]
  exact k

/-- The bound of C88 on the error of the length of a ring. -/
noncomputable def lengthErr (ε δ : ℝ) (r : List (Coord ℚ)) : ℝ :=
  ((1 + ε) * (1 + 1 / 2 ^ 53) ^ r.length - 1) * lineLength (r.map realPt) + r.length * (1 + 1 / 2 ^ 53) ^ r.length * δ

/-- C129: the length of a polygon, unless it overflows: the errors of the lengths of the rings, and one rounding for each hole. -/
theorem C129_polygon_length {ε δ : ℝ} (hε : 0 ≤ ε) (hδ : 0 ≤ δ) (hh : HypotOk hy ε δ) (p : Polygon (B64 sq hy)) (shell : List (Coord ℚ)) (holes : List (List (Coord ℚ))) (h : Rings64 p shell holes) :
    ∃ a, p.getLength = .ok a ∧ ∀ v, a = Fl.fin v → |(v : ℝ) - ((shell :: holes).map (fun r => lineLength (r.map realPt))).sum| ≤
      (1 + 1 / 2 ^ 53) ^ holes.length * ((shell :: holes).map (lengthErr ε δ)).sum +
        ((1 + 1 / 2 ^ 53) ^ holes.length - 1) * ((shell :: holes).map (fun r => lineLength (r.map realPt))).sum := by
  have hlen : p.holes.length = holes.length := by have := congrArg List.length h.holes_eq; simpa using this
  have hcoord : ∀ k (hk : k < p.holes.length), p.holes[k].points.coordinates = (holes[k]'(hlen ▸ hk)).map toB64 := by
    intro k hk
    have := List.getElem_of_eq h.holes_eq (i := k) (by simpa using hk)
    simpa using this
  set f : List (Coord ℚ) → B64 sq hy := fun r => (segs r).foldl (fun a t => a +. FltSqrt.hypot ((Fl.fin t.2.x : B64 sq hy) -. Fl.fin t.1.x) (Fl.fin t.2.y -. Fl.fin t.1.y)) (Fl.fin 0) with hfdef
  have hf : ∀ r ∈ shell :: holes, ∀ w, f r = Fl.fin w → Rep w ∧ |(w : ℝ) - lineLength (r.map realPt)| ≤ lengthErr ε δ r := by
    intro r hr w hw
    obtain ⟨b, b1, b2⟩ := C88_length hε hδ hh r (h.f64 r hr) (CASeq.ofCoordinates (r.map toB64) : CASeq (B64 sq hy)) rfl
    rw [length_fold r _ rfl] at b1
    have b1 := Except.ok.inj b1
    have b1' : f r = b := b1
    obtain ⟨v, v1, v2, v3⟩ := b2 (by rw [← b1', hw]; rfl)
    rw [← b1', hw] at v1
    have := fin_inj v1
    subst this
    refine ⟨?_, v3⟩
    exact (length_sum hε hδ hh (segs r) (segs_rep (h.f64 r hr)) 0 w 0 0 rep_zero le_rfl le_rfl (by simp) hw).1
  have hfold : p.getLength = .ok (holes.foldl (fun s r => s +. f r) ((lit 0 : B64 sq hy) +. f shell)) := by
    have hsh : p.shell.getLength = .ok (f shell) := length_fold shell p.shell.points h.shell_eq
    rw [Polygon.getLength, hsh, Res.bind_ok, hlen]
    refine forRange_foldl_mem holes _ (fun s r => s +. f r) _ ?_
    intro k hk s
    have hk' : k < p.holes.length := hlen ▸ hk
    have : p.holes[k].getLength = .ok (f holes[k]) := length_fold holes[k] p.holes[k].points (hcoord k hk')
    rw [Res.get_lt hk', Res.bind_ok, this]
    rfl
  refine ⟨_, hfold, fun v hv => ?_⟩
  have h0 : ∃ s, (lit 0 : B64 sq hy) +. f shell = Fl.fin s := by
    have key : ∀ (l : List (List (Coord ℚ))) (x : B64 sq hy), l.foldl (fun x a => x +. f a) x = Fl.fin v → ∃ t, x = Fl.fin t := by
      intro l
      induction l with
      | nil => intro x hx; exact ⟨v, hx⟩
      | cons b l ih2 =>
        intro x hx
        obtain ⟨t, ht⟩ := ih2 _ hx
        obtain ⟨p, _, hp, _⟩ := add_op _ _ _ ht
        exact ⟨p, hp⟩
    exact key _ _ hv
  obtain ⟨s, hs⟩ := h0
  obtain ⟨z, w, hz, hw, hn, _⟩ := add64 hs
  rw [lit64] at hz
  have := fin_inj hz
  subst this
  obtain ⟨rw', he⟩ := hf shell (by simp) w hw
  rw [zero_add, near_of_rep rw'] at hn
  subst hn
  rw [hs] at hv
  obtain ⟨-, hv2⟩ := fold_err (fun x y => x +. y) 1 (Or.inl rfl) add_op f (fun r => lineLength (r.map realPt)) (lengthErr ε δ) holes
    (fun r hr w hw => hf r (by simp [hr]) w hw) w v rw' hv
  simp only [List.map_cons, List.sum_cons]
  have aE : ∀ r : List (Coord ℚ), |lineLength (r.map realPt)| = lineLength (r.map realPt) := fun r => abs_of_nonneg (lineLength_nonneg _)
  have e1 : (holes.map (fun a => |lineLength (a.map realPt)| + lengthErr ε δ a)).sum = (holes.map (fun r => lineLength (r.map realPt))).sum + (holes.map (lengthErr ε δ)).sum := by
    simp only [aE]
    exact List.sum_map_add
  rw [e1, Rat.cast_one, one_mul] at hv2
  set S := (holes.map (fun r => lineLength (r.map realPt))).sum
  set T := (holes.map (lengthErr ε δ)).sum
  have q1 : (1 : ℝ) ≤ (1 + 1 / 2 ^ 53) ^ holes.length := one_le_pow₀ (by norm_num)
  generalize (1 + 1 / 2 ^ 53 : ℝ) ^ holes.length = P at *
  have k1 : |(w : ℝ)| ≤ lineLength (shell.map realPt) + lengthErr ε δ shell := by
    have := abs_sub_abs_le_abs_sub (w : ℝ) (lineLength (shell.map realPt))
    rw [aE] at this
    linarith
  have k2 := mul_le_mul_of_nonneg_left k1 (show 0 ≤ P - 1 by linarith)
  have e3 : (v : ℝ) - (lineLength (shell.map realPt) + S) = (v - (w + S)) + (w - lineLength (shell.map realPt)) := by ring
  have k3 := abs_add_le ((v : ℝ) - (w + S)) (w - lineLength (shell.map realPt))
  rw [e3]
  linarith

/-! ## Exact areas on coarse grids -/

theorem shoelace_grid {b : ℕ} {g : ℤ} (r : List (Coord ℚ)) (hr : ∀ c ∈ r, OnGridB b g c) : ∃ k : ℤ, |k| ≤ r.length * 2 ^ (2 * b + 1) ∧ shoelace r = k * 2 ^ (2 * g) := by
  induction r with
  | nil => exact ⟨0, by simp, by simp [shoelace, segs]⟩
  | cons a r ih =>
    match r, hr, ih with
    | [], _, _ => exact ⟨0, by simp, by simp [shoelace, segs]⟩
    | c :: r, hr, ih =>
      obtain ⟨k, k1, k2⟩ := ih (fun c hc => hr c (by simp [hc]))
      obtain ⟨m, n, hm, hn, ex, ey⟩ := hr a (by simp)
      obtain ⟨m', n', hm', hn', ex', ey'⟩ := hr c (by simp)
      refine ⟨(m * n' - m' * n) + k, ?_, ?_⟩
      · have t1 : |m * n'| ≤ 2 ^ b * 2 ^ b := by rw [abs_mul]; exact mul_le_mul hm hn' (abs_nonneg _) (by positivity)
        have t2 : |m' * n| ≤ 2 ^ b * 2 ^ b := by rw [abs_mul]; exact mul_le_mul hm' hn (abs_nonneg _) (by positivity)
        have t3 := abs_add_le (m * n' - m' * n) k
        have t4 := abs_sub (m * n') (m' * n)
        have e : (2 : ℤ) ^ (2 * b + 1) = 2 * (2 ^ b * 2 ^ b) := by rw [← pow_add, ← two_mul, pow_succ, mul_comm]
        rw [List.length_cons]
        push_cast at k1 ⊢
        rw [e] at k1 ⊢
        linarith
      · have e : shoelace (a :: c :: r) = (a.x * c.y - c.x * a.y) + shoelace (c :: r) := by simp [shoelace, segs]
        rw [e, k2, ex, ey, ex', ey', show 2 * g = g + g by ring, two_add]
        push_cast
        ring

/-- C129: on a grid so coarse that no sum is rounded, the area of a polygon is exact. -/
theorem C129_polygon_exact (b : ℕ) (g : ℤ) (h1 : -500 ≤ g) (h2 : g ≤ 400) (p : Polygon (B64 sq hy)) (shell : List (Coord ℚ)) (holes : List (List (Coord ℚ)))
    (hs : p.shell.points.coordinates = shell.map toB64) (hh : p.holes.map (fun h => h.points.coordinates) = holes.map (fun h => h.map toB64))
    (hr : ∀ r ∈ shell :: holes, ∀ c ∈ r, OnGridB b g c) (hc : ∀ r ∈ shell :: holes, Closed2D r)
    (hn : ((shell :: holes).map List.length).sum * 2 ^ (2 * b + 2) ≤ 2 ^ 53) : p.getArea = .ok (Fl.fin (ringsArea (shell :: holes))) := by
  have hlen : p.holes.length = holes.length := by have := congrArg List.length hh; simpa using this
  have hcoord : ∀ k (hk : k < p.holes.length), p.holes[k].points.coordinates = (holes[k]'(hlen ▸ hk)).map toB64 := by
    intro k hk
    have := List.getElem_of_eq hh (i := k) (by simpa using hk)
    simpa using this
  have hone : ∀ r ∈ shell :: holes, r.length * 2 ^ (2 * b + 2) ≤ 2 ^ 53 := by
    intro r hm
    refine le_trans (Nat.mul_le_mul_right _ ?_) hn
    exact List.single_le_sum (by simp) _ (List.mem_map.mpr ⟨r, hm, rfl⟩)
  have hring : ∀ r ∈ shell :: holes, ∀ s : CASeq (B64 sq hy), s.coordinates = r.map toB64 → Area.ofRingSeq s = .ok (Fl.fin (ringArea r)) := by
    intro r hm s hs
    rw [(C33_sequence s).2, hs]
    exact (C87_exact b g h1 h2 r (hr r hm) (hc r hm) (hone r hm)).2
  have hfold : p.getArea = .ok (holes.foldl (fun s r => s -. Fl.fin (ringArea r)) ((lit 0 : B64 sq hy) +. Fl.fin (ringArea shell))) := by
    rw [Polygon.getArea, hring shell (by simp) p.shell.getSeq hs, Res.bind_ok, hlen]
    refine forRange_foldl_mem holes _ (fun s r => s -. Fl.fin (ringArea r)) _ ?_
    intro k hk s
    have hk' : k < p.holes.length := hlen ▸ hk
    rw [Res.get_lt hk', Res.bind_ok, hring holes[k] (by simp) p.holes[k].getSeq (hcoord k hk')]
    rfl
  rw [hfold]
  have hra : ∀ r ∈ shell :: holes, ∃ k : ℤ, |k| ≤ r.length * 2 ^ (2 * b + 1) ∧ ringArea r = k * 2 ^ (2 * g - 1) := by
    intro r hm
    obtain ⟨k, k1, k2⟩ := shoelace_grid r (hr r hm)
    refine ⟨|k|, by rwa [abs_abs], ?_⟩
    unfold ringArea
    rw [k2, abs_mul, abs_of_pos (two_pos _), sub_eq_add_neg, two_add, zpow_neg, zpow_one]
    push_cast
    ring
  have fold : ∀ (l : List (List (Coord ℚ))), (∀ r ∈ l, r ∈ shell :: holes) → ∀ (j : ℕ) (k : ℤ), |k| ≤ j * 2 ^ (2 * b + 1) → (j + (l.map List.length).sum) * 2 ^ (2 * b + 2) ≤ 2 ^ 53 →
      l.foldl (fun s r => s -. Fl.fin (ringArea r)) (Fl.fin (k * 2 ^ (2 * g - 1)) : B64 sq hy) = Fl.fin (k * 2 ^ (2 * g - 1) - (l.map ringArea).sum) := by
    intro l
    induction l with
    | nil => intro _ j k _ _; simp
    | cons r l ih =>
      intro hl j k hk hj
      obtain ⟨m, m1, m2⟩ := hra r (hl r (by simp))
      have hkm : |k - m| ≤ ((j + r.length : ℕ) : ℤ) * 2 ^ (2 * b + 1) := by
        have := abs_sub k m
        push_cast
        linarith
      have hj' : (j + r.length + (l.map List.length).sum) * 2 ^ (2 * b + 2) ≤ 2 ^ 53 := by
        rw [List.map_cons, List.sum_cons, ← add_assoc] at hj
        exact hj
      have hle : |k - m| ≤ 2 ^ 53 := by
        have h5 : (j + r.length) * 2 ^ (2 * b + 1) ≤ 2 ^ 53 :=
          (Nat.mul_le_mul (by omega : j + r.length ≤ j + r.length + (l.map List.length).sum) (Nat.pow_le_pow_right (by norm_num) (by omega))).trans hj'
        have : ((j + r.length : ℕ) : ℤ) * 2 ^ (2 * b + 1) ≤ 2 ^ 53 := by exact_mod_cast h5
        linarith
      have e4 : (Fl.fin (k * 2 ^ (2 * g - 1)) : B64 sq hy) -. Fl.fin (ringArea r) = Fl.fin (((k - m : ℤ) : ℚ) * 2 ^ (2 * g - 1)) := by
        rw [m2]
        refine (show _ = (Fl.round (k * 2 ^ (2 * g - 1) + -(m * 2 ^ (2 * g - 1))) : B64 sq hy) from rfl).trans ?_
        rw [show (k : ℚ) * 2 ^ (2 * g - 1) + -(m * 2 ^ (2 * g - 1)) = ((k - m : ℤ) : ℚ) * 2 ^ (2 * g - 1) by push_cast; ring]
        exact rnd_of_f64 (ordB_f64 (b := 53) ⟨k - m, hle, rfl⟩ le_rfl (by omega) (by omega))
      rw [List.foldl_cons, e4, ih (fun r hr => hl r (by simp [hr])) (j + r.length) (k - m) hkm hj', List.map_cons, List.sum_cons, m2]
      congr 1
      push_cast
      ring
  obtain ⟨k, k1, k2⟩ := hra shell (by simp)
  have hz : (lit 0 : B64 sq hy) +. Fl.fin (ringArea shell) = Fl.fin (k * 2 ^ (2 * g - 1)) := by
    rw [lit64, k2]
    refine (show _ = (Fl.round (0 + k * 2 ^ (2 * g - 1)) : B64 sq hy) from rfl).trans ?_
    rw [zero_add]
    refine rnd_of_f64 (ordB_f64 (b := 53) ⟨k, ?_, rfl⟩ le_rfl (by omega) (by omega))
    have h5 : shell.length * 2 ^ (2 * b + 1) ≤ 2 ^ 53 := (Nat.mul_le_mul le_rfl (Nat.pow_le_pow_right (by norm_num) (by omega))).trans (hone shell (by simp))
    have : (shell.length : ℤ) * 2 ^ (2 * b + 1) ≤ 2 ^ 53 := by exact_mod_cast h5
    linarith
  rw [hz, fold holes (fun r hr => by simp [hr]) shell.length k k1 (by simpa using hn)]
  rw [← k2]
  rfl

/-! ## Boxes -/

/-- C129: the area of a box, unless it overflows. -/
theorem C129_box_area {a b c d v : ℚ} (h : Box64 a b c d) (hv : (box64 sq hy a b c d).area = Fl.fin v) :
    0 ≤ v ∧ |v - (b - a) * (d - c)| ≤ (b - a) * (d - c) / 2 ^ 51 + 2 ^ (-1075 : ℤ) := by
  unfold Env.area at hv
  obtain ⟨w, t, hw, ht, hn, -⟩ := mul64 hv
  obtain ⟨_, _, _, _, e1, e2⟩ := C84_sides (sq := sq) (hy := hy) a b c d h
  have e1 := e1 w hw
  have e2 := e2 t ht
  have e3 := near_err_abs (w * t)
  rw [hn] at e3
  have hx := h.hx
  have hy' := h.hy
  have x0 : 0 ≤ b - a := by linarith
  have y0 : 0 ≤ d - c := by linarith
  generalize b - a = X at *
  generalize d - c = Y at *
  rw [abs_le] at e1 e2
  have ew1 : 0 ≤ w := by have := e1.2; have : X / 2 ^ 53 ≤ X := div_le_self x0 (by norm_num); linarith
  have et1 : 0 ≤ t := by have := e2.2; have : Y / 2 ^ 53 ≤ Y := div_le_self y0 (by norm_num); linarith
  have ew2 : w ≤ X * (1 + 1 / 2 ^ 53) := by linarith [e1.1]
  have et2 : t ≤ Y * (1 + 1 / 2 ^ 53) := by linarith [e2.1]
  have ew3 : X * (1 - 1 / 2 ^ 53) ≤ w := by linarith [e1.2]
  have et3 : Y * (1 - 1 / 2 ^ 53) ≤ t := by linarith [e2.2]
  have v0 : 0 ≤ v := by
    have := near_mono (mul_nonneg ew1 et1)
    rwa [Binary64.near_zero, hn] at this
  refine ⟨v0, ?_⟩
  have p1 : w * t ≤ X * (1 + 1 / 2 ^ 53) * (Y * (1 + 1 / 2 ^ 53)) := mul_le_mul ew2 et2 et1 (mul_nonneg x0 (by norm_num))
  have p2 : X * (1 - 1 / 2 ^ 53) * (Y * (1 - 1 / 2 ^ 53)) ≤ w * t := mul_le_mul ew3 et3 (mul_nonneg y0 (by norm_num)) ew1
  have p3 : X * (1 + 1 / 2 ^ 53) * (Y * (1 + 1 / 2 ^ 53)) = X * Y * (1 + 1 / 2 ^ 53) ^ 2 := by ring
  have p4 : X * (1 - 1 / 2 ^ 53) * (Y * (1 - 1 / 2 ^ 53)) = X * Y * (1 - 1 / 2 ^ 53) ^ 2 := by ring
  rw [p3] at p1
  rw [p4] at p2
  have xy := mul_nonneg x0 y0
  generalize X * Y = Z at *
  rw [abs_of_nonneg (mul_nonneg ew1 et1)] at e3
  generalize w * t = q at *
  have q1 := mul_le_mul_of_nonneg_left (show ((1 : ℚ) + 1 / 2 ^ 53) ^ 2 ≤ 1 + 5 / 2 ^ 54 by norm_num) xy
  have q2 := mul_le_mul_of_nonneg_left (show (1 : ℚ) - 5 / 2 ^ 54 ≤ (1 - 1 / 2 ^ 53) ^ 2 by norm_num) xy
  generalize (2 : ℚ) ^ (-1075 : ℤ) = η at *
  rw [abs_le] at e3 ⊢
  norm_num at *
  constructor <;> linarith [e3.1, e3.2]

/-- C129: the diameter of a box, unless it overflows. -/
theorem C129_diameter {ε δ : ℝ} (hε : 0 ≤ ε) (hh : HypotOk hy ε δ) {a b c d v : ℚ} (h : Box64 a b c d) (hv : (box64 sq hy a b c d).diameter = Fl.fin v) :
    0 ≤ v ∧ |(v : ℝ) - √(((b : ℝ) - a) ^ 2 + ((d : ℝ) - c) ^ 2)| ≤ ((1 + ε) * (1 + 1 / 2 ^ 53) - 1) * √(((b : ℝ) - a) ^ 2 + ((d : ℝ) - c) ^ 2) + δ := by
  unfold Env.diameter Env.width Env.height at hv
  rw [box64_notNull h] at hv
  have := leg64 hε hh h.fb.1 h.fa.1 h.fd.1 h.fc.1 hv
  exact this.2

/-- A rounded number that is not negative: a number or infinite. -/
theorem rnd_nonneg {x : ℚ} (h : 0 ≤ x) : (Fl.round x : B64 sq hy) = Fl.fin (near x) ∨ (Fl.round x : B64 sq hy) = Fl.pinf := by
  have hn := near_nonneg h
  have h2 : (0 : ℚ) < 2 ^ 1024 := by positivity
  cases hr : rnd x with
  | nan => exact absurd hr (rnd_not_nan _)
  | ninf =>
    exfalso
    unfold rnd at hr
    generalize (2 : ℚ) ^ 1024 = M at *
    split_ifs at hr with k1 k2
    linarith
  | pinf => right; exact hr
  | fin u =>
    left
    obtain ⟨e1, _⟩ := (rnd_fin_iff _ _).mp hr
    rw [e1]; exact hr

/-- C129: the smaller and the larger side of a box, unless they overflow. -/
theorem C129_extents {a b c d : ℚ} (h : Box64 a b c d) :
    (∀ v, (box64 sq hy a b c d).minExtent = Fl.fin v → |v - min (b - a) (d - c)| ≤ min (b - a) (d - c) / 2 ^ 53) ∧
    (∀ v, (box64 sq hy a b c d).maxExtent = Fl.fin v → |v - max (b - a) (d - c)| ≤ max (b - a) (d - c) / 2 ^ 53) := by
  have hw : (box64 sq hy a b c d).width = Fl.round (b - a) := by
    unfold Env.width; rw [box64_notNull h]; exact sub_rnd b a
  have hh : (box64 sq hy a b c d).height = Fl.round (d - c) := by
    unfold Env.height; rw [box64_notNull h]; exact sub_rnd d c
  have e1 : |near (b - a) - (b - a)| ≤ (b - a) / 2 ^ 53 := by
    have := near_add_rel h.fb.1 h.fa.1.neg
    rw [← sub_eq_add_neg, abs_of_nonneg (show 0 ≤ b - a by linarith [h.hx])] at this
    rwa [abs_sub_comm]
  have e2 : |near (d - c) - (d - c)| ≤ (d - c) / 2 ^ 53 := by
    have := near_add_rel h.fd.1 h.fc.1.neg
    rw [← sub_eq_add_neg, abs_of_nonneg (show 0 ≤ d - c by linarith [h.hy])] at this
    rwa [abs_sub_comm]
  have n1 := rnd_nonneg (sq := sq) (hy := hy) (show 0 ≤ b - a by linarith [h.hx])
  have n2 := rnd_nonneg (sq := sq) (hy := hy) (show 0 ≤ d - c by linarith [h.hy])
  have mono1 : b - a ≤ d - c → ((Fl.round (b - a) : B64 sq hy) ≤. Fl.round (d - c)) = true := fun h => rnd_le h
  have mono2 : d - c ≤ b - a → ((Fl.round (d - c) : B64 sq hy) ≤. Fl.round (b - a)) = true := fun h => rnd_le h
  unfold Env.minExtent Env.maxExtent
  rw [box64_notNull h, hw, hh]
  generalize b - a = X at *
  generalize d - c = Y at *
  simp only [Bool.false_eq_true, if_false]
  have lt_ff : ∀ x y : ℚ, ((Fl.fin x : B64 sq hy) <. Fl.fin y) = decide (x < y) := fun _ _ => rfl
  have le_ff : ∀ x y : ℚ, ((Fl.fin x : B64 sq hy) ≤. Fl.fin y) = decide (x ≤ y) := fun _ _ => rfl
  have lt_fi : ∀ x : ℚ, ((Fl.fin x : B64 sq hy) <. Fl.pinf) = true := fun _ => rfl
  have lt_if : ∀ x : ℚ, ((Fl.pinf : B64 sq hy) <. Fl.fin x) = false := fun _ => rfl
  have le_if : ∀ x : ℚ, ((Fl.pinf : B64 sq hy) ≤. Fl.fin x) = false := fun _ => rfl
  have lt_ii : ((Fl.pinf : B64 sq hy) <. Fl.pinf) = false := rfl
  have inf_ne : ∀ v : ℚ, (Fl.pinf : B64 sq hy) ≠ Fl.fin v := fun v h => by cases h
  have gt_eq : ∀ x y : B64 sq hy, (x >. y) = (y <. x) := fun _ _ => rfl
  constructor
  · intro v hv
    rcases n1 with n1 | n1 <;> rcases n2 with n2 | n2 <;> rw [n1, n2] at hv
    · rw [lt_ff] at hv
      by_cases hlt : near X < near Y
      · rw [decide_eq_true hlt, if_pos rfl] at hv
        have := fin_inj hv
        subst this
        have hXY : X ≤ Y := by
          by_contra hc
          exact absurd (near_mono (not_le.mp hc).le) (not_le.mpr hlt)
        rw [min_eq_left hXY]; exact e1
      · rw [decide_eq_false hlt, if_neg (by simp)] at hv
        have := fin_inj hv
        subst this
        rcases le_total Y X with hXY | hXY
        · rw [min_eq_right hXY]; exact e2
        · have : near Y = near X := le_antisymm (not_lt.mp hlt) (near_mono hXY)
          rw [min_eq_left hXY, this]; exact e1
    · rw [lt_fi, if_pos rfl] at hv
      have := fin_inj hv
      subst this
      rcases le_total X Y with hXY | hXY
      · rw [min_eq_left hXY]; exact e1
      · have := mono2 hXY
        rw [n1, n2, le_if] at this
        exact absurd this (by simp)
    · rw [lt_if, if_neg (by simp)] at hv
      have := fin_inj hv
      subst this
      rcases le_total Y X with hXY | hXY
      · rw [min_eq_right hXY]; exact e2
      · have := mono1 hXY
        rw [n1, n2, le_if] at this
        exact absurd this (by simp)
    · rw [lt_ii, if_neg (by simp)] at hv
      exact absurd hv (inf_ne v)
  · intro v hv
    rw [gt_eq] at hv
    rcases n1 with n1 | n1 <;> rcases n2 with n2 | n2 <;> rw [n1, n2] at hv
    · rw [lt_ff] at hv
      by_cases hlt : near Y < near X
      · rw [decide_eq_true hlt, if_pos rfl] at hv
        have := fin_inj hv
        subst this
        have hXY : Y ≤ X := by
          by_contra hc
          exact absurd (near_mono (not_le.mp hc).le) (not_le.mpr hlt)
        rw [max_eq_left hXY]; exact e1
      · rw [decide_eq_false hlt, if_neg (by simp)] at hv
        have := fin_inj hv
        subst this
        rcases le_total X Y with hXY | hXY
        · rw [max_eq_right hXY]; exact e2
        · have : near Y = near X := le_antisymm (near_mono hXY) (not_lt.mp hlt)
          rw [max_eq_left hXY, this]; exact e1
    · rw [show ((Fl.pinf : B64 sq hy) <. Fl.fin (near X)) = false from rfl, if_neg (by simp)] at hv
      exact absurd hv (inf_ne v)
    · rw [lt_fi, if_pos rfl] at hv
      exact absurd hv (inf_ne v)
    · rw [lt_ii, if_neg (by simp)] at hv
      exact absurd hv (inf_ne v)

/-- The points of the box. -/
def InRect64 (a b c d : ℚ) (x y : ℝ) : Prop := a ≤ x ∧ x ≤ b ∧ c ≤ y ∧ y ≤ d

/-- The gap between two intervals of doubles, as the computed difference of two of their ends. -/
theorem gap_value {a b a' b' : ℚ} (fa : IsF64 a) (fb : IsF64 b) (fa' : IsF64 a') (fb' : IsF64 b') (h : a ≤ b) (h' : a' ≤ b') :
    ∃ p q : ℚ, Rep p ∧ Rep q ∧ q ≤ p ∧ (if ((Fl.fin b : B64 sq hy) <. Fl.fin a') = true then (Fl.fin a' : B64 sq hy) -. Fl.fin b
          else if ((Fl.fin b' : B64 sq hy) <. Fl.fin a) = true then (Fl.fin a : B64 sq hy) -. Fl.fin b' else lit 0) = (Fl.fin p : B64 sq hy) -. Fl.fin q ∧
      (∃ x x' : ℝ, (a ≤ x ∧ x ≤ b) ∧ (a' ≤ x' ∧ x' ≤ b') ∧ |x - x'| = p - q) ∧ (∀ x x' : ℝ, (a ≤ x ∧ x ≤ b) → (a' ≤ x' ∧ x' ≤ b') → (p : ℝ) - q ≤ |x - x'|) ∧
      (a' ≤ b → a ≤ b' → p = q) := by
  have hr : (a : ℝ) ≤ b := by exact_mod_cast h
  have hr' : (a' : ℝ) ≤ b' := by exact_mod_cast h'
  simp only [fin_lt, decide_eq_true_eq]
  split_ifs with k1 k2
  · have k1' : (b : ℝ) < a' := by exact_mod_cast k1
    refine ⟨a', b, fa'.1, fb.1, k1.le, rfl, ⟨b, a', ⟨hr, le_rfl⟩, ⟨le_rfl, hr'⟩, ?_⟩, ?_, fun hh => absurd hh (not_le.mpr k1)⟩
    · rw [abs_of_neg (by linarith)]; ring
    · intro x x' h1 h2
      rw [abs_of_neg (by linarith [h1.2, h2.1])]
      linarith [h1.2, h2.1]
  · have k2' : (b' : ℝ) < a := by exact_mod_cast k2
    refine ⟨a, b', fa.1, fb'.1, k2.le, rfl, ⟨a, b', ⟨le_rfl, hr⟩, ⟨hr', le_rfl⟩, ?_⟩, ?_, fun _ hh => absurd hh (not_le.mpr k2)⟩
    · rw [abs_of_pos (by linarith)]
    · intro x x' h1 h2
      rw [abs_of_pos (by linarith [h1.1, h2.2])]
      linarith [h1.1, h2.2]
  · have k1' : (a' : ℝ) ≤ b := by exact_mod_cast not_lt.mp k1
    have k2' : (a : ℝ) ≤ b' := by exact_mod_cast not_lt.mp k2
    refine ⟨0, 0, rep_zero, rep_zero, le_rfl, ?_, ⟨max a a', max a a', ⟨le_max_left _ _, max_le hr k1'⟩, ⟨le_max_right _ _, max_le k2' hr'⟩, by simp⟩, ?_, fun _ _ => rfl⟩
    · rw [sub_rnd, sub_self, lit64]
      exact (rnd_of_f64 ⟨rep_zero, by rw [abs_zero]; positivity⟩).symm
    · intro x x' _ _
      simp

/-- C129: the distance of two boxes, unless it overflows, against the least distance of their points. -/
theorem C129_box_distance {ε δ : ℝ} (hε : 0 ≤ ε) (hδ : 0 ≤ δ) (hh : HypotOk hy ε δ) {a b c d a' b' c' d' v : ℚ} (h : Box64 a b c d) (h' : Box64 a' b' c' d')
    (hv : (box64 sq hy a b c d).distance (box64 sq hy a' b' c' d') = Fl.fin v) :
    ∃ g : ℝ, (∃ x y x' y', InRect64 a b c d x y ∧ InRect64 a' b' c' d' x' y' ∧ g = √((x - x') ^ 2 + (y - y') ^ 2)) ∧
      (∀ x y x' y', InRect64 a b c d x y → InRect64 a' b' c' d' x' y' → g ≤ √((x - x') ^ 2 + (y - y') ^ 2)) ∧ 0 ≤ v ∧
      |(v : ℝ) - g| ≤ ((1 + ε) * (1 + 1 / 2 ^ 53) - 1) * g + δ := by
  obtain ⟨p, q, rp, rq, hpq, e1, ⟨x, x', mx, mx', ex⟩, lx, ix⟩ := gap_value (sq := sq) (hy := hy) h.fa h.fb h'.fa h'.fb h.hx h'.hx
  obtain ⟨r, s, rr, rs, hrs, e2, ⟨y, y', my, my', ey⟩, ly, iy⟩ := gap_value (sq := sq) (hy := hy) h.fc h.fd h'.fc h'.fd h.hy h'.hy
  have p0 : (0 : ℝ) ≤ p - q := sub_nonneg.mpr (by exact_mod_cast hpq)
  have r0 : (0 : ℝ) ≤ r - s := sub_nonneg.mpr (by exact_mod_cast hrs)
  have k0 : 0 ≤ (1 + ε) * (1 + 1 / 2 ^ 53) - 1 := by nlinarith
  refine ⟨√(((p : ℝ) - q) ^ 2 + ((r : ℝ) - s) ^ 2), ⟨x, y, x', y', ⟨mx.1, mx.2, my.1, my.2⟩, ⟨mx'.1, mx'.2, my'.1, my'.2⟩, ?_⟩, ?_, ?_⟩
  · rw [← sq_abs (x - x'), ← sq_abs (y - y'), ex, ey]
  · intro x y x' y' m m'
    refine Real.sqrt_le_sqrt ?_
    have t1 := lx x x' ⟨m.1, m.2.1⟩ ⟨m'.1, m'.2.1⟩
    have t2 := ly y y' ⟨m.2.2.1, m.2.2.2⟩ ⟨m'.2.2.1, m'.2.2.2⟩
    rw [← sq_abs (x - x'), ← sq_abs (y - y')]
    exact add_le_add (pow_le_pow_left₀ p0 t1 2) (pow_le_pow_left₀ r0 t2 2)
  · unfold Env.distance at hv
    have g1 : ((box64 sq hy a b c d).gaps (box64 sq hy a' b' c' d')).1 = (Fl.fin p : B64 sq hy) -. Fl.fin q := e1
    have g2 : ((box64 sq hy a b c d).gaps (box64 sq hy a' b' c' d')).2 = (Fl.fin r : B64 sq hy) -. Fl.fin s := e2
    simp only [g1, g2] at hv
    have hint : (box64 sq hy a b c d).intersects (box64 sq hy a' b' c' d') = true ↔ a' ≤ b ∧ a ≤ b' ∧ c' ≤ d ∧ c ≤ d' := by
      unfold Env.intersects
      rw [box64_notNull h, box64_notNull h']
      show (!(decide (b < a') || decide (b' < a) || decide (d < c') || decide (d' < c))) = true ↔ _
      simp [and_assoc]
    have zero_iff : ∀ {p q : ℚ}, Rep p → Rep q → (((Fl.fin p : B64 sq hy) -. Fl.fin q ==. lit 0) = true ↔ p = q) := by
      intro p q rp rq
      rw [sub_rnd]
      exact (rnd_zero_iff (p - q)).trans ((near_sub_zero rq rp).trans eq_comm)
    have one : ∀ {p q w : ℚ}, Rep p → Rep q → q ≤ p → (Fl.fin p : B64 sq hy) -. Fl.fin q = Fl.fin w → 0 ≤ w ∧
        |(w : ℝ) - (p - q)| ≤ ((1 + ε) * (1 + 1 / 2 ^ 53) - 1) * ((p : ℝ) - q) + δ := by
      intro p q w rp rq hle hw
      obtain ⟨_, _, f1, f2, n, -⟩ := sub64 hw
      obtain rfl := fin_inj f1
      obtain rfl := fin_inj f2
      refine ⟨n ▸ near_nonneg (by linarith), ?_⟩
      have := near_add_rel rp rq.neg
      rw [← sub_eq_add_neg, n, abs_of_nonneg (show 0 ≤ p - q by linarith), abs_sub_comm] at this
      have := (Rat.cast_le (K := ℝ)).mpr this
      push_cast at this
      have pq : (0 : ℝ) ≤ p - q := by
        have : (q : ℝ) ≤ p := by exact_mod_cast hle
        linarith
      have : ((p : ℝ) - q) / 2 ^ 53 ≤ ((1 + ε) * (1 + 1 / 2 ^ 53) - 1) * ((p : ℝ) - q) := by
        rw [div_eq_mul_one_div, mul_comm]
        refine mul_le_mul_of_nonneg_right ?_ pq
        nlinarith
      linarith
    split_ifs at hv with k1 k2 k3
    · rw [lit64] at hv
      obtain rfl := fin_inj hv
      obtain ⟨i1, i2, i3, i4⟩ := hint.mp k1
      rw [ix i1 i2, iy i3 i4]
      simpa using hδ
    · have := (zero_iff rp rq).mp k2
      rw [this, sub_self, zero_pow two_ne_zero, zero_add, Real.sqrt_sq r0]
      exact one rr rs hrs hv
    · have := (zero_iff rr rs).mp k3
      rw [this, sub_self, zero_pow two_ne_zero, add_zero, Real.sqrt_sq p0]
      exact one rp rq hpq hv
    · exact (leg64 hε hh rp rq rr rs hv).2

section examples
local notation "pt" => (Coord.xy : ℚ → ℚ → Coord ℚ)

/-- The polygon of doubles with these rings. -/
def polyOf64 (sq : ℚ → Val) (hy : ℚ → ℚ → Val) (shell : List (Coord ℚ)) (holes : List (List (Coord ℚ))) : Polygon (B64 sq hy) :=
  ⟨⟨⟨2, 0, shell.map toB64⟩, none, none⟩, holes.map (fun h => ⟨⟨2, 0, h.map toB64⟩, none, none⟩), none, none⟩

/-- A triangle, one corner of which is tiny, with a triangular hole. -/
theorem rings64_example : Rings64 (polyOf64 sq hy [pt 0 (2 ^ (-60 : ℤ)), pt 10 0, pt 0 10, pt 0 (2 ^ (-60 : ℤ))] [[pt 1 1, pt 2 1, pt 1 2, pt 1 1]])
    [pt 0 (2 ^ (-60 : ℤ)), pt 10 0, pt 0 10, pt 0 (2 ^ (-60 : ℤ))] [[pt 1 1, pt 2 1, pt 1 2, pt 1 1]] where
  shell_eq := rfl
  holes_eq := rfl
  f64 := by
    have f : ∀ r ∈ [[pt 0 (2 ^ (-60 : ℤ)), pt 10 0, pt 0 10, pt 0 (2 ^ (-60 : ℤ))], [pt 1 1, pt 2 1, pt 1 2, pt 1 1]], ∀ c ∈ r,
        rnd c.x = .fin c.x ∧ rnd c.y = .fin c.y := by decide +kernel
    exact fun r hr c hc => ⟨f64_of (f r hr c hc).1, f64_of (f r hr c hc).2⟩
  closed := by
    intro r hr
    fin_cases hr <;> simp [Closed2D]
  few := by
    intro r hr
    fin_cases hr <;> norm_num

/-- The area of that polygon is computed, and correct to many digits. -/
example : ∃ v, (polyOf64 (fun _ => .nan) (fun _ _ => .nan) [pt 0 (2 ^ (-60 : ℤ)), pt 10 0, pt 0 10, pt 0 (2 ^ (-60 : ℤ))] [[pt 1 1, pt 2 1, pt 1 2, pt 1 1]]).getArea = .ok (Fl.fin v) ∧
    v = 99 / 2 := ⟨99 / 2, by decide +kernel, rfl⟩

/-- A square with a hole on the grid of the whole numbers. -/
example : (polyOf64 sq hy [pt 0 0, pt 9 0, pt 9 9, pt 0 9, pt 0 0] [[pt 1 1, pt 2 1, pt 1 2, pt 1 1]]).getArea = .ok (Fl.fin (161 / 2)) := by
  have := C129_polygon_exact (sq := sq) (hy := hy) 4 0 (by norm_num) (by norm_num) (polyOf64 sq hy [pt 0 0, pt 9 0, pt 9 9, pt 0 9, pt 0 0] [[pt 1 1, pt 2 1, pt 1 2, pt 1 1]])
    [pt 0 0, pt 9 0, pt 9 9, pt 0 9, pt 0 0] [[pt 1 1, pt 2 1, pt 1 2, pt 1 1]] rfl rfl ?_ ?_ (by norm_num)
  · rw [this, show ringsArea [[pt 0 0, pt 9 0, pt 9 9, pt 0 9, pt 0 0], [pt 1 1, pt 2 1, pt 1 2, pt 1 1]] = (161 / 2 : ℚ) by decide +kernel]
  · have key : ∀ r ∈ [[pt 0 0, pt 9 0, pt 9 9, pt 0 9, pt 0 0], [pt 1 1, pt 2 1, pt 1 2, pt 1 1]], ∀ p ∈ r,
        p.x = ((p.x.num : ℤ) : ℚ) ∧ p.y = ((p.y.num : ℤ) : ℚ) ∧ |p.x.num| ≤ 2 ^ 4 ∧ |p.y.num| ≤ 2 ^ 4 := by decide +kernel
    intro r hr p hp
    obtain ⟨k1, k2, k3, k4⟩ := key r hr p hp
    exact ⟨_, _, k3, k4, by simpa using k1, by simpa using k2⟩
  · intro r hr
    fin_cases hr <;> simp [Closed2D]

/-- Two boxes with a small gap. -/
example : Box64 0 (1 / 2 ^ 60) 0 1 ∧ Box64 (3 / 2 ^ 60) 7 (-1) 5 ∧
    (box64 (fun _ => .nan) (fun _ _ => .nan) 0 (1 / 2 ^ 60) 0 1).distance (box64 _ _ (3 / 2 ^ 60) 7 (-1) 5) = Fl.fin (1 / 2 ^ 59) ∧
    (box64 (fun _ => .nan) (fun _ _ => .nan) (3 / 2 ^ 60) 7 (-1) 5).area = Fl.fin 42 ∧
    (box64 (fun _ => .nan) (fun _ _ => .nan) (3 / 2 ^ 60) 7 (-1) 5).minExtent = Fl.fin 6 ∧
    (box64 (fun _ => .nan) (fun _ _ => .nan) (3 / 2 ^ 60) 7 (-1) 5).maxExtent = Fl.fin 7 := by
  refine ⟨⟨f64_of (by decide +kernel), f64_of (by decide +kernel), f64_of (by decide +kernel), f64_of (by decide +kernel), by norm_num, by norm_num⟩,
    ⟨f64_of (by decide +kernel), f64_of (by decide +kernel), f64_of (by decide +kernel), f64_of (by decide +kernel), by norm_num, by norm_num⟩, ?_⟩
  decide +kernel

/-- The hypothesis on the library can be met. -/
example : ∃ hy, HypotOk hy (1 / 2 ^ 52) (2 ^ (-1074 : ℤ)) := by
  obtain ⟨hy, h1, -⟩ := hypot_exists
  exact ⟨hy, h1⟩

end examples

end Verif.Props
