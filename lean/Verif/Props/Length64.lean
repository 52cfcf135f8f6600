import Verif.Props.Length
import Verif.Props.GridPredicates
import Verif.Props.PrecisionModel64
import Verif.Model.Coordinate

/-! # C88: lengths and distances in binary64 -/

set_option linter.unusedSectionVars false

namespace Verif.Props
open Flt Verif.Spec Verif.Binary64
variable {sq : ℚ → Val} {hy : ℚ → ℚ → Val}

/-- A library `hypot` on doubles: a finite result is a nonnegative double within `ε` (relative) and `δ` (absolute) of the hypotenuse. -/
def HypotOk (hy : ℚ → ℚ → Val) (ε δ : ℝ) : Prop :=
  ∀ a b v : ℚ, Rep a → Rep b → hy a b = .fin v → Rep v ∧ 0 ≤ v ∧ |(v : ℝ) - √((a : ℝ) ^ 2 + (b : ℝ) ^ 2)| ≤ ε * √((a : ℝ) ^ 2 + (b : ℝ) ^ 2) + δ

/-- unit of rounding -/
local notation "ur" => ((1 : ℝ) / 2 ^ 53)

theorem hypot_rel {a b a' b' u : ℝ} (hu : 0 ≤ u) (hu1 : u ≤ 1) (ha : |a' - a| ≤ u * |a|) (hb : |b' - b| ≤ u * |b|) :
    |√(a' ^ 2 + b' ^ 2) - √(a ^ 2 + b ^ 2)| ≤ u * √(a ^ 2 + b ^ 2) := by
  have up : ∀ {x y : ℝ}, |y - x| ≤ u * |x| → y ^ 2 ≤ (1 + u) ^ 2 * x ^ 2 ∧ (1 - u) ^ 2 * x ^ 2 ≤ y ^ 2 := by
    intro x y h
    have h1 := abs_sub_abs_le_abs_sub y x
    have h2 := abs_sub_abs_le_abs_sub x y
    rw [abs_sub_comm] at h2
    have n1 := abs_nonneg x
    have n2 := abs_nonneg y
    constructor
    · rw [← sq_abs y, ← sq_abs x, ← mul_pow]
      exact pow_le_pow_left₀ n2 (by linarith) 2
    · rw [← sq_abs y, ← sq_abs x, ← mul_pow]
      exact pow_le_pow_left₀ (mul_nonneg (by linarith) n1) (by linarith) 2
  obtain ⟨a1, a2⟩ := up ha
  obtain ⟨b1, b2⟩ := up hb
  have s1 : √(a' ^ 2 + b' ^ 2) ≤ (1 + u) * √(a ^ 2 + b ^ 2) := by
    rw [← Real.sqrt_sq (by linarith : (0 : ℝ) ≤ 1 + u), ← Real.sqrt_mul (by positivity)]
    exact Real.sqrt_le_sqrt (by linarith)
  have s2 : (1 - u) * √(a ^ 2 + b ^ 2) ≤ √(a' ^ 2 + b' ^ 2) := by
    rw [← Real.sqrt_sq (by linarith : (0 : ℝ) ≤ 1 - u), ← Real.sqrt_mul (by positivity)]
    exact Real.sqrt_le_sqrt (by linarith)
  rw [abs_le]
  constructor <;> linarith

theorem hypot_fin {x y : B64 sq hy} {v : ℚ} (h : FltSqrt.hypot x y = Fl.fin v) : ∃ p q, x = Fl.fin p ∧ y = Fl.fin q ∧ hy p q = .fin v := by
  match x, y, h with
  | Fl.fin p, Fl.fin q, h => exact ⟨p, q, rfl, rfl, h⟩
  | Fl.nan, Fl.nan, h => cases h
  | Fl.nan, Fl.fin _, h => cases h
  | Fl.fin _, Fl.nan, h => cases h
  | Fl.pinf, _, h => cases h
  | Fl.ninf, _, h => cases h
  | Fl.nan, Fl.pinf, h => cases h
  | Fl.nan, Fl.ninf, h => cases h
  | Fl.fin _, Fl.pinf, h => cases h
  | Fl.fin _, Fl.ninf, h => cases h

/-- The hypotenuse of two rounded differences. -/
theorem leg64 {ε δ : ℝ} (hε : 0 ≤ ε) (hh : HypotOk hy ε δ) {a b c d v : ℚ} (ra : Rep a) (rb : Rep b) (rc : Rep c) (rd : Rep d)
    (h : FltSqrt.hypot ((Fl.fin a : B64 sq hy) -. Fl.fin b) ((Fl.fin c : B64 sq hy) -. Fl.fin d) = Fl.fin v) :
    Rep v ∧ 0 ≤ v ∧ |(v : ℝ) - √(((a : ℝ) - b) ^ 2 + ((c : ℝ) - d) ^ 2)| ≤ ((1 + ε) * (1 + ur) - 1) * √(((a : ℝ) - b) ^ 2 + ((c : ℝ) - d) ^ 2) + δ := by
  obtain ⟨p, q, hp, hq, hv⟩ := hypot_fin h
  obtain ⟨_, _, e1, e2, n1, -⟩ := sub64 hp
  obtain ⟨_, _, e3, e4, n2, -⟩ := sub64 hq
  obtain rfl := fin_inj e1; obtain rfl := fin_inj e2; obtain rfl := fin_inj e3; obtain rfl := fin_inj e4
  have rp : Rep p := n1 ▸ near_rep _
  have rq : Rep q := n2 ▸ near_rep _
  obtain ⟨rv, v0, hv⟩ := hh p q v rp rq hv
  refine ⟨rv, v0, ?_⟩
  have k1 := near_add_rel ra rb.neg
  have k2 := near_add_rel rc rd.neg
  rw [← sub_eq_add_neg, n1, abs_sub_comm] at k1
  rw [← sub_eq_add_neg, n2, abs_sub_comm] at k2
  have k1' : |(p : ℝ) - ((a : ℝ) - b)| ≤ ur * |(a : ℝ) - b| := by
    have : ((|p - (a - b)| : ℚ) : ℝ) ≤ ((|a - b| / 2 ^ 53 : ℚ) : ℝ) := by exact_mod_cast k1
    push_cast at this
    linarith
  have k2' : |(q : ℝ) - ((c : ℝ) - d)| ≤ ur * |(c : ℝ) - d| := by
    have : ((|q - (c - d)| : ℚ) : ℝ) ≤ ((|c - d| / 2 ^ 53 : ℚ) : ℝ) := by exact_mod_cast k2
    push_cast at this
    linarith
  have k := hypot_rel (by positivity) (by norm_num) k1' k2'
  have h0 := Real.sqrt_nonneg (((a : ℝ) - b) ^ 2 + ((c : ℝ) - d) ^ 2)
  generalize √(((a : ℝ) - b) ^ 2 + ((c : ℝ) - d) ^ 2) = T at *
  generalize √((p : ℝ) ^ 2 + (q : ℝ) ^ 2) = H at *
  have k3 : H ≤ (1 + ur) * T := by have := (abs_le.mp k).2; linarith
  have k4 := abs_sub_le (v : ℝ) H T
  have k5 : ε * H ≤ ε * ((1 + ur) * T) := mul_le_mul_of_nonneg_left k3 hε
  linarith

/-- C88: the distance of two points with double ordinates, unless it overflows. -/
theorem C88_distance {ε δ : ℝ} (hε : 0 ≤ ε) (hh : HypotOk hy ε δ) (a b : Coord ℚ) (fa : IsF64 a.x ∧ IsF64 a.y) (fb : IsF64 b.x ∧ IsF64 b.y)
    (hf : isFinite (Coord.distance (toB64 a : Coord (B64 sq hy)) (toB64 b)) = true) :
    ∃ v, Coord.distance (toB64 a : Coord (B64 sq hy)) (toB64 b) = Fl.fin v ∧ 0 ≤ v ∧
      |(v : ℝ) - dist (realPt a) (realPt b)| ≤ ((1 + ε) * (1 + 1 / 2 ^ 53) - 1) * dist (realPt a) (realPt b) + δ := by
  obtain ⟨v, hv⟩ := finite_fin hf
  have := leg64 hε hh fa.1.1 fb.1.1 fa.2.1 fb.2.1 hv
  exact ⟨v, hv, this.2.1, this.2.2⟩

theorem length_sum {ε δ : ℝ} (hε : 0 ≤ ε) (hδ : 0 ≤ δ) (hh : HypotOk hy ε δ) (l : List (Coord ℚ × Coord ℚ))
    (hl : ∀ t ∈ l, Rep t.1.x ∧ Rep t.1.y ∧ Rep t.2.x ∧ Rep t.2.y) (s v : ℚ) (S : ℝ) (k : ℕ) (rs : Rep s) (s0 : 0 ≤ s) (S0 : 0 ≤ S)
    (hs : |(s : ℝ) - S| ≤ ((1 + ε) * (1 + ur) ^ (k + 1) - 1) * S + k * (1 + ur) ^ k * δ)
    (hv : l.foldl (fun a t => a +. FltSqrt.hypot ((Fl.fin t.2.x : B64 sq hy) -. Fl.fin t.1.x) (Fl.fin t.2.y -. Fl.fin t.1.y)) (Fl.fin s) = Fl.fin v) :
    Rep v ∧ s ≤ v ∧ |(v : ℝ) - (S + (l.map (fun t => dist (realPt t.1) (realPt t.2))).sum)| ≤
      ((1 + ε) * (1 + ur) ^ (k + l.length + 1) - 1) * (S + (l.map (fun t => dist (realPt t.1) (realPt t.2))).sum) +
        (k + l.length : ℕ) * (1 + ur) ^ (k + l.length) * δ := by
  induction l generalizing s S k with
  | nil =>
    obtain rfl := fin_inj hv
    exact ⟨rs, le_rfl, by simpa using hs⟩
  | cons t l ih =>
    rw [List.foldl_cons] at hv
    have fin_start : ∀ (l : List (Coord ℚ × Coord ℚ)) (x : B64 sq hy),
        l.foldl (fun a t => a +. FltSqrt.hypot ((Fl.fin t.2.x : B64 sq hy) -. Fl.fin t.1.x) (Fl.fin t.2.y -. Fl.fin t.1.y)) x = Fl.fin v → ∃ q, x = Fl.fin q := by
      intro l
      induction l with
      | nil => intro x h; exact ⟨v, h⟩
      | cons t l ih =>
        intro x h
        obtain ⟨q, hq⟩ := ih _ h
        obtain ⟨a, -, e, -⟩ := add64 hq
        exact ⟨a, e⟩
    obtain ⟨s', hs'⟩ := fin_start _ _ hv
    obtain ⟨_, w, e1, e2, n1, -⟩ := add64 hs'
    obtain rfl := fin_inj e1
    obtain ⟨r1, r2, r3, r4⟩ := hl t (by simp)
    obtain ⟨rw', w0, hw⟩ := leg64 hε hh r3 r1 r4 r2 e2
    have hd : √(((t.2.x : ℝ) - t.1.x) ^ 2 + ((t.2.y : ℝ) - t.1.y) ^ 2) = dist (realPt t.1) (realPt t.2) := by
      unfold Spec.dist
      congr 1
      show _ = ((t.1.x : ℝ) - t.2.x) ^ 2 + ((t.1.y : ℝ) - t.2.y) ^ 2
      ring
    rw [hd] at hw
    have d0 := dist_nonneg (realPt t.1) (realPt t.2)
    have key := near_add_rel rs rw'
    rw [n1, abs_sub_comm, abs_of_nonneg (add_nonneg s0 w0)] at key
    have key' : |(s' : ℝ) - (s + w)| ≤ ur * (s + w) := by
      have : ((|s' - (s + w)| : ℚ) : ℝ) ≤ (((s + w) / 2 ^ 53 : ℚ) : ℝ) := by exact_mod_cast key
      push_cast at this
      linarith
    have rs' : Rep s' := n1 ▸ near_rep _
    have ss' : s ≤ s' := by
      rw [← n1, ← near_of_rep rs]
      exact near_mono (by rw [near_of_rep rs]; linarith)
    simp only [List.map_cons, List.sum_cons, List.length_cons]
    rw [← add_assoc]
    have step : |(s' : ℝ) - (S + dist (realPt t.1) (realPt t.2))| ≤ ((1 + ε) * (1 + ur) ^ (k + 1 + 1) - 1) * (S + dist (realPt t.1) (realPt t.2)) +
        (k + 1 : ℕ) * (1 + ur) ^ (k + 1) * δ := by
      generalize dist (realPt t.1) (realPt t.2) = D at *
      have hu : (0 : ℝ) ≤ ur := by positivity
      generalize ur = u at *
      have p1 : (1 + u) ≤ (1 + u) ^ (k + 1) := le_self_pow₀ (by linarith) (by omega)
      have p2 : (1 : ℝ) ≤ (1 + u) ^ k := one_le_pow₀ (by linarith)
      have q1 : ((1 + ε) * (1 + u) - 1) * D ≤ ((1 + ε) * (1 + u) ^ (k + 1) - 1) * D := by
        apply mul_le_mul_of_nonneg_right _ d0
        have := mul_le_mul_of_nonneg_left p1 (by linarith : 0 ≤ 1 + ε)
        linarith
      have E : |((s : ℝ) + w) - (S + D)| ≤ ((1 + ε) * (1 + u) ^ (k + 1) - 1) * (S + D) + (k * (1 + u) ^ k + 1) * δ := by
        have := abs_add_le ((s : ℝ) - S) (w - D)
        rw [show (s : ℝ) - S + (w - D) = s + w - (S + D) by ring] at this
        linarith
      have E2 : (s : ℝ) + w ≤ (S + D) + |((s : ℝ) + w) - (S + D)| := by have := le_abs_self (((s : ℝ) + w) - (S + D)); linarith
      have E3 := abs_sub_le (s' : ℝ) (s + w) (S + D)
      have E4 : u * ((s : ℝ) + w) ≤ u * ((S + D) + |((s : ℝ) + w) - (S + D)|) := mul_le_mul_of_nonneg_left E2 hu
      have E5 : (1 + u) * |((s : ℝ) + w) - (S + D)| ≤ (1 + u) * (((1 + ε) * (1 + u) ^ (k + 1) - 1) * (S + D) + (k * (1 + u) ^ k + 1) * δ) :=
        mul_le_mul_of_nonneg_left E (by linarith)
      have E6 : (1 + u) * δ ≤ (1 + u) ^ (k + 1) * δ := mul_le_mul_of_nonneg_right p1 hδ
      have e7 : (1 + u) ^ (k + 1 + 1) = (1 + u) * (1 + u) ^ (k + 1) := by ring
      have e8 : (1 + u) ^ (k + 1) = (1 + u) * (1 + u) ^ k := by ring
      push_cast
      rw [e7]
      have : (1 + u) * (k * (1 + u) ^ k * δ) = k * (1 + u) ^ (k + 1) * δ := by rw [e8]; ring
      linarith
    obtain ⟨i1, i2, i3⟩ := ih (fun t ht => hl t (by simp [ht])) s' (S + dist (realPt t.1) (realPt t.2)) (k + 1) rs' (s0.trans ss') (by linarith) step (hs' ▸ hv)
    refine ⟨i1, ss'.trans i2, ?_⟩
    rw [show k + (l.length + 1) = k + 1 + l.length by ring]
    exact i3

theorem segs_map64 {A B : Type} (f : A → B) (l : List A) : segs (l.map f) = (segs l).map (fun t => (f t.1, f t.2)) := by
  unfold segs
  rw [← List.map_tail, List.zip_map]
  rfl

theorem length_fold (l : List (Coord ℚ)) (s : CASeq (B64 sq hy)) (hs : s.coordinates = l.map toB64) :
    Length.ofLine s = .ok ((segs l).foldl (fun a t => a +. FltSqrt.hypot ((Fl.fin t.2.x : B64 sq hy) -. Fl.fin t.1.x) (Fl.fin t.2.y -. Fl.fin t.1.y)) (Fl.fin 0)) := by
  rw [C35_sum, hs]
  congr 1
  split_ifs with h
  · have : segs l = [] := List.eq_nil_of_length_eq_zero (by rw [length_segs]; rw [List.length_map] at h; omega)
    rw [this]
    exact lit64
  · rw [segs_map64, List.foldl_map, lit64]
    rfl

theorem mem_segs64 {A : Type} {l : List A} {t : A × A} (h : t ∈ segs l) : t.1 ∈ l ∧ t.2 ∈ l := by
  unfold segs at h
  have h1 := List.of_mem_zip (show (t.1, t.2) ∈ _ from h)
  exact ⟨h1.1, List.mem_of_mem_tail h1.2⟩

theorem segs_rep {l : List (Coord ℚ)} (hl : ∀ c ∈ l, IsF64 c.x ∧ IsF64 c.y) : ∀ t ∈ segs l, Rep t.1.x ∧ Rep t.1.y ∧ Rep t.2.x ∧ Rep t.2.y := fun t ht => by
  obtain ⟨h1, h2⟩ := mem_segs64 ht
  exact ⟨(hl _ h1).1.1, (hl _ h1).2.1, (hl _ h2).1.1, (hl _ h2).2.1⟩

/-- C88: the computed length of a line of `n` points, unless it overflows, is within `(1+ε)(1+2^-53)^n` of the true length, up to `δ` for every segment. -/
theorem C88_length {ε δ : ℝ} (hε : 0 ≤ ε) (hδ : 0 ≤ δ) (hh : HypotOk hy ε δ) (l : List (Coord ℚ)) (hl : ∀ c ∈ l, IsF64 c.x ∧ IsF64 c.y)
    (s : CASeq (B64 sq hy)) (hs : s.coordinates = l.map toB64) :
    ∃ a, Length.ofLine s = .ok a ∧ (isFinite a = true → ∃ v : ℚ, a = Fl.fin v ∧ 0 ≤ v ∧
      |(v : ℝ) - lineLength (l.map realPt)| ≤ ((1 + ε) * (1 + 1 / 2 ^ 53) ^ l.length - 1) * lineLength (l.map realPt) + l.length * (1 + 1 / 2 ^ 53) ^ l.length * δ) := by
  refine ⟨_, length_fold l s hs, fun hf => ?_⟩
  obtain ⟨v, hv⟩ := finite_fin hf
  refine ⟨v, hv, ?_⟩
  obtain ⟨-, v0, h⟩ := length_sum hε hδ hh (segs l) (segs_rep hl) 0 v 0 0 rep_zero le_rfl le_rfl (by simp) hv
  refine ⟨v0, ?_⟩
  have e : lineLength (l.map realPt) = ((segs l).map (fun t => dist (realPt t.1) (realPt t.2))).sum := by
    unfold lineLength
    rw [segs_map64, List.map_map]
    rfl
  rw [← e, zero_add, zero_add, length_segs] at h
  match l, h with
  | [], h =>
    have : lineLength ([].map realPt) = 0 := by simp [lineLength, segs]
    rw [this] at h ⊢
    simpa using h
  | c :: l, h =>
    have e2 : (c :: l).length - 1 + 1 = (c :: l).length := by simp
    rw [e2] at h
    refine h.trans ?_
    have : (((c :: l).length - 1 : ℕ) : ℝ) * (1 + ur) ^ ((c :: l).length - 1) ≤ ((c :: l).length : ℝ) * (1 + ur) ^ (c :: l).length :=
      mul_le_mul (by exact_mod_cast Nat.sub_le _ _) (pow_le_pow_right₀ (by norm_num) (Nat.sub_le _ _)) (by positivity) (by positivity)
    have := mul_le_mul_of_nonneg_right this hδ
    linarith

/-- C88: a computed length is at least the computed length of each of its segments; it is zero only if all points coincide (for a `hypot` that vanishes only for
two zeros). -/
theorem C88_segments {ε δ : ℝ} (hε : 0 ≤ ε) (hδ : 0 ≤ δ) (hh : HypotOk hy ε δ) (l : List (Coord ℚ)) (hl : ∀ c ∈ l, IsF64 c.x ∧ IsF64 c.y)
    (s : CASeq (B64 sq hy)) (hs : s.coordinates = l.map toB64) (v : ℚ) (hv : Length.ofLine s = .ok (Fl.fin v)) :
    (∀ t ∈ segs l, ∃ w, Coord.distance (toB64 t.2 : Coord (B64 sq hy)) (toB64 t.1) = Fl.fin w ∧ 0 ≤ w ∧ w ≤ v) ∧
    ((∀ a b, Rep a → Rep b → hy a b = .fin 0 → a = 0 ∧ b = 0) → v = 0 → ∀ t ∈ segs l, t.1.x = t.2.x ∧ t.1.y = t.2.y) := by
  rw [length_fold l s hs] at hv
  have hv := Except.ok.inj hv
  have main : ∀ t ∈ segs l, ∃ w, Coord.distance (toB64 t.2 : Coord (B64 sq hy)) (toB64 t.1) = Fl.fin w ∧ 0 ≤ w ∧ w ≤ v := by
    intro t ht
    obtain ⟨p, q, e⟩ := List.append_of_mem ht
    have hr := segs_rep hl
    rw [e] at hv hr
    rw [List.foldl_append, List.foldl_cons] at hv
    have fin_start : ∀ (l : List (Coord ℚ × Coord ℚ)) (x : B64 sq hy) (v : ℚ),
        l.foldl (fun a t => a +. FltSqrt.hypot ((Fl.fin t.2.x : B64 sq hy) -. Fl.fin t.1.x) (Fl.fin t.2.y -. Fl.fin t.1.y)) x = Fl.fin v → ∃ q, x = Fl.fin q := by
      intro l
      induction l with
      | nil => intro x v h; exact ⟨v, h⟩
      | cons t l ih =>
        intro x v h
        obtain ⟨q, hq⟩ := ih _ _ h
        obtain ⟨a, -, e, -⟩ := add64 hq
        exact ⟨a, e⟩
    obtain ⟨m, hm⟩ := fin_start _ _ _ hv
    rw [hm] at hv
    obtain ⟨a, w, e1, e2, n1, -⟩ := add64 hm
    obtain ⟨r1, r2, r3, r4⟩ := hr t (by simp)
    obtain ⟨rw', w0, -⟩ := leg64 hε hh r3 r1 r4 r2 e2
    have i1 : Rep a ∧ 0 ≤ a := by
      have := length_sum hε hδ hh p (fun t ht => hr t (by simp [ht])) 0 a 0 0 rep_zero le_rfl le_rfl (by simp) e1
      exact ⟨this.1, this.2.1⟩
    have rm : Rep m := n1 ▸ near_rep _
    have wm : w ≤ m := by
      rw [← n1, ← near_of_rep rw']
      exact near_mono (by rw [near_of_rep rw']; linarith [i1.2])
    have mono : ∀ (q : List (Coord ℚ × Coord ℚ)) (m v : ℚ), (∀ t ∈ q, Rep t.1.x ∧ Rep t.1.y ∧ Rep t.2.x ∧ Rep t.2.y) → Rep m →
        q.foldl (fun a t => a +. FltSqrt.hypot ((Fl.fin t.2.x : B64 sq hy) -. Fl.fin t.1.x) (Fl.fin t.2.y -. Fl.fin t.1.y)) (Fl.fin m) = Fl.fin v → m ≤ v := by
      intro q
      induction q with
      | nil => intro m v _ _ h; exact (fin_inj h).le
      | cons t q ih =>
        intro m v hq rm h
        rw [List.foldl_cons] at h
        obtain ⟨m', hm'⟩ := fin_start _ _ _ h
        obtain ⟨_, w, e1, e2, n1, -⟩ := add64 hm'
        obtain rfl := fin_inj e1
        obtain ⟨r1, r2, r3, r4⟩ := hq t (by simp)
        obtain ⟨-, w0, -⟩ := leg64 hε hh r3 r1 r4 r2 e2
        have : m ≤ m' := by
          rw [← n1, ← near_of_rep rm]
          exact near_mono (by rw [near_of_rep rm]; linarith)
        exact this.trans (ih m' v (fun t ht => hq t (by simp [ht])) (n1 ▸ near_rep _) (hm' ▸ h))
    exact ⟨w, e2, w0, wm.trans (mono q m v (fun t ht => hr t (by simp [ht])) rm hv)⟩
  refine ⟨main, fun hz h0 t ht => ?_⟩
  obtain ⟨w, hw, w0, wv⟩ := main t ht
  obtain rfl : w = 0 := le_antisymm (h0 ▸ wv) w0
  obtain ⟨p, q, hp, hq, h⟩ := hypot_fin hw
  obtain ⟨_, _, e1, e2, n1, -⟩ := sub64 hp
  obtain ⟨_, _, e3, e4, n2, -⟩ := sub64 hq
  obtain ⟨rfl, rfl⟩ := hz p q (n1 ▸ near_rep _) (n2 ▸ near_rep _) h
  obtain rfl := fin_inj e1; obtain rfl := fin_inj e2; obtain rfl := fin_inj e3; obtain rfl := fin_inj e4
  obtain ⟨r1, r2, r3, r4⟩ := segs_rep hl t ht
  have z : ∀ {a b : ℚ}, Rep a → Rep b → near (a - b) = 0 → b = a := by
    intro a b ra rb h
    have := near_add_rel ra rb.neg
    rw [← sub_eq_add_neg, h, sub_zero] at this
    have h3 : |a - b| = 0 := by have := abs_nonneg (a - b); linarith
    rw [abs_eq_zero] at h3
    linarith
  exact ⟨z r3 r1 n1, z r4 r2 n2⟩

/-- C88: the sum is taken from the first point on, and its rounding depends on that: the length of a line need not be the length of its reversal. -/
theorem C88_reversal (hh : ∀ a, Rep a → hy a 0 = .fin |a|) (s t : CASeq (B64 sq hy))
    (hs : s.coordinates = [⟨1, 0, 0, 0⟩, ⟨0, 0, 0, 0⟩, ⟨1 / 2 ^ 53, 0, 0, 0⟩, ⟨0, 0, 0, 0⟩].map toB64)
    (ht : t.coordinates = [⟨1, 0, 0, 0⟩, ⟨0, 0, 0, 0⟩, ⟨1 / 2 ^ 53, 0, 0, 0⟩, ⟨0, 0, 0, 0⟩].reverse.map toB64) :
    Length.ofLine s = .ok (Fl.fin 1) ∧ Length.ofLine t = .ok (Fl.fin (1 + 1 / 2 ^ 52)) := by
  have sub : ∀ a b c : ℚ, rnd (a + -b) = .fin c → (Fl.fin a : B64 sq hy) -. Fl.fin b = Fl.fin c := fun a b c h => h
  have add : ∀ a b c : ℚ, rnd (a + b) = .fin c → (Fl.fin a : B64 sq hy) +. Fl.fin b = Fl.fin c := fun a b c h => h
  have hyp : ∀ a : ℚ, rnd a = .fin a → FltSqrt.hypot (Fl.fin a : B64 sq hy) (Fl.fin 0) = Fl.fin |a| := fun a h => hh a (rnd_f64 h).1
  have h1 := hyp (-1) (by decide +kernel)
  have h2 := hyp 1 (by decide +kernel)
  have h3 := hyp (1 / 2 ^ 53) (by decide +kernel)
  have h4 := hyp (-(1 / 2 ^ 53)) (by decide +kernel)
  have z0 := sub 0 0 0 (by decide +kernel)
  have z1 := sub 0 1 (-1) (by decide +kernel)
  have z2 := sub 1 0 1 (by decide +kernel)
  have z3 := sub 0 (1 / 2 ^ 53) (-(1 / 2 ^ 53)) (by decide +kernel)
  have z4 := sub (1 / 2 ^ 53) 0 (1 / 2 ^ 53) (by decide +kernel)
  have a1 := add 0 1 1 (by decide +kernel)
  have a2 := add 1 (1 / 2 ^ 53) 1 (by decide +kernel)
  have a3 := add 0 (1 / 2 ^ 53) (1 / 2 ^ 53) (by decide +kernel)
  have a4 := add (1 / 2 ^ 53) (1 / 2 ^ 53) (1 / 2 ^ 52) (by decide +kernel)
  have a5 := add (1 / 2 ^ 52) 1 (1 + 1 / 2 ^ 52) (by decide +kernel)
  have b1 : |(1 / 2 ^ 53 : ℚ)| = 1 / 2 ^ 53 := abs_of_pos (by norm_num)
  rw [length_fold _ s hs, length_fold _ t ht]
  simp only [segs, List.reverse_cons, List.reverse_nil, List.nil_append, List.cons_append, List.tail_cons, List.zip_cons_cons, List.zip_nil_right, List.foldl_cons,
    List.foldl_nil, z0, z1, z2, z3, z4, h1, h2, h3, h4, abs_neg, abs_one, b1, a1, a2, a3, a4, a5, and_self]

/-- Doubles have a `hypot` with an error of little more than half a unit. -/
theorem hypot_exists : ∃ hy : ℚ → ℚ → Val, HypotOk hy (1 / 2 ^ 52) (2 ^ (-1074 : ℤ)) ∧ (∀ a, Rep a → hy a 0 = .fin |a|) ∧
    (∀ a b, Rep a → Rep b → hy a b = .fin 0 → a = 0 ∧ b = 0) := by
  have ex : ∀ a b : ℚ, ∃ q : ℚ, (b = 0 → q = |a|) ∧ √((a : ℝ) ^ 2 + (b : ℝ) ^ 2) ≤ q ∧ (q : ℝ) ≤ √((a : ℝ) ^ 2 + (b : ℝ) ^ 2) * (1 + 1 / 2 ^ 60) := by
    intro a b
    by_cases hb : b = 0
    · refine ⟨|a|, fun _ => rfl, ?_, ?_⟩
      · subst hb; simp [Real.sqrt_sq_eq_abs]
      · subst hb
        simp only [Rat.cast_zero, ne_eq, OfNat.ofNat_ne_zero, not_false_eq_true, zero_pow, add_zero, Real.sqrt_sq_eq_abs, Rat.cast_abs]
        have := abs_nonneg (a : ℝ)
        linarith
    · have hb' : (b : ℝ) ≠ 0 := by exact_mod_cast hb
      have hp : 0 < √((a : ℝ) ^ 2 + (b : ℝ) ^ 2) := Real.sqrt_pos.mpr (by positivity)
      obtain ⟨q, q1, q2⟩ := exists_rat_btwn (show √((a : ℝ) ^ 2 + (b : ℝ) ^ 2) < √((a : ℝ) ^ 2 + (b : ℝ) ^ 2) * (1 + 1 / 2 ^ 60) by linarith)
      exact ⟨q, fun h => (hb h).elim, q1.le, q2.le⟩
  choose q q0 q1 q2 using ex
  have pos : ∀ a b, 0 ≤ q a b := fun a b => by
    have := (Real.sqrt_nonneg _).trans (q1 a b)
    exact_mod_cast this
  have big : ∀ a b, |a| ≤ q a b ∧ |b| ≤ q a b := fun a b => by
    have h1 : |(a : ℝ)| ≤ √((a : ℝ) ^ 2 + (b : ℝ) ^ 2) := Real.abs_le_sqrt (by have := sq_nonneg (b : ℝ); linarith)
    have h2 : |(b : ℝ)| ≤ √((a : ℝ) ^ 2 + (b : ℝ) ^ 2) := Real.abs_le_sqrt (by have := sq_nonneg (a : ℝ); linarith)
    exact ⟨by exact_mod_cast h1.trans (q1 a b), by exact_mod_cast h2.trans (q1 a b)⟩
  refine ⟨fun a b => .fin (near (q a b)), ?_, ?_, ?_⟩
  · intro a b v ra rb h
    obtain rfl : near (q a b) = v := Val.fin.inj h
    refine ⟨near_rep _, ?_, ?_⟩
    · have := near_mono (pos a b)
      rwa [near_of_rep rep_zero] at this
    · have e := near_err_abs (q a b)
      rw [abs_of_nonneg (pos a b), abs_sub_comm] at e
      have e' : |(near (q a b) : ℝ) - q a b| ≤ q a b / 2 ^ 53 + 2 ^ (-1075 : ℤ) := by
        have : ((|near (q a b) - q a b| : ℚ) : ℝ) ≤ ((q a b / 2 ^ 53 + 2 ^ (-1075 : ℤ) : ℚ) : ℝ) := by exact_mod_cast e
        push_cast at this
        exact this
      have h1 := q1 a b
      have h2 := q2 a b
      have h0 := Real.sqrt_nonneg ((a : ℝ) ^ 2 + (b : ℝ) ^ 2)
      have t : (2 : ℝ) ^ (-1075 : ℤ) ≤ 2 ^ (-1074 : ℤ) := zpow_le_zpow_right₀ (by norm_num) (by norm_num)
      generalize (2 : ℝ) ^ (-1075 : ℤ) = t1 at *
      generalize (2 : ℝ) ^ (-1074 : ℤ) = t2 at *
      generalize √((a : ℝ) ^ 2 + (b : ℝ) ^ 2) = H at *
      have h3 := abs_sub_le (near (q a b) : ℝ) (q a b) H
      rw [abs_of_nonneg (by linarith : (0 : ℝ) ≤ q a b - H)] at h3
      norm_num at *
      linarith
  · intro a ra
    show Val.fin (near (q a 0)) = _
    rw [q0 a 0 rfl]
    congr 1
    rcases abs_choice a with h | h <;> rw [h]
    · exact near_of_rep ra
    · exact near_of_rep ra.neg
  · intro a b ra rb h
    have h : near (q a b) = 0 := Val.fin.inj h
    have z : ∀ c, Rep c → |c| ≤ q a b → c = 0 := fun c rc hc => by
      have := near_mono hc
      rw [h] at this
      have e : near |c| = |c| := by
        rcases abs_choice c with h | h <;> rw [h]
        · exact near_of_rep rc
        · exact near_of_rep rc.neg
      rw [e] at this
      exact abs_eq_zero.mp (le_antisymm this (abs_nonneg c))
    exact ⟨z a ra (big a b).1, z b rb (big a b).2⟩

section examples

/-- The hypotheses can be met together. -/
example : ∃ hy, HypotOk hy (1 / 2 ^ 52) (2 ^ (-1074 : ℤ)) ∧ (∀ a, Rep a → hy a 0 = .fin |a|) ∧
    ∀ s : CASeq (B64 (fun _ => .nan) hy), s.coordinates = [⟨1, 0, 0, 0⟩, ⟨0, 0, 0, 0⟩, ⟨1 / 2 ^ 53, 0, 0, 0⟩, ⟨0, 0, 0, 0⟩].map toB64 →
      Length.ofLine s = .ok (Fl.fin 1) := by
  obtain ⟨hy, h1, h2, -⟩ := hypot_exists
  exact ⟨hy, h1, h2, fun s hs => (C88_reversal h2 s { s with coordinates := _ } hs rfl).1⟩

example : IsF64 (1 / 2 ^ 53) ∧ IsF64 0 ∧ IsF64 1 := ⟨f64_of (by decide +kernel), f64_of (by decide +kernel), f64_of (by decide +kernel)⟩

end examples

end Verif.Props
