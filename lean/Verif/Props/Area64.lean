import Verif.Props.Area
import Verif.Props.GridPredicates
import Verif.Props.PrecisionModel64
import Verif.Lemmas.DDInt

/-! # C87: ring areas in binary64 -/

set_option linter.unusedSectionVars false

namespace Verif.Props
open Flt Verif.Spec Verif.Binary64
variable {sq : ℚ → Val} {hy : ℚ → ℚ → Val}

local notation "R" => (Fl.round (r := binary64 sq hy))

/-- The terms of the sum: for every inner vertex the distance of its x from the first one times the difference of the y of its neighbours. -/
def areaTerms (ring : List (Coord ℚ)) : List ℚ :=
  match ring with
  | [] => []
  | c0 :: _ => (trips ring).map (fun t => (t.2.1.x - c0.x) * (t.1.y - t.2.2.y))

/-- Size of the sum: half the sum of the absolute values of the terms. -/
def areaSize (ring : List (Coord ℚ)) : ℚ := ((areaTerms ring).map (fun z => |z|)).sum / 2

/-- unit of rounding -/
def u64 : ℚ := 1 / 2 ^ 53
/-- half the least positive number -/
def eta64 : ℚ := 2 ^ (-1075 : ℤ)

theorem pow_bound (m : ℕ) (h : m ≤ 2 ^ 52) : (1 + u64) ^ m ≤ 1 + 2 * m * u64 := by
  induction m with
  | zero => simp
  | succ m ih =>
    have h1 := ih (by omega)
    have hm : (m : ℚ) * u64 ≤ 1 / 2 := by
      have : (m : ℚ) ≤ 2 ^ 52 := by exact_mod_cast (by omega : m ≤ 2 ^ 52)
      unfold u64
      calc (m : ℚ) * (1 / 2 ^ 53) ≤ 2 ^ 52 * (1 / 2 ^ 53) := mul_le_mul_of_nonneg_right this (by positivity)
        _ = 1 / 2 := by norm_num
    have hu : (0 : ℚ) < u64 := by unfold u64; positivity
    rw [pow_succ]
    calc (1 + u64) ^ m * (1 + u64) ≤ (1 + 2 * m * u64) * (1 + u64) := mul_le_mul_of_nonneg_right h1 (by linarith)
      _ ≤ 1 + 2 * ((m + 1 : ℕ) : ℚ) * u64 := by
        push_cast
        nlinarith [mul_le_mul_of_nonneg_right hm hu.le]

/-- One term. -/
theorem term_err {x x0 y y' p : ℚ} (hx : Rep x) (hx0 : Rep x0) (hy1 : Rep y) (hy2 : Rep y') (hp : near (near (x - x0) * near (y - y')) = p) :
    |p - (x - x0) * (y - y')| ≤ ((1 + u64) ^ 3 - 1) * |(x - x0) * (y - y')| + eta64 := by
  have ea : |near (x - x0) - (x - x0)| ≤ u64 * |x - x0| := by
    have := near_add_rel hx hx0.neg
    rw [← sub_eq_add_neg, abs_sub_comm] at this
    unfold u64; linarith
  have eb : |near (y - y') - (y - y')| ≤ u64 * |y - y'| := by
    have := near_add_rel hy1 hy2.neg
    rw [← sub_eq_add_neg, abs_sub_comm] at this
    unfold u64; linarith
  have ep := near_err_abs (near (x - x0) * near (y - y'))
  rw [hp, abs_sub_comm] at ep
  generalize near (x - x0) = a at *
  generalize near (y - y') = b at *
  generalize x - x0 = d at *
  generalize y - y' = e at *
  have hu : (0 : ℚ) ≤ u64 := by unfold u64; positivity
  have ha : |a| ≤ (1 + u64) * |d| := by have := abs_sub_abs_le_abs_sub a d; linarith
  have hab : |a * b - d * e| ≤ ((1 + u64) ^ 2 - 1) * |d * e| := by
    have : a * b - d * e = a * (b - e) + (a - d) * e := by ring
    rw [this]
    refine (abs_add_le _ _).trans ?_
    rw [abs_mul, abs_mul, abs_mul]
    have k1 : |a| * |b - e| ≤ (1 + u64) * |d| * (u64 * |e|) := mul_le_mul ha eb (abs_nonneg _) (by positivity)
    have k2 : |a - d| * |e| ≤ u64 * |d| * |e| := mul_le_mul_of_nonneg_right ea (abs_nonneg _)
    nlinarith
  have hab' : |a * b| ≤ (1 + u64) ^ 2 * |d * e| := by have := abs_sub_abs_le_abs_sub (a * b) (d * e); linarith
  have ep' : |p - a * b| ≤ u64 * |a * b| + eta64 := by unfold u64 eta64; linarith
  have tri := abs_sub_le p (a * b) (d * e)
  have k3 := mul_le_mul_of_nonneg_left hab' hu
  nlinarith

/-- The running sum. -/
theorem area_sum (c0 : Coord ℚ) (r0 : Rep c0.x) (l : List (Coord ℚ × Coord ℚ × Coord ℚ))
    (hl : ∀ t ∈ l, Rep t.1.y ∧ Rep t.2.1.x ∧ Rep t.2.2.y) (s v S T : ℚ) (k : ℕ) (rs : Rep s)
    (hT : |S| ≤ T) (hs : |s - S| ≤ ((1 + u64) ^ (k + 3) - 1) * T + k * (1 + u64) ^ k * eta64)
    (hv : l.foldl (fun s t => s +. ((Fl.fin t.2.1.x : B64 sq hy) -. Fl.fin c0.x) *. (Fl.fin t.1.y -. Fl.fin t.2.2.y)) (Fl.fin s) = Fl.fin v) :
    Rep v ∧ |v - (S + (l.map (fun t => (t.2.1.x - c0.x) * (t.1.y - t.2.2.y))).sum)| ≤
      ((1 + u64) ^ (k + l.length + 3) - 1) * (T + ((l.map (fun t => (t.2.1.x - c0.x) * (t.1.y - t.2.2.y))).map (fun z => |z|)).sum)
        + (k + l.length) * (1 + u64) ^ (k + l.length) * eta64 := by
  induction l generalizing s S T k with
  | nil =>
    obtain rfl := fin_inj hv
    simpa using ⟨rs, hs⟩
  | cons t l ih =>
    rw [List.foldl_cons] at hv
    -- the next sum is finite
    have fold_fin : ∀ (l : List (Coord ℚ × Coord ℚ × Coord ℚ)) (x : B64 sq hy),
        l.foldl (fun s t => s +. ((Fl.fin t.2.1.x : B64 sq hy) -. Fl.fin c0.x) *. (Fl.fin t.1.y -. Fl.fin t.2.2.y)) x = Fl.fin v → ∃ q, x = Fl.fin q := by
      intro l
      induction l with
      | nil => intro x h; exact ⟨v, h⟩
      | cons t l ih =>
        intro x h
        obtain ⟨q, hq⟩ := ih _ h
        obtain ⟨a, b, ha, -⟩ := add64 hq
        exact ⟨a, ha⟩
    obtain ⟨s', hs'⟩ := fold_fin l _ hv
    rw [hs'] at hv
    obtain ⟨a, p, ha, hp, n1, -⟩ := add64 hs'
    obtain rfl := fin_inj ha
    obtain ⟨d, e, hd, he, n2, -⟩ := mul64 hp
    obtain ⟨d1, d2, hd1, hd2, n3, -⟩ := sub64 hd
    obtain ⟨e1, e2, he1, he2, n4, -⟩ := sub64 he
    obtain rfl := fin_inj hd1
    obtain rfl := fin_inj hd2
    obtain rfl := fin_inj he1
    obtain rfl := fin_inj he2
    subst n3 n4
    obtain ⟨q1, q2, q3⟩ := hl t (by simp)
    have te := term_err q2 r0 q1 q3 n2
    have rp : Rep p := n2 ▸ near_rep _
    have ae := near_add_rel rs rp
    rw [n1] at ae
    have rs' : Rep s' := n1 ▸ near_rep _
    generalize ht : (t.2.1.x - c0.x) * (t.1.y - t.2.2.y) = z at te
    have hu : (0 : ℚ) ≤ u64 := by unfold u64; positivity
    have he : (0 : ℚ) ≤ eta64 := by unfold eta64; exact (two_pos _).le
    have hw : (1 : ℚ) ≤ (1 + u64) ^ k := one_le_pow₀ (by linarith)
    have step : |s' - (S + z)| ≤ ((1 + u64) ^ (k + 1 + 3) - 1) * (T + |z|) + ((k + 1 : ℕ) : ℚ) * (1 + u64) ^ (k + 1) * eta64 := by
      have a1 : |s' - (s + p)| ≤ u64 * |s + p| := by rw [abs_sub_comm]; unfold u64; linarith
      have a2 : |s + p - (S + z)| ≤ |s - S| + |p - z| := by
        have := abs_add_le (s - S) (p - z)
        rwa [show s - S + (p - z) = s + p - (S + z) by ring] at this
      have a3 : |s + p| ≤ |s + p - (S + z)| + (T + |z|) := by
        have h1 := abs_sub_abs_le_abs_sub (s + p) (S + z)
        have h2 := abs_add_le S z
        linarith
      have a4 := abs_sub_le s' (s + p) (S + z)
      have T0 : 0 ≤ T := (abs_nonneg S).trans hT
      have z0 := abs_nonneg z
      have a5 : |s' - (S + z)| ≤ (1 + u64) * (|s - S| + |p - z|) + u64 * (T + |z|) := by nlinarith
      have a6 : (1 + u64) * (|s - S| + |p - z|) ≤ (1 + u64) * ((((1 + u64) ^ (k + 3) - 1) * T + k * (1 + u64) ^ k * eta64) + (((1 + u64) ^ 3 - 1) * |z| + eta64)) :=
        mul_le_mul_of_nonneg_left (add_le_add hs te) (by linarith)
      have w4 : (1 + u64) ^ 4 ≤ (1 + u64) ^ (k + 1 + 3) := pow_le_pow_right₀ (by linarith) (by omega)
      have w5 : (1 + u64) * eta64 ≤ (1 + u64) ^ (k + 1) * eta64 := by
        apply mul_le_mul_of_nonneg_right _ he
        rw [pow_succ]; nlinarith
      refine a5.trans ((add_le_add_left a6 _).trans ?_)
      have w6 := mul_le_mul_of_nonneg_right w4 z0
      push_cast
      have e1 : (1 + u64) ^ (k + 1 + 3) = (1 + u64) * (1 + u64) ^ (k + 3) := by ring
      have e2 : (1 + u64) ^ (k + 1) = (1 + u64) * (1 + u64) ^ k := by ring
      rw [e1] at w6 ⊢
      rw [e2] at w5 ⊢
      nlinarith
    have rc := ih (fun t' ht' => hl t' (by simp [ht'])) s' (S + z) (T + |z|) (k + 1) rs' ((abs_add_le _ _).trans (by linarith)) step hv
    refine ⟨rc.1, ?_⟩
    have r2 := rc.2
    rw [List.map_cons, List.map_cons, List.sum_cons, List.sum_cons, ht, List.length_cons]
    rw [show k + (l.length + 1) + 3 = k + 1 + l.length + 3 by ring, show k + (l.length + 1) = k + 1 + l.length by ring, ← add_assoc S, ← add_assoc T]
    push_cast at r2 ⊢
    rw [show (k : ℚ) + (l.length + 1) = k + 1 + l.length by ring]
    exact r2

/-- The terms add up to the area. -/
theorem area_terms (c0 : Coord ℚ) (l : List (Coord ℚ)) (hl : 3 ≤ (c0 :: l).length) (hc : Closed2D (c0 :: l)) :
    ((trips (c0 :: l)).map (fun t => (t.2.1.x - c0.x) * (t.1.y - t.2.2.y))).sum = -shoelace (c0 :: l) := by
  have h := (C33_shoelace (c0 :: l) hc).1
  rw [area_fold, if_neg (by omega)] at h
  have h := Except.ok.inj h
  simp only [exact_add, exact_sub, exact_mul, exact_div, exact_lit, Rat.cast_zero, Rat.cast_ofNat] at h
  rw [foldl_add_sum, zero_add] at h
  linarith

theorem toB64_trips (c0 : Coord ℚ) (l : List (Coord ℚ)) (x : B64 sq hy) :
    (trips (l.map toB64)).foldl (fun s t => s +. (t.2.1.x -. (toB64 c0 : Coord (B64 sq hy)).x) *. (t.1.y -. t.2.2.y)) x =
      (trips l).foldl (fun s t => s +. ((Fl.fin t.2.1.x : B64 sq hy) -. Fl.fin c0.x) *. (Fl.fin t.1.y -. Fl.fin t.2.2.y)) x := by
  rw [trips_map, List.foldl_map]
  rfl

theorem mem_trips {A : Type} {l : List A} {t : A × A × A} (h : t ∈ trips l) : t.1 ∈ l ∧ t.2.1 ∈ l ∧ t.2.2 ∈ l := by
  unfold trips at h
  have h1 := List.of_mem_zip (show (t.1, t.2) ∈ _ from h)
  have h2 := List.of_mem_zip (show (t.2.1, t.2.2) ∈ _ from h1.2)
  exact ⟨h1.1, List.mem_of_mem_tail h2.1, List.mem_of_mem_tail (List.mem_of_mem_tail h2.2)⟩

theorem two_lit64 : (lit 2 : B64 sq hy) = Fl.fin 2 :=
  rnd_of_f64 ⟨⟨2, 0, by norm_num, by norm_num, by norm_num⟩, by rw [abs_of_pos (by norm_num), ← zpow_natCast]; exact (zpow_one (2 : ℚ)).symm.trans_lt (two_lt_iff.mpr (by norm_num))⟩

/-- C87: the computed area of a closed ring of doubles, unless it overflows, is within a few units of rounding per point of the size of its terms. -/
theorem C87_error (ring : List (Coord ℚ)) (hr : ∀ c ∈ ring, IsF64 c.x ∧ IsF64 c.y) (hc : Closed2D ring) (hn : ring.length ≤ 2 ^ 50) :
    ∃ a, Area.ofRingSigned (ring.map (toB64 : Coord ℚ → Coord (B64 sq hy))) = .ok a ∧
      (isFinite a = true → ∃ v, a = Fl.fin v ∧
        |v - -shoelace ring / 2| ≤ (ring.length + 2) / 2 ^ 52 * areaSize ring + ring.length * 2 ^ (-1074 : ℤ)) := by
  have hu : (0 : ℚ) < u64 := by unfold u64; positivity
  have he : (0 : ℚ) < eta64 := by unfold eta64; exact two_pos _
  have e74 : (2 : ℚ) ^ (-1074 : ℤ) = 2 * eta64 := by
    unfold eta64
    rw [show (-1074 : ℤ) = -1075 + 1 by norm_num, two_add, zpow_one, mul_comm]
  match ring, hr, hc, hn with
  | [], _, _, _ => exact ⟨lit 0, rfl, fun _ => ⟨0, lit64, by simp [shoelace, areaSize, areaTerms]⟩⟩
  | c0 :: l, hr, hc, hn =>
    by_cases h3 : (c0 :: l).length < 3
    · refine ⟨lit 0, ?_, fun _ => ⟨0, lit64, ?_⟩⟩
      · rw [List.map_cons, area_fold, if_pos (by simpa using h3)]
      · have := (C33_shoelace (c0 :: l) hc).1
        rw [area_fold, if_pos h3] at this
        have := Except.ok.inj this
        rw [exact_lit, Rat.cast_zero] at this
        rw [← this, sub_zero, abs_zero]
        have : 0 ≤ areaSize (c0 :: l) := by
          unfold areaSize
          refine div_nonneg (List.sum_nonneg ?_) (by norm_num)
          intro x hx
          obtain ⟨z, -, rfl⟩ := List.mem_map.mp hx
          exact abs_nonneg z
        have h74 := two_pos (-1074)
        exact add_nonneg (mul_nonneg (by positivity) this) (mul_nonneg (Nat.cast_nonneg _) h74.le)
    · refine ⟨_, by rw [List.map_cons, area_fold, if_neg (by simpa using h3), ← List.map_cons, toB64_trips], fun hf => ?_⟩
      obtain ⟨v, hv⟩ := finite_fin hf
      refine ⟨v, hv, ?_⟩
      rw [two_lit64] at hv
      obtain ⟨s, hs, -, n1, -⟩ := div64 hv
      rw [lit64] at hs
      have r0 := (hr c0 (by simp)).1.1
      obtain ⟨rs, hs2⟩ := area_sum c0 r0 (trips (c0 :: l)) (fun t ht => by
        obtain ⟨m1, m2, m3⟩ := mem_trips ht
        exact ⟨(hr _ m1).2.1, (hr _ m2).1.1, (hr _ m3).2.1⟩) 0 s 0 0 0 rep_zero (by simp) (by simp) hs
      rw [zero_add, zero_add, area_terms c0 l (by omega) hc] at hs2
      have hsz : ((trips (c0 :: l)).map (fun t => (t.2.1.x - c0.x) * (t.1.y - t.2.2.y)) |>.map (fun z => |z|)).sum = 2 * areaSize (c0 :: l) := by
        unfold areaSize areaTerms
        ring
      have hS : |(-shoelace (c0 :: l))| ≤ 2 * areaSize (c0 :: l) := by
        rw [← area_terms c0 l (by omega) hc, ← hsz]
        generalize (trips (c0 :: l)).map (fun t => (t.2.1.x - c0.x) * (t.1.y - t.2.2.y)) = L
        induction L with
        | nil => simp
        | cons a L ih => simp only [List.map_cons, List.sum_cons]; exact (abs_add_le _ _).trans (by linarith)
      rw [hsz] at hs2
      have hk : (trips (c0 :: l)).length = l.length - 1 := by rw [length_trips]; simp
      have hl2 : 2 ≤ l.length := by simp at h3; omega
      have hlen : (c0 :: l).length = (trips (c0 :: l)).length + 2 := by rw [hk]; simp; omega
      have hn' : (trips (c0 :: l)).length + 2 ≤ 2 ^ 50 := by omega
      rw [hlen]
      generalize (trips (c0 :: l)).length = k at *
      generalize areaSize (c0 :: l) = T at *
      generalize -shoelace (c0 :: l) = A at *
      have T0 : 0 ≤ T := by have := abs_nonneg A; linarith
      have p1 := pow_bound (k + 4) (by omega)
      have p2 := pow_bound (k + 1) (by omega)
      have e1 := near_err_abs (s / 2)
      rw [n1, abs_sub_comm, abs_div, abs_two] at e1
      have e1' : |v - s / 2| ≤ u64 * (|s| / 2) + eta64 := by unfold u64 eta64; linarith
      simp only [Nat.cast_zero, zero_add] at hs2
      have a1 : |s| ≤ |s - A| + 2 * T := by have := abs_sub_abs_le_abs_sub s A; linarith
      have a2 : |v - A / 2| ≤ |v - s / 2| + |s - A| / 2 := by
        have := abs_sub_le v (s / 2) (A / 2)
        rw [show s / 2 - A / 2 = (s - A) / 2 by ring, abs_div, abs_two] at this
        exact this
      have a3 : |v - A / 2| ≤ (1 + u64) * |s - A| / 2 + u64 * T + eta64 := by nlinarith
      have a4 : (1 + u64) * |s - A| ≤ (1 + u64) * (((1 + u64) ^ (k + 3) - 1) * (2 * T) + k * (1 + u64) ^ k * eta64) :=
        mul_le_mul_of_nonneg_left hs2 (by linarith)
      have a5 : |v - A / 2| ≤ ((1 + u64) ^ (k + 4) - 1) * T + (k * (1 + u64) ^ (k + 1) / 2 + 1) * eta64 := by
        refine a3.trans ?_
        have e1 : (1 + u64) ^ (k + 4) = (1 + u64) * (1 + u64) ^ (k + 3) := by ring
        have e2 : (1 + u64) ^ (k + 1) = (1 + u64) * (1 + u64) ^ k := by ring
        rw [e1, e2]
        linarith
      refine a5.trans (add_le_add ?_ ?_)
      · apply mul_le_mul_of_nonneg_right _ T0
        have : (((k + 2 : ℕ) : ℚ) + 2) / 2 ^ 52 = 2 * ((k + 4 : ℕ) : ℚ) * u64 := by unfold u64; push_cast; ring
        rw [this]
        linarith
      · rw [e74, ← mul_assoc]
        apply mul_le_mul_of_nonneg_right _ he.le
        have hw : (1 + u64) ^ (k + 1) ≤ 2 := by
          have : ((k + 1 : ℕ) : ℚ) ≤ 2 ^ 50 := by exact_mod_cast (by omega : k + 1 ≤ 2 ^ 50)
          have : 2 * ((k + 1 : ℕ) : ℚ) * u64 ≤ 1 := by
            unfold u64
            calc 2 * ((k + 1 : ℕ) : ℚ) * (1 / 2 ^ 53) ≤ 2 * 2 ^ 50 * (1 / 2 ^ 53) := by
                  apply mul_le_mul_of_nonneg_right _ (by positivity); linarith
              _ ≤ 1 := by norm_num
          linarith
        have := mul_le_mul_of_nonneg_left hw (Nat.cast_nonneg (α := ℚ) k)
        push_cast
        linarith

/-- C87: so is the unsigned area, for both forms of the input. -/
theorem C87_absolute (ring : List (Coord ℚ)) (hr : ∀ c ∈ ring, IsF64 c.x ∧ IsF64 c.y) (hc : Closed2D ring) (hn : ring.length ≤ 2 ^ 50) (s : CASeq (B64 sq hy))
    (hs : s.coordinates = ring.map toB64) :
    ∃ a, Area.ofRing (ring.map (toB64 : Coord ℚ → Coord (B64 sq hy))) = .ok a ∧ Area.ofRingSeq s = .ok a ∧
      (isFinite a = true → ∃ v, a = Fl.fin v ∧
        |v - |shoelace ring| / 2| ≤ (ring.length + 2) / 2 ^ 52 * areaSize ring + ring.length * 2 ^ (-1074 : ℤ)) := by
  obtain ⟨a, ha, h⟩ := C87_error (sq := sq) (hy := hy) ring hr hc hn
  have e : Area.ofRing (ring.map (toB64 : Coord ℚ → Coord (B64 sq hy))) = .ok (Flt.abs a) := by
    unfold Area.ofRing
    rw [ha]
    rfl
  refine ⟨Flt.abs a, e, by rw [(C33_sequence s).2, hs, e], fun hf => ?_⟩
  have hf' : isFinite a = true := by
    match a, hf with
    | Fl.fin q, _ => rfl
  obtain ⟨v, rfl, hv⟩ := h hf'
  refine ⟨|v|, rfl, le_trans ?_ hv⟩
  have := abs_abs_sub_abs_le v (-shoelace ring / 2)
  rwa [abs_div (-shoelace ring), abs_neg, abs_two] at this

/-- C87: hence the sign of the computed area is right unless the area is small against the size of its terms. -/
theorem C87_sign (ring : List (Coord ℚ)) (hr : ∀ c ∈ ring, IsF64 c.x ∧ IsF64 c.y) (hc : Closed2D ring) (hn : ring.length ≤ 2 ^ 50)
    (hb : (ring.length + 2) / 2 ^ 52 * areaSize ring + ring.length * 2 ^ (-1074 : ℤ) < |shoelace ring| / 2) (v : ℚ)
    (hv : Area.ofRingSigned (ring.map (toB64 : Coord ℚ → Coord (B64 sq hy))) = .ok (Fl.fin v)) :
    (0 < v ↔ shoelace ring < 0) ∧ (v < 0 ↔ 0 < shoelace ring) := by
  obtain ⟨a, ha, h⟩ := C87_error (sq := sq) (hy := hy) ring hr hc hn
  obtain rfl := Except.ok.inj (hv.symm.trans ha)
  obtain ⟨v', hv', he⟩ := h rfl
  obtain rfl := fin_inj hv'
  have := abs_lt.mp (lt_of_le_of_lt he hb)
  rcases le_total 0 (shoelace ring) with k | k
  · rw [abs_of_nonneg k] at this
    exact ⟨⟨fun _ => by linarith, fun _ => by linarith⟩, ⟨fun _ => by linarith, fun _ => by linarith⟩⟩
  · rw [abs_of_nonpos k] at this
    exact ⟨⟨fun _ => by linarith, fun _ => by linarith⟩, ⟨fun _ => by linarith, fun _ => by linarith⟩⟩

/-- The ordinates are multiples of `2^g` by integers of at most `b` bits. -/
def OnGridB (b : ℕ) (g : ℤ) (p : Coord ℚ) : Prop := ∃ m n : ℤ, |m| ≤ 2 ^ b ∧ |n| ≤ 2 ^ b ∧ p.x = m * 2 ^ g ∧ p.y = n * 2 ^ g

/-- An ordinate. -/
def OrdB (b : ℕ) (g : ℤ) (x : ℚ) : Prop := ∃ m : ℤ, |m| ≤ 2 ^ b ∧ x = m * 2 ^ g

theorem ordB_f64 {b : ℕ} {g : ℤ} {x : ℚ} (h : OrdB b g x) (hb : b ≤ 53) (h1 : -1074 ≤ g) (h2 : g ≤ 900) : IsF64 x := by
  obtain ⟨m, hm, rfl⟩ := h
  have hle : |(m : ℚ) * 2 ^ g| ≤ 2 ^ (g + 53) := by
    rw [abs_mul, abs_of_pos (two_pos g), two_add, mul_comm]
    apply mul_le_mul_of_nonneg_left _ (two_pos g).le
    have : |m| ≤ 2 ^ 53 := hm.trans (pow_le_pow_right₀ (by norm_num) hb)
    exact_mod_cast this
  refine ⟨rep_mul2 h1 ⟨m, rfl⟩ hle, lt_of_le_of_lt hle ?_⟩
  rw [← zpow_natCast, two_lt_iff]; push_cast; omega

theorem fin_of {q : ℚ} (h : IsF64 q) : R q = Fl.fin q := rnd_of_f64 h

/-- C87: on a grid so coarse that no sum is rounded, the area is exact. -/
theorem C87_exact (b : ℕ) (g : ℤ) (h1 : -500 ≤ g) (h2 : g ≤ 400) (ring : List (Coord ℚ)) (hr : ∀ c ∈ ring, OnGridB b g c) (hc : Closed2D ring)
    (hn : ring.length * 2 ^ (2 * b + 2) ≤ 2 ^ 53) :
    Area.ofRingSigned (ring.map (toB64 : Coord ℚ → Coord (B64 sq hy))) = .ok (Fl.fin (-shoelace ring / 2)) ∧
    Area.ofRing (ring.map (toB64 : Coord ℚ → Coord (B64 sq hy))) = .ok (Fl.fin (|shoelace ring| / 2)) := by
  have main : Area.ofRingSigned (ring.map (toB64 : Coord ℚ → Coord (B64 sq hy))) = .ok (Fl.fin (-shoelace ring / 2)) := by
    match ring, hr, hc, hn with
    | [], _, _, _ =>
      show Except.ok (lit 0 : B64 sq hy) = _
      rw [lit64]; simp [shoelace]
    | c0 :: l, hr, hc, hn =>
      by_cases h3 : (c0 :: l).length < 3
      · rw [List.map_cons, area_fold, if_pos (by simpa using h3), lit64]
        have := (C33_shoelace (c0 :: l) hc).1
        rw [area_fold, if_pos h3] at this
        have := Except.ok.inj this
        rw [exact_lit, Rat.cast_zero] at this
        rw [← this]
      · rw [List.map_cons, area_fold, if_neg (by simpa using h3), ← List.map_cons, toB64_trips, lit64, two_lit64]
        have hb : 2 * b + 2 ≤ 52 := by
          have : 2 ^ 2 * 2 ^ (2 * b + 2) ≤ 2 ^ 53 * 2 := by
            have : 3 * 2 ^ (2 * b + 2) ≤ (c0 :: l).length * 2 ^ (2 * b + 2) := Nat.mul_le_mul_right _ (by omega)
            omega
          rw [← pow_add, ← pow_succ] at this
          have := (Nat.pow_le_pow_iff_right (by norm_num)).mp this
          omega
        have o : ∀ c ∈ c0 :: l, OrdB b g c.x ∧ OrdB b g c.y := fun c hc => by
          obtain ⟨m, n, hm, hn, hx, hy⟩ := hr c hc
          exact ⟨⟨m, hm, hx⟩, n, hn, hy⟩
        have diff : ∀ x y, OrdB b g x → OrdB b g y → OrdB (b + 1) g (x - y) := by
          rintro x y ⟨m, hm, rfl⟩ ⟨n, hn, rfl⟩
          refine ⟨m - n, ?_, by push_cast; ring⟩
          rw [pow_succ]
          have := abs_sub m n
          linarith
        have term : ∀ x y, OrdB (b + 1) g x → OrdB (b + 1) g y → OrdB (2 * b + 2) (2 * g) (x * y) := by
          rintro x y ⟨m, hm, rfl⟩ ⟨n, hn, rfl⟩
          refine ⟨m * n, ?_, by push_cast; rw [show 2 * g = g + g by ring, two_add]; ring⟩
          rw [abs_mul, show 2 * b + 2 = (b + 1) + (b + 1) by ring, pow_add 2 (b + 1) (b + 1)]
          exact mul_le_mul hm hn (abs_nonneg _) (by positivity)
        have fold : ∀ (L : List (Coord ℚ × Coord ℚ × Coord ℚ)), (∀ t ∈ L, t ∈ trips (c0 :: l)) → ∀ (j : ℕ) (m : ℤ), |m| ≤ j * 2 ^ (2 * b + 2) →
            (j + L.length) * 2 ^ (2 * b + 2) ≤ 2 ^ 53 →
            L.foldl (fun s t => s +. ((Fl.fin t.2.1.x : B64 sq hy) -. Fl.fin c0.x) *. (Fl.fin t.1.y -. Fl.fin t.2.2.y)) (Fl.fin (m * 2 ^ (2 * g))) =
              Fl.fin (m * 2 ^ (2 * g) + (L.map (fun t => (t.2.1.x - c0.x) * (t.1.y - t.2.2.y))).sum) ∧
            ∃ k : ℤ, |k| ≤ 2 ^ 53 ∧ m * 2 ^ (2 * g) + (L.map (fun t => (t.2.1.x - c0.x) * (t.1.y - t.2.2.y))).sum = k * 2 ^ (2 * g) := by
          intro L
          induction L with
          | nil =>
            intro _ j m hm hj
            refine ⟨by simp, m, ?_, by simp⟩
            have : (j : ℤ) * 2 ^ (2 * b + 2) ≤ 2 ^ 53 := by exact_mod_cast (by simpa using hj : j * 2 ^ (2 * b + 2) ≤ 2 ^ 53)
            linarith
          | cons t L ih =>
            intro hL j m hm hj
            obtain ⟨m1, m2, m3⟩ := mem_trips (hL t (by simp))
            have hx := diff _ _ (o _ m2).1 (o c0 (by simp)).1
            have hy' := diff _ _ (o _ m1).2 (o _ m3).2
            have hz := term _ _ hx hy'
            have e1 : (Fl.fin t.2.1.x : B64 sq hy) -. Fl.fin c0.x = Fl.fin (t.2.1.x - c0.x) :=
              (show _ = R (t.2.1.x + -c0.x) from rfl).trans (by rw [← sub_eq_add_neg]; exact fin_of (ordB_f64 hx (by omega) (by omega) (by omega)))
            have e2 : (Fl.fin t.1.y : B64 sq hy) -. Fl.fin t.2.2.y = Fl.fin (t.1.y - t.2.2.y) :=
              (show _ = R (t.1.y + -t.2.2.y) from rfl).trans (by rw [← sub_eq_add_neg]; exact fin_of (ordB_f64 hy' (by omega) (by omega) (by omega)))
            have e3 : (Fl.fin (t.2.1.x - c0.x) : B64 sq hy) *. Fl.fin (t.1.y - t.2.2.y) = Fl.fin ((t.2.1.x - c0.x) * (t.1.y - t.2.2.y)) :=
              fin_of (ordB_f64 hz (by omega) (by omega) (by omega))
            rw [List.foldl_cons, e1, e2, e3, List.map_cons, List.sum_cons]
            obtain ⟨n, hn1, hn2⟩ := hz
            have hmn : |m + n| ≤ ((j + 1 : ℕ) : ℤ) * 2 ^ (2 * b + 2) := by
              have := abs_add_le m n
              push_cast; linarith
            have hj' : (j + 1 + L.length) * 2 ^ (2 * b + 2) ≤ 2 ^ 53 := by
              rw [List.length_cons] at hj
              rwa [show j + 1 + L.length = j + (L.length + 1) by ring]
            have hle : |m + n| ≤ 2 ^ 53 := by
              have h5 : (j + 1) * 2 ^ (2 * b + 2) ≤ 2 ^ 53 := (Nat.mul_le_mul_right _ (by omega)).trans hj'
              have : ((j + 1 : ℕ) : ℤ) * 2 ^ (2 * b + 2) ≤ 2 ^ 53 := by exact_mod_cast h5
              linarith
            have e4 : (Fl.fin (m * 2 ^ (2 * g)) : B64 sq hy) +. Fl.fin ((t.2.1.x - c0.x) * (t.1.y - t.2.2.y)) = Fl.fin (((m + n : ℤ) : ℚ) * 2 ^ (2 * g)) := by
              rw [hn2]
              refine (show _ = R (m * 2 ^ (2 * g) + n * 2 ^ (2 * g)) from rfl).trans ?_
              rw [← add_mul, ← Int.cast_add]
              exact fin_of (ordB_f64 (b := 53) ⟨m + n, hle, rfl⟩ le_rfl (by omega) (by omega))
            rw [e4]
            have rc := ih (fun t ht => hL t (by simp [ht])) (j + 1) (m + n) hmn hj'
            rw [hn2]
            have e5 : (((m + n : ℤ) : ℚ)) * 2 ^ (2 * g) + (L.map (fun t => (t.2.1.x - c0.x) * (t.1.y - t.2.2.y))).sum =
                m * 2 ^ (2 * g) + (n * 2 ^ (2 * g) + (L.map (fun t => (t.2.1.x - c0.x) * (t.1.y - t.2.2.y))).sum) := by push_cast; ring
            rw [e5] at rc
            exact rc
        obtain ⟨f1, k, hk1, hk2⟩ := fold (trips (c0 :: l)) (fun _ h => h) 0 0 (by simp) (by
          refine le_trans (Nat.mul_le_mul_right _ ?_) hn
          rw [length_trips]; omega)
        simp only [Int.cast_zero, zero_mul, zero_add] at f1 hk2
        rw [f1]
        rw [area_terms c0 l (by omega) hc] at hk2 ⊢
        congr 1
        have f : IsF64 (-shoelace (c0 :: l) / 2) := ordB_f64 (b := 53) (g := 2 * g - 1)
          ⟨k, hk1, by rw [hk2, sub_eq_add_neg, two_add, zpow_neg, zpow_one]; ring⟩ le_rfl (by omega) (by omega)
        exact div_fin64 (by norm_num) (near_of_rep f.1) f.2
  refine ⟨main, ?_⟩
  unfold Area.ofRing
  rw [main]
  show Except.ok (Fl.fin _) = _
  rw [abs_div, abs_neg, abs_two]

local notation "pt" => fun (x y : ℚ) => (Coord.xy x y : Coord ℚ)

/-- A sliver whose corners are doubles. -/
def sliver : List (Coord ℚ) := [pt 9007199254740996 13510798882111488, pt (-4503599627370496) (-4503599627370482), pt 2251799813685238 4503599627370487,
  pt 9007199254740996 13510798882111488]

/-- C87: otherwise even the sign may be wrong: a thin triangle, counter-clockwise, whose computed area is positive, as if it were clockwise. -/
theorem C87_sliver : (∀ c ∈ sliver, IsF64 c.x ∧ IsF64 c.y) ∧ Closed2D sliver ∧ 0 < shoelace sliver ∧
    Area.ofRingSigned (sliver.map (toB64 : Coord ℚ → Coord X64)) = .ok (Fl.fin (2 ^ 53)) := by
  refine ⟨?_, by intro a b ha hb; simp [sliver] at ha hb; subst ha hb; exact ⟨rfl, rfl⟩, ?_, by decide +kernel⟩
  · intro c hc
    simp only [sliver, List.mem_cons, List.not_mem_nil, or_false] at hc
    rcases hc with rfl | rfl | rfl | rfl <;> exact ⟨f64_of (by decide +kernel), f64_of (by decide +kernel)⟩
  · norm_num [shoelace, sliver, Coord.xy]

section examples

/-- A square of side 10 far from the origin: exact. -/
example : Area.ofRingSigned ([pt 1000000 1000000, pt 1000000 1000010, pt 1000010 1000010, pt 1000010 1000000, pt 1000000 1000000].map
    (toB64 : Coord ℚ → Coord X64)) = .ok (Fl.fin 100) := by decide +kernel
example : OnGridB 20 0 (pt 1000010 1000000) := ⟨1000010, 1000000, by norm_num, by norm_num, by simp [Coord.xy], by simp [Coord.xy]⟩
example : 5 * 2 ^ (2 * 20 + 2) ≤ 2 ^ 53 := by norm_num

/-- With ordinates of 53 bits the result is rounded; the bound gives the sign. -/
example : ((([pt 0 0, pt 1 9007199254740991, pt 3 9007199254740989, pt 0 0].length : ℚ) + 2) / 2 ^ 52 *
      areaSize [pt 0 0, pt 1 9007199254740991, pt 3 9007199254740989, pt 0 0] < 100) ∧
    100 < |shoelace [pt 0 0, pt 1 9007199254740991, pt 3 9007199254740989, pt 0 0]| / 2 := by
  refine ⟨?_, ?_⟩
  · norm_num [areaSize, areaTerms, trips, Coord.xy, abs_of_neg, abs_of_pos]
  · norm_num [shoelace, Coord.xy, abs_of_neg, abs_of_pos]

end examples

end Verif.Props
