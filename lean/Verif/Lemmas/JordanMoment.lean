import Verif.Lemmas.JordanArea

set_option linter.unusedSectionVars false

/-! # Moments of a simple polygon -/

namespace Verif.Jordan
open Verif.Spec
variable {K : Type} [Field K] [LinearOrder K] [IsStrictOrderedRing K]

/-- Integral of `(al + be * y) * x` along the part of the edge below height `h`. -/
def mbelow (al be : K) (a b : Coord K) (h : K) : K :=
  (min b.y h - min a.y h) / 6 * ((al + be * min a.y h) * xat a b (min a.y h) +
    4 * ((al + be * ((min a.y h + min b.y h) / 2)) * xat a b ((min a.y h + min b.y h) / 2)) + (al + be * min b.y h) * xat a b (min b.y h))

theorem xat_affine (a b : Coord K) (y : K) : xat a b y = (a.x - a.y * ((b.x - a.x) / (b.y - a.y))) + (b.x - a.x) / (b.y - a.y) * y := by
  unfold xat; ring

theorem mbelow_top (al be : K) (a b : Coord K) (h : K) (h1 : a.y ≤ h) (h2 : b.y ≤ h) :
    mbelow al be a b h = al * ((a.x + b.x) / 2 * (b.y - a.y)) +
      be * ((b.y - a.y) * (2 * a.x * a.y + a.x * b.y + b.x * a.y + 2 * b.x * b.y) / 6) := by
  unfold mbelow
  rw [min_eq_left h1, min_eq_left h2]
  by_cases hy : b.y - a.y = 0
  · rw [hy]; ring
  · have e1 : xat a b a.y = a.x := by unfold xat; ring
    have e2 : xat a b b.y = b.x := by unfold xat; field_simp; ring
    have e3 : xat a b ((a.y + b.y) / 2) = (a.x + b.x) / 2 := by unfold xat; field_simp; ring
    rw [e1, e2, e3]; ring

theorem mbelow_bottom (al be : K) (a b : Coord K) (h : K) (h1 : h ≤ a.y) (h2 : h ≤ b.y) : mbelow al be a b h = 0 := by
  unfold mbelow
  rw [min_eq_right h1, min_eq_right h2]; ring

theorem mbelow_slab (al be : K) (a b : Coord K) (h0 h1 : K) (h : h0 < h1) (ha : a.y ≤ h0 ∨ h1 ≤ a.y) (hb : b.y ≤ h0 ∨ h1 ≤ b.y) :
    mbelow al be a b h1 - mbelow al be a b h0 =
      (h1 - h0) / 6 * ((al + be * h0) * (dir a b ((h0 + h1) / 2) * xat a b h0) +
        4 * ((al + be * ((h0 + h1) / 2)) * (dir a b ((h0 + h1) / 2) * xat a b ((h0 + h1) / 2))) +
        (al + be * h1) * (dir a b ((h0 + h1) / 2) * xat a b h1)) := by
  have m0 : h0 < (h0 + h1) / 2 := by linarith
  have m1 : (h0 + h1) / 2 < h1 := by linarith
  unfold dir
  rcases ha with ha | ha <;> rcases hb with hb | hb
  · rw [mbelow_top al be a b h1 (by linarith) (by linarith), mbelow_top al be a b h0 ha hb, if_neg (by rintro ⟨_, _⟩; linarith),
      if_neg (by rintro ⟨_, _⟩; linarith)]; ring
  · rw [if_pos ⟨by linarith, by linarith⟩]
    unfold mbelow
    rw [min_eq_left (by linarith : a.y ≤ h1), min_eq_right hb, min_eq_left ha, min_eq_right (by linarith : h0 ≤ b.y)]
    simp only [xat_affine]
    generalize (b.x - a.x) / (b.y - a.y) = k
    ring
  · rw [if_neg (by rintro ⟨_, _⟩; linarith), if_pos ⟨by linarith, by linarith⟩]
    unfold mbelow
    rw [min_eq_left (by linarith : b.y ≤ h1), min_eq_right ha, min_eq_left hb, min_eq_right (by linarith : h0 ≤ a.y)]
    simp only [xat_affine]
    generalize (b.x - a.x) / (b.y - a.y) = k
    ring
  · rw [mbelow_bottom al be a b h1 ha hb, mbelow_bottom al be a b h0 (by linarith) (by linarith), if_neg (by rintro ⟨_, _⟩; linarith),
      if_neg (by rintro ⟨_, _⟩; linarith)]; ring

variable {P : Nat → Coord K} {n : Nat}

/-- An affine function that is not negative inside an interval is not negative at its ends. -/
theorem affine_ends (w0 w1 : K) (h : ∀ t, 0 < t → t < 1 → 0 ≤ (1 - t) * w0 + t * w1) : 0 ≤ w0 ∧ 0 ≤ w1 := by
  have key : ∀ w0 w1 : K, (∀ t, 0 < t → t < 1 → 0 ≤ (1 - t) * w0 + t * w1) → 0 ≤ w0 := by
    clear h w0 w1
    intro w0 w1 h
    by_contra hc; push Not at hc
    rcases le_or_gt w1 0 with h1 | h1
    · have := h (1 / 2) (by norm_num) (by norm_num)
      linarith
    · have hd : 0 < 2 * (w1 - w0) := by linarith
      have ht : 0 < -w0 / (2 * (w1 - w0)) := div_pos (by linarith) hd
      have ht1 : -w0 / (2 * (w1 - w0)) < 1 := by rw [div_lt_one hd]; linarith
      have := h _ ht ht1
      have e : (1 - -w0 / (2 * (w1 - w0))) * w0 + -w0 / (2 * (w1 - w0)) * w1 = w0 / 2 := by
        have : w1 - w0 ≠ 0 := by linarith
        field_simp; ring
      rw [e] at this; linarith
  refine ⟨key w0 w1 h, key w1 w0 (fun t t0 t1 => ?_)⟩
  have := h (1 - t) (by linarith) (by linarith)
  have e : (1 - (1 - t)) * w0 + (1 - t) * w1 = (1 - t) * w1 + t * w0 := by ring
  rw [e] at this; exact this

/-- Widths in the direction of the edges that pass a slab. -/
theorem Simple.slab_width (h : Simple P n) (h0 h1 : K) (hlt : h0 < h1) (hv : ∀ j, (P j).y ≤ h0 ∨ h1 ≤ (P j).y) (e : K)
    (he : (side P n 0 = 1 ∧ e = 1) ∨ (side P n 0 = 0 ∧ e = -1)) :
    0 ≤ e * ∑ i ∈ Finset.range n, dir (P i) (P (i + 1)) ((h0 + h1) / 2) * xat (P i) (P (i + 1)) h0 ∧
    0 ≤ e * ∑ i ∈ Finset.range n, dir (P i) (P (i + 1)) ((h0 + h1) / 2) * xat (P i) (P (i + 1)) h1 := by
  apply affine_ends
  intro t t0 t1
  have i1 := mul_pos t0 (show 0 < h1 - h0 by linarith)
  have i2 := mul_pos (show 0 < 1 - t by linarith) (show 0 < h1 - h0 by linarith)
  have hm : ∀ j, (P j).y ≠ (1 - t) * h0 + t * h1 := by
    intro j hc
    rcases hv j with h | h <;> rw [hc] at h <;> linarith
  have hw := (h.width _ hm e he).1
  have hdir : ∀ i, dir (P i) (P (i + 1)) ((1 - t) * h0 + t * h1) = dir (P i) (P (i + 1)) ((h0 + h1) / 2) := by
    intro i
    have key : ∀ a b : Coord K, (a.y ≤ h0 ∨ h1 ≤ a.y) → (b.y ≤ h0 ∨ h1 ≤ b.y) → ∀ m, h0 < m → m < h1 →
        ((a.y < m ∧ m < b.y) ↔ (a.y ≤ h0 ∧ h1 ≤ b.y)) := by
      intro a b ha hb m m0 m1
      constructor
      · rintro ⟨q1, q2⟩
        exact ⟨ha.resolve_right (by linarith), hb.resolve_left (by linarith)⟩
      · rintro ⟨q1, q2⟩; exact ⟨by linarith, by linarith⟩
    unfold dir
    have m0 : h0 < (1 - t) * h0 + t * h1 := by linarith
    have m1 : (1 - t) * h0 + t * h1 < h1 := by linarith
    simp only [key (P i) (P (i + 1)) (hv i) (hv (i + 1)) _ m0 m1, key (P (i + 1)) (P i) (hv (i + 1)) (hv i) _ m0 m1,
      key (P i) (P (i + 1)) (hv i) (hv (i + 1)) ((h0 + h1) / 2) (by linarith) (by linarith),
      key (P (i + 1)) (P i) (hv (i + 1)) (hv i) ((h0 + h1) / 2) (by linarith) (by linarith)]
  have e2 : ∑ i ∈ Finset.range n, dir (P i) (P (i + 1)) ((1 - t) * h0 + t * h1) * xat (P i) (P (i + 1)) ((1 - t) * h0 + t * h1) =
      (1 - t) * (∑ i ∈ Finset.range n, dir (P i) (P (i + 1)) ((h0 + h1) / 2) * xat (P i) (P (i + 1)) h0) +
      t * (∑ i ∈ Finset.range n, dir (P i) (P (i + 1)) ((h0 + h1) / 2) * xat (P i) (P (i + 1)) h1) := by
    rw [Finset.mul_sum, Finset.mul_sum, ← Finset.sum_add_distrib]
    refine Finset.sum_congr rfl (fun i _ => ?_)
    rw [hdir i, xat_affine, xat_affine, xat_affine]; ring
  rw [e2] at hw
  linarith

/-- Moment of the polygon below height `h`. -/
def momentBelow (al be : K) (P : Nat → Coord K) (n : Nat) (h : K) : K := ∑ i ∈ Finset.range n, mbelow al be (P i) (P (i + 1)) h

theorem Simple.mslab (h : Simple P n) (al be : K) (h0 h1 : K) (hlt : h0 < h1) (hv : ∀ j, (P j).y ≤ h0 ∨ h1 ≤ (P j).y) (e : K)
    (he : (side P n 0 = 1 ∧ e = 1) ∨ (side P n 0 = 0 ∧ e = -1)) (u0 : 0 ≤ al + be * h0) (u1 : 0 ≤ al + be * h1) :
    e * momentBelow al be P n h0 ≤ e * momentBelow al be P n h1 ∧
    ((∃ i, i < n ∧ (P i).y ≤ h0 ∧ h1 ≤ (P (i + 1)).y) → ¬ (al = 0 ∧ be = 0) →
      e * momentBelow al be P n h0 < e * momentBelow al be P n h1) := by
  have hm : ∀ j, (P j).y ≠ (h0 + h1) / 2 := by
    intro j hc
    rcases hv j with h | h <;> rw [hc] at h <;> linarith
  obtain ⟨w1, w2⟩ := h.width ((h0 + h1) / 2) hm e he
  obtain ⟨s0, s1⟩ := h.slab_width h0 h1 hlt hv e he
  set Wm := e * ∑ i ∈ Finset.range n, dir (P i) (P (i + 1)) ((h0 + h1) / 2) * xat (P i) (P (i + 1)) ((h0 + h1) / 2) with hWm
  set W0 := e * ∑ i ∈ Finset.range n, dir (P i) (P (i + 1)) ((h0 + h1) / 2) * xat (P i) (P (i + 1)) h0 with hW0
  set W1 := e * ∑ i ∈ Finset.range n, dir (P i) (P (i + 1)) ((h0 + h1) / 2) * xat (P i) (P (i + 1)) h1 with hW1
  have key : e * momentBelow al be P n h1 - e * momentBelow al be P n h0 =
      (h1 - h0) / 6 * ((al + be * h0) * W0 + 4 * ((al + be * ((h0 + h1) / 2)) * Wm) + (al + be * h1) * W1) := by
    unfold momentBelow
    rw [← mul_sub, ← Finset.sum_sub_distrib, Finset.sum_congr rfl (fun i _ => mbelow_slab al be (P i) (P (i + 1)) h0 h1 hlt (hv i) (hv (i + 1))),
      ← Finset.mul_sum, Finset.sum_add_distrib, Finset.sum_add_distrib, ← Finset.mul_sum, ← Finset.mul_sum, ← Finset.mul_sum, ← Finset.mul_sum,
      hWm, hW0, hW1]
    ring
  have hp : 0 < (h1 - h0) / 6 := by linarith
  have um : 0 ≤ al + be * ((h0 + h1) / 2) := by linarith
  have a0 := mul_nonneg u0 s0
  have a1 := mul_nonneg u1 s1
  refine ⟨?_, ?_⟩
  · have am := mul_nonneg um w1
    have := mul_nonneg hp.le (show 0 ≤ (al + be * h0) * W0 + 4 * ((al + be * ((h0 + h1) / 2)) * Wm) + (al + be * h1) * W1 by linarith)
    linarith
  · rintro ⟨i, i1, i2, i3⟩ hne
    have um' : 0 < al + be * ((h0 + h1) / 2) := by
      rcases eq_or_lt_of_le um with hc | hc
      · exfalso
        have z0 : al + be * h0 = 0 := by linarith
        have z1 : al + be * h1 = 0 := by linarith
        have zb : be * (h1 - h0) = 0 := by linarith
        have zb' := (mul_eq_zero.mp zb).resolve_right (by linarith)
        exact hne ⟨by rw [zb'] at z0; linarith, zb'⟩
      · exact hc
    have am := mul_pos um' (w2 i i1 (Or.inl ⟨by linarith, by linarith⟩))
    have := mul_pos hp (show 0 < (al + be * h0) * W0 + 4 * ((al + be * ((h0 + h1) / 2)) * Wm) + (al + be * h1) * W1 by linarith)
    linarith

theorem Simple.moment_nonneg (h : Simple P n) (al be : K) (e : K) (he : (side P n 0 = 1 ∧ e = 1) ∨ (side P n 0 = 0 ∧ e = -1))
    (hu : ∀ j, 0 ≤ al + be * (P j).y) :
    ∀ k : Nat, ∀ x ∈ heights P n, ((heights P n).filter (fun u => u < x)).card = k → 0 ≤ e * momentBelow al be P n x := by
  classical
  have hu' : ∀ x ∈ heights P n, 0 ≤ al + be * x := by
    intro x hx
    unfold heights at hx
    obtain ⟨j, _, rfl⟩ := Finset.mem_image.mp hx
    exact hu j
  intro k
  induction k using Nat.strong_induction_on with
  | _ k ih =>
    intro x hx hk
    by_cases hne : ((heights P n).filter (fun u => u < x)).Nonempty
    · set y := ((heights P n).filter (fun u => u < x)).max' hne with hy
      have hmem := ((heights P n).filter (fun u => u < x)).max'_mem hne
      rw [← hy] at hmem
      obtain ⟨y1, y2⟩ := Finset.mem_filter.mp hmem
      have hlt : ((heights P n).filter (fun u => u < y)).card < k := by
        rw [← hk]
        apply Finset.card_lt_card
        refine ⟨fun u hu => ?_, fun hc => ?_⟩
        · obtain ⟨u1, u2⟩ := Finset.mem_filter.mp hu
          exact Finset.mem_filter.mpr ⟨u1, u2.trans y2⟩
        · have := Finset.mem_filter.mp (hc hmem)
          exact lt_irrefl _ this.2
      have i1 := ih _ hlt y y1 rfl
      have i2 := (h.mslab al be y x y2 (fun j => by
        by_cases hj : (P j).y < x
        · exact Or.inl (((heights P n).filter (fun u => u < x)).le_max' _ (Finset.mem_filter.mpr ⟨h.mem_heights j, hj⟩))
        · exact Or.inr (not_lt.mp hj)) e he (hu' y y1) (hu' x hx)).1
      exact i1.trans i2
    · have hall : ∀ j, x ≤ (P j).y := by
        intro j
        by_contra hc; push Not at hc
        exact hne ⟨_, Finset.mem_filter.mpr ⟨h.mem_heights j, hc⟩⟩
      have : momentBelow al be P n x = 0 := by
        unfold momentBelow
        exact Finset.sum_eq_zero (fun i _ => mbelow_bottom _ _ _ _ _ (hall i) (hall (i + 1)))
      rw [this, mul_zero]

/-- The integral of a function of the height over a simple polygon. -/
theorem Simple.moment_pos (h : Simple P n) (al be : K) (e : K) (he : (side P n 0 = 1 ∧ e = 1) ∨ (side P n 0 = 0 ∧ e = -1)) (i : Nat)
    (hup : (P i).y < (P (i + 1)).y) (hmax : ∀ j, (P j).y ≤ (P (i + 1)).y) (hu : ∀ j, 0 ≤ al + be * (P j).y) (hne : ¬ (al = 0 ∧ be = 0)) :
    0 < e * ∑ j ∈ Finset.range n, (al * (((P j).x + (P (j + 1)).x) / 2 * ((P (j + 1)).y - (P j).y)) +
      be * (((P (j + 1)).y - (P j).y) * (2 * (P j).x * (P j).y + (P j).x * (P (j + 1)).y + (P (j + 1)).x * (P j).y + 2 * (P (j + 1)).x * (P (j + 1)).y) / 6)) := by
  classical
  have hn : 0 < n := by have := h.three; omega
  have hu' : ∀ x ∈ heights P n, 0 ≤ al + be * x := by
    intro x hx
    unfold heights at hx
    obtain ⟨j, _, rfl⟩ := Finset.mem_image.mp hx
    exact hu j
  have htop : momentBelow al be P n (P (i + 1)).y = ∑ j ∈ Finset.range n, (al * (((P j).x + (P (j + 1)).x) / 2 * ((P (j + 1)).y - (P j).y)) +
      be * (((P (j + 1)).y - (P j).y) * (2 * (P j).x * (P j).y + (P j).x * (P (j + 1)).y + (P (j + 1)).x * (P j).y + 2 * (P (j + 1)).x * (P (j + 1)).y) / 6)) := by
    unfold momentBelow
    exact Finset.sum_congr rfl (fun j _ => mbelow_top _ _ _ _ _ (hmax j) (hmax (j + 1)))
  rw [← htop]
  have hne' : ((heights P n).filter (fun u => u < (P (i + 1)).y)).Nonempty := ⟨_, Finset.mem_filter.mpr ⟨h.mem_heights i, hup⟩⟩
  set y := ((heights P n).filter (fun u => u < (P (i + 1)).y)).max' hne' with hy
  have hmem := ((heights P n).filter (fun u => u < (P (i + 1)).y)).max'_mem hne'
  rw [← hy] at hmem
  obtain ⟨y1, y2⟩ := Finset.mem_filter.mp hmem
  have hle : ∀ j, (P j).y < (P (i + 1)).y → (P j).y ≤ y := fun j hj =>
    ((heights P n).filter (fun u => u < (P (i + 1)).y)).le_max' _ (Finset.mem_filter.mpr ⟨h.mem_heights j, hj⟩)
  have i1 := h.moment_nonneg al be e he hu _ y y1 rfl
  have i2 := (h.mslab al be y _ y2 (fun j => by
    by_cases hj : (P j).y < (P (i + 1)).y
    · exact Or.inl (hle j hj)
    · exact Or.inr (not_lt.mp hj)) e he (hu' y y1) (hu _)).2 ⟨i % n, Nat.mod_lt _ hn, by rw [h.mod]; exact hle i hup, by rw [h.mod_succ]⟩ hne
  exact lt_of_le_of_lt i1 i2

end Verif.Jordan
