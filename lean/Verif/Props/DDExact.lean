import Verif.Props.Filter
import Verif.Lemmas.DDSign

/-! # C63, C64: double-double arithmetic in binary64 -/

namespace Verif.Props
open Flt Verif.Spec Verif.Binary64

variable {sq : ℚ → Val} {hy : ℚ → ℚ → Val}

/-! ## Finite results come from finite operands -/

theorem fl_add_inv {r : Rounding} {x y : Fl r} {v : ℚ} (h : x +. y = Fl.fin v) :
    ∃ a b, x = Fl.fin a ∧ y = Fl.fin b ∧ r.rnd (a + b) = .fin v := by
  change Fl.add x y = Fl.fin v at h
  cases x <;> cases y <;> simp only [Fl.add] at h <;> first
    | exact ⟨_, _, rfl, rfl, h⟩
    | cases h

theorem fin_inj {r : Rounding} {a b : ℚ} (h : (Fl.fin a : Fl r) = Fl.fin b) : a = b := by injection h

theorem add64 {x y : B64 sq hy} {v : ℚ} (h : x +. y = Fl.fin v) : ∃ a b, x = Fl.fin a ∧ y = Fl.fin b ∧ near (a + b) = v ∧ |v| < 2 ^ 1024 := by
  obtain ⟨a, b, h1, h2, h3⟩ := fl_add_inv h
  exact ⟨a, b, h1, h2, (rnd_fin_iff _ _).mp h3⟩
theorem sub64 {x y : B64 sq hy} {v : ℚ} (h : x -. y = Fl.fin v) : ∃ a b, x = Fl.fin a ∧ y = Fl.fin b ∧ near (a - b) = v ∧ |v| < 2 ^ 1024 := by
  obtain ⟨a, b, h1, h2, h3⟩ := fl_sub_inv h
  exact ⟨a, b, h1, h2, (rnd_fin_iff _ _).mp h3⟩
theorem mul64 {x y : B64 sq hy} {v : ℚ} (h : x *. y = Fl.fin v) : ∃ a b, x = Fl.fin a ∧ y = Fl.fin b ∧ near (a * b) = v ∧ |v| < 2 ^ 1024 := by
  obtain ⟨a, b, h1, h2, h3⟩ := fl_mul_inv h
  exact ⟨a, b, h1, h2, (rnd_fin_iff _ _).mp h3⟩

/-- The first part of an addition: a sum and its error. -/
theorem sum_part {a b y : ℚ} (ra : Rep a) (rb : Rep b)
    (h : ((Fl.fin b : B64 sq hy) -. ((Fl.fin a +. Fl.fin b) -. Fl.fin a)) +. (Fl.fin a -. ((Fl.fin a +. Fl.fin b) -. ((Fl.fin a +. Fl.fin b) -. Fl.fin a))) = Fl.fin y) :
    (Fl.fin a : B64 sq hy) +. Fl.fin b = Fl.fin (near (a + b)) ∧ |near (a + b)| < 2 ^ 1024 ∧ y = a + b - near (a + b) := by
  obtain ⟨u, v, h1, h2, h3, -⟩ := add64 h
  obtain ⟨b', e, h4, h5, h6, -⟩ := sub64 h1
  obtain ⟨a', s, h7, h8, h9, -⟩ := sub64 h2
  obtain ⟨x, a'', h10, h11, h12, -⟩ := sub64 h5
  rw [h5, h10] at h8
  obtain ⟨x', e', h13, h14, h15, -⟩ := sub64 h8
  obtain ⟨a3, b3, h16, h17, h18, h19⟩ := add64 h10
  obtain rfl := fin_inj h4
  obtain rfl := fin_inj h7
  obtain rfl := fin_inj h11
  obtain rfl := fin_inj h13
  obtain rfl := fin_inj h14
  obtain rfl := fin_inj h16
  obtain rfl := fin_inj h17
  rw [h18]
  refine ⟨h10, h19, ?_⟩
  rw [← h3, ← h6, ← h9]
  exact two_sum ra rb _ _ _ h18 h12 h15

/-- The sum of two doubles in double-double arithmetic is exact, and normalised: the high part is the rounded sum. -/
theorem C63_sum (a b : ℚ) (fa : IsF64 a) (fb : IsF64 b) (hfin : isFinite ((DD.ofF (Fl.fin a : B64 sq hy)).addF (Fl.fin b)).hi = true) :
    ∃ h l, (DD.ofF (Fl.fin a : B64 sq hy)).addF (Fl.fin b) = ⟨Fl.fin h, Fl.fin l⟩ ∧ h + l = a + b ∧ rnd (a + b) = .fin h ∧ IsF64 l := by
  obtain ⟨v, hv⟩ : ∃ v, ((DD.ofF (Fl.fin a : B64 sq hy)).addF (Fl.fin b)).hi = Fl.fin v := by
    revert hfin
    cases ((DD.ofF (Fl.fin a : B64 sq hy)).addF (Fl.fin b)).hi <;> intro h <;> first | exact ⟨_, rfl⟩ | cases h
  unfold DD.addF DD.ofF at hv ⊢
  dsimp only at hv ⊢
  rw [lit64] at hv ⊢
  obtain ⟨hh, h, e1, e2, -, -⟩ := add64 hv
  obtain ⟨ss, f, e3, e4, -, -⟩ := add64 e1
  obtain ⟨y, z, e5, e6, e7, f7⟩ := add64 e4
  obtain rfl := fin_inj e6
  obtain ⟨e8, e9, e10⟩ := sum_part fa.1 fb.1 e5
  have ry : Rep y := by rw [e10]; exact err_rep fa.1 fb.1
  rw [add_zero, near_of_rep ry] at e7
  subst e7
  have hx : Rep (near (a + b)) := near_rep _
  have k0 : ∀ p q : ℚ, (Fl.fin p : B64 sq hy) +. Fl.fin q = rnd (p + q) := fun _ _ => rfl
  have k1 : ∀ p q : ℚ, (Fl.fin p : B64 sq hy) -. Fl.fin q = rnd (p - q) := fun p q => fl_sub_fin p q
  have fx : IsF64 (near (a + b)) := ⟨hx, e9⟩
  have fy : IsF64 y := ⟨ry, f7⟩
  have s1 : (Fl.fin (near (a + b)) : B64 sq hy) +. Fl.fin y = Fl.fin (near (a + b)) := by
    rw [k0, show near (a + b) + y = a + b by rw [e10]; ring]
    exact (rnd_fin_iff _ _).mpr ⟨rfl, e9⟩
  have s2 : (Fl.fin (near (a + b)) : B64 sq hy) -. Fl.fin (near (a + b)) = Fl.fin 0 := by
    rw [k1, sub_self]
    exact rnd_of_f64 ⟨rep_zero, by rw [abs_zero]; positivity⟩
  have s3 : (Fl.fin y : B64 sq hy) +. Fl.fin 0 = Fl.fin y := by
    rw [k0, add_zero]; exact rnd_of_f64 fy
  refine ⟨near (a + b), y, ?_, by rw [e10]; ring, (rnd_fin_iff _ _).mpr ⟨rfl, e9⟩, fy⟩
  rw [e5, e8, s3, s1, s2, s3, s1, s2, s3]

/-! ## Products -/

theorem split64 : (DD.SPLIT : B64 sq hy) = Fl.fin 134217729 := by
  show rnd 134217729 = .fin 134217729
  decide +kernel

/-- The high half of a number. -/
def half (x : B64 sq hy) : B64 sq hy := (DD.SPLIT *. x) -. ((DD.SPLIT *. x) -. x)

theorem half_part {a h : ℚ} (e : half (Fl.fin a : B64 sq hy) = Fl.fin h) :
    ∃ c d, near (134217729 * a) = c ∧ near (c - a) = d ∧ near (c - d) = h := by
  unfold half at e
  rw [split64] at e
  obtain ⟨c, d, e1, e2, e3, -⟩ := sub64 e
  obtain ⟨c', a', e4, e5, e6, -⟩ := sub64 e2
  obtain ⟨s, a2, e7, e8, e9, -⟩ := mul64 e1
  rw [e1] at e4
  obtain rfl := fin_inj e4
  obtain rfl := fin_inj e5
  obtain rfl := fin_inj e7
  obtain rfl := fin_inj e8
  exact ⟨c, d, e9, e6, e3⟩

/-- The error part of a product. -/
def errPart (x y : B64 sq hy) : B64 sq hy :=
  (((half x *. half y -. x *. y) +. half x *. (y -. half y)) +. (x -. half x) *. half y) +. (x -. half x) *. (y -. half y)

/-- No underflow in the product of two numbers: one is zero, or both are normal and the last place of the product is in the format. -/
def NoUnderflow (a b : ℚ) : Prop := a = 0 ∨ b = 0 ∨ (Normal a ∧ Normal b ∧ 2 ^ (-968 : ℤ) ≤ |a * b|)

theorem noUnderflow_expo {a b : ℚ} (h : 2 ^ (-968 : ℤ) ≤ |a * b|) : -1074 ≤ expo a + expo b := by
  have h1 : |a * b| < 2 ^ (expo a + 53 + (expo b + 53)) := by
    rw [abs_mul, two_add]
    exact mul_lt_mul'' (abs_lt_expo a) (abs_lt_expo b) (abs_nonneg _) (abs_nonneg _)
  have := lt_of_le_of_lt h h1
  rw [two_lt_iff] at this
  omega

theorem prod_part {a b v : ℚ} (ra : Rep a) (rb : Rep b) (hu : NoUnderflow a b) (e : errPart (Fl.fin a : B64 sq hy) (Fl.fin b) = Fl.fin v) :
    (Fl.fin a : B64 sq hy) *. Fl.fin b = Fl.fin (near (a * b)) ∧ |near (a * b)| < 2 ^ 1024 ∧ v = a * b - near (a * b) ∧ Rep v := by
  unfold errPart at e
  obtain ⟨v1, u1, e1, e2, e3, -⟩ := add64 e
  obtain ⟨v2, u2, e4, e5, e6, -⟩ := add64 e1
  obtain ⟨v3, u3, e7, e8, e9, -⟩ := add64 e4
  obtain ⟨v4, p, e10, e11, e12, -⟩ := sub64 e7
  obtain ⟨ah, bh, e13, e14, e15, -⟩ := mul64 e10
  obtain ⟨a', b', k1, k2, k3, k4⟩ := mul64 e11
  obtain rfl := fin_inj k1
  obtain rfl := fin_inj k2
  obtain ⟨al, bl, e16, e17, e18, -⟩ := mul64 e2
  obtain ⟨al', bh', e19, e20, e21, -⟩ := mul64 e5
  rw [e16] at e19
  rw [e14] at e20
  obtain rfl := fin_inj e19
  obtain rfl := fin_inj e20
  obtain ⟨ah', bl', e22, e23, e24, -⟩ := mul64 e8
  rw [e13] at e22
  rw [e17] at e23
  obtain rfl := fin_inj e22
  obtain rfl := fin_inj e23
  obtain ⟨a1, ah1, e25, e26, e27, -⟩ := sub64 e16
  obtain ⟨b1, bh1, e28, e29, e30, -⟩ := sub64 e17
  rw [e13] at e26
  rw [e14] at e29
  obtain rfl := fin_inj e25
  obtain rfl := fin_inj e28
  obtain rfl := fin_inj e26
  obtain rfl := fin_inj e29
  obtain ⟨c, d, c1, c2, c3⟩ := half_part e13
  obtain ⟨c', d', c4, c5, c6⟩ := half_part e14
  rw [k3]
  refine ⟨e11, k4, ?_⟩
  have zero : ∀ {c d h x : ℚ}, near (134217729 * (0 : ℚ)) = c → near (c - 0) = d → near (c - d) = h → near (0 - h) = x → h = 0 ∧ x = 0 := by
    intro c d h x h1 h2 h3 h4
    rw [mul_zero, near_zero] at h1
    subst h1
    rw [sub_zero, near_zero] at h2
    subst h2
    rw [sub_zero, near_zero] at h3
    subst h3
    rw [sub_zero, near_zero] at h4
    exact ⟨rfl, h4.symm⟩
  rcases hu with rfl | rfl | ⟨na, nb, hab⟩
  · obtain ⟨rfl, rfl⟩ := zero c1 c2 c3 e27
    simp only [zero_mul, near_zero] at e15 k3 e18 e21 e24
    subst e15 k3 e18 e21 e24
    simp only [sub_zero, add_zero, near_zero] at e12
    subst e12
    simp only [add_zero, near_zero] at e9
    subst e9
    simp only [add_zero, near_zero] at e6
    subst e6
    simp only [add_zero, near_zero] at e3
    subst e3
    exact ⟨by ring, rep_zero⟩
  · obtain ⟨rfl, rfl⟩ := zero c4 c5 c6 e30
    simp only [mul_zero, near_zero] at e15 k3 e18 e21 e24
    subst e15 k3 e18 e21 e24
    simp only [sub_zero, add_zero, near_zero] at e12
    subst e12
    simp only [add_zero, near_zero] at e9
    subst e9
    simp only [add_zero, near_zero] at e6
    subst e6
    simp only [add_zero, near_zero] at e3
    subst e3
    exact ⟨by ring, rep_zero⟩
  · obtain ⟨s1, s2, s3, s4, s5⟩ := split ra na _ _ _ c1 c2 c3
    obtain ⟨t1, t2, t3, t4, t5⟩ := split rb nb _ _ _ c4 c5 c6
    rw [s3] at e27
    rw [t3] at e30
    subst e27 e30
    have := two_prod (noUnderflow_expo hab) na nb p ah (a - ah) bh (b - bh) k3 (by ring) (by ring) s1 s2 s4 s5 t1 t2 t4 t5
    rw [e15, e18, e21, e24, e12, e9, e6, e3] at this
    rw [this.1]
    exact ⟨rfl, this.2⟩

theorem mulHiLo_errPart (x y : DD (B64 sq hy)) : x.mulHiLo y.hi y.lo =
    ⟨x.hi *. y.hi +. (errPart x.hi y.hi +. (x.hi *. y.lo +. x.lo *. y.hi)),
     (errPart x.hi y.hi +. (x.hi *. y.lo +. x.lo *. y.hi)) +. (x.hi *. y.hi -. (x.hi *. y.hi +. (errPart x.hi y.hi +. (x.hi *. y.lo +. x.lo *. y.hi))))⟩ := rfl

theorem f64_zero : IsF64 0 := ⟨rep_zero, by rw [abs_zero]; positivity⟩

/-- The product of two doubles in double-double arithmetic is exact, and normalised. -/
theorem C63_product (a b : ℚ) (fa : IsF64 a) (fb : IsF64 b) (hu : NoUnderflow a b)
    (hfin : isFinite ((DD.ofF (Fl.fin a : B64 sq hy)).selfMul (DD.ofF (Fl.fin b))).hi = true) :
    ∃ h l, (DD.ofF (Fl.fin a : B64 sq hy)).selfMul (DD.ofF (Fl.fin b)) = ⟨Fl.fin h, Fl.fin l⟩ ∧ h + l = a * b ∧
      rnd (a * b) = .fin h ∧ IsF64 l := by
  obtain ⟨v, hv⟩ : ∃ v, ((DD.ofF (Fl.fin a : B64 sq hy)).selfMul (DD.ofF (Fl.fin b))).hi = Fl.fin v := by
    revert hfin
    cases ((DD.ofF (Fl.fin a : B64 sq hy)).selfMul (DD.ofF (Fl.fin b))).hi <;> intro h <;> first | exact ⟨_, rfl⟩ | cases h
  unfold DD.selfMul at hv ⊢
  rw [mulHiLo_errPart] at hv ⊢
  unfold DD.ofF at hv ⊢
  dsimp only at hv ⊢
  rw [lit64] at hv ⊢
  have k0 : ∀ p q : ℚ, (Fl.fin p : B64 sq hy) +. Fl.fin q = rnd (p + q) := fun _ _ => rfl
  have k1 : ∀ p q : ℚ, (Fl.fin p : B64 sq hy) -. Fl.fin q = rnd (p - q) := fun p q => fl_sub_fin p q
  have k2 : ∀ p q : ℚ, (Fl.fin p : B64 sq hy) *. Fl.fin q = rnd (p * q) := fun p q => rfl
  have z0 : rnd 0 = .fin 0 := rnd_of_f64 f64_zero
  have z1 : (Fl.fin a : B64 sq hy) *. Fl.fin 0 = Fl.fin 0 := by rw [k2, mul_zero]; exact z0
  have z2 : (Fl.fin 0 : B64 sq hy) *. Fl.fin b = Fl.fin 0 := by rw [k2, zero_mul]; exact z0
  have z3 : (Fl.fin 0 : B64 sq hy) +. Fl.fin 0 = Fl.fin 0 := by rw [k0, add_zero]; exact z0
  rw [z1, z2, z3] at hv ⊢
  obtain ⟨p, q, e1, e2, -, -⟩ := add64 hv
  obtain ⟨w, z, e3, e4, e5, e6⟩ := add64 e2
  obtain rfl := fin_inj e4
  obtain ⟨p1, p2, p3, p4⟩ := prod_part fa.1 fb.1 hu e3
  have fw : IsF64 w := ⟨p4, by rw [add_zero, near_of_rep p4] at e5; rw [e5]; exact e6⟩
  have s1 : (Fl.fin w : B64 sq hy) +. Fl.fin 0 = Fl.fin w := by rw [k0, add_zero]; exact rnd_of_f64 fw
  have s2 : (Fl.fin (near (a * b)) : B64 sq hy) +. Fl.fin w = Fl.fin (near (a * b)) := by
    rw [k0, p3, show near (a * b) + (a * b - near (a * b)) = a * b by ring]
    exact (rnd_fin_iff _ _).mpr ⟨rfl, p2⟩
  have s3 : (Fl.fin (near (a * b)) : B64 sq hy) -. Fl.fin (near (a * b)) = Fl.fin 0 := by
    rw [k1, sub_self]; exact z0
  refine ⟨near (a * b), w, ?_, by rw [p3]; ring, (rnd_fin_iff _ _).mpr ⟨rfl, p2⟩, fw⟩
  rw [e3, s1, p1, s2, s3, s1]

/-! ## Differences of pairs -/

theorem add_part {a b c d v : ℚ} (ra : Rep a) (rb : Rep b) (rc : Rep c) (rd : Rep d)
    (h : ((⟨Fl.fin a, Fl.fin b⟩ : DD (B64 sq hy)).addHiLo (Fl.fin c) (Fl.fin d)).hi = Fl.fin v) :
    ∃ s : AddSteps a b c d, s.zhi = v ∧ (v = 0 → ((⟨Fl.fin a, Fl.fin b⟩ : DD (B64 sq hy)).addHiLo (Fl.fin c) (Fl.fin d)).lo = Fl.fin 0) := by
  unfold DD.addHiLo at h ⊢
  dsimp only at h ⊢
  obtain ⟨hh, e2, h1, h2, h3, -⟩ := add64 h
  obtain ⟨t, hl, h4, h5, h6, -⟩ := add64 h2
  obtain ⟨ss, e1, h7, h8, h9, -⟩ := add64 h1
  obtain ⟨s, tt, h10, h11, h12, -⟩ := add64 h8
  obtain ⟨s1, s2, s3⟩ := sum_part ra rc h10
  obtain ⟨t1, t2, t3⟩ := sum_part rb rd h4
  rw [s1] at h7
  rw [t1] at h11
  obtain rfl := fin_inj h7
  obtain rfl := fin_inj h11
  obtain ⟨e1', w, h13, h14, h15, -⟩ := add64 h5
  obtain ⟨ss', hh', h16, h17, h18, -⟩ := sub64 h14
  rw [h8] at h13
  rw [s1] at h16
  rw [h1] at h17
  obtain rfl := fin_inj h13
  obtain rfl := fin_inj h16
  obtain rfl := fin_inj h17
  subst h18
  let S : AddSteps a b c d := ⟨near (a + c), near (b + d), e1, hh, hl, e2, v, near (e2 + near (hh - v)), rfl, rfl, by rw [← s3]; exact h12, h9, h15,
    by rw [← t3]; exact h6, h3, rfl⟩
  refine ⟨S, rfl, ?_⟩
  rintro rfl
  have rhh : Rep hh := h9 ▸ near_rep _
  have re2 : Rep e2 := h6 ▸ near_rep _
  have hz := near_add_eq_zero rhh re2 h3
  rw [h, h2, h1]
  have fhh : |hh| < 2 ^ 1024 := by
    obtain ⟨_, _, _, _, _, q⟩ := add64 h1
    exact q
  have e : (Fl.fin hh : B64 sq hy) -. Fl.fin 0 = Fl.fin hh := by
    rw [fl_sub_fin, sub_zero]; exact rnd_of_f64 ⟨rhh, fhh⟩
  rw [e, fl_add_fin, add_comm, hz]
  exact rnd_of_f64 f64_zero

/-- A pair of doubles whose high part is the rounded sum. -/
structure IsPair (h l : ℚ) : Prop where
  hi : IsF64 h
  lo : IsF64 l
  norm : rnd (h + l) = .fin h

theorem IsPair.near {h l : ℚ} (p : IsPair h l) : Binary64.near (h + l) = h := ((rnd_fin_iff _ _).mp p.norm).1

theorem IsPair.neg {h l : ℚ} (p : IsPair h l) : IsPair (-h) (-l) := by
  refine ⟨⟨p.hi.1.neg, by rw [abs_neg]; exact p.hi.2⟩, ⟨p.lo.1.neg, by rw [abs_neg]; exact p.lo.2⟩, ?_⟩
  rw [rnd_fin_iff, ← neg_add, near_neg, p.near, abs_neg]
  exact ⟨rfl, p.hi.2⟩

theorem ddSignum_of {x : DD (B64 sq hy)} {v : ℚ} (h : x.hi = Fl.fin v) (h0 : v = 0 → x.lo = Fl.fin 0) : x.signum = sgn v := by
  unfold DD.signum sgn
  rw [h, lit64]
  have hc1 : ∀ a b : ℚ, ((Fl.fin a : B64 sq hy) <. Fl.fin b) = decide (a < b) := fun _ _ => rfl
  rw [hc1, hc1]
  simp only [decide_eq_true_eq]
  split_ifs with g1 g2 g3 g4
  · rfl
  · rfl
  all_goals
    have hv : v = 0 := le_antisymm (not_lt.mp g1) (not_lt.mp g2)
    simp_all

/-- The sum of two normalised pairs has the exact sign. -/
theorem C64_sum_sign (a b c d : ℚ) (p : IsPair a b) (q : IsPair c d)
    (hfin : isFinite ((⟨Fl.fin a, Fl.fin b⟩ : DD (B64 sq hy)).add ⟨Fl.fin c, Fl.fin d⟩).hi = true) :
    ((⟨Fl.fin a, Fl.fin b⟩ : DD (B64 sq hy)).add ⟨Fl.fin c, Fl.fin d⟩).signum = sgn ((a + b) + (c + d)) := by
  obtain ⟨v, hv⟩ : ∃ v, ((⟨Fl.fin a, Fl.fin b⟩ : DD (B64 sq hy)).add ⟨Fl.fin c, Fl.fin d⟩).hi = Fl.fin v := by
    revert hfin
    cases ((⟨Fl.fin a, Fl.fin b⟩ : DD (B64 sq hy)).add ⟨Fl.fin c, Fl.fin d⟩).hi <;> intro h <;> first | exact ⟨_, rfl⟩ | cases h
  obtain ⟨s, s1, s2⟩ := add_part p.hi.1 p.lo.1 q.hi.1 q.lo.1 hv
  rw [ddSignum_of hv s2, ← s1]
  exact s.sign p.hi.1 p.lo.1 q.hi.1 q.lo.1 p.near q.near

/-- So has the difference, both ways the code computes it. -/
theorem C64_difference_sign (a b c d : ℚ) (p : IsPair a b) (q : IsPair c d)
    (hfin : isFinite ((⟨Fl.fin a, Fl.fin b⟩ : DD (B64 sq hy)).sub ⟨Fl.fin c, Fl.fin d⟩).hi = true) :
    ((⟨Fl.fin a, Fl.fin b⟩ : DD (B64 sq hy)).sub ⟨Fl.fin c, Fl.fin d⟩).signum = sgn ((a + b) - (c + d)) ∧
    ((⟨Fl.fin a, Fl.fin b⟩ : DD (B64 sq hy)).selfSub ⟨Fl.fin c, Fl.fin d⟩).signum = sgn ((a + b) - (c + d)) := by
  have e1 : (⟨Fl.fin a, Fl.fin b⟩ : DD (B64 sq hy)).sub ⟨Fl.fin c, Fl.fin d⟩ = (⟨Fl.fin a, Fl.fin b⟩ : DD (B64 sq hy)).add ⟨Fl.fin (-c), Fl.fin (-d)⟩ := rfl
  have e2 : (⟨Fl.fin a, Fl.fin b⟩ : DD (B64 sq hy)).selfSub ⟨Fl.fin c, Fl.fin d⟩ = (⟨Fl.fin a, Fl.fin b⟩ : DD (B64 sq hy)).add ⟨Fl.fin (-c), Fl.fin (-d)⟩ := rfl
  rw [e1] at hfin
  rw [e1, e2, C64_sum_sign a b (-c) (-d) p q.neg hfin, show a + b + (-c + -d) = (a + b) - (c + d) by ring]
  exact ⟨rfl, rfl⟩

/-! Examples: numbers whose sum and product are no doubles. -/

theorem f64_of {q : ℚ} (h : rnd q = .fin q) : IsF64 q := rnd_f64 h

theorem tenth_isF64 : IsF64 tenth := f64_of (by decide +kernel)
theorem three_isF64 : IsF64 3 := f64_of (by decide +kernel)

example : isFinite ((DD.ofF (Fl.fin tenth : X64)).addF (Fl.fin 3)).hi = true ∧ rnd (tenth + 3) ≠ .fin (tenth + 3) := by decide +kernel
example : isFinite ((DD.ofF (Fl.fin tenth : X64)).selfMul (DD.ofF (Fl.fin tenth))).hi = true ∧ rnd (tenth * tenth) ≠ .fin (tenth * tenth) := by decide +kernel
example : NoUnderflow tenth tenth := by
  have h : Normal tenth := by unfold Normal; decide +kernel
  exact Or.inr (Or.inr ⟨h, h, by decide +kernel⟩)
example : IsPair 3 (1 / 2 ^ 60) := ⟨three_isF64, f64_of (by decide +kernel), by decide +kernel⟩
example : ((⟨Fl.fin 3, Fl.fin (1 / 2 ^ 60)⟩ : DD X64).sub ⟨Fl.fin 3, Fl.fin (1 / 2 ^ 61)⟩).signum = 1 := by decide +kernel

end Verif.Props
