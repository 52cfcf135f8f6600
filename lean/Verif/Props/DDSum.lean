import Verif.Props.DDAccuracy
import Verif.Lemmas.DDSum

/-! # C74: the accuracy of double-double sums and differences -/

namespace Verif.Props
open Flt Verif.Spec Verif.Binary64

variable {sq : ℚ → Val} {hy : ℚ → ℚ → Val}

/-- The last step of each operation: a sum of numbers that are well apart, and its error. -/
theorem last_part {x w v : ℚ} (fx : IsF64 x) (fw : IsF64 w) (h : near (x + w) = v) (hv : |v| < 2 ^ 1024) (hs : |w| ≤ |x| / 2 ∨ x = 0) :
    (Fl.fin w : B64 sq hy) +. (Fl.fin x -. Fl.fin v) = Fl.fin (x + w - v) ∧ ((Fl.fin x : B64 sq hy) -. Fl.fin v) +. Fl.fin w = Fl.fin (x + w - v) ∧
      IsPair v (x + w - v) := by
  have k0 : ∀ p q : ℚ, (Fl.fin p : B64 sq hy) +. Fl.fin q = rnd (p + q) := fun _ _ => rfl
  have re := err_rep fx.1 fw.1
  rw [h] at re
  have hle : |x + w - v| ≤ |w| := by
    have h' := err_le_left (a := w) fx.1
    rw [add_comm w] at h'
    rwa [h] at h'
  have fe : IsF64 (x + w - v) := ⟨re, lt_of_le_of_lt hle fw.2⟩
  have fd : IsF64 (x - v) := by
    rcases hs with hs | rfl
    · have hr := (fast_rep fx.1 fw.1 (expo_mono (by linarith [abs_nonneg x]))).neg
      rw [neg_sub, h] at hr
      refine ⟨hr, lt_of_le_of_lt ?_ fx.2⟩
      have : x - v = (x + w - v) + -w := by ring
      rw [this]
      refine le_trans (abs_add_le _ _) ?_
      rw [abs_neg]; linarith
    · rw [zero_sub]
      exact ⟨h ▸ (near_rep _).neg, by rw [abs_neg]; exact hv⟩
  have s1 : (Fl.fin x : B64 sq hy) -. Fl.fin v = Fl.fin (x - v) := by
    rw [fl_sub_fin]; exact rnd_of_f64 fd
  refine ⟨?_, ?_, ⟨⟨h ▸ near_rep _, hv⟩, fe, ?_⟩⟩
  · rw [s1, k0, show w + (x - v) = x + w - v by ring]; exact rnd_of_f64 fe
  · rw [s1, k0, show x - v + w = x + w - v by ring]; exact rnd_of_f64 fe
  · rw [show v + (x + w - v) = x + w by ring]
    exact (rnd_fin_iff _ _).mpr ⟨h, hv⟩

/-- The steps of an addition with finite high part. -/
theorem add_steps {a b c d v : ℚ} (ra : Rep a) (rb : Rep b) (rc : Rep c) (rd : Rep d)
    (h : ((⟨Fl.fin a, Fl.fin b⟩ : DD (B64 sq hy)).addHiLo (Fl.fin c) (Fl.fin d)).hi = Fl.fin v) :
    ∃ s : AddSteps a b c d, s.zhi = v ∧ IsF64 s.hh ∧ IsF64 s.e2 ∧ |v| < 2 ^ 1024 ∧
      (⟨Fl.fin a, Fl.fin b⟩ : DD (B64 sq hy)).addHiLo (Fl.fin c) (Fl.fin d) = ⟨Fl.fin v, Fl.fin s.e2 +. (Fl.fin s.hh -. Fl.fin v)⟩ := by
  unfold DD.addHiLo at h ⊢
  dsimp only at h ⊢
  obtain ⟨hh, e2, h1, h2, h3, h3'⟩ := add64 h
  obtain ⟨t, hl, h4, h5, h6, h6'⟩ := add64 h2
  obtain ⟨ss, e1, h7, h8, h9, h9'⟩ := add64 h1
  obtain ⟨s, tt, h10, h11, h12, -⟩ := add64 h8
  obtain ⟨s1, s2, s3⟩ := sum_part ra rc h10
  obtain ⟨t1, t2, t3⟩ := sum_part rb rd h4
  rw [s1] at h7
  rw [t1] at h11
  obtain rfl := fin_inj h7
  obtain rfl := fin_inj h11
  obtain ⟨e1', w, h13, h14, h15, -⟩ := add64 h5
  obtain ⟨ss', hh', h16, h17, h18, -⟩ := sub64 h14
  rw [h8] at h13
  rw [s1] at h16
  rw [h1] at h17
  obtain rfl := fin_inj h13
  obtain rfl := fin_inj h16
  obtain rfl := fin_inj h17
  subst h18
  let S : AddSteps a b c d := ⟨near (a + c), near (b + d), e1, hh, hl, e2, v, near (e2 + near (hh - v)), rfl, rfl, by rw [← s3]; exact h12, h9, h15,
    by rw [← t3]; exact h6, h3, rfl⟩
  have r1 : Rep hh := h9 ▸ near_rep _
  have r2 : Rep e2 := h6 ▸ near_rep _
  refine ⟨S, rfl, ⟨r1, h9'⟩, ⟨r2, h6'⟩, h3', ?_⟩
  rw [h, h2, h1]

/-- C74: the sum of two normalised pairs is normalised and has a relative error of at most `2^-101`. -/
theorem C74_sum (a b c d : ℚ) (p : IsPair a b) (q : IsPair c d)
    (hfin : isFinite ((⟨Fl.fin a, Fl.fin b⟩ : DD (B64 sq hy)).add ⟨Fl.fin c, Fl.fin d⟩).hi = true) :
    ∃ h l, (⟨Fl.fin a, Fl.fin b⟩ : DD (B64 sq hy)).add ⟨Fl.fin c, Fl.fin d⟩ = ⟨Fl.fin h, Fl.fin l⟩ ∧ IsPair h l ∧
      |h + l - ((a + b) + (c + d))| ≤ |(a + b) + (c + d)| / 2 ^ 101 := by
  obtain ⟨v, hv⟩ := finite_fin hfin
  obtain ⟨s, s1, s2, s3, s4, s5⟩ := add_steps p.hi.1 p.lo.1 q.hi.1 q.lo.1 hv
  obtain ⟨g1, g2⟩ := s.err p.hi.1 p.lo.1 q.hi.1 q.lo.1 p.near q.near
  obtain ⟨l1, -, l3⟩ := last_part (sq := sq) (hy := hy) s2 s3 (s.hzhi.trans s1) s4 g1
  refine ⟨v, s.hh + s.e2 - v, ?_, l3, ?_⟩
  · rw [← l1]; exact s5
  · rw [show v + (s.hh + s.e2 - v) = s.hh + s.e2 by ring]; exact g2

/-- C74: so is the difference, both ways the code computes it. -/
theorem C74_difference (a b c d : ℚ) (p : IsPair a b) (q : IsPair c d)
    (hfin : isFinite ((⟨Fl.fin a, Fl.fin b⟩ : DD (B64 sq hy)).sub ⟨Fl.fin c, Fl.fin d⟩).hi = true) :
    ∃ h l, (⟨Fl.fin a, Fl.fin b⟩ : DD (B64 sq hy)).sub ⟨Fl.fin c, Fl.fin d⟩ = ⟨Fl.fin h, Fl.fin l⟩ ∧
      (⟨Fl.fin a, Fl.fin b⟩ : DD (B64 sq hy)).selfSub ⟨Fl.fin c, Fl.fin d⟩ = ⟨Fl.fin h, Fl.fin l⟩ ∧ IsPair h l ∧
      |h + l - ((a + b) - (c + d))| ≤ |(a + b) - (c + d)| / 2 ^ 101 := by
  have e1 : (⟨Fl.fin a, Fl.fin b⟩ : DD (B64 sq hy)).sub ⟨Fl.fin c, Fl.fin d⟩ = (⟨Fl.fin a, Fl.fin b⟩ : DD (B64 sq hy)).add ⟨Fl.fin (-c), Fl.fin (-d)⟩ := rfl
  have e2 : (⟨Fl.fin a, Fl.fin b⟩ : DD (B64 sq hy)).selfSub ⟨Fl.fin c, Fl.fin d⟩ = (⟨Fl.fin a, Fl.fin b⟩ : DD (B64 sq hy)).add ⟨Fl.fin (-c), Fl.fin (-d)⟩ := rfl
  rw [e1] at hfin
  obtain ⟨h, l, g1, g2, g3⟩ := C74_sum a b (-c) (-d) p q.neg hfin
  refine ⟨h, l, by rw [e1, g1], by rw [e2, g1], g2, ?_⟩
  rwa [show a + b + (-c + -d) = (a + b) - (c + d) by ring] at g3

/-! ## Adding and multiplying by a plain double -/

/-- The value of the format, or one that is not finite. -/
def InFormat : B64 sq hy → Prop
  | .fin q => IsF64 q
  | _ => True

theorem inFormat_rnd (q : ℚ) : InFormat (sq := sq) (hy := hy) (rnd q) := by
  cases h : rnd q with
  | fin v => exact rnd_f64 h
  | _ => trivial

theorem inFormat_add (x y : B64 sq hy) : InFormat (x +. y) := by
  change InFormat (Fl.add x y)
  cases x <;> cases y <;> first | trivial | exact inFormat_rnd _

theorem zero_add64 {x : B64 sq hy} (h : InFormat x) : Fl.fin 0 +. x = x := by
  cases x with
  | fin q => show rnd (0 + q) = _; rw [zero_add]; exact rnd_of_f64 h
  | _ => rfl

/-- Adding a double is adding the pair of it and zero. -/
theorem addF_eq {a : B64 sq hy} {b : ℚ} (fb : IsF64 b) (y : B64 sq hy) : (⟨a, Fl.fin b⟩ : DD (B64 sq hy)).addF y = (⟨a, Fl.fin b⟩ : DD (B64 sq hy)).add (DD.ofF y) := by
  have k0 : ∀ p q : ℚ, (Fl.fin p : B64 sq hy) +. Fl.fin q = rnd (p + q) := fun _ _ => rfl
  have z0 : rnd 0 = .fin 0 := rnd_of_f64 f64_zero
  have t1 : (Fl.fin b : B64 sq hy) +. Fl.fin 0 = Fl.fin b := by rw [k0, add_zero]; exact rnd_of_f64 fb
  have t2 : (Fl.fin b : B64 sq hy) -. Fl.fin b = Fl.fin 0 := by rw [fl_sub_fin, sub_self]; exact z0
  have t3 : (Fl.fin 0 : B64 sq hy) -. Fl.fin 0 = Fl.fin 0 := by rw [fl_sub_fin, sub_self]; exact z0
  have t4 : (Fl.fin b : B64 sq hy) -. Fl.fin 0 = Fl.fin b := by rw [fl_sub_fin, sub_zero]; exact rnd_of_f64 fb
  have t5 : (Fl.fin 0 : B64 sq hy) +. Fl.fin 0 = Fl.fin 0 := by rw [k0, add_zero]; exact z0
  unfold DD.add DD.addHiLo DD.addF DD.ofF
  dsimp only
  rw [lit64, t1, t2, t4, t3, t2, t5]
  rw [zero_add64 (inFormat_add _ _)]

theorem IsPair.ofF {y : ℚ} (fy : IsF64 y) : IsPair y 0 := ⟨fy, f64_zero, by rw [add_zero]; exact rnd_of_f64 fy⟩

/-- C74: adding a double to a normalised pair. -/
theorem C74_sum_double (a b y : ℚ) (p : IsPair a b) (fy : IsF64 y)
    (hfin : isFinite ((⟨Fl.fin a, Fl.fin b⟩ : DD (B64 sq hy)).addF (Fl.fin y)).hi = true) :
    ∃ h l, (⟨Fl.fin a, Fl.fin b⟩ : DD (B64 sq hy)).addF (Fl.fin y) = ⟨Fl.fin h, Fl.fin l⟩ ∧ IsPair h l ∧
      |h + l - (a + b + y)| ≤ |a + b + y| / 2 ^ 101 := by
  have e : (DD.ofF (Fl.fin y) : DD (B64 sq hy)) = ⟨Fl.fin y, Fl.fin 0⟩ := by unfold DD.ofF; rw [lit64]
  rw [addF_eq p.lo, e] at hfin ⊢
  have := C74_sum a b y 0 p (.ofF fy) hfin
  rwa [add_zero y] at this

/-- C74: multiplying a normalised pair by a double. -/
theorem C74_product_double (a b y : ℚ) (p : IsPair a b) (fy : IsF64 y) (hu : NoUnderflow a y)
    (hfin : isFinite ((⟨Fl.fin a, Fl.fin b⟩ : DD (B64 sq hy)).selfMulF (Fl.fin y)).hi = true) :
    ∃ h l, (⟨Fl.fin a, Fl.fin b⟩ : DD (B64 sq hy)).selfMulF (Fl.fin y) = ⟨Fl.fin h, Fl.fin l⟩ ∧ IsPair h l ∧
      |h + l - (a + b) * y| ≤ |(a + b) * y| / 2 ^ 100 := by
  have e : (⟨Fl.fin a, Fl.fin b⟩ : DD (B64 sq hy)).selfMulF (Fl.fin y) = (⟨Fl.fin a, Fl.fin b⟩ : DD (B64 sq hy)).selfMul ⟨Fl.fin y, Fl.fin 0⟩ := by
    unfold DD.selfMulF DD.selfMul; rw [lit64]
  rw [e] at hfin ⊢
  have := C67_product a b y 0 p (.ofF fy) hu hfin
  rwa [add_zero y] at this

/-- C74: the difference of pairs with the same value is zero, and no other difference is. -/
theorem C74_difference_zero (a b c d : ℚ) (p : IsPair a b) (q : IsPair c d)
    (hfin : isFinite ((⟨Fl.fin a, Fl.fin b⟩ : DD (B64 sq hy)).sub ⟨Fl.fin c, Fl.fin d⟩).hi = true) :
    ((⟨Fl.fin a, Fl.fin b⟩ : DD (B64 sq hy)).sub ⟨Fl.fin c, Fl.fin d⟩).isZero = true ↔ a + b = c + d := by
  obtain ⟨h, l, e1, -, e2, e3⟩ := C74_difference a b c d p q hfin
  have hz : (⟨Fl.fin h, Fl.fin l⟩ : DD (B64 sq hy)).isZero = true ↔ h = 0 ∧ l = 0 := by
    unfold DD.isZero
    rw [lit64]
    show (decide (h = 0) && decide (l = 0)) = true ↔ _
    simp
  rw [e1, hz]
  constructor
  · rintro ⟨rfl, rfl⟩
    have hn := abs_nonneg (a + b - (c + d))
    rw [add_zero, zero_sub, abs_neg] at e3
    have : |a + b - (c + d)| = 0 := by linarith
    linarith [abs_eq_zero.mp this]
  · intro hs
    rw [hs, sub_self, sub_zero, abs_zero, zero_div] at e3
    have h0 : h + l = 0 := abs_nonpos_iff.mp e3
    have h1 := e2.near
    rw [h0, near_zero] at h1
    subst h1
    exact ⟨rfl, by linarith⟩

/-- Two pairs whose sum does not fit into a pair, and pairs that cancel. -/
example : IsPair 1 (1 / 2 ^ 60) ∧ IsPair (1 / 2 ^ 40) (1 / 2 ^ 110) ∧ IsPair (-1) (1 / 2 ^ 70) ∧
    isFinite ((⟨Fl.fin 1, Fl.fin (1 / 2 ^ 60)⟩ : DD X64).add ⟨Fl.fin (1 / 2 ^ 40), Fl.fin (1 / 2 ^ 110)⟩).hi = true ∧
    isFinite ((⟨Fl.fin 1, Fl.fin (1 / 2 ^ 60)⟩ : DD X64).sub ⟨Fl.fin 1, Fl.fin (1 / 2 ^ 60)⟩).hi = true ∧
    (⟨Fl.fin 1, Fl.fin (1 / 2 ^ 60)⟩ : DD X64).add ⟨Fl.fin (-1), Fl.fin (1 / 2 ^ 70)⟩ = ⟨Fl.fin (1 / 2 ^ 60 + 1 / 2 ^ 70), Fl.fin 0⟩ := by
  refine ⟨⟨f64_of (by decide +kernel), f64_of (by decide +kernel), by decide +kernel⟩,
    ⟨f64_of (by decide +kernel), f64_of (by decide +kernel), by decide +kernel⟩,
    ⟨f64_of (by decide +kernel), f64_of (by decide +kernel), by decide +kernel⟩, by decide +kernel, by decide +kernel, by decide +kernel⟩

end Verif.Props
