import Verif.Props.DDSum
import Verif.Lemmas.DDDiv

/-! # C75: the accuracy of double-double quotients and reciprocals -/

namespace Verif.Props
open Flt Verif.Spec Verif.Binary64

variable {sq : ℚ → Val} {hy : ℚ → ℚ → Val}

theorem div64 {x : B64 sq hy} {b v : ℚ} (h : x /. Fl.fin b = Fl.fin v) : ∃ a, x = Fl.fin a ∧ b ≠ 0 ∧ near (a / b) = v ∧ |v| < 2 ^ 1024 := by
  change Fl.div x (Fl.fin b) = Fl.fin v at h
  cases x with
  | fin a =>
    simp only [Fl.div] at h
    split_ifs at h with h0
    · exfalso; revert h; unfold Fl.infOf; split_ifs <;> intro h <;> cases h
    · exact ⟨a, rfl, h0, (rnd_fin_iff _ _).mp h⟩
  | _ => simp only [Fl.div] at h; first | cases h | (exfalso; revert h; split_ifs <;> intro h <;> cases h)

/-- No underflow in the quotient of two numbers. -/
def NoUnderflowDiv (a y : ℚ) : Prop := Normal y ∧ (a = 0 ∨ (2 ^ (-960 : ℤ) ≤ |a| ∧ 2 ^ (-960 : ℤ) ≤ |a / y|))

theorem divHiLo_errPart (x y : DD (B64 sq hy)) : x.divHiLo y.hi y.lo =
    let cc := x.hi /. y.hi
    let c := ((((x.hi -. cc *. y.hi) -. errPart cc y.hi) +. x.lo) -. cc *. y.lo) /. y.hi
    ⟨cc +. c, (cc -. (cc +. c)) +. c⟩ := rfl

/-- The steps of a division with finite high part. -/
structure DivSteps (a b c d cc w : ℚ) where
  r1 : ℚ
  r2 : ℚ
  r3 : ℚ
  p : ℚ
  r4 : ℚ
  hcc : near (a / c) = cc
  re : Rep (cc * c - near (cc * c))
  h1 : near (a - near (cc * c)) = r1
  h2 : near (r1 - (cc * c - near (cc * c))) = r2
  h3 : near (r2 + b) = r3
  hp : near (cc * d) = p
  h4 : near (r3 - p) = r4
  hw : near (r4 / c) = w

theorem div_steps {a b c d : ℚ} (rc : Rep c) (hu : NoUnderflowDiv a c)
    (hfin : isFinite ((⟨Fl.fin a, Fl.fin b⟩ : DD (B64 sq hy)).div ⟨Fl.fin c, Fl.fin d⟩).hi = true) :
    ∃ cc w v, Nonempty (DivSteps a b c d cc w) ∧ c ≠ 0 ∧ IsF64 cc ∧ IsF64 w ∧ near (cc + w) = v ∧ |v| < 2 ^ 1024 ∧
      (⟨Fl.fin a, Fl.fin b⟩ : DD (B64 sq hy)).div ⟨Fl.fin c, Fl.fin d⟩ = ⟨Fl.fin v, (Fl.fin cc -. Fl.fin v) +. Fl.fin w⟩ := by
  obtain ⟨v, hv⟩ := finite_fin hfin
  unfold DD.div at hv ⊢
  rw [divHiLo_errPart] at hv ⊢
  dsimp only at hv ⊢
  obtain ⟨cc, w, e1, e2, e3, e4⟩ := add64 hv
  obtain ⟨a1, i1, i2, i3, i4⟩ := div64 e1
  obtain rfl := fin_inj i1
  rw [e1] at e2 hv ⊢
  obtain ⟨r4, j1, -, j3, j4⟩ := div64 e2
  obtain ⟨r3, pl, k1, k2, k3, -⟩ := sub64 j1
  obtain ⟨r2, b1, l1, l2, l3, -⟩ := add64 k1
  obtain rfl := fin_inj l2
  obtain ⟨r1, u, m1, m2, m3, -⟩ := sub64 l1
  obtain ⟨a2, uu, n1, n2, n3, -⟩ := sub64 m1
  obtain rfl := fin_inj n1
  obtain ⟨cc1, d1, o1, o2, o3, -⟩ := mul64 k2
  obtain rfl := fin_inj o1
  obtain rfl := fin_inj o2
  obtain ⟨nc, hu⟩ := hu
  have hc1 : NoUnderflow cc c := by
    rcases hu with rfl | ⟨hA, hQ⟩
    · left; rw [← i3, zero_div, near_zero]
    · have g := near_abs (a / c)
      rw [i3] at g
      have g1 : (2 : ℚ) ^ (-1075 : ℤ) ≤ 2 ^ (-960 : ℤ) / 4 := by
        rw [le_div_iff₀ (by norm_num), show (4 : ℚ) = 2 ^ (2 : ℤ) by norm_num, ← two_add]
        exact two_mono (by norm_num)
      have g2 : |a / c| / 2 ≤ |cc| := by
        have := abs_sub_abs_le_abs_sub (a / c) cc
        have g3 : |a / c| / 2 ^ 53 ≤ |a / c| / 4 := by
          have := abs_nonneg (a / c)
          linarith
        generalize (2 : ℚ) ^ (-1075 : ℤ) = η at *
        linarith
      have g4 : (2 : ℚ) ^ (-968 : ℤ) ≤ 2 ^ (-960 : ℤ) / 2 := by
        rw [le_div_iff₀ (by norm_num), show (2 : ℚ) ^ (-968 : ℤ) * 2 = 2 ^ (-968 + 1 : ℤ) by rw [two_add, zpow_one]]
        exact two_mono (by norm_num)
      have g5 : (2 : ℚ) ^ (-1022 : ℤ) ≤ 2 ^ (-968 : ℤ) := two_mono (by norm_num)
      right; right
      refine ⟨?_, nc, ?_⟩
      · unfold Normal
        refine le_trans g5 (le_trans g4 ?_)
        linarith
      · refine le_trans g4 ?_
        rw [abs_mul]
        have h3 : |a| / 2 ≤ |cc| * |c| := by
          have := mul_le_mul_of_nonneg_right g2 (abs_nonneg c)
          rw [abs_div] at this
          have hc0 : |c| ≠ 0 := abs_ne_zero.mpr i2
          rw [show |a| / |c| / 2 * |c| = |a| / 2 by field_simp] at this
          exact this
        linarith
  have rcc : Rep cc := i3 ▸ near_rep _
  obtain ⟨p1, p2, p3, p4⟩ := prod_part rcc rc hc1 m2
  rw [p1] at n2
  obtain rfl := fin_inj n2
  rw [p3] at p4 m3
  refine ⟨cc, w, v, ⟨⟨r1, r2, r3, pl, r4, i3, p4, n3, m3, l3, o3, k3, j3⟩⟩, i2, ⟨rcc, i4⟩, ⟨j3 ▸ near_rep _, j4⟩, e3, e4, ?_⟩
  rw [e2, show (Fl.fin cc : B64 sq hy) +. Fl.fin w = Fl.fin v from (rnd_fin_iff _ _).mpr ⟨e3, e4⟩]

/-- C75: the quotient of two normalised pairs is normalised and has a relative error of at most `2^-100`. -/
theorem C75_quotient (a b c d : ℚ) (p : IsPair a b) (q : IsPair c d) (hu : NoUnderflowDiv a c)
    (hfin : isFinite ((⟨Fl.fin a, Fl.fin b⟩ : DD (B64 sq hy)).div ⟨Fl.fin c, Fl.fin d⟩).hi = true) :
    ∃ h l, (⟨Fl.fin a, Fl.fin b⟩ : DD (B64 sq hy)).div ⟨Fl.fin c, Fl.fin d⟩ = ⟨Fl.fin h, Fl.fin l⟩ ∧ IsPair h l ∧
      |h + l - (a + b) / (c + d)| ≤ |(a + b) / (c + d)| / 2 ^ 100 := by
  obtain ⟨cc, w, v, ⟨s⟩, hc0, fcc, fw, e3, e4, e5⟩ := div_steps q.hi.1 hu hfin
  obtain ⟨r1, r2, r3, pl, r4, i3, p4, n3, m3, l3, o3, k3, j3⟩ := s
  obtain ⟨nc, hu⟩ := hu
  have main : |w| ≤ |cc| / 2 ∧ |cc + w - (a + b) / (c + d)| ≤ |(a + b) / (c + d)| / 2 ^ 100 := by
    rcases hu with rfl | ⟨hA, hQ⟩
    · obtain rfl := p.zero
      rw [zero_div, near_zero] at i3
      subst i3
      simp only [zero_mul, near_zero, sub_zero] at n3 o3 m3
      subst n3 o3
      simp only [sub_zero, near_zero] at m3
      subst m3
      simp only [add_zero, near_zero] at l3
      subst l3
      simp only [sub_zero, near_zero] at k3
      subst k3
      rw [zero_div, near_zero] at j3
      subst j3
      simp
    · have lb := low_rel p.hi.1 p.lo.1 p.near
      have ld := low_rel q.hi.1 q.lo.1 q.near
      obtain ⟨m1, m2⟩ := div_core p.hi.1 p.lo.1 hA hQ lb ld i3 rfl p4 n3 m3 l3 o3 k3 j3
      refine ⟨?_, m2⟩
      linarith [abs_nonneg cc]
  obtain ⟨-, s2, s3⟩ := last_part (sq := sq) (hy := hy) fcc fw e3 e4 (Or.inl main.1)
  refine ⟨v, cc + w - v, ?_, s3, ?_⟩
  · rw [e5, s2]
  · rw [show v + (cc + w - v) = cc + w by ring]
    exact main.2

theorem inFormat_sub (x y : B64 sq hy) : InFormat (x -. y) := inFormat_add x (-. y)

theorem add_zero64 {x : B64 sq hy} (h : InFormat x) : x +. Fl.fin 0 = x := by
  cases x with
  | fin q => show rnd (q + 0) = _; rw [add_zero]; exact rnd_of_f64 h
  | _ => rfl

/-- C75: the reciprocal is the quotient of one and the number. -/
theorem C75_reciprocal_eq (a : DD (B64 sq hy)) : a.reciprocal = (DD.ofF (lit 1)).div a := by
  unfold DD.reciprocal DD.div DD.divHiLo DD.ofF
  dsimp only
  rw [lit64, add_zero64 (inFormat_sub _ _)]

theorem f64_one : IsF64 1 := f64_of (by decide +kernel)

/-- C75: the accuracy of the reciprocal. -/
theorem C75_reciprocal (c d : ℚ) (q : IsPair c d) (hu : NoUnderflowDiv 1 c)
    (hfin : isFinite ((⟨Fl.fin c, Fl.fin d⟩ : DD (B64 sq hy)).reciprocal).hi = true) :
    ∃ h l, (⟨Fl.fin c, Fl.fin d⟩ : DD (B64 sq hy)).reciprocal = ⟨Fl.fin h, Fl.fin l⟩ ∧ IsPair h l ∧
      |h + l - 1 / (c + d)| ≤ |1 / (c + d)| / 2 ^ 100 := by
  rw [C75_reciprocal_eq] at hfin ⊢
  have e : (DD.ofF (lit 1) : DD (B64 sq hy)) = ⟨Fl.fin 1, Fl.fin 0⟩ := by
    unfold DD.ofF
    rw [lit64, show (lit 1 : B64 sq hy) = Fl.fin 1 from rnd_of_f64 f64_one]
  rw [e] at hfin ⊢
  have := C75_quotient 1 0 c d (.ofF f64_one) q hu hfin
  rwa [add_zero] at this

/-- C75: a quotient of doubles that is a double is exact. -/
theorem C75_exact (a c k : ℚ) (fc : IsF64 c) (fk : IsF64 k) (hk : a = k * c) (fa : IsF64 a) (hu : NoUnderflowDiv a c)
    (hfin : isFinite ((⟨Fl.fin a, Fl.fin 0⟩ : DD (B64 sq hy)).div ⟨Fl.fin c, Fl.fin 0⟩).hi = true) :
    (⟨Fl.fin a, Fl.fin 0⟩ : DD (B64 sq hy)).div ⟨Fl.fin c, Fl.fin 0⟩ = ⟨Fl.fin k, Fl.fin 0⟩ := by
  obtain ⟨cc, w, v, ⟨s⟩, hc0, fcc, fw, e3, e4, e5⟩ := div_steps fc.1 hu hfin
  obtain ⟨r1, r2, r3, pl, r4, i3, p4, n3, m3, l3, o3, k3, j3⟩ := s
  have hq : a / c = k := by rw [hk]; field_simp
  rw [hq, near_of_rep fk.1] at i3
  subst i3
  rw [← hk, near_of_rep fa.1, sub_self, near_zero] at n3
  subst n3
  rw [← hk, near_of_rep fa.1, sub_self, sub_zero, near_zero] at m3
  subst m3
  rw [add_zero, near_zero] at l3
  rw [mul_zero, near_zero] at o3
  subst l3 o3
  rw [sub_zero, near_zero] at k3
  subst k3
  rw [zero_div, near_zero] at j3
  subst j3
  rw [add_zero, near_of_rep fk.1] at e3
  subst e3
  have z0 : rnd 0 = .fin 0 := rnd_of_f64 f64_zero
  rw [e5, fl_sub_fin, sub_self]
  show DD.mk _ (Fl.add (rnd 0) (Fl.fin 0)) = _
  rw [z0]
  show DD.mk _ (rnd (0 + 0)) = _
  rw [add_zero, z0]; rfl

/-- C75: dividing and multiplying back returns the number up to three parts in `2^100`. -/
theorem C75_back (a b c d : ℚ) (p : IsPair a b) (q : IsPair c d) (hu : NoUnderflowDiv a c)
    (hfin : isFinite ((⟨Fl.fin a, Fl.fin b⟩ : DD (B64 sq hy)).div ⟨Fl.fin c, Fl.fin d⟩).hi = true)
    (hu2 : ∀ h l, (⟨Fl.fin a, Fl.fin b⟩ : DD (B64 sq hy)).div ⟨Fl.fin c, Fl.fin d⟩ = ⟨Fl.fin h, l⟩ → NoUnderflow h c)
    (hfin2 : isFinite (((⟨Fl.fin a, Fl.fin b⟩ : DD (B64 sq hy)).div ⟨Fl.fin c, Fl.fin d⟩).selfMul ⟨Fl.fin c, Fl.fin d⟩).hi = true) :
    ∃ h l, ((⟨Fl.fin a, Fl.fin b⟩ : DD (B64 sq hy)).div ⟨Fl.fin c, Fl.fin d⟩).selfMul ⟨Fl.fin c, Fl.fin d⟩ = ⟨Fl.fin h, Fl.fin l⟩ ∧ IsPair h l ∧
      |h + l - (a + b)| ≤ 3 * |a + b| / 2 ^ 100 := by
  obtain ⟨h, l, e1, e2, e3⟩ := C75_quotient a b c d p q hu hfin
  have hn := hu2 h _ e1
  rw [e1] at hfin2 ⊢
  obtain ⟨h', l', g1, g2, g3⟩ := C67_product h l c d e2 q hn hfin2
  refine ⟨h', l', g1, g2, ?_⟩
  have hc0 : c ≠ 0 := by
    rintro rfl
    have := hu.1
    unfold Normal at this
    rw [abs_zero] at this
    exact absurd this (not_le.mpr (two_pos _))
  have hcd : c + d ≠ 0 := by
    intro h0
    have := q.near
    rw [h0, near_zero] at this
    exact hc0 this.symm
  have f1 : |(h + l) * (c + d) - (a + b)| ≤ |a + b| / 2 ^ 100 := by
    have := mul_le_mul_of_nonneg_right e3 (abs_nonneg (c + d))
    rw [← abs_mul, sub_mul, div_mul_cancel₀ _ hcd, div_mul_eq_mul_div, ← abs_mul, div_mul_cancel₀ _ hcd] at this
    exact this
  have f2 := abs_le_add_err (a + b) ((h + l) * (c + d))
  rw [abs_sub_comm (a + b)] at f2
  have f3 := abs_add_le (h' + l' - (h + l) * (c + d)) ((h + l) * (c + d) - (a + b))
  rw [sub_add_sub_cancel] at f3
  have := abs_nonneg (a + b)
  linarith

/-- One third, and a quotient of pairs. -/
example : IsPair 1 0 ∧ IsPair 3 (1 / 2 ^ 60) ∧ NoUnderflowDiv 1 3 ∧
    isFinite ((⟨Fl.fin 1, Fl.fin 0⟩ : DD X64).div ⟨Fl.fin 3, Fl.fin (1 / 2 ^ 60)⟩).hi = true ∧
    isFinite ((⟨Fl.fin 3, Fl.fin (1 / 2 ^ 60)⟩ : DD X64).reciprocal).hi = true := by
  refine ⟨.ofF f64_one, ⟨three_isF64, f64_of (by decide +kernel), by decide +kernel⟩,
    ⟨by unfold Normal; decide +kernel, Or.inr ⟨by decide +kernel, by decide +kernel⟩⟩, by decide +kernel, by decide +kernel⟩

end Verif.Props
