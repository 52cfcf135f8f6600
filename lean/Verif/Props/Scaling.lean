import Verif.Props.Order
import Verif.Lemmas.TwoProd
import Verif.Props.CCWMotion
import Verif.Props.Envelope64
import Verif.Model.Triangle

/-! # C139: scaling by powers of two is exact

Binary64 numbers of moderate size: changing the unit of length by a power of two changes nothing but the scale of the results. -/

namespace Verif.Props
open Flt Verif.Spec Verif.Binary64 Verif.Mirror

/-! ## Numbers and their multiples -/

/-- A multiple of `2 ^ -N` of absolute value at most `2 ^ M`. -/
def Coarse (N M : ℕ) (q : ℚ) : Prop := (∃ m : ℤ, q = m * 2 ^ (-(N : ℤ))) ∧ |q| ≤ 2 ^ M

theorem coarse_zero (N M : ℕ) : Coarse N M 0 := ⟨⟨0, by simp⟩, by rw [abs_zero]; positivity⟩

theorem coarse_neg {N M : ℕ} {q : ℚ} (h : Coarse N M q) : Coarse N M (-q) := by
  obtain ⟨⟨m, e⟩, h⟩ := h
  exact ⟨⟨-m, by rw [e]; push_cast; ring⟩, by rwa [abs_neg]⟩

theorem mult_mono {N P : ℕ} {q : ℚ} (h : ∃ m : ℤ, q = m * 2 ^ (-(N : ℤ))) (hP : N ≤ P) : ∃ m : ℤ, q = m * 2 ^ (-(P : ℤ)) := by
  obtain ⟨m, e⟩ := h
  refine ⟨m * 2 ^ (P - N), ?_⟩
  rw [e]
  push_cast
  rw [mul_assoc, ← zpow_natCast, ← two_add]
  congr 2
  omega

theorem coarse_mono {N M P Q : ℕ} {q : ℚ} (h : Coarse N M q) (hP : N ≤ P) (hQ : M ≤ Q) : Coarse P Q q :=
  ⟨mult_mono h.1 hP, h.2.trans (pow_le_pow_right₀ (by norm_num) hQ)⟩

theorem coarse_add {N N' M M' P Q : ℕ} {a b : ℚ} (ha : Coarse N M a) (hb : Coarse N' M' b) (h1 : N ≤ P) (h2 : N' ≤ P) (h3 : M < Q) (h4 : M' < Q) :
    Coarse P Q (a + b) := by
  obtain ⟨m, e⟩ := mult_mono ha.1 h1
  obtain ⟨m', e'⟩ := mult_mono hb.1 h2
  refine ⟨⟨m + m', by rw [e, e']; push_cast; ring⟩, ?_⟩
  have e1 : (2 : ℚ) ^ M ≤ 2 ^ (Q - 1) := pow_le_pow_right₀ (by norm_num) (by omega)
  have e2 : (2 : ℚ) ^ M' ≤ 2 ^ (Q - 1) := pow_le_pow_right₀ (by norm_num) (by omega)
  have e3 : (2 : ℚ) ^ Q = 2 ^ (Q - 1) * 2 := by rw [← pow_succ]; congr 1; omega
  rw [e3]
  linarith [abs_add_le a b, ha.2, hb.2]

theorem coarse_mul {N N' M M' P Q : ℕ} {a b : ℚ} (ha : Coarse N M a) (hb : Coarse N' M' b) (h1 : N + N' ≤ P) (h3 : M + M' ≤ Q) :
    Coarse P Q (a * b) := by
  obtain ⟨m, e⟩ := ha.1
  obtain ⟨m', e'⟩ := hb.1
  refine ⟨mult_mono ⟨m * m', ?_⟩ h1, ?_⟩
  · rw [e, e']
    push_cast
    rw [neg_add, two_add]; ring
  · rw [abs_mul]
    calc |a| * |b| ≤ 2 ^ M * 2 ^ M' := mul_le_mul ha.2 hb.2 (abs_nonneg _) (by positivity)
      _ = 2 ^ (M + M') := (pow_add _ _ _).symm
      _ ≤ 2 ^ Q := pow_le_pow_right₀ (by norm_num) h3

/-- A multiple other than zero is not small. -/
theorem coarse_ge {N M : ℕ} {q : ℚ} (h : Coarse N M q) (h0 : q ≠ 0) : (2 : ℚ) ^ (-(N : ℤ)) ≤ |q| := by
  obtain ⟨m, e⟩ := h.1
  have hm : m ≠ 0 := by rintro rfl; apply h0; rw [e]; simp
  rw [e, abs_mul, abs_of_pos (two_pos _)]
  have : (1 : ℚ) ≤ |(m : ℚ)| := by exact_mod_cast Int.one_le_abs hm
  have hp := two_pos (-(N : ℤ))
  nlinarith

theorem coarse_normal {N M : ℕ} {q : ℚ} (h : Coarse N M q) (h0 : q ≠ 0) (hN : N ≤ 1022) : Normal q :=
  le_trans (two_mono (by omega)) (coarse_ge h h0)

/-- Rounding of normal numbers commutes with powers of two. -/
theorem near_scale {q : ℚ} {k : ℤ} (h1 : Normal q) (h2 : Normal (q * 2 ^ k)) : near (q * 2 ^ k) = near q * 2 ^ k := by
  have e1 := h1.expo
  have e2 := abs_lt_expo q
  have hk := two_pos k
  have ha : |q * 2 ^ k| = |q| * 2 ^ k := by rw [abs_mul, abs_of_pos hk]
  have l1 : (2 : ℚ) ^ (expo q + k + 52) ≤ |q * 2 ^ k| := by
    rw [ha, show expo q + k + 52 = expo q + 52 + k by ring, two_add]
    exact mul_le_mul_of_nonneg_right e1 hk.le
  have l2 : |q * 2 ^ k| < (2 : ℚ) ^ (expo q + k + 53) := by
    rw [ha, show expo q + k + 53 = expo q + 53 + k by ring, two_add]
    exact mul_lt_mul_of_pos_right e2 hk
  have l3 : -1074 ≤ expo q + k := by
    have : (2 : ℚ) ^ (-1022 : ℤ) < 2 ^ (expo q + k + 53) := lt_of_le_of_lt h2 l2
    rw [two_lt_iff] at this
    omega
  have ex : expo (q * 2 ^ k) = expo q + k := le_antisymm (expo_le l3 l2) (le_expo l1)
  unfold near
  rw [ex, two_add]
  have : q * 2 ^ k / (2 ^ expo q * 2 ^ k) = q / 2 ^ expo q := by
    have := two_pos (expo q)
    field_simp
  rw [this]
  ring

/-! ## Corresponding results -/

/-- Two loops over related states stay related, the relation depending on the round. -/
theorem forRange_rel2 {σ τ : Type} (lo hi : Nat) (f : Nat → σ → Res σ) (g : Nat → τ → Res τ) (R : Nat → σ → τ → Prop) (h : lo ≤ hi)
    (s : σ) (t : τ) (h0 : R lo s t)
    (hf : ∀ i s t, lo ≤ i → i < hi → R i s t → ∃ s' t', f i s = .ok s' ∧ g i t = .ok t' ∧ R (i + 1) s' t') :
    ∃ s' t', forRange lo hi s f = .ok s' ∧ forRange lo hi t g = .ok t' ∧ R hi s' t' := by
  induction hi, h using Nat.le_induction with
  | base => exact ⟨s, t, forRange_self _ _ le_rfl _ _, forRange_self _ _ le_rfl _ _, h0⟩
  | succ hi hle ih =>
    obtain ⟨s', t', e1, e2, hr⟩ := ih (fun i s t h1 h2 => hf i s t h1 (by omega))
    obtain ⟨s'', t'', e3, e4, hr'⟩ := hf hi s' t' hle (by omega) hr
    exact ⟨s'', t'', by rw [forRange_succ _ _ hle, e1]; exact e3, by rw [forRange_succ _ _ hle, e2]; exact e4, hr'⟩

section scale
variable {sq : ℚ → Val} {hy : ℚ → ℚ → Val}

/-- Two finite numbers of moderate size, the second `2 ^ k` times the first. -/
structure Scl (k : ℤ) (N M : ℕ) (v w : B64 sq hy) : Prop where
  out : ∃ q : ℚ, v = Fl.fin q ∧ w = Fl.fin (q * 2 ^ k) ∧ Coarse N M q ∧ Coarse N M (q * 2 ^ k)

theorem sc_zero (k : ℤ) (N M : ℕ) : Scl k N M (lit 0 : B64 sq hy) (lit 0) :=
  ⟨0, rnd_of_f64 f64_zero, by rw [zero_mul]; exact rnd_of_f64 f64_zero, coarse_zero _ _, by rw [zero_mul]; exact coarse_zero _ _⟩

theorem sc_mono {k : ℤ} {N M P Q : ℕ} {v w : B64 sq hy} (h : Scl k N M v w) (hP : N ≤ P) (hQ : M ≤ Q) : Scl k P Q v w := by
  obtain ⟨q, e1, e2, h1, h2⟩ := h.out
  exact ⟨q, e1, e2, coarse_mono h1 hP hQ, coarse_mono h2 hP hQ⟩

/-- A number that does not change. -/
theorem sc_const {N M : ℕ} {q : ℚ} {v : B64 sq hy} (e : v = Fl.fin q) (h : Coarse N M q) : Scl 0 N M v v :=
  ⟨q, e, by rw [zpow_zero, mul_one]; exact e, h, by rw [zpow_zero, mul_one]; exact h⟩

theorem sc_rnd {k : ℤ} {P Q : ℕ} {q : ℚ} (h1 : Coarse P Q q) (h2 : Coarse P Q (q * 2 ^ k)) (hP : P ≤ 1022) (hQ : Q ≤ 1023) :
    Scl k P Q (Fl.round q : B64 sq hy) (Fl.round (q * 2 ^ k)) := by
  have hn : near (q * 2 ^ k) = near q * 2 ^ k := by
    by_cases h0 : q = 0
    · rw [h0, zero_mul, near_zero, zero_mul]
    · exact near_scale (coarse_normal h1 h0 hP) (coarse_normal h2 (mul_ne_zero h0 (two_pos k).ne') hP)
  have hc : ∀ x : ℚ, Coarse P Q x → Coarse P Q (near x) := by
    intro x hx
    obtain ⟨m, e⟩ := hx.1
    exact ⟨near_mult x m _ (by omega) e, near_upto hx.2⟩
  refine ⟨near q, rnd_upto h1.2 hQ, ?_, hc _ h1, ?_⟩
  · rw [← hn]; exact rnd_upto h2.2 hQ
  · rw [← hn]; exact hc _ h2

theorem sc_neg {k : ℤ} {N M : ℕ} {v w : B64 sq hy} (h : Scl k N M v w) : Scl k N M (-.v) (-.w) := by
  obtain ⟨q, rfl, rfl, h1, h2⟩ := h.out
  refine ⟨-q, rfl, ?_, coarse_neg h1, ?_⟩
  · rw [neg_mul]; rfl
  · rw [neg_mul]; exact coarse_neg h2

theorem sc_add {k : ℤ} {N N' M M' : ℕ} (P Q : ℕ) {a a' b b' : B64 sq hy} (ha : Scl k N M a a') (hb : Scl k N' M' b b')
    (h1 : N ≤ P := by omega) (h2 : N' ≤ P := by omega) (h3 : M < Q := by omega) (h4 : M' < Q := by omega)
    (hP : P ≤ 1022 := by omega) (hQ : Q ≤ 1023 := by omega) : Scl k P Q (a +. b) (a' +. b') := by
  obtain ⟨x, rfl, rfl, x1, x2⟩ := ha.out
  obtain ⟨y, rfl, rfl, y1, y2⟩ := hb.out
  have h := coarse_add x2 y2 h1 h2 h3 h4
  have := sc_rnd (sq := sq) (hy := hy) (coarse_add x1 y1 h1 h2 h3 h4) (by rw [add_mul]; exact h) hP hQ
  rwa [add_mul] at this

theorem sc_sub {k : ℤ} {N N' M M' : ℕ} (P Q : ℕ) {a a' b b' : B64 sq hy} (ha : Scl k N M a a') (hb : Scl k N' M' b b')
    (h1 : N ≤ P := by omega) (h2 : N' ≤ P := by omega) (h3 : M < Q := by omega) (h4 : M' < Q := by omega)
    (hP : P ≤ 1022 := by omega) (hQ : Q ≤ 1023 := by omega) : Scl k P Q (a -. b) (a' -. b') := sc_add P Q ha (sc_neg hb) h1 h2 h3 h4 hP hQ

theorem sc_mul {k l : ℤ} {N N' M M' : ℕ} (P Q : ℕ) {a a' b b' : B64 sq hy} (ha : Scl k N M a a') (hb : Scl l N' M' b b')
    (h1 : N + N' ≤ P := by omega) (h3 : M + M' ≤ Q := by omega)
    (hP : P ≤ 1022 := by omega) (hQ : Q ≤ 1023 := by omega) : Scl (k + l) P Q (a *. b) (a' *. b') := by
  obtain ⟨x, rfl, rfl, x1, x2⟩ := ha.out
  obtain ⟨y, rfl, rfl, y1, y2⟩ := hb.out
  have e : x * y * 2 ^ (k + l) = x * 2 ^ k * (y * 2 ^ l) := by rw [two_add]; ring
  have h := coarse_mul x2 y2 h1 h3
  have := sc_rnd (sq := sq) (hy := hy) (k := k + l) (coarse_mul x1 y1 h1 h3) (by rw [e]; exact h) hP hQ
  rwa [e] at this

theorem sc_eq {k : ℤ} {N M : ℕ} {a b : B64 sq hy} {k' : ℤ} (h : Scl k N M a b) (e : k = k') : Scl k' N M a b := e ▸ h

/-- A quotient of rationals of moderate size, rounded. -/
theorem sc_div {k l : ℤ} {N N' M M' : ℕ} (P Q : ℕ) {a a' b b' : B64 sq hy} (ha : Scl k N M a a') (hb : Scl l N' M' b b') (h0 : b ≠ Fl.fin 0)
    (h1 : N + M' + 53 ≤ P := by omega) (h3 : M + N' ≤ Q := by omega)
    (hP : P ≤ 1022 := by omega) (hQ : Q ≤ 1023 := by omega) : Scl (k - l) P Q (a /. b) (a' /. b') := by
  obtain ⟨x, rfl, rfl, x1, x2⟩ := ha.out
  obtain ⟨y, rfl, rfl, y1, y2⟩ := hb.out
  have hy0 : y ≠ 0 := fun h => h0 (by rw [h])
  have hy1 : y * 2 ^ l ≠ 0 := mul_ne_zero hy0 (two_pos l).ne'
  have e0 : (Fl.fin x : B64 sq hy) /. Fl.fin y = Fl.round (x / y) := if_neg hy0
  have e1 : (Fl.fin (x * 2 ^ k) : B64 sq hy) /. Fl.fin (y * 2 ^ l) = Fl.round (x * 2 ^ k / (y * 2 ^ l)) := if_neg hy1
  have e : x * 2 ^ k / (y * 2 ^ l) = x / y * 2 ^ (k - l) := by
    have h2 := two_pos l
    rw [zpow_sub₀ (by norm_num : (2 : ℚ) ≠ 0)]
    field_simp
  have key : ∀ u v : ℚ, Coarse N M u → Coarse N' M' v → v ≠ 0 → (u / v = 0 ∨ Normal (u / v)) ∧ Coarse P Q (near (u / v)) ∧ |u / v| ≤ 2 ^ Q := by
    intro u v hu hv hv0
    have hvp : 0 < |v| := abs_pos.mpr hv0
    have g1 := coarse_ge hv hv0
    have hb : |u / v| ≤ 2 ^ Q := by
      rw [abs_div, div_le_iff₀ hvp]
      have p1 : (0 : ℚ) < 2 ^ (-(N' : ℤ)) := two_pos _
      have p2 : (2 : ℚ) ^ M ≤ 2 ^ Q * 2 ^ (-(N' : ℤ)) := by
        rw [← zpow_natCast, ← zpow_natCast, ← two_add]
        apply two_mono; omega
      calc |u| ≤ 2 ^ M := hu.2
        _ ≤ 2 ^ Q * 2 ^ (-(N' : ℤ)) := p2
        _ ≤ 2 ^ Q * |v| := mul_le_mul_of_nonneg_left g1 (by positivity)
    by_cases hu0 : u = 0
    · subst hu0
      rw [zero_div, near_zero]
      exact ⟨Or.inl rfl, coarse_zero _ _, by rw [abs_zero]; positivity⟩
    · have g2 := coarse_ge hu hu0
      have low : (2 : ℚ) ^ (-((N + M' : ℕ) : ℤ)) ≤ |u / v| := by
        rw [abs_div, le_div_iff₀ hvp]
        have p3 : (2 : ℚ) ^ (-((N + M' : ℕ) : ℤ)) * 2 ^ M' = 2 ^ (-(N : ℤ)) := by
          rw [← zpow_natCast, ← two_add]; congr 1; push_cast; ring
        calc (2 : ℚ) ^ (-((N + M' : ℕ) : ℤ)) * |v| ≤ 2 ^ (-((N + M' : ℕ) : ℤ)) * 2 ^ M' := mul_le_mul_of_nonneg_left hv.2 (two_pos _).le
          _ = 2 ^ (-(N : ℤ)) := p3
          _ ≤ |u| := g2
      refine ⟨Or.inr (le_trans (two_mono (by omega)) low), ⟨?_, near_upto hb⟩, hb⟩
      have hx : -(P : ℤ) ≤ expo (u / v) := by
        apply le_expo
        refine le_trans (two_mono ?_) low
        omega
      refine ⟨roundEven (u / v / 2 ^ expo (u / v)) * 2 ^ (expo (u / v) + P).toNat, ?_⟩
      unfold near
      push_cast
      rw [mul_assoc, ← zpow_natCast, ← two_add]
      congr 2
      omega
  obtain ⟨n1, c1, b1⟩ := key x y x1 y1 hy0
  obtain ⟨n2, c2, b2⟩ := key _ _ x2 y2 hy1
  rw [e] at n2 c2 b2 e1
  have hn : near (x / y * 2 ^ (k - l)) = near (x / y) * 2 ^ (k - l) := by
    rcases n1 with h | h
    · rw [h, zero_mul, near_zero, zero_mul]
    · rcases n2 with h' | h'
      · rcases mul_eq_zero.mp h' with h' | h'
        · rw [h', zero_mul, near_zero, zero_mul]
        · exact absurd h' (two_pos _).ne'
      · exact near_scale h h'
  rw [e0, e1]
  refine ⟨near (x / y), rnd_upto b1 hQ, ?_, c1, ?_⟩
  · rw [← hn]; exact rnd_upto b2 hQ
  · rw [← hn]; exact c2

theorem sc_lt {k : ℤ} {N M N' M' : ℕ} {a a' b b' : B64 sq hy} (ha : Scl k N M a a') (hb : Scl k N' M' b b') : (a' <. b') = (a <. b) := by
  obtain ⟨x, rfl, rfl, -⟩ := ha.out
  obtain ⟨y, rfl, rfl, -⟩ := hb.out
  change decide (_ < _) = decide (_ < _)
  rw [decide_eq_decide]
  exact mul_lt_mul_iff_left₀ (two_pos k)

theorem sc_le {k : ℤ} {N M N' M' : ℕ} {a a' b b' : B64 sq hy} (ha : Scl k N M a a') (hb : Scl k N' M' b b') : (a' ≤. b') = (a ≤. b) := by
  obtain ⟨x, rfl, rfl, -⟩ := ha.out
  obtain ⟨y, rfl, rfl, -⟩ := hb.out
  change decide (_ ≤ _) = decide (_ ≤ _)
  rw [decide_eq_decide]
  exact mul_le_mul_iff_left₀ (two_pos k)

theorem sc_beq {k : ℤ} {N M N' M' : ℕ} {a a' b b' : B64 sq hy} (ha : Scl k N M a a') (hb : Scl k N' M' b b') : (a' ==. b') = (a ==. b) := by
  obtain ⟨x, rfl, rfl, -⟩ := ha.out
  obtain ⟨y, rfl, rfl, -⟩ := hb.out
  change decide (_ = _) = decide (_ = _)
  rw [decide_eq_decide]
  exact mul_left_inj' (two_pos k).ne'

theorem sc_fin {k : ℤ} {N M : ℕ} {a a' : B64 sq hy} (h : Scl k N M a a') :
    isNaN a = false ∧ isNaN a' = false ∧ isInf a = false ∧ isInf a' = false := by
  obtain ⟨x, rfl, rfl, -⟩ := h.out
  exact ⟨rfl, rfl, rfl, rfl⟩

/-! ## Double-double numbers -/

structure ScD (k : ℤ) (N M : ℕ) (a b : DD (B64 sq hy)) : Prop where
  hi : Scl k N M a.hi b.hi
  lo : Scl k N M a.lo b.lo

theorem scD_mono {k : ℤ} {N M P Q : ℕ} {v w : DD (B64 sq hy)} (h : ScD k N M v w) (hP : N ≤ P := by omega) (hQ : M ≤ Q := by omega) : ScD k P Q v w :=
  ⟨sc_mono h.hi hP hQ, sc_mono h.lo hP hQ⟩

theorem scD_ofF {k : ℤ} {N M : ℕ} {a b : B64 sq hy} (h : Scl k N M a b) : ScD k N M (DD.ofF a) (DD.ofF b) := ⟨h, sc_zero _ _ _⟩

theorem scD_nan {k : ℤ} {N M : ℕ} {a b : DD (B64 sq hy)} (h : ScD k N M a b) : a.isNaN = false ∧ b.isNaN = false :=
  ⟨(sc_fin h.hi).1, (sc_fin h.hi).2.1⟩

theorem sc_sumErr {k : ℤ} {N M : ℕ} {a a' b b' : B64 sq hy} (ha : Scl k N M a a') (hb : Scl k N M b b') (hN : N ≤ 1022) (hM : M + 5 ≤ 1023) :
    Scl k N (M + 5) (sumErr a b) (sumErr a' b') := by
  have h1 := sc_add N (M + 1) ha hb
  have h2 := sc_sub N (M + 2) h1 ha
  have h3 := sc_sub N (M + 3) h1 h2
  exact sc_add N (M + 5) (sc_sub N (M + 4) hb h2) (sc_sub N (M + 4) ha h3)

theorem scD_addHiLo {k : ℤ} {N M : ℕ} {a b : DD (B64 sq hy)} {y z y' z' : B64 sq hy} (h : ScD k N M a b) (h1 : Scl k N M y y') (h2 : Scl k N M z z')
    (hN : N ≤ 1022) (hM : M + 13 ≤ 1023) : ScD k N (M + 13) (a.addHiLo y z) (b.addHiLo y' z') := by
  rw [addHiLo_eq, addHiLo_eq]
  have hss := sc_add N (M + 1) h.hi h1
  have htt := sc_add N (M + 1) h.lo h2
  have hs := sc_sumErr h.hi h1 hN (by omega)
  have ht := sc_sumErr h.lo h2 hN (by omega)
  have e1 := sc_add N (M + 6) hs htt
  have e2 := sc_add N (M + 7) hss e1
  have e3 := sc_add N (M + 9) e1 (sc_sub N (M + 8) hss e2)
  have e4 := sc_add N (M + 10) ht e3
  have e5 := sc_add N (M + 11) e2 e4
  exact ⟨sc_mono e5 le_rfl (by omega), sc_add N (M + 13) e4 (sc_sub N (M + 12) e2 e5)⟩

theorem scD_addF {k : ℤ} {N M : ℕ} {a b : DD (B64 sq hy)} {y y' : B64 sq hy} (h : ScD k N M a b) (h1 : Scl k N M y y')
    (hN : N ≤ 1022) (hM : M + 13 ≤ 1023) : ScD k N (M + 13) (a.addF y) (b.addF y') := by
  have hss := sc_add N (M + 1) h.hi h1
  have hs := sc_sumErr h.hi h1 hN (by omega)
  have e1 := sc_add N (M + 6) hs h.lo
  have e2 := sc_add N (M + 7) hss e1
  have e3 := sc_add N (M + 9) e1 (sc_sub N (M + 8) hss e2)
  have e5 := sc_add N (M + 10) e2 e3
  exact ⟨sc_mono e5 le_rfl (by omega), sc_add N (M + 13) e3 (sc_sub N (M + 12) e2 e5)⟩

theorem sc_split : Scl 0 0 28 (DD.SPLIT : B64 sq hy) DD.SPLIT :=
  sc_const split64 ⟨⟨134217729, by norm_num⟩, by norm_num [abs_of_pos]⟩

theorem sc_splits {k : ℤ} {N M : ℕ} {a b : B64 sq hy} (h : Scl k N M a b) (hN : N ≤ 1022) (hM : M + 31 ≤ 1023) :
    Scl k N (M + 30) (DD.SPLIT *. a -. (DD.SPLIT *. a -. a)) (DD.SPLIT *. b -. (DD.SPLIT *. b -. b)) ∧
      Scl k N (M + 31) (a -. (DD.SPLIT *. a -. (DD.SPLIT *. a -. a))) (b -. (DD.SPLIT *. b -. (DD.SPLIT *. b -. b))) := by
  have c1 := sc_eq (sc_mul N (M + 28) sc_split h) (zero_add k)
  have c2 := sc_sub N (M + 29) c1 h
  have c3 := sc_sub N (M + 30) c1 c2
  exact ⟨c3, sc_sub N (M + 31) h c3⟩

theorem scD_mulHiLo {k l : ℤ} {N M N' M' : ℕ} {a b : DD (B64 sq hy)} {y z y' z' : B64 sq hy} (h : ScD k N M a b) (h1 : Scl l N' M' y y')
    (h2 : Scl l N' M' z z') (hN : N + N' ≤ 1022) (hM : M + M' + 70 ≤ 1023) :
    ScD (k + l) (N + N') (M + M' + 70) (a.mulHiLo y z) (b.mulHiLo y' z') := by
  obtain ⟨c3, c4⟩ := sc_splits h.hi (by omega) (by omega)
  obtain ⟨d3, d4⟩ := sc_splits h1 (by omega) (by omega)
  have p0 := sc_mul (N + N') (M + M') h.hi h1
  have p1 := sc_mul (N + N') (M + M') h.hi h2
  have p2 := sc_mul (N + N') (M + M') h.lo h1
  have q1 := sc_mul (N + N') (M + M' + 60) c3 d3
  have q2 := sc_mul (N + N') (M + M' + 61) c3 d4
  have q3 := sc_mul (N + N') (M + M' + 61) c4 d3
  have q4 := sc_mul (N + N') (M + M' + 62) c4 d4
  have r1 := sc_sub (N + N') (M + M' + 61) q1 p0
  have r2 := sc_add (N + N') (M + M' + 62) r1 q2
  have r3 := sc_add (N + N') (M + M' + 63) r2 q3
  have r4 := sc_add (N + N') (M + M' + 64) r3 q4
  have r5 := sc_add (N + N') (M + M' + 1) p1 p2
  have r6 := sc_add (N + N') (M + M' + 65) r4 r5
  have r7 := sc_add (N + N') (M + M' + 66) p0 r6
  have r8 := sc_sub (N + N') (M + M' + 67) p0 r7
  exact ⟨sc_mono r7 le_rfl (by omega), sc_add (N + N') (M + M' + 70) r6 r8⟩

theorem scD_selfSub {k : ℤ} {N M : ℕ} {a a' b b' : DD (B64 sq hy)} (ha : ScD k N M a a') (hb : ScD k N M b b') (hN : N ≤ 1022) (hM : M + 13 ≤ 1023) :
    ScD k N (M + 13) (a.selfSub b) (a'.selfSub b') := by
  unfold DD.selfSub
  rw [(scD_nan ha).1, (scD_nan ha).2]
  exact scD_addHiLo ha (sc_neg hb.hi) (sc_neg hb.lo) hN hM

theorem scD_selfSubF {k : ℤ} {N M : ℕ} {a a' : DD (B64 sq hy)} {b b' : B64 sq hy} (ha : ScD k N M a a') (hb : Scl k N M b b') (hN : N ≤ 1022)
    (hM : M + 13 ≤ 1023) : ScD k N (M + 13) (a.selfSubF b) (a'.selfSubF b') := by
  unfold DD.selfSubF
  rw [(scD_nan ha).1, (scD_nan ha).2]
  exact scD_addHiLo ha (sc_neg hb) (sc_zero _ _ _) hN hM

theorem scD_mul {k l : ℤ} {N M N' M' : ℕ} {a a' b b' : DD (B64 sq hy)} (ha : ScD k N M a a') (hb : ScD l N' M' b b')
    (hN : N + N' ≤ 1022) (hM : M + M' + 70 ≤ 1023) : ScD (k + l) (N + N') (M + M' + 70) (a.mul b) (a'.mul b') := by
  unfold DD.mul
  rw [(scD_nan hb).1, (scD_nan hb).2]
  exact scD_mulHiLo ha hb.hi hb.lo hN hM

theorem scD_eq {k : ℤ} {N M : ℕ} {a b : DD (B64 sq hy)} {k' : ℤ} (h : ScD k N M a b) (e : k = k') : ScD k' N M a b := e ▸ h

theorem scD_signum {k : ℤ} {N M : ℕ} {a b : DD (B64 sq hy)} (h : ScD k N M a b) : b.signum = a.signum := by
  unfold DD.signum
  have z := sc_zero (sq := sq) (hy := hy) k 0 0
  rw [sc_lt z h.hi, sc_lt h.hi z, sc_lt z h.lo, sc_lt h.lo z]

/-! ## Points -/

/-- The value `2 ^ k` times as large. -/
def times2 (k : ℤ) : B64 sq hy → B64 sq hy
  | .fin q => .fin (q * 2 ^ k)
  | v => v

/-- The point with both coordinates `2 ^ k` times as large. -/
def scalePt (k : ℤ) (p : Coord (B64 sq hy)) : Coord (B64 sq hy) := { p with x := times2 k p.x, y := times2 k p.y }

/-- A double that is zero or has an absolute value between `2 ^ -n` and `2 ^ n`. -/
structure MidF (n : ℕ) (v : B64 sq hy) : Prop where
  out : ∃ q : ℚ, v = Fl.fin q ∧ IsF64 q ∧ (q = 0 ∨ (2 : ℚ) ^ (-(n : ℤ)) ≤ |q|) ∧ |q| ≤ 2 ^ n

/-- A point whose coordinates are such doubles. -/
structure MidPt (n : ℕ) (p : Coord (B64 sq hy)) : Prop where
  x : MidF n p.x
  y : MidF n p.y

/-- A point that is moderate in both units. -/
structure BothUnits (n : ℕ) (k : ℤ) (p : Coord (B64 sq hy)) : Prop where
  before : MidPt n p
  after : MidPt n (scalePt k p)

theorem coarse_near {q : ℚ} {n : ℕ} (h : (2 : ℚ) ^ (-(n : ℤ)) ≤ |q|) : ∃ m : ℤ, near q = m * 2 ^ (-((n + 52 : ℕ) : ℤ)) := by
  have hx : -((n + 52 : ℕ) : ℤ) ≤ expo q := le_expo (le_trans (two_mono (by push_cast; omega)) h)
  refine ⟨roundEven (q / 2 ^ expo q) * 2 ^ (expo q + (n + 52 : ℕ)).toNat, ?_⟩
  unfold near
  push_cast
  rw [mul_assoc, ← zpow_natCast, ← two_add]
  congr 2
  push_cast at hx
  omega

theorem coarse_mid {q : ℚ} {n : ℕ} (h : IsF64 q) (h0 : q = 0 ∨ (2 : ℚ) ^ (-(n : ℤ)) ≤ |q|) (h1 : |q| ≤ 2 ^ n) : Coarse (n + 52) n q := by
  rcases h0 with rfl | h0
  · exact coarse_zero _ _
  · have := coarse_near h0
    rw [near_of_rep h.1] at this
    exact ⟨this, h1⟩

theorem sc_mid {n : ℕ} {k : ℤ} {v : B64 sq hy} (h : MidF n v) (h' : MidF n (times2 k v)) : Scl k (n + 52) n v (times2 k v) := by
  obtain ⟨q, rfl, f, a, b⟩ := h.out
  obtain ⟨q', e, f', a', b'⟩ := h'.out
  have e' : q * 2 ^ k = q' := by
    injection e
  subst e'
  exact ⟨q, rfl, rfl, coarse_mid f a b, coarse_mid f' a' b'⟩

theorem sc_times2 {k : ℤ} {N M : ℕ} {v w : B64 sq hy} (h : Scl k N M v w) : w = times2 k v := by
  obtain ⟨q, rfl, rfl, -⟩ := h.out
  rfl

structure ScC (k : ℤ) (N M : ℕ) (p p' : Coord (B64 sq hy)) : Prop where
  x : Scl k N M p.x p'.x
  y : Scl k N M p.y p'.y

theorem scC_mid {n : ℕ} {k : ℤ} {p : Coord (B64 sq hy)} (h : BothUnits n k p) : ScC k (n + 52) n p (scalePt k p) :=
  ⟨sc_mid h.before.x h.after.x, sc_mid h.before.y h.after.y⟩

/-! ## Orientation -/

theorem sc_eps : Scl 0 102 0 (CGDD.eps : B64 sq hy) CGDD.eps := by
  have h1 : |(1 / 1000000000000000 : ℚ)| ≤ 2 ^ 0 := by norm_num
  refine sc_const (rnd_upto h1 (by norm_num)) ⟨?_, near_upto h1⟩
  exact coarse_near (n := 50) (by norm_num)

theorem sc_signum {k : ℤ} {N M : ℕ} {a b : B64 sq hy} (h : Scl k N M a b) : CGDD.signum b = CGDD.signum a := by
  unfold CGDD.signum
  have z := sc_zero (sq := sq) (hy := hy) k 0 0
  rw [sc_lt z h, sc_lt h z]

theorem sc_filter {k : ℤ} {N M : ℕ} {a b c a' b' c' : Coord (B64 sq hy)} (ha : ScC k N M a a') (hb : ScC k N M b b') (hc : ScC k N M c c')
    (hN : 2 * N + 102 ≤ 1022) (hM : 2 * M + 3 ≤ 1023) :
    CGDD.filter a'.x a'.y b'.x b'.y c'.x c'.y = CGDD.filter a.x a.y b.x b.y c.x c.y := by
  have hl := sc_mul (2 * N) (2 * M + 2) (sc_sub N (M + 1) ha.x hc.x) (sc_sub N (M + 1) hb.y hc.y)
  have hr := sc_mul (2 * N) (2 * M + 2) (sc_sub N (M + 1) ha.y hc.y) (sc_sub N (M + 1) hb.x hc.x)
  have hd := sc_sub (2 * N) (2 * M + 3) hl hr
  have hs := sc_add (2 * N) (2 * M + 3) hl hr
  have hs' := sc_sub (2 * N) (2 * M + 3) (sc_neg hl) hr
  have he := sc_eq (sc_mul (2 * N + 102) (2 * M + 3) sc_eps hs) (zero_add _)
  have he' := sc_eq (sc_mul (2 * N + 102) (2 * M + 3) sc_eps hs') (zero_add _)
  have z := sc_zero (sq := sq) (hy := hy) (k + k) 0 0
  unfold CGDD.filter
  simp only [sc_lt z hl, sc_lt hl z, sc_le hr z, sc_le z hr, sc_signum hd, sc_le he hd, sc_le he (sc_neg hd), sc_le he' hd, sc_le he' (sc_neg hd)]

theorem sc_ddIndex {k : ℤ} {N M : ℕ} {a b c a' b' c' : Coord (B64 sq hy)} (ha : ScC k N M a a') (hb : ScC k N M b b') (hc : ScC k N M c c')
    (hN : 2 * N ≤ 1022) (hM : 2 * M + 109 ≤ 1023) :
    CGDD.ddIndex a'.x a'.y b'.x b'.y c'.x c'.y = CGDD.ddIndex a.x a.y b.x b.y c.x c.y := by
  have d1 := scD_addF (scD_ofF hb.x) (sc_neg ha.x) (by omega) (by omega)
  have d2 := scD_addF (scD_ofF hb.y) (sc_neg ha.y) (by omega) (by omega)
  have d3 := scD_addF (scD_ofF hc.x) (sc_neg hb.x) (by omega) (by omega)
  have d4 := scD_addF (scD_ofF hc.y) (sc_neg hb.y) (by omega) (by omega)
  have m1 := scD_mulHiLo d1 d4.hi d4.lo (by omega) (by omega)
  have m2 := scD_mulHiLo d2 d3.hi d3.lo (by omega) (by omega)
  exact scD_signum (scD_selfSub m1 m2 (by omega) (by omega))

theorem sc_index {k : ℤ} {N M : ℕ} {a b c a' b' c' : Coord (B64 sq hy)} (ha : ScC k N M a a') (hb : ScC k N M b b') (hc : ScC k N M c c')
    (hN : 2 * N + 102 ≤ 1022) (hM : 2 * M + 109 ≤ 1023) : Orientation.index a' b' c' = Orientation.index a b c := by
  unfold Orientation.index CGDD.index CGDD.indexXY
  simp only [sc_filter ha hb hc hN (by omega), sc_ddIndex ha hb hc (by omega) (by omega)]

/-- C139: orientation. -/
theorem C139_orientation {k : ℤ} {a b c : Coord (B64 sq hy)} (ha : BothUnits 400 k a) (hb : BothUnits 400 k b) (hc : BothUnits 400 k c) :
    Orientation.index (scalePt k a) (scalePt k b) (scalePt k c) = Orientation.index a b c ∧
      Triangle.isCCW (scalePt k a) (scalePt k b) (scalePt k c) = Triangle.isCCW a b c := by
  have h := sc_index (scC_mid ha) (scC_mid hb) (scC_mid hc) (by omega) (by omega)
  refine ⟨h, ?_⟩
  unfold Triangle.isCCW
  rw [h]

/-! ## Boxes -/

theorem sc_ite {k : ℤ} {N M : ℕ} {a b a' b' : B64 sq hy} (ha : Scl k N M a a') (hb : Scl k N M b b') {c c' : Bool} (h : c' = c) :
    Scl k N M (if c then a else b) (if c' then a' else b') := by
  subst h; split <;> assumption

theorem sc_fmin {k : ℤ} {N M : ℕ} {a b a' b' : B64 sq hy} (ha : Scl k N M a a') (hb : Scl k N M b b') : Scl k N M (fmin a b) (fmin a' b') := by
  unfold fmin
  rw [(sc_fin ha).1, (sc_fin ha).2.1, (sc_fin hb).1, (sc_fin hb).2.1]
  exact sc_ite ha hb (sc_lt ha hb)

theorem sc_fmax {k : ℤ} {N M : ℕ} {a b a' b' : B64 sq hy} (ha : Scl k N M a a') (hb : Scl k N M b b') : Scl k N M (fmax a b) (fmax a' b') := by
  unfold fmax
  rw [(sc_fin ha).1, (sc_fin ha).2.1, (sc_fin hb).1, (sc_fin hb).2.1]
  exact sc_ite ha hb (sc_lt hb ha)

theorem sc_intersects3 {k : ℤ} {N M : ℕ} {a b c a' b' c' : Coord (B64 sq hy)} (ha : ScC k N M a a') (hb : ScC k N M b b') (hc : ScC k N M c c') :
    Env.intersects3 a' b' c' = Env.intersects3 a b c := by
  have x1 := sc_ite ha.x hb.x (sc_lt ha.x hb.x)
  have x2 := sc_ite ha.x hb.x (sc_lt hb.x ha.x)
  have y1 := sc_ite ha.y hb.y (sc_lt ha.y hb.y)
  have y2 := sc_ite ha.y hb.y (sc_lt hb.y ha.y)
  unfold Env.intersects3
  simp only [sc_le x1 hc.x, sc_le hc.x x2, sc_le y1 hc.y, sc_le hc.y y2]

theorem sc_intersects4 {k : ℤ} {N M : ℕ} {a b c d a' b' c' d' : Coord (B64 sq hy)} (ha : ScC k N M a a') (hb : ScC k N M b b') (hc : ScC k N M c c')
    (hd : ScC k N M d d') : Env.intersects4 a' b' c' d' = Env.intersects4 a b c d := by
  unfold Env.intersects4
  simp only [sc_lt (sc_fmax hc.x hd.x) (sc_fmin ha.x hb.x), sc_lt (sc_fmax ha.x hb.x) (sc_fmin hc.x hd.x),
    sc_lt (sc_fmax hc.y hd.y) (sc_fmin ha.y hb.y), sc_lt (sc_fmax ha.y hb.y) (sc_fmin hc.y hd.y)]

theorem sc_equals2D {k : ℤ} {N M : ℕ} {a b a' b' : Coord (B64 sq hy)} (ha : ScC k N M a a') (hb : ScC k N M b b') : a'.equals2D b' = a.equals2D b := by
  unfold Coord.equals2D
  rw [sc_beq ha.x hb.x, sc_beq ha.y hb.y]

/-- C139: equality of points, points in boxes, boxes that meet. -/
theorem C139_boxes {k : ℤ} {a b c d : Coord (B64 sq hy)} (ha : BothUnits 400 k a) (hb : BothUnits 400 k b) (hc : BothUnits 400 k c) (hd : BothUnits 400 k d) :
    (scalePt k a).equals2D (scalePt k b) = a.equals2D b ∧
      Env.intersects3 (scalePt k a) (scalePt k b) (scalePt k c) = Env.intersects3 a b c ∧
      Env.intersects4 (scalePt k a) (scalePt k b) (scalePt k c) (scalePt k d) = Env.intersects4 a b c d :=
  ⟨sc_equals2D (scC_mid ha) (scC_mid hb), sc_intersects3 (scC_mid ha) (scC_mid hb) (scC_mid hc),
    sc_intersects4 (scC_mid ha) (scC_mid hb) (scC_mid hc) (scC_mid hd)⟩

/-! ## The intersector -/

theorem sc_collinear {k : ℤ} {N M : ℕ} {a b c d a' b' c' d' : Coord (B64 sq hy)} (ha : ScC k N M a a') (hb : ScC k N M b b') (hc : ScC k N M c c')
    (hd : ScC k N M d d') (s t : LI (B64 sq hy)) : (t.computeCollinear a' b' c' d').1 = (s.computeCollinear a b c d).1 := by
  unfold LI.computeCollinear
  simp only [sc_intersects3 ha hb hc, sc_intersects3 ha hb hd, sc_intersects3 hc hd ha, sc_intersects3 hc hd hb, sc_equals2D hc ha, sc_equals2D hc hb,
    sc_equals2D hd ha, sc_equals2D hd hb]
  split_ifs <;> rfl

/-- C139: whether two segments meet, in a point or in a part of a line, and whether the crossing is proper. -/
theorem C139_intersector {k : ℤ} {a b c d : Coord (B64 sq hy)} (ha : BothUnits 400 k a) (hb : BothUnits 400 k b) (hc : BothUnits 400 k c) (hd : BothUnits 400 k d)
    (s t : LI (B64 sq hy)) :
    (t.compute4 (scalePt k a) (scalePt k b) (scalePt k c) (scalePt k d)).result = (s.compute4 a b c d).result ∧
      (t.compute4 (scalePt k a) (scalePt k b) (scalePt k c) (scalePt k d)).isProper = (s.compute4 a b c d).isProper := by
  have ha := scC_mid ha
  have hb := scC_mid hb
  have hc := scC_mid hc
  have hd := scC_mid hd
  have key : ∀ s t : LI (B64 sq hy), (t.computeIntersect (scalePt k a) (scalePt k b) (scalePt k c) (scalePt k d)).1 = (s.computeIntersect a b c d).1 ∧
      (t.computeIntersect (scalePt k a) (scalePt k b) (scalePt k c) (scalePt k d)).2.isProper = (s.computeIntersect a b c d).2.isProper := by
    intro s t
    unfold LI.computeIntersect
    simp only [sc_intersects4 ha hb hc hd, sc_index ha hb hc (by omega) (by omega), sc_index ha hb hd (by omega) (by omega),
      sc_index hc hd ha (by omega) (by omega), sc_index hc hd hb (by omega) (by omega)]
    split_ifs
    · exact ⟨rfl, rfl⟩
    · exact ⟨rfl, rfl⟩
    · exact ⟨rfl, rfl⟩
    · exact ⟨sc_collinear ha hb hc hd _ _, by rw [collinear_keeps_flag, collinear_keeps_flag]⟩
    · exact ⟨rfl, rfl⟩
    · exact ⟨rfl, rfl⟩
  exact key _ _

/-! ## Rings and chains -/

theorem sc_countSegment {k : ℤ} {N M : ℕ} {p a b p' a' b' : Coord (B64 sq hy)} (hp : ScC k N M p p') (ha : ScC k N M a a') (hb : ScC k N M b b')
    (hN : 2 * N + 102 ≤ 1022) (hM : 2 * M + 109 ≤ 1023) (n : ℤ) (o : Bool) :
    ∃ n' o', (⟨p, n, o⟩ : RayCounter (B64 sq hy)).step a b = ⟨p, n', o'⟩ ∧ (⟨p', n, o⟩ : RayCounter (B64 sq hy)).step a' b' = ⟨p', n', o'⟩ := by
  unfold RayCounter.step RayCounter.countSegment
  have m1 : Scl k N M (if b.x <. a.x then (b.x, a.x) else (a.x, b.x)).1 (if b'.x <. a'.x then (b'.x, a'.x) else (a'.x, b'.x)).1 := by
    rw [sc_lt hb.x ha.x]; split
    · exact hb.x
    · exact ha.x
  have m2 : Scl k N M (if b.x <. a.x then (b.x, a.x) else (a.x, b.x)).2 (if b'.x <. a'.x then (b'.x, a'.x) else (a'.x, b'.x)).2 := by
    rw [sc_lt hb.x ha.x]; split
    · exact ha.x
    · exact hb.x
  simp only [sc_lt ha.x hp.x, sc_lt hb.x hp.x, sc_beq hp.x hb.x, sc_beq hp.y hb.y, sc_beq ha.y hp.y, sc_beq hb.y hp.y, sc_le m1 hp.x, sc_le hp.x m2,
    sc_lt hp.y ha.y, sc_le hb.y hp.y, sc_lt hp.y hb.y, sc_le ha.y hp.y, sc_index ha hb hp hN hM, sc_lt hb.y ha.y]
  split_ifs <;> exact ⟨_, _, rfl, rfl⟩

theorem sc_locate {k : ℤ} {N M : ℕ} {p p' : Coord (B64 sq hy)} (hp : ScC k N M p p') (f : Coord (B64 sq hy) → Coord (B64 sq hy))
    (ring : List (Coord (B64 sq hy))) (h : ∀ c ∈ ring, ScC k N M c (f c)) (hN : 2 * N + 102 ≤ 1022) (hM : 2 * M + 109 ≤ 1023) :
    PointLocation.locateInRing p' (ring.map f) = PointLocation.locateInRing p ring := by
  unfold PointLocation.locateInRing RayCounter.locateVec
  rw [List.length_map]
  by_cases hl : 1 ≤ ring.length
  · obtain ⟨s, t, e1, e2, n, o, r1, r2⟩ := forRange_rel 1 ring.length
      (fun i (counter : RayCounter (B64 sq hy)) => do
        let p1 ← Res.get ring i
        let p2 ← Res.get ring (i - 1)
        pure (counter.step p1 p2))
      (fun i (counter : RayCounter (B64 sq hy)) => do
        let p1 ← Res.get (ring.map f) i
        let p2 ← Res.get (ring.map f) (i - 1)
        pure (counter.step p1 p2))
      (fun s t => ∃ n o, s = ⟨p, n, o⟩ ∧ t = ⟨p', n, o⟩) hl (RayCounter.new p) (RayCounter.new p') ⟨0, false, rfl, rfl⟩ (by
        rintro i s t h1 h2 ⟨n, o, rfl, rfl⟩
        rw [Res.get_lt h2, Res.get_lt (by omega : i - 1 < ring.length), Res.get_lt (by simpa using h2 : i < (ring.map f).length),
          Res.get_lt (by simp; omega : i - 1 < (ring.map f).length)]
        simp only [Res.bind_ok, List.getElem_map]
        obtain ⟨n', o', e1, e2⟩ := sc_countSegment hp (h _ (List.getElem_mem h2)) (h _ (List.getElem_mem (by omega : i - 1 < ring.length))) hN hM n o
        exact ⟨_, _, rfl, rfl, n', o', e1, e2⟩)
    rw [e1, e2]
    simp only [Res.bind_ok, r1, r2]
    rfl
  · rw [forRange_self _ _ (by omega), forRange_self _ _ (by omega)]
    rfl

theorem sc_onSegment {k : ℤ} {N M : ℕ} {p a b p' a' b' : Coord (B64 sq hy)} (hp : ScC k N M p p') (ha : ScC k N M a a') (hb : ScC k N M b b')
    (hN : 2 * N + 102 ≤ 1022) (hM : 2 * M + 109 ≤ 1023) : PointLocation.isOnSegment p' a' b' = PointLocation.isOnSegment p a b := by
  unfold PointLocation.isOnSegment
  rw [sc_intersects3 ha hb hp, sc_equals2D hp ha, sc_index ha hb hp hN hM]

theorem sc_onLine {k : ℤ} {N M : ℕ} {p p' : Coord (B64 sq hy)} (hp : ScC k N M p p') (f : Coord (B64 sq hy) → Coord (B64 sq hy))
    (line : List (Coord (B64 sq hy))) (h : ∀ c ∈ line, ScC k N M c (f c)) (hN : 2 * N + 102 ≤ 1022) (hM : 2 * M + 109 ≤ 1023) :
    PointLocation.isOnLine p' (line.map f) = PointLocation.isOnLine p line := by
  unfold PointLocation.isOnLine
  rw [List.length_map]
  rw [forFind_same (fun i => do
    let p0 ← Res.get line (i - 1)
    let p1 ← Res.get line i
    if PointLocation.isOnSegment p p0 p1 then pure (some true) else pure none)]
  intro i
  unfold Res.get
  rw [List.getElem?_map, List.getElem?_map]
  cases e0 : getElem? line (i - 1) with
  | none => rfl
  | some p0 =>
    cases e1 : getElem? line i with
    | none => rfl
    | some p1 =>
      have g := sc_onSegment hp (h _ (List.mem_of_getElem? e0)) (h _ (List.mem_of_getElem? e1)) hN hM
      simp only [Option.map, Res.bind_ok, g]

/-- C139: where a point lies with respect to a ring or a chain. -/
theorem C139_location {k : ℤ} {p : Coord (B64 sq hy)} {ring : List (Coord (B64 sq hy))} (hp : BothUnits 400 k p) (hr : ∀ c ∈ ring, BothUnits 400 k c) :
    PointLocation.locateInRing (scalePt k p) (ring.map (scalePt k)) = PointLocation.locateInRing p ring ∧
      PointLocation.isInRing (scalePt k p) (ring.map (scalePt k)) = PointLocation.isInRing p ring ∧
      PointLocation.isOnLine (scalePt k p) (ring.map (scalePt k)) = PointLocation.isOnLine p ring := by
  have h := sc_locate (scC_mid hp) (scalePt k) ring (fun c hc => scC_mid (hr c hc)) (by omega) (by omega)
  refine ⟨h, ?_, sc_onLine (scC_mid hp) (scalePt k) ring (fun c hc => scC_mid (hr c hc)) (by omega) (by omega)⟩
  unfold PointLocation.isInRing
  rw [h]

/-! ## Orientation of rings -/

theorem sc_isCCW {k : ℤ} {N M : ℕ} (F : Coord (B64 sq hy) → Coord (B64 sq hy)) (r : List (Coord (B64 sq hy))) (h : ∀ c ∈ r, ScC k N M c (F c))
    (hN : 2 * N + 102 ≤ 1022) (hM : 2 * M + 109 ≤ 1023) : Orientation.isCCW (r.map F) = Orientation.isCCW r := by
  unfold Orientation.isCCW Orientation.isCCWSeq Orientation.asSeq
  simp only [CASeq.size, List.length_map]
  by_cases hl : r.length = 0
  · rw [hl]; rfl
  rw [Res.sub_le (by omega)]
  simp only [Res.bind_ok]
  obtain ⟨n, hn⟩ : ∃ n, n = r.length - 1 := ⟨_, rfl⟩
  rw [← hn]
  by_cases h3 : n < 3
  · rw [if_pos h3, if_pos h3]
  rw [if_neg h3, if_neg h3]
  have scanRel : ∃ s t, Orientation.scan (⟨2, 0, r⟩ : CASeq (B64 sq hy)) n = .ok s ∧ Orientation.scan (⟨2, 0, r.map F⟩ : CASeq (B64 sq hy)) n = .ok t ∧
      (t.upHi = F s.upHi ∧ s.upHi ∈ r) ∧ Scl k N M s.prevY t.prevY ∧ t.iUpHi = s.iUpHi ∧ (s.iUpHi ≠ 0 → t.upLow = F s.upLow ∧ s.upLow ∈ r) := by
    unfold Orientation.scan
    simp only [CASeq.getCoordinate]
    rw [Res.get_lt (by omega : 0 < r.length), Res.get_lt (by simp; omega : 0 < (r.map F).length)]
    simp only [Res.bind_ok]
    apply forRange_rel 1 (n + 1) _ _ (fun (s t : Orientation.Scan (B64 sq hy)) =>
      (t.upHi = F s.upHi ∧ s.upHi ∈ r) ∧ Scl k N M s.prevY t.prevY ∧ t.iUpHi = s.iUpHi ∧ (s.iUpHi ≠ 0 → t.upLow = F s.upLow ∧ s.upLow ∈ r)) (by omega)
    · exact ⟨⟨by simp, List.getElem_mem _⟩, by simpa using (h _ (List.getElem_mem _)).y, rfl, fun h => absurd rfl h⟩
    · rintro i s t h1 h2 ⟨⟨r1, r1'⟩, r2, r3, r4⟩
      have hi : i < r.length := by omega
      have hy' := (h _ (List.getElem_mem hi)).y
      rw [getOrd_asSeq r 2 0 i hi, getOrd_asSeq (r.map F) 2 0 i (by simpa using hi)]
      simp only [Res.bind_ok]
      have hc : (((r.map F)[i]'(by simpa using hi)).y >. t.prevY && ((r.map F)[i]'(by simpa using hi)).y ≥. t.upHi.y)
          = (r[i].y >. s.prevY && r[i].y ≥. s.upHi.y) := by
        simp only [List.getElem_map, r1, sc_lt r2 hy', sc_le (h _ r1').y hy']
      rw [hc]
      rw [Res.get_lt hi, Res.get_lt (by simpa using hi : i < (r.map F).length), Res.get_lt (by omega : i - 1 < r.length),
        Res.get_lt (by simp; omega : i - 1 < (r.map F).length)]
      split_ifs
      · exact ⟨_, _, rfl, rfl, ⟨by simp, List.getElem_mem _⟩, by simpa using hy', rfl, fun _ => ⟨by simp, List.getElem_mem _⟩⟩
      · exact ⟨_, _, rfl, rfl, ⟨r1, r1'⟩, by simpa using hy', r3, r4⟩
  obtain ⟨s, t, e1, e2, ⟨r1, r1'⟩, r2, r3, r4⟩ := scanRel
  rw [e1, e2]
  simp only [Res.bind_ok, r3]
  by_cases h0 : s.iUpHi = 0
  · rw [if_pos h0, if_pos h0]
  · rw [if_neg h0, if_neg h0]
    obtain ⟨l1, l2⟩ := r4 h0
    have hfd : ∀ fuel i, Orientation.findDown (⟨2, 0, r.map F⟩ : CASeq (B64 sq hy)) n t.upHi.y s.iUpHi fuel i
        = Orientation.findDown (⟨2, 0, r⟩ : CASeq (B64 sq hy)) n s.upHi.y s.iUpHi fuel i := by
      intro fuel
      induction fuel with
      | zero => intro i; rfl
      | succ fuel ih =>
        intro i
        have hm : (i + 1) % n < r.length := lt_of_lt_of_le (Nat.mod_lt _ (by omega)) (by omega)
        simp only [Orientation.findDown]
        rw [getOrd_asSeq r 2 0 _ hm, getOrd_asSeq (r.map F) 2 0 _ (by simpa using hm)]
        simp only [Res.bind_ok, List.getElem_map, ih]
        simp only [r1, sc_beq (h _ (List.getElem_mem hm)).y (h _ r1').y]
    have hget : ∀ i, (⟨2, 0, r.map F⟩ : CASeq (B64 sq hy)).getCoordinate i = F <$> (⟨2, 0, r⟩ : CASeq (B64 sq hy)).getCoordinate i := by
      intro i
      simp only [CASeq.getCoordinate]
      by_cases hi : i < r.length
      · rw [Res.get_lt hi, Res.get_lt (by simpa using hi : i < (r.map F).length)]; simp
      · rw [Res.get_ge (by omega : r.length ≤ i), Res.get_ge (by simp; omega : (r.map F).length ≤ i)]; rfl
    have hmem : ∀ i c, (⟨2, 0, r⟩ : CASeq (B64 sq hy)).getCoordinate i = .ok c → c ∈ r := by
      intro i c hc
      simp only [CASeq.getCoordinate] at hc
      by_cases hi : i < r.length
      · rw [Res.get_lt hi] at hc
        cases hc
        exact List.getElem_mem _
      · rw [Res.get_ge (by omega : r.length ≤ i)] at hc
        cases hc
    rw [hfd]
    cases Orientation.findDown (⟨2, 0, r⟩ : CASeq (B64 sq hy)) n s.upHi.y s.iUpHi (n + 1) s.iUpHi with
    | error e => rfl
    | ok i =>
      simp only [Res.bind_ok, hget]
      cases g1 : (⟨2, 0, r⟩ : CASeq (B64 sq hy)).getCoordinate i with
      | error e => rfl
      | ok dl =>
        simp only [Res.map_ok, Res.bind_ok]
        cases g2 : (⟨2, 0, r⟩ : CASeq (B64 sq hy)).getCoordinate (if i > 0 then i - 1 else n - 1) with
        | error e => rfl
        | ok dh =>
          have m1 := h _ (hmem _ _ g1)
          have m2 := h _ (hmem _ _ g2)
          have mh := h _ r1'
          have ml := h _ l2
          have z := sc_zero (sq := sq) (hy := hy) k 0 0
          have ed := sc_lt (sc_sub N (M + 1) m2.x mh.x) z
          simp only [Res.map_ok, Res.bind_ok, r1, l1, sc_equals2D mh m2, sc_equals2D ml mh, sc_equals2D m1 mh, sc_equals2D ml m1,
            sc_index ml mh m1 hN hM, ed]

/-- C139: the sense of a ring. -/
theorem C139_ring {k : ℤ} {ring : List (Coord (B64 sq hy))} (hr : ∀ c ∈ ring, BothUnits 400 k c) :
    Orientation.isCCW (ring.map (scalePt k)) = Orientation.isCCW ring :=
  sc_isCCW (scalePt k) ring (fun c hc => scC_mid (hr c hc)) (by omega) (by omega)

/-! ## Areas -/

/-- A sum of at most `i` terms of absolute value at most `2 ^ M`. -/
structure ScSum (k : ℤ) (N M i : ℕ) (v w : B64 sq hy) : Prop where
  out : ∃ q : ℚ, v = Fl.fin q ∧ w = Fl.fin (q * 2 ^ k) ∧ (∃ m : ℤ, q = m * 2 ^ (-(N : ℤ))) ∧ (∃ m : ℤ, q * 2 ^ k = m * 2 ^ (-(N : ℤ))) ∧
    |q| ≤ i * 2 ^ M ∧ |q * 2 ^ k| ≤ i * 2 ^ M

theorem near_le_times {q : ℚ} {i M : ℕ} (h : |q| ≤ i * 2 ^ M) (hi : i ≤ 2 ^ 53) : |near q| ≤ i * 2 ^ M := by
  have hr : Rep ((i : ℚ) * 2 ^ M) := ⟨i, M, by rw [Nat.abs_cast]; exact_mod_cast hi, by omega, by push_cast; rw [zpow_natCast]⟩
  have hr' : Rep (-((i : ℚ) * 2 ^ M)) := by
    obtain ⟨m, e, h1, h2, h3⟩ := hr
    exact ⟨-m, e, by rwa [abs_neg], h2, by rw [h3]; push_cast; ring⟩
  rw [abs_le] at h ⊢
  have h1 := near_mono h.1
  have h2 := near_mono h.2
  rw [near_of_rep hr] at h2
  rw [near_of_rep hr'] at h1
  exact ⟨h1, h2⟩

theorem scSum_add {k : ℤ} {N M i : ℕ} {a b a' b' : B64 sq hy} (ha : ScSum k N M i a a') (hb : Scl k N M b b') (hN : N ≤ 1022) (hM : M + 53 ≤ 1023)
    (hi : i + 1 ≤ 2 ^ 53) : ScSum k N M (i + 1) (a +. b) (a' +. b') := by
  obtain ⟨x, rfl, rfl, ⟨m1, e1⟩, ⟨m2, e2⟩, u1, u2⟩ := ha.out
  obtain ⟨y, rfl, rfl, ⟨⟨n1, f1⟩, v1⟩, ⟨⟨n2, f2⟩, v2⟩⟩ := hb.out
  have c1 : ∃ m : ℤ, x + y = m * 2 ^ (-(N : ℤ)) := ⟨m1 + n1, by rw [e1, f1]; push_cast; ring⟩
  have c2 : ∃ m : ℤ, (x + y) * 2 ^ k = m * 2 ^ (-(N : ℤ)) := ⟨m2 + n2, by rw [add_mul, e2, f2]; push_cast; ring⟩
  have b1 : |x + y| ≤ ((i + 1 : ℕ) : ℚ) * 2 ^ M := by push_cast; linarith [abs_add_le x y]
  have b2 : |(x + y) * 2 ^ k| ≤ ((i + 1 : ℕ) : ℚ) * 2 ^ M := by rw [add_mul]; push_cast; linarith [abs_add_le (x * 2 ^ k) (y * 2 ^ k)]
  have big : ((i + 1 : ℕ) : ℚ) * 2 ^ M ≤ 2 ^ (M + 53) := by
    rw [pow_add, mul_comm]
    exact mul_le_mul_of_nonneg_left (by exact_mod_cast hi) (by positivity)
  have hn : near ((x + y) * 2 ^ k) = near (x + y) * 2 ^ k := by
    by_cases h0 : x + y = 0
    · rw [h0, zero_mul, near_zero, zero_mul]
    · exact near_scale (coarse_normal ⟨c1, b1.trans big⟩ h0 hN) (coarse_normal ⟨c2, b2.trans big⟩ (mul_ne_zero h0 (two_pos k).ne') hN)
  have o1 : (Fl.fin x : B64 sq hy) +. Fl.fin y = Fl.fin (near (x + y)) := rnd_upto (b1.trans big) hM
  have o2 : (Fl.fin (x * 2 ^ k) : B64 sq hy) +. Fl.fin (y * 2 ^ k) = Fl.fin (near (x + y) * 2 ^ k) := by
    rw [← hn]
    change (Fl.round (x * 2 ^ k + y * 2 ^ k) : B64 sq hy) = _
    rw [← add_mul]
    exact rnd_upto (b2.trans big) hM
  obtain ⟨m, c1⟩ := c1
  obtain ⟨m', c2⟩ := c2
  refine ⟨near (x + y), o1, o2, near_mult _ m _ (by omega) c1, ?_, near_le_times b1 hi, ?_⟩
  · rw [← hn]; exact near_mult _ m' _ (by omega) c2
  · rw [← hn]; exact near_le_times b2 hi

theorem div_round (x : ℚ) {y : ℚ} (h : y ≠ 0) : (Fl.fin x : B64 sq hy) /. Fl.fin y = Fl.round (x / y) := if_neg h

/-- Half of a number. -/
theorem sc_half {k : ℤ} {N M : ℕ} {a a' : B64 sq hy} (h : Scl k N M a a') (hN : N + 1 ≤ 1022) (hM : M ≤ 1023) :
    Scl k (N + 1) M (a /. lit 2) (a' /. lit 2) := by
  obtain ⟨x, rfl, rfl, h1, h2⟩ := h.out
  have e2 : (lit 2 : B64 sq hy) = Fl.fin 2 := (rnd_of_f64 (by simpa using f64_int 2 (by norm_num)) : rnd 2 = .fin 2)
  have half : ∀ x : ℚ, Coarse N M x → Coarse (N + 1) M (x / 2) := by
    rintro x ⟨⟨m, e⟩, h⟩
    refine ⟨⟨m, ?_⟩, ?_⟩
    · rw [e]
      push_cast
      rw [neg_add, two_add]
      norm_num
      ring
    · rw [abs_div, abs_two]
      linarith [abs_nonneg x]
  rw [e2]
  have n2 : (2 : ℚ) ≠ 0 := by norm_num
  have r1 : (Fl.fin x : B64 sq hy) /. Fl.fin 2 = Fl.round (x / 2) := div_round _ n2
  have r2 : (Fl.fin (x * 2 ^ k) : B64 sq hy) /. Fl.fin 2 = Fl.round (x / 2 * 2 ^ k) := by
    rw [show x / 2 * 2 ^ k = x * 2 ^ k / 2 by ring]
    exact div_round _ n2
  rw [r1, r2]
  exact sc_rnd (half x h1) (by rw [show x / 2 * 2 ^ k = x * 2 ^ k / 2 by ring]; exact half _ h2) hN hM

theorem sc_area {k : ℤ} {N M : ℕ} (F : Coord (B64 sq hy) → Coord (B64 sq hy)) (r : List (Coord (B64 sq hy))) (h : ∀ c ∈ r, ScC k N M c (F c))
    (hN : 2 * N + 1 ≤ 1022) (hM : 2 * M + 55 ≤ 1023) (hl : r.length ≤ 2 ^ 53) :
    ∃ v w, Area.ofRingSigned r = .ok v ∧ Area.ofRingSigned (r.map F) = .ok w ∧ Scl (k + k) (2 * N + 1) (2 * M + 55) v w := by
  unfold Area.ofRingSigned
  rw [List.length_map]
  by_cases h3 : r.length < 3
  · rw [if_pos h3, if_pos h3]
    exact ⟨_, _, rfl, rfl, sc_zero _ _ _⟩
  rw [if_neg h3, if_neg h3]
  rw [Res.get_lt (by omega : 0 < r.length), Res.get_lt (by simp; omega : 0 < (r.map F).length)]
  simp only [Res.bind_ok, List.getElem_map]
  have h0 := h _ (List.getElem_mem (by omega : 0 < r.length))
  obtain ⟨s, t, e1, e2, hs⟩ := forRange_rel2 1 (r.length - 1)
    (fun i (sum : B64 sq hy) => do
      let ci ← Res.get r i
      let cn ← Res.get r (i + 1)
      let cp ← Res.get r (i - 1)
      pure (sum +. (ci.x -. (r[0]'(by omega)).x) *. (cp.y -. cn.y)))
    (fun i (sum : B64 sq hy) => do
      let ci ← Res.get (r.map F) i
      let cn ← Res.get (r.map F) (i + 1)
      let cp ← Res.get (r.map F) (i - 1)
      pure (sum +. (ci.x -. (F (r[0]'(by omega))).x) *. (cp.y -. cn.y)))
    (fun i s t => ScSum (k + k) (2 * N) (2 * M + 2) i s t) (by omega) (lit 0) (lit 0)
    (by
      refine ⟨0, rnd_of_f64 f64_zero, ?_, ⟨0, by simp⟩, ⟨0, by simp⟩, ?_, ?_⟩
      · rw [zero_mul]; exact rnd_of_f64 f64_zero
      · rw [abs_zero]; positivity
      · rw [zero_mul, abs_zero]; positivity)
    (by
      intro i s t h1 h2 hst
      rw [Res.get_lt (by omega : i < r.length), Res.get_lt (by omega : i + 1 < r.length), Res.get_lt (by omega : i - 1 < r.length),
        Res.get_lt (by simp; omega : i < (r.map F).length), Res.get_lt (by simp; omega : i + 1 < (r.map F).length),
        Res.get_lt (by simp; omega : i - 1 < (r.map F).length)]
      simp only [Res.bind_ok, List.getElem_map]
      have ci := h _ (List.getElem_mem (by omega : i < r.length))
      have cn := h _ (List.getElem_mem (by omega : i + 1 < r.length))
      have cp := h _ (List.getElem_mem (by omega : i - 1 < r.length))
      have m := sc_mul (2 * N) (2 * M + 2) (sc_sub N (M + 1) ci.x h0.x) (sc_sub N (M + 1) cp.y cn.y)
      exact ⟨_, _, rfl, rfl, scSum_add hst m (by omega) (by omega) (by omega)⟩)
  rw [e1, e2]
  obtain ⟨q, a1, a2, a3, a4, a5, a6⟩ := hs.out
  have big : ((r.length - 1 : ℕ) : ℚ) * 2 ^ (2 * M + 2) ≤ 2 ^ (2 * M + 55) := by
    rw [show 2 * M + 55 = 53 + (2 * M + 2) by ring, pow_add _ 53]
    exact mul_le_mul_of_nonneg_right (by exact_mod_cast (by omega : r.length - 1 ≤ 2 ^ 53)) (by positivity)
  have hq : Scl (k + k) (2 * N) (2 * M + 55) s t := ⟨q, a1, a2, ⟨a3, a5.trans big⟩, ⟨a4, a6.trans big⟩⟩
  exact ⟨_, _, rfl, rfl, sc_half hq (by omega) (by omega)⟩

/-- C139: the signed area of a ring, and its size, in squares of the unit. -/
theorem C139_area {k : ℤ} {ring : List (Coord (B64 sq hy))} (hr : ∀ c ∈ ring, BothUnits 400 k c) (hl : ring.length ≤ 2 ^ 53) :
    Area.ofRingSigned (ring.map (scalePt k)) = (Area.ofRingSigned ring).map (times2 (2 * k)) ∧
      Area.ofRing (ring.map (scalePt k)) = (Area.ofRing ring).map (times2 (2 * k)) ∧
      Orientation.isCCWArea (ring.map (scalePt k)) = Orientation.isCCWArea ring := by
  obtain ⟨v, w, e1, e2, h⟩ := sc_area (scalePt k) ring (fun c hc => scC_mid (hr c hc)) (by omega) (by omega) hl
  have h := sc_eq h (two_mul k).symm
  refine ⟨?_, ?_, ?_⟩
  · rw [e1, e2, sc_times2 h]; rfl
  · unfold Area.ofRing
    rw [e1, e2, sc_times2 h]
    obtain ⟨q, rfl, -⟩ := h.out
    change Except.ok (Fl.fin |q * 2 ^ (2 * k)|) = Except.ok (Fl.fin (|q| * 2 ^ (2 * k)))
    rw [abs_mul, abs_of_pos (two_pos (2 * k))]
  · unfold Orientation.isCCWArea
    rw [e1, e2]
    simp only [Res.bind_ok, sc_lt h (sc_zero (2 * k) 0 0)]

/-! ## Crossing points -/

/-- Both results are missing, or the points correspond. -/
structure ScO (k : ℤ) (N M : ℕ) (a b : Option (Coord (B64 sq hy))) : Prop where
  out : (a = none ∧ b = none) ∨ ∃ x y x' y', a = some (Coord.xy x y) ∧ b = some (Coord.xy x' y') ∧ Scl k N M x x' ∧ Scl k N M y y'

theorem scO_eq {k : ℤ} {N M : ℕ} {a b : Option (Coord (B64 sq hy))} (h : ScO k N M a b) : b = a.map (scalePt k) := by
  rcases h.out with ⟨rfl, rfl⟩ | ⟨x, y, x', y', rfl, rfl, hx, hy⟩
  · rfl
  · rw [sc_times2 hx, sc_times2 hy]; rfl

theorem scO_some {k : ℤ} {N M : ℕ} {x y x' y' : B64 sq hy} (hx : Scl k N M x x') (hy' : Scl k N M y y') :
    ScO k N M (if isNaN x || isInf x || isNaN y || isInf y then none else some (Coord.xy x y))
      (if isNaN x' || isInf x' || isNaN y' || isInf y' then none else some (Coord.xy x' y')) := by
  rw [(sc_fin hx).1, (sc_fin hx).2.1, (sc_fin hx).2.2.1, (sc_fin hx).2.2.2, (sc_fin hy').1, (sc_fin hy').2.1, (sc_fin hy').2.2.1, (sc_fin hy').2.2.2]
  exact ⟨Or.inr ⟨x, y, x', y', rfl, rfl, hx, hy'⟩⟩

theorem sc_divDD {k l : ℤ} {N M N' M' : ℕ} {a y a' y' : DD (B64 sq hy)} (ha : ScD k N M a a') (hy' : ScD l N' M' y y') (h0 : y.hi ≠ Fl.fin 0)
    (hP : N + N' + 2 * M' + 106 ≤ 1022) (hQ : M + 2 * N' + M' + 71 ≤ 1023) :
    Scl (k - l) (N + N' + 2 * M' + 106) (M + 2 * N' + M' + 71) (a.div y).doubleValue (a'.div y').doubleValue := by
  have cc := sc_div (N + M' + 53) (M + N') ha.hi hy'.hi h0
  obtain ⟨hc, tc⟩ := sc_splits cc (by omega) (by omega)
  obtain ⟨hy1, ty⟩ := sc_splits hy'.hi (by omega) (by omega)
  have uu := sc_eq (sc_mul (N + M' + 53 + N') (M + N' + M') cc hy'.hi) (sub_add_cancel k l)
  have q1 := sc_eq (sc_mul (N + M' + 53 + N') (M + N' + M' + 60) hc hy1) (sub_add_cancel k l)
  have q2 := sc_eq (sc_mul (N + M' + 53 + N') (M + N' + M' + 61) hc ty) (sub_add_cancel k l)
  have q3 := sc_eq (sc_mul (N + M' + 53 + N') (M + N' + M' + 61) tc hy1) (sub_add_cancel k l)
  have q4 := sc_eq (sc_mul (N + M' + 53 + N') (M + N' + M' + 62) tc ty) (sub_add_cancel k l)
  have q5 := sc_eq (sc_mul (N + M' + 53 + N') (M + N' + M') cc hy'.lo) (sub_add_cancel k l)
  have r1 := sc_sub (N + M' + 53 + N') (M + N' + M' + 61) q1 uu
  have r2 := sc_add (N + M' + 53 + N') (M + N' + M' + 62) r1 q2
  have r3 := sc_add (N + M' + 53 + N') (M + N' + M' + 63) r2 q3
  have u := sc_add (N + M' + 53 + N') (M + N' + M' + 64) r3 q4
  have s1 := sc_sub (N + M' + 53 + N') (M + N' + M' + 1) ha.hi uu
  have s2 := sc_sub (N + M' + 53 + N') (M + N' + M' + 65) s1 u
  have s3 := sc_add (N + M' + 53 + N') (M + N' + M' + 66) s2 ha.lo
  have s4 := sc_sub (N + M' + 53 + N') (M + N' + M' + 67) s3 q5
  have c := sc_div (N + N' + 2 * M' + 106) (M + 2 * N' + M' + 67) s4 hy'.hi h0
  have hi := sc_add (N + N' + 2 * M' + 106) (M + 2 * N' + M' + 68) cc c
  have lo := sc_add (N + N' + 2 * M' + 106) (M + 2 * N' + M' + 70) (sc_sub (N + N' + 2 * M' + 106) (M + 2 * N' + M' + 69) cc hi) c
  exact sc_add (N + N' + 2 * M' + 106) (M + 2 * N' + M' + 71) hi lo

theorem sc_hi_zero {k : ℤ} {N M : ℕ} {a b : B64 sq hy} (h : Scl k N M a b) (h0 : a = Fl.fin 0) : b = Fl.fin 0 := by
  obtain ⟨q, rfl, rfl, -⟩ := h.out
  have : q = 0 := by injection h0
  rw [this, zero_mul]

theorem sc_crossing {k : ℤ} {N M : ℕ} {p1 p2 q1 q2 p1' p2' q1' q2' : Coord (B64 sq hy)} (h1 : ScC k N M p1 p1') (h2 : ScC k N M p2 p2')
    (h3 : ScC k N M q1 q1') (h4 : ScC k N M q2 q2') (hP : 5 * N + 4 * M + 324 ≤ 1022) (hQ : 5 * M + 4 * N + 359 ≤ 1023) :
    ScO k (5 * N + 4 * M + 324) (5 * M + 4 * N + 359) (CGDD.intersection p1 p2 q1 q2) (CGDD.intersection p1' p2' q1' q2') := by
  have line : ∀ {a b a' b' : Coord (B64 sq hy)}, ScC k N M a a' → ScC k N M b b' →
      ScD k N (M + 13) ((DD.ofF a.y).selfSubF b.y) ((DD.ofF a'.y).selfSubF b'.y) ∧
      ScD k N (M + 13) ((DD.ofF b.x).selfSubF a.x) ((DD.ofF b'.x).selfSubF a'.x) ∧
      ScD (k + k) (2 * N) (2 * M + 83) (((DD.ofF a.x).selfMulF b.y).selfSub ((DD.ofF b.x).selfMulF a.y))
        (((DD.ofF a'.x).selfMulF b'.y).selfSub ((DD.ofF b'.x).selfMulF a'.y)) := by
    intro a b a' b' ha hb
    refine ⟨scD_selfSubF (scD_ofF ha.y) hb.y (by omega) (by omega), scD_selfSubF (scD_ofF hb.x) ha.x (by omega) (by omega), ?_⟩
    have m1 := scD_mulHiLo (scD_ofF ha.x) hb.y (sc_zero k N M) (by omega) (by omega)
    have m2 := scD_mulHiLo (scD_ofF hb.x) ha.y (sc_zero k N M) (by omega) (by omega)
    exact scD_mono (scD_selfSub m1 m2 (by omega) (by omega))
  obtain ⟨px, py, pw⟩ := line h1 h2
  obtain ⟨qx, qy, qw⟩ := line h3 h4
  have x := scD_selfSub (scD_mul py qw (by omega) (by omega)) (scD_mul qy pw (by omega) (by omega)) (by omega) (by omega)
  have y := scD_selfSub (scD_mul qx pw (by omega) (by omega)) (scD_mul px qw (by omega) (by omega)) (by omega) (by omega)
  have w := scD_selfSub (scD_mul px qy (by omega) (by omega)) (scD_mul qx py (by omega) (by omega)) (by omega) (by omega)
  rw [crossing_eq, crossing_eq]
  generalize (((DD.ofF p2.x).selfSubF p1.x).mul _).selfSub _ = X at x ⊢
  generalize (((DD.ofF p2'.x).selfSubF p1'.x).mul _).selfSub _ = X' at x ⊢
  generalize (((DD.ofF q1.y).selfSubF q2.y).mul (DD.selfSub _ _)).selfSub _ = Y at y ⊢
  generalize (((DD.ofF q1'.y).selfSubF q2'.y).mul (DD.selfSub _ _)).selfSub _ = Y' at y ⊢
  generalize (((DD.ofF p1.y).selfSubF p2.y).mul _).selfSub _ = W at w ⊢
  generalize (((DD.ofF p1'.y).selfSubF p2'.y).mul _).selfSub _ = W' at w ⊢
  by_cases h0 : W.hi = Fl.fin 0
  · have h0' := sc_hi_zero w.hi h0
    refine ⟨Or.inl ⟨?_, ?_⟩⟩
    · simp only [quot, ddiv_zero _ _ h0, Bool.true_or, if_true]
    · simp only [quot, ddiv_zero _ _ h0', Bool.true_or, if_true]
  · have dx := sc_eq (sc_divDD x w h0 (by omega) (by omega)) (by ring : _ = k)
    have dy := sc_eq (sc_divDD y w h0 (by omega) (by omega)) (by ring : _ = k)
    exact scO_some (sc_mono dx (by omega) (by omega)) (sc_mono dy (by omega) (by omega))

/-- C139: the crossing point of two lines. -/
theorem C139_crossing {k : ℤ} {a b c d : Coord (B64 sq hy)} (ha : BothUnits 48 k a) (hb : BothUnits 48 k b) (hc : BothUnits 48 k c) (hd : BothUnits 48 k d) :
    Intersection.intersection (scalePt k a) (scalePt k b) (scalePt k c) (scalePt k d) = (Intersection.intersection a b c d).map (scalePt k) :=
  scO_eq (sc_crossing (scC_mid ha) (scC_mid hb) (scC_mid hc) (scC_mid hd) (by omega) (by omega))

/-! ## The plain formulas -/

theorem div_by_zero (q : ℚ) : (Fl.fin q : B64 sq hy) /. Fl.fin 0 = Fl.infOf q := by
  change (if (0 : ℚ) = 0 then Fl.infOf q else Fl.round (q / 0)) = _
  exact if_pos rfl

theorem sc_div_zero {k : ℤ} {N M : ℕ} {a b : B64 sq hy} (h : Scl k N M a b) :
    (isNaN (a /. (Fl.fin 0 : B64 sq hy)) || isInf (a /. (Fl.fin 0 : B64 sq hy))) = true ∧
      (isNaN (b /. (Fl.fin 0 : B64 sq hy)) || isInf (b /. (Fl.fin 0 : B64 sq hy))) = true := by
  have key : ∀ q : ℚ, (isNaN ((Fl.fin q : B64 sq hy) /. (Fl.fin 0 : B64 sq hy)) || isInf ((Fl.fin q : B64 sq hy) /. (Fl.fin 0 : B64 sq hy))) = true := by
    intro q
    have e : (Fl.fin q : B64 sq hy) /. Fl.fin 0 = Fl.infOf q := div_by_zero q
    rw [e]
    unfold Fl.infOf
    split_ifs <;> rfl
  obtain ⟨q, rfl, rfl, -⟩ := h.out
  exact ⟨key _, key _⟩

theorem sc_plain {k : ℤ} {N M : ℕ} {p1 p2 q1 q2 p1' p2' q1' q2' : Coord (B64 sq hy)} (h1 : ScC k N M p1 p1') (h2 : ScC k N M p2 p2')
    (h3 : ScC k N M q1 q1') (h4 : ScC k N M q2 q2') (hP : 3 * N + 2 * M + 56 ≤ 1022) (hQ : 3 * M + 2 * N + 3 ≤ 1023) :
    ScO k (3 * N + 2 * M + 56) (3 * M + 2 * N + 3) (HCoord.intersection p1 p2 q1 q2) (HCoord.intersection p1' p2' q1' q2') := by
  have px := sc_sub N (M + 1) h1.y h2.y
  have py := sc_sub N (M + 1) h2.x h1.x
  have pw := sc_sub (2 * N) (2 * M + 1) (sc_mul (2 * N) (2 * M) h1.x h2.y) (sc_mul (2 * N) (2 * M) h2.x h1.y)
  have qx := sc_sub N (M + 1) h3.y h4.y
  have qy := sc_sub N (M + 1) h4.x h3.x
  have qw := sc_sub (2 * N) (2 * M + 1) (sc_mul (2 * N) (2 * M) h3.x h4.y) (sc_mul (2 * N) (2 * M) h4.x h3.y)
  have x := sc_sub (3 * N) (3 * M + 3) (sc_mul (3 * N) (3 * M + 2) py qw) (sc_mul (3 * N) (3 * M + 2) qy pw)
  have y := sc_sub (3 * N) (3 * M + 3) (sc_mul (3 * N) (3 * M + 2) qx pw) (sc_mul (3 * N) (3 * M + 2) px qw)
  have w := sc_sub (2 * N) (2 * M + 3) (sc_mul (2 * N) (2 * M + 2) px qy) (sc_mul (2 * N) (2 * M + 2) qx py)
  unfold HCoord.intersection
  by_cases h0 : ((p1.y -. p2.y) *. (q2.x -. q1.x) -. (q1.y -. q2.y) *. (p2.x -. p1.x)) = Fl.fin 0
  · have h0' := sc_hi_zero w h0
    refine ⟨Or.inl ⟨?_, ?_⟩⟩
    · simp only [h0, (sc_div_zero x).1, Bool.true_or, if_true]
    · simp only [h0', (sc_div_zero x).2, Bool.true_or, if_true]
  · have dx := sc_eq (sc_div (3 * N + 2 * M + 56) (3 * M + 2 * N + 3) x w h0) (by ring : _ = k)
    have dy := sc_eq (sc_div (3 * N + 2 * M + 56) (3 * M + 2 * N + 3) y w h0) (by ring : _ = k)
    exact scO_some dx dy

theorem sc_kernelMid {k : ℤ} {N M : ℕ} {a b c d a' b' c' d' : B64 sq hy} (ha : Scl k N M a a') (hb : Scl k N M b b') (hc : Scl k N M c c')
    (hd : Scl k N M d d') (hN : N + 1 ≤ 1022) (hM : M + 1 ≤ 1023) : Scl k (N + 1) (M + 1) (Intersection.kernelMid a b c d) (Intersection.kernelMid a' b' c' d') := by
  have min0 := sc_ite ha hb (sc_lt ha hb)
  have max0 := sc_ite ha hb (sc_lt hb ha)
  have min1 := sc_ite hc hd (sc_lt hc hd)
  have max1 := sc_ite hc hd (sc_lt hd hc)
  exact sc_half (sc_add N (M + 1) (sc_ite min0 min1 (sc_lt min1 min0)) (sc_ite max0 max1 (sc_lt max0 max1))) hN hM

theorem ite_map_some {A B : Type} (c : Bool) (f : A → B) (a : A) :
    (if c then none else some a).map f = if c then none else some (f a) := by cases c <;> rfl

/-- The formula with the origin moved first. -/
theorem fp_eq {α : Type} [Flt α] (p1 p2 q1 q2 : Coord α) :
    Intersection.intersectionFP p1 p2 q1 q2 =
      (HCoord.intersection (Coord.xy (p1.x -. Intersection.kernelMid p1.x p2.x q1.x q2.x) (p1.y -. Intersection.kernelMid p1.y p2.y q1.y q2.y))
        (Coord.xy (p2.x -. Intersection.kernelMid p1.x p2.x q1.x q2.x) (p2.y -. Intersection.kernelMid p1.y p2.y q1.y q2.y))
        (Coord.xy (q1.x -. Intersection.kernelMid p1.x p2.x q1.x q2.x) (q1.y -. Intersection.kernelMid p1.y p2.y q1.y q2.y))
        (Coord.xy (q2.x -. Intersection.kernelMid p1.x p2.x q1.x q2.x) (q2.y -. Intersection.kernelMid p1.y p2.y q1.y q2.y))).map
      fun c => Coord.xy (c.x +. Intersection.kernelMid p1.x p2.x q1.x q2.x) (c.y +. Intersection.kernelMid p1.y p2.y q1.y q2.y) := by
  unfold Intersection.intersectionFP HCoord.intersection
  simp only []
  rw [ite_map_some]
  rfl

/-- C139: the crossing point by the plain formulas. -/
theorem C139_plain {k : ℤ} {a b c d : Coord (B64 sq hy)} (ha : BothUnits 150 k a) (hb : BothUnits 150 k b) (hc : BothUnits 150 k c) (hd : BothUnits 150 k d) :
    HCoord.intersection (scalePt k a) (scalePt k b) (scalePt k c) (scalePt k d) = (HCoord.intersection a b c d).map (scalePt k) ∧
      Intersection.intersectionFP (scalePt k a) (scalePt k b) (scalePt k c) (scalePt k d) =
        (Intersection.intersectionFP a b c d).map (scalePt k) := by
  have ha := scC_mid ha
  have hb := scC_mid hb
  have hc := scC_mid hc
  have hd := scC_mid hd
  refine ⟨scO_eq (sc_plain ha hb hc hd (by omega) (by omega)), ?_⟩
  rw [fp_eq, fp_eq]
  have mx := sc_kernelMid ha.x hb.x hc.x hd.x (by omega) (by omega)
  have my := sc_kernelMid ha.y hb.y hc.y hd.y (by omega) (by omega)
  have sh : ∀ {p p' : Coord (B64 sq hy)}, ScC k (150 + 52) 150 p p' → ScC k (150 + 52 + 1) (150 + 2)
      (Coord.xy (p.x -. Intersection.kernelMid a.x b.x c.x d.x) (p.y -. Intersection.kernelMid a.y b.y c.y d.y))
      (Coord.xy (p'.x -. Intersection.kernelMid (scalePt k a).x (scalePt k b).x (scalePt k c).x (scalePt k d).x)
        (p'.y -. Intersection.kernelMid (scalePt k a).y (scalePt k b).y (scalePt k c).y (scalePt k d).y)) :=
    fun h => ⟨sc_sub _ (150 + 2) h.x mx, sc_sub _ (150 + 2) h.y my⟩
  have h := sc_plain (sh ha) (sh hb) (sh hc) (sh hd) (by omega) (by omega)
  rcases h.out with ⟨e1, e2⟩ | ⟨x, y, x', y', e1, e2, hx, hy'⟩
  · rw [e1, e2]; rfl
  · rw [e1, e2]
    have ax := sc_times2 (sc_add 971 1023 hx mx)
    have ay := sc_times2 (sc_add 971 1023 hy' my)
    simp only [Option.map, Coord.xy, ax, ay]
    rfl

end scale

/-! ## Limits -/

/-- C139: the sizes matter. Far below, products of coordinates vanish and a triangle counts as flat. -/
theorem C139_too_small : ∃ a b c : Coord (Fl Even64), Orientation.index a b c = 1 ∧
    Orientation.index (scalePt (-600) a) (scalePt (-600) b) (scalePt (-600) c) = 0 :=
  ⟨Coord.xy (Fl.fin 0) (Fl.fin 0), Coord.xy (Fl.fin 1) (Fl.fin 0), Coord.xy (Fl.fin 0) (Fl.fin 1), by decide +kernel, by decide +kernel⟩

/-! ## Examples -/

theorem both_int {n : ℕ} {k : ℤ} {x y : ℤ} (h : ∀ z : ℤ, z = x ∨ z = y → |z| ≤ 2 ^ 53 ∧ IsF64 ((z : ℚ) * 2 ^ k) ∧
    (z = 0 ∨ (2 : ℚ) ^ (-(n : ℤ)) ≤ |(z : ℚ) * 2 ^ k|) ∧ |(z : ℚ)| ≤ 2 ^ n ∧ |(z : ℚ) * 2 ^ k| ≤ 2 ^ n) :
    BothUnits n k (Coord.xy (Fl.fin x) (Fl.fin y) : Coord (Fl Even64)) := by
  have key : ∀ z : ℤ, z = x ∨ z = y → MidF n (Fl.fin (z : ℚ) : Fl Even64) ∧ MidF n (times2 k (Fl.fin (z : ℚ)) : Fl Even64) := by
    intro z hz
    obtain ⟨h1, h2, h3, h4, h5⟩ := h z hz
    refine ⟨⟨z, rfl, f64_int z h1, ?_, h4⟩, ⟨_, rfl, h2, ?_, h5⟩⟩
    · rcases h3 with h3 | -
      · left; exact_mod_cast h3
      · by_cases hz0 : z = 0
        · left; exact_mod_cast hz0
        · right
          have : (1 : ℚ) ≤ |(z : ℚ)| := by exact_mod_cast Int.one_le_abs hz0
          refine le_trans ?_ this
          rw [← zpow_zero (2 : ℚ)]
          exact two_mono (by omega)
    · rcases h3 with h3 | h3
      · left; rw [h3]; simp
      · right; exact h3
  exact ⟨⟨(key x (Or.inl rfl)).1, (key y (Or.inr rfl)).1⟩, ⟨(key x (Or.inl rfl)).2, (key y (Or.inr rfl)).2⟩⟩

/-- Points with coordinates 0 and 4, in units of 1 and 8. -/
theorem both_four {n : ℕ} (hn : 3 ≤ n) {x y : ℤ} (hx : x = 0 ∨ x = 4) (hy' : y = 0 ∨ y = 4) :
    BothUnits n (-3) (Coord.xy (Fl.fin x) (Fl.fin y) : Coord (Fl Even64)) := by
  have p : (2 : ℚ) ^ 3 ≤ 2 ^ n := pow_le_pow_right₀ (by norm_num) hn
  have p' : (2 : ℚ) ^ (-(n : ℤ)) ≤ 2 ^ (-3 : ℤ) := two_mono (by omega)
  have e : ((4 : ℤ) : ℚ) * 2 ^ (-3 : ℤ) = 1 / 2 := by norm_num
  apply both_int
  intro z hz
  have hz' : z = 0 ∨ z = 4 := by omega
  rcases hz' with rfl | rfl
  · simp only [Int.cast_zero, zero_mul, abs_zero]
    exact ⟨by norm_num, f64_zero, Or.inl trivial, by positivity, by positivity⟩
  · rw [e]
    refine ⟨by norm_num, f64_of (by decide +kernel), Or.inr ?_, ?_, ?_⟩
    · rw [abs_of_pos (by norm_num)]; norm_num at p' ⊢; linarith
    · rw [abs_of_pos (by norm_num)]; norm_num at p ⊢; linarith
    · rw [abs_of_pos (by norm_num)]; norm_num at p ⊢; linarith

private def pt (x y : ℤ) : Coord (Fl Even64) := Coord.xy (Fl.fin x) (Fl.fin y)

private theorem pt_both {n : ℕ} (hn : 3 ≤ n) {x y : ℤ} (hx : x = 0 ∨ x = 4) (hy' : y = 0 ∨ y = 4) : BothUnits n (-3) (pt x y) := both_four hn hx hy'

example : Orientation.index (scalePt (-3) (pt 0 0)) (scalePt (-3) (pt 4 0)) (scalePt (-3) (pt 4 4)) = 1 := by
  rw [(C139_orientation (pt_both (by norm_num) (by norm_num) (by norm_num)) (pt_both (by norm_num) (by norm_num) (by norm_num))
    (pt_both (by norm_num) (by norm_num) (by norm_num))).1]
  decide +kernel

example : Intersection.intersection (scalePt (-3) (pt 0 0)) (scalePt (-3) (pt 4 4)) (scalePt (-3) (pt 0 4)) (scalePt (-3) (pt 4 0)) =
    some (scalePt (-3) (Coord.xy (Fl.fin 2) (Fl.fin 2))) := by
  rw [C139_crossing (pt_both (by norm_num) (by norm_num) (by norm_num)) (pt_both (by norm_num) (by norm_num) (by norm_num))
    (pt_both (by norm_num) (by norm_num) (by norm_num)) (pt_both (by norm_num) (by norm_num) (by norm_num)),
    show Intersection.intersection (pt 0 0) (pt 4 4) (pt 0 4) (pt 4 0) = some (Coord.xy (Fl.fin 2) (Fl.fin 2)) by decide +kernel]
  rfl

private theorem square_both : ∀ c ∈ [pt 0 0, pt 4 0, pt 4 4, pt 0 4, pt 0 0], BothUnits 400 (-3) c := by
  intro c hc
  simp only [List.mem_cons, List.not_mem_nil, or_false] at hc
  rcases hc with rfl | rfl | rfl | rfl | rfl <;> exact pt_both (by norm_num) (by norm_num) (by norm_num)

example : Area.ofRingSigned ([pt 0 0, pt 4 0, pt 4 4, pt 0 4, pt 0 0].map (scalePt (-3))) = .ok (Fl.fin (-1 / 4)) := by
  rw [(C139_area square_both (by norm_num)).1,
    show Area.ofRingSigned [pt 0 0, pt 4 0, pt 4 4, pt 0 4, pt 0 0] = .ok (Fl.fin (-16)) by decide +kernel]
  decide +kernel

example : Orientation.isCCW ([pt 0 0, pt 4 0, pt 4 4, pt 0 4, pt 0 0].map (scalePt (-3))) = .ok true := by
  rw [C139_ring square_both]; decide +kernel

example : PointLocation.locateInRing (scalePt (-3) (pt 4 0)) ([pt 0 0, pt 4 0, pt 4 4, pt 0 4, pt 0 0].map (scalePt (-3))) = .ok 1 := by
  rw [(C139_location (pt_both (by norm_num) (by norm_num) (by norm_num)) square_both).1]; decide +kernel

end Verif.Props
