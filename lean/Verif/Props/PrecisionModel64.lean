import Verif.Props.PrecisionModel
import Verif.Props.CoordinateData
import Verif.Props.DDDiv

/-! # C80: rounding to a precision model in binary64 -/

namespace Verif.Props
open Flt Verif.Spec Verif.Binary64

variable {sq : ℚ → Val} {hy : ℚ → ℚ → Val}

theorem roundAway_of_close {p : ℚ} {k : ℤ} (h : |p - k| < 1 / 2) : roundAway p = k := by
  have h1 := roundAway_err p
  have h2 : |((roundAway p - k : ℤ) : ℚ)| < 1 := by
    push_cast
    have := abs_add_le ((roundAway p : ℚ) - p) (p - k)
    rw [sub_add_sub_cancel] at this
    linarith
  rw [← Int.cast_abs] at h2
  have h3 : |roundAway p - k| < 1 := by exact_mod_cast h2
  rw [Int.abs_lt_one_iff] at h3
  omega

theorem rep_int {k : ℤ} (h : |k| ≤ 2 ^ 53) : Rep k := ⟨k, 0, h, by norm_num, by simp⟩

/-- Rounding recovers an integer from a value close to it. -/
theorem recover {x : ℚ} {k : ℤ} (hk : |k| < 2 ^ 51) (hx : |x - k| ≤ |(k : ℚ)| / 2 ^ 53) : roundAway (near x) = k ∧ |near x| < 2 ^ 1024 := by
  have hk' : |(k : ℚ)| < 2 ^ 51 := by rw [← Int.cast_abs]; exact_mod_cast hk
  have h1 := near_nearest x k (rep_int (by linarith))
  have h2 : |near x - k| < 1 / 2 := by
    have := abs_add_le (near x - x) (x - k)
    rw [sub_add_sub_cancel, abs_sub_comm (near x) x] at this
    have : |(k : ℚ)| / 2 ^ 53 < 1 / 4 := by rw [div_lt_iff₀ (by positivity)]; linarith
    linarith
  refine ⟨roundAway_of_close h2, ?_⟩
  have := abs_sub_abs_le_abs_sub (near x) k
  have : (2 : ℚ) ^ 52 ≤ 2 ^ 1024 := pow_le_pow_right₀ (by norm_num) (by norm_num)
  have : (2 : ℚ) ^ 52 = 2 * 2 ^ 51 := by norm_num
  generalize (2 : ℚ) ^ 1024 = P at *
  linarith

theorem near_err_abs (q : ℚ) : |q - near q| ≤ |q| / 2 ^ 53 + 2 ^ (-1075 : ℤ) := by
  by_cases h : 2 ^ (-1022 : ℤ) ≤ |q|
  · have := near_rel q h
    have := two_pos (-1075)
    linarith
  · have h1 := near_nearest_mul q 0
    have h2 := near_err q
    have h3 : expo q = -1074 := by
      unfold expo
      split_ifs with h0
      · rfl
      · have hl : Int.log 2 |q| < -1022 := by
          by_contra hc
          rw [not_lt] at hc
          apply h
          have := Int.zpow_log_le_self (b := 2) (by norm_num) (abs_pos.mpr h0)
          exact le_trans (two_mono hc) (by exact_mod_cast this)
        omega
    rw [h3] at h2
    have h4 : (2 : ℚ) ^ (-1074 : ℤ) / 2 = 2 ^ (-1075 : ℤ) := by
      rw [show (-1074 : ℤ) = -1075 + 1 by norm_num, two_add]
      norm_num
    rw [h4] at h2
    have : 0 ≤ |q| / 2 ^ 53 := by positivity
    linarith

/-! ## The two forms of a fixed model -/

theorem precise_scale (s : ℚ) (hs : 0 < s) (x : B64 sq hy) (hx : isNaN x = false) :
    (PM.newWithScale (Fl.fin s : B64 sq hy)).makePrecise x = FltRound.round (x *. Fl.fin s) /. Fl.fin s := by
  have h1 : ((Fl.fin s : B64 sq hy) <. Fl.fin 0) = false := decide_eq_false (not_lt.mpr hs.le)
  have h2 : ((Fl.fin 0 : B64 sq hy) <. Fl.fin 0) = false := decide_eq_false (lt_irrefl (0 : ℚ))
  have h3 : Flt.abs (Fl.fin s : B64 sq hy) = Fl.fin s := by change Fl.fin |s| = Fl.fin s; rw [abs_of_pos hs]
  unfold PM.newWithScale PM.setScale PM.makePrecise
  rw [lit64, h1, h3, hx]
  simp only [Bool.false_eq_true, if_false, reduceCtorEq, if_true, h2]

theorem precise_grid (g : ℚ) (hg : 0 < g) (x : B64 sq hy) (hx : isNaN x = false) :
    (PM.newWithScale (Fl.fin (-g) : B64 sq hy)).makePrecise x = FltRound.round (x /. Fl.fin g) *. Fl.fin g := by
  have h1 : ((Fl.fin (-g) : B64 sq hy) <. Fl.fin 0) = true := decide_eq_true (by linarith)
  have h2 : ((Fl.fin 0 : B64 sq hy) <. Fl.fin g) = true := decide_eq_true hg
  have h3 : Flt.abs (Fl.fin (-g) : B64 sq hy) = Fl.fin g := by change Fl.fin |(-g)| = Fl.fin g; rw [abs_neg, abs_of_pos hg]
  unfold PM.newWithScale PM.setScale PM.makePrecise
  rw [lit64, h1, h3, hx]
  simp only [Bool.false_eq_true, if_false, reduceCtorEq, if_true, h2]

theorem mul_fin64 {a b v : ℚ} (h : near (a * b) = v) (hv : |v| < 2 ^ 1024) : (Fl.fin a : B64 sq hy) *. Fl.fin b = Fl.fin v :=
  (rnd_fin_iff _ _).mpr ⟨h, hv⟩

theorem div_fin64 {a b v : ℚ} (hb : b ≠ 0) (h : near (a / b) = v) (hv : |v| < 2 ^ 1024) : (Fl.fin a : B64 sq hy) /. Fl.fin b = Fl.fin v := by
  change Fl.div (Fl.fin a) (Fl.fin b) = _
  simp only [Fl.div]
  rw [if_neg hb]
  exact (rnd_fin_iff _ _).mpr ⟨h, hv⟩

/-- The distance between an integer multiple of the cell and the double nearest to it. -/
theorem cell_err {c : ℚ} (hc : 2 ^ (-1022 : ℤ) ≤ |c|) (k : ℤ) : |near (k * c) - k * c| ≤ |(k : ℚ)| * |c| / 2 ^ 53 := by
  rw [abs_sub_comm]
  by_cases h0 : k = 0
  · subst h0
    rw [Int.cast_zero, zero_mul, near_zero]
    simp
  · rw [← abs_mul]
    apply near_rel
    rw [abs_mul]
    have : (1 : ℚ) ≤ |(k : ℚ)| := by rw [← Int.cast_abs]; exact_mod_cast Int.one_le_abs h0
    nlinarith [abs_nonneg c]

/-- C80: with a scale, the result is the double nearest to a point of the grid at most half a cell (and a rounding error) away. -/
theorem C80_scale_nearest (s v : ℚ) (hs : 0 < s) (w : ℚ)
    (hw : (PM.newWithScale (Fl.fin s : B64 sq hy)).makePrecise (Fl.fin v) = Fl.fin w) :
    ∃ k : ℤ, w = near (k / s) ∧ |k - v * s| ≤ 1 / 2 + |v * s| / 2 ^ 53 + 2 ^ (-1075 : ℤ) := by
  rw [precise_scale s hs _ rfl] at hw
  cases hp : (Fl.fin v : B64 sq hy) *. Fl.fin s with
  | fin p =>
    rw [hp] at hw
    change (Fl.fin (roundAway p) : B64 sq hy) /. Fl.fin s = Fl.fin w at hw
    obtain ⟨a, e1, -, e3, -⟩ := div64 hw
    have e1' := fin_inj e1
    obtain ⟨a', b', i1, i2, i3, -⟩ := mul64 hp
    obtain rfl := fin_inj i1
    obtain rfl := fin_inj i2
    refine ⟨roundAway p, ?_, ?_⟩
    · rw [e1']; exact e3.symm
    · have h1 := roundAway_err p
      have h2 := near_err_abs (v * s)
      rw [i3] at h2
      have := abs_add_le ((roundAway p : ℚ) - p) (p - v * s)
      rw [sub_add_sub_cancel, abs_sub_comm p] at this
      linarith
  | nan => rw [hp] at hw; cases hw
  | pinf =>
    rw [hp] at hw
    have : (Flt.pinf : B64 sq hy) /. Fl.fin s = Flt.pinf := by change (if s < 0 then _ else _) = _; exact if_neg (not_lt.mpr hs.le)
    have h2 : (Flt.pinf : B64 sq hy) = Fl.fin w := this.symm.trans hw
    cases h2
  | ninf =>
    rw [hp] at hw
    have : (Flt.ninf : B64 sq hy) /. Fl.fin s = Flt.ninf := by change (if s < 0 then _ else _) = _; exact if_neg (not_lt.mpr hs.le)
    have h2 : (Flt.ninf : B64 sq hy) = Fl.fin w := this.symm.trans hw
    cases h2

/-- C80: a double nearest to a point of the grid is kept. -/
theorem C80_scale_fixes (s : ℚ) (hs : 0 < s) (hs2 : s ≤ 2 ^ (1022 : ℤ)) (k : ℤ) (hk : |k| < 2 ^ 51) (hf : |near (k / s)| < 2 ^ 1024) :
    (PM.newWithScale (Fl.fin s : B64 sq hy)).makePrecise (Fl.fin (near (k / s))) = Fl.fin (near (k / s)) := by
  rw [precise_scale s hs _ rfl]
  have hc : (2 : ℚ) ^ (-1022 : ℤ) ≤ |1 / s| := by
    rw [abs_of_pos (by positivity), le_div_iff₀ hs, zpow_neg, inv_mul_le_iff₀ (two_pos _), mul_one]; exact hs2
  have h1 := cell_err hc k
  rw [show (k : ℚ) * (1 / s) = k / s by ring] at h1
  have h2 : |near (k / s) * s - k| ≤ |(k : ℚ)| / 2 ^ 53 := by
    have e : near (k / s) * s - k = (near (k / s) - k / s) * s := by field_simp
    rw [e, abs_mul, abs_of_pos hs]
    have e2 : |(k : ℚ)| * |1 / s| / 2 ^ 53 * s = |(k : ℚ)| / 2 ^ 53 := by rw [abs_of_pos (by positivity : 0 < 1 / s)]; field_simp
    rw [← e2]
    exact mul_le_mul_of_nonneg_right h1 hs.le
  obtain ⟨r1, r2⟩ := recover hk h2
  rw [mul_fin64 rfl r2]
  change (Fl.fin (roundAway (near (near (k / s) * s))) : B64 sq hy) /. Fl.fin s = _
  rw [r1]
  exact div_fin64 hs.ne' rfl hf

/-- C80: rounding with a scale is idempotent for values of less than `2^51` cells. -/
theorem C80_scale_idempotent (s v : ℚ) (hs : 0 < s) (hs2 : s ≤ 2 ^ (1022 : ℤ)) (hv : |v * s| < 2 ^ 51 - 2) (w : ℚ)
    (hw : (PM.newWithScale (Fl.fin s : B64 sq hy)).makePrecise (Fl.fin v) = Fl.fin w) :
    (PM.newWithScale (Fl.fin s : B64 sq hy)).makePrecise (Fl.fin w) = Fl.fin w := by
  obtain ⟨k, e1, e2⟩ := C80_scale_nearest s v hs w hw
  have hk : |k| < 2 ^ 51 := by
    have h1 := abs_sub_abs_le_abs_sub (k : ℚ) (v * s)
    have h2 : |v * s| / 2 ^ 53 ≤ 1 / 4 := by rw [div_le_iff₀ (by positivity)]; linarith
    have h3 : (2 : ℚ) ^ (-1075 : ℤ) ≤ 1 / 4 := le_trans (two_mono (by norm_num : (-1075 : ℤ) ≤ -2)) (by norm_num)
    have h4 : |(k : ℚ)| < 2 ^ 51 := by linarith
    rw [← Int.cast_abs] at h4
    exact_mod_cast h4
  have hf : |near (k / s)| < 2 ^ 1024 := by
    rw [precise_scale s hs _ rfl] at hw
    cases hp : FltRound.round ((Fl.fin v : B64 sq hy) *. Fl.fin s) with
    | fin p => rw [hp] at hw; obtain ⟨-, -, -, -, h⟩ := div64 hw; rw [← e1]; exact h
    | _ => rw [hp] at hw; obtain ⟨_, h, -⟩ := div64 hw; cases h
  rw [e1]
  exact C80_scale_fixes s hs hs2 k hk hf

/-- C80: with a grid size likewise. -/
theorem C80_grid_nearest (g v : ℚ) (hg : 0 < g) (w : ℚ)
    (hw : (PM.newWithScale (Fl.fin (-g) : B64 sq hy)).makePrecise (Fl.fin v) = Fl.fin w) :
    ∃ k : ℤ, w = near (k * g) ∧ |k - v / g| ≤ 1 / 2 + |v / g| / 2 ^ 53 + 2 ^ (-1075 : ℤ) := by
  rw [precise_grid g hg _ rfl] at hw
  obtain ⟨a, b, e1, e2, e3, -⟩ := mul64 hw
  obtain rfl := fin_inj e2
  cases hp : (Fl.fin v : B64 sq hy) /. Fl.fin g with
  | fin p =>
    rw [hp] at e1
    have e1' : (roundAway p : ℚ) = a := fin_inj e1
    obtain ⟨a', i1, -, i3, -⟩ := div64 hp
    obtain rfl := fin_inj i1
    refine ⟨roundAway p, by rw [e1']; exact e3.symm, ?_⟩
    have h1 := roundAway_err p
    have h2 := near_err_abs (v / g)
    rw [i3] at h2
    have := abs_add_le ((roundAway p : ℚ) - p) (p - v / g)
    rw [sub_add_sub_cancel, abs_sub_comm p] at this
    linarith
  | _ => rw [hp] at e1; cases e1

theorem C80_grid_fixes (g : ℚ) (hg : 2 ^ (-1022 : ℤ) ≤ g) (k : ℤ) (hk : |k| < 2 ^ 51) (hf : |near (k * g)| < 2 ^ 1024) :
    (PM.newWithScale (Fl.fin (-g) : B64 sq hy)).makePrecise (Fl.fin (near (k * g))) = Fl.fin (near (k * g)) := by
  have g0 : 0 < g := lt_of_lt_of_le (two_pos _) hg
  rw [precise_grid g g0 _ rfl]
  have h1 := cell_err (by rwa [abs_of_pos g0] : (2 : ℚ) ^ (-1022 : ℤ) ≤ |g|) k
  have h2 : |near (k * g) / g - k| ≤ |(k : ℚ)| / 2 ^ 53 := by
    have e : near (k * g) / g - k = (near (k * g) - k * g) / g := by field_simp
    rw [e, abs_div, abs_of_pos g0, div_le_iff₀ g0]
    rw [abs_of_pos g0] at h1
    linarith
  obtain ⟨r1, r2⟩ := recover hk h2
  rw [div_fin64 g0.ne' rfl r2]
  change (Fl.fin (roundAway (near (near (k * g) / g))) : B64 sq hy) *. Fl.fin g = _
  rw [r1]
  exact mul_fin64 rfl hf

theorem C80_grid_idempotent (g v : ℚ) (hg : 2 ^ (-1022 : ℤ) ≤ g) (hv : |v / g| < 2 ^ 51 - 2) (w : ℚ)
    (hw : (PM.newWithScale (Fl.fin (-g) : B64 sq hy)).makePrecise (Fl.fin v) = Fl.fin w) :
    (PM.newWithScale (Fl.fin (-g) : B64 sq hy)).makePrecise (Fl.fin w) = Fl.fin w := by
  have g0 : 0 < g := lt_of_lt_of_le (two_pos _) hg
  obtain ⟨k, e1, e2⟩ := C80_grid_nearest g v g0 w hw
  have hk : |k| < 2 ^ 51 := by
    have h1 := abs_sub_abs_le_abs_sub (k : ℚ) (v / g)
    have h2 : |v / g| / 2 ^ 53 ≤ 1 / 4 := by rw [div_le_iff₀ (by positivity)]; linarith
    have h3 : (2 : ℚ) ^ (-1075 : ℤ) ≤ 1 / 4 := le_trans (two_mono (by norm_num : (-1075 : ℤ) ≤ -2)) (by norm_num)
    have h4 : |(k : ℚ)| < 2 ^ 51 := by linarith
    rw [← Int.cast_abs] at h4
    exact_mod_cast h4
  have hf : |near (k * g)| < 2 ^ 1024 := by
    rw [precise_grid g g0 _ rfl] at hw
    obtain ⟨-, -, -, -, -, h⟩ := mul64 hw
    rw [← e1]; exact h
  rw [e1]
  exact C80_grid_fixes g hg k hk hf

/-! ## Monotonicity, for all values -/

theorem round_le64 {x y : ℚ} (h : x ≤ y) : ((Fl.round x : B64 sq hy) ≤. Fl.round y) = true := by
  have h1 : (Fl.round x : B64 sq hy) = rnd x := rfl
  have h2 : (Fl.round y : B64 sq hy) = rnd y := rfl
  rw [h1, h2]
  have hm := near_mono h
  unfold rnd
  have p : (0 : ℚ) < 2 ^ 1024 := by positivity
  generalize (2 : ℚ) ^ 1024 = P at p
  split_ifs <;> first | rfl | (exfalso; linarith) | exact decide_eq_true hm

theorem mul_pos_mono64 {s : ℚ} (hs : 0 < s) {x y : B64 sq hy} (h : (x ≤. y) = true) : ((x *. Fl.fin s) ≤. (y *. Fl.fin s)) = true := by
  have hp : (Fl.infOf s : B64 sq hy) = Flt.pinf := if_pos hs
  have hn : (Fl.infOf (-s) : B64 sq hy) = Flt.ninf := by unfold Fl.infOf; rw [if_neg (by linarith), if_pos (by linarith)]; rfl
  have up : ∀ q : ℚ, ((Fl.round q : B64 sq hy) ≤. Flt.pinf) = true := fun q => by
    have h1 : (Fl.round q : B64 sq hy) = rnd q := rfl
    rw [h1]; unfold rnd; split_ifs <;> rfl
  have lo : ∀ q : ℚ, ((Flt.ninf : B64 sq hy) ≤. Fl.round q) = true := fun q => by
    have h1 : (Fl.round q : B64 sq hy) = rnd q := rfl
    rw [h1]; unfold rnd; split_ifs <;> rfl
  cases x <;> cases y <;> try (cases h; done)
  case ninf.ninf => change ((Fl.infOf (-s) : B64 sq hy) ≤. Fl.infOf (-s)) = true; rw [hn]; rfl
  case ninf.fin q => change ((Fl.infOf (-s) : B64 sq hy) ≤. Fl.round (q * s)) = true; rw [hn]; exact lo _
  case ninf.pinf => change ((Fl.infOf (-s) : B64 sq hy) ≤. Fl.infOf s) = true; rw [hn, hp]; rfl
  case fin.fin a b => exact round_le64 (mul_le_mul_of_nonneg_right (of_decide_eq_true h) hs.le)
  case fin.pinf a => change ((Fl.round (a * s) : B64 sq hy) ≤. Fl.infOf s) = true; rw [hp]; exact up _
  case pinf.pinf => change ((Fl.infOf s : B64 sq hy) ≤. Fl.infOf s) = true; rw [hp]; rfl

theorem div_pos_mono64 {s : ℚ} (hs : 0 < s) {x y : B64 sq hy} (h : (x ≤. y) = true) : ((x /. Fl.fin s) ≤. (y /. Fl.fin s)) = true := by
  have hp : (Flt.pinf : B64 sq hy) /. Fl.fin s = Flt.pinf := by change (if s < 0 then _ else _) = _; exact if_neg (not_lt.mpr hs.le)
  have hn : (Flt.ninf : B64 sq hy) /. Fl.fin s = Flt.ninf := by change (if s < 0 then _ else _) = _; exact if_neg (not_lt.mpr hs.le)
  have hf : ∀ q : ℚ, (Fl.fin q : B64 sq hy) /. Fl.fin s = Fl.round (q / s) := fun q => by
    change Fl.div (Fl.fin q) (Fl.fin s) = _
    simp only [Fl.div]
    exact if_neg hs.ne'
  have up : ∀ q : ℚ, ((Fl.round q : B64 sq hy) ≤. Flt.pinf) = true := fun q => by
    have h1 : (Fl.round q : B64 sq hy) = rnd q := rfl
    rw [h1]; unfold rnd; split_ifs <;> rfl
  have lo : ∀ q : ℚ, ((Flt.ninf : B64 sq hy) ≤. Fl.round q) = true := fun q => by
    have h1 : (Fl.round q : B64 sq hy) = rnd q := rfl
    rw [h1]; unfold rnd; split_ifs <;> rfl
  cases x <;> cases y <;> try (cases h; done)
  case ninf.ninf => change (((Flt.ninf : B64 sq hy) /. Fl.fin s) ≤. ((Flt.ninf : B64 sq hy) /. Fl.fin s)) = true; rw [hn]; rfl
  case ninf.fin q => change (((Flt.ninf : B64 sq hy) /. Fl.fin s) ≤. (Fl.fin q /. Fl.fin s)) = true; rw [hn, hf]; exact lo _
  case ninf.pinf => change (((Flt.ninf : B64 sq hy) /. Fl.fin s) ≤. ((Flt.pinf : B64 sq hy) /. Fl.fin s)) = true; rw [hn, hp]; rfl
  case fin.fin a b =>
    change (((Fl.fin a : B64 sq hy) /. Fl.fin s) ≤. (Fl.fin b /. Fl.fin s)) = true
    rw [hf, hf]
    exact round_le64 (div_le_div_of_nonneg_right (of_decide_eq_true h) hs.le)
  case fin.pinf a => change (((Fl.fin a : B64 sq hy) /. Fl.fin s) ≤. ((Flt.pinf : B64 sq hy) /. Fl.fin s)) = true; rw [hf, hp]; exact up _
  case pinf.pinf => change (((Flt.pinf : B64 sq hy) /. Fl.fin s) ≤. ((Flt.pinf : B64 sq hy) /. Fl.fin s)) = true; rw [hp]; rfl

theorem round_int_mono64 {x y : B64 sq hy} (h : (x ≤. y) = true) : (FltRound.round x ≤. FltRound.round y) = true := by
  cases x <;> cases y <;> try (cases h; done)
  case fin.fin a b =>
    have : roundAway a ≤ roundAway b := roundAway_mono (of_decide_eq_true h)
    exact decide_eq_true (by exact_mod_cast this)
  all_goals rfl

/-- C80: rounding keeps the order of all values, infinite ones included. -/
theorem C80_mono (s : ℚ) (hs : s ≠ 0) (x y : B64 sq hy) (h : (x ≤. y) = true) :
    ((PM.newWithScale (Fl.fin s : B64 sq hy)).makePrecise x ≤. (PM.newWithScale (Fl.fin s : B64 sq hy)).makePrecise y) = true := by
  have hx : isNaN x = false := ((FltOrd.le_iff _ _).mp h).1
  have hy' : isNaN y = false := ((FltOrd.le_iff _ _).mp h).2.1
  rcases lt_or_gt_of_ne hs with h0 | h0
  · have hg : 0 < -s := by linarith
    have e : s = -(-s) := by ring
    rw [e, precise_grid (-s) hg _ hx, precise_grid (-s) hg _ hy']
    exact mul_pos_mono64 hg (round_int_mono64 (div_pos_mono64 hg h))
  · rw [precise_scale s h0 _ hx, precise_scale s h0 _ hy']
    exact div_pos_mono64 h0 (round_int_mono64 (mul_pos_mono64 h0 h))

/-- C80: NaN and the infinities are kept. -/
theorem C80_not_finite (s : ℚ) (hs : s ≠ 0) :
    (PM.newWithScale (Fl.fin s : B64 sq hy)).makePrecise Flt.nan = Flt.nan ∧
    (PM.newWithScale (Fl.fin s : B64 sq hy)).makePrecise Flt.pinf = Flt.pinf ∧
    (PM.newWithScale (Fl.fin s : B64 sq hy)).makePrecise Flt.ninf = Flt.ninf := by
  refine ⟨rfl, ?_, ?_⟩
  all_goals
    rcases lt_or_gt_of_ne hs with h0 | h0
    · have hg : 0 < -s := by linarith
      rw [show s = -(-s) by ring, precise_grid (-s) hg _ rfl]
      have hp : (Flt.pinf : B64 sq hy) /. Fl.fin (-s) = Flt.pinf := by change (if -s < 0 then _ else _) = _; exact if_neg (not_lt.mpr hg.le)
      have hn : (Flt.ninf : B64 sq hy) /. Fl.fin (-s) = Flt.ninf := by change (if -s < 0 then _ else _) = _; exact if_neg (not_lt.mpr hg.le)
      first
      | (rw [hp]; exact if_pos hg)
      | (rw [hn]; change Fl.infOf (- -s) = _; unfold Fl.infOf; rw [if_neg (by linarith), if_pos (by linarith)]; rfl)
    · rw [precise_scale s h0 _ rfl]
      have hp : (Flt.pinf : B64 sq hy) /. Fl.fin s = Flt.pinf := by change (if s < 0 then _ else _) = _; exact if_neg (not_lt.mpr h0.le)
      have hn : (Flt.ninf : B64 sq hy) /. Fl.fin s = Flt.ninf := by change (if s < 0 then _ else _) = _; exact if_neg (not_lt.mpr h0.le)
      have hp' : (Flt.pinf : B64 sq hy) *. Fl.fin s = Flt.pinf := if_pos h0
      have hn' : (Flt.ninf : B64 sq hy) *. Fl.fin s = Flt.ninf := by
        change Fl.infOf (-s) = _; unfold Fl.infOf; rw [if_neg (by linarith), if_pos (by linarith)]; rfl
      first
      | (rw [hp']; exact hp)
      | (rw [hn']; exact hn)

/-- C80: with `2^51` cells or more it need not be idempotent, in either form. -/
theorem C80_not_idempotent :
    (let pm := PM.newWithScale (Fl.fin 1000 : X64)
      ∃ v w u : ℚ, IsF64 v ∧ |v * 1000| < 2 ^ 52 ∧ pm.makePrecise (Fl.fin v) = Fl.fin w ∧ pm.makePrecise (Fl.fin w) = Fl.fin u ∧ u ≠ w) ∧
    (let pm := PM.newWithScale (Fl.fin (-10) : X64)
      ∃ v w u : ℚ, IsF64 v ∧ |v / 10| < 2 ^ 52 ∧ pm.makePrecise (Fl.fin v) = Fl.fin w ∧ pm.makePrecise (Fl.fin w) = Fl.fin u ∧ u ≠ w) := by
  refine ⟨⟨(4598492459709377 / 1024), (2299246229854689 / 512), (4598492459709379 / 1024), f64_of (by decide +kernel), by decide +kernel, by decide +kernel, by decide +kernel, by decide +kernel⟩,
    ⟨42232306704354696, 42232306704354704, 42232306704354712, f64_of (by decide +kernel), by decide +kernel, by decide +kernel, by decide +kernel, by decide +kernel⟩⟩

/-- C80: a large finite value becomes infinite, since it is multiplied first. -/
theorem C80_overflow : (PM.newWithScale (Fl.fin 1000 : X64)).makePrecise (Fl.fin (2 ^ 1020)) = Flt.pinf := by decide +kernel

/-- Millimetres: 0.1234567 becomes the double nearest to 0.123. -/
example : |(1 : ℚ) / 10 * 1000| < 2 ^ 51 - 2 ∧ (1000 : ℚ) ≤ 2 ^ (1022 : ℤ) ∧
    (PM.newWithScale (Fl.fin 1000 : X64)).makePrecise (Fl.fin (near (1234567 / 10000000))) = Fl.fin (near (123 / 1000)) := by
  refine ⟨by decide +kernel, by decide +kernel, by decide +kernel⟩

end Verif.Props
