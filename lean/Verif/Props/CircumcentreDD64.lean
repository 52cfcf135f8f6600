import Verif.Props.Intersection64
import Verif.Props.Triangle64

/-! # C115: the circumcentre in double-double arithmetic, in binary64 -/

set_option linter.unusedSectionVars false

namespace Verif.Props
open Flt Verif.Spec Verif.Binary64
variable {sq : ℚ → Val} {hy : ℚ → ℚ → Val}

/-- No double lies strictly between `x` and `q`. -/
def Adjacent (x q : ℚ) : Prop := IsF64 x ∧ (∀ d, IsF64 d → d ≤ q → d ≤ x) ∧ ∀ d, IsF64 d → q ≤ d → x ≤ d

theorem adjacent_below {h v q d : ℚ} (hn : near v = h) (he : |v - q| ≤ |q| / 2 ^ 57) (rd : Rep d) (hd : d ≤ q) : d ≤ h := by
  rcases le_or_gt d v with h1 | h1
  · have := near_mono h1
    rwa [near_of_rep rd, hn] at this
  · by_contra hc
    push Not at hc
    have rh : Rep h := hn ▸ near_rep _
    have g := rep_gap rh rd hc.ne
    have n := near_nearest v d rd
    rw [hn, abs_sub_comm v d, abs_of_pos (by linarith : 0 < d - v)] at n
    rw [abs_of_pos (by linarith : 0 < d - h)] at g
    have n2 := (abs_le.mp n).2
    have n3 := (abs_le.mp he).1
    have e1 : d - v ≤ |q| / 2 ^ 57 := by linarith
    have e3 : |q| ≤ |d| + |q| / 2 ^ 57 := by
      have a1 : |q - d| ≤ |q| / 2 ^ 57 := by
        rw [abs_of_nonneg (by linarith)]
        linarith
      have := abs_sub_abs_le_abs_sub q d
      linarith
    have hq := abs_nonneg q
    have e4 : |d| ≤ 2 ^ 54 * (2 * (|q| / 2 ^ 57)) := le_trans g (by linarith)
    have : |q| = 0 := le_antisymm (by linarith) hq
    rw [this, zero_div] at e1
    linarith

theorem adjacent_of {h l q : ℚ} (p : IsPair h l) (he : |h + l - q| ≤ |q| / 2 ^ 57) : Adjacent h q := by
  refine ⟨p.hi, fun d fd hd => adjacent_below p.near he fd.1 hd, fun d fd hd => ?_⟩
  have := adjacent_below (h := -h) (v := -(h + l)) (q := -q) (d := -d) (by rw [near_neg, p.near])
    (by rw [abs_neg, neg_sub_neg, abs_sub_comm]; exact he) fd.1.neg (by linarith)
  linarith

/-- Only one double is adjacent to a double. -/
theorem Adjacent.exact {x q : ℚ} (h : Adjacent x q) (f : IsF64 q) : x = q := le_antisymm (h.2.2 q f le_rfl) (h.2.1 q f le_rfl)

theorem Ex.negPair {e k : ℤ} {v : ℚ} {A : DD (B64 sq hy)} (h : Ex e k v A) : Ex e k (-v) (⟨-.A.hi, -.A.lo⟩ : DD (B64 sq hy)) := by
  obtain ⟨a, b, rfl, pa, rfl⟩ := h.pair
  refine ⟨⟨-a, -b, rfl, pa.neg, by ring⟩, ?_, by rw [abs_neg]; exact h.le⟩
  obtain ⟨m, hm⟩ := h.mul
  exact ⟨-m, by rw [hm]; push_cast; ring⟩

theorem Ex.add' {e k : ℤ} {u v : ℚ} {A B : DD (B64 sq hy)} (ha : Ex e k u A) (hb : Ex e k v B) (he : -1074 ≤ e) (hk0 : -1074 ≤ k)
    (hk : k ≤ e + 99) (h2 : k ≤ 1000) : Ex e (k + 1) (u + v) (A.add B) := by
  have h := ha.selfSub hb.negPair he hk0 hk h2
  rw [sub_neg_eq_add] at h
  obtain ⟨a, b, rfl, -, -⟩ := ha.pair
  obtain ⟨c, d, rfl, -, -⟩ := hb.pair
  have n : ∀ q : ℚ, (-. (-. (Fl.fin q : B64 sq hy))) = Fl.fin q := fun q => congrArg Fl.fin (neg_neg q)
  unfold DD.selfSub at h
  simp only [n] at h
  exact h

theorem ex_subF {g : ℤ} {x y : ℚ} (hx : OrdB 31 g x) (hy' : OrdB 31 g y) (h1 : -100 ≤ g) (h2 : g ≤ 100) :
    Ex g (g + 32) (x - y) ((DD.ofF (Fl.fin x) : DD (B64 sq hy)).subF (Fl.fin y)) := by
  have ex : ∀ {z : ℚ}, OrdB 31 g z → Ex g (g + 31) z (DD.ofF (Fl.fin z) : DD (B64 sq hy)) := fun {z} hz =>
    ex_ofF (ordB_f64 hz (by omega) (by omega) (by omega)) ⟨_, hz.choose_spec.2⟩ ((ord_abs hz).1.trans (two_mono (by push_cast; omega)))
  have h := ((ex hx).add' (ex hy').negPair (by omega) (by omega) (by omega) (by omega)).cast rfl (by ring : _ = g + 32) (sub_eq_add_neg x y).symm
  have e : (DD.ofF (Fl.fin x) : DD (B64 sq hy)).subF (Fl.fin y) = (DD.ofF (Fl.fin x)).add ⟨-.(DD.ofF (Fl.fin y : B64 sq hy)).hi, -.(DD.ofF (Fl.fin y : B64 sq hy)).lo⟩ := by
    unfold DD.subF DD.ofF
    rw [lit64, addF_eq f64_zero]
    unfold DD.ofF
    rw [lit64, show (-. (Fl.fin 0 : B64 sq hy)) = Fl.fin 0 from congrArg Fl.fin neg_zero]
  rw [e]; exact h

/-- A sum with a pair that is not a number. -/
theorem add_nan_hi {A B : DD (B64 sq hy)} (h : B.hi = Fl.nan) : isNaN (A.add B).doubleValue = true := by
  have n1 : ∀ x : B64 sq hy, x +. Fl.nan = Fl.nan := by intro x; cases x <;> rfl
  have n2 : ∀ x : B64 sq hy, Fl.nan +. x = (Fl.nan : B64 sq hy) := by intro x; cases x <;> rfl
  have n3 : ∀ x : B64 sq hy, Fl.nan -. x = (Fl.nan : B64 sq hy) := by intro x; cases x <;> rfl
  unfold DD.add DD.addHiLo DD.doubleValue
  simp only [h, n1, n2]
  rfl

theorem sub_nan_hi {A B : DD (B64 sq hy)} (h : B.hi = Fl.nan) : isNaN (A.sub B).doubleValue = true := by
  have : B.negate = B := by
    unfold DD.negate DD.isNaN
    rw [h]; rfl
  unfold DD.sub
  rw [this]
  exact add_nan_hi h

section circumDD
variable {g : ℤ} (h1 : -100 ≤ g) (h2 : g ≤ 100)
include h1 h2

/-- The parts of the formula are exact. -/
theorem circumDD_parts {a b c : Coord ℚ} (ha : OnGridB 31 g a) (hb : OnGridB 31 g b) (hc : OnGridB 31 g c) :
    ∃ X Y D : DD (B64 sq hy), Ex (3 * g) (3 * g + 99) ((a.y - c.y) * sq2 b c - sq2 a c * (b.y - c.y)) X ∧
      Ex (3 * g) (3 * g + 99) ((a.x - c.x) * sq2 b c - sq2 a c * (b.x - c.x)) Y ∧ Ex (2 * g) (2 * g + 67) (2 * det a b c) D ∧
      Triangle.circumcentreDD (toB64 a : Coord (B64 sq hy)) (toB64 b) (toB64 c) =
        Coord.xy ((DD.ofF (Fl.fin c.x)).sub (X.div D)).doubleValue ((DD.ofF (Fl.fin c.y)).add (Y.div D)).doubleValue := by
  have ax := ex_subF (sq := sq) (hy := hy) ha.ordx hc.ordx h1 h2
  have ay := ex_subF (sq := sq) (hy := hy) ha.ordy hc.ordy h1 h2
  have bx := ex_subF (sq := sq) (hy := hy) hb.ordx hc.ordx h1 h2
  have by' := ex_subF (sq := sq) (hy := hy) hb.ordy hc.ordy h1 h2
  have m : ∀ {u v : ℚ} {A B : DD (B64 sq hy)}, Ex g (g + 32) u A → Ex g (g + 32) v B → Ex (2 * g) (2 * g + 64) (u * v) (A.mul B) := fun hu hv =>
    (hu.mul' hv (by omega) (by omega) (by omega) (by omega) (by omega) (by omega) (by omega) (by omega)).cast (by ring) (by ring) rfl
  have s : ∀ {u v : ℚ} {A B : DD (B64 sq hy)}, Ex g (g + 32) u A → Ex g (g + 32) v B → Ex (2 * g) (2 * g + 65) (u * u + v * v) (A.sqr.add B.sqr) := fun hu hv =>
    ((m hu hu).add' (m hv hv) (by omega) (by omega) (by omega) (by omega)).cast rfl (by ring) rfl
  have n : ∀ {u v w z : ℚ} {A B C D : DD (B64 sq hy)}, Ex g (g + 32) u A → Ex (2 * g) (2 * g + 65) v B → Ex g (g + 32) w C → Ex (2 * g) (2 * g + 65) z D →
      Ex (3 * g) (3 * g + 99) (u * z - v * w) (DD.determinant A B C D) := fun hu hv hw hz =>
    ((((hu.mul' hz (by omega) (by omega) (by omega) (by omega) (by omega) (by omega) (by omega) (by omega)).cast (by ring : _ = 3 * g) (by ring : _ = 3 * g + 97) rfl).selfSub
      ((hv.mul' hw (by omega) (by omega) (by omega) (by omega) (by omega) (by omega) (by omega) (by omega)).cast (by ring) (by ring) rfl)
      (by omega) (by omega) (by omega) (by omega)).mono (by omega))
  have A := s ax ay
  have B := s bx by'
  have d := ((m ax by').selfSub (m ay bx) (by omega) (by omega) (by omega) (by omega))
  have two : Ex 0 1 2 (DD.ofF (Fl.fin 2) : DD (B64 sq hy)) := ex_ofF (f64_of (by decide +kernel)) ⟨2, by norm_num⟩ (by norm_num)
  have D := d.mul' two (by omega) (by omega) (by omega) (by omega) (by omega) (by omega) (by omega) (by omega)
  refine ⟨_, _, _, (n ay A by' B).cast rfl rfl ?_, (n ax A bx B).cast rfl rfl ?_, (D.cast (e' := 2 * g) (k' := 2 * g + 66) (by ring) (by ring) ?_).mono (by omega), ?_⟩
  · unfold sq2; ring
  · unfold sq2; ring
  · unfold det; ring
  · unfold Triangle.circumcentreDD
    simp only [xB64, yB64, two_lit64]
    rfl

/-- The last step. -/
theorem circumDD_last {x n d : ℚ} {X D : DD (B64 sq hy)} (hx : OrdB 31 g x) (hX : Ex (3 * g) (3 * g + 99) n X) (hD : Ex (2 * g) (2 * g + 67) d D) (d0 : d ≠ 0) :
    (∃ u, ((DD.ofF (Fl.fin x)).add (X.div D)).doubleValue = Fl.fin u ∧ |u - (x + n / d)| ≤ |x + n / d| / 2 ^ 53 + (|x + n / d| + |n / d|) / 2 ^ 99 ∧
      (|n / d| ≤ 2 ^ 42 * |x + n / d| → Adjacent u (x + n / d))) ∧
    ∃ u, ((DD.ofF (Fl.fin x)).sub (X.div D)).doubleValue = Fl.fin u ∧ |u - (x - n / d)| ≤ |x - n / d| / 2 ^ 53 + (|x - n / d| + |n / d|) / 2 ^ 99 ∧
      (|n / d| ≤ 2 ^ 42 * |x - n / d| → Adjacent u (x - n / d)) := by
  obtain ⟨h, l, e1, e2, e3⟩ := ex_quotient_pair h1 h2 hX hD d0
  have fx := ordB_f64 hx (by omega) (by omega) (by omega)
  have q0 := abs_nonneg (n / d)
  have hq : |n / d| ≤ 2 ^ (g + 99) := by
    rw [abs_div, div_le_iff₀ (abs_pos.mpr d0)]
    have := hD.mul.le_abs d0
    calc |n| ≤ 2 ^ (3 * g + 99) := hX.le
      _ = 2 ^ (g + 99) * 2 ^ (2 * g) := by rw [← two_add]; congr 1; ring
      _ ≤ _ := mul_le_mul_of_nonneg_left this (two_pos _).le
  have hs : |h + l| ≤ 2 ^ (g + 100) := by
    have := abs_sub_abs_le_abs_sub (h + l) (n / d)
    have k : |n / d| / 2 ^ 100 ≤ |n / d| := div_le_self q0 (by norm_num)
    rw [show g + 100 = (g + 99) + 1 by ring, two_add, zpow_one]
    linarith
  obtain ⟨lh, ll⟩ := pair_le (by omega) e2 hs
  have bx : Bd 300 (Fl.fin x : B64 sq hy) := ⟨x, rfl, (ord_abs hx).1.trans (two_mono (by push_cast; omega))⟩
  have bz : Bd 300 (Fl.fin 0 : B64 sq hy) := ⟨0, rfl, by rw [abs_zero]; exact (two_pos _).le⟩
  have gen : ∀ h l q : ℚ, IsPair h l → |h + l - q| ≤ |q| / 2 ^ 100 → |h| ≤ 2 ^ (g + 100) → |l| ≤ 2 ^ (g + 100) →
      ∃ u, ((DD.ofF (Fl.fin x) : DD (B64 sq hy)).add ⟨Fl.fin h, Fl.fin l⟩).doubleValue = Fl.fin u ∧ |u - (x + q)| ≤ |x + q| / 2 ^ 53 + (|x + q| + |q|) / 2 ^ 99 ∧
      (|q| ≤ 2 ^ 42 * |x + q| → Adjacent u (x + q)) := by
    intro h l q p hq lh ll
    have hb := bd_addHiLo (a := (⟨Fl.fin x, Fl.fin 0⟩ : DD (B64 sq hy))) bx bz ⟨h, rfl, lh.trans (two_mono (by omega))⟩ ⟨l, rfl, ll.trans (two_mono (by omega))⟩ (by omega) (by omega)
    obtain ⟨v, w, f1, f2, f3⟩ := C74_sum x 0 h l (.ofF fx) p hb.finite
    have e : (DD.ofF (Fl.fin x) : DD (B64 sq hy)) = ⟨Fl.fin x, Fl.fin 0⟩ := by unfold DD.ofF; rw [lit64]
    rw [add_zero] at f3
    have q0 := abs_nonneg q
    have o0 := abs_nonneg (x + q)
    have t1 : |x + (h + l)| ≤ |x + q| + |q| / 2 ^ 100 := by
      have := abs_add_le (x + q) (h + l - q)
      rw [show x + q + (h + l - q) = x + (h + l) by ring] at this
      linarith
    have t2 : |v + w - (x + q)| ≤ |x + q| / 2 ^ 101 + |q| / 2 ^ 100 + |q| / 2 ^ 201 := by
      have := abs_sub_le (v + w) (x + (h + l)) (x + q)
      rw [show x + (h + l) - (x + q) = h + l - q by ring] at this
      linarith
    have t3 := near_add_rel f2.hi.1 f2.lo.1
    rw [f2.near] at t3
    have t4 : |v + w| ≤ |x + q| + |v + w - (x + q)| := by
      have := abs_sub_abs_le_abs_sub (v + w) (x + q); linarith
    refine ⟨v, by rw [e, f1]; exact f2.norm, ?_, fun hq' => adjacent_of f2 ?_⟩
    · have := abs_sub_le v (v + w) (x + q)
      rw [abs_sub_comm v (v + w)] at this
      linarith
    · linarith
  refine ⟨by rw [e1]; exact gen h l (n / d) e2 e3 lh ll, ?_⟩
  have := gen (-h) (-l) (-(n / d)) e2.neg (by rw [show -h + -l - -(n / d) = -(h + l - n / d) by ring, abs_neg, abs_neg]; exact e3) (by rw [abs_neg]; exact lh) (by rw [abs_neg]; exact ll)
  rw [← sub_eq_add_neg, abs_neg] at this
  rw [e1]
  exact this

/-- C115: on grids of 31 bits the circumcentre of a proper triangle in double-double arithmetic is finite and, in each ordinate, within 2^-53 of its size plus 2^-99 of its
distance from the third vertex; and no double is between the ordinate and its exact value unless that is 2^42 times smaller than this distance. -/
theorem C115_circumcentre {a b c : Coord ℚ} (ha : OnGridB 31 g a) (hb : OnGridB 31 g b) (hc : OnGridB 31 g c) (hd : det a b c ≠ 0) :
    ∃ u v : ℚ, Triangle.circumcentreDD (toB64 a : Coord (B64 sq hy)) (toB64 b) (toB64 c) = Coord.xy (Fl.fin u) (Fl.fin v) ∧
      ∀ o : Coord ℚ, sq2 o a = sq2 o c → sq2 o b = sq2 o c →
        |u - o.x| ≤ |o.x| / 2 ^ 53 + (|o.x| + |o.x - c.x|) / 2 ^ 99 ∧ |v - o.y| ≤ |o.y| / 2 ^ 53 + (|o.y| + |o.y - c.y|) / 2 ^ 99 ∧
        (|o.x - c.x| ≤ 2 ^ 42 * |o.x| → Adjacent u o.x) ∧ (|o.y - c.y| ≤ 2 ^ 42 * |o.y| → Adjacent v o.y) := by
  obtain ⟨X, Y, D, eX, eY, eD, e⟩ := circumDD_parts (sq := sq) (hy := hy) h1 h2 ha hb hc
  have d0 : 2 * det a b c ≠ 0 := mul_ne_zero two_ne_zero hd
  obtain ⟨-, u, u1, u2, u3⟩ := circumDD_last h1 h2 hc.ordx eX eD d0
  obtain ⟨⟨v, v1, v2, v3⟩, -⟩ := circumDD_last h1 h2 hc.ordy eY eD d0
  refine ⟨u, v, by rw [e, u1, v1], fun o h3 h4 => ?_⟩
  obtain ⟨e1, e2⟩ := (C41_circumcentre a b c o hd).mp ⟨h3, h4⟩
  have D' : (a.x - c.x) * (b.y - c.y) - (a.y - c.y) * (b.x - c.x) = det a b c := by unfold det; ring
  have ox : o.x = c.x - ((a.y - c.y) * sq2 b c - sq2 a c * (b.y - c.y)) / (2 * det a b c) := by
    rw [e1]
    unfold Triangle.circumcentre Triangle.det2 sq2
    simp only [exact_sub, exact_mul, exact_add, exact_div, exact_lit, Rat.cast_ofNat]
    rw [D']
    simp only [pow_two]
  have oy : o.y = c.y + ((a.x - c.x) * sq2 b c - sq2 a c * (b.x - c.x)) / (2 * det a b c) := by
    rw [e2]
    unfold Triangle.circumcentre Triangle.det2 sq2
    simp only [exact_sub, exact_mul, exact_add, exact_div, exact_lit, Rat.cast_ofNat]
    rw [D']
    simp only [pow_two]
  rw [← ox] at u2 u3
  rw [← oy] at v2 v3
  have kx : |o.x - c.x| = |((a.y - c.y) * sq2 b c - sq2 a c * (b.y - c.y)) / (2 * det a b c)| := by
    rw [ox, abs_sub_comm]; congr 1; ring
  have ky : |o.y - c.y| = |((a.x - c.x) * sq2 b c - sq2 a c * (b.x - c.x)) / (2 * det a b c)| := by
    rw [oy]; congr 1; ring
  rw [← kx] at u2 u3
  rw [← ky] at v2 v3
  exact ⟨u2, v2, u3, v3⟩

/-- C115: the ordinates of the circumcentre of collinear points are not numbers. -/
theorem C115_collinear {a b c : Coord ℚ} (ha : OnGridB 31 g a) (hb : OnGridB 31 g b) (hc : OnGridB 31 g c) (hd : det a b c = 0) :
    isNaN (Triangle.circumcentreDD (toB64 a : Coord (B64 sq hy)) (toB64 b) (toB64 c)).x = true ∧
    isNaN (Triangle.circumcentreDD (toB64 a : Coord (B64 sq hy)) (toB64 b) (toB64 c)).y = true := by
  obtain ⟨X, Y, D, eX, eY, eD, e⟩ := circumDD_parts (sq := sq) (hy := hy) h1 h2 ha hb hc
  rw [hd, mul_zero] at eD
  rw [e]
  exact ⟨sub_nan_hi (ex_div_zero_hi eX eD), add_nan_hi (ex_div_zero_hi eY eD)⟩

end circumDD

/-- C115: the triangle (0,0), (1836311903,1134903170), (1134903170,701408733) of integers of 31 bits is proper, but the plain formula finds no finite circumcentre. -/
theorem C115_plain_fails : ∃ a b c : Coord ℚ, OnGridB 31 0 a ∧ OnGridB 31 0 b ∧ OnGridB 31 0 c ∧ det a b c ≠ 0 ∧
    isFinite (Triangle.circumcentre (toB64 a : Coord X64) (toB64 b) (toB64 c)).x = false ∧
    isFinite (Triangle.circumcentre (toB64 a : Coord X64) (toB64 b) (toB64 c)).y = false ∧
    isFinite (Triangle.circumcentreDD (toB64 a : Coord X64) (toB64 b) (toB64 c)).x = true ∧
    isFinite (Triangle.circumcentreDD (toB64 a : Coord X64) (toB64 b) (toB64 c)).y = true := by
  refine ⟨Coord.xy 1836311903 1134903170, Coord.xy 1134903170 701408733, Coord.xy 0 0, ⟨1836311903, 1134903170, ?_⟩, ⟨1134903170, 701408733, ?_⟩, ⟨0, 0, ?_⟩, ?_, ?_⟩
  · refine ⟨by norm_num, by norm_num, ?_, ?_⟩ <;> simp [Coord.xy]
  · refine ⟨by norm_num, by norm_num, ?_, ?_⟩ <;> simp [Coord.xy]
  · refine ⟨by norm_num, by norm_num, ?_, ?_⟩ <;> simp [Coord.xy]
  · norm_num [det, Coord.xy]
  · decide +kernel

/-- A triangle of integers of 31 bits with two right angles but for 2^-31. -/
example : ∃ u v : ℚ, Triangle.circumcentreDD (toB64 (Coord.xy 2147483648 1) : Coord X64) (toB64 (Coord.xy (-2147483648) 1)) (toB64 (Coord.xy 0 0)) =
    Coord.xy (Fl.fin u) (Fl.fin v) ∧ |u - 0| ≤ 0 ∧ |v - (2 ^ 62 + 1) / 2| ≤ (2 ^ 62 + 1) / 2 / 2 ^ 53 + (2 ^ 62 + 1) / 2 ^ 99 := by
  have ga : OnGridB 31 0 (Coord.xy 2147483648 1) := ⟨2147483648, 1, by norm_num, by norm_num, by simp [Coord.xy], by simp [Coord.xy]⟩
  have gb : OnGridB 31 0 (Coord.xy (-2147483648) 1) := ⟨-2147483648, 1, by norm_num, by norm_num, by simp [Coord.xy], by simp [Coord.xy]⟩
  have gc : OnGridB 31 0 (Coord.xy 0 0) := ⟨0, 0, by norm_num, by norm_num, by simp [Coord.xy], by simp [Coord.xy]⟩
  obtain ⟨u, v, e, h⟩ := C115_circumcentre (sq := Val.fin) (hy := fun a _ => Val.fin a) (by norm_num) (by norm_num) ga gb gc (by norm_num [det, Coord.xy])
  obtain ⟨h1, h2, -, -⟩ := h (Coord.xy 0 ((2 ^ 62 + 1) / 2)) (by norm_num [sq2, Coord.xy]) (by norm_num [sq2, Coord.xy])
  refine ⟨u, v, e, ?_, ?_⟩
  · norm_num [Coord.xy] at h1
    rw [h1]; norm_num
  · norm_num [Coord.xy] at h2 ⊢
    exact h2

end Verif.Props
