import Verif.Lemmas.DDInt
import Verif.Props.GridPredicates
import Verif.Props.Intersection
import Verif.Props.LineIntersector

/-! # C85: the intersection of lines through grid points in binary64 -/

set_option linter.unusedSectionVars false

namespace Verif.Props
open Flt Verif.Spec Verif.Binary64
variable {sq : ℚ → Val} {hy : ℚ → ℚ → Val}

/-- The ordinates are multiples of `2^g` by integers of at most 32 bits. -/
def OnGrid32 (g : ℤ) (p : Coord ℚ) : Prop := ∃ m n : ℤ, |m| ≤ 2 ^ 32 ∧ |n| ≤ 2 ^ 32 ∧ p.x = m * 2 ^ g ∧ p.y = n * 2 ^ g

theorem OnGrid32.grid {g : ℤ} {p : Coord ℚ} (h : OnGrid32 g p) : OnGrid g p := by
  obtain ⟨m, n, hm, hn, hx, hy⟩ := h
  exact ⟨m, n, hm.trans (by norm_num), hn.trans (by norm_num), hx, hy⟩

/-- One ordinate of a point on the small grid. -/
def Ord32 (g : ℤ) (x : ℚ) : Prop := Mul2 g x ∧ |x| ≤ 2 ^ (g + 32)

theorem ord32_of {g m : ℤ} {x : ℚ} (hm : |m| ≤ 2 ^ 32) (hx : x = m * 2 ^ g) : Ord32 g x := by
  refine ⟨⟨m, hx⟩, ?_⟩
  rw [hx, abs_mul, abs_of_pos (two_pos g), two_add, mul_comm]
  apply mul_le_mul_of_nonneg_left _ (two_pos g).le
  exact_mod_cast hm

theorem OnGrid32.ord {g : ℤ} {p : Coord ℚ} (h : OnGrid32 g p) : Ord32 g p.x ∧ Ord32 g p.y := by
  obtain ⟨m, n, hm, hn, hx, hy⟩ := h
  exact ⟨ord32_of hm hx, ord32_of hn hy⟩

theorem Ord32.f64 {g : ℤ} {x : ℚ} (h : Ord32 g x) (h1 : -100 ≤ g) (h2 : g ≤ 100) : IsF64 x :=
  Ord.f64 (g := g) ⟨h.1, h.2.trans (two_mono (by omega))⟩ (by omega) (by omega)

theorem Ord32.ex {g : ℤ} {x : ℚ} (h : Ord32 g x) (h1 : -100 ≤ g) (h2 : g ≤ 100) : Ex g (g + 32) x (DD.ofF (Fl.fin x) : DD (B64 sq hy)) :=
  ex_ofF (h.f64 h1 h2) h.1 h.2

theorem selfSubF_eq (a : DD (B64 sq hy)) (y : ℚ) : a.selfSubF (Fl.fin y) = a.selfSub (DD.ofF (Fl.fin y)) := by
  unfold DD.selfSubF DD.selfSub DD.ofF
  rw [lit64, show (-. (Fl.fin 0 : B64 sq hy)) = Fl.fin 0 from congrArg Fl.fin neg_zero]

theorem selfMulF_eq (a : DD (B64 sq hy)) (y : ℚ) : a.selfMulF (Fl.fin y) = a.selfMul (DD.ofF (Fl.fin y)) := rfl

theorem Ex.cast {e k e' k' : ℤ} {v v' : ℚ} {A : DD (B64 sq hy)} (h : Ex e k v A) (he : e = e') (hk : k = k') (hv : v = v') : Ex e' k' v' A := by
  subst he hk hv; exact h

/-- Differences and cross products of ordinates are exact. -/
theorem ex_diff {g : ℤ} {x y : ℚ} (hx : Ord32 g x) (hy' : Ord32 g y) (h1 : -100 ≤ g) (h2 : g ≤ 100) :
    Ex g (g + 33) (x - y) ((DD.ofF (Fl.fin x) : DD (B64 sq hy)).selfSubF (Fl.fin y)) := by
  rw [selfSubF_eq]
  exact ((hx.ex h1 h2).selfSub (hy'.ex h1 h2) (by omega) (by omega) (by omega) (by omega)).cast rfl (by ring) rfl

theorem ex_cross {g : ℤ} {a b c d : ℚ} (ha : Ord32 g a) (hb : Ord32 g b) (hc : Ord32 g c) (hd : Ord32 g d) (h1 : -100 ≤ g) (h2 : g ≤ 100) :
    Ex (2 * g) (2 * g + 65) (a * b - c * d)
      (((DD.ofF (Fl.fin a) : DD (B64 sq hy)).selfMulF (Fl.fin b)).selfSub ((DD.ofF (Fl.fin c)).selfMulF (Fl.fin d))) := by
  rw [selfMulF_eq, selfMulF_eq]
  have p := (ha.ex (sq := sq) (hy := hy) h1 h2).selfMul (hb.ex h1 h2) (by omega) (by omega) (by omega) (by omega) (by omega) (by omega) (by omega) (by omega)
  have q := (hc.ex (sq := sq) (hy := hy) h1 h2).selfMul (hd.ex h1 h2) (by omega) (by omega) (by omega) (by omega) (by omega) (by omega) (by omega) (by omega)
  exact (p.selfSub q (by omega) (by omega) (by omega) (by omega)).cast (by ring) (by ring) rfl

theorem Bd.div {k m : ℤ} {x : B64 sq hy} {b : ℚ} (hx : Bd k x) (hb : 2 ^ m ≤ |b|) (h1 : -1074 ≤ k - m) (h2 : k - m ≤ 1023) :
    Bd (k - m) (x /. Fl.fin b) := by
  obtain ⟨a, rfl, ha⟩ := hx
  have b0 : b ≠ 0 := by
    rintro rfl
    rw [abs_zero] at hb
    exact absurd hb (not_le.mpr (two_pos m))
  have : (Fl.fin a : B64 sq hy) /. Fl.fin b = Fl.round (a / b) := if_neg b0
  rw [this]
  refine bd_round h1 h2 ?_
  rw [abs_div, div_le_iff₀ (abs_pos.mpr b0)]
  calc |a| ≤ 2 ^ k := ha
    _ = 2 ^ (k - m) * 2 ^ m := by rw [← two_add, sub_add_cancel]
    _ ≤ 2 ^ (k - m) * |b| := mul_le_mul_of_nonneg_left hb (two_pos _).le

/-- The quotient of exact pairs. -/
theorem ex_quotient_pair {g : ℤ} {u v : ℚ} {A B : DD (B64 sq hy)} (h1 : -100 ≤ g) (h2 : g ≤ 100) (ha : Ex (3 * g) (3 * g + 99) u A)
    (hb : Ex (2 * g) (2 * g + 67) v B) (hv : v ≠ 0) :
    ∃ h l, A.div B = ⟨Fl.fin h, Fl.fin l⟩ ∧ IsPair h l ∧ |h + l - u / v| ≤ |u / v| / 2 ^ 100 := by
  obtain ⟨a, b, rfl, pa, rfl⟩ := ha.pair
  obtain ⟨c, d, rfl, pb, rfl⟩ := hb.pair
  obtain ⟨ma, mb⟩ := pair_mul2 (by omega) pa ha.mul
  obtain ⟨mc, md⟩ := pair_mul2 (by omega) pb hb.mul
  obtain ⟨la, lb⟩ := pair_le (by omega) pa ha.le
  obtain ⟨lc, ld⟩ := pair_le (by omega) pb hb.le
  have c0 : c ≠ 0 := by
    rintro rfl
    have := pb.zero
    rw [this, add_zero] at hv
    exact hv rfl
  have hc := mc.le_abs c0
  have bA : Bd 400 (Fl.fin a : B64 sq hy) := ⟨a, rfl, la.trans (two_mono (by omega))⟩
  have bb : Bd 400 (Fl.fin b : B64 sq hy) := ⟨b, rfl, lb.trans (two_mono (by omega))⟩
  have bc : Bd 270 (Fl.fin c : B64 sq hy) := ⟨c, rfl, lc.trans (two_mono (by omega))⟩
  have bd : Bd 270 (Fl.fin d : B64 sq hy) := ⟨d, rfl, ld.trans (two_mono (by omega))⟩
  have bq : Bd 200 ((Fl.fin a : B64 sq hy) /. Fl.fin c) :=
    (Bd.div (k := 3 * g + 99) (m := 2 * g) ⟨a, rfl, la⟩ hc (by omega) (by omega)).mono (by omega)
  have hfin : isFinite ((⟨Fl.fin a, Fl.fin b⟩ : DD (B64 sq hy)).div ⟨Fl.fin c, Fl.fin d⟩).hi = true := by
    unfold DD.div
    rw [divHiLo_errPart]
    dsimp only
    have e := bd_errPart (bq.mono (by omega : (200 : ℤ) ≤ 270)) bc (by omega) (by omega)
    have r1 := (bA.mono (by omega : (400 : ℤ) ≤ 480)).sub ((bq.mul bc (by omega) (by omega)).mono (by omega)) (by omega) (by omega)
    have r2 := (r1.mono (by omega : (480 + 1 : ℤ) ≤ 610)).sub (e.mono (by omega)) (by omega) (by omega)
    have r3 := r2.add (bb.mono (by omega)) (by omega) (by omega)
    have r4 := r3.sub ((bq.mul bd (by omega) (by omega)).mono (by omega)) (by omega) (by omega)
    have r5 := (r4.div hc (by omega) (by omega)).mono (by omega : _ ≤ (820 : ℤ))
    exact ((bq.mono (by omega)).add r5 (by omega) (by omega)).finite
  have hu : NoUnderflowDiv a c := by
    refine ⟨(two_mono (by omega)).trans hc, ?_⟩
    by_cases a0 : a = 0
    · exact Or.inl a0
    have ha' := ma.le_abs a0
    refine Or.inr ⟨(two_mono (by omega)).trans ha', ?_⟩
    rw [abs_div, le_div_iff₀ (abs_pos.mpr c0)]
    calc (2 : ℚ) ^ (-960 : ℤ) * |c| ≤ 2 ^ (-960 : ℤ) * 2 ^ (2 * g + 67) := mul_le_mul_of_nonneg_left lc (two_pos _).le
      _ = 2 ^ (-960 + (2 * g + 67)) := (two_add _ _).symm
      _ ≤ 2 ^ (3 * g) := two_mono (by omega)
      _ ≤ |a| := ha'
  exact C75_quotient a b c d pa pb hu hfin

/-- The quotient of exact pairs is faithful. -/
theorem ex_quotient {g : ℤ} {u v : ℚ} {A B : DD (B64 sq hy)} (h1 : -100 ≤ g) (h2 : g ≤ 100) (ha : Ex (3 * g) (3 * g + 99) u A)
    (hb : Ex (2 * g) (2 * g + 67) v B) (hv : v ≠ 0) : ∃ x, (A.div B).doubleValue = Fl.fin x ∧ Faithful x (u / v) := by
  obtain ⟨h, l, e1, e2, e3⟩ := ex_quotient_pair h1 h2 ha hb hv
  exact ⟨h, by rw [e1]; exact e2.norm, faithful_of e2 e3⟩

/-- Division by an exact zero. -/
theorem ex_div_zero_hi {e k : ℤ} {u : ℚ} {A B : DD (B64 sq hy)} {e' k' : ℤ} (ha : Ex e k u A) (hb : Ex e' k' 0 B) :
    (A.div B).hi = Fl.nan := by
  obtain ⟨a, b, rfl, pa, rfl⟩ := ha.pair
  obtain ⟨c, d, rfl, pb, hs⟩ := hb.pair
  have hc : c = 0 := by have := pb.near; rw [hs, near_zero] at this; exact this.symm
  subst hc
  unfold DD.div
  rw [divHiLo_errPart]
  dsimp only
  have e1 : (Fl.fin a : B64 sq hy) /. Fl.fin 0 = Fl.infOf a := by
    show (if (0 : ℚ) = 0 then Fl.infOf a else Fl.round (a / 0)) = _
    exact if_pos rfl
  rw [e1]
  have e2 : (Fl.infOf a : B64 sq hy) *. Fl.fin 0 = Fl.nan := by
    unfold Fl.infOf
    split_ifs
    · show Fl.infOf 0 = _
      exact if_neg (lt_irrefl _) |>.trans (if_neg (lt_irrefl _))
    · show Fl.infOf (-0) = _
      rw [neg_zero]
      exact if_neg (lt_irrefl _) |>.trans (if_neg (lt_irrefl _))
    · rfl
  rw [e2]
  have n1 : ∀ x : B64 sq hy, x +. Fl.nan = Fl.nan := by intro x; cases x <;> rfl
  have n2 : ∀ x : B64 sq hy, Fl.nan +. x = (Fl.nan : B64 sq hy) := by intro x; cases x <;> rfl
  have n3 : ∀ x : B64 sq hy, Fl.nan -. x = (Fl.nan : B64 sq hy) := by intro x; cases x <;> rfl
  have n4 : ∀ x : B64 sq hy, x -. Fl.nan = (Fl.nan : B64 sq hy) := by intro x; cases x <;> rfl
  have n5 : ∀ x : B64 sq hy, Fl.nan /. x = (Fl.nan : B64 sq hy) := by intro x; cases x <;> rfl
  rw [n4, n3, n2, n3, n5, n1]

theorem ex_div_zero {e k : ℤ} {u : ℚ} {A B : DD (B64 sq hy)} {e' k' : ℤ} (ha : Ex e k u A) (hb : Ex e' k' 0 B) :
    isNaN (A.div B).doubleValue = true := by
  unfold DD.doubleValue
  rw [ex_div_zero_hi ha hb]
  cases (A.div B).lo <;> rfl

/-- C85: the common point of two lines through grid points is reported exactly if the lines are not parallel, and then it is a faithful
rounding of the exact common point. -/
theorem C85_lines (g : ℤ) (h1 : -100 ≤ g) (h2 : g ≤ 100) (p1 p2 q1 q2 : Coord ℚ) (hp1 : OnGrid32 g p1) (hp2 : OnGrid32 g p2)
    (hq1 : OnGrid32 g q1) (hq2 : OnGrid32 g q2) :
    (Intersection.intersection (toB64 p1 : Coord (B64 sq hy)) (toB64 p2) (toB64 q1) (toB64 q2) = none ↔ dirDet p1 p2 q1 q2 = 0) ∧
    (dirDet p1 p2 q1 q2 ≠ 0 → ∃ x y, Intersection.intersection (toB64 p1 : Coord (B64 sq hy)) (toB64 p2) (toB64 q1) (toB64 q2) =
        some (Coord.xy (Fl.fin x) (Fl.fin y)) ∧
      ∀ c : Coord ℚ, OnLineOf c p1 p2 → OnLineOf c q1 q2 → Faithful x c.x ∧ Faithful y c.y) := by
  obtain ⟨a1, b1⟩ := hp1.ord
  obtain ⟨a2, b2⟩ := hp2.ord
  obtain ⟨a3, b3⟩ := hq1.ord
  obtain ⟨a4, b4⟩ := hq2.ord
  have px := ex_diff (sq := sq) (hy := hy) b1 b2 h1 h2
  have py := ex_diff (sq := sq) (hy := hy) a2 a1 h1 h2
  have qx := ex_diff (sq := sq) (hy := hy) b3 b4 h1 h2
  have qy := ex_diff (sq := sq) (hy := hy) a4 a3 h1 h2
  have pw := ex_cross (sq := sq) (hy := hy) a1 b2 a2 b1 h1 h2
  have qw := ex_cross (sq := sq) (hy := hy) a3 b4 a4 b3 h1 h2
  have m1 := py.mul' qw (by omega) (by omega) (by omega) (by omega) (by omega) (by omega) (by omega) (by omega)
  have m2 := qy.mul' pw (by omega) (by omega) (by omega) (by omega) (by omega) (by omega) (by omega) (by omega)
  have m3 := qx.mul' pw (by omega) (by omega) (by omega) (by omega) (by omega) (by omega) (by omega) (by omega)
  have m4 := px.mul' qw (by omega) (by omega) (by omega) (by omega) (by omega) (by omega) (by omega) (by omega)
  have m5 := px.mul' qy (by omega) (by omega) (by omega) (by omega) (by omega) (by omega) (by omega) (by omega)
  have m6 := qx.mul' py (by omega) (by omega) (by omega) (by omega) (by omega) (by omega) (by omega) (by omega)
  have X := (m1.selfSub m2 (by omega) (by omega) (by omega) (by omega)).cast (e' := 3 * g) (k' := 3 * g + 99) (by ring) (by ring) rfl
  have Y := (m3.selfSub m4 (by omega) (by omega) (by omega) (by omega)).cast (e' := 3 * g) (k' := 3 * g + 99) (by ring) (by ring) rfl
  have W := (m5.selfSub m6 (by omega) (by omega) (by omega) (by omega)).cast (e' := 2 * g) (k' := 2 * g + 67) (v' := dirDet p1 p2 q1 q2) (by ring) (by ring)
    (by unfold dirDet; ring)
  have step : dirDet p1 p2 q1 q2 ≠ 0 → ∃ x y, Intersection.intersection (toB64 p1 : Coord (B64 sq hy)) (toB64 p2) (toB64 q1) (toB64 q2) =
        some (Coord.xy (Fl.fin x) (Fl.fin y)) ∧
      ∀ c : Coord ℚ, OnLineOf c p1 p2 → OnLineOf c q1 q2 → Faithful x c.x ∧ Faithful y c.y := by
    intro hw
    obtain ⟨x, ex, fx⟩ := ex_quotient h1 h2 X W hw
    obtain ⟨y, ey, fy⟩ := ex_quotient h1 h2 Y W hw
    refine ⟨x, y, ?_, ?_⟩
    · unfold Intersection.intersection CGDD.intersection toB64 Coord.xy
      dsimp only
      rw [ex, ey]
      rfl
    · intro c hc1 hc2
      obtain ⟨k1, k2⟩ := formula_on p1 p2 q1 q2 hw
      obtain ⟨u1, u2⟩ := common_unique p1 p2 q1 q2 c _ hw hc1 hc2 k1 k2
      rw [u1, u2]
      exact ⟨fx, fy⟩
  refine ⟨⟨fun h => ?_, fun h => ?_⟩, step⟩
  · by_contra hw
    obtain ⟨x, y, e, -⟩ := step hw
    rw [e] at h
    exact Option.some_ne_none _ h
  · rw [h] at W
    have := ex_div_zero X W
    unfold Intersection.intersection CGDD.intersection toB64 Coord.xy
    dsimp only
    rw [this]
    rfl

/-! ## The segment intersector -/

section Generic
variable {α β I : Type} [FltSqrt α] [FltRound α] [FltSqrt β] [FltRound β] {F : I → Coord α} {G : I → Coord β}

/-- Both sides hold the same one of the given points. -/
def Both (F : I → Coord α) (G : I → Coord β) (a : Coord α) (b : Coord β) (m : I) : Prop := Same a (F m) ∧ Same b (G m)

theorem both_copy {a : Coord α} {b : Coord β} {m : I} (h : Both F G a b m) (z : α) (w : β) : Both F G (LI.copyWithZ a z) (LI.copyWithZ b w) m := by
  obtain ⟨⟨h1, h2⟩, h3, h4⟩ := h
  exact ⟨⟨(copyWithZ_xy _ _).1.trans h1, (copyWithZ_xy _ _).2.trans h2⟩, (copyWithZ_xy _ _).1.trans h3, (copyWithZ_xy _ _).2.trans h4⟩

theorem both_self (m : I) : Both F G (F m).fromCoordinate (G m).fromCoordinate m := ⟨⟨rfl, rfl⟩, rfl, rfl⟩

theorem both_interp (m a b c d : I) : Both F G (LI.copyWithZInterpolate (F m) (F a) (F b)) (LI.copyWithZInterpolate (G m) (G c) (G d)) m :=
  both_copy ⟨⟨rfl, rfl⟩, rfl, rfl⟩ _ _

theorem SimOrd.touch (h : SimOrd F G) (a b c d : Int) (i j k l : I) (h0 : a = 0 ∨ b = 0 ∨ c = 0 ∨ d = 0) : ∃ m ∈ [i, j, k, l],
    Both F G (LI.touchPoint a b c d (F i) (F j) (F k) (F l)).1 (LI.touchPoint a b c d (G i) (G j) (G k) (G l)).1 m := by
  unfold LI.touchPoint
  simp only [h.equals2D]
  split_ifs
  · exact ⟨i, by simp, both_self i⟩
  · exact ⟨i, by simp, both_self i⟩
  · exact ⟨j, by simp, both_self j⟩
  · exact ⟨j, by simp, both_self j⟩
  · exact ⟨k, by simp, both_self k⟩
  · exact ⟨l, by simp, both_self l⟩
  · exact ⟨i, by simp, both_self i⟩
  · exact ⟨j, by simp, both_self j⟩
  · omega

theorem SimOrd.collinear_points (h : SimOrd F G) (s : LI α) (t : LI β) (i j k l : I) (h0 : (t.computeCollinear (G i) (G j) (G k) (G l)).1 ≠ 0) :
    ∃ m ∈ [i, j, k, l], ∃ n ∈ [i, j, k, l],
      Both F G (s.computeCollinear (F i) (F j) (F k) (F l)).2.pt0 (t.computeCollinear (G i) (G j) (G k) (G l)).2.pt0 m ∧
      Both F G (s.computeCollinear (F i) (F j) (F k) (F l)).2.pt1 (t.computeCollinear (G i) (G j) (G k) (G l)).2.pt1 n := by
  revert h0
  unfold LI.computeCollinear
  simp only [h.intersects3, h.equals2D]
  intro h0
  split_ifs at h0 ⊢ <;> first
    | exact ⟨k, by simp, l, by simp, both_interp .., both_interp ..⟩
    | exact ⟨i, by simp, j, by simp, both_interp .., both_interp ..⟩
    | exact ⟨k, by simp, i, by simp, both_interp .., both_interp ..⟩
    | exact ⟨k, by simp, j, by simp, both_interp .., both_interp ..⟩
    | exact ⟨l, by simp, i, by simp, both_interp .., both_interp ..⟩
    | exact ⟨l, by simp, j, by simp, both_interp .., both_interp ..⟩
    | exact absurd rfl h0

/-- Without a proper crossing the reported points are ends of the segments, the same ones for both number types. -/
theorem SimOrd.points_at (h : SimOrd F G) (s : LI α) (t : LI β) (i j k l : I) (ht : SameTurns F G i j k l)
    (hp : (t.compute4 (G i) (G j) (G k) (G l)).isProper = false)
    (h0 : (t.compute4 (G i) (G j) (G k) (G l)).result ≠ 0) :
    ∃ m ∈ [i, j, k, l], ∃ n ∈ [i, j, k, l],
      Both F G (s.compute4 (F i) (F j) (F k) (F l)).pt0 (t.compute4 (G i) (G j) (G k) (G l)).pt0 m ∧
      ((t.compute4 (G i) (G j) (G k) (G l)).result = 2 →
        Both F G (s.compute4 (F i) (F j) (F k) (F l)).pt1 (t.compute4 (G i) (G j) (G k) (G l)).pt1 n) := by
  revert hp h0
  unfold LI.compute4 LI.computeIntersect
  simp only [h.intersects4]
  by_cases c1 : Env.intersects4 (G i) (G j) (G k) (G l) = true
  · obtain ⟨i1, i2, i3⟩ := ht c1
    simp only [c1, i1, i2]
    by_cases c2 : (Orientation.index (G i) (G j) (G k) > 0 ∧ Orientation.index (G i) (G j) (G l) > 0) ∨
        (Orientation.index (G i) (G j) (G k) < 0 ∧ Orientation.index (G i) (G j) (G l) < 0)
    · simp only [if_pos c2]; intro _ h0; exact absurd rfl h0
    · simp only [if_neg c2, (i3 c2).1, (i3 c2).2]
      intro hp h0
      split_ifs at hp h0 ⊢ with c0 c3 c4 c5
      · exact absurd rfl h0
      · exact absurd rfl h0
      · obtain ⟨m, hm, n, hn, b1, b2⟩ := h.collinear_points _ _ i j k l h0
        exact ⟨m, hm, n, hn, b1, fun _ => b2⟩
      · obtain ⟨m, hm, b⟩ := h.touch _ _ _ _ i j k l c5
        exact ⟨m, hm, i, by simp, both_copy b _ _, fun h => absurd (show (1 : Int) = 2 from h) (by decide)⟩
  · simp only [c1]; intro _ h0; exact absurd rfl h0

theorem Sim.points (h : Sim F G) (s : LI α) (t : LI β) (i j k l : I) (hp : (t.compute4 (G i) (G j) (G k) (G l)).isProper = false)
    (h0 : (t.compute4 (G i) (G j) (G k) (G l)).result ≠ 0) :
    ∃ m ∈ [i, j, k, l], ∃ n ∈ [i, j, k, l],
      Both F G (s.compute4 (F i) (F j) (F k) (F l)).pt0 (t.compute4 (G i) (G j) (G k) (G l)).pt0 m ∧
      ((t.compute4 (G i) (G j) (G k) (G l)).result = 2 →
        Both F G (s.compute4 (F i) (F j) (F k) (F l)).pt1 (t.compute4 (G i) (G j) (G k) (G l)).pt1 n) :=
  h.points_at s t i j k l (h.turns i j k l) hp h0

/-- A proper crossing: the ends of each segment are strictly on different sides of the other. -/
theorem proper_state (s : LI α) (p1 p2 q1 q2 : Coord α) (h : (s.compute4 p1 p2 q1 q2).isProper = true) :
    (Orientation.index p1 p2 q1 ≠ 0 ∧ Orientation.index p1 p2 q2 ≠ 0 ∧ Orientation.index q1 q2 p1 ≠ 0 ∧ Orientation.index q1 q2 p2 ≠ 0) ∧
    ¬ ((Orientation.index p1 p2 q1 > 0 ∧ Orientation.index p1 p2 q2 > 0) ∨ (Orientation.index p1 p2 q1 < 0 ∧ Orientation.index p1 p2 q2 < 0)) ∧
    ¬ ((Orientation.index q1 q2 p1 > 0 ∧ Orientation.index q1 q2 p2 > 0) ∨ (Orientation.index q1 q2 p1 < 0 ∧ Orientation.index q1 q2 p2 < 0)) ∧
    (s.compute4 p1 p2 q1 q2).result = 1 ∧
    Same (s.compute4 p1 p2 q1 q2).pt0 (LI.intersection { s with
      in00 := p1.fromCoordinate, in01 := p2.fromCoordinate, in10 := q1.fromCoordinate, in11 := q2.fromCoordinate, isProper := true } p1 p2 q1 q2) := by
  revert h
  unfold LI.compute4 LI.computeIntersect
  dsimp only
  intro h
  split_ifs at h ⊢ with c1 c2 c3 c4 c5
  · rw [collinear_flag] at h; exact absurd h Bool.false_ne_true
  · exact ⟨by tauto, c2, c3, rfl, copyWithZ_xy _ _⟩

end Generic

theorem sgnq_pos (a : ℚ) : 0 < sgn a ↔ 0 < a := by unfold sgn; split_ifs <;> simp_all [not_lt_of_gt]
theorem sgnq_neg (a : ℚ) : sgn a < 0 ↔ a < 0 := by unfold sgn; split_ifs <;> simp_all [not_lt_of_gt]

/-- The crossing of two segments in terms of the orientations of their ends. -/
theorem crossing_rational {p1 p2 q1 q2 : Coord ℚ} (n1 : det p1 p2 q1 ≠ 0) (n2 : det p1 p2 q2 ≠ 0) (n3 : det q1 q2 p1 ≠ 0) (n4 : det q1 q2 p2 ≠ 0)
    (s1 : ¬ ((0 < det p1 p2 q1 ∧ 0 < det p1 p2 q2) ∨ (det p1 p2 q1 < 0 ∧ det p1 p2 q2 < 0)))
    (s2 : ¬ ((0 < det q1 q2 p1 ∧ 0 < det q1 q2 p2) ∨ (det q1 q2 p1 < 0 ∧ det q1 q2 p2 < 0))) :
    dirDet p1 p2 q1 q2 ≠ 0 ∧ ∃ c, Inside c p1 p2 ∧ Inside c q1 q2 ∧ OnLineOf c p1 p2 ∧ OnLineOf c q1 q2 := by
  have part : ∀ a b : ℚ, a ≠ 0 → b ≠ 0 → ¬ ((0 < a ∧ 0 < b) ∨ (a < 0 ∧ b < 0)) → a - b ≠ 0 ∧ 0 ≤ a / (a - b) ∧ a / (a - b) ≤ 1 := by
    intro a b ha hb h
    rcases lt_or_gt_of_ne ha with ha | ha <;> rcases lt_or_gt_of_ne hb with hb | hb
    · exact absurd (Or.inr ⟨ha, hb⟩) h
    · exact ⟨by linarith, div_nonneg_of_nonpos ha.le (by linarith), by rw [div_le_one_of_neg (by linarith)]; linarith⟩
    · exact ⟨by linarith, div_nonneg ha.le (by linarith), by rw [div_le_one (by linarith)]; linarith⟩
    · exact absurd (Or.inl ⟨ha, hb⟩) h
  obtain ⟨d1, t0, t1⟩ := part _ _ n1 n2 s1
  obtain ⟨d2, u0, u1⟩ := part _ _ n3 n4 s2
  have hw : dirDet p1 p2 q1 q2 ≠ 0 := by
    have : dirDet p1 p2 q1 q2 = -(det p1 p2 q1 - det p1 p2 q2) := by unfold dirDet det; ring
    rw [this]; exact neg_ne_zero.mpr d1
  refine ⟨hw, ⟨q1.x + det p1 p2 q1 / (det p1 p2 q1 - det p1 p2 q2) * (q2.x - q1.x),
    q1.y + det p1 p2 q1 / (det p1 p2 q1 - det p1 p2 q2) * (q2.y - q1.y), 0, 0⟩, ?_⟩
  generalize ht : det p1 p2 q1 / (det p1 p2 q1 - det p1 p2 q2) = t at t0 t1
  generalize hu : det q1 q2 p1 / (det q1 q2 p1 - det q1 q2 p2) = u at u0 u1
  rw [div_eq_iff d1] at ht
  rw [div_eq_iff d2] at hu
  have l1 : OnLineOf (⟨q1.x + t * (q2.x - q1.x), q1.y + t * (q2.y - q1.y), 0, 0⟩ : Coord ℚ) p1 p2 := by
    unfold OnLineOf
    have : det p1 p2 (⟨q1.x + t * (q2.x - q1.x), q1.y + t * (q2.y - q1.y), 0, 0⟩ : Coord ℚ) =
        det p1 p2 q1 - t * (det p1 p2 q1 - det p1 p2 q2) := by unfold det; ring
    rw [this, ← ht, sub_self]
  have l2 : OnLineOf (⟨q1.x + t * (q2.x - q1.x), q1.y + t * (q2.y - q1.y), 0, 0⟩ : Coord ℚ) q1 q2 := by
    unfold OnLineOf det; ring
  have l3 : OnLineOf (⟨p1.x + u * (p2.x - p1.x), p1.y + u * (p2.y - p1.y), 0, 0⟩ : Coord ℚ) q1 q2 := by
    unfold OnLineOf
    have : det q1 q2 (⟨p1.x + u * (p2.x - p1.x), p1.y + u * (p2.y - p1.y), 0, 0⟩ : Coord ℚ) =
        det q1 q2 p1 - u * (det q1 q2 p1 - det q1 q2 p2) := by unfold det; ring
    rw [this, ← hu, sub_self]
  have l4 : OnLineOf (⟨p1.x + u * (p2.x - p1.x), p1.y + u * (p2.y - p1.y), 0, 0⟩ : Coord ℚ) p1 p2 := by
    unfold OnLineOf det; ring
  obtain ⟨ex, ey⟩ := common_unique p1 p2 q1 q2 _ _ hw l1 l2 l4 l3
  have away : ∀ {c a b e : Coord ℚ}, OnLineOf c a b → det a b e ≠ 0 → ¬ Same c e := by
    rintro c a b e h1 h2 ⟨k1, k2⟩
    apply h2
    unfold OnLineOf det at *
    rw [← k1, ← k2]; exact h1
  exact ⟨⟨⟨u, u0, u1, ex, ey⟩, away l2 n3, away l2 n4⟩, ⟨⟨t, t0, t1, rfl, rfl⟩, away l1 n1, away l1 n2⟩, l1, l2⟩

theorem onSegment_real {c p q : Coord ℚ} (h : OnSegment c p q) : OnSegment (realPt c) (realPt p) (realPt q) := by
  obtain ⟨t, t0, t1, hx, hy⟩ := h
  refine ⟨t, by exact_mod_cast t0, by exact_mod_cast t1, ?_, ?_⟩
  · show (c.x : ℝ) = (p.x : ℝ) + t * ((q.x : ℝ) - p.x); rw [hx]; push_cast; ring
  · show (c.y : ℝ) = (p.y : ℝ) + t * ((q.y : ℝ) - p.y); rw [hy]; push_cast; ring

/-- A faithful rounding stays between doubles. -/
theorem faithful_between {a b t x : ℚ} (fa : IsF64 a) (fb : IsF64 b) (t0 : 0 ≤ t) (t1 : t ≤ 1) (h : Faithful x (a + t * (b - a))) :
    min a b ≤ x ∧ x ≤ max a b := by
  rcases le_total a b with k | k
  · rw [min_eq_left k, max_eq_right k]
    exact ⟨h.below a fa (by nlinarith [mul_nonneg t0 (sub_nonneg.mpr k)]), h.above b fb (by nlinarith [mul_nonneg (sub_nonneg.mpr t1) (sub_nonneg.mpr k)])⟩
  · rw [min_eq_right k, max_eq_left k]
    exact ⟨h.below b fb (by nlinarith [mul_nonneg (sub_nonneg.mpr t1) (sub_nonneg.mpr k)]), h.above a fa (by nlinarith [mul_nonneg t0 (sub_nonneg.mpr k)])⟩

theorem box_covers {a b c d x y : ℚ} {u v : Coord (B64 sq hy)} (hu : u.x = Fl.fin a ∧ u.y = Fl.fin c) (hv : v.x = Fl.fin b ∧ v.y = Fl.fin d)
    (hx : min a b ≤ x ∧ x ≤ max a b) (hy' : min c d ≤ y ∧ y ≤ max c d) :
    (Env.newCoordinates u v).coversXY (Fl.fin x) (Fl.fin y) = true := by
  have key : ∀ a b : ℚ, (if (Fl.fin a : B64 sq hy) <. Fl.fin b then ((Fl.fin a : B64 sq hy), (Fl.fin b : B64 sq hy)) else (Fl.fin b, Fl.fin a)) =
      (Fl.fin (min a b), Fl.fin (max a b)) := by
    intro a b
    by_cases h : a < b
    · rw [if_pos (show ((Fl.fin a : B64 sq hy) <. Fl.fin b) = true from decide_eq_true h), min_eq_left h.le, max_eq_right h.le]
    · rw [if_neg (show ¬ ((Fl.fin a : B64 sq hy) <. Fl.fin b) = true from fun k => h (of_decide_eq_true k)),
        min_eq_right (not_lt.mp h), max_eq_left (not_lt.mp h)]
  unfold Env.newCoordinates
  rw [hu.1, hu.2, hv.1, hv.2, key, key]
  unfold Env.coversXY Env.isNull
  dsimp only
  rw [if_neg (show ¬ ((Fl.fin (max a b) : B64 sq hy) <. Fl.fin (min a b)) = true from
    fun k => absurd (of_decide_eq_true k) (not_lt.mpr (hx.1.trans hx.2)))]
  rw [Bool.and_eq_true, Bool.and_eq_true, Bool.and_eq_true]
  exact ⟨⟨⟨decide_eq_true hx.1, decide_eq_true hx.2⟩, decide_eq_true hy'.1⟩, decide_eq_true hy'.2⟩

/-- C85: a proper crossing of segments between grid points is reported as a faithful rounding of the exact crossing point, inside the boxes
of both segments. -/
theorem C85_crossing (g : ℤ) (h1 : -100 ≤ g) (h2 : g ≤ 100) (s : LI (B64 sq hy)) (hs : s.pm = none) (p1 p2 q1 q2 : Coord ℚ) (hp1 : OnGrid32 g p1)
    (hp2 : OnGrid32 g p2) (hq1 : OnGrid32 g q1) (hq2 : OnGrid32 g q2)
    (h : (s.compute4 (toB64 p1) (toB64 p2) (toB64 q1) (toB64 q2)).isProper = true) :
    ∃ c : Coord ℚ, (Inside c p1 p2 ∧ Inside c q1 q2 ∧
        ∀ c', OnSegment c' (realPt p1) (realPt p2) ∧ OnSegment c' (realPt q1) (realPt q2) → Same c' (realPt c)) ∧
      ∃ x y d, (s.compute4 (toB64 p1) (toB64 p2) (toB64 q1) (toB64 q2)).getIntersection 0 = .ok d ∧ d.x = Fl.fin x ∧ d.y = Fl.fin y ∧
        Faithful x c.x ∧ Faithful y c.y ∧
        (min p1.x p2.x ≤ x ∧ x ≤ max p1.x p2.x) ∧ (min p1.y p2.y ≤ y ∧ y ≤ max p1.y p2.y) ∧
        (min q1.x q2.x ≤ x ∧ x ≤ max q1.x q2.x) ∧ (min q1.y q2.y ≤ y ∧ y ≤ max q1.y q2.y) := by
  have uniq := (C66_segments_meet g (by omega) (by omega) s p1 p2 q1 q2 hp1.grid hp2.grid hq1.grid hq2.grid).2.mp h
  obtain ⟨⟨n1, n2, n3, n4⟩, s1, s2, -, e1, e2⟩ := proper_state s _ _ _ _ h
  rw [C65_index_on_grid g (by omega) (by omega) _ _ _ hp1.grid hp2.grid hq1.grid] at n1 s1
  rw [C65_index_on_grid g (by omega) (by omega) _ _ _ hp1.grid hp2.grid hq2.grid] at n2 s1
  rw [C65_index_on_grid g (by omega) (by omega) _ _ _ hq1.grid hq2.grid hp1.grid] at n3 s2
  rw [C65_index_on_grid g (by omega) (by omega) _ _ _ hq1.grid hq2.grid hp2.grid] at n4 s2
  simp only [gt_iff_lt, sgnq_pos, sgnq_neg] at s1 s2
  rw [ne_eq, sgn_zero] at n1 n2 n3 n4
  obtain ⟨hw, c, i1, i2, l1, l2⟩ := crossing_rational n1 n2 n3 n4 s1 s2
  obtain ⟨x, y, ei, hf⟩ := (C85_lines (sq := sq) (hy := hy) g h1 h2 p1 p2 q1 q2 hp1 hp2 hq1 hq2).2 hw
  obtain ⟨fx, fy⟩ := hf c l1 l2
  have f : ∀ {p : Coord ℚ}, OnGrid32 g p → IsF64 p.x ∧ IsF64 p.y := fun hp => ⟨hp.ord.1.f64 h1 h2, hp.ord.2.f64 h1 h2⟩
  have inbox : ∀ {a b : Coord ℚ}, OnGrid32 g a → OnGrid32 g b → OnSegment c a b →
      (min a.x b.x ≤ x ∧ x ≤ max a.x b.x) ∧ (min a.y b.y ≤ y ∧ y ≤ max a.y b.y) := by
    rintro a b ha hb ⟨t, t0, t1, tx, ty⟩
    rw [tx] at fx
    rw [ty] at fy
    exact ⟨faithful_between (f ha).1 (f hb).1 t0 t1 fx, faithful_between (f ha).2 (f hb).2 t0 t1 fy⟩
  obtain ⟨bp1, bp2⟩ := inbox hp1 hp2 i1.1
  obtain ⟨bq1, bq2⟩ := inbox hq1 hq2 i2.1
  refine ⟨c, ⟨i1, i2, ?_⟩, x, y, _, rfl, ?_, ?_, fx, fy, bp1, bp2, bq1, bq2⟩
  · obtain ⟨c0, -, -, hu⟩ := uniq
    intro c' hc'
    have k1 := hu c' hc'
    have k2 := hu (realPt c) ⟨onSegment_real i1.1, onSegment_real i2.1⟩
    exact ⟨k1.1.trans k2.1.symm, k1.2.trans k2.2.symm⟩
  all_goals
    first | rw [e1] | rw [e2]
    unfold LI.intersection LI.intersectionSafe
    rw [ei]
    dsimp only
    rw [hs]
    unfold LI.isInSegmentEnvelopes Env.coversCoordinate
    dsimp only
    rw [show (Coord.xy (Fl.fin x : B64 sq hy) (Fl.fin y)).x = Fl.fin x from rfl, show (Coord.xy (Fl.fin x : B64 sq hy) (Fl.fin y)).y = Fl.fin y from rfl,
      box_covers (a := p1.x) (b := p2.x) (c := p1.y) (d := p2.y) ⟨rfl, rfl⟩ ⟨rfl, rfl⟩ bp1 bp2,
      box_covers (a := q1.x) (b := q2.x) (c := q1.y) (d := q2.y) ⟨rfl, rfl⟩ ⟨rfl, rfl⟩ bq1 bq2]
    rfl

/-- C85: without a proper crossing the reported points are exact: ends of the given segments, unchanged. -/
theorem C85_touching (g : ℤ) (h1 : -484 ≤ g) (h2 : g ≤ 400) (s : LI (B64 sq hy)) (p1 p2 q1 q2 : Coord ℚ) (hp1 : OnGrid g p1) (hp2 : OnGrid g p2)
    (hq1 : OnGrid g q1) (hq2 : OnGrid g q2) (h : (s.compute4 (toB64 p1) (toB64 p2) (toB64 q1) (toB64 q2)).isProper = false) :
    ((s.compute4 (toB64 p1) (toB64 p2) (toB64 q1) (toB64 q2)).result = 1 → ∃ d ∈ [p1, p2, q1, q2], ∃ d',
      (s.compute4 (toB64 p1) (toB64 p2) (toB64 q1) (toB64 q2)).getIntersection 0 = .ok d' ∧ d'.x = Fl.fin d.x ∧ d'.y = Fl.fin d.y ∧
      ∀ c, (OnSegment c (realPt p1) (realPt p2) ∧ OnSegment c (realPt q1) (realPt q2)) ↔ Same c (realPt d)) ∧
    ((s.compute4 (toB64 p1) (toB64 p2) (toB64 q1) (toB64 q2)).result = 2 → ∃ d ∈ [p1, p2, q1, q2], ∃ e ∈ [p1, p2, q1, q2], ∃ d' e',
      (s.compute4 (toB64 p1) (toB64 p2) (toB64 q1) (toB64 q2)).getIntersection 0 = .ok d' ∧ d'.x = Fl.fin d.x ∧ d'.y = Fl.fin d.y ∧
      (s.compute4 (toB64 p1) (toB64 p2) (toB64 q1) (toB64 q2)).getIntersection 1 = .ok e' ∧ e'.x = Fl.fin e.x ∧ e'.y = Fl.fin e.y ∧
      ∀ c, (OnSegment c (realPt p1) (realPt p2) ∧ OnSegment c (realPt q1) (realPt q2)) ↔ OnSegment c (realPt d) (realPt e)) := by
  have sim := sim_grid_real (sq := sq) (hy := hy) g h1 h2
  obtain ⟨e1, e2⟩ := sim.compute4 s (LI.default : LI ℝ) ⟨p1, hp1⟩ ⟨p2, hp2⟩ ⟨q1, hq1⟩ ⟨q2, hq2⟩
  have pts := sim.points s (LI.default : LI ℝ) ⟨p1, hp1⟩ ⟨p2, hp2⟩ ⟨q1, hq1⟩ ⟨q2, hq2⟩
  have k := C38_points (LI.default : LI ℝ) (realPt p1) (realPt p2) (realPt q1) (realPt q2) rfl
  dsimp only at e1 e2 pts
  rw [e2] at h
  rw [e1]
  have mem : ∀ m : GridPt g, m ∈ [(⟨p1, hp1⟩ : GridPt g), ⟨p2, hp2⟩, ⟨q1, hq1⟩, ⟨q2, hq2⟩] → m.1 ∈ [p1, p2, q1, q2] := by
    intro m hm
    have := List.mem_map_of_mem (f := Subtype.val) hm
    exact this
  constructor
  · intro hr
    obtain ⟨m, hm, n, -, ⟨b1, b2⟩, -⟩ := pts h (by rw [hr]; decide)
    obtain ⟨d, hd, hc⟩ := k.1 hr
    refine ⟨m.1, mem m hm, _, rfl, b1.1, b1.2, fun c => (hc c).trans ?_⟩
    have hd' : (LI.default.compute4 (realPt p1) (realPt p2) (realPt q1) (realPt q2)).pt0 = d := Except.ok.inj hd
    rw [hd'] at b2
    unfold Same
    rw [b2.1, b2.2]
  · intro hr
    obtain ⟨m, hm, n, hn, ⟨b1, b2⟩, b3⟩ := pts h (by rw [hr]; decide)
    obtain ⟨b3, b4⟩ := b3 hr
    obtain ⟨d, e, hd, he, hc⟩ := k.2 hr
    refine ⟨m.1, mem m hm, n.1, mem n hn, _, _, rfl, b1.1, b1.2, rfl, b3.1, b3.2, fun c => (hc c).trans ?_⟩
    have hd' : (LI.default.compute4 (realPt p1) (realPt p2) (realPt q1) (realPt q2)).pt0 = d := Except.ok.inj hd
    have he' : (LI.default.compute4 (realPt p1) (realPt p2) (realPt q1) (realPt q2)).pt1 = e := Except.ok.inj he
    rw [hd'] at b2
    rw [he'] at b4
    unfold OnSegment
    rw [b2.1, b2.2, b4.1, b4.2]

/-! Examples -/

section examples
local notation "pt" => fun (x y : ℚ) => (Coord.xy x y : Coord ℚ)

example : OnGrid32 0 (pt 4294967295 (-4294967294)) := ⟨4294967295, -4294967294, by norm_num, by norm_num, by simp [Coord.xy], by simp [Coord.xy]⟩

/-- Two segments that cross at `(1/3, 2/3)`, which is no double. -/
example : ((LI.default : LI X64).compute4 (toB64 (pt 0 0)) (toB64 (pt 1 2)) (toB64 (pt 0 1)) (toB64 (pt 1 0))).isProper = true ∧
    ((LI.default : LI X64).compute4 (toB64 (pt 0 0)) (toB64 (pt 1 2)) (toB64 (pt 0 1)) (toB64 (pt 1 0))).pt0.x =
      Fl.fin (6004799503160661 / 2 ^ 54) := by decide +kernel

example : Inside (pt (1 / 3) (2 / 3)) (pt 0 0) (pt 1 2) ∧ Inside (pt (1 / 3) (2 / 3)) (pt 0 1) (pt 1 0) := by
  refine ⟨⟨⟨1 / 3, ?_⟩, ?_, ?_⟩, ⟨1 / 3, ?_⟩, ?_, ?_⟩ <;> norm_num [Coord.xy, Same]

/-- Nearly parallel lines through points of 32 bits; parallel lines. -/
example : (Intersection.intersection (toB64 (pt 0 0) : Coord X64) (toB64 (pt 4294967295 4294967294)) (toB64 (pt 1 0)) (toB64 (pt 4294967294 4294967293))).isSome = true ∧
    dirDet (pt 0 0) (pt 4294967295 4294967294) (pt 1 0) (pt 4294967294 4294967293) ≠ 0 ∧
    (Intersection.intersection (toB64 (pt 0 0) : Coord X64) (toB64 (pt 3 5)) (toB64 (pt 1 0)) (toB64 (pt 4 5))).isNone = true := by decide +kernel

/-- A touching end and an overlap. -/
example : ((LI.default : LI X64).compute4 (toB64 (pt 0 0)) (toB64 (pt 4 0)) (toB64 (pt 1 0)) (toB64 (pt 1 7))).result = 1 ∧
    ((LI.default : LI X64).compute4 (toB64 (pt 0 0)) (toB64 (pt 4 0)) (toB64 (pt 1 0)) (toB64 (pt 1 7))).isProper = false ∧
    ((LI.default : LI X64).compute4 (toB64 (pt 0 0)) (toB64 (pt 4 0)) (toB64 (pt 1 0)) (toB64 (pt 9 0))).result = 2 := by decide +kernel

end examples

end Verif.Props
