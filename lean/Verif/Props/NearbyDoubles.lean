import Verif.Props.DistanceDoubles
import Verif.Props.RingDoubles

/-! # C130: predicates are right away from a tiny neighbourhood of what they test -/

set_option linter.unusedSectionVars false

namespace Verif.Props
open Flt Verif.Spec Verif.Binary64
variable {sq : ℚ → Val} {hy : ℚ → ℚ → Val}

/-- Both ordinates are doubles of at most the size `M` and multiples of 2^-250 (as zero and every double of at least 2^-197 is, `fair_double`). -/
structure Fair (M : ℚ) (c : Coord ℚ) : Prop where
  pt : IsPoint c
  bx : |c.x| ≤ M
  by' : |c.y| ≤ M
  mx : Mul2 (-250) c.x
  my : Mul2 (-250) c.y

theorem Fair.moderate {M : ℚ} {c : Coord ℚ} (h : Fair M c) (hM : M ≤ 2 ^ 400) : IsModerate c :=
  ⟨h.pt, h.bx.trans (by exact_mod_cast hM), h.by'.trans (by exact_mod_cast hM)⟩

theorem fair_double {x : ℚ} (h : IsF64 x) (hx : x = 0 ∨ 2 ^ (-197 : ℤ) ≤ |x|) : Mul2 (-250) x := by
  rcases hx with rfl | hx
  · exact mul2_zero _
  obtain ⟨m, e, hm, -, rfl⟩ := h.1
  by_cases he : -250 ≤ e
  · exact Mul2.mono ⟨m, rfl⟩ he
  · exfalso
    have h1 : (2 : ℚ) ^ e ≤ 2 ^ (-251 : ℤ) := zpow_le_zpow_right₀ (by norm_num) (by omega)
    have h2 : |(m : ℚ)| ≤ 2 ^ (53 : ℤ) := by exact_mod_cast hm
    rw [abs_mul, abs_of_pos (two_pos e)] at hx
    have h3 : |(m : ℚ)| * 2 ^ e ≤ 2 ^ (53 : ℤ) * 2 ^ (-251 : ℤ) := mul_le_mul h2 h1 (two_pos e).le (two_pos 53).le
    rw [← two_add] at h3
    have h4 : (2 : ℚ) ^ (53 + -251 : ℤ) < 2 ^ (-197 : ℤ) := zpow_lt_zpow_right₀ (by norm_num) (by norm_num)
    linarith

theorem tame_of {a b c d : ℚ} (ha : Mul2 (-250) a) (hb : Mul2 (-250) b) (hc : Mul2 (-250) c) (hd : Mul2 (-250) d) : Tame (a - b) (c - d) := by
  obtain ⟨k, hk⟩ := ha
  obtain ⟨l, hl⟩ := hb
  obtain ⟨m, hm⟩ := hc
  obtain ⟨n, hn⟩ := hd
  have e : (a - b) * (c - d) = (((k - l) * (m - n) : ℤ) : ℚ) * 2 ^ (-500 : ℤ) := by
    rw [hk, hl, hm, hn, show (-500 : ℤ) = -250 + -250 by norm_num, two_add]
    push_cast; ring
  unfold Tame
  rw [e]
  by_cases h : (k - l) * (m - n) = 0
  · left; rw [h]; simp
  · right
    have h1 : (1 : ℚ) ≤ |(((k - l) * (m - n) : ℤ) : ℚ)| := by
      have := Int.one_le_abs h
      exact_mod_cast this
    rw [abs_mul, abs_of_pos (two_pos (-500))]
    have := mul_le_mul_of_nonneg_right h1 (two_pos (-500)).le
    rwa [one_mul] at this

/-- An orientation that is not decided: the determinant is tiny, and not by accident of a single point. -/
theorem undecided {M : ℚ} {a b p : Coord ℚ} (ha : Fair M a) (hb : Fair M b) (hp : Fair M p) (h : ¬ Decided a b p) :
    |det a b p| ≤ (|(b.x - a.x) * (p.y - b.y)| + |(b.y - a.y) * (p.x - b.x)|) / 2 ^ 100 ∧
      ¬ ((b.x - a.x) * (p.y - b.y) = 0 ∧ (b.y - a.y) * (p.x - b.x) = 0) := by
  have t1 := tame_of hb.mx ha.mx hp.my hb.my
  have t2 := tame_of hb.my ha.my hp.mx hb.mx
  have t3 := tame_of ha.mx hp.mx hb.my hp.my
  have t4 := tame_of ha.my hp.my hb.mx hp.mx
  unfold Decided at h
  push Not at h
  have := h.2 t1 t2 t3 t4
  unfold Resolved at this
  push Not at this
  exact ⟨this.1, fun k => this.2 k.1 k.2⟩

/-- The orientation as computed. -/
theorem index_undecided {M : ℚ} (hM : M ≤ 2 ^ 400) {a b p : Coord ℚ} (ha : Fair M a) (hb : Fair M b) (hp : Fair M p)
    (h : Orientation.index (toB64 a : Coord (B64 sq hy)) (toB64 b) (toB64 p) ≠ sgn (det a b p)) : ¬ Decided a b p := by
  intro k
  apply h
  rw [k.index (ha.moderate hM) (hb.moderate hM) (hp.moderate hM), C29_index_is_sign]

theorem gap_two {M x y : ℚ} (hx : |x| ≤ M) (hy : |y| ≤ M) : |x - y| ≤ 2 * M := by
  have := abs_sub x y; linarith

/-- A point with a tiny determinant is near the line. -/
theorem undecided_line {M : ℚ} {a b p : Coord ℚ} (ha : Fair M a) (hb : Fair M b) (hp : Fair M p) (h : ¬ Decided a b p) :
    ∃ φ, Tie (M / 2 ^ 98) (realPt p) (onLine (realPt a) (realPt b) φ) := by
  obtain ⟨h1, h2⟩ := undecided ha hb hp h
  set N := max |b.x - a.x| |b.y - a.y| with hN
  have M0 : 0 ≤ M := (abs_nonneg _).trans ha.bx
  have nx : |b.x - a.x| ≤ N := le_max_left _ _
  have ny : |b.y - a.y| ≤ N := le_max_right _ _
  have N0 : 0 < N := by
    by_contra k
    push Not at k
    have z1 : b.x - a.x = 0 := abs_eq_zero.mp (le_antisymm (nx.trans k) (abs_nonneg _))
    have z2 : b.y - a.y = 0 := abs_eq_zero.mp (le_antisymm (ny.trans k) (abs_nonneg _))
    exact h2 ⟨by rw [z1, zero_mul], by rw [z2, zero_mul]⟩
  have k1 : |(b.x - a.x) * (p.y - b.y)| ≤ N * (2 * M) := by
    rw [abs_mul]; exact mul_le_mul nx (gap_two hp.by' hb.by') (abs_nonneg _) N0.le
  have k2 : |(b.y - a.y) * (p.x - b.x)| ≤ N * (2 * M) := by
    rw [abs_mul]; exact mul_le_mul ny (gap_two hp.bx hb.bx) (abs_nonneg _) N0.le
  have k3 : |det a b p| ≤ M / 2 ^ 98 * N := by
    refine h1.trans ?_
    have : M / 2 ^ 98 * N = (N * (2 * M) + N * (2 * M)) / 2 ^ 100 := by ring
    rw [this]
    exact div_le_div_of_nonneg_right (add_le_add k1 k2) (by norm_num)
  have N0' : (0 : ℝ) < N := by exact_mod_cast N0
  refine near_line (N := N) N0' ?_ ?_ ?_ ?_
  · show |(b.x : ℝ) - a.x| ≤ N
    exact_mod_cast nx
  · show |(b.y : ℝ) - a.y| ≤ N
    exact_mod_cast ny
  · show (N : ℝ) * N ≤ ((b.x : ℝ) - a.x) * (b.x - a.x) + ((b.y : ℝ) - a.y) * (b.y - a.y)
    have : N * N ≤ (b.x - a.x) * (b.x - a.x) + (b.y - a.y) * (b.y - a.y) := by
      rcases max_choice |b.x - a.x| |b.y - a.y| with h | h <;> rw [hN, h, abs_mul_abs_self]
      · have := mul_self_nonneg (b.y - a.y); linarith
      · have := mul_self_nonneg (b.x - a.x); linarith
    exact_mod_cast this
  · have := (Rat.cast_le (K := ℝ)).mpr k3
    push_cast at this
    refine le_trans (le_of_eq ?_) this
    unfold det
    push_cast
    dsimp only [realPt]
    congr 1; ring

/-- C130: the orientation of three points is right if the third is not within `M / 2^97` of the line through the others. -/
theorem C130_orientation {M : ℚ} (hM : M ≤ 2 ^ 400) {a b p : Coord ℚ} (ha : Fair M a) (hb : Fair M b) (hp : Fair M p)
    (h : ∀ u, OnInfLine u (realPt a) (realPt b) → (M : ℝ) / 2 ^ 97 < dist (realPt p) u) :
    Orientation.index (toB64 a : Coord (B64 sq hy)) (toB64 b) (toB64 p) = sgn (det a b p) := by
  by_contra k
  obtain ⟨φ, hφ⟩ := undecided_line ha hb hp (index_undecided hM ha hb hp k)
  have := h (onLine (realPt a) (realPt b) φ) ⟨φ, rfl, rfl⟩
  have := dist_tie hφ
  linarith

/-- One ordinate of a point of the box that is near the line past its end. -/
theorem past_end {a b p z ν : ℝ} (h : |p - (a + z * (b - a))| ≤ ν) (hz : 1 ≤ z) (h1 : min a b ≤ p) (h2 : p ≤ max a b) : |p - b| ≤ ν := by
  rw [abs_le] at h ⊢
  rcases le_total a b with k | k
  · rw [min_eq_left k] at h1
    rw [max_eq_right k] at h2
    have : 0 ≤ (z - 1) * (b - a) := mul_nonneg (by linarith) (by linarith)
    constructor <;> linarith
  · rw [min_eq_right k] at h1
    rw [max_eq_left k] at h2
    have : 0 ≤ (z - 1) * (a - b) := mul_nonneg (by linarith) (by linarith)
    constructor <;> linarith

/-- A point of the box of a segment that is near its line is near the segment. -/
theorem boxed_tie {a b p : Coord ℝ} {φ ν : ℝ} (h : Tie ν p (onLine a b φ)) (hb : min a.x b.x ≤ p.x ∧ p.x ≤ max a.x b.x ∧ min a.y b.y ≤ p.y ∧ p.y ≤ max a.y b.y) :
    ∃ u, OnSegment u a b ∧ Tie ν p u := by
  obtain ⟨b1, b2, b3, b4⟩ := hb
  rcases lt_or_ge 1 φ with k | k
  · exact ⟨b, ⟨1, by norm_num, le_rfl, by ring, by ring⟩, past_end h.1 k.le b1 b2, past_end h.2 k.le b3 b4⟩
  · rcases lt_or_ge φ 0 with k' | k'
    · refine ⟨a, ⟨0, le_rfl, by norm_num, by ring, by ring⟩, ?_, ?_⟩
      · refine past_end (a := b.x) (b := a.x) (z := 1 - φ) ?_ (by linarith) (by rwa [min_comm]) (by rwa [max_comm])
        convert h.1 using 2
        dsimp only [onLine]; ring
      · refine past_end (a := b.y) (b := a.y) (z := 1 - φ) ?_ (by linarith) (by rwa [min_comm]) (by rwa [max_comm])
        convert h.2 using 2
        dsimp only [onLine]; ring
    · exact ⟨_, onLine_seg k' k, h⟩

/-- Some point of the segment is within `ν` of the point. -/
def NearSegment (ν : ℝ) (p a b : Coord ℝ) : Prop := ∃ u, OnSegment u a b ∧ dist p u ≤ ν

theorem boxed_real {a b p : Coord ℚ} (h : Boxed a b p) :
    min (realPt a).x (realPt b).x ≤ (realPt p).x ∧ (realPt p).x ≤ max (realPt a).x (realPt b).x ∧ min (realPt a).y (realPt b).y ≤ (realPt p).y ∧
      (realPt p).y ≤ max (realPt a).y (realPt b).y := by
  obtain ⟨h1, h2, h3, h4⟩ := h
  unfold realPt
  dsimp only
  simp only [← Rat.cast_min, ← Rat.cast_max, Rat.cast_le]
  exact ⟨h1, h2, h3, h4⟩

theorem undecided_boxed {M : ℚ} {a b p : Coord ℚ} (ha : Fair M a) (hb : Fair M b) (hp : Fair M p) (h : ¬ Decided a b p) (hbox : Boxed a b p) :
    NearSegment (M / 2 ^ 97) (realPt p) (realPt a) (realPt b) := by
  obtain ⟨φ, hφ⟩ := undecided_line ha hb hp h
  obtain ⟨u, hu, ht⟩ := boxed_tie hφ (boxed_real hbox)
  refine ⟨u, hu, (dist_tie ht).trans (le_of_eq ?_)⟩
  ring

theorem dist_same {a b : Coord ℝ} (h1 : a.x = b.x) (h2 : a.y = b.y) : dist a b = 0 := by
  unfold Spec.dist; rw [h1, h2]; simp

/-- C130: a point that is reported on a segment is within `M / 2^97` of it. -/
theorem C130_on_segment {M : ℚ} (hM : M ≤ 2 ^ 400) {a b p : Coord ℚ} (ha : Fair M a) (hb : Fair M b) (hp : Fair M p)
    (h : PointLocation.isOnSegment (toB64 p : Coord (B64 sq hy)) (toB64 a) (toB64 b) = true) : NearSegment (M / 2 ^ 97) (realPt p) (realPt a) (realPt b) := by
  have M0 : (0 : ℝ) ≤ M := by exact_mod_cast (abs_nonneg _).trans ha.bx
  have exact_on : OnSegment p a b → NearSegment (M / 2 ^ 97) (realPt p) (realPt a) (realPt b) := fun k =>
    ⟨realPt p, onSegment_real k, by rw [dist_same rfl rfl]; positivity⟩
  by_cases hd : Decided a b p
  · exact exact_on ((C99_on_segment p a b fun _ _ => ⟨ha.moderate hM, hb.moderate hM, hp.moderate hM, hd⟩).mp h)
  · refine undecided_boxed ha hb hp hd ?_
    unfold PointLocation.isOnSegment at h
    rw [intersects3_b64] at h
    by_contra k
    rw [if_pos (by
      have : ¬ Env.intersects3 a b p = true := fun hh => k ((intersects3_iff a b p).mp hh)
      simpa using this)] at h
    exact absurd h (by decide)

/-- C130: so is one that is reported on a line. -/
theorem C130_on_line {M : ℚ} (hM : M ≤ 2 ^ 400) {line : List (Coord ℚ)} {p : Coord ℚ} (hl : ∀ c ∈ line, Fair M c) (hp : Fair M p)
    (h : PointLocation.isOnLine (toB64 p : Coord (B64 sq hy)) (line.map toB64) = .ok true) :
    ∃ s ∈ segs line, NearSegment (M / 2 ^ 97) (realPt p) (realPt s.1) (realPt s.2) := by
  rw [isOnLine_any, segs_prod_map, List.any_map] at h
  have h := Except.ok.inj h
  rw [List.any_eq_true] at h
  obtain ⟨s, hs, hh⟩ := h
  exact ⟨s, hs, C130_on_segment hM (hl _ (mem_segs64 hs).1) (hl _ (mem_segs64 hs).2) hp hh⟩

/-- The arithmetic of a point beside a segment. -/
theorem beside_arith {M u w v t : ℚ} (u0 : 0 < u) (w0 : 0 < w) (v0 : 0 ≤ v) (t0 : 0 < t) (wM : w ≤ 2 * M) (tM : t ≤ 2 * M)
    (h : |v * w + t * u| ≤ (|(w - u) * t| + |(v + t) * w|) / 2 ^ 100) : u ≤ M / 2 ^ 97 ∧ v ≤ M / 2 ^ 97 := by
  have p1 : 0 ≤ v * w := mul_nonneg v0 w0.le
  have p2 : 0 < t * u := mul_pos t0 u0
  have p3 : 0 < w * t := mul_pos w0 t0
  have a1 : |(w - u) * t| ≤ w * t + t * u := by
    rw [abs_le]; constructor <;> linarith
  have a2 : |(v + t) * w| = v * w + w * t := by
    rw [abs_of_nonneg (by positivity)]; ring
  rw [abs_of_nonneg (by linarith), a2, le_div_iff₀ (by positivity)] at h
  have k : (v * w + t * u) * (2 ^ 100 - 1) ≤ 2 * (w * t) := by linarith
  have k1 : v * w * (2 ^ 100 - 1) ≤ 2 * t * w := by linarith
  have k2 : u * t * (2 ^ 100 - 1) ≤ 2 * w * t := by linarith
  have v1 : v * (2 ^ 100 - 1) ≤ 2 * t := le_of_mul_le_mul_right (by linarith) w0
  have u1 : u * (2 ^ 100 - 1) ≤ 2 * w := le_of_mul_le_mul_right (by linarith) t0
  constructor
  · rw [le_div_iff₀ (by positivity)]; linarith
  · rw [le_div_iff₀ (by positivity)]; linarith

/-- A point beside a segment, to the left of both ends, is near one of them if the determinant is tiny. -/
theorem beside {M : ℚ} {a b p : Coord ℚ} (hp : Fair M p) (hb : Fair M b) (hst : Straddles p b a) (l1 : p.x < a.x) (l2 : p.x < b.x)
    (h : |det a b p| ≤ (|(b.x - a.x) * (p.y - b.y)| + |(b.y - a.y) * (p.x - b.x)|) / 2 ^ 100) :
    (|p.x - a.x| ≤ M / 2 ^ 97 ∧ |p.y - a.y| ≤ M / 2 ^ 97) ∨ (|p.x - b.x| ≤ M / 2 ^ 97 ∧ |p.y - b.y| ≤ M / 2 ^ 97) := by
  have bx := (le_abs_self _).trans (gap_two hb.bx hp.bx)
  have by1 := (le_abs_self _).trans (gap_two hb.by' hp.by')
  have by2 := (le_abs_self _).trans (gap_two hp.by' hb.by')
  have M0 : 0 ≤ M / 2 ^ 97 := div_nonneg ((abs_nonneg _).trans hb.bx) (by norm_num)
  have e1 : |det a b p| = |(p.y - a.y) * (b.x - p.x) + (b.y - p.y) * (a.x - p.x)| := by
    unfold det; congr 1; ring
  have e2 : |det a b p| = |(a.y - p.y) * (b.x - p.x) + (p.y - b.y) * (a.x - p.x)| := by
    rw [e1, ← abs_neg]; congr 1; ring
  have f1 : |(b.x - a.x) * (p.y - b.y)| = |(b.x - p.x - (a.x - p.x)) * (b.y - p.y)| := by
    rw [← abs_neg]; congr 1; ring
  have f2 : |(b.x - a.x) * (p.y - b.y)| = |(b.x - p.x - (a.x - p.x)) * (p.y - b.y)| := by
    congr 1; ring
  have g1 : |(b.y - a.y) * (p.x - b.x)| = |(p.y - a.y + (b.y - p.y)) * (b.x - p.x)| := by
    rw [← abs_neg]; congr 1; ring
  have g2 : |(b.y - a.y) * (p.x - b.x)| = |(a.y - p.y + (p.y - b.y)) * (b.x - p.x)| := by
    congr 1; ring
  left
  rcases hst with ⟨k1, k2⟩ | ⟨k1, k2⟩
  · rw [e1, f1, g1] at h
    obtain ⟨r1, r2⟩ := beside_arith (sub_pos.mpr l1) (sub_pos.mpr l2) (sub_nonneg.mpr k2) (sub_pos.mpr k1) bx by1 h
    exact ⟨by rw [abs_le]; constructor <;> linarith, by rw [abs_le]; constructor <;> linarith⟩
  · rw [e2, f2, g2] at h
    rcases k2.lt_or_eq with k2 | k2
    · obtain ⟨r1, r2⟩ := beside_arith (sub_pos.mpr l1) (sub_pos.mpr l2) (sub_nonneg.mpr k1.le) (sub_pos.mpr k2) bx by2 h
      exact ⟨by rw [abs_le]; constructor <;> linarith, by rw [abs_le]; constructor <;> linarith⟩
    · exfalso
      have pos : 0 < (a.y - p.y) * (b.x - p.x) := mul_pos (sub_pos.mpr k1) (sub_pos.mpr l2)
      rw [k2, sub_self, mul_zero, zero_mul, add_zero, add_zero, abs_zero, zero_add, abs_of_pos pos, le_div_iff₀ (by positivity)] at h
      linarith

/-- C130: a point that is not within `M / 2^96` of a ring is located in it exactly. -/
theorem C130_locate {M : ℚ} (hM : M ≤ 2 ^ 400) {ring : List (Coord ℚ)} {p : Coord ℚ} (hr : ∀ c ∈ ring, Fair M c) (hp : Fair M p) (hc : Closed2D ring)
    (h : ∀ s ∈ segs ring, ¬ NearSegment (M / 2 ^ 96) (realPt p) (realPt s.1) (realPt s.2)) :
    PointLocation.locateInRing (toB64 p : Coord (B64 sq hy)) (ring.map toB64) =
      .ok (if crossings p ring % 2 = 1 then Location.INTERIOR else Location.EXTERIOR) := by
  have M0 : (0 : ℝ) ≤ M / 2 ^ 97 := by
    have : (0 : ℝ) ≤ M := by exact_mod_cast (abs_nonneg _).trans hp.bx
    positivity
  have e96 : (M : ℝ) / 2 ^ 96 = 2 * (M / 2 ^ 97) := by ring
  obtain ⟨loc, e, l1, l2, l3⟩ := C99_locate (sq := sq) (hy := hy) p ring (hp.moderate hM) (fun v hv => (hr v hv).moderate hM) hc (by
    intro s hs hst hn _
    have h1 := hr _ (mem_segs64 hs).1
    have h2 := hr _ (mem_segs64 hs).2
    by_contra hd
    apply h s hs
    by_cases hb : Boxed s.2 s.1 p
    · obtain ⟨u, hu, hle⟩ := undecided_boxed h2 h1 hp hd hb
      exact ⟨u, (onSegment_swap _ _ _).mp hu, hle.trans (by linarith)⟩
    · have hx : p.x < s.2.x ∧ p.x < s.1.x := by
        unfold Boxed at hb
        by_contra k
        apply hb
        rw [not_and_or, not_lt, not_lt] at k hn
        have yy : min s.2.y s.1.y ≤ p.y ∧ p.y ≤ max s.2.y s.1.y := by
          rcases hst with ⟨k1, k2⟩ | ⟨k1, k2⟩
          · exact ⟨(min_le_left _ _).trans k2, k1.le.trans (le_max_right _ _)⟩
          · exact ⟨(min_le_right _ _).trans k2, k1.le.trans (le_max_left _ _)⟩
        refine ⟨?_, ?_, yy⟩
        · rcases k with k | k
          · exact (min_le_left _ _).trans k
          · exact (min_le_right _ _).trans k
        · rcases hn with k | k
          · exact k.trans (le_max_right _ _)
          · exact k.trans (le_max_left _ _)
      have cast : ∀ {c : Coord ℚ}, |p.x - c.x| ≤ M / 2 ^ 97 ∧ |p.y - c.y| ≤ M / 2 ^ 97 → Tie ((M : ℝ) / 2 ^ 97) (realPt p) (realPt c) := by
        rintro c ⟨c1, c2⟩
        have c1 := (Rat.cast_le (K := ℝ)).mpr c1
        have c2 := (Rat.cast_le (K := ℝ)).mpr c2
        push_cast at c1 c2
        exact ⟨c1, c2⟩
      rcases beside hp h1 hst hx.1 hx.2 (undecided h2 h1 hp hd).1 with k | k
      · exact ⟨realPt s.2, ⟨1, by norm_num, le_rfl, by ring, by ring⟩, (dist_tie (cast k)).trans (le_of_eq e96.symm)⟩
      · exact ⟨realPt s.1, ⟨0, le_rfl, by norm_num, by ring, by ring⟩, (dist_tie (cast k)).trans (le_of_eq e96.symm)⟩)
  have off : ¬ OnLine p ring := by
    rintro ⟨s, hs, k⟩
    exact h s hs ⟨realPt p, onSegment_real k, by rw [dist_same rfl rfl]; linarith⟩
  rw [e]
  congr 1
  split_ifs with k
  · exact l2.mpr ⟨off, k⟩
  · exact l3.mpr ⟨off, by omega⟩

/-- C130: whether a closed ring runs counterclockwise is answered right, if every corner at its top is wider than `M / 2^97`. -/
theorem C130_ccw {M : ℚ} (hM : M ≤ 2 ^ 400) {r : List (Coord ℚ)} (hr : ∀ v ∈ r, Fair M v) (hc : Closed2D r)
    (h : ∀ s ∈ segs r, ∀ t ∈ segs r, (∀ q ∈ r, q.y ≤ s.2.y) → s.1.y < s.2.y → SamePlace s.2 t.1 → t.2.y < t.1.y → ¬ SamePlace s.1 t.2 →
      ∀ u, OnInfLine u (realPt s.1) (realPt s.2) → (M : ℝ) / 2 ^ 97 < dist (realPt t.2) u) :
    Orientation.isCCW (r.map toB64 : List (Coord (B64 sq hy))) = Orientation.isCCW r := by
  refine C99_isCCW r (fun v hv => (hr v hv).moderate hM) hc fun s hs t ht k1 k2 k3 k4 k5 => ?_
  by_contra hd
  obtain ⟨φ, hφ⟩ := undecided_line (hr _ (mem_segs64 hs).1) (hr _ (mem_segs64 hs).2) (hr _ (mem_segs64 ht).2) hd
  have := h s hs t ht k1 k2 k3 k4 k5 (onLine (realPt s.1) (realPt s.2) φ) ⟨φ, rfl, rfl⟩
  have := dist_tie hφ
  linarith

/-! ## Two segments -/

theorem tie_mono {ν ν' : ℝ} {u v : Coord ℝ} (h : Tie ν u v) (k : ν ≤ ν') : Tie ν' u v := ⟨h.1.trans k, h.2.trans k⟩

/-- A point with determinant zero is on the line. -/
theorem on_line_of_det {a b p : Coord ℝ} (hne : ¬ (a.x = b.x ∧ a.y = b.y)) (h : det a b p = 0) : ∃ φ, Tie 0 p (onLine a b φ) := by
  have N0 : 0 < max |b.x - a.x| |b.y - a.y| := by
    by_contra k
    push Not at k
    have z1 : b.x - a.x = 0 := abs_eq_zero.mp (le_antisymm ((le_max_left _ _).trans k) (abs_nonneg _))
    have z2 : b.y - a.y = 0 := abs_eq_zero.mp (le_antisymm ((le_max_right _ _).trans k) (abs_nonneg _))
    exact hne ⟨by linarith, by linarith⟩
  refine near_line N0 (le_max_left _ _) (le_max_right _ _) ?_ ?_
  · rcases max_choice |b.x - a.x| |b.y - a.y| with h | h <;> rw [h, abs_mul_abs_self]
    · have := mul_self_nonneg (b.y - a.y); linarith
    · have := mul_self_nonneg (b.x - a.x); linarith
  · rw [zero_mul]
    refine le_of_eq (abs_eq_zero.mpr ?_)
    unfold det at h
    linarith

/-- If the computed orientations of the ends of a segment do not put it on one side of a line, some point of the segment is near the line. -/
theorem side_tie {M : ℚ} (hM : M ≤ 2 ^ 400) {a b c d : Coord ℚ} (ha : Fair M a) (hb : Fair M b) (hc : Fair M c) (hd : Fair M d) (hne : ¬ (a.x = b.x ∧ a.y = b.y))
    (h : ¬ ((Orientation.index (toB64 a : Coord (B64 sq hy)) (toB64 b) (toB64 c) > 0 ∧ Orientation.index (toB64 a : Coord (B64 sq hy)) (toB64 b) (toB64 d) > 0) ∨
      (Orientation.index (toB64 a : Coord (B64 sq hy)) (toB64 b) (toB64 c) < 0 ∧ Orientation.index (toB64 a : Coord (B64 sq hy)) (toB64 b) (toB64 d) < 0))) :
    ∃ σ φ : ℝ, 0 ≤ σ ∧ σ ≤ 1 ∧ Tie (M / 2 ^ 98) (onLine (realPt c) (realPt d) σ) (onLine (realPt a) (realPt b) φ) := by
  have M0 : (0 : ℝ) ≤ M / 2 ^ 98 := by
    have : (0 : ℝ) ≤ M := by exact_mod_cast (abs_nonneg _).trans ha.bx
    positivity
  by_cases h1 : Decided a b c
  swap
  · obtain ⟨φ, k1, k2⟩ := undecided_line ha hb hc h1
    refine ⟨0, φ, le_rfl, by norm_num, ?_, ?_⟩
    · convert k1 using 2
      dsimp only [onLine]; ring
    · convert k2 using 2
      dsimp only [onLine]; ring
  by_cases h2 : Decided a b d
  swap
  · obtain ⟨φ, k1, k2⟩ := undecided_line ha hb hd h2
    refine ⟨1, φ, by norm_num, le_rfl, ?_, ?_⟩
    · convert k1 using 2
      dsimp only [onLine]; ring
    · convert k2 using 2
      dsimp only [onLine]; ring
  have e1 := h1.index (sq := sq) (hy := hy) (ha.moderate hM) (hb.moderate hM) (hc.moderate hM)
  have e2 := h2.index (sq := sq) (hy := hy) (ha.moderate hM) (hb.moderate hM) (hd.moderate hM)
  rw [e1, e2, C29_index_is_sign, C29_index_is_sign] at h
  have s1 : ∀ x : ℚ, sgn x > 0 ↔ 0 < x := by
    intro x; unfold sgn; split_ifs <;> simp <;> linarith
  have s2 : ∀ x : ℚ, sgn x < 0 ↔ x < 0 := by
    intro x; unfold sgn; split_ifs <;> simp <;> linarith
  rw [s1, s1, s2, s2] at h
  push Not at h
  -- a point of the segment on the line
  obtain ⟨σ, σ0, σ1, hσ⟩ : ∃ σ : ℚ, 0 ≤ σ ∧ σ ≤ 1 ∧ det a b c + σ * (det a b d - det a b c) = 0 := by
    generalize det a b c = u at h
    generalize det a b d = v at h
    by_cases k : u = v
    · refine ⟨0, le_rfl, by norm_num, ?_⟩
      subst k
      rcases lt_trichotomy u 0 with k | k | k
      · exact absurd (h.2 k) (not_le.mpr k)
      · rw [k]; ring
      · exact absurd (h.1 k) (not_le.mpr k)
    · have k' : u - v ≠ 0 := sub_ne_zero.mpr k
      have e : u + u / (u - v) * (v - u) = 0 := by field_simp; ring
      rcases lt_or_gt_of_ne k with l | l
      · have u0 : u ≤ 0 := by by_contra hh; push Not at hh; exact absurd (h.1 hh) (by linarith)
        have v0 : 0 ≤ v := by by_contra hh; push Not at hh; exact absurd (h.2 (by linarith)) (by linarith)
        exact ⟨u / (u - v), div_nonneg_of_nonpos u0 (by linarith), by rw [div_le_one_of_neg (by linarith)]; linarith, e⟩
      · have u0 : 0 ≤ u := by by_contra hh; push Not at hh; exact absurd (h.2 hh) (by linarith)
        have v0 : v ≤ 0 := by by_contra hh; push Not at hh; exact absurd (h.1 (by linarith)) (by linarith)
        exact ⟨u / (u - v), div_nonneg u0 (by linarith), by rw [div_le_one (by linarith)]; linarith, e⟩
  have hσ' : det (realPt a) (realPt b) (onLine (realPt c) (realPt d) σ) = 0 := by
    have : ((det a b c + σ * (det a b d - det a b c) : ℚ) : ℝ) = 0 := by rw [hσ]; simp
    rw [← this]
    unfold det
    dsimp only [onLine, realPt]
    push_cast
    ring
  obtain ⟨φ, hφ⟩ := on_line_of_det (a := realPt a) (b := realPt b) (by
    unfold realPt
    dsimp only
    simpa using hne) hσ'
  exact ⟨σ, φ, by exact_mod_cast σ0, by exact_mod_cast σ1, tie_mono hφ M0⟩

theorem real_box {a b p : Coord ℝ} (hab : a.x = b.x ∧ a.y = b.y) (h : BoxesTouch a b p p) : p.x = a.x ∧ p.y = a.y := by
  obtain ⟨⟨h1, h2⟩, h3, h4⟩ := h
  rw [← hab.1, min_self, max_self] at *
  rw [← hab.2, min_self, max_self] at *
  exact ⟨by linarith, by linarith⟩

/-- A report means that the boxes meet and the computed orientations put neither segment on one side of the other. -/
theorem reported {s : LI (B64 sq hy)} {a b c d : Coord ℚ} (h : (s.compute4 (toB64 a) (toB64 b) (toB64 c) (toB64 d)).hasIntersection = true) :
    Env.intersects4 a b c d = true ∧
    (¬ ((Orientation.index (toB64 a : Coord (B64 sq hy)) (toB64 b) (toB64 c) > 0 ∧ Orientation.index (toB64 a : Coord (B64 sq hy)) (toB64 b) (toB64 d) > 0) ∨
      (Orientation.index (toB64 a : Coord (B64 sq hy)) (toB64 b) (toB64 c) < 0 ∧ Orientation.index (toB64 a : Coord (B64 sq hy)) (toB64 b) (toB64 d) < 0))) ∧
    ¬ ((Orientation.index (toB64 c : Coord (B64 sq hy)) (toB64 d) (toB64 a) > 0 ∧ Orientation.index (toB64 c : Coord (B64 sq hy)) (toB64 d) (toB64 b) > 0) ∨
      (Orientation.index (toB64 c : Coord (B64 sq hy)) (toB64 d) (toB64 a) < 0 ∧ Orientation.index (toB64 c : Coord (B64 sq hy)) (toB64 d) (toB64 b) < 0)) := by
  unfold LI.hasIntersection at h
  rw [decide_eq_true_iff] at h
  unfold LI.compute4 LI.computeIntersect at h
  dsimp only at h
  rw [intersects4_b64] at h
  by_cases k1 : Env.intersects4 a b c d = true
  swap
  · rw [if_pos (by simpa using k1)] at h
    exact absurd rfl h
  refine ⟨k1, ?_⟩
  rw [if_neg (by simpa using k1)] at h
  constructor
  · intro k
    rw [if_pos k] at h
    exact absurd rfl h
  · intro k
    rw [if_pos k] at h
    exact h (by split_ifs <;> rfl)

/-- Some points of the two segments are within `ν` of each other. -/
def NearSegments (ν : ℝ) (a b c d : Coord ℝ) : Prop := ∃ u v, OnSegment u a b ∧ OnSegment v c d ∧ dist u v ≤ ν

theorem boxes_swap {a b c d : Coord ℝ} (h : BoxesTouch a b c d) : BoxesTouch c d a b := ⟨⟨h.1.2, h.1.1⟩, h.2.2, h.2.1⟩

theorem point_boxed {a b c d : Coord ℝ} (hab : a.x = b.x ∧ a.y = b.y) (h : BoxesTouch a b c d) :
    min c.x d.x ≤ a.x ∧ a.x ≤ max c.x d.x ∧ min c.y d.y ≤ a.y ∧ a.y ≤ max c.y d.y := by
  obtain ⟨⟨h1, h2⟩, h3, h4⟩ := h
  rw [← hab.1, min_self] at h1
  rw [← hab.1, max_self] at h2
  rw [← hab.2, min_self] at h3
  rw [← hab.2, max_self] at h4
  exact ⟨h2, h1, h4, h3⟩

theorem ends_on {a b : Coord ℝ} : OnSegment a a b ∧ OnSegment b a b :=
  ⟨⟨0, le_rfl, by norm_num, by ring, by ring⟩, ⟨1, by norm_num, le_rfl, by ring, by ring⟩⟩

theorem report_tie {M : ℚ} (hM : M ≤ 2 ^ 400) {a b c d : Coord ℚ} (ha : Fair M a) (hb : Fair M b) (hc : Fair M c) (hd : Fair M d) {s : LI (B64 sq hy)}
    (h : (s.compute4 (toB64 a) (toB64 b) (toB64 c) (toB64 d)).hasIntersection = true) :
    SegmentsTie (M / 2 ^ 98) (realPt a) (realPt b) (realPt c) (realPt d) := by
  obtain ⟨h1, h2, h3⟩ := reported h
  have M0 : (0 : ℝ) ≤ M / 2 ^ 98 := by
    have : (0 : ℝ) ≤ M := by exact_mod_cast (abs_nonneg _).trans ha.bx
    positivity
  have box := boxes_real.mp h1
  have point : ∀ {a b c d : Coord ℚ}, a.x = b.x ∧ a.y = b.y → (realPt a).x = (realPt b).x ∧ (realPt a).y = (realPt b).y := by
    intro a b _ _ h; unfold realPt; dsimp only; rw [h.1, h.2]; simp
  -- a single point and a segment
  have single : ∀ {a b c d : Coord ℚ}, a.x = b.x ∧ a.y = b.y → BoxesTouch (realPt a) (realPt b) (realPt c) (realPt d) →
      (¬ (c.x = d.x ∧ c.y = d.y) → ∃ σ φ : ℝ, 0 ≤ σ ∧ σ ≤ 1 ∧ Tie (M / 2 ^ 98) (onLine (realPt a) (realPt b) σ) (onLine (realPt c) (realPt d) φ)) →
      SegmentsTie (M / 2 ^ 98) (realPt a) (realPt b) (realPt c) (realPt d) := by
    intro a b c d e box k
    have pb := point_boxed (point (c := c) (d := d) e) box
    by_cases e' : c.x = d.x ∧ c.y = d.y
    · have f := point (c := a) (d := b) e'
      rw [← f.1, ← f.2, min_self, max_self, min_self, max_self] at pb
      refine ⟨realPt a, realPt c, ends_on.1, ends_on.1, ?_, ?_⟩
      · rw [le_antisymm pb.2.1 pb.1, sub_self, abs_zero]; exact M0
      · rw [le_antisymm pb.2.2.2 pb.2.2.1, sub_self, abs_zero]; exact M0
    · obtain ⟨σ, φ, -, -, t1, t2⟩ := k e'
      have f := point (c := a) (d := b) e
      obtain ⟨u, hu, ht⟩ := boxed_tie (a := realPt c) (b := realPt d) (p := realPt a) (φ := φ) (ν := M / 2 ^ 98) ⟨by
        convert t1 using 2
        dsimp only [onLine] at f ⊢
        rw [← f.1]; ring, by
        convert t2 using 2
        dsimp only [onLine] at f ⊢
        rw [← f.2]; ring⟩ pb
      exact ⟨realPt a, u, ends_on.1, hu, ht⟩
  by_cases e1 : a.x = b.x ∧ a.y = b.y
  · exact single e1 box fun e2 => side_tie hM hc hd ha hb e2 h3
  by_cases e2 : c.x = d.x ∧ c.y = d.y
  · obtain ⟨u, v, hu, hv, ht⟩ := single e2 (boxes_swap box) fun e2 => side_tie hM ha hb hc hd e2 h2
    exact ⟨v, u, hv, hu, ht.symm⟩
  obtain ⟨σ, γ, σ0, σ1, t1⟩ := side_tie hM ha hb hc hd e1 h2
  obtain ⟨ρ, φ, ρ0, ρ1, t2⟩ := side_tie hM hc hd ha hb e2 h3
  exact segments_tie ρ0 ρ1 σ0 σ1 t2 t1.symm box

/-- C130: segments that are reported to intersect have points within `M / 2^97` of each other. -/
theorem C130_meet {M : ℚ} (hM : M ≤ 2 ^ 400) {a b c d : Coord ℚ} (ha : Fair M a) (hb : Fair M b) (hc : Fair M c) (hd : Fair M d) {s : LI (B64 sq hy)}
    (h : (s.compute4 (toB64 a) (toB64 b) (toB64 c) (toB64 d)).hasIntersection = true) :
    NearSegments (M / 2 ^ 97) (realPt a) (realPt b) (realPt c) (realPt d) := by
  obtain ⟨u, v, hu, hv, ht⟩ := report_tie hM ha hb hc hd h
  refine ⟨u, v, hu, hv, (dist_tie ht).trans (le_of_eq ?_)⟩
  ring

theorem Decided.settled {M : ℚ} (hM : M ≤ 2 ^ 400) {a b p : Coord ℚ} (ha : Fair M a) (hb : Fair M b) (hp : Fair M p) (h : Decided a b p) : Settled a b p :=
  Or.inr ⟨ha.moderate hM, hb.moderate hM, hp.moderate hM, h⟩

theorem missed_tie {M : ℚ} (hM : M ≤ 2 ^ 400) {a b c d : Coord ℚ} (ha : Fair M a) (hb : Fair M b) (hc : Fair M c) (hd : Fair M d) {s : LI (B64 sq hy)}
    (h : (s.compute4 (toB64 a) (toB64 b) (toB64 c) (toB64 d)).hasIntersection = false)
    (hx : ∃ p, OnSegment p (realPt a) (realPt b) ∧ OnSegment p (realPt c) (realPt d)) :
    EndTie (M / 2 ^ 98) (realPt a) (realPt b) (realPt c) (realPt d) := by
  obtain ⟨x, ⟨ρ, ρ0, ρ1, xa, ya⟩, ⟨σ, σ0, σ1, xc, yc⟩⟩ := hx
  have meet : onLine (realPt a) (realPt b) ρ = onLine (realPt c) (realPt d) σ := by
    unfold onLine
    rw [Coord.mk.injEq]
    exact ⟨xa.symm.trans xc, ya.symm.trans yc, rfl, rfl⟩
  by_cases d1 : Decided a b c
  swap
  · obtain ⟨φ, hφ⟩ := undecided_line ha hb hc d1
    refine ((end_tie (ρ := 1 - σ) (σ := ρ) (by linarith) (by linarith) ρ0 ρ1 ?_ hφ).swapL).swap
    rw [onLine_swap]; exact meet.symm
  by_cases d2 : Decided a b d
  swap
  · obtain ⟨φ, hφ⟩ := undecided_line ha hb hd d2
    exact (end_tie σ0 σ1 ρ0 ρ1 meet.symm hφ).swap
  by_cases d3 : Decided c d a
  swap
  · obtain ⟨φ, hφ⟩ := undecided_line hc hd ha d3
    refine (end_tie (ρ := 1 - ρ) (σ := σ) (by linarith) (by linarith) σ0 σ1 ?_ hφ).swapL
    rw [onLine_swap]; exact meet
  by_cases d4 : Decided c d b
  swap
  · obtain ⟨φ, hφ⟩ := undecided_line hc hd hb d4
    exact end_tie ρ0 ρ1 σ0 σ1 meet hφ
  exfalso
  have turns := SettledPair.turns (sq := sq) (hy := hy) ha.pt hb.pt hc.pt hd.pt (fun _ =>
    ⟨d1.settled hM ha hb hc, d2.settled hM ha hb hd, fun _ => ⟨d3.settled hM hc hd ha, d4.settled hM hc hd hb⟩⟩)
  obtain ⟨e, -⟩ := (simOrd_real (sq := sq) (hy := hy)).compute4_at s (LI.default : LI ℝ) ⟨a, ha.pt⟩ ⟨b, hb.pt⟩ ⟨c, hc.pt⟩ ⟨d, hd.pt⟩ turns
  have k := (C38_none_iff_disjoint (LI.default : LI ℝ) (realPt a) (realPt b) (realPt c) (realPt d)).2.mpr ⟨x, ⟨ρ, ρ0, ρ1, xa, ya⟩, ⟨σ, σ0, σ1, xc, yc⟩⟩
  unfold LI.hasIntersection at k h
  rw [decide_eq_true_iff] at k
  rw [decide_eq_false_iff_not] at h
  apply h
  intro h
  exact k (e.symm.trans h)

/-- C130: segments that meet are reported to, unless an end of one of them is within `M / 2^97` of the other. -/
theorem C130_found {M : ℚ} (hM : M ≤ 2 ^ 400) {a b c d : Coord ℚ} (ha : Fair M a) (hb : Fair M b) (hc : Fair M c) (hd : Fair M d) (s : LI (B64 sq hy))
    (hx : ∃ p, OnSegment p (realPt a) (realPt b) ∧ OnSegment p (realPt c) (realPt d))
    (n1 : ¬ NearSegment (M / 2 ^ 97) (realPt a) (realPt c) (realPt d)) (n2 : ¬ NearSegment (M / 2 ^ 97) (realPt b) (realPt c) (realPt d))
    (n3 : ¬ NearSegment (M / 2 ^ 97) (realPt c) (realPt a) (realPt b)) (n4 : ¬ NearSegment (M / 2 ^ 97) (realPt d) (realPt a) (realPt b)) :
    (s.compute4 (toB64 a) (toB64 b) (toB64 c) (toB64 d)).hasIntersection = true := by
  by_contra h
  have e : (M : ℝ) / 2 ^ 97 = 2 * (M / 2 ^ 98) := by ring
  rw [e] at n1 n2 n3 n4
  obtain ⟨v, ⟨h1, h2 | h2⟩ | ⟨h1, h2 | h2⟩⟩ := missed_tie hM ha hb hc hd (by simpa using h) hx
  · exact n1 ⟨v, h1, dist_tie h2⟩
  · exact n2 ⟨v, h1, dist_tie h2⟩
  · exact n3 ⟨v, h1, dist_tie h2⟩
  · exact n4 ⟨v, h1, dist_tie h2⟩

/-! ## Concrete cases -/

local notation "pt" => (Coord.xy : ℚ → ℚ → Coord ℚ)

/-- Every point of the line is farther away than the determinant over the size of the segment. -/
theorem far_line {a b p u : Coord ℝ} {κ : ℝ} (h : κ * (|b.x - a.x| + |b.y - a.y|) < |det a b p|) (hu : OnInfLine u a b) : κ < dist p u := by
  obtain ⟨t, tx, ty⟩ := hu
  have e : det a b p = (b.x - a.x) * (p.y - u.y) - (b.y - a.y) * (p.x - u.x) := by
    unfold det; rw [tx, ty]; ring
  have dx : |p.x - u.x| ≤ dist p u := by
    unfold Spec.dist
    exact Real.abs_le_sqrt (by have := mul_self_nonneg (p.y - u.y); nlinarith)
  have dy : |p.y - u.y| ≤ dist p u := by
    unfold Spec.dist
    exact Real.abs_le_sqrt (by have := mul_self_nonneg (p.x - u.x); nlinarith)
  have k : |det a b p| ≤ dist p u * (|b.x - a.x| + |b.y - a.y|) := by
    rw [e]
    refine (abs_sub _ _).trans ?_
    rw [abs_mul, abs_mul]
    have := mul_le_mul_of_nonneg_left dy (abs_nonneg (b.x - a.x))
    have := mul_le_mul_of_nonneg_left dx (abs_nonneg (b.y - a.y))
    linarith
  have n : 0 ≤ |b.x - a.x| + |b.y - a.y| := by positivity
  by_contra c
  push Not at c
  have := mul_le_mul_of_nonneg_right c n
  linarith

theorem far_segment {a b p : Coord ℝ} {κ : ℝ} (h : κ * (|b.x - a.x| + |b.y - a.y|) < |det a b p|) : ¬ NearSegment κ p a b := by
  rintro ⟨u, ⟨t, -, -, t1, t2⟩, k⟩
  have := far_line h ⟨t, t1, t2⟩
  linarith

theorem fair_of {M x y : ℚ} {i j : ℤ} (hx : x = i) (hy : y = j) (fx : IsF64 x) (fy : IsF64 y) (bx : |x| ≤ M) (by' : |y| ≤ M) : Fair M (Coord.xy x y) := by
  have m : ∀ k : ℤ, Mul2 (-250) (k : ℚ) := fun k => ⟨k * 2 ^ 250, by push_cast; rw [zpow_neg]; field_simp; norm_num⟩
  exact ⟨⟨fx, fy⟩, bx, by', hx ▸ m i, hy ▸ m j⟩

theorem ex_fair (x y : ℚ) (h : ((x = 0 ∨ x = 1 ∨ x = 2 ∨ x = 3 ∨ x = 4) ∧ (y = 0 ∨ y = 1 ∨ y = 2 ∨ y = 3 ∨ y = 4))) : Fair 4 (pt x y) := by
  have f : ∀ z : ℚ, (z = 0 ∨ z = 1 ∨ z = 2 ∨ z = 3 ∨ z = 4) → IsF64 z ∧ |z| ≤ 4 ∧ ∃ k : ℤ, z = k := by
    rintro z (rfl | rfl | rfl | rfl | rfl)
    · exact ⟨f64_of (by decide +kernel), by norm_num, 0, by norm_num⟩
    · exact ⟨f64_of (by decide +kernel), by norm_num, 1, by norm_num⟩
    · exact ⟨f64_of (by decide +kernel), by norm_num, 2, by norm_num⟩
    · exact ⟨f64_of (by decide +kernel), by norm_num [abs_of_pos], 3, by norm_num⟩
    · exact ⟨f64_of (by decide +kernel), by norm_num [abs_of_pos], 4, by norm_num⟩
  obtain ⟨a1, a2, i, a3⟩ := f x h.1
  obtain ⟨b1, b2, j, b3⟩ := f y h.2
  exact fair_of a3 b3 a1 b1 a2 b2

example : Orientation.index (toB64 (pt 0 0) : Coord (B64 sq hy)) (toB64 (pt 3 1)) (toB64 (pt 1 2)) = 1 := by
  rw [C130_orientation (M := 4) (by decide +kernel) (ex_fair _ _ (by norm_num)) (ex_fair _ _ (by norm_num)) (ex_fair _ _ (by norm_num)) fun u hu =>
    far_line (by simp [realPt, det, Coord.xy]; norm_num [abs_of_pos]) hu]
  decide +kernel

example : PointLocation.isOnSegment (toB64 (pt 2 1) : Coord X64) (toB64 (pt 0 0)) (toB64 (pt 4 2)) = true := by decide +kernel

example : PointLocation.locateInRing (toB64 (pt 2 1) : Coord (B64 sq hy)) ([pt 0 0, pt 4 0, pt 2 3, pt 0 0].map toB64) = .ok Location.INTERIOR := by
  rw [C130_locate (M := 4) (by decide +kernel) (by
    intro c hc
    simp only [List.mem_cons, List.not_mem_nil, or_false] at hc
    rcases hc with rfl | rfl | rfl | rfl <;> exact ex_fair _ _ (by norm_num)) (ex_fair _ _ (by norm_num)) (by intro a b; rintro ⟨⟩ ⟨⟩; exact ⟨rfl, rfl⟩) (by
    intro s hs
    simp only [segs, List.tail_cons, List.zip_cons_cons, List.zip_nil_right, List.mem_cons, List.not_mem_nil, or_false] at hs
    rcases hs with rfl | rfl | rfl <;> exact far_segment (by simp [realPt, det, Coord.xy]; norm_num [abs_of_pos, abs_of_neg]))]
  decide +kernel

example : Orientation.isCCW ([pt 0 0, pt 4 0, pt 2 3, pt 0 0].map toB64 : List (Coord (B64 sq hy))) = .ok true := by
  rw [C130_ccw (M := 4) (by decide +kernel) (by
    intro c hc
    simp only [List.mem_cons, List.not_mem_nil, or_false] at hc
    rcases hc with rfl | rfl | rfl | rfl <;> exact ex_fair _ _ (by norm_num)) (by intro a b; rintro ⟨⟩ ⟨⟩; exact ⟨rfl, rfl⟩) (by
    intro s hs t ht k1 k2 k3 k4 k5 u
    simp only [segs, List.tail_cons, List.zip_cons_cons, List.zip_nil_right, List.mem_cons, List.not_mem_nil, or_false] at hs ht
    have k6 := k1 (pt 2 3) (by simp)
    rcases hs with rfl | rfl | rfl
    · exact absurd k6 (by simp [Coord.xy])
    · rcases ht with rfl | rfl | rfl
      · exact absurd k4 (by simp [Coord.xy])
      · exact absurd k4 (by simp [Coord.xy])
      · exact far_line (by simp [realPt, det, Coord.xy]; norm_num [abs_of_pos, abs_of_neg])
    · exact absurd k6 (by simp [Coord.xy]))]
  decide +kernel

example : ((LI.default : LI X64).compute4 (toB64 (pt 0 0)) (toB64 (pt 4 4)) (toB64 (pt 0 3)) (toB64 (pt 4 0))).hasIntersection = true := by decide +kernel

example (s : LI (B64 sq hy)) : (s.compute4 (toB64 (pt 0 0)) (toB64 (pt 4 4)) (toB64 (pt 0 4)) (toB64 (pt 4 0))).hasIntersection = true := by
  refine C130_found (M := 4) (by decide +kernel) (ex_fair _ _ (by norm_num)) (ex_fair _ _ (by norm_num)) (ex_fair _ _ (by norm_num)) (ex_fair _ _ (by norm_num)) s
    ⟨realPt (pt 2 2), ⟨1 / 2, by norm_num, by norm_num, by simp [realPt, Coord.xy]; norm_num, by simp [realPt, Coord.xy]; norm_num⟩,
      ⟨1 / 2, by norm_num, by norm_num, by simp [realPt, Coord.xy]; norm_num, by simp [realPt, Coord.xy]; norm_num⟩⟩ ?_ ?_ ?_ ?_ <;>
  exact far_segment (by simp [realPt, det, Coord.xy]; norm_num [abs_of_pos, abs_of_neg])

end Verif.Props
