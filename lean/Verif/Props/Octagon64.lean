import Verif.Props.DistanceDoubles
import Verif.Props.OctagonalEnvelope
import Verif.Props.Envelope64

/-! # C119: octagonal envelopes in binary64

Sums and differences of ordinates are rounded (and may overflow); comparisons are exact. -/

set_option linter.unusedSectionVars false

namespace Verif.Props
open Flt Verif.Spec Verif.Binary64

variable {sq : ℚ → Val} {hy : ℚ → ℚ → Val}

local notation "R" => (Fl.round (r := binary64 sq hy))

/-- The exact value of a point along an axis. -/
def Axis.at (k : Axis) (p : Coord ℚ) : ℚ := match k with | .x => p.x | .y => p.y | .sum => p.x + p.y | .diff => p.x - p.y

/-- Both ordinates are doubles. -/
def Double2 (p : Coord ℚ) : Prop := IsF64 p.x ∧ IsF64 p.y

/-- The point is within the exact octagon of the points, up to a slack `t k` along the axis `k`. -/
def InOct (ps : List (Coord ℚ)) (t : Axis → ℝ) (p : Coord ℚ) : Prop :=
  ∀ k : Axis, (∃ q ∈ ps, (k.at q : ℝ) ≤ k.at p + t k) ∧ ∃ q ∈ ps, (k.at p : ℝ) ≤ k.at q + t k

/-- The point belongs to every half plane to which all the points belong. -/
def InHull (ps : List (Coord ℚ)) (p : Coord ℚ) : Prop := ∀ a b c : ℚ, (∀ q ∈ ps, a * q.x + b * q.y ≤ c) → a * p.x + b * p.y ≤ c

theorem axis_rnd (k : Axis) {p : Coord ℚ} (hp : Double2 p) : k.of (toB64 p : Coord (B64 sq hy)) = R (k.at p) := by
  cases k
  · exact fin_rnd hp.1
  · exact fin_rnd hp.2
  · exact add_rnd _ _
  · exact sub_rnd _ _

theorem rnd_nn (q : ℚ) : isNaN (R q) = false := by
  unfold Fl.round binary64 rnd
  simp only []
  split_ifs <;> rfl

theorem measurable64 {p : Coord ℚ} (hp : Double2 p) : Measurable4 (toB64 p : Coord (B64 sq hy)) := fun k => by rw [axis_rnd k hp]; exact rnd_nn _

theorem le_trans64 {x y z : B64 sq hy} (h : (x ≤. y) = true) (h' : (y ≤. z) = true) : (x ≤. z) = true := by
  cases x <;> cases y <;> cases z <;> first | rfl | exact absurd h Bool.false_ne_true | exact absurd h' Bool.false_ne_true | skip
  exact decide_eq_true ((of_decide_eq_true h).trans (of_decide_eq_true h'))

theorem least_at (f : Coord ℚ → ℚ) {l : List (Coord ℚ)} (h : l ≠ []) : ∃ q ∈ l, ∀ r ∈ l, f q ≤ f r := by
  induction l with
  | nil => exact absurd rfl h
  | cons a l ih =>
    by_cases hl : l = []
    · subst hl
      exact ⟨a, by simp, by simp⟩
    · obtain ⟨q, hq, k⟩ := ih hl
      by_cases c : f a ≤ f q
      · refine ⟨a, by simp, fun r hr => ?_⟩
        rcases List.mem_cons.mp hr with rfl | hr
        · exact le_rfl
        · exact c.trans (k r hr)
      · refine ⟨q, by simp [hq], fun r hr => ?_⟩
        rcases List.mem_cons.mp hr with rfl | hr
        · exact (not_le.mp c).le
        · exact k r hr

theorem le_antisymm64 {x y : B64 sq hy} (h : (x ≤. y) = true) (h' : (y ≤. x) = true) : x = y := by
  refine le_eq h fun c => ?_
  rw [le_not_lt h'] at c
  exact Bool.false_ne_true c

section octagon
variable {ps : List (Coord ℚ)} (hps : ∀ q ∈ ps, Double2 q)
include hps

theorem measurable_maps : ∀ q ∈ (ps.map toB64 : List (Coord (B64 sq hy))), Measurable4 q := by
  intro q hq
  obtain ⟨p, hp, rfl⟩ := List.mem_map.mp hq
  exact measurable64 (hps p hp)

/-- C119: along each axis the bounds are the rounded values of the least and the greatest exact value. -/
theorem C119_bounds (hne : ps ≠ []) (k : Axis) :
    (∃ q ∈ ps, k.lo (octOf (ps.map toB64) : Oct (B64 sq hy)) = R (k.at q) ∧ ∀ r ∈ ps, k.at q ≤ k.at r) ∧
    (∃ q ∈ ps, k.hi (octOf (ps.map toB64) : Oct (B64 sq hy)) = R (k.at q) ∧ ∀ r ∈ ps, k.at r ≤ k.at q) := by
  obtain ⟨-, b⟩ := C47_bounds_partial (α := B64 sq hy) rfl (ps.map toB64) (by simpa using hne) (measurable_maps hps)
  obtain ⟨⟨q₁, h₁, e₁⟩, ⟨q₂, h₂, e₂⟩, b⟩ := b k
  obtain ⟨p₁, m₁, rfl⟩ := List.mem_map.mp h₁
  obtain ⟨p₂, m₂, rfl⟩ := List.mem_map.mp h₂
  obtain ⟨u, mu, lu⟩ := least_at k.at hne
  obtain ⟨w, mw, lw⟩ := least_at (fun q => -k.at q) hne
  refine ⟨⟨u, mu, ?_, lu⟩, ⟨w, mw, ?_, fun r hr => neg_le_neg_iff.mp (lw r hr)⟩⟩
  · have := (b (toB64 u) (List.mem_map_of_mem mu)).1
    rw [axis_rnd k (hps u mu)] at this
    refine le_antisymm64 this ?_
    rw [e₁, axis_rnd k (hps _ m₁)]
    exact rnd_le (lu _ m₁)
  · have := (b (toB64 w) (List.mem_map_of_mem mw)).2
    rw [axis_rnd k (hps w mw)] at this
    refine le_antisymm64 ?_ this
    rw [e₂, axis_rnd k (hps _ m₂)]
    exact rnd_le (neg_le_neg_iff.mp (lw _ m₂))

theorem accept_iff (hne : ps ≠ []) {p : Coord ℚ} (hp : Double2 p) :
    (octOf (ps.map toB64) : Oct (B64 sq hy)).intersectsCoordinate (toB64 p) = true ↔
      ∀ k : Axis, (∃ q ∈ ps, (R (k.at q) ≤. R (k.at p)) = true) ∧ ∃ q ∈ ps, (R (k.at p) ≤. R (k.at q)) = true := by
  have hn : (ps.map toB64 : List (Coord (B64 sq hy))) ≠ [] := by simpa using hne
  rw [intersectsCoordinate_iff _ _ (measurable64 hp) (bounds_nn rfl _ hn (measurable_maps hps))]
  refine forall_congr' fun k => ?_
  obtain ⟨⟨u, mu, eu, lu⟩, ⟨w, mw, ew, lw⟩⟩ := C119_bounds (sq := sq) (hy := hy) hps hne k
  rw [eu, ew, axis_rnd k hp]
  refine and_congr ⟨fun h => ⟨u, mu, h⟩, ?_⟩ ⟨fun h => ⟨w, mw, h⟩, ?_⟩
  · rintro ⟨q, hq, h⟩
    exact le_trans64 (rnd_le (lu q hq)) h
  · rintro ⟨q, hq, h⟩
    exact le_trans64 h (rnd_le (lw q hq))

/-- C119: the envelope accepts every double point of the exact octagon, even if sums overflow. -/
theorem C119_accepts {p : Coord ℚ} (hp : Double2 p) (h : InOct ps 0 p) : (octOf (ps.map toB64) : Oct (B64 sq hy)).intersectsCoordinate (toB64 p) = true := by
  have hne : ps ≠ [] := by
    rintro rfl
    obtain ⟨q, hq, -⟩ := (h .x).1
    exact absurd hq (by simp)
  rw [accept_iff hps hne hp]
  intro k
  obtain ⟨⟨u, mu, lu⟩, ⟨w, mw, lw⟩⟩ := h k
  rw [Pi.zero_apply, add_zero] at lu lw
  exact ⟨⟨u, mu, rnd_le (by exact_mod_cast lu)⟩, ⟨w, mw, rnd_le (by exact_mod_cast lw)⟩⟩

/-- C119: in particular every double point of the convex hull. -/
theorem C119_hull (hne : ps ≠ []) {p : Coord ℚ} (hp : Double2 p) (h : InHull ps p) : (octOf (ps.map toB64) : Oct (B64 sq hy)).intersectsCoordinate (toB64 p) = true := by
  refine C119_accepts hps hp fun k => ?_
  obtain ⟨u, mu, lu⟩ := least_at k.at hne
  obtain ⟨w, mw, lw⟩ := least_at (fun q => -k.at q) hne
  simp only [Pi.zero_apply, add_zero, Rat.cast_le]
  refine ⟨⟨u, mu, ?_⟩, ⟨w, mw, ?_⟩⟩
  · cases k
    · have := h (-1) 0 (-u.x) (fun q hq => by have := lu q hq; simp only [Axis.at] at this; linarith)
      simp only [Axis.at]; linarith
    · have := h 0 (-1) (-u.y) (fun q hq => by have := lu q hq; simp only [Axis.at] at this; linarith)
      simp only [Axis.at]; linarith
    · have := h (-1) (-1) (-(u.x + u.y)) (fun q hq => by have := lu q hq; simp only [Axis.at] at this; linarith)
      simp only [Axis.at]; linarith
    · have := h (-1) 1 (-(u.x - u.y)) (fun q hq => by have := lu q hq; simp only [Axis.at] at this; linarith)
      simp only [Axis.at]; linarith
  · cases k
    · have := h 1 0 w.x (fun q hq => by have := lw q hq; simp only [Axis.at] at this; linarith)
      simp only [Axis.at]; linarith
    · have := h 0 1 w.y (fun q hq => by have := lw q hq; simp only [Axis.at] at this; linarith)
      simp only [Axis.at]; linarith
    · have := h 1 1 (w.x + w.y) (fun q hq => by have := lw q hq; simp only [Axis.at] at this; linarith)
      simp only [Axis.at]; linarith
    · have := h 1 (-1) (w.x - w.y) (fun q hq => by have := lw q hq; simp only [Axis.at] at this; linarith)
      simp only [Axis.at]; linarith

/-- C119: two envelopes whose exact octagons have a point in common intersect. -/
theorem C119_meet {qs : List (Coord ℚ)} (hqs : ∀ q ∈ qs, Double2 q) {r : Coord ℚ} (h₁ : InOct ps 0 r) (h₂ : InOct qs 0 r) :
    (octOf (ps.map toB64) : Oct (B64 sq hy)).intersects (octOf (qs.map toB64)) = true := by
  have ne : ∀ {l : List (Coord ℚ)}, InOct l 0 r → l ≠ [] := by
    rintro l h rfl
    obtain ⟨q, hq, -⟩ := (h .x).1
    exact absurd hq (by simp)
  have n₁ := (C47_bounds_partial (α := B64 sq hy) rfl (ps.map toB64) (by simpa using ne h₁) (measurable_maps hps)).1
  have n₂ := (C47_bounds_partial (α := B64 sq hy) rfl (qs.map toB64) (by simpa using ne h₂) (measurable_maps hqs)).1
  have key : ∀ {l l' : List (Coord ℚ)}, (∀ q ∈ l, Double2 q) → (∀ q ∈ l', Double2 q) → InOct l 0 r → InOct l' 0 r → ∀ k : Axis,
      (k.hi (octOf (l'.map toB64) : Oct (B64 sq hy)) <. k.lo (octOf (l.map toB64) : Oct (B64 sq hy))) = false := by
    intro l l' hl hl' i i' k
    obtain ⟨⟨u, -, eu, lu⟩, -⟩ := C119_bounds (sq := sq) (hy := hy) hl (ne i) k
    obtain ⟨-, ⟨w, -, ew, lw⟩⟩ := C119_bounds (sq := sq) (hy := hy) hl' (ne i') k
    rw [eu, ew]
    obtain ⟨⟨a, ma, la⟩, -⟩ := i k
    obtain ⟨-, ⟨b, mb, lb⟩⟩ := i' k
    rw [Pi.zero_apply, add_zero, Rat.cast_le] at la lb
    exact rnd_not_lt (((lu a ma).trans la).trans (lb.trans (lw b mb)))
  have a := key hps hqs h₁ h₂
  have b := key hqs hps h₂ h₁
  have ax := a .x; have ay := a .y; have as := a .sum; have ad := a .diff
  have bx := b .x; have by' := b .y; have bs := b .sum; have bd := b .diff
  simp only [Axis.lo, Axis.hi] at ax ay as ad bx by' bs bd
  unfold Oct.intersects
  rw [n₁, n₂]
  simp [ax, ay, as, ad, bx, by', bs, bd]

/-- C119: an envelope contains the envelope of any double points of its exact octagon. -/
theorem C119_contains {qs : List (Coord ℚ)} (hqs : ∀ q ∈ qs, Double2 q ∧ InOct ps 0 q) (hne : qs ≠ []) :
    (octOf (ps.map toB64) : Oct (B64 sq hy)).contains (octOf (qs.map toB64)) = true := by
  have hn : ps ≠ [] := by
    rintro rfl
    obtain ⟨q, hq⟩ := List.exists_mem_of_ne_nil _ hne
    obtain ⟨r, hr, -⟩ := ((hqs q hq).2 .x).1
    exact absurd hr (by simp)
  rw [C47_least_partial (α := B64 sq hy) rfl (qs.map toB64) (by simpa using hne) (measurable_maps fun q hq => (hqs q hq).1) _
    (bounds_nn rfl _ (by simpa using hn) (measurable_maps hps))]
  intro p hp
  obtain ⟨q, hq, rfl⟩ := List.mem_map.mp hp
  exact C119_accepts hps (hqs q hq).1 (hqs q hq).2

end octagon

/-! ## How much more is accepted -/

/-- A slack in x + y and x - y only. -/
def diagonalSlack (t : ℝ) : Axis → ℝ | .x => 0 | .y => 0 | .sum => t | .diff => t

theorem rnd_le_iff {a b : ℚ} (ha : |near a| < 2 ^ 1024) (hb : |near b| < 2 ^ 1024) : ((R a) ≤. (R b)) = true ↔ near a ≤ near b := by
  rw [show R a = Fl.fin (near a) from (rnd_fin_iff _ _).mpr ⟨rfl, ha⟩, show R b = Fl.fin (near b) from (rnd_fin_iff _ _).mpr ⟨rfl, hb⟩]
  exact decide_eq_true_iff

theorem Sized.double2 {M : ℝ} {c : Coord ℚ} (h : Sized M c) : Double2 c := ⟨h.1, h.2.1⟩

/-- The rounded value along an axis: exact for x and y, an error of at most `M / 2^52` else. -/
theorem axis_near {M : ℝ} (hM : M ≤ 2 ^ 1000) (k : Axis) {p : Coord ℚ} (hp : Sized M p) :
    |near (k.at p)| < 2 ^ 1024 ∧ |((near (k.at p) : ℚ) : ℝ) - k.at p| ≤ diagonalSlack (M / 2 ^ 52) k := by
  obtain ⟨fx, fy, bx, by'⟩ := hp
  have M0 : 0 ≤ M := (abs_nonneg _).trans bx
  have dia : ∀ {u v : ℚ}, Rep u → Rep v → |(u : ℝ)| ≤ M → |(v : ℝ)| ≤ M → |near (u + v)| < 2 ^ 1024 ∧ |((near (u + v) : ℚ) : ℝ) - ((u + v : ℚ) : ℝ)| ≤ M / 2 ^ 52 := by
    intro u v ru rv bu bv
    have r := near_add_rel ru rv
    have r' : |((u + v : ℚ) : ℝ) - (near (u + v) : ℚ)| ≤ |((u + v : ℚ) : ℝ)| / 2 ^ 53 := by exact_mod_cast r
    have s : |((u + v : ℚ) : ℝ)| ≤ 2 * M := by
      push_cast
      have := abs_add_le (u : ℝ) v
      linarith
    have e : |((near (u + v) : ℚ) : ℝ) - ((u + v : ℚ) : ℝ)| ≤ M / 2 ^ 52 := by
      rw [abs_sub_comm]
      refine r'.trans ((div_le_div_of_nonneg_right s (by norm_num)).trans_eq ?_)
      ring
    refine ⟨?_, e⟩
    have t : |((near (u + v) : ℚ) : ℝ)| ≤ 3 * M := by
      have := abs_sub_abs_le_abs_sub ((near (u + v) : ℚ) : ℝ) ((u + v : ℚ) : ℝ)
      have : M / 2 ^ 52 ≤ M := div_le_self M0 (by norm_num)
      linarith
    have : ((|near (u + v)| : ℚ) : ℝ) < ((2 ^ 1024 : ℚ) : ℝ) := by
      push_cast
      refine lt_of_le_of_lt t ?_
      rw [show (1024 : ℕ) = 24 + 1000 from rfl, pow_add]
      have : (0 : ℝ) < 2 ^ 1000 := by positivity
      generalize (2 : ℝ) ^ 1000 = P at *
      norm_num
      linarith
    exact_mod_cast this
  cases k
  · simp only [Axis.at, diagonalSlack]
    rw [near_of_rep fx.1]
    exact ⟨fx.2, by simp⟩
  · simp only [Axis.at, diagonalSlack]
    rw [near_of_rep fy.1]
    exact ⟨fy.2, by simp⟩
  · exact dia fx.1 fy.1 bx by'
  · simp only [Axis.at, diagonalSlack]
    rw [sub_eq_add_neg]
    exact dia fx.1 fy.1.neg bx (by push_cast; rwa [abs_neg])

/-- C119: the points accepted are in the exact octagon but for `M / 2^51` in x + y and x - y. -/
theorem C119_accuracy {M : ℝ} (hM : M ≤ 2 ^ 1000) {ps : List (Coord ℚ)} (hps : ∀ q ∈ ps, Sized M q) (hne : ps ≠ []) {p : Coord ℚ} (hp : Sized M p)
    (h : (octOf (ps.map toB64) : Oct (B64 sq hy)).intersectsCoordinate (toB64 p) = true) : InOct ps (diagonalSlack (M / 2 ^ 51)) p := by
  rw [accept_iff (fun q hq => (hps q hq).double2) hne hp.double2] at h
  have two : ∀ k, diagonalSlack (M / 2 ^ 51) k = diagonalSlack (M / 2 ^ 52) k + diagonalSlack (M / 2 ^ 52) k := by
    intro k
    cases k <;> simp only [diagonalSlack] <;> ring
  intro k
  obtain ⟨⟨u, mu, lu⟩, ⟨w, mw, lw⟩⟩ := h k
  obtain ⟨p1, p2⟩ := axis_near hM k hp
  obtain ⟨u1, u2⟩ := axis_near hM k (hps u mu)
  obtain ⟨w1, w2⟩ := axis_near hM k (hps w mw)
  rw [rnd_le_iff u1 p1] at lu
  rw [rnd_le_iff p1 w1] at lw
  have lu' : ((near (k.at u) : ℚ) : ℝ) ≤ (near (k.at p) : ℚ) := by exact_mod_cast lu
  have lw' : ((near (k.at p) : ℚ) : ℝ) ≤ (near (k.at w) : ℚ) := by exact_mod_cast lw
  rw [two]
  have := abs_le.mp p2
  have := abs_le.mp u2
  have := abs_le.mp w2
  exact ⟨⟨u, mu, by linarith⟩, ⟨w, mw, by linarith⟩⟩

/-- C119: on grids of 52 bits the test is exact. -/
theorem C119_exact {g : ℤ} (h1 : -1074 ≤ g) (h2 : g ≤ 900) {ps : List (Coord ℚ)} (hps : ∀ q ∈ ps, OnGridB 52 g q) (hne : ps ≠ []) {p : Coord ℚ} (hp : OnGridB 52 g p) :
    (octOf (ps.map toB64) : Oct (B64 sq hy)).intersectsCoordinate (toB64 p) = true ↔ InOct ps 0 p := by
  have ord : ∀ {c : Coord ℚ}, OnGridB 52 g c → OrdB 52 g c.x ∧ OrdB 52 g c.y := by
    rintro c ⟨m, n, hm, hn, e1, e2⟩
    exact ⟨⟨m, hm, e1⟩, ⟨n, hn, e2⟩⟩
  have f64 : ∀ (k : Axis) {c : Coord ℚ}, OnGridB 52 g c → IsF64 (k.at c) := by
    intro k c hc
    obtain ⟨ox, oy⟩ := ord hc
    cases k
    · exact ordB_f64 ox (by norm_num) h1 h2
    · exact ordB_f64 oy (by norm_num) h1 h2
    · exact ordB_f64 (ox.add oy) (by norm_num) h1 h2
    · exact ordB_f64 (ox.sub oy) (by norm_num) h1 h2
  rw [accept_iff (fun q hq => ⟨f64 .x (hps q hq), f64 .y (hps q hq)⟩) hne ⟨f64 .x hp, f64 .y hp⟩]
  have ex : ∀ (k : Axis) {c d : Coord ℚ}, OnGridB 52 g c → OnGridB 52 g d → (((R (k.at c)) ≤. (R (k.at d))) = true ↔ (k.at c : ℝ) ≤ k.at d) := by
    intro k c d hc hd
    have fc := f64 k hc
    have fd := f64 k hd
    rw [rnd_le_iff (by rw [near_of_rep fc.1]; exact fc.2) (by rw [near_of_rep fd.1]; exact fd.2), near_of_rep fc.1, near_of_rep fd.1, Rat.cast_le]
  refine forall_congr' fun k => ?_
  simp only [Pi.zero_apply, add_zero]
  exact and_congr (exists_congr fun q => and_congr_right fun hq => ex k (hps q hq) hp) (exists_congr fun q => and_congr_right fun hq => ex k hp (hps q hq))

/-! ## Growing by a distance -/

/-- How far a point at distance 1 can be along an axis. -/
noncomputable def Axis.reach : Axis → ℝ | .x => 1 | .y => 1 | .sum => √2 | .diff => √2

theorem reach_one (k : Axis) : 1 ≤ k.reach := by
  cases k <;> simp [Axis.reach]

theorem reach_two (k : Axis) : k.reach ≤ 2 := by
  have : √2 ≤ (2 : ℝ) := by rw [Real.sqrt_le_iff]; norm_num
  cases k <;> simp [Axis.reach] <;> linarith

theorem axis_reach (k : Axis) (p q : Coord ℚ) : |(k.at p : ℝ) - k.at q| ≤ k.reach * dist (realPt p) (realPt q) := by
  have key : ∀ {u v D : ℝ}, D = √(u ^ 2 + v ^ 2) → |u| ≤ D ∧ |v| ≤ D ∧ |u + v| ≤ √2 * D ∧ |u - v| ≤ √2 * D := by
    rintro u v D rfl
    refine ⟨Real.abs_le_sqrt (by nlinarith), Real.abs_le_sqrt (by nlinarith), ?_, ?_⟩
    · rw [← Real.sqrt_mul (by norm_num)]
      exact Real.abs_le_sqrt (by nlinarith [sq_nonneg (u - v)])
    · rw [← Real.sqrt_mul (by norm_num)]
      exact Real.abs_le_sqrt (by nlinarith [sq_nonneg (u + v)])
  obtain ⟨a, b, c, d⟩ := key (u := (p.x : ℝ) - q.x) (v := (p.y : ℝ) - q.y) (D := dist (realPt p) (realPt q)) rfl
  cases k <;> simp only [Axis.at, Axis.reach, one_mul]
  · exact a
  · exact b
  · push_cast
    convert c using 2
    ring
  · push_cast
    convert d using 2
    ring

theorem shrink_le {a t : ℚ} (ha : IsF64 a) (ht : 0 ≤ t) : ((Fl.fin a : B64 sq hy) -. Fl.fin t ≤. Fl.fin a) = true ∧ ((Fl.fin a : B64 sq hy) ≤. Fl.fin a +. Fl.fin t) = true := by
  constructor
  · rw [sub_rnd]
    have := rnd_le (sq := sq) (hy := hy) (show a - t ≤ a by linarith)
    rwa [← fin_rnd ha] at this
  · rw [add_rnd]
    have := rnd_le (sq := sq) (hy := hy) (show a ≤ a + t by linarith)
    rwa [← fin_rnd ha] at this

section grow
variable {ε : ℝ} (lib : Lib64 sq hy ε) (hε : ε ≤ 1 / 2 ^ 52) {M : ℝ} (hM : M ≤ 2 ^ 200) (hm : 1 / 2 ^ 200 ≤ M) {d : ℚ} (hd : IsF64 d) (d0 : 0 ≤ d) (hd2 : (d : ℝ) ≤ 2 ^ 200)
  {ps : List (Coord ℚ)} (hps : ∀ q ∈ ps, Sized M q) (hne : ps ≠ [])
include lib hε hM hm hd d0 hd2 hps hne

/-- The computed shift along an axis. -/
theorem grow_shift (k : Axis) : ∃ t : ℚ, (match k with | .x => Fl.fin d | .y => Fl.fin d | .sum => FltSqrt.sqrt (lit 2) *. Fl.fin d | .diff => FltSqrt.sqrt (lit 2) *. Fl.fin d : B64 sq hy) = Fl.fin t ∧
    0 ≤ t ∧ Sc 3 (2 * (M + d)) (Fl.fin t : B64 sq hy) (k.reach * d) := by
  have d0' : (0 : ℝ) ≤ d := by exact_mod_cast d0
  have m0 : 0 < M := lt_of_lt_of_le (by positivity) hm
  have mid : Mid 202 (2 * (M + d)) := by
    constructor
    · have : (1 : ℝ) / 2 ^ 202 ≤ 1 / 2 ^ 200 := one_div_le_one_div_of_le (by positivity) (pow_le_pow_right₀ (by norm_num) (by norm_num))
      linarith
    · rw [show (202 : ℕ) = 2 + 200 from rfl, pow_add]
      generalize (2 : ℝ) ^ 200 = P at *
      norm_num
      linarith
  have plain : Sc 3 (2 * (M + d)) (Fl.fin d : B64 sq hy) (1 * d) := by
    rw [one_mul]
    exact (sc_exact (B := 2 * (M + d)) (by rw [abs_of_nonneg d0']; linarith)).mono (by norm_num) le_rfl le_rfl
  obtain ⟨w, hw, we⟩ := lib.sqrt 2 (f64_of (by decide +kernel)) ((zpow_le_one_of_nonpos₀ one_le_two (by decide)).trans (by norm_num))
  have root : FltSqrt.sqrt (lit 2 : B64 sq hy) = Fl.fin w := by
    rw [lit64_two']
    have gen : ∀ l : ℚ, ¬ l < 0 → sq l = .fin w → FltSqrt.sqrt (Fl.fin l : B64 sq hy) = Fl.fin w := fun l h e => (if_neg h).trans e
    exact gen 2 (by norm_num) hw
  rw [show (((2 : ℚ)) : ℝ) = 2 by norm_num] at we
  have r2 : √2 ≤ (2 : ℝ) := reach_two .sum
  have r1 : 1 ≤ (√2 : ℝ) := reach_one .sum
  have we' : |(w : ℝ) - √2| ≤ 1 / 2 ^ 52 * 2 := we.trans (mul_le_mul hε r2 (by linarith) (by norm_num))
  have w0 : 0 ≤ w := by
    have : (0 : ℝ) ≤ w := by
      have := (abs_le.mp we').1
      have : (1 : ℝ) / 2 ^ 52 * 2 ≤ 1 := by norm_num
      linarith
    exact_mod_cast this
  have sw : Sc 1 2 (Fl.fin w : B64 sq hy) √2 := ⟨w, rfl, by rw [abs_of_nonneg (by linarith)]; exact r2, we'.trans_eq (by ring)⟩
  have prod := sw.mul (sc_exact (sq := sq) (hy := hy) (B := M + d) (v := d) (by rw [abs_of_nonneg d0']; linarith)) (by norm_num) le_rfl (by norm_num) (by norm_num) (mid.mono (by norm_num))
  have diag : ∃ t : ℚ, FltSqrt.sqrt (lit 2 : B64 sq hy) *. Fl.fin d = Fl.fin t ∧ 0 ≤ t ∧ Sc 3 (2 * (M + d)) (Fl.fin t : B64 sq hy) (√2 * d) := by
    rw [root]
    obtain ⟨t, ht, b1, b2⟩ := prod
    refine ⟨t, ht, ?_, t, rfl, b1, by convert b2 using 3; norm_num⟩
    have := ((rnd_fin_iff _ _).mp (show rnd (w * d) = Val.fin t from ht)).1
    rw [← this, ← near_zero]
    exact near_mono (mul_nonneg w0 d0)
  cases k
  · exact ⟨d, rfl, d0, plain⟩
  · exact ⟨d, rfl, d0, plain⟩
  · exact diag
  · exact diag

/-- The bounds after growing: ordered, around the old ones and accurate. -/
theorem grow_bounds : ∃ o : Oct (B64 sq hy), (octOf (ps.map toB64) : Oct (B64 sq hy)).expandBy (Fl.fin d) = o ∧ o.isNull = false ∧ ∀ k : Axis,
    (k.lo o ≤. k.lo (octOf (ps.map toB64) : Oct (B64 sq hy))) = true ∧ (k.hi (octOf (ps.map toB64) : Oct (B64 sq hy)) ≤. k.hi o) = true ∧
    (∃ q ∈ ps, (∀ r ∈ ps, k.at q ≤ k.at r) ∧ Sc 4 (4 * (M + d)) (k.lo o) (k.at q - k.reach * d)) ∧
    (∃ q ∈ ps, (∀ r ∈ ps, k.at r ≤ k.at q) ∧ Sc 4 (4 * (M + d)) (k.hi o) (k.at q + k.reach * d)) := by
  have d0' : (0 : ℝ) ≤ d := by exact_mod_cast d0
  have m0 : 0 < M := lt_of_lt_of_le (by positivity) hm
  have mid : Mid 1000 (2 * M + 2 * (M + d)) := by
    refine Mid.mono (j := 203) ?_ (by norm_num)
    constructor
    · have : (1 : ℝ) / 2 ^ 203 ≤ 1 / 2 ^ 200 := one_div_le_one_div_of_le (by positivity) (pow_le_pow_right₀ (by norm_num) (by norm_num))
      linarith
    · rw [show (203 : ℕ) = 3 + 200 from rfl, pow_add]
      generalize (2 : ℝ) ^ 200 = P at *
      norm_num
      linarith
  have hM' : M ≤ 2 ^ 1000 := hM.trans (pow_le_pow_right₀ (by norm_num) (by norm_num))
  have hd' : ∀ q ∈ ps, Double2 q := fun q hq => (hps q hq).double2
  have shift := grow_shift lib hε hM hm hd d0 hd2 hps hne
  have bd := C119_bounds (sq := sq) (hy := hy) hd' hne
  have sc : ∀ (k : Axis) {q : Coord ℚ}, q ∈ ps → ∃ v : ℚ, R (k.at q) = Fl.fin v ∧ IsF64 v ∧ Sc 1 (2 * M) (Fl.fin v : B64 sq hy) (k.at q) := by
    intro k q hq
    obtain ⟨n1, n2⟩ := axis_near hM' k (hps q hq)
    have sm : |(k.at q : ℝ)| ≤ 2 * M := by
      obtain ⟨-, -, bx, by'⟩ := hps q hq
      cases k <;> simp only [Axis.at]
      · linarith
      · linarith
      · push_cast; have := abs_add_le (q.x : ℝ) q.y; linarith
      · push_cast; have := abs_sub (q.x : ℝ) q.y; linarith
    have sl : diagonalSlack (M / 2 ^ 52) k ≤ 1 * (2 * M) / 2 ^ 52 := by
      have : 0 ≤ M / 2 ^ 52 := by positivity
      have : (1 : ℝ) * (2 * M) / 2 ^ 52 = M / 2 ^ 52 + M / 2 ^ 52 := by ring
      rw [this]
      cases k <;> simp only [diagonalSlack] <;> linarith
    exact ⟨near (k.at q), (rnd_fin_iff _ _).mpr ⟨rfl, n1⟩, ⟨near_rep _, n1⟩, near (k.at q), rfl, sm, n2.trans sl⟩
  have nul := (C47_bounds_partial (α := B64 sq hy) rfl (ps.map toB64) (by simpa using hne) (measurable_maps hd')).1
  have inner : ∀ k : Axis, (k.lo (octOf (ps.map toB64) : Oct (B64 sq hy)) ≤. k.hi (octOf (ps.map toB64) : Oct (B64 sq hy))) = true := by
    intro k
    obtain ⟨⟨u, mu, eu, lu⟩, ⟨w, mw, ew, lw⟩⟩ := bd k
    rw [eu, ew]
    exact rnd_le (lu w mw)
  generalize octOf (ps.map toB64) = O at *
  let T : Axis → B64 sq hy := fun k => match k with | .x => Fl.fin d | .y => Fl.fin d | .sum => FltSqrt.sqrt (lit 2) *. Fl.fin d | .diff => FltSqrt.sqrt (lit 2) *. Fl.fin d
  let o : Oct (B64 sq hy) := ⟨O.minx -. T .x, O.maxx +. T .x, O.miny -. T .y, O.maxy +. T .y, O.mina -. T .sum, O.maxa +. T .sum, O.minb -. T .diff, O.maxb +. T .diff⟩
  have lo : ∀ k : Axis, k.lo o = k.lo O -. T k := fun k => by cases k <;> rfl
  have hi : ∀ k : Axis, k.hi o = k.hi O +. T k := fun k => by cases k <;> rfl
  have facts : ∀ k : Axis, (k.lo o ≤. k.lo O) = true ∧ (k.hi O ≤. k.hi o) = true ∧
      (∃ q ∈ ps, (∀ r ∈ ps, k.at q ≤ k.at r) ∧ Sc 4 (4 * (M + d)) (k.lo o) (k.at q - k.reach * d)) ∧
      (∃ q ∈ ps, (∀ r ∈ ps, k.at r ≤ k.at q) ∧ Sc 4 (4 * (M + d)) (k.hi o) (k.at q + k.reach * d)) := by
    intro k
    obtain ⟨⟨u, mu, eu, lu⟩, ⟨w, mw, ew, lw⟩⟩ := bd k
    obtain ⟨t, et, t0, ts⟩ := shift k
    have et' : T k = Fl.fin t := et
    obtain ⟨a, ea, fa, sa⟩ := sc k mu
    obtain ⟨b, eb, fb, sb⟩ := sc k mw
    have size : 2 * M + 2 * (M + d) ≤ 4 * (M + d) := by linarith
    rw [lo, hi, eu, ew, ea, eb, et']
    exact ⟨(shrink_le fa t0).1, (shrink_le fb t0).2,
      ⟨u, mu, lu, ((sa.sub ts (e := 3) (by norm_num) le_rfl (by norm_num) (by norm_num) mid).mono (by norm_num) (by norm_num) size)⟩,
      ⟨w, mw, lw, ((sb.add ts (e := 3) (by norm_num) le_rfl (by norm_num) (by norm_num) mid).mono (by norm_num) (by norm_num) size)⟩⟩
  have ord : ∀ k : Axis, (k.lo o ≤. k.hi o) = true := fun k => le_trans64 (le_trans64 (facts k).1 (inner k)) (facts k).2.1
  have val : o.isValid = true := by
    have nn : o.isNull = false := by
      obtain ⟨-, -, ⟨q, -, -, v, hv, -⟩, -⟩ := facts .x
      show isNaN (Axis.x.lo o) = false
      rw [hv]; rfl
    unfold Oct.isValid
    rw [nn]
    have ox := ord .x; have oy := ord .y; have os := ord .sum; have od := ord .diff
    simp only [Axis.lo, Axis.hi] at ox oy os od
    simp [ox, oy, os, od]
  refine ⟨o, ?_, ?_, facts⟩
  · unfold Oct.expandBy
    rw [nul, if_neg (by decide)]
    show (if (!o.isValid) = true then o.setToNull else o) = o
    rw [val]
    rfl
  · obtain ⟨-, -, ⟨q, -, -, v, hv, -⟩, -⟩ := facts .x
    show isNaN (Axis.x.lo o) = false
    rw [hv]; rfl

/-- C119: the envelope grown by a distance contains the original one. -/
theorem C119_grow_contains : ((octOf (ps.map toB64) : Oct (B64 sq hy)).expandBy (Fl.fin d)).contains (octOf (ps.map toB64)) = true := by
  obtain ⟨o, eo, no, facts⟩ := grow_bounds lib hε hM hm hd d0 hd2 hps hne
  have nul := (C47_bounds_partial (α := B64 sq hy) rfl (ps.map toB64) (by simpa using hne) (measurable_maps fun q hq => (hps q hq).double2)).1
  rw [eo, contains_iff]
  exact ⟨no, nul, fun k => ⟨(facts k).1, (facts k).2.1⟩⟩

theorem grow_accept_iff {p : Coord ℚ} (hp : Sized M p) : ∃ lo hi : Axis → ℚ,
    (((octOf (ps.map toB64) : Oct (B64 sq hy)).expandBy (Fl.fin d)).intersectsCoordinate (toB64 p) = true ↔ ∀ k : Axis, lo k ≤ near (k.at p) ∧ near (k.at p) ≤ hi k) ∧
    ∀ k : Axis, |((near (k.at p) : ℚ) : ℝ) - k.at p| ≤ (M + d) / 2 ^ 48 ∧
      (∃ q ∈ ps, (∀ r ∈ ps, k.at q ≤ k.at r) ∧ |(lo k : ℝ) - (k.at q - k.reach * d)| ≤ (M + d) / 2 ^ 48) ∧
      (∃ q ∈ ps, (∀ r ∈ ps, k.at r ≤ k.at q) ∧ |(hi k : ℝ) - (k.at q + k.reach * d)| ≤ (M + d) / 2 ^ 48) := by
  have d0' : (0 : ℝ) ≤ d := by exact_mod_cast d0
  have m0 : 0 < M := lt_of_lt_of_le (by positivity) hm
  have hM' : M ≤ 2 ^ 1000 := hM.trans (pow_le_pow_right₀ (by norm_num) (by norm_num))
  obtain ⟨o, eo, no, facts⟩ := grow_bounds lib hε hM hm hd d0 hd2 hps hne
  rw [eo]
  have unit : (4 : ℝ) * (4 * (M + d)) / 2 ^ 52 = (M + d) / 2 ^ 48 := by ring
  have lo : ∀ k : Axis, ∃ v : ℚ, k.lo o = Fl.fin v ∧ ∃ q ∈ ps, (∀ r ∈ ps, k.at q ≤ k.at r) ∧ |(v : ℝ) - (k.at q - k.reach * d)| ≤ (M + d) / 2 ^ 48 := by
    intro k
    obtain ⟨-, -, ⟨q, mq, lq, v, hv, -, e⟩, -⟩ := facts k
    exact ⟨v, hv, q, mq, lq, e.trans_eq unit⟩
  have hi : ∀ k : Axis, ∃ v : ℚ, k.hi o = Fl.fin v ∧ ∃ q ∈ ps, (∀ r ∈ ps, k.at r ≤ k.at q) ∧ |(v : ℝ) - (k.at q + k.reach * d)| ≤ (M + d) / 2 ^ 48 := by
    intro k
    obtain ⟨-, -, -, ⟨q, mq, lq, v, hv, -, e⟩⟩ := facts k
    exact ⟨v, hv, q, mq, lq, e.trans_eq unit⟩
  choose a ha qa using lo
  choose b hb qb using hi
  refine ⟨a, b, ?_, fun k => ⟨?_, qa k, qb k⟩⟩
  · rw [intersectsCoordinate_iff _ _ (measurable64 hp.double2) (fun k => by rw [ha, hb]; exact ⟨rfl, rfl⟩)]
    refine forall_congr' fun k => ?_
    rw [axis_rnd k hp.double2, ha, hb, show R (k.at p) = Fl.fin (near (k.at p)) from (rnd_fin_iff _ _).mpr ⟨rfl, (axis_near hM' k hp).1⟩]
    exact and_congr decide_eq_true_iff decide_eq_true_iff
  · refine (axis_near hM' k hp).2.trans ?_
    have : M / 2 ^ 52 ≤ (M + d) / 2 ^ 48 := by
      have : (M + d) / 2 ^ 48 = M / 2 ^ 52 * 16 + d / 2 ^ 48 := by ring
      have : 0 ≤ M / 2 ^ 52 := by positivity
      have : 0 ≤ (d : ℝ) / 2 ^ 48 := by positivity
      linarith
    have : 0 ≤ (M + d) / 2 ^ 48 := by positivity
    cases k <;> simp only [diagonalSlack] <;> assumption

/-- C119: it accepts every double point that is closer than the distance, but for rounding errors, to one of the points. -/
theorem C119_grow_accepts {p : Coord ℚ} (hp : Sized M p) (h : ∃ q ∈ ps, dist (realPt p) (realPt q) + (M + d) / 2 ^ 47 ≤ d) :
    ((octOf (ps.map toB64) : Oct (B64 sq hy)).expandBy (Fl.fin d)).intersectsCoordinate (toB64 p) = true := by
  obtain ⟨lo, hi, iff, facts⟩ := grow_accept_iff lib hε hM hm hd d0 hd2 hps hne hp
  obtain ⟨q, mq, hq⟩ := h
  rw [iff]
  intro k
  obtain ⟨e, ⟨u, mu, lu, du⟩, ⟨w, mw, lw, dw⟩⟩ := facts k
  have lu' : (k.at u : ℝ) ≤ k.at q := by exact_mod_cast lu q mq
  have lw' : (k.at q : ℝ) ≤ k.at w := by exact_mod_cast lw q mq
  have r := abs_le.mp (axis_reach k p q)
  have g : k.reach * dist (realPt p) (realPt q) + (M + d) / 2 ^ 47 ≤ k.reach * d := by
    have n : 0 ≤ d - dist (realPt p) (realPt q) - (M + d) / 2 ^ 47 := by linarith
    have s : 0 ≤ (M + d) / 2 ^ 47 := by
      have : 0 ≤ (M + d) / 2 ^ 48 := (abs_nonneg _).trans e
      have : (M + d) / 2 ^ 47 = (M + d) / 2 ^ 48 + (M + d) / 2 ^ 48 := by ring
      linarith
    have a := mul_nonneg (show 0 ≤ k.reach by linarith [reach_one k]) n
    have b := mul_nonneg (show 0 ≤ k.reach - 1 by linarith [reach_one k]) s
    linarith
  have half : (M + d) / 2 ^ 47 = (M + d) / 2 ^ 48 + (M + d) / 2 ^ 48 := by ring
  have := abs_le.mp e
  have := abs_le.mp du
  have := abs_le.mp dw
  have a : (lo k : ℝ) ≤ (near (k.at p) : ℚ) := by linarith
  have b : ((near (k.at p) : ℚ) : ℝ) ≤ hi k := by linarith
  exact ⟨by exact_mod_cast a, by exact_mod_cast b⟩

/-- C119: it accepts only points of the exact octagon grown by the distance, but for rounding errors. -/
theorem C119_grow_accuracy {p : Coord ℚ} (hp : Sized M p) (h : ((octOf (ps.map toB64) : Oct (B64 sq hy)).expandBy (Fl.fin d)).intersectsCoordinate (toB64 p) = true) :
    InOct ps (fun k => k.reach * d + (M + d) / 2 ^ 47) p := by
  obtain ⟨lo, hi, iff, facts⟩ := grow_accept_iff lib hε hM hm hd d0 hd2 hps hne hp
  rw [iff] at h
  intro k
  obtain ⟨e, ⟨u, mu, lu, du⟩, ⟨w, mw, lw, dw⟩⟩ := facts k
  obtain ⟨a, b⟩ := h k
  have a' : (lo k : ℝ) ≤ (near (k.at p) : ℚ) := by exact_mod_cast a
  have b' : ((near (k.at p) : ℚ) : ℝ) ≤ hi k := by exact_mod_cast b
  have half : (M + d) / 2 ^ 47 = (M + d) / 2 ^ 48 + (M + d) / 2 ^ 48 := by ring
  have := abs_le.mp e
  have := abs_le.mp du
  have := abs_le.mp dw
  exact ⟨⟨u, mu, by linarith⟩, ⟨w, mw, by linarith⟩⟩

end grow

/-! Examples: a triangle with ordinates that are not on a coarse grid; the sum of the first point is rounded. -/

theorem tenth_double : IsF64 (3602879701896397 / 36028797018963968) := f64_of (by decide +kernel)

example : ∀ q ∈ [(⟨3602879701896397 / 36028797018963968, 3, 0, 0⟩ : Coord ℚ), ⟨5, -2, 0, 0⟩, ⟨7, 4, 0, 0⟩], Sized 8 q := by
  intro q hq
  simp only [List.mem_cons, List.not_mem_nil, or_false] at hq
  rcases hq with rfl | rfl | rfl
  · exact ⟨tenth_double, f64_of (by decide +kernel), by norm_num [abs_of_pos], by norm_num⟩
  · exact ⟨f64_of (by decide +kernel), f64_of (by decide +kernel), by norm_num, by norm_num⟩
  · exact ⟨f64_of (by decide +kernel), f64_of (by decide +kernel), by norm_num, by norm_num⟩
example : InHull [(⟨0, 3, 0, 0⟩ : Coord ℚ), ⟨5, -2, 0, 0⟩, ⟨7, 4, 0, 0⟩] ⟨4, 5 / 3, 0, 0⟩ := by
  intro a b c h
  have h1 := h ⟨0, 3, 0, 0⟩ (by simp)
  have h2 := h ⟨5, -2, 0, 0⟩ (by simp)
  have h3 := h ⟨7, 4, 0, 0⟩ (by simp)
  dsimp only at *
  linarith
example : (octOf ([⟨3602879701896397 / 36028797018963968, 3, 0, 0⟩, ⟨5, -2, 0, 0⟩, ⟨7, 4, 0, 0⟩].map toB64) : Oct X64).mina = Fl.fin 3 := by decide +kernel
/-- C119: the slack is needed: the point (1, 0) is accepted although its sum is less than those of both points. -/
theorem C119_slack_needed : (octOf ([⟨1, 1 / 2 ^ 60, 0, 0⟩, ⟨3, -1, 0, 0⟩].map toB64) : Oct X64).intersectsCoordinate (toB64 ⟨1, 0, 0, 0⟩) = true ∧
    ¬ InOct [⟨1, 1 / 2 ^ 60, 0, 0⟩, ⟨3, -1, 0, 0⟩] 0 ⟨1, 0, 0, 0⟩ := by
  refine ⟨by decide +kernel, fun h => ?_⟩
  obtain ⟨⟨q, hq, e⟩, -⟩ := h .sum
  rw [Pi.zero_apply, add_zero, Rat.cast_le] at e
  simp only [List.mem_cons, List.not_mem_nil, or_false] at hq
  rcases hq with rfl | rfl <;> simp only [Axis.at] at e <;> norm_num at e

end Verif.Props
