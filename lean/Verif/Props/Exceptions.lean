import Verif.Props.CoordinateList
import Verif.Props.ArrayFilters
import Verif.Props.MathUtil
import Verif.Props.Quadrant
import Verif.Props.Angle
import Verif.Props.OctagonalEnvelope

set_option linter.unusedSectionVars false

/-! # C107: the exact extent of exceptions

For operations whose natural claim fails somewhere (C11, C27, C43, C52, C57): exactly where, and what happens there. -/

namespace Verif.Props
open Flt CoordArrays CoordList MathUtil Quadrant

/-! ## Closing rings -/

section Close
variable {α : Type} [Flt α] [FltOrd α]

/-- A list is closed after `close_ring`, and a second call changes nothing, exactly if its first coordinate has no NaN. -/
theorem C107_close_ring (a : Coord α) (l : List (Coord α)) :
    ((∃ p q, (closeRing (a :: l)).head? = some p ∧ (closeRing (a :: l)).getLast? = some q ∧ q.equals2D p = true) ↔ a.NN) ∧
    (closeRing (closeRing (a :: l)) = closeRing (a :: l) ↔ a.NN) ∧
    (a.NN ∨ closeRing (closeRing (a :: l)) = a :: l ++ [a, a]) := by
  by_cases hn : a.NN
  · exact ⟨⟨fun _ => hn, fun _ => C11_closed_partial (a :: l) (by simp) hn⟩, ⟨fun _ => hn, fun _ => C11_idempotent_partial _ (fun _ => hn)⟩, .inl hn⟩
  · have hx : isNaN a.x = true ∨ isNaN a.y = true := by
      by_contra hc
      push Not at hc
      exact hn ⟨by simpa using hc.1, by simpa using hc.2⟩
    have e1 := C11_nan_grows a l hx
    have e2 : closeRing (closeRing (a :: l)) = a :: l ++ [a, a] := by
      rw [e1, List.cons_append, C11_nan_grows a (l ++ [a]) hx]; simp
    refine ⟨⟨fun ⟨p, q, h1, h2, h3⟩ => ?_, fun h => absurd h hn⟩, ⟨fun h => ?_, fun h => absurd h hn⟩, .inr e2⟩
    · rw [e1] at h1 h2
      simp only [List.cons_append, List.head?_cons, Option.some.injEq] at h1
      rw [List.getLast?_concat, Option.some.injEq] at h2
      subst h1 h2
      simp only [Coord.equals2D, eq_eq] at h3
      rcases hx with hx | hx <;> simp [hx] at h3
    · rw [e2, e1] at h
      have := congrArg List.length h
      simp at this

end Close

/-! ## Integer helpers -/

/-- `wrap` for every index of 32 bits but the least and every positive modulus: the residue, except that negative multiples give the
modulus itself. The least index panics. -/
theorem C107_wrap (i m : Int) (hm : 0 < m) (hm2 : m ≤ 2147483647) (h1 : -2147483648 < i) :
    wrap i m = .ok (if i < 0 ∧ m ∣ i then m else i % m) ∧ (∃ e, wrap (-2147483648) m = .error e) := by
  refine ⟨?_, ⟨_, by unfold wrap i32; rfl⟩⟩
  split_ifs with h
  · obtain ⟨hi, k, rfl⟩ := h
    have hk : k < 0 := by
      by_contra hc
      have := Int.mul_nonneg hm.le (not_lt.mp hc)
      omega
    have := C52_wrap_negative_multiple (-k) m hm (by omega) (by rw [Int.neg_mul, Int.mul_comm]; omega)
    rw [Int.neg_mul, Int.neg_neg, Int.mul_comm k m] at this
    exact this
  · refine (C52_wrap_partial i m hm hm2 h1 ?_).1
    by_contra hc
    push Not at hc
    exact h ⟨hc.1, hc.2⟩

example : wrap (-10) 5 = .ok 5 ∧ wrap (-11) 5 = .ok 4 := by decide

theorem ceil_negative (n d : Int) (hd : d < 0) :
    ⌈(n / d : ℚ)⌉ = -⌊(n / (-d : Int) : ℚ)⌋ := by
  rw [← Int.ceil_neg]; congr 1; push_cast; rw [div_neg, neg_neg]

/-- `ceil` for all numbers of 32 bits: right for positive denominators and for exact quotients. For a negative denominator and an
inexact quotient it is one too large for numerators above zero, and one too small for those below. A zero denominator and the one
overflowing quotient panic. -/
theorem C107_ceil (n d : Int) (h1 : -2147483648 ≤ n) (h2 : n ≤ 2147483647) (h3 : -2147483648 ≤ d) (h4 : d ≤ 2147483647) :
    (d = 0 ∨ (n = -2147483648 ∧ d = -1) → ∃ e, ceil n d = .error e) ∧
    (d ≠ 0 → ¬ (n = -2147483648 ∧ d = -1) →
      ceil n d = .ok (⌈(n / d : ℚ)⌉ + if d < 0 ∧ ¬ d ∣ n then (if 0 < n then 1 else -1) else 0)) := by
  constructor
  · rintro (rfl | ⟨rfl, rfl⟩)
    · exact ⟨_, rfl⟩
    · exact ⟨.arith, by decide⟩
  · intro hd0 hov
    rcases lt_trichotomy d 0 with hd | hd | hd
    · -- negative denominators
      obtain ⟨e, rfl⟩ : ∃ e, d = -e := ⟨-d, by omega⟩
      have he : 0 < e := by omega
      have hfl : ⌊(n / e : ℚ)⌋ = n / e := by
        obtain ⟨m, rfl⟩ : ∃ m : ℕ, e = m := ⟨e.toNat, by omega⟩
        exact_mod_cast Rat.floor_intCast_div_natCast n m
      have hce : ⌈(n / (-e : Int) : ℚ)⌉ = -(n / e) := by
        rw [ceil_negative n (-e) hd, Int.neg_neg, hfl]
      have hr0 := Int.emod_nonneg n (by omega : e ≠ 0)
      have hr1 := Int.emod_lt_of_pos n he
      have hdm := Int.mul_ediv_add_emod n e
      have hdvd : (-e ∣ n) ↔ n % e = 0 := by rw [Int.neg_dvd]; exact Int.dvd_iff_emod_eq_zero
      have hq0 : 0 ≤ n → 0 ≤ n / e := fun h => Int.ediv_nonneg h he.le
      have hq1 : n < 0 → n / e < 0 := fun h => Int.ediv_neg_of_neg_of_pos h he
      rw [hce]
      generalize hq : n / e = q at *
      generalize hr : n % e = r at *
      have hbnd : -2147483648 ≤ q ∧ q ≤ 2147483647 := by
        constructor
        · by_contra hc
          nlinarith
        · by_contra hc
          nlinarith
      have ht : n.tdiv (-e) = if 0 ≤ n then -q else if r = 0 then -q else -(q + 1) := by
        rw [Int.tdiv_neg]
        split_ifs with c1 c2
        · rw [Int.tdiv_eq_ediv_of_nonneg c1, hq]
        · have : n = e * q := by omega
          rw [this, Int.mul_tdiv_cancel_left _ (by omega)]
        · have hn : n = -(-n) := by omega
          rw [hn, Int.neg_tdiv, Int.tdiv_eq_ediv_of_nonneg (by omega)]
          have : -n / e = -(q + 1) := by
            have x : -(q + 1) * e = -(e * q) - e := by ring
            rw [Int.ediv_eq_iff_of_pos he, x]
            constructor <;> omega
          rw [this]; omega
      have x1 : -q * -e = e * q := by ring
      have x2 : -(q + 1) * -e = e * q + e := by ring
      unfold ceil
      rw [if_neg hd0, ht]
      by_cases c1 : 0 ≤ n
      · have := hq0 c1
        rw [if_pos c1, i32, if_pos (by omega), Res.bind_ok, x1, i32, if_pos (by omega), Res.bind_ok]
        by_cases c2 : r = 0
        · rw [if_pos (by omega), if_neg (by rw [hdvd]; tauto), Int.add_zero]; rfl
        · rw [if_neg (by omega), i32, if_pos (by omega), if_pos (by rw [hdvd]; exact ⟨by omega, c2⟩), if_pos (by
            rcases Int.lt_or_eq_of_le c1 with h | h
            · exact h
            · exfalso; rw [← h] at hr; simp at hr; omega)]
      · have := hq1 (by omega)
        rw [if_neg c1]
        by_cases c2 : r = 0
        · have hmin : q ≠ -2147483648 := by
            rintro rfl
            exact hov ⟨by omega, by omega⟩
          rw [if_pos c2, i32, if_pos (by omega), Res.bind_ok, x1, i32, if_pos (by omega), Res.bind_ok,
            if_pos (by omega), if_neg (by rw [hdvd]; tauto), Int.add_zero]; rfl
        · rw [if_neg c2, i32, if_pos (by omega), Res.bind_ok, x2, i32, if_pos (by omega), Res.bind_ok,
            if_pos (by omega), if_pos (by rw [hdvd]; exact ⟨by omega, c2⟩), if_neg (by omega)]
          show Except.ok _ = _
          congr 1; omega
    · exact absurd hd hd0
    · rw [C52_ceil_partial n d hd h1 h2 h4, if_neg (by omega), Int.add_zero]

example : ceil 7 (-2) = .ok (-2) ∧ ceil (-7) (-2) = .ok 3 ∧ ceil 8 (-2) = .ok (-4) := by decide

/-! ## Repeated and invalid points -/

section Filter
variable {α : Type} [Flt α] [FltOrd α]

/-- `remove_repeated_or_invalid_points` for all arrays: valid points with runs collapsed, except that an array whose only fault is its
first point is returned as it is. -/
theorem C107_filter (cs : List (Coord α)) :
    ((∀ c ∈ cs.tail, c.isValid = true) ∧ NoRepeats cs → removeRepeatedOrInvalidPoints cs = .ok cs) ∧
    (¬ ((∀ c ∈ cs.tail, c.isValid = true) ∧ NoRepeats cs) →
      removeRepeatedOrInvalidPoints cs = .ok ((cs.filter (fun c => c.isValid)).destutter (fun a b => a.equals2D b = false))) := by
  obtain ⟨b, hb, hb'⟩ := hasRepeatedOrInvalid_ok cs
  rw [removeRepeatedOrInvalidPoints, hb, Res.bind_ok]
  cases b with
  | true =>
    exact ⟨fun h => absurd (hb'.mpr ⟨h.2, h.1⟩) (by simp), fun _ => filterLoop cs⟩
  | false =>
    obtain ⟨hno, hval⟩ := hb'.mp rfl
    exact ⟨fun _ => rfl, fun h => absurd ⟨hval, hno⟩ h⟩

/-- So every point of the result is valid exactly if the first point was valid or there was another fault. -/
theorem C107_filter_valid (a : Coord α) (l : List (Coord α)) : ∃ r, removeRepeatedOrInvalidPoints (a :: l) = .ok r ∧
    ((∀ c ∈ r, c.isValid = true) ↔ a.isValid = true ∨ (∃ c ∈ l, c.isValid = false) ∨ ¬ NoRepeats (a :: l)) := by
  obtain ⟨k1, k2⟩ := C107_filter (a :: l)
  simp only [List.tail_cons] at k1 k2
  by_cases hc : (∀ c ∈ l, c.isValid = true) ∧ NoRepeats (a :: l)
  · refine ⟨_, k1 hc, fun hr => .inl (hr a (by simp)), ?_⟩
    rintro (h | ⟨c, hl, h⟩ | h)
    · intro c hc'
      rcases List.mem_cons.mp hc' with rfl | hc'
      · exact h
      · exact hc.1 c hc'
    · rw [hc.1 c hl] at h; exact absurd h (by simp)
    · exact absurd hc.2 h
  · refine ⟨_, k2 hc, fun _ => ?_, fun _ c hm => ?_⟩
    · by_contra hn
      push Not at hn
      exact hc ⟨fun c hm => by simpa using hn.2.1 c hm, hn.2.2⟩
    · have := (List.destutter_sublist _ _).subset hm
      exact (List.mem_filter.mp this).2

example : removeRepeatedOrInvalidPoints [Coord.xy (Fl.nan : EQ) (Fl.fin 0), Coord.xy (Fl.fin 1) (Fl.fin 0), Coord.xy (Fl.fin 1) (Fl.fin 0)] =
    .ok [Coord.xy (Fl.fin 1) (Fl.fin 0)] := by decide +kernel

end Filter

/-! ## Half planes and angle differences -/

/-- A half plane `h` consists of the quadrants `h` and the next one counterclockwise. `is_in_half_plane` says so except for the
quadrants NE and SW and the half plane SE, where it says the opposite. -/
theorem C107_half_plane (q h : Int) (hq : IsQuad q) (hh : IsQuad h) :
    (isInHalfPlane q h = true ↔ (q = h ∨ q = (h + 1) % 4)) ↔ ¬ (h = SE ∧ (q = NE ∨ q = SW)) := by
  obtain ⟨h1, h2⟩ := hq
  obtain ⟨h3, h4⟩ := hh
  interval_cases q <;> interval_cases h <;> decide

example : IsQuad NE ∧ IsQuad SE := by unfold IsQuad; decide

/-- The difference of two angles is at most pi always, and not negative exactly if they are at most a turn apart; further apart it is
a turn minus their distance. -/
theorem C107_angle_diff (a b : ℝ) :
    Angle.diff a b ≤ Real.pi ∧ (0 ≤ Angle.diff a b ↔ |a - b| ≤ 2 * Real.pi) ∧
    (2 * Real.pi < |a - b| → Angle.diff a b = 2 * Real.pi - |a - b|) := by
  have e : Angle.diff a b = if |a - b| > Real.pi then 2 * Real.pi - |a - b| else |a - b| := by
    unfold Angle.diff
    simp only [exact_lt, exact_sub, real_pi, twoPi_real, decide_eq_true_eq]
    have : (if a < b then b - a else a - b) = |a - b| := by
      split_ifs with h
      · rw [abs_of_neg (by linarith)]; ring
      · rw [abs_of_nonneg (by linarith)]
    rw [this]
  have hn := abs_nonneg (a - b)
  have hp := Real.pi_pos
  rw [e]
  split_ifs with h
  · exact ⟨by linarith, ⟨fun h' => by linarith, fun h' => by linarith⟩, fun _ => rfl⟩
  · exact ⟨not_lt.mp h, ⟨fun _ => by linarith [not_lt.mp h], fun _ => hn⟩, fun h' => by linarith [not_lt.mp h]⟩

/-! ## Octagons of infinite points -/

section Oct
variable {α : Type} [Flt α] [FltOrd α]

/-- The envelope does not exclude the value along the axis. -/
def NotOut (k : Axis) (o : Oct α) (v : α) : Prop := (v <. k.lo o) = false ∧ (k.hi o <. v) = false

theorem notOut_step (k : Axis) (o : Oct α) (p : Coord α) (v : α) (ho : o.isNull = false) :
    (NotOut k o v → NotOut k (o.expandToInclude p) v) ∧ NotOut k (o.expandToInclude p) (k.of p) := by
  have key : ∀ lo w : α, ((v <. lo) = false → (v <. (if w <. lo then w else lo)) = false) ∧ (w <. (if w <. lo then w else lo)) = false := by
    intro lo w
    simp only [lt_eq]
    split_ifs <;> grind
  have key' : ∀ hi w : α, ((hi <. v) = false → ((if hi <. w then w else hi) <. v) = false) ∧ ((if hi <. w then w else hi) <. w) = false := by
    intro hi w
    simp only [lt_eq]
    split_ifs <;> grind
  unfold Oct.expandToInclude Oct.expandToIncludeXY
  simp only [ho, Bool.false_eq_true, if_false]
  cases k <;> exact ⟨fun h => ⟨(key _ _).1 h.1, (key' _ _).1 h.2⟩, (key _ _).2, (key' _ _).2⟩

theorem notNull_step (o : Oct α) (p : Coord α) (hp : isNaN p.x = false) : (o.expandToInclude p).isNull = false := by
  unfold Oct.expandToInclude Oct.expandToIncludeXY
  simp only []
  by_cases h : o.isNull = true
  · rw [if_pos h]; exact hp
  · rw [if_neg h]
    have h' : isNaN o.minx = false := by simpa [Oct.isNull] using h
    show isNaN (if p.x <. o.minx then p.x else o.minx) = false
    split_ifs
    · exact hp
    · exact h'

theorem intersects_of_notOut (o : Oct α) (p : Coord α) (h : ∀ k, NotOut k o (k.of p)) : o.intersectsCoordinate p = true := by
  obtain ⟨x1, x2⟩ := h .x
  obtain ⟨y1, y2⟩ := h .y
  obtain ⟨s1, s2⟩ := h .sum
  obtain ⟨d1, d2⟩ := h .diff
  simp only [Axis.lo, Axis.hi, Axis.of] at *
  simp [Oct.intersectsCoordinate, Oct.computeA, Oct.computeB, x1, x2, y1, y2, s1, s2, d1, d2]

/-- C47: the octagonal envelope of points that are numbers, infinite or not, intersects each of them. -/
theorem C47_contains_points (hnan : isNaN (nan : α) = true) (ps : List (Coord α)) (h : ∀ q ∈ ps, q.NN) (p : Coord α) (hp : p ∈ ps) :
    (octOf ps).intersectsCoordinate p = true := by
  have main : ∀ (l : List (Coord α)) (o : Oct α), (∀ q ∈ l, q.NN) → o.isNull = false →
      ∀ q, (∀ k, NotOut k o (k.of q)) ∨ q ∈ l → ∀ k, NotOut k (l.foldl Oct.expandToInclude o) (k.of q) := by
    intro l
    induction l with
    | nil => intro o _ _ q hq k; exact (hq.resolve_right (by simp)) k
    | cons r l ih =>
      intro o hl ho q hq k
      rw [List.foldl_cons]
      refine ih _ (fun q hq => hl q (by simp [hq])) (notNull_step o r (hl r (by simp)).1) q ?_ k
      rcases hq with hq | hq
      · exact .inl fun k => (notOut_step k o r _ ho).1 (hq k)
      · rcases List.mem_cons.mp hq with rfl | hq
        · exact .inl fun k => (notOut_step k o q (k.of q) ho).2
        · exact .inr hq
  cases ps with
  | nil => cases hp
  | cons a l =>
    apply intersects_of_notOut
    unfold octOf
    rw [List.foldl_cons]
    have hd : (Oct.default : Oct α).isNull = true := hnan
    have ea : (Oct.default : Oct α).expandToInclude a = ⟨a.x, a.x, a.y, a.y, a.x +. a.y, a.x +. a.y, a.x -. a.y, a.x -. a.y⟩ := by
      unfold Oct.expandToInclude Oct.expandToIncludeXY
      simp only [hd, if_true, Oct.computeA, Oct.computeB]
    refine main l _ (fun q hq => h q (by simp [hq])) (notNull_step _ a (h a (by simp)).1) p ?_
    rcases List.mem_cons.mp hp with rfl | hp
    · left
      intro k
      rw [ea]
      cases k <;> simp [NotOut, Axis.lo, Axis.hi, Axis.of, lt_eq]
    · exact .inr hp

example : (octOf ([Coord.xy .pinf .ninf, Coord.xy .ninf .ninf, Coord.xy (.fin 1) (.fin 2)] : List (Coord EQ))).intersectsCoordinate (Coord.xy .pinf .ninf) = true := by
  decide +kernel

end Oct

end Verif.Props
