import Verif.Props.PointInRingAny
import Verif.Props.SimpleRings
import Verif.Props.Envelope64

set_option linter.unusedSectionVars false
set_option linter.unusedVariables false

/-! # C99: ring orientation and membership in lines for arbitrary doubles -/

namespace Verif.Props
open Flt Verif.Spec Verif.Binary64

variable {sq : ℚ → Val} {hy : ℚ → ℚ → Val}

/-- The orientation of `a`, `b`, `p` is decided by the filter, or by the double-double part. -/
def Decided (a b p : Coord ℚ) : Prop :=
  Clear a b p ∨ (Tame (b.x - a.x) (p.y - b.y) ∧ Tame (b.y - a.y) (p.x - b.x) ∧
    Tame (a.x - p.x) (b.y - p.y) ∧ Tame (a.y - p.y) (b.x - p.x) ∧ Resolved a b p)

theorem Decided.index {a b p : Coord ℚ} (ha : IsModerate a) (hb : IsModerate b) (hp : IsModerate p) (h : Decided a b p) :
    Orientation.index (toB64 a : Coord (B64 sq hy)) (toB64 b) (toB64 p) = Orientation.index a b p := by
  rcases h with h | ⟨t1, t2, t3, t4, h⟩
  · exact h.index ha hb hp
  · rw [C67_index a b p ha hb hp t1 t2 t3 t4 h, C29_index_is_sign]

theorem Decided.congr {a b p p' : Coord ℚ} (h : SamePlace p p') (hd : Decided a b p') : Decided a b p := by
  obtain ⟨e1, e2⟩ := h
  rcases hd with ⟨l, m, d⟩ | ⟨t1, t2, t3, t4, d⟩
  · refine Or.inl ⟨?_, ?_, ?_⟩
    · rw [e1, e2]; exact l
    · rw [e1, e2]; exact m
    · unfold det at d ⊢; rw [e1, e2]; exact d
  · refine Or.inr ⟨?_, ?_, ?_, ?_, ?_⟩
    · rw [e2]; exact t1
    · rw [e1]; exact t2
    · rw [e1, e2]; exact t3
    · rw [e1, e2]; exact t4
    · unfold Resolved det at d ⊢; rw [e1, e2]; exact d

theorem equals2D_b64 (a b : Coord ℚ) : (toB64 a : Coord (B64 sq hy)).equals2D (toB64 b) = a.equals2D b := by
  have e : ∀ x y : ℚ, ((Fl.fin x : B64 sq hy) ==. Fl.fin y) = (x ==. y) := fun _ _ => rfl
  unfold Coord.equals2D toB64 Coord.xy
  simp only [e]

theorem sub_neg64 {a b : ℚ} (ha : Rep a) (hb : Rep b) : (((Fl.fin a : B64 sq hy) -. Fl.fin b) <. lit 0) = decide (a < b) := by
  have key : ∀ q : ℚ, Fl.lt (r := binary64 sq hy) (rnd q) (Fl.fin 0) = decide (near q < 0) := by
    intro q
    unfold rnd
    split_ifs with h1 h2
    · have : ¬ near q < 0 := by
        have : (0 : ℚ) < 2 ^ 1024 := by positivity
        exact not_lt.mpr (this.le.trans h1)
      rw [decide_eq_false this]; rfl
    · have : near q < 0 := by
        have : (0 : ℚ) < 2 ^ 1024 := by positivity
        exact lt_of_le_of_lt h2 (neg_neg_of_pos this)
      rw [decide_eq_true this]; rfl
    · rfl
  have h1 : (((Fl.fin a : B64 sq hy) -. Fl.fin b) <. lit 0) = decide (near (a - b) < 0) := by
    rw [lit64, ← key]; exact congrArg (fun v => Fl.lt v _) (fl_sub_fin a b)
  rw [h1, decide_eq_decide]
  constructor
  · intro h
    by_contra hc
    exact absurd h (not_lt.mpr (near_nonneg (by linarith)))
  · intro h
    rcases lt_or_eq_of_le (near_nonpos (by linarith : a - b ≤ 0)) with h2 | h2
    · exact h2
    · exact absurd ((near_sub_zero hb ha).mp h2) h.ne'

/-! ## The scans run alike -/

/-- The state of the scan for the highest rising segment after the point with index `i`. -/
def scanTo (r : List (Coord ℚ)) : Nat → Orientation.Scan ℚ
  | 0 => ⟨r.getD 0 Coord.default, (r.getD 0 Coord.default).y, Coord.default, 0⟩
  | i + 1 => if ((r.getD (i + 1) Coord.default).y >. (scanTo r i).prevY) && ((r.getD (i + 1) Coord.default).y ≥. (scanTo r i).upHi.y)
      then ⟨r.getD (i + 1) Coord.default, (r.getD (i + 1) Coord.default).y, r.getD i Coord.default, i + 1⟩
      else { scanTo r i with prevY := (r.getD (i + 1) Coord.default).y }

theorem getD_lt (r : List (Coord ℚ)) (i : Nat) (h : i < r.length) : r.getD i Coord.default = r[i] := by
  rw [List.getD_eq_getElem?_getD, List.getElem?_eq_getElem h]; rfl

theorem pair_mem {A : Type} (r : List A) (i : Nat) (a b : A) (h1 : r[i]? = some a) (h2 : r[i + 1]? = some b) : (a, b) ∈ segs r := by
  obtain ⟨h, e⟩ := List.getElem?_eq_some_iff.mp h2
  obtain ⟨h', e'⟩ := List.getElem?_eq_some_iff.mp h1
  have hl : i < (segs r).length := by rw [length_segs]; omega
  have := getElem_segs r i hl
  rw [e, e'] at this
  rw [← this]
  exact List.getElem_mem hl

/-- C99: the orientation of a closed ring of doubles is the exact one, if every corner that is highest is pointed enough. -/
theorem C99_isCCW (r : List (Coord ℚ)) (hr : ∀ v ∈ r, IsModerate v) (hc : Closed2D r)
    (h : ∀ s ∈ segs r, ∀ t ∈ segs r, (∀ q ∈ r, q.y ≤ s.2.y) → s.1.y < s.2.y → SamePlace s.2 t.1 → t.2.y < t.1.y → ¬ SamePlace s.1 t.2 →
      Decided s.1 s.2 t.2) :
    Orientation.isCCW (r.map toB64 : List (Coord (B64 sq hy))) = Orientation.isCCW r := by
  by_cases hl : r.length < 4
  · obtain ⟨t1, -, t3⟩ := C34_total r
    obtain ⟨u1, -, u3⟩ := C34_total (r.map toB64 : List (Coord (B64 sq hy)))
    by_cases hn : r = []
    · subst hn; rw [t1.mpr rfl]; exact u1.mpr rfl
    · rw [t3 hn hl]
      exact u3 (by simpa using hn) (by simpa using hl)
  have hl : 4 ≤ r.length := by omega
  have hends : ∀ a b, r.head? = some a → r.getLast? = some b → a.y = b.y := fun a b h1 h2 => (hc a b h1 h2).2
  obtain ⟨st, q1, hh⟩ := isCCW_exact_inv r hl hends (fun i st => st = scanTo r (i - 1)) (by
    rw [Nat.sub_self, scanTo, getD_lt r 0 (by omega)]) (by
    rintro i st hi h1 rfl
    obtain ⟨j, rfl⟩ : ∃ j, i = j + 1 := ⟨i - 1, by omega⟩
    simp only [Nat.add_sub_cancel, scanTo, getD_lt r (j + 1) hi, getD_lt r j (by omega)])
  have hm : (r.map toB64 : List (Coord (B64 sq hy))).length = r.length := List.length_map _
  obtain ⟨su, -, q2, hu⟩ := isCCW_any (r.map toB64 : List (Coord (B64 sq hy))) 2 0 (by omega)
    (fun i st => st.prevY = Fl.fin (scanTo r (i - 1)).prevY ∧ st.upHi = toB64 (scanTo r (i - 1)).upHi ∧ st.iUpHi = (scanTo r (i - 1)).iUpHi) (by
      rw [Nat.sub_self, scanTo, getD_lt r 0 (by omega), List.getElem_map]
      exact ⟨rfl, rfl, rfl⟩) (by
      rintro i st hi h1 - ⟨e1, e2, e3⟩
      obtain ⟨j, rfl⟩ : ∃ j, i = j + 1 := ⟨i - 1, by omega⟩
      have hi' : j + 1 < r.length := by omega
      simp only [Nat.add_sub_cancel, scanTo, getD_lt r (j + 1) hi', getD_lt r j (by omega), List.getElem_map] at e1 e2 e3 ⊢
      rw [e1, e2]
      have c : (((toB64 r[j + 1] : Coord (B64 sq hy)).y >. Fl.fin (scanTo r j).prevY) && ((toB64 r[j + 1] : Coord (B64 sq hy)).y ≥. (toB64 (scanTo r j).upHi : Coord (B64 sq hy)).y)) =
        ((r[j + 1].y >. (scanTo r j).prevY) && (r[j + 1].y ≥. (scanTo r j).upHi.y)) := rfl
      rw [c]
      split_ifs
      · exact ⟨rfl, rfl, rfl⟩
      · exact ⟨rfl, rfl, e3⟩)
  rw [hm] at q2
  rw [q1] at hh
  rcases hh with ⟨h0, -, hf⟩ | ⟨k, n, e, ul, uh, dh, dl, b1, b2, b3, b4, b5, b6, b7, b8, b9, b10, b11, b12, b13, b14⟩
  · rcases hu with ⟨-, hg⟩ | ⟨k', n', e', ul', uh', dh', dl', c1, c2, c3, -⟩
    · rw [hf]; exact hg
    · rw [q2.2.2, h0] at c3; omega
  · rcases hu with ⟨c3, hg⟩ | ⟨k', n', e', ul', uh', dh', dl', c1, c2, c3, c4, c5, c6, c7, c8, c9, c10, c11, c12, c13, c14⟩
    · rw [q2.2.2, b3] at c3; omega
    obtain rfl : n' = n := by omega
    obtain rfl : k' = k := by rw [q2.2.2, b3] at c3; omega
    have get : ∀ (i : Nat) (c : Coord ℚ) (c' : Coord (B64 sq hy)), r[i]? = some c → (r.map toB64)[i]? = some c' → c' = toB64 c := by
      intro i c c' g1 g2
      rw [List.getElem?_map, g1] at g2
      exact (Option.some.inj g2).symm
    obtain rfl := get _ _ _ b6 c6
    obtain rfl := get _ _ _ b7 c7
    have yeq : ∀ p q : Coord ℚ, ((toB64 p : Coord (B64 sq hy)).y ==. (toB64 q : Coord (B64 sq hy)).y) = decide (p.y = q.y) := fun _ _ => rfl
    have some' : ∀ i : Nat, ∃ q, r[i % n']? = some q := fun i =>
      ⟨_, List.getElem?_eq_getElem (by have := Nat.mod_lt i (show 0 < n' by omega); omega)⟩
    have he : e' = e := by
      rcases Nat.lt_trichotomy e' e with hlt | heq | hlt
      · obtain ⟨q, hq⟩ := some' (k' + 1 + e')
        have h1 := b13 e' c4 hlt q hq
        obtain rfl := get _ _ _ hq c9
        rw [yeq, decide_eq_false_iff_not] at c12
        exact absurd h1 c12
      · exact heq
      · have h1 := c13 e b4 hlt (toB64 dl) (by rw [List.getElem?_map, b9]; rfl)
        rw [yeq, decide_eq_true_iff] at h1
        exact absurd h1 b11.ne
    subst he
    obtain rfl := get _ _ _ b8 c8
    obtain rfl := get _ _ _ b9 c9
    rw [b14]
    refine Eq.trans c14 (congrArg Except.ok ?_)
    rw [← capAnswer_exact ul uh dh dl b10 b11]
    have mod : ∀ i (c : Coord ℚ), r[i]? = some c → IsModerate c := fun i c hi => hr c (List.mem_of_getElem? hi)
    unfold capAnswer
    simp only [equals2D_b64]
    by_cases h1 : uh.equals2D dh = true
    · simp only [h1, if_true]
      by_cases h2 : ul.equals2D uh || dl.equals2D uh || ul.equals2D dl
      · simp only [h2, if_true]
      · simp only [h2, if_false]
        have h3 : ¬ SamePlace ul dl := by
          intro hh
          rw [(equals2D_iff ul dl).mpr hh] at h2
          simp at h2
        have hs := (equals2D_iff uh dh).mp h1
        obtain ⟨dl', g1, g2⟩ : ∃ d, (dh, d) ∈ segs r ∧ SamePlace dl d := by
          have hj := Nat.mod_lt (k' + e') (show 0 < n' by omega)
          refine ⟨r[(k' + e') % n' + 1], pair_mem r _ _ _ b8 (List.getElem?_eq_getElem (by omega)), ?_⟩
          rw [show (k' + 1 + e') % n' = ((k' + e') % n' + 1) % n' by rw [Nat.mod_add_mod]; congr 1; omega] at b9
          by_cases hw : (k' + e') % n' + 1 = n'
          · rw [hw, Nat.mod_self] at b9
            have hlast : r.getLast? = some r[(k' + e') % n' + 1] := by
              rw [List.getLast?_eq_getElem?, ← List.getElem?_eq_getElem]; congr 1; omega
            exact hc _ _ (by rw [List.head?_eq_getElem?]; exact b9) hlast
          · rw [Nat.mod_eq_of_lt (by omega), List.getElem?_eq_getElem (by omega)] at b9
            cases b9; exact ⟨rfl, rfl⟩
        have hd := h (ul, uh) (pair_mem r k' _ _ b6 b7) (dh, dl') g1 b12 b10 hs (by
          show dl'.y < dh.y
          rw [← g2.2, ← hs.2]; exact b11) (fun hh => h3 ⟨hh.1.trans g2.1.symm, hh.2.trans g2.2.symm⟩)
        have hd' : Decided ul uh dl := by
          exact Decided.congr g2 hd
        rw [hd'.index (mod _ _ b6) (mod _ _ b7) (mod _ _ b9)]
    · simp only [h1, if_false, Bool.false_eq_true]
      have e : ((dh.x -. uh.x) <. lit 0) = decide (dh.x < uh.x) := by
        simp only [exact_sub, exact_lt, exact_lit, Rat.cast_zero]
        exact decide_eq_decide.mpr sub_neg
      rw [e]
      exact sub_neg64 (mod _ _ b8).pt.x.1 (mod _ _ b7).pt.x.1

/-- C99: so it is for every ring without crossings: the answer is the sign of its exact area. -/
theorem C99_orientation (v : List (Coord ℚ)) (hs : SimpleRing v) (hr : ∀ c ∈ v, IsModerate c)
    (h : ∀ s ∈ segs (closed v), ∀ t ∈ segs (closed v), (∀ q ∈ v, q.y ≤ s.2.y) → s.1.y < s.2.y → SamePlace s.2 t.1 → t.2.y < t.1.y →
      ¬ SamePlace s.1 t.2 → Decided s.1 s.2 t.2) :
    ∃ A, Area.ofRingSigned (closed v) = .ok A ∧ A ≠ 0 ∧
      Orientation.isCCW ((closed v).map toB64 : List (Coord (B64 sq hy))) = .ok (decide (A < 0)) := by
  obtain ⟨A, a1, a2, a3, -⟩ := C81_orientation v hs
  refine ⟨A, a1, a2, ?_⟩
  have hsub : ∀ c ∈ closed v, c ∈ v := by
    intro c hc
    rcases List.mem_append.mp hc with hc | hc
    · exact hc
    · exact List.mem_of_mem_take hc
  rw [← a3]
  exact C99_isCCW (closed v) (fun c hc => hr c (hsub c hc)) (closed2D_closed v)
    fun s s1 t t1 k1 => h s s1 t t1 fun q hq => k1 q (List.mem_append_left _ hq)

/-- C99: a flat top needs no margin: rings of doubles whose highest corners are joined by a level edge are always answered exactly. -/
theorem C99_flat_top (r : List (Coord ℚ)) (hr : ∀ v ∈ r, IsModerate v) (hc : Closed2D r)
    (h : ∀ s ∈ segs r, ∀ t ∈ segs r, (∀ q ∈ r, q.y ≤ s.2.y) → s.1.y < s.2.y → SamePlace s.2 t.1 → t.1.y ≤ t.2.y) :
    Orientation.isCCW (r.map toB64 : List (Coord (B64 sq hy))) = Orientation.isCCW r :=
  C99_isCCW r hr hc fun s s1 t t1 k1 k2 k3 k4 => absurd k4 (not_lt.mpr (h s s1 t t1 k1 k2 k3))

/-- C99: without the margin the answer can be wrong: a clockwise triangle of doubles is reported counterclockwise. -/
theorem C99_thin_triangle : ∃ a b c : Coord ℚ, IsModerate a ∧ IsModerate b ∧ IsModerate c ∧
    det a b c < 0 ∧ Orientation.isCCW [a, b, c, a] = .ok false ∧
    Orientation.isCCW ([a, b, c, a].map toB64 : List (Coord X64)) = .ok true := by
  refine ⟨Coord.xy (-1 / 2 ^ 80) 0, Coord.xy 11471633658268050522112 9967463889179775074304, Coord.xy 6964925429 6051678843,
    ⟨⟨f64_of (by decide +kernel), f64_of (by decide +kernel)⟩, by decide +kernel, by decide +kernel⟩,
    ⟨⟨f64_of (by decide +kernel), f64_of (by decide +kernel)⟩, by decide +kernel, by decide +kernel⟩,
    ⟨⟨f64_of (by decide +kernel), f64_of (by decide +kernel)⟩, by decide +kernel, by decide +kernel⟩,
    by decide +kernel, by decide +kernel, by decide +kernel⟩

/-! ## Segments and lines -/

/-- Both products of the determinant vanish. -/
def Flat (a b p : Coord ℚ) : Prop := (a.x = p.x ∨ b.y = p.y) ∧ (a.y = p.y ∨ b.x = p.x)

/-- Zero or not a number. -/
def Void (v : B64 sq hy) : Prop := v = Fl.fin 0 ∨ v = Fl.nan

theorem void_sub_mul (a b c d : ℚ) (h : a = b ∨ c = d) :
    Void (((Fl.fin a : B64 sq hy) -. Fl.fin b) *. (Fl.fin c -. Fl.fin d)) := by
  have z : ∀ a : ℚ, (Fl.fin a : B64 sq hy) -. Fl.fin a = Fl.fin 0 := fun a => by
    rw [fl_sub_fin, sub_self]; exact (by decide +kernel : rnd 0 = Val.fin 0)
  have m : ∀ v : B64 sq hy, Void (v *. Fl.fin 0) ∧ Void (Fl.fin 0 *. v) := by
    intro v
    have z0 : rnd 0 = Val.fin 0 := by decide +kernel
    rcases v with _ | _ | q | _
    · exact ⟨Or.inr rfl, Or.inr rfl⟩
    · exact ⟨Or.inr rfl, Or.inr rfl⟩
    · refine ⟨Or.inl ?_, Or.inl ?_⟩
      · show rnd (q * 0) = _; rw [mul_zero, z0]
      · show rnd (0 * q) = _; rw [zero_mul, z0]
    · exact ⟨Or.inr rfl, Or.inr rfl⟩
  rcases h with rfl | rfl
  · rw [z]; exact (m _).2
  · rw [z]; exact (m _).1

/-- If both products vanish the index is zero, whatever the sizes of the ordinates. -/
theorem index_flat (a b p : Coord ℚ) (h : Flat a b p) :
    Orientation.index (toB64 a : Coord (B64 sq hy)) (toB64 b) (toB64 p) = 0 := by
  have l := void_sub_mul (sq := sq) (hy := hy) a.x p.x b.y p.y h.1
  have r := void_sub_mul (sq := sq) (hy := hy) a.y p.y b.x p.x h.2
  have key : ∀ u v : B64 sq hy, Void u → Void v → (u >. lit 0) = false ∧ (u <. lit 0) = false ∧ CGDD.signum (u -. v) = 0 := by
    intro u v hu hv
    have z0 : (Fl.fin 0 : B64 sq hy) -. Fl.fin 0 = Fl.fin 0 := by
      rw [fl_sub_fin, sub_self]; exact (by decide +kernel : rnd 0 = Val.fin 0)
    rw [lit64]
    unfold CGDD.signum
    rw [lit64]
    rcases hu with rfl | rfl <;> rcases hv with rfl | rfl
    · rw [z0]; exact ⟨rfl, rfl, rfl⟩
    · exact ⟨rfl, rfl, rfl⟩
    · exact ⟨rfl, rfl, rfl⟩
    · exact ⟨rfl, rfl, rfl⟩
  obtain ⟨k1, k2, k3⟩ := key _ _ l r
  have hf : CGDD.filter (Fl.fin a.x : B64 sq hy) (Fl.fin a.y) (Fl.fin b.x) (Fl.fin b.y) (Fl.fin p.x) (Fl.fin p.y) = 0 := by
    unfold CGDD.filter
    simp only [k1, k2, Bool.false_eq_true, if_false]
    exact k3
  exact (congrArg (fun i => if i ≤ 1 then i else _) hf).trans (if_pos (by norm_num))

theorem intersects3_b64 (a b p : Coord ℚ) :
    Env.intersects3 (toB64 a : Coord (B64 sq hy)) (toB64 b) (toB64 p) = Env.intersects3 a b p := by
  have lt : ∀ x y : ℚ, ((Fl.fin x : B64 sq hy) <. Fl.fin y) = (x <. y) := fun _ _ => rfl
  have le : ∀ x y : ℚ, ((Fl.fin x : B64 sq hy) ≤. Fl.fin y) = (x ≤. y) := fun _ _ => rfl
  unfold Env.intersects3 toB64 Coord.xy
  simp only [lt]
  cases (a.x <. b.x) <;> cases (b.x <. a.x) <;> cases (a.y <. b.y) <;> cases (b.y <. a.y) <;>
    simp only [if_true, if_false, Bool.false_eq_true, le]

/-- In the box of two points. -/
def Boxed (a b p : Coord ℚ) : Prop := min a.x b.x ≤ p.x ∧ p.x ≤ max a.x b.x ∧ min a.y b.y ≤ p.y ∧ p.y ≤ max a.y b.y

/-- C99: a point of doubles is reported on a segment exactly if it is on it, if it is outside the box of the segment, or the two products of the
orientation vanish, or they are decided. -/
theorem C99_on_segment (p a b : Coord ℚ)
    (h : Boxed a b p → ¬ Flat a b p → IsModerate a ∧ IsModerate b ∧ IsModerate p ∧ Decided a b p) :
    PointLocation.isOnSegment (toB64 p : Coord (B64 sq hy)) (toB64 a) (toB64 b) = true ↔ OnSegment p a b := by
  rw [← C32_onSegment]
  unfold PointLocation.isOnSegment
  rw [intersects3_b64, equals2D_b64]
  by_cases h1 : Env.intersects3 a b p = true
  · by_cases h2 : Flat a b p
    · have : Orientation.index a b p = 0 := by
        rw [C29_index_is_sign, sgn_zero, det_left_right]
        rcases h2 with ⟨e | e, f | f⟩ <;> rw [e, f] <;> ring
      rw [index_flat a b p h2, this]
    · obtain ⟨m1, m2, m3, d⟩ := h ((intersects3_iff a b p).mp h1) h2
      rw [d.index m1 m2 m3]
  · simp only [h1, Bool.not_false, if_true, Bool.false_eq_true]

/-- C99: the same for lines. -/
theorem C99_on_line (p : Coord ℚ) (line : List (Coord ℚ))
    (h : ∀ s ∈ segs line, Boxed s.1 s.2 p → ¬ Flat s.1 s.2 p → IsModerate s.1 ∧ IsModerate s.2 ∧ IsModerate p ∧ Decided s.1 s.2 p) :
    ∃ b, PointLocation.isOnLine (toB64 p : Coord (B64 sq hy)) (line.map toB64) = .ok b ∧ (b = true ↔ OnLine p line) := by
  rw [isOnLine_any, segs_prod_map, List.any_map]
  refine ⟨_, rfl, ?_⟩
  rw [List.any_eq_true]
  unfold OnLine
  constructor
  · rintro ⟨s, hs, hh⟩
    exact ⟨s, hs, (C99_on_segment p s.1 s.2 (h s hs)).mp hh⟩
  · rintro ⟨s, hs, hh⟩
    exact ⟨s, hs, (C99_on_segment p s.1 s.2 (h s hs)).mpr hh⟩

/-- C99: no margin is needed for the ends of a segment, nor on segments parallel to an axis. -/
theorem C99_on_segment_free (p a b : Coord ℚ) :
    PointLocation.isOnSegment (toB64 a : Coord (B64 sq hy)) (toB64 a) (toB64 b) = true ∧
    PointLocation.isOnSegment (toB64 b : Coord (B64 sq hy)) (toB64 a) (toB64 b) = true ∧
    (a.x = b.x ∨ a.y = b.y →
      (PointLocation.isOnSegment (toB64 p : Coord (B64 sq hy)) (toB64 a) (toB64 b) = true ↔ OnSegment p a b)) := by
  refine ⟨?_, ?_, fun h => ?_⟩
  · exact (C99_on_segment a a b fun _ h => absurd ⟨Or.inl rfl, Or.inl rfl⟩ h).mpr ((onSegment_end a a b).1 ⟨rfl, rfl⟩)
  · exact (C99_on_segment b a b fun _ h => absurd ⟨Or.inr rfl, Or.inr rfl⟩ h).mpr ((onSegment_end b a b).2 ⟨rfl, rfl⟩)
  · refine C99_on_segment p a b fun hb hf => absurd ?_ hf
    obtain ⟨b1, b2, b3, b4⟩ := hb
    rcases h with h | h
    · rw [h, min_self] at b1
      rw [h, max_self] at b2
      have : b.x = p.x := le_antisymm b1 b2
      exact ⟨Or.inl (h.trans this), Or.inr this⟩
    · rw [h, min_self] at b3
      rw [h, max_self] at b4
      have : b.y = p.y := le_antisymm b3 b4
      exact ⟨Or.inr this, Or.inl (h.trans this)⟩

/-- C99: every vertex of a line of doubles with two or more points is reported on it. -/
theorem C99_vertex_on_line (l : List (Coord ℚ)) (hl : 2 ≤ l.length) (p : Coord ℚ) (hp : p ∈ l) :
    PointLocation.isOnLine (toB64 p : Coord (B64 sq hy)) (l.map toB64) = .ok true := by
  rw [isOnLine_any, segs_prod_map, List.any_map]
  congr 1
  rw [List.any_eq_true]
  obtain ⟨i, hi, rfl⟩ := List.mem_iff_getElem.mp hp
  by_cases h : i + 1 < l.length
  · exact ⟨(l[i], l[i + 1]), pair_mem l i _ _ (List.getElem?_eq_getElem hi) (List.getElem?_eq_getElem h),
      (C99_on_segment_free l[i] l[i] l[i + 1]).1⟩
  · obtain ⟨j, rfl⟩ : ∃ j, i = j + 1 := ⟨i - 1, by omega⟩
    exact ⟨(l[j], l[j + 1]), pair_mem l j _ _ (List.getElem?_eq_getElem (by omega)) (List.getElem?_eq_getElem hi),
      (C99_on_segment_free l[j] l[j] l[j + 1]).2.1⟩

/-- C99: without the margin there are points on a segment that are reported off it, and whether they are depends on the direction of the segment. -/
theorem C99_on_segment_missed : ∃ a b p : Coord ℚ, IsModerate a ∧ IsModerate b ∧ IsModerate p ∧ OnSegment p a b ∧
    PointLocation.isOnSegment (toB64 p : Coord X64) (toB64 a) (toB64 b) = false ∧
    PointLocation.isOnSegment (toB64 p : Coord X64) (toB64 b) (toB64 a) = true := by
  refine ⟨Coord.xy 0 0, Coord.xy 11471633658268050522112 9967463889179775074304, Coord.xy 6964925429 6051678843,
    ⟨⟨f64_of (by decide +kernel), f64_of (by decide +kernel)⟩, by decide +kernel, by decide +kernel⟩,
    ⟨⟨f64_of (by decide +kernel), f64_of (by decide +kernel)⟩, by decide +kernel, by decide +kernel⟩,
    ⟨⟨f64_of (by decide +kernel), f64_of (by decide +kernel)⟩, by decide +kernel, by decide +kernel⟩,
    (C32_onSegment _ _ _).mp (by decide +kernel), by decide +kernel, by decide +kernel⟩

/-- C99: and points off a segment that are reported on it, in both directions. -/
theorem C99_on_segment_near : ∃ a b p : Coord ℚ, IsModerate a ∧ IsModerate b ∧ IsModerate p ∧ ¬ OnSegment p a b ∧
    PointLocation.isOnSegment (toB64 p : Coord X64) (toB64 a) (toB64 b) = true ∧
    PointLocation.isOnSegment (toB64 p : Coord X64) (toB64 b) (toB64 a) = true := by
  refine ⟨Coord.xy (-1 / 2 ^ 80) 0, Coord.xy 13929850858 12103357686, Coord.xy 6964925429 6051678843,
    ⟨⟨f64_of (by decide +kernel), f64_of (by decide +kernel)⟩, by decide +kernel, by decide +kernel⟩,
    ⟨⟨f64_of (by decide +kernel), f64_of (by decide +kernel)⟩, by decide +kernel, by decide +kernel⟩,
    ⟨⟨f64_of (by decide +kernel), f64_of (by decide +kernel)⟩, by decide +kernel, by decide +kernel⟩,
    (fun h => absurd ((C32_onSegment _ _ _).mpr h) (by decide +kernel)), by decide +kernel, by decide +kernel⟩

/-- C99: the location in a ring, with the margin of the double-double part. -/
theorem C99_locate (p : Coord ℚ) (ring : List (Coord ℚ)) (hp : IsModerate p) (hr : ∀ v ∈ ring, IsModerate v) (hc : Closed2D ring)
    (h : ∀ s ∈ segs ring, Straddles p s.1 s.2 → ¬ (s.1.x < p.x ∧ s.2.x < p.x) → ¬ Flat s.2 s.1 p → Decided s.2 s.1 p) :
    ∃ loc, PointLocation.locateInRing (toB64 p : Coord (B64 sq hy)) (ring.map toB64) = .ok loc ∧
      (loc = Location.BOUNDARY ↔ OnLine p ring) ∧
      (loc = Location.INTERIOR ↔ ¬ OnLine p ring ∧ crossings p ring % 2 = 1) ∧
      (loc = Location.EXTERIOR ↔ ¬ OnLine p ring ∧ crossings p ring % 2 = 0) := by
  rw [locate_sim p ring (fun s hs h1 h2 => ?_)]
  · obtain ⟨loc, e, l1, l2, l3⟩ := C31_locate p ring hc
    refine ⟨loc, e, ?_⟩
    have d1 : Location.BOUNDARY ≠ Location.INTERIOR := by decide
    have d2 : Location.BOUNDARY ≠ Location.EXTERIOR := by decide
    have d3 : Location.INTERIOR ≠ Location.EXTERIOR := by decide
    by_cases ho : OnLine p ring
    · simp only [l1 ho, ho, not_true, false_and, iff_false, d1, d2, not_false_eq_true, and_self]
    · rcases Nat.mod_two_eq_zero_or_one (crossings p ring) with h0 | h0
      · simp only [l3 ho h0, ho, h0, d2.symm, d3.symm]; simp
      · simp only [l2 ho h0, ho, h0, d1.symm, d3]; simp
  · by_cases hf : Flat s.2 s.1 p
    · have : Orientation.index s.2 s.1 p = 0 := by
        rw [C29_index_is_sign, sgn_zero, det_left_right]
        rcases hf with ⟨e | e, f | f⟩ <;> rw [e, f] <;> ring
      rw [index_flat _ _ _ hf, this]
    · exact (h s hs h1 h2 hf).index (hr _ (mem_of_segs hs).2) (hr _ (mem_of_segs hs).1) hp

/-! ## The hypotheses are met -/

section Examples

theorem moderate_of {x y : ℚ} (h : rnd x = .fin x ∧ rnd y = .fin y ∧ |x| ≤ 2 ^ (400 : ℤ) ∧ |y| ≤ 2 ^ (400 : ℤ)) : IsModerate (Coord.xy x y) :=
  ⟨⟨rnd_f64 h.1, rnd_f64 h.2.1⟩, h.2.2.1, h.2.2.2⟩

instance (a b p : Coord ℚ) : Decidable (Flat a b p) := inferInstanceAs (Decidable (_ ∧ _))
instance (a b p : Coord ℚ) : Decidable (Boxed a b p) := inferInstanceAs (Decidable (_ ∧ _))
instance (u v : ℚ) : Decidable (Tame u v) := inferInstanceAs (Decidable (_ ∨ _))
instance (a b p : Coord ℚ) : Decidable (Resolved a b p) := inferInstanceAs (Decidable (_ ∨ _))
instance (a b p : Coord ℚ) : Decidable (Clear a b p) :=
  decidable_of_iff (Tame (a.x - p.x) (b.y - p.y) ∧ Tame (a.y - p.y) (b.x - p.x) ∧
    (|(a.x - p.x) * (b.y - p.y)| + |(a.y - p.y) * (b.x - p.x)|) / 2 ^ 49 ≤ |Spec.det a b p|)
    ⟨fun h => ⟨h.1, h.2.1, h.2.2⟩, fun h => ⟨h.1, h.2, h.3⟩⟩
instance (a b p : Coord ℚ) : Decidable (Decided a b p) := inferInstanceAs (Decidable (_ ∨ _))
instance (a b : Coord ℚ) : Decidable (SamePlace a b) := inferInstanceAs (Decidable (_ ∧ _))

/-- A triangle of doubles that are on no common grid of 53 bits. -/
def slim : List (Coord ℚ) := [Coord.xy 0 0, Coord.xy (3 / 2 ^ 60) 5, Coord.xy (-2 ^ 70) (1 / 2 ^ 30), Coord.xy 0 0]

example : (∀ v ∈ slim, IsModerate v) ∧ Closed2D slim ∧
    (∀ s ∈ segs slim, ∀ t ∈ segs slim, (∀ q ∈ slim, q.y ≤ s.2.y) → s.1.y < s.2.y → SamePlace s.2 t.1 → t.2.y < t.1.y → ¬ SamePlace s.1 t.2 →
      Decided s.1 s.2 t.2) ∧ Orientation.isCCW (slim.map toB64 : List (Coord X64)) = .ok true := by
  refine ⟨?_, ?_, by decide +kernel, by decide +kernel⟩
  · intro v hv
    simp only [slim, List.mem_cons, List.not_mem_nil, or_false] at hv
    rcases hv with rfl | rfl | rfl | rfl <;> exact moderate_of (by decide +kernel)
  · rintro a b h1 h2
    simp [slim] at h1 h2
    subst h1 h2
    exact ⟨rfl, rfl⟩

/-- A square standing on its side: every top is flat. -/
example : let r : List (Coord ℚ) := [Coord.xy 0 0, Coord.xy 3 0, Coord.xy 3 (1 / 2 ^ 70), Coord.xy 0 (1 / 2 ^ 70), Coord.xy 0 0]
    (∀ s ∈ segs r, ∀ t ∈ segs r, (∀ q ∈ r, q.y ≤ s.2.y) → s.1.y < s.2.y → SamePlace s.2 t.1 → t.1.y ≤ t.2.y) ∧
    Orientation.isCCW (r.map toB64 : List (Coord X64)) = .ok true := by
  exact ⟨by decide +kernel, by decide +kernel⟩

/-- A point beside a segment, so near that the filter alone does not decide. -/
example : let a : Coord ℚ := Coord.xy 0 0; let b : Coord ℚ := Coord.xy 11471633658268050522112 (9967463889179775074304 + 2 ^ 22)
    let p : Coord ℚ := Coord.xy 6964925429 6051678843
    Boxed a b p ∧ ¬ Flat a b p ∧ ¬ Clear a b p ∧ Decided a b p := by
  exact ⟨by decide +kernel, by decide +kernel, by decide +kernel, by decide +kernel⟩

end Examples

end Verif.Props
