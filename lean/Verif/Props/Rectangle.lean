import Verif.Props.Geometries

/-! # C56: the rectangle test -/

set_option linter.unusedSectionVars false

namespace Verif.Props
open Flt Verif.Spec
variable {α : Type} [Flt α]

/-- The point is a corner of the envelope. -/
def IsCorner (e : Env α) (v : Coord α) : Prop :=
  ((v.x ==. e.minx) = true ∨ (v.x ==. e.maxx) = true) ∧ ((v.y ==. e.miny) = true ∨ (v.y ==. e.maxy) = true)

/-- Exactly one ordinate changes from one point to the other. -/
def OneStep (u v : Coord α) : Prop := (v.x ==. u.x) = true ∧ (v.y ==. u.y) = false ∨ (v.x ==. u.x) = false ∧ (v.y ==. u.y) = true

section char
variable [FltOrd α] [FltLit α]

/-- C56: the test never panics, and holds exactly if there are no holes and the shell has five points, all corners of the envelope of
the shell, with one ordinate changing from each to the next. -/
theorem C56_rectangle (p : Polygon α) : ∃ r, p.isRectangle = .ok r ∧ (r = true ↔ p.holes = [] ∧
    ∃ a b c d e, p.shell.points.coordinates = [a, b, c, d, e] ∧
      (∀ v ∈ [a, b, c, d, e], IsCorner (envOf [a, b, c, d, e]) v) ∧ OneStep a b ∧ OneStep b c ∧ OneStep c d ∧ OneStep d e) := by
  rw [Polygon.isRectangle]
  by_cases hh : p.holes = []
  swap
  · rw [if_pos (by rw [Polygon.getNumInteriorRing]; simpa using hh)]
    exact ⟨false, rfl, by simp [hh]⟩
  rw [if_neg (by rw [Polygon.getNumInteriorRing, hh]; simp)]
  by_cases hl : p.shell.points.coordinates.length = 5
  swap
  · rw [if_pos (show p.shell.getNumPoints ≠ 5 from hl)]
    refine ⟨false, rfl, ?_⟩
    constructor
    · intro h; cases h
    · rintro ⟨-, a, b, c, d, e, h, -⟩; rw [h] at hl; simp at hl
  rw [if_neg (show ¬ p.shell.getNumPoints ≠ 5 from fun h => h hl)]
  obtain ⟨a, b, c, d, e, hs⟩ : ∃ a b c d e, p.shell.points.coordinates = [a, b, c, d, e] := by
    match h : p.shell.points.coordinates, hl with
    | [a, b, c, d, e], _ => exact ⟨a, b, c, d, e, rfl⟩
  have hcopy := (C50_copy ⟨p.shell.points, none⟩ p.shell p Point.default (Nat.zero_le 1)).2.2.1
  have henv : (⟨⟨p.shell.points, none, none⟩, p.holes.map (fun h => ⟨h.points, none, none⟩), none, none⟩ : Polygon α).getEnvelope.1
      = envOf [a, b, c, d, e] := by
    rw [Polygon.getEnvelope]
    show (LinearRing.computeEnvelope ⟨p.shell.points, none, none⟩) = _
    rw [compute_ring, hs]
  rw [hcopy]
  dsimp only
  rw [Res.bind_ok, henv]
  obtain ⟨E, hE⟩ : ∃ E, E = envOf [a, b, c, d, e] := ⟨_, rfl⟩
  rw [← hE]
  have hx : ∀ i (h : i < 5), p.shell.getSeq.getX i = .ok ([a, b, c, d, e][i].x) ∧ p.shell.getSeq.getY i = .ok ([a, b, c, d, e][i].y) := by
    intro i h
    have h' : i < p.shell.points.coordinates.length := by omega
    have g : p.shell.points.coordinates[i] = [a, b, c, d, e][i] := by simp only [hs]
    constructor
    · show (Res.get p.shell.points.coordinates i >>= _) = _
      rw [Res.get_lt h', Res.bind_ok, g]; rfl
    · show (Res.get p.shell.points.coordinates i >>= _) = _
      rw [Res.get_lt h', Res.bind_ok, g]; rfl
  rw [forFind_ok 0 5 _ (fun i => if h : i < 5 then
      (if !(([a, b, c, d, e][i].x ==. E.minx) || ([a, b, c, d, e][i].x ==. E.maxx)) then some false
      else if !(([a, b, c, d, e][i].y ==. E.miny) || ([a, b, c, d, e][i].y ==. E.maxy)) then some false else none) else none) (by
    intro i _ hi
    rw [dif_pos hi, (hx i hi).1, Res.bind_ok, (hx i hi).2]
    split_ifs <;> first | rfl | (rw [Res.bind_ok]; simp_all)), Res.bind_ok]
  have hcorner : ∀ i (h : i < 5), (if !(([a, b, c, d, e][i].x ==. E.minx) || ([a, b, c, d, e][i].x ==. E.maxx)) then some false
      else if !(([a, b, c, d, e][i].y ==. E.miny) || ([a, b, c, d, e][i].y ==. E.maxy)) then some false else none) = none ↔
      IsCorner E [a, b, c, d, e][i] := by
    intro i h
    unfold IsCorner
    cases h1 : ([a, b, c, d, e][i].x ==. E.minx) <;> cases h2 : ([a, b, c, d, e][i].x ==. E.maxx) <;>
      cases h3 : ([a, b, c, d, e][i].y ==. E.miny) <;> cases h4 : ([a, b, c, d, e][i].y ==. E.maxy) <;> simp
  rcases hf : (List.range' 0 (5 - 0)).findSome? _ with _ | r
  · rw [findSome?_range'_none] at hf
    have hall : ∀ v ∈ [a, b, c, d, e], IsCorner E v := by
      intro v hv
      obtain ⟨i, hi, rfl⟩ := List.mem_iff_getElem.mp hv
      have h5 : i < 5 := by simpa using hi
      rw [← hcorner i h5]
      have := hf i (by omega) (by omega)
      rw [dif_pos h5] at this
      exact this
    dsimp only
    rw [(hx 0 (by omega)).1, Res.bind_ok, (hx 0 (by omega)).2, Res.bind_ok]
    have step : ∀ u v : Coord α, (!((!(v.x ==. u.x)) == (!(v.y ==. u.y)))) = true ↔ OneStep u v := by
      intro u v
      unfold OneStep
      cases (v.x ==. u.x) <;> cases (v.y ==. u.y) <;> simp
    have bodyF : ∀ i (s : Bool × α × α), s.1 = false → (do
        if !s.1 then pure s
        else do
          let x ← p.shell.getSeq.getX i
          let y ← p.shell.getSeq.getY i
          let xc := !(x ==. s.2.1)
          let yc := !(y ==. s.2.2)
          pure (!(xc == yc), x, y) : Res (Bool × α × α)) = .ok s := by
      intro i s h; rw [h]; rfl
    have bodyT : ∀ i (hi : i < 5) (x y : α), (do
        if !(true, x, y).1 then pure (true, x, y)
        else do
          let x' ← p.shell.getSeq.getX i
          let y' ← p.shell.getSeq.getY i
          let xc := !(x' ==. (true, x, y).2.1)
          let yc := !(y' ==. (true, x, y).2.2)
          pure (!(xc == yc), x', y') : Res (Bool × α × α)) =
        .ok (!((!([a, b, c, d, e][i].x ==. x)) == (!([a, b, c, d, e][i].y ==. y))), [a, b, c, d, e][i].x, [a, b, c, d, e][i].y) := by
      intro i hi x y
      rw [(hx i hi).1, Res.bind_ok, (hx i hi).2]; rfl
    have inv := forRange_inv 1 5 (fun i (s : Bool × α × α) => do
        if !s.1 then pure s
        else do
          let x ← p.shell.getSeq.getX i
          let y ← p.shell.getSeq.getY i
          let xc := !(x ==. s.2.1)
          let yc := !(y ==. s.2.2)
          pure (!(xc == yc), x, y))
      (fun k s => (s.1 = true ↔ ∀ j (h : j + 1 < 5), j + 1 < k → OneStep ([a, b, c, d, e][j]'(by simp; omega)) ([a, b, c, d, e][j + 1]'(by simp; omega))) ∧
        (s.1 = true → ∀ h : k - 1 < 5, s.2 = ([a, b, c, d, e][k - 1].x, [a, b, c, d, e][k - 1].y))) (by omega)
      (true, [a, b, c, d, e][0].x, [a, b, c, d, e][0].y)
      ⟨Iff.intro (fun _ j _ h2 => by omega) (fun _ => rfl), fun _ _ => rfl⟩ (by
        rintro i ⟨t, x, y⟩ h1 h5 ⟨h2, h3⟩
        cases t with
        | false =>
          refine ⟨_, bodyF i (false, x, y) rfl, ?_, by intro h; cases h⟩
          simp only [Bool.false_eq_true, false_iff] at h2 ⊢
          intro h; exact h2 (fun j a b => h j a (by omega))
        | true =>
          refine ⟨_, bodyT i h5 x y, ?_, fun _ _ => rfl⟩
          have e3 := h3 rfl (by omega)
          dsimp only at e3
          injection e3 with e3 e4
          rw [e3, e4]
          dsimp only
          rw [step]
          constructor
          · intro hs j hj hji
            by_cases hh : j + 1 < i
            · exact h2.mp rfl j hj hh
            · obtain rfl : i = j + 1 := by omega
              exact hs
          · intro hs
            have := hs (i - 1) (by omega) (by omega)
            have e : i - 1 + 1 = i := by omega
            simp only [e] at this
            exact this)
    obtain ⟨s, k1, k2, -⟩ := inv
    rw [k1, Res.bind_ok]
    refine ⟨s.1, rfl, ?_⟩
    rw [k2]
    constructor
    · intro h
      refine ⟨hh, a, b, c, d, e, hs, by rw [← hE]; exact hall, h 0 (by omega) (by omega), h 1 (by omega) (by omega), h 2 (by omega) (by omega), h 3 (by omega) (by omega)⟩
    · rintro ⟨-, a', b', c', d', e', h, -, h1, h2, h3, h4⟩
      rw [hs] at h
      simp only [List.cons.injEq, and_true] at h
      obtain ⟨rfl, rfl, rfl, rfl, rfl⟩ := h
      intro j hj _
      match j, hj with
      | 0, _ => exact h1
      | 1, _ => exact h2
      | 2, _ => exact h3
      | 3, _ => exact h4
  · rw [findSome?_range'_some] at hf
    obtain ⟨k, -, h2, h3, -⟩ := hf
    have h5 : k < 5 := by omega
    rw [dif_pos h5] at h3
    dsimp only
    have hr : r = false := by split_ifs at h3 <;> simp_all
    subst hr
    refine ⟨false, rfl, ?_⟩
    constructor
    · intro h; cases h
    · rintro ⟨-, a', b', c', d', e', h, hc, -⟩
      rw [hs] at h
      simp only [List.cons.injEq, and_true] at h
      obtain ⟨rfl, rfl, rfl, rfl, rfl⟩ := h
      rw [← hE] at hc
      have := (hcorner k h5).mpr (hc _ (List.getElem_mem _))
      rw [this] at h3; cases h3

/-- C56: a closed shell of numbers whose opposite vertices differ and that passes the test is a rectangle with axis parallel sides: the
sides alternate between both directions and none is a point. -/
theorem C56_sound (p : Polygon α) (a b c d : Coord α) (h : p.isRectangle = .ok true) (e : Coord α)
    (hs : p.shell.points.coordinates = [a, b, c, d, e]) (hnn : ∀ v ∈ [a, b, c, d, e], v.NN) (hc : e.equals2D a = true)
    (h1 : a.equals2D c = false) (h2 : b.equals2D d = false) :
    FltOrd.key a.x = FltOrd.key b.x ∧ FltOrd.key b.y = FltOrd.key c.y ∧ FltOrd.key c.x = FltOrd.key d.x ∧ FltOrd.key d.y = FltOrd.key a.y ∧
      FltOrd.key a.x ≠ FltOrd.key c.x ∧ FltOrd.key a.y ≠ FltOrd.key c.y ∨
    FltOrd.key a.y = FltOrd.key b.y ∧ FltOrd.key b.x = FltOrd.key c.x ∧ FltOrd.key c.y = FltOrd.key d.y ∧ FltOrd.key d.x = FltOrd.key a.x ∧
      FltOrd.key a.x ≠ FltOrd.key c.x ∧ FltOrd.key a.y ≠ FltOrd.key c.y := by
  obtain ⟨r, k1, k2⟩ := C56_rectangle p
  rw [h] at k1
  injection k1 with k1
  obtain ⟨-, a', b', c', d', e', k3, k4, s1, s2, s3, s4⟩ := k2.mp k1.symm
  rw [hs] at k3
  simp only [List.cons.injEq, and_true] at k3
  obtain ⟨rfl, rfl, rfl, rfl, rfl⟩ := k3
  have key : ∀ v ∈ [a, b, c, d, e], isNaN v.x = false ∧ isNaN v.y = false := hnn
  obtain ⟨n1, n2⟩ := key a (by simp)
  obtain ⟨n3, n4⟩ := key b (by simp)
  obtain ⟨n5, n6⟩ := key c (by simp)
  obtain ⟨n7, n8⟩ := key d (by simp)
  obtain ⟨n9, n10⟩ := key e (by simp)
  have cor : ∀ v ∈ [a, b, c, d, e], (FltOrd.key v.x = FltOrd.key (envOf [a, b, c, d, e]).minx ∨ FltOrd.key v.x = FltOrd.key (envOf [a, b, c, d, e]).maxx) ∧
      (FltOrd.key v.y = FltOrd.key (envOf [a, b, c, d, e]).miny ∨ FltOrd.key v.y = FltOrd.key (envOf [a, b, c, d, e]).maxy) := by
    intro v hv
    have := k4 v hv
    unfold IsCorner at this
    simp only [FltOrd.eq_iff] at this
    exact ⟨this.1.imp (·.2.2) (·.2.2), this.2.imp (·.2.2) (·.2.2)⟩
  generalize envOf [a, b, c, d, e] = E at cor
  have ca := cor a (by simp)
  have cb := cor b (by simp)
  have cc := cor c (by simp)
  have cd := cor d (by simp)
  simp only [OneStep, eq_eq, n1, n2, n3, n4, n5, n6, n7, n8, n9, n10, Coord.equals2D] at s1 s2 s3 s4 hc h1 h2
  clear cor k1 k2 k4 hnn key h hs
  simp only [Bool.not_false, Bool.true_and, decide_eq_true_eq, decide_eq_false_iff_not, Bool.not_eq_true', if_false_left, if_false_right,
    Bool.and_eq_true, Bool.if_false_left, not_not, Bool.not_not, Bool.if_true_right, Bool.or_false, Bool.and_eq_false_iff] at s1 s2 s3 s4 hc h1 h2
  generalize FltOrd.key a.x = ax at *
  generalize FltOrd.key b.x = bx at *
  generalize FltOrd.key c.x = cx at *
  generalize FltOrd.key d.x = dx at *
  generalize FltOrd.key e.x = ex at *
  generalize FltOrd.key a.y = ay at *
  generalize FltOrd.key b.y = by' at *
  generalize FltOrd.key c.y = cy at *
  generalize FltOrd.key d.y = dy at *
  generalize FltOrd.key e.y = ey at *
  generalize FltOrd.key E.minx = x1 at *
  generalize FltOrd.key E.maxx = x2 at *
  generalize FltOrd.key E.miny = y1 at *
  generalize FltOrd.key E.maxy = y2 at *
  obtain ⟨rfl, rfl⟩ := hc
  clear n1 n2 n3 n4 n5 n6 n7 n8 n9 n10
  rcases s1 with ⟨s1, t1⟩ | ⟨s1, t1⟩ <;> rcases s2 with ⟨s2, t2⟩ | ⟨s2, t2⟩ <;> rcases s3 with ⟨s3, t3⟩ | ⟨s3, t3⟩ <;>
    rcases s4 with ⟨s4, t4⟩ | ⟨s4, t4⟩ <;> grind

theorem two_values {L : Type} [LinearOrder L] (a b c d v : L) (hb : b = a ∨ b = c) (hd : d = a ∨ d = c) (hv : v = a ∨ v = c) :
    v = min a (min d (min c (min b a))) ∨ v = max a (max d (max c (max b a))) := by
  rcases le_total a c with h | h <;> rcases hb with hb | hb <;> rcases hd with hd | hd <;> rcases hv with hv | hv <;> simp [hb, hd, hv, h]

/-- C56: every rectangle with axis parallel sides passes the test, from any corner, in both directions. -/
theorem C56_complete (s : CASeq α) (pm : Option (PM α)) (env env' : Option (Env α)) (pm' : Option (PM α)) (a b c d : Coord α)
    (hs : s.coordinates = [a, b, c, d, a]) (ha : a.NN) (hb : b.NN) (hc : c.NN) (hd : d.NN)
    (hx : FltOrd.key a.x ≠ FltOrd.key c.x) (hy : FltOrd.key a.y ≠ FltOrd.key c.y)
    (h : FltOrd.key a.x = FltOrd.key b.x ∧ FltOrd.key b.y = FltOrd.key c.y ∧ FltOrd.key c.x = FltOrd.key d.x ∧ FltOrd.key d.y = FltOrd.key a.y ∨
      FltOrd.key a.y = FltOrd.key b.y ∧ FltOrd.key b.x = FltOrd.key c.x ∧ FltOrd.key c.y = FltOrd.key d.y ∧ FltOrd.key d.x = FltOrd.key a.x) :
    (⟨⟨s, pm, env⟩, [], pm', env'⟩ : Polygon α).isRectangle = .ok true := by
  obtain ⟨r, k1, k2⟩ := C56_rectangle (⟨⟨s, pm, env⟩, [], pm', env'⟩ : Polygon α)
  rw [k1]
  congr 1
  rw [k2]
  refine ⟨rfl, a, b, c, d, a, hs, ?_, ?_, ?_, ?_, ?_⟩
  · have hnn : ∀ v ∈ [a, b, c, d, a], v.NN := by
      intro v hv; simp only [List.mem_cons, List.not_mem_nil, or_false] at hv
      rcases hv with rfl | rfl | rfl | rfl | rfl <;> assumption
    have e : envOf [a, b, c, d, a] = ((((Env.newCoordinate a).expandToIncludeXY b.x b.y).expandToIncludeXY c.x c.y).expandToIncludeXY d.x d.y).expandToIncludeXY a.x a.y := by
      have : (Env.null : Env α).expandToInclude a = Env.newCoordinate a := by
        rw [Env.expandToInclude, Env.null_isNull, if_pos rfl]; rfl
      rw [envOf]; simp only [List.foldl_cons, List.foldl_nil, this]; rfl
    obtain ⟨b1, p1, p2, p3, p4⟩ := (Env.newCoordinate_box ha).expandXY hb.1 hb.2
    obtain ⟨b2, q1, q2, q3, q4⟩ := b1.expandXY hc.1 hc.2
    obtain ⟨b3, r1, r2, r3, r4⟩ := b2.expandXY hd.1 hd.2
    obtain ⟨b4, t1, t2, t3, t4⟩ := b3.expandXY ha.1 ha.2
    rw [← e] at b4 t1 t2 t3 t4
    have g1 : FltOrd.key (Env.newCoordinate a).minx = FltOrd.key a.x := rfl
    have g2 : FltOrd.key (Env.newCoordinate a).maxx = FltOrd.key a.x := rfl
    have g3 : FltOrd.key (Env.newCoordinate a).miny = FltOrd.key a.y := rfl
    have g4 : FltOrd.key (Env.newCoordinate a).maxy = FltOrd.key a.y := rfl
    rw [r1, q1, p1, g1] at t1
    rw [r2, q2, p2, g2] at t2
    rw [r3, q3, p3, g3] at t3
    rw [r4, q4, p4, g4] at t4
    intro v hv
    unfold IsCorner
    have hv' := hnn v hv
    simp only [FltOrd.eq_iff, hv'.1, hv'.2, b4.nx1, b4.nx2, b4.ny1, b4.ny2, true_and, t1, t2, t3, t4]
    have hvx : FltOrd.key v.x = FltOrd.key a.x ∨ FltOrd.key v.x = FltOrd.key c.x := by
      simp only [List.mem_cons, List.not_mem_nil, or_false] at hv
      rcases hv with rfl | rfl | rfl | rfl | rfl <;> rcases h with h | h <;> simp [h]
    have hvy : FltOrd.key v.y = FltOrd.key a.y ∨ FltOrd.key v.y = FltOrd.key c.y := by
      simp only [List.mem_cons, List.not_mem_nil, or_false] at hv
      rcases hv with rfl | rfl | rfl | rfl | rfl <;> rcases h with h | h <;> simp [h]
    exact ⟨two_values _ _ _ _ _ (by rcases h with h | h <;> simp [h]) (by rcases h with h | h <;> simp [h]) hvx,
      two_values _ _ _ _ _ (by rcases h with h | h <;> simp [h]) (by rcases h with h | h <;> simp [h]) hvy⟩
  all_goals
    simp only [OneStep, eq_eq, ha.1, ha.2, hb.1, hb.2, hc.1, hc.2, hd.1, hd.2]
    grind

end char

/-! ## Examples and limits -/

private def pt' (x y : ℚ) : Coord EQ := Coord.xy (.fin x) (.fin y)
private def pg (l : List (Coord EQ)) : Polygon EQ := ⟨⟨CASeq.ofCoordinates l, none, none⟩, [], none, none⟩

example : (pg [pt' 0 0, pt' 0 2, pt' 3 2, pt' 3 0, pt' 0 0]).isRectangle = .ok true := by decide +kernel
example : (pg [pt' 0 0, pt' 0 2, pt' 3 2, pt' 3 1, pt' 0 0]).isRectangle = .ok false := by decide +kernel
example : (pg [pt' 0 0, pt' 1 1, pt' 2 0, pt' 1 (-1), pt' 0 0]).isRectangle = .ok false := by decide +kernel

/-- C56: shells that are no rectangles pass: a segment walked twice, an angle walked back and forth, and an open shell. -/
theorem C56_accepts_more :
    (pg [pt' 0 0, pt' 1 0, pt' 0 0, pt' 1 0, pt' 0 0]).isRectangle = .ok true ∧
    (pg [pt' 0 0, pt' 1 0, pt' 1 1, pt' 1 0, pt' 0 0]).isRectangle = .ok true ∧
    (pg [pt' 0 0, pt' 1 0, pt' 1 1, pt' 0 1, pt' 1 1]).isRectangle = .ok true := by decide +kernel

/-- C56: a segment given as a rectangle of width zero does not pass. -/
theorem C56_flat : (pg [pt' 0 0, pt' 1 0, pt' 1 0, pt' 0 0, pt' 0 0]).isRectangle = .ok false := by decide +kernel

end Verif.Props
