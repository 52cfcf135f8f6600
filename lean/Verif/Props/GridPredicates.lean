import Verif.Props.OrientationGrid
import Verif.Props.CCWMotion
import Verif.Props.OnLine
import Verif.Props.LineIntersector

set_option linter.unusedSectionVars false

/-! # C66: ring and segment predicates on grid points in binary64

The predicates only compare ordinates, take orientation indices and (the ring orientation) the sign of one difference. Two
arithmetics that agree on these agree on the predicates. -/

namespace Verif.Props
open Flt Verif.Spec Verif.Binary64

section Transfer
variable {α β I : Type} [Flt α] [Flt β]

/-- Two ways to write down the same points, on which all comparisons and orientation indices agree. -/
structure SimOrd (F : I → Coord α) (G : I → Coord β) : Prop where
  nx : ∀ i, isNaN (F i).x = isNaN (G i).x
  ny : ∀ i, isNaN (F i).y = isNaN (G i).y
  ltx : ∀ i j, ((F i).x <. (F j).x) = ((G i).x <. (G j).x)
  lty : ∀ i j, ((F i).y <. (F j).y) = ((G i).y <. (G j).y)
  lex : ∀ i j, ((F i).x ≤. (F j).x) = ((G i).x ≤. (G j).x)
  ley : ∀ i j, ((F i).y ≤. (F j).y) = ((G i).y ≤. (G j).y)
  eqx : ∀ i j, ((F i).x ==. (F j).x) = ((G i).x ==. (G j).x)
  eqy : ∀ i j, ((F i).y ==. (F j).y) = ((G i).y ==. (G j).y)
  dx : ∀ i j, (((F i).x -. (F j).x) <. lit 0) = (((G i).x -. (G j).x) <. lit 0)

/-- They have the same orientations too. -/
structure Sim (F : I → Coord α) (G : I → Coord β) : Prop extends SimOrd F G where
  index : ∀ i j k, Orientation.index (F i) (F j) (F k) = Orientation.index (G i) (G j) (G k)

variable {F : I → Coord α} {G : I → Coord β}

theorem SimOrd.equals2D (h : SimOrd F G) (i j : I) : (F i).equals2D (F j) = (G i).equals2D (G j) := by
  unfold Coord.equals2D; rw [h.eqx, h.eqy]

theorem SimOrd.pick (h : SimOrd F G) (i j : I) :
    (∃ k, fmin (F i).x (F j).x = (F k).x ∧ fmin (G i).x (G j).x = (G k).x) ∧
    (∃ k, fmax (F i).x (F j).x = (F k).x ∧ fmax (G i).x (G j).x = (G k).x) ∧
    (∃ k, fmin (F i).y (F j).y = (F k).y ∧ fmin (G i).y (G j).y = (G k).y) ∧
    (∃ k, fmax (F i).y (F j).y = (F k).y ∧ fmax (G i).y (G j).y = (G k).y) := by
  unfold fmin fmax
  simp only [h.nx, h.ny, h.ltx, h.lty]
  refine ⟨?_, ?_, ?_, ?_⟩ <;> split_ifs <;> first | exact ⟨i, rfl, rfl⟩ | exact ⟨j, rfl, rfl⟩

theorem SimOrd.intersects4 (h : SimOrd F G) (i j k l : I) :
    Env.intersects4 (F i) (F j) (F k) (F l) = Env.intersects4 (G i) (G j) (G k) (G l) := by
  unfold Env.intersects4
  obtain ⟨⟨a, a1, a2⟩, ⟨b, b1, b2⟩, ⟨c, c1, c2⟩, ⟨d, d1, d2⟩⟩ := h.pick i j
  obtain ⟨⟨a', a1', a2'⟩, ⟨b', b1', b2'⟩, ⟨c', c1', c2'⟩, ⟨d', d1', d2'⟩⟩ := h.pick k l
  simp only [a1, a2, b1, b2, c1, c2, d1, d2, a1', a2', b1', b2', c1', c2', d1', d2', h.ltx, h.lty]

theorem SimOrd.intersects3 (h : SimOrd F G) (i j k : I) : Env.intersects3 (F i) (F j) (F k) = Env.intersects3 (G i) (G j) (G k) := by
  unfold Env.intersects3
  simp only [h.ltx, h.lty]
  cases ((G i).x <. (G j).x) <;> cases ((G j).x <. (G i).x) <;> cases ((G i).y <. (G j).y) <;> cases ((G j).y <. (G i).y) <;>
    simp only [if_true, if_false, Bool.false_eq_true, h.lex, h.ley]

theorem Sim.isOnSegment (h : Sim F G) (i j k : I) :
    PointLocation.isOnSegment (F i) (F j) (F k) = PointLocation.isOnSegment (G i) (G j) (G k) := by
  unfold PointLocation.isOnSegment
  rw [h.intersects3, h.equals2D, h.index]

theorem segs_prod_map {A B : Type} (f : A → B) (l : List A) : segs (l.map f) = (segs l).map (Prod.map f f) := by
  unfold segs
  rw [← List.map_tail, List.zip_map]

theorem Sim.isOnLine (h : Sim F G) (i : I) (l : List I) :
    PointLocation.isOnLine (F i) (l.map F) = PointLocation.isOnLine (G i) (l.map G) := by
  rw [isOnLine_any, isOnLine_any, segs_prod_map, segs_prod_map, List.any_map, List.any_map]
  congr 2
  funext s
  exact h.isOnSegment i s.1 s.2

/-- The counters hold the same point and the same counts. -/
def SameCount (F : I → Coord α) (G : I → Coord β) (i : I) (c : RayCounter α) (d : RayCounter β) : Prop :=
  c.p = F i ∧ d.p = G i ∧ c.count = d.count ∧ c.onSegment = d.onSegment

theorem Sim.step (h : Sim F G) (i j k : I) (c : RayCounter α) (d : RayCounter β) (r : SameCount F G i c d) :
    SameCount F G i (c.step (F j) (F k)) (d.step (G j) (G k)) := by
  obtain ⟨p, n, o⟩ := c
  obtain ⟨p', n', o'⟩ := d
  obtain ⟨rfl, rfl, rfl, rfl⟩ := r
  unfold RayCounter.step RayCounter.countSegment
  simp only [h.ltx, h.lty, h.eqx, h.eqy, h.ley, h.index]
  cases ((G k).x <. (G j).x) <;>
    simp only [if_true, if_false, Bool.false_eq_true, h.lex] <;> split_ifs <;> exact ⟨rfl, rfl, rfl, rfl⟩

theorem locate_fold_any (p : Coord α) (ring : List (Coord α)) :
    RayCounter.locateVec p ring = .ok ((segs ring).foldl (fun c s => c.step s.2 s.1) (RayCounter.new p)).getLocation := by
  unfold RayCounter.locateVec
  have := forRange_foldl (σ := RayCounter α) (segs ring) 1 ring.length (by simp) (fun i counter => do
    let p1 ← Res.get ring i
    let p2 ← Res.get ring (i - 1)
    pure (counter.step p1 p2)) (fun c s => c.step s.2 s.1) (by
      intro k hk s
      have hk' : k + 1 < ring.length := by simp at hk; omega
      rw [getElem_segs, Nat.add_comm 1 k, Nat.add_sub_cancel, Res.get_lt hk', Res.get_lt (by omega : k < ring.length)]
      rfl) (RayCounter.new p)
  rw [this]
  rfl

theorem Sim.locate (h : Sim F G) (i : I) (l : List I) :
    PointLocation.locateInRing (F i) (l.map F) = PointLocation.locateInRing (G i) (l.map G) := by
  unfold PointLocation.locateInRing
  rw [locate_fold_any, locate_fold_any, segs_prod_map, segs_prod_map, List.foldl_map, List.foldl_map]
  have key : ∀ (s : List (I × I)) c d, SameCount F G i c d →
      SameCount F G i (s.foldl (fun c t => c.step (F t.2) (F t.1)) c) (s.foldl (fun c t => c.step (G t.2) (G t.1)) d) := by
    intro s
    induction s with
    | nil => intro c d hr; exact hr
    | cons a s ih => intro c d hr; exact ih _ _ (h.step i a.2 a.1 c d hr)
  obtain ⟨-, -, k3, k4⟩ := key (segs l) (RayCounter.new (F i)) (RayCounter.new (G i)) ⟨rfl, rfl, rfl, rfl⟩
  have gl : ∀ (c : RayCounter α) (d : RayCounter β), c.count = d.count → c.onSegment = d.onSegment → c.getLocation = d.getLocation := by
    intro c d h1 h2; unfold RayCounter.getLocation; rw [h1, h2]
  exact congrArg Except.ok (gl _ _ k3 k4)

theorem Sim.isInRing (h : Sim F G) (i : I) (l : List I) :
    PointLocation.isInRing (F i) (l.map F) = PointLocation.isInRing (G i) (l.map G) := by
  unfold PointLocation.isInRing; rw [h.locate]

/-- The ring orientation. -/
theorem Sim.isCCW (h : Sim F G) (l : List I) : Orientation.isCCW (l.map F) = Orientation.isCCW (l.map G) := by
  unfold Orientation.isCCW Orientation.isCCWSeq Orientation.asSeq
  simp only [CASeq.size, List.length_map]
  by_cases hl : l.length < 4
  · by_cases hn : l.length = 0
    · rw [hn]; rfl
    · rw [Res.sub_le (by omega)]
      simp only [Res.bind_ok]
      rw [if_pos (by omega), if_pos (by omega)]
  push Not at hl
  rw [Res.sub_le (by omega)]
  simp only [Res.bind_ok]
  rw [if_neg (by omega), if_neg (by omega)]
  obtain ⟨n, hn⟩ : ∃ n, n = l.length - 1 := ⟨_, rfl⟩
  rw [← hn]
  have scanRel : ∃ s t, Orientation.scan (⟨2, 0, l.map F⟩ : CASeq α) n = .ok s ∧ Orientation.scan (⟨2, 0, l.map G⟩ : CASeq β) n = .ok t ∧
      ∃ u v : I, s.upHi = F u ∧ t.upHi = G u ∧ s.prevY = (F v).y ∧ t.prevY = (G v).y ∧ t.iUpHi = s.iUpHi ∧
        (s.iUpHi ≠ 0 → ∃ w, s.upLow = F w ∧ t.upLow = G w) := by
    unfold Orientation.scan
    simp only [CASeq.getCoordinate]
    rw [Res.get_lt (by simp; omega : 0 < (l.map F).length), Res.get_lt (by simp; omega : 0 < (l.map G).length)]
    simp only [Res.bind_ok]
    apply forRange_rel 1 (n + 1) _ _ (fun (s : Orientation.Scan α) (t : Orientation.Scan β) =>
      ∃ u v : I, s.upHi = F u ∧ t.upHi = G u ∧ s.prevY = (F v).y ∧ t.prevY = (G v).y ∧ t.iUpHi = s.iUpHi ∧
        (s.iUpHi ≠ 0 → ∃ w, s.upLow = F w ∧ t.upLow = G w)) (by omega)
    · exact ⟨l[0]'(by omega), l[0]'(by omega), by simp, by simp, by simp, by simp, rfl, fun h => absurd rfl h⟩
    · rintro i s t h1 h2 ⟨u, v, r1, r2, r3, r4, r5, r6⟩
      have hi : i < l.length := by omega
      rw [getOrd_asSeq (l.map F) 2 0 i (by simpa using hi), getOrd_asSeq (l.map G) 2 0 i (by simpa using hi)]
      simp only [Res.bind_ok, List.getElem_map, r1, r2, r3, r4, h.lty, h.ley]
      rw [Res.get_lt (by simpa using hi : i < (l.map F).length), Res.get_lt (by simpa using hi : i < (l.map G).length),
        Res.get_lt (by simp; omega : i - 1 < (l.map F).length), Res.get_lt (by simp; omega : i - 1 < (l.map G).length)]
      split_ifs
      · exact ⟨_, _, rfl, rfl, l[i], l[i], by simp, by simp, rfl, rfl, rfl, fun _ => ⟨l[i - 1]'(by omega), by simp, by simp⟩⟩
      · exact ⟨_, _, rfl, rfl, u, l[i], rfl, rfl, rfl, rfl, r5, r6⟩
  obtain ⟨s, t, e1, e2, u, v, r1, r2, r3, r4, r5, r6⟩ := scanRel
  rw [e1, e2]
  simp only [Res.bind_ok, r5]
  by_cases h0 : s.iUpHi = 0
  · rw [if_pos h0, if_pos h0]
  · rw [if_neg h0, if_neg h0]
    obtain ⟨w, w1, w2⟩ := r6 h0
    have hfd : ∀ fuel i, Orientation.findDown (⟨2, 0, l.map F⟩ : CASeq α) n s.upHi.y s.iUpHi fuel i
        = Orientation.findDown (⟨2, 0, l.map G⟩ : CASeq β) n t.upHi.y s.iUpHi fuel i := by
      intro fuel
      induction fuel with
      | zero => intro i; rfl
      | succ fuel ih =>
        intro i
        have hm : (i + 1) % n < l.length := lt_of_lt_of_le (Nat.mod_lt _ (by omega)) (by omega)
        simp only [Orientation.findDown]
        rw [getOrd_asSeq (l.map F) 2 0 _ (by simpa using hm), getOrd_asSeq (l.map G) 2 0 _ (by simpa using hm)]
        simp only [Res.bind_ok, List.getElem_map, ih]
        simp only [r1, r2, h.eqy]
    have hget : ∀ i, (⟨2, 0, l.map F⟩ : CASeq α).getCoordinate i = F <$> Res.get l i ∧
        (⟨2, 0, l.map G⟩ : CASeq β).getCoordinate i = G <$> Res.get l i := by
      intro i
      simp only [CASeq.getCoordinate]
      by_cases hi : i < l.length
      · rw [Res.get_lt hi, Res.get_lt (by simpa using hi : i < (l.map F).length), Res.get_lt (by simpa using hi : i < (l.map G).length)]
        simp
      · rw [Res.get_ge (by omega : l.length ≤ i), Res.get_ge (by simp; omega : (l.map F).length ≤ i), Res.get_ge (by simp; omega : (l.map G).length ≤ i)]
        exact ⟨rfl, rfl⟩
    rw [hfd]
    cases Orientation.findDown (⟨2, 0, l.map G⟩ : CASeq β) n t.upHi.y s.iUpHi (n + 1) s.iUpHi with
    | error e => rfl
    | ok i =>
      simp only [Res.bind_ok, (hget _).1, (hget _).2]
      cases Res.get l i with
      | error e => rfl
      | ok dl =>
        simp only [Res.map_ok, Res.bind_ok]
        cases Res.get l (if i > 0 then i - 1 else n - 1) with
        | error e => rfl
        | ok dh =>
          simp only [Res.map_ok, Res.bind_ok, r1, r2, w1, w2, h.equals2D, h.index, h.dx]

end Transfer

section Intersector
variable {α β I : Type} [FltSqrt α] [FltRound α] [FltSqrt β] [FltRound β] {F : I → Coord α} {G : I → Coord β}

theorem Sim.compute3 (h : Sim F G) (s : LI α) (t : LI β) (i j k : I) :
    (s.compute3 (F i) (F j) (F k)).result = (t.compute3 (G i) (G j) (G k)).result ∧
    (s.compute3 (F i) (F j) (F k)).isProper = (t.compute3 (G i) (G j) (G k)).isProper := by
  unfold LI.compute3
  simp only [h.intersects3, h.index, h.equals2D]
  split_ifs <;> exact ⟨rfl, rfl⟩

theorem SimOrd.collinear (h : SimOrd F G) (s : LI α) (t : LI β) (hp : s.isProper = t.isProper) (i j k l : I) :
    (s.computeCollinear (F i) (F j) (F k) (F l)).1 = (t.computeCollinear (G i) (G j) (G k) (G l)).1 ∧
    (s.computeCollinear (F i) (F j) (F k) (F l)).2.isProper = (t.computeCollinear (G i) (G j) (G k) (G l)).2.isProper := by
  unfold LI.computeCollinear
  simp only [h.intersects3, h.equals2D]
  split_ifs <;> exact ⟨rfl, hp⟩

/-- The orientations that the intersector takes for two segments agree. -/
def SameTurns (F : I → Coord α) (G : I → Coord β) (i j k l : I) : Prop :=
  Env.intersects4 (G i) (G j) (G k) (G l) = true →
    Orientation.index (F i) (F j) (F k) = Orientation.index (G i) (G j) (G k) ∧
    Orientation.index (F i) (F j) (F l) = Orientation.index (G i) (G j) (G l) ∧
    (¬ ((Orientation.index (G i) (G j) (G k) > 0 ∧ Orientation.index (G i) (G j) (G l) > 0) ∨
        (Orientation.index (G i) (G j) (G k) < 0 ∧ Orientation.index (G i) (G j) (G l) < 0)) →
      Orientation.index (F k) (F l) (F i) = Orientation.index (G k) (G l) (G i) ∧
      Orientation.index (F k) (F l) (F j) = Orientation.index (G k) (G l) (G j))

theorem Sim.turns (h : Sim F G) (i j k l : I) : SameTurns F G i j k l :=
  fun _ => ⟨h.index _ _ _, h.index _ _ _, fun _ => ⟨h.index _ _ _, h.index _ _ _⟩⟩

theorem SimOrd.compute4_at (h : SimOrd F G) (s : LI α) (t : LI β) (i j k l : I) (ht : SameTurns F G i j k l) :
    (s.compute4 (F i) (F j) (F k) (F l)).result = (t.compute4 (G i) (G j) (G k) (G l)).result ∧
    (s.compute4 (F i) (F j) (F k) (F l)).isProper = (t.compute4 (G i) (G j) (G k) (G l)).isProper := by
  unfold LI.compute4 LI.computeIntersect
  simp only [h.intersects4]
  by_cases c1 : Env.intersects4 (G i) (G j) (G k) (G l) = true
  · obtain ⟨i1, i2, i3⟩ := ht c1
    simp only [c1, i1, i2]
    by_cases c2 : (Orientation.index (G i) (G j) (G k) > 0 ∧ Orientation.index (G i) (G j) (G l) > 0) ∨
        (Orientation.index (G i) (G j) (G k) < 0 ∧ Orientation.index (G i) (G j) (G l) < 0)
    · simp only [if_pos c2]; exact ⟨rfl, rfl⟩
    · simp only [if_neg c2, (i3 c2).1, (i3 c2).2]
      split_ifs <;> first | exact ⟨rfl, rfl⟩ | exact h.collinear _ _ rfl i j k l
  · simp only [c1]; exact ⟨rfl, rfl⟩

theorem Sim.compute4 (h : Sim F G) (s : LI α) (t : LI β) (i j k l : I) :
    (s.compute4 (F i) (F j) (F k) (F l)).result = (t.compute4 (G i) (G j) (G k) (G l)).result ∧
    (s.compute4 (F i) (F j) (F k) (F l)).isProper = (t.compute4 (G i) (G j) (G k) (G l)).isProper :=
  h.compute4_at s t i j k l (h.turns i j k l)

end Intersector

/-! ## Grid points -/

variable {sq : ℚ → Val} {hy : ℚ → ℚ → Val}

/-- The points of a grid. -/
abbrev GridPt (g : ℤ) : Type := {c : Coord ℚ // OnGrid g c}

theorem b64_lt (a b : ℚ) : ((Fl.fin a : B64 sq hy) <. Fl.fin b) = decide (a < b) := rfl
theorem b64_le (a b : ℚ) : ((Fl.fin a : B64 sq hy) ≤. Fl.fin b) = decide (a ≤ b) := rfl
theorem b64_eq (a b : ℚ) : ((Fl.fin a : B64 sq hy) ==. Fl.fin b) = decide (a = b) := rfl

/-- Binary64 and exact rational arithmetic agree on grid points. -/
theorem sim_grid (g : ℤ) (h1 : -484 ≤ g) (h2 : g ≤ 400) :
    Sim (fun c : GridPt g => (toB64 c.1 : Coord (B64 sq hy))) (fun c => c.1) where
  nx _ := rfl
  ny _ := rfl
  ltx _ _ := rfl
  lty _ _ := rfl
  lex _ _ := rfl
  ley _ _ := rfl
  eqx _ _ := rfl
  eqy _ _ := rfl
  dx a b := by
    obtain ⟨_, _, m1, m2, m3, m4⟩ := a.2
    obtain ⟨_, _, n1, n2, n3, n4⟩ := b.2
    have hd := rnd_of_f64 (diff_f64 (ord_diff (ord_of m1 m3) (ord_of n1 n3)) (by omega) (by omega))
    have e : ((toB64 a.1 : Coord (B64 sq hy)).x -. (toB64 b.1 : Coord (B64 sq hy)).x) = Fl.fin (a.1.x - b.1.x) := (fl_sub_fin a.1.x b.1.x).trans hd
    have e2 := congrArg (fun z => z <. (lit 0 : B64 sq hy)) e
    refine e2.trans ?_
    rw [lit64]
    simp only [exact_sub, exact_lt, exact_lit, Rat.cast_zero]
    rfl
  index a b c := (C65_index_on_grid g h1 h2 a.1 b.1 c.1 a.2 b.2 c.2).trans (C29_index_is_sign _ _ _).symm

/-- Rational and real arithmetic agree. -/
theorem sim_real : Sim (fun c : Coord ℚ => c) (fun c => realPt c) where
  nx _ := rfl
  ny _ := rfl
  ltx a b := by simp [realPt]
  lty a b := by simp [realPt]
  lex a b := by simp [realPt]
  ley a b := by simp [realPt]
  eqx a b := by simp [realPt]
  eqy a b := by simp [realPt]
  dx a b := by simp [realPt]
  index a b c := by
    have : det (realPt a) (realPt b) (realPt c) = ((det a b c : ℚ) : ℝ) := by
      simp only [det, realPt]; push_cast; ring
    rw [C29_index_is_sign, C29_index_is_sign, this]
    unfold sgn
    simp only [Rat.cast_pos, Rat.cast_lt_zero]

theorem Sim.trans {α β γ I : Type} [Flt α] [Flt β] [Flt γ] {F : I → Coord α} {G : I → Coord β} {H : I → Coord γ} (h : Sim F G) (k : Sim G H) : Sim F H :=
  ⟨⟨fun i => (h.nx i).trans (k.nx i), fun i => (h.ny i).trans (k.ny i), fun i j => (h.ltx i j).trans (k.ltx i j), fun i j => (h.lty i j).trans (k.lty i j),
    fun i j => (h.lex i j).trans (k.lex i j), fun i j => (h.ley i j).trans (k.ley i j), fun i j => (h.eqx i j).trans (k.eqx i j),
    fun i j => (h.eqy i j).trans (k.eqy i j), fun i j => (h.dx i j).trans (k.dx i j)⟩, fun i j l => (h.index i j l).trans (k.index i j l)⟩

theorem Sim.comp {α β I J : Type} [Flt α] [Flt β] {F : I → Coord α} {G : I → Coord β} (h : Sim F G) (f : J → I) :
    Sim (fun j => F (f j)) (fun j => G (f j)) :=
  ⟨⟨fun _ => h.nx _, fun _ => h.ny _, fun _ _ => h.ltx _ _, fun _ _ => h.lty _ _, fun _ _ => h.lex _ _, fun _ _ => h.ley _ _,
    fun _ _ => h.eqx _ _, fun _ _ => h.eqy _ _, fun _ _ => h.dx _ _⟩, fun _ _ _ => h.index _ _ _⟩

/-- Binary64 and exact real arithmetic agree on grid points. -/
theorem sim_grid_real (g : ℤ) (h1 : -484 ≤ g) (h2 : g ≤ 400) :
    Sim (fun c : GridPt g => (toB64 c.1 : Coord (B64 sq hy))) (fun c => realPt c.1) := (sim_grid g h1 h2).trans (sim_real.comp _)

theorem map_grid {g : ℤ} {A : Type} (f : Coord ℚ → A) (l : List (GridPt g)) : (l.map Subtype.val).map f = l.map (fun c => f c.1) := by
  rw [List.map_map]; rfl

/-- Point in ring: boundary exactly for the points of the ring, else interior or exterior by the parity of crossings. -/
theorem C66_locate (g : ℤ) (h1 : -484 ≤ g) (h2 : g ≤ 400) (p : Coord ℚ) (ring : List (Coord ℚ)) (hp : OnGrid g p) (hr : ∀ c ∈ ring, OnGrid g c)
    (hc : Closed2D ring) :
    ∃ loc, PointLocation.locateInRing (toB64 p : Coord (B64 sq hy)) (ring.map toB64) = .ok loc ∧
      (OnLine p ring → loc = Location.BOUNDARY) ∧
      (¬ OnLine p ring → crossings p ring % 2 = 1 → loc = Location.INTERIOR) ∧
      (¬ OnLine p ring → crossings p ring % 2 = 0 → loc = Location.EXTERIOR) := by
  lift ring to List (GridPt g) using hr
  have e := (sim_grid (sq := sq) (hy := hy) g h1 h2).locate ⟨p, hp⟩ ring
  rw [map_grid, e]
  exact C31_locate p _ hc

/-- The containment test. -/
theorem C66_isInRing (g : ℤ) (h1 : -484 ≤ g) (h2 : g ≤ 400) (p : Coord ℚ) (ring : List (Coord ℚ)) (hp : OnGrid g p) (hr : ∀ c ∈ ring, OnGrid g c)
    (hc : Closed2D ring) :
    ∃ b, PointLocation.isInRing (toB64 p : Coord (B64 sq hy)) (ring.map toB64) = .ok b ∧ (b = true ↔ OnLine p ring ∨ crossings p ring % 2 = 1) := by
  obtain ⟨loc, e, a1, a2, a3⟩ := C66_locate (sq := sq) (hy := hy) g h1 h2 p ring hp hr hc
  refine ⟨_, by unfold PointLocation.isInRing; rw [e]; rfl, ?_⟩
  rw [decide_eq_true_iff]
  by_cases ho : OnLine p ring
  · rw [a1 ho]; exact ⟨fun _ => Or.inl ho, fun _ => by decide⟩
  · rcases Nat.mod_two_eq_zero_or_one (crossings p ring) with hm | hm
    · rw [a3 ho hm]; exact ⟨fun h => absurd rfl h, fun h => by rcases h with h | h; exact absurd h ho; omega⟩
    · rw [a2 ho hm]; exact ⟨fun _ => Or.inr hm, fun _ => by decide⟩

/-- On a segment, on a line. -/
theorem C66_onSegment (g : ℤ) (h1 : -484 ≤ g) (h2 : g ≤ 400) (p a b : Coord ℚ) (hp : OnGrid g p) (ha : OnGrid g a) (hb : OnGrid g b) :
    PointLocation.isOnSegment (toB64 p : Coord (B64 sq hy)) (toB64 a) (toB64 b) = true ↔ OnSegment p a b := by
  rw [← C32_onSegment]
  exact iff_of_eq (congrArg (· = true) ((sim_grid g h1 h2).isOnSegment ⟨p, hp⟩ ⟨a, ha⟩ ⟨b, hb⟩))

theorem C66_onLine (g : ℤ) (h1 : -484 ≤ g) (h2 : g ≤ 400) (p : Coord ℚ) (line : List (Coord ℚ)) (hp : OnGrid g p) (hr : ∀ c ∈ line, OnGrid g c) :
    ∃ b, PointLocation.isOnLine (toB64 p : Coord (B64 sq hy)) (line.map toB64) = .ok b ∧ (b = true ↔ OnLine p line) := by
  lift line to List (GridPt g) using hr
  have e := (sim_grid (sq := sq) (hy := hy) g h1 h2).isOnLine ⟨p, hp⟩ line
  rw [map_grid, e]
  exact C32_onLine p _

/-- The orientation of a ring is the one of exact arithmetic (to which the theorems of C34 apply); in particular triangles and
convex rings are oriented right. -/
theorem C66_isCCW (g : ℤ) (h1 : -484 ≤ g) (h2 : g ≤ 400) (ring : List (Coord ℚ)) (hr : ∀ c ∈ ring, OnGrid g c) :
    Orientation.isCCW (ring.map (toB64 : Coord ℚ → Coord (B64 sq hy))) = Orientation.isCCW ring := by
  lift ring to List (GridPt g) using hr
  have e := (sim_grid (sq := sq) (hy := hy) g h1 h2).isCCW ring
  rw [map_grid, e]

theorem C66_isCCW_triangle (g : ℤ) (h1 : -484 ≤ g) (h2 : g ≤ 400) (a b c : Coord ℚ) (ha : OnGrid g a) (hb : OnGrid g b) (hc : OnGrid g c) :
    Orientation.isCCW [(toB64 a : Coord (B64 sq hy)), toB64 b, toB64 c, toB64 a] = .ok (decide (0 < det a b c)) := by
  have := C66_isCCW (sq := sq) (hy := hy) g h1 h2 [a, b, c, a] (by
    intro x hx; simp only [List.mem_cons, List.not_mem_nil, or_false] at hx; rcases hx with rfl | rfl | rfl | rfl <;> assumption)
  rw [← C34_triangle]
  exact this

theorem C66_isCCW_convex (g : ℤ) (h1 : -484 ≤ g) (h2 : g ≤ 400) (v : List (Coord ℚ)) (hv : ∀ c ∈ v, OnGrid g c) :
    (ConvexLeft v → Orientation.isCCW ((closed v).map (toB64 : Coord ℚ → Coord (B64 sq hy))) = .ok true) ∧
    (ConvexLeft v.reverse → Orientation.isCCW ((closed v).map (toB64 : Coord ℚ → Coord (B64 sq hy))) = .ok false) := by
  rw [C66_isCCW g h1 h2 (closed v) (by
    intro c hc
    cases v with
    | nil => simp [closed] at hc
    | cons a l =>
      rcases List.mem_append.mp hc with hc | hc
      · exact hv c hc
      · exact hv c (List.mem_of_mem_take hc))]
  exact ⟨C34_convex_left v, C34_convex_right v⟩

/-- Whether two segments have a common point, and whether they cross properly. -/
theorem C66_segments_meet (g : ℤ) (h1 : -484 ≤ g) (h2 : g ≤ 400) (s : LI (B64 sq hy)) (p1 p2 q1 q2 : Coord ℚ) (hp1 : OnGrid g p1) (hp2 : OnGrid g p2)
    (hq1 : OnGrid g q1) (hq2 : OnGrid g q2) :
    ((s.compute4 (toB64 p1) (toB64 p2) (toB64 q1) (toB64 q2)).hasIntersection = true ↔
      ∃ c, OnSegment c (realPt p1) (realPt p2) ∧ OnSegment c (realPt q1) (realPt q2)) ∧
    ((s.compute4 (toB64 p1) (toB64 p2) (toB64 q1) (toB64 q2)).isProper = true ↔
      ∃ c, Inside c (realPt p1) (realPt p2) ∧ Inside c (realPt q1) (realPt q2) ∧
        ∀ c', (OnSegment c' (realPt p1) (realPt p2) ∧ OnSegment c' (realPt q1) (realPt q2)) → Same c' c) := by
  obtain ⟨e1, e2⟩ := (sim_grid_real (sq := sq) (hy := hy) g h1 h2).compute4 s (LI.default : LI ℝ) ⟨p1, hp1⟩ ⟨p2, hp2⟩ ⟨q1, hq1⟩ ⟨q2, hq2⟩
  rw [← (C38_none_iff_disjoint LI.default _ _ _ _).2, ← C38_proper (LI.default : LI ℝ)]
  unfold LI.hasIntersection
  dsimp only at e1 e2
  rw [e1, e2]
  exact ⟨Iff.rfl, Iff.rfl⟩

/-- A point or an overlap. -/
theorem C66_classification (g : ℤ) (h1 : -484 ≤ g) (h2 : g ≤ 400) (s : LI (B64 sq hy)) (p1 p2 q1 q2 : Coord ℚ) (hp1 : OnGrid g p1) (hp2 : OnGrid g p2)
    (hq1 : OnGrid g q1) (hq2 : OnGrid g q2) (hp : ¬ Same p1 p2) (hq : ¬ Same q1 q2) :
    ((s.compute4 (toB64 p1) (toB64 p2) (toB64 q1) (toB64 q2)).result = 1 ↔
      ∃ d, ∀ c, (OnSegment c (realPt p1) (realPt p2) ∧ OnSegment c (realPt q1) (realPt q2)) ↔ Same c d) ∧
    ((s.compute4 (toB64 p1) (toB64 p2) (toB64 q1) (toB64 q2)).result = 2 ↔
      ∃ a b, ¬ Same a b ∧ ∀ c, (OnSegment c (realPt p1) (realPt p2) ∧ OnSegment c (realPt q1) (realPt q2)) ↔ OnSegment c a b) := by
  obtain ⟨e1, e2⟩ := (sim_grid_real (sq := sq) (hy := hy) g h1 h2).compute4 s (LI.default : LI ℝ) ⟨p1, hp1⟩ ⟨p2, hp2⟩ ⟨q1, hq1⟩ ⟨q2, hq2⟩
  have k : ∀ a b : Coord ℚ, ¬ Same a b → ¬ Same (realPt a) (realPt b) := by
    rintro a b h ⟨u, v⟩
    exact h ⟨Rat.cast_injective u, Rat.cast_injective v⟩
  have c := C38_classification (LI.default : LI ℝ) _ _ _ _ (k _ _ hp) (k _ _ hq)
  dsimp only at e1
  rw [e1]
  exact c

/-- A point and a segment. -/
theorem C66_point_segment (g : ℤ) (h1 : -484 ≤ g) (h2 : g ≤ 400) (s : LI (B64 sq hy)) (p a b : Coord ℚ) (hp : OnGrid g p) (ha : OnGrid g a)
    (hb : OnGrid g b) :
    ((s.compute3 (toB64 p) (toB64 a) (toB64 b)).hasIntersection = true ↔ OnSegment (realPt p) (realPt a) (realPt b)) ∧
    ((s.compute3 (toB64 p) (toB64 a) (toB64 b)).isProper = true ↔ Inside (realPt p) (realPt a) (realPt b)) := by
  obtain ⟨e1, e2⟩ := (sim_grid_real (sq := sq) (hy := hy) g h1 h2).compute3 s (LI.default : LI ℝ) ⟨p, hp⟩ ⟨a, ha⟩ ⟨b, hb⟩
  obtain ⟨c1, c2, c3⟩ := C38_point_segment (LI.default : LI ℝ) (realPt p) (realPt a) (realPt b)
  unfold LI.hasIntersection
  dsimp only at e1 e2
  rw [e1, e2]
  refine ⟨?_, c3⟩
  rw [decide_eq_true_iff, ne_eq, c2, not_not]

/-! Examples: an almost flat ring of large integers. -/

section examples
local notation "pt" => fun (x y : ℚ) => (Coord.xy x y : Coord ℚ)

/-- A point just inside a thin triangle with integer corners near `2^51`. -/
example : PointLocation.locateInRing (toB64 (pt 1125899906842623 1125899906842623) : Coord X64)
    (([pt 0 0, pt 4503599627370495 4503599627370494, pt 2251799813685246 2251799813685248, pt 0 0]).map toB64) = .ok Location.INTERIOR := by decide +kernel

example : Closed2D [pt 0 0, pt 4503599627370495 4503599627370494, pt 2251799813685246 2251799813685248, pt 0 0] := by
  intro a b h1 h2; simp at h1 h2; subst h1; subst h2; exact ⟨rfl, rfl⟩

example : OnGrid 0 (pt 2251799813685246 2251799813685248) := ⟨2251799813685246, 2251799813685248, by norm_num, by norm_num, by simp [Coord.xy], by simp [Coord.xy]⟩

example : ((LI.default : LI X64).compute4 (toB64 (pt 0 0)) (toB64 (pt 4503599627370495 4503599627370494)) (toB64 (pt 1 1))
    (toB64 (pt 4503599627370494 4503599627370493))).isProper = true := by decide +kernel

end examples

end Verif.Props
