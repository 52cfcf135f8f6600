import Verif.Props.CentroidMore
import Verif.Props.GridPredicates
import Verif.Props.PrecisionModel64
import Verif.Props.Envelope64

set_option linter.unusedSectionVars false

/-! # C108: centroids of polygons with integer coordinates in binary64 -/

namespace Verif.Props
open Flt Verif.Spec Verif.Binary64
variable {sq : ℚ → Val} {hy : ℚ → ℚ → Val}

/-- A point with integer coordinates of at most `M` in magnitude. -/
def IntPt (M : ℕ) (p : Coord ℚ) : Prop := ∃ m n : ℤ, |m| ≤ M ∧ |n| ≤ M ∧ p.x = m ∧ p.y = n

theorem fin_int {q : ℚ} {m : ℤ} (hq : q = m) (h : |m| ≤ 2 ^ 53) : (rnd q) = .fin q := by
  subst hq; exact rnd_of_f64 (f64_int m h)

theorem addI {a b : ℤ} (h : |a + b| ≤ 2 ^ 53) : (Fl.fin (a : ℚ) : B64 sq hy) +. Fl.fin (b : ℚ) = Fl.fin ((a + b : ℤ) : ℚ) := by
  refine (show _ = Fl.round (r := binary64 sq hy) ((a : ℚ) + b) from rfl).trans ?_
  rw [← Int.cast_add]; exact rnd_of_f64 (f64_int _ h)

theorem subI {a b : ℤ} (h : |a - b| ≤ 2 ^ 53) : (Fl.fin (a : ℚ) : B64 sq hy) -. Fl.fin (b : ℚ) = Fl.fin ((a - b : ℤ) : ℚ) := by
  refine (show _ = Fl.round (r := binary64 sq hy) ((a : ℚ) + -b) from rfl).trans ?_
  rw [← sub_eq_add_neg, ← Int.cast_sub]; exact rnd_of_f64 (f64_int _ h)

theorem mulI {a b : ℤ} (h : |a * b| ≤ 2 ^ 53) : (Fl.fin (a : ℚ) : B64 sq hy) *. Fl.fin (b : ℚ) = Fl.fin ((a * b : ℤ) : ℚ) := by
  refine (show _ = Fl.round (r := binary64 sq hy) ((a : ℚ) * b) from rfl).trans ?_
  rw [← Int.cast_mul]; exact rnd_of_f64 (f64_int _ h)

/-- The sums of a state are these integers, of a size `k` triangles may reach. -/
def Sums (M k : ℕ) (c : Centroid (B64 sq hy)) (S X Y : ℤ) : Prop :=
  c.areasum2 = Fl.fin (S : ℚ) ∧ c.cg3 = (Fl.fin (X : ℚ), Fl.fin (Y : ℚ)) ∧
  |S| ≤ k * (8 * M ^ 2) ∧ |X| ≤ k * (24 * M ^ 3) ∧ |Y| ≤ k * (24 * M ^ 3)

/-- Twice the area of a triangle. -/
def detI (bx bY px pY qx qY : ℤ) : ℤ := (px - bx) * (qY - bY) - (qx - bx) * (pY - bY)

theorem abs_diff {M : ℕ} {a b : ℤ} (ha : |a| ≤ M) (hb : |b| ≤ M) : |a - b| ≤ 2 * M := by
  have := abs_sub a b; linarith

theorem abs_prod {A B : ℤ} {a b : ℤ} (ha : |a| ≤ A) (hb : |b| ≤ B) : |a * b| ≤ A * B := by
  rw [abs_mul]; exact mul_le_mul ha hb (abs_nonneg _) ((abs_nonneg _).trans ha)

theorem detI_le {M : ℕ} {bx bY px pY qx qY : ℤ} (h1 : |bx| ≤ M) (h2 : |bY| ≤ M) (h3 : |px| ≤ M) (h4 : |pY| ≤ M) (h5 : |qx| ≤ M) (h6 : |qY| ≤ M) :
    |detI bx bY px pY qx qY| ≤ 8 * M ^ 2 := by
  have e1 := abs_prod (abs_diff h3 h1) (abs_diff h6 h2)
  have e2 := abs_prod (abs_diff h5 h1) (abs_diff h4 h2)
  have := abs_sub ((px - bx) * (qY - bY)) ((qx - bx) * (pY - bY))
  unfold detI
  nlinarith

/-- One triangle is added without any rounding. -/
theorem addTriangle64 (M k : ℕ) (hk : (k + 1) * (24 * M ^ 3) ≤ 2 ^ 53) (c : Centroid (B64 sq hy)) (S X Y : ℤ) (hc : Sums M k c S X Y) (pos : Bool)
    (bx bY px pY qx qY : ℤ) (h1 : |bx| ≤ M) (h2 : |bY| ≤ M) (h3 : |px| ≤ M) (h4 : |pY| ≤ M) (h5 : |qx| ≤ M) (h6 : |qY| ≤ M) :
    Sums M (k + 1) (c.addTriangle (Coord.xy (Fl.fin (bx : ℚ)) (Fl.fin (bY : ℚ))) (Coord.xy (Fl.fin (px : ℚ)) (Fl.fin (pY : ℚ)))
      (Coord.xy (Fl.fin (qx : ℚ)) (Fl.fin (qY : ℚ))) pos)
      (S + (if pos then 1 else -1) * detI bx bY px pY qx qY)
      (X + (if pos then 1 else -1) * detI bx bY px pY qx qY * (bx + px + qx))
      (Y + (if pos then 1 else -1) * detI bx bY px pY qx qY * (bY + pY + qY)) := by
  obtain ⟨c1, c2, b1, b2, b3⟩ := hc
  have hM0 : (0 : ℤ) ≤ M := by positivity
  have hk' : ((k : ℤ) + 1) * (24 * (M : ℤ) ^ 3) ≤ 2 ^ 53 := by exact_mod_cast hk
  have hM23 : (M : ℤ) ^ 2 ≤ (M : ℤ) ^ 3 := by
    have : M ^ 2 ≤ M ^ 3 := by
      rcases Nat.eq_zero_or_pos M with rfl | h
      · norm_num
      · exact Nat.pow_le_pow_right h (by norm_num)
    exact_mod_cast this
  have hM13 : (M : ℤ) ≤ (M : ℤ) ^ 3 := by
    have : M ^ 1 ≤ M ^ 3 := by
      rcases Nat.eq_zero_or_pos M with rfl | h
      · norm_num
      · exact Nat.pow_le_pow_right h (by norm_num)
    exact_mod_cast (by simpa using this : M ≤ M ^ 3)
  have hM3 : (0 : ℤ) ≤ (M : ℤ) ^ 3 := by positivity
  have hkn : (0 : ℤ) ≤ k := by positivity
  have h24 : 24 * (M : ℤ) ^ 3 ≤ 2 ^ 53 := by nlinarith [mul_nonneg hkn hM3]
  have hd := detI_le h1 h2 h3 h4 h5 h6
  have x1 := abs_diff h3 h1
  have x2 := abs_diff h6 h2
  have x3 := abs_diff h5 h1
  have x4 := abs_diff h4 h2
  have y1 := abs_prod x1 x2
  have y2 := abs_prod x3 x4
  have cx : |bx + px + qx| ≤ 3 * M := by have := abs_add_le (bx + px) qx; have := abs_add_le bx px; linarith
  have cy : |bY + pY + qY| ≤ 3 * M := by have := abs_add_le (bY + pY) qY; have := abs_add_le bY pY; linarith
  have cx2 : |bx + px| ≤ 2 * M := by have := abs_add_le bx px; linarith
  have cy2 : |bY + pY| ≤ 2 * M := by have := abs_add_le bY pY; linarith
  have area : Centroid.area2 (Coord.xy (Fl.fin (bx : ℚ)) (Fl.fin (bY : ℚ)) : Coord (B64 sq hy)) (Coord.xy (Fl.fin (px : ℚ)) (Fl.fin (pY : ℚ)))
      (Coord.xy (Fl.fin (qx : ℚ)) (Fl.fin (qY : ℚ))) = Fl.fin ((detI bx bY px pY qx qY : ℤ) : ℚ) := by
    unfold Centroid.area2 Coord.xy
    simp only []
    rw [subI (by linarith), subI (by linarith), subI (by linarith), subI (by linarith), mulI (by nlinarith), mulI (by nlinarith), subI (by
      unfold detI at hd; nlinarith)]
    rfl
  have cent : Centroid.centroid3 (Coord.xy (Fl.fin (bx : ℚ)) (Fl.fin (bY : ℚ)) : Coord (B64 sq hy)) (Coord.xy (Fl.fin (px : ℚ)) (Fl.fin (pY : ℚ)))
      (Coord.xy (Fl.fin (qx : ℚ)) (Fl.fin (qY : ℚ))) = (Fl.fin ((bx + px + qx : ℤ) : ℚ), Fl.fin ((bY + pY + qY : ℤ) : ℚ)) := by
    unfold Centroid.centroid3 Coord.xy
    simp only []
    rw [addI (by linarith), addI (by linarith), addI (by linarith), addI (by linarith)]
  obtain ⟨g, hg, hg1⟩ : ∃ g : ℤ, g = (if pos then 1 else -1) ∧ |g| ≤ 1 := ⟨_, rfl, by cases pos <;> simp⟩
  have one : (lit 1 : B64 sq hy) = Fl.fin ((1 : ℤ) : ℚ) := (rnd_of_f64 (by simpa using f64_int 1 (by norm_num)) : rnd 1 = .fin 1).trans (by simp)
  have hs : (if pos then lit 1 else -.(lit 1) : B64 sq hy) = Fl.fin (g : ℚ) := by
    rw [hg, one]
    cases pos
    · show (Fl.fin (-((1 : ℤ) : ℚ)) : B64 sq hy) = _
      simp
    · simp
  unfold Centroid.addTriangle
  simp only [hs, area, cent, c1, c2]
  rw [← hg]
  generalize hD : detI bx bY px pY qx qY = D at hd ⊢
  have t0 : |g * D| ≤ 8 * M ^ 2 := by have := abs_prod hg1 hd; linarith
  have t1 := abs_prod t0 cx
  have t2 := abs_prod t0 cy
  have r1 : 8 * (M : ℤ) ^ 2 * (3 * M) = 24 * (M : ℤ) ^ 3 := by ring
  rw [r1] at t1 t2
  have s0 : |S + g * D| ≤ (k + 1) * (8 * M ^ 2) := by have := abs_add_le S (g * D); linarith
  have s1 : |X + g * D * (bx + px + qx)| ≤ (k + 1) * (24 * M ^ 3) := by have := abs_add_le X (g * D * (bx + px + qx)); linarith
  have s2 : |Y + g * D * (bY + pY + qY)| ≤ (k + 1) * (24 * M ^ 3) := by have := abs_add_le Y (g * D * (bY + pY + qY)); linarith
  have s3 : ((k : ℤ) + 1) * (8 * M ^ 2) ≤ (k + 1) * (24 * M ^ 3) := mul_le_mul_of_nonneg_left (by linarith) (by linarith)
  rw [mulI (t0.trans (by linarith)), mulI (t1.trans h24), mulI (t2.trans h24), addI (s1.trans hk'), addI (s2.trans hk'), addI (s0.trans (s3.trans hk'))]
  exact ⟨rfl, rfl, by push_cast; exact s0, by push_cast; exact s1, by push_cast; exact s2⟩

/-- The sums of a state are these numbers, integers of a size `k` triangles may reach. -/
def Acc (M k : ℕ) (c : Centroid (B64 sq hy)) (S X Y : ℚ) : Prop := ∃ s x y : ℤ, S = s ∧ X = x ∧ Y = y ∧ Sums M k c s x y

theorem Acc.mono {M k l : ℕ} {c : Centroid (B64 sq hy)} {S X Y : ℚ} (h : Acc M k c S X Y) (hl : k ≤ l) : Acc M l c S X Y := by
  obtain ⟨s, x, y, e1, e2, e3, c1, c2, b1, b2, b3⟩ := h
  have hk : (k : ℤ) ≤ l := by exact_mod_cast hl
  have h1 : (k : ℤ) * (8 * M ^ 2) ≤ l * (8 * M ^ 2) := mul_le_mul_of_nonneg_right hk (by positivity)
  have h2 : (k : ℤ) * (24 * M ^ 3) ≤ l * (24 * M ^ 3) := mul_le_mul_of_nonneg_right hk (by positivity)
  exact ⟨s, x, y, e1, e2, e3, c1, c2, b1.trans h1, b2.trans h2, b3.trans h2⟩

theorem acc_triangle (M k : ℕ) (hk : (k + 1) * (24 * M ^ 3) ≤ 2 ^ 53) (c : Centroid (B64 sq hy)) (S X Y : ℚ) (hc : Acc M k c S X Y) (pos : Bool)
    (b p q : Coord ℚ) (hb : IntPt M b) (hp : IntPt M p) (hq : IntPt M q) :
    Acc M (k + 1) (c.addTriangle (toB64 b) (toB64 p) (toB64 q) pos) (S + (if pos then 1 else -1) * det b p q)
      (X + (if pos then 1 else -1) * (det b p q * (b.x + p.x + q.x))) (Y + (if pos then 1 else -1) * (det b p q * (b.y + p.y + q.y))) := by
  obtain ⟨s, x, y, rfl, rfl, rfl, hs⟩ := hc
  obtain ⟨bx, bY, a1, a2, e1, e2⟩ := hb
  obtain ⟨px, pY, a3, a4, e3, e4⟩ := hp
  obtain ⟨qx, qY, a5, a6, e5, e6⟩ := hq
  have := addTriangle64 M k hk c s x y hs pos bx bY px pY qx qY a1 a2 a3 a4 a5 a6
  rw [← e1, ← e2, ← e3, ← e4, ← e5, ← e6] at this
  refine ⟨_, _, _, ?_, ?_, ?_, this⟩ <;> (unfold det detI; rw [e1, e2, e3, e4, e5, e6]; cases pos <;> simp only [Bool.false_eq_true, if_false, if_true] <;> push_cast <;> ring)

theorem triangleLoop64 (M k : ℕ) (b : Coord ℚ) (hb : IntPt M b) (pts : List (Coord ℚ)) (hne : pts ≠ []) (hp : ∀ p ∈ pts, IntPt M p)
    (hcl : Closed2D pts) (hk : (k + pts.length) * (24 * M ^ 3) ≤ 2 ^ 53) (c : Centroid (B64 sq hy)) (S X Y : ℚ) (hc : Acc M k c S X Y)
    (hb' : c.areaBasePt = some (toB64 b)) (pos : Bool) :
    ∃ c', Centroid.triangleLoop c (pts.map toB64) pos = .ok c' ∧ c'.areaBasePt = some (toB64 b) ∧
      Acc M (k + pts.length) c' (S + (if pos then 1 else -1) * shoelace pts) (X + (if pos then 1 else -1) * momentX pts)
        (Y + (if pos then 1 else -1) * momentY pts) := by
  have hl : 1 ≤ pts.length := List.length_pos_iff.mpr hne
  obtain ⟨f1, f2, f3⟩ := fan_sum b pts hcl
  unfold Centroid.triangleLoop
  rw [List.length_map, Res.sub_le hl, Res.bind_ok]
  obtain ⟨g, hg⟩ : ∃ g : ℚ, g = if pos then 1 else -1 := ⟨_, rfl⟩
  obtain ⟨c', h1, h2, h3⟩ := forRange_inv 0 (pts.length - 1) (Centroid.triangleStep (pts.map (toB64 : Coord ℚ → Coord (B64 sq hy))) pos)
    (fun i c => c.areaBasePt = some (toB64 b) ∧ Acc M (k + i) c (S + g * (((segs pts).take i).map (fun s => det b s.1 s.2)).sum)
        (X + g * (((segs pts).take i).map (fun s => det b s.1 s.2 * (b.x + s.1.x + s.2.x))).sum)
        (Y + g * (((segs pts).take i).map (fun s => det b s.1 s.2 * (b.y + s.1.y + s.2.y))).sum)) (Nat.zero_le _) c ⟨hb', by simpa using hc⟩ (by
      rintro i c _ hi ⟨h1, h2⟩
      have hs : i < (segs pts).length := by rw [length_segs]; omega
      simp only [Centroid.triangleStep, h1]
      rw [Res.get_lt (by rw [List.length_map]; omega : i < (pts.map _).length), Res.get_lt (by rw [List.length_map]; omega : i + 1 < (pts.map _).length)]
      simp only [Res.bind_ok, Res.pure_eq, List.getElem_map]
      refine ⟨_, rfl, h1, ?_⟩
      have := acc_triangle M (k + i) (le_trans (Nat.mul_le_mul_right _ (by omega)) hk) c _ _ _ h2 pos b pts[i] pts[i + 1] hb
        (hp _ (List.getElem_mem _)) (hp _ (List.getElem_mem _))
      rw [← hg] at this
      rw [take_succ' _ _ hs, getElem_segs]
      simp only [List.map_append, List.map_cons, List.map_nil, List.sum_append, List.sum_cons, List.sum_nil, add_zero, mul_add g, ← add_assoc]
      simpa only [add_assoc] using this)
  refine ⟨c', h1, h2, ?_⟩
  rw [List.take_of_length_le (by simp), f1, f2, f3, hg] at h3
  exact h3.mono (by omega)

/-- The sums over the lines leave the sums over the areas alone. -/
theorem addLineSegments_keeps {α : Type} [FltSqrt α] (c : Centroid α) (pts : List (Coord α)) (h : pts ≠ []) :
    ∃ c', c.addLineSegments pts = .ok c' ∧ c'.areasum2 = c.areasum2 ∧ c'.cg3 = c.cg3 ∧ c'.areaBasePt = c.areaBasePt := by
  have hl : 1 ≤ pts.length := List.length_pos_iff.mpr h
  unfold Centroid.addLineSegments Centroid.segmentLoop
  rw [Res.sub_le hl, Res.bind_ok]
  obtain ⟨st, h1, h2⟩ := forRange_inv 0 (pts.length - 1) (fun i (st : Centroid α × α) => do
      let a ← Res.get pts i
      let b ← Res.get pts (i + 1)
      let len := a.distance b
      if len ==. lit 0 then pure st
      else
        let midx := (a.x +. b.x) /. lit 2
        let midy := (a.y +. b.y) /. lit 2
        pure ({ st.1 with lineCentSum := (st.1.lineCentSum.1 +. len *. midx, st.1.lineCentSum.2 +. len *. midy) }, st.2 +. len))
    (fun _ st => st.1.areasum2 = c.areasum2 ∧ st.1.cg3 = c.cg3 ∧ st.1.areaBasePt = c.areaBasePt) (Nat.zero_le _) (c, lit 0) ⟨rfl, rfl, rfl⟩ (by
      rintro i st _ hi hh
      rw [Res.get_lt (by omega : i < pts.length), Res.get_lt (by omega : i + 1 < pts.length)]
      simp only [Res.bind_ok]
      split_ifs
      · exact ⟨_, rfl, hh⟩
      · exact ⟨_, rfl, hh⟩)
  rw [h1, Res.bind_ok]
  simp only []
  split_ifs
  · rw [Res.get_lt (by omega : 0 < pts.length), Res.bind_ok]
    exact ⟨_, rfl, h2⟩
  · exact ⟨_, rfl, h2⟩

theorem Acc.congr {M k : ℕ} {c c' : Centroid (B64 sq hy)} {S X Y : ℚ} (h : Acc M k c S X Y) (h1 : c'.areasum2 = c.areasum2) (h2 : c'.cg3 = c.cg3) :
    Acc M k c' S X Y := by
  obtain ⟨s, x, y, e1, e2, e3, c1, c2, b⟩ := h
  exact ⟨s, x, y, e1, e2, e3, h1.trans c1, h2.trans c2, b⟩

/-- 1 for rings the orientation test calls counterclockwise in exact arithmetic, -1 for others. -/
def turnQ (r : List (Coord ℚ)) : ℚ := if Orientation.isCCW r = .ok true then 1 else -1

/-- A closed ring of such points. -/
def IntRing (M : ℕ) (r : List (Coord ℚ)) : Prop := r ≠ [] ∧ Closed2D r ∧ ∀ p ∈ r, IntPt M p

theorem ccw64 (M : ℕ) (hM : 24 * M ^ 3 ≤ 2 ^ 53) (r : List (Coord ℚ)) (h : IntRing M r) :
    ∃ o, Orientation.isCCW (r.map (toB64 : Coord ℚ → Coord (B64 sq hy))) = .ok o ∧ turnQ r = if o then 1 else -1 := by
  obtain ⟨o, ho⟩ := (C34_total r).2.1 h.1
  refine ⟨o, ?_, by rw [turnQ, ho]; cases o <;> simp⟩
  rw [C66_isCCW 0 (by norm_num) (by norm_num) r, ho]
  intro p hp
  obtain ⟨m, n, a1, a2, e1, e2⟩ := h.2.2 p hp
  have hM' : M ≤ 2 ^ 52 := by
    rcases Nat.eq_zero_or_pos M with rfl | h0
    · norm_num
    · have : M ^ 1 ≤ M ^ 3 := Nat.pow_le_pow_right h0 (by norm_num)
      rw [pow_one] at this
      omega
  have hM'' : (M : ℤ) ≤ 2 ^ 52 := by exact_mod_cast hM'
  exact ⟨m, n, a1.trans hM'', a2.trans hM'', by simpa using e1, by simpa using e2⟩

theorem bound_one {M k : ℕ} {r : List (Coord ℚ)} (hr : IntRing M r) (hk : (k + r.length) * (24 * M ^ 3) ≤ 2 ^ 53) : 24 * M ^ 3 ≤ 2 ^ 53 := by
  have : 1 ≤ r.length := List.length_pos_iff.mpr hr.1
  have := Nat.mul_le_mul_right (24 * M ^ 3) (by omega : 1 ≤ k + r.length)
  omega

theorem addHole64 (M k : ℕ) (b : Coord ℚ) (hb : IntPt M b) (r : List (Coord ℚ)) (hr : IntRing M r)
    (hk : (k + r.length) * (24 * M ^ 3) ≤ 2 ^ 53) (c : Centroid (B64 sq hy)) (S X Y : ℚ) (hc : Acc M k c S X Y)
    (hb' : c.areaBasePt = some (toB64 b)) :
    ∃ c', c.addHole (r.map toB64) = .ok c' ∧ c'.areaBasePt = some (toB64 b) ∧
      Acc M (k + r.length) c' (S + turnQ r * shoelace r) (X + turnQ r * momentX r) (Y + turnQ r * momentY r) := by
  obtain ⟨o, ho, ht⟩ := ccw64 (sq := sq) (hy := hy) M (bound_one hr hk) r hr
  obtain ⟨c1, h1, h2, h3⟩ := triangleLoop64 M k b hb r hr.1 hr.2.2 hr.2.1 hk c S X Y hc hb' o
  obtain ⟨c2, g1, g2, g3, g4⟩ := addLineSegments_keeps c1 (r.map (toB64 : Coord ℚ → Coord (B64 sq hy))) (by simpa using hr.1)
  unfold Centroid.addHole
  rw [ho, Res.bind_ok, h1, Res.bind_ok, g1]
  refine ⟨_, rfl, g4.trans h2, ?_⟩
  rw [ht]
  exact h3.congr g2 g3

theorem addShell64 (M k : ℕ) (r : List (Coord ℚ)) (hr : IntRing M r)
    (hk : (k + r.length) * (24 * M ^ 3) ≤ 2 ^ 53) (c : Centroid (B64 sq hy)) (S X Y : ℚ) (hc : Acc M k c S X Y) :
    ∃ c' b, c.addShell (r.map toB64) = .ok c' ∧ IntPt M b ∧ c'.areaBasePt = some (toB64 b) ∧
      Acc M (k + r.length) c' (S - turnQ r * shoelace r) (X - turnQ r * momentX r) (Y - turnQ r * momentY r) := by
  obtain ⟨o, ho, ht⟩ := ccw64 (sq := sq) (hy := hy) M (bound_one hr hk) r hr
  have hl : 0 < r.length := List.length_pos_iff.mpr hr.1
  have hb : IntPt M r[0] := hr.2.2 _ (List.getElem_mem _)
  obtain ⟨c1, h1, h2, h3⟩ := triangleLoop64 M k r[0] hb r hr.1 hr.2.2 hr.2.1 hk
    { c with areaBasePt := some (toB64 r[0]) } S X Y (hc.congr rfl rfl) rfl (!o)
  obtain ⟨c2, g1, g2, g3, g4⟩ := addLineSegments_keeps c1 (r.map (toB64 : Coord ℚ → Coord (B64 sq hy))) (by simpa using hr.1)
  refine ⟨c2, r[0], ?_, hb, g4.trans h2, ?_⟩
  · unfold Centroid.addShell
    rw [if_pos (by simpa using hl), Res.get_lt (by simpa using hl : 0 < (r.map _).length)]
    simp only [Res.bind_ok, Res.pure_eq, List.getElem_map]
    rw [ho, Res.bind_ok]
    change (Centroid.triangleLoop { c with areaBasePt := some (toB64 r[0]) } _ _ >>= _) = _
    rw [h1, Res.bind_ok, g1]
  · have e : turnQ r = -(if !o then 1 else -1) := by rw [ht]; cases o <;> simp
    rw [e]
    simp only [neg_mul, sub_neg_eq_add]
    exact h3.congr g2 g3

/-! ## Polygons -/

/-- Shell and holes of a polygon, each as a closed list of points. -/
abbrev Rings : Type := List (Coord ℚ) × List (List (Coord ℚ))

/-- The polygon of doubles has these rings. -/
def HasRings64 (p : Polygon (B64 sq hy)) (R : Rings) : Prop :=
  p.shell.getCoordinates = R.1.map toB64 ∧ p.holes.map LinearRing.getCoordinates = R.2.map (List.map toB64)

/-- The polygon of real numbers has these rings. -/
def HasRingsR (p : Polygon ℝ) (R : Rings) : Prop :=
  p.shell.getCoordinates = R.1.map realPt ∧ p.holes.map LinearRing.getCoordinates = R.2.map (List.map realPt)

/-- All rings have integer coordinates of at most `M`. -/
def IntRings (M : ℕ) (R : Rings) : Prop := IntRing M R.1 ∧ ∀ h ∈ R.2, IntRing M h

/-- The number of points. -/
def Rings.size (R : Rings) : ℕ := R.1.length + (R.2.map List.length).sum

/-- A quantity of the shell less that of the holes, each taken as if counterclockwise. -/
def Rings.net (R : Rings) (f : List (Coord ℚ) → ℚ) : ℚ := turnQ R.1 * f R.1 - (R.2.map (fun h => turnQ h * f h)).sum

theorem addPolygon64 (M k : ℕ) (R : Rings) (hR : IntRings M R) (hk : (k + R.size) * (24 * M ^ 3) ≤ 2 ^ 53) (p : Polygon (B64 sq hy)) (hp : HasRings64 p R)
    (c : Centroid (B64 sq hy)) (S X Y : ℚ) (hc : Acc M k c S X Y) :
    ∃ c', c.addPolygon p = .ok c' ∧ Acc M (k + R.size) c' (S - R.net shoelace) (X - R.net momentX) (Y - R.net momentY) := by
  obtain ⟨s, hs⟩ := R
  obtain ⟨p1, p2⟩ := hp
  unfold Rings.size at hk ⊢
  simp only [] at hk p1 p2 ⊢
  obtain ⟨c1, b, h1, h2, h3, h4⟩ := addShell64 M k s hR.1 (le_trans (Nat.mul_le_mul_right _ (by omega)) hk) c S X Y hc
  have hlen : p.holes.length = hs.length := by have := congrArg List.length p2; simpa using this
  have hget : ∀ i (h : i < p.holes.length) (h' : i < hs.length), p.holes[i].getCoordinates = hs[i].map toB64 := by
    intro i h h'
    have e : (p.holes.map LinearRing.getCoordinates)[i]'(by simpa using h) = (hs.map (List.map toB64))[i]'(by simpa using h') := by simp only [p2]
    simpa using e
  have hsum : ∀ i, i < hs.length → ((hs.take (i + 1)).map List.length).sum ≤ (hs.map List.length).sum := by
    intro i _
    calc ((hs.take (i + 1)).map List.length).sum ≤ ((hs.take (i + 1)).map List.length).sum + ((hs.drop (i + 1)).map List.length).sum := Nat.le_add_right _ _
      _ = (hs.map List.length).sum := by rw [← List.sum_append, ← List.map_append, List.take_append_drop]
  unfold Centroid.addPolygon Polygon.getExteriorRing
  rw [ringCopy, Res.bind_ok]
  change ∃ c', (c.addShell p.shell.getCoordinates >>= _) = _ ∧ _
  rw [p1, h1, Res.bind_ok]
  obtain ⟨c2, g1, g2, g3⟩ := forRange_inv 0 p.getNumInteriorRing (fun i (c : Centroid (B64 sq hy)) => do
      let h ← p.getInteriorRing i
      c.addHole h.getCoordinates)
    (fun i c => c.areaBasePt = some (toB64 b) ∧ Acc M (k + s.length + ((hs.take i).map List.length).sum) c
      (S - turnQ s * shoelace s + ((hs.take i).map (fun h => turnQ h * shoelace h)).sum)
      (X - turnQ s * momentX s + ((hs.take i).map (fun h => turnQ h * momentX h)).sum)
      (Y - turnQ s * momentY s + ((hs.take i).map (fun h => turnQ h * momentY h)).sum)) (Nat.zero_le _) c1 ⟨h3, by simpa using h4⟩ (by
      rintro i c _ hi ⟨i1, i2⟩
      have hi' : i < p.holes.length := hi
      have hi'' : i < hs.length := by omega
      have hle := hsum i hi''
      rw [take_succ' _ _ hi'', List.map_append, List.sum_append, List.map_cons, List.map_nil, List.sum_singleton] at hle
      obtain ⟨c', e1, e2, e3⟩ := addHole64 M (k + s.length + ((hs.take i).map List.length).sum) b h2 hs[i] (hR.2 _ (List.getElem_mem hi''))
        (le_trans (Nat.mul_le_mul_right _ (by omega)) hk) c _ _ _ i2 i1
      refine ⟨c', ?_, e2, ?_⟩
      · rw [Polygon.getInteriorRing, Res.get_lt hi', Res.bind_ok, ringCopy, Res.bind_ok]
        change c.addHole p.holes[i].getCoordinates = _
        rw [hget i hi' hi'', e1]
      · rw [take_succ' _ _ hi'']
        simp only [List.map_append, List.sum_append, List.map_cons, List.map_nil, List.sum_singleton, ← add_assoc]
        exact e3)
  refine ⟨c2, g1, ?_⟩
  have hn : p.getNumInteriorRing = hs.length := hlen
  rw [hn, List.take_of_length_le le_rfl] at g3
  unfold Rings.net
  simp only [sub_sub_eq_add_sub]
  rw [← add_assoc]
  convert g3 using 1 <;> ring

theorem acc_init (M : ℕ) : Acc M 0 (Centroid.init : Centroid (B64 sq hy)) 0 0 0 := by
  refine ⟨0, 0, 0, by simp, by simp, by simp, ?_, ?_, by simp, by simp, by simp⟩
  · simp only [Centroid.init, lit64]; simp
  · simp only [Centroid.init, lit64]; simp

/-- Dividing an integer by three and by another integer, rounding twice. -/
theorem two_quotients (x s : ℤ) (hx : |x| ≤ 2 ^ 53) (hs : |s| ≤ 2 ^ 53) (h0 : s ≠ 0) :
    (Fl.fin (x : ℚ) : B64 sq hy) /. lit 3 /. Fl.fin (s : ℚ) = Fl.fin (near (near (x / 3) / s)) ∧
    |near (near (x / 3) / s) - x / (3 * s)| ≤ (2 / 2 ^ 53 + 1 / 2 ^ 106) * |(x : ℚ) / (3 * s)| := by
  have hx' : |(x : ℚ)| ≤ 2 ^ 53 := by exact_mod_cast hx
  have hs' : |(s : ℚ)| ≤ 2 ^ 53 := by exact_mod_cast hs
  have h0' : (s : ℚ) ≠ 0 := by exact_mod_cast h0
  have hs1 : 1 ≤ |(s : ℚ)| := by exact_mod_cast Int.one_le_abs h0
  have l3 : (lit 3 : B64 sq hy) = Fl.fin 3 := (rnd_of_f64 (by simpa using f64_int 3 (by norm_num)) : rnd 3 = .fin 3)
  rcases eq_or_ne x 0 with rfl | hx0
  · rw [l3]
    simp only [Int.cast_zero, zero_div, Binary64.near_zero, sub_self, abs_zero, mul_zero, le_refl, and_true]
    rw [div_fin64 (v := 0) (by norm_num) (by rw [zero_div, Binary64.near_zero]) (by norm_num)]
    exact div_fin64 h0' (by rw [zero_div, Binary64.near_zero]) (by norm_num)
  have hx1 : 1 ≤ |(x : ℚ)| := by exact_mod_cast Int.one_le_abs hx0
  have tiny : (2 : ℚ) ^ (-1022 : ℤ) ≤ 1 / 2 ^ 60 := by
    rw [one_div, ← zpow_natCast, ← zpow_neg]; exact zpow_le_zpow_right₀ (by norm_num) (by norm_num)
  have a1 : |(x : ℚ) / 3| = |(x : ℚ)| / 3 := by rw [abs_div]; norm_num
  have e1 := near_rel ((x : ℚ) / 3) (by rw [a1]; refine tiny.trans ?_; linarith [show (1 : ℚ) / 2 ^ 60 ≤ 1 / 3 by norm_num])
  obtain ⟨q, hq⟩ : ∃ q, q = near ((x : ℚ) / 3) := ⟨_, rfl⟩
  rw [← hq] at e1 ⊢
  have q1 : |q| ≤ |(x : ℚ) / 3| * (1 + 1 / 2 ^ 53) := by
    have := abs_sub_abs_le_abs_sub q ((x : ℚ) / 3)
    rw [abs_sub_comm] at this; linarith
  have q2 : |(x : ℚ) / 3| * (1 - 1 / 2 ^ 53) ≤ |q| := by
    have := abs_sub_abs_le_abs_sub ((x : ℚ) / 3) q
    linarith
  have aq : |q / s| = |q| / |(s : ℚ)| := abs_div _ _
  have spos : 0 < |(s : ℚ)| := by linarith
  have e2 := near_rel (q / s) (by
    rw [aq, le_div_iff₀ spos]
    calc (2 : ℚ) ^ (-1022 : ℤ) * |(s : ℚ)| ≤ 1 / 2 ^ 60 * 2 ^ 53 := mul_le_mul tiny hs' (abs_nonneg _) (by positivity)
      _ ≤ 1 / 3 * (1 - 1 / 2 ^ 53) := by norm_num
      _ ≤ |(x : ℚ) / 3| * (1 - 1 / 2 ^ 53) := mul_le_mul_of_nonneg_right (by rw [a1]; linarith) (by norm_num)
      _ ≤ |q| := q2)
  have qle : |q| ≤ 2 ^ 53 := by rw [a1] at q1; nlinarith
  constructor
  · rw [l3, div_fin64 (v := q) (by norm_num) hq.symm (lt_2_1024 (by linarith [show (2 : ℚ) ^ 53 ≤ 2 ^ 56 by norm_num]))]
    refine div_fin64 h0' rfl (lt_2_1024 ?_)
    have h1 : |q / s| ≤ 2 ^ 53 := by
      rw [aq, div_le_iff₀ spos]; nlinarith [abs_nonneg q]
    have := abs_sub_abs_le_abs_sub (near (q / s)) (q / s)
    rw [abs_sub_comm] at this
    have : |near (q / s)| ≤ 2 ^ 53 + 2 ^ 53 / 2 ^ 53 := by
      have : |q / s| / 2 ^ 53 ≤ 2 ^ 53 / 2 ^ 53 := div_le_div_of_nonneg_right h1 (by positivity)
      linarith
    refine this.trans (by norm_num)
  · have d1 : |q / s - x / (3 * s)| ≤ |(x : ℚ) / (3 * s)| / 2 ^ 53 := by
      have e : q / s - x / (3 * s) = (q - x / 3) / s := by field_simp
      have e' : (x : ℚ) / (3 * s) = x / 3 / s := by field_simp
      rw [e, e', abs_div, abs_div ((x : ℚ) / 3), div_right_comm]
      exact div_le_div_of_nonneg_right (by rw [abs_sub_comm]; exact e1) spos.le
    have d2 : |q / s| ≤ |(x : ℚ) / (3 * s)| * (1 + 1 / 2 ^ 53) := by
      have := abs_sub_abs_le_abs_sub (q / s) (x / (3 * s))
      linarith
    calc |near (q / s) - x / (3 * s)| ≤ |near (q / s) - q / s| + |q / s - x / (3 * s)| := abs_sub_le _ _ _
      _ ≤ |(x : ℚ) / (3 * s)| * (1 + 1 / 2 ^ 53) / 2 ^ 53 + |(x : ℚ) / (3 * s)| / 2 ^ 53 := by
        rw [abs_sub_comm (near _)]
        exact add_le_add (e2.trans (div_le_div_of_nonneg_right d2 (by positivity))) d1
      _ = (2 / 2 ^ 53 + 1 / 2 ^ 106) * |(x : ℚ) / (3 * s)| := by ring

/-- The centroid read off the sums. -/
theorem acc_centroid (M k : ℕ) (hk : k * (24 * M ^ 3) ≤ 2 ^ 53) (c : Centroid (B64 sq hy)) (S X Y : ℚ) (hc : Acc M k c S X Y) (h0 : S ≠ 0) :
    c.getCentroid = some (Coord.xy (Fl.fin (near (near (X / 3) / S))) (Fl.fin (near (near (Y / 3) / S)))) ∧
    |near (near (X / 3) / S) - X / (3 * S)| ≤ (2 / 2 ^ 53 + 1 / 2 ^ 106) * |X / (3 * S)| ∧
    |near (near (Y / 3) / S) - Y / (3 * S)| ≤ (2 / 2 ^ 53 + 1 / 2 ^ 106) * |Y / (3 * S)| := by
  obtain ⟨s, x, y, rfl, rfl, rfl, c1, c2, b1, b2, b3⟩ := hc
  have hk' : (k : ℤ) * (24 * (M : ℤ) ^ 3) ≤ 2 ^ 53 := by exact_mod_cast hk
  have hM23 : (M : ℤ) ^ 2 ≤ (M : ℤ) ^ 3 := by
    have : M ^ 2 ≤ M ^ 3 := by
      rcases Nat.eq_zero_or_pos M with rfl | h
      · norm_num
      · exact Nat.pow_le_pow_right h (by norm_num)
    exact_mod_cast this
  have hs3 : (k : ℤ) * (8 * M ^ 2) ≤ k * (24 * M ^ 3) := mul_le_mul_of_nonneg_left (by nlinarith [sq_nonneg (M : ℤ)]) (by positivity)
  have h0' : s ≠ 0 := by exact_mod_cast h0
  obtain ⟨f1, g1⟩ := two_quotients (sq := sq) (hy := hy) x s (b2.trans hk') (b1.trans (hs3.trans hk')) h0'
  obtain ⟨f2, g2⟩ := two_quotients (sq := sq) (hy := hy) y s (b3.trans hk') (b1.trans (hs3.trans hk')) h0'
  refine ⟨?_, g1, g2⟩
  unfold Centroid.getCentroid
  have hpos : (Flt.abs c.areasum2 >. lit 0) = true := by
    rw [c1, lit64]
    exact decide_eq_true (show (0 : ℚ) < |(s : ℚ)| from abs_pos.mpr h0)
  rw [if_pos hpos, c1, c2, f1, f2]

theorem twice_neg (X S : ℚ) : near (near ((0 - X) / 3) / (0 - S)) = near (near (X / 3) / S) := by
  rw [zero_sub, zero_sub, neg_div, near_neg, neg_div_neg_eq]

/-! ## Against exact arithmetic -/

theorem real_sum {A : Type} (l : List A) (f : A → ℚ) : (((l.map f).sum : ℚ) : ℝ) = (l.map (fun a => (f a : ℝ))).sum := by
  induction l with
  | nil => simp
  | cons a l ih => simp [ih]

theorem integrals_cast (r : List (Coord ℚ)) : shoelace (r.map realPt) = ((shoelace r : ℚ) : ℝ) ∧ momentX (r.map realPt) = ((momentX r : ℚ) : ℝ) ∧
    momentY (r.map realPt) = ((momentY r : ℚ) : ℝ) := by
  unfold shoelace momentX momentY
  rw [segs_map, real_sum, real_sum, real_sum]
  simp only [List.map_map, Function.comp_def, realPt]
  push_cast
  exact ⟨rfl, rfl, rfl⟩

theorem turnOf_real (r : List (Coord ℚ)) : turnOf (r.map realPt) = ((turnQ r : ℚ) : ℝ) := by
  unfold turnOf turnQ
  rw [isCCW_cast]
  split_ifs <;> simp

theorem net_cast (R : Rings) (p : Polygon ℝ) (hp : HasRingsR p R) (f : List (Coord ℝ) → ℝ) (g : List (Coord ℚ) → ℚ)
    (h : ∀ r : List (Coord ℚ), f (r.map realPt) = ((g r : ℚ) : ℝ)) : wsum (ringsW p) f = ((R.net g : ℚ) : ℝ) := by
  have e : ringsW p = (turnOf p.shell.getCoordinates, p.shell.getCoordinates) :: (p.holes.map LinearRing.getCoordinates).map (fun h => (-turnOf h, h)) := by
    simp [ringsW, Function.comp_def]
  rw [e, hp.1, hp.2]
  simp only [wsum, List.map_cons, List.sum_cons, List.map_map, Function.comp_def, Rings.net, h, turnOf_real]
  rw [Rat.cast_sub, Rat.cast_mul, real_sum, sub_eq_add_neg]
  congr 1
  have neg : ∀ l : List (List (Coord ℚ)), (l.map (fun x => -((turnQ x : ℚ) : ℝ) * ((g x : ℚ) : ℝ))).sum = -(l.map (fun x => ((turnQ x * g x : ℚ) : ℝ))).sum := by
    intro l
    induction l with
    | nil => simp
    | cons a l ih => simp only [List.map_cons, List.sum_cons, ih]; push_cast; ring
  exact neg R.2

theorem closed2D_real {r : List (Coord ℚ)} (h : Closed2D r) : Closed2D (r.map realPt) := by
  intro a b ha hb
  rw [List.head?_map, Option.map_eq_some_iff] at ha
  rw [List.getLast?_map, Option.map_eq_some_iff] at hb
  obtain ⟨a', ha', rfl⟩ := ha
  obtain ⟨b', hb', rfl⟩ := hb
  obtain ⟨e1, e2⟩ := h a' b' ha' hb'
  exact ⟨by simp [realPt, e1], by simp [realPt, e2]⟩

theorem properR {M : ℕ} {R : Rings} (hR : IntRings M R) {p : Polygon ℝ} (hp : HasRingsR p R) : Proper p := by
  refine ⟨by rw [hp.1]; exact ⟨by simpa using hR.1.1, closed2D_real hR.1.2.1⟩, ?_⟩
  intro h hh
  have : h.getCoordinates ∈ p.holes.map LinearRing.getCoordinates := List.mem_map_of_mem hh
  rw [hp.2] at this
  obtain ⟨h', m, e⟩ := List.mem_map.mp this
  rw [← e]
  exact ⟨by simpa using (hR.2 h' m).1, closed2D_real (hR.2 h' m).2.1⟩

/-- A relative error in the rational numbers is one in the real numbers. -/
theorem rel_cast {e v w : ℚ} (h : |e - v| ≤ w * |v|) : |(e : ℝ) - v| ≤ w * |(v : ℝ)| := by exact_mod_cast h

/-- C108: the centroid of a polygon with integer coordinates, computed in doubles: only the two last quotients are rounded, and it
is within two units of rounding of the centroid in real arithmetic. -/
theorem C108_polygon (M : ℕ) (R : Rings) (hR : IntRings M R) (hk : R.size * (24 * M ^ 3) ≤ 2 ^ 53) (h0 : R.net shoelace ≠ 0)
    (p : Polygon (B64 sq hy)) (hp : HasRings64 p R) (p' : Polygon ℝ) (hp' : HasRingsR p' R) :
    ∃ cx cy : ℚ, ∃ q : Coord ℝ, Centroid.fromPolygon p = .ok (some (Coord.xy (Fl.fin cx) (Fl.fin cy))) ∧ Centroid.fromPolygon p' = .ok (some q) ∧
      cx = near (near (R.net momentX / 3) / R.net shoelace) ∧ cy = near (near (R.net momentY / 3) / R.net shoelace) ∧
      |(cx : ℝ) - q.x| ≤ (2 / 2 ^ 53 + 1 / 2 ^ 106) * |q.x| ∧ |(cy : ℝ) - q.y| ≤ (2 / 2 ^ 53 + 1 / 2 ^ 106) * |q.y| := by
  obtain ⟨c, h1, h2⟩ := addPolygon64 M 0 R hR (by simpa using hk) p hp Centroid.init 0 0 0 (acc_init M)
  obtain ⟨h3, h4, h5⟩ := acc_centroid M (0 + R.size) (by simpa using hk) c _ _ _ h2 (by rwa [zero_sub, neg_ne_zero])
  have neg : ∀ X S : ℚ, (0 - X) / (3 * (0 - S)) = X / (3 * S) := by
    intro X S; rw [zero_sub, zero_sub, mul_neg, neg_div_neg_eq]
  rw [twice_neg, twice_neg] at h3
  rw [twice_neg, neg] at h4 h5
  refine ⟨_, _, Coord.xy (wsum (ringsW p') momentX / (3 * wsum (ringsW p') shoelace)) (wsum (ringsW p') momentY / (3 * wsum (ringsW p') shoelace)), ?_, ?_, rfl, rfl, ?_⟩
  · unfold Centroid.fromPolygon Centroid.ofPolygon
    rw [h1, Res.bind_ok, h3]; rfl
  · rw [C46_polygon p' (properR hR hp'), centroidOf, if_neg (by simp [ringsW]), if_pos (by
      rw [net_cast R p' hp' shoelace shoelace (fun r => (integrals_cast r).1)]; exact_mod_cast h0)]
    rfl
  · rw [net_cast R p' hp' shoelace shoelace (fun r => (integrals_cast r).1), net_cast R p' hp' momentX momentX (fun r => (integrals_cast r).2.1),
      net_cast R p' hp' momentY momentY (fun r => (integrals_cast r).2.2)]
    have a := rel_cast h4
    have b := rel_cast h5
    push_cast at a b
    exact ⟨a, b⟩

/-- C108: the same for the centroid of several polygons together. -/
theorem C108_multi_polygon (M : ℕ) (Rs : List Rings) (hR : ∀ R ∈ Rs, IntRings M R) (hk : (Rs.map Rings.size).sum * (24 * M ^ 3) ≤ 2 ^ 53)
    (h0 : (Rs.map (fun R => R.net shoelace)).sum ≠ 0)
    (m : MultiPolygon (B64 sq hy)) (hm : List.Forall₂ HasRings64 m.polygons Rs) (m' : MultiPolygon ℝ) (hm' : List.Forall₂ HasRingsR m'.polygons Rs) :
    ∃ cx cy : ℚ, ∃ q : Coord ℝ, Centroid.fromMultiPolygon m = .ok (some (Coord.xy (Fl.fin cx) (Fl.fin cy))) ∧ Centroid.fromMultiPolygon m' = .ok (some q) ∧
      cx = near (near ((Rs.map (fun R => R.net momentX)).sum / 3) / (Rs.map (fun R => R.net shoelace)).sum) ∧
      cy = near (near ((Rs.map (fun R => R.net momentY)).sum / 3) / (Rs.map (fun R => R.net shoelace)).sum) ∧
      |(cx : ℝ) - q.x| ≤ (2 / 2 ^ 53 + 1 / 2 ^ 106) * |q.x| ∧ |(cy : ℝ) - q.y| ≤ (2 / 2 ^ 53 + 1 / 2 ^ 106) * |q.y| := by
  have hlen := hm.length_eq
  have hsum : ∀ i, i < Rs.length → ((Rs.take (i + 1)).map Rings.size).sum ≤ (Rs.map Rings.size).sum := by
    intro i _
    calc ((Rs.take (i + 1)).map Rings.size).sum ≤ ((Rs.take (i + 1)).map Rings.size).sum + ((Rs.drop (i + 1)).map Rings.size).sum := Nat.le_add_right _ _
      _ = (Rs.map Rings.size).sum := by rw [← List.sum_append, ← List.map_append, List.take_append_drop]
  obtain ⟨c, h1, h2⟩ := forRange_inv 0 m.polygons.length (fun i (c : Centroid (B64 sq hy)) => do
      let p ← m.getPolygon i
      c.addPolygon p)
    (fun i c => Acc M ((Rs.take i).map Rings.size).sum c (0 - ((Rs.take i).map (fun R => R.net shoelace)).sum)
      (0 - ((Rs.take i).map (fun R => R.net momentX)).sum) (0 - ((Rs.take i).map (fun R => R.net momentY)).sum)) (Nat.zero_le _) Centroid.init
    (by simpa using acc_init M) (by
      intro i c _ hi hc
      have hi' : i < Rs.length := by omega
      have hp := List.forall₂_iff_get.mp hm |>.2 i hi hi'
      simp only [List.get_eq_getElem] at hp
      obtain ⟨q, hq, e1⟩ : ∃ q, m.getPolygon i = .ok q ∧ HasRings64 q Rs[i] := by
        rw [MultiPolygon.getPolygon, Res.get_lt hi, Res.bind_ok, (C50_copy ⟨CASeq.ofCoordinates [], none⟩ m.polygons[i].shell m.polygons[i] Point.default (by simp [Point.default, CASeq.ofCoordinates, CASeq.size])).2.2.1]
        refine ⟨_, rfl, hp.1, ?_⟩
        rw [← hp.2]
        simp [LinearRing.getCoordinates, Function.comp_def]
      have hle := hsum i hi'
      rw [take_succ' _ _ hi', List.map_append, List.sum_append, List.map_cons, List.map_nil, List.sum_singleton] at hle
      obtain ⟨c', g1, g2⟩ := addPolygon64 M _ Rs[i] (hR _ (List.getElem_mem hi')) (le_trans (Nat.mul_le_mul_right _ hle) hk) q e1 c _ _ _ hc
      refine ⟨c', by rw [hq]; exact g1, ?_⟩
      rw [take_succ' _ _ hi']
      simp only [List.map_append, List.sum_append, List.map_cons, List.map_nil, List.sum_singleton, ← sub_sub]
      exact g2)
  rw [hlen, List.take_of_length_le le_rfl] at h2
  obtain ⟨h3, h4, h5⟩ := acc_centroid M _ hk c _ _ _ h2 (by rwa [zero_sub, neg_ne_zero])
  have neg : ∀ X S : ℚ, (0 - X) / (3 * (0 - S)) = X / (3 * S) := by
    intro X S; rw [zero_sub, zero_sub, mul_neg, neg_div_neg_eq]
  rw [twice_neg, twice_neg] at h3
  rw [twice_neg, neg] at h4 h5
  have cast : ∀ (f : List (Coord ℝ) → ℝ) (g : List (Coord ℚ) → ℚ), (∀ r : List (Coord ℚ), f (r.map realPt) = ((g r : ℚ) : ℝ)) →
      wsum (m'.polygons.flatMap ringsW) f = (((Rs.map (fun R => R.net g)).sum : ℚ) : ℝ) := by
    intro f g h
    generalize m'.polygons = ps at hm'
    clear * - hm' h
    induction hm' with
    | nil => simp [wsum]
    | cons a b ih => rw [List.flatMap_cons, wsum_append, ih, net_cast _ _ a f g h, List.map_cons, List.sum_cons]; push_cast; rfl
  have hne : m'.polygons.flatMap ringsW ≠ [] := by
    intro e
    apply h0
    have := cast shoelace shoelace (fun r => (integrals_cast r).1)
    rw [e] at this
    simp only [wsum, List.map_nil, List.sum_nil] at this
    exact_mod_cast this.symm
  have hpr : ∀ p ∈ m'.polygons, Proper p := by
    intro p hp
    obtain ⟨i, hi, rfl⟩ := List.mem_iff_getElem.mp hp
    have hi' : i < Rs.length := by rw [← hm'.length_eq]; exact hi
    have := List.forall₂_iff_get.mp hm' |>.2 i hi hi'
    exact properR (hR _ (List.getElem_mem hi')) this
  refine ⟨_, _, Coord.xy (wsum (m'.polygons.flatMap ringsW) momentX / (3 * wsum (m'.polygons.flatMap ringsW) shoelace))
    (wsum (m'.polygons.flatMap ringsW) momentY / (3 * wsum (m'.polygons.flatMap ringsW) shoelace)), ?_, ?_, rfl, rfl, ?_⟩
  · unfold Centroid.fromMultiPolygon Centroid.ofMultiPolygon
    rw [h1, Res.bind_ok, h3]; rfl
  · rw [C46_multi_polygon m' hpr, centroidOf, if_neg hne, if_pos (by
      rw [cast shoelace shoelace (fun r => (integrals_cast r).1)]; exact_mod_cast h0)]
    rfl
  · rw [cast shoelace shoelace (fun r => (integrals_cast r).1), cast momentX momentX (fun r => (integrals_cast r).2.1),
      cast momentY momentY (fun r => (integrals_cast r).2.2)]
    have a := rel_cast h4
    have b := rel_cast h5
    push_cast at a b ⊢
    exact ⟨a, b⟩

/-! ## Cases -/

local notation "pt" => fun (x y : ℚ) => (Coord.xy x y : Coord ℚ)

/-- The polygon of doubles with these rings. -/
def poly64 (R : Rings) : Polygon X64 :=
  ⟨⟨⟨2, 0, R.1.map toB64⟩, none, none⟩, R.2.map (fun h => ⟨⟨2, 0, h.map toB64⟩, none, none⟩), none, none⟩

/-- The polygon of real numbers with these rings. -/
noncomputable def polyR (R : Rings) : Polygon ℝ :=
  ⟨⟨⟨2, 0, R.1.map realPt⟩, none, none⟩, R.2.map (fun h => ⟨⟨2, 0, h.map realPt⟩, none, none⟩), none, none⟩

/-- A square with a triangular hole. -/
def holed : Rings := ([pt 0 0, pt 10 0, pt 10 10, pt 0 10, pt 0 0], [[pt 1 1, pt 2 1, pt 1 2, pt 1 1]])

theorem hasRings_holed : HasRings64 (poly64 holed) holed ∧ HasRingsR (polyR holed) holed :=
  ⟨⟨rfl, rfl⟩, rfl, rfl⟩

theorem intRings_holed : IntRings 10 holed := by
  have key : ∀ r ∈ holed.1 :: holed.2, ∀ p ∈ r, p.x = ((p.x.num : ℤ) : ℚ) ∧ p.y = ((p.y.num : ℤ) : ℚ) ∧ |p.x.num| ≤ 10 ∧ |p.y.num| ≤ 10 := by
    decide +kernel
  have pts : ∀ r ∈ holed.1 :: holed.2, ∀ p ∈ r, IntPt 10 p := fun r hr p hp =>
    ⟨_, _, (key r hr p hp).2.2.1, (key r hr p hp).2.2.2, (key r hr p hp).1, (key r hr p hp).2.1⟩
  refine ⟨⟨by simp [holed], ?_, pts _ (by simp)⟩, ?_⟩
  · intro a b ha hb; simp [holed] at ha hb; subst ha hb; exact ⟨rfl, rfl⟩
  · intro h hh
    refine ⟨?_, ?_, pts h (List.mem_cons_of_mem _ hh)⟩
    · rintro rfl; simp [holed] at hh
    · simp only [holed, List.mem_singleton] at hh
      subst hh
      intro a b ha hb; simp at ha hb; subst ha hb; exact ⟨rfl, rfl⟩

example : IntRings 10 holed ∧ holed.size * (24 * 10 ^ 3) ≤ 2 ^ 53 ∧ holed.net shoelace ≠ 0 :=
  ⟨intRings_holed, by decide, by decide +kernel⟩

example : List.Forall₂ HasRings64 [poly64 holed, poly64 holed] [holed, holed] ∧ ([holed, holed].map (fun R => R.net shoelace)).sum ≠ 0 :=
  ⟨.cons hasRings_holed.1 (.cons hasRings_holed.1 .nil), by decide +kernel⟩

/-- The centroid of that polygon. -/
example : Centroid.fromPolygon (poly64 holed) = .ok (some (Coord.xy (Fl.fin (5650244758627305 / 2 ^ 50)) (Fl.fin (5650244758627305 / 2 ^ 50)))) := by
  decide +kernel

/-- A corridor of width one along two sides of a square of side `2 ^ 30 - 5`. -/
def corridor : Rings := ([pt 1073741818 1073741819, pt 1073741818 1, pt 0 1, pt 0 0, pt 1073741819 0, pt 1073741819 1073741819, pt 1073741818 1073741819], [])

/-- C108: for larger coordinates the accuracy is lost: of this corridor of integers below `2 ^ 30` the computed centroid is more than 18 units off. -/
theorem C108_corridor : (∃ cx cy : ℚ, Centroid.fromPolygon (poly64 corridor) = .ok (some (Coord.xy (Fl.fin cx) (Fl.fin cy))) ∧
      |cx - corridor.net momentX / (3 * corridor.net shoelace)| > 18) ∧
    Centroid.fromPolygon (polyR corridor) = .ok (some (Coord.xy ((corridor.net momentX / (3 * corridor.net shoelace) : ℚ) : ℝ)
      ((corridor.net momentY / (3 * corridor.net shoelace) : ℚ) : ℝ))) := by
  refine ⟨⟨6755399248292523 / 8388608, 9007199209302699 / 33554432, by decide +kernel, by decide +kernel⟩, ?_⟩
  have hp : HasRingsR (polyR corridor) corridor := ⟨rfl, rfl⟩
  have hpr : Proper (polyR corridor) := by
    refine ⟨⟨by simp [polyR, corridor, LinearRing.getCoordinates], ?_⟩, by simp [polyR, corridor]⟩
    rw [hp.1]
    apply closed2D_real
    intro a b ha hb; simp [corridor] at ha hb; subst ha hb; exact ⟨rfl, rfl⟩
  have h0 : corridor.net shoelace ≠ 0 := by decide +kernel
  rw [C46_polygon _ hpr, centroidOf, if_neg (by simp [ringsW]), if_pos (by
    rw [net_cast _ _ hp shoelace shoelace (fun r => (integrals_cast r).1)]; exact_mod_cast h0)]
  rw [net_cast _ _ hp shoelace shoelace (fun r => (integrals_cast r).1), net_cast _ _ hp momentX momentX (fun r => (integrals_cast r).2.1),
      net_cast _ _ hp momentY momentY (fun r => (integrals_cast r).2.2)]
  simp only [Option.map_some]
  push_cast
  rfl

end Verif.Props
