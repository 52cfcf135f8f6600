import Verif.Props.CircumcentreDD64
import Verif.Props.Space64

/-! # C116: homogeneous coordinates, the conditioned intersection and perpendicular bisectors in binary64 -/

set_option linter.unusedSectionVars false

namespace Verif.Props
open Flt Verif.Spec Verif.Binary64
variable {sq : ℚ → Val} {hy : ℚ → ℚ → Val}

/-- `x` is a double and none is closer to `q`. -/
def NearestDouble (x q : ℚ) : Prop := IsF64 x ∧ ∀ d, IsF64 d → |q - x| ≤ |q - d|

theorem OrdB.finer {k : ℕ} {g : ℤ} {x : ℚ} (h : OrdB k g x) : OrdB (k + 1) (g - 1) x := by
  obtain ⟨m, hm, rfl⟩ := h
  refine ⟨2 * m, ?_, ?_⟩
  · rw [abs_mul, pow_succ, mul_comm]
    exact mul_le_mul_of_nonneg_right hm (by norm_num) |>.trans (by norm_num)
  · rw [zpow_sub_one₀ two_ne_zero]; push_cast; ring

/-- A quotient of numbers on grids is a number, nearest to the exact quotient. -/
theorem quot_nearest {j k : ℕ} {g h : ℤ} (hb : j + g - h ≤ 1000) (hl : -1000 ≤ g - h - k) {n d : ℚ} (hn : OrdB j g n) (hd : OrdB k h d) (d0 : d ≠ 0) :
    ∃ u, (Fl.fin n : B64 sq hy) /. Fl.fin d = Fl.fin u ∧ NearestDouble u (n / d) ∧ |u - n / d| ≤ |n / d| / 2 ^ 53 ∧ |n / d| ≤ 2 ^ (j + g - h) := by
  obtain ⟨e1, e2, e3⟩ := quot64 (sq := sq) (hy := hy) hb hl hn hd d0
  refine ⟨_, e1, ⟨?_, fun d fd => near_nearest _ d fd.1⟩, e2, e3⟩
  obtain ⟨a, a1, -, a3, a4⟩ := div64 e1
  exact ⟨near_rep _, a4⟩

theorem zero_quot (n : ℚ) : isNaN ((Fl.fin n : B64 sq hy) /. Fl.fin 0) = true ∨ isInf ((Fl.fin n : B64 sq hy) /. Fl.fin 0) = true := by
  have : (Fl.fin n : B64 sq hy) /. Fl.fin 0 = Fl.infOf n := by
    show (if (0 : ℚ) = 0 then Fl.infOf n else Fl.round (n / 0)) = _
    exact if_pos rfl
  rw [this]
  unfold Fl.infOf
  split_ifs
  · exact Or.inr rfl
  · exact Or.inr rfl
  · exact Or.inl rfl

theorem pair_zero (n m : ℚ) (z : Option (Coord (B64 sq hy))) : (if isNaN ((Fl.fin n : B64 sq hy) /. Fl.fin 0) || isInf ((Fl.fin n : B64 sq hy) /. Fl.fin 0) ||
    isNaN ((Fl.fin m : B64 sq hy) /. Fl.fin 0) || isInf ((Fl.fin m : B64 sq hy) /. Fl.fin 0) then none else z) = none := by
  rcases zero_quot (sq := sq) (hy := hy) n with h | h <;> rw [h] <;> simp

section lines
variable {g : ℤ} (h1 : -200 ≤ g) (h2 : g ≤ 200)
include h1 h2

/-- The line through two points of a grid. -/
theorem line_parts {p1 p2 : Coord ℚ} (hp1 : OnGridB 16 g p1) (hp2 : OnGridB 16 g p2) :
    HCoord.ofLine (toB64 p1 : Coord (B64 sq hy)) (toB64 p2) = ⟨Fl.fin (p1.y - p2.y), Fl.fin (p2.x - p1.x), Fl.fin (p1.x * p2.y - p2.x * p1.y)⟩ ∧
    OrdB 17 g (p1.y - p2.y) ∧ OrdB 17 g (p2.x - p1.x) ∧ OrdB 33 (g + g) (p1.x * p2.y - p2.x * p1.y) := by
  have f : ∀ {k : ℕ} {i : ℤ} {x : ℚ}, OrdB k i x → k ≤ 53 → -1000 ≤ i → i ≤ 900 → IsF64 x := fun h a b c => ordB_f64 h a (by omega) c
  have oy := hp1.ordy.sub hp2.ordy
  have ox := hp2.ordx.sub hp1.ordx
  have m1 := hp1.ordx.mul hp2.ordy
  have m2 := hp2.ordx.mul hp1.ordy
  have ow := m1.sub m2
  refine ⟨?_, oy, ox, ow⟩
  unfold HCoord.ofLine
  simp only [xB64, yB64]
  rw [sub_fin (f oy (by omega) (by omega) (by omega)), sub_fin (f ox (by omega) (by omega) (by omega)), mul_fin (f m1 (by omega) (by omega) (by omega)),
    mul_fin (f m2 (by omega) (by omega) (by omega)), sub_fin (f ow (by omega) (by omega) (by omega))]

/-- The common point of two lines with whole coefficients. -/
theorem cross_parts {j l : ℕ} {e f : ℤ} {px py pw qx qy qw : ℚ} (hj : j + l ≤ 52) (hj2 : j + j ≤ 52) (he1 : -200 ≤ e) (he2 : e ≤ 200) (hf1 : -500 ≤ f) (hf2 : f ≤ 500)
    (a1 : OrdB j e px) (a2 : OrdB j e py) (a3 : OrdB l f pw) (b1 : OrdB j e qx) (b2 : OrdB j e qy) (b3 : OrdB l f qw) :
    HCoord.cross (⟨Fl.fin px, Fl.fin py, Fl.fin pw⟩ : HCoord (B64 sq hy)) ⟨Fl.fin qx, Fl.fin qy, Fl.fin qw⟩ =
      ⟨Fl.fin (py * qw - qy * pw), Fl.fin (qx * pw - px * qw), Fl.fin (px * qy - qx * py)⟩ ∧
    OrdB (j + l + 1) (e + f) (py * qw - qy * pw) ∧ OrdB (j + l + 1) (e + f) (qx * pw - px * qw) ∧ OrdB (j + j + 1) (e + e) (px * qy - qx * py) := by
  have f : ∀ {k : ℕ} {i : ℤ} {x : ℚ}, OrdB k i x → k ≤ 53 → -1000 ≤ i → i ≤ 900 → IsF64 x := fun h a b c => ordB_f64 h a (by omega) c
  have m1 := a2.mul b3
  have m2 := b2.mul a3
  have m3 := b1.mul a3
  have m4 := a1.mul b3
  have m5 := a1.mul b2
  have m6 := b1.mul a2
  refine ⟨?_, m1.sub m2, m3.sub m4, m5.sub m6⟩
  unfold HCoord.cross
  dsimp only
  rw [mul_fin (f m1 (by omega) (by omega) (by omega)), mul_fin (f m2 (by omega) (by omega) (by omega)), mul_fin (f m3 (by omega) (by omega) (by omega)),
    mul_fin (f m4 (by omega) (by omega) (by omega)), mul_fin (f m5 (by omega) (by omega) (by omega)), mul_fin (f m6 (by omega) (by omega) (by omega)),
    sub_fin (f (m1.sub m2) (by omega) (by omega) (by omega)), sub_fin (f (m3.sub m4) (by omega) (by omega) (by omega)),
    sub_fin (f (m5.sub m6) (by omega) (by omega) (by omega))]

/-- C116: on grids of 16 bits the line through two points and the common point of two lines are exact in homogeneous coordinates; the common point of two lines is reported
exactly if they are not parallel, and each ordinate is then a double nearest to that of the exact common point. -/
theorem C116_lines {p1 p2 q1 q2 : Coord ℚ} (hp1 : OnGridB 16 g p1) (hp2 : OnGridB 16 g p2) (hq1 : OnGridB 16 g q1) (hq2 : OnGridB 16 g q2) :
    (∃ l : HCoord ℚ, HCoord.ofLine (toB64 p1 : Coord (B64 sq hy)) (toB64 p2) = ⟨Fl.fin l.x, Fl.fin l.y, Fl.fin l.w⟩ ∧
      ∀ c : Coord ℚ, l.x * c.x + l.y * c.y + l.w = det p1 p2 c) ∧
    (HCoord.intersection (toB64 p1 : Coord (B64 sq hy)) (toB64 p2) (toB64 q1) (toB64 q2) = none ↔ dirDet p1 p2 q1 q2 = 0) ∧
    (dirDet p1 p2 q1 q2 ≠ 0 → ∃ x y, HCoord.intersection (toB64 p1 : Coord (B64 sq hy)) (toB64 p2) (toB64 q1) (toB64 q2) = some (Coord.xy (Fl.fin x) (Fl.fin y)) ∧
      (HCoord.ofLines (toB64 p1 : Coord (B64 sq hy)) (toB64 p2) (toB64 q1) (toB64 q2)).getCoordinate = Coord.xy (Fl.fin x) (Fl.fin y) ∧
      ∀ c : Coord ℚ, OnLineOf c p1 p2 → OnLineOf c q1 q2 → NearestDouble x c.x ∧ NearestDouble y c.y) := by
  obtain ⟨e1, a1, a2, a3⟩ := line_parts (sq := sq) (hy := hy) h1 h2 hp1 hp2
  obtain ⟨e2, b1, b2, b3⟩ := line_parts (sq := sq) (hy := hy) h1 h2 hq1 hq2
  obtain ⟨e3, c1, c2, c3⟩ := cross_parts (sq := sq) (hy := hy) h1 h2 (by omega) (by omega) (by omega) (by omega) (by omega) (by omega) a1 a2 a3 b1 b2 b3
  rw [← e1, ← e2] at e3
  have w : (p1.y - p2.y) * (q2.x - q1.x) - (q1.y - q2.y) * (p2.x - p1.x) = dirDet p1 p2 q1 q2 := by unfold dirDet; ring
  rw [w] at e3 c3
  have i1 : HCoord.intersection (toB64 p1 : Coord (B64 sq hy)) (toB64 p2) (toB64 q1) (toB64 q2) =
      let h := HCoord.cross (HCoord.ofLine (toB64 p1 : Coord (B64 sq hy)) (toB64 p2)) (HCoord.ofLine (toB64 q1) (toB64 q2))
      if isNaN (h.x /. h.w) || isInf (h.x /. h.w) || isNaN (h.y /. h.w) || isInf (h.y /. h.w) then none else some (Coord.xy (h.x /. h.w) (h.y /. h.w)) := rfl
  have i2 : HCoord.ofLines (toB64 p1 : Coord (B64 sq hy)) (toB64 p2) (toB64 q1) (toB64 q2) =
      HCoord.cross (HCoord.ofLine (toB64 p1 : Coord (B64 sq hy)) (toB64 p2)) (HCoord.ofLine (toB64 q1) (toB64 q2)) := rfl
  rw [e3] at i1 i2
  dsimp only at i1
  have some' : dirDet p1 p2 q1 q2 ≠ 0 → ∃ x y, HCoord.intersection (toB64 p1 : Coord (B64 sq hy)) (toB64 p2) (toB64 q1) (toB64 q2) = some (Coord.xy (Fl.fin x) (Fl.fin y)) ∧
      (HCoord.ofLines (toB64 p1 : Coord (B64 sq hy)) (toB64 p2) (toB64 q1) (toB64 q2)).getCoordinate = Coord.xy (Fl.fin x) (Fl.fin y) ∧
      ∀ c : Coord ℚ, OnLineOf c p1 p2 → OnLineOf c q1 q2 → NearestDouble x c.x ∧ NearestDouble y c.y := by
    intro hd
    obtain ⟨x, x1, x2, -⟩ := quot_nearest (sq := sq) (hy := hy) (by push_cast; omega) (by push_cast; omega) c1 c3 hd
    obtain ⟨y, y1, y2, -⟩ := quot_nearest (sq := sq) (hy := hy) (by push_cast; omega) (by push_cast; omega) c2 c3 hd
    refine ⟨x, y, ?_, ?_, fun c k1 k2 => ?_⟩
    · rw [i1, x1, y1]; rfl
    · rw [i2]
      unfold HCoord.getCoordinate HCoord.getX HCoord.getY
      dsimp only
      rw [x1, y1]; rfl
    · obtain ⟨f1, f2⟩ := formula_on p1 p2 q1 q2 hd
      obtain ⟨u1, u2⟩ := common_unique p1 p2 q1 q2 c _ hd k1 k2 f1 f2
      rw [u1, u2]
      exact ⟨x2, y2⟩
  refine ⟨⟨⟨_, _, _⟩, e1, fun c => ?_⟩, ⟨fun h => ?_, fun h => ?_⟩, some'⟩
  · dsimp only; unfold det; ring
  · by_contra hd
    obtain ⟨x, y, e, -⟩ := some' hd
    rw [h] at e
    cases e
  · rw [i1, h]
    exact pair_zero _ _ _

/-- The perpendicular bisector of two points of a grid. -/
theorem bisector_parts {a b : Coord ℚ} (ha : OnGridB 16 g a) (hb : OnGridB 16 g b) :
    Triangle.perpendicularBisector (toB64 a : Coord (B64 sq hy)) (toB64 b) =
      ⟨Fl.fin (a.x - b.x), Fl.fin (a.y - b.y), Fl.fin ((b.x ^ 2 - a.x ^ 2 + (b.y ^ 2 - a.y ^ 2)) / 2)⟩ ∧
    OrdB 17 g (a.x - b.x) ∧ OrdB 17 g (a.y - b.y) ∧ OrdB 34 (g + g - 1) ((b.x ^ 2 - a.x ^ 2 + (b.y ^ 2 - a.y ^ 2)) / 2) := by
  have f : ∀ {k : ℕ} {i : ℤ} {x : ℚ}, OrdB k i x → k ≤ 53 → -1000 ≤ i → i ≤ 900 → IsF64 x := fun h a b c => ordB_f64 h a (by omega) c
  have dx := hb.ordx.sub ha.ordx
  have dy := hb.ordy.sub ha.ordy
  have mx := ha.ordx.finer.add dx.half
  have my := ha.ordy.finer.add dy.half
  have nx := ((ha.ordx.mono (by omega : 16 ≤ 17)).sub dy).finer.add (dx.half.mono (by omega : 17 ≤ 19))
  have ny := ((ha.ordy.mono (by omega : 16 ≤ 17)).add dx).finer.add (dy.half.mono (by omega : 17 ≤ 19))
  have s1 := mx.mul ny
  have s2 := nx.mul my
  have q : ∀ {x : ℚ}, OrdB 17 g x → (Fl.fin x : B64 sq hy) /. Fl.fin 2 = Fl.fin (x / 2) := fun {x} hx =>
    div_fin64 two_ne_zero (near_of_rep (f hx.half (by omega) (by omega) (by omega)).1) (f hx.half (by omega) (by omega) (by omega)).2
  have one : (lit 1 : B64 sq hy) = Fl.fin 1 := rnd_of_f64 f64_one
  have m1 : ∀ {k : ℕ} {i : ℤ} {x : ℚ}, OrdB k i x → k ≤ 53 → -1000 ≤ i → i ≤ 900 → (Fl.fin x : B64 sq hy) *. Fl.fin 1 = Fl.fin x := fun {k i x} h a b c => by
    have := mul_fin (sq := sq) (hy := hy) (x := x) (y := 1) (by rw [mul_one]; exact f h a b c)
    rwa [mul_one] at this
  have d1 := (my.mono (by omega : 18 ≤ 20)).sub ny
  have d2 := nx.sub (mx.mono (by omega : 18 ≤ 20))
  have d3 := s1.sub (by rw [show (18 : ℕ) + 20 = 20 + 18 by norm_num]; exact s2)
  have r1 := ha.ordx.sub hb.ordx
  have r2 := ha.ordy.sub hb.ordy
  have sqs : ∀ {x : ℚ}, OrdB 16 g x → OrdB 32 (g + g) (x ^ 2) := fun h => by rw [pow_two]; exact h.mul h
  have r3 := (((sqs hb.ordx).sub (sqs ha.ordx)).add ((sqs hb.ordy).sub (sqs ha.ordy))).half
  refine ⟨?_, r1, r2, r3⟩
  unfold Triangle.perpendicularBisector HCoord.cross HCoord.ofXYW
  simp only [xB64, yB64, two_lit64, one]
  have c1 := sub_fin (sq := sq) (hy := hy) (f dx (by omega) (by omega) (by omega))
  have c2 := sub_fin (sq := sq) (hy := hy) (f dy (by omega) (by omega) (by omega))
  rw [c1, c2, q dx, q dy, add_fin (f mx (by omega) (by omega) (by omega)), add_fin (f my (by omega) (by omega) (by omega)),
    sub_fin (f ((ha.ordx.mono (by omega : 16 ≤ 17)).sub dy) (by omega) (by omega) (by omega)), add_fin (f nx (by omega) (by omega) (by omega)),
    add_fin (f ((ha.ordy.mono (by omega : 16 ≤ 17)).add dx) (by omega) (by omega) (by omega)), add_fin (f ny (by omega) (by omega) (by omega)),
    m1 my (by omega) (by omega) (by omega), m1 ny (by omega) (by omega) (by omega), m1 mx (by omega) (by omega) (by omega), m1 nx (by omega) (by omega) (by omega),
    sub_fin (f d1 (by omega) (by omega) (by omega)), sub_fin (f d2 (by omega) (by omega) (by omega)),
    mul_fin (f s1 (by omega) (by omega) (by omega)), mul_fin (f s2 (by omega) (by omega) (by omega)), sub_fin (f d3 (by omega) (by omega) (by omega))]
  congr 2 <;> ring

/-- C116: the perpendicular bisector of two grid points is exact, and where two of them meet is the circumcentre rounded to a nearest double in each ordinate. -/
theorem C116_bisectors {a b c : Coord ℚ} (ha : OnGridB 16 g a) (hb : OnGridB 16 g b) (hc : OnGridB 16 g c) :
    (∃ l : HCoord ℚ, Triangle.perpendicularBisector (toB64 a : Coord (B64 sq hy)) (toB64 b) = ⟨Fl.fin l.x, Fl.fin l.y, Fl.fin l.w⟩ ∧
      ∀ p : Coord ℚ, l.x * p.x + l.y * p.y + l.w = 0 ↔ sq2 p a = sq2 p b) ∧
    (det a b c ≠ 0 → ∃ x y, (HCoord.cross (Triangle.perpendicularBisector (toB64 a : Coord (B64 sq hy)) (toB64 b))
        (Triangle.perpendicularBisector (toB64 b) (toB64 c))).getCoordinate = Coord.xy (Fl.fin x) (Fl.fin y) ∧
      ∀ o : Coord ℚ, sq2 o a = sq2 o c → sq2 o b = sq2 o c → NearestDouble x o.x ∧ NearestDouble y o.y) ∧
    (det a b c = 0 → isNaN (HCoord.cross (Triangle.perpendicularBisector (toB64 a : Coord (B64 sq hy)) (toB64 b))
        (Triangle.perpendicularBisector (toB64 b) (toB64 c))).getX = true ∧
      isNaN (HCoord.cross (Triangle.perpendicularBisector (toB64 a : Coord (B64 sq hy)) (toB64 b)) (Triangle.perpendicularBisector (toB64 b) (toB64 c))).getY = true) := by
  obtain ⟨e1, a1, a2, a3⟩ := bisector_parts (sq := sq) (hy := hy) h1 h2 ha hb
  obtain ⟨e2, b1, b2, b3⟩ := bisector_parts (sq := sq) (hy := hy) h1 h2 hb hc
  obtain ⟨e3, c1, c2, c3⟩ := cross_parts (sq := sq) (hy := hy) h1 h2 (by omega) (by omega) (by omega) (by omega) (by omega) (by omega) a1 a2 a3 b1 b2 b3
  rw [← e1, ← e2] at e3
  have w : (a.x - b.x) * (b.y - c.y) - (b.x - c.x) * (a.y - b.y) = det a b c := by unfold det; ring
  rw [w] at e3 c3
  refine ⟨⟨⟨_, _, _⟩, e1, fun p => ?_⟩, fun hd => ?_, fun hd => ?_⟩
  · dsimp only
    unfold sq2
    constructor <;> intro h <;> linarith
  · obtain ⟨x, x1, x2, -⟩ := quot_nearest (sq := sq) (hy := hy) (by push_cast; omega) (by push_cast; omega) c1 c3 hd
    obtain ⟨y, y1, y2, -⟩ := quot_nearest (sq := sq) (hy := hy) (by push_cast; omega) (by push_cast; omega) c2 c3 hd
    refine ⟨x, y, ?_, fun o k1 k2 => ?_⟩
    · rw [e3]
      unfold HCoord.getCoordinate HCoord.getX HCoord.getY
      dsimp only
      rw [x1, y1]; rfl
    · have ox : o.x = ((a.y - b.y) * ((c.x ^ 2 - b.x ^ 2 + (c.y ^ 2 - b.y ^ 2)) / 2) - (b.y - c.y) * ((b.x ^ 2 - a.x ^ 2 + (b.y ^ 2 - a.y ^ 2)) / 2)) / det a b c := by
        rw [eq_div_iff hd]
        unfold sq2 at k1 k2
        unfold det
        linear_combination (1 / 2) * (c.y - b.y) * k1 + (1 / 2) * (a.y - c.y) * k2
      have oy : o.y = ((b.x - c.x) * ((b.x ^ 2 - a.x ^ 2 + (b.y ^ 2 - a.y ^ 2)) / 2) - (a.x - b.x) * ((c.x ^ 2 - b.x ^ 2 + (c.y ^ 2 - b.y ^ 2)) / 2)) / det a b c := by
        rw [eq_div_iff hd]
        unfold sq2 at k1 k2
        unfold det
        linear_combination (1 / 2) * (b.x - c.x) * k1 + (1 / 2) * (c.x - a.x) * k2
      rw [ox, oy]
      exact ⟨x2, y2⟩
  · rw [e3, hd]
    unfold HCoord.getX HCoord.getY
    dsimp only
    constructor
    · rcases zero_quot (sq := sq) (hy := hy) ((a.y - b.y) * ((c.x ^ 2 - b.x ^ 2 + (c.y ^ 2 - b.y ^ 2)) / 2) - (b.y - c.y) * ((b.x ^ 2 - a.x ^ 2 + (b.y ^ 2 - a.y ^ 2)) / 2)) with h | h <;> rw [h] <;> simp <;> rfl
    · rcases zero_quot (sq := sq) (hy := hy) ((b.x - c.x) * ((b.x ^ 2 - a.x ^ 2 + (b.y ^ 2 - a.y ^ 2)) / 2) - (a.x - b.x) * ((c.x ^ 2 - b.x ^ 2 + (c.y ^ 2 - b.y ^ 2)) / 2)) with h | h <;> rw [h] <;> simp <;> rfl

/-- The middle of the common part of two extents. -/
theorem kernelMid_parts {a b c d : ℚ} (ha : OrdB 15 g a) (hb : OrdB 15 g b) (hc : OrdB 15 g c) (hd : OrdB 15 g d) :
    ∃ m, Intersection.kernelMid (Fl.fin a : B64 sq hy) (Fl.fin b) (Fl.fin c) (Fl.fin d) = Fl.fin m ∧ OrdB 16 (g - 1) m ∧
      ∀ L U, L ≤ a → a ≤ U → L ≤ b → b ≤ U → L ≤ c → c ≤ U → L ≤ d → d ≤ U → L ≤ m ∧ m ≤ U := by
  have pick : ∀ x y : ℚ, ∀ z w : ℚ, ∃ v, (if ((Fl.fin x : B64 sq hy) <. Fl.fin y) = true then (Fl.fin z : B64 sq hy) else Fl.fin w) = Fl.fin v ∧ (v = z ∨ v = w) := by
    intro x y z w
    split_ifs
    · exact ⟨z, rfl, Or.inl rfl⟩
    · exact ⟨w, rfl, Or.inr rfl⟩
  have pick' : ∀ x y : ℚ, ∀ z w : ℚ, ∃ v, (if ((Fl.fin x : B64 sq hy) >. Fl.fin y) = true then (Fl.fin z : B64 sq hy) else Fl.fin w) = Fl.fin v ∧ (v = z ∨ v = w) :=
    fun x y z w => pick y x z w
  unfold Intersection.kernelMid
  dsimp only
  obtain ⟨v1, e1, k1⟩ := pick a b a b
  obtain ⟨v2, e2, k2⟩ := pick' a b a b
  obtain ⟨v3, e3, k3⟩ := pick c d c d
  obtain ⟨v4, e4, k4⟩ := pick' c d c d
  rw [e1, e2, e3, e4]
  obtain ⟨v5, e5, k5⟩ := pick' v1 v3 v1 v3
  obtain ⟨v6, e6, k6⟩ := pick v2 v4 v2 v4
  rw [e5, e6, two_lit64]
  have all : ∀ P : ℚ → Prop, P a → P b → P c → P d → P v5 ∧ P v6 := by
    intro P pa pb pc pd
    refine ⟨?_, ?_⟩
    · rcases k5 with rfl | rfl
      · rcases k1 with rfl | rfl <;> assumption
      · rcases k3 with rfl | rfl <;> assumption
    · rcases k6 with rfl | rfl
      · rcases k2 with rfl | rfl <;> assumption
      · rcases k4 with rfl | rfl <;> assumption
  obtain ⟨o5, o6⟩ := all (OrdB 15 g) ha hb hc hd
  have s := o5.add o6
  have fs := ordB_f64 s (by omega) (by omega) (by omega)
  have fh := ordB_f64 s.half (by omega) (by omega) (by omega)
  refine ⟨(v5 + v6) / 2, ?_, s.half, fun L U l1 u1 l2 u2 l3 u3 l4 u4 => ?_⟩
  · rw [add_fin fs]
    exact div_fin64 two_ne_zero (near_of_rep fh.1) fh.2
  · obtain ⟨a1, a2⟩ := all (fun v => L ≤ v) l1 l2 l3 l4
    obtain ⟨b1, b2⟩ := all (fun v => v ≤ U) u1 u2 u3 u4
    constructor <;> linarith

/-- Adding the middle again. -/
theorem add_mid {u q m : ℚ} (fu : IsF64 u) (hu : |u - q| ≤ |q| / 2 ^ 53) (hq : |q| ≤ 2 ^ (600 : ℤ)) (hm : OrdB 16 (g - 1) m) :
    ∃ x, (Fl.fin u : B64 sq hy) +. Fl.fin m = Fl.fin x ∧ |x - (q + m)| ≤ (|q + m| + 2 * |q|) / 2 ^ 53 := by
  have fm := ordB_f64 hm (by omega) (by omega) (by omega)
  have s1 := near_add_rel fu.1 fm.1
  rw [abs_sub_comm] at s1
  have q0 := abs_nonneg q
  have t1 : |u + m| ≤ |q + m| + |q| / 2 ^ 53 := by
    have := abs_add_le (q + m) (u - q)
    rw [show q + m + (u - q) = u + m by ring] at this
    linarith
  have t2 := abs_sub_le (near (u + m)) (u + m) (q + m)
  rw [show u + m - (q + m) = u - q by ring] at t2
  have t3 : |near (u + m) - (q + m)| ≤ (|q + m| + 2 * |q|) / 2 ^ 53 := by linarith
  refine ⟨near (u + m), (rnd_fin_iff _ _).mpr ⟨rfl, ?_⟩, t3⟩
  have k1 := abs_sub_abs_le_abs_sub (near (u + m)) (q + m)
  have k2 := abs_add_le q m
  have k3 := (ord_abs hm).1
  have k6 : (2 : ℚ) ^ (((16 : ℕ) : ℤ) + (g - 1)) ≤ 2 ^ (600 : ℤ) := two_mono (by push_cast; omega)
  have k7 : (8 : ℚ) * 2 ^ (600 : ℤ) < 2 ^ 1024 := by decide +kernel
  refine lt_of_le_of_lt ?_ k7
  generalize (2 : ℚ) ^ (600 : ℤ) = Z at *
  linarith [abs_nonneg m]

/-- C116: on grids of 15 bits the conditioned formula reports the common point of two lines exactly if they are not parallel; if the ordinates of the four points are in an
interval with both ends at most R away from the ordinate of the exact common point, the result differs from that by at most 2^-53 of its size plus 2^-52 of R. -/
theorem C116_conditioned {p1 p2 q1 q2 : Coord ℚ} (hp1 : OnGridB 15 g p1) (hp2 : OnGridB 15 g p2) (hq1 : OnGridB 15 g q1) (hq2 : OnGridB 15 g q2) :
    (Intersection.intersectionFP (toB64 p1 : Coord (B64 sq hy)) (toB64 p2) (toB64 q1) (toB64 q2) = none ↔ dirDet p1 p2 q1 q2 = 0) ∧
    (dirDet p1 p2 q1 q2 ≠ 0 → ∃ x y, Intersection.intersectionFP (toB64 p1 : Coord (B64 sq hy)) (toB64 p2) (toB64 q1) (toB64 q2) = some (Coord.xy (Fl.fin x) (Fl.fin y)) ∧
      ∀ c : Coord ℚ, OnLineOf c p1 p2 → OnLineOf c q1 q2 →
        (∀ L U R, (∀ p ∈ [p1, p2, q1, q2], L ≤ p.x ∧ p.x ≤ U) → |c.x - L| ≤ R → |c.x - U| ≤ R → |x - c.x| ≤ (|c.x| + 2 * R) / 2 ^ 53) ∧
        (∀ L U R, (∀ p ∈ [p1, p2, q1, q2], L ≤ p.y ∧ p.y ≤ U) → |c.y - L| ≤ R → |c.y - U| ≤ R → |y - c.y| ≤ (|c.y| + 2 * R) / 2 ^ 53)) := by
  obtain ⟨mx, ex, ox, bx⟩ := kernelMid_parts (sq := sq) (hy := hy) h1 h2 hp1.ordx hp2.ordx hq1.ordx hq2.ordx
  obtain ⟨my, ey, oy, by'⟩ := kernelMid_parts (sq := sq) (hy := hy) h1 h2 hp1.ordy hp2.ordy hq1.ordy hq2.ordy
  have f : ∀ {k : ℕ} {i : ℤ} {x : ℚ}, OrdB k i x → k ≤ 53 → -1000 ≤ i → i ≤ 900 → IsF64 x := fun h a b c => ordB_f64 h a (by omega) c
  have off : ∀ {x m : ℚ}, OrdB 15 g x → OrdB 16 (g - 1) m → OrdB 17 (g - 1) (x - m) ∧ (Fl.fin x : B64 sq hy) -. Fl.fin m = Fl.fin (x - m) := fun hx hm =>
    ⟨hx.finer.sub hm, sub_fin (f (hx.finer.sub hm) (by omega) (by omega) (by omega))⟩
  have dif : ∀ {x y : ℚ} (m : ℚ), OrdB 15 g x → OrdB 15 g y → OrdB 16 g (x - y) ∧ (Fl.fin (x - m) : B64 sq hy) -. Fl.fin (y - m) = Fl.fin (x - y) := fun {x y} m hx hy' => by
    refine ⟨hx.sub hy', ?_⟩
    have e : x - m - (y - m) = x - y := by ring
    rw [sub_fin (by rw [e]; exact f (hx.sub hy') (by omega) (by omega) (by omega)), e]
  have crs : ∀ {x y z w : ℚ}, OrdB 17 (g - 1) x → OrdB 17 (g - 1) y → OrdB 17 (g - 1) z → OrdB 17 (g - 1) w → OrdB 35 (g - 1 + (g - 1)) (x * y - z * w) ∧
      (Fl.fin x : B64 sq hy) *. Fl.fin y -. Fl.fin z *. Fl.fin w = Fl.fin (x * y - z * w) := fun hx hy' hz hw => by
    have s := (hx.mul hy').sub (hz.mul hw)
    refine ⟨s, ?_⟩
    rw [mul_fin (f (hx.mul hy') (by omega) (by omega) (by omega)), mul_fin (f (hz.mul hw) (by omega) (by omega) (by omega)), sub_fin (f s (by omega) (by omega) (by omega))]
  obtain ⟨a1, a1'⟩ := off hp1.ordx ox
  obtain ⟨a2, a2'⟩ := off hp1.ordy oy
  obtain ⟨a3, a3'⟩ := off hp2.ordx ox
  obtain ⟨a4, a4'⟩ := off hp2.ordy oy
  obtain ⟨a5, a5'⟩ := off hq1.ordx ox
  obtain ⟨a6, a6'⟩ := off hq1.ordy oy
  obtain ⟨a7, a7'⟩ := off hq2.ordx ox
  obtain ⟨a8, a8'⟩ := off hq2.ordy oy
  obtain ⟨b1, b1'⟩ := dif my hp1.ordy hp2.ordy
  obtain ⟨b2, b2'⟩ := dif mx hp2.ordx hp1.ordx
  obtain ⟨b3, b3'⟩ := dif my hq1.ordy hq2.ordy
  obtain ⟨b4, b4'⟩ := dif mx hq2.ordx hq1.ordx
  obtain ⟨c1, c1'⟩ := crs a1 a4 a3 a2
  obtain ⟨c2, c2'⟩ := crs a5 a8 a7 a6
  obtain ⟨e3, d1, d2, d3⟩ := cross_parts (sq := sq) (hy := hy) h1 h2 (by omega) (by omega) (by omega) (by omega) (by omega) (by omega) b1 b2 c1 b3 b4 c2
  have w : (p1.y - p2.y) * (q2.x - q1.x) - (q1.y - q2.y) * (p2.x - p1.x) = dirDet p1 p2 q1 q2 := by unfold dirDet; ring
  rw [w] at e3 d3
  have i1 : Intersection.intersectionFP (toB64 p1 : Coord (B64 sq hy)) (toB64 p2) (toB64 q1) (toB64 q2) =
      let h := HCoord.cross (⟨Fl.fin (p1.y - p2.y), Fl.fin (p2.x - p1.x), Fl.fin ((p1.x - mx) * (p2.y - my) - (p2.x - mx) * (p1.y - my))⟩ : HCoord (B64 sq hy))
        ⟨Fl.fin (q1.y - q2.y), Fl.fin (q2.x - q1.x), Fl.fin ((q1.x - mx) * (q2.y - my) - (q2.x - mx) * (q1.y - my))⟩
      if isNaN (h.x /. h.w) || isInf (h.x /. h.w) || isNaN (h.y /. h.w) || isInf (h.y /. h.w) then none
      else some (Coord.xy (h.x /. h.w +. Fl.fin mx) (h.y /. h.w +. Fl.fin my)) := by
    unfold Intersection.intersectionFP HCoord.cross
    simp only [xB64, yB64, ex, ey, a1', a2', a3', a4', a5', a6', a7', a8', b1', b2', b3', b4', c1', c2']
  rw [e3] at i1
  dsimp only at i1
  generalize hX : (p2.x - p1.x) * ((q1.x - mx) * (q2.y - my) - (q2.x - mx) * (q1.y - my)) - (q2.x - q1.x) * ((p1.x - mx) * (p2.y - my) - (p2.x - mx) * (p1.y - my)) = X at *
  generalize hY : (q1.y - q2.y) * ((p1.x - mx) * (p2.y - my) - (p2.x - mx) * (p1.y - my)) - (p1.y - p2.y) * ((q1.x - mx) * (q2.y - my) - (q2.x - mx) * (q1.y - my)) = Y at *
  have some' : dirDet p1 p2 q1 q2 ≠ 0 → ∃ x y, Intersection.intersectionFP (toB64 p1 : Coord (B64 sq hy)) (toB64 p2) (toB64 q1) (toB64 q2) = some (Coord.xy (Fl.fin x) (Fl.fin y)) ∧
      ∀ c : Coord ℚ, OnLineOf c p1 p2 → OnLineOf c q1 q2 →
        (∀ L U R, (∀ p ∈ [p1, p2, q1, q2], L ≤ p.x ∧ p.x ≤ U) → |c.x - L| ≤ R → |c.x - U| ≤ R → |x - c.x| ≤ (|c.x| + 2 * R) / 2 ^ 53) ∧
        (∀ L U R, (∀ p ∈ [p1, p2, q1, q2], L ≤ p.y ∧ p.y ≤ U) → |c.y - L| ≤ R → |c.y - U| ≤ R → |y - c.y| ≤ (|c.y| + 2 * R) / 2 ^ 53) := by
    intro hd
    obtain ⟨u, u1, u2, u3, u4⟩ := quot_nearest (sq := sq) (hy := hy) (by push_cast; omega) (by push_cast; omega) d1 d3 hd
    obtain ⟨v, v1, v2, v3, v4⟩ := quot_nearest (sq := sq) (hy := hy) (by push_cast; omega) (by push_cast; omega) d2 d3 hd
    obtain ⟨x, x1, x2⟩ := add_mid (sq := sq) (hy := hy) h1 h2 u2.1 u3 (u4.trans (two_mono (by push_cast; omega))) ox
    obtain ⟨y, y1, y2⟩ := add_mid (sq := sq) (hy := hy) h1 h2 v2.1 v3 (v4.trans (two_mono (by push_cast; omega))) oy
    refine ⟨x, y, ?_, fun c k1 k2 => ?_⟩
    · rw [i1, u1, v1, x1, y1]; rfl
    · have cx : c.x - mx = X / dirDet p1 p2 q1 q2 := by
        rw [eq_div_iff hd, ← hX]
        unfold OnLineOf det at k1 k2
        unfold dirDet
        linear_combination (q2.x - q1.x) * k1 - (p2.x - p1.x) * k2
      have cy : c.y - my = Y / dirDet p1 p2 q1 q2 := by
        rw [eq_div_iff hd, ← hY]
        unfold OnLineOf det at k1 k2
        unfold dirDet
        linear_combination (q2.y - q1.y) * k1 - (p2.y - p1.y) * k2
      rw [← cx, sub_add_cancel] at x2
      rw [← cy, sub_add_cancel] at y2
      have mid : ∀ {z m L U R : ℚ}, L ≤ m ∧ m ≤ U → |z - L| ≤ R → |z - U| ≤ R → |z - m| ≤ R := by
        intro z m L U R h a b
        rw [abs_le] at a b ⊢
        constructor <;> linarith [h.1, h.2, a.1, a.2, b.1, b.2]
      refine ⟨fun L U R hp l r => x2.trans ?_, fun L U R hp l r => y2.trans ?_⟩
      · have := mid (bx L U (hp p1 (by simp)).1 (hp p1 (by simp)).2 (hp p2 (by simp)).1 (hp p2 (by simp)).2 (hp q1 (by simp)).1 (hp q1 (by simp)).2
          (hp q2 (by simp)).1 (hp q2 (by simp)).2) l r
        apply div_le_div_of_nonneg_right _ (by positivity)
        linarith
      · have := mid (by' L U (hp p1 (by simp)).1 (hp p1 (by simp)).2 (hp p2 (by simp)).1 (hp p2 (by simp)).2 (hp q1 (by simp)).1 (hp q1 (by simp)).2
          (hp q2 (by simp)).1 (hp q2 (by simp)).2) l r
        apply div_le_div_of_nonneg_right _ (by positivity)
        linarith
  refine ⟨⟨fun h => ?_, fun h => ?_⟩, some'⟩
  · by_contra hd
    obtain ⟨x, y, e, -⟩ := some' hd
    rw [h] at e
    cases e
  · rw [i1, h]
    exact pair_zero _ _ _

end lines

/-- C116: with integers of 31 bits the homogeneous and the conditioned formula find no common point of two lines that are not parallel. -/
theorem C116_limits : ∃ p1 p2 q1 q2 : Coord ℚ, OnGridB 31 0 p1 ∧ OnGridB 31 0 p2 ∧ OnGridB 31 0 q1 ∧ OnGridB 31 0 q2 ∧ dirDet p1 p2 q1 q2 ≠ 0 ∧
    HCoord.intersection (toB64 p1 : Coord X64) (toB64 p2) (toB64 q1) (toB64 q2) = none ∧
    Intersection.intersectionFP (toB64 p1 : Coord X64) (toB64 p2) (toB64 q1) (toB64 q2) = none ∧
    Intersection.intersection (toB64 p1 : Coord X64) (toB64 p2) (toB64 q1) (toB64 q2) = some (Coord.xy (Fl.fin 0) (Fl.fin 0)) := by
  refine ⟨Coord.xy 0 0, Coord.xy 1836311903 1134903170, Coord.xy 0 0, Coord.xy 1134903170 701408733, ⟨0, 0, ?_⟩, ⟨1836311903, 1134903170, ?_⟩, ⟨0, 0, ?_⟩,
    ⟨1134903170, 701408733, ?_⟩, ?_, ?_, ?_, ?_⟩
  · refine ⟨by norm_num, by norm_num, ?_, ?_⟩ <;> simp [Coord.xy]
  · refine ⟨by norm_num, by norm_num, ?_, ?_⟩ <;> simp [Coord.xy]
  · refine ⟨by norm_num, by norm_num, ?_, ?_⟩ <;> simp [Coord.xy]
  · refine ⟨by norm_num, by norm_num, ?_, ?_⟩ <;> simp [Coord.xy]
  · norm_num [dirDet, Coord.xy]
  · decide +kernel
  · decide +kernel
  · decide +kernel

/-- The diagonals of a quadrilateral with corners of 15 bits. -/
example : ∃ x y : ℚ, Intersection.intersectionFP (toB64 (Coord.xy 0 0) : Coord X64) (toB64 (Coord.xy 32767 32766)) (toB64 (Coord.xy 32768 1)) (toB64 (Coord.xy 3 32765)) =
    some (Coord.xy (Fl.fin x) (Fl.fin y)) := by
  obtain ⟨-, h⟩ := C116_conditioned (sq := Val.fin) (hy := fun a _ => Val.fin a) (g := 0) (by norm_num) (by norm_num)
    (p1 := Coord.xy 0 0) (p2 := Coord.xy 32767 32766) (q1 := Coord.xy 32768 1) (q2 := Coord.xy 3 32765)
    ⟨0, 0, by norm_num, by norm_num, by simp [Coord.xy], by simp [Coord.xy]⟩ ⟨32767, 32766, by norm_num, by norm_num, by simp [Coord.xy], by simp [Coord.xy]⟩
    ⟨32768, 1, by norm_num, by norm_num, by simp [Coord.xy], by simp [Coord.xy]⟩ ⟨3, 32765, by norm_num, by norm_num, by simp [Coord.xy], by simp [Coord.xy]⟩
  obtain ⟨x, y, e, -⟩ := h (by norm_num [dirDet, Coord.xy])
  exact ⟨x, y, e⟩

/-- The same diagonals in homogeneous coordinates, and the bisectors of three of the corners. -/
example : (∃ x y : ℚ, HCoord.intersection (toB64 (Coord.xy 0 0) : Coord X64) (toB64 (Coord.xy 32767 32766)) (toB64 (Coord.xy 32768 1)) (toB64 (Coord.xy 3 32765)) =
      some (Coord.xy (Fl.fin x) (Fl.fin y))) ∧
    ∃ x y : ℚ, (HCoord.cross (Triangle.perpendicularBisector (toB64 (Coord.xy 0 0) : Coord X64) (toB64 (Coord.xy 32767 32766)))
      (Triangle.perpendicularBisector (toB64 (Coord.xy 32767 32766)) (toB64 (Coord.xy 32768 1)))).getCoordinate = Coord.xy (Fl.fin x) (Fl.fin y) := by
  have g1 : OnGridB 16 0 (Coord.xy 0 0) := ⟨0, 0, by norm_num, by norm_num, by simp [Coord.xy], by simp [Coord.xy]⟩
  have g2 : OnGridB 16 0 (Coord.xy 32767 32766) := ⟨32767, 32766, by norm_num, by norm_num, by simp [Coord.xy], by simp [Coord.xy]⟩
  have g3 : OnGridB 16 0 (Coord.xy 32768 1) := ⟨32768, 1, by norm_num, by norm_num, by simp [Coord.xy], by simp [Coord.xy]⟩
  have g4 : OnGridB 16 0 (Coord.xy 3 32765) := ⟨3, 32765, by norm_num, by norm_num, by simp [Coord.xy], by simp [Coord.xy]⟩
  constructor
  · obtain ⟨-, -, h⟩ := C116_lines (sq := Val.fin) (hy := fun a _ => Val.fin a) (by norm_num) (by norm_num) g1 g2 g3 g4
    obtain ⟨x, y, e, -⟩ := h (by norm_num [dirDet, Coord.xy])
    exact ⟨x, y, e⟩
  · obtain ⟨-, h, -⟩ := C116_bisectors (sq := Val.fin) (hy := fun a _ => Val.fin a) (by norm_num) (by norm_num) g1 g2 g3
    obtain ⟨x, y, e, -⟩ := h (by norm_num [det, Coord.xy])
    exact ⟨x, y, e⟩

end Verif.Props
