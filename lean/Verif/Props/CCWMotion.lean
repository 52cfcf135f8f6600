import Verif.Props.CCW
import Mathlib.Data.Rat.Cast.Order
import Mathlib.Data.Real.Basic

set_option linter.unusedSectionVars false

/-! # C34: orientation of a moved ring -/

namespace Verif.Props
open Flt Verif.Spec
variable {K : Type} [Field K] [LinearOrder K] [IsStrictOrderedRing K]

/-- Two loops over related states stay related. -/
theorem forRange_rel {σ τ : Type} (lo hi : Nat) (f : Nat → σ → Res σ) (g : Nat → τ → Res τ) (R : σ → τ → Prop) (h : lo ≤ hi)
    (s : σ) (t : τ) (h0 : R s t)
    (hf : ∀ i s t, lo ≤ i → i < hi → R s t → ∃ s' t', f i s = .ok s' ∧ g i t = .ok t' ∧ R s' t') :
    ∃ s' t', forRange lo hi s f = .ok s' ∧ forRange lo hi t g = .ok t' ∧ R s' t' := by
  induction hi, h using Nat.le_induction with
  | base => exact ⟨s, t, forRange_self _ _ le_rfl _ _, forRange_self _ _ le_rfl _ _, h0⟩
  | succ hi hle ih =>
    obtain ⟨s', t', e1, e2, hr⟩ := ih (fun i s t h1 h2 => hf i s t h1 (by omega))
    obtain ⟨s'', t'', e3, e4, hr'⟩ := hf hi s' t' hle (by omega) hr
    exact ⟨s'', t'', by rw [forRange_succ _ _ hle, e1]; exact e3, by rw [forRange_succ _ _ hle, e2]; exact e4, hr'⟩

variable {L : Type} [Field L] [LinearOrder L] [IsStrictOrderedRing L]

/-- A map between planes, coordinate by coordinate. -/
def mapXY (gx gy gz : K → L) (c : Coord K) : Coord L := ⟨gx c.x, gy c.y, gz c.z, gz c.m⟩

/-- A map that keeps the order of both coordinates and the turn of every three points keeps the orientation of every list of
points, closed or not. -/
theorem isCCW_map (gx gy gz : K → L) (hx : StrictMono gx) (hy : StrictMono gy)
    (hd : ∀ a b c : Coord K, sgn (det (mapXY gx gy gz a) (mapXY gx gy gz b) (mapXY gx gy gz c)) = sgn (det a b c)) (r : List (Coord K)) :
    Orientation.isCCW (r.map (mapXY gx gy gz)) = Orientation.isCCW r := by
  obtain ⟨F, hF⟩ : ∃ F, F = mapXY gx gy gz := ⟨_, rfl⟩
  rw [← hF] at hd ⊢
  have Fx : ∀ c, (F c).x = gx c.x := by intro c; rw [hF]; rfl
  have Fy : ∀ c, (F c).y = gy c.y := by intro c; rw [hF]; rfl
  have heq : ∀ a b, (F a).equals2D (F b) = a.equals2D b := by
    intro a b
    rw [Bool.eq_iff_iff, equals2D_iff, equals2D_iff, Fx, Fx, Fy, Fy, hx.injective.eq_iff, hy.injective.eq_iff]
  by_cases hl : r.length < 4
  · by_cases hn : r = []
    · subst hn; rfl
    · rw [(C34_total r).2.2 hn hl, (C34_total (r.map F)).2.2 (by simpa using hn) (by simpa using hl)]
  push Not at hl
  unfold Orientation.isCCW Orientation.isCCWSeq Orientation.asSeq
  simp only [CASeq.size, List.length_map]
  rw [Res.sub_le (by omega)]
  simp only [Res.bind_ok]
  rw [if_neg (by omega), if_neg (by omega)]
  obtain ⟨n, hn⟩ : ∃ n, n = r.length - 1 := ⟨_, rfl⟩
  rw [← hn]
  have scanRel : ∃ s t, Orientation.scan (⟨2, 0, r⟩ : CASeq K) n = .ok s ∧ Orientation.scan (⟨2, 0, r.map F⟩ : CASeq L) n = .ok t ∧
      t.upHi = F s.upHi ∧ t.prevY = gy s.prevY ∧ t.iUpHi = s.iUpHi ∧ (s.iUpHi ≠ 0 → t.upLow = F s.upLow) := by
    unfold Orientation.scan
    simp only [CASeq.getCoordinate]
    rw [Res.get_lt (by omega : 0 < r.length), Res.get_lt (by simp; omega : 0 < (r.map F).length)]
    simp only [Res.bind_ok]
    apply forRange_rel 1 (n + 1) _ _ (fun (s : Orientation.Scan K) (t : Orientation.Scan L) =>
      t.upHi = F s.upHi ∧ t.prevY = gy s.prevY ∧ t.iUpHi = s.iUpHi ∧ (s.iUpHi ≠ 0 → t.upLow = F s.upLow)) (by omega)
    · exact ⟨by simp, by simp [Fy], rfl, fun h => absurd rfl h⟩
    · rintro i s t h1 h2 ⟨r1, r2, r3, r4⟩
      have hi : i < r.length := by omega
      rw [getOrd_asSeq r 2 0 i hi, getOrd_asSeq (r.map F) 2 0 i (by simpa using hi)]
      simp only [Res.bind_ok]
      have hc : (((r.map F)[i]'(by simpa using hi)).y >. t.prevY && ((r.map F)[i]'(by simpa using hi)).y ≥. t.upHi.y)
          = (r[i].y >. s.prevY && r[i].y ≥. s.upHi.y) := by
        simp only [List.getElem_map, Fy, r2, r1, exact_lt, exact_le, hy.lt_iff_lt, hy.le_iff_le]
      rw [hc]
      rw [Res.get_lt hi, Res.get_lt (by simpa using hi : i < (r.map F).length), Res.get_lt (by omega : i - 1 < r.length),
        Res.get_lt (by simp; omega : i - 1 < (r.map F).length)]
      split_ifs
      · exact ⟨_, _, rfl, rfl, by simp, by simp [Fy], rfl, fun _ => by simp⟩
      · exact ⟨_, _, rfl, rfl, r1, by simp [Fy], r3, r4⟩
  obtain ⟨s, t, e1, e2, r1, r2, r3, r4⟩ := scanRel
  rw [e1, e2]
  simp only [Res.bind_ok, r3]
  by_cases h0 : s.iUpHi = 0
  · rw [if_pos h0, if_pos h0]
  · rw [if_neg h0, if_neg h0]
    have hfd : ∀ fuel i, Orientation.findDown (⟨2, 0, r.map F⟩ : CASeq L) n t.upHi.y s.iUpHi fuel i
        = Orientation.findDown (⟨2, 0, r⟩ : CASeq K) n s.upHi.y s.iUpHi fuel i := by
      intro fuel
      induction fuel with
      | zero => intro i; rfl
      | succ fuel ih =>
        intro i
        have hm : (i + 1) % n < r.length := lt_of_lt_of_le (Nat.mod_lt _ (by omega)) (by omega)
        simp only [Orientation.findDown]
        rw [getOrd_asSeq r 2 0 _ hm, getOrd_asSeq (r.map F) 2 0 _ (by simpa using hm)]
        simp only [Res.bind_ok, List.getElem_map, ih]
        simp only [Fy, r1, exact_eq, hy.injective.eq_iff]
    have hget : ∀ i, (⟨2, 0, r.map F⟩ : CASeq L).getCoordinate i = F <$> (⟨2, 0, r⟩ : CASeq K).getCoordinate i := by
      intro i
      simp only [CASeq.getCoordinate]
      by_cases hi : i < r.length
      · rw [Res.get_lt hi, Res.get_lt (by simpa using hi : i < (r.map F).length)]; simp
      · rw [Res.get_ge (by omega : r.length ≤ i), Res.get_ge (by simp; omega : (r.map F).length ≤ i)]; rfl
    rw [hfd]
    cases Orientation.findDown (⟨2, 0, r⟩ : CASeq K) n s.upHi.y s.iUpHi (n + 1) s.iUpHi with
    | error e => rfl
    | ok i =>
      simp only [Res.bind_ok, hget]
      cases (⟨2, 0, r⟩ : CASeq K).getCoordinate i with
      | error e => rfl
      | ok dl =>
        simp only [Res.map_ok, Res.bind_ok]
        cases (⟨2, 0, r⟩ : CASeq K).getCoordinate (if i > 0 then i - 1 else n - 1) with
        | error e => rfl
        | ok dh =>
          simp only [Res.map_ok, Res.bind_ok, r1, r4 h0, heq, C29_index_is_sign, hd, Fx, exact_sub, exact_lt, exact_lit, Rat.cast_zero,
            sub_neg, hx.lt_iff_lt]

/-- Moving a ring does not change its orientation. -/
theorem C34_translate (u v : K) (r : List (Coord K)) : Orientation.isCCW (r.map (shift u v)) = Orientation.isCCW r :=
  isCCW_map (· + u) (· + v) id (fun _ _ h => by simpa using h) (fun _ _ h => by simpa using h)
    (fun a b c => by congr 1; simp only [det, mapXY]; ring) r

/-- Nor does enlarging it. -/
theorem C34_enlarge (k : K) (hk : 0 < k) (r : List (Coord K)) : Orientation.isCCW (r.map (scale k)) = Orientation.isCCW r :=
  isCCW_map (k * ·) (k * ·) id (fun _ _ h => mul_lt_mul_of_pos_left h hk) (fun _ _ h => mul_lt_mul_of_pos_left h hk)
    (fun a b c => by
      have : det (mapXY (k * ·) (k * ·) id a) (mapXY (k * ·) (k * ·) id b) (mapXY (k * ·) (k * ·) id c) = (k * k) * det a b c := by
        simp only [det, mapXY]; ring
      rw [this, sgn_mul_pos (mul_pos hk hk)]) r

/-- A point with rational coordinates as a real one. -/
noncomputable def realPt (c : Coord ℚ) : Coord ℝ := ⟨(c.x : ℝ), (c.y : ℝ), (c.z : ℝ), (c.m : ℝ)⟩

theorem isCCW_cast (r : List (Coord ℚ)) : Orientation.isCCW (r.map realPt) = Orientation.isCCW r :=
  isCCW_map (fun q : ℚ => (q : ℝ)) (fun q => (q : ℝ)) (fun q => (q : ℝ)) (fun _ _ h => Rat.cast_lt.mpr h) (fun _ _ h => Rat.cast_lt.mpr h)
    (fun a b c => by
      have : det (mapXY (fun q : ℚ => (q : ℝ)) (fun q => (q : ℝ)) (fun q => (q : ℝ)) a) (mapXY (fun q : ℚ => (q : ℝ)) (fun q => (q : ℝ)) (fun q => (q : ℝ)) b)
          (mapXY (fun q : ℚ => (q : ℝ)) (fun q => (q : ℝ)) (fun q => (q : ℝ)) c) = ((det a b c : ℚ) : ℝ) := by
        simp only [det, mapXY]; push_cast; ring
      rw [this]
      unfold sgn
      simp only [Rat.cast_pos, Rat.cast_lt_zero]) r

example : Orientation.isCCW ([Coord.xy 0 0, Coord.xy 4 0, Coord.xy 4 3, Coord.xy 0 0].map (shift 10 (-7 : ℚ))) = .ok true := by
  rw [C34_translate]; decide +kernel
example : Orientation.isCCW ([Coord.xy 0 0, Coord.xy 4 3, Coord.xy 4 0, Coord.xy 0 0].map (scale (5 : ℚ))) = .ok false := by
  rw [C34_enlarge 5 (by norm_num)]; decide +kernel

end Verif.Props
