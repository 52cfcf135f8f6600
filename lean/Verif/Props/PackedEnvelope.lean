import Verif.Props.SequenceFactories
import Verif.Props.GeometryCompare

/-! # C110: envelopes of packed sequences -/

namespace Verif.Props
open Flt Verif.Spec

variable {α : Type} [Flt α]

/-- The envelope enlarged by the numbers at the places `i` and `i + 1`, if both exist. -/
def pairAt (l : List α) (env : Env α) (i : Nat) : Env α :=
  match l[i]?, l[i + 1]? with
  | some x, some y => env.expandToIncludeXY x y
  | _, _ => env

/-- The loop from its turn `j` on. -/
theorem expandLoop_from (s : PSeq α) (d : Nat) (hd : asUsize s.dimension = d) (d0 : 0 < d) (m : Nat)
    (hm : ∀ j, j * d < s.coords.length ↔ j < m) (r : Nat) :
    ∀ j fuel env, j + r = m → r < fuel →
      s.expandLoop fuel (j * d) env = .ok ((List.range' j r).foldl (fun e j => pairAt s.coords e (j * d)) env) := by
  induction r with
  | zero =>
    intro j fuel env hj hf
    obtain ⟨f, rfl⟩ : ∃ f, fuel = f + 1 := ⟨fuel - 1, by omega⟩
    rw [PSeq.expandLoop, if_neg (fun h => by have := (hm j).mp h; omega)]
    rfl
  | succ r ih =>
    intro j fuel env hj hf
    obtain ⟨f, rfl⟩ : ∃ f, fuel = f + 1 := ⟨fuel - 1, by omega⟩
    have hl := (hm j).mpr (by omega)
    rw [PSeq.expandLoop, if_pos hl, hd, show j * d + d = (j + 1) * d by rw [Nat.succ_mul], List.range'_succ, List.foldl_cons,
      ← ih (j + 1) f _ (by omega) (by omega)]
    by_cases h1 : j * d + 1 < s.coords.length
    · rw [if_pos h1, Res.get_lt hl, Res.get_lt h1]
      simp only [Res.bind_ok, Res.pure_eq, pairAt, List.getElem?_eq_getElem hl, List.getElem?_eq_getElem h1]
    · rw [if_neg h1]
      simp only [Res.bind_ok, Res.pure_eq, pairAt, List.getElem?_eq_getElem hl, List.getElem?_eq_none (Nat.le_of_not_lt h1)]

theorem ceil_lt (n d : Nat) (hd : 0 < d) (j : Nat) : j * d < n ↔ j < (n + d - 1) / d := by
  rw [Nat.lt_iff_add_one_le (n := (n + d - 1) / d), Nat.le_div_iff_mul_le hd, Nat.succ_mul]
  omega

/-- The result for every dimension but zero: pairs of numbers are taken `dimension` apart, from the start; a pair that is cut off at the
end is left out. The answer is the same for every number of turns that is enough, and no index panics. -/
theorem C110_pairs (s : PSeq α) (env : Env α) (hd : 0 < asUsize s.dimension) :
    (∀ fuel, s.coords.length < fuel → s.expandLoop fuel 0 env = s.expandEnvelope env) ∧
    s.expandEnvelope env = .ok ((List.range ((s.coords.length + asUsize s.dimension - 1) / asUsize s.dimension)).foldl
      (fun e j => pairAt s.coords e (j * asUsize s.dimension)) env) := by
  have hm := ceil_lt s.coords.length _ hd
  have hle : (s.coords.length + asUsize s.dimension - 1) / asUsize s.dimension ≤ s.coords.length := by
    by_contra hlt
    have h1 := (hm s.coords.length).mpr (by omega)
    have := Nat.le_mul_of_pos_right s.coords.length hd
    omega
  have key := expandLoop_from s _ rfl hd _ hm ((s.coords.length + asUsize s.dimension - 1) / asUsize s.dimension) 0
  rw [Nat.zero_mul] at key
  have e := key (s.coords.length + 1) env (by omega) (by omega)
  refine ⟨fun fuel hf => ?_, ?_⟩
  · rw [key fuel env (by omega) (by omega), PSeq.expandEnvelope, e]
  · rw [PSeq.expandEnvelope, e, List.range_eq_range']

/-- The loop never ends exactly if the dimension is zero and there are numbers. -/
theorem C110_ends (s : PSeq α) (env : Env α) (hd : -2 ^ 31 ≤ s.dimension ∧ s.dimension < 2 ^ 31) :
    (∀ fuel, s.expandLoop fuel 0 env = .error .diverge) ↔ s.dimension = 0 ∧ s.coords ≠ [] := by
  constructor
  · intro h
    by_contra hc
    rw [not_and_or, not_not] at hc
    by_cases hz : s.dimension = 0
    · have hn := hc.resolve_left (by simpa using hz)
      have := h 1
      rw [PSeq.expandLoop, if_neg (by simp [hn])] at this
      cases this
    · have hp : 0 < asUsize s.dimension := by unfold asUsize; omega
      have := h (s.coords.length + 1)
      rw [(C110_pairs s env hp).1 _ (by omega), (C110_pairs s env hp).2] at this
      cases this
  · rintro ⟨hz, hn⟩ fuel
    have hl : 0 < s.coords.length := List.length_pos_iff.mpr hn
    have e : asUsize s.dimension = 0 := by rw [hz]; rfl
    induction fuel generalizing env with
    | zero => rfl
    | succ f ih =>
      rw [PSeq.expandLoop, if_pos hl, e]
      by_cases h1 : 0 + 1 < s.coords.length
      · rw [if_pos h1, Res.get_lt hl, Res.get_lt h1]
        simp only [Res.bind_ok, Res.pure_eq]
        exact ih _
      · rw [if_neg h1]
        exact ih _

/-- A packed sequence of whole coordinates: the envelope is enlarged by every coordinate in order, exactly as by an array sequence that
holds the same coordinates. -/
theorem C110_expand_envelope (s : PSeq α) (h : s.WF) (hdvd : s.dimension.toNat ∣ s.coords.length) (l : List (Coord α))
    (hl : s.toCoordinateArray = .ok l) (env : Env α) :
    s.expandEnvelope env = .ok (l.foldl Env.expandToInclude env) ∧
    ∀ d m, s.expandEnvelope env = .ok ((⟨d, m, l⟩ : CASeq α).expandEnvelope env) := by
  suffices hs : s.expandEnvelope env = .ok (l.foldl Env.expandToInclude env) from ⟨hs, fun _ _ => hs⟩
  have h1 := h.1; have h2 := h.2
  have e : asUsize s.dimension = s.dimension.toNat := asUsize_of _ (by omega) (by omega)
  obtain ⟨l', hl', hlen, hget⟩ := C105_packed_array s h
  rw [hl] at hl'; cases hl'
  obtain ⟨n, hn⟩ := hdvd
  have hd : 0 < s.dimension.toNat := by omega
  have hlen' : l.length = n := by rw [hlen, hn, Nat.mul_div_cancel_left _ hd]
  rw [(C110_pairs s env (by omega)).2, e]
  have hc : (s.coords.length + s.dimension.toNat - 1) / s.dimension.toNat = n := by
    rw [hn, Nat.add_sub_assoc hd, Nat.mul_add_div hd, Nat.div_eq_of_lt (by omega), Nat.add_zero]
  rw [hc]
  congr 1
  have key : ∀ k, k ≤ n → (List.range k).foldl (fun e j => pairAt s.coords e (j * s.dimension.toNat)) env
      = (l.take k).foldl Env.expandToInclude env := by
    intro k
    induction k with
    | zero => intro _; rfl
    | succ k ih =>
      intro hk
      have hkl : k < l.length := by omega
      rw [List.range_succ, List.foldl_append, ih (by omega), List.take_succ_eq_append_getElem hkl, List.foldl_append]
      simp only [List.foldl_cons, List.foldl_nil]
      obtain ⟨c, hc1, hx, hy, -⟩ := C55_packed_getCoordinate s h k (by omega)
      rw [hget k hkl] at hc1
      cases hc1
      rw [PSeq.getOrd, e, Res.get_eq_ok] at hx hy
      have a0 : asUsize 0 = 0 := rfl
      have a1 : asUsize 1 = 1 := rfl
      rw [a0, Nat.add_zero] at hx
      rw [a1] at hy
      rw [pairAt, hx, hy]
      rfl
  rw [key n le_rfl, ← hlen', List.take_length]

/-- So the result is the smallest box that covers the envelope given and every coordinate of the sequence. -/
theorem C110_smallest [FltOrd α] (s : PSeq α) (h : s.WF) (hdvd : s.dimension.toNat ∣ s.coords.length) (l : List (Coord α))
    (hl : s.toCoordinateArray = .ok l) (nn : ∀ p ∈ l, p.NN) (e : Env α) (he : e.Box) :
    ∃ r, s.expandEnvelope e = .ok r ∧ r.covers e = true ∧ (∀ p ∈ l, r.coversCoordinate p = true) ∧
    (∀ f : Env α, f.WF → f.covers e = true → (∀ p ∈ l, f.coversCoordinate p = true) → f.covers r = true) :=
  ⟨_, (C110_expand_envelope s h hdvd l hl e).1, (foldl_expand_box l nn e he).2⟩

/-- The coordinates a line gives by number are those it gives as a list, and a number past the end panics; the sequence a point gives
holds what the point gives as its list. -/
theorem C110_handed_out (l : LineString α) (n : Nat) (p : Point α) :
    (∀ hn : n < l.getCoordinates.length, l.getCoordinateN n = .ok l.getCoordinates[n]) ∧
    (l.getCoordinates.length ≤ n → l.getCoordinateN n = .error .index) ∧
    (p.getCoordinateSequence.size ≤ 1 → p.getCoordinates = .ok p.getCoordinateSequence.coordinates) := by
  refine ⟨fun hn => ?_, fun hn => ?_, ?_⟩
  · exact Res.get_lt hn
  · exact Res.get_ge hn
  · obtain ⟨⟨d, m, c⟩, e, pm⟩ := p
    intro h
    match c, h with
    | [], _ => rfl
    | [c], _ => rfl

/-- Numbers after the last whole coordinate: with two of them or more the envelope is enlarged by a point that is no coordinate of the
sequence. -/
theorem C110_remainder : (⟨3, 0, [.fin 1, .fin 2, .fin 3, .fin 7, .fin 8]⟩ : PSeq EQ).toCoordinateArray = .ok [Coord.xyz (.fin 1) (.fin 2) (.fin 3)] ∧
    (⟨3, 0, [.fin 1, .fin 2, .fin 3, .fin 7, .fin 8]⟩ : PSeq EQ).expandEnvelope Env.null = .ok ⟨.fin 1, .fin 7, .fin 2, .fin 8⟩ := by
  decide +kernel

example : (⟨3, 0, [.fin 5, .fin 2, .fin 3, .fin 4, .fin 9, .fin 6]⟩ : PSeq EQ).WF ∧
    (⟨3, 0, [.fin 5, .fin 2, .fin 3, .fin 4, .fin 9, .fin 6]⟩ : PSeq EQ).expandEnvelope Env.null = .ok ⟨.fin 4, .fin 5, .fin 2, .fin 9⟩ :=
  ⟨by unfold PSeq.WF; decide, by decide +kernel⟩
example : (⟨0, 0, [.fin 5, .fin 2]⟩ : PSeq EQ).expandEnvelope Env.null = .error .diverge := by decide +kernel
example : (⟨1, 0, [.fin 5, .fin 2, .fin 7]⟩ : PSeq EQ).expandEnvelope Env.null = .ok ⟨.fin 2, .fin 5, .fin 2, .fin 7⟩ := by decide +kernel
example : (⟨-1, 0, [.fin 5, .fin 2, .fin 7]⟩ : PSeq EQ).expandEnvelope Env.null = .ok ⟨.fin 5, .fin 5, .fin 2, .fin 2⟩ := by decide +kernel

end Verif.Props
