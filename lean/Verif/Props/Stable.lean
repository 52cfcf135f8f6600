import Verif.Props.Boxes
import Verif.Props.PrecisionModel

set_option linter.unusedSectionVars false

/-! # C146: small changes of the input change sizes and distances little -/

namespace Verif.Spec

/-- Lines of as many points, each moved by at most `ε`. -/
def MovedBy (ε : ℝ) (l l' : List (Coord ℝ)) : Prop := List.Forall₂ (fun a b => dist a b ≤ ε) l l'

end Verif.Spec

namespace Verif.Props
open Flt Verif.Spec

theorem dist_scaled (a b : Coord ℝ) (t : ℝ) (ht : 0 ≤ t) (u v : Coord ℝ) (hx : u.x - v.x = t * (a.x - b.x)) (hy : u.y - v.y = t * (a.y - b.y)) :
    Spec.dist u v = t * Spec.dist a b := by
  unfold Spec.dist
  rw [hx, hy, show (t * (a.x - b.x)) ^ 2 + (t * (a.y - b.y)) ^ 2 = t ^ 2 * ((a.x - b.x) ^ 2 + (a.y - b.y) ^ 2) by ring,
    Real.sqrt_mul (sq_nonneg t), Real.sqrt_sq ht]

/-- Moving the ends of a segment moves its points no further. -/
theorem onSegment_moved {ε : ℝ} {a b a' b' : Coord ℝ} (ha : Spec.dist a a' ≤ ε) (hb : Spec.dist b b' ≤ ε) (w : Coord ℝ) (hw : OnSegment w a b) :
    ∃ w', OnSegment w' a' b' ∧ Spec.dist w w' ≤ ε := by
  obtain ⟨t, t0, t1, ex, ey⟩ := hw
  refine ⟨Coord.xy (a'.x + t * (b'.x - a'.x)) (a'.y + t * (b'.y - a'.y)), ⟨t, t0, t1, rfl, rfl⟩, ?_⟩
  have s1 := dist_scaled a a' (1 - t) (by linarith) w (Coord.xy (a'.x + t * (b.x - a'.x)) (a'.y + t * (b.y - a'.y)))
    (by simp only [Coord.xy]; rw [ex]; ring) (by simp only [Coord.xy]; rw [ey]; ring)
  have s2 := dist_scaled b b' t t0 (Coord.xy (a'.x + t * (b.x - a'.x)) (a'.y + t * (b.y - a'.y)))
    (Coord.xy (a'.x + t * (b'.x - a'.x)) (a'.y + t * (b'.y - a'.y))) (by simp only [Coord.xy]; ring) (by simp only [Coord.xy]; ring)
  have tr := Spec.dist_triangle w (Coord.xy (a'.x + t * (b.x - a'.x)) (a'.y + t * (b.y - a'.y)))
    (Coord.xy (a'.x + t * (b'.x - a'.x)) (a'.y + t * (b'.y - a'.y)))
  have m1 := mul_le_mul_of_nonneg_left ha (show 0 ≤ 1 - t by linarith)
  have m2 := mul_le_mul_of_nonneg_left hb t0
  linarith

/-- Nearest distances of moved points to moved sets. -/
theorem least_moved {ε : ℝ} {S S' : Coord ℝ → Prop} (p p' : Coord ℝ) (d d' : ℝ) (h : LeastDist p S d) (h' : LeastDist p' S' d')
    (hm : ∀ w, S w → ∃ w', S' w' ∧ Spec.dist w w' ≤ ε) : d' ≤ d + (Spec.dist p p' + ε) := by
  obtain ⟨⟨w, hw, e⟩, -⟩ := h
  obtain ⟨w', hw', hd⟩ := hm w hw
  have k := h'.2 w' hw'
  have t1 := Spec.dist_triangle p' p w'
  have t2 := Spec.dist_triangle p w w'
  rw [Spec.dist_comm p' p] at t1
  linarith

/-- C146: the distance of a point and a segment changes no more than they move. -/
theorem C146_segment {ε : ℝ} {p p' a b a' b' : Coord ℝ} (ha : Spec.dist a a' ≤ ε) (hb : Spec.dist b b' ≤ ε) :
    |Distance.pointToSegment p a b - Distance.pointToSegment p' a' b'| ≤ Spec.dist p p' + ε := by
  have k1 := least_moved p p' _ _ (C36_segment p a b) (C36_segment p' a' b') (fun w hw => onSegment_moved ha hb w hw)
  have k2 := least_moved (ε := ε) p' p _ _ (C36_segment p' a' b') (C36_segment p a b)
    (fun w hw => onSegment_moved (by rw [Spec.dist_comm]; exact ha) (by rw [Spec.dist_comm]; exact hb) w hw)
  rw [Spec.dist_comm p' p] at k2
  rw [abs_le]
  constructor <;> linarith

/-- C146: the distance of two segments changes no more than they move. -/
theorem C146_segments {ε δ : ℝ} {a b c d a' b' c' d' : Coord ℝ} (ha : Spec.dist a a' ≤ ε) (hb : Spec.dist b b' ≤ ε)
    (hc : Spec.dist c c' ≤ δ) (hd : Spec.dist d d' ≤ δ) :
    |Distance.segmentToSegment a b c d - Distance.segmentToSegment a' b' c' d'| ≤ ε + δ := by
  have key : ∀ {a b c d a' b' c' d' : Coord ℝ}, Spec.dist a a' ≤ ε → Spec.dist b b' ≤ ε → Spec.dist c c' ≤ δ → Spec.dist d d' ≤ δ →
      Distance.segmentToSegment a' b' c' d' ≤ Distance.segmentToSegment a b c d + (ε + δ) := by
    intro a b c d a' b' c' d' ha hb hc hd
    obtain ⟨⟨u, v, hu, hv, e⟩, -⟩ := C37_segments a b c d
    obtain ⟨u', hu', eu⟩ := onSegment_moved ha hb u hu
    obtain ⟨v', hv', ev⟩ := onSegment_moved hc hd v hv
    have k := (C37_segments a' b' c' d').2 u' v' hu' hv'
    have t1 := Spec.dist_triangle u' u v'
    have t2 := Spec.dist_triangle u v v'
    rw [Spec.dist_comm u' u] at t1
    linarith
  have k1 := key ha hb hc hd
  have k2 := key (a := a') (b := b') (c := c') (d := d') (a' := a) (b' := b) (c' := c) (d' := d)
    (by rw [Spec.dist_comm]; exact ha) (by rw [Spec.dist_comm]; exact hb) (by rw [Spec.dist_comm]; exact hc) (by rw [Spec.dist_comm]; exact hd)
  rw [abs_le]
  constructor <;> linarith

theorem moved_symm {ε : ℝ} {l l' : List (Coord ℝ)} (h : MovedBy ε l l') : MovedBy ε l' l := by
  unfold MovedBy at *
  induction h with
  | nil => exact .nil
  | cons hab _ ih => exact .cons (by rw [Spec.dist_comm]; exact hab) ih

theorem chain_moved {ε : ℝ} {l l' : List (Coord ℝ)} (h : MovedBy ε l l') (w : Coord ℝ) (hw : OnChain l w) :
    ∃ w', OnChain l' w' ∧ Spec.dist w w' ≤ ε := by
  have hv : ∀ {l l' : List (Coord ℝ)}, MovedBy ε l l' → ∀ v ∈ l, ∃ v' ∈ l', Spec.dist v v' ≤ ε := by
    intro l l' h
    induction h with
    | nil => simp
    | cons hab _ ih =>
      intro v hv
      rcases List.mem_cons.mp hv with rfl | hv
      · exact ⟨_, by simp, hab⟩
      · obtain ⟨v', k1, k2⟩ := ih v hv
        exact ⟨v', by simp [k1], k2⟩
  have hs : ∀ {l l' : List (Coord ℝ)}, MovedBy ε l l' → ∀ s ∈ segs l, ∃ s' ∈ segs l', Spec.dist s.1 s'.1 ≤ ε ∧ Spec.dist s.2 s'.2 ≤ ε := by
    intro l l' h
    induction h with
    | nil => simp
    | cons hab ht ih =>
      intro s hs
      cases ht with
      | nil => simp at hs
      | cons hcd ht =>
        rw [segs_cons] at hs ⊢
        rcases List.mem_cons.mp hs with rfl | hs
        · exact ⟨_, List.mem_cons_self, hab, hcd⟩
        · obtain ⟨s', k1, k2⟩ := ih s hs
          exact ⟨s', List.mem_cons_of_mem _ k1, k2⟩
  rcases hw with ⟨v, m, e1, e2⟩ | ⟨s, m, o⟩
  · obtain ⟨v', m', k⟩ := hv h v m
    refine ⟨v', Or.inl ⟨v', m', rfl, rfl⟩, ?_⟩
    have : Spec.dist w v' = Spec.dist v v' := by unfold Spec.dist; rw [e1, e2]
    rw [this]; exact k
  · obtain ⟨s', m', k1, k2⟩ := hs h s m
    obtain ⟨w', o', k⟩ := onSegment_moved k1 k2 w o
    exact ⟨w', Or.inr ⟨s', m', o'⟩, k⟩

/-- C146: the distance of a point and a line changes no more than they move. -/
theorem C146_chain {ε : ℝ} (p p' : Coord ℝ) (l l' : List (Coord ℝ)) (hl : l ≠ []) (h : MovedBy ε l l') :
    ∃ d d', Distance.pointToSegmentString p l = .ok d ∧ Distance.pointToSegmentString p' l' = .ok d' ∧ |d - d'| ≤ Spec.dist p p' + ε := by
  have hl' : l' ≠ [] := by rintro rfl; cases h; exact hl rfl
  obtain ⟨d, d1, d2⟩ := C36_chain p l hl
  obtain ⟨d', d1', d2'⟩ := C36_chain p' l' hl'
  refine ⟨d, d', d1, d1', ?_⟩
  have k1 := least_moved p p' _ _ d2 d2' (chain_moved h)
  have k2 := least_moved p' p _ _ d2' d2 (chain_moved (moved_symm h))
  rw [Spec.dist_comm p' p] at k2
  rw [abs_le]
  constructor <;> linarith

/-- C146: each of the segments of a line changes its length by at most twice the largest move. -/
theorem C146_length {ε : ℝ} (dim m dim' m' : Int) (l l' : List (Coord ℝ)) (h : MovedBy ε l l') :
    ∃ L L', Length.ofLine ⟨dim, m, l⟩ = .ok L ∧ Length.ofLine ⟨dim', m', l'⟩ = .ok L' ∧ |L - L'| ≤ 2 * ε * (l.length - 1 : ℕ) := by
  refine ⟨_, _, C35_exact ⟨dim, m, l⟩, C35_exact ⟨dim', m', l'⟩, ?_⟩
  dsimp only
  induction h with
  | nil => simp [lineLength]
  | cons hab ht ih =>
    cases ht with
    | nil => simp [lineLength]
    | @cons c d l l' hcd ht =>
      rename_i a b
      have e : ∀ u w l, lineLength (u :: w :: l) = Spec.dist u w + lineLength (w :: l) := by
        intro u w l; unfold lineLength; rw [segs_cons, List.map_cons, List.sum_cons]
      rw [e, e]
      have t1 := Spec.dist_triangle a b c
      have t2 := Spec.dist_triangle b d c
      have t3 := Spec.dist_triangle b a d
      have t4 := Spec.dist_triangle a c d
      rw [Spec.dist_comm d c] at t2
      rw [Spec.dist_comm b a] at t3
      rw [abs_le] at ih ⊢
      simp only [List.length_cons, Nat.add_sub_cancel, Nat.cast_add, Nat.cast_one] at ih ⊢
      constructor <;> linarith [ih.1, ih.2]

theorem cross_le (a b c d : Coord ℝ) : |(b.x - a.x) * (d.y - c.y) - (d.x - c.x) * (b.y - a.y)| ≤ Spec.dist a b * Spec.dist c d := by
  unfold Spec.dist
  rw [← Real.sqrt_mul (by positivity)]
  apply Real.abs_le_sqrt
  nlinarith [sq_nonneg ((b.x - a.x) * (d.x - c.x) + (b.y - a.y) * (d.y - c.y))]

theorem shoelace_moved {ε : ℝ} (l l' : List (Coord ℝ)) (h : MovedBy ε l l') : ∀ a b a' b', l.head? = some a → l.getLast? = some b →
    l'.head? = some a' → l'.getLast? = some b' →
    |shoelace l - shoelace l' + ((b.x * b'.y - b'.x * b.y) - (a.x * a'.y - a'.x * a.y))| ≤ ε * (lineLength l + lineLength l') := by
  induction h with
  | nil => intro a b a' b' h; simp at h
  | cons hab ht ih =>
    intro a b a' b' h1 h2 h3 h4
    cases ht with
    | nil =>
      simp at h1 h2 h3 h4
      subst h1 h2 h3 h4
      simp [shoelace, lineLength]
    | @cons c d l l' hcd ht =>
      simp at h1 h3
      subst h1 h3
      have e : ∀ u w l, lineLength (u :: w :: l) = Spec.dist u w + lineLength (w :: l) := by
        intro u w l; unfold lineLength; rw [segs_cons, List.map_cons, List.sum_cons]
      have e' : ∀ (u w : Coord ℝ) l, shoelace (u :: w :: l) = (u.x * w.y - w.x * u.y) + shoelace (w :: l) := by
        intro u w l; unfold shoelace; rw [segs_cons, List.map_cons, List.sum_cons]
      have k := ih c b d b' rfl (by simpa using h2) rfl (by simpa using h4)
      rename_i a a'
      rw [e, e, e', e']
      have c1 := cross_le a c c d
      have c2 := cross_le a' d a a'
      have m1 := mul_le_mul_of_nonneg_left hcd (Spec.dist_nonneg a c)
      have m2 := mul_le_mul_of_nonneg_left hab (Spec.dist_nonneg a' d)
      rw [abs_le] at k c1 c2 ⊢
      constructor <;> linarith [k.1, k.2, c1.1, c1.2, c2.1, c2.2]

/-- C146: the area of a closed ring changes by at most the largest move times the mean of the two lengths. -/
theorem C146_area {ε : ℝ} (l l' : List (Coord ℝ)) (h : MovedBy ε l l') (hc : Closed2D l) (hc' : Closed2D l') :
    ∃ A A', Area.ofRingSigned l = .ok A ∧ Area.ofRingSigned l' = .ok A' ∧ |A - A'| ≤ ε * ((lineLength l + lineLength l') / 2) ∧
      Area.ofRing l = .ok |A| ∧ Area.ofRing l' = .ok |A'| := by
  obtain ⟨k1, k2⟩ := C33_shoelace l hc
  obtain ⟨k1', k2'⟩ := C33_shoelace l' hc'
  have ab : ∀ s : ℝ, |-s / 2| = |s| / 2 := by intro s; rw [abs_div, abs_neg, abs_two]
  refine ⟨_, _, k1, k1', ?_, by rw [k2, ab], by rw [k2', ab]⟩
  cases l with
  | nil =>
    cases h
    simp [shoelace, lineLength]
  | cons a l =>
    cases l' with
    | nil => cases h
    | cons a' l' =>
      obtain ⟨b, hb⟩ : ∃ e, (a :: l).getLast? = some e := ⟨_, List.getLast?_eq_some_getLast (by simp)⟩
      obtain ⟨b', hb'⟩ : ∃ e, (a' :: l').getLast? = some e := ⟨_, List.getLast?_eq_some_getLast (by simp)⟩
      have k := shoelace_moved _ _ h a b a' b' rfl hb rfl hb'
      obtain ⟨e1, e2⟩ := hc a b rfl hb
      obtain ⟨e3, e4⟩ := hc' a' b' rfl hb'
      rw [← e1, ← e2, ← e3, ← e4, sub_self, add_zero, abs_le] at k
      rw [abs_le]
      constructor <;> linarith [k.1, k.2]

/-- A point further than `ε` from a segment is not between the segment and the same segment with moved ends. -/
theorem not_swept {ε : ℝ} {p a b a' b' : Coord ℝ} (ha : Spec.dist a a' ≤ ε) (hb : Spec.dist b b' ≤ ε)
    (hp : ∀ w, OnSegment w a b → ε < Spec.dist p w) (s t u v : ℝ) (s0 : 0 ≤ s) (t0 : 0 ≤ t) (u0 : 0 ≤ u) (v0 : 0 ≤ v) (e : s + t + u + v = 1)
    (hx : p.x = s * a.x + t * b.x + u * a'.x + v * b'.x) (hy : p.y = s * a.y + t * b.y + u * a'.y + v * b'.y) : False := by
  have es : s = 1 - t - u - v := by linarith
  have hm := hp (Coord.xy (a.x + (t + v) * (b.x - a.x)) (a.y + (t + v) * (b.y - a.y))) ⟨t + v, by linarith, by linarith, rfl, rfl⟩
  have k1 := dist_scaled a' a u u0 p (Coord.xy (a.x + t * (b.x - a.x) + v * (b'.x - a.x)) (a.y + t * (b.y - a.y) + v * (b'.y - a.y)))
    (by simp only [Coord.xy]; rw [hx, es]; ring) (by simp only [Coord.xy]; rw [hy, es]; ring)
  have k2 := dist_scaled b' b v v0 (Coord.xy (a.x + t * (b.x - a.x) + v * (b'.x - a.x)) (a.y + t * (b.y - a.y) + v * (b'.y - a.y)))
    (Coord.xy (a.x + (t + v) * (b.x - a.x)) (a.y + (t + v) * (b.y - a.y))) (by simp only [Coord.xy]; ring) (by simp only [Coord.xy]; ring)
  have tr := Spec.dist_triangle p (Coord.xy (a.x + t * (b.x - a.x) + v * (b'.x - a.x)) (a.y + t * (b.y - a.y) + v * (b'.y - a.y)))
    (Coord.xy (a.x + (t + v) * (b.x - a.x)) (a.y + (t + v) * (b.y - a.y)))
  rw [Spec.dist_comm a' a] at k1
  rw [Spec.dist_comm b' b] at k2
  have e0 : 0 ≤ ε := (Spec.dist_nonneg a a').trans ha
  have m1 := mul_le_mul_of_nonneg_left ha u0
  have m2 := mul_le_mul_of_nonneg_left hb v0
  have m3 := mul_nonneg s0 e0
  have m4 := mul_nonneg t0 e0
  have m5 : (s + t + u + v) * ε = ε := by rw [e, one_mul]
  linarith

theorem inTriangle_bary {p a b c : Coord ℝ} (h : InTriangle p a b c) : InClosedTriangle p a b c := by
  have hs := tri_sum a b c p
  have hd : det a b c ≠ 0 := by
    rcases h with h | h
    · have : 0 < det a b c := by linarith [h.1, h.2.1, h.2.2]
      exact this.ne'
    · have : det a b c < 0 := by linarith [h.1, h.2.1, h.2.2]
      exact this.ne
  exact (closedTriangle_iff p a b c hd).mpr (Or.inl h)

/-- The ray crosses a segment, the moved one and the ways of the ends together an even number of times. -/
theorem swept_parity {ε : ℝ} {p a b a' b' : Coord ℝ} (ha : Spec.dist a a' ≤ ε) (hb : Spec.dist b b' ≤ ε)
    (hp : ∀ w, OnSegment w a b → ε < Spec.dist p w) : (cr p a b + cr p a' b' + cr p a a' + cr p b b') % 2 = 0 := by
  have no := not_swept (p := p) ha hb hp
  have n1 : ¬ OnSegment p a b := by
    rintro ⟨t, t0, t1, ex, ey⟩
    exact no (1 - t) t 0 0 (by linarith) t0 le_rfl le_rfl (by ring) (by rw [ex]; ring) (by rw [ey]; ring)
  have n2 : ¬ OnSegment p b b' := by
    rintro ⟨t, t0, t1, ex, ey⟩
    exact no 0 (1 - t) 0 t le_rfl (by linarith) le_rfl t0 (by ring) (by rw [ex]; ring) (by rw [ey]; ring)
  have n3 : ¬ OnSegment p b' a := by
    rintro ⟨t, t0, t1, ex, ey⟩
    exact no t 0 0 (1 - t) t0 le_rfl le_rfl (by linarith) (by ring) (by rw [ex]; ring) (by rw [ey]; ring)
  have n4 : ¬ OnSegment p a b' := fun k => n3 ((onSegment_swap p a b').mp k)
  have n5 : ¬ OnSegment p b' a' := by
    rintro ⟨t, t0, t1, ex, ey⟩
    exact no 0 0 t (1 - t) le_rfl le_rfl t0 (by linarith) (by ring) (by rw [ex]; ring) (by rw [ey]; ring)
  have n6 : ¬ OnSegment p a' a := by
    rintro ⟨t, t0, t1, ex, ey⟩
    exact no t 0 (1 - t) 0 t0 le_rfl (by linarith) le_rfl (by ring) (by rw [ex]; ring) (by rw [ey]; ring)
  have i1 : ¬ InTriangle p a b b' := by
    intro k
    obtain ⟨s, t, u, s0, t0, u0, e, ex, ey⟩ := inTriangle_bary k
    exact no s t 0 u s0 t0 le_rfl u0 (by linarith) (by rw [ex]; ring) (by rw [ey]; ring)
  have i2 : ¬ InTriangle p a b' a' := by
    intro k
    obtain ⟨s, t, u, s0, t0, u0, e, ex, ey⟩ := inTriangle_bary k
    exact no s 0 u t s0 le_rfl u0 t0 (by linarith) (by rw [ex]; ring) (by rw [ey]; ring)
  have t1 := (tri_parity p a b b' n1 n2 n3).not.mpr i1
  have t2 := (tri_parity p a b' a' n4 n5 n6).not.mpr i2
  have sw : ∀ u v : Coord ℝ, cr p u v = cr p v u := by
    intro u v
    unfold cr
    simp only [crossesRight_swap p u v]
  rw [sw b' a] at t1
  rw [sw b' a', sw a' a] at t2
  omega

theorem crossings_moved {ε : ℝ} (p : Coord ℝ) (l l' : List (Coord ℝ)) (h : MovedBy ε l l') (hp : ∀ w, OnLine w l → ε < Spec.dist p w) :
    ∀ a b a' b', l.head? = some a → l.getLast? = some b → l'.head? = some a' → l'.getLast? = some b' →
    (crossings p l + crossings p l' + cr p a a' + cr p b b') % 2 = 0 := by
  induction h with
  | nil => intro a b a' b' h; simp at h
  | cons hab ht ih =>
    intro a b a' b' h1 h2 h3 h4
    cases ht with
    | nil =>
      simp at h1 h2 h3 h4
      subst h1 h2 h3 h4
      rw [crossings_single, crossings_single]
      omega
    | @cons c d l l' hcd ht =>
      simp at h1 h3
      subst h1 h3
      have k := ih (by
        rintro w ⟨s, hs, o⟩
        exact hp w ⟨s, by rw [segs_cons]; exact List.mem_cons_of_mem _ hs, o⟩) c b d b' rfl (by simpa using h2) rfl (by simpa using h4)
      have q := swept_parity hab hcd (p := p) (fun w hw => hp w ⟨_, by rw [segs_cons]; exact List.mem_cons_self, hw⟩)
      rw [crossings_cons, crossings_cons]
      omega

/-- C146: nothing changes for a point that was further from the ring than its corners, and the point, have moved. -/
theorem C146_location {ε : ℝ} (p p' : Coord ℝ) (l l' : List (Coord ℝ)) (h : MovedBy ε l l') (hc : Closed2D l) (hc' : Closed2D l') (hl : l ≠ []) (d : ℝ)
    (hd : Distance.pointToSegmentString p l = .ok d) (hlt : Spec.dist p p' + ε < d) :
    PointLocation.locateInRing p' l' = PointLocation.locateInRing p l := by
  obtain ⟨x, x', x1, x2, x3⟩ := C146_chain p p l l' hl h
  rw [hd] at x1
  obtain rfl := Except.ok.inj x1
  have hpp : Spec.dist p p = 0 := by unfold Spec.dist; simp
  rw [hpp, abs_le] at x3
  have e0 : 0 ≤ ε := by
    cases h with
    | nil => exact absurd rfl hl
    | cons hab _ => exact (Spec.dist_nonneg _ _).trans hab
  rw [C144_disc p p' l' hc' x' x2 (by rw [distance_eq]; linarith)]
  obtain ⟨y, y1, -, y3⟩ := C36_chain p l hl
  rw [hd] at y1
  obtain rfl := Except.ok.inj y1
  have hl' : l' ≠ [] := by rintro rfl; cases h; exact hl rfl
  obtain ⟨z, z1, -, z3⟩ := C36_chain p l' hl'
  rw [x2] at z1
  obtain rfl := Except.ok.inj z1
  have far : ∀ w, OnLine w l → ε < Spec.dist p w := fun w hw => by
    have := y3 w (Or.inr hw)
    linarith [Spec.dist_nonneg p p']
  have on : ¬ OnLine p l := fun k => by
    have := far p k
    rw [hpp] at this
    linarith
  have on' : ¬ OnLine p l' := fun k => by
    have := z3 p (Or.inr k)
    rw [hpp] at this
    linarith [Spec.dist_nonneg p p']
  have par : crossings p l' % 2 = crossings p l % 2 := by
    cases l with
    | nil => exact absurd rfl hl
    | cons a l =>
      cases l' with
      | nil => cases h
      | cons a' l' =>
        obtain ⟨b, hb⟩ : ∃ e, (a :: l).getLast? = some e := ⟨_, List.getLast?_eq_some_getLast (by simp)⟩
        obtain ⟨b', hb'⟩ : ∃ e, (a' :: l').getLast? = some e := ⟨_, List.getLast?_eq_some_getLast (by simp)⟩
        have k := crossings_moved p _ _ h far a b a' b' rfl hb rfl hb'
        obtain ⟨e1, e2⟩ := hc a b rfl hb
        obtain ⟨e3, e4⟩ := hc' a' b' rfl hb'
        have : cr p a a' = cr p b b' := by
          unfold cr
          simp only [crossesRight_iff, det, e1, e2, e3, e4]
        omega
  obtain ⟨m, k1, -, k3, k4⟩ := C31_locate p l hc
  obtain ⟨m', k1', -, k3', k4'⟩ := C31_locate p l' hc'
  rw [k1, k1']
  congr 1
  rcases Nat.mod_two_eq_zero_or_one (crossings p l) with q | q
  · rw [k4 on q, k4' on' (par.trans q)]
  · rw [k3 on q, k3' on' (par.trans q)]

theorem rounded_near (s : ℝ) (hs : s ≠ 0) (c : Coord ℝ) : Spec.dist c ((PM.newWithScale s).makePreciseCoordinate c) ≤ Real.sqrt 2 / 2 * cell s := by
  rw [C28_coordinate s hs c]
  have h1 := (C28_nearest s hs c.x).2.1
  have h2 := (C28_nearest s hs c.y).2.1
  have c0 : 0 ≤ cell s := by linarith [(abs_nonneg _).trans h1]
  have s2 : Real.sqrt 2 ^ 2 = 2 := Real.sq_sqrt (by norm_num)
  unfold Spec.dist
  rw [Real.sqrt_le_iff]
  refine ⟨by positivity, ?_⟩
  have q1 := pow_le_pow_left₀ (abs_nonneg _) h1 2
  have q2 := pow_le_pow_left₀ (abs_nonneg _) h2 2
  rw [sq_abs] at q1 q2
  have e : (Real.sqrt 2 / 2 * cell s) ^ 2 = cell s ^ 2 / 2 := by rw [mul_pow, div_pow, s2]; ring
  rw [e]
  dsimp only
  linarith

theorem rounded_moved (s : ℝ) (hs : s ≠ 0) (l : List (Coord ℝ)) :
    MovedBy (Real.sqrt 2 / 2 * cell s) l (l.map (PM.newWithScale s).makePreciseCoordinate) := by
  unfold MovedBy
  induction l with
  | nil => exact .nil
  | cons a l ih => exact .cons (rounded_near s hs a) ih

/-- C146: rounding all coordinates to a fixed precision model changes distances by at most the diagonal of a cell and keeps the location
of every point further than that from the ring. -/
theorem C146_rounding (s : ℝ) (hs : s ≠ 0) (p : Coord ℝ) (l : List (Coord ℝ)) (hl : l ≠ []) :
    let f := (PM.newWithScale s).makePreciseCoordinate
    ∃ d d', Distance.pointToSegmentString p l = .ok d ∧ Distance.pointToSegmentString (f p) (l.map f) = .ok d' ∧
      |d - d'| ≤ Real.sqrt 2 * cell s ∧
      (Closed2D l → Real.sqrt 2 * cell s < d → PointLocation.locateInRing (f p) (l.map f) = PointLocation.locateInRing p l) := by
  intro f
  obtain ⟨d, d', h1, h2, h3⟩ := C146_chain p (f p) l (l.map f) hl (rounded_moved s hs l)
  have hn := rounded_near s hs p
  refine ⟨d, d', h1, h2, by linarith, fun hc hd => ?_⟩
  refine C146_location p (f p) l (l.map f) (rounded_moved s hs l) hc ?_ hl d h1 (by linarith)
  intro u v hu hv
  rw [List.head?_map, Option.map_eq_some_iff] at hu
  rw [List.getLast?_map, Option.map_eq_some_iff] at hv
  obtain ⟨u, hu, rfl⟩ := hu
  obtain ⟨v, hv, rfl⟩ := hv
  obtain ⟨k1, k2⟩ := hc u v hu hv
  simp only [f, C28_coordinate s hs, k1, k2, and_self]

section examples

/-- A square and a distorted copy: each corner moved by at most one. -/
example : MovedBy 1 [Coord.xy 0 0, Coord.xy 8 0, Coord.xy 8 8, Coord.xy 0 8, Coord.xy 0 0]
    [Coord.xy 1 0, Coord.xy 8 1, Coord.xy 7 8, Coord.xy 0 8, Coord.xy 1 0] := by
  unfold MovedBy
  refine .cons ?_ (.cons ?_ (.cons ?_ (.cons ?_ (.cons ?_ .nil)))) <;> norm_num [Spec.dist, Coord.xy]

/-- The middle of the square is four away from it. -/
example : Distance.pointToSegmentString (Coord.xy 4 4 : Coord ℝ) [Coord.xy 0 0, Coord.xy 8 0, Coord.xy 8 8, Coord.xy 0 8, Coord.xy 0 0] = .ok 4 := by
  obtain ⟨d, d1, d2⟩ := C36_chain (Coord.xy 4 4 : Coord ℝ) [Coord.xy 0 0, Coord.xy 8 0, Coord.xy 8 8, Coord.xy 0 8, Coord.xy 0 0] (by simp)
  rw [d1]
  congr 1
  refine d2.unique ⟨⟨Coord.xy 4 0, Or.inr ⟨(Coord.xy 0 0, Coord.xy 8 0), by simp [segs], 1 / 2, by norm_num, by norm_num, by norm_num [Coord.xy], by norm_num [Coord.xy]⟩, ?_⟩, ?_⟩
  · simp [Spec.dist, Coord.xy]
  · intro c hc
    have key : (4 ≤ |4 - c.x| ∨ 4 ≤ |4 - c.y|) → 4 ≤ Spec.dist (Coord.xy 4 4) c := by
      intro k
      unfold Spec.dist Coord.xy
      apply Real.le_sqrt_of_sq_le
      dsimp only
      rcases k with k | k
      · nlinarith [pow_le_pow_left₀ (by norm_num) k 2, sq_abs (4 - c.x), sq_nonneg (4 - c.y)]
      · nlinarith [pow_le_pow_left₀ (by norm_num) k 2, sq_abs (4 - c.y), sq_nonneg (4 - c.x)]
    apply key
    rcases hc with ⟨v, hv, e1, e2⟩ | ⟨s, hs, t, t0, t1, e1, e2⟩
    · left
      simp only [List.mem_cons, List.not_mem_nil, or_false] at hv
      rw [e1]
      rcases hv with rfl | rfl | rfl | rfl | rfl <;> norm_num [Coord.xy]
    · simp only [segs, List.tail_cons, List.zip_cons_cons, List.zip_nil_right, List.mem_cons, List.not_mem_nil, or_false] at hs
      rcases hs with rfl | rfl | rfl | rfl
      · right; rw [e2]; norm_num [Coord.xy]
      · left; rw [e1]; norm_num [Coord.xy]
      · right; rw [e2]; norm_num [Coord.xy]
      · left; rw [e1]; norm_num [Coord.xy]

end examples
end Verif.Props
