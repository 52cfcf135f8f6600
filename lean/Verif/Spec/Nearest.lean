import Verif.Spec.Metric

/-! # Least distances, independent of the modelled code -/

namespace Verif.Spec

/-- `d` is the least distance from `p` to the points of a set, and is attained. -/
def LeastDist (p : Coord ℝ) (S : Coord ℝ → Prop) (d : ℝ) : Prop :=
  (∃ c, S c ∧ dist p c = d) ∧ ∀ c, S c → d ≤ dist p c

/-- `d` is the least distance between points of two sets, and is attained. -/
def LeastDist2 (S T : Coord ℝ → Prop) (d : ℝ) : Prop :=
  (∃ u v, S u ∧ T v ∧ dist u v = d) ∧ ∀ u v, S u → T v → d ≤ dist u v

/-- The point is on the infinite line through `a` and `b`. -/
def OnInfLine (p a b : Coord ℝ) : Prop := ∃ t : ℝ, p.x = a.x + t * (b.x - a.x) ∧ p.y = a.y + t * (b.y - a.y)

theorem LeastDist.unique {p : Coord ℝ} {S : Coord ℝ → Prop} {d e : ℝ} (h : LeastDist p S d) (h' : LeastDist p S e) : d = e := by
  obtain ⟨⟨c, hc, rfl⟩, h1⟩ := h
  obtain ⟨⟨c', hc', rfl⟩, h2⟩ := h'
  exact le_antisymm (h1 _ hc') (h2 _ hc)

theorem LeastDist2.unique {S T : Coord ℝ → Prop} {d e : ℝ} (h : LeastDist2 S T d) (h' : LeastDist2 S T e) : d = e := by
  obtain ⟨⟨c, c2, hc, hc2, rfl⟩, h1⟩ := h
  obtain ⟨⟨c', c2', hc', hc2', rfl⟩, h2⟩ := h'
  exact le_antisymm (h1 _ _ hc' hc2') (h2 _ _ hc hc2)

theorem LeastDist2.swap {S T : Coord ℝ → Prop} {d : ℝ} (h : LeastDist2 S T d) : LeastDist2 T S d := by
  obtain ⟨⟨u, v, hu, hv, e⟩, h1⟩ := h
  exact ⟨⟨v, u, hv, hu, by rw [dist_comm]; exact e⟩, fun u v hu hv => by rw [dist_comm]; exact h1 _ _ hv hu⟩

theorem LeastDist.congr {p : Coord ℝ} {S T : Coord ℝ → Prop} {d : ℝ} (h : LeastDist p S d) (e : ∀ c, S c ↔ T c) : LeastDist p T d := by
  obtain ⟨⟨c, hc, e1⟩, h1⟩ := h
  exact ⟨⟨c, (e c).mp hc, e1⟩, fun c hc => h1 c ((e c).mpr hc)⟩

theorem LeastDist2.congr {S T S' T' : Coord ℝ → Prop} {d : ℝ} (h : LeastDist2 S T d) (e : ∀ c, S c ↔ S' c) (e' : ∀ c, T c ↔ T' c) :
    LeastDist2 S' T' d := by
  obtain ⟨⟨u, v, hu, hv, e1⟩, h1⟩ := h
  exact ⟨⟨u, v, (e u).mp hu, (e' v).mp hv, e1⟩, fun u v hu hv => h1 u v ((e u).mpr hu) ((e' v).mpr hv)⟩

end Verif.Spec
