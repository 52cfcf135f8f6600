import Verif.Props.Area
import Verif.Spec.Metric

/-! # Centroids of weighted rings, independent of the modelled code -/

namespace Verif.Spec

/-- Six times the integral of x over the inside of a closed ring. -/
def momentX {K : Type} [Field K] (r : List (Coord K)) : K :=
  ((segs r).map (fun s => (s.1.x + s.2.x) * (s.1.x * s.2.y - s.2.x * s.1.y))).sum

/-- Six times the integral of y over the inside of a closed ring. -/
def momentY {K : Type} [Field K] (r : List (Coord K)) : K :=
  ((segs r).map (fun s => (s.1.y + s.2.y) * (s.1.x * s.2.y - s.2.x * s.1.y))).sum

/-- The integral of x along a line. -/
noncomputable def lineX (l : List (Coord ℝ)) : ℝ := ((segs l).map (fun s => Spec.dist s.1 s.2 * ((s.1.x + s.2.x) / 2))).sum

/-- The integral of y along a line. -/
noncomputable def lineY (l : List (Coord ℝ)) : ℝ := ((segs l).map (fun s => Spec.dist s.1 s.2 * ((s.1.y + s.2.y) / 2))).sum

/-- First coordinates, 0 for the empty list. -/
def headX (l : List (Coord ℝ)) : ℝ := (l.head?.map (·.x)).getD 0
def headY (l : List (Coord ℝ)) : ℝ := (l.head?.map (·.y)).getD 0

/-- Sum of a quantity over weighted rings. -/
def wsum (ws : List (ℝ × List (Coord ℝ))) (f : List (Coord ℝ) → ℝ) : ℝ := (ws.map (fun w => w.1 * f w.2)).sum

/-- Sum of a quantity over rings, without the weights. -/
def usum (ws : List (ℝ × List (Coord ℝ))) (f : List (Coord ℝ) → ℝ) : ℝ := (ws.map (fun w => f w.2)).sum

open Classical in
/-- The centroid of weighted rings: by area; if there is none, by length; if there is none, the mean of the points the rings have
shrunk to. -/
noncomputable def centroidOf (ws : List (ℝ × List (Coord ℝ))) : Option (ℝ × ℝ) :=
  if ws = [] then none
  else if wsum ws shoelace ≠ 0 then some (wsum ws momentX / (3 * wsum ws shoelace), wsum ws momentY / (3 * wsum ws shoelace))
  else if usum ws lineLength ≠ 0 then some (usum ws lineX / usum ws lineLength, usum ws lineY / usum ws lineLength)
  else some (usum ws headX / ws.length, usum ws headY / ws.length)

end Verif.Spec
