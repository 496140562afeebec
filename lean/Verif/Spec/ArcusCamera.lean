import Verif.Model.Rowland
import Mathlib.Analysis.SpecialFunctions.Trigonometric.Basic

/-!
# Specification of the camera of Arcus

All positions of CCDs are measured along the circle with radius `r` around the point at the height `f / 2` on the z axis, from the lowest
point of the circle; positive values are on the side of positive x.
-/

namespace Marxs

/-- Distance of the centers of eight CCDs from the start of a strip: CCDs with half width `w`, with gaps of 2.15 mm and, twice, 4 mm. -/
noncomputable def stripArc (w : ℝ) : List ℝ :=
  [w, 3 * w + 2.15, 5 * w + 6.15, 7 * w + 8.3, 9 * w + 10.45, 11 * w + 14.45, 13 * w + 16.6, 15 * w + 18.75]

/-- Two strips, which start at the distance `e` from the point at `-5`, in the order from -x to +x. -/
noncomputable def cameraArc (e w : ℝ) : List ℝ :=
  ((stripArc w).map fun u => -5 - (e + u)).reverse ++ (stripArc w).map fun u => -5 + (e + u)

/-- A CCD tangential to the circle at the angle `a` from its lowest point, with the x axis towards the center of the
circle, half the width along its y axis (towards -x) and half its height along its z axis (towards -y). -/
noncomputable def ccdAt (f r w h a : ℝ) : M4 :=
  !![-Real.sin a, -(w * Real.cos a), 0, r * Real.sin a;
     0, 0, -h, 0;
     Real.cos a, -(w * Real.sin a), 0, f / 2 - r * Real.cos a;
     0, 0, 0, 1]

/-- The point `p` is on the rectangle of a flat element with placement `m`: its center is the last column, half its sides are the
second and third column. -/
def OnFlat (m : M4) (p : Fin 3 → ℝ) : Prop :=
  ∃ u v : ℝ, |u| ≤ 1 ∧ |v| ≤ 1 ∧ ∀ i : Fin 3, p i = m i.castSucc 3 + u * m i.castSucc 1 + v * m i.castSucc 2

/-- The dimensions of a camera that is smaller than the lower half of the circle: distance of the channels, radius of the torus, focal
length, angle at which the strips start, half width and half height of a CCD. -/
structure CamOk (d_BF R f p0 w h : ℝ) : Prop where
  d_nonneg : 0 ≤ d_BF
  f_pos : 0 < f
  R_pos : 0 < R
  r_lt : (doubleRowland d_BF R f).detector.r < 2 * R
  p_pos : 0 < p0
  w_pos : 0 < w
  h_pos : 0 < h
  span : arctan2 d_BF f + (p0 + (15 * w + 23.75) / (doubleRowland d_BF R f).detector.r) ≤ 3 / 2

end Marxs
