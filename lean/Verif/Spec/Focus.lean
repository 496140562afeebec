import Verif.Model.Vec
import Verif.Model.Placement

/-!
# Specification vocabulary for the size of a focal spot
-/

namespace Marxs

/-- Axis number `j` of a rotated coordinate system. -/
def axisOf (o : M3) (j : Fin 3) : V3 := ⟨o 0 j, o 1 j, o 2 j⟩

/-- Center of mass of a list of points. -/
noncomputable def centroid (ps : List V3) : V3 :=
  ⟨(ps.map V3.x).sum / ps.length, (ps.map V3.y).sum / ps.length, (ps.map V3.z).sum / ps.length⟩

/-- Average distance of points in space from their center of mass. -/
noncomputable def spread (ps : List V3) : ℝ := (ps.map fun p => (p - centroid ps).norm).sum / ps.length

/-- A photon, given by direction and position, flies through the point `q`, in forward direction. -/
def FliesThrough (photon : H4 × H4) (q : V3) : Prop :=
  ∃ k : ℝ, 0 ≤ k ∧ q = photon.2.xyz + k • photon.1.xyz

/-- The point `q` is in the plane at distance `x` from the origin with normal `axisOf o 0`, and within the area of a detector. -/
def OnTrialDetector (o : M3) (x : ℝ) (q : V3) : Prop :=
  q.dot (axisOf o 0) = x ∧ |q.dot (axisOf o 1)| ≤ 100000 ∧ |q.dot (axisOf o 2)| ≤ 100000

end Marxs
