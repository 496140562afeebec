import Verif.Spec.Calculated
import Verif.Model.GratingArray

/-!
# Specification vocabulary for the Rowland geometry
-/

namespace Marxs

/-- The point in the meridian plane with angle `phi` of a torus: at distance `rho` from the axis of symmetry, and at
height `y` along this axis. -/
noncomputable def meridianPoint (t : Torus) (rho y phi : ℝ) : V3 :=
  (toGlobal t.pos4d ⟨rho * Real.cos phi, y, rho * Real.sin phi⟩).xyz

/-- The point is on the circle that is rotated to get the torus (the Rowland circle of each meridian plane). -/
def OnCircle (t : Torus) (rho y : ℝ) : Prop := (rho - t.R) ^ 2 + y ^ 2 = t.r ^ 2

/-- Direction of the axis of symmetry. -/
def torusAxis (t : Torus) : V3 := (vY t.pos4d).xyz

/-- The direction `side` is in the meridian plane of the point `p` (the plane through `p`, the focal point `F` and the
axis), on the same side as the axis of symmetry. -/
def InMeridian (t : Torus) (F p side : V3) : Prop := ∃ a b : ℝ, 0 < a ∧ side = a • torusAxis t + b • (p - F)

end Marxs
