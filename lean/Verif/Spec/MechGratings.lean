import Verif.Model.MechGratings
import Verif.Spec.Placement

/-!
# Specification for gratings placed from a mechanical model
-/

namespace Marxs
open Matrix

/-- The vectors in a row of the table are orthonormal (with either handedness) and the sizes are positive. -/
def Facet.Ok (f : Facet) : Prop := f.rotᵀ * f.rot = 1 ∧ 0 < f.xsize ∧ 0 < f.ysize

/-- The point with the coordinates `p` (from -1 to 1 over the facet) in the coordinates of the table. -/
noncomputable def Facet.point (f : Facet) (p : Fin 3 → ℝ) : Fin 3 → ℝ := fun i =>
  f.trans i + p 0 * f.norm i + p 1 * (f.xsize / 2) * f.disp i + p 2 * (f.ysize / 2) * f.bar i

/-- The table is for the channel `1m`: other channels are mirrored at the plane `x = 0` (those without `m`) and at the
plane `y = 0` (those with `2`). -/
def mirrorPoint (mirrorX mirrorY : Prop) [Decidable mirrorX] [Decidable mirrorY] (p : Fin 3 → ℝ) : Fin 3 → ℝ :=
  ![if mirrorX then -p 0 else p 0, if mirrorY then -p 1 else p 1, p 2]

/-- Mean position. -/
noncomputable def meanPoint (ps : List (Fin 3 → ℝ)) : Fin 3 → ℝ := fun i => (ps.map fun p => p i).sum / ps.length

end Marxs
