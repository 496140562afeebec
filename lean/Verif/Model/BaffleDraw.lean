import Verif.Model.Visual
import Verif.Model.Geometry

/-!
# Drawing of a baffle

Models `Baffle.triangulate_inner_outer` in `marxs/optics/baffles.py`.
-/

namespace Marxs

/-- `Baffle.triangulate_inner_outer`, `marxs/optics/baffles.py:30-55`, with `rOut` the entry `outer_factor` of `display`. The two lists of corners are those of `xyz_square`, with `v_x`, `v_y` in place of `v_y`, `v_z`. -/
noncomputable def baffleTriangulate (m : M4) (rOut : ℝ) : Except Err (List V3 × List Tri) :=
  planeWithHole (xyzSquare (center m).xyz (vX m).xyz (vY m).xyz rOut) (xyzSquare (center m).xyz (vX m).xyz (vY m).xyz 1)

end Marxs
