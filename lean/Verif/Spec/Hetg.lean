import Verif.Model.Hetg
import Verif.Spec.Placement
import Verif.Spec.Optics

/-!
# Specification of the HETG
-/

namespace Marxs
open Matrix

/-- A row of the table: the normal and the vectors along the sides of the facet are a right-handed orthonormal frame, the
grating lines are in the plane of the facet, the location code starts with a digit. -/
structure HessRow.Ok (r : HessRow) : Prop where
  nn : r.n.dot r.n = 1
  xx : r.ux.dot r.ux = 1
  nx : r.n.dot r.ux = 0
  right : r.uy = r.n.cross r.ux
  ll : r.ul.dot r.ul = 1
  nl : r.n.dot r.ul = 0
  loc : ∃ ch rest, r.loc.toList = ch :: rest ∧ ch.isDigit = true

/-- The facet is on one of the three outer shells (1 to 3: Medium Energy Grating). -/
def HessRow.Outer (r : HessRow) : Prop := ∃ ch rest, r.loc.toList = ch :: rest ∧ ch ∈ ['0', '1', '2', '3']

open Classical in
/-- Length of a side in mm: 1.035 inch for the MEG and 0.92 inch for the HEG. -/
noncomputable def HessRow.side (r : HessRow) : ℝ := if r.Outer then 1.035 * 25.4 else 0.92 * 25.4

/-- A point of the facet, in the coordinates of the focal plane. The coordinates along the sides go from -1 to 1. -/
noncomputable def HessRow.point (r : HessRow) (p : Fin 3 → ℝ) : Fin 3 → ℝ :=
  let v := r.c + ((339.909 - 1.7) * 25.4 : ℝ) • (⟨1, 0, 0⟩ : V3) + p 0 • r.n + (p 1 * (r.side / 2)) • r.ux + (p 2 * (r.side / 2)) • r.uy
  ![v.x, v.y, v.z]

/-- The hinge of the HETG: 8618 mm before the focal plane, 650 mm from the optical axis, 60 degrees from the z axis. -/
noncomputable def hessHingePoint : Fin 3 → ℝ := ![8618, -(325 * Real.sqrt 3), 325]

/-- Dispersion direction, the column `ud` of the table. -/
def HessRow.disp (r : HessRow) : V3 := r.ul.cross r.n

end Marxs
