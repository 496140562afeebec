import Verif.Model.Geometry
import Verif.Spec.MathUtils

/-!
# Specification vocabulary for geometries
-/

namespace Marxs

/-- `pos4d` places an element in space: last row `0 0 0 1`. -/
def Affine (m : M4) : Prop := m 3 0 = 0 ∧ m 3 1 = 0 ∧ m 3 2 = 0 ∧ m 3 3 = 1

/-- The axes of the element are perpendicular to each other and have a length. -/
structure OrthoAxes (m : M4) : Prop where
  xy : (vX m).xyz.dot (vY m).xyz = 0
  xz : (vX m).xyz.dot (vZ m).xyz = 0
  yz : (vY m).xyz.dot (vZ m).xyz = 0
  x0 : (vX m).xyz ≠ 0
  y0 : (vY m).xyz ≠ 0
  z0 : (vZ m).xyz ≠ 0

/-- A point in space / a direction, in homogeneous coordinates. -/
def IsPoint (p : H4) : Prop := p.w = 1
/-- direction in homogeneous coordinates -/
def IsDir (p : H4) : Prop := p.w = 0

/-- Point of the rectangle that reaches from `-v_y` to `v_y` and from `-v_z` to `v_z`. -/
def InRectangle (m : M4) (q : V3) : Prop :=
  ∃ a b : ℝ, |a| ≤ 1 ∧ |b| ≤ 1 ∧ q = (center m).xyz + a • (vY m).xyz + b • (vZ m).xyz

/-- The ray is parallel to the surface of the rectangle. -/
def ParallelToPlane (m : M4) (dir : V3) : Prop := dir.dot (vX m).xyz = 0

/-- Point on the mantle of the cylinder, in the coordinates of the cylinder (unit radius,
half-height one), with phi limits. -/
def OnMantle (lim0 lim1 : ℝ) (q : V3) : Prop :=
  |q.z| ≤ 1 ∧ ∃ phi, q.x = Real.cos phi ∧ q.y = Real.sin phi ∧ InArc phi lim0 lim1

/-- `t` is the path length at which the ray reaches the mantle first. -/
def FirstHit (lim0 lim1 : ℝ) (pos dir : V3) (t : ℝ) : Prop :=
  0 ≤ t ∧ OnMantle lim0 lim1 (pos + t • dir) ∧
    ∀ s, 0 ≤ s → OnMantle lim0 lim1 (pos + s • dir) → t ≤ s

end Marxs
