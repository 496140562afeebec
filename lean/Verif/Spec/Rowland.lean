import Mathlib.Analysis.Calculus.Deriv.Basic
import Verif.Spec.Geometry
import Verif.Model.Rowland

/-!
# Specification vocabulary for Rowland tori
-/

namespace Marxs

/-- Geometric definition of the torus with the y axis as axis of symmetry: a circle of radius `r`, whose center is
at distance `R` from the axis, is rotated about the axis.  `u` is the direction of the meridian plane. -/
def OnTorus (R r : ℝ) (p : V3) : Prop :=
  ∃ ux uz a : ℝ, ux ^ 2 + uz ^ 2 = 1 ∧ p.x = a * ux ∧ p.z = a * uz ∧ (a - R) ^ 2 + p.y ^ 2 = r ^ 2

/-- The matrix is a placement that can be inverted. -/
def Placed (m : M4) : Prop := Affine m ∧ m.det ≠ 0

/-- Global coordinates of a point with given local coordinates. -/
def toGlobal (m : M4) (p : V3) : H4 := mul4 m ⟨p.x, p.y, p.z, 1⟩

/-- `v` is the velocity of the moving point `f` at time `s`. -/
def IsVelocity (f : ℝ → H4) (s : ℝ) (v : H4) : Prop :=
  HasDerivAt (fun t => (f t).x) v.x s ∧ HasDerivAt (fun t => (f t).y) v.y s ∧
  HasDerivAt (fun t => (f t).z) v.z s ∧ HasDerivAt (fun t => (f t).w) v.w s

/-- The three axes of the placement are perpendicular to each other and have the same length `k`
(rotation, reflection, uniform zoom and translation). -/
structure Conformal (m : M4) (k : ℝ) : Prop where
  affine : Affine m
  xx : (vX m).xyz.dot (vX m).xyz = k ^ 2
  yy : (vY m).xyz.dot (vY m).xyz = k ^ 2
  zz : (vZ m).xyz.dot (vZ m).xyz = k ^ 2
  xy : (vX m).xyz.dot (vY m).xyz = 0
  xz : (vX m).xyz.dot (vZ m).xyz = 0
  yz : (vY m).xyz.dot (vZ m).xyz = 0

/-- A root finder that returns nothing but roots. -/
def FindsRoots (root : RootFinder) : Prop := ∀ f k, root f = some k → f k = 0

end Marxs
