import Verif.Model.Bend
import Verif.Spec.Geometry
import Verif.Spec.Focus

/-!
# Specification vocabulary for bent gratings
-/

namespace Marxs

/-- The grating `g` has the shape of a sheet that was flat, with center `t`, axes `axisOf r` (normal, dispersion direction, direction of grooves for groove angle
zero) and half-widths `z`, and is bent to the radius `radius`, away from its normal. -/
structure BentSheet (t : V3) (r : M3) (z : Fin 3 → ℝ) (radius : ℝ) (g : BendGrating) : Prop where
  /-- the center stays where it was -/
  center : cylSurface g.pos4d (z 2) 0 0 = ⟨t.x, t.y, t.z, 1⟩
  /-- the surface touches the flat grating in the center: same normal and same directions in the surface -/
  tangent : (cylBases g.pos4d 0).1.xyz = axisOf r 1 ∧ (cylBases g.pos4d 0).2.1.xyz = axisOf r 2 ∧
    (cylBases g.pos4d 0).2.2.xyz = axisOf r 0
  /-- all points have the distance `radius` from the axis of the bend, in a direction perpendicular to the axis -/
  round : ∀ phi h, ((cylSurface g.pos4d (z 2) phi h).xyz - (t - radius • axisOf r 0 + h • axisOf r 2)).norm = radius ∧
    ((cylSurface g.pos4d (z 2) phi h).xyz - (t - radius • axisOf r 0 + h • axisOf r 2)).dot (axisOf r 2) = 0
  /-- the grating covers the same angle as the flat grating if seen from the axis of the bend -/
  covers : ∃ p, g.phiLim = some (-p, p) ∧ 0 < p ∧ p < Real.pi / 2 ∧ ∀ y h : ℝ, |y| ≤ z 1 ↔ ∃ phi s : ℝ,
    -p ≤ phi ∧ phi ≤ p ∧ 0 < s ∧ t + y • axisOf r 1 + h • axisOf r 2 - (t - radius • axisOf r 0 + h • axisOf r 2) =
      s • ((cylSurface g.pos4d (z 2) phi h).xyz - (t - radius • axisOf r 0 + h • axisOf r 2))

/-- Result of a search for the minimum of the function `f`. -/
def Search.min : Search → (ℝ → ℝ) → ℝ
  | .result x, _ => x
  | .eval x next, f => Search.min (next (f x)) f

/-- The photon flies through the point `P`, and then on to the origin. -/
def AimedAt (P : V3) (p : TestPhoton) : Prop :=
  p.pos.w = 1 ∧ p.dir.w = 0 ∧ p.dir.xyz.dot p.dir.xyz = 1 ∧
    ∃ k l : ℝ, 0 ≤ k ∧ k ≤ l ∧ p.pos.xyz + k • p.dir.xyz = P ∧ p.pos.xyz + l • p.dir.xyz = 0

/-- What detector and grating do to a photon depends on its position, direction and energy only. -/
def Mechanical (trace : ℝ → ℝ → TestPhoton → TestPhoton × ℝ) : Prop :=
  (∀ d o p, (trace d o p).1.energy = p.energy) ∧
  ∀ d o p p', p.pos = p'.pos → p.dir = p'.dir → p.energy = p'.energy → (trace d o p).2 = (trace d o p').2

end Marxs
