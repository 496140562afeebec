import Verif.Model.Source
import Verif.Model.Optics
import Verif.Spec.Uniform

/-!
# Specification: unpolarized light
-/

namespace Marxs

/-- `a` and `b` are perpendicular unit vectors, both perpendicular to `d`. -/
structure IsTransverse (a b d : V3) : Prop where
  aa : a.dot a = 1
  bb : b.dot b = 1
  ab : a.dot b = 0
  ad : a.dot d = 0
  bd : b.dot d = 0

/-- The unit vector at the part `u` of a full turn from `a` towards `b`. -/
noncomputable def onCircle (a b : V3) (u : ℝ) : V3 := Real.cos (u * (2 * Real.pi)) • a + Real.sin (u * (2 * Real.pi)) • b

/-- A photon of an unpolarized source in direction `dir` has the polarization vector `v` if the random number is `u`. -/
def UnpolarizedPhoton (dir : H4) (u : ℝ) (v : V3) : Prop :=
  ∃ angle, generatePolarization .unpolarized (fun _ => []) [(u, 0)] [0] [1] = .ok [angle] ∧ polarizationVector dir angle = some v.toDir

/-- Unit vector perpendicular to the plane of incidence of a ray in direction `d` on a surface with normal `n`. -/
noncomputable def sVector (d n : V3) : V3 := (d.cross n).unit

/-- Probability factor of a photon; 0 if there is none. -/
noncomputable def probOf : Except Err (Option BrewsterOut) → ℝ
  | .ok (some o) => o.prob
  | _ => 0

/-- Probability factor after two mirrors with ideal reflectivity, one after the other. -/
noncomputable def twoMirrors (m1 m2 : M4) (dir pol : H4) : ℝ :=
  match brewster m1 1 0 dir pol with
  | .ok (some o) => match o.pol with
    | some q => o.prob * probOf (brewster m2 1 0 o.dir q)
    | none => 0
  | _ => 0

end Marxs
