import Verif.Spec.RigidMotion

/-!
# Specification for C158: photons stay physical on their way through an instrument
-/

namespace Marxs

/-- An element that makes sense: `pos4d` places it in space, gratings and mirrors have perpendicular axes, and all
efficiencies and reflectivities are between 0 and 1. Filters are checked when they are used. -/
def Optic.Sensible : Optic → Prop
  | .plane m | .tube m _ _ _ | .filter m _ | .thin m _ | .scatter m _ _ => Affine m
  | .lens m _ _ refl => Affine m ∧ ∀ e a, 0 ≤ refl e a ∧ refl e a ≤ 1
  | .grating m _ _ _ _ _ order => (Affine m ∧ OrthoAxes m) ∧ ∀ e b, 0 ≤ (order e b).2 ∧ (order e b).2 ≤ 1
  | .mirror m rs rp => (Placed m ∧ OrthoAxes m) ∧ (0 ≤ rs ∧ rs ≤ 1) ∧ (0 ≤ rp ∧ rp ≤ 1)
  | .globalFilter _ | .propagate _ => True

/-- A physical photon: the direction has unit length, the polarization vector has unit length and is perpendicular to
the direction (the cosine of the angle is at most `eps`), and the probability is in [0, 1]. All of these may be NaN. -/
structure Ray.Physical (eps : ℝ) (r : Ray) : Prop where
  pos : ∀ p, r.pos = some p → IsPoint p
  dir : ∀ d, r.dir = some d → IsDir d ∧ d.xyz.norm = 1
  pol : ∀ q, r.pol = some q → IsDir q ∧ q.xyz.norm = 1
  perp : ∀ d q, r.dir = some d → r.pol = some q → |q.xyz.dot d.xyz| ≤ eps
  prob : ∀ p, r.prob = some p → 0 ≤ p ∧ p ≤ 1

/-- The probability of a photon did not go up, and a NaN did not become a number. -/
def ProbDown (r r' : Ray) : Prop := ∀ p', r'.prob = some p' → ∃ p, r.prob = some p ∧ p' ≤ p

/-- The same photon with a probability `c` times as high. -/
noncomputable def Ray.weighted (c : ℝ) (r : Ray) : Ray := { r with prob := r.prob.map (c * ·) }

end Marxs
