import Mathlib.Probability.Distributions.Gaussian.Real
import Verif.Model.Optics
import Verif.Spec.SolidAngle
import Verif.Spec.Uniform

/-!
# Specification for C154: Gaussian scatter, jitter and brightness profiles
-/

namespace Marxs

open MeasureTheory ProbabilityTheory

/-- The normal distribution around 0 with width `sigma`: `np.random.normal(scale=sigma)`. -/
noncomputable def normalNumber (sigma : ℝ) : Measure ℝ := gaussianReal 0 (sigma ^ 2).toNNReal

/-- The two random numbers for one photon: an angle from a normal distribution with width `sigma` and a number in
`[0, 1)`. -/
noncomputable def scatterNumbers (sigma : ℝ) : Measure (ℝ × ℝ) := (normalNumber sigma).prod randomNumber

/-- Angle between two directions. -/
noncomputable def offAngle (a b : V3) : ℝ := Real.arccos (a.unit.dot b.unit)

/-- Direction of a photon behind a `RandomGaussianScatter` is in `D`: `q.1` is the drawn angle, `q.2` the random number for the direction of
the scatter. -/
def ScattersInto (dir pol : H4) (D : Set V3) (q : ℝ × ℝ) : Prop :=
  ∃ d p, gaussScatter dir pol q.1 (q.2 * 2 * Real.pi) = some (d, p) ∧ d.xyz ∈ D

/-- The same for a photon of a source with `JitterPointing`. -/
def JittersInto (dir pol : H4) (D : Set V3) (q : ℝ × ℝ) : Prop :=
  ∃ d p, jitter dir pol (q.2 * 2 * Real.pi) q.1 = some (d, p) ∧ d.xyz ∈ D

/-- Angles that turn a direction by at most `alpha`; whole turns do not count. -/
def anglesUpTo (alpha : ℝ) : Set ℝ := {x | ∃ k : ℤ, |x - k * (2 * Real.pi)| ≤ alpha}

/-- Directions that are turned into `D` if one turns the sky by `delta` about `axis`. -/
noncomputable def turnedInto (axis : V3) (delta : ℝ) (D : Set V3) : Set V3 := {v | mul3 (rotMat axis.unit delta) v ∈ D}

end Marxs
