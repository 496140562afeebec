import Mathlib.Analysis.SpecialFunctions.Trigonometric.Basic

/-!
# What it means that a wavelength falls on a CCD

Everything happens in the plane of the optical axes and the dispersion direction, with coordinates `(x, z)`.
-/

namespace Marxs

/-- The point `p` is on the ray that starts at `(x0, f)` and goes down (towards smaller `z`) at the angle
`θ` from the vertical, towards larger `x` for `s = 1` and towards smaller `x` for `s = -1`. -/
def OnDispersedRay (x0 f s θ : ℝ) (p : ℝ × ℝ) : Prop :=
  ∃ k, 0 < k ∧ p = (x0 + k * (s * Real.sin θ), f - k * Real.cos θ)

/-- The ray crosses the CCD with end points `a` and `b` between its ends (a CCD seen edge-on is not
crossed). -/
def CrossesCCD (x0 f s θ : ℝ) (a b : ℝ × ℝ) : Prop :=
  (∃ μ, 0 < μ ∧ μ < 1 ∧
    OnDispersedRay x0 f s θ ((1 - μ) * a.1 + μ * b.1, (1 - μ) * a.2 + μ * b.2)) ∧
  ¬ OnDispersedRay x0 f s θ a

end Marxs
