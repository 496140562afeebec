import Mathlib.Analysis.SpecialFunctions.Integrals.Basic
import Verif.Model.Source
import Verif.Spec.Geometry

/-!
# Specification vocabulary for sources
-/

namespace Marxs

/-- Arrival time of photon number `k` (counting from 0) for the waiting times `s`. -/
def arrival (s : ℕ → ℝ) (k : ℕ) : ℝ := ∑ i ∈ Finset.range (k + 1), s i

/-- Area of a flat ring with radii `a` and `r`. -/
noncomputable def ringArea (a r : ℝ) : ℝ := ∫ x in a..r, 2 * Real.pi * x

/-- Area of a ring on the unit sphere, at angular distance `a` to `r` from its center. -/
noncomputable def sphereRingArea (a r : ℝ) : ℝ := ∫ x in a..r, 2 * Real.pi * Real.sin x

/-- Unit vector for longitude and latitude. -/
noncomputable def skyVector (p : ℝ × ℝ) : V3 :=
  ⟨Real.cos p.2 * Real.cos p.1, Real.cos p.2 * Real.sin p.1, Real.sin p.2⟩

/-- Angular distance of a position on the sky (longitude, latitude) from the origin of the frame. -/
noncomputable def skyDistance (p : ℝ × ℝ) : ℝ := Real.arccos ((skyVector p).dot (skyVector (0, 0)))

end Marxs
