import Verif.Spec.CatStack
import Verif.Spec.ParallelPlane

/-!
# Specification for C169: wavelength calibration of a spectrograph

A grating, followed by a flat detector. The wavelength of a photon follows from the two places where it was seen.
-/

namespace Marxs

/-- The point with the given local coordinates on a flat element. -/
noncomputable def facePoint (m : M4) (c : ℝ × ℝ) : H4 := center m + c.1 • eY m + c.2 • eZ m

/-- Side of the zeroth order on which positive orders are found, if `x` is the component of the direction of the photon along
the dispersion direction: always the same side for a `FlatGrating`, the side of the photon for a `CATGrating`. -/
noncomputable def orderSide (cat : Bool) (x : ℝ) : ℝ := if cat then catSide x else 1

/-- A detector at distance `D` directly behind a grating, parallel to it. -/
structure Behind (D : ℝ) (mg md : M4) : Prop where
  distance : 0 < D
  center : center md = center mg + (-D) • eX mg
  x : eX md = eX mg
  y : eY md = eY mg
  z : eZ md = eZ mg

/-- Distance on the detector along the dispersion direction, seen from the place `c` where the grating was hit. -/
noncomputable def alongDispersion (groove : ℝ) (c c' : ℝ × ℝ) : ℝ :=
  (c'.1 - c.1) * Real.cos groove + (c'.2 - c.2) * Real.sin groove

/-- Distance on the detector across the dispersion direction. -/
noncomputable def acrossDispersion (groove : ℝ) (c c' : ℝ × ℝ) : ℝ :=
  (c'.2 - c.2) * Real.cos groove - (c'.1 - c.1) * Real.sin groove

end Marxs
