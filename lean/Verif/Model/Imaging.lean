import Verif.Model.Chandra
import Verif.Model.Optics

/-!
# A telescope with a lens and a detector

The way of one photon through the simplest instrument: pointing, aperture, `PerfectLens`, `FlatDetector` in a
`Sequence` (as in `marxs/tests/test_analysis.py:40-60`).
-/

namespace Marxs
open Classical

/-- `BaseContainer.__call__` (`marxs/simulator/simulator.py:42-49`) for one photon and the elements `FixedPointing`
(`marxs/source/pointing.py:101-119`), an aperture that puts the photon at `start`, `PerfectLens`
(`marxs/optics/mirror.py:54-83`) and `FlatDetector` (`marxs/optics/detector.py:73-87`); intersection and new position
as in `OpticalElement.__call__`. The result are the columns `det_x`, `det_y`, `detpix_x`, `detpix_y`.
`none`: the photon misses lens or detector (these columns are NaN), or there is no direction.
Simplification: a photon that misses the lens ends here, in the code it flies on unchanged. -/
noncomputable def imagePhoton (ref : M4) (p : Pointing) (lens : M4) (f : ℝ) (refl : ℝ → ℝ → ℝ) (det : M4) (pix ra dec : ℝ)
    (start pol : H4) (energy : ℝ) : Option ((ℝ × ℝ) × (ℝ × ℝ)) :=
  match fixedDir ref p ra dec with
  | none => none
  | some dir => match planeIntersect lens dir start with
    | none => none
    | some (ip, _, _) => match perfectLens lens f 0 refl dir pol ip energy with
      | none => none
      | some out => match planeIntersect det out.dir ip with
        | none => none
        | some (_, y, z) => some ((y, z), (detpix (vY det).norm pix y, detpix (vZ det).norm pix z))

end Marxs
