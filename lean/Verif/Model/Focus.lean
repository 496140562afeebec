import Verif.Model.Geometry

/-!
# Search for the best focus

Models `marxs/analysis/analysis.py`: `mean_width_2d` and the function that `find_best_detector_position` minimizes.
-/

namespace Marxs
open Classical

/-- `x.mean()`, called in `marxs/analysis/analysis.py:37`, for a list without NaN that is not empty. -/
noncomputable def meanOf (l : List ℝ) : ℝ := l.sum / l.length

/-- `mean_width_2d`, `marxs/analysis/analysis.py:27-38`. `none` is a photon that did not hit the detector (NaN). With a single
NaN the mean is NaN and so is the result; without photons the result is `0 / 0`, also NaN. -/
noncomputable def meanWidth2d (xy : List (Option (ℝ × ℝ))) : Option ℝ :=
  if none ∈ xy ∨ xy = [] then none
  else
    let p := xy.filterMap id
    let mx := meanOf (p.map Prod.fst)
    let my := meanOf (p.map Prod.snd)
    some ((p.map fun q => Real.sqrt ((q.1 - mx) ^ 2 + (q.2 - my) ^ 2)).sum / p.length)

/-- `pos4d` of the detector, `marxs/analysis/analysis.py:74-76`. -/
noncomputable def focusPos4d (o : M3) (x : ℝ) : M4 :=
  compose (fun i => o i 0 * x + o i 1 * 0 + o i 2 * 0) o fun _ => 100000

/-- `width`, `marxs/analysis/analysis.py:73-78`, for `objective_func=mean_width_2d`. A photon is given by its
direction and position. `det_x`, `det_y` are the local coordinates of the intersection point
(`marxs/optics/detector.py:48`). -/
noncomputable def focusWidth (o : M3) (photons : List (H4 × H4)) (x : ℝ) : Option ℝ :=
  meanWidth2d (photons.map fun p => (planeIntersect (focusPos4d o x) p.1 p.2).map Prod.snd)

end Marxs
