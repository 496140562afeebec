import Verif.Model.Optics
import Verif.Model.Analysis

/-!
# Multi-layer mirrors

Models `MultiLayerEfficiency.interp_files` and `MultiLayerMirror` in `marxs/optics/multiLayerMirror.py`.
The tables are given by their columns; reading the files is not modelled.
-/

namespace Marxs

/-- One row of the reflectivity file: `X(mm)`, `Peak lambda`, `Peak`, `FWHM(nm)`
(`marxs/optics/multiLayerMirror.py:107-113`). -/
structure ReflRow where
  x : ℝ
  wave : ℝ
  refl : ℝ
  fwhm : ℝ

/-- `MultiLayerEfficiency.interp_files` for one photon, `marxs/optics/multiLayerMirror.py:132-153`: wavelength of the peak, reflectivity
at the peak and its width. `vy` is the length of `v_y`, `loc` the first local coordinate (in mm), `pol` are the columns
`Photon energy` and `Polarization`. `none`: empty files, or a polarization of 0 (infinite or NaN). -/
noncomputable def multiLayerInterp (vy : ℝ) (rows : List ReflRow) (pol : List (ℝ × ℝ)) (energy loc : ℝ) : Option (ℝ × ℝ × ℝ) :=
  let localX := loc / vy
  match interp energy (pol.map fun p => (p.1 / 1000, p.2)), interp localX (rows.map fun r => (r.x / vy - 1, r.wave)),
      interp localX (rows.map fun r => (r.x / vy - 1, r.refl)), interp localX (rows.map fun r => (r.x / vy - 1, r.fwhm)) with
  | some f, some w, some m, some s => if f = 0 then none else some (w, m / f, s)
  | _, _, _, _ => none

/-- `MultiLayerEfficiency.specific_process_photons` for one photon, `marxs/optics/multiLayerMirror.py:155-171`. -/
noncomputable def multiLayerEff (vy : ℝ) (rows : List ReflRow) (pol : List (ℝ × ℝ)) (energy loc : ℝ) : Option ℝ :=
  match multiLayerInterp vy rows pol energy loc with
  | none => none
  | some (w, m, s) => some (multiLayerProb energy w m s)

/-- Factor for the probability in a `MultiLayerMirror`, `marxs/optics/multiLayerMirror.py:173-180`: first the Brewster mirror
(with the default `fresnel`, `marxs/optics/multiLayerMirror.py:32-42`), then the efficiency. -/
noncomputable def multiLayerMirror (m : M4) (rows : List ReflRow) (polFile : List (ℝ × ℝ)) (dir pol : H4) (energy loc : ℝ) : Option ℝ :=
  match brewster m 1 0 dir pol, multiLayerEff (vY m).norm rows polFile energy loc with
  | .ok (some out), some e => some (1 * out.prob * e)
  | _, _ => none

end Marxs
