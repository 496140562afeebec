import Mathlib.Analysis.SpecialFunctions.Log.Basic
import Mathlib.Analysis.SpecialFunctions.Trigonometric.Inverse
import Verif.Model.Grating

/-!
# Lenses, mirrors, scattering, detectors, apertures

Models `marxs/optics/mirror.py`, `marxs/optics/scatter.py`, `marxs/optics/multiLayerMirror.py`,
`marxs/optics/detector.py`, `marxs/optics/aperture.py` and the jitter in
`marxs/source/pointing.py`. Everything is modelled for one photon that hits the element; numpy applies
it row by row. NaN is `none`. Photon directions have `w = 0` and positions `w = 1`, so `h2e` keeps the
first three entries.
-/

namespace Marxs
open Classical

/-- homogeneous direction, `e2h(v, 0)` for one row. Used for `marxs/math/utils.py:10-35`. -/
def V3.toDir (v : V3) : H4 := ⟨v.x, v.y, v.z, 0⟩
/-- homogeneous point, `e2h(v, 1)` for one row. Used for `marxs/math/utils.py:10-35`. -/
def V3.toPoint (v : V3) : H4 := ⟨v.x, v.y, v.z, 1⟩

/-- Point towards which `PerfectLens` sends a photon, `marxs/optics/mirror.py:57-62`. -/
noncomputable def focusPoint (m : M4) (focallength dOptax : ℝ) (dir : V3) : V3 :=
  (center m - dOptax • eZ m).xyz + focallength • dir.unit

/-- Output of a lens: direction, polarization, probability. Used for `marxs/optics/mirror.py:54-83`. -/
structure LensOut where
  dir : H4
  pol : Option H4
  prob : ℝ

/-- `PerfectLens.specific_process_photons`, `marxs/optics/mirror.py:54-83`. `none` (NaN): zero
direction, or the lens is hit in its own focal point. -/
noncomputable def perfectLens (m : M4) (focallength dOptax : ℝ) (refl : ℝ → ℝ → ℝ)
    (dir pol interpos : H4) (energy : ℝ) : Option LensOut :=
  if dir.xyz = 0 then none
  else
    let v := focusPoint m focallength dOptax dir.xyz - interpos.xyz
    if v = 0 then none
    else
      let dnew := v.unit
      let angle := Real.arccos |dnew.dot dir.xyz.unit|
      some ⟨dnew.toDir, parallelTransport dir dnew.toDir pol, (refl energy (angle / 4)) ^ 2⟩

/-- `ThinLens.process_photon`, `marxs/optics/mirror.py:125-143`: new direction and polarization.
`transforms3d.axangles.axangle2mat` normalises its axis; `none` (NaN): the axis is the zero vector.
`interpos` is the intersection point. -/
noncomputable def thinLens (m : M4) (focallength : ℝ) (dir pol interpos : H4) : Option (H4 × H4) :=
  let r := interpos.xyz - (center m).xyz
  let distance := r.norm
  if distance = 0 then some (dir.xyz.toDir, pol)
  else
    let axis := dir.xyz.cross (interpos - center m).xyz
    if axis = 0 then none
    else
      let rot := rotMat axis.unit (-distance / focallength)
      some ((mul3 rot dir.xyz).toDir, (mul3 rot pol.xyz).toDir)

/-- `np.einsum('...ij,...i->...j', axangle2mat(axis, angle), v)` for one photon: the matrix is applied
transposed (`marxs/optics/scatter.py:61,69,136,140`, `marxs/source/pointing.py:208-211`). -/
noncomputable def turn (axis : V3) (angle : ℝ) (v : V3) : Option V3 :=
  if axis = 0 then none else some (mul3 (rotMat axis.unit angle).transpose v)

/-- `RadialMirrorScatter.specific_process_photons`, `marxs/optics/scatter.py:48-77`: direction and
polarization. `inAngle`, `perpAngle` are the drawn angles, `none` if the respective width is 0. -/
noncomputable def radialScatter (m : M4) (dir pos pol : H4) (inAngle perpAngle : Option ℝ) :
    Option (H4 × Option H4) :=
  let radial := pos.xyz - (center m).xyz
  let perpplane := dir.xyz.cross radial
  let out1 := match inAngle with
    | none => some dir.xyz
    | some a => turn perpplane a dir.xyz
  match out1 with
  | none => none
  | some d1 =>
    let out2 := match perpAngle with
      | none => some d1
      | some b => turn radial b d1
    match out2 with
    | none => none
    | some d2 => some (d2.toDir, parallelTransport dir d2.toDir pol)

/-- `RandomGaussianScatter.specific_process_photons`, `marxs/optics/scatter.py:109-145`, for non-zero
scatter: direction and polarization. `angle` is the drawn scattering angle, `angle2` the drawn
direction of scatter. -/
noncomputable def gaussScatter (dir pol : H4) (angle angle2 : ℝ) : Option (H4 × Option H4) :=
  if dir.xyz = 0 then none
  else
    let pdir := dir.xyz.unit
    let guess : V3 := if |pdir.x| < 0.99999 then ⟨1, 0, 0⟩ else ⟨0, 1, 0⟩
    let perp := pdir.cross guess
    match turn perp angle pdir with
    | none => none
    | some d1 =>
      match turn pdir angle2 d1 with
      | none => none
      | some d2 => some (d2.toDir, parallelTransport dir d2.toDir pol)

/-- `JitterPointing.process_photons`, `marxs/source/pointing.py:199-211`, `jitter > 0`: new direction
and polarization. -/
noncomputable def jitter (dir pol : H4) (randang jitterang : ℝ) : Option (H4 × H4) :=
  let ax : V3 := ⟨0, Real.sin randang, Real.cos randang⟩
  match turn ax jitterang dir.xyz, turn ax jitterang pol.xyz with
  | some d, some p => some (d.toDir, p.toDir)
  | _, _ => none

/-- Mirrored direction in `FlatBrewsterMirror`, `marxs/optics/multiLayerMirror.py:52-58`. -/
noncomputable def mirrorDir (m : M4) (p : H4) : H4 :=
  let d := mul4 m⁻¹ p
  mul4 m ⟨d.x * -1, d.y, d.z, d.w⟩

/-- Output of the Brewster mirror. `pol = none` is NaN. Used for `marxs/optics/multiLayerMirror.py:45-94`. -/
structure BrewsterOut where
  dir : H4
  prob : ℝ
  pol : Option H4

/-- `FlatBrewsterMirror.specific_process_photons`, `marxs/optics/multiLayerMirror.py:45-94`; `rs`, `rp`
are the result of `fresnel` (the default is `1, 0`). `.ok none`: NaN (zero direction or normal
incidence). The clipping is done after the check for values `> 1.001`. -/
noncomputable def brewster (m : M4) (rs rp : ℝ) (dir pol : H4) : Except Err (Option BrewsterOut) :=
  if dir.dot dir = 0 then .ok none
  else
    let p := dir.unit
    let beam := p.xyz
    let new := mirrorDir m p
    let s := beam.cross (eX m).xyz
    if s = 0 then .ok none
    else
      let vs := s.unit
      let vp := beam.cross vs
      let es2 := rs * (pol.xyz.dot vs) ^ 2
      let ep2 := rp * (pol.xyz.dot vp) ^ 2
      let intensity := es2 + ep2
      if 1.001 < intensity then .error .valueError
      else
        let newvp := new.xyz.cross vs
        let np := (-es2) • vs + ep2 • newvp
        .ok (some ⟨new, min (max intensity 0) 1, if np = 0 then none else some np.unit.toDir⟩)

/-- `np.round`: round half to even. Used for `marxs/optics/detector.py:63-68`. -/
noncomputable def npRound (x : ℝ) : ℤ :=
  let f := ⌊x⌋
  if x - f < 1 / 2 then f
  else if 1 / 2 < x - f then f + 1
  else if f % 2 = 0 then f else f + 1

/-- Number of pixels of a `FlatDetector` along one axis, `marxs/optics/detector.py:63-68`. `size` is
`zoom[i + 1]` of `decompose44(pos4d)`: the half-width, length of `v_y` or `v_z` if the axes are
perpendicular. -/
noncomputable def npix (size pixsize : ℝ) : ℤ := npRound (2 * size / pixsize)

/-- `centerpix`, `marxs/optics/detector.py:70`. -/
noncomputable def centerpix (size pixsize : ℝ) : ℝ := ((npix size pixsize : ℝ) - 1) / 2

/-- Condition for the warning in `FlatDetector.__init__`, `marxs/optics/detector.py:69`. -/
noncomputable def pixelWarning (size pixsize : ℝ) (ignore : Bool) : Prop :=
  1e-2 < |2 * size / pixsize - npix size pixsize| ∧ ignore = false

/-- Pixel coordinate, `FlatDetector.specific_process_photons`, `marxs/optics/detector.py:72-75`. -/
noncomputable def detpix (size pixsize loc : ℝ) : ℝ := loc / pixsize + centerpix size pixsize

/-- Pixel coordinates of a `CircularDetector`, `marxs/optics/detector.py:114-117`; `centerpix` is
`[0, 0]`, `R` the radius. -/
noncomputable def circDetpix (R pixsize phi z : ℝ) : ℝ × ℝ :=
  (phi * R / pixsize + 0, z / pixsize + 0)

/-- `FlatAperture.specific_process_photons`, `marxs/optics/aperture.py:62-75`: start position and
probability factor for local coordinates `x`, `y` (in units of the half-widths). -/
noncomputable def aperturePhoton (m : M4) (dir : H4) (x y : ℝ) : H4 × ℝ :=
  (center m + x • vY m + y • vZ m, min (max (dir.dot (-(eX m))) 0) 1)

/-- `RectangleAperture.generate_local_xy` for one photon, `marxs/optics/aperture.py:92-95`. -/
def rectXY (u1 u2 : ℝ) : ℝ × ℝ := (u1 * 2 - 1, u2 * 2 - 1)

/-- `RectangleAperture.area`, `marxs/optics/aperture.py:97-100`. -/
noncomputable def rectArea (m : M4) : ℝ := 4 * (vY m).norm * (vZ m).norm

/-- Checks in `CircularHole.__init__` (`marxs/math/geometry.py:344-353`) and
`CircleAperture.__init__` (`marxs/optics/aperture.py:126-134`). -/
noncomputable def circleCheck (m : M4) (rInner phi0 phi1 : ℝ) : Except Err Unit :=
  if 10 < max |phi0| |phi1| then .error .valueError
  else if phi1 < phi0 then .error .valueError
  else if 2 * Real.pi + 1e-6 < phi1 - phi0 then .error .valueError
  else if (vY m).norm < rInner then .error .valueError
  else if ¬ isclose (vY m).norm (vZ m).norm then .error .setupError
  else .ok ()

/-- `CircleAperture.generate_local_xy` for one photon, `marxs/optics/aperture.py:136-145`;
`np.random.uniform(a, b)` is `a + (b - a) * u`. -/
noncomputable def circleXY (m : M4) (rInner phi0 phi1 u1 u2 : ℝ) : ℝ × ℝ :=
  let phi := phi0 + (phi1 - phi0) * u1
  let rin := rInner / (vY m).norm
  let r := Real.sqrt (rin ^ 2 + (1 - rin ^ 2) * u2)
  (r * Real.cos phi, r * Real.sin phi)

/-- `CircleAperture.area`, `marxs/optics/aperture.py:147-151`. -/
noncomputable def circleArea (m : M4) (rInner phi0 phi1 : ℝ) : ℝ :=
  (phi1 - phi0) / (2 * Real.pi) * (Real.pi * ((vY m).norm ^ 2 - rInner ^ 2))

/-- `MultiLayerEfficiency.specific_process_photons`, `marxs/optics/multiLayerMirror.py:162-179`, with
the interpolated values from the data files as arguments. -/
noncomputable def multiLayerProb (energy peak maxRefl fwhm : ℝ) : ℝ :=
  let wavelength := 1.23984282 / energy
  let c2 := fwhm ^ 2 / (8 * Real.log 2)
  if c2 = 0 then 0 else maxRefl * Real.exp (-((wavelength - peak) ^ 2) / (2 * c2)) / 100

/-- `FixedPointing.photons_pol` for one photon, `marxs/source/pointing.py:123-151`; `north` is the
direction of the north pole in spacecraft coordinates. `none`: photons from the pole (NaN). -/
noncomputable def pointingPol (north dir : H4) (polangle : ℝ) : Option H4 :=
  match normVector (north - (north.dot dir) • dir) with
  | none => none
  | some n => some (Real.cos polangle • n + Real.sin polangle • (dir.xyz.cross n.xyz).toDir)

end Marxs
