import Verif.Model.Tolerancing
import Verif.Model.Grating
import Verif.Model.Optics
import Verif.Model.MathUtils
import Verif.Model.Geometry

/-!
# Pointing and Chandra: sky to spacecraft, dither, ACIS coordinates

Models `marxs/source/pointing.py` (`FixedPointing.photons_dir`), `marxs/missions/chandra/dither.py`,
`marxs/missions/chandra/det_acis.py` and the tables in `marxs/missions/chandra/data.py`.

Simplifications: angles are in radian, astropy quantities are plain numbers; a sky position is its right
ascension and declination in the same frame as the pointing; one photon at a time where the code is
vectorised. `astropy.coordinates.SkyOffsetFrame` is the documented sequence of three rotations.
-/

namespace Marxs

open Classical

/-! ## Pointing -/

/-- Cartesian vector for a position on the sky (`SkyCoord.cartesian`, external). Used for `marxs/source/pointing.py:101-119`. -/
noncomputable def skyVec (ra dec : ℝ) : V3 :=
  ⟨Real.cos dec * Real.cos ra, Real.cos dec * Real.sin ra, Real.sin dec⟩

/-- A pointing: right ascension, declination and roll (`coords` and `roll` of `FixedPointing`,
`marxs/source/pointing.py:86-94`). -/
structure Pointing where
  ra : ℝ
  dec : ℝ
  roll : ℝ

/-- `FixedPointing.offset_coos`, `marxs/source/pointing.py:96-99`: the transformation to
`skyoffset_frame(rotation=roll)` of astropy (external): rotate by `-ra` around z, by `dec` around y, and
by `roll` around x. -/
noncomputable def skyOffset (p : Pointing) : M3 := euX p.roll * (euY p.dec * euZ (-p.ra))

/-- `FixedPointing.photons_dir`, `marxs/source/pointing.py:101-119`, for one photon; `ref` is
`reference_transform`. `none`: NaN. -/
noncomputable def fixedDir (ref : M4) (p : Pointing) (ra dec : ℝ) : Option H4 :=
  match normVector (-(mul3 (skyOffset p) (skyVec ra dec))).toDir with
  | none => none
  | some d => some (mul4 ref d)

/-! ## Dither -/

/-- `DitherAmp`, `DitherPeriod`, `DitherPhase`, `marxs/missions/chandra/dither.py:28-31`. -/
structure Dither where
  amp : V3
  period : V3
  phase : V3

/-- One component of `LissajousDither.dither`, `marxs/missions/chandra/dither.py:46`. Periods are not zero. -/
noncomputable def lissajous (amp period phase t : ℝ) : ℝ := amp * Real.sin (2 * Real.pi * t / period + phase)

/-- `LissajousDither.dither`, `marxs/missions/chandra/dither.py:33-46`, for one time and a pointing away
from the poles. -/
noncomputable def ditherAt (d : Dither) (p : Pointing) (t : ℝ) : V3 :=
  ⟨lissajous d.amp.x d.period.x d.phase.x t / Real.cos p.dec,
   lissajous d.amp.y d.period.y d.phase.y t, lissajous d.amp.z d.period.z d.phase.z t⟩

/-- The vectors `e_nominal` and `e_dither`, `marxs/missions/chandra/dither.py:73-83`: x and y are swapped
compared to the usual definition. -/
noncomputable def ditherVec (ra dec : ℝ) : V3 :=
  ⟨Real.sin ra * Real.sin (Real.pi / 2 - dec), Real.cos ra * Real.sin (Real.pi / 2 - dec),
   Real.cos (Real.pi / 2 - dec)⟩

/-- Body of the loop and conversion to angles, `marxs/missions/chandra/dither.py:86-99`, for one time. `roll0` is the
angle of the rotation matrix (taken from the first time), `roll` the angle at this time. -/
noncomputable def pointingAt (p : Pointing) (delta : V3) (roll0 : ℝ) : Pointing :=
  let v := mul3 (rotMat (ditherVec p.ra p.dec) (-roll0)) (ditherVec (p.ra + delta.x) (p.dec + delta.y))
  { ra := pymod (arctan2 v.x v.y) (2 * Real.pi), dec := Real.pi / 2 - Real.arccos v.z, roll := p.roll + delta.z }

/-- `LissajousDither.pointing`, `marxs/missions/chandra/dither.py:48-100`. When the roll is not the same
for all times the local variable `constant_roll` is not set and the first iteration of the loop raises
`UnboundLocalError`; without any time `roll[0]` raises `IndexError`. -/
noncomputable def lissajousPointing (d : Dither) (p : Pointing) (time : List ℝ) : Except Err (List Pointing) :=
  match time.map (ditherAt d p) with
  | [] => .error .indexError
  | d0 :: ds =>
    if ∀ q ∈ d0 :: ds, isclose (p.roll + q.z) (p.roll + d0.z) then
      .ok ((d0 :: ds).map fun q => pointingAt p q (p.roll + d0.z))
    else .error .nameError

/-- `euler2mat(a, b, c, 'rzyx')` of transforms3d (external): rotating axes. Used for `marxs/missions/chandra/dither.py:117-130`. -/
noncomputable def eulerRzyx (a b c : ℝ) : M3 := euZ a * (euY b * euX c)

/-- Loop body of `LissajousDither.photons_dir`, `marxs/missions/chandra/dither.py:117-130`, for one photon and
the pointing at its time. -/
noncomputable def ditherDir (q : Pointing) (ra dec : ℝ) : H4 :=
  (mul3 (eulerRzyx q.ra (-q.dec) (-q.roll)).transpose
    ⟨-(Real.cos dec * Real.cos ra), -(Real.cos dec * Real.sin ra), -Real.sin dec⟩).toDir

/-- `LissajousDither.photons_dir`, `marxs/missions/chandra/dither.py:102-132`: photons are
`(time, ra, dec)`. The argument `reference_transform` of the constructor is stored by `FixedPointing.__init__`, but
not used here. -/
noncomputable def ditherPhotons (_ref : M4) (d : Dither) (p : Pointing) (photons : List (ℝ × ℝ × ℝ)) : Except Err (List H4) := do
  let pointing ← lissajousPointing d p (photons.map fun q => q.1)
  .ok (List.zipWith (fun q ph => ditherDir q ph.2.1 ph.2.2) pointing photons)

/-! ## ACIS -/

/-- One chip in the table `TDET['ACIS']`: `theta` in degrees, `scale`, `handedness`, `origin`,
`marxs/missions/chandra/data.py:42-57`. -/
structure TDet where
  theta : ℝ
  scale : ℝ
  handedness : ℝ
  ox : ℝ
  oy : ℝ

/-- `TDET['ACIS']`, `marxs/missions/chandra/data.py:42-57`. -/
def acisTDet : List TDet :=
  [⟨90, 1, 1, 3061, 5131⟩, ⟨270, 1, 1, 5131, 4107⟩, ⟨90, 1, 1, 3061, 4085⟩, ⟨270, 1, 1, 5131, 3061⟩,
   ⟨0, 1, 1, 791, 1702⟩, ⟨0, 1, 1, 1833, 1702⟩, ⟨0, 1, 1, 2875, 1702⟩, ⟨0, 1, 1, 3917, 1702⟩,
   ⟨0, 1, 1, 4959, 1702⟩, ⟨0, 1, 1, 6001, 1702⟩]

/-- `np.deg2rad` (external). Used for `marxs/missions/chandra/data.py:169-190`. -/
noncomputable def deg2rad (x : ℝ) : ℝ := x * Real.pi / 180

/-- `chip2tdet`, `marxs/missions/chandra/data.py:169-190`, for one chip and one position. -/
noncomputable def chip2tdet (c : TDet) (chip : ℝ × ℝ) : ℝ × ℝ :=
  let t := deg2rad c.theta
  let x := chip.1 - 0.5
  let y := chip.2 - 0.5
  (c.scale * c.handedness * (Real.cos t * x + Real.sin t * y) + (c.ox + 0.5),
   c.scale * c.handedness * (-Real.sin t * x + Real.cos t * y) + (c.oy + 0.5))

/-- `NOMINAL_FOCALLENGTH`, `marxs/missions/chandra/data.py:4`. -/
def nominalFocallength : ℝ := 10061.65

/-- `ODET['ACIS']` (both entries are the same), `marxs/missions/chandra/data.py:64`. -/
def odet : ℝ := 4096.5

/-- `pixsize_in_rad`, `marxs/missions/chandra/det_acis.py:23`, `marxs/missions/chandra/data.py:67`. -/
noncomputable def acisPix : ℝ := deg2rad (0.492 / 3600)

/-- Chip coordinate, `marxs/missions/chandra/det_acis.py:34`: `size` is the half length of the chip (its zoom). -/
noncomputable def chipCoord (size pixsize loc : ℝ) : ℝ := loc / pixsize + centerpix size pixsize + 1

/-- Scaled tangent plane coordinates `x`, `y`, `marxs/missions/chandra/det_acis.py:40-44`. `none`: position in the plane of
the mirror (division by zero). -/
noncomputable def acisXY (pos : V3) : Option (ℝ × ℝ) :=
  let mx := pos.x - nominalFocallength
  if mx = 0 then none else some (pos.y / mx / acisPix, pos.z / mx / acisPix)

/-- DET and SKY coordinates from the scaled coordinates, `marxs/missions/chandra/det_acis.py:45-49`: `roll` is the
keyword `ROLL_PNT` in degrees. -/
noncomputable def acisDetSky (roll x y : ℝ) : (ℝ × ℝ) × (ℝ × ℝ) :=
  let theta := deg2rad roll
  ((odet - x, odet + y),
   (odet - x * Real.cos theta + y * Real.sin theta, odet + x * Real.sin theta + y * Real.cos theta))

/-- Corners of a chip in LSI coordinates, from `get_corners`, `marxs/missions/chandra/det_acis.py:99-121`. -/
structure Corners where
  ll : V3
  lr : V3
  ur : V3
  ul : V3

/-- The table `PIX_CORNER_LSI_PAR` for ACIS, `marxs/missions/chandra/data.py:86-134`. -/
def acisCorners : List Corners :=
  [⟨⟨2.361, -26.484, 23.088⟩, ⟨1.130, -26.546, -1.458⟩, ⟨-0.100, -2.001, -1.458⟩, ⟨1.130, -1.939, 23.088⟩⟩,
   ⟨⟨1.130, 23.086, -1.458⟩, ⟨2.360, 23.024, 23.088⟩, ⟨1.130, -1.521, 23.088⟩, ⟨-0.100, -1.459, -1.458⟩⟩,
   ⟨⟨1.130, -26.546, -1.997⟩, ⟨2.361, -26.484, -26.543⟩, ⟨1.130, -1.939, -26.543⟩, ⟨-0.100, -2.001, -1.997⟩⟩,
   ⟨⟨2.361, 23.024, -26.543⟩, ⟨1.131, 23.086, -1.997⟩, ⟨-0.100, -1.459, -1.997⟩, ⟨1.13, -1.521, -26.543⟩⟩,
   ⟨⟨0.744, -81.170, -59.170⟩, ⟨0.353, -56.597, -59.170⟩, ⟨0.353, -56.597, -34.590⟩, ⟨0.744, -81.170, -34.590⟩⟩,
   ⟨⟨0.348, -56.133, -59.170⟩, ⟨0.099, -31.559, -59.170⟩, ⟨0.099, -31.559, -34.590⟩, ⟨0.348, -56.133, -34.590⟩⟩,
   ⟨⟨0.096, -31.100, -59.170⟩, ⟨-0.011, -6.524, -59.170⟩, ⟨-0.011, -6.524, -34.590⟩, ⟨0.096, -31.100, -34.590⟩⟩,
   ⟨⟨-0.011, -6.035, -59.170⟩, ⟨0.024, 18.541, -59.170⟩, ⟨0.024, 18.541, -34.590⟩, ⟨-0.011, -6.035, -34.590⟩⟩,
   ⟨⟨0.026, 18.970, -59.170⟩, ⟨0.208, 43.545, -59.170⟩, ⟨0.208, 43.545, -34.590⟩, ⟨0.026, 18.970, -34.590⟩⟩,
   ⟨⟨0.208, 43.986, -59.170⟩, ⟨0.528, 68.560, -59.170⟩, ⟨0.528, 68.560, -34.590⟩, ⟨0.208, 43.986, -34.590⟩⟩]

/-- `ACIS.OLSI`, `marxs/missions/chandra/det_acis.py:72`. -/
def acisOLSI : V3 := ⟨0.684, 0.750, 236.552⟩

/-- `calculate_elempos` for one chip, `marxs/missions/chandra/det_acis.py:123-150`. -/
noncomputable def acisPos (c : Corners) (aimpoint detoffset : V3) : M4 :=
  let ey := c.lr - c.ll
  let ez := c.ul - c.ll
  let ex := (ey.cross ez).unit
  let ctr := c.ll + (1 / 2 : ℝ) • ey + (1 / 2 : ℝ) • ez + acisOLSI + aimpoint - detoffset
  !![ex.x, ey.x / 2, ez.x / 2, ctr.x;
     ex.y, ey.y / 2, ez.y / 2, ctr.y;
     ex.z, ey.z / 2, ez.z / 2, ctr.z;
     0, 0, 0, 1]

/-- Keyword arguments at the start of `ACIS.__init__`, `marxs/missions/chandra/det_acis.py:81-88`: `names` are the names of
the keyword arguments. `dict.pop` with a list as key raises `TypeError` (unhashable type) unless the
dictionary is empty, in that case it returns the default. Result: detector offset. -/
noncomputable def acisDetOffset (names : List String) : Except Err V3 :=
  if "aimpoint" ∉ names then .error .keyError
  else if names.erase "aimpoint" = [] then .ok ⟨0, 0, 0⟩
  else .error .typeError

/-- `[self.elements[i] for i in chips]`, `marxs/missions/chandra/det_acis.py:97`; a chip number that does
not exist raises `IndexError` (negative numbers count from the end). -/
def acisChips {α : Type} (elements : List α) : List ℤ → Except Err (List α)
  | [] => .ok []
  | i :: is =>
    match elements[(if i < 0 then i + elements.length else i).toNat]?, decide (i < -(elements.length : ℤ)) with
    | some e, false => do
        let l ← acisChips elements is
        .ok (e :: l)
    | _, _ => .error .indexError

end Marxs
