import Verif.Model.Source
import Verif.Model.Chandra
import Verif.Model.Base
import Verif.Model.Missions

/-!
# From source to aperture: photon lists of sky sources and pointings

Models `Source.generate_photons`, the sky sources in `marxs/source/basesources.py`, the table operations of
`marxs/source/pointing.py`, and `marxs/analysis/run_helpers.py`.

Simplifications: of the header only numbers that depend on the input are modelled; random numbers are streams (one
entry per photon); `SkyCoord` is a position in a frame that is rotated with respect to ICRS.
-/

namespace Marxs

open Classical

/-- A photon list: table and header (`meta`). Used for `marxs/source/basesources.py:230-280`. -/
structure PhotonList where
  tab : Table
  hdr : Header ℝ

/-- Parameters of a source, `Source.__init__`, `marxs/source/basesources.py:156-163`. `argsort` is the function used
for sorting in the tables of energy and polarization. `geomarea = None` is stored as 1. -/
structure SourceSpec where
  flux : FluxSpec
  energy : EnergySpec
  polarization : PolSpec
  geomarea : Option ℝ
  argsort : List ℝ → List ℕ

/-- `self.geomarea`, `marxs/source/basesources.py:161`. -/
noncomputable def SourceSpec.area (s : SourceSpec) : ℝ :=
  match s.geomarea with
  | none => 1
  | some a => a

/-- Row of the table made in `marxs/source/basesources.py:254-258`. -/
def sourceRow (t e p : ℝ) : Row := fun c =>
  if c = "time" then .num (some t)
  else if c = "energy" then .num (some e)
  else if c = "polangle" then .num (some p)
  else if c = "probability" then .num (some 1)
  else .num none

/-- `Table([...], names=...)`, `marxs/source/basesources.py:254-258`: astropy raises `ValueError` for columns of
different length. -/
def sourceTable (times en pol : List ℝ) : Except Err Table :=
  if en.length = times.length ∧ pol.length = times.length then
    .ok { names := ["time", "energy", "polangle", "probability"],
          rows := (List.range times.length).map fun i => sourceRow (times.getD i 0) (en.getD i 0) (pol.getD i 0) }
  else .error .valueError

/-- The first `n` entries of a stream of random numbers. Used for `marxs/source/basesources.py:230-280`. -/
def draw {α : Type} (f : ℕ → α) (n : ℕ) : List α := (List.range n).map f

/-- `Source.generate_photons`, `marxs/source/basesources.py:230-280`. `drE`, `drP` are random numbers for energy and
polarization. -/
noncomputable def generatePhotons (s : SourceSpec) (drE drP : ℕ → ℝ × ℝ) (exposure : ℝ) : Except Err PhotonList := do
  let times ← generateTimes s.flux s.area exposure
  let en ← generateEnergies s.energy s.argsort (draw drE times.length) times
  let pol ← generatePolarization s.polarization s.argsort (draw drP times.length) times en
  let tab ← sourceTable times en pol
  .ok { tab := tab, hdr := Header.update (fun _ => none) [("EXPOSURE", exposure)] }

/-! ## Positions on the sky -/

/-- An `astropy.coordinates.SkyCoord` (external): position in a frame, `frame` rotates vectors from that frame to
ICRS. Used for `marxs/source/basesources.py:304-329`. -/
structure SkyC where
  frame : M3
  lon : ℝ
  lat : ℝ

/-- `np.rad2deg` (external). Used for `marxs/source/basesources.py:304-329`. -/
noncomputable def rad2deg (x : ℝ) : ℝ := x * 180 / Real.pi

/-- Longitude and latitude of a unit vector (external, conversion in astropy). Used for `marxs/source/basesources.py:304-329`. -/
noncomputable def lonLat (v : V3) : ℝ × ℝ := (pymod (arctan2 v.y v.x) (2 * Real.pi), Real.arcsin v.z)

/-- Cartesian unit vector of the position in ICRS. Used for `marxs/source/basesources.py:304-329`. -/
noncomputable def SkyC.vec (c : SkyC) : V3 := mul3 c.frame (skyVec c.lon c.lat)

/-- `SkyCoord(lon, lat, frame=...)` for arrays: astropy raises `ValueError` if a latitude is not between -90 and 90
degrees. Used for `marxs/source/basesources.py:387-391`. -/
noncomputable def checkLatitudes (l : List ℝ) : Except Err Unit :=
  if ∀ b ∈ l, |b| ≤ Real.pi / 2 then .ok () else .error .valueError

/-- `photons[name] = vals` for an array: replaces or adds a column; astropy raises `ValueError` if the length is wrong. Used for `marxs/source/basesources.py:304-329`. -/
def Table.setVals (t : Table) (name : String) (vals : List Val) : Except Err Table :=
  if vals.length = t.rows.length then
    .ok { names := if name ∈ t.names then t.names else t.names ++ [name],
          rows := List.zipWith (fun r v => Function.update r name v) t.rows vals }
  else .error .valueError

/-- `AstroSource.set_pos`, `marxs/source/basesources.py:304-329`; `coo` are the unit vectors in ICRS. -/
noncomputable def setPos (p : PhotonList) (coo : List V3) : Except Err PhotonList := do
  let t1 ← p.tab.setVals "ra" (coo.map fun v => .num (some (rad2deg (lonLat v).1)))
  let t2 ← t1.setVals "dec" (coo.map fun v => .num (some (rad2deg (lonLat v).2)))
  .ok { p with tab := t2 }

/-- `AstroSource.__init__`, `marxs/source/basesources.py:293-302`, and `FixedPointing.__init__`,
`marxs/source/pointing.py:86-94`: `coords` has to be a single position, not an array. -/
def checkScalar : List SkyC ⊕ SkyC → Except Err SkyC
  | .inl _ => .error .valueError
  | .inr c => .ok c

/-- `PointSource.generate_photons`, `marxs/source/basesources.py:344-348`. The single position is broadcast to all photons. -/
noncomputable def pointPhotons (s : SourceSpec) (c : SkyC) (drE drP : ℕ → ℝ × ℝ) (exposure : ℝ) :
    Except Err PhotonList := do
  let p ← generatePhotons s drE drP exposure
  setPos p (List.replicate p.tab.rows.length c.vec)

/-- Unit vector (ICRS) for longitude and latitude relative to a `SkyOffsetFrame(origin=c)`: back to the frame of
`c` (external, inverse of `skyOffset` without rotation), and then to ICRS. Used for `marxs/source/basesources.py:387-391`. -/
noncomputable def fromOffset (c : SkyC) (q : ℝ × ℝ) : V3 :=
  mul3 c.frame (mul3 (skyOffset ⟨c.lon, c.lat, 0⟩).transpose (skyVec q.1 q.2))

/-- `SkyCoord(..., frame=SkyOffsetFrame(origin=coords))`, transform, and `set_pos`,
`marxs/source/basesources.py:387-391`, `marxs/source/basesources.py:478-484`. -/
noncomputable def placeOffsets (p : PhotonList) (c : SkyC) (q : List (ℝ × ℝ)) : Except Err PhotonList := do
  let _ ← checkLatitudes (q.map Prod.snd)
  setPos p (q.map (fromOffset c))

/-- `RadialDistributionSource.generate_photons`, `marxs/source/basesources.py:373-393`; `d` are the distances returned by
the radial distribution, `u` the random numbers for the angle. -/
noncomputable def radialPhotons (s : SourceSpec) (c : SkyC) (drE drP : ℕ → ℝ × ℝ) (d u : ℕ → ℝ) (exposure : ℝ) :
    Except Err PhotonList := do
  let p ← generatePhotons s drE drP exposure
  placeOffsets p c (draw (fun i => offsetLonLat (d i) (u i)) p.tab.rows.length)

/-- `DiskSource`, `marxs/source/basesources.py:429-449`: `r` are the random numbers for the radius. -/
noncomputable def diskPhotons (s : SourceSpec) (c : SkyC) (aInner aOuter : ℝ) (drE drP : ℕ → ℝ × ℝ) (r u : ℕ → ℝ)
    (exposure : ℝ) : Except Err PhotonList :=
  radialPhotons s c drE drP (fun i => diskRadius aInner aOuter (r i)) u exposure

/-- `SphericalDiskSource`, `marxs/source/basesources.py:396-427`. -/
noncomputable def sphericalDiskPhotons (s : SourceSpec) (c : SkyC) (aInner aOuter : ℝ) (drE drP : ℕ → ℝ × ℝ)
    (r u : ℕ → ℝ) (exposure : ℝ) : Except Err PhotonList :=
  radialPhotons s c drE drP (fun i => sphericalRadius aInner aOuter (r i)) u exposure

/-- `GaussSource.generate_photons`, `marxs/source/basesources.py:467-486`; `z1`, `z2` are standard normal draws. -/
noncomputable def gaussPhotons (s : SourceSpec) (c : SkyC) (sigma : ℝ) (drE drP : ℕ → ℝ × ℝ) (z1 z2 : ℕ → ℝ)
    (exposure : ℝ) : Except Err PhotonList := do
  let p ← generatePhotons s drE drP exposure
  placeOffsets p c (draw (fun i => (sigma * z1 i, sigma * z2 i)) p.tab.rows.length)

/-- Right ascension and declination of one photon of a `SymbolFSource`, `marxs/source/basesources.py:510-519`: `elem` is the part of
the letter, `u` the random number. -/
noncomputable def symbolF (ra dec size : ℝ) (elem : Fin 3) (u : ℝ) : ℝ × ℝ :=
  match elem with
  | 0 => (ra + size * u, dec)
  | 1 => (ra + size, dec + 0.5 * size * u)
  | 2 => (ra + 0.8 * size, dec + 0.3 * size * u)

/-- `SymbolFSource.generate_photons`, `marxs/source/basesources.py:504-523`: the numbers are right ascension and declination in
ICRS, but they are used as coordinates in the frame of `coords`. -/
noncomputable def symbolFPhotons (s : SourceSpec) (c : SkyC) (size : ℝ) (drE drP : ℕ → ℝ × ℝ) (elem : ℕ → Fin 3)
    (u : ℕ → ℝ) (exposure : ℝ) : Except Err PhotonList := do
  let p ← generatePhotons s drE drP exposure
  let q := draw (fun i => symbolF (lonLat c.vec).1 (lonLat c.vec).2 size (elem i) (u i)) p.tab.rows.length
  let _ ← checkLatitudes (q.map Prod.snd)
  setPos p (q.map fun x => mul3 c.frame (skyVec x.1 x.2))

/-! ## Pointing -/

/-- Number in a cell, `none`: NaN. Used for `marxs/source/pointing.py:154-157`. -/
def Val.toNum : Val → Option ℝ
  | .num x => x
  | .int n => some n
  | .vec _ => none

/-- Cell with four numbers; `none`: NaN. Used for `marxs/source/pointing.py:147-173`. -/
def vecVal : Option H4 → Val
  | some v => .vec [some v.x, some v.y, some v.z, some v.w]
  | none => .vec [none, none, none, none]

/-- `PointingModel.add_dir`, `marxs/source/pointing.py:30-37`: astropy raises `ValueError` if the column exists. The content
is uninitialised, but for the last component. -/
def addDir (junk : Val) (t : Table) : Except Err Table :=
  if "dir" ∈ t.names then .error .valueError else .ok (t.addCol "dir" junk)

/-- Direction of the celestial north pole for a pointing, `marxs/source/pointing.py:141-143`. -/
noncomputable def northDir (ref : M4) (p : Pointing) : H4 :=
  mul4 ref (mul3 (skyOffset p) (skyVec 0 (Real.pi / 2))).toDir

/-- Direction for one row, `marxs/source/pointing.py:154-157`: coordinates are in degrees. -/
noncomputable def rowDir (ref : M4) (p : Pointing) (r : Row) : Option H4 :=
  match (r "ra").toNum, (r "dec").toNum with
  | some ra, some dec => fixedDir ref p (deg2rad ra) (deg2rad dec)
  | _, _ => none

/-- Polarization for one row, `marxs/source/pointing.py:158-160`, from the direction. -/
noncomputable def rowPol (ref : M4) (p : Pointing) (r : Row) : Option H4 :=
  match rowDir ref p r, (r "polangle").toNum with
  | some d, some a => pointingPol (northDir ref p) d a
  | _, _ => none

/-- Keywords in the header, `marxs/source/pointing.py:161-171`. The unit is degrees. -/
noncomputable def pointingHdr (p : Pointing) : List (String × ℝ) :=
  [("RA_PNT", rad2deg p.ra), ("DEC_PNT", rad2deg p.dec), ("ROLL_PNT", rad2deg p.roll),
   ("RA_NOM", rad2deg p.ra), ("DEC_NOM", rad2deg p.dec), ("ROLL_NOM", rad2deg p.roll)]

/-- `FixedPointing.process_photons`, `marxs/source/pointing.py:147-173`. All columns that are read have to exist
(`KeyError`); declinations beyond the poles are a `ValueError` in `SkyCoord`. -/
noncomputable def fixedProcess (ref : M4) (p : Pointing) (junk : Val) (ph : PhotonList) : Except Err PhotonList := do
  let t ← addDir junk ph.tab
  if "ra" ∉ t.names ∨ "dec" ∉ t.names then .error .keyError
  else do
    let _ ← checkLatitudes (t.rows.filterMap fun r => (r "dec").toNum.map deg2rad)
    if "time" ∉ t.names then .error .keyError
    else do
      let t1 ← t.setVals "dir" (t.rows.map fun r => vecVal (rowDir ref p r))
      if "polangle" ∉ t1.names then .error .keyError
      else do
        let t2 ← t1.setVals "polarization" (t.rows.map fun r => vecVal (rowPol ref p r))
        .ok { tab := t2, hdr := Header.update ph.hdr (pointingHdr p) }

/-- Jitter applied to the columns `dir` and `polarization` of one row, `marxs/source/pointing.py:204-211`: both are
turned by the same rotation, independently of each other (`jitter` turns a pair of vectors). -/
noncomputable def jitterRow (randang jitterang : ℝ) (r : Row) : Row :=
  let turned := fun v : H4 => (jitter v v randang jitterang).map Prod.fst
  Function.update (Function.update r "dir" (vecVal ((r "dir").toH4.bind turned)))
    "polarization" (vecVal ((r "polarization").toH4.bind turned))

/-- `JitterPointing.process_photons`, `marxs/source/pointing.py:195-212`; `sigma` is the (absolute value of) jitter, `u` are the random
numbers for the angle and `z` the standard normal draws. -/
noncomputable def jitterProcess (ref : M4) (p : Pointing) (sigma : ℝ) (u z : ℕ → ℝ) (junk : Val) (ph : PhotonList) :
    Except Err PhotonList := do
  let ph ← fixedProcess ref p junk ph
  if 0 < |sigma| then
    .ok { ph with tab := { names := ph.tab.names, rows := ph.tab.rows.mapIdx fun i r => jitterRow (u i * 2 * Real.pi) (|sigma| * z i) r } }
  else .ok ph

/-! ## Helper to run simulations -/

/-- `default_coord`, `marxs/analysis/run_helpers.py:17`. -/
noncomputable def defaultCoord : SkyC := ⟨1, deg2rad 30, deg2rad 30⟩

/-- `monoenergetic_astrosimulation`, `marxs/analysis/run_helpers.py:19-49`; `drP` are the random numbers for the polarization,
`instrument` is an arbitrary function on photon lists. -/
noncomputable def monoenergeticAstro (instrument : PhotonList → Except Err PhotonList) (energy nPhotons : ℝ) (ref : M4)
    (argsort : List ℝ → List ℕ) (drE drP : ℕ → ℝ × ℝ) (junk : Val) : Except Err PhotonList := do
  let p ← pointPhotons ⟨.scalar 1, .scalar energy, .unpolarized, some 1, argsort⟩ defaultCoord drE drP nPhotons
  let p ← fixedProcess ref ⟨defaultCoord.lon, defaultCoord.lat, 0⟩ junk p
  instrument p

end Marxs
