import Verif.Model.Random
import Verif.Model.Osip
import Verif.Model.SkySource

/-!
# Apertures, energy filters and CCD energies acting on photon lists

Models `FlatAperture`, `MultiAperture` (`marxs/optics/aperture.py`), `EnergyFilter`
(`marxs/optics/filter.py`) and `CCDRedistNormal` as optical element (`marxs/optics/detector.py`).  The
geometry for one photon (`aperturePhoton`, `rectXY`, `circleXY`, areas) is in `Model/Optics.lean`, the
choice of the aperture (`apertureIds`) in `Model/Random.lean`.
-/

namespace Marxs

open Classical

/-- The two flat apertures, `marxs/optics/aperture.py:84-151`. -/
inductive ApShape where
  | rect
  | circle (rInner phi0 phi1 : ℝ)

/-- Attributes of a `FlatAperture`: `pos4d`, shape, `id_col`, `id_num` and the names of the local coordinates
(`marxs/optics/aperture.py:39-82`, `marxs/optics/base.py:86-95`). -/
structure Aperture where
  m : M4
  shape : ApShape
  idCol : Option String
  idNum : ℤ
  locCoos : Option (String × String)

/-- `generate_local_xy` for one photon, `marxs/optics/aperture.py:92-95,136-145`; `u` are the two random numbers. -/
noncomputable def Aperture.xy (a : Aperture) (u : ℝ × ℝ) : ℝ × ℝ :=
  match a.shape with
  | .rect => rectXY u.1 u.2
  | .circle rInner phi0 phi1 => circleXY a.m rInner phi0 phi1 u.1 u.2

/-- `area`, `marxs/optics/aperture.py:97-100,147-151`. -/
noncomputable def Aperture.area (a : Aperture) : ℝ :=
  match a.shape with
  | .rect => rectArea a.m
  | .circle rInner phi0 phi1 => circleArea a.m rInner phi0 phi1

/-- `BaseAperture.add_colpos`, `marxs/optics/aperture.py:19-27`. -/
def addColPos (t : Table) : Table := t.addCol "pos" (vecVal (some ⟨0, 0, 0, 1⟩))

/-- Masked write into an array, `interpos[intersect, :] = ...`; `vals` has one entry per `True`. Used for `marxs/optics/aperture.py:42-51`. -/
def placeMasked {α : Type} : List Bool → List α → List α → List α
  | true :: ms, _ :: xs, v :: vs => v :: placeMasked ms xs vs
  | false :: ms, x :: xs, vs => x :: placeMasked ms xs vs
  | _, xs, _ => xs

/-- Factor for the probability of one photon, `marxs/optics/aperture.py:71-75`; NaN stays NaN. -/
noncomputable def apertureFactor (m : M4) (r : Row) : Val :=
  match (r "dir").toH4 with
  | some d => .num (some (aperturePhoton m d 0 0).2)
  | none => .num none

/-- The part of `FlatAperture.specific_process_photons` that returns a dictionary, `marxs/optics/aperture.py:62-75`. -/
noncomputable def Aperture.elem (a : Aperture) : Elem where
  idCol := a.idCol
  idNum := a.idNum
  locCoos := a.locCoos
  outputColumns := []
  action := .vector fun t mask _ _ =>
    if "dir" ∉ t.names then .error .keyError
    else .ok [(some "probability", .arr ((sel mask t.rows).map (apertureFactor a.m)))]
  geom := fun _ => ([], [], [])

/-- `FlatAperture.process_photons` with `interpos = photons['pos']` and `intercoos` zero, as it is called in
`marxs/optics/aperture.py:42-51,210-213`.  `specific_process_photons` (lines 62-68) overwrites both arrays for the
selected photons before `process_photons` copies them to the table; `u` are the random numbers for the
selected photons. -/
noncomputable def Aperture.process (a : Aperture) (u : ℕ → ℝ × ℝ) (t : Table) (mask : List Bool) : Except Err Table :=
  let xy := (List.range (countTrue mask)).map fun k => a.xy (u k)
  let interpos := placeMasked mask (t.rows.map (· "pos"))
    (xy.map fun p => vecVal (some (aperturePhoton a.m ⟨0, 0, 0, 0⟩ p.1 p.2).1))
  let intercoos := placeMasked mask (t.rows.map fun _ => (Val.num (some 0), Val.num (some 0)))
    (xy.map fun p => (Val.num (some p.1), Val.num (some p.2)))
  processPhotons a.elem t mask interpos intercoos

/-- `FlatAperture.__call__`, `marxs/optics/aperture.py:42-51`. -/
noncomputable def Aperture.call (a : Aperture) (u : ℕ → ℝ × ℝ) (t : Table) : Except Err Table :=
  a.process u (addColPos t) ((addColPos t).rows.map fun _ => true)

/-- `MultiAperture.__init__`, `marxs/optics/aperture.py:187-194`: the apertures get the id column of the group and are
numbered.  The apertures are taken as different objects. -/
def multiInit (elements : List Aperture) (idCol : String) (offset : ℤ) : List Aperture :=
  elements.mapIdx fun i a => { a with idCol := some idCol, idNum := offset + i }

/-- Pre- and postprocess steps: run all of them on the photon list, `marxs/optics/aperture.py:206-207,214-215`. -/
def runApHooks : List (Table → Except Err Table) → Table → Except Err Table
  | [], t => .ok t
  | h :: hs, t => do
      let t' ← h t
      runApHooks hs t'

/-- Loop over the apertures, `marxs/optics/aperture.py:205-215`; `i` is the number of the first one. -/
noncomputable def multiLoop (pre post : List (Table → Except Err Table)) (ids : List ℕ) (u : ℕ → ℕ → ℝ × ℝ) :
    ℕ → List Aperture → Table → Except Err Table
  | _, [], t => .ok t
  | i, a :: as, t => do
      let t1 ← runApHooks pre t
      let t2 ← a.process (u i) t1 (apertureMask ids i)
      let t3 ← runApHooks post t2
      multiLoop pre post ids u (i + 1) as t3

/-- `MultiAperture.area`, `marxs/optics/aperture.py:196-199`. -/
noncomputable def multiArea (as : List Aperture) : ℝ := (as.map Aperture.area).sum

/-- `MultiAperture.__call__`, `marxs/optics/aperture.py:201-216`. `ids` is the result of
`np.random.shuffle(aperid)`, i.e. some permutation of `apertureIds` (see `Model/Random.lean`). -/
noncomputable def multiCall (as : List Aperture) (pre post : List (Table → Except Err Table)) (ids : List ℕ)
    (u : ℕ → ℕ → ℝ × ℝ) (t : Table) : Except Err Table :=
  multiLoop pre post ids u 0 as (addColPos t)

/-- `EnergyFilter`, `marxs/optics/filter.py:55-94`; `f` is `filterfunc`, it sees the energies of the photons that
hit the filter. -/
noncomputable def energyFilter (f : List Val → ColVal) (idCol : Option String) (idNum : ℤ)
    (locCoos : Option (String × String)) (geom : Table → List Bool × List Val × List (Val × Val)) : Elem where
  idCol := idCol
  idNum := idNum
  locCoos := locCoos
  outputColumns := []
  action := .vector fun t mask _ _ =>
    if "energy" ∉ t.names then .error .keyError
    else
      let p := f ((sel mask t.rows).map (· "energy"))
      if ∃ v ∈ p.toList, v.OutOfRange then .error .valueError
      else .ok [(some "probability", p)]
  geom := geom

/-- One draw from a normal distribution around the photon energy, `marxs/optics/detector.py:198-201`; `z` is a
standard normal number, `tab` the table of energies and widths (`interp` is the interpolation in `sig_ccd`). -/
noncomputable def ccdEnergy (tab : List (ℝ × ℝ)) (z : ℝ) : Val → Val
  | .num (some e) => match interp e tab with
    | some s => .num (some (e + s * z))
    | none => .num none
  | _ => .num none

/-- `CCDRedistNormal` as optical element, `marxs/optics/detector.py:195-202`: the array of new energies has one entry
for every photon in the list, not one for every photon that hits the detector. An empty table `tab` is a
`ValueError` in `np.interp`. -/
noncomputable def ccdRedist (tab : List (ℝ × ℝ)) (z : ℕ → ℝ) (idCol : Option String) (idNum : ℤ)
    (locCoos : Option (String × String)) (geom : Table → List Bool × List Val × List (Val × Val)) : Elem where
  idCol := idCol
  idNum := idNum
  locCoos := locCoos
  outputColumns := []
  action := .vector fun t _ _ _ =>
    if "energy" ∉ t.names then .error .keyError
    else if tab = [] then .error .valueError
    else .ok [(some "energy_detected", .arr (t.rows.mapIdx fun i r => ccdEnergy tab (z i) (r "energy")))]
  geom := geom

end Marxs
