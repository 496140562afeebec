import Verif.Model.Optics

/-!
# One photon on its way through a sequence of elements

Models `OpticalElement.__call__` and `OpticalElement.process_photons` (`marxs/optics/base.py:142-215`) for one row of a
photon list, together with the elements of `marxs.optics` whose effect is modelled in `Model/Optics` and
`Model/Grating`, `Propagator` (`marxs/simulator/simulator.py:621-641`), and a `Sequence` of them
(`marxs/simulator/simulator.py:205-224`, without pre- and postprocess steps).
-/

namespace Marxs
open Classical

/-- One row of a photon list, `none` is NaN. `coos` are the local coordinates that the elements have written so far
(each element has its own columns `loc_coos_name`, `marxs/optics/base.py:203-206`), `order` and `blaze` the columns of
the last grating. -/
@[ext] structure Ray where
  pos : Option H4
  dir : Option H4
  pol : Option H4
  prob : Option ℝ
  energy : ℝ
  order : Option ℤ
  blaze : Option ℝ
  coos : List (ℝ × ℝ)

/-- Elements. `m` is always `pos4d`; random numbers (scattering angles, draws of the order selector) are parameters.
The order selectors in `marxs` do not use the polarization, so `order` has the arguments energy and blaze angle
(`marxs/optics/grating.py:51-57`, `marxs/missions/mitsnl/catgrating.py:92-130`). -/
inductive Optic where
  /-- element without own effect, e.g. `FlatDetector` -/
  | plane (m : M4)
  /-- `CircularDetector`, `marxs/optics/detector.py:77-117` -/
  | tube (m : M4) (zoomz lim0 lim1 : ℝ)
  /-- `EnergyFilter`, `marxs/optics/filter.py:55-94` -/
  | filter (m : M4) (f : ℝ → ℝ)
  /-- `GlobalEnergyFilter`, `marxs/optics/filter.py:12-53` -/
  | globalFilter (f : ℝ → ℝ)
  /-- `PerfectLens`, `marxs/optics/mirror.py:16-83` -/
  | lens (m : M4) (focallength dOptax : ℝ) (refl : ℝ → ℝ → ℝ)
  /-- `ThinLens`, `marxs/optics/mirror.py:86-143` -/
  | thin (m : M4) (focallength : ℝ)
  /-- `FlatGrating` (`cat = false`) and `CATGrating`, `marxs/optics/grating.py` -/
  | grating (m : M4) (transmission cat : Bool) (groove : ℝ) (d blazeMod : ℝ × ℝ → ℝ) (order : ℝ → Option ℝ → ℤ × ℝ)
  /-- `FlatBrewsterMirror`, `marxs/optics/multiLayerMirror.py:12-94` -/
  | mirror (m : M4) (rs rp : ℝ)
  /-- `RadialMirrorScatter`, `marxs/optics/scatter.py:13-77` -/
  | scatter (m : M4) (inAngle perpAngle : Option ℝ)
  /-- `Propagator`, `marxs/simulator/simulator.py:621-641` -/
  | propagate (distance : ℝ)

/-- Intersection of the photon with a `FinitePlane`; NaN is never a hit, `marxs/optics/base.py:142-145`. -/
noncomputable def Ray.hit (r : Ray) (m : M4) : Option (H4 × H4 × ℝ × ℝ × H4) :=
  match r.dir, r.pos with
  | some d, some p =>
    match planeIntersect m d p with
    | some (q, y, z) => some (d, q, y, z, p)
    | none => none
  | _, _ => none

/-- Write position and local coordinates, `marxs/optics/base.py:203-213`. -/
def Ray.at (r : Ray) (q : H4) (y z : ℝ) : Ray := { r with pos := some q, coos := r.coos ++ [(y, z)] }

/-- Multiply the probability, `marxs/optics/base.py:17-38`; NaN stays NaN. -/
noncomputable def Ray.times (r : Ray) (f : Option ℝ) : Ray :=
  { r with prob := match r.prob, f with
      | some a, some b => some (a * b)
      | _, _ => none }

/-- The check of the values in a filter, `marxs/optics/filter.py:49-51,91-93`. -/
noncomputable def filterValue (f : ℝ → ℝ) (e : ℝ) : Except Err ℝ :=
  if f e < 0 ∨ 1 < f e then .error .valueError else .ok (f e)

/-- `FlatGrating` or `CATGrating` on a plane: `geometry.get_local_euklid_bases` are the same for all points,
`marxs/optics/grating.py:174-231,291-301`. -/
noncomputable def planeGrating (m : M4) (transmission cat : Bool) (groove : ℝ) (d blazeMod : ℝ × ℝ → ℝ)
    (order : ℝ → Option ℝ → ℤ × ℝ) : Grating where
  transmission := transmission
  groove := groove
  d := d
  blazeMod := blazeMod
  order := fun e _ b => order e b
  sign := if cat then catSign else flatSign
  bases := fun _ => planeBases m

/-- The effect of one element on one photon, `marxs/optics/base.py:142-215`. Where the polarization is NaN, it stays NaN
and everything that does not depend on it is calculated as usual. A tube refuses directions with a last coordinate that is
not zero (`marxs/math/geometry.py:491-492`) and that includes NaN. Simplification: a direction is NaN in all coordinates or
in none, as after a grating (`marxs/optics/grating.py:257-265`). -/
noncomputable def Optic.step (o : Optic) (r : Ray) : Except Err Ray :=
  match o with
  | .plane m => match r.hit m with
    | none => .ok r
    | some (_, q, y, z, _) => .ok (r.at q y z)
  | .tube m zoomz lim0 lim1 => match r.dir, r.pos with
    | some d, some p => match cylIntersect m zoomz lim0 lim1 d p with
      | .error e => .error e
      | .ok none => .ok r
      | .ok (some (q, y, z)) => .ok (r.at q y z)
    | some d, none => if d.w ≠ 0 ∨ m.det = 0 then .error .valueError else .ok r
    | none, _ => .error .valueError
  | .filter m f => match r.hit m with
    | none => .ok r
    | some (_, q, y, z, _) => match filterValue f r.energy with
      | .error e => .error e
      | .ok p => .ok ((r.times (some p)).at q y z)
  | .globalFilter f => match filterValue f r.energy with
    | .error e => .error e
    | .ok p => .ok (r.times (some p))
  | .lens m focallength dOptax refl => match r.hit m with
    | none => .ok r
    | some (d, q, y, z, _) =>
      let out := fun pol => perfectLens m focallength dOptax refl d pol q r.energy
      .ok (({ r with dir := (out ⟨0, 0, 0, 0⟩).map LensOut.dir
                     pol := (r.pol.bind out).bind LensOut.pol }.times ((out ⟨0, 0, 0, 0⟩).map LensOut.prob)).at q y z)
  | .thin m focallength => match r.hit m with
    | none => .ok r
    | some (d, q, y, z, _) =>
      .ok ({ r with dir := (thinLens m focallength d ⟨0, 0, 0, 0⟩ q).map Prod.fst
                    pol := (r.pol.bind fun pol => thinLens m focallength d pol q).map Prod.snd }.at q y z)
  | .grating m transmission cat groove d blazeMod order => match r.hit m with
    | none => .ok r
    | some (dir, q, y, z, _) =>
      let g := planeGrating m transmission cat groove d blazeMod order
      let out := g.diffract dir ⟨0, 0, 0, 0⟩ r.energy (y, z)
      .ok (({ r with dir := out.dir
                     pol := r.pol.bind fun pol => (g.process dir pol r.energy (y, z)).2
                     order := some out.m
                     blaze := out.blaze }.times (some out.prob)).at q y z)
  | .mirror m rs rp => match r.hit m with
    | none => .ok r
    | some (d, q, y, z, _) =>
      let dir := if d.dot d = 0 then none else some (mirrorDir m d.unit)
      match r.pol with
      | none => .ok (({ r with dir := dir }.times none).at q y z)
      | some pol => match brewster m rs rp d pol with
        | .error e => .error e
        | .ok none => .ok (({ r with dir := dir, pol := none }.times none).at q y z)
        | .ok (some out) => .ok (({ r with dir := some out.dir, pol := out.pol }.times (some out.prob)).at q y z)
  | .scatter m inAngle perpAngle => match r.hit m with
    | none => .ok r
    | some (d, q, y, z, p) =>
      let out := fun pol => radialScatter m d p pol inAngle perpAngle
      .ok ({ r with dir := (out ⟨0, 0, 0, 0⟩).map Prod.fst
                    pol := (r.pol.bind out).bind Prod.snd }.at q y z)
  | .propagate distance =>
    .ok { r with pos := match r.dir, r.pos with
      | some d, some p => some (p + distance • d)
      | _, _ => none }

/-- A `Sequence` of elements, `marxs/simulator/simulator.py:205-224`. -/
noncomputable def runOptics : List Optic → Ray → Except Err Ray
  | [], r => .ok r
  | o :: os, r => match o.step r with
    | .error e => .error e
    | .ok r' => runOptics os r'

end Marxs
