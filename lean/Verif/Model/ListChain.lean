import Verif.Model.RayChain
import Verif.Model.DetChain

/-!
# Photon lists in a sequence of elements

The elements of `Model/RayChain` with all the steps on photon lists that are done by
`OpticalElement.process_photons` (`Model/Table`): masks, columns that are added, values that are written to the rows of
the photons that hit.
-/

namespace Marxs
open Classical

/-- Elements, see `Optic` in `Model/RayChain` for the parameters. Random numbers (order selectors, scattering angles) are
different for each photon and numbered by the row of the photon in the list; the same for the reflectivities of mirrors. Used for `marxs/optics/base.py:177-206`. -/
inductive ListOptic where
  | plane (m : M4)
  | tube (m : M4) (zoomz lim0 lim1 : ℝ)
  | filter (m : M4) (f : ℝ → ℝ)
  | globalFilter (f : ℝ → ℝ)
  | lens (m : M4) (focallength dOptax : ℝ) (refl : ℝ → ℝ → ℝ)
  | thin (m : M4) (focallength : ℝ)
  | grating (m : M4) (transmission cat : Bool) (groove : ℝ) (d blazeMod : ℝ × ℝ → ℝ)
      (order : ℕ → ℝ → Option ℝ → ℤ × ℝ)
  | mirror (m : M4) (rs rp : ℕ → ℝ)
  | scatter (m : M4) (inAngle perpAngle : ℕ → Option ℝ)
  | propagate (distance : ℝ)

/-- The element with the random numbers for one photon. Used for `marxs/optics/base.py:177-206`. -/
def ListOptic.photon (i : ℕ) : ListOptic → Optic
  | .plane m => .plane m
  | .tube m zoomz lim0 lim1 => .tube m zoomz lim0 lim1
  | .filter m f => .filter m f
  | .globalFilter f => .globalFilter f
  | .lens m focallength dOptax refl => .lens m focallength dOptax refl
  | .thin m focallength => .thin m focallength
  | .grating m transmission cat groove d blazeMod order => .grating m transmission cat groove d blazeMod (order i)
  | .mirror m rs rp => .mirror m (rs i) (rp i)
  | .scatter m inAngle perpAngle => .scatter m (inAngle i) (perpAngle i)
  | .propagate distance => .propagate distance

/-- The attributes `loc_coos_name`, `id_col`, `id_num` (`marxs/optics/base.py:78-102`, `marxs/base/base.py:223-241`), and
columns that an element writes in addition (e.g. the pixels of a detector, `marxs/optics/detector.py:72-75`, or the
scattering angles, `marxs/optics/scatter.py:74-77`). -/
structure ElemCols where
  loc : Option (String × String)
  idCol : Option String
  idNum : ℤ
  extra : List (String × (ℕ → Row → Val → Val × Val → Val))

/-- `geometry.intersect` for one row; NaN is never a hit, `marxs/math/geometry.py:233-261,465-559`. -/
noncomputable def ListOptic.rowHit (o : ListOptic) (r : Row) : Option (H4 × ℝ × ℝ) :=
  match (r "dir").toH4, (r "pos").toH4 with
  | some d, some p => match o with
    | .plane m | .filter m _ | .lens m _ _ _ | .thin m _ | .grating m _ _ _ _ _ _ | .mirror m _ _ | .scatter m _ _ =>
      planeIntersect m d p
    | .tube m zoomz lim0 lim1 => match cylIntersect m zoomz lim0 lim1 d p with
      | .ok h => h
      | .error _ => none
    | .globalFilter _ | .propagate _ => none
  | _, _ => none

/-- Keys of the dictionary returned by `specific_process_photons`: `marxs/optics/filter.py:94`,
`marxs/optics/mirror.py:74-83`, `marxs/optics/grating.py:275-277`, `marxs/optics/multiLayerMirror.py:92-94`,
`marxs/optics/scatter.py:74-77`. -/
def ListOptic.keys : ListOptic → List String
  | .filter _ _ => ["probability"]
  | .lens _ _ _ _ => ["dir", "polarization", "probability"]
  | .grating _ _ _ _ _ _ _ => ["dir", "probability", "polarization", "order", "blaze"]
  | .mirror _ _ _ => ["dir", "probability", "polarization"]
  | .scatter _ _ _ => ["dir", "polarization"]
  | _ => []

/-- The values in this dictionary for photon number `i` that comes from `p` with direction `d`, polarization `pol` and
energy `e` and hits at `q` with local coordinates `(y, z)`. Lines as for `keys`; the calculation is the one in
`Model/Optics` and `Model/Grating`. Used for `marxs/optics/base.py:177-206`. -/
noncomputable def ListOptic.outs (o : ListOptic) (i : ℕ) (d p : H4) (pol : Option H4) (e : ℝ) (q : H4) (y z : ℝ) :
    Except Err (String → Val) :=
  match o with
  | .filter _ f => match filterValue f e with
    | .error x => .error x
    | .ok v => .ok fun _ => .num (some v)
  | .lens m focallength dOptax refl =>
    let out := fun pol => perfectLens m focallength dOptax refl d pol q e
    .ok fun n => if n = "dir" then vecCell ((out ⟨0, 0, 0, 0⟩).map LensOut.dir)
      else if n = "polarization" then vecCell ((pol.bind out).bind LensOut.pol)
      else .num ((out ⟨0, 0, 0, 0⟩).map LensOut.prob)
  | .grating m transmission cat groove per blazeMod order =>
    let g := planeGrating m transmission cat groove per blazeMod (order i)
    let out := g.diffract d ⟨0, 0, 0, 0⟩ e (y, z)
    .ok fun n => if n = "dir" then vecCell out.dir
      else if n = "polarization" then vecCell (pol.bind fun pol => (g.process d pol e (y, z)).2)
      else if n = "probability" then .num (some out.prob)
      else if n = "order" then .num (some (out.m : ℝ))
      else .num out.blaze
  | .mirror m rs rp =>
    let dir := if d.dot d = 0 then none else some (mirrorDir m d.unit)
    match pol with
    | none => .ok fun n => if n = "dir" then vecCell dir else if n = "probability" then .num none else vecCell none
    | some pol => match brewster m (rs i) (rp i) d pol with
      | .error x => .error x
      | .ok none => .ok fun n => if n = "dir" then vecCell dir else if n = "probability" then .num none else vecCell none
      | .ok (some out) => .ok fun n => if n = "dir" then vecCell (some out.dir)
        else if n = "probability" then .num (some out.prob) else vecCell out.pol
  | .scatter m inAngle perpAngle =>
    let out := fun pol => radialScatter m d p pol (inAngle i) (perpAngle i)
    .ok fun n => if n = "dir" then vecCell ((out ⟨0, 0, 0, 0⟩).map Prod.fst) else vecCell ((pol.bind out).bind Prod.snd)
  | _ => .ok fun _ => .num none

/-- The same from the cells of the row. Used for `marxs/optics/base.py:177-206`. -/
noncomputable def ListOptic.rowOuts (o : ListOptic) (i : ℕ) (r : Row) (ip : Val) (ic : Val × Val) : Except Err (String → Val) :=
  match (r "dir").toH4, (r "pos").toH4, (r "energy").real?, ip.toH4, ic.1.real?, ic.2.real? with
  | some d, some p, some e, some q, some y, some z => o.outs i d p (r "polarization").toH4 e q y z
  | _, _, _, _, _, _ => .ok fun _ => .num none

/-- `ThinLens.process_photon`, `marxs/optics/mirror.py:125-144`: direction, position, energy, polarization, probability. -/
noncomputable def thinOuts (m : M4) (focallength : ℝ) (r : Row) : Except Err (List Val) :=
  match (r "dir").toH4, (ListOptic.thin m focallength).rowHit r with
  | some d, some (q, _, _) =>
    .ok [vecCell ((thinLens m focallength d ⟨0, 0, 0, 0⟩ q).map Prod.fst), vecCell (some q), r "energy",
      vecCell (((r "polarization").toH4.bind fun pol => thinLens m focallength d pol q).map Prod.snd), .num (some 1)]
  | _, _ => .ok [vecCell none, vecCell none, r "energy", vecCell none, .num (some 1)]

/-- The elements that have a place as optical elements, `marxs/optics/base.py:142-215`. -/
noncomputable def ListOptic.elem (o : ListOptic) (c : ElemCols) : Elem where
  idCol := c.idCol
  idNum := c.idNum
  locCoos := c.loc
  outputColumns := []
  action := match o with
    | .thin m focallength => .each (thinOuts m focallength)
    | _ => .vector fun t mask ip ic =>
      match (sel mask (t.rows.zipIdx.zip (ip.zip ic))).mapM fun x => o.rowOuts x.1.2 x.1.1 x.2.1 x.2.2 with
      | .error e => .error e
      | .ok vs => .ok (o.keys.map (fun n => (some n, .arr (vs.map (· n)))) ++
          c.extra.map fun x => (some x.1, .arr ((sel mask (t.rows.zipIdx.zip (ip.zip ic))).map fun w => x.2 w.1.2 w.1.1 w.2.1 w.2.2)))
  geom := fun t =>
    (t.rows.map fun r => (o.rowHit r).isSome, t.rows.map fun r => vecCell ((o.rowHit r).map (·.1)),
     t.rows.map fun r => (.num ((o.rowHit r).map (·.2.1)), .num ((o.rowHit r).map (·.2.2))))

/-- Calling an element: `OpticalElement.__call__`, `marxs/optics/base.py:144-147`, for a `CircularDetector` with the checks in
`Cylinder.intersect`, `marxs/math/geometry.py:491-492`; `GlobalEnergyFilter.__call__`, `marxs/optics/filter.py:48-53`;
`Propagator.__call__`, `marxs/simulator/simulator.py:639-641`. -/
noncomputable def ListOptic.call (o : ListOptic) (c : ElemCols) (t : Table) : Except Err Table :=
  match o with
  | .globalFilter f => Marxs.globalFilter (fun l => .arr (l.map fun v => .num (v.real?.map f))) t
  | .propagate distance => propagateTab distance t
  | .tube m _ _ _ =>
    if "dir" ∉ t.names ∨ "pos" ∉ t.names then .error .keyError
    else if ∃ r ∈ t.rows, ¬ dirColOk r then .error .valueError
    else if m.det = 0 then .error .valueError
    else (o.elem c).call t
  | _ => if "dir" ∉ t.names ∨ "pos" ∉ t.names then .error .keyError else (o.elem c).call t

/-- A `Sequence` of elements, `marxs/simulator/simulator.py:205-224`. -/
noncomputable def runList : List (ListOptic × ElemCols) → Table → Except Err Table
  | [], t => .ok t
  | o :: os, t => match o.1.call o.2 t with
    | .error e => .error e
    | .ok t' => runList os t'

end Marxs
