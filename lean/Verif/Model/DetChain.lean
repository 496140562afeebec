import Verif.Model.Calculated
import Verif.Model.CatStack
import Verif.Model.SkySource
import Verif.Model.Boom
import Verif.Model.ArcusCamera
import Verif.Model.TgResolve

/-!
# Detectors behind each other

Models the end of the telescopes, where photons are recorded by one detector after the other: `FlatDetector`, `CircularDetector` (`marxs/optics/detector.py`),
`ProjectOntoPlane` (`marxs/analysis/coords.py`), `Propagator` (`marxs/simulator/simulator.py`) on photon tables, and the lists of detectors made by `add_detectors`
in `marxs/missions/AXIS/AXIS.py`, `marxs/missions/lynx/lynx.py`, `marxs/missions/athena/athecat.py`, `marxs/missions/arcus/arcus.py`.
-/

namespace Marxs
open Classical

/-- The geometry of a detector: `FinitePlane` or `Cylinder` with its limits for `phi`. Used for `marxs/math/geometry.py:233-261`. -/
inductive DetSurface where
  | plane (m : M4)
  | cyl (m : M4) (lim0 lim1 : ℝ)

/-- `geometry.intersect` for one photon, `marxs/math/geometry.py:233-261` and `465-559`: position and local coordinates. -/
noncomputable def DetSurface.hit : DetSurface → H4 → H4 → Option (H4 × ℝ × ℝ)
  | .plane m, d, p => planeIntersect m d p
  | .cyl m l0 l1, d, p =>
    match cylIntersect m ((decompose44 m).z 2) l0 l1 d p with
    | .ok r => r
    | .error _ => none

/-- A `FlatDetector` or `CircularDetector`: geometry, size of pixels, id and names of columns for local coordinates and pixels,
`marxs/optics/detector.py:47-51, 98-100`. -/
structure Det where
  surf : DetSurface
  pixsize : ℝ
  idCol : Option String
  idNum : ℤ
  loc : String × String
  pix : String × String

/-- Pixel coordinates for local coordinates `x`, `y`: `FlatDetector.specific_process_photons`, `marxs/optics/detector.py:72-75`, and
`CircularDetector.specific_process_photons`, `marxs/optics/detector.py:114-117`. -/
noncomputable def Det.pixel (e : Det) (x y : ℝ) : ℝ × ℝ :=
  match e.surf with
  | .plane m => (detpix ((decompose44 m).z 1) e.pixsize x, detpix ((decompose44 m).z 2) e.pixsize y)
  | .cyl m _ _ => circDetpix (cylinderR m) e.pixsize x y

/-- Intersection for one row of the table; NaN is never a hit. Used for `marxs/optics/detector.py:63-76`. -/
noncomputable def Det.rowHit (e : Det) (r : Row) : Option (H4 × ℝ × ℝ) :=
  match (r "dir").toH4, (r "pos").toH4 with
  | some d, some p => e.surf.hit d p
  | _, _ => none

/-- Pixel coordinates for a row of `intercoos`. Used for `marxs/optics/detector.py:63-76`. -/
noncomputable def Det.pixCells (e : Det) (c : Val × Val) : Val × Val :=
  match c.1.real?, c.2.real? with
  | some x, some y => (.num (some (e.pixel x y).1), .num (some (e.pixel x y).2))
  | _, _ => (.num none, .num none)

/-- A detector as optical element, `marxs/optics/detector.py:72-75, 114-117`. -/
noncomputable def Det.elem (e : Det) : Elem where
  idCol := e.idCol
  idNum := e.idNum
  locCoos := some e.loc
  outputColumns := []
  action := .vector fun _ mask _ ic =>
    .ok [(some e.pix.1, .arr ((sel mask ic).map fun c => (e.pixCells c).1)), (some e.pix.2, .arr ((sel mask ic).map fun c => (e.pixCells c).2))]
  geom := fun t =>
    (t.rows.map fun r => (e.rowHit r).isSome, t.rows.map fun r => vecCell ((e.rowHit r).map (·.1)),
     t.rows.map fun r => (.num ((e.rowHit r).map (·.2.1)), .num ((e.rowHit r).map (·.2.2))))

/-- Calling a detector, `OpticalElement.__call__`, `marxs/optics/base.py:144-147`, with the checks in `Cylinder.intersect`,
`marxs/math/geometry.py:491-492`. -/
noncomputable def Det.call (e : Det) (t : Table) : Except Err Table :=
  if "dir" ∉ t.names ∨ "pos" ∉ t.names then .error .keyError
  else match e.surf with
    | .plane _ => e.elem.call t
    | .cyl m _ _ =>
      if ∃ r ∈ t.rows, ¬ dirColOk r then .error .valueError
      else if m.det = 0 then .error .valueError
      else e.elem.call t

/-- `x + s * y` for two cells with vectors; NaN in one component stays in this component. Used for `marxs/simulator/simulator.py:639-641`. -/
def Val.axpy (s : ℝ) : Val → Val → Val
  | .vec a, .vec b => .vec (List.zipWith (fun x y => match x, y with
      | some x, some y => some (x + s * y)
      | _, _ => none) a b)
  | v, _ => v

/-- `Propagator.__call__`, `marxs/simulator/simulator.py:639-641`. -/
noncomputable def propagateTab (s : ℝ) (t : Table) : Except Err Table :=
  if "dir" ∉ t.names ∨ "pos" ∉ t.names then .error .keyError
  else t.setVals "pos" (t.rows.map fun r => Val.axpy s (r "pos") (r "dir"))

/-- One row of `ProjectOntoPlane.__call__`, `marxs/analysis/coords.py:45-49`. Positions are points (last coordinate 1). -/
noncomputable def projCells (m : M4) (pos : Val) : Val × Val :=
  match pos.toH4 with
  | some p => (.num (some ((-(center m).xyz + p.xyz).dot (eY m).xyz)), .num (some ((-(center m).xyz + p.xyz).dot (eZ m).xyz)))
  | none => (.num none, .num none)

/-- `ProjectOntoPlane.__call__`, `marxs/analysis/coords.py:45-49`. -/
noncomputable def projectTab (pl : ProjPlane) (t : Table) : Except Err Table :=
  if "pos" ∉ t.names then .error .keyError
  else do
    let t1 ← t.setVals pl.names.1 (t.rows.map fun r => (projCells pl.pos4d (r "pos")).1)
    t1.setVals pl.names.2 (t.rows.map fun r => (projCells pl.pos4d (r "pos")).2)

/-- What stands at the end of a telescope, `marxs/missions/AXIS/AXIS.py:172-188`, `marxs/missions/lynx/lynx.py:163-183`,
`marxs/missions/athena/athecat.py:181-198`, `marxs/missions/arcus/arcus.py:422-451`. -/
inductive Recorder where
  | det (e : Det)
  | project (pl : ProjPlane)
  | propagate (s : ℝ)

/-- Calling one of them. Used for `marxs/simulator/simulator.py:42-49`. -/
noncomputable def Recorder.call : Recorder → Table → Except Err Table
  | .det e, t => e.call t
  | .project pl, t => projectTab pl t
  | .propagate s, t => propagateTab s t

/-- The loop in `BaseContainer.__call__`, `marxs/simulator/simulator.py:42-49`. Detectors in a `Parallel` container are called one after the other in the same way. -/
noncomputable def recordAll : List Recorder → Table → Except Err Table
  | [], t => .ok t
  | x :: xs, t =>
    match x.call t with
    | .error e => .error e
    | .ok t' => recordAll xs t'

/-! ## Detectors of the missions -/

/-- `flatdet` with its names, `marxs/missions/AXIS/AXIS.py:142-145`, `marxs/missions/lynx/lynx.py:149-152`, `marxs/missions/athena/athecat.py:167-170`; `m` is its `pos4d`. -/
noncomputable def flatdet (m : M4) : Det := ⟨.plane m, 1, none, -9, ("detinf_x", "detinf_y"), ("detinfpix_x", "detinfpix_y")⟩

/-- `detcirc`, `marxs/missions/AXIS/AXIS.py:134-139`, `marxs/missions/lynx/lynx.py:142-147`, `marxs/missions/athena/athecat.py:160-165`. -/
noncomputable def detcirc (t : Torus) : Det :=
  ⟨.cyl (cylinderFromRowland t 50 Real.pi) (-Real.pi / 2) (Real.pi / 2), 1, none, -9, ("detcirc_phi", "detcirc_y"), ("detcircpix_x", "detcircpix_y")⟩

/-- `pos4d` of `FlatDetector(zoom=[1, a, a])`, used in `marxs/missions/AXIS/AXIS.py:127,142` and `marxs/missions/lynx/lynx.py:149,170`. -/
noncomputable def yzPlane (a : ℝ) : M4 := compose 0 1 ![1, a, a]

/-- The first three rows and columns of `xyz2zxy`, used as `orientation` in `marxs/missions/athena/athecat.py:167,172` and `marxs/missions/arcus/arcus.py:398`. -/
def zxyOrient : M3 := !![0, 1, 0; 0, 0, 1; 1, 0, 0]

/-- `pos4d` of `FlatDetector(orientation=xyz2zxy[:3, :3], zoom=[h, a, a])`, `marxs/missions/athena/athecat.py:167,172`, `marxs/missions/arcus/arcus.py:394-399`. -/
noncomputable def xyPlane (h a : ℝ) : M4 := compose 0 zxyOrient ![h, a, a]

/-- `imaging`, `marxs/missions/AXIS/AXIS.py:127-130`: both pairs of names are the same. -/
noncomputable def axisImaging : Det := ⟨.plane (yzPlane 15), 0.008, none, -9, ("imaging_x", "imaging_y"), ("imaging_x", "imaging_y")⟩

/-- `PerfectAXIS.add_detectors`, `marxs/missions/AXIS/AXIS.py:172-188`; `ccds` are the detectors in `RowlandDetArray`. -/
noncomputable def axisDetectors (ccds : List Det) (t : Torus) : List Recorder :=
  ccds.map .det ++ [.det axisImaging, .project ⟨compose 0 1 1, ("proj_x", "proj_y")⟩, .propagate (-1000), .det (detcirc t),
    .project ⟨compose 0 1 1, ("projcirc_y", "projcirc_z")⟩, .propagate (-1000), .det (flatdet (yzPlane 100000))]

/-- `microcal`, `marxs/missions/lynx/lynx.py:170-172`. -/
noncomputable def lynxMicrocal : Det := ⟨.plane (yzPlane 50), 1, none, -9, ("microcal_x", "microcal_y"), ("microcalpix_x", "microcalpix_y")⟩

/-- `PerfectLynx.add_detectors`, `marxs/missions/lynx/lynx.py:163-183`. -/
noncomputable def lynxDetectors (ccds : List Det) (t : Torus) : List Recorder :=
  ccds.map .det ++ [.project ⟨compose 0 1 1, ("proj_x", "proj_y")⟩, .propagate (-1000), .det (detcirc t),
    .project ⟨compose 0 1 1, ("projcirc_y", "projcirc_z")⟩, .propagate (-1000), .det (flatdet (yzPlane 100000)), .propagate (-1000), .det lynxMicrocal]

/-- `zero`, `marxs/missions/athena/athecat.py:172-175`: both pairs of names are the same. -/
noncomputable def athenaZero : Det := ⟨.plane (xyPlane 1 15), 0.008, none, -9, ("zero_x", "zero_y"), ("zero_x", "zero_y")⟩

/-- `PerfectAthecat.add_detectors`, `marxs/missions/athena/athecat.py:181-198`. -/
noncomputable def athenaDetectors (ccds : List Det) (t : Torus) : List Recorder :=
  ccds.map .det ++ [.project ⟨compose 0 zxyOrient 1, ("proj_x", "proj_y")⟩, .propagate (-1000), .det (detcirc t),
    .project ⟨compose 0 zxyOrient 1, ("projcirc_y", "projcirc_z")⟩, .propagate (-1000), .det (flatdet (xyPlane 1 100000)), .propagate (-1000),
    .det athenaZero]

/-- `circdet`, `marxs/missions/arcus/arcus.py:434-443`. -/
noncomputable def arcusCirc (r d : ℝ) : Det :=
  ⟨.cyl (arcusCircDet r d) (-Real.pi) Real.pi, 1, none, -9, ("circ_phi", "circ_y"), ("circpix_x", "circpix_y")⟩

/-- `FocalPlaneDet()`, `marxs/missions/arcus/arcus.py:390-399`. -/
noncomputable def arcusDetfp : Det := ⟨.plane (xyPlane 0.2 10000), 1, none, -9, ("detfp_x", "detfp_y"), ("detfppix_x", "detfppix_y")⟩

/-- A CCD of the camera of Arcus with the keywords from `detCamera`; names of columns are those of `FlatDetector`, `marxs/optics/detector.py:47-51`. -/
noncomputable def arcusCcd (px : ℝ) (e : GenElem) : Det := ⟨.plane e.pos4d, px, some "CCD", e.idNum, ("det_x", "det_y"), ("detpix_x", "detpix_y")⟩

/-- `PerfectArcus.add_detectors`, `marxs/missions/arcus/arcus.py:422-451`. -/
noncomputable def arcusDetectors (ccds : List Det) (r d : ℝ) : List Recorder :=
  [.det (arcusCirc r d), .project ⟨compose 0 zxyOrient 1, ("projcirc_x", "projcirc_y")⟩, .propagate (-100)] ++ ccds.map .det ++
    [.project ⟨compose 0 zxyOrient 1, ("proj_x", "proj_y")⟩, .det arcusDetfp]

end Marxs
