import Verif.Model.Rowland
import Verif.Model.Optics

/-!
# Containers that calculate the positions of their elements

Models `ParallelCalculated` in `marxs/simulator/simulator.py`, `ElementsOnTorus.__init__` in
`marxs/design/rowland.py`, `Cylinder.from_rowland` in `marxs/math/geometry.py` and
`marxs/analysis/coords.py`.
-/

namespace Marxs

open Classical

/-- Value of `normal_spec` or `parallel_spec`, `marxs/simulator/simulator.py:468-488`: a function (called
with the arguments `α`) or an array. -/
inductive DirSpec (α : Type) where
  | callable (f : α → Except Err (List H4))
  | arr (l : List ℝ)

/-- `ParallelCalculated.get_spec`, `marxs/simulator/simulator.py:527-541`. -/
noncomputable def getSpec {α : Type} (spec : DirSpec α) (xyzw : List H4) (arg : α) :
    Except Err (List H4) :=
  match spec with
  | .callable f => f arg
  | .arr [x, y, z, w] =>
    if w = 0 then .ok (List.replicate xyzw.length ⟨x, y, z, w⟩)
    else match h2e xyzw, h2e [⟨x, y, z, w⟩] with
      | .ok ps, .ok [q] => e2h (ps.map fun p => p - q) 1
      | .error e, _ => .error e
      | _, .error e => .error e
      | _, _ => .error .valueError
  | .arr _ => .error .valueError

/-- Body of the loop in `ParallelCalculated.calculate_elempos`,
`marxs/simulator/simulator.py:516-518`. `none`: a matrix with NaN. -/
noncomputable def calcOne (p n s : H4) : Except Err (Option M4) :=
  match h2e [n], h2e [s] with
  | .ok [n], .ok [s] =>
    match ex2vecFix n s with
    | .error e => .error e
    | .ok rot =>
      match h2e [p] with
      | .ok [p] => .ok (rot.map fun r => compose ![p.x, p.y, p.z] r ![1, 1, 1])
      | .ok _ => .error .valueError
      | .error e => .error e
  | .error e, _ => .error e
  | _, .error e => .error e
  | _, _ => .error .valueError

/-- Loop in `ParallelCalculated.calculate_elempos`, `marxs/simulator/simulator.py:516-519`: over all
positions; too few normals or parallels are an `IndexError`. -/
noncomputable def calcLoop : List H4 → List H4 → List H4 → Except Err (List (Option M4))
  | [], _, _ => .ok []
  | p :: ps, n :: ns, s :: ss =>
    match calcOne p n s with
    | .error e => .error e
    | .ok m => match calcLoop ps ns ss with
      | .error e => .error e
      | .ok ms => .ok (m :: ms)
  | _ :: _, _, _ => .error .indexError

/-- `ParallelCalculated.calculate_elempos`, `marxs/simulator/simulator.py:496-519`; `xyzw` is the result of
`get_elemxyzw` (`marxs/simulator/simulator.py:521-525`). -/
noncomputable def calculateElempos (xyzw : List H4) (normal : DirSpec (List H4))
    (parallel : DirSpec (List H4 × List H4)) : Except Err (List (Option M4)) :=
  match getSpec normal xyzw xyzw with
  | .error e => .error e
  | .ok ns => match getSpec parallel xyzw (xyzw, ns) with
    | .error e => .error e
    | .ok ss => calcLoop xyzw ns ss

/-- Negated normals, the default `normal_spec` of `ElementsOnTorus`, `marxs/design/rowland.py:597-598`.
Rows with NaN stop the model (the code goes on with NaN matrices). -/
noncomputable def torusInward (t : Torus) (pts : List H4) : Except Err (List H4) :=
  match torusNormal t pts with
  | .error e => .error e
  | .ok l => (l.mapM (m := Option) id).elim (.error .valueError)
      (fun ns => .ok (ns.map fun n => ⟨-n.x, -n.y, -n.z, -n.w⟩))

/-- `elem_pos` of an `ElementsOnTorus` with default `guess_distance`, `optimize_axis`, `normal_spec` and
`parallel_spec`, `marxs/design/rowland.py:586-604, 623-645`; `yz` is the result of `elemposyz`. -/
noncomputable def elementsOnTorus (root : RootFinder) (t : Torus) (yz : List (ℝ × ℝ)) :
    Except Err (List (Option M4)) :=
  let axis := mul4 t.pos4d ⟨1, 0, 0, 0⟩
  let side := mul4 t.pos4d ⟨0, 1, 0, 0⟩
  match elemposTorus root t (t.r + t.R) axis yz with
  | .error e => .error e
  | .ok xyzw => calculateElempos xyzw (.callable (torusInward t)) (.arr [side.x, side.y, side.z, side.w])

/-! ## Cylinders on the Rowland circle -/

/-- `pos4d` of the cylinder from `Cylinder.from_rowland(rowland, width, rotation)`,
`marxs/math/geometry.py:428-463`. -/
noncomputable def cylinderFromRowland (t : Torus) (width rotation : ℝ) : M4 :=
  t.pos4d * compose ![t.R, 0, 0] (rotMat ⟨0, 0, 1⟩ rotation) ![t.r, t.r, width]

/-- `Cylinder.__getitem__('R')`, `marxs/math/geometry.py:421-426`. -/
noncomputable def cylinderR (m : M4) : ℝ := (decompose44 m).z 0

/-! ## Positions seen in a plane -/

/-- A `ProjectOntoPlane`, `marxs/analysis/coords.py:12-49`: its placement and the names of its output columns. -/
structure ProjPlane where
  pos4d : M4
  names : String × String

/-- `ProjectOntoPlane.__call__`, `marxs/analysis/coords.py:45-49`: the new columns for the positions `pos`. -/
noncomputable def projectOnto (pl : ProjPlane) (pos : List H4) :
    Except Err ((String × List ℝ) × (String × List ℝ)) :=
  match h2e [center pl.pos4d], h2e pos, h2e [eY pl.pos4d], h2e [eZ pl.pos4d] with
  | .ok [c], .ok ps, .ok [ey], .ok [ez] =>
    let vec := ps.map fun p => -c + p
    .ok ((pl.names.1, vec.map fun v => v.dot ey), (pl.names.2, vec.map fun v => v.dot ez))
  | _, .error e, _, _ => .error e
  | _, _, _, _ => .error .valueError

/-- A row of the table from `facet_table`. Used for `marxs/analysis/coords.py:52-89`. -/
structure FacetRow where
  projx : ℝ
  projy : ℝ
  ang : ℝ
  rad : ℝ
  facet : ℤ
  xyz : V3

/-- `facet_table(container, project_plane)`, `marxs/analysis/coords.py:52-89`: `elem_pos` and the elements of the
container. Returns the table and the plane, whose output columns are renamed in place. No elements or a number of
elements different from the number of positions raise `ValueError`. -/
noncomputable def facetTable (elemPos : List M4) (elements : List GenElem) (pl : ProjPlane) :
    Except Err (List FacetRow × ProjPlane) :=
  let pl' : ProjPlane := { pl with names := ("facet_projx", "facet_projy") }
  if elemPos = [] then .error .valueError
  else match h2e (elemPos.map center), projectOnto pl' (elemPos.map center) with
    | .ok pos, .ok ((_, xs), (_, ys)) =>
      if elements.length ≠ elemPos.length then .error .valueError
      else .ok (List.zipWith (fun (p : V3 × GenElem) (xy : ℝ × ℝ) =>
        ⟨xy.1, xy.2, arctan2 xy.2 xy.1, Real.sqrt (xy.2 ^ 2 + xy.1 ^ 2), p.2.idNum, p.1⟩)
          (pos.zip elements) (xs.zip ys), pl')
    | .error e, _ => .error e
    | _, .error e => .error e

end Marxs
