import Verif.Model.Placement
import Mathlib.Data.Finset.Sort

/-!
# Gratings placed from a mechanical model

Models `CATfromMechanical` and `CATWindow` in `marxs/missions/arcus/ralfgrating.py`.

Simplifications: floats are reals; the table is an argument (the code reads a file); gratings are represented by the
keywords that are handed to the class of the gratings.
-/

namespace Marxs
open Matrix Classical

/-- One row of the table of facets, columns used in `marxs/missions/arcus/ralfgrating.py:32-92`. -/
structure Facet where
  facetNum : ℤ
  spoNum : ℤ
  period : ℝ
  xsize : ℝ
  ysize : ℝ
  trans : Fin 3 → ℝ
  norm : Fin 3 → ℝ
  disp : Fin 3 → ℝ
  bar : Fin 3 → ℝ

/-- Matrix with the three vectors as columns, `rot[:, i, :].T`, `marxs/missions/arcus/ralfgrating.py:44-46`. -/
def Facet.rot (f : Facet) : M3 :=
  !![f.norm 0, f.disp 0, f.bar 0; f.norm 1, f.disp 1, f.bar 1; f.norm 2, f.disp 2, f.bar 2]

/-- `pos4d` for one row, `marxs/missions/arcus/ralfgrating.py:42-48`. -/
noncomputable def Facet.pos4d (f : Facet) : M4 := compose f.trans f.rot ![1, f.xsize / 2, f.ysize / 2]

/-- `mirr`, `marxs/missions/arcus/ralfgrating.py:50-56`. -/
def mirrMat (channel : String) : M4 :=
  !![if 'm' ∈ channel.toList then 1 else -1, 0, 0, 0; 0, if '2' ∈ channel.toList then -1 else 1, 0, 0; 0, 0, 1, 0; 0, 0, 0, 1]

/-- The unit matrix with the mean of the last columns as last column, `marxs/missions/arcus/ralfgrating.py:63-64, 77-78`. -/
noncomputable def meanPos (ms : List M4) : M4 := fun i j =>
  if j = 3 then (ms.map fun m => m i 3).sum / ms.length else if i = j then 1 else 0

/-- What `CATfromMechanical.__init__` calculates for one window, `marxs/missions/arcus/ralfgrating.py:74-86`. -/
structure WindowSpec where
  pos : M4
  idStart : ℤ
  gratPos : List M4
  periods : List ℝ

/-- The body of the loop over windows, `marxs/missions/arcus/ralfgrating.py:74-86`; `rows` has the rows and
the positions relative to the centre of the petal. There is at least one row for each window. -/
noncomputable def windowSpec (idOffset : ℤ) (rows : List (Facet × M4)) (num : ℤ) : WindowSpec :=
  let ind := rows.filter fun r => r.1.spoNum == num
  let winpos := meanPos (ind.map Prod.snd)
  { pos := winpos
    idStart := idOffset + ((ind.map fun r => r.1.facetNum).head?).getD 0
    gratPos := ind.map fun r => winpos⁻¹ * r.2
    periods := ind.map fun r => r.1.period }

/-- `sorted(set(...))`, `marxs/missions/arcus/ralfgrating.py:74`. -/
noncomputable def sortedSet (l : List ℤ) : List ℤ := l.toFinset.sort (· ≤ ·)

/-- The keywords and attributes of the outer container, `marxs/missions/arcus/ralfgrating.py:37-99`. The list of dictionaries
`elem_args` is represented by numbers. An empty table has no mean column (`IndexError`), a
matrix without inverse is refused (`marxs/base/base.py:331-335`). -/
noncomputable def mechPar (channel : String) (idOffset : ℤ) (p : M4) (name : String) (rows : List Facet) :
    Except Err (Par × List WindowSpec) :=
  if rows = [] then .error .indexError
  else
    let pos := rows.map fun f => mirrMat channel * f.pos4d
    let centerpos := meanPos pos
    if (centerpos * p).det = 0 then .error .valueError else
    let ws := (sortedSet (rows.map Facet.spoNum)).map
      (windowSpec idOffset (rows.zip (pos.map (centerpos⁻¹ * ·))))
    .ok (⟨centerpos * p, 1, ws.map (·.pos), List.replicate ws.length 1,
      [("elem_args", .list ((List.range ws.length).map .obj)),
       ("elem_pos", .list (ws.map fun w => .list (w.gratPos.map .mat4))),
       ("id_num_offset", .list (ws.map fun w => .num w.idStart)),
       ("id_col", .str "window")], idOffset, name⟩, ws)

/-- A list of matrices. Used for `marxs/missions/arcus/ralfgrating.py:111-114`. -/
def listMats : List PyVal → Option (List M4)
  | [] => some []
  | .mat4 x :: l => (listMats l).map (x :: ·)
  | _ :: _ => none

/-- The container that `CATWindow.__init__` makes from the keywords of element `e` of the outer container,
`marxs/missions/arcus/ralfgrating.py:111-114`, `marxs/simulator/simulator.py:321-359`; `ds` are the lists of periods in the dictionaries
in `elem_args`, `orderSelector` the object in `conf`. Keywords that cannot occur are a `TypeError`. The id numbers are whole numbers. -/
noncomputable def catWindow (ds : List (List ℝ)) (orderSelector : ℕ) (e : GenElem) : Except Err Par :=
  match e.args.get? "elem_args", e.args.get? "elem_pos", e.args.get? "id_num_offset", e.args.get? "name" with
  | some (.obj k), some (.list ps), some (.num off), some (.str name) =>
    match ds[k]?, listMats ps with
    | some d, some ps => if e.pos4d.det = 0 then .error .valueError else .ok ⟨e.pos4d, 1, ps, List.replicate ps.length 1,
        [("d", .list (d.map .num)), ("order_selector", .obj orderSelector), ("id_col", .str "facet")], ⌊off⌋, name⟩
    | _, _ => .error .typeError
  | _, _, _, _ => .error .typeError

/-- All gratings, window by window: `generate_elements`, `marxs/missions/arcus/ralfgrating.py:101-104` (windows call it
when they are made, calling it again gives the same). -/
noncomputable def catFromMechanical (channel : String) (idOffset : ℤ) (p : M4) (name : String) (orderSelector : ℕ)
    (rows : List Facet) : Except Err (List (List GenElem)) :=
  match mechPar channel idOffset p name rows with
  | .error e => .error e
  | .ok (par, ws) =>
    match generateElements decompose44 par with
    | .error e => .error e
    | .ok es => es.mapM fun e =>
      match catWindow (ws.map (·.periods)) orderSelector e with
      | .error e => .error e
      | .ok c => generateElements decompose44 c

end Marxs
