import Verif.Model.Table
import Mathlib.LinearAlgebra.Matrix.NonsingularInverse
import Mathlib.Data.Matrix.Mul
import Mathlib.LinearAlgebra.Matrix.Notation
import Mathlib.Data.Real.Sqrt

/-!
# Placement of elements: affine 4x4 matrices, `Parallel`, local coordinates, propagation

Models `marxs/math/utils.py` (affine helpers), `marxs/base/base.py:_parse_position_keywords`,
`marxs/simulator/simulator.py` (`Parallel`, `Propagator`) and
`marxs/optics/base.py:photonlocalcoords`.
-/

namespace Marxs

open Matrix Classical

/-- 4x4 matrix (homogeneous coordinates). Used for `marxs/math/utils.py:87-104`. -/
abbrev M4 := Matrix (Fin 4) (Fin 4) ℝ
/-- 3x3 matrix. Used for `marxs/math/utils.py:131-146`. -/
abbrev M3 := Matrix (Fin 3) (Fin 3) ℝ
/-- Vector in homogeneous coordinates. Used for `marxs/simulator/simulator.py:639-641`. -/
abbrev V4 := Fin 4 → ℝ

/-- `translation2aff`, `marxs/math/utils.py:87-104` (the length check is in the type). -/
def translation2aff (v : Fin 3 → ℝ) : M4 :=
  !![1, 0, 0, v 0; 0, 1, 0, v 1; 0, 0, 1, v 2; 0, 0, 0, 1]

/-- `zoom2aff` for a 3-element zoom, `marxs/math/utils.py:107-128`. -/
def zoom2aff (z : Fin 3 → ℝ) : M4 :=
  !![z 0, 0, 0, 0; 0, z 1, 0, 0; 0, 0, z 2, 0; 0, 0, 0, 1]

/-- `mat2aff`, `marxs/math/utils.py:131-146`. -/
def mat2aff (m : M3) : M4 :=
  !![m 0 0, m 0 1, m 0 2, 0; m 1 0, m 1 1, m 1 2, 0; m 2 0, m 2 1, m 2 2, 0; 0, 0, 0, 1]

/-- `transforms3d.affines.compose(T, R, Z)`, an external function called in
`marxs/base/base.py:330`: upper left block `R·diag(Z)`, last column `T`. -/
def compose (t : Fin 3 → ℝ) (r : M3) (z : Fin 3 → ℝ) : M4 :=
  !![r 0 0 * z 0, r 0 1 * z 1, r 0 2 * z 2, t 0;
     r 1 0 * z 0, r 1 1 * z 1, r 1 2 * z 2, t 1;
     r 2 0 * z 0, r 2 1 * z 1, r 2 2 * z 2, t 2;
     0, 0, 0, 1]

/-- Result of `decompose44`: translation, rotation, zooms, shears. Used for `marxs/simulator/simulator.py:413-419`. -/
structure Decomp where
  t : Fin 3 → ℝ
  r : M3
  z : Fin 3 → ℝ
  s : Fin 3 → ℝ

/-- dot product of two columns. Used for `marxs/simulator/simulator.py:413-419`. -/
def dotf (a b : Fin 3 → ℝ) : ℝ := a 0 * b 0 + a 1 * b 1 + a 2 * b 2

/-- `transforms3d.affines.decompose44`, external function called in
`marxs/simulator/simulator.py:413-419` (Gram-Schmidt on the columns; written down from the
documentation of that package, it is not part of `/repo`). -/
noncomputable def decompose44 (a : M4) : Decomp :=
  let m0 : Fin 3 → ℝ := fun i => a i.castSucc 0
  let m1 : Fin 3 → ℝ := fun i => a i.castSucc 1
  let m2 : Fin 3 → ℝ := fun i => a i.castSucc 2
  let sx := Real.sqrt (dotf m0 m0)
  let n0 : Fin 3 → ℝ := fun i => m0 i / sx
  let sxsxy := dotf n0 m1
  let m1' : Fin 3 → ℝ := fun i => m1 i - sxsxy * n0 i
  let sy := Real.sqrt (dotf m1' m1')
  let n1 : Fin 3 → ℝ := fun i => m1' i / sy
  let sxsxz := dotf n0 m2
  let sysyz := dotf n1 m2
  let m2' : Fin 3 → ℝ := fun i => m2 i - (sxsxz * n0 i + sysyz * n1 i)
  let sz := Real.sqrt (dotf m2' m2')
  let n2 : Fin 3 → ℝ := fun i => m2' i / sz
  let rmat : M3 := !![n0 0, n1 0, n2 0; n0 1, n1 1, n2 1; n0 2, n1 2, n2 2]
  let t : Fin 3 → ℝ := fun i => a i.castSucc 3
  if rmat.det < 0 then
    ⟨t, !![-n0 0, n1 0, n2 0; -n0 1, n1 1, n2 1; -n0 2, n1 2, n2 2], ![-sx, sy, sz],
      ![sxsxy / sx, sxsxz / sx, sysyz / sy]⟩
  else ⟨t, rmat, ![sx, sy, sz], ![sxsxy / sx, sxsxz / sx, sysyz / sy]⟩

/-- Value of a keyword argument. `list` is a Python list, `vec` a numpy array. Used for `marxs/base/base.py:292-336`. -/
inductive PyVal where
  | num (x : ℝ)
  | vec (l : List ℝ)
  | list (l : List PyVal)
  | mat3 (m : M3)
  | mat4 (m : M4)
  | str (s : String)
  | obj (n : ℕ)

/-- Keyword dictionary; later duplicates never occur, lookup takes the first. Used for `marxs/base/base.py:292-336`. -/
abbrev Kwargs := List (String × PyVal)

/-- `kwargs[k]` if present. Used for `marxs/base/base.py:292-336`. -/
def Kwargs.get? (kw : Kwargs) (k : String) : Option PyVal := (kw.find? (·.1 == k)).map (·.2)

/-- Remove a key (`kwargs.pop`). Used for `marxs/base/base.py:292-336`. -/
def Kwargs.pop (kw : Kwargs) (k : String) : Kwargs := kw.filter (fun e => e.1 != k)

/-- A Python list of numbers. Used for `marxs/base/base.py:321-325`. -/
def listNums : List PyVal → Option (List ℝ)
  | [] => some []
  | .num x :: l => (listNums l).map (x :: ·)
  | _ :: _ => none

/-- Zoom as list of numbers, scalars repeated three times, `marxs/base/base.py:321-325`. -/
def zoomOf : Option PyVal → Except Err (List ℝ)
  | none => .ok [1, 1, 1]
  | some (.num x) => .ok [x, x, x]
  | some (.vec l) => .ok l
  | some (.list l) => match listNums l with
    | some l => .ok l
    | none => .error .typeError
  | some _ => .error .typeError

/-- Position as vector, default origin, `marxs/base/base.py:319`. A wrong length is only noticed in
`compose` (ValueError). -/
def positionOf : Option PyVal → Except Err (Fin 3 → ℝ)
  | none => .ok ![0, 0, 0]
  | some (.vec [x, y, z]) => .ok ![x, y, z]
  | some (.list l) => match listNums l with
    | some [x, y, z] => .ok ![x, y, z]
    | _ => .error .valueError
  | some _ => .error .valueError

/-- Orientation, default identity, `marxs/base/base.py:320`. -/
def orientationOf : Option PyVal → Except Err M3
  | none => .ok 1
  | some (.mat3 m) => .ok m
  | some _ => .error .valueError

/-- `_parse_position_keywords`, `marxs/base/base.py:292-336`: the matrix and the remaining
keywords. The checks of zoom come before `compose` looks at shape of position and orientation. -/
noncomputable def parsePosition (kw : Kwargs) : Except Err (M4 × Kwargs) :=
  match kw.get? "pos4d" with
  | none =>
    match zoomOf (kw.get? "zoom") with
    | .error e => .error e
    | .ok zl =>
      match zl with
      | [z0, z1, z2] =>
        if z0 ≤ 0 ∨ z1 ≤ 0 ∨ z2 ≤ 0 then .error .valueError
        else match positionOf (kw.get? "position"), orientationOf (kw.get? "orientation") with
          | .ok p, .ok o =>
            let m := compose p o ![z0, z1, z2]
            if m.det = 0 then .error .valueError
            else .ok (m, (((kw.pop "pos4d").pop "position").pop "orientation").pop "zoom")
          | .error e, _ => .error e
          | _, .error e => .error e
      | _ => .error .valueError
  | some (.mat4 m) =>
    if (kw.get? "position").isSome ∨ (kw.get? "orientation").isSome ∨ (kw.get? "zoom").isSome then
      .error .valueError
    else if m.det = 0 then .error .valueError
    else .ok (m, kw.pop "pos4d")
  | some _ => .error .valueError

/-- Attributes of a `Parallel` container used by `generate_elements`,
`marxs/simulator/simulator.py:321-359`. -/
structure Par where
  pos4d : M4
  uncertainty : M4
  elemPos : List M4
  elemUncertainty : List M4
  elemArgs : Kwargs
  idNumOffset : ℤ
  name : String

/-- Keywords handed to `elem_class`. Used for `marxs/simulator/simulator.py:397-440`. -/
structure GenElem where
  pos4d : M4
  idNum : ℤ
  args : Kwargs

/-- Arguments for element `i` of `n`, `marxs/simulator/simulator.py:398-407`. -/
def specificArgs (n i : ℕ) (args : Kwargs) : Kwargs :=
  args.map fun (k, v) => match v with
    | .list l => if l.length = n then (k, (l[i]?).getD (.list l)) else (k, .list l)
    | v => (k, v)

/-- Default name, `marxs/simulator/simulator.py:408-409`. -/
def addName (i : ℕ) (name : String) (args : Kwargs) : Kwargs :=
  if (args.get? "name").isSome then args
  else args ++ [("name", .str ("Elem " ++ toString i ++ " in " ++ name))]

/-- Product of the placement matrices, `marxs/simulator/simulator.py:422-438`: `reversed` list,
each multiplied from the left. -/
def placeElem (pos4d unc : M4) (dsig de da : Decomp) : M4 :=
  ([pos4d, unc, translation2aff dsig.t, translation2aff de.t, translation2aff da.t,
    mat2aff dsig.r, mat2aff de.r, mat2aff da.r,
    zoom2aff dsig.z, zoom2aff de.z, zoom2aff da.z].reverse).foldl (fun f m => m * f) 1

/-- Body of the loop in `generate_elements`, `marxs/simulator/simulator.py:397-440`, for one
element. `dec` is `decompose44`. Simplification: `np.allclose(shear, 0)` is `shear = 0`. -/
noncomputable def genOne (dec : M4 → Decomp) (c : Par) (i : ℕ) : Except Err GenElem :=
  match parsePosition (addName i c.name (specificArgs c.elemPos.length i c.elemArgs)) with
  | .error e => .error e
  | .ok (m, args) =>
    if (dec m).s ≠ 0 then .error .valueError
    else match c.elemPos[i]?, c.elemUncertainty[i]? with
      | some p, some u =>
        if (dec u).s ≠ 0 then .error .setupError
        else .ok ⟨placeElem c.pos4d c.uncertainty (dec u) (dec p) (dec m), c.idNumOffset + i, args⟩
      | _, _ => .error .indexError

/-- `generate_elements`, `marxs/simulator/simulator.py:384-440`, from element `i` on. -/
noncomputable def genFrom (dec : M4 → Decomp) (c : Par) : ℕ → ℕ → Except Err (List GenElem)
  | _, 0 => .ok []
  | i, n + 1 =>
    match genOne dec c i with
    | .error e => .error e
    | .ok e => match genFrom dec c (i + 1) n with
      | .error e => .error e
      | .ok es => .ok (e :: es)

/-- `generate_elements`. Used for `marxs/missions/arcus/arcus.py:361-387`. -/
noncomputable def generateElements (dec : M4 → Decomp) (c : Par) : Except Err (List GenElem) :=
  genFrom dec c 0 c.elemPos.length

/-- `move_center`, `marxs/simulator/simulator.py:361-382`. A singular matrix raises
`LinAlgError` (modelled as `valueError`). -/
noncomputable def moveCenter (c : Par) (m : M4) : Except Err Par :=
  if m.det = 0 then .error .valueError
  else .ok { c with pos4d := m * c.pos4d, elemPos := c.elemPos.map (fun p => m⁻¹ * p) }

/-- A photon with position, direction and all its other columns. Used for `marxs/simulator/simulator.py:639-641`. -/
structure Photon (α : Type) where
  pos : V4
  dir : V4
  rest : α

/-- `propagate` and `Propagator.__call__`, `marxs/simulator/simulator.py:639-641, 666-667`. -/
def propagate {α : Type} (d : ℝ) (ps : List (Photon α)) : List (Photon α) :=
  ps.map fun p => { p with pos := p.pos + d • p.dir }

/-- Apply a matrix to position and direction of all photons
(`photons[n] = np.einsum('...ij,...j', m, photons[n])`, `marxs/optics/base.py:309-310`). -/
def applyMat {α : Type} (m : M4) (ps : List (Photon α)) : List (Photon α) :=
  ps.map fun p => { p with pos := m *ᵥ p.pos, dir := m *ᵥ p.dir }

/-- `photonlocalcoords`, `marxs/optics/base.py:284-316`: decorator around the method `f`.
`np.linalg.inv` of a singular matrix raises `LinAlgError` (modelled as `valueError`). -/
noncomputable def photonLocalCoords {α : Type} (pos4d : M4)
    (f : List (Photon α) → Except Err (List (Photon α))) (ps : List (Photon α)) :
    Except Err (List (Photon α)) :=
  if pos4d.det = 0 then .error .valueError
  else match f (applyMat pos4d⁻¹ ps) with
    | .error e => .error e
    | .ok qs => .ok (applyMat pos4d qs)

end Marxs
