import Verif.Model.Missions
import Verif.Model.Tolerancing
import Verif.Model.Geometry
import Verif.Model.Grating
import Verif.Model.SkySource

/-!
# Booms

Models `marxs/missions/arcus/boom.py`: the placement of the rods of `ThreeSidedBoom` and `FourSidedBoom` and
the absorption of photons by a `Rod`.

Simplifications: floats are reals; a matrix with NaN is `none`; of the attributes that can be changed with
`boom_dimensions` only the dimensions and numbers of the boom are modelled.
-/

namespace Marxs
open Classical

/-- A value in `boom_dimensions`: an `int` or a `float`, `marxs/missions/arcus/boom.py:51-54`. -/
inductive DimVal where
  | int (n : ℤ)
  | float (x : ℝ)

/-- The number as float. Used for `marxs/missions/arcus/boom.py:51-54`. -/
def DimVal.val : DimVal → ℝ
  | .int n => n
  | .float x => x

/-- Attributes of a boom, `marxs/missions/arcus/boom.py:37-48`. -/
structure BoomDims where
  lLongeron : ℝ
  lBatten : ℝ
  lDiag : ℝ
  dLongeron : ℝ
  dBatten : ℝ
  dDiag : ℝ
  startBay : DimVal
  nBays : DimVal
  nSides : DimVal

/-- The two classes. Used for `marxs/missions/arcus/boom.py:37-48`. -/
inductive BoomKind where
  | three
  | four
deriving DecidableEq

/-- Class attributes, `marxs/missions/arcus/boom.py:37-48, 116-123`. `l_diag` is calculated once, when the class is
defined. `start_bay` is inherited. -/
noncomputable def boomDefaults : BoomKind → BoomDims
  | .three => ⟨1080, 1600, Real.sqrt (1080 ^ 2 + 1600 ^ 2), 10.2, 8, 2, .int 0, .int 10, .int 3⟩
  | .four => ⟨1350.5, 1308, Real.sqrt (1350.5 ^ 2 + 1308 ^ 2), 10.2, 8.43, 1.85, .int 0, .int 8, .int 4⟩

/-- One pass through the loop over `boom_dimensions`, `marxs/missions/arcus/boom.py:52-56`. The message of the `ValueError` for an
unknown name uses `self.name`, which is only set in `MarxsElement.__init__`: an `AttributeError`. -/
def setDim (d : BoomDims) (k : String) (v : DimVal) : Except Err BoomDims :=
  if k = "l_longeron" then .ok { d with lLongeron := v.val }
  else if k = "l_batten" then .ok { d with lBatten := v.val }
  else if k = "l_diag" then .ok { d with lDiag := v.val }
  else if k = "d_longeron" then .ok { d with dLongeron := v.val }
  else if k = "d_batten" then .ok { d with dBatten := v.val }
  else if k = "d_diag" then .ok { d with dDiag := v.val }
  else if k = "start_bay" then .ok { d with startBay := v }
  else if k = "n_bays" then .ok { d with nBays := v }
  else if k = "n_sides" then .ok { d with nSides := v }
  else .error .attributeError

/-- The loop over `boom_dimensions`, `marxs/missions/arcus/boom.py:51-56`. -/
def setDims : List (String × DimVal) → BoomDims → Except Err BoomDims
  | [], d => .ok d
  | (k, v) :: l, d =>
    match setDim d k v with
    | .error e => .error e
    | .ok d => setDims l d

/-- `euler2mat(a, b, c, 'szxz')` of transforms3d (external), static axes z, x, z. Used for `marxs/missions/arcus/boom.py:61-90`. -/
noncomputable def eulerZXZ (a b c : ℝ) : M3 := euZ c * (euX b * euZ a)

/-- `euler2mat(a, b, c, 'syxz')` of transforms3d (external), static axes y, x, z. Used for `marxs/missions/arcus/boom.py:125-150`. -/
noncomputable def eulerYXZ (a b c : ℝ) : M3 := euZ c * (euX b * euY a)

/-- `ThreeSidedBoom.one_window`, `marxs/missions/arcus/boom.py:61-90`. -/
noncomputable def threeWindow (d : BoomDims) : List (Option M4) :=
  let trans : Fin 3 → ℝ := ![0, d.lBatten / 4 / Real.sqrt 3, d.lBatten / 4]
  let transDiag : Fin 3 → ℝ := ![d.lLongeron / 2, d.lBatten / 4 / Real.sqrt 3, d.lBatten / 4]
  [some (compose ![d.lLongeron / 2, d.lBatten / Real.sqrt 3, 0] 1
      ![d.lLongeron / 2, d.dLongeron / 2, d.dLongeron / 2]),
   some (compose trans (eulerZXZ (Real.pi / 2) (-Real.pi / 6) 0) ![d.lBatten / 2, d.dBatten / 2, d.dBatten / 2]),
   some (compose transDiag (eulerZXZ ((90 - 34.03) * Real.pi / 180) (-Real.pi / 6) 0)
      ![d.lDiag / 2, d.dDiag / 2, d.dDiag / 2]),
   some (compose transDiag (eulerZXZ ((90 + 34.03) * Real.pi / 180) (-Real.pi / 6) 0)
      ![d.lDiag / 2, d.dDiag / 2, d.dDiag / 2])]

/-- `np.arcsin` (external): NaN outside of -1 to 1. Used for `marxs/missions/arcus/boom.py:125-150`. -/
noncomputable def npArcsin (x : ℝ) : Option ℝ := if |x| ≤ 1 then some (Real.arcsin x) else none

/-- `FourSidedBoom.one_window`, `marxs/missions/arcus/boom.py:125-150`. A length of zero for the diagonals is not modelled. -/
noncomputable def fourWindow (d : BoomDims) : List (Option M4) :=
  let trans : Fin 3 → ℝ := ![d.lLongeron / 2, d.lBatten / 2, 0]
  let ang := npArcsin (d.lBatten / d.lDiag)
  [some (compose ![d.lLongeron / 2, d.lBatten / 2, d.lBatten / 2] 1
      ![d.lLongeron / 2, d.dLongeron / 2, d.dLongeron / 2]),
   some (compose ![0, d.lBatten / 2, 0] (eulerYXZ (Real.pi / 2) 0 0) ![d.lBatten / 2, d.dBatten / 2, d.dBatten / 2]),
   ang.map fun a => compose trans (eulerYXZ a 0 0) ![d.lDiag / 2, d.dDiag / 2, d.dDiag / 2],
   ang.map fun a => compose trans (eulerYXZ (-a) 0 0) ![d.lDiag / 2, d.dDiag / 2, d.dDiag / 2]]

/-- `one_window` of the class. Used for `marxs/missions/arcus/boom.py:92-104`. -/
noncomputable def boomWindow : BoomKind → BoomDims → List (Option M4)
  | .three => threeWindow
  | .four => fourWindow

/-- `affmat` for bay `h` and side `i` of `n`, `marxs/missions/arcus/boom.py:97-100`. -/
noncomputable def sideMat (d : BoomDims) (h : ℤ) (n : ℤ) (i : ℕ) : M4 :=
  compose ![h * d.lLongeron, 0, 0] (euler2mat ((i * 2) * Real.pi / n) 0 0) ![1, 1, 1]

/-- `pos_spec`, `marxs/missions/arcus/boom.py:92-104`: a `TypeError` in `range` for floats. -/
noncomputable def boomPos (k : BoomKind) (d : BoomDims) : Except Err (List (Option M4)) :=
  match d.startBay, d.nBays with
  | .int s, .int n =>
    if n ≤ s then .ok []
    else match d.nSides with
      | .int m =>
        .ok ((List.range (n - s).toNat).flatMap fun (h : ℕ) => (List.range m.toNat).flatMap fun (i : ℕ) =>
          (boomWindow k d).map fun p => p.map (sideMat d (s + h) m i * ·))
      | .float _ => .error .typeError
  | _, _ => .error .typeError

/-- `elem_pos` of a new boom, `marxs/missions/arcus/boom.py:50-57`. -/
noncomputable def boomInit (k : BoomKind) (dims : List (String × DimVal)) : Except Err (List (Option M4)) :=
  match setDims dims (boomDefaults k) with
  | .error e => .error e
  | .ok d => boomPos k d

/-- The `Parallel` that a boom is, `marxs/missions/arcus/boom.py:57-60` and `marxs/simulator/simulator.py:321-359`: placed
with `pos4d`, with the rods at `rods` (positions without NaN) and the default column for the number of the rod. -/
noncomputable def boomPar (pos4d : M4) (rods : List M4) (name : String) : Par where
  pos4d := pos4d
  uncertainty := 1
  elemPos := rods
  elemUncertainty := List.replicate rods.length 1
  elemArgs := [("id_col", .str "element")]
  idNumOffset := 0
  name := name

/-! ## Absorption -/

/-- Does the photon hit the rod: `Cylinder.intersect` with the default limits for `phi`,
`marxs/math/geometry.py:421-425, 465-559`; the `default_geometry` of a `Rod`, `marxs/missions/arcus/boom.py:18`. NaN is never a hit. -/
noncomputable def rodHit (m : M4) (r : Row) : Bool :=
  match (r "dir").toH4, (r "pos").toH4 with
  | some d, some p =>
    match cylIntersect m ((decompose44 m).z 2) (-Real.pi) Real.pi d p with
    | .ok (some _) => true
    | _ => false
  | _, _ => false

/-- The check that `dir` holds directions, `marxs/math/geometry.py:487-488`. -/
def dirColOk (r : Row) : Prop :=
  match r "dir" with
  | .vec [_, _, _, some w] => w = 0
  | _ => False

/-- Calling a rod: `OpticalElement.__call__`, `marxs/optics/base.py:143-146`, with the methods of `Cylinder` and `Rod`. A matrix that has
no inverse is a `LinAlgError` (here `valueError`). -/
noncomputable def rodCall (m : M4) (t : Table) : Except Err Table :=
  if "dir" ∉ t.names ∨ "pos" ∉ t.names then .error .keyError
  else if ∃ r ∈ t.rows, ¬ dirColOk r then .error .valueError
  else if m.det = 0 then .error .valueError
  else rodProcess (rodHit m) t

/-- Calling a boom: its rods one after the other, `marxs/simulator/simulator.py:42-49`. -/
noncomputable def boomCall : List M4 → Table → Except Err Table
  | [], t => .ok t
  | m :: ms, t =>
    match rodCall m t with
    | .error e => .error e
    | .ok t => boomCall ms t

end Marxs
