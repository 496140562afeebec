import Verif.Model.Calculated
import Verif.Model.Ogip

/-!
# The camera of Arcus

Models `DetCamera` in `marxs/missions/arcus/arcus.py`.

Simplifications: floats are reals; CCDs are represented by the keywords that are handed to their class.
-/

namespace Marxs
open Matrix Classical

/-- `xyz2zxy`, `marxs/math/utils.py:4-8`. -/
def xyz2zxy : M4 := !![0, 1, 0, 0; 0, 0, 1, 0; 1, 0, 0, 0; 0, 0, 0, 1]

/-- The entries of `conf` that are used by `DetCamera`, `marxs/missions/arcus/arcus.py:361-380`: `rowland_detector`, `d`,
`phi_det_start`, `n_CCDs`, and in `det_kwargs` the zoom (half width and half height of a CCD) and the size of the pixels. -/
structure CamConf where
  torus : Torus
  d : ℝ
  phiStart : ℝ
  nCCDs : ℕ
  halfWidth : ℝ
  halfHeight : ℝ
  pixsize : ℝ

/-- Dimensions of Arcus, `marxs/missions/arcus/arcus.py:40-46, 51-52, 59-68`: `double_rowland_from_channel_distance` and the
change of coordinates of all tori. -/
noncomputable def arcusCamConf (d_BF R f phiStart halfWidth halfHeight pixsize : ℝ) : CamConf :=
  let g := doubleRowland d_BF R f
  ⟨⟨g.detector.R, g.detector.r, xyz2zxy * g.detector.pos4d⟩, g.d, phiStart, 16, halfWidth, halfHeight, pixsize⟩

/-- `d_fsupport`, `d_ccd` and `gaps`, `marxs/missions/arcus/arcus.py:350-354, 366-368`. -/
noncomputable def camGaps : List ℝ :=
  let dSupport : ℝ := 4
  let dCcd : ℝ := 2.15
  [0, dCcd, dSupport, dCcd, dCcd, dSupport, dCcd, dCcd]

/-- `np.cumsum`, used in `marxs/missions/arcus/arcus.py:369`. -/
def cumsumR (acc : ℝ) : List ℝ → List ℝ
  | [] => []
  | x :: l => (acc + x) :: cumsumR (acc + x) l

/-- `theta1`, `marxs/missions/arcus/arcus.py:369`. -/
noncomputable def camTheta1 (c : CamConf) : List ℝ :=
  List.zipWith (fun (i : ℕ) g => (c.phiStart + c.halfWidth / c.torus.r) + i * 2 * c.halfWidth / c.torus.r + g / c.torus.r)
    (List.range 8) (cumsumR 0 camGaps)

/-- `theta`, `marxs/missions/arcus/arcus.py:363, 370-374`, with `offset = [-5, 5]`, `marxs/missions/arcus/arcus.py:356`. -/
noncomputable def camTheta (c : CamConf) : List ℝ :=
  let phiM := Real.arcsin (c.d / c.torus.r) + Real.pi
  (sortReal ((camTheta1 c).map (fun t => phiM - t - (-5) / c.torus.r) ++
    (camTheta1 c).map (fun t => phiM + 5 / c.torus.r + t))).reverse

/-- `rowland.normal` as `normal_spec`, `marxs/missions/arcus/arcus.py:378`. Rows with NaN stop the model (the code goes on with NaN
matrices). -/
noncomputable def torusOutward (t : Torus) (pts : List H4) : Except Err (List H4) :=
  match torusNormal t pts with
  | .error e => .error e
  | .ok l => (l.mapM (m := Option) id).elim (.error .valueError) .ok

/-- `elem_pos` of the camera, `marxs/missions/arcus/arcus.py:375-379`. -/
noncomputable def camPos (c : CamConf) : Except Err (List (Option M4)) :=
  let side := mul4 c.torus.pos4d ⟨0, 1, 0, 0⟩
  calculateElempos ((camTheta c).map fun th => parametric c.torus th 0) (.callable (torusOutward c.torus))
    (.arr [side.x, side.y, side.z, side.w])

/-- The keyword `orientation` of the CCDs, `marxs/missions/arcus/arcus.py:64-66`. -/
def ccdOrient : M3 := !![-1, 0, 0; 0, -1, 0; 0, 0, 1]

/-- `DetCamera.__init__`, `marxs/missions/arcus/arcus.py:361-387` (without the colours). -/
noncomputable def detCamera (c : CamConf) (name : String) : Except Err (List GenElem) :=
  match camPos c with
  | .error e => .error e
  | .ok l => match l.mapM (m := Option) id with
    | none => .error .valueError
    | some ps =>
      match generateElements decompose44 ⟨1, 1, ps, List.replicate ps.length 1,
          [("pixsize", .num c.pixsize), ("zoom", .list [.num 1, .num c.halfWidth, .num c.halfHeight]),
           ("orientation", .mat3 ccdOrient), ("id_col", .str "CCD")], 1, name⟩ with
      | .error e => .error e
      | .ok es => if es.length = c.nCCDs then .ok es else .error .assertionError

end Marxs
