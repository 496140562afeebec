import Verif.Model.Calculated
import Verif.Model.Grating

/-!
# Arrays of gratings on a Rowland torus

Models the way in which the grating arrays of the missions place their gratings: `LynxGAS` in
`marxs/missions/lynx/lynx.py` (the arrays of AXIS and Athena are set up in the same way).
-/

namespace Marxs

open Classical

/-- `conf['blazemat']`, `marxs/missions/lynx/lynx.py:93-94`. -/
noncomputable def blazeMat (blaze : ℝ) : M3 := rotMat ⟨0, 0, 1⟩ (-blaze)

/-- The container of the gratings, `marxs/missions/lynx/lynx.py:110-123`, `marxs/simulator/simulator.py:331-359`:
zoom and orientation are the same for all gratings; the container itself is not moved (default `pos4d`) and nothing is
misaligned (default `elem_uncertainty`). Simplification: only the arguments that say where the gratings are. -/
noncomputable def gratingPar (ms : List M4) (z0 z1 z2 blaze : ℝ) : Par where
  pos4d := 1
  uncertainty := 1
  elemPos := ms
  elemUncertainty := ms.map fun _ => 1
  elemArgs := [("zoom", .vec [z0, z1, z2]), ("orientation", .mat3 (blazeMat blaze))]
  idNumOffset := 0
  name := "GAS"

/-- The gratings of an array: `ParallelCalculated.__init__`, `marxs/simulator/simulator.py:487-492`, with an array for
`normal_spec` and `parallel_spec`. Matrices with NaN stop the model. -/
noncomputable def gasElements (dec : M4 → Decomp) (xyzw : List H4) (normal parallel : List ℝ) (z0 z1 z2 blaze : ℝ) :
    Except Err (List GenElem) :=
  match calculateElempos xyzw (.arr normal) (.arr parallel) with
  | .error e => .error e
  | .ok l => match l.mapM (m := Option) id with
    | none => .error .valueError
    | some ms => generateElements dec (gratingPar ms z0 z1 z2 blaze)

/-- A flat transmission grating in one of the places, `marxs/optics/grating.py:174-231` (`FlatGrating`, `sign` is
`flatSign`; `CATGrating`, `sign` is `catSign`); grooves along the z axis of the grating (default `groove_angle`). -/
noncomputable def gasGrating (e : GenElem) (d : ℝ) (order : ℝ → H4 → Option ℝ → ℤ × ℝ) (sign : H4 → H4 → ℝ) : Grating where
  transmission := true
  groove := 0
  d := fun _ => d
  blazeMod := fun _ => 0
  order := order
  sign := sign
  bases := fun _ => planeBases e.pos4d

end Marxs
