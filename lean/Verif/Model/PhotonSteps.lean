import Verif.Model.Table
import Verif.Model.Missions

/-!
# Steps of a simulation that treat photons one by one

The steps of `Verif.Model.Table` together with the functions for support structures (`catsupportbars`, rods of a boom) that are found in the sequences of the missions.
-/

namespace Marxs

/-- A step of a sequence: elements, stacks, filters, baffles (`Step`), `catsupportbars` (`marxs/missions/mitsnl/catgrating.py:315-325`), `spomounting` (`marxs/missions/athena/spo.py:141-145`) or a rod
(`marxs/missions/arcus/boom.py:20-25`). -/
inductive PhotonStep where
  | step (s : Step)
  | bars
  | mounting
  | rod (hit : Row → Bool)

/-- Calling the step. Used for `marxs/simulator/simulator.py:42-49`. -/
noncomputable def PhotonStep.call : PhotonStep → Table → Except Err Table
  | .step s, t => s.call t
  | .bars, t => catSupportBars t
  | .mounting, t => spoMounting t
  | .rod hit, t => rodProcess hit t

/-- `BaseContainer.__call__` without hooks, `marxs/simulator/simulator.py:42-49`. -/
noncomputable def runPhotonSteps : List PhotonStep → Table → Except Err Table
  | [], t => .ok t
  | s :: ss, t =>
    match s.call t with
    | .error e => .error e
    | .ok t' => runPhotonSteps ss t'

end Marxs
