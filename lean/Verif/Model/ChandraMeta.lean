import Verif.Model.Chandra
import Verif.Model.FitsHeader

/-!
# Header keywords of Chandra simulations

Models `Chandra.process_photons` (`marxs/missions/chandra/chandra_global.py`) and `ACIS.process_photons`
(`marxs/missions/chandra/det_acis.py`). What the elements do to the header is an argument.
-/

namespace Marxs
open Classical

/-- `Chandra.process_photons`, `marxs/missions/chandra/chandra_global.py:14-17`: `inner` is `Sequence.process_photons`. -/
def chandraProcess (inner : FHdr → Except Err FHdr) (h : FHdr) : Except Err FHdr :=
  inner ((h.set "MISSION" (.pair (.str "AXAF") "Mission")).set "TELESCOP" (.pair (.str "CHANDRA") "Telescope"))

/-- `'ACIS-' + ''.join([str(i) for i in self.chips])`, `marxs/missions/chandra/det_acis.py:157`. -/
def detnam (chips : List ℤ) : String := "ACIS-" ++ String.join (chips.map fun i => toString i)

/-- `ACIS.process_photons`, `marxs/missions/chandra/det_acis.py:152-159`: `inner` is `Parallel.process_photons`. -/
noncomputable def acisProcess (inner : FHdr → Except Err FHdr) (aimpoint detoffset : V3) (chips : List ℤ) (h : FHdr) : Except Err FHdr :=
  match inner h with
  | .error e => .error e
  | .ok h1 => .ok (((((h1.set "SIM_X" (.num (aimpoint.x - detoffset.x))).set "SIM_Y" (.num (aimpoint.y - detoffset.y))).set "SIM_Z"
      (.num (aimpoint.z - detoffset.z))).set "DETNAM" (.str (detnam chips))).set "INSTRUME" (.pair (.str "ACIS") "Instrument"))

end Marxs
