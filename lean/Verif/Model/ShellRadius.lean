import Verif.Model.Geometry
import Verif.Model.Placement
import Verif.Model.Table
import Verif.Model.Ogip

/-!
# Radius of the photons from one mirror shell

Models `find_radius_of_photon_shell` in `marxs/design/rowland.py` with the detector it uses and `np.percentile`.
-/

namespace Marxs
open Classical

/-- The columns of the photon list that are used: `dir`, `pos`, `probability` (`none`: NaN), `mirror_shell`, and `det_x`, `det_y` as they are before the call (`none`: NaN, or the columns do not exist). Used for `marxs/design/rowland.py:72`. -/
structure ShellPhoton where
  dir : H4
  pos : H4
  prob : Option ℝ
  shell : ℤ
  oldDet : Option (ℝ × ℝ)

/-- `pos4d` of `mdet`, `marxs/design/rowland.py:71`. -/
noncomputable def shellDet (x : ℝ) : M4 := compose ![x, 0, 0] 1 fun _ => 100000000

/-- `det_x`, `det_y` after `p = mdet(p)`, `marxs/design/rowland.py:72`: photons that miss keep what is in the columns. -/
noncomputable def shellDetXY (x : ℝ) (p : ShellPhoton) : Option (ℝ × ℝ) :=
  match planeIntersect (shellDet x) p.dir p.pos with
  | some (_, y, z) => some (y, z)
  | none => p.oldDet

/-- `np.percentile` with linear interpolation, called in `marxs/design/rowland.py:75`. `none`: NaN. A list without entries is taken to be an error (this depends on the version of numpy). -/
noncomputable def npPercentile (l : List (Option ℝ)) (q : ℝ) : Except Err (Option ℝ) :=
  if q < 0 ∨ 100 < q then .error .valueError
  else if l = [] then .error .indexError
  else if none ∈ l then .ok none
  else
    let s := sortReal (l.filterMap id)
    let h := q / 100 * ((s.length : ℝ) - 1)
    let lo := ⌊h⌋₊
    let a := s.getD lo 0
    let b := s.getD (min (lo + 1) (s.length - 1)) 0
    .ok (some (a + (h - lo) * (b - a)))

/-- `ind`, `marxs/design/rowland.py:73`: a NaN is not larger than 0. -/
noncomputable def shellSelected (mirrorShell : ℤ) (p : ShellPhoton) : Bool :=
  match p.prob with
  | some w => decide (0 < w ∧ p.shell = mirrorShell)
  | none => false

/-- `find_radius_of_photon_shell`, `marxs/design/rowland.py:39-75`. -/
noncomputable def findRadius (photons : List ShellPhoton) (mirrorShell : ℤ) (x : ℝ) (percentile : List ℝ) : Except Err (List (Option ℝ)) :=
  let r := (photons.filter (shellSelected mirrorShell)).map fun p => (shellDetXY x p).map fun d => Real.sqrt (d.1 ^ 2 + d.2 ^ 2)
  percentile.mapM (npPercentile r)

end Marxs
