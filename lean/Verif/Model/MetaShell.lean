import Verif.Model.Apertures
import Verif.Model.Missions

/-!
# Metashells of the Lynx mirror

Models `MetaShellAperture` and `MetaShellEfficiency` in `marxs/missions/lynx/mirror.py`. Between the two, `MetaShellMirror` changes directions and probabilities, but not the columns `shell` and `energy`; it is not part of this model.
-/

namespace Marxs
open Classical

/-- One row of `conf['metashellgeometry']`, `marxs/missions/lynx/lynx.py:48`: serial number, inner and outer radius in mm. -/
structure MetaShellRow where
  serial : ℤ
  rInner : ℝ
  rOuter : ℝ

/-- `conf['metashelleff']`, `marxs/missions/lynx/lynx.py:50`: energies and, in the column with the serial number as name, effective area in cm². All columns of a table have the same length. -/
structure MetaShellEff where
  energy : List ℝ
  area : ℤ → Option (List ℝ)

/-- The ring-like aperture for one shell, `marxs/missions/lynx/mirror.py:16-19`. `CircularHole` has the full circle as default for `phi`. -/
noncomputable def metaShellRing (focallength : ℝ) (s : MetaShellRow) : Aperture where
  m := compose ![focallength + 200, 0, 0] 1 ![1, s.rOuter, s.rOuter]
  shape := .circle s.rInner 0 (2 * Real.pi)
  idCol := none
  idNum := s.serial
  locCoos := some ("y", "z")

/-- `MetaShellAperture.__init__`, `marxs/missions/lynx/mirror.py:13-34`: `CircleAperture` rejects an inner radius larger than the outer one, `self.elements[0]` (line 32) needs at least one shell. The `display` dictionaries are not modelled. -/
noncomputable def metaShellAperture (focallength : ℝ) (shells : List MetaShellRow) : Except Err (List Aperture) :=
  if ∃ s ∈ shells, |s.rOuter| < s.rInner then .error .valueError
  else if shells = [] then .error .indexError
  else .ok (multiInit (shells.map (metaShellRing focallength)) "shell" 0)

/-- Row number `k` of an array with `n` rows; negative numbers count from the end. Used for `marxs/missions/lynx/mirror.py:64-65`. -/
def numpyRow (n : ℕ) (k : ℤ) : Option ℕ :=
  if 0 ≤ k then (if k < n then some k.toNat else none)
  else if -(n : ℤ) ≤ k then some (n + k).toNat else none

/-- `self.relative_eff`, `marxs/missions/lynx/mirror.py:59-63`: rows in the order of the table of shells. (For a shell without area numpy gives infinity or NaN; this is not modelled.) -/
noncomputable def relativeEff (shells : List MetaShellRow) (eff : MetaShellEff) : Except Err (List (List ℝ)) := do
  let aeff ← shells.mapM fun s => match eff.area s.serial with
    | some c => Except.ok c
    | none => .error .keyError
  if aeff = [] then .error .valueError
  else .ok (List.zipWith (fun (s : MetaShellRow) c => c.map fun v => v * 100 / (Real.pi * (s.rOuter ^ 2 - s.rInner ^ 2))) shells aeff)

/-- `self.shells`, `marxs/missions/lynx/mirror.py:64-65`: serial number and table of energies and efficiencies for `interp1d`. -/
noncomputable def metaShellEfficiency (shells : List MetaShellRow) (eff : MetaShellEff) : Except Err (List (ℤ × List (ℝ × ℝ))) := do
  let rel ← relativeEff shells eff
  shells.mapM fun s => match (numpyRow rel.length (s.serial - 1)).bind (rel[·]?) with
    | some row => Except.ok (s.serial, eff.energy.zip row)
    | none => .error .indexError

/-- `photons['shell'] == i` for one photon, `marxs/missions/lynx/mirror.py:69`. -/
noncomputable def inShell (i : ℤ) : Val → Bool
  | .int n => decide (n = i)
  | .num (some x) => decide (x = i)
  | _ => false

/-- Efficiency for one photon, `marxs/missions/lynx/mirror.py:70-72`; a NaN energy gives NaN. -/
noncomputable def shellProb (tab : List (ℝ × ℝ)) : Val → Except Err Val
  | .num (some e) => do
      let p ← interp1d tab e
      .ok (.num (some (min (max p 0) 1)))
  | .int n => do
      let p ← interp1d tab n
      .ok (.num (some (min (max p 0) 1)))
  | .num none => .ok (.num none)
  | .vec _ => .error .valueError

/-- One turn of the loop, `marxs/missions/lynx/mirror.py:68-73`. -/
noncomputable def metaShellStep (t : Table) (sh : ℤ × List (ℝ × ℝ)) : Except Err Table :=
  if "shell" ∉ t.names ∨ "energy" ∉ t.names then .error .keyError
  else
    let mask := t.rows.map fun r => inShell sh.1 (r "shell")
    match (sel mask t.rows).mapM fun r => shellProb sh.2 (r "energy") with
    | .error e => .error e
    | .ok vals =>
      if "probability" ∉ t.names then .error .keyError
      else match mulMasked "probability" mask t.rows vals with
        | some rows => .ok { t with rows := rows }
        | none => .error .typeError

/-- `MetaShellEfficiency.__call__`, `marxs/missions/lynx/mirror.py:67-74`. -/
noncomputable def metaShellCall : List (ℤ × List (ℝ × ℝ)) → Table → Except Err Table
  | [], t => .ok t
  | sh :: shs, t => do
      let t1 ← metaShellStep t sh
      metaShellCall shs t1

end Marxs
