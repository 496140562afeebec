import Verif.Model.Lsf
import Verif.Model.Missions
import Verif.Model.Analysis

/-!
# Zero order of Arcus: redistribution matrix and filters

Models `mkrmf0` and `FiltersQE` (`marxs/missions/arcus/arfrmf.py`) and `FiltersAndQE`
(`marxs/missions/arcus/arcus.py`).

Simplifications: numbers carry no units, energies are in keV and the widths in the table in eV, as the docstring
of `mkrmf0` says. Header keywords other than `TLMIN` are left out. The calibration files are an argument.
-/

namespace Marxs

open Classical

/-- One pass of the loop in `mkrmf0`, `marxs/missions/arcus/arfrmf.py:270-279`, for the bin `[lo, hi]`: `cdf` as in
`evalLsf` is the integral of Sherpa's normalised Gaussian. `np.interp` with an empty table is a `ValueError`, and so
is setting a width that is not positive (Sherpa's `ParameterErr`). -/
noncomputable def mkrmf0Row (cdf : LsfKind → ℝ → ℝ → ℝ → ℝ) (ccdfwhm : List (ℝ × ℝ)) (threshold : ℝ)
    (eMin eMax : List ℝ) (lo hi : ℝ) : Except Err RmfRow :=
  let miden := 1 / 2 * (lo + hi)
  match interp miden (ccdfwhm.map fun r => (r.1, r.2 / 1000)) with
  | none => .error .valueError
  | some fwhm =>
    if fwhm ≤ 0 then .error .valueError
    else
      let fullmatrix := List.zipWith (fun a b => cdf .gauss fwhm miden b - cdf .gauss fwhm miden a) eMin eMax
      match arrToRmfRow fullmatrix 0 threshold with
      | .error e => .error e
      | .ok g => .ok ⟨lo, hi, g.nGrp, .arr g.fChan, .arr g.nChan, g.matrix⟩

/-- `mkrmf0(bin_edges, ccdfwhm, threshold)`, `marxs/missions/arcus/arfrmf.py:232-280`; `conv` converts the edges to
keV, `ccdfwhm` has rows with energy (keV) and full width at half maximum (eV). -/
noncomputable def mkrmf0 (cdf : LsfKind → ℝ → ℝ → ℝ → ℝ) (conv : ℝ → ℝ) (edges : List ℝ)
    (ccdfwhm : List (ℝ × ℝ)) (threshold : ℝ) : Except Err RMF :=
  let eb := eboundsFromEdges conv edges
  match (List.zip eb.2.1 eb.2.2).mapM (fun p => mkrmf0Row cdf ccdfwhm threshold eb.2.1 eb.2.2 p.1 p.2) with
  | .error e => .error e
  | .ok rows => .ok ⟨rows, some 0, eb.2.1, eb.2.2⟩

/-- `FiltersAndQE.filterlist`, `marxs/missions/arcus/arcus.py:294-298`. -/
def filterList : List (String × String) :=
  [("filters", "sifilter"), ("filters", "opticalblocking"), ("filters", "uvblocking"),
   ("detectors", "contam"), ("detectors", "qe")]

/-- The function made by `interp1d` in `FiltersAndQE.get_filter`, `marxs/missions/arcus/arcus.py:300-305`: scipy
sorts the table; outside of the table it is a `ValueError` by default (`none`) or a fixed value
(`bounds_error=False, fill_value=v`). -/
noncomputable def filterCurve (fill : Option ℝ) (tab : List (ℝ × ℝ)) (x : ℝ) : Except Err ℝ :=
  match fill with
  | none => interp1d (sortWave tab) x
  | some v =>
    match (sortWave tab).head?, (sortWave tab).getLast? with
    | some a, some b => if x < a.1 ∨ b.1 < x then .ok v else interp1d (sortWave tab) x
    | _, _ => .error .valueError

/-- The loop of `Sequence.process_photons` over the elements of `FiltersAndQE`, `marxs/missions/arcus/arcus.py:307-310`
and `marxs/optics/filter.py:48-53`, for the columns `energy` and `probability`. -/
noncomputable def filtersRun (fill : Option ℝ) (energies : List ℝ) :
    List (List (ℝ × ℝ)) → List ℝ → Except Err (List ℝ)
  | [], probs => .ok probs
  | tab :: tabs, probs =>
    match energies.mapM (filterCurve fill tab) with
    | .error e => .error e
    | .ok ps =>
      if ∃ p ∈ ps, p < 0 ∨ 1 < p then .error .valueError
      else filtersRun fill energies tabs (List.zipWith (· * ·) probs ps)

/-- `FiltersAndQE(kwargs_interp1d=...)(photons)`, `marxs/missions/arcus/arcus.py:280-310`; `load` is
`load_table(directory, name)` with the energies in keV. -/
noncomputable def filtersAndQe (load : String → String → List (ℝ × ℝ)) (fill : Option ℝ)
    (energies probs : List ℝ) : Except Err (List ℝ) :=
  filtersRun fill energies (filterList.map fun n => load n.1 n.2) probs

/-- `FiltersQE(kwargs_interp1d={'bounds_error': False, 'fill_value': 0.})(en_mid)`,
`marxs/missions/arcus/arfrmf.py:106-112,192-195`. -/
noncomputable def filtersQe (load : String → String → List (ℝ × ℝ)) (enMid : List ℝ) : Except Err (List ℝ) :=
  filtersAndQe load (some 0) enMid (enMid.map fun _ => 1)

end Marxs
