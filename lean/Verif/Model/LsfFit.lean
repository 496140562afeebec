import Verif.Model.Rowland
import Verif.Model.Table

/-!
# Fits of a line spread function

Models the histogram made by `fit_LSF` and the tables made by `empty_lsfparmtable` in `marxs/reduction/lsfparm.py`.
The fit itself is done by Sherpa and is not modelled.
-/

namespace Marxs
open Classical

/-- `np.histogram(values, weights=..., bins=edges)`, `marxs/reduction/lsfparm.py:406-407`, for edges in increasing order; the events are pairs of value and weight. All bins but the last one
do not contain their upper edge. -/
noncomputable def npHistogram (edges : List ℝ) (evt : List (ℝ × ℝ)) : List ℝ :=
  (List.range (edges.length - 1)).map fun i =>
    ((evt.filter fun e => decide (edges.getD i 0 ≤ e.1 ∧ (e.1 < edges.getD (i + 1) 0 ∨ (i + 2 = edges.length ∧ e.1 = edges.getD (i + 1) 0)))).map Prod.snd).sum

/-- Edges of the bins in `fit_LSF`, `marxs/reduction/lsfparm.py:407`. The mean is not weighted. The event list must not be empty (the mean would be NaN). -/
noncomputable def lsfEdges (evt : List (ℝ × ℝ)) (wavebin dWave : ℝ) : List ℝ :=
  (npArange (-dWave) dWave wavebin).map fun x => (evt.map Prod.fst).sum / evt.length + x

/-- Row of the data that is fitted, `marxs/reduction/lsfparm.py:411-412`. -/
structure LsfBin where
  lo : ℝ
  hi : ℝ
  counts : ℝ
  err : ℝ

/-- The data that is fitted in `fit_LSF`, `marxs/reduction/lsfparm.py:406-412`; events are pairs of wavelength and probability. -/
noncomputable def lsfData (evt : List (ℝ × ℝ)) (wavebin dWave : ℝ) : List LsfBin :=
  let edges := lsfEdges evt wavebin dWave
  ((edges.dropLast.zip edges.tail).zip (npHistogram edges evt)).map fun p =>
    ⟨p.1.1, p.1.2, p.2, max (Real.sqrt p.2) 1⟩

/-- Components of a Sherpa model as far as `empty_lsfparmtable` looks at them (`marxs/reduction/lsfparm.py:160-169`). -/
structure LsfComponent where
  name : String
  normGaussOrLorentz : Bool

/-- Columns of the table from `empty_lsfparmtable` (one row), `marxs/reduction/lsfparm.py:137-174`. -/
structure LsfTable where
  numWidths : ℕ
  widths : List ℝ
  numLambdas : ℕ
  lambdas : List ℝ
  lamLo : List ℝ
  lamHi : List ℝ
  parms : List String

/-- `np.max(np.diff(waves))`, `marxs/reduction/lsfparm.py:151`; `none` for fewer than two values. -/
noncomputable def maxDiff : List ℝ → Option ℝ
  | a :: b :: l => some (((b :: l).zip l).foldl (fun m p => max m (p.2 - p.1)) (b - a))
  | _ => none

/-- `empty_lsfparmtable`, `marxs/reduction/lsfparm.py:123-174`. `np.max` of an empty array is a `ValueError`. -/
noncomputable def emptyLsfTable (widths waves : List ℝ) (comps : List LsfComponent) : Except Err LsfTable :=
  match maxDiff waves with
  | none => .error .valueError
  | some m =>
    let dwave := m + 1.2
    if ¬ (comps.map LsfComponent.name).Nodup then .error .valueError
    else if ¬ ∀ c ∈ comps, c.normGaussOrLorentz then .error .valueError
    else .ok ⟨widths.length, widths, waves.length, waves, waves.map (· - dwave), waves.map (· + dwave), comps.map fun c => c.name ++ "_PARMS"⟩

end Marxs
