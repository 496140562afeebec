import Mathlib.Data.Real.Basic
import Mathlib.Data.List.Sort
import Mathlib.Data.List.Dedup
import Verif.Model.MathUtils
import Verif.Model.Vec
import Verif.Model.Table

/-!
# Analysis: `marxs/analysis/gratings.py`, `marxs/analysis/analysis.py`, `marxs/utils.py`
-/

namespace Marxs

open Classical

/-- The columns of a photon list that the analysis functions read: order, probability, dispersion
coordinate (`none` for NaN or masked values) and the column that `CaptureResAeff_CCDgaps` filters on. Used for `marxs/analysis/gratings.py:333-363`. -/
structure DetEvent where
  order : ℤ
  prob : ℝ
  coord : Option ℝ
  ccd : ℝ

/-- `effectivearea_from_photonlist`, `marxs/analysis/gratings.py:333-363`; `n` is `n_photons`. For
`n = 0` numpy gives NaN or infinity, the theorems ask for `n > 0`. -/
noncomputable def effectiveArea (photons : List DetEvent) (orders : List ℤ) (n area : ℝ) : List ℝ :=
  orders.map (fun o => ((photons.filter (fun p => p.order == o)).map DetEvent.prob).sum / n * area)

/-- `detected_fraction`, `marxs/analysis/analysis.py:84-111`. -/
noncomputable def detectedFraction (photons : List DetEvent) (labels : List ℤ) : List ℝ :=
  labels.map (fun o => ((photons.filter (fun p => p.order == o)).map DetEvent.prob).sum / (photons.length : ℝ))

/-- `np.ma.average` of values with weights, masked values (`none`) are left out; `none` (masked) if the
weights of all other values add up to zero. Used for `marxs/analysis/gratings.py:181-212`. -/
noncomputable def maAverage (l : List (Option ℝ × ℝ)) : Option ℝ :=
  let valid := l.filterMap (fun p => p.1.map (fun v => (v, p.2)))
  let scl := (valid.map (fun p => p.2)).sum
  if scl = 0 then none else some ((valid.map (fun p => p.1 * p.2)).sum / scl)

/-- `average_R_Aeff` for one-dimensional input, `marxs/analysis/gratings.py:181-212`: pairs of resolving
power (`none` for NaN) and effective area. The result has the resolving power first, as in the code; the
docstring lists the effective area first. -/
noncomputable def averageRAeff (l : List (Option ℝ × ℝ)) : Option ℝ × ℝ :=
  (maAverage l, (l.map (fun p => p.2)).sum)

/-- `np.interp(x, xp, fp)` for increasing `xp`; `none`: `ValueError` for empty input. Used for `marxs/analysis/gratings.py:169-176`. -/
noncomputable def interp (x : ℝ) : List (ℝ × ℝ) → Option ℝ
  | [] => none
  | [p] => some p.2
  | p :: q :: l =>
    if x ≤ p.1 then some p.2
    else if x < q.1 then some ((q.2 - p.2) / (q.1 - p.1) * (x - p.1) + p.2)
    else interp x (q :: l)

/-- Weights of `weighted_per_order` for one energy, `marxs/analysis/gratings.py:169-176`. The efficiency
table is given by its energies, its orders and its columns (one list of probabilities per order). -/
noncomputable def orderWeights (geOrders : List ℤ) (geEnergy : List ℝ) (geProb : List (List ℝ)) (e : ℝ) :
    List ℤ → Except Err (List ℝ)
  | [] => .ok []
  | o :: l =>
    match ((geOrders.zip geProb).filter (fun p => p.1 == o)) with
    | [p] => match interp e ((geEnergy.zip p.2).insertionSort (fun a b => a.1 ≤ b.1)) with
      | none => .error .valueError
      | some w => match orderWeights geOrders geEnergy geProb e l with
        | .error err => .error err
        | .ok ws => .ok (w :: ws)
    | _ => .error .keyError

/-- `weighted_per_order`, `marxs/analysis/gratings.py:133-178`: `data` has one row per order. -/
noncomputable def weightedPerOrder (data : List (List ℝ)) (orders : List ℤ) (energy : List ℝ)
    (geOrders : List ℤ) (geEnergy : List ℝ) (geProb : List (List ℝ)) : Except Err (List (Option ℝ)) :=
  if orders.length ≠ data.length then .error .valueError
  else if ¬ ∀ row ∈ data, row.length = energy.length then .error .valueError
  else
    let rec loop : List (ℕ × ℝ) → Except Err (List (Option ℝ))
      | [] => .ok []
      | (j, e) :: l => match orderWeights geOrders geEnergy geProb e orders with
        | .error err => .error err
        | .ok ws => match loop l with
          | .error err => .error err
          | .ok r => .ok (maAverage ((data.map (fun row => some (row.getD j 0))).zip ws) :: r)
    loop ((List.range energy.length).zip energy)

/-- `resolvingpower_from_photonlist`, `marxs/analysis/gratings.py:248-271`; only photons with a
coordinate are in the list. `stats` stands for `sigma_clipped_stats` (mean and standard deviation).
Result: for each order resolving power, mean and standard deviation. Simplification: a standard
deviation of zero gives no resolving power (`none`) instead of infinity. `AnalysisError` is
`Err.assertionError` here. -/
noncomputable def resolvingPower (stats : List ℝ → ℝ × ℝ) (photons : List (ℤ × ℝ)) (orders : List ℤ)
    (zeropos : Option ℝ) : Except Err (List (Option ℝ × Option ℝ × Option ℝ)) :=
  let sel := fun o : ℤ => (photons.filter (fun p => p.1 == o)).map (fun p => p.2)
  match zeropos with
  | none =>
    if (sel 0).length < 20 then .error .assertionError
    else .ok (orders.map (fun o => one (sel o) (stats (sel 0)).1))
  | some z => .ok (orders.map (fun o => one (sel o) z))
where
  /-- one pass of the loop over orders, `marxs/analysis/gratings.py:259-270` -/
  one (x : List ℝ) (z : ℝ) : Option ℝ × Option ℝ × Option ℝ :=
    if 20 < x.length then
      let (mean, std) := stats x
      (if std = 0 then none else some (|mean - z| / (std * 2.3548)), some mean, some std)
    else (none, none, none)

/-- `np.argmin` of a column of the matrix with NaN (`none`): the first NaN wins, otherwise the first
smallest number. Used for `marxs/analysis/gratings.py:328-330`. -/
noncomputable def nanArgmin : List (Option ℝ) → ℕ
  | [] => 0
  | [_] => 0
  | none :: _ => 0
  | some a :: b :: l =>
    match (b :: l).getD (nanArgmin (b :: l)) none with
    | none => nanArgmin (b :: l) + 1
    | some v => if a ≤ v then 0 else nanArgmin (b :: l) + 1

/-- Selection in `resolvingpower_from_photonlist_robust` for one order,
`marxs/analysis/gratings.py:328-330`: one triple (resolving power, mean, standard deviation) for each
coordinate column. -/
noncomputable def robustSelect (l : List (Option ℝ × Option ℝ × Option ℝ)) :
    Option (Option ℝ × Option ℝ × Option ℝ) :=
  l[nanArgmin (l.map (fun p => p.1))]?

/-- `CaptureResAeff.res_filter`, `marxs/analysis/gratings.py:455-460`, and selection of order and
coordinate of what is left. -/
noncomputable def resFilter (photons : List DetEvent) : List (ℤ × ℝ) :=
  photons.filterMap (fun p => if 0 < p.prob then p.coord.map (fun c => (p.order, c)) else none)

/-- Result of a `CaptureResAeff` object. Used for `marxs/analysis/gratings.py:462-501`. -/
structure ResAeff where
  Aeff0 : ℝ
  Aeffgrat : ℝ
  Aeff : List ℝ
  Rgrat : Option ℝ
  R : List (Option ℝ)

/-- `CaptureResAeff.__call__`, `marxs/analysis/gratings.py:462-501`. `filter` is `aeff_filter`,
`none` for `n_photons` uses the length of the photon list. -/
noncomputable def captureResAeff (stats : List ℝ → ℝ × ℝ) (orders : List ℤ) (area : ℝ) (zeropos : Option ℝ)
    (filter : DetEvent → Bool) (photons : List DetEvent) (n : Option ℝ) : ResAeff :=
  let n := n.getD photons.length
  let aeff := effectiveArea (photons.filter filter) orders n area
  let res := match resolvingPower stats (resFilter photons) orders zeropos with
    | .ok l => l.map (fun p => p.1)
    | .error _ => orders.map (fun _ => none)
  let rows := orders.zip (res.zip aeff)
  let disp := (rows.filter (fun p => p.1 != 0)).map (fun p => p.2)
  let (avg, grat) := averageRAeff disp
  ⟨((rows.filter (fun p => !(p.1 != 0))).map (fun p => p.2.2)).sum, grat, aeff, avg, res⟩

/-- `CaptureResAeff.aeff_filter`, `marxs/analysis/gratings.py:436-453`. -/
def aeffFilterAll (_ : DetEvent) : Bool := true

/-- `CaptureResAeff_CCDgaps.aeff_filter`, `marxs/analysis/gratings.py:538-554`. -/
noncomputable def aeffFilterCCD (p : DetEvent) : Bool := decide (0 ≤ p.ccd)

/-- `np.isclose(a, b, atol=t)`. Used for `marxs/analysis/gratings.py:366-386`. -/
def iscloseAtol (a b t : ℝ) : Prop := |a - b| ≤ t + 1 / 10 ^ 5 * |b|

/-- `identify_photon_in_subaperture`, `marxs/analysis/gratings.py:366-386`. -/
noncomputable def inSubaperture (angle maxAng ang0 : ℝ) : Prop :=
  iscloseAtol (pymod angle (2 * Real.pi)) ang0 maxAng ∨
    iscloseAtol (pymod angle (2 * Real.pi)) (2 * Real.pi - ang0) maxAng

/-- `a.reshape(n_x, n_y)`. Used for `marxs/utils.py:59-100`. -/
def reshape (nx ny : ℕ) (l : List ℝ) : List (List ℝ) :=
  (List.range nx).map (fun i => (l.drop (i * ny)).take ny)

/-- Are all rows of the array close to their first element? `marxs/utils.py:91`. -/
def rowsConstant (a : List (List ℝ)) : Prop := ∀ row ∈ a, ∀ v ∈ row, isclose v (row.getD 0 0)

/-- Are all rows of the array close to the first row? `marxs/utils.py:92`. -/
def rowsEqual (ny : ℕ) (a : List (List ℝ)) : Prop :=
  ∀ row ∈ a, ∀ j < ny, isclose (row.getD j 0) ((a.getD 0 []).getD j 0)

/-- `tablerows_to_2d`, `marxs/utils.py:59-100`, for a table with columns `x`, `y` and data columns `cols`
(all of the same length). An empty table raises an `IndexError` at `x_arr[:, 0]`. -/
noncomputable def tablerowsTo2d (x y : List ℝ) (cols : List (List ℝ)) :
    Except Err (List ℝ × List ℝ × List (List (List ℝ))) :=
  let nx := x.dedup.length
  let ny := y.dedup.length
  if x.length ≠ nx * ny then .error .valueError
  else if ny = 0 then .error .indexError
  else
    let xArr := reshape nx ny x
    let yArr := reshape nx ny y
    if ¬ (rowsConstant xArr ∧ rowsEqual ny yArr) then .error .valueError
    else .ok ((List.range nx).map (fun i => x.getD (i * ny) 0), y.take ny, cols.map (reshape nx ny))

end Marxs
