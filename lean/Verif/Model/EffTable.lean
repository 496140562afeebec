import Verif.Model.Analysis
import Verif.Model.Random
import Mathlib.Analysis.SpecialFunctions.Trigonometric.Basic

/-!
# Grating efficiencies from a table

Models `InterpolateEfficiencyTable` in `marxs/missions/mitsnl/catgrating.py`, for the default degree `k=1` of the spline. `hc` is the constant in the conversion of energy in keV to wavelength in nm.
-/

namespace Marxs
open Classical

/-- `RectBivariateSpline(x, y, z, kx=1, ky=1)`, checks of scipy: strictly increasing coordinates, at least two points per direction. Used for `marxs/missions/mitsnl/catgrating.py:96-102`. -/
noncomputable def splineCheck (X Y : List ℝ) : Except Err Unit :=
  if ¬ X.Pairwise (· < ·) then .error .valueError
  else if ¬ Y.Pairwise (· < ·) then .error .valueError
  else if X.length < 2 ∨ Y.length < 2 then .error .valueError
  else .ok ()

/-- `RectBivariateSpline(...).ev(x, y)` for degree 1 without smoothing: the bilinear spline through the data. Arguments outside of the grid are moved to its edge (FITPACK). `none`: data and grid do not match. Used for `marxs/missions/mitsnl/catgrating.py:104-135`. -/
noncomputable def bilinear (X Y : List ℝ) (D : List (List ℝ)) (x y : ℝ) : Option ℝ := do
  let rows ← D.mapM fun row => interp y (Y.zip row)
  interp x (X.zip rows)

/-- An `InterpolateEfficiencyTable`. Used for `marxs/missions/mitsnl/catgrating.py:96-102`. -/
structure EffTable where
  wave : List ℝ
  theta : List ℝ
  orders : List ℤ
  data : List (List (List ℝ))

/-- `InterpolateEfficiencyTable.__init__`, `marxs/missions/mitsnl/catgrating.py:96-102`. The table has columns for wavelength and angle (in degrees) and one column for each order. -/
noncomputable def EffTable.init (wave thetaDeg : List ℝ) (orders : List ℤ) (cols : List (List ℝ)) : Except Err EffTable :=
  match tablerowsTo2d wave thetaDeg cols with
  | .error e => .error e
  | .ok (X, Y, D) =>
    let theta := Y.map fun t => t * Real.pi / 180
    match (if D = [] then .ok () else splineCheck X theta) with
    | .error e => .error e
    | .ok _ => .ok ⟨X, theta, orders, D⟩

/-- `InterpolateEfficiencyTable.probabilities`, `marxs/missions/mitsnl/catgrating.py:104-135`, for one photon. Polarization is not used. -/
noncomputable def EffTable.probabilities (hc : ℝ) (t : EffTable) (energy blaze : ℝ) : Option (List ℝ) :=
  let wave := hc / energy
  t.data.mapM fun d => bilinear t.wave t.theta d wave blaze

/-- `InterpolateEfficiencyTable.__call__`, `marxs/missions/mitsnl/catgrating.py:136-144`, for one photon; `r` is the random number. -/
noncomputable def EffTable.call (hc : ℝ) (t : EffTable) (energy blaze r : ℝ) : Except Err (ℤ × ℝ) :=
  match t.probabilities hc energy blaze with
  | none => .error .valueError
  | some p => interpolateTable p t.orders r

end Marxs
