import Verif.Model.Missions
import Verif.Model.MathUtils

/-!
# Small tools

Models `angle_line_plane` (`marxs/math/pluecker.py`), `csv_per_order` (`marxs/missions/arcus/analyze_grid.py`) and `load_number`
(`marxs/missions/arcus/load_csv.py`, `marxs/missions/lynx/load_csv.py`).
-/

namespace Marxs
open Classical

/-- `angle_line_plane`, `marxs/math/pluecker.py:8-24`, for one line; `none` is NaN (division by zero). -/
noncomputable def angleLinePlane (l : Line) (plane : H4) : Option ℝ :=
  if l.u.norm * plane.xyz.norm = 0 then none
  else some (Real.arccos (l.u.dot plane.xyz / (l.u.norm * plane.xyz.norm)))

/-- The shape of `np.dot(a, b)` for an array `a` with one or two axes and a vector `b` with `m` elements; `ValueError` if the last axis of `a`
does not have `m` elements. Used for `marxs/math/pluecker.py:22-24`. -/
def dotShape (a : List ℕ) (m : ℕ) : Except Err (List ℕ) :=
  match a.getLast? with
  | some k => if k = m then .ok a.dropLast else .error .valueError
  | none => .ok [m]

/-- The shape of the result of `angle_line_plane`, `marxs/math/pluecker.py:22-24`, if `p_line` has shape `s` and `h_plane` is one plane:
`p_line[:3]` is cut along the first axis. -/
def angleShape (s : List ℕ) : Except Err (List ℕ) :=
  match s with
  | [] => .error .indexError
  | n :: rest => dotShape (min n 3 :: rest) 3

/-- `csv_per_order`, `marxs/missions/arcus/analyze_grid.py:183-193`: names and rows of the table that is written. `col` is the cell of column
`col` for each energy, `ncol` the number of orders in each cell (the second axis of the column). A wrong number of names or names that
occur twice are a `ValueError`. -/
def csvPerOrder (hdr : List (String × ℤ)) (ncol : ℕ) (wave : List ℝ) (col : List (List ℝ)) :
    Except Err (List String × List (List ℝ)) :=
  let names := (ordersFromMeta hdr).map fun o => "order_" ++ toString o
  if names.length ≠ ncol then .error .valueError
  else if ¬ names.Nodup then .error .valueError
  else .ok ("wave" :: names, List.zipWith (fun w r => w :: r) wave col)

/-- A table in a calibration file: for each column the name, the unit (if any) and the values. Used for `marxs/missions/arcus/load_csv.py:36-63`. -/
structure CalFile where
  nrows : ℕ
  cols : List (String × Option String × List ℝ)

/-- `load_number`, `marxs/missions/arcus/load_csv.py:36-63` and `marxs/missions/lynx/load_csv.py:9-33`: the number and its unit.
`DataFileFormatException` is modelled as `ValueError`. -/
def loadNumber (f : CalFile) (valuename : String) : Except Err (ℝ × Option String) :=
  if f.nrows ≠ 1 then .error .valueError
  else match f.cols.lookup valuename with
    | none => .error .keyError
    | some (unit, vals) => match vals[0]? with
      | none => .error .indexError
      | some x => .ok (x, unit)

end Marxs
