import Verif.Model.EffTable

/-!
# Specification for tables of efficiencies
-/

namespace Marxs

/-- Linear interpolation between `a` (for `t = 0`) and `b` (for `t = 1`). -/
def between (a b t : ℝ) : ℝ := (1 - t) * a + t * b

/-- How far `x` is on the way from `a` to `b`. -/
noncomputable def fractionOf (a b x : ℝ) : ℝ := (x - a) / (b - a)

/-- Entry of the table in row `i * ny + j` of the column for order number `k`, i.e. for wavelength number `i` and angle number `j`. -/
def entry (cols : List (List ℝ)) (ny k i j : ℕ) : ℝ := (cols.getD k []).getD (i * ny + j) 0

end Marxs
