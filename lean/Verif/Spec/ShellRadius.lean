import Verif.Model.ShellRadius
import Mathlib.Data.Real.Archimedean
import Mathlib.Algebra.Order.Floor.Semiring

/-!
# Specification vocabulary for percentiles and cones of light
-/

namespace Marxs

open Classical in
/-- `v` is a percentile `q` of the numbers in `l`: of `n` numbers at most `q % (n-1)` (rounded up) are below `v` and at most `(100-q) % (n-1)` (rounded up) are above. -/
def IsPercentile (q : ℝ) (l : List ℝ) (v : ℝ) : Prop :=
  l.countP (fun a => decide (a < v)) ≤ ⌈q / 100 * ((l.length : ℝ) - 1)⌉₊ ∧
  l.countP (fun a => decide (v < a)) ≤ ⌈(100 - q) / 100 * ((l.length : ℝ) - 1)⌉₊

/-- A photon at `pos` that flies in direction `dir` is in point `q` now or later. -/
def Reaches (pos dir q : V3) : Prop := ∃ t : ℝ, 0 ≤ t ∧ q = pos + t • dir

/-- Distance from the x axis. -/
noncomputable def axisDist (q : V3) : ℝ := Real.sqrt (q.y ^ 2 + q.z ^ 2)

/-- Tangent of the angle between the direction and the x axis. -/
noncomputable def slope (dir : V3) : ℝ := Real.sqrt (dir.y ^ 2 + dir.z ^ 2) / |dir.x|

open Classical in
/-- The photons of the shell that are alive. -/
noncomputable def liveShell (shell : ℤ) (photons : List ShellPhoton) : List ShellPhoton :=
  photons.filter fun p => decide (∃ w, p.prob = some w ∧ 0 < w ∧ p.shell = shell)

end Marxs
