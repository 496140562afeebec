import Verif.Model.Random

/-!
# Specification vocabulary for random selection
-/

namespace Marxs

/-- Weight of bin `i` of a tabulated probability density: density times width. `x` are the upper edges
of the bins; the first bin has no lower edge and thus no weight. -/
def binWeight (x pdf : List ℝ) : ℕ → ℝ
  | 0 => 0
  | i + 1 => pdf.getD (i + 1) 0 * (x.getD (i + 1) 0 - x.getD i 0)

/-- Sum of the weights of all bins. -/
def totalWeight (x pdf : List ℝ) : ℝ := ((List.range x.length).map (binWeight x pdf)).sum

/-- What `np.argsort` is required to do here: return each index once. -/
def IsArgsort (f : Option (List ℝ → List ℕ)) : Prop :=
  ∀ g, f = some g → ∀ l, (g l).Perm (List.range l.length)

end Marxs
