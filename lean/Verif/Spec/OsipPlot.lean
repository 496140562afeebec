import Verif.Model.OsipPlot
import Verif.Spec.Osip
import Verif.Spec.Rmf0

/-!
# Specification for C161: plots of order sorting
-/

namespace Marxs

/-- A photon of this energy, diffracted into `order`, is found where `order` times wavelength is `x`. -/
def SeenAt (hc x energy : ℝ) (order : ℤ) : Prop := |(order : ℝ)| * (hc / energy) = x

/-- The two orders are on the same side, and neither of them is the zeroth order. -/
def SameSide (a b : ℤ) : Prop := (0 < a ∧ 0 < b) ∨ (a < 0 ∧ b < 0)

/-- The bins of a file have positive energies. -/
def PositiveBins (a : Arf) : Prop :=
  a.energLo.length = a.energHi.length ∧ (∀ x ∈ a.energLo, 0 < x) ∧ ∀ x ∈ a.energHi, 0 < x

/-- A file of an effective area, as used for the sum: wavelengths decrease, there is at least one bin. -/
def GoodCurveFile (f : List (ℝ × ℝ)) : Prop := f ≠ [] ∧ f.Pairwise fun a b => b.1 < a.1

end Marxs
