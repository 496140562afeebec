import Verif.Spec.Chandra
import Verif.Model.Imaging

/-! Vocabulary for the image of the sky. -/

namespace Marxs

/-- The position of a lens or detector that stands upright on the optical axis at `x`, with the given half sizes
(`position=[x, 0, 0], zoom=[1, a, b]`). -/
def upright (x a b : ℝ) : M4 := compose ![x, 0, 0] 1 ![1, a, b]

end Marxs
