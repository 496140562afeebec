import Verif.Spec.ListChain

/-!
# Specification for C177: photons with weights
-/

namespace Marxs

/-- The same photon with a probability that is `c` times as large. -/
noncomputable def Ray.weigh (c : ℝ) (r : Ray) : Ray := { r with prob := r.prob.map (c * ·) }

/-- The photon with probability 1. -/
def Ray.certain (r : Ray) : Ray := { r with prob := some 1 }

end Marxs
