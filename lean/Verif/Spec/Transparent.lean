import Verif.Spec.StartPlace

/-!
# Specification for C183: elements that photons pass without being deflected
-/

namespace Marxs

/-- The photon with the local coordinates `c` of elements that it hit earlier. -/
def Ray.before (c : List (ℝ × ℝ)) (r : Ray) : Ray := { r with coos := c ++ r.coos }

/-- The photon without a record of elements that it hit earlier. -/
def Ray.fresh (r : Ray) : Ray := { r with coos := [] }

end Marxs
