import Verif.Spec.ElementSize

/-!
# Specification for C181: where on its ray a photon starts
-/

namespace Marxs

/-- The photon misses the element, which has a flat surface. -/
def Optic.Missed (o : Optic) (r : Ray) : Prop := o.flat ≠ none ∧ ¬ o.Hit r

/-- The element does not scatter perpendicular to the plane of incidence. -/
def Optic.NoPerpScatter : Optic → Prop
  | .scatter _ _ (some _) => False
  | _ => True

end Marxs
