import Verif.Model.FlatStack

/-!
# Specification for C188: a stack and a sequence of the same elements
-/

namespace Marxs

/-- The same elements one after the other at the same place. -/
def Layer.sequence (m : M4) (es : List Layer) : List Optic := es.map (Layer.optic m)

/-- The photon has a direction that is not parallel to the surface at `m`. -/
def Ray.Crosses (m : M4) (r : Ray) : Prop := ∃ d, r.dir = some d ∧ d.dot (eX m) ≠ 0

/-- Behind every element of the sequence that is followed by another one the photon has a direction that is not parallel to the surface. -/
def KeepsCrossing (m : M4) (es : List Layer) (r : Ray) : Prop :=
  ∀ a b, es = a ++ b → a ≠ [] → b ≠ [] → ∀ r', runOptics (Layer.sequence m a) r = .ok r' → r'.Crosses m

/-- The stack does not begin with an element that scatters photons perpendicular to the plane of incidence. -/
def NoScatterFirst : List Layer → Prop
  | .scatter _ (some _) :: _ => False
  | _ => True

end Marxs
