import Verif.Spec.Spectrograph

/-!
# Specification for C170: light paths are reversible
-/

namespace Marxs

/-- Flat elements that do not choose a direction at random: detectors, filters, mirrors and gratings for which the order depends
on nothing but the energy (and whose sign of the order does not depend on the side from which the light comes). -/
def Optic.Reversible : Optic → Prop
  | .plane m | .filter m _ | .mirror m _ _ => Placed m ∧ OrthoAxes m
  | .grating m _ cat _ d _ order => Placed m ∧ OrthoAxes m ∧ cat = false ∧ (∀ c, d c ≠ 0) ∧ ∀ e b b', (order e b).1 = (order e b').1
  | _ => False

/-- The photon flies away from the element, not along its surface. -/
def Optic.Leaves (o : Optic) (r : Ray) : Prop := ∃ m d, o.rectangle = some m ∧ r.dir = some d ∧ d.dot (eX m) ≠ 0

/-- Photon `r` hits all the elements one after the other at the local coordinates `cs` and comes out as `s`. -/
inductive Through : List Optic → Ray → Ray → List (ℝ × ℝ) → Prop
  | nil (r : Ray) : Through [] r r []
  | cons {o : Optic} {os : List Optic} {r r1 s : Ray} {c : ℝ × ℝ} {cs : List (ℝ × ℝ)} :
      hitCoos o r = some c → o.step r = .ok r1 → o.Leaves r1 → Through os r1 s cs → Through (o :: os) r s (c :: cs)

/-- The photon is sent back where it came from, with any polarization. -/
noncomputable def Ray.back (s : Ray) (pol : Option H4) : Ray := { s with dir := s.dir.map fun d => -d, pol := pol }

end Marxs
