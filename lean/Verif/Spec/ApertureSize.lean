import Verif.Spec.Uniform

/-!
# Specification for C172: apertures of different size and shape in the same place
-/

namespace Marxs

/-- Two apertures of possibly different size and shape with the same center and axes in the same directions. -/
def Aperture.SamePlace (a b : Aperture) : Prop :=
  (center a.m).xyz = (center b.m).xyz ∧ (vY a.m).xyz.unit = (vY b.m).xyz.unit ∧
  (vZ a.m).xyz.unit = (vZ b.m).xyz.unit

/-- The list of events in a simulation of `n` photons that enter through `a`. `ev s x` is the event caused by a photon
that starts at the point `s`, where `x` is everything else that is random about it. -/
noncomputable def Aperture.events {E : Type} (a : Aperture) (ev : V3 → E → DetEvent) (u : ℕ → (ℝ × ℝ) × E) (n : ℕ) :
    List DetEvent :=
  (List.range n).map fun i => ev (inPlane a.m (a.entry (u i).1)) (u i).2

end Marxs
