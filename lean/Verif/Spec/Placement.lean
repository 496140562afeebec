import Verif.Model.Placement

namespace Marxs
open Matrix

/-- Proper rotation. -/
def IsRotation (r : M3) : Prop := rᵀ * r = 1 ∧ r.det = 1

/-- Homogeneous coordinates of a point. -/
def hom (p : Fin 3 → ℝ) : V4 := ![p 0, p 1, p 2, 1]

/-- Assumed behaviour of the external function `decompose44`: matrices which are composed of
translation, proper rotation and positive zoom are taken apart into exactly these. -/
def DecExact (dec : M4 → Decomp) : Prop :=
  ∀ (t : Fin 3 → ℝ) (r : M3) (z : Fin 3 → ℝ), IsRotation r → (∀ i, 0 < z i) →
    dec (compose t r z) = ⟨t, r, z, 0⟩

/-- Two points are at the same distance from each other before and after. -/
def sqDist (a b : V4) : ℝ := (a 0 - b 0)^2 + (a 1 - b 1)^2 + (a 2 - b 2)^2

end Marxs
