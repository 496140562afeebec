import Verif.Model.KeptPaths
import Verif.Spec.ListChain

/-!
# Specification for C165: the path of a photon
-/

namespace Marxs

/-- `rs` are the states of photon `p` after the first, second, ... element. -/
inductive Path : List Optic → Ray → List Ray → Prop
  | nil (p : Ray) : Path [] p []
  | cons {o : Optic} {os : List Optic} {p q : Ray} {rs : List Ray} : o.step p = .ok q → Path os q rs → Path (o :: os) p (q :: rs)

/-- From `p` light goes in a straight line, in the direction in which it flies, to the position of `q`; photons without position
or direction go nowhere. -/
def StraightTo (p q : Ray) : Prop :=
  match p.dir, p.pos with
  | some d, some x => ∃ s : ℝ, 0 ≤ s ∧ q.pos = some (x + s • d)
  | _, _ => q.pos = p.pos ∨ q.pos = none

/-- `Propagator` with a negative distance is the only element that moves photons backwards. -/
def Optic.Forward : Optic → Prop
  | .propagate distance => 0 ≤ distance
  | _ => True

/-- Two saved positions are the same for `np.allclose(..., atol=atol, equal_nan=True)`: both are NaN, or all coordinates agree up to
`atol` and `1e-5` of the second one. -/
def SameWithin (atol : ℝ) (x y : Option V3) : Prop :=
  (x = none ∧ y = none) ∨ ∃ a b : V3, x = some a ∧ y = some b ∧
    ∀ c : V3 → ℝ, c = V3.x ∨ c = V3.y ∨ c = V3.z → |c a - c b| ≤ atol + |c b| / 100000

/-- The point in space with homogeneous coordinates `q`. -/
noncomputable def H4.euclid (q : H4) : V3 := ⟨q.x / q.w, q.y / q.w, q.z / q.w⟩

end Marxs
