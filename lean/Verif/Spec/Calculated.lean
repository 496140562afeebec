import Verif.Spec.Rowland
import Verif.Model.Calculated

/-!
# Specification vocabulary for containers that calculate positions
-/

namespace Marxs

/-- The matrix `m` places an element (without change of size and not mirrored) with its center at `p`, its x axis
along `n`, its y axis in the plane of `n` and `s` on the side of `s`, and its z axis perpendicular to both. -/
structure PlacedAs (m : M4) (p n s : V3) : Prop where
  rigid : Conformal m 1
  right : (vX m).xyz.cross (vY m).xyz = (vZ m).xyz
  pos : (center m).xyz = p
  x : ∃ k : ℝ, 0 < k ∧ (vX m).xyz = k • n
  y : ∃ a b : ℝ, (vY m).xyz = a • n + b • s ∧ 0 < b
  zn : (vZ m).xyz.dot n = 0
  zs : (vZ m).xyz.dot s = 0

open Classical in
/-- Direction that a homogeneous coordinate stands for at the position `p`: the direction itself, or from the
given point to `p`. -/
noncomputable def meant (s : H4) (p : V3) : V3 := if s.w = 0 then s.xyz else p - s.xyz

/-- Two vectors that have a direction and are not parallel (within the rounding that `ex2vec_fix` accepts). -/
def TwoDirections (a b : V3) : Prop :=
  a ≠ 0 ∧ b ≠ 0 ∧ ¬ (a.unit.allclose b.unit ∨ a.unit.allclose (-b.unit))

end Marxs
