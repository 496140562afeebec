import Verif.Model.CatStack
import Verif.Spec.Optics
import Verif.Spec.Missions

/-! Vocabulary for complete CAT gratings. -/

namespace Marxs

open Classical in
/-- CAT gratings: positive orders move away from the groove plane on the side to which the photon flies. -/
noncomputable def catSide (x : ℝ) : ℝ := if 0 < x then 1 else -1

/-- Direction of the grating bars of a CAT grating at position `m` with the given groove angle. -/
noncomputable def barDir (m : M4) (groove : ℝ) : H4 := Real.cos groove • eZ m - Real.sin groove • eY m

/-- Dispersion direction of a CAT grating. -/
noncomputable def dispDir (m : M4) (groove : ℝ) : H4 := Real.cos groove • eY m + Real.sin groove • eZ m

/-- Diffraction order without a propagating wave: the components along grooves and dispersion direction would be
longer than the photon direction. -/
def Evanescent (l e p : H4) (shift : ℝ) : Prop := 1 < (p.dot e + shift) ^ 2 + (p.dot l) ^ 2

/-- `b` is the blaze angle: the angle between the normal `n` and the photon direction `p`, seen along the bars `l`. -/
structure IsBlaze (l n p : H4) (b : ℝ) : Prop where
  lower : 0 ≤ b
  upper : b ≤ Real.pi / 2
  angle : Real.cos b * (p - (p.dot l) • l).norm = |p.dot n|

/-- Width of the scatter at the holes of a mesh. -/
noncomputable def meshBlur (x : LxDims) (wave : ℝ) : ℝ := 1.22 * 0.4 * Real.arcsin (wave / (x.period - x.barwidth))

/-- Photon lost: direction and probability are NaN. -/
def LostPhoton (r : Row) : Prop := r "dir" = .vec [none, none, none, none] ∧ r "probability" = .num none

/-- The photon arrives at the L2 mesh (normal `n`) in direction `d` with probability `prob`; `r` is the row at the
end: mesh absorption, then scatter by `z` times the width. -/
structure PassesMesh (x : LxDims) (n : H4) (wave z : ℝ) (d : H4) (prob : ℝ) (r : Row) : Prop where
  probability : r "probability" = .num (some (prob * (meshOpen x - meshShadow x (Real.sqrt (1 - (d.dot n) ^ 2)))))
  direction : |wave / (x.period - x.barwidth)| ≤ 1 → ∃ q : H4, r "dir" = .vec [some q.x, some q.y, some q.z, some q.w] ∧
    IsDir q ∧ q.dot q = 1 ∧ d.dot q = Real.cos (z * meshBlur x wave) ∧
    r "L2Diffraction" = .num (some (z * meshBlur x wave))

/-- Local coordinates of a point on a flat element. -/
noncomputable def flatCoos (m : M4) (x : H4) : ℝ × ℝ := ((x - center m).dot (eY m), (x - center m).dot (eZ m))

end Marxs
