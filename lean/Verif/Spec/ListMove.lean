import Verif.Spec.MirrorImage
import Verif.Spec.Similarity
import Verif.Spec.ListChain

/-!
# Specification for C187: instruments that are moved or enlarged, for photon lists
-/

namespace Marxs

/-- An element that is `c` times as large in all directions, as in `Optic.enlarged`, with the same random numbers. -/
noncomputable def ListOptic.enlarged (c : ℝ) : ListOptic → ListOptic
  | .plane m => .plane (enlargeMat c * m)
  | .tube m zoomz lim0 lim1 => .tube (enlargeMat c * m) (c * zoomz) lim0 lim1
  | .filter m f => .filter (enlargeMat c * m) f
  | .globalFilter f => .globalFilter f
  | .lens m focallength dOptax refl => .lens (enlargeMat c * m) (c * focallength) (c * dOptax) refl
  | .thin m focallength => .thin (enlargeMat c * m) (c * focallength)
  | .grating m transmission cat groove d blazeMod order =>
      .grating (enlargeMat c * m) transmission cat groove (fun p => d (p.1 / c, p.2 / c))
        (fun p => blazeMod (p.1 / c, p.2 / c)) order
  | .mirror m rs rp => .mirror (enlargeMat c * m) rs rp
  | .scatter m inAngle perpAngle => .scatter (enlargeMat c * m) inAngle perpAngle
  | .propagate distance => .propagate (c * distance)

/-- Elements with sensible parameters (efficiencies in [0, 1], surfaces with perpendicular axes where this is needed) and columns with names of their own. -/
def SoundList (os : List (ListOptic × ElemCols)) : Prop :=
  ∀ o ∈ os, (o.2.Fine ∧ o.2.loc ≠ none) ∧ ∀ i, (o.1.photon i).Sensible ∧ (o.1.photon i).IsPlaced

end Marxs
