import Verif.Model.FlatStack

/-!
# Specification for C189: images of mirrors that are made as a stack of a lens, scattering and filters
-/

namespace Marxs

/-- A simple mirror as in `HRMA` (`marxs/missions/chandra/hrma_py.py:38-52`, one filter) or `MetaShellMirror` (`marxs/missions/lynx/mirror.py:41-53`, no filter): a lens, scattering by the given angles (none if the scatter is switched off), and any number of filters. -/
def mirrorStack (focallength dOptax : ℝ) (refl : ℝ → ℝ → ℝ) (inAngle perpAngle : Option ℝ) (filters : List (ℝ → ℝ)) : List Layer :=
  .lens focallength dOptax refl :: .scatter inAngle perpAngle :: filters.map Layer.filter

/-- Size of a scattering angle, 0 if the scatter is switched off. -/
noncomputable def angleSize (a : Option ℝ) : ℝ := |a.getD 0|

end Marxs
