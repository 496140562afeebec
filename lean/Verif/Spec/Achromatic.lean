import Verif.Spec.ListChain

/-!
# Specification for C185: instruments without gratings
-/

namespace Marxs

/-- Two photons at the same place, with the same direction, polarization and history. Energy and probability may be different. -/
structure SameRay (r r' : Ray) : Prop where
  pos : r.pos = r'.pos
  dir : r.dir = r'.dir
  pol : r.pol = r'.pol
  order : r.order = r'.order
  blaze : r.blaze = r'.blaze
  coos : r.coos = r'.coos

/-- Any element but a grating. -/
def Optic.NoGrating : Optic → Prop
  | .grating _ _ _ _ _ _ _ => False
  | _ => True

/-- An element with an efficiency that is the same for all energies. -/
def Optic.Grey : Optic → Prop
  | .grating _ _ _ _ _ _ _ => False
  | .filter _ f | .globalFilter f => ∀ e e', f e = f e'
  | .lens _ _ _ refl => ∀ e e' a, refl e a = refl e' a
  | _ => True

/-- Two photons that differ in energy only. -/
def SameButEnergy (r r' : Ray) : Prop := SameRay r r' ∧ r.prob = r'.prob

end Marxs
