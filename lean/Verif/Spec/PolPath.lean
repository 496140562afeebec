import Verif.Spec.ListChain

/-!
# Specification for C184: what the polarization of a photon has an influence on
-/

namespace Marxs

/-- Two photons with the same energy at the same place and with the same direction and the same history. Polarization and probability may be
different. -/
structure PathAgrees (r r' : Ray) : Prop where
  pos : r.pos = r'.pos
  dir : r.dir = r'.dir
  energy : r.energy = r'.energy
  order : r.order = r'.order
  blaze : r.blaze = r'.blaze
  coos : r.coos = r'.coos

/-- Two polarization vectors that describe the same linearly polarized light: the vectors are the same or opposite to each other. -/
def SamePolarization (p q : Option H4) : Prop := q = p ∨ q = p.map fun v => -v

/-- The same light: the photons are the same except for the sign of the polarization vector. -/
structure SameLight (r r' : Ray) : Prop where
  path : PathAgrees r r'
  prob : r.prob = r'.prob
  pol : SamePolarization r.pol r'.pol

/-- An element that does not look at the polarization. -/
def Optic.PolBlind : Optic → Prop
  | .mirror _ _ _ => False
  | _ => True

end Marxs
