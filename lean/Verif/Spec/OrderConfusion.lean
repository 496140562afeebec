import Verif.Spec.RigidMotion

/-!
# Specification for C171: photons with the same order times wavelength
-/

namespace Marxs

/-- Photons of energy `E` and `E'` are sent to orders with the same order times wavelength, i.e. the same order over energy. -/
def Optic.SameOrderWave (E E' : ℝ) : Optic → Prop
  | .grating _ _ _ _ _ _ order => ∀ b, ((order E b).1 : ℝ) / E = (order E' b).1 / E'
  | _ => True

/-- Two photons are at the same place, fly in the same direction with the same polarization, and have been seen at the same places. -/
structure SamePath (r r' : Ray) : Prop where
  pos : r.pos = r'.pos
  dir : r.dir = r'.dir
  pol : r.pol = r'.pol
  blaze : r.blaze = r'.blaze
  coos : r.coos = r'.coos

end Marxs
