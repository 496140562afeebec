import Verif.Spec.Geometry

/-!
# Specification vocabulary for optical elements
-/

namespace Marxs

/-- Three directions of unit length, perpendicular to each other. -/
structure Frame (a b c : H4) : Prop where
  aa : a.dot a = 1
  bb : b.dot b = 1
  cc : c.dot c = 1
  ab : a.dot b = 0
  ac : a.dot c = 0
  bc : b.dot c = 0
  wa : IsDir a
  wb : IsDir b
  wc : IsDir c

/-- The grating equation: a photon arrives in direction `p` (unit length) and leaves in direction
`q`; `l` is the direction of the grooves, `e` the dispersion direction, `n` the normal. `shift` is
order times wavelength over grating constant. -/
structure GratingEquation (transmission : Bool) (l e n p q : H4) (shift : ℝ) : Prop where
  isDir : IsDir q
  unit : q.dot q = 1
  groove : q.dot l = p.dot l
  dispersion : q.dot e = p.dot e + shift
  side : if transmission then 0 ≤ q.dot n * p.dot n else q.dot n * p.dot n ≤ 0

/-- mirror image of `p` at the plane perpendicular to `e` -/
def mirrored (e p : H4) : H4 := p - (2 * p.dot e) • e

/-- `pol` is a polarization vector of a photon that flies in direction `dir`: unit length and
perpendicular to `dir`. -/
structure Transverse (dir pol : V3) : Prop where
  unit : pol.dot pol = 1
  perp : pol.dot dir = 0

end Marxs
