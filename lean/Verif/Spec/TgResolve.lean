import Verif.Model.TgResolve

/-!
# Specification for grating coordinates
-/

namespace Marxs

/-- Point of a circle of radius `r` in the plane of x (dispersion) and z (optical axis), seen from its center; angle 0 is at the bottom. -/
noncomputable def circlePoint (r phi : ℝ) : ℝ × ℝ := (r * Real.sin phi, -(r * Real.cos phi))

/-- Distance of two points in the plane. -/
noncomputable def planeDist (p q : ℝ × ℝ) : ℝ := Real.sqrt ((q.1 - p.1) ^ 2 + (q.2 - p.2) ^ 2)

/-- Seen from `g`, one has to turn by the angle `a` to go from the direction of `p` to the direction of `q`. -/
def TurnsBy (g p q : ℝ × ℝ) (a : ℝ) : Prop :=
  (p.1 - g.1) * (q.1 - g.1) + (p.2 - g.2) * (q.2 - g.2) = planeDist g p * planeDist g q * Real.cos a ∧
  (p.1 - g.1) * (q.2 - g.2) - (p.2 - g.2) * (q.1 - g.1) = planeDist g p * planeDist g q * Real.sin a

/-- Angle in radian. -/
noncomputable def inRad (deg : ℝ) : ℝ := deg * Real.pi / 180

/-- Grating equation: light arrives at angle `i` to the normal and leaves at angle `o` (measured on the other side of the normal). -/
noncomputable def pathDifference (period i o : ℝ) : ℝ := period * (Real.sin i + Real.sin o)

end Marxs
