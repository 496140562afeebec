import Mathlib.Analysis.SpecialFunctions.Trigonometric.Basic
import Verif.Model.Vec

/-!
# Specification vocabulary for the mathematical helper functions
-/

namespace Marxs

/-- `a` and `b` are the same angle. -/
def SameAngle (a b : ℝ) : Prop := ∃ k : ℤ, a = b + 2 * Real.pi * k

/-- Angle `a` is on the arc that starts at `b1` and runs counter-clockwise until it reaches `b2` for
the first time (borders included). If `b1` and `b2` are the same angle, that is the full circle. -/
def InArc (a b1 b2 : ℝ) : Prop :=
  ∃ len, 0 < len ∧ len ≤ 2 * Real.pi ∧ SameAngle (b1 + len) b2 ∧
    ∃ t, 0 ≤ t ∧ t ≤ len ∧ SameAngle a (b1 + t)

/-- `q` is on the line through `p` with direction `u`. -/
def OnLine (p u q : V3) : Prop := ∃ t : ℝ, q = p + t • u

/-- `q` is on the plane through `p` with normal `n`. -/
def OnPlane (p n q : V3) : Prop := (q - p).dot n = 0

/-- Two vectors are parallel (or antiparallel). -/
def Parallel3 (a b : V3) : Prop := a.cross b = 0

/-- Position of a homogeneous point in Euclidean space. -/
noncomputable def H4.point (a : H4) : V3 := ⟨a.x / a.w, a.y / a.w, a.z / a.w⟩

end Marxs
