import Mathlib.MeasureTheory.Measure.Lebesgue.Basic
import Verif.Model.Vec

/-! Specification for C151: solid angles. -/

namespace Marxs

open MeasureTheory

/-- A point in space. -/
def vecOf (p : Fin 3 → ℝ) : V3 := ⟨p 0, p 1, p 2⟩

/-- A measurable set of vectors. -/
def MeasurableVecs (S : Set V3) : Prop := MeasurableSet {p : Fin 3 → ℝ | vecOf p ∈ S}

/-- Solid angle covered by a set of directions (unit vectors): three times the volume of the part of the unit ball
that is seen in these directions from its center. -/
noncomputable def solidAngle (S : Set V3) : ENNReal :=
  3 * volume {p : Fin 3 → ℝ | vecOf p ≠ 0 ∧ (vecOf p).norm < 1 ∧ (vecOf p).unit ∈ S}

/-- Directions at an angle less than `half` from `d`. -/
def coneAround (d : V3) (half : ℝ) : Set V3 := {v | v.dot v = 1 ∧ Real.cos half < v.dot d}

/-- A ring around the origin with radii `a` and `b`. -/
def flatRing (a b : ℝ) : Set (ℝ × ℝ) := {p | a ^ 2 < p.1 ^ 2 + p.2 ^ 2 ∧ p.1 ^ 2 + p.2 ^ 2 < b ^ 2}

end Marxs
