import Verif.Model.Missions

/-!
# Specification for curves given by points
-/

namespace Marxs

/-- The value `v` is on the line between two neighbouring points of the curve `tab`: no point of the curve is
strictly between them. -/
def OnCurve (tab : List (ℝ × ℝ)) (x v : ℝ) : Prop :=
  ∃ a ∈ tab, ∃ b ∈ tab, a.1 ≤ x ∧ x ≤ b.1 ∧ (∀ c ∈ tab, c.1 ≤ a.1 ∨ b.1 ≤ c.1) ∧
    (v - a.2) * (b.1 - a.1) = (b.2 - a.2) * (x - a.1) ∧ (a.1 = b.1 → v = a.2)

/-- `x` is in the range of the curve. -/
def CurveCovers (tab : List (ℝ × ℝ)) (x : ℝ) : Prop := (∃ a ∈ tab, a.1 ≤ x) ∧ ∃ b ∈ tab, x ≤ b.1

/-- The value of the curve at the covered place that is closest to `x`. -/
def OnNearest (tab : List (ℝ × ℝ)) (x v : ℝ) : Prop :=
  ∃ x', OnCurve tab x' v ∧ ∀ y, CurveCovers tab y → |x - x'| ≤ |x - y|

/-- Fraction `v` of photons of energy `e` that passes: read from the curve, nothing outside of its range. -/
def Passes (tab : List (ℝ × ℝ)) (e v : ℝ) : Prop :=
  (CurveCovers tab e → OnCurve tab e v) ∧ (¬ CurveCovers tab e → v = 0)

/-- A curve with at least one point, different energies and values between zero and one. -/
def GoodCurve (tab : List (ℝ × ℝ)) : Prop :=
  tab ≠ [] ∧ (tab.map Prod.fst).Nodup ∧ ∀ p ∈ tab, 0 ≤ p.2 ∧ p.2 ≤ 1

/-- The distribution has the same weight at equal distances on both sides of `p`. -/
def SymmetricAbout (p : ℝ) (F : ℝ → ℝ) : Prop := ∀ d, F (p + d) + F (p - d) = 1

end Marxs
