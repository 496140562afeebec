import Verif.Model.MetaShell

/-!
# Specification for metashells
-/

namespace Marxs

/-- Shells are listed with the serial numbers 1, 2, 3, ... -/
def Numbered (shells : List MetaShellRow) : Prop := ∀ (k : ℕ) (s : MetaShellRow), shells[k]? = some s → s.serial = k + 1

/-- Area of a ring in mm². -/
noncomputable def shellArea (s : MetaShellRow) : ℝ := Real.pi * (s.rOuter ^ 2 - s.rInner ^ 2)

/-- Fraction of the photons that are reflected, for an effective area in cm² of a shell with geometric area in mm²; a fraction is between 0 and 1. -/
noncomputable def reflected (effArea area : ℝ) : ℝ := max 0 (min 1 (100 * effArea / area))

/-- Rings with an area. -/
def Rings (shells : List MetaShellRow) : Prop := ∀ s ∈ shells, 0 ≤ s.rInner ∧ s.rInner < s.rOuter

/-- Effective area at energy `x`, from the column of the table for shell `s`. -/
def HasEffArea (eff : MetaShellEff) (s : MetaShellRow) (x v : ℝ) : Prop := ∃ c, eff.area s.serial = some c ∧ interp x (eff.energy.zip c) = some v

/-- The table has increasing energies and a column of that length for each shell. -/
def GoodEff (shells : List MetaShellRow) (eff : MetaShellEff) : Prop :=
  eff.energy ≠ [] ∧ eff.energy.Pairwise (· < ·) ∧ ∀ s ∈ shells, ∃ c, eff.area s.serial = some c ∧ c.length = eff.energy.length

/-- Photons in the list have an energy in the range of the table and a probability. -/
def InRange (eff : MetaShellEff) (t : Table) : Prop :=
  "energy" ∈ t.names ∧ "probability" ∈ t.names ∧ ∀ r ∈ t.rows, ∃ e p : ℝ, r "energy" = .num (some e) ∧ r "probability" = .num (some p) ∧
    (∃ a ∈ eff.energy, a ≤ e) ∧ ∃ b ∈ eff.energy, e ≤ b

end Marxs
