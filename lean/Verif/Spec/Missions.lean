import Verif.Model.Missions

/-! Vocabulary for the properties of mission specific elements. -/

namespace Marxs

/-- The cell holds a number below zero (the id of a photon that hit no element). -/
def Val.Negative (v : Val) : Prop := (∃ x : ℝ, v = .num (some x) ∧ x < 0) ∨ ∃ n : ℤ, v = .int n ∧ n < 0

/-- The cell holds the number `m`, stored as float or as integer. -/
def Val.Holds (v : Val) (m : ℝ) : Prop := v = .num (some m) ∨ ∃ n : ℤ, v = .int n ∧ (n : ℝ) = m

/-- The photon with one column replaced. -/
def Row.with (r : Row) (col : String) (v : Val) : Row := Function.update r col v

/-- Debye-Waller factor of a grating with period `d` and roughness `sigma` for order `m`. -/
noncomputable def debyeWaller (sigma d m : ℝ) : ℝ := Real.exp (-(2 * Real.pi * sigma * m / d) ^ 2)

/-- Area fraction of a hexagonal mesh that is open at normal incidence. -/
noncomputable def meshOpen (x : LxDims) : ℝ := ((x.period - x.barwidth) / x.period) ^ 2

/-- Area fraction that is shadowed in addition for rays with an angle of the given sine. -/
noncomputable def meshShadow (x : LxDims) (sine : ℝ) : ℝ :=
  x.bardepth * (x.period - x.barwidth) * sine / (x.period ^ 2 * Real.sqrt 3 / 2)

/-- A rod only looks at position and direction of a photon. -/
def RayOnly (hit : Row → Bool) : Prop :=
  ∀ (r s : Row), r "pos" = s "pos" → r "dir" = s "dir" → hit r = hit s

open Classical in
/-- What a set of absorbing rods does to a photon: if it is blocked the probability is zero and the flag `hitrod`
is set, otherwise it stays as it is (with a flag that is not set if there was no flag before). -/
noncomputable def rodsOut (hadFlag blocked : Prop) (r : Row) : Row :=
  fun c =>
    if c = "probability" then (if blocked then .num (some 0) else r c)
    else if c = "hitrod" then (if blocked then .int 1 else if hadFlag then r c else .int 0)
    else r c

/-- Transmission of a bar of the given thickness in micrometer when one micrometer transmits `t`
(Beer-Lambert law). -/
noncomputable def barTransmission (t thickness : ℝ) : ℝ := t ^ thickness

/-- The orders that are listed in a header: `ORDER_0`, `ORDER_1`, ... without gap. -/
def ListsOrders (hdr : List (String × ℤ)) (orders : List ℤ) : Prop :=
  (∀ i : ℕ, i < orders.length → hdr.lookup ("ORDER_" ++ toString i) = orders[i]?) ∧
    hdr.lookup ("ORDER_" ++ toString orders.length) = none

end Marxs
