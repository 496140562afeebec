import Verif.Model.Osip

/-!
# Specification vocabulary for order sorting
-/

namespace Marxs

/-- A usable table of the CCD resolution: not empty, all widths positive. -/
def GoodTab (tab : List (ℝ × ℝ)) : Prop := tab ≠ [] ∧ ∀ p ∈ tab, 0 < p.2

/-- Meaningful parameters of an order-sorting window. -/
def GoodOsip : Osip → Prop
  | .fixedWidth h => 0 ≤ h
  | .fixedFraction a => 0 ≤ a ∧ a < 1
  | .fractionalDistance f => 0 ≤ f

/-- The second window is of the same type and not smaller than the first. -/
def OsipLe : Osip → Osip → Prop
  | .fixedWidth h, .fixedWidth h' => h ≤ h'
  | .fixedFraction a, .fixedFraction a' => a ≤ a'
  | .fractionalDistance f, .fractionalDistance f' => f ≤ f'
  | _, _ => False

/-- A file that was not order sorted: one entry of `SPECRESP` per energy bin, no `OSIPFAC`. -/
def FreshArf (a : Arf) (area : List (Option ℝ)) : Prop :=
  a.energLo.length = a.energHi.length ∧ a.specresp = some area ∧ area.length = a.energLo.length ∧
    a.osipfac = ⟨none, none⟩

/-- The numbers are all the same. -/
def AllEqual (l : List (Option ℝ)) : Prop := ∃ c : ℝ, ∀ x ∈ l, x = some c

/-- The order sorting factors of an order-sorting class for all the bins of a file. -/
def FactorsOf (tab : List (ℝ × ℝ)) (o : Osip) (a : Arf) (k : ℤ) (fac : List ℝ) : Prop :=
  List.Forall₂ (fun E f => osipFactor tab o E k a.order = .ok f) (nominalEnergies a k) fac

/-- The files produced by a history of calls to `apply_osip`, each on the result of the previous. -/
noncomputable def osipRun (tab : List (ℝ × ℝ)) : List (Osip × ℤ) → Arf → Except Err Arf
  | [], a => .ok a
  | (o, k) :: steps, a =>
    match applyOsip tab o a k with
    | .error e => .error e
    | .ok b => osipRun tab steps b

/-- The condition on the earlier steps of the history: no factor is zero, and neither the factors nor the
areas are the same number in all bins. -/
def SteadyStep (tab : List (ℝ × ℝ)) (a : Arf) (area : List (Option ℝ)) (s : Osip × ℤ) : Prop :=
  ∃ fac, FactorsOf tab s.1 a s.2 fac ∧ (∀ x ∈ fac, x ≠ 0) ∧ ¬ AllEqual (fac.map some) ∧
    ¬ AllEqual (List.zipWith fmul (fac.map some) area)

end Marxs
