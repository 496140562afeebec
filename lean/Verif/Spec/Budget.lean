import Verif.Model.Budget
import Verif.Spec.Container

/-!
# Specification for alignment budgets
-/

namespace Marxs
open Classical

/-- One sigma, in mm or rad, for a 3 sigma tolerance of `v`, which is in μm for the first three numbers of a row and in arcsec for all others. -/
noncomputable def oneSigma (j : ℕ) (v : ℝ) : ℝ := if j < 3 then v / 3 * (1 / 1000) else v / 3 * (Real.pi / (180 * 3600))

/-- How many random numbers the global rows in a list need. -/
def globalNumbers {C : Type} (rows : List (BudgetRow C)) : ℕ :=
  ((rows.filter fun r => r.kind = "global").map fun r => r.spec.length).sum

/-- `e` is part of the telescope, inside of the structures in `outer`. -/
def PartOf {C : Type} (tel : Elt C) (outer : List (Elt C)) (e : Elt C) : Prop := (outer, e) ∈ walkList [] tel.inner

/-- The row moves `e` itself: it is of the class that the row names, and not inside of another object of this class. -/
def Moves {C : Type} (row : BudgetRow C) (outer : List (Elt C)) (e : Elt C) : Prop :=
  e.cls = row.cls ∧ ∀ a ∈ outer, a.cls ≠ row.cls

/-- The row moves some structure that `e` is inside of. -/
def MovesOuter {C : Type} (row : BudgetRow C) (outer : List (Elt C)) : Prop := ∃ a ∈ outer, a.cls = row.cls

/-- Displacement with the numbers in a row as they are. -/
noncomputable def shiftBy (l : List ℝ) : M4 := moveMat (dofOfList l)

/-- Displacements for `n` elements with independent normal draws; the numbers in the row are the standard deviations. `t i` and `r i` are six standard normal numbers for element `i`. -/
noncomputable def randomShifts (l : List ℝ) (n : ℕ) (t r : ℕ → Fin 3 → ℝ) : List M4 :=
  (List.range n).map fun i => moveMat ⟨l.getD 0 0 * t i 0, l.getD 1 0 * t i 1, l.getD 2 0 * t i 2, l.getD 3 0 * r i 0, l.getD 4 0 * r i 1, l.getD 5 0 * r i 2⟩

/-- `e` is a structure that holds other elements and can be moved. -/
def IsStructure {C : Type} (isPar : C → Bool) (e : Elt C) : Prop := isPar e.cls = true ∧ ∃ c i es, e = .cont c i es

/-- A row that can be applied to the object `e`: not more than six numbers, and no negative standard deviation. -/
def RowFits {C : Type} (isPar : C → Bool) (row : BudgetRow C) (t : List ℝ) (e : Elt C) : Prop :=
  IsStructure isPar e ∧ t.length ≤ 6 ∧ (row.kind = "individual" → ∀ v ∈ t, 0 ≤ v)

end Marxs
