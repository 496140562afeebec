import Verif.Spec.Pipeline
import Verif.Spec.ListChain

/-!
# Specification for C178: columns that elements have nothing to do with
-/

namespace Marxs

/-- Column `c` is none of the columns of this element: not its id, not its local coordinates, not the position and never among the names that
its own function returns. -/
def Elem.Leaves (e : Elem) (c : String) : Prop :=
  c ≠ "pos" ∧ e.idCol ≠ some c ∧ (∀ a b, e.locCoos = some (a, b) → c ≠ a ∧ c ≠ b) ∧
  match e.action with
  | .vector f => ∀ t mask ip ic outs, f t mask ip ic = .ok outs → ∀ v, (some c, v) ∉ outs
  | .each _ => c ∉ ["dir", "pos", "energy", "polarization", "probability"] ∧ c ∉ e.outputColumns
  | .missing => True

/-- The same for all parts of a simulation. -/
def Step.Leaves : Step → String → Prop
  | .elem e, c => e.Leaves c
  | .stack s, c => s.base.Leaves c ∧ ∀ e ∈ s.layers, e.Leaves c
  | .filter _, c => c ≠ "probability"
  | .baffle _, c => c ≠ "pos" ∧ c ≠ "probability"
  | .zero _, c => c ≠ "probability"

/-- Column `c` is not used for local coordinates, ids or additional output. -/
def ElemCols.Leaves (k : ElemCols) (c : String) : Prop :=
  (∀ a b, k.loc = some (a, b) → c ≠ a ∧ c ≠ b) ∧ k.idCol ≠ some c ∧ ∀ x ∈ k.extra, x.1 ≠ c

/-- The photon list has gained columns, perhaps, but no photon and no column is lost and photons are in the same order; column `c` is
exactly the same as before. -/
structure Carries (c : String) (t t' : Table) : Prop where
  names : t.names <+: t'.names
  column : t'.rows.map (fun r => r c) = t.rows.map fun r => r c

end Marxs
