import Verif.Spec.Random
import Verif.Spec.Uniform

/-! Specification for C152: distributions of what is drawn from tables. -/

namespace Marxs

open MeasureTheory Classical

/-- Tabulated density as a function: constant in each bin, zero outside of the table. -/
noncomputable def stepDensity (x pdf : List ℝ) (v : ℝ) : ℝ :=
  ∑ i ∈ Finset.range (x.length - 1), if x.getD i 0 ≤ v ∧ v < x.getD (i + 1) 0 then pdf.getD (i + 1) 0 else 0

/-- Sum of the probabilities in a table that belong to order `o`. -/
def orderShare (orders : List ℤ) (p : List ℝ) (o : ℤ) : ℝ :=
  ((orders.zip p).map fun q => if q.1 = o then q.2 else 0).sum

/-- What the result (order, probability) of an order selector adds to the signal in order `o`. -/
noncomputable def selectedWeight (o : ℤ) : Except Err (ℤ × ℝ) → ℝ
  | .ok (o', p) => if o' = o then p else 0
  | .error _ => 0

/-- Photon that has been through an ideal telescope with an order selector. -/
noncomputable def selectedEvent : Except Err (ℤ × ℝ) → DetEvent
  | .ok (o, p) => ⟨o, p, none, 0⟩
  | .error _ => ⟨0, 0, none, 0⟩

end Marxs
