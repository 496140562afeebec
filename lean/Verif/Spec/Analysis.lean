import Verif.Model.Analysis

/-!
# Specification vocabulary for the analysis functions
-/

namespace Marxs

/-- Sum of the probabilities of all photons in one order. -/
def orderSum (photons : List DetEvent) (o : ℤ) : ℝ :=
  (photons.map (fun p => if p.order = o then p.prob else 0)).sum

/-- Sum of all probabilities. -/
def totalProb (photons : List DetEvent) : ℝ := (photons.map DetEvent.prob).sum

/-- The angle is, up to full turns, not further than `d` from `c`. -/
def WithinAngle (angle c d : ℝ) : Prop := ∃ k : ℤ, |angle - c - 2 * Real.pi * k| ≤ d

/-- Number of photons in one order. -/
def countOrder (photons : List (ℤ × ℝ)) (o : ℤ) : ℕ := photons.countP (fun p => p.1 == o)

/-- Rows of a table on a regular grid: one row for each pair, second coordinate running fastest. -/
def gridRows (xs ys : List ℝ) (f : ℕ → ℕ → ℝ) : List (ℝ × ℝ × ℝ) :=
  (List.range xs.length).flatMap (fun i => (List.range ys.length).map
    (fun j => (xs.getD i 0, ys.getD j 0, f i j)))

end Marxs
