import Mathlib.Data.Set.Card
import Mathlib.Probability.Distributions.Exponential
import Mathlib.Probability.Independence.Basic
import Verif.Model.Source

/-!
# Specification for C153: a Poisson source

The random numbers are described by their distribution: independent, exponentially distributed waiting times.
-/

namespace Marxs

open MeasureTheory ProbabilityTheory

/-- `s 0, s 1, ...` are the numbers that `expon.rvs(scale=1 / rate)` delivers: independent of each other and
exponentially distributed with mean `1 / rate`. -/
def IsWaiting {Ω : Type} [MeasurableSpace Ω] (P : Measure Ω) (rate : ℝ) (s : ℕ → Ω → ℝ) : Prop :=
  (∀ i, Measurable (s i)) ∧ (∀ i, Measure.map (s i) P = expMeasure rate) ∧ iIndepFun s P

/-- Photons that arrive before the end of the exposure if photon `k` comes `s k` after the one before. -/
def arrivalsBefore (s : ℕ → ℝ) (T : ℝ) : Set ℕ := {k | ∑ i ∈ Finset.range (k + 1), s i < T}

/-- The function made by `poisson_process` returns the times `ts` (after finitely many rounds of its loop). -/
def PoissonReturns (rate T : ℝ) (s : ℕ → ℝ) (ts : List ℝ) : Prop :=
  ∃ rounds, poissonTimes rate T s rounds = some ts

/-- It never returns. -/
def PoissonHangs (rate T : ℝ) (s : ℕ → ℝ) : Prop := ∀ rounds, poissonTimes rate T s rounds = none

/-- Probability of `k` events if `x` are expected: the Poisson distribution. -/
noncomputable def poissonWeight (x : ℝ) (k : ℕ) : ℝ := Real.exp (-x) * x ^ k / (k.factorial : ℝ)

end Marxs
