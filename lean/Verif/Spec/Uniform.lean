import Mathlib.MeasureTheory.Measure.Lebesgue.Basic
import Mathlib.Probability.Independence.Basic
import Verif.Model.Analysis
import Verif.Model.Apertures
import Verif.Spec.Apertures

/-!
# Specification for C150: uniform illumination

Random numbers are described by the measure on the numbers that `np.random` delivers; areas are the usual
(Lebesgue) areas in the plane of an aperture.
-/

namespace Marxs

open MeasureTheory

/-- One random number from `np.random.random`: uniform in `[0, 1)`. -/
noncomputable def randomNumber : Measure ℝ := volume.restrict (Set.Ico 0 1)

/-- Two independent random numbers. -/
noncomputable def randomPair : Measure (ℝ × ℝ) := randomNumber.prod randomNumber

/-- The point in the plane of an element that is `p.1` mm along its first and `p.2` mm along its second axis from
the center. -/
noncomputable def inPlane (m : M4) (p : ℝ × ℝ) : V3 :=
  (center m).xyz + p.1 • (vY m).xyz.unit + p.2 • (vZ m).xyz.unit

/-- The opening of an aperture, in mm in its plane: a rectangle, or (a sector of) a ring. -/
noncomputable def Aperture.opening (a : Aperture) : Set (ℝ × ℝ) :=
  match a.shape with
  | .rect => {p | |p.1| < (vY a.m).xyz.norm ∧ |p.2| < (vZ a.m).xyz.norm}
  | .circle rInner phi0 phi1 => {p | ∃ d phi, rInner < d ∧ d < (vY a.m).xyz.norm ∧ phi0 < phi ∧ phi < phi1 ∧
      p = (d * Real.cos phi, d * Real.sin phi)}

/-- The aperture is open: the sector of a ring is not empty and at most the whole ring. -/
def Aperture.IsOpen (a : Aperture) : Prop :=
  match a.shape with
  | .rect => True
  | .circle _ phi0 phi1 => phi0 < phi1 ∧ phi1 ≤ phi0 + 2 * Real.pi

/-- Where in its plane (in mm) a photon with the random numbers `u` enters the aperture. -/
noncomputable def Aperture.entry (a : Aperture) (u : ℝ × ℝ) : ℝ × ℝ :=
  ((vY a.m).xyz.norm * (a.xy u).1, (vZ a.m).xyz.norm * (a.xy u).2)

/-- Contribution of one detected event to order `o`. -/
def orderWeight (o : ℤ) (e : DetEvent) : ℝ := if e.order = o then e.prob else 0

/-- A sequence of random numbers for simulated photons: each photon gets two random numbers for the aperture and
everything else that is random about it (`E`, with distribution `nu`), independent of the other photons. -/
def IsSimulation {Ω E : Type} [MeasurableSpace Ω] [MeasurableSpace E] (P : Measure Ω) (nu : Measure E)
    (X : ℕ → Ω → (ℝ × ℝ) × E) : Prop :=
  (∀ i, Measurable (X i)) ∧ (∀ i, Measure.map (X i) P = randomPair.prod nu) ∧
  Pairwise fun i j => ProbabilityTheory.IndepFun (X i) (X j) P

end Marxs
