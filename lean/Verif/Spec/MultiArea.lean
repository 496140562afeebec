import Verif.Model.Random
import Verif.Spec.Uniform

/-!
# Specification for C156: statistical error of simulated effective areas
-/

namespace Marxs

open MeasureTheory

/-- All random numbers for a simulation of `n` photons that go through a `MultiAperture`: one number for each photon
to select an aperture, and for each photon two numbers for the position in the aperture and everything else that is
random about it (`E`, with distribution `nu`); all independent. -/
noncomputable def photonNumbers {E : Type} [MeasurableSpace E] (nu : Measure E) (n : ℕ) :
    Measure ((Fin n → ℝ) × (Fin n → (ℝ × ℝ) × E)) :=
  (Measure.pi fun _ => randomNumber).prod (Measure.pi fun _ => randomPair.prod nu)

/-- The number of the aperture that photon `k` goes through: `s` is the result of the shuffle, i.e. photon `k` gets
what was drawn for photon `s k`. -/
noncomputable def multiChoice (as : List Aperture) {n : ℕ} (s : Equiv.Perm (Fin n)) (r : Fin n → ℝ) (k : Fin n) : ℕ :=
  (apertureIds (as.map Aperture.area) (List.ofFn r)).getD (s k) 0

/-- Where in its plane a photon enters the aperture number `i`. -/
noncomputable def entryOf (as : List Aperture) (i : ℕ) (u : ℝ × ℝ) : ℝ × ℝ :=
  match as[i]? with
  | some a => a.entry u
  | none => (0, 0)

/-- The detected events for all photons; `ev i p x` is what a photon causes that enters aperture `i` at `p`. -/
noncomputable def eventsOf {E : Type} (as : List Aperture) (ev : ℕ → ℝ × ℝ → E → DetEvent) {n : ℕ}
    (s : Equiv.Perm (Fin n)) (q : (Fin n → ℝ) × (Fin n → (ℝ × ℝ) × E)) : List DetEvent :=
  List.ofFn fun k => ev (multiChoice as s q.1 k) (entryOf as (multiChoice as s q.1 k) (q.2 k).1) (q.2 k).2

/-- The true effective area: the sum over all openings of the integral of the mean weight of a photon that enters
there. -/
noncomputable def trueArea {E : Type} [MeasurableSpace E] (nu : Measure E) (as : List Aperture)
    (ev : ℕ → ℝ × ℝ → E → DetEvent) (o : ℤ) : ℝ :=
  (as.mapIdx fun i a => ∫ p in a.opening, ∫ x, orderWeight o (ev i p x) ∂nu).sum

end Marxs
