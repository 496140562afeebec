import Verif.Model.ResPower

/-!
# Specification for C113
-/

namespace Marxs
open Classical

/-- Mean and standard deviation move and scale with the numbers, as they should. -/
def StatsScale (stats : List (Option ℝ) → Option (ℝ × ℝ)) : Prop :=
  ∀ (a b : ℝ) (l : List (Option ℝ)), a ≠ 0 →
    stats (l.map fun x => x.map fun v => a * v + b) = (stats l).map fun (m, s) => (a * m + b, |a| * s)

/-- Dispersion coordinates on the detector. A detector that is placed automatically is placed for these photons. -/
def seenAt {α : Type} (det : DetChoice α) (pg : List (GasPhoton α)) : List (Option ℝ) :=
  match det with
  | .optimized best flat => (flat (best pg) pg).map Prod.snd
  | .rowland d => (d pg).map Prod.snd
  | .user d => (d pg).map Prod.snd

/-- Gratings without anything random that treat each photon on its own and never bring back a photon with zero probability. -/
def PhotonByPhoton {α G : Type} (gas : List (List ℤ) → G → List (GasPhoton α) → List (GasPhoton α) × G) : Prop :=
  ∃ f : List (List ℤ) → GasPhoton α → GasPhoton α,
    (∀ sel g photons, (gas sel g photons).1 = photons.map (f sel)) ∧ ∀ sel p, ¬ 0 < p.prob → ¬ 0 < (f sel p).prob

/-- The same for detectors. -/
def DetByPhoton {α : Type} (det : List (GasPhoton α) → List (ℝ × Option ℝ)) : Prop :=
  ∃ f : GasPhoton α → ℝ × Option ℝ, (∀ photons, det photons = photons.map f) ∧ ∀ p, ¬ 0 < p.prob → ¬ 0 < (f p).1

end Marxs
