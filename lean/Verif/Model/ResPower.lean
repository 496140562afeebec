import Mathlib.Data.Real.Basic
import Verif.Model.Table

/-!
# Resolving power order by order

Models `resolvingpower_per_order` in `marxs/analysis/gratings.py`.
-/

namespace Marxs
open Classical

/-- What `resolvingpower_per_order` reads in a row of a photon list: order (`none` for photons that slipped between the gratings) and
probability, `marxs/analysis/gratings.py:120`. `rest` is everything else. -/
structure GasPhoton (α : Type) where
  order : Option ℤ
  prob : ℝ
  rest : α

/-- The attributes of the grating structure that are changed: `elem_args['order_selector']` and the `order_selector` of each
element, `marxs/analysis/gratings.py:112-115`. An `OrderSelector([order])` is represented by its list of orders. -/
structure GasState where
  arg : Option (List ℤ)
  elements : List (List ℤ)

/-- The ways to choose a detector, `marxs/analysis/gratings.py:83-108`. A detector is a function that gives probability and dispersion
coordinate (`none` for NaN) of each photon. For `optimized` the function `best` is `find_best_detector_position` and `flat` is the
detector made with its result. -/
inductive DetChoice (α : Type) where
  | optimized (best : List (GasPhoton α) → ℝ) (flat : ℝ → List (GasPhoton α) → List (ℝ × Option ℝ))
  | rowland (det : List (GasPhoton α) → List (ℝ × Option ℝ))
  | user (det : List (GasPhoton α) → List (ℝ × Option ℝ))

/-- Position of order 0, `marxs/analysis/gratings.py:83-108`. `stats` is `sigma_clipped_stats` (mean and standard deviation; `none`: NaN). -/
noncomputable def zeroPos {α : Type} (stats : List (Option ℝ) → Option (ℝ × ℝ)) (photons : List (GasPhoton α)) :
    DetChoice α → Option ℝ
  | .optimized _ _ => some 0
  | .rowland det => (stats (((det photons).filter fun p => 0 < p.1).map Prod.snd)).map Prod.fst
  | .user det => (stats ((det photons).map Prod.snd)).map Prod.fst

/-- Detector used for one order, `marxs/analysis/gratings.py:121-124`. -/
def DetChoice.detect {α : Type} (pg : List (GasPhoton α)) : DetChoice α → List (ℝ × Option ℝ)
  | .optimized best flat => flat (best pg) pg
  | .rowland det => det pg
  | .user det => det pg

/-- Numbers computed from the detected positions, `marxs/analysis/gratings.py:125-127`: resolving power and FWHM. `none`: NaN or (if all
photons are detected in the same place) infinity. -/
noncomputable def resFwhm (stats : List (Option ℝ) → Option (ℝ × ℝ)) (zero : Option ℝ) (x : List (Option ℝ)) :
    Option ℝ × Option ℝ :=
  match stats x with
  | none => (none, none)
  | some (mean, std) =>
    (match zero with
      | none => none
      | some z => if 2.3548 * std = 0 then none else some |(mean - z) / (2.3548 * std)|,
      some (2.3548 * std))

/-- Loop over the orders, `marxs/analysis/gratings.py:111-127`. `gas sel g photons` is what the gratings with order selectors `sel` do to
the photons with the random number generator in state `g`. -/
noncomputable def resLoop {α G : Type} (stats : List (Option ℝ) → Option (ℝ × ℝ))
    (gas : List (List ℤ) → G → List (GasPhoton α) → List (GasPhoton α) × G)
    (photons : List (GasPhoton α)) (det : DetChoice α) (zero : Option ℝ) :
    List ℤ → GasState → G → List (Option ℝ × Option ℝ) × GasState × G
  | [], s, g => ([], s, g)
  | o :: os, s, g =>
    let s : GasState := { arg := some [o], elements := s.elements.map fun _ => [o] }
    let (pg, g) := gas s.elements g photons
    let pg := pg.filter fun p => p.order = some o ∧ 0 < p.prob
    let r := resFwhm stats zero ((det.detect pg).map Prod.snd)
    let (rs, s', g') := resLoop stats gas photons det zero os s g
    (r :: rs, s', g')

/-- `resolvingpower_per_order`, `marxs/analysis/gratings.py:26-128`. -/
noncomputable def resolvingPowerPerOrder {α G : Type} (stats : List (Option ℝ) → Option (ℝ × ℝ))
    (gas : List (List ℤ) → G → List (GasPhoton α) → List (GasPhoton α) × G)
    (photons : List (GasPhoton α)) (orders : List ℤ) (det : DetChoice α) (s : GasState) (g : G) :
    List (Option ℝ × Option ℝ) × GasState × G :=
  resLoop stats gas photons det (zeroPos stats photons det) orders s g

end Marxs
