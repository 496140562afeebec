import Verif.Model.Tolerancing
import Verif.Model.Grating

/-!
# Tolerancing functions for gratings

Models `oneormoreelements`, `varyperiod`, `varyorderselector` in `marxs/design/tolerancing.py` and
`marxs/missions/mitsnl/tolerances.py`.
-/

namespace Marxs
open Classical

/-- First argument of the decorated functions, `marxs/design/tolerancing.py:34-39`: one element or something iterable. Elements are
references (numbers) to objects in memory. -/
inductive OneOrMore where
  | one (r : ℕ)
  | many (l : List ℕ)

/-- The loop in `oneormoreelements`, `marxs/design/tolerancing.py:35-36`: memory and state of the random number generator afterwards, also if there was an
exception. -/
def tolLoop {α G : Type} (func : α → G → Except Err (α × G)) : List ℕ → (ℕ → α) → G → (ℕ → α) × G × Option Err
  | [], heap, g => (heap, g, none)
  | r :: rs, heap, g =>
    match func (heap r) g with
    | .error e => (heap, g, some e)
    | .ok (a, g) => tolLoop func rs (Function.update heap r a) g

/-- `oneormoreelements`, `marxs/design/tolerancing.py:26-41`. -/
def oneOrMoreElements {α G : Type} (func : α → G → Except Err (α × G)) (elements : OneOrMore) (heap : ℕ → α) (g : G) :
    (ℕ → α) × G × Option Err :=
  match elements with
  | .many l => tolLoop func l heap g
  | .one r => tolLoop func [r] heap g

/-- Attributes `_d` and `order_selector` of an object; `none`: there is no such attribute. Used for `marxs/design/tolerancing.py:197-199`. -/
structure GratAttrs (Sel : Type) where
  d : Option ℝ
  sel : Option Sel

/-- `varyperiod` for one element, `marxs/design/tolerancing.py:197-199`. The state of the random number generator is the stream of standard normal
numbers still to come. `np.random.normal` raises ValueError for a negative width. -/
noncomputable def varyPeriod {Sel : Type} (mean sigma : ℝ) (e : GratAttrs Sel) (z : ℕ → ℝ) :
    Except Err (GratAttrs Sel × (ℕ → ℝ)) :=
  match e.d with
  | none => .error .valueError
  | some _ => if sigma < 0 then .error .valueError
    else .ok ({ e with d := some (mean + sigma * z 0) }, fun i => z (i + 1))

/-- `varyorderselector` for one element, `marxs/design/tolerancing.py:218-220`. `make` is `order_selector(*args, **kwargs)`. The state counts the objects
made, so objects made in different calls can be told apart. -/
def varyOrderSelector {Sel : Type} (make : ℕ → Except Err Sel) (e : GratAttrs Sel) (n : ℕ) : Except Err (GratAttrs Sel × ℕ) :=
  match e.sel with
  | none => .error .valueError
  | some _ => match make n with
    | .error x => .error x
    | .ok s => .ok ({ e with sel := some s }, n + 1)

/-- Gratings made by `generate_elements` with grating constant and order selector from `elem_args`, `marxs/simulator/simulator.py:384-440`, for the
tolerancing functions that call it (`marxs/design/tolerancing.py:59, 78, 103`). New objects are stored from reference `free` on. -/
def regenGratings {Sel : Type} (args : GratAttrs Sel) (n free : ℕ) (heap : ℕ → GratAttrs Sel) : List ℕ × (ℕ → GratAttrs Sel) :=
  ((List.range n).map (free + ·), fun r => if free ≤ r ∧ r < free + n then args else heap r)

/-- `generate_facet_uncertainty` with a different offset of the rotation for each element,
`marxs/design/uncertainties.py:36-39`. -/
noncomputable def facetUncertaintyEach (n : ℕ) (xyz angle : Fin 3 → ℝ) (rOff : ℕ → Fin 3 → ℝ)
    (zt zr : ℕ → Fin 3 → ℝ) : Except Err (List M4) :=
  if (∃ k, xyz k < 0) ∨ (∃ k, angle k < 0) then .error .valueError
  else
    let translation := (List.range n).map fun i => fun k => xyz k * zt i k
    let rotation := (List.range n).map fun i => fun k => rOff i k + angle k * zr i k
    .ok ((translation.zip rotation).map fun (t, a) =>
      compose t (euler2mat (a 0) (a 1) (a 2)) ![1, 1, 1])

/-- A `Parallel` object, the number of `NonParallelCATGrating`s in each of its elements and the `blaze_center` of all of them. Used for `marxs/missions/mitsnl/tolerances.py:56-97`. -/
structure BarState where
  state : ParState
  perElem : ℕ
  blaze : List ℝ

/-- `wiggle_and_bar_tilt`, `marxs/missions/mitsnl/tolerances.py:56-97`, for one `Parallel` object. `u` are uniform random numbers, `zt` and `zr`
normal random numbers, `b0` is the `blaze_center` in `elem_args`. An error comes with the state that is left behind (`none`: in the middle of
`generate_elements`, not modelled). -/
noncomputable def wiggleAndBarTilt (dec : M4 → Decomp) (p : Dof) (maxBarTilt b0 : ℝ) (u : ℕ → ℝ) (zt zr : ℕ → Fin 3 → ℝ) (e : BarState) :
    Except (Err × Option BarState) BarState :=
  let n := e.state.elements.length
  let tilts := (List.range n).map fun i => -maxBarTilt + (maxBarTilt - -maxBarTilt) * u i
  let tiltOffsets : ℕ → Fin 3 → ℝ := fun i => ![0, tilts.getD i 0, 0]
  match facetUncertaintyEach n ![p.dx, p.dy, p.dz] ![p.rx, p.ry, p.rz] (fun i => -tiltOffsets i) zt zr with
  | .error x => .error (x, some e)
  | .ok us =>
    match ParState.regenerate dec { e.state.par with elemUncertainty := us } with
    | .error x => .error (x, none)
    | .ok st =>
      let grats := List.replicate (st.elements.length * e.perElem) b0
      if grats.length ≠ tilts.length then .error (.setupError, some ⟨st, e.perElem, grats⟩)
      else .ok ⟨st, e.perElem, tilts⟩

/-- `OrderSelectorWavy.probabilities`, `marxs/missions/mitsnl/tolerances.py:31-32`. `probs` is `InterpolateEfficiencyTable.probabilities` for one photon. -/
def wavyProbabilities {β : Type} (probs : ℝ → H4 → ℝ → β) (sigma : ℝ) (z : ℝ) (energy : ℝ) (pol : H4) (blaze : ℝ) : β :=
  probs energy pol (blaze + sigma * z)

/-- `OrderSelectorTopHat.probabilities`, `marxs/missions/mitsnl/tolerances.py:52-53`; `u` is a uniform random number. -/
noncomputable def topHatProbabilities {β : Type} (probs : ℝ → H4 → ℝ → β) (width : ℝ) (u : ℝ) (energy : ℝ) (pol : H4) (blaze : ℝ) : β :=
  probs energy pol (blaze + width * (u - 0.5))

end Marxs
