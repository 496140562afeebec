import Verif.Model.Container
import Verif.Model.ListChain
import Verif.Model.MathUtils

/-!
# Positions that `KeepCol` has saved

Models `KeepCol.format_positions` (`marxs/simulator/simulator.py:575-617`) with the numbers; the choice of the snapshots
that are kept is `formatPositions` in `Model/Container`.
-/

namespace Marxs
open Classical

/-- The entry of a column of shape `(N, 4)`. Used for `marxs/simulator/simulator.py:575-617`. -/
def Val.isVec4 : Val → Bool
  | .vec [_, _, _, _] => true
  | _ => false

/-- `h2e` for positions that may be NaN, `marxs/math/utils.py:38-62`; comparisons with NaN are false, except for `!=`.
Simplification: a position is NaN in all coordinates or in none. -/
noncomputable def h2eCells (h : List (Option H4)) : Except Err (Option H4 → Option V3) :=
  if (∀ a ∈ h, ∃ q, a = some q ∧ q.w = 0) ∨ (∀ a ∈ h, ∃ q, a = some q ∧ isclose q.w 1) then .ok fun a => a.map H4.xyz
  else if ∀ a ∈ h, ∀ q, a = some q → q.w ≠ 0 then .ok fun a => a.map fun q => ⟨q.x / q.w, q.y / q.w, q.z / q.w⟩
  else .error .valueError

/-- The positions at each step, `marxs/simulator/simulator.py:599-605`: columns must have the shape `(N, 4)` and all the same
length, `np.dstack` is a `ValueError` otherwise. -/
noncomputable def keptFrames (data : List (List Val)) : Except Err (List (List (Option V3))) :=
  match data with
  | [] => .error .valueError
  | d0 :: _ =>
    if (∃ c ∈ data.flatten, c.isVec4 = false) ∨ ∃ d ∈ data, d.length ≠ d0.length then .error .valueError
    else match h2eCells (data.flatten.map Val.toH4) with
      | .error e => .error e
      | .ok f => .ok (data.map fun d => d.map fun c => f c.toH4)

/-- `np.swapaxes`, `marxs/simulator/simulator.py:604`: from one list per step to one list per photon. -/
def perPhoton {α : Type} (frames : List (List α)) : List (List α) :=
  (List.range ((frames.head?.map List.length).getD 0)).map fun i => frames.filterMap (·[i]?)

/-- `np.allclose(a, b, atol=atol, equal_nan=True)` for one point, `marxs/simulator/simulator.py:612-613`; the relative tolerance
is `1e-5`. -/
def closePoint (atol : ℝ) : Option V3 → Option V3 → Prop
  | some a, some b => |a.x - b.x| ≤ atol + 1 / 10 ^ 5 * |b.x| ∧ |a.y - b.y| ≤ atol + 1 / 10 ^ 5 * |b.y| ∧
      |a.z - b.z| ≤ atol + 1 / 10 ^ 5 * |b.z|
  | none, none => True
  | _, _ => False

/-- The same for the positions of all photons. Used for `marxs/simulator/simulator.py:575-617`. -/
noncomputable def closeFrames (atol : ℝ) (f g : List (Option V3)) : Bool := decide (List.Forall₂ (closePoint atol) f g)

/-- `KeepCol.format_positions(atol)`, `marxs/simulator/simulator.py:575-617`: one list of points for each photon. -/
noncomputable def formatPos (atol : Option ℝ) (data : List (List Val)) : Except Err (List (List (Option V3))) :=
  match keptFrames data with
  | .error e => .error e
  | .ok frames =>
    match atol with
    | none => .ok (perPhoton frames)
    | some a => match formatPositions (closeFrames a) frames with
      | .error e => .error e
      | .ok ks => .ok (perPhoton (ks.filterMap (frames[·]?)))

/-- A sequence of elements with `postprocess_steps=[keep]`, where `keep = KeepCol('pos')` is new,
`marxs/simulator/simulator.py:42-49,205-224`: photons and `keep.data` after the run. -/
noncomputable def runKept (os : List (ListOptic × ElemCols)) (t : Table) : Except Err (Table × List (List Val)) :=
  (Node.cont [] [keepCol "pos"] (os.map fun o => .leaf fun t w => (o.1.call o.2 t).map fun t' => (t', w))).call t []

end Marxs
