import Mathlib.Data.Real.Basic
import Verif.Model.Table

/-!
# Random selection from tables: `marxs/math/random.py`, order selectors, `MultiAperture`

Random numbers are arguments: `u`, `r` are draws of `np.random.rand()`, in [0, 1).
-/

namespace Marxs

open Classical

/-- `np.cumsum`, with the sum of what came before. Used for `marxs/math/random.py:56-80`. -/
def cumsumFrom (s : ℝ) : List ℝ → List ℝ
  | [] => []
  | w :: l => (s + w) :: cumsumFrom (s + w) l

/-- `np.cumsum`. Used for `marxs/math/random.py:56-80`. -/
def cumsum (l : List ℝ) : List ℝ := cumsumFrom 0 l

/-- `np.searchsorted(a, v)`: first index with `v <= a[i]` (length if there is none). Used for `marxs/math/random.py:85-92`. -/
noncomputable def searchsortedLeft (a : List ℝ) (v : ℝ) : ℕ := a.findIdx (fun c => decide (v ≤ c))

/-- `np.searchsorted(a, v, side='right')`, `np.digitize(v, a)`: first index with `v < a[i]` (length if
there is none). Used for `marxs/optics/aperture.py:202`. -/
noncomputable def searchsortedRight (a : List ℝ) (v : ℝ) : ℕ := a.findIdx (fun c => decide (v < c))

/-- `np.diff`. Used for `marxs/math/random.py:56-80`. -/
def diff : List ℝ → List ℝ
  | a :: b :: l => (b - a) :: diff (b :: l)
  | _ => []

/-- Attributes of a `RandomArbitraryPdf`, `marxs/math/random.py:64-80`. `sortindex` is `None` for
`sort=False`. -/
structure ArbPdf where
  x : List ℝ
  width : List ℝ
  sortindex : Option (List ℕ)
  pdf : List ℝ
  cdf : List ℝ

/-- `RandomArbitraryPdf.__init__`, `marxs/math/random.py:56-80`. `argsort` is `np.argsort` (some
permutation of the indices), `none` for `sort=False`. -/
noncomputable def ArbPdf.init (x pdf : List ℝ) (argsort : Option (List ℝ → List ℕ)) : Except Err ArbPdf :=
  if x.length ≠ pdf.length then .error .valueError
  else if ¬ ∀ p ∈ pdf, 0 ≤ p then .error .valueError
  else
    let width := 0 :: diff x
    if ¬ ∀ w ∈ width, 0 ≤ w then .error .valueError
    else
      -- for empty input the arrays have different length and numpy broadcasts to an empty array
      let weights := List.zipWith (· * ·) pdf width
      match argsort with
      | none => .ok ⟨x, width, none, weights, cumsum weights⟩
      | some f =>
        let sorted := (f weights).map (fun i => weights.getD i 0)
        .ok ⟨x, width, some (f weights), sorted, cumsum sorted⟩

/-- Number of the bin that is drawn, `RandomArbitraryPdf.__call__`, `marxs/math/random.py:85-92`, for
one draw `u`. An empty distribution raises an `IndexError` at `cdf[-1]`. -/
noncomputable def ArbPdf.bin (a : ArbPdf) (u : ℝ) : Except Err ℕ :=
  match a.cdf.getLast? with
  | none => .error .indexError
  | some total =>
    let index := searchsortedLeft a.cdf (u * total)
    match a.sortindex with
    | none => .ok index
    | some σ => match σ[index]? with
      | none => .error .indexError
      | some i => .ok i

/-- Value that is drawn, `marxs/math/random.py:93-96`. In `self.x[index - 1]` index 0 refers to the
last element. -/
noncomputable def ArbPdf.draw (a : ArbPdf) (randomize : Bool) (u r : ℝ) : Except Err ℝ :=
  match a.bin u with
  | .error e => .error e
  | .ok i =>
    if randomize then
      match (if i = 0 then a.x.getLast? else a.x[i - 1]?), a.width[i]? with
      | some lo, some w => .ok (lo + w * r)
      | _, _ => .error .indexError
    else
      match a.x[i]? with
      | some v => .ok v
      | none => .error .indexError

/-- `np.argmin` of a list that is not empty: first index of the smallest element. Used for `marxs/optics/grating.py:89-96`. -/
noncomputable def argmin : List ℝ → ℕ
  | [] => 0
  | [_] => 0
  | a :: b :: l => if a ≤ (b :: l).getD (argmin (b :: l)) 0 then 0 else argmin (b :: l) + 1

/-- `EfficiencyFile.__call__`, `marxs/optics/grating.py:89-96`, for one photon: `energy` is the energy
column, `prob` the rows of order probabilities. With a total of zero the cumulative probabilities are
NaN and no order is found (`ValueError` from `np.min` of an empty array). -/
noncomputable def efficiencyFile (energy : List ℝ) (prob : List (List ℝ)) (orders : List ℤ) (e r : ℝ) :
    Except Err (ℤ × ℝ) :=
  if energy = [] then .error .valueError
  else
    let ind := argmin (energy.map (fun x => |x - e|))
    match prob[ind]? with
    | none => .error .indexError
    | some row =>
      let total := row.sum
      if total = 0 then .error .valueError
      else
        let k := ((cumsum row).map (· / total)).findIdx (fun c => decide (r < c))
        match orders[k]? with
        | none => .error .valueError
        | some o => .ok (o, total)

/-- `EfficiencyFile.__init__`, `marxs/optics/grating.py:78-82`: check of the number of columns. -/
def efficiencyFileCheck (prob : List (List ℝ)) (orders : List ℤ) : Except Err Unit :=
  if ∀ row ∈ prob, row.length = orders.length then .ok () else .error .valueError

/-- `InterpolateEfficiencyTable.__call__`, `marxs/missions/mitsnl/catgrating.py:136-144`, for one
photon; `probs` are the interpolated probabilities. `np.argmax` of an array without `True` is 0. -/
noncomputable def interpolateTable (probs : List ℝ) (orders : List ℤ) (r : ℝ) : Except Err (ℤ × ℝ) :=
  let total := probs.sum
  let cum := (cumsum probs).map (· / total)
  let k := if total ≠ 0 ∧ ∃ c ∈ cum, r < c then cum.findIdx (fun c => decide (r < c)) else 0
  match orders[k]? with
  | none => .error .indexError
  | some o => .ok (o, total)

/-- `OrderSelector.__init__`, `marxs/optics/grating.py:37-49`. -/
noncomputable def orderSelectorInit (orders : List ℤ) (p : Option (List ℝ)) : Except Err (List ℝ) :=
  match p with
  | none => .ok (List.replicate orders.length (1 / (orders.length : ℝ)))
  | some p =>
    if p.length ≠ orders.length then .error .valueError
    else if 1 < p.sum then .error .valueError
    else if ∃ x ∈ p, x < 0 then .error .valueError
    else .ok p

/-- `np.random.choice(a, p=p)` for one draw: numpy searches the draw in the cumulative sum of `p`,
divided by its last element. Checks of numpy are not modelled. Used for `marxs/optics/grating.py:51-57`. -/
noncomputable def randomChoice (a : List ℤ) (p : List ℝ) (r : ℝ) : Option ℤ :=
  a[searchsortedRight ((cumsum p).map (· / p.sum)) r]?

/-- `OrderSelector.__call__`, `marxs/optics/grating.py:51-57`, for one photon. Weights that are all
zero give NaN and `np.random.choice` raises a `ValueError`. -/
noncomputable def orderSelector (orders : List ℤ) (p : List ℝ) (r : ℝ) : Except Err (ℤ × ℝ) :=
  let psum := p.sum
  if psum = 0 then .error .valueError
  else match randomChoice orders (p.map (· / psum)) r with
    | none => .error .valueError
    | some o => .ok (o, psum)

/-- Number of the aperture for each photon, `MultiAperture.__call__`, `marxs/optics/aperture.py:202`;
before the shuffle in the next line. `self.area` is the sum of the areas. -/
noncomputable def apertureIds (areas : List ℝ) (draws : List ℝ) : List ℕ :=
  draws.map (searchsortedRight ((cumsum areas).map (· / areas.sum)))

/-- Photons that are sent through aperture `i`, `marxs/optics/aperture.py:205-213`. -/
def apertureMask (ids : List ℕ) (i : ℕ) : List Bool := ids.map (· == i)

end Marxs
