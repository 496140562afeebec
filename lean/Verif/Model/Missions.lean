import Verif.Model.Table
import Verif.Model.Grating
import Verif.Model.Analysis
import Verif.Model.Base
import Mathlib.Analysis.SpecialFunctions.Log.Basic
import Mathlib.Analysis.SpecialFunctions.Pow.Real

/-!
# Mission specific elements: CAT gratings, SPO mirrors, Arcus analysis, boom rods

Models `marxs/missions/mitsnl/catgrating.py`, the photon-list functions of `marxs/missions/athena/spo.py`,
`Rod` of `marxs/missions/arcus/boom.py`, and the channel bookkeeping of `marxs/missions/arcus`.

Simplifications: `astropy` quantities are numbers in one common unit (mm for lengths; the transmission
table is per micrometer as in the code); random draws are arguments; booleans in a table are the
integers 0 and 1.
-/

namespace Marxs

open Classical

/-! ## Photon-list functions -/

/-- Comparison `value < 0` for one cell; NaN compares false. Used in
`marxs/missions/mitsnl/catgrating.py:322` and `marxs/missions/athena/spo.py:144`. -/
noncomputable def Val.isNeg : Val → Bool
  | .num (some x) => decide (x < 0)
  | .num none => false
  | .int n => decide (n < 0)
  | .vec _ => false

/-- `photons[name] = value` for a scalar: replaces the column or adds it. Used for `marxs/missions/mitsnl/catgrating.py:315-325`. -/
def Table.fillCol (t : Table) (name : String) (v : Val) : Table :=
  { names := if name ∈ t.names then t.names else t.names ++ [name],
    rows := t.rows.map (fun r => Function.update r name v) }

/-- `catsupportbars`, `marxs/missions/mitsnl/catgrating.py:315-325`. -/
noncomputable def catSupportBars (t : Table) : Except Err Table :=
  if "facet" ∈ t.names then zeroWhere (fun r => (r "facet").isNeg) t
  else .ok (t.fillCol "probability" (.num (some 0)))

/-- `spomounting`, `marxs/missions/athena/spo.py:141-145`. -/
noncomputable def spoMounting (t : Table) : Except Err Table :=
  if "xou" ∈ t.names then zeroWhere (fun r => (r "xou").isNeg) t else .error .keyError

/-- `Rod.process_photons`, `marxs/missions/arcus/boom.py:20-25`. `hit r` says if the photon in row `r`
intersects the rod. -/
def rodProcess (hit : Row → Bool) (t : Table) : Except Err Table := do
  let mask := t.rows.map hit
  let t1 := t.addCol "hitrod" (.int 0)
  let t2 ← setCol t1 "hitrod" mask (List.replicate (countTrue mask) (.int 1))
  setCol t2 "probability" mask (List.replicate (countTrue mask) (.num (some 0)))

/-- A boom is a `Parallel` of rods which are processed one after the other,
`marxs/missions/arcus/boom.py:28-60`, `marxs/simulator/simulator.py:42-49`. -/
def boomProcess : List (Row → Bool) → Table → Except Err Table
  | [], t => .ok t
  | h :: hs, t => do
      let t' ← rodProcess h t
      boomProcess hs t'

/-! ## CAT gratings -/

/-- `QualityFactor.__init__`, `marxs/missions/mitsnl/catgrating.py:155-157`. A grating constant of zero
divides by zero: the factor is then 0, or NaN (`none`) if `sigma` is zero, too. -/
noncomputable def qualityFactor (sigma d : ℝ) : Option ℝ :=
  if d = 0 then (if sigma = 0 then none else some 0)
  else some (Real.exp (-(2 * Real.pi * sigma / d) ^ 2))

/-- `self.factor**(order**2)` for one cell of the column `order`. Used for `marxs/missions/mitsnl/catgrating.py:160-162`. -/
noncomputable def orderFactor (factor : Option ℝ) : Val → Val
  | .num (some m) => .num (factor.map fun f => f ^ (m ^ 2))
  | .int m => .num (factor.map fun f => f ^ ((m : ℝ) ^ 2))
  | .num none => .num none
  | .vec _ => .num none

/-- `QualityFactor.specific_process_photons`, `marxs/missions/mitsnl/catgrating.py:160-162`. -/
noncomputable def qualityAction (sigma d : ℝ) : Action :=
  .vector fun t mask _ _ =>
    if "order" ∈ t.names then
      .ok [(some "probability", .arr ((sel mask t.rows).map fun r =>
        orderFactor (qualityFactor sigma d) (r "order")))]
    else .error .keyError

/-- Dimensions of a support structure (`l1_dims`, `l2_dims`),
`marxs/missions/mitsnl/catgrating.py:53-57`. -/
structure LxDims where
  bardepth : ℝ
  period : ℝ
  barwidth : ℝ

/-- `check_lx_dims`, `marxs/missions/mitsnl/catgrating.py:165-168`. -/
noncomputable def checkLxDims (x : LxDims) : Except Err Unit :=
  if x.barwidth < x.period then .ok () else .error .valueError

/-- `openfraction` of L1, `marxs/missions/mitsnl/catgrating.py:190`. -/
noncomputable def l1Open (x : LxDims) : ℝ := 1 - x.barwidth / x.period

/-- Transmission through the support bars for one row of the table,
`marxs/missions/mitsnl/catgrating.py:192-194`: `exp(log(t) * bardepth / (1 micrometer))`, where `depth`
is in micrometer. `log(0)` is minus infinity, which gives 0 for positive depth; `none` stands for NaN or
infinity. -/
noncomputable def l1Trans (depth t : ℝ) : Option ℝ :=
  if 0 < t then some (Real.exp (Real.log t * depth))
  else if t = 0 ∧ 0 < depth then some 0 else none

/-- `interp1d(x, y)` of scipy for an increasing list of energies: linear interpolation, `ValueError` outside
of the range of the table (`marxs/missions/mitsnl/catgrating.py:195`). -/
noncomputable def interp1d (tab : List (ℝ × ℝ)) (x : ℝ) : Except Err ℝ :=
  match tab.head?, tab.getLast? with
  | some a, some b =>
    if x < a.1 ∨ b.1 < x then .error .valueError
    else match interp x tab with
      | some v => .ok v
      | none => .error .valueError
  | _, _ => .error .valueError

/-- Result of the L1 layer for one photon. Used for `marxs/missions/mitsnl/catgrating.py:200-215`. -/
structure L1Out where
  dir : Option H4
  pol : Option H4
  order : ℤ
  prob : ℝ
  blaze : Option ℝ

/-- `L1.specific_process_photons`, `marxs/missions/mitsnl/catgrating.py:200-215`, for one photon; `u` is
the random number, `trans` is `transfunc`. -/
noncomputable def l1Photon (g : Grating) (x : LxDims) (trans : ℝ → Except Err ℝ) (u : ℝ)
    (dir pol : H4) (energy : ℝ) (coo : ℝ × ℝ) : Except Err L1Out :=
  let r := g.process dir pol energy coo
  if l1Open x < u then do
    let p ← trans energy
    .ok ⟨some dir, some pol, 0, p, r.1.blaze⟩
  else .ok ⟨r.1.dir, r.2, r.1.m, r.1.prob, r.1.blaze⟩

/-- Four finite numbers in a cell. Used for `marxs/missions/mitsnl/catgrating.py:200-215`. -/
def Val.toH4 : Val → Option H4
  | .vec [some x, some y, some z, some w] => some ⟨x, y, z, w⟩
  | _ => none

/-- Factor for one photon in L2, `marxs/missions/mitsnl/catgrating.py:243-253`; `angle` is the angle
between ray and normal. Defined for a period that is not zero. -/
noncomputable def l2Factor (x : LxDims) (angle : ℝ) : ℝ :=
  let innerfree := x.period - x.barwidth
  let openfraction := (innerfree / x.period) ^ 2
  let shadowarea := x.bardepth * innerfree * Real.sin angle
  let totalarea := x.period ^ 2 / 2 * Real.sqrt 3
  openfraction - shadowarea / totalarea

/-- `L2Abs.specific_process_photons` for one photon, `marxs/missions/mitsnl/catgrating.py:239-254`:
`n` is the normal of the element; a direction of length zero gives NaN. -/
noncomputable def l2Photon (x : LxDims) (n : H4) (dir : Val) : Val :=
  match dir.toH4 with
  | none => .num none
  | some d => match normVector d with
    | none => .num none
    | some p => .num (some (l2Factor x (Real.arccos |p.dot n|)))

/-- `L2Abs.specific_process_photons`, `marxs/missions/mitsnl/catgrating.py:236-254`. -/
noncomputable def l2Action (x : LxDims) (n : H4) : Action :=
  .vector fun t mask _ _ =>
    .ok [(some "probability", .arr ((sel mask t.rows).map fun r => l2Photon x n (r "dir")))]

/-- `L2Diffraction.scatter`, `marxs/missions/mitsnl/catgrating.py:272-278`: drawn angle for a wavelength
and a standard normal draw `z`. The arcsin of a number above 1 is NaN (`none`). -/
noncomputable def l2Scatter (x : LxDims) (wave z : ℝ) : Option ℝ :=
  let q := wave / (x.period - x.barwidth)
  if |q| ≤ 1 then some (z * (1.22 * 0.4 * Real.arcsin q)) else none

/-- `NonParallelCATGrating.blaze_angle_modifier`, `marxs/missions/mitsnl/catgrating.py:304-312`. -/
def nonParallelBlaze (blazeCenter dBlaze : ℝ) (coo : ℝ × ℝ) : ℝ := blazeCenter + coo.1 * dBlaze

/-! ## Arcus channels -/

/-- `id_num_offset`, `marxs/missions/arcus/utils.py:15-18`. -/
def idNumOffset : List (String × ℤ) := [("1", 0), ("2", 1000), ("1m", 10000), ("2m", 11000)]

/-- `np.digitize(x, bins)` for increasing `bins`: index of the first bin edge above `x`. Used for `marxs/missions/arcus/analyze_grid.py:77-78`. -/
def digitize (x : ℤ) (bins : List ℤ) : ℕ := bins.findIdx (fun b => decide (x < b))

/-- Column `aper_id`, `marxs/missions/arcus/analyze_grid.py:77-78`. -/
def aperId (xou : ℤ) : ℕ := digitize xou (idNumOffset.map Prod.snd)

/-- Selection in `ScatterPerChannel.__call__` as set up in `marxs/missions/arcus/arcus.py:243-245`
and done in `marxs/missions/athena/spo.py:133-135`. -/
def scatterMask (offset xou : ℤ) : Bool := decide (offset ≤ xou) && decide (xou < offset + 1000)

/-- The columns of the photon list used by `analyze_sim`. `orderL1` is `none` for NaN (photons which hit
no grating). Used for `marxs/missions/arcus/analyze_grid.py:91-92`. -/
structure ArcusEvent where
  xou : ℤ
  orderL1 : Option ℤ
  ev : DetEvent

/-- Photons of one channel, `marxs/missions/arcus/analyze_grid.py:91-92`. -/
noncomputable def channelPhotons (a : ℕ) (photons : List ArcusEvent) : List DetEvent :=
  (photons.filter fun p => decide (aperId p.xou = a ∧ p.orderL1 = some 0)).map ArcusEvent.ev

/-- The checks in `analyze_sim`, `marxs/missions/arcus/analyze_grid.py:80-82`. -/
noncomputable def analyzeChecks {V : Type} (energy : Option (List ℝ)) (hdr : Header V)
    (reference : Option (Header V)) : Except Err Unit :=
  match reference with
  | none => checkEnergyConsistent energy
  | some m => match checkMetaConsistent hdr m true metaKeywords with
    | .error e => .error e
    | .ok _ => checkEnergyConsistent energy

/-- `analyze_sim`, `marxs/missions/arcus/analyze_grid.py:47-107`: resolving power and effective area for
each channel and order. `zeropos` gives the position of the zeroth order for a channel name, `n` is the
keyword `EXPOSURE`, `area` the keyword `A_GEOM`. -/
noncomputable def analyzeSim {V : Type} (stats : List ℝ → ℝ × ℝ) (photons : List ArcusEvent)
    (energy : Option (List ℝ)) (hdr : Header V) (orders : List ℤ) (reference : Option (Header V))
    (zeropos : String → ℝ) (area n : ℝ) : Except Err (List (List (Option ℝ)) × List (List ℝ)) :=
  match analyzeChecks energy hdr reference with
  | .error e => .error e
  | .ok _ =>
    let out := (List.range idNumOffset.length).map fun i =>
      captureResAeff stats orders area (some (zeropos ((idNumOffset.map Prod.fst).getD i "")))
        aeffFilterCCD (channelPhotons (i + 1) photons) (some n)
    .ok (out.map ResAeff.R, out.map ResAeff.Aeff)

/-- The key `'ORDER_{}'.format(i)`. Used for `marxs/missions/arcus/analyze_grid.py:169-170`. -/
def orderKey (i : ℕ) : String := "ORDER_" ++ toString i

/-- Writing the orders in `aeffRfromraygrid`, `marxs/missions/arcus/analyze_grid.py:169-170`. -/
noncomputable def writeOrders (i : ℕ) : List ℤ → List (String × ℤ) → List (String × ℤ)
  | [], hdr => hdr
  | o :: os, hdr => writeOrders (i + 1) os (dictSet hdr (orderKey i) o)

/-- The loop in `orders_from_meta`, `marxs/missions/arcus/analyze_grid.py:174-180`. The first argument
bounds the number of steps. -/
def ordersLoop (hdr : List (String × ℤ)) : ℕ → ℕ → List ℤ
  | 0, _ => []
  | fuel + 1, i => match hdr.lookup (orderKey i) with
    | none => []
    | some o => o :: ordersLoop hdr fuel (i + 1)

/-- `orders_from_meta`, `marxs/missions/arcus/analyze_grid.py:174-180`: there cannot be more keywords than
entries in the header, thus that number bounds the loop. -/
def ordersFromMeta (hdr : List (String × ℤ)) : List ℤ := ordersLoop hdr hdr.length 0

end Marxs
