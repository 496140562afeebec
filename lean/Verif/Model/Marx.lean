import Verif.Model.Optics

/-!
# Mirrors simulated by the MARX C code

Models `MarxMirror.__call__` (`marxs/optics/marx.py:185-205`) and the decorator `photonlocalcoords`
(`marxs/optics/base.py:284-316`) it uses. The C library itself is a parameter: any function from the list of photons it is given
to a list of photons (or a failure). Photon lists are lists of records with the columns that matter here.
`MarxError` is represented by `.setupError`.
-/

namespace Marxs

open Classical

/-- Columns of the photon list that goes in; `tag` is added as `0, 1, 2, ...` if the list does not have it
(`marxs/optics/marx.py:101-104`). -/
structure MarxIn where
  tag : ℤ
  energy : ℝ
  time : ℝ
  pos : H4
  dir : H4
  pol : H4
  prob : ℝ

/-- Columns of the table made from the C structure in `_c2table`, `marxs/optics/marx.py:129-174`. -/
structure MarxOut where
  tag : ℤ
  energy : ℝ
  time : ℝ
  pos : H4
  dir : H4
  unreflected : Bool
  vblocked : Bool
  shell : ℤ

/-- One row of the result; `posBefore`, `dirBefore` are the columns `pos_beforemirror`, `dir_beforemirror` and `pol = none` is NaN. Used for `marxs/optics/marx.py:199-201`. -/
structure MarxRow where
  tag : ℤ
  energy : ℝ
  time : ℝ
  pos : H4
  dir : H4
  shell : ℤ
  pol : Option H4
  prob : ℝ
  posBefore : H4
  dirBefore : H4

/-- First half of `photonlocalcoords`, `marxs/optics/base.py:307-309`: the columns of the photon list are overwritten. -/
noncomputable def marxLocal (m : M4) (i : MarxIn) : MarxIn :=
  { i with pos := mul4 m⁻¹ i.pos, dir := mul4 m⁻¹ i.dir }

/-- Second half of `photonlocalcoords`, `marxs/optics/base.py:311-313`, on the table that the function returned. -/
noncomputable def marxGlobal (m : M4) (o : MarxOut) : MarxOut :=
  { o with pos := mul4 m o.pos, dir := mul4 m o.dir }

/-- `astropy.table.join(new, old, keys='tag')`, `marxs/optics/marx.py:188-190`: all pairs with equal tag, ordered by tag. -/
def joinTag (outs : List MarxOut) (ins : List MarxIn) : List (MarxOut × MarxIn) :=
  ((outs.map (·.tag)).dedup.insertionSort (· ≤ ·)).flatMap fun g =>
    (outs.filter fun o => o.tag = g).flatMap fun o => (ins.filter fun i => i.tag = g).map fun i => (o, i)

/-- `photons_in[np.argsort(photons_in['tag'])]`, `marxs/optics/marx.py:194`. -/
def sortTag (ins : List MarxIn) : List MarxIn := ins.insertionSort fun a b => a.tag ≤ b.tag

/-- New probability of one row, `marxs/optics/marx.py:193-198`. The column `probability` of the joined table comes from
the photon list (`pr.2`), and is multiplied with the value that is looked up in the same photon list by tag. -/
def marxProb (sorted : List MarxIn) (pr : MarxOut × MarxIn) : Except Err ℝ :=
  match sorted.find? fun i => pr.1.tag ≤ i.tag with
  | none => .error .indexError
  | some i => .ok (if pr.1.unreflected || pr.1.vblocked then 0 else pr.2.prob * i.prob)

/-- One row of the result; `src` is the row of the sorted photon list that stands at the same place,
`marxs/optics/marx.py:199-201`. -/
noncomputable def marxRow (sorted : List MarxIn) (pr : MarxOut × MarxIn) (src : MarxIn) : Except Err MarxRow := do
  let p ← marxProb sorted pr
  .ok { tag := pr.1.tag, energy := pr.1.energy, time := pr.1.time, pos := pr.1.pos, dir := pr.1.dir, shell := pr.1.shell,
        pol := parallelTransport src.dir pr.1.dir src.pol, prob := p, posBefore := pr.2.pos, dirBefore := pr.2.dir }

/-- `MarxMirror.__call__`, `marxs/optics/marx.py:185-205`. Returns the new photon list and the state in which the photon list of
the caller is left. An empty list fails in `np.max(photons['time'])` (line 109). The arrays in the
polarization (lines 199-201) must have the same length, up to broadcasting, and the result must have one row per photon. -/
noncomputable def marxCall (m : M4) (lib : List MarxIn → Option (List MarxOut)) (ins : List MarxIn) :
    Except Err (List MarxRow × List MarxIn) :=
  if ins = [] then .error .valueError
  else
    let loc := ins.map (marxLocal m)
    match lib loc with
    | none => .error .setupError
    | some outs =>
      let joined := joinTag (outs.map (marxGlobal m)) loc
      if joined.length ≠ ins.length ∧ ¬ (ins.length = 1 ∧ joined = []) then .error .valueError
      else do
        let rows ← (joined.zip (sortTag loc)).mapM fun q => marxRow (sortTag loc) q.1 q.2
        .ok (rows, loc)

end Marxs
