import Mathlib.Data.Real.Basic

/-!
# Photon tables and the generic optical element

Models `marxs/optics/base.py` (`_assign_col_value`, `OpticalElement.process_photons`,
`FlatStack.process_photons`), `marxs/base/base.py` (`add_output_cols`) and the
photon-list level filters in `marxs/optics/filter.py`, `marxs/optics/baffles.py`.

Simplifications: floats are reals, `NaN` is `none`; an `astropy.table.Table` is the list of its
column names plus one function `name → value` per row (only names in `names` are meaningful);
units, meta data and dtypes are not modelled here.
-/

namespace Marxs

open Classical

/-- Cell of a photon table: a float (`none` = NaN), an int, or a vector of floats
(columns `pos`, `dir`, `polarization`).  Models the cell types used in `marxs/optics/base.py`. Used for `marxs/optics/base.py:37-39`. -/
inductive Val where
  | num (x : Option ℝ)
  | int (n : ℤ)
  | vec (v : List (Option ℝ))

/-- Python exceptions raised by the modelled code. Used for `marxs/optics/base.py:12-51`. -/
inductive Err where
  | valueError
  | keyError
  | typeError
  | attributeError
  | notImplemented
  | setupError
  | assertionError
  | indexError
  | sourceError
  | zeroDivision
  | formatError
  | nameError
  deriving DecidableEq

/-- One photon: its value in each column. Used for `marxs/optics/base.py:177-201`. -/
abbrev Row := String → Val

/-- Photon list (`astropy.table.Table`). Used for `marxs/optics/base.py:12-51`. -/
structure Table where
  names : List String
  rows : List Row

/-- Right-hand side of a column assignment: scalar, or array with one entry per selected row.
`marxs/optics/base.py:37-39` ("scalar or array"). -/
inductive ColVal where
  | scalar (v : Val)
  | arr (vs : List Val)

/-- All values of a right-hand side, used by the range check in `marxs/optics/base.py:43`. -/
def ColVal.toList : ColVal → List Val
  | .scalar v => [v]
  | .arr vs => vs

/-- `value < 0` or `value > 1` for one entry; comparisons with NaN are false.
`marxs/optics/base.py:43`. -/
def Val.OutOfRange : Val → Prop
  | .num (some x) => x < 0 ∨ 1 < x
  | .num none => False
  | .int n => n < 0 ∨ 1 < n
  | .vec v => ∃ x, some x ∈ v ∧ (x < 0 ∨ 1 < x)

/-- Product of two cells (`photons[col][index] *= value`, `marxs/optics/base.py:45`); NaN is
absorbing.  Multiplying by or into a vector cell is a shape error, reported as `none`. -/
def Val.mul : Val → Val → Option Val
  | .num (some x), .num (some y) => some (.num (some (x * y)))
  | .num (some x), .int n => some (.num (some (x * n)))
  | .num none, .num _ => some (.num none)
  | .num none, .int _ => some (.num none)
  | .num (some _), .num none => some (.num none)
  | _, _ => none

/-- numpy broadcasting of a right-hand side to `k` selected rows. A one-element array is
broadcast, any other length mismatch raises `ValueError`. Used for `marxs/optics/base.py:12-51`. -/
def ColVal.expand (k : ℕ) : ColVal → Except Err (List Val)
  | .scalar v => .ok (List.replicate k v)
  | .arr vs =>
    if vs.length = k then .ok vs
    else match vs with
      | [v] => .ok (List.replicate k v)
      | _ => .error .valueError

/-- Number of selected rows, `intersect.sum()`. Used for `marxs/optics/base.py:12-51`. -/
def countTrue (mask : List Bool) : ℕ := mask.count true

/-- Selection by a boolean mask, `x[intersect]`. Used for `marxs/optics/base.py:191-192`. -/
def sel {α : Type} : List Bool → List α → List α
  | true :: ms, x :: xs => x :: sel ms xs
  | false :: ms, _ :: xs => sel ms xs
  | _, _ => []

/-- Masked write of one column: `photons[col][mask] = vals` (`vals` has one entry per `True`). Used for `marxs/optics/base.py:12-51`. -/
def assignMasked (col : String) : List Bool → List Row → List Val → List Row
  | true :: ms, r :: rs, v :: vs => Function.update r col v :: assignMasked col ms rs vs
  | false :: ms, r :: rs, vs => r :: assignMasked col ms rs vs
  | _, rs, _ => rs

/-- Masked multiplication of one column: `photons[col][mask] *= vals`, `none` on a type error. Used for `marxs/optics/base.py:12-51`. -/
def mulMasked (col : String) : List Bool → List Row → List Val → Option (List Row)
  | true :: ms, r :: rs, v :: vs => do
      let p ← Val.mul (r col) v
      let rest ← mulMasked col ms rs vs
      pure (Function.update r col p :: rest)
  | false :: ms, r :: rs, vs => do
      let rest ← mulMasked col ms rs vs
      pure (r :: rest)
  | _, rs, _ => some rs

/-- `_assign_col_value`, `marxs/optics/base.py:12-51`, for a boolean `index`.
`col = none` models the `None` key that is skipped (line 46). -/
noncomputable def assignColValue (t : Table) (col : Option String) (mask : List Bool)
    (value : ColVal) : Except Err Table :=
  match col with
  | some "probability" =>
    if ∃ v ∈ value.toList, v.OutOfRange then .error .valueError
    else if "probability" ∉ t.names then .error .keyError
    else do
      let vs ← value.expand (countTrue mask)
      match mulMasked "probability" mask t.rows vs with
      | some rows => .ok { t with rows := rows }
      | none => .error .typeError
  | none => .ok t
  | some c =>
    if c ∉ t.names then .error .keyError
    else do
      let vs ← value.expand (countTrue mask)
      .ok { t with rows := assignMasked c mask t.rows vs }

/-- Add one column with a constant initial value, unless it exists already.
`marxs/base/base.py:271-279`. -/
def Table.addCol (t : Table) (name : String) (init : Val) : Table :=
  if name ∈ t.names then t
  else { names := t.names ++ [name], rows := t.rows.map (fun r => Function.update r name init) }

/-- `add_output_cols`, `marxs/base/base.py:249-286`: all `output_columns` and the given names are
added as NaN columns, then the id column is added as integer column with value `-1`. -/
def addOutputCols (outputColumns : List String) (idCol : Option String)
    (colnames : List (Option String)) (t : Table) : Table :=
  let t1 := (outputColumns.map some ++ colnames).foldl
    (fun t n => match n with
      | none => t
      | some n => t.addCol n (.num none)) t
  match idCol with
  | none => t1
  | some c => t1.addCol c (.int (-1))

/-- The three ways an optical element can define its action, `marxs/optics/base.py:177-201`:
a vectorised `specific_process_photons` (arbitrary, including any random draws it makes), a method
`process_photon` for single photons (reads the photon, returns
`dir, pos, energy, polarization, probability, *others`), or neither (`AttributeError`). -/
inductive Action where
  | vector (f : Table → List Bool → List Val → List (Val × Val) →
      Except Err (List (Option String × ColVal)))
  | each (f : Row → Except Err (List Val))
  | missing

/-- Attributes of an `OpticalElement` that matter for `process_photons`
(`marxs/optics/base.py:54-211`, `marxs/base/base.py:194-247`).
`geom` is `geometry.intersect`: mask, positions and local coordinates, one per photon. -/
structure Elem where
  idCol : Option String
  idNum : ℤ
  locCoos : Option (String × String)
  outputColumns : List String
  action : Action
  geom : Table → List Bool × List Val × List (Val × Val)

/-- `for col in outcols: _assign_col_value(...)`, `marxs/optics/base.py:182-184`. -/
noncomputable def assignAll (mask : List Bool) :
    List (Option String × ColVal) → Table → Except Err Table
  | [], t => .ok t
  | (c, v) :: rest, t => do
      let t' ← assignColValue t c mask v
      assignAll mask rest t'

/-- Direct masked column write (`photons[name][intersect] = ...`) which needs an existing column. Used for `marxs/optics/base.py:203-206`. -/
def setCol (t : Table) (name : String) (mask : List Bool) (vals : List Val) :
    Except Err Table :=
  if name ∈ t.names then .ok { t with rows := assignMasked name mask t.rows vals }
  else .error .keyError

/-- Integer index `i` seen as boolean mask of length `n`. Used for `marxs/optics/base.py:191-197`. -/
def oneHot (n i : ℕ) : List Bool := (List.range n).map (fun j => j == i)

/-- Column names filled by `process_photon`, `marxs/optics/base.py:189-190`. -/
def eachCols (outputColumns : List String) : List String :=
  ["dir", "pos", "energy", "polarization", "probability"] ++ outputColumns

/-- Loop over photons for elements with `process_photon`, `marxs/optics/base.py:191-197`.
`work` lists `(i, photon)` for the selected photons; the rows in `work` are the copy
`photons[intersect]` that is made before the loop starts. -/
noncomputable def eachLoop (outputColumns : List String) (f : Row → Except Err (List Val)) :
    List (ℕ × Row) → Table → Except Err Table
  | [], t => .ok t
  | (i, r) :: rest, t => do
      let outs ← f r
      let t' ← assignAll (oneHot t.rows.length i)
        (((eachCols outputColumns).map some).zip (outs.map ColVal.scalar)) t
      eachLoop outputColumns f rest t'

/-- Indices and copies of the selected rows, `zip(photons[intersect], n_intersect)`,
`marxs/optics/base.py:191-192`. -/
def selectedRows (mask : List Bool) (t : Table) : List (ℕ × Row) :=
  (sel mask (List.range t.rows.length)).zip (sel mask t.rows)

/-- First part of `process_photons`: the element specific action, `marxs/optics/base.py:177-201`. -/
noncomputable def runAction (e : Elem) (t : Table) (mask : List Bool) (interpos : List Val)
    (intercoos : List (Val × Val)) : Except Err Table :=
  match e.action with
  | .vector f =>
    match f t mask interpos intercoos with
    | .error x => .error x
    | .ok outcols =>
      assignAll mask outcols (addOutputCols e.outputColumns e.idCol (outcols.map (·.1)) t)
  | .each f => eachLoop e.outputColumns f (selectedRows mask t) t
  | .missing => .error .attributeError

/-- Local coordinates, `marxs/optics/base.py:203-206`. -/
def assignLoc (e : Elem) (mask : List Bool) (intercoos : List (Val × Val)) (t : Table) :
    Except Err Table :=
  match e.locCoos with
  | none => .ok t
  | some (a, b) =>
    match setCol (addOutputCols e.outputColumns e.idCol [some a, some b] t) a mask
        (sel mask (intercoos.map (·.1))) with
    | .error x => .error x
    | .ok t' => setCol t' b mask (sel mask (intercoos.map (·.2)))

/-- ID number, `marxs/optics/base.py:207-209`. -/
def assignId (e : Elem) (mask : List Bool) (t : Table) : Except Err Table :=
  match e.idCol with
  | none => .ok t
  | some c => setCol t c mask (List.replicate (countTrue mask) (.int e.idNum))

/-- `OpticalElement.process_photons`, `marxs/optics/base.py:149-211`. -/
noncomputable def processPhotons (e : Elem) (t : Table) (mask : List Bool) (interpos : List Val)
    (intercoos : List (Val × Val)) : Except Err Table :=
  if countTrue mask = 0 then .ok t
  else do
    let t2 ← runAction e t mask interpos intercoos
    let t3 ← assignLoc e mask intercoos t2
    let t4 ← assignId e mask t3
    setCol t4 "pos" mask (sel mask interpos)

/-- `OpticalElement.__call__`, `marxs/optics/base.py:144-147`. -/
noncomputable def Elem.call (e : Elem) (t : Table) : Except Err Table :=
  let g := e.geom t
  processPhotons e t g.1 g.2.1 g.2.2

/-- `FlatStack`, `marxs/optics/base.py:218-281`: the stack has its own id/loc columns and an empty
`specific_process_photons`, and hands the same intersection to all layers. -/
structure Stack where
  idCol : Option String
  idNum : ℤ
  locCoos : Option (String × String)
  outputColumns : List String
  layers : List Elem
  geom : Table → List Bool × List Val × List (Val × Val)

/-- The stack seen as plain element: `specific_process_photons` returns `{}`
(`marxs/optics/base.py:258-259`). -/
def Stack.base (s : Stack) : Elem where
  idCol := s.idCol
  idNum := s.idNum
  locCoos := s.locCoos
  outputColumns := s.outputColumns
  action := .vector fun _ _ _ _ => .ok []
  geom := s.geom

/-- Loop over the layers, `marxs/optics/base.py:278-279`. -/
noncomputable def runLayers (mask : List Bool) (interpos : List Val)
    (intercoos : List (Val × Val)) : List Elem → Table → Except Err Table
  | [], t => .ok t
  | e :: es, t => do
      let t' ← processPhotons e t mask interpos intercoos
      runLayers mask interpos intercoos es t'

/-- `FlatStack.process_photons`, `marxs/optics/base.py:261-281`. -/
noncomputable def Stack.processPhotons (s : Stack) (t : Table) (mask : List Bool)
    (interpos : List Val) (intercoos : List (Val × Val)) : Except Err Table := do
  if 0 < countTrue mask then
    let t1 ← Marxs.processPhotons s.base t mask interpos intercoos
    runLayers mask interpos intercoos s.layers t1
  else
    return t

/-- `FlatStack.__call__` (inherited), `marxs/optics/base.py:144-147`. -/
noncomputable def Stack.call (s : Stack) (t : Table) : Except Err Table :=
  let g := s.geom t
  s.processPhotons t g.1 g.2.1 g.2.2

/-- `GlobalEnergyFilter.__call__`, `marxs/optics/filter.py:48-53`; `f` is `filterfunc` applied to
the energy column (arbitrary result, scalar or one value per photon). -/
noncomputable def globalFilter (f : List Val → ColVal) (t : Table) : Except Err Table :=
  let p := f (t.rows.map (· "energy"))
  if ∃ v ∈ p.toList, v.OutOfRange then .error .valueError
  else if "probability" ∉ t.names then .error .keyError
  else do
    let vs ← p.expand t.rows.length
    match mulMasked "probability" (t.rows.map fun _ => true) t.rows vs with
    | some rows => .ok { t with rows := rows }
    | none => .error .typeError

/-- `Baffle.process_photons`, `marxs/optics/baffles.py:25-28`: the position of photons that pass the
hole is updated, the probability of all others is set to zero. -/
def baffle (t : Table) (mask : List Bool) (interpos : List Val) : Except Err Table := do
  let t1 ← setCol t "pos" mask (sel mask interpos)
  let nmask := mask.map (! ·)
  setCol t1 "probability" nmask (List.replicate (countTrue nmask) (.num (some 0)))

/-- Photon-list level steps that can appear in a `Sequence`: generic optical elements, stacks,
global filters, baffles (with their own intersection), and `spomounting`/`catsupportbars`-like
functions that zero the probability of selected photons
(`marxs/missions/athena/spo.py:141-145`, `marxs/missions/mitsnl/catgrating.py:315-325`). -/
inductive Step where
  | elem (e : Elem)
  | stack (s : Stack)
  | filter (f : List Val → ColVal)
  | baffle (geom : Table → List Bool × List Val)
  | zero (bad : Row → Bool)

/-- `photons['probability'][cond] = 0.`. Used for `marxs/missions/mitsnl/catgrating.py:315-325`. -/
def zeroWhere (bad : Row → Bool) (t : Table) : Except Err Table :=
  let mask := t.rows.map bad
  setCol t "probability" mask (List.replicate (countTrue mask) (.num (some 0)))

/-- Calling one step. Used for `marxs/simulator/simulator.py:42-49`. -/
noncomputable def Step.call : Step → Table → Except Err Table
  | .elem e, t => e.call t
  | .stack s, t => s.call t
  | .filter f, t => globalFilter f t
  | .baffle g, t => Marxs.baffle t (g t).1 (g t).2
  | .zero bad, t => zeroWhere bad t

/-- `BaseContainer.__call__` without hooks, `marxs/simulator/simulator.py:42-49`: the photons are
passed from element to element, the first exception stops the run. -/
noncomputable def runSequence : List Step → Table → Except Err Table
  | [], t => .ok t
  | s :: ss, t => do
      let t' ← s.call t
      runSequence ss t'

end Marxs
