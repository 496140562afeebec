import Mathlib.Data.Real.Basic
import Mathlib.Data.List.Sort
import Verif.Model.Table

/-!
# Redistribution matrices and header tables

Models `marxs/reduction/ogip.py` (`ColOrKeyTable`, `RMF`) and `marxs/reduction/lsfparm.py:make_rmf`.

Simplifications: floats are reals (no rounding to `float32`), integers are unbounded, units are
dropped (all energies in keV, all wavelengths in Angstrom), FITS input and output is the identity.
-/

namespace Marxs

open Classical

/-! ## Python helpers -/

/-- `np.diff` of a boolean array: `True` where two neighbours differ. Used for `marxs/reduction/ogip.py:381-431`. -/
def diffBool : List Bool → List Bool
  | a :: b :: l => (a != b) :: diffBool (b :: l)
  | _ => []

/-- `arr.nonzero()[0]`, counting from `k`. Used for `marxs/reduction/ogip.py:381-431`. -/
def nonzeroFrom (k : ℕ) : List Bool → List ℕ
  | [] => []
  | true :: l => k :: nonzeroFrom (k + 1) l
  | false :: l => nonzeroFrom (k + 1) l

/-- `arr.reshape((-1, 2))`: `ValueError` if the number of elements is odd. Used for `marxs/reduction/ogip.py:381-431`. -/
def reshapePairs : List ℕ → Except Err (List (ℕ × ℕ))
  | [] => .ok []
  | a :: b :: l =>
    match reshapePairs l with
    | .ok ps => .ok ((a, b) :: ps)
    | .error e => .error e
  | [_] => .error .valueError

/-- Normalisation of one end of a Python slice for a sequence of length `n`. Used for `marxs/reduction/ogip.py:346-352`. -/
def pySliceEnd (n : ℕ) (i : ℤ) : ℕ :=
  if i < 0 then (i + n).toNat else min i.toNat n

/-- `l[a:b]`. Used for `marxs/reduction/ogip.py:346-352`. -/
def getSlice {α : Type} (l : List α) (a b : ℤ) : List α :=
  (l.drop (pySliceEnd l.length a)).take (pySliceEnd l.length b - pySliceEnd l.length a)

/-- `l[a:b] = v` for a numpy array: the sizes must agree, an array with one element is
broadcast, everything else is a `ValueError`. Used for `marxs/reduction/ogip.py:346-352`. -/
def setSlice (l : List ℝ) (a b : ℤ) (v : List ℝ) : Except Err (List ℝ) :=
  let s := pySliceEnd l.length a
  let e := pySliceEnd l.length b
  if v.length = e - s then .ok (l.take s ++ v ++ l.drop (max s e))
  else match v with
    | [x] => .ok (l.take s ++ List.replicate (e - s) x ++ l.drop (max s e))
    | _ => .error .valueError

/-- `l[i]` with Python's negative indices, `IndexError` outside. Used for `marxs/reduction/ogip.py:346-352`. -/
def pyGet {α : Type} (l : List α) (i : ℤ) : Except Err α :=
  match (if i < 0 then (if i + l.length < 0 then none else l[(i + l.length).toNat]?)
    else l[i.toNat]?) with
  | some x => .ok x
  | none => .error .indexError

/-- Fancy indexing `l[ind]`. Used for `marxs/reduction/ogip.py:355-374`. -/
def fancyGet {α : Type} (l : List α) (ind : List ℤ) : Except Err (List α) :=
  ind.mapM (pyGet l)

/-- `np.cumsum(l)`. Used for `marxs/reduction/ogip.py:350`. -/
def cumsumZ (acc : ℤ) : List ℤ → List ℤ
  | [] => []
  | x :: l => (acc + x) :: cumsumZ (acc + x) l

/-- `np.arange(a, b)` for integers. Used for `marxs/reduction/ogip.py:369-371`. -/
def arangeZ (a b : ℤ) : List ℤ := (List.range (b - a).toNat).map fun i : ℕ => a + (i : ℤ)

/-! ## Encoding one row of the matrix -/

/-- Result of `RMF.arr_to_rmf_matrix_row`. Used for `marxs/reduction/ogip.py:381-431`. -/
structure RmfGroups where
  nGrp : ℕ
  fChan : List ℤ
  nChan : List ℤ
  matrix : List ℝ

/-- `RMF.arr_to_rmf_matrix_row(arr, TLMIN_F_CHAN, threshold)`,
`marxs/reduction/ogip.py:381-431`. -/
noncomputable def arrToRmfRow (arr : List ℝ) (tlmin : ℤ) (threshold : ℝ) :
    Except Err RmfGroups :=
  let ind := arr.map fun x => decide (threshold < x)
  let nfchan := nonzeroFrom 0 (diffBool ([false] ++ ind ++ [false]))
  match reshapePairs nfchan with
  | .error e => .error e
  | .ok startEnd =>
    let nchan := startEnd.map fun p => (p.2 : ℤ) - (p.1 : ℤ)
    let fchan := startEnd.map fun p => (p.1 : ℤ) + tlmin
    if nchan.length = fchan.length then
      .ok ⟨fchan.length, fchan, nchan, sel ind arr⟩
    else .error .assertionError

/-! ## The matrix table and its decoders -/

/-- Cell of the columns `F_CHAN` and `N_CHAN`: a list, or one number per row after
`squeeze()` in `marxs/reduction/ogip.py:464-465`. -/
inductive ChanCell where
  | arr (l : List ℤ)
  | scalar (x : ℤ)

/-- One row of the `MATRIX` table, `marxs/reduction/ogip.py:213-218`. -/
structure RmfRow where
  energLo : ℝ
  energHi : ℝ
  nGrp : ℕ
  fChan : ChanCell
  nChan : ChanCell
  matrix : List ℝ

/-- An `RMF` object, `marxs/reduction/ogip.py:185-238`: the `MATRIX` table, its keyword `TLMIN4`
(first channel number used in `F_CHAN`), and the columns `E_MIN`, `E_MAX` of `EBOUNDS`. -/
structure RMF where
  rows : List RmfRow
  tlmin : Option ℤ
  eMin : List ℝ
  eMax : List ℝ

/-- `row['F_CHAN'][i]`: indexing a scalar is an `IndexError`. Used for `marxs/reduction/ogip.py:346-352`. -/
def ChanCell.get : ChanCell → ℕ → Except Err ℤ
  | .arr l, i => pyGet l i
  | .scalar _, _ => .error .indexError

/-- `np.cumsum(np.concatenate(([0], row['N_CHAN'])))`, `marxs/reduction/ogip.py:350`; concatenating
a scalar is a `ValueError`. -/
def ChanCell.matindex : ChanCell → Except Err (List ℤ)
  | .arr l => .ok (cumsumZ 0 ([0] ++ l))
  | .scalar _ => .error .valueError

/-- `RMF.row(energy)`, `marxs/reduction/ogip.py:318-323`: first row with
`ENERG_LO <= energy < ENERG_HI`. -/
noncomputable def RMF.row (r : RMF) (energy : ℝ) : Except Err RmfRow :=
  match r.rows.find? fun x => decide (x.energLo ≤ energy ∧ energy < x.energHi) with
  | some x => .ok x
  | none => .error .indexError

/-- Loop body of `RMF.full_rmf`, `marxs/reduction/ogip.py:346-352`. -/
def fullRmfStep (row : RmfRow) (tlmin : ℤ) (rmf : List ℝ) (i : ℕ) : Except Err (List ℝ) :=
  match row.fChan.get i with
  | .error e => .error e
  | .ok f =>
    match row.nChan.get i with
    | .error e => .error e
    | .ok n =>
      match row.nChan.matindex with
      | .error e => .error e
      | .ok mi =>
        match pyGet mi i with
        | .error e => .error e
        | .ok m0 =>
          match pyGet mi (i + 1 : ℕ) with
          | .error e => .error e
          | .ok m1 => setSlice rmf (f - tlmin) (f + n - tlmin) (getSlice row.matrix m0 m1)

/-- The decoded array computed in the loop of `RMF.full_rmf`, `marxs/reduction/ogip.py:343-352`,
for `n` channels. -/
def fullRmfRow (n : ℕ) (tlmin : ℤ) (row : RmfRow) : Except Err (List ℝ) :=
  (List.range row.nGrp).foldlM (fullRmfStep row tlmin) (List.replicate n 0)

/-- `RMF.full_rmf(energy)`, `marxs/reduction/ogip.py:329-353`.  A missing `TLMIN4` keyword is a
`KeyError`. -/
noncomputable def RMF.fullRmf (r : RMF) (energy : ℝ) :
    Except Err (List ℝ × List ℝ × List ℝ) :=
  match r.row energy with
  | .error e => .error e
  | .ok row =>
    match r.tlmin with
    | none => .error .keyError
    | some t =>
      match fullRmfRow r.eMin.length t row with
      | .error e => .error e
      | .ok a => .ok (r.eMin, r.eMax, a)

/-- The channel indices in `RMF.rmf`, `marxs/reduction/ogip.py:369-371`: `np.concatenate` of
nothing is a `ValueError`.  The code subtracts 1, whatever `TLMIN` is. -/
def rmfIndices (row : RmfRow) : Except Err (List ℤ) :=
  if row.nGrp = 0 then .error .valueError
  else
    match (List.range row.nGrp).mapM (fun i => do
      let f ← row.fChan.get i
      let n ← row.nChan.get i
      pure (arangeZ (f - 1) (f + n - 1))) with
    | .error e => .error e
    | .ok ls => .ok ls.flatten

/-- `RMF.rmf(energy)`, `marxs/reduction/ogip.py:355-374`. -/
noncomputable def RMF.rmf (r : RMF) (energy : ℝ) :
    Except Err (List ℝ × List ℝ × List ℝ) :=
  match r.row energy with
  | .error e => .error e
  | .ok row =>
    match rmfIndices row with
    | .error e => .error e
    | .ok ind =>
      match fancyGet r.eMin ind with
      | .error e => .error e
      | .ok lo =>
        match fancyGet r.eMax ind with
        | .error e => .error e
        | .ok hi => .ok (lo, hi, row.matrix)

/-! ## Energy bounds -/

/-- `np.sort` / `x[np.argsort(x)]`. Used for `marxs/reduction/ogip.py:252-272`. -/
noncomputable def sortReal (l : List ℝ) : List ℝ := l.mergeSort fun a b => decide (a ≤ b)

/-- `RMF.ebounds_from_edges(channel_edges)`, `marxs/reduction/ogip.py:252-272`: columns `CHANNEL`,
`E_MIN`, `E_MAX`; `conv` is the conversion to keV (identity for energies, `λ ↦ hc/λ` for
wavelengths). -/
noncomputable def eboundsFromEdges (conv : ℝ → ℝ) (edges : List ℝ) :
    List ℕ × List ℝ × List ℝ :=
  let sorted := sortReal (edges.map conv)
  (List.range (edges.length - 1), sorted.dropLast, sorted.tail)

/-- One `MATRIX` row written by `make_rmf`, `marxs/reduction/lsfparm.py:348-357`: `resp lo hi` is
the line spread function of this row integrated over the wavelength bin `(lo, hi)`. -/
noncomputable def makeRmfRow (hc threshold : ℝ) (eMin eMax : List ℝ) (resp : ℝ → ℝ → ℝ)
    (lo hi : ℝ) : Except Err RmfRow :=
  let angLo := eMax.map fun e => hc / e
  let angHi := eMin.map fun e => hc / e
  let fullmatrix := List.zipWith resp angLo.reverse angHi.reverse
  match arrToRmfRow fullmatrix.reverse 0 threshold with
  | .error e => .error e
  | .ok g => .ok ⟨lo, hi, g.nGrp, .arr g.fChan, .arr g.nChan, g.matrix⟩

/-- `make_rmf`, `marxs/reduction/lsfparm.py:318-358`: one row per energy bin; the line spread
function (Sherpa model interpolated from the calibration table) is the argument
`lsf wave : lo → hi → value`. -/
noncomputable def makeRmf (hc threshold : ℝ) (lsf : ℝ → ℝ → ℝ → ℝ) (waveEdges : List ℝ) :
    Except Err RMF :=
  let eb := eboundsFromEdges (fun w => hc / w) waveEdges
  match (List.zip eb.2.1 eb.2.2).mapM (fun p =>
      makeRmfRow hc threshold eb.2.1 eb.2.2 (lsf (1 / 2 * (hc / p.2 + hc / p.1))) p.1 p.2) with
  | .error e => .error e
  | .ok rows => .ok ⟨rows, some 0, eb.2.1, eb.2.2⟩

/-! ## Fixed-length arrays -/

/-- Row of a fixed-width array: `out[i, :len(l)] = l` in an array of zeros of width `w`. A list
that is too long is a `ValueError`. Used for `marxs/reduction/ogip.py:458-461`. -/
def padTo {α : Type} (zero : α) (w : ℕ) (l : List α) : Except Err (List α) :=
  if l.length ≤ w then .ok (l ++ List.replicate (w - l.length) zero) else .error .valueError

/-- The list stored in a cell (a scalar cell cannot be iterated, `TypeError`). Used for `marxs/reduction/ogip.py:464-465`. -/
def ChanCell.toList : ChanCell → Except Err (List ℤ)
  | .arr l => .ok l
  | .scalar _ => .error .typeError

/-- Conversion of one row, `marxs/reduction/ogip.py:458-461`. -/
def fixedRow (g w : ℕ) (r : RmfRow) : Except Err RmfRow := do
  let f ← r.fChan.toList
  let n ← r.nChan.toList
  let f' ← padTo 0 g f
  let n' ← padTo 0 g n
  let m' ← padTo 0 w r.matrix
  pure { r with fChan := .arr f', nChan := .arr n', matrix := m' }

/-- `squeeze()` of an array of shape `(rows, g)` and assignment to a plain `astropy.table.Table`
with that many rows, `marxs/reduction/ogip.py:462-465`: with `g = 1` each cell becomes a number,
with one row and `g ≠ 1` the length does not match (`ValueError`). -/
def squeezeAssign (g : ℕ) (rows : List RmfRow) : Except Err (List RmfRow) :=
  if g = 1 then
    .ok (rows.map fun r =>
      { r with
        fChan := match r.fChan with | .arr [x] => .scalar x | c => c
        nChan := match r.nChan with | .arr [x] => .scalar x | c => c })
  else if rows.length = 1 then .error .valueError
  else .ok rows

/-- `RMF.variable_length_to_fixed_length`, `marxs/reduction/ogip.py:433-466` (the choice of an
integer type is not modelled, `.max()` of an empty array is a `ValueError`). -/
def toFixedLength (rows : List RmfRow) : Except Err (List RmfRow) := do
  let fs ← rows.mapM fun r => r.fChan.toList
  let ns ← rows.mapM fun r => r.nChan.toList
  if fs.flatten = [] ∨ ns.flatten = [] then .error .valueError
  else
    let g := (rows.map fun r => r.nGrp).foldl max 0
    let w := (ns.map fun l => l.sum.toNat).foldl max 0
    let fixed ← rows.mapM (fixedRow g w)
    squeezeAssign g fixed

/-! ## `ColOrKeyTable` -/

/-- Value read from or written to a table: one number or a column. Used for `marxs/reduction/ogip.py:62-68`. -/
inductive CkVal (V : Type) where
  | scalar (v : V)
  | arr (l : List V)

/-- A `ColOrKeyTable` with `len` rows: its columns (in order) and its header,
`marxs/reduction/ogip.py:59-80`. -/
structure CkTable (V : Type) where
  len : ℕ
  cols : List (String × List V)
  metaDict : String → Option V

/-- `ColOrKeyTable.__getitem__(name)`, `marxs/reduction/ogip.py:62-68`: the header wins over the
column (a warning is issued if both exist). -/
def CkTable.get {V : Type} (t : CkTable V) (name : String) : Except Err (CkVal V) :=
  match t.metaDict name with
  | some v => .ok (.scalar v)
  | none =>
    match t.cols.lookup name with
    | some l => .ok (.arr l)
    | none => .error .keyError

/-- `Table.__setitem__` with a name (called in `marxs/reduction/ogip.py:80`, only for arrays with
at least two different entries): replaces an existing column or adds a new one; a length mismatch
is a `ValueError`. -/
def setColumn {V : Type} (t : CkTable V) (name : String) (l : List V) :
    Except Err (CkTable V) :=
  if l.length = t.len then
    if name ∈ t.cols.map Prod.fst then
      .ok { t with cols := t.cols.map fun p => if p.1 = name then (name, l) else p }
    else .ok { t with cols := t.cols ++ [(name, l)] }
  else .error .valueError

/-- `ColOrKeyTable.__setitem__(name, value)`, `marxs/reduction/ogip.py:70-80`; `value[0]` of an
empty array is an `IndexError`. -/
noncomputable def CkTable.set {V : Type} (t : CkTable V) (name : String) :
    CkVal V → Except Err (CkTable V)
  | .scalar v =>
    .ok { t with
      metaDict := Function.update t.metaDict name (some v)
      cols := t.cols.filter fun p => decide (p.1 ≠ name) }
  | .arr [] => .error .indexError
  | .arr (v :: l) =>
    if ∀ x ∈ v :: l, x = v then
      .ok { t with
        metaDict := Function.update t.metaDict name (some v)
        cols := t.cols.filter fun p => decide (p.1 ≠ name) }
    else setColumn t name (v :: l)

/-- `t[name][i] = v`: `ColOrKeyColumn.__setitem__`, `marxs/reduction/ogip.py:46-56`, for a column
without unit.  If the name is in the header, `t[name]` is a number and item assignment is a
`TypeError`.  (The `else` branch at lines 52-56 re-adds a column that was removed from the table
while a reference to it was kept; such references are not modelled.) -/
noncomputable def CkTable.setElem {V : Type} (t : CkTable V) (name : String) (i : ℕ) (v : V) :
    Except Err (CkTable V) :=
  match t.get name with
  | .error e => .error e
  | .ok (.scalar _) => .error .typeError
  | .ok (.arr l) =>
    if i < l.length then
      let l' := l.set i v
      if ∀ x ∈ l', some x = l'[0]? then
        .ok { t with
          metaDict := Function.update t.metaDict name (l'[0]?)
          cols := t.cols.filter fun p => decide (p.1 ≠ name) }
      else .ok { t with cols := t.cols.map fun p => if p.1 = name then (name, l') else p }
    else .error .indexError

end Marxs
