import Verif.Model.Ogip

/-!
# Specification of OGIP redistribution matrices and of key-value tables

`ogipValue` is the rule of the OGIP memo CAL/GEN/92-002: a row of the matrix is a list of groups
`(first channel, number of channels)`; the matrix elements of all groups are stored one after the
other; channels in no group have response zero.
-/

namespace Marxs

/-- Response in channel `c` by the OGIP rules. -/
def ogipValue : List (ℤ × ℤ) → List ℝ → ℤ → ℝ
  | [], _, _ => 0
  | (f, n) :: gs, m, c =>
    if f ≤ c ∧ c < f + n then m.getD (c - f).toNat 0 else ogipValue gs (m.drop n.toNat) c

open Classical in
/-- The response with everything that is not above the threshold set to zero. -/
noncomputable def cutBelow (thr : ℝ) (arr : List ℝ) : List ℝ :=
  arr.map fun x => if thr < x then x else 0

open Classical in
/-- Positions of the entries above the threshold, in ascending order. -/
noncomputable def aboveThr (thr : ℝ) (arr : List ℝ) : List ℕ :=
  (List.range arr.length).filter fun i => decide (thr < arr.getD i 0)

/-- `row` is the row of the `MATRIX` table for energies `[lo, hi)` that the library's encoder
writes for the response `arr`. -/
def StoredRow (t : ℤ) (thr : ℝ) (lo hi : ℝ) (arr : List ℝ) (row : RmfRow) : Prop :=
  row.energLo = lo ∧ row.energHi = hi ∧
    ∃ g, arrToRmfRow arr t thr = .ok g ∧ row.nGrp = g.nGrp ∧ row.fChan = .arr g.fChan ∧
      row.nChan = .arr g.nChan ∧ row.matrix = g.matrix

/-! ### Header tables as plain stores

The specification of a `ColOrKeyTable` with `len` rows is a map from names to columns. -/

/-- One user action on a table: `t[name] = value` or `t[name][i] = value`. -/
inductive CkOp (V : Type) where
  | assign (name : String) (value : CkVal V)
  | elem (name : String) (i : ℕ) (v : V)

/-- A history of actions, stopping at the first exception. -/
noncomputable def ckRun {V : Type} (t : CkTable V) : List (CkOp V) → Except Err (CkTable V)
  | [] => .ok t
  | .assign name value :: ops =>
    match t.set name value with
    | .ok t' => ckRun t' ops
    | .error e => .error e
  | .elem name i v :: ops =>
    match t.setElem name i v with
    | .ok t' => ckRun t' ops
    | .error e => .error e

/-- What a user sees for a name: the column, or the header value repeated for every row. -/
def ckShown {V : Type} (t : CkTable V) (name : String) : Option (List V) :=
  match t.get name with
  | .ok (.scalar v) => some (List.replicate t.len v)
  | .ok (.arr l) => some l
  | .error _ => none

/-- The column has at least two different entries. -/
def Varying {V : Type} (l : List V) : Prop := ∃ x ∈ l, ∃ y ∈ l, x ≠ y

open Classical in
/-- The effect an action should have on the store. -/
noncomputable def ckSpec {V : Type} (len : ℕ) (E : String → Option (List V)) :
    CkOp V → (String → Option (List V))
  | .assign name (.scalar v) => Function.update E name (some (List.replicate len v))
  | .assign _ (.arr []) => E
  | .assign name (.arr (v :: l)) =>
    Function.update E name (some (if Varying (v :: l) then v :: l else List.replicate len v))
  | .elem name i v => Function.update E name ((E name).map fun l => l.set i v)

/-- The history never assigns a varying array to a name that holds a constant at that moment. -/
def NoVaryingOverConst {V : Type} (len : ℕ) :
    (String → Option (List V)) → List (CkOp V) → Prop
  | _, [] => True
  | E, op :: ops =>
    (match op with
      | .assign name (.arr l) => Varying l → ∀ v, E name ≠ some (List.replicate len v)
      | _ => True) ∧ NoVaryingOverConst len (ckSpec len E op) ops

/-- A table as the library leaves it: columns have the length of the table and at least two different
entries, and no name is both a column and a header keyword. -/
def CkClean {V : Type} (t : CkTable V) : Prop :=
  ∀ name l, t.cols.lookup name = some l → t.metaDict name = none ∧ l.length = t.len ∧ Varying l

end Marxs
