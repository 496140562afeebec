import Verif.Model.Tolerancing

/-!
# Alignment budgets

Models `reformat_randall_errorbudget` and `reformat_errorbudget`, and the loops that apply the budget to a telescope: `Arcus.__init__`
(`marxs/missions/arcus/arcus.py:472-485`), `Lynx.__init__` (`marxs/missions/lynx/lynx.py:217-227`), `AXIS.__init__` (`marxs/missions/AXIS/AXIS.py:223-233`).

Simplifications: random numbers are taken from a fixed stream `z` of standard normal numbers; `pos` counts how many have been used. The
kind `'individual_with_tilt'`, which is accepted by Arcus only, is not part of this model (see `wiggleAndBarTilt`); here it is treated as
in the other missions.
-/

namespace Marxs
open Classical

/-- One row of a budget: `[class, kind, tolerances, reformatted tolerances or None, comment]`, `marxs/missions/arcus/arcus.py:521-541`,
`marxs/missions/lynx/lynx.py:262-271`. -/
structure BudgetRow (C : Type) where
  cls : C
  kind : String
  spec : List ℝ
  tol : Option (List ℝ)
  comment : String

/-- `np.deg2rad`. Used for `marxs/missions/arcus/arcus.py:165-168`. -/
noncomputable def npDeg2rad (x : ℝ) : ℝ := x * (Real.pi / 180)

/-- Units and sigma, `marxs/missions/arcus/arcus.py:165-168`. -/
noncomputable def randallUnits (spec : List ℝ) : List ℝ :=
  ((spec.take 3).map (fun x => x / 1000) ++ (spec.drop 3).map (fun x => npDeg2rad (x / 3600))).map (fun x => x / 3)

/-- `tol *= np.random.randn(len(tol))`, with the next numbers of the stream. Used for `marxs/missions/arcus/arcus.py:164-175`. -/
def mulDraws (z : ℕ → ℝ) : ℕ → List ℝ → List ℝ
  | _, [] => []
  | pos, x :: xs => x * z pos :: mulDraws z (pos + 1) xs

/-- The loop over rows in `reformat_randall_errorbudget` (`conv = randallUnits`, `marxs/missions/arcus/arcus.py:164-175`) and `reformat_errorbudget`
(`conv = id`, `marxs/missions/lynx/lynx.py:250-258`). `row[3]` is set in place. -/
noncomputable def reformatBudget {C : Type} (conv : List ℝ → List ℝ) (globalfac : Option ℝ) (z : ℕ → ℝ) : ℕ → List (BudgetRow C) → List (BudgetRow C) × ℕ
  | pos, [] => ([], pos)
  | pos, row :: rows =>
    let tol := conv row.spec
    let r : List ℝ × ℕ :=
      if row.kind = "global" then
        match globalfac with
        | some f => (tol.map (fun x => x * f), pos)
        | none => (mulDraws z pos tol, pos + tol.length)
      else (tol, pos)
    let rest := reformatBudget conv globalfac z r.2 rows
    ({ row with tol := some r.1 } :: rest.1, rest.2)

/-- Attributes of one object of the telescope: `uncertainty` and `elem_uncertainty` (for `Parallel` objects), and `own`: everything that was
set on this object after it had been made. Used for `marxs/design/tolerancing.py:62-78`. -/
structure Align (A : Type) where
  unc : M4
  elemUnc : List M4
  own : A

/-- Number that identifies an object (its place in the telescope). Used for `marxs/design/tolerancing.py:44-78`. -/
def Elt.ident {C : Type} : Elt C → ℕ
  | .leaf _ i => i
  | .cont _ i _ => i

/-- `e.elements`. Used for `marxs/design/tolerancing.py:44-78`. -/
def Elt.inner {C : Type} : Elt C → List (Elt C)
  | .leaf _ _ => []
  | .cont _ _ es => es

mutual
/-- Identifiers of an object and everything in it. Used for `marxs/design/tolerancing.py:44-78`. -/
def Elt.idents {C : Type} : Elt C → List ℕ
  | .leaf _ i => [i]
  | .cont _ i es => i :: identsList es
/-- the same for a list. Used for `marxs/design/tolerancing.py:44-78`. -/
def identsList {C : Type} : List (Elt C) → List ℕ
  | [] => []
  | e :: es => e.idents ++ identsList es
end

/-- Positional arguments `dx, dy, dz, rx, ry, rz` with defaults 0, `marxs/design/tolerancing.py:45, 63`. -/
def dofOfList (l : List ℝ) : Dof := ⟨l.getD 0 0, l.getD 1 0, l.getD 2 0, l.getD 3 0, l.getD 4 0, l.getD 5 0⟩

/-- What `moveglobal` (`marxs/design/tolerancing.py:62-78`) or `wiggle` (`marxs/design/tolerancing.py:44-59`) sets on an object with `n` elements, and how many random
numbers are used; `z` are the next random numbers. -/
noncomputable def alignOp {A : Type} (kind : String) (tol : List ℝ) (n : ℕ) (a : Align A) (z : ℕ → ℝ) : Except Err (Align A × ℕ) :=
  if kind = "global" then .ok ({ a with unc := moveMat (dofOfList tol) }, 0)
  else
    let p := dofOfList tol
    match generateFacetUncertainty n ![p.dx, p.dy, p.dz] ![p.rx, p.ry, p.rz] 0 0
        (fun i k => z (3 * i + k)) (fun i k => z (3 * n + 3 * i + k)) with
    | .error x => .error x
    | .ok u => .ok ({ a with elemUnc := u }, 6 * n)

/-- The functions of `marxs/design/tolerancing.py:44-78` called for one object. `generate_elements` exists for `Parallel` objects only; it replaces all elements (and all that is in them) by
new ones, `marxs/simulator/simulator.py:384-440`: `fresh` is how objects are when they have just been made. `isPar` tells if a class is derived from `Parallel`. -/
noncomputable def alignOne {C A : Type} (isPar : C → Bool) (fresh : ℕ → Align A) (kind : String) (tol : List ℝ) (z : ℕ → ℝ)
    (e : Elt C) (s : (ℕ → Align A) × ℕ) : Except Err ((ℕ → Align A) × ℕ) :=
  if tol.length > 6 then .error .typeError
  else match e with
    | .leaf _ _ => .error .attributeError
    | .cont c i es =>
      match alignOp kind tol es.length (s.1 i) (fun k => z (s.2 + k)) with
      | .error x => .error x
      | .ok (a, used) =>
        if isPar c then .ok (fun j => if j = i then a else if j ∈ identsList es then fresh j else s.1 j, s.2 + used)
        else .error .attributeError

/-- The loop in `oneormoreelements`, `marxs/design/tolerancing.py:33-39`. -/
noncomputable def alignAll {C A : Type} (isPar : C → Bool) (fresh : ℕ → Align A) (kind : String) (tol : List ℝ) (z : ℕ → ℝ) :
    List (Elt C) → (ℕ → Align A) × ℕ → Except Err ((ℕ → Align A) × ℕ)
  | [], s => .ok s
  | e :: es, s =>
    match alignOne isPar fresh kind tol z e s with
    | .error x => .error x
    | .ok s => alignAll isPar fresh kind tol z es s

/-- Body of the loop over the budget, `marxs/missions/lynx/lynx.py:221-227`, `marxs/missions/arcus/arcus.py:477-485`, `marxs/missions/AXIS/AXIS.py:227-233`. Unpacking `*None` is
a `TypeError`. -/
noncomputable def alignRow {C A : Type} [BEq C] (isPar : C → Bool) (fresh : ℕ → Align A) (z : ℕ → ℝ) (tel : Elt C) (row : BudgetRow C)
    (s : (ℕ → Align A) × ℕ) : Except Err ((ℕ → Align A) × ℕ) :=
  let elem := tel.elementsOfClass (fun c => c == row.cls) false
  if row.kind = "global" ∨ row.kind = "individual" then
    match row.tol with
    | none => .error .typeError
    | some tol => alignAll isPar fresh row.kind tol z elem s
  else .error .notImplemented

/-- `Lynx.__init__`, `marxs/missions/lynx/lynx.py:218-227`; `Arcus.__init__`, `marxs/missions/arcus/arcus.py:473-485`; `AXIS.__init__`, `marxs/missions/AXIS/AXIS.py:224-233`: the loop over the budget, for a telescope without misalignments made by the parent class. An exception in
the constructor means that there is no telescope. -/
noncomputable def alignTelescope {C A : Type} [BEq C] (isPar : C → Bool) (fresh : ℕ → Align A) (z : ℕ → ℝ) (tel : Elt C) :
    List (BudgetRow C) → (ℕ → Align A) × ℕ → Except Err ((ℕ → Align A) × ℕ)
  | [], s => .ok s
  | row :: rows, s =>
    match alignRow isPar fresh z tel row s with
    | .error x => .error x
    | .ok s => alignTelescope isPar fresh z tel rows s

end Marxs
