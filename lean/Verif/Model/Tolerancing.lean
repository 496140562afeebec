import Verif.Model.Placement
import Verif.Model.Container
import Verif.Model.Base
import Mathlib.Analysis.SpecialFunctions.Trigonometric.Basic
import Mathlib.Data.List.Dedup
import Mathlib.Data.List.Sort

/-!
# Tolerancing

Models `marxs/design/tolerancing.py` and `marxs/design/uncertainties.py`.

Simplifications: quantities are numbers in the unit the code converts to (mm, rad); random draws are
arguments; a printed progress message and warnings are dropped. Objects that Python changes in place
(photon tables, dictionaries) live in a memory `Mem` and are passed as references (indices), so that
copying and aliasing are visible.
-/

namespace Marxs

open Matrix Classical

/-- The six keyword arguments of the wiggle functions, `marxs/design/tolerancing.py:45, 63, 82, 107`. -/
structure Dof where
  dx : ℝ
  dy : ℝ
  dz : ℝ
  rx : ℝ
  ry : ℝ
  rz : ℝ

/-- All parameters zero, the default of the keyword arguments and `reset_6d`,
`marxs/design/tolerancing.py:518`. -/
def Dof.zero : Dof := ⟨0, 0, 0, 0, 0, 0⟩

/-- Rotation around the x axis (part of `euler2mat`). Used for `marxs/design/tolerancing.py:76`. -/
noncomputable def euX (a : ℝ) : M3 := !![1, 0, 0; 0, Real.cos a, -Real.sin a; 0, Real.sin a, Real.cos a]
/-- Rotation around the y axis (part of `euler2mat`). Used for `marxs/design/tolerancing.py:76`. -/
noncomputable def euY (a : ℝ) : M3 := !![Real.cos a, 0, Real.sin a; 0, 1, 0; -Real.sin a, 0, Real.cos a]
/-- Rotation around the z axis (part of `euler2mat`). Used for `marxs/design/tolerancing.py:76`. -/
noncomputable def euZ (a : ℝ) : M3 := !![Real.cos a, -Real.sin a, 0; Real.sin a, Real.cos a, 0; 0, 0, 1]

/-- `transforms3d.euler.euler2mat(a, b, c, 'sxyz')`, an external function called in
`marxs/design/tolerancing.py:76` and `marxs/design/uncertainties.py:38`: rotate around the static axes x,
then y, then z. -/
noncomputable def euler2mat (a b c : ℝ) : M3 := euZ c * (euY b * euX a)

/-- The matrix made from the six parameters, `marxs/design/tolerancing.py:75-77, 100-102, 129-131`. -/
noncomputable def moveMat (p : Dof) : M4 :=
  compose ![p.dx, p.dy, p.dz] (euler2mat p.rx p.ry p.rz) ![1, 1, 1]

/-- `generate_facet_uncertainty(n, xyz, angle_xyz, trans_offset, rot_offset)`,
`marxs/design/uncertainties.py:8-39`. `zt i k` and `zr i k` are the standard normal draws behind
`np.random.normal`, which refuses a negative `scale`. The offsets are given for each axis. -/
noncomputable def generateFacetUncertainty (n : ℕ) (xyz angle tOff rOff : Fin 3 → ℝ)
    (zt zr : ℕ → Fin 3 → ℝ) : Except Err (List M4) :=
  if (∃ k, xyz k < 0) ∨ (∃ k, angle k < 0) then .error .valueError
  else
    let translation := (List.range n).map fun i => fun k => tOff k + xyz k * zt i k
    let rotation := (List.range n).map fun i => fun k => rOff k + angle k * zr i k
    .ok ((translation.zip rotation).map fun (t, a) =>
      compose t (euler2mat (a 0) (a 1) (a 2)) ![1, 1, 1])

/-- A `Parallel` object: its attributes and `elements` made from them,
`marxs/simulator/simulator.py:321-359`. -/
structure ParState where
  par : Par
  elements : List GenElem

/-- `e.generate_elements()`, `marxs/simulator/simulator.py:384-440`: replaces `elements`. -/
noncomputable def ParState.regenerate (dec : M4 → Decomp) (par : Par) : Except Err ParState :=
  match generateElements dec par with
  | .error e => .error e
  | .ok es => .ok ⟨par, es⟩

/-- `wiggle`, `marxs/design/tolerancing.py:44-59`. -/
noncomputable def wiggle (dec : M4 → Decomp) (p : Dof) (zt zr : ℕ → Fin 3 → ℝ) (e : ParState) :
    Except Err ParState :=
  match generateFacetUncertainty e.elements.length ![p.dx, p.dy, p.dz] ![p.rx, p.ry, p.rz] 0 0 zt zr with
  | .error x => .error x
  | .ok u => ParState.regenerate dec { e.par with elemUncertainty := u }

/-- `moveglobal`, `marxs/design/tolerancing.py:62-78`. -/
noncomputable def moveGlobal (dec : M4 → Decomp) (p : Dof) (e : ParState) : Except Err ParState :=
  ParState.regenerate dec { e.par with uncertainty := moveMat p }

/-- `moveindividual`, `marxs/design/tolerancing.py:81-103`. -/
noncomputable def moveIndividual (dec : M4 → Decomp) (p : Dof) (e : ParState) : Except Err ParState :=
  ParState.regenerate dec
    { e.par with elemUncertainty := List.replicate e.elements.length (moveMat p) }

/-- One tolerancing call on a `Parallel` object. Used for `marxs/design/tolerancing.py:44-103`. -/
inductive ParOp where
  | global (p : Dof)
  | individual (p : Dof)
  | wiggle (p : Dof) (zt zr : ℕ → Fin 3 → ℝ)

/-- Do one call. Used for `marxs/design/tolerancing.py:44-103`. -/
noncomputable def ParOp.run (dec : M4 → Decomp) (e : ParState) : ParOp → Except Err ParState
  | .global p => moveGlobal dec p e
  | .individual p => moveIndividual dec p e
  | .wiggle p zt zr => Marxs.wiggle dec p zt zr e

/-- Do several calls, one after the other. Used for `marxs/design/tolerancing.py:44-103`. -/
noncomputable def runParOps (dec : M4 → Decomp) : List ParOp → ParState → Except Err ParState
  | [], e => .ok e
  | o :: os, e => match o.run dec e with
    | .error x => .error x
    | .ok e' => runParOps dec os e'

/-- The two attributes of a geometry that `moveelem` uses; `orig = none`: there is no attribute
`pos4d_orig`. Used for `marxs/design/tolerancing.py:106-132`. -/
structure GeoState where
  pos4d : M4
  orig : Option M4

/-- `moveelem`, `marxs/design/tolerancing.py:106-132`. -/
noncomputable def moveElem (p : Dof) (g : GeoState) : GeoState :=
  let orig := match g.orig with
    | some o => o
    | none => g.pos4d
  { pos4d := moveMat p * orig, orig := some orig }

/-- `varyattribute`, `marxs/design/tolerancing.py:135-171`, for one element: attributes after the call,
and the exception, if any (attributes set before the exception stay). -/
noncomputable def varyAttribute {V : Type} : List (String × V) → List (String × V) → List (String × V) × Option Err
  | attrs, [] => (attrs, none)
  | attrs, (k, v) :: kw =>
    if k ∈ attrs.map Prod.fst then varyAttribute (dictSet attrs k v) kw
    else (attrs, some .valueError)

/-- A Python dictionary with string keys as list of items. Used for `marxs/design/tolerancing.py:276-278`. -/
abbrev Dict (V : Type) := List (String × V)

/-- `d.update(u)`. Used for `marxs/design/tolerancing.py:274-280`. -/
noncomputable def dictUpdate {V : Type} (d : Dict V) : Dict V → Dict V
  | [] => d
  | (k, v) :: u => dictUpdate (dictSet d k v) u

/-- Memory: photon tables and dictionaries, referred to by index. Used for `marxs/design/tolerancing.py:276-278`. -/
structure Mem (T V : Type) where
  tabs : List T
  dicts : List (Dict V)

/-- The functions handed to `run_tolerances`. `S` is the state of everything else: instrument, wiggled
parts, random number generator, ... Used for `marxs/design/tolerancing.py:276-278`. -/
structure TolFuns (S T V : Type) where
  /-- `wigglefunc(wiggleparts, **pars)`. `**` makes a new dictionary, so `pars` cannot change. -/
  wig : S → Dict V → Except Err S
  /-- `instrum(table)`: new content of the table it was given, a new table if it returns another
  object, new state. -/
  instr : S → T → Except Err (T × Option T × S)
  /-- `analyzefunc(photons)`: new content of the table, result, new state. -/
  ana : S → T → Except Err (T × Dict V × S)

/-- Put the result of the instrument into memory: the table `r` has new content, and if the instrument
returns a new object, that is added. The result is the reference to `photons`. Used for `marxs/design/tolerancing.py:276-278`. -/
def storeTable {T V : Type} (m : Mem T V) (r : ℕ) (t : T) (new : Option T) : ℕ × Mem T V :=
  match new with
  | none => (r, { m with tabs := m.tabs.set r t })
  | some t' => (m.tabs.length, { m with tabs := m.tabs.set r t ++ [t'] })

/-- The part of the loop body in `run_tolerances` with the photons, `marxs/design/tolerancing.py:276-278`:
`wigglefunc`, `photons_in.copy()`, `instrum`, `analyzefunc`. -/
def tolPhotons {S T V : Type} (f : TolFuns S T V) (pin : ℕ) (pars : Dict V) (s : S) (m : Mem T V) :
    Except Err (Dict V × S × Mem T V) :=
  match f.wig s pars with
  | .error x => .error x
  | .ok s1 =>
    match m.tabs[pin]? with
    | none => .error .keyError
    | some t =>
      let m1 : Mem T V := { m with tabs := m.tabs ++ [t] }
      match f.instr s1 t with
      | .error x => .error x
      | .ok (t1, new, s2) =>
        let r := storeTable m1 m.tabs.length t1 new
        match f.ana s2 (new.getD t1) with
        | .error x => .error x
        | .ok (t2, res, s3) => .ok (res, s3, { r.2 with tabs := r.2.tabs.set r.1 t2 })

/-- Body of the loop in `run_tolerances`, `marxs/design/tolerancing.py:274-280`. `p` is the reference of the
dictionary of parameters; the result is the reference to `cpars`. -/
noncomputable def tolStep {S T V : Type} (f : TolFuns S T V) (pin p : ℕ) (s : S) (m : Mem T V) :
    Except Err (ℕ × S × Mem T V) :=
  match m.dicts[p]? with
  | none => .error .keyError
  | some pars =>
    match tolPhotons f pin pars s m with
    | .error x => .error x
    | .ok (res, s', m') =>
      let m1 : Mem T V := { m' with dicts := m'.dicts ++ [pars] }
      .ok (m'.dicts.length, s', { m1 with dicts := m1.dicts.set m'.dicts.length (dictUpdate pars res) })

/-- `run_tolerances`, `marxs/design/tolerancing.py:223-282`. -/
noncomputable def runTolerances {S T V : Type} (f : TolFuns S T V) (pin : ℕ) :
    List ℕ → S → Mem T V → Except Err (List ℕ × S × Mem T V)
  | [], s, m => .ok ([], s, m)
  | p :: ps, s, m =>
    match tolStep f pin p s m with
    | .error x => .error x
    | .ok (q, s1, m1) =>
      match runTolerances f pin ps s1 m1 with
      | .error x => .error x
      | .ok (qs, s2, m2) => .ok (q :: qs, s2, m2)

/-- Source and first part of the instrument for `run_tolerances_for_energies`: set the energy, generate
photons, and run `instrum_before`, `marxs/design/tolerancing.py:355-357`. -/
abbrev Before (S T E : Type) := S → E → Except Err (T × S)

/-- Rows of the table for one energy, `marxs/design/tolerancing.py:361-368`. Setting a column of an empty
table without columns to a scalar is a `TypeError` in astropy. Columns missing in some rows are masked
(no entry in the dictionary). -/
noncomputable def energyRows {V : Type} (energy wave : V) (data : List (Dict V)) :
    Except Err (List (Dict V)) :=
  if data = [] then .error .typeError
  else .ok (data.map fun d => dictSet (dictSet d "energy" energy) "wave" wave)

/-- Body of the loop over energies, `marxs/design/tolerancing.py:354-369`. -/
noncomputable def energyStep {S T V E : Type} (f : TolFuns S T V) (before : Before S T E)
    (toV waveV : E → V) (ps : List ℕ) (e : E) (s : S) (m : Mem T V) :
    Except Err (List (Dict V) × S × Mem T V) :=
  match before s e with
  | .error x => .error x
  | .ok (t, s1) =>
    match runTolerances f m.tabs.length ps s1 { m with tabs := m.tabs ++ [t] } with
    | .error x => .error x
    | .ok (qs, s2, m2) =>
      match energyRows (toV e) (waveV e) (qs.map fun q => (m2.dicts[q]?).getD []) with
      | .error x => .error x
      | .ok rows => .ok (rows, s2, m2)

/-- Loop over energies, `marxs/design/tolerancing.py:351-369`. -/
noncomputable def energyLoop {S T V E : Type} (f : TolFuns S T V) (before : Before S T E)
    (toV waveV : E → V) (ps : List ℕ) : List E → S → Mem T V →
    Except Err (List (List (Dict V)) × S × Mem T V)
  | [], s, m => .ok ([], s, m)
  | e :: es, s, m =>
    match energyStep f before toV waveV ps e s m with
    | .error x => .error x
    | .ok (rows, s1, m1) =>
      match energyLoop f before toV waveV ps es s1 m1 with
      | .error x => .error x
      | .ok (tabs, s2, m2) => .ok (rows :: tabs, s2, m2)

/-- `if reset is not None: wigglefunc(wiggleparts, **reset)`, `marxs/design/tolerancing.py:371-373`. -/
def doReset {S T V : Type} (f : TolFuns S T V) (reset : Option (Dict V)) (s : S) : Except Err S :=
  match reset with
  | none => .ok s
  | some r => f.wig s r

/-- `run_tolerances_for_energies`, `marxs/design/tolerancing.py:285-375`. `vstack` of an empty list is a
`ValueError`. The wavelength is computed from the energy. -/
noncomputable def runTolerancesForEnergies {S T V E : Type} (f : TolFuns S T V) (before : Before S T E)
    (toV waveV : E → V) (energies : List E) (ps : List ℕ) (reset : Option (Dict V)) (s : S) (m : Mem T V) :
    Except Err (List (Dict V) × S) :=
  match energyLoop f before toV waveV ps energies s m with
  | .error x => .error x
  | .ok (tabs, s1, _) =>
    match doReset f reset s1 with
    | .error x => .error x
    | .ok s2 => if tabs = [] then .error .valueError else .ok (tabs.flatten, s2)

/-- What `run_tolerances_for_energies2` makes from the instrument, `marxs/design/tolerancing.py:436-444`:
elements of `instrum_before` and `instrum_remaining`, and the parts to be wiggled. `eq` is
`type(e) == cls`, `sub` is `isinstance(e, cls)`. The plain `Exception` is modelled as `valueError`. -/
def energies2Plan {C : Type} (eq sub : C → Bool) (subclassOk : Bool) (root : Elt C) (elements : List (Elt C)) :
    Except Err (List (Elt C) × List (Elt C) × List (Elt C)) :=
  match firstOfClass (if subclassOk then sub else eq) 0 elements with
  | none => .error .valueError
  | some ind => .ok (elements.take ind, elements.drop ind, root.elementsOfClass eq false)

/-- Row of six numbers with one of them set. Used for `marxs/design/tolerancing.py:493-500`. -/
def dofRow (i : ℕ) (v : ℝ) : List ℝ := (List.replicate 6 0).set i v

/-- First half of the array `changeglobal`, `marxs/design/tolerancing.py:493-500`: three blocks for the
translations, three blocks for the rotations. -/
def wiggleHalf (trans rot : List ℝ) : List (List ℝ) :=
  (List.range 3).flatMap (fun i => trans.map (dofRow i)) ++
  (List.range 3).flatMap (fun i => rot.map (dofRow (i + 3)))

/-- `np.unique(a, axis=0)`: rows without repetition in lexicographic order. Used for `marxs/design/tolerancing.py:453-513`. -/
noncomputable def uniqueRows (rows : List (List ℝ)) : List (List ℝ) :=
  rows.dedup.mergeSort (fun a b => decide (a ≤ b))

/-- `dict(zip(names, row))`, `marxs/design/tolerancing.py:510-511`. -/
noncomputable def dictZip (names : List String) (row : List ℝ) : Dict ℝ := dictUpdate [] (names.zip row)

/-- `generate_6d_wigglelist`, `marxs/design/tolerancing.py:453-513`: global and individual list.
`IndexError` for empty input (the check of the first element, whose warning is dropped). -/
noncomputable def generate6d (names : List String) (trans rot : List ℝ) :
    Except Err (List (Dict ℝ) × List (Dict ℝ)) :=
  if trans = [] ∨ rot = [] then .error .indexError
  else
    let half := wiggleHalf trans rot
    let changeglobal := half ++ half.map (fun r => r.map (fun x => -x))
    .ok ((uniqueRows changeglobal).map (dictZip names), (uniqueRows half).map (dictZip names))

/-- Value `== 0` in a column. Used for `marxs/design/tolerancing.py:522-549`. -/
def Val.isZero : Val → Prop
  | .num (some x) => x = 0
  | .num none => False
  | .int n => n = 0
  | .vec _ => False

/-- `select_1dof_changed`, `marxs/design/tolerancing.py:522-549`. The order of `set(parlist)` does not
matter: the product of boolean masks is commutative. -/
noncomputable def select1dof (t : Table) (par : String) (parlist : List String) : Except Err Table :=
  let pars := parlist.dedup.filter (fun p => decide (p ≠ par))
  if ∃ p ∈ pars, p ∉ t.names then .error .keyError
  else .ok { t with rows := t.rows.filter (fun r => decide (∀ p ∈ pars, (r p).isZero)) }

end Marxs
