import Verif.Model.Missions
import Verif.Model.Optics
import Mathlib.Analysis.SpecialFunctions.Trigonometric.Basic

/-!
# The complete CAT grating

Models `CATL1L2Stack` of `marxs/missions/mitsnl/catgrating.py` on photon tables: the grating membrane
(`NonParallelCATGrating`), the quality factor, the L1 and L2 support structures.

Simplifications: floats are reals, units are dropped (lengths in mm, energies in keV); random draws are arguments,
numbered in the order of the photons that hit; the energy column holds numbers for every photon that hits.
-/

namespace Marxs

open Classical

/-- Cell with four coordinates; NaN in all of them for `none`. Used for `marxs/optics/grating.py:268-277`. -/
def vecCell : Option H4 → Val
  | some d => .vec [some d.x, some d.y, some d.z, some d.w]
  | none => .vec [none, none, none, none]

/-- The number in a cell, `none` for NaN. Used for `marxs/optics/grating.py:268-277`. -/
def Val.real? : Val → Option ℝ
  | .num x => x
  | .int n => some n
  | .vec _ => none

/-- The photons that hit, numbered, with their local coordinates: `photons[intersect]`, `intercoos[intersect]`. Used for `marxs/optics/base.py:177-184`. -/
def selected (t : Table) (mask : List Bool) (ic : List (Val × Val)) : List (ℕ × Row × Val × Val) :=
  (List.range (countTrue mask)).zip ((sel mask t.rows).zip (sel mask ic))

/-- A vectorised `specific_process_photons` that does the same for each photon and returns the columns `cols`,
`marxs/optics/base.py:177-184`. -/
def perPhotonAction (cols : List String) (f : ℕ → Row → Val × Val → Except Err (List Val)) : Action :=
  .vector fun t mask _ ic =>
    match (selected t mask ic).mapM fun x => f x.1 x.2.1 x.2.2 with
    | .error e => .error e
    | .ok outs => .ok (cols.zipIdx.map fun c => (some c.1, .arr (outs.map fun o => o.getD c.2 (.num none))))

/-- Columns returned by a grating, `marxs/optics/grating.py:275-276`. -/
def gratCols (orderName blazeName : String) : List String :=
  ["dir", "probability", "polarization", orderName, blazeName]

/-- `FlatGrating.specific_process_photons`, `marxs/optics/grating.py:268-277`, for one row. NaN in direction or
polarization is handed on; an order selector gets a zero vector for a polarization that is NaN (none of the order
selectors looks at it). -/
noncomputable def gratCells (g : Grating) (r : Row) (c : Val × Val) : List Val :=
  let pol := (r "polarization").toH4
  let e := (r "energy").real?
  match (r "dir").toH4, e, c.1.real?, c.2.real? with
  | some d, some e, some y, some z =>
    let o := g.process d (pol.getD ⟨0, 0, 0, 0⟩) e (y, z)
    [vecCell o.1.dir, .num (some o.1.prob), vecCell (if pol = none then none else o.2), .num (some o.1.m),
      .num o.1.blaze]
  | _, _, _, _ =>
    let mp := g.order (e.getD 0) (pol.getD ⟨0, 0, 0, 0⟩) none
    [vecCell none, .num (some mp.2), vecCell none, .num (some mp.1), .num none]

/-- A grating in a table: `g k` is the grating with the order selector's draw for the `k`-th photon that hits. Used for `marxs/missions/mitsnl/catgrating.py:358-375`. -/
noncomputable def gratingAction (orderName blazeName : String) (g : ℕ → Grating) : Action :=
  perPhotonAction (gratCols orderName blazeName) fun k r c => .ok (gratCells (g k) r c)

/-- `L1.specific_process_photons`, `marxs/missions/mitsnl/catgrating.py:200-217`, for one row: `u` is the random
number that decides if the photon hits the support. -/
noncomputable def l1Cells (g : Grating) (x : LxDims) (trans : ℝ → Except Err ℝ) (u : ℝ) (r : Row)
    (c : Val × Val) : Except Err (List Val) :=
  let cells := gratCells g r c
  if l1Open x < u then
    match (r "energy").real? with
    | none => .ok [r "dir", .num none, r "polarization", .num (some 0), cells.getD 4 (.num none)]
    | some e =>
      match trans e with
      | .error err => .error err
      | .ok p => .ok [r "dir", .num (some p), r "polarization", .num (some 0), cells.getD 4 (.num none)]
  else .ok cells

/-- `L2Diffraction`, `marxs/missions/mitsnl/catgrating.py:272-278` and `marxs/optics/scatter.py:109-145`, for one
row: columns `dir`, `polarization`, `L2Diffraction`. `z` and `phi` are the draws for size and direction of the
scatter. -/
noncomputable def l2DiffCells (x : LxDims) (z phi : ℝ) (r : Row) : List Val :=
  let pol := (r "polarization").toH4
  let angle := match (r "energy").real? with
    | none => none
    | some e => if e = 0 then none else l2Scatter x (energy2wave / e) z
  let out := match (r "dir").toH4, angle with
    | some d, some a => gaussScatter d (pol.getD ⟨0, 0, 0, 0⟩) a phi
    | _, _ => none
  match out with
  | none => [vecCell none, vecCell none, .num angle]
  | some (d', p') => [vecCell (some d'), vecCell (if pol = none then none else p'), .num angle]

/-- Arguments of a `CATL1L2Stack`, `marxs/missions/mitsnl/catgrating.py:354-375`; `none` for arguments that are not
given. `sel k` and `l1sel k` are the order selectors with the draw for the `k`-th photon; `u`, `z`, `phi` are the other
random numbers; `trans` is the transmission of the L1 bars. -/
structure CatArgs where
  pos4d : M4
  sel : Option (ℕ → ℝ → H4 → Option ℝ → ℤ × ℝ)
  d : Option ℝ
  groove : Option ℝ
  l1 : LxDims
  l2 : LxDims
  l1sel : ℕ → ℝ → H4 → Option ℝ → ℤ × ℝ
  sigma : ℝ
  qd : ℝ
  trans : ℝ → Except Err ℝ
  u : ℕ → ℝ
  z : ℕ → ℝ
  phi : ℕ → ℝ
  idCol : Option String
  idNum : ℤ

/-- `groove_angle`, default 0, `marxs/missions/mitsnl/catgrating.py:364`. -/
noncomputable def CatArgs.grooveAngle (a : CatArgs) : ℝ := a.groove.getD 0

/-- `NonParallelCATGrating`, `marxs/missions/mitsnl/catgrating.py:281-312` with `CATGrating`,
`marxs/optics/grating.py:280-301`: a flat transmission grating with the given change of the blaze angle. -/
noncomputable def nonParallelCat (pos4d : M4) (groove d blazeCenter dBlaze : ℝ) (order : ℝ → H4 → Option ℝ → ℤ × ℝ) :
    Grating where
  transmission := true
  groove := groove
  d := fun _ => d
  blazeMod := nonParallelBlaze blazeCenter dBlaze
  order := order
  sign := catSign
  bases := fun _ => planeBases pos4d

/-- The membrane, `marxs/missions/mitsnl/catgrating.py:358,365-367`: no change of the blaze angle
(`d_blaze_mm` and `blaze_center` are 0). -/
noncomputable def CatArgs.membrane (a : CatArgs) (s : ℕ → ℝ → H4 → Option ℝ → ℤ × ℝ) (k : ℕ) : Grating :=
  nonParallelCat a.pos4d a.grooveAngle (a.d.getD 0.0002) 0 0 (s k)

/-- The L1 support as grating, `marxs/missions/mitsnl/catgrating.py:196,369-371`. -/
noncomputable def CatArgs.l1Grating (a : CatArgs) (k : ℕ) : Grating where
  transmission := true
  groove := Real.pi / 2 + a.grooveAngle
  d := fun _ => a.l1.period
  blazeMod := fun _ => 0
  order := a.l1sel k
  sign := catSign
  bases := fun _ => planeBases a.pos4d

/-- The five layers, `marxs/missions/mitsnl/catgrating.py:358-375`. Names of local coordinates are those of the
classes; no layer has an id column. -/
noncomputable def CatArgs.layers (a : CatArgs) (s : ℕ → ℝ → H4 → Option ℝ → ℤ × ℝ)
    (geom : Table → List Bool × List Val × List (Val × Val)) : List Elem :=
  [⟨none, -9, some ("grat_y", "grat_z"), [], gratingAction "order" "blaze" (a.membrane s), geom⟩,
   ⟨none, -9, some ("y", "z"), [], qualityAction a.sigma a.qd, geom⟩,
   ⟨none, -9, some ("grat_y", "grat_z"), [], perPhotonAction (gratCols "order_L1" "blaze_L1")
      (fun k r c => l1Cells (a.l1Grating k) a.l1 a.trans (a.u k) r c), geom⟩,
   ⟨none, -9, some ("y", "z"), [], l2Action a.l2 (planeBases a.pos4d).2.2, geom⟩,
   ⟨none, -9, some ("y", "z"), [], perPhotonAction ["dir", "polarization", "L2Diffraction"]
      (fun k r _ => .ok (l2DiffCells a.l2 (a.z k) (a.phi k) r)), geom⟩]

/-- `CATL1L2Stack.__init__`, `marxs/missions/mitsnl/catgrating.py:354-375`: `order_selector` is needed
(`KeyError`), the layers check the dimensions of the support. `geom` is the intersection with the plane. -/
noncomputable def mkCatStack (geom : Table → List Bool × List Val × List (Val × Val)) (a : CatArgs) :
    Except Err Stack :=
  match a.sel with
  | none => .error .keyError
  | some s =>
    match checkLxDims a.l1 with
    | .error e => .error e
    | .ok _ =>
      match checkLxDims a.l2 with
      | .error e => .error e
      | .ok _ => .ok ⟨a.idCol, a.idNum, some ("y", "z"), [], a.layers s geom, geom⟩

end Marxs
