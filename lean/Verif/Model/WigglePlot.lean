import Mathlib.Analysis.SpecialFunctions.Trigonometric.Basic
import Verif.Model.Tolerancing

/-!
# Overview plots of tolerancing simulations and colors for orders

Models `WigglePlotter.plot_wiggle`, `WigglePlotter.load_and_plot` and
`DispersedWigglePlotter.plot_one_line` in `marxs/design/tolerancing.py` and `OrderColor` in
`marxs/analysis/plots.py`.

Simplifications: a figure is the list of what is drawn in its panels (labels, color of the background, lines
with the numbers handed to `ax.plot`); figure size, grid and legend text are dropped.  A second axes instance
(`axt`) is not passed in, thus `ax.twinx()` is used.  Colors are strings.  How rows with the same value of the
parameter are ordered (`Table.sort` is not stable in numpy) is fixed to the order in the table; no theorem
depends on it.
-/

namespace Marxs

open Classical

/-- Order used by `numpy.sort` for the cells of a column: by value, NaN last.  Cells with vectors cannot be
sorted; they never occur in a column with a parameter. `marxs/design/tolerancing.py:605`. -/
def cellKey : Val → Option ℝ
  | .num x => x
  | .int n => some (n : ℝ)
  | .vec _ => none

/-- `a ≤ b` for the sorting of a column with NaN last, `marxs/design/tolerancing.py:605`. -/
def cellLe (a b : Val) : Prop :=
  match cellKey a, cellKey b with
  | some x, some y => x ≤ y
  | none, some _ => False
  | _, none => True

/-- `np.rad2deg` for one cell, `marxs/design/tolerancing.py:620`. -/
noncomputable def rad2degCell : Val → Val
  | .num x => .num (x.map fun x => x * 180 / Real.pi)
  | .int n => .num (some (n * 180 / Real.pi))
  | .vec v => .vec (v.map fun x => x.map fun x => x * 180 / Real.pi)

/-- One pair of lines (solid: resolving power on the left axis, dotted: effective area on the right axis) as
drawn in `DispersedWigglePlotter.plot_one_line`, `marxs/design/tolerancing.py:704-707`, with the wavelength
in the label. -/
structure WiggleLine where
  wave : Val
  x : List Val
  left : List Val
  right : List Val

/-- One panel of the plot, `marxs/design/tolerancing.py:625-640`. -/
structure WigglePanel where
  lines : List WiggleLine
  xlabel : String
  title : Option String
  facecolor : String

/-- Keyword arguments of `load_and_plot` that are looked at: `axes_facecolor` (`plot_wiggle`), `R_col` and
`Aeff_col` (`plot_one_line`), and the names of all others, which no function takes.
`marxs/design/tolerancing.py:574-575,645-647,704-705`. -/
structure WiggleKw where
  facecolor : Option String
  rCol : String
  aeffCol : String
  other : List String

/-- The default arguments: `R_col='Rgrat', Aeff_col='Aeffgrat'`, `marxs/design/tolerancing.py:705`. -/
def wiggleDefaults : WiggleKw := ⟨none, "Rgrat", "Aeffgrat", []⟩

/-- `t.sort(par)`, `marxs/design/tolerancing.py:605`. -/
noncomputable def sortRows (rows : List Row) (par : String) : List Row :=
  rows.mergeSort fun a b => decide (cellLe (a par) (b par))

/-- `t.group_by('wave')`, `marxs/design/tolerancing.py:606`: one group for each value in the column, in
ascending order; the order within each group is the one of the table. -/
noncomputable def groupWave (rows : List Row) : List (Val × List Row) :=
  ((rows.map (· "wave")).dedup.mergeSort fun a b => decide (cellLe a b)).map fun w =>
    (w, rows.filter fun r => decide (r "wave" = w))

/-- `DispersedWigglePlotter.plot_one_line`, `marxs/design/tolerancing.py:704-707`: `TypeError` for keywords
it does not know, `KeyError` for columns that are not in the table. -/
noncomputable def plotOneLine (names : List String) (kw : WiggleKw) (w : Val) (g : List Row) (x : List Val) :
    Except Err WiggleLine :=
  if kw.other ≠ [] then .error .typeError
  else if kw.rCol ∉ names ∨ kw.aeffCol ∉ names then .error .keyError
  else .ok ⟨w, x, g.map (· kw.rCol), g.map (· kw.aeffCol)⟩

/-- The loop over groups, `marxs/design/tolerancing.py:618-624`. -/
noncomputable def plotLines (names : List String) (kw : WiggleKw) (par : String) :
    List (Val × List Row) → Except Err (List WiggleLine)
  | [] => .ok []
  | (w, g) :: gs =>
    let x := if par.toList.head? = some 'r' then g.map (fun r => rad2degCell (r par)) else g.map (· par)
    match plotOneLine names kw w g x with
    | .error e => .error e
    | .ok l => match plotLines names kw par gs with
      | .error e => .error e
      | .ok ls => .ok (l :: ls)

/-- Axis label and title, `marxs/design/tolerancing.py:628-635`; `par[0]` of an empty name and `par[1]` of a
name with one letter are an `IndexError`. -/
def wiggleLabel (par : String) : Except Err (String × Option String) :=
  match par.toList with
  | [] => .error .indexError
  | c :: cs =>
    if c = 'd' then
      match cs with
      | [] => .error .indexError
      | a :: _ => .ok ("shift [mm]", some ("Shift along " ++ String.ofList [a]))
    else if c = 'r' then
      match cs with
      | [] => .error .indexError
      | a :: _ => .ok ("Rotation [degree]", some ("Rotation around " ++ String.ofList [a]))
    else .ok (par, none)

/-- `WigglePlotter.plot_wiggle(tab, par, parlist, ax, **kwargs)`, `marxs/design/tolerancing.py:574-640`.
The default of `axes_facecolor` is `'w'`. An empty selection draws nothing. -/
noncomputable def plotWiggle (tab : Table) (par : String) (parlist : List String) (kw : WiggleKw) :
    Except Err WigglePanel :=
  match select1dof tab par parlist with
  | .error e => .error e
  | .ok t =>
    if par ∉ t.names then .error .keyError
    else if "wave" ∉ t.names then .error .valueError
    else if par.toList = [] then .error .indexError
    else
      match plotLines t.names kw par (groupWave (sortRows t.rows par)) with
      | .error e => .error e
      | .ok ls => match wiggleLabel par with
        | .error e => .error e
        | .ok (xl, ti) => .ok ⟨ls, xl, ti, kw.facecolor.getD "w"⟩

/-- `n in filename` for strings, `marxs/design/tolerancing.py:686`. -/
def inFilename (n filename : String) : Prop := n.toList <:+: filename.toList

/-- `WigglePlotter.bg_colors`, `marxs/design/tolerancing.py:565-566`. -/
def bgColors : List (String × String) := [("global", "0.9"), ("individual", "(1.0, 0.9, 0.9)")]

/-- The choice of the background in `load_and_plot`, `marxs/design/tolerancing.py:684-687`: the name that is
looked up is `axis_facecolor`, the one that is set is `axes_facecolor`. -/
noncomputable def fileKw (filename : String) (kw : WiggleKw) : WiggleKw :=
  if "axis_facecolor" ∈ kw.other then kw
  else bgColors.foldl (fun k nc => if inFilename nc.1 filename then { k with facecolor := some nc.2 } else k) kw

/-- The loop over panels, `marxs/design/tolerancing.py:691-693`; `fig.add_subplot(2, 3, i + 1)` is a
`ValueError` for `i + 1 > 6`. -/
noncomputable def plotPanels (tab : Table) (parlist : List String) (kw : WiggleKw) :
    ℕ → List String → Except Err (List WigglePanel)
  | _, [] => .ok []
  | i, par :: ps =>
    if 6 < i + 1 then .error .valueError
    else match plotWiggle tab par parlist kw with
      | .error e => .error e
      | .ok p => match plotPanels tab parlist kw (i + 1) ps with
        | .error e => .error e
        | .ok l => .ok (p :: l)

/-- `DispersedWigglePlotter.load_and_plot(filename, parlist, **kwargs)` for a file with the table `tab`,
`marxs/design/tolerancing.py:645-695`. -/
noncomputable def loadAndPlot (filename : String) (tab : Table) (parlist : List String) (kw : WiggleKw) :
    Except Err (List WigglePanel) :=
  plotPanels tab parlist (fileKw filename kw) 0 parlist

/-! ## Colors for orders -/

/-- Style of a line, the dictionary returned by `OrderColor.__call__`, `marxs/analysis/plots.py:22-36`;
`color = none` is black (`'k'`). -/
structure OrderStyle (γ : Type) where
  color : Option γ
  dotted : Bool
  lw : ℕ
  alpha : Option ℝ

/-- `OrderColor.__init__`, `marxs/analysis/plots.py:17-20`: `cmap(np.linspace(0, 1, abs(max_order + 1)))`. -/
noncomputable def orderColors {γ : Type} (cmap : ℝ → γ) (maxOrder : ℤ) : List γ :=
  (List.range (maxOrder + 1).natAbs).map fun i : ℕ =>
    cmap ((i : ℝ) / (((maxOrder + 1).natAbs : ℝ) - 1))

/-- `OrderColor.__call__(order)`, `marxs/analysis/plots.py:22-36`. -/
noncomputable def orderStyle {γ : Type} (color : List γ) (order : ℤ) : Except Err (OrderStyle γ) :=
  if order = 0 then .ok ⟨none, false, 4, some 0.7⟩
  else match color[order.natAbs]? with
    | none => .error .indexError
    | some c => .ok ⟨some c, decide (0 < order), 2, none⟩

end Marxs
