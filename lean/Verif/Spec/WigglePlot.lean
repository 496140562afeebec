import Verif.Model.WigglePlot

/-!
# Specification for C148 and C149

What a reader of an overview plot of a tolerancing simulation relies on.
-/

namespace Marxs

/-- The run in row `r` is one where, among all parameters of the simulation, only `par` is changed (or none). -/
def OnlyChanged (par : String) (parlist : List String) (r : Row) : Prop :=
  ∀ p ∈ parlist, p ≠ par → (r p).isZero

/-- The number at which a run is drawn on the x-axis: rotations (names with `r`) in degrees, everything else
as it is in the table. -/
noncomputable def shownAt (par : String) (r : Row) : Val :=
  if par.toList.head? = some 'r' then rad2degCell (r par) else r par

open Classical in
/-- A pair of lines shows the runs at its wavelength where only `par` is changed: each of these runs is one
point, there are no others, points are ordered by the value of the parameter, and the numbers of one run stay
together. -/
def LineShows (rows : List Row) (parlist : List String) (par rCol aeffCol : String) (l : WiggleLine) : Prop :=
  ∃ runs : List Row,
    runs.Perm (rows.filter fun r => decide (OnlyChanged par parlist r ∧ r "wave" = l.wave)) ∧
    runs.Pairwise (fun a b => cellLe (a par) (b par)) ∧
    l.x = runs.map (shownAt par) ∧ l.left = runs.map (· rCol) ∧ l.right = runs.map (· aeffCol)

/-- A panel shows the parameter `par`: one pair of lines for each wavelength for which such runs exist. -/
def PanelShows (rows : List Row) (parlist : List String) (par rCol aeffCol : String) (p : WigglePanel) : Prop :=
  (p.lines.map (·.wave)).Nodup ∧
  (∀ w, w ∈ p.lines.map (·.wave) ↔ ∃ r ∈ rows, OnlyChanged par parlist r ∧ r "wave" = w) ∧
  (∀ l ∈ p.lines, LineShows rows parlist par rCol aeffCol l)

/-- Names of parameters for which the plot has a label: not empty, and names that start with `d` or `r`
name an axis in the second letter. -/
def HasLabel (par : String) : Prop :=
  par.toList ≠ [] ∧
  ((par.toList.head? = some 'd' ∨ par.toList.head? = some 'r') → 2 ≤ par.toList.length)

/-- All columns needed for the plot are in the table. -/
def PlotColumns (tab : Table) (parlist : List String) (kw : WiggleKw) : Prop :=
  (∀ p ∈ parlist, p ∈ tab.names) ∧ "wave" ∈ tab.names ∧ kw.rCol ∈ tab.names ∧ kw.aeffCol ∈ tab.names ∧
  kw.other = []

end Marxs
