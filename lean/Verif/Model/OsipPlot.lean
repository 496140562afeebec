import Verif.Model.Osip

/-!
# Plots of order-sorting regions

Models `plot_osip`, `plot_mixture`, `plot_summary` and `plot_summed_arf` in `marxs/reduction/osip.py:210-333`: the
numbers that are handed to matplotlib. As in `Model/Osip`, all energies are numbers in one unit; `hc` is the product of
energy and wavelength of a photon in these units (`u.spectral()`).
-/

namespace Marxs
open Classical

/-- What `plot_osip` draws: a line and the band around it. Used for `marxs/reduction/osip.py:210-239`. -/
structure OsipBand where
  order : ℤ
  grid : List ℝ
  energy : List ℝ
  lower : List ℝ
  upper : List ℝ

/-- `en = (grid / np.abs(order)).to(u.keV, equivalencies=u.spectral())`, `marxs/reduction/osip.py:224-225,254-256`
(`order` is not 0). -/
noncomputable def osipEnergies (hc : ℝ) (grid : List ℝ) (order : ℤ) : List ℝ :=
  grid.map fun x => hc / (x / |(order : ℝ)|)

/-- `OSIPBase.plot_osip(ax, grid, order)`, `marxs/reduction/osip.py:210-239`. The limits of the plot are a `ValueError`
for an empty grid. -/
noncomputable def plotOsip (hc : ℝ) (tab : List (ℝ × ℝ)) (o : Osip) (grid : List ℝ) (order : ℤ) : Except Err OsipBand :=
  let en := osipEnergies hc grid order
  match en.mapM (fun E => osipTab tab o E order) with
  | .error e => .error e
  | .ok ohw =>
    if grid = [] then .error .valueError
    else .ok ⟨order, grid, en, List.zipWith (fun E t => E - t.1) en ohw, List.zipWith (fun E t => E + t.2) en ohw⟩

/-- `ax.plot(grid, osip_factor(en, order, o_true))` in `plot_mixture`, `marxs/reduction/osip.py:256-262`: for orders on
different sides `osip_factor` returns the number `0.` (line 138), and matplotlib refuses to plot one number against a
grid of another length with a `ValueError`. -/
noncomputable def factorCurve (tab : List (ℝ × ℝ)) (o : Osip) (en : List ℝ) (order oTrue : ℤ) : Except Err (List ℝ) :=
  if order.sign ≠ oTrue.sign then (if en.length = 1 then .ok [0] else .error .valueError)
  else if order = 0 then .error .zeroDivision
  else en.mapM (fun E => osipFactor tab o E order oTrue)

/-- What `plot_mixture` draws: curve of the main order, curves of the other orders with their label, the sum, and the
upper end of the axis. Used for `marxs/reduction/osip.py:241-273`. -/
structure MixturePlot where
  grid : List ℝ
  main : List ℝ
  contam : List (ℤ × List ℝ)
  sum : List ℝ
  top : ℝ

/-- The loop over `offset_orders` in `plot_mixture`, `marxs/reduction/osip.py:259-267`. -/
noncomputable def mixtureLoop (tab : List (ℝ × ℝ)) (o : Osip) (en : List ℝ) (order : ℤ) :
    List ℤ → List ℝ → Except Err (List (ℤ × List ℝ) × List ℝ)
  | [], cm => .ok ([], cm)
  | t :: ts, cm =>
    if t = 0 then mixtureLoop tab o en order ts cm
    else
      match factorCurve tab o en order (order + t) with
      | .error e => .error e
      | .ok c =>
        match mixtureLoop tab o en order ts (List.zipWith (· + ·) cm c) with
        | .error e => .error e
        | .ok (cs, s) => .ok ((t, c) :: cs, s)

/-- `OSIPBase.plot_mixture(ax, grid, order)`, `marxs/reduction/osip.py:241-273`. -/
noncomputable def plotMixture (hc : ℝ) (tab : List (ℝ × ℝ)) (o : Osip) (offsets : List ℤ) (grid : List ℝ) (order : ℤ) :
    Except Err MixturePlot :=
  let en := osipEnergies hc grid order
  match factorCurve tab o en order order with
  | .error e => .error e
  | .ok main =>
    match mixtureLoop tab o en order offsets main with
    | .error e => .error e
    | .ok (contam, s) =>
      match s.max? with
      | none => .error .valueError
      | some mx => .ok ⟨grid, main, contam, s, mx * 1.05⟩

/-- The grid of `plot_summary`, `marxs/reduction/osip.py:287-289,297`: wavelength of the mid-points of the bins of a
file, multiplied by the order of the file. -/
noncomputable def summaryGrid (hc : ℝ) (a : Arf) : List ℝ :=
  List.zipWith (fun l h => hc / (1 / 2 * (l + h)) * |(a.order : ℝ)|) a.energLo a.energHi

/-- `OSIPBase.plot_summary(inputarf, orders, outpath)`, `marxs/reduction/osip.py:275-303`, without the colors (they are
in C149): one band for each order, and the mixture for the middle order. Without orders `np.max` is a `ValueError`. -/
noncomputable def plotSummary (hc : ℝ) (tab : List (ℝ × ℝ)) (o : Osip) (offsets : List ℤ) (a : Arf) (orders : List ℤ) :
    Except Err (List OsipBand × MixturePlot) :=
  match orders[orders.length / 2]? with
  | none => .error .valueError
  | some mid =>
    match orders.mapM (plotOsip hc tab o (summaryGrid hc a)) with
    | .error e => .error e
    | .ok bands =>
      match plotMixture hc tab o offsets (summaryGrid hc a) mid with
      | .error e => .error e
      | .ok mix => .ok (bands, mix)

/-- `np.arange(0, 60, .1)`, `marxs/reduction/osip.py:316`. -/
noncomputable def waveGrid : List ℝ := (List.range 600).map fun i : ℕ => (i : ℝ) * 0.1

/-- The loop over files in `plot_summed_arf`, `marxs/reduction/osip.py:317-325`: each file is given as the list of pairs
of `BIN_LO` and `SPECRESP` (columns of a file are in order of decreasing wavelength). -/
noncomputable def sumFiles (grid : List ℝ) (files : List (List (ℝ × ℝ))) : Except Err (List ℝ) :=
  files.foldlM (fun acc f =>
    match grid.mapM (fun x => interp x f.reverse) with
    | none => .error .valueError
    | some v => .ok (List.zipWith (· + ·) acc v)) (grid.map fun _ => 0)

/-- `OSIPBase.plot_summed_arf(path)`, `marxs/reduction/osip.py:305-333`: the curve that is drawn. -/
noncomputable def plotSummedArf (files : List (List (ℝ × ℝ))) : Except Err (List ℝ) := sumFiles waveGrid files

end Marxs
