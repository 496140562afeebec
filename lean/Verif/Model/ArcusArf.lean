import Mathlib.Analysis.SpecialFunctions.Trigonometric.Inverse
import Verif.Model.Geometry
import Verif.Model.Ogip
import Verif.Model.OgipFiles

/-!
# Effective areas for Arcus

Models `marxs/missions/arcus/arfrmf.py`: `OnCCD`, `MirrGrat` and `mkarf`.

Simplifications: floats are reals, units are dropped (energies in keV, wavelengths in Angstrom; `hc` is the
product of Planck's constant and the speed of light), the interpolating function of `scipy` is an argument,
the positions of the CCD corners and the list of grating periods are arguments (they come from the
simulator, modelled elsewhere, and from a data file).
-/

namespace Marxs

open Classical

/-- What `OnCCD.__init__` collects, `marxs/missions/arcus/arfrmf.py:48-65`: `corners` has the `(x, z)`
coordinates of `center - v_y` and `center + v_y` for each CCD; `blazeang` is in degrees. `optAx` is the
dictionary `conf['pos_opt_ax']` (x coordinate of each optical axis). -/
structure OnCCD where
  corners : List ((ℝ × ℝ) × (ℝ × ℝ))
  f : ℝ
  optAx : List (String × ℝ)
  blazeang : ℝ
  periods : List ℝ

/-- `effective_grating_period`, `marxs/missions/arcus/arfrmf.py:61`. -/
noncomputable def OnCCD.dEff (c : OnCCD) : ℝ :=
  Real.cos (c.blazeang * Real.pi / 180) * (c.periods.sum / c.periods.length)

/-- The angle of one corner as seen from the grating, `marxs/missions/arcus/arfrmf.py:91-93`. -/
noncomputable def cornerAngle (f x0 : ℝ) (c : ℝ × ℝ) : ℝ :=
  arctan2 (((SignType.sign x0 : SignType) : ℝ) * (c.1 - x0)) (f - c.2)

/-- The diffraction angle, `marxs/missions/arcus/arfrmf.py:94-97`; `none` is NaN (also for energy 0, where
the wavelength is infinite). -/
noncomputable def dispAngle (hc d en : ℝ) (order : ℤ) : Option ℝ :=
  if en = 0 ∨ d = 0 then none
  else if |(order : ℝ) * (hc / en) / d| ≤ 1 then some (Real.arcsin ((order : ℝ) * (hc / en) / d))
  else none

/-- `OnCCD.__call__` for one energy, `marxs/missions/arcus/arfrmf.py:67-103`. -/
noncomputable def OnCCD.call (hc : ℝ) (c : OnCCD) (en : ℝ) (order : ℤ) (chan : String) :
    Except Err Bool :=
  match c.optAx.lookup chan with
  | none => .error .keyError
  | some x0 =>
    match dispAngle hc c.dEff en order with
    | none => .ok false
    | some θ =>
      .ok (c.corners.any fun r =>
        decide (min (cornerAngle c.f x0 r.1) (cornerAngle c.f x0 r.2) < θ ∧
          θ < max (cornerAngle c.f x0 r.1) (cornerAngle c.f x0 r.2)))

/-- `MirrGrat.__call__` for one energy, `marxs/missions/arcus/arfrmf.py:123-146`: `tab` has an
interpolating function of the wavelength for each name of a column. -/
noncomputable def mirrGrat (hc : ℝ) (tab : List (String × (ℝ → ℝ))) (en : ℝ) (order : ℤ) :
    Except Err ℝ :=
  match tab.lookup (intRepr order) with
  | none => .error .keyError
  | some g => .ok (max (g (hc / en)) 0)

/-- Columns and header of the table made by `mkarf`, `marxs/missions/arcus/arfrmf.py:204-221`. -/
structure ArcusArf where
  energLo : List ℝ
  energHi : List ℝ
  specresp : List ℝ
  mirrGrat : List ℝ
  filtersQE : List ℝ
  onccd : List ℝ
  binLo : List ℝ
  binHi : List ℝ
  arcchan : String
  order : ℤ

/-- The loop over channels, `marxs/missions/arcus/arfrmf.py:198-202`; `known` are the names in
`defaultconf['pos_opt_ax']`, which are used for the check no matter what `conf` is. -/
noncomputable def channelLoop (hc : ℝ) (c : OnCCD) (known : List String) (ens : List ℝ) (order : ℤ) :
    List ℝ → List String → Except Err (List ℝ)
  | acc, [] => .ok acc
  | acc, chan :: chans =>
    if chan ∉ known then .error .valueError
    else
      match ens.mapM (fun en => c.call hc en order chan) with
      | .error e => .error e
      | .ok on =>
        channelLoop hc c known ens order
          (List.zipWith (fun a (b : Bool) => a + if b then 1 else 0) acc on) chans

/-- `''.join(np.isin(list(conf['pos_opt_ax'].keys()), channels).astype(int).astype(str))`,
`marxs/missions/arcus/arfrmf.py:218-219`. -/
def arcChan (names channels : List String) : String :=
  String.ofList (names.map fun n => if n ∈ channels then '1' else '0')

/-- `mkarf(channel_edges, order, mirr_grat, trans_filters_qe, conf, channels)`,
`marxs/missions/arcus/arfrmf.py:149-221`: `conv` converts the edges to keV; `mg` and `filt` are the
functions `mirr_grat` and `trans_filters_qe` for one energy. -/
noncomputable def mkArf (hc : ℝ) (conv : ℝ → ℝ) (c : OnCCD) (known : List String)
    (mg : ℝ → ℤ → Except Err ℝ) (filt : ℝ → ℝ) (edges : List ℝ) (order : ℤ)
    (channels : List String) : Except Err ArcusArf :=
  let energyEdges := sortReal (edges.map conv)
  let enMid := List.zipWith (fun a b => 1 / 2 * (a + b)) energyEdges.dropLast energyEdges.tail
  let fq := enMid.map filt
  match enMid.mapM (fun en => mg en order) with
  | .error e => .error e
  | .ok sim =>
    match channelLoop hc c known enMid order (List.replicate fq.length 0) channels with
    | .error e => .error e
    | .ok on =>
      .ok { energLo := energyEdges.dropLast
            energHi := energyEdges.tail
            specresp := List.zipWith (· * ·) (List.zipWith (· * ·) sim fq) on
            mirrGrat := sim
            filtersQE := fq
            onccd := on
            binLo := energyEdges.tail.map fun e => hc / e
            binHi := energyEdges.dropLast.map fun e => hc / e
            arcchan := arcChan (c.optAx.map Prod.fst) channels
            order := order }

end Marxs
