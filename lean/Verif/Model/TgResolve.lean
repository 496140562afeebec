import Verif.Model.ArcusCamera
import Verif.Model.Geometry
import Mathlib.Analysis.SpecialFunctions.Trigonometric.Inverse
import Mathlib.Analysis.SpecialFunctions.Trigonometric.Arctan

/-!
# Grating coordinates on the circular detector of Arcus

Models `zeropos` and `tg_resolve_events_circdet` in `marxs/missions/arcus/analyze_grid.py` and the circular detector in `PerfectArcus.add_detectors`, `marxs/missions/arcus/arcus.py`. Angles in degrees are numbers, lengths are in mm.
-/

namespace Marxs
open Classical

/-- The entries of the Arcus configuration that are used: `conf['pos_opt_ax']` (x and y), `conf['rowland_detector'].r`, `conf['rowland_central'].r` and `conf['blazeang']`. Used for `marxs/missions/arcus/analyze_grid.py:16-44`. -/
structure ArcusGeom where
  posOptAx : String → Option (ℝ × ℝ)
  rDetector : ℝ
  rCentral : ℝ
  blazeang : ℝ

/-- `pos4d` of the circular detector, `PerfectArcus.add_detectors`, `marxs/missions/arcus/arcus.py:434-441`: `r` is taken from the default configuration of the module, `d` from the configuration of the telescope. The matrix `rot` is a half turn around the y axis. -/
noncomputable def arcusCircDet (r d : ℝ) : M4 :=
  compose ![0, 0, Real.sqrt (r ^ 2 - d ^ 2)] (!![0, 1, 0; 0, 0, 1; 1, 0, 0] * !![-1, 0, 0; 0, 1, 0; 0, 0, -1]) ![r, r, 20]

/-- `zeropos`, `marxs/missions/arcus/analyze_grid.py:16-44`. `none`: NaN (`arcsin` of numbers above 1). -/
noncomputable def zeropos (coord channel : String) (conf : ArcusGeom) : Except Err (Option ℝ) :=
  let pos := match conf.posOptAx channel with
    | some p => Except.ok p
    | none => .error .keyError
  match coord with
  | "circ_phi" => do
      let p ← pos
      if conf.rDetector = 0 ∨ 1 < |p.1 / conf.rDetector| then .ok none
      else .ok (some (Real.arcsin (p.1 / conf.rDetector)))
  | "circ_y" => do
      let p ← pos
      .ok (some (-p.2))
  | "proj_y" => do
      let p ← pos
      .ok (some p.2)
  | "proj_x" => do
      let p ← pos
      .ok (some p.1)
  | _ => .error .notImplemented

/-- The new columns for one event: `tg_r` and `tg_d` in degrees, `tg_mlam` in the unit of the grating period. Used for `marxs/missions/arcus/analyze_grid.py:196-222`. -/
structure TgCoords where
  r : ℝ
  d : Option ℝ
  mlam : ℝ

/-- `tg_resolve_events_circdet`, `marxs/missions/arcus/analyze_grid.py:196-222`, for one event; `dflt` is the configuration `defaultconf` of the module, which `zeropos` uses (line 215), `conf` the argument of the same name. `period` is the mean period of the gratings. For `l = 0` the quotient in line 220 is infinite or NaN. -/
noncomputable def tgResolve (dflt conf : ArcusGeom) (period : ℝ) (channel : String) (circPhi circY : ℝ) : Except Err (Option TgCoords) := do
  let effPeriod := Real.cos (conf.blazeang * Real.pi / 180) * period
  let ang ← zeropos "circ_phi" channel dflt
  match conf.posOptAx channel, ang with
  | none, _ => .error .keyError
  | some _, none => .ok none
  | some p, some ang0 =>
    let tgr := -(ang0 - circPhi) / 2
    let l := 2 * conf.rCentral * Real.cos (ang0 - circPhi)
    let dy := p.2 - circY
    let tgd : Option ℝ := if l = 0 then (if dy = 0 then none else if 0 < dy then some (Real.pi / 2) else some (-(Real.pi / 2)))
      else some (Real.arctan (dy / l))
    .ok (some ⟨tgr * 180 / Real.pi, tgd.map fun a => a * 180 / Real.pi, effPeriod * Real.sin tgr⟩)

end Marxs
