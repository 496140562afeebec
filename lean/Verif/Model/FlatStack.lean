import Verif.Model.RayChain

/-!
# `FlatStack` for one photon

Models `FlatStack.__init__` and `FlatStack.process_photons` in `marxs/optics/base.py` for layers that are used in stacks (`HRMA` in
`marxs/missions/chandra/hrma_py.py`, `MetaShellMirror` in `marxs/missions/lynx/mirror.py`, detectors with filters, gratings with support structures).
-/

namespace Marxs

/-- A layer of a stack: a class and the keywords for it, `marxs/optics/base.py:243-252`, without the place. Random numbers are arguments. -/
inductive Layer where
  | detector
  | filter (f : ℝ → ℝ)
  | lens (focallength dOptax : ℝ) (refl : ℝ → ℝ → ℝ)
  | grating (transmission cat : Bool) (groove : ℝ) (d blazeMod : ℝ × ℝ → ℝ) (order : ℝ → Option ℝ → ℤ × ℝ)
  | scatter (inAngle perpAngle : Option ℝ)

/-- The element itself: `elem(pos4d=self.pos4d, **k)`, `marxs/optics/base.py:250-252`. -/
def Layer.optic (m : M4) : Layer → Optic
  | .detector => .plane m
  | .filter f => .filter m f
  | .lens focallength dOptax refl => .lens m focallength dOptax refl
  | .grating transmission cat groove d blazeMod order => .grating m transmission cat groove d blazeMod order
  | .scatter inAngle perpAngle => .scatter m inAngle perpAngle

/-- `e.process_photons` for a photon in the mask `intersect`, `marxs/optics/base.py:149-211`, with the given intersection point and local coordinates. The direction may be NaN
here: filters and detectors do not look at it (`marxs/optics/filter.py:46-53`, `marxs/optics/detector.py:66-75`), a grating selects an order for a blaze angle of NaN
(`marxs/optics/grating.py:205-231`), all others give NaN (`marxs/optics/mirror.py:57-82`, `marxs/optics/scatter.py:44-77`). Simplification: the reflectivity of a lens for a
photon without direction is NaN. -/
noncomputable def Layer.process (m : M4) (q : H4) (y z : ℝ) (r : Ray) : Layer → Except Err Ray
  | .detector => .ok (r.at q y z)
  | .filter f => match filterValue f r.energy with
    | .error e => .error e
    | .ok p => .ok ((r.times (some p)).at q y z)
  | .lens focallength dOptax refl => match r.dir with
    | none => .ok (({ r with dir := none, pol := none }.times none).at q y z)
    | some d =>
      let out := fun pol => perfectLens m focallength dOptax refl d pol q r.energy
      .ok (({ r with dir := (out ⟨0, 0, 0, 0⟩).map LensOut.dir
                     pol := (r.pol.bind out).bind LensOut.pol }.times ((out ⟨0, 0, 0, 0⟩).map LensOut.prob)).at q y z)
  | .grating transmission cat groove d blazeMod order => match r.dir with
    | none => .ok (({ r with dir := none, pol := none, order := some (order r.energy none).1, blaze := none }.times (some (order r.energy none).2)).at q y z)
    | some dir =>
      let g := planeGrating m transmission cat groove d blazeMod order
      let out := g.diffract dir ⟨0, 0, 0, 0⟩ r.energy (y, z)
      .ok (({ r with dir := out.dir
                     pol := r.pol.bind fun pol => (g.process dir pol r.energy (y, z)).2
                     order := some out.m
                     blaze := out.blaze }.times (some out.prob)).at q y z)
  | .scatter inAngle perpAngle => match r.dir, r.pos with
    | some d, some p =>
      let out := fun pol => radialScatter m d p pol inAngle perpAngle
      .ok ({ r with dir := (out ⟨0, 0, 0, 0⟩).map Prod.fst
                    pol := (r.pol.bind out).bind Prod.snd }.at q y z)
    | _, _ => .ok ({ r with dir := none, pol := none }.at q y z)

/-- The loop over the layers, `marxs/optics/base.py:278-279`. -/
noncomputable def rayLayers (m : M4) (q : H4) (y z : ℝ) : List Layer → Ray → Except Err Ray
  | [], r => .ok r
  | e :: es, r => match e.process m q y z r with
    | .error x => .error x
    | .ok r' => rayLayers m q y z es r'

/-- `FlatStack.__call__`, `marxs/optics/base.py:144-147,261-281`: one intersection, then `OpticalElement.process_photons` of the stack itself, which sets the position (no columns for
ids or local coordinates, which is the default), then all layers. -/
noncomputable def flatStack (m : M4) (es : List Layer) (r : Ray) : Except Err Ray :=
  match r.hit m with
  | none => .ok r
  | some (_, q, y, z, _) => rayLayers m q y z es { r with pos := some q }

end Marxs
