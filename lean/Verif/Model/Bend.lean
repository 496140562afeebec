import Mathlib.Analysis.SpecialFunctions.Trigonometric.Arctan
import Verif.Model.Geometry

/-!
# Bent and chirped gratings

Models `marxs/design/bendgratings.py` and `generate_test_photons` in `marxs/utils.py`.
-/

namespace Marxs
open Classical

/-! ## Bending -/

/-- What `bend_gratings` reads and changes in a grating, `marxs/design/bendgratings.py:41-62`: position of the geometry, the limits in
`phi` if it is a `Cylinder` (`none` for a plane), the groove angle kept in `geometry._geometry` and
`display['shape']`. -/
structure BendGrating where
  pos4d : M4
  phiLim : Option (ℝ × ℝ)
  groove : ℝ
  shape : String

/-- A stack of gratings (`FlatStack`): its own geometry and that of its elements. A single grating has no attribute `elements`
(`none`). Used for `marxs/design/bendgratings.py:42-62`. -/
structure BendStack where
  self : BendGrating
  elements : Option (List BendGrating)

/-- The `Cylinder` made in `marxs/design/bendgratings.py:44-47` and again in lines 55-58: `d` is `decompose(pos4d)` of the flat
grating and `ex` the first axis of the geometry at this point. The dictionary `_geometry`, which holds the groove
angle, is taken over (lines 48, 59). -/
noncomputable def bentGrating (d : Decomp) (ex : H4) (radius : ℝ) (g : BendGrating) : BendGrating where
  pos4d := compose (fun i => d.t i - radius * ![ex.x, ex.y, ex.z] i) d.r ![radius, radius, d.z 2]
  phiLim := some (-Real.arctan (d.z 1 / radius), Real.arctan (d.z 1 / radius))
  groove := g.groove
  shape := "surface"

/-- Body of the loop in `bend_gratings`, `marxs/design/bendgratings.py:42-62`. The second component is the state of the
stack afterwards, also if there was an exception. -/
noncomputable def bendStack (radius : ℝ) (e : BendStack) : Except Err Unit × BendStack :=
  let d := decompose44 e.self.pos4d
  let self' := bentGrating d (eX e.self.pos4d) radius e.self
  match e.elements with
  | none => (.error .attributeError, ⟨self', none⟩)
  | some l => (.ok (), ⟨self', some (l.map (bentGrating d (eX self'.pos4d) radius))⟩)

/-- `bend_gratings`, `marxs/design/bendgratings.py:26-62`. -/
noncomputable def bendGratings (radius : ℝ) : List BendStack → Except Err Unit × List BendStack
  | [] => (.ok (), [])
  | e :: l =>
    match bendStack radius e with
    | (.error err, e') => (.error err, e' :: l)
    | (.ok (), e') => let r := bendGratings radius l; (r.1, e' :: r.2)

/-! ## Chirp -/

/-- One photon as in `generate_test_photons`, `marxs/utils.py:37-51`. -/
structure TestPhoton where
  pos : H4
  dir : H4
  energy : ℝ
  pol : H4
  prob : ℝ

/-- `generate_test_photons`, `marxs/utils.py:16-51`. -/
def generateTestPhotons (n : ℕ) : List TestPhoton :=
  List.replicate n ⟨⟨1, 0, 0, 1⟩, ⟨-1, 0, 0, 0⟩, 1, ⟨0, 1, 0, 0⟩, 1⟩

/-- Attributes of a `NumericalChirpFinder`, `marxs/design/bendgratings.py:84-133`. `log` is not in the code: it records the photons
that were sent to the grating, with grating constant and order, newest first. -/
structure ChirpFinder where
  photon : TestPhoton
  energy : ℝ
  order : ℝ
  baseD : ℝ
  uv : ℝ × ℝ
  pos : H4
  dir : H4
  goal : ℝ
  log : List (ℝ × ℝ × TestPhoton)

/-- `NumericalChirpFinder.__init__`, `marxs/design/bendgratings.py:84-94`. The attributes `pos`, `dir`, `goal` do not exist
before `set_grat`; their values are set there before they are used. -/
noncomputable def chirpInit (order energy d : ℝ) : ChirpFinder where
  photon := (generateTestPhotons 1).headD ⟨⟨0, 0, 0, 0⟩, ⟨0, 0, 0, 0⟩, 0, ⟨0, 0, 0, 0⟩, 0⟩
  energy := energy
  order := order
  baseD := d
  uv := (0, 0)
  pos := ⟨0, 0, 0, 0⟩
  dir := ⟨0, 0, 0, 0⟩
  goal := 0
  log := []

/-- `NumericalChirpFinder.posongrat`, `marxs/design/bendgratings.py:113-117`. -/
noncomputable def posOnGrat (m : M4) (uv : ℝ × ℝ) : Except Err V3 :=
  .ok (center m + uv.1 • vY m + uv.2 • vZ m).xyz

/-- `BendNumericalChirpFinder.posongrat`, `marxs/design/bendgratings.py:156-164`: neither `Cylinder` nor any other
geometry has an attribute `phi_limits`. -/
def bendPosOnGrat (_m : M4) (_uv : ℝ × ℝ) : Except Err V3 := .error .attributeError

/-- `reset_photon`, `marxs/design/bendgratings.py:125-128`. -/
def ChirpFinder.reset (s : ChirpFinder) : ChirpFinder :=
  { s with photon := { s.photon with pos := s.pos, dir := s.dir, prob := 1 } }

/-- `set_uv` and `init_photon`, `marxs/design/bendgratings.py:100-102, 119-123`. `posOn` is the method `posongrat`
for the present grating. A position in the origin has no direction (NaN), the division by zero of the model is not used then. -/
noncomputable def ChirpFinder.setUv (posOn : ℝ × ℝ → Except Err V3) (s : ChirpFinder) (uv : ℝ × ℝ) :
    Except Err ChirpFinder :=
  match posOn uv with
  | .error e => .error e
  | .ok p =>
    .ok ({ s with
      uv := uv
      pos := ⟨1.1 * p.x, 1.1 * p.y, 1.1 * p.z, 1⟩
      dir := (⟨-p.x, -p.y, -p.z, 0⟩ : H4).unit } : ChirpFinder).reset

/-- `run_photon`, `marxs/design/bendgratings.py:130-133`. `trace d order` stands for the grating with this grating constant and order followed by the
detector; it returns the photon and the value in the column `colname`. -/
noncomputable def ChirpFinder.run (trace : ℝ → ℝ → TestPhoton → TestPhoton × ℝ) (s : ChirpFinder) (d : ℝ) : ℝ × ChirpFinder :=
  let s := s.reset
  let r := trace d s.order s.photon
  (r.2, { s with photon := r.1, log := (d, s.order, s.photon) :: s.log })

/-- `calc_goal`, `marxs/design/bendgratings.py:104-111`. -/
noncomputable def ChirpFinder.calcGoal (posOn : ℝ × ℝ → Except Err V3) (trace : ℝ → ℝ → TestPhoton → TestPhoton × ℝ)
    (s : ChirpFinder) : Except Err ChirpFinder :=
  match s.setUv posOn (0, 0) with
  | .error e => .error e
  | .ok s => let r := s.run trace s.baseD; .ok { r.2 with goal := r.1 }

/-- `optimize_func`, `marxs/design/bendgratings.py:135-138`. -/
noncomputable def ChirpFinder.optimize (trace : ℝ → ℝ → TestPhoton → TestPhoton × ℝ) (s : ChirpFinder) (d : ℝ) : ℝ × ChirpFinder :=
  let r := s.run trace (d * s.baseD)
  (|r.1 - s.goal|, r.2)

/-- Any algorithm to minimize a function of one number (`scipy.optimize.minimize_scalar`, called in
`marxs/design/bendgratings.py:146-147`): it asks for values of the function, one after the other, and gives a result in the end. -/
inductive Search where
  | result (x : ℝ)
  | eval (x : ℝ) (next : ℝ → Search)

/-- `minimize_scalar(self.optimize_func)`, `marxs/design/bendgratings.py:146-147`. -/
noncomputable def ChirpFinder.search (trace : ℝ → ℝ → TestPhoton → TestPhoton × ℝ) : Search → ChirpFinder → ℝ × ChirpFinder
  | .result x, s => (x, s)
  | .eval x next, s => let r := s.optimize trace x; ChirpFinder.search trace (next r.1) r.2

/-- Loops in `correction_on_d`, `marxs/design/bendgratings.py:140-148`, over a list of pairs `(u, v)`. -/
noncomputable def ChirpFinder.correctionLoop (posOn : ℝ × ℝ → Except Err V3) (trace : ℝ → ℝ → TestPhoton → TestPhoton × ℝ)
    (alg : Search) : List (ℝ × ℝ) → ChirpFinder → Except Err (List ℝ × ChirpFinder)
  | [], s => .ok ([], s)
  | uv :: l, s =>
    match s.setUv posOn uv with
    | .error e => .error e
    | .ok s =>
      let r := s.search trace alg
      match ChirpFinder.correctionLoop posOn trace alg l r.2 with
      | .error e => .error e
      | .ok (xs, s') => .ok (r.1 :: xs, s')

/-- `NumericalChirpFinder.__call__`, `marxs/design/bendgratings.py:150-152` with `set_grat` (lines 96-98); the array is returned row after row. -/
noncomputable def ChirpFinder.call (posOn : ℝ × ℝ → Except Err V3) (trace : ℝ → ℝ → TestPhoton → TestPhoton × ℝ)
    (alg : Search) (us vs : List ℝ) (s : ChirpFinder) : Except Err (List ℝ × ChirpFinder) :=
  match s.calcGoal posOn trace with
  | .error e => .error e
  | .ok s => s.correctionLoop posOn trace alg (us.flatMap fun u => vs.map fun v => (u, v))

/-- Value at `x` of the polynomial of second degree through three points: what `RectBivariateSpline` with `kx=ky=2` and three
points in each direction gives for values that do not depend on the second coordinate. `scipy` is not part of `/repo`. Used for `marxs/design/bendgratings.py:176-191`. -/
noncomputable def quadThrough (x0 x1 x2 y0 y1 y2 x : ℝ) : ℝ :=
  y0 * ((x - x1) * (x - x2)) / ((x0 - x1) * (x0 - x2)) + y1 * ((x - x0) * (x - x2)) / ((x1 - x0) * (x1 - x2)) +
    y2 * ((x - x0) * (x - x1)) / ((x2 - x0) * (x2 - x1))

/-- The function for the grating constant that `chirp_gratings` makes, `marxs/design/bendgratings.py:176-191`, from the first column
`corr` of the array with the corrections. The array passed to `RectBivariateSpline` always has three columns (line 178),
and it has to have one for each element of `uarray` (line 182). Positions outside of `bbox` are moved to its edge. -/
noncomputable def chirpFunction (ly d : ℝ) (us corr : List ℝ) : Except Err (ℝ × ℝ → ℝ) :=
  match us, corr with
  | [u0, u1, u2], [c0, c1, c2] =>
    if u0 < u1 ∧ u1 < u2 then
      .ok fun intercoos => quadThrough (ly * u0) (ly * u1) (ly * u2) (d * c0) (d * c1) (d * c2)
        (max (-ly) (min ly intercoos.1))
    else .error .valueError
  | _, _ => .error .valueError

end Marxs
