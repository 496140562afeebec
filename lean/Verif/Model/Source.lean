import Mathlib.Algebra.Order.Floor.Semiring
import Mathlib.Algebra.Order.Floor.Defs
import Mathlib.Data.Real.Archimedean
import Mathlib.Data.Real.Sqrt
import Mathlib.Analysis.SpecialFunctions.Trigonometric.Inverse
import Verif.Model.MathUtils
import Verif.Model.Random
import Verif.Model.Optics

/-!
# Sources: `marxs/source/basesources.py`, `marxs/source/labSource.py`

Units are not modelled: all numbers are in the unit to which the code converts. Random numbers are
arguments, draws from [0, 1) unless stated otherwise.
-/

namespace Marxs

open Classical

/-- `np.arange(0, stop, step)`: `ceil(stop / step)` numbers. Used for `marxs/source/basesources.py:169-176`. -/
noncomputable def arange (stop step : ℝ) : List ℝ :=
  (List.range ⌈stop / step⌉₊).map (fun i : ℕ => (i : ℝ) * step)

/-- Kinds of input for the `flux` of a source, `marxs/source/basesources.py:170-176`: a function of
exposure time and geometric area, a number, or something else. -/
inductive FluxSpec where
  | callable (f : ℝ → ℝ → List ℝ)
  | scalar (rate : ℝ)
  | other

/-- `Source.generate_times`, `marxs/source/basesources.py:169-176`. -/
noncomputable def generateTimes (flux : FluxSpec) (geomarea exposure : ℝ) : Except Err (List ℝ) :=
  match flux with
  | .callable f => .ok (f exposure geomarea)
  | .scalar rate => .ok (arange exposure (1 / (rate * geomarea)))
  | .other => .error .sourceError

/-- Sum of the first `n` waiting times. Used for `marxs/source/basesources.py:69-75`. -/
def waitSum (s : ℕ → ℝ) (n : ℕ) : ℝ := ((List.range n).map s).sum

/-- The `while` loop of `poisson_process`, `marxs/source/basesources.py:69-75`: number of waiting
times that have been drawn when the loop ends. `s` is the stream of random waiting times, `n` the
number drawn so far, `rate` is `fullrate`. `int` truncates. `none`: no end after `fuel` rounds.
Simplification: exposure times are not negative. -/
noncomputable def poissonLoop (rate exposure : ℝ) (s : ℕ → ℝ) : ℕ → ℕ → Option ℕ
  | 0, n => if waitSum s n < exposure then none else some n
  | fuel + 1, n =>
    if waitSum s n < exposure then
      poissonLoop rate exposure s fuel (n + ⌊(exposure - waitSum s n) * rate * 1.1⌋₊)
    else some n

/-- `poisson_process(rate)(exposuretime, geomarea)`, `marxs/source/basesources.py:52-78`. -/
noncomputable def poissonTimes (rate exposure : ℝ) (s : ℕ → ℝ) (fuel : ℕ) : Option (List ℝ) :=
  match poissonLoop rate exposure s fuel ⌊exposure * rate * 1.1⌋₊ with
  | none => none
  | some n => some ((cumsum ((List.range n).map s)).filter (fun t => decide (t < exposure)))

/-- Kinds of input for `energy`, `marxs/source/basesources.py:179-201`: function of the times, table
(upper bin edges, flux density), number, or something else. -/
inductive EnergySpec where
  | callable (f : List ℝ → List ℝ)
  | table (energy fluxdensity : List ℝ)
  | scalar (v : ℝ)
  | other

/-- Call of a `RandomArbitraryPdf` for several photons; one pair of random numbers for each. Used for `marxs/source/basesources.py:179-201`. -/
noncomputable def drawAll (a : ArbPdf) : List (ℝ × ℝ) → Except Err (List ℝ)
  | [] => .ok []
  | (u, r) :: l => match a.draw true u r with
    | .error e => .error e
    | .ok v => match drawAll a l with
      | .error e => .error e
      | .ok vs => .ok (v :: vs)

/-- `Source.generate_energies`, `marxs/source/basesources.py:179-201`; `draws` has one pair of random
numbers per photon. -/
noncomputable def generateEnergies (spec : EnergySpec) (argsort : List ℝ → List ℕ)
    (draws : List (ℝ × ℝ)) (t : List ℝ) : Except Err (List ℝ) :=
  match spec with
  | .callable f =>
    let en := f t
    if en.length ≠ t.length then .error .sourceError else .ok en
  | .table x y =>
    match ArbPdf.init x (0 :: y.tail) (some argsort) with
    | .error e => .error e
    | .ok a => drawAll a draws
  | .scalar v => .ok (List.replicate t.length v)
  | .other => .error .sourceError

/-- Kinds of input for `polarization`, `marxs/source/basesources.py:204-225`. -/
inductive PolSpec where
  | callable (f : List ℝ → List ℝ → List ℝ)
  | unpolarized
  | table (angle density : List ℝ)
  | scalar (v : ℝ)
  | other

/-- `Source.generate_polarization`, `marxs/source/basesources.py:204-225`. For unpolarized sources
only the first number of each pair is used. -/
noncomputable def generatePolarization (spec : PolSpec) (argsort : List ℝ → List ℕ)
    (draws : List (ℝ × ℝ)) (t e : List ℝ) : Except Err (List ℝ) :=
  match spec with
  | .callable f =>
    let pol := f t e
    if pol.length ≠ t.length then .error .sourceError else .ok pol
  | .unpolarized => .ok (draws.map (fun d => 0 + (2 * Real.pi - 0) * d.1))
  | .table x y =>
    match ArbPdf.init x y (some argsort) with
    | .error e => .error e
    | .ok a => drawAll a draws
  | .scalar v => .ok (List.replicate t.length v)
  | .other => .error .sourceError

/-- `DiskSource`, radial distribution for one photon, `marxs/source/basesources.py:445-447`. -/
noncomputable def diskRadius (aInner aOuter u : ℝ) : ℝ :=
  Real.sqrt (aInner ^ 2 + u * (aOuter ^ 2 - aInner ^ 2))

/-- `SphericalDiskSource.radial_distribution` for one photon, `marxs/source/basesources.py:416-427`. -/
noncomputable def sphericalRadius (aInner aOuter u : ℝ) : ℝ :=
  Real.arccos (Real.cos aInner * (1 - u) + u * Real.cos aOuter)

/-- Position of a photon relative to the center of the source, longitude and latitude in the offset
frame, `RadialDistributionSource.generate_photons`, `marxs/source/basesources.py:385-389`. -/
noncomputable def offsetLonLat (d u : ℝ) : ℝ × ℝ :=
  let phi := u * 2 * Real.pi
  (d * Real.sin phi, d * Real.cos phi)

/-- Position (Euclidean) and direction of one photon of a `FarLabPointSource`,
`marxs/source/labSource.py:41-56`; `np.random.uniform(-1, 1)` is `-1 + 2 u`. -/
noncomputable def farLabPhoton (m : M4) (source : V3) (u1 u2 : ℝ) : H4 × H4 :=
  let pos := mul4 m ⟨0, -1 + 2 * u1, -1 + 2 * u2, 1⟩
  (pos, ⟨pos.x - source.x, pos.y - source.y, pos.z - source.z, 0⟩)

/-- Direction of one photon of a `LabPointSourceCone`, `marxs/source/labSource.py:104-131`; `d` is
the normalised direction. `axangle2aff` normalises the axis; `none` (NaN): the axis has length 0. -/
noncomputable def conePhoton (d : V3) (half u1 u2 : ℝ) : Option H4 :=
  let theta := 2 * Real.pi * u1
  let frac := 2 * Real.pi * (1 - Real.cos half) / (4 * Real.pi)
  let v := frac * u2
  let phi := Real.arccos (1 - 2 * v)
  let dir : V3 := ⟨Real.cos theta * Real.sin phi, Real.sin theta * Real.sin phi, Real.cos phi⟩
  let axis := d.cross ⟨0, 0, 1⟩
  let angle := Real.arccos d.z
  if axis = 0 then none else some (mul3 (rotMat axis.unit (-angle)) dir).toDir

end Marxs
