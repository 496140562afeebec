import Mathlib.Analysis.SpecialFunctions.Trigonometric.Inverse
import Mathlib.Analysis.SpecialFunctions.Complex.Arg
import Mathlib.Data.Real.Sign
import Mathlib.Algebra.Order.Floor.Semiring
import Verif.Model.MathUtils
import Verif.Model.Placement
import Verif.Model.Geometry

/-!
# Rowland tori and the placement of elements on them

Models `marxs/design/rowland.py`.  Floats are reals.  Functions that act on arrays of points are
modelled for one point unless a decision depends on all points.
-/

namespace Marxs

open Classical

/-! ## The torus -/

/-- A `RowlandTorus`, `marxs/design/rowland.py:78-105`. -/
structure Torus where
  R : ℝ
  r : ℝ
  pos4d : M4

/-- The polynomial in `RowlandTorus.quartic`, `marxs/design/rowland.py:134`. -/
def quarticLocal (R r : ℝ) (p : V3) : ℝ :=
  (p.x ^ 2 + p.y ^ 2 + p.z ^ 2 + R ^ 2 - r ^ 2) ^ 2 - 4 * R ^ 2 * (p.x ^ 2 + p.z ^ 2)

/-- `RowlandTorus.quartic(xyz, transform)` for one point, `marxs/design/rowland.py:107-134`. -/
noncomputable def quartic (t : Torus) (p : V3) (transform : Bool) : Except Err ℝ :=
  if transform then
    match e2h [p] 1 with
    | .error e => .error e
    | .ok h =>
      match h2e (h.map (mul4 t.pos4d⁻¹)) with
      | .ok [q] => .ok (quarticLocal t.R t.r q)
      | .ok _ => .error .valueError
      | .error e => .error e
  else .ok (quarticLocal t.R t.r p)

/-- Local coordinates in `RowlandTorus.parametric`, `marxs/design/rowland.py:228-232`. -/
noncomputable def parametricLocal (R r theta phi : ℝ) : H4 :=
  ⟨(R + r * Real.cos theta) * Real.cos phi, r * Real.sin theta,
   (R + r * Real.cos theta) * Real.sin phi, 1⟩

/-- `RowlandTorus.parametric(theta, phi)`, `marxs/design/rowland.py:209-233`. -/
noncomputable def parametric (t : Torus) (theta phi : ℝ) : H4 :=
  mul4 t.pos4d (parametricLocal t.R t.r theta phi)

/-- Angle `theta` in `RowlandTorus.xyzw2parametric`, `marxs/design/rowland.py:268-270`; `none`: NaN from
`arcsin` outside of its domain. -/
noncomputable def torusTheta (R r : ℝ) (p : V3) : Option ℝ :=
  let s := Real.sign (Real.sqrt (p.x ^ 2 + p.z ^ 2) - R)
  if |s * p.y / r| ≤ 1 then some (Real.arcsin (s * p.y / r) + (if s < 0 then 1 else 0) * Real.pi)
  else none

/-- Angle `phi` in `RowlandTorus.xyzw2parametric`, `marxs/design/rowland.py:272-275`. -/
noncomputable def torusPhi (R r : ℝ) (p : V3) (theta : ℝ) : ℝ :=
  let factor := R + r * Real.cos theta
  if factor ≠ 0 then arctan2 (p.z / factor) (p.x / factor) else 0

/-- `RowlandTorus.xyzw2parametric(xyzw, transform, intersectvalid)`, `marxs/design/rowland.py:235-280`.
`np.allclose(q / R**4, 0.)` means that all values are at most `1e-8` (and false for `R = 0`).
With `intersectvalid=False` the code applies `~` to an array of floats, which is a `TypeError`. -/
noncomputable def xyzw2parametric (t : Torus) (pts : List H4) (transform intersectvalid : Bool) :
    Except Err (List (Option (ℝ × ℝ))) :=
  match h2e (if transform then pts.map (mul4 t.pos4d⁻¹) else pts) with
  | .error e => .error e
  | .ok xyz =>
    if t.R = 0 ∨ ¬ ∀ p ∈ xyz, |quarticLocal t.R t.r p / t.R ^ 4| ≤ 1 / 10 ^ 8 then .error .valueError
    else if intersectvalid = false then .error .typeError
    else .ok (xyz.map fun p => (torusTheta t.R t.r p).map fun th => (th, torusPhi t.R t.r p th))

/-- `RowlandTorus.normal_parametric(theta, phi)` for one point, `marxs/design/rowland.py:282-307`. -/
noncomputable def normalParametric (t : Torus) (theta phi : ℝ) : H4 :=
  mul4 t.pos4d ⟨Real.cos theta * Real.cos phi, Real.sin theta, Real.cos theta * Real.sin phi, 0⟩

/-- `RowlandTorus.normal(xyzw)`, `marxs/design/rowland.py:309-331` (`none`: NaN). -/
noncomputable def torusNormal (t : Torus) (pts : List H4) : Except Err (List (Option H4)) :=
  match xyzw2parametric t pts true true with
  | .error e => .error e
  | .ok l => .ok (l.map fun o => o.map fun tp => normalParametric t tp.1 tp.2)

/-- A numerical root finder for functions of one variable (`scipy.optimize.root`, called in
`marxs/design/rowland.py:167-183`): returns a root or fails. What is found when there are several roots is
not specified. -/
abbrev RootFinder := (ℝ → ℝ) → Option ℝ

/-- `RowlandTorus.solve_quartic(origin, v, transform)`, `marxs/design/rowland.py:136-183`.  A value of the
quartic that cannot be computed is counted as not a root. `h2e` of origin and direction drops the last
coordinate (1 and 0). -/
noncomputable def solveQuartic (root : RootFinder) (t : Torus) (origin v : H4) (transform : Bool) :
    Except Err H4 :=
  match h2e [origin], h2e [v] with
  | .ok [o], .ok [d] =>
    match root (fun k => match quartic t (o + k • d) transform with
      | .ok q => q
      | .error _ => 1) with
    | none => .error .sourceError
    | some k => .ok ⟨o.x + k * d.x, o.y + k * d.y, o.z + k * d.z, 1⟩
  | .error e, _ => .error e
  | _, .error e => .error e
  | _, _ => .error .valueError

/-- `RowlandTorus.xyz_from_radiusangle(radius, angle, start)`, `marxs/design/rowland.py:333-366`;
`start` is the number `np.mean(start)`. -/
noncomputable def xyzFromRadiusangle (root : RootFinder) (t : Torus) (radius angle start : ℝ) :
    Except Err V3 :=
  match solveQuartic root t ⟨start, radius * Real.cos angle, radius * Real.sin angle, 1⟩
      ⟨1, 0, 0, 0⟩ false with
  | .error e => .error e
  | .ok out =>
    match h2e [mul4 t.pos4d out] with
    | .ok [q] => .ok q
    | .ok _ => .error .valueError
    | .error e => .error e

/-! ## Torus designs -/

/-- `design_tilted_torus(f, alpha, beta)`, `marxs/design/rowland.py:369-420`. -/
noncomputable def designTiltedTorus (f alpha beta : ℝ) : Torus :=
  let r := f / (2 * Real.cos alpha)
  let R := r * Real.sin (Real.pi / 2 - beta)
  let orientation := rotMat ⟨0, 0, -1⟩ (beta - alpha)
  let x_Ct := f / 2 - R * Real.cos (beta - alpha)
  let y_Ct := f / 2 * Real.tan alpha + R * Real.sin (beta - alpha)
  ⟨R, r, compose ![x_Ct, y_Ct, 0] orientation ![1, 1, 1]⟩

/-- Result of `double_rowland_from_channel_distance`: the parts of the dictionary that are used,
`marxs/design/rowland.py:472-491`. -/
structure DoubleRowland where
  d : ℝ
  central : Torus
  centralM : Torus
  detector : Torus

/-- Orientation of the torus of a channel, `marxs/design/rowland.py:457-459,467-471`. -/
noncomputable def drOrient (alpha : ℝ) : M3 :=
  !![Real.cos alpha, Real.sin alpha, 0; -Real.sin alpha, Real.cos alpha, 0; 0, 0, 1]

/-- `double_rowland_from_channel_distance(d_BF, R, f)`, `marxs/design/rowland.py:423-491`. -/
noncomputable def doubleRowland (d_BF R f : ℝ) : DoubleRowland :=
  let d := 1 / 2 * d_BF
  let r := 1 / 2 * Real.sqrt (f ^ 2 + d_BF ^ 2)
  let alpha := arctan2 d_BF f
  let pos : Fin 3 → ℝ := ![f - (r + R) * Real.cos alpha, (r + R) * Real.sin alpha, 0]
  let posm : Fin 3 → ℝ := ![f - (r + R) * Real.cos (-alpha), (r + R) * Real.sin (-alpha), 0]
  let central : Torus := ⟨R, r, compose pos (drOrient alpha) ![1, 1, 1]⟩
  let centralM : Torus := ⟨R, r, compose posm (drOrient (-alpha)) ![1, 1, 1]⟩
  ⟨d, central, centralM, ⟨R, r, translation2aff ![0, -d, 0] * central.pos4d⟩⟩

/-- Position of the optical axis of a channel, `marxs/design/rowland.py:519-524`. -/
noncomputable def posOptAx (d : ℝ) (channel : String) (offset : Fin 3 → ℝ) : Fin 3 → ℝ :=
  let sign : ℝ := if channel.toList.contains 'm' then 1 else -1
  ![0 + offset 0, sign * d + offset 1, 0 + offset 2]

/-- The loop over the channels in `add_offset_double_rowland_channels`, `marxs/design/rowland.py:527-542`.
`base` is the value of the variable `base_rowland`, which keeps its value from the previous iteration for
channel names that are not listed; if it has no value, that is an `UnboundLocalError` (`keyError`).
The result has the tori in the order of the channels. -/
noncomputable def addChannels (g : DoubleRowland) :
    Option Torus → List (String × (Fin 3 → ℝ)) → Except Err (List (String × Torus))
  | _, [] => .ok []
  | base, (channel, offset) :: rest =>
    let base := if channel = "1" ∨ channel = "2" then some g.central
      else if channel = "1m" ∨ channel = "2m" then some g.centralM
      else base
    match base with
    | none => .error .keyError
    | some b =>
      match addChannels g base rest with
      | .error e => .error e
      | .ok l =>
        .ok (("rowland_" ++ channel,
          ⟨b.R, b.r, translation2aff (posOptAx g.d channel offset) * b.pos4d⟩) :: l)

/-! ## Elements on a torus -/

/-- `np.arange(start, stop, step)` for a positive step. Used for `marxs/design/rowland.py:684-694`. -/
noncomputable def npArange (start stop step : ℝ) : List ℝ :=
  (List.range ⌈(stop - start) / step⌉₊).map fun i : ℕ => start + i * step

/-- Positions in one direction in `RectangularGrid.elemposyz`, `marxs/design/rowland.py:684-694`. -/
noncomputable def gridPos (lo hi d : ℝ) : List ℝ :=
  let n : ℤ := max 1 ⌈(hi - lo) / d⌉
  let width := n * d
  npArange (1 / 2 * (lo - width + hi + d)) hi d

/-- `RectangularGrid.elemposyz()`, `marxs/design/rowland.py:683-698`: pairs of y and z
(`meshgrid`: y varies fastest). -/
noncomputable def rectangularGrid (y0 y1 z0 z1 dy dz : ℝ) : List (ℝ × ℝ) :=
  (gridPos z0 z1 dz).flatMap fun z => (gridPos y0 y1 dy).map fun y => (y, z)

/-- `z` positions for one `y` in `CircularMeshGrid.elemposyz`, `marxs/design/rowland.py:735-749`. -/
noncomputable def circularColumn (r0 r1 dz y : ℝ) : List ℝ :=
  if r1 < |y| then [0]
  else
    let zOuter := Real.sqrt (r1 ^ 2 - y ^ 2)
    if r0 < |y| then
      let n : ℤ := ⌈2 * zOuter / dz⌉
      npArange (-(n * dz) / 2) zOuter dz
    else
      let zInner := Real.sqrt (r0 ^ 2 - y ^ 2)
      let zMid := 1 / 2 * (zInner + zOuter)
      let n : ℤ := ⌈(zOuter - zInner) / dz⌉
      let z := npArange (zMid - n * dz / 2) zOuter dz
      z.map (fun a => -a) ++ z

/-- Column positions in `CircularMeshGrid.elemposyz`, `marxs/design/rowland.py:726-728`. -/
noncomputable def circularColumns (r1 dy : ℝ) : List ℝ :=
  let n : ℤ := ⌈2 * r1 / dy⌉
  npArange (-(n * dy) / 2) r1 dy

/-- `CircularMeshGrid.elemposyz()`, `marxs/design/rowland.py:725-753`. -/
noncomputable def circularGrid (r0 r1 dy dz : ℝ) : List (ℝ × ℝ) :=
  (circularColumns r1 dy).flatMap fun y => (circularColumn r0 r1 dz y).map fun z => (y, z)

/-- Parameter `phi` of a `GratingArrayStructure`. Used for `marxs/design/rowland.py:843-876`. -/
inductive GasPhi where
  | number (x : ℝ)
  | single (x : ℝ)
  | range (lo hi : ℝ)

/-- `GratingArrayStructure.max_elements_on_radius`, `marxs/design/rowland.py:792-807`. -/
noncomputable def maxElementsOnRadius (d r0 r1 : ℝ) : ℤ := ⌈(r1 - r0) / d⌉

/-- One bracket in `GratingArrayStructure.distribute_elements_on_radius`, `marxs/design/rowland.py:825-829`;
`np.arange(-n / 2 + 0.5, n / 2 + 0.5)` has `n` entries. -/
noncomputable def radiusBracket (d r0 r1 : ℝ) : List ℝ :=
  let n : ℝ := maxElementsOnRadius d r0 r1
  (npArange (-n / 2 + 1 / 2) (n / 2 + 1 / 2) 1).map fun k => (r0 + r1) / 2 + k * d

/-- `GratingArrayStructure.distribute_elements_on_radius()`, `marxs/design/rowland.py:809-830`; the list of
radii is taken in pairs (an unpaired last one is ignored). -/
noncomputable def distributeOnRadius (d : ℝ) : List ℝ → List ℝ
  | r0 :: r1 :: rest => radiusBracket d r0 r1 ++ distributeOnRadius d rest
  | _ => []

/-- `GratingArrayStructure.max_elements_on_arc(radius)`, `marxs/design/rowland.py:833-841`. -/
noncomputable def maxElementsOnArc (dz phi0 phi1 radius : ℝ) : ℤ :=
  ⌊radius * anglediff phi0 phi1 / dz⌋

/-- `GratingArrayStructure.distribute_elements_on_arc(radius)`, `marxs/design/rowland.py:843-876`: `len` of a
number is a `TypeError`; `np.arange(n)` is empty for `n <= 0`. -/
noncomputable def distributeOnArc (dy dz : ℝ) (phi : GasPhi) (radius : ℝ) : Except Err (List ℝ) :=
  match phi with
  | .number _ => .error .typeError
  | .single x => .ok [x]
  | .range phi0 phi1 =>
    let n := maxElementsOnArc dz phi0 phi1 (radius - dy / 2)
    let elementAngle := dz / (2 * Real.pi * radius)
    let dBetween := (anglediff phi0 phi1 - n * elementAngle) / (n + 1)
    .ok ((List.range n.toNat).map fun i : ℕ =>
      pymod (phi0 + (dBetween + 1 / 2 * elementAngle + i * (dBetween + elementAngle)))
        (2 * Real.pi))

/-- Elements for one radius in `GratingArrayStructure.elemposyz()`, `marxs/design/rowland.py:881-886`. -/
noncomputable def gasRing (dy dz : ℝ) (phi : GasPhi) (r : ℝ) : Except Err (List (ℝ × ℝ)) :=
  match distributeOnArc dy dz phi r with
  | .ok angles => .ok (angles.map fun a => (r * Real.sin a, r * Real.cos a))
  | .error e => .error e

/-- `GratingArrayStructure.elemposyz()`, `marxs/design/rowland.py:878-886`. -/
noncomputable def gasElemposyz (dy dz : ℝ) (phi : GasPhi) (radius : List ℝ) :
    Except Err (List (ℝ × ℝ)) :=
  match (distributeOnRadius dy radius).mapM (gasRing dy dz phi) with
  | .error e => .error e
  | .ok l => .ok l.flatten

/-- `ElementsOnTorus.elempos()`, `marxs/design/rowland.py:623-642`, for given positions in the yz plane. -/
noncomputable def elemposTorus (root : RootFinder) (t : Torus) (guessDistance : ℝ) (axis : H4)
    (yz : List (ℝ × ℝ)) : Except Err (List H4) :=
  yz.mapM fun p =>
    solveQuartic root t (mul4 t.pos4d ⟨0, p.1, p.2, 1⟩ + guessDistance • axis) axis true

end Marxs
