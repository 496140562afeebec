import Mathlib.Analysis.SpecialFunctions.Complex.Arg
import Verif.Model.MathUtils
import Verif.Model.Placement

/-!
# Geometries

Models `marxs/math/geometry.py`: `Geometry.__getitem__`, `FinitePlane`, `Cylinder`.
All functions are modelled for a single ray; numpy applies them row by row.
-/

namespace Marxs
open Classical

/-- Column of `pos4d`, `self.pos4d[:, j]`. Used for `marxs/math/geometry.py:143-144`. -/
def col (m : M4) (j : Fin 4) : H4 := ⟨m 0 j, m 1 j, m 2 j, m 3 j⟩

/-- `self['center']`, `marxs/math/geometry.py:143-144`. -/
def center (m : M4) : H4 := col m 3
/-- `self['v_x']`, `marxs/math/geometry.py:145-146`. -/
def vX (m : M4) : H4 := col m 0
/-- `self['v_y']`, `marxs/math/geometry.py:147-148`. -/
def vY (m : M4) : H4 := col m 1
/-- `self['v_z']`, `marxs/math/geometry.py:149-150`. -/
def vZ (m : M4) : H4 := col m 2
/-- `self['e_x']`, `marxs/math/geometry.py:157-158`. -/
noncomputable def eX (m : M4) : H4 := (vX m).unit
/-- `self['e_y']`, `marxs/math/geometry.py:157-158`. -/
noncomputable def eY (m : M4) : H4 := (vY m).unit
/-- `self['e_z']`, `marxs/math/geometry.py:157-158`. -/
noncomputable def eZ (m : M4) : H4 := (vZ m).unit

/-- `FinitePlane.intersect`, `marxs/math/geometry.py:233-261`, for one ray. `none`: no intersection,
position and local coordinates are NaN. For a parallel ray `k` is infinite or NaN and
`~is_parallel` excludes the ray. -/
noncomputable def planeIntersect (m : M4) (dir pos : H4) : Option (H4 × ℝ × ℝ) :=
  let kNom := (center m - pos).dot (eX m)
  let kDenom := dir.dot (eX m)
  if kDenom = 0 then none
  else
    let k := kNom / kDenom
    let interpos := pos + k • dir
    let v := interpos - center m
    let y := v.dot (eY m)
    let z := v.dot (eZ m)
    if 0 ≤ k ∧ |y| ≤ (vY m).norm ∧ |z| ≤ (vZ m).norm then some (interpos, y, z) else none

/-- `FinitePlane.get_local_euklid_bases`, `marxs/math/geometry.py:263-281`: the same for all points. -/
noncomputable def planeBases (m : M4) : H4 × H4 × H4 := (eY m, eZ m, eX m)

/-- `np.arctan2(y, x)`. Used for `marxs/math/geometry.py:499-541`. -/
noncomputable def arctan2 (y x : ℝ) : ℝ := Complex.arg ⟨x, y⟩

/-- Core of `Cylinder.intersect` in local coordinates, `marxs/math/geometry.py:499-541`, for one ray:
path length, angle phi and coordinate z of the selected intersection point. For rays parallel to the
axis (`a = 0`) all path lengths are NaN and no comparison is true. -/
noncomputable def cylLocal (lim0 lim1 : ℝ) (pos dir : V3) : Option (ℝ × ℝ × ℝ) :=
  let c := pos.x ^ 2 + pos.y ^ 2 - 1
  let b := 2 * (pos.x * dir.x + pos.y * dir.y)
  let a := dir.x ^ 2 + dir.y ^ 2
  let underroot := b ^ 2 - 4 * a * c
  if ¬ (0 ≤ underroot) then none
  else if a = 0 then none
  else
    let denom := 2 * a
    let a1 := (-b + Real.sqrt underroot) / denom
    let a2 := (-b - Real.sqrt underroot) / denom
    let phi1 := arctan2 (pos.y + a1 * dir.y) (pos.x + a1 * dir.x)
    let phi2 := arctan2 (pos.y + a2 * dir.y) (pos.x + a2 * dir.x)
    let z1 := pos.z + a1 * dir.z
    let z2 := pos.z + a2 * dir.z
    let hit1 : Prop := 0 ≤ a1 ∧ |z1| ≤ 1 ∧ angleBetween phi1 lim0 lim1
    let hit2 : Prop := 0 ≤ a2 ∧ |z2| ≤ 1 ∧ angleBetween phi2 lim0 lim1
    let hit1' : Prop := hit1 ∧ ¬ (hit2 ∧ a2 < a1)
    let hit2' : Prop := hit2 ∧ ¬ (hit1' ∧ a2 ≥ a1)
    if hit2' then some (a2, phi2, z2)
    else if hit1' then some (a1, phi1, z1)
    else none

/-- `Cylinder.intersect`, `marxs/math/geometry.py:465-559`, for one ray. `zoomz` is `zoom[2]` of
`decompose44(pos4d)`. Simplification: the transformed position has `w = 1`, so `h2e` just drops it
(true for affine `pos4d` and a position with `w = 1`). -/
noncomputable def cylIntersect (m : M4) (zoomz lim0 lim1 : ℝ) (dir pos : H4) :
    Except Err (Option (H4 × ℝ × ℝ)) :=
  if dir.w ≠ 0 then .error .valueError
  else if m.det = 0 then .error .valueError
  else
    let d := mul4 m⁻¹ dir
    let p := mul4 m⁻¹ pos
    match cylLocal lim0 lim1 p.xyz d.xyz with
    | none => .ok none
    | some (t, phi, z) =>
      let q := p.xyz + t • d.xyz
      .ok (some (mul4 m ⟨q.x, q.y, q.z, 1⟩, phi, z * zoomz))

/-- `Cylinder.parametric_surface` for one pair of coordinates, `marxs/math/geometry.py:561-599`. -/
noncomputable def cylSurface (m : M4) (zoomz phi z : ℝ) : H4 :=
  mul4 m ⟨Real.cos phi, Real.sin phi, z / zoomz, 1⟩

/-- `Cylinder.get_local_euklid_bases`, `marxs/math/geometry.py:601-621`. -/
noncomputable def cylBases (m : M4) (phi : ℝ) : H4 × H4 × H4 :=
  ((mul4 m ⟨-Real.sin phi, Real.cos phi, 0, 0⟩).unit, eZ m,
   (mul4 m ⟨Real.cos phi, Real.sin phi, 0, 0⟩).unit)

end Marxs
