import Mathlib.Analysis.SpecialFunctions.Trigonometric.Basic
import Verif.Model.Vec

/-!
# Mathematical helper functions

Models `marxs/math/utils.py`, `marxs/math/pluecker.py`, `marxs/math/rotations.py`,
`marxs/math/polarization.py`. Functions that work row by row on arrays are modelled for one row,
unless the decision depends on the whole array.
-/

namespace Marxs
open Classical

/-- Python's `x % m` for floats and `m > 0`. Used for `marxs/math/utils.py:164-176`. -/
noncomputable def pymod (x m : ℝ) : ℝ := x - m * ⌊x / m⌋

/-- `e2h`, `marxs/math/utils.py:10-35`. -/
noncomputable def e2h (e : List V3) (w : ℝ) : Except Err (List H4) :=
  if ¬ (w = 0 ∨ w = 1) then .error .valueError
  else .ok (e.map fun v => ⟨v.x, v.y, v.z, w⟩)

/-- `h2e`, `marxs/math/utils.py:38-62`: the decision is made for the whole array. -/
noncomputable def h2e (h : List H4) : Except Err (List V3) :=
  if (∀ a ∈ h, a.w = 0) ∨ (∀ a ∈ h, isclose a.w 1) then .ok (h.map H4.xyz)
  else if ∀ a ∈ h, a.w ≠ 0 then .ok (h.map fun a => ⟨a.x / a.w, a.y / a.w, a.z / a.w⟩)
  else .error .valueError

/-- `distance_point_point` for two arrays of shape `(N, 4)`, `marxs/math/utils.py:65-84`. Arrays of
different length do not broadcast (`ValueError`); broadcasting of single rows is not modelled. -/
noncomputable def distancePointPoint (p q : List H4) : Except Err (List ℝ) :=
  match h2e p, h2e q with
  | .ok a, .ok b =>
    if a.length = b.length then .ok (List.zipWith (fun v w => (v - w).norm) a b)
    else .error .valueError
  | .error e, _ => .error e
  | _, .error e => .error e

/-- `anglediff`, `marxs/math/utils.py:164-176`. -/
noncomputable def anglediff (p0 p1 : ℝ) : ℝ :=
  if p1 - p0 < 0 ∨ 2 * Real.pi < p1 - p0 then pymod (p1 - p0) (2 * Real.pi) else p1 - p0

/-- Angle mapped to one turn, `marxs/math/utils.py:206-209`. -/
noncomputable def wrapAngle (x : ℝ) : ℝ :=
  pymod (2 * Real.pi + pymod x (2 * Real.pi)) (2 * Real.pi)

/-- `angle_between`, `marxs/math/utils.py:178-213`. -/
noncomputable def angleBetween (angle border1 border2 : ℝ) : Prop :=
  let b1 := wrapAngle border1
  let b2 := wrapAngle border2
  let ang := wrapAngle angle
  if b1 < b2 then b1 ≤ ang ∧ ang ≤ b2 else b1 ≤ ang ∨ ang ≤ b2

/-- Pluecker coordinates of a line: direction and moment (the first and last three entries). Used for `marxs/math/pluecker.py:29-47`. -/
structure Line where
  u : V3
  v : V3

/-- `e_pointpoint2line`, `marxs/math/pluecker.py:29-47`. -/
def pointpoint2line (p1 p2 : V3) : Line := ⟨p2 - p1, p2.cross p1⟩

/-- `dir_point2line`, `marxs/math/pluecker.py:50-70`. -/
def dirPoint2line (dir pos : V3) : Line := ⟨dir, dir.cross pos⟩

/-- `intersect_line_plane`, `marxs/math/pluecker.py:73-99`. -/
def intersectLinePlane (l : Line) (plane : H4) : H4 :=
  let p := l.v.cross plane.xyz - plane.w • l.u
  ⟨p.x, p.y, p.z, l.u.dot plane.xyz⟩

/-- `point_dir2plane`, `marxs/math/pluecker.py:102-120`. -/
noncomputable def pointDir2plane (point dir : H4) : H4 :=
  let n := dir.unit
  ⟨n.x, n.y, n.z, - point.dot n / point.w⟩

/-- `ex2vec_fix`, `marxs/math/rotations.py:8-47`. `none` stands for a matrix with NaN, the result
for zero vectors. The columns of the matrix are the three vectors. -/
noncomputable def ex2vecFix (e fix : V3) : Except Err (Option (Matrix (Fin 3) (Fin 3) ℝ)) :=
  if e = 0 ∨ fix = 0 then .ok none
  else
    let e1 := e.unit
    let ef := fix.unit
    if e1.allclose ef ∨ e1.allclose (-ef) then .error .valueError
    else
      let r1 := (ef - (ef.dot e1) • e1).unit
      let r2 := e1.cross r1
      .ok (some !![e1.x, r1.x, r2.x; e1.y, r1.y, r2.y; e1.z, r1.z, r2.z])

/-- `axangle2mat` for one row, `marxs/math/rotations.py:76-87`, after the axis is normalised
(or `is_normalized=True`). -/
noncomputable def rotMat (a : V3) (angle : ℝ) : Matrix (Fin 3) (Fin 3) ℝ :=
  let c := Real.cos angle
  let s := Real.sin angle
  let C := 1 - c
  let xs := a.x * s
  let ys := a.y * s
  let zs := a.z * s
  let xC := a.x * C
  let yC := a.y * C
  let zC := a.z * C
  let xyC := a.x * yC
  let yzC := a.y * zC
  let zxC := a.z * xC
  !![a.x * xC + c, xyC - zs, zxC + ys;
     xyC + zs, a.y * yC + c, yzC - xs;
     zxC - ys, yzC + xs, a.z * zC + c]

/-- `axangle2mat`, `marxs/math/rotations.py:50-87`. `none`: NaN matrix for a zero axis. -/
noncomputable def axangle2mat (axes : List V3) (angles : List ℝ) (isNormalized : Bool) :
    Except Err (List (Option (Matrix (Fin 3) (Fin 3) ℝ))) :=
  if angles.length ≠ axes.length then .error .valueError
  else .ok (List.zipWith (fun a t =>
    if isNormalized then some (rotMat a t)
    else if a = 0 then none else some (rotMat a.unit t)) axes angles)

/-- `polarization_vectors` for one photon, `marxs/math/polarization.py:12-63`. A zero direction
gives NaN (`none`). -/
noncomputable def polarizationVector (dir : H4) (angle : ℝ) : Option H4 :=
  if dir.xyz = 0 then none
  else
    let r := dir.xyz.unit
    let x : V3 := ⟨1, 0, 0⟩
    let y : V3 := ⟨0, 1, 0⟩
    let v := if isclose r.x 0 ∧ isclose r.z 0 then x - (r.dot x) • r else y - (r.dot y) • r
    let v1 := v.unit
    let v2 := r.cross v1
    let p := Real.cos angle • v1 + Real.sin angle • v2
    some ⟨p.x, p.y, p.z, 0⟩

/-- `Q_reflection`, `marxs/math/polarization.py:65-88`. `delta_dir.shape != 2` compares a tuple with
a number and is always true, whatever the array. -/
def qReflection (_delta : List H4) : Except Err (List (Matrix (Fin 4) (Fin 4) ℝ)) :=
  .error .valueError

/-- `paralleltransport_matrix` for one photon, `marxs/math/polarization.py:90-149`; `none` is a
matrix of NaN (zero direction or, with `replace_nans=False`, unchanged direction). -/
noncomputable def paralleltransportMatrix (dir1 dir2 : V3) (jones : Matrix (Fin 2) (Fin 2) ℝ)
    (replaceNans : Bool) : Option (Matrix (Fin 3) (Fin 3) ℝ) :=
  if dir1 = 0 ∨ dir2 = 0 then none
  else
    let d1 := dir1.unit
    let d2 := dir2.unit
    let s := d1.cross d2
    if isclose s.norm 0 then if replaceNans then some 1 else none
    else
      let sn := s.unit
      let pin := d1.cross sn
      let pout := d2.cross sn
      let jones3 : Matrix (Fin 3) (Fin 3) ℝ :=
        !![jones 0 0, jones 0 1, 0; jones 1 0, jones 1 1, 0; 0, 0, 1]
      let oininv : Matrix (Fin 3) (Fin 3) ℝ :=
        !![sn.x, sn.y, sn.z; pin.x, pin.y, pin.z; d1.x, d1.y, d1.z]
      let oout : Matrix (Fin 3) (Fin 3) ℝ :=
        !![sn.x, pout.x, d2.x; sn.y, pout.y, d2.y; sn.z, pout.z, d2.z]
      some (oout * (jones3 * oininv))

/-- `parallel_transport` for one photon, `marxs/math/polarization.py:151-169`. The keyword arguments
are not passed on (line 167), so the Jones matrix is always the identity. -/
noncomputable def parallelTransport (dirOld dirNew polOld : H4) : Option H4 :=
  match paralleltransportMatrix dirOld.xyz dirNew.xyz 1 true with
  | none => none
  | some m => let p := mul3 m polOld.xyz; some ⟨p.x, p.y, p.z, 0⟩

end Marxs
