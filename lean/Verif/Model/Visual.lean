import Mathlib.Data.Nat.Digits.Defs
import Mathlib.Data.Rat.Defs
import Mathlib.Algebra.Order.Floor.Semiring
import Mathlib.Algebra.Order.Ring.Rat
import Mathlib.Data.Real.Archimedean
import Verif.Model.MathUtils

/-!
# Display of elements

Models `marxs/visualization/utils.py`, the index arithmetic of the plotting backends
(`marxs/visualization/x3d.py`, `marxs/visualization/mayavi.py`) and
the polygons in `marxs/math/geometry.py` (`xyz_square`, `xyz_circle`,
`PlaneWithHole.triangulate`). What the plotting libraries do with their input is not modelled.
-/

namespace Marxs
open Classical

/-- A row of the array `triangles`: three indices into the array of points. Used for `marxs/visualization/utils.py:253-263`. -/
abbrev Tri := ℕ × ℕ × ℕ

/-- Local variables of the loop in `plane_with_hole`, `marxs/visualization/utils.py:253-263`;
`tris` are the rows of `triangles` filled so far. -/
structure HoleState where
  iIn : ℕ
  iOut : ℕ
  tris : List Tri

/-- Body of the loop, `marxs/visualization/utils.py:255-263`. The quotients are exact here, not
rounded to floats. The modulus `n_out` is not zero when the second branch runs. -/
def holeStep (nOut nIn : ℕ) (s : HoleState) (i : ℕ) : HoleState :=
  if (s.iIn : ℚ) / (nIn : ℚ) ≤ (i : ℚ) / ((nOut + nIn : ℕ) : ℚ) then
    { iIn := s.iIn + 1
      iOut := s.iOut
      tris := s.tris ++ [(s.iOut, nOut + s.iIn, nOut + (s.iIn + 1) % nIn)] }
  else
    { iIn := s.iIn
      iOut := (s.iOut + 1) % nOut
      tris := s.tris ++ [((s.iOut + 1) % nOut, s.iOut, nOut + s.iIn % nIn)] }

/-- The loop `for i in range(n_out + n_in)` after `k` passes,
`marxs/visualization/utils.py:253-263`. -/
def holeLoop (nOut nIn k : ℕ) : HoleState :=
  (List.range k).foldl (holeStep nOut nIn) ⟨0, 0, []⟩

/-- `plane_with_hole`, `marxs/visualization/utils.py:202-264`. Without inner points but with outer
points, `i_in/n_in` divides by zero in the first pass. -/
def planeWithHole (outer inner : List V3) : Except Err (List V3 × List Tri) :=
  if inner.length = 0 ∧ outer.length ≠ 0 then .error .zeroDivision
  else .ok (outer ++ inner, (holeLoop outer.length inner.length (outer.length + inner.length)).tris)

/-- `np.cumsum`, starting with the sum `s`, `marxs/visualization/utils.py:293`. -/
def sizesCumsum (s : ℕ) : List ℕ → List ℕ
  | [] => []
  | a :: l => (s + a) :: sizesCumsum (s + a) l

/-- `n_offset = np.cumsum(...); n_offset -= n_offset[0]`,
`marxs/visualization/utils.py:293-294`. -/
def triOffsets (sizes : List ℕ) : List ℕ :=
  (sizesCumsum 0 sizes).map (· - (sizesCumsum 0 sizes).headD 0)

/-- `list_triangles[i] + n_offset[i]`, `marxs/visualization/utils.py:295`. -/
def Tri.shift (k : ℕ) (t : Tri) : Tri := (t.1 + k, t.2.1 + k, t.2.2 + k)

/-- `combine_disjoint_triangulations`, `marxs/visualization/utils.py:267-297`; `np.vstack` of an
empty list is a `ValueError`, fewer index arrays than point arrays an `IndexError`. -/
def combineTriangulations (lx : List (List V3)) (lt : List (List Tri)) :
    Except Err (List V3 × List Tri) :=
  if lx = [] then .error .valueError
  else if lt.length < lx.length then .error .indexError
  else .ok (lx.flatten,
    (List.zipWith (fun t k => t.map (Tri.shift k)) lt (triOffsets (lx.map List.length))).flatten)

/-- An entry of a Python tuple: a float, an int (`bool` is a subclass of `int`) or anything else.
Used by `marxs/visualization/utils.py:163, 186, 192`. -/
inductive PyNum where
  | float (x : ℝ)
  | int (z : ℤ)
  | other

/-- One lower case hexadecimal digit. Used for `marxs/visualization/utils.py:172-199`. -/
def hexDigit (d : ℕ) : Char := "0123456789abcdef".toList.getD d '0'

/-- Digits of Python's `hex(n)` for `n >= 0`, without the leading `0x`. Used for `marxs/visualization/utils.py:172-199`. -/
def pyHex (n : ℕ) : List Char :=
  if n = 0 then ['0'] else (Nat.digits 16 n).reverse.map hexDigit

/-- `str.zfill(w)` for a string without sign. Used for `marxs/visualization/utils.py:172-199`. -/
def zfill (w : ℕ) (l : List Char) : List Char := List.replicate (w - l.length) '0' ++ l

/-- `isinstance(a, float)`. Used for `marxs/visualization/utils.py:186-197`. -/
def PyNum.isFloat : PyNum → Bool
  | .float _ => true
  | _ => false

/-- `isinstance(a, int)`. Used for `marxs/visualization/utils.py:186-197`. -/
def PyNum.isInt : PyNum → Bool
  | .int _ => true
  | _ => false

/-- The number itself, used after the type test only. Used for `marxs/visualization/utils.py:186-197`. -/
noncomputable def PyNum.val : PyNum → ℝ
  | .float x => x
  | .int z => z
  | .other => 0

/-- The number before the conversion with `hex`, `marxs/visualization/utils.py:186-197`.
Tuples with fewer than three entries fail with `IndexError`; NaN is not modelled. -/
noncomputable def colorNumber (c : List PyNum) : Except Err ℕ :=
  if c.all PyNum.isFloat then
    if (∃ a ∈ c, a.val < 0) ∨ (∃ a ∈ c, 1 < a.val) then .error .valueError
    else match c with
      | r :: g :: b :: _ =>
        .ok ⌊r.val * 256 ^ 2 * 255 + g.val * 256 * 255 + b.val * 255⌋₊
      | _ => .error .indexError
  else if c.all PyNum.isInt then
    if (∃ a ∈ c, a.val < 0) ∨ (∃ a ∈ c, 255 < a.val) then .error .valueError
    else match c with
      | r :: g :: b :: _ => .ok ⌊r.val * 256 ^ 2 + g.val * 256 + b.val⌋₊
      | _ => .error .indexError
  else .error .valueError

/-- `color_tuple_to_hex`, `marxs/visualization/utils.py:172-199`. -/
noncomputable def colorTupleToHex (c : List PyNum) : Except Err (List Char) :=
  match colorNumber c with
  | .ok n => .ok (['0', 'x'] ++ zfill 6 (pyHex n))
  | .error e => .error e

/-- Value of `display['color']`: a sequence of numbers or something else (a string, ...). Used for `marxs/visualization/utils.py:158-165`. -/
inductive ColorSpec where
  | seq (l : List PyNum)
  | other (s : String)

/-- Test for a tuple of three floats between 0 and 1, `marxs/visualization/utils.py:158-165`. -/
noncomputable def ColorSpec.asRgb : ColorSpec → Option (ℝ × ℝ × ℝ)
  | .seq [.float r, .float g, .float b] =>
    if (r < 0 ∨ 1 < r) ∨ (g < 0 ∨ 1 < g) ∨ (b < 0 ∨ 1 < b) then none else some (r, g, b)
  | _ => none

/-- `get_color`, `marxs/visualization/utils.py:134-169`. The argument is `d['color']` (`none`: the
key is missing); `toRgb` is `matplotlib.colors.colorConverter.to_rgb`. -/
noncomputable def getColor (toRgb : ColorSpec → Except Err (ℝ × ℝ × ℝ)) :
    Option ColorSpec → Except Err (ℝ × ℝ × ℝ)
  | none => .ok (1, 1, 1)
  | some c => match c.asRgb with
    | some rgb => .ok rgb
    | none => toRgb c

/-- `DisplayDict`, `marxs/visualization/utils.py:29-54`: its own entries and the attributes of
`parent.geometry` (`none`: the parent has no attribute `geometry`). -/
structure DisplayDict (V : Type) where
  own : List (String × V)
  geometry : Option (List (String × V))

/-- `DisplayDict.__getitem__`, `marxs/visualization/utils.py:56-63`. -/
def DisplayDict.getItem {V : Type} (d : DisplayDict V) (k : String) : Except Err V :=
  match d.own.lookup k, d.geometry with
  | none, some g => match g.lookup k with
    | some v => .ok v
    | none => .error .keyError
  | some v, _ => .ok v
  | none, none => .error .keyError

/-- `DisplayDict.get`, `marxs/visualization/utils.py:65-70`. -/
def DisplayDict.get {V : Type} (d : DisplayDict V) (k : String) (default : Option V) : Option V :=
  match d.getItem k with
  | .ok v => some v
  | .error _ => default

/-- Values in a display dictionary: the shape string, split at `;` and stripped
(`marxs/visualization/utils.py:119`; the splitting is not modelled), a color, or another setting. -/
inductive DispVal where
  | shape (names : List String)
  | color (c : ColorSpec)
  | other (s : String)

/-- The `for` loop over the shapes, `marxs/visualization/utils.py:120-131`: which plotting
function is selected. `none`: loop ran to its end; `some none`: shape `'None'`. -/
def selectShape (registry : List String) : List String → Option (Option String)
  | [] => none
  | s :: l =>
    if s = "None" then some none
    else if s ∈ registry then some (some s)
    else selectShape registry l

/-- What `plot_object_general` does: nothing, a warning, or a call of the function registered for a
shape, with the color in the display dictionary. Used for `marxs/visualization/utils.py:73-131`. -/
inductive PlotOut where
  | nothing
  | warned
  | call (fn : String) (rgb : ℝ × ℝ × ℝ)

/-- What `get_color` finds under the key `color`, `marxs/visualization/utils.py:152-157`. Values of
another kind are kept as a description that only `to_rgb` can look at. -/
def asColor : Option DispVal → Option ColorSpec
  | none => none
  | some (.color c) => some c
  | some (.other s) => some (.other s)
  | some (.shape _) => some (.other "")

/-- `plot_object_general`, `marxs/visualization/utils.py:73-131`; returns the display dictionary
as it is after the call (`display['color'] = get_color(display)`). `none`: no display dictionary.
A shape that is not a string has no method `split`; a color under the wrong key cannot be
converted. -/
noncomputable def plotObjectGeneral (registry : List String)
    (toRgb : ColorSpec → Except Err (ℝ × ℝ × ℝ)) (display : Option (DisplayDict DispVal)) :
    Except Err (PlotOut × Option (DisplayDict DispVal)) :=
  match display with
  | none => .ok (.warned, none)
  | some d => match d.getItem "shape" with
    | .error _ => .ok (.warned, some d)
    | .ok (.color _) => .error .attributeError
    | .ok (.other _) => .error .attributeError
    | .ok (.shape names) => match selectShape registry names with
      | none => .ok (.warned, some d)
      | some none => .ok (.nothing, some d)
      | some (some fn) =>
        match getColor toRgb (asColor (d.own.lookup "color")) with
        | .error e => .error e
        | .ok (r, g, b) => .ok (.call fn (r, g, b), some
            { d with own := ("color", .color (.seq [.float r, .float g, .float b])) ::
                d.own.filter (fun p => p.1 ≠ "color") })

/-- Objects that can be plotted: an element (`id` names the object) or a container with a list of
elements; each with its display dictionary. Used for `marxs/visualization/utils.py:103-104`. -/
inductive VObj where
  | elem (id : ℕ) (display : Option (DisplayDict DispVal))
  | cont (id : ℕ) (display : Option (DisplayDict DispVal)) (elements : List VObj)

/-- Display dictionary of an object (`obj.display`, `marxs/visualization/utils.py:103-104`). -/
def VObj.display : VObj → Option (DisplayDict DispVal)
  | .elem _ d => d
  | .cont _ d _ => d

mutual
/-- `plot_object` with the X3D backend, `marxs/visualization/x3d.py:358-387`: the list of objects
drawn, each with the function that draws it and its color. `registry` are the functions that draw
the object itself; for shape `container` see `marxs/visualization/x3d.py:349-355`; an element
without `elements` raises `AttributeError` there. -/
noncomputable def VObj.plot (registry : List String)
    (toRgb : ColorSpec → Except Err (ℝ × ℝ × ℝ)) : VObj → Except Err (List (ℕ × String × (ℝ × ℝ × ℝ)))
  | .elem id d => match plotObjectGeneral ("container" :: registry) toRgb d with
    | .error e => .error e
    | .ok (.call fn rgb, _) => if fn = "container" then .error .attributeError
        else .ok [(id, fn, rgb)]
    | .ok (.nothing, _) => .ok []
    | .ok (.warned, _) => .ok []
  | .cont id d es => match plotObjectGeneral ("container" :: registry) toRgb d with
    | .error e => .error e
    | .ok (.call fn rgb, _) => if fn = "container" then plotElements registry toRgb es
        else .ok [(id, fn, rgb)]
    | .ok (.nothing, _) => .ok []
    | .ok (.warned, _) => .ok []

/-- `for e in obj.elements: plot_object(e, display=None, scene=scene)`,
`marxs/visualization/x3d.py:353-354`. -/
noncomputable def plotElements (registry : List String)
    (toRgb : ColorSpec → Except Err (ℝ × ℝ × ℝ)) :
    List VObj → Except Err (List (ℕ × String × (ℝ × ℝ × ℝ)))
  | [] => .ok []
  | e :: es => match e.plot registry toRgb with
    | .error err => .error err
    | .ok l => match plotElements registry toRgb es with
      | .error err => .error err
      | .ok l' => .ok (l ++ l')
end

/-- Faces of a parametric surface with `m` times `n` points, `marxs/visualization/x3d.py:264-276`:
`ind[i, j]` is `i * n + j`, faces are listed row by row; the final `-1` of each face is left out. -/
def surfaceFaces (m n : ℕ) : List (ℕ × ℕ × ℕ × ℕ) :=
  (List.range (m - 1)).flatMap fun i => (List.range (n - 1)).map fun j =>
    (i * n + j, i * n + (j + 1), (i + 1) * n + (j + 1), (i + 1) * n + j)

/-- Lines between the points of `n` rays with `N` points each,
`marxs/visualization/mayavi.py:178-180`. -/
def rayConnections (n N : ℕ) : List (ℕ × ℕ) :=
  (List.range n).flatMap fun i => (List.range (N - 1)).map fun j => (i * N + j, i * N + j + 1)

/-- Scalar argument of `plot_rays`, `marxs/visualization/x3d.py:419-428`. -/
inductive RayScalar where
  | none
  | perRay (s : List ℝ)
  | perPoint (s : List (List ℝ))
  | bad

/-- The values used to color the rays, `marxs/visualization/x3d.py:419-428`, for rays with `N`
points. For an array of shape `(n, N)` the code uses `scalar[0, :]`, the first row; with no rays
that is an `IndexError`. -/
noncomputable def rayScalar (n N : ℕ) : RayScalar → Except Err (List ℝ)
  | .none => .ok (List.replicate n 1)
  | .perRay s => if s.length = n then .ok s else .error .valueError
  | .perPoint s => if s.length = n ∧ ∀ r ∈ s, r.length = N then
      (match s with
        | r :: _ => .ok r
        | [] => .error .indexError)
      else .error .valueError
  | .bad => .error .valueError

/-- `plot_rays`, `marxs/visualization/x3d.py:390-458`: the line sets added to the scene, each with
its color value and its rays. The normalisation and the color map are not modelled: rays with equal
scalars get the same color. The order of `set(scalar)` is arbitrary, here the order of last
appearance. A boolean index of the wrong length is an `IndexError`. -/
noncomputable def plotRays (N : ℕ) (data : List (List V3)) (scalar : RayScalar) :
    Except Err (List (ℝ × List (List V3))) :=
  match rayScalar data.length N scalar with
  | .error e => .error e
  | .ok s =>
    if s ≠ [] ∧ s.length ≠ data.length then .error .indexError
    else .ok (s.dedup.map fun v =>
      (v, ((s.zip data).filter fun p => decide (p.1 = v)).map Prod.snd))

/-- Corners of the box in local coordinates, `marxs/visualization/utils.py:309-312`. -/
def boxCorners : List V3 :=
  [⟨-1, -1, -1⟩, ⟨-1, 1, -1⟩, ⟨-1, -1, 1⟩, ⟨-1, 1, 1⟩,
   ⟨1, -1, -1⟩, ⟨1, 1, -1⟩, ⟨1, -1, 1⟩, ⟨1, 1, 1⟩]

/-- `halfbox_corners` in local coordinates, `marxs/visualization/utils.py:313-327`; the argument is
`display['box-half']` as a list of characters. Values that cannot be read leave the full box
(`try ... except: pass`). The coordinates are integers when compared with `factor`. -/
noncomputable def halfboxLocal : Option (List Char) → List V3
  | some (s :: a :: _) =>
    let factor : ℝ := if s = '+' then 1 else if s = '-' then -1 else 0
    if a = 'x' then boxCorners.map fun v => if v.x = factor then ⟨0, v.y, v.z⟩ else v
    else if a = 'y' then boxCorners.map fun v => if v.y = factor then ⟨v.x, 0, v.z⟩ else v
    else if a = 'z' then boxCorners.map fun v => if v.z = factor then ⟨v.x, v.y, 0⟩ else v
    else boxCorners
  | _ => boxCorners

/-- `halfbox_corners`, `marxs/visualization/utils.py:308-331`. -/
noncomputable def halfboxCorners (pos4d : Matrix (Fin 4) (Fin 4) ℝ) (boxHalf : Option (List Char)) :
    Except Err (List V3) :=
  h2e ((halfboxLocal boxHalf).map fun v => mul4 pos4d ⟨v.x, v.y, v.z, 1⟩)

/-- `xyz_circle` in the local coordinates spanned by `v_y`, `v_z` around `center`,
`marxs/math/geometry.py:72-87`: the pair `(x, y)` for vertex `k` of `n`. -/
noncomputable def circleVertex (n : ℕ) (p0 p1 : ℝ) (k : ℕ) : ℝ × ℝ :=
  let phi := 0.5 * Real.pi + 2 * Real.pi * k / n
  if pymod (phi - p0) (2 * Real.pi) < anglediff p0 p1 then (Real.cos phi, Real.sin phi) else (0, 0)

/-- `xyz_circle`, `marxs/math/geometry.py:46-87`. -/
noncomputable def xyzCircle (center vy vz : V3) (rFactor : ℝ) (p0 p1 : ℝ) (n : ℕ) : List V3 :=
  (List.range n).map fun k =>
    center + (circleVertex n p0 p1 k).1 • (rFactor • vy) + (circleVertex n p0 p1 k).2 • (rFactor • vz)

/-- `xyz_square`, `marxs/math/geometry.py:21-43`. -/
noncomputable def xyzSquare (center vy vz : V3) (rFactor : ℝ) : List V3 :=
  [center + rFactor • (vy + vz), center + rFactor • (-vy + vz),
   center + rFactor • (-vy - vz), center + rFactor • (vy - vz)]

/-- `PlaneWithHole.triangulate` for a `CircularHole`, `marxs/math/geometry.py:294-321, 358-375`,
with `n` vertices for each circle (90 in the code). -/
noncomputable def circularHoleTriangulate (n : ℕ) (center vy vz : V3) (rInner outerFactor innerFactor : ℝ)
    (p0 p1 : ℝ) : Except Err (List V3 × List Tri) :=
  match planeWithHole (xyzCircle center vy vz outerFactor 0 (2 * Real.pi) n)
      (xyzCircle center vy vz 1 p0 p1 n) with
  | .error e => .error e
  | .ok (xyz, tris) =>
    if 0 < rInner then
      match planeWithHole (xyzCircle center vy vz (rInner / vy.norm) p0 p1 n)
          (xyzCircle center vy vz (innerFactor * rInner / vy.norm) p0 p1 n) with
      | .error e => .error e
      | .ok (xyz', tris') => combineTriangulations [xyz, xyz'] [tris, tris']
    else .ok (xyz, tris)

/-- `PlaneWithHole.triangulate` for a `RectangleHole`, `marxs/math/geometry.py:294-321, 335-341`. There is no drawing of an inner
part for this class: `inner_shape` is the one of the base class, `marxs/math/geometry.py:329-330`. -/
noncomputable def rectangleHoleTriangulate (center vy vz : V3) (rInner outerFactor : ℝ) : Except Err (List V3 × List Tri) :=
  match planeWithHole (xyzSquare center vy vz outerFactor) (xyzSquare center vy vz 1) with
  | .error e => .error e
  | .ok (xyz, tris) => if 0 < rInner then .error .notImplemented else .ok (xyz, tris)

/-- The dictionary shared by all geometry classes (`NoGeometry._geometry`) and the copy kept by one
geometry object, `marxs/math/geometry.py:90-106`. Only the entry `r_inner` exists. -/
structure GeomWorld where
  shared : Option ℝ

/-- Construction of a geometry, `marxs/math/geometry.py:102-106` and
`PlaneWithHole.__init__`, `marxs/math/geometry.py:290-292`: `some r` for a plane with a hole and
`r_inner=r`, `none` for any other geometry. Returns the object's own `_geometry['r_inner']`. -/
def makeGeometry (w : GeomWorld) : Option ℝ → Option ℝ × GeomWorld
  | some r => (some r, ⟨some r⟩)
  | none => (w.shared, w)

/-- Faces of the box in `box`, `marxs/visualization/x3d.py:312-343`: the indices of the corners
around each face (the final `-1` of each face is left out). -/
def boxFaces : List (List ℕ) :=
  [[0, 2, 3, 1], [4, 6, 7, 5], [0, 4, 6, 2], [1, 5, 7, 3], [0, 4, 5, 1], [2, 6, 7, 3]]

/-- Triangles of the box in `box`, `marxs/visualization/mayavi.py:101-102`. -/
def boxTriangles : List Tri :=
  [(0, 2, 6), (0, 4, 6), (0, 1, 5), (0, 4, 5), (0, 1, 3), (0, 2, 3),
   (7, 3, 2), (7, 6, 2), (7, 3, 1), (7, 5, 1), (7, 6, 4), (7, 5, 4)]

/-- `triangulate_parametricsurface`, `marxs/visualization/utils.py:300-305`: triangles for `N` points
(all points of the surface, row by row). -/
def stripTriangles (N : ℕ) : List Tri := (List.range (N - 2)).map fun i => (i, i + 1, i + 2)

/-- The attributes of `Scene` that `write_html_archive` and `set_X3D_implementation` use,
`marxs/visualization/x3d.py:78-104`. -/
structure X3DScene where
  js : String
  css : String
  implementation : String
deriving DecidableEq

/-- `Scene.set_X3D_implementation`, `marxs/visualization/x3d.py:87-104`. -/
def X3DScene.setImplementation (s : X3DScene) (name : String) : Except Err Unit × X3DScene :=
  if name = "X3DOM" then (.ok (), ⟨"https://www.x3dom.org/download/x3dom.js",
    "https://www.x3dom.org/download/x3dom.css", name⟩)
  else if name = "X_ITE" then (.ok (), ⟨"https://cdn.jsdelivr.net/npm/x_ite@9.7.0/dist/x_ite.min.js",
    "", name⟩)
  else (.error .valueError, s)

/-- `Scene.write_html_archive`, `marxs/visualization/x3d.py:161-199`. The outcomes of the downloads,
of opening, writing and closing the file, and of making the archive are arguments; `basename` is
`os.path.basename`. Returns the outcome, the scene after the call, the files downloaded and, if the
page was written, the sources it refers to. The removal of the temporary directory is not modelled. -/
def writeHtmlArchive (basename : String → String) (download : String → Except Err Unit)
    (write archive : Except Err Unit) (s : X3DScene) :
    Except Err Unit × X3DScene × List String × Option (String × String) :=
  let wanted := [s.js, s.css].filter fun f => f ≠ ""
  match wanted.mapM download with
  | .error e => (.error e, s, wanted.map basename, none)
  | .ok _ =>
    let oldJs := s.js
    let oldCss := s.css
    let s1 : X3DScene := { s with js := basename s.js, css := basename s.css }
    match write with
    | .error e => (.error e, { s1 with js := oldJs, css := oldCss }, wanted.map basename, none)
    | .ok _ =>
      let page := (s1.js, s1.css)
      let s2 : X3DScene := { s1 with js := oldJs, css := oldCss }
      match archive with
      | .error e => (.error e, s2, wanted.map basename, some page)
      | .ok _ => (.ok (), s2, wanted.map basename, some page)

end Marxs
