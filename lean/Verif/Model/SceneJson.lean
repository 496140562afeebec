import Verif.Model.Visual
import Verif.Model.Geometry
import Verif.Model.Rowland

/-!
# Scenes for the browser

Models `marxs/visualization/threejsjson.py`, `materialdict` and `_format_plot_rays_input` in
`marxs/visualization/threejs.py`, and the javascript that reads the result,
`marxs/visualization/threejs_files/MARXSloader.js` and
`marxs/visualization/threejs_files/ModifiedTorusBufferGeometry.js`. Of the three.js library only the documented
layout of its arrays is used: the 16 numbers of a matrix are listed column by column, an attribute
with item size 3 lists the coordinates of one point after the other.
Not modelled: the json schema, rounding to 32 bit floats, normals and texture coordinates.
-/

namespace Marxs
open Classical

/-- Materials used by `marxs`, `marxs/visualization/threejs.py:19-37`. -/
inductive Material where
  | meshStandard
  | lineBasic
  deriving DecidableEq

/-- `listofproperties['Material']`, `marxs/visualization/threejs.py:19-23`. -/
def commonProperties : List String :=
  ["id", "name", "opacity", "transparent", "blending", "blendSrc", "blendDst", "BlendEquation",
   "depthTest", "depthWrite", "polygonOffset", "plygonOffsetFactor", "polygonOffsetUnits",
   "alphaTest", "clippingPlanes", "clipShadows", "overdraw", "visible", "side", "needsUpdate"]

/-- `listofproperties[material]`, `marxs/visualization/threejs.py:24-36`. -/
def materialProperties : Material → List String
  | .meshStandard =>
    ["color", "roughness", "metalness", "map", "lightMap", "lightMapIntensity", "aoMap",
     "aoMapIntensity", "emissive", "emissiveMap", "emissiveIntensity", "bumpMap", "bumpMapScale",
     "normalMap", "normalMapScale", "displacementMap", "displacementScale", "displacementBias",
     "roughnessMap", "metalnessMap", "alphaMap", "envMap", "envMapIntensity", "refractionRatio",
     "fog", "shading", "wireframe", "wireframeLinewidth", "wireframeLinecap", "wireframeLinejoin",
     "vertexColors", "skinning", "morphTargets", "morphNormals"]
  | .lineBasic => ["color", "linewidth", "linecap", "linejoin", "vertexColors", "fog"]

/-- Values in a dictionary of material properties (`marxs/visualization/threejs.py:61-72`). -/
inductive MatVal where
  | rgb (r g b : ℝ)
  | str (s : String)
  | num (x : ℝ)

/-- `materialdict`, `marxs/visualization/threejs.py:45-72`. `hex` is `color_tuple_to_hex` with `#`
in place of `0x`, applied to the entry for the color. -/
noncomputable def materialDict (hex : MatVal → MatVal) (mat : Material) (display : List (String × MatVal)) :
    List (String × MatVal) :=
  (display.filter fun p => decide (p.1 ∈ commonProperties ∨ p.1 ∈ materialProperties mat)).map
    (fun p => if p.1 = "color" then (p.1, hex p.2) else p) ++
  (if "opacity" ∈ display.map Prod.fst ∧ "transparent" ∉ display.map Prod.fst
    then [("transparent", .str "true")] else [])

/-- The two kinds of dictionaries that describe something drawn: with a matrix for the place
(`marxs/visualization/threejsjson.py:101-112`, `147-160`) or with the coordinates of all points
(`marxs/visualization/threejsjson.py:117-131`, `187-196`). -/
inductive JsonElem where
  | general (n : ℕ) (material : Material) (properties : List (String × MatVal)) (geometry : String) (pars : List ℝ)
      (pos4d : List (List ℝ))
  | buffer (n : ℕ) (material : Material) (properties : List (String × MatVal)) (geometrytype : String)
      (pos : List (List ℝ)) (faces : Option (List (List ℕ))) (color : Option (List (List ℝ)))

/-- `pos4d.flatten().tolist()`, `marxs/visualization/threejsjson.py:155`: row by row. -/
def flatten16 (m : M4) : List ℝ :=
  [m 0 0, m 0 1, m 0 2, m 0 3, m 1 0, m 1 1, m 1 2, m 1 3,
   m 2 0, m 2 1, m 2 2, m 2 3, m 3 0, m 3 1, m 3 2, m 3 3]

/-- `if not ('side' in display): out['materialproperties']['side'] = 2`,
`marxs/visualization/threejsjson.py:110-111`. -/
noncomputable def withSide (display props : List (String × MatVal)) : List (String × MatVal) :=
  if "side" ∈ display.map Prod.fst then props else props ++ [("side", .num 2)]

/-- `box`, `marxs/visualization/threejsjson.py:101-112`; the matrix is transposed before it is
made into a list. -/
noncomputable def jsonBox (hex : MatVal → MatVal) (m : M4) (display : List (String × MatVal)) : JsonElem :=
  .general 1 .meshStandard (withSide display (materialDict hex .meshStandard display)) "BoxGeometry" [2, 2, 2]
    [flatten16 m.transpose]

/-- `xyz.flatten()` for an array with 3 columns, `marxs/visualization/threejsjson.py:125`. -/
def flatten3 (l : List V3) : List ℝ := l.flatMap fun v => [v.x, v.y, v.z]

/-- `triangles.flatten()`, `marxs/visualization/threejsjson.py:126`. -/
def flattenTri (l : List Tri) : List ℕ := l.flatMap fun t => [t.1, t.2.1, t.2.2]

/-- `triangulation`, `marxs/visualization/threejsjson.py:115-131`, for the result of
`obj.geometry.triangulate(display)`. -/
noncomputable def jsonTriangulation (hex : MatVal → MatVal) (xyz : List V3) (triangles : List Tri)
    (display : List (String × MatVal)) : JsonElem :=
  .buffer 1 .meshStandard (withSide display (materialDict hex .meshStandard display)) "Mesh"
    [flatten3 xyz] (some [flattenTri triangles]) none

/-- `int(np.rad2deg(x))`, `marxs/visualization/threejsjson.py:153`: towards zero. -/
noncomputable def intDeg (x : ℝ) : ℤ :=
  let d := x * 180 / Real.pi
  if 0 ≤ d then ⌊d⌋ else ⌈d⌉

/-- `torus`, `marxs/visualization/threejsjson.py:134-160`. `theta` and `phi` are the entries
`coo1` and `coo2` of the display dictionary, or `[0, 2 * np.pi]` if there is none. -/
noncomputable def jsonTorus (hex : MatVal → MatVal) (t : Torus) (coo1 coo2 : Option (List ℝ))
    (display : List (String × MatVal)) : Except Err JsonElem :=
  match coo1.getD [0, 2 * Real.pi], coo2.getD [0, 2 * Real.pi] with
  | t0 :: t1 :: _, p0 :: p1 :: _ =>
    .ok (.general 1 .meshStandard (withSide display (materialDict hex .meshStandard display))
      "ModifiedTorusBufferGeometry" [t.R, t.r, intDeg t1, intDeg p1, t1, t0, p1, p0] [flatten16 t.pos4d])
  | _, _ => .error .indexError

/-- The values used to color the points, `marxs/visualization/threejs.py:101-108`, for `n` rays
with `N` points. -/
noncomputable def jsonScalar (n N : ℕ) : RayScalar → Except Err (List (List ℝ))
  | .none => .ok (List.replicate n (List.replicate N 0))
  | .perRay s => if s.length = n then .ok (s.map fun x => List.replicate N x) else .error .valueError
  | .perPoint s => if s.length = n ∧ ∀ r ∈ s, r.length = N then .ok s else .error .valueError
  | .bad => .error .valueError

/-- `plot_rays`, `marxs/visualization/threejsjson.py:163-196`, with `_format_plot_rays_input`,
`marxs/visualization/threejs.py:95-118`. `rgb` is the color map with its normalisation to the range of
all values. Without rays, `reshape((0, -1))` is a `ValueError`. -/
noncomputable def jsonRays (hex : MatVal → MatVal) (rgb : List (List ℝ) → ℝ → V3) (N : ℕ) (data : List (List V3)) (scalar : RayScalar)
    (prop : List (String × MatVal)) : Except Err JsonElem :=
  match jsonScalar data.length N scalar with
  | .error e => .error e
  | .ok s =>
    let prop' := if "vertexColors" ∈ prop.map Prod.fst then prop else prop ++ [("vertexColors", .num 2)]
    if data.length = 0 then .error .valueError
    else .ok (.buffer data.length .lineBasic (materialDict hex .lineBasic prop') "Line" (data.map flatten3) none
      (some (s.map fun row => flatten3 (row.map (rgb s)))))

/-- `container`, `marxs/visualization/threejsjson.py:82-98`: there is no function `plot_obj`, so
the first element is a `NameError`. -/
def jsonContainer {α : Type} (elements : List α) : Except Err (List JsonElem) :=
  match elements with
  | [] => .ok []
  | _ :: _ => .error .nameError

/-- `write`, `marxs/visualization/threejsjson.py:199-236`: the entry `elements` of the file.
`data` is a list here (a single dictionary is put in a list), so `data['runinfo']` and
`photons.meta()`, which is done first, are a `TypeError` if there are photons. -/
def jsonWrite (data : List JsonElem) (photons : Bool) : Except Err (List JsonElem) :=
  if photons then .error .typeError else .ok data

/-! ## The page in the browser -/

/-- A javascript object in the scene made by the loader: a shape with a matrix, or points with
(for a mesh) triangles and (for lines) colors. Used for `marxs/visualization/threejs_files/MARXSloader.js:59-104`. -/
inductive JsObj where
  | placed (geometry : String) (pars : List ℝ) (elements : List ℝ)
  | points (geometrytype : String) (position : List V3) (index : Option (List ℕ)) (color : Option (List V3))

/-- `new THREE.BufferAttribute(positions, 3)`, `marxs/visualization/threejs_files/MARXSloader.js:85`:
three numbers are one point. -/
def bufferPoints : List ℝ → List V3
  | x :: y :: z :: l => ⟨x, y, z⟩ :: bufferPoints l
  | _ => []

/-- `new Uint16Array(element.faces[i])`, `marxs/visualization/threejs_files/MARXSloader.js:91`: javascript keeps the last 16 bits. -/
def uint16Array (l : List ℕ) : List ℕ := l.map (· % 65536)

/-- `parsegeneral` and `parseBuffer`, `marxs/visualization/threejs_files/MARXSloader.js:59-104`. An
entry that does not exist is an empty array. -/
def loadElem : JsonElem → List JsObj
  | .general n _ _ geometry pars pos4d =>
    (List.range n).map fun i => .placed geometry pars ((pos4d[i]?).getD [])
  | .buffer n _ _ geometrytype pos faces color =>
    (List.range n).map fun i => .points geometrytype (bufferPoints ((pos[i]?).getD []))
      (faces.map fun f => uint16Array ((f[i]?).getD []))
      (color.map fun c => bufferPoints ((c[i]?).getD []))

/-- `parse`, `marxs/visualization/threejs_files/MARXSloader.js:44-56`. -/
def loadScene (elements : List JsonElem) : List (List JsObj) := elements.map loadElem

/-- Where three.js draws the point `v` of a shape with `mesh.matrix.elements = e`
(`marxs/visualization/threejs_files/MARXSloader.js:68-69`): the numbers are the columns of the matrix. -/
def jsApply (e : List ℝ) (v : V3) : H4 :=
  let a := fun i : ℕ => e.getD i 0
  ⟨a 0 * v.x + a 4 * v.y + a 8 * v.z + a 12, a 1 * v.x + a 5 * v.y + a 9 * v.z + a 13,
   a 2 * v.x + a 6 * v.y + a 10 * v.z + a 14, a 3 * v.x + a 7 * v.y + a 11 * v.z + a 15⟩

/-- `x || d` in javascript for a number, `marxs/visualization/threejs_files/ModifiedTorusBufferGeometry.js:25-32`. -/
noncomputable def jsOr (x d : ℝ) : ℝ := if x = 0 then d else x

/-- `Math.floor(x) || d`, `marxs/visualization/threejs_files/ModifiedTorusBufferGeometry.js:27-28`. Negative
numbers of segments (an error when the arrays are made) are not modelled. -/
noncomputable def jsSegments (x : ℝ) (d : ℕ) : ℕ := if ⌊x⌋ = 0 then d else ⌊x⌋.toNat

/-- The vertices of a torus, `marxs/visualization/threejs_files/ModifiedTorusBufferGeometry.js:58-93`, row by row. -/
noncomputable def jsTorusVertices (pars : List ℝ) : List V3 :=
  let a := fun i : ℕ => pars.getD i 0
  let radius := jsOr (a 0) 100
  let tube := jsOr (a 1) 40
  let radialSegments := jsSegments (a 2) 8
  let tubularSegments := jsSegments (a 3) 6
  let arc := jsOr (a 4) (Real.pi * 2)
  let arcstart := jsOr (a 5) 0
  let radialarc := jsOr (a 6) (Real.pi * 2)
  let radialstart := jsOr (a 7) 0
  (List.range (radialSegments + 1)).flatMap fun j : ℕ => (List.range (tubularSegments + 1)).map fun i : ℕ =>
    let u := i / tubularSegments * arc + arcstart
    let v := j / radialSegments * radialarc + radialstart
    ⟨(radius + tube * Real.cos v) * Real.cos u, (radius + tube * Real.cos v) * Real.sin u, tube * Real.sin v⟩

/-- The triangles of a torus, `marxs/visualization/threejs_files/ModifiedTorusBufferGeometry.js:36-39` and `97-122`;
with many triangles the indices have 32 bits, otherwise 16 bits. -/
noncomputable def jsTorusIndex (pars : List ℝ) : List ℕ :=
  let a := fun i : ℕ => pars.getD i 0
  let radialSegments := jsSegments (a 2) 8
  let tubularSegments := jsSegments (a 3) 6
  let indexCount := radialSegments * tubularSegments * 2 * 3
  let bits := if indexCount > 65535 then 2 ^ 32 else 2 ^ 16
  ((List.range radialSegments).flatMap fun j' => (List.range tubularSegments).flatMap fun i' =>
    let j := j' + 1
    let i := i' + 1
    let a := (tubularSegments + 1) * j + i - 1
    let b := (tubularSegments + 1) * (j - 1) + i - 1
    let c := (tubularSegments + 1) * (j - 1) + i
    let d := (tubularSegments + 1) * j + i
    [a, b, d, b, c, d]).map (· % bits)

end Marxs
