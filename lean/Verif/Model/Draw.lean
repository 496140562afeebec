import Verif.Model.Visual
import Verif.Model.Rowland
import Verif.Model.Placement
import Verif.Model.Optics

/-!
# Drawing of curved surfaces and tubes

Models `RowlandTorus.parametric_surface` (`marxs/design/rowland.py`), `Cylinder.parametric_surface` (`marxs/math/geometry.py`) on whole grids, and the functions that draw shapes with X3D
(`surface`, `box`, `indexed_triangle_set`, `triangulation`, `plot_object` in `marxs/visualization/x3d.py`) and Mayavi (`surface`, `cylinder` in `marxs/visualization/mayavi.py`).

Simplifications: coordinates in the display dictionary are one-dimensional arrays (others are a `ValueError` in the code) or not there (`none`); colors are already converted.
-/

namespace Marxs
open Classical

/-- `np.linspace(a, b, n)` (external). Used for `marxs/design/rowland.py:97-98`. -/
noncomputable def npLinspace (a b : ℝ) (n : ℕ) : List ℝ := (List.range n).map fun (i : ℕ) => a + (i : ℝ) * ((b - a) / ((n : ℝ) - 1))

/-- What `parametric_surface` returns: `xyzw[i, j]` is the point for coordinate `i` of the first and `j` of the second list. `np.meshgrid` has it the other way round, but the result is
transposed, `marxs/design/rowland.py:206,232`, `marxs/math/geometry.py:590-594`. -/
structure SurfGrid where
  coo1 : List ℝ
  coo2 : List ℝ
  pt : ℝ → ℝ → H4

/-- The points row by row. Used for `marxs/visualization/x3d.py:261-281`. -/
def SurfGrid.points (g : SurfGrid) : List H4 := g.coo1.flatMap fun a => g.coo2.map fun b => g.pt a b

/-- `RowlandTorus.parametric_surface(theta, phi, display)`, `marxs/design/rowland.py:185-207`; `None` has no attribute `ndim`. -/
noncomputable def torusGrid (t : Torus) (theta phi : Option (List ℝ)) : Except Err SurfGrid :=
  match theta, phi with
  | some th, some ph => .ok ⟨th, ph, parametric t⟩
  | _, _ => .error .attributeError

/-- `RowlandTorus.display['coo1']` and `['coo2']`, `marxs/design/rowland.py:97-98`. -/
noncomputable def torusCoo : List ℝ := npLinspace 0 (2 * Real.pi) 60

/-- `Cylinder.parametric_surface(phi, z, display)`, `marxs/math/geometry.py:561-595`; `n_points` is 50 (line 100), `l0`, `l1` is `phi_lim`. -/
noncomputable def cylGrid (m : M4) (l0 l1 : ℝ) (phi z : Option (List ℝ)) : SurfGrid where
  coo1 := match phi with
    | none => npLinspace l0 l1 50
    | some p => p
  coo2 := match z with
    | none => [-1, 1]
    | some z => z.map fun x => x / (decompose44 m).z 2
  pt phi z := mul4 m ⟨Real.cos phi, Real.sin phi, z, 1⟩

/-! ## X3D -/

/-- `np.round(x, k)`. Used for `marxs/visualization/x3d.py:218-221`. -/
noncomputable def roundTo (k : ℤ) (x : ℝ) : ℝ := npRound (x * 10 ^ k) / 10 ^ k

/-- `_format_points`, `marxs/visualization/x3d.py:218-221`; `prec` is `conf.xyz_precision`. -/
noncomputable def formatPoints (prec : ℤ) (xyz : List V3) : List V3 :=
  xyz.map fun p => ⟨roundTo (prec + 3) (p.x / 1000), roundTo (prec + 3) (p.y / 1000), roundTo (prec + 3) (p.z / 1000)⟩

/-- `_diffuse_material`, `marxs/visualization/x3d.py:210-215`: color and transparency. -/
structure X3Material where
  diffuse : V3
  transparency : ℝ

/-- `_diffuse_material(display)`, `marxs/visualization/x3d.py:210-215`. -/
noncomputable def diffuseMaterial (color : V3) (opacity : Option ℝ) : X3Material := ⟨color, 1 - opacity.getD 1⟩

/-- `IndexedFaceSet` or `IndexedTriangleSet` with its points and indices. Used for `marxs/visualization/x3d.py:261-281`. -/
inductive X3Geometry where
  | faces (points : List V3) (coordIndex : List ℤ)
  | triangles (points : List V3) (index : List ℕ)

/-- One entry of `scene.children`. Used for `marxs/visualization/x3d.py:250-346`. -/
structure X3Shape where
  material : X3Material
  geometry : X3Geometry

/-- Geometry in `surface`, `marxs/visualization/x3d.py:261-281`. For an empty grid the array of `-1` has a negative or a wrong size. -/
noncomputable def surfaceGeometry (prec : ℤ) (g : SurfGrid) : Except Err X3Geometry :=
  match h2e g.points with
  | .error e => .error e
  | .ok xyz =>
    let m := g.coo1.length
    let n := g.coo2.length
    if ((m : ℤ) - 1) * ((n : ℤ) - 1) = ((m - 1) * (n - 1) : ℕ) then
      .ok (.faces (formatPoints prec xyz) ((surfaceFaces m n).flatMap fun f => [(f.1 : ℤ), f.2.1, f.2.2.1, f.2.2.2, -1]))
    else .error .valueError

/-- Geometry in `box`, `marxs/visualization/x3d.py:295-346`. -/
noncomputable def boxGeometry (prec : ℤ) (pos4d : M4) (boxHalf : Option (List Char)) : Except Err X3Geometry :=
  match halfboxCorners pos4d boxHalf with
  | .error e => .error e
  | .ok c => .ok (.faces (formatPoints prec c) (boxFaces.flatMap fun f => f.map (fun (k : ℕ) => (k : ℤ)) ++ [-1]))

/-- Geometry in `indexed_triangle_set`, `marxs/visualization/x3d.py:244-247`. -/
noncomputable def triangleGeometry (prec : ℤ) (xyz : List V3) (tris : List Tri) : X3Geometry :=
  .triangles (formatPoints prec xyz) (tris.flatMap fun t => [t.1, t.2.1, t.2.2])

/-- What is drawn by the functions of the X3D backend: a parametric surface, a box, or a triangulation (as returned by `geometry.triangulate`). Used for `marxs/visualization/x3d.py:250-346`. -/
inductive X3Object where
  | surface (g : Except Err SurfGrid)
  | box (pos4d : M4) (boxHalf : Option (List Char))
  | triangulation (tris : Except Err (List V3 × List Tri))

/-- Geometry of an object. Used for `marxs/visualization/x3d.py:250-346`. -/
noncomputable def X3Object.geometry (prec : ℤ) : X3Object → Except Err X3Geometry
  | .surface g => match g with
    | .error e => .error e
    | .ok g => surfaceGeometry prec g
  | .box m h => boxGeometry prec m h
  | .triangulation t => match t with
    | .error e => .error e
    | .ok (xyz, tris) => .ok (triangleGeometry prec xyz tris)

/-- Calling `surface(obj, display, scene=scene)`, `box(...)` or `triangulation(...)`, `marxs/visualization/x3d.py:250-346`. The decorator `empty_scene` (lines 200-207) makes a new scene if `scene` is `None`. The
result is the scene after the call and the return value: only `triangulation` has a `return`. -/
noncomputable def X3Object.draw (prec : ℤ) (mat : X3Material) (o : X3Object) (scene : Option (List X3Shape)) : Except Err (List X3Shape × Option (List X3Shape)) :=
  match o.geometry prec with
  | .error e => .error e
  | .ok g =>
    let s := scene.getD [] ++ [⟨mat, g⟩]
    .ok (s, match o with
      | .triangulation _ => some s
      | _ => none)

/-- `indexed_triangle_set(xyz, index, display, scene=scene)`, `marxs/visualization/x3d.py:224-247`: no `return`. -/
noncomputable def drawTriangleSet (prec : ℤ) (mat : X3Material) (xyz : List V3) (tris : List Tri) (scene : Option (List X3Shape)) : List X3Shape × Option (List X3Shape) :=
  (scene.getD [] ++ [⟨mat, triangleGeometry prec xyz tris⟩], none)

/-- `plot_object(obj, display, scene=scene)`, `marxs/visualization/x3d.py:358-387`, for an object with a shape that can be drawn. -/
noncomputable def X3Object.plot (prec : ℤ) (mat : X3Material) (o : X3Object) (scene : Option (List X3Shape)) : Except Err (List X3Shape × Option (List X3Shape)) :=
  match o.draw prec mat (some (scene.getD [])) with
  | .error e => .error e
  | .ok (s, _) => .ok (s, some s)

/-! ## Mayavi -/

/-- Points given to `mlab.mesh` in `surface`, `marxs/visualization/mayavi.py:77-85`, row by row. -/
noncomputable def mayaviSurface (g : SurfGrid) : Except Err (List V3) := h2e g.points

/-- What `mlab.plot3d` gets in `cylinder`, `marxs/visualization/mayavi.py:111-130`: both ends, radius and number of sides. `number` looks up numbers in the display dictionary. -/
structure MayaviTube where
  start : V3
  stop : V3
  radius : ℝ
  sides : ℝ

/-- `cylinder(obj, display)`, `marxs/visualization/mayavi.py:111-130`. -/
noncomputable def mayaviCylinder (m : M4) (number : String → Option ℝ) : MayaviTube :=
  ⟨(center m - vX m).xyz, (center m + vX m).xyz, (vY m).norm, (number "tube_sides").getD 20⟩

end Marxs
