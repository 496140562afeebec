import Verif.Model.RayChain
import Verif.Spec.Geometry
import Verif.Spec.Placement
import Verif.Spec.Rowland

/-!
# Specification for C157: rigid motions of an instrument together with the photons
-/

namespace Marxs

/-- A rigid motion: a rotation followed by a translation. -/
structure Motion where
  rot : M3
  shift : V3
  isRot : IsRotation rot

/-- The motion as matrix for homogeneous coordinates. -/
def Motion.mat (g : Motion) : M4 :=
  !![g.rot 0 0, g.rot 0 1, g.rot 0 2, g.shift.x;
     g.rot 1 0, g.rot 1 1, g.rot 1 2, g.shift.y;
     g.rot 2 0, g.rot 2 1, g.rot 2 2, g.shift.z;
     0, 0, 0, 1]

/-- A moved point or direction. -/
def Motion.act (g : Motion) (p : H4) : H4 := mul4 g.mat p

/-- A moved element: the same element, with a new `pos4d`. -/
def Motion.actOptic (g : Motion) : Optic → Optic
  | .plane m => .plane (g.mat * m)
  | .tube m zoomz lim0 lim1 => .tube (g.mat * m) zoomz lim0 lim1
  | .filter m f => .filter (g.mat * m) f
  | .globalFilter f => .globalFilter f
  | .lens m focallength dOptax refl => .lens (g.mat * m) focallength dOptax refl
  | .thin m focallength => .thin (g.mat * m) focallength
  | .grating m transmission cat groove d blazeMod order => .grating (g.mat * m) transmission cat groove d blazeMod order
  | .mirror m rs rp => .mirror (g.mat * m) rs rp
  | .scatter m inAngle perpAngle => .scatter (g.mat * m) inAngle perpAngle
  | .propagate distance => .propagate distance

/-- A moved photon: position, direction and polarization are moved, everything else (probability, energy, order,
local coordinates on the elements) is the same. -/
def Motion.actRay (g : Motion) (r : Ray) : Ray :=
  { r with pos := r.pos.map g.act, dir := r.dir.map g.act, pol := r.pol.map g.act }

/-- The element is placed in space: `pos4d` has the last row `0 0 0 1` and can be inverted. -/
def Optic.IsPlaced : Optic → Prop
  | .plane m | .tube m _ _ _ | .filter m _ | .lens m _ _ _ | .thin m _ | .grating m _ _ _ _ _ _ | .mirror m _ _
  | .scatter m _ _ => Placed m
  | .globalFilter _ | .propagate _ => True

/-- Position, direction and polarization are a point and directions (or NaN). -/
def Ray.WellFormed (r : Ray) : Prop :=
  (∀ p, r.pos = some p → IsPoint p) ∧ (∀ d, r.dir = some d → IsDir d) ∧ ∀ q, r.pol = some q → IsDir q

end Marxs
