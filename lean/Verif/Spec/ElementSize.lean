import Verif.Model.ListChain

/-!
# Specification for C179: elements of different size
-/

namespace Marxs

/-- The size of an element: factors by which thickness, width and height are larger than those of the original. -/
structure Sizes where
  x : ℝ
  y : ℝ
  z : ℝ

/-- No side of the element is turned around or shrunk to nothing. -/
def Sizes.Positive (s : Sizes) : Prop := 0 < s.x ∧ 0 < s.y ∧ 0 < s.z

/-- The active surface is at least as large as that of the original. -/
def Sizes.Larger (s : Sizes) : Prop := 0 < s.x ∧ 1 ≤ s.y ∧ 1 ≤ s.z

/-- The matrix `pos4d` for an element at the same place with the same orientation and another `zoom`. -/
def M4.resize (s : Sizes) (m : M4) : M4 := m * Matrix.diagonal ![s.x, s.y, s.z, 1]

/-- The same element, at the same place, with another size. The size is meaningless for elements that act on all photons; the size of a
tube is not changed here, because its radius is an optical property. -/
def Optic.resize (s : Sizes) : Optic → Optic
  | .plane m => .plane (m.resize s)
  | .tube m zoomz lim0 lim1 => .tube m zoomz lim0 lim1
  | .filter m f => .filter (m.resize s) f
  | .globalFilter f => .globalFilter f
  | .lens m focallength dOptax refl => .lens (m.resize s) focallength dOptax refl
  | .thin m focallength => .thin (m.resize s) focallength
  | .grating m transmission cat groove d blazeMod order => .grating (m.resize s) transmission cat groove d blazeMod order
  | .mirror m rs rp => .mirror (m.resize s) rs rp
  | .scatter m inAngle perpAngle => .scatter (m.resize s) inAngle perpAngle
  | .propagate distance => .propagate distance

/-- The same for elements that process photon lists. -/
def ListOptic.resize (s : Sizes) : ListOptic → ListOptic
  | .plane m => .plane (m.resize s)
  | .tube m zoomz lim0 lim1 => .tube m zoomz lim0 lim1
  | .filter m f => .filter (m.resize s) f
  | .globalFilter f => .globalFilter f
  | .lens m focallength dOptax refl => .lens (m.resize s) focallength dOptax refl
  | .thin m focallength => .thin (m.resize s) focallength
  | .grating m transmission cat groove d blazeMod order => .grating (m.resize s) transmission cat groove d blazeMod order
  | .mirror m rs rp => .mirror (m.resize s) rs rp
  | .scatter m inAngle perpAngle => .scatter (m.resize s) inAngle perpAngle
  | .propagate distance => .propagate distance

/-- The place of an element with a flat surface. -/
def Optic.flat : Optic → Option M4
  | .plane m | .filter m _ | .lens m _ _ _ | .thin m _ | .grating m _ _ _ _ _ _ | .mirror m _ _ | .scatter m _ _ => some m
  | .tube _ _ _ _ | .globalFilter _ | .propagate _ => none

/-- The photon flies forward to a point on the surface of the element, or the element has no flat surface. -/
def Optic.Hit (o : Optic) (r : Ray) : Prop :=
  ∀ m, o.flat = some m → ∃ d p, r.dir = some d ∧ r.pos = some p ∧ d.dot (eX m) ≠ 0 ∧ ∃ k : ℝ, 0 ≤ k ∧
    (p + k • d - center m).dot (eX m) = 0 ∧ |(p + k • d - center m).dot (eY m)| ≤ (vY m).norm ∧
    |(p + k • d - center m).dot (eZ m)| ≤ (vZ m).norm

/-- The photon hits all the elements on its way. -/
def HitsAll : List Optic → Ray → Prop
  | [], _ => True
  | o :: os, r => o.Hit r ∧ ∀ r', o.step r = .ok r' → HitsAll os r'

end Marxs
