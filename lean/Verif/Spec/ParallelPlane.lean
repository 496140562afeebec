import Verif.Spec.ListChain
import Verif.Spec.MathUtils
import Verif.Spec.Geometry

/-!
# Specification for C166: elements side by side
-/

namespace Marxs

/-- The rectangle of an element that is flat. -/
def Optic.rectangle : Optic → Option M4
  | .plane m | .filter m _ | .lens m _ _ _ | .thin m _ | .grating m _ _ _ _ _ _ | .mirror m _ _ | .scatter m _ _ => some m
  | _ => none

/-- Two rectangles lie in the same plane (they may be rotated in this plane and may look in opposite directions). -/
def SamePlane (m m' : M4) : Prop :=
  ∀ x : V3, OnPlane (center m).xyz (vX m).xyz x ↔ OnPlane (center m').xyz (vX m').xyz x

/-- Two rectangles have no point in common. -/
def NoCommonPoint (m m' : M4) : Prop := ∀ x : V3, ¬ (InRectangle m x ∧ InRectangle m' x)

/-- Flat elements side by side in one plane, like the CCDs of a camera or the facets of a flat grating array. -/
structure SideBySide (es : List Optic) : Prop where
  flat : ∀ e ∈ es, ∃ m, e.rectangle = some m ∧ Placed m ∧ OrthoAxes m
  plane : ∀ e ∈ es, ∀ e' ∈ es, ∀ m m', e.rectangle = some m → e'.rectangle = some m' → SamePlane m m'
  apart : es.Pairwise fun e e' => ∀ m m', e.rectangle = some m → e'.rectangle = some m' → NoCommonPoint m m'

end Marxs
