import Verif.Spec.ParallelPlane

/-!
# Specification for C168: one large element or a mosaic of small ones
-/

namespace Marxs

/-- Elements with the same properties everywhere on their surface. -/
inductive TileKind where
  /-- `FlatDetector` and other elements that only mark the photons -/
  | detector
  /-- `EnergyFilter` -/
  | filter (f : ℝ → ℝ)
  /-- `FlatGrating` or `CATGrating` with constant `d` and blaze angle -/
  | grating (transmission cat : Bool) (groove d blaze : ℝ) (order : ℝ → Option ℝ → ℤ × ℝ)
  /-- `FlatBrewsterMirror` -/
  | mirror (rs rp : ℝ)

/-- The element with a given `pos4d`. -/
def TileKind.at (k : TileKind) (m : M4) : Optic :=
  match k with
  | .detector => .plane m
  | .filter f => .filter m f
  | .grating transmission cat groove d blaze order => .grating m transmission cat groove (fun _ => d) (fun _ => blaze) order
  | .mirror rs rp => .mirror m rs rp

/-- The rectangle `m` is tiled with the rectangles `ms`, which all have the same orientation. -/
structure Mosaic (m : M4) (ms : List M4) : Prop where
  full : Placed m ∧ OrthoAxes m
  tiles : ∀ t ∈ ms, Placed t ∧ OrthoAxes t ∧ eX t = eX m ∧ eY t = eY m ∧ eZ t = eZ m
  cover : ∀ x : V3, InRectangle m x ↔ ∃ t ∈ ms, InRectangle t x

/-- The ray of the photon does not hit a seam, i.e. a place that belongs to two tiles. -/
def OffSeams (ms : List M4) (r : Ray) : Prop :=
  ∀ (p d : H4) (k : ℝ), r.pos = some p → r.dir = some d → 0 ≤ k → ∀ (i j : ℕ) (t t' : M4), ms[i]? = some t → ms[j]? = some t' →
    InRectangle t (p.xyz + k • d.xyz) → InRectangle t' (p.xyz + k • d.xyz) → i = j

/-- All properties of a photon, but for the coordinates on the elements that it has hit. -/
def Ray.noCoos (r : Ray) : Ray := { r with coos := [] }

end Marxs
