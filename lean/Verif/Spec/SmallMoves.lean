import Mathlib.Topology.Instances.Matrix
import Mathlib.Topology.Instances.Real.Lemmas
import Verif.Model.RayChain
import Verif.Spec.Geometry
import Verif.Spec.Rowland

/-!
# Specification for C173: small misalignments

An instrument with misalignments is a family of instruments, e.g. one for each size `i : ℝ` of a misalignment, and `F`
says what it means that the misalignment gets small (e.g. `F = nhds 0`).
-/

namespace Marxs

open Filter Topology

variable {ι : Type}

/-- The vectors `f i` come arbitrarily close to `a`. -/
def H4.Tends (F : Filter ι) (f : ι → H4) (a : H4) : Prop :=
  Tendsto (fun i => (f i).x) F (𝓝 a.x) ∧ Tendsto (fun i => (f i).y) F (𝓝 a.y) ∧
  Tendsto (fun i => (f i).z) F (𝓝 a.z) ∧ Tendsto (fun i => (f i).w) F (𝓝 a.w)

/-- If the photon `r0` has a vector `a` (not NaN), then all photons close to it have a vector, and it comes arbitrarily close
to `a`. -/
def TendsIfAny (F : Filter ι) (f : ι → Option H4) (a0 : Option H4) : Prop :=
  ∀ a, a0 = some a → ∃ g : ι → H4, (∀ᶠ i in F, f i = some (g i)) ∧ H4.Tends F g a

/-- The photons `r i` have the energy of `r0`. They come arbitrarily close to `r0`: their positions, directions and all places
(local coordinates) where they have been seen. -/
structure RayTends (F : Filter ι) (r : ι → Ray) (r0 : Ray) : Prop where
  energy : ∀ᶠ i in F, (r i).energy = r0.energy
  pos : TendsIfAny F (fun i => (r i).pos) r0.pos
  dir : TendsIfAny F (fun i => (r i).dir) r0.dir
  seen : ∀ᶠ i in F, (r i).coos.length = r0.coos.length
  coos : ∀ n (h : n < r0.coos.length), Tendsto (fun i => (r i).coos.getD n (0, 0)) F (𝓝 r0.coos[n])

/-- The same element in a different place. -/
def Optic.placedAt (m : M4) : Optic → Optic
  | .plane _ => .plane m
  | .tube _ zoomz lim0 lim1 => .tube m zoomz lim0 lim1
  | .filter _ f => .filter m f
  | .globalFilter f => .globalFilter f
  | .lens _ focallength dOptax refl => .lens m focallength dOptax refl
  | .thin _ focallength => .thin m focallength
  | .grating _ transmission cat groove d blazeMod order => .grating m transmission cat groove d blazeMod order
  | .mirror _ rs rp => .mirror m rs rp
  | .scatter _ inAngle perpAngle => .scatter m inAngle perpAngle
  | .propagate distance => .propagate distance

/-- Where the element is. -/
def Optic.place : Optic → Option M4
  | .plane m | .tube m _ _ _ | .filter m _ | .lens m _ _ _ | .thin m _ | .grating m _ _ _ _ _ _ | .mirror m _ _
  | .scatter m _ _ => some m
  | .globalFilter _ | .propagate _ => none

/-- The places `m i` come arbitrarily close to the place of the element. -/
def Optic.Near (F : Filter ι) (o : Optic) (m : ι → M4) : Prop := ∀ m0, o.place = some m0 → Tendsto m F (𝓝 m0)

/-- The photon flies towards the plane of a flat element or away from it, not along it. It goes either through the inside of
the element or clearly misses it, but it does not hit the edge. -/
def Ray.ClearOf (r : Ray) (m : M4) : Prop :=
  Placed m ∧ OrthoAxes m ∧ ∃ (d p : H4) (k : ℝ), r.dir = some d ∧ r.pos = some p ∧ d.dot (eX m) ≠ 0 ∧
    (p + k • d - center m).dot (eX m) = 0 ∧
    ((0 < k ∧ |(p + k • d - center m).dot (eY m)| < (vY m).norm ∧ |(p + k • d - center m).dot (eZ m)| < (vZ m).norm) ∨
     k < 0 ∨ (vY m).norm < |(p + k • d - center m).dot (eY m)| ∨ (vZ m).norm < |(p + k • d - center m).dot (eZ m)|)

/-- The way of photon `r` at element `o` is stable, `r1` is the photon behind the element. Photons do not hit edges. Photons
do not go through the center of a `ThinLens`. The order of a grating depends on the energy only, the grating constant does not
jump, photons do not leave a grating along its surface and come to a CAT grating from one side of its bars. -/
def Optic.Clear (o : Optic) (r r1 : Ray) : Prop :=
  match o with
  | .plane m | .filter m _ | .lens m _ _ _ | .mirror m _ _ | .scatter m _ _ => r.ClearOf m
  | .tube _ _ _ _ => False
  | .globalFilter _ | .propagate _ => True
  | .thin m _ => r.ClearOf m ∧ ∀ q, r1.pos = some q → q.xyz ≠ (center m).xyz
  | .grating m _ cat groove d _ order => r.ClearOf m ∧ Continuous d ∧ (∀ e b b', (order e b).1 = (order e b').1) ∧
      (∀ p, r1.dir = some p → p.dot (eX m) ≠ 0) ∧
      (cat = true → ∀ p, r.dir = some p → p.dot (Real.cos groove • eY m + Real.sin groove • eZ m) ≠ 0)

/-- Photon `r` takes a stable way through the elements and comes out as `s`. -/
inductive ClearPath : List Optic → Ray → Ray → Prop
  | nil (r : Ray) : ClearPath [] r r
  | cons {o : Optic} {os : List Optic} {r r1 s : Ray} :
      o.step r = .ok r1 → o.Clear r r1 → ClearPath os r1 s → ClearPath (o :: os) r s

/-- The instrument with all elements in slightly wrong places: element `n` is at `ms[n] i`. -/
def misaligned (os : List Optic) (ms : List (ι → M4)) (i : ι) : List Optic :=
  List.zipWith (fun o m => o.placedAt (m i)) os ms

end Marxs
