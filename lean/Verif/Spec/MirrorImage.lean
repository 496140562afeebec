import Verif.Spec.RigidMotion

/-!
# Specification for C167: mirror images of an instrument together with the photons
-/

namespace Marxs

/-- A mirror image: a matrix that keeps lengths and angles and exchanges left and right, followed by a translation. -/
structure Reflection where
  rot : M3
  shift : V3
  isOrth : rot.transpose * rot = 1
  isImproper : rot.det = -1

/-- The mirror image as matrix for homogeneous coordinates. -/
def Reflection.mat (h : Reflection) : M4 :=
  !![h.rot 0 0, h.rot 0 1, h.rot 0 2, h.shift.x;
     h.rot 1 0, h.rot 1 1, h.rot 1 2, h.shift.y;
     h.rot 2 0, h.rot 2 1, h.rot 2 2, h.shift.z;
     0, 0, 0, 1]

/-- The mirror image of a point or direction. -/
def Reflection.act (h : Reflection) (p : H4) : H4 := mul4 h.mat p

/-- The mirror image of an element, with the given `pos4d`. A photon that is scattered to the left by an angle is
scattered to the right in the mirror image. -/
def Optic.mirrored (m' : M4 → M4) : Optic → Optic
  | .plane m => .plane (m' m)
  | .tube m zoomz lim0 lim1 => .tube (m' m) zoomz lim0 lim1
  | .filter m f => .filter (m' m) f
  | .globalFilter f => .globalFilter f
  | .lens m focallength dOptax refl => .lens (m' m) focallength dOptax refl
  | .thin m focallength => .thin (m' m) focallength
  | .grating m transmission cat groove d blazeMod order => .grating (m' m) transmission cat groove d blazeMod order
  | .mirror m rs rp => .mirror (m' m) rs rp
  | .scatter m inAngle perpAngle => .scatter (m' m) inAngle (perpAngle.map fun b => -b)
  | .propagate distance => .propagate distance

/-- The mirror image of an element. -/
def Reflection.actOptic (h : Reflection) : Optic → Optic := Optic.mirrored fun m => h.mat * m

/-- The mirror image of a photon. -/
def Reflection.actRay (h : Reflection) (r : Ray) : Ray :=
  { r with pos := r.pos.map h.act, dir := r.dir.map h.act, pol := r.pol.map h.act }

/-- The same photon with the opposite sign of the polarization vector: this is the same state of polarization. -/
def Ray.flip (r : Ray) : Ray := { r with pol := r.pol.map fun q => -q }

/-- Two results of a simulation are the same, up to the sign of the polarization vector. -/
def SameUpToSign : Except Err Ray → Except Err Ray → Prop
  | .ok r, .ok s => s = r ∨ s = r.flip
  | .error e, .error e' => e = e'
  | _, _ => False

/-- Mirrors that reflect only one of the two polarizations (the default of `FlatBrewsterMirror`); no condition for all
other elements. -/
def Optic.OnePolarization : Optic → Prop
  | .mirror _ rs rp => rs = 0 ∨ rp = 0
  | _ => True

end Marxs
