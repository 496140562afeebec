import Verif.Spec.RigidMotion

/-!
# Specification for C159 and C160: instruments of a different size, photons with a different length of the direction
-/

namespace Marxs

/-- A point in an instrument that is `c` times as large; a direction `w = 0` would become `c` times as long. -/
def H4.enlarged (c : ℝ) (p : H4) : H4 := ⟨c * p.x, c * p.y, c * p.z, p.w⟩

/-- Matrix that makes everything `c` times as large. -/
def enlargeMat (c : ℝ) : M4 := !![c, 0, 0, 0; 0, c, 0, 0; 0, 0, c, 0; 0, 0, 0, 1]

/-- An element in an instrument that is `c` times as large: all lengths (position and size, focal length, distance from
the optical axis, distance to propagate) are multiplied by `c`; angles, efficiencies and the distance of the grooves of
a grating stay the same. If grating constant or blaze vary over the surface of a grating, the variation is stretched. -/
noncomputable def Optic.enlarged (c : ℝ) : Optic → Optic
  | .plane m => .plane (enlargeMat c * m)
  | .tube m zoomz lim0 lim1 => .tube (enlargeMat c * m) (c * zoomz) lim0 lim1
  | .filter m f => .filter (enlargeMat c * m) f
  | .globalFilter f => .globalFilter f
  | .lens m focallength dOptax refl => .lens (enlargeMat c * m) (c * focallength) (c * dOptax) refl
  | .thin m focallength => .thin (enlargeMat c * m) (c * focallength)
  | .grating m transmission cat groove d blazeMod order =>
      .grating (enlargeMat c * m) transmission cat groove (fun p => d (p.1 / c, p.2 / c))
        (fun p => blazeMod (p.1 / c, p.2 / c)) order
  | .mirror m rs rp => .mirror (enlargeMat c * m) rs rp
  | .scatter m inAngle perpAngle => .scatter (enlargeMat c * m) inAngle perpAngle
  | .propagate distance => .propagate (c * distance)

/-- Local coordinates on an element of the larger instrument: both are lengths, or the first is an angle (on a
`CircularDetector`). -/
def CooEnlarged (c : ℝ) (a b : ℝ × ℝ) : Prop := b = (c * a.1, c * a.2) ∨ b = (a.1, c * a.2)

/-- `r'` is the photon `r` in an instrument that is `c` times as large, with a direction vector that is `k` times as
long. All other properties of the photon are the same. -/
structure Ray.Similar (c k : ℝ) (r r' : Ray) : Prop where
  pos : r'.pos = r.pos.map (H4.enlarged c)
  dir : r'.dir = r.dir.map (k • ·)
  pol : r'.pol = r.pol
  prob : r'.prob = r.prob
  energy : r'.energy = r.energy
  order : r'.order = r.order
  blaze : r'.blaze = r.blaze
  coos : List.Forall₂ (CooEnlarged c) r.coos r'.coos

/-- Elements other than `Propagator`. -/
def Optic.NotPropagator : Optic → Prop
  | .propagate _ => False
  | _ => True

end Marxs
