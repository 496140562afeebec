import Mathlib.Data.Real.Sign
import Mathlib.Analysis.SpecialFunctions.Trigonometric.Inverse
import Verif.Model.Geometry

/-!
# Gratings

Models `marxs/optics/grating.py`: `FlatGrating`, `CATGrating`. Everything is modelled for one photon
that hits the grating; numpy applies it row by row. NaN is `none`.
-/

namespace Marxs
open Classical

/-- Conversion between photon energy in keV and wavelength in mm, `marxs/__init__.py`. Used for `marxs/optics/grating.py:233-266`. -/
noncomputable def energy2wave : ℝ := 1.2398419292004202e-06

/-- `norm_vector` for one row of homogeneous coordinates, `marxs/math/utils.py:148-162`; a row of
length zero gives NaN. -/
noncomputable def normVector (v : H4) : Option H4 := if v.dot v = 0 then none else some v.unit

/-- Attributes of a `FlatGrating`, `marxs/optics/grating.py:174-231`. `d` is the method `d(intercoos)`,
`order` is the order selector (with any random draws it makes), `bases` is
`geometry.get_local_euklid_bases`, `sign` is `order_sign_convention`. -/
structure Grating where
  transmission : Bool
  groove : ℝ
  d : ℝ × ℝ → ℝ
  blazeMod : ℝ × ℝ → ℝ
  order : ℝ → H4 → Option ℝ → ℤ × ℝ
  sign : H4 → H4 → ℝ
  bases : ℝ × ℝ → H4 × H4 × H4

/-- `FlatGrating.order_sign_convention`, `marxs/optics/grating.py:145-172`. -/
def flatSign (_p _ePerp : H4) : ℝ := -1

/-- `CATGrating.order_sign_convention`, `marxs/optics/grating.py:291-301`. -/
noncomputable def catSign (p ePerp : H4) : ℝ :=
  let s := Real.sign (p.dot ePerp)
  if s = 0 then 1 else s

/-- `FlatGrating.e_groove_coos`, `marxs/optics/grating.py:186-209`:
groove direction, direction perpendicular to it in the surface, normal. -/
noncomputable def Grating.frame (g : Grating) (coo : ℝ × ℝ) : H4 × H4 × H4 :=
  let (ex, ey, en) := g.bases coo
  (Real.sin (-g.groove) • ex + Real.cos (-g.groove) • ey,
   Real.cos (-g.groove) • ex - Real.sin (-g.groove) • ey, en)

/-- Blaze angle, `marxs/optics/grating.py:240-251`. -/
noncomputable def blazeAngle (p l n : H4) (modifier : ℝ) : Option ℝ :=
  match normVector (p - (p.dot l) • l) with
  | none => none
  | some q => some (Real.arccos (min (max |q.dot n| 0) 1) + modifier)

/-- Direction after diffraction, `marxs/optics/grating.py:256-266`: `p` normalised incoming direction,
`l`, `ePerp`, `n` the groove coordinates, `m` the order, `wave` the wavelength and `dgrat` the grating
constant. A negative number under the square root gives NaN. -/
noncomputable def diffractDir (transmission : Bool) (sign : H4 → H4 → ℝ) (p l ePerp n : H4) (m : ℤ)
    (wave dgrat : ℝ) : Option H4 :=
  let d := - ePerp
  let pd := p.dot d + sign p d * m * wave / dgrat
  let pl := p.dot l
  let r := 1 - pd ^ 2 - pl ^ 2
  if r < 0 then none
  else
    let pn := Real.sqrt r
    let direction := Real.sign (p.dot n)
    let direction := if transmission then direction else direction * -1
    some (pd • d + pl • l + (direction * pn) • n)

/-- Result of `diffract_photons`. Used for `marxs/optics/grating.py:233-266`. -/
structure Diffracted where
  dir : Option H4
  m : ℤ
  prob : ℝ
  blaze : Option ℝ

/-- `FlatGrating.diffract_photons`, `marxs/optics/grating.py:233-266`, for one photon. A photon with
zero direction gives NaN throughout; an energy or grating constant of zero gives an infinite
component along `d` and thus a NaN direction. -/
noncomputable def Grating.diffract (g : Grating) (dir pol : H4) (energy : ℝ) (coo : ℝ × ℝ) :
    Diffracted :=
  let (l, ePerp, n) := g.frame coo
  match normVector dir with
  | none => let mp := g.order energy pol none; ⟨none, mp.1, mp.2, none⟩
  | some p =>
    let blaze := blazeAngle p l n (g.blazeMod coo)
    let mp := g.order energy pol blaze
    let dnew := if energy = 0 ∨ g.d coo = 0 then none
      else diffractDir g.transmission g.sign p l ePerp n mp.1 (energy2wave / energy) (g.d coo)
    ⟨dnew, mp.1, mp.2, blaze⟩

/-- `FlatGrating.specific_process_photons`, `marxs/optics/grating.py:268-277`, for one photon:
direction, polarization and the other output columns. -/
noncomputable def Grating.process (g : Grating) (dir pol : H4) (energy : ℝ) (coo : ℝ × ℝ) :
    Diffracted × Option H4 :=
  let r := g.diffract dir pol energy coo
  (r, match r.dir with
      | none => none
      | some d => parallelTransport dir d pol)

end Marxs
