import Verif.Model.DetChain
import Verif.Lemmas.Placement

/-!
# C141: the two pixel coordinates follow the two local coordinates

One pixel further along one direction of the surface changes the coordinate of this direction by one and leaves the other alone.
-/

namespace Marxs
open Classical

/-- **C141** A flat detector: one pixel along `y` (`z`) changes the first (second) pixel coordinate by one, and nothing else. -/
theorem C141_pixel_flat (e : Det) (m : M4) (hs : e.surf = .plane m) (hp : e.pixsize ≠ 0) (x y : ℝ) :
    e.pixel (x + e.pixsize) y = ((e.pixel x y).1 + 1, (e.pixel x y).2) ∧ e.pixel x (y + e.pixsize) = ((e.pixel x y).1, (e.pixel x y).2 + 1) := by
  simp only [Det.pixel, hs, detpix]
  constructor <;> ext <;> simp only [] <;> field_simp <;> ring

/-- **C141** A cylindrical detector of radius `R`: an arc as long as a pixel (angle `pixsize / R`) changes the first pixel coordinate by one, one pixel along the axis
the second one; the origin of the local coordinates is pixel (0, 0). -/
theorem C141_pixel_circular (e : Det) (m : M4) (l0 l1 : ℝ) (hs : e.surf = .cyl m l0 l1) (hp : e.pixsize ≠ 0) (hR : (decompose44 m).z 0 ≠ 0) (phi z : ℝ) :
    e.pixel (phi + e.pixsize / (decompose44 m).z 0) z = ((e.pixel phi z).1 + 1, (e.pixel phi z).2) ∧
    e.pixel phi (z + e.pixsize) = ((e.pixel phi z).1, (e.pixel phi z).2 + 1) ∧ e.pixel 0 0 = (0, 0) := by
  simp only [Det.pixel, hs, circDetpix, cylinderR]
  refine ⟨?_, ?_, ?_⟩ <;> ext <;> simp <;> field_simp

/-- A cylinder of radius 5915.5 and half height 20 with pixels of 1 mm meets the hypotheses, and a photon one radian off is counted 5915.5 pixels from the center. -/
example : let e : Det := ⟨.cyl (compose 0 1 ![5915.5, 5915.5, 20]) (-Real.pi) Real.pi, 1, none, -9, ("circ_phi", "circ_y"), ("circpix_x", "circpix_y")⟩
    (decompose44 (compose 0 1 ![5915.5, 5915.5, 20])).z 0 ≠ 0 ∧ e.pixsize ≠ 0 ∧ e.pixel 1 3 = (5915.5, 3) := by
  have hdec : (decompose44 (compose 0 1 ![5915.5, 5915.5, 20])).z 0 = 5915.5 := by
    rw [decompose44_exact 0 1 ![5915.5, 5915.5, 20] (by constructor <;> simp) (by intro k; fin_cases k <;> norm_num)]; simp
  refine ⟨by rw [hdec]; norm_num, one_ne_zero, ?_⟩
  simp [Det.pixel, circDetpix, cylinderR, hdec]

end Marxs
