import Mathlib.Analysis.Calculus.Deriv.MeanValue
import Mathlib.Analysis.SpecialFunctions.Trigonometric.Bounds

/-!
# Right-angled triangles on the sphere and in the plane
-/

namespace Marxs

open Set

theorem cos_le_exp {x : ℝ} (h : |x| ≤ Real.pi / 2) : Real.cos x ≤ Real.exp (-x ^ 2 / 2) := by
  wlog hx : 0 ≤ x generalizing x
  · have := this (x := -x) (by rwa [abs_neg]) (by linarith)
    simpa using this
  rw [abs_of_nonneg hx] at h
  have hd : ∀ t : ℝ, HasDerivAt (fun t => Real.exp (t ^ 2 / 2) * Real.cos t) (Real.exp (t ^ 2 / 2) * (t * Real.cos t - Real.sin t)) t := by
    intro t
    have h1 : HasDerivAt (fun t : ℝ => t ^ 2 / 2) t t := by
      have := (hasDerivAt_pow 2 t).div_const 2
      simpa using this
    have := h1.exp.mul (Real.hasDerivAt_cos t)
    rwa [show Real.exp (t ^ 2 / 2) * t * Real.cos t + Real.exp (t ^ 2 / 2) * -Real.sin t = Real.exp (t ^ 2 / 2) * (t * Real.cos t - Real.sin t) by ring] at this
  have anti : AntitoneOn (fun t => Real.exp (t ^ 2 / 2) * Real.cos t) (Icc 0 (Real.pi / 2)) := by
    refine antitoneOn_of_deriv_nonpos (convex_Icc _ _) (by fun_prop) (fun t _ => (hd t).differentiableAt.differentiableWithinAt) ?_
    rw [interior_Icc]
    intro t ht
    rw [(hd t).deriv]
    have hc : 0 < Real.cos t := Real.cos_pos_of_mem_Ioo ⟨by linarith [ht.1, Real.pi_pos], ht.2⟩
    have h2 := Real.lt_tan ht.1 ht.2
    rw [Real.tan_eq_sin_div_cos, lt_div_iff₀ hc] at h2
    exact mul_nonpos_of_nonneg_of_nonpos (Real.exp_pos _).le (by linarith)
  have := anti ⟨le_rfl, by linarith [Real.pi_pos]⟩ ⟨hx, h⟩ hx
  simp only [ne_eq, OfNat.ofNat_ne_zero, not_false_eq_true, zero_pow, zero_div, Real.exp_zero, Real.cos_zero, mul_one] at this
  rw [neg_div, Real.exp_neg, ← one_div, le_div_iff₀ (Real.exp_pos _), mul_comm]
  exact this

/-- The hypotenuse in the plane is not much longer than on the sphere. -/
theorem sq_le_of_cos {a b rho : ℝ} (ha : |a| ≤ Real.pi / 2) (hb : |b| ≤ Real.pi / 2) (hr : 0 < Real.cos rho) (h : Real.cos rho ≤ Real.cos a * Real.cos b) :
    a ^ 2 + b ^ 2 ≤ -2 * Real.log (Real.cos rho) := by
  have hb0 : 0 ≤ Real.cos b := Real.cos_nonneg_of_mem_Icc (abs_le.1 hb)
  have h1 : Real.cos rho ≤ Real.exp (-(a ^ 2 + b ^ 2) / 2) := by
    refine h.trans ?_
    rw [show -(a ^ 2 + b ^ 2) / 2 = -a ^ 2 / 2 + -b ^ 2 / 2 by ring, Real.exp_add]
    exact mul_le_mul (cos_le_exp ha) (cos_le_exp hb) hb0 (Real.exp_pos _).le
  have := Real.log_le_log hr h1
  rw [Real.log_exp] at this
  linarith

end Marxs
