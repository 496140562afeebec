import Mathlib.Analysis.Complex.ExponentialBounds
import Verif.Lemmas.GaussSky
import Verif.Props.ScatterLaw

/-!
# C154: brightness profile of a Gaussian source as angle on the sky
-/

namespace Marxs

open MeasureTheory ProbabilityTheory Set

theorem vec_unit (c : SkyC) (hc : IsRotation c.frame) : c.vec.dot c.vec = 1 := by
  rw [SkyC.vec, rotation_dot hc]; exact skyPos_unit _ _

theorem offset_unit (c : SkyC) (hc : IsRotation c.frame) (q : ℝ × ℝ) : (fromOffset c q).dot (fromOffset c q) = 1 := by
  rw [fromOffset_eq, rotation_dot hc]; exact (offsetFrom_dot _ _ _ _).2.2.2

theorem offset_dot (c : SkyC) (hc : IsRotation c.frame) (q : ℝ × ℝ) : c.vec.dot (fromOffset c q) = Real.cos q.1 * Real.cos q.2 := by
  rw [V3.dot_comm, fromOffset_eq, SkyC.vec, rotation_dot hc, show skyVec c.lon c.lat = skyPos c.lon c.lat from rfl, (offsetFrom_dot _ _ _ _).1]
  ring

theorem near_iff (c : SkyC) (hc : IsRotation c.frame) (q : ℝ × ℝ) {rho : ℝ} (h0 : 0 ≤ rho) (h1 : rho ≤ Real.pi) :
    offAngle c.vec (fromOffset c q) ≤ rho ↔ Real.cos rho ≤ Real.cos q.1 * Real.cos q.2 := by
  rw [offAngle, V3.unit_of_unit (vec_unit c hc), V3.unit_of_unit (offset_unit c hc q), offset_dot c hc]
  constructor
  · intro h
    have h2 := Real.cos_le_cos_of_nonneg_of_le_pi (Real.arccos_nonneg _) h1 h
    rwa [Real.cos_arccos] at h2
    · have := abs_le.1 ((abs_mul _ _).trans_le (mul_le_one₀ (Real.abs_cos_le_one q.1) (abs_nonneg _) (Real.abs_cos_le_one q.2)))
      exact this.1
    · have := abs_le.1 ((abs_mul _ _).trans_le (mul_le_one₀ (Real.abs_cos_le_one q.1) (abs_nonneg _) (Real.abs_cos_le_one q.2)))
      exact this.2
  · intro h
    rw [← Real.arccos_cos h0 h1]
    exact Real.arccos_le_arccos h

/-- **C154** `GaussSource`: the part of the photons that come from within the angle `rho` of the position of the source, on the sky. It is at least the part
`1 - exp(-rho^2 / (2 sigma^2))` of a Gaussian in a plane; and it is not more than `1 - (cos rho)^(1 / sigma^2)`, but for photons with an offset of more than 90 degrees. That is the
same for all positions on the sky, also at the poles, and for all coordinate systems. -/
theorem C154_gauss_sky (c : SkyC) (hc : IsRotation c.frame) (sigma rho : ℝ) (hs : 0 < sigma) (h0 : 0 ≤ rho) (h1 : rho < Real.pi / 2) :
    ENNReal.ofReal (1 - Real.exp (-rho ^ 2 / (2 * sigma ^ 2))) ≤
      (normalNumber sigma).prod (normalNumber sigma) {z | offAngle c.vec (fromOffset c z) ≤ rho} ∧
    (normalNumber sigma).prod (normalNumber sigma) {z | offAngle c.vec (fromOffset c z) ≤ rho} ≤
      ENNReal.ofReal (1 - Real.cos rho ^ (1 / sigma ^ 2)) + 2 * normalNumber sigma {x | Real.pi / 2 < |x|} := by
  have hp := Real.pi_pos
  have hcos : 0 < Real.cos rho := Real.cos_pos_of_mem_Ioo ⟨by linarith, h1⟩
  constructor
  · rw [← C154_gauss_profile sigma rho hs.ne' h0]
    refine measure_mono fun z hz => ?_
    rw [mem_setOf_eq, Real.sqrt_le_left h0] at hz
    rw [mem_setOf_eq, near_iff c hc z h0 (by linarith)]
    refine le_trans ?_ (cos_mul_cos_ge (by nlinarith))
    exact Real.cos_le_cos_of_nonneg_of_le_pi (Real.sqrt_nonneg _) (by linarith) ((Real.sqrt_le_left h0).2 hz)
  · set R := Real.sqrt (-2 * Real.log (Real.cos rho)) with hR
    have hlog : 0 ≤ -2 * Real.log (Real.cos rho) := by
      have := Real.log_nonpos hcos.le (Real.cos_le_one rho)
      linarith
    have e : Real.exp (-R ^ 2 / (2 * sigma ^ 2)) = Real.cos rho ^ (1 / sigma ^ 2) := by
      rw [hR, Real.sq_sqrt hlog, Real.rpow_def_of_pos hcos]
      congr 1
      field_simp
    rw [← e, ← C154_gauss_profile sigma R hs.ne' (Real.sqrt_nonneg _)]
    have sub : {z | offAngle c.vec (fromOffset c z) ≤ rho} ⊆
        {z : ℝ × ℝ | Real.sqrt (z.1 ^ 2 + z.2 ^ 2) ≤ R} ∪ ({x | Real.pi / 2 < |x|} ×ˢ univ ∪ univ ×ˢ {x | Real.pi / 2 < |x|}) := by
      intro z hz
      rw [mem_setOf_eq, near_iff c hc z h0 (by linarith)] at hz
      by_cases ha : |z.1| ≤ Real.pi / 2
      · by_cases hb : |z.2| ≤ Real.pi / 2
        · left
          exact Real.sqrt_le_sqrt (sq_le_of_cos ha hb hcos hz)
        · right; right
          exact ⟨trivial, not_le.1 hb⟩
      · right; left
        exact ⟨not_le.1 ha, trivial⟩
    refine (measure_mono sub).trans ((measure_union_le _ _).trans ?_)
    gcongr
    refine (measure_union_le _ _).trans ?_
    rw [Measure.prod_prod, Measure.prod_prod, measure_univ, mul_one, one_mul, two_mul]

/-- A source with a width of 1 degree at any place on the sky: more than 86% of the photons come from within two degrees. -/
example (lon lat : ℝ) : ENNReal.ofReal 0.86 ≤ (normalNumber (Real.pi / 180)).prod (normalNumber (Real.pi / 180))
    {z | offAngle (SkyC.vec ⟨1, lon, lat⟩) (fromOffset ⟨1, lon, lat⟩ z) ≤ 2 * (Real.pi / 180)} := by
  have hp := Real.pi_pos
  refine le_trans ?_ (C154_gauss_sky ⟨1, lon, lat⟩ ⟨by simp, by simp⟩ (Real.pi / 180) (2 * (Real.pi / 180)) (by positivity) (by positivity) (by linarith)).1
  refine ENNReal.ofReal_le_ofReal ?_
  have e : -(2 * (Real.pi / 180)) ^ 2 / (2 * (Real.pi / 180) ^ 2) = (-1) + (-1) := by field_simp; norm_num
  rw [e, Real.exp_add]
  have h := Real.exp_neg_one_lt_d9
  have h2 := Real.exp_pos (-1)
  nlinarith

end Marxs
