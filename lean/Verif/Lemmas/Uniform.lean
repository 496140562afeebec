import Mathlib.MeasureTheory.Function.Jacobian
import Mathlib.Analysis.SpecialFunctions.PolarCoord
import Mathlib.Analysis.SpecialFunctions.Sqrt
import Mathlib.Analysis.SpecialFunctions.Trigonometric.Deriv

/-!
# Maps with constant Jacobian make uniform distributions
-/

namespace Marxs

open MeasureTheory Set

/-- Linear map of the plane with a matrix. -/
noncomputable def planeMap (A : Matrix (Fin 2) (Fin 2) ℝ) : ℝ × ℝ →L[ℝ] ℝ × ℝ :=
  (Matrix.toLin (.finTwoProd ℝ) (.finTwoProd ℝ) A).toContinuousLinearMap

theorem planeMap_det (A : Matrix (Fin 2) (Fin 2) ℝ) : (planeMap A).det = A.det := by
  simp [planeMap, LinearMap.det_toContinuousLinearMap, LinearMap.det_toLin]

/-- Image of the uniform distribution under an injective map with Jacobian of constant size. -/
theorem uniform_of_jacobian (G : ℝ × ℝ → ℝ × ℝ) (hG : Measurable G) (A : ℝ × ℝ → Matrix (Fin 2) (Fin 2) ℝ)
    (s : Set (ℝ × ℝ)) (hs : MeasurableSet s) (hd : ∀ x ∈ s, HasFDerivAt G (planeMap (A x)) x)
    (hi : InjOn G s) (k : ℝ) (hk : 0 < k) (hA : ∀ x ∈ s, |(A x).det| = k) :
    Measure.map G (volume.restrict s) = (ENNReal.ofReal k)⁻¹ • volume.restrict (G '' s) ∧
    volume (G '' s) = ENNReal.ofReal k * volume s := by
  have key : ∀ T ⊆ s, MeasurableSet T → volume (G '' T) = ENNReal.ofReal k * volume T := by
    intro T hT hm
    rw [← lintegral_abs_det_fderiv_eq_addHaar_image volume hm
      (fun x hx => (hd x (hT hx)).hasFDerivWithinAt) (hi.mono hT)]
    rw [setLIntegral_congr_fun (g := fun _ => ENNReal.ofReal k) hm
      (fun x hx => by simp only [planeMap_det]; rw [hA x (hT hx)]), setLIntegral_const]
  refine ⟨?_, key s le_rfl hs⟩
  have k0 : ENNReal.ofReal k ≠ 0 := by simpa using hk
  ext S hS
  rw [Measure.map_apply hG hS, Measure.restrict_apply (hG hS), Measure.smul_apply, Measure.restrict_apply hS,
    smul_eq_mul]
  have him : S ∩ G '' s = G '' (G ⁻¹' S ∩ s) := by
    ext p
    constructor
    · rintro ⟨hp, x, hx, rfl⟩
      exact ⟨x, ⟨hp, hx⟩, rfl⟩
    · rintro ⟨x, ⟨hp, hx⟩, rfl⟩
      exact ⟨hp, x, hx, rfl⟩
  rw [him, key _ inter_subset_right ((hG hS).inter hs), ← mul_assoc,
    ENNReal.inv_mul_cancel k0 ENNReal.ofReal_ne_top, one_mul]

/-- Points in a ring from two random numbers: angle uniform, radius from the area. -/
noncomputable def ringMap (R a p0 D : ℝ) (u : ℝ × ℝ) : ℝ × ℝ :=
  (R * (Real.sqrt (a ^ 2 + (1 - a ^ 2) * u.2) * Real.cos (p0 + D * u.1)),
   R * (Real.sqrt (a ^ 2 + (1 - a ^ 2) * u.2) * Real.sin (p0 + D * u.1)))

theorem ringMap_measurable (R a p0 D : ℝ) : Measurable (ringMap R a p0 D) := by
  unfold ringMap
  fun_prop

/-- Jacobian of `ringMap`. -/
noncomputable def ringJac (R a p0 D : ℝ) (u : ℝ × ℝ) : Matrix (Fin 2) (Fin 2) ℝ :=
  let r := Real.sqrt (a ^ 2 + (1 - a ^ 2) * u.2)
  let r' := (1 - a ^ 2) / (2 * r)
  let p := p0 + D * u.1
  !![R * (r * (-Real.sin p * D)), R * (r' * Real.cos p); R * (r * (Real.cos p * D)), R * (r' * Real.sin p)]

theorem ringMap_hasFDerivAt (R a p0 D : ℝ) (u : ℝ × ℝ) (h : 0 < a ^ 2 + (1 - a ^ 2) * u.2) :
    HasFDerivAt (ringMap R a p0 D) (planeMap (ringJac R a p0 D u)) u := by
  have hr : HasFDerivAt (fun u : ℝ × ℝ => Real.sqrt (a ^ 2 + (1 - a ^ 2) * u.2))
      ((1 / (2 * Real.sqrt (a ^ 2 + (1 - a ^ 2) * u.2))) • ((1 - a ^ 2) • ContinuousLinearMap.snd ℝ ℝ ℝ)) u := by
    have h1 : HasFDerivAt (fun u : ℝ × ℝ => a ^ 2 + (1 - a ^ 2) * u.2)
        ((1 - a ^ 2) • ContinuousLinearMap.snd ℝ ℝ ℝ) u :=
      ((hasFDerivAt_snd (𝕜 := ℝ) (p := u)).const_mul (1 - a ^ 2)).const_add _
    exact h1.sqrt h.ne'
  have hp : HasFDerivAt (fun u : ℝ × ℝ => p0 + D * u.1) (D • ContinuousLinearMap.fst ℝ ℝ ℝ) u :=
    ((hasFDerivAt_fst (𝕜 := ℝ) (p := u)).const_mul D).const_add _
  unfold planeMap ringJac
  rw [Matrix.toLin_finTwoProd_toContinuousLinearMap]
  have := HasFDerivAt.prodMk ((hr.mul hp.cos).const_mul R) ((hr.mul hp.sin).const_mul R)
  refine this.congr_fderiv ?_
  ext x <;> simp [-mul_eq_mul_left_iff] <;> ring

theorem ringJac_det (R a p0 D : ℝ) (u : ℝ × ℝ) (h : 0 < a ^ 2 + (1 - a ^ 2) * u.2) :
    (ringJac R a p0 D u).det = -(R ^ 2 * (1 - a ^ 2) * D / 2) := by
  have hs := Real.sqrt_pos.2 h
  have := Real.sin_sq_add_cos_sq (p0 + D * u.1)
  simp only [ringJac, Matrix.det_fin_two_of]
  field_simp
  linear_combination (-(R ^ 2 * D * (1 - a ^ 2))) * this

theorem ringMap_injOn (R a p0 D : ℝ) (hR : 0 < R) (ha : 0 ≤ a) (ha1 : a < 1) (hD : 0 < D) (hD2 : D ≤ 2 * Real.pi) :
    InjOn (ringMap R a p0 D) (Ioo 0 1 ×ˢ Ioo 0 1) := by
  rintro ⟨u1, u2⟩ ⟨⟨h1, h1'⟩, h2, h2'⟩ ⟨v1, v2⟩ ⟨⟨k1, k1'⟩, k2, k2'⟩ h
  simp only at h1 h1' h2 h2' k1 k1' k2 k2'
  have ha2 : 0 < 1 - a ^ 2 := by nlinarith
  simp only [ringMap, Prod.mk.injEq, mul_eq_mul_left_iff, hR.ne', or_false] at h
  have pu : 0 < a ^ 2 + (1 - a ^ 2) * u2 := by positivity
  have pv : 0 < a ^ 2 + (1 - a ^ 2) * v2 := by positivity
  have su := Real.sq_sqrt pu.le
  have sv := Real.sq_sqrt pv.le
  have ru := Real.sqrt_pos.2 pu
  have rv := Real.sqrt_pos.2 pv
  set r := Real.sqrt (a ^ 2 + (1 - a ^ 2) * u2)
  set q := Real.sqrt (a ^ 2 + (1 - a ^ 2) * v2)
  obtain ⟨hx, hy⟩ := h
  have e1 := Real.sin_sq_add_cos_sq (p0 + D * u1)
  have e2 := Real.sin_sq_add_cos_sq (p0 + D * v1)
  have hrq2 : r ^ 2 = q ^ 2 := by
    calc r ^ 2 = (r * Real.cos (p0 + D * u1)) ^ 2 + (r * Real.sin (p0 + D * u1)) ^ 2 := by
          linear_combination (-r ^ 2) * e1
      _ = (q * Real.cos (p0 + D * v1)) ^ 2 + (q * Real.sin (p0 + D * v1)) ^ 2 := by rw [hx, hy]
      _ = q ^ 2 := by linear_combination (q ^ 2) * e2
  have hrq : r = q := by
    have := (sq_eq_sq₀ ru.le rv.le).1 hrq2
    exact this
  rw [hrq, mul_right_inj' rv.ne'] at hx hy
  have hu2 : u2 = v2 := by
    have : (1 - a ^ 2) * u2 = (1 - a ^ 2) * v2 := by linarith
    exact mul_left_cancel₀ ha2.ne' this
  have hu1 : u1 = v1 := by
    have hc : Real.cos ((p0 + D * u1) - (p0 + D * v1)) = 1 := by
      rw [Real.cos_sub, hx, hy]; linarith
    rw [Real.cos_eq_one_iff_of_lt_of_lt] at hc
    · have : D * (u1 - v1) = 0 := by linarith
      rcases mul_eq_zero.1 this with h | h
      · exact absurd h hD.ne'
      · linarith
    · nlinarith
    · nlinarith
  rw [hu1, hu2]

theorem ringMap_image (R a p0 D : ℝ) (hR : 0 < R) (ha : 0 ≤ a) (ha1 : a < 1) (hD : 0 < D) :
    ringMap R a p0 D '' (Ioo 0 1 ×ˢ Ioo 0 1) =
      {p | ∃ d phi, R * a < d ∧ d < R ∧ p0 < phi ∧ phi < p0 + D ∧ p = (d * Real.cos phi, d * Real.sin phi)} := by
  have ha2 : 0 < 1 - a ^ 2 := by nlinarith
  ext p
  constructor
  · rintro ⟨⟨u1, u2⟩, ⟨⟨h1, h1'⟩, h2, h2'⟩, rfl⟩
    simp only at h1 h1' h2 h2'
    refine ⟨R * Real.sqrt (a ^ 2 + (1 - a ^ 2) * u2), p0 + D * u1, ?_, ?_, by nlinarith, by nlinarith, ?_⟩
    · apply mul_lt_mul_of_pos_left _ hR
      apply Real.lt_sqrt_of_sq_lt
      nlinarith
    · calc R * Real.sqrt (a ^ 2 + (1 - a ^ 2) * u2) < R * 1 := by
            apply mul_lt_mul_of_pos_left _ hR
            rw [Real.sqrt_lt' one_pos]
            nlinarith
        _ = R := mul_one R
    · simp only [ringMap, Prod.mk.injEq]
      constructor <;> ring
  · rintro ⟨d, phi, h1, h2, h3, h4, rfl⟩
    have hd : 0 < d := lt_of_le_of_lt (by positivity) h1
    refine ⟨((phi - p0) / D, ((d / R) ^ 2 - a ^ 2) / (1 - a ^ 2)), ⟨⟨?_, ?_⟩, ?_, ?_⟩, ?_⟩
    · exact div_pos (by linarith) hD
    · exact (div_lt_one hD).2 (by linarith)
    · apply div_pos _ ha2
      have : a < d / R := by rw [lt_div_iff₀ hR]; linarith
      nlinarith
    · rw [div_lt_one ha2]
      have h0 : 0 ≤ d / R := by positivity
      have : d / R < 1 := (div_lt_one hR).2 h2
      nlinarith
    · have e : Real.sqrt (a ^ 2 + (1 - a ^ 2) * (((d / R) ^ 2 - a ^ 2) / (1 - a ^ 2))) = d / R := by
        rw [mul_div_cancel₀ _ ha2.ne']
        rw [show a ^ 2 + ((d / R) ^ 2 - a ^ 2) = (d / R) ^ 2 by ring]
        exact Real.sqrt_sq (by positivity)
      have e2 : p0 + D * ((phi - p0) / D) = phi := by field_simp; ring
      simp only [ringMap, e, e2, Prod.mk.injEq]
      constructor <;> field_simp

end Marxs
