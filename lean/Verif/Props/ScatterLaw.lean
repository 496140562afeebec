import Mathlib.MeasureTheory.Measure.WithDensity
import Verif.Lemmas.ScatterLaw
import Verif.Props.SkySource

/-!
# C154: Gaussian scatter, jitter and Gaussian sources
-/

namespace Marxs

open MeasureTheory ProbabilityTheory Set

instance (sigma : ℝ) : IsProbabilityMeasure (normalNumber sigma) := by unfold normalNumber; infer_instance

theorem randomNumber_univ : randomNumber univ = 1 := by simp [randomNumber]

theorem scatterNumbers_fst (sigma : ℝ) (A : Set ℝ) : scatterNumbers sigma {q | q.1 ∈ A} = normalNumber sigma A := by
  haveI : SFinite randomNumber := by unfold randomNumber; infer_instance
  have : {q : ℝ × ℝ | q.1 ∈ A} = A ×ˢ univ := by ext q; simp
  rw [this, scatterNumbers, Measure.prod_prod, randomNumber_univ, mul_one]

theorem unit_of_ne {v : V3} (h : v ≠ 0) : v.unit.unit = v.unit := V3.unit_of_unit (V3.unit_dot_unit h)

theorem gauss_dir (dir pol : H4) (h0 : dir.xyz ≠ 0) : ∃ g : ℝ → V3,
    ((Measurable fun x => (g x).x) ∧ (Measurable fun x => (g x).y) ∧ Measurable fun x => (g x).z) ∧
    ∀ a b, ∃ p, gaussScatter dir pol a b = some ((mul3 (rotMat dir.xyz.unit (-b)) (g a)).toDir, p) := by
  set u := dir.xyz.unit with hu
  set g : V3 := if |u.x| < 0.99999 then ⟨1, 0, 0⟩ else ⟨0, 1, 0⟩ with hg
  refine ⟨fun a => mul3 (rotMat (u.cross g).unit (-a)) u, rot_measurable (u.cross g).unit (t := fun x : ℝ => -x) (f := fun _ => u) measurable_neg
    measurable_const measurable_const measurable_const, fun a b => ?_⟩
  obtain ⟨d', p', h, -⟩ := C22_gauss_scatter dir pol h0 a b
  rw [gaussScatter, if_neg h0] at h
  simp only [← hu, ← hg] at h
  rw [gaussScatter, if_neg h0]
  simp only [← hu, ← hg]
  cases h1 : turn (u.cross g) a u with
  | none => rw [h1] at h; cases h
  | some d1 =>
    rw [h1] at h
    simp only at h ⊢
    cases h2 : turn u b d1 with
    | none => rw [h2] at h; cases h
    | some d2 =>
      obtain ⟨_, e1, _⟩ := turn_spec h1
      obtain ⟨_, e2, _⟩ := turn_spec h2
      rw [hu, unit_of_ne h0, ← hu] at e2
      refine ⟨parallelTransport dir d2.toDir pol, ?_⟩
      simp only [e2, e1]

/-- **C154** `RandomGaussianScatter`: a photon leaves at an angle up to `alpha` to its old direction as often as a normal variable with the given width is not larger than
`alpha` (whole turns do not count), thus at least as often as the normal variable is between `-alpha` and `alpha`. -/
theorem C154_scatter_angle (sigma : ℝ) (dir pol : H4) (h0 : dir.xyz ≠ 0) (alpha : ℝ) (h1 : 0 ≤ alpha) (h2 : alpha ≤ Real.pi) :
    scatterNumbers sigma {q | ScattersInto dir pol {v | offAngle dir.xyz v ≤ alpha} q} = normalNumber sigma (anglesUpTo alpha) ∧
    normalNumber sigma (Icc (-alpha) alpha) ≤ scatterNumbers sigma {q | ScattersInto dir pol {v | offAngle dir.xyz v ≤ alpha} q} := by
  have h3 : {q | ScattersInto dir pol {v | offAngle dir.xyz v ≤ alpha} q} = {q | q.1 ∈ anglesUpTo alpha} := by
    ext q
    simp only [mem_setOf_eq, ← cos_le_iff h1 h2]
    obtain ⟨d, p, e1, e2, e3, e4, -⟩ := C22_gauss_scatter dir pol h0 q.1 (q.2 * 2 * Real.pi)
    have h4 : offAngle dir.xyz d.xyz = Real.arccos (Real.cos q.1) := by rw [offAngle, V3.unit_of_unit e3, e4]
    have h5 : offAngle dir.xyz d.xyz ≤ alpha ↔ Real.cos alpha ≤ Real.cos q.1 := by
      rw [h4]
      constructor
      · intro h
        have := Real.cos_le_cos_of_nonneg_of_le_pi (Real.arccos_nonneg _) h2 h
        rwa [Real.cos_arccos (Real.neg_one_le_cos _) (Real.cos_le_one _)] at this
      · intro h
        have := Real.arccos_le_arccos h
        rwa [Real.arccos_cos h1 h2] at this
    rw [← h5]
    constructor
    · rintro ⟨d', p', e, hd⟩
      rw [e1] at e
      cases e
      exact hd
    · intro hd
      exact ⟨d, p, e1, hd⟩
  rw [h3, scatterNumbers_fst]
  refine ⟨rfl, measure_mono fun x hx => ⟨0, ?_⟩⟩
  simpa [abs_le] using hx

/-- **C154** `RandomGaussianScatter` prefers no direction: the distribution of the directions is the same if one turns the sky about the old direction of the photon, by
any angle. -/
theorem C154_scatter_symmetric (sigma : ℝ) (dir pol : H4) (h0 : dir.xyz ≠ 0) (D : Set V3) (hD : MeasurableVecs D) (delta : ℝ) :
    scatterNumbers sigma {q | ScattersInto dir pol (turnedInto dir.xyz delta D) q} = scatterNumbers sigma {q | ScattersInto dir pol D q} := by
  obtain ⟨g, ⟨a, b, c⟩, hg⟩ := gauss_dir dir pol h0
  have key : ∀ S : Set V3, {q | ScattersInto dir pol S q} = {q | mul3 (rotMat dir.xyz.unit (-(q.2 * 2 * Real.pi))) (g q.1) ∈ S} := by
    intro S
    ext q
    obtain ⟨p, hp⟩ := hg q.1 (q.2 * 2 * Real.pi)
    simp only [mem_setOf_eq, ScattersInto, hp, Option.some.injEq, Prod.mk.injEq]
    constructor
    · rintro ⟨d, p', ⟨rfl, rfl⟩, h⟩
      rwa [V3.toDir_xyz] at h
    · intro h
      refine ⟨_, p, ⟨rfl, rfl⟩, ?_⟩
      rwa [V3.toDir_xyz]
  rw [key, key, scatterNumbers]
  simp only [turnedInto, mem_setOf_eq]
  exact rot_invariant (normalNumber sigma) (V3.unit_dot_unit h0) a b c hD delta

theorem jitter_dir (dir pol : H4) (hy : dir.y = 0) (hz : dir.z = 0) (r j : ℝ) : ∃ p,
    jitter dir pol r j = some ((mul3 (rotMat ⟨1, 0, 0⟩ (-r)) ⟨dir.x * Real.cos j, -(dir.x * Real.sin j), 0⟩).toDir, p) := by
  obtain ⟨d', p', h, -⟩ := C22_jitter dir pol r j
  simp only [jitter] at h ⊢
  cases h1 : turn ⟨0, Real.sin r, Real.cos r⟩ j dir.xyz with
  | none => rw [h1] at h; cases h
  | some d =>
    rw [h1] at h
    cases h2 : turn ⟨0, Real.sin r, Real.cos r⟩ j pol.xyz with
    | none => rw [h2] at h; cases h
    | some p =>
      obtain ⟨_, e1, _⟩ := turn_spec h1
      refine ⟨p.toDir, ?_⟩
      simp only [Option.some.injEq, Prod.mk.injEq, and_true]
      rw [e1, V3.unit_of_unit (by simp only [V3.dot]; nlinarith [Real.sin_sq_add_cos_sq r])]
      congr 1
      rw [rodrigues, rodrigues]
      ext <;> simp [H4.xyz, V3.dot, V3.cross, hy, hz] <;> ring

/-- **C154** `JitterPointing`, for a source on the optical axis (the x axis): the angle to the axis is distributed like the drawn normal variable. -/
theorem C154_jitter_angle (sigma : ℝ) (dir pol : H4) (hx : dir.x ≠ 0) (hy : dir.y = 0) (hz : dir.z = 0) (alpha : ℝ) (h1 : 0 ≤ alpha) (h2 : alpha ≤ Real.pi) :
    scatterNumbers sigma {q | JittersInto dir pol {v | offAngle dir.xyz v ≤ alpha} q} = normalNumber sigma (anglesUpTo alpha) ∧
    normalNumber sigma (Icc (-alpha) alpha) ≤ scatterNumbers sigma {q | JittersInto dir pol {v | offAngle dir.xyz v ≤ alpha} q} := by
  have h0 : dir.xyz ≠ 0 := by
    intro h
    exact hx (by simpa [H4.xyz] using congrArg V3.x h)
  have h3 : {q | JittersInto dir pol {v | offAngle dir.xyz v ≤ alpha} q} = {q | q.1 ∈ anglesUpTo alpha} := by
    ext q
    simp only [mem_setOf_eq, ← cos_le_iff h1 h2]
    obtain ⟨d, p, e1, e2, _, e3, _, _, e4⟩ := C22_jitter dir pol (q.2 * 2 * Real.pi) q.1
    have e4 := e4 hy hz
    have h4 : offAngle dir.xyz d.xyz = Real.arccos (Real.cos q.1) := by
      rw [offAngle]
      congr 1
      have n1 : d.xyz.norm = dir.xyz.norm := by rw [V3.norm, V3.norm, e3]
      have n2 : dir.xyz.norm ≠ 0 := (V3.norm_pos h0).ne'
      have n3 : dir.xyz.norm * dir.xyz.norm = dir.xyz.dot dir.xyz := V3.norm_mul_self _
      rw [V3.unit, V3.unit, V3.dot_smul_left, V3.dot_smul_right, n1, e4, ← n3]
      field_simp
    have h5 : offAngle dir.xyz d.xyz ≤ alpha ↔ Real.cos alpha ≤ Real.cos q.1 := by
      rw [h4]
      constructor
      · intro h
        have := Real.cos_le_cos_of_nonneg_of_le_pi (Real.arccos_nonneg _) h2 h
        rwa [Real.cos_arccos (Real.neg_one_le_cos _) (Real.cos_le_one _)] at this
      · intro h
        have := Real.arccos_le_arccos h
        rwa [Real.arccos_cos h1 h2] at this
    rw [← h5]
    constructor
    · rintro ⟨d', p', e, hd⟩
      rw [e1] at e
      cases e
      exact hd
    · intro hd
      exact ⟨d, p, e1, hd⟩
  rw [h3, scatterNumbers_fst]
  refine ⟨rfl, measure_mono fun x hx => ⟨0, ?_⟩⟩
  simpa [abs_le] using hx

/-- **C154** `JitterPointing`: a source on the optical axis is blurred in the same way in all directions. -/
theorem C154_jitter_symmetric (sigma : ℝ) (dir pol : H4) (hy : dir.y = 0) (hz : dir.z = 0) (D : Set V3) (hD : MeasurableVecs D) (delta : ℝ) :
    scatterNumbers sigma {q | JittersInto dir pol (turnedInto ⟨1, 0, 0⟩ delta D) q} = scatterNumbers sigma {q | JittersInto dir pol D q} := by
  have u1 : (⟨1, 0, 0⟩ : V3).dot ⟨1, 0, 0⟩ = 1 := by simp [V3.dot]
  have key : ∀ S : Set V3, {q | JittersInto dir pol S q} =
      {q | mul3 (rotMat ⟨1, 0, 0⟩ (-(q.2 * 2 * Real.pi))) ((fun j => (⟨dir.x * Real.cos j, -(dir.x * Real.sin j), 0⟩ : V3)) q.1) ∈ S} := by
    intro S
    ext q
    obtain ⟨p, hp⟩ := jitter_dir dir pol hy hz (q.2 * 2 * Real.pi) q.1
    simp only [mem_setOf_eq, JittersInto, hp, Option.some.injEq, Prod.mk.injEq]
    constructor
    · rintro ⟨d, p', ⟨rfl, rfl⟩, h⟩
      exact h
    · intro h
      exact ⟨_, p, ⟨rfl, rfl⟩, h⟩
  rw [key, key, scatterNumbers]
  have := rot_invariant (normalNumber sigma) (u := ⟨1, 0, 0⟩) u1 (g := fun j => (⟨dir.x * Real.cos j, -(dir.x * Real.sin j), 0⟩ : V3))
    (Real.measurable_cos.const_mul _) ((Real.measurable_sin.const_mul _).neg) measurable_const hD delta
  simp only [turnedInto, V3.unit_of_unit u1, mem_setOf_eq]
  exact this

theorem normal_prod {sigma : ℝ} (hs : sigma ≠ 0) : (normalNumber sigma).prod (normalNumber sigma) =
    (volume : Measure (ℝ × ℝ)).withDensity fun z => ENNReal.ofReal (1 / (2 * Real.pi * sigma ^ 2) * Real.exp (-(z.1 ^ 2 + z.2 ^ 2) / (2 * sigma ^ 2))) := by
  have hv : (sigma ^ 2).toNNReal ≠ 0 := by
    simp only [ne_eq, Real.toNNReal_eq_zero, not_le]; positivity
  have hv2 : ((sigma ^ 2).toNNReal : ℝ) = sigma ^ 2 := Real.coe_toNNReal _ (sq_nonneg _)
  rw [normalNumber, gaussianReal_of_var_ne_zero _ hv, prod_withDensity (measurable_gaussianPDF _ _) (measurable_gaussianPDF _ _), ← Measure.volume_eq_prod]
  congr 1
  funext z
  rw [gaussianPDF, gaussianPDF, ← ENNReal.ofReal_mul (gaussianPDFReal_nonneg _ _ _), gaussianPDFReal, gaussianPDFReal, hv2]
  congr 1
  have h1 : (√(2 * Real.pi * sigma ^ 2))⁻¹ * (√(2 * Real.pi * sigma ^ 2))⁻¹ = 1 / (2 * Real.pi * sigma ^ 2) := by
    rw [← mul_inv, Real.mul_self_sqrt (by positivity), one_div]
  rw [← h1]
  have h2 : Real.exp (-(z.1 ^ 2 + z.2 ^ 2) / (2 * sigma ^ 2)) = Real.exp (-(z.1 - 0) ^ 2 / (2 * sigma ^ 2)) * Real.exp (-(z.2 - 0) ^ 2 / (2 * sigma ^ 2)) := by
    rw [← Real.exp_add]; congr 1; ring
  rw [h2]; ring

/-- **C154** `GaussSource`: with normal offsets of width `sigma` in both coordinates, the part of the photons within the radius `rho` (in the plane of the offsets) is
`1 - exp(-rho^2 / (2 sigma^2))`, the Gaussian brightness profile. -/
theorem C154_gauss_profile (sigma rho : ℝ) (hs : sigma ≠ 0) (hr : 0 ≤ rho) :
    (normalNumber sigma).prod (normalNumber sigma) {z | Real.sqrt (z.1 ^ 2 + z.2 ^ 2) ≤ rho} = ENNReal.ofReal (1 - Real.exp (-rho ^ 2 / (2 * sigma ^ 2))) := by
  set c := 1 / (2 * Real.pi * sigma ^ 2) with hc
  have hc0 : 0 < c := by rw [hc]; positivity
  have hm : MeasurableSet {z : ℝ × ℝ | Real.sqrt (z.1 ^ 2 + z.2 ^ 2) ≤ rho} := measurableSet_le (by fun_prop) measurable_const
  rw [normal_prod hs, withDensity_apply _ hm, ← lintegral_indicator hm, ← lintegral_comp_polarCoord_symm, polarCoord_target]
  have h1 : ∫⁻ p in Ioi (0 : ℝ) ×ˢ Ioo (-Real.pi) Real.pi, ENNReal.ofReal p.1 • ({z : ℝ × ℝ | Real.sqrt (z.1 ^ 2 + z.2 ^ 2) ≤ rho}.indicator
        (fun z => ENNReal.ofReal (c * Real.exp (-(z.1 ^ 2 + z.2 ^ 2) / (2 * sigma ^ 2))))) (polarCoord.symm p) =
      ∫⁻ p in Ioi (0 : ℝ) ×ˢ Ioo (-Real.pi) Real.pi, (Iic rho).indicator (fun r => ENNReal.ofReal (c * (r * Real.exp (-r ^ 2 / (2 * sigma ^ 2))))) p.1 * 1 := by
    refine setLIntegral_congr_fun (measurableSet_Ioi.prod measurableSet_Ioo) fun p hp => ?_
    have hp1 : 0 < p.1 := hp.1
    have e : (p.1 * Real.cos p.2) ^ 2 + (p.1 * Real.sin p.2) ^ 2 = p.1 ^ 2 := by
      have := Real.sin_sq_add_cos_sq p.2
      linear_combination p.1 ^ 2 * this
    simp only [polarCoord_symm_apply, indicator, mem_setOf_eq, e, Real.sqrt_sq hp1.le, mem_Iic, mul_one, smul_eq_mul]
    split_ifs
    · rw [← ENNReal.ofReal_mul hp1.le]; congr 1; ring
    · rw [mul_zero]
  have hmeas : Measurable fun r : ℝ => (Iic rho).indicator (fun r => ENNReal.ofReal (c * (r * Real.exp (-r ^ 2 / (2 * sigma ^ 2))))) r :=
    Measurable.indicator (by fun_prop) measurableSet_Iic
  rw [h1, Measure.volume_eq_prod, ← Measure.prod_restrict, lintegral_prod_mul hmeas.aemeasurable measurable_const.aemeasurable, lintegral_one, Measure.restrict_apply_univ,
    Real.volume_Ioo, ← lintegral_indicator measurableSet_Ioi]
  have h2 : ∫⁻ r : ℝ, (Ioi 0).indicator (fun r => (Iic rho).indicator (fun r => ENNReal.ofReal (c * (r * Real.exp (-r ^ 2 / (2 * sigma ^ 2))))) r) r =
      ∫⁻ r in Ioc 0 rho, ENNReal.ofReal (c * (r * Real.exp (-r ^ 2 / (2 * sigma ^ 2)))) := by
    rw [← lintegral_indicator measurableSet_Ioc]
    apply lintegral_congr
    intro r
    simp only [indicator, mem_Ioi, mem_Iic, mem_Ioc]
    by_cases a : 0 < r <;> by_cases b : r ≤ rho <;> simp [a, b]
  have hcont : Continuous fun r : ℝ => c * (r * Real.exp (-r ^ 2 / (2 * sigma ^ 2))) := by fun_prop
  rw [h2, ← ofReal_integral_eq_lintegral_ofReal ((hcont.integrableOn_Icc).mono_set Ioc_subset_Icc_self) (by
    rw [Filter.EventuallyLE, ae_restrict_iff' measurableSet_Ioc]
    exact Filter.Eventually.of_forall fun r hr => mul_nonneg hc0.le (mul_nonneg hr.1.le (Real.exp_pos _).le)), ← intervalIntegral.integral_of_le hr]
  have h3 : ∀ r : ℝ, HasDerivAt (fun r => -(c * sigma ^ 2 * Real.exp (-r ^ 2 / (2 * sigma ^ 2)))) (c * (r * Real.exp (-r ^ 2 / (2 * sigma ^ 2)))) r := by
    intro r
    have h4 : HasDerivAt (fun r : ℝ => -r ^ 2 / (2 * sigma ^ 2)) (-(2 * r) / (2 * sigma ^ 2)) r := by
      have := ((hasDerivAt_pow 2 r).neg).div_const (2 * sigma ^ 2)
      simpa using this
    refine ((h4.exp.const_mul (c * sigma ^ 2)).neg).congr_deriv ?_
    field_simp
  rw [intervalIntegral.integral_eq_sub_of_hasDerivAt (fun r _ => h3 r) (hcont.intervalIntegrable _ _), ← ENNReal.ofReal_mul']
  · congr 1
    rw [hc]
    have := Real.pi_ne_zero
    field_simp
    simp
    ring
  · linarith [Real.pi_pos]

/-- Scatter with a width of 1 arcsec for photons that come down the axis: the hypotheses are met and the angle is not larger than `alpha` for more than no photon. -/
example (alpha : ℝ) (h : 0 < alpha) (h2 : alpha ≤ Real.pi) :
    0 < scatterNumbers (Real.pi / 180 / 3600) {q | ScattersInto ⟨-1, 0, 0, 0⟩ ⟨0, 1, 0, 0⟩ {v | offAngle ⟨-1, 0, 0⟩ v ≤ alpha} q} ∧
    0 < scatterNumbers (Real.pi / 180 / 3600) {q | JittersInto ⟨-1, 0, 0, 0⟩ ⟨0, 1, 0, 0⟩ {v | offAngle ⟨-1, 0, 0⟩ v ≤ alpha} q} := by
  have hpi := Real.pi_pos
  have hv : ((Real.pi / 180 / 3600) ^ 2).toNNReal ≠ 0 := by
    simp only [ne_eq, Real.toNNReal_eq_zero, not_le]; positivity
  have h3 : 0 < normalNumber (Real.pi / 180 / 3600) (Icc (-alpha) alpha) := by
    have : (volume (Icc (-alpha) alpha)) ≠ 0 := by rw [Real.volume_Icc]; simp; linarith
    rw [pos_iff_ne_zero]
    intro h0
    exact this (gaussianReal_absolutelyContinuous' 0 hv h0)
  have h0 : (⟨-1, 0, 0, 0⟩ : H4).xyz ≠ 0 := by
    intro h; have := congrArg V3.x h; simp [H4.xyz] at this
  exact ⟨h3.trans_le (C154_scatter_angle _ ⟨-1, 0, 0, 0⟩ ⟨0, 1, 0, 0⟩ h0 alpha h.le h2).2,
    h3.trans_le (C154_jitter_angle _ ⟨-1, 0, 0, 0⟩ ⟨0, 1, 0, 0⟩ (by norm_num) rfl rfl alpha h.le h2).2⟩

end Marxs
