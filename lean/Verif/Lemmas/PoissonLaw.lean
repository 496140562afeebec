import Mathlib.Probability.Distributions.Exponential
import Mathlib.Probability.Independence.Basic
import Mathlib.MeasureTheory.Integral.IntervalIntegral.FundThmCalculus
import Mathlib.Analysis.SpecialFunctions.Integrals.Basic
import Verif.Spec.PoissonLaw

/-!
# Sums of exponential waiting times (for C153)
-/

namespace Marxs

open MeasureTheory ProbabilityTheory Set

/-- Tail of the distribution of the sum of `n` waiting times. -/
noncomputable def erlangTail (r : ℝ) (n : ℕ) (t : ℝ) : ℝ :=
  ∑ k ∈ Finset.range n, Real.exp (-(r * t)) * (r * t) ^ k / (k.factorial : ℝ)

theorem erlangTail_nonneg {r t : ℝ} (hr : 0 < r) (ht : 0 ≤ t) (n : ℕ) : 0 ≤ erlangTail r n t := by
  unfold erlangTail
  positivity

theorem erlangTail_step {r t : ℝ} (n : ℕ) :
    (∫ y in (0 : ℝ)..t, r * Real.exp (-(r * y)) * erlangTail r n (t - y)) + Real.exp (-(r * t)) = erlangTail r (n + 1) t := by
  have h1 : ∀ y, r * Real.exp (-(r * y)) * erlangTail r n (t - y) =
      ∑ k ∈ Finset.range n, r * Real.exp (-(r * t)) * ((r * (t - y)) ^ k / (k.factorial : ℝ)) := by
    intro y
    rw [erlangTail, Finset.mul_sum]
    apply Finset.sum_congr rfl
    intro k _
    have : Real.exp (-(r * t)) = Real.exp (-(r * y)) * Real.exp (-(r * (t - y))) := by
      rw [← Real.exp_add]; congr 1; ring
    rw [this]; ring
  simp_rw [h1]
  rw [intervalIntegral.integral_finset_sum]
  · have h2 : ∀ k : ℕ, (∫ y in (0 : ℝ)..t, r * Real.exp (-(r * t)) * ((r * (t - y)) ^ k / (k.factorial : ℝ))) =
        Real.exp (-(r * t)) * (r * t) ^ (k + 1) / ((k + 1).factorial : ℝ) := by
      intro k
      have h3 : ∀ y : ℝ, HasDerivAt (fun y => - (Real.exp (-(r * t)) * (r * (t - y)) ^ (k + 1) / ((k + 1).factorial : ℝ)))
          (r * Real.exp (-(r * t)) * ((r * (t - y)) ^ k / (k.factorial : ℝ))) y := by
        intro y
        have h4 : HasDerivAt (fun y : ℝ => r * (t - y)) (-r) y := by
          simpa using ((hasDerivAt_id y).const_sub t).const_mul r
        have h5 := ((h4.pow (k + 1)).const_mul (Real.exp (-(r * t)))).div_const ((k + 1).factorial : ℝ)
        refine h5.neg.congr_deriv ?_
        rw [Nat.factorial_succ]
        push_cast
        have : (k.factorial : ℝ) ≠ 0 := by positivity
        have : (k : ℝ) + 1 ≠ 0 := by positivity
        field_simp
      rw [intervalIntegral.integral_eq_sub_of_hasDerivAt (fun y _ => h3 y)]
      · simp
      · apply Continuous.intervalIntegrable; fun_prop
    simp_rw [h2]
    rw [erlangTail, Finset.sum_range_succ']
    simp
  · intro k _
    apply Continuous.intervalIntegrable; fun_prop

theorem expMeasure_eq (r : ℝ) : expMeasure r = volume.withDensity (exponentialPDF r) := rfl

theorem exp_Ici {r t : ℝ} (hr : 0 < r) (ht : 0 ≤ t) : expMeasure r (Ici t) = ENNReal.ofReal (Real.exp (-(r * t))) := by
  haveI := isProbabilityMeasure_expMeasure hr
  have h1 : expMeasure r (Ici t) = expMeasure r (Ioi t) := by
    haveI : NullSingletonClass (expMeasure r) := by rw [expMeasure_eq]; infer_instance
    exact (measure_congr Ioi_ae_eq_Ici).symm
  rw [h1, ← compl_Iic, prob_compl_eq_one_sub measurableSet_Iic, ← ofReal_cdf, cdf_expMeasure_eq hr, if_pos ht, ← ENNReal.ofReal_one,
    ← ENNReal.ofReal_sub _ (by rw [sub_nonneg, Real.exp_le_one_iff]; nlinarith [mul_nonneg hr.le ht])]
  congr 1; ring

theorem exp_Iio {r : ℝ} : expMeasure r (Iio 0) = 0 := by
  rw [expMeasure_eq, withDensity_apply _ measurableSet_Iio]
  rw [setLIntegral_congr_fun measurableSet_Iio (g := fun _ => 0) (fun x hx => exponentialPDF_of_neg hx)]
  simp

theorem waiting_nonneg {Ω : Type} [MeasurableSpace Ω] {P : Measure Ω} {r : ℝ} {s : ℕ → Ω → ℝ} (h : IsWaiting P r s) (hr : 0 < r) :
    ∀ᵐ ω ∂P, ∀ i, 0 < s i ω := by
  rw [ae_all_iff]
  intro i
  have h1 : P {ω | ¬ 0 < s i ω} = expMeasure r (Iic 0) := by
    rw [← h.2.1 i, Measure.map_apply (h.1 i) measurableSet_Iic]
    congr 1; ext ω; simp
  have h2 : expMeasure r (Iic 0) = 0 := by
    haveI : NullSingletonClass (expMeasure r) := by rw [expMeasure_eq]; infer_instance
    rw [← measure_congr (Iio_ae_eq_Iic (μ := expMeasure r) (a := (0 : ℝ)))]
    exact exp_Iio
  exact h1.trans h2

theorem waiting_tail {Ω : Type} [MeasurableSpace Ω] {P : Measure Ω} [IsProbabilityMeasure P] {r : ℝ} {s : ℕ → Ω → ℝ} (h : IsWaiting P r s) (hr : 0 < r) :
    ∀ (n : ℕ) (t : ℝ), 0 < t → P {ω | t ≤ ∑ i ∈ Finset.range n, s i ω} = ENNReal.ofReal (erlangTail r n t)
  | 0, t, ht => by simp [erlangTail, not_le.2 ht]
  | n + 1, t, ht => by
    have hS : Measurable fun ω => ∑ i ∈ Finset.range n, s i ω := Finset.measurable_sum _ fun i _ => h.1 i
    have hind : IndepFun (fun ω => ∑ i ∈ Finset.range n, s i ω) (s n) P := by
      have := h.2.2.indepFun_finsetSum_of_notMem (fun i => h.1 i) (s := Finset.range n) (i := n) (by simp)
      convert this using 1
      funext ω; simp
    have hprod := (indepFun_iff_map_prod_eq_prod_map_map hS.aemeasurable (h.1 n).aemeasurable).1 hind
    have hm : MeasurableSet {p : ℝ × ℝ | t ≤ p.1 + p.2} := measurableSet_le measurable_const (measurable_fst.add measurable_snd)
    have hneg := waiting_nonneg h hr
    haveI : IsProbabilityMeasure (P.map fun ω => ∑ i ∈ Finset.range n, s i ω) := Measure.isProbabilityMeasure_map hS.aemeasurable
    haveI := isProbabilityMeasure_expMeasure hr
    have h1 : P {ω | t ≤ ∑ i ∈ Finset.range (n + 1), s i ω} =
        ∫⁻ y, P {ω | t - y ≤ ∑ i ∈ Finset.range n, s i ω} ∂(expMeasure r) := by
      have : {ω | t ≤ ∑ i ∈ Finset.range (n + 1), s i ω} =
          (fun ω => (∑ i ∈ Finset.range n, s i ω, s n ω)) ⁻¹' {p : ℝ × ℝ | t ≤ p.1 + p.2} := by
        ext ω; simp [Finset.sum_range_succ]
      rw [this, ← Measure.map_apply (hS.prodMk (h.1 n)) hm, hprod, h.2.1 n, Measure.prod_apply_symm hm]
      apply lintegral_congr
      intro y
      rw [Measure.map_apply hS (hm.preimage (by fun_prop))]
      congr 1; ext ω; simp [sub_le_iff_le_add]
    have hmeas : Measurable fun y => P {ω | t - y ≤ ∑ i ∈ Finset.range n, s i ω} := by
      have : Monotone fun y => P {ω | t - y ≤ ∑ i ∈ Finset.range n, s i ω} := by
        intro y z hyz
        apply measure_mono
        intro ω hω
        simp only [mem_setOf_eq] at hω ⊢
        linarith
      exact this.measurable
    have hbig : ∀ y, t ≤ y → P {ω | t - y ≤ ∑ i ∈ Finset.range n, s i ω} = 1 := by
      intro y hy
      rw [← measure_univ (μ := P)]
      apply measure_congr
      filter_upwards [hneg] with ω hω
      apply propext
      show (t - y ≤ ∑ i ∈ Finset.range n, s i ω) ↔ True
      simp only [iff_true]
      have : 0 ≤ ∑ i ∈ Finset.range n, s i ω := Finset.sum_nonneg fun i _ => (hω i).le
      linarith
    rw [h1, ← lintegral_add_compl _ (measurableSet_Iio (a := (0 : ℝ))), setLIntegral_measure_zero _ _ exp_Iio, zero_add, compl_Iio,
      ← Ico_union_Ici_eq_Ici ht.le, lintegral_union measurableSet_Ici (by
        rw [Set.disjoint_left]; intro x hx hx'; exact absurd hx.2 (not_lt.2 hx'))]
    have h2 : ∫⁻ y in Ici t, P {ω | t - y ≤ ∑ i ∈ Finset.range n, s i ω} ∂(expMeasure r) = ENNReal.ofReal (Real.exp (-(r * t))) := by
      rw [setLIntegral_congr_fun measurableSet_Ici (g := fun _ => 1) (fun y hy => hbig y hy), setLIntegral_one, exp_Ici hr ht.le]
    have hcont : Continuous fun y => r * Real.exp (-(r * y)) * erlangTail r n (t - y) := by unfold erlangTail; fun_prop
    have h3 : ∫⁻ y in Ico 0 t, P {ω | t - y ≤ ∑ i ∈ Finset.range n, s i ω} ∂(expMeasure r) =
        ENNReal.ofReal (∫ y in (0 : ℝ)..t, r * Real.exp (-(r * y)) * erlangTail r n (t - y)) := by
      rw [expMeasure_eq, setLIntegral_withDensity_eq_setLIntegral_mul _ (by unfold exponentialPDF; exact (measurable_exponentialPDFReal r).ennreal_ofReal) hmeas measurableSet_Ico,
        setLIntegral_congr_fun measurableSet_Ico (g := fun y => ENNReal.ofReal (r * Real.exp (-(r * y)) * erlangTail r n (t - y))) (fun y hy => ?_),
        intervalIntegral.integral_of_le ht.le, ← integral_Ico_eq_integral_Ioc]
      · rw [ofReal_integral_eq_lintegral_ofReal]
        · exact (hcont.integrableOn_Icc).mono_set Ico_subset_Icc_self
        · rw [Filter.EventuallyLE, ae_restrict_iff' measurableSet_Ico]
          refine Filter.Eventually.of_forall fun y hy => ?_
          exact mul_nonneg (by positivity) (erlangTail_nonneg hr (by linarith [hy.2]) n)
      · simp only [Pi.mul_apply]
        rw [exponentialPDF_of_nonneg hy.1, waiting_tail h hr n (t - y) (by linarith [hy.2]), ← ENNReal.ofReal_mul (by positivity)]
    rw [h2, h3, ← ENNReal.ofReal_add _ (by positivity), erlangTail_step]
    exact intervalIntegral.integral_nonneg ht.le fun y hy => mul_nonneg (by positivity) (erlangTail_nonneg hr (by linarith [hy.2]) n)

end Marxs
