import Verif.Model.Osip

/-!
# The normal distribution function
-/

namespace Marxs

open ProbabilityTheory Filter Topology MeasureTheory

theorem normCdf_nonneg (x : ℝ) : 0 ≤ normCdf x := cdf_nonneg _ x

theorem normCdf_le_one (x : ℝ) : normCdf x ≤ 1 := cdf_le_one _ x

theorem normCdf_mono : Monotone normCdf := monotone_cdf _

theorem normCdf_strictMono : StrictMono normCdf := by
  refine normCdf_mono.strictMono_of_injective ?_
  have key : ∀ a b : ℝ, a < b → normCdf a ≠ normCdf b := by
    intro a b hab he
    have h1 : (cdf (gaussianReal 0 1)).measure (Set.Ioc a b) = 0 := by
      rw [StieltjesFunction.measure_Ioc, ENNReal.ofReal_eq_zero]
      have : cdf (gaussianReal 0 1) a = cdf (gaussianReal 0 1) b := he
      linarith
    rw [measure_cdf] at h1
    have h2 := gaussianReal_absolutelyContinuous' 0 one_ne_zero h1
    rw [Real.volume_Ioc, ENNReal.ofReal_eq_zero] at h2
    linarith
  intro a b he
  by_contra hne
  rcases lt_or_gt_of_ne hne with h | h
  · exact key a b h he
  · exact key b a h he.symm

theorem normCdf_atTop : Tendsto normCdf atTop (𝓝 1) := tendsto_cdf_atTop _

theorem normCdf_atBot : Tendsto normCdf atBot (𝓝 0) := tendsto_cdf_atBot _

theorem normCdf_continuous : Continuous normCdf := by
  rw [continuous_iff_continuousAt]
  intro x
  have hm := monotone_cdf (gaussianReal 0 1)
  have h1 : (cdf (gaussianReal 0 1)).measure {x} = 0 := by
    rw [measure_cdf]
    haveI := nullSingletonClass_gaussianReal (μ := 0) (v := 1) one_ne_zero
    exact measure_singleton x
  rw [StieltjesFunction.measure_singleton, ENNReal.ofReal_eq_zero] at h1
  have h2 : Function.leftLim (cdf (gaussianReal 0 1)) x ≤ cdf (gaussianReal 0 1) x :=
    hm.leftLim_le le_rfl
  have h3 : Function.leftLim (cdf (gaussianReal 0 1)) x = cdf (gaussianReal 0 1) x := by linarith
  have h4 : ContinuousAt (cdf (gaussianReal 0 1)) x := by
    rw [hm.continuousAt_iff_leftLim_eq_rightLim, h3, StieltjesFunction.rightLim_eq]
  exact h4

theorem exists_normCdf {p : ℝ} (h0 : 0 < p) (h1 : p < 1) : ∃ x, normCdf x = p := by
  have ha : ∃ a, normCdf a ≤ p := by
    have := (normCdf_atBot.eventually (gt_mem_nhds h0)).exists
    exact this.imp fun _ h => le_of_lt h
  have hb : ∃ b, p ≤ normCdf b := by
    have := (normCdf_atTop.eventually (lt_mem_nhds h1)).exists
    exact this.imp fun _ h => le_of_lt h
  exact mem_range_of_exists_le_of_exists_ge normCdf_continuous ha hb

theorem ppf_set {p : ℝ} (h0 : 0 < p) (h1 : p < 1) :
    {x | p ≤ normCdf x}.Nonempty ∧ BddBelow {x | p ≤ normCdf x} := by
  obtain ⟨x, hx⟩ := exists_normCdf h0 h1
  refine ⟨⟨x, hx.ge⟩, ?_⟩
  obtain ⟨y, hy⟩ := exists_normCdf (half_pos h0) (by linarith)
  refine ⟨y, ?_⟩
  intro z hz
  by_contra hlt
  have h3 := normCdf_mono (not_le.1 hlt).le
  have : p ≤ normCdf z := hz
  linarith

theorem normCdf_ppf {p : ℝ} (h0 : 0 < p) (h1 : p < 1) : normCdf (normPpf p) = p := by
  obtain ⟨hne, hbd⟩ := ppf_set h0 h1
  have hcl : IsClosed {x | p ≤ normCdf x} := isClosed_le continuous_const normCdf_continuous
  have h2 : p ≤ normCdf (normPpf p) := hcl.csInf_mem hne hbd
  obtain ⟨x, hx⟩ := exists_normCdf h0 h1
  have h3 : normPpf p ≤ x := csInf_le hbd hx.ge
  have := normCdf_mono h3
  linarith

theorem ppf_mono {p q : ℝ} (h0 : 0 < p) (h : p ≤ q) (h1 : q < 1) : normPpf p ≤ normPpf q := by
  refine csInf_le_csInf (ppf_set h0 (by linarith)).2 (ppf_set (by linarith) h1).1 ?_
  intro x hx
  exact h.trans hx

end Marxs
