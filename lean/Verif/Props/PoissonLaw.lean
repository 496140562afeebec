import Mathlib.Analysis.Calculus.Deriv.MeanValue
import Mathlib.Probability.Distributions.Poisson.Basic
import Mathlib.Probability.ProductMeasure
import Mathlib.Probability.Independence.InfinitePi
import Mathlib.Analysis.Complex.ExponentialBounds
import Verif.Lemmas.PoissonLaw
import Verif.Props.Source

/-!
# C153: the number of photons from a Poisson source

`poisson_process` promises "Poisson distributed times".  The stream of arrival times it draws from is a Poisson process (`C153_arrivals`), but the function does not
return for a part of all random numbers (`C153_hang_bound`, `C153_poisson_false`); the numbers it does return are thus only bounded by the Poisson distribution
(`C153_returned_partial`).
-/

namespace Marxs

open MeasureTheory ProbabilityTheory Set

theorem encard_initial {A : Set ℕ} (hA : ∀ i j, i ≤ j → j ∈ A → i ∈ A) (n : ℕ) : A.encard = n ↔ (∀ k < n, k ∈ A) ∧ n ∉ A := by
  have hI : ∀ k : ℕ, (Iio k).encard = (k : ℕ∞) := by
    intro k
    have : Iio k = ((Finset.range k : Finset ℕ) : Set ℕ) := by ext; simp
    rw [this, Set.encard_coe_eq_coe_finsetCard, Finset.card_range]
  constructor
  · intro h
    have hn : n ∉ A := by
      intro hn
      have h1 : Iio (n + 1) ⊆ A := fun k hk => hA k n (by simpa [Nat.lt_succ_iff] using hk) hn
      have h2 := encard_le_encard h1
      rw [hI, h] at h2
      exact absurd (by exact_mod_cast h2) (Nat.not_succ_le_self n)
    refine ⟨fun k hk => ?_, hn⟩
    by_contra hc
    have h1 : A ⊆ Iio k := fun j hj => by
      by_contra hj'
      exact hc (hA k j (not_lt.1 hj') hj)
    have h2 := encard_le_encard h1
    rw [hI, h] at h2
    have : n ≤ k := by exact_mod_cast h2
    omega
  · rintro ⟨h1, h2⟩
    have : A = Iio n := by
      ext k
      refine ⟨fun hk => ?_, fun hk => h1 k hk⟩
      by_contra hc
      exact h2 (hA n k (not_lt.1 hc) hk)
    rw [this, hI]

theorem arrivals_initial {s : ℕ → ℝ} (hs : ∀ i, 0 < s i) (T : ℝ) (i j : ℕ) (hij : i ≤ j) (hj : j ∈ arrivalsBefore s T) : i ∈ arrivalsBefore s T := by
  simp only [arrivalsBefore, mem_setOf_eq] at hj ⊢
  refine lt_of_le_of_lt ?_ hj
  exact Finset.sum_le_sum_of_subset_of_nonneg (by simpa using hij) fun k _ _ => (hs k).le

theorem arrivals_card {s : ℕ → ℝ} (hs : ∀ i, 0 < s i) {T : ℝ} (hT : 0 < T) (n : ℕ) :
    (arrivalsBefore s T).encard = n ↔ (∑ i ∈ Finset.range n, s i < T ∧ T ≤ ∑ i ∈ Finset.range (n + 1), s i) := by
  rw [encard_initial (arrivals_initial hs T)]
  constructor
  · rintro ⟨h1, h2⟩
    refine ⟨?_, not_lt.1 h2⟩
    cases n with
    | zero => simpa using hT
    | succ n => exact h1 n (by omega)
  · rintro ⟨h1, h2⟩
    refine ⟨fun k hk => ?_, not_lt.2 h2⟩
    cases n with
    | zero => omega
    | succ n => exact arrivals_initial hs T k n (by omega) h1

/-- **C153** The number of arrivals before the end of the exposure has the Poisson distribution with mean `rate * T`. -/
theorem C153_arrivals {Ω : Type} [MeasurableSpace Ω] (P : Measure Ω) [IsProbabilityMeasure P] (rate T : ℝ) (hr : 0 < rate) (hT : 0 < T) (s : ℕ → Ω → ℝ)
    (h : IsWaiting P rate s) (n : ℕ) :
    P {ω | (arrivalsBefore (fun i => s i ω) T).encard = n} = poissonMeasure (rate * T).toNNReal {n} := by
  have hpos := waiting_nonneg h hr
  have hS : ∀ n, Measurable fun ω => ∑ i ∈ Finset.range n, s i ω := fun n => Finset.measurable_sum _ fun i _ => h.1 i
  have h1 : P {ω | (arrivalsBefore (fun i => s i ω) T).encard = n} =
      P ({ω | T ≤ ∑ i ∈ Finset.range (n + 1), s i ω} \ {ω | T ≤ ∑ i ∈ Finset.range n, s i ω}) := by
    apply measure_congr
    filter_upwards [hpos] with ω hω
    apply propext
    refine (arrivals_card hω hT n).trans ?_
    constructor
    · rintro ⟨a, b⟩; exact ⟨b, not_le.2 a⟩
    · rintro ⟨a, b⟩; exact ⟨not_le.1 b, a⟩
  have h2 : P ({ω | T ≤ ∑ i ∈ Finset.range (n + 1), s i ω} ∩ {ω | T ≤ ∑ i ∈ Finset.range n, s i ω}) = P {ω | T ≤ ∑ i ∈ Finset.range n, s i ω} := by
    apply measure_congr
    filter_upwards [hpos] with ω hω
    apply propext
    constructor
    · rintro ⟨_, b⟩; exact b
    · intro b
      refine ⟨?_, b⟩
      have b' : T ≤ ∑ i ∈ Finset.range n, s i ω := b
      show T ≤ ∑ i ∈ Finset.range (n + 1), s i ω
      rw [Finset.sum_range_succ]
      linarith [hω n]
  have h3 := measure_diff_add_inter (μ := P) (t := {ω | T ≤ ∑ i ∈ Finset.range n, s i ω}) {ω | T ≤ ∑ i ∈ Finset.range (n + 1), s i ω} (measurableSet_le measurable_const (hS n))
  rw [h2, waiting_tail h hr _ _ hT, waiting_tail h hr _ _ hT] at h3
  have h4 : P {ω | (arrivalsBefore (fun i => s i ω) T).encard = n} = ENNReal.ofReal (erlangTail rate (n + 1) T) - ENNReal.ofReal (erlangTail rate n T) := by
    rw [h1, ← h3, ENNReal.add_sub_cancel_right ENNReal.ofReal_ne_top]
  rw [h4, ← ENNReal.ofReal_sub _ (erlangTail_nonneg hr hT.le n), poissonMeasure_singleton, erlangTail, Finset.sum_range_succ,
    Real.coe_toNNReal _ (mul_pos hr hT).le]
  congr 1
  simp [erlangTail]

theorem returned_length {rate T : ℝ} {s : ℕ → ℝ} (hs : ∀ i, 0 < s i) {ts : List ℝ} (h : PoissonReturns rate T s ts) :
    (arrivalsBefore s T).encard = ts.length := by
  obtain ⟨fuel, h⟩ := h
  obtain ⟨m, rfl, hm, -, -⟩ := C31_poisson rate T s hs fuel ts h
  rw [encard_initial (arrivals_initial hs T)]
  simp only [List.length_map, List.length_range, arrivalsBefore, mem_setOf_eq]
  simp only [arrival] at hm
  exact ⟨fun k hk => (hm k).1 hk, fun hc => lt_irrefl _ ((hm m).2 hc)⟩

/-- **C153** (missing: the function returns) The number of photons that `poisson_process` returns: `n` photons are returned at most as often as in a Poisson distribution
with mean `rate * T`, and what is missing is not more than the runs that never return. -/
theorem C153_returned_partial {Ω : Type} [MeasurableSpace Ω] (P : Measure Ω) [IsProbabilityMeasure P] (rate T : ℝ) (hr : 0 < rate) (hT : 0 < T) (s : ℕ → Ω → ℝ)
    (h : IsWaiting P rate s) (n : ℕ) :
    P {ω | ∃ ts, PoissonReturns rate T (fun i => s i ω) ts ∧ ts.length = n} ≤ poissonMeasure (rate * T).toNNReal {n} ∧
    poissonMeasure (rate * T).toNNReal {n} ≤
      P {ω | ∃ ts, PoissonReturns rate T (fun i => s i ω) ts ∧ ts.length = n} + P {ω | PoissonHangs rate T (fun i => s i ω)} := by
  have hpos := waiting_nonneg h hr
  rw [← C153_arrivals P rate T hr hT s h n]
  constructor
  · apply measure_mono_ae
    filter_upwards [hpos] with ω hω
    rintro ⟨ts, h1, rfl⟩
    exact returned_length hω h1
  · refine le_trans (measure_mono_ae ?_) (measure_union_le _ _)
    filter_upwards [hpos] with ω hω
    intro h1
    by_cases hh : PoissonHangs rate T (fun i => s i ω)
    · exact Or.inr hh
    · left
      simp only [PoissonHangs, not_forall] at hh
      obtain ⟨fuel, hf⟩ := hh
      obtain ⟨ts, hts⟩ := Option.ne_none_iff_exists'.1 hf
      refine ⟨ts, ⟨fuel, hts⟩, ?_⟩
      have h2 := returned_length hω ⟨fuel, hts⟩
      have h1' : (arrivalsBefore (fun i => s i ω) T).encard = n := h1
      rw [h1'] at h2
      exact_mod_cast h2.symm

theorem erlangTail_deriv (r : ℝ) (n : ℕ) (t : ℝ) : HasDerivAt (erlangTail r (n + 1)) (-(r * (Real.exp (-(r * t)) * (r * t) ^ n / (n.factorial : ℝ)))) t := by
  induction n with
  | zero =>
    have h1 : erlangTail r (0 + 1) = fun t => Real.exp (-(r * t)) := by funext t; simp [erlangTail]
    rw [h1]
    refine (((hasDerivAt_id t).const_mul r).neg.exp).congr_deriv ?_
    simp; ring
  | succ n ih =>
    have h1 : erlangTail r (n + 1 + 1) = fun t => erlangTail r (n + 1) t + Real.exp (-(r * t)) * (r * t) ^ (n + 1) / ((n + 1).factorial : ℝ) := by
      funext t; rw [erlangTail, Finset.sum_range_succ, erlangTail]
    rw [h1]
    have h2 : HasDerivAt (fun t : ℝ => Real.exp (-(r * t))) (-(r * Real.exp (-(r * t)))) t := by
      refine (((hasDerivAt_id t).const_mul r).neg.exp).congr_deriv ?_
      simp; ring
    have h3 : HasDerivAt (fun t : ℝ => r * t) r t := by simpa using (hasDerivAt_id t).const_mul r
    refine (ih.add ((h2.mul (h3.pow (n + 1))).div_const ((n + 1).factorial : ℝ))).congr_deriv ?_
    rw [Nat.factorial_succ]
    push_cast
    have : (n.factorial : ℝ) ≠ 0 := by positivity
    have : (n : ℝ) + 1 ≠ 0 := by positivity
    field_simp
    simp

theorem erlangTail_strictAnti {r : ℝ} (hr : 0 < r) (n : ℕ) : StrictAntiOn (erlangTail r (n + 1)) (Ici 0) := by
  apply strictAntiOn_of_deriv_neg (convex_Ici 0)
  · exact fun x _ => (erlangTail_deriv r n x).continuousAt.continuousWithinAt
  · intro x hx
    rw [interior_Ici] at hx
    have hx' : 0 < x := hx
    rw [(erlangTail_deriv r n x).deriv]
    have : 0 < r * (Real.exp (-(r * x)) * (r * x) ^ n / (n.factorial : ℝ)) := by positivity
    linarith

/-- **C153** How often `poisson_process` does not return: the first round ends less than `1 / (1.1 * rate)` before the end of the exposure, then no further numbers are
drawn. For `n = int(1.1 * rate * T)` numbers in the first round this happens at least as often as `n` photons arrive until then in one Poisson process, but not in
one with `1 / 1.1` photons less. -/
theorem C153_hang_bound {Ω : Type} [MeasurableSpace Ω] (P : Measure Ω) [IsProbabilityMeasure P] (rate T : ℝ) (hr : 0 < rate) (hT : 1 ≤ T * rate * 1.1) (s : ℕ → Ω → ℝ)
    (h : IsWaiting P rate s) :
    ENNReal.ofReal (∑ k ∈ Finset.range ⌊T * rate * 1.1⌋₊, (poissonWeight (rate * T - 1 / 1.1) k - poissonWeight (rate * T) k)) ≤
      P {ω | PoissonHangs rate T (fun i => s i ω)} := by
  set n := ⌊T * rate * 1.1⌋₊ with hn
  have hn1 : 1 ≤ n := Nat.le_floor (by simpa using hT)
  have hTpos : 0 < T := by
    by_contra hc
    push Not at hc
    nlinarith [mul_nonneg (neg_nonneg.2 hc) hr.le]
  set a := T - 1 / (1.1 * rate) with ha
  have hra : rate * a = rate * T - 1 / 1.1 := by rw [ha]; field_simp
  have ha0 : 0 ≤ a := by
    have : 0 ≤ rate * a := by rw [hra]; norm_num at hT ⊢; linarith
    exact (mul_nonneg_iff_of_pos_left hr).1 this
  have haT : a < T := by rw [ha]; have : 0 < 1 / (1.1 * rate) := by positivity
                         linarith
  have hsum : ∑ k ∈ Finset.range n, (poissonWeight (rate * T - 1 / 1.1) k - poissonWeight (rate * T) k) = erlangTail rate n a - erlangTail rate n T := by
    rw [Finset.sum_sub_distrib, ← hra]; rfl
  rw [hsum]
  have hS : ∀ n, Measurable fun ω => ∑ i ∈ Finset.range n, s i ω := fun n => Finset.measurable_sum _ fun i _ => h.1 i
  have key : ∀ b, a < b → b < T → ENNReal.ofReal (erlangTail rate n b - erlangTail rate n T) ≤ P {ω | PoissonHangs rate T (fun i => s i ω)} := by
    intro b hab hbT
    have h1 : P ({ω | b ≤ ∑ i ∈ Finset.range n, s i ω} \ {ω | T ≤ ∑ i ∈ Finset.range n, s i ω}) =
        ENNReal.ofReal (erlangTail rate n b - erlangTail rate n T) := by
      have hsub : {ω | T ≤ ∑ i ∈ Finset.range n, s i ω} ⊆ {ω | b ≤ ∑ i ∈ Finset.range n, s i ω} := fun ω (hω : T ≤ _) => hbT.le.trans hω
      rw [measure_diff hsub (measurableSet_le measurable_const (hS n)).nullMeasurableSet (measure_ne_top _ _),
        waiting_tail h hr n b (ha0.trans_lt hab), waiting_tail h hr n T hTpos, ← ENNReal.ofReal_sub _ (erlangTail_nonneg hr hTpos.le n)]
    rw [← h1]
    apply measure_mono
    rintro ω ⟨h2, h3⟩
    have h2' : b ≤ ∑ i ∈ Finset.range n, s i ω := h2
    have h3' : ∑ i ∈ Finset.range n, s i ω < T := not_le.1 h3
    intro fuel
    apply C31_never_returns rate T _ h3'
    have h4 : (T - ∑ i ∈ Finset.range n, s i ω) * (1.1 * rate) < 1 := by
      have h5 : T - ∑ i ∈ Finset.range n, s i ω < 1 / (1.1 * rate) := by rw [ha] at hab; linarith
      rwa [lt_div_iff₀ (by positivity)] at h5
    calc _ = (T - ∑ i ∈ Finset.range n, s i ω) * (1.1 * rate) := by ring
      _ < 1 := h4
  have hc : Continuous (erlangTail rate n) := by unfold erlangTail; fun_prop
  have hlim : Filter.Tendsto (fun b => ENNReal.ofReal (erlangTail rate n b - erlangTail rate n T)) (nhdsWithin a (Ioi a))
      (nhds (ENNReal.ofReal (erlangTail rate n a - erlangTail rate n T))) :=
    (ENNReal.continuous_ofReal.tendsto _).comp (((hc.sub continuous_const).tendsto a).mono_left nhdsWithin_le_nhds)
  refine le_of_tendsto hlim ?_
  filter_upwards [Ioo_mem_nhdsGT haT] with b hb
  exact key b hb.1 hb.2

/-- **C153** For every rate and exposure time, a part of the runs never returns; thus the number of returned photons is not Poisson distributed. -/
theorem C153_poisson_false {Ω : Type} [MeasurableSpace Ω] (P : Measure Ω) [IsProbabilityMeasure P] (rate T : ℝ) (hr : 0 < rate) (hT : 0 < T) (s : ℕ → Ω → ℝ)
    (h : IsWaiting P rate s) : 0 < P {ω | PoissonHangs rate T (fun i => s i ω)} := by
  by_cases h1 : 1 ≤ T * rate * 1.1
  · refine lt_of_lt_of_le ?_ (C153_hang_bound P rate T hr h1 s h)
    rw [ENNReal.ofReal_pos]
    have hf : 1 ≤ ⌊T * rate * 1.1⌋₊ := Nat.le_floor (by simpa using h1)
    obtain ⟨n, hn⟩ : ∃ n, ⌊T * rate * 1.1⌋₊ = n + 1 := ⟨⌊T * rate * 1.1⌋₊ - 1, by omega⟩
    have h2 : ∑ k ∈ Finset.range (n + 1), (poissonWeight (rate * T - 1 / 1.1) k - poissonWeight (rate * T) k) =
        erlangTail rate (n + 1) (T - 1 / (1.1 * rate)) - erlangTail rate (n + 1) T := by
      have : rate * T - 1 / 1.1 = rate * (T - 1 / (1.1 * rate)) := by field_simp
      rw [Finset.sum_sub_distrib, this]; rfl
    rw [hn, h2, sub_pos]
    have h3 : 1 / (1.1 * rate) ≤ T := by rw [div_le_iff₀ (by positivity)]; linarith
    have h4 : 0 < 1 / (1.1 * rate) := by positivity
    exact erlangTail_strictAnti hr n (by simp only [mem_Ici]; linarith) (by simp only [mem_Ici]; exact hT.le) (by linarith)
  · have : {ω | PoissonHangs rate T (fun i => s i ω)} = univ := by
      ext ω
      simp only [mem_setOf_eq, mem_univ, iff_true]
      exact fun fuel => C31_never_returns_short rate T _ hT (not_le.1 h1) fuel
    rw [this, measure_univ]
    exact one_pos

/-- **C153** If one photon is expected, more than half of the calls never return. -/
theorem C153_one_photon_false {Ω : Type} [MeasurableSpace Ω] (P : Measure Ω) [IsProbabilityMeasure P] (rate T : ℝ) (hr : 0 < rate) (hT : rate * T = 1) (s : ℕ → Ω → ℝ)
    (h : IsWaiting P rate s) : ENNReal.ofReal (1 / 2) < P {ω | PoissonHangs rate T (fun i => s i ω)} := by
  have h1 : T * rate = 1 := by rw [mul_comm]; exact hT
  refine lt_of_lt_of_le ?_ (C153_hang_bound P rate T hr (by rw [h1]; norm_num) s h)
  have h2 : ⌊T * rate * 1.1⌋₊ = 1 := by rw [h1, Nat.floor_eq_iff (by norm_num)]; norm_num
  rw [h2, hT]
  simp only [Finset.range_one, Finset.sum_singleton, poissonWeight, pow_zero, Nat.factorial_zero, Nat.cast_one, mul_one, div_one]
  rw [ENNReal.ofReal_lt_ofReal_iff_of_nonneg (by norm_num)]
  have h3 : Real.exp (-1) < 0.37 := by
    have := Real.exp_neg_one_lt_d9; linarith
  have h4 : -(1 - 1 / 1.1 : ℝ) + 1 ≤ Real.exp (-(1 - 1 / 1.1)) := Real.add_one_le_exp _
  norm_num at h4 ⊢
  linarith

/-- Independent exponential waiting times exist. -/
theorem isWaiting_exists {rate : ℝ} (hr : 0 < rate) :
    haveI := isProbabilityMeasure_expMeasure hr
    IsWaiting (Measure.infinitePi fun _ : ℕ => expMeasure rate) rate fun i ω => ω i := by
  haveI := isProbabilityMeasure_expMeasure hr
  refine ⟨fun i => measurable_pi_apply i, fun i => ?_, ?_⟩
  · exact (measurePreserving_eval_infinitePi (fun _ : ℕ => expMeasure rate) i).map_eq
  · exact iIndepFun_infinitePi (P := fun _ : ℕ => expMeasure rate) (X := fun _ x => x) (fun _ => measurable_id)

/-- A source with 0.5 counts per second observed for 100 s: no photon at all arrives with probability exp(-50). -/
example : haveI := isProbabilityMeasure_expMeasure (r := 0.5) (by norm_num)
    (Measure.infinitePi fun _ : ℕ => expMeasure 0.5) {ω : ℕ → ℝ | (arrivalsBefore (fun i => ω i) 100).encard = (0 : ℕ)} = ENNReal.ofReal (Real.exp (-50)) := by
  haveI := isProbabilityMeasure_expMeasure (r := 0.5) (by norm_num)
  refine (C153_arrivals _ 0.5 100 (by norm_num) (by norm_num) (fun i (ω : ℕ → ℝ) => ω i) (isWaiting_exists (by norm_num)) 0).trans ?_
  rw [poissonMeasure_singleton, Real.coe_toNNReal _ (by norm_num)]
  congr 1
  norm_num

end Marxs
