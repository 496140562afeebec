import Mathlib.Probability.Moments.Variance
import Verif.Spec.MultiArea
import Verif.Props.Uniform
import Verif.Props.RandomLaw

/-!
# Property C156: the statistical error of a simulated effective area
-/

namespace Marxs

open MeasureTheory Set ProbabilityTheory Filter

/-- The mean of `n` independent numbers between 0 and 1 is close to the expectation (Chebyshev). -/
theorem iid_mean_bound {T : Type} [MeasurableSpace T] (mu : Measure T) [IsProbabilityMeasure mu] (g : T → ℝ)
    (hg : Measurable g) (hb : ∀ t, 0 ≤ g t ∧ g t ≤ 1) (n : ℕ) (hn : 0 < n) (e : ℝ) (he : 0 < e) :
    (Measure.pi fun _ : Fin n => mu) {q | e ≤ |(∑ k, g (q k)) / n - ∫ t, g t ∂mu|} ≤
      ENNReal.ofReal (1 / (4 * n * e ^ 2)) := by
  have hn' : (0 : ℝ) < n := by exact_mod_cast hn
  have ml : MemLp g 2 mu := memLp_of_bounded (a := 0) (b := 1) (Eventually.of_forall fun t => hb t)
    hg.aestronglyMeasurable 2
  have vg : Var[g; mu] ≤ 1 / 4 := by
    have := variance_le_sq_of_bounded (a := 0) (b := 1) (μ := mu) (Eventually.of_forall fun t => hb t) hg.aemeasurable
    linarith [this]
  set S : (Fin n → T) → ℝ := ∑ i : Fin n, fun q => g (q i) with hS
  have Sa : ∀ q, S q = ∑ k, g (q k) := by intro q; simp [hS]
  have vS : Var[S; Measure.pi fun _ : Fin n => mu] = n * Var[g; mu] := by
    have := variance_sum_pi (ι := Fin n) (μ := fun _ => mu) (X := fun _ => g) (fun _ => ml)
    rw [hS, this]; simp
  have mS : MemLp S 2 (Measure.pi fun _ : Fin n => mu) :=
    memLp_finset_sum' _ fun i _ => ml.comp_measurePreserving (measurePreserving_eval _ i)
  have eS : ∫ q, S q ∂(Measure.pi fun _ : Fin n => mu) = n * ∫ t, g t ∂mu := by
    simp only [Sa]
    rw [integral_finset_sum]
    · have : ∀ i : Fin n, ∫ q : Fin n → T, g (q i) ∂(Measure.pi fun _ : Fin n => mu) = ∫ t, g t ∂mu := by
        intro i
        have h := (measurePreserving_eval (fun _ : Fin n => mu) i).map_eq
        conv_rhs => rw [← h]
        rw [integral_map (measurable_pi_apply i).aemeasurable hg.aestronglyMeasurable]
      simp [this]
    · intro i _
      exact (ml.comp_measurePreserving (measurePreserving_eval (fun _ : Fin n => mu) i)).integrable (by norm_num)
  have ch := meas_ge_le_variance_div_sq mS (c := n * e) (by positivity)
  have sub : {q : Fin n → T | e ≤ |(∑ k, g (q k)) / n - ∫ t, g t ∂mu|} ⊆
      {q | n * e ≤ |S q - ∫ q, S q ∂(Measure.pi fun _ : Fin n => mu)|} := by
    intro q hq
    simp only [mem_setOf_eq] at hq ⊢
    rw [eS, Sa]
    have : (∑ k, g (q k)) - n * ∫ t, g t ∂mu = n * ((∑ k, g (q k)) / n - ∫ t, g t ∂mu) := by
      field_simp
    rw [this, abs_mul, abs_of_pos hn']
    exact mul_le_mul_of_nonneg_left hq hn'.le
  refine (measure_mono sub).trans (ch.trans (ENNReal.ofReal_le_ofReal ?_))
  rw [vS, mul_pow, div_le_div_iff₀ (by positivity) (by positivity)]
  nlinarith [mul_le_mul_of_nonneg_left vg (by positivity : (0:ℝ) ≤ 4 * n ^ 2 * e ^ 2)]

/-- **C156** The statistical error of the effective area of a single aperture. -/
theorem C156_single {E : Type} [MeasurableSpace E] (nu : Measure E)
    [IsProbabilityMeasure nu] (a : Aperture) (hv : a.Valid)
    (ho : a.IsOpen) (ev : ℝ × ℝ → E → DetEvent) (o : ℤ)
    (hm : Measurable fun q : (ℝ × ℝ) × E => orderWeight o (ev q.1 q.2))
    (hb : ∀ p x, 0 ≤ (ev p x).prob ∧ (ev p x).prob ≤ 1) (n : ℕ) (hn : 0 < n) (e : ℝ) (he : 0 < e) :
    (Measure.pi fun _ : Fin n => randomPair.prod nu)
      {q | ¬ ∃ A, effectiveArea (List.ofFn fun k => ev (a.entry (q k).1) (q k).2) [o] n a.area = [A] ∧
        |A - ∫ p in a.opening, ∫ x, orderWeight o (ev p x) ∂nu| < e * a.area} ≤
      ENNReal.ofReal (1 / (4 * n * e ^ 2)) := by
  obtain ⟨hmeas, hai, hmap, hvol⟩ := entry_law a hv ho
  set g : (ℝ × ℝ) × E → ℝ := fun q => orderWeight o (ev (a.entry q.1) q.2) with hg
  have gm : Measurable g := hm.comp ((hmeas.comp measurable_fst).prodMk measurable_snd)
  have gb : ∀ q, 0 ≤ g q ∧ g q ≤ 1 := by
    intro q
    simp only [hg, orderWeight]
    split_ifs
    · exact hb _ _
    · simp
  have hE : ∫ q, g q ∂(randomPair.prod nu) = a.area⁻¹ * ∫ p in a.opening, ∫ x, orderWeight o (ev p x) ∂nu := by
    have gi : Integrable g (randomPair.prod nu) :=
      Integrable.of_bound gm.aestronglyMeasurable 1 (Eventually.of_forall fun q => by
        rw [Real.norm_eq_abs, abs_of_nonneg (gb q).1]; exact (gb q).2)
    rw [integral_prod _ gi]
    have h2 : ∫ u, ∫ x, g (u, x) ∂nu ∂randomPair =
        ∫ p, ∫ x, orderWeight o (ev p x) ∂nu ∂(Measure.map a.entry randomPair) := by
      rw [integral_map hmeas.aemeasurable]
      have := (hm.stronglyMeasurable).integral_prod_right' (ν := nu)
      exact this.aestronglyMeasurable
    rw [h2, hmap, integral_smul_measure]
    simp [ENNReal.toReal_inv, ENNReal.toReal_ofReal hai.le]
  refine (measure_mono ?_).trans (iid_mean_bound (randomPair.prod nu) g gm gb n hn e he)
  intro q hq
  by_contra hc
  apply hq
  simp only [mem_setOf_eq, not_le] at hc
  rw [hE] at hc
  refine ⟨a.area * ((∑ k, g (q k)) / n), ?_, ?_⟩
  · rw [C33_effective_area]
    simp only [List.map_cons, List.map_nil, orderSum, List.map_ofFn, List.sum_ofFn, Function.comp_def, hg,
      orderWeight]
    congr 1
    ring
  · have : a.area * ((∑ k, g (q k)) / n) - ∫ p in a.opening, ∫ x, orderWeight o (ev p x) ∂nu =
        a.area * ((∑ k, g (q k)) / n - a.area⁻¹ * ∫ p in a.opening, ∫ x, orderWeight o (ev p x) ∂nu) := by
      field_simp
    rw [this, abs_mul, abs_of_pos hai, mul_comm]
    exact mul_lt_mul_of_pos_right hc hai

/-- which aperture a number selects -/
theorem sel_lt (areas : List ℝ) (ht : 0 < areas.sum) (r : ℝ) (h0 : 0 ≤ r) (h1 : r < 1) :
    searchsortedRight ((cumsum areas).map (· / areas.sum)) r < areas.length := by
  obtain ⟨-, h, -⟩ := C26_exactly_one areas [r] ht (by simp [h0, h1]) _ (List.Perm.refl _)
  obtain ⟨i, ⟨hi, hm⟩, -⟩ := h 0 (by simp)
  simp only [apertureMask, apertureIds, List.map_cons, List.map_nil, List.getElem?_cons_zero, Option.some.injEq,
    beq_iff_eq] at hm
  rw [hm]; exact hi

/-- The mean over the random selection of an aperture. -/
theorem sel_mean (areas : List ℝ) (hp : ∀ a ∈ areas, 0 ≤ a) (ht : 0 < areas.sum) (G : ℕ → ℝ) :
    ∫ r, G (searchsortedRight ((cumsum areas).map (· / areas.sum)) r) ∂randomNumber =
      ∑ k ∈ Finset.range areas.length, G k * (areas.getD k 0 / areas.sum) := by
  set sel := searchsortedRight ((cumsum areas).map (· / areas.sum)) with hsel
  have h2 : ∀ k (hk : k < areas.length), ∃ c, {r : ℝ | 0 ≤ r ∧ r < 1 ∧ sel r = k} =
      Ico c (c + areas[k] / areas.sum) := by
    intro k hk
    obtain ⟨c, hc⟩ := C26_proportional areas hp ht k hk
    refine ⟨c, ?_⟩
    rw [← hc]
    ext r
    simp [apertureIds, hsel]
  have hind : ∀ r ∈ Ico (0 : ℝ) 1, G (sel r) = ∑ k ∈ Finset.range areas.length,
      G k * ({r : ℝ | 0 ≤ r ∧ r < 1 ∧ sel r = k}.indicator (fun _ => (1 : ℝ)) r) := by
    intro r hr
    have hs := sel_lt areas ht r hr.1 hr.2
    rw [Finset.sum_eq_single_of_mem (sel r) (Finset.mem_range.2 hs)]
    · rw [Set.indicator_of_mem (by exact ⟨hr.1, hr.2, rfl⟩), mul_one]
    · intro k _ hk
      rw [Set.indicator_of_notMem, mul_zero]
      rintro ⟨-, -, h⟩
      exact hk h.symm
  have hmeas : ∀ k ∈ Finset.range areas.length, MeasurableSet {r : ℝ | 0 ≤ r ∧ r < 1 ∧ sel r = k} := by
    intro k hk
    obtain ⟨c, hc⟩ := h2 k (Finset.mem_range.1 hk)
    rw [hc]; exact measurableSet_Ico
  have e : ∫ r, G (sel r) ∂randomNumber = ∫ r, ∑ k ∈ Finset.range areas.length,
      G k * ({r : ℝ | 0 ≤ r ∧ r < 1 ∧ sel r = k}.indicator (fun _ => (1 : ℝ)) r) ∂randomNumber := by
    rw [randomNumber]
    exact setIntegral_congr_fun measurableSet_Ico hind
  rw [e, integral_finset_sum]
  · apply Finset.sum_congr rfl
    intro k hk
    have hk' := Finset.mem_range.1 hk
    obtain ⟨c, hc⟩ := h2 k hk'
    have hm := randomNumber_Ico (A := {r : ℝ | 0 ≤ r ∧ r < 1 ∧ sel r = k}) (c := c) (w := areas[k] / areas.sum)
      (by rw [← hc]; ext r; simp only [mem_setOf_eq]; tauto)
    rw [integral_const_mul, integral_indicator_const _ (hmeas k hk), Measure.real, hm]
    have hnn : 0 ≤ areas[k] / areas.sum := div_nonneg (hp _ (List.getElem_mem hk')) ht.le
    rw [ENNReal.toReal_ofReal hnn, List.getD_eq_getElem _ _ hk', smul_eq_mul, mul_one]
  · intro k hk
    apply Integrable.const_mul
    exact (integrable_const (1 : ℝ)).indicator (hmeas k hk)

/-- The shuffle does not change the distribution. -/
theorem shuffle_law {T : Type} [MeasurableSpace T] (mu : Measure T) [IsProbabilityMeasure mu] (n : ℕ)
    (s : Equiv.Perm (Fin n)) :
    MeasurePreserving (fun (q : (Fin n → ℝ) × (Fin n → T)) k => (q.1 (s k), q.2 k))
      ((Measure.pi fun _ => randomNumber).prod (Measure.pi fun _ => mu))
      (Measure.pi fun _ => randomNumber.prod mu) := by
  have h1 : MeasurePreserving (fun (r : Fin n → ℝ) k => r (s k)) (Measure.pi fun _ => randomNumber)
      (Measure.pi fun _ => randomNumber) := by
    have h := measurePreserving_piCongrLeft (α := fun _ : Fin n => ℝ) (fun _ => randomNumber) s.symm
    have e : (MeasurableEquiv.piCongrLeft (fun _ : Fin n => ℝ) s.symm : (Fin n → ℝ) → Fin n → ℝ) =
        fun r k => r (s k) := by
      funext r k
      have := MeasurableEquiv.piCongrLeft_apply_apply s.symm (β := fun _ : Fin n => ℝ) r (s k)
      simpa using this
    rw [e] at h
    exact h
  have h2 := h1.prod (MeasurePreserving.id (Measure.pi fun _ : Fin n => mu))
  have h3 := (measurePreserving_arrowProdEquivProdArrow ℝ T (Fin n) (fun _ => randomNumber) (fun _ => mu)).symm
  exact h3.comp h2

theorem multiChoice_eq (as : List Aperture) {n : ℕ} (s : Equiv.Perm (Fin n)) (r : Fin n → ℝ) (k : Fin n) :
    multiChoice as s r k =
      searchsortedRight ((cumsum (as.map Aperture.area)).map (· / (as.map Aperture.area).sum)) (r (s k)) := by
  rw [multiChoice, apertureIds, List.map_ofFn, List.getD_eq_getElem _ _ (by simp)]
  simp

/-- **C156** The statistical error of the effective area of several apertures: however the shuffle orders the photons,
the probability that the effective area of a simulation with `n` photons is off by `e` times the geometric area or more
is at most `1 / (4 n e²)`. -/
theorem C156_effective_area {E : Type} [MeasurableSpace E] (nu : Measure E) [IsProbabilityMeasure nu]
    (as : List Aperture) (hne : as ≠ []) (hv : ∀ a ∈ as, a.Valid ∧ a.IsOpen) (ev : ℕ → ℝ × ℝ → E → DetEvent) (o : ℤ)
    (hm : ∀ i, Measurable fun q : (ℝ × ℝ) × E => orderWeight o (ev i q.1 q.2))
    (hb : ∀ i p x, 0 ≤ (ev i p x).prob ∧ (ev i p x).prob ≤ 1) (n : ℕ) (hn : 0 < n) (s : Equiv.Perm (Fin n)) (e : ℝ)
    (he : 0 < e) :
    photonNumbers nu n {q | ¬ ∃ A, effectiveArea (eventsOf as ev s q) [o] n (multiArea as) = [A] ∧
        |A - trueArea nu as ev o| < e * multiArea as} ≤ ENNReal.ofReal (1 / (4 * n * e ^ 2)) := by
  set areas := as.map Aperture.area with hareas
  have apos : ∀ b ∈ areas, 0 < b := by
    intro b hb
    obtain ⟨a, ha, rfl⟩ := List.mem_map.1 hb
    exact (entry_law a (hv a ha).1 (hv a ha).2).2.1
  have ht : 0 < areas.sum := List.sum_pos _ apos (by simpa [hareas] using hne)
  set sel := searchsortedRight ((cumsum areas).map (· / areas.sum)) with hsel
  have selm : Measurable sel := findIdx_measurable _
  set gi : ℕ → (ℝ × ℝ) × E → ℝ := fun i y => orderWeight o (ev i (entryOf as i y.1) y.2) with hgi
  have gim : ∀ i, Measurable (gi i) := by
    intro i
    have : Measurable (entryOf as i) := by
      unfold entryOf
      cases h : as[i]? with
      | none => exact measurable_const
      | some a => 
        have ha := List.mem_of_getElem? h
        exact (entry_law a (hv a ha).1 (hv a ha).2).1
    exact (hm i).comp ((this.comp measurable_fst).prodMk measurable_snd)
  set g : ℝ × ((ℝ × ℝ) × E) → ℝ := fun t => gi (sel t.1) t.2 with hg
  have gm : Measurable g := by
    have h : Measurable fun w : ((ℝ × ℝ) × E) × ℕ => gi w.2 w.1 := measurable_from_prod_countable_left fun i => gim i
    exact h.comp (measurable_snd.prodMk (selm.comp measurable_fst))
  have gib : ∀ i y, 0 ≤ gi i y ∧ gi i y ≤ 1 := by
    intro i y
    simp only [hgi, orderWeight]
    split_ifs
    · exact hb _ _ _
    · simp
  have gb : ∀ t, 0 ≤ g t ∧ g t ≤ 1 := fun t => gib _ _
  have hI : ∀ k (hk : k < as.length), ∫ y, gi k y ∂(randomPair.prod nu) =
      as[k].area⁻¹ * ∫ p in as[k].opening, ∫ x, orderWeight o (ev k p x) ∂nu := by
    intro k hk
    obtain ⟨hmeas, hai, hmap, hvol⟩ := entry_law as[k] (hv _ (List.getElem_mem hk)).1 (hv _ (List.getElem_mem hk)).2
    have gint : Integrable (gi k) (randomPair.prod nu) :=
      Integrable.of_bound (gim k).aestronglyMeasurable 1 (Eventually.of_forall fun q => by
        rw [Real.norm_eq_abs, abs_of_nonneg (gib k q).1]; exact (gib k q).2)
    rw [integral_prod _ gint]
    have h2 : ∫ u, ∫ x, gi k (u, x) ∂nu ∂randomPair =
        ∫ p, ∫ x, orderWeight o (ev k p x) ∂nu ∂(Measure.map as[k].entry randomPair) := by
      rw [integral_map hmeas.aemeasurable]
      · simp only [hgi, entryOf, List.getElem?_eq_getElem hk]
      · have := ((hm k).stronglyMeasurable).integral_prod_right' (ν := nu)
        exact this.aestronglyMeasurable
    rw [h2, hmap, integral_smul_measure]
    simp [ENNReal.toReal_inv, ENNReal.toReal_ofReal hai.le]
  have hE : ∫ t, g t ∂(randomNumber.prod (randomPair.prod nu)) = (multiArea as)⁻¹ * trueArea nu as ev o := by
    have gint : Integrable g (randomNumber.prod (randomPair.prod nu)) :=
      Integrable.of_bound gm.aestronglyMeasurable 1 (Eventually.of_forall fun q => by
        rw [Real.norm_eq_abs, abs_of_nonneg (gb q).1]; exact (gb q).2)
    rw [integral_prod _ gint]
    have h3 := sel_mean areas (fun b hb => (apos b hb).le) ht fun i => ∫ y, gi i y ∂(randomPair.prod nu)
    refine h3.trans ?_
    have lt : (as.mapIdx fun i a => ∫ p in a.opening, ∫ x, orderWeight o (ev i p x) ∂nu).sum =
        ∑ k ∈ Finset.range as.length,
          (as.mapIdx fun i a => ∫ p in a.opening, ∫ x, orderWeight o (ev i p x) ∂nu).getD k 0 := by
      generalize hL : (as.mapIdx fun i a => ∫ p in a.opening, ∫ x, orderWeight o (ev i p x) ∂nu) = L
      have hl : as.length = L.length := by rw [← hL]; simp
      rw [hl, ← sum_map_range]
      congr 1
      apply List.ext_getElem
      · simp
      · intro i h1 h2
        simp only [List.getElem_map, List.getElem_range]
        exact (List.getD_eq_getElem _ _ h1).symm
    rw [trueArea, lt, Finset.mul_sum]
    have la : areas.length = as.length := by simp [hareas]
    rw [la]
    apply Finset.sum_congr rfl
    intro k hk
    have hk' := Finset.mem_range.1 hk
    have hpos : 0 < as[k].area := (entry_law as[k] (hv _ (List.getElem_mem hk')).1 (hv _ (List.getElem_mem hk')).2).2.1
    have e1 : areas.getD k 0 = as[k].area := by simp [hareas, hk']
    have e2 : multiArea as = areas.sum := rfl
    rw [hI k hk', e1, e2, List.getD_eq_getElem _ _ (by simpa using hk'), List.getElem_mapIdx]
    field_simp
  have hmp := shuffle_law (randomPair.prod nu) n s
  have bound := iid_mean_bound (randomNumber.prod (randomPair.prod nu)) g gm gb n hn e he
  rw [← hmp.measure_preimage (by
    apply MeasurableSet.nullMeasurableSet
    apply measurableSet_le measurable_const
    have : Measurable fun q : Fin n → ℝ × ((ℝ × ℝ) × E) => ∑ k, g (q k) :=
      Finset.measurable_sum _ fun k _ => gm.comp (measurable_pi_apply k)
    exact ((this.div_const _).sub_const _).abs)] at bound
  refine (measure_mono ?_).trans bound
  intro q hq
  by_contra hc
  apply hq
  simp only [mem_preimage, mem_setOf_eq, not_le] at hc
  rw [hE] at hc
  have ap : 0 < multiArea as := ht
  refine ⟨multiArea as * ((∑ k, g (q.1 (s k), q.2 k)) / n), ?_, ?_⟩
  · rw [C33_effective_area]
    simp only [eventsOf, multiChoice_eq, List.map_cons, List.map_nil, orderSum, List.map_ofFn, List.sum_ofFn,
      Function.comp_def, hg, hgi, hsel, hareas, orderWeight]
    congr 1
    ring
  · have : multiArea as * ((∑ k, g (q.1 (s k), q.2 k)) / n) - trueArea nu as ev o =
        multiArea as * ((∑ k, g (q.1 (s k), q.2 k)) / n - (multiArea as)⁻¹ * trueArea nu as ev o) := by
      field_simp
    rw [this, abs_mul, abs_of_pos ap, mul_comm]
    exact mul_lt_mul_of_pos_right hc ap

/-- two apertures; the second one is covered by a filter that transmits half of the photons (example) -/
noncomputable def exMultiEvent (i : ℕ) (_ : ℝ × ℝ) (_ : ℝ) : DetEvent := ⟨0, if i = 0 then 1 else 1 / 2, none, 0⟩

example (s : Equiv.Perm (Fin 10000)) :
    photonNumbers randomNumber 10000 {q | ¬ ∃ A, effectiveArea (eventsOf [exSquare, exHalfRing] exMultiEvent s q) [0]
      (10000 : ℕ) (multiArea [exSquare, exHalfRing]) = [A] ∧
      |A - trueArea randomNumber [exSquare, exHalfRing] exMultiEvent 0| <
        (1 / 20) * multiArea [exSquare, exHalfRing]} ≤ ENNReal.ofReal (1 / 100) := by
  have := C156_effective_area randomNumber [exSquare, exHalfRing] (by simp) (by
    intro a ha
    rcases List.mem_pair.1 ha with rfl | rfl
    · exact ⟨exSquare_valid, exSquare_open⟩
    · exact ⟨exHalfRing_valid, exHalfRing_open⟩) exMultiEvent 0
    (fun i => measurable_const) (fun i p x => by simp only [exMultiEvent]; split_ifs <;> norm_num)
    10000 (by norm_num) s (1 / 20) (by norm_num)
  refine this.trans (le_of_eq ?_)
  norm_num

end Marxs
