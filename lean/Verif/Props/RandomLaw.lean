import Verif.Spec.RandomLaw
import Verif.Props.Uniform
import Verif.Props.Source

/-!
# Property C152: what is drawn from tables follows the tables
-/

namespace Marxs

open MeasureTheory Set Filter

/-! ## Order selectors -/

theorem randomNumber_Ico {A : Set ℝ} {c w : ℝ} (h : {r : ℝ | 0 ≤ r ∧ r < 1 ∧ r ∈ A} = Ico c (c + w)) :
    randomNumber A = ENNReal.ofReal w := by
  rw [randomNumber, Measure.restrict_apply' measurableSet_Ico]
  have : A ∩ Ico 0 1 = {r : ℝ | 0 ≤ r ∧ r < 1 ∧ r ∈ A} := by
    ext r; simp only [mem_inter_iff, mem_Ico, mem_setOf_eq]; tauto
  rw [this, h, Real.volume_Ico]
  congr 1; ring

theorem orderShare_eq (orders : List ℤ) (p : List ℝ) (h : p.length = orders.length) (o : ℤ) :
    orderShare orders p o = ∑ k ∈ Finset.range p.length, if orders[k]? = some o then p.getD k 0 else 0 := by
  rw [orderShare]
  induction orders generalizing p with
  | nil => simp at h; simp [h]
  | cons q l ih =>
    cases p with
    | nil => simp at h
    | cons v m =>
      simp only [List.length_cons, Nat.add_right_cancel_iff] at h
      rw [List.zip_cons_cons, List.map_cons, List.sum_cons, ih m h, List.length_cons, Finset.sum_range_succ']
      simp [add_comm]

/-- Selectors which choose index `k` for an interval of random numbers of the right length. -/
theorem selector_law (orders : List ℤ) (p : List ℝ) (hlen : p.length = orders.length) (hp : ∀ x ∈ p, 0 ≤ x)
    (ht : 0 < p.sum) (F : ℝ → Except Err (ℤ × ℝ)) (sel : ℝ → ℕ)
    (h1 : ∀ r, 0 ≤ r → r < 1 → ∃ o, orders[sel r]? = some o ∧ F r = .ok (o, p.sum))
    (h2 : ∀ k (hk : k < p.length), ∃ c, {r : ℝ | 0 ≤ r ∧ r < 1 ∧ sel r = k} = Ico c (c + p[k] / p.sum)) (o : ℤ) :
    ∫ r, selectedWeight o (F r) ∂randomNumber = orderShare orders p o := by
  have hind : ∀ r ∈ Ico (0 : ℝ) 1, selectedWeight o (F r) = ∑ k ∈ Finset.range p.length,
      (if orders[k]? = some o then p.sum else 0) * ({r : ℝ | 0 ≤ r ∧ r < 1 ∧ sel r = k}.indicator (fun _ => (1 : ℝ)) r) := by
    intro r hr
    obtain ⟨o', ho, hF⟩ := h1 r hr.1 hr.2
    have hs : sel r < p.length := by
      rw [hlen]
      exact (List.getElem?_eq_some_iff.1 ho).1
    rw [Finset.sum_eq_single_of_mem (sel r) (Finset.mem_range.2 hs)]
    · rw [hF, Set.indicator_of_mem (by exact ⟨hr.1, hr.2, rfl⟩), ho]
      simp [selectedWeight]
    · intro k _ hk
      rw [Set.indicator_of_notMem, mul_zero]
      rintro ⟨-, -, h⟩
      exact hk h.symm
  have hmeas : ∀ k ∈ Finset.range p.length, MeasurableSet {r : ℝ | 0 ≤ r ∧ r < 1 ∧ sel r = k} := by
    intro k hk
    obtain ⟨c, hc⟩ := h2 k (Finset.mem_range.1 hk)
    rw [hc]; exact measurableSet_Ico
  have e : ∫ r, selectedWeight o (F r) ∂randomNumber = ∫ r, ∑ k ∈ Finset.range p.length,
      (if orders[k]? = some o then p.sum else 0) * ({r : ℝ | 0 ≤ r ∧ r < 1 ∧ sel r = k}.indicator (fun _ => (1 : ℝ)) r)
        ∂randomNumber := by
    rw [randomNumber]
    exact setIntegral_congr_fun measurableSet_Ico hind
  rw [e, integral_finset_sum, orderShare_eq orders p hlen]
  · apply Finset.sum_congr rfl
    intro k hk
    obtain ⟨c, hc⟩ := h2 k (Finset.mem_range.1 hk)
    have hm := randomNumber_Ico (A := {r : ℝ | 0 ≤ r ∧ r < 1 ∧ sel r = k}) (c := c) (w := p[k]'(Finset.mem_range.1 hk) / p.sum)
      (by rw [← hc]; ext r; simp only [mem_setOf_eq]; tauto)
    rw [integral_const_mul, integral_indicator_const _ (hmeas k hk), Measure.real, hm]
    have hk' := Finset.mem_range.1 hk
    have hnn : 0 ≤ p[k] / p.sum := div_nonneg (hp _ (List.getElem_mem hk')) ht.le
    rw [ENNReal.toReal_ofReal hnn, List.getD_eq_getElem _ _ hk']
    split_ifs
    · simp only [smul_eq_mul, mul_one]; field_simp
    · simp
  · intro k hk
    apply Integrable.const_mul
    exact (integrable_const (1 : ℝ)).indicator (hmeas k hk)

/-- **C152** `OrderSelector` is unbiased: the mean signal in order `o` (probability of the photons that are sent there)
is the probability given for this order. -/
theorem C152_order_selector (orders : List ℤ) (hne : orders ≠ []) (p : List ℝ) (w : List ℝ)
    (h : orderSelectorInit orders (some p) = .ok w) (hs : w.sum ≠ 0) (o : ℤ) :
    ∫ r, selectedWeight o (orderSelector orders w r) ∂randomNumber = orderShare orders p o := by
  obtain ⟨-, h2, h3, h4, -, sel, h6, h7⟩ := C25_order_selector orders hne (some p) w h hs
  have hw := h2 p rfl
  subst hw
  obtain ⟨_, _, hp⟩ := (C25_order_selector_rejects orders w).1 ⟨w, h⟩
  exact selector_law orders w h3 hp h4 _ sel h6 h7 o

/-- **C152** The same for `InterpolateEfficiencyTable` with the interpolated probabilities. -/
theorem C152_interpolate_table (probs : List ℝ) (orders : List ℤ) (hlen : probs.length = orders.length)
    (hp : ∀ p ∈ probs, 0 ≤ p) (ht : 0 < probs.sum) (o : ℤ) :
    ∫ r, selectedWeight o (interpolateTable probs orders r) ∂randomNumber = orderShare orders probs o := by
  obtain ⟨sel, h1, h2⟩ := C25_interpolate_table probs orders hlen hp ht
  exact selector_law orders probs hlen hp ht _ sel h1 h2 o

/-- **C152** The same for `EfficiencyFile` with the row of the nearest energy. -/
theorem C152_efficiency_file (energy : List ℝ) (prob : List (List ℝ)) (orders : List ℤ)
    (hne : energy ≠ []) (hlen : prob.length = energy.length)
    (hc : efficiencyFileCheck prob orders = .ok ())
    (hp : ∀ row ∈ prob, (∀ p ∈ row, 0 ≤ p) ∧ 0 < row.sum) (e : ℝ) :
    ∃ ind : ℕ, ∃ row, prob[ind]? = some row ∧ (∀ x ∈ energy, |energy.getD ind 0 - e| ≤ |x - e|) ∧
      ∀ o, ∫ r, selectedWeight o (efficiencyFile energy prob orders e r) ∂randomNumber = orderShare orders row o := by
  obtain ⟨ind, row, h1, h2, sel, h3, h4⟩ := C25_efficiency_file energy prob orders hne hlen hc hp e
  have hm : row ∈ prob := List.mem_of_getElem? h1
  have hl : row.length = orders.length := by
    simp only [efficiencyFileCheck] at hc
    split at hc
    · rename_i hh; exact hh row hm
    · cases hc
  exact ⟨ind, row, h1, h2, fun o => selector_law orders row hl (hp row hm).1 (hp row hm).2 _ sel h3 h4 o⟩

/-! ## Tabulated distributions -/

theorem bin_law {x pdf : List ℝ} {f : Option (List ℝ → List ℕ)} (hf : IsArgsort f) {a : ArbPdf}
    (h : ArbPdf.init x pdf f = .ok a) (ht : 0 < totalWeight x pdf) {i : ℕ} (hi : i < x.length) :
    NullMeasurableSet {u | a.bin u = .ok i} randomNumber ∧
    randomNumber {u | a.bin u = .ok i} = ENNReal.ofReal (binWeight x pdf i / totalWeight x pdf) := by
  obtain ⟨c, hc⟩ := C24_bin_interval x pdf f hf a h ht i hi
  have hr : randomNumber = volume.restrict (Ioc 0 1) := by
    rw [randomNumber]
    rw [← Measure.restrict_congr_set Ioo_ae_eq_Ico, Measure.restrict_congr_set Ioo_ae_eq_Ioc]
  have hi' : {u | a.bin u = .ok i} ∩ Ioc 0 1 = Ioc c (c + binWeight x pdf i / totalWeight x pdf) := by
    rw [← hc]; ext r; simp only [mem_inter_iff, mem_Ioc, mem_setOf_eq]; tauto
  constructor
  · have hae : {u | a.bin u = .ok i} =ᵐ[randomNumber] Ioc c (c + binWeight x pdf i / totalWeight x pdf) := by
      rw [hr]
      filter_upwards [ae_restrict_mem measurableSet_Ioc] with u hu
      apply propext
      show u ∈ {u | a.bin u = .ok i} ↔ u ∈ Ioc c _
      rw [← hi']
      simp only [mem_inter_iff, hu, and_true]
    exact (measurableSet_Ioc.nullMeasurableSet).congr hae.symm
  · rw [hr, Measure.restrict_apply' measurableSet_Ioc, hi', Real.volume_Ioc]
    congr 1; ring

theorem scaled_law {lo w : ℝ} (hw : 0 < w) {S : Set ℝ} (hS : MeasurableSet S) :
    ENNReal.ofReal w * randomNumber {r | lo + w * r ∈ S} = volume (S ∩ Ico lo (lo + w)) := by
  have hm : Measurable fun r : ℝ => lo + w * r := by fun_prop
  rw [randomNumber, show {r | lo + w * r ∈ S} = (fun r : ℝ => lo + w * r) ⁻¹' S from rfl,
    Measure.restrict_apply (hm hS)]
  have hpre : (fun r : ℝ => lo + w * r) ⁻¹' (S ∩ Ico lo (lo + w)) = {r | lo + w * r ∈ S} ∩ Ico 0 1 := by
    ext r
    simp only [mem_preimage, mem_inter_iff, mem_Ico, mem_setOf_eq]
    constructor
    · rintro ⟨h1, h2, h3⟩
      exact ⟨h1, by nlinarith, by nlinarith⟩
    · rintro ⟨h1, h2, h3⟩
      exact ⟨h1, by nlinarith, by nlinarith⟩
  have hpre' : (fun r : ℝ => lo + w * r) ⁻¹' (S ∩ Ico lo (lo + w)) =
      (fun r => w * r) ⁻¹' ((fun r => lo + r) ⁻¹' (S ∩ Ico lo (lo + w))) := rfl
  rw [show (fun r : ℝ => lo + w * r) ⁻¹' S ∩ Ico 0 1 = {r | lo + w * r ∈ S} ∩ Ico 0 1 from rfl, ← hpre, hpre',
    Real.volume_preimage_mul_left hw.ne', measure_preimage_add, abs_of_pos (inv_pos.2 hw), ← mul_assoc,
    ← ENNReal.ofReal_mul hw.le, mul_inv_cancel₀ hw.ne', ENNReal.ofReal_one, one_mul]

/-- **C152** Values drawn from a tabulated density (`RandomArbitraryPdf` with `randomize_in_bin`) have this density: the
probability of any set `S` is the integral of the density over `S`, divided by the integral over everything. -/
theorem C152_density (x pdf : List ℝ) (f : Option (List ℝ → List ℕ)) (hf : IsArgsort f) (a : ArbPdf)
    (h : ArbPdf.init x pdf f = .ok a) (ht : 0 < totalWeight x pdf) (S : Set ℝ) (hS : MeasurableSet S) :
    randomPair {u | ∃ v ∈ S, a.draw true u.1 u.2 = .ok v} =
      (∫⁻ v in S, ENNReal.ofReal (stepDensity x pdf v)) / ENNReal.ofReal (totalWeight x pdf) := by
  obtain ⟨hxl, hpos, hsort⟩ := (C24_rejected x pdf f).1 ⟨a, h⟩
  set E : ℕ → Set (ℝ × ℝ) := fun i =>
    {u | a.bin u = .ok (i + 1)} ×ˢ {r | x.getD i 0 + (x.getD (i + 1) 0 - x.getD i 0) * r ∈ S} with hE
  have hvalue := C24_value x pdf f hf a h ht
  have hp1 : ∀ i, i + 1 < x.length → 0 ≤ pdf.getD (i + 1) 0 := by
    intro i hi
    rw [List.getD_eq_getElem _ _ (by omega)]
    exact hpos _ (List.getElem_mem _)
  -- the event, up to a null set
  have hae : {u : ℝ × ℝ | ∃ v ∈ S, a.draw true u.1 u.2 = .ok v} =ᵐ[randomPair]
      ⋃ i ∈ Finset.range (x.length - 1), E i := by
    rw [randomPair_eq]
    filter_upwards [ae_restrict_mem (measurableSet_Ioo.prod measurableSet_Ioo)] with u hu
    apply propext
    show (∃ v ∈ S, _) ↔ u ∈ ⋃ i ∈ Finset.range (x.length - 1), E i
    obtain ⟨i, hi, hb, hd, -, -⟩ := hvalue u.1 u.2 hu.1.1 hu.1.2.le ⟨hu.2.1.le, hu.2.2⟩
    simp only [mem_iUnion, Finset.mem_range, exists_prop, hE, mem_prod, mem_setOf_eq]
    constructor
    · rintro ⟨v, hv, he⟩
      rw [hd, Except.ok.injEq] at he
      exact ⟨i, by omega, hb, by rw [he]; exact hv⟩
    · rintro ⟨j, -, hj, hv⟩
      rw [hb, Except.ok.injEq] at hj
      have : i = j := by omega
      subst this
      exact ⟨_, hv, hd⟩
  have hdis : Set.Pairwise (Finset.range (x.length - 1) : Set ℕ) (Function.onFun (AEDisjoint randomPair) E) := by
    intro i _ j _ hij
    apply Disjoint.aedisjoint
    rw [Set.disjoint_left]
    rintro u ⟨h1, -⟩ ⟨h2, -⟩
    simp only [mem_setOf_eq] at h1 h2
    rw [h1, Except.ok.injEq] at h2
    omega
  have hmS : ∀ i, MeasurableSet {r | x.getD i 0 + (x.getD (i + 1) 0 - x.getD i 0) * r ∈ S} := by
    intro i
    have : Measurable fun r : ℝ => x.getD i 0 + (x.getD (i + 1) 0 - x.getD i 0) * r := by fun_prop
    exact this hS
  have hmE : ∀ i ∈ Finset.range (x.length - 1), NullMeasurableSet (E i) randomPair := by
    intro i hi
    have hi' : i + 1 < x.length := by have := Finset.mem_range.1 hi; omega
    rw [hE, randomPair]
    exact NullMeasurableSet.prod (bin_law hf h ht hi').1 (hmS i).nullMeasurableSet
  rw [measure_congr hae, measure_biUnion_finset₀ hdis hmE]
  -- each bin
  have hbin : ∀ i ∈ Finset.range (x.length - 1), randomPair (E i) =
      ENNReal.ofReal (pdf.getD (i + 1) 0) * volume (S ∩ Ico (x.getD i 0) (x.getD (i + 1) 0)) /
        ENNReal.ofReal (totalWeight x pdf) := by
    intro i hi
    have hi' : i + 1 < x.length := by have := Finset.mem_range.1 hi; omega
    rw [hE, randomPair, Measure.prod_prod, (bin_law hf h ht hi').2, binWeight, ENNReal.ofReal_div_of_pos ht]
    rcases (hsort i hi').eq_or_lt with he | hlt
    · rw [he]; simp
    · have hw : 0 < x.getD (i + 1) 0 - x.getD i 0 := by linarith
      have hsc := scaled_law (lo := x.getD i 0) hw hS
      rw [show x.getD i 0 + (x.getD (i + 1) 0 - x.getD i 0) = x.getD (i + 1) 0 by ring] at hsc
      rw [← hsc, ENNReal.ofReal_mul (hp1 i hi')]
      simp only [ENNReal.div_eq_inv_mul]
      ring
  rw [Finset.sum_congr rfl hbin]
  -- the integral
  have hint : ∫⁻ v in S, ENNReal.ofReal (stepDensity x pdf v) = ∑ i ∈ Finset.range (x.length - 1),
      ENNReal.ofReal (pdf.getD (i + 1) 0) * volume (S ∩ Ico (x.getD i 0) (x.getD (i + 1) 0)) := by
    have e : ∀ v, ENNReal.ofReal (stepDensity x pdf v) = ∑ i ∈ Finset.range (x.length - 1),
        (Ico (x.getD i 0) (x.getD (i + 1) 0)).indicator (fun _ => ENNReal.ofReal (pdf.getD (i + 1) 0)) v := by
      intro v
      rw [stepDensity, ENNReal.ofReal_sum_of_nonneg]
      · apply Finset.sum_congr rfl
        intro i _
        rw [Set.indicator_apply]
        simp only [mem_Ico]
        split_ifs
        · rfl
        · simp
      · intro i hi
        have hi' : i + 1 < x.length := by have := Finset.mem_range.1 hi; omega
        split_ifs
        · exact hp1 i hi'
        · exact le_rfl
    simp only [e]
    rw [lintegral_finset_sum _ (fun i _ => measurable_const.indicator measurableSet_Ico)]
    apply Finset.sum_congr rfl
    intro i _
    rw [lintegral_indicator_const measurableSet_Ico, Measure.restrict_apply measurableSet_Ico, inter_comm]
  rw [hint]
  simp only [ENNReal.div_eq_inv_mul, Finset.mul_sum]

theorem findIdx_measurable (l : List ℝ) : Measurable fun r : ℝ => l.findIdx fun c => decide (r < c) := by
  induction l with
  | nil => simp
  | cons c l ih =>
    simp only [List.findIdx_cons]
    have e : (fun r : ℝ => bif decide (r < c) then 0 else (l.findIdx fun c => decide (r < c)) + 1) =
        fun r : ℝ => if r < c then 0 else (l.findIdx fun c => decide (r < c)) + 1 := by
      funext r
      by_cases h : r < c <;> simp [h]
    rw [e]
    exact Measurable.ite (measurableSet_lt measurable_id measurable_const) measurable_const (ih.add_const 1)

theorem exists_lt_measurable (l : List ℝ) : MeasurableSet {r : ℝ | ∃ c ∈ l, r < c} := by
  have : {r : ℝ | ∃ c ∈ l, r < c} = ⋃ c ∈ {c | c ∈ l}, Iio c := by ext r; simp
  rw [this]
  exact (List.finite_toSet l).measurableSet_biUnion fun c _ => measurableSet_Iio

open Classical in
theorem interpolateTable_measurable (probs : List ℝ) (orders : List ℤ) (o : ℤ) :
    Measurable fun r => selectedWeight o (interpolateTable probs orders r) := by
  have hk : Measurable fun r : ℝ => if probs.sum ≠ 0 ∧ ∃ c ∈ (cumsum probs).map (· / probs.sum), r < c then
      ((cumsum probs).map (· / probs.sum)).findIdx (fun c => decide (r < c)) else 0 := by
    refine Measurable.ite ?_ ?_ measurable_const
    · by_cases h : probs.sum = 0
      · simp [h]
      · simp only [ne_eq, h, not_false_eq_true, true_and]
        exact exists_lt_measurable _
    · exact findIdx_measurable _
  have hg : Measurable fun k : ℕ => selectedWeight o (match orders[k]? with
      | none => Except.error Err.indexError
      | some q => Except.ok (q, probs.sum)) := measurable_from_nat
  have := hg.comp hk
  convert this using 1
  funext r
  simp only [interpolateTable, Function.comp]
  congr 2

/-- **C152** The effective area of an ideal telescope with a grating: aperture area times the tabulated efficiency of the
order. Simulations converge to it. -/
theorem C152_grating_area {Ω : Type} [MeasurableSpace Ω] (P : Measure Ω) (X : ℕ → Ω → (ℝ × ℝ) × ℝ)
    (hX : IsSimulation P randomNumber X) (a : Aperture) (hv : a.Valid) (ho : a.IsOpen) (probs : List ℝ)
    (orders : List ℤ) (hlen : probs.length = orders.length) (hp : ∀ p ∈ probs, 0 ≤ p) (ht : 0 < probs.sum)
    (ht1 : probs.sum ≤ 1) (o : ℤ) :
    ∀ᵐ ω ∂P, ∃ A : ℕ → ℝ,
      (∀ n : ℕ, effectiveArea ((List.range n).map fun i => selectedEvent (interpolateTable probs orders (X i ω).2))
        [o] n a.area = [A n]) ∧
      Tendsto A atTop (nhds (a.area * orderShare orders probs o)) := by
  have hm := interpolateTable_measurable probs orders o
  have hw : ∀ r, orderWeight o (selectedEvent (interpolateTable probs orders r)) =
      selectedWeight o (interpolateTable probs orders r) := by
    intro r
    cases interpolateTable probs orders r with
    | ok q => rfl
    | error e => exact ite_self (0 : ℝ)
  have hb : ∀ r, |(selectedEvent (interpolateTable probs orders r)).prob| ≤ 1 := by
    intro r
    simp only [interpolateTable]
    split
    · simp [selectedEvent]
    · simp only [selectedEvent]
      rw [abs_of_pos ht]; exact ht1
  have := C150_effective_area P randomNumber X hX a hv ho
    (fun _ r => selectedEvent (interpolateTable probs orders r)) o
    (by simp only [hw]; exact hm.comp measurable_snd) (fun _ r => hb r)
  simp only [hw, C152_interpolate_table probs orders hlen hp ht o] at this
  obtain ⟨hvol, hpos⟩ := C150_area a hv ho
  rw [setIntegral_const, Measure.real, hvol, ENNReal.toReal_ofReal hpos.le, smul_eq_mul] at this
  exact this

/-! ### Concrete cases -/

/-- a grating with three orders -/
example : orderSelectorInit [-1, 0, 1] (some [0.2, 0.5, 0.1]) = .ok [0.2, 0.5, 0.1] ∧
    ([0.2, 0.5, 0.1] : List ℝ).sum ≠ 0 ∧ orderShare [-1, 0, 1] [0.2, 0.5, 0.1] 0 = 0.5 := by
  refine ⟨?_, by norm_num, by norm_num [orderShare]⟩
  simp only [orderSelectorInit]
  norm_num

/-- a table with two bins -/
example : ∃ a, ArbPdf.init [1, 2, 4] [0, 3, 1] none = .ok a ∧ totalWeight [1, 2, 4] [0, 3, 1] = 5 ∧
    stepDensity [1, 2, 4] [0, 3, 1] 3 = 1 := by
  obtain ⟨a, ha⟩ := (C24_rejected [1, 2, 4] [0, 3, 1] none).2 ⟨rfl, by norm_num, by
    intro i hi
    rcases i with _ | _ | i
    · norm_num
    · norm_num
    · simp at hi; omega⟩
  refine ⟨a, ha, ?_, ?_⟩
  · simp [totalWeight, List.range_succ, binWeight]; norm_num
  · norm_num [stepDensity, Finset.sum_range_succ]

end Marxs
