import Mathlib.Data.List.GetD
import Mathlib.Data.List.Nodup
import Mathlib.Order.Interval.Set.Basic
import Mathlib.Tactic.NormNum
import Mathlib.Tactic.FieldSimp
import Verif.Lemmas.Random
import Verif.Spec.Random

/-!
# Properties C24-C26: random selection
-/

namespace Marxs

theorem diff_length : ∀ l : List ℝ, (diff l).length = l.length - 1
  | [] => rfl
  | [_] => rfl
  | a :: b :: l => by simp [diff, diff_length (b :: l)]

theorem diff_getD : ∀ (l : List ℝ) (i : ℕ), i + 1 < l.length →
    (diff l).getD i 0 = l.getD (i + 1) 0 - l.getD i 0
  | [], i, h => by simp at h
  | [_], i, h => by simp at h
  | a :: b :: l, 0, _ => by simp [diff]
  | a :: b :: l, i + 1, h => by
    have := diff_getD (b :: l) i (by simpa using h)
    simpa [diff] using this

/-- the weights that `RandomArbitraryPdf` computes -/
theorem weights_eq {x pdf : List ℝ} (h : x.length = pdf.length) :
    List.zipWith (· * ·) pdf (0 :: diff x) = (List.range x.length).map (binWeight x pdf) := by
  apply List.ext_getElem
  · simp [diff_length]; omega
  · intro i h1 h2
    simp only [List.getElem_zipWith, List.getElem_map, List.getElem_range]
    simp at h1 h2
    cases i with
    | zero => simp [binWeight]
    | succ i =>
      simp only [List.getElem_cons_succ, binWeight]
      have hd := diff_getD x i (by omega)
      rw [List.getD_eq_getElem _ _ (by rw [diff_length]; omega)] at hd
      rw [hd, List.getD_eq_getElem pdf _ (by omega)]

/-- everything `__init__` guarantees -/
theorem init_ok {x pdf : List ℝ} {f : Option (List ℝ → List ℕ)} (hf : IsArgsort f) {a : ArbPdf}
    (h : ArbPdf.init x pdf f = .ok a) :
    x.length = pdf.length ∧ a.x = x ∧ a.width = 0 :: diff x ∧ a.cdf = cumsum a.pdf ∧
    (∀ w ∈ a.pdf, 0 ≤ w) ∧ a.pdf.sum = totalWeight x pdf ∧ a.pdf.length = x.length ∧
    (∀ i < x.length, 0 ≤ binWeight x pdf i) ∧
    ∃ σ : List ℕ, σ.Perm (List.range x.length) ∧ a.pdf = σ.map (binWeight x pdf) ∧
      ∀ u, a.bin u = match a.cdf.getLast? with
        | none => .error .indexError
        | some total => match σ[searchsortedLeft a.cdf (u * total)]? with
          | none => if a.sortindex = none then .ok (searchsortedLeft a.cdf (u * total))
              else .error .indexError
          | some i => .ok i := by
  simp only [ArbPdf.init] at h
  split at h
  · cases h
  rename_i hlen
  split at h
  · cases h
  rename_i hpos
  split at h
  · cases h
  rename_i hw
  push Not at hlen hpos hw
  have hW := weights_eq hlen
  have wn : ∀ w ∈ List.zipWith (· * ·) pdf (0 :: diff x), 0 ≤ w := by
    intro w hm
    rw [List.mem_iff_getElem] at hm
    obtain ⟨i, hi, rfl⟩ := hm
    rw [List.getElem_zipWith]
    exact mul_nonneg (hpos _ (List.getElem_mem _)) (hw _ (List.getElem_mem _))
  have bn : ∀ i < x.length, 0 ≤ binWeight x pdf i := by
    intro i hi
    apply wn
    rw [hW]
    exact List.mem_map.2 ⟨i, List.mem_range.2 hi, rfl⟩
  split at h
  · simp only [Except.ok.injEq] at h
    subst h
    refine ⟨hlen, rfl, rfl, rfl, wn, by rw [hW]; rfl, by rw [hW]; simp, bn, List.range x.length,
      List.Perm.refl _, hW, ?_⟩
    intro u
    simp only [ArbPdf.bin]
    cases (cumsum (List.zipWith (· * ·) pdf (0 :: diff x))).getLast? with
    | none => rfl
    | some t =>
      dsimp only
      by_cases hlt : searchsortedLeft (cumsum (List.zipWith (· * ·) pdf (0 :: diff x))) (u * t) < x.length
      · rw [List.getElem?_range hlt]
      · rw [List.getElem?_eq_none (by simpa using hlt)]; simp
  · rename_i g
    simp only [Except.ok.injEq] at h
    subst h
    have hp := hf g rfl (List.zipWith (· * ·) pdf (0 :: diff x))
    rw [hW, List.length_map, List.length_range] at hp
    have hmap : (g (List.zipWith (· * ·) pdf (0 :: diff x))).map
        (fun i => (List.zipWith (· * ·) pdf (0 :: diff x)).getD i 0) =
        (g (List.zipWith (· * ·) pdf (0 :: diff x))).map (binWeight x pdf) := by
      apply List.map_congr_left
      intro i hi
      have : i < x.length := by
        rw [hW] at hi
        exact List.mem_range.1 (hp.mem_iff.1 hi)
      rw [hW, List.getD_eq_getElem _ _ (by simpa using this)]
      simp
    rw [← hW] at hp
    refine ⟨hlen, rfl, rfl, rfl, ?_, ?_, ?_, bn, g (List.zipWith (· * ·) pdf (0 :: diff x)), hp, hmap, ?_⟩
    · dsimp only
      rw [hmap]
      intro w hm
      obtain ⟨i, hi, rfl⟩ := List.mem_map.1 hm
      exact bn i (List.mem_range.1 (hp.mem_iff.1 hi))
    · dsimp only
      rw [hmap, totalWeight]
      exact (hp.map _).sum_eq
    · dsimp only
      rw [List.length_map, hp.length_eq, List.length_range]
    · intro u
      simp only [ArbPdf.bin]
      cases (cumsum (List.map (fun i => (List.zipWith (· * ·) pdf (0 :: diff x)).getD i 0)
        (g (List.zipWith (· * ·) pdf (0 :: diff x))))).getLast? with
      | none => rfl
      | some t =>
        dsimp only
        cases (g (List.zipWith (· * ·) pdf (0 :: diff x)))[searchsortedLeft (cumsum (List.map
          (fun i => (List.zipWith (· * ·) pdf (0 :: diff x)).getD i 0)
          (g (List.zipWith (· * ·) pdf (0 :: diff x))))) (u * t)]? <;> simp

/-! ## C24 -/

/-- **C24** Bin `i` is drawn for the random numbers in an interval whose length is the share of bin
`i` in the total weight, whether bins are sorted or not. -/
theorem C24_bin_interval (x pdf : List ℝ) (f : Option (List ℝ → List ℕ)) (hf : IsArgsort f) (a : ArbPdf)
    (h : ArbPdf.init x pdf f = .ok a) (ht : 0 < totalWeight x pdf) (i : ℕ) (hi : i < x.length) :
    ∃ c, {u : ℝ | 0 < u ∧ u ≤ 1 ∧ a.bin u = .ok i} =
      Set.Ioc c (c + binWeight x pdf i / totalWeight x pdf) := by
  obtain ⟨_, _, _, hcdf, wn, hsum, hlen, _, σ, hσ, hpdf, hbin⟩ := init_ok hf h
  have nd : σ.Nodup := hσ.nodup_iff.2 List.nodup_range
  have him : i ∈ σ := hσ.mem_iff.2 (List.mem_range.2 hi)
  obtain ⟨k, hk, hki⟩ := List.mem_iff_getElem.1 him
  have hkp : k < a.pdf.length := by rw [hpdf]; simpa using hk
  have hwk : a.pdf[k] = binWeight x pdf i := by simp [hpdf, hki]
  have hne : a.pdf ≠ [] := by intro h'; rw [h'] at hkp; simp at hkp
  set T := totalWeight x pdf with hT
  have hb : ∀ u, 0 < u → u ≤ 1 → (a.bin u = .ok i ↔
      (a.pdf.take k).sum < u * T ∧ u * T ≤ (a.pdf.take (k + 1)).sum) := by
    intro u h0 h1
    have hlt : searchsortedLeft (cumsum a.pdf) (u * T) < a.pdf.length :=
      searchLeft_lt (by rw [hsum]; nlinarith) hne
    have hls : searchsortedLeft (cumsum a.pdf) (u * T) < σ.length := by
      have e : a.pdf.length = σ.length := by rw [hpdf]; simp
      omega
    rw [hbin u, hcdf, cumsum_getLast hne, hsum]
    dsimp only
    rw [List.getElem?_eq_getElem hls, ← searchLeft_iff wn (mul_pos h0 ht) hkp]
    simp only [Except.ok.injEq]
    rw [← hki]
    exact nd.getElem_inj_iff
  refine ⟨(a.pdf.take k).sum / T, ?_⟩
  rw [← hwk, ← add_div, ← take_succ_sum a.pdf k hkp]
  ext u
  simp only [Set.mem_setOf_eq, Set.mem_Ioc]
  constructor
  · rintro ⟨h0, h1, h2⟩
    rw [hb u h0 h1] at h2
    rw [div_lt_iff₀ ht, le_div_iff₀ ht]
    exact h2
  · rintro ⟨h1, h2⟩
    rw [div_lt_iff₀ ht] at h1
    rw [le_div_iff₀ ht] at h2
    have n0 := take_sum_nonneg wn k
    have h0 : 0 < u := by
      by_contra hn
      push Not at hn
      have := mul_nonpos_of_nonpos_of_nonneg hn ht.le
      linarith
    have n1 : (a.pdf.take (k + 1)).sum ≤ T := by
      rw [← hsum]
      conv_rhs => rw [← List.take_length (l := a.pdf)]
      exact take_sum_mono wn (by omega)
    have hu1 : u ≤ 1 := by
      by_contra hn
      push Not at hn
      have := lt_mul_of_one_lt_left ht hn
      linarith
    exact ⟨h0, hu1, (hb u h0 hu1).2 ⟨h1, h2⟩⟩

/-- **C24** No draw is lost: every random number in (0, 1] selects a bin, and that bin has positive
weight. -/
theorem C24_every_draw (x pdf : List ℝ) (f : Option (List ℝ → List ℕ)) (hf : IsArgsort f) (a : ArbPdf)
    (h : ArbPdf.init x pdf f = .ok a) (ht : 0 < totalWeight x pdf) (u : ℝ) (h0 : 0 < u) (h1 : u ≤ 1) :
    ∃ i, i < x.length ∧ a.bin u = .ok i ∧ 0 < binWeight x pdf i := by
  obtain ⟨_, _, _, hcdf, wn, hsum, hlen, bn, σ, hσ, hpdf, hbin⟩ := init_ok hf h
  have hne : a.pdf ≠ [] := by
    intro h'; rw [h', List.sum_nil] at hsum; linarith
  have hlt : searchsortedLeft (cumsum a.pdf) (u * totalWeight x pdf) < a.pdf.length :=
    searchLeft_lt (by rw [hsum]; nlinarith) hne
  have hls : searchsortedLeft (cumsum a.pdf) (u * totalWeight x pdf) < σ.length := by
    have e : a.pdf.length = σ.length := by rw [hpdf]; simp
    omega
  set i := σ[searchsortedLeft (cumsum a.pdf) (u * totalWeight x pdf)] with hidef
  have hi : i < x.length := List.mem_range.1 (hσ.mem_iff.1 (List.getElem_mem _))
  have hb : a.bin u = .ok i := by
    rw [hbin u, hcdf, cumsum_getLast hne, hsum]
    dsimp only
    rw [List.getElem?_eq_getElem hls]
  refine ⟨i, hi, hb, ?_⟩
  obtain ⟨c, hc⟩ := C24_bin_interval x pdf f hf a h ht i hi
  have hm : u ∈ Set.Ioc c (c + binWeight x pdf i / totalWeight x pdf) := by
    rw [← hc]; exact ⟨h0, h1, hb⟩
  have : 0 < binWeight x pdf i / totalWeight x pdf := by linarith [hm.1, hm.2]
  exact (div_pos_iff_of_pos_right ht).1 this

/-- **C24** The value returned: with `randomize_in_bin` the draw `r` picks a point of the bin,
uniformly between its lower and its upper edge; otherwise the upper edge is returned. -/
theorem C24_value (x pdf : List ℝ) (f : Option (List ℝ → List ℕ)) (hf : IsArgsort f) (a : ArbPdf)
    (h : ArbPdf.init x pdf f = .ok a) (ht : 0 < totalWeight x pdf) (u r : ℝ) (h0 : 0 < u) (h1 : u ≤ 1)
    (hr : 0 ≤ r ∧ r < 1) :
    ∃ i, i + 1 < x.length ∧ a.bin u = .ok (i + 1) ∧
      a.draw true u r = .ok (x.getD i 0 + (x.getD (i + 1) 0 - x.getD i 0) * r) ∧
      a.draw false u r = .ok (x.getD (i + 1) 0) ∧ x.getD i 0 < x.getD (i + 1) 0 := by
  obtain ⟨i, hi, hb, hw⟩ := C24_every_draw x pdf f hf a h ht u h0 h1
  obtain ⟨hl, hx, hwd, _⟩ := init_ok hf h
  cases i with
  | zero => simp [binWeight] at hw
  | succ i =>
    have hd := diff_getD x i hi
    rw [List.getD_eq_getElem _ _ (by rw [diff_length]; omega)] at hd
    have hinc : x.getD i 0 < x.getD (i + 1) 0 := by
      have hpos : ∀ p ∈ pdf, 0 ≤ p := by
        simp only [ArbPdf.init] at h
        split at h
        · cases h
        split at h
        · cases h
        rename_i hp
        exact not_not.1 hp
      simp only [binWeight] at hw
      have hp0 : 0 ≤ pdf.getD (i + 1) 0 := by
        rw [List.getD_eq_getElem _ _ (by omega)]; exact hpos _ (List.getElem_mem _)
      by_contra hn
      push Not at hn
      have := mul_nonpos_of_nonneg_of_nonpos hp0 (sub_nonpos.2 hn)
      linarith
    refine ⟨i, hi, hb, ?_, ?_, hinc⟩
    · simp only [ArbPdf.draw, hb, if_true, hx, hwd]
      rw [if_neg (by omega), show i + 1 - 1 = i by omega, List.getElem?_eq_getElem (by omega),
        List.getElem?_cons_succ, List.getElem?_eq_getElem (by rw [diff_length]; omega)]
      dsimp only
      rw [hd, List.getD_eq_getElem x (n := i) _ (by omega)]
    · simp only [ArbPdf.draw, hb, Bool.false_eq_true, if_false, hx]
      rw [List.getElem?_eq_getElem hi, List.getD_eq_getElem _ _ hi]

/-- **C24** The exception: the random number 0, which `np.random.uniform` can return, always selects
the first bin of the (sorted) list, whatever its weight. For unsorted bins that is the first bin, which
has no lower edge, and the value returned is the *last* edge of the table. -/
theorem C24_draw_zero (x pdf : List ℝ) (hx : x ≠ []) (a : ArbPdf)
    (h : ArbPdf.init x pdf none = .ok a) (r : ℝ) :
    a.bin 0 = .ok 0 ∧ binWeight x pdf 0 = 0 ∧ a.draw true 0 r = .ok (x.getLast hx) := by
  have hf : IsArgsort none := by intro g hg; cases hg
  obtain ⟨hl, hxx, hwd, hcdf, wn, hsum, hlen, bn, σ, hσ, hpdf, hbin⟩ := init_ok hf h
  have hne : a.pdf ≠ [] := by
    intro h'; rw [h', List.length_nil] at hlen
    exact hx (List.length_eq_zero_iff.1 hlen.symm)
  have hsort : a.sortindex = none := by
    simp only [ArbPdf.init] at h
    split at h
    · cases h
    split at h
    · cases h
    split at h
    · cases h
    simp only [Except.ok.injEq] at h
    rw [← h]
  have hb : a.bin 0 = .ok 0 := by
    simp only [ArbPdf.bin, hcdf, cumsum_getLast hne, hsort, zero_mul]
    congr 1
    have hpos : 0 < a.pdf.length := List.length_pos_iff.2 hne
    rw [searchsortedLeft, findIdx_eq_iff _ _ _ (by rwa [cumsum_length])]
    refine ⟨?_, fun j hj => absurd hj (by omega)⟩
    rw [cumsum_getElem, decide_eq_true_eq]
    exact take_sum_nonneg wn _
  refine ⟨hb, rfl, ?_⟩
  simp only [ArbPdf.draw, hb, if_true, hxx, hwd]
  rw [List.getLast?_eq_some_getLast hx]
  simp

/-- **C24** Input that is not a distribution is rejected. -/
theorem C24_rejected (x pdf : List ℝ) (f : Option (List ℝ → List ℕ)) :
    (∃ a, ArbPdf.init x pdf f = .ok a) ↔
      x.length = pdf.length ∧ (∀ p ∈ pdf, 0 ≤ p) ∧ ∀ i, i + 1 < x.length → x.getD i 0 ≤ x.getD (i + 1) 0 := by
  have hw : (∀ w ∈ 0 :: diff x, 0 ≤ w) ↔ ∀ i, i + 1 < x.length → x.getD i 0 ≤ x.getD (i + 1) 0 := by
    constructor
    · intro h i hi
      have hd := diff_getD x i hi
      rw [List.getD_eq_getElem _ _ (by rw [diff_length]; omega)] at hd
      have := h _ (List.mem_cons_of_mem _ (List.getElem_mem (l := diff x) (n := i)
        (by rw [diff_length]; omega)))
      rw [hd] at this; linarith
    · intro h w hm
      rcases List.mem_cons.1 hm with rfl | hm
      · exact le_refl _
      · obtain ⟨i, hi, rfl⟩ := List.mem_iff_getElem.1 hm
        have hi' : i + 1 < x.length := by rw [diff_length] at hi; omega
        have hd := diff_getD x i hi'
        rw [List.getD_eq_getElem _ _ hi] at hd
        rw [hd]; linarith [h i hi']
  rw [← hw]
  simp only [ArbPdf.init]
  constructor
  · rintro ⟨a, h⟩
    split at h
    · cases h
    split at h
    · cases h
    split at h
    · cases h
    rename_i h1 h2 h3
    exact ⟨not_not.1 h1, not_not.1 h2, not_not.1 h3⟩
  · rintro ⟨h1, h2, h3⟩
    rw [if_neg (not_not.2 h1), if_neg (not_not.2 h2), if_neg (not_not.2 h3)]
    cases f with
    | none => exact ⟨_, rfl⟩
    | some g => exact ⟨_, rfl⟩

/-- the example in the docstring of `RandomArbitraryPdf`: weights 1 and 6 -/
example : ∃ a, ArbPdf.init [1, 2, 3] [0.2, 1, 6] none = .ok a ∧
    totalWeight [1, 2, 3] [0.2, 1, 6] = 7 ∧ binWeight [1, 2, 3] [0.2, 1, 6] 2 = 6 := by
  obtain ⟨a, ha⟩ := (C24_rejected [1, 2, 3] [0.2, 1, 6] none).2 ⟨rfl, by norm_num, by
    intro i hi
    simp at hi
    have : i = 0 ∨ i = 1 := by omega
    rcases this with rfl | rfl <;> norm_num⟩
  refine ⟨a, ha, ?_, by norm_num [binWeight]⟩
  simp [totalWeight, List.range, List.range.loop, binWeight]
  norm_num

/-! ## C25 -/

theorem sum_map_div (w : List ℝ) (t : ℝ) : (w.map (· / t)).sum = w.sum / t := by
  induction w with
  | nil => simp
  | cons a l ih => simp [add_div, ih]

theorem argmin_spec : ∀ l : List ℝ, l ≠ [] → argmin l < l.length ∧ ∀ y ∈ l, l.getD (argmin l) 0 ≤ y
  | [], h => absurd rfl h
  | [a], _ => by simp [argmin]
  | a :: b :: l, _ => by
    obtain ⟨h1, h2⟩ := argmin_spec (b :: l) (by simp)
    simp only [argmin]
    split
    · rename_i hle
      refine ⟨by simp, fun y hy => ?_⟩
      rcases List.mem_cons.1 hy with rfl | hy
      · simp
      · exact le_trans hle (h2 y hy)
    · rename_i hle
      push Not at hle
      refine ⟨by simpa using h1, fun y hy => ?_⟩
      rw [List.getD_cons_succ]
      rcases List.mem_cons.1 hy with rfl | hy
      · exact hle.le
      · exact h2 y hy

/-- the distance list of an energy grid -/
theorem nearest {energy : List ℝ} (hne : energy ≠ []) (e : ℝ) :
    argmin (energy.map (fun x => |x - e|)) < energy.length ∧
    ∀ x ∈ energy, |energy.getD (argmin (energy.map (fun x => |x - e|))) 0 - e| ≤ |x - e| := by
  obtain ⟨h1, h2⟩ := argmin_spec (energy.map (fun x => |x - e|)) (by simpa using hne)
  have h1' : argmin (energy.map (fun x => |x - e|)) < energy.length := by simpa using h1
  refine ⟨h1', fun x hx => ?_⟩
  have := h2 |x - e| (List.mem_map.2 ⟨x, hx, rfl⟩)
  rw [List.getD_eq_getElem _ _ h1, List.getElem_map] at this
  rwa [List.getD_eq_getElem _ _ h1']

/-- **C25** `EfficiencyFile`: for every photon energy and random number the order comes from the list
and the row used is that of the nearest energy; the probability returned is the sum over all orders of
that row; order number `k` of the list is selected for random numbers in an interval whose length is
the share of that order. -/
theorem C25_efficiency_file (energy : List ℝ) (prob : List (List ℝ)) (orders : List ℤ)
    (hne : energy ≠ []) (hlen : prob.length = energy.length)
    (hc : efficiencyFileCheck prob orders = .ok ())
    (hp : ∀ row ∈ prob, (∀ p ∈ row, 0 ≤ p) ∧ 0 < row.sum) (e : ℝ) :
    ∃ ind : ℕ, ∃ row, prob[ind]? = some row ∧
      (∀ x ∈ energy, |energy.getD ind 0 - e| ≤ |x - e|) ∧
      ∃ sel : ℝ → ℕ,
        (∀ r, 0 ≤ r → r < 1 → ∃ o, orders[sel r]? = some o ∧
          efficiencyFile energy prob orders e r = .ok (o, row.sum)) ∧
        ∀ k (hk : k < row.length), ∃ c, {r : ℝ | 0 ≤ r ∧ r < 1 ∧ sel r = k} =
          Set.Ico c (c + row[k] / row.sum) := by
  obtain ⟨h1, h2⟩ := nearest hne e
  set ind := argmin (energy.map (fun x => |x - e|)) with hind
  have hi : ind < prob.length := by omega
  have hrow : prob[ind]? = some prob[ind] := List.getElem?_eq_getElem hi
  have hmem : prob[ind] ∈ prob := List.getElem_mem hi
  set row := prob[ind] with hr
  obtain ⟨p0, p1⟩ := hp row hmem
  have hl : row.length = orders.length := by
    simp only [efficiencyFileCheck] at hc
    split at hc
    · rename_i hh; exact hh row hmem
    · cases hc
  refine ⟨ind, row, hrow, h2, fun r => ((cumsum row).map (· / row.sum)).findIdx (fun c => decide (r < c)),
    ?_, fun k hk => interval_of_index p0 p1 hk⟩
  intro r r0 r1
  have hk := index_lt p1 r0 r1
  rw [hl] at hk
  refine ⟨orders[((cumsum row).map (· / row.sum)).findIdx (fun c => decide (r < c))],
    List.getElem?_eq_getElem hk, ?_⟩
  simp only [efficiencyFile, hne, if_false, ← hind, hrow, p1.ne']
  rw [List.getElem?_eq_getElem hk]

/-- **C25** `InterpolateEfficiencyTable`: the same for the interpolated probabilities of a photon. -/
theorem C25_interpolate_table (probs : List ℝ) (orders : List ℤ) (hlen : probs.length = orders.length)
    (hp : ∀ p ∈ probs, 0 ≤ p) (ht : 0 < probs.sum) :
    ∃ sel : ℝ → ℕ,
      (∀ r, 0 ≤ r → r < 1 → ∃ o, orders[sel r]? = some o ∧
        interpolateTable probs orders r = .ok (o, probs.sum)) ∧
      ∀ k (hk : k < probs.length), ∃ c, {r : ℝ | 0 ≤ r ∧ r < 1 ∧ sel r = k} =
        Set.Ico c (c + probs[k] / probs.sum) := by
  refine ⟨fun r => ((cumsum probs).map (· / probs.sum)).findIdx (fun c => decide (r < c)), ?_,
    fun k hk => interval_of_index hp ht hk⟩
  intro r r0 r1
  have hk := index_lt ht r0 r1
  have hex : ∃ c ∈ (cumsum probs).map (· / probs.sum), r < c := by
    have hk' := hk
    rw [← cumsum_length probs, ← List.length_map (f := (· / probs.sum)), List.findIdx_lt_length] at hk'
    obtain ⟨c, c1, c2⟩ := hk'
    exact ⟨c, c1, by simpa using c2⟩
  rw [hlen] at hk
  refine ⟨orders[((cumsum probs).map (· / probs.sum)).findIdx (fun c => decide (r < c))],
    List.getElem?_eq_getElem hk, ?_⟩
  simp only [interpolateTable]
  rw [if_pos ⟨ht.ne', hex⟩, List.getElem?_eq_getElem hk]

/-- **C25** `InterpolateEfficiencyTable`: photons for which no order has any probability are assigned
the first order of the list, with survival probability 0. -/
theorem C25_no_probability (probs : List ℝ) (o : ℤ) (orders : List ℤ) (ht : probs.sum = 0) (r : ℝ) :
    interpolateTable probs (o :: orders) r = .ok (o, 0) := by
  simp [interpolateTable, ht]

/-- **C25** `OrderSelector`: weights which are not probabilities are rejected; otherwise every draw
gives an order from the list, order `k` for draws from an interval of length `p_k / sum(p)`, and the
survival probability is the sum of the weights, in [0, 1]; without weights all orders are equally
likely and no photon is lost. -/
theorem C25_order_selector (orders : List ℤ) (hne : orders ≠ []) (p : Option (List ℝ)) (w : List ℝ)
    (h : orderSelectorInit orders p = .ok w) (hs : w.sum ≠ 0) :
    (p = none → (∀ x ∈ w, x = 1 / (orders.length : ℝ)) ∧ w.sum = 1) ∧ (∀ q, p = some q → w = q) ∧
    w.length = orders.length ∧ 0 < w.sum ∧ w.sum ≤ 1 ∧
    ∃ sel : ℝ → ℕ,
      (∀ r, 0 ≤ r → r < 1 → ∃ o, orders[sel r]? = some o ∧ orderSelector orders w r = .ok (o, w.sum)) ∧
      ∀ k (hk : k < w.length), ∃ c, {r : ℝ | 0 ≤ r ∧ r < 1 ∧ sel r = k} =
        Set.Ico c (c + w[k] / w.sum) := by
  have key : (p = none → (∀ x ∈ w, x = 1 / (orders.length : ℝ)) ∧ w.sum = 1) ∧
      (∀ q, p = some q → w = q) ∧ w.length = orders.length ∧ (∀ x ∈ w, 0 ≤ x) ∧ w.sum ≤ 1 := by
    cases p with
    | none =>
      simp only [orderSelectorInit, Except.ok.injEq] at h
      have hl : (0 : ℝ) < orders.length := by exact_mod_cast List.length_pos_iff.2 hne
      have hsum : w.sum = 1 := by
        rw [← h, List.sum_replicate, nsmul_eq_mul]; field_simp
      refine ⟨fun _ => ⟨?_, hsum⟩, (by intro q hq; cases hq), ?_, ?_, hsum.le⟩
      · intro x hx; rw [← h] at hx; exact (List.mem_replicate.1 hx).2
      · rw [← h]; simp
      · intro x hx; rw [← h] at hx; rw [(List.mem_replicate.1 hx).2]; positivity
    | some q =>
      simp only [orderSelectorInit] at h
      split at h
      · cases h
      split at h
      · cases h
      split at h
      · cases h
      rename_i h1 h2 h3
      simp only [Except.ok.injEq] at h
      subst h
      push Not at h1 h2 h3
      refine ⟨(by intro hq; cases hq), (by intro q' hq; cases hq; rfl), h1, h3, h2⟩
  obtain ⟨k1, k2, k3, k4, k5⟩ := key
  have wpos : 0 < w.sum := lt_of_le_of_ne (List.sum_nonneg k4) (Ne.symm hs)
  have dsum : (w.map (· / w.sum)).sum = 1 := by
    have : (w.map (· / w.sum)).sum = w.sum / w.sum := by
      exact sum_map_div w w.sum
    rw [this]; exact div_self hs
  have dpos : ∀ x ∈ w.map (· / w.sum), 0 ≤ x := by
    intro x hx
    obtain ⟨y, hy, rfl⟩ := List.mem_map.1 hx
    exact div_nonneg (k4 y hy) wpos.le
  have sel_eq : ∀ r, searchsortedRight ((cumsum (w.map (· / w.sum))).map (· / (w.map (· / w.sum)).sum)) r =
      ((cumsum (w.map (· / w.sum))).map (· / (w.map (· / w.sum)).sum)).findIdx
        (fun c => decide (r < c)) := fun r => rfl
  refine ⟨k1, k2, k3, wpos, k5, fun r =>
    ((cumsum (w.map (· / w.sum))).map (· / (w.map (· / w.sum)).sum)).findIdx (fun c => decide (r < c)),
    ?_, ?_⟩
  · intro r r0 r1
    have hk := index_lt (l := w.map (· / w.sum)) (by rw [dsum]; norm_num) r0 r1
    rw [List.length_map, k3] at hk
    refine ⟨_, List.getElem?_eq_getElem hk, ?_⟩
    simp only [orderSelector, hs, if_false, randomChoice, sel_eq]
    rw [List.getElem?_eq_getElem hk]
  · intro k hk
    obtain ⟨c, hc⟩ := interval_of_index (l := w.map (· / w.sum)) dpos (by rw [dsum]; norm_num) (k := k)
      (by simpa using hk)
    refine ⟨c, ?_⟩
    rw [hc, dsum, List.getElem_map, div_one]

/-- **C25** Weights that are rejected by `OrderSelector`. -/
theorem C25_order_selector_rejects (orders : List ℤ) (p : List ℝ) :
    (∃ w, orderSelectorInit orders (some p) = .ok w) ↔
      p.length = orders.length ∧ p.sum ≤ 1 ∧ ∀ x ∈ p, 0 ≤ x := by
  simp only [orderSelectorInit]
  constructor
  · rintro ⟨w, h⟩
    split at h
    · cases h
    split at h
    · cases h
    split at h
    · cases h
    rename_i h1 h2 h3
    push Not at h1 h2 h3
    exact ⟨h1, h2, h3⟩
  · rintro ⟨h1, h2, h3⟩
    refine ⟨p, ?_⟩
    rw [if_neg (not_not.2 h1), if_neg (not_lt.2 h2), if_neg (by push Not; exact h3)]

example : efficiencyFileCheck [[0.1, 0.5], [0.2, 0.3]] [0, 1] = .ok () ∧
    (∀ row ∈ [[0.1, 0.5], [0.2, (0.3 : ℝ)]], (∀ p ∈ row, 0 ≤ p) ∧ 0 < row.sum) ∧
    (∃ w, orderSelectorInit [-1, 0, 1] (some [0.2, 0.3, 0.2]) = .ok w) := by
  refine ⟨by simp [efficiencyFileCheck], by norm_num, ?_⟩
  rw [C25_order_selector_rejects]
  norm_num

/-! ## C26 -/

/-- **C26** Every photon goes through exactly one of the apertures, however the list of numbers is
shuffled, and shuffling does not change how many photons pass each aperture. -/
theorem C26_exactly_one (areas draws : List ℝ) (ht : 0 < areas.sum)
    (hd : ∀ r ∈ draws, 0 ≤ r ∧ r < 1) (ids : List ℕ) (hsh : ids.Perm (apertureIds areas draws)) :
    ids.length = draws.length ∧
    (∀ j, j < draws.length → ∃! i, i < areas.length ∧ (apertureMask ids i)[j]? = some true) ∧
    ∀ i, (apertureMask ids i).count true = (apertureIds areas draws).count i := by
  have hl : ids.length = draws.length := by rw [hsh.length_eq]; simp [apertureIds]
  refine ⟨hl, ?_, ?_⟩
  · intro j hj
    have hj' : j < ids.length := by omega
    have hm : ids[j] ∈ apertureIds areas draws := hsh.mem_iff.1 (List.getElem_mem hj')
    obtain ⟨r, hr, hr'⟩ := List.mem_map.1 hm
    have hlt := index_lt ht (hd r hr).1 (hd r hr).2
    refine ⟨ids[j], ⟨?_, ?_⟩, ?_⟩
    · rw [← hr']; exact hlt
    · simp [apertureMask, hj']
    · rintro i ⟨_, hi⟩
      simp [apertureMask, hj'] at hi
      exact hi.symm
  · intro i
    rw [← hsh.count_eq i]
    simp only [apertureMask, List.count_eq_countP, List.countP_map]
    congr 1
    funext a
    simp

/-- **C26** Aperture `i` is chosen for random numbers in an interval whose length is its share of the
total area. -/
theorem C26_proportional (areas : List ℝ) (hp : ∀ a ∈ areas, 0 ≤ a) (ht : 0 < areas.sum) (i : ℕ)
    (hi : i < areas.length) :
    ∃ c, {r : ℝ | 0 ≤ r ∧ r < 1 ∧ apertureIds areas [r] = [i]} =
      Set.Ico c (c + areas[i] / areas.sum) := by
  obtain ⟨c, hc⟩ := interval_of_index hp ht hi
  refine ⟨c, ?_⟩
  rw [← hc]
  ext r
  simp [apertureIds, searchsortedRight]

example : 0 < [1, 2, (3 : ℝ)].sum ∧ (∀ a ∈ [1, 2, (3 : ℝ)], 0 ≤ a) := by norm_num

end Marxs
