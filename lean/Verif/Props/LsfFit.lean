import Mathlib.Algebra.BigOperators.Group.List.Basic
import Mathlib.Data.List.GetD
import Mathlib.Tactic.IntervalCases
import Verif.Model.LsfFit
import Verif.Props.Grid

/-!
# C140: data for fits of a line spread function
-/

namespace Marxs
open Classical

/-- Sum of the probabilities of the events with a property. -/
noncomputable def totalWhere (evt : List (ℝ × ℝ)) (P : ℝ → Prop) : ℝ := ((evt.filter fun e => decide (P e.1)).map Prod.snd).sum

theorem totalWhere_nil (P : ℝ → Prop) : totalWhere [] P = 0 := rfl

theorem totalWhere_cons (e : ℝ × ℝ) (l : List (ℝ × ℝ)) (P : ℝ → Prop) : totalWhere (e :: l) P = (if P e.1 then e.2 else 0) + totalWhere l P := by
  unfold totalWhere
  by_cases h : P e.1
  · simp [h]
  · simp [h]

/-- Each value in the range of the edges is in exactly one bin. -/
theorem one_bin (edges : List ℝ) (hs : edges.Pairwise (· < ·)) (x w : ℝ) (h2 : 2 ≤ edges.length) :
    ((List.range (edges.length - 1)).map fun i => if edges.getD i 0 ≤ x ∧ (x < edges.getD (i + 1) 0 ∨ (i + 2 = edges.length ∧ x = edges.getD (i + 1) 0)) then w else 0).sum =
      if edges.getD 0 0 ≤ x ∧ x ≤ edges.getD (edges.length - 1) 0 then w else 0 := by
  induction edges with
  | nil => simp at h2
  | cons a l ih =>
    cases l with
    | nil => simp at h2
    | cons b l =>
      have hab : a < b := (List.pairwise_cons.1 hs).1 b (by simp)
      have hs' := (List.pairwise_cons.1 hs).2
      have hlen : (a :: b :: l).length - 1 = l.length + 1 := by simp
      rw [hlen, List.range_succ_eq_map, List.map_cons, List.sum_cons, List.map_map]
      cases l with
      | nil =>
        simp
        by_cases h1 : a ≤ x
        · by_cases h3 : x ≤ b
          · rcases h3.lt_or_eq with h | h <;> simp [h1, h, h.le]
          · push Not at h3
            simp [h1, h3.not_ge, h3.not_gt, h3.ne']
        · simp [h1]
      | cons c l =>
        have ih' := ih hs' (by simp)
        have hlen2 : (b :: c :: l).length - 1 = (c :: l).length := by simp
        rw [hlen2] at ih'
        have hfun : ((fun i => if (a :: b :: c :: l).getD i 0 ≤ x ∧ (x < (a :: b :: c :: l).getD (i + 1) 0 ∨ (i + 2 = (a :: b :: c :: l).length ∧ x = (a :: b :: c :: l).getD (i + 1) 0)) then w else 0) ∘ Nat.succ) =
            fun i => if (b :: c :: l).getD i 0 ≤ x ∧ (x < (b :: c :: l).getD (i + 1) 0 ∨ (i + 2 = (b :: c :: l).length ∧ x = (b :: c :: l).getD (i + 1) 0)) then w else 0 := by
          funext i
          simp
        rw [hfun, ih']
        have hlast : (a :: b :: c :: l).getD (c :: l).length.succ 0 = (b :: c :: l).getD (c :: l).length 0 := by simp
        have hb0 : (b :: c :: l).getD 0 0 = b := rfl
        have ha0 : (a :: b :: c :: l).getD 0 0 = a := rfl
        have ha1 : (a :: b :: c :: l).getD (0 + 1) 0 = b := rfl
        have hbl : b ≤ (b :: c :: l).getD (c :: l).length 0 := by
          rw [List.getD_eq_getElem _ _ (by simp)]
          have : (b :: c :: l)[(c :: l).length]'(by simp) ∈ (c :: l) := by simp
          exact ((List.pairwise_cons.1 hs').1 _ this).le
        have hne : ¬ (0 + 2 = (a :: b :: c :: l).length) := by simp
        rw [ha0, ha1, hb0]
        simp only [hne, false_and, or_false]
        generalize (b :: c :: l).getD (c :: l).length 0 = z at *
        rw [show (a :: b :: c :: l).getD ((c :: l).length + 1) 0 = z from hlast]
        by_cases h1 : a ≤ x
        · by_cases h3 : x < b
          · simp [h1, h3, h3.not_ge, (h3.le.trans hbl)]
          · push Not at h3
            simp [h1, h3, h3.not_gt]
        · push Not at h1
          simp [h1.not_ge, (h1.trans hab).not_ge]

theorem npHistogram_eq (edges : List ℝ) (evt : List (ℝ × ℝ)) : npHistogram edges evt = (List.range (edges.length - 1)).map fun i =>
    totalWhere evt fun x => edges.getD i 0 ≤ x ∧ (x < edges.getD (i + 1) 0 ∨ (i + 2 = edges.length ∧ x = edges.getD (i + 1) 0)) := by
  unfold npHistogram totalWhere
  apply List.map_congr_left
  intro i _
  congr 2
  apply List.filter_congr
  intro x _
  simp only [decide_eq_decide]

theorem hist_total (edges : List ℝ) (hs : edges.Pairwise (· < ·)) (h2 : 2 ≤ edges.length) (evt : List (ℝ × ℝ)) :
    (npHistogram edges evt).sum = totalWhere evt fun x => edges.getD 0 0 ≤ x ∧ x ≤ edges.getD (edges.length - 1) 0 := by
  rw [npHistogram_eq]
  induction evt with
  | nil => simp [totalWhere_nil]
  | cons e evt ih =>
    have h1 := one_bin edges hs e.1 e.2 h2
    simp only [totalWhere_cons]
    rw [List.sum_map_add, ih]
    congr 1
    convert h1 using 1
    · congr 1
      apply List.map_congr_left
      intro i _
      congr
    · congr

theorem lsfEdges_eq (evt : List (ℝ × ℝ)) (wavebin dWave : ℝ) : lsfEdges evt wavebin dWave =
    (List.range ⌈2 * dWave / wavebin⌉₊).map fun i : ℕ => (evt.map Prod.fst).sum / evt.length - dWave + i * wavebin := by
  unfold lsfEdges npArange
  rw [List.map_map, show dWave - -dWave = 2 * dWave by ring]
  apply List.map_congr_left
  intro i _
  simp only [Function.comp]
  ring

theorem lsfEdges_sorted (evt : List (ℝ × ℝ)) {wavebin dWave : ℝ} (hw : 0 < wavebin) : (lsfEdges evt wavebin dWave).Pairwise (· < ·) := by
  rw [lsfEdges_eq, List.pairwise_map]
  refine List.pairwise_lt_range.imp fun {a b} h => ?_
  have : (a : ℝ) < b := by exact_mod_cast h
  nlinarith

theorem lsfEdges_getD (evt : List (ℝ × ℝ)) (wavebin dWave : ℝ) (i : ℕ) (hi : i < ⌈2 * dWave / wavebin⌉₊) :
    (lsfEdges evt wavebin dWave).getD i 0 = (evt.map Prod.fst).sum / evt.length - dWave + i * wavebin := by
  rw [lsfEdges_eq, List.getD_eq_getElem _ _ (by simpa using hi)]
  simp

theorem lsfData_counts (evt : List (ℝ × ℝ)) (wavebin dWave : ℝ) :
    (lsfData evt wavebin dWave).map LsfBin.counts = npHistogram (lsfEdges evt wavebin dWave) evt := by
  unfold lsfData
  simp only [List.map_map, Function.comp_def]
  apply List.map_snd_zip
  simp [npHistogram]

/-- **C140** The bins: they start at `dWave` below the mean wavelength, each has the width `wavebin` and starts where the last one ends; the counts are the probabilities of the photons in the bin, the error is never below 1 and otherwise the square root of the counts. -/
theorem C140_bins (evt : List (ℝ × ℝ)) (wavebin dWave : ℝ) (n : ℕ) (hn : n + 1 = ⌈2 * dWave / wavebin⌉₊) (mean : ℝ) (hm : mean = (evt.map Prod.fst).sum / evt.length) :
    (lsfData evt wavebin dWave).length = n ∧
    ∀ (i : ℕ) b, (lsfData evt wavebin dWave)[i]? = some b → b.lo = mean - dWave + i * wavebin ∧ b.hi = b.lo + wavebin ∧
      b.counts = totalWhere evt (fun x => b.lo ≤ x ∧ (x < b.hi ∨ i + 1 = n ∧ x = b.hi)) ∧ 1 ≤ b.err ∧ (1 ≤ b.counts → b.err ^ 2 = b.counts) := by
  have hlen : (lsfEdges evt wavebin dWave).length = n + 1 := by rw [lsfEdges_eq]; simp [hn]
  constructor
  · simp [lsfData, npHistogram, hlen]
  · intro i b hb
    have hi : i < n := by
      have := (List.getElem?_eq_some_iff.1 hb).1
      simpa [lsfData, npHistogram, hlen] using this
    have g1 := lsfEdges_getD evt wavebin dWave i (by omega)
    have g2 := lsfEdges_getD evt wavebin dWave (i + 1) (by omega)
    have e1 : (lsfEdges evt wavebin dWave).dropLast[i]? = some ((lsfEdges evt wavebin dWave).getD i 0) := by
      rw [List.getElem?_dropLast, if_pos (by omega), List.getD_eq_getElem?_getD, List.getElem?_eq_getElem (by omega)]
      rfl
    have e2 : (lsfEdges evt wavebin dWave).tail[i]? = some ((lsfEdges evt wavebin dWave).getD (i + 1) 0) := by
      rw [List.getElem?_tail, List.getD_eq_getElem?_getD, List.getElem?_eq_getElem (by omega)]
      rfl
    have e3 : (npHistogram (lsfEdges evt wavebin dWave) evt)[i]? = some (totalWhere evt fun x => (lsfEdges evt wavebin dWave).getD i 0 ≤ x ∧
        (x < (lsfEdges evt wavebin dWave).getD (i + 1) 0 ∨ (i + 2 = (lsfEdges evt wavebin dWave).length ∧ x = (lsfEdges evt wavebin dWave).getD (i + 1) 0))) := by
      rw [npHistogram_eq, List.getElem?_map, List.getElem?_range (by omega), Option.map_some]
    have hz : ((lsfEdges evt wavebin dWave).dropLast.zip (lsfEdges evt wavebin dWave).tail)[i]? = some ((lsfEdges evt wavebin dWave).getD i 0, (lsfEdges evt wavebin dWave).getD (i + 1) 0) :=
      List.getElem?_zip_eq_some.2 ⟨e1, e2⟩
    obtain ⟨T, hT⟩ : ∃ T, T = totalWhere evt fun x => (lsfEdges evt wavebin dWave).getD i 0 ≤ x ∧
        (x < (lsfEdges evt wavebin dWave).getD (i + 1) 0 ∨ (i + 2 = (lsfEdges evt wavebin dWave).length ∧ x = (lsfEdges evt wavebin dWave).getD (i + 1) 0)) := ⟨_, rfl⟩
    rw [← hT] at e3
    have hz2 := (List.getElem?_zip_eq_some (z := (((lsfEdges evt wavebin dWave).getD i 0, (lsfEdges evt wavebin dWave).getD (i + 1) 0), T))).2 ⟨hz, e3⟩
    simp only [lsfData] at hb
    rw [List.getElem?_map, hz2, Option.map_some, Option.some.injEq] at hb
    subst hb
    rw [hlen] at hT
    refine ⟨by rw [g1, hm], by simp only [g1, g2]; push_cast; ring, ?_, le_max_right _ _, ?_⟩
    · show T = _
      rw [hT]
      congr 1
      funext x
      rw [show (i + 2 = n + 1) = (i + 1 = n) by simp]
    · intro h
      show (max (Real.sqrt _) 1) ^ 2 = _
      rw [max_eq_left (Real.one_le_sqrt.2 h), Real.sq_sqrt (by linarith)]

/-- **C140** The sum over all bins is the sum of the probabilities of the photons from `dWave` below to `dWave` minus one bin above the mean wavelength, and perhaps some up to `dWave`. For the documented range see `C140_range_false`. -/
theorem C140_total_partial (evt : List (ℝ × ℝ)) (wavebin dWave : ℝ) (hw : 0 < wavebin) (hd : wavebin < 2 * dWave) (mean : ℝ) (hm : mean = (evt.map Prod.fst).sum / evt.length) :
    ∃ last, mean + dWave - wavebin ≤ last ∧ last < mean + dWave ∧
      ((lsfData evt wavebin dWave).map LsfBin.counts).sum = totalWhere evt fun x => mean - dWave ≤ x ∧ x ≤ last := by
  have h1 : 1 < 2 * dWave / wavebin := by rw [lt_div_iff₀ hw]; linarith
  obtain ⟨n, hn⟩ : ∃ n, n + 2 = ⌈2 * dWave / wavebin⌉₊ := by
    have : 1 < ⌈2 * dWave / wavebin⌉₊ := by rw [Nat.lt_ceil]; exact_mod_cast h1
    exact ⟨⌈2 * dWave / wavebin⌉₊ - 2, by omega⟩
  have hlen : (lsfEdges evt wavebin dWave).length = n + 2 := by rw [lsfEdges_eq]; simp [hn]
  have hlo := Nat.le_ceil (2 * dWave / wavebin)
  have hhi := Nat.ceil_lt_add_one (show 0 ≤ 2 * dWave / wavebin by linarith)
  rw [← hn] at hlo hhi
  push_cast at hlo hhi
  rw [div_le_iff₀ hw] at hlo
  have hhi' : ((n : ℝ) + 1) * wavebin < 2 * dWave := by
    rw [← lt_div_iff₀ hw]; linarith
  refine ⟨mean - dWave + ((n + 1 : ℕ) : ℝ) * wavebin, ?_, ?_, ?_⟩
  · push_cast; nlinarith
  · push_cast; nlinarith
  · rw [lsfData_counts, hist_total _ (lsfEdges_sorted evt hw) (by omega), hlen, show n + 2 - 1 = n + 1 by omega, lsfEdges_getD _ _ _ 0 (by omega), lsfEdges_getD _ _ _ (n + 1) (by omega), ← hm]
    simp

/-- **C140** (disagreement) `d_wave` is documented as the half-width of the range that is fitted, but the last bin is missing: of two photons the same distance below and above the mean, less than `d_wave` away, only one is counted. (With a half-width that is a multiple of the bin size, as for the default values.) -/
theorem C140_range_false (wavebin lam : ℝ) (k : ℕ) (hw : 0 < wavebin) (hk : 1 ≤ k) :
    ((lsfData [(lam - (k * wavebin - wavebin / 2), 1), (lam + (k * wavebin - wavebin / 2), 1)] wavebin (k * wavebin)).map LsfBin.counts).sum = 1 := by
  have hk' : (1 : ℝ) ≤ k := by exact_mod_cast hk
  have hmean : lam = (([(lam - (k * wavebin - wavebin / 2), (1 : ℝ)), (lam + (k * wavebin - wavebin / 2), 1)] : List (ℝ × ℝ)).map Prod.fst).sum / (([(lam - (k * wavebin - wavebin / 2), (1 : ℝ)), (lam + (k * wavebin - wavebin / 2), 1)] : List (ℝ × ℝ)).length : ℝ) := by
    simp
  have hce : ⌈2 * (k * wavebin) / wavebin⌉₊ = 2 * k := by
    rw [show 2 * (k * wavebin) / wavebin = ((2 * k : ℕ) : ℝ) by push_cast; field_simp, Nat.ceil_natCast]
  have hlen : (lsfEdges [(lam - (k * wavebin - wavebin / 2), 1), (lam + (k * wavebin - wavebin / 2), 1)] wavebin (k * wavebin)).length = 2 * k := by rw [lsfEdges_eq]; simp [hce]
  rw [lsfData_counts, hist_total _ (lsfEdges_sorted _ hw) (by omega), hlen, lsfEdges_getD _ _ _ 0 (by omega), lsfEdges_getD _ _ _ (2 * k - 1) (by omega), ← hmean]
  have hc : ((2 * k - 1 : ℕ) : ℝ) = 2 * k - 1 := by rw [Nat.cast_sub (by omega)]; push_cast; ring
  rw [totalWhere_cons, totalWhere_cons, totalWhere_nil, hc]
  rw [if_pos ⟨by push_cast; nlinarith, by nlinarith⟩, if_neg (by rintro ⟨_, h⟩; nlinarith)]
  norm_num

/-- **C140** (disagreement) Photons that are lost (probability 0) change the result: here a lost photon moves the range away from the only photon that is detected. -/
theorem C140_lost_false :
    ((lsfData [(0, 1)] (1 / 4) 1).map LsfBin.counts).sum = 1 ∧ ((lsfData [(0, 1), (10, 0)] (1 / 4) 1).map LsfBin.counts).sum = 0 := by
  have hce : ⌈2 * (1 : ℝ) / (1 / 4)⌉₊ = 8 := by
    rw [show 2 * (1 : ℝ) / (1 / 4) = ((8 : ℕ) : ℝ) by norm_num, Nat.ceil_natCast]
  have hlen : ∀ evt, (lsfEdges evt (1 / 4) 1).length = 8 := by intro evt; rw [lsfEdges_eq, hce]; simp
  constructor
  all_goals
    rw [lsfData_counts, hist_total _ (lsfEdges_sorted _ (by norm_num)) (by rw [hlen]; omega), hlen, lsfEdges_getD _ _ _ 0 (by rw [hce]; omega), lsfEdges_getD _ _ _ (8 - 1) (by rw [hce]; omega)]
    simp only [totalWhere_cons, totalWhere_nil]
    norm_num

/-! ## Tables -/

theorem foldl_max_ge (l : List (ℝ × ℝ)) (m : ℝ) : m ≤ l.foldl (fun m p => max m (p.2 - p.1)) m ∧ ∀ p ∈ l, p.2 - p.1 ≤ l.foldl (fun m p => max m (p.2 - p.1)) m := by
  induction l generalizing m with
  | nil => simp
  | cons a l ih =>
    obtain ⟨h1, h2⟩ := ih (max m (a.2 - a.1))
    rw [List.foldl_cons]
    refine ⟨(le_max_left _ _).trans h1, ?_⟩
    intro p hp
    rcases List.mem_cons.1 hp with rfl | hp
    · exact (le_max_right _ _).trans h1
    · exact h2 p hp

theorem maxDiff_spec (waves : List ℝ) (h2 : 2 ≤ waves.length) (hw : waves.Pairwise (· < ·)) :
    ∃ m, maxDiff waves = some m ∧ 0 < m ∧ ∀ i, i + 1 < waves.length → waves.getD (i + 1) 0 - waves.getD i 0 ≤ m := by
  match waves, h2, hw with
  | a :: b :: l, _, hw =>
    obtain ⟨h1, h3⟩ := foldl_max_ge ((b :: l).zip l) (b - a)
    have hab : a < b := (List.pairwise_cons.1 hw).1 b (by simp)
    refine ⟨_, rfl, by linarith, ?_⟩
    intro i hi
    cases i with
    | zero => exact h1
    | succ i =>
      have hi' : i < l.length := by simpa using hi
      have hmem : ((b :: l)[i]'(by simp; omega), l[i]) ∈ (b :: l).zip l := by
        apply List.mem_of_getElem? (i := i)
        exact List.getElem?_zip_eq_some.2 ⟨List.getElem?_eq_getElem _, List.getElem?_eq_getElem _⟩
      have := h3 _ hmem
      have d1 : (a :: b :: l).getD (i + 1 + 1) 0 = l[i] := by
        rw [List.getD_cons_succ, List.getD_cons_succ, List.getD_eq_getElem _ _ hi']
      have d2 : (a :: b :: l).getD (i + 1) 0 = (b :: l)[i]'(by simp; omega) := by
        rw [List.getD_cons_succ, List.getD_eq_getElem]
      rw [d1, d2]
      exact this

/-- **C140** The table for the results: wavelengths in increasing order are inside of their box, and the box of each wavelength reaches the next one; there is one column for each component. -/
theorem C140_table (widths waves : List ℝ) (comps : List LsfComponent) (h2 : 2 ≤ waves.length) (hw : waves.Pairwise (· < ·)) (hn : (comps.map LsfComponent.name).Nodup)
    (hc : ∀ c ∈ comps, c.normGaussOrLorentz = true) :
    ∃ t dwave, emptyLsfTable widths waves comps = .ok t ∧ t.numWidths = t.widths.length ∧ t.numLambdas = t.lambdas.length ∧ t.widths = widths ∧ t.lambdas = waves ∧
      1.2 < dwave ∧ t.lamLo = waves.map (· - dwave) ∧ t.lamHi = waves.map (· + dwave) ∧
      (∀ i, i + 1 < waves.length → waves.getD (i + 1) 0 - dwave < waves.getD i 0 ∧ waves.getD (i + 1) 0 < waves.getD i 0 + dwave) ∧
      t.parms = comps.map (fun c => c.name ++ "_PARMS") := by
  obtain ⟨m, hm, hpos, hmax⟩ := maxDiff_spec waves h2 hw
  refine ⟨⟨widths.length, widths, waves.length, waves, waves.map (· - (m + 1.2)), waves.map (· + (m + 1.2)), comps.map fun c => c.name ++ "_PARMS"⟩, m + 1.2, ?_, rfl, rfl, rfl, rfl, by linarith, rfl, rfl, ?_, rfl⟩
  · simp only [emptyLsfTable, hm]
    rw [if_neg (not_not.2 hn), if_neg (not_not.2 hc)]
  · intro i hi
    have h1 := hmax i hi
    constructor <;> linarith

/-- **C140** (disagreement) A table for a single wavelength cannot be made. -/
theorem C140_single_false (widths : List ℝ) (wave : ℝ) (comps : List LsfComponent) : emptyLsfTable widths [wave] comps = .error .valueError := by
  simp [emptyLsfTable, maxDiff]

/-- **C140** (disagreement) For wavelengths in decreasing order the boxes are wrong: here the lower end is above the upper end. -/
theorem C140_decreasing_false (widths : List ℝ) (comps : List LsfComponent) (hn : (comps.map LsfComponent.name).Nodup) (hc : ∀ c ∈ comps, c.normGaussOrLorentz = true) :
    ∃ t, emptyLsfTable widths [20, 10] comps = .ok t ∧ ∀ i < 2, t.lamHi.getD i 0 < t.lamLo.getD i 0 := by
  refine ⟨⟨widths.length, widths, 2, [20, 10], [20, 10].map (· - ((10 - 20 : ℝ) + 1.2)), [20, 10].map (· + ((10 - 20 : ℝ) + 1.2)), comps.map fun c => c.name ++ "_PARMS"⟩, ?_, ?_⟩
  · simp only [emptyLsfTable, maxDiff, List.zip_nil_right, List.foldl_nil]
    rw [if_neg (not_not.2 hn), if_neg (not_not.2 hc)]
    rfl
  · intro i hi
    interval_cases i <;> norm_num

/-- **C140** Components with the same name, or of another type, are refused. -/
theorem C140_refused (widths waves : List ℝ) (comps : List LsfComponent) (h : ¬ (comps.map LsfComponent.name).Nodup ∨ ∃ c ∈ comps, c.normGaussOrLorentz = false) :
    emptyLsfTable widths waves comps = .error .valueError := by
  unfold emptyLsfTable
  split
  · rfl
  · by_cases hn : (comps.map LsfComponent.name).Nodup
    · rw [if_neg (not_not.2 hn), if_pos]
      rcases h with h | ⟨c, hc, hf⟩
      · exact (h hn).elim
      · intro hall
        have := hall c hc
        rw [hf] at this
        exact absurd this (by decide)
    · rw [if_pos hn]

/-- Non-vacuity: the default values for bins, and a table with two wavelengths and two components. -/
example : (0 : ℝ) < 0.001 ∧ (0.001 : ℝ) < 2 * 0.03 ∧ (0.03 : ℝ) = (30 : ℕ) * 0.001 ∧ 59 + 1 = ⌈2 * (0.03 : ℝ) / 0.001⌉₊ ∧ ([10, 20] : List ℝ).Pairwise (· < ·) ∧
    (([⟨"GAUSS1", true⟩, ⟨"LORENTZ1", true⟩] : List LsfComponent).map LsfComponent.name).Nodup := by
  refine ⟨by norm_num, by norm_num, by norm_num, ?_, by norm_num, by decide⟩
  rw [show 2 * (0.03 : ℝ) / 0.001 = ((60 : ℕ) : ℝ) by norm_num, Nat.ceil_natCast]

end Marxs
