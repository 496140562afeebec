import Verif.Spec.OsipPlot
import Verif.Props.Osip
import Verif.Props.Rmf0

/-!
# C161: plots of order sorting
-/

namespace Marxs
open Classical

theorem mapM_ok {α β : Type} {f : α → Except Err β} : ∀ {l : List α} {g : α → β}, (∀ x ∈ l, f x = .ok (g x)) →
    l.mapM f = .ok (l.map g)
  | [], _, _ => rfl
  | a :: l, g, h => by
    rw [List.mapM_cons, h a (by simp), mapM_ok (l := l) (g := g) fun x hx => h x (by simp [hx])]
    rfl

theorem energy_pos {hc x : ℝ} (hh : 0 < hc) (hx : 0 < x) {m : ℤ} (hm : m ≠ 0) : 0 < hc / (x / |(m : ℝ)|) := by
  have : (0 : ℝ) < |(m : ℝ)| := abs_pos.2 (by exact_mod_cast hm)
  positivity

theorem zip_self {α β γ : Type} (f : α → β → γ) (g : α → β) (l : List α) :
    List.zipWith f l (l.map g) = l.map fun x => f x (g x) := by
  induction l with
  | nil => rfl
  | cons a l ih => simp [ih]

/-- **C161** The band that is drawn for an order is the order-sorting window: at each place of the grid the line shows
the energy of the photons that are seen there in this order, and the borders of the band are the borders of the window
(for windows of fixed width and windows that are a fraction of the distance between orders). -/
theorem C161_band_partial {hc : ℝ} (hh : 0 < hc) (tab : List (ℝ × ℝ)) (o : Osip)
    (ho : (∃ w, o = .fixedWidth w) ∨ ∃ f, o = .fractionalDistance f) (grid : List ℝ) (hg : grid ≠ [])
    (hpos : ∀ x ∈ grid, 0 < x) (m : ℤ) (hm : m ≠ 0) :
    ∃ b, plotOsip hc tab o grid m = .ok b ∧ b.order = m ∧ b.grid = grid ∧ b.energy.length = grid.length ∧
      b.lower.length = grid.length ∧ b.upper.length = grid.length ∧
      ∀ (i : ℕ) x, grid[i]? = some x → ∃ e r, b.energy[i]? = some e ∧ SeenAt hc x e m ∧ osipRange tab o e m = .ok r ∧
        b.lower[i]? = some r.1 ∧ b.upper[i]? = some r.2 := by
  have key : ∃ g : ℝ → ℝ × ℝ, ∀ E, osipTab tab o E m = .ok (g E) ∧ osipRange tab o E m = .ok (E - (g E).1, E + (g E).2) := by
    rcases ho with ⟨w, rfl⟩ | ⟨f, rfl⟩
    · exact ⟨fun _ => fixedWidthTab w, fun E => ⟨rfl, by simp [osipRange, rangeFromTab, sub_eq_add_neg]⟩⟩
    · exact ⟨fun E => fractionalTab f E m, fun E => ⟨rfl, by simp [osipRange, rangeFromTab, sub_eq_add_neg]⟩⟩
  obtain ⟨g, hgt⟩ := key
  have e1 : (osipEnergies hc grid m).mapM (fun E => osipTab tab o E m) = .ok ((osipEnergies hc grid m).map g) :=
    mapM_ok fun E _ => (hgt E).1
  refine ⟨_, by simp only [plotOsip, e1, if_neg hg]; rfl, rfl, rfl, by simp [osipEnergies], by simp [osipEnergies],
    by simp [osipEnergies], ?_⟩
  intro i x hx
  have hx0 := hpos x (List.mem_of_getElem? hx)
  have hm0 : (0 : ℝ) < |(m : ℝ)| := abs_pos.2 (by exact_mod_cast hm)
  refine ⟨hc / (x / |(m : ℝ)|), _, ?_, ?_, (hgt _).2, ?_, ?_⟩
  · simp [osipEnergies, hx]
  · unfold SeenAt; field_simp
  · simp [zip_self, osipEnergies, hx]
  · simp [zip_self, osipEnergies, hx]

/-- **C161** (finding) For windows with a fixed fraction of the photons the upper border of the band is too high by twice
the energy. -/
theorem C161_band_false {hc : ℝ} (hh : 0 < hc) {tab : List (ℝ × ℝ)} (h : GoodTab tab) (a : ℝ) (x : ℝ) (hx : 0 < x) (m : ℤ)
    (hm : m ≠ 0) :
    ∃ b e r, plotOsip hc tab (.fixedFraction a) [x] m = .ok b ∧ b.energy = [e] ∧ 0 < e ∧
      osipRange tab (.fixedFraction a) e m = .ok r ∧ b.lower = [r.1] ∧ b.upper = [r.2 + 2 * e] := by
  obtain ⟨t, r, h1, h2, h3, h4⟩ := C75_fixed_fraction_false h a (hc / (x / |(m : ℝ)|)) m
  refine ⟨⟨m, [x], [hc / (x / |(m : ℝ)|)], [r.1], [r.2 + 2 * (hc / (x / |(m : ℝ)|))]⟩, _, r, ?_, rfl, energy_pos hh hx hm, h2,
    rfl, rfl⟩
  simp only [plotOsip, osipEnergies, List.map_cons, List.map_nil, List.mapM_cons, h1, List.mapM_nil]
  show (if [x] = [] then _ else _) = _
  rw [if_neg (by simp)]
  simp [h3, h4]

/-- **C161** In the plot, the bands of neighbouring orders do not overlap, if the width is at most the distance between
orders. -/
theorem C161_bands_apart {hc : ℝ} (hh : 0 < hc) (tab : List (ℝ × ℝ)) (f : ℝ) (hf : f ≤ 1) (grid : List ℝ) (hg : grid ≠ [])
    (hpos : ∀ x ∈ grid, 0 < x) (m m' : ℤ) (hm : m ≠ 0) (hm' : |m'| = |m| + 1) :
    ∃ b b', plotOsip hc tab (.fractionalDistance f) grid m = .ok b ∧
      plotOsip hc tab (.fractionalDistance f) grid m' = .ok b' ∧
      ∀ (i : ℕ) u l, b.upper[i]? = some u → b'.lower[i]? = some l → u ≤ l := by
  have hm0 : m' ≠ 0 := by
    intro h0
    rw [h0, abs_zero] at hm'
    have := abs_nonneg m
    omega
  obtain ⟨b, hb, -, -, -, -, lu, h1⟩ := C161_band_partial hh tab _ (.inr ⟨f, rfl⟩) grid hg hpos m hm
  obtain ⟨b', hb', -, -, -, ll, -, h2⟩ := C161_band_partial hh tab _ (.inr ⟨f, rfl⟩) grid hg hpos m' hm0
  refine ⟨b, b', hb, hb', fun i u l hu hl => ?_⟩
  have hi : i < grid.length := by
    rw [← lu]; exact (List.getElem?_eq_some_iff.1 hu).1
  obtain ⟨e, r, -, hs, hr, -, hr2⟩ := h1 i _ (List.getElem?_eq_getElem hi)
  obtain ⟨e', r', -, hs', hr', hr1', -⟩ := h2 i _ (List.getElem?_eq_getElem hi)
  have hx := hpos _ (List.getElem_mem hi)
  rw [hu] at hr2
  rw [hl] at hr1'
  cases hr2
  cases hr1'
  have hxe : ∀ (k : ℤ) (e : ℝ), k ≠ 0 → SeenAt hc grid[i] e k → e = |(k : ℝ)| * (hc / grid[i]) := by
    intro k e hk hs
    have he : e ≠ 0 := by
      rintro rfl
      rw [SeenAt, div_zero, mul_zero] at hs
      exact hx.ne hs
    have hk0 : (0 : ℝ) < |(k : ℝ)| := abs_pos.2 (by exact_mod_cast hk)
    rw [← hs]
    field_simp
  obtain ⟨q, q', hq, hq', hle, -, -⟩ := C41_neighbours tab f (hc / grid[i]) (by positivity) m m' hm hm'
  rw [hxe m e hm hs, hq] at hr
  rw [hxe m' e' hm0 hs', hq'] at hr'
  cases hr
  cases hr'
  exact hle hf

theorem sameSide_sign {a b : ℤ} (h : SameSide a b) : a.sign = b.sign ∧ a ≠ 0 ∧ b ≠ 0 := by
  rcases h with ⟨h1, h2⟩ | ⟨h1, h2⟩
  · exact ⟨by rw [Int.sign_eq_one_of_pos h1, Int.sign_eq_one_of_pos h2], by omega, by omega⟩
  · exact ⟨by rw [Int.sign_eq_neg_one_of_neg h1, Int.sign_eq_neg_one_of_neg h2], by omega, by omega⟩

/-- The value of the order-sorting factor (for the cases where there is one). -/
noncomputable def factorVal (tab : List (ℝ × ℝ)) (o : Osip) (oN oT : ℤ) (E : ℝ) : ℝ :=
  match osipFactor tab o E oN oT with
  | .ok p => p
  | .error _ => 0

theorem factor_val {tab : List (ℝ × ℝ)} (h : GoodTab tab) {o : Osip} (ho : GoodOsip o) {oN oT : ℤ} (hs : SameSide oN oT)
    {E : ℝ} (hE : 0 ≤ E) : osipFactor tab o E oN oT = .ok (factorVal tab o oN oT E) ∧ 0 ≤ factorVal tab o oN oT E ∧
      factorVal tab o oN oT E ≤ 1 := by
  obtain ⟨p, hp, h0, h1⟩ := C39_fraction h ho hE oN oT (fun hh => (sameSide_sign hs).2.1 hh.1)
  have e : factorVal tab o oN oT E = p := by simp only [factorVal, hp]
  rw [e]
  exact ⟨hp, h0, h1⟩

theorem curve_ok {tab : List (ℝ × ℝ)} (h : GoodTab tab) {o : Osip} (ho : GoodOsip o) {oN oT : ℤ} (hs : SameSide oN oT)
    {en : List ℝ} (hE : ∀ E ∈ en, 0 ≤ E) : factorCurve tab o en oN oT = .ok (en.map (factorVal tab o oN oT)) := by
  obtain ⟨h1, h2, h3⟩ := sameSide_sign hs
  rw [factorCurve, if_neg (by simpa using h1), if_neg h2]
  exact mapM_ok fun E hEm => (factor_val h ho hs (hE E hEm)).1

theorem zip_maps {α : Type} (f g : α → ℝ) (l : List α) :
    List.zipWith (· + ·) (l.map f) (l.map g) = l.map fun x => f x + g x := by
  induction l with
  | nil => rfl
  | cons a l ih => simp [ih]

theorem loop_ok {tab : List (ℝ × ℝ)} (h : GoodTab tab) {o : Osip} (ho : GoodOsip o) {m : ℤ} {en : List ℝ}
    (hE : ∀ E ∈ en, 0 ≤ E) : ∀ (ts : List ℤ) (_ : ∀ t ∈ ts, SameSide m (m + t)) (cm : ℝ → ℝ),
    mixtureLoop tab o en m ts (en.map cm) =
      .ok ((ts.filter (· ≠ 0)).map (fun t => (t, en.map (factorVal tab o m (m + t)))),
        en.map fun E => cm E + ((ts.filter (· ≠ 0)).map fun t => factorVal tab o m (m + t) E).sum) := by
  intro ts
  induction ts with
  | nil => intro _ cm; simp [mixtureLoop]
  | cons t ts ih =>
    intro hts cm
    rw [mixtureLoop]
    by_cases h0 : t = 0
    · rw [if_pos h0, ih (fun t ht => hts t (by simp [ht])) cm, h0]
      simp
    · rw [if_neg h0, curve_ok h ho (hts t (by simp)) hE]
      simp only [zip_maps]
      rw [ih (fun t ht => hts t (by simp [ht])) fun x => cm x + factorVal tab o m (m + t) x]
      simp [h0, add_assoc]

theorem energies_nonneg {hc : ℝ} (hh : 0 < hc) {grid : List ℝ} (hpos : ∀ x ∈ grid, 0 < x) {m : ℤ} (hm : m ≠ 0) :
    ∀ E ∈ osipEnergies hc grid m, 0 < E := by
  intro E hE
  simp only [osipEnergies, List.mem_map] at hE
  obtain ⟨x, hx, rfl⟩ := hE
  exact energy_pos hh (hpos x hx) hm

theorem le_of_max {l : List ℝ} {m x : ℝ} (h : l.max? = some m) (hx : x ∈ l) : x ≤ m := by
  have := List.max?_eq_some_iff.1 h
  exact this.2 x hx

/-- **C161** The plot of the mixture has one curve for the main order and one for each other order, with its offset as
label. At each place they show the fraction of the photons of this order that ends up in the window of the main
order; these are fractions between 0 and 1, and the thick line is their sum. The axis reaches above all curves.
All of this for offsets that lead to orders on the same side. -/
theorem C161_mixture_partial {hc : ℝ} (hh : 0 < hc) {tab : List (ℝ × ℝ)} (h : GoodTab tab) {o : Osip} (ho : GoodOsip o)
    (offsets : List ℤ) (grid : List ℝ) (hg : grid ≠ []) (hpos : ∀ x ∈ grid, 0 < x) (m : ℤ) (hm : m ≠ 0)
    (hoff : ∀ t ∈ offsets, SameSide m (m + t)) :
    ∃ p, plotMixture hc tab o offsets grid m = .ok p ∧ p.grid = grid ∧ p.contam.map Prod.fst = offsets.filter (· ≠ 0) ∧
      p.main.length = grid.length ∧ p.sum.length = grid.length ∧
      ∀ (i : ℕ) x, grid[i]? = some x → ∃ e f0 s, SeenAt hc x e m ∧
        p.main[i]? = some f0 ∧ osipFactor tab o e m m = .ok f0 ∧ 0 ≤ f0 ∧ f0 ≤ 1 ∧
        p.sum[i]? = some s ∧ f0 ≤ s ∧ s ≤ p.top ∧ (0 < s → s < p.top) ∧
        ∃ fs : List ℝ, s = f0 + fs.sum ∧
          List.Forall₂ (fun c f => c.2[i]? = some f ∧ osipFactor tab o e m (m + c.1) = .ok f ∧ 0 ≤ f ∧ f ≤ 1 ∧ f ≤ s)
            p.contam fs := by
  have hmm : SameSide m m := by
    rcases lt_or_gt_of_ne hm with h | h
    · exact .inr ⟨h, h⟩
    · exact .inl ⟨h, h⟩
  have hEp := energies_nonneg hh hpos hm
  have hE : ∀ E ∈ osipEnergies hc grid m, 0 ≤ E := fun E hE => (hEp E hE).le
  have hc1 := curve_ok h ho hmm hE
  have hl := loop_ok h ho hE offsets hoff (factorVal tab o m m)
  set S : ℝ → ℝ := fun E => factorVal tab o m m E + ((offsets.filter (· ≠ 0)).map fun t => factorVal tab o m (m + t) E).sum
    with hS
  have hen : osipEnergies hc grid m ≠ [] := by simpa [osipEnergies] using hg
  obtain ⟨mx, hmx⟩ : ∃ mx, ((osipEnergies hc grid m).map S).max? = some mx := by
    cases hq : ((osipEnergies hc grid m).map S).max? with
    | none => rw [List.max?_eq_none_iff] at hq; simp [hen] at hq
    | some v => exact ⟨v, rfl⟩
  refine ⟨⟨grid, (osipEnergies hc grid m).map (factorVal tab o m m),
    (offsets.filter (· ≠ 0)).map (fun t => (t, (osipEnergies hc grid m).map (factorVal tab o m (m + t)))),
    (osipEnergies hc grid m).map S, mx * 1.05⟩, ?_, rfl, ?_, ?_, ?_, ?_⟩
  · simp only [plotMixture, hc1, hl, hmx]
  · simp [List.map_map, Function.comp_def]
  · simp [osipEnergies]
  · simp [osipEnergies]
  · intro i x hx
    have hxm := List.mem_of_getElem? hx
    have hx0 := hpos x hxm
    have hm0 : (0 : ℝ) < |(m : ℝ)| := abs_pos.2 (by exact_mod_cast hm)
    set e := hc / (x / |(m : ℝ)|) with he
    have he0 : 0 < e := energy_pos hh hx0 hm
    have hem : e ∈ osipEnergies hc grid m := List.mem_map.2 ⟨x, hxm, rfl⟩
    have hei : (osipEnergies hc grid m)[i]? = some e := by simp [osipEnergies, hx, he]
    have hv0 := factor_val h ho hmm he0.le
    have hv : ∀ t ∈ offsets.filter (· ≠ 0), osipFactor tab o e m (m + t) = .ok (factorVal tab o m (m + t) e) ∧
        0 ≤ factorVal tab o m (m + t) e ∧ factorVal tab o m (m + t) e ≤ 1 := fun t ht => factor_val h ho (hoff t (List.mem_filter.1 ht).1) he0.le
    have hsum0 : 0 ≤ ((offsets.filter (· ≠ 0)).map fun t => factorVal tab o m (m + t) e).sum :=
      List.sum_nonneg fun y hy => by
        obtain ⟨t, ht, rfl⟩ := List.mem_map.1 hy
        exact (hv t ht).2.1
    have hle : S e ≤ mx := by
      exact le_of_max hmx (List.mem_map.2 ⟨e, hem, rfl⟩)
    have hS0 : 0 ≤ S e := add_nonneg hv0.2.1 hsum0
    refine ⟨e, factorVal tab o m m e, S e, ?_, by simp [hei], hv0.1, hv0.2.1, hv0.2.2, by simp [hei],
      by simp only [hS]; linarith, by dsimp only; norm_num; nlinarith, fun hs => by dsimp only; norm_num; nlinarith, ?_⟩
    · unfold SeenAt; rw [he]; field_simp
    · refine ⟨(offsets.filter (· ≠ 0)).map fun t => factorVal tab o m (m + t) e, rfl, ?_⟩
      rw [List.forall₂_map_left_iff, List.forall₂_map_right_iff]
      refine List.forall₂_same.2 fun t ht => ⟨by simp [hei], (hv t ht).1, (hv t ht).2.1, (hv t ht).2.2, ?_⟩
      have : factorVal tab o m (m + t) e ≤ ((offsets.filter (· ≠ 0)).map fun t => factorVal tab o m (m + t) e).sum :=
        List.single_le_sum (fun y hy => by
          obtain ⟨t, ht, rfl⟩ := List.mem_map.1 hy
          exact (hv t ht).2.1) _ (List.mem_map.2 ⟨t, ht, rfl⟩)
      simp only [hS]
      linarith [hv0.2.1]

theorem summary_energies {hc : ℝ} (hh : 0 < hc) {a : Arf} (ha : PositiveBins a) {m : ℤ} (hs : SameSide m a.order) :
    osipEnergies hc (summaryGrid hc a) m = nominalEnergies a m := by
  obtain ⟨-, h1, h2⟩ := ha
  have key : ∀ l u : ℝ, 0 < l → 0 < u → hc / (hc / (1 / 2 * (l + u)) * |(a.order : ℝ)| / |(m : ℝ)|) =
      1 / 2 * (l + u) / (a.order : ℝ) * (m : ℝ) := by
    intro l u hl hu
    have hlu : l + u ≠ 0 := by linarith
    have ho : (a.order : ℝ) ≠ 0 := by exact_mod_cast (sameSide_sign hs).2.2
    have hm : (m : ℝ) ≠ 0 := by exact_mod_cast (sameSide_sign hs).2.1
    rcases hs with ⟨p1, p2⟩ | ⟨p1, p2⟩
    · rw [abs_of_pos (by exact_mod_cast p2), abs_of_pos (by exact_mod_cast p1)]
      field_simp
    · rw [abs_of_neg (by exact_mod_cast p2), abs_of_neg (by exact_mod_cast p1)]
      field_simp
  simp only [osipEnergies, summaryGrid, nominalEnergies]
  revert h1 h2
  generalize a.energHi = hi
  generalize a.energLo = lo
  induction lo generalizing hi with
  | nil => intros; rfl
  | cons l lo ih =>
    intro h1 h2
    cases hi with
    | nil => rfl
    | cons u hi =>
      simp only [List.zipWith_cons_cons, List.map_cons]
      rw [key l u (h1 l (by simp)) (h2 u (by simp)), ih hi (fun x hx => h1 x (by simp [hx])) fun x hx => h2 x (by simp [hx])]

theorem curve_factors {hc : ℝ} (hh : 0 < hc) {tab : List (ℝ × ℝ)} {o : Osip} {a : Arf} (ha : PositiveBins a) {m : ℤ}
    (hs : SameSide m a.order) {c : List ℝ}
    (h : factorCurve tab o (osipEnergies hc (summaryGrid hc a) m) m a.order = .ok c) : FactorsOf tab o a m c := by
  obtain ⟨h1, h2, -⟩ := sameSide_sign hs
  rw [summary_energies hh ha hs, factorCurve, if_neg (by simpa using h1), if_neg h2] at h
  exact factors_of_mapM.1 h

theorem loop_curves {tab : List (ℝ × ℝ)} {o : Osip} {en : List ℝ} {m : ℤ} : ∀ (ts : List ℤ) (cm : List ℝ)
    (out : List (ℤ × List ℝ) × List ℝ), mixtureLoop tab o en m ts cm = .ok out →
    ∀ t c, (t, c) ∈ out.1 → factorCurve tab o en m (m + t) = .ok c := by
  intro ts
  induction ts with
  | nil =>
    intro cm out h t c hm
    simp only [mixtureLoop, Except.ok.injEq] at h
    rw [← h] at hm
    simp at hm
  | cons s ts ih =>
    intro cm out h t c hm
    rw [mixtureLoop] at h
    by_cases h0 : s = 0
    · rw [if_pos h0] at h
      exact ih cm out h t c hm
    · rw [if_neg h0] at h
      cases hf : factorCurve tab o en m (m + s) with
      | error e => rw [hf] at h; simp at h
      | ok c' =>
        rw [hf] at h
        simp only at h
        cases hl : mixtureLoop tab o en m ts (List.zipWith (· + ·) cm c') with
        | error e => rw [hl] at h; simp at h
        | ok r =>
          rw [hl] at h
          simp only [Except.ok.injEq] at h
          rw [← h] at hm
          rcases List.mem_cons.1 hm with he | hm
          · cases he; exact hf
          · exact ih _ _ hl t c hm

/-- **C161** The plot and the files agree: made for the bins of a file, the curve of the order of this file shows the
factors that `apply_osip` writes into the file for this main order (column `OSIPFAC`). -/
theorem C161_files {hc : ℝ} (hh : 0 < hc) (tab : List (ℝ × ℝ)) (o : Osip) (offsets : List ℤ) (a : Arf) (ha : PositiveBins a)
    (m : ℤ) (hs : SameSide m a.order) (p : MixturePlot) (h : plotMixture hc tab o offsets (summaryGrid hc a) m = .ok p) :
    (m = a.order → FactorsOf tab o a m p.main) ∧
    ∀ c, (a.order - m, c) ∈ p.contam → FactorsOf tab o a m c := by
  simp only [plotMixture] at h
  cases hf : factorCurve tab o (osipEnergies hc (summaryGrid hc a) m) m m with
  | error e => rw [hf] at h; simp at h
  | ok main =>
    rw [hf] at h
    simp only at h
    cases hl : mixtureLoop tab o (osipEnergies hc (summaryGrid hc a) m) m offsets main with
    | error e => rw [hl] at h; simp at h
    | ok r =>
      obtain ⟨contam, s⟩ := r
      rw [hl] at h
      simp only at h
      cases hx : s.max? with
      | none => rw [hx] at h; simp at h
      | some mx =>
        rw [hx] at h
        simp only [Except.ok.injEq] at h
        subst h
        constructor
        · intro hm
          rw [hm] at hf
          rw [hm] at hs ⊢
          exact curve_factors hh ha hs hf
        · intro c hc'
          have := loop_curves _ _ _ hl _ c hc'
          rw [show m + (a.order - m) = a.order by ring] at this
          exact curve_factors hh ha hs this

/-- **C161** (finding) If one of the offsets leads to the zeroth order or to the other side, there is no plot, but a
`ValueError`, although these orders just do not contribute. -/
theorem C161_mixture_false {hc : ℝ} (hh : 0 < hc) {tab : List (ℝ × ℝ)} (h : GoodTab tab) {o : Osip} (ho : GoodOsip o)
    (offsets : List ℤ) (grid : List ℝ) (hg : grid.length ≠ 1) (hpos : ∀ x ∈ grid, 0 < x) (m : ℤ) (hm : m ≠ 0)
    (hoff : ∃ t ∈ offsets, ¬ SameSide m (m + t)) : plotMixture hc tab o offsets grid m = .error .valueError := by
  have hmm : SameSide m m := by
    rcases lt_or_gt_of_ne hm with h | h
    · exact .inr ⟨h, h⟩
    · exact .inl ⟨h, h⟩
  have hE : ∀ E ∈ osipEnergies hc grid m, 0 ≤ E := fun E hE => (energies_nonneg hh hpos hm E hE).le
  have hlen : (osipEnergies hc grid m).length ≠ 1 := by simpa [osipEnergies] using hg
  have hbad : ∀ t, ¬ SameSide m (m + t) → m.sign ≠ (m + t).sign := by
    intro t ht hsg
    apply ht
    rcases lt_or_gt_of_ne hm with h | h
    · rw [Int.sign_eq_neg_one_of_neg h] at hsg
      exact .inr ⟨h, Int.sign_eq_neg_one_iff_neg.1 hsg.symm⟩
    · rw [Int.sign_eq_one_of_pos h] at hsg
      exact .inl ⟨h, Int.sign_eq_one_iff_pos.1 hsg.symm⟩
  have hl : ∀ (ts : List ℤ) (cm : List ℝ), (∃ t ∈ ts, ¬ SameSide m (m + t)) →
      mixtureLoop tab o (osipEnergies hc grid m) m ts cm = .error .valueError := by
    intro ts
    induction ts with
    | nil => rintro cm ⟨t, ht, -⟩; simp at ht
    | cons t ts ih =>
      intro cm hex
      have hrest : SameSide m (m + t) → ∃ t ∈ ts, ¬ SameSide m (m + t) := by
        intro hgood
        obtain ⟨u, hu, hub⟩ := hex
        rcases List.mem_cons.1 hu with rfl | hu
        · exact absurd hgood hub
        · exact ⟨u, hu, hub⟩
      rw [mixtureLoop]
      by_cases h0 : t = 0
      · rw [if_pos h0]
        exact ih cm (hrest (by rw [h0, add_zero]; exact hmm))
      · rw [if_neg h0]
        by_cases hgood : SameSide m (m + t)
        · rw [curve_ok h ho hgood hE]
          simp only [ih _ (hrest hgood)]
        · rw [factorCurve, if_pos (hbad t hgood), if_neg hlen]
  simp only [plotMixture, curve_ok h ho hmm hE, hl offsets _ hoff]

/-- **C161** (finding) In particular with the default offsets, `apply_osip_all` ends with an error when it makes the
summary for a list of orders with the first order in the middle, e.g. for the first order alone. -/
theorem C161_summary_false {hc : ℝ} (hh : 0 < hc) {tab : List (ℝ × ℝ)} (h : GoodTab tab) (w : ℝ) (hw : 0 ≤ w) (a : Arf)
    (ha : PositiveBins a) (ho : a.order ≠ 0) (hbins : 1 < a.energLo.length) (m : ℤ) (hm : m = 1 ∨ m = -1) :
    plotSummary hc tab (.fixedWidth w) [-1, 0, 1] a [m] = .error .valueError := by
  have hm0 : m ≠ 0 := by rcases hm with rfl | rfl <;> norm_num
  have hlen : (summaryGrid hc a).length = a.energLo.length := by simp [summaryGrid, ha.1]
  have hpos : ∀ x ∈ summaryGrid hc a, 0 < x := by
    intro x hx
    obtain ⟨-, h1, h2⟩ := ha
    simp only [summaryGrid] at hx
    have ho' : (0 : ℝ) < |(a.order : ℝ)| := abs_pos.2 (by exact_mod_cast ho)
    rw [List.mem_iff_getElem] at hx
    obtain ⟨i, hi, rfl⟩ := hx
    simp only [List.length_zipWith, lt_min_iff] at hi
    rw [List.getElem_zipWith]
    have hl := h1 _ (List.getElem_mem hi.1)
    have hu := h2 _ (List.getElem_mem hi.2)
    positivity
  have hne : summaryGrid hc a ≠ [] := by
    rw [← List.length_pos_iff, hlen]; omega
  obtain ⟨b, hb, -⟩ := C161_band_partial hh tab (.fixedWidth w) (.inl ⟨w, rfl⟩) _ hne hpos m hm0
  have hmix := C161_mixture_false hh h (o := .fixedWidth w) hw [-1, 0, 1] (summaryGrid hc a) (by omega) hpos m hm0 (by
    rcases hm with rfl | rfl
    · exact ⟨-1, by simp, by simp [SameSide]⟩
    · exact ⟨1, by simp, by simp [SameSide]⟩)
  simp only [plotSummary, List.length_singleton, Nat.reduceDiv, List.getElem?_cons_zero, List.mapM_cons, hb, List.mapM_nil, hmix]
  rfl

/-- **C161** The summary has a band for each of the orders, in this order, and the mixture for the one in the middle. -/
theorem C161_summary (hc : ℝ) (tab : List (ℝ × ℝ)) (o : Osip) (offsets : List ℤ) (a : Arf) (orders : List ℤ)
    (bands : List OsipBand) (mix : MixturePlot) (h : plotSummary hc tab o offsets a orders = .ok (bands, mix)) :
    List.Forall₂ (fun m b => plotOsip hc tab o (summaryGrid hc a) m = .ok b) orders bands ∧
    ∃ (i : ℕ) (mid : ℤ), orders[i]? = some mid ∧ (2 * i = orders.length ∨ 2 * i + 1 = orders.length) ∧
      plotMixture hc tab o offsets (summaryGrid hc a) mid = .ok mix := by
  simp only [plotSummary] at h
  cases hmid : orders[orders.length / 2]? with
  | none => rw [hmid] at h; simp at h
  | some mid =>
    rw [hmid] at h
    simp only at h
    cases hb : orders.mapM (plotOsip hc tab o (summaryGrid hc a)) with
    | error e => rw [hb] at h; simp at h
    | ok bs =>
      rw [hb] at h
      simp only at h
      cases hx : plotMixture hc tab o offsets (summaryGrid hc a) mid with
      | error e => rw [hx] at h; simp at h
      | ok mx =>
        rw [hx] at h
        simp only [Except.ok.injEq, Prod.mk.injEq] at h
        obtain ⟨rfl, rfl⟩ := h
        refine ⟨?_, orders.length / 2, mid, hmid, by omega, hx⟩
        clear hmid
        induction orders generalizing bs with
        | nil => simp [pure, Except.pure] at hb; rw [hb]; exact .nil
        | cons m ms ih =>
          rw [List.mapM_cons] at hb
          cases h1 : plotOsip hc tab o (summaryGrid hc a) m with
          | error e => rw [h1] at hb; simp [bind, Except.bind] at hb
          | ok b =>
            cases h2 : ms.mapM (plotOsip hc tab o (summaryGrid hc a)) with
            | error e => rw [h1, h2] at hb; simp [bind, Except.bind] at hb
            | ok bs' =>
              rw [h1, h2] at hb
              simp only [bind, Except.bind, pure, Except.pure, Except.ok.injEq] at hb
              rw [← hb]
              exact .cons h1 (ih bs' h2)

theorem onNearest_reverse {f : List (ℝ × ℝ)} {x v : ℝ} (h : OnNearest f.reverse x v) : OnNearest f x v := by
  simpa only [OnNearest, OnCurve, CurveCovers, List.mem_reverse] using h

theorem file_curve {f : List (ℝ × ℝ)} (hf : GoodCurveFile f) (x : ℝ) :
    ∃ v, interp x f.reverse = some v ∧ OnNearest f x v := by
  obtain ⟨v, h1, h2⟩ := interp_nearest (x := x) f.reverse (List.pairwise_reverse.2 hf.2) (by simpa using hf.1)
  exact ⟨v, h1, onNearest_reverse h2⟩

/-- Value that a file adds at a place of the grid (used in proofs only). -/
noncomputable def fileVal (f : List (ℝ × ℝ)) (x : ℝ) : ℝ := (interp x f.reverse).getD 0

theorem mapM_interps {α β : Type} {f : α → Option β} {g : α → β} : ∀ {l : List α}, (∀ x ∈ l, f x = some (g x)) →
    l.mapM f = some (l.map g)
  | [], _ => rfl
  | a :: l, h => by
    rw [List.mapM_cons, h a (by simp), mapM_interps (l := l) (g := g) fun x hx => h x (by simp [hx])]
    rfl

theorem summed_ok (waveGrid : List ℝ) : ∀ (files : List (List (ℝ × ℝ))) (acc : ℝ → ℝ), (∀ f ∈ files, GoodCurveFile f) →
    files.foldlM (fun a f =>
      match waveGrid.mapM (fun x => interp x f.reverse) with
      | none => (.error .valueError : Except Err (List ℝ))
      | some v => .ok (List.zipWith (· + ·) a v)) (waveGrid.map acc) =
    .ok (waveGrid.map fun x => acc x + (files.map fun f => fileVal f x).sum) := by
  intro files
  induction files with
  | nil => intro acc _; simp [pure, Except.pure]
  | cons f files ih =>
    intro acc h
    have h1 : waveGrid.mapM (fun x => interp x f.reverse) = some (waveGrid.map (fileVal f)) := mapM_interps fun x _ => by
      obtain ⟨v, hv, -⟩ := file_curve (h f (by simp)) x
      simp [fileVal, hv]
    rw [List.foldlM_cons, h1]
    simp only [bind, Except.bind, zip_maps]
    rw [ih (fun x => acc x + fileVal f x) fun g hg => h g (by simp [hg])]
    simp [add_assoc]

theorem summed_eq (grid : List ℝ) (files : List (List (ℝ × ℝ))) (h : ∀ f ∈ files, GoodCurveFile f) :
    sumFiles grid files = .ok (grid.map fun x => 0 + (files.map fun f => fileVal f x).sum) :=
  summed_ok grid files (fun _ => 0) h

theorem waveGrid_length : waveGrid.length = 600 := by rw [waveGrid, List.length_map, List.length_range]

theorem waveGrid_get {i : ℕ} (hi : i < 600) : waveGrid[i]? = some ((i : ℝ) / 10) := by
  rw [waveGrid, List.getElem?_map, List.getElem?_range hi, Option.map_some]
  congr 1
  norm_num
  ring

/-- **C161** The plot of the summed area shows, at each of the 600 wavelengths 0, 0.1, ..., 59.9, the sum of what the
files have there: the value on the line between neighbouring bins, and the value of the first or last bin outside of the
range of the file. -/
theorem C161_sum_partial (files : List (List (ℝ × ℝ))) (h : ∀ f ∈ files, GoodCurveFile f) :
    ∃ out, plotSummedArf files = .ok out ∧ out.length = 600 ∧
      ∀ i : ℕ, i < 600 → ∃ vs : List ℝ, List.Forall₂ (fun f v => OnNearest f ((i : ℝ) / 10) v) files vs ∧ out[i]? = some vs.sum := by
  refine ⟨_, summed_eq waveGrid files h, by rw [List.length_map, waveGrid_length], ?_⟩
  intro i hi
  refine ⟨files.map fun f => fileVal f ((i : ℝ) / 10), ?_, ?_⟩
  · rw [List.forall₂_map_right_iff]
    refine List.forall₂_same.2 fun f hf => ?_
    obtain ⟨v, hv, hn⟩ := file_curve (h f hf) ((i : ℝ) / 10)
    simpa [fileVal, hv] using hn
  · rw [List.getElem?_map, waveGrid_get hi, Option.map_some, zero_add]

/-- **C161** The order in which the files are found (it depends on the file system) does not matter for the sum. -/
theorem C161_sum_order (files files' : List (List (ℝ × ℝ))) (hp : files.Perm files') (h : ∀ f ∈ files, GoodCurveFile f) :
    plotSummedArf files = plotSummedArf files' := by
  rw [plotSummedArf, plotSummedArf, summed_eq _ files h, summed_eq _ files' fun f hf => h f (hp.mem_iff.2 hf)]
  refine congrArg Except.ok (List.map_congr_left fun x _ => ?_)
  rw [(hp.map fun f => fileVal f x).sum_eq]

/-- **C161** (finding) The sum is not the sum of the areas: a file that covers 10 to 20 Angstrom only adds area at 50
Angstrom as well. -/
theorem C161_sum_false : ∃ f out, GoodCurveFile f ∧ ¬ CurveCovers f 50 ∧ plotSummedArf [f] = .ok out ∧ out[500]? = some 7 := by
  have hf : GoodCurveFile [((20 : ℝ), (7 : ℝ)), (10, 3)] := ⟨by simp, by norm_num⟩
  have hc : ¬ CurveCovers [((20 : ℝ), (7 : ℝ)), (10, 3)] 50 := by
    rintro ⟨-, b, hb, hle⟩
    simp only [List.mem_cons, List.not_mem_nil, or_false] at hb
    rcases hb with rfl | rfl <;> norm_num at hle
  obtain ⟨out, h1, -, h3⟩ := C161_sum_partial [[((20 : ℝ), (7 : ℝ)), (10, 3)]] (by simpa using hf)
  obtain ⟨vs, hv, ho⟩ := h3 500 (by norm_num)
  refine ⟨_, out, hf, hc, h1, ?_⟩
  rw [ho]
  cases hv with
  | cons hn hr =>
    cases hr
    obtain ⟨x', ⟨a, ha, b, hb, hax, hxb, -, hl, heq⟩, hmin⟩ := hn
    have h20 := hmin 20 ⟨⟨(20, 7), by simp, le_rfl⟩, (20, 7), by simp, le_rfl⟩
    norm_num at h20
    have hx : x' = 20 := by
      have : x' ≤ 20 := by
        simp only [List.mem_cons, List.not_mem_nil, or_false] at hb
        rcases hb with rfl | rfl <;> norm_num at hxb <;> linarith
      rw [abs_of_nonneg (by linarith)] at h20
      linarith
    subst hx
    simp only [List.mem_cons, List.not_mem_nil, or_false] at ha hb
    rcases hb with rfl | rfl
    · rcases ha with rfl | rfl
      · simpa using heq rfl
      · norm_num at hl ⊢
        linarith
    · norm_num at hxb

/-- Meeting the hypotheses: a file with two bins in third order and windows of a fixed width. -/
example : GoodTab [(0, 40), (1000, 50)] ∧ GoodOsip (.fixedWidth 40) ∧
    PositiveBins ⟨[1, 2], [2, 3], none, ⟨none, none⟩, 3, none⟩ ∧ SameSide 3 (3 + -1) ∧ SameSide (-2) (-2 + 1) ∧
    ¬ SameSide 1 (1 + -1) ∧ GoodCurveFile [((20 : ℝ), (7 : ℝ)), (10, 3)] := by
  refine ⟨⟨by simp, by norm_num⟩, by norm_num [GoodOsip], ⟨rfl, by norm_num, by norm_num⟩, by simp [SameSide],
    by simp [SameSide], by simp [SameSide], by simp, by norm_num⟩

end Marxs
