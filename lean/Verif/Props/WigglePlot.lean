import Verif.Spec.WigglePlot
import Verif.Props.TolList

/-!
# C148, C149: Overview plots of tolerancing simulations, styles for orders
-/

namespace Marxs

open Classical

private theorem cellLe_total (a b : Val) : cellLe a b ∨ cellLe b a := by
  unfold cellLe
  cases cellKey a <;> cases cellKey b <;> simp [le_total]

private theorem cellLe_trans (a b c : Val) (h : cellLe a b) (h' : cellLe b c) : cellLe a c := by
  unfold cellLe at *
  revert h h'
  cases cellKey a <;> cases cellKey b <;> cases cellKey c <;> simp
  exact le_trans

private theorem sortRows_perm (rows : List Row) (par : String) : (sortRows rows par).Perm rows :=
  List.mergeSort_perm _ _

private theorem sortRows_sorted (rows : List Row) (par : String) :
    (sortRows rows par).Pairwise (fun a b => cellLe (a par) (b par)) := by
  have := List.pairwise_mergeSort (le := fun a b : Row => decide (cellLe (a par) (b par)))
    (by intro a b c h h'; simp only [decide_eq_true_eq] at *; exact cellLe_trans _ _ _ h h')
    (by intro a b; simp only [Bool.or_eq_true, decide_eq_true_eq]; exact cellLe_total _ _) rows
  simpa [sortRows] using this

private theorem groupWave_keys (rows : List Row) :
    (groupWave rows).map (·.1) = (rows.map (· "wave")).dedup.mergeSort fun a b => decide (cellLe a b) := by
  simp [groupWave, Function.comp_def]

private theorem groupWave_mem (rows : List Row) (wg : Val × List Row) (h : wg ∈ groupWave rows) :
    wg.2 = rows.filter fun r => decide (r "wave" = wg.1) := by
  simp only [groupWave, List.mem_map] at h
  obtain ⟨w, _, rfl⟩ := h
  rfl

private theorem plotLines_ok (names : List String) (kw : WiggleKw) (par : String) (ho : kw.other = [])
    (hr : kw.rCol ∈ names) (ha : kw.aeffCol ∈ names) (gs : List (Val × List Row)) :
    plotLines names kw par gs = .ok (gs.map fun wg =>
      ⟨wg.1, wg.2.map (shownAt par), wg.2.map (· kw.rCol), wg.2.map (· kw.aeffCol)⟩) := by
  induction gs with
  | nil => rfl
  | cons wg gs ih =>
    obtain ⟨w, g⟩ := wg
    simp only [plotLines, plotOneLine, ho, hr, ha, ih]
    simp only [ne_eq, not_true_eq_false, if_false, or_self, List.map_cons]
    unfold shownAt
    split <;> rfl

private theorem plotLines_other (names : List String) (kw : WiggleKw) (par : String)
    (gs : List (Val × List Row)) (ls : List WiggleLine) (h : plotLines names kw par gs = .ok ls)
    (hne : ls ≠ []) : kw.other = [] := by
  cases gs with
  | nil => simp [plotLines] at h; exact absurd h hne
  | cons wg gs =>
    obtain ⟨w, g⟩ := wg
    by_contra ho
    simp [plotLines, plotOneLine, ho] at h

private theorem label_ok (par : String) (h : HasLabel par) : ∃ x, wiggleLabel par = .ok x := by
  obtain ⟨h0, h1⟩ := h
  unfold wiggleLabel
  rcases hp : par.toList with _ | ⟨c, cs⟩
  · exact absurd hp h0
  · rw [hp] at h1
    by_cases hc : c = 'd'
    · rcases cs with _ | ⟨a, cs⟩
      · have := h1 (Or.inl (by simp [hc])); simp at this
      · simp [hc]
    · by_cases hc' : c = 'r'
      · rcases cs with _ | ⟨a, cs⟩
        · have := h1 (Or.inr (by simp [hc'])); simp at this
        · simp [hc, hc']
      · simp [hc, hc']

private theorem plotWiggle_ok (tab : Table) (par : String) (parlist : List String) (kw : WiggleKw)
    (hc : PlotColumns tab parlist kw) (hp : par ∈ tab.names) (hl : HasLabel par) :
    ∃ p, plotWiggle tab par parlist kw = .ok p ∧ PanelShows tab.rows parlist par kw.rCol kw.aeffCol p ∧
      wiggleLabel par = .ok (p.xlabel, p.title) ∧ p.facecolor = kw.facecolor.getD "w" := by
  obtain ⟨hn, hw, hr, ha, ho⟩ := hc
  obtain ⟨⟨xl, ti⟩, hlab⟩ := label_ok par hl
  set sel := tab.rows.filter (fun r => decide (∀ p ∈ parlist, p ≠ par → (r p).isZero)) with hsel
  have hs : select1dof tab par parlist = .ok ⟨tab.names, sel⟩ := by
    rw [C55_rows]; rw [if_pos (fun p h _ => hn p h)]
  refine ⟨⟨(groupWave (sortRows sel par)).map fun wg =>
      ⟨wg.1, wg.2.map (shownAt par), wg.2.map (· kw.rCol), wg.2.map (· kw.aeffCol)⟩,
      xl, ti, kw.facecolor.getD "w"⟩, ?_, ?_, hlab, rfl⟩
  · unfold plotWiggle
    rw [hs]
    simp only [hp, hw, hl.1, not_true_eq_false, if_false]
    rw [plotLines_ok _ _ _ ho hr ha]
    simp only [hlab]
  · have hk : ((groupWave (sortRows sel par)).map fun wg : Val × List Row =>
      (⟨wg.1, wg.2.map (shownAt par), wg.2.map (· kw.rCol), wg.2.map (· kw.aeffCol)⟩ : WiggleLine)).map (·.wave)
        = ((sortRows sel par).map (· "wave")).dedup.mergeSort fun a b => decide (cellLe a b) := by
      rw [← groupWave_keys, List.map_map]; rfl
    refine ⟨?_, ?_, ?_⟩
    · show (List.map _ (List.map _ _)).Nodup
      rw [hk]
      exact (List.mergeSort_perm _ _).nodup_iff.2 (List.nodup_dedup _)
    · intro w
      show w ∈ (List.map _ (List.map _ _)) ↔ _
      rw [hk, (List.mergeSort_perm _ _).mem_iff, List.mem_dedup, List.mem_map]
      constructor
      · rintro ⟨r, hr, rfl⟩
        have := (sortRows_perm sel par).mem_iff.1 hr
        rw [hsel, List.mem_filter] at this
        exact ⟨r, this.1, by simpa [OnlyChanged] using this.2, rfl⟩
      · rintro ⟨r, hr, h1, rfl⟩
        refine ⟨r, (sortRows_perm sel par).mem_iff.2 ?_, rfl⟩
        rw [hsel, List.mem_filter]
        exact ⟨hr, by simpa [OnlyChanged] using h1⟩
    · intro l hl
      obtain ⟨wg, hwg, rfl⟩ := List.mem_map.1 hl
      have hg := groupWave_mem _ _ hwg
      refine ⟨wg.2, ?_, ?_, rfl, rfl, rfl⟩
      · rw [hg]
        refine ((sortRows_perm sel par).filter _).trans ?_
        rw [hsel, List.filter_filter]
        apply List.Perm.of_eq
        apply List.filter_congr
        intro r _
        by_cases h1 : r "wave" = wg.1 <;> simp [h1, OnlyChanged]
      · rw [hg]
        exact (sortRows_sorted sel par).filter _

private theorem fileKw_cols (filename : String) (kw : WiggleKw) :
    (fileKw filename kw).rCol = kw.rCol ∧ (fileKw filename kw).aeffCol = kw.aeffCol ∧
    (fileKw filename kw).other = kw.other := by
  unfold fileKw bgColors
  split
  · simp
  · simp only [List.foldl]
    split <;> split <;> simp

private theorem plotPanels_ok (tab : Table) (parlist : List String) (kw : WiggleKw)
    (hc : PlotColumns tab parlist kw) (ps : List String) (i : ℕ) (hi : i + ps.length ≤ 6)
    (hp : ∀ p ∈ ps, p ∈ tab.names ∧ HasLabel p) :
    ∃ l, plotPanels tab parlist kw i ps = .ok l ∧
      List.Forall₂ (fun par p => PanelShows tab.rows parlist par kw.rCol kw.aeffCol p ∧
        wiggleLabel par = .ok (p.xlabel, p.title) ∧ p.facecolor = kw.facecolor.getD "w") ps l := by
  induction ps generalizing i with
  | nil => exact ⟨[], rfl, .nil⟩
  | cons par ps ih =>
    simp only [List.length_cons] at hi
    obtain ⟨p, h1, h2⟩ := plotWiggle_ok tab par parlist kw hc (hp par (by simp)).1 (hp par (by simp)).2
    obtain ⟨l, h3, h4⟩ := ih (i + 1) (by omega) (fun q hq => hp q (by simp [hq]))
    refine ⟨p :: l, ?_, .cons h2 h4⟩
    simp only [plotPanels, h1, h3]
    rw [if_neg (by omega)]

/-- **C148** (part) For up to six parameters, `load_and_plot` draws one panel for each parameter, in the order
of the list: for each wavelength a pair of lines (resolving power and effective area) with exactly the runs
where only this parameter is changed, ordered by the parameter; rotations are shown in degrees. Missing: longer
lists (`C148_six_false`) and the color of the background (`C148_background_false`). -/
theorem C148_panels_partial (filename : String) (tab : Table) (parlist : List String) (kw : WiggleKw)
    (hc : PlotColumns tab parlist kw) (hl : ∀ p ∈ parlist, HasLabel p) (h6 : parlist.length ≤ 6) :
    ∃ panels, loadAndPlot filename tab parlist kw = .ok panels ∧
      List.Forall₂ (PanelShows tab.rows parlist · kw.rCol kw.aeffCol ·) parlist panels ∧
      List.Forall₂ (fun par p => wiggleLabel par = .ok (p.xlabel, p.title)) parlist panels := by
  obtain ⟨h1, h2, h3⟩ := fileKw_cols filename kw
  have hc' : PlotColumns tab parlist (fileKw filename kw) := by
    unfold PlotColumns at *; rw [h1, h2, h3]; exact hc
  obtain ⟨l, h4, h5⟩ := plotPanels_ok tab parlist _ hc' parlist 0 (by omega) (fun p hp => ⟨hc.1 p hp, hl p hp⟩)
  rw [h1, h2] at h5
  exact ⟨l, h4, h5.imp (fun _ _ h => h.1), h5.imp (fun _ _ h => h.2.1)⟩

/-- **C148** Panels of shifts and rotations are labelled as such, with the name of the axis; all others with
the name of the parameter. -/
theorem C148_labels (par : String) (a : Char) (cs : List Char) :
    (par.toList = 'd' :: a :: cs →
      wiggleLabel par = .ok ("shift [mm]", some ("Shift along " ++ String.ofList [a]))) ∧
    (par.toList = 'r' :: a :: cs →
      wiggleLabel par = .ok ("Rotation [degree]", some ("Rotation around " ++ String.ofList [a]))) ∧
    (∀ c, par.toList = c :: cs → c ≠ 'd' → c ≠ 'r' → wiggleLabel par = .ok (par, none)) := by
  refine ⟨fun h => by simp [wiggleLabel, h], fun h => by simp [wiggleLabel, h], fun c h h1 h2 => ?_⟩
  simp [wiggleLabel, h, h1, h2]

private theorem plotPanels_six (tab : Table) (parlist : List String) (kw : WiggleKw) (ps : List String) (i : ℕ)
    (hi : 6 < i + ps.length) (l : List WigglePanel) (hi6 : i ≤ 6) : plotPanels tab parlist kw i ps ≠ .ok l := by
  induction ps generalizing i l with
  | nil => simp at hi; omega
  | cons par ps ih =>
    simp only [List.length_cons] at hi
    intro h
    simp only [plotPanels] at h
    split at h
    · cases h
    · rename_i hlt
      split at h
      · cases h
      · split at h
        · cases h
        · rename_i l' hl'
          exact ih (i + 1) (by omega) l' (by omega) hl'

/-- **C148** The docstring says that for a longer list of parameters `load_and_plot` "only plots six of them".
In fact no plot is made for any list with more than six names, whatever is in the file. -/
theorem C148_six_false (filename : String) (tab : Table) (parlist : List String) (kw : WiggleKw)
    (h : 6 < parlist.length) (panels : List WigglePanel) :
    loadAndPlot filename tab parlist kw ≠ .ok panels :=
  plotPanels_six tab parlist _ parlist 0 (by omega) panels (by omega)

private theorem plotPanels_mem (tab : Table) (parlist : List String) (kw : WiggleKw) (ps : List String) (i : ℕ)
    (l : List WigglePanel) (h : plotPanels tab parlist kw i ps = .ok l) (p : WigglePanel) (hp : p ∈ l) :
    p.facecolor = kw.facecolor.getD "w" ∧ (p.lines ≠ [] → kw.other = []) := by
  induction ps generalizing i l with
  | nil => simp [plotPanels] at h; subst h; cases hp
  | cons par ps ih =>
    simp only [plotPanels] at h
    split at h
    · cases h
    · split at h
      · cases h
      · rename_i q hq
        split at h
        · cases h
        · rename_i l' hl'
          cases h
          rcases List.mem_cons.1 hp with rfl | hp
          · unfold plotWiggle at hq
            split at hq
            · cases hq
            · split at hq
              · cases hq
              · split at hq
                · cases hq
                · split at hq
                  · cases hq
                  · split at hq
                    · cases hq
                    · rename_i ls hls
                      split at hq
                      · cases hq
                      · cases hq
                        exact ⟨rfl, fun hne => plotLines_other _ _ _ _ _ hls hne⟩
          · exact ih (i + 1) l' hl' hp

/-- **C148** For a file with "individual" (or else "global") in its name, every panel that shows anything has
the color of `bg_colors`, whatever keyword arguments the caller passes: the name that should protect the
choice of the caller is spelled differently (`axis_facecolor`) and no function accepts it. -/
theorem C148_background_false (filename : String) (tab : Table) (parlist : List String) (kw : WiggleKw)
    (panels : List WigglePanel) (h : loadAndPlot filename tab parlist kw = .ok panels) (p : WigglePanel)
    (hp : p ∈ panels) (hne : p.lines ≠ []) :
    (inFilename "individual" filename → p.facecolor = "(1.0, 0.9, 0.9)") ∧
    (¬ inFilename "individual" filename → inFilename "global" filename → p.facecolor = "0.9") := by
  obtain ⟨h1, h2⟩ := plotPanels_mem _ _ _ _ _ _ h p hp
  have h3 := h2 hne
  rw [(fileKw_cols filename kw).2.2] at h3
  rw [h1]
  constructor
  · intro hi
    simp [fileKw, bgColors, h3, hi]
  · intro hi hg
    simp [fileKw, bgColors, h3, hi, hg]

/-- **C148** For all other file names the background is the one the caller asks for, white by default. -/
theorem C148_background (filename : String) (tab : Table) (parlist : List String) (kw : WiggleKw)
    (panels : List WigglePanel) (h : loadAndPlot filename tab parlist kw = .ok panels) (p : WigglePanel)
    (hp : p ∈ panels) (hi : ¬ inFilename "individual" filename) (hg : ¬ inFilename "global" filename) :
    p.facecolor = kw.facecolor.getD "w" := by
  rw [(plotPanels_mem _ _ _ _ _ _ h p hp).1]
  simp [fileKw, bgColors, hi, hg]

/-- Table of a small simulation with one shift and one rotation. -/
def smallWiggle : Table := ⟨["dx", "rx", "wave", "Rgrat", "Aeffgrat"],
  [fun k => .num (if k = "dx" then some 1 else if k = "wave" then some 20 else some 0),
   fun k => .num (if k = "rx" then some 1 else if k = "wave" then some 20 else some 0)]⟩

/-- The hypotheses of `C148_panels_partial` hold for a table with a shift and a rotation. -/
example : PlotColumns smallWiggle ["dx", "rx"] wiggleDefaults ∧ (∀ p ∈ ["dx", "rx"], HasLabel p) := by
  constructor
  · simp [PlotColumns, smallWiggle, wiggleDefaults]
  · intro p hp
    simp only [List.mem_cons, List.not_mem_nil, or_false] at hp
    rcases hp with rfl | rfl <;> simp [HasLabel]

/-- A caller who asks for a blue background gets another one in a panel with data, because of the name of the
file: the hypotheses of `C148_background_false` can be met. -/
example : ∃ panels p, loadAndPlot "individual.fits" smallWiggle ["dx", "rx"]
      { wiggleDefaults with facecolor := some "b" } = .ok panels ∧ p ∈ panels ∧ p.lines ≠ [] ∧
      p.facecolor ≠ "b" := by
  obtain ⟨panels, h1, h2, -⟩ := C148_panels_partial "individual.fits" smallWiggle ["dx", "rx"]
    { wiggleDefaults with facecolor := some "b" } (by simp [PlotColumns, smallWiggle, wiggleDefaults])
    (by
      intro p hp
      simp only [List.mem_cons, List.not_mem_nil, or_false] at hp
      rcases hp with rfl | rfl <;> simp [HasLabel]) (by simp)
  cases h2 with
  | @cons _ p _ l hp hl =>
    have hne : p.lines ≠ [] := by
      intro h0
      have := (hp.2.1 (.num (some 20))).2 ⟨_, List.mem_cons_self, by
        simp [OnlyChanged, Val.isZero], by simp⟩
      simp [h0] at this
    refine ⟨_, p, h1, by simp, hne, ?_⟩
    rw [(C148_background_false _ _ _ _ _ h1 p (by simp) hne).1 ⟨[], ".fits".toList, by decide⟩]
    decide

/-! ## C149 -/

/-- **C149** Orders up to `max_order` have a style: zeroth order is black, drawn thicker; every other order has
the color of the colormap at `|order| / max_order` (the end of the map is the maximum order); positive orders
are dotted, negative orders solid. -/
theorem C149_style {γ : Type} (cmap : ℝ → γ) (maxOrder order : ℤ) (h : |order| ≤ maxOrder) :
    orderStyle (orderColors cmap maxOrder) order = .ok
      (if order = 0 then ⟨none, false, 4, some 0.7⟩
       else ⟨some (cmap (|(order : ℝ)| / maxOrder)), decide (0 < order), 2, none⟩) := by
  unfold orderStyle
  by_cases h0 : order = 0
  · simp [h0]
  · simp only [h0, if_false]
    have hpos : 0 ≤ maxOrder := (abs_nonneg _).trans h
    have hlt : order.natAbs < (maxOrder + 1).natAbs := by rw [Int.abs_eq_natAbs] at h; omega
    have h1 : (((maxOrder + 1).natAbs : ℕ) : ℝ) = maxOrder + 1 := by
      rw [Nat.cast_natAbs, abs_of_nonneg (by omega)]
      push_cast; ring
    have h2 : ((order.natAbs : ℕ) : ℝ) = |(order : ℝ)| := by
      rw [Nat.cast_natAbs, Int.cast_abs]
    simp only [orderColors, List.getElem?_map, List.getElem?_range hlt, Option.map_some, h1, h2]
    simp

/-- **C149** Different orders look different as long as the colors of the map are different. -/
theorem C149_distinct {γ : Type} (cmap : ℝ → γ) (hinj : Set.InjOn cmap (Set.Icc 0 1)) (maxOrder o o' : ℤ)
    (h : |o| ≤ maxOrder) (h' : |o'| ≤ maxOrder)
    (he : orderStyle (orderColors cmap maxOrder) o = orderStyle (orderColors cmap maxOrder) o') : o = o' := by
  rw [C149_style _ _ _ h, C149_style _ _ _ h'] at he
  by_cases h0 : o = 0 <;> by_cases h0' : o' = 0
  · rw [h0, h0']
  · simp [h0, h0'] at he
  · simp [h0, h0'] at he
  · simp only [h0, h0', if_false, Except.ok.injEq, OrderStyle.mk.injEq, Option.some.injEq, and_true,
      decide_eq_decide] at he
    have hm : (0 : ℝ) < maxOrder := by
      have : 0 < |o| := abs_pos.2 h0
      exact_mod_cast this.trans_le h
    have hb : ∀ x : ℤ, |x| ≤ maxOrder → |(x : ℝ)| / maxOrder ∈ Set.Icc (0 : ℝ) 1 := by
      intro x hx
      refine ⟨by positivity, ?_⟩
      rw [div_le_one hm]
      exact_mod_cast hx
    have h1 := hinj (hb o h) (hb o' h') he.1
    have h2 : |(o : ℝ)| = |(o' : ℝ)| := by
      rw [div_left_inj' hm.ne'] at h1; exact h1
    have h3 : |o| = |o'| := by exact_mod_cast h2
    have h4 := he.2
    rcases abs_eq_abs.1 h3 with h5 | h5
    · exact h5
    · omega

/-- **C149** An order above `max_order` has no style: it is an `IndexError`, never the color of another order. -/
theorem C149_above {γ : Type} (cmap : ℝ → γ) (maxOrder order : ℤ) (hm : 0 ≤ maxOrder) (h : maxOrder < |order|) :
    orderStyle (orderColors cmap maxOrder) order = .error .indexError := by
  have h0 : order ≠ 0 := by rintro rfl; simp at h; omega
  have : (orderColors cmap maxOrder)[order.natAbs]? = none := by
    rw [List.getElem?_eq_none_iff]
    simp only [orderColors, List.length_map, List.length_range]
    rw [Int.abs_eq_natAbs] at h
    omega
  simp [orderStyle, h0, this]

/-- Non-vacuity: the default `max_order = 15` with an injective map, order -3 and order 3. -/
example : orderStyle (orderColors (fun x : ℝ => x) 15) (-3) = .ok ⟨some (3 / 15), false, 2, none⟩ ∧
    orderStyle (orderColors (fun x : ℝ => x) 15) 3 = .ok ⟨some (3 / 15), true, 2, none⟩ := by
  constructor <;> rw [C149_style _ _ _ (by norm_num)] <;> norm_num

end Marxs
