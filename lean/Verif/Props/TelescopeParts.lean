import Verif.Props.Telescopes

/-!
# C143: Inventory of the telescopes of Lynx, AXIS and Athena

How many parts of each kind there are; every class that counts something appears.
-/

namespace Marxs

open Classical

/-- **C143** Lynx: one ring of the aperture per metashell, one mirror with scatter and efficiency, one stack of CAT gratings with all its layers for each position, one filter, one array with all CCDs. The detectors
that are not part of the array are two flat and one circular detector in the telescope, and one flat detector in the variant for plots. -/
theorem C143_parts_lynx (name : String) (dets : TelConf → List (Elt String)) (fresh : ℕ → Align (Option ChirpFor)) (conf : TelConf) (g : GasConf) (t : Telescope)
    (hd : dets = lynxDetectorsElts ∨ dets = lynxPlotDetectors) (hg : conf.gas = some g) (he : g.elem = catStackElt) (h : perfectLynx name dets fresh conf = .ok t) :
    howMany t "CircleAperture" = conf.shells ∧ howMany t "PerfectLens" = 1 ∧ howMany t "RadialMirrorScatter" = 1 ∧ howMany t "MetaShellEfficiency" = 1 ∧
    howMany t "LynxGAS" = 1 ∧ (∀ c ∈ ["CATL1L2Stack", "NonParallelCATGrating", "QualityFactor", "L1", "L2Abs", "L2Diffraction"], howMany t c = g.positions) ∧
    howMany t "catsupportbars" = 1 ∧ howMany t "GlobalEnergyFilter" = 1 ∧ howMany t "RowlandDetArray" = 1 ∧
    (dets = lynxDetectorsElts → howMany t "FlatDetector" = conf.ccds + 2 ∧ howMany t "CircularDetector" = 1) ∧
    (dets = lynxPlotDetectors → howMany t "FlatDetector" = conf.ccds + 1 ∧ howMany t "CircularDetector" = 0) := by
  obtain ⟨g', s, h0, hg', rfl, hs⟩ := perfectLynx_inv h
  obtain rfl : g' = g := by rw [hg] at hg'; exact (Option.some.inj hg').symm
  simp only [howMany_sig]
  refine ⟨?_, ?_, ?_, ?_, ?_, ?_, ?_, ?_, ?_, ?_, ?_⟩
  all_goals try (rintro rfl)
  all_goals try (rcases hd with rfl | rfl)
  all_goals
    simp [lynxParts, lynxDetectorsElts, lynxPlotDetectors, metaShellElt, gasElt, detArrayElt, he, catStackElt, sigsL_cons, sigsL_nil, sigsL_append, sigs_plain, sigs_group, sigsL_replicate,
      List.filter_flatten]

/-- **C143** AXIS: one ring of the aperture per metashell, one lens with losses and scatter, one stack of CAT gratings with all its layers for each position if there are gratings and none otherwise, five filters, one
array with all CCDs and the other detectors; the imaging detector is also in the variant for plots. -/
theorem C143_parts_axis (name : String) (dets : TelConf → List (Elt String)) (fresh : ℕ → Align (Option ChirpFor)) (gratings : Bool) (conf : TelConf) (g : GasConf) (t : Telescope)
    (hd : dets = axisDetectorsElts ∨ dets = axisPlotDetectors) (hg : conf.gas = some g) (he : g.elem = catStackElt) (h : perfectAxis name dets fresh gratings conf = .ok t) :
    howMany t "CircleAperture" = conf.shells ∧ howMany t "PerfectLensSegment" = 1 ∧ howMany t "MirrorGeometricScaling" = 1 ∧ howMany t "RadialMirrorScatter" = 1 ∧
    (∀ c ∈ ["CATL1L2Stack", "NonParallelCATGrating", "QualityFactor", "L1", "L2Abs", "L2Diffraction"], howMany t c = if gratings then g.positions else 0) ∧
    (∀ c ∈ ["LynxGAS", "catsupportbars"], howMany t c = if gratings then 1 else 0) ∧
    howMany t "GlobalEnergyFilter" = 5 ∧ howMany t "RowlandDetArray" = 1 ∧
    (dets = axisDetectorsElts → howMany t "FlatDetector" = conf.ccds + 2 ∧ howMany t "CircularDetector" = 1) ∧
    (dets = axisPlotDetectors → howMany t "FlatDetector" = conf.ccds + 1 ∧ howMany t "CircularDetector" = 0) := by
  obtain ⟨gas, s, h0, hgas, rfl, hs⟩ := perfectAxis_inv h
  simp only [howMany_sig]
  rcases hgas with ⟨rfl, g', hg', rfl⟩ | ⟨rfl, rfl⟩
  · obtain rfl : g' = g := by rw [hg] at hg'; exact (Option.some.inj hg').symm
    refine ⟨?_, ?_, ?_, ?_, ?_, ?_, ?_, ?_, ?_, ?_⟩
    all_goals try (rintro rfl)
    all_goals try (rcases hd with rfl | rfl)
    all_goals
      simp [axisParts, axisDetectorsElts, axisPlotDetectors, filtersElt, gasElt, detArrayElt, he, catStackElt, sigsL_cons, sigsL_nil, sigsL_append, sigs_plain, sigs_group, sigsL_replicate,
        List.filter_flatten]
  · refine ⟨?_, ?_, ?_, ?_, ?_, ?_, ?_, ?_, ?_, ?_⟩
    all_goals try (rintro rfl)
    all_goals try (rcases hd with rfl | rfl)
    all_goals
      simp [axisParts, axisDetectorsElts, axisPlotDetectors, filtersElt, detArrayElt, sigsL_cons, sigsL_nil, sigsL_append, sigs_plain, sigs_group, sigsL_replicate,
        List.filter_flatten, -List.length_eq_zero_iff]

/-- **C143** Athena: one lens for each SPO, with scatter, mounting and two filters of the mirror, the gratings if there are any in the configuration, five more filters, one array with all CCDs. -/
theorem C143_parts_athena (name : String) (dets : TelConf → List (Elt String)) (fresh : ℕ → Align (Option ChirpFor)) (conf : TelConf) (t : Telescope)
    (hd : dets = athenaDetectorsElts ∨ dets = athenaPlotDetectors) (he : ∀ g, conf.gas = some g → g.elem = catStackElt) (h : perfectAthecat name dets fresh conf = .ok t) :
    howMany t "CircleAperture" = 1 ∧ howMany t "SPOChannelMirror" = 1 ∧ howMany t "PerfectLens" = conf.shells ∧ howMany t "ScatterPerChannel" = 1 ∧ howMany t "spomounting" = 1 ∧
    (∀ c ∈ ["CATL1L2Stack", "NonParallelCATGrating", "QualityFactor", "L1", "L2Abs", "L2Diffraction"], howMany t c = (conf.gas.map GasConf.positions).getD 0) ∧
    howMany t "GAS" = (if conf.gas.isSome then 1 else 0) ∧
    howMany t "GlobalEnergyFilter" = 7 ∧ howMany t "RowlandDetArray" = 1 ∧
    (dets = athenaDetectorsElts → howMany t "FlatDetector" = conf.ccds + 2 ∧ howMany t "CircularDetector" = 1) ∧
    (dets = athenaPlotDetectors → howMany t "FlatDetector" = conf.ccds + 1 ∧ howMany t "CircularDetector" = 0) := by
  obtain ⟨gas, s, hgas, rfl, hs⟩ := perfectAthecat_inv h
  simp only [howMany_sig]
  rcases hgas with ⟨g, hg, rfl⟩ | ⟨hg, rfl⟩
  · have he' := he g hg
    simp only [hg]
    refine ⟨?_, ?_, ?_, ?_, ?_, ?_, ?_, ?_, ?_, ?_, ?_⟩
    all_goals try (rintro rfl)
    all_goals try (rcases hd with rfl | rfl)
    all_goals
      simp [athenaParts, athenaSpos, athenaDetectorsElts, athenaPlotDetectors, filtersElt, gasElt, detArrayElt, he', catStackElt, sigsL_cons, sigsL_nil, sigsL_append, sigs_plain, sigs_group,
        sigsL_replicate, List.filter_flatten]
  · simp only [hg]
    refine ⟨?_, ?_, ?_, ?_, ?_, ?_, ?_, ?_, ?_, ?_, ?_⟩
    all_goals try (rintro rfl)
    all_goals try (rcases hd with rfl | rfl)
    all_goals
      simp [athenaParts, athenaSpos, athenaDetectorsElts, athenaPlotDetectors, filtersElt, detArrayElt, sigsL_cons, sigsL_nil, sigsL_append, sigs_plain, sigs_group, sigsL_replicate,
        List.filter_flatten, -List.length_eq_zero_iff]

private theorem mapM_error {α β : Type} {f : α → Except Err β} {l : List α} (h : ∃ a ∈ l, ∀ b, f a ≠ .ok b) (m : List β) : l.mapM f ≠ .ok m := by
  intro hm
  obtain ⟨a, ha, hb⟩ := h
  obtain ⟨b, hb'⟩ := mapM_ok_forall hm a ha
  exact hb b hb'

/-- **C143** The aperture of Arcus on its own: it is made exactly if each channel is in the configuration and is one of the sides 1 and 2; it then has one rectangle per channel. -/
theorem C143_arcus_aperture (conf : ArcusConf) (channels : List String) :
    arcusApertureElts conf channels = .ok (group "Aperture" (List.replicate channels.length (plain "RectangleAperture"))) ∧
        (∀ c ∈ channels, c ∈ conf.optAx ∧ ('1' ∈ c.toList ∨ '2' ∈ c.toList)) ∨
    (∃ e, arcusApertureElts conf channels = .error e) ∧ ∃ c ∈ channels, ¬ (c ∈ conf.optAx ∧ ('1' ∈ c.toList ∨ '2' ∈ c.toList)) := by
  by_cases h : ∀ c ∈ channels, c ∈ conf.optAx ∧ ('1' ∈ c.toList ∨ '2' ∈ c.toList)
  · left
    refine ⟨?_, h⟩
    unfold arcusApertureElts
    rw [mapM_all_ok (g := fun _ => plain "RectangleAperture")]
    · simp [List.map_const']
    · intro c hc
      obtain ⟨h1, h2⟩ := h c hc
      unfold channelAperture
      rw [if_neg (by simpa using h1), if_pos (by simpa [hasChar] using h2)]
  · right
    push Not at h
    obtain ⟨c, hc, hn⟩ := h
    refine ⟨?_, c, hc, by rintro ⟨h1, h2⟩; exact absurd h2 (by have := hn h1; tauto)⟩
    unfold arcusApertureElts
    cases hm : channels.mapM (channelAperture conf) with
    | error e => exact ⟨e, rfl⟩
    | ok l =>
      refine absurd hm (mapM_error ⟨c, hc, ?_⟩ l)
      intro b hb
      unfold channelAperture at hb
      split_ifs at hb with h1 h2
      have h1 : c ∈ conf.optAx := by simpa using h1
      have := hn h1
      simp [hasChar] at h2
      tauto

/-- The configurations of the missions meet the hypotheses of the inventories. -/
example : (∃ t, perfectLynx "LynxForPlot" lynxPlotDetectors freshExample (lynxConf 12 5000 18) = .ok t ∧ howMany t "FlatDetector" = 19) ∧
    (∃ t, perfectAthecat "PerfectAthecat" athenaDetectorsElts freshExample (athenaConf 600 900 10) = .ok t ∧ howMany t "PerfectLens" = 600) := by
  constructor
  · obtain ⟨_, h, _⟩ := perfectLynx_ok "LynxForPlot" lynxPlotDetectors freshExample (lynxConf 12 5000 18) _ (by simp [lynxConf, lynxConfStart]) rfl
    exact ⟨_, h, ((C143_parts_lynx _ _ _ _ _ _ (Or.inr rfl) rfl rfl h).2.2.2.2.2.2.2.2.2.2 rfl).1⟩
  · have hok : ∃ t, perfectAthecat "PerfectAthecat" athenaDetectorsElts freshExample (athenaConf 600 900 10) = .ok t := ⟨_, rfl⟩
    obtain ⟨t, h⟩ := hok
    exact ⟨t, h, (C143_parts_athena _ _ _ _ _ (Or.inl rfl) (by intro g hg; cases hg; rfl) h).2.2.1⟩

example : ¬ ∃ l, arcusApertureElts ⟨["1", "3"], 9, fun _ => [], 16, 7, rowlandOf 9600 0 0 0, none⟩ ["3"] = .ok l := by
  rintro ⟨l, hl⟩
  rcases C143_arcus_aperture ⟨["1", "3"], 9, fun _ => [], 16, 7, rowlandOf 9600 0 0 0, none⟩ ["3"] with ⟨_, h⟩ | ⟨⟨e, he⟩, _⟩
  · have := (h "3" (by simp)).2; revert this; decide
  · rw [he] at hl; cases hl

end Marxs
