import Verif.Lemmas.Hit

/-!
# Properties C01, C02, C29: the photon pipeline

Statements only use the model (`Verif.Model.Table`) and `Verif.Spec.Pipeline`.
-/

namespace Marxs

/-! ## C01 -/

/-- **C01** For every list of simulation steps and every photon table: if the run finishes, the
table has the same number of photons and a photon which started with probability `p ≥ 0` ends with
a probability that is NaN or lies in `[0, p]`. -/
theorem C01_probability_never_increases {steps : List Step} {t t' : Table}
    (wf : ∀ s ∈ steps, s.WF) (hp : "probability" ∈ t.names)
    (run : runSequence steps t = .ok t') :
    t'.rows.length = t.rows.length ∧
    ∀ (i : ℕ) (r r' : Row), t.rows[i]? = some r → t'.rows[i]? = some r' →
      ∀ p : ℝ, 0 ≤ p → r "probability" = .num (some p) →
        r' "probability" = .num none ∨ ∃ p', r' "probability" = .num (some p') ∧ 0 ≤ p' ∧ p' ≤ p :=
  have h := probRel_runSequence wf hp run
  ⟨h.len, fun i r r' hr hr' p p0 e => h.bound i r r' hr hr' p p0 (Or.inr ⟨p, e, p0, le_refl _⟩)⟩

/-- **C01** Probabilities in `[0,1]` stay in `[0,1]` (or are NaN). -/
theorem C01_probability_in_unit_interval {steps : List Step} {t t' : Table}
    (wf : ∀ s ∈ steps, s.WF) (hp : "probability" ∈ t.names)
    (run : runSequence steps t = .ok t')
    (h01 : ∀ r ∈ t.rows, ∃ p : ℝ, r "probability" = .num (some p) ∧ 0 ≤ p ∧ p ≤ 1) :
    ∀ r' ∈ t'.rows, r' "probability" = .num none ∨
      ∃ p : ℝ, r' "probability" = .num (some p) ∧ 0 ≤ p ∧ p ≤ 1 := by
  intro r' hr'
  obtain ⟨i, hi, rfl⟩ := List.mem_iff_getElem.1 hr'
  have h := probRel_runSequence wf hp run
  obtain ⟨r, hr⟩ := get_of_len h.len (List.getElem?_eq_getElem hi)
  obtain ⟨p, e, h0, h1⟩ := h01 r (List.mem_of_getElem? hr)
  exact h.bound i r _ hr (List.getElem?_eq_getElem hi) 1 (by norm_num) (Or.inr ⟨p, e, h0, h1⟩)

/-- **C01** An element that proposes a factor outside `[0,1]` for any hit photon never returns a
table: the call raises an exception. -/
theorem C01_bad_factor_rejected {e : Elem} {t : Table} {mask ip ic} {f outs v}
    (ha : e.action = .vector f) (hf : f t mask ip ic = .ok outs)
    (hv : (some "probability", v) ∈ outs) (hbad : ∃ x ∈ v.toList, x.OutOfRange)
    (hhit : countTrue mask ≠ 0) :
    ∃ err, processPhotons e t mask ip ic = .error err := by
  obtain ⟨err, h⟩ := assignAll_reject (mask := mask) hv hbad
    (addOutputCols e.outputColumns e.idCol (outs.map (·.1)) t)
  exact ⟨err, by simp [processPhotons, hhit, runAction, ha, hf, h, bind, Except.bind]⟩

/-- **C01** ... and the exception is `ValueError` if the probability is the first entry of the
dictionary returned by the element. -/
theorem C01_bad_factor_valueError {e : Elem} {t : Table} {mask ip ic} {f rest v}
    (ha : e.action = .vector f)
    (hf : f t mask ip ic = .ok ((some "probability", v) :: rest))
    (hbad : ∃ x ∈ v.toList, x.OutOfRange) (hhit : countTrue mask ≠ 0) :
    processPhotons e t mask ip ic = .error .valueError := by
  simp [processPhotons, hhit, runAction, ha, hf, assignAll, assignColValue, hbad, bind, Except.bind]

/-- **C01** A global filter that returns a factor outside `[0,1]` raises `ValueError`. -/
theorem C01_bad_filter_valueError {f : List Val → ColVal} {t : Table}
    (hbad : ∃ x ∈ (f (t.rows.map (· "energy"))).toList, x.OutOfRange) :
    globalFilter f t = .error .valueError := by
  simp only [globalFilter]
  rw [if_pos hbad]

/-! Non-vacuity: one photon with probability 1/2 passes a filter of factor 1/2 and a baffle. -/

theorem not_outOfRange {x : ℝ} (h0 : 0 ≤ x) (h1 : x ≤ 1) : ¬ (Val.num (some x)).OutOfRange := by
  simp [Val.OutOfRange, h0, h1]

/-- example photon -/
noncomputable def exRow : Row := fun n =>
  if n = "probability" then .num (some (1/2)) else if n = "pos" then .vec [some 1] else .num (some 1)

/-- example table with two photons -/
noncomputable def exTable : Table := ⟨["energy", "pos", "probability"], [exRow, exRow]⟩

/-- example element: hits the first photon only, factor 1/2 -/
noncomputable def exElem : Elem where
  idCol := some "ccd"
  idNum := 5
  locCoos := some ("y", "z")
  outputColumns := ["wave"]
  action := .vector fun _ _ _ _ => .ok [(some "probability", .scalar (.num (some (1/2)))),
    (some "wave", .scalar (.num (some 7)))]
  geom := fun t => (t.rows.mapIdx (fun i _ => i == 0), t.rows.map (fun _ => .vec [some 2]),
    t.rows.map fun _ => (.num (some 3), .num (some 4)))

theorem exElem_call : ∃ t', exElem.call exTable = .ok t' := by
  have h := not_outOfRange (x := 2⁻¹) (by norm_num) (by norm_num)
  simp +decide [Elem.call, h, processPhotons, exElem, exTable, runAction, assignAll, assignColValue,
    addOutputCols, Table.addCol, ColVal.toList, ColVal.expand, mulMasked,
    assignMasked, setCol, assignLoc, assignId, sel, exRow, Val.mul, countTrue, bind, Except.bind]

example : ∃ steps t t', (∀ s ∈ steps, Step.WF s) ∧ "probability" ∈ t.names ∧ t.rows ≠ [] ∧
    steps ≠ [] ∧ runSequence steps t = .ok t' ∧
    (∀ r ∈ t.rows, ∃ p : ℝ, r "probability" = .num (some p) ∧ 0 ≤ p ∧ p ≤ 1) := by
  obtain ⟨t', h⟩ := exElem_call
  refine ⟨[.elem exElem], exTable, t', ?_, by simp [exTable], by simp [exTable], by simp, ?_, ?_⟩
  · simp [Step.WF, Elem.NoProbLabel, GeomOK, exElem]
  · simp [runSequence, Step.call, h, bind, Except.bind]
  · intro r hr
    simp [exTable] at hr
    subst hr
    exact ⟨1/2, by simp [exRow], by norm_num, by norm_num⟩

/-! ## C02 -/

/-- **C02** Photons that do not intersect the element keep every existing column; columns that
were added hold the default (NaN; -1 for the id column). No photon and no column is lost. -/
theorem C02_miss_unchanged {e : Elem} {t t' : Table} {mask ip ic}
    (hl : mask.length = t.rows.length) (hp : ip.length = t.rows.length)
    (hi : ic.length = t.rows.length) (h : processPhotons e t mask ip ic = .ok t') :
    t.names <+: t'.names ∧ t'.rows.length = t.rows.length ∧
    ∀ (i : ℕ) (r r' : Row), mask[i]? = some false →
      t.rows[i]? = some r → t'.rows[i]? = some r' →
      (∀ c ∈ t.names, r' c = r c) ∧
      (∀ c ∈ t'.names, c ∉ t.names →
        (e.idCol ≠ some c → r' c = .num none) ∧ (r' c = .num none ∨ r' c = .int (-1))) := by
  have u := upd_processPhotons h hl hp hi
  refine ⟨u.names, u.len, ?_⟩
  intro i r r' hm hr hr'
  refine ⟨fun c hc => u.keep i r r' hr hr' c hc (by simp [hm]), fun c hc hn => ?_⟩
  have := u.fresh i r' hm hr' c hc hn
  refine ⟨fun hne => this.1 ?_, this.2⟩
  cases hid : e.idCol with
  | none => simp
  | some d => rw [hid] at hne; simpa using fun h => hne (by rw [h])

/-- **C02** If nothing intersects, the table comes back completely unchanged (for every element,
even one that has no action defined). -/
theorem C02_no_hit_identity (e : Elem) (t : Table) (mask ip ic) (h : true ∉ mask) :
    processPhotons e t mask ip ic = .ok t := by
  have : countTrue mask = 0 := by simpa [countTrue, List.count_eq_zero] using h
  simp [processPhotons, this]

/-- **C02** Photons that hit the element: position, id, local coordinates and every entry of the
dictionary returned by the element arrive in the table, probabilities are multiplied and everything
else stays. (Column names given by the user for id and local coordinates are assumed distinct from
the dictionary keys where they would overwrite each other.) -/
theorem C02_hit_updated {e : Elem} {t t' : Table} {mask ip ic f outs}
    (hl : mask.length = t.rows.length) (hp : ip.length = t.rows.length)
    (hi : ic.length = t.rows.length) (ha : e.action = .vector f)
    (hf : f t mask ip ic = .ok outs) (hnd : (keysOf outs).Nodup)
    (h : processPhotons e t mask ip ic = .ok t')
    (i : ℕ) (r r' : Row) (hm : mask[i]? = some true)
    (hr : t.rows[i]? = some r) (hr' : t'.rows[i]? = some r') :
    -- position
    some (r' "pos") = ip[i]? ∧
    -- id
    (∀ c, e.idCol = some c → c ≠ "pos" → r' c = .int e.idNum) ∧
    -- local coordinates
    (∀ a b, e.locCoos = some (a, b) → b ≠ "pos" → e.idCol ≠ some b →
      ic[i]?.map (·.2) = some (r' b)) ∧
    (∀ a b, e.locCoos = some (a, b) → a ≠ b → a ≠ "pos" → e.idCol ≠ some a →
      ic[i]?.map (·.1) = some (r' a)) ∧
    -- values returned by the element
    (∀ c v, (some c, v) ∈ outs → c ≠ "pos" → e.idCol ≠ some c → c ∉ locNames e.locCoos →
      (c ≠ "probability" → v.at (rank mask i) = some (r' c)) ∧
      (c = "probability" → c ∈ t.names → ∃ q, v.at (rank mask i) = some q ∧ ¬ q.OutOfRange ∧
        Val.mul (r c) q = some (r' c))) ∧
    -- all other columns
    (∀ c ∈ t.names, c ∉ keysOf outs → c ≠ "pos" → e.idCol ≠ some c → c ∉ locNames e.locCoos →
      r' c = r c) := by
  have hc : countTrue mask ≠ 0 := by
    have := rank_lt hm; omega
  obtain ⟨t2, t3, t4, h2, h3, h4, h5⟩ := processPhotons_ok h hc
  have u2 := upd_runAction h2 hl
  have v3 := upd_assignLoc h3 (by rw [hl, u2.len]) (by rw [hi, u2.len])
  have w3 := u2.trans v3
  have v4 := upd_assignId h4 (by rw [hl, w3.len])
  have w4 := w3.trans v4
  have v5 := upd_setCol (by rw [hl, w4.len]) (sel_length (by simp [hl, hp])) h5
  obtain ⟨r4, hr4⟩ := get_of_len v5.len hr'
  obtain ⟨r3, hr3⟩ := get_of_len v4.len hr4
  obtain ⟨r2, hr2⟩ := get_of_len v3.len hr3
  have hi' : i < t.rows.length := (List.getElem?_eq_some_iff.1 hr).1
  have idn : ∀ c, e.idCol ≠ some c → c ∉ e.idCol.toList := by
    intro c hne
    cases hid : e.idCol with
    | none => simp
    | some d => rw [hid] at hne; simpa using fun h => hne (by rw [h])
  refine ⟨?_, ?_, ?_, ?_, ?_, ?_⟩
  · have hpi : i < ip.length := by omega
    rw [setCol_hit h5 hm (v := ip[i])
      (by rw [sel_get hm (by omega)]; exact List.getElem?_eq_getElem hpi) hr']
    exact (List.getElem?_eq_getElem hpi).symm
  · intro c hid hcp
    simp only [assignId, hid] at h4
    rw [v5.keep i r4 r' hr4 hr' c (by rw [(setCol_names h4).1]; exact (setCol_names h4).2)
      (fun _ => by simpa using hcp)]
    exact setCol_hit h4 hm (by simp [rank_lt hm]) hr4
  · intro a b hab hbp hid
    simp only [assignLoc, hab] at h3
    split at h3
    · cases h3
    rename_i t2b h2b
    have hin : b ∈ t3.names := by rw [(setCol_names h3).1]; exact (setCol_names h3).2
    rw [v5.keep i r4 r' hr4 hr' b (v4.names.subset hin) (fun _ => by simpa using hbp),
      v4.keep i r3 r4 hr3 hr4 b hin (fun _ => idn b hid)]
    have hii : i < ic.length := by omega
    rw [setCol_hit h3 hm (v := ic[i].2) (by
      rw [sel_get hm (by simp; omega)]; simp [hii]) hr3]
    simp [hii]
  · intro a b hab hne hbp hid
    simp only [assignLoc, hab] at h3
    split at h3
    · cases h3
    rename_i t2b h2b
    have z1 := upd_addOutputCols e.outputColumns e.idCol [some a, some b] t2 mask
    have z2 := upd_setCol (by rw [hl, z1.len, u2.len]) (sel_length (by simp [hl, hi])) h2b
    have z3 := upd_setCol (by rw [hl, z2.len, z1.len, u2.len])
      (sel_length (by simp [hl, hi])) h3
    obtain ⟨r2b, hr2b⟩ := get_of_len z3.len hr3
    have hin2 : a ∈ t2b.names := by rw [(setCol_names h2b).1]; exact (setCol_names h2b).2
    have hin := z3.names.subset hin2
    rw [v5.keep i r4 r' hr4 hr' a (v4.names.subset hin) (fun _ => by simpa using hbp),
      v4.keep i r3 r4 hr3 hr4 a hin (fun _ => idn a hid),
      z3.keep i r2b r3 hr2b hr3 a hin2 (fun _ => by simpa using hne)]
    have hii : i < ic.length := by omega
    rw [setCol_hit h2b hm (v := ic[i].1) (by
      rw [sel_get hm (by simp; omega)]; simp [hii]) hr2b]
    simp [hii]
  · intro c v hcv hcp hid hloc
    simp only [runAction, ha, hf] at h2
    have y1 := upd_addOutputCols e.outputColumns e.idCol (outs.map (·.1)) t mask
    have y2 := upd_assignAll (by rw [hl, y1.len]) h2
    obtain ⟨r1, hr1⟩ := get_of_len y2.len hr2
    obtain ⟨k1, k2, k3⟩ := assignAll_hit (by rw [hl, y1.len]) hnd h2 hcv hm hr1 hr2
    have hin2 : c ∈ t2.names := y2.names.subset k1
    have e2 : r' c = r2 c := by
      rw [v5.keep i r4 r' hr4 hr' c (v4.names.subset (v3.names.subset hin2)) (fun _ => by simpa using hcp),
        v4.keep i r3 r4 hr3 hr4 c (v3.names.subset hin2) (fun _ => idn c hid),
        v3.keep i r2 r3 hr2 hr3 c hin2 (fun _ => hloc)]
    rw [e2]
    refine ⟨k2, fun hcprob hct => ?_⟩
    obtain ⟨q, q1, q2, q3⟩ := k3 hcprob
    refine ⟨q, q1, q2, ?_⟩
    rw [← y1.keep i r r1 hr hr1 c hct (by simp), hcprob]
    exact q3
  · intro c hcn hck hcp hid hloc
    have u := upd_processPhotons h hl hp hi
    refine u.keep i r r' hr hr' c hcn (fun _ => ?_)
    simp only [Action.cols, ha, hf, List.mem_append, not_or]
    exact ⟨⟨⟨hck, hloc⟩, idn c hid⟩, by simpa using hcp⟩

/-- **C02** An element without `specific_process_photons` and `process_photon` raises
`AttributeError` as soon as a photon hits it. -/
theorem C02_no_action_attributeError {e : Elem} {t : Table} {mask ip ic}
    (ha : e.action = .missing) (h : true ∈ mask) :
    processPhotons e t mask ip ic = .error .attributeError := by
  have : countTrue mask ≠ 0 := by simpa [countTrue, List.count_eq_zero] using h
  simp [processPhotons, this, runAction, ha, bind, Except.bind]

/-- **C02** Elements with a `process_photon` method: only hit photons change, and for those only
`dir, pos, energy, polarization, probability`, the declared output columns, id and local
coordinates. -/
theorem C02_each_unchanged {e : Elem} {t t' : Table} {mask ip ic f}
    (hl : mask.length = t.rows.length) (hp : ip.length = t.rows.length)
    (hi : ic.length = t.rows.length) (ha : e.action = .each f)
    (h : processPhotons e t mask ip ic = .ok t')
    (i : ℕ) (r r' : Row) (hr : t.rows[i]? = some r) (hr' : t'.rows[i]? = some r') :
    (mask[i]? = some true → some (r' "pos") = ip[i]?) ∧
    ∀ c ∈ t.names, c ∉ ["dir", "pos", "energy", "polarization", "probability"] →
      c ∉ e.outputColumns → e.idCol ≠ some c → c ∉ locNames e.locCoos → r' c = r c := by
  constructor
  · intro hm
    have hc : countTrue mask ≠ 0 := by
      have := rank_lt hm; omega
    obtain ⟨t2, t3, t4, h2, h3, h4, h5⟩ := processPhotons_ok h hc
    have hi' : i < t.rows.length := (List.getElem?_eq_some_iff.1 hr).1
    have hpi : i < ip.length := by omega
    rw [setCol_hit h5 hm (v := ip[i])
      (by rw [sel_get hm (by omega)]; exact List.getElem?_eq_getElem hpi) hr']
    exact (List.getElem?_eq_getElem hpi).symm
  · intro c hcn hck hoc hid hloc
    have u := upd_processPhotons h hl hp hi
    refine u.keep i r r' hr hr' c hcn (fun _ => ?_)
    have : c ∉ e.idCol.toList := by
      cases hidc : e.idCol with
      | none => simp
      | some d => rw [hidc] at hid; simpa using fun h => hid (by rw [h])
    simp only [Action.cols, ha, List.mem_append, not_or, eachCols]
    exact ⟨⟨⟨⟨hck, hoc⟩, hloc⟩, this⟩, by simp_all⟩

/-- **C02** (disagreement found) `process_photon` elements with declared output columns fail with
`KeyError` when the table does not have those columns yet: the columns are not added first. -/
theorem C02_each_missing_column_keyError :
    ∃ (e : Elem) (t : Table), e.outputColumns = ["wave"] ∧ "wave" ∉ t.names ∧
      (e.geom t).1 = [true] ∧ e.call t = .error .keyError := by
  refine ⟨{ idCol := none, idNum := 0, locCoos := none, outputColumns := ["wave"],
            action := .each fun r => .ok [r "dir", r "pos", r "energy", r "polarization",
              .num (some 1), .num (some 3)],
            geom := fun _ => ([true], [.vec []], [(.num none, .num none)]) },
          ⟨["dir", "pos", "energy", "polarization", "probability"], [fun _ => .num (some 1)]⟩,
          rfl, by decide, rfl, ?_⟩
  have h := not_outOfRange (x := 1) (by norm_num) (by norm_num)
  simp [Elem.call, h, processPhotons, runAction, eachLoop, selectedRows, sel, eachCols, assignAll,
    assignColValue, ColVal.toList, ColVal.expand, mulMasked, Val.mul, oneHot,
    countTrue, bind, Except.bind, assignMasked, List.range_succ]

/-! Non-vacuity: `exElem` hits the first of two photons and adds four columns. -/
example : ∃ t', exElem.call exTable = .ok t' ∧ (exElem.geom exTable).1 = [true, false] ∧
    (keysOf [(some "probability", ColVal.scalar (.num (some (1/2)))),
      (some "wave", .scalar (.num (some 7)))]).Nodup := by
  obtain ⟨t', h⟩ := exElem_call
  exact ⟨t', h, by simp [exElem, exTable], by simp [keysOf]⟩

/-! ## C29 -/

/-- Successive states of a photon table when a list of elements is applied with one fixed
intersection result. -/
inductive LayerTrace (mask : List Bool) (ip : List Val) (ic : List (Val × Val)) :
    List Elem → Table → Table → Prop
  | nil (t) : LayerTrace mask ip ic [] t t
  | cons {e es t t1 t2} : processPhotons e t mask ip ic = .ok t1 →
      LayerTrace mask ip ic es t1 t2 → LayerTrace mask ip ic (e :: es) t t2

/-- **C29** A call of a stack intersects once; then (if anything was hit) the stack's own labels and
all layers are processed in order, all with the same mask, positions and local coordinates. -/
theorem C29_stack_runs_layers_in_order {s : Stack} {t t' : Table} :
    s.call t = .ok t' ↔
      (true ∉ (s.geom t).1 ∧ t' = t) ∨
      (true ∈ (s.geom t).1 ∧
        LayerTrace (s.geom t).1 (s.geom t).2.1 (s.geom t).2.2 (s.base :: s.layers) t t') := by
  have run : ∀ mask ip ic (es : List Elem) t t',
      runLayers mask ip ic es t = .ok t' ↔ LayerTrace mask ip ic es t t' := by
    intro mask ip ic es
    induction es with
    | nil =>
      intro t t'
      constructor
      · intro h; cases h; exact .nil _
      · intro h; cases h; rfl
    | cons e es ih =>
      intro t t'
      simp only [runLayers, bind, Except.bind]
      constructor
      · intro h
        split at h
        · cases h
        · rename_i t1 h1; exact .cons h1 ((ih _ _).1 h)
      · intro h
        cases h with
        | cons h1 h2 => simp only [h1]; exact (ih _ _).2 h2
  simp only [Stack.call, Stack.processPhotons]
  by_cases hm : true ∈ (s.geom t).1
  · have : 0 < countTrue (s.geom t).1 := by
      simpa [countTrue, List.count_pos_iff] using hm
    simp only [this, if_true, hm, not_true, false_and, true_and, false_or, bind, Except.bind]
    constructor
    · intro h
      split at h
      · cases h
      · rename_i t1 h1; exact .cons h1 ((run _ _ _ _ _ _).1 h)
    · intro h
      cases h with
      | cons h1 h2 => simp only [h1]; exact (run _ _ _ _ _ _).2 h2
  · have : ¬ 0 < countTrue (s.geom t).1 := by
      simpa [countTrue, List.count_pos_iff] using hm
    simp only [this, if_false, hm, not_false_eq_true, true_and, false_and, or_false]
    constructor
    · intro h; cases h; rfl
    · intro h; subst h; rfl

theorem LayerTrace.upd {mask ip ic es t t'} (h : LayerTrace mask ip ic es t t')
    (hl : mask.length = t.rows.length) (hp : ip.length = t.rows.length)
    (hi : ic.length = t.rows.length) : ∃ ids cols, Upd ids cols mask t t' := by
  induction h with
  | nil t => exact ⟨[], [], Upd.refl _ _ _ _⟩
  | cons h1 _ ih =>
    have u := upd_processPhotons h1 hl hp hi
    obtain ⟨ids, cols, u2⟩ := ih (by rw [hl, u.len]) (by rw [hp, u.len]) (by rw [hi, u.len])
    exact ⟨_, _, u.trans u2⟩

/-- **C29** A photon that misses the stack keeps all its columns. -/
theorem C29_miss_unchanged {s : Stack} {t t' : Table} (hg : GeomOK s.geom)
    (h : s.call t = .ok t') (i : ℕ) (r r' : Row) (hm : (s.geom t).1[i]? = some false)
    (hr : t.rows[i]? = some r) (hr' : t'.rows[i]? = some r') :
    ∀ c ∈ t.names, r' c = r c := by
  obtain ⟨h1, h2, h3⟩ := hg t
  rcases C29_stack_runs_layers_in_order.1 h with ⟨_, rfl⟩ | ⟨_, tr⟩
  · rw [hr] at hr'; cases hr'; intros; rfl
  · obtain ⟨ids, cols, u⟩ := tr.upd h1 h2 h3
    exact fun c hc => u.keep i r r' hr hr' c hc (by simp [hm])

/-- the position of a hit photon after any number (≥ 1) of layers is the intersection point -/
theorem LayerTrace.pos {mask ip ic es t t'} (h : LayerTrace mask ip ic es t t') (hne : es ≠ [])
    (hl : mask.length = t.rows.length) (hp : ip.length = t.rows.length)
    (hi : ic.length = t.rows.length) (i : ℕ) (r' : Row)
    (hm : mask[i]? = some true) (hr' : t'.rows[i]? = some r') : some (r' "pos") = ip[i]? := by
  induction h with
  | nil t => exact absurd rfl hne
  | cons h1 h2 ih =>
    rename_i e es t t1 t2
    have u := upd_processPhotons h1 hl hp hi
    by_cases hes : es = []
    · subst hes
      cases h2
      have hc : countTrue mask ≠ 0 := by
        have := rank_lt hm; omega
      obtain ⟨_, _, _, _, _, _, h5⟩ := processPhotons_ok h1 hc
      have hpi : i < ip.length := by
        have := (List.getElem?_eq_some_iff.1 hm).1; omega
      rw [setCol_hit h5 hm (v := ip[i])
        (by rw [sel_get hm (by omega)]; exact List.getElem?_eq_getElem hpi) hr']
      exact (List.getElem?_eq_getElem hpi).symm
    · exact ih hes (by rw [hl, u.len]) (by rw [hp, u.len]) (by rw [hi, u.len]) hr'

/-- **C29** A photon that hits the stack ends at the (single) intersection point. -/
theorem C29_hit_position {s : Stack} {t t' : Table} (hg : GeomOK s.geom)
    (h : s.call t = .ok t') (i : ℕ) (r' : Row) (hm : (s.geom t).1[i]? = some true)
    (hr' : t'.rows[i]? = some r') : some (r' "pos") = (s.geom t).2.1[i]? := by
  obtain ⟨h1, h2, h3⟩ := hg t
  rcases C29_stack_runs_layers_in_order.1 h with ⟨hn, rfl⟩ | ⟨_, tr⟩
  · exact absurd (List.mem_of_getElem? hm) hn
  · exact tr.pos (by simp) h1 h2 h3 i r' hm hr'

theorem Elem.NoProbLabel.loc {e : Elem} (he : e.NoProbLabel) :
    "probability" ∉ locNames e.locCoos := by
  cases hlc : e.locCoos with
  | none => simp [locNames]
  | some ab =>
    have := he.2 ab.1 ab.2 hlc
    simp only [locNames, List.mem_cons, List.not_mem_nil, or_false, not_or]
    exact ⟨fun h => this.1 h.symm, fun h => this.2 h.symm⟩

theorem layers_factor {mask ip ic es t t'} (tr : LayerTrace mask ip ic es t t')
    (qs : List ℝ) (hlen : qs.length = es.length)
    (hlay : ∀ (k : ℕ) (e : Elem) (q : ℝ), es[k]? = some e → qs[k]? = some q → e.NoProbLabel ∧
      e.action = .vector fun _ _ _ _ => .ok [(some "probability", .scalar (.num (some q)))])
    (hpr : "probability" ∈ t.names) (g1 : mask.length = t.rows.length)
    (g2 : ip.length = t.rows.length) (g3 : ic.length = t.rows.length)
    (i : ℕ) (r r' : Row) (p : ℝ) (hm : mask[i]? = some true)
    (hr : t.rows[i]? = some r) (hr' : t'.rows[i]? = some r')
    (hp : r "probability" = .num (some p)) :
    r' "probability" = .num (some (p * qs.prod)) := by
  induction tr generalizing qs p r with
  | nil t =>
    rw [hr] at hr'; cases hr'
    cases qs with
    | nil => simpa using hp
    | cons => simp at hlen
  | cons k1 k2 ih =>
    rename_i e es ta tb tc
    cases qs with
    | nil => simp at hlen
    | cons q qs =>
      obtain ⟨n1, n2⟩ := hlay 0 e q rfl rfl
      have u := upd_processPhotons k1 g1 g2 g3
      obtain ⟨rb, hrb⟩ : ∃ r1, tb.rows[i]? = some r1 := by
        have : i < tb.rows.length := by
          rw [u.len]; exact (List.getElem?_eq_some_iff.1 hr).1
        exact ⟨_, List.getElem?_eq_getElem this⟩
      have := (C02_hit_updated g1 g2 g3 n2 rfl
        (by simp [keysOf]) k1 i r rb hm hr hrb).2.2.2.2.1 "probability" _
        (List.mem_singleton.2 rfl) (by decide) n1.1 n1.loc
      obtain ⟨x, hx1, hx2, hx3⟩ := this.2 rfl hpr
      simp [ColVal.at] at hx1; subst hx1
      rw [hp] at hx3
      simp [Val.mul] at hx3
      have hlay' : ∀ (k : ℕ) (e : Elem) (q : ℝ), es[k]? = some e → qs[k]? = some q →
          e.NoProbLabel ∧ e.action = .vector fun _ _ _ _ =>
            .ok [(some "probability", .scalar (.num (some q)))] :=
        fun k e' q' a b => hlay (k+1) e' q' (by simpa using a) (by simpa using b)
      have := ih (qs := qs) (p := p * q) (r := rb) (hlen := by simpa using hlen)
        (hlay := hlay') (hr' := hr') (hr := hrb) (hp := hx3.symm)
        (hpr := u.names.subset hpr) (g1 := by rw [g1, u.len]) (g2 := by rw [g2, u.len])
        (g3 := by rw [g3, u.len])
      rw [this]; simp [mul_assoc]

/-- **C29** Probability factors of the layers are multiplied: if layer `k` assigns the factor
`q k` (like a set of `EnergyFilter`s for one energy), a photon that hits the stack ends with its
probability times the product of all factors. -/
theorem C29_factors_multiply {s : Stack} {t t' : Table} (hg : GeomOK s.geom)
    (qs : List ℝ) (hlen : qs.length = s.layers.length)
    (hb : s.base.NoProbLabel)
    (hlay : ∀ (k : ℕ) (e : Elem) (q : ℝ), s.layers[k]? = some e → qs[k]? = some q → e.NoProbLabel ∧
      e.action = .vector fun _ _ _ _ => .ok [(some "probability", .scalar (.num (some q)))])
    (hpr : "probability" ∈ t.names)
    (h : s.call t = .ok t') (i : ℕ) (r r' : Row) (p : ℝ) (hm : (s.geom t).1[i]? = some true)
    (hr : t.rows[i]? = some r) (hr' : t'.rows[i]? = some r')
    (hp : r "probability" = .num (some p)) :
    r' "probability" = .num (some (p * qs.prod)) := by
  obtain ⟨h1, h2, h3⟩ := hg t
  rcases C29_stack_runs_layers_in_order.1 h with ⟨hn, rfl⟩ | ⟨_, tr⟩
  · exact absurd (List.mem_of_getElem? hm) hn
  · generalize hM : (s.geom t).1 = mask at *
    generalize hI : (s.geom t).2.1 = ip at *
    generalize hC : (s.geom t).2.2 = ic at *
    cases tr with
    | cons k1 k2 =>
      rename_i t1
      have u := upd_processPhotons k1 h1 h2 h3
      obtain ⟨r1, hr1⟩ : ∃ r1, t1.rows[i]? = some r1 := by
        have : i < t1.rows.length := by
          rw [u.len]; exact (List.getElem?_eq_some_iff.1 hr).1
        exact ⟨_, List.getElem?_eq_getElem this⟩
      have e1 : r1 "probability" = .num (some p) := by
        rw [← hp]
        have := (C02_hit_updated (f := fun _ _ _ _ => .ok []) (outs := []) h1 h2 h3 rfl rfl
          (by simp [keysOf]) k1 i r r1 hm hr hr1).2.2.2.2.2 "probability" hpr
        exact this (by simp [keysOf]) (by decide) hb.1 hb.loc
      exact layers_factor k2 qs hlen hlay (u.names.subset hpr) (by rw [h1, u.len])
        (by rw [h2, u.len]) (by rw [h3, u.len]) i r1 r' p hm hr1 hr' e1

/-! Non-vacuity: a stack with one filter layer of factor 1/2. -/

/-- example filter layer -/
noncomputable def exLayer : Elem where
  idCol := none
  idNum := 0
  locCoos := none
  outputColumns := []
  action := .vector fun _ _ _ _ => .ok [(some "probability", .scalar (.num (some (1/2))))]
  geom := exElem.geom

/-- example stack -/
noncomputable def exStack : Stack where
  idCol := some "ccd"
  idNum := 2
  locCoos := some ("y", "z")
  outputColumns := []
  layers := [exLayer, exLayer]
  geom := exElem.geom

example : GeomOK exStack.geom ∧ exStack.base.NoProbLabel ∧
    (∀ (k : ℕ) (e : Elem) (q : ℝ), exStack.layers[k]? = some e → [(1/2 : ℝ), 1/2][k]? = some q → e.NoProbLabel ∧
      e.action = .vector fun _ _ _ _ => .ok [(some "probability", .scalar (.num (some q)))]) ∧
    ∃ t', exStack.call exTable = .ok t' := by
  refine ⟨by simp [GeomOK, exStack, exElem], by simp [Elem.NoProbLabel, exStack, Stack.base], ?_, ?_⟩
  · intro k e q he hq
    match k with
    | 0 => simp [exStack] at he hq; subst he; subst hq; simp [Elem.NoProbLabel, exLayer]
    | 1 => simp [exStack] at he hq; subst he; subst hq; simp [Elem.NoProbLabel, exLayer]
    | k + 2 => simp at hq
  · have h := not_outOfRange (x := 2⁻¹) (by norm_num) (by norm_num)
    simp +decide [Stack.call, h, Stack.processPhotons, Stack.base, exStack, exLayer, processPhotons, exElem,
      exTable, runAction, assignAll, assignColValue, runLayers,
      addOutputCols, Table.addCol, ColVal.toList, ColVal.expand, mulMasked,
      assignMasked, setCol, assignLoc, assignId, sel, exRow, Val.mul, countTrue, bind, Except.bind]

end Marxs
