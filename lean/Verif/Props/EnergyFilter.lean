import Verif.Props.Apertures
import Verif.Props.Osip

/-! # C108: filters that depend on energy, and measured energies -/

namespace Marxs

open Classical

theorem FreeNames.loc {cs : List String} {idCol : Option String} {loc : Option (String × String)}
    (h : FreeNames cs idCol loc) {c : String} (hc : c ∈ cs) : c ∉ locNames loc := by
  cases hl : loc with
  | none => simp [locNames]
  | some ab =>
    obtain ⟨h1, h2⟩ := h.2 ab.1 ab.2 hl
    simp only [locNames, List.mem_cons, List.not_mem_nil, or_false, not_or]
    exact ⟨fun e => h1 (e ▸ hc), fun e => h2 (e ▸ hc)⟩

theorem mem_sel_iff {α : Type} {mask : List Bool} {xs : List α} {x : α} :
    x ∈ sel mask xs ↔ ∃ i : ℕ, mask[i]? = some true ∧ xs[i]? = some x := by
  induction mask generalizing xs with
  | nil => simp [sel]
  | cons m ms ih =>
    cases xs with
    | nil => cases m <;> simp [sel]
    | cons y ys =>
      cases m with
      | false =>
        simp only [sel, ih]
        constructor
        · rintro ⟨i, h1, h2⟩; exact ⟨i + 1, by simpa using h1, by simpa using h2⟩
        · rintro ⟨i, h1, h2⟩
          cases i with
          | zero => simp at h1
          | succ i => exact ⟨i, by simpa using h1, by simpa using h2⟩
      | true =>
        simp only [sel, List.mem_cons, ih]
        constructor
        · rintro (rfl | ⟨i, h1, h2⟩)
          · exact ⟨0, rfl, rfl⟩
          · exact ⟨i + 1, by simpa using h1, by simpa using h2⟩
        · rintro ⟨i, h1, h2⟩
          cases i with
          | zero => simp at h2; exact .inl h2.symm
          | succ i => exact .inr ⟨i, by simpa using h1, by simpa using h2⟩

/-- Energy of a photon as a number. -/
noncomputable def enOf (r : Row) : ℝ := (r "energy").toNum.getD 0

theorem enOf_num {r : Row} {e : ℝ} (h : r "energy" = .num (some e)) : enOf r = e := by
  simp [enOf, h, Val.toNum]

/-- Filter function that works on each energy separately. -/
theorem filter_values {g : ℝ → ℝ} {f : List Val → ColVal}
    (hf : ∀ es : List ℝ, f (es.map fun e => .num (some e)) = .arr (es.map fun e => .num (some (g e))))
    (rows : List Row) (hnum : ∀ r ∈ rows, ∃ e, r "energy" = .num (some e)) :
    f (rows.map (· "energy")) = .arr (rows.map fun r => .num (some (g (enOf r)))) := by
  have : rows.map (· "energy") = (rows.map enOf).map fun e => Val.num (some e) := by
    rw [List.map_map]
    apply List.map_congr_left
    intro r hr
    obtain ⟨e, he⟩ := hnum r hr
    simp [enOf_num he, he]
  rw [this, hf, List.map_map]
  rfl

/-- **C108** A filter with position: the probability of every photon that hits it is multiplied with the value of the filter
function at its energy. Photons that miss the filter keep all their properties, and photons that
hit it keep all but position, id and local coordinates. Values of the filter function for photons that miss it do not
matter. -/
theorem C108_filter (g : ℝ → ℝ) (idCol : Option String) (idNum : ℤ) (loc : Option (String × String))
    (geom : Table → List Bool × List Val × List (Val × Val)) (hgeom : GeomOK geom)
    (hfree : FreeNames ["probability", "energy", "pos"] idCol loc) (t : Table)
    (hn : ∀ c ∈ ["probability", "energy", "pos"], c ∈ t.names)
    (hnum : ∀ r ∈ t.rows, ∃ e p, r "energy" = .num (some e) ∧ r "probability" = .num (some p))
    (hg : ∀ (i : ℕ) (r : Row) (e : ℝ), (geom t).1[i]? = some true → t.rows[i]? = some r → r "energy" = .num (some e) →
      0 ≤ g e ∧ g e ≤ 1)
    (f : List Val → ColVal) (hf : ∀ es : List ℝ, f (es.map fun e => .num (some e)) = .arr (es.map fun e => .num (some (g e)))) :
    ∃ t', (energyFilter f idCol idNum loc geom).call t = .ok t' ∧ t'.rows.length = t.rows.length ∧
      ∀ (i : ℕ) (r r' : Row), t.rows[i]? = some r → t'.rows[i]? = some r' →
        ((geom t).1[i]? = some false → ∀ c ∈ t.names, r' c = r c) ∧
        ((geom t).1[i]? = some true →
          (∀ e p, r "energy" = .num (some e) → r "probability" = .num (some p) →
            r' "probability" = .num (some (p * g e))) ∧
          some (r' "pos") = (geom t).2.1[i]? ∧
          ∀ c ∈ t.names, c ∉ ["probability", "pos"] → idCol ≠ some c → (∀ x y, loc = some (x, y) → c ≠ x ∧ c ≠ y) →
            r' c = r c) := by
  obtain ⟨g1, g2, g3⟩ := hgeom t
  obtain ⟨mask, hmask⟩ : ∃ mask, mask = (geom t).1 := ⟨_, rfl⟩
  obtain ⟨ip, hip⟩ : ∃ ip, ip = (geom t).2.1 := ⟨_, rfl⟩
  obtain ⟨ic, hic⟩ : ∃ ic, ic = (geom t).2.2 := ⟨_, rfl⟩
  rw [← hmask] at g1 hg ⊢
  rw [← hip] at g2 ⊢
  rw [← hic] at g3
  have hp := hn "probability" (by simp)
  have he := hn "energy" (by simp)
  have hpos := hn "pos" (by simp)
  set ps : List Val := (sel mask t.rows).map fun r => .num (some (g (enOf r))) with hps
  have hfv : f ((sel mask t.rows).map (· "energy")) = .arr ps := filter_values hf _ (by
    intro r hr
    obtain ⟨i, _, h2⟩ := mem_sel_iff.1 hr
    obtain ⟨e, p, h, _⟩ := hnum r (List.mem_of_getElem? h2)
    exact ⟨e, h⟩)
  have hval : ∀ x ∈ (ColVal.arr ps).toList, ¬ x.OutOfRange ∧ ∃ q, x = .num q := by
    intro x hx
    obtain ⟨r, hr, rfl⟩ := List.mem_map.1 hx
    obtain ⟨i, h1, h2⟩ := mem_sel_iff.1 hr
    obtain ⟨e, p, h, _⟩ := hnum r (List.mem_of_getElem? h2)
    rw [enOf_num h]
    obtain ⟨a1, a2⟩ := hg i r e h1 h2 h
    exact ⟨not_outOfRange a1 a2, _, rfl⟩
  have hno : ¬ ∃ x ∈ (ColVal.arr ps).toList, x.OutOfRange := by
    rintro ⟨x, hx, ho⟩; exact (hval x hx).1 ho
  obtain ⟨F, hF⟩ : ∃ F, (energyFilter f idCol idNum loc geom).action = .vector F ∧
      ∀ ip ic, F t mask ip ic = .ok [(some "probability", .arr ps)] := by
    refine ⟨_, rfl, ?_⟩
    intro ip ic
    simp only [he, not_true_eq_false, if_false, hfv]
    rw [if_neg hno]
  have hexp : ColVal.expand (countTrue mask) (.arr ps) = .ok ps := by
    simp only [ColVal.expand, hps, List.length_map, sel_length g1, if_true]
  obtain ⟨t', ht'⟩ := processPhotons_prob_ok (ip := ip) (ic := ic) hF.1 (hF.2 ip ic) ⟨_, hexp⟩ hval hp hpos g1
    (fun i r _ h2 => by obtain ⟨_, p, _, h⟩ := hnum r (List.mem_of_getElem? h2); exact ⟨_, h⟩)
  obtain ⟨_, m2, m3⟩ := C02_miss_unchanged g1 g2 g3 ht'
  have hcall : (energyFilter f idCol idNum loc geom).call t = .ok t' := by
    rw [← ht', hmask, hip, hic]; rfl
  refine ⟨t', hcall, m2, ?_⟩
  intro i r r' hr hr'
  refine ⟨fun hm => (m3 i r r' hm hr hr').1, fun hm => ?_⟩
  obtain ⟨h1, _, _, _, h5, h6⟩ := C02_hit_updated g1 g2 g3 hF.1 (hF.2 ip ic) (by simp [keysOf]) ht' i r r' hm hr hr'
  have hrk := rank_lt hm
  refine ⟨?_, h1, ?_⟩
  · intro e p hre hrp
    obtain ⟨q, hq, _, hmul⟩ := (h5 "probability" _ List.mem_cons_self (by decide) (hfree.1 _ (by simp))
      (hfree.loc (by simp))).2 rfl hp
    rw [← expand_at hexp hrk, hps, List.getElem?_map, sel_get hm g1, hr] at hq
    simp only [Option.map_some, Option.some.injEq] at hq
    rw [← hq, enOf_num hre, hrp] at hmul
    simpa [Val.mul] using hmul.symm
  · intro c hc hne hid hl'
    simp only [List.mem_cons, List.not_mem_nil, not_or, or_false] at hne
    refine h6 c hc (by simpa [keysOf] using hne.1) hne.2 hid ?_
    show c ∉ locNames loc
    cases hlc : loc with
    | none => simp [locNames]
    | some ab =>
      obtain ⟨h1, h2⟩ := hl' ab.1 ab.2 hlc
      simp [locNames, h1, h2]

/-- **C108** A filter function that is not between 0 and 1 for any one of the photons that hit the filter is an error. -/
theorem C108_filter_range (g : ℝ → ℝ) (idCol : Option String) (idNum : ℤ) (loc : Option (String × String))
    (geom : Table → List Bool × List Val × List (Val × Val)) (t : Table) (hn : "energy" ∈ t.names)
    (hnum : ∀ r ∈ t.rows, ∃ e, r "energy" = .num (some e))
    (i : ℕ) (r : Row) (e : ℝ) (hm : (geom t).1[i]? = some true) (hr : t.rows[i]? = some r)
    (he : r "energy" = .num (some e)) (hg : g e < 0 ∨ 1 < g e)
    (f : List Val → ColVal) (hf : ∀ es : List ℝ, f (es.map fun e => .num (some e)) = .arr (es.map fun e => .num (some (g e)))) :
    (energyFilter f idCol idNum loc geom).call t = .error .valueError := by
  have hc : countTrue (geom t).1 ≠ 0 := by have := rank_lt hm; omega
  have hfv : f ((sel (geom t).1 t.rows).map (· "energy")) = .arr _ := filter_values hf _ (by
    intro r hr
    obtain ⟨i, _, h2⟩ := mem_sel_iff.1 hr
    exact hnum r (List.mem_of_getElem? h2))
  have hbad : ∃ v ∈ (f ((sel (geom t).1 t.rows).map (· "energy"))).toList, v.OutOfRange := by
    rw [hfv]
    exact ⟨_, List.mem_map.2 ⟨r, mem_sel_iff.2 ⟨i, hm, hr⟩, rfl⟩, by simpa [Val.OutOfRange, enOf_num he] using hg⟩
  simp only [Elem.call, processPhotons, energyFilter, hc, if_false, runAction, hn, not_true_eq_false, bind,
    Except.bind]
  rw [if_pos hbad]

/-- **C108** If all photons hit the filter, the filter with position and the filter without position
(`GlobalEnergyFilter`) give the same probabilities. -/
theorem C108_global (g : ℝ → ℝ) (idCol : Option String) (idNum : ℤ) (loc : Option (String × String))
    (geom : Table → List Bool × List Val × List (Val × Val)) (hgeom : GeomOK geom)
    (hfree : FreeNames ["probability", "energy", "pos"] idCol loc) (t : Table)
    (hn : ∀ c ∈ ["probability", "energy", "pos"], c ∈ t.names)
    (hnum : ∀ r ∈ t.rows, ∃ e p, r "energy" = .num (some e) ∧ r "probability" = .num (some p))
    (hg : ∀ e, 0 ≤ g e ∧ g e ≤ 1) (hall : ∀ i < t.rows.length, (geom t).1[i]? = some true)
    (f : List Val → ColVal) (hf : ∀ es : List ℝ, f (es.map fun e => .num (some e)) = .arr (es.map fun e => .num (some (g e)))) :
    ∃ t1 t2, (energyFilter f idCol idNum loc geom).call t = .ok t1 ∧ globalFilter f t = .ok t2 ∧
      ∀ i < t.rows.length, ∃ x, numAt t1 "probability" i = some x ∧ numAt t2 "probability" i = some x := by
  obtain ⟨t1, h1, l1, h2⟩ := C108_filter g idCol idNum loc geom hgeom hfree t hn hnum (fun _ _ _ _ _ _ => hg _) f hf
  have hfv := filter_values hf t.rows (fun r hr => by obtain ⟨e, _, h, _⟩ := hnum r hr; exact ⟨e, h⟩)
  have hno : ¬ ∃ x ∈ (f (t.rows.map (· "energy"))).toList, x.OutOfRange := by
    rw [hfv]
    rintro ⟨x, hx, ho⟩
    obtain ⟨r, _, rfl⟩ := List.mem_map.1 hx
    exact not_outOfRange (hg _).1 (hg _).2 ho
  have hp := hn "probability" (by simp)
  have hmt : ∀ i < t.rows.length, (t.rows.map fun _ => true)[i]? = some true := by
    intro i hi; simp [hi]
  obtain ⟨rows', hrows⟩ := mulMasked_ok (col := "probability") (mask := t.rows.map fun _ => true) (rows := t.rows)
    (vals := t.rows.map fun r => .num (some (g (enOf r))))
    (fun i r _ hr => by obtain ⟨_, p, _, h⟩ := hnum r (List.mem_of_getElem? hr); exact ⟨_, h⟩)
    (fun v hv => by obtain ⟨r, _, rfl⟩ := List.mem_map.1 hv; exact ⟨_, rfl⟩)
  refine ⟨t1, { t with rows := rows' }, h1, ?_, ?_⟩
  · simp only [globalFilter]
    rw [if_neg hno]
    simp only [hp, not_true_eq_false, if_false, hfv, ColVal.expand, List.length_map, if_true, bind, Except.bind, hrows]
  · intro i hi
    have hr : t.rows[i]? = some t.rows[i] := List.getElem?_eq_getElem hi
    have hr1 : t1.rows[i]? = some t1.rows[i] := List.getElem?_eq_getElem (by omega)
    obtain ⟨e, p, he, hpp⟩ := hnum _ (List.getElem_mem hi)
    have q1 := ((h2 i _ _ hr hr1).2 (hall i hi)).1 e p he hpp
    have hrank : ∀ (l : List Row) (i : ℕ), i ≤ l.length → rank (l.map fun _ => true) i = i := by
      intro l i h
      simp [rank, List.map_const', List.count_replicate_self, h]
    obtain ⟨x, hx, hrow⟩ := mulMasked_get_true (hmt i hi) hr (v := .num (some (g e)))
      (by rw [hrank _ _ hi.le, List.getElem?_map, hr]; simp [enOf_num he]) hrows
    rw [hpp] at hx
    simp only [Val.mul, Option.some.injEq] at hx
    refine ⟨p * g e, ?_, ?_⟩
    · simp only [numAt, hr1, q1]
    · simp only [numAt, hrow, Function.update_self, ← hx]

example : FreeNames ["probability", "energy", "pos"] (some "filter") (some ("y", "z")) ∧
    (∀ es : List ℝ, (fun l : List Val => ColVal.arr (l.map fun v => .num (v.toNum.map fun e => 1 / (1 + e ^ 2))))
      (es.map fun e => .num (some e)) = .arr (es.map fun e => .num (some ((fun e => 1 / (1 + e ^ 2)) e)))) := by
  constructor
  · constructor
    · decide
    · intro x y h; cases h; decide
  · intro es
    simp [Val.toNum]

/-- A geometry where only the first photon hits (example). -/
def exFirstHit : Table → List Bool × List Val × List (Val × Val) := fun t =>
  (t.rows.mapIdx fun i _ => i == 0, t.rows.map fun _ => .vec [some 0, some 0, some 0, some 1],
    t.rows.map fun _ => (.num (some 0), .num (some 0)))

/-- Two photons of energy 1 and 2 keV (example). -/
def exTwo : Table := ⟨["probability", "energy", "pos"],
  [fun c => if c = "pos" then .vec [some 0, some 0, some 0, some 1] else .num (some 1),
   fun c => if c = "pos" then .vec [some 0, some 0, some 0, some 1] else if c = "energy" then .num (some 2) else .num (some 1)]⟩

example : GeomOK exFirstHit ∧ (exFirstHit exTwo).1 = [true, false] ∧
    (∀ c ∈ ["probability", "energy", "pos"], c ∈ exTwo.names) ∧
    (∀ r ∈ exTwo.rows, ∃ e p, r "energy" = .num (some e) ∧ r "probability" = .num (some p)) ∧
    ∀ e : ℝ, 0 ≤ 1 / (1 + e ^ 2) ∧ 1 / (1 + e ^ 2) ≤ 1 := by
  refine ⟨fun t => by simp [exFirstHit], by simp [exFirstHit, exTwo], by simp [exTwo], ?_, ?_⟩
  · intro r hr
    simp only [exTwo, List.mem_cons, List.not_mem_nil, or_false] at hr
    rcases hr with rfl | rfl
    · exact ⟨1, 1, by simp, by simp⟩
    · exact ⟨2, 1, by simp, by simp⟩
  · intro e
    have : (0 : ℝ) < 1 + e ^ 2 := by positivity
    refine ⟨by positivity, ?_⟩
    rw [div_le_one this]
    nlinarith [sq_nonneg e]

/-! ## Energies measured by a CCD -/

theorem assignColValue_other {t : Table} {c : String} {mask : List Bool} {v : ColVal} (hc : c ≠ "probability")
    (hn : c ∈ t.names) : assignColValue t (some c) mask v =
      (v.expand (countTrue mask)).bind fun vs => .ok { t with rows := assignMasked c mask t.rows vs } := by
  unfold assignColValue
  split
  · rename_i h; simp at h; exact absurd h hc
  · rename_i h; cases h
  · rename_i c' h1 h2
    cases h2
    rw [if_neg (not_not.2 hn)]
    rfl

/-- **C108** If all photons hit the detector, every photon gets a measured energy: its energy plus the tabulated width times a
normally distributed number. -/
theorem C108_ccd_partial (tab : List (ℝ × ℝ)) (htab : tab ≠ []) (z : ℕ → ℝ) (idCol : Option String) (idNum : ℤ)
    (loc : Option (String × String)) (geom : Table → List Bool × List Val × List (Val × Val)) (hgeom : GeomOK geom)
    (hfree : FreeNames ["energy_detected", "pos"] idCol loc) (t : Table)
    (hn : "energy" ∈ t.names) (hpos : "pos" ∈ t.names)
    (hall : ∀ i < t.rows.length, (geom t).1[i]? = some true) :
    ∃ t', (ccdRedist tab z idCol idNum loc geom).call t = .ok t' ∧ t'.rows.length = t.rows.length ∧
      ∀ i e, numAt t "energy" i = some e → ∃ s, interp e tab = some s ∧
        numAt t' "energy_detected" i = some (e + s * z i) := by
  obtain ⟨g1, g2, g3⟩ := hgeom t
  have hmask : (geom t).1 = List.replicate t.rows.length true := by
    apply List.ext_getElem?
    intro i
    by_cases hi : i < t.rows.length
    · rw [hall i hi]; simp [hi]
    · rw [List.getElem?_eq_none (by omega)]; simp [hi]
  have hct : countTrue (geom t).1 = t.rows.length := by rw [hmask]; simp [countTrue]
  set es : List Val := t.rows.mapIdx fun i r => ccdEnergy tab (z i) (r "energy") with hes
  have hexp : ColVal.expand (countTrue (geom t).1) (.arr es) = .ok es := by
    simp only [ColVal.expand, hes, List.length_mapIdx, hct, if_true]
  obtain ⟨F, hF⟩ : ∃ F, (ccdRedist tab z idCol idNum loc geom).action = .vector F ∧
      ∀ m ip ic, F t m ip ic = .ok [(some "energy_detected", .arr es)] := by
    refine ⟨_, rfl, ?_⟩
    intro m ip ic
    simp only [hn, not_true_eq_false, if_false, htab, hes]
  have hmem := addOutputCols_mem [] idCol [some "energy_detected"] t "energy_detected" (by simp)
  obtain ⟨t', ht'⟩ := processPhotons_rest (e := ccdRedist tab z idCol idNum loc geom) (t := t) (mask := (geom t).1)
    (ip := (geom t).2.1) (ic := (geom t).2.2)
    (t2 := ⟨(addOutputCols [] idCol [some "energy_detected"] t).names,
      assignMasked "energy_detected" (geom t).1 (addOutputCols [] idCol [some "energy_detected"] t).rows es⟩)
    (by
      simp only [runAction, hF.1, hF.2, List.map_cons, List.map_nil, assignAll]
      rw [show (ccdRedist tab z idCol idNum loc geom).outputColumns = [] from rfl,
        show (ccdRedist tab z idCol idNum loc geom).idCol = idCol from rfl,
        assignColValue_other (by decide) hmem, hexp]
      rfl)
    (fun c hc => addOutputCols_mem _ _ _ _ _ (.inr (.inl hc)))
    (addOutputCols_mem _ _ _ _ _ (.inl hpos))
  obtain ⟨_, m2, _⟩ := C02_miss_unchanged g1 g2 g3 ht'
  refine ⟨t', ht', m2, ?_⟩
  intro i e hie
  have hi : i < t.rows.length := by
    by_contra h
    simp [numAt, List.getElem?_eq_none (by omega : t.rows.length ≤ i)] at hie
  have hr : t.rows[i]? = some t.rows[i] := List.getElem?_eq_getElem hi
  have hr' : t'.rows[i]? = some t'.rows[i] := List.getElem?_eq_getElem (by omega)
  have hm := hall i hi
  obtain ⟨_, _, _, _, h5, _⟩ := C02_hit_updated g1 g2 g3 hF.1 (hF.2 _ _ _) (by simp [keysOf]) ht' i _ _ hm hr hr'
  have h := (h5 "energy_detected" _ List.mem_cons_self (by decide) (hfree.1 _ (by simp)) (hfree.loc (by simp))).1 (by decide)
  rw [← expand_at hexp (rank_lt hm)] at h
  have hrk : rank (geom t).1 i = i := by
    rw [hmask]; simp [rank, List.count_replicate_self, hi.le]
  have hen : t.rows[i] "energy" = .num (some e) := by
    simp only [numAt, hr] at hie
    split at hie
    · rename_i x hx; rw [hx, hie]
    · cases hie
  obtain ⟨s, hs⟩ := interp_some e tab htab
  refine ⟨s, hs, ?_⟩
  rw [hrk, hes, List.getElem?_mapIdx, hr] at h
  simp only [Option.map_some, Option.some.injEq, hen, ccdEnergy, hs] at h
  simp only [numAt, hr', ← h]

/-- **C108** (disagreement) `CCDRedistNormal` is said to be usable as an optical element within an instrument. It fails as soon
as some photons of a list hit the detector and others miss it. -/
theorem C108_ccd_miss_false (tab : List (ℝ × ℝ)) (z : ℕ → ℝ) (idCol : Option String) (idNum : ℤ)
    (loc : Option (String × String)) (geom : Table → List Bool × List Val × List (Val × Val)) (hgeom : GeomOK geom)
    (t : Table) (hn : "energy" ∈ t.names) (hhit : true ∈ (geom t).1) (hmiss : false ∈ (geom t).1) :
    (ccdRedist tab z idCol idNum loc geom).call t = .error .valueError := by
  obtain ⟨g1, _, _⟩ := hgeom t
  have hc : countTrue (geom t).1 ≠ 0 := by
    intro h0
    exact absurd hhit (by simpa [countTrue, List.count_eq_zero] using h0)
  have hlt : countTrue (geom t).1 < t.rows.length := by
    rw [← g1]
    refine lt_of_le_of_ne List.count_le_length ?_
    intro h
    exact absurd (List.count_eq_length.1 h _ hmiss) (by simp)
  have hmem := addOutputCols_mem [] idCol [some "energy_detected"] t "energy_detected" (by simp)
  have hexp : ColVal.expand (countTrue (geom t).1)
      (.arr (t.rows.mapIdx fun i r => ccdEnergy tab (z i) (r "energy"))) = .error .valueError := by
    simp only [ColVal.expand, List.length_mapIdx]
    rw [if_neg (by omega)]
    have hlen : (t.rows.mapIdx fun i r => ccdEnergy tab (z i) (r "energy")).length = t.rows.length := by simp
    split
    · rename_i v hv
      rw [hv] at hlen
      simp at hlen
      omega
    · rfl
  simp only [Elem.call, processPhotons, ccdRedist, hc, if_false, runAction, hn, not_true_eq_false]
  by_cases ht : tab = []
  · simp [ht, bind, Except.bind]
  · simp only [ht, if_false, List.map_cons, List.map_nil, assignAll]
    rw [assignColValue_other (by decide) hmem, hexp]
    rfl

example : GeomOK exFirstHit ∧ "energy" ∈ exTwo.names ∧ true ∈ (exFirstHit exTwo).1 ∧ false ∈ (exFirstHit exTwo).1 ∧
    FreeNames ["energy_detected", "pos"] (some "CCD") (some ("det_x", "det_y")) := by
  refine ⟨fun t => by simp [exFirstHit], by simp [exTwo], by simp [exFirstHit, exTwo], by simp [exFirstHit, exTwo], ?_⟩
  constructor
  · decide
  · intro x y h; cases h; decide

end Marxs
