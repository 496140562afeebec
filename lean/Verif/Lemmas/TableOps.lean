import Verif.Lemmas.Table

/-! Which cells does each table operation touch? -/

namespace Marxs

/-- `t'` arises from `t` by adding columns (NaN, or -1 for a name in `ids`) and changing, for
selected rows only, columns in `cols`. -/
structure Upd (ids cols : List String) (mask : List Bool) (t t' : Table) : Prop where
  names : t.names <+: t'.names
  len : t'.rows.length = t.rows.length
  keep : ∀ (i : ℕ) (r r' : Row), t.rows[i]? = some r → t'.rows[i]? = some r' →
    ∀ c ∈ t.names, (mask[i]? = some true → c ∉ cols) → r' c = r c
  fresh : ∀ (i : ℕ) (r' : Row), mask[i]? = some false → t'.rows[i]? = some r' →
    ∀ c ∈ t'.names, c ∉ t.names → (c ∉ ids → r' c = .num none) ∧
      (r' c = .num none ∨ r' c = .int (-1))

theorem Upd.refl (ids cols mask t) : Upd ids cols mask t t where
  names := List.prefix_refl _
  len := rfl
  keep := by intro i r r' h h'; rw [h] at h'; cases h'; intros; rfl
  fresh := by intro i r' _ _ c h h'; exact absurd h h'

theorem get_of_len {t t' : Table} (h : t'.rows.length = t.rows.length) {i : ℕ} {r' : Row}
    (h' : t'.rows[i]? = some r') : ∃ r, t.rows[i]? = some r := by
  have : i < t.rows.length := by
    rw [← h]; exact (List.getElem?_eq_some_iff.1 h').1
  exact ⟨_, List.getElem?_eq_getElem this⟩

theorem Upd.trans {ids ids' cols cols' mask t t' t''} (h : Upd ids cols mask t t')
    (h' : Upd ids' cols' mask t' t'') : Upd (ids ++ ids') (cols ++ cols') mask t t'' where
  names := h.names.trans h'.names
  len := h'.len.trans h.len
  keep := by
    intro i r r'' hr hr'' c hc hm
    obtain ⟨r', hr'⟩ := get_of_len h'.len hr''
    rw [h'.keep i r' r'' hr' hr'' c (h.names.subset hc) (fun hh => by have := hm hh; simp_all),
      h.keep i r r' hr hr' c hc (fun hh => by have := hm hh; simp_all)]
  fresh := by
    intro i r'' hm hr'' c hc hn
    obtain ⟨r', hr'⟩ := get_of_len h'.len hr''
    by_cases hct : c ∈ t'.names
    · have e := h'.keep i r' r'' hr' hr'' c hct (by simp [hm])
      have f := h.fresh i r' hm hr' c hct hn
      rw [e]
      exact ⟨fun hh => f.1 (by simp_all), f.2⟩
    · have f := h'.fresh i r'' hm hr'' c hc hct
      exact ⟨fun hh => f.1 (by simp_all), f.2⟩

theorem Upd.mono {ids ids' cols cols' mask t t'} (h : Upd ids cols mask t t')
    (hi : ids ⊆ ids') (hc : cols ⊆ cols') : Upd ids' cols' mask t t' where
  names := h.names
  len := h.len
  keep := fun i r r' hr hr' c hcn hm => h.keep i r r' hr hr' c hcn (fun hh hx => hm hh (hc hx))
  fresh := fun i r' hm hr' c hcn hn =>
    ⟨fun hh => (h.fresh i r' hm hr' c hcn hn).1 (fun hx => hh (hi hx)),
      (h.fresh i r' hm hr' c hcn hn).2⟩

theorem upd_assignMasked (c : String) (mask : List Bool) (t : Table) (vals : List Val)
    (hl : mask.length = t.rows.length) (hv : vals.length = countTrue mask) :
    Upd [] [c] mask t { t with rows := assignMasked c mask t.rows vals } where
  names := List.prefix_refl _
  len := by simp
  keep := by
    intro i r r' hr hr' d hd hm
    have hi : i < t.rows.length := (List.getElem?_eq_some_iff.1 hr).1
    cases hmi : mask[i]? with
    | none => simp at hmi; omega
    | some b =>
      cases b with
      | false =>
        simp only at hr'
        rw [assignMasked_get_false hmi, hr] at hr'
        cases hr'; rfl
      | true =>
        have hlt : rank mask i < vals.length := by rw [hv]; exact rank_lt hmi
        simp only at hr'
        rw [assignMasked_get_true hmi hr (List.getElem?_eq_getElem hlt)] at hr'
        cases hr'
        have : d ≠ c := by have := hm hmi; simpa using this
        simp [this]
  fresh := by intro i r' _ _ c h h'; exact absurd h h'

theorem upd_setCol {t t' : Table} {c : String} {mask : List Bool} {vals : List Val}
    (hl : mask.length = t.rows.length) (hv : vals.length = countTrue mask)
    (h : setCol t c mask vals = .ok t') : Upd [] [c] mask t t' := by
  unfold setCol at h
  split at h
  · cases h; exact upd_assignMasked c mask t vals hl hv
  · cases h

theorem upd_mulMasked {c : String} {mask : List Bool} {t : Table} {vals : List Val}
    {rows' : List Row} (hl : mask.length = t.rows.length) (hv : vals.length = countTrue mask)
    (h : mulMasked c mask t.rows vals = some rows') :
    Upd [] [c] mask t { t with rows := rows' } where
  names := List.prefix_refl _
  len := mulMasked_length h
  keep := by
    intro i r r' hr hr' d hd hm
    have hi : i < t.rows.length := (List.getElem?_eq_some_iff.1 hr).1
    cases hmi : mask[i]? with
    | none => simp at hmi; omega
    | some b =>
      cases b with
      | false =>
        simp only at hr'
        rw [mulMasked_get_false hmi h, hr] at hr'
        cases hr'; rfl
      | true =>
        have hlt : rank mask i < vals.length := by rw [hv]; exact rank_lt hmi
        obtain ⟨p, _, hp⟩ := mulMasked_get_true hmi hr (List.getElem?_eq_getElem hlt) h
        simp only at hr'
        rw [hp] at hr'
        cases hr'
        have : d ≠ c := by have := hm hmi; simpa using this
        simp [this]
  fresh := by intro i r' _ _ c h h'; exact absurd h h'

theorem upd_addCol_nan (t : Table) (n : String) (mask) :
    Upd [] [] mask t (t.addCol n (.num none)) := by
  unfold Table.addCol
  split
  · exact Upd.refl _ _ _ _
  · rename_i hn
    refine ⟨List.prefix_append _ _, by simp, ?_, ?_⟩
    · intro i r r' hr hr' c hc _
      simp only [List.getElem?_map, hr, Option.map_some] at hr'
      cases hr'
      have : c ≠ n := fun hh => hn (hh ▸ hc)
      simp [this]
    · intro i r' _ hr' c hc hcn
      simp only [List.mem_append, List.mem_singleton] at hc
      have : c = n := by tauto
      subst this
      simp only [List.getElem?_map] at hr'
      cases hr : t.rows[i]? with
      | none => simp [hr] at hr'
      | some r => simp [hr] at hr'; subst hr'; simp

theorem upd_addCol_id (t : Table) (n : String) (mask) :
    Upd [n] [] mask t (t.addCol n (.int (-1))) := by
  unfold Table.addCol
  split
  · exact Upd.refl _ _ _ _
  · rename_i hn
    refine ⟨List.prefix_append _ _, by simp, ?_, ?_⟩
    · intro i r r' hr hr' c hc _
      simp only [List.getElem?_map, hr, Option.map_some] at hr'
      cases hr'
      have : c ≠ n := fun hh => hn (hh ▸ hc)
      simp [this]
    · intro i r' _ hr' c hc hcn
      simp only [List.mem_append, List.mem_singleton] at hc
      have : c = n := by tauto
      subst this
      simp only [List.getElem?_map] at hr'
      cases hr : t.rows[i]? with
      | none => simp [hr] at hr'
      | some r => simp [hr] at hr'; subst hr'; simp

theorem upd_addOutputCols (oc : List String) (id : Option String) (cs : List (Option String))
    (t : Table) (mask) : Upd id.toList [] mask t (addOutputCols oc id cs t) := by
  have key : ∀ (l : List (Option String)) (t : Table), Upd [] [] mask t
      (l.foldl (fun t n => match n with
        | none => t
        | some n => t.addCol n (.num none)) t) := by
    intro l
    induction l with
    | nil => intro t; exact Upd.refl _ _ _ _
    | cons a l ih =>
      intro t
      cases a with
      | none => exact ih t
      | some n => exact ((upd_addCol_nan t n mask).trans (ih _))
  unfold addOutputCols
  cases id with
  | none => exact key _ _
  | some c => exact ((key _ _).trans (upd_addCol_id _ c mask))

theorem upd_assignColValue {t t' : Table} {c : Option String} {mask : List Bool} {v : ColVal}
    (hl : mask.length = t.rows.length) (h : assignColValue t c mask v = .ok t') :
    Upd [] c.toList mask t t' := by
  unfold assignColValue at h
  split at h
  · split at h
    · cases h
    · split at h
      · cases h
      · cases he : v.expand (countTrue mask) with
        | error e => simp [he, bind, Except.bind] at h
        | ok vs =>
          simp only [he, bind, Except.bind] at h
          split at h
          · rename_i rows hrows
            cases h
            exact upd_mulMasked hl (expand_length he) hrows
          · cases h
  · cases h; exact Upd.refl _ _ _ _
  · split at h
    · cases h
    · cases he : v.expand (countTrue mask) with
      | error e => simp [he, bind, Except.bind] at h
      | ok vs =>
        simp only [he, bind, Except.bind] at h
        cases h
        exact upd_assignMasked _ mask t vs hl (expand_length he)

/-- column names in a dictionary of outputs -/
def keysOf (outs : List (Option String × ColVal)) : List String := outs.filterMap (·.1)

theorem upd_assignAll {mask : List Bool} {outs : List (Option String × ColVal)} {t t' : Table}
    (hl : mask.length = t.rows.length) (h : assignAll mask outs t = .ok t') :
    Upd [] (keysOf outs) mask t t' := by
  induction outs generalizing t with
  | nil => cases h; exact Upd.refl _ _ _ _
  | cons o outs ih =>
    obtain ⟨c, v⟩ := o
    simp only [assignAll] at h
    cases ha : assignColValue t c mask v with
    | error e => simp [ha, bind, Except.bind] at h
    | ok t1 =>
      simp only [ha, bind, Except.bind] at h
      have u := upd_assignColValue hl ha
      have := u.trans (ih (by rw [hl, u.len]) h)
      refine this.mono (by simp) ?_
      cases c <;> simp [keysOf]

theorem sel_length {α} {mask : List Bool} {xs : List α} (h : mask.length = xs.length) :
    (sel mask xs).length = countTrue mask := by
  induction mask generalizing xs with
  | nil => cases xs <;> simp [sel]
  | cons m ms ih =>
    cases xs with
    | nil => simp at h
    | cons x xs =>
      simp at h
      cases m <;> simp [sel, ih h]

/-- the column names for local coordinates -/
def locNames (l : Option (String × String)) : List String :=
  match l with
  | none => []
  | some (a, b) => [a, b]

theorem Upd.mono_mask {ids cols} {mask mask' : List Bool} {t t' : Table}
    (h : Upd ids cols mask t t') (hn : t'.names = t.names)
    (hm : ∀ i : ℕ, mask[i]? = some true → mask'[i]? = some true) : Upd ids cols mask' t t' where
  names := h.names
  len := h.len
  keep := fun i r r' hr hr' c hc hh => h.keep i r r' hr hr' c hc (fun x => hh (hm i x))
  fresh := by intro i r' _ _ c hc hcn; rw [hn] at hc; exact absurd hc hcn

theorem assignColValue_names {t t' : Table} {c mask v} (h : assignColValue t c mask v = .ok t') :
    t'.names = t.names := by
  unfold assignColValue at h
  split at h
  · split at h
    · cases h
    · split at h
      · cases h
      · cases he : v.expand (countTrue mask) with
        | error e => simp [he, bind, Except.bind] at h
        | ok vs =>
          simp only [he, bind, Except.bind] at h
          split at h
          · cases h; rfl
          · cases h
  · cases h; rfl
  · split at h
    · cases h
    · cases he : v.expand (countTrue mask) with
      | error e => simp [he, bind, Except.bind] at h
      | ok vs =>
        simp only [he, bind, Except.bind] at h
        cases h; rfl

theorem assignAll_names {mask : List Bool} {outs : List (Option String × ColVal)} {t t' : Table}
    (h : assignAll mask outs t = .ok t') : t'.names = t.names := by
  induction outs generalizing t with
  | nil => cases h; rfl
  | cons o outs ih =>
    obtain ⟨c, v⟩ := o
    simp only [assignAll] at h
    cases ha : assignColValue t c mask v with
    | error e => simp [ha, bind, Except.bind] at h
    | ok t1 =>
      simp only [ha, bind, Except.bind] at h
      rw [ih h, assignColValue_names ha]

@[simp] theorem oneHot_length (n i) : (oneHot n i).length = n := by simp [oneHot]

theorem oneHot_get {n i j : ℕ} : (oneHot n i)[j]? = some true ↔ j < n ∧ j = i := by
  simp only [oneHot, List.getElem?_map]
  by_cases h : j < n
  · simp [h]
  · simp [h]

theorem sel_range_mem {mask : List Bool} {i : ℕ} :
    ∀ {s n}, i ∈ sel mask (List.range' s n) → s ≤ i ∧ mask[i - s]? = some true := by
  induction mask with
  | nil => intro s n h; simp [sel] at h
  | cons m ms ih =>
    intro s n h
    cases n with
    | zero => cases m <;> simp [sel] at h
    | succ n =>
      rw [List.range'_succ] at h
      have aux : i ∈ sel ms (List.range' (s+1) n) → s ≤ i ∧ (m :: ms)[i - s]? = some true := by
        intro h
        obtain ⟨h1, h2⟩ := ih h
        refine ⟨by omega, ?_⟩
        rw [show i - s = (i - (s+1)) + 1 by omega]
        simpa using h2
      cases m with
      | true =>
        simp only [sel, List.mem_cons] at h
        rcases h with h | h
        · subst h; simp
        · exact aux h
      | false => simp only [sel] at h; exact aux h

theorem selectedRows_mask {mask : List Bool} {t : Table} {i r}
    (h : (i, r) ∈ selectedRows mask t) : mask[i]? = some true := by
  have := (List.of_mem_zip h).1
  rw [List.range_eq_range'] at this
  simpa using (sel_range_mem this).2

theorem keysOf_zip {cs : List String} {vs : List ColVal} :
    keysOf ((cs.map some).zip vs) ⊆ cs := by
  intro c hc
  simp only [keysOf, List.mem_filterMap] at hc
  obtain ⟨⟨a, b⟩, h1, h2⟩ := hc
  have := (List.of_mem_zip h1).1
  simp at h2
  subst h2
  simpa using this

theorem upd_eachLoop {oc f mask} {work : List (ℕ × Row)} {t t' : Table}
    (hw : ∀ p ∈ work, mask[p.1]? = some true)
    (h : eachLoop oc f work t = .ok t') :
    Upd [] (eachCols oc) mask t t' ∧ t'.names = t.names := by
  induction work generalizing t with
  | nil => cases h; exact ⟨Upd.refl _ _ _ _, rfl⟩
  | cons p work ih =>
    obtain ⟨i, r⟩ := p
    simp only [eachLoop] at h
    cases hf : f r with
    | error e => simp [hf, bind, Except.bind] at h
    | ok outs =>
      simp only [hf, bind, Except.bind] at h
      split at h
      · cases h
      rename_i t1 h1
      have u := upd_assignAll (by simp) h1
      have hn := assignAll_names h1
      have u' : Upd [] (eachCols oc) mask t t1 :=
        (u.mono_mask hn (fun j hj => by
          have := (oneHot_get.1 hj).2
          subst this
          exact hw (j, r) (by simp))).mono (by simp) keysOf_zip
      have v := ih (fun p hp => hw p (by simp [hp])) h
      exact ⟨(u'.trans v.1).mono (by simp) (by simp), by rw [v.2, hn]⟩

/-- decomposition of a successful `process_photons` call with at least one hit -/
theorem processPhotons_ok {e : Elem} {t t' : Table} {mask ip ic}
    (h : processPhotons e t mask ip ic = .ok t') (hc : countTrue mask ≠ 0) :
    ∃ t2 t3 t4, runAction e t mask ip ic = .ok t2 ∧ assignLoc e mask ic t2 = .ok t3 ∧
      assignId e mask t3 = .ok t4 ∧ setCol t4 "pos" mask (sel mask ip) = .ok t' := by
  unfold processPhotons at h
  simp only [hc, if_false] at h
  simp only [bind, Except.bind] at h
  split at h
  · cases h
  rename_i t2 h2
  split at h
  · cases h
  rename_i t3 h3
  split at h
  · cases h
  rename_i t4 h4
  exact ⟨t2, t3, t4, h2, h3, h4, h⟩

/-- names of the columns that the action of an element may write -/
def Action.cols (e : Elem) (t : Table) (mask : List Bool) (ip : List Val)
    (ic : List (Val × Val)) : List String :=
  match e.action with
  | .vector f => match f t mask ip ic with
    | .ok outs => keysOf outs
    | .error _ => []
  | .each _ => eachCols e.outputColumns
  | .missing => []

theorem upd_runAction {e : Elem} {t t' : Table} {mask ip ic}
    (h : runAction e t mask ip ic = .ok t') (hl : mask.length = t.rows.length) :
    Upd e.idCol.toList (Action.cols e t mask ip ic) mask t t' := by
  unfold runAction at h
  unfold Action.cols
  cases ha : e.action with
  | vector f =>
    simp only [ha] at h ⊢
    cases hf : f t mask ip ic with
    | error x => simp [hf] at h
    | ok outs =>
      simp only [hf] at h ⊢
      have u1 := upd_addOutputCols e.outputColumns e.idCol (outs.map (·.1)) t mask
      exact (u1.trans (upd_assignAll (by rw [hl, u1.len]) h)).mono (by simp) (by simp)
  | each f =>
    simp only [ha] at h ⊢
    exact (upd_eachLoop (fun p hp => selectedRows_mask hp) h).1.mono (by simp) (by simp)
  | missing => simp [ha] at h

theorem upd_assignLoc {e : Elem} {t t' : Table} {mask ic}
    (h : assignLoc e mask ic t = .ok t') (hl : mask.length = t.rows.length)
    (hi : ic.length = t.rows.length) :
    Upd e.idCol.toList (locNames e.locCoos) mask t t' := by
  unfold assignLoc at h
  cases hlc : e.locCoos with
  | none => rw [hlc] at h; cases h; exact Upd.refl _ _ _ _
  | some ab =>
    obtain ⟨a, b⟩ := ab
    rw [hlc] at h; simp only at h
    split at h
    · cases h
    rename_i t2b ha
    have v1 := upd_addOutputCols e.outputColumns e.idCol [some a, some b] t mask
    have v2 := v1.trans (upd_setCol (by rw [hl, v1.len]) (sel_length (by simp [hl, hi])) ha)
    have v3 := v2.trans (upd_setCol (by rw [hl, v2.len]) (sel_length (by simp [hl, hi])) h)
    exact v3.mono (by simp) (by simp [locNames])

theorem upd_assignId {e : Elem} {t t' : Table} {mask}
    (h : assignId e mask t = .ok t') (hl : mask.length = t.rows.length) :
    Upd [] e.idCol.toList mask t t' := by
  unfold assignId at h
  cases hid : e.idCol with
  | none => rw [hid] at h; cases h; exact Upd.refl _ _ _ _
  | some c => rw [hid] at h; simp only at h; exact upd_setCol hl (by simp) h

theorem upd_processPhotons {e : Elem} {t t' : Table} {mask ip ic}
    (h : processPhotons e t mask ip ic = .ok t')
    (hl : mask.length = t.rows.length) (hp : ip.length = t.rows.length)
    (hi : ic.length = t.rows.length) :
    Upd e.idCol.toList
      (Action.cols e t mask ip ic ++ locNames e.locCoos ++ e.idCol.toList ++ ["pos"]) mask t t' := by
  by_cases hc : countTrue mask = 0
  · unfold processPhotons at h
    simp [hc] at h
    cases h
    exact Upd.refl _ _ _ _
  · obtain ⟨t2, t3, t4, h2, h3, h4, h5⟩ := processPhotons_ok h hc
    have u2 := upd_runAction h2 hl
    have w3 := u2.trans (upd_assignLoc h3 (by rw [hl, u2.len]) (by rw [hi, u2.len]))
    have w4 := w3.trans (upd_assignId h4 (by rw [hl, w3.len]))
    have w5 := w4.trans (upd_setCol (by rw [hl, w4.len]) (sel_length (by simp [hl, hp])) h5)
    exact w5.mono (by simp) (by simp)

end Marxs
