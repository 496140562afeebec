import Verif.Spec.Columns
import Verif.Props.Pipeline
import Verif.Props.Weights

/-!
# C178: columns that elements have nothing to do with
-/

namespace Marxs
open Classical

theorem Carries.refl (c : String) (t : Table) : Carries c t t := ⟨List.prefix_refl _, rfl⟩

theorem Carries.trans {c : String} {t t' t'' : Table} (h : Carries c t t') (h' : Carries c t' t'') : Carries c t t'' :=
  ⟨h.names.trans h'.names, h'.column.trans h.column⟩

theorem Upd.carries {ids cols : List String} {mask : List Bool} {t t' : Table} (u : Upd ids cols mask t t') {c : String} (hc : c ∈ t.names)
    (h : c ∉ cols) : Carries c t t' := by
  refine ⟨u.names, List.ext_getElem (by simp [u.len]) fun i h1 h2 => ?_⟩
  simp only [List.length_map] at h1 h2
  simp only [List.getElem_map]
  exact u.keep i _ _ (List.getElem?_eq_getElem h2) (List.getElem?_eq_getElem h1) c hc fun _ => h

theorem leaves_cols {e : Elem} {c : String} (h : e.Leaves c) (t : Table) (mask ip ic) :
    c ∉ Action.cols e t mask ip ic ++ locNames e.locCoos ++ e.idCol.toList ++ ["pos"] := by
  obtain ⟨h1, h2, h3, h4⟩ := h
  simp only [List.mem_append, not_or]
  refine ⟨⟨⟨?_, ?_⟩, ?_⟩, by simpa using h1⟩
  · unfold Action.cols
    cases ha : e.action with
    | vector f =>
      simp only [ha] at h4 ⊢
      cases hf : f t mask ip ic with
      | error x => simp
      | ok outs =>
        simp only
        intro hm
        obtain ⟨⟨n, v⟩, hv, rfl⟩ := List.mem_map.1 (keysOf_mem hm)
        exact h4 t mask ip ic outs hf v hv
    | each f =>
      simp only [ha] at h4 ⊢
      simp only [eachCols, List.mem_append, not_or]
      exact h4
    | missing => simp
  · cases hl : e.locCoos with
    | none => simp [locNames]
    | some ab =>
      have := h3 ab.1 ab.2 hl
      simp [locNames, this]
  · cases hid : e.idCol with
    | none => simp
    | some d => rw [hid] at h2; simpa using fun h => h2 (by rw [h])

theorem processPhotons_carries {e : Elem} {c : String} (he : e.Leaves c) {t t' : Table} {mask ip ic} (hc : c ∈ t.names)
    (hl : mask.length = t.rows.length) (hp : ip.length = t.rows.length) (hi : ic.length = t.rows.length)
    (h : processPhotons e t mask ip ic = .ok t') : Carries c t t' :=
  (upd_processPhotons h hl hp hi).carries hc (leaves_cols he t mask ip ic)

theorem Carries.len {c : String} {t t' : Table} (h : Carries c t t') : t'.rows.length = t.rows.length := by
  have := congrArg List.length h.column
  simpa using this

theorem runLayers_carries {c : String} {mask ip ic} (es : List Elem) (hes : ∀ e ∈ es, e.Leaves c) {t t' : Table} (hc : c ∈ t.names)
    (hl : mask.length = t.rows.length) (hp : ip.length = t.rows.length) (hi : ic.length = t.rows.length)
    (h : runLayers mask ip ic es t = .ok t') : Carries c t t' := by
  induction es generalizing t with
  | nil => cases h; exact .refl _ _
  | cons e es ih =>
    simp only [runLayers, bind, Except.bind] at h
    split at h
    · cases h
    rename_i t1 h1
    have c1 := processPhotons_carries (hes e (by simp)) hc hl hp hi h1
    exact c1.trans (ih (fun e he => hes e (by simp [he])) (c1.names.subset hc) (by rw [hl, c1.len]) (by rw [hp, c1.len])
      (by rw [hi, c1.len]) h)

theorem setCol_carries {t t' : Table} {n c : String} {mask : List Bool} {vals : List Val} (hne : c ≠ n) (hc : c ∈ t.names)
    (hl : mask.length = t.rows.length) (hv : vals.length = countTrue mask) (h : setCol t n mask vals = .ok t') : Carries c t t' :=
  (upd_setCol hl hv h).carries hc (by simpa using hne)

theorem globalFilter_carries {f : List Val → ColVal} {c : String} (hne : c ≠ "probability") {t t' : Table} (h : globalFilter f t = .ok t') :
    Carries c t t' := by
  unfold globalFilter at h
  simp only at h
  split_ifs at h with h1 h2
  simp only [bind, Except.bind] at h
  split at h
  · cases h
  split at h
  · rename_i rows hr
    cases h
    refine ⟨List.prefix_refl _, ?_⟩
    simp only
    refine List.ext_getElem (by simpa using mulMasked_length hr) fun i h1 h2 => ?_
    simp only [List.getElem_map]
    exact mulMasked_keep _ _ _ _ hr i _ _ (List.getElem?_eq_getElem (by simpa using h2)) (List.getElem?_eq_getElem (by simpa using h1)) c hne
  · cases h

theorem step_carries {s : Step} {c : String} (hs : s.Leaves c) (hwf : s.WF) {t t' : Table} (hc : c ∈ t.names) (h : s.call t = .ok t') :
    Carries c t t' := by
  cases s with
  | elem e =>
    obtain ⟨g1, g2, g3⟩ := hwf.2 t
    exact processPhotons_carries hs hc g1 g2 g3 h
  | stack s =>
    obtain ⟨g1, g2, g3⟩ := hwf.2.1 t
    simp only [Step.call, Stack.call, Stack.processPhotons] at h
    split_ifs at h with h0
    · simp only [bind, Except.bind] at h
      split at h
      · cases h
      rename_i t1 h1
      have c1 := processPhotons_carries hs.1 hc g1 g2 g3 h1
      exact c1.trans (runLayers_carries _ hs.2 (c1.names.subset hc) (by rw [g1, c1.len]) (by rw [g2, c1.len]) (by rw [g3, c1.len]) h)
    · cases h; exact .refl _ _
  | filter f => exact globalFilter_carries hs h
  | baffle g =>
    obtain ⟨g1, g2⟩ := hwf t
    simp only [Step.call, baffle, bind, Except.bind] at h
    split at h
    · cases h
    rename_i t1 h1
    have c1 := setCol_carries hs.1 hc g1 (sel_length (by rw [g1, g2])) h1
    exact c1.trans (setCol_carries hs.2 (c1.names.subset hc) (by simp [c1.len, g1]) (by simp) h)
  | zero bad =>
    simp only [Step.call, zeroWhere] at h
    exact setCol_carries hs hc (by simp) (by simp) h

/-- **C178** Columns that have nothing to do with the elements (times, names, the user's notes) are the same after a simulation as before, for
every photon; photons stay in the same order and no column is lost. -/
theorem C178_columns (c : String) (ss : List Step) (hs : ∀ s ∈ ss, s.Leaves c ∧ s.WF) (t t' : Table) (hc : c ∈ t.names)
    (h : runSequence ss t = .ok t') : Carries c t t' := by
  induction ss generalizing t with
  | nil => cases h; exact .refl _ _
  | cons s ss ih =>
    simp only [runSequence, bind, Except.bind] at h
    split at h
    · cases h
    rename_i t1 h1
    have c1 := step_carries (hs s (by simp)).1 (hs s (by simp)).2 hc h1
    exact c1.trans (ih (fun s h => hs s (by simp [h])) t1 (c1.names.subset hc) h)

/-- An element that hits the first of two photons leaves their energies alone. -/
example : ∃ ss t t', ss ≠ [] ∧ (∀ s ∈ ss, Step.Leaves s "energy" ∧ s.WF) ∧ "energy" ∈ t.names ∧ t.rows.length = 2 ∧ runSequence ss t = .ok t' := by
  obtain ⟨t', h⟩ := exElem_call
  refine ⟨[.elem exElem], exTable, t', by simp, ?_, by simp [exTable], rfl, ?_⟩
  · intro s hs
    simp only [List.mem_cons, List.not_mem_nil, or_false] at hs
    subst hs
    refine ⟨⟨by simp, by simp [exElem], ?_, ?_⟩, ?_⟩
    · intro a b hab
      simp only [exElem, Option.some.injEq, Prod.mk.injEq] at hab
      obtain ⟨rfl, rfl⟩ := hab
      simp
    · simp only [exElem]
      intro t mask ip ic outs h v
      cases h
      simp
    · simp [Step.WF, Elem.NoProbLabel, GeomOK, exElem]
  · simp [runSequence, Step.call, h, bind, Except.bind]

theorem elem_leaves (o : ListOptic) (k : ElemCols) (c : String) (hk : k.Leaves c) (hc : c ∉ rayColumns) : (o.elem k).Leaves c := by
  obtain ⟨h1, h2, h3⟩ := hk
  have hray : ∀ n ∈ rayColumns, c ≠ n := fun n hn h => hc (h ▸ hn)
  refine ⟨hray _ (by simp [rayColumns]), h2, h1, ?_⟩
  cases o with
  | thin m f =>
    simp only [ListOptic.elem]
    refine ⟨fun h => hc ?_, by simp⟩
    simp only [List.mem_cons, List.not_mem_nil, or_false] at h
    rcases h with rfl | rfl | rfl | rfl | rfl <;> simp [rayColumns]
  | _ =>
    simp only [ListOptic.elem]
    intro t mask ip ic outs h v hm
    split at h
    · cases h
    cases h
    rcases List.mem_append.1 hm with hm | hm
    · obtain ⟨n, hn, e⟩ := List.mem_map.1 hm
      simp only [Prod.mk.injEq, Option.some.injEq] at e
      exact hray n (keys_ray _ n hn).1 e.1.symm
    · obtain ⟨x, hx, e⟩ := List.mem_map.1 hm
      simp only [Prod.mk.injEq, Option.some.injEq] at e
      exact h3 x hx e.1

theorem elem_geom (o : ListOptic) (k : ElemCols) : GeomOK (o.elem k).geom := fun t => by simp [ListOptic.elem]

/-- **C178** For the elements of `marxs.optics`: all columns of a photon list except position, direction, polarization, probability, energy and (after
a grating) order and blaze angle are the user's. They are carried through any sequence of elements, if they are not used for
local coordinates or ids. -/
theorem C178_elements (c : String) (hray : c ∉ rayColumns) (os : List (ListOptic × ElemCols)) (ho : ∀ o ∈ os, o.2.Leaves c) (t t' : Table)
    (hc : c ∈ t.names) (h : runList os t = .ok t') : Carries c t t' := by
  induction os generalizing t with
  | nil => cases h; exact .refl _ _
  | cons o os ih =>
    simp only [runList] at h
    split at h
    · cases h
    rename_i t1 h1
    have c1 : Carries c t t1 := by
      have hel := elem_leaves o.1 o.2 c (ho o (by simp)) hray
      have key : (o.1.elem o.2).call t = .ok t1 → Carries c t t1 := fun h => by
        obtain ⟨g1, g2, g3⟩ := elem_geom o.1 o.2 t
        exact processPhotons_carries hel hc g1 g2 g3 h
      obtain ⟨o, k⟩ := o
      cases o with
      | globalFilter f =>
        simp only [ListOptic.call] at h1
        exact globalFilter_carries (fun h => hray (by simp [h, rayColumns])) h1
      | propagate s =>
        simp only [ListOptic.call, propagateTab] at h1
        split at h1
        · cases h1
        rename_i hn
        push Not at hn
        unfold Table.setVals at h1
        rw [if_pos (by simp), if_pos hn.2] at h1
        cases h1
        have hcp : c ≠ "pos" := fun h => hray (by simp [h, rayColumns])
        refine ⟨List.prefix_refl _, List.ext_getElem (by simp) fun i a b => ?_⟩
        simp [Function.update_of_ne hcp]
      | tube m zoomz lim0 lim1 =>
        simp only [ListOptic.call] at h1
        split_ifs at h1
        exact key h1
      | _ =>
        simp only [ListOptic.call] at h1
        split_ifs at h1
        exact key h1
    exact c1.trans (ih (fun o h => ho o (by simp [h])) t1 (c1.names.subset hc) h)

/-- A filter and a propagator on a list of two photons with times. -/
example : ∃ (t t' : Table), "time" ∈ t.names ∧ "time" ∉ rayColumns ∧ (∀ o ∈ twoElements, o.2.Leaves "time") ∧ t.rows.length = 2 ∧
    runList twoElements t = .ok t' := by
  have hp : PhotonsOf ⟨"time" :: needColumns, (twoTable [axisRay, sideRay]).rows⟩ [axisRay, sideRay] := by
    obtain ⟨-, h2⟩ := twoTable_photons [axisRay, sideRay] (by simp [axisRay, sideRay])
    refine ⟨fun _ h => List.mem_cons_of_mem _ h, h2.imp fun r p h => ⟨h.pos, h.dir, h.pol, h.prob, h.energy, ?_, ?_, ?_, ?_⟩⟩
    · intro ho; exact h.order (by simpa [twoTable, needColumns] using ho)
    · intro ho; exact h.noOrder (by simp [twoTable, needColumns])
    · intro ho; exact h.blaze (by simpa [twoTable, needColumns] using ho)
    · intro ho; exact h.noBlaze (by simp [twoTable, needColumns])
  obtain ⟨t', h⟩ := (C163_runs twoElements (by
      intro o ho
      simp only [twoElements, List.mem_cons, List.not_mem_nil, or_false] at ho
      rcases ho with rfl | rfl <;> exact ⟨filterCols_fine, by simp [filterCols]⟩) (by
      intro o ho i
      simp only [twoElements, List.mem_cons, List.not_mem_nil, or_false] at ho
      rcases ho with rfl | rfl <;> simp [ListOptic.photon, Optic.Sensible, Optic.IsPlaced, Placed, Affine]) _ _ hp).2 (by
    intro i p hp
    match i with
    | 0 => cases hp; exact ⟨_, axisRay_run⟩
    | 1 => cases hp; exact ⟨_, sideRay_run⟩
    | n + 2 => simp at hp)
  refine ⟨_, t', by simp, by simp [rayColumns], ?_, by simp [twoTable], h⟩
  intro o ho
  simp only [twoElements, List.mem_cons, List.not_mem_nil, or_false] at ho
  rcases ho with rfl | rfl <;> exact ⟨by
    intro a b h
    simp only [filterCols, Option.some.injEq, Prod.mk.injEq] at h
    obtain ⟨rfl, rfl⟩ := h
    simp, by simp [filterCols], by simp [filterCols]⟩

end Marxs
