import Verif.Lemmas.TableOps
import Verif.Spec.Pipeline
import Mathlib.Tactic.Linarith
import Mathlib.Tactic.Positivity

namespace Marxs

/-- per photon bound on the probability is not violated by the step from `t` to `t'` -/
structure ProbRel (t t' : Table) : Prop where
  names : t.names <+: t'.names
  len : t'.rows.length = t.rows.length
  bound : ∀ (i : ℕ) (r r' : Row), t.rows[i]? = some r → t'.rows[i]? = some r' →
    ∀ b, 0 ≤ b → (r "probability").NanOrIn b → (r' "probability").NanOrIn b

theorem ProbRel.refl (t) : ProbRel t t :=
  ⟨List.prefix_refl _, rfl, by intro i r r' h h'; rw [h] at h'; cases h'; intros; assumption⟩

theorem ProbRel.trans {t t' t''} (h : ProbRel t t') (h' : ProbRel t' t'') : ProbRel t t'' := by
  refine ⟨h.names.trans h'.names, h'.len.trans h.len, ?_⟩
  intro i r r'' hr hr'' b hb hh
  obtain ⟨r', hr'⟩ := get_of_len h'.len hr''
  exact h'.bound i r' r'' hr' hr'' b hb (h.bound i r r' hr hr' b hb hh)

theorem Upd.probRel {ids cols mask t t'} (h : Upd ids cols mask t t')
    (hp : "probability" ∈ t.names) (hc : "probability" ∉ cols) : ProbRel t t' := by
  refine ⟨h.names, h.len, ?_⟩
  intro i r r' hr hr' b hb hh
  rw [h.keep i r r' hr hr' _ hp (fun _ => hc)]
  exact hh

theorem mul_nanOrIn {v f w : Val} {b : ℝ} (hv : v.NanOrIn b) (hf : ¬ f.OutOfRange)
    (h : Val.mul v f = some w) : w.NanOrIn b := by
  rcases hv with hv | ⟨p, hv, h0, h1⟩
  · subst hv
    cases f <;> simp [Val.mul] at h <;> (subst h; exact Or.inl rfl)
  · subst hv
    cases f with
    | num x =>
      cases x with
      | none => simp [Val.mul] at h; subst h; exact Or.inl rfl
      | some x =>
        simp [Val.mul] at h; subst h
        simp only [Val.OutOfRange, not_or, not_lt] at hf
        exact Or.inr ⟨_, rfl, mul_nonneg h0 hf.1, by nlinarith [hf.1, hf.2]⟩
    | int n =>
      simp [Val.mul] at h; subst h
      simp only [Val.OutOfRange, not_or, not_lt] at hf
      have h2 : (0:ℝ) ≤ n := by exact_mod_cast hf.1
      have h3 : (n:ℝ) ≤ 1 := by exact_mod_cast hf.2
      exact Or.inr ⟨_, rfl, mul_nonneg h0 h2, by nlinarith⟩
    | vec v => simp [Val.mul] at h

theorem probRel_mul {t : Table} {mask : List Bool} {vs : List Val} {rows}
    (hl : mask.length = t.rows.length) (hv : vs.length = countTrue mask)
    (hr : ∀ v ∈ vs, ¬ v.OutOfRange)
    (h : mulMasked "probability" mask t.rows vs = some rows) :
    ProbRel t { t with rows := rows } := by
  refine ⟨List.prefix_refl _, mulMasked_length h, ?_⟩
  intro i r r' hri hri' b hb hh
  have hi : i < t.rows.length := (List.getElem?_eq_some_iff.1 hri).1
  cases hmi : mask[i]? with
  | none => simp at hmi; omega
  | some m =>
    cases m with
    | false =>
      simp only at hri'
      rw [mulMasked_get_false hmi h, hri] at hri'
      cases hri'; exact hh
    | true =>
      have hlt : rank mask i < vs.length := by rw [hv]; exact rank_lt hmi
      obtain ⟨p, hp1, hp⟩ := mulMasked_get_true hmi hri (List.getElem?_eq_getElem hlt) h
      simp only at hri'
      rw [hp] at hri'
      cases hri'
      simp only [Function.update_self]
      exact mul_nanOrIn hh (hr _ (List.getElem_mem hlt)) hp1

theorem probRel_assignColValue {t t' : Table} {c : Option String} {mask : List Bool} {v : ColVal}
    (hp : "probability" ∈ t.names)
    (hl : mask.length = t.rows.length) (h : assignColValue t c mask v = .ok t') :
    ProbRel t t' := by
  by_cases hc : c = some "probability"
  · subst hc
    simp only [assignColValue] at h
    split at h
    · cases h
    rename_i hrange
    cases he : v.expand (countTrue mask) with
    | error e => simp [he, bind, Except.bind] at h
    | ok vs =>
      simp only [he, bind, Except.bind] at h
      split at h
      · rename_i rows hrows
        cases h
        exact probRel_mul hl (expand_length he)
          (fun x hx hx' => hrange ⟨x, expand_mem he hx, hx'⟩) hrows
      · cases h
  · refine (upd_assignColValue hl h).probRel hp ?_
    cases c with
    | none => simp
    | some c => simpa using fun h => hc (by rw [h])

theorem probRel_assignAll {mask : List Bool} {outs : List (Option String × ColVal)} {t t' : Table}
    (hp : "probability" ∈ t.names)
    (hl : mask.length = t.rows.length) (h : assignAll mask outs t = .ok t') : ProbRel t t' := by
  induction outs generalizing t with
  | nil => cases h; exact ProbRel.refl _
  | cons o outs ih =>
    obtain ⟨c, v⟩ := o
    simp only [assignAll] at h
    cases ha : assignColValue t c mask v with
    | error e => simp [ha, bind, Except.bind] at h
    | ok t1 =>
      simp only [ha, bind, Except.bind] at h
      have u := probRel_assignColValue hp hl ha
      exact u.trans (ih (u.names.subset hp) (by rw [hl, u.len]) h)

theorem probRel_eachLoop {oc f} {work : List (ℕ × Row)} {t t' : Table}
    (hp : "probability" ∈ t.names)
    (h : eachLoop oc f work t = .ok t') : ProbRel t t' := by
  induction work generalizing t with
  | nil => cases h; exact ProbRel.refl _
  | cons p work ih =>
    obtain ⟨i, r⟩ := p
    simp only [eachLoop] at h
    cases hf : f r with
    | error e => simp [hf, bind, Except.bind] at h
    | ok outs =>
      simp only [hf, bind, Except.bind] at h
      split at h
      · cases h
      rename_i t1 h1
      have u := probRel_assignAll hp (by simp) h1
      exact u.trans (ih (u.names.subset hp) h)

theorem probRel_runAction {e : Elem} {t t' : Table} {mask ip ic}
    (hp : "probability" ∈ t.names)
    (h : runAction e t mask ip ic = .ok t') (hl : mask.length = t.rows.length) :
    ProbRel t t' := by
  unfold runAction at h
  cases ha : e.action with
  | vector f =>
    simp only [ha] at h
    cases hf : f t mask ip ic with
    | error x => simp [hf] at h
    | ok outs =>
      simp only [hf] at h
      have u1 := (upd_addOutputCols e.outputColumns e.idCol (outs.map (·.1)) t mask).probRel hp
        (by simp)
      exact u1.trans (probRel_assignAll (u1.names.subset hp) (by rw [hl, u1.len]) h)
  | each f => simp only [ha] at h; exact probRel_eachLoop hp h
  | missing => simp [ha] at h

theorem probRel_processPhotons {e : Elem} {t t' : Table} {mask ip ic}
    (he : e.NoProbLabel) (hpr : "probability" ∈ t.names)
    (h : processPhotons e t mask ip ic = .ok t')
    (hl : mask.length = t.rows.length) (hp : ip.length = t.rows.length)
    (hi : ic.length = t.rows.length) : ProbRel t t' := by
  by_cases hc : countTrue mask = 0
  · unfold processPhotons at h
    simp [hc] at h
    cases h
    exact ProbRel.refl _
  · obtain ⟨t2, t3, t4, h2, h3, h4, h5⟩ := processPhotons_ok h hc
    have u2 := probRel_runAction hpr h2 hl
    have w3 := u2.trans ((upd_assignLoc h3 (by rw [hl, u2.len]) (by rw [hi, u2.len])).probRel
      (u2.names.subset hpr) (by
        have := he.2
        cases hlc : e.locCoos with
        | none => simp [locNames]
        | some ab =>
          have := this ab.1 ab.2 hlc
          simp only [locNames, List.mem_cons, List.not_mem_nil, or_false, not_or]
          exact ⟨fun h => this.1 h.symm, fun h => this.2 h.symm⟩))
    have w4 := w3.trans ((upd_assignId h4 (by rw [hl, w3.len])).probRel
      (w3.names.subset hpr) (by
        have := he.1
        cases hid : e.idCol with
        | none => simp
        | some c => rw [hid] at this; simpa using fun h => this (by rw [h])))
    exact w4.trans ((upd_setCol (by rw [hl, w4.len]) (sel_length (by simp [hl, hp])) h5).probRel
      (w4.names.subset hpr) (by decide))

theorem probRel_runLayers {es : List Elem} {t t' : Table} {mask ip ic}
    (he : ∀ e ∈ es, e.NoProbLabel) (hpr : "probability" ∈ t.names)
    (h : runLayers mask ip ic es t = .ok t')
    (hl : mask.length = t.rows.length) (hp : ip.length = t.rows.length)
    (hi : ic.length = t.rows.length) : ProbRel t t' := by
  induction es generalizing t with
  | nil => cases h; exact ProbRel.refl _
  | cons e es ih =>
    simp only [runLayers, bind, Except.bind] at h
    split at h
    · cases h
    rename_i t1 h1
    have u := probRel_processPhotons (he e (by simp)) hpr h1 hl hp hi
    exact u.trans (ih (fun e he' => he e (by simp [he'])) (u.names.subset hpr) h
      (by rw [hl, u.len]) (by rw [hp, u.len]) (by rw [hi, u.len]))

theorem probRel_zero {t t' : Table} {mask : List Bool} (hl : mask.length = t.rows.length)
    (h : setCol t "probability" mask (List.replicate (countTrue mask) (.num (some 0))) = .ok t') :
    ProbRel t t' := by
  unfold setCol at h
  split at h
  swap
  · cases h
  cases h
  refine ⟨List.prefix_refl _, by simp, ?_⟩
  intro i r r' hr hr' b hb hh
  have hi : i < t.rows.length := (List.getElem?_eq_some_iff.1 hr).1
  cases hmi : mask[i]? with
  | none => simp at hmi; omega
  | some m =>
    cases m with
    | false =>
      simp only at hr'
      rw [assignMasked_get_false hmi, hr] at hr'
      cases hr'; exact hh
    | true =>
      have hlt := rank_lt hmi
      simp only at hr'
      rw [assignMasked_get_true (v := .num (some 0)) hmi hr (by simp [hlt])] at hr'
      cases hr'
      simp only [Function.update_self]
      exact Or.inr ⟨0, rfl, le_refl _, hb⟩

theorem countTrue_all {α} (l : List α) : countTrue (l.map fun _ => true) = l.length := by
  simp [countTrue]

theorem probRel_step {s : Step} {t t' : Table} (hs : s.WF) (hpr : "probability" ∈ t.names)
    (h : s.call t = .ok t') : ProbRel t t' := by
  cases s with
  | elem e =>
    obtain ⟨h1, h2, h3⟩ := hs.2 t
    exact probRel_processPhotons hs.1 hpr h h1 h2 h3
  | stack s =>
    obtain ⟨h1, h2, h3⟩ := hs.2.1 t
    simp only [Step.call, Stack.call, Stack.processPhotons] at h
    split at h
    · simp only [bind, Except.bind] at h
      split at h
      · cases h
      rename_i t1 ht1
      have u := probRel_processPhotons hs.1 hpr ht1 h1 h2 h3
      exact u.trans (probRel_runLayers hs.2.2 (u.names.subset hpr) h (by rw [h1, u.len])
        (by rw [h2, u.len]) (by rw [h3, u.len]))
    · cases h; exact ProbRel.refl _
  | filter f =>
    simp only [Step.call, globalFilter] at h
    split at h
    · cases h
    rename_i hrange
    cases he : (f (t.rows.map (· "energy"))).expand t.rows.length with
    | error e => simp [he, bind, Except.bind] at h
    | ok vs =>
      simp only [he, bind, Except.bind] at h
      split at h
      · rename_i rows hrows
        cases h
        exact probRel_mul (by simp) (by rw [expand_length he, countTrue_all])
          (fun x hx hx' => hrange ⟨x, expand_mem he hx, hx'⟩) hrows
      · cases h
  | baffle g =>
    obtain ⟨h1, h2⟩ := hs t
    simp only [Step.call, Marxs.baffle, bind, Except.bind] at h
    split at h
    · cases h
    rename_i t1 ht1
    have u := upd_setCol h1 (sel_length (by rw [h1, h2])) ht1
    exact (u.probRel hpr (by decide)).trans (probRel_zero (by simp [h1, u.len]) h)
  | zero bad => exact probRel_zero (by simp) h

theorem probRel_runSequence {ss : List Step} {t t' : Table} (hs : ∀ s ∈ ss, s.WF)
    (hpr : "probability" ∈ t.names) (h : runSequence ss t = .ok t') : ProbRel t t' := by
  induction ss generalizing t with
  | nil => cases h; exact ProbRel.refl _
  | cons s ss ih =>
    simp only [runSequence, bind, Except.bind] at h
    split at h
    · cases h
    rename_i t1 h1
    have u := probRel_step (hs s (by simp)) hpr h1
    exact u.trans (ih (fun s hs' => hs s (by simp [hs'])) (u.names.subset hpr) h)

end Marxs
