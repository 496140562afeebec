import Verif.Lemmas.Prob

namespace Marxs

theorem setCol_hit {t t' : Table} {c : String} {mask : List Bool} {vals : List Val} {i : ℕ}
    {r' : Row} {v : Val} (h : setCol t c mask vals = .ok t') (hm : mask[i]? = some true)
    (hv : vals[rank mask i]? = some v) (hr' : t'.rows[i]? = some r') : r' c = v := by
  unfold setCol at h
  split at h
  · cases h
    obtain ⟨r, hr⟩ : ∃ r, t.rows[i]? = some r := by
      have : i < t.rows.length := by
        have := (List.getElem?_eq_some_iff.1 hr').1
        simpa using this
      exact ⟨_, List.getElem?_eq_getElem this⟩
    simp only at hr'
    rw [assignMasked_get_true hm hr hv] at hr'
    cases hr'
    simp
  · cases h

theorem setCol_names {t t' : Table} {c : String} {mask : List Bool} {vals : List Val}
    (h : setCol t c mask vals = .ok t') : t'.names = t.names ∧ c ∈ t.names := by
  unfold setCol at h
  split at h
  · cases h; exact ⟨rfl, by assumption⟩
  · cases h

theorem assignColValue_hit {t t' : Table} {c : String} {mask : List Bool} {v : ColVal} {i : ℕ}
    {r' : Row} (hc : c ≠ "probability") (h : assignColValue t (some c) mask v = .ok t')
    (hm : mask[i]? = some true) (hr' : t'.rows[i]? = some r') :
    v.at (rank mask i) = some (r' c) ∧ c ∈ t.names := by
  unfold assignColValue at h
  split at h
  · rename_i heq; simp at heq; exact absurd heq hc
  · rename_i heq; simp at heq
  · rename_i d hd heq
    cases heq
    split at h
    · cases h
    rename_i hcn
    have hcn : c ∈ t.names := by simpa using hcn
    refine ⟨?_, hcn⟩
    cases he : v.expand (countTrue mask) with
    | error e => simp [he, bind, Except.bind] at h
    | ok vs =>
      simp only [he, bind, Except.bind] at h
      have hlt := rank_lt hm
      rw [← expand_at he hlt]
      have hlt' : rank mask i < vs.length := by rw [expand_length he]; exact hlt
      have hs : setCol t c mask vs = .ok t' := by unfold setCol; rw [if_pos hcn]; exact h
      rw [setCol_hit hs hm (List.getElem?_eq_getElem hlt') hr']
      exact List.getElem?_eq_getElem hlt'

theorem assignColValue_prob_hit {t t' : Table} {mask : List Bool} {v : ColVal} {i : ℕ}
    {r r' : Row} (h : assignColValue t (some "probability") mask v = .ok t')
    (hm : mask[i]? = some true) (hr : t.rows[i]? = some r) (hr' : t'.rows[i]? = some r') :
    ∃ f, v.at (rank mask i) = some f ∧ ¬ f.OutOfRange ∧
      Val.mul (r "probability") f = some (r' "probability") := by
  simp only [assignColValue] at h
  split at h
  · cases h
  rename_i hrange
  split at h
  · cases h
  cases he : v.expand (countTrue mask) with
  | error e => simp [he, bind, Except.bind] at h
  | ok vs =>
    simp only [he, bind, Except.bind] at h
    split at h
    · rename_i rows hrows
      cases h
      have hlt := rank_lt hm
      have hlt' : rank mask i < vs.length := by rw [expand_length he]; exact hlt
      obtain ⟨p, hp1, hp⟩ := mulMasked_get_true hm hr (List.getElem?_eq_getElem hlt') hrows
      simp only at hr'
      rw [hp] at hr'
      cases hr'
      refine ⟨vs[rank mask i], ?_, ?_, ?_⟩
      · rw [← expand_at he hlt]; exact List.getElem?_eq_getElem hlt'
      · intro hx; exact hrange ⟨_, expand_mem he (List.getElem_mem hlt'), hx⟩
      · simpa using hp1
    · cases h

theorem assignAll_hit {mask : List Bool} {outs : List (Option String × ColVal)} {t t' : Table}
    {i : ℕ} {r r' : Row} {c : String} {v : ColVal}
    (hl : mask.length = t.rows.length) (hnd : (keysOf outs).Nodup)
    (h : assignAll mask outs t = .ok t') (hcv : (some c, v) ∈ outs)
    (hm : mask[i]? = some true) (hr : t.rows[i]? = some r) (hr' : t'.rows[i]? = some r') :
    c ∈ t.names ∧
    (c ≠ "probability" → v.at (rank mask i) = some (r' c)) ∧
    (c = "probability" → ∃ f, v.at (rank mask i) = some f ∧ ¬ f.OutOfRange ∧
      Val.mul (r "probability") f = some (r' "probability")) := by
  induction outs generalizing t r with
  | nil => simp at hcv
  | cons o outs ih =>
    obtain ⟨d, w⟩ := o
    simp only [assignAll] at h
    cases ha : assignColValue t d mask w with
    | error e => simp [ha, bind, Except.bind] at h
    | ok t1 =>
      simp only [ha, bind, Except.bind] at h
      have u := upd_assignColValue hl ha
      have hn := assignColValue_names ha
      have u2 := upd_assignAll (by rw [hl, u.len]) h
      obtain ⟨r1, hr1⟩ := get_of_len u2.len hr'
      simp only [List.mem_cons, Prod.mk.injEq] at hcv
      rcases hcv with ⟨h1, h2⟩ | hcv
      · subst h1; subst h2
        have hcn : c ∉ keysOf outs := by
          simp only [keysOf, List.filterMap_cons] at hnd
          exact (List.nodup_cons.1 hnd).1
        have hck : c ∈ t.names → r' c = r1 c := fun hc =>
          u2.keep i r1 r' hr1 hr' c (by rw [hn]; exact hc) (fun _ => hcn)
        by_cases hcp : c = "probability"
        · subst hcp
          have hin : "probability" ∈ t.names := by
            simp only [assignColValue] at ha
            by_contra hne
            split at ha
            · cases ha
            cases ha
          obtain ⟨f, h3, h4, h5⟩ := assignColValue_prob_hit ha hm hr hr1
          refine ⟨hin, fun h => absurd rfl h, fun _ => ⟨f, h3, h4, ?_⟩⟩
          rw [hck hin]; exact h5
        · obtain ⟨h3, hin⟩ := assignColValue_hit hcp ha hm hr1
          exact ⟨hin, fun _ => by rw [hck hin]; exact h3, fun h => absurd h hcp⟩
      · have hck : c ∈ keysOf outs := by
          simp only [keysOf, List.mem_filterMap]
          exact ⟨_, hcv, rfl⟩
        have hnd' : (keysOf outs).Nodup := by
          cases d with
          | none => simpa [keysOf] using hnd
          | some d =>
            simp only [keysOf, List.filterMap_cons] at hnd
            exact (List.nodup_cons.1 hnd).2
        have hdc : ∀ d', d = some d' → c ≠ d' := by
          intro d' hd hcd; subst hd; subst hcd
          simp only [keysOf, List.filterMap_cons] at hnd
          exact (List.nodup_cons.1 hnd).1 hck
        obtain ⟨h1, h2, h3⟩ := ih (by rw [hl, u.len]) hnd' h hcv hr1
        rw [hn] at h1
        have hkeep : r1 c = r c := u.keep i r r1 hr hr1 c h1 (fun _ => by
          cases d with
          | none => simp
          | some d => simpa using hdc d rfl)
        refine ⟨h1, h2, fun hcp => ?_⟩
        obtain ⟨f, h4, h5, h6⟩ := h3 hcp
        refine ⟨f, h4, h5, ?_⟩
        rw [← hcp] at h6 ⊢
        rw [← hkeep]; exact h6

theorem assignAll_reject {mask : List Bool} {outs : List (Option String × ColVal)} {v : ColVal}
    (hmem : (some "probability", v) ∈ outs) (hv : ∃ x ∈ v.toList, x.OutOfRange) (t : Table) :
    ∃ err, assignAll mask outs t = .error err := by
  induction outs generalizing t with
  | nil => simp at hmem
  | cons o outs ih =>
    obtain ⟨d, w⟩ := o
    simp only [List.mem_cons, Prod.mk.injEq] at hmem
    rcases hmem with ⟨h1, h2⟩ | h
    · subst h1; subst h2
      exact ⟨.valueError, by simp [assignAll, assignColValue, hv, bind, Except.bind]⟩
    · cases ha : assignColValue t d mask w with
      | error e => exact ⟨e, by simp [assignAll, ha, bind, Except.bind]⟩
      | ok t1 =>
        obtain ⟨e, he⟩ := ih h t1
        exact ⟨e, by simp [assignAll, ha, bind, Except.bind, he]⟩

end Marxs
