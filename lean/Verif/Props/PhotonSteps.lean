import Verif.Model.DetChain
import Verif.Spec.PhotonSteps
import Verif.Props.Pipeline
import Verif.Props.Missions

/-!
# C145: photons do not influence each other
-/

namespace Marxs
open Classical

/-- Photon `i` of table `t` and the only photon of table `u` are in the same state. -/
structure Same (ids B : List String) (t : Table) (i : ℕ) (u : Table) : Prop where
  ex : ∃ r r1, t.rows[i]? = some r ∧ u.rows = [r1] ∧ (∀ n ∈ u.names, r n = r1 n) ∧ ∀ n ∈ t.names, n ∉ u.names → r n = notSeen ids n
  sub : u.names ⊆ t.names
  base : B ⊆ u.names
  rod : "hitrod" ∈ t.names → "hitrod" ∈ u.names

theorem Same.mono {ids B B' t i u} (h : Same ids B t i u) (hb : B' ⊆ u.names) : Same ids B' t i u := ⟨h.ex, h.sub, hb, h.rod⟩

theorem same_addCol {ids B t i u} (h : Same ids B t i u) (n : String) (d : Val) (hd : d = notSeen ids n ∨ n = "hitrod") : Same ids B (t.addCol n d) i (u.addCol n d) := by
  obtain ⟨⟨r, r1, hr, hu, h1, h2⟩, hs, hb, hrod⟩ := h
  by_cases hnt : n ∈ t.names
  · by_cases hnu : n ∈ u.names
    · simp only [Table.addCol, hnt, hnu, if_true]; exact ⟨⟨r, r1, hr, hu, h1, h2⟩, hs, hb, hrod⟩
    · have hd' : d = notSeen ids n := by
        rcases hd with e | rfl
        · exact e
        · exact absurd (hrod hnt) hnu
      simp only [Table.addCol, hnt, hnu, if_true, if_false]
      refine ⟨⟨r, Function.update r1 n d, hr, by simp [hu], ?_, ?_⟩, ?_, ?_, ?_⟩
      · intro k hk
        by_cases hkn : k = n
        · subst hkn; rw [Function.update_self, hd']; exact h2 k hnt hnu
        · rw [Function.update_of_ne hkn]
          exact h1 k (by simpa [hkn] using hk)
      · intro k hk hku
        exact h2 k hk (fun hh => hku (by simp [hh]))
      · intro k hk
        rcases List.mem_append.1 hk with hk | hk
        · exact hs hk
        · simp at hk; subst hk; exact hnt
      · intro k hk; exact List.mem_append_left _ (hb hk)
      · intro hh; exact List.mem_append_left _ (hrod hh)
  · have hnu : n ∉ u.names := fun hh => hnt (hs hh)
    simp only [Table.addCol, hnt, hnu, if_false]
    refine ⟨⟨Function.update r n d, Function.update r1 n d, by simp [hr], by simp [hu], ?_, ?_⟩, ?_, ?_, ?_⟩
    · intro k hk
      by_cases hkn : k = n
      · subst hkn; simp
      · rw [Function.update_of_ne hkn, Function.update_of_ne hkn]
        exact h1 k (by simpa [hkn] using hk)
    · intro k hk hku
      have hkn : k ≠ n := fun e => hku (by simp [e])
      rw [Function.update_of_ne hkn]
      exact h2 k (by simpa [hkn] using hk) (fun hh => hku (by simp [hh]))
    · intro k hk
      rcases List.mem_append.1 hk with hk | hk
      · exact List.mem_append_left _ (hs hk)
      · exact List.mem_append_right _ hk
    · intro k hk; exact List.mem_append_left _ (hb hk)
    · intro hh
      rcases List.mem_append.1 hh with hh | hh
      · exact List.mem_append_left _ (hrod hh)
      · exact List.mem_append_right _ hh

theorem same_addOutputCols {ids B t i u} (h : Same ids B t i u) (oc : List String) (idCol : Option String) (cs : List (Option String))
    (h1 : ∀ c, idCol = some c → c ∈ ids) (h2 : ∀ n ∈ oc, n ∉ ids) (h3 : ∀ n, some n ∈ cs → n ∉ ids) :
    Same ids B (addOutputCols oc idCol cs t) i (addOutputCols oc idCol cs u) := by
  have key : ∀ (l : List (Option String)) t u, (∀ n, some n ∈ l → n ∉ ids) → Same ids B t i u →
      Same ids B (l.foldl (fun t n => match n with
        | none => t
        | some n => t.addCol n (.num none)) t) i (l.foldl (fun t n => match n with
        | none => t
        | some n => t.addCol n (.num none)) u) := by
    intro l
    induction l with
    | nil => intro t u _ hh; exact hh
    | cons a l ih =>
      intro t u hl hh
      simp only [List.foldl_cons]
      apply ih _ _ (fun n hn => hl n (List.mem_cons_of_mem _ hn))
      cases a with
      | none => exact hh
      | some n => exact same_addCol hh n _ (Or.inl (by simp [notSeen, hl n (by simp)]))
  have k := key (oc.map some ++ cs) t u (by
    intro n hn
    rcases List.mem_append.1 hn with hn | hn
    · obtain ⟨m, hm, e⟩ := List.mem_map.1 hn
      cases e; exact h2 _ hm
    · exact h3 n hn) h
  unfold addOutputCols
  cases idCol with
  | none => exact k
  | some c => exact same_addCol k c _ (Or.inl (by simp [notSeen, h1 c rfl]))

/-- A cell of the photon is written in both tables. -/
theorem same_write {ids B : List String} {t t' : Table} {i : ℕ} {u : Table} {c : String} {x : Val} {mask : List Bool} (h : Same ids B t i u) (hc : c ∈ u.names)
    (hu : Upd [] [c] mask t t') (hn : t'.names = t.names) (hx : ∀ r', t'.rows[i]? = some r' → r' c = x) :
    Same ids B t' i { u with rows := u.rows.map fun r => Function.update r c x } := by
  obtain ⟨⟨r, r1, hr, hu1, h1, h2⟩, hs, hb, hrod⟩ := h
  have hi : i < t'.rows.length := by rw [hu.len]; exact (List.getElem?_eq_some_iff.1 hr).1
  have hr' : t'.rows[i]? = some t'.rows[i] := List.getElem?_eq_getElem hi
  have keep : ∀ k ∈ t.names, k ≠ c → t'.rows[i] k = r k := fun k hk hkc => hu.keep i r _ hr hr' k hk (fun _ => by simpa using hkc)
  refine ⟨⟨_, Function.update r1 c x, hr', by simp [hu1], ?_, ?_⟩, by rw [hn]; exact hs, hb, by rw [hn]; exact hrod⟩
  · intro k hk
    by_cases hkc : k = c
    · subst hkc; rw [hx _ hr', Function.update_self]
    · rw [Function.update_of_ne hkc, keep k (hs hk) hkc]; exact h1 k hk
  · intro k hk hku
    rw [hn] at hk
    have hkc : k ≠ c := fun e => hku (e ▸ hc)
    rw [keep k hk hkc]; exact h2 k hk hku

/-- Nothing is written for the photon. -/
theorem same_untouched {ids B : List String} {cols : List String} {t t' : Table} {i : ℕ} {u : Table} {mask : List Bool} (h : Same ids B t i u) (hm : mask[i]? = some false)
    (hu : Upd [] cols mask t t') (hn : t'.names = t.names) : Same ids B t' i u := by
  obtain ⟨⟨r, r1, hr, hu1, h1, h2⟩, hs, hb, hrod⟩ := h
  have hi : i < t'.rows.length := by rw [hu.len]; exact (List.getElem?_eq_some_iff.1 hr).1
  have hr' : t'.rows[i]? = some t'.rows[i] := List.getElem?_eq_getElem hi
  have keep : ∀ k ∈ t.names, t'.rows[i] k = r k := fun k hk => hu.keep i r _ hr hr' k hk (fun hh => by rw [hm] at hh; simp at hh)
  refine ⟨⟨_, r1, hr', hu1, ?_, ?_⟩, by rw [hn]; exact hs, hb, by rw [hn]; exact hrod⟩
  · intro k hk; rw [keep k (hs hk)]; exact h1 k hk
  · intro k hk hku; rw [hn] at hk; rw [keep k hk]; exact h2 k hk hku

theorem same_setCol {ids B : List String} {t t' : Table} {i : ℕ} {u : Table} {c : String} {mask : List Bool} {vals : List Val} {x : Val} (h : Same ids B t i u) (hc : c ∈ u.names)
    (hl : mask.length = t.rows.length) (hv : vals.length = countTrue mask) (hs : setCol t c mask vals = .ok t') (hm : mask[i]? = some true) (hx : vals[rank mask i]? = some x) :
    ∃ u', setCol u c [true] [x] = .ok u' ∧ Same ids B t' i u' := by
  refine ⟨_, ?_, same_write h hc (upd_setCol hl hv hs) (setCol_names hs).1 (fun r' hr' => setCol_hit hs hm hx hr')⟩
  obtain ⟨⟨r, r1, hr, hu1, h1, h2⟩, -⟩ := h
  simp [setCol, hc, hu1, assignMasked]

theorem same_setCol_miss {ids B : List String} {t t' : Table} {i : ℕ} {u : Table} {c : String} {mask : List Bool} {vals : List Val} (h : Same ids B t i u) (hc : c ∈ u.names)
    (hl : mask.length = t.rows.length) (hv : vals.length = countTrue mask) (hs : setCol t c mask vals = .ok t') (hm : mask[i]? = some false) :
    setCol u c [false] [] = .ok u ∧ Same ids B t' i u := by
  refine ⟨?_, same_untouched h hm (upd_setCol hl hv hs) (setCol_names hs).1⟩
  obtain ⟨⟨r, r1, hr, hu1, h1, h2⟩, -⟩ := h
  simp only [setCol, hc, if_true, hu1, assignMasked]
  rw [← hu1]

theorem same_assignColValue {ids B : List String} {t t' : Table} {i : ℕ} {u : Table} {c : String} {mask : List Bool} {v w : ColVal} {x : Val} (h : Same ids B t i u) (hc : c ∈ u.names)
    (hl : mask.length = t.rows.length) (hs : assignColValue t (some c) mask v = .ok t') (hm : mask[i]? = some true) (hx : v.at (rank mask i) = some x)
    (hw : w.expand 1 = .ok [x]) (hw' : ∀ y ∈ w.toList, y = x) :
    ∃ u', assignColValue u (some c) [true] w = .ok u' ∧ Same ids B t' i u' := by
  have hup := upd_assignColValue hl hs
  have hn := assignColValue_names hs
  have hi : ∃ r', t'.rows[i]? = some r' := by
    obtain ⟨r, _, hr, _⟩ := h.ex
    have : i < t'.rows.length := by rw [hup.len]; exact (List.getElem?_eq_some_iff.1 hr).1
    exact ⟨_, List.getElem?_eq_getElem this⟩
  obtain ⟨r', hr'⟩ := hi
  obtain ⟨r, r1, hr, hu1, h1, h2⟩ := h.ex
  have cnt : countTrue [true] = 1 := rfl
  by_cases hp : c = "probability"
  · subst hp
    obtain ⟨f, hf, hnr, hmul⟩ := assignColValue_prob_hit hs hm hr hr'
    rw [hx] at hf; cases hf
    refine ⟨_, ?_, same_write h hc hup hn (fun r'' hr'' => by rw [hr'] at hr''; cases hr''; rfl)⟩
    have e : r "probability" = r1 "probability" := h1 _ hc
    rw [e] at hmul
    have ho : ¬ ∃ y ∈ w.toList, y.OutOfRange := by
      rintro ⟨y, hy, ho⟩; rw [hw' y hy] at ho; exact hnr ho
    simp only [assignColValue, ho, hc, cnt, hw, if_false, not_true, hu1, bind, Except.bind, mulMasked, hmul, Option.bind_some, pure, Option.bind]
    simp
  · refine ⟨_, ?_, same_write h hc hup hn (fun r'' hr'' => by
      have := (assignColValue_hit hp hs hm hr'').1
      rw [hx] at this; exact (Option.some.inj this).symm)⟩
    unfold assignColValue
    split
    · rename_i heq; exact absurd (Option.some.inj heq) hp
    · rename_i heq; simp at heq
    · rename_i d hd heq
      cases heq
      simp only [hc, not_true, if_false, cnt, hw, bind, Except.bind, hu1, assignMasked]
      simp

theorem same_addCol_left {ids B t i u} (h : Same ids B t i u) (n : String) (d : Val) (hd : d = notSeen ids n) (hr : n ≠ "hitrod") : Same ids B (t.addCol n d) i u := by
  obtain ⟨⟨r, r1, hr', hu, h1, h2⟩, hs, hb, hrod⟩ := h
  by_cases hnt : n ∈ t.names
  · simp only [Table.addCol, hnt, if_true]; exact ⟨⟨r, r1, hr', hu, h1, h2⟩, hs, hb, hrod⟩
  · have hnu : n ∉ u.names := fun hh => hnt (hs hh)
    simp only [Table.addCol, hnt, if_false]
    refine ⟨⟨Function.update r n d, r1, by simp [hr'], hu, ?_, ?_⟩, fun k hk => List.mem_append_left _ (hs hk), hb, ?_⟩
    · intro k hk
      have hkn : k ≠ n := fun e => hnu (e ▸ hk)
      rw [Function.update_of_ne hkn]; exact h1 k hk
    · intro k hk hku
      by_cases hkn : k = n
      · subst hkn; simp [hd]
      · rw [Function.update_of_ne hkn]; exact h2 k (by simpa [hkn] using hk) hku
    · intro hh
      rcases List.mem_append.1 hh with hh | hh
      · exact hrod hh
      · simp at hh; exact absurd hh.symm hr

theorem same_addOutputCols_left {ids B t i u} (h : Same ids B t i u) (oc : List String) (idCol : Option String) (cs : List (Option String))
    (h1 : ∀ c, idCol = some c → c ∈ ids ∧ c ≠ "hitrod") (h2 : ∀ n ∈ oc, n ∉ ids ∧ n ≠ "hitrod") (h3 : ∀ n, some n ∈ cs → n ∉ ids ∧ n ≠ "hitrod") :
    Same ids B (addOutputCols oc idCol cs t) i u := by
  have key : ∀ (l : List (Option String)) t, (∀ n, some n ∈ l → n ∉ ids ∧ n ≠ "hitrod") → Same ids B t i u →
      Same ids B (l.foldl (fun t n => match n with
        | none => t
        | some n => t.addCol n (.num none)) t) i u := by
    intro l
    induction l with
    | nil => intro t _ hh; exact hh
    | cons a l ih =>
      intro t hl hh
      simp only [List.foldl_cons]
      apply ih _ (fun n hn => hl n (List.mem_cons_of_mem _ hn))
      cases a with
      | none => exact hh
      | some n => exact same_addCol_left hh n _ (by simp [notSeen, hl n (by simp)]) (hl n (by simp)).2
  have k := key (oc.map some ++ cs) t (by
    intro n hn
    rcases List.mem_append.1 hn with hn | hn
    · obtain ⟨m, hm, e⟩ := List.mem_map.1 hn
      cases e; exact h2 _ hm
    · exact h3 n hn) h
  unfold addOutputCols
  cases idCol with
  | none => exact k
  | some c => exact same_addCol_left k c _ (by simp [notSeen, (h1 c rfl).1]) (h1 c rfl).2

theorem mem_addCol (t : Table) (n k : String) (d : Val) : k ∈ (t.addCol n d).names ↔ k ∈ t.names ∨ k = n := by
  unfold Table.addCol
  split
  · constructor
    · exact Or.inl
    · rintro (h | rfl) <;> assumption
  · simp

theorem mem_addOutputCols (oc : List String) (idCol : Option String) (cs : List (Option String)) (t : Table) (k : String) :
    k ∈ (addOutputCols oc idCol cs t).names ↔ k ∈ t.names ∨ k ∈ oc ∨ some k ∈ cs ∨ idCol = some k := by
  have key : ∀ (l : List (Option String)) (t : Table), k ∈ (l.foldl (fun t n => match n with
        | none => t
        | some n => t.addCol n (.num none)) t).names ↔ k ∈ t.names ∨ some k ∈ l := by
    intro l
    induction l with
    | nil => intro t; simp
    | cons a l ih =>
      intro t
      simp only [List.foldl_cons]
      rw [ih]
      cases a with
      | none => simp
      | some n => simp only [mem_addCol, List.mem_cons, Option.some.injEq]; tauto
  unfold addOutputCols
  cases idCol with
  | none => exact (key (oc.map some ++ cs) t).trans (by simp)
  | some c =>
    simp only
    rw [mem_addCol]
    refine (or_congr (key (oc.map some ++ cs) t) Iff.rfl).trans ?_
    simp only [List.mem_append, List.mem_map, Option.some.injEq, exists_eq_right]
    constructor
    · rintro ((h | h | h) | rfl) <;> simp_all
    · rintro (h | h | h | h) <;> simp_all

/-- Right-hand sides for the table and for the photon alone. -/
def Fits (mask : List Bool) (i : ℕ) (u : Table) (o w : Option String × ColVal) : Prop :=
  o.1 = w.1 ∧ ∃ x, o.2.at (rank mask i) = some x ∧ w.2.expand 1 = .ok [x] ∧ ∀ y ∈ w.2.toList, y = x

theorem same_assignAll {ids B : List String} {mask : List Bool} {i : ℕ} {u : Table} {outs wouts : List (Option String × ColVal)} (hf : List.Forall₂ (Fits mask i u) outs wouts) :
    ∀ {t t' : Table} {u : Table}, Same ids B t i u → (∀ c, some c ∈ outs.map (·.1) → c ∈ u.names) → mask.length = t.rows.length → mask[i]? = some true → assignAll mask outs t = .ok t' →
      ∃ u', assignAll [true] wouts u = .ok u' ∧ u'.names = u.names ∧ Same ids B t' i u' := by
  induction hf with
  | nil => intro t t' u h _ _ _ hs; cases hs; exact ⟨u, rfl, rfl, h⟩
  | @cons o w outs wouts how _ ih =>
    intro t t' u h hn hl hm hs
    obtain ⟨k, v⟩ := o
    obtain ⟨k', w⟩ := w
    obtain ⟨hk, x, hx, hw, hw'⟩ := how
    simp only at hk hx hw hw'
    subst hk
    simp only [assignAll, bind, Except.bind] at hs
    split at hs
    · cases hs
    rename_i t1 h1
    have hl1 : mask.length = t1.rows.length := by rw [(upd_assignColValue hl h1).len]; exact hl
    cases k with
    | none =>
      simp only [assignColValue, Except.ok.injEq] at h1
      subst h1
      obtain ⟨u', e, en, es⟩ := ih h (fun c hc => hn c (by simp only [List.map_cons, List.mem_cons]; exact Or.inr hc)) hl1 hm hs
      exact ⟨u', by simp [assignAll, assignColValue, bind, Except.bind, e], en, es⟩
    | some c =>
      obtain ⟨u1, e1, es1⟩ := same_assignColValue h (hn c (by simp)) hl h1 hm hx hw hw'
      have n1 := assignColValue_names e1
      obtain ⟨u', e, en, es⟩ := ih es1 (fun c hc => by rw [n1]; exact hn c (by simp only [List.map_cons, List.mem_cons]; exact Or.inr hc)) hl1 hm hs
      exact ⟨u', by simp [assignAll, bind, Except.bind, e1, e], en.trans n1, es⟩

/-- A photon that misses: only columns are added to the table. -/
theorem same_miss' {ids B B' : List String} {e : Elem} {ks : List (Option String)} {t t' : Table} {i : ℕ} {u : Table} {mask ip ic} (h : Same ids B t i u) (he : PerPhotonElem B' ids e ks)
    (hid : "hitrod" ∉ ids) (hl : mask.length = t.rows.length) (hp : ip.length = t.rows.length) (hi : ic.length = t.rows.length) (hm : mask[i]? = some false)
    (hr : processPhotons e t mask ip ic = .ok t') : Same ids B t' i u := by
  by_cases hc : countTrue mask = 0
  · unfold processPhotons at hr
    simp [hc] at hr
    exact hr ▸ h
  obtain ⟨⟨f, outs, ha, rfl, hread, hf⟩, hidc, hoc, hk, hloc⟩ := he
  have hidc' : ∀ c, e.idCol = some c → c ∈ ids ∧ c ≠ "hitrod" := fun c hc => ⟨hidc c hc, fun e => hid (e ▸ hidc c hc)⟩
  obtain ⟨t2, t3, t4, h2, h3, h4, h5⟩ := processPhotons_ok hr hc
  have s2 : Same ids B t2 i u ∧ t2.rows.length = t.rows.length := by
    simp only [runAction, ha, hf t mask ip ic hl hp hi] at h2
    have l1 : (addOutputCols e.outputColumns e.idCol ((outs.map fun o => (o.1, o.2.col t.rows mask ip ic)).map (·.1)) t).rows.length = t.rows.length := (upd_addOutputCols _ _ _ t mask).len
    have up := upd_assignAll (by rw [l1]; exact hl) h2
    refine ⟨same_untouched (same_addOutputCols_left h _ _ _ hidc' hoc ?_) hm up (assignAll_names h2), up.len.trans l1⟩
    intro n hn
    simp only [List.map_map, List.mem_map, Function.comp] at hn
    obtain ⟨o, ho, e⟩ := hn
    exact hk n (List.mem_map.2 ⟨o, ho, e⟩)
  obtain ⟨s2, l2⟩ := s2
  have s3 : Same ids B t3 i u ∧ t3.rows.length = t.rows.length := by
    unfold assignLoc at h3
    cases hlc : e.locCoos with
    | none => rw [hlc] at h3; cases h3; exact ⟨s2, l2⟩
    | some ab =>
      obtain ⟨a, b⟩ := ab
      rw [hlc] at h3; simp only at h3
      split at h3
      · cases h3
      rename_i ta hta
      have l1 : (addOutputCols e.outputColumns e.idCol [some a, some b] t2).rows.length = t.rows.length := (upd_addOutputCols _ _ _ t2 mask).len.trans l2
      have ss := same_addOutputCols_left s2 e.outputColumns e.idCol [some a, some b] hidc' hoc (by
        intro n hn; simp at hn
        rcases hn with rfl | rfl
        · exact (hloc _ _ hlc).1
        · exact (hloc _ _ hlc).2)
      have ua := upd_setCol (by rw [l1]; exact hl) (by rw [sel_length (by simp; omega)]) hta
      have la := ua.len.trans l1
      have ub := upd_setCol (by rw [la]; exact hl) (by rw [sel_length (by simp; omega)]) h3
      exact ⟨same_untouched (same_untouched ss hm ua (setCol_names hta).1) hm ub (setCol_names h3).1, ub.len.trans la⟩
  obtain ⟨s3, l3⟩ := s3
  have s4 : Same ids B t4 i u ∧ t4.rows.length = t.rows.length := by
    unfold assignId at h4
    cases hidn : e.idCol with
    | none => rw [hidn] at h4; cases h4; exact ⟨s3, l3⟩
    | some c =>
      rw [hidn] at h4; simp only at h4
      have ua := upd_setCol (by rw [l3]; exact hl) (by simp) h4
      exact ⟨same_untouched s3 hm ua (setCol_names h4).1, ua.len.trans l3⟩
  obtain ⟨s4, l4⟩ := s4
  exact same_untouched s4 hm (upd_setCol (by rw [l4]; exact hl) (by rw [sel_length (by omega)]) h5) (setCol_names h5).1

/-- A photon that hits: the same happens to it alone. -/
theorem same_hit {ids B : List String} {e : Elem} {ks : List (Option String)} {t t' : Table} {i : ℕ} {u : Table} {mask ip ic} {p : Val} {c : Val × Val} (h : Same ids B t i u) (he : PerPhotonElem B ids e ks)
    (hpos : "pos" ∈ u.names) (hl : mask.length = t.rows.length) (hp : ip.length = t.rows.length) (hi : ic.length = t.rows.length) (hm : mask[i]? = some true) (hpi : ip[i]? = some p) (hci : ic[i]? = some c)
    (hr : processPhotons e t mask ip ic = .ok t') :
    ∃ u', processPhotons e u [true] [p] [c] = .ok u' ∧ u.names ⊆ u'.names ∧ Same ids (B ++ ks.reduceOption) t' i u' := by
  have hc : countTrue mask ≠ 0 := by have := rank_lt hm; omega
  obtain ⟨⟨f, outs, ha, rfl, hread, hf⟩, hidc, hoc, hk, hloc⟩ := he
  obtain ⟨t2, t3, t4, h2, h3, h4, h5⟩ := processPhotons_ok hr hc
  obtain ⟨r, r1, hri, hu1, hrow, -⟩ := id h.ex
  have c1 : countTrue [true] = 1 := rfl
  -- action
  have a2 : ∃ u2, runAction e u [true] [p] [c] = .ok u2 ∧ (∀ k, k ∈ u.names ∨ k ∈ e.outputColumns ∨ some k ∈ outs.map (·.1) ∨ e.idCol = some k → k ∈ u2.names) ∧ Same ids B t2 i u2 ∧ t2.rows.length = t.rows.length := by
    simp only [runAction, ha, hf t mask ip ic hl hp hi] at h2
    have hfu := hf u [true] [p] [c] (by simp [hu1]) (by simp [hu1]) (by simp [hu1])
    have km : ∀ (T : Table) M I C, ((outs.map fun o => (o.1, o.2.col T.rows M I C)).map (·.1)) = outs.map (·.1) := by intro T M I C; simp
    rw [km] at h2
    have l1 : (addOutputCols e.outputColumns e.idCol (outs.map (·.1)) t).rows.length = t.rows.length := (upd_addOutputCols _ _ _ t mask).len
    have fits : List.Forall₂ (Fits mask i u) (outs.map fun o => (o.1, o.2.col t.rows mask ip ic)) (outs.map fun o => (o.1, o.2.col u.rows [true] [p] [c])) := by
      rw [List.forall₂_map_left_iff, List.forall₂_map_right_iff, List.forall₂_same]
      intro o ho
      refine ⟨rfl, ?_⟩
      obtain ⟨k, o⟩ := o
      cases o with
      | const v => exact ⟨v, rfl, rfl, by simp [RowOut.col, ColVal.toList]⟩
      | each g =>
        refine ⟨g r p c, ?_, ?_, ?_⟩
        · have hz : (t.rows.zip (ip.zip ic))[i]? = some (r, p, c) := by
            rw [List.getElem?_zip_eq_some]
            refine ⟨hri, ?_⟩
            rw [List.getElem?_zip_eq_some]
            exact ⟨hpi, hci⟩
          have hsel : ((sel mask (t.rows.zip (ip.zip ic))).map fun x => g x.1 x.2.1 x.2.2)[rank mask i]? = some (g r p c) := by
            rw [List.getElem?_map, sel_get hm (by simp; omega), hz]; rfl
          simp only [RowOut.col]
          generalize hL : ((sel mask (t.rows.zip (ip.zip ic))).map fun x => g x.1 x.2.1 x.2.2) = L at hsel ⊢
          match L, hsel with
          | [], hsel => simp at hsel
          | [y], hsel =>
            have : rank mask i = 0 := by
              have := (List.getElem?_eq_some_iff.1 hsel).1
              simpa using this
            rw [this] at hsel
            simpa [ColVal.at] using hsel
          | y :: z :: L, hsel => exact hsel
        · have e1 : g r1 p c = g r p c := hread k g ho p c r1 r (fun n hn => (hrow n (h.base hn)).symm)
          simp [RowOut.col, hu1, sel, ColVal.expand, e1]
        · have e1 : g r1 p c = g r p c := hread k g ho p c r1 r (fun n hn => (hrow n (h.base hn)).symm)
          simp [RowOut.col, hu1, sel, ColVal.toList, e1]
    have s1 := same_addOutputCols h e.outputColumns e.idCol (outs.map (·.1)) hidc (fun n hn => (hoc n hn).1) (fun n hn => (hk n hn).1)
    obtain ⟨u2, e2, n2, s2⟩ := same_assignAll fits s1 (by
      intro k hk'
      rw [km] at hk'
      rw [mem_addOutputCols]; exact Or.inr (Or.inr (Or.inl hk'))) (by rw [l1]; exact hl) hm h2
    refine ⟨u2, ?_, ?_, s2, (upd_assignAll (by rw [l1]; exact hl) h2).len.trans l1⟩
    · simp only [runAction, ha, hfu]
      rw [km]; exact e2
    · intro k hk'
      rw [n2, mem_addOutputCols]; exact hk'
  obtain ⟨u2, e2, n2, s2, l2⟩ := a2
  have a3 : ∃ u3, assignLoc e [true] [c] u2 = .ok u3 ∧ u2.names ⊆ u3.names ∧ Same ids B t3 i u3 ∧ t3.rows.length = t.rows.length := by
    unfold assignLoc at h3 ⊢
    cases hlc : e.locCoos with
    | none => rw [hlc] at h3; cases h3; exact ⟨u2, rfl, fun _ h => h, s2, l2⟩
    | some ab =>
      obtain ⟨a, b⟩ := ab
      rw [hlc] at h3; simp only at h3 ⊢
      split at h3
      · cases h3
      rename_i ta hta
      have l1 : (addOutputCols e.outputColumns e.idCol [some a, some b] t2).rows.length = t.rows.length := (upd_addOutputCols _ _ _ t2 mask).len.trans l2
      have ss := same_addOutputCols s2 e.outputColumns e.idCol [some a, some b] hidc (fun n hn => (hoc n hn).1) (by
        intro n hn; simp at hn
        rcases hn with rfl | rfl
        · exact (hloc _ _ hlc).1.1
        · exact (hloc _ _ hlc).2.1)
      have cla : (sel mask (ic.map (·.1))).length = countTrue mask := sel_length (by simp; omega)
      have clb : (sel mask (ic.map (·.2))).length = countTrue mask := sel_length (by simp; omega)
      obtain ⟨ua, ea, sa⟩ := same_setCol (x := c.1) ss (by rw [mem_addOutputCols]; simp) (by rw [l1]; exact hl) cla hta hm (by rw [sel_get hm (by simp; omega), List.getElem?_map, hci]; rfl)
      have la := (upd_setCol (by rw [l1]; exact hl) cla hta).len.trans l1
      have na := (setCol_names ea).1
      obtain ⟨ub, eb, sb⟩ := same_setCol (x := c.2) sa (by rw [na, mem_addOutputCols]; simp) (by rw [la]; exact hl) clb h3 hm (by rw [sel_get hm (by simp; omega), List.getElem?_map, hci]; rfl)
      refine ⟨ub, ?_, ?_, sb, (upd_setCol (by rw [la]; exact hl) clb h3).len.trans la⟩
      · simp only [List.map_cons, List.map_nil, sel, ea]; exact eb
      · intro k hk'
        rw [(setCol_names eb).1, na, mem_addOutputCols]; exact Or.inl hk'
  obtain ⟨u3, e3, n3, s3, l3⟩ := a3
  have a4 : ∃ u4, assignId e [true] u3 = .ok u4 ∧ u3.names ⊆ u4.names ∧ Same ids B t4 i u4 ∧ t4.rows.length = t.rows.length := by
    unfold assignId at h4 ⊢
    cases hidn : e.idCol with
    | none => rw [hidn] at h4; cases h4; exact ⟨u3, rfl, fun _ h => h, s3, l3⟩
    | some k =>
      rw [hidn] at h4; simp only at h4 ⊢
      obtain ⟨u4, e4, s4⟩ := same_setCol (x := .int e.idNum) s3 (n3 (n2 k (Or.inr (Or.inr (Or.inr hidn))))) (by rw [l3]; exact hl) (by simp) h4 hm (by simp [rank_lt hm])
      refine ⟨u4, ?_, ?_, s4, (upd_setCol (by rw [l3]; exact hl) (by simp) h4).len.trans l3⟩
      · rw [c1]; exact e4
      · rw [(setCol_names e4).1]; exact fun _ h => h
  obtain ⟨u4, e4, n4, s4, l4⟩ := a4
  obtain ⟨u5, e5, s5⟩ := same_setCol (x := p) s4 (n4 (n3 (n2 _ (Or.inl hpos)))) (by rw [l4]; exact hl) (sel_length (by omega)) h5 hm (by rw [sel_get hm (by omega), hpi])
  have n5 := (setCol_names e5).1
  refine ⟨u5, ?_, ?_, s5.mono ?_⟩
  · simp only [processPhotons, c1, one_ne_zero, if_false, bind, Except.bind, e2, e3, e4, sel]; exact e5
  · intro k hk'
    rw [n5]; exact n4 (n3 (n2 k (Or.inl hk')))
  · intro k hk'
    rw [n5]
    rcases List.mem_append.1 hk' with hk' | hk'
    · exact n4 (n3 (n2 k (Or.inl (h.base hk'))))
    · exact n4 (n3 (n2 k (Or.inr (Or.inr (Or.inl (by simpa [List.reduceOption] using hk'))))))

/-- The step does the same to the photon alone. -/
def Alone (ids B : List String) (f : Table → Except Err Table) : Prop :=
  ∀ t t' i u, Same ids B t i u → f t = .ok t' → ∃ u', f u = .ok u' ∧ Same ids B t' i u'

theorem alone_elem {ids B : List String} {e : Elem} (hid : "hitrod" ∉ ids) (hpos : "pos" ∈ B) (he : ∃ ks, PerPhotonElem B ids e ks) (hg : PerPhotonGeom B e.geom) : Alone ids B e.call := by
  intro t t' i u h hr
  obtain ⟨ks, he⟩ := he
  obtain ⟨hit, pos, coos, h1, h2, h3, hgeom⟩ := hg
  obtain ⟨r, r1, hri, hu1, hrow, -⟩ := id h.ex
  have hB : ∀ n ∈ B, r n = r1 n := fun n hn => hrow n (h.base hn)
  simp only [Elem.call, hgeom, hu1, List.map_cons, List.map_nil] at hr ⊢
  rw [← h1 r r1 hB, ← h2 r r1 hB, ← h3 r r1 hB]
  cases hh : hit r with
  | false =>
    refine ⟨u, C02_no_hit_identity _ _ _ _ _ (by simp), ?_⟩
    exact same_miss' h he hid (by simp) (by simp) (by simp) (by simp [hri, hh]) hr
  | true =>
    obtain ⟨u', e1, -, s1⟩ := same_hit (p := pos r) (c := coos r) h he (h.base hpos) (by simp) (by simp) (by simp) (by simp [hri, hh]) (by simp [hri]) (by simp [hri]) hr
    exact ⟨u', e1, s1.mono fun n hn => s1.base (List.mem_append_left _ hn)⟩

theorem processPhotons_length {e : Elem} {t t' : Table} {mask ip ic} (hl : mask.length = t.rows.length) (hp : ip.length = t.rows.length) (hi : ic.length = t.rows.length)
    (h : processPhotons e t mask ip ic = .ok t') : t'.rows.length = t.rows.length := (C02_miss_unchanged hl hp hi h).2.1

theorem same_layers_miss {ids : List String} (hid : "hitrod" ∉ ids) {mask ip ic} {i : ℕ} {u : Table} (hm : mask[i]? = some false) :
    ∀ (es : List Elem) (B : List String) (t t' : Table), PerPhotonLayers ids B es → Same ids [] t i u → mask.length = t.rows.length → ip.length = t.rows.length → ic.length = t.rows.length →
      runLayers mask ip ic es t = .ok t' → Same ids [] t' i u := by
  intro es
  induction es with
  | nil => intro B t t' _ h _ _ _ hr; cases hr; exact h
  | cons e es ih =>
    intro B t t' hL h hl hp hi hr
    obtain ⟨ks, he, hL'⟩ := hL
    simp only [runLayers, bind, Except.bind] at hr
    split at hr
    · cases hr
    rename_i t1 h1
    have hlen := processPhotons_length hl hp hi h1
    have s1 : Same ids [] t1 i u := by
      -- reading more columns does not matter for a photon that misses
      by_cases hc : countTrue mask = 0
      · unfold processPhotons at h1
        simp [hc] at h1
        exact h1 ▸ h
      · exact same_miss' h he hid hl hp hi hm h1
    exact ih _ t1 t' hL' s1 (by rw [hlen]; exact hl) (by rw [hlen]; exact hp) (by rw [hlen]; exact hi) hr

theorem same_layers_hit {ids : List String} {mask ip ic} {i : ℕ} {p : Val} {c : Val × Val} (hm : mask[i]? = some true) (hpi : ip[i]? = some p) (hci : ic[i]? = some c) :
    ∀ (es : List Elem) (B : List String) (t t' u : Table), PerPhotonLayers ids B es → Same ids B t i u → "pos" ∈ u.names → mask.length = t.rows.length → ip.length = t.rows.length → ic.length = t.rows.length →
      runLayers mask ip ic es t = .ok t' → ∃ u', runLayers [true] [p] [c] es u = .ok u' ∧ u.names ⊆ u'.names ∧ Same ids B t' i u' := by
  intro es
  induction es with
  | nil => intro B t t' u _ h _ _ _ _ hr; cases hr; exact ⟨u, rfl, fun _ h => h, h⟩
  | cons e es ih =>
    intro B t t' u hL h hpos hl hp hi hr
    obtain ⟨ks, he, hL'⟩ := hL
    simp only [runLayers, bind, Except.bind] at hr
    split at hr
    · cases hr
    rename_i t1 h1
    have hlen := processPhotons_length hl hp hi h1
    obtain ⟨u1, e1, n1, s1⟩ := same_hit h he hpos hl hp hi hm hpi hci h1
    obtain ⟨u', e2, n2, s2⟩ := ih _ t1 t' u1 hL' s1 (n1 hpos) (by rw [hlen]; exact hl) (by rw [hlen]; exact hp) (by rw [hlen]; exact hi) hr
    refine ⟨u', by simp only [runLayers, bind, Except.bind, e1]; exact e2, fun k hk => n2 (n1 hk), s2.mono ?_⟩
    exact fun n hn => s2.base (List.mem_append_left _ hn)

theorem alone_stack {ids B : List String} {s : Stack} (hid : "hitrod" ∉ ids) (hpos : "pos" ∈ B) (hg : PerPhotonGeom B s.geom) (hL : PerPhotonLayers ids B (s.base :: s.layers)) : Alone ids B s.call := by
  intro t t' i u h hr
  obtain ⟨hit, pos, coos, h1, h2, h3, hgeom⟩ := hg
  obtain ⟨r, r1, hri, hu1, hrow, -⟩ := id h.ex
  have hB : ∀ n ∈ B, r n = r1 n := fun n hn => hrow n (h.base hn)
  simp only [Stack.call, Stack.processPhotons, hgeom, hu1, List.map_cons, List.map_nil] at hr ⊢
  rw [← h1 r r1 hB, ← h2 r r1 hB, ← h3 r r1 hB]
  have len : (t.rows.map hit).length = t.rows.length := by simp
  cases hh : hit r with
  | false =>
    refine ⟨u, by simp [countTrue, pure, Except.pure], ?_⟩
    split at hr
    · have hr' : runLayers (t.rows.map hit) (t.rows.map pos) (t.rows.map coos) (s.base :: s.layers) t = .ok t' := hr
      exact (same_layers_miss hid (by simp [hri, hh]) _ B t t' hL (h.mono (by simp)) (by simp) (by simp) (by simp) hr').mono h.base
    · cases hr; exact h
  | true =>
    have hm : (t.rows.map hit)[i]? = some true := by simp [hri, hh]
    have hc : 0 < countTrue (t.rows.map hit) := by have := rank_lt hm; omega
    simp only [hc, if_true] at hr
    have hr' : runLayers (t.rows.map hit) (t.rows.map pos) (t.rows.map coos) (s.base :: s.layers) t = .ok t' := hr
    obtain ⟨u', e1, -, s1⟩ := same_layers_hit (p := pos r) (c := coos r) hm (by simp [hri]) (by simp [hri]) _ B t t' u hL h (h.base hpos) (by simp) (by simp) (by simp) hr'
    refine ⟨u', ?_, s1⟩
    have c1 : 0 < countTrue [true] := by decide
    simp only [c1, if_true]
    exact e1

theorem globalFilter_eq (f : List Val → ColVal) (t : Table) : globalFilter f t = assignColValue t (some "probability") (t.rows.map fun _ => true) (f (t.rows.map (· "energy"))) := by
  simp [globalFilter, assignColValue, countTrue]

theorem rank_true (l : List Row) (i : ℕ) (h : i < l.length) : rank (l.map fun _ => true) i = i := by
  simp [rank, List.map_take, Nat.min_eq_left h.le]

theorem alone_filter {ids B : List String} {f : List Val → ColVal} (hp : "probability" ∈ B) (he : "energy" ∈ B) (hf : (∃ v, ∀ l, f l = .scalar v) ∨ ∃ h, ∀ l, f l = .arr (l.map h)) : Alone ids B (globalFilter f) := by
  intro t t' i u h hr
  obtain ⟨r, r1, hri, hu1, hrow, -⟩ := id h.ex
  have hi : i < t.rows.length := (List.getElem?_eq_some_iff.1 hri).1
  rw [globalFilter_eq] at hr ⊢
  rw [hu1]
  simp only [List.map_cons, List.map_nil]
  have ee : r "energy" = r1 "energy" := hrow _ (h.base he)
  rcases hf with ⟨v, hv⟩ | ⟨g, hg⟩
  · rw [hv] at hr ⊢
    exact same_assignColValue h (h.base hp) (by simp) hr (by simp [List.getElem?_replicate, hi]) (x := v) rfl rfl (by simp [ColVal.toList])
  · rw [hg] at hr ⊢
    refine same_assignColValue h (h.base hp) (by simp) hr (by simp [List.getElem?_replicate, hi]) (x := g (r "energy")) ?_ (by simp [ColVal.expand, ee]) (by simp [ColVal.toList, ee])
    rw [rank_true _ _ hi]
    have hsel : ((t.rows.map (· "energy")).map g)[i]? = some (g (r "energy")) := by simp [hri]
    generalize ((t.rows.map (· "energy")).map g) = L at hsel ⊢
    match L, hsel with
    | [], hsel => simp at hsel
    | [y], hsel =>
      have : i = 0 := by
        have := (List.getElem?_eq_some_iff.1 hsel).1
        simpa using this
      rw [this] at hsel
      simpa [ColVal.at] using hsel
    | y :: z :: L, hsel => exact hsel

/-- A column is set to one value for the photons with some property. -/
theorem alone_where {ids B : List String} {bad : Row → Bool} {c : String} {v : Val} {t t' u : Table} {i : ℕ} {r r1 : Row} (h : Same ids B t i u) (hri : t.rows[i]? = some r) (hu1 : u.rows = [r1])
    (hb : bad r = bad r1) (hc : c ∈ u.names) (hr : setCol t c (t.rows.map bad) (List.replicate (countTrue (t.rows.map bad)) v) = .ok t') :
    ∃ u', setCol u c (u.rows.map bad) (List.replicate (countTrue (u.rows.map bad)) v) = .ok u' ∧ Same ids B t' i u' := by
  rw [hu1]
  simp only [List.map_cons, List.map_nil, ← hb]
  cases hh : bad r with
  | true =>
    have hm : (t.rows.map bad)[i]? = some true := by simp [hri, hh]
    exact same_setCol h hc (by simp) (by simp) hr hm (by simp [rank_lt hm])
  | false => exact ⟨u, same_setCol_miss h hc (by simp) (by simp) hr (by simp [hri, hh])⟩

theorem alone_baffle {ids B : List String} {g : Table → List Bool × List Val} (hp : "probability" ∈ B) (hpos : "pos" ∈ B)
    (hg : ∃ (hit : Row → Bool) (pos : Row → Val), ReadsOnly B hit ∧ ReadsOnly B pos ∧ ∀ t, g t = (t.rows.map hit, t.rows.map pos)) :
    Alone ids B fun t => baffle t (g t).1 (g t).2 := by
  intro t t' i u h hr
  obtain ⟨hit, pos, h1, h2, hgeom⟩ := hg
  obtain ⟨r, r1, hri, hu1, hrow, -⟩ := id h.ex
  have hB : ∀ n ∈ B, r n = r1 n := fun n hn => hrow n (h.base hn)
  simp only [hgeom, baffle, bind, Except.bind] at hr ⊢
  split at hr
  · cases hr
  rename_i ta hta
  have lta := (upd_setCol (by simp) (sel_length (by simp)) hta).len
  have nta := (setCol_names hta).1
  rw [hu1]
  simp only [List.map_cons, List.map_nil]
  rw [← h1 r r1 hB, ← h2 r r1 hB]
  cases hh : hit r with
  | true =>
    have hm : (t.rows.map hit)[i]? = some true := by simp [hri, hh]
    obtain ⟨ua, ea, sa⟩ := same_setCol (x := pos r) h (h.base hpos) (by simp) (sel_length (by simp)) hta hm (by rw [sel_get hm (by simp)]; simp [hri])
    have := same_setCol_miss sa (sa.base hp) (by simp [lta]) (by simp) hr (by simp [hri, hh])
    exact ⟨ua, by simpa [sel, ea, countTrue] using this.1, this.2⟩
  | false =>
    have hm : (t.rows.map hit)[i]? = some false := by simp [hri, hh]
    have ha := same_setCol_miss h (h.base hpos) (by simp) (sel_length (by simp)) hta hm
    have hm' : ((t.rows.map hit).map (! ·))[i]? = some true := by simp [hri, hh]
    obtain ⟨ub, eb, sb⟩ := same_setCol (x := .num (some 0)) ha.2 (h.base hp) (by simp [lta]) (by simp) hr hm' (by
      rw [List.getElem?_replicate, if_pos (rank_lt hm')])
    exact ⟨ub, by simpa [sel, ha.1, countTrue] using eb, sb⟩

theorem alone_rod {ids B : List String} {hit : Row → Bool} (hp : "probability" ∈ B) (h1 : ReadsOnly B hit) : Alone ids B (rodProcess hit) := by
  intro t t' i u h hr
  obtain ⟨r, r1, hri, hu1, hrow, -⟩ := id h.ex
  have hB : ∀ n ∈ B, r n = r1 n := fun n hn => hrow n (h.base hn)
  simp only [rodProcess, bind, Except.bind] at hr ⊢
  split at hr
  · cases hr
  rename_i ta hta
  have s0 := same_addCol h "hitrod" (.int 0) (Or.inr rfl)
  have l0 : (t.addCol "hitrod" (.int 0)).rows.length = t.rows.length := by unfold Table.addCol; split <;> simp
  have lta := (upd_setCol (by simp [l0]) (by simp) hta).len.trans l0
  rw [hu1]
  simp only [List.map_cons, List.map_nil]
  rw [← h1 r r1 hB]
  have hru : "hitrod" ∈ (u.addCol "hitrod" (.int 0)).names := by rw [mem_addCol]; exact Or.inr rfl
  cases hh : hit r with
  | true =>
    have hm : (t.rows.map hit)[i]? = some true := by simp [hri, hh]
    obtain ⟨ua, ea, sa⟩ := same_setCol (x := .int 1) s0 hru (by simp [l0]) (by simp) hta hm (by simp [rank_lt hm])
    obtain ⟨ub, eb, sb⟩ := same_setCol (x := .num (some 0)) sa (sa.base hp) (by simp [lta]) (by simp) hr hm (by simp [rank_lt hm])
    exact ⟨ub, by simpa [countTrue, ea] using eb, sb⟩
  | false =>
    have hm : (t.rows.map hit)[i]? = some false := by simp [hri, hh]
    have a := same_setCol_miss s0 hru (by simp [l0]) (by simp) hta hm
    have b := same_setCol_miss a.2 (a.2.base hp) (by simp [lta]) (by simp) hr hm
    exact ⟨_, by simpa [countTrue, a.1] using b.1, b.2⟩

theorem alone_zero {ids B : List String} {bad : Row → Bool} (hp : "probability" ∈ B) (h1 : ReadsOnly B bad) : Alone ids B (zeroWhere bad) := by
  intro t t' i u h hr
  obtain ⟨r, r1, hri, hu1, hrow, -⟩ := id h.ex
  exact alone_where h hri hu1 (h1 r r1 fun n hn => hrow n (h.base hn)) (h.base hp) hr

theorem alone_mounting {ids B : List String} (hp : "probability" ∈ B) (hx : "xou" ∈ B) : Alone ids B spoMounting := by
  intro t t' i u h hr
  have hu := h.base hx
  have ht := h.sub hu
  simp only [spoMounting, hu, ht, if_true] at hr ⊢
  exact alone_zero hp (fun r r' hh => by rw [hh _ hx]) t t' i u h hr

theorem alone_bars {ids B : List String} (hp : "probability" ∈ B) (hf : "facet" ∈ ids) : Alone ids B catSupportBars := by
  intro t t' i u h hr
  obtain ⟨r, r1, hri, hu1, hrow, hns⟩ := id h.ex
  unfold catSupportBars at hr ⊢
  by_cases ht : "facet" ∈ t.names
  · simp only [ht, if_true] at hr
    by_cases hu : "facet" ∈ u.names
    · simp only [hu, if_true]
      exact alone_where h hri hu1 (by rw [hrow _ hu]) (h.base hp) hr
    · simp only [hu, if_false]
      have hneg : (r "facet").isNeg = true := by rw [hns _ ht hu]; simp [notSeen, hf, Val.isNeg]
      have hm : (t.rows.map fun r => (r "facet").isNeg)[i]? = some true := by simp [hri, hneg]
      have hup := upd_setCol (by simp) (by simp) hr
      refine ⟨_, rfl, ?_⟩
      have := same_write (x := .num (some 0)) h (h.base hp) hup (setCol_names hr).1 (fun r' hr' => setCol_hit hr hm (by simp [rank_lt hm]) hr')
      simpa [Table.fillCol, h.base hp] using this
  · have hu : "facet" ∉ u.names := fun hh => ht (h.sub hh)
    simp only [ht, hu, if_false] at hr ⊢
    cases hr
    refine ⟨_, rfl, ?_⟩
    have pu := h.base hp
    have pt := h.sub pu
    simp only [Table.fillCol, pu, pt, if_true]
    refine ⟨⟨Function.update r "probability" (.num (some 0)), Function.update r1 "probability" (.num (some 0)), by simp [hri], by simp [hu1], ?_, ?_⟩, h.sub, h.base, h.rod⟩
    · intro n hn
      by_cases e : n = "probability"
      · subst e; simp
      · rw [Function.update_of_ne e, Function.update_of_ne e]; exact hrow n hn
    · intro n hn hn'
      have e : n ≠ "probability" := fun e => hn' (e ▸ pu)
      rw [Function.update_of_ne e]; exact hns n hn hn'

theorem alone_step {ids B : List String} (hid : "hitrod" ∉ ids) (hp : "probability" ∈ B) (hpos : "pos" ∈ B) {s : PhotonStep} (hs : s.PerPhoton B ids) : Alone ids B s.call := by
  cases s with
  | step s =>
    cases s with
    | elem e => exact alone_elem hid hpos hs.1 hs.2
    | stack s => exact alone_stack hid hpos hs.1 hs.2
    | filter f => exact alone_filter hp hs.1 hs.2
    | baffle g => exact alone_baffle hp hpos hs
    | zero bad => exact alone_zero hp hs
  | bars => exact alone_bars hp hs
  | mounting => exact alone_mounting hp hs
  | rod hit => exact alone_rod hp hs

/-- **C145** Photons do not influence each other. For every sequence of steps that look at the photons one by one: if a list of photons of any length can be processed, each photon can also be
processed alone, and what happens to it is the same. All columns of the photon alone have the value they have in the list; columns which only the list has (since no element was hit that fills
them) say there that the photon was not seen: -1 for ids, NaN for others. -/
theorem C145_alone (ids B : List String) (hid : "hitrod" ∉ ids) (hp : "probability" ∈ B) (hpos : "pos" ∈ B) (steps : List PhotonStep) (hs : ∀ s ∈ steps, s.PerPhoton B ids)
    (t t' : Table) (hB : B ⊆ t.names) (run : runPhotonSteps steps t = .ok t') (i : ℕ) (r : Row) (hr : t.rows[i]? = some r) :
    ∃ u' r1 r', runPhotonSteps steps ⟨t.names, [r]⟩ = .ok u' ∧ u'.rows = [r1] ∧ t'.rows[i]? = some r' ∧ u'.names ⊆ t'.names ∧
      (∀ n ∈ u'.names, r1 n = r' n) ∧ ∀ n ∈ t'.names, n ∉ u'.names → r' n = notSeen ids n := by
  have key : ∀ (steps : List PhotonStep) (t t' u : Table), (∀ s ∈ steps, s.PerPhoton B ids) → Same ids B t i u → runPhotonSteps steps t = .ok t' →
      ∃ u', runPhotonSteps steps u = .ok u' ∧ Same ids B t' i u' := by
    intro steps
    induction steps with
    | nil => intro t t' u _ h hr; cases hr; exact ⟨u, rfl, h⟩
    | cons s ss ih =>
      intro t t' u hs h hr
      simp only [runPhotonSteps] at hr ⊢
      split at hr
      · cases hr
      rename_i t1 h1
      obtain ⟨u1, e1, s1⟩ := alone_step hid hp hpos (hs s (by simp)) t t1 i u h h1
      obtain ⟨u', e2, s2⟩ := ih t1 t' u1 (fun x hx => hs x (List.mem_cons_of_mem _ hx)) s1 hr
      exact ⟨u', by simp only [e1]; exact e2, s2⟩
  obtain ⟨u', e, ⟨r', r1, hr', hu1, h1, h2⟩, hsub, -, -⟩ := key steps t t' ⟨t.names, [r]⟩ hs
    ⟨⟨r, r, hr, rfl, fun _ _ => rfl, fun n hn hn' => absurd hn hn'⟩, fun _ h => h, hB, fun h => h⟩ run
  exact ⟨u', r1, r', e, hu1, hr', hsub, fun n hn => (h1 n hn).symm, h2⟩

/-- **C145** It makes no difference in which company and at which place of the list a photon is processed: in batches, sorted, or with other photons. In columns that both results have, the photon
has the same values; in columns that only one result has, the photon was not seen. -/
theorem C145_company (ids B : List String) (hid : "hitrod" ∉ ids) (hp : "probability" ∈ B) (hpos : "pos" ∈ B) (steps : List PhotonStep) (hs : ∀ s ∈ steps, s.PerPhoton B ids)
    (t t' s s' : Table) (hnames : t.names = s.names) (hB : B ⊆ t.names) (run : runPhotonSteps steps t = .ok t') (run' : runPhotonSteps steps s = .ok s') (i j : ℕ) (r a b : Row) (hr : t.rows[i]? = some r)
    (hr' : s.rows[j]? = some r) (ha : t'.rows[i]? = some a) (hb : s'.rows[j]? = some b) :
    (∀ n ∈ t'.names, n ∈ s'.names → a n = b n) ∧ (∀ n ∈ t'.names, n ∉ s'.names → a n = notSeen ids n) ∧ ∀ n ∈ s'.names, n ∉ t'.names → b n = notSeen ids n := by
  obtain ⟨u, r1, a', e1, f1, g1, h1, k1, l1⟩ := C145_alone ids B hid hp hpos steps hs t t' hB run i r hr
  obtain ⟨v, r2, b', e2, f2, g2, h2, k2, l2⟩ := C145_alone ids B hid hp hpos steps hs s s' (hnames ▸ hB) run' j r hr'
  rw [← hnames, e1] at e2
  cases e2
  rw [f1] at f2
  cases f2
  rw [ha] at g1
  rw [hb] at g2
  cases g1
  cases g2
  refine ⟨?_, fun n hn hn' => l1 n hn fun hh => hn' (h2 hh), fun n hn hn' => l2 n hn fun hh => hn' (h1 hh)⟩
  intro n hn hn'
  by_cases hu : n ∈ u.names
  · rw [← k1 n hu, ← k2 n hu]
  · rw [l1 n hn hu, l2 n hn' hu]

/-! ## What the other photons do change -/

/-- A module which is hit by photons with energy 1; the number of the module goes to the column `c`, the probability is reduced to one half. -/
noncomputable def exModule (c : String) : Elem where
  idCol := some c
  idNum := 3
  locCoos := none
  outputColumns := []
  action := .vector fun _ _ _ _ => .ok [(some "probability", .scalar (.num (some (1/2))))]
  geom := fun t => (t.rows.map fun r => decide (r "energy" = .num (some 1)), t.rows.map (fun _ => .vec [some 2]), t.rows.map fun _ => (.num none, .num none))

/-- A photon with energy `e`. -/
noncomputable def exPhoton (e : ℝ) : Row := fun n => if n = "energy" then .num (some e) else if n = "probability" then .num (some 1) else .vec [some 0]

/-- Photons with energies 1 and 2: only the first hits. -/
noncomputable def exPair : Table := ⟨["energy", "pos", "probability"], [exPhoton 1, exPhoton 2]⟩

theorem exModule_perPhoton (c : String) : (PhotonStep.step (.elem (exModule c))).PerPhoton ["energy", "pos", "probability"] [c] ↔ c ≠ "probability" := by
  constructor
  · rintro ⟨⟨keys, ⟨f, outs, hf, hk, -, hh⟩, -, -, h3, -⟩, -⟩ rfl
    have := hh ⟨[], []⟩ [] [] [] rfl rfl rfl
    simp only [exModule, Action.vector.injEq] at hf
    rw [← hf] at this
    simp only [Except.ok.injEq] at this
    have hp : some "probability" ∈ keys := by
      have e : keys = [(some "probability")] := by
        have := congrArg (List.map (·.1)) this
        simpa [hk, Function.comp_def] using this.symm
      simp [e]
    exact (h3 _ hp).1 (by simp)
  · intro hc
    refine ⟨⟨[some "probability"], ⟨_, [(some "probability", .const (.num (some (1/2))))], rfl, by simp, by simp, fun t mask ip ic _ _ _ => by simp [RowOut.col]⟩, by simp [exModule], by simp [exModule],
      by simp [hc.symm], by simp [exModule]⟩, fun r => decide (r "energy" = .num (some 1)), fun _ => .vec [some 2], fun _ => (.num none, .num none), ?_, fun _ _ _ => rfl, fun _ _ _ => rfl, fun t => rfl⟩
    intro r r' h
    simp only [h "energy" (by simp)]

theorem exModule_pair (c : String) (hc : c ∉ ["energy", "pos", "probability"]) : ∃ t', (exModule c).call exPair = .ok t' ∧ t'.names = ["energy", "pos", "probability", c] ∧
    ∃ a b, t'.rows = [a, b] ∧ a c = .int 3 ∧ b c = .int (-1) ∧ a "probability" = .num (some (1/2)) ∧ b "probability" = .num (some 1) := by
  have h := not_outOfRange (x := 2⁻¹) (by norm_num) (by norm_num)
  have h2 : (2 : ℝ) ≠ 1 := by norm_num
  simp only [List.mem_cons, List.not_mem_nil, or_false, not_or] at hc
  obtain ⟨c1, c2, c3⟩ := hc
  refine ⟨⟨["energy", "pos", "probability", c], [Function.update (Function.update (Function.update (Function.update (exPhoton 1) c (.int (-1))) "probability" (.num (some (1/2)))) c (.int 3)) "pos" (.vec [some 2]),
    Function.update (exPhoton 2) c (.int (-1))]⟩, ?_, rfl, _, _, rfl, by simp [c2], by simp, by simp [Ne.symm c3], by simp [Ne.symm c3, exPhoton]⟩
  simp +decide [Elem.call, h, h2, processPhotons, exModule, exPair, runAction, assignAll, assignColValue, addOutputCols, Table.addCol, ColVal.toList, ColVal.expand, mulMasked,
    assignMasked, setCol, assignLoc, assignId, sel, exPhoton, Val.mul, countTrue, bind, Except.bind, c1, c2, c3, Ne.symm c1, Ne.symm c2, Ne.symm c3]

theorem exModule_second (c : String) : (exModule c).call ⟨["energy", "pos", "probability"], [exPhoton 2]⟩ = .ok ⟨["energy", "pos", "probability"], [exPhoton 2]⟩ := by
  have h2 : (2 : ℝ) ≠ 1 := by norm_num
  exact C02_no_hit_identity _ _ _ _ _ (by simp [exModule, exPhoton, h2])

/-- **C145** (finding) Which columns the result has depends on the other photons: a column is added only if at least one photon of the list hits the element. So the results for two parts of a list
can not simply be put below each other. -/
theorem C145_columns_false : ¬ ∀ (ids B : List String) (steps : List PhotonStep) (_ : ∀ s ∈ steps, s.PerPhoton B ids) (t t' u' : Table) (r : Row), B ⊆ t.names → "pos" ∈ B → "probability" ∈ B → r ∈ t.rows →
    runPhotonSteps steps t = .ok t' → runPhotonSteps steps ⟨t.names, [r]⟩ = .ok u' → u'.names = t'.names := by
  intro h
  obtain ⟨t', ht, hn, -⟩ := exModule_pair "ccd" (by decide)
  have := h ["ccd"] ["energy", "pos", "probability"] [.step (.elem (exModule "ccd"))] (by simpa using (exModule_perPhoton "ccd").2 (by decide)) exPair t' ⟨["energy", "pos", "probability"], [exPhoton 2]⟩ (exPhoton 2)
    (by simp [exPair]) (by simp) (by simp) (by simp [exPair]) (by simp [runPhotonSteps, PhotonStep.call, Step.call, ht])
    (by simp [runPhotonSteps, PhotonStep.call, Step.call, exPair, exModule_second])
  rw [hn] at this
  simp at this

/-- **C145** (finding) `spomounting` of Athena stops with a `KeyError` for a list of photons of which none goes through a pore optic, although it sets the probability of the very same photon to 0 when
another photon in the list does. (`catsupportbars` of the CAT gratings has a branch for this case.) -/
theorem C145_mounting_false : ¬ ∀ (e : Elem) (t t' : Table) (r : Row), (∃ B ids, (PhotonStep.step (.elem e)).PerPhoton B ids ∧ B ⊆ t.names ∧ "pos" ∈ B ∧ "probability" ∈ B) → e.idCol = some "xou" → r ∈ t.rows →
    runPhotonSteps [.step (.elem e), .mounting] t = .ok t' → ∃ u', runPhotonSteps [.step (.elem e), .mounting] ⟨t.names, [r]⟩ = .ok u' := by
  intro h
  obtain ⟨t', ht, hn, a, b, hr, -⟩ := exModule_pair "xou" (by decide)
  have hm : ∃ t2, spoMounting t' = .ok t2 := by
    simp [spoMounting, hn, zeroWhere, setCol, hr, countTrue]
  obtain ⟨t2, h2⟩ := hm
  obtain ⟨u', hu⟩ := h (exModule "xou") exPair t2 (exPhoton 2) ⟨["energy", "pos", "probability"], ["xou"], (exModule_perPhoton "xou").2 (by decide), by simp [exPair], by simp, by simp⟩ rfl (by simp [exPair])
    (by simp [runPhotonSteps, PhotonStep.call, Step.call, ht, h2])
  simp [runPhotonSteps, PhotonStep.call, Step.call, exPair, exModule_second, spoMounting] at hu

/-! Non-vacuity: a module, a filter, the bars between the modules and a rod, for the two photons of `exPair`. Only the first hits the module. -/
example : ∃ (steps : List PhotonStep) (t' : Table), steps.length = 4 ∧ (∀ s ∈ steps, s.PerPhoton ["energy", "pos", "probability"] ["facet"]) ∧ ["energy", "pos", "probability"] ⊆ exPair.names ∧
    runPhotonSteps steps exPair = .ok t' ∧ t'.rows.length = 2 := by
  have h := not_outOfRange (x := 2⁻¹) (by norm_num) (by norm_num)
  obtain ⟨t1, h1, n1, a, b, r1, ha, hb, pa, pb⟩ := exModule_pair "facet" (by decide)
  have hex : ∃ t', runPhotonSteps [.step (.elem (exModule "facet")), .step (.filter fun _ => .scalar (.num (some (1/2)))), .bars, .rod fun r => decide (r "energy" = .num (some 2))] exPair = .ok t' ∧ t'.rows.length = 2 := by
    simp +decide [runPhotonSteps, PhotonStep.call, Step.call, h1, globalFilter, ColVal.toList, ColVal.expand, h, n1, r1, mulMasked, Val.mul, pa, pb, catSupportBars, zeroWhere, setCol, countTrue, ha, hb,
      Val.isNeg, bind, Except.bind, assignMasked, rodProcess, Table.addCol]
  obtain ⟨t', e, l⟩ := hex
  refine ⟨_, t', rfl, ?_, by simp [exPair], e, l⟩
  simp only [List.mem_cons, List.not_mem_nil, or_false]
  rintro s (rfl | rfl | rfl | rfl)
  · exact (exModule_perPhoton "facet").2 (by decide)
  · exact ⟨by simp, Or.inl ⟨_, fun _ => rfl⟩⟩
  · show "facet" ∈ ["facet"]; simp
  · intro r r' hh
    simp only [hh "energy" (by simp)]

/-- **C145** Flat and circular detectors treat photons one by one: where a photon hits, its local coordinates and its pixel depend only on its own direction and position. -/
theorem C145_detector (e : Det) (B ids : List String) (hd : "dir" ∈ B) (hp : "pos" ∈ B) (hid : ∀ c, e.idCol = some c → c ∈ ids)
    (hn : ∀ n ∈ [e.loc.1, e.loc.2, e.pix.1, e.pix.2], n ∉ ids ∧ n ≠ "hitrod") : (PhotonStep.step (.elem e.elem)).PerPhoton B ids := by
  have hrow : ∀ r r' : Row, (∀ n ∈ B, r n = r' n) → e.rowHit r = e.rowHit r' := by
    intro r r' h
    simp only [Det.rowHit, h _ hd, h _ hp]
  refine ⟨⟨[some e.pix.1, some e.pix.2], ⟨_, [(some e.pix.1, .each fun _ _ c => (e.pixCells c).1), (some e.pix.2, .each fun _ _ c => (e.pixCells c).2)], rfl, rfl, ?_, ?_⟩, hid, by simp [Det.elem], ?_, ?_⟩,
    _, _, _, ?_, ?_, ?_, fun t => rfl⟩
  · intro k h hk p c r r' _
    simp only [List.mem_cons, Prod.mk.injEq, RowOut.each.injEq, List.not_mem_nil, or_false] at hk
    rcases hk with ⟨-, rfl⟩ | ⟨-, rfl⟩ <;> rfl
  · intro t mask ip ic h1 h2 h3
    have key : ∀ (mask : List Bool) (rows : List Row) (ip : List Val) (ic : List (Val × Val)), mask.length = rows.length → ip.length = rows.length → ic.length = rows.length →
        (sel mask (rows.zip (ip.zip ic))).map (·.2.2) = sel mask ic := by
      intro mask
      induction mask with
      | nil => intro rows ip ic h1 h2 h3; cases rows <;> cases ic <;> simp_all [sel]
      | cons m mask ih =>
        intro rows ip ic h1 h2 h3
        match rows, ip, ic, h1, h2, h3 with
        | r :: rows, p :: ip, c :: ic, h1, h2, h3 =>
          have := ih rows ip ic (by simpa using h1) (by simpa using h2) (by simpa using h3)
          cases m <;> simp [sel, this]
    have k := key mask t.rows ip ic h1 h2 h3
    simp only [List.map_cons, List.map_nil, RowOut.col, ← k, List.map_map, Function.comp_def]
  · intro n hk
    simp only [List.mem_cons, Option.some.injEq, List.not_mem_nil, or_false] at hk
    rcases hk with rfl | rfl <;> exact hn _ (by simp)
  · intro a b hab
    have : e.loc = (a, b) := by simpa [Det.elem] using hab
    exact ⟨by simpa [this] using hn e.loc.1 (by simp), by simpa [this] using hn e.loc.2 (by simp)⟩
  · intro r r' h; simp only [hrow r r' h]
  · intro r r' h; simp only [hrow r r' h]
  · intro r r' h; simp only [hrow r r' h]

/-! Non-vacuity: a CCD. -/
example : (PhotonStep.step (.elem (Det.elem ⟨.plane 1, 0.024, some "CCD_ID", 5, ("det_x", "det_y"), ("detpix_x", "detpix_y")⟩))).PerPhoton ["dir", "pos", "energy", "probability"] ["CCD_ID"] :=
  C145_detector _ _ _ (by simp) (by simp) (by simp) (by decide)

end Marxs
