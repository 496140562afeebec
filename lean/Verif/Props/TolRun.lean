import Verif.Props.Tolerancing
import Verif.Props.Base
import Verif.Props.Container

/-!
# Properties C53, C79, C80, C81: tolerancing runs
-/

namespace Marxs

/-! ## C53 -/

theorem dictSet_isDict {V : Type} {d : Dict V} (h : IsDict d) (k : String) (v : V) : IsDict (dictSet d k v) := by
  unfold IsDict dictSet
  split
  next hk =>
    have : (d.map (fun p => if p.1 = k then (k, v) else p)).map Prod.fst = d.map Prod.fst := by
      rw [List.map_map]
      apply List.map_congr_left
      intro p _
      simp only [Function.comp]
      split <;> simp_all
    rw [this]; exact h
  next hk =>
    rw [List.map_append, List.nodup_append]
    refine ⟨h, by simp, ?_⟩
    intro a ha b hb
    simp at hb
    subst hb
    exact fun h => hk (h ▸ ha)

theorem dictUpdate_lookup {V : Type} (d u : Dict V) (hu : IsDict u) (k : String) :
    (dictUpdate d u).lookup k = (u.lookup k).or (d.lookup k) := by
  induction u generalizing d with
  | nil => simp [dictUpdate]
  | cons a u ih =>
    obtain ⟨k', v⟩ := a
    have hu' : IsDict u := by
      unfold IsDict at hu ⊢; simp only [List.map_cons, List.nodup_cons] at hu; exact hu.2
    have hn : k' ∉ u.map Prod.fst := by
      unfold IsDict at hu; simp only [List.map_cons, List.nodup_cons] at hu; exact hu.1
    rw [dictUpdate, ih _ hu', dictSet_lookup]
    by_cases hk : k = k'
    · subst hk
      have : u.lookup k = none := by
        rw [List.lookup_eq_none_iff]
        intro p hp
        simp only [beq_eq_false_iff_ne, ne_eq, bne_iff_ne, Bool.not_eq_true]
        intro h
        exact hn (List.mem_map.2 ⟨p, hp, h.symm⟩)
      simp [this]
    · rw [List.lookup_cons, beq_eq_false_iff_ne.2 hk, if_neg hk]

/-- what the photons part of one step does to memory -/
theorem tolPhotons_ok {S T V : Type} {f : TolFuns S T V} {pin : ℕ} {pars res : Dict V} {s s' : S}
    {m m' : Mem T V} (h : tolPhotons f pin pars s m = .ok (res, s', m')) :
    ∃ t, m.tabs[pin]? = some t ∧ Evaluates f t pars s res s' ∧ m'.dicts = m.dicts ∧
      m.tabs <+: m'.tabs := by
  unfold tolPhotons at h
  split at h
  · cases h
  rename_i s1 h1
  split at h
  · cases h
  rename_i t ht
  simp only at h
  split at h
  · cases h
  rename_i t1 new s2 h2
  split at h
  · cases h
  rename_i t2 res' s3 h3
  cases h
  refine ⟨t, ht, ⟨s1, t1, new, s2, t2, h1, h2, h3⟩, ?_, ?_⟩
  · cases new <;> rfl
  · cases new with
    | none =>
      simp only [storeTable]
      refine ⟨[t2], ?_⟩
      rw [List.set_append_right _ _ (le_refl _)]
      simp
    | some t' =>
      simp only [storeTable]
      refine ⟨[t1, t2], ?_⟩
      rw [List.set_append_right _ _ (le_refl _)]
      simp [List.set_append_right]

theorem tolStep_ok {S T V : Type} {f : TolFuns S T V} {pin p q : ℕ} {s s' : S}
    {m m' : Mem T V} (h : tolStep f pin p s m = .ok (q, s', m')) :
    ∃ t pars res, m.tabs[pin]? = some t ∧ m.dicts[p]? = some pars ∧ Evaluates f t pars s res s' ∧
      q = m.dicts.length ∧ m'.dicts = m.dicts ++ [dictUpdate pars res] ∧ m.tabs <+: m'.tabs := by
  unfold tolStep at h
  split at h
  · cases h
  rename_i pars hp
  split at h
  · cases h
  rename_i res s1 m1 h1
  cases h
  obtain ⟨t, a1, a2, a3, a4⟩ := tolPhotons_ok h1
  refine ⟨t, pars, res, a1, hp, a2, by rw [a3], ?_, a4⟩
  simp [a3, List.set_append_right]

theorem get_prefix {α : Type} {l l' : List α} (h : l <+: l') {i : ℕ} {x : α} (hx : l[i]? = some x) :
    l'[i]? = some x := by
  obtain ⟨r, rfl⟩ := h
  rw [List.getElem?_append_left (List.getElem?_eq_some_iff.1 hx).1]
  exact hx

/-- Results are dictionaries (Python dictionaries have no repeated keys). -/
def TolFuns.DictResults {S T V : Type} (f : TolFuns S T V) : Prop :=
  ∀ s t t1 r s1, f.ana s t = .ok (t1, r, s1) → IsDict r

/-- **C53** `run_tolerances` returns one dictionary per parameter set, in order; these are new objects.
Result `i` has the parameters of set `i` together with the result of an evaluation of that set, started
in the state left by evaluation `i-1`, with photons that are equal to the input photons. All tables and
dictionaries that existed before, in particular the input photons and the parameter sets, are unchanged,
whatever wiggle function, instrument and analysis do to what they are given. -/
theorem C53_results {S T V : Type} (f : TolFuns S T V) (hf : f.DictResults) (pin : ℕ) (ps : List ℕ) (s s' : S)
    (m m' : Mem T V) (qs : List ℕ) (h : runTolerances f pin ps s m = .ok (qs, s', m'))
    (hps : ∀ p ∈ ps, p < m.dicts.length) (t : T) (ht : m.tabs[pin]? = some t) :
    qs = (List.range ps.length).map (m.dicts.length + ·) ∧
    m.tabs <+: m'.tabs ∧ m.dicts <+: m'.dicts ∧
    ∃ pars res outs : List (Dict V), ps.map (m.dicts[·]?) = pars.map some ∧
      qs.map (m'.dicts[·]?) = outs.map some ∧
      EvalChain f t s pars res s' ∧
      pars.length = res.length ∧ outs.length = res.length ∧
      ∀ i (h1 : i < pars.length) (h2 : i < res.length) (h3 : i < outs.length),
        IsUpdated pars[i] res[i] outs[i] := by
  induction ps generalizing s m qs with
  | nil =>
    simp only [runTolerances] at h
    cases h
    exact ⟨rfl, List.prefix_rfl, List.prefix_rfl, [], [], [], rfl, rfl, .nil _, rfl, rfl, by simp⟩
  | cons p ps ih =>
    simp only [runTolerances] at h
    split at h
    · cases h
    rename_i q s1 m1 h1
    split at h
    · cases h
    rename_i qs' s2 m2 h2
    cases h
    obtain ⟨t', pars, res, a1, a2, a3, a4, a5, a6⟩ := tolStep_ok h1
    rw [ht] at a1
    cases a1
    have hl : m1.dicts.length = m.dicts.length + 1 := by rw [a5]; simp
    obtain ⟨b1, b2, b3, parss, ress, outs, b4, b5, b6, b7, b8, b9⟩ := ih s1 m1 qs' h2
      (by intro x hx; rw [hl]; exact Nat.lt_succ_of_lt (hps x (by simp [hx]))) (get_prefix a6 ht)
    have hd : m.dicts <+: m1.dicts := ⟨_, a5.symm⟩
    have hq : m'.dicts[m.dicts.length]? = some (dictUpdate pars res) := by
      apply get_prefix b3
      rw [a5]; simp
    refine ⟨?_, a6.trans b2, hd.trans b3, pars :: parss, res :: ress, dictUpdate pars res :: outs,
      ?_, ?_, .cons a3 b6, by simp [b7], by simp [b8], ?_⟩
    · rw [b1, a4, hl, List.length_cons, List.range_succ_eq_map, List.map_cons, List.map_map]
      congr 1
      apply List.map_congr_left
      intro i _
      simp only [Function.comp]; omega
    · rw [List.map_cons, List.map_cons, a2, ← b4]
      congr 1
      apply List.map_congr_left
      intro x hx
      rw [a5, List.getElem?_append_left (hps x (by simp [hx]))]
    · rw [List.map_cons, List.map_cons, a4, hq, b5]
    · intro i i1 i2 i3
      cases i with
      | zero =>
        obtain ⟨_, _, _, _, _, _, _, hana⟩ := a3
        exact dictUpdate_lookup _ _ (hf _ _ _ _ _ hana)
      | succ i => exact b9 i (by simpa using i1) (by simpa using i2) (by simpa using i3)

/-- **C53** The parameter values are in the result, unless the analysis reports something under the same
name, and all results of the analysis are. -/
theorem C53_contains {V : Type} {pars res d : Dict V} (h : IsUpdated pars res d) (k : String) (v : V) :
    (res.lookup k = some v → d.lookup k = some v) ∧
    (res.lookup k = none → pars.lookup k = some v → d.lookup k = some v) := by
  constructor
  · intro h1; rw [h k, h1]; rfl
  · intro h1 h2; rw [h k, h1, h2]; rfl

/-- evaluations do not depend on the state before -/
theorem eval_unique {S T V O : Type} {f : TolFuns S T V} {inv : S → Prop} {view : S → O}
    (hw : LastCallWins f inv view) {t : T} {pars res : Dict V} {s s0 s' : S} (hs : inv s) (hs0 : inv s0)
    (h : Evaluates f t pars s res s') : inv s' ∧ ∃ s0', Evaluates f t pars s0 res s0' := by
  obtain ⟨s1, t1, new, s2, t2, h1, h2, h3⟩ := h
  obtain ⟨i1, u1, g1, v1⟩ := hw.wig s s0 pars hs hs0 s1 h1
  obtain ⟨j1, _, _⟩ := hw.wig s0 s pars hs0 hs u1 g1
  obtain ⟨i2, u2, g2, v2⟩ := hw.instr s1 u1 t i1 j1 v1 t1 new s2 h2
  obtain ⟨j2, _, _⟩ := hw.instr u1 s1 t j1 i1 v1.symm t1 new u2 g2
  obtain ⟨i3, u3, g3⟩ := hw.ana s2 u2 _ i2 j2 v2 t2 res s' h3
  exact ⟨i3, u3, u1, t1, new, u2, t2, g1, g2, g3⟩

/-- an evaluation has at most one result -/
theorem eval_det {S T V : Type} {f : TolFuns S T V} {t : T} {pars res res' : Dict V} {s s' s'' : S}
    (h : Evaluates f t pars s res s') (h' : Evaluates f t pars s res' s'') : res = res' := by
  obtain ⟨s1, t1, new, s2, t2, h1, h2, h3⟩ := h
  obtain ⟨s1', t1', new', s2', t2', h1', h2', h3'⟩ := h'
  rw [h1] at h1'; cases h1'
  rw [h2] at h2'; cases h2'
  rw [h3] at h3'; cases h3'
  rfl

theorem chain_pointwise {S T V O : Type} {f : TolFuns S T V} {inv : S → Prop} {view : S → O}
    (hw : LastCallWins f inv view) {t : T} {ps rs : List (Dict V)} {s s0 s' : S} (hs : inv s) (hs0 : inv s0)
    (h : EvalChain f t s ps rs s') :
    inv s' ∧ List.Forall₂ (fun p r => ∃ s0', Evaluates f t p s0 r s0') ps rs := by
  induction h with
  | nil => exact ⟨hs, .nil⟩
  | cons h _ ih =>
    obtain ⟨i1, i2⟩ := eval_unique hw hs hs0 h
    obtain ⟨i3, i4⟩ := ih i1
    exact ⟨i3, .cons i2 i4⟩

/-- **C53** If only the last call of the wiggle function matters, the results do not depend on the order
in which parameter sets are listed, nor on the other sets in the list or on what was done to the
instrument before: whenever the same parameter set is evaluated with the same photons in two runs, the
result of the analysis is the same. -/
theorem C53_order_irrelevant {S T V O : Type} {f : TolFuns S T V} {inv : S → Prop} {view : S → O}
    (hw : LastCallWins f inv view) {t : T} {ps rs ps' rs' : List (Dict V)} {s s1 u u1 : S}
    (hs : inv s) (hu : inv u) (h : EvalChain f t s ps rs s1) (h' : EvalChain f t u ps' rs' u1)
    {i j : ℕ} {pars r r' : Dict V} (h1 : ps[i]? = some pars) (h2 : rs[i]? = some r)
    (h3 : ps'[j]? = some pars) (h4 : rs'[j]? = some r') : r = r' := by
  have a := (chain_pointwise hw hs hs h).2
  have b := (chain_pointwise hw hu hs h').2
  have key : ∀ {ps rs : List (Dict V)} {i : ℕ} {p r : Dict V},
      List.Forall₂ (fun p r => ∃ s0', Evaluates f t p s r s0') ps rs → ps[i]? = some p → rs[i]? = some r →
      ∃ s0', Evaluates f t p s r s0' := by
    intro ps rs i p r hf
    induction hf generalizing i with
    | nil => simp
    | cons h _ ih =>
      cases i with
      | zero => simp only [List.getElem?_cons_zero, Option.some.injEq]; rintro rfl rfl; exact h
      | succ i => simp only [List.getElem?_cons_succ]; exact ih
  obtain ⟨_, e1⟩ := key a h1 h2
  obtain ⟨_, e2⟩ := key b h3 h4
  exact eval_det e1 e2

/-- **C53** ... and if one order works, every permutation of the list does too. -/
theorem C53_permutation {S T V O : Type} {f : TolFuns S T V} {inv : S → Prop} {view : S → O}
    (hw : LastCallWins f inv view) {t : T} {ps rs ps' : List (Dict V)} {s s1 u : S}
    (hs : inv s) (hu : inv u) (h : EvalChain f t s ps rs s1) (hp : ps.Perm ps') :
    ∃ rs' u1, EvalChain f t u ps' rs' u1 ∧ (ps.zip rs).Perm (ps'.zip rs') := by
  obtain ⟨_, hf⟩ := chain_pointwise hw hs hu h
  have perm : ∃ rs', List.Forall₂ (fun p r => ∃ s0', Evaluates f t p u r s0') ps' rs' ∧
      (ps.zip rs).Perm (ps'.zip rs') := by
    clear h
    induction hp generalizing rs with
    | nil => cases hf; exact ⟨[], .nil, .refl _⟩
    | cons x _ ih =>
      cases hf with
      | cons h hf =>
        obtain ⟨rs', a, b⟩ := ih hf
        exact ⟨_ :: rs', .cons h a, by simpa using b⟩
    | swap x y l =>
      cases hf with
      | cons h hf =>
        cases hf with
        | cons h' hf => exact ⟨_ :: _ :: _, .cons h' (.cons h hf), by simpa using .swap _ _ _⟩
    | trans _ _ ih1 ih2 =>
      obtain ⟨r1, a, b⟩ := ih1 hf
      obtain ⟨r2, a2, b2⟩ := ih2 a
      exact ⟨r2, a2, b.trans b2⟩
  obtain ⟨rs', hf', hz⟩ := perm
  have build : ∀ {ps rs : List (Dict V)} {v : S}, inv v →
      List.Forall₂ (fun p r => ∃ s0', Evaluates f t p u r s0') ps rs → ∃ u1, EvalChain f t v ps rs u1 := by
    intro ps rs v hv hf
    induction hf generalizing v with
    | nil => exact ⟨v, .nil v⟩
    | cons h _ ih =>
      obtain ⟨_, h⟩ := h
      obtain ⟨_, v', e⟩ := eval_unique hw hu hv h
      obtain ⟨iv, _⟩ := eval_unique hw hv hv e
      obtain ⟨u1, hc⟩ := ih iv
      exact ⟨u1, .cons e hc⟩
  obtain ⟨u1, hc⟩ := build hu hf'
  exact ⟨rs', u1, hc, hz⟩

/-- Example: the state is a position, the wiggle function sets it (to the first parameter), the instrument
empties the table it is given and returns a new one, the analysis changes the photons. -/
def exTol : TolFuns ℕ (List ℕ) ℕ where
  wig _ pars := match pars with
    | (_, x) :: _ => .ok x
    | [] => .error .typeError
  instr s t := .ok ([], some (t.map (· + s)), s)
  ana s t := .ok (0 :: t, [("sum", t.sum)], s)

theorem exTol_lastCallWins : LastCallWins exTol (fun _ => True) (fun s => s) where
  wig s s' p _ _ s1 h := by
    refine ⟨trivial, s1, ?_, rfl⟩
    exact h
  instr s s' t _ _ hv t1 new s1 h := by
    cases hv
    exact ⟨trivial, s1, h, rfl⟩
  ana s s' t _ _ hv t1 r s1 h := by
    cases hv
    exact ⟨trivial, s1, h⟩

theorem exTol_dict : exTol.DictResults := by
  intro s t t1 r s1 h
  simp only [exTol, Except.ok.injEq, Prod.mk.injEq] at h
  rw [← h.2.1]
  simp [IsDict]

example : runTolerances exTol 0 [0, 1, 0] 7 ⟨[[1, 2]], [[("dx", 1)], [("dx", 2)]]⟩ =
    .ok ([2, 3, 4], 1, ⟨[[1, 2], [], [0, 2, 3], [], [0, 3, 4], [], [0, 2, 3]],
      [[("dx", 1)], [("dx", 2)], [("dx", 1), ("sum", 5)], [("dx", 2), ("sum", 7)],
        [("dx", 1), ("sum", 5)]]⟩) := by
  simp [runTolerances, tolStep, tolPhotons, storeTable, exTol, dictUpdate, dictSet]

/-- The moves of a `Parallel` object satisfy the condition: state is the container, and the occurring
states are those that differ from the original one only by misalignments. -/
theorem C53_moveglobal_last_call {dec : M4 → Decomp} (c : Par) (e e' e1 : ParState) (p : Dof)
    (h : e.par = { c with uncertainty := e.par.uncertainty })
    (h' : e'.par = { c with uncertainty := e'.par.uncertainty })
    (h1 : moveGlobal dec p e = .ok e1) : moveGlobal dec p e' = .ok e1 := by
  unfold moveGlobal at h1 ⊢
  rw [h] at h1
  rw [h']
  exact h1

/-! ## C80 -/

/-- energies are evaluated one after the other -/
inductive EnergyChain {S T V E : Type} (f : TolFuns S T V) (before : Before S T E) (pars : List (Dict V)) :
    S → List E → List (List (Dict V)) → S → Prop
  | nil (s) : EnergyChain f before pars s [] [] s
  | cons {s s1 s2 s3 e t res es rss} (hb : before s e = .ok (t, s1)) (hc : EvalChain f t s1 pars res s2)
      (hs : EnergyChain f before pars s2 es rss s3) : EnergyChain f before pars s (e :: es) (res :: rss) s3

/-- Row of the result table: parameters, results, energy and wavelength. -/
def IsRow {V : Type} (pars res : Dict V) (energy wave : V) (d : Dict V) : Prop :=
  ∀ k, d.lookup k = if k = "wave" then some wave else if k = "energy" then some energy
    else (res.lookup k).or (pars.lookup k)

theorem chain_length {S T V : Type} {f : TolFuns S T V} {t : T} {s s' : S} {ps rs : List (Dict V)}
    (h : EvalChain f t s ps rs s') : ps.length = rs.length := by
  induction h with
  | nil => rfl
  | cons _ _ ih => simp [ih]

theorem map_getD_of {α : Type} {l : List ℕ} {d : List α} {outs : List α} (x : α)
    (h : l.map (d[·]?) = outs.map some) : l.map (fun q => (d[q]?).getD x) = outs := by
  have := congrArg (List.map (fun o : Option α => o.getD x)) h
  simpa [List.map_map, Function.comp_def] using this

/-- one energy -/
theorem energyStep_ok {S T V E : Type} {f : TolFuns S T V} (hf : f.DictResults) {before : Before S T E}
    {toV waveV : E → V} {ps : List ℕ} {e : E} {s s' : S} {m m' : Mem T V} {rows : List (Dict V)}
    {pars : List (Dict V)} (hpars : ps.map (m.dicts[·]?) = pars.map some)
    (h : energyStep f before toV waveV ps e s m = .ok (rows, s', m')) :
    m.dicts <+: m'.dicts ∧ pars ≠ [] ∧ ∃ t s1 res, before s e = .ok (t, s1) ∧ EvalChain f t s1 pars res s' ∧
      rows.length = pars.length ∧ res.length = pars.length ∧
      ∀ i (h1 : i < pars.length) (h2 : i < res.length) (h3 : i < rows.length),
        IsRow pars[i] res[i] (toV e) (waveV e) rows[i] := by
  unfold energyStep at h
  split at h
  · cases h
  rename_i t s1 hb
  split at h
  · cases h
  rename_i qs s2 m2 hr
  split at h
  · cases h
  rename_i rows' hrows
  cases h
  have hlt : ∀ p ∈ ps, p < m.dicts.length := by
    intro p hp
    have : m.dicts[p]? ∈ pars.map some := by rw [← hpars]; exact List.mem_map.2 ⟨p, hp, rfl⟩
    obtain ⟨x, _, hx⟩ := List.mem_map.1 this
    exact (List.getElem?_eq_some_iff.1 hx.symm).1
  obtain ⟨_, _, c3, pars', res, outs, c4, c5, c6, c7, c8, c9⟩ := C53_results f hf _ ps s1 s' _ m' qs hr
    hlt t (by simp)
  have : pars' = pars := by
    have h2 : pars'.map some = pars.map some := by rw [← hpars]; exact c4.symm
    exact List.map_injective_iff.2 (Option.some_injective _) h2
  subst this
  rw [map_getD_of [] c5] at hrows
  unfold energyRows at hrows
  split at hrows
  · cases hrows
  rename_i hne
  cases hrows
  refine ⟨c3, ?_, t, s1, res, hb, c6, by simp [c8, c7], c7.symm, ?_⟩
  · rintro rfl
    apply hne
    rw [← List.length_eq_zero_iff, c8, ← c7]; rfl
  · intro i h1 h2 h3 k
    simp only [List.getElem_map]
    rw [dictSet_lookup, dictSet_lookup]
    split
    · rfl
    split
    · rfl
    · exact c9 i h1 h2 (by simpa using h3) k

theorem energyLoop_ok {S T V E : Type} {f : TolFuns S T V} (hf : f.DictResults) {before : Before S T E}
    {toV waveV : E → V} {ps : List ℕ} {pars : List (Dict V)} {es : List E} {s s' : S} {m m' : Mem T V}
    {tabs : List (List (Dict V))} (hpars : ps.map (m.dicts[·]?) = pars.map some)
    (h : energyLoop f before toV waveV ps es s m = .ok (tabs, s', m')) :
    (es ≠ [] → pars ≠ []) ∧ ∃ ress, EnergyChain f before pars s es ress s' ∧ tabs.length = es.length ∧
      ress.length = es.length ∧ (∀ tab ∈ tabs, tab.length = pars.length) ∧
      (∀ r ∈ ress, r.length = pars.length) ∧
      ∀ (i j : ℕ) e tab res row p r, es[i]? = some e → tabs[i]? = some tab → ress[i]? = some res →
        tab[j]? = some row → pars[j]? = some p → res[j]? = some r → IsRow p r (toV e) (waveV e) row := by
  induction es generalizing s m tabs with
  | nil =>
    simp only [energyLoop] at h
    cases h
    exact ⟨by simp, [], .nil _, rfl, rfl, by simp, by simp, by simp⟩
  | cons e es ih =>
    simp only [energyLoop] at h
    split at h
    · cases h
    rename_i rows s1 m1 h1
    split at h
    · cases h
    rename_i tabs' s2 m2 h2
    cases h
    obtain ⟨a1, a2, t, u, res, a3, a4, a5, a6, a7⟩ := energyStep_ok hf hpars h1
    have hpars' : ps.map (m1.dicts[·]?) = pars.map some := by
      rw [← hpars]
      apply List.map_congr_left
      intro p hp
      have : m.dicts[p]? ∈ pars.map some := by rw [← hpars]; exact List.mem_map.2 ⟨p, hp, rfl⟩
      obtain ⟨x, _, hx⟩ := List.mem_map.1 this
      rw [← hx, get_prefix a1 hx.symm]
    obtain ⟨_, ress, b1, b2, b3, b4, b5, b6⟩ := ih hpars' h2
    refine ⟨fun _ => a2, res :: ress, .cons a3 a4 b1, by simp [b2], by simp [b3], ?_, ?_, ?_⟩
    · simpa [a5] using b4
    · simpa [a6] using b5
    · intro i j e' tab res' row p r i1 i2 i3 i4 i5 i6
      cases i with
      | zero =>
        simp only [List.getElem?_cons_zero, Option.some.injEq] at i1 i2 i3
        subst i1 i2 i3
        obtain ⟨l4, k4⟩ := List.getElem?_eq_some_iff.1 i4
        obtain ⟨l5, k5⟩ := List.getElem?_eq_some_iff.1 i5
        obtain ⟨l6, k6⟩ := List.getElem?_eq_some_iff.1 i6
        rw [← k4, ← k5, ← k6]
        exact a7 j l5 l6 l4
      | succ i =>
        simp only [List.getElem?_cons_succ] at i1 i2 i3
        exact b6 i j e' tab res' row p r i1 i2 i3 i4 i5 i6

/-- **C80** `run_tolerances_for_energies`: the result has one row for each combination of energy and
parameter set, all sets for the first energy first. For each energy the source and the first part of the
instrument run exactly once, and every parameter set is evaluated with the photons from there. Each row
has the energy and wavelength, the results and the parameters. If a reset is given it is the last call of
the wiggle function, otherwise the elements stay as they are after the last evaluation. -/
theorem C80_rows {S T V E : Type} (f : TolFuns S T V) (hf : f.DictResults) (before : Before S T E)
    (toV waveV : E → V) (es : List E) (ps : List ℕ) (reset : Option (Dict V)) (s s' : S) (m : Mem T V)
    (rows : List (Dict V)) (pars : List (Dict V)) (hpars : ps.map (m.dicts[·]?) = pars.map some)
    (h : runTolerancesForEnergies f before toV waveV es ps reset s m = .ok (rows, s')) :
    es ≠ [] ∧ pars ≠ [] ∧ rows.length = es.length * pars.length ∧
    ∃ ress s1, EnergyChain f before pars s es ress s1 ∧
      (match reset with | none => s' = s1 | some r => f.wig s1 r = .ok s') ∧
      ∀ (i j : ℕ) e res p r, es[i]? = some e → ress[i]? = some res → pars[j]? = some p → res[j]? = some r →
        ∃ row, rows[i * pars.length + j]? = some row ∧ IsRow p r (toV e) (waveV e) row := by
  unfold runTolerancesForEnergies at h
  split at h
  · cases h
  rename_i tabs s1 m1 hl
  split at h
  · cases h
  rename_i s2 hres
  split at h
  · cases h
  rename_i hne
  cases h
  obtain ⟨a0, ress, a1, a2, a3, a4, a5, a6⟩ := energyLoop_ok hf hpars hl
  have hes : es ≠ [] := by
    rintro rfl
    exact hne (List.length_eq_zero_iff.1 a2)
  refine ⟨hes, a0 hes, ?_, ress, s1, a1, ?_, ?_⟩
  · have : ∀ (tabs : List (List (Dict V))), (∀ tab ∈ tabs, tab.length = pars.length) →
        tabs.flatten.length = tabs.length * pars.length := by
      intro tabs ht
      induction tabs with
      | nil => simp
      | cons t ts ih =>
        rw [List.flatten_cons, List.length_append, ih (fun x hx => ht x (by simp [hx])), ht t (by simp),
          List.length_cons]; ring
    rw [this tabs a4, a2]
  · cases reset with
    | none => simp only [doReset] at hres; cases hres; rfl
    | some r => exact hres
  · intro i j e res p r i1 i2 i3 i4
    have hi : i < tabs.length := by rw [a2]; exact (List.getElem?_eq_some_iff.1 i1).1
    have ht := List.getElem?_eq_getElem hi
    have hj : j < tabs[i].length := by
      rw [a4 _ (List.getElem_mem hi)]; exact (List.getElem?_eq_some_iff.1 i3).1
    refine ⟨tabs[i][j], ?_, a6 i j e _ res _ p r i1 ht i2 (List.getElem?_eq_getElem hj) i3 i4⟩
    have flat : ∀ (tabs : List (List (Dict V))), (∀ tab ∈ tabs, tab.length = pars.length) →
        ∀ i (hi : i < tabs.length) (hj : j < tabs[i].length),
        tabs.flatten[i * pars.length + j]? = some tabs[i][j] := by
      intro tabs ht
      induction tabs with
      | nil => intro i hi; simp at hi
      | cons t ts ih =>
        intro i hi hj
        have lt := ht t (by simp)
        rw [List.flatten_cons]
        cases i with
        | zero =>
          simp only [List.getElem_cons_zero] at hj
          rw [Nat.zero_mul, Nat.zero_add, List.getElem?_append_left hj]
          exact List.getElem?_eq_getElem hj
        | succ i =>
          rw [List.getElem?_append_right (by rw [lt, Nat.succ_mul]; omega),
            show (i + 1) * pars.length + j - t.length = i * pars.length + j by
              rw [lt, Nat.succ_mul]; omega]
          exact ih (fun x hx => ht x (by simp [hx])) i (by simpa using hi) (by simpa using hj)
    exact flat tabs a4 i hi hj

/-- **C80** No energies or no parameter sets: an exception, never an empty table. -/
theorem C80_empty {S T V E : Type} (f : TolFuns S T V) (hf : f.DictResults) (before : Before S T E)
    (toV waveV : E → V) (es : List E) (ps : List ℕ) (reset : Option (Dict V)) (s : S) (m : Mem T V)
    (hps : ∀ p ∈ ps, p < m.dicts.length) (h : es = [] ∨ ps = []) :
    ∃ x, runTolerancesForEnergies f before toV waveV es ps reset s m = .error x := by
  cases hr : runTolerancesForEnergies f before toV waveV es ps reset s m with
  | error x => exact ⟨x, rfl⟩
  | ok r =>
    obtain ⟨rows, s'⟩ := r
    have : ∃ pars : List (Dict V), ps.map (m.dicts[·]?) = pars.map some := by
      refine ⟨ps.map (fun p => (m.dicts[p]?).getD []), ?_⟩
      rw [List.map_map]
      apply List.map_congr_left
      intro p hp
      simp [List.getElem?_eq_getElem (hps p hp)]
    obtain ⟨pars, hpars⟩ := this
    obtain ⟨a, b, _⟩ := C80_rows f hf before toV waveV es ps reset s s' m rows pars hpars hr
    rcases h with h | rfl
    · exact absurd h a
    · exact absurd (List.map_eq_nil_iff.1 hpars.symm) b

/-- **C80** After a run with reset the instrument is in the same condition as after a reset of the
instrument before the run, if only the last call of the wiggle function matters. -/
theorem C80_reset {S T V E O : Type} {f : TolFuns S T V} (hf : f.DictResults) {inv : S → Prop} {view : S → O}
    (hw : LastCallWins f inv view) {before : Before S T E}
    (hb : ∀ s e t s1, inv s → before s e = .ok (t, s1) → inv s1)
    {toV waveV : E → V} {es : List E} {ps : List ℕ} {reset : Dict V} {s s' s0 : S} {m : Mem T V}
    {rows : List (Dict V)} (hps : ∀ p ∈ ps, p < m.dicts.length) (hs : inv s)
    (h : runTolerancesForEnergies f before toV waveV es ps (some reset) s m = .ok (rows, s'))
    (h0 : f.wig s reset = .ok s0) : view s' = view s0 := by
  have : ∃ pars : List (Dict V), ps.map (m.dicts[·]?) = pars.map some := by
    refine ⟨ps.map (fun p => (m.dicts[p]?).getD []), ?_⟩
    rw [List.map_map]
    apply List.map_congr_left
    intro p hp
    simp [List.getElem?_eq_getElem (hps p hp)]
  obtain ⟨pars, hpars⟩ := this
  obtain ⟨-, -, -, ress, s1, hc, hr, -⟩ := C80_rows f hf before toV waveV es ps _ s s' m rows pars hpars h
  have : inv s1 := by
    clear hr h h0
    induction hc with
    | nil => exact hs
    | cons hb' hc' _ ih =>
      have i1 := hb _ _ _ _ hs hb'
      have i2 := (chain_pointwise hw i1 i1 hc').1
      exact ih i2
  obtain ⟨_, x, hx, hv⟩ := hw.wig s s1 reset hs this s0 h0
  simp only at hr
  rw [hr] at hx
  cases hx
  exact hv.symm

example : ∃ rows, runTolerancesForEnergies exTol (fun s e => .ok ([e], s)) (fun e : ℕ => e) (fun e => 12 * e)
    [3, 4] [0, 1] (some [("dx", 0)]) 7 ⟨[[1, 2]], [[("dx", 1)], [("dx", 2)]]⟩ = .ok (rows, 0) ∧
    rows = [[("dx", 1), ("sum", 4), ("energy", 3), ("wave", 36)], [("dx", 2), ("sum", 5), ("energy", 3), ("wave", 36)],
      [("dx", 1), ("sum", 5), ("energy", 4), ("wave", 48)], [("dx", 2), ("sum", 6), ("energy", 4), ("wave", 48)]] := by
  refine ⟨_, ?_, rfl⟩
  simp [runTolerancesForEnergies, energyLoop, energyStep, energyRows, doReset, runTolerances, tolStep,
    tolPhotons, storeTable, exTol, dictUpdate, dictSet]

/-! ## C79 -/

theorem eocList_append {C : Type} (m : C → Bool) (a b : List (Elt C)) :
    elementsOfClassList m (a ++ b) = elementsOfClassList m a ++ elementsOfClassList m b := by
  induction a with
  | nil => simp [elementsOfClassList]
  | cons e es ih => simp [elementsOfClassList, ih, List.append_assoc]

theorem eocList_nil {C : Type} (m : C → Bool) (a : List (Elt C)) (h : ∀ e ∈ a, ¬ e.Contains m) :
    elementsOfClassList m a = [] := by
  induction a with
  | nil => rfl
  | cons e es ih =>
    have h1 := h e (by simp)
    have h2 : ¬ (m e.cls = true ∨ (e.elementsOfClass m false).length > 0) :=
      fun x => h1 ((contains_iff m e []).1 x)
    rw [not_or] at h2
    have h3 : e.elementsOfClass m false = [] := by
      rw [← List.length_eq_zero_iff]; omega
    simp [elementsOfClassList, h2.1, h3, ih (fun e he => h e (by simp [he]))]

/-- **C79, full statement**: `run_tolerances_for_energies2` splits the instrument in front of the first
element with an object of the class (or, on request, of a subclass), and wiggles all these objects. -/
def C79_statement : Prop :=
  ∀ (C : Type) (eq sub : C → Bool) (subclassOk : Bool) (c : C) (i : ℕ) (es b r parts : List (Elt C)),
    (∀ x, eq x = true → sub x = true) → sub c = false →
    energies2Plan eq sub subclassOk (.cont c i es) es = .ok (b, r, parts) →
    b ++ r = es ∧ (∀ e ∈ b, ¬ e.Contains (if subclassOk then sub else eq)) ∧ parts ≠ [] ∧
    parts = ((walkList [] r).filter (fun x => (if subclassOk then sub else eq) x.2.cls &&
      x.1.all (fun a => !(if subclassOk then sub else eq) a.cls))).map (·.2)

/-- **C79** (partial) The statement holds for `subclass_ok=False`: no photon passes a wiggled object before
the split, and all wiggled objects are in the second part. Missing: `subclass_ok=True`, where it is false
(`C79_subclass_false`). -/
theorem C79_split_partial {C : Type} (eq sub : C → Bool) (c : C) (i : ℕ) (es b r parts : List (Elt C))
    (hc : eq c = false) (h : energies2Plan eq sub false (.cont c i es) es = .ok (b, r, parts)) :
    b ++ r = es ∧ (∀ e ∈ b, ¬ e.Contains eq) ∧ parts ≠ [] ∧
    parts = ((walkList [] r).filter (fun x => eq x.2.cls && x.1.all (fun a => !eq a.cls))).map (·.2) := by
  simp only [energies2Plan, Bool.false_eq_true, if_false] at h
  split at h
  · cases h
  rename_i ind hi
  cases h
  obtain ⟨⟨e, he, hce⟩, hb⟩ := (C05_first_index eq es ind).1 hi
  have hp : (Elt.cont c i es).elementsOfClass eq false = elementsOfClassList eq (es.drop ind) := by
    have : (Elt.cont c i es).elementsOfClass eq false = elementsOfClassList eq es := by
      simp [Elt.elementsOfClass, hc]
    rw [this]
    conv_lhs => rw [← List.take_append_drop ind es]
    rw [eocList_append, eocList_nil eq _ hb, List.nil_append]
  refine ⟨List.take_append_drop _ _, hb, ?_, ?_⟩
  · rw [hp]
    have hmem : e ∈ es.drop ind := by
      rw [List.mem_iff_getElem?]
      exact ⟨0, by rw [List.getElem?_drop]; simpa using he⟩
    have : (elementsOfClassList eq (es.drop ind)).length > 0 := by
      rw [containsList_iff eq _ []]
      obtain ⟨x, hx, hx'⟩ := hce
      refine ⟨x, ?_, hx'⟩
      have wl : ∀ (l : List (Elt C)), e ∈ l → ∀ y ∈ e.walk [], y ∈ walkList [] l := by
        intro l
        induction l with
        | nil => simp
        | cons a l ih =>
          intro he y hy
          simp only [walkList, List.mem_append]
          rcases List.mem_cons.1 he with rfl | he
          · exact Or.inl hy
          · exact Or.inr (ih he y hy)
      exact wl _ hmem x hx
    intro h0
    rw [h0] at this
    simp at this
  · rw [hp]
    exact eoc_walkList eq (es.drop ind) [] (by simp)

/-- **C79** Exactly if there is no object of the class there is an exception. -/
theorem C79_not_found {C : Type} (eq sub : C → Bool) (ok : Bool) (root : Elt C) (es : List (Elt C)) :
    (∃ x, energies2Plan eq sub ok root es = .error x) ↔
      ∀ e ∈ es, ¬ e.Contains (if ok then sub else eq) := by
  rw [← C05_none]
  unfold energies2Plan
  split
  · rename_i h; simp [h]
  · rename_i h; simp [h]

/-- **C79** With `subclass_ok=True` the objects of subclasses are found to split the instrument, but they
are not wiggled. If there are only objects of subclasses nothing is wiggled at all, and no error is
raised. -/
theorem C79_subclass_false : ¬ C79_statement := by
  intro h
  have := (h ℕ (fun c => c == 1) (fun c => c == 1 || c == 2) true 0 0 [.leaf 2 5] [] [.leaf 2 5] []
    (by intro x hx; simp at hx; simp [hx]) (by simp)
    (by simp [energies2Plan, firstOfClass, Elt.cls, Elt.elementsOfClass, elementsOfClassList])).2.2.1
  exact this rfl

example : energies2Plan (fun c => c == 1) (fun c => c == 1) false
    (.cont 0 0 [.leaf 3 1, .cont 0 2 [.leaf 1 3, .leaf 4 4], .leaf 1 5])
    [.leaf 3 1, .cont 0 2 [.leaf 1 3, .leaf 4 4], .leaf 1 5] =
      .ok ([.leaf 3 1], [.cont 0 2 [.leaf 1 3, .leaf 4 4], .leaf 1 5], [.leaf 1 3, .leaf 1 5]) := by
  simp [energies2Plan, firstOfClass, Elt.cls, Elt.elementsOfClass, elementsOfClassList]

/-! ## C81 -/

/-- **C81** `varyattribute` never adds an attribute: afterwards the object has exactly the attributes it
had before, also if the call fails. -/
theorem C81_no_new_attribute {V : Type} (attrs kw : Dict V) :
    (varyAttribute attrs kw).1.map Prod.fst = attrs.map Prod.fst := by
  induction kw generalizing attrs with
  | nil => rfl
  | cons a kw ih =>
    obtain ⟨k, v⟩ := a
    simp only [varyAttribute]
    split
    · rename_i hk
      rw [ih]
      unfold dictSet
      rw [if_pos hk, List.map_map]
      apply List.map_congr_left
      intro p _
      simp only [Function.comp]
      split <;> simp_all
    · rfl

/-- **C81** The call works exactly if all names exist, otherwise it is a `ValueError`. -/
theorem C81_error_iff {V : Type} (attrs kw : Dict V) :
    ((varyAttribute attrs kw).2 = none ↔ ∀ p ∈ kw, p.1 ∈ attrs.map Prod.fst) ∧
    ((varyAttribute attrs kw).2 = none ∨ (varyAttribute attrs kw).2 = some .valueError) := by
  induction kw generalizing attrs with
  | nil => simp [varyAttribute]
  | cons a kw ih =>
    obtain ⟨k, v⟩ := a
    simp only [varyAttribute]
    split
    · rename_i hk
      have hm : (dictSet attrs k v).map Prod.fst = attrs.map Prod.fst := by
        unfold dictSet
        rw [if_pos hk, List.map_map]
        apply List.map_congr_left
        intro p _
        simp only [Function.comp]
        split <;> simp_all
      obtain ⟨i1, i2⟩ := ih (dictSet attrs k v)
      refine ⟨?_, i2⟩
      rw [i1, hm]
      simp only [List.mem_cons, forall_eq_or_imp]
      exact ⟨fun h => ⟨hk, h⟩, fun h => h.2⟩
    · rename_i hk
      simp only [reduceCtorEq, false_iff, List.mem_cons, forall_eq_or_imp, not_and, or_true, and_true]
      exact fun h => absurd h hk

/-- **C81** If it works, the named attributes have the new values and all others are untouched. -/
theorem C81_values {V : Type} (attrs kw : Dict V) (hkw : IsDict kw)
    (h : (varyAttribute attrs kw).2 = none) (k : String) :
    (varyAttribute attrs kw).1.lookup k = (kw.lookup k).or (attrs.lookup k) := by
  have : ∀ attrs : Dict V, (varyAttribute attrs kw).2 = none →
      (varyAttribute attrs kw).1 = dictUpdate attrs kw := by
    clear h hkw
    induction kw with
    | nil => intro attrs _; rfl
    | cons a kw ih =>
      intro attrs h
      obtain ⟨k, v⟩ := a
      simp only [varyAttribute] at h ⊢
      split at h
      · rename_i hk
        rw [if_pos hk, ih _ h]; rfl
      · cases h
  rw [this attrs h, dictUpdate_lookup _ _ hkw]

/-- **C81** A misspelled name in the middle leaves the object half changed. -/
theorem C81_half_done :
    varyAttribute [("d", 1), ("order", 2)] [("d", 5), ("ordre", 6), ("order", 7)] =
      ([("d", 5), ("order", 2)], some .valueError) := by
  simp [varyAttribute, dictSet]

example : (varyAttribute [("d", 1), ("order", 2)] [("order", 7)]).2 = none := by
  simp [varyAttribute, dictSet]

end Marxs
