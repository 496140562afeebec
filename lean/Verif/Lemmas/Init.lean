import Verif.Spec.Init

/-!
# Keywords of the constructors: lemmas
-/

namespace Marxs
open Classical

variable {V : Type}

/-! ## What happens to one keyword -/

/-- Whether a keyword is in the dictionary after the statement (`none`: error). Used in proofs only. -/
def BaseOp.key (o : BaseOp) (k : Key) (b : Bool) : Option Bool :=
  match o with
  | .pop k' miss => if k' = k then (if b then some false else if miss.isSome then none else some false) else some b
  | .popIf k' => if k' = k then some false else some b
  | .set k' => if k' = k then some true else some b
  | .setDefault k' => if k' = k then some true else some b
  | .give k' => if k' = k then (if b then none else some true) else some b
  | .posClash => some b
  | .fail _ => none

/-- The same for a list of statements. -/
def keyRun : List BaseOp → Key → Bool → Option Bool
  | [], _, b => some b
  | o :: os, k, b => (o.key k b).bind (keyRun os k)

/-- Where a value comes from: `true` for the value given by the user at the start. -/
def BaseOp.track (o : BaseOp) (k : Key) (t : Option Bool × Bool) : Option Bool × Bool :=
  match o with
  | .pop k' _ => if k' = k then (none, t.1.getD false) else t
  | .popIf k' => if k' = k then (none, t.1.getD t.2) else t
  | .set k' => if k' = k then (some false, t.2) else t
  | .setDefault k' => if k' = k then (some (t.1.getD false), t.2) else t
  | .give k' => if k' = k then (some false, t.2) else t
  | .posClash => t
  | .fail _ => t

/-- The same for a list of statements. -/
def trackRun (os : List BaseOp) (k : Key) (t : Option Bool × Bool) : Option Bool × Bool :=
  os.foldl (fun t o => o.track k t) t

theorem key_exact {o : BaseOp} {s s' : InitState V} (h : o.run s = .ok s') (k : Key) :
    o.key k (s.kw k).isSome = some (s'.kw k).isSome := by
  cases o with
  | pop k' miss =>
    simp only [BaseOp.run] at h
    by_cases hk : k' = k
    · subst hk
      cases hv : s.kw k' with
      | some v => rw [hv] at h; cases h; simp [BaseOp.key]
      | none =>
        rw [hv] at h
        cases miss with
        | some e => simp at h
        | none => simp at h; rw [← h]; simp [BaseOp.key, hv]
    · cases hv : s.kw k' with
      | some v => rw [hv] at h; cases h; simp [BaseOp.key, hk, Ne.symm hk, Function.update_of_ne (Ne.symm hk)]
      | none =>
        rw [hv] at h
        cases miss with
        | some e => simp at h
        | none => simp at h; rw [← h]; simp [BaseOp.key, hk]
  | popIf k' =>
    simp only [BaseOp.run] at h
    by_cases hk : k' = k
    · subst hk
      cases hv : s.kw k' with
      | some v => rw [hv] at h; cases h; simp [BaseOp.key]
      | none => rw [hv] at h; simp at h; rw [← h]; simp [BaseOp.key, hv]
    · cases hv : s.kw k' with
      | some v => rw [hv] at h; cases h; simp [BaseOp.key, hk, Function.update_of_ne (Ne.symm hk)]
      | none => rw [hv] at h; simp at h; rw [← h]; simp [BaseOp.key, hk]
  | set k' =>
    simp only [BaseOp.run, Except.ok.injEq] at h
    rw [← h]
    by_cases hk : k' = k
    · subst hk; simp [BaseOp.key]
    · simp [BaseOp.key, hk, Function.update_of_ne (Ne.symm hk)]
  | setDefault k' =>
    simp only [BaseOp.run] at h
    by_cases hk : k' = k
    · subst hk
      cases hv : s.kw k' with
      | some v => rw [hv] at h; simp at h; rw [← h]; simp [BaseOp.key, hv]
      | none => rw [hv] at h; simp at h; rw [← h]; simp [BaseOp.key]
    · cases hv : s.kw k' with
      | some v => rw [hv] at h; simp at h; rw [← h]; simp [BaseOp.key, hk]
      | none => rw [hv] at h; simp at h; rw [← h]; simp [BaseOp.key, hk, Function.update_of_ne (Ne.symm hk)]
  | give k' =>
    simp only [BaseOp.run] at h
    by_cases hk : k' = k
    · subst hk
      cases hv : s.kw k' with
      | some v => rw [hv] at h; simp at h
      | none => rw [hv] at h; simp at h; rw [← h]; simp [BaseOp.key]
    · cases hv : s.kw k' with
      | some v => rw [hv] at h; simp at h
      | none => rw [hv] at h; simp at h; rw [← h]; simp [BaseOp.key, hk, Function.update_of_ne (Ne.symm hk)]
  | posClash =>
    simp only [BaseOp.run] at h
    split at h
    · simp at h
    · simp at h; rw [← h]; simp [BaseOp.key]
  | fail e => simp [BaseOp.run] at h

theorem keyRun_exact : ∀ (os : List BaseOp) {s s' : InitState V}, runBase os s = .ok s' → ∀ k,
    keyRun os k (s.kw k).isSome = some (s'.kw k).isSome := by
  intro os
  induction os with
  | nil => intro s s' h k; simp only [runBase, Except.ok.injEq] at h; rw [← h]; rfl
  | cons o os ih =>
    intro s s' h k
    rw [runBase] at h
    cases ho : o.run s with
    | error e => rw [ho] at h; simp at h
    | ok s1 =>
      rw [ho] at h
      rw [keyRun, key_exact ho k, Option.bind_some]
      exact ih h k

/-- Value that belongs to an entry of `track`. -/
def srcOf (v : Src V) : Bool → Src V
  | true => v
  | false => .byClass

theorem track_exact {o : BaseOp} {s s' : InitState V} (h : o.run s = .ok s') (k : Key) (v : Src V) (t : Option Bool × Bool)
    (h1 : s.kw k = t.1.map (srcOf v)) (h2 : s.obj k = srcOf v t.2) :
    s'.kw k = (o.track k t).1.map (srcOf v) ∧ s'.obj k = srcOf v (o.track k t).2 := by
  cases o with
  | pop k' miss =>
    simp only [BaseOp.run] at h
    by_cases hk : k' = k
    · subst hk
      cases hv : s.kw k' with
      | some w =>
        rw [hv] at h h1; cases h
        cases ht : t.1 with
        | none => rw [ht] at h1; simp at h1
        | some b => rw [ht] at h1; simp at h1; simp [BaseOp.track, ht, h1]
      | none =>
        rw [hv] at h h1
        have ht : t.1 = none := by cases ht : t.1 with
          | none => rfl
          | some b => rw [ht] at h1; simp at h1
        cases miss with
        | some e => simp at h
        | none => simp at h; rw [← h]; simp [BaseOp.track, ht, hv, srcOf]
    · cases hv : s.kw k' with
      | some w => rw [hv] at h; cases h; simp [BaseOp.track, hk, Function.update_of_ne (Ne.symm hk), h1, h2]
      | none =>
        rw [hv] at h
        cases miss with
        | some e => simp at h
        | none => simp at h; rw [← h]; simp [BaseOp.track, hk, Function.update_of_ne (Ne.symm hk), h1, h2]
  | popIf k' =>
    simp only [BaseOp.run] at h
    by_cases hk : k' = k
    · subst hk
      cases hv : s.kw k' with
      | some w =>
        rw [hv] at h h1; cases h
        cases ht : t.1 with
        | none => rw [ht] at h1; simp at h1
        | some b => rw [ht] at h1; simp at h1; simp [BaseOp.track, ht, h1]
      | none =>
        rw [hv] at h h1
        have ht : t.1 = none := by cases ht : t.1 with
          | none => rfl
          | some b => rw [ht] at h1; simp at h1
        simp at h; rw [← h]; simp [BaseOp.track, ht, hv, h2]
    · cases hv : s.kw k' with
      | some w => rw [hv] at h; cases h; simp [BaseOp.track, hk, Function.update_of_ne (Ne.symm hk), h1, h2]
      | none => rw [hv] at h; simp at h; rw [← h]; simp [BaseOp.track, hk, h1, h2]
  | set k' =>
    simp only [BaseOp.run, Except.ok.injEq] at h
    rw [← h]
    by_cases hk : k' = k
    · subst hk; simp [BaseOp.track, srcOf, h2]
    · simp [BaseOp.track, hk, Function.update_of_ne (Ne.symm hk), h1, h2]
  | setDefault k' =>
    simp only [BaseOp.run] at h
    by_cases hk : k' = k
    · subst hk
      cases hv : s.kw k' with
      | some w =>
        rw [hv] at h h1; simp at h; rw [← h]
        cases ht : t.1 with
        | none => rw [ht] at h1; simp at h1
        | some b => rw [ht] at h1; simp at h1; simp [BaseOp.track, ht, h1, h2, hv]
      | none =>
        rw [hv] at h h1
        have ht : t.1 = none := by cases ht : t.1 with
          | none => rfl
          | some b => rw [ht] at h1; simp at h1
        simp at h; rw [← h]; simp [BaseOp.track, ht, h2, srcOf]
    · cases hv : s.kw k' with
      | some w => rw [hv] at h; simp at h; rw [← h]; simp [BaseOp.track, hk, h1, h2]
      | none => rw [hv] at h; simp at h; rw [← h]; simp [BaseOp.track, hk, Function.update_of_ne (Ne.symm hk), h1, h2]
  | give k' =>
    simp only [BaseOp.run] at h
    by_cases hk : k' = k
    · subst hk
      cases hv : s.kw k' with
      | some w => rw [hv] at h; simp at h
      | none => rw [hv] at h; simp at h; rw [← h]; simp [BaseOp.track, h2, srcOf]
    · cases hv : s.kw k' with
      | some w => rw [hv] at h; simp at h
      | none => rw [hv] at h; simp at h; rw [← h]; simp [BaseOp.track, hk, Function.update_of_ne (Ne.symm hk), h1, h2]
  | posClash =>
    simp only [BaseOp.run] at h
    split at h
    · simp at h
    · simp at h; rw [← h]; simp [BaseOp.track, h1, h2]
  | fail e => simp [BaseOp.run] at h

theorem trackRun_exact : ∀ (os : List BaseOp) {s s' : InitState V}, runBase os s = .ok s' → ∀ k v (t : Option Bool × Bool),
    s.kw k = t.1.map (srcOf v) → s.obj k = srcOf v t.2 → s'.obj k = srcOf v (trackRun os k t).2 := by
  intro os
  induction os with
  | nil => intro s s' h k v t _ h2; simp only [runBase, Except.ok.injEq] at h; rw [← h]; exact h2
  | cons o os ih =>
    intro s s' h k v t h1 h2
    rw [runBase] at h
    cases ho : o.run s with
    | error e => rw [ho] at h; simp at h
    | ok s1 =>
      rw [ho] at h
      obtain ⟨g1, g2⟩ := track_exact ho k v t h1 h2
      exact ih h k v _ g1 g2

/-! ## Constructors that do not fail -/

/-- No statement writes keywords for the place into the dictionary. -/
def BaseOp.noPlace : BaseOp → Bool
  | .set k | .setDefault k | .give k => !placeKeys.contains k
  | _ => true

theorem run_total {o : BaseOp} {s : InitState V} (h : ∀ k, o.key k (s.kw k).isSome ≠ none)
    (hp : ¬ ((s.kw .pos4d).isSome ∧ ((s.kw .position).isSome ∨ (s.kw .orientation).isSome ∨ (s.kw .zoom).isSome))) :
    ∃ s', o.run s = .ok s' := by
  cases o with
  | pop k miss =>
    have := h k
    cases hv : s.kw k with
    | some v => exact ⟨_, by simp only [BaseOp.run, hv]; rfl⟩
    | none =>
      cases miss with
      | some e => simp [BaseOp.key, hv] at this
      | none => exact ⟨_, by simp only [BaseOp.run, hv]; rfl⟩
  | popIf k =>
    cases hv : s.kw k with
    | some v => exact ⟨_, by simp only [BaseOp.run, hv]; rfl⟩
    | none => exact ⟨_, by simp only [BaseOp.run, hv]; rfl⟩
  | set k => exact ⟨_, rfl⟩
  | setDefault k =>
    cases hv : s.kw k with
    | some v => exact ⟨_, by simp only [BaseOp.run, hv]; rfl⟩
    | none => exact ⟨_, by simp only [BaseOp.run, hv]; rfl⟩
  | give k =>
    have := h k
    cases hv : s.kw k with
    | some v => simp [BaseOp.key, hv] at this
    | none => exact ⟨_, by simp only [BaseOp.run, hv]; rfl⟩
  | posClash => exact ⟨s, by simp only [BaseOp.run]; rw [if_neg hp]⟩
  | fail e => exact absurd rfl (h .name)

theorem run_place {o : BaseOp} (hn : o.noPlace = true) {s s' : InitState V} (h : o.run s = .ok s') {k : Key}
    (hk : k ∈ placeKeys) : (s'.kw k).isSome → (s.kw k).isSome := by
  intro h'
  have := key_exact h k
  by_contra hc
  simp only [Bool.not_eq_true] at hc
  rw [hc, h'] at this
  cases o with
  | pop k' miss => simp only [BaseOp.key] at this; split at this <;> simp_all
  | popIf k' => simp only [BaseOp.key] at this; split at this <;> simp_all
  | set k' =>
    simp only [BaseOp.key] at this
    split at this
    · rename_i e; subst e; simp [BaseOp.noPlace, hk] at hn
    · simp at this
  | setDefault k' =>
    simp only [BaseOp.key] at this
    split at this
    · rename_i e; subst e; simp [BaseOp.noPlace, hk] at hn
    · simp at this
  | give k' =>
    simp only [BaseOp.key] at this
    split at this
    · rename_i e; subst e; simp [BaseOp.noPlace, hk] at hn
    · simp at this
  | posClash => simp [BaseOp.key] at this
  | fail e => simp [BaseOp.key] at this

theorem runBase_total : ∀ (os : List BaseOp) {s : InitState V}, (∀ o ∈ os, o.noPlace = true) →
    (∀ k, keyRun os k (s.kw k).isSome ≠ none) →
    ¬ ((s.kw .pos4d).isSome ∧ ((s.kw .position).isSome ∨ (s.kw .orientation).isSome ∨ (s.kw .zoom).isSome)) →
    ∃ s', runBase os s = .ok s' := by
  intro os
  induction os with
  | nil => intro s _ _ _; exact ⟨s, rfl⟩
  | cons o os ih =>
    intro s hn h hp
    obtain ⟨s1, h1⟩ := run_total (o := o) (s := s) (fun k hk => h k (by rw [keyRun, hk]; rfl)) hp
    have hpl : ∀ {k}, k ∈ placeKeys → (s1.kw k).isSome → (s.kw k).isSome := fun hk => run_place (hn o (by simp)) h1 hk
    obtain ⟨s2, h2⟩ := ih (s := s1) (fun o ho => hn o (by simp [ho]))
      (fun k hk => h k (by rw [keyRun, key_exact h1 k, Option.bind_some]; exact hk))
      (fun hc => hp ⟨hpl (by simp [placeKeys]) hc.1, hc.2.imp (hpl (by simp [placeKeys]))
        (Or.imp (hpl (by simp [placeKeys])) (hpl (by simp [placeKeys])))⟩)
    exact ⟨s2, by rw [runBase, h1]; exact h2⟩

/-! ## The geometry -/

/-- Statements with the geometry filled in: the first one is made as requested, later ones with their default, because the
keyword is gone. -/
def resolve : Option GeomArg → List InitOp → List BaseOp
  | _, [] => []
  | g, .base o :: os => o :: resolve g os
  | g, .geom dflt :: os => geomOps (g.getD (.cls dflt)) ++ resolve none os

/-- Keyword of a statement. -/
def BaseOp.keyOf : BaseOp → Option Key
  | .pop k _ | .popIf k | .set k | .setDefault k | .give k => some k
  | .posClash | .fail _ => none

theorem runBase_append : ∀ (os os' : List BaseOp) (s : InitState V), runBase (os ++ os') s =
    match runBase os s with
    | .error e => .error e
    | .ok s' => runBase os' s' := by
  intro os
  induction os with
  | nil => intro os' s; rfl
  | cons o os ih =>
    intro os' s
    rw [List.cons_append, runBase, runBase]
    cases o.run s with
    | error e => rfl
    | ok s' => exact ih os' s'

theorem run_other {o : BaseOp} {s s' : InitState V} (h : o.run s = .ok s') {k : Key} (hk : o.keyOf ≠ some k) :
    s'.kw k = s.kw k := by
  cases o with
  | pop k' miss =>
    have hk' : k ≠ k' := by simpa [BaseOp.keyOf, eq_comm] using hk
    simp only [BaseOp.run] at h
    cases hv : s.kw k' with
    | some v => rw [hv] at h; cases h; simp [Function.update_of_ne hk']
    | none =>
      rw [hv] at h
      cases miss with
      | some e => simp at h
      | none => simp at h; rw [← h]
  | popIf k' =>
    have hk' : k ≠ k' := by simpa [BaseOp.keyOf, eq_comm] using hk
    simp only [BaseOp.run] at h
    cases hv : s.kw k' with
    | some v => rw [hv] at h; cases h; simp [Function.update_of_ne hk']
    | none => rw [hv] at h; simp at h; rw [← h]
  | set k' =>
    have hk' : k ≠ k' := by simpa [BaseOp.keyOf, eq_comm] using hk
    simp only [BaseOp.run, Except.ok.injEq] at h
    rw [← h]; simp [Function.update_of_ne hk']
  | setDefault k' =>
    have hk' : k ≠ k' := by simpa [BaseOp.keyOf, eq_comm] using hk
    simp only [BaseOp.run] at h
    cases hv : s.kw k' with
    | some v => rw [hv] at h; simp at h; rw [← h]
    | none => rw [hv] at h; simp at h; rw [← h]; simp [Function.update_of_ne hk']
  | give k' =>
    have hk' : k ≠ k' := by simpa [BaseOp.keyOf, eq_comm] using hk
    simp only [BaseOp.run] at h
    cases hv : s.kw k' with
    | some v => rw [hv] at h; simp at h
    | none => rw [hv] at h; simp at h; rw [← h]; simp [Function.update_of_ne hk']
  | posClash =>
    simp only [BaseOp.run] at h
    split at h
    · simp at h
    · simp at h; rw [← h]
  | fail e => simp [BaseOp.run] at h

theorem geom_gone {g : GeomArg} {s s' : InitState V} (h : runBase (geomOps g) s = .ok s') : s'.kw .geometry = none := by
  have := keyRun_exact _ h .geometry
  cases hb : (s.kw .geometry).isSome <;> rw [hb] at this <;> cases hs : (s'.kw .geometry).isSome
  · simpa using hs
  · rw [hs] at this
    rcases g with _ | g | _
    · exact absurd this (by decide)
    · cases g <;> exact absurd this (by decide)
    · exact absurd this (by decide)
  · simpa using hs
  · rw [hs] at this
    rcases g with _ | g | _
    · exact absurd this (by decide)
    · cases g <;> exact absurd this (by decide)
    · exact absurd this (by decide)

theorem resolve_ok (kind : V → GeomArg) : ∀ (os : List InitOp) (s : InitState V) (g : Option GeomArg),
    (∀ d, geomArg kind d s = g.getD (.cls d)) → (∀ o, .base o ∈ os → o.keyOf ≠ some .geometry) →
    runInit kind os s = runBase (resolve g os) s := by
  intro os
  induction os with
  | nil => intro s g _ _; rfl
  | cons o os ih =>
    intro s g hg hk
    cases o with
    | base o =>
      rw [runInit, resolve, runBase]
      cases ho : o.run s with
      | error e => rfl
      | ok s' =>
        refine ih s' g (fun d => ?_) fun o ho => hk o (by simp [ho])
        rw [← hg d, geomArg, geomArg, run_other ho (hk o (by simp))]
    | geom d =>
      rw [runInit, resolve, runBase_append, hg d]
      cases ho : runBase (geomOps (g.getD (.cls d))) s with
      | error e => rfl
      | ok s' =>
        refine ih s' none (fun d => ?_) fun o ho => hk o (by simp [ho])
        rw [geomArg, geom_gone ho]
        rfl

/-! ## The tables agree with the code -/

/-- Keywords of all statements. -/
def touchedKeys (os : List BaseOp) : List Key := os.filterMap BaseOp.keyOf

theorem keyRun_cons_untouched {o : BaseOp} {os : List BaseOp} {k : Key} (hk : o.keyOf ≠ some k) (b : Bool) :
    keyRun (o :: os) k b = none ∨ keyRun (o :: os) k b = keyRun os k b := by
  cases o <;> simp_all [BaseOp.keyOf, keyRun, BaseOp.key]

theorem keyRun_untouched : ∀ (os : List BaseOp) {k : Key}, k ∉ touchedKeys os → ∀ b,
    keyRun os k b = none ∨ keyRun os k b = some b := by
  intro os
  induction os with
  | nil => intro k _ b; exact .inr rfl
  | cons o os ih =>
    intro k hk b
    have h1 : o.keyOf ≠ some k := by
      intro e; apply hk; simp [touchedKeys, List.filterMap_cons, e]
    have h2 : k ∉ touchedKeys os := by
      intro e; apply hk
      simp only [touchedKeys, List.mem_filterMap] at e ⊢
      obtain ⟨o', ho, e⟩ := e
      exact ⟨o', by simp [ho], e⟩
    rcases keyRun_cons_untouched (os := os) h1 b with h | h
    · exact .inl h
    · rw [h]; exact ih h2 b

theorem keyRun_no_fail : ∀ (os : List BaseOp) {k : Key}, k ∉ touchedKeys os → (∀ e, BaseOp.fail e ∉ os) → ∀ b,
    keyRun os k b = some b := by
  intro os
  induction os with
  | nil => intro k _ _ b; rfl
  | cons o os ih =>
    intro k hk hf b
    have h1 : o.keyOf ≠ some k := by
      intro e; apply hk; simp [touchedKeys, List.filterMap_cons, e]
    have h2 : k ∉ touchedKeys os := by
      intro e; apply hk
      simp only [touchedKeys, List.mem_filterMap] at e ⊢
      obtain ⟨o', ho, e⟩ := e
      exact ⟨o', by simp [ho], e⟩
    have h3 := ih h2 (fun e he => hf e (by simp [he])) b
    cases o with
    | fail e => exact absurd (by simp) (hf e)
    | pop k' m => simp_all [BaseOp.keyOf, keyRun, BaseOp.key]
    | popIf k' => simp_all [BaseOp.keyOf, keyRun, BaseOp.key]
    | set k' => simp_all [BaseOp.keyOf, keyRun, BaseOp.key]
    | setDefault k' => simp_all [BaseOp.keyOf, keyRun, BaseOp.key]
    | give k' => simp_all [BaseOp.keyOf, keyRun, BaseOp.key]
    | posClash => simp_all [BaseOp.keyOf, keyRun, BaseOp.key]

/-- All statements for a class, with the geometry filled in. -/
def Cls.ops (c : Cls) (g : Option GeomArg) : List BaseOp := resolve g c.initOps

/-- The geometry for the tables. -/
def Cls.geo (c : Cls) (g : Option GeomArg) : Option GeomArg := c.shape.map fun d => g.getD (.cls d)

/-- The test for two places comes before keywords for the place are taken. -/
def clashFirst : List BaseOp → Bool
  | [] => false
  | .posClash :: _ => true
  | o :: os => !(placeKeys.map some).contains o.keyOf && clashFirst os

/-- All comparisons of the tables and the constructor of a class (used in proofs only). -/
def tableCheck (c : Cls) (g : Option GeomArg) : Bool :=
  let os := c.ops g
  let al := allowedKeys c (c.geo g)
  -- nothing in the constructor writes or reads the keyword `geometry` except for making it
  c.initOps.all (fun o => match o with
    | .base o => o.keyOf != some .geometry
    | .geom _ => true) &&
  -- required
  c.required.all (fun k => keyRun os k false == none) &&
  -- ignored
  (g == some .other || c.ignored.all fun k => !(trackRun os k (some true, false)).2 && !(trackRun os k (none, false)).2) &&
  (!c.onTorus || g == some .inst || g == some .other || (.geometry :: placeKeys).all fun k =>
    !(trackRun os k (some true, false)).2 && !(trackRun os k (none, false)).2) &&
  ((c.onTorus && g.isSome) ||
  -- keywords that can be taken are in the tables
  (touchedKeys os).all (fun k => keyRun os k true != some false || al.contains k || c.ignored.contains k) &&
  -- used
  al.all (fun k => (c.onTorus && (Key.geometry :: placeKeys).contains k) ||
    ((trackRun os k (some true, false)).2 && !(trackRun os k (none, false)).2)) &&
  -- accepted
  (c.geo g == some .other ||
    (os.all BaseOp.noPlace && os.all (fun o => match o with
      | .fail _ => false
      | _ => true) &&
    (al ++ c.ignored).all (fun k => (touchedKeys os).contains k && keyRun os k true == some false) &&
    (touchedKeys os).all fun k => c.required.contains k || keyRun os k false == some false)) &&
  -- place
  (clashFirst os || !(al ++ c.ignored).contains .pos4d))

theorem table_ok (c : Cls) (g : Option GeomArg) : tableCheck c g = true := by
  rcases g with _ | _ | g | _
  · cases c <;> decide
  · cases c <;> decide
  · cases g <;> cases c <;> decide
  · cases c <;> decide

end Marxs
