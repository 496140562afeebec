import Verif.Lemmas.Init

/-!
# C162: keywords of the constructors
-/

namespace Marxs
open Classical

variable {V : Type}

theorem construct_run {kind : V → GeomArg} {c : Cls} {args : Key → Option V} :
    construct kind c args =
    match runBase (c.ops ((args .geometry).map kind)) ⟨fun k => (args k).map .given, fun _ => .byClass⟩ with
    | .error e => .error e
    | .ok s =>
      if ∃ k, (s.kw k).isSome then .error (if c = .baseAperture then .typeError else .valueError)
      else .ok s.obj := by
  have ht := table_ok c none
  simp only [tableCheck, Bool.and_eq_true] at ht
  rw [construct, resolve_ok kind c.initOps _ ((args .geometry).map kind)]
  · rfl
  · intro d
    simp only [geomArg]
    cases args .geometry <;> rfl
  · intro o ho
    have := List.all_eq_true.1 ht.1.1.1.1 _ ho
    simpa using this

theorem construct_ok {kind : V → GeomArg} {c : Cls} {args : Key → Option V} {obj : Key → Src V}
    (h : construct kind c args = .ok obj) : ∃ s : InitState V,
    runBase (c.ops ((args .geometry).map kind)) ⟨fun k => (args k).map .given, fun _ => .byClass⟩ = .ok s ∧
    (∀ k, s.kw k = none) ∧ obj = s.obj := by
  rw [construct_run] at h
  cases hr : runBase (c.ops ((args .geometry).map kind))
      (⟨fun k => (args k).map .given, fun _ => .byClass⟩ : InitState V) with
  | error e => rw [hr] at h; simp at h
  | ok s =>
    rw [hr] at h
    simp only at h
    split at h
    · simp at h
    · rename_i hk
      push Not at hk
      simp only [Except.ok.injEq] at h
      exact ⟨s, rfl, fun k => by simpa using hk k, h.symm⟩

theorem geo_requested {kind : V → GeomArg} {c : Cls} {args : Key → Option V} :
    c.geo ((args .geometry).map kind) = requested kind c args := by
  simp only [Cls.geo, requested]
  cases args .geometry <;> rfl

/-- The keyword is there at the end if and only if `keyRun` says so. -/
theorem key_of_ok {kind : V → GeomArg} {c : Cls} {args : Key → Option V} {obj : Key → Src V}
    (h : construct kind c args = .ok obj) (k : Key) :
    keyRun (c.ops ((args .geometry).map kind)) k (args k).isSome = some false := by
  obtain ⟨s, h1, h2, -⟩ := construct_ok h
  have := keyRun_exact _ h1 k
  simpa [h2 k] using this

theorem obj_of_ok {kind : V → GeomArg} {c : Cls} {args : Key → Option V} {obj : Key → Src V}
    (h : construct kind c args = .ok obj) (k : Key) :
    (∀ v, args k = some v → obj k = srcOf (.given v) (trackRun (c.ops ((args .geometry).map kind)) k (some true, false)).2) ∧
    (args k = none → ∀ v : Src V, obj k = srcOf v (trackRun (c.ops ((args .geometry).map kind)) k (none, false)).2) := by
  obtain ⟨s, h1, -, h3⟩ := construct_ok h
  refine ⟨fun v hv => ?_, fun hv v => ?_⟩
  · rw [h3]
    exact trackRun_exact _ h1 k (.given v) (some true, false) (by simp [hv, srcOf]) rfl
  · rw [h3]
    exact trackRun_exact _ h1 k v (none, false) (by simp [hv]) rfl

/-- **C162** Keywords that are not documented for a class are refused; in particular, no object is made if the name of a
keyword is misspelled. Exceptions: the keywords in the table `ignored`, and grids on a torus with keyword `geometry`. -/
theorem C162_refused_partial (kind : V → GeomArg) (c : Cls) (args : Key → Option V) (obj : Key → Src V)
    (ht : c.onTorus = true → args .geometry = none) (h : construct kind c args = .ok obj) (k : Key) (hk : args k ≠ none) :
    k ∈ allowedKeys c (requested kind c args) ∨ k ∈ c.ignored := by
  have hr := key_of_ok h k
  rw [Option.isSome_iff_ne_none.2 hk] at hr
  have hch := table_ok c ((args .geometry).map kind)
  simp only [tableCheck, Bool.and_eq_true, Bool.or_eq_true, geo_requested] at hch
  have hch := hch.2.resolve_left (fun hx => by simpa [ht hx.1] using hx.2)
  have hmem : k ∈ touchedKeys (c.ops ((args .geometry).map kind)) := by
    by_contra hn
    rcases keyRun_untouched _ hn true with e | e <;> rw [e] at hr <;> simp at hr
  have := List.all_eq_true.1 hch.1.1.1 k hmem
  simp only [hr, bne_self_eq_false, Bool.or_eq_true, Bool.false_or, List.contains_iff_mem] at this
  exact this

/-- **C162** Keywords that are documented take effect: the attribute has the value that was given, or the default of the
class if nothing was given. Exception: the place of grids on a torus. -/
theorem C162_used_partial (kind : V → GeomArg) (c : Cls) (args : Key → Option V) (obj : Key → Src V)
    (ht : c.onTorus = true → args .geometry = none) (h : construct kind c args = .ok obj) (k : Key)
    (hk : k ∈ allowedKeys c (requested kind c args)) (hp : c.onTorus = true → k ∉ .geometry :: placeKeys) :
    TakenFrom args k (obj k) := by
  have hch := table_ok c ((args .geometry).map kind)
  simp only [tableCheck, Bool.and_eq_true, Bool.or_eq_true, geo_requested] at hch
  have hch := hch.2.resolve_left (fun hx => by simpa [ht hx.1] using hx.2)
  have := List.all_eq_true.1 hch.1.1.2 k hk
  simp only [Bool.or_eq_true, Bool.and_eq_true, Bool.not_eq_true', List.contains_iff_mem] at this
  obtain ⟨t1, t2⟩ := this.resolve_left (fun hx => hp hx.1 hx.2)
  obtain ⟨o1, o2⟩ := obj_of_ok h k
  unfold TakenFrom
  cases ha : args k with
  | some v => simp only; rw [o1 v ha, t1]; rfl
  | none => simp only; rw [o2 ha .byClass, t2]; rfl

/-- **C162** No object is made without a keyword that has no default. -/
theorem C162_required (kind : V → GeomArg) (c : Cls) (args : Key → Option V) (obj : Key → Src V)
    (h : construct kind c args = .ok obj) (k : Key) (hk : k ∈ c.required) : args k ≠ none := by
  intro hn
  have hr := key_of_ok h k
  have hch := table_ok c ((args .geometry).map kind)
  simp only [tableCheck, Bool.and_eq_true, Bool.or_eq_true] at hch
  have := List.all_eq_true.1 hch.1.1.1.2 k hk
  rw [hn] at hr
  simp only [Option.isSome_none] at hr
  rw [hr] at this
  simp at this

theorem run_of_accepted (kind : V → GeomArg) (c : Cls) (args : Key → Option V) (extra : Key → Prop)
    (ht : c.onTorus = true → args .geometry = none) (hreq : ∀ k ∈ c.required, args k ≠ none)
    (hk : ∀ k, args k ≠ none → k ∈ allowedKeys c (requested kind c args) ∨ k ∈ c.ignored ∨ extra k)
    (hx : ∀ k, extra k → k ∉ touchedKeys (c.ops ((args .geometry).map kind)))
    (hp : ¬ PlaceTwice args) (hg : requested kind c args ≠ some .other) :
    ∃ s : InitState V,
      runBase (c.ops ((args .geometry).map kind)) ⟨fun k => (args k).map .given, fun _ => .byClass⟩ = .ok s ∧
      ∀ k, (s.kw k).isSome ↔ extra k ∧ args k ≠ none := by
  have hch := table_ok c ((args .geometry).map kind)
  simp only [tableCheck, Bool.and_eq_true, Bool.or_eq_true, geo_requested] at hch
  have hch := hch.2.resolve_left (fun hx => by simpa [ht hx.1] using hx.2)
  have hch := hch.1.2.resolve_left (fun hx => hg (by simpa using hx))
  obtain ⟨⟨⟨h1, h2⟩, h3⟩, h4⟩ := hch
  have hfail : ∀ e, BaseOp.fail e ∉ c.ops ((args .geometry).map kind) := fun e he => by
    have := List.all_eq_true.1 h2 _ he
    simp at this
  have key : ∀ k, ¬ extra k → keyRun (c.ops ((args .geometry).map kind)) k (args k).isSome = some false := by
    intro k hne
    cases ha : args k with
    | some v =>
      have hm := hk k (by simp [ha])
      have := List.all_eq_true.1 h3 k (by
        rcases hm with h | h | h
        · exact List.mem_append_left _ h
        · exact List.mem_append_right _ h
        · exact absurd h hne)
      simp only [Bool.and_eq_true, beq_iff_eq] at this
      exact this.2
    | none =>
      by_cases hm : k ∈ touchedKeys (c.ops ((args .geometry).map kind))
      · have := List.all_eq_true.1 h4 k hm
        simp only [Bool.or_eq_true, List.contains_iff_mem, beq_iff_eq] at this
        exact this.resolve_left fun hr => hreq k hr ha
      · exact keyRun_no_fail _ hm hfail false
  obtain ⟨s, hs⟩ := runBase_total (V := V) (c.ops ((args .geometry).map kind))
    (s := ⟨fun k => (args k).map .given, fun _ => .byClass⟩)
    (fun o ho => List.all_eq_true.1 h1 o ho)
    (fun k => by
      simp only [Option.isSome_map]
      by_cases he : extra k
      · rw [keyRun_no_fail _ (hx k he) hfail]; simp
      · rw [key k he]; simp)
    (by simpa [PlaceTwice, Option.isSome_iff_ne_none] using hp)
  refine ⟨s, hs, fun k => ?_⟩
  have := keyRun_exact _ hs k
  simp only [Option.isSome_map] at this
  by_cases he : extra k
  · rw [keyRun_no_fail _ (hx k he) hfail] at this
    simp only [Option.some.injEq] at this
    rw [← this]
    simp [he, Option.isSome_iff_ne_none]
  · rw [key k he] at this
    simp only [Option.some.injEq] at this
    rw [← this]
    simp [he]

/-- **C162** Everything that follows the documentation is accepted: all keywords without a default are given, only
documented keywords are used, and the place is given in one way. -/
theorem C162_accepted (kind : V → GeomArg) (c : Cls) (args : Key → Option V)
    (ht : c.onTorus = true → args .geometry = none) (hreq : ∀ k ∈ c.required, args k ≠ none)
    (hk : ∀ k, args k ≠ none → k ∈ allowedKeys c (requested kind c args)) (hp : ¬ PlaceTwice args)
    (hg : requested kind c args ≠ some .other) : ∃ obj, construct kind c args = .ok obj := by
  obtain ⟨s, h1, h2⟩ := run_of_accepted kind c args (fun _ => False) ht hreq (fun k h => .inl (hk k h)) (by simp) hp hg
  refine ⟨s.obj, ?_⟩
  rw [construct_run, h1]
  simp only
  rw [if_neg (by rintro ⟨k, hk⟩; exact ((h2 k).1 hk).1)]

theorem other_untouched (c : Cls) (g : Option GeomArg) (n : ℕ) : Key.other n ∉ touchedKeys (c.ops g) := by
  intro h
  have : ∀ k ∈ touchedKeys (c.ops g), ∀ n, k ≠ .other n := by
    have key : (touchedKeys (c.ops g)).all (fun k => match k with
      | .other _ => false
      | _ => true) = true := by
      rcases g with _ | _ | g | _
      · cases c <;> decide
      · cases c <;> decide
      · cases g <;> cases c <;> decide
      · cases c <;> decide
    intro k hk n e
    have := List.all_eq_true.1 key k hk
    rw [e] at this
    simp at this
  exact this _ h n rfl

/-- **C162** If everything else follows the documentation, a keyword with an unknown name is a `ValueError`. -/
theorem C162_misspelled (kind : V → GeomArg) (c : Cls) (args : Key → Option V) (n : ℕ) (hn : args (.other n) ≠ none)
    (hc : c ≠ .baseAperture)
    (ht : c.onTorus = true → args .geometry = none) (hreq : ∀ k ∈ c.required, args k ≠ none)
    (hk : ∀ k, args k ≠ none → k ∈ allowedKeys c (requested kind c args) ∨ ∃ n, k = .other n) (hp : ¬ PlaceTwice args)
    (hg : requested kind c args ≠ some .other) : construct kind c args = .error .valueError := by
  obtain ⟨s, h1, h2⟩ := run_of_accepted kind c args (fun k => ∃ n, k = .other n) ht hreq
    (fun k h => (hk k h).imp id .inr) (by rintro k ⟨m, rfl⟩; exact other_untouched c _ m) hp hg
  rw [construct_run, h1]
  simp only
  rw [if_pos ⟨.other n, (h2 _).2 ⟨⟨n, rfl⟩, hn⟩⟩, if_neg hc]

theorem clashFirst_ok : ∀ (os : List BaseOp) {s s' : InitState V}, clashFirst os = true → runBase os s = .ok s' →
    ¬ ((s.kw .pos4d).isSome ∧ ((s.kw .position).isSome ∨ (s.kw .orientation).isSome ∨ (s.kw .zoom).isSome)) := by
  intro os
  induction os with
  | nil => intro s s' h; simp [clashFirst] at h
  | cons o os ih =>
    intro s s' h hr hc
    rw [runBase] at hr
    cases ho : o.run s with
    | error e => rw [ho] at hr; simp at hr
    | ok s1 =>
      rw [ho] at hr
      simp only at hr
      by_cases hpc : o = .posClash
      · subst hpc
        simp [BaseOp.run, hc] at ho
      · have h' : (placeKeys.map some).contains o.keyOf = false ∧ clashFirst os = true := by
          cases o <;> simp_all [clashFirst]
        have hk : ∀ k ∈ placeKeys, s1.kw k = s.kw k := fun k hk => run_other ho fun e => by
          have := h'.1
          rw [e] at this
          simp [hk] at this
        refine ih h'.2 hr ?_
        rw [hk .pos4d (by simp [placeKeys]), hk .position (by simp [placeKeys]), hk .orientation (by simp [placeKeys]),
          hk .zoom (by simp [placeKeys])]
        exact hc

/-- **C162** Giving the place in two ways at the same time is refused by every class. -/
theorem C162_one_place (kind : V → GeomArg) (c : Cls) (args : Key → Option V) (hp : PlaceTwice args)
    (ht : c.onTorus = true → args .geometry = none) : ∃ e, construct kind c args = .error e := by
  cases h : construct kind c args with
  | error e => exact ⟨e, rfl⟩
  | ok obj =>
    exfalso
    have hch := table_ok c ((args .geometry).map kind)
    simp only [tableCheck, Bool.and_eq_true, Bool.or_eq_true, geo_requested] at hch
    have hch := (hch.2.resolve_left (fun hx => by simpa [ht hx.1] using hx.2)).2
    rcases hch with hcf | hno
    · obtain ⟨s, h1, -⟩ := construct_ok h
      refine clashFirst_ok _ hcf h1 ?_
      simpa [PlaceTwice, Option.isSome_iff_ne_none] using hp
    · have := C162_refused_partial kind c args obj ht h .pos4d hp.1
      simp only [Bool.not_eq_true', ← Bool.not_eq_true, List.contains_iff_mem, List.mem_append] at hno
      exact hno this

/-- **C162** (finding) Some keywords are neither used nor refused: `elem_pos` for elements with calculated positions,
`pos_spec` for grids on a torus, `func_par` and `radial_distribution` for disks, the period `d` of the L1 structure, and
`elements` and `keywords` for the stack that represents a CAT grating. With any value, the object is the same. -/
theorem C162_ignored_false (kind : V → GeomArg) (c : Cls) (args : Key → Option V)
    (ht : c.onTorus = true → args .geometry = none) (hreq : ∀ k ∈ c.required, args k ≠ none)
    (hk : ∀ k, args k ≠ none → k ∈ allowedKeys c (requested kind c args) ∨ k ∈ c.ignored) (hp : ¬ PlaceTwice args)
    (hg : requested kind c args ≠ some .other) :
    ∃ obj, construct kind c args = .ok obj ∧ ∀ k ∈ c.ignored, obj k = .byClass := by
  obtain ⟨s, h1, h2⟩ := run_of_accepted kind c args (fun _ => False) ht hreq (fun k h => (hk k h).imp id .inl) (by simp)
    hp hg
  have hok : construct kind c args = .ok s.obj := by
    rw [construct_run, h1]
    simp only
    rw [if_neg (by rintro ⟨k, hk⟩; exact ((h2 k).1 hk).1)]
  refine ⟨s.obj, hok, fun k hki => ?_⟩
  have hch := table_ok c ((args .geometry).map kind)
  simp only [tableCheck, Bool.and_eq_true, Bool.or_eq_true, geo_requested] at hch
  have hch := hch.1.1.2.resolve_left fun hx => by
    simp only [beq_iff_eq, Option.map_eq_some_iff] at hx
    obtain ⟨v, hv, hv'⟩ := hx
    have hm := hk .geometry (by simp [hv])
    cases hs : c.shape with
    | none =>
      rw [requested, hs] at hm
      revert hm hs
      cases c <;> simp [Cls.shape, allowedKeys, Cls.documented, Cls.ignored, elementKeys, containerKeys, sourceKeys,
        placeKeys]
    | some d => exact hg (by simp [requested, hs, hv, hv'])
  have := List.all_eq_true.1 hch k hki
  simp only [Bool.and_eq_true, Bool.not_eq_true'] at this
  obtain ⟨o1, o2⟩ := obj_of_ok hok k
  cases ha : args k with
  | some v => rw [o1 v ha, this.1]; rfl
  | none => rw [o2 ha .byClass, this.2]; rfl

/-- **C162** (finding) Grids on a torus accept the keywords for their place, and ignore them: the place is always the
default. (`OpticalElement.__init__` runs after `Parallel.__init__` and makes a new geometry from what is left.) -/
theorem C162_torus_place_false (kind : V → GeomArg) (c : Cls) (hc : c.onTorus = true) (args : Key → Option V)
    (hg : args .geometry = none) (hreq : ∀ k ∈ c.required, args k ≠ none)
    (hk : ∀ k, args k ≠ none → k ∈ allowedKeys c (requested kind c args)) (hp : ¬ PlaceTwice args) :
    ∃ obj, construct kind c args = .ok obj ∧ ∀ k ∈ placeKeys, obj k = .byClass := by
  obtain ⟨obj, h⟩ := C162_accepted kind c args (fun _ => hg) hreq hk hp (by
    cases c <;> simp_all [requested, Cls.shape, Cls.onTorus])
  refine ⟨obj, h, fun k hkp => ?_⟩
  have hch := table_ok c ((args .geometry).map kind)
  simp only [tableCheck, Bool.and_eq_true, Bool.or_eq_true] at hch
  have hch := hch.1.2
  simp only [hc, hg] at hch
  have hch : ∀ x ∈ placeKeys, (trackRun (c.ops none) x (some true, false)).2 = false ∧
      (trackRun (c.ops none) x (none, false)).2 = false := by
    have hch := by simpa [hg] using hch
    exact hch.2
  have := hch k hkp
  obtain ⟨o1, o2⟩ := obj_of_ok h k
  rw [hg] at o1 o2
  cases ha : args k with
  | some v => rw [o1 v ha]; simp only [Option.map_none]; rw [this.1]; rfl
  | none => rw [o2 ha .byClass]; simp only [Option.map_none]; rw [this.2]; rfl

/-- A flat grating with a misspelled `blaze_nam`, a shared name and a period: refused; the same without: accepted, and the
values that were given are used, and the place is the default. -/
example : ∀ args : Key → Option ℕ,
    (∀ k, args k = if k = .d then some 3 else if k = .orderSelector then some 5 else if k = .zoom then some 2 else
      if k = .other 7 then some 1 else none) →
    construct (fun _ => .other) .flatGrating args = .error .valueError ∧
    ∃ obj, construct (fun _ => .other) .flatGrating (fun k => if k = .other 7 then none else args k) = .ok obj ∧
      obj .d = .given 3 ∧ obj .orderSelector = .given 5 ∧ obj .zoom = .given 2 ∧ obj .position = .byClass := by
  intro args ha
  have hgeo : args .geometry = none := by simp [ha]
  have hreq : requested (fun _ => .other) .flatGrating args = some (.cls .plain) := by
    simp [requested, Cls.shape, hgeo]
  constructor
  · refine C162_misspelled _ _ _ 7 (by simp [ha]) (by simp) (by simp [Cls.onTorus]) (by simp [Cls.required, ha]) ?_ ?_ ?_
    · intro k hk
      rw [hreq]
      rw [ha] at hk
      by_cases h1 : k = .d
      · exact .inl (by subst h1; decide)
      by_cases h2 : k = .orderSelector
      · exact .inl (by subst h2; decide)
      by_cases h3 : k = .zoom
      · exact .inl (by subst h3; decide)
      by_cases h4 : k = .other 7
      · exact .inr ⟨7, h4⟩
      simp [h1, h2, h3, h4] at hk
    · simp [PlaceTwice, ha]
    · simp [hreq]
  · have hgeo' : (fun k => if k = .other 7 then none else args k) .geometry = none := by simp [hgeo]
    have hreq' : requested (fun _ => .other) .flatGrating (fun k => if k = .other 7 then none else args k) =
        some (.cls .plain) := by
      simp [requested, Cls.shape, hgeo]
    obtain ⟨obj, h⟩ := C162_accepted (fun _ => .other) .flatGrating (fun k => if k = .other 7 then none else args k)
      (by simp [Cls.onTorus]) (by simp [Cls.required, ha]) (by
        intro k hk
        rw [hreq']
        simp only [ha] at hk
        by_cases h1 : k = .d
        · subst h1; decide
        by_cases h2 : k = .orderSelector
        · subst h2; decide
        by_cases h3 : k = .zoom
        · subst h3; decide
        by_cases h4 : k = .other 7
        · simp [h4] at hk
        simp [h1, h2, h3, h4] at hk) (by simp [PlaceTwice, ha]) (by simp [hreq'])
    have hu := C162_used_partial _ _ _ obj (by simp [Cls.onTorus]) h
    rw [hreq'] at hu
    refine ⟨obj, h, ?_, ?_, ?_, ?_⟩
    · simpa [TakenFrom, ha] using hu .d (by decide) (by simp [Cls.onTorus])
    · simpa [TakenFrom, ha] using hu .orderSelector (by decide) (by simp [Cls.onTorus])
    · simpa [TakenFrom, ha] using hu .zoom (by decide) (by simp [Cls.onTorus])
    · simpa [TakenFrom, ha] using hu .position (by decide) (by simp [Cls.onTorus])

/-- A grid on a torus with a `zoom` of its own: accepted and ignored. -/
theorem torus_zoom (c : Cls) (hc : c.onTorus = true)
    (hk : Key.zoom ∈ allowedKeys c (requested (V := ℕ) (fun _ => .other) c (fun _ => none))) :
    ∃ args : Key → Option ℕ, args .zoom = some 3 ∧ ∃ obj, construct (fun _ => .other) c args = .ok obj ∧
      obj .zoom = .byClass := by
  refine ⟨fun k => if k = .zoom then some 3 else if k ∈ c.required then some 0 else none, by simp, ?_⟩
  have hr : Key.geometry ∉ c.required := by cases c <;> simp_all [Cls.required, Cls.onTorus]
  obtain ⟨obj, h1, h2⟩ := C162_torus_place_false (fun _ => .other) c hc
    (fun k => if k = .zoom then some 3 else if k ∈ c.required then some 0 else none) (by simp [hr])
    (by intro k hk; by_cases h : k = .zoom <;> simp [h, hk]) (by
      intro k hk'
      have hq : requested (V := ℕ) (fun _ => .other) c (fun k => if k = .zoom then some 3 else if k ∈ c.required then some 0 else none) =
          requested (V := ℕ) (fun _ => .other) c (fun _ => none) := by
        simp [requested, hr]
      rw [hq]
      by_cases h : k = .zoom
      · exact h ▸ hk
      · simp only [h, if_false, ne_eq, ite_eq_right_iff, reduceCtorEq, imp_false, not_not] at hk'
        revert hk'
        clear hk hq h hr
        revert k
        cases c <;> simp_all [Cls.required, Cls.onTorus] <;> decide) (by
      rintro ⟨h1, -⟩
      apply h1
      have : Key.pos4d ∉ c.required := by cases c <;> simp_all [Cls.required, Cls.onTorus]
      simp [this])
  exact ⟨obj, h1, h2 .zoom (by simp [placeKeys])⟩

example : ∃ args : Key → Option ℕ, args .zoom = some 3 ∧
    ∃ obj, construct (fun _ => .other) .gratingArrayStructure args = .ok obj ∧ obj .zoom = .byClass :=
  torus_zoom _ rfl (by decide)

end Marxs
