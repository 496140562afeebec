import Mathlib.Tactic.Linarith
import Mathlib.Tactic.NormNum
import Verif.Spec.Base

/-!
# Properties C43, C44: headers
-/

namespace Marxs

/-! ## C43 -/

/-- **C43** `check_meta_consistent` accepts two headers if and only if they agree on all keywords. -/
theorem C43_accepts_iff {V : Type} (m1 m2 : Header V) (allow : Bool) (keys : List String) :
    checkMetaConsistent m1 m2 allow keys = .ok () ↔ ∀ k ∈ keys, AgreeOn m1 m2 allow k := by
  induction keys with
  | nil => simp [checkMetaConsistent]
  | cons k ks ih =>
    rw [List.forall_mem_cons, ← ih]
    conv_lhs => unfold checkMetaConsistent
    unfold AgreeOn
    cases h1 : m1 k with
    | none =>
      cases h2 : m2 k with
      | none => cases allow <;> simp
      | some w => simp
    | some v =>
      cases h2 : m2 k with
      | none => simp
      | some w =>
        by_cases h : v = w
        · subst h; simp
        · simp only [if_neg h]
          constructor
          · intro h'; cases h'
          · rintro ⟨⟨u, h3, h4⟩ | ⟨_, h3, _⟩, _⟩
            · cases h3; cases h4; exact absurd rfl h
            · cases h3

/-- **C43** Every header is consistent with itself (if missing keywords are allowed, which is the default). -/
theorem C43_reflexive {V : Type} (m : Header V) (keys : List String) :
    checkMetaConsistent m m true keys = .ok () := by
  rw [C43_accepts_iff]
  intro k _
  cases h : m k with
  | none => exact Or.inr ⟨rfl, h, h⟩
  | some v => exact Or.inl ⟨v, h, h⟩

/-- **C43** The order of the two headers does not matter, not even for the type of the error. -/
theorem C43_symmetric {V : Type} (m1 m2 : Header V) (allow : Bool) (keys : List String) :
    checkMetaConsistent m1 m2 allow keys = checkMetaConsistent m2 m1 allow keys := by
  induction keys with
  | nil => rfl
  | cons k ks ih =>
    unfold checkMetaConsistent
    cases m1 k <;> cases m2 k <;> simp only [ih]
    rename_i v w
    by_cases h : v = w
    · subst h; rfl
    · rw [if_neg h, if_neg (fun h' => h h'.symm)]

/-- **C43** Consistency is transitive, so that a chain of pairwise checks is enough for many files. -/
theorem C43_transitive {V : Type} (m1 m2 m3 : Header V) (allow : Bool) (keys : List String)
    (h12 : checkMetaConsistent m1 m2 allow keys = .ok ())
    (h23 : checkMetaConsistent m2 m3 allow keys = .ok ()) :
    checkMetaConsistent m1 m3 allow keys = .ok () := by
  rw [C43_accepts_iff] at *
  intro k hk
  rcases h12 k hk with ⟨v, a, b⟩ | ⟨ha, a, b⟩
  · rcases h23 k hk with ⟨w, c, d⟩ | ⟨_, c, _⟩
    · rw [b] at c; cases c; exact Or.inl ⟨v, a, d⟩
    · rw [b] at c; cases c
  · rcases h23 k hk with ⟨w, c, d⟩ | ⟨_, c, d⟩
    · rw [b] at c; cases c
    · exact Or.inr ⟨ha, a, d⟩

/-- **C43** Other keywords never matter. -/
theorem C43_ignored {V : Type} (m1 m2 m1' m2' : Header V) (allow : Bool) (keys : List String)
    (h1 : ∀ k ∈ keys, m1' k = m1 k) (h2 : ∀ k ∈ keys, m2' k = m2 k) :
    checkMetaConsistent m1' m2' allow keys = checkMetaConsistent m1 m2 allow keys := by
  induction keys with
  | nil => rfl
  | cons k ks ih =>
    unfold checkMetaConsistent
    rw [h1 k (by simp), h2 k (by simp),
      ih (fun k hk => h1 k (by simp [hk])) (fun k hk => h2 k (by simp [hk]))]

/-- **C43** Headers that are rejected give an `AssertionError` or a `KeyError`, nothing else; it is an
`AssertionError` only if some keyword has two different values. -/
theorem C43_errors {V : Type} (m1 m2 : Header V) (allow : Bool) (keys : List String) (e : Err)
    (h : checkMetaConsistent m1 m2 allow keys = .error e) :
    (e = .assertionError ∧ ∃ k ∈ keys, ∃ v w, m1 k = some v ∧ m2 k = some w ∧ v ≠ w) ∨
    (e = .keyError ∧ ∃ k ∈ keys, m1 k = none ∨ m2 k = none) := by
  induction keys with
  | nil => cases h
  | cons k ks ih =>
    have lift : checkMetaConsistent m1 m2 allow ks = .error e →
        (e = .assertionError ∧ ∃ k' ∈ k :: ks, ∃ v w, m1 k' = some v ∧ m2 k' = some w ∧ v ≠ w) ∨
        (e = .keyError ∧ ∃ k' ∈ k :: ks, m1 k' = none ∨ m2 k' = none) := by
      intro h'
      rcases ih h' with ⟨he, k', hk, h''⟩ | ⟨he, k', hk, h''⟩
      · exact Or.inl ⟨he, k', by simp [hk], h''⟩
      · exact Or.inr ⟨he, k', by simp [hk], h''⟩
    unfold checkMetaConsistent at h
    cases h1 : m1 k with
    | none =>
      cases h2 : m2 k with
      | none =>
        simp only [h1, h2] at h
        split at h
        · cases h; exact Or.inr ⟨rfl, k, by simp, Or.inl h1⟩
        · exact lift h
      | some w =>
        simp only [h1, h2] at h
        cases h
        exact Or.inr ⟨rfl, k, by simp, Or.inl h1⟩
    | some v =>
      cases h2 : m2 k with
      | none =>
        simp only [h1, h2] at h
        cases h
        exact Or.inr ⟨rfl, k, by simp, Or.inr h2⟩
      | some w =>
        simp only [h1, h2] at h
        split at h
        · exact lift h
        · rename_i hne
          cases h
          exact Or.inl ⟨rfl, k, by simp, v, w, h1, h2, hne⟩

example : checkMetaConsistent (fun k => if k = "MARXSVER" then some 1 else if k = "DATE" then some 7 else none)
    (fun k => if k = "MARXSVER" then some 1 else if k = "DATE" then some 8 else none) true metaKeywords =
      .ok () := by
  rw [C43_accepts_iff]
  intro k hk
  by_cases h : k = "MARXSVER"
  · exact Or.inl ⟨1, by simp [h], by simp [h]⟩
  · have h2 : k ≠ "DATE" := by
      rintro rfl; simp [metaKeywords] at hk
    exact Or.inr ⟨rfl, by simp [h, h2], by simp [h, h2]⟩

/-- **C43** Photons that all have the same energy are accepted by `check_energy_consistent`, and so is a list without
energies. -/
theorem C43_energy_same (l : List ℝ) (e : ℝ) (hne : l ≠ []) (h : ∀ x ∈ l, x = e) :
    checkEnergyConsistent (some l) = .ok () ∧ checkEnergyConsistent none = .ok () := by
  refine ⟨?_, rfl⟩
  cases l with
  | nil => exact absurd rfl hne
  | cons e0 l =>
    have h0 : e0 = e := h e0 (by simp)
    subst h0
    simp only [checkEnergyConsistent]
    rw [if_pos]
    intro x hx
    rw [h x hx, sub_self, abs_zero]
    positivity

/-- **C43** Photons that are accepted by `check_energy_consistent` have all the same energy, up to the tolerances of
`np.allclose`. -/
theorem C43_energy_accepted (l : List ℝ) (h : checkEnergyConsistent (some l) = .ok ()) :
    ∃ e0, l.head? = some e0 ∧ ∀ x ∈ l, ∀ y ∈ l, |x - y| ≤ 2 * (1 / 10 ^ 8 + 1 / 10 ^ 5 * |e0|) := by
  cases l with
  | nil => cases h
  | cons e0 l =>
    refine ⟨e0, rfl, ?_⟩
    simp only [checkEnergyConsistent] at h
    split at h
    · rename_i h'
      intro x hx y hy
      have h1 := abs_le.1 (h' x hx)
      have h2 := abs_le.1 (h' y hy)
      rw [abs_le]
      constructor <;> linarith [h1.1, h1.2, h2.1, h2.2]
    · cases h

/-! ## C44 -/

theorem update_lookup {V : Type} (m : Header V) (d : List (String × V)) (hd : IsDict d) (k : String) :
    Header.update m d k = match d.lookup k with
      | some v => some v
      | none => m k := by
  induction d generalizing m with
  | nil => rfl
  | cons p d ih =>
    obtain ⟨k', v⟩ := p
    simp only [IsDict, List.map_cons, List.nodup_cons] at hd
    rw [Header.update, ih _ hd.2, List.lookup_cons]
    by_cases h : k = k'
    · subst h
      have : d.lookup k = none := by
        rw [List.lookup_eq_none_iff]
        intro p hp
        have : p.1 ∈ d.map Prod.fst := List.mem_map_of_mem hp
        have hne : k ≠ p.1 := fun h => hd.1 (h ▸ this)
        simpa using hne
      simp [this]
    · have hb : (k == k') = false := by simpa using h
      rw [hb]
      simp [h]

theorem dictSet_lookup {V : Type} (d : List (String × V)) (k : String) (v : V) (k' : String) :
    (dictSet d k v).lookup k' = if k' = k then some v else d.lookup k' := by
  unfold dictSet
  split
  next h =>
    clear * - h
    induction d with
    | nil => simp at h
    | cons p d ih =>
      obtain ⟨a, b⟩ := p
      simp only [List.map_cons, List.mem_cons] at h
      simp only [List.map_cons]
      by_cases ha : a = k
      · subst ha
        simp only [if_true, List.lookup_cons]
        by_cases hk : k' = a
        · subst hk; simp
        · have hb : (k' == a) = false := by simpa using hk
          rw [hb, if_neg hk]
          simp only
          by_cases hm : a ∈ d.map Prod.fst
          · have := ih hm
            rwa [if_neg hk] at this
          · congr 1
            conv_rhs => rw [← List.map_id d]
            apply List.map_congr_left
            intro p hp
            have : p.1 ≠ a := fun h => hm (h ▸ List.mem_map_of_mem hp)
            simp [this]
      · rw [if_neg ha]
        simp only [List.lookup_cons]
        have hm : k ∈ d.map Prod.fst := h.resolve_left (fun h => ha h.symm)
        by_cases hk : k' = a
        · subst hk; simp [ha]
        · have hb : (k' == a) = false := by simpa using hk
          rw [hb]
          exact ih hm
  next h =>
    rw [List.lookup_append]
    by_cases hk : k' = k
    · subst hk
      have : d.lookup k' = none := by
        rw [List.lookup_eq_none_iff]
        intro p hp
        have hne : k' ≠ p.1 := fun h' => h (h' ▸ List.mem_map_of_mem hp)
        simpa using hne
      simp [this]
    · have hb : (k' == k) = false := by simpa using hk
      simp [List.lookup_cons, hb, hk]

theorem dictSet_keys {V : Type} {d : List (String × V)} (hd : IsDict d) (k : String) (v : V) :
    IsDict (dictSet d k v) := by
  unfold dictSet IsDict at *
  split
  · have : ((d.map fun p => if p.1 = k then (k, v) else p).map Prod.fst) = d.map Prod.fst := by
      rw [List.map_map]
      apply List.map_congr_left
      intro p _
      simp only [Function.comp]
      split
      · rename_i h; exact h.symm
      · rfl
    rw [this]
    exact hd
  · rename_i h
    rw [List.map_append, List.nodup_append]
    refine ⟨hd, by simp, ?_⟩
    intro a ha b hb
    simp at hb
    subst hb
    intro hab
    exact h (hab ▸ ha)

theorem tags_isDict {V : Type} (ver : VersionInfo V) (origin creator : V) {kwargs : List (String × V)}
    (hk : IsDict kwargs) : IsDict (tagVersionInit ver origin creator kwargs) := by
  have h0 : IsDict (kwargs.filter (fun p => decide (p.1 ≠ "name"))) := by
    unfold IsDict at *
    exact hk.sublist (List.filter_sublist.map _)
  unfold tagVersionInit
  cases ver.gittag <;> cases ver.dirtydate <;> simp only
  · exact dictSet_keys h0 _ _
  · exact dictSet_keys (dictSet_keys h0 _ _) _ _
  · exact dictSet_keys (dictSet_keys h0 _ _) _ _
  · exact dictSet_keys (dictSet_keys (dictSet_keys h0 _ _) _ _) _ _

/-- **C44** Header after a `TagVersion` call.  Keywords given in the call have the value given there; otherwise
keywords given when the object was made (`name` and the version keywords are reserved) have the value given there. -/
theorem C44_configured {V : Type} (ver : VersionInfo V) (origin creator date : V)
    (kwargs call : List (String × V)) (hk : IsDict kwargs) (hc : IsDict call) (m : Header V)
    (k : String) (v : V) :
    ((k, v) ∈ call → tagVersionCall (tagVersionInit ver origin creator kwargs) date m call k = some v) ∧
    ((k, v) ∈ kwargs → k ∉ call.map Prod.fst → k ≠ "name" → k ∉ versionKeys →
      tagVersionCall (tagVersionInit ver origin creator kwargs) date m call k = some v) := by
  have look : ∀ (d : List (String × V)), IsDict d → (k, v) ∈ d → d.lookup k = some v := by
    intro d hd hm
    induction d with
    | nil => simp at hm
    | cons p d ih =>
      obtain ⟨a, b⟩ := p
      simp only [IsDict, List.map_cons, List.nodup_cons] at hd
      rw [List.lookup_cons]
      rcases List.mem_cons.1 hm with h | h
      · cases h; simp
      · have hne : k ≠ a := fun h' => hd.1 (h' ▸ List.mem_map_of_mem (f := Prod.fst) h)
        have hb : (k == a) = false := by simpa using hne
        rw [hb]
        exact ih hd.2 h
  have nolook : ∀ (d : List (String × V)), k ∉ d.map Prod.fst → d.lookup k = none := by
    intro d hd
    rw [List.lookup_eq_none_iff]
    intro p hp
    have hne : k ≠ p.1 := fun h' => hd (h' ▸ List.mem_map_of_mem hp)
    simpa using hne
  constructor
  · intro h
    rw [tagVersionCall, update_lookup _ _ hc, look _ hc h]
  · intro h h1 h2 h3
    simp only [versionKeys, List.mem_cons, List.not_mem_nil, or_false, not_or] at h3
    rw [tagVersionCall, update_lookup _ _ hc, nolook _ h1]
    simp only
    rw [update_lookup _ _ (tags_isDict ver origin creator hk)]
    have h0 : (kwargs.filter (fun p => decide (p.1 ≠ "name"))).lookup k = some v := by
      refine look _ ?_ ?_
      · exact List.Nodup.sublist (List.filter_sublist.map _) hk
      · simp [h, h2]
    have : (tagVersionInit ver origin creator kwargs).lookup k = some v := by
      unfold tagVersionInit
      cases ver.gittag <;> cases ver.dirtydate <;>
        simp only [dictSet_lookup, if_neg h3.1, if_neg h3.2.1, if_neg h3.2.2, h0]
    rw [this]

/-- **C44** The version of marxs is in the header, unless it is overwritten in the call: also if a keyword of that name was
given when the object was made or was in the header before. -/
theorem C44_version {V : Type} (ver : VersionInfo V) (origin creator date : V)
    (kwargs call : List (String × V)) (hk : IsDict kwargs) (hc : IsDict call) (m : Header V)
    (hcall : ∀ k ∈ versionKeys, k ∉ call.map Prod.fst) :
    tagVersionCall (tagVersionInit ver origin creator kwargs) date m call "MARXSVER" = some ver.version ∧
    (∀ g, ver.gittag = some g →
      tagVersionCall (tagVersionInit ver origin creator kwargs) date m call "MARXSGIT" = some g) ∧
    (∀ g, ver.dirtydate = some g →
      tagVersionCall (tagVersionInit ver origin creator kwargs) date m call "MARXSTIM" = some g) := by
  have nolook : ∀ k ∈ versionKeys, call.lookup k = none := by
    intro k hk
    rw [List.lookup_eq_none_iff]
    intro p hp
    have hne : k ≠ p.1 := fun h' => hcall k hk (h' ▸ List.mem_map_of_mem hp)
    simpa using hne
  refine ⟨?_, ?_, ?_⟩
  · rw [tagVersionCall, update_lookup _ _ hc, nolook _ (by simp [versionKeys])]
    simp only
    rw [update_lookup _ _ (tags_isDict ver origin creator hk)]
    unfold tagVersionInit
    cases ver.gittag <;> cases ver.dirtydate <;> simp [dictSet_lookup]
  · intro g hg
    rw [tagVersionCall, update_lookup _ _ hc, nolook _ (by simp [versionKeys])]
    simp only
    rw [update_lookup _ _ (tags_isDict ver origin creator hk)]
    unfold tagVersionInit
    rw [hg]
    cases ver.dirtydate <;> simp [dictSet_lookup]
  · intro g hg
    rw [tagVersionCall, update_lookup _ _ hc, nolook _ (by simp [versionKeys])]
    simp only
    rw [update_lookup _ _ (tags_isDict ver origin creator hk)]
    unfold tagVersionInit
    rw [hg]
    cases ver.gittag <;> simp [dictSet_lookup]

theorem tags_lookup_none {V : Type} (ver : VersionInfo V) (origin creator : V)
    (kwargs : List (String × V)) (k : String) (h : k ∉ kwargs.map Prod.fst) (h' : k ∉ versionKeys) :
    (tagVersionInit ver origin creator kwargs).lookup k = none := by
  simp only [versionKeys, List.mem_cons, List.not_mem_nil, or_false, not_or] at h'
  have h0 : (kwargs.filter (fun p => decide (p.1 ≠ "name"))).lookup k = none := by
    rw [List.lookup_eq_none_iff]
    intro p hp
    have hne : k ≠ p.1 := fun h'' => h (h'' ▸ List.mem_map_of_mem (List.mem_filter.1 hp).1)
    simpa using hne
  unfold tagVersionInit
  cases ver.gittag <;> cases ver.dirtydate <;>
    simp only [dictSet_lookup, if_neg h'.1, if_neg h'.2.1, if_neg h'.2.2, h0]

/-- **C44** All unrelated keywords are kept. -/
theorem C44_unrelated {V : Type} (ver : VersionInfo V) (origin creator date : V)
    (kwargs call : List (String × V)) (hk : IsDict kwargs) (hc : IsDict call) (m : Header V)
    (k : String) (h1 : k ∉ call.map Prod.fst) (h2 : k ∉ kwargs.map Prod.fst) (h3 : k ∉ versionKeys)
    (h4 : k ≠ "DATE") :
    tagVersionCall (tagVersionInit ver origin creator kwargs) date m call k = m k := by
  have nolook : call.lookup k = none := by
    rw [List.lookup_eq_none_iff]
    intro p hp
    have hne : k ≠ p.1 := fun h' => h1 (h' ▸ List.mem_map_of_mem hp)
    simpa using hne
  rw [tagVersionCall, update_lookup _ _ hc, nolook]
  simp only
  rw [update_lookup _ _ (tags_isDict ver origin creator hk), tags_lookup_none _ _ _ _ _ h2 h3]
  simp [h4]

/-- **C44** (partial: all keywords but `ORIGIN` and `CREATOR`.)  Every configured keyword is written, every call-time keyword is
written, and everything else is kept. -/
theorem C44_all_partial {V : Type} (ver : VersionInfo V) (origin creator date : V)
    (kwargs call : List (String × V)) (hk : IsDict kwargs) (hc : IsDict call) (m : Header V)
    (hres : ∀ k ∈ "name" :: versionKeys, k ∉ kwargs.map Prod.fst ∧ k ∉ call.map Prod.fst) :
    let new := tagVersionCall (tagVersionInit ver origin creator kwargs) date m call
    (∀ k v, (k, v) ∈ call → new k = some v) ∧
    (∀ k v, (k, v) ∈ kwargs → k ∉ call.map Prod.fst → new k = some v) ∧
    new "MARXSVER" = some ver.version ∧
    (∀ k, k ∉ call.map Prod.fst → k ∉ kwargs.map Prod.fst → k ∉ versionKeys → k ≠ "DATE" →
      new k = m k) := by
  refine ⟨?_, ?_, ?_, ?_⟩
  · intro k v h
    exact (C44_configured ver origin creator date kwargs call hk hc m k v).1 h
  · intro k v h h'
    have hm : k ∈ kwargs.map Prod.fst := List.mem_map_of_mem (f := Prod.fst) h
    refine (C44_configured ver origin creator date kwargs call hk hc m k v).2 h h' ?_ ?_
    · rintro rfl; exact (hres "name" (by simp)).1 hm
    · intro hv; exact (hres k (by simp [hv])).1 hm
  · exact (C44_version ver origin creator date kwargs call hk hc m
      (fun k hkv => (hres k (by simp [hkv])).2)).1
  · intro k h1 h2 h3 h4
    exact C44_unrelated ver origin creator date kwargs call hk hc m k h1 h2 h3 h4

/-- **C44** The two documented parameters are ignored: whatever is given as `ORIGIN` and `CREATOR`, the header
of a photon list without these keywords does not get them. -/
theorem C44_origin_creator_dropped {V : Type} (ver : VersionInfo V) (origin creator date : V)
    (kwargs call : List (String × V)) (hk : IsDict kwargs) (hc : IsDict call) (m : Header V)
    (k : String) (hkey : k = "ORIGIN" ∨ k = "CREATOR") (hm : m k = none)
    (h1 : k ∉ call.map Prod.fst) (h2 : k ∉ kwargs.map Prod.fst) :
    tagVersionCall (tagVersionInit ver origin creator kwargs) date m call k = none := by
  rw [C44_unrelated ver origin creator date kwargs call hk hc m k h1 h2, hm]
  · rcases hkey with rfl | rfl <;> simp [versionKeys]
  · rcases hkey with rfl | rfl <;> simp

/-- **C43**, **C44** Photon lists tagged by the same object are accepted by `check_meta_consistent` if their headers agreed
on `ORIGIN` and `CREATOR` and the version keywords before. -/
theorem C43_tagged {V : Type} (tags : List (String × V)) (ht : IsDict tags) (d1 d2 : V)
    (m1 m2 : Header V) (h : ∀ k ∈ metaKeywords, m1 k = m2 k) :
    checkMetaConsistent (tagVersionCall tags d1 m1 []) (tagVersionCall tags d2 m2 []) true metaKeywords =
      .ok () := by
  rw [C43_accepts_iff]
  intro k hk
  have key : tagVersionCall tags d1 m1 [] k = tagVersionCall tags d2 m2 [] k := by
    simp only [tagVersionCall, Header.update]
    rw [update_lookup _ _ ht, update_lookup _ _ ht]
    have hd : k ≠ "DATE" := by rintro rfl; simp [metaKeywords] at hk
    simp [hd, h k hk]
  cases h' : tagVersionCall tags d1 m1 [] k with
  | none => exact Or.inr ⟨rfl, h', key ▸ h'⟩
  | some v => exact Or.inl ⟨v, h', key ▸ h'⟩

example : IsDict [("OBSERVER", 1), ("MISSION", 2)] ∧
    (∀ k ∈ "name" :: versionKeys, k ∉ ([("OBSERVER", 1), ("MISSION", 2)] : List (String × ℕ)).map Prod.fst) := by
  constructor
  · simp [IsDict]
  · simp [versionKeys]

end Marxs
