import Verif.Props.TolRun

/-!
# Properties C54, C55: lists of tolerancing parameters
-/

namespace Marxs

/-! ## C54 -/

theorem dictSet_new {V : Type} (d : Dict V) (k : String) (v : V) (h : k ∉ d.map Prod.fst) :
    dictSet d k v = d ++ [(k, v)] := by
  unfold dictSet; rw [if_neg h]

theorem dictUpdate_new {V : Type} (d u : Dict V) (h : IsDict (d ++ u)) : dictUpdate d u = d ++ u := by
  induction u generalizing d with
  | nil => simp [dictUpdate]
  | cons a u ih =>
    obtain ⟨k, v⟩ := a
    have hk : k ∉ d.map Prod.fst := by
      unfold IsDict at h
      rw [List.map_append, List.nodup_append] at h
      intro hm
      exact h.2.2 k hm k (by simp) rfl
    rw [dictUpdate, dictSet_new d k v hk, ih _ (by simpa using h)]
    simp

theorem dictZip_eq {names : List String} {row : List ℝ} (hn : names.Nodup) (hl : names.length ≤ row.length) :
    dictZip names row = names.zip row := by
  unfold dictZip
  rw [dictUpdate_new]
  · simp
  · simp only [IsDict, List.nil_append]
    rw [List.map_fst_zip hl]
    exact hn

theorem lookup_zip {V : Type} {names : List String} {row : List V} (hn : names.Nodup)
    {j : ℕ} (h1 : j < names.length) (h2 : j < row.length) :
    (names.zip row).lookup names[j] = some row[j] := by
  induction names generalizing row j with
  | nil => simp at h1
  | cons a names ih =>
    cases row with
    | nil => simp at h2
    | cons x row =>
      rw [List.nodup_cons] at hn
      cases j with
      | zero => simp [List.lookup_cons]
      | succ j =>
        have hne : names[j]'(by simpa using h1) ≠ a := by
          intro h
          exact hn.1 (h ▸ List.getElem_mem _)
        simp only [List.getElem_cons_succ, List.zip_cons_cons, List.lookup_cons, beq_eq_false_iff_ne.2 hne]
        exact ih hn.2 (by simpa using h1) (by simpa using h2)

theorem dict_ext {V : Type} {d d' : Dict V} (h : IsDict d) (hk : d.map Prod.fst = d'.map Prod.fst)
    (hl : ∀ k, d.lookup k = d'.lookup k) : d = d' := by
  induction d generalizing d' with
  | nil => simpa using hk.symm
  | cons a d ih =>
    cases d' with
    | nil => simp at hk
    | cons b d' =>
      obtain ⟨k, v⟩ := a
      obtain ⟨k', v'⟩ := b
      simp only [List.map_cons, List.cons.injEq] at hk
      obtain ⟨rfl, hk⟩ := hk
      have := hl k
      simp only [List.lookup_cons, beq_self_eq_true, Option.some.injEq] at this
      subst this
      unfold IsDict at h
      simp only [List.map_cons, List.nodup_cons] at h
      congr 1
      apply ih h.2 hk
      intro k'
      by_cases hkk : k' = k
      · subst hkk
        have none1 : ∀ e : Dict V, k' ∉ e.map Prod.fst → e.lookup k' = none := by
          intro e he
          rw [List.lookup_eq_none_iff]
          intro p hp
          simp only [bne_iff_ne, ne_eq, beq_eq_false_iff_ne]
          intro hh
          exact he (List.mem_map.2 ⟨p, hp, hh.symm⟩)
        rw [none1 _ h.1, none1 _ (hk ▸ h.1)]
      · have := hl k'
        simpa [List.lookup_cons, beq_eq_false_iff_ne.2 hkk] using this

theorem dofRow_length (i : ℕ) (v : ℝ) : (dofRow i v).length = 6 := by simp [dofRow]

theorem dofRow_get (i : ℕ) (v : ℝ) (j : ℕ) (h : j < (dofRow i v).length) :
    (dofRow i v)[j] = if j = i then v else 0 := by
  simp only [dofRow, List.getElem_set, List.getElem_replicate]
  by_cases hij : i = j
  · simp [hij]
  · rw [if_neg hij, if_neg (fun h => hij h.symm)]

theorem isSingle_iff {names : List String} (hn : names.Nodup) (hl : names.length = 6) (i : ℕ) (v : ℝ)
    (d : Dict ℝ) : IsSingle names i v d ↔ d = dictZip names (dofRow i v) := by
  have hz := dictZip_eq hn (row := dofRow i v) (by rw [hl, dofRow_length])
  have hfst : (names.zip (dofRow i v)).map Prod.fst = names :=
    List.map_fst_zip (by rw [hl, dofRow_length])
  constructor
  · rintro ⟨h1, h2, h3⟩
    rw [hz]
    apply dict_ext h1 (by rw [h2, hfst])
    intro k
    by_cases hk : k ∈ names
    · obtain ⟨j, hj, rfl⟩ := List.mem_iff_getElem.1 hk
      rw [h3 j hj, lookup_zip hn hj (by rw [dofRow_length]; omega), dofRow_get]
    · have none1 : ∀ e : Dict ℝ, k ∉ e.map Prod.fst → e.lookup k = none := by
        intro e he
        rw [List.lookup_eq_none_iff]
        intro p hp
        simp only [bne_iff_ne, ne_eq, beq_eq_false_iff_ne]
        intro hh
        exact he (List.mem_map.2 ⟨p, hp, hh.symm⟩)
      rw [none1 d (h2 ▸ hk), none1 _ (hfst.symm ▸ hk)]
  · rintro rfl
    rw [hz]
    refine ⟨by unfold IsDict; rw [hfst]; exact hn, hfst, ?_⟩
    intro j hj
    rw [lookup_zip hn hj (by rw [dofRow_length]; omega), dofRow_get]

theorem mem_uniqueRows (rows : List (List ℝ)) (r : List ℝ) : r ∈ uniqueRows rows ↔ r ∈ rows := by
  unfold uniqueRows
  rw [List.mem_mergeSort, List.mem_dedup]

theorem nodup_uniqueRows (rows : List (List ℝ)) : (uniqueRows rows).Nodup :=
  (List.mergeSort_perm _ _).nodup_iff.2 (List.nodup_dedup _)

theorem mem_wiggleHalf (trans rot : List ℝ) (r : List ℝ) : r ∈ wiggleHalf trans rot ↔
    ∃ i v, r = dofRow i v ∧ (i < 3 ∧ v ∈ trans ∨ 3 ≤ i ∧ i < 6 ∧ v ∈ rot) := by
  simp only [wiggleHalf, List.mem_append, List.mem_flatMap, List.mem_range, List.mem_map]
  constructor
  · rintro (⟨i, hi, v, hv, rfl⟩ | ⟨i, hi, v, hv, rfl⟩)
    · exact ⟨i, v, rfl, Or.inl ⟨hi, hv⟩⟩
    · exact ⟨i + 3, v, rfl, Or.inr ⟨by omega, by omega, hv⟩⟩
  · rintro ⟨i, v, rfl, ⟨hi, hv⟩ | ⟨h3, h6, hv⟩⟩
    · exact Or.inl ⟨i, hi, v, hv, rfl⟩
    · exact Or.inr ⟨i - 3, by omega, v, hv, by rw [Nat.sub_add_cancel h3]⟩

theorem neg_dofRow (i : ℕ) (v : ℝ) : (dofRow i v).map (fun x => -x) = dofRow i (-v) := by
  simp [dofRow, List.map_set]

theorem mapNodup {names : List String} (hn : names.Nodup) (hl : names.length = 6) {rows : List (List ℝ)}
    (hr : ∀ r ∈ rows, r.length = 6) (h : rows.Nodup) : (rows.map (dictZip names)).Nodup := by
  rw [List.nodup_map_iff_inj_on h]
  intro x hx y hy hxy
  rw [dictZip_eq hn (by rw [hl, hr x hx]), dictZip_eq hn (by rw [hl, hr y hy])] at hxy
  have := congrArg (List.map Prod.snd) hxy
  rwa [List.map_snd_zip (by rw [hl, hr x hx]), List.map_snd_zip (by rw [hl, hr y hy])] at this

/-- **C54** The lists made by `generate_6d_wigglelist` from translation steps and rotation steps: the first
list has exactly those entries in which one of the six degrees of freedom has one of the requested values
or the negative of one (translations for the first three, rotations for the last three names) and all
others are zero; the second list has exactly the entries with the requested values themselves. All names
are keys of every entry, and no entry appears twice (in particular, there is only one without change). -/
theorem C54_entries (names : List String) (hn : names.Nodup) (hl : names.length = 6) (trans rot : List ℝ)
    (g ind : List (Dict ℝ)) (h : generate6d names trans rot = .ok (g, ind)) :
    (∀ d, d ∈ g ↔ ∃ i v, IsSingle names i v d ∧
      (i < 3 ∧ (v ∈ trans ∨ -v ∈ trans) ∨ 3 ≤ i ∧ i < 6 ∧ (v ∈ rot ∨ -v ∈ rot))) ∧
    (∀ d, d ∈ ind ↔ ∃ i v, IsSingle names i v d ∧ (i < 3 ∧ v ∈ trans ∨ 3 ≤ i ∧ i < 6 ∧ v ∈ rot)) ∧
    g.Nodup ∧ ind.Nodup := by
  unfold generate6d at h
  split at h
  · cases h
  simp only [Except.ok.injEq, Prod.mk.injEq] at h
  obtain ⟨rfl, rfl⟩ := h
  have memg : ∀ r, r ∈ wiggleHalf trans rot ++ (wiggleHalf trans rot).map (fun r => r.map (fun x => -x)) ↔
      ∃ i v, r = dofRow i v ∧
        (i < 3 ∧ (v ∈ trans ∨ -v ∈ trans) ∨ 3 ≤ i ∧ i < 6 ∧ (v ∈ rot ∨ -v ∈ rot)) := by
    intro r
    rw [List.mem_append, mem_wiggleHalf, List.mem_map]
    constructor
    · rintro (⟨i, v, rfl, h⟩ | ⟨r, hr, rfl⟩)
      · exact ⟨i, v, rfl, by tauto⟩
      · obtain ⟨i, v, rfl, h⟩ := (mem_wiggleHalf _ _ _).1 hr
        exact ⟨i, -v, neg_dofRow i v, by rw [neg_neg]; tauto⟩
    · rintro ⟨i, v, rfl, h⟩
      by_cases hd : (i < 3 ∧ v ∈ trans ∨ 3 ≤ i ∧ i < 6 ∧ v ∈ rot)
      · exact Or.inl ⟨i, v, rfl, hd⟩
      · refine Or.inr ⟨dofRow i (-v), (mem_wiggleHalf _ _ _).2 ⟨i, -v, rfl, by tauto⟩, ?_⟩
        rw [neg_dofRow, neg_neg]
  refine ⟨?_, ?_, ?_, ?_⟩
  · intro d
    simp only [List.mem_map, mem_uniqueRows, memg]
    constructor
    · rintro ⟨r, ⟨i, v, rfl, h⟩, rfl⟩
      exact ⟨i, v, (isSingle_iff hn hl i v _).2 rfl, h⟩
    · rintro ⟨i, v, h1, h⟩
      exact ⟨dofRow i v, ⟨i, v, rfl, h⟩, ((isSingle_iff hn hl i v _).1 h1).symm⟩
  · intro d
    simp only [List.mem_map, mem_uniqueRows, mem_wiggleHalf]
    constructor
    · rintro ⟨r, ⟨i, v, rfl, h⟩, rfl⟩
      exact ⟨i, v, (isSingle_iff hn hl i v _).2 rfl, h⟩
    · rintro ⟨i, v, h1, h⟩
      exact ⟨dofRow i v, ⟨i, v, rfl, h⟩, ((isSingle_iff hn hl i v _).1 h1).symm⟩
  · apply mapNodup hn hl _ (nodup_uniqueRows _)
    intro r hr
    obtain ⟨i, v, rfl, _⟩ := (memg r).1 ((mem_uniqueRows _ _).1 hr)
    exact dofRow_length i v
  · apply mapNodup hn hl _ (nodup_uniqueRows _)
    intro r hr
    obtain ⟨i, v, rfl, _⟩ := (mem_wiggleHalf _ _ r).1 ((mem_uniqueRows _ _).1 hr)
    exact dofRow_length i v

/-- **C54** Every entry of both lists has at most one value that is not zero. -/
theorem C54_one_at_a_time (names : List String) (hn : names.Nodup) (hl : names.length = 6) (trans rot : List ℝ)
    (g ind : List (Dict ℝ)) (h : generate6d names trans rot = .ok (g, ind)) (d : Dict ℝ)
    (hd : d ∈ g ∨ d ∈ ind) (k k' : String) (x x' : ℝ) (hk : d.lookup k = some x) (hk' : d.lookup k' = some x')
    (hx : x ≠ 0) (hx' : x' ≠ 0) : k = k' := by
  obtain ⟨hg, hi, _, _⟩ := C54_entries names hn hl trans rot g ind h
  have : ∃ i v, IsSingle names i v d := by
    rcases hd with hd | hd
    · obtain ⟨i, v, h, _⟩ := (hg d).1 hd; exact ⟨i, v, h⟩
    · obtain ⟨i, v, h, _⟩ := (hi d).1 hd; exact ⟨i, v, h⟩
  obtain ⟨i, v, h1, h2, h3⟩ := this
  have key : ∀ k x, d.lookup k = some x → x ≠ 0 → ∃ hi : i < names.length, k = names[i] := by
    intro k x hk hx
    have : k ∈ d.map Prod.fst := by
      by_contra hn
      have : d.lookup k = none := by
        rw [List.lookup_eq_none_iff]
        intro p hp
        simp only [bne_iff_ne, ne_eq, beq_eq_false_iff_ne]
        intro hh
        exact hn (List.mem_map.2 ⟨p, hp, hh.symm⟩)
      rw [this] at hk; cases hk
    rw [h2] at this
    obtain ⟨j, hj, rfl⟩ := List.mem_iff_getElem.1 this
    have := h3 j hj
    rw [hk] at this
    simp only [Option.some.injEq] at this
    by_cases hji : j = i
    · subst hji; exact ⟨hj, rfl⟩
    · rw [if_neg hji] at this; exact absurd this hx
  obtain ⟨_, e1⟩ := key k x hk hx
  obtain ⟨_, e2⟩ := key k' x' hk' hx'
  rw [e1, e2]

/-- **C54** The function fails only for empty input. -/
theorem C54_domain (names : List String) (trans rot : List ℝ) :
    (∃ r, generate6d names trans rot = .ok r) ↔ trans ≠ [] ∧ rot ≠ [] := by
  unfold generate6d
  by_cases h : trans = [] ∨ rot = []
  · simp only [if_pos h, reduceCtorEq, exists_false, false_iff]; tauto
  · simp only [if_neg h, Except.ok.injEq, exists_eq', true_iff]; tauto

/-- default names of the degrees of freedom -/
def dofNames : List String := ["dx", "dy", "dz", "rx", "ry", "rz"]

example : dofNames.Nodup ∧ dofNames.length = 6 ∧ (∃ r, generate6d dofNames [0, 1] [0, 2, 5] = .ok r) ∧
    IsSingle dofNames 1 4 [("dx", 0), ("dy", 4), ("dz", 0), ("rx", 0), ("ry", 0), ("rz", 0)] := by
  have hn : dofNames.Nodup := by simp [dofNames]
  refine ⟨hn, rfl, (C54_domain _ _ _).2 ⟨by simp, by simp⟩, ?_⟩
  rw [isSingle_iff hn rfl, dictZip_eq hn (by simp [dofNames, dofRow])]
  simp [dofNames, dofRow]

/-! ## C55 -/

open Classical in
/-- **C55** `select_1dof_changed(table, par, parlist)` keeps exactly the rows in which all parameters of the
list, except for `par` itself, are zero; order and columns of the table do not change. It works exactly if
all these parameters are columns of the table, otherwise it is a `KeyError`. -/
theorem C55_rows (t : Table) (par : String) (parlist : List String) :
    select1dof t par parlist =
      if ∀ p ∈ parlist, p ≠ par → p ∈ t.names then
        .ok ⟨t.names, t.rows.filter (fun r => decide (∀ p ∈ parlist, p ≠ par → (r p).isZero))⟩
      else .error .keyError := by
  unfold select1dof
  by_cases h : ∀ p ∈ parlist, p ≠ par → p ∈ t.names
  · rw [if_pos h, if_neg]
    · congr 2
      apply List.filter_congr
      intro r _
      congr 1
      simp [List.mem_filter]
    · simp only [List.mem_filter, List.mem_dedup, decide_eq_true_eq, not_exists, not_and, not_not]
      rintro p ⟨h1, h2⟩
      exact h p h1 h2
  · rw [if_neg h, if_pos]
    push Not at h
    obtain ⟨p, h1, h2, h3⟩ := h
    exact ⟨p, by simp [List.mem_filter, h1, h2], h3⟩

/-- **C55** The reference run (all parameters zero) is selected for every parameter, and a run in which some
other parameter changed never is. -/
theorem C55_reference (t t' : Table) (par : String) (parlist : List String)
    (h : select1dof t par parlist = .ok t') (r : Row) (hr : r ∈ t.rows) :
    ((∀ p ∈ parlist, (r p).isZero) → r ∈ t'.rows) ∧
    (∀ p ∈ parlist, p ≠ par → ¬ (r p).isZero → r ∉ t'.rows) := by
  rw [C55_rows] at h
  split at h
  · cases h
    constructor
    · intro h
      rw [List.mem_filter]
      exact ⟨hr, by simp only [decide_eq_true_eq]; exact fun p hp _ => h p hp⟩
    · intro p hp hne hz hm
      rw [List.mem_filter] at hm
      have := hm.2; simp only [decide_eq_true_eq] at this; exact hz (this p hp hne)
  · cases h

/-- Row of a result table made from a dictionary (masked entries are NaN). -/
def rowOfDict (d : Dict ℝ) : Row := fun k => .num (d.lookup k)

/-- **C55** Together with C54: in the table of a run over the whole wiggle list, the selection for a
parameter has exactly the runs where only this parameter has one of the requested values, with
either sign, and the runs without any change. -/
theorem C55_wigglelist (names : List String) (hn : names.Nodup) (hl : names.length = 6) (trans rot : List ℝ)
    (g ind : List (Dict ℝ)) (h : generate6d names trans rot = .ok (g, ind)) (cols : List String)
    (i : ℕ) (hi : i < names.length) (t' : Table)
    (ht : select1dof ⟨cols, g.map rowOfDict⟩ names[i] names = .ok t') (r : Row) :
    r ∈ t'.rows ↔ ∃ d ∈ g, r = rowOfDict d ∧ ∃ v, IsSingle names i v d := by
  rw [C55_rows] at ht
  split at ht
  · cases ht
    simp only [List.mem_filter, List.mem_map, decide_eq_true_eq]
    obtain ⟨hg, _, _, _⟩ := C54_entries names hn hl trans rot g ind h
    constructor
    · rintro ⟨⟨d, hd, rfl⟩, hz⟩
      refine ⟨d, hd, rfl, ?_⟩
      obtain ⟨i', v, hs, _⟩ := (hg d).1 hd
      by_cases hii : i' = i
      · exact ⟨v, hii ▸ hs⟩
      · refine ⟨0, hs.1, hs.2.1, ?_⟩
        intro j hj
        rw [hs.2.2 j hj]
        by_cases hji : j = i'
        · have := hz names[j] (List.getElem_mem hj) (by
            intro e
            exact hii (hji ▸ (List.Nodup.getElem_inj_iff hn).1 e))
          simp only [rowOfDict, hs.2.2 j hj, Val.isZero] at this
          simp only [this, ite_self]
        · simp [hji]
    · rintro ⟨d, hd, rfl, v, hs⟩
      refine ⟨⟨d, hd, rfl⟩, ?_⟩
      intro p hp hne
      obtain ⟨j, hj, rfl⟩ := List.mem_iff_getElem.1 hp
      have : j ≠ i := by rintro rfl; exact hne rfl
      simp [rowOfDict, hs.2.2 j hj, this, Val.isZero]
  · cases ht

example : select1dof ⟨["dx", "dy"], [fun _ => .num (some 0), fun k => .num (some (if k = "dx" then 1 else 0)),
      fun _ => .num (some 2)]⟩ "dx" ["dx", "dy"] =
    .ok ⟨["dx", "dy"], [fun _ => .num (some 0), fun k => .num (some (if k = "dx" then 1 else 0))]⟩ := by
  rw [C55_rows]
  simp [Val.isZero, List.filter_cons]

end Marxs
