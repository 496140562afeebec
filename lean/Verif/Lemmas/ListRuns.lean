import Verif.Lemmas.ListChain

/-!
# Lemmas for C163: when the steps on a photon list succeed
-/

namespace Marxs
open Classical

/-- The probability of each photon is a number (or NaN). -/
def NumProb (t : Table) : Prop := ∀ r ∈ t.rows, ∃ x, r "probability" = .num x

theorem mulMasked_runs : ∀ (mask : List Bool) (rows : List Row) (vs : List Val),
    (∀ r ∈ rows, ∃ x, r "probability" = .num x) → (∀ v ∈ vs, ∃ x, v = .num x) →
    ∃ rows', mulMasked "probability" mask rows vs = some rows' ∧ ∀ r ∈ rows', ∃ x, r "probability" = .num x := by
  intro mask
  induction mask with
  | nil => intro rows vs h1 h2; exact ⟨rows, rfl, h1⟩
  | cons b ms ih =>
    intro rows vs h1 h2
    cases rows with
    | nil => exact ⟨[], by cases b <;> rfl, by simp⟩
    | cons r rows =>
      cases b with
      | false =>
        obtain ⟨rest, e1, e2⟩ := ih rows vs (fun r hr => h1 r (by simp [hr])) h2
        refine ⟨r :: rest, by simp [mulMasked, e1], ?_⟩
        intro r' hr'
        rcases List.mem_cons.1 hr' with rfl | hr'
        · exact h1 _ (by simp)
        · exact e2 _ hr'
      | true =>
        cases vs with
        | nil => exact ⟨r :: rows, rfl, h1⟩
        | cons v vs =>
          obtain ⟨rest, e1, e2⟩ := ih rows vs (fun r hr => h1 r (by simp [hr])) (fun v hv => h2 v (by simp [hv]))
          obtain ⟨x, hx⟩ := h1 r (by simp)
          obtain ⟨y, hy⟩ := h2 v (by simp)
          obtain ⟨w, hw⟩ : ∃ w, Val.mul (r "probability") v = some (.num w) := by
            rw [hx, hy]
            cases x <;> cases y <;> simp [Val.mul]
          refine ⟨Function.update r "probability" (.num w) :: rest, by simp [mulMasked, e1, hw], ?_⟩
          intro r' hr'
          rcases List.mem_cons.1 hr' with rfl | hr'
          · exact ⟨w, by simp⟩
          · exact e2 _ hr'

theorem assignMasked_prob {c : String} (hc : c ≠ "probability") : ∀ (mask : List Bool) (rows : List Row) (vs : List Val),
    (∀ r ∈ rows, ∃ x, r "probability" = .num x) → ∀ r ∈ assignMasked c mask rows vs, ∃ x, r "probability" = .num x := by
  intro mask
  induction mask with
  | nil => intro rows vs h; exact h
  | cons b ms ih =>
    intro rows vs h
    cases rows with
    | nil => cases b <;> exact h
    | cons r rows =>
      cases b with
      | false =>
        intro r' hr'
        rcases List.mem_cons.1 hr' with rfl | hr'
        · exact h _ (by simp)
        · exact ih rows vs (fun r hr => h r (by simp [hr])) _ hr'
      | true =>
        cases vs with
        | nil => exact h
        | cons v vs =>
          intro r' hr'
          rcases List.mem_cons.1 hr' with rfl | hr'
          · obtain ⟨x, hx⟩ := h r (by simp)
            exact ⟨x, by rw [Function.update_of_ne hc.symm]; exact hx⟩
          · exact ih rows vs (fun r hr => h r (by simp [hr])) _ hr'

/-- A value that can be written to a column. -/
def Writable (mask : List Bool) (n : String) (v : ColVal) : Prop :=
  (∃ vs, v.expand (countTrue mask) = .ok vs) ∧
    (n = "probability" → ∀ x ∈ v.toList, ¬ x.OutOfRange ∧ ∃ y, x = .num y)

theorem assignCol_runs {t : Table} {n : String} {mask : List Bool} {v : ColVal} (hn : n ∈ t.names) (hp : NumProb t)
    (hv : Writable mask n v) : ∃ t', assignColValue t (some n) mask v = .ok t' ∧ NumProb t' := by
  obtain ⟨⟨vs, hvs⟩, hr⟩ := hv
  by_cases e : n = "probability"
  · subst e
    have h1 : ¬ ∃ x ∈ v.toList, x.OutOfRange := fun ⟨x, hx, hx'⟩ => (hr rfl x hx).1 hx'
    obtain ⟨rows, e1, e2⟩ := mulMasked_runs mask t.rows vs hp (fun x hx => (hr rfl x (expand_mem hvs hx)).2)
    refine ⟨{ t with rows := rows }, ?_, e2⟩
    simp only [assignColValue, if_neg h1, not_true_eq_false, hn, if_false, hvs, bind, Except.bind, e1]
  · refine ⟨{ t with rows := assignMasked n mask t.rows vs }, ?_, assignMasked_prob e mask t.rows vs hp⟩
    unfold assignColValue
    split
    · simp_all
    · simp_all
    · rename_i c h1 h2
      cases h2
      simp only [hn, not_true_eq_false, if_false, hvs, bind, Except.bind]

theorem assignAll_runs {mask : List Bool} {outs : List (Option String × ColVal)} {t : Table} (hp : NumProb t)
    (h : ∀ x ∈ outs, ∃ n, x.1 = some n ∧ n ∈ t.names ∧ Writable mask n x.2) :
    ∃ t', assignAll mask outs t = .ok t' ∧ NumProb t' := by
  induction outs generalizing t with
  | nil => exact ⟨t, rfl, hp⟩
  | cons o outs ih =>
    obtain ⟨c, v⟩ := o
    obtain ⟨n, e, h1, h2⟩ := h (c, v) (by simp)
    simp only at e h2
    subst e
    obtain ⟨t1, a1, a2⟩ := assignCol_runs h1 hp h2
    have hn : t1.names = t.names := by
      have : assignAll mask [(some n, v)] t = .ok t1 := by simp [assignAll, a1, bind, Except.bind]
      exact assignAll_names this
    obtain ⟨t2, b1, b2⟩ := ih a2 (fun x hx => by rw [hn]; exact h x (by simp [hx]))
    exact ⟨t2, by simp only [assignAll, a1, bind, Except.bind]; exact b1, b2⟩

theorem addCol_prob {t : Table} {n : String} {v : Val} (hp : NumProb t) (hn : "probability" ∈ t.names) :
    NumProb (t.addCol n v) := by
  unfold Table.addCol
  split
  · exact hp
  · rename_i hx
    intro r hr
    obtain ⟨r0, h0, rfl⟩ := List.mem_map.1 hr
    obtain ⟨x, e⟩ := hp r0 h0
    refine ⟨x, ?_⟩
    rw [Function.update_of_ne (fun e' : "probability" = n => hx (e' ▸ hn))]
    exact e

theorem addOutputCols_prob {oc : List String} {idCol : Option String} {names : List (Option String)} {t : Table} (hp : NumProb t)
    (hn : "probability" ∈ t.names) : NumProb (addOutputCols oc idCol names t) := by
  have key : ∀ (l : List (Option String)) (t : Table), NumProb t → "probability" ∈ t.names →
      NumProb (l.foldl (fun t n => match n with
        | none => t
        | some n => t.addCol n (.num none)) t) ∧
      "probability" ∈ (l.foldl (fun t n => match n with
        | none => t
        | some n => t.addCol n (.num none)) t).names := by
    intro l
    induction l with
    | nil => intro t h1 h2; exact ⟨h1, h2⟩
    | cons a l ih =>
      intro t h1 h2
      cases a with
      | none => exact ih t h1 h2
      | some n =>
        refine ih _ (addCol_prob h1 h2) ?_
        rw [addCol_names]
        exact Or.inl h2
  obtain ⟨k1, k2⟩ := key (oc.map some ++ names) t hp hn
  unfold addOutputCols
  cases idCol with
  | none => exact k1
  | some c => exact addCol_prob k1 k2

theorem eachLoop_runs {f : Row → Except Err (List Val)} {work : List (ℕ × Row)} {t : Table} (hp : NumProb t)
    (hn : ∀ n ∈ eachCols [], n ∈ t.names)
    (hf : ∀ x ∈ work, ∃ outs, f x.2 = .ok outs ∧ ∀ v, ("probability", v) ∈ (eachCols []).zip outs → ¬ v.OutOfRange ∧ ∃ y, v = .num y) :
    ∃ t', eachLoop [] f work t = .ok t' ∧ NumProb t' := by
  induction work generalizing t with
  | nil => exact ⟨t, rfl, hp⟩
  | cons w work ih =>
    obtain ⟨i, r⟩ := w
    obtain ⟨outs, h1, h2⟩ := hf (i, r) (by simp)
    obtain ⟨t1, a1, a2⟩ := assignAll_runs (mask := oneHot t.rows.length i)
      (outs := ((eachCols []).map some).zip (outs.map ColVal.scalar)) hp (by
        intro x hx
        rw [List.zip_map] at hx
        obtain ⟨⟨n, v⟩, y1, rfl⟩ := List.mem_map.1 hx
        refine ⟨n, rfl, hn n (List.of_mem_zip y1).1, ⟨_, rfl⟩, ?_⟩
        rintro rfl x hx
        simp only [Prod.map_snd, ColVal.toList, List.mem_singleton] at hx
        subst hx
        exact h2 _ y1)
    obtain ⟨t2, b1, b2⟩ := ih a2 (fun n hx => by rw [assignAll_names a1]; exact hn n hx) (fun x hx => hf x (by simp [hx]))
    exact ⟨t2, by simp only [eachLoop, h1, bind, Except.bind, a1]; exact b1, b2⟩

theorem setCol_runs {t : Table} {n : String} {mask : List Bool} {vals : List Val} (h : n ∈ t.names) :
    ∃ t', setCol t n mask vals = .ok t' ∧ t'.names = t.names := 
  ⟨{ t with rows := assignMasked n mask t.rows vals }, by simp only [setCol, h, if_true], rfl⟩

theorem process_runs {e : Elem} {t : Table} {mask : List Bool} {ip : List Val} {ic : List (Val × Val)}
    (h : countTrue mask ≠ 0 → ∃ t2, runAction e t mask ip ic = .ok t2 ∧ "pos" ∈ t2.names) {a b : String}
    (hloc : e.locCoos = some (a, b)) : ∃ t', processPhotons e t mask ip ic = .ok t' := by
  unfold processPhotons
  split
  · exact ⟨t, rfl⟩
  rename_i hc
  obtain ⟨t2, h, hpos⟩ := h hc
  simp only [h, bind, Except.bind]
  have nm : ∀ n, n ∈ t2.names ∨ n = a ∨ n = b ∨ e.idCol = some n →
      n ∈ (addOutputCols e.outputColumns e.idCol [some a, some b] t2).names := by
    intro n hn
    rw [addOutputCols_names]
    rcases hn with h1 | rfl | rfl | h1
    · exact Or.inl h1
    · simp
    · simp
    · exact Or.inr (Or.inr (Or.inr h1))
  obtain ⟨t3, e3, n3⟩ := setCol_runs (mask := mask) (vals := sel mask (ic.map (·.1))) (nm a (by simp))
  obtain ⟨t4, e4, n4⟩ := setCol_runs (t := t3) (n := b) (mask := mask) (vals := sel mask (ic.map (·.2)))
    (by rw [n3]; exact nm b (by simp))
  have e5 : assignLoc e mask ic t2 = .ok t4 := by simp only [assignLoc, hloc, e3, e4]
  simp only [e5]
  cases hid : e.idCol with
  | none =>
    obtain ⟨t5, e6, -⟩ := setCol_runs (t := t4) (n := "pos") (mask := mask) (vals := sel mask ip)
      (by rw [n4, n3]; exact nm _ (Or.inl hpos))
    exact ⟨t5, by simp only [assignId, hid, e6]⟩
  | some c =>
    obtain ⟨t5, e6, n5⟩ := setCol_runs (t := t4) (n := c) (mask := mask) (vals := List.replicate (countTrue mask) (.int e.idNum))
      (by rw [n4, n3]; exact nm _ (by simp [hid]))
    obtain ⟨t6, e7, -⟩ := setCol_runs (t := t5) (n := "pos") (mask := mask) (vals := sel mask ip)
      (by rw [n5, n4, n3]; exact nm _ (Or.inl hpos))
    exact ⟨t6, by simp only [assignId, hid, e6, e7]⟩

theorem mapM_runs {α β : Type} (f : α → Except Err β) (l : List α) (h : ∀ x ∈ l, ∃ y, f x = .ok y) : ∃ vs, l.mapM f = .ok vs := by
  induction l with
  | nil => exact ⟨[], rfl⟩
  | cons x l ih =>
    obtain ⟨y, hy⟩ := h x (by simp)
    obtain ⟨vs, hvs⟩ := ih fun x hx => h x (by simp [hx])
    exact ⟨y :: vs, by simp [List.mapM_cons, hy, hvs, bind, Except.bind, pure, Except.pure]⟩

/-- An element (other than `ThinLens`) can be applied if the calculation for each photon that hits succeeds, with a
probability between 0 and 1. -/
theorem elem_runs {o : ListOptic} {c : ElemCols} (hc : c.Fine) (hthin : ∀ m f, o ≠ .thin m f) {a b : String}
    (hloc : c.loc = some (a, b)) {t : Table} (hp : NumProb t) (hn : needColumns ⊆ t.names)
    (h : ∀ (i : ℕ) (r : Row) (q : H4) (y z : ℝ), t.rows[i]? = some r → o.rowHit r = some (q, y, z) →
      ∃ vals, o.rowOuts i r (vecCell (some q)) (.num (some y), .num (some z)) = .ok vals ∧
        ("probability" ∈ o.keys → ¬ (vals "probability").OutOfRange ∧ ∃ x, vals "probability" = .num x)) :
    ∃ t', (o.elem c).call t = .ok t' := by
  set mask := t.rows.map fun r => (o.rowHit r).isSome with hmask
  set ip := t.rows.map fun r => vecCell ((o.rowHit r).map (·.1)) with hip
  set ic := t.rows.map fun r => ((.num ((o.rowHit r).map (·.2.1)) : Val), (.num ((o.rowHit r).map (·.2.2)) : Val)) with hic
  set work := t.rows.zipIdx.zip (ip.zip ic) with hwork
  have lw : work.length = t.rows.length := by rw [hwork]; simp [hip, hic]
  have hact : ∃ f, (o.elem c).action = .vector f ∧ f t mask ip ic =
      match (sel mask work).mapM fun x => o.rowOuts x.1.2 x.1.1 x.2.1 x.2.2 with
      | .error e => .error e
      | .ok vs => .ok (o.keys.map (fun n => (some n, .arr (vs.map (· n)))) ++
          c.extra.map fun x => (some x.1, .arr ((sel mask work).map fun w => x.2 w.1.2 w.1.1 w.2.1 w.2.2))) := by
    cases o with
    | thin m f => exact absurd rfl (hthin m f)
    | _ => exact ⟨_, rfl, rfl⟩
  obtain ⟨f, ha, hf⟩ := hact
  have hsel : ∀ x ∈ sel mask work, ∃ (i : ℕ) (r : Row) (q : H4) (y z : ℝ), t.rows[i]? = some r ∧ o.rowHit r = some (q, y, z) ∧
      x = ((r, i), (vecCell (some q), (.num (some y), .num (some z)))) := by
    intro x hx
    have : ∀ (mask : List Bool) (l : List _), x ∈ sel mask l → ∃ i : ℕ, mask[i]? = some true ∧ l[i]? = some x := by
      intro mask
      induction mask with
      | nil => intro l hl; simp [sel] at hl
      | cons b ms ih =>
        intro l hl
        cases l with
        | nil => cases b <;> simp [sel] at hl
        | cons y l =>
          cases b with
          | false => obtain ⟨i, h1, h2⟩ := ih l hl; exact ⟨i + 1, by simpa using h1, by simpa using h2⟩
          | true =>
            rcases List.mem_cons.1 hl with rfl | hl
            · exact ⟨0, by simp, by simp⟩
            · obtain ⟨i, h1, h2⟩ := ih l hl; exact ⟨i + 1, by simpa using h1, by simpa using h2⟩
    obtain ⟨i, h1, h2⟩ := this mask work hx
    rw [hmask, List.getElem?_map] at h1
    obtain ⟨r, hr, hr2⟩ := Option.map_eq_some_iff.1 h1
    obtain ⟨⟨q, y, z⟩, hq⟩ := Option.isSome_iff_exists.1 hr2
    refine ⟨i, r, q, y, z, hr, hq, ?_⟩
    rw [hwork, List.getElem?_zip_eq_some, List.getElem?_zip_eq_some] at h2
    obtain ⟨w1, w2, w3⟩ := h2
    rw [hip, List.getElem?_map, hr] at w2
    rw [hic, List.getElem?_map, hr] at w3
    simp only [List.getElem?_zipIdx, hr] at w1
    simp only [Option.map_some, hq, Option.some.injEq, Nat.zero_add] at w1 w2 w3
    ext1
    · exact w1.symm
    · ext1
      · exact w2.symm
      · exact w3.symm
  obtain ⟨vs, hvs⟩ := mapM_runs (fun x : (Row × ℕ) × Val × Val × Val => o.rowOuts x.1.2 x.1.1 x.2.1 x.2.2) (sel mask work) (by
    intro x hx
    obtain ⟨i, r, q, y, z, h1, h2, rfl⟩ := hsel x hx
    obtain ⟨v, hv, -⟩ := h i r q y z h1 h2
    exact ⟨v, hv⟩)
  have hall := mapM_all _ _ _ hvs
  have hlen : vs.length = countTrue mask := by
    rw [← hall.length_eq, sel_length (by rw [hmask, List.length_map, lw])]
  have hprob : "probability" ∈ t.names := hn (by simp [needColumns])
  have hpv : "probability" ∈ o.keys → ∀ v ∈ vs, ¬ (v "probability").OutOfRange ∧ ∃ x, v "probability" = .num x := by
    intro hk v hv
    obtain ⟨k, hk1⟩ := List.mem_iff_getElem.1 hv
    obtain ⟨hk2, hk3⟩ := hk1
    have hk4 : k < (sel mask work).length := by rw [hall.length_eq]; exact hk2
    have := (List.forall₂_iff_get.1 hall).2 k hk4 hk2
    simp only [List.get_eq_getElem, hk3] at this
    obtain ⟨i, r, q, y, z, h1, h2, h3⟩ := hsel _ (List.getElem_mem hk4)
    obtain ⟨w, hw1, hw2⟩ := h i r q y z h1 h2
    rw [h3] at this
    simp only [hw1, Except.ok.injEq] at this
    subst this
    exact hw2 hk
  rw [hvs] at hf
  simp only at hf
  refine process_runs (mask := mask) (ip := ip) (ic := ic) (fun _ => ?_) hloc
  obtain ⟨t2, a1, a2⟩ := assignAll_runs (mask := mask) (outs := o.keys.map (fun n => (some n, ColVal.arr (vs.map (· n)))) ++
          c.extra.map fun x => (some x.1, ColVal.arr ((sel mask work).map fun w => x.2 w.1.2 w.1.1 w.2.1 w.2.2)))
      (t := addOutputCols (o.elem c).outputColumns (o.elem c).idCol ((o.keys.map (fun n => (some n, ColVal.arr (vs.map (· n)))) ++
          c.extra.map fun x => (some x.1, ColVal.arr ((sel mask work).map fun w => x.2 w.1.2 w.1.1 w.2.1 w.2.2))).map (·.1)) t)
      (addOutputCols_prob hp hprob) (by
    intro x hx
    have hin : x.1 ∈ (o.keys.map (fun n => (some n, ColVal.arr (vs.map (· n)))) ++
          c.extra.map fun x => (some x.1, ColVal.arr ((sel mask work).map fun w => x.2 w.1.2 w.1.1 w.2.1 w.2.2))).map (·.1) :=
      List.mem_map.2 ⟨x, hx, rfl⟩
    rcases List.mem_append.1 hx with hx | hx
    · obtain ⟨n, hn1, rfl⟩ := List.mem_map.1 hx
      refine ⟨n, rfl, addOutputCols_names.2 (Or.inr (Or.inr (Or.inl hin))), ⟨vs.map (· n), ?_⟩, ?_⟩
      · simp only [ColVal.expand, List.length_map, hlen, if_true]
      · rintro rfl x hx
        obtain ⟨v, hv, rfl⟩ := List.mem_map.1 hx
        exact hpv hn1 v hv
    · obtain ⟨y, hy, rfl⟩ := List.mem_map.1 hx
      refine ⟨y.1, rfl, addOutputCols_names.2 (Or.inr (Or.inr (Or.inl hin))),
        ⟨(sel mask work).map fun w => y.2 w.1.2 w.1.1 w.2.1 w.2.2, ?_⟩, ?_⟩
      · simp only [ColVal.expand, List.length_map, hall.length_eq, hlen, if_true]
      · intro e
        exact absurd (by simp [e, rayColumns]) (hc.2.2.1 y hy))
  refine ⟨t2, by simp only [runAction, ha, hf]; exact a1, ?_⟩
  rw [assignAll_names a1]
  exact addOutputCols_names.2 (Or.inl (hn (by simp [needColumns])))

/-- The same for a `ThinLens`. -/
theorem thin_runs {m : M4} {f : ℝ} {c : ElemCols} {a b : String} (hloc : c.loc = some (a, b)) {t : Table} (hp : NumProb t)
    (hn : needColumns ⊆ t.names) : ∃ t', ((ListOptic.thin m f).elem c).call t = .ok t' := by
  refine process_runs (e := (ListOptic.thin m f).elem c) (fun _ => ?_) hloc
  obtain ⟨t2, a1, a2⟩ := eachLoop_runs (f := thinOuts m f)
    (work := selectedRows (((ListOptic.thin m f).elem c).geom t).1 t) hp
    (fun n hx => hn (by simp only [eachCols, needColumns, List.append_nil, List.mem_cons, List.not_mem_nil, or_false] at hx ⊢; tauto))
    (fun x _ => by
      unfold thinOuts
      split
      · exact ⟨_, rfl, by simp [eachCols, Val.OutOfRange]⟩
      · exact ⟨_, rfl, by simp [eachCols, Val.OutOfRange]⟩)
  refine ⟨t2, a1, ?_⟩
  rw [(upd_eachLoop (mask := (((ListOptic.thin m f).elem c).geom t).1) (fun p hp => selectedRows_mask hp) a1).2]
  exact hn (by simp [needColumns])

end Marxs
