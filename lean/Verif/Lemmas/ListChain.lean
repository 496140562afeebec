import Verif.Lemmas.TableOps
import Verif.Spec.ListChain

/-!
# What is written to a photon list for one photon
-/

namespace Marxs
open Classical

theorem sel_at : ∀ (mask : List Bool) (rows : List Row) (vals : List Val) (c : String) (i : ℕ) (r' : Row),
    mask.length = rows.length → vals.length = rows.length → mask[i]? = some true →
    (assignMasked c mask rows (sel mask vals))[i]? = some r' → vals[i]? = some (r' c) := by
  intro mask
  induction mask with
  | nil => intro rows vals c i r' _ _ h; simp at h
  | cons b ms ih =>
    intro rows vals c i r' h1 h2 hm hr
    cases rows with
    | nil => simp at h1
    | cons r rows =>
      cases vals with
      | nil => simp at h2
      | cons v vals =>
        simp only [List.length_cons, Nat.add_right_cancel_iff] at h1 h2
        cases i with
        | zero =>
          simp only [List.getElem?_cons_zero, Option.some.injEq] at hm
          subst hm
          simp only [sel, assignMasked, List.getElem?_cons_zero, Option.some.injEq] at hr
          rw [← hr]
          simp
        | succ i =>
          simp only [List.getElem?_cons_succ] at hm ⊢
          cases b <;> simp only [sel, assignMasked, List.getElem?_cons_succ] at hr <;>
            exact ih rows vals c i r' h1 h2 hm hr

theorem setCol_value {t t' : Table} {n : String} {mask : List Bool} {vals : List Val} (h : setCol t n mask (sel mask vals) = .ok t')
    (h1 : mask.length = t.rows.length) (h2 : vals.length = t.rows.length) {i : ℕ} {r' : Row} (hm : mask[i]? = some true)
    (hr : t'.rows[i]? = some r') : vals[i]? = some (r' n) := by
  unfold setCol at h
  split at h
  · cases h
    exact sel_at mask t.rows vals n i r' h1 h2 hm hr
  · cases h

theorem mul_at : ∀ (mask : List Bool) (rows rows' : List Row) (vals : List Val) (c : String) (i : ℕ) (r r' : Row),
    mask.length = rows.length → vals.length = rows.length → mask[i]? = some true →
    mulMasked c mask rows (sel mask vals) = some rows' → rows[i]? = some r → rows'[i]? = some r' →
    ∃ v, vals[i]? = some v ∧ Val.mul (r c) v = some (r' c) := by
  intro mask
  induction mask with
  | nil => intro rows rows' vals c i r r' _ _ h; simp at h
  | cons b ms ih =>
    intro rows rows' vals c i r r' h1 h2 hm hr hi hi'
    cases rows with
    | nil => simp at h1
    | cons r0 rows =>
      cases vals with
      | nil => simp at h2
      | cons v vals =>
        simp only [List.length_cons, Nat.add_right_cancel_iff] at h1 h2
        cases b with
        | true =>
          simp only [sel, mulMasked, bind, Option.bind_eq_some_iff, pure, Option.some.injEq] at hr
          obtain ⟨p, hp, rest, hrest, rfl⟩ := hr
          cases i with
          | zero =>
            simp only [List.getElem?_cons_zero, Option.some.injEq] at hi hi' ⊢
            subst hi hi'
            exact ⟨v, rfl, by simpa using hp⟩
          | succ i =>
            simp only [List.getElem?_cons_succ] at hi hi' hm ⊢
            exact ih rows rest vals c i r r' h1 h2 hm hrest hi hi'
        | false =>
          simp only [sel, mulMasked, bind, Option.bind_eq_some_iff, pure, Option.some.injEq] at hr
          obtain ⟨rest, hrest, rfl⟩ := hr
          cases i with
          | zero => simp at hm
          | succ i =>
            simp only [List.getElem?_cons_succ] at hi hi' hm ⊢
            exact ih rows rest vals c i r r' h1 h2 hm hrest hi hi'

/-- The new value of a cell: the probability is multiplied, all others are replaced. -/
def newCell (c : String) (old v : Val) : Option Val := if c = "probability" then Val.mul old v else some v

theorem expand_sel {v : ColVal} {k : ℕ} {vs : List Val} (h : v.expand k = .ok vs) : vs.length = k := by
  cases v with
  | scalar x => simp only [ColVal.expand, Except.ok.injEq] at h; simp [← h]
  | arr xs =>
    simp only [ColVal.expand] at h
    split at h
    · cases h; assumption
    · split at h
      · cases h; simp
      · cases h

/-- `value` stands for these values, one for each photon (only those of photons that hit matter). -/
def Stands (mask : List Bool) (value : ColVal) (full : List Val) : Prop :=
  value.expand (countTrue mask) = .ok (sel mask full)

theorem assignCol_value {t t' : Table} {n : String} {mask : List Bool} {value : ColVal} {full : List Val}
    (h : assignColValue t (some n) mask value = .ok t') (hv : Stands mask value full)
    (h1 : mask.length = t.rows.length) (h2 : full.length = t.rows.length) {i : ℕ} {r r' : Row} (hm : mask[i]? = some true)
    (hr : t.rows[i]? = some r) (hr' : t'.rows[i]? = some r') : ∃ v, full[i]? = some v ∧ newCell n (r n) v = some (r' n) := by
  unfold Stands at hv
  unfold assignColValue at h
  split at h
  · rename_i c hc
    simp only [Option.some.injEq] at hc
    subst hc
    split at h
    · cases h
    · split at h
      · cases h
      · simp only [hv, bind, Except.bind] at h
        split at h
        · rename_i rows hrows
          cases h
          obtain ⟨v, h3, h4⟩ := mul_at mask t.rows rows full _ i r r' h1 h2 hm hrows hr hr'
          exact ⟨v, h3, by simpa [newCell] using h4⟩
        · cases h
  · simp at *
  · rename_i c hc hc'
    simp only [Option.some.injEq] at hc'
    subst hc'
    split at h
    · cases h
    · simp only [hv, bind, Except.bind] at h
      cases h
      have := sel_at mask t.rows full n i r' h1 h2 hm hr'
      refine ⟨_, this, ?_⟩
      have hn : n ≠ "probability" := fun e => hc (by rw [e])
      simp [newCell, hn]

theorem assignCol_in {t t' : Table} {n : String} {mask : List Bool} {value : ColVal}
    (ha : assignColValue t (some n) mask value = .ok t') : n ∈ t.names := by
  unfold assignColValue at ha
  split at ha
  · rename_i c hc
    simp only [Option.some.injEq] at hc
    subst hc
    split at ha
    · cases ha
    · split at ha
      · cases ha
      · simp_all
  · simp at *
  · rename_i c hc hc'
    simp only [Option.some.injEq] at hc'
    subst hc'
    split at ha
    · cases ha
    · simp_all

theorem assignAll_in {mask : List Bool} {outs : List (Option String × ColVal)} {t t' : Table}
    (h : assignAll mask outs t = .ok t') {n : String} {value : ColVal} (hn : (some n, value) ∈ outs) : n ∈ t.names := by
  induction outs generalizing t with
  | nil => simp at hn
  | cons o outs ih =>
    obtain ⟨c, v⟩ := o
    simp only [assignAll] at h
    cases ha : assignColValue t c mask v with
    | error e => simp [ha, bind, Except.bind] at h
    | ok t1 =>
      simp only [ha, bind, Except.bind] at h
      rcases List.mem_cons.1 hn with e | hn'
      · simp only [Prod.mk.injEq] at e
        obtain ⟨rfl, rfl⟩ := e
        exact assignCol_in ha
      · rw [← assignColValue_names ha]
        exact ih h hn'

theorem keysOf_mem {outs : List (Option String × ColVal)} {n : String} (h : n ∈ keysOf outs) :
    some n ∈ outs.map Prod.fst := by
  simp only [keysOf, List.mem_filterMap] at h
  obtain ⟨⟨a, b⟩, x1, x2⟩ := h
  exact List.mem_map.2 ⟨(a, b), x1, by simpa using x2⟩

theorem assignAll_value {mask : List Bool} {outs : List (Option String × ColVal)} {t t' : Table}
    (h : assignAll mask outs t = .ok t') (h1 : mask.length = t.rows.length) (hd : (outs.map Prod.fst).Nodup)
    {n : String} {value : ColVal} (hn : (some n, value) ∈ outs) {full : List Val} (hv : Stands mask value full)
    (h2 : full.length = t.rows.length) {i : ℕ} {r r' : Row} (hm : mask[i]? = some true)
    (hr : t.rows[i]? = some r) (hr' : t'.rows[i]? = some r') : ∃ v, full[i]? = some v ∧ newCell n (r n) v = some (r' n) := by
  induction outs generalizing t r with
  | nil => simp at hn
  | cons o outs ih =>
    have hin := assignAll_in h hn
    obtain ⟨c, v⟩ := o
    simp only [List.map_cons, List.nodup_cons] at hd
    simp only [assignAll] at h
    cases ha : assignColValue t c mask v with
    | error e => simp [ha, bind, Except.bind] at h
    | ok t1 =>
      simp only [ha, bind, Except.bind] at h
      have u1 := upd_assignColValue h1 ha
      have hnames := assignColValue_names ha
      have u2 := upd_assignAll (by rw [h1, u1.len]) h
      obtain ⟨r1, hr1⟩ : ∃ r1, t1.rows[i]? = some r1 := get_of_len u2.len hr'
      rcases List.mem_cons.1 hn with e | hn'
      · simp only [Prod.mk.injEq] at e
        obtain ⟨rfl, rfl⟩ := e
        obtain ⟨w, w1, w2⟩ := assignCol_value ha hv h1 h2 hm hr hr1
        refine ⟨w, w1, ?_⟩
        rw [w2, u2.keep i r1 r' hr1 hr' n (by rw [hnames]; exact hin)]
        exact fun _ hx => hd.1 (keysOf_mem hx)
      · have hne : c ≠ some n := fun e => hd.1 (by
          rw [e]; exact List.mem_map.2 ⟨_, hn', rfl⟩)
        obtain ⟨w, w1, w2⟩ := ih h (by rw [h1, u1.len]) hd.2 hn' (by rw [h2, u1.len]) hr1
        refine ⟨w, w1, ?_⟩
        rw [← w2, u1.keep i r r1 hr hr1 n hin]
        intro _ hx
        cases c <;> simp_all

/-! ### Names of columns -/

theorem addCol_names {t : Table} {n c : String} {v : Val} : c ∈ (t.addCol n v).names ↔ c ∈ t.names ∨ c = n := by
  unfold Table.addCol
  split
  · constructor
    · exact .inl
    · rintro (h | rfl) <;> assumption
  · simp

theorem addOutputCols_names {oc : List String} {id : Option String} {cs : List (Option String)} {t : Table} {c : String} :
    c ∈ (addOutputCols oc id cs t).names ↔ c ∈ t.names ∨ c ∈ oc ∨ some c ∈ cs ∨ id = some c := by
  have key : ∀ (l : List (Option String)) (t : Table),
      c ∈ (l.foldl (fun t n => match n with
        | none => t
        | some n => t.addCol n (.num none)) t).names ↔ c ∈ t.names ∨ some c ∈ l := by
    intro l
    induction l with
    | nil => simp
    | cons a l ih =>
      intro t
      rw [List.foldl_cons, ih]
      cases a with
      | none => simp
      | some a => simp [addCol_names]; tauto
  have k := key (oc.map some ++ cs) t
  simp only [List.mem_append, List.mem_map, Option.some.injEq, exists_eq_right] at k
  cases id with
  | none => exact k.trans (by simp)
  | some d =>
    refine ((addCol_names (v := .int (-1)) (n := d)).trans (or_congr_left k)).trans ?_
    simp only [Option.some.injEq, eq_comm (a := d)]
    tauto

theorem setCol_names_eq {t t' : Table} {n : String} {mask : List Bool} {vals : List Val} (h : setCol t n mask vals = .ok t') :
    t'.names = t.names := by
  unfold setCol at h
  split at h <;> cases h
  rfl

theorem setCol_in {t t' : Table} {n : String} {mask : List Bool} {vals : List Val} (h : setCol t n mask vals = .ok t') :
    n ∈ t.names := by
  unfold setCol at h
  split at h
  · assumption
  · cases h

theorem assignLoc_names {e : Elem} {t t' : Table} {mask ic} (h : assignLoc e mask ic t = .ok t') {c : String}
    (hoc : e.outputColumns = []) (hid : e.idCol ≠ some c) (hl : c ∉ locNames e.locCoos) : c ∈ t'.names ↔ c ∈ t.names := by
  unfold assignLoc at h
  cases hlc : e.locCoos with
  | none => rw [hlc] at h; cases h; rfl
  | some ab =>
    obtain ⟨a, b⟩ := ab
    rw [hlc] at h; simp only at h
    split at h
    · cases h
    rename_i t2b ha
    rw [setCol_names_eq h, setCol_names_eq ha, addOutputCols_names]
    simp only [hlc, locNames, List.mem_cons, List.not_mem_nil, or_false, not_or] at hl
    simp [hoc, hid, hl]

theorem assignId_names {e : Elem} {t t' : Table} {mask} (h : assignId e mask t = .ok t') : t'.names = t.names := by
  unfold assignId at h
  cases hid : e.idCol with
  | none => rw [hid] at h; cases h; rfl
  | some c => rw [hid] at h; exact setCol_names_eq h

/-! ### One element -/

/-- What an element with vectorised action writes for a photon that hits. -/
theorem vector_value {e : Elem} {t t' : Table} {mask : List Bool} {ip : List Val} {ic : List (Val × Val)}
    (h : processPhotons e t mask ip ic = .ok t') (h1 : mask.length = t.rows.length) (h2 : ip.length = t.rows.length)
    (h3 : ic.length = t.rows.length) (hoc : e.outputColumns = [])
    {f} (hact : e.action = .vector f) {outs : List (Option String × ColVal)} (hf : f t mask ip ic = .ok outs)
    (hd : (outs.map Prod.fst).Nodup)
    {i : ℕ} {r r' : Row} (hm : mask[i]? = some true) (hr : t.rows[i]? = some r) (hr' : t'.rows[i]? = some r') :
    ip[i]? = some (r' "pos") ∧
    (∀ n value full, (some n, value) ∈ outs → n ∉ locNames e.locCoos → e.idCol ≠ some n → n ≠ "pos" →
      Stands mask value full → full.length = t.rows.length →
      n ∈ t'.names ∧ ∃ v old, full[i]? = some v ∧ (n ∈ t.names → old = r n) ∧ newCell n old v = some (r' n)) ∧
    (∀ n, n ∈ t.names → some n ∉ outs.map Prod.fst → n ∉ locNames e.locCoos → e.idCol ≠ some n → n ≠ "pos" → r' n = r n) ∧
    (∀ a b, e.locCoos = some (a, b) → a ≠ b → e.idCol ≠ some a → e.idCol ≠ some b → a ≠ "pos" → b ≠ "pos" →
      ic[i]? = some (r' a, r' b)) ∧
    ∀ n, some n ∉ outs.map Prod.fst → n ∉ locNames e.locCoos → e.idCol ≠ some n → (n ∈ t'.names ↔ n ∈ t.names) := by
  have hc : countTrue mask ≠ 0 := by
    intro h0
    have := List.count_eq_zero.1 h0
    exact this (List.mem_of_getElem? hm)
  obtain ⟨t2, t3, t4, g2, g3, g4, g5⟩ := processPhotons_ok h hc
  have u2 := upd_runAction g2 h1
  have u3 := upd_assignLoc g3 (by rw [h1, u2.len]) (by rw [h3, u2.len])
  have u4 := upd_assignId g4 (by rw [h1, u3.len, u2.len])
  have u5 := upd_setCol (by rw [h1, u4.len, u3.len, u2.len]) (sel_length (by rw [h1, h2])) g5
  obtain ⟨r4, hr4⟩ := get_of_len u5.len hr'
  obtain ⟨r3, hr3⟩ := get_of_len u4.len hr4
  obtain ⟨r2, hr2⟩ := get_of_len u3.len hr3
  simp only [runAction, hact, hf] at g2
  have v1 := upd_addOutputCols e.outputColumns e.idCol (outs.map (·.1)) t mask
  have v2 := upd_assignAll (by rw [h1, v1.len]) g2
  obtain ⟨r1, hr1⟩ := get_of_len v2.len hr2
  have late : ∀ n, n ∈ t2.names → n ∉ locNames e.locCoos → e.idCol ≠ some n → n ≠ "pos" → r' n = r2 n := by
    intro n hn hl hid hp
    rw [u5.keep i r4 r' hr4 hr' n (u4.names.subset (u3.names.subset hn)) (fun _ => by simpa using hp),
      u4.keep i r3 r4 hr3 hr4 n (u3.names.subset hn) (fun _ => by
        cases hi : e.idCol with
        | none => simp
        | some c => intro hx; rw [hi] at hid; simp at hx; simp [hx] at hid),
      u3.keep i r2 r3 hr2 hr3 n hn (fun _ => hl)]
  have nm : ∀ n, n ∈ t2.names → n ∈ t'.names := fun n hn => u5.names.subset (u4.names.subset (u3.names.subset hn))
  refine ⟨setCol_value g5 (by rw [h1, u4.len, u3.len, u2.len]) (by rw [h2, u4.len, u3.len, u2.len]) hm hr', ?_, ?_, ?_, ?_⟩
  · intro n value full hn hl hid hp hv hlen
    have hin := assignAll_in g2 hn
    have hin2 : n ∈ t2.names := by rw [assignAll_names g2]; exact hin
    obtain ⟨v, w1, w2⟩ := assignAll_value g2 (by rw [h1, v1.len]) hd hn hv (by rw [hlen, v1.len]) hm hr1 hr2
    refine ⟨nm n hin2, v, r1 n, w1, fun hnt => ?_, by rw [w2, late n hin2 hl hid hp]⟩
    exact v1.keep i r r1 hr hr1 n hnt (fun _ => by simp)
  · intro n hnt hk hl hid hp
    have hin2 : n ∈ t2.names := u2.names.subset hnt
    rw [late n hin2 hl hid hp, v2.keep i r1 r2 hr1 hr2 n (v1.names.subset hnt) (fun _ hx => hk (keysOf_mem hx)),
      v1.keep i r r1 hr hr1 n hnt (fun _ => by simp)]
  · intro a b hab hne hia hib hpa hpb
    have len3 : t3.rows.length = t.rows.length := by rw [u3.len, u2.len]
    unfold assignLoc at g3
    rw [hab] at g3
    simp only at g3
    split at g3
    · cases g3
    rename_i t2b ga
    have w1 := upd_addOutputCols e.outputColumns e.idCol [some a, some b] t2 mask
    have l1 : (addOutputCols e.outputColumns e.idCol [some a, some b] t2).rows.length = t.rows.length := by
      rw [w1.len, u2.len]
    have w2 := upd_setCol (by rw [h1, l1]) (sel_length (by rw [h1, List.length_map, h3])) ga
    have w3 := upd_setCol (by rw [h1, w2.len, l1]) (sel_length (by rw [h1, List.length_map, h3])) g3
    obtain ⟨rb, hrb⟩ := get_of_len w3.len hr3
    have ea := setCol_value ga (by rw [h1, l1]) (by rw [List.length_map, h3, l1]) hm hrb
    have eb := setCol_value g3 (by rw [h1, w2.len, l1]) (by rw [List.length_map, h3, w2.len, l1]) hm hr3
    have ka := w3.keep i rb r3 hrb hr3 a (by rw [setCol_names_eq ga]; exact setCol_in ga) (fun _ => by simpa using hne)
    have last : ∀ n, n ∈ t3.names → e.idCol ≠ some n → n ≠ "pos" → r' n = r3 n := by
      intro n hn hid hp
      rw [u5.keep i r4 r' hr4 hr' n (u4.names.subset hn) (fun _ => by simpa using hp),
        u4.keep i r3 r4 hr3 hr4 n hn (fun _ => by
          cases hi : e.idCol with
          | none => simp
          | some c => intro hx; rw [hi] at hid; simp at hx; simp [hx] at hid)]
    rw [last a (by rw [setCol_names_eq g3, setCol_names_eq ga]; exact setCol_in ga) hia hpa,
      last b (by rw [setCol_names_eq g3]; exact setCol_in g3) hib hpb, ka]
    rw [List.getElem?_map, Option.map_eq_some_iff] at ea eb
    obtain ⟨x, x1, x2⟩ := ea
    obtain ⟨y, y1, y2⟩ := eb
    rw [x1] at y1
    cases y1
    rw [x1, ← x2, ← y2]
  · intro n hk hl hid
    rw [setCol_names_eq g5, assignId_names g4, assignLoc_names g3 hoc hid hl, assignAll_names g2, addOutputCols_names]
    have hk' : some n ∉ outs.map (·.1) := hk
    simp [hoc, hid, -List.mem_map, hk']

/-! ### Selected photons -/

theorem sel_map {α β : Type} (g : α → β) : ∀ (mask : List Bool) (l : List α), sel mask (l.map g) = (sel mask l).map g := by
  intro mask
  induction mask with
  | nil => intro l; simp [sel]
  | cons b ms ih =>
    intro l
    cases l with
    | nil => cases b <;> simp [sel]
    | cons x l => cases b <;> simp [sel, ih]

theorem sel_at_mem {α : Type} : ∀ (mask : List Bool) (l : List α) (i : ℕ) (x : α), mask[i]? = some true → l[i]? = some x →
    x ∈ sel mask l := by
  intro mask
  induction mask with
  | nil => intro l i x h; simp at h
  | cons b ms ih =>
    intro l i x hm hx
    cases l with
    | nil => simp at hx
    | cons y l =>
      cases i with
      | zero => simp only [List.getElem?_cons_zero, Option.some.injEq] at hm hx; subst hm hx; simp [sel]
      | succ i =>
        simp only [List.getElem?_cons_succ] at hm hx
        cases b <;> simp only [sel]
        · exact ih l i x hm hx
        · exact List.mem_cons_of_mem _ (ih l i x hm hx)

/-- `mapM` over the selected photons: no error for any of them, and the results are those of each photon. -/
theorem mapM_all {α β : Type} (f : α → Except Err β) : ∀ (l : List α) (vs : List β), l.mapM f = .ok vs →
    List.Forall₂ (fun x v => f x = .ok v) l vs := by
  intro l
  induction l with
  | nil => intro vs h; simp only [List.mapM_nil, pure, Except.pure, Except.ok.injEq] at h; subst h; exact .nil
  | cons a l ih =>
    intro vs h
    simp only [List.mapM_cons, bind, Except.bind] at h
    split at h
    · cases h
    rename_i v hv
    split at h
    · cases h
    rename_i vs' hvs
    simp only [pure, Except.pure, Except.ok.injEq] at h
    subst h
    exact .cons hv (ih vs' hvs)

/-- The value of a calculation, or a default. -/
def okOr {β : Type} (d : β) : Except Err β → β
  | .ok v => v
  | .error _ => d

theorem mapM_sel {α β γ : Type} (f : α → Except Err β) (d : β) (g : β → γ) (mask : List Bool) (l : List α) (vs : List β)
    (h : (sel mask l).mapM f = .ok vs) : vs.map g = sel mask (l.map fun x => g (okOr d (f x))) := by
  have h2 := mapM_all f _ _ h
  rw [sel_map]
  clear h
  generalize sel mask l = l' at h2 ⊢
  induction h2 with
  | nil => rfl
  | cons hx _ ih => simp [hx, okOr, ih]

theorem keys_nodup (o : ListOptic) : o.keys.Nodup := by cases o <;> simp [ListOptic.keys]

theorem keys_ray (o : ListOptic) : ∀ n ∈ o.keys, n ∈ rayColumns ∧ n ≠ "pos" := by
  cases o <;> simp [ListOptic.keys, rayColumns]

theorem nodup_some {l : List String} (h : l.Nodup) : (l.map some).Nodup := h.map (Option.some_injective _)

theorem stands_sel {mask : List Bool} {full : List Val} (h : mask.length = full.length) :
    Stands mask (.arr (sel mask full)) full := by
  simp only [Stands, ColVal.expand, sel_length h, if_true]

theorem fine_loc {c : ElemCols} (hc : c.Fine) : ∀ n ∈ rayColumns, n ∉ locNames c.loc := by
  intro n hn hx
  cases hloc : c.loc with
  | none => rw [hloc] at hx; simp [locNames] at hx
  | some ab =>
    obtain ⟨a, b⟩ := ab
    rw [hloc] at hx
    simp only [locNames, List.mem_cons, List.not_mem_nil, or_false] at hx
    obtain ⟨h1, h2, -⟩ := hc.1 a b hloc
    rcases hx with rfl | rfl
    · exact h1 hn
    · exact h2 hn

/-- A photon that hits an element (other than `ThinLens`). -/
theorem elem_hit {o : ListOptic} {c : ElemCols} (hc : c.Fine) (hthin : ∀ m f, o ≠ .thin m f) {t t' : Table}
    (h : (o.elem c).call t = .ok t') {i : ℕ} {r r' : Row} (hr : t.rows[i]? = some r) (hr' : t'.rows[i]? = some r')
    {q : H4} {y z : ℝ} (hq : o.rowHit r = some (q, y, z)) :
    ∃ vals, o.rowOuts i r (vecCell (some q)) (.num (some y), .num (some z)) = .ok vals ∧ r' "pos" = vecCell (some q) ∧
      (∀ n ∈ o.keys, n ∈ t'.names ∧ ∃ old, (n ∈ t.names → old = r n) ∧ newCell n old (vals n) = some (r' n)) ∧
      (∀ n ∈ rayColumns, n ∈ t.names → n ∉ o.keys → n ≠ "pos" → r' n = r n) ∧
      (∀ n ∈ rayColumns, n ∉ o.keys → (n ∈ t'.names ↔ n ∈ t.names)) ∧
      ∀ a b, c.loc = some (a, b) → r' a = .num (some y) ∧ r' b = .num (some z) := by
  set mask := t.rows.map fun r => (o.rowHit r).isSome with hmask
  set ip := t.rows.map fun r => vecCell ((o.rowHit r).map (·.1)) with hip
  set ic := t.rows.map fun r => ((.num ((o.rowHit r).map (·.2.1)) : Val), (.num ((o.rowHit r).map (·.2.2)) : Val)) with hic
  have hcall : processPhotons (o.elem c) t mask ip ic = .ok t' := h
  have hm : mask[i]? = some true := by rw [hmask, List.getElem?_map, hr]; simp [hq]
  have hipi : ip[i]? = some (vecCell (some q)) := by rw [hip, List.getElem?_map, hr]; simp [hq]
  have hici : ic[i]? = some (.num (some y), .num (some z)) := by rw [hic, List.getElem?_map, hr]; simp [hq]
  set work := t.rows.zipIdx.zip (ip.zip ic) with hwork
  have lw : work.length = t.rows.length := by rw [hwork]; simp [hip, hic]
  have hwi : work[i]? = some ((r, i), (vecCell (some q), (.num (some y), .num (some z)))) := by
    rw [hwork, List.getElem?_zip_eq_some]
    refine ⟨by simp [List.getElem?_zipIdx, hr], ?_⟩
    rw [List.getElem?_zip_eq_some]
    exact ⟨hipi, hici⟩
  have hcount : countTrue mask ≠ 0 := fun h0 => List.count_eq_zero.1 h0 (List.mem_of_getElem? hm)
  have hact : ∃ f, (o.elem c).action = .vector f ∧ f t mask ip ic =
      match (sel mask work).mapM fun x => o.rowOuts x.1.2 x.1.1 x.2.1 x.2.2 with
      | .error e => .error e
      | .ok vs => .ok (o.keys.map (fun n => (some n, .arr (vs.map (· n)))) ++
          c.extra.map fun x => (some x.1, .arr ((sel mask work).map fun w => x.2 w.1.2 w.1.1 w.2.1 w.2.2))) := by
    cases o with
    | thin m f => exact absurd rfl (hthin m f)
    | _ => exact ⟨_, rfl, rfl⟩
  obtain ⟨f, ha, hf⟩ := hact
  cases hvs : (sel mask work).mapM fun x => o.rowOuts x.1.2 x.1.1 x.2.1 x.2.2 with
  | error e =>
    rw [hvs] at hf
    obtain ⟨t2, -, -, g2, -⟩ := processPhotons_ok hcall hcount
    simp only [runAction, ha, hf] at g2
    cases g2
  | ok vs =>
    rw [hvs] at hf
    simp only at hf
    have hmem := sel_at_mem mask work i _ hm hwi
    obtain ⟨vals, hvals⟩ : ∃ v, o.rowOuts i r (vecCell (some q)) (.num (some y), .num (some z)) = .ok v := by
      have hall := mapM_all _ _ _ hvs
      obtain ⟨k, hk⟩ := List.mem_iff_getElem?.1 hmem
      have hlt : k < vs.length := by
        rw [← hall.length_eq]; exact (List.getElem?_eq_some_iff.1 hk).1
      have := (List.forall₂_iff_get.1 hall).2 k (by rw [hall.length_eq]; exact hlt) hlt
      obtain ⟨hk1, hk2⟩ := List.getElem?_eq_some_iff.1 hk
      simp only [List.get_eq_getElem, hk2] at this
      exact ⟨_, this⟩
    have hnames : ∀ n, some n ∈ (o.keys.map (fun n => (some n, ColVal.arr (vs.map (· n)))) ++
          c.extra.map fun x => (some x.1, ColVal.arr ((sel mask work).map fun w => x.2 w.1.2 w.1.1 w.2.1 w.2.2))).map Prod.fst ↔
        n ∈ o.keys ∨ ∃ x ∈ c.extra, x.1 = n := by
      intro n
      simp [List.mem_map]
    have hl : ∀ n ∈ rayColumns, n ∉ locNames (o.elem c).locCoos := fun n hn => fine_loc hc n hn
    have hid : ∀ n ∈ rayColumns, (o.elem c).idCol ≠ some n := fun n hn hx => hc.2.1 n hx hn
    obtain ⟨p1, p2, p3, p4, p5⟩ := vector_value hcall (by simp [hmask]) (by simp [hip]) (by simp [hic]) rfl ha hf (by
      have e : (o.keys.map (fun n => (some n, ColVal.arr (vs.map (· n)))) ++
          c.extra.map fun x => (some x.1, ColVal.arr ((sel mask work).map fun w => x.2 w.1.2 w.1.1 w.2.1 w.2.2))).map Prod.fst =
          (o.keys ++ c.extra.map Prod.fst).map some := by simp [Function.comp_def]
      rw [e]
      refine nodup_some (List.nodup_append.2 ⟨keys_nodup o, hc.2.2.2, ?_⟩)
      intro a ha b hb hab
      subst hab
      obtain ⟨x, hx, rfl⟩ := List.mem_map.1 hb
      exact hc.2.2.1 x hx (keys_ray o _ ha).1) hm hr hr'
    refine ⟨vals, hvals, ?_, ?_, ?_, ?_, ?_⟩
    · rw [hipi] at p1
      exact (Option.some.inj p1).symm
    · intro n hn
      obtain ⟨hnr, hnp⟩ := keys_ray o n hn
      have hst : Stands mask (.arr (vs.map (· n)))
          (work.map fun x => (okOr (fun _ => .num none) (o.rowOuts x.1.2 x.1.1 x.2.1 x.2.2)) n) := by
        rw [mapM_sel _ (fun _ => .num none) (fun v : String → Val => v n) mask work vs hvs]
        exact stands_sel (by simp [hmask, lw])
      obtain ⟨q1, v, old, q2, q3, q4⟩ := p2 n _ _ (List.mem_append_left _ (List.mem_map.2 ⟨n, hn, rfl⟩)) (hl n hnr) (hid n hnr) hnp hst
        (by rw [List.length_map, lw])
      refine ⟨q1, old, q3, ?_⟩
      rw [List.getElem?_map, hwi, Option.map_some, Option.some.injEq] at q2
      simp only [hvals, okOr] at q2
      rw [q2]
      exact q4
    · intro n hnr hnt hk hp
      refine p3 n hnt ?_ (hl n hnr) (hid n hnr) hp
      rw [hnames]
      rintro (h1 | ⟨x, hx, rfl⟩)
      · exact hk h1
      · exact hc.2.2.1 x hx hnr
    · intro n hnr hk
      refine p5 n ?_ (hl n hnr) (hid n hnr)
      rw [hnames]
      rintro (h1 | ⟨x, hx, rfl⟩)
      · exact hk h1
      · exact hc.2.2.1 x hx hnr
    · intro a b hloc
      obtain ⟨a1, a2, a3, a4, a5⟩ := hc.1 a b hloc
      have := p4 a b hloc a3 a4 a5 (fun e => a1 (by simp [e, rayColumns])) (fun e => a2 (by simp [e, rayColumns]))
      rw [hici] at this
      simp only [Option.some.injEq, Prod.mk.injEq] at this
      exact ⟨this.1.symm, this.2.symm⟩

/-- A photon that misses an element. -/
theorem elem_miss {o : ListOptic} {c : ElemCols} (hc : c.Fine) {t t' : Table}
    (h : (o.elem c).call t = .ok t') {i : ℕ} {r r' : Row} (hr : t.rows[i]? = some r) (hr' : t'.rows[i]? = some r')
    (hq : o.rowHit r = none) : (∀ n ∈ t.names, r' n = r n) ∧ ∀ n ∈ rayColumns, n ∈ t'.names → n ∉ t.names → r' n = .num none := by
  have u := upd_processPhotons (e := o.elem c) (t := t) (t' := t') h (by simp [ListOptic.elem]) (by simp [ListOptic.elem])
    (by simp [ListOptic.elem])
  have hm : ((o.elem c).geom t).1[i]? = some false := by
    simp only [ListOptic.elem, List.getElem?_map, hr]; simp [hq]
  refine ⟨fun n hn => u.keep i r r' hr hr' n hn (fun hx => by rw [hm] at hx; simp at hx), fun n hn h1 h2 => ?_⟩
  refine (u.fresh i r' hm hr' n h1 h2).1 fun hx => ?_
  have : c.idCol = some n := by
    have e : (o.elem c).idCol = c.idCol := rfl
    rw [e] at hx
    cases hi : c.idCol <;> simp_all
  exact hc.2.1 n this hn

theorem elem_len {o : ListOptic} {c : ElemCols} {t t' : Table} (h : (o.elem c).call t = .ok t') :
    t'.rows.length = t.rows.length ∧ t.names ⊆ t'.names := by
  have u := upd_processPhotons (e := o.elem c) (t := t) (t' := t') h (by simp [ListOptic.elem]) (by simp [ListOptic.elem])
    (by simp [ListOptic.elem])
  exact ⟨u.len, u.names.subset⟩

theorem stands_scalar {mask : List Bool} (v : Val) (n : ℕ) (h : mask.length = n) :
    Stands mask (.scalar v) (List.replicate n v) := by
  have : ∀ (mask : List Bool), sel mask (List.replicate mask.length v) = List.replicate (countTrue mask) v := by
    intro mask
    induction mask with
    | nil => simp [sel, countTrue]
    | cons b ms ih =>
      cases b
      · simp only [List.length_cons, List.replicate_succ, sel, ih]
        simp [countTrue]
      · simp only [List.length_cons, List.replicate_succ, sel, ih]
        simp [countTrue, List.replicate_succ]
  simp only [Stands, ColVal.expand, ← h, this]

theorem sel_zip {α β : Type} : ∀ (mask : List Bool) (l : List α) (k : List β), l.length = k.length →
    (sel mask l).zip (sel mask k) = sel mask (l.zip k) := by
  intro mask
  induction mask with
  | nil => intro l k _; simp [sel]
  | cons b ms ih =>
    intro l k h
    cases l with
    | nil => cases k with
      | nil => cases b <;> simp [sel]
      | cons y k => simp at h
    | cons x l => cases k with
      | nil => simp at h
      | cons y k =>
        simp only [List.length_cons, Nat.add_right_cancel_iff] at h
        cases b <;> simp [sel, ih l k h]

theorem sel_sub {α : Type} : ∀ (mask : List Bool) (l : List α), (sel mask l).Sublist l := by
  intro mask
  induction mask with
  | nil => intro l; simp [sel]
  | cons b ms ih =>
    intro l
    cases l with
    | nil => cases b <;> simp [sel]
    | cons x l =>
      cases b
      · simpa [sel] using (ih l).cons x
      · simpa [sel] using (ih l).cons_cons x

theorem selectedRows_mem {mask : List Bool} {t : Table} {i : ℕ} {r : Row} (hm : mask[i]? = some true)
    (hr : t.rows[i]? = some r) : (i, r) ∈ selectedRows mask t := by
  unfold selectedRows
  rw [sel_zip _ _ _ (by simp)]
  refine sel_at_mem _ _ i _ hm ?_
  rw [List.getElem?_zip_eq_some]
  exact ⟨by rw [List.getElem?_range (List.getElem?_eq_some_iff.1 hr).1], hr⟩

theorem selectedRows_nodup (mask : List Bool) (t : Table) : ((selectedRows mask t).map Prod.fst).Nodup := by
  unfold selectedRows
  rw [sel_zip _ _ _ (by simp)]
  have : ((List.range t.rows.length).zip t.rows).map Prod.fst = List.range t.rows.length := by
    rw [List.map_fst_zip (by simp)]
  have h := (sel_sub mask ((List.range t.rows.length).zip t.rows)).map Prod.fst
  rw [this] at h
  exact h.nodup List.nodup_range

theorem eachLoop_keep {f : Row → Except Err (List Val)} {work : List (ℕ × Row)} {t t' : Table}
    (h : eachLoop [] f work t = .ok t') {i : ℕ} (hw : i ∉ work.map Prod.fst)
    {r r' : Row} (hr : t.rows[i]? = some r) (hr' : t'.rows[i]? = some r') : ∀ n ∈ t.names, r' n = r n := by
  induction work generalizing t r with
  | nil => cases h; rw [hr] at hr'; cases hr'; intros; rfl
  | cons p work ih =>
    obtain ⟨j, rj⟩ := p
    simp only [List.map_cons, List.mem_cons, not_or] at hw
    simp only [eachLoop] at h
    cases hf : f rj with
    | error e => simp [hf, bind, Except.bind] at h
    | ok outs =>
      simp only [hf, bind, Except.bind] at h
      split at h
      · cases h
      rename_i t1 h1
      have u := upd_assignAll (by simp [oneHot]) h1
      obtain ⟨r1, hr1⟩ : ∃ r1, t1.rows[i]? = some r1 :=
        ⟨_, List.getElem?_eq_getElem (by rw [u.len]; exact (List.getElem?_eq_some_iff.1 hr).1)⟩
      intro n hn
      rw [ih h hw.2 hr1 n (by rw [assignAll_names h1]; exact hn)]
      exact u.keep i r r1 hr hr1 n hn fun hx => absurd (oneHot_get.1 hx).2 hw.1

/-- What the loop over photons writes. -/
theorem eachLoop_value {f : Row → Except Err (List Val)} {work : List (ℕ × Row)} {t t' : Table}
    (h : eachLoop [] f work t = .ok t') (hd : (work.map Prod.fst).Nodup) {i : ℕ} {r0 : Row} (hw : (i, r0) ∈ work)
    {r r' : Row} (hr : t.rows[i]? = some r) (hr' : t'.rows[i]? = some r') :
    ∃ outs, f r0 = .ok outs ∧ (∀ n v, (n, v) ∈ (eachCols []).zip outs → n ∈ t.names ∧ newCell n (r n) v = some (r' n)) ∧
      ∀ n ∈ t.names, n ∉ eachCols [] → r' n = r n := by
  induction work generalizing t r with
  | nil => simp at hw
  | cons p work ih =>
    obtain ⟨j, rj⟩ := p
    simp only [List.map_cons, List.nodup_cons] at hd
    simp only [eachLoop] at h
    cases hf : f rj with
    | error e => simp [hf, bind, Except.bind] at h
    | ok outs =>
      simp only [hf, bind, Except.bind] at h
      split at h
      · cases h
      rename_i t1 h1
      have hlen : (oneHot t.rows.length j).length = t.rows.length := by simp [oneHot]
      have u := upd_assignAll hlen h1
      have hn := assignAll_names h1
      obtain ⟨r1, hr1⟩ : ∃ r1, t1.rows[i]? = some r1 :=
        ⟨_, List.getElem?_eq_getElem (by rw [u.len]; exact (List.getElem?_eq_some_iff.1 hr).1)⟩
      rcases List.mem_cons.1 hw with e | hw'
      · cases e
        have keep := eachLoop_keep h hd.1 hr1 hr'
        refine ⟨outs, hf, ?_, ?_⟩
        · intro n v hnv
          have hmem : (some n, ColVal.scalar v) ∈ ((eachCols []).map some).zip (outs.map ColVal.scalar) := by
            rw [List.zip_map]
            exact List.mem_map.2 ⟨(n, v), hnv, rfl⟩
          have hin := assignAll_in h1 hmem
          have hnd : ((((eachCols []).map some).zip (outs.map ColVal.scalar)).map Prod.fst).Nodup := by
            refine List.Nodup.sublist ?_ (nodup_some (l := eachCols []) (by simp [eachCols]))
            have : ∀ (l : List (Option String)) (k : List ColVal), ((l.zip k).map Prod.fst).Sublist l := by
              intro l
              induction l with
              | nil => intro k; simp
              | cons x l ih => intro k; cases k with
                | nil => simp
                | cons y k => simpa using ih k
            exact this _ _
          have hi : (oneHot t.rows.length i)[i]? = some true :=
            oneHot_get.2 ⟨(List.getElem?_eq_some_iff.1 hr).1, rfl⟩
          obtain ⟨w, hw1, hw2⟩ := assignAll_value h1 hlen hnd hmem (stands_scalar v _ hlen) (by simp) hi hr hr1
          rw [List.getElem?_replicate, if_pos (List.getElem?_eq_some_iff.1 hr).1, Option.some.injEq] at hw1
          subst hw1
          exact ⟨hin, by rw [keep n (by rw [hn]; exact hin)]; exact hw2⟩
        · intro n hnt hne
          rw [keep n (by rw [hn]; exact hnt)]
          exact u.keep i r r1 hr hr1 n hnt fun _ hx => hne (keysOf_zip hx)
      · have hij : i ≠ j := fun e => hd.1 (List.mem_map.2 ⟨(i, r0), hw', e⟩)
        obtain ⟨o, a1, a2, a3⟩ := ih h hd.2 hw' hr1
        have keep : ∀ n ∈ t.names, r1 n = r n := fun n hnt =>
          u.keep i r r1 hr hr1 n hnt fun hx => absurd (oneHot_get.1 hx).2 hij
        refine ⟨o, a1, fun n v hnv => ?_, fun n hnt hne => ?_⟩
        · obtain ⟨b1, b2⟩ := a2 n v hnv
          rw [hn] at b1
          exact ⟨b1, by rw [← keep n b1]; exact b2⟩
        · rw [a3 n (by rw [hn]; exact hnt) hne, keep n hnt]

/-- What happens after the own action of an element: local coordinates, id, position. -/
theorem process_after {e : Elem} {t t' : Table} {mask : List Bool} {ip : List Val} {ic : List (Val × Val)}
    (h : processPhotons e t mask ip ic = .ok t') (h1 : mask.length = t.rows.length) (h2 : ip.length = t.rows.length)
    (h3 : ic.length = t.rows.length) (hoc : e.outputColumns = [])
    {i : ℕ} {r' : Row} (hm : mask[i]? = some true) (hr' : t'.rows[i]? = some r') :
    ∃ t2 r2, runAction e t mask ip ic = .ok t2 ∧ t2.rows[i]? = some r2 ∧ ip[i]? = some (r' "pos") ∧
    (∀ n, n ∈ t2.names → n ∉ locNames e.locCoos → e.idCol ≠ some n → n ≠ "pos" → r' n = r2 n) ∧
    (∀ a b, e.locCoos = some (a, b) → a ≠ b → e.idCol ≠ some a → e.idCol ≠ some b → a ≠ "pos" → b ≠ "pos" →
      ic[i]? = some (r' a, r' b)) ∧
    ∀ n, n ∉ locNames e.locCoos → e.idCol ≠ some n → (n ∈ t'.names ↔ n ∈ t2.names) := by
  have hc : countTrue mask ≠ 0 := by
    intro h0
    have := List.count_eq_zero.1 h0
    exact this (List.mem_of_getElem? hm)
  obtain ⟨t2, t3, t4, g2, g3, g4, g5⟩ := processPhotons_ok h hc
  have u2 := upd_runAction g2 h1
  have u3 := upd_assignLoc g3 (by rw [h1, u2.len]) (by rw [h3, u2.len])
  have u4 := upd_assignId g4 (by rw [h1, u3.len, u2.len])
  have u5 := upd_setCol (by rw [h1, u4.len, u3.len, u2.len]) (sel_length (by rw [h1, h2])) g5
  obtain ⟨r4, hr4⟩ := get_of_len u5.len hr'
  obtain ⟨r3, hr3⟩ := get_of_len u4.len hr4
  obtain ⟨r2, hr2⟩ := get_of_len u3.len hr3
  have late : ∀ n, n ∈ t2.names → n ∉ locNames e.locCoos → e.idCol ≠ some n → n ≠ "pos" → r' n = r2 n := by
    intro n hn hl hid hp
    rw [u5.keep i r4 r' hr4 hr' n (u4.names.subset (u3.names.subset hn)) (fun _ => by simpa using hp),
      u4.keep i r3 r4 hr3 hr4 n (u3.names.subset hn) (fun _ => by
        cases hi : e.idCol with
        | none => simp
        | some c => intro hx; rw [hi] at hid; simp at hx; simp [hx] at hid),
      u3.keep i r2 r3 hr2 hr3 n hn (fun _ => hl)]
  have nm : ∀ n, n ∈ t2.names → n ∈ t'.names := fun n hn => u5.names.subset (u4.names.subset (u3.names.subset hn))
  refine ⟨t2, r2, g2, hr2, setCol_value g5 (by rw [h1, u4.len, u3.len, u2.len]) (by rw [h2, u4.len, u3.len, u2.len]) hm hr', late, ?_, ?_⟩
  · intro a b hab hne hia hib hpa hpb
    have len3 : t3.rows.length = t.rows.length := by rw [u3.len, u2.len]
    unfold assignLoc at g3
    rw [hab] at g3
    simp only at g3
    split at g3
    · cases g3
    rename_i t2b ga
    have w1 := upd_addOutputCols e.outputColumns e.idCol [some a, some b] t2 mask
    have l1 : (addOutputCols e.outputColumns e.idCol [some a, some b] t2).rows.length = t.rows.length := by
      rw [w1.len, u2.len]
    have w2 := upd_setCol (by rw [h1, l1]) (sel_length (by rw [h1, List.length_map, h3])) ga
    have w3 := upd_setCol (by rw [h1, w2.len, l1]) (sel_length (by rw [h1, List.length_map, h3])) g3
    obtain ⟨rb, hrb⟩ := get_of_len w3.len hr3
    have ea := setCol_value ga (by rw [h1, l1]) (by rw [List.length_map, h3, l1]) hm hrb
    have eb := setCol_value g3 (by rw [h1, w2.len, l1]) (by rw [List.length_map, h3, w2.len, l1]) hm hr3
    have ka := w3.keep i rb r3 hrb hr3 a (by rw [setCol_names_eq ga]; exact setCol_in ga) (fun _ => by simpa using hne)
    have last : ∀ n, n ∈ t3.names → e.idCol ≠ some n → n ≠ "pos" → r' n = r3 n := by
      intro n hn hid hp
      rw [u5.keep i r4 r' hr4 hr' n (u4.names.subset hn) (fun _ => by simpa using hp),
        u4.keep i r3 r4 hr3 hr4 n hn (fun _ => by
          cases hi : e.idCol with
          | none => simp
          | some c => intro hx; rw [hi] at hid; simp at hx; simp [hx] at hid)]
    rw [last a (by rw [setCol_names_eq g3, setCol_names_eq ga]; exact setCol_in ga) hia hpa,
      last b (by rw [setCol_names_eq g3]; exact setCol_in g3) hib hpb, ka]
    rw [List.getElem?_map, Option.map_eq_some_iff] at ea eb
    obtain ⟨x, x1, x2⟩ := ea
    obtain ⟨y, y1, y2⟩ := eb
    rw [x1] at y1
    cases y1
    rw [x1, ← x2, ← y2]
  · intro n hl hid
    rw [setCol_names_eq g5, assignId_names g4, assignLoc_names g3 hoc hid hl]

/-- A photon that hits a `ThinLens`. -/
theorem thin_hit {m : M4} {fl : ℝ} {c : ElemCols} (hc : c.Fine) {t t' : Table}
    (h : ((ListOptic.thin m fl).elem c).call t = .ok t') {i : ℕ} {r r' : Row} (hr : t.rows[i]? = some r)
    (hr' : t'.rows[i]? = some r') {q : H4} {y z : ℝ} (hq : (ListOptic.thin m fl).rowHit r = some (q, y, z)) :
    r' "pos" = vecCell (some q) ∧
      (∃ outs, thinOuts m fl r = .ok outs ∧ ∀ n v, (n, v) ∈ (eachCols []).zip outs → n ≠ "pos" → newCell n (r n) v = some (r' n)) ∧
      (∀ n ∈ rayColumns, n ∈ t.names → n ∉ eachCols [] → r' n = r n) ∧
      (∀ n ∈ rayColumns, (n ∈ t'.names ↔ n ∈ t.names)) ∧
      ∀ a b, c.loc = some (a, b) → r' a = .num (some y) ∧ r' b = .num (some z) := by
  set mask := t.rows.map fun r => ((ListOptic.thin m fl).rowHit r).isSome with hmask
  set ip := t.rows.map fun r => vecCell (((ListOptic.thin m fl).rowHit r).map (·.1)) with hip
  set ic := t.rows.map fun r => ((.num (((ListOptic.thin m fl).rowHit r).map (·.2.1)) : Val),
    (.num (((ListOptic.thin m fl).rowHit r).map (·.2.2)) : Val)) with hic
  have hcall : processPhotons ((ListOptic.thin m fl).elem c) t mask ip ic = .ok t' := h
  have hm : mask[i]? = some true := by rw [hmask, List.getElem?_map, hr]; simp [hq]
  have hipi : ip[i]? = some (vecCell (some q)) := by rw [hip, List.getElem?_map, hr]; simp [hq]
  have hici : ic[i]? = some (.num (some y), .num (some z)) := by rw [hic, List.getElem?_map, hr]; simp [hq]
  obtain ⟨t2, r2, g2, hr2, p1, p2, p3, p4⟩ := process_after hcall (by simp [hmask]) (by simp [hip]) (by simp [hic]) rfl hm hr'
  have hl : ∀ n ∈ rayColumns, n ∉ locNames ((ListOptic.thin m fl).elem c).locCoos := fun n hn => fine_loc hc n hn
  have hid : ∀ n ∈ rayColumns, ((ListOptic.thin m fl).elem c).idCol ≠ some n := fun n hn hx => hc.2.1 n hx hn
  have g2' : eachLoop [] (thinOuts m fl) (selectedRows mask t) t = .ok t2 := g2
  have hnames := (upd_eachLoop (mask := mask) (fun p hp => selectedRows_mask hp) g2').2
  obtain ⟨outs, q1, q2, q3⟩ := eachLoop_value g2' (selectedRows_nodup mask t) (selectedRows_mem hm hr) hr hr2
  have hec : ∀ n ∈ eachCols [], n ∈ rayColumns := by simp [eachCols, rayColumns]
  refine ⟨?_, ⟨outs, q1, fun n v hnv hp => ?_⟩, fun n hn hnt hne => ?_, fun n hn => ?_, fun a b hloc => ?_⟩
  · rw [hipi] at p1
    exact (Option.some.inj p1).symm
  · obtain ⟨b1, b2⟩ := q2 n v hnv
    have hn := hec n (List.of_mem_zip hnv).1
    rw [p2 n (by rw [hnames]; exact b1) (hl n hn) (hid n hn) hp]
    exact b2
  · rw [p2 n (by rw [hnames]; exact hnt) (hl n hn) (hid n hn) (fun e => hne (by simp [e, eachCols]))]
    exact q3 n hnt hne
  · rw [p4 n (hl n hn) (hid n hn), hnames]
  · obtain ⟨a1, a2, a3, a4, a5⟩ := hc.1 a b hloc
    have := p3 a b hloc a3 a4 a5 (fun e => a1 (by simp [e, rayColumns])) (fun e => a2 (by simp [e, rayColumns]))
    rw [hici] at this
    simp only [Option.some.injEq, Prod.mk.injEq] at this
    exact ⟨this.1.symm, this.2.symm⟩

end Marxs
