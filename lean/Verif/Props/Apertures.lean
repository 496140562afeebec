import Verif.Spec.Apertures
import Verif.Props.Pipeline
import Verif.Props.Aperture
import Verif.Props.Random
import Verif.Props.SkyPointing

/-! # C107, C108: apertures, energy filters and CCD energies act on photon lists as documented -/

namespace Marxs

open Classical

/-! ## Steps -/

theorem addCol_mem (t : Table) (n c : String) (v : Val) : c ∈ (t.addCol n v).names ↔ c ∈ t.names ∨ c = n := by
  unfold Table.addCol
  split
  · constructor
    · exact .inl
    · rintro (h | h)
      · exact h
      · rw [h]; assumption
  · simp

theorem addOutputCols_mem (oc : List String) (id : Option String) (cs : List (Option String)) (t : Table) (c : String) :
    (c ∈ t.names ∨ id = some c ∨ some c ∈ cs) → c ∈ (addOutputCols oc id cs t).names := by
  have key : ∀ (l : List (Option String)) (t : Table), (c ∈ t.names ∨ some c ∈ l) →
      c ∈ (l.foldl (fun t n => match n with
        | none => t
        | some n => t.addCol n (.num none)) t).names := by
    intro l
    induction l with
    | nil => intro t h; simpa using h
    | cons n l ih =>
      intro t h
      simp only [List.foldl_cons]
      apply ih
      cases n with
      | none => simpa using h
      | some n =>
        simp only [addCol_mem]
        rcases h with h | h
        · exact .inl (.inl h)
        · rcases List.mem_cons.1 h with h | h
          · exact .inl (.inr (by simpa using h))
          · exact .inr h
  intro h
  unfold addOutputCols
  cases id with
  | none =>
    apply key
    rcases h with h | h | h
    · exact .inl h
    · cases h
    · exact .inr (by simp [h])
  | some d =>
    simp only [addCol_mem]
    rcases h with h | h | h
    · exact .inl (key _ _ (.inl h))
    · exact .inr (by simpa using h.symm)
    · exact .inl (key _ _ (.inr (by simp [h])))

theorem mulMasked_ok {col : String} {mask : List Bool} {rows : List Row} {vals : List Val}
    (hr : ∀ (i : ℕ) (r : Row), mask[i]? = some true → rows[i]? = some r → ∃ p, r col = .num p)
    (hv : ∀ v ∈ vals, ∃ q, v = .num q) : ∃ rows', mulMasked col mask rows vals = some rows' := by
  induction mask generalizing rows vals with
  | nil => exact ⟨rows, by simp [mulMasked]⟩
  | cons m ms ih =>
    cases rows with
    | nil => exact ⟨[], by cases m <;> cases vals <;> simp [mulMasked]⟩
    | cons r rs =>
      have htail : ∀ (i : ℕ) (r : Row), ms[i]? = some true → rs[i]? = some r → ∃ p, r col = .num p :=
        fun i r h1 h2 => hr (i + 1) r (by simpa using h1) (by simpa using h2)
      cases m with
      | false =>
        obtain ⟨rows', h⟩ := ih htail hv
        exact ⟨r :: rows', by simp [mulMasked, h]⟩
      | true =>
        cases vals with
        | nil => exact ⟨r :: rs, by simp [mulMasked]⟩
        | cons v vs =>
          obtain ⟨rows', h⟩ := ih htail (fun w hw => hv w (List.mem_cons_of_mem _ hw))
          obtain ⟨p, hp⟩ := hr 0 r rfl rfl
          obtain ⟨q, hq⟩ := hv v List.mem_cons_self
          have : ∃ x, Val.mul (r col) v = some x := by
            rw [hp, hq]
            cases p <;> cases q <;> exact ⟨_, rfl⟩
          obtain ⟨x, hx⟩ := this
          exact ⟨Function.update r col x :: rows', by simp [mulMasked, h, hx]⟩

/-- After a successful action, the rest of `process_photons` cannot fail if the position column exists. -/
theorem processPhotons_rest {e : Elem} {t t2 : Table} {mask : List Bool} {ip : List Val} {ic : List (Val × Val)}
    (h2 : runAction e t mask ip ic = .ok t2) (hid : ∀ c, e.idCol = some c → c ∈ t2.names)
    (hpos : "pos" ∈ t2.names) : ∃ t', processPhotons e t mask ip ic = .ok t' := by
  by_cases hc : countTrue mask = 0
  · exact ⟨t, by simp [processPhotons, hc]⟩
  obtain ⟨t3, h3, hn3⟩ : ∃ t3, assignLoc e mask ic t2 = .ok t3 ∧ ∀ c ∈ t2.names, c ∈ t3.names := by
    unfold assignLoc
    cases e.locCoos with
    | none => exact ⟨t2, rfl, fun _ h => h⟩
    | some ab =>
      obtain ⟨a, b⟩ := ab
      have ha := addOutputCols_mem e.outputColumns e.idCol [some a, some b] t2 a (by simp)
      have hb := addOutputCols_mem e.outputColumns e.idCol [some a, some b] t2 b (by simp)
      simp only [setCol, ha, hb, if_true]
      exact ⟨_, rfl, fun c h => addOutputCols_mem _ _ _ _ _ (.inl h)⟩
  obtain ⟨t4, h4, hn4⟩ : ∃ t4, assignId e mask t3 = .ok t4 ∧ ∀ c ∈ t3.names, c ∈ t4.names := by
    unfold assignId
    cases hi : e.idCol with
    | none => exact ⟨t3, rfl, fun _ h => h⟩
    | some c =>
      simp only [setCol, hn3 c (hid c hi), if_true]
      exact ⟨_, rfl, fun _ h => h⟩
  refine ⟨{ t4 with rows := assignMasked "pos" mask t4.rows (sel mask ip) }, ?_⟩
  simp only [processPhotons, hc, if_false, h2, h3, h4, bind, Except.bind, setCol, hn4 _ (hn3 _ hpos), if_true]

/-- An element that returns nothing but factors for the probability never fails if the factors are fine. -/
theorem processPhotons_prob_ok {e : Elem} {t : Table} {mask : List Bool} {ip : List Val} {ic : List (Val × Val)}
    {f v} (ha : e.action = .vector f) (hf : f t mask ip ic = .ok [(some "probability", v)])
    (hlen : ∃ vs, v.expand (countTrue mask) = .ok vs)
    (hv : ∀ x ∈ v.toList, ¬ x.OutOfRange ∧ ∃ q, x = .num q)
    (hp : "probability" ∈ t.names) (hpos : "pos" ∈ t.names) (hl : mask.length = t.rows.length)
    (hr : ∀ (i : ℕ) (r : Row), mask[i]? = some true → t.rows[i]? = some r → ∃ p, r "probability" = .num p) :
    ∃ t', processPhotons e t mask ip ic = .ok t' := by
  obtain ⟨vs, hvs⟩ := hlen
  set t1 := addOutputCols e.outputColumns e.idCol [some "probability"] t with ht1
  have u := upd_addOutputCols e.outputColumns e.idCol [some "probability"] t mask
  rw [← ht1] at u
  have hvs' : ∀ x ∈ vs, ∃ q, x = .num q := by
    intro x hx
    have : x ∈ v.toList := by
      cases v with
      | scalar w =>
        simp only [ColVal.expand, Except.ok.injEq] at hvs
        rw [← hvs] at hx
        simpa [ColVal.toList] using (List.mem_replicate.1 hx).2
      | arr ws =>
        simp only [ColVal.expand] at hvs
        split at hvs
        · cases hvs; exact hx
        · split at hvs
          · simp only [Except.ok.injEq] at hvs
            rw [← hvs] at hx
            simpa [ColVal.toList] using (List.mem_replicate.1 hx).2
          · cases hvs
    exact (hv x this).2
  obtain ⟨rows', hrows⟩ := mulMasked_ok (col := "probability") (mask := mask) (rows := t1.rows) (vals := vs)
    (by
      intro i r1 hm hr1
      obtain ⟨r, hr0⟩ := get_of_len u.len hr1
      obtain ⟨p, hp'⟩ := hr i r hm hr0
      exact ⟨p, by rw [u.keep i r r1 hr0 hr1 _ hp (by simp), hp']⟩) hvs'
  have hno : ¬ ∃ x ∈ v.toList, x.OutOfRange := by
    rintro ⟨x, hx, ho⟩; exact (hv x hx).1 ho
  refine processPhotons_rest (t2 := { t1 with rows := rows' }) ?_ ?_ ?_
  · simp only [runAction, ha, hf, List.map_cons, List.map_nil, assignAll, assignColValue, if_neg hno]
    rw [← ht1]
    simp only [u.names.subset hp, not_true_eq_false, if_false, hvs, bind, Except.bind, hrows]
  · intro c hc
    exact addOutputCols_mem _ _ _ _ _ (.inr (.inl hc))
  · exact u.names.subset hpos

theorem placeMasked_length {α : Type} (mask : List Bool) (xs vs : List α) :
    (placeMasked mask xs vs).length = xs.length := by
  induction mask generalizing xs vs with
  | nil => simp [placeMasked]
  | cons m ms ih =>
    cases m <;> cases xs <;> cases vs <;> simp [placeMasked, ih]

theorem placeMasked_get {α : Type} {mask : List Bool} {xs vs : List α} {i : ℕ} {v : α}
    (hm : mask[i]? = some true) (hl : mask.length = xs.length) (hv : vs[rank mask i]? = some v) :
    (placeMasked mask xs vs)[i]? = some v := by
  induction mask generalizing xs vs i with
  | nil => simp at hm
  | cons m ms ih =>
    cases xs with
    | nil => simp at hl
    | cons x xs =>
      have hl' : ms.length = xs.length := by simpa using hl
      cases i with
      | zero =>
        simp at hm
        subst hm
        cases vs with
        | nil => simp [rank] at hv
        | cons w ws => simpa [placeMasked, rank] using hv
      | succ i =>
        have hm' : ms[i]? = some true := by simpa using hm
        cases m with
        | false =>
          simp only [placeMasked, List.getElem?_cons_succ]
          exact ih hm' hl' (by simpa [rank] using hv)
        | true =>
          cases vs with
          | nil => simp at hv
          | cons w ws =>
            simp only [placeMasked, List.getElem?_cons_succ]
            exact ih hm' hl' (by simpa [rank] using hv)

/-- One aperture acting on selected photons. -/
theorem aperture_process (a : Aperture) (hv : a.Valid) (hg : a.GoodNames) (u : ℕ → ℝ × ℝ)
    (hu : ∀ k, (0 ≤ (u k).1 ∧ (u k).1 < 1) ∧ 0 ≤ (u k).2 ∧ (u k).2 < 1) (t : Table) (mask : List Bool)
    (hl : mask.length = t.rows.length) (hpos : "pos" ∈ t.names) (hd : "dir" ∈ t.names) (hp : "probability" ∈ t.names)
    (hr : ∀ (i : ℕ) (r : Row), mask[i]? = some true → t.rows[i]? = some r → ∃ (d : H4) (p : ℝ),
      r "dir" = vecVal (some d) ∧ d.w = 0 ∧ d.xyz.dot d.xyz = 1 ∧ r "probability" = .num (some p)) :
    ∃ t', a.process u t mask = .ok t' ∧ t'.rows.length = t.rows.length ∧ t.names <+: t'.names ∧
      (true ∈ mask → ∀ c, a.idCol = some c → c ∈ t'.names) ∧
      ∀ (i : ℕ) (r r' : Row), t.rows[i]? = some r → t'.rows[i]? = some r' →
        (mask[i]? = some false → ∀ c ∈ t.names, r' c = r c) ∧
        (mask[i]? = some true → a.Entered t.names r r') := by
  have hvals : ∀ x ∈ (ColVal.arr ((sel mask t.rows).map (apertureFactor a.m))).toList,
      ¬ x.OutOfRange ∧ ∃ q, x = .num q := by
    intro x hx
    obtain ⟨r, _, rfl⟩ := List.mem_map.1 hx
    unfold apertureFactor
    split
    · refine ⟨not_outOfRange ?_ ?_, _, rfl⟩ <;> simp [aperturePhoton]
    · exact ⟨by simp [Val.OutOfRange], _, rfl⟩
  have hact : ∀ ip ic, (fun (t : Table) (mask : List Bool) (_ : List Val) (_ : List (Val × Val)) =>
      if "dir" ∉ t.names then (.error .keyError : Except Err (List (Option String × ColVal)))
      else .ok [(some "probability", .arr ((sel mask t.rows).map (apertureFactor a.m)))]) t mask ip ic =
      .ok [(some "probability", .arr ((sel mask t.rows).map (apertureFactor a.m)))] := by
    intro ip ic
    simp only [hd, not_true_eq_false, if_false]
  have hexp : ColVal.expand (countTrue mask) (.arr ((sel mask t.rows).map (apertureFactor a.m))) =
      .ok ((sel mask t.rows).map (apertureFactor a.m)) := by
    simp only [ColVal.expand, List.length_map, sel_length hl, if_true]
  obtain ⟨ip, hip⟩ : ∃ ip, ip = placeMasked mask (t.rows.map (· "pos"))
      (((List.range (countTrue mask)).map fun k => a.xy (u k)).map
        fun p => vecVal (some (aperturePhoton a.m ⟨0, 0, 0, 0⟩ p.1 p.2).1)) := ⟨_, rfl⟩
  obtain ⟨ic, hic⟩ : ∃ ic, ic = placeMasked mask (t.rows.map fun _ => (Val.num (some 0), Val.num (some 0)))
      (((List.range (countTrue mask)).map fun k => a.xy (u k)).map
        fun p => (Val.num (some p.1), Val.num (some p.2))) := ⟨_, rfl⟩
  have hproc : a.process u t mask = processPhotons a.elem t mask ip ic := by rw [hip, hic]; rfl
  obtain ⟨t', ht'⟩ := processPhotons_prob_ok (e := a.elem) (t := t) (mask := mask) (ip := ip) (ic := ic)
    rfl (hact ip ic) ⟨_, hexp⟩ hvals hp hpos hl
    (fun i r h1 h2 => by obtain ⟨d, p, _, _, _, h⟩ := hr i r h1 h2; exact ⟨_, h⟩)
  have hl1 : ip.length = t.rows.length := by rw [hip, placeMasked_length, List.length_map]
  have hl2 : ic.length = t.rows.length := by rw [hic, placeMasked_length, List.length_map]
  obtain ⟨hnames, hlen, hmiss⟩ := C02_miss_unchanged hl hl1 hl2 ht'
  refine ⟨t', hproc.trans ht', hlen, hnames, ?_, ?_⟩
  · intro hm c hc
    have hc0 : countTrue mask ≠ 0 := by
      intro h0
      exact absurd hm (by simpa [countTrue, List.count_eq_zero] using h0)
    obtain ⟨t2, t3, t4, _, _, h4, h5⟩ := processPhotons_ok ht' hc0
    rw [(setCol_names h5).1]
    have hc' : a.elem.idCol = some c := hc
    simp only [assignId, hc'] at h4
    rw [(setCol_names h4).1]
    exact (setCol_names h4).2
  intro i r r' hri hri'
  refine ⟨fun hm => (hmiss i r r' hm hri hri').1, ?_⟩
  intro hm
  have hit := C02_hit_updated hl hl1 hl2 (e := a.elem) rfl (hact ip ic) (by simp [keysOf]) ht' i r r' hm hri hri'
  obtain ⟨h1, h2, _, _, h5, h6⟩ := hit
  have hrk := rank_lt hm
  obtain ⟨⟨hu1, hu1'⟩, hu2, hu2'⟩ := hu (rank mask i)
  have hloc : ∀ c, (∀ x y, a.locCoos = some (x, y) → c ≠ x ∧ c ≠ y) → c ∉ locNames a.elem.locCoos := by
    intro c h
    show c ∉ locNames a.locCoos
    cases hlc : a.locCoos with
    | none => simp [locNames]
    | some ab =>
      obtain ⟨h1, h2⟩ := h ab.1 ab.2 hlc
      simp [locNames, h1, h2]
  refine ⟨?_, ?_, ?_, ?_⟩
  · set xy := a.xy (u (rank mask i)) with hxy
    refine ⟨(aperturePhoton a.m ⟨0, 0, 0, 0⟩ xy.1 xy.2).1, ?_, ?_, ?_⟩
    · rw [hip, placeMasked_get hm (by rw [List.length_map]; exact hl)
        (v := vecVal (some (aperturePhoton a.m ⟨0, 0, 0, 0⟩ xy.1 xy.2).1))
        (by simp [List.getElem?_range hrk, hxy])] at h1
      simpa using h1
    · obtain ⟨_, w1, w2, w3⟩ := hv.1
      simp only [aperturePhoton, H4.add_w, H4.smul_w]
      rw [show (center a.m).w = 1 from w3, show (vY a.m).w = 0 from w1, show (vZ a.m).w = 0 from w2]
      ring
    · have hval := hv.2.2
      unfold Aperture.Contains
      rw [hxy]
      unfold Aperture.xy
      cases hs : a.shape with
      | rect => exact C27_rectangle_inside a.m _ _ _ ⟨hu1, hu1'⟩ ⟨hu2, hu2'⟩
      | circle rInner phi0 phi1 =>
        rw [hs] at hval
        obtain ⟨d, phi, q1, q2, q3, q4, q5, _⟩ := C27_circle_inside a.m hv.2.1 hv.1 hval.1 rInner phi0 phi1
          ⟨hval.2.1, hval.2.2.1⟩ hval.2.2.2 ⟨0, 0, 0, 0⟩ _ _ ⟨hu1, hu1'⟩ ⟨hu2, hu2'⟩
        exact ⟨d, phi, q1, q2, q3, q4, q5⟩
  · intro d p hdir hprob
    obtain ⟨d', p', e1, e2, e3, e4⟩ := hr i r hm hri
    have hdd : d = d' := by
      have := hdir.symm.trans e1
      simp only [vecVal, Val.vec.injEq, List.cons.injEq, Option.some.injEq] at this
      obtain ⟨x1, x2, x3, x4, _⟩ := this
      cases d; cases d'; simp_all
    subst hdd
    have h5' := (h5 "probability" _ List.mem_cons_self (by decide)
      (fun hc => by have := hg.1 _ hc; simp at this)
      (hloc _ (fun x y hxy => by
        obtain ⟨g1, g2, _⟩ := hg.2 x y hxy
        simp only [List.mem_cons, List.not_mem_nil, not_or, or_false] at g1 g2
        exact ⟨fun h => g1.2.2 h.symm, fun h => g2.2.2 h.symm⟩))).2 rfl hp
    obtain ⟨q, hq, _, hmul⟩ := h5'
    have hat : (ColVal.arr ((sel mask t.rows).map (apertureFactor a.m))).at (rank mask i) =
        some (apertureFactor a.m r) := by
      rw [← expand_at hexp hrk, List.getElem?_map, sel_get hm hl, hri]
      rfl
    rw [hat] at hq
    cases hq
    have hfac : apertureFactor a.m r = .num (some (max (-(d.xyz.dot (vX a.m).xyz.unit)) 0)) := by
      have hto : (r "dir").toH4 = some d := by rw [e1]; rfl
      unfold apertureFactor
      rw [hto]
      simp only [(C27_projection a.m hv.1 hv.2.1 d e2 e3 0 0).1]
    rw [hfac, hprob] at hmul
    simp only [Val.mul, Option.some.injEq] at hmul
    exact hmul.symm
  · intro c hc
    refine h2 c hc ?_
    have := hg.1 c hc
    simp only [List.mem_cons, not_or] at this
    exact this.1
  · intro c hc hne hid hl'
    simp only [List.mem_cons, List.not_mem_nil, not_or, or_false] at hne
    exact h6 c hc (by simpa [keysOf] using hne.2) hne.1 hid (hloc c hl')

theorem addColPos_spec (t : Table) : "pos" ∈ (addColPos t).names ∧ t.names <+: (addColPos t).names ∧
    (addColPos t).rows.length = t.rows.length ∧ ∀ (i : ℕ) (r r0 : Row), t.rows[i]? = some r →
      (addColPos t).rows[i]? = some r0 → ∀ c ∈ t.names, r0 c = r c := by
  unfold addColPos Table.addCol
  split
  · exact ⟨by assumption, List.prefix_refl _, rfl, fun i r r0 h h0 => by rw [h] at h0; cases h0; intros; rfl⟩
  · rename_i hn
    refine ⟨by simp, by simp, by simp, ?_⟩
    intro i r r0 h h0 c hc
    simp only [List.getElem?_map, h, Option.map_some, Option.some.injEq] at h0
    rw [← h0, Function.update_of_ne]
    rintro rfl
    exact hn hc

theorem Aperture.Entered.congr {a : Aperture} {names names' : List String} {r r0 r' r'' : Row}
    (h : a.Entered names' r0 r') (hn : ∀ c ∈ names, c ∈ names') (hd : "dir" ∈ names) (hp : "probability" ∈ names)
    (h0 : ∀ c ∈ names, r0 c = r c) (h1 : ∀ c, (c ∈ names ∨ c = "pos" ∨ a.idCol = some c) → r'' c = r' c) :
    a.Entered names r r'' := by
  obtain ⟨⟨q, q1, q2, q3⟩, b, c, d⟩ := h
  refine ⟨⟨q, by rw [h1 _ (.inr (.inl rfl)), q1], q2, q3⟩, ?_, ?_, ?_⟩
  · intro dd p e1 e2
    rw [h1 _ (.inl hp)]
    exact b dd p (by rw [h0 _ hd, e1]) (by rw [h0 _ hp, e2])
  · intro x hx
    rw [h1 _ (.inr (.inr hx))]
    exact c x hx
  · intro x hx h2 h3 h4
    rw [h1 _ (.inl hx), d x (hn x hx) h2 h3 h4, h0 x hx]

/-! ## C107 -/

/-- **C107** A photon list with directions and probabilities goes through a rectangular or circular aperture without
error: no photon is lost or added, every photon gets a starting position inside of the opening, its probability
is multiplied with the projection factor (zero if it comes from behind), its id is set and everything else in the
list stays as it was. -/
theorem C107_flat (a : Aperture) (hv : a.Valid) (hg : a.GoodNames) (u : ℕ → ℝ × ℝ)
    (hu : ∀ k, (0 ≤ (u k).1 ∧ (u k).1 < 1) ∧ 0 ≤ (u k).2 ∧ (u k).2 < 1) (t : Table) (ht : HasDirs t) :
    ∃ t', a.call u t = .ok t' ∧ t'.rows.length = t.rows.length ∧ t.names <+: t'.names ∧ "pos" ∈ t'.names ∧
      ∀ (i : ℕ) (r : Row), t.rows[i]? = some r → ∃ r', t'.rows[i]? = some r' ∧ a.Entered t.names r r' := by
  obtain ⟨p1, p2, p3, p4⟩ := addColPos_spec t
  obtain ⟨hd, hp, hrows⟩ := ht
  obtain ⟨t', h1, h2, h3, h4, h5⟩ := aperture_process a hv hg u hu (addColPos t)
    ((addColPos t).rows.map fun _ => true) (by simp) p1 (p2.subset hd) (p2.subset hp) (by
      intro i r0 _ hr0
      obtain ⟨r, hr⟩ := get_of_len p3 hr0
      obtain ⟨d, p, e1, e2, e3, e4⟩ := hrows r (List.mem_of_getElem? hr)
      exact ⟨d, p, by rw [p4 i r r0 hr hr0 _ hd, e1], e2, e3, by rw [p4 i r r0 hr hr0 _ hp, e4]⟩)
  refine ⟨t', h1, h2.trans p3, p2.trans h3, h3.subset p1, ?_⟩
  intro i r hr
  have hi : i < t.rows.length := (List.getElem?_eq_some_iff.1 hr).1
  have hi0 : i < (addColPos t).rows.length := by omega
  have hi' : i < t'.rows.length := by omega
  refine ⟨t'.rows[i], List.getElem?_eq_getElem hi', ?_⟩
  have := (h5 i _ _ (List.getElem?_eq_getElem hi0) (List.getElem?_eq_getElem hi')).2 (by simp [hi0])
  exact this.congr p2.subset hd hp (p4 i r _ hr (List.getElem?_eq_getElem hi0)) (fun _ _ => rfl)

/-- **C107** Photons need a direction before they can go through an aperture. -/
theorem C107_no_direction (a : Aperture) (u : ℕ → ℝ × ℝ) (t : Table) (h : "dir" ∉ t.names) (hne : t.rows ≠ []) :
    a.call u t = .error .keyError := by
  have hn : "dir" ∉ (addColPos t).names := by
    unfold addColPos
    rw [addCol_mem]
    simp [h]
  have hlen := (addColPos_spec t).2.2.1
  have hc : countTrue ((addColPos t).rows.map fun _ => true) ≠ 0 := by
    have : (addColPos t).rows ≠ [] := by
      intro h0; rw [h0] at hlen; exact hne (List.length_eq_zero_iff.1 (by simpa using hlen.symm))
    simpa [countTrue, List.count_eq_zero, List.eq_nil_iff_forall_not_mem] using this
  simp only [Aperture.call, Aperture.process, processPhotons, hc, if_false, runAction, Aperture.elem, hn,
    not_false_eq_true, if_true, bind, Except.bind]

theorem multiLoop_spec (as : List Aperture) (idCol : String) (ids : List ℕ) (u : ℕ → ℕ → ℝ × ℝ)
    (hu : ∀ i k, (0 ≤ (u i k).1 ∧ (u i k).1 < 1) ∧ 0 ≤ (u i k).2 ∧ (u i k).2 < 1)
    (hv : ∀ a ∈ as, a.Valid ∧ a.GoodNames ∧ a.idCol = some idCol) (names : List String) (rows : List Row)
    (hd : "dir" ∈ names) (hp : "probability" ∈ names)
    (hrows : ∀ r ∈ rows, ∃ (d : H4) (p : ℝ),
      r "dir" = vecVal (some d) ∧ d.w = 0 ∧ d.xyz.dot d.xyz = 1 ∧ r "probability" = .num (some p))
    (hids : ids.length = rows.length) (k : ℕ) (t : Table) (hn : ∀ c ∈ names, c ∈ t.names) (hpos : "pos" ∈ t.names)
    (hlen : t.rows.length = rows.length)
    (hold : ∀ (j : ℕ) (r r1 : Row), rows[j]? = some r → t.rows[j]? = some r1 →
      (∀ i, ids[j]? = some i → k ≤ i → ∀ c ∈ names, r1 c = r c)) :
    ∃ t', multiLoop [] [] ids u k as t = .ok t' ∧ t'.rows.length = rows.length ∧ t.names <+: t'.names ∧
      ∀ (j : ℕ) (r r1 r' : Row) (i : ℕ), rows[j]? = some r → t.rows[j]? = some r1 → t'.rows[j]? = some r' →
        ids[j]? = some i →
        (i < k → ∀ c ∈ t.names, r' c = r1 c) ∧
        (∀ a, as[i - k]? = some a → k ≤ i → idCol ∈ t'.names ∧ a.Entered names r r') := by
  induction as generalizing k t with
  | nil =>
    refine ⟨t, rfl, hlen, List.prefix_refl _, ?_⟩
    intro j r r1 r' i hr hr1 hr' hi
    rw [hr1] at hr'
    cases hr'
    exact ⟨fun _ _ _ => rfl, fun a ha => by simp at ha⟩
  | cons a as ih =>
    obtain ⟨hva, hga, hida⟩ := hv a List.mem_cons_self
    have hmask : ∀ (j i : ℕ), ids[j]? = some i → (apertureMask ids k)[j]? = some (i == k) := by
      intro j i h; simp [apertureMask, h]
    obtain ⟨t1, h1, h2, h3, h4, h5⟩ := aperture_process a hva hga (u k) (hu k) t (apertureMask ids k)
      (by simp [apertureMask, hids, hlen]) hpos (hn _ hd) (hn _ hp) (by
        intro j r1 hm hr1
        have hj : j < rows.length := by rw [← hlen]; exact (List.getElem?_eq_some_iff.1 hr1).1
        obtain ⟨d, p, e1, e2, e3, e4⟩ := hrows _ (List.getElem_mem hj)
        have hij : ids[j]? = some ids[j] := List.getElem?_eq_getElem (by omega)
        have hik : ids[j] = k := by
          rw [hmask j _ hij] at hm; simpa using hm
        have ho := hold j _ _ (List.getElem?_eq_getElem hj) hr1 _ hij (by omega)
        exact ⟨d, p, by rw [ho _ hd, e1], e2, e3, by rw [ho _ hp, e4]⟩)
    have hstep : multiLoop [] [] ids u k (a :: as) t = multiLoop [] [] ids u (k + 1) as t1 := by
      simp only [multiLoop, runApHooks, h1, bind, Except.bind]
    rw [hstep]
    have hrow1 : ∀ (j i : ℕ) (r1 r2 : Row), t.rows[j]? = some r1 → t1.rows[j]? = some r2 → ids[j]? = some i → i ≠ k →
        ∀ c ∈ t.names, r2 c = r1 c := by
      intro j i r1 r2 e1 e2 hi hne
      exact (h5 j r1 r2 e1 e2).1 (by rw [hmask j i hi]; simpa using hne)
    obtain ⟨t', g1, g2, g3, g4⟩ := ih (fun b hb => hv b (List.mem_cons_of_mem _ hb)) (k + 1) t1
      (fun c hc => h3.subset (hn c hc)) (h3.subset hpos) (h2.trans hlen) (by
        intro j r r2 hr hr2 i hi hki c hc
        obtain ⟨r1, hr1⟩ := get_of_len h2 hr2
        rw [hrow1 j i r1 r2 hr1 hr2 hi (by omega) c (hn c hc)]
        exact hold j r r1 hr hr1 i hi (by omega) c hc)
    refine ⟨t', g1, g2, h3.trans g3, ?_⟩
    intro j r r1 r' i hr hr1 hr' hi
    have hj1 : j < t1.rows.length := by
      rw [h2]; exact (List.getElem?_eq_some_iff.1 hr1).1
    obtain ⟨r2, hr2⟩ : ∃ r2, t1.rows[j]? = some r2 := ⟨_, List.getElem?_eq_getElem hj1⟩
    obtain ⟨q1, q2⟩ := g4 j r r2 r' i hr hr2 hr' hi
    constructor
    · intro hik c hc
      rw [q1 (by omega) c (h3.subset hc)]
      exact hrow1 j i r1 r2 hr1 hr2 hi (by omega) c hc
    · intro b hb hki
      by_cases hik : i = k
      · subst hik
        simp only [Nat.sub_self, List.getElem?_cons_zero, Option.some.injEq] at hb
        subst hb
        have hm : (apertureMask ids i)[j]? = some true := by rw [hmask j i hi]; simp
        have ent := (h5 j r1 r2 hr1 hr2).2 hm
        refine ⟨g3.subset (h4 (List.mem_of_getElem? hm) idCol hida), ent.congr hn hd hp (hold j r r1 hr hr1 i hi le_rfl) ?_⟩
        intro c hc
        apply q1 (by omega)
        rcases hc with hc | hc | hc
        · exact h3.subset (hn c hc)
        · rw [hc]; exact h3.subset hpos
        · exact h4 (List.mem_of_getElem? hm) c hc
      · have : i - k = (i - (k + 1)) + 1 := by omega
        rw [this, List.getElem?_cons_succ] at hb
        exact q2 b hb (by omega)

/-- **C107** A group of apertures without pre- or postprocess steps: every photon goes through exactly one aperture `k` of
the group, namely the one it was assigned to. It starts in the opening of that aperture, with the
projection factor of that aperture and no other, and the id column holds the number of that aperture
(counted from the offset). Missing: groups with pre- or postprocess steps, which act on all photons
(`C107_multi_steps_false`). -/
theorem C107_multi_partial (elements : List Aperture) (idCol : String) (offset : ℤ)
    (hv : ∀ a ∈ elements, a.Valid ∧ Aperture.GoodNames { a with idCol := some idCol })
    (draws : List ℝ) (hdr : ∀ x ∈ draws, 0 ≤ x ∧ x < 1) (harea : 0 < multiArea elements)
    (ids : List ℕ) (hids : ids.Perm (apertureIds (elements.map Aperture.area) draws))
    (u : ℕ → ℕ → ℝ × ℝ) (hu : ∀ i k, (0 ≤ (u i k).1 ∧ (u i k).1 < 1) ∧ 0 ≤ (u i k).2 ∧ (u i k).2 < 1)
    (t : Table) (ht : HasDirs t) (hn : draws.length = t.rows.length) :
    ∃ t', multiCall (multiInit elements idCol offset) [] [] ids u t = .ok t' ∧
      t'.rows.length = t.rows.length ∧ t.names <+: t'.names ∧
      ∀ (j : ℕ) (r : Row), t.rows[j]? = some r → ∃ (k : ℕ) (a : Aperture) (r' : Row), ids[j]? = some k ∧
        elements[k]? = some a ∧ t'.rows[j]? = some r' ∧ idCol ∈ t'.names ∧ r' idCol = .int (offset + k) ∧
        Aperture.Entered { a with idCol := some idCol, idNum := offset + k } t.names r r' := by
  obtain ⟨p1, p2, p3, p4⟩ := addColPos_spec t
  obtain ⟨hd, hp, hrows⟩ := ht
  obtain ⟨c1, c2, _⟩ := C26_exactly_one (elements.map Aperture.area) draws harea hdr ids hids
  have hinit : ∀ a ∈ multiInit elements idCol offset, a.Valid ∧ a.GoodNames ∧ a.idCol = some idCol := by
    intro a ha
    obtain ⟨i, hi, rfl⟩ := List.mem_mapIdx.1 ha
    obtain ⟨v1, v2⟩ := hv elements[i] (List.getElem_mem hi)
    exact ⟨v1, v2, rfl⟩
  obtain ⟨t', h1, h2, h3, h4⟩ := multiLoop_spec (multiInit elements idCol offset) idCol ids u hu hinit t.names t.rows
    hd hp hrows (by omega) 0 (addColPos t) (fun c hc => p2.subset hc) p1 p3
    (fun j r r1 hr hr1 _ _ _ => p4 j r r1 hr hr1)
  refine ⟨t', h1, h2, p2.trans h3, ?_⟩
  intro j r hr
  have hj : j < t.rows.length := (List.getElem?_eq_some_iff.1 hr).1
  have hj0 : j < (addColPos t).rows.length := by omega
  have hj' : j < t'.rows.length := by omega
  have hjid : j < ids.length := by omega
  obtain ⟨k, ⟨hk, hmk⟩, _⟩ := c2 j (by omega)
  have hidk : ids[j]? = some k := by
    simp only [apertureMask, List.getElem?_map, List.getElem?_eq_getElem hjid, Option.map_some, Option.some.injEq,
      beq_iff_eq] at hmk
    rw [List.getElem?_eq_getElem hjid, hmk]
  have hk' : k < elements.length := by simpa using hk
  have hel : (multiInit elements idCol offset)[k - 0]? =
      some { elements[k] with idCol := some idCol, idNum := offset + k } := by
    simp [multiInit, List.getElem?_mapIdx, List.getElem?_eq_getElem hk']
  obtain ⟨hcol, ent⟩ := (h4 j r _ _ k hr (List.getElem?_eq_getElem hj0) (List.getElem?_eq_getElem hj') hidk).2 _ hel (by omega)
  exact ⟨k, elements[k], _, hidk, List.getElem?_eq_getElem hk', List.getElem?_eq_getElem hj', hcol, ent.2.2.1 idCol rfl, ent⟩

/-! Concrete apertures: a square and a half ring, both facing photons that travel along `-x`. -/

theorem affine_one4 : Affine (1 : M4) := by simp [Affine]

theorem orthoAxes_one4 : OrthoAxes (1 : M4) :=
  ⟨by simp [col, vX, vY, V3.dot], by simp [col, vX, vZ, V3.dot], by simp [col, vY, vZ, V3.dot],
   by simp [col, vX, V3.ext_iff], by simp [col, vY, V3.ext_iff], by simp [col, vZ, V3.ext_iff]⟩

/-- square aperture (example) -/
def exSquare : Aperture := ⟨1, .rect, some "aperture", 0, some ("y", "z")⟩

/-- half ring (example) -/
noncomputable def exHalfRing : Aperture := ⟨1, .circle (1 / 2) 0 3, some "aperture", 0, some ("y", "z")⟩

theorem exSquare_valid : exSquare.Valid := ⟨affine_one4, orthoAxes_one4, trivial⟩

theorem exHalfRing_valid : exHalfRing.Valid := by
  refine ⟨affine_one4, orthoAxes_one4, ?_⟩
  have h1 : (vY (1 : M4)).xyz.norm = 1 := by simp [col, vY, V3.norm, V3.dot]
  have h2 : (vZ (1 : M4)).xyz.norm = 1 := by simp [col, vZ, V3.norm, V3.dot]
  show _ ∧ _
  simp only [exHalfRing, h1, h2]
  norm_num

theorem exSquare_names (n : ℤ) : Aperture.GoodNames { exSquare with idCol := some "aperture", idNum := n } := by
  constructor
  · intro c hc; cases hc; decide
  · intro x y h; cases h; simp

/-- one photon (example) -/
noncomputable def exFlyer : Row := fun c =>
  if c = "dir" then vecVal (some ⟨-1, 0, 0, 0⟩) else .num (some 1)

/-- photon list (example) -/
noncomputable def exFlyers : Table := ⟨["dir", "probability", "energy"], [exFlyer, exFlyer, exFlyer]⟩

theorem exFlyers_ok : HasDirs exFlyers := by
  refine ⟨by simp [exFlyers], by simp [exFlyers], ?_⟩
  intro r hr
  have : r = exFlyer := by simpa [exFlyers] using hr
  subst this
  exact ⟨⟨-1, 0, 0, 0⟩, 1, rfl, rfl, by simp [V3.dot, H4.xyz], rfl⟩

example : exSquare.Valid ∧ exHalfRing.Valid ∧ exSquare.GoodNames ∧ HasDirs exFlyers ∧
    (∀ k : ℕ, (0 ≤ ((fun _ => (1 / 2, 1 / 3)) k : ℝ × ℝ).1 ∧ ((fun _ => (1 / 2, 1 / 3)) k : ℝ × ℝ).1 < 1)) :=
  ⟨exSquare_valid, exHalfRing_valid, exSquare_names 0, exFlyers_ok, fun _ => by norm_num⟩

/-- The square has area 4. -/
theorem exSquare_area : exSquare.area = 4 := by
  simp [Aperture.area, exSquare, rectArea, col, vY, vZ, H4.norm, H4.dot]

example : 0 < multiArea [exSquare, exSquare] ∧
    [0, 1, 0].Perm (apertureIds ([exSquare, exSquare].map Aperture.area) [0.1, 0.3, 0.7]) := by
  have hids : apertureIds ([exSquare, exSquare].map Aperture.area) [0.1, 0.3, 0.7] = [0, 0, 1] := by
    simp only [apertureIds, List.map_cons, List.map_nil, exSquare_area]
    have : ((cumsum [(4 : ℝ), 4]).map (· / [(4 : ℝ), 4].sum)) = [1 / 2, 1] := by
      norm_num [cumsum, cumsumFrom]
    rw [this]
    norm_num [searchsortedRight, List.findIdx_cons]
  refine ⟨by simp [multiArea, exSquare_area], ?_⟩
  rw [hids]
  decide

/-- **C107** (disagreement) The documentation says that pre- and postprocess steps of a group of apertures run "on just the photons
that pass this aperture". They run on the whole photon list, once for every aperture: a step that halves the
probability is applied twice to a photon that goes through only one of two apertures. -/
theorem C107_multi_steps_false :
    ∃ (half : Table → Except Err Table) (t t' : Table) (u : ℕ → ℕ → ℝ × ℝ),
      (∀ (s : Table) (p : ℝ), "probability" ∈ s.names → s.rows.length = 1 → numAt s "probability" 0 = some p →
        ∃ s', half s = .ok s' ∧ numAt s' "probability" 0 = some (p / 2)) ∧
      HasDirs t ∧ numAt t "probability" 0 = some 1 ∧
      multiCall (multiInit [exSquare, exSquare] "aperture" 0) [half] [] [0] u t = .ok t' ∧
      numAt t' "probability" 0 = some (1 / 4) := by
  have hno : ¬ ∃ v ∈ (ColVal.scalar (.num (some (1 / 2)))).toList, v.OutOfRange := by
    rintro ⟨v, hv, ho⟩
    simp only [ColVal.toList, List.mem_singleton] at hv
    subst hv
    exact not_outOfRange (by norm_num) (by norm_num) ho
  have key : ∀ (s : Table) (r : Row) (p : ℝ), "probability" ∈ s.names → s.rows = [r] → r "probability" = .num (some p) →
      globalFilter (fun _ => .scalar (.num (some (1 / 2)))) s =
        .ok { s with rows := [Function.update r "probability" (.num (some (p * (1 / 2))))] } := by
    intro s r p hn hr hp
    simp only [globalFilter]
    rw [if_neg hno]
    simp only [hn, not_true_eq_false, if_false, hr, List.length_cons, List.length_nil, ColVal.expand, bind, Except.bind,
      List.map_cons, List.map_nil, zero_add, List.replicate_one, mulMasked, hp, Val.mul, Option.bind, pure]
  have num0 : ∀ (s : Table) (r : Row) (p : ℝ), s.rows = [r] → (numAt s "probability" 0 = some p ↔
      r "probability" = .num (some p)) := by
    intro s r p hr
    simp only [numAt, hr, List.getElem?_cons_zero]
    constructor
    · intro h
      split at h
      · rename_i x hx; rw [hx, h]
      · cases h
    · intro h; rw [h]
  set half := globalFilter (fun _ => .scalar (.num (some (1 / 2)))) with hhalf
  set t : Table := ⟨["dir", "probability", "pos"], [exFlyer]⟩ with ht
  have hpr : exFlyer "probability" = .num (some 1) := by simp [exFlyer]
  set t1 : Table := { t with rows := [Function.update exFlyer "probability" (.num (some (1 * (1 / 2))))] } with ht1
  have h1 : half t = .ok t1 := key t exFlyer 1 (by simp [ht]) rfl hpr
  obtain ⟨t2, h2, l2, n2, _, e2⟩ := aperture_process { exSquare with idCol := some "aperture", idNum := 0 } exSquare_valid
    (exSquare_names 0) (fun _ => (1 / 2, 1 / 2)) (fun _ => by norm_num) t1 [true] (by simp [ht1])
    (by simp [ht1, ht]) (by simp [ht1, ht]) (by simp [ht1, ht]) (by
      intro i r _ hr
      have hr' := List.mem_of_getElem? hr
      simp only [ht1, List.mem_singleton] at hr'
      subst hr'
      exact ⟨⟨-1, 0, 0, 0⟩, 1 * (1 / 2), by simp [exFlyer], rfl, by simp [V3.dot, H4.xyz], by simp⟩)
  obtain ⟨r2, hr2⟩ : ∃ r2, t2.rows = [r2] := List.length_eq_one_iff.1 (by rw [l2]; simp [ht1])
  have hp2 := ((e2 0 _ r2 rfl (by rw [hr2]; rfl)).2 rfl).2.1 ⟨-1, 0, 0, 0⟩ (1 * (1 / 2))
    (by simp [exFlyer]) (by simp)
  have hfac : max (-((⟨-1, 0, 0, 0⟩ : H4).xyz.dot (vX (1 : M4)).xyz.unit)) 0 = (1 : ℝ) := by
    simp [V3.unit, V3.norm, V3.dot, H4.xyz, vX, col]
  rw [show ({ exSquare with idCol := some "aperture", idNum := 0 } : Aperture).m = 1 from rfl, hfac] at hp2
  have h3 := key t2 r2 _ (n2.subset (by simp [ht1, ht])) hr2 hp2
  refine ⟨half, t, { t2 with rows := [Function.update r2 "probability" (.num (some (1 * (1 / 2) * 1 * (1 / 2))))] },
    fun _ _ => (1 / 2, 1 / 2), ?_, ?_, ?_, ?_, ?_⟩
  rotate_left 3
  · have hi : multiInit [exSquare, exSquare] "aperture" 0 =
        [{ exSquare with idCol := some "aperture", idNum := 0 }, { exSquare with idCol := some "aperture", idNum := 1 }] := by
      simp [multiInit]
    have hpos : addColPos t = t := by simp [addColPos, Table.addCol, ht]
    have m0 : apertureMask [0] 0 = [true] := rfl
    have m1 : apertureMask [0] (0 + 1) = [false] := rfl
    rw [multiCall, hi, hpos]
    simp only [multiLoop, runApHooks, h1, bind, Except.bind, m0, h2, m1]
    rw [show half t2 = _ from h3]
    simp only [Aperture.process, processPhotons, countTrue, List.count_cons, List.count_nil]
    rfl
  · rw [num0 _ _ _ rfl]
    simp
    norm_num
  · intro s p hn hl hp
    obtain ⟨r, hr⟩ := List.length_eq_one_iff.1 hl
    refine ⟨_, key s r p hn hr ((num0 s r p hr).1 hp), ?_⟩
    rw [num0 _ _ _ rfl]
    simp [div_eq_mul_inv]
  · refine ⟨by simp [ht], by simp [ht], ?_⟩
    intro r hr
    have : r = exFlyer := by simpa [ht] using hr
    subst this
    exact ⟨⟨-1, 0, 0, 0⟩, 1, rfl, rfl, by simp [V3.dot, H4.xyz], rfl⟩
  · rw [num0 _ _ _ rfl]
    exact hpr

end Marxs
