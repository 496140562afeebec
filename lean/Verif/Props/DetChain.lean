import Mathlib.Tactic
import Verif.Spec.DetChain
import Verif.Props.CatStack
import Verif.Props.Cylinder
import Verif.Props.ArcusCamera
import Verif.Props.RowlandDetector
import Verif.Props.TgResolve

/-!
# C141: detectors behind each other see the same ray
-/

namespace Marxs

open Classical

theorem rowHit_flies {e : Det} {r : Row} {d p : H4} (h : r.Flies d p) : e.rowHit r = e.surf.hit d p := by
  simp [Det.rowHit, h.1, h.2, toH4_vecCell]

/-- A hit is on the ray, in front of the photon. -/
theorem hit_on_ray {s : DetSurface} (hs : s.Good) {d p q : H4} {x y : ℝ} (hd : IsDir d) (hp : IsPoint p)
    (h : s.hit d p = some (q, x, y)) : ∃ k : ℝ, 0 ≤ k ∧ q = p + k • d := by
  cases s with
  | plane m =>
    simp only [DetSurface.hit, planeIntersect] at h
    split at h
    · cases h
    split at h
    · rename_i h1
      simp only [Option.some.injEq, Prod.mk.injEq] at h
      exact ⟨_, h1.1, h.1.symm⟩
    · cases h
  | cyl m l0 l1 =>
    simp only [DetSurface.hit] at h
    by_cases hpar : (mul4 m⁻¹ d).x ^ 2 + (mul4 m⁻¹ d).y ^ 2 = 0
    · have hdet : m.det ≠ 0 := hs.2
      have hw : d.w = 0 := hd
      simp only [cylIntersect, hw, ne_eq, not_true_eq_false, if_false, hdet] at h
      rw [C11_parallel _ _ _ _ (by simpa using hpar)] at h
      cases h
    · obtain ⟨res, h1, h2, -⟩ := C11_global m hs.2 hs.1 ((decompose44 m).z 2) l0 l1 d p hd hp hpar
      rw [h1] at h
      simp only at h
      obtain ⟨t, ht, hq, -⟩ := h2 q x y h
      exact ⟨t, ht, hq⟩

theorem isPoint_move {p d : H4} (hp : IsPoint p) (hd : IsDir d) (k : ℝ) : IsPoint (p + k • d) := by
  simp only [IsPoint, IsDir] at *
  simp [hp, hd]

/-- What calling a detector does to one photon. -/
theorem det_step {e : Det} {t t' : Table} (hg : (Recorder.det e).Good) (h : e.call t = .ok t') :
    t'.rows.length = t.rows.length ∧ (∀ c ∈ t.names, c ∈ t'.names) ∧
    ∀ (i : ℕ) (r r' : Row) (d p : H4), t.rows[i]? = some r → t'.rows[i]? = some r' → r.Flies d p →
      (e.surf.hit d p = none → (∀ c ∈ t.names, r' c = r c) ∧
        ∀ c ∈ t'.names, c ∉ t.names → (e.idCol ≠ some c → r' c = .num none) ∧ (r' c = .num none ∨ r' c = .int (-1))) ∧
      (∀ q x y, e.surf.hit d p = some (q, x, y) →
        r' "pos" = vecCell (some q) ∧ r' e.loc.1 = .num (some x) ∧ r' e.loc.2 = .num (some y) ∧
        (∀ c, e.idCol = some c → r' c = .int e.idNum) ∧
        (e.pix.1 ≠ e.loc.1 → e.pix.1 ≠ e.loc.2 → e.idCol ≠ some e.pix.1 → r' e.pix.1 = .num (some (e.pixel x y).1)) ∧
        (e.pix.2 ≠ e.loc.1 → e.pix.2 ≠ e.loc.2 → e.idCol ≠ some e.pix.2 → r' e.pix.2 = .num (some (e.pixel x y).2)) ∧
        (∀ c ∈ t.names, c ∉ (Recorder.det e).columns → c ≠ "pos" → r' c = r c)) := by
  obtain ⟨hs, hl, hpx, hid1, hid2, hcols⟩ := hg
  have hcall : e.elem.call t = .ok t' := by
    unfold Det.call at h
    split at h
    · cases h
    split at h
    · exact h
    · split at h
      · cases h
      split at h
      · cases h
      exact h
  set mask := t.rows.map fun r => (e.rowHit r).isSome with hmask
  set ip := t.rows.map fun r => vecCell ((e.rowHit r).map (·.1)) with hip
  set ic : List (Val × Val) := t.rows.map fun r => (.num ((e.rowHit r).map (·.2.1)), .num ((e.rowHit r).map (·.2.2))) with hic
  have hcall' : processPhotons e.elem t mask ip ic = .ok t' := hcall
  have l1 : mask.length = t.rows.length := by simp [hmask]
  have l2 : ip.length = t.rows.length := by simp [hip]
  have l3 : ic.length = t.rows.length := by simp [hic]
  obtain ⟨m1, m2, m3⟩ := C02_miss_unchanged l1 l2 l3 hcall'
  refine ⟨m2, fun c hc => m1.subset hc, ?_⟩
  intro i r r' d p hr hr' hf
  have hrh := rowHit_flies (e := e) hf
  refine ⟨fun hn => ?_, fun q x y hq => ?_⟩
  · exact m3 i r r' (by simp [hmask, hr, hrh, hn]) hr hr'
  · have hm : mask[i]? = some true := by simp [hmask, hr, hrh, hq]
    have hici : ic[i]? = some (.num (some x), .num (some y)) := by simp [hic, hr, hrh, hq]
    have hsel := sel_get hm (l1.trans l3.symm)
    rw [hici] at hsel
    have hpc : e.pixCells (.num (some x), .num (some y)) = (.num (some (e.pixel x y).1), .num (some (e.pixel x y).2)) := rfl
    have hcm : ∀ c, c ∈ (Recorder.det e).columns ↔ c = e.loc.1 ∨ c = e.loc.2 ∨ c = e.pix.1 ∨ c = e.pix.2 ∨ e.idCol = some c := by
      intro c; simp [Recorder.columns]
    obtain ⟨u1, u2, u3, u4, u5, u6⟩ := C02_hit_updated (e := e.elem) l1 l2 l3 rfl rfl
      (by simpa [keysOf] using hpx) hcall' i r r' hm hr hr'
    have hpn : ∀ c, c ∈ (Recorder.det e).columns → c ≠ "pos" := fun c hc => (hcols c hc).1
    refine ⟨?_, ?_, ?_, ?_, ?_, ?_, ?_⟩
    · rw [hip] at u1
      simpa [hr, hrh, hq] using u1
    · have := u4 e.loc.1 e.loc.2 rfl hl (hpn _ ((hcm _).2 (by simp))) hid1
      rw [hici] at this
      simpa using this.symm
    · have := u3 e.loc.1 e.loc.2 rfl (hpn _ ((hcm _).2 (by simp))) hid2
      rw [hici] at this
      simpa using this.symm
    · intro c hc
      exact u2 c hc (hpn c ((hcm c).2 (by simp [hc])))
    · intro h1 h2 h3
      have := (u5 e.pix.1 _ (List.mem_cons_self) (hpn _ ((hcm _).2 (by simp))) h3 (by simp [locNames, Det.elem, h1, h2])).1
        (hcols _ ((hcm _).2 (by simp))).2.2
      rw [arr_at (by rw [List.getElem?_map, hsel]; rfl)] at this
      simp only [hpc] at this
      exact (Option.some.inj this).symm
    · intro h1 h2 h3
      have := (u5 e.pix.2 _ (List.mem_cons_of_mem _ List.mem_cons_self) (hpn _ ((hcm _).2 (by simp))) h3 (by simp [locNames, Det.elem, h1, h2])).1
        (hcols _ ((hcm _).2 (by simp))).2.2
      rw [arr_at (by rw [List.getElem?_map, hsel]; rfl)] at this
      simp only [hpc] at this
      exact (Option.some.inj this).symm
    · intro c hc hcc hcp
      rw [hcm] at hcc
      push Not at hcc
      exact u6 c hc (by simp [keysOf, hcc]) hcp (by simpa [Det.elem] using hcc.2.2.2.2) (by simp [locNames, Det.elem, hcc])

theorem setVals_map {t t' : Table} {n : String} {f : Row → Val} (h : t.setVals n (t.rows.map f) = .ok t') :
    t'.rows = t.rows.map (fun r => Function.update r n (f r)) ∧ (∀ c ∈ t.names, c ∈ t'.names) ∧ n ∈ t'.names ∧
      ∀ c ∈ t'.names, c ∈ t.names ∨ c = n := by
  unfold Table.setVals at h
  simp only [List.length_map, if_true, Except.ok.injEq] at h
  subst h
  refine ⟨?_, ?_, ?_, ?_⟩
  · simp only
    rw [List.zipWith_map_right]
    generalize t.rows = l
    induction l with
    | nil => rfl
    | cons a l ih => simp [ih]
  · intro c hc; simp only; split <;> simp [hc]
  · simp only; split <;> simp [*]
  · intro c hc; simp only at hc; split at hc
    · exact .inl hc
    · simpa using hc

theorem axpy_cells (s : ℝ) (p d : H4) : Val.axpy s (vecCell (some p)) (vecCell (some d)) = vecCell (some (p + s • d)) := by
  simp [Val.axpy, vecCell]

theorem propagate_step {s : ℝ} {t t' : Table} (h : propagateTab s t = .ok t') :
    t'.rows.length = t.rows.length ∧ (∀ c, c ∈ t'.names ↔ c ∈ t.names) ∧
    ∀ (i : ℕ) (r r' : Row) (d p : H4), t.rows[i]? = some r → t'.rows[i]? = some r' → r.Flies d p →
      r' "pos" = vecCell (some (p + s • d)) ∧ ∀ c, c ≠ "pos" → r' c = r c := by
  unfold propagateTab at h
  split at h
  · cases h
  rename_i hn
  push Not at hn
  obtain ⟨h1, h2, h3, h4⟩ := setVals_map h
  refine ⟨by simp [h1], fun c => ⟨fun hc => ?_, h2 c⟩, ?_⟩
  · rcases h4 c hc with h | h
    · exact h
    · exact h ▸ hn.2
  · intro i r r' d p hr hr' hf
    rw [h1, List.getElem?_map, hr] at hr'
    simp only [Option.map_some, Option.some.injEq] at hr'
    subst hr'
    refine ⟨?_, fun c hc => Function.update_of_ne hc _ _⟩
    rw [Function.update_self, hf.1, hf.2, axpy_cells]

theorem project_step {pl : ProjPlane} {t t' : Table} (h : projectTab pl t = .ok t') :
    t'.rows.length = t.rows.length ∧ (∀ c ∈ t.names, c ∈ t'.names) ∧ (∀ c ∈ t'.names, c ∈ t.names ∨ c = pl.names.1 ∨ c = pl.names.2) ∧
    pl.names.1 ∈ t'.names ∧ pl.names.2 ∈ t'.names ∧
    ∀ (i : ℕ) (r r' : Row), t.rows[i]? = some r → t'.rows[i]? = some r' →
      (∀ c, c ≠ pl.names.1 → c ≠ pl.names.2 → r' c = r c) ∧
      (pl.names.1 ≠ pl.names.2 → r' pl.names.1 = (projCells pl.pos4d (r "pos")).1) ∧
      r' pl.names.2 = (projCells pl.pos4d (r "pos")).2 := by
  unfold projectTab at h
  split at h
  · cases h
  simp only [bind, Except.bind] at h
  split at h
  · cases h
  rename_i t1 ht1
  obtain ⟨a1, a2, a3, a4⟩ := setVals_map ht1
  have e1 : t.rows.map (fun r => (projCells pl.pos4d (r "pos")).2) = t1.rows.zipWith (fun _ v => v) (t.rows.map (fun r => (projCells pl.pos4d (r "pos")).2)) := by
    rw [a1]
    generalize t.rows = l
    induction l with
    | nil => rfl
    | cons a l ih => simp
  unfold Table.setVals at h
  simp only [List.length_map, a1, if_true, Except.ok.injEq] at h
  subst h
  refine ⟨by simp, ?_, ?_, ?_, ?_, ?_⟩
  · intro c hc; simp only; split <;> simp [a2 c hc]
  · intro c hc; simp only at hc; split at hc
    · rcases a4 c hc with h | h <;> simp [h]
    · simp only [List.mem_append, List.mem_singleton] at hc
      rcases hc with hc | hc
      · rcases a4 c hc with h | h <;> simp [h]
      · simp [hc]
  · simp only; split <;> simp [a3]
  · simp only; split <;> simp [*]
  · intro i r r' hr hr'
    simp only [List.getElem?_zipWith, List.getElem?_map, hr, Option.map_some, Option.some.injEq] at hr'
    subst hr'
    refine ⟨fun c h1 h2 => ?_, fun hne => ?_, ?_⟩
    · rw [Function.update_of_ne h2, Function.update_of_ne h1]
    · rw [Function.update_of_ne hne, Function.update_self]
    · rw [Function.update_self]

/-- What one element at the end of the telescope does to one photon. -/
theorem record_step {x : Recorder} {t t' : Table} (hg : x.Good) (h : x.call t = .ok t') :
    t'.rows.length = t.rows.length ∧ (∀ c ∈ t.names, c ∈ t'.names) ∧
    ∀ (i : ℕ) (r r' : Row) (d p : H4), t.rows[i]? = some r → t'.rows[i]? = some r' → r.Flies d p →
      "dir" ∈ t.names ∧ "pos" ∈ t.names → 
      r'.Flies d (stopAfter [x] d p) ∧ ∀ c ∈ t.names, c ∉ x.columns → c ≠ "pos" → r' c = r c := by
  cases x with
  | det e =>
    obtain ⟨h1, h2, h3⟩ := det_step hg h
    refine ⟨h1, h2, fun i r r' d p hr hr' hf hn => ?_⟩
    obtain ⟨a, b⟩ := h3 i r r' d p hr hr' hf
    cases hh : e.surf.hit d p with
    | none =>
      obtain ⟨a1, -⟩ := a hh
      refine ⟨⟨by rw [a1 _ hn.1, hf.1], ?_⟩, fun c hc _ _ => a1 c hc⟩
      simp only [stopAfter, hh]
      rw [a1 _ hn.2, hf.2]
    | some v =>
      obtain ⟨q, x, y⟩ := v
      obtain ⟨b1, -, -, -, -, -, b2⟩ := b q x y hh
      refine ⟨⟨?_, by simp only [stopAfter, hh]; exact b1⟩, b2⟩
      rw [b2 _ hn.1 (fun hc => (hg.2.2.2.2.2 _ hc).2.1 rfl) (by decide), hf.1]
  | project pl =>
    obtain ⟨h1, h2, -, -, -, h3⟩ := project_step h
    refine ⟨h1, h2, fun i r r' d p hr hr' hf hn => ?_⟩
    obtain ⟨a, -, -⟩ := h3 i r r' hr hr'
    have hc : ∀ c, c ∉ (Recorder.project pl).columns → r' c = r c := by
      intro c hc
      simp only [Recorder.columns, List.mem_cons, List.not_mem_nil, or_false, not_or] at hc
      exact a c hc.1 hc.2
    refine ⟨⟨?_, ?_⟩, fun c _ h _ => hc c h⟩
    · rw [hc _ (fun hh => (hg.2.2 _ hh).2 rfl), hf.1]
    · rw [hc _ (fun hh => (hg.2.2 _ hh).1 rfl), hf.2]; rfl
  | propagate s =>
    obtain ⟨h1, h2, h3⟩ := propagate_step h
    refine ⟨h1, fun c hc => (h2 c).2 hc, fun i r r' d p hr hr' hf hn => ?_⟩
    obtain ⟨a, b⟩ := h3 i r r' d p hr hr' hf
    exact ⟨⟨by rw [b _ (by decide), hf.1], a⟩, fun c _ _ hc => b c hc⟩

theorem stopAfter_append (a b : List Recorder) (d p : H4) : stopAfter (a ++ b) d p = stopAfter b d (stopAfter a d p) := by
  induction a generalizing p with
  | nil => rfl
  | cons x a ih => cases x <;> simp [stopAfter, ih]

theorem recordAll_append (a b : List Recorder) (t t' : Table) : recordAll (a ++ b) t = .ok t' ↔
    ∃ t1, recordAll a t = .ok t1 ∧ recordAll b t1 = .ok t' := by
  induction a generalizing t with
  | nil => simp [recordAll]
  | cons x a ih =>
    simp only [List.cons_append, recordAll]
    cases x.call t with
    | error e => simp
    | ok t1 => simp [ih]

theorem names_ok {x : Recorder} {l : List Recorder} {t t' : Table} (h : recordAll (x :: l) t = .ok t') : ∃ t1, x.call t = .ok t1 ∧ recordAll l t1 = .ok t' := by
  simp only [recordAll] at h
  cases hx : x.call t with
  | error e => rw [hx] at h; cases h
  | ok t1 => rw [hx] at h; exact ⟨t1, rfl, h⟩

/-- All elements one after the other, for one photon. -/
theorem record_chain {l : List Recorder} {t t' : Table} (hg : ∀ x ∈ l, x.Good) (h : recordAll l t = .ok t')
    (hn : "dir" ∈ t.names ∧ "pos" ∈ t.names) :
    t'.rows.length = t.rows.length ∧ (∀ c ∈ t.names, c ∈ t'.names) ∧
    ∀ (i : ℕ) (r r' : Row) (d p : H4), t.rows[i]? = some r → t'.rows[i]? = some r' → r.Flies d p →
      r'.Flies d (stopAfter l d p) ∧ ∀ c ∈ t.names, c ∉ ownColumns l → c ≠ "pos" → r' c = r c := by
  induction l generalizing t with
  | nil =>
    simp only [recordAll, Except.ok.injEq] at h
    subst h
    refine ⟨rfl, fun c hc => hc, fun i r r' d p hr hr' hf => ?_⟩
    rw [hr] at hr'; cases hr'
    exact ⟨hf, fun _ _ _ _ => rfl⟩
  | cons x l ih =>
    obtain ⟨t1, h1, h2⟩ := names_ok h
    obtain ⟨a1, a2, a3⟩ := record_step (hg x (by simp)) h1
    obtain ⟨b1, b2, b3⟩ := ih (fun y hy => hg y (by simp [hy])) h2 ⟨a2 _ hn.1, a2 _ hn.2⟩
    refine ⟨b1.trans a1, fun c hc => b2 c (a2 c hc), fun i r r' d p hr hr' hf => ?_⟩
    obtain ⟨r1, hr1⟩ := get_of_len b1 hr'
    obtain ⟨c1, c2⟩ := a3 i r r1 d p hr hr1 hf hn
    obtain ⟨d1, d2⟩ := b3 i r1 r' d _ hr1 hr' c1
    refine ⟨?_, fun c hc hcc hcp => ?_⟩
    · rw [show x :: l = [x] ++ l from rfl, stopAfter_append]; exact d1
    · simp only [ownColumns, List.flatMap_cons, List.mem_append, not_or] at hcc
      rw [d2 c (a2 c hc) hcc.2 hcp, c2 c hc hcc.1 hcp]

/-- The photon stays on its ray. -/
theorem stopAfter_ray {l : List Recorder} (hg : ∀ x ∈ l, x.Good) {d p : H4} (hd : IsDir d) (hp : IsPoint p) :
    ∃ k : ℝ, stopAfter l d p = p + k • d := by
  induction l generalizing p with
  | nil => exact ⟨0, by ext <;> simp [stopAfter]⟩
  | cons x l ih =>
    have key : ∀ p' : H4, IsPoint p' → (∃ k : ℝ, p' = p + k • d) → ∃ k : ℝ, stopAfter l d p' = p + k • d := by
      rintro p' hp' ⟨k, rfl⟩
      obtain ⟨k', h'⟩ := ih (fun y hy => hg y (by simp [hy])) hp'
      refine ⟨k + k', ?_⟩
      rw [h']; ext <;> simp <;> ring
    cases x with
    | det e =>
      simp only [stopAfter]
      cases hh : e.surf.hit d p with
      | none => exact key p hp ⟨0, by ext <;> simp⟩
      | some v =>
        obtain ⟨q, x, y⟩ := v
        obtain ⟨k, -, hk⟩ := hit_on_ray (hg (.det e) (by simp)).1 hd hp hh
        exact key q (hk ▸ isPoint_move hp hd k) ⟨k, hk⟩
    | project pl => exact key p hp ⟨0, by ext <;> simp⟩
    | propagate s => exact key _ (isPoint_move hp hd s) ⟨s, rfl⟩

theorem addOutputCols_sub (oc : List String) (id : Option String) (cs : List (Option String)) (t : Table) (c : String) :
    c ∈ (addOutputCols oc id cs t).names → c ∈ t.names ∨ id = some c ∨ some c ∈ cs ∨ c ∈ oc := by
  have key : ∀ (l : List (Option String)) (t : Table), c ∈ (l.foldl (fun t n => match n with
        | none => t
        | some n => t.addCol n (.num none)) t).names → (c ∈ t.names ∨ some c ∈ l) := by
    intro l
    induction l with
    | nil => intro t h; simpa using h
    | cons n l ih =>
      intro t h
      simp only [List.foldl_cons] at h
      have := ih _ h
      cases n with
      | none => rcases this with h | h <;> simp_all
      | some n =>
        simp only [addCol_mem] at this
        rcases this with (h | h) | h
        · exact .inl h
        · exact .inr (by simp [h])
        · exact .inr (by simp [h])
  intro h
  unfold addOutputCols at h
  cases id with
  | none =>
    rcases key _ _ h with h | h
    · exact .inl h
    · simp only [List.mem_append, List.mem_map, Option.some.injEq, exists_eq_right] at h
      tauto
  | some d =>
    simp only [addCol_mem] at h
    rcases h with h | h
    · rcases key _ _ h with h | h
      · exact .inl h
      · simp only [List.mem_append, List.mem_map, Option.some.injEq, exists_eq_right] at h
        tauto
    · exact .inr (.inl (by rw [h]))

theorem det_call_proc {e : Det} {t t' : Table} (h : e.call t = .ok t') :
    processPhotons e.elem t (t.rows.map fun r => (e.rowHit r).isSome) (t.rows.map fun r => vecCell ((e.rowHit r).map (·.1)))
        (t.rows.map fun r => (.num ((e.rowHit r).map (·.2.1)), .num ((e.rowHit r).map (·.2.2)))) = .ok t' := by
  unfold Det.call at h
  split at h
  · cases h
  split at h
  · exact h
  · split at h
    · cases h
    split at h
    · cases h
    exact h

/-- Only columns of its own are new. -/
theorem det_new_names {e : Det} {t t' : Table} (h : e.call t = .ok t') : ∀ c ∈ t'.names, c ∈ t.names ∨ c ∈ (Recorder.det e).columns := by
  have hcall := det_call_proc h
  intro c hc
  have hcm : ∀ c, c ∈ (Recorder.det e).columns ↔ c = e.loc.1 ∨ c = e.loc.2 ∨ c = e.pix.1 ∨ c = e.pix.2 ∨ e.idCol = some c := by
    intro c; simp [Recorder.columns]
  by_cases hcn : countTrue (t.rows.map fun r => (e.rowHit r).isSome) = 0
  · unfold processPhotons at hcall
    simp only [hcn, if_true] at hcall
    cases hcall
    exact .inl hc
  obtain ⟨t2, t3, t4, h2, h3, h4, h5⟩ := processPhotons_ok hcall hcn
  rw [(setCol_names h5).1] at hc
  have n4 : t4.names = t3.names := by
    simp only [assignId] at h4
    split at h4
    · cases h4; rfl
    · rw [(setCol_names h4).1]
  rw [n4] at hc
  simp only [assignLoc, Det.elem] at h3
  split at h3
  · cases h3
  rename_i t2b h2b
  rw [(setCol_names h3).1, (setCol_names h2b).1] at hc
  rw [hcm]
  rcases addOutputCols_sub _ _ _ _ _ hc with hc | hc | hc | hc
  · simp only [runAction, Det.elem] at h2
    rw [assignAll_names h2] at hc
    rcases addOutputCols_sub _ _ _ _ _ hc with hc | hc | hc | hc
    · exact .inl hc
    · exact .inr (by simp [hc])
    · simp at hc
      rcases hc with hc | hc <;> simp [hc]
    · cases hc
  · exact .inr (by simp [hc])
  · simp at hc
    rcases hc with hc | hc <;> simp [hc]
  · cases hc

theorem record_new_names {l : List Recorder} {t t' : Table} (h : recordAll l t = .ok t') : ∀ c ∈ t'.names, c ∈ t.names ∨ c ∈ ownColumns l := by
  induction l generalizing t with
  | nil => cases h; exact fun c hc => .inl hc
  | cons x l ih =>
    simp only [recordAll] at h
    cases hx : x.call t with
    | error e => rw [hx] at h; cases h
    | ok t1 =>
      rw [hx] at h
      intro c hc
      have hx' : c ∈ t1.names → c ∈ t.names ∨ c ∈ x.columns := by
        cases x with
        | det e => exact det_new_names hx c
        | project pl =>
          intro hc
          rcases (project_step hx).2.2.1 c hc with h | h | h <;> simp [Recorder.columns, h]
        | propagate s => intro hc; exact .inl (((propagate_step hx).2.1 c).1 hc)
      simp only [ownColumns, List.flatMap_cons, List.mem_append]
      rcases ih h c hc with h | h
      · rcases hx' h with h | h <;> tauto
      · exact .inr (.inr h)

/-- **C141** (same ray): detectors, projections and propagators at the end of a telescope leave everything but the position of a photon and their own columns alone, and the
photon stays on its ray, so that all detectors see the ray as it left the gratings. -/
theorem C141_same_ray {l : List Recorder} {t t' : Table} (hg : ∀ x ∈ l, x.Good) (h : recordAll l t = .ok t') (hn : "dir" ∈ t.names ∧ "pos" ∈ t.names) :
    t'.rows.length = t.rows.length ∧ (∀ c ∈ t.names, c ∈ t'.names) ∧
    ∀ (i : ℕ) (r r' : Row) (d p : H4), t.rows[i]? = some r → t'.rows[i]? = some r' → r.Flies d p → IsDir d → IsPoint p →
      (∃ k : ℝ, r'.Flies d (p + k • d)) ∧ r'.Flies d (stopAfter l d p) ∧ ∀ c ∈ t.names, c ∉ ownColumns l → c ≠ "pos" → r' c = r c := by
  obtain ⟨h1, h2, h3⟩ := record_chain hg h hn
  refine ⟨h1, h2, fun i r r' d p hr hr' hf hd hp => ?_⟩
  obtain ⟨a, b⟩ := h3 i r r' d p hr hr' hf
  obtain ⟨k, hk⟩ := stopAfter_ray hg hd hp
  exact ⟨⟨k, hk ▸ a⟩, a, b⟩

/-- **C141** (recorded): what a detector writes for a photon. The photon arrives from where the elements before left it; the
columns keep this value unless a later element uses the same names. -/
theorem C141_recorded {A B : List Recorder} {e : Det} {t t' : Table} (hg : ∀ x ∈ A ++ .det e :: B, x.Good)
    (h : recordAll (A ++ .det e :: B) t = .ok t') (hn : "dir" ∈ t.names ∧ "pos" ∈ t.names)
    (hB : ∀ c ∈ (Recorder.det e).columns, c ∉ ownColumns B)
    {i : ℕ} {r r' : Row} {d p : H4} (hr : t.rows[i]? = some r) (hr' : t'.rows[i]? = some r') (hf : r.Flies d p) (hd : IsDir d) (hp : IsPoint p) :
    (∀ q x y, e.surf.hit d (stopAfter A d p) = some (q, x, y) →
      (∃ k : ℝ, q = p + k • d) ∧ r' e.loc.1 = .num (some x) ∧ r' e.loc.2 = .num (some y) ∧ (∀ c, e.idCol = some c → r' c = .int e.idNum) ∧
      (e.pix.1 ≠ e.loc.1 → e.pix.1 ≠ e.loc.2 → e.idCol ≠ some e.pix.1 → r' e.pix.1 = .num (some (e.pixel x y).1)) ∧
      (e.pix.2 ≠ e.loc.1 → e.pix.2 ≠ e.loc.2 → e.idCol ≠ some e.pix.2 → r' e.pix.2 = .num (some (e.pixel x y).2))) ∧
    (e.surf.hit d (stopAfter A d p) = none → ∀ c ∈ (Recorder.det e).columns, c ∉ t.names → c ∉ ownColumns A → c ∈ t'.names →
      (e.idCol ≠ some c → r' c = .num none) ∧ (r' c = .num none ∨ r' c = .int (-1))) := by
  obtain ⟨tA, hA, h2⟩ := (recordAll_append _ _ _ _).1 h
  obtain ⟨tE, hE, hBr⟩ := names_ok h2
  have gA : ∀ x ∈ A, x.Good := fun x hx => hg x (by simp [hx])
  have gB : ∀ x ∈ B, x.Good := fun x hx => hg x (by simp [hx])
  have gE : (Recorder.det e).Good := hg _ (by simp)
  obtain ⟨a1, a2, a3⟩ := record_chain gA hA hn
  obtain ⟨e1, e2, e3⟩ := det_step gE hE
  obtain ⟨b1, b2, b3⟩ := record_chain gB hBr ⟨e2 _ (a2 _ hn.1), e2 _ (a2 _ hn.2)⟩
  obtain ⟨rE, hrE⟩ := get_of_len b1 hr'
  obtain ⟨rA, hrA⟩ := get_of_len e1 hrE
  obtain ⟨fA, -⟩ := a3 i r rA d p hr hrA hf
  obtain ⟨m1, m2⟩ := e3 i rA rE d _ hrA hrE fA
  obtain ⟨fE, -⟩ := (record_step gE hE).2.2 i rA rE d _ hrA hrE fA ⟨a2 _ hn.1, a2 _ hn.2⟩
  obtain ⟨-, keep⟩ := b3 i rE r' d _ hrE hr' fE
  have hpos : ∀ c ∈ (Recorder.det e).columns, c ≠ "pos" := fun c hc => (gE.2.2.2.2.2 c hc).1
  obtain ⟨kA, hkA⟩ := stopAfter_ray gA hd hp
  -- names that are written are in the table
  have cols_in : ∀ q x y, e.surf.hit d (stopAfter A d p) = some (q, x, y) → ∀ c ∈ (Recorder.det e).columns, c ∈ tE.names := by
    intro q x y hq
    have hcall := det_call_proc (show e.call tA = .ok tE from hE)
    have hcn : countTrue (tA.rows.map fun r => (e.rowHit r).isSome) ≠ 0 := by
      have hm : (tA.rows.map fun r => (e.rowHit r).isSome)[i]? = some true := by
        simp [hrA, rowHit_flies (e := e) fA, hq]
      have := rank_lt hm
      omega
    obtain ⟨t2, t3, t4, h2, h3, h4, h5⟩ := processPhotons_ok hcall hcn
    have n5 := setCol_names h5
    have n4 : ∀ c ∈ t3.names, c ∈ t4.names := by
      intro c hc
      simp only [assignId] at h4
      split at h4
      · cases h4; exact hc
      · rw [(setCol_names h4).1]; exact hc
    simp only [assignLoc, Det.elem] at h3
    split at h3
    · cases h3
    rename_i t2b h2b
    have n3 := setCol_names h3
    have n2b := setCol_names h2b
    have hk := keys_names (e := e.elem) (c := e.pix.1) rfl rfl (by simp) (by simp) (by simp) hcall hcn
    have hk2 := keys_names (e := e.elem) (c := e.pix.2) rfl rfl (by simp) (by simp) (by simp) hcall hcn
    intro c hc
    simp only [Recorder.columns, List.mem_append, List.mem_cons, List.not_mem_nil, or_false, Option.mem_toList] at hc
    rcases hc with (hc | hc | hc | hc) | hc
    · rw [hc, n5.1]; apply n4; rw [n3.1]; exact n2b.1 ▸ n2b.2
    · rw [hc, n5.1]; apply n4; rw [n3.1]; exact n3.2
    · rw [hc]; exact hk (by simp [keysOf])
    · rw [hc]; exact hk2 (by simp [keysOf])
    · have hc' : e.elem.idCol = some c := hc
      simp only [assignId, hc'] at h4
      rw [n5.1, (setCol_names h4).1]; exact (setCol_names h4).2
  refine ⟨fun q x y hq => ?_, fun hq c hc hct hcA hc' => ?_⟩
  · obtain ⟨m2a, m2b, m2c, m2d, m2e, m2f, -⟩ := m2 q x y hq
    obtain ⟨k, -, hk⟩ := hit_on_ray gE.1 hd (hkA ▸ isPoint_move hp hd kA) hq
    have keep' : ∀ c ∈ (Recorder.det e).columns, r' c = rE c := fun c hc => keep c (cols_in q x y hq c hc) (hB c hc) (hpos c hc)
    have hm : ∀ c, c = e.loc.1 ∨ c = e.loc.2 ∨ c = e.pix.1 ∨ c = e.pix.2 ∨ e.idCol = some c → c ∈ (Recorder.det e).columns := by
      intro c hc
      simpa [Recorder.columns] using hc
    refine ⟨⟨kA + k, by rw [hk, hkA]; ext <;> simp <;> ring⟩, ?_, ?_, ?_, ?_, ?_⟩
    · rw [keep' _ (hm _ (by simp)), m2b]
    · rw [keep' _ (hm _ (by simp)), m2c]
    · intro c hc; rw [keep' _ (hm _ (by simp [hc])), m2d c hc]
    · intro x1 x2 x3; rw [keep' _ (hm _ (by simp)), m2e x1 x2 x3]
    · intro x1 x2 x3; rw [keep' _ (hm _ (by simp)), m2f x1 x2 x3]
  · have hcE : c ∈ tE.names := by
      rcases record_new_names hBr c hc' with h | h
      · exact h
      · exact absurd h (hB c hc)
    have hcA' : c ∉ tA.names := by
      intro h
      rcases record_new_names hA c h with h | h
      · exact hct h
      · exact hcA h
    rw [keep c hcE (hB c hc) (hpos c hc)]
    exact (m1 hq).2 c hcE hcA'

theorem pathTo_move {m : M4} {d q : H4} (hn : d.xyz.dot (vX m).xyz ≠ 0) (s : ℝ) : pathTo m d (q + s • d) = pathTo m d q - s := by
  unfold pathTo
  rw [eq_comm, sub_eq_iff_eq_add, div_eq_iff hn, add_mul, div_mul_cancel₀ _ hn]
  simp only [V3.dot, V3.sub_x, V3.sub_y, V3.sub_z, H4.xyz, H4.add_x, H4.add_y, H4.add_z, H4.smul_x, H4.smul_y, H4.smul_z]
  ring

theorem stop_not_behind {m : M4} {D : ℝ} {d p0 : H4} (hn : d.xyz.dot (vX m).xyz ≠ 0) (hd : IsDir d) (hp0 : IsPoint p0) {l : List Recorder} (hg : ∀ x ∈ l, x.Good)
    (hl : ∀ x ∈ l, NotFarBehind m d p0 D x)
    {p : H4} (hpk : ∃ k : ℝ, p = p0 + k • d) (hp : -D ≤ pathTo m d p) : -D ≤ pathTo m d (stopAfter l d p) := by
  induction l generalizing p with
  | nil => exact hp
  | cons x l ih =>
    have ih' := fun p hpk hp => ih (fun y hy => hg y (by simp [hy])) (fun y hy => hl y (by simp [hy])) (p := p) hpk hp
    have hx := hl x (by simp)
    obtain ⟨k, hk⟩ := hpk
    cases x with
    | det e =>
      simp only [stopAfter]
      cases hh : e.surf.hit d p with
      | none => exact ih' _ ⟨k, hk⟩ hp
      | some v =>
        obtain ⟨q, x, y⟩ := v
        rw [hk] at hh
        obtain ⟨k', -, hk'⟩ := hit_on_ray (hg (.det e) (by simp)).1 hd (isPoint_move hp0 hd k) hh
        exact ih' _ ⟨k + k', by rw [hk']; ext <;> simp <;> ring⟩ (hx k q x y hh)
    | project pl => exact ih' _ ⟨k, hk⟩ hp
    | propagate s =>
      have hs : s ≤ 0 := hx
      refine ih' _ ⟨k + s, by rw [hk]; ext <;> simp <;> ring⟩ ?_
      rw [pathTo_move hn]; linarith

/-- The plane is hit by a photon that is not past it exactly if the line meets the rectangle. -/
theorem plane_line {m : M4} (hm : Affine m) (ho : OrthoAxes m) {d p : H4} (hd : IsDir d) (hp : IsPoint p) {k0 : ℝ}
    (h0 : 0 ≤ pathTo m d (p + k0 • d)) :
    ((planeIntersect m d (p + k0 • d)).isSome ↔ ¬ ParallelToPlane m d.xyz ∧ ∃ k : ℝ, InRectangle m (p.xyz + k • d.xyz)) ∧
    ∀ q x y, planeIntersect m d (p + k0 • d) = some (q, x, y) → q.xyz = (center m).xyz + x • (vY m).xyz.unit + y • (vZ m).xyz.unit := by
  obtain ⟨c1, c2⟩ := C10_plane_intersect m hm ho d (p + k0 • d) hd (isPoint_move hp hd k0)
  refine ⟨?_, fun q x y h => (c2 q x y h).2.2.2⟩
  rw [c1]
  refine and_congr_right fun hpar => ⟨?_, ?_⟩
  · rintro ⟨k, -, hk⟩
    refine ⟨k0 + k, ?_⟩
    convert hk using 1
    ext <;> simp <;> ring
  · rintro ⟨k, hk⟩
    have e : p.xyz + k • d.xyz = (p + k0 • d).xyz + (k - k0) • d.xyz := by ext <;> simp <;> ring
    refine ⟨k - k0, ?_, e ▸ hk⟩
    have hz : pathTo m d (p + k0 • d + (k - k0) • d) = 0 := by
      obtain ⟨a, b, -, -, hq⟩ := hk
      have hq' : (p + k0 • d + (k - k0) • d).xyz = (center m).xyz + a • (vY m).xyz + b • (vZ m).xyz := by
        rw [← hq]; ext <;> simp <;> ring
      unfold pathTo
      rw [hq', div_eq_zero_iff]
      left
      have h1 := ho.xy; have h2 := ho.xz
      simp only [V3.dot, V3.sub_x, V3.sub_y, V3.sub_z, V3.add_x, V3.add_y, V3.add_z, V3.smul_x, V3.smul_y, V3.smul_z] at *
      linear_combination -a * h1 - b * h2
    rw [pathTo_move hpar] at hz
    linarith

/-- **C141** (line): a detector records a photon that did not pass it yet where its ray, taken as a line, meets the rectangle. -/
theorem C141_line {A B : List Recorder} {e : Det} {m : M4} {t t' : Table} (hs : e.surf = .plane m)
    (hg : ∀ x ∈ A ++ .det e :: B, x.Good) (h : recordAll (A ++ .det e :: B) t = .ok t') (hn : "dir" ∈ t.names ∧ "pos" ∈ t.names)
    (hB : ∀ c ∈ (Recorder.det e).columns, c ∉ ownColumns B) (hA : e.loc.1 ∉ t.names ∧ e.loc.1 ∉ ownColumns A)
    {i : ℕ} {r r' : Row} {d p : H4} (hr : t.rows[i]? = some r) (hr' : t'.rows[i]? = some r') (hf : r.Flies d p) (hd : IsDir d) (hp : IsPoint p)
    (h0 : 0 ≤ pathTo m d (stopAfter A d p)) :
    (∀ k : ℝ, ¬ ParallelToPlane m d.xyz → InRectangle m (p.xyz + k • d.xyz) →
      ∃ x y : ℝ, p.xyz + k • d.xyz = (center m).xyz + x • (vY m).xyz.unit + y • (vZ m).xyz.unit ∧
        r' e.loc.1 = .num (some x) ∧ r' e.loc.2 = .num (some y)) ∧
    (¬ (¬ ParallelToPlane m d.xyz ∧ ∃ k : ℝ, InRectangle m (p.xyz + k • d.xyz)) → e.loc.1 ∈ t'.names → r' e.loc.1 = .num none) := by
  have gE : (Recorder.det e).Good := hg _ (by simp)
  have gA : ∀ x ∈ A, x.Good := fun x hx => hg x (by simp [hx])
  have gs : Affine m ∧ OrthoAxes m := by have := gE.1; rw [hs] at this; exact this
  obtain ⟨hit, miss⟩ := C141_recorded hg h hn hB hr hr' hf hd hp
  obtain ⟨k0, hk0⟩ := stopAfter_ray gA hd hp
  rw [hk0] at hit miss h0
  simp only [hs, DetSurface.hit] at hit miss
  by_cases hpar : ParallelToPlane m d.xyz
  · refine ⟨fun k h => absurd hpar h, fun _ hc => ?_⟩
    have hno : planeIntersect m d (p + k0 • d) = none := by
      have := (C10_plane_intersect m gs.1 gs.2 d (p + k0 • d) hd (isPoint_move hp hd k0)).1
      rw [← Option.not_isSome_iff_eq_none, this]
      exact fun h => h.1 hpar
    exact (miss hno e.loc.1 (by simp [Recorder.columns]) hA.1 hA.2 hc).1 gE.2.2.2.1
  · obtain ⟨l1, l2⟩ := plane_line gs.1 gs.2 hd hp h0
    refine ⟨fun k _ hk => ?_, fun hno hc => ?_⟩
    · obtain ⟨⟨q, x, y⟩, hq⟩ := Option.isSome_iff_exists.1 (l1.2 ⟨hpar, k, hk⟩)
      obtain ⟨⟨k', hk'⟩, r1, r2, -⟩ := hit q x y hq
      refine ⟨x, y, ?_, r1, r2⟩
      rw [← l2 q x y hq]
      have hin : InRectangle m (p.xyz + k' • d.xyz) := by
        have := ((C10_plane_intersect m gs.1 gs.2 d (p + k0 • d) hd (isPoint_move hp hd k0)).2 q x y hq).2.2.1
        rw [hk'] at this
        exact this
      have hkk : k = k' := by
        have key : ∀ k : ℝ, InRectangle m (p.xyz + k • d.xyz) → pathTo m d p = k := by
          rintro k ⟨a, b, -, -, hq⟩
          have hz : pathTo m d (p + k • d) = 0 := by
            have hq' : (p + k • d).xyz = (center m).xyz + a • (vY m).xyz + b • (vZ m).xyz := hq ▸ rfl
            unfold pathTo
            rw [hq', div_eq_zero_iff]
            left
            have h1 := gs.2.xy; have h2 := gs.2.xz
            simp only [V3.dot, V3.sub_x, V3.sub_y, V3.sub_z, V3.add_x, V3.add_y, V3.add_z, V3.smul_x, V3.smul_y, V3.smul_z] at *
            linear_combination -a * h1 - b * h2
          rw [pathTo_move hpar] at hz
          linarith
        rw [← key k hk, key k' hin]
      rw [hkk, hk']; rfl
    · have hno' : planeIntersect m d (p + k0 • d) = none := by
        rw [← Option.not_isSome_iff_eq_none, l1]; exact hno
      exact (miss hno' e.loc.1 (by simp [Recorder.columns]) hA.1 hA.2 hc).1 gE.2.2.2.1

/-- **C141** (reset): a detector behind a `Propagator(-D)` records every photon where its ray, taken as a line, meets the rectangle, no matter which
detectors were hit before. -/
theorem C141_reset {A B : List Recorder} {e : Det} {m : M4} {D : ℝ} {t t' : Table} (hs : e.surf = .plane m)
    (hg : ∀ x ∈ A ++ .propagate (-D) :: .det e :: B, x.Good)
    (h : recordAll (A ++ .propagate (-D) :: .det e :: B) t = .ok t') (hn : "dir" ∈ t.names ∧ "pos" ∈ t.names)
    (hB : ∀ c ∈ (Recorder.det e).columns, c ∉ ownColumns B) (hA : e.loc.1 ∉ t.names ∧ e.loc.1 ∉ ownColumns A)
    {i : ℕ} {r r' : Row} {d p : H4} (hr : t.rows[i]? = some r) (hr' : t'.rows[i]? = some r') (hf : r.Flies d p) (hd : IsDir d) (hp : IsPoint p)
    (h0 : -D ≤ pathTo m d p) (hl : ∀ x ∈ A, NotFarBehind m d p D x) (hpar : ¬ ParallelToPlane m d.xyz) :
    (∀ k : ℝ, InRectangle m (p.xyz + k • d.xyz) →
      ∃ x y : ℝ, p.xyz + k • d.xyz = (center m).xyz + x • (vY m).xyz.unit + y • (vZ m).xyz.unit ∧
        r' e.loc.1 = .num (some x) ∧ r' e.loc.2 = .num (some y)) ∧
    ((¬ ∃ k : ℝ, InRectangle m (p.xyz + k • d.xyz)) → e.loc.1 ∈ t'.names → r' e.loc.1 = .num none) := by
  have hl' : A ++ .propagate (-D) :: .det e :: B = (A ++ [.propagate (-D)]) ++ .det e :: B := by simp
  have gA : ∀ x ∈ A, x.Good := fun x hx => hg x (by simp [hx])
  rw [hl'] at hg h
  obtain ⟨c1, c2⟩ := C141_line hs hg h hn hB ⟨hA.1, by simpa [ownColumns, Recorder.columns] using hA.2⟩ hr hr' hf hd hp (by
    have h1 := stop_not_behind hpar hd hp gA hl ⟨0, by ext <;> simp⟩ h0
    rw [stopAfter_append]
    simp only [stopAfter]
    rw [pathTo_move hpar]
    linarith)
  exact ⟨fun k hk => c1 k hpar hk, fun hno hc => c2 (fun h => hno h.2) hc⟩

theorem assignCol_ok {t : Table} {c : String} {mask : List Bool} {vs : List Val} (hc : c ∈ t.names) (hp : c ≠ "probability") (hl : vs.length = countTrue mask) :
    ∃ t', assignColValue t (some c) mask (.arr vs) = .ok t' ∧ t'.names = t.names := by
  refine ⟨{ t with rows := assignMasked c mask t.rows vs }, ?_, rfl⟩
  unfold assignColValue
  split
  · rename_i h; cases h; exact absurd rfl hp
  · rename_i h; cases h
  · rename_i h1 h2; cases h2
    simp [hc, ColVal.expand, hl, bind, Except.bind]

theorem det_call_ok {e : Det} {t : Table} (hg : (Recorder.det e).Good) (hn : "dir" ∈ t.names ∧ "pos" ∈ t.names) (hf : AllFly t) :
    ∃ t', e.call t = .ok t' := by
  have key : ∃ t', e.elem.call t = .ok t' := by
    set mask := t.rows.map fun r => (e.rowHit r).isSome with hmask
    set ic : List (Val × Val) := t.rows.map fun r => (.num ((e.rowHit r).map (·.2.1)), .num ((e.rowHit r).map (·.2.2))) with hic
    have hlen : (sel mask ic).length = countTrue mask := sel_length (by simp [hmask, hic])
    have hp : ∀ c ∈ [e.pix.1, e.pix.2], c ≠ "probability" := by
      intro c hc
      refine (hg.2.2.2.2.2 c ?_).2.2
      simp only [Recorder.columns, List.mem_append, List.mem_cons, List.not_mem_nil, or_false] at hc ⊢
      tauto
    set t1 := addOutputCols e.elem.outputColumns e.elem.idCol [some e.pix.1, some e.pix.2] t with ht1
    have m1 : e.pix.1 ∈ t1.names := addOutputCols_mem _ _ _ _ _ (by simp)
    have m2 : e.pix.2 ∈ t1.names := addOutputCols_mem _ _ _ _ _ (by simp)
    obtain ⟨t2, a1, a2⟩ := assignCol_ok (t := t1) (vs := (sel mask ic).map fun c => (e.pixCells c).1) m1 (hp _ (by simp)) (by simpa using hlen)
    obtain ⟨t3, b1, b2⟩ := assignCol_ok (t := t2) (vs := (sel mask ic).map fun c => (e.pixCells c).2) (a2 ▸ m2) (hp _ (by simp)) (by simpa using hlen)
    refine processPhotons_rest (t2 := t3) ?_ ?_ ?_
    · change assignAll mask [(some e.pix.1, .arr ((sel mask ic).map fun c => (e.pixCells c).1)), (some e.pix.2, .arr ((sel mask ic).map fun c => (e.pixCells c).2))] t1 = _
      simp [assignAll, a1, b1, bind, Except.bind]
    · intro c hc
      rw [b2, a2]
      exact addOutputCols_mem _ _ _ _ _ (by simp [hc])
    · rw [b2, a2]
      exact addOutputCols_mem _ _ _ _ _ (by simp [hn.2])
  obtain ⟨t', ht'⟩ := key
  refine ⟨t', ?_⟩
  unfold Det.call
  rw [if_neg (by simp [hn])]
  cases hs : e.surf with
  | plane m => exact ht'
  | cyl m l0 l1 =>
    have hgs := hg.1
    rw [hs] at hgs
    have h1 : ¬ ∃ r ∈ t.rows, ¬ dirColOk r := by
      push Not
      intro r hr
      obtain ⟨d, p, hfl, hd⟩ := hf r hr
      simp [dirColOk, hfl.1, vecCell, show d.w = 0 from hd]
    simp only
    rw [if_neg h1, if_neg hgs.2]
    exact ht'

/-- **C141** (runs): the detectors at the end of a telescope record every table of photons; no photon makes them fail. -/
theorem C141_runs {l : List Recorder} {t : Table} (hg : ∀ x ∈ l, x.Good) (hn : "dir" ∈ t.names ∧ "pos" ∈ t.names) (hf : AllFly t) :
    ∃ t', recordAll l t = .ok t' := by
  induction l generalizing t with
  | nil => exact ⟨t, rfl⟩
  | cons x l ih =>
    have hx : ∃ t1, x.call t = .ok t1 := by
      cases x with
      | det e => exact det_call_ok (hg _ (by simp)) hn hf
      | project pl =>
        simp only [Recorder.call, projectTab, hn.2, not_true_eq_false, if_false, Table.setVals, List.length_map, if_true, bind, Except.bind, List.length_zipWith, min_self]
        exact ⟨_, rfl⟩
      | propagate s =>
        simp only [Recorder.call, propagateTab, hn.1, hn.2, not_true_eq_false, or_self, if_false, Table.setVals, List.length_map, if_true]
        exact ⟨_, rfl⟩
    obtain ⟨t1, h1⟩ := hx
    obtain ⟨a1, a2, a3⟩ := record_step (hg x (by simp)) h1
    obtain ⟨t', h'⟩ := ih (t := t1) (fun y hy => hg y (by simp [hy])) ⟨a2 _ hn.1, a2 _ hn.2⟩ (by
      intro r1 hr1
      obtain ⟨i, hi⟩ := List.mem_iff_getElem?.1 hr1
      obtain ⟨r, hr⟩ := get_of_len a1 hi
      obtain ⟨d, p, hfl, hd⟩ := hf r (List.mem_of_getElem? hr)
      exact ⟨d, _, (a3 i r r1 d p hr hi hfl hn).1, hd⟩)
    exact ⟨t', by simp only [recordAll, h1]; exact h'⟩

/-! ## Detectors of the missions -/

theorem yz_ok {a : ℝ} (ha : 0 < a) : Affine (yzPlane a) ∧ OrthoAxes (yzPlane a) := by
  refine ⟨affine_compose _ _ _, orthoAxes_compose _ _ _ ?_ ?_⟩
  · refine ⟨?_, ?_⟩ <;> simp
    
  · intro k; fin_cases k <;> simp [ha]

theorem yz_rect {a : ℝ} (ha : 0 < a) (q : V3) : InRectangle (yzPlane a) q ↔ q.x = 0 ∧ |q.y| ≤ a ∧ |q.z| ≤ a := by
  have ha' := ha
  constructor
  · rintro ⟨s, t, hs, ht, rfl⟩
    simp [center, vY, vZ, col, yzPlane, compose, zxyOrient, abs_mul, abs_of_pos ha]
    exact ⟨by nlinarith [abs_nonneg s], by nlinarith [abs_nonneg t]⟩
  · rintro ⟨h0, h1, h2⟩
    refine ⟨q.y / a, q.z / a, ?_, ?_, ?_⟩
    · rw [abs_div, abs_of_pos ha, div_le_one ha]; exact h1
    · rw [abs_div, abs_of_pos ha, div_le_one ha]; exact h2
    · ext <;> simp [center, vY, vZ, col, yzPlane, compose, zxyOrient, h0, ha.ne']

theorem yz_path {a : ℝ} (ha : 0 < a) (d q : H4) : pathTo (yzPlane a) d q = -q.x / d.x := by
  simp [pathTo, V3.dot, center, vX, col, yzPlane, compose, zxyOrient]
  

theorem yz_par {a : ℝ} (ha : 0 < a) (d : H4) : ParallelToPlane (yzPlane a) d.xyz ↔ d.x = 0 := by
  simp [ParallelToPlane, V3.dot, vX, col, yzPlane, compose, zxyOrient]

theorem yz_far {a D : ℝ} (ha : 0 < a) {d p : H4} (hd : d.x < 0) {e : Det} (h : ∀ (k : ℝ) q x y, e.surf.hit d (p + k • d) = some (q, x, y) → D * d.x ≤ q.x) :
    NotFarBehind (yzPlane a) d p D (.det e) := by
  intro k q x y hq
  rw [yz_path ha, le_div_iff_of_neg hd]
  linarith [h k q x y hq]

/-- A detector in the focal plane, for photons that did not pass it yet. -/
theorem yz_line {A B : List Recorder} {e : Det} {a : ℝ} (ha : 0 < a) {t t' : Table} (hs : e.surf = .plane (yzPlane a))
    (hg : ∀ x ∈ A ++ .det e :: B, x.Good)
    (h : recordAll (A ++ .det e :: B) t = .ok t') (hn : "dir" ∈ t.names ∧ "pos" ∈ t.names)
    (hB : ∀ c ∈ (Recorder.det e).columns, c ∉ ownColumns B) (hA : e.loc.1 ∉ t.names ∧ e.loc.1 ∉ ownColumns A)
    {i : ℕ} {r r' : Row} {d p : H4} (hr : t.rows[i]? = some r) (hr' : t'.rows[i]? = some r') (hf : r.Flies d p) (hd : IsDir d) (hp : IsPoint p)
    (hdx : d.x < 0) (h0 : 0 ≤ (stopAfter A d p).x) :
    (∀ k : ℝ, p.x + k * d.x = 0 → |p.y + k * d.y| ≤ a → |p.z + k * d.z| ≤ a →
      r' e.loc.1 = .num (some (p.y + k * d.y)) ∧ r' e.loc.2 = .num (some (p.z + k * d.z))) ∧
    (¬ (∃ k : ℝ, p.x + k * d.x = 0 ∧ |p.y + k * d.y| ≤ a ∧ |p.z + k * d.z| ≤ a) → e.loc.1 ∈ t'.names → r' e.loc.1 = .num none) := by
  obtain ⟨c1, c2⟩ := C141_line hs hg h hn hB hA hr hr' hf hd hp (by rw [yz_path ha]; exact div_nonneg_of_nonpos (by linarith) hdx.le)
  have hpar : ¬ ParallelToPlane (yzPlane a) d.xyz := by rw [yz_par ha]; exact hdx.ne
  refine ⟨fun k k0 k1 k2 => ?_, fun hno hc => c2 ?_ hc⟩
  · obtain ⟨x, y, e1, e2, e3⟩ := c1 k hpar ((yz_rect ha _).2 ⟨by simpa using k0, by simpa using k1, by simpa using k2⟩)
    have u1 : (vY (yzPlane a)).xyz.unit = ⟨0, 1, 0⟩ := by
      simp [V3.unit, V3.norm, V3.dot, vY, col, yzPlane, compose, zxyOrient, Real.sqrt_mul_self ha.le, ha.ne', V3.ext_iff]
    have u2 : (vZ (yzPlane a)).xyz.unit = ⟨0, 0, 1⟩ := by
      simp [V3.unit, V3.norm, V3.dot, vZ, col, yzPlane, compose, zxyOrient, Real.sqrt_mul_self ha.le, ha.ne', V3.ext_iff]
    have hc : (center (yzPlane a)).xyz = 0 := by ext <;> simp [center, col, yzPlane, compose]
    rw [u1, u2, hc] at e1
    have x1 := congrArg V3.y e1
    have x2 := congrArg V3.z e1
    simp at x1 x2
    rw [e2, e3, x1, x2]; exact ⟨rfl, rfl⟩
  · rintro ⟨-, k, hk⟩
    rw [yz_rect ha] at hk
    exact hno ⟨k, by simpa using hk.1, by simpa using hk.2.1, by simpa using hk.2.2⟩

theorem xy_ok {b a : ℝ} (ha : 0 < a) (hh : 0 < b) : Affine (xyPlane b a) ∧ OrthoAxes (xyPlane b a) := by
  refine ⟨affine_compose _ _ _, orthoAxes_compose _ _ _ ?_ ?_⟩
  · refine ⟨?_, ?_⟩ <;> simp [zxyOrient, Matrix.det_fin_three]
    ext i j; fin_cases i <;> fin_cases j <;> simp [Matrix.mul_apply, Fin.sum_univ_three]
  · intro k; fin_cases k <;> simp [ha, hh]

theorem xy_rect {b a : ℝ} (ha : 0 < a) (hh : 0 < b) (q : V3) : InRectangle (xyPlane b a) q ↔ q.z = 0 ∧ |q.x| ≤ a ∧ |q.y| ≤ a := by
  have ha' := ha
  constructor
  · rintro ⟨s, t, hs, ht, rfl⟩
    simp [center, vY, vZ, col, xyPlane, compose, zxyOrient, abs_mul, abs_of_pos ha]
    exact ⟨by nlinarith [abs_nonneg s], by nlinarith [abs_nonneg t]⟩
  · rintro ⟨h0, h1, h2⟩
    refine ⟨q.x / a, q.y / a, ?_, ?_, ?_⟩
    · rw [abs_div, abs_of_pos ha, div_le_one ha]; exact h1
    · rw [abs_div, abs_of_pos ha, div_le_one ha]; exact h2
    · ext <;> simp [center, vY, vZ, col, xyPlane, compose, zxyOrient, h0, ha.ne']

theorem xy_path {b a : ℝ} (ha : 0 < a) (hh : 0 < b) (d q : H4) : pathTo (xyPlane b a) d q = -q.z / d.z := by
  simp [pathTo, V3.dot, center, vX, col, xyPlane, compose, zxyOrient]
  field_simp

theorem xy_par {b a : ℝ} (ha : 0 < a) (hh : 0 < b) (d : H4) : ParallelToPlane (xyPlane b a) d.xyz ↔ d.z = 0 := by
  simp [ParallelToPlane, V3.dot, vX, col, xyPlane, compose, zxyOrient, hh.ne']

theorem xy_far {b a D : ℝ} (ha : 0 < a) (hh : 0 < b) {d p : H4} (hd : d.z < 0) {e : Det} (h : ∀ (k : ℝ) q x y, e.surf.hit d (p + k • d) = some (q, x, y) → D * d.z ≤ q.z) :
    NotFarBehind (xyPlane b a) d p D (.det e) := by
  intro k q x y hq
  rw [xy_path ha hh, le_div_iff_of_neg hd]
  linarith [h k q x y hq]

/-- A detector in the focal plane, for photons that did not pass it yet. -/
theorem xy_line {A B : List Recorder} {e : Det} {b a : ℝ} (ha : 0 < a) (hh : 0 < b) {t t' : Table} (hs : e.surf = .plane (xyPlane b a))
    (hg : ∀ x ∈ A ++ .det e :: B, x.Good)
    (h : recordAll (A ++ .det e :: B) t = .ok t') (hn : "dir" ∈ t.names ∧ "pos" ∈ t.names)
    (hB : ∀ c ∈ (Recorder.det e).columns, c ∉ ownColumns B) (hA : e.loc.1 ∉ t.names ∧ e.loc.1 ∉ ownColumns A)
    {i : ℕ} {r r' : Row} {d p : H4} (hr : t.rows[i]? = some r) (hr' : t'.rows[i]? = some r') (hf : r.Flies d p) (hd : IsDir d) (hp : IsPoint p)
    (hdx : d.z < 0) (h0 : 0 ≤ (stopAfter A d p).z) :
    (∀ k : ℝ, p.z + k * d.z = 0 → |p.x + k * d.x| ≤ a → |p.y + k * d.y| ≤ a →
      r' e.loc.1 = .num (some (p.x + k * d.x)) ∧ r' e.loc.2 = .num (some (p.y + k * d.y))) ∧
    (¬ (∃ k : ℝ, p.z + k * d.z = 0 ∧ |p.x + k * d.x| ≤ a ∧ |p.y + k * d.y| ≤ a) → e.loc.1 ∈ t'.names → r' e.loc.1 = .num none) := by
  obtain ⟨c1, c2⟩ := C141_line hs hg h hn hB hA hr hr' hf hd hp (by rw [xy_path ha hh]; exact div_nonneg_of_nonpos (by linarith) hdx.le)
  have hpar : ¬ ParallelToPlane (xyPlane b a) d.xyz := by rw [xy_par ha hh]; exact hdx.ne
  refine ⟨fun k k0 k1 k2 => ?_, fun hno hc => c2 ?_ hc⟩
  · obtain ⟨x, y, e1, e2, e3⟩ := c1 k hpar ((xy_rect ha hh _).2 ⟨by simpa using k0, by simpa using k1, by simpa using k2⟩)
    have u1 : (vY (xyPlane b a)).xyz.unit = ⟨1, 0, 0⟩ := by
      simp [V3.unit, V3.norm, V3.dot, vY, col, xyPlane, compose, zxyOrient, Real.sqrt_mul_self ha.le, ha.ne', V3.ext_iff]
    have u2 : (vZ (xyPlane b a)).xyz.unit = ⟨0, 1, 0⟩ := by
      simp [V3.unit, V3.norm, V3.dot, vZ, col, xyPlane, compose, zxyOrient, Real.sqrt_mul_self ha.le, ha.ne', V3.ext_iff]
    have hc : (center (xyPlane b a)).xyz = 0 := by ext <;> simp [center, col, xyPlane, compose]
    rw [u1, u2, hc] at e1
    have x1 := congrArg V3.x e1
    have x2 := congrArg V3.y e1
    simp at x1 x2
    rw [e2, e3, x1, x2]; exact ⟨rfl, rfl⟩
  · rintro ⟨-, k, hk⟩
    rw [xy_rect ha hh] at hk
    exact hno ⟨k, by simpa using hk.1, by simpa using hk.2.1, by simpa using hk.2.2⟩

/-- The detectors of the missions are acceptable. -/
theorem flatdet_good {m : M4} (h : Affine m ∧ OrthoAxes m) : (Recorder.det (flatdet m)).Good := by
  refine ⟨h, by simp [flatdet], by simp [flatdet], by simp [flatdet], by simp [flatdet], ?_⟩
  intro c hc
  simp [Recorder.columns, flatdet] at hc
  rcases hc with rfl | rfl | rfl | rfl <;> decide

theorem detcirc_good {T : Torus} (h : (detcirc T).surf.Good) : (Recorder.det (detcirc T)).Good := by
  refine ⟨h, by simp [detcirc], by simp [detcirc], by simp [detcirc], by simp [detcirc], ?_⟩
  intro c hc
  simp [Recorder.columns, detcirc] at hc
  rcases hc with rfl | rfl | rfl | rfl <;> decide

theorem axisImaging_good : (Recorder.det axisImaging).Good := by
  refine ⟨yz_ok (by norm_num), by decide, by decide, by simp [axisImaging], by simp [axisImaging], ?_⟩
  intro c hc
  simp [Recorder.columns, axisImaging] at hc
  rcases hc with rfl | rfl | rfl | rfl <;> decide

theorem lynxMicrocal_good : (Recorder.det lynxMicrocal).Good := by
  refine ⟨yz_ok (by norm_num), by decide, by decide, by simp [lynxMicrocal], by simp [lynxMicrocal], ?_⟩
  intro c hc
  simp [Recorder.columns, lynxMicrocal] at hc
  rcases hc with rfl | rfl | rfl | rfl <;> decide

theorem athenaZero_good : (Recorder.det athenaZero).Good := by
  refine ⟨xy_ok (by norm_num) (by norm_num), by decide, by decide, by simp [athenaZero], by simp [athenaZero], ?_⟩
  intro c hc
  simp [Recorder.columns, athenaZero] at hc
  rcases hc with rfl | rfl | rfl | rfl <;> decide

theorem proj_good {z : M3} {a b : String} (h : a ≠ b ∧ ∀ c ∈ [a, b], c ≠ "pos" ∧ c ≠ "dir") : (Recorder.project ⟨compose 0 z 1, (a, b)⟩).Good :=
  ⟨affine_compose _ _ _, h.1, h.2⟩

/-- A flat detector with its surface at zero is hit at zero only. -/
theorem yz_hit_zero {a : ℝ} (ha : 0 < a) {d p q : H4} {x y : ℝ} (hd : IsDir d) (hp : IsPoint p) (h : planeIntersect (yzPlane a) d p = some (q, x, y)) : q.x = 0 := by
  have := ((C10_plane_intersect _ (yz_ok ha).1 (yz_ok ha).2 d p hd hp).2 q x y h).2.2.1
  rw [yz_rect ha] at this
  exact this.1

/-- A detector in the focal plane behind a `Propagator`. -/
theorem yz_reset {A B : List Recorder} {e : Det} {a D : ℝ} (ha : 0 < a) {t t' : Table} (hs : e.surf = .plane (yzPlane a))
    (hg : ∀ x ∈ A ++ .propagate (-D) :: .det e :: B, x.Good)
    (h : recordAll (A ++ .propagate (-D) :: .det e :: B) t = .ok t') (hn : "dir" ∈ t.names ∧ "pos" ∈ t.names)
    (hB : ∀ c ∈ (Recorder.det e).columns, c ∉ ownColumns B) (hA : e.loc.1 ∉ t.names ∧ e.loc.1 ∉ ownColumns A)
    {i : ℕ} {r r' : Row} {d p : H4} (hr : t.rows[i]? = some r) (hr' : t'.rows[i]? = some r') (hf : r.Flies d p) (hd : IsDir d) (hp : IsPoint p)
    (hdx : d.x < 0) (h0 : D * d.x ≤ p.x) (hl : ∀ x ∈ A, NotFarBehind (yzPlane a) d p D x) :
    (∀ k : ℝ, p.x + k * d.x = 0 → |p.y + k * d.y| ≤ a → |p.z + k * d.z| ≤ a →
      r' e.loc.1 = .num (some (p.y + k * d.y)) ∧ r' e.loc.2 = .num (some (p.z + k * d.z))) ∧
    (¬ (∃ k : ℝ, p.x + k * d.x = 0 ∧ |p.y + k * d.y| ≤ a ∧ |p.z + k * d.z| ≤ a) → e.loc.1 ∈ t'.names → r' e.loc.1 = .num none) := by
  have hl' : A ++ .propagate (-D) :: .det e :: B = (A ++ [.propagate (-D)]) ++ .det e :: B := by simp
  have gA : ∀ x ∈ A, x.Good := fun x hx => hg x (by simp [hx])
  rw [hl'] at hg h
  have hpar : d.xyz.dot (vX (yzPlane a)).xyz ≠ 0 := fun h => hdx.ne ((yz_par ha d).1 h)
  refine yz_line ha hs hg h hn hB ⟨hA.1, by simpa [ownColumns, Recorder.columns] using hA.2⟩ hr hr' hf hd hp hdx ?_
  have h1 := stop_not_behind hpar hd hp gA hl (p := p) ⟨0, by ext <;> simp⟩ (by rw [yz_path ha, le_div_iff_of_neg hdx]; linarith)
  rw [yz_path ha, le_div_iff_of_neg hdx] at h1
  rw [stopAfter_append]
  simp only [stopAfter, H4.add_x, H4.smul_x]
  linarith

/-- A detector in the focal plane behind a `Propagator`. -/
theorem xy_reset {A B : List Recorder} {e : Det} {b a D : ℝ} (ha : 0 < a) (hh : 0 < b) {t t' : Table} (hs : e.surf = .plane (xyPlane b a))
    (hg : ∀ x ∈ A ++ .propagate (-D) :: .det e :: B, x.Good)
    (h : recordAll (A ++ .propagate (-D) :: .det e :: B) t = .ok t') (hn : "dir" ∈ t.names ∧ "pos" ∈ t.names)
    (hB : ∀ c ∈ (Recorder.det e).columns, c ∉ ownColumns B) (hA : e.loc.1 ∉ t.names ∧ e.loc.1 ∉ ownColumns A)
    {i : ℕ} {r r' : Row} {d p : H4} (hr : t.rows[i]? = some r) (hr' : t'.rows[i]? = some r') (hf : r.Flies d p) (hd : IsDir d) (hp : IsPoint p)
    (hdx : d.z < 0) (h0 : D * d.z ≤ p.z) (hl : ∀ x ∈ A, NotFarBehind (xyPlane b a) d p D x) :
    (∀ k : ℝ, p.z + k * d.z = 0 → |p.x + k * d.x| ≤ a → |p.y + k * d.y| ≤ a →
      r' e.loc.1 = .num (some (p.x + k * d.x)) ∧ r' e.loc.2 = .num (some (p.y + k * d.y))) ∧
    (¬ (∃ k : ℝ, p.z + k * d.z = 0 ∧ |p.x + k * d.x| ≤ a ∧ |p.y + k * d.y| ≤ a) → e.loc.1 ∈ t'.names → r' e.loc.1 = .num none) := by
  have hl' : A ++ .propagate (-D) :: .det e :: B = (A ++ [.propagate (-D)]) ++ .det e :: B := by simp
  have gA : ∀ x ∈ A, x.Good := fun x hx => hg x (by simp [hx])
  rw [hl'] at hg h
  have hpar : d.xyz.dot (vX (xyPlane b a)).xyz ≠ 0 := fun h => hdx.ne ((xy_par ha hh d).1 h)
  refine xy_line ha hh hs hg h hn hB ⟨hA.1, by simpa [ownColumns, Recorder.columns] using hA.2⟩ hr hr' hf hd hp hdx ?_
  have h1 := stop_not_behind hpar hd hp gA hl (p := p) ⟨0, by ext <;> simp⟩ (by rw [xy_path ha hh, le_div_iff_of_neg hdx]; linarith)
  rw [xy_path ha hh, le_div_iff_of_neg hdx] at h1
  rw [stopAfter_append]
  simp only [stopAfter, H4.add_z, H4.smul_z]
  linarith

/-- A flat detector with its surface at zero is hit at zero only. -/
theorem xy_hit_zero {b a : ℝ} (ha : 0 < a) (hh : 0 < b) {d p q : H4} {x y : ℝ} (hd : IsDir d) (hp : IsPoint p)
    (h : planeIntersect (xyPlane b a) d p = some (q, x, y)) : q.z = 0 := by
  have := ((C10_plane_intersect _ (xy_ok ha hh).1 (xy_ok ha hh).2 d p hd hp).2 q x y h).2.2.1
  rw [xy_rect ha hh] at this
  exact this.1

/-- **C141** (AXIS: the large detector in the focal plane shows every photon where its ray crosses the focal plane, no matter which detectors were hit before.) -/
theorem C141_axis {ccds : List Det} {T : Torus} {t t' : Table} (hc : ∀ e ∈ ccds, (Recorder.det e).Good ∧ "detinf_x" ∉ (Recorder.det e).columns)
    (hT : (detcirc T).surf.Good) (h : recordAll (axisDetectors ccds T) t = .ok t') (hn : "dir" ∈ t.names ∧ "pos" ∈ t.names) (hx : "detinf_x" ∉ t.names)
    {i : ℕ} {r r' : Row} {d p : H4} (hr : t.rows[i]? = some r) (hr' : t'.rows[i]? = some r') (hf : r.Flies d p) (hd : IsDir d) (hp : IsPoint p)
    (hdx : d.x < 0) (h0 : 1000 * d.x ≤ p.x)
    (hl : ∀ e ∈ detcirc T :: ccds, ∀ (k : ℝ) q x y, e.surf.hit d (p + k • d) = some (q, x, y) → 1000 * d.x ≤ q.x) :
    (∀ k : ℝ, p.x + k * d.x = 0 → |p.y + k * d.y| ≤ 100000 → |p.z + k * d.z| ≤ 100000 →
      r' "detinf_x" = .num (some (p.y + k * d.y)) ∧ r' "detinf_y" = .num (some (p.z + k * d.z))) ∧
    (¬ (∃ k : ℝ, p.x + k * d.x = 0 ∧ |p.y + k * d.y| ≤ 100000 ∧ |p.z + k * d.z| ≤ 100000) → "detinf_x" ∈ t'.names → r' "detinf_x" = .num none) := by
  set A : List Recorder := ccds.map .det ++ [.det axisImaging, .project ⟨compose 0 1 1, ("proj_x", "proj_y")⟩, .propagate (-1000), .det (detcirc T), .project ⟨compose 0 1 1, ("projcirc_y", "projcirc_z")⟩] with hA
  have e1 : axisDetectors ccds T = A ++ .propagate (-1000) :: .det (flatdet (yzPlane 100000)) :: [] := by simp [axisDetectors, hA]
  have gA : ∀ x ∈ A, x.Good := by
    intro x hx
    simp only [hA, List.mem_append, List.mem_map, List.mem_cons, List.not_mem_nil, or_false] at hx
    rcases hx with ⟨e, he, rfl⟩ | rfl | rfl | rfl | rfl | rfl
    · exact (hc e he).1
    · exact axisImaging_good
    · exact proj_good (by simp)
    · trivial
    · exact detcirc_good hT
    · exact proj_good (by simp)
  have lA : ∀ x ∈ A, NotFarBehind (yzPlane 100000) d p 1000 x := by
    intro x hx
    simp only [hA, List.mem_append, List.mem_map, List.mem_cons, List.not_mem_nil, or_false] at hx
    rcases hx with ⟨e, he, rfl⟩ | rfl | rfl | rfl | rfl | rfl
    · exact yz_far (by norm_num) hdx (hl e (by simp [he]))
    · refine yz_far (by norm_num) hdx fun k q x y hq => ?_
      rw [yz_hit_zero (by norm_num) hd (isPoint_move hp hd k) hq]; linarith
    · trivial
    · show (-1000 : ℝ) ≤ 0; norm_num
    · exact yz_far (by norm_num) hdx (hl _ (by simp))
    · trivial
  rw [e1] at h
  refine yz_reset (by norm_num) (e := flatdet (yzPlane 100000)) rfl ?_ h hn ?_ ⟨hx, ?_⟩ hr hr' hf hd hp hdx h0 lA
  · intro x hx
    simp only [List.mem_append, List.mem_cons, List.not_mem_nil, or_false] at hx
    rcases hx with hx | rfl | rfl
    · exact gA x hx
    · trivial
    · exact flatdet_good (yz_ok (by norm_num))

  · intro c hc
    simp [Recorder.columns, flatdet] at hc
    rcases hc with rfl | rfl | rfl | rfl <;> simp [ownColumns, Recorder.columns, flatdet, axisImaging, detcirc, flatdet, lynxMicrocal, athenaZero]
  · simp only [ownColumns, hA, List.flatMap_append, List.mem_append, List.mem_flatMap, List.mem_map]
    rintro (⟨x, ⟨e, he, rfl⟩, hx⟩ | hx)
    · exact (hc e he).2 hx
    · simp [Recorder.columns, axisImaging, detcirc, flatdet, lynxMicrocal, athenaZero] at hx

/-- **C141** (Lynx: the same for the large detector.) -/
theorem C141_lynx {ccds : List Det} {T : Torus} {t t' : Table} (hc : ∀ e ∈ ccds, (Recorder.det e).Good ∧ "detinf_x" ∉ (Recorder.det e).columns)
    (hT : (detcirc T).surf.Good) (h : recordAll (lynxDetectors ccds T) t = .ok t') (hn : "dir" ∈ t.names ∧ "pos" ∈ t.names) (hx : "detinf_x" ∉ t.names)
    {i : ℕ} {r r' : Row} {d p : H4} (hr : t.rows[i]? = some r) (hr' : t'.rows[i]? = some r') (hf : r.Flies d p) (hd : IsDir d) (hp : IsPoint p)
    (hdx : d.x < 0) (h0 : 1000 * d.x ≤ p.x)
    (hl : ∀ e ∈ detcirc T :: ccds, ∀ (k : ℝ) q x y, e.surf.hit d (p + k • d) = some (q, x, y) → 1000 * d.x ≤ q.x) :
    (∀ k : ℝ, p.x + k * d.x = 0 → |p.y + k * d.y| ≤ 100000 → |p.z + k * d.z| ≤ 100000 →
      r' "detinf_x" = .num (some (p.y + k * d.y)) ∧ r' "detinf_y" = .num (some (p.z + k * d.z))) ∧
    (¬ (∃ k : ℝ, p.x + k * d.x = 0 ∧ |p.y + k * d.y| ≤ 100000 ∧ |p.z + k * d.z| ≤ 100000) → "detinf_x" ∈ t'.names → r' "detinf_x" = .num none) := by
  set A : List Recorder := ccds.map .det ++ [.project ⟨compose 0 1 1, ("proj_x", "proj_y")⟩, .propagate (-1000), .det (detcirc T), .project ⟨compose 0 1 1, ("projcirc_y", "projcirc_z")⟩] with hA
  have e1 : lynxDetectors ccds T = A ++ .propagate (-1000) :: .det (flatdet (yzPlane 100000)) :: [.propagate (-1000), .det lynxMicrocal] := by simp [lynxDetectors, hA]
  have gA : ∀ x ∈ A, x.Good := by
    intro x hx
    simp only [hA, List.mem_append, List.mem_map, List.mem_cons, List.not_mem_nil, or_false] at hx
    rcases hx with ⟨e, he, rfl⟩ | rfl | rfl | rfl | rfl
    · exact (hc e he).1
    · exact proj_good (by simp)
    · trivial
    · exact detcirc_good hT
    · exact proj_good (by simp)
  have lA : ∀ x ∈ A, NotFarBehind (yzPlane 100000) d p 1000 x := by
    intro x hx
    simp only [hA, List.mem_append, List.mem_map, List.mem_cons, List.not_mem_nil, or_false] at hx
    rcases hx with ⟨e, he, rfl⟩ | rfl | rfl | rfl | rfl
    · exact yz_far (by norm_num) hdx (hl e (by simp [he]))
    · trivial
    · show (-1000 : ℝ) ≤ 0; norm_num
    · exact yz_far (by norm_num) hdx (hl _ (by simp))
    · trivial
  rw [e1] at h
  refine yz_reset (by norm_num) (e := flatdet (yzPlane 100000)) rfl ?_ h hn ?_ ⟨hx, ?_⟩ hr hr' hf hd hp hdx h0 lA
  · intro x hx
    simp only [List.mem_append, List.mem_cons, List.not_mem_nil, or_false] at hx
    rcases hx with hx | rfl | rfl | rfl | rfl
    · exact gA x hx
    · trivial
    · exact flatdet_good (yz_ok (by norm_num))
    · trivial
    · exact lynxMicrocal_good
  · intro c hc
    simp [Recorder.columns, flatdet] at hc
    rcases hc with rfl | rfl | rfl | rfl <;> simp [ownColumns, Recorder.columns, flatdet, axisImaging, detcirc, flatdet, lynxMicrocal, athenaZero]
  · simp only [ownColumns, hA, List.flatMap_append, List.mem_append, List.mem_flatMap, List.mem_map]
    rintro (⟨x, ⟨e, he, rfl⟩, hx⟩ | hx)
    · exact (hc e he).2 hx
    · simp [Recorder.columns, axisImaging, detcirc, flatdet, lynxMicrocal, athenaZero] at hx

/-- **C141** (Lynx: the microcalorimeter sees every photon that falls on it, although all of them were recorded in its plane before.) -/
theorem C141_lynx_microcal {ccds : List Det} {T : Torus} {t t' : Table} (hc : ∀ e ∈ ccds, (Recorder.det e).Good ∧ "microcal_x" ∉ (Recorder.det e).columns)
    (hT : (detcirc T).surf.Good) (h : recordAll (lynxDetectors ccds T) t = .ok t') (hn : "dir" ∈ t.names ∧ "pos" ∈ t.names) (hx : "microcal_x" ∉ t.names)
    {i : ℕ} {r r' : Row} {d p : H4} (hr : t.rows[i]? = some r) (hr' : t'.rows[i]? = some r') (hf : r.Flies d p) (hd : IsDir d) (hp : IsPoint p)
    (hdx : d.x < 0) (h0 : 1000 * d.x ≤ p.x)
    (hl : ∀ e ∈ detcirc T :: ccds, ∀ (k : ℝ) q x y, e.surf.hit d (p + k • d) = some (q, x, y) → 1000 * d.x ≤ q.x) :
    (∀ k : ℝ, p.x + k * d.x = 0 → |p.y + k * d.y| ≤ 50 → |p.z + k * d.z| ≤ 50 →
      r' "microcal_x" = .num (some (p.y + k * d.y)) ∧ r' "microcal_y" = .num (some (p.z + k * d.z))) ∧
    (¬ (∃ k : ℝ, p.x + k * d.x = 0 ∧ |p.y + k * d.y| ≤ 50 ∧ |p.z + k * d.z| ≤ 50) → "microcal_x" ∈ t'.names → r' "microcal_x" = .num none) := by
  set A : List Recorder := ccds.map .det ++ [.project ⟨compose 0 1 1, ("proj_x", "proj_y")⟩, .propagate (-1000), .det (detcirc T), .project ⟨compose 0 1 1, ("projcirc_y", "projcirc_z")⟩, .propagate (-1000), .det (flatdet (yzPlane 100000))] with hA
  have e1 : lynxDetectors ccds T = A ++ .propagate (-1000) :: .det (lynxMicrocal) :: [] := by simp [lynxDetectors, hA]
  have gA : ∀ x ∈ A, x.Good := by
    intro x hx
    simp only [hA, List.mem_append, List.mem_map, List.mem_cons, List.not_mem_nil, or_false] at hx
    rcases hx with ⟨e, he, rfl⟩ | rfl | rfl | rfl | rfl | rfl | rfl
    · exact (hc e he).1
    · exact proj_good (by simp)
    · trivial
    · exact detcirc_good hT
    · exact proj_good (by simp)
    · trivial
    · exact flatdet_good (yz_ok (by norm_num))
  have lA : ∀ x ∈ A, NotFarBehind (yzPlane 50) d p 1000 x := by
    intro x hx
    simp only [hA, List.mem_append, List.mem_map, List.mem_cons, List.not_mem_nil, or_false] at hx
    rcases hx with ⟨e, he, rfl⟩ | rfl | rfl | rfl | rfl | rfl | rfl
    · exact yz_far (by norm_num) hdx (hl e (by simp [he]))
    · trivial
    · show (-1000 : ℝ) ≤ 0; norm_num
    · exact yz_far (by norm_num) hdx (hl _ (by simp))
    · trivial
    · show (-1000 : ℝ) ≤ 0; norm_num
    · refine yz_far (by norm_num) hdx fun k q x y hq => ?_
      rw [yz_hit_zero (by norm_num) hd (isPoint_move hp hd k) hq]; linarith
  rw [e1] at h
  refine yz_reset (by norm_num) (e := lynxMicrocal) rfl ?_ h hn ?_ ⟨hx, ?_⟩ hr hr' hf hd hp hdx h0 lA
  · intro x hx
    simp only [List.mem_append, List.mem_cons, List.not_mem_nil, or_false] at hx
    rcases hx with hx | rfl | rfl
    · exact gA x hx
    · trivial
    · exact lynxMicrocal_good

  · intro c hc
    simp [Recorder.columns, lynxMicrocal] at hc
    rcases hc with rfl | rfl | rfl | rfl <;> simp [ownColumns, Recorder.columns, lynxMicrocal, axisImaging, detcirc, flatdet, lynxMicrocal, athenaZero]
  · simp only [ownColumns, hA, List.flatMap_append, List.mem_append, List.mem_flatMap, List.mem_map]
    rintro (⟨x, ⟨e, he, rfl⟩, hx⟩ | hx)
    · exact (hc e he).2 hx
    · simp [Recorder.columns, axisImaging, detcirc, flatdet, lynxMicrocal, athenaZero] at hx

/-- **C141** (Athena: the large detector.) -/
theorem C141_athena {ccds : List Det} {T : Torus} {t t' : Table} (hc : ∀ e ∈ ccds, (Recorder.det e).Good ∧ "detinf_x" ∉ (Recorder.det e).columns)
    (hT : (detcirc T).surf.Good) (h : recordAll (athenaDetectors ccds T) t = .ok t') (hn : "dir" ∈ t.names ∧ "pos" ∈ t.names) (hx : "detinf_x" ∉ t.names)
    {i : ℕ} {r r' : Row} {d p : H4} (hr : t.rows[i]? = some r) (hr' : t'.rows[i]? = some r') (hf : r.Flies d p) (hd : IsDir d) (hp : IsPoint p)
    (hdx : d.z < 0) (h0 : 1000 * d.z ≤ p.z)
    (hl : ∀ e ∈ detcirc T :: ccds, ∀ (k : ℝ) q x y, e.surf.hit d (p + k • d) = some (q, x, y) → 1000 * d.z ≤ q.z) :
    (∀ k : ℝ, p.z + k * d.z = 0 → |p.x + k * d.x| ≤ 100000 → |p.y + k * d.y| ≤ 100000 →
      r' "detinf_x" = .num (some (p.x + k * d.x)) ∧ r' "detinf_y" = .num (some (p.y + k * d.y))) ∧
    (¬ (∃ k : ℝ, p.z + k * d.z = 0 ∧ |p.x + k * d.x| ≤ 100000 ∧ |p.y + k * d.y| ≤ 100000) → "detinf_x" ∈ t'.names → r' "detinf_x" = .num none) := by
  set A : List Recorder := ccds.map .det ++ [.project ⟨compose 0 zxyOrient 1, ("proj_x", "proj_y")⟩, .propagate (-1000), .det (detcirc T), .project ⟨compose 0 zxyOrient 1, ("projcirc_y", "projcirc_z")⟩] with hA
  have e1 : athenaDetectors ccds T = A ++ .propagate (-1000) :: .det (flatdet (xyPlane 1 100000)) :: [.propagate (-1000), .det athenaZero] := by simp [athenaDetectors, hA]
  have gA : ∀ x ∈ A, x.Good := by
    intro x hx
    simp only [hA, List.mem_append, List.mem_map, List.mem_cons, List.not_mem_nil, or_false] at hx
    rcases hx with ⟨e, he, rfl⟩ | rfl | rfl | rfl | rfl
    · exact (hc e he).1
    · exact proj_good (by simp)
    · trivial
    · exact detcirc_good hT
    · exact proj_good (by simp)
  have lA : ∀ x ∈ A, NotFarBehind (xyPlane 1 100000) d p 1000 x := by
    intro x hx
    simp only [hA, List.mem_append, List.mem_map, List.mem_cons, List.not_mem_nil, or_false] at hx
    rcases hx with ⟨e, he, rfl⟩ | rfl | rfl | rfl | rfl
    · exact xy_far (by norm_num) (by norm_num) hdx (hl e (by simp [he]))
    · trivial
    · show (-1000 : ℝ) ≤ 0; norm_num
    · exact xy_far (by norm_num) (by norm_num) hdx (hl _ (by simp))
    · trivial
  rw [e1] at h
  refine xy_reset (by norm_num) (by norm_num) (e := flatdet (xyPlane 1 100000)) rfl ?_ h hn ?_ ⟨hx, ?_⟩ hr hr' hf hd hp hdx h0 lA
  · intro x hx
    simp only [List.mem_append, List.mem_cons, List.not_mem_nil, or_false] at hx
    rcases hx with hx | rfl | rfl | rfl | rfl
    · exact gA x hx
    · trivial
    · exact flatdet_good (xy_ok (by norm_num) (by norm_num))
    · trivial
    · exact athenaZero_good
  · intro c hc
    simp [Recorder.columns, flatdet] at hc
    rcases hc with rfl | rfl | rfl | rfl <;> simp [ownColumns, Recorder.columns, flatdet, axisImaging, detcirc, flatdet, lynxMicrocal, athenaZero]
  · simp only [ownColumns, hA, List.flatMap_append, List.mem_append, List.mem_flatMap, List.mem_map]
    rintro (⟨x, ⟨e, he, rfl⟩, hx⟩ | hx)
    · exact (hc e he).2 hx
    · simp [Recorder.columns, axisImaging, detcirc, flatdet, lynxMicrocal, athenaZero] at hx

/-- **C141** (Athena: the detector for zero order, in mm.) -/
theorem C141_athena_zero {ccds : List Det} {T : Torus} {t t' : Table} (hc : ∀ e ∈ ccds, (Recorder.det e).Good ∧ "zero_x" ∉ (Recorder.det e).columns)
    (hT : (detcirc T).surf.Good) (h : recordAll (athenaDetectors ccds T) t = .ok t') (hn : "dir" ∈ t.names ∧ "pos" ∈ t.names) (hx : "zero_x" ∉ t.names)
    {i : ℕ} {r r' : Row} {d p : H4} (hr : t.rows[i]? = some r) (hr' : t'.rows[i]? = some r') (hf : r.Flies d p) (hd : IsDir d) (hp : IsPoint p)
    (hdx : d.z < 0) (h0 : 1000 * d.z ≤ p.z)
    (hl : ∀ e ∈ detcirc T :: ccds, ∀ (k : ℝ) q x y, e.surf.hit d (p + k • d) = some (q, x, y) → 1000 * d.z ≤ q.z) :
    (∀ k : ℝ, p.z + k * d.z = 0 → |p.x + k * d.x| ≤ 15 → |p.y + k * d.y| ≤ 15 →
      r' "zero_x" = .num (some (p.x + k * d.x)) ∧ r' "zero_y" = .num (some (p.y + k * d.y))) ∧
    (¬ (∃ k : ℝ, p.z + k * d.z = 0 ∧ |p.x + k * d.x| ≤ 15 ∧ |p.y + k * d.y| ≤ 15) → "zero_x" ∈ t'.names → r' "zero_x" = .num none) := by
  set A : List Recorder := ccds.map .det ++ [.project ⟨compose 0 zxyOrient 1, ("proj_x", "proj_y")⟩, .propagate (-1000), .det (detcirc T), .project ⟨compose 0 zxyOrient 1, ("projcirc_y", "projcirc_z")⟩, .propagate (-1000), .det (flatdet (xyPlane 1 100000))] with hA
  have e1 : athenaDetectors ccds T = A ++ .propagate (-1000) :: .det (athenaZero) :: [] := by simp [athenaDetectors, hA]
  have gA : ∀ x ∈ A, x.Good := by
    intro x hx
    simp only [hA, List.mem_append, List.mem_map, List.mem_cons, List.not_mem_nil, or_false] at hx
    rcases hx with ⟨e, he, rfl⟩ | rfl | rfl | rfl | rfl | rfl | rfl
    · exact (hc e he).1
    · exact proj_good (by simp)
    · trivial
    · exact detcirc_good hT
    · exact proj_good (by simp)
    · trivial
    · exact flatdet_good (xy_ok (by norm_num) (by norm_num))
  have lA : ∀ x ∈ A, NotFarBehind (xyPlane 1 15) d p 1000 x := by
    intro x hx
    simp only [hA, List.mem_append, List.mem_map, List.mem_cons, List.not_mem_nil, or_false] at hx
    rcases hx with ⟨e, he, rfl⟩ | rfl | rfl | rfl | rfl | rfl | rfl
    · exact xy_far (by norm_num) (by norm_num) hdx (hl e (by simp [he]))
    · trivial
    · show (-1000 : ℝ) ≤ 0; norm_num
    · exact xy_far (by norm_num) (by norm_num) hdx (hl _ (by simp))
    · trivial
    · show (-1000 : ℝ) ≤ 0; norm_num
    · refine xy_far (by norm_num) (by norm_num) hdx fun k q x y hq => ?_
      rw [xy_hit_zero (by norm_num) (by norm_num) hd (isPoint_move hp hd k) hq]; linarith
  rw [e1] at h
  refine xy_reset (by norm_num) (by norm_num) (e := athenaZero) rfl ?_ h hn ?_ ⟨hx, ?_⟩ hr hr' hf hd hp hdx h0 lA
  · intro x hx
    simp only [List.mem_append, List.mem_cons, List.not_mem_nil, or_false] at hx
    rcases hx with hx | rfl | rfl
    · exact gA x hx
    · trivial
    · exact athenaZero_good

  · intro c hc
    simp [Recorder.columns, athenaZero] at hc
    rcases hc with rfl | rfl | rfl | rfl <;> simp [ownColumns, Recorder.columns, athenaZero, axisImaging, detcirc, flatdet, lynxMicrocal, athenaZero]
  · simp only [ownColumns, hA, List.flatMap_append, List.mem_append, List.mem_flatMap, List.mem_map]
    rintro (⟨x, ⟨e, he, rfl⟩, hx⟩ | hx)
    · exact (hc e he).2 hx
    · simp [Recorder.columns, axisImaging, detcirc, flatdet, lynxMicrocal, athenaZero] at hx

/-! ## Arcus -/

theorem arcusCirc_good {r d : ℝ} (hr : 0 < r) : (Recorder.det (arcusCirc r d)).Good := by
  refine ⟨⟨affine_compose _ _ _, ?_⟩, by simp [arcusCirc], by simp [arcusCirc], by simp [arcusCirc], by simp [arcusCirc], ?_⟩
  · unfold arcusCircDet
    rw [det_compose]
    simp [Matrix.det_fin_three, Fin.prod_univ_three, hr.ne']
  · intro c hc
    simp [Recorder.columns, arcusCirc] at hc
    rcases hc with rfl | rfl | rfl | rfl <;> decide

theorem arcusDetfp_good : (Recorder.det arcusDetfp).Good := by
  refine ⟨xy_ok (by norm_num) (by norm_num), by decide, by decide, by simp [arcusDetfp], by simp [arcusDetfp], ?_⟩
  intro c hc
  simp [Recorder.columns, arcusDetfp] at hc
  rcases hc with rfl | rfl | rfl | rfl <;> decide

/-- What stands in front of the detector in the focal plane. -/
theorem arcus_split (ccds : List Det) (r d : ℝ) : arcusDetectors ccds r d =
    ([.det (arcusCirc r d), .project ⟨compose 0 zxyOrient 1, ("projcirc_x", "projcirc_y")⟩, .propagate (-100)] ++ ccds.map .det ++
      [.project ⟨compose 0 zxyOrient 1, ("proj_x", "proj_y")⟩]) ++ .det arcusDetfp :: [] := by
  simp [arcusDetectors]

/-- Behind a detector photons only move on. -/
theorem stop_down {l : List Det} (hg : ∀ e ∈ l, (Recorder.det e).Good) {d p : H4} (hd : IsDir d) (hp : IsPoint p) (hdz : d.z < 0) :
    (stopAfter (l.map .det) d p).z ≤ p.z := by
  induction l generalizing p with
  | nil => exact le_refl _
  | cons e l ih =>
    simp only [List.map_cons, stopAfter]
    cases hh : e.surf.hit d p with
    | none => exact ih (fun y hy => hg y (by simp [hy])) hp
    | some v =>
      obtain ⟨q, x, y⟩ := v
      obtain ⟨k, hk, hq⟩ := hit_on_ray (hg e (by simp)).1 hd hp hh
      refine le_trans (ih (fun y hy => hg y (by simp [hy])) (hq ▸ isPoint_move hp hd k)) ?_
      simp only [hq, H4.add_z, H4.smul_z]
      nlinarith

theorem arcus_gA {ccds : List Det} (hc : ∀ e ∈ ccds, (Recorder.det e).Good) {R D : ℝ} (hR : 0 < R) :
    ∀ x ∈ ([.det (arcusCirc R D), .project ⟨compose 0 zxyOrient 1, ("projcirc_x", "projcirc_y")⟩, .propagate (-100)] ++ ccds.map .det ++
      [.project ⟨compose 0 zxyOrient 1, ("proj_x", "proj_y")⟩] ++ [.det arcusDetfp] : List Recorder), x.Good := by
  intro x hx
  simp only [List.mem_append, List.mem_map, List.mem_cons, List.not_mem_nil, or_false] at hx
  rcases hx with (((rfl | rfl | rfl) | ⟨e, he, rfl⟩) | rfl) | rfl
  · exact arcusCirc_good hR
  · exact proj_good (by simp)
  · trivial
  · exact hc e he
  · exact proj_good (by simp)
  · exact arcusDetfp_good

theorem arcus_cols {ccds : List Det} (hc : ∀ e ∈ ccds, "detfp_x" ∉ (Recorder.det e).columns) (R D : ℝ) :
    "detfp_x" ∉ ownColumns ([.det (arcusCirc R D), .project ⟨compose 0 zxyOrient 1, ("projcirc_x", "projcirc_y")⟩, .propagate (-100)] ++ ccds.map .det ++
      [.project ⟨compose 0 zxyOrient 1, ("proj_x", "proj_y")⟩]) := by
  simp only [ownColumns, List.flatMap_append, List.mem_append, List.mem_flatMap, List.mem_map]
  rintro ((hx | ⟨x, ⟨e, he, rfl⟩, hx⟩) | hx)
  · obtain ⟨x, hx, h⟩ := hx
    simp only [List.mem_cons, List.not_mem_nil, or_false] at hx
    rcases hx with rfl | rfl | rfl <;> simp [Recorder.columns, arcusCirc] at h
  · exact hc e he hx
  · obtain ⟨x, hx, h⟩ := hx
    simp only [List.mem_cons, List.not_mem_nil, or_false] at hx
    subst hx
    simp [Recorder.columns] at h

/-- **C141** (Arcus): the detector in the focal plane is right for photons on whose ray there is no CCD below the focal plane. Missing: all other photons, see `C141_arcus_false`. -/
theorem C141_arcus_partial {ccds : List Det} {R D : ℝ} (hR : 0 < R) {t t' : Table} (hc : ∀ e ∈ ccds, (Recorder.det e).Good ∧ "detfp_x" ∉ (Recorder.det e).columns)
    (h : recordAll (arcusDetectors ccds R D) t = .ok t') (hn : "dir" ∈ t.names ∧ "pos" ∈ t.names) (hx : "detfp_x" ∉ t.names)
    {i : ℕ} {r r' : Row} {d p : H4} (hr : t.rows[i]? = some r) (hr' : t'.rows[i]? = some r') (hf : r.Flies d p) (hd : IsDir d) (hp : IsPoint p)
    (hdz : d.z < 0) (h0 : 100 * d.z ≤ p.z)
    (h1 : ∀ (k : ℝ) q x y, (arcusCirc R D).surf.hit d (p + k • d) = some (q, x, y) → 100 * d.z ≤ q.z)
    (hl : ∀ e ∈ ccds, ∀ (k : ℝ) q x y, e.surf.hit d (p + k • d) = some (q, x, y) → 0 ≤ q.z) :
    (∀ k : ℝ, p.z + k * d.z = 0 → |p.x + k * d.x| ≤ 10000 → |p.y + k * d.y| ≤ 10000 →
      r' "detfp_x" = .num (some (p.x + k * d.x)) ∧ r' "detfp_y" = .num (some (p.y + k * d.y))) ∧
    (¬ (∃ k : ℝ, p.z + k * d.z = 0 ∧ |p.x + k * d.x| ≤ 10000 ∧ |p.y + k * d.y| ≤ 10000) → "detfp_x" ∈ t'.names → r' "detfp_x" = .num none) := by
  have gA := arcus_gA (fun e he => (hc e he).1) (R := R) (D := D) hR
  rw [arcus_split] at h
  refine xy_line (by norm_num) (by norm_num) (e := arcusDetfp) rfl gA h hn (by simp [ownColumns]) ⟨hx, arcus_cols (fun e he => (hc e he).2) R D⟩
    hr hr' hf hd hp hdz ?_
  have hb : (0 : ℝ) < 0.2 := by norm_num
  have ha : (0 : ℝ) < 10000 := by norm_num
  have hpar : d.xyz.dot (vX (xyPlane 0.2 10000)).xyz ≠ 0 := fun h => hdz.ne ((xy_par ha hb d).1 h)
  rw [stopAfter_append, stopAfter_append]
  simp only [stopAfter]
  set p1 := (match (arcusCirc R D).surf.hit d p with
      | some (q, _, _) => q
      | none => p) with hp1
  have hp1k : ∃ k : ℝ, p1 = p + k • d ∧ 100 * d.z ≤ p1.z := by
    rw [hp1]
    cases hh : (arcusCirc R D).surf.hit d p with
    | none => exact ⟨0, by ext <;> simp, h0⟩
    | some v =>
      obtain ⟨q, x, y⟩ := v
      obtain ⟨k, -, hk⟩ := hit_on_ray (arcusCirc_good hR).1 hd hp hh
      refine ⟨k, hk, h1 0 q x y ?_⟩
      rw [← hh]; congr 1; ext <;> simp
  obtain ⟨k1, e1, z1⟩ := hp1k
  have := stop_not_behind (m := xyPlane 0.2 10000) (D := 0) hpar hd hp (l := ccds.map .det) (p := p1 + (-100 : ℝ) • d)
    (by intro x hx; obtain ⟨e, he, rfl⟩ := List.mem_map.1 hx; exact (hc e he).1)
    (by
      intro x hx; obtain ⟨e, he, rfl⟩ := List.mem_map.1 hx
      exact xy_far ha hb hdz (by simpa using hl e he))
    ⟨k1 + -100, by rw [e1]; ext <;> simp <;> ring⟩
    (by
      rw [xy_path ha hb, le_div_iff_of_neg hdz]
      simp only [H4.add_z, H4.smul_z]; linarith)
  rw [xy_path ha hb, le_div_iff_of_neg hdz] at this
  change 0 ≤ (stopAfter (ccds.map .det) d (p1 + (-100 : ℝ) • d)).z
  linarith

/-- **C141** (Arcus, disagreement): a photon whose ray meets a CCD below the focal plane is not seen by the detector in the focal plane, because
it is not moved back, wherever its ray crosses this plane. -/
theorem C141_arcus_false {A B : List Det} {c : Det} {m : M4} (hm : c.surf = .plane m) {R D : ℝ} (hR : 0 < R) {t t' : Table}
    (hc : ∀ e ∈ A ++ c :: B, (Recorder.det e).Good ∧ "detfp_x" ∉ (Recorder.det e).columns)
    (h : recordAll (arcusDetectors (A ++ c :: B) R D) t = .ok t') (hn : "dir" ∈ t.names ∧ "pos" ∈ t.names) (hx : "detfp_x" ∉ t.names)
    {i : ℕ} {r r' : Row} {d p : H4} (hr : t.rows[i]? = some r) (hr' : t'.rows[i]? = some r') (hf : r.Flies d p) (hd : IsDir d) (hp : IsPoint p)
    (hdz : d.z < 0) {k : ℝ} (hpar : ¬ ParallelToPlane m d.xyz) (hq : InRectangle m (p.xyz + k • d.xyz)) (hqz : p.z + k * d.z < 0) :
    "detfp_x" ∈ t'.names → r' "detfp_x" = .num none := by
  have gA := arcus_gA (fun e he => (hc e he).1) (R := R) (D := D) hR
  rw [arcus_split] at h
  obtain ⟨-, miss⟩ := C141_recorded gA h hn (by simp [ownColumns]) hr hr' hf hd hp
  intro hc'
  refine (miss ?_ "detfp_x" (by simp [Recorder.columns, arcusDetfp]) hx (arcus_cols (fun e he => (hc e he).2) R D) hc').1 (by simp [arcusDetfp])
  have e0 : ([.det (arcusCirc R D), .project ⟨compose 0 zxyOrient 1, ("projcirc_x", "projcirc_y")⟩, .propagate (-100)] ++ (A ++ c :: B).map .det ++
      [.project ⟨compose 0 zxyOrient 1, ("proj_x", "proj_y")⟩] : List Recorder) =
      (([.det (arcusCirc R D), .project ⟨compose 0 zxyOrient 1, ("projcirc_x", "projcirc_y")⟩, .propagate (-100)] ++ A.map .det) ++ .det c :: B.map .det) ++
      [.project ⟨compose 0 zxyOrient 1, ("proj_x", "proj_y")⟩] := by simp
  have gs : Affine m ∧ OrthoAxes m := by have := (hc c (by simp)).1.1; rw [hm] at this; exact this
  rw [e0, stopAfter_append, stopAfter_append]
  set p1 := stopAfter ([.det (arcusCirc R D), .project ⟨compose 0 zxyOrient 1, ("projcirc_x", "projcirc_y")⟩, .propagate (-100)] ++ A.map .det) d p with hp1
  obtain ⟨k1, hk1⟩ : ∃ k1 : ℝ, p1 = p + k1 • d := by
    refine stopAfter_ray (fun x hx => gA x ?_) hd hp
    simp only [List.map_append, List.mem_append] at hx ⊢
    tauto
  simp only [stopAfter]
  set p2 := (match c.surf.hit d p1 with
      | some (q, _, _) => q
      | none => p1) with hp2
  have hp2k : (∃ k2 : ℝ, p2 = p + k2 • d) ∧ p2.z < 0 := by
    obtain ⟨c1, c2⟩ := C10_plane_intersect m gs.1 gs.2 d p1 hd (hk1 ▸ isPoint_move hp hd k1)
    have uniq : ∀ k' : ℝ, InRectangle m (p.xyz + k' • d.xyz) → k' = k := by
      have key : ∀ k : ℝ, InRectangle m (p.xyz + k • d.xyz) → pathTo m d p = k := by
        rintro k ⟨a, b, -, -, hq⟩
        have hz : pathTo m d (p + k • d) = 0 := by
          have hq' : (p + k • d).xyz = (center m).xyz + a • (vY m).xyz + b • (vZ m).xyz := hq ▸ rfl
          unfold pathTo
          rw [hq', div_eq_zero_iff]
          left
          have h1 := gs.2.xy; have h2 := gs.2.xz
          simp only [V3.dot, V3.sub_x, V3.sub_y, V3.sub_z, V3.add_x, V3.add_y, V3.add_z, V3.smul_x, V3.smul_y, V3.smul_z] at *
          linear_combination -a * h1 - b * h2
        rw [pathTo_move hpar] at hz
        linarith
      intro k' hk'
      rw [← key k hq, key k' hk']
    rw [hp2, hm]
    simp only [DetSurface.hit]
    cases hh : planeIntersect m d p1 with
    | none =>
      refine ⟨⟨k1, hk1⟩, ?_⟩
      simp only
      have : ¬ (∃ k : ℝ, 0 ≤ k ∧ InRectangle m (p1.xyz + k • d.xyz)) := by
        intro hex
        have := c1.2 ⟨hpar, hex⟩
        rw [hh] at this; cases this
      by_contra hz
      push Not at hz
      refine this ⟨k - k1, ?_, ?_⟩
      · rw [hk1] at hz
        simp only [H4.add_z, H4.smul_z] at hz
        nlinarith
      · convert hq using 1
        rw [hk1]; ext <;> simp <;> ring
    | some v =>
      obtain ⟨q, x, y⟩ := v
      obtain ⟨-, ⟨k', -, hk'⟩, hin, -⟩ := c2 q x y hh
      obtain ⟨k2, -, hk2⟩ := hit_on_ray (s := .plane m) gs hd (hk1 ▸ isPoint_move hp hd k1) hh
      have hk3 : q = p + (k1 + k2) • d := by rw [hk2, hk1]; ext <;> simp <;> ring
      refine ⟨⟨k1 + k2, hk3⟩, ?_⟩
      simp only
      have : k1 + k2 = k := uniq _ (by rw [hk3] at hin; exact hin)
      rw [hk3, this]
      simpa using hqz
  obtain ⟨⟨k2, hk2⟩, hz2⟩ := hp2k
  have hz := stop_down (fun e he => (hc e (by simp [he])).1) hd (hk2 ▸ isPoint_move hp hd k2) hdz (l := B) (p := p2)
  obtain ⟨k3, hk3⟩ : ∃ k3 : ℝ, stopAfter (B.map .det) d p2 = p2 + k3 • d :=
    stopAfter_ray (fun x hx => by obtain ⟨e, he, rfl⟩ := List.mem_map.1 hx; exact (hc e (by simp [he])).1) hd (hk2 ▸ isPoint_move hp hd k2)
  have hpt : IsPoint (stopAfter (B.map .det) d p2) := hk3 ▸ isPoint_move (hk2 ▸ isPoint_move hp hd k2) hd k3
  have ha : (0 : ℝ) < 10000 := by norm_num
  have hb : (0 : ℝ) < 0.2 := by norm_num
  change planeIntersect (xyPlane 0.2 10000) d (stopAfter (B.map .det) d p2) = none
  rw [← Option.not_isSome_iff_eq_none, (C10_plane_intersect _ (xy_ok ha hb).1 (xy_ok ha hb).2 d _ hd hpt).1]
  rintro ⟨-, k4, h4, h5⟩
  rw [xy_rect ha hb] at h5
  have := h5.1
  simp only [V3.add_z, V3.smul_z, H4.xyz_z] at this
  nlinarith

theorem arcusCcd_good {f r w h a px : ℝ} (hw : 0 < w) (hh : 0 < h) {e : GenElem} (he : e.pos4d = ccdAt f r w h a) :
    (Recorder.det (arcusCcd px e)).Good ∧ "detfp_x" ∉ (Recorder.det (arcusCcd px e)).columns := by
  refine ⟨⟨?_, by simp [arcusCcd], by simp [arcusCcd], by simp [arcusCcd], by simp [arcusCcd], ?_⟩, by simp [Recorder.columns, arcusCcd]⟩
  · change Affine e.pos4d ∧ OrthoAxes e.pos4d
    rw [he]
    have cs := Real.sin_sq_add_cos_sq a
    have nz : ∀ v : V3, 0 < v.dot v → v ≠ 0 := by
      rintro v h rfl; simp [V3.dot] at h
    refine ⟨⟨?_, ?_, ?_, ?_⟩, ⟨?_, ?_, ?_, nz _ ?_, nz _ ?_, nz _ ?_⟩⟩ <;> simp [ccdAt, vX, vY, vZ, col, V3.dot]
    · ring
    · nlinarith
    · have : 0 < w * w := mul_pos hw hw
      nlinarith
    · exact hh.ne'
  · intro c hc
    simp [Recorder.columns, arcusCcd] at hc
    rcases hc with rfl | rfl | rfl | rfl | rfl <;> decide

/-- **C141** (Arcus, disagreement, reached): with a camera as it is built for Arcus, photons that come straight down above a CCD which stands between the two channels are lost
for the detector in the focal plane. -/
theorem C141_arcus_camera_false {d_BF R f p0 w h px : ℝ} {name : String} (c : CamOk d_BF R f p0 w h)
    (hs : |-5 + (p0 * (doubleRowland d_BF R f).detector.r + w)| < d_BF / 2) (hd : d_BF ≤ 20000) :
    ∃ es, detCamera (arcusCamConf d_BF R f p0 w h px) name = .ok es ∧
      (∀ t : Table, "dir" ∈ t.names ∧ "pos" ∈ t.names → AllFly t →
        ∃ t', recordAll (arcusDetectors (es.map (arcusCcd px)) (doubleRowland d_BF R f).detector.r (d_BF / 2)) t = .ok t') ∧
      ∃ X : ℝ, |X| ≤ 10000 ∧ ∀ (t t' : Table) (i : ℕ) (r r' : Row) (z : ℝ),
        recordAll (arcusDetectors (es.map (arcusCcd px)) (doubleRowland d_BF R f).detector.r (d_BF / 2)) t = .ok t' → "dir" ∈ t.names ∧ "pos" ∈ t.names →
        "detfp_x" ∉ t.names → t.rows[i]? = some r → t'.rows[i]? = some r' → r.Flies ⟨0, 0, -1, 0⟩ ⟨X, 0, z, 1⟩ → "detfp_x" ∈ t'.names → r' "detfp_x" = .num none := by
  obtain ⟨es, h1, h2, -, -⟩ := C125_layout (px := px) (name := name) c
  set rr := (doubleRowland d_BF R f).detector.r with hrr
  have hre : rr = 1 / 2 * Real.sqrt (f ^ 2 + d_BF ^ 2) := by simp [hrr, doubleRowland]
  have hfp := c.f_pos
  have hdn := c.d_nonneg
  have hr2 : rr ^ 2 = (f / 2) ^ 2 + (d_BF / 2) ^ 2 := by
    rw [hre, mul_pow, Real.sq_sqrt (by positivity)]; ring
  have hr0 : 0 < rr := by rw [hre]; positivity
  have hrf : f / 2 ≤ rr := by nlinarith [sq_nonneg (d_BF / 2)]
  have gall : ∀ e ∈ es.map (arcusCcd px), (Recorder.det e).Good ∧ "detfp_x" ∉ (Recorder.det e).columns := by
    intro e he
    obtain ⟨g, hg, rfl⟩ := List.mem_map.1 he
    have : g.pos4d ∈ es.map (·.pos4d) := List.mem_map_of_mem hg
    rw [h2] at this
    obtain ⟨s, -, hs⟩ := List.mem_map.1 this
    exact arcusCcd_good c.w_pos c.h_pos hs.symm
  set s := -5 + (p0 * rr + w) with hsdef
  have hmem : ∃ g ∈ es, g.pos4d = ccdAt f rr w h (s / rr) := by
    have : ccdAt f rr w h (s / rr) ∈ es.map (·.pos4d) := by
      rw [h2]
      refine List.mem_map.2 ⟨s, ?_, rfl⟩
      simp [cameraArc, stripArc, hsdef]
    obtain ⟨g, hg, he⟩ := List.mem_map.1 this
    exact ⟨g, hg, he⟩
  obtain ⟨g, hg, hgm⟩ := hmem
  obtain ⟨es1, es2, hes⟩ := List.append_of_mem hg
  have hX : |rr * Real.sin (s / rr)| ≤ d_BF / 2 := by
    rw [abs_mul, abs_of_pos hr0]
    have : |Real.sin (s / rr)| ≤ |s / rr| := Real.abs_sin_le_abs
    calc rr * |Real.sin (s / rr)| ≤ rr * |s / rr| := by gcongr
      _ = |s| := by rw [abs_div, abs_of_pos hr0]; field_simp
      _ ≤ _ := hs.le
  have hcos : f / 2 < rr * Real.cos (s / rr) := by
    have hc1 := Real.one_sub_sq_div_two_le_cos (x := s / rr)
    have hs2 : s ^ 2 < (d_BF / 2) ^ 2 := by
      rw [← sq_abs s]
      exact pow_lt_pow_left₀ hs (abs_nonneg _) (by norm_num)
    have h3 : rr * (1 - (s / rr) ^ 2 / 2) = rr - s ^ 2 / (2 * rr) := by field_simp
    have h4 : s ^ 2 / (2 * rr) < rr - f / 2 := by
      rw [div_lt_iff₀ (by linarith)]
      nlinarith
    nlinarith
  have hcz : 0 < Real.cos (s / rr) := by
    by_contra hcz
    push Not at hcz
    nlinarith
  refine ⟨es, h1, ?_, rr * Real.sin (s / rr), by linarith, ?_⟩
  · intro t hn hf
    refine C141_runs ?_ hn hf
    rw [arcus_split]
    exact arcus_gA (fun e he => (gall e he).1) hr0
  · intro t t' i r r' z hrec hn hx hr hr' hf hc'
    have hes' : es.map (arcusCcd px) = es1.map (arcusCcd px) ++ arcusCcd px g :: es2.map (arcusCcd px) := by rw [hes]; simp
    rw [hes'] at hrec gall
    refine C141_arcus_false (m := ccdAt f rr w h (s / rr)) (by rw [← hgm]; rfl) hr0 gall hrec hn hx hr hr' hf (by simp [IsDir]) (by simp [IsPoint]) (by simp)
      (k := z - (f / 2 - rr * Real.cos (s / rr))) ?_ ?_ ?_ hc'
    · simp [ParallelToPlane, V3.dot, vX, col, ccdAt, hcz.ne']
    · refine ⟨0, 0, by simp, by simp, ?_⟩
      ext <;> simp [center, col, ccdAt]
    · simp; linarith

/-- A table with one photon. -/
def onePhoton (d p : H4) : Table := ⟨["dir", "pos"], [fun c => if c = "dir" then vecCell (some d) else vecCell (some p)]⟩

theorem onePhoton_flies (d p : H4) : Row.Flies (fun c => if c = "dir" then vecCell (some d) else vecCell (some p)) d p := by
  simp [Row.Flies]

theorem onePhoton_all {d p : H4} (hd : IsDir d) : AllFly (onePhoton d p) := by
  intro r hr
  simp only [onePhoton, List.mem_singleton] at hr
  subst hr
  exact ⟨d, p, onePhoton_flies d p, hd⟩

/-- **C141** (pixels, disagreement): the imaging detector of AXIS and the detector for zero order of Athena use the same names for pixels and for mm, so that there
are no pixel coordinates in the table: a photon on the optical axis falls on pixel 1874.5, but the table says 0. -/
theorem C141_pixels_false (e : Det) (he : e = axisImaging ∨ e = athenaZero) :
    ∃ (t t' : Table) (r r' : Row) (d p q : H4) (x y : ℝ), e.call t = .ok t' ∧ t.rows[0]? = some r ∧ t'.rows[0]? = some r' ∧ r.Flies d p ∧
      e.surf.hit d p = some (q, x, y) ∧ (e.pixel x y).1 = 1874.5 ∧ r' e.pix.1 = .num (some 0) := by
  have hp15 : detpix 15 0.008 0 = 1874.5 := by
    have : npRound (2 * 15 / 0.008) = 3750 := by
      have e1 : (2 * 15 / 0.008 : ℝ) = ((3750 : ℤ) : ℝ) := by norm_num
      rw [e1]
      simp [npRound]
    simp only [detpix, centerpix, npix, this]; norm_num
  have hg : (Recorder.det e).Good := by
    rcases he with rfl | rfl
    · exact axisImaging_good
    · exact athenaZero_good
  have key : ∀ (d p q : H4) (x y : ℝ), IsDir d → e.surf.hit d p = some (q, x, y) → x = 0 → (e.pixel x y).1 = 1874.5 →
      ∃ (t t' : Table) (r r' : Row) (d p q : H4) (x y : ℝ), e.call t = .ok t' ∧ t.rows[0]? = some r ∧ t'.rows[0]? = some r' ∧ r.Flies d p ∧
      e.surf.hit d p = some (q, x, y) ∧ (e.pixel x y).1 = 1874.5 ∧ r' e.pix.1 = .num (some 0) := by
    intro d p q x y hd hq hx hpx
    obtain ⟨t', ht'⟩ := det_call_ok (t := onePhoton d p) hg (by simp [onePhoton]) (onePhoton_all hd)
    obtain ⟨a1, a2, a3⟩ := det_step hg ht'
    obtain ⟨r', hr'⟩ : ∃ r', t'.rows[0]? = some r' := ⟨_, List.getElem?_eq_getElem (by rw [a1]; simp [onePhoton])⟩
    refine ⟨_, t', _, r', d, p, q, x, y, ht', rfl, hr', onePhoton_flies d p, hq, hpx, ?_⟩
    have := ((a3 0 _ r' d p rfl hr' (onePhoton_flies d p)).2 q x y hq).2.1
    rw [hx] at this
    rcases he with rfl | rfl <;> exact this
  rcases he with rfl | rfl
  · have hdec : (decompose44 (yzPlane 15)).z 1 = 15 := by
      rw [yzPlane, decompose44_exact 0 1 ![1, 15, 15] (by constructor <;> simp) (by intro k; fin_cases k <;> norm_num)]; simp
    refine key ⟨-1, 0, 0, 0⟩ ⟨1, 0, 0, 1⟩ ⟨0, 0, 0, 1⟩ 0 0 (by simp [IsDir]) ?_ rfl ?_
    · simp [axisImaging, DetSurface.hit, planeIntersect, center, eX, eY, eZ, vX, vY, vZ, col, yzPlane, compose, H4.unit, H4.dot, H4.norm, H4.ext_iff]
    · simp only [Det.pixel, axisImaging, hdec]; exact hp15
  · have hdec : (decompose44 (xyPlane 1 15)).z 1 = 15 := by
      rw [xyPlane, decompose44_exact 0 zxyOrient ![1, 15, 15] ?_ (by intro k; fin_cases k <;> norm_num)]
      · simp
      · refine ⟨?_, ?_⟩ <;> simp [zxyOrient, Matrix.det_fin_three]
        ext i j; fin_cases i <;> fin_cases j <;> simp [Matrix.mul_apply, Fin.sum_univ_three]
    refine key ⟨0, 0, -1, 0⟩ ⟨0, 0, 1, 1⟩ ⟨0, 0, 0, 1⟩ 0 0 (by simp [IsDir]) ?_ rfl ?_
    · simp [athenaZero, DetSurface.hit, planeIntersect, center, eX, eY, eZ, vX, vY, vZ, col, xyPlane, zxyOrient, compose, H4.unit, H4.dot, H4.norm, H4.ext_iff]
    · simp only [Det.pixel, athenaZero, hdec]; exact hp15

/-- Arcus as it is built: the camera is such that photons are lost. -/
example : CamOk 750 5915.51307 (12000 - 123.569239) 0.024 24.576 12.288 →
    ∃ es X, detCamera (arcusCamConf 750 5915.51307 (12000 - 123.569239) 0.024 24.576 12.288 0.024) "camera" = .ok es ∧
      ∃ t' r', recordAll (arcusDetectors (es.map (arcusCcd 0.024)) (doubleRowland 750 5915.51307 (12000 - 123.569239)).detector.r (750 / 2)) (onePhoton ⟨0, 0, -1, 0⟩ ⟨X, 0, 1000, 1⟩) = .ok t' ∧
        t'.rows[0]? = some r' ∧ |X| ≤ 10000 ∧ ("detfp_x" ∈ t'.names → r' "detfp_x" = .num none) := by
  intro c
  have hr : (doubleRowland 750 5915.51307 (12000 - 123.569239)).detector.r = 1 / 2 * Real.sqrt ((12000 - 123.569239) ^ 2 + 750 ^ 2) := by
    simp [doubleRowland]
  have h1 : (doubleRowland 750 5915.51307 (12000 - 123.569239)).detector.r < 6000 := by
    rw [hr]
    have : Real.sqrt ((12000 - 123.569239) ^ 2 + 750 ^ 2) < (12000 : ℝ) := by
      rw [Real.sqrt_lt' (by norm_num)]; norm_num
    linarith
  have h0 : 0 < (doubleRowland 750 5915.51307 (12000 - 123.569239)).detector.r := by
    rw [hr]; positivity
  obtain ⟨es, e1, e2, X, hX, e3⟩ := C141_arcus_camera_false (px := 0.024) (name := "camera") c (by rw [abs_lt]; constructor <;> norm_num <;> linarith) (by norm_num)
  obtain ⟨t', ht'⟩ := e2 (onePhoton ⟨0, 0, -1, 0⟩ ⟨X, 0, 1000, 1⟩) (by simp [onePhoton]) (onePhoton_all (by simp [IsDir]))
  obtain ⟨r', hr'⟩ : ∃ r', t'.rows[0]? = some r' := by
    obtain ⟨es', q1, q2, -⟩ := C125_layout (px := 0.024) (name := "camera") c
    rw [e1] at q1; cases q1
    have hg : ∀ x ∈ arcusDetectors (es.map (arcusCcd 0.024)) (doubleRowland 750 5915.51307 (12000 - 123.569239)).detector.r (750 / 2), x.Good := by
      rw [arcus_split]
      refine arcus_gA (fun e he => ?_) h0
      obtain ⟨g, hg, rfl⟩ := List.mem_map.1 he
      have : g.pos4d ∈ es.map (·.pos4d) := List.mem_map_of_mem hg
      rw [q2] at this
      obtain ⟨s, -, hs⟩ := List.mem_map.1 this
      exact (arcusCcd_good c.w_pos c.h_pos hs.symm).1
    have := (record_chain hg ht' (by simp [onePhoton])).1
    exact ⟨_, List.getElem?_eq_getElem (by rw [this]; simp [onePhoton])⟩
  exact ⟨es, X, e1, t', r', ht', hr', hX, e3 _ _ 0 _ r' 1000 ht' (by simp [onePhoton]) (by simp [onePhoton]) rfl hr' (onePhoton_flies _ _)⟩

noncomputable def exTorus141 : Torus := ⟨500, 500, compose 0 1 ![1, 1, 1]⟩

theorem exDetcirc_good : (detcirc exTorus141).surf.Good := by
  refine ⟨?_, ?_⟩
  · simp [Affine, cylinderFromRowland, compose, exTorus141, Matrix.mul_apply, Fin.sum_univ_four]
  · simp only [cylinderFromRowland, exTorus141, Matrix.det_mul]
    rw [det_compose, det_compose]
    have : (rotMat ⟨0, 0, 1⟩ Real.pi).det = 1 := by
      rw [rotz_apply]
      simp [Matrix.det_fin_three]
    rw [this]
    simp [Fin.prod_univ_three]

theorem exDetcirc_hit (k : ℝ) (q : H4) (x y : ℝ) (h : (detcirc exTorus141).surf.hit ⟨-1, 0, 0, 0⟩ (⟨100, 1, 2, 1⟩ + k • ⟨-1, 0, 0, 0⟩) = some (q, x, y)) : 1000 * (-1 : ℝ) ≤ q.x := by
  have hone : IsRotation (1 : M3) := by constructor <;> simp
  have hz := (C100_radius 0 1 hone 500 500 50 Real.pi (by norm_num) (by norm_num)).2.1
  have hc : cylIntersect (cylinderFromRowland exTorus141 50 Real.pi) 50 (-Real.pi / 2) (Real.pi / 2) ⟨-1, 0, 0, 0⟩ (⟨100, 1, 2, 1⟩ + k • ⟨-1, 0, 0, 0⟩) = .ok (some (q, x, y)) := by
    simp only [detcirc, DetSurface.hit] at h
    have hz' : (decompose44 (cylinderFromRowland exTorus141 50 Real.pi)).z 2 = 50 := hz
    rw [hz'] at h
    split at h
    · rename_i r hr; rw [hr, h]
    · cases h
  have := (C100_hit 0 1 hone 500 500 50 Real.pi _ _ 1 (by norm_num) (by norm_num) _ _ q (by simp [IsDir]) (by simp [IsPoint]) x y exTorus141 rfl
    (by simp [Parallel3, V3.cross, vZ, col, exTorus141, compose, V3.ext_iff]) hc).1
  rw [this]
  have hcos := Real.neg_one_le_cos (x + Real.pi)
  simp [parametric, parametricLocal, mul4, vZ, col, exTorus141, compose]
  have := Real.cos_le_one x
  linarith

/-- A photon on the axis of Lynx: it falls on the microcalorimeter, and all conditions hold if no CCDs are present and it starts 100 mm above the focal plane. -/
example : ∃ t' r', recordAll (lynxDetectors [] exTorus141) (onePhoton ⟨-1, 0, 0, 0⟩ ⟨100, 1, 2, 1⟩) = .ok t' ∧ t'.rows[0]? = some r' ∧
      r' "microcal_x" = .num (some 1) ∧ r' "microcal_y" = .num (some 2) := by
  have hg : ∀ x ∈ lynxDetectors [] exTorus141, x.Good := by
    intro x hx
    simp only [lynxDetectors, List.map_nil, List.nil_append, List.mem_cons, List.not_mem_nil, or_false] at hx
    rcases hx with rfl | rfl | rfl | rfl | rfl | rfl | rfl | rfl
    · exact proj_good (by simp)
    · trivial
    · exact detcirc_good exDetcirc_good
    · exact proj_good (by simp)
    · trivial
    · exact flatdet_good (yz_ok (by norm_num))
    · trivial
    · exact lynxMicrocal_good
  obtain ⟨t', ht'⟩ := C141_runs (t := onePhoton ⟨-1, 0, 0, 0⟩ ⟨100, 1, 2, 1⟩) hg (by simp [onePhoton]) (onePhoton_all (by simp [IsDir]))
  obtain ⟨r', hr'⟩ : ∃ r', t'.rows[0]? = some r' := ⟨_, List.getElem?_eq_getElem (by rw [(record_chain hg ht' (by simp [onePhoton])).1]; simp [onePhoton])⟩
  refine ⟨t', r', ht', hr', ?_⟩
  have := (C141_lynx_microcal (by simp) exDetcirc_good ht' (by simp [onePhoton]) (by simp [onePhoton]) rfl hr' (onePhoton_flies _ _) (by simp [IsDir]) (by simp [IsPoint])
    (by norm_num) (by norm_num) (by simpa using exDetcirc_hit)).1 100 (by norm_num) (by norm_num) (by norm_num)
  simpa using this

theorem exArcusCirc_hit (k : ℝ) (q : H4) (x y : ℝ) (h : (arcusCirc 5000 300).surf.hit ⟨0, 0, -1, 0⟩ (⟨3, 1, 1000, 1⟩ + k • ⟨0, 0, -1, 0⟩) = some (q, x, y)) : 100 * (-1 : ℝ) ≤ q.z := by
  have hrot : IsRotation (!![0, 1, 0; 0, 0, 1; 1, 0, 0] * !![-1, 0, 0; 0, 1, 0; 0, 0, -1] : M3) := by
    constructor
    · ext i j; fin_cases i <;> fin_cases j <;> simp [Matrix.mul_apply, Fin.sum_univ_three]
    · simp [Matrix.det_mul, Matrix.det_fin_three]
  have hz : (decompose44 (arcusCircDet 5000 300)).z 2 = 20 := by
    have := decompose44_exact ![0, 0, Real.sqrt (5000 ^ 2 - 300 ^ 2)] _ ![5000, 5000, 20] hrot (by intro i; fin_cases i <;> simp)
    rw [arcusCircDet, this]
    rfl
  have hdet : IsUnit (arcusCircDet 5000 300).det := by
    rw [isUnit_iff_ne_zero, arcusCircDet, det_compose, hrot.2]
    simp [Fin.prod_univ_three]
  have hc : cylIntersect (arcusCircDet 5000 300) 20 (-Real.pi) Real.pi ⟨0, 0, -1, 0⟩ (⟨3, 1, 1000, 1⟩ + k • ⟨0, 0, -1, 0⟩) = .ok (some (q, x, y)) := by
    simp only [arcusCirc, DetSurface.hit, hz] at h
    split at h
    · rename_i r hr; rw [hr, h]
    · cases h
  have hpar : (mul4 (arcusCircDet 5000 300)⁻¹ ⟨0, 0, -1, 0⟩).x ^ 2 + (mul4 (arcusCircDet 5000 300)⁻¹ ⟨0, 0, -1, 0⟩).y ^ 2 ≠ 0 := by
    set v := mul4 (arcusCircDet 5000 300)⁻¹ ⟨0, 0, -1, 0⟩ with hv
    have e : mul4 (arcusCircDet 5000 300) v = ⟨0, 0, -1, 0⟩ := by
      rw [hv, ← mul4_mul, Matrix.mul_nonsing_inv _ hdet, mul4_one]
    intro h0
    have hx : v.x = 0 := by nlinarith [sq_nonneg v.x, sq_nonneg v.y]
    have hw : v.w = 0 := by
      have := congrArg H4.w e
      simpa [mul4, arcusCircDet, compose] using this
    have := congrArg H4.z e
    simp [mul4, arcusCircDet, compose, Matrix.mul_apply, Fin.sum_univ_three, hx, hw] at this
  have := C135_detector 5000 300 _ _ (by norm_num) _ _ q x y (by simp [IsDir]) (by simp [IsPoint]) hpar hc
  rw [this]
  have hs : (4900 : ℝ) ≤ Real.sqrt (5000 ^ 2 - 300 ^ 2) := Real.le_sqrt_of_sq_le (by norm_num)
  have := Real.cos_le_one x
  simp only
  linarith

/-- A photon that falls on the detector in the focal plane of Arcus (without any CCDs): all conditions hold and the coordinates are those where it crosses the plane. -/
example : ∃ t' r', recordAll (arcusDetectors [] 5000 300) (onePhoton ⟨0, 0, -1, 0⟩ ⟨3, 1, 1000, 1⟩) = .ok t' ∧ t'.rows[0]? = some r' ∧
      r' "detfp_x" = .num (some 3) ∧ r' "detfp_y" = .num (some 1) := by
  have hg : ∀ x ∈ arcusDetectors [] 5000 300, x.Good := by
    rw [arcus_split]
    exact arcus_gA (by simp) (by norm_num)
  obtain ⟨t', ht'⟩ := C141_runs (t := onePhoton ⟨0, 0, -1, 0⟩ ⟨3, 1, 1000, 1⟩) hg (by simp [onePhoton]) (onePhoton_all (by simp [IsDir]))
  obtain ⟨r', hr'⟩ : ∃ r', t'.rows[0]? = some r' := ⟨_, List.getElem?_eq_getElem (by rw [(record_chain hg ht' (by simp [onePhoton])).1]; simp [onePhoton])⟩
  refine ⟨t', r', ht', hr', ?_⟩
  have := (C141_arcus_partial (by norm_num) (by simp) ht' (by simp [onePhoton]) (by simp [onePhoton]) rfl hr' (onePhoton_flies _ _) (by simp [IsDir]) (by simp [IsPoint])
    (by norm_num) (by norm_num) (by simpa using exArcusCirc_hit) (by simp)).1 1000 (by norm_num) (by norm_num) (by norm_num)
  simpa using this

end Marxs
