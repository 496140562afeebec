import Verif.Spec.KeptPaths
import Verif.Props.Container
import Verif.Props.Cylinder
import Verif.Props.ListChain

/-!
# C165: saved positions are the paths of the photons
-/

namespace Marxs
open Classical

theorem plane_forward {m : M4} {d p q : H4} {y z : ℝ} (h : planeIntersect m d p = some (q, y, z)) :
    ∃ s : ℝ, 0 ≤ s ∧ q = p + s • d := by
  simp only [planeIntersect] at h
  split_ifs at h with h1 h2
  simp only [Option.some.injEq, Prod.mk.injEq] at h
  exact ⟨_, h2.1, h.1.symm⟩

theorem hit_forward {r : Ray} {m : M4} {d q p : H4} {y z : ℝ} (h : r.hit m = some (d, q, y, z, p)) :
    r.dir = some d ∧ r.pos = some p ∧ ∃ s : ℝ, 0 ≤ s ∧ q = p + s • d := by
  simp only [Ray.hit] at h
  split at h
  · rename_i d' p' hd hp
    split at h
    · rename_i q' y' z' hq
      simp only [Option.some.injEq, Prod.mk.injEq] at h
      obtain ⟨rfl, rfl, rfl, rfl, rfl⟩ := h
      exact ⟨hd, hp, plane_forward hq⟩
    · cases h
  · cases h

theorem straight_stay (r q : Ray) (h : q.pos = r.pos) : StraightTo r q := by
  unfold StraightTo
  split
  · rename_i d x hd hx
    exact ⟨0, le_refl _, by rw [h, hx, Option.some.injEq]; ext <;> simp⟩
  · exact .inl h

theorem straight_hit {r s : Ray} {m : M4} {d q p : H4} {y z : ℝ} (h : r.hit m = some (d, q, y, z, p)) (hs : s.pos = some q) :
    StraightTo r s := by
  obtain ⟨h1, h2, k, h3, h4⟩ := hit_forward h
  simp only [StraightTo, h1, h2]
  exact ⟨k, h3, by rw [hs, h4]⟩

/-- **C165** Every element leaves a photon where it is, or moves it in a straight line forward along its direction. -/
theorem C165_straight (o : Optic) (ho : o.IsPlaced) (hf : o.Forward) (r s : Ray) (hr : r.WellFormed) (h : o.step r = .ok s) :
    StraightTo r s := by
  cases o with
  | tube m zoomz lim0 lim1 =>
    simp only [Optic.step] at h
    split at h
    · rename_i d p hd hp
      by_cases hpar : (mul4 m⁻¹ d).x ^ 2 + (mul4 m⁻¹ d).y ^ 2 = 0
      · split at h
        · cases h
        · cases h; exact straight_stay _ _ rfl
        · rename_i q y z hq
          exfalso
          have hw : d.w = 0 := hr.2.1 d hd
          have := C11_parallel lim0 lim1 (mul4 m⁻¹ p).xyz (mul4 m⁻¹ d).xyz hpar
          simp only [cylIntersect, hw, ne_eq, not_true_eq_false, if_false, ho.2, this] at hq
          cases hq
      · obtain ⟨res, e1, e2, -⟩ := C11_global m ho.2 ho.1 zoomz lim0 lim1 d p (hr.2.1 d hd) (hr.1 p hp) hpar
        rw [e1] at h
        split at h
        · cases h
        · cases h; exact straight_stay _ _ rfl
        · rename_i q y z hq
          cases h
          cases hq
          obtain ⟨t, h0, h1, -⟩ := e2 _ _ _ rfl
          simp only [StraightTo, hd, hp]
          exact ⟨t, h0, by rw [← h1]; rfl⟩
    · split_ifs at h
      cases h; exact straight_stay _ _ rfl
    · cases h
  | propagate distance =>
    cases h
    unfold StraightTo
    split
    · rename_i d x hd hx
      exact ⟨distance, hf, by simp only [hd, hx]⟩
    · right
      rename_i hn
      simp only
  | globalFilter f =>
    simp only [Optic.step] at h
    split at h <;> cases h
    exact straight_stay _ _ rfl
  | mirror m rs rp =>
    simp only [Optic.step] at h
    split at h
    · cases h; exact straight_stay _ _ rfl
    · rename_i hq
      split at h
      · cases h; exact straight_hit hq rfl
      · split at h
        · cases h
        · cases h; exact straight_hit hq rfl
        · cases h; exact straight_hit hq rfl
  | filter m f =>
    simp only [Optic.step] at h
    split at h
    · cases h; exact straight_stay _ _ rfl
    · rename_i hq
      split at h <;> cases h
      exact straight_hit hq rfl
  | _ =>
    simp only [Optic.step] at h
    split at h
    · cases h; exact straight_stay _ _ rfl
    · rename_i hq; cases h; exact straight_hit hq rfl

/-- **C165** Photons turn only at the elements that they hit: at all others direction and polarization stay. -/
theorem C165_turns (o : Optic) (r s : Ray) (h : o.step r = .ok s) (hm : hitCoos o r = none) :
    s.dir = r.dir ∧ s.pol = r.pol ∧ s.coos = r.coos ∧ ((∀ x, o ≠ .propagate x) → s.pos = r.pos) := by
  cases o with
  | tube m zoomz lim0 lim1 =>
    simp only [Optic.step] at h
    simp only [hitCoos] at hm
    split at h
    · rename_i d p hd hp
      simp only [hd, hp] at hm
      split at h
      · cases h
      · cases h; simp
      · rename_i q y z hq
        simp [hq] at hm
    · split_ifs at h
      cases h; simp
    · cases h
  | propagate distance =>
    cases h
    exact ⟨rfl, rfl, rfl, fun h => absurd rfl (h _)⟩
  | globalFilter f =>
    simp only [Optic.step] at h
    split at h <;> cases h
    exact ⟨rfl, rfl, rfl, fun _ => rfl⟩
  | _ =>
    simp only [hitCoos, Option.map_eq_none_iff] at hm
    simp only [Optic.step, hm, Except.ok.injEq] at h
    subst h
    exact ⟨rfl, rfl, rfl, fun _ => rfl⟩

theorem path_wf {os : List Optic} {p : Ray} {rs : List Ray} (h : Path os p rs) (hos : ∀ o ∈ os, o.IsPlaced) (hp : p.WellFormed) :
    ∀ r ∈ rs, r.WellFormed := by
  induction h with
  | nil => simp
  | cons h1 h2 ih =>
    have hq := C157_well_formed _ (hos _ (by simp)) _ _ hp h1
    intro r hr
    rcases List.mem_cons.1 hr with rfl | hr
    · exact hq
    · exact ih (fun o ho => hos o (by simp [ho])) hq r hr

/-- **C165** The path of a photon through any sequence of elements is made of straight lines, each in the direction that the
photon has at the beginning of the line. -/
theorem C165_path (os : List Optic) (hos : ∀ o ∈ os, o.IsPlaced ∧ o.Forward) (p : Ray) (rs : List Ray) (h : Path os p rs)
    (hp : p.WellFormed) : List.IsChain StraightTo (p :: rs) := by
  induction h with
  | nil => simp
  | cons h1 h2 ih =>
    have hq := C157_well_formed _ (hos _ (by simp)).1 _ _ hp h1
    exact List.IsChain.cons_cons (C165_straight _ (hos _ (by simp)).1 (hos _ (by simp)).2 _ _ hp h1) (ih (fun o ho => hos o (by simp [ho])) hq)

theorem steps_paths (os : List (ListOptic × ElemCols)) (hc : ∀ o ∈ os, o.2.Fine) (t : Table) (ts : List Table)
    (h : Steps (os.map fun o => o.1.call o.2) t ts) (ps : List Ray) (hps : PhotonsOf t ps) :
    ∃ pss : List (List Ray), List.Forall₂ PhotonsOf ts pss ∧ (∀ qs ∈ pss, qs.length = ps.length) ∧
      ∀ (i : ℕ) (p : Ray), ps[i]? = some p →
        ∃ rs, Path (os.map fun o => o.1.photon i) p rs ∧ pss.map (fun l => l[i]?) = rs.map some := by
  induction os generalizing t ts ps with
  | nil =>
    cases h
    exact ⟨[], .nil, by simp, fun i p _ => ⟨[], .nil p, rfl⟩⟩
  | cons o os ih =>
    cases h with
    | @cons f fs t t1 ts h1 h2 =>
    have hr : runList [o] t = .ok t1 := by simp only [runList, h1]
    obtain ⟨qs, k1, k2, k3⟩ := C163_list [o] (by simpa using hc o (by simp)) t t1 hr ps hps
    obtain ⟨pss, l1, l2, l3⟩ := ih (fun o ho => hc o (by simp [ho])) t1 ts h2 qs k1
    refine ⟨qs :: pss, .cons k1 l1, ?_, ?_⟩
    · intro l hl
      rcases List.mem_cons.1 hl with rfl | hl
      · exact k2
      · rw [l2 l hl, k2]
    · intro i p hp
      obtain ⟨q, e1, e2⟩ := k3 i p hp
      obtain ⟨rs, r1, r2⟩ := l3 i q e1
      refine ⟨q :: rs, .cons ?_ r1, by simp [r2, e1]⟩
      simp only [List.map_cons, List.map_nil, runOptics] at e2
      split at e2
      · cases e2
      · rename_i hq; rw [hq, ← e2]

theorem photons_pos {t : Table} {ps : List Ray} (h : PhotonsOf t ps) : t.rows.map (· "pos") = ps.map fun p => vecCell p.pos := by
  obtain ⟨-, h⟩ := h
  generalize t.names = names at h
  generalize t.rows = rows at h ⊢
  induction h with
  | nil => rfl
  | cons a _ ih => simp [a.pos, ih]

/-- **C165** `KeepCol('pos')` after each element saves the positions of all photons: the entry of photon `i` after element `k` is
the position of this photon on its path. -/
theorem C165_kept (os : List (ListOptic × ElemCols)) (hc : ∀ o ∈ os, o.2.Fine) (t t' : Table) (data : List (List Val))
    (h : runKept os t = .ok (t', data)) (ps : List Ray) (hps : PhotonsOf t ps) :
    ∃ pss : List (List Ray), data = pss.map (fun qs => qs.map fun p => vecCell p.pos) ∧ pss.length = os.length ∧
      (∀ qs ∈ pss, qs.length = ps.length) ∧
      ∀ (i : ℕ) (p : Ray), ps[i]? = some p →
        ∃ rs, Path (os.map fun o => o.1.photon i) p rs ∧ pss.map (fun l => l[i]?) = rs.map some := by
  have e : (os.map fun o => (.leaf fun t w => (o.1.call o.2 t).map fun t' => (t', w) : Node Table (List (List Val)))) =
      (os.map fun o => o.1.call o.2).map pureElem := by
    rw [List.map_map]; rfl
  rw [runKept, e] at h
  obtain ⟨ts, h1, -, -, h4⟩ := (C03_keepcol_snapshots "pos" _ _ _ _ _).1 h
  obtain ⟨pss, k1, k2, k3⟩ := steps_paths os hc t ts h1 ps hps
  refine ⟨pss, ?_, ?_, k2, k3⟩
  · rw [h4, List.nil_append]
    clear h4 h1 k2 k3
    induction k1 with
    | nil => rfl
    | cons a _ ih => simp only [List.map_cons, photons_pos a, ih]
  · rw [← k1.length_eq, h1.length, List.length_map]

theorem h2eCells_points (h : List (Option H4)) (hw : ∀ a ∈ h, ∀ q, a = some q → q.w = 1) :
    ∃ f, h2eCells h = .ok f ∧ ∀ a ∈ h, f a = a.map H4.xyz := by
  unfold h2eCells
  split_ifs with h1 h2
  · exact ⟨_, rfl, fun a _ => rfl⟩
  · refine ⟨_, rfl, fun a ha => ?_⟩
    cases a with
    | none => rfl
    | some q =>
      simp only [Option.map_some, hw _ ha q rfl, div_one, H4.xyz]
  · exact absurd (fun a ha q hq => by rw [hw a ha q hq]; exact one_ne_zero) h2

theorem keptFrames_points (pss : List (List Ray)) (n : ℕ) (hne : pss ≠ []) (hl : ∀ qs ∈ pss, qs.length = n)
    (hw : ∀ qs ∈ pss, ∀ p ∈ qs, ∀ q, p.pos = some q → q.w = 1) :
    keptFrames (pss.map fun qs => qs.map fun p => vecCell p.pos) = .ok (pss.map fun qs => qs.map fun p => p.pos.map H4.xyz) := by
  cases pss with
  | nil => exact absurd rfl hne
  | cons q0 pss =>
    have hv : ∀ v : Option H4, (vecCell v).isVec4 = true := by intro v; cases v <;> rfl
    have hmem : ∀ c ∈ ((q0 :: pss).map fun qs => qs.map fun p => vecCell p.pos).flatten,
        ∃ qs ∈ q0 :: pss, ∃ p ∈ qs, vecCell p.pos = c := by
      intro c hc
      obtain ⟨l, hl, hcl⟩ := List.mem_flatten.1 hc
      obtain ⟨qs, hqs, rfl⟩ := List.mem_map.1 hl
      obtain ⟨p, hp, rfl⟩ := List.mem_map.1 hcl
      exact ⟨qs, hqs, p, hp, rfl⟩
    obtain ⟨f, e1, e2⟩ := h2eCells_points ((((q0 :: pss).map fun qs => qs.map fun p => vecCell p.pos).flatten).map Val.toH4) (by
      intro a ha q hq
      obtain ⟨c, hc, rfl⟩ := List.mem_map.1 ha
      obtain ⟨qs, hqs, p, hp, rfl⟩ := hmem c hc
      rw [toH4_vecCell] at hq
      exact hw qs hqs p hp q hq)
    simp only [List.map_cons] at e1 e2 hmem ⊢
    simp only [keptFrames]
    rw [if_neg, e1]
    · have : ∀ qs ∈ q0 :: pss, ∀ p ∈ qs, f (vecCell p.pos).toH4 = p.pos.map H4.xyz := by
        intro qs hqs p hp
        rw [e2 _ (List.mem_map.2 ⟨_, List.mem_flatten.2 ⟨qs.map fun p => vecCell p.pos, ?_, List.mem_map.2 ⟨p, hp, rfl⟩⟩, rfl⟩),
          toH4_vecCell]
        rw [← List.map_cons (f := fun qs : List Ray => qs.map fun p => vecCell p.pos)]
        exact List.mem_map.2 ⟨qs, hqs, rfl⟩
      simp only [List.map_map, List.map_cons]
      congr 2
      · exact List.map_congr_left fun p hp => this q0 (by simp) p hp
      · exact List.map_congr_left fun qs hqs => by
          simp only [Function.comp_apply, List.map_map]
          exact List.map_congr_left fun p hp => this qs (by simp [hqs]) p hp
    · rintro (⟨c, hc, he⟩ | ⟨d, hd, he⟩)
      · obtain ⟨qs, -, p, -, rfl⟩ := hmem c hc
        rw [hv] at he; cases he
      · rw [← List.map_cons (f := fun qs : List Ray => qs.map fun p => vecCell p.pos)] at hd
        obtain ⟨qs, hqs, rfl⟩ := List.mem_map.1 hd
        apply he
        simp only [List.length_map]
        rw [hl qs hqs, hl q0 (by simp)]

theorem perPhoton_get {α : Type} (frames : List (List α)) (n : ℕ) (hne : frames ≠ []) (hl : ∀ f ∈ frames, f.length = n) :
    (perPhoton frames).length = n ∧ ∀ i < n, (perPhoton frames)[i]? = some (frames.filterMap (·[i]?)) := by
  cases frames with
  | nil => exact absurd rfl hne
  | cons f fs =>
    have := hl f (by simp)
    constructor
    · simp [perPhoton, this]
    · intro i hi
      simp only [perPhoton, List.head?_cons, Option.map_some, Option.getD_some, this, List.getElem?_map,
        List.getElem?_range hi]

/-- **C165** What `format_positions` returns after a simulation (and what is drawn as rays) is for each photon its path: the list of
its positions after the first, second, ... element. -/
theorem C165_drawn (os : List (ListOptic × ElemCols)) (hne : os ≠ []) (hc : ∀ o ∈ os, o.2.Fine)
    (hs : ∀ o ∈ os, ∀ i, (o.1.photon i).IsPlaced) (t t' : Table) (data : List (List Val))
    (h : runKept os t = .ok (t', data)) (ps : List Ray) (hps : PhotonsOf t ps) (hwf : ∀ p ∈ ps, p.WellFormed) :
    ∃ rows, formatPos none data = .ok rows ∧ rows.length = ps.length ∧
      ∀ (i : ℕ) (p : Ray), ps[i]? = some p → ∃ rs, Path (os.map fun o => o.1.photon i) p rs ∧
        rows[i]? = some (rs.map fun r => r.pos.map H4.xyz) := by
  obtain ⟨pss, h1, h2, h3, h4⟩ := C165_kept os hc t t' data h ps hps
  have hpne : pss ≠ [] := by
    rintro rfl
    exact hne (List.length_eq_zero_iff.1 h2.symm)
  have hwp : ∀ qs ∈ pss, ∀ p ∈ qs, ∀ q, p.pos = some q → q.w = 1 := by
    intro qs hqs p hp q hq
    obtain ⟨i, hi, rfl⟩ := List.mem_iff_getElem.1 hp
    have hi' : i < ps.length := by rw [← h3 qs hqs]; exact hi
    obtain ⟨rs, r1, r2⟩ := h4 i _ (List.getElem?_eq_getElem hi')
    have : some qs[i] ∈ rs.map some := by
      rw [← r2]
      exact List.mem_map.2 ⟨qs, hqs, List.getElem?_eq_getElem hi⟩
    obtain ⟨r, hr, e⟩ := List.mem_map.1 this
    cases e
    exact (path_wf r1 (by
      intro o ho
      obtain ⟨x, hx, rfl⟩ := List.mem_map.1 ho
      exact hs x hx i) (hwf _ (List.getElem_mem hi')) _ hr).1 q hq
  have hk := keptFrames_points pss ps.length hpne h3 hwp
  rw [← h1] at hk
  obtain ⟨g1, g2⟩ := perPhoton_get (pss.map fun qs => qs.map fun p => p.pos.map H4.xyz) ps.length (by simpa using hpne) (by
    intro f hf
    obtain ⟨qs, hqs, rfl⟩ := List.mem_map.1 hf
    rw [List.length_map, h3 qs hqs])
  refine ⟨_, by simp only [formatPos, hk], g1, fun i p hp => ?_⟩
  obtain ⟨rs, r1, r2⟩ := h4 i p hp
  refine ⟨rs, r1, ?_⟩
  rw [g2 i (List.getElem?_eq_some_iff.1 hp).1]
  congr 1
  clear hk g1 g2 h1 h2 h3 h4 hpne hwp r1
  induction pss generalizing rs with
  | nil => cases rs with
    | nil => rfl
    | cons => cases r2
  | cons qs pss ih =>
    cases rs with
    | nil => cases r2
    | cons r rs =>
      simp only [List.map_cons, List.cons.injEq] at r2
      have hq : (qs.map fun p => p.pos.map H4.xyz)[i]? = some (r.pos.map H4.xyz) := by
        rw [List.getElem?_map, r2.1]; rfl
      rw [List.map_cons, List.map_cons, List.filterMap_cons_some (f := fun x : List (Option V3) => x[i]?) hq, ih rs r2.2]

theorem steps_run (os : List (ListOptic × ElemCols)) (t t' : Table) :
    runList os t = .ok t' ↔ ∃ ts, Steps (os.map fun o => o.1.call o.2) t ts ∧ t' = ts.getLast?.getD t := by
  induction os generalizing t with
  | nil =>
    simp only [runList, Except.ok.injEq]
    constructor
    · rintro rfl; exact ⟨[], .nil _, rfl⟩
    · rintro ⟨ts, h, rfl⟩; cases h; rfl
  | cons o os ih =>
    simp only [runList]
    constructor
    · intro h
      split at h
      · cases h
      · rename_i t1 h1
        obtain ⟨ts, k1, k2⟩ := (ih t1).1 h
        exact ⟨t1 :: ts, .cons h1 k1, by rw [k2]; cases ts <;> simp [List.getLast?_cons]⟩
    · rintro ⟨ts, h, e⟩
      cases h with
      | @cons f fs t t1 ts h1 h2 =>
      have h1' : o.1.call o.2 t = .ok t1 := h1
      rw [h1']
      exact (ih t1).2 ⟨ts, h2, by rw [e]; cases ts <;> simp [List.getLast?_cons]⟩

/-- **C165** Saving positions changes nothing: the simulation runs through exactly if it does without `KeepCol`, with the same
photon list in the end. -/
theorem C165_watching (os : List (ListOptic × ElemCols)) (hc : ∀ o ∈ os, o.2.Fine) (t t' : Table) (ps : List Ray)
    (hps : PhotonsOf t ps) : (∃ data, runKept os t = .ok (t', data)) ↔ runList os t = .ok t' := by
  have e : (os.map fun o => (.leaf fun t w => (o.1.call o.2 t).map fun t' => (t', w) : Node Table (List (List Val)))) =
      (os.map fun o => o.1.call o.2).map pureElem := by
    rw [List.map_map]; rfl
  simp only [steps_run, runKept, e, C03_keepcol_snapshots]
  constructor
  · rintro ⟨data, ts, h1, -, h3, -⟩
    exact ⟨ts, h1, h3⟩
  · rintro ⟨ts, h1, h3⟩
    refine ⟨_, ts, h1, ?_, h3, rfl⟩
    obtain ⟨pss, k1, -, -⟩ := steps_paths os hc t ts h1 ps hps
    intro s hs
    obtain ⟨i, hi, rfl⟩ := List.mem_iff_getElem.1 hs
    have hi' : i < pss.length := by rw [← k1.length_eq]; exact hi
    exact ((List.forall₂_iff_get.1 k1).2 i hi hi').1 (by simp [needColumns])

theorem keptFrames_len {data : List (List Val)} {frames : List (List (Option V3))} (h : keptFrames data = .ok frames) :
    frames ≠ [] ∧ ∃ n, ∀ f ∈ frames, f.length = n := by
  cases data with
  | nil => cases h
  | cons d0 data =>
    simp only [keptFrames] at h
    split_ifs at h with h1
    split at h
    · cases h
    · rename_i g hg
      cases h
      push Not at h1
      refine ⟨by simp, d0.length, fun f hf => ?_⟩
      obtain ⟨d, hd, rfl⟩ := List.mem_map.1 hf
      rw [List.length_map]
      exact h1.2 d hd

theorem perPhoton_rows {α : Type} (frames : List (List α)) (n : ℕ) (hne : frames ≠ []) (hl : ∀ f ∈ frames, f.length = n)
    (i : ℕ) (hi : i < n) (k : ℕ) : (frames.filterMap (·[i]?))[k]? = (frames[k]?).bind (·[i]?) := by
  induction frames generalizing k with
  | nil => simp
  | cons f fs ih =>
    have hf : f[i]? = some (f[i]'(by rw [hl f (by simp)]; exact hi)) := List.getElem?_eq_getElem _
    rw [List.filterMap_cons_some (f := fun x : List α => x[i]?) hf]
    cases k with
    | zero => simp
    | succ k =>
      by_cases h0 : fs = []
      · subst h0; simp
      · simpa using ih h0 (fun f h => hl f (by simp [h])) k

theorem closePoint_iff (atol : ℝ) (x y : Option V3) : closePoint atol x y ↔ SameWithin atol x y := by
  cases x with
  | none => cases y <;> simp [closePoint, SameWithin]
  | some a =>
    cases y with
    | none => simp [closePoint, SameWithin]
    | some b =>
      have e : ∀ t : ℝ, atol + 1 / 10 ^ 5 * t = atol + t / 100000 := fun t => by ring
      simp only [closePoint, SameWithin, e]
      constructor
      · rintro ⟨h1, h2, h3⟩
        refine .inr ⟨a, b, rfl, rfl, ?_⟩
        rintro c (rfl | rfl | rfl) <;> assumption
      · rintro (⟨h, -⟩ | ⟨a', b', ha, hb, h⟩)
        · cases h
        · cases ha; cases hb
          exact ⟨h _ (.inl rfl), h _ (.inr (.inl rfl)), h _ (.inr (.inr rfl))⟩

theorem exists_of_not_forall₂ {α : Type} {r : α → α → Prop} {f g : List α} (hl : f.length = g.length) (h : ¬ List.Forall₂ r f g) :
    ∃ (i : ℕ) (x y : α), f[i]? = some x ∧ g[i]? = some y ∧ ¬ r x y := by
  by_contra hc
  push Not at hc
  exact h (List.forall₂_iff_get.2 ⟨hl, fun i h1 h2 => hc i _ _ (List.getElem?_eq_getElem h1) (List.getElem?_eq_getElem h2)⟩)

/-- **C165** (partial: the tolerance is `atol` and 1e-5 of the coordinate, see `C165_atol_false`)
With `atol`, some steps are left out, the same for all photons: the first step is always there, and a step is
left out only if all photons are where they were in the last step before that is kept, up to the tolerance. From one step that is
kept to the next at least one photon has moved. -/
theorem C165_thinned_partial (atol : ℝ) (data : List (List Val)) (full : List (List (Option V3))) (h : formatPos none data = .ok full) :
    ∃ (ks : List ℕ) (red : List (List (Option V3))), formatPos (some atol) data = .ok red ∧ red = full.map (fun row => ks.filterMap (row[·]?)) ∧
      ks.head? = some 0 ∧
      ks.IsChain (fun a b => a < b ∧ ∃ row ∈ full, ∃ x y, row[a]? = some x ∧ row[b]? = some y ∧ ¬ SameWithin atol x y) ∧
      (∀ row ∈ full, ∀ k ∈ ks, k < row.length) ∧
      ∀ row ∈ full, ∀ (j : ℕ) (y : Option V3), row[j]? = some y → j ∉ ks →
        ∃ k ∈ ks, k < j ∧ (∀ k' ∈ ks, k' < j → k' ≤ k) ∧ ∃ x, row[k]? = some x ∧ SameWithin atol x y := by
  simp only [formatPos] at h ⊢
  split at h
  · cases h
  rename_i frames hfr
  cases h
  obtain ⟨hne, n, hl⟩ := keptFrames_len hfr
  obtain ⟨ks, hks⟩ := (C08_format_positions_domain (closeFrames atol) frames).2 hne
  obtain ⟨c1, c2, c3, c4⟩ := C08_format_positions _ _ _ hks
  obtain ⟨g1, g2⟩ := perPhoton_get frames n hne hl
  simp only [hks]
  have hrow : ∀ row ∈ perPhoton frames, ∃ i < n, row = frames.filterMap (·[i]?) := by
    intro row hr
    obtain ⟨i, hi, rfl⟩ := List.mem_iff_getElem.1 hr
    have hi' : i < n := by rw [← g1]; exact hi
    refine ⟨i, hi', ?_⟩
    have := g2 i hi'
    rw [List.getElem?_eq_getElem hi, Option.some.injEq] at this
    exact this
  have hks0 : ks ≠ [] := by rintro rfl; cases c1
  have hsel : ks.filterMap (frames[·]?) ≠ [] := by
    cases ks with
    | nil => exact absurd rfl hks0
    | cons k ks =>
      have : frames[k]? = some (frames[k]'(c2 k (by simp))) := List.getElem?_eq_getElem _
      rw [List.filterMap_cons_some (f := fun k : ℕ => frames[k]?) this]
      simp
  have hsl : ∀ f ∈ ks.filterMap (frames[·]?), f.length = n := by
    intro f hf
    obtain ⟨k, -, hk⟩ := List.mem_filterMap.1 hf
    exact hl f (List.mem_of_getElem? hk)
  obtain ⟨g3, g4⟩ := perPhoton_get _ n hsel hsl
  refine ⟨ks, _, rfl, ?_, c1, c3.imp fun a b h => ⟨h.1, ?_⟩, ?_, ?_⟩
  · refine List.ext_getElem? fun i => ?_
    by_cases hi : i < n
    · rw [g4 i hi, List.getElem?_map, g2 i hi, Option.map_some, Option.some.injEq, List.filterMap_filterMap]
      refine List.filterMap_congr fun k _ => ?_
      rw [perPhoton_rows frames n hne hl i hi k]
    · rw [List.getElem?_eq_none (by omega), List.getElem?_eq_none (by rw [List.length_map]; omega)]
  · obtain ⟨-, fa, fb, ha, hb, hc⟩ := h
    have la := hl fa (List.mem_of_getElem? ha)
    have lb := hl fb (List.mem_of_getElem? hb)
    obtain ⟨i, x, y, hx, hy, hxy⟩ := exists_of_not_forall₂ (r := closePoint atol) (f := fa) (g := fb) (by rw [la, lb]) (by simpa [closeFrames] using hc)
    have hi : i < n := by rw [← la]; exact (List.getElem?_eq_some_iff.1 hx).1
    refine ⟨frames.filterMap (·[i]?), List.mem_of_getElem? (g2 i hi), x, y, ?_, ?_, fun hs => hxy ((closePoint_iff _ _ _).2 hs)⟩
    · rw [perPhoton_rows frames n hne hl i hi a, ha]; exact hx
    · rw [perPhoton_rows frames n hne hl i hi b, hb]; exact hy
  · intro row hr k hk
    obtain ⟨i, hi, rfl⟩ := hrow row hr
    have h1 := perPhoton_rows frames n hne hl i hi k
    have hlt := c2 k hk
    have hi' : i < frames[k].length := by rw [hl _ (List.getElem_mem hlt)]; exact hi
    rw [List.getElem?_eq_getElem hlt, Option.bind_some, List.getElem?_eq_getElem hi'] at h1
    exact (List.getElem?_eq_some_iff.1 h1).1
  · intro row hr j y hy hj
    obtain ⟨i, hi, rfl⟩ := hrow row hr
    rw [perPhoton_rows frames n hne hl i hi j] at hy
    obtain ⟨fj, hfj, hfi⟩ := Option.bind_eq_some_iff.1 hy
    obtain ⟨k, hk, hkj, hlast, fk, hfk, hcl⟩ := c4 j fj hfj hj
    have hF : List.Forall₂ (closePoint atol) fk fj := by simpa [closeFrames] using hcl
    have hik : i < fk.length := by rw [hl fk (List.mem_of_getElem? hfk)]; exact hi
    have hij : i < fj.length := (List.getElem?_eq_some_iff.1 hfi).1
    refine ⟨k, hk, hkj, hlast, fk[i], ?_, ?_⟩
    · rw [perPhoton_rows frames n hne hl i hi k, hfk, Option.bind_some, List.getElem?_eq_getElem hik]
    · have := (List.forall₂_iff_get.1 hF).2 i hik hij
      rw [← (List.getElem?_eq_some_iff.1 hfi).2]
      exact (closePoint_iff _ _ _).1 this

/-- **C165** Positions with other weights than 1 are divided by their weight: the path is made of the points that the homogeneous
coordinates stand for. NaN stays NaN. -/
theorem C165_weights (pss : List (List (Option H4))) (n : ℕ) (hl : ∀ f ∈ pss, f.length = n)
    (hw : ∀ f ∈ pss, ∀ q, some q ∈ f → q.w ≠ 0) (hne : ∃ f ∈ pss, ∃ q : H4, some q ∈ f ∧ 1 / 1000 < |q.w - 1|) :
    ∃ full, formatPos none (pss.map fun f => f.map vecCell) = .ok full ∧ full.length = n ∧
      ∀ i < n, full[i]? = some (pss.filterMap fun f => (f[i]?).map (·.map H4.euclid)) := by
  obtain ⟨f0, hf0, q0, hq0, hq1⟩ := hne
  have hflat : ((pss.map fun f => f.map vecCell).flatten).map Val.toH4 = pss.flatten := by
    rw [← List.map_flatten, List.map_map]
    exact (List.map_congr_left fun v _ => by rw [Function.comp_apply, toH4_vecCell]; rfl).trans (List.map_id _)
  have hh : h2eCells pss.flatten = .ok fun a => a.map H4.euclid := by
    have m0 : some q0 ∈ pss.flatten := List.mem_flatten.2 ⟨f0, hf0, hq0⟩
    have hw' : ∀ a ∈ pss.flatten, ∀ q, a = some q → q.w ≠ 0 := by
      rintro a ha q rfl
      obtain ⟨f, hf, hq⟩ := List.mem_flatten.1 ha
      exact hw f hf q hq
    rw [h2eCells, if_neg, if_pos hw']
    · rfl
    · rintro (h | h)
      · obtain ⟨q, e, h⟩ := h _ m0
        exact hw' _ m0 q e h
      · obtain ⟨q, e, h⟩ := h _ m0
        cases e
        norm_num [isclose] at h hq1
        linarith
  have hv : ∀ v : Option H4, (vecCell v).isVec4 = true := by intro v; cases v <;> rfl
  have hk : keptFrames (pss.map fun f => f.map vecCell) = .ok (pss.map fun f => f.map fun v => v.map H4.euclid) := by
    cases pss with
    | nil => cases hf0
    | cons g gs =>
      rw [List.map_cons] at hflat ⊢
      simp only [keptFrames]
      rw [if_neg, hflat, hh]
      · simp only [List.map_cons, List.map_map, Function.comp_def, toH4_vecCell]
      · rintro (⟨c, hc, he⟩ | ⟨d, hd, he⟩)
        · rw [← List.map_cons (f := fun f : List (Option H4) => f.map vecCell), ← List.map_flatten] at hc
          obtain ⟨v, -, rfl⟩ := List.mem_map.1 hc
          rw [hv] at he; cases he
        · rw [← List.map_cons (f := fun f : List (Option H4) => f.map vecCell)] at hd
          obtain ⟨f, hf, rfl⟩ := List.mem_map.1 hd
          apply he
          rw [List.length_map, List.length_map, hl f hf, hl g (by simp)]
  obtain ⟨g1, g2⟩ := perPhoton_get (pss.map fun f => f.map fun v => v.map H4.euclid) n
    (by intro h; rw [List.map_eq_nil_iff.1 h] at hf0; cases hf0) (by
      intro f hf
      obtain ⟨g, hg, rfl⟩ := List.mem_map.1 hf
      rw [List.length_map]; exact hl g hg)
  refine ⟨_, by rw [formatPos, hk], g1, fun i hi => ?_⟩
  rw [g2 i hi, List.filterMap_map]
  congr 1
  exact List.filterMap_congr fun f _ => by simp

example : ∃ pss : List (List (Option H4)), (∀ f ∈ pss, f.length = 2) ∧ (∀ f ∈ pss, ∀ q, some q ∈ f → q.w ≠ 0) ∧
    ∃ f ∈ pss, ∃ q : H4, some q ∈ f ∧ 1 / 1000 < |q.w - 1| :=
  ⟨[[some ⟨2, 4, 6, 2⟩, none], [some ⟨1, 1, 1, 1⟩, some ⟨3, 0, 0, 1⟩]], by simp, by
    intro f hf q hq
    simp only [List.mem_cons, List.not_mem_nil, or_false] at hf
    rcases hf with rfl | rfl <;> simp at hq
    · subst hq; norm_num
    · rcases hq with rfl | rfl <;> norm_num, _, List.mem_cons_self, ⟨2, 4, 6, 2⟩, List.mem_cons_self, by norm_num⟩

/-- **C165** The tolerance is more than `atol`, because `np.allclose` adds `1e-5` of the coordinate: with `atol=0`, positions are
left out that are 0.1 mm apart, if they are 20 m away from the origin. -/
theorem C165_atol_false : ∃ a b : V3, (a - b).norm = 1 / 10 ∧
    formatPos none [[vecCell (some (a.toPoint))], [vecCell (some b.toPoint)]] = .ok [[some a, some b]] ∧
    formatPos (some 0) [[vecCell (some a.toPoint)], [vecCell (some b.toPoint)]] = .ok [[some a]] := by
  refine ⟨⟨20000, 0, 0⟩, ⟨20000 + 1 / 10, 0, 0⟩, ?_, ?_⟩
  · have : (⟨20000, 0, 0⟩ - ⟨20000 + 1 / 10, 0, 0⟩ : V3).dot (⟨20000, 0, 0⟩ - ⟨20000 + 1 / 10, 0, 0⟩) = (1 / 10) ^ 2 := by
      norm_num [V3.dot]
    rw [V3.norm, this, Real.sqrt_sq (by norm_num)]
  · have hk : keptFrames [[vecCell (some (V3.toPoint ⟨20000, 0, 0⟩))], [vecCell (some (V3.toPoint ⟨20000 + 1 / 10, 0, 0⟩))]] =
        .ok [[some ⟨20000, 0, 0⟩], [some ⟨20000 + 1 / 10, 0, 0⟩]] := by
      have := keptFrames_points [[{ axisRay with pos := some (V3.toPoint ⟨20000, 0, 0⟩) }],
        [{ axisRay with pos := some (V3.toPoint ⟨20000 + 1 / 10, 0, 0⟩) }]] 1 (by simp) (by simp) (by simp [V3.toPoint])
      simpa [V3.toPoint, H4.xyz] using this
    have hc : closeFrames 0 [some ⟨20000, 0, 0⟩] [some ⟨20000 + 1 / 10, 0, 0⟩] = true := by
      simp only [closeFrames, List.forall₂_cons, List.forall₂_nil_right_iff, closePoint, decide_eq_true_eq, and_true]
      norm_num [abs_le]
    simp only [formatPos, hk]
    refine ⟨by simp [perPhoton], ?_⟩
    simp only [formatPositions, keptFrom, hc, if_true]
    simp [perPhoton]

/-- Two photons in a sequence of a filter and a propagator. -/
example : ∃ t' data rows, runKept twoElements (twoTable [axisRay, sideRay]) = .ok (t', data) ∧ formatPos none data = .ok rows ∧
    rows = [[some ⟨0, 1 / 2, 0⟩, some ⟨-5, 1 / 2, 0⟩], [some ⟨2, 5, 0⟩, some ⟨-3, 5, 0⟩]] := by
  have hf : ∀ o ∈ twoElements, o.2.Fine := by
    intro o ho
    simp only [twoElements, List.mem_cons, List.not_mem_nil, or_false] at ho
    rcases ho with rfl | rfl <;> exact filterCols_fine
  have hph := twoTable_photons [axisRay, sideRay] (by simp [axisRay, sideRay])
  obtain ⟨t', h⟩ := twoElements_run
  obtain ⟨data, hd⟩ := (C165_watching twoElements hf _ t' _ hph).2 h
  obtain ⟨rows, r1, r2, r3⟩ := C165_drawn twoElements (by simp [twoElements]) hf (by
    intro o ho i
    simp only [twoElements, List.mem_cons, List.not_mem_nil, or_false] at ho
    rcases ho with rfl | rfl <;> simp [ListOptic.photon, Optic.IsPlaced, Placed, Affine]) _ t' data hd [axisRay, sideRay] hph (by
    intro p hp
    simp only [List.mem_cons, List.not_mem_nil, or_false] at hp
    rcases hp with rfl | rfl
    · exact axisRay_ok
    · refine ⟨fun p hp => ?_, fun p hp => ?_, fun p hp => ?_⟩ <;> cases hp <;> rfl)
  refine ⟨t', data, rows, hd, r1, ?_⟩
  obtain ⟨ra, a1, a2⟩ := r3 0 axisRay rfl
  obtain ⟨rb, b1, b2⟩ := r3 1 sideRay rfl
  simp only [twoElements, List.map_cons, List.map_nil, ListOptic.photon] at a1 b1
  cases a1 with
  | cons e1 a1 => cases a1 with
    | cons e2 a1 => cases a1 with
      | nil =>
        cases b1 with
        | cons e3 b1 => cases b1 with
          | cons e4 b1 => cases b1 with
            | nil =>
              simp only [Optic.step, Ray.hit, axisRay, axisRay_hit, filterValue] at e1
              simp only [Optic.step, Ray.hit, sideRay, axisRay, sideRay_miss] at e3
              norm_num at e1 e3
              subst e1 e3
              simp only [Optic.step, Ray.at, Ray.times] at e2 e4
              cases e2
              cases e4
              match rows, r2 with
              | [x, y], _ =>
                simp only [List.getElem?_cons_zero, List.getElem?_cons_succ, Option.some.injEq] at a2 b2
                subst a2 b2
                simp only [List.map_cons, List.map_nil, Option.map_some, Ray.at, Ray.times, H4.xyz, List.cons.injEq,
                  Option.some.injEq, V3.mk.injEq, and_true]
                norm_num

end Marxs
