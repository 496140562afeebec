import Mathlib.Tactic
import Verif.Spec.CatStack
import Verif.Props.Grating
import Verif.Props.Optics
import Verif.Props.Missions
import Verif.Props.Apertures

/-!
# C120, C121: complete CAT gratings
-/

namespace Marxs

open Classical

theorem mapM_get {α β : Type} (f : α → Except Err β) (l : List α) (ys : List β) (h : l.mapM f = .ok ys) :
    ys.length = l.length ∧ ∀ (k : ℕ) (x : α), l[k]? = some x → ∃ y, f x = .ok y ∧ ys[k]? = some y := by
  induction l generalizing ys with
  | nil =>
    simp only [List.mapM_nil, pure, Except.pure, Except.ok.injEq] at h
    subst h; simp
  | cons a l ih =>
    simp only [List.mapM_cons, bind, Except.bind, pure, Except.pure] at h
    split at h
    · cases h
    rename_i y hy
    split at h
    · cases h
    rename_i zs hz
    simp only [Except.ok.injEq] at h
    subst h
    obtain ⟨h1, h2⟩ := ih zs hz
    refine ⟨by simp [h1], fun k x hx => ?_⟩
    cases k with
    | zero => simp at hx; subst hx; exact ⟨y, hy, rfl⟩
    | succ k => obtain ⟨z, z1, z2⟩ := h2 k x (by simpa using hx); exact ⟨z, z1, by simpa using z2⟩

theorem arr_at {vs : List Val} {k : ℕ} {v : Val} (h : vs[k]? = some v) : (ColVal.arr vs).at k = some v := by
  match vs, h with
  | [], h => simp at h
  | [x], h =>
    cases k with
    | zero => simpa [ColVal.at] using h
    | succ k => simp at h
  | a :: b :: l, h => simpa [ColVal.at] using h

theorem sel_length' {α : Type} {mask : List Bool} {xs : List α} (h : mask.length = xs.length) :
    (sel mask xs).length = countTrue mask := sel_length h

theorem selected_get {t : Table} {mask : List Bool} {ic : List (Val × Val)} {i : ℕ} {r : Row} {c : Val × Val}
    (hl : mask.length = t.rows.length) (hi : ic.length = t.rows.length) (hm : mask[i]? = some true)
    (hr : t.rows[i]? = some r) (hc : ic[i]? = some c) :
    (selected t mask ic)[rank mask i]? = some (rank mask i, r, c) := by
  have h1 := sel_get hm hl
  have h2 := sel_get hm (hl.trans hi.symm)
  rw [hr] at h1; rw [hc] at h2
  simp only [selected, List.zip, List.getElem?_zipWith, h1, h2, List.getElem?_range (rank_lt hm)]

theorem keys_names {e : Elem} {t t' : Table} {mask ip ic f outs} (ha : e.action = .vector f)
    (hf : f t mask ip ic = .ok outs) (hl : mask.length = t.rows.length) (hp : ip.length = t.rows.length)
    (hi : ic.length = t.rows.length) (h : processPhotons e t mask ip ic = .ok t') (hc : countTrue mask ≠ 0) :
    ∀ c ∈ keysOf outs, c ∈ t'.names := by
  obtain ⟨t2, t3, t4, h2, h3, h4, h5⟩ := processPhotons_ok h hc
  have u2 := upd_runAction h2 hl
  have v3 := upd_assignLoc h3 (by rw [hl, u2.len]) (by rw [hi, u2.len])
  have w3 := u2.trans v3
  have v4 := upd_assignId h4 (by rw [hl, w3.len])
  have w4 := w3.trans v4
  have v5 := upd_setCol (by rw [hl, w4.len]) (sel_length (by simp [hl, hp])) h5
  intro c hcm
  apply v5.names.subset
  apply v4.names.subset
  apply v3.names.subset
  simp only [runAction, ha, hf] at h2
  rw [assignAll_names h2]
  apply addOutputCols_mem
  right; right
  simp only [keysOf, List.mem_filterMap] at hcm
  obtain ⟨x, hx, hx2⟩ := hcm
  exact List.mem_map.2 ⟨x, hx, hx2⟩

theorem keysOf_cols (cols : List String) (outs : List (List Val)) :
    keysOf (cols.zipIdx.map fun c => (some c.1, ColVal.arr (outs.map fun o => o.getD c.2 (.num none)))) = cols := by
  have : ∀ n, keysOf ((cols.zipIdx n).map fun c => (some c.1, ColVal.arr (outs.map fun o => o.getD c.2 (.num none))))
      = cols := by
    induction cols with
    | nil => intro n; rfl
    | cons c l ih => intro n; simp only [List.zipIdx_cons, List.map_cons, keysOf, List.filterMap_cons]; congr 1; exact ih _
  exact this 0

/-- One layer that treats photons one by one: what happens to a photon that hits. -/
theorem perPhoton_step {e : Elem} {t t' : Table} {mask ip ic cols f a b}
    (ha : e.action = perPhotonAction cols f) (hid : e.idCol = none) (hloc : e.locCoos = some (a, b))
    (hnd : cols.Nodup) (hpos : "pos" ∉ cols) (hca : a ∉ cols) (hcb : b ∉ cols)
    (hl : mask.length = t.rows.length) (hp : ip.length = t.rows.length) (hi : ic.length = t.rows.length)
    (h : processPhotons e t mask ip ic = .ok t') (i : ℕ) (r : Row) (c : Val × Val) (hm : mask[i]? = some true)
    (hr : t.rows[i]? = some r) (hc : ic[i]? = some c) (hpn : "probability" ∈ t.names) :
    ∃ r' vs, t'.rows[i]? = some r' ∧ t'.rows.length = t.rows.length ∧ (∀ x ∈ t.names, x ∈ t'.names) ∧
      (∀ x ∈ cols, x ∈ t'.names) ∧ f (rank mask i) r c = .ok vs ∧
      (∀ j x, cols[j]? = some x → x ≠ "probability" → r' x = vs.getD j (.num none)) ∧
      (∀ j, cols[j]? = some "probability" → ¬ (vs.getD j (.num none)).OutOfRange ∧
        Val.mul (r "probability") (vs.getD j (.num none)) = some (r' "probability")) ∧
      (∀ x ∈ t.names, x ∉ cols → x ≠ "pos" → x ≠ a → x ≠ b → r' x = r x) := by
  have u := upd_processPhotons h hl hp hi
  have hlt : i < t'.rows.length := by rw [u.len]; exact (List.getElem?_eq_some_iff.1 hr).1
  have hcn : countTrue mask ≠ 0 := by have := rank_lt hm; omega
  unfold perPhotonAction at ha
  cases hmm : (selected t mask ic).mapM (fun x => f x.1 x.2.1 x.2.2) with
  | error err =>
    exfalso
    obtain ⟨t2, _, _, h2, _⟩ := processPhotons_ok h hcn
    simp [runAction, ha, hmm] at h2
  | ok outs =>
    obtain ⟨hlen, hget⟩ := mapM_get _ _ _ hmm
    obtain ⟨vs, hv1, hv2⟩ := hget _ _ (selected_get hl hi hm hr hc)
    have hout : ∀ j, (outs.map fun o => o.getD j (.num none))[rank mask i]? = some (vs.getD j (.num none)) := by
      intro j; rw [List.getElem?_map, hv2]; rfl
    have hr' := List.getElem?_eq_getElem hlt
    obtain ⟨-, -, -, -, h5, h6⟩ := C02_hit_updated hl hp hi ha (by rw [hmm]) (by rw [keysOf_cols]; exact hnd) h i r _ hm hr hr'
    have hkn := keys_names ha (by rw [hmm]) hl hp hi h hcn
    rw [keysOf_cols] at hkn h6
    have hidn : ∀ x, e.idCol ≠ some x := by intro x; rw [hid]; simp
    have hln : locNames e.locCoos = [a, b] := by rw [hloc]; rfl
    have hmem : ∀ j x, cols[j]? = some x → (some x, ColVal.arr (outs.map fun o => o.getD j (.num none))) ∈
        cols.zipIdx.map fun c => (some c.1, ColVal.arr (outs.map fun o => o.getD c.2 (.num none))) := by
      intro j x hj
      refine List.mem_map.2 ⟨(x, j), ?_, rfl⟩
      rw [List.mem_zipIdx_iff_getElem?]; exact hj
    refine ⟨_, vs, hr', u.len, fun x hx => u.names.subset hx, hkn, hv1, ?_, ?_, ?_⟩
    · intro j x hj hx
      have hxc : x ∈ cols := List.mem_of_getElem? hj
      have := (h5 x _ (hmem j x hj) (fun hx => hpos (hx ▸ hxc)) (hidn x)
        (by rw [hln]; simp only [List.mem_cons, List.not_mem_nil, or_false, not_or]
            exact ⟨fun hx => hca (hx ▸ hxc), fun hx => hcb (hx ▸ hxc)⟩)).1 hx
      rw [arr_at (hout j)] at this
      exact (Option.some.inj this).symm
    · intro j hj
      have hxc : "probability" ∈ cols := List.mem_of_getElem? hj
      obtain ⟨q, q1, q2, q3⟩ := (h5 "probability" _ (hmem j _ hj) (by decide) (hidn _)
        (by rw [hln]; simp only [List.mem_cons, List.not_mem_nil, or_false, not_or]
            exact ⟨fun hx => hca (hx ▸ hxc), fun hx => hcb (hx ▸ hxc)⟩)).2 rfl hpn
      rw [arr_at (hout j)] at q1
      cases q1
      exact ⟨q2, q3⟩
    · intro x hx hxc hxp hxa hxb
      exact h6 x hx hxc hxp (hidn x) (by rw [hln]; simp [hxa, hxb])

/-- One layer that returns a factor for each photon. -/
theorem factor_step {e : Elem} {t t' : Table} {mask ip ic f a b} (F : Row → Val)
    (ha : e.action = .vector f)
    (hf : f t mask ip ic = .ok [(some "probability", .arr ((sel mask t.rows).map F))])
    (hid : e.idCol = none) (hloc : e.locCoos = some (a, b)) (hca : a ≠ "probability") (hcb : b ≠ "probability")
    (hl : mask.length = t.rows.length) (hp : ip.length = t.rows.length) (hi : ic.length = t.rows.length)
    (h : processPhotons e t mask ip ic = .ok t') (i : ℕ) (r : Row) (hm : mask[i]? = some true)
    (hr : t.rows[i]? = some r) (hpn : "probability" ∈ t.names) :
    ∃ r', t'.rows[i]? = some r' ∧ t'.rows.length = t.rows.length ∧ (∀ x ∈ t.names, x ∈ t'.names) ∧
      ¬ (F r).OutOfRange ∧ Val.mul (r "probability") (F r) = some (r' "probability") ∧
      (∀ x ∈ t.names, x ≠ "probability" → x ≠ "pos" → x ≠ a → x ≠ b → r' x = r x) := by
  have u := upd_processPhotons h hl hp hi
  have hlt : i < t'.rows.length := by rw [u.len]; exact (List.getElem?_eq_some_iff.1 hr).1
  have hr' := List.getElem?_eq_getElem hlt
  have hln : locNames e.locCoos = [a, b] := by rw [hloc]; rfl
  obtain ⟨k1, k2, k3⟩ := factor_hit F hl hp hi ha hf (by rw [hid]; simp)
    (by rw [hln]; simp [hca.symm, hcb.symm]) hpn h i r _ hm hr hr'
  refine ⟨_, hr', u.len, fun x hx => u.names.subset hx, k1, k2, ?_⟩
  intro x hx hxp hxq hxa hxb
  exact k3 x hx hxp hxq (by rw [hid]; simp) (by rw [hln]; simp [hxa, hxb])

/-- The cells of a photon that hits the stack, layer by layer. -/
theorem cat_chain {geom} {a : CatArgs} {s : Stack} {t t' : Table} (hs : mkCatStack geom a = .ok s)
    {sf} (hsel : a.sel = some sf) (hg : GeomOK geom) (h : s.call t = .ok t') (i : ℕ) (r : Row) (c : Val × Val)
    (hm : (geom t).1[i]? = some true) (hr : t.rows[i]? = some r) (hc : (geom t).2.2[i]? = some c)
    (hn : ∀ x ∈ ["dir", "polarization", "energy", "probability"], x ∈ t.names ∧ a.idCol ≠ some x) :
    ∃ (r1 r2 r3 r4 r5 r' : Row) (v3 : List Val),
      (∀ x ∈ ["dir", "polarization", "energy", "probability"], r1 x = r x) ∧
      (let v := gratCells (a.membrane sf (rank (geom t).1 i)) r1 c;
        r2 "dir" = v.getD 0 (.num none) ∧ r2 "polarization" = v.getD 2 (.num none) ∧
        r2 "order" = v.getD 3 (.num none) ∧ r2 "blaze" = v.getD 4 (.num none) ∧ r2 "energy" = r "energy" ∧
        ¬ (v.getD 1 (.num none)).OutOfRange ∧
        Val.mul (r "probability") (v.getD 1 (.num none)) = some (r2 "probability")) ∧
      (∀ x ∈ ["dir", "polarization", "energy", "order", "blaze"], r3 x = r2 x) ∧
      Val.mul (r2 "probability") (orderFactor (qualityFactor a.sigma a.qd) (r2 "order")) = some (r3 "probability") ∧
      l1Cells (a.l1Grating (rank (geom t).1 i)) a.l1 a.trans (a.u (rank (geom t).1 i)) r3 c = .ok v3 ∧
      (r4 "dir" = v3.getD 0 (.num none) ∧ r4 "polarization" = v3.getD 2 (.num none) ∧
        r4 "order_L1" = v3.getD 3 (.num none) ∧ r4 "energy" = r "energy" ∧ r4 "order" = r2 "order" ∧
        r4 "blaze" = r2 "blaze" ∧
        ¬ (v3.getD 1 (.num none)).OutOfRange ∧
        Val.mul (r3 "probability") (v3.getD 1 (.num none)) = some (r4 "probability")) ∧
      (∀ x ∈ ["dir", "polarization", "energy", "order", "blaze", "order_L1"], r5 x = r4 x) ∧
      Val.mul (r4 "probability") (l2Photon a.l2 (planeBases a.pos4d).2.2 (r4 "dir")) = some (r5 "probability") ∧
      t'.rows[i]? = some r' ∧
      (let v := l2DiffCells a.l2 (a.z (rank (geom t).1 i)) (a.phi (rank (geom t).1 i)) r5;
        r' "dir" = v.getD 0 (.num none) ∧ r' "L2Diffraction" = v.getD 2 (.num none)) ∧
      (∀ x ∈ ["energy", "probability", "order", "blaze", "order_L1"], r' x = r5 x) ∧
      some (r' "pos") = (geom t).2.1[i]? := by
  simp only [mkCatStack, hsel] at hs
  split at hs
  · cases hs
  split at hs
  · cases hs
  simp only [Except.ok.injEq] at hs
  subst hs
  have hpos := C29_hit_position hg h i
  rcases C29_stack_runs_layers_in_order.1 h with ⟨hn', rfl⟩ | ⟨_, tr⟩
  · exact absurd (List.mem_of_getElem? hm) hn'
  obtain ⟨g1, g2, g3⟩ := hg t
  simp only [CatArgs.layers, Stack.base] at tr hpos
  generalize (geom t).1 = mask at *
  generalize (geom t).2.1 = ip at *
  generalize (geom t).2.2 = ic at *
  cases tr with | cons k0 tr =>
  cases tr with | cons k1 tr =>
  cases tr with | cons k2 tr =>
  cases tr with | cons k3 tr =>
  cases tr with | cons k4 tr =>
  cases tr with | cons k5 tr =>
  cases tr
  rename_i t1 t2 t3 t4 t5
  -- the stack itself
  have u0 := upd_processPhotons k0 g1 g2 g3
  have hlt : i < t1.rows.length := by rw [u0.len]; exact (List.getElem?_eq_some_iff.1 hr).1
  have hr1 := List.getElem?_eq_getElem hlt
  generalize t1.rows[i] = r1 at hr1
  obtain ⟨-, -, -, -, -, hk⟩ := C02_hit_updated g1 g2 g3 rfl rfl (by simp [keysOf]) k0 i r r1 hm hr hr1
  have e1 : ∀ x ∈ ["dir", "polarization", "energy", "probability"], r1 x = r x := by
    intro x hx
    refine hk x (hn x hx).1 (by simp [keysOf]) ?_ (hn x hx).2 ?_ <;>
      simp only [List.mem_cons, List.not_mem_nil, or_false] at hx <;>
      rcases hx with rfl | rfl | rfl | rfl <;> simp [locNames]
  have n1 : ∀ x ∈ ["dir", "polarization", "energy", "probability"], x ∈ t1.names :=
    fun x hx => u0.names.subset (hn x hx).1
  have l1 := u0.len
  -- membrane
  obtain ⟨r2, v1, hr2, l2, n2, m2, f2, c2, p2, o2⟩ := perPhoton_step (e := _)
    (cols := gratCols "order" "blaze") (f := fun k r c => .ok (gratCells (a.membrane sf k) r c)) rfl rfl rfl (by decide) (by decide) (by decide)
    (by decide) (g1.trans l1.symm) (g2.trans l1.symm) (g3.trans l1.symm) k1 i r1 c hm hr1 hc (n1 _ (by simp))
  simp only [Except.ok.injEq] at f2
  subst f2
  have l2' := l2.trans l1
  -- quality factor
  obtain ⟨r3, hr3, l3, n3, q3, p3, o3⟩ := factor_step (e := _)
    (fun r => orderFactor (qualityFactor a.sigma a.qd) (r "order")) rfl
    (by rw [if_pos (m2 _ (by simp [gratCols]))]) rfl rfl (by decide) (by decide)
    (g1.trans l2'.symm) (g2.trans l2'.symm) (g3.trans l2'.symm) k2 i r2 hm hr2 (n2 _ (n1 _ (by simp)))
  have l3' := l3.trans l2'
  -- L1
  obtain ⟨r4, v3, hr4, l4, n4, m4, f4, c4, p4, o4⟩ := perPhoton_step (e := _)
    (cols := gratCols "order_L1" "blaze_L1")
    (f := fun k r c => l1Cells (a.l1Grating k) a.l1 a.trans (a.u k) r c) rfl rfl rfl (by decide) (by decide) (by decide)
    (by decide) (g1.trans l3'.symm) (g2.trans l3'.symm) (g3.trans l3'.symm) k3 i r3 c hm hr3 hc
    (n3 _ (n2 _ (n1 _ (by simp))))
  have l4' := l4.trans l3'
  -- L2
  obtain ⟨r5, hr5, l5, n5, q5, p5, o5⟩ := factor_step (e := _)
    (fun r => l2Photon a.l2 (planeBases a.pos4d).2.2 (r "dir")) rfl rfl rfl rfl (by decide) (by decide)
    (g1.trans l4'.symm) (g2.trans l4'.symm) (g3.trans l4'.symm) k4 i r4 hm hr4 (n4 _ (n3 _ (n2 _ (n1 _ (by simp)))))
  have l5' := l5.trans l4'
  -- L2 diffraction
  obtain ⟨r6, v6, hr6, l6, n6, m6, f6, c6, p6, o6⟩ := perPhoton_step (e := _)
    (cols := ["dir", "polarization", "L2Diffraction"])
    (f := fun k r _ => .ok (l2DiffCells a.l2 (a.z k) (a.phi k) r)) rfl rfl rfl (by decide) (by decide) (by decide)
    (by decide) (g1.trans l5'.symm) (g2.trans l5'.symm) (g3.trans l5'.symm) k5 i r5 c hm hr5 hc
    (n5 _ (n4 _ (n3 _ (n2 _ (n1 _ (by simp))))))
  simp only [Except.ok.injEq] at f6
  subst f6
  have me2 : "energy" ∈ t2.names := n2 _ (n1 _ (by simp))
  have mo2 : "order" ∈ t2.names := m2 _ (by simp [gratCols])
  have mb2 : "blaze" ∈ t2.names := m2 _ (by simp [gratCols])
  have md2 : "dir" ∈ t2.names := n2 _ (n1 _ (by simp))
  have mp2 : "polarization" ∈ t2.names := n2 _ (n1 _ (by simp))
  have mq2 : "probability" ∈ t2.names := n2 _ (n1 _ (by simp))
  have ml4 : "order_L1" ∈ t4.names := m4 _ (by simp [gratCols])
  refine ⟨r1, r2, r3, r4, r5, r6, v3, e1, ⟨c2 0 _ rfl (by decide), c2 2 _ rfl (by decide), c2 3 _ rfl (by decide),
    c2 4 _ rfl (by decide), ?_, (p2 1 rfl).1, ?_⟩, ?_, p3, f4, ⟨c4 0 _ rfl (by decide), c4 2 _ rfl (by decide),
    c4 3 _ rfl (by decide), ?_, ?_, ?_, (p4 1 rfl).1, (p4 1 rfl).2⟩, ?_, p5, hr6,
    ⟨c6 0 _ rfl (by decide), c6 2 _ rfl (by decide)⟩, ?_, hpos r6 hm hr6⟩
  · rw [o2 "energy" (n1 _ (by simp)) (by decide) (by decide) (by decide) (by decide)]; exact e1 _ (by simp)
  · have := (p2 1 rfl).2
    rw [e1 _ (by simp)] at this; exact this
  · intro x hx
    simp only [List.mem_cons, List.not_mem_nil, or_false] at hx
    rcases hx with rfl | rfl | rfl | rfl | rfl <;>
      exact o3 _ (by assumption) (by decide) (by decide) (by decide) (by decide)
  · rw [o4 "energy" (n3 _ me2) (by decide) (by decide) (by decide) (by decide),
      o3 "energy" me2 (by decide) (by decide) (by decide) (by decide),
      o2 "energy" (n1 _ (by simp)) (by decide) (by decide) (by decide) (by decide)]
    exact e1 _ (by simp)
  · rw [o4 "order" (n3 _ mo2) (by decide) (by decide) (by decide) (by decide),
      o3 "order" mo2 (by decide) (by decide) (by decide) (by decide)]
  · rw [o4 "blaze" (n3 _ mb2) (by decide) (by decide) (by decide) (by decide),
      o3 "blaze" mb2 (by decide) (by decide) (by decide) (by decide)]
  · intro x hx
    have hx4 : x ∈ t4.names := by
      simp only [List.mem_cons, List.not_mem_nil, or_false] at hx
      rcases hx with rfl | rfl | rfl | rfl | rfl | rfl <;>
        first | exact ml4 | exact n4 _ (n3 _ (by assumption))
    simp only [List.mem_cons, List.not_mem_nil, or_false] at hx
    rcases hx with rfl | rfl | rfl | rfl | rfl | rfl <;>
      exact o5 _ hx4 (by decide) (by decide) (by decide) (by decide)
  · intro x hx
    have hx5 : x ∈ t5.names := by
      simp only [List.mem_cons, List.not_mem_nil, or_false] at hx
      rcases hx with rfl | rfl | rfl | rfl | rfl <;>
        first | exact n5 _ ml4 | exact n5 _ (n4 _ (n3 _ (by assumption)))
    simp only [List.mem_cons, List.not_mem_nil, or_false] at hx
    rcases hx with rfl | rfl | rfl | rfl | rfl <;>
      exact o6 _ hx5 (by decide) (by decide) (by decide) (by decide)

@[simp] theorem toH4_vecCell (o : Option H4) : (vecCell o).toH4 = o := by
  cases o <;> rfl

theorem gratCells_dir {g : Grating} {r : Row} {c : Val × Val} {d : H4} {E y z : ℝ} (hd : r "dir" = vecCell (some d))
    (hE : r "energy" = .num (some E)) (hc : c = (.num (some y), .num (some z))) :
    ∃ pol, gratCells g r c =
      [vecCell (g.diffract d (((r "polarization").toH4).getD ⟨0, 0, 0, 0⟩) E (y, z)).dir,
       .num (some (g.diffract d (((r "polarization").toH4).getD ⟨0, 0, 0, 0⟩) E (y, z)).prob), vecCell pol,
       .num (some (g.diffract d (((r "polarization").toH4).getD ⟨0, 0, 0, 0⟩) E (y, z)).m),
       .num (g.diffract d (((r "polarization").toH4).getD ⟨0, 0, 0, 0⟩) E (y, z)).blaze] := by
  subst hc
  simp only [gratCells, hd, toH4_vecCell, hE, Val.real?, Grating.process]
  exact ⟨_, rfl⟩

theorem gratCells_nan {g : Grating} {r : Row} {c : Val × Val} (hd : r "dir" = vecCell none) :
    ∃ m q, gratCells g r c = [vecCell none, .num (some q), vecCell none, .num (some m), .num none] := by
  simp only [gratCells, hd, toH4_vecCell]
  exact ⟨_, _, rfl⟩

theorem catSign_side (p e : H4) : - catSign p (-e) = catSide (p.dot e) := by
  simp only [catSign, catSide, H4.dot_neg_right, Real.sign_neg]
  rcases lt_trichotomy (p.dot e) 0 with h | h | h
  · rw [Real.sign_of_neg h, if_neg (by linarith)]; norm_num; exact h.le
  · rw [h]; simp
  · rw [Real.sign_of_pos h, if_pos h]; norm_num

/-- Diffraction by the CAT membrane or the L1 bars, in terms of the directions of bars `l` and dispersion `e`. -/
theorem cat_diffract {g : Grating} {coo : ℝ × ℝ} {l e n : H4} (f : Frame l e n) (hf : g.frame coo = (l, e, n))
    (ht : g.transmission = true) (hs : g.sign = catSign) {d : H4} (hd : IsDir d) (h0 : d.dot d ≠ 0)
    (hn : d.dot n ≠ 0) {E : ℝ} (hE : E ≠ 0) (hg : g.d coo ≠ 0) (hb : g.blazeMod coo = 0) (pol : H4) :
    ∃ (b : ℝ) (m : ℤ) (q : ℝ), IsBlaze l n d.unit b ∧ g.order E pol (some b) = (m, q) ∧
      (g.diffract d pol E coo).m = m ∧ (g.diffract d pol E coo).prob = q ∧
      (g.diffract d pol E coo).blaze = some b ∧
      (Evanescent l e d.unit (catSide (d.unit.dot e) * (m * (energy2wave / E) / g.d coo)) →
        (g.diffract d pol E coo).dir = none) ∧
      (¬ Evanescent l e d.unit (catSide (d.unit.dot e) * (m * (energy2wave / E) / g.d coo)) →
        ∃ d1, (g.diffract d pol E coo).dir = some d1 ∧
          GratingEquation true l e n d.unit d1 (catSide (d.unit.dot e) * (m * (energy2wave / E) / g.d coo))) := by
  have hne : d.norm ≠ 0 := by intro h'; apply h0; rw [← H4.norm_sq, h']; ring
  have hpn : d.unit.dot n ≠ 0 := by
    rw [H4.unit, H4.dot_smul_left]; exact mul_ne_zero (one_div_ne_zero hne) hn
  have hud : IsDir d.unit := by
    have : d.w = 0 := hd
    simp [IsDir, H4.unit, this]
  have hproj : d.unit - (d.unit.dot l) • l ≠ ⟨0, 0, 0, 0⟩ := by
    intro h'
    apply hpn
    have : (d.unit - (d.unit.dot l) • l).dot n = 0 := by rw [h']; simp [H4.dot]
    rwa [H4.dot_sub_left, H4.dot_smul_left, f.ac, mul_zero, sub_zero] at this
  obtain ⟨b, b1, b2, b3, b4, -⟩ := C19_blaze l e n d.unit f hud hproj
  have hdir := diffract_dir_eq g d pol E coo h0 hE hg
  rw [hf, ht, hs] at hdir
  simp only at hdir
  have hbl : (g.diffract d pol E coo).blaze = some b ∧ (g.diffract d pol E coo).m = (g.order E pol (some b)).1 ∧
      (g.diffract d pol E coo).prob = (g.order E pol (some b)).2 := by
    simp only [Grating.diffract, hf, normVector, h0, if_false, hb, b1, and_self]
  refine ⟨b, (g.order E pol (some b)).1, (g.order E pol (some b)).2, ⟨b2, b3, b4⟩, rfl, hbl.2.1, hbl.2.2, hbl.1, ?_, ?_⟩
  all_goals
    rw [← hbl.2.1] at *
    generalize (g.diffract d pol E coo).m = m at *
    have e2 : d.unit.dot e - catSign d.unit (-e) * m * (energy2wave / E) / g.d coo =
        d.unit.dot e + catSide (d.unit.dot e) * (m * (energy2wave / E) / g.d coo) := by
      rw [← catSign_side]; ring
    intro he
    rw [hdir]
  · rw [diffractDir_none, e2]; exact he
  · have : diffractDir true catSign d.unit l e n m (energy2wave / E) (g.d coo) ≠ none := by
      rw [ne_eq, diffractDir_none, e2]; exact he
    obtain ⟨d1, h1⟩ := Option.ne_none_iff_exists'.1 this
    refine ⟨d1, h1, ?_⟩
    have := diffractDir_equation f hpn h1
    rwa [show - catSign d.unit (-e) * m * (energy2wave / E) / g.d coo =
      catSide (d.unit.dot e) * (m * (energy2wave / E) / g.d coo) by rw [← catSign_side]; ring] at this

theorem cat_frame (m : M4) (g : ℝ) (hm : Affine m) (ho : OrthoAxes m) : Frame (barDir m g) (dispDir m g) (eX m) := by
  have hf := (C19_flat_and_bent m hm ho).1
  simp only [planeBases] at hf
  have hs := Real.sin_sq_add_cos_sq g
  have wa : (eY m).w = 0 := hf.wa
  have wb : (eZ m).w = 0 := hf.wb
  have ba := H4.dot_comm (eZ m) (eY m)
  constructor
  · simp only [barDir, H4.dot_sub_left, H4.dot_sub_right, H4.dot_smul_left, H4.dot_smul_right, hf.aa, hf.bb, hf.ab, ba]; linarith
  · simp only [dispDir, H4.dot_add_left, H4.dot_add_right, H4.dot_smul_left, H4.dot_smul_right, hf.aa, hf.bb, hf.ab, ba]; linarith
  · exact hf.cc
  · simp only [barDir, dispDir, H4.dot_sub_left, H4.dot_add_right, H4.dot_smul_left, H4.dot_smul_right, hf.aa, hf.bb, hf.ab, ba]; ring
  · simp only [barDir, H4.dot_sub_left, H4.dot_smul_left, hf.ac, hf.bc]; ring
  · simp only [dispDir, H4.dot_add_left, H4.dot_smul_left, hf.ac, hf.bc]; ring
  · simp [IsDir, barDir, wa, wb]
  · simp [IsDir, dispDir, wa, wb]
  · exact hf.wc

theorem Frame.swap {l e n : H4} (f : Frame l e n) : Frame (-e) l n := by
  have we : e.w = 0 := f.wb
  refine ⟨?_, f.aa, f.cc, ?_, ?_, f.ac, ?_, f.wa, f.wc⟩
  · rw [H4.dot_neg_left, H4.dot_neg_right, f.bb]; ring
  · rw [H4.dot_neg_left, H4.dot_comm, f.ab]; ring
  · rw [H4.dot_neg_left, f.bc]; ring
  · simp [IsDir, we]

theorem Frame.neg_eq {l e n p q : H4} {sh : ℝ} (h : GratingEquation true (-e) l n p q sh) :
    GratingEquation true e l n p q sh := by
  refine ⟨h.isDir, h.unit, ?_, h.dispersion, h.side⟩
  have := h.groove
  rw [H4.dot_neg_right, H4.dot_neg_right] at this
  linarith

theorem nonParallelCat_frame (m : M4) (g d bc db : ℝ) (o) (coo : ℝ × ℝ) :
    (nonParallelCat m g d bc db o).frame coo = (barDir m g, dispDir m g, eX m) := by
  simp only [Grating.frame, nonParallelCat, planeBases, barDir, dispDir, Real.sin_neg, Real.cos_neg]
  refine Prod.ext ?_ (Prod.ext ?_ rfl)
  · ext <;> simp <;> ring
  · ext <;> simp

theorem l1_frame (a : CatArgs) (k : ℕ) (coo : ℝ × ℝ) :
    (a.l1Grating k).frame coo = (-dispDir a.pos4d a.grooveAngle, barDir a.pos4d a.grooveAngle, eX a.pos4d) := by
  have h1 : Real.sin (Real.pi / 2 + a.grooveAngle) = Real.cos a.grooveAngle := by
    rw [add_comm, Real.sin_add_pi_div_two]
  have h2 : Real.cos (Real.pi / 2 + a.grooveAngle) = -Real.sin a.grooveAngle := by
    rw [add_comm, Real.cos_add_pi_div_two]
  simp only [Grating.frame, CatArgs.l1Grating, planeBases, barDir, dispDir, Real.sin_neg, Real.cos_neg, h1, h2]
  refine Prod.ext ?_ (Prod.ext ?_ rfl)
  · ext <;> simp <;> ring
  · ext <;> simp <;> ring

/-- The end of the stack for a photon that is lost. -/
theorem cat_lost {a : CatArgs} {r4 r5 r' : Row} {p4 z phi : ℝ} (hd : r4 "dir" = vecCell none) (h5d : r5 "dir" = r4 "dir")
    (hp : r4 "probability" = .num (some p4))
    (hl2 : Val.mul (r4 "probability") (l2Photon a.l2 (planeBases a.pos4d).2.2 (r4 "dir")) = some (r5 "probability"))
    (hd' : r' "dir" = (l2DiffCells a.l2 z phi r5).getD 0 (.num none)) (hp' : r' "probability" = r5 "probability") :
    LostPhoton r' := by
  constructor
  · rw [hd']
    simp only [l2DiffCells, h5d, hd, toH4_vecCell]
    rfl
  · rw [hp']
    rw [hd, hp] at hl2
    simp only [l2Photon, toH4_vecCell, Val.mul] at hl2
    exact (Option.some.inj hl2).symm

/-- The end of the stack for a photon that passes. -/
theorem cat_pass {a : CatArgs} {r4 r5 r' : Row} {p4 z phi E : ℝ} {d : H4} (hd : r4 "dir" = vecCell (some d))
    (hdir : IsDir d) (hu : d.dot d = 1) (hE : E ≠ 0)
    (h5d : r5 "dir" = r4 "dir") (h5e : r5 "energy" = .num (some E)) (hp : r4 "probability" = .num (some p4))
    (hl2 : Val.mul (r4 "probability") (l2Photon a.l2 (planeBases a.pos4d).2.2 (r4 "dir")) = some (r5 "probability"))
    (hd' : r' "dir" = (l2DiffCells a.l2 z phi r5).getD 0 (.num none))
    (hs' : r' "L2Diffraction" = (l2DiffCells a.l2 z phi r5).getD 2 (.num none)) (hp' : r' "probability" = r5 "probability") :
    PassesMesh a.l2 (eX a.pos4d) (energy2wave / E) z d p4 r' := by
  have w0 : d.w = 0 := hdir
  constructor
  · rw [hp']
    rw [l2Photon_eq a.l2 _ d (by rw [hu]; norm_num) _ hd, hp, H4.unit_of_unit hu] at hl2
    simp only [Val.mul] at hl2
    exact (Option.some.inj hl2).symm
  · intro hw
    have hx : d.xyz.dot d.xyz = 1 := by rw [← dot_xyz d d (.inl w0)]; exact hu
    have hx0 : d.xyz ≠ 0 := V3.ne_zero_of_unit hx
    have ha : l2Scatter a.l2 (energy2wave / E) z = some (z * meshBlur a.l2 (energy2wave / E)) := by
      simp only [l2Scatter, hw, if_true, meshBlur]
    obtain ⟨d', p', g1, g2, g3, g4, -⟩ := C22_gauss_scatter d (((r5 "polarization").toH4).getD ⟨0, 0, 0, 0⟩) hx0
      (z * meshBlur a.l2 (energy2wave / E)) phi
    have w1 : d'.w = 0 := g2
    have hcells : ∃ v, l2DiffCells a.l2 z phi r5 =
        [vecCell (some d'), v, .num (some (z * meshBlur a.l2 (energy2wave / E)))] := by
      simp only [l2DiffCells, h5e, Val.real?, hE, if_false, ha, h5d, hd, toH4_vecCell, g1]
      exact ⟨_, rfl⟩
    obtain ⟨v, hv⟩ := hcells
    rw [hv] at hd' hs'
    refine ⟨d', hd', g2, ?_, ?_, hs'⟩
    · rw [dot_xyz d' d' (.inl w1)]; exact g3
    · rw [dot_xyz d d' (.inl w0)]
      rwa [V3.unit_of_unit hx] at g4

/-- **C120** A photon that hits a complete CAT grating. The order selector of the membrane is asked once, with the
energy, polarization and blaze angle; a photon in an evanescent order is lost. Otherwise it follows the grating
equation, with positive orders away from the bars; then the L1 support either absorbs with the transmission at the
photon's energy and leaves the direction, or disperses across (dispersion along the bars of the membrane). The L2
mesh absorbs and scatters. The probability is the product of all the factors. -/
theorem C120_photon {geom} {a : CatArgs} {s : Stack} {t t' : Table} (hs : mkCatStack geom a = .ok s)
    {sf} (hsel : a.sel = some sf) (hg : GeomOK geom) (hpos : Affine a.pos4d) (hax : OrthoAxes a.pos4d)
    (hd0 : a.d ≠ some 0) (hD : a.l1.period ≠ 0) (hq : a.qd ≠ 0)
    (h : s.call t = .ok t') (i : ℕ) (r : Row) (y z : ℝ)
    (hm : (geom t).1[i]? = some true) (hr : t.rows[i]? = some r)
    (hc : (geom t).2.2[i]? = some (.num (some y), .num (some z)))
    (hn : ∀ x ∈ ["dir", "polarization", "energy", "probability"], x ∈ t.names ∧ a.idCol ≠ some x)
    (d P : H4) (E p : ℝ) (hE : E ≠ 0) (hd : IsDir d) (hdd : d.dot d ≠ 0) (hdn : d.dot (eX a.pos4d) ≠ 0)
    (hrd : r "dir" = .vec [some d.x, some d.y, some d.z, some d.w])
    (hrP : r "polarization" = .vec [some P.x, some P.y, some P.z, some P.w])
    (hrE : r "energy" = .num (some E)) (hrp : r "probability" = .num (some p)) :
    let bars := barDir a.pos4d (a.groove.getD 0)
    let disp := dispDir a.pos4d (a.groove.getD 0)
    let n := eX a.pos4d
    let wave := energy2wave / E
    let k := rank (geom t).1 i
    ∃ (r' : Row) (b : ℝ) (m : ℤ) (q : ℝ), t'.rows[i]? = some r' ∧ some (r' "pos") = (geom t).2.1[i]? ∧
      IsBlaze bars n d.unit b ∧ sf k E P (some b) = (m, q) ∧ r' "order" = .num (some m) ∧ r' "blaze" = .num (some b) ∧
      0 ≤ q ∧ q ≤ 1 ∧
      let shift := catSide (d.unit.dot disp) * (m * wave / a.d.getD 0.0002)
      (Evanescent bars disp d.unit shift → LostPhoton r') ∧
      (¬ Evanescent bars disp d.unit shift → ∃ d1, GratingEquation true bars disp n d.unit d1 shift ∧
        (1 - a.l1.barwidth / a.l1.period < a.u k → ∃ q1, a.trans E = .ok q1 ∧ r' "order_L1" = .num (some 0) ∧
          PassesMesh a.l2 n wave (a.z k) d1 (p * q * debyeWaller a.sigma a.qd m * q1) r') ∧
        (a.u k ≤ 1 - a.l1.barwidth / a.l1.period → d1.dot n ≠ 0 →
          ∃ (P1 : H4) (b1 : ℝ) (m1 : ℤ) (q1 : ℝ), IsBlaze disp n d1 b1 ∧ a.l1sel k E P1 (some b1) = (m1, q1) ∧
            r' "order_L1" = .num (some m1) ∧
            let shift1 := catSide (d1.dot bars) * (m1 * wave / a.l1.period)
            (Evanescent disp bars d1 shift1 → LostPhoton r') ∧
            (¬ Evanescent disp bars d1 shift1 → ∃ d2, GratingEquation true disp bars n d1 d2 shift1 ∧
              PassesMesh a.l2 n wave (a.z k) d2 (p * q * debyeWaller a.sigma a.qd m * q1) r'))) := by
  intro bars disp n wave k
  obtain ⟨r1, r2, r3, r4, r5, r', v3, e1, ⟨e2d, e2P, e2o, e2b, e2e, e2r, e2p⟩, e3, e3p, f3, ⟨e4d, e4P, e4o, e4e, e4o', e4b,
    e4r, e4p⟩, e5, e5p, hr', ⟨e6d, e6s⟩, e6, hp'⟩ := cat_chain hs hsel hg h i r _ hm hr hc hn
  change l1Cells (a.l1Grating k) a.l1 a.trans (a.u k) r3 _ = .ok v3 at f3
  have hfr : Frame bars disp n := cat_frame a.pos4d a.grooveAngle hpos hax
  have hdg : a.d.getD 0.0002 ≠ 0 := by
    cases ha : a.d with
    | none => norm_num
    | some x => intro h0; apply hd0; rw [ha]; simp at h0; rw [h0]
  have h1d : r1 "dir" = vecCell (some d) := by rw [e1 _ (by simp), hrd]; rfl
  have h1E : r1 "energy" = .num (some E) := by rw [e1 _ (by simp), hrE]
  have h1P : (r1 "polarization").toH4 = some P := by rw [e1 _ (by simp), hrP]; rfl
  obtain ⟨pol1, hcells⟩ := gratCells_dir (g := a.membrane sf k) h1d h1E (c := (.num (some y), .num (some z))) rfl
  rw [h1P] at hcells
  simp only [Option.getD_some] at hcells
  obtain ⟨b, m, q, hb, ho, gm, gq, gb, gev, gok⟩ := cat_diffract (g := a.membrane sf k) (coo := (y, z)) hfr
    (nonParallelCat_frame _ _ _ _ _ _ _) rfl rfl hd hdd hdn hE hdg (by simp [CatArgs.membrane, nonParallelCat, nonParallelBlaze]) P
  rw [gm, gq, gb] at hcells
  rw [hcells] at e2d e2o e2b e2r e2p
  simp only [List.getD_cons_zero, List.getD_cons_succ] at e2d e2o e2b e2r e2p
  have hq01 : 0 ≤ q ∧ q ≤ 1 := by simp only [Val.OutOfRange] at e2r; push Not at e2r; exact e2r
  rw [hrp] at e2p
  simp only [Val.mul, Option.some.injEq] at e2p
  have e3p' : r3 "probability" = .num (some (p * q * debyeWaller a.sigma a.qd m)) := by
    rw [← e2p, orderFactor_eq a.sigma a.qd m hq _ (by rw [e2o]; exact .inl rfl)] at e3p
    simp only [Val.mul, Option.some.injEq] at e3p
    exact e3p.symm
  have h3E : r3 "energy" = .num (some E) := by rw [e3 _ (by simp), e2e, hrE]
  have h5E : r5 "energy" = .num (some E) := by rw [e5 _ (by simp), e4e, hrE]
  refine ⟨r', b, m, q, hr', hp', hb, ho, ?_, ?_, hq01.1, hq01.2, ?_, ?_⟩
  · rw [e6 _ (by simp), e5 _ (by simp), e4o', e2o]
  · rw [e6 _ (by simp), e5 _ (by simp), e4b, e2b]
  · intro hev
    have g0 := gev hev
    rw [g0] at e2d
    have h3d : r3 "dir" = vecCell none := by rw [e3 _ (by simp), e2d]
    obtain ⟨mm, qq, hn3⟩ := gratCells_nan (g := a.l1Grating k) (c := (.num (some y), .num (some z))) h3d
    have hv : ∃ q3, v3.getD 0 (.num none) = vecCell none ∧ v3.getD 1 (.num none) = .num (some q3) := by
      simp only [l1Cells, h3E, Val.real?, hn3] at f3
      split at f3
      · split at f3
        · cases f3
        · cases f3; exact ⟨_, h3d, rfl⟩
      · cases f3; exact ⟨_, rfl, rfl⟩
    obtain ⟨q3, hv0, hv1⟩ := hv
    rw [hv0] at e4d
    rw [e3p', hv1] at e4p
    simp only [Val.mul, Option.some.injEq] at e4p
    exact cat_lost e4d (e5 _ (by simp)) e4p.symm e5p e6d (e6 _ (by simp))
  · intro hev
    obtain ⟨d1, g1, g2⟩ := gok hev
    rw [g1] at e2d
    have h3d : r3 "dir" = vecCell (some d1) := by rw [e3 _ (by simp), e2d]
    refine ⟨d1, g2, ?_, ?_⟩
    · intro hu
      have hu' : l1Open a.l1 < a.u k := hu
      simp only [l1Cells, hu', if_true, h3E, Val.real?] at f3
      cases hq1 : a.trans E with
      | error err => simp only [hq1] at f3; cases f3
      | ok q1 =>
      simp only [hq1, Except.ok.injEq] at f3
      subst f3
      simp only [List.getD_cons_zero, List.getD_cons_succ] at e4d e4o e4p
      rw [e3p'] at e4p
      simp only [Val.mul, Option.some.injEq] at e4p
      refine ⟨q1, rfl, ?_, ?_⟩
      · rw [e6 _ (by simp), e5 _ (by simp), e4o]
      · exact cat_pass (e4d.trans h3d) g2.isDir g2.unit hE (e5 _ (by simp)) h5E e4p.symm e5p e6d e6s (e6 _ (by simp))
    · intro hu hdn1
      have hu' : ¬ l1Open a.l1 < a.u k := not_lt.2 hu
      obtain ⟨pol2, hcells2⟩ := gratCells_dir (g := a.l1Grating k) h3d h3E (c := (.num (some y), .num (some z))) rfl
      set P1 := ((r3 "polarization").toH4).getD ⟨0, 0, 0, 0⟩
      obtain ⟨b1, m1, q1, hb1, ho1, gm1, gq1, gb1, gev1, gok1⟩ := cat_diffract (g := a.l1Grating k) (coo := (y, z))
        hfr.swap (l1_frame a k (y, z)) rfl rfl g2.isDir (by rw [g2.unit]; norm_num) hdn1 hE hD rfl P1
      rw [H4.unit_of_unit g2.unit] at hb1 gev1 gok1
      rw [gm1, gq1, gb1] at hcells2
      simp only [l1Cells, hu', if_false, hcells2, Except.ok.injEq] at f3
      subst f3
      simp only [List.getD_cons_zero, List.getD_cons_succ] at e4d e4o e4p
      rw [e3p'] at e4p
      simp only [Val.mul, Option.some.injEq] at e4p
      have hsame : ∀ sh, Evanescent (-disp) bars d1 sh ↔ Evanescent disp bars d1 sh := by
        intro sh; simp only [Evanescent, H4.dot_neg_right, neg_sq]
      refine ⟨P1, b1, m1, q1, ⟨hb1.lower, hb1.upper, ?_⟩, ho1, ?_, ?_, ?_⟩
      · have := hb1.angle
        rwa [show d1 - (d1.dot (-disp)) • (-disp) = d1 - (d1.dot disp) • disp by
          rw [H4.dot_neg_right]; ext <;> simp] at this
      · rw [e6 _ (by simp), e5 _ (by simp), e4o]
      · intro hev1
        rw [gev1 ((hsame _).2 hev1)] at e4d
        exact cat_lost e4d (e5 _ (by simp)) e4p.symm e5p e6d (e6 _ (by simp))
      · intro hev1
        obtain ⟨d2, k1, k2⟩ := gok1 (fun hx => hev1 ((hsame _).1 hx))
        rw [k1] at e4d
        exact ⟨d2, Frame.neg_eq k2,
          cat_pass e4d k2.isDir k2.unit hE (e5 _ (by simp)) h5E e4p.symm e5p e6d e6s (e6 _ (by simp))⟩

/-- **C120** A complete CAT grating needs an order selector (`KeyError`); bars that are not narrower than the period
are a `ValueError`; everything else has a default. -/
theorem C120_init (geom) (a : CatArgs) :
    (mkCatStack geom a = .error .keyError ↔ a.sel = none) ∧
    (mkCatStack geom a = .error .valueError ↔
      a.sel ≠ none ∧ (a.l1.period ≤ a.l1.barwidth ∨ a.l2.period ≤ a.l2.barwidth)) ∧
    ((∃ s, mkCatStack geom a = .ok s) ↔
      a.sel ≠ none ∧ a.l1.barwidth < a.l1.period ∧ a.l2.barwidth < a.l2.period) := by
  cases hs : a.sel with
  | none => simp [mkCatStack, hs]
  | some sf =>
    by_cases h1 : a.l1.barwidth < a.l1.period <;> by_cases h2 : a.l2.barwidth < a.l2.period
    · have h1' := not_le.2 h1; have h2' := not_le.2 h2
      simp [mkCatStack, hs, checkLxDims, h1, h2]
    all_goals
      simp [mkCatStack, hs, checkLxDims, h1, h2]
      try (simp only [not_lt] at h1 h2; tauto)

theorem nonParallelCat_blaze (m : M4) (hm : Affine m) (ho : OrthoAxes m) (groove dg bc db : ℝ) (order)
    (d P : H4) (E : ℝ) (coo : ℝ × ℝ) (hd : IsDir d) (h0 : d.dot d ≠ 0) (hn : d.dot (eX m) ≠ 0) :
    ∃ b, IsBlaze (barDir m groove) (eX m) d.unit b ∧
      ((nonParallelCat m groove dg bc db order).diffract d P E coo).blaze = some (b + (bc + coo.1 * db)) := by
  have f := cat_frame m groove hm ho
  have hne : d.norm ≠ 0 := by intro h'; apply h0; rw [← H4.norm_sq, h']; ring
  have hpn : d.unit.dot (eX m) ≠ 0 := by
    rw [H4.unit, H4.dot_smul_left]; exact mul_ne_zero (one_div_ne_zero hne) hn
  have hud : IsDir d.unit := by
    have : d.w = 0 := hd
    simp [IsDir, H4.unit, this]
  have hproj : d.unit - (d.unit.dot (barDir m groove)) • barDir m groove ≠ ⟨0, 0, 0, 0⟩ := by
    intro h'
    apply hpn
    have : (d.unit - (d.unit.dot (barDir m groove)) • barDir m groove).dot (eX m) = 0 := by rw [h']; simp [H4.dot]
    rwa [H4.dot_sub_left, H4.dot_smul_left, f.ac, mul_zero, sub_zero] at this
  obtain ⟨b, b1, b2, b3, b4, -⟩ := C19_blaze _ _ _ d.unit f hud hproj
  refine ⟨b, ⟨b2, b3, b4⟩, ?_⟩
  have hz : ∀ x, blazeAngle d.unit (barDir m groove) (eX m) x = some (b + x) := by
    intro x
    simp only [blazeAngle] at b1 ⊢
    split at b1
    · cases b1
    · rename_i q hq
      simp only [add_zero, Option.some.injEq] at b1
      rw [b1]
  simp only [Grating.diffract, nonParallelCat_frame, normVector, h0, if_false, hz]
  rfl

/-- **C121** (grooves along the local z axis) Two photons with the same direction that hit a grating with tilted walls
at the points `x` and `x'`: the blaze angles differ by `d_blaze_mm` times the distance along the dispersion direction;
at the centre the blaze angle is that of a parallel grating plus `blaze_center`.
Missing: other groove angles, see `C121_nonparallel_false`. -/
theorem C121_nonparallel_partial (m : M4) (hm : Affine m) (ho : OrthoAxes m) (dg bc db : ℝ) (order)
    (d P : H4) (E : ℝ) (hd : IsDir d) (h0 : d.dot d ≠ 0) (hn : d.dot (eX m) ≠ 0) :
    ∃ b, IsBlaze (barDir m 0) (eX m) d.unit b ∧
      ∀ x : H4, ((nonParallelCat m 0 dg bc db order).diffract d P E (flatCoos m x)).blaze =
        some (b + bc + db * (x - center m).dot (dispDir m 0)) := by
  obtain ⟨b, hb, -⟩ := nonParallelCat_blaze m hm ho 0 dg bc db order d P E (0, 0) hd h0 hn
  refine ⟨b, hb, fun x => ?_⟩
  obtain ⟨b', hb', h'⟩ := nonParallelCat_blaze m hm ho 0 dg bc db order d P E (flatCoos m x) hd h0 hn
  have hbb : b' = b := by
    have hne : (d.unit - (d.unit.dot (barDir m 0)) • barDir m 0).norm ≠ 0 := by
      intro h1
      have := hb.angle
      rw [h1, mul_zero] at this
      have h2 := abs_eq_zero.1 this.symm
      have hne : d.norm ≠ 0 := by intro h'; apply h0; rw [← H4.norm_sq, h']; ring
      rw [H4.unit, H4.dot_smul_left] at h2
      exact mul_ne_zero (one_div_ne_zero hne) hn h2
    have hc : Real.cos b' = Real.cos b := mul_right_cancel₀ hne (hb'.angle.trans hb.angle.symm)
    have hpi := Real.pi_pos
    exact Real.injOn_cos ⟨hb'.lower, by linarith [hb'.upper]⟩ ⟨hb.lower, by linarith [hb.upper]⟩ hc
  rw [h', hbb]
  have : dispDir m 0 = eY m := by ext <;> simp [dispDir]
  rw [this]
  simp only [flatCoos, Option.some.injEq]
  ring

/-- **C121** In the documentation there is no change of the blaze angle along the grating bars. For every other groove
angle (and walls that are not all parallel) that does not hold: moving along a bar changes the blaze angle. -/
theorem C121_nonparallel_false (m : M4) (hm : Affine m) (ho : OrthoAxes m) (groove dg bc db : ℝ) (order)
    (hg : Real.sin groove ≠ 0) (hdb : db ≠ 0)
    (d P : H4) (E : ℝ) (hd : IsDir d) (h0 : d.dot d ≠ 0) (hn : d.dot (eX m) ≠ 0) (x : H4) :
    ((nonParallelCat m groove dg bc db order).diffract d P E (flatCoos m (x + barDir m groove))).blaze ≠
      ((nonParallelCat m groove dg bc db order).diffract d P E (flatCoos m x)).blaze := by
  have hf := (C19_flat_and_bent m hm ho).1
  simp only [planeBases] at hf
  have key : ∀ c1 c2 : ℝ × ℝ,
      ((nonParallelCat m groove dg bc db order).diffract d P E c1).blaze =
      ((nonParallelCat m groove dg bc db order).diffract d P E c2).blaze → c1.1 * db = c2.1 * db := by
    intro c1 c2 h
    simp only [Grating.diffract, nonParallelCat_frame, normVector, h0, if_false] at h
    obtain ⟨b, -, hb⟩ := nonParallelCat_blaze m hm ho groove dg bc db order d P E c1 hd h0 hn
    simp only [Grating.diffract, nonParallelCat_frame, normVector, h0, if_false] at hb
    simp only [blazeAngle] at h hb
    split at h
    · rename_i hq; rw [hq] at hb; cases hb
    · simp only [Option.some.injEq, nonParallelCat, nonParallelBlaze] at h
      linarith
  intro h
  have h1 := mul_right_cancel₀ hdb (key _ _ h)
  have h2 : ((x + barDir m groove) - center m).dot (eY m) = (x - center m).dot (eY m) - Real.sin groove := by
    rw [show (x + barDir m groove) - center m = (x - center m) + barDir m groove by ext <;> simp <;> ring,
      H4.dot_add_left, barDir, H4.dot_sub_left (Real.cos groove • eZ m), H4.dot_smul_left, H4.dot_smul_left,
      H4.dot_comm (eZ m), hf.ab, hf.aa]
    ring
  simp only [flatCoos, h2] at h1
  apply hg
  linarith

/-- Grooves turned by 90 degrees. -/
example : Real.sin (Real.pi / 2) ≠ 0 ∧ Affine (1 : M4) ∧ OrthoAxes (1 : M4) := by
  refine ⟨by simp, by simp [Affine], ?_⟩
  constructor <;> simp [vX, vY, vZ, col, V3.dot, H4.xyz, V3.ext_iff]

theorem assignAll_single (outs : List (Option String × ColVal)) (names : List String) (r : Row)
    (hk : ∀ x ∈ outs, ∃ c v, x = (some c, .arr [v]) ∧ c ∈ names ∧
      (c = "probability" → ∃ q, v = .num (some q) ∧ 0 ≤ q ∧ q ≤ 1))
    (hp : ∃ p, r "probability" = .num (some p)) :
    ∃ t', assignAll [true] outs ⟨names, [r]⟩ = .ok t' ∧ t'.names = names := by
  induction outs generalizing r with
  | nil => exact ⟨_, rfl, rfl⟩
  | cons x l ih =>
    obtain ⟨c, v, rfl, hc, hq⟩ := hk x List.mem_cons_self
    have key : ∃ r2, assignColValue ⟨names, [r]⟩ (some c) [true] (.arr [v]) = .ok ⟨names, [r2]⟩ ∧
        ∃ p, r2 "probability" = .num (some p) := by
      by_cases hcp : c = "probability"
      · subst hcp
        obtain ⟨q, rfl, q0, q1⟩ := hq rfl
        obtain ⟨p, hp⟩ := hp
        refine ⟨Function.update r "probability" (.num (some (p * q))), ?_, _, Function.update_self ..⟩
        have ho : ¬ (∃ v ∈ (ColVal.arr [.num (some q)]).toList, v.OutOfRange) := by
          simp [ColVal.toList, Val.OutOfRange, q0, q1]
        simp [assignColValue, ho, hc, ColVal.expand, countTrue, mulMasked, hp, Val.mul, bind, Except.bind]
      · refine ⟨Function.update r c v, ?_, ?_⟩
        · unfold assignColValue
          split
          · rename_i h; exact absurd (Option.some.inj h) hcp
          · rename_i h; cases h
          · rename_i h
            cases h
            simp [hc, ColVal.expand, countTrue, assignMasked, bind, Except.bind]
        · obtain ⟨p, hp⟩ := hp
          exact ⟨p, by rw [Function.update_of_ne (Ne.symm hcp)]; exact hp⟩
    obtain ⟨r2, h2, h3⟩ := key
    obtain ⟨t', h4, h5⟩ := ih r2 (fun x hx => hk x (List.mem_cons_of_mem _ hx)) h3
    exact ⟨t', by simp only [assignAll, h2, bind, Except.bind]; exact h4, h5⟩

theorem single_ok {e : Elem} {t : Table} {r : Row} {ip : Val} {ic : Val × Val} {outs f} (ht : t.rows = [r])
    (ha : e.action = .vector f) (hf : f t [true] [ip] [ic] = .ok outs) (hid : e.idCol = none)
    (hk : ∀ x ∈ outs, ∃ c v, x = (some c, .arr [v]) ∧
      (c = "probability" → ∃ q, v = .num (some q) ∧ 0 ≤ q ∧ q ≤ 1))
    (hp : ∃ p, r "probability" = .num (some p)) (hpn : "probability" ∈ t.names) (hpos : "pos" ∈ t.names) :
    ∃ t', processPhotons e t [true] [ip] [ic] = .ok t' := by
  have u := upd_addOutputCols e.outputColumns e.idCol (outs.map (·.1)) t [true]
  set t1 := addOutputCols e.outputColumns e.idCol (outs.map (·.1)) t with ht1
  have hl := u.len
  rw [ht] at hl
  obtain ⟨r1, hr1⟩ := List.length_eq_one_iff.1 hl
  have hk1 : r1 "probability" = r "probability" :=
    u.keep 0 r r1 (by rw [ht]; rfl) (by rw [hr1]; rfl) _ hpn (by simp)
  obtain ⟨t2, h2, h3⟩ := assignAll_single outs t1.names r1
    (by intro x hx
        obtain ⟨c, v, rfl, hq⟩ := hk x hx
        exact ⟨c, v, rfl, addOutputCols_mem _ _ _ _ _ (.inr (.inr (List.mem_map.2 ⟨_, hx, rfl⟩))), hq⟩)
    (by rw [hk1]; exact hp)
  have e1 : t1 = ⟨t1.names, [r1]⟩ := by rw [← hr1]
  rw [← e1] at h2
  refine processPhotons_rest (t2 := t2) ?_ (by rw [hid]; simp) ?_
  · simp only [runAction, ha, hf]; exact h2
  · rw [h3]; exact u.names.subset hpos

/-- every photon hits, in the middle -/
noncomputable def exCatGeom (t : Table) : List Bool × List Val × List (Val × Val) :=
  (t.rows.map fun _ => true, t.rows.map fun r => r "pos", t.rows.map fun _ => (.num (some 0), .num (some 0)))

/-- A grating for which every photon goes to the first order and hits an L1 bar. -/
noncomputable def exCat : CatArgs where
  pos4d := 1
  sel := some fun _ _ _ _ => (1, 1 / 2)
  d := none
  groove := none
  l1 := ⟨1, 2, 1⟩
  l2 := ⟨1 / 2, 2, 1⟩
  l1sel := fun _ _ _ _ => (0, 1)
  sigma := 1
  qd := 1
  trans := fun _ => .ok (1 / 2)
  u := fun _ => 1
  z := fun _ => 1
  phi := fun _ => 0
  idCol := none
  idNum := 0

/-- one photon -/
noncomputable def exCatRow : Row := fun c =>
  if c = "dir" then .vec [some (-1), some 0, some 0, some 0]
  else if c = "polarization" then .vec [some 0, some 1, some 0, some 0]
  else if c = "energy" then .num (some 1)
  else if c = "probability" then .num (some 1)
  else .vec [some 0, some 0, some 0, some 1]

/-- table with one photon -/
noncomputable def exCatTable : Table := ⟨["pos", "dir", "polarization", "energy", "probability"], [exCatRow]⟩

/-- The hypotheses of `C120_photon` are met, the photon is diffracted into the first order. -/
example : ∃ s t', mkCatStack exCatGeom exCat = .ok s ∧ GeomOK exCatGeom ∧ Affine exCat.pos4d ∧ OrthoAxes exCat.pos4d ∧
    s.call exCatTable = .ok t' := by
  have hs : mkCatStack exCatGeom exCat = .ok ⟨none, 0, some ("y", "z"), [],
      exCat.layers (fun _ _ _ _ => (1, 1 / 2)) exCatGeom, exCatGeom⟩ := by
    have h1 : checkLxDims exCat.l1 = .ok () := by simp only [checkLxDims, exCat]; norm_num
    have h2 : checkLxDims exCat.l2 = .ok () := by simp only [checkLxDims, exCat]; norm_num
    simp only [mkCatStack, h1, h2]
    rfl
  have hpos : Affine exCat.pos4d := by simp [Affine, exCat]
  have hax : OrthoAxes exCat.pos4d := by
    constructor <;> simp [exCat, vX, vY, vZ, col, V3.dot, H4.xyz, V3.ext_iff]
  have eg : exCatGeom exCatTable = ([true], [exCatRow "pos"], [(.num (some 0), .num (some 0))]) := rfl
  suffices key : ∃ t', LayerTrace [true] [exCatRow "pos"] [(.num (some 0), .num (some 0))]
      (Stack.base ⟨none, 0, some ("y", "z"), [], exCat.layers (fun _ _ _ _ => (1, 1 / 2)) exCatGeom, exCatGeom⟩ ::
        exCat.layers (fun _ _ _ _ => (1, 1 / 2)) exCatGeom) exCatTable t' by
    obtain ⟨t', tr⟩ := key
    exact ⟨_, t', hs, fun t => by simp [exCatGeom], hpos, hax,
      C29_stack_runs_layers_in_order.2 (.inr ⟨by simp [exCatGeom, exCatTable], tr⟩)⟩
  have hfr := cat_frame exCat.pos4d exCat.grooveAngle hpos hax
  set c : Val × Val := (.num (some 0), .num (some 0)) with hc
  set ip : Val := exCatRow "pos"
  simp only [Stack.base, CatArgs.layers]
  have one : ∀ {t t1 : Table} {r : Row}, t.rows = [r] → t1.rows.length = t.rows.length → ∃ r1, t1.rows = [r1] := by
    intro t t1 r h1 h2; rw [h1] at h2; exact List.length_eq_one_iff.1 h2
  -- the stack itself
  obtain ⟨t1, k0⟩ := single_ok (e := ⟨none, 0, some ("y", "z"), [], .vector fun _ _ _ _ => .ok [], exCatGeom⟩)
    (t := exCatTable) (r := exCatRow) (ip := ip) (ic := c) rfl rfl rfl rfl (by simp) ⟨1, by simp [exCatRow]⟩
    (by simp [exCatTable]) (by simp [exCatTable])
  have u0 := upd_processPhotons k0 rfl rfl rfl
  obtain ⟨r1, hr1⟩ := one (t := exCatTable) rfl u0.len
  obtain ⟨-, -, -, -, -, hk⟩ := C02_hit_updated rfl rfl rfl rfl rfl (by simp [keysOf]) k0 0 exCatRow r1 rfl rfl (by rw [hr1]; rfl)
  have e1 : ∀ x ∈ ["dir", "polarization", "energy", "probability"], r1 x = exCatRow x := by
    intro x hx
    refine hk x ?_ (by simp [keysOf]) ?_ (by simp) ?_ <;>
      simp only [List.mem_cons, List.not_mem_nil, or_false] at hx <;>
      rcases hx with rfl | rfl | rfl | rfl <;> simp [locNames, exCatTable]
  have n1 : ∀ x ∈ exCatTable.names, x ∈ t1.names := fun x hx => u0.names.subset hx
  -- membrane
  have h1d : r1 "dir" = vecCell (some ⟨-1, 0, 0, 0⟩) := by rw [e1 _ (by simp)]; simp [exCatRow, vecCell]
  have h1E : r1 "energy" = .num (some 1) := by rw [e1 _ (by simp)]; simp [exCatRow]
  have h1p : r1 "probability" = .num (some 1) := by rw [e1 _ (by simp)]; simp [exCatRow]
  set g := exCat.membrane (fun _ _ _ _ => (1, 1 / 2)) 0 with hg
  obtain ⟨pol1, hcells⟩ := gratCells_dir (g := g) h1d h1E hc
  set P := ((r1 "polarization").toH4).getD ⟨0, 0, 0, 0⟩
  have hX : eX exCat.pos4d = ⟨1, 0, 0, 0⟩ := by
    have : vX exCat.pos4d = ⟨1, 0, 0, 0⟩ := by simp [exCat, vX, col]
    rw [eX, this, H4.unit_of_unit (by simp [H4.dot])]
  obtain ⟨b, m, q, hb, ho, gm, gq, gb, -, gok⟩ := cat_diffract (g := g) (coo := (0, 0)) (d := ⟨-1, 0, 0, 0⟩) (E := 1) hfr
    (nonParallelCat_frame _ _ _ _ _ _ _) rfl rfl rfl (by simp [H4.dot]) (by rw [hX]; simp [H4.dot]) one_ne_zero
    (by simp only [hg, CatArgs.membrane, nonParallelCat, exCat]; norm_num)
    (by simp [hg, CatArgs.membrane, nonParallelCat, nonParallelBlaze]) P
  obtain ⟨rfl, rfl⟩ : m = 1 ∧ q = 1 / 2 := by
    have : ((1 : ℤ), (1 / 2 : ℝ)) = (m, q) := ho
    cases this; exact ⟨rfl, rfl⟩
  have hev : ¬ Evanescent (barDir exCat.pos4d exCat.grooveAngle) (dispDir exCat.pos4d exCat.grooveAngle)
      (H4.unit ⟨-1, 0, 0, 0⟩) (catSide ((H4.unit ⟨-1, 0, 0, 0⟩).dot (dispDir exCat.pos4d exCat.grooveAngle)) *
        (((1 : ℤ) : ℝ) * (energy2wave / 1) / g.d (0, 0))) := by
    have hu : H4.unit ⟨-1, 0, 0, 0⟩ = ⟨-1, 0, 0, 0⟩ := H4.unit_of_unit (by simp [H4.dot])
    have h1 : (⟨-1, 0, 0, 0⟩ : H4).dot (dispDir exCat.pos4d exCat.grooveAngle) = 0 := by
      have := hfr.bc
      rw [hX] at this
      simp only [H4.dot] at this ⊢
      linarith
    have h2 : (⟨-1, 0, 0, 0⟩ : H4).dot (barDir exCat.pos4d exCat.grooveAngle) = 0 := by
      have := hfr.ac
      rw [hX] at this
      simp only [H4.dot] at this ⊢
      linarith
    have h3 : g.d (0, 0) = 0.0002 := by simp only [hg, CatArgs.membrane, nonParallelCat, exCat]; rfl
    rw [hu, h1, Evanescent, h1, h2, h3]
    simp only [catSide, energy2wave]
    norm_num
  obtain ⟨d1, g1, g2⟩ := gok hev
  rw [gm, gq, gb, g1] at hcells
  obtain ⟨t2, k1⟩ := single_ok (e := ⟨none, -9, some ("grat_y", "grat_z"), [],
      gratingAction "order" "blaze" (exCat.membrane fun _ _ _ _ => (1, 1 / 2)), exCatGeom⟩)
    (t := t1) (r := r1) (ip := ip) (ic := c) hr1 rfl
    (by simp only [selected, hr1]; simp only [countTrue, sel, List.count, List.mapM_cons]; rfl)
    rfl
    (by
      intro x hx
      change x ∈ (gratCols "order" "blaze").zipIdx.map (fun c' => (some c'.1,
        ColVal.arr ([gratCells g r1 c].map fun o => o.getD c'.2 (.num none)))) at hx
      rw [hcells] at hx
      simp only [gratCols, List.zipIdx, List.map_cons, List.map_nil, List.mem_cons, List.not_mem_nil, or_false] at hx
      rcases hx with rfl | rfl | rfl | rfl | rfl
      · exact ⟨_, _, rfl, fun h => absurd h (by decide)⟩
      · exact ⟨_, _, rfl, fun _ => ⟨1 / 2, rfl, by norm_num, by norm_num⟩⟩
      · exact ⟨_, _, rfl, fun h => absurd h (by decide)⟩
      · exact ⟨_, _, rfl, fun h => absurd h (by decide)⟩
      · exact ⟨_, _, rfl, fun h => absurd h (by decide)⟩)
    ⟨1, h1p⟩ (n1 _ (by simp [exCatTable])) (n1 _ (by simp [exCatTable]))
  have l1 : t1.rows.length = 1 := by rw [hr1]; rfl
  obtain ⟨r2, v1, hr2, l2, n2, m2, f2, c2, p2, o2⟩ := perPhoton_step (e := _) (mask := [true]) (ip := [ip]) (ic := [c])
    (cols := gratCols "order" "blaze") (f := fun k r c => .ok (gratCells (exCat.membrane (fun _ _ _ _ => (1, 1 / 2)) k) r c))
    rfl rfl rfl (by decide) (by decide) (by decide) (by decide) l1.symm l1.symm l1.symm k1 0 r1 c rfl (by rw [hr1]; rfl) rfl
    (n1 _ (by simp [exCatTable]))
  have hv1 : v1 = gratCells g r1 c := (Except.ok.inj f2).symm
  rw [hcells] at hv1
  subst hv1
  have h2d : r2 "dir" = vecCell (some d1) := c2 0 _ rfl (by decide)
  have h2o : r2 "order" = .num (some 1) := by
    have := c2 3 "order" rfl (by decide)
    simpa using this
  have h2p : r2 "probability" = .num (some (1 / 2)) := by
    have := (p2 1 rfl).2
    rw [h1p] at this
    simp only [List.getD_cons_zero, List.getD_cons_succ, Val.mul, Option.some.injEq] at this
    rw [← this]; norm_num
  have h2E : r2 "energy" = .num (some 1) := by
    rw [o2 "energy" (n1 _ (by simp [exCatTable])) (by decide) (by decide) (by decide) (by decide)]; exact h1E
  have hr2' : t2.rows = [r2] := by
    obtain ⟨x, hx⟩ := one hr1 l2
    rw [hx] at hr2; simp at hr2; rw [hx, hr2]
  -- quality factor
  have hdw := C58_quality_values 1 1 one_ne_zero
  obtain ⟨t3, k2⟩ := single_ok (e := ⟨none, -9, some ("y", "z"), [], qualityAction exCat.sigma exCat.qd, exCatGeom⟩)
    (t := t2) (r := r2) (ip := ip) (ic := c) hr2' rfl
    (by rw [if_pos (m2 _ (by simp [gratCols])), hr2']) rfl
    (by
      intro x hx
      simp only [List.mem_cons, List.not_mem_nil, or_false] at hx
      subst hx
      refine ⟨_, _, rfl, fun _ => ⟨debyeWaller 1 1 1, ?_, (hdw.2.1 1).1.le, (hdw.2.1 1).2⟩⟩
      exact orderFactor_eq 1 1 1 one_ne_zero _ (by rw [h2o]; exact .inl rfl))
    ⟨_, h2p⟩ (n2 _ (n1 _ (by simp [exCatTable]))) (n2 _ (n1 _ (by simp [exCatTable])))
  have l2' := l2.trans l1
  obtain ⟨r3, hr3, l3, n3, -, p3, o3⟩ := factor_step (e := _) (mask := [true]) (ip := [ip]) (ic := [c])
    (fun r => orderFactor (qualityFactor exCat.sigma exCat.qd) (r "order")) rfl
    (by rw [if_pos (m2 _ (by simp [gratCols]))]) rfl rfl (by decide) (by decide)
    l2'.symm l2'.symm l2'.symm k2 0 r2 rfl hr2 (n2 _ (n1 _ (by simp [exCatTable])))
  have hr3' : t3.rows = [r3] := by
    obtain ⟨x, hx⟩ := one hr2' l3
    rw [hx] at hr3; simp at hr3; rw [hx, hr3]
  have h3d : r3 "dir" = vecCell (some d1) := by
    rw [o3 "dir" (n2 _ (n1 _ (by simp [exCatTable]))) (by decide) (by decide) (by decide) (by decide)]; exact h2d
  have h3E : r3 "energy" = .num (some 1) := by
    rw [o3 "energy" (n2 _ (n1 _ (by simp [exCatTable]))) (by decide) (by decide) (by decide) (by decide)]; exact h2E
  obtain ⟨p3v, h3p⟩ : ∃ p, r3 "probability" = .num (some p) := by
    rw [h2p, h2o] at p3
    have : orderFactor (qualityFactor exCat.sigma exCat.qd) (.num (some 1)) = .num (some (debyeWaller 1 1 1)) :=
      orderFactor_eq 1 1 1 one_ne_zero _ (.inl rfl)
    rw [this] at p3
    simp only [Val.mul, Option.some.injEq] at p3
    exact ⟨_, p3.symm⟩
  -- L1
  have hu : l1Open exCat.l1 < exCat.u 0 := by simp only [l1Open, exCat]; norm_num
  have hL1 : l1Cells (exCat.l1Grating 0) exCat.l1 exCat.trans (exCat.u 0) r3 c =
      .ok [r3 "dir", .num (some (1 / 2)), r3 "polarization", .num (some 0),
        (gratCells (exCat.l1Grating 0) r3 c).getD 4 (.num none)] := by
    simp only [l1Cells, hu, if_true, h3E, Val.real?]
    rfl
  obtain ⟨t4, k3⟩ := single_ok (e := ⟨none, -9, some ("grat_y", "grat_z"), [],
      perPhotonAction (gratCols "order_L1" "blaze_L1")
        (fun k r c => l1Cells (exCat.l1Grating k) exCat.l1 exCat.trans (exCat.u k) r c), exCatGeom⟩)
    (t := t3) (r := r3) (ip := ip) (ic := c) hr3' rfl
    (outs := (gratCols "order_L1" "blaze_L1").zipIdx.map fun c' => (some c'.1,
        ColVal.arr ([[r3 "dir", .num (some (1 / 2)), r3 "polarization", .num (some 0),
        (gratCells (exCat.l1Grating 0) r3 c).getD 4 (.num none)]].map fun o => o.getD c'.2 (.num none))))
    (by
      have : selected t3 [true] [c] = [(0, r3, c)] := by simp only [selected, hr3']; rfl
      simp only [this, List.mapM_cons, List.mapM_nil, hL1]
      rfl)
    rfl
    (by
      intro x hx
      simp only [gratCols, List.zipIdx, List.map_cons, List.map_nil, List.mem_cons, List.not_mem_nil, or_false] at hx
      rcases hx with rfl | rfl | rfl | rfl | rfl
      · exact ⟨_, _, rfl, fun h => absurd h (by decide)⟩
      · exact ⟨_, _, rfl, fun _ => ⟨1 / 2, rfl, by norm_num, by norm_num⟩⟩
      · exact ⟨_, _, rfl, fun h => absurd h (by decide)⟩
      · exact ⟨_, _, rfl, fun h => absurd h (by decide)⟩
      · exact ⟨_, _, rfl, fun h => absurd h (by decide)⟩)
    ⟨_, h3p⟩ (n3 _ (n2 _ (n1 _ (by simp [exCatTable])))) (n3 _ (n2 _ (n1 _ (by simp [exCatTable]))))
  have l3' := l3.trans l2'
  obtain ⟨r4, v3, hr4, l4, n4, m4, f4, c4, p4, o4⟩ := perPhoton_step (e := _) (mask := [true]) (ip := [ip]) (ic := [c])
    (cols := gratCols "order_L1" "blaze_L1")
    (f := fun k r c => l1Cells (exCat.l1Grating k) exCat.l1 exCat.trans (exCat.u k) r c) rfl rfl rfl (by decide) (by decide)
    (by decide) (by decide) l3'.symm l3'.symm l3'.symm k3 0 r3 c rfl hr3 rfl (n3 _ (n2 _ (n1 _ (by simp [exCatTable]))))
  have hr4' : t4.rows = [r4] := by
    obtain ⟨x, hx⟩ := one hr3' l4
    rw [hx] at hr4; simp at hr4; rw [hx, hr4]
  rw [show rank [true] 0 = 0 from rfl, hL1] at f4
  cases f4
  have h4d : r4 "dir" = vecCell (some d1) := by rw [← h3d]; exact c4 0 _ rfl (by decide)
  have h4E : r4 "energy" = .num (some 1) := by
    rw [o4 "energy" (n3 _ (n2 _ (n1 _ (by simp [exCatTable])))) (by decide) (by decide) (by decide) (by decide)]; exact h3E
  have h4p : r4 "probability" = .num (some (p3v * (1 / 2))) := by
    have := (p4 1 rfl).2
    rw [h3p] at this
    simp only [List.getD_cons_zero, List.getD_cons_succ, Val.mul, Option.some.injEq] at this
    exact this.symm
  -- L2
  have hl2 := l2Photon_eq exCat.l2 (planeBases exCat.pos4d).2.2 d1 (by rw [g2.unit]; norm_num) _ h4d
  have hrange : 0 ≤ meshOpen exCat.l2 - meshShadow exCat.l2 (Real.sqrt (1 - (d1.unit.dot (planeBases exCat.pos4d).2.2) ^ 2)) ∧
      meshOpen exCat.l2 - meshShadow exCat.l2 (Real.sqrt (1 - (d1.unit.dot (planeBases exCat.pos4d).2.2) ^ 2)) ≤ 1 := by
    set w := Real.sqrt (1 - (d1.unit.dot (planeBases exCat.pos4d).2.2) ^ 2)
    have w0 : 0 ≤ w := Real.sqrt_nonneg _
    have w1 : w ≤ 1 := Real.sqrt_le_one.2 (by nlinarith [sq_nonneg (d1.unit.dot (planeBases exCat.pos4d).2.2)])
    have s3 : 1 ≤ Real.sqrt 3 := Real.one_le_sqrt.2 (by norm_num)
    simp only [meshOpen, meshShadow, exCat]
    have hx : (1 / 2 : ℝ) * (2 - 1) * w / (2 ^ 2 * Real.sqrt 3 / 2) ≤ 1 / 4 := by
      rw [div_le_iff₀ (by positivity)]; nlinarith
    have hy : 0 ≤ (1 / 2 : ℝ) * (2 - 1) * w / (2 ^ 2 * Real.sqrt 3 / 2) := by
      apply div_nonneg <;> [nlinarith; positivity]
    constructor <;> norm_num at hx hy ⊢ <;> linarith
  obtain ⟨t5, k4⟩ := single_ok (e := ⟨none, -9, some ("y", "z"), [], l2Action exCat.l2 (planeBases exCat.pos4d).2.2, exCatGeom⟩)
    (t := t4) (r := r4) (ip := ip) (ic := c) hr4' rfl (by rw [hr4']) rfl
    (by
      intro x hx
      simp only [List.mem_cons, List.not_mem_nil, or_false] at hx
      subst hx
      exact ⟨_, _, rfl, fun _ => ⟨_, hl2, hrange.1, hrange.2⟩⟩)
    ⟨_, h4p⟩ (n4 _ (n3 _ (n2 _ (n1 _ (by simp [exCatTable]))))) (n4 _ (n3 _ (n2 _ (n1 _ (by simp [exCatTable])))))
  have l4' := l4.trans l3'
  obtain ⟨r5, hr5, l5, n5, -, p5, o5⟩ := factor_step (e := _) (mask := [true]) (ip := [ip]) (ic := [c])
    (fun r => l2Photon exCat.l2 (planeBases exCat.pos4d).2.2 (r "dir")) rfl rfl rfl rfl (by decide) (by decide)
    l4'.symm l4'.symm l4'.symm k4 0 r4 rfl hr4 (n4 _ (n3 _ (n2 _ (n1 _ (by simp [exCatTable])))))
  have hr5' : t5.rows = [r5] := by
    obtain ⟨x, hx⟩ := one hr4' l5
    rw [hx] at hr5; simp at hr5; rw [hx, hr5]
  obtain ⟨p5v, h5p⟩ : ∃ p, r5 "probability" = .num (some p) := by
    rw [h4p, hl2] at p5
    simp only [Val.mul, Option.some.injEq] at p5
    exact ⟨_, p5.symm⟩
  -- L2 diffraction
  obtain ⟨t6, k5⟩ := single_ok (e := ⟨none, -9, some ("y", "z"), [], perPhotonAction ["dir", "polarization", "L2Diffraction"]
      (fun k r _ => .ok (l2DiffCells exCat.l2 (exCat.z k) (exCat.phi k) r)), exCatGeom⟩)
    (t := t5) (r := r5) (ip := ip) (ic := c) hr5' rfl
    (outs := (["dir", "polarization", "L2Diffraction"] : List String).zipIdx.map fun c' => (some c'.1,
        ColVal.arr ([l2DiffCells exCat.l2 (exCat.z 0) (exCat.phi 0) r5].map fun o => o.getD c'.2 (.num none))))
    (by
      have : selected t5 [true] [c] = [(0, r5, c)] := by simp only [selected, hr5']; rfl
      simp only [this, List.mapM_cons, List.mapM_nil]
      rfl)
    rfl
    (by
      intro x hx
      simp only [List.zipIdx, List.map_cons, List.map_nil, List.mem_cons, List.not_mem_nil, or_false] at hx
      rcases hx with rfl | rfl | rfl
      · exact ⟨_, _, rfl, fun h => absurd h (by decide)⟩
      · exact ⟨_, _, rfl, fun h => absurd h (by decide)⟩
      · exact ⟨_, _, rfl, fun h => absurd h (by decide)⟩)
    ⟨_, h5p⟩ (n5 _ (n4 _ (n3 _ (n2 _ (n1 _ (by simp [exCatTable])))))) (n5 _ (n4 _ (n3 _ (n2 _ (n1 _ (by simp [exCatTable]))))))
  exact ⟨t6, .cons k0 (.cons k1 (.cons k2 (.cons k3 (.cons k4 (.cons k5 (.nil _))))))⟩

end Marxs
