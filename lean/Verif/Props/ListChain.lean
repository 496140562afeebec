import Verif.Lemmas.ListRuns
import Verif.Props.Physical
import Verif.Props.Similarity

/-!
# C163: a photon list is its photons
-/

namespace Marxs
open Classical

theorem toH4_vecCell (v : Option H4) : (vecCell v).toH4 = v := by
  cases v <;> rfl

theorem times_cell {p : Ray} {f : Option ℝ} {w : Val} (h : Val.mul (.num p.prob) (.num f) = some w) :
    w = .num (p.times f).prob := by
  cases hp : p.prob <;> cases f <;> simp_all [Val.mul, Ray.times]

theorem rowIs_miss {names names' : List String} {r r' : Row} {p : Ray} (h : RowIs names r p) (hn : needColumns ⊆ names)
    (hsub : names ⊆ names') (h1 : ∀ n ∈ names, r' n = r n)
    (h2 : ∀ n ∈ rayColumns, n ∈ names' → n ∉ names → r' n = .num none) : RowIs names' r' p where
  pos := by rw [h1 _ (hn (by simp [needColumns])), h.pos]
  dir := by rw [h1 _ (hn (by simp [needColumns])), h.dir]
  pol := by rw [h1 _ (hn (by simp [needColumns])), h.pol]
  prob := by rw [h1 _ (hn (by simp [needColumns])), h.prob]
  energy := by rw [h1 _ (hn (by simp [needColumns])), h.energy]
  order := fun hx => by
    by_cases hb : "order" ∈ names
    · rw [h1 _ hb, h.order hb]
    · rw [h2 _ (by simp [rayColumns]) hx hb, h.noOrder hb, Option.map_none]
  noOrder := fun hx => h.noOrder fun hb => hx (hsub hb)
  blaze := fun hx => by
    by_cases hb : "blaze" ∈ names
    · rw [h1 _ hb, h.blaze hb]
    · rw [h2 _ (by simp [rayColumns]) hx hb, h.noBlaze hb]
  noBlaze := fun hx => h.noBlaze fun hb => hx (hsub hb)

/-- The row of a photon that hits, from the cells that are written. -/
theorem rowIs_hit {names names' keys : List String} {r r' : Row} {p p' : Ray} (h : RowIs names r p) (hn : needColumns ⊆ names)
    (vals : String → Val)
    (h1 : ∀ n ∈ keys, n ∈ names' ∧ ∃ old, (n ∈ names → old = r n) ∧ newCell n old (vals n) = some (r' n))
    (h2 : ∀ n ∈ rayColumns, n ∈ names → n ∉ keys → n ≠ "pos" → r' n = r n)
    (h3 : ∀ n ∈ rayColumns, n ∉ keys → (n ∈ names' ↔ n ∈ names))
    (hpos : r' "pos" = vecCell p'.pos)
    (hdir : if "dir" ∈ keys then vals "dir" = vecCell p'.dir else p'.dir = p.dir)
    (hpol : if "polarization" ∈ keys then vals "polarization" = vecCell p'.pol else p'.pol = p.pol)
    (hprob : if "probability" ∈ keys then ∃ f, vals "probability" = .num f ∧ p'.prob = (p.times f).prob else p'.prob = p.prob)
    (hen : "energy" ∉ keys) (hen' : p'.energy = p.energy)
    (horder : if "order" ∈ keys then vals "order" = .num (p'.order.map fun n : ℤ => (n : ℝ)) else p'.order = p.order)
    (hblaze : if "blaze" ∈ keys then vals "blaze" = .num p'.blaze else p'.blaze = p.blaze) : RowIs names' r' p' := by
  have plain : ∀ n ∈ keys, n ≠ "probability" → r' n = vals n := by
    intro n hk hne
    obtain ⟨-, old, -, e⟩ := h1 n hk
    simp only [newCell, if_neg hne, Option.some.injEq] at e
    exact e.symm
  refine ⟨hpos, ?_, ?_, ?_, ?_, ?_, ?_, ?_, ?_⟩
  · split at hdir
    · rename_i hk; rw [plain _ hk (by decide), hdir]
    · rename_i hk; rw [h2 _ (by simp [rayColumns]) (hn (by simp [needColumns])) hk (by decide), h.dir, hdir]
  · split at hpol
    · rename_i hk; rw [plain _ hk (by decide), hpol]
    · rename_i hk; rw [h2 _ (by simp [rayColumns]) (hn (by simp [needColumns])) hk (by decide), h.pol, hpol]
  · split at hprob
    · rename_i hk
      obtain ⟨f, e1, e2⟩ := hprob
      obtain ⟨-, old, o1, e⟩ := h1 _ hk
      rw [o1 (hn (by simp [needColumns])), e1, h.prob] at e
      simp only [newCell, if_true] at e
      rw [times_cell e, e2]
    · rename_i hk; rw [h2 _ (by simp [rayColumns]) (hn (by simp [needColumns])) hk (by decide), h.prob, hprob]
  · rw [h2 _ (by simp [rayColumns]) (hn (by simp [needColumns])) hen (by decide), h.energy, hen']
  · intro hx
    split at horder
    · rename_i hk; rw [plain _ hk (by decide), horder]
    · rename_i hk
      have hb := (h3 _ (by simp [rayColumns]) hk).1 hx
      rw [h2 _ (by simp [rayColumns]) hb hk (by decide), h.order hb, horder]
  · intro hx
    split at horder
    · rename_i hk; exact absurd (h1 _ hk).1 hx
    · rename_i hk
      rw [horder]
      exact h.noOrder fun hb => hx ((h3 _ (by simp [rayColumns]) hk).2 hb)
  · intro hx
    split at hblaze
    · rename_i hk; rw [plain _ hk (by decide), hblaze]
    · rename_i hk
      have hb := (h3 _ (by simp [rayColumns]) hk).1 hx
      rw [h2 _ (by simp [rayColumns]) hb hk (by decide), h.blaze hb, hblaze]
  · intro hx
    split at hblaze
    · rename_i hk; exact absurd (h1 _ hk).1 hx
    · rename_i hk
      rw [hblaze]
      exact h.noBlaze fun hb => hx ((h3 _ (by simp [rayColumns]) hk).2 hb)

/-- The matrix of an element that is a plane. -/
def ListOptic.planar : ListOptic → Option M4
  | .plane m | .filter m _ | .lens m _ _ _ | .thin m _ | .grating m _ _ _ _ _ _ | .mirror m _ _ | .scatter m _ _ => some m
  | _ => none

theorem rowHit_planar {o : ListOptic} {m : M4} (hm : o.planar = some m) {names : List String} {r : Row} {p : Ray}
    (h : RowIs names r p) : o.rowHit r = (p.hit m).map fun x => (x.2.1, x.2.2.1, x.2.2.2.1) := by
  have e : o.rowHit r = match (r "dir").toH4, (r "pos").toH4 with
      | some d, some p => planeIntersect m d p
      | _, _ => none := by
    cases o <;> simp only [ListOptic.planar, Option.some.injEq, reduceCtorEq] at hm <;> subst hm <;>
      simp only [ListOptic.rowHit] <;> cases (r "dir").toH4 <;> cases (r "pos").toH4 <;> rfl
  rw [e, h.dir, h.pos, toH4_vecCell, toH4_vecCell]
  unfold Ray.hit
  cases p.dir <;> cases p.pos <;> simp
  split <;> simp_all

theorem hit_some {p : Ray} {m : M4} {d q : H4} {y z : ℝ} {p0 : H4} (h : p.hit m = some (d, q, y, z, p0)) :
    p.dir = some d ∧ p.pos = some p0 ∧ planeIntersect m d p0 = some (q, y, z) := by
  unfold Ray.hit at h
  split at h
  · rename_i d' p' h1 h2
    split at h
    · rename_i h3; cases h; exact ⟨h1, h2, h3⟩
    · cases h
  · cases h

theorem rowOuts_is {o : ListOptic} {i : ℕ} {names : List String} {r : Row} {p : Ray} (h : RowIs names r p) {d q p0 : H4}
    {y z : ℝ} (hd : p.dir = some d) (hp : p.pos = some p0) :
    o.rowOuts i r (vecCell (some q)) (.num (some y), .num (some z)) = o.outs i d p0 p.pol p.energy q y z := by
  simp only [ListOptic.rowOuts, h.dir, h.pos, h.pol, h.energy, toH4_vecCell, hd, hp, Val.real?]

/-- One photon in an element that is a plane. -/
theorem planar_step {o : ListOptic} {m : M4} (hpl : o.planar = some m) {c : ElemCols} (hc : c.Fine) {t t' : Table}
    (h : (o.elem c).call t = .ok t') (hn : needColumns ⊆ t.names) {i : ℕ} {r r' : Row} (hr : t.rows[i]? = some r)
    (hr' : t'.rows[i]? = some r') {p : Ray} (hp : RowIs t.names r p) :
    ∃ p', (o.photon i).step p = .ok p' ∧ RowIs t'.names r' p' ∧
      ∀ x, p.hit m = some x → p'.coos = p.coos ++ [(x.2.2.1, x.2.2.2.1)] ∧ ∀ a b, c.loc = some (a, b) →
        r' a = .num (some x.2.2.1) ∧ r' b = .num (some x.2.2.2.1) := by
  have hh := rowHit_planar hpl hp
  cases hx : p.hit m with
  | none =>
    rw [hx] at hh
    obtain ⟨m1, m2⟩ := elem_miss hc h hr hr' hh
    refine ⟨p, ?_, rowIs_miss hp hn (elem_len h).2 m1 m2, by simp⟩
    cases o <;> simp only [ListOptic.planar, Option.some.injEq, reduceCtorEq] at hpl <;> subst hpl <;>
      simp only [ListOptic.photon, Optic.step, hx]
  | some x =>
    obtain ⟨d, q, y, z, p0⟩ := x
    rw [hx] at hh
    simp only [Option.map_some] at hh
    obtain ⟨hd, hp0, -⟩ := hit_some hx
    by_cases hthin : ∃ m f, o = .thin m f
    · obtain ⟨m', f, rfl⟩ := hthin
      simp only [ListOptic.planar, Option.some.injEq] at hpl
      subst hpl
      obtain ⟨b1, ⟨outs, b2, b3⟩, b4, b5, b6⟩ := thin_hit hc h hr hr' hh
      have hdH : (r "dir").toH4 = some d := by rw [hp.dir, toH4_vecCell, hd]
      simp only [thinOuts, hdH, hh, Except.ok.injEq] at b2
      subst b2
      have g : ∀ n v, (n, v) ∈ (eachCols []).zip _ → n ≠ "pos" → newCell n (r n) v = some (r' n) := b3
      simp only [eachCols, List.append_nil, List.zip_cons_cons, List.zip_nil_right, List.mem_cons, Prod.mk.injEq,
        List.not_mem_nil, or_false] at g
      have k1 := g "dir" _ (Or.inl ⟨rfl, rfl⟩) (by decide)
      have k2 := g "energy" _ (Or.inr (Or.inr (Or.inl ⟨rfl, rfl⟩))) (by decide)
      have k3 := g "polarization" _ (Or.inr (Or.inr (Or.inr (Or.inl ⟨rfl, rfl⟩)))) (by decide)
      have k4 := g "probability" _ (Or.inr (Or.inr (Or.inr (Or.inr ⟨rfl, rfl⟩)))) (by decide)
      simp only [newCell, String.reduceEq, if_false, if_true, Option.some.injEq] at k1 k2 k3 k4
      rw [hp.prob] at k4
      have k4' := times_cell k4
      refine ⟨_, by simp only [ListOptic.photon, Optic.step, hx]; rfl, ?_, ?_⟩
      · refine ⟨b1, k1.symm, ?_, ?_, by rw [← k2, hp.energy]; rfl, ?_, ?_, ?_, ?_⟩
        · rw [← k3, hp.pol, toH4_vecCell]; rfl
        · rw [k4']
          simp only [Ray.times, Ray.at]
          cases p.prob <;> simp
        · intro hb
          have hb' := (b5 _ (by simp [rayColumns])).1 hb
          rw [b4 _ (by simp [rayColumns]) hb' (by simp [eachCols])]
          exact hp.order hb'
        · intro hb
          exact hp.noOrder fun hb' => hb ((b5 _ (by simp [rayColumns])).2 hb')
        · intro hb
          have hb' := (b5 _ (by simp [rayColumns])).1 hb
          rw [b4 _ (by simp [rayColumns]) hb' (by simp [eachCols])]
          exact hp.blaze hb'
        · intro hb
          exact hp.noBlaze fun hb' => hb ((b5 _ (by simp [rayColumns])).2 hb')
      · intro x e
        cases e
        exact ⟨rfl, fun a b hab => b6 a b hab⟩
    · have hthin' : ∀ m f, o ≠ .thin m f := fun m f e => hthin ⟨m, f, e⟩
      obtain ⟨vals, v1, v2, v3, v4, v5, v6⟩ := elem_hit hc hthin' h hr hr' hh
      rw [rowOuts_is hp hd hp0] at v1
      have done : ∀ p' : Ray, (o.photon i).step p = .ok p' → p'.coos = p.coos ++ [(y, z)] → RowIs t'.names r' p' →
          ∃ p', (o.photon i).step p = .ok p' ∧ RowIs t'.names r' p' ∧
      ∀ x, some (d, q, y, z, p0) = some x → p'.coos = p.coos ++ [(x.2.2.1, x.2.2.2.1)] ∧ ∀ a b, c.loc = some (a, b) →
        r' a = .num (some x.2.2.1) ∧ r' b = .num (some x.2.2.2.1) := by
        intro p' e1 e2 e3
        refine ⟨p', e1, e3, fun x ex => ?_⟩
        cases ex
        exact ⟨e2, v6⟩
      cases o with
      | plane m' =>
        simp only [ListOptic.planar, Option.some.injEq] at hpl
        subst hpl
        refine done _ (by simp only [ListOptic.photon, Optic.step, hx]; rfl) rfl ?_
        refine rowIs_hit hp hn vals v3 v4 v5 v2 ?_ ?_ ?_ ?_ rfl ?_ ?_ <;> simp [ListOptic.keys, Ray.at]
      | filter m' f =>
        simp only [ListOptic.planar, Option.some.injEq] at hpl
        subst hpl
        simp only [ListOptic.outs] at v1
        cases hf : filterValue f p.energy with
        | error e => simp [hf] at v1
        | ok w =>
          simp only [hf, Except.ok.injEq] at v1
          subst v1
          refine done _ (by simp only [ListOptic.photon, Optic.step, hx, hf]; rfl) rfl ?_
          refine rowIs_hit hp hn _ v3 v4 v5 v2 ?_ ?_ ?_ ?_ rfl ?_ ?_ <;> simp [ListOptic.keys, Ray.at, Ray.times]
      | lens m' f dO refl =>
        simp only [ListOptic.planar, Option.some.injEq] at hpl
        subst hpl
        simp only [ListOptic.outs, Except.ok.injEq] at v1
        subst v1
        refine done _ (by simp only [ListOptic.photon, Optic.step, hx]; rfl) rfl ?_
        refine rowIs_hit hp hn _ v3 v4 v5 v2 ?_ ?_ ?_ ?_ rfl ?_ ?_ <;> simp [ListOptic.keys, Ray.at, Ray.times]
      | thin m' f => exact absurd rfl (hthin' m' f)
      | grating m' tr cat gr dd bm ord =>
        simp only [ListOptic.planar, Option.some.injEq] at hpl
        subst hpl
        simp only [ListOptic.outs, Except.ok.injEq] at v1
        subst v1
        refine done _ (by simp only [ListOptic.photon, Optic.step, hx]; rfl) rfl ?_
        refine rowIs_hit hp hn _ v3 v4 v5 v2 ?_ ?_ ?_ ?_ rfl ?_ ?_ <;> simp [ListOptic.keys, Ray.at, Ray.times]
      | mirror m' rs rp =>
        simp only [ListOptic.planar, Option.some.injEq] at hpl
        subst hpl
        simp only [ListOptic.outs] at v1
        cases hpol : p.pol with
        | none =>
          simp only [hpol, Except.ok.injEq] at v1
          subst v1
          refine done _ (by simp only [ListOptic.photon, Optic.step, hx, hpol]; rfl) rfl ?_
          refine rowIs_hit hp hn _ v3 v4 v5 v2 ?_ ?_ ?_ ?_ rfl ?_ ?_ <;> simp [ListOptic.keys, Ray.at, Ray.times, hpol]
        | some pol =>
          simp only [hpol] at v1
          cases hb : brewster m' (rs i) (rp i) d pol with
          | error e => simp [hb] at v1
          | ok out =>
            cases out with
            | none =>
              simp only [hb, Except.ok.injEq] at v1
              subst v1
              refine done _ (by simp only [ListOptic.photon, Optic.step, hx, hpol, hb]; rfl) rfl ?_
              refine rowIs_hit hp hn _ v3 v4 v5 v2 ?_ ?_ ?_ ?_ rfl ?_ ?_ <;> simp [ListOptic.keys, Ray.at, Ray.times]
            | some out =>
              simp only [hb, Except.ok.injEq] at v1
              subst v1
              refine done _ (by simp only [ListOptic.photon, Optic.step, hx, hpol, hb]; rfl) rfl ?_
              refine rowIs_hit hp hn _ v3 v4 v5 v2 ?_ ?_ ?_ ?_ rfl ?_ ?_ <;> simp [ListOptic.keys, Ray.at, Ray.times]
      | scatter m' a b =>
        simp only [ListOptic.planar, Option.some.injEq] at hpl
        subst hpl
        simp only [ListOptic.outs, Except.ok.injEq] at v1
        subst v1
        refine done _ (by simp only [ListOptic.photon, Optic.step, hx]; rfl) rfl ?_
        refine rowIs_hit hp hn _ v3 v4 v5 v2 ?_ ?_ ?_ ?_ rfl ?_ ?_ <;> simp [ListOptic.keys, Ray.at]
      | tube m' a b c' => simp [ListOptic.planar] at hpl
      | globalFilter f => simp [ListOptic.planar] at hpl
      | propagate s => simp [ListOptic.planar] at hpl

/-- One photon in a tube. -/
theorem tube_step {m : M4} {zoomz lim0 lim1 : ℝ} {c : ElemCols} (hc : c.Fine) {t t' : Table}
    (h : ((ListOptic.tube m zoomz lim0 lim1).elem c).call t = .ok t') (hdet : m.det ≠ 0) (hn : needColumns ⊆ t.names) {i : ℕ}
    {r r' : Row} (hr : t.rows[i]? = some r) (hok : dirColOk r)
    (hr' : t'.rows[i]? = some r') {p : Ray} (hp : RowIs t.names r p) :
    ∃ p', (Optic.tube m zoomz lim0 lim1).step p = .ok p' ∧ RowIs t'.names r' p' ∧
      ∀ d p0 q y z, p.dir = some d → p.pos = some p0 → cylIntersect m zoomz lim0 lim1 d p0 = .ok (some (q, y, z)) →
        p'.coos = p.coos ++ [(y, z)] ∧ ∀ a b, c.loc = some (a, b) → r' a = .num (some y) ∧ r' b = .num (some z) := by
  have miss : (ListOptic.tube m zoomz lim0 lim1).rowHit r = none → RowIs t'.names r' p := by
    intro hh
    obtain ⟨m1, m2⟩ := elem_miss hc h hr hr' hh
    exact rowIs_miss hp hn (elem_len h).2 m1 m2
  have hh : (ListOptic.tube m zoomz lim0 lim1).rowHit r = match p.dir, p.pos with
      | some d, some p => match cylIntersect m zoomz lim0 lim1 d p with
        | .ok h => h
        | .error _ => none
      | _, _ => none := by
    simp only [ListOptic.rowHit, hp.dir, hp.pos, toH4_vecCell]
    cases p.dir <;> cases p.pos <;> rfl
  cases hd : p.dir with
  | none =>
    rw [dirColOk, hp.dir, hd] at hok
    exact hok.elim
  | some d =>
    rw [dirColOk, hp.dir, hd] at hok
    have hw : d.w = 0 := hok
    cases hp0 : p.pos with
    | none =>
      refine ⟨p, by simp [Optic.step, hd, hp0, hw, hdet], miss (by rw [hh, hd, hp0]), by simp⟩
    | some p0 =>
      cases hcyl : cylIntersect m zoomz lim0 lim1 d p0 with
      | error e =>
        unfold cylIntersect at hcyl
        rw [if_neg (by simp [hw]), if_neg hdet] at hcyl
        simp only at hcyl
        split at hcyl <;> cases hcyl
      | ok x =>
        cases x with
        | none =>
          refine ⟨p, by simp [Optic.step, hd, hp0, hcyl], miss (by rw [hh, hd, hp0]; simp [hcyl]), ?_⟩
          intro d' p0' q' y' z' e1 e2 e3
          simp only [Option.some.injEq] at e1 e2
          subst e1 e2
          simp [hcyl] at e3
        | some x =>
          obtain ⟨q, y, z⟩ := x
          have hh' : (ListOptic.tube m zoomz lim0 lim1).rowHit r = some (q, y, z) := by rw [hh, hd, hp0]; simp [hcyl]
          obtain ⟨vals, v1, v2, v3, v4, v5, v6⟩ := elem_hit hc (by simp) h hr hr' hh'
          refine ⟨p.at q y z, by simp [Optic.step, hd, hp0, hcyl], ?_, ?_⟩
          · refine rowIs_hit hp hn vals v3 v4 v5 v2 ?_ ?_ ?_ ?_ rfl ?_ ?_ <;> simp [ListOptic.keys, Ray.at]
          · intro d' p0' q' y' z' e1 e2 e3
            simp only [Option.some.injEq] at e1 e2
            subst e1 e2
            rw [hcyl] at e3
            simp only [Except.ok.injEq, Option.some.injEq, Prod.mk.injEq] at e3
            obtain ⟨-, rfl, rfl⟩ := e3
            exact ⟨rfl, v6⟩

theorem sel_all {α : Type} : ∀ (rows : List Row) (l : List α), l.length = rows.length → sel (rows.map fun _ => true) l = l := by
  intro rows
  induction rows with
  | nil => intro l h; simp at h; simp [h, sel]
  | cons r rows ih => intro l h; cases l with
    | nil => simp at h
    | cons x l => simp only [List.length_cons, Nat.add_right_cancel_iff] at h; simp only [List.map_cons, sel, ih l h]

theorem mulMasked_keep {c : String} : ∀ (mask : List Bool) (rows : List Row) (vs : List Val) (rows' : List Row),
    mulMasked c mask rows vs = some rows' → ∀ (i : ℕ) (r r' : Row), rows[i]? = some r → rows'[i]? = some r' →
      ∀ n, n ≠ c → r' n = r n := by
  intro mask
  induction mask with
  | nil => intro rows vs rows' h i r r' hr hr'; simp only [mulMasked, Option.some.injEq] at h; subst h; simp_all
  | cons b ms ih =>
    intro rows vs rows' h i r r' hr hr' n hn
    cases rows with
    | nil => simp at hr
    | cons r0 rows =>
      cases b with
      | false =>
        simp only [mulMasked] at h
        cases hm : mulMasked c ms rows vs with
        | none => simp [hm] at h
        | some rest =>
          simp [hm] at h
          subst h
          cases i with
          | zero => simp_all
          | succ i => simp only [List.getElem?_cons_succ] at hr hr'; exact ih _ _ _ hm i r r' hr hr' n hn
      | true =>
        cases vs with
        | nil => simp only [mulMasked, Option.some.injEq] at h; subst h; simp_all
        | cons v vs =>
          simp only [mulMasked] at h
          cases hv : Val.mul (r0 c) v with
          | none => simp [hv] at h
          | some w =>
            cases hm : mulMasked c ms rows vs with
            | none => simp [hv, hm] at h
            | some rest =>
              simp [hv, hm] at h
              subst h
              cases i with
              | zero =>
                simp only [List.getElem?_cons_zero, Option.some.injEq] at hr hr'
                subst hr hr'
                simp [hn]
              | succ i => simp only [List.getElem?_cons_succ] at hr hr'; exact ih _ _ _ hm i r r' hr hr' n hn

theorem globalFilter_rows {f : ℝ → ℝ} {t t' : Table}
    (h : Marxs.globalFilter (fun l => .arr (l.map fun v => .num (v.real?.map f))) t = .ok t') :
    (∀ r ∈ t.rows, ¬ (Val.num ((r "energy").real?.map f)).OutOfRange) ∧ t'.names = t.names ∧
      mulMasked "probability" (t.rows.map fun _ => true) t.rows
        (sel (t.rows.map fun _ => true) (t.rows.map fun r => .num ((r "energy").real?.map f))) = some t'.rows := by
  unfold Marxs.globalFilter at h
  simp only [ColVal.toList, List.map_map] at h
  split at h
  · cases h
  rename_i h0
  split at h
  · cases h
  rw [sel_all _ _ (by simp)]
  simp only [ColVal.expand, List.length_map, if_true, bind, Except.bind, Function.comp_def] at h
  split at h
  · rename_i rows hrows
    cases h
    refine ⟨fun r hr hx => h0 ⟨_, List.mem_map.2 ⟨r, hr, rfl⟩, hx⟩, rfl, hrows⟩
  · cases h

theorem globalFilter_step {f : ℝ → ℝ} {t t' : Table}
    (h : Marxs.globalFilter (fun l => .arr (l.map fun v => .num (v.real?.map f))) t = .ok t') {i : ℕ}
    {r r' : Row} (hr : t.rows[i]? = some r) (hr' : t'.rows[i]? = some r') {p : Ray} (hp : RowIs t.names r p) :
    ∃ p', (Optic.globalFilter f).step p = .ok p' ∧ RowIs t'.names r' p' := by
  obtain ⟨h1, h2, h3⟩ := globalFilter_rows h
  obtain ⟨v, e1, e2⟩ := mul_at _ _ _ _ "probability" i r r' (by simp) (by simp) (by rw [List.getElem?_map, hr]; rfl) h3 hr hr'
  have keep := mulMasked_keep _ _ _ _ h3 i r r' hr hr'
  rw [List.getElem?_map, hr, Option.map_some, Option.some.injEq] at e1
  subst e1
  have ho := h1 r (List.mem_of_getElem? hr)
  simp only [hp.energy, Val.real?, Option.map_some, Val.OutOfRange] at ho e2
  have hf : filterValue f p.energy = .ok (f p.energy) := by simp only [filterValue, if_neg ho]
  refine ⟨p.times (some (f p.energy)), by simp only [Optic.step, hf], ?_⟩
  rw [h2]
  rw [hp.prob] at e2
  exact ⟨by rw [keep _ (by decide)]; exact hp.pos, by rw [keep _ (by decide)]; exact hp.dir,
    by rw [keep _ (by decide)]; exact hp.pol, times_cell e2, by rw [keep _ (by decide)]; exact hp.energy,
    fun hx => by rw [keep _ (by decide)]; exact hp.order hx, hp.noOrder,
    fun hx => by rw [keep _ (by decide)]; exact hp.blaze hx, hp.noBlaze⟩

theorem axpy_cell (s : ℝ) (p d : Option H4) : Val.axpy s (vecCell p) (vecCell d) = vecCell (match d, p with
    | some d, some p => some (p + s • d)
    | _, _ => none) := by
  cases p <;> cases d <;> simp [Val.axpy, vecCell]

theorem propagateTab_step {s : ℝ} {t t' : Table} (h : propagateTab s t = .ok t') {i : ℕ}
    {r r' : Row} (hr : t.rows[i]? = some r) (hr' : t'.rows[i]? = some r') {p : Ray} (hp : RowIs t.names r p) :
    t'.names = t.names ∧ ∃ p', (Optic.propagate s).step p = .ok p' ∧ RowIs t'.names r' p' := by
  unfold propagateTab at h
  split at h
  · cases h
  rename_i hn
  unfold Table.setVals at h
  rw [if_pos (by simp)] at h
  push Not at hn
  rw [if_pos hn.2] at h
  cases h
  simp only [List.getElem?_zipWith, List.getElem?_map, hr, Option.map_some, Option.some.injEq] at hr'
  subst hr'
  refine ⟨rfl, _, rfl, ?_⟩
  refine ⟨?_, by simp [hp.dir], by simp [hp.pol], by simp [hp.prob], by simp [hp.energy],
    fun hx => by simpa using hp.order hx, hp.noOrder, fun hx => by simpa using hp.blaze hx, hp.noBlaze⟩
  simp only [Function.update_self, hp.pos, hp.dir, axpy_cell]
  cases p.dir <;> cases p.pos <;> rfl

theorem planar_call {o : ListOptic} {m : M4} (hpl : o.planar = some m) {c : ElemCols} {t t' : Table}
    (h : o.call c t = .ok t') : (o.elem c).call t = .ok t' := by
  cases o <;> simp only [ListOptic.planar, reduceCtorEq] at hpl <;> simp only [ListOptic.call] at h <;> split at h <;>
    first | cases h; done | exact h

theorem call_step {o : ListOptic} {c : ElemCols} (hc : c.Fine) {t t' : Table} (h : o.call c t = .ok t')
    (hn : needColumns ⊆ t.names) {i : ℕ} {r r' : Row} (hr : t.rows[i]? = some r) (hr' : t'.rows[i]? = some r') {p : Ray}
    (hp : RowIs t.names r p) :
    ∃ p', (o.photon i).step p = .ok p' ∧ RowIs t'.names r' p' ∧
      ∀ y z, hitCoos (o.photon i) p = some (y, z) → p'.coos = p.coos ++ [(y, z)] ∧
        ∀ a b, c.loc = some (a, b) → r' a = .num (some y) ∧ r' b = .num (some z) := by
  cases hpl : o.planar with
  | some m =>
    obtain ⟨p', e1, e2, e3⟩ := planar_step hpl hc (planar_call hpl h) hn hr hr' hp
    refine ⟨p', e1, e2, fun y z hyz => ?_⟩
    have hx : (p.hit m).map (fun x => (x.2.2.1, x.2.2.2.1)) = some (y, z) := by
      cases o <;> simp only [ListOptic.planar, Option.some.injEq, reduceCtorEq] at hpl <;> subst hpl <;> exact hyz
    obtain ⟨x, x1, x2⟩ := Option.map_eq_some_iff.1 hx
    cases x2
    exact e3 x x1
  | none =>
    cases o with
    | tube m zoomz lim0 lim1 =>
      simp only [ListOptic.call] at h
      split at h
      · cases h
      split at h
      · cases h
      rename_i hok
      split at h
      · cases h
      rename_i hdet
      push Not at hok
      obtain ⟨p', e1, e2, e3⟩ := tube_step hc h hdet hn hr (hok r (List.mem_of_getElem? hr)) hr' hp
      refine ⟨p', e1, e2, fun y z hyz => ?_⟩
      simp only [ListOptic.photon, hitCoos] at hyz
      split at hyz
      · rename_i d q hd hq
        split at hyz
        · rename_i a y' z' hcyl
          cases hyz
          exact e3 d q a y z hd hq hcyl
        · cases hyz
      · cases hyz
    | globalFilter f =>
      obtain ⟨p', e1, e2⟩ := globalFilter_step h hr hr' hp
      exact ⟨p', e1, e2, by simp [ListOptic.photon, hitCoos]⟩
    | propagate s =>
      obtain ⟨-, p', e1, e2⟩ := propagateTab_step h hr hr' hp
      exact ⟨p', e1, e2, by simp [ListOptic.photon, hitCoos]⟩
    | _ => simp [ListOptic.planar] at hpl

theorem call_len {o : ListOptic} {c : ElemCols} {t t' : Table} (h : o.call c t = .ok t') :
    t'.rows.length = t.rows.length ∧ t.names ⊆ t'.names := by
  cases hpl : o.planar with
  | some m => exact elem_len (planar_call hpl h)
  | none =>
    cases o with
    | tube m zoomz lim0 lim1 =>
      simp only [ListOptic.call] at h
      split at h
      · cases h
      split at h
      · cases h
      split at h
      · cases h
      exact elem_len h
    | globalFilter f =>
      obtain ⟨-, h2, h3⟩ := globalFilter_rows h
      exact ⟨mulMasked_length h3, by rw [h2]; exact fun _ => id⟩
    | propagate s =>
      simp only [ListOptic.call, propagateTab] at h
      split at h
      · cases h
      rename_i hn
      push Not at hn
      unfold Table.setVals at h
      rw [if_pos (by simp), if_pos hn.2] at h
      cases h
      exact ⟨by simp, fun _ => id⟩
    | _ => simp [ListOptic.planar] at hpl

/-- **C163** (one element) -/
theorem C163_element (o : ListOptic) (c : ElemCols) (hc : c.Fine) (t t' : Table) (h : o.call c t = .ok t') (ps : List Ray)
    (hps : PhotonsOf t ps) :
    ∃ ps', PhotonsOf t' ps' ∧ ∀ (i : ℕ) (p : Ray), ps[i]? = some p → ∃ p', ps'[i]? = some p' ∧ (o.photon i).step p = .ok p' ∧
      ∀ y z, hitCoos (o.photon i) p = some (y, z) → p'.coos = p.coos ++ [(y, z)] ∧
        ∀ a b r', c.loc = some (a, b) → t'.rows[i]? = some r' → r' a = .num (some y) ∧ r' b = .num (some z) := by
  obtain ⟨hn, hall⟩ := hps
  obtain ⟨hlen, hsub⟩ := call_len h
  have hl := hall.length_eq
  set ps' : List Ray := ps.zipIdx.map fun x => okOr x.1 ((o.photon x.2).step x.1) with hps'
  have key : ∀ (i : ℕ) (p : Ray), ps[i]? = some p → ∃ r r', t.rows[i]? = some r ∧ t'.rows[i]? = some r' ∧ RowIs t.names r p := by
    intro i p hp
    have hlt : i < ps.length := (List.getElem?_eq_some_iff.1 hp).1
    have hlt1 : i < t.rows.length := by rw [hl]; exact hlt
    have hlt2 : i < t'.rows.length := by rw [hlen]; exact hlt1
    refine ⟨_, _, List.getElem?_eq_getElem hlt1, List.getElem?_eq_getElem hlt2, ?_⟩
    have := (List.forall₂_iff_get.1 hall).2 i hlt1 hlt
    simp only [List.get_eq_getElem] at this
    rwa [(List.getElem?_eq_some_iff.1 hp).2] at this
  have at' : ∀ (i : ℕ) (p : Ray), ps[i]? = some p → ps'[i]? = some (okOr p ((o.photon i).step p)) := by
    intro i p hp
    rw [hps', List.getElem?_map, List.getElem?_zipIdx, hp]
    simp
  refine ⟨ps', ⟨fun n hx => hsub (hn hx), ?_⟩, ?_⟩
  · refine List.forall₂_iff_get.2 ⟨by rw [hps', List.length_map, List.length_zipIdx, ← hl, hlen], fun i h1 h2 => ?_⟩
    have hi : i < ps.length := by simpa [hps'] using h2
    obtain ⟨r, r', e1, e2, e3⟩ := key i _ (List.getElem?_eq_getElem hi)
    obtain ⟨p', s1, s2, -⟩ := call_step hc h hn e1 e2 e3
    have := at' i _ (List.getElem?_eq_getElem hi)
    rw [s1] at this
    simp only [List.get_eq_getElem]
    rw [(List.getElem?_eq_some_iff.1 e2).2, (List.getElem?_eq_some_iff.1 this).2]
    exact s2
  · intro i p hp
    obtain ⟨r, r', e1, e2, e3⟩ := key i p hp
    obtain ⟨p', s1, s2, s3⟩ := call_step hc h hn e1 e2 e3
    refine ⟨p', by rw [at' i p hp, s1]; rfl, s1, fun y z hyz => ⟨(s3 y z hyz).1, fun a b r2 hab hr2 => ?_⟩⟩
    rw [e2] at hr2
    cases hr2
    exact (s3 y z hyz).2 a b hab

/-- **C163** -/
theorem C163_list (os : List (ListOptic × ElemCols)) (hc : ∀ o ∈ os, o.2.Fine) (t t' : Table) (h : runList os t = .ok t')
    (ps : List Ray) (hps : PhotonsOf t ps) :
    ∃ ps', PhotonsOf t' ps' ∧ ps'.length = ps.length ∧ ∀ (i : ℕ) (p : Ray), ps[i]? = some p →
      ∃ p', ps'[i]? = some p' ∧ runOptics (os.map fun o => o.1.photon i) p = .ok p' := by
  induction os generalizing t ps with
  | nil =>
    cases h
    exact ⟨ps, hps, rfl, fun i p hp => ⟨p, hp, rfl⟩⟩
  | cons o os ih =>
    simp only [runList] at h
    split at h
    · cases h
    rename_i t1 h1
    obtain ⟨ps1, a1, a2⟩ := C163_element o.1 o.2 (hc o (by simp)) t t1 h1 ps hps
    obtain ⟨ps2, b1, b2, b3⟩ := ih (fun o ho => hc o (by simp [ho])) t1 h ps1 a1
    have hlen : ps1.length = ps.length := by
      rw [← a1.2.length_eq, ← hps.2.length_eq, (call_len h1).1]
    refine ⟨ps2, b1, by rw [b2, hlen], fun i p hp => ?_⟩
    obtain ⟨p1, c1, c2, -⟩ := a2 i p hp
    obtain ⟨p2, d1, d2⟩ := b3 i p1 c1
    exact ⟨p2, d1, by simp only [List.map_cons, runOptics, c2, d2]⟩

theorem rowIs_numProb {t : Table} {ps : List Ray} (h : PhotonsOf t ps) : NumProb t := by
  intro r hr
  obtain ⟨k, hk, rfl⟩ := List.mem_iff_getElem.1 hr
  have hk2 : k < ps.length := by rw [← h.2.length_eq]; exact hk
  have := (List.forall₂_iff_get.1 h.2).2 k hk hk2
  exact ⟨_, this.prob⟩

theorem photon_at {t : Table} {ps : List Ray} (h : PhotonsOf t ps) {i : ℕ} {r : Row} (hr : t.rows[i]? = some r) :
    ∃ p, ps[i]? = some p ∧ RowIs t.names r p := by
  obtain ⟨hk, rfl⟩ := List.getElem?_eq_some_iff.1 hr
  have hk2 : i < ps.length := by rw [← h.2.length_eq]; exact hk
  exact ⟨_, List.getElem?_eq_getElem hk2, (List.forall₂_iff_get.1 h.2).2 i hk hk2⟩

/-- The calculation for a photon that hits succeeds, with a probability in range. -/
theorem outs_runs {o : ListOptic} {m : M4} (hpl : o.planar = some m) (hthin : ∀ m f, o ≠ .thin m f) {i : ℕ}
    (hs : (o.photon i).Sensible) {p p' : Ray} (h : (o.photon i).step p = .ok p') {d q p0 : H4} {y z : ℝ}
    (hx : p.hit m = some (d, q, y, z, p0)) :
    ∃ vals, o.outs i d p0 p.pol p.energy q y z = .ok vals ∧
      ("probability" ∈ o.keys → ¬ (vals "probability").OutOfRange ∧ ∃ x, vals "probability" = .num x) := by
  cases o with
  | plane m' => exact ⟨_, rfl, by simp [ListOptic.keys]⟩
  | filter m' f =>
    simp only [ListOptic.planar, Option.some.injEq] at hpl
    subst hpl
    simp only [ListOptic.photon, Optic.step, hx] at h
    cases hf : filterValue f p.energy with
    | error e => simp [hf] at h
    | ok v =>
      refine ⟨_, by simp only [ListOptic.outs, hf]; rfl, fun _ => ⟨?_, _, rfl⟩⟩
      simp only [filterValue] at hf
      split_ifs at hf with hr
      cases hf
      simpa [Val.OutOfRange] using hr
  | lens m' f dO refl =>
    refine ⟨_, rfl, fun _ => ⟨?_, _, rfl⟩⟩
    simp only [String.reduceEq, if_false]
    cases hl : perfectLens m' f dO refl d ⟨0, 0, 0, 0⟩ q p.energy with
    | none => simp [Val.OutOfRange]
    | some out =>
      simp only [Option.map_some, Val.OutOfRange]
      unfold perfectLens at hl
      simp only at hl
      split_ifs at hl
      cases hl
      obtain ⟨h0, h1⟩ := hs.2 p.energy (Real.arccos |(focusPoint m' f dO d.xyz - q.xyz).unit.dot d.xyz.unit| / 4)
      simp only [not_or, not_lt]
      exact ⟨sq_nonneg _, pow_le_one₀ h0 h1⟩
  | thin m' f => exact absurd rfl (hthin m' f)
  | grating m' tr cat gr dd bm ord =>
    refine ⟨_, rfl, fun _ => ⟨?_, _, rfl⟩⟩
    simp only [String.reduceEq, if_false, if_true, Val.OutOfRange]
    obtain ⟨b, hb⟩ : ∃ b, ((planeGrating m' tr cat gr dd bm (ord i)).diffract d ⟨0, 0, 0, 0⟩ p.energy (y, z)).prob = (ord i p.energy b).2 := by
      unfold Grating.diffract
      simp only
      split
      · exact ⟨none, rfl⟩
      · exact ⟨_, rfl⟩
    rw [hb]
    have := hs.2 p.energy b
    simp only [not_or, not_lt]
    exact this
  | mirror m' rs rp =>
    simp only [ListOptic.planar, Option.some.injEq] at hpl
    subst hpl
    cases hpol : p.pol with
    | none => exact ⟨_, rfl, fun _ => ⟨by simp [Val.OutOfRange], by simp⟩⟩
    | some pol =>
      simp only [ListOptic.photon, Optic.step, hx, hpol] at h
      simp only [ListOptic.outs]
      cases hb : brewster m' (rs i) (rp i) d pol with
      | error e => simp [hb] at h
      | ok out =>
        cases out with
        | none => exact ⟨_, rfl, fun _ => ⟨by simp [Val.OutOfRange], by simp⟩⟩
        | some out =>
          refine ⟨_, rfl, fun _ => ⟨?_, by simp⟩⟩
          simp only [String.reduceEq, if_false, if_true, Val.OutOfRange]
          unfold brewster at hb
          simp only at hb
          split_ifs at hb
          all_goals cases hb
          all_goals simp only [not_or, not_lt]; exact ⟨le_min (le_max_right _ _) zero_le_one, min_le_right _ _⟩
  | scatter m' a b => exact ⟨_, rfl, by simp [ListOptic.keys]⟩
  | tube m' a b c' => simp [ListOptic.planar] at hpl
  | globalFilter f => simp [ListOptic.planar] at hpl
  | propagate s => simp [ListOptic.planar] at hpl

theorem call_runs {o : ListOptic} {c : ElemCols} (hc : c.Fine) (hloc : c.loc ≠ none)
    (hs : ∀ i, (o.photon i).Sensible ∧ (o.photon i).IsPlaced) {t : Table} {ps : List Ray} (hps : PhotonsOf t ps)
    (h : ∀ (i : ℕ) (p : Ray), ps[i]? = some p → ∃ p', (o.photon i).step p = .ok p') : ∃ t', o.call c t = .ok t' := by
  have hp := rowIs_numProb hps
  have hn := hps.1
  obtain ⟨⟨a, b⟩, hab⟩ := Option.ne_none_iff_exists'.1 hloc
  have hdp : ¬ ("dir" ∉ t.names ∨ "pos" ∉ t.names) := by
    simp only [not_or, not_not]
    exact ⟨hn (by simp [needColumns]), hn (by simp [needColumns])⟩
  cases hpl : o.planar with
  | some m =>
    have main : ∃ t', (o.elem c).call t = .ok t' := by
      by_cases hthin : ∃ m f, o = .thin m f
      · obtain ⟨m', f, rfl⟩ := hthin
        exact thin_runs hab hp hn
      · have hthin' : ∀ m f, o ≠ .thin m f := fun m f e => hthin ⟨m, f, e⟩
        refine elem_runs hc hthin' hab hp hn fun i r q y z hr hq => ?_
        obtain ⟨p, hp1, hp2⟩ := photon_at hps hr
        obtain ⟨p', hp'⟩ := h i p hp1
        rw [rowHit_planar hpl hp2] at hq
        obtain ⟨⟨d, q', y', z', p0⟩, hx, e⟩ := Option.map_eq_some_iff.1 hq
        cases e
        obtain ⟨hd, hp0, -⟩ := hit_some hx
        rw [rowOuts_is hp2 hd hp0]
        exact outs_runs hpl hthin' (hs i).1 hp' hx
    obtain ⟨t', ht'⟩ := main
    refine ⟨t', ?_⟩
    cases o <;> simp only [ListOptic.planar, reduceCtorEq] at hpl <;> simp only [ListOptic.call, if_neg hdp] <;> exact ht'
  | none =>
    cases o with
    | tube m zoomz lim0 lim1 =>
      have hdet : m.det ≠ 0 := (hs 0).2.2
      have hok : ¬ ∃ r ∈ t.rows, ¬ dirColOk r := by
        rintro ⟨r, hr, hbad⟩
        obtain ⟨i, hi⟩ := List.mem_iff_getElem?.1 hr
        obtain ⟨p, hp1, hp2⟩ := photon_at hps hi
        obtain ⟨p', hp'⟩ := h i p hp1
        apply hbad
        simp only [ListOptic.photon, Optic.step] at hp'
        unfold dirColOk
        rw [hp2.dir]
        split at hp'
        · rename_i d p0 hd hp0
          rw [hd]
          show d.w = 0
          by_contra hw
          unfold cylIntersect at hp'
          rw [if_pos hw] at hp'
          cases hp'
        · rename_i d hd hp0
          rw [hd]
          show d.w = 0
          split_ifs at hp' with hw
          push Not at hw
          exact hw.1
        · cases hp'
      simp only [ListOptic.call, if_neg hdp, if_neg hok, if_neg hdet]
      refine elem_runs hc (by simp) hab hp hn fun i r q y z hr hq => ?_
      obtain ⟨p, hp1, hp2⟩ := photon_at hps hr
      simp only [ListOptic.rowHit, hp2.dir, hp2.pos, toH4_vecCell] at hq
      split at hq
      · rename_i d p0 hd hp0
        rw [rowOuts_is hp2 hd hp0]
        exact ⟨_, rfl, by simp [ListOptic.keys]⟩
      · cases hq
    | globalFilter f =>
      simp only [ListOptic.call, Marxs.globalFilter]
      have h1 : ¬ ∃ v ∈ (ColVal.arr ((t.rows.map (· "energy")).map fun v => .num (v.real?.map f))).toList, v.OutOfRange := by
        rintro ⟨v, hv, hbad⟩
        simp only [ColVal.toList, List.map_map] at hv
        obtain ⟨r, hr, rfl⟩ := List.mem_map.1 hv
        obtain ⟨i, hi⟩ := List.mem_iff_getElem?.1 hr
        obtain ⟨p, hp1, hp2⟩ := photon_at hps hi
        obtain ⟨p', hp'⟩ := h i p hp1
        simp only [ListOptic.photon, Optic.step] at hp'
        simp only [Function.comp_apply, hp2.energy, Val.real?, Option.map_some, Val.OutOfRange] at hbad
        simp only [filterValue, if_pos hbad] at hp'
        cases hp'
      rw [if_neg h1, if_neg (by simpa using hn (by simp [needColumns]))]
      obtain ⟨rows, e1, -⟩ := mulMasked_runs (t.rows.map fun _ => true) t.rows
        ((t.rows.map (· "energy")).map fun v => .num (v.real?.map f)) hp (by
          intro v hv
          obtain ⟨w, -, rfl⟩ := List.mem_map.1 hv
          exact ⟨_, rfl⟩)
      refine ⟨{ t with rows := rows }, ?_⟩
      simp only [ColVal.expand, List.length_map, if_true, bind, Except.bind, e1]
    | propagate s =>
      simp only [ListOptic.call, propagateTab, if_neg hdp, Table.setVals]
      rw [if_pos (by simp)]
      exact ⟨_, rfl⟩
    | _ => simp [ListOptic.planar] at hpl

/-- **C163** What happens to a photon does not depend on the other photons in the list, nor on its place in the list. -/
theorem C163_independent (os : List (ListOptic × ElemCols)) (hc : ∀ o ∈ os, o.2.Fine) (t t' u u' : Table)
    (h : runList os t = .ok t') (h' : runList os u = .ok u') (ps qs : List Ray) (hps : PhotonsOf t ps) (hqs : PhotonsOf u qs)
    (i j : ℕ) (p : Ray) (hi : ps[i]? = some p) (hj : qs[j]? = some p)
    (hrandom : ∀ o ∈ os, o.1.photon i = o.1.photon j) :
    ∃ p' r r', t'.rows[i]? = some r ∧ u'.rows[j]? = some r' ∧ RowIs t'.names r p' ∧ RowIs u'.names r' p' := by
  obtain ⟨ps', a1, a2, a3⟩ := C163_list os hc t t' h ps hps
  obtain ⟨qs', b1, b2, b3⟩ := C163_list os hc u u' h' qs hqs
  obtain ⟨p', e1, e2⟩ := a3 i p hi
  obtain ⟨q', f1, f2⟩ := b3 j p hj
  have hmap : (os.map fun o => o.1.photon i) = os.map fun o => o.1.photon j := List.map_congr_left hrandom
  rw [hmap, f2] at e2
  cases e2
  have li : i < t'.rows.length := by rw [a1.2.length_eq]; exact (List.getElem?_eq_some_iff.1 e1).1
  have lj : j < u'.rows.length := by rw [b1.2.length_eq]; exact (List.getElem?_eq_some_iff.1 f1).1
  obtain ⟨x, x1, x2⟩ := photon_at a1 (List.getElem?_eq_getElem li)
  obtain ⟨y, y1, y2⟩ := photon_at b1 (List.getElem?_eq_getElem lj)
  rw [e1] at x1
  rw [f1] at y1
  cases x1
  cases y1
  exact ⟨_, _, _, List.getElem?_eq_getElem li, List.getElem?_eq_getElem lj, x2, y2⟩

/-- **C163** A list can be followed through the elements exactly if this can be done for each of its photons. -/
theorem C163_runs (os : List (ListOptic × ElemCols)) (hc : ∀ o ∈ os, o.2.Fine ∧ o.2.loc ≠ none)
    (hs : ∀ o ∈ os, ∀ i, (o.1.photon i).Sensible ∧ (o.1.photon i).IsPlaced) (t : Table) (ps : List Ray) (hps : PhotonsOf t ps) :
    (∃ t', runList os t = .ok t') ↔
      ∀ (i : ℕ) (p : Ray), ps[i]? = some p → ∃ p', runOptics (os.map fun o => o.1.photon i) p = .ok p' := by
  constructor
  · rintro ⟨t', h⟩ i p hp
    obtain ⟨ps', -, -, h3⟩ := C163_list os (fun o ho => (hc o ho).1) t t' h ps hps
    obtain ⟨p', -, e⟩ := h3 i p hp
    exact ⟨p', e⟩
  · intro h
    induction os generalizing t ps with
    | nil => exact ⟨t, rfl⟩
    | cons o os ih =>
      have hstep : ∀ (i : ℕ) (p : Ray), ps[i]? = some p → ∃ p', (o.1.photon i).step p = .ok p' := by
        intro i p hp
        obtain ⟨p', hp'⟩ := h i p hp
        simp only [List.map_cons, runOptics] at hp'
        split at hp'
        · cases hp'
        · rename_i p1 h1; exact ⟨p1, h1⟩
      obtain ⟨t1, h1⟩ := call_runs (hc o (by simp)).1 (hc o (by simp)).2 (hs o (by simp)) hps hstep
      obtain ⟨ps1, a1, a2⟩ := C163_element o.1 o.2 (hc o (by simp)).1 t t1 h1 ps hps
      obtain ⟨t2, h2⟩ := ih (fun o ho => hc o (by simp [ho])) (fun o ho => hs o (by simp [ho])) t1 ps1 a1 (by
        intro i p1 hp1
        have hlt : i < ps.length := by
          rw [← hps.2.length_eq, ← (call_len h1).1, a1.2.length_eq]
          exact (List.getElem?_eq_some_iff.1 hp1).1
        obtain ⟨p1', b1, b2, -⟩ := a2 i _ (List.getElem?_eq_getElem hlt)
        rw [hp1] at b1
        cases b1
        obtain ⟨p', hp'⟩ := h i _ (List.getElem?_eq_getElem hlt)
        simp only [List.map_cons, runOptics, b2] at hp'
        exact ⟨p', hp'⟩)
      exact ⟨t2, by simp only [runList, h1, h2]⟩

/-- **C163** (lifted from C158) All photons of a list stay physical. -/
theorem C163_physical (os : List (ListOptic × ElemCols)) (hc : ∀ o ∈ os, o.2.Fine) (hs : ∀ o ∈ os, ∀ i, (o.1.photon i).Sensible)
    (t t' : Table) (h : runList os t = .ok t') (eps : ℝ) (h0 : 0 ≤ eps) (ps : List Ray) (hps : PhotonsOf t ps)
    (hph : ∀ p ∈ ps, p.Physical eps) :
    ∃ ps', PhotonsOf t' ps' ∧ List.Forall₂ (fun p p' => p'.Physical (eps + os.length * (1 / 10 ^ 8)) ∧ ProbDown p p' ∧
      p'.energy = p.energy) ps ps' := by
  obtain ⟨ps', h1, h2, h3⟩ := C163_list os hc t t' h ps hps
  refine ⟨ps', h1, List.forall₂_iff_get.2 ⟨h2.symm, fun i hi hi' => ?_⟩⟩
  obtain ⟨p', e1, e2⟩ := h3 i _ (List.getElem?_eq_getElem hi)
  have := C158_sequence (os.map fun o => o.1.photon i) (by
    intro o ho
    obtain ⟨x, hx, rfl⟩ := List.mem_map.1 ho
    exact hs x hx i) eps h0 _ p' (hph _ (List.getElem_mem hi)) e2
  simp only [List.length_map] at this
  simp only [List.get_eq_getElem, (List.getElem?_eq_some_iff.1 e1).2]
  exact this

/-- **C163** (lifted from C157) An instrument that is moved together with all photons of a list gives the moved list. -/
theorem C163_moved (g : Motion) (os : List (ListOptic × ElemCols)) (hc : ∀ o ∈ os, o.2.Fine)
    (hs : ∀ o ∈ os, ∀ i, (o.1.photon i).IsPlaced) (t t' u u' : Table) (ps : List Ray) (hps : PhotonsOf t ps)
    (hwf : ∀ p ∈ ps, p.WellFormed) (hu : PhotonsOf u (ps.map g.actRay)) (h : runList os t = .ok t')
    (h' : runList (os.map fun o => (g.actList o.1, o.2)) u = .ok u') :
    ∃ ps', PhotonsOf t' ps' ∧ PhotonsOf u' (ps'.map g.actRay) := by
  obtain ⟨ps', h1, h2, h3⟩ := C163_list os hc t t' h ps hps
  obtain ⟨qs', k1, k2, k3⟩ := C163_list (os.map fun o => (g.actList o.1, o.2)) (by
    intro o ho
    obtain ⟨x, hx, rfl⟩ := List.mem_map.1 ho
    exact hc x hx) u u' h' _ hu
  refine ⟨ps', h1, ?_⟩
  have : qs' = ps'.map g.actRay := by
    refine List.ext_getElem? fun i => ?_
    by_cases hi : i < ps.length
    · obtain ⟨p', e1, e2⟩ := h3 i _ (List.getElem?_eq_getElem hi)
      obtain ⟨q', f1, f2⟩ := k3 i (g.actRay ps[i]) (by rw [List.getElem?_map, List.getElem?_eq_getElem hi]; rfl)
      rw [List.getElem?_map, e1, f1]
      have hmap : (os.map fun o => (g.actList o.1, o.2)).map (fun o => o.1.photon i) =
          (os.map fun o => o.1.photon i).map g.actOptic := by
        simp only [List.map_map]
        refine List.map_congr_left fun o _ => ?_
        obtain ⟨o, c⟩ := o
        cases o <;> rfl
      rw [hmap, C157_sequence g _ (by
        intro o ho
        obtain ⟨x, hx, rfl⟩ := List.mem_map.1 ho
        exact hs x hx i) _ (hwf _ (List.getElem_mem hi)), e2] at f2
      simp only [Except.map, Except.ok.injEq] at f2
      rw [← f2]
      rfl
    · rw [List.getElem?_eq_none (by rw [k2, List.length_map]; omega), List.getElem?_eq_none (by rw [List.length_map, h2]; omega)]
  rw [← this]
  exact k1

/-- **C164** A single photon whose direction is NaN, e.g. after a grating with a period that is too small for its order, is
enough to stop the simulation for all others at the next `CircularDetector`. -/
theorem C164_lost_photon_false (A : List (ListOptic × ElemCols)) (hA : ∀ o ∈ A, o.2.Fine) (m : M4) (zoomz lim0 lim1 : ℝ)
    (c : ElemCols) (B : List (ListOptic × ElemCols)) (t : Table) (ps : List Ray) (hps : PhotonsOf t ps) (i : ℕ) (p p' : Ray)
    (hp : ps[i]? = some p) (h : runOptics (A.map fun o => o.1.photon i) p = .ok p') (hlost : p'.dir = none) :
    ∀ t', runList (A ++ (.tube m zoomz lim0 lim1, c) :: B) t ≠ .ok t' := by
  intro t' hrun
  have split : ∀ (A C : List (ListOptic × ElemCols)) (t : Table), runList (A ++ C) t = .ok t' →
      ∃ t1, runList A t = .ok t1 ∧ runList C t1 = .ok t' := by
    intro A C
    induction A with
    | nil => intro t h; exact ⟨t, rfl, h⟩
    | cons a A ih =>
      intro t h
      simp only [List.cons_append, runList] at h
      split at h
      · cases h
      · rename_i t1 h1
        obtain ⟨t2, e1, e2⟩ := ih t1 h
        exact ⟨t2, by simp only [runList, h1, e1], e2⟩
  obtain ⟨t1, h1, h2⟩ := split A _ t hrun
  obtain ⟨ps1, a1, -, a3⟩ := C163_list A hA t t1 h1 ps hps
  obtain ⟨p1, b1, b2⟩ := a3 i p hp
  rw [h] at b2
  cases b2
  have hi : i < t1.rows.length := by rw [a1.2.length_eq]; exact (List.getElem?_eq_some_iff.1 b1).1
  obtain ⟨q, e1, e2⟩ := photon_at a1 (List.getElem?_eq_getElem hi)
  rw [b1] at e1
  cases e1
  have hbad : ∃ r ∈ t1.rows, ¬ dirColOk r := by
    refine ⟨_, List.getElem_mem hi, ?_⟩
    rw [dirColOk, e2.dir, hlost]
    exact id
  simp only [runList, ListOptic.call, if_pos hbad] at h2
  split at h2
  · cases h2
  · rename_i hh
    split at hh <;> cases hh

theorem lost_runs (os : List Optic) (hnt : ∀ o ∈ os, ∀ m a b c, o ≠ .tube m a b c)
    (hf : ∀ o ∈ os, ∀ f, o = .globalFilter f → ∀ e, 0 ≤ f e ∧ f e ≤ 1) (p : Ray) (hp : p.dir = none) :
    ∃ p', runOptics os p = .ok p' ∧ p'.dir = none ∧ p'.pol = p.pol ∧ p'.coos = p.coos ∧ p'.order = p.order := by
  induction os generalizing p with
  | nil => exact ⟨p, rfl, hp, rfl, rfl, rfl⟩
  | cons o os ih =>
    have hh : ∀ m, p.hit m = none := by intro m; simp [Ray.hit, hp]
    obtain ⟨q, h1, h2, h3, h4, h5⟩ : ∃ q, o.step p = .ok q ∧ q.dir = none ∧ q.pol = p.pol ∧ q.coos = p.coos ∧ q.order = p.order := by
      cases o with
      | tube m a b c => exact absurd rfl (hnt _ (by simp) m a b c)
      | globalFilter f =>
        have := hf _ (by simp) f rfl p.energy
        have hv : filterValue f p.energy = .ok (f p.energy) := by
          rw [filterValue, if_neg]
          push Not
          exact this
        exact ⟨p.times (some (f p.energy)), by simp only [Optic.step, hv], hp, rfl, rfl, rfl⟩
      | propagate s => exact ⟨_, rfl, hp, rfl, rfl, rfl⟩
      | _ => exact ⟨p, by simp only [Optic.step, hh], hp, rfl, rfl, rfl⟩
    obtain ⟨p', k1, k2, k3, k4, k5⟩ := ih (fun o ho => hnt o (by simp [ho])) (fun o ho => hf o (by simp [ho])) q h2
    exact ⟨p', by simp only [runOptics, h1, k1], k2, by rw [k3, h3], by rw [k4, h4], by rw [k5, h5]⟩

/-- **C164** (partial: instruments without `CircularDetector`) Photons whose direction is NaN do not stop the simulation for
the others: whether a list can be followed depends only on the photons that still fly. -/
theorem C164_lost_photon_partial (os : List (ListOptic × ElemCols)) (hc : ∀ o ∈ os, o.2.Fine ∧ o.2.loc ≠ none)
    (hs : ∀ o ∈ os, ∀ i, (o.1.photon i).Sensible ∧ (o.1.photon i).IsPlaced)
    (hnt : ∀ o ∈ os, ∀ m a b c, o.1 ≠ .tube m a b c)
    (hf : ∀ o ∈ os, ∀ f, o.1 = .globalFilter f → ∀ e, 0 ≤ f e ∧ f e ≤ 1)
    (t : Table) (ps : List Ray) (hps : PhotonsOf t ps) :
    (∃ t', runList os t = .ok t') ↔
      ∀ (i : ℕ) (p : Ray), ps[i]? = some p → p.dir ≠ none → ∃ p', runOptics (os.map fun o => o.1.photon i) p = .ok p' := by
  rw [C163_runs os hc hs t ps hps]
  refine ⟨fun h i p hp _ => h i p hp, fun h i p hp => ?_⟩
  by_cases hd : p.dir = none
  · obtain ⟨p', h1, -⟩ := lost_runs (os.map fun o => o.1.photon i) (by
      intro o ho m a b c e
      obtain ⟨x, hx, rfl⟩ := List.mem_map.1 ho
      obtain ⟨x1, x2⟩ := x
      cases x1 <;> simp only [ListOptic.photon, reduceCtorEq] at e
      exact hnt _ hx _ _ _ _ rfl) (by
      intro o ho f e
      obtain ⟨x, hx, rfl⟩ := List.mem_map.1 ho
      obtain ⟨x1, x2⟩ := x
      cases x1 <;> simp only [ListOptic.photon, reduceCtorEq, Optic.globalFilter.injEq] at e
      subst e
      exact hf _ hx _ rfl) p hd
    exact ⟨p', h1⟩
  · exact h i p hp hd

/-- **C164** A lost photon stays lost: no element gives it a direction, a polarization or coordinates again. -/
theorem C164_stays_lost (os : List Optic) (p p' : Ray) (hp : p.dir = none) (h : runOptics os p = .ok p') :
    p'.dir = none ∧ p'.pol = p.pol ∧ p'.coos = p.coos ∧ p'.order = p.order := by
  induction os generalizing p with
  | nil => cases h; exact ⟨hp, rfl, rfl, rfl⟩
  | cons o os ih =>
    have hh : ∀ m, p.hit m = none := by intro m; simp [Ray.hit, hp]
    simp only [runOptics] at h
    split at h
    · cases h
    rename_i q hq
    have key : q.dir = none ∧ q.pol = p.pol ∧ q.coos = p.coos ∧ q.order = p.order := by
      cases o with
      | tube m a b c => simp only [Optic.step, hp, reduceCtorEq] at hq
      | globalFilter f =>
        simp only [Optic.step] at hq
        split at hq <;> cases hq
        exact ⟨hp, rfl, rfl, rfl⟩
      | propagate s => cases hq; exact ⟨hp, rfl, rfl, rfl⟩
      | _ => simp only [Optic.step, hh, Except.ok.injEq] at hq; subst hq; exact ⟨hp, rfl, rfl, rfl⟩
    obtain ⟨k1, k2, k3, k4⟩ := ih q key.1 h
    exact ⟨k1, by rw [k2, key.2.1], by rw [k3, key.2.2.1], by rw [k4, key.2.2.2]⟩

/-! ### A list of two photons -/

/-- the photon list that a source makes -/
noncomputable def twoTable (ps : List Ray) : Table where
  names := needColumns
  rows := ps.map fun p n => if n = "pos" then vecCell p.pos else if n = "dir" then vecCell p.dir
    else if n = "polarization" then vecCell p.pol else if n = "probability" then .num p.prob else .num (some p.energy)

theorem twoTable_photons (ps : List Ray) (h : ∀ p ∈ ps, p.order = none ∧ p.blaze = none) : PhotonsOf (twoTable ps) ps := by
  refine ⟨fun _ => id, List.forall₂_iff_get.2 ⟨by simp [twoTable], fun i hi hi' => ?_⟩⟩
  have hp := h _ (List.getElem_mem hi')
  refine ⟨?_, ?_, ?_, ?_, ?_, ?_, fun _ => hp.1, ?_, fun _ => hp.2⟩ <;> simp [twoTable, needColumns]

/-- a photon that passes the filter at the side -/
noncomputable def sideRay : Ray := { axisRay with pos := some ⟨2, 5, 0, 1⟩ }

theorem unitAxes : eX 1 = ⟨1, 0, 0, 0⟩ ∧ eY 1 = ⟨0, 1, 0, 0⟩ ∧ eZ 1 = ⟨0, 0, 1, 0⟩ ∧ center 1 = ⟨0, 0, 0, 1⟩ ∧
    (vY 1).norm = 1 ∧ (vZ 1).norm = 1 := by
  have u : ∀ v : H4, v.dot v = 1 → v.norm = 1 ∧ v.unit = v := fun v hv => by
    have : v.norm = 1 := by rw [H4.norm, hv, Real.sqrt_one]
    exact ⟨this, by rw [H4.unit, this]; ext <;> simp⟩
  have x : vX 1 = ⟨1, 0, 0, 0⟩ := by ext <;> simp [vX, col]
  have y : vY 1 = ⟨0, 1, 0, 0⟩ := by ext <;> simp [vY, col]
  have z : vZ 1 = ⟨0, 0, 1, 0⟩ := by ext <;> simp [vZ, col]
  have c : center 1 = ⟨0, 0, 0, 1⟩ := by ext <;> simp [center, col]
  simp only [eX, eY, eZ, x, y, z, c, (u ⟨1, 0, 0, 0⟩ (by norm_num [H4.dot])).2,
      u ⟨0, 1, 0, 0⟩ (by norm_num [H4.dot]), u ⟨0, 0, 1, 0⟩ (by norm_num [H4.dot]), and_self]

theorem axisRay_hit : planeIntersect 1 ⟨-1, 0, 0, 0⟩ ⟨2, 1 / 2, 0, 1⟩ = some (⟨0, 1 / 2, 0, 1⟩, 1 / 2, 0) := by
  obtain ⟨e1, e2, e3, e4, e5, e6⟩ := unitAxes
  simp only [planeIntersect, e1, e2, e3, e4, e5, e6]
  norm_num [H4.dot, abs_le]
  ext <;> norm_num

theorem sideRay_miss : planeIntersect 1 ⟨-1, 0, 0, 0⟩ ⟨2, 5, 0, 1⟩ = none := by
  obtain ⟨e1, e2, e3, e4, e5, e6⟩ := unitAxes
  simp only [planeIntersect, e1, e2, e3, e4, e5, e6]
  norm_num [H4.dot, abs_le]

theorem sideRay_run : runOptics [.filter 1 fun _ => 1 / 2, .propagate 5] sideRay = .ok { sideRay with pos := some ⟨-3, 5, 0, 1⟩ } := by
  simp only [runOptics, Optic.step, Ray.hit, sideRay, axisRay, sideRay_miss]
  norm_num
  ext <;> norm_num

/-- columns of a filter -/
def filterCols : ElemCols := ⟨some ("filter_y", "filter_z"), some "filter", 3, []⟩

theorem filterCols_fine : filterCols.Fine := by
  refine ⟨fun a b h => ?_, fun n h => ?_, by simp [filterCols], by simp [filterCols]⟩
  · simp only [filterCols, Option.some.injEq, Prod.mk.injEq] at h
    obtain ⟨rfl, rfl⟩ := h
    simp [rayColumns, filterCols]
  · simp only [filterCols, Option.some.injEq] at h
    subst h
    simp [rayColumns]

/-- a filter and a propagator -/
noncomputable def twoElements : List (ListOptic × ElemCols) :=
  [(.filter 1 fun _ => 1 / 2, filterCols), (.propagate 5, filterCols)]

/-- The hypotheses of all theorems above are met by a list of two photons, of which one hits the filter. -/
theorem twoElements_run : ∃ t', runList twoElements (twoTable [axisRay, sideRay]) = .ok t' := by
  rw [C163_runs twoElements _ _ _ [axisRay, sideRay] (twoTable_photons _ (by simp [axisRay, sideRay]))]
  · intro i p hp
    match i with
    | 0 => cases hp; exact ⟨_, axisRay_run⟩
    | 1 => cases hp; exact ⟨_, sideRay_run⟩
    | n + 2 => simp at hp
  · intro o ho
    simp only [twoElements, List.mem_cons, List.not_mem_nil, or_false] at ho
    rcases ho with rfl | rfl <;> exact ⟨filterCols_fine, by simp [filterCols]⟩
  · intro o ho i
    simp only [twoElements, List.mem_cons, List.not_mem_nil, or_false] at ho
    rcases ho with rfl | rfl <;> simp [ListOptic.photon, Optic.Sensible, Optic.IsPlaced, Placed, Affine]

example : ∃ t' p0 p1, runList twoElements (twoTable [axisRay, sideRay]) = .ok t' ∧ PhotonsOf t' [p0, p1] ∧ p0.prob = some (1 / 2) ∧
    p0.pos = some ⟨-5, 1 / 2, 0, 1⟩ ∧ p1.prob = some 1 ∧ p1.pos = some ⟨-3, 5, 0, 1⟩ := by
  obtain ⟨t', h⟩ := twoElements_run
  have hf : ∀ o ∈ twoElements, o.2.Fine := by
    intro o ho
    simp only [twoElements, List.mem_cons, List.not_mem_nil, or_false] at ho
    rcases ho with rfl | rfl <;> exact filterCols_fine
  obtain ⟨ps', h1, h2, h3⟩ := C163_list twoElements hf _ t' h [axisRay, sideRay] (twoTable_photons _ (by simp [axisRay, sideRay]))
  obtain ⟨p0, a1, a2⟩ := h3 0 axisRay rfl
  obtain ⟨p1, b1, b2⟩ := h3 1 sideRay rfl
  have e0 := axisRay_run.symm.trans a2
  have e1 := sideRay_run.symm.trans b2
  simp only [Except.ok.injEq] at e0 e1
  subst e0 e1
  refine ⟨t', ⟨some ⟨-5, 1 / 2, 0, 1⟩, some ⟨-1, 0, 0, 0⟩, some ⟨0, 1, 0, 0⟩, some (1 / 2), 1, none, none, [(1 / 2, 0)]⟩,
    { sideRay with pos := some ⟨-3, 5, 0, 1⟩ }, h, ?_, rfl, rfl, rfl, rfl⟩
  match ps', h2 with
  | [x, y], _ =>
    simp only [List.getElem?_cons_zero, List.getElem?_cons_succ, Option.some.injEq] at a1 b1
    subst a1 b1
    exact h1

/-- A grating whose order 1 is evanescent. -/
noncomputable def fineGrating : ListOptic :=
  .grating 1 true false 0 (fun _ => energy2wave / 2) (fun _ => 0) fun _ _ _ => (1, 1)

/-- With this grating, the photon on the axis is lost, and nothing can be simulated with the list of two photons although
the other photon does not even hit the grating. -/
example (m : M4) (zoomz lim0 lim1 : ℝ) (t' : Table) :
    runList [(fineGrating, filterCols), (.tube m zoomz lim0 lim1, filterCols)] (twoTable [axisRay, sideRay]) ≠ .ok t' := by
  have hh : axisRay.hit 1 = some (⟨-1, 0, 0, 0⟩, ⟨0, 1 / 2, 0, 1⟩, 1 / 2, 0, ⟨2, 1 / 2, 0, 1⟩) := by
    simp only [Ray.hit, axisRay, axisRay_hit]
  have hw : (0 : ℝ) < energy2wave := by norm_num [energy2wave]
  have hd : ((planeGrating 1 true false 0 (fun _ => energy2wave / 2) (fun _ => 0) fun _ _ => (1, 1)).diffract
      ⟨-1, 0, 0, 0⟩ ⟨0, 0, 0, 0⟩ 1 (1 / 2, 0)).dir = none := by
    obtain ⟨e1, e2, e3, e4, e5, e6⟩ := unitAxes
    rw [C19_evanescent _ rfl _ _ _ _ (by norm_num [H4.dot]) one_ne_zero (by simp [planeGrating, hw.ne'])]
    have hm : ((planeGrating 1 true false 0 (fun _ => energy2wave / 2) (fun _ => 0) fun _ _ => (1, 1)).diffract
      ⟨-1, 0, 0, 0⟩ ⟨0, 0, 0, 0⟩ 1 (1 / 2, 0)).m = 1 := by
      unfold Grating.diffract
      simp only
      split <;> rfl
    have hu : (⟨-1, 0, 0, 0⟩ : H4).unit = ⟨-1, 0, 0, 0⟩ := by
      have : (⟨-1, 0, 0, 0⟩ : H4).norm = 1 := by rw [H4.norm]; norm_num [H4.dot]
      rw [H4.unit, this]; ext <;> simp
    rw [hm, hu]
    simp only [Grating.frame, planeGrating, planeBases, e1, e2, e3]
    have : (1 : ℝ) * (energy2wave / 1) / (energy2wave / 2) = 2 := by field_simp
    simp only [Int.cast_one, this]
    norm_num [H4.dot]
  refine C164_lost_photon_false [(fineGrating, filterCols)] (by simpa using filterCols_fine) m zoomz lim0 lim1 filterCols []
    _ [axisRay, sideRay] (twoTable_photons _ (by simp [axisRay, sideRay])) 0 axisRay _ rfl
    (by simp only [List.map_cons, List.map_nil, runOptics, fineGrating, ListOptic.photon, Optic.step, hh]; rfl) ?_ t'
  exact hd

/-- C164: a list of a photon that is lost and one that is not. -/
example : ∃ t', runList twoElements (twoTable [{ axisRay with dir := none }, sideRay]) = .ok t' := by
  rw [C164_lost_photon_partial twoElements _ _ _ _ _ [{ axisRay with dir := none }, sideRay]
    (twoTable_photons _ (by simp [axisRay, sideRay]))]
  · intro i p hp hd
    match i with
    | 0 => cases hp; exact absurd rfl hd
    | 1 => cases hp; exact ⟨_, sideRay_run⟩
    | n + 2 => simp at hp
  · intro o ho
    simp only [twoElements, List.mem_cons, List.not_mem_nil, or_false] at ho
    rcases ho with rfl | rfl <;> exact ⟨filterCols_fine, by simp [filterCols]⟩
  · intro o ho i
    simp only [twoElements, List.mem_cons, List.not_mem_nil, or_false] at ho
    rcases ho with rfl | rfl <;> simp [ListOptic.photon, Optic.Sensible, Optic.IsPlaced, Placed, Affine]
  · simp [twoElements]
  · simp [twoElements]

end Marxs
