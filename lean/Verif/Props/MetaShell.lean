import Verif.Spec.MetaShell
import Verif.Spec.Apertures
import Verif.Props.Apertures
import Verif.Props.MissionsMore
import Verif.Props.Analysis
import Verif.Props.CatStack
import Mathlib.Tactic.Linarith
import Mathlib.Tactic.FieldSimp
import Mathlib.Tactic.Ring
import Mathlib.Tactic.NormNum

/-!
# C134: metashells of the Lynx mirror
-/

namespace Marxs
open Classical

/-! ## The table of efficiencies -/

theorem mapM_exOk {α β : Type} {f : α → Except Err β} {g : α → β} : ∀ {l : List α}, (∀ a ∈ l, f a = .ok (g a)) → l.mapM f = .ok (l.map g)
  | [], _ => by simp [pure, Except.pure]
  | a :: l, h => by
    rw [List.mapM_cons, h a (by simp), mapM_exOk fun b hb => h b (by simp [hb])]
    rfl

theorem interp_scale (k x : ℝ) : ∀ l : List (ℝ × ℝ), interp x (l.map fun p => (p.1, p.2 * k)) = (interp x l).map (· * k)
  | [] => rfl
  | [p] => rfl
  | p :: q :: l => by
    simp only [List.map_cons, interp]
    by_cases h1 : x ≤ p.1
    · simp [h1]
    by_cases h2 : x < q.1
    · simp only [h1, h2, if_true, if_false, Option.map_some, Option.some.injEq]
      ring
    · simp only [h1, h2, if_false]
      exact interp_scale k x (q :: l)

theorem zip_scale (k : ℝ) (f : ℝ → ℝ) (hf : ∀ v, f v = v * k) : ∀ (E c : List ℝ), E.zip (c.map f) = (E.zip c).map fun p => (p.1, p.2 * k)
  | [], _ => by simp
  | _ :: _, [] => by simp
  | e :: E, v :: c => by simp [hf, zip_scale k f hf E c]

/-- The column of effective areas for a shell. -/
def effCol (eff : MetaShellEff) (i : ℤ) : List ℝ := (eff.area i).getD []

theorem relativeEff_ok {shells : List MetaShellRow} {eff : MetaShellEff} (hne : shells ≠ []) (hg : ∀ s ∈ shells, ∃ c, eff.area s.serial = some c) :
    relativeEff shells eff = .ok (shells.map fun s => (effCol eff s.serial).map fun v => v * 100 / shellArea s) := by
  unfold relativeEff
  rw [mapM_exOk (g := fun s => effCol eff s.serial)]
  · simp only [bind, Except.bind, List.map_eq_nil_iff, hne, if_false]
    congr 1
    clear hne hg
    induction shells with
    | nil => rfl
    | cons s l ih =>
      simp only [List.map_cons, List.zipWith_cons_cons, ih]
      rfl
  · intro s hs
    obtain ⟨c, hc⟩ := hg s hs
    simp [hc, effCol]

theorem numpyRow_pos {n k : ℕ} (h : k < n) : numpyRow n (k : ℤ) = some k := by
  simp [numpyRow, h]

theorem metaShellEfficiency_ok {shells : List MetaShellRow} {eff : MetaShellEff} (hne : shells ≠ []) (hg : ∀ s ∈ shells, ∃ c, eff.area s.serial = some c) (hnum : Numbered shells) :
    metaShellEfficiency shells eff = .ok (shells.map fun s => (s.serial, eff.energy.zip ((effCol eff s.serial).map fun v => v * 100 / shellArea s))) := by
  unfold metaShellEfficiency
  rw [relativeEff_ok hne hg]
  simp only [bind, Except.bind]
  refine mapM_exOk ?_
  intro s hs
  obtain ⟨k, hk, rfl⟩ := List.mem_iff_getElem.1 hs
  have hn := hnum k _ (List.getElem?_eq_getElem hk)
  have h1 : (shells[k].serial - 1 : ℤ) = (k : ℤ) := by rw [hn]; ring
  rw [h1, List.length_map, numpyRow_pos hk]
  simp [List.getElem?_eq_getElem hk]

/-! ## The loop over shells -/

/-- Number in a cell. -/
def cellNum : Val → ℝ
  | .num (some x) => x
  | _ => 0

/-- What one shell does to a photon. -/
noncomputable def shellRow (sh : ℤ × List (ℝ × ℝ)) (r : Row) : Row :=
  if inShell sh.1 (r "shell") = true then
    Function.update r "probability" (.num (some (cellNum (r "probability") * min (max ((interp (cellNum (r "energy")) sh.2).getD 0) 0) 1)))
  else r

theorem mulMasked_map {g : Row → Bool} {h : Row → Val} {m : Row → Val} : ∀ (rows : List Row), (∀ r ∈ rows, g r = true → Val.mul (r "probability") (h r) = some (m r)) →
    mulMasked "probability" (rows.map g) rows ((sel (rows.map g) rows).map h) = some (rows.map fun r => if g r = true then Function.update r "probability" (m r) else r)
  | [], _ => by simp [mulMasked]
  | r :: rows, H => by
    have ih := mulMasked_map rows fun r hr => H r (by simp [hr])
    cases hg : g r with
    | true => simp [hg, sel, mulMasked, ih, H r (by simp) hg]
    | false => simp [hg, sel, mulMasked, ih]

theorem sel_subset {α : Type} : ∀ {mask : List Bool} {l : List α} {a : α}, a ∈ sel mask l → a ∈ l
  | [], _, _, h => by simp [sel] at h
  | true :: _, [], _, h => by simp [sel] at h
  | false :: _, [], _, h => by simp [sel] at h
  | true :: ms, x :: xs, a, h => by
    simp only [sel, List.mem_cons] at h
    rcases h with h | h
    · simp [h]
    · exact List.mem_cons_of_mem _ (sel_subset h)
  | false :: ms, x :: xs, a, h => by
    simp only [sel] at h
    exact List.mem_cons_of_mem _ (sel_subset h)

/-- A photon that fits to the tables. -/
def FitRow (L : List (ℤ × List (ℝ × ℝ))) (r : Row) : Prop :=
  ∃ e p : ℝ, r "energy" = .num (some e) ∧ r "probability" = .num (some p) ∧ ∀ sh ∈ L, ∃ v, interp1d sh.2 e = .ok v

theorem shellRow_other (sh : ℤ × List (ℝ × ℝ)) (r : Row) (c : String) (hc : c ≠ "probability") : shellRow sh r c = r c := by
  unfold shellRow
  split
  · simp [Function.update, hc]
  · rfl

theorem shellRow_fit {L : List (ℤ × List (ℝ × ℝ))} {sh : ℤ × List (ℝ × ℝ)} {r : Row} (h : FitRow L r) : FitRow L (shellRow sh r) := by
  obtain ⟨e, p, h1, h2, h3⟩ := h
  unfold shellRow
  split
  · exact ⟨e, _, by simp [Function.update, h1], Function.update_self _ _ _, h3⟩
  · exact ⟨e, p, h1, h2, h3⟩

theorem metaShellStep_ok {t : Table} {sh : ℤ × List (ℝ × ℝ)} (hn : "shell" ∈ t.names ∧ "energy" ∈ t.names ∧ "probability" ∈ t.names) (hr : ∀ r ∈ t.rows, FitRow [sh] r) :
    metaShellStep t sh = .ok ⟨t.names, t.rows.map (shellRow sh)⟩ := by
  unfold metaShellStep
  rw [if_neg (by push Not; exact ⟨hn.1, hn.2.1⟩)]
  simp only
  rw [mapM_exOk (g := fun r => Val.num (some (min (max ((interp (cellNum (r "energy")) sh.2).getD 0) 0) 1)))]
  · simp only [hn.2.2, not_true, if_false]
    rw [mulMasked_map (m := fun r => Val.num (some (cellNum (r "probability") * min (max ((interp (cellNum (r "energy")) sh.2).getD 0) 0) 1)))]
    · rfl
    · intro r hr' _
      obtain ⟨e, p, h1, h2, h3⟩ := hr r hr'
      simp [h2, Val.mul, cellNum]
  · intro r hr'
    obtain ⟨e, p, h1, h2, h3⟩ := hr r (sel_subset hr')
    obtain ⟨v, hv⟩ := h3 sh (by simp)
    simp [h1, shellProb, hv, cellNum, interp1d_ok hv, bind, Except.bind]

theorem metaShellCall_ok : ∀ (L : List (ℤ × List (ℝ × ℝ))) (t : Table), ("shell" ∈ t.names ∧ "energy" ∈ t.names ∧ "probability" ∈ t.names) → (∀ r ∈ t.rows, FitRow L r) →
    metaShellCall L t = .ok ⟨t.names, t.rows.map fun r => L.foldl (fun r sh => shellRow sh r) r⟩
  | [], t, _, _ => by simp [metaShellCall]
  | sh :: L, t, hn, hr => by
    unfold metaShellCall
    rw [metaShellStep_ok hn fun r hr' => by
      obtain ⟨e, p, h1, h2, h3⟩ := hr r hr'
      exact ⟨e, p, h1, h2, fun s hs => h3 s (by simp at hs; simp [hs])⟩]
    simp only [bind, Except.bind]
    rw [metaShellCall_ok L ⟨t.names, t.rows.map (shellRow sh)⟩ hn]
    · simp only [List.map_map, List.foldl_cons]
      rfl
    · intro r hr'
      obtain ⟨r0, hr0, rfl⟩ := List.mem_map.1 hr'
      have := hr r0 hr0
      apply shellRow_fit
      obtain ⟨e, p, h1, h2, h3⟩ := this
      exact ⟨e, p, h1, h2, fun s hs => h3 s (by simp [hs])⟩

theorem shellFold_none : ∀ (L : List (ℤ × List (ℝ × ℝ))) (r : Row), (∀ sh ∈ L, inShell sh.1 (r "shell") = false) → L.foldl (fun r sh => shellRow sh r) r = r
  | [], _, _ => rfl
  | sh :: L, r, h => by
    have : shellRow sh r = r := by
      unfold shellRow
      simp [h sh (by simp)]
    rw [List.foldl_cons, this]
    exact shellFold_none L r fun s hs => h s (by simp [hs])

theorem inShell_unique {i j : ℤ} {v : Val} (h1 : inShell i v = true) (h2 : inShell j v = true) : i = j := by
  cases v with
  | int n => simp [inShell] at h1 h2; omega
  | vec v => simp [inShell] at h1
  | num x =>
    cases x with
    | none => simp [inShell] at h1
    | some x =>
      simp [inShell] at h1 h2
      have : (i : ℝ) = j := by rw [← h1, ← h2]
      exact_mod_cast this

theorem shellFold_one : ∀ (L : List (ℤ × List (ℝ × ℝ))) (r : Row) (sh : ℤ × List (ℝ × ℝ)), (L.map (·.1)).Nodup → sh ∈ L → inShell sh.1 (r "shell") = true →
    L.foldl (fun r sh => shellRow sh r) r = shellRow sh r
  | [], _, _, _, h, _ => by simp at h
  | a :: L, r, sh, hnd, hm, hi => by
    simp only [List.map_cons, List.nodup_cons, List.mem_map, not_exists, not_and] at hnd
    rw [List.foldl_cons]
    by_cases ha : sh = a
    · subst ha
      apply shellFold_none
      intro s hs
      rw [shellRow_other _ _ _ (by decide)]
      by_contra hc
      simp only [Bool.not_eq_false] at hc
      exact hnd.1 s hs (inShell_unique hc hi)
    · have hm' : sh ∈ L := by simpa [ha] using hm
      have : shellRow a r = r := by
        unfold shellRow
        have : inShell a.1 (r "shell") = false := by
          by_contra hc
          simp only [Bool.not_eq_false] at hc
          exact hnd.1 sh hm' (inShell_unique hi hc)
        simp [this]
      rw [this]
      exact shellFold_one L r sh hnd.2 hm' hi

theorem interp1d_in {E c : List ℝ} (hl : c.length = E.length) (hp : E.Pairwise (· < ·)) {e : ℝ} (ha : ∃ a ∈ E, a ≤ e) (hb : ∃ b ∈ E, e ≤ b) :
    ∃ v, interp1d (E.zip c) e = .ok v ∧ interp e (E.zip c) = some v := by
  have hz : (E.zip c).map Prod.fst = E := by rw [List.map_fst_zip (by omega)]
  have hsort : (E.zip c).Pairwise (fun a b => a.1 < b.1) := by
    have : ((E.zip c).map Prod.fst).Pairwise (· < ·) := by rw [hz]; exact hp
    rwa [List.pairwise_map] at this
  have ha' : ∃ a ∈ E.zip c, a.1 ≤ e := by
    obtain ⟨a, h1, h2⟩ := ha
    rw [← hz] at h1
    obtain ⟨p, hp, rfl⟩ := List.mem_map.1 h1
    exact ⟨p, hp, h2⟩
  have hb' : ∃ a ∈ E.zip c, e ≤ a.1 := by
    obtain ⟨a, h1, h2⟩ := hb
    rw [← hz] at h1
    obtain ⟨p, hp, rfl⟩ := List.mem_map.1 h1
    exact ⟨p, hp, h2⟩
  generalize E.zip c = l at hsort ha' hb'
  cases l with
  | nil => simp at ha'
  | cons p l =>
    have hsome : ∀ (p : ℝ × ℝ) (l : List (ℝ × ℝ)), ∃ v, interp e (p :: l) = some v := by
      intro p l
      induction l generalizing p with
      | nil => exact ⟨_, rfl⟩
      | cons q l ih =>
        simp only [interp]
        split
        · exact ⟨_, rfl⟩
        split
        · exact ⟨_, rfl⟩
        · exact ih q
    obtain ⟨v, hv⟩ := hsome p l
    refine ⟨v, ?_, hv⟩
    unfold interp1d
    simp only [List.head?_cons, List.getLast?_cons]
    rw [if_neg, hv]
    push Not
    constructor
    · obtain ⟨a, h1, h2⟩ := ha'
      rcases List.mem_cons.1 h1 with h | h
      · rw [← h]; exact h2
      · exact ((List.pairwise_cons.1 hsort).1 a h).le.trans h2
    · obtain ⟨b, h1, h2⟩ := hb'
      have hmono : ∀ (l : List (ℝ × ℝ)) (p b : ℝ × ℝ), (p :: l).Pairwise (fun a b => a.1 < b.1) → b ∈ p :: l → b.1 ≤ (l.getLast?.getD p).1 := by
        intro l
        induction l with
        | nil => intro p b _ h; simp at h; simp [h]
        | cons q l ih =>
          intro p b hs hb
          rw [List.getLast?_cons, Option.getD_some]
          rcases List.mem_cons.1 hb with rfl | hb
          · exact ((List.pairwise_cons.1 hs).1 q (by simp)).le.trans (ih q q (List.pairwise_cons.1 hs).2 (by simp))
          · exact ih q b (List.pairwise_cons.1 hs).2 hb
      exact h2.trans (hmono l p b hsort h1)

/-! ## The properties -/

theorem fitRow_of {shells : List MetaShellRow} {eff : MetaShellEff} (hg : GoodEff shells eff) {r : Row} {e p : ℝ} (he : r "energy" = .num (some e)) (hp : r "probability" = .num (some p))
    (ha : ∃ a ∈ eff.energy, a ≤ e) (hb : ∃ b ∈ eff.energy, e ≤ b) :
    FitRow (shells.map fun s => (s.serial, eff.energy.zip ((effCol eff s.serial).map fun v => v * 100 / shellArea s))) r := by
  refine ⟨e, p, he, hp, ?_⟩
  intro sh hsh
  obtain ⟨s, hs, rfl⟩ := List.mem_map.1 hsh
  obtain ⟨c, hc, hl⟩ := hg.2.2 s hs
  obtain ⟨v, hv, _⟩ := interp1d_in (E := eff.energy) (c := (effCol eff s.serial).map fun v => v * 100 / shellArea s) (by simp [effCol, hc, hl]) hg.2.1 ha hb
  exact ⟨v, hv⟩

theorem numbered_nodup {shells : List MetaShellRow} (h : Numbered shells) : (shells.map (·.serial)).Nodup := by
  rw [List.nodup_iff_getElem?_ne_getElem?]
  intro i j hij hj
  simp only [List.length_map] at hj
  have hi : i < shells.length := by omega
  simp only [List.getElem?_map, List.getElem?_eq_getElem hi, List.getElem?_eq_getElem hj, Option.map_some]
  rw [h i _ (List.getElem?_eq_getElem hi), h j _ (List.getElem?_eq_getElem hj)]
  intro h
  simp at h
  omega

/-- **C134** For shells listed with serial numbers 1, 2, 3, ... the probability of every photon whose column `shell` has the serial number of a shell is multiplied once with the fraction that this shell reflects at the energy of the photon (effective area from the table over geometric area of the ring). Nothing else in the list changes, and photons with other numbers do not change at all. Missing: shells listed otherwise (`C134_position_false`), and in the telescope the column `shell` does not have the serial number (`C134_telescope`). -/
theorem C134_efficiency_partial (shells : List MetaShellRow) (eff : MetaShellEff) (hne : shells ≠ []) (hnum : Numbered shells) (hg : GoodEff shells eff)
    (t : Table) (hsh : "shell" ∈ t.names) (ht : InRange eff t) :
    ∃ L t', metaShellEfficiency shells eff = .ok L ∧ metaShellCall L t = .ok t' ∧ t'.names = t.names ∧ t'.rows.length = t.rows.length ∧
      ∀ (j : ℕ) (r : Row), t.rows[j]? = some r → ∃ r', t'.rows[j]? = some r' ∧
        (∀ n, r "shell" = .int n → (∀ s ∈ shells, s.serial ≠ n) → r' = r) ∧
        ∀ s ∈ shells, r "shell" = .int s.serial → ∀ e p v, r "energy" = .num (some e) → r "probability" = .num (some p) → HasEffArea eff s e v →
          r' = Function.update r "probability" (.num (some (p * reflected v (shellArea s)))) := by
  obtain ⟨he, hp, hrows⟩ := ht
  refine ⟨_, _, metaShellEfficiency_ok hne (fun s hs => (hg.2.2 s hs).imp fun c hc => hc.1) hnum,
    metaShellCall_ok _ t ⟨hsh, he, hp⟩ fun r hr => ?_, rfl, by simp, ?_⟩
  · obtain ⟨e, p, h1, h2, h3, h4⟩ := hrows r hr
    exact fitRow_of hg h1 h2 h3 h4
  intro j r hr
  refine ⟨_, by simp only [List.getElem?_map, hr, Option.map_some]; rfl, ?_, ?_⟩
  · intro n hn hs
    apply shellFold_none
    intro sh hsh
    obtain ⟨s, hs', rfl⟩ := List.mem_map.1 hsh
    simp only [hn, inShell, decide_eq_false_iff_not]
    exact fun h => hs s hs' h.symm
  · intro s hs hi e p v h1 h2 ⟨c, hc, hv⟩
    rw [shellFold_one _ r (s.serial, eff.energy.zip ((effCol eff s.serial).map fun v => v * 100 / shellArea s))
      (by rw [List.map_map]; exact numbered_nodup hnum) (List.mem_map.2 ⟨s, hs, rfl⟩) (by simp [hi, inShell])]
    unfold shellRow
    simp only [hi, inShell, decide_true, if_true, h1, h2, cellNum]
    have hcol : effCol eff s.serial = c := by simp [effCol, hc]
    rw [hcol, zip_scale (100 / shellArea s) _ (fun v => by ring), interp_scale, hv]
    congr 3
    simp only [Option.map_some, Option.getD_some, reflected]
    rw [show v * (100 / shellArea s) = 100 * v / shellArea s by ring]
    rw [max_comm, max_min_distrib_left, min_comm, max_eq_right (zero_le_one' ℝ)]

/-- **C134** What is reflected is between nothing and everything, so the efficiency never adds probability. -/
theorem C134_bounds (v a : ℝ) : 0 ≤ reflected v a ∧ reflected v a ≤ 1 :=
  ⟨le_max_left _ _, max_le zero_le_one (min_le_left _ _)⟩

/-- **C134** The geometric area of the aperture is the sum of the areas of the rings. With the reflected fraction of every ring it gives the sum of the effective areas in the table (in mm² instead of cm²), as long as no shell has an effective area above its geometric one. -/
theorem C134_area (focallength : ℝ) (shells : List MetaShellRow) (hne : shells ≠ []) (hr : Rings shells) :
    ∃ as, metaShellAperture focallength shells = .ok as ∧ as.length = shells.length ∧ multiArea as = (shells.map shellArea).sum ∧
      ∀ f : MetaShellRow → ℝ, (∀ s ∈ shells, 0 ≤ f s ∧ 100 * f s ≤ shellArea s) →
        (shells.map fun s => shellArea s * reflected (f s) (shellArea s)).sum = 100 * (shells.map f).sum := by
  have hpi := Real.pi_pos
  refine ⟨multiInit (shells.map (metaShellRing focallength)) "shell" 0, ?_, by simp [multiInit], ?_, ?_⟩
  · unfold metaShellAperture
    rw [if_neg, if_neg hne]
    push Not
    intro s hs
    rw [abs_of_nonneg (by linarith [(hr s hs).1, (hr s hs).2])]
    exact (hr s hs).2.le
  · unfold multiArea multiInit
    congr 1
    apply List.ext_getElem
    · simp
    · intro k h1 h2
      simp only [List.getElem_map, List.getElem_mapIdx]
      have hk : k < shells.length := by simpa using h2
      have hs := hr shells[k] (List.getElem_mem hk)
      simp only [Aperture.area, metaShellRing, circleArea, shellArea]
      have : (vY (compose ![focallength + 200, 0, 0] 1 ![1, shells[k].rOuter, shells[k].rOuter])).norm = shells[k].rOuter := by
        have h0 : 0 ≤ shells[k].rOuter := by linarith [hs.1, hs.2]
        simp [vY, col, compose, H4.norm, H4.dot, Real.sqrt_mul_self h0]
      rw [this]
      field_simp
      ring
  · intro f hf
    rw [← List.sum_map_mul_left]
    congr 1
    apply List.map_congr_left
    intro s hs
    obtain ⟨h1, h2⟩ := hf s hs
    have ha : 0 < shellArea s := by
      unfold shellArea
      have := hr s hs
      exact mul_pos hpi (by nlinarith)
    unfold reflected
    rw [min_eq_right (by rw [div_le_one ha]; exact h2), max_eq_right (by positivity)]
    field_simp

theorem mapM_exErr {α β : Type} {f : α → Except Err β} {e : Err} : ∀ {l : List α}, (∀ a ∈ l, (∃ b, f a = .ok b) ∨ f a = .error e) → (∃ a ∈ l, f a = .error e) → l.mapM f = .error e
  | [], _, h => by simp at h
  | a :: l, h, hex => by
    rw [List.mapM_cons]
    rcases h a (by simp) with ⟨b, hb⟩ | hb
    · have : ∃ a ∈ l, f a = .error e := by
        obtain ⟨c, hc, hce⟩ := hex
        rcases List.mem_cons.1 hc with rfl | hc
        · rw [hb] at hce; cases hce
        · exact ⟨c, hc, hce⟩
      rw [hb, mapM_exErr (fun c hc => h c (by simp [hc])) this]
      rfl
    · rw [hb]
      rfl

/-- **C134** A shell with a serial number above the number of shells in the table cannot be used, although its efficiency is in the table. -/
theorem C134_serial_too_large (shells : List MetaShellRow) (eff : MetaShellEff) (hg : ∀ s ∈ shells, ∃ c, eff.area s.serial = some c) (s : MetaShellRow) (hs : s ∈ shells) (hlarge : (shells.length : ℤ) < s.serial) :
    metaShellEfficiency shells eff = .error .indexError := by
  unfold metaShellEfficiency
  rw [relativeEff_ok (List.ne_nil_of_mem hs) hg]
  simp only [bind, Except.bind]
  refine mapM_exErr ?_ ⟨s, hs, ?_⟩
  · intro a _
    split
    · exact .inl ⟨_, rfl⟩
    · exact .inr rfl
  · have : numpyRow shells.length (s.serial - 1) = none := by
      unfold numpyRow
      rw [if_pos (by omega), if_neg (by omega)]
    simp [this]

/-- **C134** A serial number of 0 or below is not refused: it counts from the end, so a shell with the number 0 gets the effective area of the last shell in the table
(divided by the area of that last shell). -/
theorem C134_serial_zero (shells : List MetaShellRow) (last : MetaShellRow) (eff : MetaShellEff) (hg : ∀ s ∈ shells ++ [last], ∃ c, eff.area s.serial = some c)
    (L : List (ℤ × List (ℝ × ℝ))) (hL : metaShellEfficiency (shells ++ [last]) eff = .ok L) (k : ℕ) (s : MetaShellRow) (hs : (shells ++ [last])[k]? = some s) (h0 : s.serial = 0) :
    ∃ col, eff.area last.serial = some col ∧ L[k]? = some (0, eff.energy.zip (col.map fun v => v * 100 / shellArea last)) := by
  obtain ⟨col, hcol⟩ := hg last (by simp)
  refine ⟨col, hcol, ?_⟩
  unfold metaShellEfficiency at hL
  rw [relativeEff_ok (by simp) hg] at hL
  simp only [bind, Except.bind] at hL
  have hk : k < (shells ++ [last]).length := (List.getElem?_eq_some_iff.1 hs).1
  obtain ⟨y, hy', hy⟩ := (mapM_get _ _ _ hL).2 k s hs
  rw [hy]
  have hn : numpyRow ((shells ++ [last]).map fun s => (effCol eff s.serial).map fun v => v * 100 / shellArea s).length (s.serial - 1) = some shells.length := by
    rw [h0, numpyRow, if_neg (by omega), if_pos (by simp)]
    simp
  rw [hn] at hy'
  simp only [Option.bind_some, List.map_append, List.map_cons, List.map_nil, List.getElem?_append_right (by simp : (shells.map fun s => (effCol eff s.serial).map fun v => v * 100 / shellArea s).length ≤ shells.length), List.length_map, Nat.sub_self, List.getElem?_cons_zero, Except.ok.injEq] at hy'
  rw [← hy', h0, effCol, hcol]
  rfl

/-- two shells with the numbers 0 and 1 -/
example : ∃ (s last : MetaShellRow) (eff : MetaShellEff) (L : List (ℤ × List (ℝ × ℝ))), (∀ x ∈ [s] ++ [last], ∃ c, eff.area x.serial = some c) ∧
    metaShellEfficiency ([s] ++ [last]) eff = .ok L ∧ ([s] ++ [last])[0]? = some s ∧ s.serial = 0 ∧ shellArea s ≠ shellArea last := by
  have hg : ∀ x ∈ [(⟨0, 0, 1⟩ : MetaShellRow)] ++ [⟨1, 1, 2⟩], ∃ c, (⟨[1], fun _ => some [1]⟩ : MetaShellEff).area x.serial = some c :=
    fun _ _ => ⟨_, rfl⟩
  refine ⟨⟨0, 0, 1⟩, ⟨1, 1, 2⟩, ⟨[1], fun _ => some [1]⟩,
    [(0, [(1, 1 * 100 / shellArea ⟨1, 1, 2⟩)]), (1, [(1, 1 * 100 / shellArea ⟨0, 0, 1⟩)])], hg, ?_, rfl, rfl, ?_⟩
  · unfold metaShellEfficiency
    rw [relativeEff_ok (by simp) hg]
    simp [bind, Except.bind, numpyRow, pure, Except.pure, effCol]
  · have := Real.pi_pos
    simp only [shellArea]
    intro h
    nlinarith

/-- **C134** Efficiencies are looked up by position in the table, not by serial number: with the same two shells and the same efficiencies, but the rows of the geometry exchanged, a photon in shell 1 gets the efficiency of shell 2. -/
theorem C134_position_false : ∃ (shells : List MetaShellRow) (eff : MetaShellEff) (L : List (ℤ × List (ℝ × ℝ))) (t t' : Table) (s : MetaShellRow) (r r' : Row),
    Rings shells ∧ GoodEff shells eff ∧ InRange eff t ∧ metaShellEfficiency shells eff = .ok L ∧ metaShellCall L t = .ok t' ∧ s ∈ shells ∧
    t.rows = [r] ∧ t'.rows = [r'] ∧ r "shell" = .int s.serial ∧ r "energy" = .num (some 1) ∧ r "probability" = .num (some 1) ∧
    HasEffArea eff s 1 0 ∧ reflected 0 (shellArea s) = 0 ∧ r' "probability" = .num (some 1) := by
  have hpi := Real.pi_pos
  let s1 : MetaShellRow := ⟨1, 0, 1⟩
  let s2 : MetaShellRow := ⟨2, 1, 2⟩
  let eff : MetaShellEff := ⟨[1, 2], fun i => if i = 1 then some [0, 0] else if i = 2 then some [Real.pi, Real.pi] else none⟩
  let r : Row := fun c => if c = "shell" then .int 1 else .num (some 1)
  let t : Table := ⟨["shell", "energy", "probability"], [r]⟩
  let L : List (ℤ × List (ℝ × ℝ)) := [(2, [(1, 0), (2, 0)]), (1, [(1, 100 / 3), (2, 100 / 3)])]
  have hrel : metaShellEfficiency [s2, s1] eff = .ok L := by
    unfold metaShellEfficiency
    rw [relativeEff_ok (by simp) (by simp [s1, s2, eff])]
    have e1 : Real.pi * 100 / (Real.pi * 3) = 100 / 3 := by
      field_simp
    simp only [bind, Except.bind, List.map_cons, List.map_nil, List.mapM_cons, List.mapM_nil, s1, s2, eff, effCol, numpyRow, shellArea, L]
    norm_num [pure, Except.pure, e1]
  have hcall := metaShellCall_ok L t (by simp [t]) (by
    intro r' hr'
    have : r' = r := by simpa [t] using hr'
    subst this
    refine ⟨1, 1, by simp [r], by simp [r], ?_⟩
    intro sh hsh
    simp only [L, List.mem_cons, List.not_mem_nil, or_false] at hsh
    rcases hsh with rfl | rfl <;> exact ⟨_, by norm_num [interp1d, interp]; rfl⟩)
  refine ⟨[s2, s1], eff, L, t, _, s1, r, _, ?_, ?_, ?_, hrel, hcall, by simp, rfl, by simp only [t, List.map_cons, List.map_nil]; rfl, by simp [r, s1], by simp [r], by simp [r], ?_, by simp [reflected], ?_⟩
  · intro s hs
    simp only [List.mem_cons, List.not_mem_nil, or_false] at hs
    rcases hs with rfl | rfl <;> norm_num [s1, s2]
  · refine ⟨by simp [eff], by norm_num [eff], ?_⟩
    intro s hs
    simp only [List.mem_cons, List.not_mem_nil, or_false] at hs
    rcases hs with rfl | rfl <;> simp [s1, s2, eff]
  · refine ⟨by simp [t], by simp [t], ?_⟩
    intro r' hr'
    have : r' = r := by simpa [t] using hr'
    subst this
    exact ⟨1, 1, by simp [r], by simp [r], ⟨1, by simp [eff], le_rfl⟩, ⟨2, by simp [eff], by norm_num⟩⟩
  · exact ⟨[0, 0], by simp [eff, s1], by simp [eff, interp]⟩
  · rw [shellFold_one L r (1, [(1, 100 / 3), (2, 100 / 3)]) (by simp [L]) (by simp [L]) (by simp [r, inShell])]
    simp [shellRow, r, inShell, cellNum, interp]
    norm_num

theorem interp1d_cases (tab : List (ℝ × ℝ)) (e : ℝ) : (∃ v, interp1d tab e = .ok v) ∨ interp1d tab e = .error .valueError := by
  unfold interp1d
  split
  · split
    · exact .inr rfl
    · split
      · exact .inl ⟨_, rfl⟩
      · exact .inr rfl
  · exact .inr rfl

theorem sel_mem {g : Row → Bool} : ∀ {rows : List Row} {r : Row}, r ∈ rows → g r = true → r ∈ sel (rows.map g) rows
  | [], _, h, _ => by simp at h
  | a :: rows, r, h, hg => by
    rcases List.mem_cons.1 h with rfl | h
    · simp [sel, hg]
    · cases ha : g a with
      | true => simp [sel, ha, sel_mem h hg]
      | false => simp [sel, ha, sel_mem h hg]

theorem sel_true {g : Row → Bool} : ∀ {rows : List Row} {r : Row}, r ∈ sel (rows.map g) rows → g r = true
  | [], _, h => by simp [sel] at h
  | a :: rows, r, h => by
    cases ha : g a with
    | true =>
      simp only [List.map_cons, ha, sel, List.mem_cons] at h
      rcases h with rfl | h
      · exact ha
      · exact sel_true h
    | false =>
      simp only [List.map_cons, ha, sel] at h
      exact sel_true h

theorem metaShellCall_error : ∀ (L : List (ℤ × List (ℝ × ℝ))) (t : Table), ("shell" ∈ t.names ∧ "energy" ∈ t.names ∧ "probability" ∈ t.names) → (∀ r ∈ t.rows, ∃ e p : ℝ, r "energy" = .num (some e) ∧ r "probability" = .num (some p)) →
    (∃ r ∈ t.rows, ∃ e, r "energy" = .num (some e) ∧ ∃ sh ∈ L, inShell sh.1 (r "shell") = true ∧ interp1d sh.2 e = .error .valueError) → metaShellCall L t = .error .valueError
  | [], t, _, _, h => by simp at h
  | sh :: L, t, hn, hr, hbad => by
    have hshell : ∀ r ∈ t.rows, (∃ v, shellProb sh.2 (r "energy") = .ok v) ∨ shellProb sh.2 (r "energy") = .error .valueError := by
      intro r hr'
      obtain ⟨e, p, h1, h2⟩ := hr r hr'
      rcases interp1d_cases sh.2 e with ⟨v, hv⟩ | hv
      · exact .inl ⟨_, by simp [h1, shellProb, hv, bind, Except.bind]; rfl⟩
      · exact .inr (by simp [h1, shellProb, hv, bind, Except.bind])
    by_cases hstep : ∃ r ∈ t.rows, inShell sh.1 (r "shell") = true ∧ shellProb sh.2 (r "energy") = .error .valueError
    · obtain ⟨r, r1, r2, r3⟩ := hstep
      have : metaShellStep t sh = .error .valueError := by
        unfold metaShellStep
        rw [if_neg (by push Not; exact ⟨hn.1, hn.2.1⟩)]
        simp only
        rw [mapM_exErr (fun a ha => hshell a (sel_subset ha)) ⟨r, sel_mem (g := fun r => inShell sh.1 (r "shell")) r1 r2, r3⟩]
      unfold metaShellCall
      rw [this]
      rfl
    · push Not at hstep
      have hok : metaShellStep t sh = .ok ⟨t.names, t.rows.map (shellRow sh)⟩ := by
        have hgood : ∀ r ∈ t.rows, inShell sh.1 (r "shell") = true → ∃ e p v, r "energy" = .num (some e) ∧ r "probability" = .num (some p) ∧ interp1d sh.2 e = .ok v := by
          intro r hr' hi
          obtain ⟨e, p, h1, h2⟩ := hr r hr'
          rcases interp1d_cases sh.2 e with ⟨v, hv⟩ | hv
          · exact ⟨e, p, v, h1, h2, hv⟩
          · exact absurd (by simp [h1, shellProb, hv, bind, Except.bind]) (hstep r hr' hi)
        unfold metaShellStep
        rw [if_neg (by push Not; exact ⟨hn.1, hn.2.1⟩)]
        simp only
        rw [mapM_exOk (g := fun r => Val.num (some (min (max ((interp (cellNum (r "energy")) sh.2).getD 0) 0) 1)))]
        · simp only [hn.2.2, not_true, if_false]
          rw [mulMasked_map (m := fun r => Val.num (some (cellNum (r "probability") * min (max ((interp (cellNum (r "energy")) sh.2).getD 0) 0) 1)))]
          · rfl
          · intro r hr' hi
            obtain ⟨e, p, v, h1, h2, h3⟩ := hgood r hr' hi
            simp [h2, Val.mul, cellNum]
        · intro r hr'
          obtain ⟨e, p, v, h1, h2, h3⟩ := hgood r (sel_subset hr') (sel_true (g := fun r => inShell sh.1 (r "shell")) hr')
          simp [h1, shellProb, h3, cellNum, interp1d_ok h3, bind, Except.bind]
      unfold metaShellCall
      rw [hok]
      simp only [bind, Except.bind]
      refine metaShellCall_error L _ hn ?_ ?_
      · intro r hr'
        obtain ⟨r0, hr0, rfl⟩ := List.mem_map.1 hr'
        obtain ⟨e, p, h1, h2⟩ := hr r0 hr0
        obtain ⟨e', p', f1, f2, _⟩ := shellRow_fit (L := []) (sh := sh) (r := r0) ⟨e, p, h1, h2, by simp⟩
        exact ⟨e', p', f1, f2⟩
      · obtain ⟨r, hr', e, he, sh', hsh', hi, hv⟩ := hbad
        refine ⟨shellRow sh r, List.mem_map_of_mem hr', e, by rw [shellRow_other _ _ _ (by decide), he], sh', ?_, by rw [shellRow_other _ _ _ (by decide)]; exact hi, hv⟩
        rcases List.mem_cons.1 hsh' with rfl | h
        · exact absurd (by simp [he, shellProb, hv, bind, Except.bind]) (hstep r hr' hi)
        · exact h

/-- **C134** A photon in one of the shells with an energy outside of the table is an error, there is no made up efficiency. -/
theorem C134_outside (shells : List MetaShellRow) (eff : MetaShellEff) (hnum : Numbered shells) (hg : GoodEff shells eff)
    (t : Table) (hn : "shell" ∈ t.names ∧ "energy" ∈ t.names ∧ "probability" ∈ t.names) (hrows : ∀ r ∈ t.rows, ∃ e p : ℝ, r "energy" = .num (some e) ∧ r "probability" = .num (some p))
    (r : Row) (hr : r ∈ t.rows) (s : MetaShellRow) (hs : s ∈ shells) (hi : r "shell" = .int s.serial) (e : ℝ) (he : r "energy" = .num (some e))
    (hout : (∀ a ∈ eff.energy, e < a) ∨ ∀ a ∈ eff.energy, a < e) :
    ∃ L, metaShellEfficiency shells eff = .ok L ∧ metaShellCall L t = .error .valueError := by
  refine ⟨_, metaShellEfficiency_ok (List.ne_nil_of_mem hs) (fun s hs => (hg.2.2 s hs).imp fun c hc => hc.1) hnum,
    metaShellCall_error _ t hn hrows ⟨r, hr, e, he, _, List.mem_map.2 ⟨s, hs, rfl⟩, by simp [hi, inShell], ?_⟩⟩
  have hmem : ∀ p ∈ eff.energy.zip ((effCol eff s.serial).map fun v => v * 100 / shellArea s), p.1 ∈ eff.energy := fun p hp => (List.of_mem_zip hp).1
  generalize eff.energy.zip ((effCol eff s.serial).map fun v => v * 100 / shellArea s) = tab at hmem
  unfold interp1d
  split
  · rename_i a b ha hb
    rw [if_pos]
    rcases hout with h | h
    · exact .inl (h _ (hmem a (List.mem_of_head? ha)))
    · exact .inr (h _ (hmem b (List.mem_of_getLast? hb)))
  · rfl

/-! ## The telescope -/

theorem ring_valid (f : ℝ) (s : MetaShellRow) (h : 0 ≤ s.rInner ∧ s.rInner < s.rOuter) :
    (metaShellRing f s).Valid ∧ Aperture.GoodNames { metaShellRing f s with idCol := some "shell" } := by
  have h0 : 0 < s.rOuter := by linarith [h.1, h.2]
  have hpi := Real.pi_pos
  have n1 : (vY (metaShellRing f s).m).xyz.norm = s.rOuter := by
    simp [metaShellRing, vY, col, compose, V3.norm, V3.dot, H4.xyz, Real.sqrt_mul_self h0.le]
  have n2 : (vZ (metaShellRing f s).m).xyz.norm = s.rOuter := by
    simp [metaShellRing, vZ, col, compose, V3.norm, V3.dot, H4.xyz, Real.sqrt_mul_self h0.le]
  refine ⟨⟨?_, ?_, ?_⟩, ?_, ?_⟩
  · simp [Affine, metaShellRing, compose]
  · refine ⟨?_, ?_, ?_, ?_, ?_, ?_⟩ <;> simp [metaShellRing, vX, vY, vZ, col, compose, V3.dot, H4.xyz, V3.ext_iff, h0.ne']
  · show (vY (metaShellRing f s).m).xyz.norm = (vZ (metaShellRing f s).m).xyz.norm ∧ 0 ≤ s.rInner ∧ s.rInner < (vY (metaShellRing f s).m).xyz.norm ∧ 0 ≤ 2 * Real.pi
    rw [n1, n2]
    exact ⟨rfl, h.1, h.2, by positivity⟩
  · intro c hc; cases hc; decide
  · intro x y hxy
    cases hxy
    simp

/-- **C134** What happens in the telescope, for every mirror with shells listed with serial numbers 1, 2, 3, ...: every photon enters through the ring of exactly one shell, but the group of apertures counts its members from 0. So photons in the first shell keep their probability whatever the efficiency of that shell, and photons in every other shell are reduced with the efficiency of the shell before. (`MetaShellMirror` between aperture and efficiency is left out.) -/
theorem C134_telescope (focallength : ℝ) (shells : List MetaShellRow) (eff : MetaShellEff) (hne : shells ≠ []) (hnum : Numbered shells) (hr : Rings shells) (hg : GoodEff shells eff)
    (draws : List ℝ) (hdr : ∀ x ∈ draws, 0 ≤ x ∧ x < 1) (u : ℕ → ℕ → ℝ × ℝ) (hu : ∀ i k, (0 ≤ (u i k).1 ∧ (u i k).1 < 1) ∧ 0 ≤ (u i k).2 ∧ (u i k).2 < 1)
    (ids : List ℕ) (hids : ids.Perm (apertureIds ((shells.map (metaShellRing focallength)).map Aperture.area) draws))
    (t : Table) (ht : HasDirs t) (hin : InRange eff t) (hn : draws.length = t.rows.length) (hphot : t.rows ≠ []) :
    ∃ as L t1 t2, metaShellAperture focallength shells = .ok as ∧ metaShellEfficiency shells eff = .ok L ∧ multiCall as [] [] ids u t = .ok t1 ∧ metaShellCall L t1 = .ok t2 ∧
      ∀ (j : ℕ) (r : Row) (e : ℝ), t.rows[j]? = some r → r "energy" = .num (some e) → ∃ (k : ℕ) (s : MetaShellRow) (r1 r2 : Row) (p : ℝ) (q : H4),
        shells[k]? = some s ∧ t1.rows[j]? = some r1 ∧ t2.rows[j]? = some r2 ∧
        r1 "pos" = vecVal (some q) ∧ s.rInner ^ 2 ≤ q.y ^ 2 + q.z ^ 2 ∧ q.y ^ 2 + q.z ^ 2 ≤ s.rOuter ^ 2 ∧ r1 "probability" = .num (some p) ∧
        (k = 0 → r2 = r1) ∧
        ∀ k' s' v, k = k' + 1 → shells[k']? = some s' → HasEffArea eff s' e v → r2 "probability" = .num (some (p * reflected v (shellArea s'))) := by
  have hpi := Real.pi_pos
  obtain ⟨as, a1, a2, a3, _⟩ := C134_area focallength shells hne hr
  have has : as = multiInit (shells.map (metaShellRing focallength)) "shell" 0 := by
    unfold metaShellAperture at a1
    rw [if_neg, if_neg hne] at a1
    · cases a1; rfl
    · push Not
      intro s hs
      rw [abs_of_nonneg (by linarith [(hr s hs).1, (hr s hs).2])]
      exact (hr s hs).2.le
  have harea : 0 < multiArea (shells.map (metaShellRing focallength)) := by
    have e1 : multiArea (shells.map (metaShellRing focallength)) = multiArea as := by
      rw [has]
      unfold multiArea multiInit
      congr 1
      apply List.ext_getElem
      · simp
      · intro k h1 h2
        simp [Aperture.area]
    rw [e1, a3]
    apply List.sum_pos
    · intro x hx
      obtain ⟨s, hs, rfl⟩ := List.mem_map.1 hx
      have := hr s hs
      exact mul_pos hpi (by nlinarith)
    · simpa using hne
  obtain ⟨t1, m1, m2, m3, m4⟩ := C107_multi_partial (shells.map (metaShellRing focallength)) "shell" 0
    (by
      intro a ha
      obtain ⟨s, hs, rfl⟩ := List.mem_map.1 ha
      exact ring_valid focallength s (hr s hs))
    draws hdr harea ids hids u hu t ht hn
  have energy1 : ∀ (j : ℕ) (r : Row), t.rows[j]? = some r → ∃ (k : ℕ) (s : MetaShellRow) (r1 : Row) (p : ℝ) (q : H4), shells[k]? = some s ∧ t1.rows[j]? = some r1 ∧ "shell" ∈ t1.names ∧
      r1 "shell" = .int k ∧ r1 "energy" = r "energy" ∧ r1 "probability" = .num (some p) ∧ r1 "pos" = vecVal (some q) ∧ s.rInner ^ 2 ≤ q.y ^ 2 + q.z ^ 2 ∧ q.y ^ 2 + q.z ^ 2 ≤ s.rOuter ^ 2 := by
    intro j r hj
    obtain ⟨k, a, r1, k1, k2, k3, kn, k4, ⟨q, q1, q2, q3⟩, k6, k7, k8⟩ := m4 j r hj
    rw [List.getElem?_map, Option.map_eq_some_iff] at k2
    obtain ⟨s, hs, rfl⟩ := k2
    obtain ⟨d, p, d1, d2, d3, d4⟩ := ht.2.2 r (List.mem_of_getElem? hj)
    have hs' := hr s (List.mem_of_getElem? hs)
    have h0 : 0 < s.rOuter := by linarith [hs'.1, hs'.2]
    refine ⟨k, s, r1, _, q, hs, k3, kn, by simpa using k4, ?_, k6 d p d1 d4, q1, ?_⟩
    · refine k8 "energy" hin.1 (by decide) ?_ ?_
      · simp
      · intro x y hxy
        simp only [metaShellRing, Option.some.injEq, Prod.mk.injEq] at hxy
        rw [← hxy.1, ← hxy.2]
        decide
    · obtain ⟨dd, phi, e1, e2, _, _, e5⟩ := q3
      have n1 : (vY (metaShellRing focallength s).m).xyz.norm = s.rOuter := by
        simp [metaShellRing, vY, col, compose, V3.norm, V3.dot, H4.xyz, Real.sqrt_mul_self h0.le]
      have e2' : dd ≤ s.rOuter := by rw [← n1]; exact e2
      have uy : (vY (metaShellRing focallength s).m).xyz.unit = ⟨0, 1, 0⟩ := by
        unfold V3.unit
        rw [n1]
        simp [metaShellRing, vY, col, compose, H4.xyz, V3.ext_iff, h0.ne']
      have n2 : (vZ (metaShellRing focallength s).m).xyz.norm = s.rOuter := by
        simp [metaShellRing, vZ, col, compose, V3.norm, V3.dot, H4.xyz, Real.sqrt_mul_self h0.le]
      have uz : (vZ (metaShellRing focallength s).m).xyz.unit = ⟨0, 0, 1⟩ := by
        unfold V3.unit
        rw [n2]
        simp [metaShellRing, vZ, col, compose, H4.xyz, V3.ext_iff, h0.ne']
      have hq : q.xyz = (center (metaShellRing focallength s).m).xyz + (dd * Real.cos phi) • (vY (metaShellRing focallength s).m).xyz.unit + (dd * Real.sin phi) • (vZ (metaShellRing focallength s).m).xyz.unit := e5
      rw [uy, uz] at hq
      have hy : q.y = dd * Real.cos phi := by
        have := congrArg V3.y hq
        simpa [metaShellRing, center, col, compose, H4.xyz] using this
      have hz : q.z = dd * Real.sin phi := by
        have := congrArg V3.z hq
        simpa [metaShellRing, center, col, compose, H4.xyz] using this
      have hsq : q.y ^ 2 + q.z ^ 2 = dd ^ 2 := by
        rw [hy, hz]
        have := Real.sin_sq_add_cos_sq phi
        linear_combination dd ^ 2 * this
      have e1' : s.rInner ≤ dd := e1
      rw [hsq]
      constructor <;> nlinarith [hs'.1]
  have hsh1 : "shell" ∈ t1.names := by
    obtain ⟨r, hr0⟩ := List.exists_mem_of_ne_nil _ hphot
    obtain ⟨j, hj, rfl⟩ := List.mem_iff_getElem.1 hr0
    obtain ⟨_, _, _, _, _, _, _, h, _⟩ := energy1 j _ (List.getElem?_eq_getElem hj)
    exact h
  have hin1 : InRange eff t1 := by
    refine ⟨m3.subset hin.1, m3.subset hin.2.1, ?_⟩
    intro r1 hr1
    obtain ⟨j, hj, rfl⟩ := List.mem_iff_getElem.1 hr1
    have hj' : j < t.rows.length := by omega
    obtain ⟨k, s, r1, p, q, x1, x2, x3, x4, x5, x6, _⟩ := energy1 j _ (List.getElem?_eq_getElem hj')
    obtain ⟨e, p', y1, y2, y3⟩ := hin.2.2 _ (List.getElem_mem hj')
    rw [List.getElem?_eq_getElem hj] at x2
    cases x2
    exact ⟨e, p, by rw [x5, y1], x6, y3⟩
  obtain ⟨L, t2, l1, l2, l3, l4, l5⟩ := C134_efficiency_partial shells eff hne hnum hg t1 hsh1 hin1
  refine ⟨as, L, t1, t2, a1, l1, by rw [has]; exact m1, l2, ?_⟩
  intro j r e hj he
  obtain ⟨k, s, r1, p, q, x1, x2, x3, x4, x5, x6, x7, x8, x9⟩ := energy1 j r hj
  obtain ⟨r2, z1, z2, z3⟩ := l5 j r1 x2
  refine ⟨k, s, r1, r2, p, q, x1, x2, z1, x7, x8, x9, x6, ?_, ?_⟩
  · intro hk
    refine z2 k x4 ?_
    intro s' hs' hser
    obtain ⟨i, hi, rfl⟩ := List.mem_iff_getElem.1 hs'
    rw [hnum i _ (List.getElem?_eq_getElem hi)] at hser
    omega
  · intro k' s' v hk hs' hv
    have hser : s'.serial = k := by rw [hnum k' s' hs', hk]; push_cast; ring
    rw [z3 s' (List.mem_of_getElem? hs') (by rw [hser]; exact x4) e p v (by rw [x5, he]) x6 hv]
    exact Function.update_self _ _ _

/-- a mirror with one shell (example) -/
def exShells : List MetaShellRow := [⟨1, 0, 1⟩]

/-- effective area of half of the geometric area (example) -/
noncomputable def exShellEff : MetaShellEff := ⟨[1, 2], fun i => if i = 1 then some [Real.pi / 200, Real.pi / 200] else none⟩

theorem exShells_ok : Numbered exShells ∧ Rings exShells ∧ GoodEff exShells exShellEff ∧ InRange exShellEff exFlyers ∧ HasDirs exFlyers := by
  refine ⟨?_, ?_, ?_, ?_, exFlyers_ok⟩
  · intro k s hk
    cases k with
    | zero => simp [exShells] at hk; simp [← hk]
    | succ k => simp [exShells] at hk
  · intro s hs
    simp only [exShells, List.mem_singleton] at hs
    subst hs
    norm_num
  · refine ⟨by simp [exShellEff], by norm_num [exShellEff], ?_⟩
    intro s hs
    simp only [exShells, List.mem_singleton] at hs
    subst hs
    exact ⟨[Real.pi / 200, Real.pi / 200], by simp [exShellEff], by simp [exShellEff]⟩
  · refine ⟨by simp [exFlyers], by simp [exFlyers], ?_⟩
    intro r hr
    have : r = exFlyer := by simpa [exFlyers] using hr
    subst this
    exact ⟨1, 1, by simp [exFlyer], by simp [exFlyer], ⟨1, by simp [exShellEff], le_rfl⟩, ⟨2, by simp [exShellEff], by norm_num⟩⟩

/-- **C134** (disagreement) The probability of photons should be reduced with the efficiency of the shell they go through. In a mirror with a single shell that reflects half of the photons, photons on the optical axis keep their full probability. -/
theorem C134_telescope_false : ∃ (shells : List MetaShellRow) (eff : MetaShellEff) (as : List Aperture) (L : List (ℤ × List (ℝ × ℝ))) (s : MetaShellRow) (ids : List ℕ) (draws : List ℝ) (u : ℕ → ℕ → ℝ × ℝ) (t t1 t2 : Table) (r1 r2 : Row),
    Numbered shells ∧ Rings shells ∧ GoodEff shells eff ∧ HasDirs t ∧ InRange eff t ∧
    ids.Perm (apertureIds ((shells.map (metaShellRing 1000)).map Aperture.area) draws) ∧ draws.length = t.rows.length ∧
    metaShellAperture 1000 shells = .ok as ∧ metaShellEfficiency shells eff = .ok L ∧ multiCall as [] [] ids u t = .ok t1 ∧ metaShellCall L t1 = .ok t2 ∧
    shells = [s] ∧ t1.rows[0]? = some r1 ∧ t2.rows[0]? = some r2 ∧ (∀ e, r1 "energy" = .num (some e) → ∃ v, HasEffArea eff s e v ∧ reflected v (shellArea s) = 1 / 2) ∧
    r1 "probability" = r2 "probability" := by
  obtain ⟨h1, h2, h3, h4, h5⟩ := exShells_ok
  have hpi := Real.pi_pos
  obtain ⟨as, L, t1, t2, g1, g2, g3, g4, g5⟩ := C134_telescope 1000 exShells exShellEff (by simp [exShells]) h1 h2 h3 [0.5, 0.5, 0.5] (by norm_num) (fun _ _ => (0.5, 0.5)) (by norm_num)
    (apertureIds ((exShells.map (metaShellRing 1000)).map Aperture.area) [0.5, 0.5, 0.5]) (List.Perm.refl _) exFlyers h5 h4 (by simp [exFlyers]) (by simp [exFlyers])
  obtain ⟨k, s, r1, r2, p, q, f1, f2, f3, f4, f5, f6, f7, f8, f9⟩ := g5 0 exFlyer 1 (by simp [exFlyers]) (by simp [exFlyer])
  have hk : k = 0 := by
    have := (List.getElem?_eq_some_iff.1 f1).1
    simp [exShells] at this
    exact this
  refine ⟨exShells, exShellEff, as, L, ⟨1, 0, 1⟩, _, [0.5, 0.5, 0.5], _, exFlyers, t1, t2, r1, r2, h1, h2, h3, h5, h4, List.Perm.refl _, by simp [exFlyers], g1, g2, g3, g4, rfl, f2, f3, ?_, by rw [f8 hk]⟩
  intro e _
  refine ⟨Real.pi / 200, ⟨_, by simp [exShellEff]; rfl, ?_⟩, ?_⟩
  · simp only [exShellEff, List.zip_cons_cons, List.zip_nil_right, interp]
    split_ifs <;> simp
  · unfold reflected shellArea
    have : 100 * (Real.pi / 200) / (Real.pi * (1 ^ 2 - 0 ^ 2)) = 1 / 2 := by
      field_simp
      norm_num
    rw [this]
    norm_num

end Marxs
