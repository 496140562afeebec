import Verif.Spec.Budget
import Verif.Props.Container
import Mathlib.Tactic.Linarith
import Mathlib.Tactic.FieldSimp
import Mathlib.Tactic.Ring
import Mathlib.Tactic.NormNum
import Mathlib.Tactic.IntervalCases
import Mathlib.Data.List.GetD

/-!
# C132: alignment budgets
-/

namespace Marxs
open Classical

variable {C A : Type}

/-! ## Reformatting -/

theorem reformatBudget_pos (conv : List ℝ → List ℝ) (hc : ∀ l, (conv l).length = l.length) (fac : Option ℝ) (z : ℕ → ℝ) (pos : ℕ) (rows : List (BudgetRow C)) :
    (reformatBudget conv fac z pos rows).2 = pos + (if fac = none then globalNumbers rows else 0) := by
  induction rows generalizing pos with
  | nil => simp [reformatBudget, globalNumbers]
  | cons r rs ih =>
    simp only [reformatBudget, ih]
    by_cases hk : r.kind = "global"
    · cases fac with
      | some f => simp [hk]
      | none => simp [hk, globalNumbers, hc]; omega
    · cases fac with
      | some f => simp [hk]
      | none => simp [hk, globalNumbers]

theorem mulDraws_get (z : ℕ → ℝ) (pos : ℕ) (l : List ℝ) (j : ℕ) : (mulDraws z pos l)[j]? = (l[j]?).map fun x => x * z (pos + j) := by
  induction l generalizing pos j with
  | nil => simp [mulDraws]
  | cons x xs ih =>
    cases j with
    | zero => simp [mulDraws]
    | succ j => simp only [mulDraws, List.getElem?_cons_succ, ih]; congr 1; funext y; congr 2; omega

theorem reformat_row (conv : List ℝ → List ℝ) (hc : ∀ l, (conv l).length = l.length) (fac : Option ℝ) (z : ℕ → ℝ) (pos : ℕ) (rows : List (BudgetRow C)) (i : ℕ) :
    (reformatBudget conv fac z pos rows).1[i]? = (rows[i]?).map fun r => { r with tol := some (
      if r.kind = "global" then
        match fac with
        | some f => (conv r.spec).map (fun x => x * f)
        | none => mulDraws z (pos + globalNumbers (rows.take i)) (conv r.spec)
      else conv r.spec) } := by
  induction rows generalizing pos i with
  | nil => simp [reformatBudget]
  | cons r rs ih =>
    cases i with
    | zero =>
      simp only [reformatBudget, List.getElem?_cons_zero, Option.map_some, List.take_zero]
      by_cases hk : r.kind = "global"
      · cases fac <;> simp [hk, globalNumbers]
      · simp [hk]
    | succ i =>
      simp only [reformatBudget, List.getElem?_cons_succ, List.take_succ_cons]
      by_cases hk : r.kind = "global"
      · cases fac with
        | some f => simp only [hk, if_true, ih]
        | none =>
          simp only [hk, if_true, ih]
          congr 1; funext r'
          simp [globalNumbers, hk, hc, Nat.add_assoc]
      · simp only [hk, if_false, ih]
        congr 1; funext r'
        simp [globalNumbers, hk]

theorem randallUnits_length (l : List ℝ) : (randallUnits l).length = l.length := by
  simp [randallUnits]; omega

theorem randallUnits_get (l : List ℝ) (j : ℕ) : (randallUnits l)[j]? = (l[j]?).map (oneSigma j) := by
  unfold randallUnits
  rw [List.getElem?_map]
  by_cases hj : j < 3
  · by_cases hl : j < l.length
    · rw [List.getElem?_append_left (by simp; omega), List.getElem?_map, List.getElem?_take_of_lt hj]
      simp only [Option.map_map]
      congr 1; funext x
      simp only [Function.comp, oneSigma, hj, if_true]; ring
    · have : l.drop 3 = [] := by rw [List.drop_eq_nil_iff]; omega
      rw [this]
      simp only [List.map_nil, List.append_nil]
      rw [List.getElem?_eq_none (by simp; omega), List.getElem?_eq_none (by omega)]; rfl
  · by_cases hl : j < l.length
    · rw [List.getElem?_append_right (by simp; omega), List.getElem?_map, List.getElem?_drop]
      have : 3 + (j - ((l.take 3).map fun x => x / 1000).length) = j := by simp; omega
      rw [this]
      simp only [Option.map_map]
      congr 1; funext x
      simp only [Function.comp, oneSigma, hj, if_false, npDeg2rad]
      field_simp
    · rw [List.getElem?_eq_none (by simp; omega), List.getElem?_eq_none (by omega)]; rfl

theorem reformat_length (conv : List ℝ → List ℝ) (fac : Option ℝ) (z : ℕ → ℝ) (pos : ℕ) (rows : List (BudgetRow C)) :
    (reformatBudget conv fac z pos rows).1.length = rows.length := by
  induction rows generalizing pos with
  | nil => simp [reformatBudget]
  | cons r rs ih => simp [reformatBudget, ih]

theorem reformat_entries (conv : List ℝ → List ℝ) (g : ℕ → ℝ → ℝ) (hc : ∀ l, (conv l).length = l.length) (hg : ∀ l j, (conv l)[j]? = (l[j]?).map (g j))
    (fac : Option ℝ) (z : ℕ → ℝ) (pos : ℕ) (rows : List (BudgetRow C)) (i : ℕ) (r : BudgetRow C) (hr : rows[i]? = some r) :
    ∃ r' t, (reformatBudget conv fac z pos rows).1[i]? = some r' ∧
      r'.cls = r.cls ∧ r'.kind = r.kind ∧ r'.spec = r.spec ∧ r'.comment = r.comment ∧ r'.tol = some t ∧ t.length = r.spec.length ∧
      ∀ j v, r.spec[j]? = some v → t[j]? = some (g j v *
        if r.kind = "global" then fac.getD (z (pos + globalNumbers (rows.take i) + j)) else 1) := by
  rw [reformat_row _ hc, hr]
  refine ⟨_, _, rfl, rfl, rfl, rfl, rfl, rfl, ?_, ?_⟩
  · by_cases hk : r.kind = "global"
    · cases fac with
      | some f => simp [hk, hc]
      | none =>
        simp only [hk, if_true]
        have : ∀ (p : ℕ) (l : List ℝ), (mulDraws z p l).length = l.length := by
          intro p l
          induction l generalizing p with
          | nil => rfl
          | cons x xs ih => simp [mulDraws, ih]
        rw [this, hc]
    · simp [hk, hc]
  · intro j v hv
    by_cases hk : r.kind = "global"
    · cases fac with
      | some f => simp [hk, hg, hv]
      | none => simp [hk, hg, hv, mulDraws_get]
    · simp [hk, hg, hv]

/-- **C132** Reformatting a budget in the format of Arcus: rows stay what they are, only the list of usable tolerances is filled in. It has as many numbers as the specification; each is one sigma in
mm or rad, scaled with the factor for global rows, or, without a factor, with a random number that is not used for anything else. -/
theorem C132_arcus (fac : Option ℝ) (z : ℕ → ℝ) (pos : ℕ) (rows : List (BudgetRow C)) :
    (reformatBudget randallUnits fac z pos rows).1.length = rows.length ∧
    ∀ i r, rows[i]? = some r → ∃ r' t, (reformatBudget randallUnits fac z pos rows).1[i]? = some r' ∧
      r'.cls = r.cls ∧ r'.kind = r.kind ∧ r'.spec = r.spec ∧ r'.comment = r.comment ∧ r'.tol = some t ∧ t.length = r.spec.length ∧
      ∀ j v, r.spec[j]? = some v → t[j]? = some (oneSigma j v *
        if r.kind = "global" then fac.getD (z (pos + globalNumbers (rows.take i) + j)) else 1) :=
  ⟨reformat_length _ _ _ _ _, reformat_entries _ _ randallUnits_length randallUnits_get _ _ _ _⟩

/-- **C132** The same for the format of Lynx, where tolerances are one sigma in mm and rad already. -/
theorem C132_lynx (fac : Option ℝ) (z : ℕ → ℝ) (pos : ℕ) (rows : List (BudgetRow C)) :
    (reformatBudget (fun l => l) fac z pos rows).1.length = rows.length ∧
    ∀ i r, rows[i]? = some r → ∃ r' t, (reformatBudget (fun l => l) fac z pos rows).1[i]? = some r' ∧
      r'.cls = r.cls ∧ r'.kind = r.kind ∧ r'.spec = r.spec ∧ r'.comment = r.comment ∧ r'.tol = some t ∧ t.length = r.spec.length ∧
      ∀ j v, r.spec[j]? = some v → t[j]? = some (v *
        if r.kind = "global" then fac.getD (z (pos + globalNumbers (rows.take i) + j)) else 1) :=
  ⟨reformat_length _ _ _ _ _, reformat_entries (fun l => l) (fun _ v => v) (fun _ => rfl) (fun l j => by simp) _ _ _ _⟩

/-- **C132** With a fixed factor a budget can be reformatted again, with this or another factor: the result is that for the last factor only. -/
theorem C132_again (conv : List ℝ → List ℝ) (f f' : ℝ) (z : ℕ → ℝ) (pos : ℕ) (rows : List (BudgetRow C)) :
    reformatBudget conv (some f) z pos (reformatBudget conv (some f') z pos rows).1 = reformatBudget conv (some f) z pos rows := by
  induction rows with
  | nil => rfl
  | cons r rs ih =>
    simp only [reformatBudget]
    by_cases hk : r.kind = "global"
    · simp only [hk, if_true, ih]
    · simp only [hk, if_false, ih]

example : (⟨"CAT", "global", [1000, 1000, 1000, 300, 300, 600], none, "CAT petal to SPO petal"⟩ : BudgetRow String) ∈
    [(⟨"CAT", "global", [1000, 1000, 1000, 300, 300, 600], none, "CAT petal to SPO petal"⟩ : BudgetRow String)] ∧
    oneSigma 0 1000 = 1 / 3 := by
  refine ⟨by simp, by norm_num [oneSigma]⟩

/-! ## Applying the budget -/

theorem alignAll_append (isPar : C → Bool) (fresh : ℕ → Align A) (kind : String) (tol : List ℝ) (z : ℕ → ℝ) (a b : List (Elt C)) (s : (ℕ → Align A) × ℕ) :
    alignAll isPar fresh kind tol z (a ++ b) s = match alignAll isPar fresh kind tol z a s with
      | .error x => .error x
      | .ok s => alignAll isPar fresh kind tol z b s := by
  induction a generalizing s with
  | nil => rfl
  | cons e es ih =>
    simp only [List.cons_append, alignAll]
    cases alignOne isPar fresh kind tol z e s with
    | error x => rfl
    | ok s => exact ih s

mutual
theorem walk_ident : ∀ (e : Elt C) (anc : List (Elt C)), ∀ x ∈ e.walk anc, x.2.ident ∈ e.idents
  | .leaf c i, anc => by simp [Elt.walk, Elt.idents, Elt.ident]
  | .cont c i es, anc => by
    intro x hx
    simp only [Elt.walk, List.mem_cons] at hx
    rcases hx with rfl | hx
    · simp [Elt.idents, Elt.ident]
    · simp only [Elt.idents, List.mem_cons]
      exact Or.inr (walkList_ident es _ x hx)
theorem walkList_ident : ∀ (es : List (Elt C)) (anc : List (Elt C)), ∀ x ∈ walkList anc es, x.2.ident ∈ identsList es
  | [], anc => by simp [walkList]
  | e :: es, anc => by
    intro x hx
    simp only [walkList, List.mem_append] at hx
    simp only [identsList, List.mem_append]
    rcases hx with hx | hx
    · exact Or.inl (walk_ident e anc x hx)
    · exact Or.inr (walkList_ident es anc x hx)
end

/-- What one call does to the objects in a list of pairs (outer structures, object). `off` tells which random numbers are used. -/
def Done (isPar : C → Bool) (fresh : ℕ → Align A) (m : C → Bool) (kind : String) (tol : List ℝ) (z : ℕ → ℝ) (s s' : (ℕ → Align A) × ℕ) (off : ℕ → ℕ)
    (x : List (Elt C) × Elt C) : Prop :=
  ((∃ a ∈ x.1, m a.cls = true) → s'.1 x.2.ident = fresh x.2.ident) ∧
  ((∀ a ∈ x.1, m a.cls = false) → m x.2.cls = true → isPar x.2.cls = true ∧ tol.length ≤ 6 ∧ ∃ used,
    alignOp kind tol x.2.inner.length (s.1 x.2.ident) (fun k => z (off x.2.ident + k)) = .ok (s'.1 x.2.ident, used) ∧ s.2 ≤ off x.2.ident ∧ off x.2.ident + used ≤ s'.2) ∧
  ((∀ a ∈ x.1, m a.cls = false) → m x.2.cls = false → s'.1 x.2.ident = s.1 x.2.ident)

/-- Two objects that are both moved use different random numbers. -/
def Apart (m : C → Bool) (kind : String) (off : ℕ → ℕ) (l : List (List (Elt C) × Elt C)) : Prop :=
  l.Pairwise fun x y => (∀ a ∈ x.1, m a.cls = false) → (∀ a ∈ y.1, m a.cls = false) → m x.2.cls = true → m y.2.cls = true →
    off x.2.ident + (if kind = "global" then 0 else 6 * x.2.inner.length) ≤ off y.2.ident

theorem alignOp_used {kind : String} {tol : List ℝ} {n : ℕ} {a a' : Align A} {z : ℕ → ℝ} {used : ℕ} (h : alignOp kind tol n a z = .ok (a', used)) :
    used = if kind = "global" then 0 else 6 * n := by
  unfold alignOp at h
  by_cases hk : kind = "global"
  · simp [hk] at h; simp [hk, h.2]
  · simp only [hk, if_false] at h
    split at h
    · cases h
    · simp at h; simp [hk, h.2]

mutual
theorem align_tree (isPar : C → Bool) (fresh : ℕ → Align A) (m : C → Bool) (kind : String) (tol : List ℝ) (z : ℕ → ℝ) : ∀ (e : Elt C) (anc : List (Elt C))
    (s s' : (ℕ → Align A) × ℕ), (∀ a ∈ anc, m a.cls = false) → e.idents.Nodup →
    alignAll isPar fresh kind tol z (if m e.cls then [e] else e.elementsOfClass m false) s = .ok s' →
    s.2 ≤ s'.2 ∧ (∀ j, j ∉ e.idents → s'.1 j = s.1 j) ∧ ∃ off, (∀ x ∈ e.walk anc, Done isPar fresh m kind tol z s s' off x) ∧ Apart m kind off (e.walk anc)
  | .leaf c i, anc, s, s', ha, hn, h => by
    by_cases hm : m c = true
    · simp only [Elt.cls, hm, if_true, alignAll, alignOne] at h
      by_cases ht : tol.length > 6 <;> simp [ht] at h
    · simp only [Elt.cls, hm, Bool.false_eq_true, if_false, Elt.elementsOfClass, alignAll] at h
      obtain rfl : s = s' := by simpa using h
      refine ⟨le_rfl, fun _ _ => rfl, fun _ => 0, ?_, ?_⟩
      · intro x hx
        obtain rfl : x = (anc, .leaf c i) := by simpa [Elt.walk] using hx
        refine ⟨?_, ?_, fun _ _ => rfl⟩
        · rintro ⟨a, h1, h2⟩
          rw [ha a h1] at h2; cases h2
        · intro _ h2
          exact absurd h2 (by simpa [Elt.cls] using hm)
      · simp [Apart, Elt.walk]
  | .cont c i es, anc, s, s', ha, hn, h => by
    simp only [Elt.idents, List.nodup_cons] at hn
    by_cases hm : m c = true
    · simp only [Elt.cls, hm, if_true, alignAll, alignOne] at h
      by_cases ht : tol.length > 6
      · simp [ht] at h
      · simp only [ht, if_false] at h
        cases hop : alignOp kind tol es.length (s.1 i) (fun k => z (s.2 + k)) with
        | error x => simp [hop] at h
        | ok r =>
          simp only [hop] at h
          by_cases hp : isPar c = true
          · simp only [hp, if_true] at h
            obtain rfl : _ = s' := by simpa using h
            refine ⟨by simp, ?_, fun _ => s.2, ?_, ?_⟩
            · intro j hj
              simp only [Elt.idents, List.mem_cons, not_or] at hj
              simp [hj.1, hj.2]
            · intro x hx
              simp only [Elt.walk, List.mem_cons] at hx
              rcases hx with rfl | hx
              · refine ⟨?_, ?_, ?_⟩
                · rintro ⟨a, h1, h2⟩
                  rw [ha a h1] at h2; cases h2
                · intro _ _
                  exact ⟨hp, by omega, r.2, by simp [Elt.inner, Elt.ident, hop], le_rfl, le_rfl⟩
                · intro _ h2
                  simp only [Elt.cls, hm] at h2; cases h2
              · have hanc : Elt.cont c i es ∈ x.1 := walkList_anc es _ (by simp) x hx
                have hid := walkList_ident es _ x hx
                have hne : x.2.ident ≠ i := fun hh => hn.1 (hh ▸ hid)
                refine ⟨?_, ?_, ?_⟩
                · intro _
                  simp [hne, hid]
                · intro h1
                  have := h1 _ hanc
                  simp only [Elt.cls, hm] at this; cases this
                · intro h1
                  have := h1 _ hanc
                  simp only [Elt.cls, hm] at this; cases this
            · unfold Apart
              simp only [Elt.walk, List.pairwise_cons]
              refine ⟨?_, ?_⟩
              · intro y hy _ h2
                have := h2 (Elt.cont c i es) (walkList_anc es _ (by simp) y hy)
                simp only [Elt.cls, hm] at this; cases this
              · refine List.Pairwise.imp_of_mem (R := fun _ _ => True) ?_ (List.pairwise_of_forall (fun _ _ => trivial))
                intro x y hx _ _ h1
                have := h1 (Elt.cont c i es) (walkList_anc es _ (by simp) x hx)
                simp only [Elt.cls, hm] at this; cases this
          · simp [hp] at h
    · have hm' : m c = false := by simpa using hm
      simp only [Elt.cls, hm, Bool.false_eq_true, if_false, Elt.elementsOfClass] at h
      obtain ⟨i1, i2, off, i3, i4⟩ := align_forest isPar fresh m kind tol z es (.cont c i es :: anc) s s' (by
        simp only [List.mem_cons, forall_eq_or_imp]; exact ⟨hm', ha⟩) hn.2 h
      refine ⟨i1, ?_, off, ?_, ?_⟩
      · intro j hj
        simp only [Elt.idents, List.mem_cons, not_or] at hj
        exact i2 j hj.2
      · intro x hx
        simp only [Elt.walk, List.mem_cons] at hx
        rcases hx with rfl | hx
        · refine ⟨?_, ?_, ?_⟩
          · rintro ⟨a, h1, h2⟩
            rw [ha a h1] at h2; cases h2
          · intro _ h2
            simp only [Elt.cls, hm'] at h2; cases h2
          · intro _ _
            exact i2 i hn.1
        · exact i3 x hx
      · unfold Apart
        simp only [Elt.walk, List.pairwise_cons]
        refine ⟨?_, i4⟩
        intro y _ _ _ h2
        simp only [Elt.cls, hm'] at h2; cases h2
theorem align_forest (isPar : C → Bool) (fresh : ℕ → Align A) (m : C → Bool) (kind : String) (tol : List ℝ) (z : ℕ → ℝ) : ∀ (es : List (Elt C)) (anc : List (Elt C))
    (s s' : (ℕ → Align A) × ℕ), (∀ a ∈ anc, m a.cls = false) → (identsList es).Nodup →
    alignAll isPar fresh kind tol z (elementsOfClassList m es) s = .ok s' →
    s.2 ≤ s'.2 ∧ (∀ j, j ∉ identsList es → s'.1 j = s.1 j) ∧ ∃ off, (∀ x ∈ walkList anc es, Done isPar fresh m kind tol z s s' off x) ∧ Apart m kind off (walkList anc es)
  | [], anc, s, s', ha, hn, h => by
    simp only [elementsOfClassList, alignAll] at h
    obtain rfl : s = s' := by simpa using h
    exact ⟨le_rfl, fun _ _ => rfl, fun _ => 0, by simp [walkList], by simp [walkList, Apart]⟩
  | e :: es, anc, s, s', ha, hn, h => by
    simp only [identsList, List.nodup_append'] at hn
    obtain ⟨n1, n2, n3⟩ := hn
    simp only [elementsOfClassList, alignAll_append] at h
    cases hm : alignAll isPar fresh kind tol z (if m e.cls then [e] else e.elementsOfClass m false) s with
    | error x => rw [hm] at h; cases h
    | ok s1 =>
      rw [hm] at h
      obtain ⟨a1, a2, off1, a3, a4⟩ := align_tree isPar fresh m kind tol z e anc s s1 ha n1 hm
      obtain ⟨b1, b2, off2, b3, b4⟩ := align_forest isPar fresh m kind tol z es anc s1 s' ha n2 h
      have e1 : ∀ j ∈ e.idents, s'.1 j = s1.1 j := fun j hj => b2 j (fun hh => n3 hj hh)
      have e2 : ∀ j ∈ identsList es, s1.1 j = s.1 j := fun j hj => a2 j (fun hh => n3 hh hj)
      refine ⟨a1.trans b1, ?_, fun j => if j ∈ e.idents then off1 j else off2 j, ?_, ?_⟩
      · intro j hj
        simp only [identsList, List.mem_append, not_or] at hj
        rw [b2 j hj.2, a2 j hj.1]
      · intro x hx
        simp only [walkList, List.mem_append] at hx
        rcases hx with hx | hx
        · have hid := walk_ident e anc x hx
          obtain ⟨d1, d2, d3⟩ := a3 x hx
          refine ⟨?_, ?_, ?_⟩
          · intro hh; rw [e1 _ hid]; exact d1 hh
          · intro h1 h2
            obtain ⟨p1, p2, used, p3, p4, p5⟩ := d2 h1 h2
            simp only [hid, if_true]
            exact ⟨p1, p2, used, by rw [e1 _ hid]; exact p3, p4, p5.trans b1⟩
          · intro h1 h2; rw [e1 _ hid]; exact d3 h1 h2
        · have hid := walkList_ident es anc x hx
          have hid' : x.2.ident ∉ e.idents := fun hh => n3 hh hid
          obtain ⟨d1, d2, d3⟩ := b3 x hx
          refine ⟨d1, ?_, ?_⟩
          · intro h1 h2
            obtain ⟨p1, p2, used, p3, p4, p5⟩ := d2 h1 h2
            simp only [hid', if_false]
            exact ⟨p1, p2, used, by rw [← e2 _ hid]; exact p3, a1.trans p4, p5⟩
          · intro h1 h2; rw [d3 h1 h2, e2 _ hid]
      · unfold Apart at *
        simp only [walkList, List.pairwise_append]
        refine ⟨?_, ?_, ?_⟩
        · refine a4.imp_of_mem ?_
          intro x y hx hy hxy
          simpa only [walk_ident e anc x hx, walk_ident e anc y hy, if_true] using hxy
        · refine b4.imp_of_mem ?_
          intro x y hx hy hxy
          have hx' : x.2.ident ∉ e.idents := fun hh => n3 hh (walkList_ident es anc x hx)
          have hy' : y.2.ident ∉ e.idents := fun hh => n3 hh (walkList_ident es anc y hy)
          simpa only [hx', hy', if_false] using hxy
        · intro x hx y hy h1 h2 h3 h4
          have hy' : y.2.ident ∉ e.idents := fun hh => n3 hh (walkList_ident es anc y hy)
          simp only [walk_ident e anc x hx, hy', if_true, if_false]
          obtain ⟨_, _, used, p3, p4, p5⟩ := (a3 x hx).2.1 h1 h3
          obtain ⟨_, _, used', q3, q4, q5⟩ := (b3 y hy).2.1 h2 h4
          rw [← alignOp_used p3]
          omega
end

theorem facets_eq (l : List ℝ) (n : ℕ) (zt zr : ℕ → Fin 3 → ℝ) (u : List M4)
    (h : generateFacetUncertainty n ![(dofOfList l).dx, (dofOfList l).dy, (dofOfList l).dz] ![(dofOfList l).rx, (dofOfList l).ry, (dofOfList l).rz] 0 0 zt zr = .ok u) :
    u = randomShifts l n zt zr := by
  unfold generateFacetUncertainty at h
  split at h
  · cases h
  · simp only [Except.ok.injEq] at h
    rw [← h, List.zip_map', List.map_map]
    unfold randomShifts
    congr 1
    funext i
    simp only [Function.comp, moveMat, dofOfList]
    congr 1
    · funext k; fin_cases k <;> simp
    · simp

theorem alignOp_spec {kind : String} (hk : kind = "global" ∨ kind = "individual") {tol : List ℝ} {n : ℕ} {a a' : Align A} {z : ℕ → ℝ} {used : ℕ}
    (h : alignOp kind tol n a z = .ok (a', used)) :
    a'.own = a.own ∧
    (kind = "global" → a'.unc = shiftBy tol ∧ a'.elemUnc = a.elemUnc) ∧
    (kind = "individual" → a'.unc = a.unc ∧ a'.elemUnc = randomShifts tol n (fun i k => z (3 * i + k)) (fun i k => z (3 * n + 3 * i + k))) := by
  unfold alignOp at h
  rcases hk with rfl | rfl
  · simp only [if_true] at h
    cases h
    exact ⟨rfl, fun _ => ⟨rfl, rfl⟩, fun h => absurd h (by decide)⟩
  · simp only [show ¬ ("individual" = "global") by decide, if_false] at h
    split at h
    · cases h
    · rename_i u hu
      cases h
      exact ⟨rfl, fun h => absurd h (by decide), fun _ => ⟨rfl, facets_eq _ _ _ _ _ hu⟩⟩

/-- Normal numbers for the displacements along the axes, the first of `6 * n` numbers for one structure. -/
def shiftDraws (z : ℕ → ℝ) (o : ℕ) : ℕ → Fin 3 → ℝ := fun i k => z (o + (3 * i + k))

/-- Normal numbers for the rotations, the second half of `6 * n` numbers for one structure. -/
def turnDraws (z : ℕ → ℝ) (o n : ℕ) : ℕ → Fin 3 → ℝ := fun i k => z (o + (3 * n + 3 * i + k))

variable [BEq C] [LawfulBEq C]

/-- **C132** One row of the budget, for telescopes with any structures within structures. Objects inside of a structure that is moved are made new. Structures that are moved keep what they are, except
that for a global row the displacement of the structure is set, and for an individual row that of all its elements, from random numbers that are used only once. All other objects stay what they are. -/
theorem C132_row (isPar : C → Bool) (fresh : ℕ → Align A) (z : ℕ → ℝ) (c0 : C) (i0 : ℕ) (es : List (Elt C)) (row : BudgetRow C) (s s' : (ℕ → Align A) × ℕ)
    (h0 : isPar c0 = false) (hn : (identsList es).Nodup) (h : alignRow isPar fresh z (.cont c0 i0 es) row s = .ok s') :
    ∃ (t : List ℝ) (o : ℕ → ℕ), row.tol = some t ∧ s.2 ≤ s'.2 ∧
    (∀ outer e, PartOf (.cont c0 i0 es) outer e →
      (MovesOuter row outer → s'.1 e.ident = fresh e.ident) ∧
      (Moves row outer e → (s'.1 e.ident).own = (s.1 e.ident).own ∧
        (row.kind = "global" → (s'.1 e.ident).unc = shiftBy t ∧ (s'.1 e.ident).elemUnc = (s.1 e.ident).elemUnc) ∧
        (row.kind = "individual" → (s'.1 e.ident).unc = (s.1 e.ident).unc ∧
          (s'.1 e.ident).elemUnc = randomShifts t e.inner.length (shiftDraws z (o e.ident)) (turnDraws z (o e.ident) e.inner.length) ∧
          s.2 ≤ o e.ident ∧ o e.ident + 6 * e.inner.length ≤ s'.2)) ∧
      (¬ MovesOuter row outer → ¬ Moves row outer e → s'.1 e.ident = s.1 e.ident)) ∧
    (∀ x ∈ walkList [] es, ∀ y ∈ walkList [] es, Moves row x.1 x.2 → Moves row y.1 y.2 → x.2.ident ≠ y.2.ident → row.kind = "individual" →
      o x.2.ident + 6 * x.2.inner.length ≤ o y.2.ident ∨ o y.2.ident + 6 * y.2.inner.length ≤ o x.2.ident) := by
  unfold alignRow at h
  by_cases hk : row.kind = "global" ∨ row.kind = "individual"
  swap
  · simp [hk] at h
  simp only [hk, if_true] at h
  cases ht : row.tol with
  | none => simp [ht] at h
  | some t =>
    simp only [ht] at h
    have hc : (c0 == row.cls) = false := by
      by_contra hh
      rw [Bool.not_eq_false] at hh
      simp only [Elt.elementsOfClass, hh, if_true, Bool.false_eq_true, if_false, alignAll, alignOne] at h
      by_cases h6 : t.length > 6
      · simp [h6] at h
      · simp only [h6, if_false, h0, Bool.false_eq_true] at h
        cases hop : alignOp row.kind t es.length (s.1 i0) (fun k => z (s.2 + k)) <;> simp [hop] at h
    simp only [Elt.elementsOfClass, hc, Bool.false_eq_true, if_false] at h
    obtain ⟨h1, h2, off, h3, h4⟩ := align_forest isPar fresh (fun c => c == row.cls) row.kind t z es [] s s' (by simp) hn h
    have conv : ∀ outer : List (Elt C), ¬ MovesOuter row outer → ∀ a ∈ outer, (a.cls == row.cls) = false := by
      intro outer ho a ha
      simp only [beq_eq_false_iff_ne]
      exact fun hh => ho ⟨a, ha, hh⟩
    refine ⟨t, off, rfl, h1, ?_, ?_⟩
    · intro outer e he
      obtain ⟨d1, d2, d3⟩ := h3 (outer, e) he
      refine ⟨?_, ?_, ?_⟩
      · rintro ⟨a, ha, hh⟩
        exact d1 ⟨a, ha, by simpa using hh⟩
      · rintro ⟨m1, m2⟩
        obtain ⟨p1, p2, used, p3, p4, p5⟩ := d2 (by simpa using m2) (by simpa using m1)
        obtain ⟨q1, q2, q3⟩ := alignOp_spec hk p3
        refine ⟨q1, q2, fun hi => ⟨(q3 hi).1, ?_, p4, ?_⟩⟩
        · exact (q3 hi).2
        · have := alignOp_used p3
          simp only [hi, show ¬ ("individual" = "global") by decide, if_false] at this
          rw [← this]; exact p5
      · intro n1 n2
        refine d3 (conv outer n1) ?_
        simp only [beq_eq_false_iff_ne]
        intro hh
        exact n2 ⟨hh, fun a ha hh' => n1 ⟨a, ha, hh'⟩⟩
    · intro x hx y hy mx my hne hi
      have hxy : x ≠ y := fun hh => hne (by rw [hh])
      have hp := List.pairwise_iff_getElem.1 h4
      obtain ⟨i, hi', rfl⟩ := List.getElem_of_mem hx
      obtain ⟨j, hj', rfl⟩ := List.getElem_of_mem hy
      rcases Nat.lt_trichotomy i j with hij | hij | hij
      · left
        have := hp i j hi' hj' hij (by simpa using mx.2) (by simpa using my.2) (by simpa using mx.1) (by simpa using my.1)
        simpa [hi] using this
      · subst hij; exact absurd rfl hxy
      · right
        have := hp j i hj' hi' hij (by simpa using my.2) (by simpa using mx.2) (by simpa using my.1) (by simpa using mx.1)
        simpa [hi] using this

theorem alignTelescope_append (isPar : C → Bool) (fresh : ℕ → Align A) (z : ℕ → ℝ) (tel : Elt C) (a b : List (BudgetRow C)) (s s' : (ℕ → Align A) × ℕ)
    (h : alignTelescope isPar fresh z tel (a ++ b) s = .ok s') :
    ∃ s1, alignTelescope isPar fresh z tel a s = .ok s1 ∧ alignTelescope isPar fresh z tel b s1 = .ok s' := by
  induction a generalizing s with
  | nil => exact ⟨s, rfl, h⟩
  | cons r rs ih =>
    simp only [List.cons_append, alignTelescope] at h ⊢
    cases hr : alignRow isPar fresh z tel r s with
    | error x => rw [hr] at h; cases h
    | ok s1 => rw [hr] at h; exact ih s1 h

theorem alignRow_kind {isPar : C → Bool} {fresh : ℕ → Align A} {z : ℕ → ℝ} {tel : Elt C} {row : BudgetRow C} {s s' : (ℕ → Align A) × ℕ}
    (h : alignRow isPar fresh z tel row s = .ok s') : row.kind = "global" ∨ row.kind = "individual" := by
  by_contra hk
  unfold alignRow at h
  simp [hk] at h

/-- Something that only rows that move the object or an outer structure can change. -/
theorem align_keeps {β : Type} (get : Align A → β) (isPar : C → Bool) (fresh : ℕ → Align A) (z : ℕ → ℝ) (c0 : C) (i0 : ℕ) (es : List (Elt C)) (h0 : isPar c0 = false) (hn : (identsList es).Nodup)
    (outer : List (Elt C)) (e : Elt C) (he : PartOf (.cont c0 i0 es) outer e) (rows : List (BudgetRow C)) (s s' : (ℕ → Align A) × ℕ)
    (h : alignTelescope isPar fresh z (.cont c0 i0 es) rows s = .ok s') (ho : ∀ r ∈ rows, ¬ MovesOuter r outer)
    (hm : ∀ r ∈ rows, Moves r outer e → ∀ s s', alignRow isPar fresh z (.cont c0 i0 es) r s = .ok s' → get (s'.1 e.ident) = get (s.1 e.ident)) :
    get (s'.1 e.ident) = get (s.1 e.ident) := by
  induction rows generalizing s with
  | nil =>
    simp only [alignTelescope, Except.ok.injEq] at h
    rw [h]
  | cons r rs ih =>
    simp only [alignTelescope] at h
    cases hr : alignRow isPar fresh z (.cont c0 i0 es) r s with
    | error x => rw [hr] at h; cases h
    | ok s1 =>
      rw [hr] at h
      rw [ih s1 h (fun r hr => ho r (by simp [hr])) (fun r hr => hm r (by simp [hr]))]
      by_cases hmv : Moves r outer e
      · exact hm r (by simp) hmv s s1 hr
      · obtain ⟨_, _, _, _, hd, _⟩ := C132_row isPar fresh z c0 i0 es r s s1 h0 hn hr
        rw [(hd outer e he).2.2 (ho r (by simp)) hmv]

/-- **C132** The whole budget: after all rows a structure is displaced as given in the last global row that names its class, if no later row moves an outer structure. Rows for other classes and individual
rows do not change it. -/
theorem C132_global (isPar : C → Bool) (fresh : ℕ → Align A) (z : ℕ → ℝ) (c0 : C) (i0 : ℕ) (es : List (Elt C)) (h0 : isPar c0 = false) (hn : (identsList es).Nodup)
    (outer : List (Elt C)) (e : Elt C) (he : PartOf (.cont c0 i0 es) outer e) (before after : List (BudgetRow C)) (row : BudgetRow C) (t : List ℝ) (s s' : (ℕ → Align A) × ℕ)
    (h : alignTelescope isPar fresh z (.cont c0 i0 es) (before ++ row :: after) s = .ok s') (ht : row.tol = some t)
    (hk : row.kind = "global") (hmv : Moves row outer e) (ho : ∀ r ∈ after, ¬ MovesOuter r outer) (ha : ∀ r ∈ after, Moves r outer e → r.kind ≠ "global") :
    (s'.1 e.ident).unc = shiftBy t := by
  obtain ⟨s1, _, h2⟩ := alignTelescope_append isPar fresh z _ _ _ _ _ h
  simp only [alignTelescope] at h2
  cases hr : alignRow isPar fresh z (.cont c0 i0 es) row s1 with
  | error x => rw [hr] at h2; cases h2
  | ok s2 =>
    rw [hr] at h2
    obtain ⟨t', o, h3, _, h4, _⟩ := C132_row isPar fresh z c0 i0 es row s1 s2 h0 hn hr
    obtain rfl : t' = t := by rw [h3] at ht; simpa using ht
    rw [align_keeps (fun a => a.unc) isPar fresh z c0 i0 es h0 hn outer e he after s2 s' h2 ho ?_]
    · exact (((h4 outer e he).2.1 hmv).2.1 hk).1
    · intro r hra hrm sa sb hab
      obtain ⟨_, _, _, _, hd, _⟩ := C132_row isPar fresh z c0 i0 es r sa sb h0 hn hab
      have hi := (alignRow_kind hab).resolve_left (ha r hra hrm)
      exact (((hd outer e he).2.1 hrm).2.2 hi).1

/-- **C132** The same for individual rows: the elements of the structure are displaced at random, with the standard deviations given in the last individual row that names the class of the structure. -/
theorem C132_individual (isPar : C → Bool) (fresh : ℕ → Align A) (z : ℕ → ℝ) (c0 : C) (i0 : ℕ) (es : List (Elt C)) (h0 : isPar c0 = false) (hn : (identsList es).Nodup)
    (outer : List (Elt C)) (e : Elt C) (he : PartOf (.cont c0 i0 es) outer e) (before after : List (BudgetRow C)) (row : BudgetRow C) (t : List ℝ) (s s' : (ℕ → Align A) × ℕ)
    (h : alignTelescope isPar fresh z (.cont c0 i0 es) (before ++ row :: after) s = .ok s') (ht : row.tol = some t)
    (hk : row.kind = "individual") (hmv : Moves row outer e) (ho : ∀ r ∈ after, ¬ MovesOuter r outer) (ha : ∀ r ∈ after, Moves r outer e → r.kind ≠ "individual") :
    ∃ o, (s'.1 e.ident).elemUnc = randomShifts t e.inner.length (shiftDraws z o) (turnDraws z o e.inner.length) := by
  obtain ⟨s1, _, h2⟩ := alignTelescope_append isPar fresh z _ _ _ _ _ h
  simp only [alignTelescope] at h2
  cases hr : alignRow isPar fresh z (.cont c0 i0 es) row s1 with
  | error x => rw [hr] at h2; cases h2
  | ok s2 =>
    rw [hr] at h2
    obtain ⟨t', o, h3, _, h4, _⟩ := C132_row isPar fresh z c0 i0 es row s1 s2 h0 hn hr
    obtain rfl : t' = t := by rw [h3] at ht; simpa using ht
    refine ⟨o e.ident, ?_⟩
    rw [align_keeps (fun a => a.elemUnc) isPar fresh z c0 i0 es h0 hn outer e he after s2 s' h2 ho ?_]
    · exact (((h4 outer e he).2.1 hmv).2.2 hk).2.1
    · intro r hra hrm sa sb hab
      obtain ⟨_, _, _, _, hd, _⟩ := C132_row isPar fresh z c0 i0 es r sa sb h0 hn hab
      have hi := (alignRow_kind hab).resolve_right (ha r hra hrm)
      exact (((hd outer e he).2.1 hrm).2.1 hi).2

/-- **C132** Objects that no row names, and that are not inside of a structure that a row names, stay what they are. -/
theorem C132_untouched (isPar : C → Bool) (fresh : ℕ → Align A) (z : ℕ → ℝ) (c0 : C) (i0 : ℕ) (es : List (Elt C)) (h0 : isPar c0 = false) (hn : (identsList es).Nodup)
    (outer : List (Elt C)) (e : Elt C) (he : PartOf (.cont c0 i0 es) outer e) (rows : List (BudgetRow C)) (s s' : (ℕ → Align A) × ℕ)
    (h : alignTelescope isPar fresh z (.cont c0 i0 es) rows s = .ok s') (ho : ∀ r ∈ rows, e.cls ≠ r.cls ∧ ∀ a ∈ outer, a.cls ≠ r.cls) :
    s'.1 e.ident = s.1 e.ident :=
  align_keeps (fun a => a) isPar fresh z c0 i0 es h0 hn outer e he rows s s' h (fun r hr ⟨a, ha, hh⟩ => (ho r hr).2 a ha hh)
    (fun r hr hm => absurd hm.1 (ho r hr).1)

/-- **C132** What the format does not say: rows for inner structures have to follow those for the structures they are in. If an outer structure is moved by a later row, the inner ones are as if they had
just been made, whatever earlier rows of the budget say. -/
theorem C132_order (isPar : C → Bool) (fresh : ℕ → Align A) (z : ℕ → ℝ) (c0 : C) (i0 : ℕ) (es : List (Elt C)) (h0 : isPar c0 = false) (hn : (identsList es).Nodup)
    (outer : List (Elt C)) (e : Elt C) (he : PartOf (.cont c0 i0 es) outer e) (before after : List (BudgetRow C)) (row : BudgetRow C) (s s' : (ℕ → Align A) × ℕ)
    (h : alignTelescope isPar fresh z (.cont c0 i0 es) (before ++ row :: after) s = .ok s') (hmv : MovesOuter row outer)
    (ho : ∀ r ∈ after, e.cls ≠ r.cls ∧ ∀ a ∈ outer, a.cls ≠ r.cls) :
    s'.1 e.ident = fresh e.ident := by
  obtain ⟨s1, _, h2⟩ := alignTelescope_append isPar fresh z _ _ _ _ _ h
  simp only [alignTelescope] at h2
  cases hr : alignRow isPar fresh z (.cont c0 i0 es) row s1 with
  | error x => rw [hr] at h2; cases h2
  | ok s2 =>
    rw [hr] at h2
    obtain ⟨_, _, _, _, h4, _⟩ := C132_row isPar fresh z c0 i0 es row s1 s2 h0 hn hr
    rw [C132_untouched isPar fresh z c0 i0 es h0 hn outer e he after s2 s' h2 ho]
    exact (h4 outer e he).1 hmv

/-- **C132** Whatever was set on an element after it had been made (e.g. the grating constants of chirped gratings) is lost if the budget names any structure that the element is in. -/
theorem C132_own (isPar : C → Bool) (fresh : ℕ → Align A) (z : ℕ → ℝ) (c0 : C) (i0 : ℕ) (es : List (Elt C)) (h0 : isPar c0 = false) (hn : (identsList es).Nodup)
    (outer : List (Elt C)) (e : Elt C) (he : PartOf (.cont c0 i0 es) outer e) (rows : List (BudgetRow C)) (s s' : (ℕ → Align A) × ℕ)
    (h : alignTelescope isPar fresh z (.cont c0 i0 es) rows s = .ok s') :
    (s'.1 e.ident).own = if ∃ r ∈ rows, MovesOuter r outer then (fresh e.ident).own else (s.1 e.ident).own := by
  induction rows generalizing s with
  | nil =>
    simp only [alignTelescope, Except.ok.injEq] at h
    simp [h]
  | cons r rs ih =>
    simp only [alignTelescope] at h
    cases hr : alignRow isPar fresh z (.cont c0 i0 es) r s with
    | error x => rw [hr] at h; cases h
    | ok s1 =>
      rw [hr] at h
      rw [ih s1 h]
      obtain ⟨_, _, _, _, hd, _⟩ := C132_row isPar fresh z c0 i0 es r s s1 h0 hn hr
      obtain ⟨d1, d2, d3⟩ := hd outer e he
      by_cases hrs : ∃ r ∈ rs, MovesOuter r outer
      · have : ∃ r' ∈ r :: rs, MovesOuter r' outer := by
          obtain ⟨x, hx, hh⟩ := hrs; exact ⟨x, by simp [hx], hh⟩
        simp only [hrs, this, if_true]
      · by_cases hro : MovesOuter r outer
        · have : ∃ r' ∈ r :: rs, MovesOuter r' outer := ⟨r, by simp, hro⟩
          simp only [hrs, this, if_true, if_false]
          rw [d1 hro]
        · have : ¬ ∃ r' ∈ r :: rs, MovesOuter r' outer := by
            rintro ⟨x, hx, hh⟩
            rcases List.mem_cons.1 hx with rfl | hx
            · exact hro hh
            · exact hrs ⟨x, hx, hh⟩
          simp only [hrs, this, if_false]
          by_cases hm : Moves r outer e
          · exact (d2 hm).1
          · rw [d3 hro hm]

theorem alignOne_ok (isPar : C → Bool) (fresh : ℕ → Align A) (row : BudgetRow C) (hk : row.kind = "global" ∨ row.kind = "individual") (t : List ℝ) (z : ℕ → ℝ) (e : Elt C)
    (s : (ℕ → Align A) × ℕ) : (∃ s', alignOne isPar fresh row.kind t z e s = .ok s') ↔ RowFits isPar row t e := by
  unfold alignOne RowFits IsStructure
  by_cases h6 : t.length > 6
  · simp only [h6, if_true]
    constructor
    · rintro ⟨s', h⟩; cases h
    · rintro ⟨_, h, _⟩; omega
  simp only [h6, if_false]
  have h6' : t.length ≤ 6 := by omega
  cases e with
  | leaf c i => simp
  | cont c i es =>
    have hneg : row.kind = "individual" → ((∃ k : Fin 3, (![(dofOfList t).dx, (dofOfList t).dy, (dofOfList t).dz] : Fin 3 → ℝ) k < 0) ∨
        (∃ k : Fin 3, (![(dofOfList t).rx, (dofOfList t).ry, (dofOfList t).rz] : Fin 3 → ℝ) k < 0) ↔ ¬ ∀ v ∈ t, 0 ≤ v) := by
      intro _
      simp only [Fin.exists_fin_succ, dofOfList]
      have key : ∀ j, t.getD j 0 < 0 → ∃ v ∈ t, v < 0 := by
        intro j hj
        by_cases hl : j < t.length
        · rw [List.getD_eq_getElem _ _ hl] at hj
          exact ⟨_, List.getElem_mem hl, hj⟩
        · rw [List.getD_eq_default _ _ (by omega)] at hj
          exact absurd hj (lt_irrefl _)
      constructor
      · intro h
        push Not
        simp at h
        rcases h with (h | h | h) | (h | h | h)
        · exact key 0 (by simpa using h)
        · exact key 1 (by simpa using h)
        · exact key 2 (by simpa using h)
        · exact key 3 (by simpa using h)
        · exact key 4 (by simpa using h)
        · exact key 5 (by simpa using h)
      · intro h
        push Not at h
        obtain ⟨v, hv, hv'⟩ := h
        obtain ⟨j, hj, rfl⟩ := List.getElem_of_mem hv
        rw [← List.getD_eq_getElem t 0 hj] at hv'
        have : j < 6 := by omega
        simp
        interval_cases j <;> simp at hv' <;> tauto
    rcases hk with hk | hk
    · by_cases hp : isPar c = true
      · simp [hk, alignOp, hp, Elt.cls, h6']
      · simp [hk, alignOp, hp, Elt.cls]
    · have hn := hneg hk
      by_cases hv : ∀ v ∈ t, 0 ≤ v
      · have hg : ∀ n zt zr, ∃ u, generateFacetUncertainty n ![(dofOfList t).dx, (dofOfList t).dy, (dofOfList t).dz] ![(dofOfList t).rx, (dofOfList t).ry, (dofOfList t).rz] 0 0 zt zr = .ok u := by
          intro n zt zr
          unfold generateFacetUncertainty
          exact ⟨_, if_neg (by rw [hn]; exact not_not.2 hv)⟩
        obtain ⟨u, hu⟩ := hg es.length (fun i k => z (s.2 + (3 * i + k))) (fun i k => z (s.2 + (3 * es.length + 3 * i + k)))
        simp only [hk, alignOp, show ¬ ("individual" = "global") by decide, if_false, hu]
        by_cases hp : isPar c = true
        · simp only [hp, if_true, Elt.cls]
          simp only [Except.ok.injEq, exists_eq', true_iff]
          exact ⟨⟨trivial, c, i, es, rfl⟩, h6', fun _ => hv⟩
        · simp [hp, Elt.cls]
      · have hg : ∀ n zt zr, generateFacetUncertainty n ![(dofOfList t).dx, (dofOfList t).dy, (dofOfList t).dz] ![(dofOfList t).rx, (dofOfList t).ry, (dofOfList t).rz] 0 0 zt zr = .error .valueError := by
          intro n zt zr
          unfold generateFacetUncertainty
          exact if_pos (hn.2 hv)
        simp only [hk, alignOp, show ¬ ("individual" = "global") by decide, if_false, hg]
        constructor
        · rintro ⟨_, h⟩; cases h
        · rintro ⟨_, _, h⟩; exact absurd (h trivial) hv

/-- **C132** A telescope is made if and only if all rows of the budget fit: the kind is known, the budget has been reformatted, and all objects the row moves are structures with tolerances that make sense. A row with a
class that the telescope does not have is ignored. -/
theorem C132_accepted (isPar : C → Bool) (fresh : ℕ → Align A) (z : ℕ → ℝ) (c0 : C) (i0 : ℕ) (es : List (Elt C)) (h0 : isPar c0 = false) (rows : List (BudgetRow C)) (s : (ℕ → Align A) × ℕ) :
    (∃ s', alignTelescope isPar fresh z (.cont c0 i0 es) rows s = .ok s') ↔
    ∀ r ∈ rows, (r.kind = "global" ∨ r.kind = "individual") ∧ r.cls ≠ c0 ∧
      ∃ t, r.tol = some t ∧ ∀ outer e, PartOf (.cont c0 i0 es) outer e → Moves r outer e → RowFits isPar r t e := by
  have all : ∀ (row : BudgetRow C) (_ : row.kind = "global" ∨ row.kind = "individual") (t : List ℝ) (l : List (Elt C)) (s : (ℕ → Align A) × ℕ),
      (∃ s', alignAll isPar fresh row.kind t z l s = .ok s') ↔ ∀ e ∈ l, RowFits isPar row t e := by
    intro row hk t l
    induction l with
    | nil => intro s; simp [alignAll]
    | cons e l ih =>
      intro s
      simp only [alignAll, List.forall_mem_cons]
      rw [← alignOne_ok isPar fresh row hk t z e s]
      cases h1 : alignOne isPar fresh row.kind t z e s with
      | error x => simp
      | ok s1 => simp only [ih s1]; simp
  have row : ∀ (r : BudgetRow C) (s : (ℕ → Align A) × ℕ), (∃ s', alignRow isPar fresh z (.cont c0 i0 es) r s = .ok s') ↔
      (r.kind = "global" ∨ r.kind = "individual") ∧ r.cls ≠ c0 ∧
      ∃ t, r.tol = some t ∧ ∀ outer e, PartOf (.cont c0 i0 es) outer e → Moves r outer e → RowFits isPar r t e := by
    intro r s
    unfold alignRow
    by_cases hk : r.kind = "global" ∨ r.kind = "individual"
    swap
    · simp [hk]
    simp only [hk, if_true, true_and]
    cases ht : r.tol with
    | none => simp
    | some t =>
      simp only [Option.some.injEq, exists_eq_left']
      rw [all r hk t, C04_default_search]
      by_cases hc : c0 = r.cls
      · subst hc
        simp only [beq_self_eq_true, if_true, ne_eq, not_true, false_and, iff_false]
        intro hh
        have := hh _ (List.mem_append_left _ List.mem_cons_self)
        have := this.1.1
        simp only [Elt.cls, h0] at this
        cases this
      · have hb : (c0 == r.cls) = false := by simpa using hc
        simp only [hb, Bool.false_eq_true, if_false, List.nil_append, ne_eq, fun h => hc (Eq.symm h)]
        constructor
        · intro hh
          refine ⟨fun h => hc h.symm, ?_⟩
          intro outer e he hm
          refine hh e ?_
          rw [List.mem_map]
          refine ⟨(outer, e), ?_, rfl⟩
          rw [List.mem_filter]
          refine ⟨he, ?_⟩
          simp only [Bool.and_eq_true, List.all_eq_true, beq_iff_eq, Bool.not_eq_true', beq_eq_false_iff_ne]
          exact hm
        · rintro ⟨_, hh⟩ e he
          rw [List.mem_map] at he
          obtain ⟨⟨outer, e'⟩, hx, rfl⟩ := he
          rw [List.mem_filter] at hx
          refine hh outer e' hx.1 ?_
          have := hx.2
          simp only [Bool.and_eq_true, List.all_eq_true, beq_iff_eq, Bool.not_eq_true', beq_eq_false_iff_ne] at this
          exact this
  induction rows generalizing s with
  | nil => simp [alignTelescope]
  | cons r rs ih =>
    simp only [alignTelescope, List.forall_mem_cons]
    rw [← row r s]
    cases h1 : alignRow isPar fresh z (.cont c0 i0 es) r s with
    | error x => simp
    | ok s1 => simp only [ih s1]; simp

/-- A telescope with a structure 1 of class "petal" that holds two structures of class "window", each with a grating. -/
def exTel : Elt String :=
  .cont "telescope" 0 [.cont "petal" 1 [.cont "window" 2 [.leaf "grating" 3], .cont "window" 4 [.leaf "grating" 5]], .leaf "detector" 6]

/-- A budget in the order that is used for Arcus: outer structures first. -/
def exBudget : List (BudgetRow String) :=
  [⟨"petal", "global", [1, 2], some [1, 2], ""⟩, ⟨"petal", "individual", [3], some [3], ""⟩, ⟨"window", "individual", [1, 1, 1, 1, 1, 1], some [1, 1, 1, 1, 1, 1], ""⟩, ⟨"mirror", "global", [1], some [1], ""⟩]

example (fresh : ℕ → Align Unit) (z : ℕ → ℝ) (s : (ℕ → Align Unit) × ℕ) :
    (identsList exTel.inner).Nodup ∧ (∃ outer, PartOf exTel outer (.cont "window" 4 [.leaf "grating" 5]) ∧ Moves exBudget[2] outer (.cont "window" 4 [.leaf "grating" 5]) ∧
      MovesOuter exBudget[0] outer) ∧
    ∃ s', alignTelescope (fun c => c == "petal" || c == "window") fresh z exTel exBudget s = .ok s' := by
  refine ⟨by decide, ⟨[.cont "petal" 1 [.cont "window" 2 [.leaf "grating" 3], .cont "window" 4 [.leaf "grating" 5]]], ?_, ?_, ?_⟩, ?_⟩
  · simp [PartOf, exTel, Elt.inner, walkList, Elt.walk]
  · simp [Moves, exBudget, Elt.cls]
  · simp [MovesOuter, exBudget, Elt.cls]
  · refine (C132_accepted _ fresh z "telescope" 0 _ (by decide) exBudget s).2 ?_
    intro r hr
    simp only [exBudget, List.mem_cons, List.not_mem_nil, or_false] at hr
    rcases hr with rfl | rfl | rfl | rfl
    all_goals
      refine ⟨by simp, by simp, _, rfl, ?_⟩
      intro outer e he hm
      simp only [PartOf, Elt.inner, walkList, Elt.walk, List.mem_cons, List.mem_append, List.not_mem_nil, or_false, List.append_nil, Prod.mk.injEq] at he
      rcases he with (⟨rfl, rfl⟩ | (⟨rfl, rfl⟩ | ⟨rfl, rfl⟩) | ⟨rfl, rfl⟩ | ⟨rfl, rfl⟩) | ⟨rfl, rfl⟩ <;> simp_all [Moves, Elt.cls, RowFits, IsStructure]

end Marxs
