import Verif.Spec.Container
import Verif.Lemmas.Table
import Mathlib.Data.List.Chain

/-!
# Properties C03, C04, C05, C08: containers of simulation elements
-/

namespace Marxs

/-! ## C03 -/

theorem runSchedule_append {P W : Type} (a b : List (Event P W)) (p : P) (w : W) :
    runSchedule (a ++ b) p w =
      match runSchedule a p w with
      | .error e => .error e
      | .ok (p', w') => runSchedule b p' w' := by
  induction a generalizing p w with
  | nil => simp [runSchedule]
  | cons x a ih =>
    cases x with
    | hook h => simp only [List.cons_append, runSchedule]; split <;> simp [ih]
    | elem h => simp only [List.cons_append, runSchedule]; split <;> simp [ih]

theorem runHooks_schedule {P W : Type} (hs : List (Hook P W)) (p : P) (w : W) :
    runHooks hs p w = runSchedule (hs.map .hook) p w := by
  induction hs generalizing p w with
  | nil => rfl
  | cons h hs ih =>
    simp only [runHooks, List.map_cons, runSchedule, bind, Except.bind]
    split <;> simp_all

mutual
theorem call_schedule {P W : Type} : ∀ (n : Node P W) (p : P) (w : W),
    n.call p w = runSchedule n.schedule p w
  | .leaf f, p, w => by
      simp only [Node.call, Node.schedule, runSchedule]
      split <;> simp_all
  | .cont pre post es, p, w => by
      simp only [Node.call, Node.schedule]
      exact callList_schedule pre post es p w
theorem callList_schedule {P W : Type} (pre post : List (Hook P W)) :
    ∀ (es : List (Node P W)) (p : P) (w : W),
    callElements pre post es p w = runSchedule (scheduleList pre post es) p w
  | [], p, w => by simp [callElements, scheduleList, runSchedule]
  | e :: es, p, w => by
      simp only [callElements, scheduleList, runSchedule_append, bind, Except.bind,
        runHooks_schedule]
      cases runSchedule (pre.map .hook) p w with
      | error x => rfl
      | ok pw =>
        simp only [call_schedule e]
        cases runSchedule e.schedule pw.1 pw.2 with
        | error x => rfl
        | ok pw =>
          simp only
          cases runSchedule (post.map .hook) pw.1 pw.2 with
          | error x => rfl
          | ok pw => simp only [callList_schedule pre post es]
end

/-- **C03** Calling a container of any nesting does exactly this: before each of its elements every
preprocess step is run once, then the element, then every postprocess step once, in order; photons
are handed from one to the next, return values of hooks are ignored and the first exception ends
the run. -/
theorem C03_container_is_schedule {P W : Type} (n : Node P W) (p : P) (w : W) :
    n.call p w = runSchedule n.schedule p w := call_schedule n p w

/-- **C03** A hook's return value never matters. -/
theorem C03_hook_return_ignored {P W : Type} (pre pre' post : List (Hook P W))
    (hlen : pre.length = pre'.length)
    (h : ∀ (k : ℕ) (f f' : Hook P W), pre[k]? = some f → pre'[k]? = some f' →
      ∀ p w, (f p w).map (fun x => (x.1, x.2.2)) = (f' p w).map (fun x => (x.1, x.2.2)))
    (es : List (Node P W)) (p : P) (w : W) :
    (Node.cont pre post es).call p w = (Node.cont pre' post es).call p w := by
  have key : ∀ p w, runHooks pre p w = runHooks pre' p w := by
    induction pre generalizing pre' with
    | nil => cases pre' with
      | nil => intros; rfl
      | cons => simp at hlen
    | cons f pre ih =>
      cases pre' with
      | nil => simp at hlen
      | cons f' pre' =>
        intro p w
        have h0 := h 0 f f' rfl rfl p w
        have ih' := ih pre' (by simpa using hlen)
          (fun k f f' a b => h (k+1) f f' (by simpa using a) (by simpa using b))
        simp only [runHooks, bind, Except.bind]
        cases hf : f p w <;> cases hf' : f' p w <;> simp [hf, hf', Except.map] at h0 ⊢
        · exact h0
        · rw [h0.1, h0.2, ih']
  simp only [Node.call]
  induction es generalizing p w with
  | nil => rfl
  | cons e es ih => simp only [callElements, key, bind, Except.bind, ih]

mutual
theorem schedule_noHooks {P W : Type} : ∀ (n : Node P W), n.NoHooks →
    n.schedule = n.leaves.map .elem
  | .leaf f, _ => by simp [Node.schedule, Node.leaves]
  | .cont pre post es, h => by
      simp only [Node.NoHooks] at h
      simp only [Node.schedule, Node.leaves, h.1, h.2.1]
      exact scheduleList_noHooks es h.2.2
theorem scheduleList_noHooks {P W : Type} : ∀ (es : List (Node P W)), noHooksList es →
    scheduleList [] [] es = (leavesList es).map .elem
  | [], _ => by simp [scheduleList, leavesList]
  | e :: es, h => by
      simp only [noHooksList] at h
      simp [scheduleList, leavesList, schedule_noHooks e h.1, scheduleList_noHooks es h.2]
end

/-- **C03** Without hooks, any nesting of containers acts like the flat list of its elements. -/
theorem C03_nesting_irrelevant {P W : Type} (n : Node P W) (h : n.NoHooks) (p : P) (w : W) :
    n.call p w = (Node.cont [] [] (n.leaves.map Node.leaf)).call p w := by
  rw [call_schedule, call_schedule, schedule_noHooks n h]
  congr 1
  simp only [Node.schedule]
  induction n.leaves with
  | nil => rfl
  | cons f fs ih => simp [scheduleList, Node.schedule, ih]

/-- **C03** Two hook-free nestings with the same elements in the same order act the same. -/
theorem C03_same_elements_same_result {P W : Type} (n n' : Node P W) (h : n.NoHooks)
    (h' : n'.NoHooks) (hl : n.leaves = n'.leaves) (p : P) (w : W) : n.call p w = n'.call p w := by
  rw [C03_nesting_irrelevant n h, C03_nesting_irrelevant n' h', hl]

/-- **C03** A long sequence can be split anywhere: running the first part and then the second part
(with the same hooks) equals running the whole. -/
theorem C03_split {P W : Type} (pre post : List (Hook P W)) (a b : List (Node P W)) (p : P) (w : W) :
    (Node.cont pre post (a ++ b)).call p w =
      match (Node.cont pre post a).call p w with
      | .error e => .error e
      | .ok (p', w') => (Node.cont pre post b).call p' w' := by
  simp only [call_schedule, Node.schedule]
  have : scheduleList pre post (a ++ b) = scheduleList pre post a ++ scheduleList pre post b := by
    induction a with
    | nil => rfl
    | cons e a ih => simp [scheduleList, ih]
  rw [this, runSchedule_append]

/-- A function on photon tables that does not touch the outside world. -/
def pureElem {W : Type} (f : Table → Except Err Table) : Node Table W :=
  .leaf fun t w => (f t).map fun t' => (t', w)

/-- `ts` lists the photon tables after the first, second, ... element. -/
inductive Steps : List (Table → Except Err Table) → Table → List Table → Prop
  | nil (t) : Steps [] t []
  | cons {f fs t t' ts} : f t = .ok t' → Steps fs t' ts → Steps (f :: fs) t (t' :: ts)

/-- **C03** A `KeepCol` as postprocess step of a sequence: the run succeeds exactly if all elements
do and the column is there each time; `data` then grows by one snapshot of the column per element,
taken after that element. -/
theorem C03_keepcol_snapshots (col : String) (fs : List (Table → Except Err Table)) (t t' : Table)
    (data data' : List (List Val)) :
    (Node.cont [] [keepCol col] (fs.map pureElem)).call t data = .ok (t', data') ↔
      ∃ ts, Steps fs t ts ∧ (∀ s ∈ ts, col ∈ s.names) ∧ t' = (ts.getLast?.getD t) ∧
        data' = data ++ ts.map (fun s => s.rows.map (· col)) := by
  simp only [Node.call]
  induction fs generalizing t data with
  | nil =>
    simp only [List.map_nil, callElements, Except.ok.injEq, Prod.mk.injEq]
    constructor
    · rintro ⟨rfl, rfl⟩; exact ⟨[], .nil _, by simp, by simp, by simp⟩
    · rintro ⟨ts, h, _, h2, h3⟩
      cases h
      simp at h2 h3
      exact ⟨h2.symm, h3.symm⟩
  | cons f fs ih =>
    simp only [List.map_cons, callElements, runHooks, bind, Except.bind, pureElem, Node.call]
    constructor
    · intro h
      cases hf : f t with
      | error e => simp [hf, Except.map] at h
      | ok t1 =>
        simp only [hf, Except.map, keepCol] at h
        by_cases hc : col ∈ t1.names
        · simp only [hc, if_true] at h
          obtain ⟨ts, k1, k2, k3, k4⟩ := (ih t1 _).1 h
          refine ⟨t1 :: ts, .cons hf k1, ?_, ?_, ?_⟩
          · simpa [hc] using k2
          · rw [k3]; cases ts <;> simp [List.getLast?_cons]
          · rw [k4]; simp
        · simp [hc] at h
    · rintro ⟨ts, h1, h2, h3, h4⟩
      cases h1 with
      | cons hf k1 =>
        rename_i t1 ts
        have hc : col ∈ t1.names := h2 t1 (by simp)
        simp only [hf, Except.map, keepCol, hc, if_true]
        refine (ih t1 _).2 ⟨ts, k1, fun s hs => h2 s (by simp [hs]), ?_, ?_⟩
        · rw [h3]; cases ts <;> simp [List.getLast?_cons]
        · rw [h4]; simp

theorem Steps.length {fs t ts} (h : Steps fs t ts) : ts.length = fs.length := by
  induction h <;> simp_all

/-- **C03** ... hence one snapshot per element. -/
theorem C03_keepcol_one_per_element (col : String) (fs : List (Table → Except Err Table))
    (t t' : Table) (data data' : List (List Val))
    (h : (Node.cont [] [keepCol col] (fs.map pureElem)).call t data = .ok (t', data')) :
    data'.length = data.length + fs.length := by
  obtain ⟨ts, h1, _, _, rfl⟩ := (C03_keepcol_snapshots col fs t t' data data').1 h
  simp [h1.length]

/-! Non-vacuity -/
example : (Node.cont [] [keepCol "a"]
    ([fun t => .ok t, fun t => .ok { t with rows := [] }].map pureElem)).call
      ⟨["a"], [fun _ => .int 1]⟩ [] = .ok (⟨["a"], []⟩, [[.int 1], []]) := by
  simp [Node.call, callElements, runHooks, pureElem, keepCol, bind, Except.bind, Except.map]

example : (Node.cont (P := ℕ) (W := ℕ) [] [] [.leaf fun p w => .ok (p + 1, w),
    .cont [] [] [.leaf fun p w => .ok (2 * p, w)]]).NoHooks := by
  simp [Node.NoHooks, noHooksList]

/-! ## C04 -/

/-- The object matches and none of its ancestors does. -/
def Outermost {C : Type} (m : C → Bool) (x : List (Elt C) × Elt C) : Bool :=
  m x.2.cls && x.1.all (fun a => !m a.cls)

mutual
theorem walk_anc {C : Type} {a : Elt C} : ∀ (e : Elt C) (anc : List (Elt C)), a ∈ anc →
    ∀ x ∈ e.walk anc, a ∈ x.1
  | .leaf c i, anc, ha, x, hx => by simp [Elt.walk] at hx; subst hx; exact ha
  | .cont c i es, anc, ha, x, hx => by
      simp only [Elt.walk, List.mem_cons] at hx
      rcases hx with rfl | hx
      · exact ha
      · exact walkList_anc es (.cont c i es :: anc) (by simp [ha]) x hx
theorem walkList_anc {C : Type} {a : Elt C} : ∀ (es : List (Elt C)) (anc : List (Elt C)), a ∈ anc →
    ∀ x ∈ walkList anc es, a ∈ x.1
  | [], _, _, _, hx => by simp [walkList] at hx
  | e :: es, anc, ha, x, hx => by
      simp only [walkList, List.mem_append] at hx
      rcases hx with hx | hx
      · exact walk_anc e anc ha x hx
      · exact walkList_anc es anc ha x hx
end

theorem filter_below {C : Type} {m : C → Bool} {a : Elt C} (ha : m a.cls = true)
    (es : List (Elt C)) (anc : List (Elt C)) (h : a ∈ anc) :
    (walkList anc es).filter (Outermost m) = [] := by
  rw [List.filter_eq_nil_iff]
  intro x hx
  have := walkList_anc es anc h x hx
  simp only [Outermost, Bool.and_eq_true, not_and, List.all_eq_true]
  intro _ hh
  have := hh a this
  simp [ha] at this

theorem outermost_root {C : Type} {m : C → Bool} {anc : List (Elt C)}
    (h : ∀ a ∈ anc, m a.cls = false) (e : Elt C) : Outermost m (anc, e) = m e.cls := by
  have : anc.all (fun a => !m a.cls) = true := by simpa using h
  simp [Outermost, this]

mutual
theorem eoc_walk {C : Type} (m : C → Bool) : ∀ (e : Elt C) (anc : List (Elt C)),
    (∀ a ∈ anc, m a.cls = false) →
    (if m e.cls then [e] else e.elementsOfClass m false) =
      ((e.walk anc).filter (Outermost m)).map (·.2)
  | .leaf c i, anc, h => by
      simp only [Elt.walk, List.filter_cons, outermost_root h]
      by_cases hc : m c <;> simp [Elt.cls, hc, Elt.elementsOfClass]
  | .cont c i es, anc, h => by
      simp only [Elt.walk, List.filter_cons, outermost_root h]
      by_cases hc : m c = true
      · simp [Elt.cls, hc, filter_below (a := .cont c i es) (by simpa [Elt.cls] using hc) es
          (.cont c i es :: anc) (by simp)]
      · simp only [Elt.cls, hc, Elt.elementsOfClass]
        have := eoc_walkList m es (.cont c i es :: anc) (by
          simp only [List.mem_cons, forall_eq_or_imp]
          exact ⟨by simpa [Elt.cls] using hc, h⟩)
        simpa [hc] using this
theorem eoc_walkList {C : Type} (m : C → Bool) : ∀ (es : List (Elt C)) (anc : List (Elt C)),
    (∀ a ∈ anc, m a.cls = false) →
    elementsOfClassList m es = ((walkList anc es).filter (Outermost m)).map (·.2)
  | [], _, _ => by simp [elementsOfClassList, walkList]
  | e :: es, anc, h => by
      simp only [elementsOfClassList, walkList, List.filter_append, List.map_append]
      rw [eoc_walk m e anc h, eoc_walkList m es anc h]
end

/-- **C04** `container.elements_of_class(cls, stop_at_first=True)` returns, in depth-first order,
exactly the objects of the tree (including the container itself) that match and have no matching
ancestor. -/
theorem C04_stop_at_first {C : Type} (m : C → Bool) (c : C) (i : ℕ) (es : List (Elt C)) :
    (Elt.cont c i es).elementsOfClass m true =
      (((Elt.cont c i es).walk []).filter (fun x =>
        m x.2.cls && x.1.all (fun a => !m a.cls))).map (·.2) := by
  rw [show (fun x : List (Elt C) × Elt C => m x.2.cls && x.1.all (fun a => !m a.cls))
    = Outermost m from rfl, ← eoc_walk m _ [] (by simp)]
  by_cases hc : m c <;> simp [Elt.elementsOfClass, Elt.cls, hc]

/-- **C04** (default `stop_at_first=False`, what the code does) The container itself if it matches,
and then all objects below it that match and have no matching ancestor below the container. -/
theorem C04_default_search {C : Type} (m : C → Bool) (c : C) (i : ℕ) (es : List (Elt C)) :
    (Elt.cont c i es).elementsOfClass m false =
      (if m c then [Elt.cont c i es] else []) ++
      ((walkList [] es).filter (fun x => m x.2.cls && x.1.all (fun a => !m a.cls))).map (·.2) := by
  rw [show (fun x : List (Elt C) × Elt C => m x.2.cls && x.1.all (fun a => !m a.cls))
    = Outermost m from rfl, ← eoc_walkList m _ [] (by simp)]
  by_cases hc : m c <;> simp [Elt.elementsOfClass, hc]

/-- **C04, full statement for `stop_at_first=False`**: every matching object at every depth is
returned. This is false of the code, see `C04_all_depths_false`. -/
def C04_all_depths_statement : Prop :=
  ∀ (C : Type) (m : C → Bool) (c : C) (i : ℕ) (es : List (Elt C)),
    (Elt.cont c i es).elementsOfClass m false =
      (((Elt.cont c i es).walk []).filter (fun x => m x.2.cls)).map (·.2)

/-- **C04** The search with `stop_at_first=False` does not find a match inside another match: a
`Parallel` inside a `Parallel` inside a `Sequence` is missed. -/
theorem C04_all_depths_false : ¬ C04_all_depths_statement := by
  intro h
  have := congrArg List.length
    (h ℕ (fun c => c == 1) 0 0 [.cont 1 1 [.cont 1 2 [.leaf 2 3]]])
  simp [Elt.elementsOfClass, elementsOfClassList, Elt.walk, walkList, Elt.cls] at this

/-- **C04** (partial) If no matching object below the container contains another matching object
(e.g. when searching for detectors or gratings, which are not containers), the default search
returns every matching object at every depth. Missing from the full statement: nested matches. -/
theorem C04_all_depths_partial {C : Type} (m : C → Bool) (c : C) (i : ℕ) (es : List (Elt C))
    (hn : ∀ x ∈ walkList [] es, m x.2.cls = true → ∀ a ∈ x.1, m a.cls = false) :
    (Elt.cont c i es).elementsOfClass m false =
      (if m c then [Elt.cont c i es] else []) ++
      ((walkList [] es).filter (fun x => m x.2.cls)).map (·.2) := by
  rw [C04_default_search]
  congr 2
  apply List.filter_congr
  intro x hx
  by_cases hm : m x.2.cls = true
  · have : x.1.all (fun a => !m a.cls) = true := by simpa using hn x hx hm
    simp [hm, this]
  · simp [hm]

example : ∀ x ∈ walkList [] ([.cont 1 1 [.leaf 2 3, .leaf 2 4], .leaf 2 5] : List (Elt ℕ)),
    (x.2.cls == 2) = true → ∀ a ∈ x.1, (a.cls == 2) = false := by
  simp [walkList, Elt.walk, Elt.cls]

/-! ## C05 -/

mutual
theorem contains_iff {C : Type} (m : C → Bool) : ∀ (e : Elt C) (anc : List (Elt C)),
    (m e.cls = true ∨ (e.elementsOfClass m false).length > 0) ↔ ∃ x ∈ e.walk anc, m x.2.cls = true
  | .leaf c i, anc => by simp [Elt.walk, Elt.cls, Elt.elementsOfClass]
  | .cont c i es, anc => by
      have ih := containsList_iff m es (.cont c i es :: anc)
      simp only [Elt.walk, Elt.elementsOfClass, List.mem_cons, exists_eq_or_imp]
      rw [← ih]
      simp only [Elt.cls]
      by_cases hc : m c = true <;> simp [hc]
theorem containsList_iff {C : Type} (m : C → Bool) : ∀ (es : List (Elt C)) (anc : List (Elt C)),
    (elementsOfClassList m es).length > 0 ↔ ∃ x ∈ walkList anc es, m x.2.cls = true
  | [], anc => by simp [elementsOfClassList, walkList]
  | e :: es, anc => by
      have h1 := contains_iff m e anc
      have h2 := containsList_iff m es anc
      simp only [elementsOfClassList, walkList, List.length_append, List.mem_append]
      constructor
      · intro h
        by_cases hc : m e.cls = true
        · obtain ⟨x, hx, hx'⟩ := h1.1 (Or.inl hc); exact ⟨x, Or.inl hx, hx'⟩
        · simp only [hc] at h
          by_cases hpos : (e.elementsOfClass m false).length > 0
          · obtain ⟨x, hx, hx'⟩ := h1.1 (Or.inr hpos); exact ⟨x, Or.inl hx, hx'⟩
          · obtain ⟨x, hx, hx'⟩ := h2.1 (by simp at h hpos ⊢; simpa [hpos] using h)
            exact ⟨x, Or.inr hx, hx'⟩
      · rintro ⟨x, hx | hx, hx'⟩
        · rcases h1.2 ⟨x, hx, hx'⟩ with h | h
          · simp [h]
          · split
            · simp
            · omega
        · have := h2.2 ⟨x, hx, hx'⟩; omega
end

theorem firstOfClass_spec {C : Type} (m : C → Bool) (es : List (Elt C)) (i k : ℕ) :
    firstOfClass m i es = some k ↔
      i ≤ k ∧ (∃ e, es[k - i]? = some e ∧ e.Contains m) ∧
        ∀ j e, j < k - i → es[j]? = some e → ¬ e.Contains m := by
  induction es generalizing i with
  | nil => simp [firstOfClass]
  | cons e es ih =>
    have hc := contains_iff m e []
    by_cases h : e.Contains m
    · have hf : firstOfClass m i (e :: es) = some i := by
        simp only [firstOfClass]
        rcases hc.2 h with h' | h'
        · simp [h']
        · split
          · rfl
          · rfl
      rw [hf]
      constructor
      · intro hk; cases hk; simp [h]
      · rintro ⟨h1, _, h3⟩
        by_cases hki : k = i
        · rw [hki]
        · exact absurd h (h3 0 e (by omega) (by simp))
    · have h' : ¬ (m e.cls = true ∨ (e.elementsOfClass m false).length > 0) := fun x => h (hc.1 x)
      have hf : firstOfClass m i (e :: es) = firstOfClass m (i+1) es := by
        simp only [firstOfClass]
        rw [if_neg (fun x => h' (Or.inl x)), if_neg (fun x => h' (Or.inr x))]
      rw [hf, ih]
      constructor
      · rintro ⟨h1, ⟨e', h2, h2'⟩, h3⟩
        refine ⟨by omega, ⟨e', ?_, h2'⟩, ?_⟩
        · rw [show k - i = (k - (i+1)) + 1 by omega]; simpa using h2
        · intro j e' hj he'
          cases j with
          | zero => simp at he'; subst he'; exact h
          | succ j => exact h3 j e' (by omega) (by simpa using he')
      · rintro ⟨h1, ⟨e', h2, h2'⟩, h3⟩
        have : k ≠ i := by
          rintro rfl
          simp at h2; subst h2; exact h h2'
        refine ⟨by omega, ⟨e', ?_, h2'⟩, ?_⟩
        · rw [show k - i = (k - (i+1)) + 1 by omega] at h2; simpa using h2
        · intro j e' hj he'
          exact h3 (j+1) e' (by omega) (by simpa using he')

/-- **C05** `first_of_class_top_level` returns index `k` exactly if the `k`-th element is or contains
an object of the class and no earlier element does. -/
theorem C05_first_index {C : Type} (m : C → Bool) (es : List (Elt C)) (k : ℕ) :
    firstOfClass m 0 es = some k ↔
      (∃ e, es[k]? = some e ∧ e.Contains m) ∧ ∀ e ∈ es.take k, ¬ e.Contains m := by
  rw [firstOfClass_spec]
  constructor
  · rintro ⟨_, h2, h3⟩
    refine ⟨by simpa using h2, ?_⟩
    intro e he
    obtain ⟨j, hj, rfl⟩ := List.mem_iff_getElem.1 he
    simp at hj
    refine h3 j _ (by omega) ?_
    rw [List.getElem_take]
    exact List.getElem?_eq_getElem (by omega)
  · rintro ⟨h2, h3⟩
    refine ⟨by omega, by simpa using h2, ?_⟩
    intro j e hj he
    refine h3 e ?_
    rw [List.mem_iff_getElem?]
    exact ⟨j, by rw [List.getElem?_take]; simp at hj; simp [hj, he]⟩

/-- **C05** It returns `None` exactly if no element of the container is or contains such an
object. -/
theorem C05_none {C : Type} (m : C → Bool) (es : List (Elt C)) :
    firstOfClass m 0 es = none ↔ ∀ e ∈ es, ¬ e.Contains m := by
  constructor
  · intro h e he hc
    have : ∃ k, firstOfClass m 0 es = some k := by
      classical
      obtain ⟨j, hj, rfl⟩ := List.mem_iff_getElem.1 he
      have hex : ∃ j : ℕ, ∃ e, es[j]? = some e ∧ Elt.Contains m e := ⟨j, _, List.getElem?_eq_getElem hj, hc⟩
      refine ⟨Nat.find hex, (C05_first_index m es _).2 ⟨Nat.find_spec hex, ?_⟩⟩
      intro e he hce
      obtain ⟨i, hi, rfl⟩ := List.mem_iff_getElem.1 he
      rw [List.length_take, lt_min_iff] at hi
      refine Nat.find_min hex hi.1 ⟨_, ?_, hce⟩
      rw [List.getElem_take]
      exact List.getElem?_eq_getElem (by omega)
    obtain ⟨k, hk⟩ := this
    rw [h] at hk; cases hk
  · intro h
    cases hf : firstOfClass m 0 es with
    | none => rfl
    | some k =>
      obtain ⟨⟨e, he, hc⟩, _⟩ := (C05_first_index m es k).1 hf
      exact absurd hc (h e (List.mem_of_getElem? he))

example : firstOfClass (fun c => c == 2) 0
    [.leaf 1 0, .cont 0 1 [.leaf 1 2, .leaf 2 3], .leaf 2 4] = some 1 := by
  simp [firstOfClass, Elt.cls, Elt.elementsOfClass, elementsOfClassList]

/-! ## C08 -/

theorem keptFrom_spec {α : Type} (close : α → α → Bool) (pre : List α) (last : α) (l : ℕ)
    (xs : List α) (hl : l < pre.length) (hlast : pre[l]? = some last)
    (hdrop : ∀ (j : ℕ) x, l < j → pre[j]? = some x → close last x = true) :
    let ks := l :: keptFrom close last pre.length xs
    ks.IsChain (fun a b => a < b ∧ ∃ x y, (pre ++ xs)[a]? = some x ∧ (pre ++ xs)[b]? = some y ∧
      close x y = false) ∧
    (∀ k ∈ ks, k < (pre ++ xs).length) ∧
    ∀ (j : ℕ) y, (pre ++ xs)[j]? = some y → l ≤ j → j ∉ ks →
      ∃ k ∈ ks, k < j ∧ (∀ k' ∈ ks, k' < j → k' ≤ k) ∧
        ∃ x, (pre ++ xs)[k]? = some x ∧ close x y = true := by
  induction xs generalizing pre last l with
  | nil =>
    simp only [keptFrom, List.append_nil]
    refine ⟨by simp, by simpa using hl, ?_⟩
    intro j y hy hj hn
    have : l < j := by simp at hn; omega
    exact ⟨l, by simp, this, by simp, last, hlast, hdrop j y this hy⟩
  | cons x xs ih =>
    simp only [keptFrom]
    by_cases hc : close last x = true
    · simp only [hc, if_true]
      have := ih (pre ++ [x]) last l (by simp; omega) (by rw [List.getElem?_append_left hl, hlast])
        (by
          intro j y hj hy
          rw [List.getElem?_append] at hy
          split at hy
          · exact hdrop j y hj hy
          · rw [List.getElem?_singleton] at hy
            split at hy
            · cases hy; exact hc
            · cases hy)
      simpa using this
    · simp only [hc]
      have hx : (pre ++ x :: xs)[pre.length]? = some x := by simp
      have hlast' : (pre ++ x :: xs)[l]? = some last := by
        rw [List.getElem?_append_left hl, hlast]
      have := ih (pre ++ [x]) x pre.length (by simp) (by simp) (by
          intro j y hj hy
          have := (List.getElem?_eq_some_iff.1 hy).1
          simp at this; omega)
      simp only [List.append_assoc, List.singleton_append, List.length_append, List.length_cons,
        List.length_nil, zero_add] at this
      obtain ⟨h1, h2, h3⟩ := this
      have hge : ∀ k ∈ pre.length :: keptFrom close x (pre.length + 1) xs, pre.length ≤ k := by
        have hp := List.isChain_iff_pairwise.1 (h1.imp (S := fun a b => a < b) (fun _ _ h => h.1))
        intro k hk
        simp only [List.mem_cons] at hk
        rcases hk with rfl | hk
        · exact le_refl _
        · exact le_of_lt ((List.pairwise_cons.1 hp).1 k hk)
      refine ⟨?_, ?_, ?_⟩
      · refine List.IsChain.cons_cons ⟨hl, last, x, hlast', hx, by simpa using hc⟩ ?_
        exact h1
      · intro k hk
        simp only [Bool.false_eq_true, if_false, List.mem_cons] at hk
        rcases hk with rfl | hk
        · simp; omega
        · have := h2 k (by simpa using hk)
          simpa using this
      · intro j y hy hj hn
        simp only [Bool.false_eq_true, if_false, List.mem_cons, not_or] at hn
        by_cases hjp : j < pre.length
        · have hlj : l < j := by omega
          refine ⟨l, by simp, hlj, ?_, last, hlast', ?_⟩
          · intro k' hk' hkj
            simp only [Bool.false_eq_true, if_false, List.mem_cons] at hk'
            rcases hk' with rfl | hk'
            · exact le_refl _
            · have := hge k' (by simpa using hk'); omega
          · refine hdrop j y hlj ?_
            rw [List.getElem?_append_left hjp] at hy; exact hy
        · obtain ⟨k, k1, k2, k3, k4⟩ := h3 j y hy (by omega) (by simp; exact ⟨hn.2.1, hn.2.2⟩)
          refine ⟨k, by simp at k1 ⊢; exact Or.inr k1, k2, ?_, k4⟩
          intro k' hk' hkj
          simp only [Bool.false_eq_true, if_false, List.mem_cons] at hk'
          rcases hk' with rfl | hk'
          · have := hge k k1; omega
          · exact k3 k' (by simpa using hk') hkj

/-- **C08** The snapshots kept by `format_positions` (given as index list): the first snapshot is
kept; the indices increase and neighbouring kept snapshots are not close to each other; every
dropped snapshot is close to the last kept one before it. -/
theorem C08_format_positions {α : Type} (close : α → α → Bool) (d : List α) (ks : List ℕ)
    (h : formatPositions close d = .ok ks) :
    ks.head? = some 0 ∧ (∀ k ∈ ks, k < d.length) ∧
    ks.IsChain (fun a b => a < b ∧ ∃ x y, d[a]? = some x ∧ d[b]? = some y ∧ close x y = false) ∧
    ∀ (j : ℕ) y, d[j]? = some y → j ∉ ks →
      ∃ k ∈ ks, k < j ∧ (∀ k' ∈ ks, k' < j → k' ≤ k) ∧
        ∃ x, d[k]? = some x ∧ close x y = true := by
  cases d with
  | nil => simp [formatPositions] at h
  | cons x xs =>
    simp only [formatPositions, Except.ok.injEq] at h
    subst h
    have := keptFrom_spec close [x] x 0 xs (by simp) (by simp) (by
      intro j y hj hy
      have := (List.getElem?_eq_some_iff.1 hy).1
      simp at this; omega)
    simp only [List.length_cons, List.length_nil, zero_add, List.singleton_append] at this
    exact ⟨by simp, this.2.1, this.1, fun j y hy hn => this.2.2 j y hy (by omega) hn⟩

/-- **C08** With at least one snapshot the call succeeds; without data it raises `ValueError`. -/
theorem C08_format_positions_domain {α : Type} (close : α → α → Bool) (d : List α) :
    (d = [] → formatPositions close d = .error .valueError) ∧
    (d ≠ [] → ∃ ks, formatPositions close d = .ok ks) := by
  cases d <;> simp [formatPositions]

example : formatPositions (fun a b : ℕ => a == b) [5, 5, 6, 6, 5] = .ok [0, 2, 4] := by decide

end Marxs
