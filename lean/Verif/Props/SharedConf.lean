import Verif.Spec.SharedConf
import Mathlib.Tactic.Linarith

/-!
# Property C131: telescopes built from configurations that share dictionaries
-/

namespace Marxs
open Classical

variable {V : Type}

/-- What can have changed in a session since `h0`. -/
structure SessInv (h0 : DictHeap V) (uses : List (GridClass V × ℕ)) (K : Bool → String → Prop) (h : DictHeap V) : Prop where
  next_le : h0.next ≤ h.next
  same : ∀ n < h0.next, ∀ k, h.dicts n k = h0.dicts n k ∨ (∃ u ∈ uses, IsInner h0 u.1.inner u.2 n ∧ K false k) ∨
    ∃ u ∈ uses, ∃ g, IsInner h0 u.1.inner u.2 g ∧ h0.dicts g "elem_args" = some (.ref n) ∧ K true k

/-- Dictionaries that constructors may write to. -/
def Touched (h0 : DictHeap V) (uses : List (GridClass V × ℕ)) (n : ℕ) : Prop :=
  ∃ u ∈ uses, IsInner h0 u.1.inner u.2 n ∨ ∃ g, IsInner h0 u.1.inner u.2 g ∧ h0.dicts g "elem_args" = some (.ref n)

theorem SessInv.conf {h0 : DictHeap V} {uses : List (GridClass V × ℕ)} {K : Bool → String → Prop} {h : DictHeap V} (hL : Layered h0 uses)
    (hi : SessInv h0 uses K h) {u : GridClass V × ℕ} (hu : u ∈ uses) : h.dicts u.2 = h0.dicts u.2 := by
  funext k
  rcases hi.same u.2 (hL.conf_exists u hu) k with h1 | ⟨u', hu', h1, _⟩ | ⟨u', hu', g, h1, h2, _⟩
  · exact h1
  · exact absurd rfl (hL.inner_ne_conf u' hu' u hu _ h1)
  · exact absurd rfl (hL.args_ne_conf u' hu' u hu _ h1 _ h2)

theorem SessInv.elemArgs {h0 : DictHeap V} {uses : List (GridClass V × ℕ)} {K : Bool → String → Prop} {h : DictHeap V} (hL : Layered h0 uses)
    (hK : ¬ K false "elem_args") (hi : SessInv h0 uses K h) {u : GridClass V × ℕ} (hu : u ∈ uses) {g : ℕ} (hg : IsInner h0 u.1.inner u.2 g) :
    h.dicts g "elem_args" = h0.dicts g "elem_args" := by
  rcases hi.same g (hL.inner_exists u hu g hg) "elem_args" with h1 | ⟨u', hu', h1, h2⟩ | ⟨u', hu', g', h1, h2, _⟩
  · exact h1
  · exact absurd h2 hK
  · exact absurd rfl (hL.args_ne_inner u' hu' u hu _ _ h1 hg _ h2)

theorem put_dicts (h : DictHeap V) (n : ℕ) (k : String) (v : V) (m : ℕ) (j : String) :
    (h.put n k v).dicts m j = if m = n ∧ j = k then some (.val v) else h.dicts m j := by
  simp only [DictHeap.put, Function.update_apply]
  by_cases hm : m = n
  · subst hm
    simp only [if_true, true_and, Function.update_apply]
  · simp only [hm, if_false, false_and]

theorem SessInv.putInner {h0 : DictHeap V} {uses : List (GridClass V × ℕ)} {K : Bool → String → Prop} {h : DictHeap V}
    (hi : SessInv h0 uses K h) {u : GridClass V × ℕ} (hu : u ∈ uses) {g : ℕ} (hg : IsInner h0 u.1.inner u.2 g) {k : String} (hk : K false k) (v : V) :
    SessInv h0 uses K (h.put g k v) := by
  refine ⟨hi.next_le, fun n hn j => ?_⟩
  rw [put_dicts]
  by_cases hc : n = g ∧ j = k
  · obtain ⟨rfl, rfl⟩ := hc
    exact Or.inr (Or.inl ⟨u, hu, hg, hk⟩)
  · simp only [hc, if_false]
    exact hi.same n hn j

theorem SessInv.putArgs {h0 : DictHeap V} {uses : List (GridClass V × ℕ)} {K : Bool → String → Prop} {h : DictHeap V}
    (hi : SessInv h0 uses K h) {u : GridClass V × ℕ} (hu : u ∈ uses) {g a : ℕ} (hg : IsInner h0 u.1.inner u.2 g)
    (ha : h0.dicts g "elem_args" = some (.ref a)) {k : String} (hk : K true k) (v : V) :
    SessInv h0 uses K (h.put a k v) := by
  refine ⟨hi.next_le, fun n hn j => ?_⟩
  rw [put_dicts]
  by_cases hc : n = a ∧ j = k
  · obtain ⟨rfl, rfl⟩ := hc
    exact Or.inr (Or.inr ⟨u, hu, g, hg, ha, hk⟩)
  · simp only [hc, if_false]
    exact hi.same n hn j

theorem sub_ok {d : HDict V} {k : String} {n : ℕ} : d.sub k = .ok n ↔ d k = some (.ref n) := by
  unfold HDict.sub
  cases d k with
  | none => simp
  | some v => cases v <;> simp

theorem SessInv.runLines {h0 : DictHeap V} {uses : List (GridClass V × ℕ)} {K : Bool → String → Prop} (hL : Layered h0 uses)
    (hK : ¬ K false "elem_args") {u : GridClass V × ℕ} (hu : u ∈ uses) {g : ℕ} (hg : IsInner h0 u.1.inner u.2 g) (ls : List (SetLine V))
    (hls : ∀ l ∈ ls, K l.inArgs l.key) {h : DictHeap V} (hi : SessInv h0 uses K h) :
    SessInv h0 uses K (runLines u.2 g ls h).1 ∧ (runLines u.2 g ls h).1.next = h.next ∧
    ∀ n, ¬ Touched h0 uses n → (Marxs.runLines u.2 g ls h).1.dicts n = h.dicts n := by
  induction ls generalizing h with
  | nil => exact ⟨hi, rfl, fun _ _ => rfl⟩
  | cons l ls ih =>
    have hls' := fun m hm => hls m (List.mem_cons_of_mem _ hm)
    simp only [Marxs.runLines]
    cases l.value (h.dicts u.2) with
    | error e => exact ⟨hi, rfl, fun _ _ => rfl⟩
    | ok v =>
      simp only
      have put_other : ∀ m n, Touched h0 uses m → ¬ Touched h0 uses n → (h.put m l.key v).dicts n = h.dicts n := by
        intro m n hm hn
        have : n ≠ m := fun h1 => hn (h1 ▸ hm)
        simp only [DictHeap.put, Function.update_apply, this, if_false]
      by_cases hb : l.inArgs = true
      · simp only [hb, if_true]
        cases hs : (h.dicts g).sub "elem_args" with
        | error e => exact ⟨hi, rfl, fun _ _ => rfl⟩
        | ok ea =>
          have ha : h0.dicts g "elem_args" = some (.ref ea) := by
            rw [← hi.elemArgs hL hK hu hg]; exact sub_ok.1 hs
          have hk : K true l.key := hb ▸ hls l List.mem_cons_self
          obtain ⟨i1, i2, i3⟩ := ih hls' (hi.putArgs hu hg ha hk v)
          refine ⟨i1, i2, fun n hn => ?_⟩
          rw [i3 n hn]
          exact put_other ea n ⟨u, hu, Or.inr ⟨g, hg, ha⟩⟩ hn
      · simp only [hb, Bool.false_eq_true, if_false]
        have hk : K false l.key := by
          have := hls l List.mem_cons_self
          rwa [show l.inArgs = false by simpa using hb] at this
        obtain ⟨i1, i2, i3⟩ := ih hls' (hi.putInner hu hg hk v)
        refine ⟨i1, i2, fun n hn => ?_⟩
        rw [i3 n hn]
        exact put_other g n ⟨u, hu, Or.inl hg⟩ hn

theorem Touched.lt {h0 : DictHeap V} {uses : List (GridClass V × ℕ)} (hL : Layered h0 uses) {n : ℕ} (h : Touched h0 uses n) : n < h0.next := by
  obtain ⟨u, hu, h1 | ⟨g, h1, h2⟩⟩ := h
  · exact hL.inner_exists u hu n h1
  · exact hL.args_exists u hu g h1 n h2

theorem SessInv.alloc {h0 : DictHeap V} {uses : List (GridClass V × ℕ)} {K : Bool → String → Prop} {h : DictHeap V}
    (hi : SessInv h0 uses K h) (d : HDict V) : SessInv h0 uses K (h.alloc d).1 := by
  refine ⟨Nat.le_succ_of_le hi.next_le, fun n hn k => ?_⟩
  have hne : n ≠ h.next := (lt_of_lt_of_le hn hi.next_le).ne
  simp only [DictHeap.alloc, Function.update_apply, hne, if_false]
  exact hi.same n hn k

theorem SessInv.init {h0 : DictHeap V} {uses : List (GridClass V × ℕ)} {K : Bool → String → Prop} (hL : Layered h0 uses)
    (hK : ¬ K false "elem_args") {u : GridClass V × ℕ} (hu : u ∈ uses) (hls : ∀ l ∈ u.1.lines, K l.inArgs l.key)
    {h : DictHeap V} (hi : SessInv h0 uses K h) :
    SessInv h0 uses K (u.1.init u.2 h).1 ∧ h.next ≤ (u.1.init u.2 h).1.next ∧
    ∀ n < h.next, ¬ Touched h0 uses n → (u.1.init u.2 h).1.dicts n = h.dicts n := by
  simp only [GridClass.init]
  cases hs : (h.dicts u.2).sub u.1.inner with
  | error e => exact ⟨hi, le_rfl, fun _ _ _ => rfl⟩
  | ok gg =>
    simp only
    have hg : IsInner h0 u.1.inner u.2 gg := by
      have := sub_ok.1 hs
      rw [hi.conf hL hu] at this
      exact this
    obtain ⟨i1, i2, i3⟩ := hi.runLines hL hK hu hg u.1.lines hls
    cases hr : Marxs.runLines u.2 gg u.1.lines h with
    | mk h1 r =>
      rw [hr] at i1 i2 i3
      simp only at i1 i2 i3
      cases r with
      | error e => exact ⟨i1, i2 ▸ le_rfl, fun n _ hn => i3 n hn⟩
      | ok x =>
        simp only
        have key : ∀ d, SessInv h0 uses K (h1.alloc d).1 ∧ h.next ≤ (h1.alloc d).1.next ∧
            ∀ n < h.next, ¬ Touched h0 uses n → (h1.alloc d).1.dicts n = h.dicts n := by
          intro d
          refine ⟨i1.alloc d, ?_, fun n hn hnt => ?_⟩
          · show h.next ≤ h1.next + 1
            omega
          · have : n ≠ h1.next := by omega
            simp only [DictHeap.alloc, Function.update_apply, this, if_false]
            exact i3 n hnt
        cases h1.dicts gg "elem_args" with
        | none => exact key _
        | some w =>
          cases w with
          | val v => exact ⟨i1, i2 ▸ le_rfl, fun n _ hn => i3 n hn⟩
          | ref ea => exact key _

theorem SessInv.runInits {h0 : DictHeap V} {uses : List (GridClass V × ℕ)} {K : Bool → String → Prop} (hL : Layered h0 uses)
    (hK : ¬ K false "elem_args") (l : List (GridClass V × ℕ)) (hl : ∀ u ∈ l, u ∈ uses) (hls : ∀ u ∈ l, ∀ m ∈ u.1.lines, K m.inArgs m.key)
    {h : DictHeap V} (hi : SessInv h0 uses K h) :
    SessInv h0 uses K (Marxs.runInits l h) ∧ h.next ≤ (Marxs.runInits l h).next ∧
    ∀ n < h.next, ¬ Touched h0 uses n → (Marxs.runInits l h).dicts n = h.dicts n := by
  induction l generalizing h with
  | nil => exact ⟨hi, le_rfl, fun _ _ _ => rfl⟩
  | cons u l ih =>
    obtain ⟨i1, i2, i3⟩ := hi.init hL hK (hl u List.mem_cons_self) (hls u List.mem_cons_self)
    obtain ⟨j1, j2, j3⟩ := ih (fun v hv => hl v (List.mem_cons_of_mem _ hv)) (fun v hv => hls v (List.mem_cons_of_mem _ hv)) i1
    refine ⟨j1, le_trans i2 j2, fun n hn hnt => ?_⟩
    exact (j3 n (lt_of_lt_of_le hn i2) hnt).trans (i3 n hn hnt)

/-- Two sessions that agree in everything but keys that are yet to be set. -/
structure Agree (conf gg : ℕ) (ls : List (SetLine V)) (h h' : DictHeap V) : Prop where
  econf : h.dicts conf = h'.dicts conf
  eref : h.dicts gg "elem_args" = h'.dicts gg "elem_args"
  inner : ∀ k, h.dicts gg k = h'.dicts gg k ∨ ∃ l ∈ ls, l.inArgs = false ∧ l.key = k
  args : ∀ a, h.dicts gg "elem_args" = some (.ref a) → ∀ k, h.dicts a k = h'.dicts a k ∨ ∃ l ∈ ls, l.inArgs = true ∧ l.key = k
  ne1 : gg ≠ conf
  ne2 : ∀ a, h.dicts gg "elem_args" = some (.ref a) → a ≠ conf ∧ a ≠ gg

theorem Agree.run {conf gg : ℕ} (ls : List (SetLine V)) (hls : ∀ l ∈ ls, l.inArgs = false → l.key ≠ "elem_args") {h h' : DictHeap V}
    (ha : Agree conf gg ls h h') :
    (Marxs.runLines conf gg ls h).2 = (Marxs.runLines conf gg ls h').2 ∧
    ((Marxs.runLines conf gg ls h).2 = .ok () → Agree conf gg [] (Marxs.runLines conf gg ls h).1 (Marxs.runLines conf gg ls h').1) := by
  induction ls generalizing h h' with
  | nil => exact ⟨rfl, fun _ => ha⟩
  | cons l ls ih =>
    have hls' := fun m hm => hls m (List.mem_cons_of_mem _ hm)
    simp only [Marxs.runLines, ← ha.econf]
    cases l.value (h.dicts conf) with
    | error e => exact ⟨rfl, fun h1 => by simp at h1⟩
    | ok v =>
      simp only
      by_cases hb : l.inArgs = true
      · simp only [hb, if_true]
        have hss : (h'.dicts gg).sub "elem_args" = (h.dicts gg).sub "elem_args" := by
          simp only [HDict.sub, ha.eref]
        rw [hss]
        cases hs : (h.dicts gg).sub "elem_args" with
        | error e => exact ⟨rfl, fun h1 => by simp at h1⟩
        | ok ea =>
          have hea := sub_ok.1 hs
          obtain ⟨n1, n2⟩ := ha.ne2 ea hea
          refine ih hls' ⟨?_, ?_, ?_, ?_, ha.ne1, ?_⟩
          · funext k
            simp only [put_dicts, n1.symm, false_and, if_false, ha.econf]
          · simp only [put_dicts, n2.symm, false_and, if_false, ha.eref]
          · intro k
            simp only [put_dicts, n2.symm, false_and, if_false]
            rcases ha.inner k with h1 | ⟨m, hm, h1, h2⟩
            · exact Or.inl h1
            · rcases List.mem_cons.1 hm with rfl | hm
              · rw [hb] at h1; simp at h1
              · exact Or.inr ⟨m, hm, h1, h2⟩
          · intro a haa k
            simp only [put_dicts, n2.symm, false_and, if_false] at haa
            obtain rfl : a = ea := by rw [hea] at haa; simpa using haa.symm
            simp only [put_dicts, true_and]
            by_cases hk : k = l.key
            · simp only [hk, if_true]; exact Or.inl trivial
            · simp only [hk, if_false]
              rcases ha.args a hea k with h1 | ⟨m, hm, h1, h2⟩
              · exact Or.inl h1
              · rcases List.mem_cons.1 hm with rfl | hm
                · exact absurd h2.symm hk
                · exact Or.inr ⟨m, hm, h1, h2⟩
          · intro a haa
            simp only [put_dicts, n2.symm, false_and, if_false] at haa
            exact ha.ne2 a haa
      · simp only [hb, Bool.false_eq_true, if_false]
        have hbf : l.inArgs = false := by simpa using hb
        have hke : "elem_args" ≠ l.key := (hls l List.mem_cons_self hbf).symm
        refine ih hls' ⟨?_, ?_, ?_, ?_, ha.ne1, ?_⟩
        · funext k
          simp only [put_dicts, ha.ne1.symm, false_and, if_false, ha.econf]
        · simp only [put_dicts, hke, and_false, if_false, ha.eref]
        · intro k
          simp only [put_dicts, true_and]
          by_cases hk : k = l.key
          · simp only [hk, if_true]; exact Or.inl trivial
          · simp only [hk, if_false]
            rcases ha.inner k with h1 | ⟨m, hm, h1, h2⟩
            · exact Or.inl h1
            · rcases List.mem_cons.1 hm with rfl | hm
              · exact absurd h2.symm hk
              · exact Or.inr ⟨m, hm, h1, h2⟩
        · intro a haa k
          simp only [put_dicts, hke, and_false, if_false] at haa
          have n2 := (ha.ne2 a haa).2
          simp only [put_dicts, n2, false_and, if_false]
          rcases ha.args a haa k with h1 | ⟨m, hm, h1, h2⟩
          · exact Or.inl h1
          · rcases List.mem_cons.1 hm with rfl | hm
            · rw [hbf] at h1; simp at h1
            · exact Or.inr ⟨m, hm, h1, h2⟩
        · intro a haa
          simp only [put_dicts, hke, and_false, if_false] at haa
          exact ha.ne2 a haa

/-- The lines of a class never replace the dictionary with the arguments for the elements. -/
def KeepsArgs (cl : GridClass V) : Prop := ∀ l ∈ cl.lines, l.inArgs = false → l.key ≠ "elem_args"

/-- **C131** What is built from a configuration depends on this configuration only, and not on what has been built before: after any number of other constructions, with the same
or other configurations that share any of the inner dictionaries, successful or not, a structure of gratings has the same keywords and the same arguments for its elements
(or raises the same exception) as in a fresh session. -/
theorem C131_history (h0 : DictHeap V) (history : List (GridClass V × ℕ)) (cl : GridClass V) (c : ℕ)
    (hL : Layered h0 ((cl, c) :: history)) (hcov : ∀ u ∈ history, Covers cl u.1) (hk : KeepsArgs cl) :
    observed (cl.init c (runInits history h0)) = observed (cl.init c h0) := by
  set K : Bool → String → Prop := fun b k => ∃ l ∈ cl.lines, l.inArgs = b ∧ l.key = k with hKdef
  have hK : ¬ K false "elem_args" := by
    rintro ⟨l, hl, h1, h2⟩
    exact hk l hl h1 h2
  have h00 : SessInv h0 ((cl, c) :: history) K h0 := ⟨le_rfl, fun n _ k => Or.inl rfl⟩
  obtain ⟨hi, _, _⟩ := h00.runInits hL hK history (fun u hu => List.mem_cons_of_mem _ hu) (by
    intro u hu m hm
    obtain ⟨l', hl', e1, e2⟩ := hcov u hu m hm
    exact ⟨l', hl', e1, e2⟩)
  set h := runInits history h0
  have hu : (cl, c) ∈ (cl, c) :: history := List.mem_cons_self
  have hconf := hi.conf hL hu
  simp only at hconf
  simp only [GridClass.init, hconf]
  cases hs : (h0.dicts c).sub cl.inner with
  | error e => rfl
  | ok gg =>
    simp only
    have hg : IsInner h0 cl.inner c gg := sub_ok.1 hs
    have href := hi.elemArgs hL hK hu hg
    have hA : Agree c gg cl.lines h h0 := by
      refine ⟨hconf, href, ?_, ?_, hL.inner_ne_conf _ hu _ hu gg hg, ?_⟩
      · intro k
        rcases hi.same gg (hL.inner_exists _ hu gg hg) k with h1 | ⟨u', hu', h1, l, hl, h2⟩ | ⟨u', hu', g', h1, h2, _⟩
        · exact Or.inl h1
        · exact Or.inr ⟨l, hl, h2⟩
        · exact absurd rfl (hL.args_ne_inner u' hu' _ hu _ _ h1 hg _ h2)
      · intro a ha k
        rw [href] at ha
        rcases hi.same a (hL.args_exists _ hu gg hg a ha) k with h1 | ⟨u', hu', h1, _⟩ | ⟨u', hu', g', h1, h2, l, hl, h3⟩
        · exact Or.inl h1
        · exact absurd rfl (hL.args_ne_inner _ hu u' hu' _ _ hg h1 _ ha)
        · exact Or.inr ⟨l, hl, h3⟩
      · intro a ha
        rw [href] at ha
        exact ⟨hL.args_ne_conf _ hu _ hu _ hg a ha, hL.args_ne_inner _ hu _ hu _ _ hg hg a ha⟩
    obtain ⟨r1, r2⟩ := hA.run cl.lines hk
    cases e1 : Marxs.runLines c gg cl.lines h with
    | mk h1 r =>
      cases e2 : Marxs.runLines c gg cl.lines h0 with
      | mk h2 r' =>
        rw [e1, e2] at r1 r2
        simp only at r1 r2
        subst r1
        cases r with
        | error e => rfl
        | ok x =>
          have hB := r2 rfl
          have hin : h1.dicts gg = h2.dicts gg := by
            funext k
            rcases hB.inner k with h3 | ⟨l, hl, _⟩
            · exact h3
            · simp at hl
          simp only [← hin]
          cases he : h1.dicts gg "elem_args" with
          | none => simp [observed, DictHeap.alloc, Function.update_apply]
          | some w =>
            cases w with
            | val v => rfl
            | ref ea =>
              have har : h1.dicts ea = h2.dicts ea := by
                funext k
                rcases hB.args ea he k with h3 | ⟨l, hl, _⟩
                · exact h3
                · simp at hl
              simp [observed, DictHeap.alloc, Function.update_apply, har]

/-- **C131** Structures do not influence each other: whatever is built later from configurations that share dictionaries, elements that are generated again for
an existing structure are the same as before. -/
theorem C131_independent (h0 : DictHeap V) (before later : List (GridClass V × ℕ)) (cl : GridClass V) (c : ℕ)
    (hL : Layered h0 (before ++ (cl, c) :: later)) (hk : ∀ u ∈ before ++ (cl, c) :: later, KeepsArgs u.1) (o : GridObj V)
    (hok : (cl.init c (runInits before h0)).2 = .ok o) {E : Type} (make : HDict V → HDict V → E) :
    o.elements make (runInits later (cl.init c (runInits before h0)).1) = o.elements make (cl.init c (runInits before h0)).1 := by
  set uses := before ++ (cl, c) :: later with huses
  set K : Bool → String → Prop := fun b k => ∃ u ∈ uses, ∃ l ∈ u.1.lines, l.inArgs = b ∧ l.key = k with hKdef
  have hK : ¬ K false "elem_args" := by
    rintro ⟨u, hu, l, hl, h1, h2⟩
    exact hk u hu l hl h1 h2
  have hKl : ∀ u ∈ uses, ∀ m ∈ u.1.lines, K m.inArgs m.key := fun u hu m hm => ⟨u, hu, m, hm, rfl, rfl⟩
  have h00 : SessInv h0 uses K h0 := ⟨le_rfl, fun n _ k => Or.inl rfl⟩
  have hb : ∀ u ∈ before, u ∈ uses := fun u hu => List.mem_append_left _ hu
  have hl : ∀ u ∈ later, u ∈ uses := fun u hu => List.mem_append_right _ (List.mem_cons_of_mem _ hu)
  have hu : (cl, c) ∈ uses := List.mem_append_right _ List.mem_cons_self
  obtain ⟨i1, _, _⟩ := h00.runInits hL hK before hb fun u hu => hKl u (hb u hu)
  obtain ⟨j1, _, _⟩ := i1.init hL hK hu (hKl _ hu)
  obtain ⟨_, _, k3⟩ := j1.runInits hL hK later hl fun u hu => hKl u (hl u hu)
  set h := runInits before h0
  have hfresh : h0.next ≤ o.args ∧ o.args < (cl.init c h).1.next := by
    have hn0 := i1.next_le
    revert hok
    simp only [GridClass.init]
    cases hs : (h.dicts c).sub cl.inner with
    | error e => simp
    | ok gg =>
      simp only
      have hg : IsInner h0 cl.inner c gg := by
        have h1 := sub_ok.1 hs
        rw [i1.conf hL hu] at h1
        exact h1
      obtain ⟨_, m2, _⟩ := i1.runLines hL hK hu hg cl.lines (hKl _ hu)
      simp only at m2
      cases hr : Marxs.runLines c gg cl.lines h with
      | mk h1 r =>
        rw [hr] at m2
        simp only at m2
        cases r with
        | error e => simp
        | ok x =>
          simp only
          cases h1.dicts gg "elem_args" with
          | none =>
            simp only [DictHeap.alloc, Except.ok.injEq]
            rintro rfl
            simp only
            omega
          | some w =>
            cases w with
            | val v => simp
            | ref ea =>
              simp only [DictHeap.alloc, Except.ok.injEq]
              rintro rfl
              simp only
              omega
  have hnt : ¬ Touched h0 uses o.args := fun ht => absurd (ht.lt hL) (by omega)
  simp only [GridObj.elements, k3 o.args hfresh.2 hnt]

/-- Keys of one dictionary are set by one line only. -/
def OneLineEach (ls : List (SetLine V)) : Prop := ls.Pairwise fun a b => a.inArgs = b.inArgs → a.key ≠ b.key

theorem runLines_values {conf gg : ℕ} (ls : List (SetLine V)) (hls : ∀ l ∈ ls, l.inArgs = false → l.key ≠ "elem_args") (hp : OneLineEach ls)
    {h : DictHeap V} (hcg : gg ≠ conf) (hea : ∀ a, h.dicts gg "elem_args" = some (.ref a) → a ≠ conf ∧ a ≠ gg) {h' : DictHeap V}
    (hok : Marxs.runLines conf gg ls h = (h', .ok ())) :
    h'.dicts conf = h.dicts conf ∧ h'.dicts gg "elem_args" = h.dicts gg "elem_args" ∧
    (∀ l ∈ ls, ∃ v, l.value (h.dicts conf) = .ok v ∧ (l.inArgs = false → h'.dicts gg l.key = some (.val v)) ∧
      (l.inArgs = true → ∃ a, h.dicts gg "elem_args" = some (.ref a) ∧ h'.dicts a l.key = some (.val v))) ∧
    (∀ k, (∀ l ∈ ls, l.inArgs = false → l.key ≠ k) → h'.dicts gg k = h.dicts gg k) ∧
    (∀ a, h.dicts gg "elem_args" = some (.ref a) → ∀ k, (∀ l ∈ ls, l.inArgs = true → l.key ≠ k) → h'.dicts a k = h.dicts a k) := by
  induction ls generalizing h with
  | nil =>
    simp only [Marxs.runLines, Prod.mk.injEq] at hok
    obtain ⟨rfl, _⟩ := hok
    exact ⟨rfl, rfl, by simp, fun _ _ => rfl, fun _ _ _ _ => rfl⟩
  | cons l ls ih =>
    have hls' := fun m hm => hls m (List.mem_cons_of_mem _ hm)
    obtain ⟨hp1, hp2⟩ := List.pairwise_cons.1 hp
    simp only [Marxs.runLines] at hok
    cases hv : l.value (h.dicts conf) with
    | error e => rw [hv] at hok; simp at hok
    | ok v =>
      rw [hv] at hok
      simp only at hok
      by_cases hb : l.inArgs = true
      · simp only [hb, if_true] at hok
        cases hs : (h.dicts gg).sub "elem_args" with
        | error e => rw [hs] at hok; simp at hok
        | ok ea =>
          rw [hs] at hok
          simp only at hok
          have hr := sub_ok.1 hs
          obtain ⟨n1, n2⟩ := hea ea hr
          have g1 : (h.put ea l.key v).dicts conf = h.dicts conf := by
            funext k; simp only [put_dicts, n1.symm, false_and, if_false]
          have g2 : (h.put ea l.key v).dicts gg = h.dicts gg := by
            funext k; simp only [put_dicts, n2.symm, false_and, if_false]
          obtain ⟨i1, i2, i3, i4, i5⟩ := ih hls' hp2 (by rw [g2]; exact hea) hok
          rw [g1] at i1 i3
          rw [g2] at i2 i3 i4 i5
          refine ⟨i1, i2, ?_, ?_, ?_⟩
          · intro m hm
            rcases List.mem_cons.1 hm with rfl | hm
            · refine ⟨v, hv, fun h0 => by rw [hb] at h0; simp at h0, fun _ => ⟨ea, hr, ?_⟩⟩
              rw [i5 ea hr m.key (fun q hq hqa hqk => hp1 q hq (hb.trans hqa.symm) hqk.symm), put_dicts]
              simp
            · exact i3 m hm
          · intro k hk
            exact i4 k fun m hm => hk m (List.mem_cons_of_mem _ hm)
          · intro a ha k hk
            rw [i5 a ha k fun m hm => hk m (List.mem_cons_of_mem _ hm), put_dicts]
            have : k ≠ l.key := fun h0 => hk l List.mem_cons_self hb h0.symm
            simp only [this, and_false, if_false]
      · simp only [hb, Bool.false_eq_true, if_false] at hok
        have hbf : l.inArgs = false := by simpa using hb
        have hke : "elem_args" ≠ l.key := (hls l List.mem_cons_self hbf).symm
        have g1 : (h.put gg l.key v).dicts conf = h.dicts conf := by
          funext k; simp only [put_dicts, hcg.symm, false_and, if_false]
        have g2 : (h.put gg l.key v).dicts gg "elem_args" = h.dicts gg "elem_args" := by
          simp only [put_dicts, hke, and_false, if_false]
        obtain ⟨i1, i2, i3, i4, i5⟩ := ih hls' hp2 (by rw [g2]; exact hea) hok
        rw [g1] at i1 i3
        rw [g2] at i2 i3 i5
        refine ⟨i1, i2, ?_, ?_, ?_⟩
        · intro m hm
          rcases List.mem_cons.1 hm with rfl | hm
          · refine ⟨v, hv, fun _ => ?_, fun h0 => by rw [hbf] at h0; simp at h0⟩
            rw [i4 m.key (fun q hq hqa hqk => hp1 q hq (hbf.trans hqa.symm) hqk.symm), put_dicts]
            simp
          · exact i3 m hm
        · intro k hk
          rw [i4 k fun m hm => hk m (List.mem_cons_of_mem _ hm), put_dicts]
          have : k ≠ l.key := fun h0 => hk l List.mem_cons_self hbf h0.symm
          simp only [this, and_false, if_false]
        · intro a ha k hk
          rw [i5 a ha k fun m hm => hk m (List.mem_cons_of_mem _ hm), put_dicts]
          simp only [(hea a ha).2, false_and, if_false]

theorem init_values {cl : GridClass V} {c g : ℕ} {h : DictHeap V} (hk : KeepsArgs cl) (hp : OneLineEach cl.lines) (hg : IsInner h cl.inner c g)
    (hcg : g ≠ c) (hea : ∀ a, h.dicts g "elem_args" = some (.ref a) → a ≠ c ∧ a ≠ g) {kw ar : HDict V}
    (hok : observed (cl.init c h) = .ok (kw, ar)) :
    (∀ l ∈ cl.lines, ∃ v, l.value (h.dicts c) = .ok v ∧ (l.inArgs = false → kw l.key = some (.val v)) ∧ (l.inArgs = true → ar l.key = some (.val v))) ∧
    (∀ k, (∀ l ∈ cl.lines, l.inArgs = false → l.key ≠ k) → kw k = h.dicts g k) ∧
    (∀ a, h.dicts g "elem_args" = some (.ref a) → ∀ k, (∀ l ∈ cl.lines, l.inArgs = true → l.key ≠ k) → ar k = h.dicts a k) := by
  simp only [GridClass.init, sub_ok.2 hg] at hok
  cases hr : Marxs.runLines c g cl.lines h with
  | mk h1 r =>
    rw [hr] at hok
    cases r with
    | error e => simp [observed] at hok
    | ok x =>
      obtain ⟨_, i2, i3, i4, i5⟩ := runLines_values cl.lines hk hp hcg hea hr
      simp only at hok
      cases he : h1.dicts g "elem_args" with
      | none =>
        rw [he] at hok
        simp only [observed, DictHeap.alloc, Except.ok.injEq, Prod.mk.injEq] at hok
        obtain ⟨rfl, hok⟩ := hok
        rw [i2] at he
        refine ⟨fun l hl => ?_, i4, fun a ha => by rw [he] at ha; simp at ha⟩
        obtain ⟨v, h1, h2, h3⟩ := i3 l hl
        refine ⟨v, h1, h2, fun hb => ?_⟩
        obtain ⟨a, ha, _⟩ := h3 hb
        rw [he] at ha; simp at ha
      | some w =>
        rw [he] at hok
        cases w with
        | val v => simp [observed] at hok
        | ref ea =>
          simp only [observed, DictHeap.alloc, Function.update_self, Except.ok.injEq, Prod.mk.injEq] at hok
          obtain ⟨rfl, rfl⟩ := hok
          rw [i2] at he
          refine ⟨fun l hl => ?_, i4, fun a ha => ?_⟩
          · obtain ⟨v, h1, h2, h3⟩ := i3 l hl
            refine ⟨v, h1, h2, fun hb => ?_⟩
            obtain ⟨a, ha, h4⟩ := h3 hb
            rw [he] at ha
            obtain rfl : ea = a := by simpa using ha
            exact h4
          · obtain rfl : ea = a := by rw [he] at ha; simpa using ha
            exact i5 ea ha

theorem hval {d : HDict V} {k : String} {v : V} (h : d.value k = .ok v) : d k = some (.val v) := by
  unfold HDict.value at h
  cases hd : d k with
  | none => simp [hd] at h
  | some w => cases w <;> simp [hd] at h; rw [h]

theorem bind_ok {α β : Type} {x : Except Err α} {g : α → Except Err β} {y : β} (h : (x >>= g) = .ok y) : ∃ a, x = .ok a ∧ g a = .ok y := by
  cases x with
  | error e => simp [bind, Except.bind] at h
  | ok a => exact ⟨a, rfl, h⟩

theorem lynxGas_keeps (f : ConfCalc V) : KeepsArgs (lynxGas f) := by simp [KeepsArgs, lynxGas]
theorem athenaGas_keeps (f : ConfCalc V) : KeepsArgs (athenaGas f) := by simp [KeepsArgs, athenaGas]
theorem regularGrid_keeps (f : ConfCalc V) (ch : String) (m : Bool) : KeepsArgs (regularGrid f ch m) := by simp [KeepsArgs, regularGrid]

/-- **C131** The gratings of Lynx (and AXIS): in any session, after any other constructions for any configurations, torus, size, radii, and
orientation are calculated from the configuration that is passed in; everything else is what was in the dictionaries at the start. -/
theorem C131_lynx (f : ConfCalc V) (h0 : DictHeap V) (history : List ℕ) (c g a : ℕ)
    (hL : Layered h0 ((lynxGas f, c) :: history.map fun c => (lynxGas f, c))) (hg : h0.dicts c "gas_kwargs" = some (.ref g))
    (ha : h0.dicts g "elem_args" = some (.ref a)) (kw ar : HDict V)
    (hok : observed ((lynxGas f).init c (runInits (history.map fun c => (lynxGas f, c)) h0)) = .ok (kw, ar)) :
    (∃ t, h0.dicts c "rowland" = some (.val t) ∧ kw "rowland" = some (.val t)) ∧
    (∃ size frame d z, h0.dicts c "grating_size" = some (.val size) ∧ h0.dicts c "grating_frame" = some (.val frame) ∧ f.dElement size frame = .ok d ∧
      f.zoom size = .ok z ∧ kw "d_element" = some (.val d) ∧ ar "zoom" = some (.val z)) ∧
    (∃ m r, h0.dicts c "metashellgeometry" = some (.val m) ∧ f.radius m = .ok r ∧ kw "radius" = some (.val r)) ∧
    (∃ o, h0.dicts c "blazemat" = some (.val o) ∧ ar "orientation" = some (.val o)) ∧
    (∀ k, k ≠ "rowland" → k ≠ "d_element" → k ≠ "radius" → kw k = h0.dicts g k) ∧
    (∀ k, k ≠ "zoom" → k ≠ "orientation" → ar k = h0.dicts a k) := by
  have hu : (lynxGas f, c) ∈ (lynxGas f, c) :: history.map fun c => (lynxGas f, c) := List.mem_cons_self
  have hgi : IsInner h0 (lynxGas f).inner c g := hg
  rw [C131_history h0 _ (lynxGas f) c hL (by
    intro u hu
    obtain ⟨c', _, rfl⟩ := List.mem_map.1 hu
    exact fun l hl => ⟨l, hl, rfl, rfl⟩) (lynxGas_keeps f)] at hok
  have hp : OneLineEach (lynxGas f).lines := by simp [OneLineEach, lynxGas]
  obtain ⟨i1, i2, i3⟩ := init_values (lynxGas_keeps f) hp hgi (hL.inner_ne_conf _ hu _ hu g hgi)
    (fun a ha => ⟨hL.args_ne_conf _ hu _ hu _ hgi a ha, hL.args_ne_inner _ hu _ hu _ _ hgi hgi a ha⟩) hok
  obtain ⟨t, t1, t2, _⟩ := i1 _ (show (⟨false, "rowland", fun c => c.value "rowland"⟩ : SetLine V) ∈ (lynxGas f).lines by simp [lynxGas])
  obtain ⟨d, d1, d2, _⟩ := i1 ⟨false, "d_element", fun c => do f.dElement (← c.value "grating_size") (← c.value "grating_frame")⟩ (by simp [lynxGas])
  obtain ⟨r, r1, r2, _⟩ := i1 ⟨false, "radius", fun c => do f.radius (← c.value "metashellgeometry")⟩ (by simp [lynxGas])
  obtain ⟨z, z1, _, z2⟩ := i1 ⟨true, "zoom", fun c => do f.zoom (← c.value "grating_size")⟩ (by simp [lynxGas])
  obtain ⟨o, o1, _, o2⟩ := i1 ⟨true, "orientation", fun c => c.value "blazemat"⟩ (by simp [lynxGas])
  simp only at t1 t2 d1 d2 r1 r2 z1 z2 o1 o2
  obtain ⟨size, s1, d1⟩ := bind_ok d1
  obtain ⟨frame, s2, d1⟩ := bind_ok d1
  obtain ⟨m, m1, r1⟩ := bind_ok r1
  obtain ⟨size', s3, z1⟩ := bind_ok z1
  obtain rfl : size = size' := by rw [s1] at s3; simpa using s3
  refine ⟨⟨t, hval t1, t2 trivial⟩, ⟨size, frame, d, z, hval s1, hval s2, d1, z1, d2 trivial, z2 trivial⟩, ⟨m, r, hval m1, r1, r2 trivial⟩, ⟨o, hval o1, o2 trivial⟩, ?_, ?_⟩
  · intro k k1 k2 k3
    refine i2 k ?_
    simp [lynxGas, k1.symm, k2.symm, k3.symm]
  · intro k k1 k2
    refine i3 a ha k ?_
    simp [lynxGas, k1.symm, k2.symm]

/-- **C131** The same for the gratings of Athena; radii are not calculated there. -/
theorem C131_athena (f : ConfCalc V) (h0 : DictHeap V) (history : List ℕ) (c g a : ℕ)
    (hL : Layered h0 ((athenaGas f, c) :: history.map fun c => (athenaGas f, c))) (hg : h0.dicts c "gas_kwargs" = some (.ref g))
    (ha : h0.dicts g "elem_args" = some (.ref a)) (kw ar : HDict V)
    (hok : observed ((athenaGas f).init c (runInits (history.map fun c => (athenaGas f, c)) h0)) = .ok (kw, ar)) :
    (∃ t, h0.dicts c "rowland" = some (.val t) ∧ kw "rowland" = some (.val t)) ∧
    (∃ size frame d z, h0.dicts c "grating_size" = some (.val size) ∧ h0.dicts c "grating_frame" = some (.val frame) ∧ f.dElement size frame = .ok d ∧
      f.zoom size = .ok z ∧ kw "d_element" = some (.val d) ∧ ar "zoom" = some (.val z)) ∧
    (∃ o, h0.dicts c "blazemat" = some (.val o) ∧ ar "orientation" = some (.val o)) ∧
    (∀ k, k ≠ "rowland" → k ≠ "d_element" → kw k = h0.dicts g k) ∧
    (∀ k, k ≠ "zoom" → k ≠ "orientation" → ar k = h0.dicts a k) := by
  have hu : (athenaGas f, c) ∈ (athenaGas f, c) :: history.map fun c => (athenaGas f, c) := List.mem_cons_self
  have hgi : IsInner h0 (athenaGas f).inner c g := hg
  rw [C131_history h0 _ (athenaGas f) c hL (by
    intro u hu
    obtain ⟨c', _, rfl⟩ := List.mem_map.1 hu
    exact fun l hl => ⟨l, hl, rfl, rfl⟩) (athenaGas_keeps f)] at hok
  have hp : OneLineEach (athenaGas f).lines := by simp [OneLineEach, athenaGas]
  obtain ⟨i1, i2, i3⟩ := init_values (athenaGas_keeps f) hp hgi (hL.inner_ne_conf _ hu _ hu g hgi)
    (fun a ha => ⟨hL.args_ne_conf _ hu _ hu _ hgi a ha, hL.args_ne_inner _ hu _ hu _ _ hgi hgi a ha⟩) hok
  obtain ⟨t, t1, t2, _⟩ := i1 ⟨false, "rowland", fun c => c.value "rowland"⟩ (by simp [athenaGas])
  obtain ⟨d, d1, d2, _⟩ := i1 ⟨false, "d_element", fun c => do f.dElement (← c.value "grating_size") (← c.value "grating_frame")⟩ (by simp [athenaGas])
  obtain ⟨z, z1, _, z2⟩ := i1 ⟨true, "zoom", fun c => do f.zoom (← c.value "grating_size")⟩ (by simp [athenaGas])
  obtain ⟨o, o1, _, o2⟩ := i1 ⟨true, "orientation", fun c => c.value "blazemat"⟩ (by simp [athenaGas])
  simp only at t1 t2 d1 d2 z1 z2 o1 o2
  obtain ⟨size, s1, d1⟩ := bind_ok d1
  obtain ⟨frame, s2, d1⟩ := bind_ok d1
  obtain ⟨size', s3, z1⟩ := bind_ok z1
  obtain rfl : size = size' := by rw [s1] at s3; simpa using s3
  refine ⟨⟨t, hval t1, t2 trivial⟩, ⟨size, frame, d, z, hval s1, hval s2, d1, z1, d2 trivial, z2 trivial⟩, ⟨o, hval o1, o2 trivial⟩, ?_, ?_⟩
  · intro k k1 k2
    refine i2 k ?_
    simp [athenaGas, k1.symm, k2.symm]
  · intro k k1 k2
    refine i3 a ha k ?_
    simp [athenaGas, k1.symm, k2.symm]

/-- **C131** A regular grid for one channel of Arcus: after any grids for any other channels and configurations, torus, direction, and
orientation are those of its own channel, although all channels are written to the same dictionary. -/
theorem C131_arcus (f : ConfCalc V) (h0 : DictHeap V) (history : List (String × Bool × ℕ)) (chan : String) (m : Bool) (c g a : ℕ)
    (hL : Layered h0 ((regularGrid f chan m, c) :: history.map fun e => (regularGrid f e.1 e.2.1, e.2.2)))
    (hg : h0.dicts c "gratinggrid" = some (.ref g)) (ha : h0.dicts g "elem_args" = some (.ref a)) (kw ar : HDict V)
    (hok : observed ((regularGrid f chan m).init c (runInits (history.map fun e => (regularGrid f e.1 e.2.1, e.2.2)) h0)) = .ok (kw, ar)) :
    (∃ t, h0.dicts c ("rowland_" ++ chan) = some (.val t) ∧ kw "rowland" = some (.val t)) ∧
    (∃ b o, h0.dicts c "blazeang" = some (.val b) ∧ f.blaze b m = .ok o ∧ ar "orientation" = some (.val o)) ∧
    (∃ p n, h0.dicts c "pos_opt_ax" = some (.val p) ∧ f.optAx p chan = .ok n ∧ kw "normal_spec" = some (.val n)) ∧
    (∃ r d, h0.dicts c "rowland_central" = some (.val r) ∧ f.guess r m = .ok d ∧ kw "guess_distance" = some (.val d)) ∧
    (∀ k, k ≠ "rowland" → k ≠ "normal_spec" → k ≠ "guess_distance" → kw k = h0.dicts g k) ∧
    (∀ k, k ≠ "orientation" → ar k = h0.dicts a k) := by
  have hu : (regularGrid f chan m, c) ∈ (regularGrid f chan m, c) :: history.map fun e => (regularGrid f e.1 e.2.1, e.2.2) := List.mem_cons_self
  have hgi : IsInner h0 (regularGrid f chan m).inner c g := hg
  rw [C131_history h0 _ (regularGrid f chan m) c hL (by
    intro u hu
    obtain ⟨e, _, rfl⟩ := List.mem_map.1 hu
    simp [Covers, regularGrid]) (regularGrid_keeps f chan m)] at hok
  have hp : OneLineEach (regularGrid f chan m).lines := by simp [OneLineEach, regularGrid]
  obtain ⟨i1, i2, i3⟩ := init_values (regularGrid_keeps f chan m) hp hgi (hL.inner_ne_conf _ hu _ hu g hgi)
    (fun a ha => ⟨hL.args_ne_conf _ hu _ hu _ hgi a ha, hL.args_ne_inner _ hu _ hu _ _ hgi hgi a ha⟩) hok
  obtain ⟨t, t1, t2, _⟩ := i1 ⟨false, "rowland", fun c => c.value ("rowland_" ++ chan)⟩ (by simp [regularGrid])
  obtain ⟨o, o1, _, o2⟩ := i1 ⟨true, "orientation", fun c => do f.blaze (← c.value "blazeang") m⟩ (by simp [regularGrid])
  obtain ⟨n, n1, n2, _⟩ := i1 ⟨false, "normal_spec", fun c => do f.optAx (← c.value "pos_opt_ax") chan⟩ (by simp [regularGrid])
  obtain ⟨d, d1, d2, _⟩ := i1 ⟨false, "guess_distance", fun c => do f.guess (← c.value "rowland_central") m⟩ (by simp [regularGrid])
  simp only at t1 t2 o1 o2 n1 n2 d1 d2
  obtain ⟨b, b1, o1⟩ := bind_ok o1
  obtain ⟨p, p1, n1⟩ := bind_ok n1
  obtain ⟨r, r1, d1⟩ := bind_ok d1
  refine ⟨⟨t, hval t1, t2 trivial⟩, ⟨b, o, hval b1, o1, o2 trivial⟩, ⟨p, n, hval p1, n1, n2 trivial⟩, ⟨r, d, hval r1, d1, d2 trivial⟩, ?_, ?_⟩
  · intro k k1 k2 k3
    refine i2 k ?_
    simp [regularGrid, k1.symm, k2.symm, k3.symm]
  · intro k k1
    refine i3 a ha k ?_
    simp [regularGrid, k1.symm]

/-- A session with two configurations 0 and 1 that differ in the size of the gratings and share all inner dictionaries, made with
`copy.copy` as in `marxs/missions/lynx/lynx.py:98-99`. -/
noncomputable def exSession : DictHeap ℕ :=
  ⟨fun n k =>
    if n = 0 ∨ n = 1 then
      if k = "gas_kwargs" then some (.ref 2)
      else if k = "grating_size" then some (.val (if n = 0 then 20 else 50))
      else if k = "rowland" ∨ k = "grating_frame" ∨ k = "metashellgeometry" ∨ k = "blazemat" then some (.val 7)
      else none
    else if n = 2 then if k = "elem_args" then some (.ref 3) else none
    else if n = 3 then if k = "d" then some (.val 2) else none
    else none, 4⟩

/-- Some calculation. -/
def exCalc : ConfCalc ℕ := ⟨fun a b => .ok (a + b), .ok, .ok, fun v _ => .ok v, fun v _ => .ok v, fun v _ => .ok v⟩

theorem exSession_layered : Layered exSession [(lynxGas exCalc, 0), (lynxGas exCalc, 1)] := by
  have inner : ∀ u ∈ [(lynxGas exCalc, 0), (lynxGas exCalc, 1)], ∀ g, IsInner exSession u.1.inner u.2 g → g = 2 := by
    intro u hu g hg
    have : u = (lynxGas exCalc, 0) ∨ u = (lynxGas exCalc, 1) := by simpa using hu
    rcases this with rfl | rfl <;> · simp [IsInner, exSession, lynxGas] at hg; exact hg.symm
  have args : ∀ a, exSession.dicts 2 "elem_args" = some (.ref a) → a = 3 := by
    intro a ha
    simp [exSession] at ha
    exact ha.symm
  have conf : ∀ u ∈ [(lynxGas exCalc, 0), (lynxGas exCalc, 1)], u.2 = 0 ∨ u.2 = 1 := by
    intro u hu
    have : u = (lynxGas exCalc, 0) ∨ u = (lynxGas exCalc, 1) := by simpa using hu
    rcases this with rfl | rfl <;> simp
  have nx : exSession.next = 4 := rfl
  refine ⟨?_, ?_, ?_, ?_, ?_, ?_⟩
  · intro u hu
    rw [nx]
    rcases conf u hu with h | h <;> omega
  · intro u hu g hg
    rw [nx, inner u hu g hg]; omega
  · intro u hu g hg a ha
    rw [inner u hu g hg] at ha
    rw [nx, args a ha]; omega
  · intro u hu u' hu' g hg
    rw [inner u hu g hg]
    rcases conf u' hu' with h | h <;> omega
  · intro u hu u' hu' g hg a ha
    rw [inner u hu g hg] at ha
    rw [args a ha]
    rcases conf u' hu' with h | h <;> omega
  · intro u hu u' hu' g g' hg hg' a ha
    rw [inner u hu g hg] at ha
    rw [args a ha, inner u' hu' g' hg']; omega

/-- **C131** The hypotheses are met, and it matters: building from configuration 1 leaves its size in the dictionary that it shares with
configuration 0. Still the structure that is built next from configuration 0 is that of configuration 0. -/
theorem C131_shared :
    (runInits [(lynxGas exCalc, 1)] exSession).dicts 2 "d_element" = some (.val 57) ∧
    ∃ kw ar, observed ((lynxGas exCalc).init 0 (runInits [(lynxGas exCalc, 1)] exSession)) = .ok (kw, ar) ∧
      kw "d_element" = some (.val 27) ∧ ar "zoom" = some (.val 20) ∧ ar "d" = some (.val 2) := by
  refine ⟨?_, ?_⟩
  · simp [runInits, GridClass.init, lynxGas, Marxs.runLines, HDict.sub, HDict.value, exSession, exCalc, DictHeap.put, DictHeap.alloc, bind, Except.bind,
      Function.update_apply]
  · rw [C131_history exSession [(lynxGas exCalc, 1)] (lynxGas exCalc) 0 exSession_layered (by
      intro u hu
      obtain rfl : u = (lynxGas exCalc, 1) := by simpa using hu
      exact fun l hl => ⟨l, hl, rfl, rfl⟩) (lynxGas_keeps exCalc)]
    refine ⟨_, _, by
      simp only [GridClass.init, lynxGas, Marxs.runLines, HDict.sub, HDict.value, exSession, exCalc, DictHeap.put, DictHeap.alloc, bind, Except.bind,
        Function.update_apply, observed, true_or, if_true]
      rfl, ?_, ?_, ?_⟩ <;> simp [Function.update_apply]

end Marxs
