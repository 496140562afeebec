import Verif.Model.TolGratings
import Verif.Props.Tolerancing
import Verif.Props.Grating

/-!
# C114, C115: tolerancing functions for gratings
-/

namespace Marxs
open Classical Matrix

/-! ## C114 -/

/-- All elements of a list are treated one after the other. -/
theorem tolLoop_ok {α G : Type} (func : α → G → Except Err (α × G)) (step : α → ℕ → α) (gen : ℕ → G)
    (good : α → Prop) : ∀ (l : List ℕ) (k : ℕ) (heap : ℕ → α), l.Nodup → (∀ r ∈ l, good (heap r)) →
    (∀ a k, good a → func a (gen k) = .ok (step a k, gen (k + 1))) →
    ∃ heap', tolLoop func l heap (gen k) = (heap', gen (k + l.length), none) ∧
      (∀ i r, l[i]? = some r → heap' r = step (heap r) (k + i)) ∧ ∀ r, r ∉ l → heap' r = heap r := by
  intro l
  induction l with
  | nil => intro k heap _ _ _; exact ⟨heap, rfl, by simp, fun _ _ => rfl⟩
  | cons r rs ih =>
    intro k heap hnd hg hf
    obtain ⟨hr, hnd'⟩ := List.nodup_cons.1 hnd
    have hother : ∀ r' ∈ rs, Function.update heap r (step (heap r) k) r' = heap r' := by
      intro r' h'
      exact Function.update_of_ne (by rintro rfl; exact hr h') _ _
    obtain ⟨heap', h1, h2, h3⟩ := ih (k + 1) (Function.update heap r (step (heap r) k)) hnd'
      (by intro r' h'; rw [hother r' h']; exact hg r' (List.mem_cons_of_mem _ h')) hf
    refine ⟨heap', ?_, ?_, ?_⟩
    · simp only [tolLoop, hf _ k (hg r List.mem_cons_self)]
      rw [h1, List.length_cons]
      congr 2; congr 1; omega
    · intro i r' hi
      cases i with
      | zero =>
        simp only [List.getElem?_cons_zero, Option.some.injEq] at hi
        subst hi
        rw [h3 r hr, Function.update_self, Nat.add_zero]
      | succ i =>
        simp only [List.getElem?_cons_succ] at hi
        have := h2 i r' hi
        rw [this, hother r' (List.mem_of_getElem? hi)]
        congr 1; omega
    · intro r' h'
      rw [List.mem_cons, not_or] at h'
      rw [h3 r' h'.2, Function.update_of_ne h'.1]

/-- **C114** `varyperiod` gives each grating in a list its own draw from the Gaussian, in the order of the list, and changes nothing else. -/
theorem C114_period {Sel : Type} (mean sigma : ℝ) (hs : 0 ≤ sigma) (l : List ℕ) (hl : l.Nodup) (heap : ℕ → GratAttrs Sel)
    (hd : ∀ r ∈ l, (heap r).d ≠ none) (z : ℕ → ℝ) :
    ∃ heap', oneOrMoreElements (varyPeriod mean sigma) (.many l) heap z = (heap', fun i => z (l.length + i), none) ∧
      (∀ i r, l[i]? = some r → heap' r = ⟨some (mean + sigma * z i), (heap r).sel⟩) ∧
      ∀ r, r ∉ l → heap' r = heap r := by
  obtain ⟨heap', h1, h2, h3⟩ := tolLoop_ok (varyPeriod (Sel := Sel) mean sigma)
    (fun a k => { a with d := some (mean + sigma * z k) }) (fun k i => z (k + i)) (fun a => a.d ≠ none) l 0 heap hl hd (by
      intro a k ha
      obtain ⟨d, hd⟩ := Option.ne_none_iff_exists'.1 ha
      simp only [varyPeriod, hd]
      rw [if_neg (not_lt.2 hs)]
      simp only [Nat.add_zero]
      congr 2
      funext i
      congr 1; omega)
  refine ⟨heap', ?_, ?_, h3⟩
  · simpa [oneOrMoreElements] using h1
  · intro i r hi
    simpa using h2 i r hi

/-- **C114** `varyorderselector` makes a new order selector for each grating in the list and changes nothing else. -/
theorem C114_order_selector {Sel : Type} (make : ℕ → Except Err Sel) (sel : ℕ → Sel) (hm : ∀ n, make n = .ok (sel n)) (l : List ℕ)
    (hl : l.Nodup) (heap : ℕ → GratAttrs Sel) (hd : ∀ r ∈ l, (heap r).sel ≠ none) (n : ℕ) :
    ∃ heap', oneOrMoreElements (varyOrderSelector make) (.many l) heap n = (heap', n + l.length, none) ∧
      (∀ i r, l[i]? = some r → heap' r = ⟨(heap r).d, some (sel (n + i))⟩) ∧ ∀ r, r ∉ l → heap' r = heap r := by
  exact tolLoop_ok (varyOrderSelector make) (fun a k => { a with sel := some (sel k) }) id (fun a => a.sel ≠ none) l n heap hl hd (by
      intro a k ha
      obtain ⟨d, hd⟩ := Option.ne_none_iff_exists'.1 ha
      simp only [varyOrderSelector, hd, id, hm])

/-- **C114** One element is treated like a list with one element. -/
theorem C114_one {α G : Type} (func : α → G → Except Err (α × G)) (r : ℕ) (heap : ℕ → α) (g : G) :
    oneOrMoreElements func (.one r) heap g = oneOrMoreElements func (.many [r]) heap g := rfl

/-- **C114** An object without grating constant is an error. Gratings before it in the list are changed already, those behind it are not. -/
theorem C114_no_period {Sel : Type} (mean sigma : ℝ) (hs : 0 ≤ sigma) (l l' : List ℕ) (bad : ℕ) (hl : (l ++ bad :: l').Nodup)
    (heap : ℕ → GratAttrs Sel) (hd : ∀ r ∈ l, (heap r).d ≠ none) (hbad : (heap bad).d = none) (z : ℕ → ℝ) :
    ∃ heap' z', oneOrMoreElements (varyPeriod mean sigma) (.many (l ++ bad :: l')) heap z = (heap', z', some .valueError) ∧
      (∀ i r, l[i]? = some r → heap' r = ⟨some (mean + sigma * z i), (heap r).sel⟩) ∧
      ∀ r, r ∉ l → heap' r = heap r := by
  obtain ⟨heap', h1, h2, h3⟩ := C114_period mean sigma hs l (List.Nodup.of_append_left hl) heap hd z
  refine ⟨heap', fun i => z (l.length + i), ?_, h2, h3⟩
  have happ : ∀ (l : List ℕ) (heap : ℕ → GratAttrs Sel) (z : ℕ → ℝ) (heap' : ℕ → GratAttrs Sel) (z' : ℕ → ℝ),
      tolLoop (varyPeriod mean sigma) l heap z = (heap', z', none) →
      tolLoop (varyPeriod mean sigma) (l ++ bad :: l') heap z = tolLoop (varyPeriod mean sigma) (bad :: l') heap' z' := by
    intro l
    induction l with
    | nil => intro heap z heap' z' h; simp only [tolLoop, Prod.mk.injEq] at h; rw [h.1, h.2.1]; rfl
    | cons r rs ih =>
      intro heap z heap' z' h
      rw [List.cons_append, tolLoop]
      rw [tolLoop] at h
      split at h
      · simp only [Prod.mk.injEq, reduceCtorEq, and_false] at h
      · rename_i a g hag
        exact ih _ _ _ _ h
  simp only [oneOrMoreElements] at h1 ⊢
  rw [happ l heap z heap' _ h1]
  have hb : heap' bad = heap bad := h3 bad (by
    intro h
    have := (List.nodup_append.1 hl).2.2 bad h bad List.mem_cons_self
    exact this rfl)
  simp only [tolLoop, varyPeriod, hb, hbad]

/-- **C114** What `varyperiod` and `varyorderselector` do to the elements of a container lasts only until the next
tolerancing move of this container, which makes new elements with the original values; the changed objects
are no longer part of the container. -/
theorem C114_forgotten {Sel : Type} (args : GratAttrs Sel) (n free : ℕ) (heap : ℕ → GratAttrs Sel) (old : List ℕ)
    (hold : ∀ r ∈ old, r < free) :
    (regenGratings args n free heap).1.length = n ∧
    (∀ r ∈ (regenGratings args n free heap).1, (regenGratings args n free heap).2 r = args ∧ r ∉ old) ∧
    ∀ r ∈ old, (regenGratings args n free heap).2 r = heap r := by
  refine ⟨by simp [regenGratings], ?_, ?_⟩
  · intro r hr
    simp only [regenGratings, List.mem_map, List.mem_range] at hr ⊢
    obtain ⟨i, hi, rfl⟩ := hr
    refine ⟨if_pos ⟨by omega, by omega⟩, fun h => ?_⟩
    have := hold _ h
    omega
  · intro r hr
    have := hold r hr
    simp only [regenGratings]
    rw [if_neg (by omega)]

/-- Two gratings and a mirror (example). -/
example : ∃ heap' z', oneOrMoreElements (varyPeriod (Sel := Unit) 2 1) (.many [0, 1, 2])
    (fun r => if r = 2 then ⟨none, none⟩ else ⟨some 1, none⟩) (fun i => i) = (heap', z', some .valueError) ∧
    heap' 0 = ⟨some 2, none⟩ ∧ heap' 1 = ⟨some 3, none⟩ := by
  obtain ⟨heap', z', h1, h2, _⟩ := C114_no_period (Sel := Unit) 2 1 (by norm_num) [0, 1] [] 2 (by simp)
    (fun r => if r = 2 then ⟨none, none⟩ else ⟨some 1, none⟩) (by simp) (by simp) (fun i => i)
  refine ⟨heap', z', h1, ?_, ?_⟩
  · have := h2 0 0 (by simp); simpa using this
  · have := h2 1 1 (by simp); simp at this; rw [this]; norm_num

/-! ## C115 -/

/-- **C115** `wiggle_and_bar_tilt` draws a tilt of at most `max_bar_tilt` for each grating, makes it the angle of the bars of this grating and rotates the
element with this grating by minus this angle around the y axis (in addition to the random misalignment): a local point `p` of element `i` ends up at the given
place. -/
theorem C115_tilt {dec : M4 → Decomp} (hdec : DecExact dec) (p : Dof) (maxTilt b0 : ℝ) (hmax : 0 ≤ maxTilt) (u : ℕ → ℝ)
    (hu : ∀ i, 0 ≤ u i ∧ u i < 1) (zt zr : ℕ → Fin 3 → ℝ) (e s : BarState) (hlen : e.state.elements.length = e.state.par.elemPos.length)
    (h : wiggleAndBarTilt dec p maxTilt b0 u zt zr e = .ok s) :
    s.blaze.length = e.state.elements.length ∧ s.state.elements.length = e.state.elements.length ∧
    ∀ (i : ℕ) (el : GenElem), s.state.elements[i]? = some el → ∃ t, s.blaze[i]? = some t ∧ |t| ≤ maxTilt ∧
      ∀ (ta te za ze : Fin 3 → ℝ) (ra re : M3), IsRotation ra → IsRotation re → (∀ k, 0 < za k) → (∀ k, 0 < ze k) →
        (∃ rest, parsePosition (addName i e.state.par.name (specificArgs e.state.par.elemPos.length i e.state.par.elemArgs)) =
          .ok (compose ta ra za, rest)) →
        e.state.par.elemPos[i]? = some (compose te re ze) → ∀ x : Fin 3 → ℝ,
        el.pos4d *ᵥ hom x = e.state.par.pos4d *ᵥ (e.state.par.uncertainty *ᵥ
          hom (![p.dx * zt i 0, p.dy * zt i 1, p.dz * zt i 2] + (te + (ta +
            (euZ (p.rz * zr i 2) * (euY (p.ry * zr i 1 - t) * euX (p.rx * zr i 0))) *ᵥ (re *ᵥ (ra *ᵥ (ze * (za * x)))))))) := by
  unfold wiggleAndBarTilt at h
  simp only at h
  split at h
  · cases h
  rename_i us hus
  split at h
  · cases h
  rename_i st hst
  split at h
  · cases h
  cases h
  obtain ⟨hpar, hgen⟩ := regenerate_ok hst
  have hl : st.elements.length = e.state.elements.length := by
    have := generate_length hgen
    simp only at this
    rw [this, hlen]
  refine ⟨by simp, hl, ?_⟩
  intro i el hel
  have hi : i < e.state.elements.length := by
    rw [← hl]; exact (List.getElem?_eq_some_iff.1 hel).1
  refine ⟨-maxTilt + (maxTilt - -maxTilt) * u i, by simp [hi], ?_, ?_⟩
  · rw [abs_le]
    obtain ⟨a, b⟩ := hu i
    constructor <;> nlinarith
  · intro ta te za ze ra re hra hre hza hze harg hpos x
    unfold facetUncertaintyEach at hus
    split at hus
    · cases hus
    cases hus
    have hui : ∃ q, q = -maxTilt + (maxTilt - -maxTilt) * u i := ⟨_, rfl⟩
    obtain ⟨q, hq⟩ := hui
    rw [← hq]
    have hunc : ((List.zip ((List.range e.state.elements.length).map fun i => fun k => (![p.dx, p.dy, p.dz] : Fin 3 → ℝ) k * zt i k)
        ((List.range e.state.elements.length).map fun i => fun k =>
          (-(![0, ((List.range e.state.elements.length).map fun i => -maxTilt + (maxTilt - -maxTilt) * u i).getD i 0, 0] : Fin 3 → ℝ)) k +
          (![p.rx, p.ry, p.rz] : Fin 3 → ℝ) k * zr i k)).map
        fun (t, a) => compose t (euler2mat (a 0) (a 1) (a 2)) ![1, 1, 1])[i]? =
        some (compose ![p.dx * zt i 0, p.dy * zt i 1, p.dz * zt i 2]
          (euZ (p.rz * zr i 2) * (euY (p.ry * zr i 1 - q) * euX (p.rx * zr i 0))) ![1, 1, 1]) := by
      rw [List.zip_map', List.map_map, List.getElem?_map, List.getElem?_range hi]
      simp only [Option.map_some, Function.comp, Option.some.injEq]
      have hget : ((List.range e.state.elements.length).map fun i => -maxTilt + (maxTilt - -maxTilt) * u i).getD i 0 = q := by
        rw [List.getD_eq_getElem?_getD, List.getElem?_map, List.getElem?_range hi]
        simp [hq]
      congr 1
      · ext k; fin_cases k <;> simp
      · simp only [euler2mat, hget]
        have a0 : (-(![0, q, 0] : Fin 3 → ℝ)) 0 + (![p.rx, p.ry, p.rz] : Fin 3 → ℝ) 0 * zr i 0 = p.rx * zr i 0 := by simp
        have a1 : (-(![0, q, 0] : Fin 3 → ℝ)) 1 + (![p.rx, p.ry, p.rz] : Fin 3 → ℝ) 1 * zr i 1 = p.ry * zr i 1 - q := by simp; ring
        have a2 : (-(![0, q, 0] : Fin 3 → ℝ)) 2 + (![p.rx, p.ry, p.rz] : Fin 3 → ℝ) 2 * zr i 2 = p.rz * zr i 2 := by simp
        rw [a0, a1, a2]
    have key := C06_placement hdec hgen i el hel ta te ![p.dx * zt i 0, p.dy * zt i 1, p.dz * zt i 2] za ze ![1, 1, 1] ra re
      (euZ (p.rz * zr i 2) * (euY (p.ry * zr i 1 - q) * euX (p.rx * zr i 0))) hra hre
      (isRotation_mul (euZ_rotation _) (isRotation_mul (euY_rotation _) (euX_rotation _))) hza hze
      (by intro k; fin_cases k <;> simp) harg hpos hunc x
    simp only at key
    rw [key]
    have h1 : (![1, 1, 1] : Fin 3 → ℝ) * (ze * (za * x)) = ze * (za * x) := by
      ext k; fin_cases k <;> simp
    rw [h1]

/-- What happens up to the check of the number of gratings. -/
theorem barTilt_spec {dec : M4 → Decomp} (hdec : DecExact dec) (p : Dof)
    (hp : (ParOp.wiggle p (fun _ _ => 0) (fun _ _ => 0)).Valid) (maxTilt b0 : ℝ) (u : ℕ → ℝ)
    (zt zr : ℕ → Fin 3 → ℝ) (e : BarState) (h0 : generateElements dec e.state.par = .ok e.state.elements) :
    ∃ us es, us.length = e.state.elements.length ∧ es.length = e.state.elements.length ∧
      (∀ i, i < us.length → us[i]? = some (moveMat ⟨p.dx * zt i 0, p.dy * zt i 1, p.dz * zt i 2,
        p.rx * zr i 0, p.ry * zr i 1 - (-maxTilt + 2 * maxTilt * u i), p.rz * zr i 2⟩)) ∧
      wiggleAndBarTilt dec p maxTilt b0 u zt zr e =
        if es.length * e.perElem ≠ e.state.elements.length then
          .error (.setupError, some ⟨⟨{ e.state.par with elemUncertainty := us }, es⟩, e.perElem, List.replicate (es.length * e.perElem) b0⟩)
        else .ok ⟨⟨{ e.state.par with elemUncertainty := us }, es⟩, e.perElem,
          (List.range e.state.elements.length).map fun i => -maxTilt + (maxTilt - -maxTilt) * u i⟩ := by
  obtain ⟨p1, p2, p3, p4, p5, p6⟩ := hp
  have hok : ∃ us, facetUncertaintyEach e.state.elements.length ![p.dx, p.dy, p.dz] ![p.rx, p.ry, p.rz]
      (fun i => -(![0, ((List.range e.state.elements.length).map fun i => -maxTilt + (maxTilt - -maxTilt) * u i).getD i 0, 0] : Fin 3 → ℝ)) zt zr = .ok us ∧
      us.length = e.state.elements.length ∧ ∀ i, i < us.length → us[i]? = some (moveMat ⟨p.dx * zt i 0, p.dy * zt i 1, p.dz * zt i 2,
        p.rx * zr i 0, p.ry * zr i 1 - (-maxTilt + 2 * maxTilt * u i), p.rz * zr i 2⟩) := by
    refine ⟨_, by
      unfold facetUncertaintyEach
      rw [if_neg]
      rintro (⟨k, hk⟩ | ⟨k, hk⟩) <;> fin_cases k <;> simp at hk <;> linarith, by simp, ?_⟩
    intro i hi
    have hi : i < e.state.elements.length := by simpa using hi
    rw [List.zip_map', List.map_map, List.getElem?_map, List.getElem?_range hi]
    simp only [Option.map_some, Function.comp, Option.some.injEq, moveMat]
    congr 1
    · ext k; fin_cases k <;> simp
    · congr 1
      · simp
      · simp [hi]; ring
      · simp
  obtain ⟨us, h1, h2, h3⟩ := hok
  obtain ⟨es', hes⟩ := generate_changed hdec h0 e.state.par.uncertainty us (Or.inr ⟨by rw [h2, generate_length h0], by
    intro v hv
    obtain ⟨i, hi, rfl⟩ := List.mem_iff_getElem.1 hv
    have := h3 i hi
    rw [List.getElem?_eq_getElem hi, Option.some.injEq] at this
    exact ⟨_, this⟩⟩)
  have hes' : generateElements dec { e.state.par with elemUncertainty := us } = .ok es' := hes
  have hlen : es'.length = e.state.elements.length := by
    rw [generate_length hes', generate_length h0]
  refine ⟨us, es', h2, hlen, h3, ?_⟩
  unfold wiggleAndBarTilt
  simp only
  rw [h1]
  simp only [ParState.regenerate, hes', List.length_replicate, List.length_map, List.length_range]

/-- **C115** Containers with one CAT grating per element are always accepted. -/
theorem C115_succeeds {dec : M4 → Decomp} (hdec : DecExact dec) (p : Dof)
    (hp : (ParOp.wiggle p (fun _ _ => 0) (fun _ _ => 0)).Valid) (maxTilt b0 : ℝ) (u : ℕ → ℝ)
    (zt zr : ℕ → Fin 3 → ℝ) (e : BarState) (h0 : generateElements dec e.state.par = .ok e.state.elements) (hper : e.perElem = 1) :
    ∃ s, wiggleAndBarTilt dec p maxTilt b0 u zt zr e = .ok s := by
  obtain ⟨us, es, _, h2, _, h4⟩ := barTilt_spec hdec p hp maxTilt b0 u zt zr e h0
  rw [hper, mul_one, if_neg (not_not.2 h2)] at h4
  exact ⟨_, h4⟩

/-- **C115** Containers with anything but one CAT grating per element are an error; but their elements have been moved already. -/
theorem C115_wrong_elements {dec : M4 → Decomp} (hdec : DecExact dec) (p : Dof)
    (hp : (ParOp.wiggle p (fun _ _ => 0) (fun _ _ => 0)).Valid) (maxTilt b0 : ℝ) (u : ℕ → ℝ)
    (zt zr : ℕ → Fin 3 → ℝ) (e : BarState) (h0 : generateElements dec e.state.par = .ok e.state.elements) (hne : e.state.elements ≠ [])
    (hper : e.perElem ≠ 1) :
    ∃ us st, wiggleAndBarTilt dec p maxTilt b0 u zt zr e = .error (.setupError, some st) ∧ us.length = e.state.elements.length ∧
      st.state.par = { e.state.par with elemUncertainty := us } ∧ ∀ i, i < us.length → us[i]? = some (moveMat ⟨p.dx * zt i 0, p.dy * zt i 1, p.dz * zt i 2,
        p.rx * zr i 0, p.ry * zr i 1 - (-maxTilt + 2 * maxTilt * u i), p.rz * zr i 2⟩) := by
  obtain ⟨us, es, h1, h2, h3, h4⟩ := barTilt_spec hdec p hp maxTilt b0 u zt zr e h0
  rw [if_pos] at h4
  · exact ⟨us, _, h4, h1, rfl, h3⟩
  · rw [h2]
    intro h
    have hpos : 0 < e.state.elements.length := List.length_pos_of_ne_nil hne
    exact hper (Nat.eq_of_mul_eq_mul_left hpos (by rw [h, mul_one]))

/-- A container with two gratings (example). -/
example : ∃ (e s : BarState), e.state.elements.length = 2 ∧ generateElements decompose44 e.state.par = .ok e.state.elements ∧
    e.state.elements.length = e.state.par.elemPos.length ∧
    wiggleAndBarTilt decompose44 ⟨1, 0, 0, 0, 0, 2⟩ (1 / 10) 0 (fun i => i / 10) (fun i _ => i) (fun _ k => k) e = .ok s := by
  obtain ⟨es, h⟩ := exPar_ok
  have hlen := generate_length h
  obtain ⟨s, hs⟩ := C115_succeeds decompose44_exact ⟨1, 0, 0, 0, 0, 2⟩ (by simp [ParOp.Valid]) (1 / 10) 0 (fun i => i / 10) (fun i _ => i)
    (fun _ k => k) ⟨⟨exPar, es⟩, 1, [0, 0]⟩ h rfl
  exact ⟨_, s, hlen, h, hlen, hs⟩

/-- Rotation of a direction around the y axis by minus the tilt. -/
noncomputable def tiltBack (t : ℝ) (v : H4) : H4 :=
  ⟨(mul3 (euY (-t)) v.xyz).x, (mul3 (euY (-t)) v.xyz).y, (mul3 (euY (-t)) v.xyz).z, v.w⟩

/-- blaze angle of a photon in terms of two angles -/
theorem blaze_plane (c s a b m : ℝ) (hc : 0 < c) (hab : |b - a| ≤ Real.pi / 2) :
    blazeAngle ⟨-(c * Real.cos b), s, -(c * Real.sin b), 0⟩ ⟨0, 1, 0, 0⟩ ⟨Real.cos a, 0, Real.sin a, 0⟩ m = some (|b - a| + m) := by
  have h1 := Real.sin_sq_add_cos_sq b
  have hv : (⟨-(c * Real.cos b), s, -(c * Real.sin b), 0⟩ : H4) -
      ((⟨-(c * Real.cos b), s, -(c * Real.sin b), 0⟩ : H4).dot ⟨0, 1, 0, 0⟩) • (⟨0, 1, 0, 0⟩ : H4) =
      ⟨-(c * Real.cos b), 0, -(c * Real.sin b), 0⟩ := by
    ext <;> simp [H4.dot]
  have hd : (⟨-(c * Real.cos b), 0, -(c * Real.sin b), 0⟩ : H4).dot ⟨-(c * Real.cos b), 0, -(c * Real.sin b), 0⟩ = c ^ 2 := by
    simp only [H4.dot]; linear_combination c ^ 2 * h1
  have hn : (⟨-(c * Real.cos b), 0, -(c * Real.sin b), 0⟩ : H4).norm = c := by
    rw [H4.norm, hd, Real.sqrt_sq hc.le]
  simp only [blazeAngle, normVector, hv, hd]
  rw [if_neg (by positivity)]
  simp only [H4.unit, hn]
  have hdot : ((1 / c) • (⟨-(c * Real.cos b), 0, -(c * Real.sin b), 0⟩ : H4)).dot ⟨Real.cos a, 0, Real.sin a, 0⟩ = -Real.cos (b - a) := by
    rw [Real.cos_sub]
    simp [H4.dot]
    field_simp
    ring
  have hcos : 0 ≤ Real.cos (b - a) := by
    rw [← Real.cos_abs]
    exact Real.cos_nonneg_of_neg_pi_div_two_le_of_le (by linarith [abs_nonneg (b - a), Real.pi_pos]) hab
  rw [hdot, abs_neg, abs_of_nonneg hcos, max_eq_left hcos, min_eq_left (Real.cos_le_one _), ← Real.cos_abs,
    Real.arccos_cos (abs_nonneg _) (by linarith [Real.pi_pos])]

theorem tiltBack_plane (t a : ℝ) : tiltBack t ⟨Real.cos a, 0, Real.sin a, 0⟩ = ⟨Real.cos (a + t), 0, Real.sin (a + t), 0⟩ := by
  rw [tiltBack, Real.cos_add, Real.sin_add]
  ext <;> simp [mul3, euY, H4.xyz] <;> ring

theorem tiltBack_y (t : ℝ) : tiltBack t ⟨0, 1, 0, 0⟩ = ⟨0, 1, 0, 0⟩ := by
  ext <;> simp [tiltBack, mul3, euY, H4.xyz]

/-- **C115** If the bars of the grating run along the y axis and the photon arrives at a blaze angle `β` on the side to which the bars are
tilted, the rotation compensates the tilt of the bars: the blaze angle is that of a grating without tilt. -/
theorem C115_compensated_partial (a β t c s : ℝ) (hc : 0 < c) (h0 : 0 ≤ β) (h1 : β ≤ Real.pi / 2) (ht : t ≤ β)
    (ht' : β - t ≤ Real.pi / 2) :
    let p : H4 := ⟨-(c * Real.cos (a + β)), s, -(c * Real.sin (a + β)), 0⟩
    let l : H4 := ⟨0, 1, 0, 0⟩
    let n : H4 := ⟨Real.cos a, 0, Real.sin a, 0⟩
    blazeAngle p l n 0 = some β ∧ blazeAngle p l n t = some (β + t) ∧ blazeAngle p (tiltBack t l) (tiltBack t n) t = some β := by
  intro p l n
  have e1 : |a + β - a| = β := by rw [add_sub_cancel_left, abs_of_nonneg h0]
  have e2 : |a + β - (a + t)| = β - t := by rw [add_sub_add_left_eq_sub, abs_of_nonneg (by linarith)]
  refine ⟨?_, ?_, ?_⟩
  · rw [blaze_plane c s a (a + β) 0 hc (by rw [e1]; exact h1), e1, add_zero]
  · rw [blaze_plane c s a (a + β) t hc (by rw [e1]; exact h1), e1]
  · rw [tiltBack_y, tiltBack_plane, blaze_plane c s (a + t) (a + β) t hc (by rw [e2]; exact ht'), e2]
    congr 1; ring

/-- **C115** (disagreement) For photons that arrive from the other side, the rotation doubles the effect of the tilt. -/
theorem C115_other_side_false (a β t c s : ℝ) (hc : 0 < c) (h0 : 0 ≤ β) (ht : 0 < t) (ht' : β + t ≤ Real.pi / 2) :
    let p : H4 := ⟨-(c * Real.cos (a - β)), s, -(c * Real.sin (a - β)), 0⟩
    let l : H4 := ⟨0, 1, 0, 0⟩
    let n : H4 := ⟨Real.cos a, 0, Real.sin a, 0⟩
    blazeAngle p l n 0 = some β ∧ blazeAngle p (tiltBack t l) (tiltBack t n) t = some (β + 2 * t) := by
  intro p l n
  have e1 : |a - β - a| = β := by rw [show a - β - a = -β by ring, abs_neg, abs_of_nonneg h0]
  have e2 : |a - β - (a + t)| = β + t := by
    rw [show a - β - (a + t) = -(β + t) by ring, abs_neg, abs_of_nonneg (by linarith)]
  refine ⟨?_, ?_⟩
  · rw [blaze_plane c s a (a - β) 0 hc (by rw [e1]; linarith), e1, add_zero]
  · rw [tiltBack_y, tiltBack_plane, blaze_plane c s (a + t) (a - β) t hc (by rw [e2]; exact ht'), e2]
    congr 1; ring

/-- **C115** (disagreement) For gratings in the default orientation (normal along x, bars along z) the rotation is around the wrong axis: it does not change the
blaze angle at all, so the tilt is not compensated. -/
theorem C115_default_false (t : ℝ) (ht : |t| < Real.pi / 2) (ht0 : t ≠ 0) :
    let p : H4 := ⟨-1, 0, 0, 0⟩
    let l : H4 := ⟨0, 0, 1, 0⟩
    let n : H4 := ⟨1, 0, 0, 0⟩
    blazeAngle p l n 0 = some 0 ∧ blazeAngle p (tiltBack t l) (tiltBack t n) 0 = some 0 ∧
      blazeAngle p (tiltBack t l) (tiltBack t n) t = some t ∧ t ≠ 0 := by
  intro p l n
  have hcos : 0 < Real.cos t := Real.cos_pos_of_mem_Ioo ⟨by linarith [(abs_lt.1 ht).1], (abs_lt.1 ht).2⟩
  have hsc := Real.sin_sq_add_cos_sq t
  have hl : tiltBack t l = ⟨-Real.sin t, 0, Real.cos t, 0⟩ := by
    ext <;> simp [l, tiltBack, mul3, euY, H4.xyz]
  have hn : tiltBack t n = ⟨Real.cos t, 0, Real.sin t, 0⟩ := by
    ext <;> simp [n, tiltBack, mul3, euY, H4.xyz]
  have hv : p - (p.dot (tiltBack t l)) • tiltBack t l = ⟨-Real.cos t * Real.cos t, 0, -Real.cos t * Real.sin t, 0⟩ := by
    rw [hl]
    ext <;> simp [p, H4.dot]
    · linear_combination hsc
    · ring
  have hd : (⟨-Real.cos t * Real.cos t, 0, -Real.cos t * Real.sin t, 0⟩ : H4).dot ⟨-Real.cos t * Real.cos t, 0, -Real.cos t * Real.sin t, 0⟩ =
      Real.cos t ^ 2 := by
    simp only [H4.dot]; linear_combination Real.cos t ^ 2 * hsc
  have hnm : (⟨-Real.cos t * Real.cos t, 0, -Real.cos t * Real.sin t, 0⟩ : H4).norm = Real.cos t := by
    rw [H4.norm, hd, Real.sqrt_sq hcos.le]
  have key : ∀ m, blazeAngle p (tiltBack t l) (tiltBack t n) m = some m := by
    intro m
    simp only [blazeAngle, normVector, hv, hd]
    rw [if_neg (by positivity)]
    have hdot : (⟨-Real.cos t * Real.cos t, 0, -Real.cos t * Real.sin t, 0⟩ : H4).unit.dot (tiltBack t n) = -1 := by
      rw [H4.unit, hnm, hn]
      simp only [H4.dot, H4.smul_x, H4.smul_y, H4.smul_z, H4.smul_w]
      field_simp
      linear_combination -Real.cos t * hsc
    simp only [hdot]
    simp
  refine ⟨?_, key 0, key t, ht0⟩
  simp [p, l, n, blazeAngle, normVector, H4.dot, H4.unit, H4.norm]

/-- **C115** The order selectors for wavy gratings look up the probabilities at the blaze angle plus a random number; the top hat stays within half its width. -/
theorem C115_selectors {β : Type} (probs : ℝ → H4 → ℝ → β) (w : ℝ) (hw : 0 ≤ w) (x : ℝ) (energy : ℝ) (pol : H4) (blaze : ℝ) :
    wavyProbabilities probs w x energy pol blaze = probs energy pol (blaze + w * x) ∧
    wavyProbabilities probs 0 x energy pol blaze = probs energy pol blaze ∧
    (0 ≤ x → x < 1 → ∃ b, topHatProbabilities probs w x energy pol blaze = probs energy pol b ∧ |b - blaze| ≤ w / 2) := by
  refine ⟨rfl, by simp [wavyProbabilities], ?_⟩
  intro h0 h1
  refine ⟨_, rfl, ?_⟩
  rw [add_sub_cancel_left, abs_le]
  constructor <;> norm_num <;> nlinarith

end Marxs
