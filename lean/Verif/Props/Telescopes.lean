import Verif.Spec.Telescopes
import Verif.Props.Budget

/-!
# C143: telescopes of the missions
-/

namespace Marxs
open Classical

/-! ## Numbers of objects -/

mutual
theorem number_idents {C : Type} : ∀ (e : Elt C) (n : ℕ), (e.number n).idents = List.range' n e.idents.length
  | .leaf c i, n => by simp [Elt.number, Elt.idents]
  | .cont c i es, n => by
      simp only [Elt.number, Elt.idents, numberElts_idents es (n + 1), List.length_cons, List.range'_succ]
theorem numberElts_idents {C : Type} : ∀ (es : List (Elt C)) (n : ℕ), identsList (numberElts n es) = List.range' n (identsList es).length
  | [], n => by simp [numberElts, identsList]
  | e :: es, n => by
      simp only [numberElts, identsList, number_idents e n, numberElts_idents es, List.length_append]
      rw [← List.range'_append_1]
end

theorem numberElts_nodup {C : Type} (es : List (Elt C)) (n : ℕ) : (identsList (numberElts n es)).Nodup := by
  rw [numberElts_idents]; exact List.nodup_range'

theorem number_cls {C : Type} (e : Elt C) (n : ℕ) : (e.number n).cls = e.cls := by
  cases e <;> simp [Elt.number, Elt.cls]

theorem numberElts_cls {C : Type} : ∀ (es : List (Elt C)) (n : ℕ), (numberElts n es).map Elt.cls = es.map Elt.cls
  | [], _ => rfl
  | e :: es, n => by simp [numberElts, number_cls, numberElts_cls es]

/-- The classes around an object, its class, and if it is a container. -/
def eltSig {C : Type} (x : List (Elt C) × Elt C) : List C × C × Bool :=
  (x.1.map Elt.cls, x.2.cls, match x.2 with | .leaf _ _ => false | .cont _ _ _ => true)

mutual
theorem number_sig {C : Type} : ∀ (e : Elt C) (n : ℕ) (a a' : List (Elt C)), a.map Elt.cls = a'.map Elt.cls →
    ((e.number n).walk a).map eltSig = (e.walk a').map eltSig
  | .leaf c i, n, a, a', h => by simp [Elt.number, Elt.walk, eltSig, Elt.cls, h]
  | .cont c i es, n, a, a', h => by
      simp only [Elt.number, Elt.walk, List.map_cons]
      rw [numberElts_sig es (n + 1) _ (.cont c i es :: a') (by simp [Elt.cls, h])]
      simp [eltSig, Elt.cls, h]
theorem numberElts_sig {C : Type} : ∀ (es : List (Elt C)) (n : ℕ) (a a' : List (Elt C)), a.map Elt.cls = a'.map Elt.cls →
    (walkList a (numberElts n es)).map eltSig = (walkList a' es).map eltSig
  | [], n, a, a', h => by simp [numberElts, walkList]
  | e :: es, n, a, a', h => by
      simp only [numberElts, walkList, List.map_append, number_sig e n a a' h, numberElts_sig es _ a a' h]
end

/-- Signatures of everything in a list of objects that are inside of objects with the classes `a`. -/
def sigs (a : List String) : Elt String → List (List String × String × Bool)
  | e => (e.walk (a.map fun c => .leaf c 0)).map eltSig

/-- the same for a list -/
def sigsL (a : List String) (es : List (Elt String)) : List (List String × String × Bool) :=
  (walkList (a.map fun c => .leaf c 0) es).map eltSig

theorem sigsL_number (es : List (Elt String)) (n : ℕ) : (walkList [] (numberElts n es)).map eltSig = sigsL [] es := by
  unfold sigsL; exact numberElts_sig es n _ _ rfl

theorem sigsL_nil (a : List String) : sigsL a [] = [] := rfl

theorem sigsL_cons (a : List String) (e : Elt String) (es : List (Elt String)) : sigsL a (e :: es) = sigs a e ++ sigsL a es := by
  simp [sigsL, sigs, walkList]

theorem sigsL_append (a : List String) (l m : List (Elt String)) : sigsL a (l ++ m) = sigsL a l ++ sigsL a m := by
  induction l with
  | nil => simp [sigsL_nil]
  | cons e l ih => simp [sigsL_cons, ih]

mutual
theorem walk_sig_anc {C : Type} : ∀ (e : Elt C) (a a' : List (Elt C)), a.map Elt.cls = a'.map Elt.cls → (e.walk a).map eltSig = (e.walk a').map eltSig
  | .leaf c i, a, a', h => by simp [Elt.walk, eltSig, Elt.cls, h]
  | .cont c i es, a, a', h => by
      simp only [Elt.walk, List.map_cons]
      rw [walkList_sig_anc es _ (.cont c i es :: a') (by simp [h])]
      simp [eltSig, h]
theorem walkList_sig_anc {C : Type} : ∀ (es : List (Elt C)) (a a' : List (Elt C)), a.map Elt.cls = a'.map Elt.cls → (walkList a es).map eltSig = (walkList a' es).map eltSig
  | [], _, _, _ => rfl
  | e :: es, a, a', h => by simp only [walkList, List.map_append, walk_sig_anc e a a' h, walkList_sig_anc es a a' h]
end

theorem cls_leaf_map (a : List String) : (a.map fun c => Elt.leaf c 0).map Elt.cls = a := by
  simp [List.map_map, Function.comp_def, Elt.cls]

theorem sigs_plain (a : List String) (c : String) : sigs a (plain c) = [(a, c, false)] := by
  simp [sigs, plain, Elt.walk, eltSig, Elt.cls, Function.comp_def]

theorem sigs_group (a : List String) (c : String) (es : List (Elt String)) : sigs a (group c es) = (a, c, true) :: sigsL (c :: a) es := by
  simp only [sigs, group, Elt.walk, List.map_cons, sigsL]
  rw [walkList_sig_anc es _ (Elt.leaf c 0 :: a.map fun c => .leaf c 0) (by simp [Elt.cls])]
  simp [eltSig, Elt.cls, Function.comp_def]

theorem sigsL_replicate (a : List String) (n : ℕ) (e : Elt String) : sigsL a (List.replicate n e) = (List.replicate n (sigs a e)).flatten := by
  induction n with
  | zero => rfl
  | succ n ih => simp [List.replicate_succ, sigsL_cons, ih]

theorem sigsL_flatten (a : List String) (l : List (List (Elt String))) : sigsL a l.flatten = (l.map (sigsL a)).flatten := by
  induction l with
  | nil => rfl
  | cons e l ih => simp [sigsL_append, ih]

theorem sigsL_map {β : Type} (a : List String) (f : β → Elt String) (l : List β) : sigsL a (l.map f) = (l.map fun b => sigs a (f b)).flatten := by
  induction l with
  | nil => rfl
  | cons e l ih => simp [sigsL_cons, ih]

theorem rep_all {β : Type} (P : β → Prop) (n : ℕ) (l : List β) : (∀ x ∈ (List.replicate n l).flatten, P x) ↔ (n = 0 ∨ ∀ x ∈ l, P x) := by
  constructor
  · intro h
    rcases Nat.eq_zero_or_pos n with h0 | h0
    · exact Or.inl h0
    · refine Or.inr fun x hx => h x ?_
      rw [List.mem_flatten]
      exact ⟨l, List.mem_replicate.2 ⟨by omega, rfl⟩, hx⟩
  · rintro (rfl | h) x hx
    · simp at hx
    · rw [List.mem_flatten] at hx
      obtain ⟨m, hm, hx⟩ := hx
      rw [(List.mem_replicate.1 hm).2] at hx
      exact h x hx

/-- Signature of a part of a telescope. -/
theorem part_sig {name : String} {es : List (Elt String)} {outer : List (Elt String)} {e : Elt String} (h : PartOf ((group name es).number 0) outer e) :
    eltSig (outer, e) ∈ sigsL [] es := by
  have h : (outer, e) ∈ walkList [] (numberElts 1 es) := h
  rw [← sigsL_number es 1]
  exact List.mem_map_of_mem h

theorem sig_part {name : String} {es : List (Elt String)} {s : List String × String × Bool} (h : s ∈ sigsL [] es) :
    ∃ outer e, PartOf ((group name es).number 0) outer e ∧ eltSig (outer, e) = s := by
  rw [← sigsL_number es 1] at h
  obtain ⟨x, hx, rfl⟩ := List.mem_map.1 h
  exact ⟨x.1, x.2, hx, rfl⟩

theorem howMany_sig (name : String) (es : List (Elt String)) (s : ℕ → Align (Option ChirpFor)) (r : Torus) (c : String) :
    howMany ⟨(group name es).number 0, s, r⟩ c = ((sigsL [] es).filter fun x => x.2.1 = c).length := by
  unfold howMany
  change ((walkList [] (numberElts 1 es)).filter _).length = _
  rw [← sigsL_number es 1, List.filter_map, List.length_map]
  rfl

mutual
theorem walk_idents {C : Type} : ∀ (e : Elt C) (a : List (Elt C)), (e.walk a).map (fun x => x.2.ident) = e.idents
  | .leaf c i, a => by simp [Elt.walk, Elt.idents, Elt.ident]
  | .cont c i es, a => by
      simp only [Elt.walk, Elt.idents, List.map_cons, walkList_idents es]
      rfl
theorem walkList_idents {C : Type} : ∀ (es : List (Elt C)) (a : List (Elt C)), (walkList a es).map (fun x => x.2.ident) = identsList es
  | [], _ => rfl
  | e :: es, a => by simp [walkList, identsList, walk_idents e, walkList_idents es]
end

/-- Objects with the same number are the same object. -/
theorem same_ident {name : String} {es : List (Elt String)} {o o' : List (Elt String)} {e e' : Elt String} (h : PartOf ((group name es).number 0) o e)
    (h' : PartOf ((group name es).number 0) o' e') (hi : e.ident = e'.ident) : (o, e) = (o', e') := by
  have h : (o, e) ∈ walkList [] (numberElts 1 es) := h
  have h' : (o', e') ∈ walkList [] (numberElts 1 es) := h'
  have hn := numberElts_nodup es 1
  rw [← walkList_idents _ []] at hn
  exact List.inj_on_of_nodup_map hn h h' hi

/-! ## Chirped gratings -/

theorem chirp_state {name cls : String} {es : List (Elt String)} {circle : Torus} {conf : TelConf} {fresh s : ℕ → Align (Option ChirpFor)} (hname : name ≠ cls) (hf : NothingSet fresh)
    (h : chirpStep cls circle conf fresh ((group name es).number 0) = .ok s) (outer : List (Elt String)) (e : Elt String) (he : PartOf ((group name es).number 0) outer e) :
    (s e.ident).own = match conf.chirpEnergy, conf.chirpOrder with
      | some en, some o => if e.cls = cls ∧ cls ∉ outer.map Elt.cls then some ⟨o, en, circle⟩ else none
      | _, _ => none := by
  unfold chirpStep at h
  cases h1 : conf.chirpEnergy with
  | none => simp only [h1] at h; cases h; exact hf _
  | some en =>
    cases h2 : conf.chirpOrder with
    | none => simp only [h1, h2] at h; cases h; exact hf _
    | some o =>
      simp only [h1, h2] at h
      cases h3 : conf.gas with
      | none => rw [h3] at h; cases h
      | some g =>
        rw [h3] at h
        cases h
        have key : e.ident ∈ ((((group name es).number 0).elementsOfClass (fun c => c == cls) false).map Elt.ident) ↔ (e.cls = cls ∧ cls ∉ outer.map Elt.cls) := by
          change e.ident ∈ (((Elt.cont name 0 (numberElts 1 es)).elementsOfClass (fun c => c == cls) false).map Elt.ident) ↔ _
          rw [C04_default_search]
          simp only [beq_iff_eq, hname, if_false, List.nil_append, List.mem_map, List.mem_filter, Bool.and_eq_true, List.all_eq_true, Bool.not_eq_true', beq_eq_false_iff_ne]
          constructor
          · rintro ⟨_, ⟨x, ⟨hx, hc, ha⟩, rfl⟩, hi⟩
            have := same_ident (name := name) (es := es) (o := x.1) (e := x.2) hx he hi
            cases this
            refine ⟨hc, ?_⟩
            simp only [not_exists, not_and]
            exact fun a h1 => ha a h1
          · rintro ⟨hc, ha⟩
            refine ⟨e, ⟨(outer, e), ⟨he, hc, ?_⟩, rfl⟩, rfl⟩
            intro a haa h
            exact ha ⟨a, haa, h⟩
        simp only [key]
        split_ifs with hk
        · rfl
        · exact hf _

theorem aperture_ok {n : ℕ} (hn : 0 < n) : metaShellApertureElts n = .ok (group "MetaShellAperture" (List.replicate n (plain "CircleAperture"))) := by
  unfold metaShellApertureElts; rw [if_neg (by omega)]

/-- What `PerfectLynx` is made of. -/
def lynxParts (dets : TelConf → List (Elt String)) (conf : TelConf) (g : GasConf) : List (Elt String) :=
  [group "MetaShellAperture" (List.replicate conf.shells (plain "CircleAperture")), metaShellElt] ++ [gasElt "LynxGAS" g, plain "catsupportbars"] ++ [plain "GlobalEnergyFilter"] ++ dets conf ++ [plain "TagVersion"]

theorem perfectLynx_inv {name : String} {dets : TelConf → List (Elt String)} {fresh : ℕ → Align (Option ChirpFor)} {conf : TelConf} {t : Telescope}
    (h : perfectLynx name dets fresh conf = .ok t) :
    ∃ g s, 0 < conf.shells ∧ conf.gas = some g ∧ t = ⟨(group name (lynxParts dets conf g)).number 0, s, conf.rowland⟩ ∧
      chirpStep "CATGrating" lynxCircle conf fresh ((group name (lynxParts dets conf g)).number 0) = .ok s := by
  unfold perfectLynx at h
  by_cases h0 : conf.shells = 0
  · simp [metaShellApertureElts, h0] at h
  rw [aperture_ok (by omega)] at h
  cases hg : conf.gas with
  | none => simp [hg] at h
  | some g =>
    simp only [hg] at h
    refine ⟨g, ?_⟩
    split at h
    · cases h
    · rename_i s hs
      cases h
      exact ⟨s, by omega, rfl, rfl, hs⟩

theorem perfectLynx_ok (name : String) (dets : TelConf → List (Elt String)) (fresh : ℕ → Align (Option ChirpFor)) (conf : TelConf) (g : GasConf) (h0 : 0 < conf.shells) (hg : conf.gas = some g) :
    ∃ s, perfectLynx name dets fresh conf = .ok ⟨(group name (lynxParts dets conf g)).number 0, s, conf.rowland⟩ ∧
      chirpStep "CATGrating" lynxCircle conf fresh ((group name (lynxParts dets conf g)).number 0) = .ok s := by
  have : ∃ s, chirpStep "CATGrating" lynxCircle conf fresh ((group name (lynxParts dets conf g)).number 0) = .ok s := by
    unfold chirpStep
    rw [hg]
    split <;> exact ⟨_, rfl⟩
  obtain ⟨s, hs⟩ := this
  refine ⟨s, ?_, hs⟩
  unfold perfectLynx
  rw [aperture_ok h0]
  simp only [hg]
  change (match chirpStep "CATGrating" lynxCircle conf fresh ((group name (lynxParts dets conf g)).number 0) with | .error e => _ | .ok s => _) = _
  rw [hs]
  rfl

/-- What `PerfectAXIS` is made of. -/
def axisParts (dets : TelConf → List (Elt String)) (conf : TelConf) (gas : List (Elt String)) : List (Elt String) :=
  [group "MetaShellAperture" (List.replicate conf.shells (plain "CircleAperture")), plain "PerfectLensSegment", plain "MirrorGeometricScaling", plain "RadialMirrorScatter"] ++ gas ++ [filtersElt] ++
    dets conf ++ [plain "TagVersion"]

theorem perfectAxis_inv {name : String} {dets : TelConf → List (Elt String)} {fresh : ℕ → Align (Option ChirpFor)} {gratings : Bool} {conf : TelConf} {t : Telescope}
    (h : perfectAxis name dets fresh gratings conf = .ok t) :
    ∃ gas s, 0 < conf.shells ∧ ((gratings = true ∧ ∃ g, conf.gas = some g ∧ gas = [gasElt "LynxGAS" g, plain "catsupportbars"]) ∨ (gratings = false ∧ gas = [])) ∧
      t = ⟨(group name (axisParts dets conf gas)).number 0, s, conf.rowland⟩ ∧
      chirpStep "NonParallelCATGrating" axisCircle conf fresh ((group name (axisParts dets conf gas)).number 0) = .ok s := by
  unfold perfectAxis at h
  by_cases h0 : conf.shells = 0
  · simp [metaShellApertureElts, h0] at h
  rw [aperture_ok (by omega)] at h
  cases gratings with
  | true =>
    simp only [if_true] at h
    cases hg : conf.gas with
    | none => simp [hg] at h
    | some g =>
      simp only [hg] at h
      split at h
      · cases h
      · rename_i s hs
        cases h
        exact ⟨_, s, by omega, Or.inl ⟨rfl, g, rfl, rfl⟩, rfl, hs⟩
  | false =>
    simp only [Bool.false_eq_true, if_false] at h
    split at h
    · cases h
    · rename_i s hs
      cases h
      exact ⟨_, s, by omega, Or.inr ⟨rfl, rfl⟩, rfl, hs⟩

theorem perfectAxis_ok (name : String) (dets : TelConf → List (Elt String)) (fresh : ℕ → Align (Option ChirpFor)) (gratings : Bool) (conf : TelConf) (g : GasConf) (h0 : 0 < conf.shells) (hg : conf.gas = some g) :
    ∃ t, perfectAxis name dets fresh gratings conf = .ok t := by
  unfold perfectAxis
  rw [aperture_ok h0]
  have : ∀ tree, ∃ s, chirpStep "NonParallelCATGrating" axisCircle conf fresh tree = .ok s := by
    intro tree
    unfold chirpStep
    rw [hg]
    split <;> exact ⟨_, rfl⟩
  cases gratings with
  | true =>
    simp only [hg, if_true]
    obtain ⟨s, hs⟩ := this _
    rw [hs]
    exact ⟨_, rfl⟩
  | false =>
    simp only [Bool.false_eq_true, if_false]
    obtain ⟨s, hs⟩ := this _
    rw [hs]
    exact ⟨_, rfl⟩

/-- What `PerfectAthecat` is made of. -/
def athenaParts (dets : TelConf → List (Elt String)) (conf : TelConf) (gas : List (Elt String)) : List (Elt String) :=
  [plain "CircleAperture", athenaSpos conf.shells] ++ gas ++ [filtersElt] ++ dets conf ++ [plain "TagVersion"]

theorem perfectAthecat_inv {name : String} {dets : TelConf → List (Elt String)} {fresh : ℕ → Align (Option ChirpFor)} {conf : TelConf} {t : Telescope}
    (h : perfectAthecat name dets fresh conf = .ok t) :
    ∃ gas s, ((∃ g, conf.gas = some g ∧ gas = [gasElt "GAS" g]) ∨ (conf.gas = none ∧ gas = [])) ∧
      t = ⟨(group name (athenaParts dets conf gas)).number 0, s, conf.rowland⟩ ∧
      chirpStep "CATGrating" athenaCircle conf fresh ((group name (athenaParts dets conf gas)).number 0) = .ok s := by
  unfold perfectAthecat at h
  cases hg : conf.gas with
  | none =>
    simp only [hg] at h
    split at h
    · cases h
    · rename_i s hs
      cases h
      exact ⟨_, s, Or.inr ⟨rfl, rfl⟩, rfl, hs⟩
  | some g =>
    simp only [hg] at h
    split at h
    · cases h
    · rename_i s hs
      cases h
      exact ⟨_, s, Or.inl ⟨g, rfl, rfl⟩, rfl, hs⟩


/-! ## C143 -/

theorem order_of {name : String} {es : List (Elt String)} {s : ℕ → Align (Option ChirpFor)} {r : Torus} (h1 : (es.map fun e => lightStage e.cls).Pairwise (· ≤ ·))
    (h2 : ∀ k ∈ [0, 1, 4], k ∈ es.map fun e => lightStage e.cls) (h3 : (es.map Elt.cls).getLast? = some "TagVersion") (h4 : (es.map Elt.cls).count "TagVersion" = 1) :
    InLightOrder ⟨(group name es).number 0, s, r⟩ := by
  have hc := numberElts_cls es 1
  have hm : ((numberElts 1 es).map fun e => lightStage e.cls) = es.map fun e => lightStage e.cls := by
    have := congrArg (List.map lightStage) hc
    simpa [List.map_map, Function.comp_def] using this
  have hk : ∀ k ∈ [0, 1, 4], ∃ e ∈ numberElts 1 es, lightStage e.cls = k := by
    intro k hk
    have := h2 k hk
    rw [← hm, List.mem_map] at this
    exact this
  refine ⟨?_, hk 0 (by simp), hk 1 (by simp), hk 4 (by simp), ?_, ?_⟩
  · change ((numberElts 1 es).map fun e => lightStage e.cls).Pairwise _
    rw [hm]; exact h1
  · change ∃ e, (numberElts 1 es).getLast? = some e ∧ _
    rw [← hc, List.getLast?_map] at h3
    cases hl : (numberElts 1 es).getLast? with
    | none => rw [hl] at h3; cases h3
    | some e =>
      rw [hl] at h3
      exact ⟨e, rfl, by simpa using h3⟩
  · change ((numberElts 1 es).filter _).length = 1
    rw [← hc, List.count_eq_length_filter, List.filter_map, List.length_map] at h4
    have : ((numberElts 1 es).filter fun e => decide (e.cls = "TagVersion")) = (numberElts 1 es).filter ((fun x => x == "TagVersion") ∘ Elt.cls) := by
      apply List.filter_congr
      intro x _
      by_cases h : x.cls = "TagVersion" <;> simp [h]
    exact (congrArg List.length this).trans h4

/-- **C143** Lynx: photons meet aperture, mirror, gratings, filters, detectors in this order. -/
theorem C143_order_lynx (name : String) (dets : TelConf → List (Elt String)) (fresh : ℕ → Align (Option ChirpFor)) (conf : TelConf) (t : Telescope) (hd : dets = lynxDetectorsElts ∨ dets = lynxPlotDetectors)
    (h : perfectLynx name dets fresh conf = .ok t) : InLightOrder t := by
  obtain ⟨g, s, h0, hg, rfl, hs⟩ := perfectLynx_inv h
  apply order_of <;> rcases hd with rfl | rfl <;>
    simp [lynxParts, lynxDetectorsElts, lynxPlotDetectors, group, plain, Elt.cls, lightStage, metaShellElt, gasElt, detArrayElt]

/-- **C143** AXIS: photons meet aperture, mirror, gratings (if there are any), filters, detectors in this order. -/
theorem C143_order_axis (name : String) (dets : TelConf → List (Elt String)) (fresh : ℕ → Align (Option ChirpFor)) (gratings : Bool) (conf : TelConf) (t : Telescope)
    (hd : dets = axisDetectorsElts ∨ dets = axisPlotDetectors) (h : perfectAxis name dets fresh gratings conf = .ok t) : InLightOrder t := by
  obtain ⟨gas, s, h0, hg, rfl, hs⟩ := perfectAxis_inv h
  apply order_of <;> rcases hd with rfl | rfl <;> rcases hg with ⟨_, g, _, rfl⟩ | ⟨_, rfl⟩ <;>
    simp [axisParts, axisDetectorsElts, axisPlotDetectors, group, plain, Elt.cls, lightStage, filtersElt, gasElt, detArrayElt]

/-- **C143** Athena: photons meet aperture, mirror, gratings (if there are any), filters, detectors in this order. -/
theorem C143_order_athena (name : String) (dets : TelConf → List (Elt String)) (fresh : ℕ → Align (Option ChirpFor)) (conf : TelConf) (t : Telescope)
    (hd : dets = athenaDetectorsElts ∨ dets = athenaPlotDetectors) (h : perfectAthecat name dets fresh conf = .ok t) : InLightOrder t := by
  obtain ⟨gas, s, hg, rfl, hs⟩ := perfectAthecat_inv h
  apply order_of <;> rcases hd with rfl | rfl <;> rcases hg with ⟨g, _, rfl⟩ | ⟨_, rfl⟩ <;>
    simp [athenaParts, athenaSpos, athenaDetectorsElts, athenaPlotDetectors, group, plain, Elt.cls, lightStage, filtersElt, gasElt, detArrayElt]

/-- Fresh objects of a telescope for the examples. -/
def freshExample : ℕ → Align (Option ChirpFor) := fun _ => ⟨1, [], none⟩

example : ∃ t, perfectLynx "PerfectLynx" lynxDetectorsElts freshExample (lynxConf 12 5000 18) = .ok t :=
  have ⟨_, h, _⟩ := perfectLynx_ok "PerfectLynx" lynxDetectorsElts freshExample (lynxConf 12 5000 18) _ (by simp [lynxConf, lynxConfStart]) rfl
  ⟨_, h⟩

/-! ### Chirped gratings -/

/-- **C143** AXIS with chirp: all grating membranes of all stacks have the grating constants optimized for the order and energy in the configuration, nothing else has been changed, and without the entries for the chirp no
grating is changed. -/
theorem C143_axis_chirp (name : String) (dets : TelConf → List (Elt String)) (fresh : ℕ → Align (Option ChirpFor)) (conf : TelConf) (t : Telescope) (g : GasConf)
    (hd : dets = axisDetectorsElts ∨ dets = axisPlotDetectors) (hname : name ≠ "NonParallelCATGrating") (hf : NothingSet fresh) (hg : conf.gas = some g) (he : g.elem = catStackElt)
    (h : perfectAxis name dets fresh true conf = .ok t) :
    howMany t "NonParallelCATGrating" = g.positions ∧
    (∀ outer e, PartOf t.tree outer e → e.cls ≠ "NonParallelCATGrating" → (t.state e.ident).own = none) ∧
    (∀ en o, conf.chirpEnergy = some en → conf.chirpOrder = some o → AllChirped t ⟨o, en, axisCircle⟩) ∧
    (conf.chirpEnergy = none ∨ conf.chirpOrder = none → ∀ outer e, PartOf t.tree outer e → (t.state e.ident).own = none) := by
  obtain ⟨gas, s, h0, hgas, rfl, hs⟩ := perfectAxis_inv h
  obtain ⟨g', hg', rfl⟩ : ∃ g', conf.gas = some g' ∧ gas = [gasElt "LynxGAS" g', plain "catsupportbars"] := by
    rcases hgas with ⟨_, h⟩ | ⟨h, _⟩
    · exact h
    · cases h
  obtain rfl : g' = g := by rw [hg] at hg'; exact (Option.some.inj hg').symm
  have st := fun o e he => chirp_state (outer := o) (e := e) hname hf hs he
  have sig : ∀ x ∈ sigsL [] (axisParts dets conf [gasElt "LynxGAS" g', plain "catsupportbars"]), x.2.1 = "NonParallelCATGrating" → "NonParallelCATGrating" ∉ x.1 := by
    rcases hd with rfl | rfl <;>
      (simp only [axisParts, axisDetectorsElts, axisPlotDetectors, filtersElt, gasElt, detArrayElt, he, catStackElt, sigsL_cons, sigsL_nil, sigsL_append, sigs_plain, sigs_group, sigsL_replicate,
        List.forall_mem_append, List.forall_mem_cons, rep_all, List.append_nil, List.forall_mem_singleton]
       simp)
  refine ⟨?_, ?_, ?_, ?_⟩
  · rw [howMany_sig]
    rcases hd with rfl | rfl <;>
      simp [axisParts, axisDetectorsElts, axisPlotDetectors, filtersElt, gasElt, detArrayElt, he, catStackElt, sigsL_cons, sigsL_nil, sigsL_append, sigs_plain, sigs_group, sigsL_replicate, List.filter_flatten]
  · intro outer e hp hc
    rw [st outer e hp]
    split
    · rw [if_neg (fun hh => hc hh.1)]
    · rfl
  · intro en o h1 h2 outer e hp hc
    change (s e.ident).own = _
    rw [st outer e hp, h1, h2]
    exact if_pos ⟨hc, by simpa [eltSig] using sig _ (part_sig hp) hc⟩
  · intro hn outer e hp
    rw [st outer e hp]
    rcases hn with hn | hn <;> rw [hn]
    split <;> simp_all

example : ∃ t, perfectAxis "PerfectAXIS" axisDetectorsElts freshExample true (axisConfChirp 6 5000 10) = .ok t ∧ howMany t "NonParallelCATGrating" = 5000 ∧ AllChirped t ⟨-5.4, 0.6, axisCircle⟩ := by
  obtain ⟨t, ht⟩ := perfectAxis_ok "PerfectAXIS" axisDetectorsElts freshExample true (axisConfChirp 6 5000 10) ⟨5000, catStackElt⟩ (by simp [axisConfChirp, axisConf]) rfl
  obtain ⟨h1, _, h2, _⟩ := C143_axis_chirp "PerfectAXIS" axisDetectorsElts freshExample (axisConfChirp 6 5000 10) t ⟨5000, catStackElt⟩ (Or.inl rfl) (by decide) (fun _ => rfl) rfl rfl ht
  exact ⟨t, ht, h1, h2 _ _ rfl rfl⟩

/-- **C143** (partial) Lynx with chirp: grating constants are optimized for all objects of the class `CATGrating`, but not for those of a class that is derived from it. What is missing from the full statement: the
stacks of gratings hold objects of the derived class `NonParallelCATGrating`, see `C143_lynx_chirp_false`. -/
theorem C143_lynx_chirp_partial (name : String) (dets : TelConf → List (Elt String)) (fresh : ℕ → Align (Option ChirpFor)) (conf : TelConf) (t : Telescope)
    (hname : name ≠ "CATGrating") (hf : NothingSet fresh) (h : perfectLynx name dets fresh conf = .ok t) (outer : List (Elt String)) (e : Elt String) (he : PartOf t.tree outer e) :
    (t.state e.ident).own = match conf.chirpEnergy, conf.chirpOrder with
      | some en, some o => if e.cls = "CATGrating" ∧ "CATGrating" ∉ outer.map Elt.cls then some ⟨o, en, lynxCircle⟩ else none
      | _, _ => none := by
  obtain ⟨g, s, h0, hg, rfl, hs⟩ := perfectLynx_inv h
  exact chirp_state hname hf hs outer e he

/-- **C143** (partial) The same for Athena. -/
theorem C143_athena_chirp_partial (name : String) (dets : TelConf → List (Elt String)) (fresh : ℕ → Align (Option ChirpFor)) (conf : TelConf) (t : Telescope)
    (hname : name ≠ "CATGrating") (hf : NothingSet fresh) (h : perfectAthecat name dets fresh conf = .ok t) (outer : List (Elt String)) (e : Elt String) (he : PartOf t.tree outer e) :
    (t.state e.ident).own = match conf.chirpEnergy, conf.chirpOrder with
      | some en, some o => if e.cls = "CATGrating" ∧ "CATGrating" ∉ outer.map Elt.cls then some ⟨o, en, athenaCircle⟩ else none
      | _, _ => none := by
  obtain ⟨gas, s, hg, rfl, hs⟩ := perfectAthecat_inv h
  exact chirp_state hname hf hs outer e he

example : ∃ t outer e, perfectLynx "PerfectLynx" lynxDetectorsElts freshExample { lynxConfChirp 12 3 18 with gas := some ⟨3, plain "CATGrating"⟩ } = .ok t ∧ PartOf t.tree outer e ∧
    (t.state e.ident).own = some ⟨-5.4, 0.6, lynxCircle⟩ := by
  obtain ⟨s, h, _⟩ := perfectLynx_ok "PerfectLynx" lynxDetectorsElts freshExample { lynxConfChirp 12 3 18 with gas := some ⟨3, plain "CATGrating"⟩ } _ (by simp [lynxConfChirp, lynxConfStart]) rfl
  obtain ⟨outer, e, he, hsig⟩ := sig_part (name := "PerfectLynx") (es := lynxParts lynxDetectorsElts { lynxConfChirp 12 3 18 with gas := some ⟨3, plain "CATGrating"⟩ } ⟨3, plain "CATGrating"⟩)
    (s := (["LynxGAS"], "CATGrating", false)) (by
      simp [lynxParts, lynxDetectorsElts, metaShellElt, gasElt, detArrayElt, sigsL_cons, sigsL_nil, sigsL_append, sigs_plain, sigs_group, sigsL_replicate])
  refine ⟨_, outer, e, h, he, ?_⟩
  rw [C143_lynx_chirp_partial _ _ _ _ _ (by decide) (fun _ => rfl) h outer e he]
  simp only [eltSig, Prod.mk.injEq] at hsig
  refine if_pos ⟨hsig.2.1, ?_⟩
  rw [hsig.1]; decide

/-- **C143** The configuration `conf_chirp` of Lynx: there are as many gratings as the grid has positions, and none of them is chirped. -/
theorem C143_lynx_chirp_none (fresh : ℕ → Align (Option ChirpFor)) (hf : NothingSet fresh) (shells n ccds : ℕ) (h0 : 0 < shells) :
    ∃ t, perfectLynx "PerfectLynx" lynxDetectorsElts fresh (lynxConfChirp shells n ccds) = .ok t ∧ howMany t "NonParallelCATGrating" = n ∧
      ∀ outer e, PartOf t.tree outer e → (t.state e.ident).own = none := by
  obtain ⟨s, h, _⟩ := perfectLynx_ok "PerfectLynx" lynxDetectorsElts fresh (lynxConfChirp shells n ccds) ⟨n, catStackElt⟩ h0 rfl
  refine ⟨_, h, ?_, ?_⟩
  · rw [howMany_sig]
    simp [lynxParts, lynxDetectorsElts, metaShellElt, gasElt, detArrayElt, catStackElt, sigsL_cons, sigsL_nil, sigsL_append, sigs_plain, sigs_group, sigsL_replicate, List.filter_flatten]
  · intro outer e he
    rw [C143_lynx_chirp_partial _ _ _ _ _ (by decide) hf h outer e he]
    have sig : ∀ x ∈ sigsL [] (lynxParts lynxDetectorsElts (lynxConfChirp shells n ccds) ⟨n, catStackElt⟩), x.2.1 ≠ "CATGrating" := by
      simp only [lynxParts, lynxDetectorsElts, metaShellElt, gasElt, detArrayElt, catStackElt, sigsL_cons, sigsL_nil, sigsL_append, sigs_plain, sigs_group, sigsL_replicate,
        List.forall_mem_append, List.forall_mem_cons, rep_all, List.append_nil, List.forall_mem_singleton]
      simp
    exact if_neg fun hh => sig _ (part_sig he) hh.1

/-- **C143** The configuration `conf_chirp` of Athena: none of the gratings is chirped. -/
theorem C143_athena_chirp_none (fresh : ℕ → Align (Option ChirpFor)) (hf : NothingSet fresh) (spos n ccds : ℕ) :
    ∃ t, perfectAthecat "PerfectAthecat" athenaDetectorsElts fresh (athenaConfChirp spos n ccds) = .ok t ∧ howMany t "NonParallelCATGrating" = n ∧
      ∀ outer e, PartOf t.tree outer e → (t.state e.ident).own = none := by
  have hok : ∃ t, perfectAthecat "PerfectAthecat" athenaDetectorsElts fresh (athenaConfChirp spos n ccds) = .ok t := ⟨_, rfl⟩
  obtain ⟨t, h⟩ := hok
  refine ⟨t, h, ?_⟩
  have h' := h
  obtain ⟨gas, s, hg, rfl, hs⟩ := perfectAthecat_inv h'
  obtain rfl : gas = [gasElt "GAS" ⟨n, catStackElt⟩] := by
    rcases hg with ⟨g, hg, rfl⟩ | ⟨hg, _⟩
    · cases hg; rfl
    · cases hg
  constructor
  · rw [howMany_sig]
    simp [athenaParts, athenaSpos, athenaDetectorsElts, filtersElt, gasElt, detArrayElt, catStackElt, sigsL_cons, sigsL_nil, sigsL_append, sigs_plain, sigs_group, sigsL_replicate, List.filter_flatten]
  · intro outer e he
    rw [C143_athena_chirp_partial _ _ _ _ _ (by decide) hf h outer e he]
    have sig : ∀ x ∈ sigsL [] (athenaParts athenaDetectorsElts (athenaConfChirp spos n ccds) [gasElt "GAS" ⟨n, catStackElt⟩]), x.2.1 ≠ "CATGrating" := by
      simp only [athenaParts, athenaSpos, athenaDetectorsElts, filtersElt, gasElt, detArrayElt, catStackElt, sigsL_cons, sigsL_nil, sigsL_append, sigs_plain, sigs_group, sigsL_replicate,
        List.forall_mem_append, List.forall_mem_cons, rep_all, List.append_nil, List.forall_mem_singleton]
      simp
    exact if_neg fun hh => sig _ (part_sig he) hh.1

/-- **C143, full statement for the chirp**: with the configuration `conf_chirp` of a mission every grating is chirped for the order and energy given there. -/
def C143_chirp_statement (make : TelConf → Except Err Telescope) (confChirp : ℕ → ℕ → ℕ → TelConf) (circle : Torus) : Prop :=
  ∀ mirrors n ccds t, make (confChirp mirrors n ccds) = .ok t → AllChirped t ⟨-5.4, 0.6, circle⟩

/-- **C143** The statement for the chirp holds for AXIS … -/
theorem C143_axis_conf_chirp (fresh : ℕ → Align (Option ChirpFor)) (hf : NothingSet fresh) :
    C143_chirp_statement (perfectAxis "PerfectAXIS" axisDetectorsElts fresh true) axisConfChirp axisCircle := by
  intro m n c t h
  exact (C143_axis_chirp "PerfectAXIS" axisDetectorsElts fresh (axisConfChirp m n c) t ⟨n, catStackElt⟩ (Or.inl rfl) (by decide) hf rfl rfl h).2.2.1 _ _ rfl rfl

theorem not_chirped {t : Telescope} {k : ChirpFor} (h1 : howMany t "NonParallelCATGrating" = 1) (h2 : ∀ outer e, PartOf t.tree outer e → (t.state e.ident).own = none) : ¬ AllChirped t k := by
  intro h
  unfold howMany at h1
  obtain ⟨x, hx⟩ := List.exists_mem_of_length_pos (l := (walkList [] t.tree.inner).filter fun x => x.2.cls = "NonParallelCATGrating") (by omega)
  rw [List.mem_filter] at hx
  have a := h x.1 x.2 hx.1 (by simpa using hx.2)
  rw [h2 x.1 x.2 hx.1] at a
  cases a

/-- **C143** … but not for Lynx … -/
theorem C143_lynx_chirp_false (fresh : ℕ → Align (Option ChirpFor)) (hf : NothingSet fresh) :
    ¬ C143_chirp_statement (perfectLynx "PerfectLynx" lynxDetectorsElts fresh) lynxConfChirp lynxCircle := by
  intro h
  obtain ⟨t, ht, h1, h2⟩ := C143_lynx_chirp_none fresh hf 1 1 1 (by norm_num)
  exact not_chirped h1 h2 (h 1 1 1 t ht)

/-- **C143** … and not for Athena. -/
theorem C143_athena_chirp_false (fresh : ℕ → Align (Option ChirpFor)) (hf : NothingSet fresh) :
    ¬ C143_chirp_statement (perfectAthecat "PerfectAthecat" athenaDetectorsElts fresh) athenaConfChirp athenaCircle := by
  intro h
  obtain ⟨t, ht, h1, h2⟩ := C143_athena_chirp_none fresh hf 1 1 1
  exact not_chirped h1 h2 (h 1 1 1 t ht)

/-! ### The circle for which gratings are optimized -/

/-- **C143** With the configurations of the modules, gratings are optimized for a circle of the torus that gratings and CCDs are on. -/
theorem C143_circle_partial (shells n ccds : ℕ) :
    (axisConfChirp shells n ccds).rowland = axisCircle ∧ (lynxConfChirp shells n ccds).rowland = lynxCircle ∧ (athenaConfChirp shells n ccds).rowland = athenaCircle := ⟨rfl, rfl, rfl⟩

/-- **C143, full statement for the circle**: gratings are optimized for the torus in the configuration. -/
def C143_circle_statement (fresh : ℕ → Align (Option ChirpFor)) : Prop :=
  ∀ conf t k, perfectAxis "PerfectAXIS" axisDetectorsElts fresh true conf = .ok t → AllChirped t k → howMany t "NonParallelCATGrating" ≠ 0 → k.circle = t.torus

/-- **C143** The circle is that of the default configuration: for a telescope with another torus, the gratings are optimized for a circle where no CCDs are. -/
theorem C143_circle_false (fresh : ℕ → Align (Option ChirpFor)) (hf : NothingSet fresh) : ¬ C143_circle_statement fresh := by
  intro h
  obtain ⟨t, ht⟩ := perfectAxis_ok "PerfectAXIS" axisDetectorsElts fresh true { axisConfChirp 1 1 1 with rowland := rowlandOf 5000 (npDeg2rad 1.6) 2.2 4.4 } ⟨1, catStackElt⟩ (by simp [axisConfChirp, axisConf]) rfl
  obtain ⟨h1, _, h2, _⟩ := C143_axis_chirp "PerfectAXIS" axisDetectorsElts fresh { axisConfChirp 1 1 1 with rowland := rowlandOf 5000 (npDeg2rad 1.6) 2.2 4.4 } t ⟨1, catStackElt⟩ (Or.inl rfl) (by decide) hf rfl rfl ht
  have h3 := h _ t ⟨-5.4, 0.6, axisCircle⟩ ht (h2 _ _ rfl rfl) (by rw [h1]; norm_num)
  obtain ⟨_, _, _, _, rfl, _⟩ := perfectAxis_inv ht
  have h4 : (8600 : ℝ) / (2 * Real.cos (2.2 * npDeg2rad 1.6)) = 5000 / (2 * Real.cos (2.2 * npDeg2rad 1.6)) := congrArg Torus.r h3
  have hc : 0 < Real.cos (2.2 * npDeg2rad 1.6) := by
    apply Real.cos_pos_of_mem_Ioo
    unfold npDeg2rad
    have := Real.pi_pos
    constructor <;> linarith
  field_simp at h4
  norm_num at h4

/-! ### Misalignments -/

theorem misalign_ok {fresh : ℕ → Align (Option ChirpFor)} {z : ℕ → ℝ} {rows : List (BudgetRow String)} {tree : Elt String} {st : ℕ → Align (Option ChirpFor)} {r : Torus} {s : (ℕ → Align (Option ChirpFor)) × ℕ}
    (h : alignTelescope isParallelClass fresh z tree rows (st, 0) = .ok s) : misalign fresh z (some rows) ⟨tree, st, r⟩ = .ok ⟨tree, s.1, r⟩ := by
  unfold misalign
  simp only [h]

theorem deg_pos {x : ℝ} (h : 0 ≤ x) : 0 ≤ npDeg2rad x := by
  unfold npDeg2rad; have := Real.pi_pos; positivity

/-- The budget of Lynx as numbers: rows with tolerances for `moveglobal` and `wiggle`. -/
theorem lynx_rows : ((reformatBudget (fun l => l) (some 0.8) (fun _ => 0) 0 lynxBudgetIn).1 : List (BudgetRow String)) =
    [⟨"LynxGAS", "global", [1, 0.5, 0.5, npDeg2rad 0.01, npDeg2rad 0.01, npDeg2rad 0.01],
       some [1 * 0.8, 0.5 * 0.8, 0.5 * 0.8, npDeg2rad 0.01 * 0.8, npDeg2rad 0.01 * 0.8, npDeg2rad 0.01 * 0.8], "CAT structure to mirrors"⟩,
     ⟨"LynxGAS", "individual", [0.1, 0.25, 0.25, npDeg2rad 0.1, npDeg2rad 0.2, npDeg2rad 0.1], some [0.1, 0.25, 0.25, npDeg2rad 0.1, npDeg2rad 0.2, npDeg2rad 0.1], "individual CAT gratings structure"⟩,
     ⟨"RowlandDetArray", "global", [0.1, 1, 3, npDeg2rad 0.5, npDeg2rad 1, npDeg2rad 0.01],
       some [0.1 * 0.8, 1 * 0.8, 3 * 0.8, npDeg2rad 0.5 * 0.8, npDeg2rad 1 * 0.8, npDeg2rad 0.01 * 0.8], "Camera to front assembly"⟩] := by
  simp [reformatBudget, lynxBudgetIn]

theorem outer_cls {outer : List (Elt String)} {l : List String} (h : outer.map Elt.cls = l) {c : String} (hc : c ∉ l) : ∀ a ∈ outer, a.cls ≠ c := by
  intro a ha hh
  apply hc
  rw [← h, ← hh]
  exact List.mem_map_of_mem ha

theorem isCont_of_sig {e : Elt String} {outer : List (Elt String)} (h : (eltSig (outer, e)).2.2 = true) : ∃ c i es, e = .cont c i es := by
  cases e with
  | leaf c i => simp [eltSig] at h
  | cont c i es => exact ⟨c, i, es, rfl⟩

/-- Where the structures named in the budget are in Lynx. -/
theorem lynx_structures (conf : TelConf) (n : ℕ) : ∀ x ∈ sigsL [] (lynxParts lynxDetectorsElts conf ⟨n, catStackElt⟩),
    x.2.1 = "LynxGAS" ∨ x.2.1 = "RowlandDetArray" → x.1 = [] ∧ x.2.2 = true := by
  simp only [lynxParts, lynxDetectorsElts, metaShellElt, gasElt, detArrayElt, catStackElt, sigsL_cons, sigsL_nil, sigsL_append, sigs_plain, sigs_group, sigsL_replicate,
    List.forall_mem_append, List.forall_mem_cons, rep_all, List.append_nil, List.forall_mem_singleton]
  simp

/-- **C143** `Lynx()`: a telescope is made; the grating structure and the camera are each there once and are moved as the budget says (global tolerances scaled by 0.8), gratings are
moved within the structure with the standard deviations of the budget, and all parts that are not inside these structures are as in a perfect telescope. -/
theorem C143_lynx_misaligned (fresh : ℕ → Align (Option ChirpFor)) (hf : NothingSet fresh) (z : ℕ → ℝ) (shells n ccds : ℕ) (h0 : 0 < shells) :
    ∃ t, lynx fresh z (lynxConf shells n ccds) = .ok t ∧ howMany t "LynxGAS" = 1 ∧ howMany t "RowlandDetArray" = 1 ∧
    ∀ outer e, PartOf t.tree outer e →
      (e.cls = "LynxGAS" → (t.state e.ident).unc = shiftBy [0.8, 0.4, 0.4, npDeg2rad 0.008, npDeg2rad 0.008, npDeg2rad 0.008] ∧
        ∃ o, (t.state e.ident).elemUnc = randomShifts [0.1, 0.25, 0.25, npDeg2rad 0.1, npDeg2rad 0.2, npDeg2rad 0.1] e.inner.length (shiftDraws z o) (turnDraws z o e.inner.length)) ∧
      (e.cls = "RowlandDetArray" → (t.state e.ident).unc = shiftBy [0.08, 0.8, 2.4, npDeg2rad 0.4, npDeg2rad 0.8, npDeg2rad 0.008]) ∧
      ((∀ a ∈ e :: outer, a.cls ≠ "LynxGAS" ∧ a.cls ≠ "RowlandDetArray") → t.state e.ident = fresh e.ident) := by
  obtain ⟨s, h, hs⟩ := perfectLynx_ok "Lynx" lynxDetectorsElts fresh (lynxConf shells n ccds) ⟨n, catStackElt⟩ h0 rfl
  have hs' : s = fresh := by
    have : chirpStep "CATGrating" lynxCircle (lynxConf shells n ccds) fresh ((group "Lynx" (lynxParts lynxDetectorsElts (lynxConf shells n ccds) ⟨n, catStackElt⟩)).number 0) = .ok fresh := rfl
    rw [this] at hs
    cases hs; rfl
  subst hs'
  set es := numberElts 1 (lynxParts lynxDetectorsElts (lynxConf shells n ccds) ⟨n, catStackElt⟩) with hes
  have hn : (identsList es).Nodup := numberElts_nodup _ _
  have hp : isParallelClass "Lynx" = false := by decide
  have str := lynx_structures (lynxConf shells n ccds) n
  have part : ∀ outer e, PartOf (.cont "Lynx" 0 es) outer e → (e.cls = "LynxGAS" ∨ e.cls = "RowlandDetArray") → outer = [] ∧ ∃ c i es, e = .cont c i es := by
    intro outer e he hc
    have h1 := str _ (part_sig (name := "Lynx") he) hc
    exact ⟨List.map_eq_nil_iff.1 h1.1, isCont_of_sig h1.2⟩
  obtain ⟨s', hs'⟩ := (C132_accepted isParallelClass s z "Lynx" 0 es hp (reformatBudget (fun l => l) (some 0.8) (fun _ => 0) 0 lynxBudgetIn).1 (s, 0)).2 (by
    rw [lynx_rows]
    intro r hr
    have d1 := deg_pos (x := 0.1) (by norm_num)
    have d2 := deg_pos (x := 0.2) (by norm_num)
    simp only [List.mem_cons, List.not_mem_nil, or_false] at hr
    rcases hr with rfl | rfl | rfl
    · refine ⟨Or.inl rfl, by decide, _, rfl, fun outer e he hm => ⟨⟨?_, (part outer e he (Or.inl hm.1)).2⟩, by simp, fun hh => by simp at hh⟩⟩
      rw [hm.1]; decide
    · refine ⟨Or.inr rfl, by decide, _, rfl, fun outer e he hm => ⟨⟨?_, (part outer e he (Or.inl hm.1)).2⟩, by simp, fun _ v hv => ?_⟩⟩
      · rw [hm.1]; decide
      · simp only [List.mem_cons, List.not_mem_nil, or_false] at hv
        rcases hv with rfl | rfl | rfl | rfl | rfl | rfl <;> first | assumption | norm_num
    · refine ⟨Or.inl rfl, by decide, _, rfl, fun outer e he hm => ⟨⟨?_, (part outer e he (Or.inr hm.1)).2⟩, by simp, fun hh => by simp at hh⟩⟩
      rw [hm.1]; decide)
  refine ⟨⟨.cont "Lynx" 0 es, s'.1, (lynxConf shells n ccds).rowland⟩, ?_, ?_, ?_, ?_⟩
  · unfold lynx
    rw [h]
    change misalign s z (lynxConf shells n ccds).budget ⟨.cont "Lynx" 0 es, s, _⟩ = _
    unfold misalign
    change (match alignTelescope isParallelClass s z (.cont "Lynx" 0 es) (reformatBudget (fun l => l) (some 0.8) (fun _ => 0) 0 lynxBudgetIn).1 (s, 0) with | .error e => _ | .ok s => _) = _
    rw [hs']
  · change howMany ⟨(group "Lynx" _).number 0, _, _⟩ _ = _
    rw [howMany_sig]
    simp [lynxParts, lynxDetectorsElts, metaShellElt, gasElt, detArrayElt, catStackElt, sigsL_cons, sigsL_nil, sigsL_append, sigs_plain, sigs_group, sigsL_replicate, List.filter_flatten]
  · change howMany ⟨(group "Lynx" _).number 0, _, _⟩ _ = _
    rw [howMany_sig]
    simp [lynxParts, lynxDetectorsElts, metaShellElt, gasElt, detArrayElt, catStackElt, sigsL_cons, sigsL_nil, sigsL_append, sigs_plain, sigs_group, sigsL_replicate, List.filter_flatten]
  · intro outer e he
    rw [lynx_rows] at hs'
    refine ⟨fun hc => ⟨?_, ?_⟩, fun hc => ?_, fun hc => ?_⟩
    · obtain ⟨rfl, _⟩ := part outer e he (Or.inl hc)
      have := C132_global isParallelClass s z "Lynx" 0 es hp hn [] e he [] _ _ _ (s, 0) s' hs' rfl rfl ⟨hc, by simp⟩ (by simp [MovesOuter]) (by
        intro r hr hm
        simp only [List.mem_cons, List.not_mem_nil, or_false] at hr
        rcases hr with rfl | rfl
        · simp
        · exact absurd hm.1 (by rw [hc]; decide))
      rw [this]
      congr 1
      norm_num [npDeg2rad]
      ring_nf
    · obtain ⟨rfl, _⟩ := part outer e he (Or.inl hc)
      exact C132_individual isParallelClass s z "Lynx" 0 es hp hn [] e he [_] _ _ _ (s, 0) s' hs' rfl rfl ⟨hc, by simp⟩ (by simp [MovesOuter]) (by
        intro r hr hm
        simp only [List.mem_cons, List.not_mem_nil, or_false] at hr
        subst hr
        exact absurd hm.1 (by rw [hc]; decide))
    · obtain ⟨rfl, _⟩ := part outer e he (Or.inr hc)
      have := C132_global isParallelClass s z "Lynx" 0 es hp hn [] e he [_, _] [] _ _ (s, 0) s' hs' rfl rfl ⟨hc, by simp⟩ (by simp) (by simp)
      rw [this]
      congr 1
      norm_num [npDeg2rad]
      ring_nf
      exact ⟨trivial, trivial, trivial⟩
    · refine C132_untouched isParallelClass s z "Lynx" 0 es hp hn outer e he _ (s, 0) s' hs' ?_
      intro r hr
      simp only [List.mem_cons, List.not_mem_nil, or_false] at hr
      rcases hr with rfl | rfl | rfl
      · exact ⟨(hc e (by simp)).1, fun a ha => (hc a (by simp [ha])).1⟩
      · exact ⟨(hc e (by simp)).1, fun a ha => (hc a (by simp [ha])).1⟩
      · exact ⟨(hc e (by simp)).2, fun a ha => (hc a (by simp [ha])).2⟩

example : ∃ t, lynx freshExample (fun _ => 1) (lynxConf 12 3 18) = .ok t :=
  have ⟨t, h, _⟩ := C143_lynx_misaligned freshExample (fun _ => rfl) (fun _ => 1) 12 3 18 (by norm_num)
  ⟨t, h⟩

/-- **C143** A telescope with misalignments can be made only if the configuration has a budget. -/
theorem C143_needs_budget (fresh : ℕ → Align (Option ChirpFor)) (z : ℕ → ℝ) (conf : TelConf) (g : GasConf) (h0 : 0 < conf.shells) (hg : conf.gas = some g) (hb : conf.budget = none) (gratings : Bool) :
    lynx fresh z conf = .error .keyError ∧ axis fresh z gratings conf = .error .keyError := by
  obtain ⟨s, h, _⟩ := perfectLynx_ok "Lynx" lynxDetectorsElts fresh conf g h0 hg
  obtain ⟨t, h'⟩ := perfectAxis_ok "AXIS" axisDetectorsElts fresh gratings conf g h0 hg
  constructor
  · unfold lynx misalign
    rw [h, hb]
  · unfold axis misalign
    rw [h', hb]

/-- **C143, full statement for AXIS**: a telescope with misalignments can be made from the configurations of the module. -/
def C143_axis_statement (fresh : ℕ → Align (Option ChirpFor)) (z : ℕ → ℝ) : Prop :=
  ∃ conf ∈ [axisConf, axisConf6060, axisConfChirp], ∃ gratings shells n ccds t, 0 < shells ∧ axis fresh z gratings (conf shells n ccds) = .ok t

/-- **C143** `AXIS()` always fails: none of the configurations in the module has a budget. -/
theorem C143_axis_false (fresh : ℕ → Align (Option ChirpFor)) (z : ℕ → ℝ) : ¬ C143_axis_statement fresh z := by
  rintro ⟨conf, hc, gratings, shells, n, ccds, t, h0, h⟩
  have : axis fresh z gratings (conf shells n ccds) = .error .keyError := by
    simp only [List.mem_cons, List.not_mem_nil, or_false] at hc
    rcases hc with rfl | rfl | rfl <;> exact (C143_needs_budget fresh z _ ⟨n, catStackElt⟩ h0 rfl rfl gratings).2
  rw [this] at h
  cases h

/-- **C143** `Lynx(conf_5050)` and `Lynx(conf_chirp)` always fail: these configurations are copied from `conf` before the budget is added to it. -/
theorem C143_lynx_variants_false (fresh : ℕ → Align (Option ChirpFor)) (z : ℕ → ℝ) (shells n ccds : ℕ) (h0 : 0 < shells) :
    lynx fresh z (lynxConf5050 shells n ccds) = .error .keyError ∧ lynx fresh z (lynxConfChirp shells n ccds) = .error .keyError :=
  ⟨(C143_needs_budget fresh z _ ⟨n, catStackElt⟩ h0 rfl rfl true).1, (C143_needs_budget fresh z _ ⟨n, catStackElt⟩ h0 rfl rfl true).1⟩

/-- **C143** A budget that is added to the chirped configuration of AXIS and names the grating structure removes the chirp from all gratings. -/
theorem C143_axis_chirp_lost (fresh : ℕ → Align (Option ChirpFor)) (hf : NothingSet fresh) (z : ℕ → ℝ) (shells n ccds : ℕ) (rows : List (BudgetRow String)) (hr : ∃ r ∈ rows, r.cls = "LynxGAS") (t : Telescope)
    (h : axis fresh z true { axisConfChirp shells n ccds with budget := some rows } = .ok t) :
    ∀ outer e, PartOf t.tree outer e → e.cls = "NonParallelCATGrating" → (t.state e.ident).own = none := by
  unfold axis at h
  cases hp : perfectAxis "AXIS" axisDetectorsElts fresh true { axisConfChirp shells n ccds with budget := some rows } with
  | error x => rw [hp] at h; cases h
  | ok t0 =>
    rw [hp] at h
    obtain ⟨gas, s, h0, hgas, rfl, hs⟩ := perfectAxis_inv hp
    obtain rfl : gas = [gasElt "LynxGAS" ⟨n, catStackElt⟩, plain "catsupportbars"] := by
      rcases hgas with ⟨_, g, hg, rfl⟩ | ⟨h, _⟩
      · cases hg; rfl
      · cases h
    unfold misalign at h
    simp only at h
    split at h
    · cases h
    · rename_i s' hs'
      cases h
      intro outer e he hc
      have sig : ∀ x ∈ sigsL [] (axisParts axisDetectorsElts { axisConfChirp shells n ccds with budget := some rows } [gasElt "LynxGAS" ⟨n, catStackElt⟩, plain "catsupportbars"]),
          x.2.1 = "NonParallelCATGrating" → "LynxGAS" ∈ x.1 := by
        simp only [axisParts, axisDetectorsElts, filtersElt, gasElt, detArrayElt, catStackElt, sigsL_cons, sigsL_nil, sigsL_append, sigs_plain, sigs_group, sigsL_replicate,
          List.forall_mem_append, List.forall_mem_cons, rep_all, List.append_nil, List.forall_mem_singleton]
        simp
      have h1 := sig _ (part_sig he) hc
      rw [show (eltSig (outer, e)).1 = outer.map Elt.cls from rfl, List.mem_map] at h1
      obtain ⟨a, ha, hac⟩ := h1
      obtain ⟨r, hr, hrc⟩ := hr
      have := C132_own isParallelClass fresh z "AXIS" 0 (numberElts 1 (axisParts axisDetectorsElts { axisConfChirp shells n ccds with budget := some rows } [gasElt "LynxGAS" ⟨n, catStackElt⟩, plain "catsupportbars"]))
        (by decide) (numberElts_nodup _ _) outer e he rows (s, 0) s' hs'
      change (s'.1 e.ident).own = none
      rw [this, if_pos ⟨r, hr, a, ha, by rw [hac, hrc]⟩]
      exact hf _

example : ∃ t, axis freshExample (fun _ => 1) true { axisConfChirp 6 3 10 with budget := some [⟨"LynxGAS", "global", [1], some [1], "moved"⟩] } = .ok t ∧ ∃ outer e, PartOf t.tree outer e ∧ e.cls = "NonParallelCATGrating" := by
  obtain ⟨t0, h0⟩ := perfectAxis_ok "AXIS" axisDetectorsElts freshExample true { axisConfChirp 6 3 10 with budget := some [⟨"LynxGAS", "global", [1], some [1], "moved"⟩] } ⟨3, catStackElt⟩ (by simp [axisConfChirp, axisConf]) rfl
  obtain ⟨gas, s, _, hgas, rfl, hs⟩ := perfectAxis_inv h0
  obtain rfl : gas = [gasElt "LynxGAS" ⟨3, catStackElt⟩, plain "catsupportbars"] := by
    rcases hgas with ⟨_, g, hg, rfl⟩ | ⟨h, _⟩
    · cases hg; rfl
    · cases h
  have sig : ∀ x ∈ sigsL [] (axisParts axisDetectorsElts { axisConfChirp 6 3 10 with budget := some [⟨"LynxGAS", "global", [1], some [1], "moved"⟩] } [gasElt "LynxGAS" ⟨3, catStackElt⟩, plain "catsupportbars"]),
      x.2.1 = "LynxGAS" → x.2.2 = true := by
    simp only [axisParts, axisDetectorsElts, filtersElt, gasElt, detArrayElt, catStackElt, sigsL_cons, sigsL_nil, sigsL_append, sigs_plain, sigs_group, sigsL_replicate,
      List.forall_mem_append, List.forall_mem_cons, rep_all, List.append_nil, List.forall_mem_singleton]
    simp
  obtain ⟨s', hs'⟩ := (C132_accepted isParallelClass freshExample (fun _ => 1) "AXIS" 0 (numberElts 1 (axisParts axisDetectorsElts { axisConfChirp 6 3 10 with budget := some [⟨"LynxGAS", "global", [1], some [1], "moved"⟩] } [gasElt "LynxGAS" ⟨3, catStackElt⟩, plain "catsupportbars"]))
    (by decide) [⟨"LynxGAS", "global", [1], some [1], "moved"⟩] (s, 0)).2 (by
      intro r hr
      simp only [List.mem_cons, List.not_mem_nil, or_false] at hr
      subst hr
      refine ⟨Or.inl rfl, by decide, _, rfl, fun outer e he hm => ⟨⟨?_, isCont_of_sig (sig _ (part_sig (name := "AXIS") he) hm.1)⟩, by simp, fun hh => by simp at hh⟩⟩
      rw [hm.1]; decide)
  obtain ⟨outer, e, he, hsig⟩ := sig_part (name := "AXIS") (es := axisParts axisDetectorsElts { axisConfChirp 6 3 10 with budget := some [⟨"LynxGAS", "global", [1], some [1], "moved"⟩] } [gasElt "LynxGAS" ⟨3, catStackElt⟩, plain "catsupportbars"])
    (s := (["CATL1L2Stack", "LynxGAS"], "NonParallelCATGrating", false)) (by
      simp [axisParts, axisDetectorsElts, filtersElt, gasElt, detArrayElt, catStackElt, sigsL_cons, sigsL_nil, sigsL_append, sigs_plain, sigs_group, sigsL_replicate])
  refine ⟨⟨_, s'.1, (axisConfChirp 6 3 10).rowland⟩, ?_, outer, e, he, congrArg (fun x => x.2.1) hsig⟩
  unfold axis
  rw [h0]
  exact misalign_ok hs'

/-! ### Variants for plots -/

theorem numberElts_append (a b : List (Elt String)) (n : ℕ) : numberElts n (a ++ b) = numberElts n a ++ numberElts (n + (identsList a).length) b := by
  induction a generalizing n with
  | nil => simp [numberElts, identsList]
  | cons e a ih => simp [numberElts, identsList, ih, Nat.add_assoc]

theorem numberElts_forall (l : List (Elt String)) (n : ℕ) (P : String → Prop) (h : ∀ e ∈ l, P e.cls) : ∀ e ∈ numberElts n l, P e.cls := by
  intro e he
  have h1 := List.mem_map_of_mem (f := Elt.cls) he
  rw [numberElts_cls, List.mem_map] at h1
  obtain ⟨e', h2, h3⟩ := h1
  rw [← h3]
  exact h e' h2

/-- The elements before the detectors, and the first of these, do not depend on what follows. -/
theorem front_append (name : String) (a b : List (Elt String)) (cam : Elt String) (s : ℕ → Align (Option ChirpFor)) (r : Torus) (ha : ∀ e ∈ a, lightStage e.cls < 4)
    (hc : cam.cls = "RowlandDetArray") (hb : ∀ e ∈ b, 4 ≤ lightStage e.cls ∧ e.cls ≠ "RowlandDetArray") :
    frontPart ⟨(group name (a ++ cam :: b)).number 0, s, r⟩ = numberElts 1 a ∧
    (((group name (a ++ cam :: b)).number 0).inner.filter fun e => e.cls = "RowlandDetArray") = [cam.number (1 + (identsList a).length)] := by
  have hst : lightStage "RowlandDetArray" = 4 := by decide
  have h1 : ∀ e ∈ numberElts 1 a, lightStage e.cls < 4 := numberElts_forall a 1 (fun c => lightStage c < 4) ha
  have h2 := numberElts_forall b (1 + (identsList a).length + cam.idents.length) (fun c => 4 ≤ lightStage c ∧ c ≠ "RowlandDetArray") hb
  have he : ((group name (a ++ cam :: b)).number 0).inner = numberElts 1 a ++ (cam.number (1 + (identsList a).length) :: numberElts (1 + (identsList a).length + cam.idents.length) b) := by
    change numberElts 1 (a ++ cam :: b) = _
    rw [numberElts_append]; rfl
  unfold frontPart
  simp only [he]
  constructor
  · rw [List.filter_append, List.filter_eq_self.2 (by intro e he; simpa using h1 e he), List.filter_eq_nil_iff.2, List.append_nil]
    intro e he
    simp only [decide_eq_true_eq, not_lt]
    rcases List.mem_cons.1 he with rfl | he
    · rw [number_cls, hc, hst]
    · exact (h2 e he).1
  · rw [List.filter_append, List.filter_eq_nil_iff.2, List.nil_append, List.filter_cons, if_pos (by simp [number_cls, hc]), List.filter_eq_nil_iff.2]
    · intro e he
      simpa using (h2 e he).2
    · intro e he
      have := h1 e he
      simp only [decide_eq_true_eq]
      intro hh
      rw [hh, hst] at this
      omega

theorem numberElts_length (es : List (Elt String)) (n : ℕ) : (numberElts n es).length = es.length := by
  simpa using congrArg List.length (numberElts_cls es n)

/-- **C143** The variants for plots (`LynxForPlot`, `AXISForPlot`, `AthecatForPlot`) have the same parts as the telescope itself, but for the detectors; the camera is the same. -/
theorem C143_for_plot (fresh : ℕ → Align (Option ChirpFor)) (gratings : Bool) (conf : TelConf) (t t' : Telescope)
    (h : (perfectLynx "PerfectLynx" lynxDetectorsElts fresh conf = .ok t ∧ perfectLynx "LynxForPlot" lynxPlotDetectors fresh conf = .ok t') ∨
      (perfectAxis "PerfectAXIS" axisDetectorsElts fresh gratings conf = .ok t ∧ perfectAxis "AXISForPlot" axisPlotDetectors fresh gratings conf = .ok t') ∨
      (perfectAthecat "PerfectAthecat" athenaDetectorsElts fresh conf = .ok t ∧ perfectAthecat "AthecatForPlot" athenaPlotDetectors fresh conf = .ok t')) :
    frontPart t = frontPart t' ∧ t.torus = t'.torus ∧
    (t.tree.inner.filter fun e => e.cls = "RowlandDetArray") = (t'.tree.inner.filter fun e => e.cls = "RowlandDetArray") ∧
    (t.tree.inner.filter fun e => e.cls = "RowlandDetArray").map (fun e => e.inner.length) = [conf.ccds] := by
  have main : ∀ (n n' : String) (a b b' : List (Elt String)) (st st' : ℕ → Align (Option ChirpFor)) (r : Torus), (∀ e ∈ a, lightStage e.cls < 4) →
      (∀ e ∈ b, 4 ≤ lightStage e.cls ∧ e.cls ≠ "RowlandDetArray") → (∀ e ∈ b', 4 ≤ lightStage e.cls ∧ e.cls ≠ "RowlandDetArray") →
      t = ⟨(group n (a ++ detArrayElt conf.ccds :: b)).number 0, st, r⟩ → t' = ⟨(group n' (a ++ detArrayElt conf.ccds :: b')).number 0, st', r⟩ → frontPart t = frontPart t' ∧ t.torus = t'.torus ∧
      (t.tree.inner.filter fun e => e.cls = "RowlandDetArray") = (t'.tree.inner.filter fun e => e.cls = "RowlandDetArray") ∧
      (t.tree.inner.filter fun e => e.cls = "RowlandDetArray").map (fun e => e.inner.length) = [conf.ccds] := by
    intro n n' a b b' st st' r ha hb hb' ht ht'
    subst ht ht'
    obtain ⟨h1, h2⟩ := front_append n a b (detArrayElt conf.ccds) st r ha rfl hb
    obtain ⟨h3, h4⟩ := front_append n' a b' (detArrayElt conf.ccds) st' r ha rfl hb'
    refine ⟨h1.trans h3.symm, rfl, h2.trans h4.symm, ?_⟩
    simp only
    rw [h2]
    simp [detArrayElt, group, Elt.number, Elt.inner, numberElts_length]
  rcases h with ⟨h, h'⟩ | ⟨h, h'⟩ | ⟨h, h'⟩
  · obtain ⟨g, s, _, hg, rfl, _⟩ := perfectLynx_inv h
    obtain ⟨g', s', _, hg', rfl, _⟩ := perfectLynx_inv h'
    obtain rfl : g' = g := by rw [hg] at hg'; exact (Option.some.inj hg').symm
    refine main "PerfectLynx" "LynxForPlot" ([group "MetaShellAperture" (List.replicate conf.shells (plain "CircleAperture")), metaShellElt] ++ [gasElt "LynxGAS" g', plain "catsupportbars"] ++ [plain "GlobalEnergyFilter"])
      ((lynxDetectorsElts conf).tail ++ [plain "TagVersion"]) ((lynxPlotDetectors conf).tail ++ [plain "TagVersion"]) s s' conf.rowland ?_ ?_ ?_ ?_ ?_
    · simp [group, plain, Elt.cls, lightStage, metaShellElt, gasElt]
    · simp [plain, Elt.cls, lightStage, lynxDetectorsElts]
    · simp [plain, Elt.cls, lightStage, lynxPlotDetectors]
    · simp [lynxParts, lynxDetectorsElts]
    · simp [lynxParts, lynxPlotDetectors]
  · obtain ⟨gas, s, _, hg, rfl, _⟩ := perfectAxis_inv h
    obtain ⟨gas', s', _, hg', rfl, _⟩ := perfectAxis_inv h'
    obtain rfl : gas' = gas := by
      rcases hg with ⟨h1, g, h2, rfl⟩ | ⟨h1, rfl⟩ <;> rcases hg' with ⟨h1', g', h2', rfl⟩ | ⟨h1', rfl⟩
      · rw [h2] at h2'; cases h2'; rfl
      · rw [h1] at h1'; cases h1'
      · rw [h1] at h1'; cases h1'
      · rfl
    refine main "PerfectAXIS" "AXISForPlot" ([group "MetaShellAperture" (List.replicate conf.shells (plain "CircleAperture")), plain "PerfectLensSegment", plain "MirrorGeometricScaling", plain "RadialMirrorScatter"] ++ gas' ++ [filtersElt])
      ((axisDetectorsElts conf).tail ++ [plain "TagVersion"]) ((axisPlotDetectors conf).tail ++ [plain "TagVersion"]) s s' conf.rowland ?_ ?_ ?_ ?_ ?_
    · rcases hg with ⟨h1, g, h2, rfl⟩ | ⟨h1, rfl⟩ <;> simp [group, plain, Elt.cls, lightStage, filtersElt, gasElt]
    · simp [plain, Elt.cls, lightStage, axisDetectorsElts]
    · simp [plain, Elt.cls, lightStage, axisPlotDetectors]
    · simp [axisParts, axisDetectorsElts]
    · simp [axisParts, axisPlotDetectors]
  · obtain ⟨gas, s, hg, rfl, _⟩ := perfectAthecat_inv h
    obtain ⟨gas', s', hg', rfl, _⟩ := perfectAthecat_inv h'
    obtain rfl : gas' = gas := by
      rcases hg with ⟨g, h2, rfl⟩ | ⟨h1, rfl⟩ <;> rcases hg' with ⟨g', h2', rfl⟩ | ⟨h1', rfl⟩
      · rw [h2] at h2'; cases h2'; rfl
      · rw [h2] at h1'; cases h1'
      · rw [h1] at h2'; cases h2'
      · rfl
    refine main "PerfectAthecat" "AthecatForPlot" ([plain "CircleAperture", athenaSpos conf.shells] ++ gas' ++ [filtersElt])
      ((athenaDetectorsElts conf).tail ++ [plain "TagVersion"]) ((athenaPlotDetectors conf).tail ++ [plain "TagVersion"]) s s' conf.rowland ?_ ?_ ?_ ?_ ?_
    · rcases hg with ⟨g, h2, rfl⟩ | ⟨h1, rfl⟩ <;> simp [group, plain, Elt.cls, lightStage, filtersElt, gasElt, athenaSpos]
    · simp [plain, Elt.cls, lightStage, athenaDetectorsElts]
    · simp [plain, Elt.cls, lightStage, athenaPlotDetectors]
    · simp [athenaParts, athenaDetectorsElts]
    · simp [athenaParts, athenaPlotDetectors]

example : ∃ t t', perfectLynx "PerfectLynx" lynxDetectorsElts freshExample (lynxConf 12 5000 18) = .ok t ∧ perfectLynx "LynxForPlot" lynxPlotDetectors freshExample (lynxConf 12 5000 18) = .ok t' :=
  have ⟨_, h, _⟩ := perfectLynx_ok "PerfectLynx" lynxDetectorsElts freshExample (lynxConf 12 5000 18) _ (by simp [lynxConf, lynxConfStart]) rfl
  have ⟨_, h', _⟩ := perfectLynx_ok "LynxForPlot" lynxPlotDetectors freshExample (lynxConf 12 5000 18) _ (by simp [lynxConf, lynxConfStart]) rfl
  ⟨_, _, h, h'⟩

/-! ### Arcus -/

/-- All channels are channels of Arcus, with an optical axis in the configuration. -/
def GoodChannels (conf : ArcusConf) (channels : List String) : Prop := ∀ c ∈ channels, c ∈ conf.optAx ∧ c ∈ knownChannels

theorem mapM_all_ok {α β : Type} {f : α → Except Err β} {g : α → β} {l : List α} (h : ∀ a ∈ l, f a = .ok (g a)) : l.mapM f = .ok (l.map g) := by
  induction l with
  | nil => rfl
  | cons a l ih =>
    rw [List.mapM_cons, h a (by simp), ih (fun b hb => h b (by simp [hb]))]
    rfl

theorem mapM_ok_forall {α β : Type} {f : α → Except Err β} {l : List α} {m : List β} (h : l.mapM f = .ok m) : ∀ a ∈ l, ∃ b, f a = .ok b := by
  induction l generalizing m with
  | nil => simp
  | cons a l ih =>
    rw [List.mapM_cons] at h
    cases ha : f a with
    | error e => rw [ha] at h; cases h
    | ok b =>
      rw [ha] at h
      cases hl : l.mapM f with
      | error e => rw [hl] at h; cases h
      | ok m' =>
        intro x hx
        rcases List.mem_cons.1 hx with rfl | hx
        · exact ⟨b, ha⟩
        · exact ih hl x hx

/-- What `PerfectArcus` and the classes derived from it are made of. -/
def arcusParts (k : ArcusKind) (conf : ArcusConf) (channels : List String) (dets : List (Elt String)) : List (Elt String) :=
  [group "Aperture" (channels.map fun _ => plain "RectangleAperture"),
   group "SimpleSPOs" ((channels.map fun _ => [group "SPOChannelMirror" (List.replicate conf.spos (plain "PerfectLens")), plain "ScatterPerChannel"]).flatten ++
     [plain "spomounting", plain "GlobalEnergyFilter", plain "GlobalEnergyFilter"]),
   group "CATGratings" (channels.map (fun c => petalElt (conf.windows c)) ++ [plain "catsupportbars"])] ++ (if k.filters then [filtersElt] else []) ++ k.boom conf ++ dets ++ [plain "TagVersion"]

theorem perfectArcus_inv {k : ArcusKind} {fresh : ℕ → Align (Option ChirpFor)} {conf : ArcusConf} {channels : List String} {t : Telescope} (h : perfectArcus k fresh conf channels = .ok t) :
    GoodChannels conf channels := by
  unfold perfectArcus at h
  cases h1 : arcusSpos conf channels with
  | error e =>
    rw [h1] at h
    cases h2 : arcusApertureElts conf channels <;> rw [h2] at h <;> cases h
  | ok spo =>
    unfold arcusSpos at h1
    split at h1
    · cases h1
    · rename_i l hl
      intro c hc
      obtain ⟨b, hb⟩ := mapM_ok_forall hl c hc
      unfold channelSpos at hb
      split_ifs at hb with h2 h3
      exact ⟨by simpa using h2, by simpa using h3⟩

theorem perfectArcus_eq (k : ArcusKind) (fresh : ℕ → Align (Option ChirpFor)) (conf : ArcusConf) (channels : List String) (hc : GoodChannels conf channels) :
    perfectArcus k fresh conf channels = match k.dets conf with
      | .error e => .error e
      | .ok dets => .ok ⟨(group k.name (arcusParts k conf channels dets)).number 0, fresh, conf.rowlandDetector⟩ := by
  have h1 : arcusApertureElts conf channels = .ok (group "Aperture" (channels.map fun _ => plain "RectangleAperture")) := by
    unfold arcusApertureElts
    rw [mapM_all_ok (g := fun _ => plain "RectangleAperture")]
    intro c hm
    obtain ⟨ha, hb⟩ := hc c hm
    unfold channelAperture
    rw [if_neg (by simpa using ha), if_pos]
    simp only [knownChannels, List.mem_cons, List.not_mem_nil, or_false] at hb
    rcases hb with rfl | rfl | rfl | rfl <;> decide
  have h2 : arcusSpos conf channels = .ok (group "SimpleSPOs" ((channels.map fun _ => [group "SPOChannelMirror" (List.replicate conf.spos (plain "PerfectLens")), plain "ScatterPerChannel"]).flatten ++
     [plain "spomounting", plain "GlobalEnergyFilter", plain "GlobalEnergyFilter"])) := by
    unfold arcusSpos
    rw [mapM_all_ok (g := fun _ => [group "SPOChannelMirror" (List.replicate conf.spos (plain "PerfectLens")), plain "ScatterPerChannel"])]
    intro c hm
    obtain ⟨ha, hb⟩ := hc c hm
    unfold channelSpos
    rw [if_neg (by simpa using ha), if_neg (by simpa using hb)]
  have h3 : arcusGratings conf channels = .ok (group "CATGratings" (channels.map (fun c => petalElt (conf.windows c)) ++ [plain "catsupportbars"])) := by
    unfold arcusGratings
    rw [mapM_all_ok (g := fun c => petalElt (conf.windows c))]
    intro c hm
    obtain ⟨ha, hb⟩ := hc c hm
    unfold channelGratings
    rw [if_neg (by simpa using ha), if_neg (by simpa using hb)]
  unfold perfectArcus
  rw [h1, h2, h3]
  cases k.dets conf <;> rfl

/-- **C143** Arcus, all variants: a telescope without misalignments is made exactly if all channels are known and, for those with a camera, there are 16 CCDs in the configuration. -/
theorem C143_arcus_accepted (k : ArcusKind) (hk : k ∈ arcusKinds) (fresh : ℕ → Align (Option ChirpFor)) (conf : ArcusConf) (channels : List String) :
    (∃ t, perfectArcus k fresh conf channels = .ok t) ↔ (∀ c ∈ channels, c ∈ conf.optAx ∧ c ∈ ["1", "1m", "2", "2m"]) ∧ (k.name = "ArcusForSIXTE" ∨ conf.nCcds = 16) := by
  have hkn : (∀ c ∈ channels, c ∈ conf.optAx ∧ c ∈ ["1", "1m", "2", "2m"]) ↔ GoodChannels conf channels := by
    unfold GoodChannels knownChannels
    simp only [List.mem_cons, List.not_mem_nil, or_false]
    constructor <;> intro h c hc <;> have := h c hc <;> tauto
  rw [hkn]
  have hd : (∃ d, k.dets conf = .ok d) ↔ (k.name = "ArcusForSIXTE" ∨ conf.nCcds = 16) := by
    simp only [arcusKinds, List.mem_cons, List.not_mem_nil, or_false] at hk
    by_cases h : conf.nCcds = 16 <;> rcases hk with rfl | rfl | rfl | rfl <;>
      simp [kindPerfectArcus, kindArcus, kindArcusForPlot, kindArcusForSixte, arcusDetectorsElts, arcusPlotDetectors, arcusSixteDetectors, arcusCamera, h]
  rw [← hd]
  constructor
  · rintro ⟨t, ht⟩
    have hg := perfectArcus_inv ht
    refine ⟨hg, ?_⟩
    rw [perfectArcus_eq k fresh conf channels hg] at ht
    cases hd : k.dets conf with
    | error e => rw [hd] at ht; cases ht
    | ok d => exact ⟨d, rfl⟩
  · rintro ⟨hg, d, hd⟩
    rw [perfectArcus_eq k fresh conf channels hg, hd]
    exact ⟨_, rfl⟩

theorem arcus_cases {k : ArcusKind} (hk : k ∈ arcusKinds) {fresh : ℕ → Align (Option ChirpFor)} {conf : ArcusConf} {channels : List String} {t : Telescope} (h : perfectArcus k fresh conf channels = .ok t) :
    ∃ dets, t = ⟨(group k.name (arcusParts k conf channels dets)).number 0, fresh, conf.rowlandDetector⟩ ∧
      ((k = kindPerfectArcus ∨ k = kindArcus) ∧ dets = [plain "CircularDetector", plain "ProjectOntoPlane", plain "Propagator", group "DetCamera" (List.replicate 16 (plain "FlatDetector")), plain "ProjectOntoPlane", plain "FocalPlaneDet"] ∨
       k = kindArcusForPlot ∧ dets = [group "DetCamera" (List.replicate 16 (plain "FlatDetector"))] ∨ k = kindArcusForSixte ∧ dets = [plain "FocalPlaneDet"]) := by
  have hg := perfectArcus_inv h
  rw [perfectArcus_eq k fresh conf channels hg] at h
  cases hd : k.dets conf with
  | error e => rw [hd] at h; cases h
  | ok d =>
    rw [hd] at h
    cases h
    refine ⟨d, rfl, ?_⟩
    simp only [arcusKinds, List.mem_cons, List.not_mem_nil, or_false] at hk
    by_cases h16 : conf.nCcds = 16 <;> rcases hk with rfl | rfl | rfl | rfl <;>
      simp [kindPerfectArcus, kindArcus, kindArcusForPlot, kindArcusForSixte, arcusDetectorsElts, arcusPlotDetectors, arcusSixteDetectors, arcusCamera, h16] at hd <;> subst hd <;>
      simp [kindPerfectArcus, kindArcus, kindArcusForPlot, kindArcusForSixte]

/-- **C143** Arcus: photons meet aperture, mirror, gratings, filters, detectors in this order. -/
theorem C143_order_arcus (k : ArcusKind) (hk : k ∈ arcusKinds) (fresh : ℕ → Align (Option ChirpFor)) (conf : ArcusConf) (channels : List String) (t : Telescope)
    (h : perfectArcus k fresh conf channels = .ok t) : InLightOrder t := by
  obtain ⟨dets, rfl, hd⟩ := arcus_cases hk h
  apply order_of <;> rcases hd with ⟨rfl | rfl, rfl⟩ | ⟨rfl, rfl⟩ | ⟨rfl, rfl⟩ <;>
    simp [arcusParts, kindPerfectArcus, kindArcus, kindArcusForPlot, kindArcusForSixte, noBoom, plotBoom, filtersElt, group, plain, Elt.cls, lightStage]

/-- **C143** Arcus, all variants: each channel has one mirror and one petal of gratings, with all windows and gratings of the file; there is one camera, except in the variant for SIXTE, which has no camera and no filters. -/
theorem C143_arcus_parts (k : ArcusKind) (hk : k ∈ arcusKinds) (fresh : ℕ → Align (Option ChirpFor)) (conf : ArcusConf) (channels : List String) (t : Telescope)
    (h : perfectArcus k fresh conf channels = .ok t) :
    howMany t "RectangleAperture" = channels.length ∧ howMany t "SPOChannelMirror" = channels.length ∧ howMany t "PerfectLens" = channels.length * conf.spos ∧
    howMany t "CATfromMechanical" = channels.length ∧ howMany t "CATWindow" = (channels.map fun c => (conf.windows c).length).sum ∧
    howMany t "NonParallelCATGrating" = (channels.map fun c => (conf.windows c).sum).sum ∧
    howMany t "DetCamera" = (if k.name = "ArcusForSIXTE" then 0 else 1) ∧ howMany t "FiltersAndQE" = (if k.name = "ArcusForSIXTE" then 0 else 1) ∧
    howMany t "FourSidedBoom" = (if k.name = "ArcusForPlot" then 1 else 0) ∧
    howMany t "Rod" = (if k.name = "ArcusForPlot" then conf.rods else 0) := by
  obtain ⟨dets, rfl, hd⟩ := arcus_cases hk h
  simp only [howMany_sig]
  rcases hd with ⟨rfl | rfl, rfl⟩ | ⟨rfl, rfl⟩ | ⟨rfl, rfl⟩ <;>
    simp [arcusParts, kindPerfectArcus, kindArcus, kindArcusForPlot, kindArcusForSixte, noBoom, plotBoom, filtersElt, petalElt, catStackElt, sigsL_cons, sigsL_nil, sigsL_append, sigs_plain, sigs_group, sigsL_replicate,
      sigsL_map, sigsL_flatten, List.filter_flatten, Function.comp_def, List.map_map]

/-- A configuration of Arcus for the examples. -/
noncomputable def arcusExample : ArcusConf := ⟨["1", "1m", "2", "2m"], 9, fun c => if c = "1" then [3, 2] else [4], 16, 7, rowlandOf 9600 (npDeg2rad 1.6) 2.2 4.4, some arcusBudget⟩

example : ∃ t, perfectArcus kindPerfectArcus freshExample arcusExample ["1", "2m"] = .ok t :=
  (C143_arcus_accepted kindPerfectArcus (by simp [arcusKinds]) freshExample arcusExample ["1", "2m"]).2 ⟨by simp [arcusExample], Or.inr rfl⟩

theorem arcus_rows : arcusBudget =
    [⟨"SPOChannelMirror", "individual", [20, 100, 500, 300, 300, 10], some (tolFrom 1 20 100 500 300 300 10), "individual SPO in petal"⟩,
     ⟨"CATfromMechanical", "global", [1000, 1000, 1000, 300, 300, 600], some (tolFrom 0.8 1000 1000 1000 300 300 600), "CAT petal to SPO petal"⟩,
     ⟨"CATfromMechanical", "individual", [1000, 1000, 200, 300, 180, 300], some (tolFrom 1 1000 1000 200 300 180 300), "CAT windows to CAT petal"⟩,
     ⟨"CATWindow", "individual", [1000, 1000, 200, 300, 180, 300], some (tolFrom 1 1000 1000 200 300 180 300), "individual CAT to window"⟩,
     ⟨"DetCamera", "global", [5000, 2000, 1000, 180, 180, 180], some (tolFrom 0.8 5000 2000 1000 180 180 180), "Camera to front assembly"⟩] := by
  simp only [arcusBudget, reformatBudget, arcusBudgetIn, randallUnits, tolFrom, npDeg2rad, List.take, List.drop, List.map, List.cons_append, List.nil_append]
  simp only [show ¬ ("individual" = "global") by decide, if_false, if_true, List.cons.injEq, BudgetRow.mk.injEq, Option.some.injEq, true_and, and_true, List.map]
  refine ⟨?_, ?_, ?_, ?_, ?_⟩ <;> refine ⟨?_, ?_, ?_, ?_, ?_, ?_⟩ <;> ring

theorem tolFrom_nonneg (f x y z a b c : ℝ) (h : 0 ≤ f ∧ 0 ≤ x ∧ 0 ≤ y ∧ 0 ≤ z ∧ 0 ≤ a ∧ 0 ≤ b ∧ 0 ≤ c) : ∀ v ∈ tolFrom f x y z a b c, 0 ≤ v := by
  obtain ⟨hf, hx, hy, hz, ha, hb, hc⟩ := h
  have := Real.pi_pos
  intro v hv
  simp only [tolFrom, npDeg2rad, List.mem_cons, List.not_mem_nil, or_false] at hv
  rcases hv with rfl | rfl | rfl | rfl | rfl | rfl <;> positivity

/-- Where the structures named in the budget are in Arcus. -/
theorem arcus_structures (k : ArcusKind) (conf : ArcusConf) (channels : List String) (dets : List (Elt String))
    (hd : (k = kindPerfectArcus ∨ k = kindArcus) ∧ dets = [plain "CircularDetector", plain "ProjectOntoPlane", plain "Propagator", group "DetCamera" (List.replicate 16 (plain "FlatDetector")), plain "ProjectOntoPlane", plain "FocalPlaneDet"] ∨
       k = kindArcusForPlot ∧ dets = [group "DetCamera" (List.replicate 16 (plain "FlatDetector"))] ∨ k = kindArcusForSixte ∧ dets = [plain "FocalPlaneDet"]) :
    ∀ x ∈ sigsL [] (arcusParts k conf channels dets),
      (x.2.1 = "SPOChannelMirror" → x.1 = ["SimpleSPOs"] ∧ x.2.2 = true) ∧ (x.2.1 = "CATfromMechanical" → x.1 = ["CATGratings"] ∧ x.2.2 = true) ∧
      (x.2.1 = "CATWindow" → x.1 = ["CATfromMechanical", "CATGratings"] ∧ x.2.2 = true) ∧ (x.2.1 = "DetCamera" → x.1 = [] ∧ x.2.2 = true) := by
  rcases hd with ⟨rfl | rfl, rfl⟩ | ⟨rfl, rfl⟩ | ⟨rfl, rfl⟩ <;>
    (simp only [arcusParts, kindPerfectArcus, kindArcus, kindArcusForPlot, kindArcusForSixte, noBoom, plotBoom, filtersElt, petalElt, catStackElt, sigsL_cons, sigsL_nil, sigsL_append, sigs_plain, sigs_group, sigsL_replicate,
      sigsL_map, sigsL_flatten, if_true, if_false, Bool.false_eq_true, List.forall_mem_append, List.forall_mem_cons, rep_all, List.append_nil, List.forall_mem_singleton, List.map_map]
     simp [sigsL_cons, sigs_plain, sigs_group, sigsL_replicate, sigsL_nil]
     try aesop)

/-- **C143** `Arcus()` and `ArcusForSIXTE()` with any set of channels: a telescope is made, and all structures are moved as the budget says: SPOs in each channel, petals, windows in the petals,
gratings in the windows, and (where there is one) the camera. Nothing is lost although moving a petal makes new windows. -/
theorem C143_arcus_misaligned (k : ArcusKind) (hk : k = kindArcus ∨ k = kindArcusForSixte) (fresh : ℕ → Align (Option ChirpFor)) (z : ℕ → ℝ) (conf : ArcusConf) (channels : List String)
    (hc : ∀ c ∈ channels, c ∈ conf.optAx ∧ c ∈ ["1", "1m", "2", "2m"]) (h16 : conf.nCcds = 16) (hb : conf.budget = some arcusBudget) :
    ∃ t, arcus k fresh z conf channels = .ok t ∧
    ∀ outer e, PartOf t.tree outer e →
      (e.cls = "SPOChannelMirror" → ∃ o, (t.state e.ident).elemUnc = randomShifts (tolFrom 1 20 100 500 300 300 10) e.inner.length (shiftDraws z o) (turnDraws z o e.inner.length)) ∧
      (e.cls = "CATfromMechanical" → (t.state e.ident).unc = shiftBy (tolFrom 0.8 1000 1000 1000 300 300 600) ∧
        ∃ o, (t.state e.ident).elemUnc = randomShifts (tolFrom 1 1000 1000 200 300 180 300) e.inner.length (shiftDraws z o) (turnDraws z o e.inner.length)) ∧
      (e.cls = "CATWindow" → ∃ o, (t.state e.ident).elemUnc = randomShifts (tolFrom 1 1000 1000 200 300 180 300) e.inner.length (shiftDraws z o) (turnDraws z o e.inner.length)) ∧
      (e.cls = "DetCamera" → (t.state e.ident).unc = shiftBy (tolFrom 0.8 5000 2000 1000 180 180 180)) ∧
      ((∀ a ∈ e :: outer, a.cls ∉ ["SPOChannelMirror", "CATfromMechanical", "CATWindow", "DetCamera"]) → t.state e.ident = fresh e.ident) := by
  have hka : k ∈ arcusKinds := by rcases hk with rfl | rfl <;> simp [arcusKinds]
  obtain ⟨t0, ht0⟩ := (C143_arcus_accepted k hka fresh conf channels).2 ⟨hc, Or.inr h16⟩
  obtain ⟨dets, rfl, hd⟩ := arcus_cases hka ht0
  have str := arcus_structures k conf channels dets hd
  set es := numberElts 1 (arcusParts k conf channels dets) with hes
  have hn : (identsList es).Nodup := numberElts_nodup _ _
  have hp : isParallelClass k.name = false := by rcases hk with rfl | rfl <;> decide
  have part : ∀ outer e, PartOf (.cont k.name 0 es) outer e →
      (e.cls = "SPOChannelMirror" → outer.map Elt.cls = ["SimpleSPOs"] ∧ ∃ c i es, e = .cont c i es) ∧ (e.cls = "CATfromMechanical" → outer.map Elt.cls = ["CATGratings"] ∧ ∃ c i es, e = .cont c i es) ∧
      (e.cls = "CATWindow" → outer.map Elt.cls = ["CATfromMechanical", "CATGratings"] ∧ ∃ c i es, e = .cont c i es) ∧ (e.cls = "DetCamera" → outer.map Elt.cls = [] ∧ ∃ c i es, e = .cont c i es) := by
    intro outer e he
    obtain ⟨a, b, c, d⟩ := str _ (part_sig (name := k.name) he)
    exact ⟨fun h => ⟨(a h).1, isCont_of_sig (a h).2⟩, fun h => ⟨(b h).1, isCont_of_sig (b h).2⟩, fun h => ⟨(c h).1, isCont_of_sig (c h).2⟩, fun h => ⟨(d h).1, isCont_of_sig (d h).2⟩⟩
  have name_ne : ∀ r ∈ arcusBudget, r.cls ≠ k.name := by
    rw [arcus_rows]
    rcases hk with rfl | rfl <;> simp [kindArcus, kindArcusForSixte]
  obtain ⟨s', hs'⟩ := (C132_accepted isParallelClass fresh z k.name 0 es hp arcusBudget (fresh, 0)).2 (by
    intro r hr
    have hr' := hr
    rw [arcus_rows] at hr
    simp only [List.mem_cons, List.not_mem_nil, or_false] at hr
    rcases hr with rfl | rfl | rfl | rfl | rfl
    · refine ⟨Or.inr rfl, name_ne _ hr', _, rfl, fun outer e he hm => ⟨⟨?_, ((part outer e he).1 hm.1).2⟩, by simp [tolFrom], fun _ => tolFrom_nonneg _ _ _ _ _ _ _ (by norm_num)⟩⟩
      rw [hm.1]; decide
    · refine ⟨Or.inl rfl, name_ne _ hr', _, rfl, fun outer e he hm => ⟨⟨?_, ((part outer e he).2.1 hm.1).2⟩, by simp [tolFrom], fun hh => by simp at hh⟩⟩
      rw [hm.1]; decide
    · refine ⟨Or.inr rfl, name_ne _ hr', _, rfl, fun outer e he hm => ⟨⟨?_, ((part outer e he).2.1 hm.1).2⟩, by simp [tolFrom], fun _ => tolFrom_nonneg _ _ _ _ _ _ _ (by norm_num)⟩⟩
      rw [hm.1]; decide
    · refine ⟨Or.inr rfl, name_ne _ hr', _, rfl, fun outer e he hm => ⟨⟨?_, ((part outer e he).2.2.1 hm.1).2⟩, by simp [tolFrom], fun _ => tolFrom_nonneg _ _ _ _ _ _ _ (by norm_num)⟩⟩
      rw [hm.1]; decide
    · refine ⟨Or.inl rfl, name_ne _ hr', _, rfl, fun outer e he hm => ⟨⟨?_, ((part outer e he).2.2.2 hm.1).2⟩, by simp [tolFrom], fun hh => by simp at hh⟩⟩
      rw [hm.1]; decide)
  refine ⟨⟨.cont k.name 0 es, s'.1, conf.rowlandDetector⟩, ?_, ?_⟩
  · unfold arcus
    rw [ht0, hb]
    exact misalign_ok hs'
  · intro outer e he
    have hs2 := hs'
    rw [arcus_rows] at hs'
    have movesOuter : ∀ (r : BudgetRow String) (l : List String), outer.map Elt.cls = l → r.cls ∉ l → ¬ MovesOuter r outer := by
      rintro r l hl hr ⟨a, ha, hac⟩
      exact outer_cls hl hr a ha hac
    refine ⟨fun h => ?_, fun h => ⟨?_, ?_⟩, fun h => ?_, fun h => ?_, fun h => ?_⟩
    · have ho := ((part outer e he).1 h).1
      refine C132_individual isParallelClass fresh z k.name 0 es hp hn outer e he [] _ _ _ (fresh, 0) s' hs' rfl rfl ⟨h, outer_cls ho (by decide)⟩ ?_ ?_
      · intro r hr
        refine movesOuter r _ ho ?_
        simp only [List.mem_cons, List.not_mem_nil, or_false] at hr
        rcases hr with rfl | rfl | rfl | rfl <;> decide
      · intro r hr hm
        have := hm.1
        rw [h] at this
        simp only [List.mem_cons, List.not_mem_nil, or_false] at hr
        rcases hr with rfl | rfl | rfl | rfl <;> simp at this
    · have ho := ((part outer e he).2.1 h).1
      refine C132_global isParallelClass fresh z k.name 0 es hp hn outer e he [_] _ _ _ (fresh, 0) s' hs' rfl rfl ⟨h, outer_cls ho (by decide)⟩ ?_ ?_
      · intro r hr
        refine movesOuter r _ ho ?_
        simp only [List.mem_cons, List.not_mem_nil, or_false] at hr
        rcases hr with rfl | rfl | rfl <;> decide
      · intro r hr hm
        have := hm.1
        rw [h] at this
        simp only [List.mem_cons, List.not_mem_nil, or_false] at hr
        rcases hr with rfl | rfl | rfl <;> simp at this ⊢
    · have ho := ((part outer e he).2.1 h).1
      refine C132_individual isParallelClass fresh z k.name 0 es hp hn outer e he [_, _] _ _ _ (fresh, 0) s' hs' rfl rfl ⟨h, outer_cls ho (by decide)⟩ ?_ ?_
      · intro r hr
        refine movesOuter r _ ho ?_
        simp only [List.mem_cons, List.not_mem_nil, or_false] at hr
        rcases hr with rfl | rfl <;> decide
      · intro r hr hm
        have := hm.1
        rw [h] at this
        simp only [List.mem_cons, List.not_mem_nil, or_false] at hr
        rcases hr with rfl | rfl <;> simp at this
    · have ho := ((part outer e he).2.2.1 h).1
      refine C132_individual isParallelClass fresh z k.name 0 es hp hn outer e he [_, _, _] _ _ _ (fresh, 0) s' hs' rfl rfl ⟨h, outer_cls ho (by decide)⟩ ?_ ?_
      · intro r hr
        refine movesOuter r _ ho ?_
        simp only [List.mem_cons, List.not_mem_nil, or_false] at hr
        subst hr; decide
      · intro r hr hm
        have := hm.1
        rw [h] at this
        simp only [List.mem_cons, List.not_mem_nil, or_false] at hr
        subst hr; simp at this
    · have ho := ((part outer e he).2.2.2 h).1
      exact C132_global isParallelClass fresh z k.name 0 es hp hn outer e he [_, _, _, _] [] _ _ (fresh, 0) s' hs' rfl rfl ⟨h, outer_cls ho (by decide)⟩ (by simp) (by simp)
    · refine C132_untouched isParallelClass fresh z k.name 0 es hp hn outer e he _ (fresh, 0) s' hs' ?_
      intro r hr
      have hne : ∀ a ∈ e :: outer, a.cls ≠ r.cls := by
        intro a ha hh
        apply h a ha
        rw [hh]
        simp only [List.mem_cons, List.not_mem_nil, or_false] at hr
        rcases hr with rfl | rfl | rfl | rfl | rfl <;> simp
      exact ⟨hne e (by simp), fun a ha => hne a (by simp [ha])⟩

example : ∃ t, arcus kindArcus freshExample (fun _ => 1) arcusExample ["1", "2m"] = .ok t :=
  have ⟨t, h, _⟩ := C143_arcus_misaligned kindArcus (Or.inl rfl) freshExample (fun _ => 1) arcusExample ["1", "2m"] (by simp [arcusExample]) rfl rfl
  ⟨t, h⟩

/-- **C143** The variant for SIXTE has no camera that could be moved: the last row of the budget has no effect, and no part is moved instead of the camera. -/
theorem C143_sixte_camera (fresh : ℕ → Align (Option ChirpFor)) (conf : ArcusConf) (channels : List String) (t : Telescope) (h : perfectArcus kindArcusForSixte fresh conf channels = .ok t) :
    ∀ outer e, PartOf t.tree outer e → e.cls ≠ "DetCamera" ∧ ∀ a ∈ outer, a.cls ≠ "DetCamera" := by
  have hk : kindArcusForSixte ∈ arcusKinds := by simp [arcusKinds]
  have h1 : howMany t "DetCamera" = 0 := (C143_arcus_parts kindArcusForSixte hk fresh conf channels t h).2.2.2.2.2.2.1
  obtain ⟨dets, rfl, hd⟩ := arcus_cases hk h
  have hd' : dets = [plain "FocalPlaneDet"] := by
    rcases hd with ⟨h | h, _⟩ | ⟨h, _⟩ | ⟨_, h⟩
    · simpa [kindArcusForSixte, kindPerfectArcus] using congrArg ArcusKind.name h
    · simpa [kindArcusForSixte, kindArcus] using congrArg ArcusKind.name h
    · simpa [kindArcusForSixte, kindArcusForPlot] using congrArg ArcusKind.name h
    · exact h
  subst hd'
  have sig : ∀ x ∈ sigsL [] (arcusParts kindArcusForSixte conf channels [plain "FocalPlaneDet"]), x.2.1 ≠ "DetCamera" ∧ "DetCamera" ∉ x.1 := by
    simp only [arcusParts, kindArcusForSixte, noBoom, petalElt, catStackElt, sigsL_cons, sigsL_nil, sigsL_append, sigs_plain, sigs_group, sigsL_replicate,
      sigsL_map, sigsL_flatten, if_false, Bool.false_eq_true, List.forall_mem_append, List.forall_mem_cons, rep_all, List.append_nil, List.forall_mem_singleton, List.map_map]
    simp [sigsL_cons, sigs_plain, sigs_group, sigsL_replicate, sigsL_nil]
    try aesop
  intro outer e he
  obtain ⟨h1, h2⟩ := sig _ (part_sig he)
  exact ⟨h1, outer_cls rfl h2⟩

example : ∃ t, perfectArcus kindArcusForSixte freshExample arcusExample ["1", "2m"] = .ok t :=
  (C143_arcus_accepted kindArcusForSixte (by simp [arcusKinds]) freshExample arcusExample ["1", "2m"]).2 ⟨by simp [arcusExample], Or.inl rfl⟩

end Marxs
