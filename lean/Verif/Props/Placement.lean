import Verif.Lemmas.Placement

/-!
# Properties C06, C07, C09, C65, C67: placement of elements
-/

namespace Marxs
open Matrix

/-! ## C06 -/

theorem genFrom_spec {dec : M4 → Decomp} {c : Par} {i n : ℕ} {es : List GenElem}
    (h : genFrom dec c i n = .ok es) :
    es.length = n ∧ ∀ (k : ℕ) (e : GenElem), es[k]? = some e → genOne dec c (i + k) = .ok e := by
  induction n generalizing i es with
  | zero => simp [genFrom] at h; subst h; simp
  | succ n ih =>
    simp only [genFrom] at h
    cases h1 : genOne dec c i with
    | error x => simp [h1] at h
    | ok e =>
      simp only [h1] at h
      cases h2 : genFrom dec c (i+1) n with
      | error x => simp [h2] at h
      | ok es' =>
        simp only [h2] at h
        cases h
        obtain ⟨k1, k2⟩ := ih h2
        refine ⟨by simp [k1], ?_⟩
        intro k e' he'
        cases k with
        | zero => simp at he'; subst he'; simpa using h1
        | succ k =>
          have := k2 k e' (by simpa using he')
          rw [show i + (k + 1) = i + 1 + k by omega]; exact this

theorem genOne_ok {dec : M4 → Decomp} {c : Par} {i : ℕ} {e : GenElem}
    (h : genOne dec c i = .ok e) :
    ∃ m p u, parsePosition (addName i c.name (specificArgs c.elemPos.length i c.elemArgs))
        = .ok (m, e.args) ∧ c.elemPos[i]? = some p ∧ c.elemUncertainty[i]? = some u ∧
      (dec m).s = 0 ∧ (dec u).s = 0 ∧
      e.pos4d = placeElem c.pos4d c.uncertainty (dec u) (dec p) (dec m) ∧
      e.idNum = c.idNumOffset + i := by
  unfold genOne at h
  split at h
  · cases h
  rename_i m args hm
  split at h
  · cases h
  rename_i hs
  split at h
  · rename_i p u hp hu
    split at h
    · cases h
    · rename_i hs2
      cases h
      exact ⟨m, p, u, hm, hp, hu, by simpa using hs, by simpa using hs2, rfl, rfl⟩
  · cases h

/-- **C06** `Parallel` makes exactly one element per entry in `elem_pos`, with consecutive ids
starting at `id_num_offset`. -/
theorem C06_one_element_per_position {dec : M4 → Decomp} {c : Par} {es : List GenElem}
    (h : generateElements dec c = .ok es) :
    es.length = c.elemPos.length ∧
    ∀ (i : ℕ) (e : GenElem), es[i]? = some e → e.idNum = c.idNumOffset + i := by
  obtain ⟨h1, h2⟩ := genFrom_spec h
  refine ⟨h1, fun i e he => ?_⟩
  obtain ⟨_, _, _, _, _, _, _, _, _, h3⟩ := genOne_ok (h2 i e he)
  simpa using h3

/-- **C06** Where a local point `p` of element `i` ends up: it is first zoomed and rotated and
shifted by the parameters that are common to all elements (`elem_args`), those of the element
(`elem_pos[i]`) and the element's uncertainty: zooms first, then rotations, then translations; then
the uncertainty and the position of the container are applied. -/
theorem C06_placement {dec : M4 → Decomp} (hdec : DecExact dec) {c : Par} {es : List GenElem}
    (h : generateElements dec c = .ok es) (i : ℕ) (e : GenElem) (he : es[i]? = some e)
    -- elem_args, elem_pos[i] and elem_uncertainty[i] as translation, rotation, zoom
    (ta te tu za ze zu : Fin 3 → ℝ) (ra re ru : M3)
    (hra : IsRotation ra) (hre : IsRotation re) (hru : IsRotation ru)
    (hza : ∀ k, 0 < za k) (hze : ∀ k, 0 < ze k) (hzu : ∀ k, 0 < zu k)
    (harg : ∃ rest, parsePosition
      (addName i c.name (specificArgs c.elemPos.length i c.elemArgs)) = .ok (compose ta ra za, rest))
    (hpos : c.elemPos[i]? = some (compose te re ze))
    (hunc : c.elemUncertainty[i]? = some (compose tu ru zu))
    (p : Fin 3 → ℝ) :
    e.pos4d *ᵥ hom p = c.pos4d *ᵥ (c.uncertainty *ᵥ
      hom (tu + (te + (ta + ru *ᵥ (re *ᵥ (ra *ᵥ (zu * (ze * (za * p))))))))) := by
  obtain ⟨_, h2⟩ := genFrom_spec h
  obtain ⟨m, q, u, k1, k2, k3, _, _, k4, _⟩ := genOne_ok (h2 i e he)
  rw [zero_add] at k1 k2 k3
  obtain ⟨rest, harg⟩ := harg
  rw [harg] at k1
  rw [hpos] at k2
  rw [hunc] at k3
  cases k1; cases k2; cases k3
  rw [k4, hdec tu ru zu hru hzu, hdec te re ze hre hze, hdec ta ra za hra hza]
  simp only [placeElem, List.reverse_cons, List.reverse_nil, List.nil_append, List.cons_append,
    List.foldl_cons, List.foldl_nil, ← mulVec_mulVec, one_mulVec, zoom_hom, mat_hom,
    translation_hom]

/-- **C06** In particular, without uncertainties and with no placement in `elem_args` the element
sits at `pos4d · elem_pos[i]`. -/
theorem C06_placement_plain {dec : M4 → Decomp} (hdec : DecExact dec) {c : Par}
    {es : List GenElem} (h : generateElements dec c = .ok es) (i : ℕ) (e : GenElem)
    (he : es[i]? = some e) (te ze : Fin 3 → ℝ) (re : M3) (hre : IsRotation re)
    (hze : ∀ k, 0 < ze k) (hpos : c.elemPos[i]? = some (compose te re ze))
    (hunc : c.elemUncertainty[i]? = some 1) (hU : c.uncertainty = 1)
    (harg : ∃ rest, parsePosition
      (addName i c.name (specificArgs c.elemPos.length i c.elemArgs)) = .ok (1, rest))
    (p : Fin 3 → ℝ) :
    e.pos4d *ᵥ hom p = c.pos4d *ᵥ (compose te re ze *ᵥ hom p) := by
  have one : (1 : M4) = compose 0 1 1 := by
    ext i j; fin_cases i <;> fin_cases j <;> simp [compose]
  have hone : IsRotation (1 : M3) := ⟨by simp, by simp⟩
  rw [C06_placement hdec h i e he 0 te 0 1 ze 1 1 re 1 hone hre hone (by simp) hze (by simp)
    (by rw [← one]; exact harg) hpos (by rw [← one]; exact hunc) p, hU, one_mulVec, compose_eq]
  simp only [← mulVec_mulVec, zoom_hom, mat_hom, translation_hom, one_mulVec, one_mul, zero_add]

/-- **C06** Arguments: a list with one entry per element is handed out item by item, everything
else is passed to all elements unchanged. (Keys that describe the position are used up.) -/
theorem C06_arguments {dec : M4 → Decomp} {c : Par} {es : List GenElem}
    (h : generateElements dec c = .ok es) (i : ℕ) (e : GenElem) (he : es[i]? = some e)
    (k : String) (v : PyVal) (hk : (k, v) ∈ c.elemArgs)
    (hpos : k ∉ ["pos4d", "position", "orientation", "zoom"]) :
    (∀ l, v = .list l → l.length = c.elemPos.length → ∃ x, l[i]? = some x ∧ (k, x) ∈ e.args) ∧
    ((∀ l, v = .list l → l.length ≠ c.elemPos.length) → (k, v) ∈ e.args) := by
  obtain ⟨h1, h2⟩ := genFrom_spec h
  obtain ⟨m, q, u, k1, k2, k3, _, _, k4, _⟩ := genOne_ok (h2 i e he)
  rw [zero_add] at k1 k2 k3
  have hi : i < c.elemPos.length := (List.getElem?_eq_some_iff.1 k2).1
  -- the keys not used for the position survive
  have surv : ∀ x, (k, x) ∈ addName i c.name (specificArgs c.elemPos.length i c.elemArgs) →
      (k, x) ∈ e.args := by
    intro x hx
    generalize addName i c.name (specificArgs c.elemPos.length i c.elemArgs) = kw at k1 hx
    simp at hpos
    obtain ⟨n1, n2, n3, n4⟩ := hpos
    unfold parsePosition at k1
    split at k1
    · split at k1
      · cases k1
      split at k1
      · split at k1
        · cases k1
        split at k1
        · dsimp only at k1
          split at k1
          · cases k1
          · simp only [Except.ok.injEq, Prod.mk.injEq] at k1
            rw [← k1.2]
            simp [Kwargs.pop, List.mem_filter, hx, n1, n2, n3, n4]
        · cases k1
        · cases k1
      · cases k1
    · split at k1
      · cases k1
      · split at k1
        · cases k1
        · simp only [Except.ok.injEq, Prod.mk.injEq] at k1
          rw [← k1.2]
          simp [Kwargs.pop, List.mem_filter, hx, n1]
    · cases k1
  have add : ∀ x, (k, x) ∈ specificArgs c.elemPos.length i c.elemArgs → (k, x) ∈ e.args := by
    intro x hx
    apply surv
    unfold addName
    split
    · exact hx
    · exact List.mem_append_left _ hx
  constructor
  · intro l hl hlen
    subst hl
    have hil : i < l.length := by omega
    refine ⟨l[i], List.getElem?_eq_getElem hil, add _ ?_⟩
    simp only [specificArgs, List.mem_map]
    exact ⟨(k, .list l), hk, by simp [hlen, List.getElem?_eq_getElem hil]⟩
  · intro hne
    apply add
    simp only [specificArgs, List.mem_map]
    refine ⟨(k, v), hk, ?_⟩
    cases v <;> simp
    intro h; exact absurd h (hne _ rfl)

/-- **C06** An element without name gets the name "Elem i in <name of container>". -/
theorem C06_default_name {dec : M4 → Decomp} {c : Par} {es : List GenElem}
    (h : generateElements dec c = .ok es) (i : ℕ) (e : GenElem) (he : es[i]? = some e)
    (hname : ∀ x ∈ c.elemArgs, x.1 ≠ "name") :
    ("name", PyVal.str ("Elem " ++ toString i ++ " in " ++ c.name)) ∈ e.args := by
  obtain ⟨h1, h2⟩ := genFrom_spec h
  obtain ⟨m, q, u, k1, k2, k3, _, _, k4, _⟩ := genOne_ok (h2 i e he)
  rw [zero_add] at k1 k2 k3
  have hx : ("name", PyVal.str ("Elem " ++ toString i ++ " in " ++ c.name)) ∈
      addName i c.name (specificArgs c.elemPos.length i c.elemArgs) := by
    unfold addName
    split
    · rename_i hs
      exfalso
      simp only [Kwargs.get?, Option.isSome_map, List.find?_isSome, specificArgs, List.mem_map] at hs
      obtain ⟨x, ⟨y, hy, hyx⟩, hx⟩ := hs
      obtain ⟨ky, vy⟩ := y
      have : x.1 = ky := by
        rw [← hyx]
        cases vy <;> simp
        split <;> rfl
      simp [this] at hx
      exact hname _ hy hx
    · simp
  generalize addName i c.name (specificArgs c.elemPos.length i c.elemArgs) = kw at k1 hx
  unfold parsePosition at k1
  split at k1
  · split at k1
    · cases k1
    split at k1
    · split at k1
      · cases k1
      split at k1
      · dsimp only at k1
        split at k1
        · cases k1
        · simp only [Except.ok.injEq, Prod.mk.injEq] at k1
          rw [← k1.2]
          simp only [Kwargs.pop, List.mem_filter]
          exact ⟨⟨⟨⟨hx, by decide⟩, by decide⟩, by decide⟩, by decide⟩
      · cases k1
      · cases k1
    · cases k1
  · split at k1
    · cases k1
    · split at k1
      · cases k1
      · simp only [Except.ok.injEq, Prod.mk.injEq] at k1
        rw [← k1.2]
        simp only [Kwargs.pop, List.mem_filter]
        exact ⟨hx, by decide⟩
  · cases k1

/-- **C06** Sheared placements are refused: for `elem_args` with a `ValueError`, for the uncertainty
of an element with a `SetupError`; no elements are made. -/
theorem C06_shear_rejected {dec : M4 → Decomp} {c : Par} (i : ℕ) (hi : i < c.elemPos.length)
    (m u : M4) (rest : Kwargs)
    (harg : parsePosition
      (addName i c.name (specificArgs c.elemPos.length i c.elemArgs)) = .ok (m, rest))
    (hunc : c.elemUncertainty[i]? = some u) (hs : (dec m).s ≠ 0 ∨ (dec u).s ≠ 0) :
    (∃ e, generateElements dec c = .error e) ∧
    genOne dec c i = .error (if (dec m).s ≠ 0 then .valueError else .setupError) := by
  have hone : genOne dec c i = .error (if (dec m).s ≠ 0 then .valueError else .setupError) := by
    have hp := List.getElem?_eq_getElem hi
    simp only [genOne, harg, hp, hunc]
    by_cases h : (dec m).s = 0
    · simp only [h, ne_eq, not_true, if_false, false_or] at hs ⊢
      simp [hs]
    · simp [h]
  refine ⟨?_, hone⟩
  cases h : generateElements dec c with
  | error e => exact ⟨e, rfl⟩
  | ok es =>
    exfalso
    obtain ⟨h1, h2⟩ := genFrom_spec h
    have hlt : i < es.length := by omega
    have := h2 i es[i] (List.getElem?_eq_getElem hlt)
    rw [zero_add, hone] at this
    cases this

/-! Non-vacuity: two elements, each with its own groove spacing, the concrete `decompose44`. -/

theorem one_compose : (1 : M4) = compose 0 1 1 := by
  ext i j; fin_cases i <;> fin_cases j <;> simp [compose]

/-- example container -/
noncomputable def exPar : Par where
  pos4d := 1
  uncertainty := 1
  elemPos := [compose ![1, 2, 3] 1 ![2, 2, 2], compose ![4, 5, 6] 1 ![1, 1, 1]]
  elemUncertainty := [1, 1]
  elemArgs := [("d", .list [.num 1, .num 2]), ("order", .obj 3)]
  idNumOffset := 7
  name := "gas"

theorem parse_plain (kw : Kwargs) (h1 : kw.get? "pos4d" = none) (h2 : kw.get? "zoom" = none)
    (h3 : kw.get? "position" = none) (h4 : kw.get? "orientation" = none) :
    parsePosition kw =
      .ok (1, (((kw.pop "pos4d").pop "position").pop "orientation").pop "zoom") := by
  have hc : compose ![0, 0, 0] 1 ![1, 1, 1] = (1 : M4) := by
    ext i j; fin_cases i <;> fin_cases j <;> simp [compose]
  simp [parsePosition, h1, h2, h3, h4, zoomOf, positionOf, orientationOf, hc]

theorem isRotation_one : IsRotation (1 : M3) := ⟨by simp, by simp⟩

theorem exPar_ok : ∃ es, generateElements decompose44 exPar = .ok es := by
  have hd : decompose44 1 = ⟨0, 1, 1, 0⟩ := by
    rw [one_compose]; exact decompose44_exact 0 1 1 isRotation_one (by simp)
  have hp : ∀ i, i < 2 → ∃ r, parsePosition (addName i exPar.name
      (specificArgs exPar.elemPos.length i exPar.elemArgs)) = .ok (1, r) := by
    intro i hi
    refine ⟨_, parse_plain _ ?_ ?_ ?_ ?_⟩ <;>
      simp [exPar, specificArgs, addName, Kwargs.get?]
  obtain ⟨r0, h0⟩ := hp 0 (by norm_num)
  obtain ⟨r1, h1⟩ := hp 1 (by norm_num)
  have g0 : ∃ e, genOne decompose44 exPar 0 = .ok e := by
    simp only [genOne, h0, hd]
    simp [exPar, hd]
  have g1 : ∃ e, genOne decompose44 exPar 1 = .ok e := by
    simp only [genOne, h1, hd]
    simp [exPar, hd]
  obtain ⟨e0, g0⟩ := g0
  obtain ⟨e1, g1⟩ := g1
  refine ⟨[e0, e1], ?_⟩
  have : exPar.elemPos.length = 2 := rfl
  simp [generateElements, this, genFrom, g0, g1]

example : DecExact decompose44 ∧ ∃ es, generateElements decompose44 exPar = .ok es ∧
    es.length = 2 := by
  obtain ⟨es, h⟩ := exPar_ok
  exact ⟨decompose44_exact, es, h, (C06_one_element_per_position h).1⟩

/-! ## C07 -/

/-- A container without uncertainties of single elements and without placement in `elem_args`;
all elements placed by translation, rotation and zoom. -/
structure Par.Plain (dec : M4 → Decomp) (c : Par) : Prop where
  args : ∀ i, i < c.elemPos.length → ∃ rest, parsePosition
    (addName i c.name (specificArgs c.elemPos.length i c.elemArgs)) = .ok (1, rest)
  unc : c.elemUncertainty = List.replicate c.elemPos.length 1
  pos : ∀ p ∈ c.elemPos, ∃ t r z, IsRotation r ∧ (∀ k, 0 < z k) ∧ p = compose t r z

theorem genOne_plain {dec : M4 → Decomp} (hdec : DecExact dec) {c : Par} (hc : c.Plain dec)
    {i : ℕ} {p : M4} (hp : c.elemPos[i]? = some p) :
    ∃ e, genOne dec c i = .ok e ∧ e.pos4d = c.pos4d * c.uncertainty * p := by
  have hi : i < c.elemPos.length := (List.getElem?_eq_some_iff.1 hp).1
  obtain ⟨rest, hargs⟩ := hc.args i hi
  obtain ⟨t, r, z, hr, hz, rfl⟩ := hc.pos p (List.mem_of_getElem? hp)
  have hd : dec 1 = ⟨0, 1, 1, 0⟩ := by
    rw [one_compose]; exact hdec 0 1 1 isRotation_one (by simp)
  have hu : c.elemUncertainty[i]? = some 1 := by rw [hc.unc]; simp [hi]
  refine ⟨_, by simp only [genOne, hargs, hp, hu, hd, ne_eq, not_true, if_false]; rfl, ?_⟩
  have t0 : translation2aff 0 = 1 := by
    ext i j; fin_cases i <;> fin_cases j <;> simp [translation2aff]
  have m0 : mat2aff 1 = 1 := by
    ext i j; fin_cases i <;> fin_cases j <;> simp [mat2aff]
  have z0 : zoom2aff 1 = 1 := by
    ext i j; fin_cases i <;> fin_cases j <;> simp [zoom2aff]
  rw [hdec t r z hr hz]
  simp only [placeElem, List.reverse_cons, List.reverse_nil, List.nil_append,
    List.cons_append, List.foldl_cons, List.foldl_nil, t0, m0, z0, one_mul, mul_one, compose_eq,
    Matrix.mul_assoc]

/-- **C07, full statement**: after `move_center` with an invertible matrix all elements are where
they were before, for any orientation of the container. False of the code, see
`C07_move_center_moves_elements`. -/
def C07_statement : Prop :=
  ∀ (dec : M4 → Decomp), DecExact dec → ∀ (c c' : Par) (m : M4), c.Plain dec → c'.Plain dec →
    moveCenter c m = .ok c' →
    ∀ es es', generateElements dec c = .ok es → generateElements dec c' = .ok es' →
      es.map (·.pos4d) = es'.map (·.pos4d)

/-- **C07** (partial; the exact condition) For a non-empty container, the elements stay where they are
*if and only if* the change commutes with the placement `pos4d·uncertainty` of the container; the
documented claim holds e.g. for containers with `pos4d = 1`, but not in general. -/
theorem C07_elements_stay_iff_partial {dec : M4 → Decomp} (hdec : DecExact dec) {c c' : Par} {m : M4}
    (hc : c.Plain dec) (hc' : c'.Plain dec) (hm : moveCenter c m = .ok c')
    (hne : c.elemPos ≠ []) {es es' : List GenElem}
    (hes : generateElements dec c = .ok es) (hes' : generateElements dec c' = .ok es') :
    es.map (·.pos4d) = es'.map (·.pos4d) ↔
      m * (c.pos4d * c.uncertainty) = (c.pos4d * c.uncertainty) * m := by
  unfold moveCenter at hm
  split at hm
  · cases hm
  rename_i hdet
  have hu : IsUnit m.det := by simpa [isUnit_iff_ne_zero] using hdet
  have hmm : m * m⁻¹ = 1 := Matrix.mul_nonsing_inv m hu
  have hmm' : m⁻¹ * m = 1 := Matrix.nonsing_inv_mul m hu
  have ec : c' = { c with pos4d := m * c.pos4d, elemPos := c.elemPos.map (fun p => m⁻¹ * p) } := by
    cases hm; rfl
  have p1 : es.map (·.pos4d) = c.elemPos.map (fun p => c.pos4d * c.uncertainty * p) := by
    obtain ⟨hl, hk⟩ := genFrom_spec hes
    apply List.ext_getElem?
    intro i
    simp only [List.getElem?_map]
    cases hi : es[i]? with
    | none =>
      have : c.elemPos[i]? = none := by
        simp only [List.getElem?_eq_none_iff] at hi ⊢; omega
      simp [this]
    | some e =>
      have hlt : i < c.elemPos.length := by
        have := (List.getElem?_eq_some_iff.1 hi).1; omega
      have hp := List.getElem?_eq_getElem hlt
      obtain ⟨e', h1, h2⟩ := genOne_plain hdec hc hp
      have h3 := hk i e hi
      rw [zero_add, h1] at h3
      cases h3
      simp [h2, hp]
  have p2 : es'.map (·.pos4d) =
      c.elemPos.map (fun p => m * c.pos4d * c.uncertainty * (m⁻¹ * p)) := by
    obtain ⟨hl, hk⟩ := genFrom_spec hes'
    have hlen : c'.elemPos.length = c.elemPos.length := by rw [ec]; simp
    apply List.ext_getElem?
    intro i
    simp only [List.getElem?_map]
    cases hi : es'[i]? with
    | none =>
      have : c.elemPos[i]? = none := by
        simp only [List.getElem?_eq_none_iff] at hi ⊢; omega
      simp [this]
    | some e =>
      have hlt : i < c.elemPos.length := by
        have := (List.getElem?_eq_some_iff.1 hi).1; omega
      have hp := List.getElem?_eq_getElem hlt
      have hp' : c'.elemPos[i]? = some (m⁻¹ * c.elemPos[i]) := by rw [ec]; simp [hp]
      obtain ⟨e', h1, h2⟩ := genOne_plain hdec hc' hp'
      have h3 := hk i e hi
      rw [zero_add, h1] at h3
      cases h3
      rw [hp]
      simp only [Option.map_some, h2]
      rw [ec]
  rw [p1, p2]
  set A := c.pos4d * c.uncertainty with hA
  constructor
  · intro h
    obtain ⟨p, ps, hps⟩ : ∃ p ps, c.elemPos = p :: ps := List.exists_cons_of_ne_nil hne
    rw [hps] at h
    simp only [List.map_cons, List.cons.injEq] at h
    obtain ⟨t, r, z, hr, hz, rfl⟩ := hc.pos p (by rw [hps]; simp)
    set q := compose t r z
    have hq : IsUnit q.det := by
      rw [isUnit_iff_ne_zero, det_compose, hr.2]
      have := hz 0; have := hz 1; have := hz 2
      positivity
    have hqq : q * q⁻¹ = 1 := Matrix.mul_nonsing_inv q hq
    have h1 : A * q * q⁻¹ * m = m * c.pos4d * c.uncertainty * (m⁻¹ * q) * q⁻¹ * m := by rw [h.1]
    have e1 : A * q * q⁻¹ * m = A * m := by rw [Matrix.mul_assoc A, hqq, mul_one]
    have e2 : m * c.pos4d * c.uncertainty * (m⁻¹ * q) * q⁻¹ * m = m * A := by
      rw [Matrix.mul_assoc _ (m⁻¹ * q) q⁻¹, Matrix.mul_assoc m⁻¹ q q⁻¹, hqq, mul_one,
        Matrix.mul_assoc _ m⁻¹ m, hmm', mul_one, Matrix.mul_assoc]
    rw [e1, e2] at h1
    exact h1.symm
  · intro h
    apply List.map_congr_left
    intro p _
    have : m * c.pos4d * c.uncertainty = A * m := by rw [Matrix.mul_assoc, h]
    rw [this, Matrix.mul_assoc A m, ← Matrix.mul_assoc m, hmm, one_mul]

/-- quarter turn around z -/
def rotZ : M3 := !![0, -1, 0; 1, 0, 0; 0, 0, 1]

theorem rotZ_isRotation : IsRotation rotZ := by
  constructor
  · ext i j; fin_cases i <;> fin_cases j <;>
      simp [rotZ, Matrix.mul_apply, Fin.sum_univ_succ]
  · simp [rotZ, Matrix.det_fin_three]

/-- container rotated by a quarter turn around z, with one element in its center -/
noncomputable def exRotated (t : Fin 3 → ℝ) (pos4d : M4) : Par where
  pos4d := pos4d
  uncertainty := 1
  elemPos := [compose t 1 1]
  elemUncertainty := [1]
  elemArgs := []
  idNumOffset := 0
  name := "x"

theorem exRotated_plain (t pos4d) : (exRotated t pos4d).Plain decompose44 := by
  refine ⟨?_, by simp [exRotated], ?_⟩
  · intro i hi
    refine ⟨_, parse_plain _ ?_ ?_ ?_ ?_⟩ <;>
      simp [exRotated, specificArgs, addName, Kwargs.get?]
  · intro p hp
    simp [exRotated] at hp
    exact ⟨t, 1, 1, isRotation_one, by simp, hp⟩

theorem exRotated_ok (t pos4d) : ∃ es, generateElements decompose44 (exRotated t pos4d) = .ok es := by
  obtain ⟨e, he, _⟩ := genOne_plain decompose44_exact (exRotated_plain t pos4d) (i := 0)
    (p := compose t 1 1) rfl
  refine ⟨[e], ?_⟩
  have : (exRotated t pos4d).elemPos.length = 1 := rfl
  simp [generateElements, this, genFrom, he]

theorem inv_translation (t : Fin 3 → ℝ) : (translation2aff t)⁻¹ = translation2aff (-t) := by
  apply Matrix.inv_eq_right_inv
  ext i j; fin_cases i <;> fin_cases j <;>
    simp [translation2aff, Matrix.mul_apply, Fin.sum_univ_succ]

theorem det_translation (t : Fin 3 → ℝ) : (translation2aff t).det = 1 := by
  have : translation2aff t = compose t 1 1 := by
    ext i j; fin_cases i <;> fin_cases j <;> simp [translation2aff, compose]
  rw [this, det_compose]; simp

theorem move_exRotated (t d : Fin 3 → ℝ) (pos4d : M4) :
    moveCenter (exRotated t pos4d) (translation2aff d) =
      .ok (exRotated (t - d) (translation2aff d * pos4d)) := by
  simp only [moveCenter, det_translation, one_ne_zero, if_false, exRotated, inv_translation,
    List.map_cons, List.map_nil]
  congr 2
  simp only [List.cons.injEq, and_true]
  ext i j; fin_cases i <;> fin_cases j <;>
    simp [translation2aff, compose, Matrix.mul_apply, Fin.sum_univ_succ] <;> ring

/-- **C07** (disagreement found) The documented property fails: shifting the center of a container
that is rotated by 90 degrees moves its element. -/
theorem C07_move_center_moves_elements : ¬ C07_statement := by
  intro h
  set P := compose 0 rotZ 1 with hP
  set d : Fin 3 → ℝ := ![1, 0, 0] with hd
  obtain ⟨es, hes⟩ := exRotated_ok 0 P
  obtain ⟨es', hes'⟩ := exRotated_ok (0 - d) (translation2aff d * P)
  have key := h decompose44 decompose44_exact (exRotated 0 P) _ (translation2aff d)
    (exRotated_plain _ _) (exRotated_plain _ _) (move_exRotated 0 d P) es es' hes hes'
  rw [C07_elements_stay_iff_partial decompose44_exact (exRotated_plain _ _) (exRotated_plain _ _)
    (move_exRotated 0 d P) (by simp [exRotated]) hes hes'] at key
  have := congrFun (congrFun key 0) 3
  simp [exRotated, hP, hd, compose, rotZ, translation2aff, Matrix.mul_apply,
    Fin.sum_univ_succ] at this

/-! Non-vacuity of the partial theorem: a container in default position. -/
example : ∃ c c' m es es', Par.Plain decompose44 c ∧ Par.Plain decompose44 c' ∧
    moveCenter c m = .ok c' ∧ c.elemPos ≠ [] ∧ generateElements decompose44 c = .ok es ∧
    generateElements decompose44 c' = .ok es' ∧ es.map (·.pos4d) = es'.map (·.pos4d) ∧ m ≠ 1 := by
  obtain ⟨es, hes⟩ := exRotated_ok 0 1
  obtain ⟨es', hes'⟩ := exRotated_ok (0 - ![1, 0, 0]) (translation2aff ![1, 0, 0] * 1)
  refine ⟨exRotated 0 1, _, translation2aff ![1, 0, 0], es, es', exRotated_plain _ _,
    exRotated_plain _ _, move_exRotated _ _ _, by simp [exRotated], hes, hes', ?_, ?_⟩
  · rw [C07_elements_stay_iff_partial decompose44_exact (exRotated_plain _ _) (exRotated_plain _ _)
      (move_exRotated _ _ _) (by simp [exRotated]) hes hes']
    simp [exRotated]
  · intro h
    have := congrFun (congrFun h 0) 3
    simp [translation2aff] at this

/-! ## C09 -/

/-- **C09** Propagating by `d` moves each photon along its ray and changes nothing else. -/
theorem C09_propagate_along_ray {α : Type} (d : ℝ) (ps : List (Photon α)) :
    (propagate d ps).length = ps.length ∧
    ∀ (i : ℕ) (p q : Photon α), ps[i]? = some p → (propagate d ps)[i]? = some q →
      q.dir = p.dir ∧ q.rest = p.rest ∧ (∀ k, q.pos k = p.pos k + d * p.dir k) ∧
      (p.dir 3 = 0 → q.pos 3 = p.pos 3) ∧
      (p.dir 0 ^ 2 + p.dir 1 ^ 2 + p.dir 2 ^ 2 = 1 → Real.sqrt (sqDist q.pos p.pos) = |d|) := by
  refine ⟨by simp [propagate], ?_⟩
  intro i p q hp hq
  simp only [propagate, List.getElem?_map, hp, Option.map_some, Option.some.injEq] at hq
  subst hq
  refine ⟨rfl, rfl, fun k => by simp, fun h => by simp [h], fun h => ?_⟩
  rw [show sqDist (p.pos + d • p.dir) p.pos = d ^ 2 by
    simp [sqDist]; linear_combination d ^ 2 * h]
  exact Real.sqrt_sq_eq_abs d

/-- **C09** Two propagations add up. -/
theorem C09_propagate_add {α : Type} (d e : ℝ) (ps : List (Photon α)) :
    propagate e (propagate d ps) = propagate (d + e) ps := by
  simp only [propagate, List.map_map]
  apply List.map_congr_left
  intro p _
  simp [add_smul, add_assoc]

/-- **C09** Propagating back restores the photon list exactly; distance 0 does nothing. -/
theorem C09_propagate_undo {α : Type} (d : ℝ) (ps : List (Photon α)) :
    propagate (-d) (propagate d ps) = ps ∧ propagate 0 ps = ps := by
  have : propagate 0 ps = ps := by simp [propagate]
  exact ⟨by rw [C09_propagate_add, add_neg_cancel, this], this⟩

example : propagate 2 [(⟨![0,0,0,1], ![-1,0,0,0], ()⟩ : Photon Unit)] =
    [⟨![-2,0,0,1], ![-1,0,0,0], ()⟩] := by
  simp [propagate]

/-! ## C65 -/

/-- **C65** A method that does nothing in the local frame gives back the original photons. -/
theorem C65_identity {α : Type} (m : M4) (hm : m.det ≠ 0) (ps : List (Photon α)) :
    photonLocalCoords m (fun x => .ok x) ps = .ok ps := by
  have hu : IsUnit m.det := by simpa [isUnit_iff_ne_zero] using hm
  simp only [photonLocalCoords, hm, if_false, applyMat, List.map_map]
  congr 1
  conv_rhs => rw [← List.map_id ps]
  apply List.map_congr_left
  intro p _
  simp [mulVec_mulVec, Matrix.mul_nonsing_inv m hu]

/-- **C65** The wrapped method is called exactly with the photons whose position and direction are
those of the local frame: applying `pos4d` to them gives the global ones; everything else is
unchanged. An exception in the method is passed on. -/
theorem C65_method_sees_local_frame {α : Type} (m : M4) (hm : m.det ≠ 0)
    (f : List (Photon α) → Except Err (List (Photon α))) (ps : List (Photon α)) :
    ∃ loc : List (Photon α), loc.length = ps.length ∧
      (∀ (i : ℕ) (p q : Photon α), ps[i]? = some p → loc[i]? = some q →
        m *ᵥ q.pos = p.pos ∧ m *ᵥ q.dir = p.dir ∧ q.rest = p.rest) ∧
      photonLocalCoords m f ps = (f loc).map (fun out =>
        out.map fun q => { q with pos := m *ᵥ q.pos, dir := m *ᵥ q.dir }) := by
  have hu : IsUnit m.det := by simpa [isUnit_iff_ne_zero] using hm
  refine ⟨applyMat m⁻¹ ps, by simp [applyMat], ?_, ?_⟩
  · intro i p q hp hq
    simp only [applyMat, List.getElem?_map, hp, Option.map_some, Option.some.injEq] at hq
    subst hq
    simp [mulVec_mulVec, Matrix.mul_nonsing_inv m hu]
  · simp only [photonLocalCoords, hm, if_false]
    cases f (applyMat m⁻¹ ps) <;> simp [Except.map, applyMat]

/-- **C65** Two nested local methods of the same element: only one change of frame is visible. -/
theorem C65_compose {α : Type} (m : M4) (hm : m.det ≠ 0)
    (f g : List (Photon α) → Except Err (List (Photon α))) (ps : List (Photon α)) :
    (do let q ← photonLocalCoords m f ps; photonLocalCoords m g q) =
      photonLocalCoords m (fun x => do let y ← f x; g y) ps := by
  have hu : IsUnit m.det := by simpa [isUnit_iff_ne_zero] using hm
  have inv : ∀ x : List (Photon α), applyMat m⁻¹ (applyMat m x) = x := by
    intro x
    simp only [applyMat, List.map_map]
    conv_rhs => rw [← List.map_id x]
    apply List.map_congr_left
    intro p _
    simp [mulVec_mulVec, Matrix.nonsing_inv_mul m hu]
  simp only [photonLocalCoords, hm, if_false, bind, Except.bind]
  cases f (applyMat m⁻¹ ps) with
  | error e => rfl
  | ok y => simp only [inv]

example : (compose ![1, 2, 3] rotZ ![2, 2, 2]).det ≠ 0 := by
  rw [det_compose, rotZ_isRotation.2]; simp

/-! ## C67 -/

/-- **C67** Every accepted placement is invertible. -/
theorem C67_accepted_is_invertible {kw rest : Kwargs} {m : M4}
    (h : parsePosition kw = .ok (m, rest)) : m.det ≠ 0 := by
  unfold parsePosition at h
  split at h
  · split at h
    · cases h
    split at h
    · split at h
      · cases h
      split at h
      · dsimp only at h
        split at h
        · cases h
        · cases h; assumption
      · cases h
      · cases h
    · cases h
  · split at h
    · cases h
    · split at h
      · cases h
      · cases h; assumption
  · cases h

/-- **C67** `pos4d` together with any of `position`, `orientation`, `zoom` is a `ValueError`. -/
theorem C67_both_rejected {kw : Kwargs} {v : PyVal} (h : kw.get? "pos4d" = some v)
    (h2 : (kw.get? "position").isSome ∨ (kw.get? "orientation").isSome ∨
      (kw.get? "zoom").isSome) : parsePosition kw = .error .valueError := by
  cases v <;> simp only [parsePosition, h]
  rw [if_pos h2]

/-- **C67** A zoom that is not positive in all dimensions is a `ValueError`, as is a zoom with a
number of dimensions different from three. -/
theorem C67_zoom_rejected {kw : Kwargs} (h : kw.get? "pos4d" = none) {z : List ℝ}
    (hz : zoomOf (kw.get? "zoom") = .ok z) (hbad : z.length ≠ 3 ∨ ∃ x ∈ z, x ≤ 0) :
    parsePosition kw = .error .valueError := by
  simp only [parsePosition, h, hz]
  match z, hbad with
  | [], _ => rfl
  | [_], _ => rfl
  | [_, _], _ => rfl
  | [a, b, c], hbad =>
    simp at hbad
    simp [hbad]
  | _ :: _ :: _ :: _ :: _, _ => rfl

/-- **C67** A given matrix is used as it is, unless it is singular. -/
theorem C67_pos4d_used {kw : Kwargs} {m : M4} (h : kw.get? "pos4d" = some (.mat4 m))
    (h1 : kw.get? "position" = none) (h2 : kw.get? "orientation" = none)
    (h3 : kw.get? "zoom" = none) :
    parsePosition kw = if m.det = 0 then .error .valueError else .ok (m, kw.pop "pos4d") := by
  simp [parsePosition, h, h1, h2, h3]

/-- **C67** Position, orientation and zoom are combined to translation · orientation · zoom; missing
ones default to origin, identity and one. -/
theorem C67_composed {kw : Kwargs} {p z : Fin 3 → ℝ} {o : M3} (h : kw.get? "pos4d" = none)
    (h1 : positionOf (kw.get? "position") = .ok p)
    (h2 : orientationOf (kw.get? "orientation") = .ok o)
    (h3 : zoomOf (kw.get? "zoom") = .ok [z 0, z 1, z 2]) (hz : ∀ k, 0 < z k) (ho : o.det ≠ 0) :
    ∃ rest, parsePosition kw = .ok (translation2aff p * mat2aff o * zoom2aff z, rest) ∧
      ∀ x : Fin 3 → ℝ, (translation2aff p * mat2aff o * zoom2aff z) *ᵥ hom x =
        hom (p + o *ᵥ (z * x)) := by
  have hz0 := hz 0; have hz1 := hz 1; have hz2 := hz 2
  have hzz : (![z 0, z 1, z 2] : Fin 3 → ℝ) = z := by
    ext i; fin_cases i <;> rfl
  have hdet : (compose p o z).det ≠ 0 := by
    rw [det_compose]
    exact mul_ne_zero ho (by positivity)
  refine ⟨(((kw.pop "pos4d").pop "position").pop "orientation").pop "zoom", ?_, ?_⟩
  · rw [← compose_eq]
    simp only [parsePosition, h, h1, h2, h3, hzz, not_le.2 hz0, not_le.2 hz1, not_le.2 hz2,
      or_self, if_false, hdet]
  · intro x
    simp only [← mulVec_mulVec, zoom_hom, mat_hom, translation_hom]

/-- **C67** A singular orientation is a `ValueError`. -/
theorem C67_singular_rejected {kw : Kwargs} {p z : Fin 3 → ℝ} {o : M3}
    (h : kw.get? "pos4d" = none) (h1 : positionOf (kw.get? "position") = .ok p)
    (h2 : orientationOf (kw.get? "orientation") = .ok o)
    (h3 : zoomOf (kw.get? "zoom") = .ok [z 0, z 1, z 2]) (ho : o.det = 0) :
    parsePosition kw = .error .valueError := by
  have hzz : (![z 0, z 1, z 2] : Fin 3 → ℝ) = z := by
    ext i; fin_cases i <;> rfl
  simp only [parsePosition, h, h1, h2, h3, hzz, det_compose, ho, zero_mul, if_true]
  split <;> rfl

example : positionOf (Kwargs.get? [("zoom", .num 2), ("position", .vec [1, 2, 3])] "position") =
    .ok ![1, 2, 3] ∧
    zoomOf (Kwargs.get? [("zoom", .num 2), ("position", .vec [1, 2, 3])] "zoom") = .ok [2, 2, 2] := by
  simp [Kwargs.get?, positionOf, zoomOf]

end Marxs
