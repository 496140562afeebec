import Verif.Spec.SceneJson
import Verif.Spec.Rowland
import Verif.Props.Boom

/-!
# C138: what is written as json is drawn in the browser at the right place
-/

namespace Marxs
open Classical

theorem bufferPoints_flatten3 (l : List V3) : bufferPoints (flatten3 l) = l := by
  induction l with
  | nil => rfl
  | cons v l ih =>
    show bufferPoints (v.x :: v.y :: v.z :: flatten3 l) = _
    rw [bufferPoints, ih]

/-- **C138** A box is drawn once, and each of its points is where the placement of the element puts it. -/
theorem C138_box (hex : MatVal → MatVal) (m : M4) (display : List (String × MatVal)) :
    ∃ e, loadElem (jsonBox hex m display) = [.placed "BoxGeometry" [2, 2, 2] e] ∧
      ∀ v : V3, jsApply e v = mul4 m ⟨v.x, v.y, v.z, 1⟩ := by
  refine ⟨flatten16 m.transpose, rfl, fun v => ?_⟩
  simp [jsApply, flatten16, mul4]

theorem uint16_id (l : List ℕ) (h : ∀ i ∈ l, i < 65536) : uint16Array l = l := by
  unfold uint16Array
  conv_rhs => rw [← List.map_id l]
  exact List.map_congr_left fun i hi => Nat.mod_eq_of_lt (h i hi)

/-- **C138** A triangulation with at most 65536 points is drawn with the same points and triangles. (Missing: more points, see `C138_mesh_false`.) -/
theorem C138_mesh_partial (hex : MatVal → MatVal) (xyz : List V3) (triangles : List Tri) (display : List (String × MatVal))
    (hn : xyz.length ≤ 65536) (hv : ∀ t ∈ triangles, t.1 < xyz.length ∧ t.2.1 < xyz.length ∧ t.2.2 < xyz.length) :
    loadElem (jsonTriangulation hex xyz triangles display) = [.points "Mesh" xyz (some (triangles.flatMap fun t => [t.1, t.2.1, t.2.2])) none] := by
  have h : ∀ i ∈ flattenTri triangles, i < 65536 := by
    intro i hi
    obtain ⟨t, ht, hit⟩ := List.mem_flatMap.1 hi
    obtain ⟨h1, h2, h3⟩ := hv t ht
    simp only [List.mem_cons, List.not_mem_nil, or_false] at hit
    rcases hit with rfl | rfl | rfl <;> omega
  show [JsObj.points "Mesh" (bufferPoints (flatten3 xyz)) (some (uint16Array (flattenTri triangles))) none] = _
  rw [bufferPoints_flatten3, uint16_id _ h]
  rfl

/-- **C138** (disagreement) With more points, triangles are drawn between other points: javascript keeps 16 bits of each index. -/
theorem C138_mesh_false (hex : MatVal → MatVal) (xyz : List V3) (hn : 65536 < xyz.length) (display : List (String × MatVal)) :
    loadElem (jsonTriangulation hex xyz [(65536, 1, 2)] display) = [.points "Mesh" xyz (some [0, 1, 2]) none] := by
  show [JsObj.points "Mesh" (bufferPoints (flatten3 xyz)) _ none] = _
  rw [bufferPoints_flatten3]
  rfl

/-- The values are accepted exactly if they fit, and then each point has its value. -/
theorem jsonScalar_ok (n N : ℕ) (s : RayScalar) (h : FitsRays n N s) :
    ∃ rows, jsonScalar n N s = .ok rows ∧ rows.length = n ∧
      ∀ (i : ℕ) row, rows[i]? = some row → row.length = N ∧ ∀ j < N, row[j]? = rayValue s i j := by
  cases s with
  | none =>
    refine ⟨_, rfl, by simp, ?_⟩
    intro i row hr
    obtain ⟨hi, rfl⟩ := List.getElem?_eq_some_iff.1 hr
    refine ⟨by simp, fun j hj => ?_⟩
    simp [rayValue, List.getElem?_replicate, hj]
  | perRay s =>
    refine ⟨s.map fun x => List.replicate N x, by simp [jsonScalar, show s.length = n from h], by simp [show s.length = n from h], ?_⟩
    intro i row hr
    rw [List.getElem?_map, Option.map_eq_some_iff] at hr
    obtain ⟨x, hx, rfl⟩ := hr
    refine ⟨by simp, fun j hj => ?_⟩
    simp [rayValue, List.getElem?_replicate, hj, hx]
  | perPoint s =>
    refine ⟨s, by simp only [jsonScalar]; exact if_pos h, h.1, ?_⟩
    intro i row hr
    refine ⟨h.2 row (List.mem_of_getElem? hr), fun j hj => ?_⟩
    simp [rayValue, hr]
  | bad => exact h.elim

/-- **C138** Rays: one line for each ray, with the points of the ray in their order, and each point has the color for its own value. -/
theorem C138_rays_partial (hex : MatVal → MatVal) (rgb : List (List ℝ) → ℝ → V3) (N : ℕ) (data : List (List V3)) (s : RayScalar) (prop : List (String × MatVal))
    (h0 : data ≠ []) (hs : FitsRays data.length N s) :
    ∃ (e : JsonElem) (color : ℝ → V3), jsonRays hex rgb N data s prop = .ok e ∧ (loadElem e).length = data.length ∧
      ∀ (i : ℕ) ray, data[i]? = some ray → ∃ c : List V3, (loadElem e)[i]? = some (.points "Line" ray none (some c)) ∧ c.length = N ∧
        ∀ j < N, ∃ x, rayValue s i j = some x ∧ c[j]? = some (color x) := by
  obtain ⟨rows, h1, h2, h3⟩ := jsonScalar_ok data.length N s hs
  have hne : data.length ≠ 0 := fun h => h0 (List.length_eq_zero_iff.1 h)
  refine ⟨_, rgb rows, by simp only [jsonRays, h1]; rw [if_neg hne], ?_, ?_⟩
  · simp [loadElem]
  · intro i ray hr
    obtain ⟨hi, hri⟩ := List.getElem?_eq_some_iff.1 hr
    have hrow : rows[i]? = some (rows[i]'(by omega)) := List.getElem?_eq_getElem _
    obtain ⟨h4, h5⟩ := h3 i _ hrow
    refine ⟨(rows[i]'(by omega)).map (rgb rows), ?_, by simp [h4], ?_⟩
    · simp only [loadElem, List.getElem?_map, List.getElem?_range hi, Option.map_some, hr, hrow, Option.getD_some, Option.map_none, bufferPoints_flatten3]
    · intro j hj
      obtain ⟨x, hx⟩ : ∃ x, (rows[i]'(by omega))[j]? = some x := ⟨(rows[i]'(by omega))[j]'(by omega), List.getElem?_eq_getElem (by omega : j < (rows[i]'(by omega)).length)⟩
      exact ⟨x, by rw [← h5 j hj, hx], by rw [List.getElem?_map, hx, Option.map_some]⟩

/-- **C138** Values of another shape are refused. -/
theorem C138_rays_refused (hex : MatVal → MatVal) (rgb : List (List ℝ) → ℝ → V3) (N : ℕ) (data : List (List V3)) (s : RayScalar) (prop : List (String × MatVal))
    (hs : ¬ FitsRays data.length N s) : jsonRays hex rgb N data s prop = .error .valueError := by
  have : jsonScalar data.length N s = .error .valueError := by
    cases s with
    | none => exact (hs trivial).elim
    | perRay s => simp only [jsonScalar]; exact if_neg hs
    | perPoint s => simp only [jsonScalar]; exact if_neg hs
    | bad => rfl
  simp only [jsonRays, this]

/-- **C138** (disagreement) A photon list without photons cannot be plotted. -/
theorem C138_no_rays_false (hex : MatVal → MatVal) (rgb : List (List ℝ) → ℝ → V3) (N : ℕ) (prop : List (String × MatVal)) :
    jsonRays hex rgb N [] .none prop = .error .valueError := by
  simp [jsonRays, jsonScalar]

/-- **C138** The material has the display settings that three.js knows and no others, and a setting for the opacity makes the object transparent. -/
theorem C138_material (hex : MatVal → MatVal) (mat : Material) (display : List (String × MatVal)) :
    (∀ k v, k ≠ "color" → k ≠ "transparent" → ((k, v) ∈ materialDict hex mat display ↔ (k, v) ∈ display ∧ (k ∈ commonProperties ∨ k ∈ materialProperties mat))) ∧
    (∀ w, ("color", w) ∈ materialDict hex mat display ↔ ∃ v, ("color", v) ∈ display ∧ w = hex v) ∧
    ("opacity" ∈ display.map Prod.fst → "transparent" ∈ (materialDict hex mat display).map Prod.fst) ∧
    ∀ v, ("transparent", v) ∈ display → ∀ w, ("transparent", w) ∈ materialDict hex mat display ↔ ("transparent", w) ∈ display := by
  have hmem : ∀ k w, (k, w) ∈ materialDict hex mat display ↔ (∃ v, (k, v) ∈ display ∧ (k ∈ commonProperties ∨ k ∈ materialProperties mat) ∧ w = if k = "color" then hex v else v) ∨
      ((k = "transparent" ∧ w = .str "true") ∧ "opacity" ∈ display.map Prod.fst ∧ "transparent" ∉ display.map Prod.fst) := by
    intro k w
    unfold materialDict
    rw [List.mem_append, List.mem_map]
    apply or_congr
    · constructor
      · rintro ⟨⟨k', v⟩, h1, h2⟩
        simp only [List.mem_filter, decide_eq_true_eq] at h1
        by_cases hc : k' = "color"
        · simp only [hc, if_true, Prod.mk.injEq] at h2
          obtain ⟨rfl, rfl⟩ := h2
          subst hc
          exact ⟨v, h1.1, h1.2, by simp⟩
        · simp only [hc, if_false, Prod.mk.injEq] at h2
          obtain ⟨rfl, rfl⟩ := h2
          exact ⟨v, h1.1, h1.2, by simp [hc]⟩
      · rintro ⟨v, h1, h2, h3⟩
        refine ⟨(k, v), by simp only [List.mem_filter, decide_eq_true_eq]; exact ⟨h1, h2⟩, ?_⟩
        by_cases hc : k = "color"
        · simp only [hc, if_true] at h3 ⊢; rw [h3]
        · simp only [hc, if_false] at h3 ⊢; rw [h3]
    · by_cases hc : "opacity" ∈ display.map Prod.fst ∧ "transparent" ∉ display.map Prod.fst
      · rw [if_pos hc]; simp [hc.1, hc.2]
      · rw [if_neg hc]
        constructor
        · intro h; cases h
        · rintro ⟨_, h⟩; exact (hc h).elim
  refine ⟨?_, ?_, ?_, ?_⟩
  · intro k v h1 h2
    rw [hmem]
    constructor
    · rintro (⟨v', h3, h4, h5⟩ | ⟨⟨h3, _⟩, _⟩)
      · simp only [h1, if_false] at h5; subst h5; exact ⟨h3, h4⟩
      · exact (h2 h3).elim
    · rintro ⟨h3, h4⟩
      exact Or.inl ⟨v, h3, h4, by simp [h1]⟩
  · intro w
    rw [hmem]
    have hc : "color" ∈ commonProperties ∨ "color" ∈ materialProperties mat := by
      right; cases mat <;> simp [materialProperties]
    constructor
    · rintro (⟨v', h3, h4, h5⟩ | ⟨⟨h3, _⟩, _⟩)
      · exact ⟨v', h3, by simpa using h5⟩
      · exact absurd h3 (by decide)
    · rintro ⟨v, h3, h4⟩
      exact Or.inl ⟨v, h3, hc, by simpa using h4⟩
  · intro ho
    by_cases ht : "transparent" ∈ display.map Prod.fst
    · obtain ⟨⟨k, v⟩, h1, h2⟩ := List.mem_map.1 ht
      simp only at h2
      subst h2
      exact List.mem_map.2 ⟨("transparent", v), (hmem _ _).2 (Or.inl ⟨v, h1, Or.inl (by simp [commonProperties]), by simp⟩), rfl⟩
    · exact List.mem_map.2 ⟨("transparent", .str "true"), (hmem _ _).2 (Or.inr ⟨⟨rfl, rfl⟩, ho, ht⟩), rfl⟩
  · intro v hv w
    have ht : "transparent" ∈ display.map Prod.fst := List.mem_map.2 ⟨_, hv, rfl⟩
    rw [hmem]
    constructor
    · rintro (⟨v', h3, _, h5⟩ | ⟨_, _, h⟩)
      · rw [if_neg (by decide)] at h5; subst h5; exact h3
      · exact (h ht).elim
    · intro h
      exact Or.inl ⟨w, h, Or.inl (by simp [commonProperties]), by simp⟩

/-- **C138** The page shows each element of the file, in the order of the file. -/
theorem C138_scene_partial (data : List JsonElem) :
    ∃ file, jsonWrite data false = .ok file ∧ (loadScene file).length = data.length ∧
      ∀ (i : ℕ) e, data[i]? = some e → (loadScene file)[i]? = some (loadElem e) := by
  refine ⟨data, by simp [jsonWrite], by simp [loadScene], fun i e h => ?_⟩
  simp [loadScene, h]

/-- **C138** (disagreement) With a photon list for the header nothing is written. -/
theorem C138_write_photons_false (data : List JsonElem) : jsonWrite data true = .error .typeError := by
  simp [jsonWrite]

/-- **C138** (disagreement) Containers, e.g. a whole instrument, cannot be plotted. -/
theorem C138_container_false {α : Type} (elements : List α) (h : elements ≠ []) : jsonContainer elements = .error .nameError := by
  cases elements with
  | nil => exact (h rfl).elim
  | cons a l => rfl

/-! ## Torus -/

theorem jsTorus_pars (hex : MatVal → MatVal) (t : Torus) (coo1 coo2 : Option (List ℝ)) (display : List (String × MatVal)) (t0 t1 p0 p1 : ℝ) (l1 l2 : List ℝ)
    (h1 : coo1.getD [0, 2 * Real.pi] = t0 :: t1 :: l1) (h2 : coo2.getD [0, 2 * Real.pi] = p0 :: p1 :: l2) :
    ∃ e, jsonTorus hex t coo1 coo2 display = .ok e ∧ loadElem e = [.placed "ModifiedTorusBufferGeometry" [t.R, t.r, intDeg t1, intDeg p1, t1, t0, p1, p0] (flatten16 t.pos4d)] := by
  refine ⟨.general 1 .meshStandard (withSide display (materialDict hex .meshStandard display)) "ModifiedTorusBufferGeometry" [t.R, t.r, intDeg t1, intDeg p1, t1, t0, p1, p0] [flatten16 t.pos4d], by simp only [jsonTorus, h1, h2], rfl⟩

theorem jsOr_ne {x d : ℝ} (h : x ≠ 0) : jsOr x d = x := by simp [jsOr, h]

theorem jsOr_zero (x : ℝ) : jsOr x 0 = x := by
  unfold jsOr; split_ifs with h <;> simp [h]

theorem jsTorus_mem {R r a2 a3 t1 t0 p1 p0 : ℝ} (hR : R ≠ 0) (hr : r ≠ 0) (ht : t1 ≠ 0) (hp : p1 ≠ 0) (p : V3) :
    p ∈ jsTorusVertices [R, r, a2, a3, t1, t0, p1, p0] ↔ ∃ j i : ℕ, j ≤ jsSegments a2 8 ∧ i ≤ jsSegments a3 6 ∧
      p = ringPoint R r (i / jsSegments a3 6 * t1 + t0) (j / jsSegments a2 8 * p1 + p0) := by
  simp only [jsTorusVertices, List.getD_cons_zero, List.getD_cons_succ, jsOr_ne hR, jsOr_ne hr, jsOr_ne ht, jsOr_ne hp, jsOr_zero, List.mem_flatMap, List.mem_map, List.mem_range, ringPoint]
  constructor
  · rintro ⟨j, hj, i, hi, rfl⟩
    exact ⟨j, i, by omega, by omega, rfl⟩
  · rintro ⟨j, i, hj, hi, rfl⟩
    exact ⟨j, by omega, i, by omega, rfl⟩

/-- **C138** Torus: the points that are drawn are on the torus of the element after y and z are exchanged. (Missing: the exchange, see `C138_torus_axis_false`, and the placement, see `C138_torus_place_false`.) -/
theorem C138_torus_partial (hex : MatVal → MatVal) (t : Torus) (hR : t.R ≠ 0) (hr : t.r ≠ 0) (t0 t1 p0 p1 : ℝ) (ht : t1 ≠ 0) (hp : p1 ≠ 0) (display : List (String × MatVal)) :
    ∃ e pars m, jsonTorus hex t (some [t0, t1]) (some [p0, p1]) display = .ok e ∧ loadElem e = [.placed "ModifiedTorusBufferGeometry" pars m] ∧
      ∀ p ∈ jsTorusVertices pars, OnTorus t.R t.r ⟨p.x, p.z, p.y⟩ := by
  obtain ⟨e, h1, h2⟩ := jsTorus_pars hex t (some [t0, t1]) (some [p0, p1]) display t0 t1 p0 p1 [] [] rfl rfl
  refine ⟨e, _, _, h1, h2, ?_⟩
  intro p hpm
  obtain ⟨j, i, _, _, rfl⟩ := (jsTorus_mem hR hr ht hp p).1 hpm
  refine ⟨Real.cos (i / jsSegments (intDeg p1 : ℝ) 6 * t1 + t0), Real.sin (i / jsSegments (intDeg p1 : ℝ) 6 * t1 + t0),
    t.R + t.r * Real.cos (j / jsSegments (intDeg t1 : ℝ) 8 * p1 + p0), Real.cos_sq_add_sin_sq _, rfl, rfl, ?_⟩
  simp only [ringPoint]
  have := Real.sin_sq_add_cos_sq (j / jsSegments (intDeg t1 : ℝ) 8 * p1 + p0)
  linear_combination t.r ^ 2 * this

theorem intDeg_two_pi : intDeg (2 * Real.pi) = 360 := by
  have h : 2 * Real.pi * 180 / Real.pi = ((360 : ℤ) : ℝ) := by
    have := Real.pi_ne_zero
    field_simp
    norm_num
  unfold intDeg
  simp only [h]
  rw [if_pos (by norm_num), Int.floor_intCast]

theorem jsSegments_360 (d : ℕ) : jsSegments ((360 : ℤ) : ℝ) d = 360 := by
  unfold jsSegments
  rw [Int.floor_intCast]
  norm_num
  rfl

/-- **C138** (disagreement) A torus that is not moved or turned is drawn around another axis: some points that are drawn are not on the torus. -/
theorem C138_torus_axis_false (hex : MatVal → MatVal) (R r : ℝ) (hR : 0 < R) (hr : 0 < r) (display : List (String × MatVal)) :
    ∃ e pars m, jsonTorus hex ⟨R, r, 1⟩ none none display = .ok e ∧ loadElem e = [.placed "ModifiedTorusBufferGeometry" pars m] ∧
      ∃ p ∈ jsTorusVertices pars, (jsApply m p).w = 1 ∧ ¬ OnTorus R r (jsApply m p).xyz := by
  obtain ⟨e, h1, h2⟩ := jsTorus_pars hex ⟨R, r, 1⟩ none none display 0 (2 * Real.pi) 0 (2 * Real.pi) [] [] rfl rfl
  have hpi := Real.pi_pos
  refine ⟨e, _, _, h1, h2, ⟨0, R + r, 0⟩, ?_, ?_, ?_⟩
  · refine (jsTorus_mem hR.ne' hr.ne' (by positivity) (by positivity) _).2 ⟨0, 90, by omega, ?_, ?_⟩
    · rw [intDeg_two_pi, jsSegments_360]; norm_num
    · rw [intDeg_two_pi, jsSegments_360, jsSegments_360]
      have : ((90 : ℕ) : ℝ) / ((360 : ℕ) : ℝ) * (2 * Real.pi) + 0 = Real.pi / 2 := by push_cast; ring
      rw [this]
      simp [ringPoint]
  · simp [jsApply, flatten16]
  · have hx : (jsApply (flatten16 (1 : M4)) ⟨0, R + r, 0⟩).xyz = ⟨0, R + r, 0⟩ := by simp [jsApply, flatten16, H4.xyz]
    simp only [hx]
    rintro ⟨ux, uz, a, hu, hxx, hzz, hy⟩
    have ha : a = 0 := by
      by_contra hne
      have h3 : ux = 0 := (mul_eq_zero.1 hxx.symm).resolve_left hne
      have h4 : uz = 0 := (mul_eq_zero.1 hzz.symm).resolve_left hne
      rw [h3, h4] at hu
      norm_num at hu
    rw [ha] at hy
    simp only at hy
    nlinarith [mul_pos hR hr, mul_pos hR hR]

/-- **C138** (disagreement) Wherever a torus is placed, the page draws it around the origin. -/
theorem C138_torus_place_false (hex : MatVal → MatVal) (t : Torus) (hm : Affine t.pos4d) (t0 t1 p0 p1 : ℝ) (display : List (String × MatVal)) :
    ∃ e pars m, jsonTorus hex t (some [t0, t1]) (some [p0, p1]) display = .ok e ∧ loadElem e = [.placed "ModifiedTorusBufferGeometry" pars m] ∧
      jsApply m ⟨0, 0, 0⟩ = ⟨0, 0, 0, 1⟩ := by
  obtain ⟨e, h1, h2⟩ := jsTorus_pars hex t (some [t0, t1]) (some [p0, p1]) display t0 t1 p0 p1 [] [] rfl rfl
  refine ⟨e, _, _, h1, h2, ?_⟩
  obtain ⟨a, b, c, d⟩ := hm
  simp [jsApply, flatten16, a, b, c, d]

/-- **C138** (disagreement) Of the angles in the display settings only the first two count. With the default settings of a Rowland torus (60 angles from 0 to 2 pi) only part of one half of the torus is drawn. -/
theorem C138_torus_range_false (hex : MatVal → MatVal) (t : Torus) (hR : 0 < t.R) (hr : 0 < t.r) (display : List (String × MatVal)) :
    ∃ e pars m, jsonTorus hex t (some ((List.range 60).map fun k : ℕ => 2 * Real.pi * k / 59)) (some ((List.range 60).map fun k : ℕ => 2 * Real.pi * k / 59)) display = .ok e ∧
      loadElem e = [.placed "ModifiedTorusBufferGeometry" pars m] ∧ ∀ p ∈ jsTorusVertices pars, 0 ≤ p.y ∧ 0 ≤ p.z := by
  have hl : (some ((List.range 60).map fun k : ℕ => 2 * Real.pi * (k : ℝ) / 59)).getD [0, 2 * Real.pi] =
      0 :: (2 * Real.pi / 59) :: ((List.range 58).map fun k : ℕ => 2 * Real.pi * ((k + 2 : ℕ) : ℝ) / 59) := by
    rw [Option.getD_some, List.range_succ_eq_map, List.range_succ_eq_map]
    simp [List.map_map, Function.comp_def]
    intro a _
    norm_num
    ring
  obtain ⟨e, h1, h2⟩ := jsTorus_pars hex t _ _ display _ _ _ _ _ _ hl hl
  refine ⟨e, _, _, h1, h2, ?_⟩
  have hpi := Real.pi_pos
  intro p hp
  obtain ⟨j, i, hj, hi, rfl⟩ := (jsTorus_mem hR.ne' hr.ne' (by positivity) (by positivity) p).1 hp
  have hang : ∀ (k n : ℕ), k ≤ n → 0 ≤ (k : ℝ) / n * (2 * Real.pi / 59) + 0 ∧ (k : ℝ) / n * (2 * Real.pi / 59) + 0 ≤ Real.pi / 2 := by
    intro k n hk
    have h0 : (k : ℝ) / n ≤ 1 := div_le_one_of_le₀ (by exact_mod_cast hk) (by positivity)
    have h1 : 0 ≤ (k : ℝ) / n := by positivity
    constructor
    · positivity
    · nlinarith
  obtain ⟨u1, u2⟩ := hang i _ hi
  obtain ⟨v1, v2⟩ := hang j _ hj
  refine ⟨?_, ?_⟩
  · exact mul_nonneg (add_nonneg hR.le (mul_nonneg hr.le (Real.cos_nonneg_of_neg_pi_div_two_le_of_le (by linarith) v2))) (Real.sin_nonneg_of_nonneg_of_le_pi u1 (by linarith))
  · exact mul_nonneg hr.le (Real.sin_nonneg_of_nonneg_of_le_pi v1 (by linarith))

theorem grid_get {β : Type} (f : ℕ → ℕ → β) (a b j i : ℕ) (hj : j < a) (hi : i < b) :
    ((List.range a).flatMap fun j => (List.range b).map fun i => f j i)[b * j + i]? = some (f j i) := by
  rw [flatMap_get_const _ b _ (fun _ _ => by simp) j i hi j (List.getElem?_range hj)]
  simp [hi]

/-- **C138** Torus: each cell of the grid of angles is drawn as two triangles between its four corners (the indices have enough bits), and there are no other triangles. -/
theorem C138_torus_cells {R r a2 a3 t1 t0 p1 p0 : ℝ} (hR : R ≠ 0) (hr : r ≠ 0) (ht : t1 ≠ 0) (hp : p1 ≠ 0) (S T : ℕ) (hS : S = jsSegments a2 8) (hT : T = jsSegments a3 6)
    (hmem : (S + 1) * (T + 1) ≤ 2 ^ 32) (pars : List ℝ) (hpars : pars = [R, r, a2, a3, t1, t0, p1, p0]) (P : ℕ → ℕ → V3)
    (hP : ∀ j i, P j i = ringPoint R r (i / T * t1 + t0) (j / S * p1 + p0)) :
    (jsTorusIndex pars).length = 6 * (S * T) ∧ ∀ j < S, ∀ i < T, ∀ k : ℕ, k = 6 * (T * j + i) →
      (List.range 6).map (fun l => cornerAt (jsTorusVertices pars) (jsTorusIndex pars) (k + l)) =
        [some (P (j + 1) i), some (P j i), some (P (j + 1) (i + 1)), some (P j i), some (P j (i + 1)), some (P (j + 1) (i + 1))] := by
  subst hpars
  have hvert : ∀ j ≤ S, ∀ i ≤ T, (jsTorusVertices [R, r, a2, a3, t1, t0, p1, p0])[(T + 1) * j + i]? = some (P j i) := by
    intro j hj i hi
    have := grid_get (fun j i => ringPoint R r ((i : ℝ) / T * t1 + t0) ((j : ℝ) / S * p1 + p0)) (S + 1) (T + 1) j i (by omega) (by omega)
    rw [hP, ← this]
    simp only [jsTorusVertices, List.getD_cons_zero, List.getD_cons_succ, jsOr_ne hR, jsOr_ne hr, jsOr_ne ht, jsOr_ne hp, jsOr_zero, ringPoint, ← hS, ← hT]
  have hidx : jsTorusIndex [R, r, a2, a3, t1, t0, p1, p0] = (List.range S).flatMap fun j => (List.range T).flatMap fun i =>
      [(T + 1) * (j + 1) + i, (T + 1) * j + i, (T + 1) * (j + 1) + (i + 1), (T + 1) * j + i, (T + 1) * j + (i + 1), (T + 1) * (j + 1) + (i + 1)] := by
    simp only [jsTorusIndex, List.getD_cons_zero, List.getD_cons_succ, ← hS, ← hT]
    rw [List.map_flatMap]
    apply List.flatMap_congr
    intro j hj
    rw [List.map_flatMap]
    apply List.flatMap_congr
    intro i hi
    rw [List.mem_range] at hj hi
    have hmax : (T + 1) * (j + 1) + (i + 1) < (S + 1) * (T + 1) := by nlinarith
    have hmono : (T + 1) * j ≤ (T + 1) * (j + 1) := by nlinarith
    have hbits : (S + 1) * (T + 1) ≤ (if S * T * 2 * 3 > 65535 then 2 ^ 32 else 2 ^ 16) := by
      split_ifs with h
      · exact hmem
      · have h1 : S ≤ S * T := Nat.le_mul_of_pos_right _ (by omega)
        have h2 : T ≤ S * T := Nat.le_mul_of_pos_left _ (by omega)
        have h3 : (S + 1) * (T + 1) = S * T + S + T + 1 := by ring
        rw [h3]
        omega
    generalize (if S * T * 2 * 3 > 65535 then 2 ^ 32 else 2 ^ 16) = B at hbits
    simp only [List.map_cons, List.map_nil, Nat.add_sub_cancel]
    have e1 : (T + 1) * (j + 1) + (i + 1) - 1 = (T + 1) * (j + 1) + i := by omega
    have e2 : (T + 1) * j + (i + 1) - 1 = (T + 1) * j + i := by omega
    rw [e1, e2, Nat.mod_eq_of_lt (show (T + 1) * (j + 1) + i < B by omega), Nat.mod_eq_of_lt (show (T + 1) * j + i < B by omega),
      Nat.mod_eq_of_lt (show (T + 1) * (j + 1) + (i + 1) < B by omega), Nat.mod_eq_of_lt (show (T + 1) * j + (i + 1) < B by omega)]
  have hrow : ∀ j ∈ List.range S, ((List.range T).flatMap fun i =>
      [(T + 1) * (j + 1) + i, (T + 1) * j + i, (T + 1) * (j + 1) + (i + 1), (T + 1) * j + i, (T + 1) * j + (i + 1), (T + 1) * (j + 1) + (i + 1)]).length = T * 6 := by
    intro j _
    rw [flatMap_length_const _ 6 _ (fun _ _ => rfl), List.length_range]
  constructor
  · rw [hidx, flatMap_length_const _ (T * 6) _ hrow, List.length_range]; ring
  · rintro j hj i hi k rfl
    have hget : ∀ l < 6, (jsTorusIndex [R, r, a2, a3, t1, t0, p1, p0])[6 * (T * j + i) + l]? =
        [(T + 1) * (j + 1) + i, (T + 1) * j + i, (T + 1) * (j + 1) + (i + 1), (T + 1) * j + i, (T + 1) * j + (i + 1), (T + 1) * (j + 1) + (i + 1)][l]? := by
      intro l hl
      have e : 6 * (T * j + i) + l = T * 6 * j + (6 * i + l) := by ring
      rw [e, hidx, flatMap_get_const _ (T * 6) _ hrow j (6 * i + l) (by omega) j (List.getElem?_range hj),
        flatMap_get_const _ 6 _ (fun _ _ => rfl) i l hl i (List.getElem?_range hi)]
    have hr6 : List.range 6 = [0, 1, 2, 3, 4, 5] := by decide
    simp only [hr6, List.map_cons, List.map_nil, cornerAt, hget 0 (by omega), hget 1 (by omega), hget 2 (by omega), hget 3 (by omega), hget 4 (by omega), hget 5 (by omega)]
    simp [hvert (j + 1) (by omega) i (by omega), hvert j (by omega) i (by omega), hvert (j + 1) (by omega) (i + 1) (by omega), hvert j (by omega) (i + 1) (by omega)]

/-- Non-vacuity: two rays with two points each and a value for each ray; a small mesh; and a torus that is drawn with 360 times 360 cells. -/
example : FitsRays 2 2 (.perRay [1, 2]) ∧ ¬ FitsRays 2 2 (.perRay [1]) ∧ rayValue (.perRay [1, 2]) 1 0 = some 2 ∧
    (∀ t ∈ ([(0, 1, 2)] : List Tri), t.1 < 3 ∧ t.2.1 < 3 ∧ t.2.2 < 3) ∧
    jsSegments (intDeg (2 * Real.pi)) 8 = 360 ∧ (360 + 1) * (360 + 1) ≤ 2 ^ 32 ∧ Affine (1 : M4) := by
  refine ⟨rfl, by simp [FitsRays], rfl, by simp, by rw [intDeg_two_pi, jsSegments_360], by norm_num, by simp [Affine]⟩

end Marxs
