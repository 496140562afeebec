import Mathlib.Algebra.BigOperators.Group.List.Basic
import Mathlib.Algebra.BigOperators.Ring.Finset
import Mathlib.Algebra.BigOperators.Intervals
import Mathlib.Tactic.FieldSimp
import Mathlib.Tactic.Linarith
import Mathlib.Tactic.NormNum
import Verif.Spec.Visual

/-!
# C61, C62, C63: triangulations and colors
-/

namespace Marxs

/-! ## The loop of `plane_with_hole` -/

theorem holeLoop_succ (nOut nIn k : ℕ) :
    holeLoop nOut nIn (k + 1) = holeStep nOut nIn (holeLoop nOut nIn k) k := by
  simp [holeLoop, List.range_succ]

/-- The test in the loop without division. -/
theorem hole_test {nOut nIn : ℕ} (hI : 0 < nIn) (f i : ℕ) :
    ((f : ℚ) / (nIn : ℚ) ≤ (i : ℚ) / ((nOut + nIn : ℕ) : ℚ)) ↔ f * (nOut + nIn) ≤ i * nIn := by
  have h1 : (0 : ℚ) < (nIn : ℚ) := by exact_mod_cast hI
  have h2 : (0 : ℚ) < ((nOut + nIn : ℕ) : ℚ) := by exact_mod_cast (by omega)
  rw [div_le_div_iff₀ h1 h2]
  exact_mod_cast Iff.rfl

/-- Number of inner steps after `k` passes. -/
def holeF (nOut nIn k : ℕ) : ℕ := (holeLoop nOut nIn k).iIn

/-- Number of outer steps after `k` passes. -/
def holeO (nOut nIn k : ℕ) : ℕ := k - holeF nOut nIn k

/-- Whether pass `k` adds a triangle with an inner edge. -/
def HoleIn (nOut nIn k : ℕ) : Prop := holeF nOut nIn k * (nOut + nIn) ≤ k * nIn

instance (nOut nIn k : ℕ) : Decidable (HoleIn nOut nIn k) := by unfold HoleIn; infer_instance

theorem holeLoop_in {nOut nIn : ℕ} (hI : 0 < nIn) {k : ℕ} (h : HoleIn nOut nIn k) :
    holeLoop nOut nIn (k + 1) =
      { iIn := holeF nOut nIn k + 1
        iOut := (holeLoop nOut nIn k).iOut
        tris := (holeLoop nOut nIn k).tris ++ [((holeLoop nOut nIn k).iOut, nOut + holeF nOut nIn k,
          nOut + (holeF nOut nIn k + 1) % nIn)] } := by
  have h' : (holeLoop nOut nIn k).iIn * (nOut + nIn) ≤ k * nIn := h
  rw [holeLoop_succ, holeStep, if_pos ((hole_test hI _ _).2 h')]
  rfl

theorem holeLoop_out {nOut nIn : ℕ} (hI : 0 < nIn) {k : ℕ} (h : ¬ HoleIn nOut nIn k) :
    holeLoop nOut nIn (k + 1) =
      { iIn := holeF nOut nIn k
        iOut := ((holeLoop nOut nIn k).iOut + 1) % nOut
        tris := (holeLoop nOut nIn k).tris ++ [(((holeLoop nOut nIn k).iOut + 1) % nOut,
          (holeLoop nOut nIn k).iOut, nOut + holeF nOut nIn k % nIn)] } := by
  have h2 : ¬ (holeLoop nOut nIn k).iIn * (nOut + nIn) ≤ k * nIn := h
  rw [holeLoop_succ, holeStep, if_neg (fun h' => h2 ((hole_test hI _ _).1 h'))]
  rfl

theorem holeF_succ {nOut nIn : ℕ} (hI : 0 < nIn) (k : ℕ) :
    holeF nOut nIn (k + 1) = holeF nOut nIn k + if HoleIn nOut nIn k then 1 else 0 := by
  by_cases h : HoleIn nOut nIn k
  · rw [if_pos h]
    conv_lhs => unfold holeF
    rw [holeLoop_in hI h]
  · rw [if_neg h]
    conv_lhs => unfold holeF
    rw [holeLoop_out hI h]
    rfl

theorem holeF_zero (nOut nIn : ℕ) : holeF nOut nIn 0 = 0 := rfl

theorem holeF_le {nOut nIn : ℕ} (hI : 0 < nIn) (k : ℕ) : holeF nOut nIn k ≤ k := by
  induction k with
  | zero => simp [holeF_zero]
  | succ k ih => rw [holeF_succ hI]; split <;> omega

/-- The number of inner steps is `⌊(k - 1) n_in / n⌋ + 1`. -/
theorem holeF_bounds {nOut nIn : ℕ} (hI : 0 < nIn) (k : ℕ) :
    1 ≤ holeF nOut nIn (k + 1) ∧
    (holeF nOut nIn (k + 1) - 1) * (nOut + nIn) ≤ k * nIn ∧
    k * nIn < holeF nOut nIn (k + 1) * (nOut + nIn) := by
  induction k with
  | zero =>
    rw [holeF_succ hI, if_pos (by unfold HoleIn; simp [holeF_zero])]
    simp [holeF_zero]; omega
  | succ k ih =>
    obtain ⟨h1, h2, h3⟩ := ih
    rw [holeF_succ hI (k + 1)]
    set f := holeF nOut nIn (k + 1) with hf
    by_cases h : HoleIn nOut nIn (k + 1)
    · rw [if_pos h]
      have h' : f * (nOut + nIn) ≤ (k + 1) * nIn := h
      refine ⟨by omega, by simpa using h', ?_⟩
      nlinarith
    · rw [if_neg h]
      have h' : ¬ f * (nOut + nIn) ≤ (k + 1) * nIn := h
      refine ⟨by omega, ?_, by simpa using h'⟩
      simp only [add_zero]
      calc (f - 1) * (nOut + nIn) ≤ k * nIn := h2
        _ ≤ (k + 1) * nIn := by nlinarith

/-- In the end there were `n_in` inner steps. -/
theorem holeF_end {nOut nIn : ℕ} (hI : 0 < nIn) : holeF nOut nIn (nOut + nIn) = nIn := by
  obtain ⟨m, hm⟩ : ∃ m, nOut + nIn = m + 1 := ⟨nOut + nIn - 1, by omega⟩
  obtain ⟨h1, h2, h3⟩ := holeF_bounds (nOut := nOut) hI m
  rw [hm] at h2 h3 ⊢
  generalize holeF nOut nIn (m + 1) = f at h1 h2 h3 ⊢
  obtain ⟨g, rfl⟩ : ∃ g, f = g + 1 := ⟨f - 1, by omega⟩
  simp only [Nat.add_sub_cancel] at h2
  have hle : nIn ≤ m + 1 := by omega
  have a : g < nIn := by
    by_contra hc
    push Not at hc
    nlinarith
  have b : nIn < g + 2 := by
    by_contra hc
    push Not at hc
    nlinarith
  omega

theorem holeF_mono {nOut nIn : ℕ} (hI : 0 < nIn) {i j : ℕ} (h : i ≤ j) :
    holeF nOut nIn i ≤ holeF nOut nIn j := by
  induction j, h using Nat.le_induction with
  | base => rfl
  | succ j _ ih => rw [holeF_succ hI]; omega

theorem holeO_succ {nOut nIn : ℕ} (hI : 0 < nIn) (k : ℕ) :
    holeO nOut nIn (k + 1) = holeO nOut nIn k + if HoleIn nOut nIn k then 0 else 1 := by
  have := holeF_le (nOut := nOut) hI k
  unfold holeO
  rw [holeF_succ hI]
  split <;> omega

theorem holeO_mono {nOut nIn : ℕ} (hI : 0 < nIn) {i j : ℕ} (h : i ≤ j) :
    holeO nOut nIn i ≤ holeO nOut nIn j := by
  induction j, h using Nat.le_induction with
  | base => rfl
  | succ j _ ih => rw [holeO_succ hI]; omega

theorem holeO_end {nOut nIn : ℕ} (hI : 0 < nIn) : holeO nOut nIn (nOut + nIn) = nOut := by
  unfold holeO; rw [holeF_end hI]; omega

theorem holeF_lt {nOut nIn : ℕ} (hI : 0 < nIn) {k : ℕ} (hk : k < nOut + nIn)
    (h : HoleIn nOut nIn k) : holeF nOut nIn k < nIn := by
  have := holeF_mono (nOut := nOut) hI (show k + 1 ≤ nOut + nIn by omega)
  rw [holeF_succ hI, if_pos h, holeF_end hI] at this
  omega

theorem holeO_lt {nOut nIn : ℕ} (hI : 0 < nIn) {k : ℕ} (hk : k < nOut + nIn)
    (h : ¬ HoleIn nOut nIn k) : holeO nOut nIn k < nOut := by
  have := holeO_mono (nOut := nOut) hI (show k + 1 ≤ nOut + nIn by omega)
  rw [holeO_succ hI, if_neg h, holeO_end hI] at this
  omega

theorem hole_iOut {nOut nIn : ℕ} (hI : 0 < nIn) (hO : 0 < nOut) (k : ℕ) :
    (holeLoop nOut nIn k).iOut = holeO nOut nIn k % nOut := by
  induction k with
  | zero => simp [holeO, holeLoop]
  | succ k ih =>
    rw [holeO_succ hI]
    by_cases h : HoleIn nOut nIn k
    · rw [if_pos h, holeLoop_in hI h]; simpa using ih
    · rw [if_neg h, holeLoop_out hI h]
      simp only [ih]
      rw [Nat.add_mod, Nat.mod_mod, ← Nat.add_mod]

/-- The triangle added in pass `i`. -/
def holeTri (nOut nIn i : ℕ) : Tri :=
  if HoleIn nOut nIn i then
    (holeO nOut nIn i % nOut, nOut + holeF nOut nIn i % nIn, nOut + (holeF nOut nIn i + 1) % nIn)
  else ((holeO nOut nIn i + 1) % nOut, holeO nOut nIn i % nOut, nOut + holeF nOut nIn i % nIn)

theorem hole_tris {nOut nIn : ℕ} (hI : 0 < nIn) (hO : 0 < nOut) (k : ℕ) (hk : k ≤ nOut + nIn) :
    (holeLoop nOut nIn k).tris = (List.range k).map (holeTri nOut nIn) := by
  induction k with
  | zero => simp [holeLoop]
  | succ k ih =>
    rw [List.range_succ, List.map_append, List.map_singleton, holeTri]
    by_cases h : HoleIn nOut nIn k
    · rw [holeLoop_in hI h, if_pos h, ih (by omega), hole_iOut hI hO]
      have := holeF_lt hI (by omega) h
      rw [Nat.mod_eq_of_lt this]
    · rw [holeLoop_out hI h, if_neg h, ih (by omega), hole_iOut hI hO]
      simp only [List.append_cancel_left_eq, List.cons.injEq, Prod.mk.injEq, and_true, true_and]
      rw [Nat.add_mod, Nat.mod_mod, ← Nat.add_mod]

/-- The line from outer point to inner point in front of triangle `i`. -/
def holeSpoke (nOut nIn i : ℕ) : ℕ × ℕ :=
  (holeO nOut nIn i % nOut, nOut + holeF nOut nIn i % nIn)

/-- The edge of triangle `i` that is part of a boundary. -/
def holeRim (nOut nIn i : ℕ) : ℕ × ℕ :=
  if HoleIn nOut nIn i then
    (nOut + holeF nOut nIn i % nIn, nOut + (holeF nOut nIn i + 1) % nIn)
  else ((holeO nOut nIn i + 1) % nOut, holeO nOut nIn i % nOut)

theorem holeTri_edges {nOut nIn : ℕ} (hI : 0 < nIn) (i : ℕ) :
    (holeTri nOut nIn i).edges.Perm
      [holeSpoke nOut nIn i, holeRim nOut nIn i, (holeSpoke nOut nIn (i + 1)).swap] := by
  unfold holeTri holeRim holeSpoke Tri.edges
  rw [holeF_succ hI, holeO_succ hI]
  by_cases h : HoleIn nOut nIn i
  · simp [if_pos h]
  · simp only [if_neg h, Prod.swap_prod_mk, add_zero]
    exact List.Perm.swap _ _ _

theorem holeSpoke_end {nOut nIn : ℕ} (hI : 0 < nIn) :
    holeSpoke nOut nIn (nOut + nIn) = holeSpoke nOut nIn 0 := by
  unfold holeSpoke; rw [holeF_end hI, holeO_end hI]; simp [holeF_zero, holeO]

theorem planeWithHole_ok {outer inner : List V3} (hI : inner ≠ []) (hO : outer ≠ []) :
    planeWithHole outer inner = .ok (outer ++ inner,
      (List.range (outer.length + inner.length)).map (holeTri outer.length inner.length)) := by
  have h1 : 0 < inner.length := List.length_pos_iff.2 hI
  have h2 : 0 < outer.length := List.length_pos_iff.2 hO
  unfold planeWithHole
  rw [if_neg (by omega), hole_tris h1 h2 _ le_rfl]

/-- How often an edge occurs, pass by pass. -/
theorem holeTri_count {nOut nIn : ℕ} (hI : 0 < nIn) (m a b : ℕ) :
    edgeCount ((List.range m).map (holeTri nOut nIn)) a b =
      ∑ i ∈ Finset.range m, ((if holeSpoke nOut nIn i = (a, b) then 1 else 0) +
        (if holeRim nOut nIn i = (a, b) then 1 else 0) +
        (if holeSpoke nOut nIn (i + 1) = (b, a) then 1 else 0)) := by
  unfold edgeCount allEdges
  induction m with
  | zero => simp
  | succ m ih =>
    rw [Finset.sum_range_succ, ← ih, List.range_succ]
    simp only [List.map_append, List.flatMap_append, List.count_append, List.map_singleton,
      List.flatMap_singleton]
    rw [(holeTri_edges hI m).count_eq]
    have hs : ((holeSpoke nOut nIn (m + 1)).swap = (a, b)) ↔ holeSpoke nOut nIn (m + 1) = (b, a) := by
      rw [← Prod.swap_inj]; simp
    simp only [List.count_cons, List.count_nil, beq_iff_eq, hs]
    ring

theorem sum_in {nOut nIn : ℕ} (hI : 0 < nIn) (k m : ℕ) :
    (∑ i ∈ Finset.range m, if HoleIn nOut nIn i ∧ holeF nOut nIn i = k then 1 else 0) =
      if k < holeF nOut nIn m then 1 else 0 := by
  induction m with
  | zero => simp [holeF_zero]
  | succ m ih =>
    rw [Finset.sum_range_succ, ih, holeF_succ hI]
    by_cases h : HoleIn nOut nIn m
    · simp only [h, true_and, if_true]; split_ifs <;> omega
    · simp [h]

theorem sum_out {nOut nIn : ℕ} (hI : 0 < nIn) (k m : ℕ) :
    (∑ i ∈ Finset.range m, if ¬ HoleIn nOut nIn i ∧ holeO nOut nIn i = k then 1 else 0) =
      if k < holeO nOut nIn m then 1 else 0 := by
  induction m with
  | zero => simp [holeO]
  | succ m ih =>
    rw [Finset.sum_range_succ, ih, holeO_succ hI]
    by_cases h : HoleIn nOut nIn m
    · simp [h]
    · simp only [h, not_false_eq_true, true_and, if_false]; split_ifs <;> omega

/-- **C61.** `plane_with_hole` returns all points of both boundaries and one triangle for every
point, with indices that exist. -/
theorem C61_valid (outer inner : List V3) (hO : outer ≠ []) (hI : inner ≠ []) :
    ∃ tris, planeWithHole outer inner = .ok (outer ++ inner, tris) ∧
      tris.length = outer.length + inner.length ∧ ValidTris (outer ++ inner) tris := by
  have h1 : 0 < inner.length := List.length_pos_iff.2 hI
  have h2 : 0 < outer.length := List.length_pos_iff.2 hO
  refine ⟨_, planeWithHole_ok hI hO, by simp, ?_⟩
  intro t ht
  obtain ⟨i, -, rfl⟩ := List.mem_map.1 ht
  have a := Nat.mod_lt (holeO outer.length inner.length i) h2
  have b := Nat.mod_lt (holeO outer.length inner.length i + 1) h2
  have c := Nat.mod_lt (holeF outer.length inner.length i) h1
  have d := Nat.mod_lt (holeF outer.length inner.length i + 1) h1
  rw [List.length_append]
  unfold holeTri
  split <;> exact ⟨by simp only; omega, by simp only; omega, by simp only; omega⟩

/-- **C61.** Every edge of the inner boundary belongs to exactly one triangle, and all of them are
traversed in the order of the points. -/
theorem C61_inner_edges (outer inner : List V3) (hO : outer ≠ []) (hI : inner ≠ [])
    (xyz : List V3) (tris : List Tri) (h : planeWithHole outer inner = .ok (xyz, tris))
    (k : ℕ) (hk : k < inner.length) :
    edgeCount tris (outer.length + k) (outer.length + (k + 1) % inner.length) = 1 := by
  have h1 : 0 < inner.length := List.length_pos_iff.2 hI
  have h2 : 0 < outer.length := List.length_pos_iff.2 hO
  rw [planeWithHole_ok hI hO] at h
  simp only [Except.ok.injEq, Prod.mk.injEq] at h
  rw [← h.2, holeTri_count h1]
  refine Eq.trans ?_ (show (∑ i ∈ Finset.range (outer.length + inner.length),
    if HoleIn outer.length inner.length i ∧ holeF outer.length inner.length i = k then 1 else 0) = 1
    by rw [sum_in h1, holeF_end h1, if_pos hk])
  refine Finset.sum_congr rfl fun i hi => ?_
  have hi' := Finset.mem_range.1 hi
  have a := Nat.mod_lt (holeO outer.length inner.length i) h2
  have b := Nat.mod_lt (holeO outer.length inner.length (i + 1)) h2
  have c := Nat.mod_lt (holeO outer.length inner.length i + 1) h2
  have s1 : holeSpoke outer.length inner.length i ≠
      (outer.length + k, outer.length + (k + 1) % inner.length) := by
    simp only [holeSpoke, ne_eq, Prod.mk.injEq]; omega
  have s2 : holeSpoke outer.length inner.length (i + 1) ≠
      (outer.length + (k + 1) % inner.length, outer.length + k) := by
    simp only [holeSpoke, ne_eq, Prod.mk.injEq]; omega
  rw [if_neg s1, if_neg s2]
  unfold holeRim
  by_cases hh : HoleIn outer.length inner.length i
  · have := holeF_lt h1 hi' hh
    simp only [hh, if_true, true_and, Prod.mk.injEq, Nat.add_left_cancel_iff, zero_add, add_zero,
      Nat.mod_eq_of_lt this]
    by_cases hf : holeF outer.length inner.length i = k
    · simp [hf]
    · simp [hf]
  · simp only [hh, if_false, false_and, Prod.mk.injEq]
    rw [if_neg (by omega)]

/-- **C61.** Every edge of the outer boundary belongs to exactly one triangle, and all of them are
traversed against the order of the points: the hole lies on the other side. -/
theorem C61_outer_edges (outer inner : List V3) (hO : outer ≠ []) (hI : inner ≠ [])
    (xyz : List V3) (tris : List Tri) (h : planeWithHole outer inner = .ok (xyz, tris))
    (k : ℕ) (hk : k < outer.length) :
    edgeCount tris ((k + 1) % outer.length) k = 1 := by
  have h1 : 0 < inner.length := List.length_pos_iff.2 hI
  have h2 : 0 < outer.length := List.length_pos_iff.2 hO
  rw [planeWithHole_ok hI hO] at h
  simp only [Except.ok.injEq, Prod.mk.injEq] at h
  rw [← h.2, holeTri_count h1]
  refine Eq.trans ?_ (show (∑ i ∈ Finset.range (outer.length + inner.length),
    if ¬ HoleIn outer.length inner.length i ∧ holeO outer.length inner.length i = k then 1 else 0) = 1
    by rw [sum_out h1, holeO_end h1, if_pos hk])
  refine Finset.sum_congr rfl fun i hi => ?_
  have hi' := Finset.mem_range.1 hi
  have a := Nat.mod_lt (k + 1) h2
  have s1 : holeSpoke outer.length inner.length i ≠ ((k + 1) % outer.length, k) := by
    simp only [holeSpoke, ne_eq, Prod.mk.injEq]; omega
  have s2 : holeSpoke outer.length inner.length (i + 1) ≠ (k, (k + 1) % outer.length) := by
    simp only [holeSpoke, ne_eq, Prod.mk.injEq]; omega
  rw [if_neg s1, if_neg s2]
  unfold holeRim
  by_cases hh : HoleIn outer.length inner.length i
  · simp only [hh, if_true, not_true_eq_false, false_and, Prod.mk.injEq]
    rw [if_neg (by omega)]; simp
  · have := holeO_lt h1 hi' hh
    simp only [hh, if_false, not_false_eq_true, true_and, Prod.mk.injEq, zero_add, add_zero,
      Nat.mod_eq_of_lt this]
    by_cases hf : holeO outer.length inner.length i = k
    · simp [hf]
    · simp [hf]

/-- **C61.** Neighbouring triangles (the last one and the first one included) share an edge from the
outer to the inner boundary and traverse it in opposite directions: all triangles have the same
orientation. -/
theorem C61_neighbours (outer inner : List V3) (hO : outer ≠ []) (hI : inner ≠ [])
    (xyz : List V3) (tris : List Tri) (h : planeWithHole outer inner = .ok (xyz, tris))
    (i : ℕ) (hi : i < tris.length) :
    ∃ (t u : Tri) (a b : ℕ), tris[i]? = some t ∧ tris[(i + 1) % tris.length]? = some u ∧
      a < outer.length ∧ outer.length ≤ b ∧ b < outer.length + inner.length ∧
      (b, a) ∈ t.edges ∧ (a, b) ∈ u.edges := by
  have h1 : 0 < inner.length := List.length_pos_iff.2 hI
  have h2 : 0 < outer.length := List.length_pos_iff.2 hO
  rw [planeWithHole_ok hI hO] at h
  simp only [Except.ok.injEq, Prod.mk.injEq] at h
  obtain ⟨-, rfl⟩ := h
  simp only [List.length_map, List.length_range] at hi ⊢
  set n := outer.length + inner.length with hn
  refine ⟨holeTri outer.length inner.length i, holeTri outer.length inner.length ((i + 1) % n),
    (holeSpoke outer.length inner.length (i + 1)).1, (holeSpoke outer.length inner.length (i + 1)).2,
    ?_, ?_, ?_, ?_, ?_, ?_, ?_⟩
  · simp [hi]
  · have := Nat.mod_lt (i + 1) (show 0 < n by omega)
    simp [this]
  · exact Nat.mod_lt _ h2
  · simp [holeSpoke]
  · have := Nat.mod_lt (holeF outer.length inner.length (i + 1)) h1
    simp only [holeSpoke]; omega
  · rw [(holeTri_edges h1 i).mem_iff]; simp [Prod.swap]
  · rw [(holeTri_edges h1 _).mem_iff]
    have : holeSpoke outer.length inner.length ((i + 1) % n) =
        holeSpoke outer.length inner.length (i + 1) := by
      rcases Nat.lt_or_ge (i + 1) n with hlt | hge
      · rw [Nat.mod_eq_of_lt hlt]
      · have : i + 1 = n := by omega
        rw [this, Nat.mod_self, hn, holeSpoke_end h1]
    rw [this]; simp

/-- **C61.** Every other edge of a triangle runs between the boundaries and is used as often in one
direction as in the other: nothing is left open. -/
theorem C61_closed (outer inner : List V3) (hO : outer ≠ []) (hI : inner ≠ [])
    (xyz : List V3) (tris : List Tri) (h : planeWithHole outer inner = .ok (xyz, tris))
    (a b : ℕ) (ha : a < outer.length) (hb : outer.length ≤ b) :
    edgeCount tris a b = edgeCount tris b a := by
  have h1 : 0 < inner.length := List.length_pos_iff.2 hI
  have h2 : 0 < outer.length := List.length_pos_iff.2 hO
  rw [planeWithHole_ok hI hO] at h
  simp only [Except.ok.injEq, Prod.mk.injEq] at h
  obtain ⟨-, rfl⟩ := h
  rw [holeTri_count h1, holeTri_count h1]
  have hrim : ∀ i, holeRim outer.length inner.length i ≠ (a, b) ∧
      holeRim outer.length inner.length i ≠ (b, a) := by
    intro i
    have c := Nat.mod_lt (holeO outer.length inner.length i + 1) h2
    have d := Nat.mod_lt (holeO outer.length inner.length i) h2
    unfold holeRim
    split <;> simp only [ne_eq, Prod.mk.injEq] <;> omega
  have hsp : ∀ i, holeSpoke outer.length inner.length i ≠ (b, a) := by
    intro i
    have d := Nat.mod_lt (holeO outer.length inner.length i) h2
    simp only [holeSpoke, ne_eq, Prod.mk.injEq]; omega
  have e1 : ∀ i, ((if holeSpoke outer.length inner.length i = (a, b) then 1 else 0) +
        (if holeRim outer.length inner.length i = (a, b) then 1 else 0) +
        (if holeSpoke outer.length inner.length (i + 1) = (b, a) then 1 else 0)) =
        (if holeSpoke outer.length inner.length i = (a, b) then 1 else 0) := by
    intro i; rw [if_neg (hrim i).1, if_neg (hsp (i + 1))]; simp
  have e2 : ∀ i, ((if holeSpoke outer.length inner.length i = (b, a) then 1 else 0) +
        (if holeRim outer.length inner.length i = (b, a) then 1 else 0) +
        (if holeSpoke outer.length inner.length (i + 1) = (a, b) then 1 else 0)) =
        (if holeSpoke outer.length inner.length (i + 1) = (a, b) then 1 else 0) := by
    intro i; rw [if_neg (hrim i).2, if_neg (hsp i)]; simp
  simp only [e1, e2]
  set f : ℕ → ℕ := fun i => if holeSpoke outer.length inner.length i = (a, b) then 1 else 0
  set n := outer.length + inner.length
  change ∑ i ∈ Finset.range n, f i = ∑ i ∈ Finset.range n, f (i + 1)
  have h3 := Finset.sum_range_succ f n
  have h4 := Finset.sum_range_succ' f n
  have h5 : f n = f 0 := by simp only [f, n]; rw [holeSpoke_end h1]
  omega

/-- Only edges along the boundaries and edges between the boundaries occur. -/
theorem C61_no_other_edges (outer inner : List V3) (hO : outer ≠ []) (hI : inner ≠ [])
    (xyz : List V3) (tris : List Tri) (h : planeWithHole outer inner = .ok (xyz, tris))
    (a b : ℕ) (hab : (a, b) ∈ allEdges tris) :
    (a < outer.length ∧ outer.length ≤ b) ∨ (b < outer.length ∧ outer.length ≤ a) ∨
    (∃ k < inner.length, a = outer.length + k ∧ b = outer.length + (k + 1) % inner.length) ∨
    (∃ k < outer.length, a = (k + 1) % outer.length ∧ b = k) := by
  have h1 : 0 < inner.length := List.length_pos_iff.2 hI
  have h2 : 0 < outer.length := List.length_pos_iff.2 hO
  rw [planeWithHole_ok hI hO] at h
  simp only [Except.ok.injEq, Prod.mk.injEq] at h
  obtain ⟨-, rfl⟩ := h
  simp only [allEdges, List.mem_flatMap, List.mem_map, List.mem_range] at hab
  obtain ⟨t, ⟨i, hi, rfl⟩, ht⟩ := hab
  rw [(holeTri_edges h1 i).mem_iff] at ht
  simp only [List.mem_cons, List.not_mem_nil, or_false] at ht
  have sp := Nat.mod_lt (holeO outer.length inner.length i) h2
  have sp' := Nat.mod_lt (holeO outer.length inner.length (i + 1)) h2
  rcases ht with ht | ht | ht
  · simp only [holeSpoke, Prod.mk.injEq] at ht; left; omega
  · unfold holeRim at ht
    by_cases hh : HoleIn outer.length inner.length i
    · rw [if_pos hh] at ht
      simp only [Prod.mk.injEq] at ht
      have hlt := holeF_lt h1 hi hh
      refine Or.inr (Or.inr (Or.inl ⟨_, hlt, ?_, ht.2⟩))
      rw [ht.1, Nat.mod_eq_of_lt hlt]
    · rw [if_neg hh] at ht
      simp only [Prod.mk.injEq] at ht
      have hlt := holeO_lt h1 hi hh
      refine Or.inr (Or.inr (Or.inr ⟨_, hlt, ht.1, ?_⟩))
      rw [ht.2, Nat.mod_eq_of_lt hlt]
  · simp only [holeSpoke, Prod.swap_prod_mk, Prod.mk.injEq] at ht; right; left; omega

theorem holeSpoke_inj {nOut nIn : ℕ} (hI : 2 ≤ nIn) (hO : 2 ≤ nOut) {i j : ℕ} (hij : i < j)
    (hj : j < nOut + nIn) : holeSpoke nOut nIn i ≠ holeSpoke nOut nIn j := by
  have h0 : 0 < nIn := by omega
  intro h
  simp only [holeSpoke, Prod.mk.injEq, Nat.add_left_cancel_iff] at h
  obtain ⟨hO', hF'⟩ := h
  have fm := holeF_mono (nOut := nOut) h0 hij.le
  have om := holeO_mono (nOut := nOut) h0 hij.le
  have fe := holeF_mono (nOut := nOut) h0 hj.le
  have oe := holeO_mono (nOut := nOut) h0 hj.le
  rw [holeF_end h0] at fe
  rw [holeO_end h0] at oe
  have si : holeO nOut nIn i + holeF nOut nIn i = i := by
    have := holeF_le (nOut := nOut) h0 i; unfold holeO; omega
  have sj : holeO nOut nIn j + holeF nOut nIn j = j := by
    have := holeF_le (nOut := nOut) h0 j; unfold holeO; omega
  have key : ∀ {N x y : ℕ}, x ≤ y → y ≤ N → x % N = y % N → x = y ∨ (x = 0 ∧ y = N) := by
    intro N x y hxy hyN h
    rcases Nat.lt_or_ge y N with hlt | hge
    · rw [Nat.mod_eq_of_lt hlt, Nat.mod_eq_of_lt (by omega)] at h; exact Or.inl h
    · have hy : y = N := by omega
      subst hy
      rw [Nat.mod_self] at h
      rcases Nat.lt_or_ge x y with hlt | hge
      · rw [Nat.mod_eq_of_lt hlt] at h; exact Or.inr ⟨h, rfl⟩
      · exact Or.inl (by omega)
  have fpos : ∀ k, 1 ≤ k → 1 ≤ holeF nOut nIn k := by
    intro k hk
    obtain ⟨m, rfl⟩ : ∃ m, k = m + 1 := ⟨k - 1, by omega⟩
    exact (holeF_bounds h0 m).1
  rcases key fm fe hF' with hf | ⟨hf0, hf1⟩
  · rcases key om oe hO' with ho | ⟨ho0, ho1⟩
    · omega
    · have hi : 1 ≤ i := by
        by_contra hc
        have : 1 ≤ holeF nOut nIn j := fpos j (by omega)
        omega
      obtain ⟨m, rfl⟩ : ∃ m, i = m + 1 := ⟨i - 1, by omega⟩
      obtain ⟨-, b2, -⟩ := holeF_bounds (nOut := nOut) h0 m
      have e1 : holeF nOut nIn (m + 1) = m + 1 := by omega
      rw [e1] at b2
      simp only [Nat.add_sub_cancel] at b2
      have hm : m = 0 := by
        by_contra hc
        have : 1 ≤ m := by omega
        nlinarith
      subst hm
      obtain ⟨-, -, b3⟩ := holeF_bounds (nOut := nOut) h0 nOut
      have e2 : j = nOut + 1 := by omega
      rw [← e2, ← hf, e1] at b3
      obtain ⟨u, rfl⟩ : ∃ u, nOut = u + 2 := ⟨nOut - 2, by omega⟩
      obtain ⟨v, rfl⟩ : ∃ v, nIn = v + 2 := ⟨nIn - 2, by omega⟩
      nlinarith
  · have hi : i = 0 := by
      by_contra hc
      have := fpos i (by omega)
      omega
    subst hi
    rcases key om oe hO' with ho | ⟨ho0, ho1⟩
    · have e : j = nIn := by omega
      obtain ⟨m, rfl⟩ : ∃ m, j = m + 1 := ⟨j - 1, by omega⟩
      obtain ⟨-, b2, -⟩ := holeF_bounds (nOut := nOut) h0 m
      rw [hf1, ← e] at b2
      simp only [Nat.add_sub_cancel] at b2
      have : 1 ≤ m := by omega
      nlinarith
    · omega

/-- **C61.** If both boundaries have at least two points, no edge between the boundaries is used
twice in the same direction; with `C61_closed` every such edge belongs to no triangle or to exactly
two. -/
theorem C61_two_triangles (outer inner : List V3) (hO : 2 ≤ outer.length) (hI : 2 ≤ inner.length)
    (xyz : List V3) (tris : List Tri) (h : planeWithHole outer inner = .ok (xyz, tris))
    (a b : ℕ) (ha : a < outer.length) (hb : outer.length ≤ b) :
    edgeCount tris a b ≤ 1 ∧ edgeCount tris b a ≤ 1 := by
  have h1 : 0 < inner.length := by omega
  have h2 : 0 < outer.length := by omega
  have hO' : outer ≠ [] := List.length_pos_iff.1 h2
  have hI' : inner ≠ [] := List.length_pos_iff.1 h1
  rw [← C61_closed outer inner hO' hI' xyz tris h a b ha hb]
  rw [planeWithHole_ok hI' hO'] at h
  simp only [Except.ok.injEq, Prod.mk.injEq] at h
  obtain ⟨-, rfl⟩ := h
  rw [and_self, holeTri_count h1]
  have hrim : ∀ i, holeRim outer.length inner.length i ≠ (a, b) := by
    intro i
    have c := Nat.mod_lt (holeO outer.length inner.length i + 1) h2
    have d := Nat.mod_lt (holeO outer.length inner.length i) h2
    unfold holeRim
    split <;> simp only [ne_eq, Prod.mk.injEq] <;> omega
  have hsp : ∀ i, holeSpoke outer.length inner.length i ≠ (b, a) := by
    intro i
    have d := Nat.mod_lt (holeO outer.length inner.length i) h2
    simp only [holeSpoke, ne_eq, Prod.mk.injEq]; omega
  have e1 : ∀ i, ((if holeSpoke outer.length inner.length i = (a, b) then 1 else 0) +
        (if holeRim outer.length inner.length i = (a, b) then 1 else 0) +
        (if holeSpoke outer.length inner.length (i + 1) = (b, a) then 1 else 0)) =
        (if holeSpoke outer.length inner.length i = (a, b) then 1 else 0) := by
    intro i; rw [if_neg (hrim i), if_neg (hsp (i + 1))]; simp
  simp only [e1]
  rw [← Finset.sum_filter, Finset.sum_const, smul_eq_mul, mul_one]
  refine Finset.card_le_one.2 fun i hi j hj => ?_
  simp only [Finset.mem_filter, Finset.mem_range] at hi hj
  rcases Nat.lt_trichotomy i j with hlt | heq | hgt
  · exact absurd (hi.2.trans hj.2.symm) (holeSpoke_inj hI hO hlt hj.1)
  · exact heq
  · exact absurd (hj.2.trans hi.2.symm) (holeSpoke_inj hI hO hgt hi.1)

/-- Contribution of an edge to the area. -/
def edgeArea (n : V3) (xyz : List V3) (e : ℕ × ℕ) : ℝ :=
  n.dot ((corner xyz e.1).cross (corner xyz e.2))

theorem edgeArea_swap (n : V3) (xyz : List V3) (e : ℕ × ℕ) :
    edgeArea n xyz e.swap = - edgeArea n xyz e := by
  simp only [edgeArea, Prod.fst_swap, Prod.snd_swap, V3.dot, V3.cross_x, V3.cross_y, V3.cross_z]
  ring

theorem seenArea_edges (n : V3) (xyz : List V3) (t : Tri) :
    seenArea n (corner xyz t.1) (corner xyz t.2.1) (corner xyz t.2.2) =
      (t.edges.map (edgeArea n xyz)).sum := by
  simp only [seenArea, Tri.edges, List.map_cons, List.map_nil, List.sum_cons, List.sum_nil, edgeArea,
    V3.dot, V3.cross_x, V3.cross_y, V3.cross_z, V3.sub_x, V3.sub_y, V3.sub_z]
  ring

theorem sum_rim {nOut nIn : ℕ} (hI : 0 < nIn) (w : ℕ × ℕ → ℝ) (m : ℕ) :
    ∑ i ∈ Finset.range m, w (holeRim nOut nIn i) =
      (∑ k ∈ Finset.range (holeF nOut nIn m), w (nOut + k % nIn, nOut + (k + 1) % nIn)) +
      ∑ k ∈ Finset.range (holeO nOut nIn m), w ((k + 1) % nOut, k % nOut) := by
  induction m with
  | zero => simp [holeF_zero, holeO]
  | succ m ih =>
    rw [Finset.sum_range_succ, ih, holeF_succ hI, holeO_succ hI]
    unfold holeRim
    by_cases h : HoleIn nOut nIn m
    · simp only [h, if_true, add_zero]; rw [Finset.sum_range_succ]; ring
    · simp only [h, if_false, add_zero]; rw [Finset.sum_range_succ]; ring

theorem list_sum_range (f : ℕ → ℝ) (m : ℕ) :
    ((List.range m).map f).sum = ∑ i ∈ Finset.range m, f i := by
  induction m with
  | zero => simp
  | succ m ih => rw [List.range_succ, List.map_append, List.sum_append, ih, Finset.sum_range_succ]; simp

/-- **C61.** From every direction, the areas of the triangles add up to the area between the two
boundaries (with the sign of the orientation): nothing inside the hole is filled and nothing
between the boundaries is left out. -/
theorem C61_area (outer inner : List V3) (hO : outer ≠ []) (hI : inner ≠ [])
    (xyz : List V3) (tris : List Tri) (h : planeWithHole outer inner = .ok (xyz, tris)) (n : V3) :
    (tris.map fun t => seenArea n (corner xyz t.1) (corner xyz t.2.1) (corner xyz t.2.2)).sum =
      polygonArea n inner - polygonArea n outer := by
  have h1 : 0 < inner.length := List.length_pos_iff.2 hI
  have h2 : 0 < outer.length := List.length_pos_iff.2 hO
  rw [planeWithHole_ok hI hO] at h
  simp only [Except.ok.injEq, Prod.mk.injEq] at h
  obtain ⟨rfl, rfl⟩ := h
  set X := edgeArea n (outer ++ inner) with hX
  have tri : ∀ i, seenArea n (corner (outer ++ inner) (holeTri outer.length inner.length i).1)
      (corner (outer ++ inner) (holeTri outer.length inner.length i).2.1)
      (corner (outer ++ inner) (holeTri outer.length inner.length i).2.2) =
      X (holeSpoke outer.length inner.length i) - X (holeSpoke outer.length inner.length (i + 1)) +
        X (holeRim outer.length inner.length i) := by
    intro i
    rw [seenArea_edges, ((holeTri_edges h1 i).map X).sum_eq]
    simp only [List.map_cons, List.map_nil, List.sum_cons, List.sum_nil]
    rw [hX, edgeArea_swap]; ring
  rw [List.map_map]
  simp only [Function.comp_def, tri]
  rw [list_sum_range, Finset.sum_add_distrib, Finset.sum_range_sub', holeSpoke_end h1, sub_self,
    zero_add, sum_rim h1, holeF_end h1, holeO_end h1]
  unfold polygonArea
  rw [list_sum_range, list_sum_range, sub_eq_add_neg, ← Finset.sum_neg_distrib]
  have cin : ∀ k, k < inner.length →
      corner (outer ++ inner) (outer.length + k) = corner inner k := by
    intro k _; simp [corner, List.getD_eq_getElem?_getD, List.getElem?_append_right]
  have cout : ∀ k, k < outer.length → corner (outer ++ inner) k = corner outer k := by
    intro k hk; simp [corner, List.getD_eq_getElem?_getD, List.getElem?_append_left hk]
  congr 1
  · refine Finset.sum_congr rfl fun k hk => ?_
    have hk' := Finset.mem_range.1 hk
    rw [Nat.mod_eq_of_lt hk']
    simp only [hX, edgeArea]
    rw [cin k hk', cin _ (Nat.mod_lt _ h1)]
  · refine Finset.sum_congr rfl fun k hk => ?_
    have hk' := Finset.mem_range.1 hk
    rw [Nat.mod_eq_of_lt hk', show (((k + 1) % outer.length, k) : ℕ × ℕ) =
      ((k, (k + 1) % outer.length) : ℕ × ℕ).swap from rfl, hX, edgeArea_swap]
    simp only [edgeArea]
    rw [cout k hk', cout _ (Nat.mod_lt _ h2)]

/-- The triangles of the docstring example (`marxs/visualization/utils.py:230-243`): four outer and
four inner points. -/
example : (holeLoop 4 4 8).tris = [(0, 4, 5), (1, 0, 5), (1, 5, 6), (2, 1, 6), (2, 6, 7), (3, 2, 7),
    (3, 7, 4), (0, 3, 4)] := by decide +kernel

/-- Hypotheses of C61 are met by a triangle with a square cut out. -/
example : ([⟨0, 0, 0⟩, ⟨9, 0, 0⟩, ⟨0, 9, 0⟩] : List V3) ≠ [] ∧
    ([⟨1, 1, 0⟩, ⟨2, 1, 0⟩, ⟨2, 2, 0⟩, ⟨1, 2, 0⟩] : List V3) ≠ [] ∧
    2 ≤ ([⟨0, 0, 0⟩, ⟨9, 0, 0⟩, ⟨0, 9, 0⟩] : List V3).length := by simp

/-- Without inner points the function fails. -/
theorem C61_no_hole (outer : List V3) (hO : outer ≠ []) :
    planeWithHole outer [] = .error .zeroDivision := by
  have : outer.length ≠ 0 := by simpa using hO
  simp [planeWithHole, this]

end Marxs
