import Verif.Spec.Tolerancing
import Verif.Props.Placement
import Mathlib.Tactic.LinearCombination

/-!
# Properties C52, C66: tolerancing moves
-/

namespace Marxs
open Matrix

/-! ## C66 -/

theorem isRotation_mul {a b : M3} (ha : IsRotation a) (hb : IsRotation b) : IsRotation (a * b) := by
  refine ⟨?_, by rw [det_mul, ha.2, hb.2, one_mul]⟩
  rw [transpose_mul, Matrix.mul_assoc, ← Matrix.mul_assoc aᵀ, ha.1, Matrix.one_mul, hb.1]

theorem euX_rotation (a : ℝ) : IsRotation (euX a) := by
  have h := Real.sin_sq_add_cos_sq a
  constructor
  · ext i j
    fin_cases i <;> fin_cases j <;>
      simp [euX, Matrix.mul_apply, Fin.sum_univ_three, Matrix.transpose_apply] <;>
      first | linear_combination h | (ring_nf; done) | skip
  · rw [det_fin_three]; simp [euX]; linear_combination h

theorem euY_rotation (a : ℝ) : IsRotation (euY a) := by
  have h := Real.sin_sq_add_cos_sq a
  constructor
  · ext i j
    fin_cases i <;> fin_cases j <;>
      simp [euY, Matrix.mul_apply, Fin.sum_univ_three, Matrix.transpose_apply] <;>
      first | linear_combination h | (ring_nf; done) | skip
  · rw [det_fin_three]; simp [euY]; linear_combination h

theorem euZ_rotation (a : ℝ) : IsRotation (euZ a) := by
  have h := Real.sin_sq_add_cos_sq a
  constructor
  · ext i j
    fin_cases i <;> fin_cases j <;>
      simp [euZ, Matrix.mul_apply, Fin.sum_univ_three, Matrix.transpose_apply] <;>
      first | linear_combination h | (ring_nf; done) | skip
  · rw [det_fin_three]; simp [euZ]; linear_combination h

theorem euler2mat_rotation (a b c : ℝ) : IsRotation (euler2mat a b c) :=
  isRotation_mul (euZ_rotation c) (isRotation_mul (euY_rotation b) (euX_rotation a))

theorem compose_hom (t : Fin 3 → ℝ) (r : M3) (p : Fin 3 → ℝ) :
    compose t r ![1, 1, 1] *ᵥ hom p = hom (r *ᵥ p + t) := by
  ext i
  fin_cases i <;> simp [compose, hom, Matrix.mulVec, dotProduct, Fin.sum_univ_four, Fin.sum_univ_three]

theorem moveMat_rigid (p : Dof) : IsRigid (moveMat p) :=
  ⟨_, _, euler2mat_rotation _ _ _, compose_hom _ _⟩

theorem rotation_norm {r : M3} (hr : IsRotation r) (v : Fin 3 → ℝ) :
    dotf (r *ᵥ v) (r *ᵥ v) = dotf v v := by
  have e : ∀ v w : Fin 3 → ℝ, dotf v w = v ⬝ᵥ w := by
    intro v w; simp [dotf, dotProduct, Fin.sum_univ_three]
  rw [e, e, Matrix.dotProduct_mulVec, Matrix.vecMul_mulVec, hr.1, Matrix.vecMul_one]

/-- **C66** Every matrix made by `generate_facet_uncertainty` is a rigid motion, for every number of
facets, all standard deviations and offsets and all draws; there is one matrix for each facet. The
function fails exactly if a standard deviation is negative. -/
theorem C66_rigid (n : ℕ) (xyz angle tOff rOff : Fin 3 → ℝ) (zt zr : ℕ → Fin 3 → ℝ) :
    (∀ us, generateFacetUncertainty n xyz angle tOff rOff zt zr = .ok us →
      us.length = n ∧ ∀ u ∈ us, IsRigid u) ∧
    ((∃ us, generateFacetUncertainty n xyz angle tOff rOff zt zr = .ok us) ↔
      (∀ k, 0 ≤ xyz k) ∧ (∀ k, 0 ≤ angle k)) := by
  constructor
  · intro us h
    unfold generateFacetUncertainty at h
    split at h
    · cases h
    cases h
    refine ⟨by simp, ?_⟩
    intro u hu
    obtain ⟨⟨t, a⟩, _, rfl⟩ := List.mem_map.1 hu
    exact ⟨_, _, euler2mat_rotation _ _ _, compose_hom _ _⟩
  · unfold generateFacetUncertainty
    split
    · rename_i hh
      simp only [reduceCtorEq, exists_false, false_iff, not_and_or, not_forall, not_le]
      exact hh
    · rename_i hh
      simp only [not_or, not_exists, not_lt] at hh
      simp [hh]

/-- **C66** A rigid motion preserves the distance between any two points, maps points to points and
preserves handedness (determinant of the matrix is one). -/
theorem C66_isometry {m : M4} (h : IsRigid m) (p q : Fin 3 → ℝ) :
    sqDist (m *ᵥ hom p) (m *ᵥ hom q) = sqDist (hom p) (hom q) ∧ (m *ᵥ hom p) 3 = 1 ∧
    (∀ d : Fin 3 → Fin 3 → ℝ,
      (Matrix.of fun i k => (m *ᵥ hom (d i)) k.castSucc - (m *ᵥ hom 0) k.castSucc).det =
        (Matrix.of d).det) := by
  obtain ⟨t, r, hr, hm⟩ := h
  rw [hm, hm]
  refine ⟨?_, by simp [hom], ?_⟩
  · have e := rotation_norm hr (p - q)
    rw [Matrix.mulVec_sub] at e
    simp only [dotf, Pi.sub_apply] at e
    simp only [sqDist, hom, Matrix.cons_val_zero, Matrix.cons_val_one, Matrix.cons_val, Pi.add_apply]
    linear_combination e
  · intro d
    have : (Matrix.of fun i (k : Fin 3) => (m *ᵥ hom (d i)) k.castSucc - (m *ᵥ hom 0) k.castSucc) =
        Matrix.of d * rᵀ := by
      ext i k
      rw [Matrix.of_apply, hm, hm, Matrix.mulVec_zero, zero_add]
      have : ∀ v : Fin 3 → ℝ, hom v k.castSucc = v k := by
        intro v; fin_cases k <;> simp [hom]
      rw [this, this]
      simp [Matrix.mul_apply, Matrix.mulVec, dotProduct, Fin.sum_univ_three, mul_comm]
    rw [this, det_mul, det_transpose, hr.2, mul_one]

/-- **C66** Standard deviation and offset decide the size: facet `i` is displaced by offset plus standard
deviation times its own standard normal draw, in each coordinate. -/
theorem C66_displacement {n : ℕ} {xyz angle tOff rOff : Fin 3 → ℝ} {zt zr : ℕ → Fin 3 → ℝ} {us : List M4}
    (h : generateFacetUncertainty n xyz angle tOff rOff zt zr = .ok us) {i : ℕ} {u : M4}
    (hu : us[i]? = some u) :
    u *ᵥ hom 0 = hom (fun k => tOff k + xyz k * zt i k) ∧
    ∀ p, u *ᵥ hom p = hom (euZ (rOff 2 + angle 2 * zr i 2) *ᵥ (euY (rOff 1 + angle 1 * zr i 1) *ᵥ
      (euX (rOff 0 + angle 0 * zr i 0) *ᵥ p)) + fun k => tOff k + xyz k * zt i k) := by
  unfold generateFacetUncertainty at h
  split at h
  · cases h
  cases h
  simp only [List.getElem?_map, List.zip_map', Option.map_map] at hu
  have hi : i < n := by
    by_contra hn
    rw [List.getElem?_eq_none (by simp; omega)] at hu
    simp at hu
  simp only [hi, List.getElem?_range, Option.map_some, Option.some.injEq, Function.comp] at hu
  subst hu
  constructor
  · rw [compose_hom, Matrix.mulVec_zero, zero_add]
  · intro p
    rw [compose_hom, euler2mat, Matrix.mulVec_mulVec, Matrix.mulVec_mulVec, Matrix.mul_assoc]

example : ∃ us, generateFacetUncertainty 2 ![1, 0, 3] ![0, 2, 0] 0 0 (fun i _ => i) (fun i _ => i + 1) = .ok us ∧
    us.length = 2 := by
  obtain ⟨us, h⟩ := (C66_rigid 2 ![1, 0, 3] ![0, 2, 0] 0 0 (fun i _ => i) (fun i _ => i + 1)).2.2
    ⟨by intro k; fin_cases k <;> norm_num, by intro k; fin_cases k <;> norm_num⟩
  exact ⟨us, h, ((C66_rigid _ _ _ _ _ _ _).1 us h).1⟩

/-! ## C52 -/

theorem moveMat_zero : moveMat Dof.zero = 1 := by
  ext i j
  fin_cases i <;> fin_cases j <;>
    simp [moveMat, Dof.zero, compose, euler2mat, euX, euY, euZ, Matrix.mul_apply, Fin.sum_univ_three]

theorem generate_length {dec : M4 → Decomp} {c : Par} {es : List GenElem}
    (h : generateElements dec c = .ok es) : es.length = c.elemPos.length :=
  (genFrom_spec h).1

theorem regenerate_ok {dec : M4 → Decomp} {c : Par} {e : ParState}
    (h : ParState.regenerate dec c = .ok e) : e.par = c ∧ generateElements dec c = .ok e.elements := by
  unfold ParState.regenerate at h
  split at h
  · cases h
  · cases h; exact ⟨rfl, by assumption⟩

/-- the matrices made by `wiggle` -/
theorem wiggle_unc {n : ℕ} {p : Dof} {zt zr : ℕ → Fin 3 → ℝ} {us : List M4}
    (h : generateFacetUncertainty n ![p.dx, p.dy, p.dz] ![p.rx, p.ry, p.rz] 0 0 zt zr = .ok us) :
    some us = (ParOp.wiggle p zt zr).misalign n := by
  unfold generateFacetUncertainty at h
  split at h
  · cases h
  cases h
  simp only [ParOp.misalign, List.zip_map', List.map_map, Option.some.injEq, List.map_inj_left]
  intro i _
  simp only [Function.comp, moveMat]
  congr 1
  · ext k; fin_cases k <;> simp
  · simp

/-- State of a container after one call. -/
theorem parOp_ok {dec : M4 → Decomp} {e e' : ParState} {o : ParOp} (h : o.run dec e = .ok e') :
    e'.par = { e.par with
      uncertainty := ((lastGlobal [o]).map moveMat).getD e.par.uncertainty
      elemUncertainty := (o.misalign e.elements.length).getD e.par.elemUncertainty } ∧
    generateElements dec e'.par = .ok e'.elements := by
  cases o with
  | global p =>
    obtain ⟨h1, h2⟩ := regenerate_ok h
    rw [h1]
    exact ⟨by simp [lastGlobal, ParOp.misalign], h2⟩
  | individual p =>
    obtain ⟨h1, h2⟩ := regenerate_ok h
    rw [h1]
    exact ⟨by simp [lastGlobal, ParOp.misalign], h2⟩
  | wiggle p zt zr =>
    simp only [ParOp.run, wiggle] at h
    split at h
    · cases h
    · rename_i us hus
      obtain ⟨h1, h2⟩ := regenerate_ok h
      rw [h1]
      refine ⟨?_, h2⟩
      rw [← wiggle_unc hus]
      simp [lastGlobal]

theorem lastGlobal_cons (o : ParOp) (os : List ParOp) :
    lastGlobal (o :: os) = (lastGlobal os).or (lastGlobal [o]) := by
  cases o <;> simp [lastGlobal, List.getLast?_cons]

theorem lastMisalign_cons (n : ℕ) (o : ParOp) (os : List ParOp) :
    lastMisalign n (o :: os) = (lastMisalign n os).or (o.misalign n) := by
  unfold lastMisalign
  rw [List.filterMap_cons]
  cases o.misalign n with
  | none => simp
  | some x => simp [List.getLast?_cons]

theorem getD_or {α β : Type} (a b : Option α) (f : α → β) (c : β) :
    ((a.or b).map f).getD c = (a.map f).getD ((b.map f).getD c) := by
  cases a <;> cases b <;> simp

/-- **C52** Moves do not accumulate: after any history of `moveglobal`, `moveindividual` and `wiggle`
calls on a `Parallel` object its attributes are the original ones, except for the misalignment of the
whole object, which is that of the last `moveglobal` alone, and the misalignment of the elements, which is
that of the last `moveindividual` or `wiggle` alone; and the elements are those that these attributes
give. -/
theorem C52_last_wins {dec : M4 → Decomp} {e0 e : ParState} {ops : List ParOp}
    (h0 : generateElements dec e0.par = .ok e0.elements) (h : runParOps dec ops e0 = .ok e) :
    e.par = { e0.par with
      uncertainty := ((lastGlobal ops).map moveMat).getD e0.par.uncertainty
      elemUncertainty := (lastMisalign e0.par.elemPos.length ops).getD e0.par.elemUncertainty } ∧
    generateElements dec e.par = .ok e.elements := by
  induction ops generalizing e0 with
  | nil => simp only [runParOps] at h; cases h; exact ⟨by simp [lastGlobal, lastMisalign], h0⟩
  | cons o os ih =>
    simp only [runParOps] at h
    split at h
    · cases h
    rename_i e1 h1
    obtain ⟨p1, p2⟩ := parOp_ok h1
    obtain ⟨i1, i2⟩ := ih p2 h
    refine ⟨?_, i2⟩
    rw [i1, p1, lastGlobal_cons o os, lastMisalign_cons, generate_length h0]
    simp only [getD_or]
    congr 1
    have := getD_or (lastMisalign e0.par.elemPos.length os) (o.misalign e0.par.elemPos.length) id
      e0.par.elemUncertainty
    simp only [Option.map_id_fun, id] at this
    exact this.symm

/-- **C52** Two histories with the same last calls leave the same state. -/
theorem C52_history_irrelevant {dec : M4 → Decomp} {e0 e e' : ParState} {ops ops' : List ParOp}
    (h0 : generateElements dec e0.par = .ok e0.elements) (h : runParOps dec ops e0 = .ok e)
    (h' : runParOps dec ops' e0 = .ok e') (hg : lastGlobal ops = lastGlobal ops')
    (hm : lastMisalign e0.par.elemPos.length ops = lastMisalign e0.par.elemPos.length ops') : e = e' := by
  obtain ⟨a1, a2⟩ := C52_last_wins h0 h
  obtain ⟨b1, b2⟩ := C52_last_wins h0 h'
  rw [hg, hm, ← b1] at a1
  cases e; cases e'
  simp only at a1 a2 b2
  subst a1
  rw [a2] at b2
  cases b2
  rfl

/-- One call on a consistent container works. -/
theorem genFrom_ok {dec : M4 → Decomp} {c : Par} {i n : ℕ}
    (h : ∀ k, k < n → ∃ e, genOne dec c (i + k) = .ok e) : ∃ es, genFrom dec c i n = .ok es := by
  induction n generalizing i with
  | zero => exact ⟨[], rfl⟩
  | succ n ih =>
    obtain ⟨e, he⟩ := h 0 (by omega)
    obtain ⟨es, hes⟩ := ih (i := i + 1) (by
      intro k hk
      obtain ⟨e, he⟩ := h (k + 1) (by omega)
      exact ⟨e, by rw [show i + 1 + k = i + (k + 1) by omega]; exact he⟩)
    refine ⟨e :: es, ?_⟩
    simp only [Nat.add_zero] at he
    simp [genFrom, he, hes]

theorem misalign_spec {n : ℕ} {o : ParOp} {us : List M4} (h : o.misalign n = some us) :
    us.length = n ∧ ∀ u ∈ us, ∃ p, u = moveMat p := by
  cases o with
  | global p => simp [ParOp.misalign] at h
  | individual p =>
    simp only [ParOp.misalign, Option.some.injEq] at h
    subst h
    refine ⟨by simp, fun u hu => ⟨p, (List.mem_replicate.1 hu).2⟩⟩
  | wiggle p zt zr =>
    simp only [ParOp.misalign, Option.some.injEq] at h
    subst h
    refine ⟨by simp, fun u hu => ?_⟩
    obtain ⟨i, _, rfl⟩ := List.mem_map.1 hu
    exact ⟨_, rfl⟩

theorem generate_changed {dec : M4 → Decomp} (hdec : DecExact dec) {c : Par} {es : List GenElem}
    (h : generateElements dec c = .ok es) (g : M4) (us : List M4)
    (hus : us = c.elemUncertainty ∨ us.length = c.elemPos.length ∧ ∀ u ∈ us, ∃ p, u = moveMat p) :
    ∃ es', generateElements dec { c with uncertainty := g, elemUncertainty := us } = .ok es' := by
  apply genFrom_ok
  intro k hk
  simp only [Nat.zero_add]
  obtain ⟨hl, hspec⟩ := genFrom_spec h
  have hk' : k < es.length := by rw [hl]; exact hk
  have := hspec k es[k] (List.getElem?_eq_getElem hk')
  rw [Nat.zero_add] at this
  obtain ⟨m, p, u, h1, h2, h3, h4, h5, _, _⟩ := genOne_ok this
  have : ∃ u', us[k]? = some u' ∧ (dec u').s = 0 := by
    rcases hus with rfl | ⟨hu1, hu2⟩
    · exact ⟨u, h3, h5⟩
    · have hk2 : k < us.length := by rw [hu1]; exact hk
      refine ⟨us[k], List.getElem?_eq_getElem hk2, ?_⟩
      obtain ⟨q, hq⟩ := hu2 us[k] (List.getElem_mem hk2)
      rw [hq, moveMat, hdec _ _ _ (euler2mat_rotation _ _ _) (by intro i; fin_cases i <;> simp)]
  obtain ⟨u', hu', hs⟩ := this
  refine ⟨⟨placeElem c.pos4d g (dec u') (dec p) (dec m), c.idNumOffset + k, es[k].args⟩, ?_⟩
  simp [genOne, h1, h2, hu', h4, hs]

/-- **C52** The calls never fail: on a container that could be made, every history of calls (with
standard deviations that are not negative) goes through. -/
theorem C52_never_fails {dec : M4 → Decomp} (hdec : DecExact dec) {e0 : ParState} {ops : List ParOp}
    (h0 : generateElements dec e0.par = .ok e0.elements) (hv : ∀ o ∈ ops, o.Valid) :
    ∃ e, runParOps dec ops e0 = .ok e := by
  induction ops generalizing e0 with
  | nil => exact ⟨e0, rfl⟩
  | cons o os ih =>
    have : ∃ e1, o.run dec e0 = .ok e1 := by
      have key : ∀ g us, (us = e0.par.elemUncertainty ∨
          us.length = e0.par.elemPos.length ∧ ∀ u ∈ us, ∃ p, u = moveMat p) →
          ∃ e1, ParState.regenerate dec { e0.par with uncertainty := g, elemUncertainty := us } = .ok e1 := by
        intro g us hus
        obtain ⟨es, hes⟩ := generate_changed hdec h0 g us hus
        exact ⟨_, by unfold ParState.regenerate; rw [hes]⟩
      cases o with
      | global p => exact key (moveMat p) e0.par.elemUncertainty (Or.inl rfl)
      | individual p =>
        refine key e0.par.uncertainty _ (Or.inr ?_)
        have := misalign_spec (n := e0.par.elemPos.length) (o := .individual p) rfl
        rw [generate_length h0]
        exact this
      | wiggle p zt zr =>
        have hval := hv (.wiggle p zt zr) (by simp)
        simp only [ParOp.Valid] at hval
        obtain ⟨us, hus⟩ := (C66_rigid e0.elements.length ![p.dx, p.dy, p.dz] ![p.rx, p.ry, p.rz] 0 0 zt zr).2.2
          ⟨by intro k; fin_cases k <;> simp [hval], by intro k; fin_cases k <;> simp [hval]⟩
        simp only [ParOp.run, wiggle, hus]
        refine key e0.par.uncertainty us (Or.inr ?_)
        have := misalign_spec (wiggle_unc hus).symm
        rw [generate_length h0] at this
        exact this
    obtain ⟨e1, h1⟩ := this
    obtain ⟨e, he⟩ := ih (parOp_ok h1).2 (fun o ho => hv o (by simp [ho]))
    exact ⟨e, by simp [runParOps, h1, he]⟩

/-- **C52, statement about the reset**: `moveglobal` and `moveindividual` with all parameters zero restore
the original state, whatever was done before. -/
def C52_reset_statement (dec : M4 → Decomp) : Prop :=
  ∀ (e0 e : ParState) (ops : List ParOp), generateElements dec e0.par = .ok e0.elements →
    runParOps dec (ops ++ [.global Dof.zero, .individual Dof.zero]) e0 = .ok e → e = e0

/-- **C52** (partial) The reset works for a container that had no misalignments to begin with. Missing
from the full statement: containers which are made with an `uncertainty` or `elem_uncertainty`, for which
it is false (`C52_reset_false`). -/
theorem C52_reset_partial {dec : M4 → Decomp} {e0 e : ParState} {ops : List ParOp}
    (h0 : generateElements dec e0.par = .ok e0.elements) (hu : e0.par.uncertainty = 1)
    (he : e0.par.elemUncertainty = List.replicate e0.par.elemPos.length 1)
    (h : runParOps dec (ops ++ [.global Dof.zero, .individual Dof.zero]) e0 = .ok e) : e = e0 := by
  obtain ⟨a1, a2⟩ := C52_last_wins h0 h
  have g : lastGlobal (ops ++ [.global Dof.zero, .individual Dof.zero]) = some Dof.zero := by
    simp [lastGlobal, List.filterMap_append]
  have m : lastMisalign e0.par.elemPos.length (ops ++ [.global Dof.zero, .individual Dof.zero]) =
      some (List.replicate e0.par.elemPos.length (moveMat Dof.zero)) := by
    simp [lastMisalign, List.filterMap_append, ParOp.misalign, List.filterMap_cons]
  rw [g, m] at a1
  simp only [Option.map_some, Option.getD_some, moveMat_zero] at a1
  have : e.par = e0.par := by rw [a1, ← he, ← hu]
  rw [this, h0] at a2
  cases e; cases e0
  simp only at this a2
  cases a2
  subst this
  rfl

/-- example container without misalignment -/
theorem exState : ∃ e0 : ParState, generateElements decompose44 e0.par = .ok e0.elements ∧
    e0.par.uncertainty = 1 ∧ e0.par.elemUncertainty = List.replicate e0.par.elemPos.length 1 ∧
    e0.elements.length = 2 := by
  obtain ⟨es, h⟩ := exPar_ok
  exact ⟨⟨exPar, es⟩, h, rfl, rfl, generate_length h⟩

example : ∃ (e0 e : ParState) (ops : List ParOp), generateElements decompose44 e0.par = .ok e0.elements ∧
    ops.length = 3 ∧ runParOps decompose44 (ops ++ [.global Dof.zero, .individual Dof.zero]) e0 = .ok e := by
  obtain ⟨e0, h0, _, _, _⟩ := exState
  have hv : ∀ o ∈ [ParOp.global ⟨1, 2, 3, 4, 5, 6⟩, .individual ⟨1, 0, 0, 0, 0, 1⟩,
      .wiggle ⟨1, 1, 1, 0, 0, 0⟩ 1 1] ++ [.global Dof.zero, .individual Dof.zero], o.Valid := by
    simp [ParOp.Valid]
  obtain ⟨e, he⟩ := C52_never_fails decompose44_exact h0 hv
  exact ⟨e0, e, _, h0, rfl, he⟩

/-- **C52** A container that is made with a misalignment loses it for good by the "reset". -/
theorem C52_reset_false : ¬ C52_reset_statement decompose44 := by
  intro hst
  obtain ⟨e0, h0, hu, he, _⟩ := exState
  obtain ⟨e1, h1⟩ := C52_never_fails decompose44_exact h0 (ops := [.global ⟨1, 0, 0, 0, 0, 0⟩])
    (by simp [ParOp.Valid])
  obtain ⟨a1, a2⟩ := C52_last_wins h0 h1
  obtain ⟨e2, h2⟩ := C52_never_fails decompose44_exact a2
    (ops := [] ++ [.global Dof.zero, .individual Dof.zero]) (by simp [ParOp.Valid])
  have := hst e1 e2 [] a2 h2
  obtain ⟨b1, _⟩ := C52_last_wins a2 h2
  rw [this] at b1
  have c := congrArg Par.uncertainty b1
  rw [a1] at c
  simp only [lastGlobal, List.filterMap_cons, List.filterMap_nil, List.getLast?_singleton, Option.map_some,
    Option.getD_some, List.nil_append, moveMat_zero] at c
  have := congrFun (congrFun c 0) 3
  simp [moveMat, compose] at this

/-- **C52** What `moveglobal` does to the elements of a container without misalignment: the rigid motion
is applied to every element in the coordinate system of the container. -/
theorem C52_global_effect {dec : M4 → Decomp} {e0 e : ParState} {p : Dof}
    (h0 : generateElements dec e0.par = .ok e0.elements) (hu : e0.par.uncertainty = 1)
    (hdet : e0.par.pos4d.det ≠ 0) (h : moveGlobal dec p e0 = .ok e) {i : ℕ} {a b : GenElem}
    (ha : e0.elements[i]? = some a) (hb : e.elements[i]? = some b) :
    b.pos4d = e0.par.pos4d * moveMat p * e0.par.pos4d⁻¹ * a.pos4d ∧ b.idNum = a.idNum ∧ b.args = a.args := by
  obtain ⟨h1, h2⟩ := regenerate_ok h
  obtain ⟨m, q, u, c1, c2, c3, _, _, c4, c5⟩ := genOne_ok ((genFrom_spec h0).2 i a ha)
  obtain ⟨m', q', u', d1, d2, d3, _, _, d4, d5⟩ := genOne_ok ((genFrom_spec h2).2 i b hb)
  simp only [Nat.zero_add] at *
  rw [c1] at d1; rw [c2] at d2; rw [c3] at d3
  simp only [Option.some.injEq] at d2 d3
  simp only [Except.ok.injEq, Prod.mk.injEq] at d1
  obtain ⟨rfl, d1⟩ := d1
  subst d2 d3
  refine ⟨?_, by rw [c5, d5], d1.symm⟩
  rw [c4, d4, hu]
  have hcancel : e0.par.pos4d⁻¹ * e0.par.pos4d = 1 :=
    Matrix.nonsing_inv_mul _ (isUnit_iff_ne_zero.2 hdet)
  have key : ∀ x : M4, x = e0.par.pos4d⁻¹ * (e0.par.pos4d * x) := by
    intro x; rw [← Matrix.mul_assoc, hcancel, Matrix.one_mul]
  simp only [placeElem, List.reverse_cons, List.reverse_nil, List.nil_append, List.cons_append,
    List.foldl_cons, List.foldl_nil, Matrix.mul_one, Matrix.one_mul, Matrix.mul_assoc]
  rw [← key]

/-- **C52** `moveelem`: after any history of calls on an element which was not moved before, its position
is that of the last call applied to the original position. -/
theorem C52_moveelem_last_wins (g : GeoState) (hg : g.orig = none) (ps : List Dof) (p : Dof) :
    ((ps ++ [p]).foldl (fun g q => moveElem q g) g).pos4d = moveMat p * g.pos4d := by
  have inv : ∀ (ps : List Dof) (g' : GeoState),
      (g'.orig = none ∧ g'.pos4d = g.pos4d ∨ g'.orig = some g.pos4d) →
      ((ps.foldl (fun g q => moveElem q g) g').orig = none ∧
        (ps.foldl (fun g q => moveElem q g) g').pos4d = g.pos4d ∨
        (ps.foldl (fun g q => moveElem q g) g').orig = some g.pos4d) := by
    intro ps
    induction ps with
    | nil => intro g' h; exact h
    | cons q qs ih =>
      intro g' h
      refine ih _ (Or.inr ?_)
      rcases h with ⟨h1, h2⟩ | h1 <;> simp [moveElem, h1]
      exact h2
  rw [List.foldl_append, List.foldl_cons, List.foldl_nil]
  have := inv ps g (Or.inl ⟨hg, rfl⟩)
  generalize ps.foldl (fun g q => moveElem q g) g = g' at this
  rcases this with ⟨h1, h2⟩ | h1
  · simp [moveElem, h1, h2]
  · simp [moveElem, h1]

/-- **C52** `moveelem` with all parameters zero restores the original position. -/
theorem C52_moveelem_reset (g : GeoState) (hg : g.orig = none) (ps : List Dof) :
    ((ps ++ [Dof.zero]).foldl (fun g q => moveElem q g) g).pos4d = g.pos4d := by
  rw [C52_moveelem_last_wins g hg, moveMat_zero, Matrix.one_mul]

/-- **C52** The stored original position is never updated: a change of the position between two calls by
other means is lost. -/
theorem C52_moveelem_discards_changes (g : GeoState) (p q : Dof) (m : M4) :
    moveElem q { moveElem p g with pos4d := m } = moveElem q (moveElem p g) := by
  simp [moveElem]

example : ∃ g : GeoState, g.orig = none ∧ (moveElem ⟨1, 0, 0, 0, 0, 0⟩ g).pos4d ≠ g.pos4d := by
  refine ⟨⟨1, none⟩, rfl, ?_⟩
  intro h
  have := congrFun (congrFun h 0) 3
  simp [moveElem, moveMat, compose] at this

end Marxs
