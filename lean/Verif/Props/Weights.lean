import Verif.Spec.Weights
import Verif.Props.ListChain

/-!
# C177: the weight of a photon has no influence on its path
-/

namespace Marxs
open Classical

theorem weigh_hit (c : ℝ) (r : Ray) (m : M4) : (r.weigh c).hit m = r.hit m := rfl

theorem weigh_at (c : ℝ) (r : Ray) (q : H4) (y z : ℝ) : (r.weigh c).at q y z = (r.at q y z).weigh c := rfl

theorem weigh_times (c : ℝ) (r : Ray) (f : Option ℝ) : (r.weigh c).times f = (r.times f).weigh c := by
  obtain ⟨pos, dir, pol, prob, energy, order, blaze, coos⟩ := r
  cases prob <;> cases f <;> simp [Ray.weigh, Ray.times, mul_assoc]

theorem weigh_step (c : ℝ) (o : Optic) (r : Ray) : o.step (r.weigh c) = (o.step r).map (Ray.weigh c) := by
  cases o with
  | plane m => simp only [Optic.step, weigh_hit]; rcases r.hit m with _ | ⟨d, q, y, z, p⟩ <;> rfl
  | tube m zoomz lim0 lim1 =>
    have e1 : (r.weigh c).dir = r.dir := rfl
    have e2 : (r.weigh c).pos = r.pos := rfl
    simp only [Optic.step, e1, e2]
    rcases r.dir with _ | d <;> rcases r.pos with _ | p
    · rfl
    · rfl
    · simp only; split_ifs <;> rfl
    · simp only
      rcases cylIntersect m zoomz lim0 lim1 d p with e | _ | ⟨q, y, z⟩ <;> rfl
  | filter m f =>
    have e1 : (r.weigh c).energy = r.energy := rfl
    simp only [Optic.step, weigh_hit, e1]
    rcases r.hit m with _ | ⟨d, q, y, z, p⟩
    · rfl
    · simp only
      rcases filterValue f r.energy with e | v
      · rfl
      · simp only [weigh_times, weigh_at]; rfl
  | globalFilter f =>
    have e1 : (r.weigh c).energy = r.energy := rfl
    simp only [Optic.step, e1]
    rcases filterValue f r.energy with e | v
    · rfl
    · simp only [weigh_times]; rfl
  | lens m focallength dOptax refl =>
    simp only [Optic.step, weigh_hit]
    rcases r.hit m with _ | ⟨d, q, y, z, p⟩
    · rfl
    · simp only [Except.map]
      rw [← weigh_at, ← weigh_times]; rfl
  | thin m focallength =>
    simp only [Optic.step, weigh_hit]
    rcases r.hit m with _ | ⟨d, q, y, z, p⟩ <;> rfl
  | grating m transmission cat groove d blazeMod order =>
    simp only [Optic.step, weigh_hit]
    rcases r.hit m with _ | ⟨d, q, y, z, p⟩
    · rfl
    · simp only [Except.map]
      rw [← weigh_at, ← weigh_times]; rfl
  | mirror m rs rp =>
    have e1 : (r.weigh c).pol = r.pol := rfl
    simp only [Optic.step, weigh_hit, e1]
    rcases r.hit m with _ | ⟨d, q, y, z, p⟩
    · rfl
    · simp only
      rcases r.pol with _ | pol
      · simp only [Except.map]
        rw [← weigh_at, ← weigh_times]; rfl
      · simp only
        rcases brewster m rs rp d pol with e | _ | out
        · rfl
        · simp only [Except.map]
          rw [← weigh_at, ← weigh_times]; rfl
        · simp only [Except.map]
          rw [← weigh_at, ← weigh_times]; rfl
  | scatter m inAngle perpAngle =>
    simp only [Optic.step, weigh_hit]
    rcases r.hit m with _ | ⟨d, q, y, z, p⟩ <;> rfl
  | propagate distance => rfl

/-- **C177** A photon that starts with another probability takes the same path through any sequence of elements and has the same properties
at the end, or the same error is raised; its probability is larger by the factor by which it was larger in the beginning. -/
theorem C177_weight (c : ℝ) (os : List Optic) (r : Ray) : runOptics os (r.weigh c) = (runOptics os r).map (Ray.weigh c) := by
  induction os generalizing r with
  | nil => rfl
  | cons o os ih =>
    simp only [runOptics, weigh_step]
    rcases o.step r with e | r'
    · rfl
    · simp only [Except.map]
      exact ih r'

/-- **C177** Thus the probability at the end is that in the beginning times the throughput of the instrument for this photon, which does not
depend on the probability. -/
theorem C177_throughput (os : List Optic) (r r' : Ray) (a : ℝ) (ha : r.prob = some a) (h : runOptics os r = .ok r') :
    ∃ r₁, runOptics os r.certain = .ok r₁ ∧ r' = r₁.weigh a := by
  have e : r = r.certain.weigh a := by
    obtain ⟨pos, dir, pol, prob, energy, order, blaze, coos⟩ := r
    simp only at ha
    subst ha
    simp [Ray.weigh, Ray.certain]
  rw [e, C177_weight] at h
  rcases h1 : runOptics os r.certain with x | r₁
  · rw [h1] at h; cases h
  · rw [h1] at h
    cases h
    exact ⟨r₁, rfl, rfl⟩

/-- **C177** The same for photon lists: if each photon has its own weight in one of two photon lists that are otherwise the same, all
results are the same, and the probabilities differ by these weights. -/
theorem C177_list (w : ℕ → ℝ) (os : List (ListOptic × ElemCols)) (hc : ∀ o ∈ os, o.2.Fine) (t t' u u' : Table) (ps : List Ray)
    (hps : PhotonsOf t ps) (hu : PhotonsOf u (ps.mapIdx fun i p => p.weigh (w i))) (h : runList os t = .ok t') (h' : runList os u = .ok u') :
    ∃ ps', PhotonsOf t' ps' ∧ PhotonsOf u' (ps'.mapIdx fun i p => p.weigh (w i)) := by
  obtain ⟨ps', h1, h2, h3⟩ := C163_list os hc t t' h ps hps
  obtain ⟨qs', k1, k2, k3⟩ := C163_list os hc u u' h' _ hu
  refine ⟨ps', h1, ?_⟩
  have : qs' = ps'.mapIdx fun i p => p.weigh (w i) := by
    refine List.ext_getElem (by simp [k2, h2]) fun i hi hi' => ?_
    have hps : i < ps.length := by simpa [k2] using hi
    obtain ⟨p', e1, e2⟩ := h3 i _ (List.getElem?_eq_getElem hps)
    obtain ⟨q', f1, f2⟩ := k3 i (ps[i].weigh (w i)) (by simp [hps])
    rw [C177_weight, e2] at f2
    cases f2
    obtain ⟨g1, g2⟩ := List.getElem?_eq_some_iff.1 e1
    obtain ⟨g3, g4⟩ := List.getElem?_eq_some_iff.1 f1
    rw [g4, List.getElem_mapIdx, g2]
  rw [← this]; exact k1

/-- Two photon lists with different weights that run through two elements. -/
example : ∃ (w : ℕ → ℝ) (t' u' : Table), (∀ o ∈ twoElements, o.2.Fine) ∧ PhotonsOf (twoTable [axisRay, sideRay]) [axisRay, sideRay] ∧
    PhotonsOf (twoTable [axisRay.weigh (w 0), sideRay.weigh (w 1)]) ([axisRay, sideRay].mapIdx fun i p => p.weigh (w i)) ∧ w 0 ≠ w 1 ∧
    runList twoElements (twoTable [axisRay, sideRay]) = .ok t' ∧
    runList twoElements (twoTable [axisRay.weigh (w 0), sideRay.weigh (w 1)]) = .ok u' := by
  have hf : ∀ o ∈ twoElements, o.2.Fine ∧ o.2.loc ≠ none := by
    intro o ho
    simp only [twoElements, List.mem_cons, List.not_mem_nil, or_false] at ho
    rcases ho with rfl | rfl <;> exact ⟨filterCols_fine, by simp [filterCols]⟩
  have hs : ∀ o ∈ twoElements, ∀ i, (o.1.photon i).Sensible ∧ (o.1.photon i).IsPlaced := by
    intro o ho i
    simp only [twoElements, List.mem_cons, List.not_mem_nil, or_false] at ho
    rcases ho with rfl | rfl <;> simp [ListOptic.photon, Optic.Sensible, Optic.IsPlaced, Placed, Affine]
  have hp := twoTable_photons [axisRay, sideRay] (by simp [axisRay, sideRay])
  have hq := twoTable_photons [axisRay.weigh 2, sideRay.weigh 3] (by simp [Ray.weigh, axisRay, sideRay])
  obtain ⟨t', h⟩ := twoElements_run
  obtain ⟨u', hu⟩ := (C163_runs twoElements hf hs _ _ hq).2 (by
    intro i p hp
    match i with
    | 0 => cases hp; exact ⟨_, by rw [C177_weight]; exact congrArg (Except.map (Ray.weigh 2)) axisRay_run⟩
    | 1 => cases hp; exact ⟨_, by rw [C177_weight]; exact congrArg (Except.map (Ray.weigh 3)) sideRay_run⟩
    | n + 2 => simp at hp)
  exact ⟨fun i => if i = 0 then 2 else 3, t', u', fun o ho => (hf o ho).1, hp, by simpa using hq, by norm_num, h, by simpa using hu⟩

end Marxs
