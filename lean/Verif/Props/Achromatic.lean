import Verif.Spec.Achromatic
import Verif.Props.PolPath

/-!
# C185: instruments without gratings are achromatic
-/

namespace Marxs
open Classical

/-- the photon with another energy and another probability -/
def Ray.tint (e : ℝ) (q : Option ℝ) (r : Ray) : Ray := { r with energy := e, prob := q }

theorem sameRay_iff (r r' : Ray) : SameRay r r' ↔ ∃ e q, r' = r.tint e q := by
  obtain ⟨pos, dir, pol, prob, energy, order, blaze, coos⟩ := r
  obtain ⟨pos', dir', pol', prob', energy', order', blaze', coos'⟩ := r'
  constructor
  · rintro ⟨h1, h2, h3, h4, h5, h6⟩
    simp only at h1 h2 h3 h4 h5 h6
    subst h1 h2 h3 h4 h5 h6
    exact ⟨energy', prob', rfl⟩
  · rintro ⟨e, q, h⟩
    simp only [Ray.tint, Ray.mk.injEq] at h
    obtain ⟨h1, h2, h3, -, -, h4, h5, h6⟩ := h
    exact ⟨h1.symm, h2.symm, h3.symm, h4.symm, h5.symm, h6.symm⟩

theorem perfectLens_energy (m : M4) (fl do' : ℝ) (refl : ℝ → ℝ → ℝ) (d pol q : H4) (e e' : ℝ) :
    (perfectLens m fl do' refl d pol q e).map LensOut.dir = (perfectLens m fl do' refl d pol q e').map LensOut.dir ∧
    (perfectLens m fl do' refl d pol q e).bind LensOut.pol = (perfectLens m fl do' refl d pol q e').bind LensOut.pol := by
  unfold perfectLens
  simp only
  split_ifs <;> exact ⟨rfl, rfl⟩

theorem tint_step (e : ℝ) (q : Option ℝ) (o : Optic) (ho : o.NoGrating) (r a b : Ray) (ha : o.step r = .ok a) (hb : o.step (r.tint e q) = .ok b) :
    ∃ q', b = a.tint e q' := by
  have hh : ∀ m, (r.tint e q).hit m = r.hit m := fun _ => rfl
  have e1 : (r.tint e q).energy = e := rfl
  have e2 : (r.tint e q).dir = r.dir := rfl
  have e3 : (r.tint e q).pos = r.pos := rfl
  have e4 : (r.tint e q).pol = r.pol := rfl
  cases o with
  | plane m =>
    simp only [Optic.step, hh] at ha hb
    rcases h : r.hit m with _ | ⟨d, x, y, z, s⟩ <;> rw [h] at ha hb <;> cases ha <;> cases hb <;> exact ⟨_, rfl⟩
  | tube m zoomz lim0 lim1 =>
    simp only [Optic.step, e2, e3] at ha hb
    rcases h1 : r.dir with _ | d <;> rcases h2 : r.pos with _ | s <;> rw [h1, h2] at ha hb
    · cases ha
    · cases ha
    · simp only at ha hb
      split_ifs at ha hb
      cases ha; cases hb; exact ⟨_, rfl⟩
    · simp only at ha hb
      rcases h3 : cylIntersect m zoomz lim0 lim1 d s with e | _ | ⟨x, y, z⟩ <;> rw [h3] at ha hb <;> cases ha <;> cases hb <;> exact ⟨_, rfl⟩
  | filter m f =>
    simp only [Optic.step, hh, e1] at ha hb
    rcases h : r.hit m with _ | ⟨d, x, y, z, s⟩ <;> rw [h] at ha hb
    · cases ha; cases hb; exact ⟨_, rfl⟩
    · simp only at ha hb
      rcases hf : filterValue f r.energy with _ | v <;> rcases hf' : filterValue f e with _ | v' <;> rw [hf] at ha <;> rw [hf'] at hb <;> cases ha <;> cases hb <;> exact ⟨_, rfl⟩
  | globalFilter f =>
    simp only [Optic.step, e1] at ha hb
    rcases hf : filterValue f r.energy with _ | v <;> rcases hf' : filterValue f e with _ | v' <;> rw [hf] at ha <;> rw [hf'] at hb <;> cases ha <;> cases hb <;> exact ⟨_, rfl⟩
  | lens m focallength dOptax refl =>
    simp only [Optic.step, hh, e1, e4] at ha hb
    rcases h : r.hit m with _ | ⟨d, x, y, z, s⟩ <;> rw [h] at ha hb
    · cases ha; cases hb; exact ⟨_, rfl⟩
    · have k : (r.pol.bind fun pol => perfectLens m focallength dOptax refl d pol x e).bind LensOut.pol =
          (r.pol.bind fun pol => perfectLens m focallength dOptax refl d pol x r.energy).bind LensOut.pol := by
        rcases r.pol with _ | pol
        · rfl
        · exact (perfectLens_energy _ _ _ _ _ _ _ _ _).2
      simp only [k, (perfectLens_energy m focallength dOptax refl d ⟨0, 0, 0, 0⟩ x e r.energy).1] at hb
      cases ha; cases hb
      exact ⟨_, rfl⟩
  | thin m focallength =>
    simp only [Optic.step, hh, e4] at ha hb
    rcases h : r.hit m with _ | ⟨d, x, y, z, s⟩ <;> rw [h] at ha hb <;> cases ha <;> cases hb <;> exact ⟨_, rfl⟩
  | grating m transmission cat groove per blazeMod order => exact ho.elim
  | mirror m rs rp =>
    simp only [Optic.step, hh, e4] at ha hb
    rcases h : r.hit m with _ | ⟨d, x, y, z, s⟩ <;> rw [h] at ha hb
    · cases ha; cases hb; exact ⟨_, rfl⟩
    · simp only at ha hb
      rcases hp : r.pol with _ | pol <;> rw [hp] at ha hb
      · cases ha; cases hb
        exact ⟨_, rfl⟩
      · simp only at ha hb
        rcases hbr : brewster m rs rp d pol with x | _ | out <;> rw [hbr] at ha hb <;> cases ha <;> cases hb <;> exact ⟨_, rfl⟩
  | scatter m inAngle perpAngle =>
    simp only [Optic.step, hh, e4] at ha hb
    rcases h : r.hit m with _ | ⟨d, x, y, z, s⟩ <;> rw [h] at ha hb <;> cases ha <;> cases hb <;> exact ⟨_, rfl⟩
  | propagate distance => cases ha; cases hb; exact ⟨_, rfl⟩

/-- **C185** In an instrument without gratings photons of all energies take the same path and have the same polarization. -/
theorem C185_path (os : List Optic) (ho : ∀ o ∈ os, o.NoGrating) (r r' a a' : Ray) (h : SameRay r r') (ha : runOptics os r = .ok a) (ha' : runOptics os r' = .ok a') :
    SameRay a a' := by
  induction os generalizing r r' with
  | nil => cases ha; cases ha'; exact h
  | cons o os ih =>
    simp only [runOptics] at ha ha'
    rcases h1 : o.step r with e | b
    · rw [h1] at ha; cases ha
    rcases h2 : o.step r' with e | b'
    · rw [h2] at ha'; cases ha'
    rw [h1] at ha; rw [h2] at ha'
    obtain ⟨e, q, rfl⟩ := (sameRay_iff _ _).1 h
    obtain ⟨q', k⟩ := tint_step e q o (ho o List.mem_cons_self) r b b' h1 h2
    exact ih (fun o ho' => ho o (List.mem_cons_of_mem _ ho')) b b' ((sameRay_iff _ _).2 ⟨e, q', k⟩) ha ha'

/-- the photon with another energy -/
def Ray.atEnergy (e : ℝ) (r : Ray) : Ray := { r with energy := e }

theorem grey_noGrating (o : Optic) (h : o.Grey) : o.NoGrating := by cases o <;> first | exact h | trivial

theorem atEnergy_step (e : ℝ) (o : Optic) (ho : o.Grey) (r : Ray) : o.step (r.atEnergy e) = (o.step r).map (Ray.atEnergy e) := by
  have hh : ∀ m, (r.atEnergy e).hit m = r.hit m := fun _ => rfl
  have e1 : (r.atEnergy e).energy = e := rfl
  have e2 : (r.atEnergy e).dir = r.dir := rfl
  have e3 : (r.atEnergy e).pos = r.pos := rfl
  have e4 : (r.atEnergy e).pol = r.pol := rfl
  cases o with
  | plane m => simp only [Optic.step, hh]; rcases r.hit m with _ | ⟨d, q, y, z, p⟩ <;> rfl
  | tube m zoomz lim0 lim1 =>
    simp only [Optic.step, e2, e3]
    rcases r.dir with _ | d <;> rcases r.pos with _ | p
    · rfl
    · rfl
    · simp only; split_ifs <;> rfl
    · simp only
      rcases cylIntersect m zoomz lim0 lim1 d p with e | _ | ⟨q, y, z⟩ <;> rfl
  | filter m f =>
    have hf : filterValue f e = filterValue f r.energy := by rw [filterValue, filterValue, ho e r.energy]
    simp only [Optic.step, hh, e1, hf]
    rcases r.hit m with _ | ⟨d, q, y, z, p⟩
    · rfl
    · simp only
      rcases filterValue f r.energy with e | v <;> rfl
  | globalFilter f =>
    have hf : filterValue f e = filterValue f r.energy := by rw [filterValue, filterValue, ho e r.energy]
    simp only [Optic.step, e1, hf]
    rcases filterValue f r.energy with e | v <;> rfl
  | lens m focallength dOptax refl =>
    have hl : ∀ d pol q, perfectLens m focallength dOptax refl d pol q e = perfectLens m focallength dOptax refl d pol q r.energy := fun d pol q => by
      simp only [perfectLens, ho e r.energy]
    simp only [Optic.step, hh, e1, e4, hl]
    rcases r.hit m with _ | ⟨d, q, y, z, p⟩ <;> rfl
  | thin m focallength =>
    simp only [Optic.step, hh]
    rcases r.hit m with _ | ⟨d, q, y, z, p⟩ <;> rfl
  | grating m transmission cat groove per blazeMod order => exact ho.elim
  | mirror m rs rp =>
    simp only [Optic.step, hh, e4]
    rcases r.hit m with _ | ⟨d, q, y, z, p⟩
    · rfl
    · simp only
      rcases r.pol with _ | pol
      · rfl
      · simp only
        rcases brewster m rs rp d pol with e | _ | out <;> rfl
  | scatter m inAngle perpAngle =>
    simp only [Optic.step, hh]
    rcases r.hit m with _ | ⟨d, q, y, z, p⟩ <;> rfl
  | propagate distance => rfl

/-- **C185** If no efficiency depends on the energy either, photons that differ in energy only have the same results, or the same error. -/
theorem C185_grey (os : List Optic) (ho : ∀ o ∈ os, o.Grey) (r r' : Ray) (h : SameButEnergy r r') :
    (∀ e, runOptics os r = .error e ↔ runOptics os r' = .error e) ∧ ∀ a, runOptics os r = .ok a → ∃ a', runOptics os r' = .ok a' ∧ SameButEnergy a a' := by
  have run : ∀ (os : List Optic), (∀ o ∈ os, o.Grey) → ∀ (e : ℝ) (r : Ray), runOptics os (r.atEnergy e) = (runOptics os r).map (Ray.atEnergy e) := by
    intro os ho e r
    induction os generalizing r with
    | nil => rfl
    | cons o os ih =>
      simp only [runOptics, atEnergy_step e o (ho o List.mem_cons_self)]
      rcases o.step r with x | b
      · rfl
      · exact ih (fun o ho' => ho o (List.mem_cons_of_mem _ ho')) b
  obtain ⟨⟨h1, h2, h3, h4, h5, h6⟩, h7⟩ := h
  have e : r' = r.atEnergy r'.energy := by
    obtain ⟨pos, dir, pol, prob, energy, order, blaze, coos⟩ := r
    simp only at h1 h2 h3 h4 h5 h6 h7
    subst h1 h2 h3 h4 h5 h6 h7
    rfl
  rw [e, run os ho]
  rcases runOptics os r with x | b
  · exact ⟨fun e => Iff.rfl, fun a ha => by cases ha⟩
  · exact ⟨fun e => by simp [Except.map], fun a ha => by cases ha; exact ⟨_, rfl, ⟨rfl, rfl, rfl, rfl, rfl, rfl⟩, rfl⟩⟩

/-- **C185** The same for photon lists. -/
theorem C185_list (os : List (ListOptic × ElemCols)) (hc : ∀ o ∈ os, o.2.Fine) (ho : ∀ o ∈ os, ∀ i, (o.1.photon i).NoGrating) (t t' u u' : Table) (ps qs : List Ray)
    (hps : PhotonsOf t ps) (hqs : PhotonsOf u qs) (hpq : List.Forall₂ SameRay ps qs) (h : runList os t = .ok t') (h' : runList os u = .ok u') :
    ∃ ps' qs', PhotonsOf t' ps' ∧ PhotonsOf u' qs' ∧ List.Forall₂ SameRay ps' qs' := by
  obtain ⟨ps', h1, h2, h3⟩ := C163_list os hc t t' h ps hps
  obtain ⟨qs', k1, k2, k3⟩ := C163_list os hc u u' h' qs hqs
  refine ⟨ps', qs', h1, k1, ?_⟩
  have hl := hpq.length_eq
  refine List.forall₂_iff_get.2 ⟨by rw [h2, k2, hl], fun i hi hi' => ?_⟩
  have i1 : i < ps.length := h2 ▸ hi
  have i2 : i < qs.length := k2 ▸ hi'
  obtain ⟨p', e1, e2⟩ := h3 i _ (List.getElem?_eq_getElem i1)
  obtain ⟨q', f1, f2⟩ := k3 i _ (List.getElem?_eq_getElem i2)
  obtain ⟨g1, g2⟩ := List.getElem?_eq_some_iff.1 e1
  obtain ⟨g3, g4⟩ := List.getElem?_eq_some_iff.1 f1
  have := (List.forall₂_iff_get.1 hpq).2 i i1 i2
  simp only [List.get_eq_getElem] at this ⊢
  rw [g2, g4]
  exact C185_path _ (List.forall_mem_map.2 fun o ho' => ho o ho' i) _ _ _ _ this e2 f2

/-- Two photons with different energies that run through two elements. -/
example : ∃ os r r' a a', (∀ o ∈ os, o.Grey) ∧ (∀ o ∈ os, o.NoGrating) ∧ SameButEnergy r r' ∧ r.energy ≠ r'.energy ∧ runOptics os r = .ok a ∧ runOptics os r' = .ok a' := by
  have hg : ∀ o ∈ [Optic.filter 1 fun _ => 1 / 2, .propagate 5], o.Grey := by
    intro o ho
    simp only [List.mem_cons, List.not_mem_nil, or_false] at ho
    rcases ho with rfl | rfl
    · exact fun _ _ => rfl
    · trivial
  have h : SameButEnergy axisRay (axisRay.atEnergy 2) := ⟨⟨rfl, rfl, rfl, rfl, rfl, rfl⟩, rfl⟩
  obtain ⟨a', k1, k2⟩ := (C185_grey _ hg _ _ h).2 _ axisRay_run
  exact ⟨_, axisRay, axisRay.atEnergy 2, _, a', hg, fun o ho => grey_noGrating o (hg o ho), h, by norm_num [axisRay, Ray.atEnergy], axisRay_run, k1⟩

end Marxs
