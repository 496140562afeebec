import Verif.Spec.PolPath
import Verif.Props.ListChain

/-!
# C184: what the polarization of a photon has an influence on
-/

namespace Marxs
open Classical

/-- the photon with another polarization and another probability -/
def Ray.dye (p : Option H4) (q : Option ℝ) (r : Ray) : Ray := { r with pol := p, prob := q }

theorem pathAgrees_iff (r r' : Ray) : PathAgrees r r' ↔ ∃ p q, r' = r.dye p q := by
  obtain ⟨pos, dir, pol, prob, energy, order, blaze, coos⟩ := r
  obtain ⟨pos', dir', pol', prob', energy', order', blaze', coos'⟩ := r'
  constructor
  · rintro ⟨h1, h2, h3, h4, h5, h6⟩
    simp only at h1 h2 h3 h4 h5 h6
    subst h1 h2 h3 h4 h5 h6
    exact ⟨pol', prob', rfl⟩
  · rintro ⟨p, q, h⟩
    simp only [Ray.dye, Ray.mk.injEq] at h
    obtain ⟨h1, h2, -, -, h3, h4, h5, h6⟩ := h
    exact ⟨h1.symm, h2.symm, h3.symm, h4.symm, h5.symm, h6.symm⟩

theorem dye_hit (p : Option H4) (q : Option ℝ) (r : Ray) (m : M4) : (r.dye p q).hit m = r.hit m := rfl

theorem brewster_dir (m : M4) (rs rp : ℝ) (d pol : H4) (out : BrewsterOut) (h : brewster m rs rp d pol = .ok (some out)) :
    d.dot d ≠ 0 ∧ out.dir = mirrorDir m d.unit := by
  unfold brewster at h
  split_ifs at h with h1
  · cases h
  · simp only at h
    split_ifs at h with h2 h3 <;> cases h <;> exact ⟨h1, rfl⟩

/-- all a mirror does to a photon that hits -/
theorem mirror_hit_step (m : M4) (rs rp : ℝ) (r a : Ray) (d q : H4) (y z : ℝ) (p : H4) (hh : r.hit m = some (d, q, y, z, p))
    (h : (Optic.mirror m rs rp).step r = .ok a) : ∃ pol prob, a = ({ r with dir := if d.dot d = 0 then none else some (mirrorDir m d.unit) }.at q y z).dye pol prob := by
  simp only [Optic.step, hh] at h
  rcases hp : r.pol with _ | pol
  · rw [hp] at h; cases h; exact ⟨_, _, rfl⟩
  · rw [hp] at h
    simp only at h
    rcases hb : brewster m rs rp d pol with e | _ | out
    · rw [hb] at h; cases h
    · rw [hb] at h; cases h; exact ⟨_, _, rfl⟩
    · rw [hb] at h
      obtain ⟨b1, b2⟩ := brewster_dir m rs rp d pol out hb
      cases h
      rw [if_neg b1, ← b2]
      exact ⟨_, _, rfl⟩

theorem dye_step (p : Option H4) (q : Option ℝ) (o : Optic) (r a b : Ray) (ha : o.step r = .ok a) (hb : o.step (r.dye p q) = .ok b) :
    ∃ p' q', b = a.dye p' q' := by
  cases o with
  | plane m =>
    simp only [Optic.step, dye_hit] at ha hb
    rcases h : r.hit m with _ | ⟨d, x, y, z, s⟩ <;> rw [h] at ha hb <;> cases ha <;> cases hb <;> exact ⟨_, _, rfl⟩
  | tube m zoomz lim0 lim1 =>
    have e1 : (r.dye p q).dir = r.dir := rfl
    have e2 : (r.dye p q).pos = r.pos := rfl
    simp only [Optic.step, e1, e2] at ha hb
    rcases h1 : r.dir with _ | d <;> rcases h2 : r.pos with _ | s <;> rw [h1, h2] at ha hb
    · cases ha
    · cases ha
    · simp only at ha hb
      split_ifs at ha hb
      cases ha; cases hb; exact ⟨_, _, rfl⟩
    · simp only at ha hb
      rcases h3 : cylIntersect m zoomz lim0 lim1 d s with e | _ | ⟨x, y, z⟩ <;> rw [h3] at ha hb <;> cases ha <;> cases hb <;> exact ⟨_, _, rfl⟩
  | filter m f =>
    have e1 : (r.dye p q).energy = r.energy := rfl
    simp only [Optic.step, dye_hit, e1] at ha hb
    rcases h : r.hit m with _ | ⟨d, x, y, z, s⟩ <;> rw [h] at ha hb
    · cases ha; cases hb; exact ⟨_, _, rfl⟩
    · simp only at ha hb
      rcases hf : filterValue f r.energy with e | v <;> rw [hf] at ha hb <;> cases ha <;> cases hb <;> exact ⟨_, _, rfl⟩
  | globalFilter f =>
    have e1 : (r.dye p q).energy = r.energy := rfl
    simp only [Optic.step, e1] at ha hb
    rcases hf : filterValue f r.energy with e | v <;> rw [hf] at ha hb <;> cases ha <;> cases hb <;> exact ⟨_, _, rfl⟩
  | lens m focallength dOptax refl =>
    simp only [Optic.step, dye_hit] at ha hb
    rcases h : r.hit m with _ | ⟨d, x, y, z, s⟩ <;> rw [h] at ha hb <;> cases ha <;> cases hb <;> exact ⟨_, _, rfl⟩
  | thin m focallength =>
    simp only [Optic.step, dye_hit] at ha hb
    rcases h : r.hit m with _ | ⟨d, x, y, z, s⟩ <;> rw [h] at ha hb <;> cases ha <;> cases hb <;> exact ⟨_, _, rfl⟩
  | grating m transmission cat groove per blazeMod order =>
    simp only [Optic.step, dye_hit] at ha hb
    rcases h : r.hit m with _ | ⟨d, x, y, z, s⟩ <;> rw [h] at ha hb <;> cases ha <;> cases hb <;> exact ⟨_, _, rfl⟩
  | mirror m rs rp =>
    rcases h : r.hit m with _ | ⟨d, x, y, z, s⟩
    · simp only [Optic.step, dye_hit, h] at ha hb
      cases ha; cases hb; exact ⟨_, _, rfl⟩
    · obtain ⟨p1, q1, rfl⟩ := mirror_hit_step m rs rp r a d x y z s h ha
      obtain ⟨p2, q2, rfl⟩ := mirror_hit_step m rs rp (r.dye p q) b d x y z s h hb
      exact ⟨_, _, rfl⟩
  | scatter m inAngle perpAngle =>
    simp only [Optic.step, dye_hit] at ha hb
    rcases h : r.hit m with _ | ⟨d, x, y, z, s⟩ <;> rw [h] at ha hb <;> cases ha <;> cases hb <;> exact ⟨_, _, rfl⟩
  | propagate distance => cases ha; cases hb; exact ⟨_, _, rfl⟩

/-- **C184** Two photons that differ in polarization and probability only take the same path through any sequence of elements, whatever these
elements are: at the end they are at the same place with the same direction, and were diffracted into the same orders. -/
theorem C184_path (os : List Optic) (r r' a a' : Ray) (h : PathAgrees r r') (ha : runOptics os r = .ok a) (ha' : runOptics os r' = .ok a') : PathAgrees a a' := by
  induction os generalizing r r' with
  | nil => cases ha; cases ha'; exact h
  | cons o os ih =>
    simp only [runOptics] at ha ha'
    rcases h1 : o.step r with e | b
    · rw [h1] at ha; cases ha
    rcases h2 : o.step r' with e | b'
    · rw [h2] at ha'; cases ha'
    rw [h1] at ha; rw [h2] at ha'
    obtain ⟨p, q, rfl⟩ := (pathAgrees_iff _ _).1 h
    exact ih b b' ((pathAgrees_iff _ _).2 (dye_step p q o r b b' h1 h2)) ha ha'

theorem parallelTransport_neg (d e p : H4) : parallelTransport d e (-p) = (parallelTransport d e p).map fun v => -v := by
  unfold parallelTransport
  rcases paralleltransportMatrix d.xyz e.xyz 1 true with _ | m
  · rfl
  · simp only [Option.map_some, Option.some.injEq]
    ext <;> simp [mul3, H4.xyz] <;> ring

theorem brewster_neg (m : M4) (rs rp : ℝ) (d p : H4) : brewster m rs rp d (-p) = brewster m rs rp d p := by
  have e : ∀ v : V3, (-p).xyz.dot v ^ 2 = p.xyz.dot v ^ 2 := fun v => by simp [V3.dot, H4.xyz]; ring
  simp only [brewster, e]

/-- flipping the sign of the polarization -/
def Ray.negPol (r : Ray) : Ray := { r with pol := r.pol.map fun v => -v }

theorem negPol_hit (r : Ray) (m : M4) : r.negPol.hit m = r.hit m := rfl

theorem thinLens_neg (m : M4) (f : ℝ) (d p q : H4) : (thinLens m f d (-p) q).map Prod.snd = ((thinLens m f d p q).map Prod.snd).map fun v => -v := by
  unfold thinLens
  simp only
  split_ifs
  · rfl
  · rfl
  · simp only [Option.map_some, Option.some.injEq]
    ext <;> simp [mul3, H4.xyz, V3.toDir] <;> ring

theorem negPol_at (r : Ray) (q : H4) (y z : ℝ) : r.negPol.at q y z = (r.at q y z).negPol := rfl

theorem negPol_times (r : Ray) (f : Option ℝ) : r.negPol.times f = (r.times f).negPol := rfl

theorem negPol_step (o : Optic) (r : Ray) : o.step r.negPol = o.step r ∨ o.step r.negPol = (o.step r).map Ray.negPol := by
  have e1 : r.negPol.energy = r.energy := rfl
  have e2 : r.negPol.dir = r.dir := rfl
  have e3 : r.negPol.pos = r.pos := rfl
  have e4 : r.negPol.pol = r.pol.map fun v => -v := rfl
  cases o with
  | plane m => right; simp only [Optic.step, negPol_hit]; rcases r.hit m with _ | ⟨d, q, y, z, p⟩ <;> rfl
  | tube m zoomz lim0 lim1 =>
    right
    simp only [Optic.step, e2, e3]
    rcases r.dir with _ | d <;> rcases r.pos with _ | p
    · rfl
    · rfl
    · simp only; split_ifs <;> rfl
    · simp only
      rcases cylIntersect m zoomz lim0 lim1 d p with e | _ | ⟨q, y, z⟩ <;> rfl
  | filter m f =>
    right
    simp only [Optic.step, negPol_hit, e1]
    rcases r.hit m with _ | ⟨d, q, y, z, p⟩
    · rfl
    · simp only
      rcases filterValue f r.energy with e | v <;> rfl
  | globalFilter f =>
    right
    simp only [Optic.step, e1]
    rcases filterValue f r.energy with e | v <;> rfl
  | lens m focallength dOptax refl =>
    right
    simp only [Optic.step, negPol_hit, e1, e4]
    rcases r.hit m with _ | ⟨d, q, y, z, p⟩
    · rfl
    · rcases r.pol with _ | pol
      · rfl
      · have : (perfectLens m focallength dOptax refl d (-pol) q r.energy).bind LensOut.pol =
            ((perfectLens m focallength dOptax refl d pol q r.energy).bind LensOut.pol).map fun v => -v := by
          unfold perfectLens
          simp only
          split_ifs
          · rfl
          · rfl
          · exact parallelTransport_neg _ _ _
        simp only [Option.map_some, Option.bind_some, this]; rfl
  | thin m focallength =>
    right
    simp only [Optic.step, negPol_hit, e4]
    rcases r.hit m with _ | ⟨d, q, y, z, p⟩
    · rfl
    · rcases r.pol with _ | pol
      · rfl
      · simp only [Option.map_some, Option.bind_some, thinLens_neg]; rfl
  | grating m transmission cat groove per blazeMod order =>
    right
    simp only [Optic.step, negPol_hit, e1, e4]
    rcases r.hit m with _ | ⟨d, q, y, z, p⟩
    · rfl
    · rcases r.pol with _ | pol
      · rfl
      · have : ((planeGrating m transmission cat groove per blazeMod order).process d (-pol) r.energy (y, z)).2 =
            ((planeGrating m transmission cat groove per blazeMod order).process d pol r.energy (y, z)).2.map fun v => -v := by
          have e : (planeGrating m transmission cat groove per blazeMod order).diffract d (-pol) r.energy (y, z) =
              (planeGrating m transmission cat groove per blazeMod order).diffract d pol r.energy (y, z) := rfl
          simp only [Grating.process, e]
          rcases ((planeGrating m transmission cat groove per blazeMod order).diffract d pol r.energy (y, z)).dir with _ | dn
          · rfl
          · exact parallelTransport_neg _ _ _
        simp only [Option.map_some, Option.bind_some, this]; rfl
  | mirror m rs rp =>
    simp only [Optic.step, negPol_hit, e4]
    rcases r.hit m with _ | ⟨d, q, y, z, p⟩
    · right; rfl
    · rcases h : r.pol with _ | pol
      · right
        simp only [Option.map_none, Except.map, Ray.negPol, Ray.at, Ray.times, h]
      · left
        simp only [Option.map_some, brewster_neg]
        rcases brewster m rs rp d pol with e | _ | out <;> rfl
  | scatter m inAngle perpAngle =>
    right
    simp only [Optic.step, negPol_hit, e4]
    rcases r.hit m with _ | ⟨d, q, y, z, p⟩
    · rfl
    · rcases r.pol with _ | pol
      · rfl
      · have : (radialScatter m d p (-pol) inAngle perpAngle).bind Prod.snd =
            ((radialScatter m d p pol inAngle perpAngle).bind Prod.snd).map fun v => -v := by
          simp only [radialScatter]
          split
          · rfl
          · split
            · rfl
            · exact parallelTransport_neg _ _ _
        simp only [Option.map_some, Option.bind_some, this]; rfl
  | propagate distance => right; rfl

theorem negPol_run (os : List Optic) (r : Ray) : runOptics os r.negPol = runOptics os r ∨ runOptics os r.negPol = (runOptics os r).map Ray.negPol := by
  induction os generalizing r with
  | nil => right; rfl
  | cons o os ih =>
    simp only [runOptics]
    rcases negPol_step o r with h | h
    · left; rw [h]
    · rw [h]
      rcases o.step r with e | b
      · right; rfl
      · exact ih b

theorem sameLight_iff (r r' : Ray) : SameLight r r' ↔ r' = r ∨ r' = r.negPol := by
  obtain ⟨pos, dir, pol, prob, energy, order, blaze, coos⟩ := r
  obtain ⟨pos', dir', pol', prob', energy', order', blaze', coos'⟩ := r'
  constructor
  · rintro ⟨⟨h1, h2, h3, h4, h5, h6⟩, h7, h8⟩
    simp only at h1 h2 h3 h4 h5 h6 h7
    subst h1 h2 h3 h4 h5 h6 h7
    rcases h8 with h | h <;> simp only at h <;> subst h
    · exact .inl rfl
    · exact .inr rfl
  · rintro (h | h) <;> simp only [Ray.negPol, Ray.mk.injEq] at h <;> obtain ⟨h1, h2, hp, hq, h3, h4, h5, h6⟩ := h
    · exact ⟨⟨h1.symm, h2.symm, h3.symm, h4.symm, h5.symm, h6.symm⟩, hq.symm, .inl hp⟩
    · exact ⟨⟨h1.symm, h2.symm, h3.symm, h4.symm, h5.symm, h6.symm⟩, hq.symm, .inr hp⟩

/-- **C184** The sign of a polarization vector has no meaning, and no influence on the result either: two photons that differ in the sign of
their polarization vector have the same path and probability at the end, and again describe the same light. If an error is raised for one of them, so it is for
the other. -/
theorem C184_sign (os : List Optic) (r r' : Ray) (h : SameLight r r') :
    (∀ e, runOptics os r = .error e ↔ runOptics os r' = .error e) ∧ ∀ a, runOptics os r = .ok a → ∃ a', runOptics os r' = .ok a' ∧ SameLight a a' := by
  rcases (sameLight_iff r r').1 h with rfl | rfl
  · exact ⟨fun e => Iff.rfl, fun a ha => ⟨a, ha, (sameLight_iff a a).2 (.inl rfl)⟩⟩
  · rcases negPol_run os r with k | k
    · rw [k]; exact ⟨fun e => Iff.rfl, fun a ha => ⟨a, ha, (sameLight_iff a a).2 (.inl rfl)⟩⟩
    · rw [k]
      rcases runOptics os r with x | b
      · exact ⟨fun e => Iff.rfl, fun a ha => by cases ha⟩
      · exact ⟨fun e => by simp [Except.map], fun a ha => by cases ha; exact ⟨_, rfl, (sameLight_iff _ _).2 (.inr rfl)⟩⟩

/-- the photon with another polarization -/
def Ray.polarized (p : Option H4) (r : Ray) : Ray := { r with pol := p }

theorem polarized_step (p : Option H4) (o : Optic) (ho : o.PolBlind) (r a b : Ray) (ha : o.step r = .ok a) (hb : o.step (r.polarized p) = .ok b) : a.prob = b.prob := by
  have hh : ∀ m, (r.polarized p).hit m = r.hit m := fun _ => rfl
  have e1 : (r.polarized p).energy = r.energy := rfl
  have e2 : (r.polarized p).dir = r.dir := rfl
  have e3 : (r.polarized p).pos = r.pos := rfl
  cases o with
  | plane m =>
    simp only [Optic.step, hh] at ha hb
    rcases h : r.hit m with _ | ⟨d, x, y, z, s⟩ <;> rw [h] at ha hb <;> cases ha <;> cases hb <;> rfl
  | tube m zoomz lim0 lim1 =>
    simp only [Optic.step, e2, e3] at ha hb
    rcases h1 : r.dir with _ | d <;> rcases h2 : r.pos with _ | s <;> rw [h1, h2] at ha hb
    · cases ha
    · cases ha
    · simp only at ha hb
      split_ifs at ha hb
      cases ha; cases hb; rfl
    · simp only at ha hb
      rcases h3 : cylIntersect m zoomz lim0 lim1 d s with e | _ | ⟨x, y, z⟩ <;> rw [h3] at ha hb <;> cases ha <;> cases hb <;> rfl
  | filter m f =>
    simp only [Optic.step, hh, e1] at ha hb
    rcases h : r.hit m with _ | ⟨d, x, y, z, s⟩ <;> rw [h] at ha hb
    · cases ha; cases hb; rfl
    · simp only at ha hb
      rcases hf : filterValue f r.energy with e | v <;> rw [hf] at ha hb <;> cases ha <;> cases hb <;> rfl
  | globalFilter f =>
    simp only [Optic.step, e1] at ha hb
    rcases hf : filterValue f r.energy with e | v <;> rw [hf] at ha hb <;> cases ha <;> cases hb <;> rfl
  | lens m focallength dOptax refl =>
    simp only [Optic.step, hh] at ha hb
    rcases h : r.hit m with _ | ⟨d, x, y, z, s⟩ <;> rw [h] at ha hb <;> cases ha <;> cases hb <;> rfl
  | thin m focallength =>
    simp only [Optic.step, hh] at ha hb
    rcases h : r.hit m with _ | ⟨d, x, y, z, s⟩ <;> rw [h] at ha hb <;> cases ha <;> cases hb <;> rfl
  | grating m transmission cat groove per blazeMod order =>
    simp only [Optic.step, hh] at ha hb
    rcases h : r.hit m with _ | ⟨d, x, y, z, s⟩ <;> rw [h] at ha hb <;> cases ha <;> cases hb <;> rfl
  | mirror m rs rp => exact ho.elim
  | scatter m inAngle perpAngle =>
    simp only [Optic.step, hh] at ha hb
    rcases h : r.hit m with _ | ⟨d, x, y, z, s⟩ <;> rw [h] at ha hb <;> cases ha <;> cases hb <;> rfl
  | propagate distance => cases ha; cases hb; rfl

/-- **C184** Only multi-layer mirrors act on polarized light: in a sequence of other elements, the polarization has no influence on the probability. -/
theorem C184_blind (os : List Optic) (ho : ∀ o ∈ os, o.PolBlind) (r r' a a' : Ray) (h : PathAgrees r r') (hp : r.prob = r'.prob)
    (ha : runOptics os r = .ok a) (ha' : runOptics os r' = .ok a') : PathAgrees a a' ∧ a.prob = a'.prob := by
  refine ⟨C184_path os r r' a a' h ha ha', ?_⟩
  induction os generalizing r r' with
  | nil => cases ha; cases ha'; exact hp
  | cons o os ih =>
    simp only [runOptics] at ha ha'
    rcases h1 : o.step r with e | b
    · rw [h1] at ha; cases ha
    rcases h2 : o.step r' with e | b'
    · rw [h2] at ha'; cases ha'
    rw [h1] at ha; rw [h2] at ha'
    obtain ⟨p, q, rfl⟩ := (pathAgrees_iff _ _).1 h
    have e : r.dye p q = r.polarized p := by simp only [Ray.dye] at hp; simp only [Ray.dye, Ray.polarized, hp]
    exact ih (fun o ho' => ho o (List.mem_cons_of_mem _ ho')) b b' ((pathAgrees_iff _ _).2 (dye_step p q o r b b' h1 h2))
      (polarized_step p o (ho o List.mem_cons_self) r b b' h1 (e ▸ h2)) ha ha'

/-- **C184** The same for photon lists: if the photons in two lists differ in polarization and probability only, they take the same paths. -/
theorem C184_list (os : List (ListOptic × ElemCols)) (hc : ∀ o ∈ os, o.2.Fine) (t t' u u' : Table) (ps qs : List Ray) (hps : PhotonsOf t ps) (hqs : PhotonsOf u qs)
    (hpq : List.Forall₂ PathAgrees ps qs) (h : runList os t = .ok t') (h' : runList os u = .ok u') :
    ∃ ps' qs', PhotonsOf t' ps' ∧ PhotonsOf u' qs' ∧ List.Forall₂ PathAgrees ps' qs' := by
  obtain ⟨ps', h1, h2, h3⟩ := C163_list os hc t t' h ps hps
  obtain ⟨qs', k1, k2, k3⟩ := C163_list os hc u u' h' qs hqs
  refine ⟨ps', qs', h1, k1, ?_⟩
  have hl := hpq.length_eq
  refine List.forall₂_iff_get.2 ⟨by rw [h2, k2, hl], fun i hi hi' => ?_⟩
  have i1 : i < ps.length := h2 ▸ hi
  have i2 : i < qs.length := k2 ▸ hi'
  obtain ⟨p', e1, e2⟩ := h3 i _ (List.getElem?_eq_getElem i1)
  obtain ⟨q', f1, f2⟩ := k3 i _ (List.getElem?_eq_getElem i2)
  obtain ⟨g1, g2⟩ := List.getElem?_eq_some_iff.1 e1
  obtain ⟨g3, g4⟩ := List.getElem?_eq_some_iff.1 f1
  have := (List.forall₂_iff_get.1 hpq).2 i i1 i2
  simp only [List.get_eq_getElem] at this ⊢
  rw [g2, g4]
  exact C184_path _ _ _ _ _ this e2 f2

/-- Two photons with different polarization and probability that run through two elements. -/
example : ∃ os r r' a a', (∀ o ∈ os, o.PolBlind) ∧ PathAgrees r r' ∧ r.pol ≠ r'.pol ∧ r.prob ≠ r'.prob ∧ runOptics os r = .ok a ∧ runOptics os r' = .ok a' := by
  have h2 : ∃ a', runOptics [.filter 1 fun _ => 1 / 2, .propagate 5] { axisRay with pol := some ⟨0, 0, 1, 0⟩, prob := some (1 / 3) } = .ok a' := by
    simp only [runOptics, Optic.step, Ray.hit, axisRay, axisRay_hit, filterValue]
    norm_num
  obtain ⟨a', h2⟩ := h2
  refine ⟨[.filter 1 fun _ => 1 / 2, .propagate 5], axisRay, { axisRay with pol := some ⟨0, 0, 1, 0⟩, prob := some (1 / 3) }, _, a', ?_, ⟨rfl, rfl, rfl, rfl, rfl, rfl⟩,
    by simp [axisRay], by norm_num [axisRay], axisRay_run, h2⟩
  intro o ho
  simp only [List.mem_cons, List.not_mem_nil, or_false] at ho
  rcases ho with rfl | rfl <;> trivial

/-- The same light through these elements. -/
example : ∃ a a', SameLight axisRay axisRay.negPol ∧ axisRay.negPol ≠ axisRay ∧ runOptics [.filter 1 fun _ => 1 / 2, .propagate 5] axisRay = .ok a ∧
    runOptics [.filter 1 fun _ => 1 / 2, .propagate 5] axisRay.negPol = .ok a' ∧ SameLight a a' := by
  have h : SameLight axisRay axisRay.negPol := (sameLight_iff _ _).2 (.inr rfl)
  obtain ⟨a', h1, h2⟩ := (C184_sign _ _ _ h).2 _ axisRay_run
  refine ⟨_, a', h, fun e => ?_, axisRay_run, h1, h2⟩
  have e := congrArg Ray.pol e
  simp only [Ray.negPol, axisRay, Option.map_some, Option.some.injEq] at e
  have e := congrArg H4.y e
  norm_num at e

end Marxs
