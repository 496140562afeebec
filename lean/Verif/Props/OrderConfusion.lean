import Verif.Spec.OrderConfusion
import Verif.Props.Reversal

/-!
# C171: photons with the same order times wavelength
-/

namespace Marxs
open Classical

theorem SamePath.at {r r' : Ray} (h : SamePath r r') (q : H4) (y z : ℝ) : SamePath (r.at q y z) (r'.at q y z) :=
  ⟨rfl, h.dir, h.pol, h.blaze, by simp only [Ray.at, h.coos]⟩

theorem SamePath.times {r r' : Ray} (h : SamePath r r') (f f' : Option ℝ) : SamePath (r.times f) (r'.times f') :=
  ⟨h.pos, h.dir, h.pol, h.blaze, h.coos⟩

theorem SamePath.hit {r r' : Ray} (h : SamePath r r') (m : M4) : r.hit m = r'.hit m := by
  simp only [Ray.hit, h.dir, h.pos]

theorem diffractDir_wave (tr : Bool) (sign : H4 → H4 → ℝ) (p l e n : H4) {m m' : ℤ} {w w' : ℝ} (dg : ℝ)
    (h : (m : ℝ) * w = m' * w') : diffractDir tr sign p l e n m w dg = diffractDir tr sign p l e n m' w' dg := by
  have : sign p (-e) * (m : ℝ) * w / dg = sign p (-e) * m' * w' / dg := by rw [mul_assoc, h, mul_assoc]
  simp only [diffractDir, this]

theorem diffract_same (m : M4) (tr cat : Bool) (g : ℝ) (per bm : ℝ × ℝ → ℝ) (order : ℝ → Option ℝ → ℤ × ℝ) (d pol : H4)
    {E E' : ℝ} (hE : E ≠ 0) (hE' : E' ≠ 0) (h : ∀ b, ((order E b).1 : ℝ) / E = (order E' b).1 / E') (c : ℝ × ℝ) :
    let G := planeGrating m tr cat g per bm order
    (G.diffract d pol E c).dir = (G.diffract d pol E' c).dir ∧ (G.diffract d pol E c).blaze = (G.diffract d pol E' c).blaze := by
  intro G
  simp only [Grating.diffract]
  split
  · exact ⟨rfl, rfl⟩
  · rename_i p hp
    refine ⟨?_, rfl⟩
    simp only [hE, hE', false_or]
    split
    · rfl
    · refine diffractDir_wave _ _ _ _ _ _ _ ?_
      have := h (blazeAngle p (G.frame c).1 (G.frame c).2.2 (G.blazeMod c))
      have e : ∀ (n : ℝ) (x : ℝ), n * (energy2wave / x) = n / x * energy2wave := fun n x => by ring
      rw [e, e]
      exact congrArg (· * energy2wave) this

theorem step_same {o : Optic} {r r' s s' : Ray} (ho : o.SameOrderWave r.energy r'.energy) (hE : r.energy ≠ 0) (hE' : r'.energy ≠ 0)
    (h : SamePath r r') (h1 : o.step r = .ok s) (h2 : o.step r' = .ok s') :
    SamePath s s' ∧ s.energy = r.energy ∧ s'.energy = r'.energy := by
  cases o
  case plane m =>
    rcases hh : r.hit m with _ | ⟨d, q, y, z, p⟩ <;> simp only [Optic.step, ← h.hit, hh, Except.ok.injEq] at h1 h2 <;> subst h1 h2
    · exact ⟨h, rfl, rfl⟩
    · exact ⟨h.at _ _ _, rfl, rfl⟩
  case tube m zoomz lim0 lim1 =>
    simp only [Optic.step, ← h.dir, ← h.pos] at h1 h2
    rcases hd : r.dir with _ | d <;> simp only [hd] at h1 h2
    · cases h1
    rcases hp : r.pos with _ | p <;> simp only [hp] at h1 h2
    · split at h1 <;> cases h1
      rename_i hn
      rw [if_neg hn] at h2
      cases h2
      exact ⟨h, rfl, rfl⟩
    · rcases hc : cylIntersect m zoomz lim0 lim1 d p with e | _ | ⟨q, y, z⟩ <;> simp only [hc, Except.ok.injEq, reduceCtorEq] at h1 h2 <;>
        subst h1 h2
      · exact ⟨h, rfl, rfl⟩
      · exact ⟨h.at _ _ _, rfl, rfl⟩
  case filter m f =>
    rcases hh : r.hit m with _ | ⟨d, q, y, z, p⟩ <;> simp only [Optic.step, ← h.hit, hh, Except.ok.injEq] at h1 h2
    · subst h1 h2; exact ⟨h, rfl, rfl⟩
    · split at h1 <;> cases h1
      split at h2 <;> cases h2
      exact ⟨(h.times _ _).at _ _ _, rfl, rfl⟩
  case globalFilter f =>
    simp only [Optic.step] at h1 h2
    split at h1 <;> cases h1
    split at h2 <;> cases h2
    exact ⟨h.times _ _, rfl, rfl⟩
  case lens m focallength dOptax refl =>
    rcases hh : r.hit m with _ | ⟨d, q, y, z, p⟩ <;> simp only [Optic.step, ← h.hit, hh, Except.ok.injEq] at h1 h2 <;> subst h1 h2
    · exact ⟨h, rfl, rfl⟩
    · have hl : ∀ pol, (perfectLens m focallength dOptax refl d pol q r.energy).map LensOut.dir =
            (perfectLens m focallength dOptax refl d pol q r'.energy).map LensOut.dir ∧
          (perfectLens m focallength dOptax refl d pol q r.energy).bind LensOut.pol =
            (perfectLens m focallength dOptax refl d pol q r'.energy).bind LensOut.pol := by
        intro pol
        simp only [perfectLens]
        split
        · exact ⟨rfl, rfl⟩
        · split <;> exact ⟨rfl, rfl⟩
      refine ⟨⟨rfl, (hl _).1, ?_, h.blaze, by simp only [Ray.at, Ray.times, h.coos]⟩, rfl, rfl⟩
      simp only [Ray.at, Ray.times, ← h.pol]
      cases r.pol with
      | none => rfl
      | some pol => exact (hl pol).2
  case thin m focallength =>
    rcases hh : r.hit m with _ | ⟨d, q, y, z, p⟩ <;> simp only [Optic.step, ← h.hit, hh, Except.ok.injEq] at h1 h2 <;> subst h1 h2
    · exact ⟨h, rfl, rfl⟩
    · exact ⟨⟨rfl, rfl, by simp only [Ray.at, h.pol], h.blaze, by simp only [Ray.at, h.coos]⟩, rfl, rfl⟩
  case grating m tr cat g per bm order =>
    rcases hh : r.hit m with _ | ⟨d, q, y, z, p⟩ <;> simp only [Optic.step, ← h.hit, hh, Except.ok.injEq] at h1 h2 <;> subst h1 h2
    · exact ⟨h, rfl, rfl⟩
    · have hd := fun pol => diffract_same m tr cat g per bm order d pol hE hE' ho (y, z)
      simp only at hd
      refine ⟨⟨rfl, (hd _).1, ?_, (hd _).2, by simp only [Ray.at, Ray.times, h.coos]⟩, rfl, rfl⟩
      simp only [Ray.at, Ray.times, h.pol, Grating.process]
      congr 1
      funext pol
      rw [(hd pol).1]
  case mirror m rs rp =>
    rcases hh : r.hit m with _ | ⟨d, q, y, z, p⟩ <;> simp only [Optic.step, ← h.hit, ← h.pol, hh, Except.ok.injEq] at h1 h2
    · subst h1 h2; exact ⟨h, rfl, rfl⟩
    · rcases hp : r.pol with _ | pol <;> simp only [hp, Except.ok.injEq] at h1 h2
      · subst h1 h2
        exact ⟨⟨rfl, rfl, rfl, h.blaze, by simp only [Ray.at, Ray.times, h.coos]⟩, rfl, rfl⟩
      · rcases hb : brewster m rs rp d pol with e | _ | out <;> simp only [hb, Except.ok.injEq, reduceCtorEq] at h1 h2 <;> subst h1 h2 <;>
          exact ⟨⟨rfl, rfl, rfl, h.blaze, by simp only [Ray.at, Ray.times, h.coos]⟩, rfl, rfl⟩
  case scatter m a b =>
    rcases hh : r.hit m with _ | ⟨d, q, y, z, p⟩ <;> simp only [Optic.step, ← h.hit, hh, Except.ok.injEq] at h1 h2 <;> subst h1 h2
    · exact ⟨h, rfl, rfl⟩
    · exact ⟨⟨rfl, rfl, by simp only [Ray.at, h.pol], h.blaze, by simp only [Ray.at, h.coos]⟩, rfl, rfl⟩
  case propagate distance =>
    simp only [Optic.step, Except.ok.injEq] at h1 h2
    subst h1 h2
    exact ⟨⟨by simp only [h.dir, h.pos], h.dir, h.pol, h.blaze, h.coos⟩, rfl, rfl⟩

/-- **C171** Photons of different energy with the same order times wavelength cannot be told apart by their paths: they go through
every instrument on the same path, with the same polarization, and are detected at the same place. -/
theorem C171_order_confusion (os : List Optic) (r r' s s' : Ray) (hos : ∀ o ∈ os, o.SameOrderWave r.energy r'.energy)
    (hE : r.energy ≠ 0) (hE' : r'.energy ≠ 0) (h : SamePath r r') (h1 : runOptics os r = .ok s) (h2 : runOptics os r' = .ok s') :
    SamePath s s' := by
  induction os generalizing r r' with
  | nil => cases h1; cases h2; exact h
  | cons o os ih =>
    simp only [runOptics] at h1 h2
    rcases e1 : o.step r with e | t <;> simp only [e1, reduceCtorEq] at h1
    rcases e2 : o.step r' with e | t' <;> simp only [e2, reduceCtorEq] at h2
    obtain ⟨a, b, c⟩ := step_same (hos o (by simp)) hE hE' h e1 e2
    refine ih t t' (fun o ho => ?_) (by rw [b]; exact hE) (by rw [c]; exact hE') a h1 h2
    rw [b, c]
    exact hos o (by simp [ho])

/-- First order of one photon and second order of a photon with twice the energy. -/
example : ∃ (os : List Optic) (r' s s' : Ray), (∀ o ∈ os, o.SameOrderWave axisRay.energy r'.energy) ∧ SamePath axisRay r' ∧
    r'.energy = 2 * axisRay.energy ∧ runOptics os axisRay = .ok s ∧ runOptics os r' = .ok s' ∧ s.order = some 1 ∧ s'.order = some 2 := by
  have h1 : axisRay.hit (square 0 0 0) = some (⟨-1, 0, 0, 0⟩, ⟨0, 1 / 2, 0, 1⟩, 1 / 2, 0, ⟨2, 1 / 2, 0, 1⟩) := by
    obtain ⟨-, -, h, -⟩ := three_fifths false
    exact h
  have h2 : ({ axisRay with energy := 2 } : Ray).hit (square 0 0 0) =
      some (⟨-1, 0, 0, 0⟩, ⟨0, 1 / 2, 0, 1⟩, 1 / 2, 0, ⟨2, 1 / 2, 0, 1⟩) := h1
  have f1 : ⌊(1 : ℝ)⌋ = 1 := by norm_num
  have f2 : ⌊(2 : ℝ)⌋ = 2 := by norm_num
  refine ⟨[.grating (square 0 0 0) true false 0 (fun _ => 1) (fun _ => 0) fun e _ => (⌊e⌋, 1)], { axisRay with energy := 2 }, _, _,
    ?_, ⟨rfl, rfl, rfl, rfl, rfl⟩, by norm_num [axisRay], by simp only [runOptics, Optic.step, h1]; rfl,
    by simp only [runOptics, Optic.step, h2]; rfl, ?_, ?_⟩
  · intro o ho
    simp only [List.mem_cons, List.not_mem_nil, or_false] at ho
    subst ho
    intro b
    norm_num [axisRay]
  · simp only [Ray.at, Ray.times, Grating.diffract, planeGrating, axisRay]
    split <;> simp [f1]
  · simp only [Ray.at, Ray.times, Grating.diffract, planeGrating]
    split <;> simp [f2]

end Marxs
