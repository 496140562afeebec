import Verif.Spec.Transparent
import Verif.Props.StartPlace
import Verif.Props.ParallelPlane

/-!
# C183: transparent elements can be inserted anywhere
-/

namespace Marxs
open Classical

theorem before_hit (c : List (ℝ × ℝ)) (r : Ray) (m : M4) : (r.before c).hit m = r.hit m := rfl

theorem before_at (c : List (ℝ × ℝ)) (r : Ray) (q : H4) (y z : ℝ) : (r.before c).at q y z = (r.at q y z).before c := by
  simp [Ray.before, Ray.at]

theorem before_times (c : List (ℝ × ℝ)) (r : Ray) (f : Option ℝ) : (r.before c).times f = (r.times f).before c := rfl

theorem before_step (c : List (ℝ × ℝ)) (o : Optic) (r : Ray) : o.step (r.before c) = (o.step r).map (Ray.before c) := by
  cases o with
  | plane m =>
    simp only [Optic.step, before_hit]
    rcases r.hit m with _ | ⟨d, q, y, z, p⟩
    · rfl
    · simp only [before_at]; rfl
  | tube m zoomz lim0 lim1 =>
    have e1 : (r.before c).dir = r.dir := rfl
    have e2 : (r.before c).pos = r.pos := rfl
    simp only [Optic.step, e1, e2]
    rcases r.dir with _ | d <;> rcases r.pos with _ | p
    · rfl
    · rfl
    · simp only; split_ifs <;> rfl
    · simp only
      rcases cylIntersect m zoomz lim0 lim1 d p with e | _ | ⟨q, y, z⟩
      · rfl
      · rfl
      · simp only [before_at]; rfl
  | filter m f =>
    have e1 : (r.before c).energy = r.energy := rfl
    simp only [Optic.step, before_hit, e1]
    rcases r.hit m with _ | ⟨d, q, y, z, p⟩
    · rfl
    · simp only
      rcases filterValue f r.energy with e | v
      · rfl
      · simp only [before_times, before_at]; rfl
  | globalFilter f =>
    have e1 : (r.before c).energy = r.energy := rfl
    simp only [Optic.step, e1]
    rcases filterValue f r.energy with e | v
    · rfl
    · simp only [before_times]; rfl
  | lens m focallength dOptax refl =>
    simp only [Optic.step, before_hit]
    rcases r.hit m with _ | ⟨d, q, y, z, p⟩
    · rfl
    · simp only [Except.map]
      rw [← before_at, ← before_times]; rfl
  | thin m focallength =>
    simp only [Optic.step, before_hit]
    rcases r.hit m with _ | ⟨d, q, y, z, p⟩
    · rfl
    · simp only [Except.map]
      rw [← before_at]; rfl
  | grating m transmission cat groove d blazeMod order =>
    simp only [Optic.step, before_hit]
    rcases r.hit m with _ | ⟨d, q, y, z, p⟩
    · rfl
    · simp only [Except.map]
      rw [← before_at, ← before_times]; rfl
  | mirror m rs rp =>
    have e1 : (r.before c).pol = r.pol := rfl
    simp only [Optic.step, before_hit, e1]
    rcases r.hit m with _ | ⟨d, q, y, z, p⟩
    · rfl
    · simp only
      rcases r.pol with _ | pol
      · simp only [Except.map]
        rw [← before_at, ← before_times]; rfl
      · simp only
        rcases brewster m rs rp d pol with e | _ | out
        · rfl
        · simp only [Except.map]
          rw [← before_at, ← before_times]; rfl
        · simp only [Except.map]
          rw [← before_at, ← before_times]; rfl
  | scatter m inAngle perpAngle =>
    simp only [Optic.step, before_hit]
    rcases r.hit m with _ | ⟨d, q, y, z, p⟩
    · rfl
    · simp only [Except.map]
      rw [← before_at]; rfl
  | propagate distance => rfl

theorem before_run (c : List (ℝ × ℝ)) (os : List Optic) (r : Ray) : runOptics os (r.before c) = (runOptics os r).map (Ray.before c) := by
  induction os generalizing r with
  | nil => rfl
  | cons o os ih =>
    simp only [runOptics, before_step]
    rcases o.step r with e | r'
    · rfl
    · simp only [Except.map]
      exact ih r'

theorem fresh_before (r : Ray) : r.fresh.before r.coos = r := by
  obtain ⟨pos, dir, pol, prob, energy, order, blaze, coos⟩ := r
  simp [Ray.before, Ray.fresh]

/-- **C183** The record of earlier hits has no influence on anything. -/
theorem C183_record (os : List Optic) (r : Ray) : runOptics os r = (runOptics os r.fresh).map (Ray.before r.coos) := by
  rw [← before_run, fresh_before]

theorem Hit_congr (o : Optic) (r r' : Ray) (h1 : r.dir = r'.dir) (h2 : r.pos = r'.pos) : o.Hit r ↔ o.Hit r' := by
  simp only [Optic.Hit, h1, h2]

/-- **C183** A filter can be inserted in front of any element that the photon hits, with any number of elements in between that the
photon passes by. The photon goes through the rest of the instrument as if the filter were not there, except that it has the probability and the additional
local coordinates that it got in the filter. -/
theorem C183_filter_partial (m : M4) (f : ℝ → ℝ) (a b : List Optic) (o : Optic) (r r₁ : Ray) (hm : (Optic.filter m f).Hit r)
    (h₁ : runOptics [.filter m f] r = .ok r₁) (ha : ∀ e ∈ a, e.Missed r ∧ e.Missed r₁) (hf : o.flat ≠ none) (hn : o.NoPerpScatter)
    (h1 : o.Hit r) (h2 : o.Hit r₁) :
    ∃ y z : ℝ, r₁.coos = r.coos ++ [(y, z)] ∧
      runOptics (.filter m f :: a ++ o :: b) r = (runOptics (a ++ o :: b) r.fresh).map (fun t => (t.weigh (f r.energy)).before (r.coos ++ [(y, z)])) := by
  have hh := (Hit_iff _ m rfl r).1 hm
  obtain ⟨d, p, hd, hp, h0, -⟩ := hm m rfl
  simp only [Ray.hit, hd, hp] at hh
  rcases e1 : planeIntersect m d p with _ | ⟨q, y, z⟩
  · simp [e1] at hh
  have k1 : r.hit m = some (d, q, y, z, p) := by simp only [Ray.hit, hd, hp, e1]
  have hq : ∃ k : ℝ, q = p + k • d := by
    simp only [planeIntersect, if_neg h0] at e1
    split_ifs at e1
    simp only [Option.some.injEq, Prod.mk.injEq] at e1
    exact ⟨_, e1.1.symm⟩
  obtain ⟨k, rfl⟩ := hq
  simp only [runOptics, Optic.step, k1] at h₁
  rcases hv : filterValue f r.energy with e | v
  · rw [hv] at h₁; cases h₁
  have hvf : v = f r.energy := by
    unfold filterValue at hv
    split_ifs at hv
    cases hv; rfl
  rw [hv] at h₁
  simp only [Except.ok.injEq] at h₁
  rw [times_weigh] at h₁
  have hr1 : r₁ = (Ray.weigh v { r.fresh with pos := some (p + k • d) }).before (r.coos ++ [(y, z)]) := by
    rw [← h₁]; simp [Ray.at, Ray.weigh, Ray.before, Ray.fresh]
  refine ⟨y, z, by rw [hr1]; simp [Ray.before, Ray.weigh, Ray.fresh], ?_⟩
  have hstep : (Optic.filter m f).step r = .ok r₁ := by simp only [Optic.step, k1, hv, ← h₁, times_weigh]
  have hslide : runOptics [.propagate k] r.fresh = .ok { r.fresh with pos := some (p + k • d) } := by
    have hd' : r.fresh.dir = some d := hd
    have hp' : r.fresh.pos = some p := hp
    simp only [runOptics, Optic.step, hd', hp']
  have d1 : r₁.dir = Ray.dir { r.fresh with pos := some (p + k • d) } := by rw [hr1]; rfl
  have p1 : r₁.pos = Ray.pos { r.fresh with pos := some (p + k • d) } := by rw [hr1]; rfl
  have start := C181_start_partial k a b o r.fresh _ hslide
    (fun e he => ⟨⟨(ha e he).1.1, fun hc => (ha e he).1.2 ((Hit_congr e r.fresh r rfl rfl).1 hc)⟩,
      ⟨(ha e he).1.1, fun hc => (ha e he).2.2 ((Hit_congr e r₁ _ d1 p1).2 hc)⟩⟩) hf hn
    ((Hit_congr o r.fresh r rfl rfl).2 h1) ((Hit_congr o r₁ _ d1 p1).1 h2)
  have : runOptics (.filter m f :: a ++ o :: b) r = runOptics (a ++ o :: b) r₁ := by
    simp only [List.cons_append, runOptics, hstep]
  rw [this, hr1, before_run, C177_weight, start, hvf]
  rcases runOptics (a ++ o :: b) r.fresh with e | t <;> rfl

/-- **C183** The same for an additional detector (which does nothing but record the place). -/
theorem C183_detector_partial (m : M4) (a b : List Optic) (o : Optic) (r r₁ : Ray) (hm : (Optic.plane m).Hit r)
    (h₁ : runOptics [.plane m] r = .ok r₁) (ha : ∀ e ∈ a, e.Missed r ∧ e.Missed r₁) (hf : o.flat ≠ none) (hn : o.NoPerpScatter)
    (h1 : o.Hit r) (h2 : o.Hit r₁) :
    ∃ y z : ℝ, r₁.coos = r.coos ++ [(y, z)] ∧
      runOptics (.plane m :: a ++ o :: b) r = (runOptics (a ++ o :: b) r.fresh).map (Ray.before (r.coos ++ [(y, z)])) := by
  have hw : ∀ t : Ray, t.weigh 1 = t := fun t => by
    obtain ⟨pos, dir, pol, prob, energy, order, blaze, coos⟩ := t
    cases prob <;> simp [Ray.weigh]
  have hv : filterValue (fun _ => 1) r.energy = .ok 1 := by rw [filterValue, if_neg]; norm_num
  have hs : (Optic.filter m fun _ => 1).step r = (Optic.plane m).step r := by
    simp only [Optic.step, hv, times_weigh, hw]
  have e₁ : runOptics [.filter m fun _ => 1] r = .ok r₁ := by
    rw [← h₁]; simp only [runOptics, hs]
  obtain ⟨y, z, g1, g2⟩ := C183_filter_partial m (fun _ => 1) a b o r r₁ hm e₁ ha hf hn h1 h2
  refine ⟨y, z, g1, ?_⟩
  have : runOptics (.plane m :: a ++ o :: b) r = runOptics (.filter m (fun _ => 1) :: a ++ o :: b) r := by
    simp only [List.cons_append, runOptics, hs]
  rw [this, g2]
  simp only [hw]

/-- A photon that passes a detector or a filter, passes by a lens at the side and hits the next lens. -/
example (t : Optic) (ht : t = .plane (square 1 0 0) ∨ t = .filter (square 1 0 0) fun _ => 1 / 2) :
    ∃ r₁, t.Hit axisRay ∧ runOptics [t] axisRay = .ok r₁ ∧ r₁ ≠ axisRay ∧
      ((Optic.thin (square 0 5 0) 10).Missed axisRay ∧ (Optic.thin (square 0 5 0) 10).Missed r₁) ∧
      (Optic.thin (square 0 0 0) 10).flat ≠ none ∧ (Optic.thin (square 0 0 0) 10).NoPerpScatter ∧
      (Optic.thin (square 0 0 0) 10).Hit axisRay ∧ (Optic.thin (square 0 0 0) 10).Hit r₁ := by
  have hv : filterValue (fun _ => (1 / 2 : ℝ)) 1 = .ok (1 / 2) := by rw [filterValue, if_neg]; norm_num
  have hit : ∀ (o : Optic) (a b x : ℝ) (r : Ray), o.flat = some (square a b 0) → r.dir = some ⟨-1, 0, 0, 0⟩ → r.pos = some ⟨x, 1 / 2, 0, 1⟩ →
      (o.Hit r ↔ a ≤ x ∧ |1 / 2 - b| ≤ 1) := by
    intro o a b x r ho hd hp
    rw [Hit_iff o _ ho]
    simp only [Ray.hit, hd, hp, square_hit]
    by_cases hc : a ≤ x ∧ |1 / 2 - b| ≤ 1
    · rw [if_pos ⟨hc.1, hc.2, by simp⟩]; simp only [ne_eq, reduceCtorEq, not_false_eq_true, hc, and_self]
    · rw [if_neg fun h => hc ⟨h.1, h.2.1⟩]; simp only [ne_eq, not_true_eq_false, hc]
  have hrun : ∃ r₁, runOptics [t] axisRay = .ok r₁ ∧ r₁.dir = some ⟨-1, 0, 0, 0⟩ ∧ r₁.pos = some ⟨1, 1 / 2, 0, 1⟩ := by
    rcases ht with rfl | rfl
    · simp only [runOptics, Optic.step, Ray.hit, axisRay, square_hit]
      rw [if_pos (by norm_num [abs_le])]
      exact ⟨_, rfl, rfl, rfl⟩
    · simp only [runOptics, Optic.step, Ray.hit, axisRay, square_hit, hv]
      rw [if_pos (by norm_num [abs_le])]
      exact ⟨_, rfl, rfl, rfl⟩
  obtain ⟨r₁, h1, h2, h3⟩ := hrun
  have hf : t.flat = some (square 1 0 0) := by rcases ht with rfl | rfl <;> rfl
  refine ⟨r₁, (hit t 1 0 2 _ hf rfl rfl).2 (by norm_num [abs_le]), h1, ?_, ⟨⟨by simp [Optic.flat], ?_⟩, by simp [Optic.flat], ?_⟩, by simp [Optic.flat],
    trivial, (hit _ 0 0 2 _ rfl rfl rfl).2 (by norm_num [abs_le]), (hit _ 0 0 1 _ rfl h2 h3).2 (by norm_num [abs_le])⟩
  · rintro rfl
    simp only [axisRay, Option.some.injEq, H4.mk.injEq] at h3
    norm_num at h3
  · rw [hit _ 0 5 2 _ rfl rfl rfl]; norm_num [abs_le]
  · rw [hit _ 0 5 1 _ rfl h2 h3]; norm_num [abs_le]

end Marxs
