import Verif.Spec.StartPlace
import Verif.Props.ElementSize
import Verif.Props.FilterPlace

/-!
# C181: where on its ray a photon starts makes no difference
-/

namespace Marxs
open Classical

theorem planeIntersect_slide (m : M4) (d p : H4) (s : ℝ) (h h' : H4 × ℝ × ℝ) (e : planeIntersect m d p = some h)
    (e' : planeIntersect m d (p + s • d) = some h') : h = h' := by
  simp only [planeIntersect] at e e'
  by_cases h0 : d.dot (eX m) = 0
  · simp [h0] at e
  · rw [if_neg h0] at e e'
    have ek : (center m - (p + s • d)).dot (eX m) / d.dot (eX m) = (center m - p).dot (eX m) / d.dot (eX m) - s := by
      have : (center m - (p + s • d)).dot (eX m) = (center m - p).dot (eX m) - s * d.dot (eX m) := by simp [H4.dot]; ring
      rw [this]; field_simp
    rw [ek] at e'
    generalize (center m - p).dot (eX m) / d.dot (eX m) = k at e e'
    have ep : p + s • d + (k - s) • d = p + k • d := by ext <;> simp <;> ring
    rw [ep] at e'
    split_ifs at e e'
    simp only [Option.some.injEq] at e e'
    rw [← e, ← e']

theorem slide_fields {s : ℝ} {r r' : Ray} (h : (Optic.propagate s).step r = .ok r') {d p : H4} (hd : r.dir = some d) (hp : r.pos = some p) :
    r' = { r with pos := some (p + s • d) } := by
  simp only [Optic.step, hd, hp, Except.ok.injEq] at h
  rw [← h, ← hd]

theorem scatter_slide (m : M4) (d p : H4) (pol : H4) (s : ℝ) (a : Option ℝ) :
    radialScatter m d (p + s • d) pol a none = radialScatter m d p pol a none := by
  have e : d.xyz.cross ((p + s • d).xyz - (center m).xyz) = d.xyz.cross (p.xyz - (center m).xyz) := by
    ext <;> simp [V3.cross] <;> ring
  simp only [radialScatter, e]

/-- one element -/
theorem step_slide (s : ℝ) (o : Optic) (hf : o.flat ≠ none) (hn : o.NoPerpScatter) (r r' : Ray) (h : (Optic.propagate s).step r = .ok r')
    (h1 : o.Hit r) (h2 : o.Hit r') : o.step r' = o.step r := by
  obtain ⟨m, hm⟩ := Option.ne_none_iff_exists'.1 hf
  obtain ⟨d, p, hd, hp, -⟩ := h1 m hm
  have er := slide_fields h hd hp
  have hh1 := (Hit_iff o m hm r).1 h1
  have hh2 := (Hit_iff o m hm r').1 h2
  subst er
  simp only [Ray.hit, hd, hp] at hh1 hh2
  rcases e1 : planeIntersect m d p with _ | ⟨q, y, z⟩
  · simp [e1] at hh1
  rcases e2 : planeIntersect m d (p + s • d) with _ | ⟨q', y', z'⟩
  · simp [e2] at hh2
  have := planeIntersect_slide m d p s _ _ e1 e2
  simp only [Prod.mk.injEq] at this
  obtain ⟨rfl, rfl, rfl⟩ := this
  have k1 : r.hit m = some (d, q, y, z, p) := by simp only [Ray.hit, hd, hp, e1]
  have k2 : Ray.hit { r with pos := some (p + s • d) } m = some (d, q, y, z, p + s • d) := by simp only [Ray.hit, hd, e2]
  cases o <;> simp only [Optic.flat, Option.some.injEq, reduceCtorEq] at hm <;> subst hm <;> simp only [Optic.step, k1, k2]
  case plane => rfl
  case filter f => rcases filterValue f r.energy with e | v <;> rfl
  case lens => rfl
  case thin => rfl
  case grating => rfl
  case mirror rs rp =>
    rcases r.pol with _ | pol
    · rfl
    · simp only
      rcases brewster _ rs rp d pol with e | _ | out <;> rfl
  case scatter a b =>
    cases b with
    | some => exact hn.elim
    | none =>
      simp only [scatter_slide _ d p]
      rfl

theorem run_missed (a : List Optic) (r : Ray) (h : ∀ o ∈ a, o.Missed r) : runOptics a r = .ok r := by
  induction a with
  | nil => rfl
  | cons o a ih =>
    have ho := h o (by simp)
    obtain ⟨m, hm⟩ := Option.ne_none_iff_exists'.1 ho.1
    have e : r.hit m = none := by
      by_contra hc
      exact ho.2 ((Hit_iff o m hm r).2 hc)
    have : o.step r = .ok r := by
      cases o <;> simp only [Optic.flat, Option.some.injEq, reduceCtorEq] at hm <;> subst hm <;> simp only [Optic.step, e]
    simp only [runOptics, this]
    exact ih fun o' ho' => h o' (by simp [ho'])

/-- **C181** If two photons start at different places on the same ray, that is if one is propagated along its direction by any distance,
positive or negative, to give the other, and both pass by some elements and hit the same element `o`, all their properties after this
element are identical, and so is everything that happens later. -/
theorem C181_start_partial (s : ℝ) (a b : List Optic) (o : Optic) (r r' : Ray) (h : runOptics [.propagate s] r = .ok r')
    (ha : ∀ e ∈ a, e.Missed r ∧ e.Missed r') (hf : o.flat ≠ none) (hn : o.NoPerpScatter) (h1 : o.Hit r) (h2 : o.Hit r') :
    runOptics (a ++ o :: b) r' = runOptics (a ++ o :: b) r := by
  rw [runOptics_two, runOptics_two, run_missed a r fun e he => (ha e he).1, run_missed a r' fun e he => (ha e he).2]
  have h' : (Optic.propagate s).step r = .ok r' := h
  simp only [runOptics, step_slide s o hf hn r r' h' h1 h2]

/-- **C181** A photon that starts further back on its ray hits every element that it hits otherwise. -/
theorem C181_back (s : ℝ) (hs : s ≤ 0) (o : Optic) (r r' : Ray) (h : runOptics [.propagate s] r = .ok r') (h1 : o.Hit r) : o.Hit r' := by
  intro m hm
  obtain ⟨d, p, hd, hp, h0, k, hk, h2, h3, h4⟩ := h1 m hm
  have h' : (Optic.propagate s).step r = .ok r' := h
  have er := slide_fields h' hd hp
  subst er
  have ep : p + s • d + (k - s) • d = p + k • d := by ext <;> simp <;> ring
  exact ⟨d, p + s • d, hd, rfl, h0, k - s, by linarith, by rwa [ep], by rwa [ep], by rwa [ep]⟩

theorem pi_turn (u d : V3) (hu : u.dot u = 1) : turn u Real.pi d = some ((2 * u.dot d) • u - d) := by
  have h0 : u ≠ 0 := by rintro rfl; simp [V3.dot] at hu
  have hn : u.norm = 1 := by rw [V3.norm, hu, Real.sqrt_one]
  have hu' : u.unit = u := by rw [V3.unit, hn]; ext <;> simp
  rw [turn, if_neg h0, hu']
  congr 1
  ext <;> simp [mul3, rotMat, V3.dot] <;> ring

/-- **C181** (negation) For scattering perpendicular to the plane of incidence the place where the photon starts matters, although it hits
the same element at the same place with the same direction and the same random number: the axis for this rotation is taken from the
position of the photon before the element, not from the intersection point. -/
theorem C181_scatter_false : ∃ (s : ℝ) (o : Optic) (r r' t t' : Ray), runOptics [.propagate s] r = .ok r' ∧ o.flat ≠ none ∧ o.Hit r ∧ o.Hit r' ∧
    runOptics [o] r = .ok t ∧ runOptics [o] r' = .ok t' ∧ t.pos = t'.pos ∧ t.coos = t'.coos ∧ t.dir ≠ t'.dir := by
  obtain ⟨e1, e2, e3, e4, e5, e6⟩ := unitAxes
  have hh : ∀ x : ℝ, 0 ≤ x → planeIntersect 1 ⟨-1, 0, 0, 0⟩ ⟨x, 3 / 5, 0, 1⟩ = some (⟨0, 3 / 5, 0, 1⟩, 3 / 5, 0) := by
    intro x hx
    simp only [planeIntersect, e1, e2, e3, e4, e5, e6]
    norm_num [H4.dot, abs_le, hx]
    ext <;> norm_num
  let ray : ℝ → Ray := fun x => { axisRay with pos := some ⟨x, 3 / 5, 0, 1⟩ }
  have hray : ∀ x : ℝ, 0 ≤ x → (ray x).hit 1 = some (⟨-1, 0, 0, 0⟩, ⟨0, 3 / 5, 0, 1⟩, 3 / 5, 0, ⟨x, 3 / 5, 0, 1⟩) := by
    intro x hx
    simp only [Ray.hit, ray, axisRay, hh x hx]
  have hrun : ∀ x : ℝ, 0 ≤ x → ∃ t, runOptics [.scatter 1 none (some Real.pi)] (ray x) = .ok t ∧ t.pos = some ⟨0, 3 / 5, 0, 1⟩ ∧
      t.coos = [(3 / 5, 0)] ∧ t.dir = (radialScatter 1 ⟨-1, 0, 0, 0⟩ ⟨x, 3 / 5, 0, 1⟩ ⟨0, 0, 0, 0⟩ none (some Real.pi)).map Prod.fst := by
    intro x hx
    simp only [runOptics, Optic.step, hray x hx]
    exact ⟨_, rfl, rfl, rfl, rfl⟩
  obtain ⟨t, t1, t2, t3, t4⟩ := hrun (4 / 5) (by norm_num)
  obtain ⟨t', t1', t2', t3', t4'⟩ := hrun (9 / 20) (by norm_num)
  refine ⟨7 / 20, .scatter 1 none (some Real.pi), ray (4 / 5), ray (9 / 20), t, t', ?_, by simp [Optic.flat], ?_, ?_, t1, t1', t2.trans t2'.symm,
    t3.trans t3'.symm, ?_⟩
  rotate_left 3
  · rw [t4, t4']
    have g : ∀ (p : H4) (u : V3) (k : ℝ), 0 < k → p.xyz - (center 1).xyz = k • u → u.dot u = 1 →
        (radialScatter 1 ⟨-1, 0, 0, 0⟩ p ⟨0, 0, 0, 0⟩ none (some Real.pi)).map Prod.fst = some ((2 * u.dot ⟨-1, 0, 0⟩) • u - ⟨-1, 0, 0⟩ : V3).toDir := by
      intro p u k hk hp hu
      have ht : turn (k • u) Real.pi ⟨-1, 0, 0⟩ = turn u Real.pi ⟨-1, 0, 0⟩ := by
        simp only [turn, v3_unit_smul hk, v3_smul_eq_zero hk]
      have hx : (⟨-1, 0, 0, 0⟩ : H4).xyz = ⟨-1, 0, 0⟩ := rfl
      simp only [radialScatter, hp, hx, ht, pi_turn u _ hu, Option.map_some]
    have g1 := g ⟨4 / 5, 3 / 5, 0, 1⟩ ⟨4 / 5, 3 / 5, 0⟩ 1 one_pos (by rw [e4]; ext <;> simp) (by norm_num [V3.dot])
    have g2 := g ⟨9 / 20, 3 / 5, 0, 1⟩ ⟨3 / 5, 4 / 5, 0⟩ (3 / 4) (by norm_num) (by rw [e4]; ext <;> norm_num) (by norm_num [V3.dot])
    rw [g1, g2]
    intro hc
    have := congrArg H4.x (Option.some.inj hc)
    norm_num [V3.dot, V3.toDir] at this
  · simp only [runOptics, Optic.step, ray, axisRay]
    norm_num
    ext <;> norm_num
  · exact (Hit_iff _ 1 rfl _).2 (by rw [hray _ (by norm_num)]; simp)
  · exact (Hit_iff _ 1 rfl _).2 (by rw [hray _ (by norm_num)]; simp)

/-- Two photons on the same ray that pass by one element and hit the next one. -/
example : ∃ (a o : Optic) (r r' : Ray), runOptics [.propagate (-3)] r = .ok r' ∧ (a.Missed r ∧ a.Missed r') ∧ o.flat ≠ none ∧ o.NoPerpScatter ∧
    o.Hit r ∧ o.Hit r' := by
  obtain ⟨e1, e2, e3, e4, e5, e6⟩ := unitAxes
  have hr : runOptics [.propagate (-3)] axisRay = .ok { axisRay with pos := some ⟨5, 1 / 2, 0, 1⟩ } := by
    simp only [runOptics, Optic.step, axisRay]
    norm_num
    ext <;> norm_num
  have h1 : (Optic.thin 1 10).Hit axisRay := (Hit_iff _ 1 rfl _).2 (by simp only [Ray.hit, axisRay, axisRay_hit]; simp)
  have hx : vX (M4.resize ⟨1, 1 / 4, 1⟩ 1) = ⟨1, 0, 0, 0⟩ := by rw [resize_vX]; ext <;> simp [vX, col]
  have small : ∀ x : ℝ, ¬ (Optic.plane (M4.resize ⟨1, 1 / 4, 1⟩ 1)).Hit { axisRay with pos := some ⟨x, 1 / 2, 0, 1⟩ } := by
    intro x h
    have hs : (⟨1, 1 / 4, 1⟩ : Sizes).Positive := by norm_num [Sizes.Positive]
    obtain ⟨d, p, hd, hp, -, k, -, -, h3, -⟩ := h _ rfl
    simp only [axisRay, Option.some.injEq] at hd hp
    subst hd hp
    rw [resize_center, resize_eY hs, resize_vY, h4_norm_smul hs.2.1, e2, e4, e5] at h3
    norm_num [H4.dot, abs_le] at h3
  exact ⟨.plane (M4.resize ⟨1, 1 / 4, 1⟩ 1), .thin 1 10, axisRay, _, hr, ⟨⟨by simp [Optic.flat], small 2⟩, by simp [Optic.flat], small 5⟩,
    by simp [Optic.flat], trivial, h1, C181_back (-3) (by norm_num) _ _ _ hr h1⟩

end Marxs
