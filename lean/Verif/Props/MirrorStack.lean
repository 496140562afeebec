import Verif.Spec.MirrorStack
import Verif.Props.FlatStack

/-!
# C189: images of mirrors that are made as a stack of a lens, scattering and filters
-/

namespace Marxs
open Classical

theorem filters_keep {m : M4} {q : H4} {y z : ℝ} (gs : List (ℝ → ℝ)) (s s' : Ray) (h : rayLayers m q y z (gs.map Layer.filter) s = .ok s') : s'.dir = s.dir := by
  induction gs generalizing s with
  | nil => cases h; rfl
  | cons g gs ih =>
    simp only [List.map_cons, rayLayers, Layer.process] at h
    rcases hv : filterValue g s.energy with x | v <;> rw [hv] at h
    · cases h
    · rw [ih _ h]; rfl

theorem norm_sub_turn {axis v w : V3} {t : ℝ} (h : turn axis t v = some w) : (w - v).norm ≤ |t| * v.norm := by
  have h1 := turn_angle_general h
  have h2 := turn_length h
  have h3 := V3.cauchy v axis.unit
  have ha := (turn_spec h).1
  rw [V3.unit_dot_unit ha, mul_one] at h3
  have hc := Real.one_sub_sq_div_two_le_cos (x := t)
  have e : (w - v).dot (w - v) = w.dot w - 2 * v.dot w + v.dot v := by simp [V3.dot]; ring
  have hsq : (w - v).dot (w - v) ≤ t ^ 2 * v.dot v := by
    rw [e, h2]
    have hx : 0 ≤ v.dot v - (v.dot axis.unit) ^ 2 := by linarith
    have hx2 : v.dot v - (v.dot axis.unit) ^ 2 ≤ v.dot v := by nlinarith [sq_nonneg (v.dot axis.unit)]
    have hv : v.dot w = (v.dot axis.unit) ^ 2 + Real.cos t * (v.dot v - (v.dot axis.unit) ^ 2) := by linarith
    rw [hv]
    nlinarith [mul_le_mul_of_nonneg_right hc hx, mul_le_mul_of_nonneg_left hx2 (sq_nonneg t)]
  rw [V3.norm, V3.norm, ← Real.sqrt_sq_eq_abs, ← Real.sqrt_mul (sq_nonneg t)]
  exact Real.sqrt_le_sqrt hsq

theorem v3_norm_sub_le (a b c : V3) : (a - c).norm ≤ (a - b).norm + (b - c).norm := by
  have hn : ∀ v : V3, 0 ≤ v.norm := fun v => Real.sqrt_nonneg _
  have hs : ∀ v : V3, v.norm * v.norm = v.dot v := fun v => Real.mul_self_sqrt (by simp only [V3.dot]; nlinarith [sq_nonneg v.x, sq_nonneg v.y, sq_nonneg v.z])
  refine abs_le_of_sq_le_sq' ?_ (add_nonneg (hn _) (hn _)) |>.2
  have e : (a - c).dot (a - c) = (a - b).dot (a - b) + 2 * (a - b).dot (b - c) + (b - c).dot (b - c) := by simp [V3.dot]; ring
  have hc : (a - b).dot (b - c) ≤ (a - b).norm * (b - c).norm := by
    refine (abs_le_of_sq_le_sq' ?_ (mul_nonneg (hn _) (hn _))).2
    calc ((a - b).dot (b - c)) ^ 2 ≤ (a - b).dot (a - b) * (b - c).dot (b - c) := V3.cauchy _ _
      _ = ((a - b).norm * (b - c).norm) ^ 2 := by rw [← hs, ← hs]; ring
  have h1 := hs (a - c); have h2 := hs (a - b); have h3 := hs (b - c)
  nlinarith

/-- **C189** Scattering by `RadialMirrorScatter` changes a direction by no more than the sum of the two angles. -/
theorem C189_scatter (m : M4) (dir pos pol d' : H4) (p' : Option H4) (a b : Option ℝ) (h : radialScatter m dir pos pol a b = some (d', p')) :
    (d'.xyz - dir.xyz).norm ≤ (angleSize a + angleSize b) * dir.xyz.norm := by
  have hz : ∀ v : V3, (v - v).norm = 0 := by intro v; simp [V3.norm, V3.dot]
  simp only [radialScatter] at h
  split at h
  · cases h
  rename_i d1 h1
  split at h
  · cases h
  rename_i d2 h2
  simp only [Option.some.injEq, Prod.mk.injEq] at h
  obtain ⟨rfl, -⟩ := h
  have k1 : (d1 - dir.xyz).norm ≤ angleSize a * dir.xyz.norm ∧ d1.norm = dir.xyz.norm := by
    cases a with
    | none =>
      simp only [Option.some.injEq] at h1
      subst h1
      simp [hz, angleSize]
    | some a => exact ⟨norm_sub_turn h1, by rw [V3.norm, V3.norm, turn_length h1]⟩
  have k2 : (d2 - d1).norm ≤ angleSize b * d1.norm := by
    cases b with
    | none =>
      simp only [Option.some.injEq] at h2
      subst h2
      simp [hz, angleSize]
    | some b => exact norm_sub_turn h2
  rw [k1.2] at k2
  rw [V3.toDir_xyz]
  calc (d2 - dir.xyz).norm ≤ (d2 - d1).norm + (d1 - dir.xyz).norm := v3_norm_sub_le _ _ _
    _ ≤ (angleSize a + angleSize b) * dir.xyz.norm := by rw [add_mul]; linarith [k1.1]

/-- **C189** The image of a distant point source: all photons with the same direction that hit the mirror pass the same point, the focal point for this direction, at a distance of no more
than the sum of the scattering angles times the distance between mirror and focal point. The focal point lies at the distance of the focal length from the mirror in the direction of the
photons. -/
theorem C189_image (m : M4) (f dOptax : ℝ) (u : H4) :
    ∃ F : V3, F = (center m).xyz - dOptax • (eZ m).xyz + f • u.xyz.unit ∧
      ∀ (refl : ℝ → ℝ → ℝ) (a b : Option ℝ) (filters : List (ℝ → ℝ)) (r s : Ray) (q d' : H4), r.dir = some u → (Optic.plane m).Hit r →
        flatStack m (mirrorStack f dOptax refl a b filters) r = .ok s → s.pos = some q → s.dir = some d' →
        ∃ t : ℝ, 0 ≤ t ∧ (q.xyz + t • d'.xyz - F).norm ≤ (angleSize a + angleSize b) * (F - q.xyz).norm := by
  refine ⟨focusPoint m f dOptax u.xyz, by ext <;> simp [focusPoint], fun refl a b filters r s q d' hu hhit hs hq hd' => ?_⟩
  have hne := (Hit_iff _ m rfl r).1 hhit
  rcases hh : r.hit m with _ | ⟨d, q', y, z, p⟩
  · exact absurd hh hne
  have hsq := (C188_place m _ r _ s hhit (by simp only [runOptics, Optic.step, hh]; rfl) hs).1
  rw [hq] at hsq
  have hqq : q = q' := Option.some.inj hsq
  subst hqq
  simp only [flatStack, hh, mirrorStack, rayLayers, Layer.process, hu] at hs
  rcases ho : perfectLens m f dOptax refl u ⟨0, 0, 0, 0⟩ q r.energy with _ | o
  · simp only [ho, Option.map_none, Ray.times, Ray.at] at hs
    have := filters_keep filters _ s hs
    rw [hd'] at this
    cases this
  · simp only [ho, Option.map_some, Ray.times, Ray.at] at hs
    have hdir := filters_keep filters _ s hs
    simp only [hd'] at hdir
    obtain ⟨⟨d2, p2⟩, e2, rfl⟩ := Option.map_eq_some_iff.1 hdir.symm
    have hb := C189_scatter m o.dir q _ d2 p2 a b e2
    simp only [perfectLens] at ho
    split_ifs at ho with h0 hv
    simp only [Option.some.injEq] at ho
    subst ho
    simp only [V3.toDir_xyz] at hb
    set v := focusPoint m f dOptax u.xyz - q.xyz with hvdef
    have hun : v.unit.norm = 1 := by rw [V3.norm, V3.unit_dot_unit hv, Real.sqrt_one]
    have hvn : v.norm • v.unit = v := V3.norm_smul_unit hv
    refine ⟨v.norm, Real.sqrt_nonneg _, ?_⟩
    have e : q.xyz + v.norm • d2.xyz - focusPoint m f dOptax u.xyz = v.norm • (d2.xyz - v.unit) := by
      have : focusPoint m f dOptax u.xyz = q.xyz + v.norm • v.unit := by rw [hvn, hvdef]; ext <;> simp
      rw [this]; ext <;> simp <;> ring
    have en : ∀ (k : ℝ) (w : V3), 0 ≤ k → (k • w).norm = k * w.norm := by
      intro k w hk
      rw [V3.norm, V3.norm, V3.dot_smul_smul, Real.sqrt_mul (by positivity), Real.sqrt_mul_self hk]
    rw [e, en v.norm _ (Real.sqrt_nonneg _)]
    rw [hun, mul_one] at hb
    calc v.norm * (d2.xyz - v.unit).norm ≤ v.norm * (angleSize a + angleSize b) := mul_le_mul_of_nonneg_left hb (Real.sqrt_nonneg _)
      _ = _ := mul_comm _ _

/-- **C189** Without scattering the image of a distant point source is a point. -/
theorem C189_sharp (m : M4) (f dOptax : ℝ) (refl : ℝ → ℝ → ℝ) (filters : List (ℝ → ℝ)) (u : H4) :
    ∃ F : V3, F = (center m).xyz - dOptax • (eZ m).xyz + f • u.xyz.unit ∧
      ∀ (r s : Ray) (q d' : H4), r.dir = some u → (Optic.plane m).Hit r →
        flatStack m (mirrorStack f dOptax refl none none filters) r = .ok s → s.pos = some q → s.dir = some d' → ∃ t : ℝ, 0 ≤ t ∧ q.xyz + t • d'.xyz = F := by
  obtain ⟨F, h1, h2⟩ := C189_image m f dOptax u
  refine ⟨F, h1, fun r s q d' hu hh hs hq hd => ?_⟩
  obtain ⟨t, ht, e⟩ := h2 refl none none filters r s q d' hu hh hs hq hd
  refine ⟨t, ht, ?_⟩
  simp only [angleSize, Option.getD_none, abs_zero, add_zero, zero_mul] at e
  have h0 : q.xyz + t • d'.xyz - F = 0 := by
    by_contra hc
    have := V3.norm_pos hc
    linarith
  have hx := congrArg V3.x h0; have hy := congrArg V3.y h0; have hz := congrArg V3.z h0
  simp at hx hy hz
  ext <;> simp <;> linarith

/-- A mirror with focal length 10, reflectivity 1, some scatter and a filter: the photon hits it and has a direction afterwards. -/
example : (Optic.plane 1).Hit axisRay ∧ ∃ (s : Ray) (q d' : H4), flatStack 1 (mirrorStack 10 0 (fun _ _ => 1) none (some (1 / 1000)) [fun _ => 0.66]) axisRay = .ok s ∧
    s.pos = some q ∧ s.dir = some d' ∧ s.prob = some 0.66 := by
  obtain ⟨e1, e2, e3, e4, e5, e6⟩ := unitAxes
  have hh : axisRay.hit 1 = some (⟨-1, 0, 0, 0⟩, ⟨0, 1 / 2, 0, 1⟩, 1 / 2, 0, ⟨2, 1 / 2, 0, 1⟩) := by
    simp only [Ray.hit, axisRay, axisRay_hit]
  have hhit : (Optic.plane 1).Hit axisRay := (Hit_iff _ 1 rfl _).2 (by rw [hh]; simp)
  have hdir : axisRay.dir = some ⟨-1, 0, 0, 0⟩ := rfl
  have hen : axisRay.energy = 1 := rfl
  have hv : filterValue (fun _ => (0.66 : ℝ)) 1 = .ok 0.66 := by rw [filterValue, if_neg]; norm_num
  have hl : ∀ pol, ∃ o, perfectLens 1 10 0 (fun _ _ => 1) ⟨-1, 0, 0, 0⟩ pol ⟨0, 1 / 2, 0, 1⟩ 1 = some o ∧ o.prob = 1 := by
    intro pol
    have h0 : (⟨-1, 0, 0, 0⟩ : H4).xyz ≠ 0 := by intro h; have := congrArg V3.x h; simp at this
    have hf : focusPoint 1 10 0 (⟨-1, 0, 0, 0⟩ : H4).xyz - (⟨0, 1 / 2, 0, 1⟩ : H4).xyz ≠ 0 := by
      intro h
      have := congrArg V3.y h
      simp [focusPoint, e4, V3.unit] at this
    simp only [perfectLens, if_neg h0, if_neg hf]
    exact ⟨_, rfl, by norm_num⟩
  obtain ⟨o, ho, hop⟩ := hl ⟨0, 0, 0, 0⟩
  have hr : ∀ (d pol : H4), ∃ x, radialScatter 1 d ⟨0, 1 / 2, 0, 1⟩ pol none (some (1 / 1000)) = some x := by
    intro d pol
    have hrad : (⟨0, 1 / 2, 0, 1⟩ : H4).xyz - (center 1).xyz ≠ 0 := by
      intro h
      have := congrArg V3.y h
      simp [e4] at this
    obtain ⟨w, hw⟩ := turn_some hrad (1 / 1000) d.xyz
    simp only [radialScatter, hw]
    exact ⟨_, rfl⟩
  obtain ⟨x, hx⟩ := hr o.dir ⟨0, 0, 0, 0⟩
  refine ⟨hhit, ?_⟩
  simp only [flatStack, hh, mirrorStack, List.map_cons, List.map_nil, rayLayers, Layer.process, hdir, hen, ho, Option.map_some, Ray.times, Ray.at, hx, hv]
  refine ⟨_, _, _, rfl, rfl, rfl, ?_⟩
  simp [axisRay, hop]

end Marxs
