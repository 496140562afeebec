import Verif.Model.Focus
import Verif.Spec.Focus
import Verif.Props.Geometry

/-!
# C110: search for the best focus
-/

namespace Marxs
open Classical

theorem axis_dots {o : M3} (ho : IsRotation o) :
    (axisOf o 0).dot (axisOf o 0) = 1 ∧ (axisOf o 1).dot (axisOf o 1) = 1 ∧ (axisOf o 2).dot (axisOf o 2) = 1 ∧
    (axisOf o 0).dot (axisOf o 1) = 0 ∧ (axisOf o 0).dot (axisOf o 2) = 0 ∧ (axisOf o 1).dot (axisOf o 2) = 0 := by
  have e := fun i j => congrFun (congrFun ho.1 i) j
  have e00 := e 0 0; have e01 := e 0 1; have e02 := e 0 2
  have e11 := e 1 1; have e12 := e 1 2; have e22 := e 2 2
  simp [Matrix.mul_apply, Fin.sum_univ_three] at e00 e01 e02 e11 e12 e22
  simp only [axisOf, V3.dot]
  exact ⟨e00, e11, e22, e01, e02, e12⟩

theorem focus_axes {o : M3} (ho : IsRotation o) (x : ℝ) :
    eX (focusPos4d o x) = ⟨(axisOf o 0).x, (axisOf o 0).y, (axisOf o 0).z, 0⟩ ∧
    eY (focusPos4d o x) = ⟨(axisOf o 1).x, (axisOf o 1).y, (axisOf o 1).z, 0⟩ ∧
    eZ (focusPos4d o x) = ⟨(axisOf o 2).x, (axisOf o 2).y, (axisOf o 2).z, 0⟩ ∧
    (vY (focusPos4d o x)).norm = 100000 ∧ (vZ (focusPos4d o x)).norm = 100000 := by
  obtain ⟨h0, h1, h2, _⟩ := axis_dots ho
  have nrm : ∀ a b c : ℝ, (⟨a, b, c⟩ : V3).dot ⟨a, b, c⟩ = 1 →
      (⟨a * 100000, b * 100000, c * 100000, 0⟩ : H4).norm = 100000 := by
    intro a b c h
    have : (⟨a * 100000, b * 100000, c * 100000, 0⟩ : H4).dot ⟨a * 100000, b * 100000, c * 100000, 0⟩ = 100000 ^ 2 := by
      simp only [V3.dot] at h
      simp only [H4.dot]
      linear_combination 100000 ^ 2 * h
    rw [H4.norm, this, Real.sqrt_sq (by norm_num)]
  have key : ∀ a b c : ℝ, (⟨a, b, c⟩ : V3).dot ⟨a, b, c⟩ = 1 →
      (⟨a * 100000, b * 100000, c * 100000, 0⟩ : H4).unit = ⟨a, b, c, 0⟩ := by
    intro a b c h
    rw [H4.unit, nrm a b c h]
    ext <;> simp <;> ring
  simp only [axisOf] at h0 h1 h2
  refine ⟨?_, ?_, ?_, ?_, ?_⟩
  · simpa [eX, vX, col, focusPos4d, compose, axisOf] using key _ _ _ h0
  · simpa [eY, vY, col, focusPos4d, compose, axisOf] using key _ _ _ h1
  · simpa [eZ, vZ, col, focusPos4d, compose, axisOf] using key _ _ _ h2
  · simpa [vY, col, focusPos4d, compose] using nrm _ _ _ h1
  · simpa [vZ, col, focusPos4d, compose] using nrm _ _ _ h2

/-- The intersection with the trial detector in terms of the axes. -/
theorem focus_intersect {o : M3} (ho : IsRotation o) (x : ℝ) (dir pos : H4) (hd : IsDir dir) (hp : IsPoint pos) :
    (planeIntersect (focusPos4d o x) dir pos).map Prod.snd =
      if dir.xyz.dot (axisOf o 0) = 0 then none
      else
        let k := (x - pos.xyz.dot (axisOf o 0)) / dir.xyz.dot (axisOf o 0)
        let q := pos.xyz + k • dir.xyz
        if 0 ≤ k ∧ |q.dot (axisOf o 1)| ≤ 100000 ∧ |q.dot (axisOf o 2)| ≤ 100000 then
          some (q.dot (axisOf o 1), q.dot (axisOf o 2)) else none := by
  obtain ⟨f0, f1, f2, n1, n2⟩ := focus_axes ho x
  obtain ⟨h0, h1, h2, h01, h02, h12⟩ := axis_dots ho
  obtain ⟨dx, dy, dz, dw⟩ := dir
  obtain ⟨px, py, pz, pw⟩ := pos
  simp only [IsDir, IsPoint] at hd hp
  subst hd hp
  have hc : center (focusPos4d o x) = ⟨(axisOf o 0).x * x, (axisOf o 0).y * x, (axisOf o 0).z * x, 1⟩ := by
    simp [center, col, focusPos4d, compose, axisOf]
  simp only [planeIntersect, f0, f1, f2, n1, n2, hc]
  generalize axisOf o 0 = a at *
  generalize axisOf o 1 = b at *
  generalize axisOf o 2 = c at *
  have e1 : (⟨dx, dy, dz, 0⟩ : H4).dot ⟨a.x, a.y, a.z, 0⟩ = (⟨dx, dy, dz⟩ : V3).dot a := by
    simp [H4.dot, V3.dot]
  have e2 : ((⟨a.x * x, a.y * x, a.z * x, 1⟩ : H4) - ⟨px, py, pz, 1⟩).dot ⟨a.x, a.y, a.z, 0⟩ =
      x - (⟨px, py, pz⟩ : V3).dot a := by
    simp only [V3.dot] at h0
    simp [H4.dot, V3.dot]
    linear_combination x * h0
  have e3 : ∀ (k : ℝ) (v : V3), a.dot v = 0 →
      ((⟨px, py, pz, 1⟩ : H4) + k • (⟨dx, dy, dz, 0⟩ : H4) - ⟨a.x * x, a.y * x, a.z * x, 1⟩).dot ⟨v.x, v.y, v.z, 0⟩ =
        ((⟨px, py, pz⟩ : V3) + k • (⟨dx, dy, dz⟩ : V3)).dot v := by
    intro k v h
    simp only [V3.dot] at h
    simp [H4.dot, V3.dot]
    linear_combination -x * h
  rw [e1, e2, e3 _ b h01, e3 _ c h02]
  simp only [H4.xyz]
  by_cases hk : (⟨dx, dy, dz⟩ : V3).dot a = 0
  · simp only [hk, if_true, Option.map_none]
  · simp only [hk, if_false]
    split
    · rename_i h; simp only [h, Option.map_some, and_self, if_true]
    · rename_i h; simp only [h, Option.map_none, if_false]

theorem sum_dot (ps : List V3) (v : V3) :
    (ps.map fun p => p.dot v).sum = (ps.map V3.x).sum * v.x + (ps.map V3.y).sum * v.y + (ps.map V3.z).sum * v.z := by
  induction ps with
  | nil => simp
  | cons p ps ih =>
    simp only [List.map_cons, List.sum_cons]
    rw [ih]
    simp only [V3.dot]
    ring

theorem centroid_dot (ps : List V3) (v : V3) : (centroid ps).dot v = meanOf (ps.map fun p => p.dot v) := by
  rw [meanOf, sum_dot]
  simp only [List.length_map, centroid, V3.dot]
  ring

theorem meanWidth_plane {o : M3} (ho : IsRotation o) (x : ℝ) (ps : List V3) (hne : ps ≠ [])
    (hx : ∀ p ∈ ps, p.dot (axisOf o 0) = x) :
    meanWidth2d (ps.map fun p => some (p.dot (axisOf o 1), p.dot (axisOf o 2))) = some (spread ps) := by
  obtain ⟨h0, h1, h2, h01, h02, h12⟩ := axis_dots ho
  have hlen : (ps.length : ℝ) ≠ 0 := by
    simpa [List.length_eq_zero_iff] using hne
  have hcx : (centroid ps).dot (axisOf o 0) = x := by
    rw [centroid_dot, meanOf]
    have : (ps.map fun p => p.dot (axisOf o 0)) = List.replicate ps.length x := by
      rw [← List.map_const']
      exact List.map_congr_left hx
    rw [this]
    simp
    field_simp
  unfold meanWidth2d
  rw [if_neg (by simp [hne])]
  have hf : (ps.map fun p => some (p.dot (axisOf o 1), p.dot (axisOf o 2))).filterMap id =
      ps.map fun p => (p.dot (axisOf o 1), p.dot (axisOf o 2)) := by
    rw [List.filterMap_map]
    simp
  simp only [hf, List.map_map, List.length_map, Option.some.injEq]
  have m1 : meanOf (ps.map (Prod.fst ∘ fun p => (p.dot (axisOf o 1), p.dot (axisOf o 2)))) =
      (centroid ps).dot (axisOf o 1) := by
    rw [centroid_dot]; rfl
  have m2 : meanOf (ps.map (Prod.snd ∘ fun p => (p.dot (axisOf o 1), p.dot (axisOf o 2)))) =
      (centroid ps).dot (axisOf o 2) := by
    rw [centroid_dot]; rfl
  rw [m1, m2, spread]
  congr 2
  apply List.map_congr_left
  intro p hp
  simp only [Function.comp]
  rw [V3.norm]
  congr 1
  generalize hw : p - centroid ps = w
  have hw0 : w.dot (axisOf o 0) = 0 := by
    rw [← hw]
    have := hx p hp
    simp only [V3.dot] at this hcx ⊢
    simp
    linarith
  have d1 : w.dot (axisOf o 1) = p.dot (axisOf o 1) - (centroid ps).dot (axisOf o 1) := by
    rw [← hw]; simp [V3.dot]; ring
  have d2 : w.dot (axisOf o 2) = p.dot (axisOf o 2) - (centroid ps).dot (axisOf o 2) := by
    rw [← hw]; simp [V3.dot]; ring
  rw [← d1, ← d2]
  have hexp := ortho_expand h0 h1 h2 h01 h02 h12 w
  rw [hw0] at hexp
  generalize w.dot (axisOf o 1) = s at *
  generalize w.dot (axisOf o 2) = t at *
  rw [hexp]
  generalize axisOf o 0 = a at *
  generalize axisOf o 1 = b at *
  generalize axisOf o 2 = c at *
  simp only [V3.dot] at h1 h2 h12
  simp [V3.dot]
  linear_combination -s ^ 2 * h1 - t ^ 2 * h2 - 2 * s * t * h12

/-- **C110** For every position of the trial detector that all photons reach, the function to be minimized is the average distance of
the points where the photons pass the plane of the detector from their center of mass. In
particular it depends only on the plane, not on how the detector is rotated in that plane. -/
theorem C110_width (o : M3) (ho : IsRotation o) (x : ℝ) (photons : List (H4 × H4)) (hne : photons ≠ [])
    (hv : ∀ p ∈ photons, IsDir p.1 ∧ IsPoint p.2 ∧ p.1.xyz.dot (axisOf o 0) ≠ 0) (hit : H4 × H4 → V3)
    (hhit : ∀ p ∈ photons, FliesThrough p (hit p) ∧ OnTrialDetector o x (hit p)) :
    focusWidth o photons x = some (spread (photons.map hit)) := by
  rw [← meanWidth_plane ho x (photons.map hit) (by simpa using hne) (by
    intro q hq
    obtain ⟨p, hp, rfl⟩ := List.mem_map.1 hq
    exact (hhit p hp).2.1)]
  unfold focusWidth
  rw [List.map_map]
  congr 1
  apply List.map_congr_left
  intro p hp
  obtain ⟨h1, h2, h3⟩ := hv p hp
  obtain ⟨⟨k, hk, hq⟩, hx, hy, hz⟩ := hhit p hp
  rw [focus_intersect ho x p.1 p.2 h1 h2, if_neg h3]
  have hke : (x - p.2.xyz.dot (axisOf o 0)) / p.1.xyz.dot (axisOf o 0) = k := by
    rw [div_eq_iff h3, ← hx, hq]
    simp [V3.dot]
    ring
  simp only [hke, ← hq, Function.comp]
  rw [if_pos ⟨hk, hy, hz⟩]

/-- **C110** The result is a number if and only if there are photons and all of them reach the detector, flying forward. A single photon that has
passed the position of the detector already makes it NaN. -/
theorem C110_defined (o : M3) (ho : IsRotation o) (x : ℝ) (photons : List (H4 × H4))
    (hv : ∀ p ∈ photons, IsDir p.1 ∧ IsPoint p.2) :
    (focusWidth o photons x).isSome ↔ photons ≠ [] ∧
      ∀ p ∈ photons, p.1.xyz.dot (axisOf o 0) ≠ 0 ∧ ∃ q, FliesThrough p q ∧ OnTrialDetector o x q := by
  constructor
  · intro h
    unfold focusWidth meanWidth2d at h
    split at h
    · simp at h
    · rename_i hn
      push Not at hn
      obtain ⟨hn1, hn2⟩ := hn
      refine ⟨by simpa using hn2, ?_⟩
      intro p hp
      obtain ⟨h1, h2⟩ := hv p hp
      have hsome : (planeIntersect (focusPos4d o x) p.1 p.2).map Prod.snd ≠ none := by
        intro h0
        exact hn1 (List.mem_map.2 ⟨p, hp, h0⟩)
      rw [focus_intersect ho x p.1 p.2 h1 h2] at hsome
      split at hsome
      · simp at hsome
      · rename_i h3
        simp only at hsome
        split at hsome
        · rename_i h4
          refine ⟨h3, _, ⟨_, h4.1, rfl⟩, ?_, h4.2.1, h4.2.2⟩
          have : ∀ (a b c : V3) (k : ℝ), (a + k • b).dot c = a.dot c + k * b.dot c := by
            intro a b c k; simp [V3.dot]; ring
          rw [this, div_mul_cancel₀ _ h3]
          ring
        · simp at hsome
  · rintro ⟨hne, hall⟩
    have : ∀ p : H4 × H4, ∃ q, p ∈ photons → FliesThrough p q ∧ OnTrialDetector o x q := by
      intro p
      by_cases hp : p ∈ photons
      · obtain ⟨_, q, hq⟩ := hall p hp
        exact ⟨q, fun _ => hq⟩
      · exact ⟨0, fun h => absurd h hp⟩
    choose hit hhit using this
    rw [C110_width o ho x photons hne (fun p hp => ⟨(hv p hp).1, (hv p hp).2, (hall p hp).1⟩) hit hhit]
    rfl

theorem norm_eq_zero_iff' (v : V3) : v.norm = 0 ↔ v = 0 := by
  constructor
  · intro h
    by_contra h0
    exact (V3.norm_pos h0).ne' h
  · rintro rfl
    simp [V3.norm, V3.dot]

theorem spread_nonneg (ps : List V3) : 0 ≤ spread ps := by
  unfold spread
  apply div_nonneg _ (by positivity)
  apply List.sum_nonneg
  intro r hr
  obtain ⟨p, _, rfl⟩ := List.mem_map.1 hr
  exact Real.sqrt_nonneg _

/-- A spot has no size if and only if all points are the same. -/
theorem spread_eq_zero (ps : List V3) : spread ps = 0 ↔ ∀ p ∈ ps, ∀ q ∈ ps, p = q := by
  rcases eq_or_ne ps [] with rfl | hne
  · simp [spread]
  have hlen : (ps.length : ℝ) ≠ 0 := by simpa [List.length_eq_zero_iff] using hne
  unfold spread
  rw [div_eq_zero_iff, or_iff_left hlen]
  constructor
  · intro h
    have hz : ∀ r ∈ ps.map (fun p => (p - centroid ps).norm), r = 0 := by
      intro r hr
      apply le_antisymm
      · rw [← h]
        exact List.single_le_sum (by
          intro r hr
          obtain ⟨p, _, rfl⟩ := List.mem_map.1 hr
          exact Real.sqrt_nonneg _) r hr
      · obtain ⟨p, _, rfl⟩ := List.mem_map.1 hr
        exact Real.sqrt_nonneg _
    have hc : ∀ p ∈ ps, p = centroid ps := by
      intro p hp
      have := (norm_eq_zero_iff' _).1 (hz _ (List.mem_map.2 ⟨p, hp, rfl⟩))
      have h1 := congrArg V3.x this
      have h2 := congrArg V3.y this
      have h3 := congrArg V3.z this
      simp at h1 h2 h3
      ext <;> linarith
    intro p hp q hq
    rw [hc p hp, hc q hq]
  · intro h
    obtain ⟨p0, hp0⟩ := List.exists_mem_of_ne_nil ps hne
    have hrep : ps = List.replicate ps.length p0 := List.eq_replicate_iff.2 ⟨rfl, fun b hb => h b hb p0 hp0⟩
    have hc : centroid ps = p0 := by
      rw [hrep]
      unfold centroid
      ext <;> simp <;> field_simp
    apply List.sum_eq_zero
    intro r hr
    obtain ⟨p, hp, rfl⟩ := List.mem_map.1 hr
    rw [norm_eq_zero_iff', hc, h p hp p0 hp0]
    ext <;> simp

/-- **C110** If all photons fly through one point `f`, the function has its minimum, zero, at the position of `f`,
and if at least two of the photons come from different directions it is strictly positive at all other positions, so the position of the
focus is the only minimum. -/
theorem C110_focus (o : M3) (ho : IsRotation o) (photons : List (H4 × H4)) (hne : photons ≠ []) (f : V3)
    (hv : ∀ p ∈ photons, IsDir p.1 ∧ IsPoint p.2 ∧ p.1.xyz.dot (axisOf o 0) ≠ 0)
    (hf : ∀ p ∈ photons, FliesThrough p f) (hy : |f.dot (axisOf o 1)| ≤ 100000) (hz : |f.dot (axisOf o 2)| ≤ 100000) :
    focusWidth o photons (f.dot (axisOf o 0)) = some 0 ∧
    ∀ x w, focusWidth o photons x = some w → 0 ≤ w ∧
      (x ≠ f.dot (axisOf o 0) → (∃ p ∈ photons, ∃ q ∈ photons, ¬ ∃ s : ℝ, p.1.xyz = s • q.1.xyz) → 0 < w) := by
  constructor
  · rw [C110_width o ho _ photons hne hv (fun _ => f) (fun p hp => ⟨hf p hp, rfl, hy, hz⟩)]
    congr 1
    rw [spread_eq_zero]
    intro p hp q hq
    simp only [List.mem_map] at hp hq
    obtain ⟨_, _, rfl⟩ := hp
    obtain ⟨_, _, rfl⟩ := hq
    rfl
  · intro x w hw
    obtain ⟨_, hall⟩ := (C110_defined o ho x photons (fun p hp => ⟨(hv p hp).1, (hv p hp).2.1⟩)).1 (by rw [hw]; rfl)
    have : ∀ p : H4 × H4, ∃ q, p ∈ photons → FliesThrough p q ∧ OnTrialDetector o x q := by
      intro p
      by_cases hp : p ∈ photons
      · obtain ⟨_, q, hq⟩ := hall p hp
        exact ⟨q, fun _ => hq⟩
      · exact ⟨0, fun h => absurd h hp⟩
    choose hit hhit using this
    rw [C110_width o ho x photons hne hv hit hhit] at hw
    simp only [Option.some.injEq] at hw
    subst hw
    refine ⟨spread_nonneg _, ?_⟩
    rintro hx ⟨p, hp, q, hq, hpq⟩
    refine lt_of_le_of_ne (spread_nonneg _) ?_
    intro h0
    have hsame := (spread_eq_zero _).1 h0.symm (hit p) (List.mem_map.2 ⟨p, hp, rfl⟩) (hit q) (List.mem_map.2 ⟨q, hq, rfl⟩)
    apply hpq
    obtain ⟨⟨k1, _, e1⟩, x1, _⟩ := hhit p hp
    obtain ⟨⟨k2, _, e2⟩, x2, _⟩ := hhit q hq
    obtain ⟨j1, _, g1⟩ := hf p hp
    obtain ⟨j2, _, g2⟩ := hf q hq
    have hd1 : hit p - f = (k1 - j1) • p.1.xyz := by rw [e1, g1]; ext <;> simp <;> ring
    have hd2 : hit q - f = (k2 - j2) • q.1.xyz := by rw [e2, g2]; ext <;> simp <;> ring
    have hne1 : k1 - j1 ≠ 0 := by
      intro h
      rw [h] at hd1
      apply hx
      rw [← x1]
      have hX := congrArg V3.x hd1
      have hY := congrArg V3.y hd1
      have hZ := congrArg V3.z hd1
      simp at hX hY hZ
      simp only [V3.dot]
      rw [show (hit p).x = f.x by linarith, show (hit p).y = f.y by linarith, show (hit p).z = f.z by linarith]
    refine ⟨(k2 - j2) / (k1 - j1), ?_⟩
    have heq : (k1 - j1) • p.1.xyz = (k2 - j2) • q.1.xyz := by rw [← hd1, ← hd2, hsame]
    have hX := congrArg V3.x heq
    have hY := congrArg V3.y heq
    have hZ := congrArg V3.z heq
    simp at hX hY hZ
    ext <;> simp <;> rw [div_mul_eq_mul_div, eq_div_iff hne1] <;> linarith

/-- **C110** A detector position that some photon has passed already gives NaN, not a number. -/
theorem C110_behind (o : M3) (ho : IsRotation o) (x : ℝ) (photons : List (H4 × H4))
    (hv : ∀ p ∈ photons, IsDir p.1 ∧ IsPoint p.2) (p : H4 × H4) (hp : p ∈ photons)
    (hb : p.1.xyz.dot (axisOf o 0) < 0) (hx : p.2.xyz.dot (axisOf o 0) < x) : focusWidth o photons x = none := by
  cases h : focusWidth o photons x with
  | none => rfl
  | some w =>
    obtain ⟨_, hall⟩ := (C110_defined o ho x photons hv).1 (by rw [h]; rfl)
    obtain ⟨_, q, ⟨k, hk, rfl⟩, hq, _⟩ := hall p hp
    exfalso
    have : k * p.1.xyz.dot (axisOf o 0) ≤ 0 := mul_nonpos_of_nonneg_of_nonpos hk hb.le
    simp only [V3.dot] at this hx hq
    simp at hq this hx
    linarith

/-- Two photons that cross in the origin, flying in direction `-x` (example). -/
noncomputable def exCrossing : List (H4 × H4) :=
  [(⟨-1, 1, 0, 0⟩, ⟨1, -1, 0, 1⟩), (⟨-1, 0, 1, 0⟩, ⟨1, 0, -1, 1⟩)]

example : IsRotation (1 : M3) ∧ exCrossing ≠ [] ∧ (∀ p ∈ exCrossing, IsDir p.1 ∧ IsPoint p.2 ∧
    p.1.xyz.dot (axisOf 1 0) ≠ 0) ∧ (∀ p ∈ exCrossing, FliesThrough p 0) ∧
    (∃ p ∈ exCrossing, ∃ q ∈ exCrossing, ¬ ∃ s : ℝ, p.1.xyz = s • q.1.xyz) ∧
    (focusWidth 1 exCrossing (1 / 2)).isSome := by
  have hv : ∀ p ∈ exCrossing, IsDir p.1 ∧ IsPoint p.2 ∧ p.1.xyz.dot (axisOf 1 0) ≠ 0 := by
    intro p hp
    simp only [exCrossing, List.mem_cons, List.not_mem_nil, or_false] at hp
    rcases hp with rfl | rfl <;> simp [IsDir, IsPoint, V3.dot, axisOf]
  refine ⟨by simp [IsRotation], by simp [exCrossing], hv, ?_, ?_, ?_⟩
  · intro p hp
    simp only [exCrossing, List.mem_cons, List.not_mem_nil, or_false] at hp
    rcases hp with rfl | rfl <;> exact ⟨1, zero_le_one, by ext <;> simp⟩
  · refine ⟨(⟨-1, 1, 0, 0⟩, ⟨1, -1, 0, 1⟩), by simp [exCrossing], (⟨-1, 0, 1, 0⟩, ⟨1, 0, -1, 1⟩), by simp [exCrossing], ?_⟩
    rintro ⟨s, hs⟩
    simpa using congrArg V3.y hs
  · rw [C110_defined 1 (by simp [IsRotation]) _ _ (fun p hp => ⟨(hv p hp).1, (hv p hp).2.1⟩)]
    refine ⟨by simp [exCrossing], ?_⟩
    intro p hp
    refine ⟨(hv p hp).2.2, p.2.xyz + (1 / 2 : ℝ) • p.1.xyz, ⟨1 / 2, by norm_num, rfl⟩, ?_⟩
    simp only [exCrossing, List.mem_cons, List.not_mem_nil, or_false] at hp
    rcases hp with rfl | rfl <;> simp [OnTrialDetector, V3.dot, axisOf] <;> norm_num [abs_le]

end Marxs
