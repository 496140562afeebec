import Mathlib.Analysis.SpecialFunctions.Log.Basic
import Verif.Model.MultiLayer
import Verif.Props.Optics
import Verif.Props.Analysis
import Verif.Props.Osip

/-!
# C139: reflectivity of multi-layer mirrors
-/

namespace Marxs
open Classical

theorem ml_node {vy : ℝ} (hv : 0 < vy) (rows : List ReflRow) (hs : rows.Pairwise fun a b => a.x < b.x) (f : ReflRow → ℝ) (row : ReflRow) (hr : row ∈ rows) :
    interp ((row.x - vy) / vy) (rows.map fun r => (r.x / vy - 1, f r)) = some (f row) := by
  apply interp_node
  · rw [List.pairwise_map]
    refine hs.imp fun h => ?_
    have := div_lt_div_of_pos_right h hv
    simpa using this
  · refine List.mem_map.2 ⟨row, hr, ?_⟩
    rw [sub_div, div_self hv.ne']

theorem pol_node (pol : List (ℝ × ℝ)) (hs : pol.Pairwise fun a b => a.1 < b.1) {e f : ℝ} (h : (e, f) ∈ pol) :
    interp (e / 1000) (pol.map fun p => (p.1 / 1000, p.2)) = some f := by
  apply interp_node
  · rw [List.pairwise_map]
    exact hs.imp fun h => by simpa using div_lt_div_of_pos_right h (by norm_num : (0 : ℝ) < 1000)
  · exact List.mem_map.2 ⟨_, h, rfl⟩

theorem multiLayerProb_eq (energy w m s : ℝ) (hs : s ≠ 0) :
    multiLayerProb energy w m s = m / 100 * 2 ^ (-(2 * (1.23984282 / energy - w) / s) ^ 2) := by
  have hl : Real.log 2 ≠ 0 := (Real.log_pos one_lt_two).ne'
  have h0 : s ^ 2 / (8 * Real.log 2) ≠ 0 := div_ne_zero (pow_ne_zero 2 hs) (mul_ne_zero (by norm_num) hl)
  unfold multiLayerProb
  simp only [h0, if_false]
  rw [Real.rpow_def_of_pos (by norm_num : (0 : ℝ) < 2)]
  rw [show -(1.23984282 / energy - w) ^ 2 / (2 * (s ^ 2 / (8 * Real.log 2))) = Real.log 2 * -(2 * (1.23984282 / energy - w) / s) ^ 2 by field_simp; ring]
  ring

/-- **C139** At a place and energy that are listed in the files (counted from the edge of the mirror in mm, energies in eV), a photon at the wavelength of the peak is reflected with the listed reflectivity in percent, divided by the fraction of polarized light; and half a listed full width away with half of that. -/
theorem C139_table (vy : ℝ) (hv : 0 < vy) (rows : List ReflRow) (hs : rows.Pairwise fun a b => a.x < b.x) (row : ReflRow) (hr : row ∈ rows) (hw : row.fwhm ≠ 0)
    (pol : List (ℝ × ℝ)) (hp : pol.Pairwise fun a b => a.1 < b.1) (eV f : ℝ) (he : (eV, f) ∈ pol) (hf : f ≠ 0) :
    (1.23984282 / (eV / 1000) = row.wave → multiLayerEff vy rows pol (eV / 1000) (row.x - vy) = some (row.refl / f / 100)) ∧
    (|1.23984282 / (eV / 1000) - row.wave| = |row.fwhm| / 2 → multiLayerEff vy rows pol (eV / 1000) (row.x - vy) = some (row.refl / f / 100 / 2)) := by
  have h : multiLayerEff vy rows pol (eV / 1000) (row.x - vy) = some (row.refl / f / 100 * 2 ^ (-(2 * (1.23984282 / (eV / 1000) - row.wave) / row.fwhm) ^ 2)) := by
    simp only [multiLayerEff, multiLayerInterp, pol_node pol hp he, ml_node hv rows hs _ row hr, hf, if_false, multiLayerProb_eq _ _ _ _ hw]
  rw [h]
  constructor
  · intro h1
    rw [h1]
    simp
  · intro h1
    have : (2 * (1.23984282 / (eV / 1000) - row.wave) / row.fwhm) ^ 2 = 1 := by
      rw [← sq_abs, abs_div, abs_mul, h1, abs_two, mul_div_cancel₀ _ two_ne_zero, div_self (abs_ne_zero.2 hw)]
      norm_num
    rw [this, Real.rpow_neg_one]
    simp only [Option.some.injEq]
    ring

/-- **C139** If the listed reflectivities are possible (not negative, and not more than the share of the light in the reflected polarization), the result for every photon at every place and energy is a probability. -/
theorem C139_probability (vy : ℝ) (rows : List ReflRow) (pol : List (ℝ × ℝ)) (energy loc f0 : ℝ) (h0 : 0 < f0) (hr : rows ≠ []) (hp : pol ≠ [])
    (hpol : ∀ p ∈ pol, f0 ≤ p.2) (hrows : ∀ r ∈ rows, 0 ≤ r.refl ∧ r.refl ≤ 100 * f0) :
    ∃ q, multiLayerEff vy rows pol energy loc = some q ∧ 0 ≤ q ∧ q ≤ 1 := by
  have hex : ∀ g : ReflRow → ℝ, ∃ v, interp (loc / vy) (rows.map fun r => (r.x / vy - 1, g r)) = some v := fun g => interp_some _ _ (by simpa using hr)
  obtain ⟨f, hf⟩ := interp_some energy (pol.map fun p => (p.1 / 1000, p.2)) (by simpa using hp)
  obtain ⟨w, hw⟩ := hex ReflRow.wave
  obtain ⟨m, hm⟩ := hex ReflRow.refl
  obtain ⟨s, hs⟩ := hex ReflRow.fwhm
  obtain ⟨M, hM⟩ : ∃ M, ∀ p ∈ pol, p.2 ≤ M := by
    obtain ⟨M, hM⟩ := (pol.map Prod.snd).toFinset.bddAbove
    exact ⟨M, fun p hp => hM (by simp only [Finset.mem_coe, List.mem_toFinset]; exact List.mem_map.2 ⟨p, hp, rfl⟩)⟩
  have hf1 : f0 ≤ f := (interp_range (hi := M) _ _ (by
    intro p hp
    obtain ⟨q, hq, rfl⟩ := List.mem_map.1 hp
    exact ⟨hpol q hq, hM q hq⟩) hf).1
  have hm1 := interp_range (lo := 0) (hi := 100 * f0) _ _ (by
    intro p hp
    obtain ⟨q, hq, rfl⟩ := List.mem_map.1 hp
    exact hrows q hq) hm
  have hfp : 0 < f := lt_of_lt_of_le h0 hf1
  refine ⟨multiLayerProb energy w (m / f) s, ?_, ?_⟩
  · simp only [multiLayerEff, multiLayerInterp, hf, hw, hm, hs, hfp.ne', if_false]
  · by_cases hz : s = 0
    · simp [multiLayerProb, hz]
    · rw [multiLayerProb_eq _ _ _ _ hz]
      have e1 : (2 : ℝ) ^ (-(2 * (1.23984282 / energy - w) / s) ^ 2) ≤ 1 := Real.rpow_le_one_of_one_le_of_nonpos one_le_two (neg_nonpos.2 (sq_nonneg _))
      have e2 : 0 ≤ (2 : ℝ) ^ (-(2 * (1.23984282 / energy - w) / s) ^ 2) := Real.rpow_nonneg (by norm_num) _
      have e3 : 0 ≤ m / f / 100 := div_nonneg (div_nonneg hm1.1 hfp.le) (by norm_num)
      have e4 : m / f / 100 ≤ 1 := by
        rw [div_div, div_le_one (by positivity)]
        nlinarith [hm1.2]
      exact ⟨mul_nonneg e3 e2, by nlinarith⟩

/-- The probability of the Brewster mirror, with the direction perpendicular to the plane of incidence. -/
theorem brewster_prob (m : M4) (hm : Affine m) (ho : OrthoAxes m) (dir : H4) (hd : IsDir dir) (hdn : dir.xyz.cross (vX m).xyz ≠ 0) :
    ∃ s : V3, s.dot s = 1 ∧ s.dot dir.unit.xyz = 0 ∧ ∀ pol : H4, (pol.xyz.dot s) ^ 2 ≤ 1 → ∃ out, brewster m 1 0 dir pol = .ok (some out) ∧ out.prob = (pol.xyz.dot s) ^ 2 := by
  have wx : (vX m).w = 0 := hm.1
  have hd0 : dir.xyz ≠ 0 := by
    intro h; apply hdn; rw [h]; ext <;> simp
  have hdd : dir.dot dir ≠ 0 := fun h => hd0 ((H4.dot_self_eq_zero hd).1 h)
  have ux : dir.unit.xyz = dir.xyz.unit := unit_xyz _ hd
  have ex : (eX m).xyz = (vX m).xyz.unit := unit_xyz _ wx
  have cross_eq : dir.unit.xyz.cross (eX m).xyz =
      (1 / dir.xyz.norm * (1 / (vX m).xyz.norm)) • dir.xyz.cross (vX m).xyz := by
    rw [ux, ex]; ext <;> simp [V3.unit] <;> ring
  have s0 : dir.unit.xyz.cross (eX m).xyz ≠ 0 := by
    rw [cross_eq]
    intro h
    apply hdn
    have c0 : 1 / dir.xyz.norm * (1 / (vX m).xyz.norm) ≠ 0 :=
      mul_ne_zero (one_div_ne_zero (V3.norm_ne_zero hd0)) (one_div_ne_zero (V3.norm_ne_zero ho.x0))
    have hx := congrArg V3.x h; have hy := congrArg V3.y h; have hz := congrArg V3.z h
    simp only [V3.smul_x, V3.smul_y, V3.smul_z, V3.zero_x, V3.zero_y, V3.zero_z, mul_eq_zero, c0,
      false_or] at hx hy hz
    ext
    · exact hx
    · exact hy
    · exact hz
  refine ⟨(dir.unit.xyz.cross (eX m).xyz).unit, V3.unit_dot_unit s0, ?_, ?_⟩
  · rw [V3.unit, V3.dot_smul_left, V3.dot_comm, V3.dot_cross_left, mul_zero]
  · intro pol hpol
    refine ⟨_, by
      simp only [brewster, hdd, if_false]
      rw [if_neg s0, if_neg (by norm_num; linarith)], ?_⟩
    simp only [one_mul, zero_mul, add_zero]
    rw [max_eq_left (sq_nonneg _), min_eq_left hpol]

/-- **C139** Light without polarization: for two perpendicular polarizations, the probabilities for a mirror at the Brewster angle add up to that of the layers; if the files are for light without polarization (fraction 0.5), on average the listed reflectivity is found. -/
theorem C139_unpolarized (m : M4) (hm : Affine m) (ho : OrthoAxes m) (hdet : m.det ≠ 0) (rows : List ReflRow) (polFile : List (ℝ × ℝ)) (dir p1 p2 : H4) (hd : IsDir dir)
    (hdn : dir.xyz.cross (vX m).xyz ≠ 0) (hf : Frame p1 p2 dir.unit) (energy loc e : ℝ) (he : multiLayerEff (vY m).norm rows polFile energy loc = some e) :
    ∃ q1 q2, multiLayerMirror m rows polFile dir p1 energy loc = some q1 ∧ multiLayerMirror m rows polFile dir p2 energy loc = some q2 ∧ (q1 + q2) / 2 = e / 2 := by
  obtain ⟨s, s1, s2, hb⟩ := brewster_prob m hm ho dir hd hdn
  have hdu : dir.unit.w = 0 := hf.wc
  have a1 : p1.xyz.dot p1.xyz = 1 := by rw [← dot_xyz _ _ (.inl hf.wa)]; exact hf.aa
  have a2 : p2.xyz.dot p2.xyz = 1 := by rw [← dot_xyz _ _ (.inl hf.wb)]; exact hf.bb
  have a3 : dir.unit.xyz.dot dir.unit.xyz = 1 := by rw [← dot_xyz _ _ (.inl hdu)]; exact hf.cc
  have a4 : p1.xyz.dot p2.xyz = 0 := by rw [← dot_xyz _ _ (.inl hf.wa)]; exact hf.ab
  have a5 : p1.xyz.dot dir.unit.xyz = 0 := by rw [← dot_xyz _ _ (.inl hf.wa)]; exact hf.ac
  have a6 : p2.xyz.dot dir.unit.xyz = 0 := by rw [← dot_xyz _ _ (.inl hf.wb)]; exact hf.bc
  have hsum : (p1.xyz.dot s) ^ 2 + (p2.xyz.dot s) ^ 2 = 1 := by
    have h := ortho_expand a1 a2 a3 a4 a5 a6 s
    have h' := congrArg (fun v : V3 => v.dot s) h
    simp only [V3.dot_add_left, V3.dot_smul_left, s1, s2] at h'
    rw [V3.dot_comm s p1.xyz, V3.dot_comm s p2.xyz] at h'
    linarith
  obtain ⟨o1, h1, h2⟩ := hb p1 (by nlinarith [sq_nonneg (p2.xyz.dot s)])
  obtain ⟨o2, h3, h4⟩ := hb p2 (by nlinarith [sq_nonneg (p1.xyz.dot s)])
  refine ⟨1 * o1.prob * e, 1 * o2.prob * e, by simp only [multiLayerMirror, h1, he], by simp only [multiLayerMirror, h3, he], ?_⟩
  rw [h2, h4]
  linear_combination e / 2 * hsum

/-- **C23** (disagreement) With a `fresnel` method that reflects both polarizations completely, light polarized at an angle to the plane of incidence does not keep that angle: the squares of the components are used for the new polarization. Here a photon with 3/5 and 4/5 leaves with 9/16 in place of 3/4 for the ratio of the components. -/
theorem C23_fresnel_false :
    ∃ out q, brewster 1 1 1 ⟨-3 / 5, 4 / 5, 0, 0⟩ ((3 / 5 : ℝ) • ⟨0, 0, 1, 0⟩ + (4 / 5 : ℝ) • ⟨4 / 5, 3 / 5, 0, 0⟩) = .ok (some out) ∧ out.prob = 1 ∧ out.pol = some q ∧
      q.dot q = 1 ∧ 16 ^ 2 * q.z ^ 2 = 9 ^ 2 * (q.x ^ 2 + q.y ^ 2) ∧ 4 ^ 2 * q.z ^ 2 ≠ 3 ^ 2 * (q.x ^ 2 + q.y ^ 2) := by
  have hdd : (⟨-3 / 5, 4 / 5, 0, 0⟩ : H4).dot ⟨-3 / 5, 4 / 5, 0, 0⟩ = 1 := by simp [H4.dot]; norm_num
  have hun : (⟨-3 / 5, 4 / 5, 0, 0⟩ : H4).unit = ⟨-3 / 5, 4 / 5, 0, 0⟩ := by
    simp only [H4.unit, H4.norm, hdd, Real.sqrt_one]
    ext <;> simp
  have hex : (eX (1 : M4)).xyz = ⟨1, 0, 0⟩ := by
    have : (vX (1 : M4)).dot (vX 1) = 1 := by simp [vX, col, H4.dot]
    simp only [eX, H4.unit, H4.norm, this, Real.sqrt_one]
    ext <;> simp [vX, col]
  have hcr : (⟨-3 / 5, 4 / 5, 0, 0⟩ : H4).xyz.cross ⟨1, 0, 0⟩ = ⟨0, 0, -4 / 5⟩ := by
    ext <;> simp <;> norm_num
  have hcu : (⟨0, 0, -4 / 5⟩ : V3).unit = ⟨0, 0, -1⟩ := by
    have : (⟨0, 0, -4 / 5⟩ : V3).norm = 4 / 5 := by
      unfold V3.norm
      rw [show (⟨0, 0, -4 / 5⟩ : V3).dot ⟨0, 0, -4 / 5⟩ = (4 / 5) ^ 2 by simp [V3.dot]; norm_num, Real.sqrt_sq (by norm_num)]
    unfold V3.unit
    rw [this]
    ext <;> simp <;> norm_num
  have hvp : (⟨-3 / 5, 4 / 5, 0, 0⟩ : H4).xyz.cross ⟨0, 0, -1⟩ = ⟨-4 / 5, -3 / 5, 0⟩ := by
    ext <;> simp <;> norm_num
  have hnew : mirrorDir 1 ⟨-3 / 5, 4 / 5, 0, 0⟩ = ⟨3 / 5, 4 / 5, 0, 0⟩ := by
    simp only [mirrorDir, inv_one, mul4_one]
    ext <;> simp <;> norm_num
  have hnvp : (⟨3 / 5, 4 / 5, 0, 0⟩ : H4).xyz.cross ⟨0, 0, -1⟩ = ⟨-4 / 5, 3 / 5, 0⟩ := by
    ext <;> simp <;> norm_num
  set pol : H4 := (3 / 5 : ℝ) • ⟨0, 0, 1, 0⟩ + (4 / 5 : ℝ) • ⟨4 / 5, 3 / 5, 0, 0⟩ with hpol
  have hps : pol.xyz.dot ⟨0, 0, -1⟩ = -3 / 5 := by simp [hpol, V3.dot]; norm_num
  have hpp : pol.xyz.dot ⟨-4 / 5, -3 / 5, 0⟩ = -4 / 5 := by simp [hpol, V3.dot]; norm_num
  set np : V3 := (-(1 * (-3 / 5 : ℝ) ^ 2)) • (⟨0, 0, -1⟩ : V3) + (1 * (-4 / 5 : ℝ) ^ 2) • (⟨-4 / 5, 3 / 5, 0⟩ : V3) with hnp
  have hz : np.z = 9 / 25 := by simp [hnp]; norm_num
  have hx : np.x = -64 / 125 := by simp [hnp]; norm_num
  have hy : np.y = 48 / 125 := by simp [hnp]; norm_num
  have hnp0 : np ≠ 0 := by intro h; rw [h] at hz; norm_num at hz
  refine ⟨⟨⟨3 / 5, 4 / 5, 0, 0⟩, min (max (1 * (-3 / 5 : ℝ) ^ 2 + 1 * (-4 / 5) ^ 2) 0) 1, some np.unit.toDir⟩, np.unit.toDir, ?_, ?_, rfl, ?_, ?_⟩
  · have hne : ¬ (1 : ℝ) = 0 := one_ne_zero
    simp only [brewster, hdd, hne, if_false, hun, hex, hcr, hcu, hvp, hnew, hnvp, hps, hpp]
    rw [if_neg (by intro h; have := congrArg V3.z h; norm_num at this), if_neg (by norm_num), if_neg hnp0]
  · norm_num
  · have := V3.unit_dot_unit hnp0
    simpa [H4.dot, V3.dot, V3.toDir] using this
  · have hn : np.norm ≠ 0 := V3.norm_ne_zero hnp0
    have e1 : np.unit.toDir.z = 1 / np.norm * (9 / 25) := by rw [← hz]; rfl
    have e2 : np.unit.toDir.x = 1 / np.norm * (-64 / 125) := by rw [← hx]; rfl
    have e3 : np.unit.toDir.y = 1 / np.norm * (48 / 125) := by rw [← hy]; rfl
    rw [e1, e2, e3]
    constructor
    · ring
    · intro h
      have h2 : (1 / np.norm) ^ 2 = 0 := by nlinarith
      exact hn (by simpa using h2)

/-- Non-vacuity: a mirror of 20 mm with three listed places, and light that arrives at 45 degrees. -/
example : (0 : ℝ) < 10 ∧ ([⟨0, 4, 10, 0.1⟩, ⟨10, 4.5, 12, 0.1⟩, ⟨20, 5, 14, 0.1⟩] : List ReflRow).Pairwise (fun a b => a.x < b.x) ∧
    (∀ r ∈ ([⟨0, 4, 10, 0.1⟩, ⟨10, 4.5, 12, 0.1⟩, ⟨20, 5, 14, 0.1⟩] : List ReflRow), 0 ≤ r.refl ∧ r.refl ≤ 100 * (1 / 2)) ∧
    (∀ p ∈ ([(100, 1 / 2), (500, 3 / 4)] : List (ℝ × ℝ)), 1 / 2 ≤ p.2) ∧ (⟨-1, 1, 0, 0⟩ : H4).xyz.cross (vX 1).xyz ≠ 0 := by
  refine ⟨by norm_num, by norm_num [List.pairwise_cons], ?_, ?_, ?_⟩
  · intro r hr
    simp only [List.mem_cons, List.not_mem_nil, or_false] at hr
    rcases hr with rfl | rfl | rfl <;> norm_num
  · intro p hp
    simp only [List.mem_cons, List.not_mem_nil, or_false] at hp
    rcases hp with rfl | rfl <;> norm_num
  · intro h
    have := congrArg V3.z h
    simp [vX, col] at this

end Marxs
