import Mathlib.Analysis.SpecialFunctions.Integrals.Basic
import Mathlib.MeasureTheory.Integral.IntervalIntegral.Basic
import Mathlib.Probability.StrongLaw
import Verif.Spec.Unpolarized
import Verif.Lemmas.SolidAngle
import Verif.Props.Polarization
import Verif.Props.Optics
import Verif.Props.MultiLayer
import Verif.Props.ScatterLaw

/-!
# C155: unpolarized light and polarimeters
-/

namespace Marxs

open MeasureTheory ProbabilityTheory Set

/-! ## Uniform polarization -/

theorem randomNumber_reflect {A : Set ℝ} (hA : MeasurableSet A) (hper : ∀ (x : ℝ) (k : ℤ), x + k ∈ A ↔ x ∈ A) :
    randomNumber {t | -t ∈ A} = randomNumber A := by
  have h1 : randomNumber {t | -t ∈ A} = volume (A ∩ Ioc (-1) 0) := by
    show (volume.restrict (Ico (0 : ℝ) 1)) ((fun t => -t) ⁻¹' A) = _
    rw [Measure.restrict_apply (hA.preimage measurable_neg), ← Measure.measure_preimage_neg volume (A ∩ Ioc (-1) 0)]
    congr 1
    ext t
    simp only [mem_inter_iff, mem_preimage, mem_Ico, mem_Ioc]
    constructor <;> rintro ⟨a, b, d⟩ <;> exact ⟨a, by linarith, by linarith⟩
  have h2 : volume (A ∩ Ioc (-1 : ℝ) 0) = volume (A ∩ Ico (-1) 0) :=
    measure_congr (Filter.EventuallyEq.inter (Filter.EventuallyEq.refl _ _) Ico_ae_eq_Ioc.symm)
  rw [h1, h2, randomNumber, Measure.restrict_apply hA, ← measure_preimage_add_right volume (-1) (A ∩ Ico (-1 : ℝ) 0)]
  congr 1
  ext t
  simp only [mem_inter_iff, mem_preimage, mem_Ico]
  rw [show t + (-1 : ℝ) = t + ((-1 : ℤ) : ℝ) by push_cast; ring, hper]
  push_cast
  constructor <;> rintro ⟨a, b, d⟩ <;> exact ⟨a, by linarith, by linarith⟩

theorem onCircle_period (a b : V3) (u : ℝ) (k : ℤ) : onCircle a b (u + k) = onCircle a b u := by
  rw [onCircle, onCircle, show (u + (k : ℝ)) * (2 * Real.pi) = u * (2 * Real.pi) + k * (2 * Real.pi) by ring, Real.cos_add_int_mul_two_pi, Real.sin_add_int_mul_two_pi]

theorem onCircle_measurable (a b : V3) {S : Set V3} (hS : MeasurableVecs S) : MeasurableSet {u | onCircle a b u ∈ S} := by
  refine vecs_preimage hS ?_ ?_ ?_ <;> simp only [onCircle, V3.add_x, V3.add_y, V3.add_z, V3.smul_x, V3.smul_y, V3.smul_z] <;> fun_prop

theorem pol_frame (dir : H4) (h : dir.xyz ≠ 0) : ∃ v1 v2 : V3, IsTransverse v1 v2 dir.xyz ∧
    ∀ angle, polarizationVector dir angle = some (Real.cos angle • v1 + Real.sin angle • v2).toDir := by
  set r := dir.xyz.unit with hr
  set v1 := (if isclose r.x 0 ∧ isclose r.z 0 then (⟨1, 0, 0⟩ : V3) - (r.dot ⟨1, 0, 0⟩) • r else ⟨0, 1, 0⟩ - (r.dot ⟨0, 1, 0⟩) • r).unit with hv1
  have e : ∀ angle, polarizationVector dir angle = some (Real.cos angle • v1 + Real.sin angle • (r.cross v1)).toDir := by
    intro angle
    rw [polarizationVector, if_neg h]
    rfl
  have r1 : r.dot r = 1 := V3.unit_dot_unit h
  obtain ⟨p, -, -, h1, h2, h3, -⟩ := C18_polarization dir h 0
  have hp : p = v1 := by
    rw [e 0] at h1
    simp only [Real.cos_zero, Real.sin_zero, Option.some.injEq, V3.toDir, H4.mk.injEq] at h1
    ext
    · simpa using h1.1.symm
    · simpa using h1.2.1.symm
    · simpa using h1.2.2.1.symm
  rw [hp] at h2 h3
  have h4 : v1.dot r = 0 := by rw [hr, V3.unit, V3.dot_smul_right, h3, mul_zero]
  have h5 : (r.cross v1).dot r = 0 := by rw [V3.dot_comm, V3.dot_cross_left]
  refine ⟨v1, r.cross v1, ⟨h2, ?_, ?_, h3, ?_⟩, e⟩
  · rw [V3.cross_dot_cross, r1, h2, V3.dot_comm, h4]; ring
  · rw [V3.dot_cross_right]
  · have := V3.norm_smul_unit h
    rw [← this, V3.dot_smul_right, ← hr, h5, mul_zero]

/-- Two transverse frames of the same direction differ by a rotation, perhaps with a reflection. -/
theorem transverse_turn {a b v1 v2 d : V3} (hd : d ≠ 0) (h : IsTransverse a b d) (hv : IsTransverse v1 v2 d) :
    ∃ s : ℝ, (∀ u, onCircle a b u = onCircle v1 v2 (u + s)) ∨ ∀ u, onCircle a b u = onCircle v1 v2 (-u + s) := by
  have hu : d.unit.dot d.unit = 1 := V3.unit_dot_unit hd
  have du : ∀ w : V3, w.dot d = 0 → w.dot d.unit = 0 := fun w hw => by rw [V3.unit, V3.dot_smul_right, hw, mul_zero]
  have ex := fun w => ortho_expand hv.aa hv.bb hu hv.ab (du _ hv.ad) (du _ hv.bd) w
  have ea := ex a
  have eb := ex b
  have z : ∀ x y w : V3, x + y + (0 : ℝ) • w = x + y := by intro x y w; ext <;> simp
  rw [du a h.ad, z] at ea
  rw [du b h.bd, z] at eb
  set p := a.dot v1
  set q := a.dot v2
  set p' := b.dot v1
  set q' := b.dot v2
  have n1 : p ^ 2 + q ^ 2 = 1 := by
    have := h.aa
    rw [ea] at this
    simp only [V3.dot_add_left, V3.dot_add_right, V3.dot_smul_left, V3.dot_smul_right, hv.aa, hv.bb, hv.ab, V3.dot_comm v2 v1] at this
    linarith
  have n2 : p' ^ 2 + q' ^ 2 = 1 := by
    have := h.bb
    rw [eb] at this
    simp only [V3.dot_add_left, V3.dot_add_right, V3.dot_smul_left, V3.dot_smul_right, hv.aa, hv.bb, hv.ab, V3.dot_comm v2 v1] at this
    linarith
  have n3 : p * p' + q * q' = 0 := by
    have := h.ab
    rw [ea, eb] at this
    simp only [V3.dot_add_left, V3.dot_add_right, V3.dot_smul_left, V3.dot_smul_right, hv.aa, hv.bb, hv.ab, V3.dot_comm v2 v1] at this
    linarith
  obtain ⟨t, ht1, ht2⟩ : ∃ t : ℝ, Real.cos t = p ∧ Real.sin t = q := by
    refine ⟨Complex.arg ⟨p, q⟩, ?_, ?_⟩
    · have hz : (⟨p, q⟩ : ℂ) ≠ 0 := by
        intro hz
        have h1 := congrArg Complex.re hz
        have h2 := congrArg Complex.im hz
        simp at h1 h2
        rw [h1, h2] at n1; norm_num at n1
      have hn : ‖(⟨p, q⟩ : ℂ)‖ = 1 := by
        rw [Complex.norm_def, Complex.normSq_mk, ← sq, ← sq, n1, Real.sqrt_one]
      rw [Complex.cos_arg hz, hn, div_one]
    · have hn : ‖(⟨p, q⟩ : ℂ)‖ = 1 := by
        rw [Complex.norm_def, Complex.normSq_mk, ← sq, ← sq, n1, Real.sqrt_one]
      rw [Complex.sin_arg, hn, div_one]
  have hpi := Real.pi_pos
  have hdet : (p * q' - q * p') ^ 2 = 1 := by linear_combination (p' ^ 2 + q' ^ 2) * n1 + n2 - (p * p' + q * q') * n3
  have key : ∀ sgn : ℝ, p' = -sgn * q → q' = sgn * p → ∀ x : ℝ, Real.cos x • a + Real.sin x • b =
      (Real.cos x * Real.cos t - sgn * Real.sin x * Real.sin t) • v1 + (Real.cos x * Real.sin t + sgn * Real.sin x * Real.cos t) • v2 := by
    intro sgn h1 h2 x
    rw [ea, eb, h1, h2, ht1, ht2]
    ext <;> simp <;> ring
  refine ⟨t / (2 * Real.pi), ?_⟩
  have hs : t / (2 * Real.pi) * (2 * Real.pi) = t := by field_simp
  have hdet2 : (p * q' - q * p' - 1) * (p * q' - q * p' + 1) = 0 := by linear_combination hdet
  rcases mul_eq_zero.1 hdet2 with hd1 | hd1
  · left
    intro u
    have h1 : p' = -1 * q := by linear_combination p * n3 - q * hd1 - p' * n1
    have h2 : q' = 1 * p := by linear_combination p * hd1 + q * n3 - q' * n1
    rw [onCircle, key 1 h1 h2, onCircle, add_mul, hs, Real.cos_add, Real.sin_add]
    ext <;> simp only [V3.add_x, V3.add_y, V3.add_z, V3.smul_x, V3.smul_y, V3.smul_z] <;> ring
  · right
    intro u
    have h1 : p' = -(-1) * q := by linear_combination p * n3 - q * hd1 - p' * n1
    have h2 : q' = -1 * p := by linear_combination p * hd1 + q * n3 - q' * n1
    rw [onCircle, key (-1) h1 h2, onCircle, add_mul, hs, Real.cos_add, Real.sin_add, show -u * (2 * Real.pi) = -(u * (2 * Real.pi)) by ring, Real.cos_neg, Real.sin_neg]
    ext <;> simp only [V3.add_x, V3.add_y, V3.add_z, V3.smul_x, V3.smul_y, V3.smul_z] <;> ring

theorem unpolarized_iff (dir : H4) {v1 v2 : V3} (hv : ∀ angle, polarizationVector dir angle = some (Real.cos angle • v1 + Real.sin angle • v2).toDir) (u : ℝ) (v : V3) :
    UnpolarizedPhoton dir u v ↔ v = onCircle v1 v2 u := by
  have e : generatePolarization .unpolarized (fun _ => []) [(u, 0)] [0] [1] = .ok [u * (2 * Real.pi)] := by
    simp only [generatePolarization, List.map_cons, List.map_nil]
    congr 2; ring
  have inj : ∀ a b : V3, a.toDir = b.toDir ↔ a = b := by
    intro a b
    constructor
    · intro h
      simp only [V3.toDir, H4.mk.injEq] at h
      ext
      · exact h.1
      · exact h.2.1
      · exact h.2.2.1
    · rintro rfl; rfl
  constructor
  · rintro ⟨angle, h1, h2⟩
    rw [e] at h1
    simp only [Except.ok.injEq, List.cons.injEq, and_true] at h1
    rw [← h1, hv, Option.some.injEq, inj] at h2
    exact h2.symm
  · intro h
    exact ⟨_, e, by rw [hv, h]; rfl⟩

/-- **C155** The polarization of photons from an unpolarized source is uniform: whatever pair of perpendicular transverse axes is chosen, the polarization vector is in a set `S` of
vectors as often as a vector that is turned from the first to the second axis by a uniform random angle. Thus no direction is preferred. -/
theorem C155_uniform (dir : H4) (h : dir.xyz ≠ 0) (a b : V3) (hab : IsTransverse a b dir.xyz) (S : Set V3) (hS : MeasurableVecs S) :
    randomNumber {u | ∃ v ∈ S, UnpolarizedPhoton dir u v} = randomNumber {u | onCircle a b u ∈ S} := by
  obtain ⟨v1, v2, hv, he⟩ := pol_frame dir h
  have h1 : {u | ∃ v ∈ S, UnpolarizedPhoton dir u v} = {u | onCircle v1 v2 u ∈ S} := by
    ext u
    simp only [mem_setOf_eq, unpolarized_iff dir he]
    exact ⟨fun ⟨v, h1, h2⟩ => h2 ▸ h1, fun h => ⟨_, h, rfl⟩⟩
  rw [h1]
  have hm := onCircle_measurable v1 v2 hS
  have hper : ∀ (x : ℝ) (k : ℤ), x + k ∈ {u | onCircle v1 v2 u ∈ S} ↔ x ∈ {u | onCircle v1 v2 u ∈ S} := by
    intro x k
    simp only [mem_setOf_eq, onCircle_period]
  obtain ⟨s, hs | hs⟩ := transverse_turn h hab hv
  · rw [← randomNumber_shift hm hper s]
    congr 1
    ext u
    simp only [mem_setOf_eq, hs]
  · have hm2 : MeasurableSet {t | t + s ∈ {u | onCircle v1 v2 u ∈ S}} := hm.preimage (measurable_add_const s)
    rw [← randomNumber_shift hm hper s, ← randomNumber_reflect hm2 (by
      intro x k
      simp only [mem_setOf_eq]
      rw [show x + (k : ℝ) + s = x + s + k by ring, onCircle_period])]
    congr 1
    ext u
    simp only [mem_setOf_eq, hs]

/-! ## Mirrors -/

theorem unit_smul_pos {v : V3} (hv : v ≠ 0) {k : ℝ} (hk : 0 < k) : (k • v).unit = v.unit := by
  have h1 : (v.norm * k) • v.unit = k • v := by
    conv_rhs => rw [← V3.norm_smul_unit hv]
    ext <;> simp only [V3.smul_x, V3.smul_y, V3.smul_z] <;> ring
  rw [← h1, V3.unit_smul_of_unit (V3.unit_dot_unit hv)]
  exact mul_pos (lt_of_le_of_ne (Real.sqrt_nonneg _) (V3.norm_ne_zero hv).symm) hk

theorem sVector_eq (m : M4) (hm : Affine m) (ho : OrthoAxes m) (dir : H4) (hd : IsDir dir) (hdn : dir.xyz.cross (vX m).xyz ≠ 0) :
    dir.unit.xyz.cross (eX m).xyz ≠ 0 ∧ (dir.unit.xyz.cross (eX m).xyz).unit = sVector dir.xyz (vX m).xyz := by
  have hd0 : dir.xyz ≠ 0 := by
    intro h; apply hdn; rw [h]; ext <;> simp
  have ux : dir.unit.xyz = dir.xyz.unit := unit_xyz _ hd
  have ex : (eX m).xyz = (vX m).xyz.unit := unit_xyz _ hm.1
  have cross_eq : dir.unit.xyz.cross (eX m).xyz = (1 / dir.xyz.norm * (1 / (vX m).xyz.norm)) • dir.xyz.cross (vX m).xyz := by
    rw [ux, ex]; ext <;> simp [V3.unit] <;> ring
  have c0 : 0 < 1 / dir.xyz.norm * (1 / (vX m).xyz.norm) := by
    have a := lt_of_le_of_ne (Real.sqrt_nonneg _) (V3.norm_ne_zero hd0).symm
    have b := lt_of_le_of_ne (Real.sqrt_nonneg _) (V3.norm_ne_zero ho.x0).symm
    positivity
  have e : (dir.unit.xyz.cross (eX m).xyz).unit = sVector dir.xyz (vX m).xyz := by
    rw [cross_eq, unit_smul_pos hdn c0, sVector]
  refine ⟨fun h => ?_, e⟩
  rw [h, sVector] at e
  have := V3.unit_dot_unit hdn
  rw [← e] at this
  simp [V3.unit, V3.dot] at this

open Classical in
theorem brewster_eq (m : M4) (hm : Affine m) (ho : OrthoAxes m) (rs rp : ℝ) (dir pol : H4) (hd : IsDir dir) (hdn : dir.xyz.cross (vX m).xyz ≠ 0)
    (h0 : 0 ≤ rs * (pol.xyz.dot (sVector dir.xyz (vX m).xyz)) ^ 2 + rp * (pol.xyz.dot (dir.unit.xyz.cross (sVector dir.xyz (vX m).xyz))) ^ 2)
    (h1 : rs * (pol.xyz.dot (sVector dir.xyz (vX m).xyz)) ^ 2 + rp * (pol.xyz.dot (dir.unit.xyz.cross (sVector dir.xyz (vX m).xyz))) ^ 2 ≤ 1) :
    ∃ out, brewster m rs rp dir pol = .ok (some out) ∧ out.dir = mirrorDir m dir.unit ∧
      out.prob = rs * (pol.xyz.dot (sVector dir.xyz (vX m).xyz)) ^ 2 + rp * (pol.xyz.dot (dir.unit.xyz.cross (sVector dir.xyz (vX m).xyz))) ^ 2 ∧
      out.pol = (if (-(rs * (pol.xyz.dot (sVector dir.xyz (vX m).xyz)) ^ 2)) • sVector dir.xyz (vX m).xyz +
          (rp * (pol.xyz.dot (dir.unit.xyz.cross (sVector dir.xyz (vX m).xyz))) ^ 2) • (mirrorDir m dir.unit).xyz.cross (sVector dir.xyz (vX m).xyz) = 0 then none
        else some ((-(rs * (pol.xyz.dot (sVector dir.xyz (vX m).xyz)) ^ 2)) • sVector dir.xyz (vX m).xyz +
          (rp * (pol.xyz.dot (dir.unit.xyz.cross (sVector dir.xyz (vX m).xyz))) ^ 2) • (mirrorDir m dir.unit).xyz.cross (sVector dir.xyz (vX m).xyz)).unit.toDir) := by
  have hd0 : dir.xyz ≠ 0 := by
    intro h; apply hdn; rw [h]; ext <;> simp
  have hdd : dir.dot dir ≠ 0 := fun h => hd0 ((H4.dot_self_eq_zero hd).1 h)
  obtain ⟨s0, se⟩ := sVector_eq m hm ho dir hd hdn
  have hnot : ¬ (1.001 < rs * (pol.xyz.dot (sVector dir.xyz (vX m).xyz)) ^ 2 + rp * (pol.xyz.dot (dir.unit.xyz.cross (sVector dir.xyz (vX m).xyz))) ^ 2) := by
    norm_num; linarith
  simp only [brewster, hdd, if_false]
  rw [if_neg s0, se, if_neg hnot, max_eq_left h0, min_eq_left h1]
  exact ⟨_, rfl, rfl, rfl, rfl⟩

/-- The s direction and the p direction of a mirror as angle. -/
theorem mirror_angle (m : M4) (hm : Affine m) (ho : OrthoAxes m) (dir : H4) (hd : IsDir dir) (hdn : dir.xyz.cross (vX m).xyz ≠ 0) :
    ∃ v1 v2 : V3, ∃ psi : ℝ, (∀ angle, polarizationVector dir angle = some (Real.cos angle • v1 + Real.sin angle • v2).toDir) ∧
      Real.cos psi • v1 + Real.sin psi • v2 = sVector dir.xyz (vX m).xyz ∧
      ∀ a, ((Real.cos a • v1 + Real.sin a • v2).dot (sVector dir.xyz (vX m).xyz)) = Real.cos (a - psi) ∧
        ((Real.cos a • v1 + Real.sin a • v2).dot (dir.unit.xyz.cross (sVector dir.xyz (vX m).xyz))) ^ 2 = Real.sin (a - psi) ^ 2 := by
  have hd0 : dir.xyz ≠ 0 := by
    intro h; apply hdn; rw [h]; ext <;> simp
  obtain ⟨v1, v2, hv, he⟩ := pol_frame dir hd0
  set s := sVector dir.xyz (vX m).xyz with hs
  have ux : dir.unit.xyz = dir.xyz.unit := unit_xyz _ hd
  set b := dir.unit.xyz with hb
  have b1 : b.dot b = 1 := by rw [ux]; exact V3.unit_dot_unit hd0
  have s1 : s.dot s = 1 := V3.unit_dot_unit hdn
  have sd : s.dot dir.xyz = 0 := by rw [hs, sVector, V3.unit, V3.dot_smul_left, V3.dot_comm, V3.dot_cross_left, mul_zero]
  have sb : s.dot b = 0 := by rw [ux, V3.unit, V3.dot_smul_right, sd, mul_zero]
  have p1 : (b.cross s).dot (b.cross s) = 1 := by rw [V3.cross_dot_cross, b1, s1, V3.dot_comm, sb]; ring
  have pd : (b.cross s).dot dir.xyz = 0 := by
    rw [← V3.norm_smul_unit hd0, ← ux, V3.dot_smul_right, V3.dot_comm, V3.dot_cross_left, mul_zero]
  have sp : s.dot (b.cross s) = 0 := by rw [V3.dot_cross_right]
  have tr : IsTransverse s (b.cross s) dir.xyz := ⟨s1, p1, sp, sd, pd⟩
  obtain ⟨t, ht⟩ := transverse_turn hd0 tr hv
  have hpi := Real.pi_pos
  have e0 : s = onCircle v1 v2 t := by
    have o : onCircle s (b.cross s) 0 = s := by ext <;> simp [onCircle]
    rcases ht with ht | ht
    · have := ht 0; rw [o, zero_add] at this; exact this
    · have := ht 0; rw [o, neg_zero, zero_add] at this; exact this
  refine ⟨v1, v2, t * (2 * Real.pi), he, e0.symm, fun a => ?_⟩
  have h1 : (Real.cos a • v1 + Real.sin a • v2).dot s = Real.cos (a - t * (2 * Real.pi)) := by
    conv_lhs => rw [e0]
    rw [onCircle]
    simp only [V3.dot_add_left, V3.dot_add_right, V3.dot_smul_left, V3.dot_smul_right, hv.aa, hv.bb, hv.ab, V3.dot_comm v2 v1, Real.cos_sub]
    ring
  refine ⟨h1, ?_⟩
  have n : (Real.cos a • v1 + Real.sin a • v2).dot (Real.cos a • v1 + Real.sin a • v2) = 1 := by
    simp only [V3.dot_add_left, V3.dot_add_right, V3.dot_smul_left, V3.dot_smul_right, hv.aa, hv.bb, hv.ab, V3.dot_comm v2 v1]
    linear_combination Real.sin_sq_add_cos_sq a
  have pb : (b.cross s).dot b = 0 := by rw [V3.dot_comm, V3.dot_cross_left]
  have wb : (Real.cos a • v1 + Real.sin a • v2).dot b = 0 := by
    rw [ux, V3.unit, V3.dot_smul_right, V3.dot_add_left, V3.dot_smul_left, V3.dot_smul_left, hv.ad, hv.bd]; ring
  have ex := ortho_expand s1 p1 b1 sp sb pb (Real.cos a • v1 + Real.sin a • v2)
  have sum : (Real.cos a • v1 + Real.sin a • v2).dot (Real.cos a • v1 + Real.sin a • v2) =
      ((Real.cos a • v1 + Real.sin a • v2).dot s) ^ 2 + ((Real.cos a • v1 + Real.sin a • v2).dot (b.cross s)) ^ 2 + ((Real.cos a • v1 + Real.sin a • v2).dot b) ^ 2 := by
    conv_lhs => rw [ex]
    simp only [V3.dot_add_left, V3.dot_add_right, V3.dot_smul_left, V3.dot_smul_right, s1, p1, b1, sp, sb, pb, V3.dot_comm (b.cross s) s, V3.dot_comm b s, V3.dot_comm b (b.cross s)]
    ring
  rw [n, wb, h1] at sum
  linear_combination -sum - Real.sin_sq_add_cos_sq (a - t * (2 * Real.pi))

/-- **C155** (modulation curve) The reflected fraction of linearly polarized light is a constant plus a cosine of twice the polarization angle. It has its maximum at the
polarization perpendicular to the plane of incidence if s polarization is reflected better. -/
theorem C155_modulation (m : M4) (hm : Affine m) (ho : OrthoAxes m) (rs rp : ℝ) (hs : 0 ≤ rs ∧ rs ≤ 1) (hp : 0 ≤ rp ∧ rp ≤ 1) (dir : H4) (hd : IsDir dir)
    (hdn : dir.xyz.cross (vX m).xyz ≠ 0) :
    ∃ psi, polarizationVector dir psi = some (sVector dir.xyz (vX m).xyz).toDir ∧
      ∀ angle, ∃ pol out, polarizationVector dir angle = some pol ∧ brewster m rs rp dir pol = .ok (some out) ∧
        out.prob = (rs + rp) / 2 + (rs - rp) / 2 * Real.cos (2 * (angle - psi)) := by
  obtain ⟨v1, v2, psi, h1, h2, h3⟩ := mirror_angle m hm ho dir hd hdn
  refine ⟨psi, by rw [h1, h2], fun a => ?_⟩
  obtain ⟨h4, h5⟩ := h3 a
  have e := Real.sin_sq_add_cos_sq (a - psi)
  obtain ⟨out, o1, -, o2, -⟩ := brewster_eq m hm ho rs rp dir (Real.cos a • v1 + Real.sin a • v2).toDir hd hdn (by
    rw [V3.toDir_xyz, h4, h5]
    have := hs.1; have := hp.1; positivity) (by
    rw [V3.toDir_xyz, h4, h5]
    exact weighted_le_one hs.2 hp.2 (by linarith))
  refine ⟨_, out, h1 a, o1, ?_⟩
  rw [o2, V3.toDir_xyz, h4, h5, Real.cos_two_mul]
  linear_combination rp * e

theorem cos_mean (c : ℝ) : ∫ u, Real.cos (2 * (u * (2 * Real.pi) - c)) ∂randomNumber = 0 := by
  rw [randomNumber, integral_Ico_eq_integral_Ioc, ← intervalIntegral.integral_of_le zero_le_one]
  have hpi := Real.pi_ne_zero
  have h : ∀ u : ℝ, Real.cos (2 * (u * (2 * Real.pi) - c)) = Real.cos ((4 * Real.pi) * u - 2 * c) := by
    intro u; congr 1; ring
  simp only [h]
  rw [intervalIntegral.integral_comp_mul_sub (fun x => Real.cos x) (by positivity : (4 * Real.pi) ≠ 0), integral_cos,
    show 4 * Real.pi * 1 - 2 * c = -(2 * c) + (2 : ℕ) * (2 * Real.pi) by push_cast; ring, Real.sin_add_nat_mul_two_pi]
  simp

/-- **C155** A mirror reflects the mean of its reflectivities for s and p polarization from unpolarized light, whatever its orientation and the direction of the light (except
for normal incidence). -/
theorem C155_reflected (m : M4) (hm : Affine m) (ho : OrthoAxes m) (rs rp : ℝ) (hs : 0 ≤ rs ∧ rs ≤ 1) (hp : 0 ≤ rp ∧ rp ≤ 1) (dir : H4) (hd : IsDir dir)
    (hdn : dir.xyz.cross (vX m).xyz ≠ 0) (pol : ℝ → V3) (hpol : ∀ u, UnpolarizedPhoton dir u (pol u)) :
    ∫ u, probOf (brewster m rs rp dir (pol u).toDir) ∂randomNumber = (rs + rp) / 2 := by
  obtain ⟨psi, -, h⟩ := C155_modulation m hm ho rs rp hs hp dir hd hdn
  have hd0 : dir.xyz ≠ 0 := by
    intro h; apply hdn; rw [h]; ext <;> simp
  obtain ⟨v1, v2, -, he⟩ := pol_frame dir hd0
  have e : ∀ u, probOf (brewster m rs rp dir (pol u).toDir) = (rs + rp) / 2 + (rs - rp) / 2 * Real.cos (2 * (u * (2 * Real.pi) - psi)) := by
    intro u
    obtain ⟨q, out, a1, a2, a3⟩ := h (u * (2 * Real.pi))
    have h1 := (unpolarized_iff dir he u (pol u)).1 (hpol u)
    rw [he, Option.some.injEq] at a1
    rw [h1, onCircle, a1, a2, probOf, a3]
  have hfin : IsProbabilityMeasure randomNumber := ⟨randomNumber_univ⟩
  have hint : Integrable (fun u : ℝ => Real.cos (2 * (u * (2 * Real.pi) - psi))) randomNumber := by
    refine Integrable.of_bound (C := 1) (by fun_prop) (Filter.Eventually.of_forall fun u => ?_)
    rw [Real.norm_eq_abs]; exact Real.abs_cos_le_one _
  simp only [e]
  rw [integral_add (integrable_const _) (hint.const_mul _), integral_const_mul, cos_mean]
  simp

/-- **C155** ... thus half of it for the default, which reflects all of the s polarization and nothing else. -/
theorem C155_half (m : M4) (hm : Affine m) (ho : OrthoAxes m) (dir : H4) (hd : IsDir dir) (hdn : dir.xyz.cross (vX m).xyz ≠ 0) (pol : ℝ → V3)
    (hpol : ∀ u, UnpolarizedPhoton dir u (pol u)) : ∫ u, probOf (brewster m 1 0 dir (pol u).toDir) ∂randomNumber = 1 / 2 := by
  rw [C155_reflected m hm ho 1 0 (by norm_num) (by norm_num) dir hd hdn pol hpol]; norm_num

/-- **C155** (Malus) Light that was reflected by one mirror is polarized: the second mirror reflects the part `cos^2` of the angle between the two planes of incidence. -/
theorem C155_malus (m1 m2 : M4) (hm1 : Affine m1) (ho1 : OrthoAxes m1) (hm2 : Affine m2) (ho2 : OrthoAxes m2) (dir pol : H4) (hd : IsDir dir)
    (hdn : dir.xyz.cross (vX m1).xyz ≠ 0) (hpol : pol.xyz.dot pol.xyz = 1) (hdet : m1.det ≠ 0) :
    ∃ out, brewster m1 1 0 dir pol = .ok (some out) ∧ (out.prob ≠ 0 → ∃ q, out.pol = some q ∧ (q.xyz = sVector dir.xyz (vX m1).xyz ∨ q.xyz = -sVector dir.xyz (vX m1).xyz) ∧
      (out.dir.xyz.cross (vX m2).xyz ≠ 0 → ∃ out2, brewster m2 1 0 out.dir q = .ok (some out2) ∧
        out2.prob = ((sVector dir.xyz (vX m1).xyz).dot (sVector out.dir.xyz (vX m2).xyz)) ^ 2)) := by
  set s := sVector dir.xyz (vX m1).xyz with hs
  have s1 : s.dot s = 1 := V3.unit_dot_unit hdn
  have cs : ∀ x y : V3, x.dot x = 1 → y.dot y = 1 → (x.dot y) ^ 2 ≤ 1 := by
    intro x y hx hy
    have := V3.cross_dot_cross x y
    rw [hx, hy] at this
    have h2 : 0 ≤ (x.cross y).dot (x.cross y) := by simp only [V3.dot]; nlinarith [sq_nonneg (x.cross y).x, sq_nonneg (x.cross y).y, sq_nonneg (x.cross y).z]
    nlinarith
  obtain ⟨out, o1, o2, o3, o4⟩ := brewster_eq m1 hm1 ho1 1 0 dir pol hd hdn (by rw [one_mul, zero_mul, add_zero]; positivity)
    (by rw [one_mul, zero_mul, add_zero]; exact cs _ _ hpol s1)
  rw [← hs] at o3 o4
  rw [one_mul, zero_mul, add_zero] at o3
  refine ⟨out, o1, fun hne => ?_⟩
  rw [o3] at hne
  have hA : 0 < (pol.xyz.dot s) ^ 2 := lt_of_le_of_ne (sq_nonneg _) hne.symm
  have hN : (-(1 * (pol.xyz.dot s) ^ 2)) • s + ((0 : ℝ) * (pol.xyz.dot (dir.unit.xyz.cross s)) ^ 2) • (mirrorDir m1 dir.unit).xyz.cross s = (pol.xyz.dot s) ^ 2 • (-s) := by
    ext <;> simp
  have ns1 : (-s).dot (-s) = 1 := by simp only [V3.dot, V3.neg_x, V3.neg_y, V3.neg_z] at s1 ⊢; linarith
  have ns0 : -s ≠ 0 := by
    intro h; rw [h] at ns1; simp [V3.dot] at ns1
  have hN0 : (pol.xyz.dot s) ^ 2 • (-s) ≠ 0 := by
    intro h
    have h2 := V3.unit_smul_of_unit ns1 hA
    rw [h] at h2
    apply ns0
    rw [← h2]; ext <;> simp [V3.unit]
  rw [hN, if_neg hN0, V3.unit_smul_of_unit ns1 hA] at o4
  refine ⟨_, o4, Or.inr rfl, fun hd2 => ?_⟩
  have hdir : IsDir out.dir := by
    rw [o2, (C23_specular m1 hm1 ho1 hdet dir.unit (H4.unit_w hd)).1]
    exact mirrored_dir (H4.unit_w hm1.1) (H4.unit_w hd)
  have s2 : (sVector out.dir.xyz (vX m2).xyz).dot (sVector out.dir.xyz (vX m2).xyz) = 1 := V3.unit_dot_unit hd2
  have neg : (-s).toDir.xyz.dot (sVector out.dir.xyz (vX m2).xyz) = -(s.dot (sVector out.dir.xyz (vX m2).xyz)) := by
    rw [V3.toDir_xyz]; simp only [V3.dot, V3.neg_x, V3.neg_y, V3.neg_z]; ring
  obtain ⟨out2, q1, -, q3, -⟩ := brewster_eq m2 hm2 ho2 1 0 out.dir (-s).toDir hdir hd2 (by rw [one_mul, zero_mul, add_zero]; positivity)
    (by rw [one_mul, zero_mul, add_zero, neg, neg_sq]; exact cs _ _ s1 s2)
  refine ⟨out2, q1, ?_⟩
  rw [q3, one_mul, zero_mul, add_zero, neg, neg_sq]

/-- **C155** Polarizer and analyzer: of unpolarized light, two mirrors reflect half of the squared cosine of the angle between their planes of incidence. -/
theorem C155_two_mirrors (m1 m2 : M4) (hm1 : Affine m1) (ho1 : OrthoAxes m1) (hdet : m1.det ≠ 0) (hm2 : Affine m2) (ho2 : OrthoAxes m2) (dir : H4) (hd : IsDir dir)
    (hdn : dir.xyz.cross (vX m1).xyz ≠ 0) (hd2 : (mirrored (eX m1) dir.unit).xyz.cross (vX m2).xyz ≠ 0) (pol : ℝ → V3) (hpol : ∀ u, UnpolarizedPhoton dir u (pol u)) :
    ∫ u, twoMirrors m1 m2 dir (pol u).toDir ∂randomNumber =
      ((sVector dir.xyz (vX m1).xyz).dot (sVector (mirrored (eX m1) dir.unit).xyz (vX m2).xyz)) ^ 2 / 2 := by
  set k := ((sVector dir.xyz (vX m1).xyz).dot (sVector (mirrored (eX m1) dir.unit).xyz (vX m2).xyz)) ^ 2 with hk
  have hd0 : dir.xyz ≠ 0 := by
    intro h; apply hdn; rw [h]; ext <;> simp
  obtain ⟨v1, v2, hv, he⟩ := pol_frame dir hd0
  have e : ∀ u, twoMirrors m1 m2 dir (pol u).toDir = k * probOf (brewster m1 1 0 dir (pol u).toDir) := by
    intro u
    have h1 := (unpolarized_iff dir he u (pol u)).1 (hpol u)
    have hn : (pol u).toDir.xyz.dot (pol u).toDir.xyz = 1 := by
      rw [V3.toDir_xyz, h1, onCircle]
      simp only [V3.dot_add_left, V3.dot_add_right, V3.dot_smul_left, V3.dot_smul_right, hv.aa, hv.bb, hv.ab, V3.dot_comm v2 v1]
      linear_combination Real.sin_sq_add_cos_sq (u * (2 * Real.pi))
    obtain ⟨o0, -, -, b1, b2, -, -, -, -, -, -, -, b3⟩ := C23_brewster m1 hm1 ho1 hdet 1 0 (by norm_num) (by norm_num) dir (pol u).toDir hd hdn hn
    obtain ⟨out, o1, o2⟩ := C155_malus m1 m2 hm1 ho1 hm2 ho2 dir (pol u).toDir hd hdn hn hdet
    rw [o1] at b1
    simp only [Except.ok.injEq, Option.some.injEq] at b1
    subst b1
    rw [twoMirrors, o1, probOf]
    by_cases hz : out.prob = 0
    · simp only [b3 hz, hz, mul_zero]
    · obtain ⟨q, q1, -, q2⟩ := o2 hz
      obtain ⟨out2, w1, w2⟩ := q2 (by rw [b2]; exact hd2)
      rw [b2, ← hk] at w2
      simp only [q1, w1, probOf, w2]
      ring
  simp only [e]
  rw [integral_const_mul, C155_half m1 hm1 ho1 dir hd hdn pol hpol]
  ring

/-- **C155** In a long simulation with an unpolarized source the mean probability factor of the photons converges to the mean of the two reflectivities. -/
theorem C155_average {Ω : Type} [MeasurableSpace Ω] (P : Measure Ω) (X : ℕ → Ω → ℝ) (hm0 : ∀ i, Measurable (X i)) (hlaw : ∀ i, Measure.map (X i) P = randomNumber)
    (hind : Pairwise fun i j => IndepFun (X i) (X j) P) (m : M4) (hm : Affine m) (ho : OrthoAxes m) (rs rp : ℝ) (hs : 0 ≤ rs ∧ rs ≤ 1) (hp : 0 ≤ rp ∧ rp ≤ 1) (dir : H4)
    (hd : IsDir dir) (hdn : dir.xyz.cross (vX m).xyz ≠ 0) (pol : ℝ → V3) (hpol : ∀ u, UnpolarizedPhoton dir u (pol u)) :
    ∀ᵐ ω ∂P, Filter.Tendsto (fun n : ℕ => (∑ i ∈ Finset.range n, probOf (brewster m rs rp dir (pol (X i ω)).toDir)) / n) Filter.atTop (nhds ((rs + rp) / 2)) := by
  obtain ⟨psi, -, h⟩ := C155_modulation m hm ho rs rp hs hp dir hd hdn
  have hd0 : dir.xyz ≠ 0 := by
    intro h; apply hdn; rw [h]; ext <;> simp
  obtain ⟨v1, v2, -, he⟩ := pol_frame dir hd0
  have e : (fun u => probOf (brewster m rs rp dir (pol u).toDir)) = fun u => (rs + rp) / 2 + (rs - rp) / 2 * Real.cos (2 * (u * (2 * Real.pi) - psi)) := by
    funext u
    obtain ⟨q, out, a1, a2, a3⟩ := h (u * (2 * Real.pi))
    have h1 := (unpolarized_iff dir he u (pol u)).1 (hpol u)
    rw [he, Option.some.injEq] at a1
    rw [h1, onCircle, a1, a2, probOf, a3]
  set g : ℝ → ℝ := fun u => probOf (brewster m rs rp dir (pol u).toDir) with hg
  have hgm : Measurable g := by rw [e]; fun_prop
  have hfin : IsProbabilityMeasure randomNumber := ⟨randomNumber_univ⟩
  have hint : Integrable g randomNumber := by
    refine Integrable.of_bound (C := |(rs + rp) / 2| + |(rs - rp) / 2|) hgm.aestronglyMeasurable (Filter.Eventually.of_forall fun u => ?_)
    rw [e, Real.norm_eq_abs]
    refine (abs_add_le _ _).trans ?_
    rw [abs_mul]
    have := Real.abs_cos_le_one (2 * (u * (2 * Real.pi) - psi))
    nlinarith [abs_nonneg ((rs - rp) / 2)]
  have sl := strong_law_ae_real (μ := P) (fun i ω => g (X i ω)) (by
      show Integrable (g ∘ X 0) P
      rw [← integrable_map_measure (by rw [hlaw]; exact hgm.aestronglyMeasurable) (hm0 0).aemeasurable, hlaw]
      exact hint)
    (fun i j hij => (hind hij).comp hgm hgm)
    (fun i => by
      refine ⟨(hgm.comp (hm0 i)).aemeasurable, (hgm.comp (hm0 0)).aemeasurable, ?_⟩
      show Measure.map (g ∘ X i) P = Measure.map (g ∘ X 0) P
      rw [← Measure.map_map hgm (hm0 i), ← Measure.map_map hgm (hm0 0), hlaw, hlaw])
  have ev : ∫ ω, g (X 0 ω) ∂P = (rs + rp) / 2 := by
    rw [← C155_reflected m hm ho rs rp hs hp dir hd hdn pol hpol, ← hlaw 0, integral_map (hm0 0).aemeasurable (by rw [hlaw]; exact hgm.aestronglyMeasurable)]
  rw [ev] at sl
  exact sl

/-- Photons of an unpolarized source exist for every direction. -/
theorem unpolarized_exists (dir : H4) (h : dir.xyz ≠ 0) : ∃ pol : ℝ → V3, ∀ u, UnpolarizedPhoton dir u (pol u) := by
  obtain ⟨v1, v2, -, he⟩ := pol_frame dir h
  exact ⟨onCircle v1 v2, fun u => (unpolarized_iff dir he u _).2 rfl⟩

/-- Two mirrors at 45 degrees with the same plane of incidence: half of the unpolarized light arrives. -/
example : ∃ pol : ℝ → V3, (∀ u, UnpolarizedPhoton ⟨-1, 1, 0, 0⟩ u (pol u)) ∧
    ∫ u, twoMirrors 1 1 ⟨-1, 1, 0, 0⟩ (pol u).toDir ∂randomNumber = 1 / 2 := by
  obtain ⟨pol, hpol⟩ := unpolarized_exists ⟨-1, 1, 0, 0⟩ (by intro h; have := congrArg V3.x h; simp [H4.xyz] at this)
  have ho : OrthoAxes (1 : M4) := by
    constructor <;> simp [vX, vY, vZ, col, V3.dot]
    all_goals (intro h)
    · have := congrArg V3.x h; simp at this
    · have := congrArg V3.y h; simp at this
    · have := congrArg V3.z h; simp at this
  have hm : Affine (1 : M4) := by simp [Affine]
  refine ⟨pol, hpol, ?_⟩
  have ex : eX (1 : M4) = ⟨1, 0, 0, 0⟩ := by
    have : (vX (1 : M4)) = ⟨1, 0, 0, 0⟩ := by simp [vX, col]
    rw [eX, this]
    ext <;> simp [H4.unit, H4.norm, H4.dot]
  have vx : (vX (1 : M4)).xyz = ⟨1, 0, 0⟩ := by simp [vX, col, H4.xyz]
  set c := 1 / Real.sqrt 2 with hc
  have hc0 : 0 < c := by positivity
  have du : (⟨-1, 1, 0, 0⟩ : H4).unit = ⟨-c, c, 0, 0⟩ := by
    have hn : (⟨-1, 1, 0, 0⟩ : H4).norm = Real.sqrt 2 := by simp [H4.norm, H4.dot]; norm_num
    ext <;> simp [H4.unit, hn, hc]
  have hr : (mirrored (eX (1 : M4)) (⟨-1, 1, 0, 0⟩ : H4).unit).xyz = ⟨c, c, 0⟩ := by
    rw [ex, du]
    ext <;> simp [mirrored, H4.dot, H4.xyz] <;> ring
  have cr : (⟨c, c, 0⟩ : V3).cross ⟨1, 0, 0⟩ = c • (⟨0, 0, -1⟩ : V3) := by ext <;> simp [V3.cross]
  have cr1 : (⟨-1, 1, 0⟩ : V3).cross ⟨1, 0, 0⟩ = (⟨0, 0, -1⟩ : V3) := by ext <;> simp [V3.cross]
  have u1 : (⟨0, 0, -1⟩ : V3).dot ⟨0, 0, -1⟩ = 1 := by simp [V3.dot]
  have n0 : (⟨0, 0, -1⟩ : V3) ≠ 0 := by intro h; have := congrArg V3.z h; simp at this
  have n1 : c • (⟨0, 0, -1⟩ : V3) ≠ 0 := by intro h; have := congrArg V3.z h; simp at this; exact hc0.ne' this
  have hx : (⟨-1, 1, 0, 0⟩ : H4).xyz = ⟨-1, 1, 0⟩ := rfl
  rw [C155_two_mirrors 1 1 hm ho (by simp) hm ho _ (by simp [IsDir]) (by rw [vx, hx, cr1]; exact n0) (by rw [hr, vx, cr]; exact n1) pol hpol, hr, vx, hx, sVector, sVector, cr, cr1,
    V3.unit_smul_of_unit u1 hc0, V3.unit_of_unit u1, u1]
  norm_num

end Marxs
