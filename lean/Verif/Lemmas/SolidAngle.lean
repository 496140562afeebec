import Mathlib.Analysis.SpecialFunctions.Pow.Deriv
import Mathlib.Analysis.SpecialFunctions.Complex.Arg
import Mathlib.MeasureTheory.Measure.Haar.OfBasis
import Verif.Lemmas.Uniform
import Verif.Spec.SolidAngle
import Verif.Spec.Uniform

/-!
# A cap of the sphere from uniform random numbers
-/

namespace Marxs

open MeasureTheory Set

/-- Image of volumes under an injective map with Jacobian of constant size. -/
theorem volume_of_jacobian (G : (Fin 3 → ℝ) → Fin 3 → ℝ) (A : (Fin 3 → ℝ) → Matrix (Fin 3) (Fin 3) ℝ)
    (s : Set (Fin 3 → ℝ)) (hs : MeasurableSet s)
    (hd : ∀ x ∈ s, HasFDerivAt G (Matrix.toLin' (A x)).toContinuousLinearMap x)
    (hi : InjOn G s) (k : ℝ) (hA : ∀ x ∈ s, |(A x).det| = k) :
    volume (G '' s) = ENNReal.ofReal k * volume s := by
  rw [← lintegral_abs_det_fderiv_eq_addHaar_image volume hs (fun x hx => (hd x hx).hasFDerivWithinAt) hi]
  rw [setLIntegral_congr_fun (g := fun _ => ENNReal.ofReal k) hs
    (fun x hx => by
      simp only [LinearMap.det_toContinuousLinearMap, LinearMap.det_toLin']; rw [hA x hx]), setLIntegral_const]

/-- Point of the unit ball from three random numbers; the first two fix the direction. -/
noncomputable def ballMap (k : ℝ) (u : Fin 3 → ℝ) : Fin 3 → ℝ :=
  ![u 2 ^ (1 / 3 : ℝ) * (Real.sqrt (1 - (1 - k * u 1) ^ 2) * Real.cos (2 * Real.pi * u 0)),
    u 2 ^ (1 / 3 : ℝ) * (Real.sqrt (1 - (1 - k * u 1) ^ 2) * Real.sin (2 * Real.pi * u 0)),
    u 2 ^ (1 / 3 : ℝ) * (1 - k * u 1)]

/-- Jacobian of `ballMap`. -/
noncomputable def ballJac (k : ℝ) (u : Fin 3 → ℝ) : Matrix (Fin 3) (Fin 3) ℝ :=
  let r := u 2 ^ (1 / 3 : ℝ)
  let r' := (1 / 3 : ℝ) * u 2 ^ (1 / 3 - 1 : ℝ)
  let z := 1 - k * u 1
  let s := Real.sqrt (1 - z ^ 2)
  let s' := z * k / s
  let t := 2 * Real.pi * u 0
  !![r * (s * (-Real.sin t * (2 * Real.pi))), r * (s' * Real.cos t), r' * (s * Real.cos t);
     r * (s * (Real.cos t * (2 * Real.pi))), r * (s' * Real.sin t), r' * (s * Real.sin t);
     0, -(r * k), r' * z]

theorem ballMap_hasFDerivAt (k : ℝ) (u : Fin 3 → ℝ) (h2 : 0 < u 2) (h : 0 < 1 - (1 - k * u 1) ^ 2) :
    HasFDerivAt (ballMap k) (Matrix.toLin' (ballJac k u)).toContinuousLinearMap u := by
  have p0 : HasFDerivAt (fun u : Fin 3 → ℝ => u 0) (ContinuousLinearMap.proj (R := ℝ) (φ := fun _ : Fin 3 => ℝ) 0) u :=
    hasFDerivAt_apply 0 u
  have p1 : HasFDerivAt (fun u : Fin 3 → ℝ => u 1) (ContinuousLinearMap.proj (R := ℝ) (φ := fun _ : Fin 3 => ℝ) 1) u :=
    hasFDerivAt_apply 1 u
  have p2 : HasFDerivAt (fun u : Fin 3 → ℝ => u 2) (ContinuousLinearMap.proj (R := ℝ) (φ := fun _ : Fin 3 => ℝ) 2) u :=
    hasFDerivAt_apply 2 u
  have hr := p2.rpow_const (p := (1 / 3 : ℝ)) (.inl h2.ne')
  have hz := (p1.const_mul k).const_sub 1
  have hs := ((hz.pow 2).const_sub 1).sqrt h.ne'
  have ht := p0.const_mul (2 * Real.pi)
  have hs0 := (Real.sqrt_pos.2 h).ne'
  rw [hasFDerivAt_pi']
  intro i
  fin_cases i
  · have := hr.mul (hs.mul ht.cos)
    refine this.congr_fderiv ?_
    ext x
    simp [ballJac, Matrix.mulVec, dotProduct, Fin.sum_univ_three, -mul_eq_mul_left_iff]
    ring
  · have := hr.mul (hs.mul ht.sin)
    refine this.congr_fderiv ?_
    ext x
    simp [ballJac, Matrix.mulVec, dotProduct, Fin.sum_univ_three, -mul_eq_mul_left_iff]
    ring
  · have := hr.mul hz
    refine this.congr_fderiv ?_
    ext x
    simp [ballJac, Matrix.mulVec, dotProduct, Fin.sum_univ_three, -mul_eq_mul_left_iff]
    ring

theorem ballJac_det (k : ℝ) (u : Fin 3 → ℝ) (h2 : 0 < u 2) (h : 0 < 1 - (1 - k * u 1) ^ 2) :
    (ballJac k u).det = -(2 * Real.pi * k / 3) := by
  have hs := Real.sqrt_pos.2 h
  have hsq := Real.sq_sqrt h.le
  have ht := Real.sin_sq_add_cos_sq (2 * Real.pi * u 0)
  have hr : (u 2 ^ (1 / 3 : ℝ)) ^ 2 * u 2 ^ (1 / 3 - 1 : ℝ) = 1 := by
    rw [← Real.rpow_natCast, ← Real.rpow_mul h2.le, ← Real.rpow_add h2]
    norm_num
  simp only [ballJac, Matrix.det_fin_three, Matrix.of_apply, Matrix.cons_val', Matrix.cons_val_zero,
    Matrix.cons_val_one, Matrix.cons_val]
  generalize Real.sqrt (1 - (1 - k * u 1) ^ 2) = s at *
  generalize u 2 ^ (1 / 3 : ℝ) = r at *
  generalize u 2 ^ (1 / 3 - 1 : ℝ) = r' at *
  generalize Real.sin (2 * Real.pi * u 0) = S at *
  generalize Real.cos (2 * Real.pi * u 0) = C at *
  generalize 1 - k * u 1 = z at *
  field_simp
  linear_combination (-2 * Real.pi * k) * ((S ^ 2 + C ^ 2) * (z ^ 2 + s ^ 2) * hr + (z ^ 2 + s ^ 2) * ht + hsq)

/-- Direction in a cap around the z axis. -/
noncomputable def capDir (k : ℝ) (u : ℝ × ℝ) : V3 :=
  ⟨Real.sqrt (1 - (1 - k * u.2) ^ 2) * Real.cos (2 * Real.pi * u.1),
   Real.sqrt (1 - (1 - k * u.2) ^ 2) * Real.sin (2 * Real.pi * u.1), 1 - k * u.2⟩

theorem cap_pos {k x : ℝ} (hk : 0 < k) (hk2 : k ≤ 2) (h0 : 0 < x) (h1 : x < 1) : 0 < 1 - (1 - k * x) ^ 2 := by
  have : 0 < k * x := mul_pos hk h0
  have : k * x < 2 := by nlinarith
  nlinarith

theorem capDir_unit {k : ℝ} (hk : 0 < k) (hk2 : k ≤ 2) {u : ℝ × ℝ} (h0 : 0 ≤ u.2) (h1 : u.2 ≤ 1) :
    (capDir k u).dot (capDir k u) = 1 := by
  have h : 0 ≤ 1 - (1 - k * u.2) ^ 2 := by
    have : 0 ≤ k * u.2 := mul_nonneg hk.le h0
    have : k * u.2 ≤ 2 := by nlinarith
    nlinarith
  have hsq := Real.sq_sqrt h
  have ht := Real.sin_sq_add_cos_sq (2 * Real.pi * u.1)
  simp only [capDir, V3.dot]
  linear_combination (Real.sqrt (1 - (1 - k * u.2) ^ 2)) ^ 2 * ht + hsq

theorem vecOf_ballMap (k : ℝ) (u : Fin 3 → ℝ) : vecOf (ballMap k u) = (u 2 ^ (1 / 3 : ℝ)) • capDir k (u 0, u 1) := by
  ext <;> simp [vecOf, ballMap, capDir]

theorem V3.norm_smul_of_unit {v : V3} (hv : v.dot v = 1) {r : ℝ} (hr : 0 < r) : (r • v).norm = r := by
  have : (r • v).dot (r • v) = r ^ 2 := by
    simp only [V3.dot, V3.smul_x, V3.smul_y, V3.smul_z] at hv ⊢
    linear_combination r ^ 2 * hv
  rw [V3.norm, this, Real.sqrt_sq hr.le]

theorem V3.unit_smul_of_unit {v : V3} (hv : v.dot v = 1) {r : ℝ} (hr : 0 < r) : (r • v).unit = v := by
  rw [V3.unit, V3.norm_smul_of_unit hv hr]
  ext <;> simp <;> field_simp

theorem angle_exists {x y s : ℝ} (h : x ^ 2 + y ^ 2 = s ^ 2) (hs : 0 < s) (hy : y ≠ 0) :
    ∃ t, 0 < t ∧ t < 2 * Real.pi ∧ x = s * Real.cos t ∧ y = s * Real.sin t := by
  obtain ⟨t, ht⟩ : ∃ t, t = Complex.arg ⟨x, y⟩ := ⟨_, rfl⟩
  have hn : ‖(⟨x, y⟩ : ℂ)‖ = s := by
    rw [Complex.norm_def, Complex.normSq_mk, ← sq, ← sq, h, Real.sqrt_sq hs.le]
  have hc : s * Real.cos t = x := by rw [ht, ← hn, Complex.norm_mul_cos_arg]
  have hsn : s * Real.sin t = y := by rw [ht, ← hn, Complex.norm_mul_sin_arg]
  have b1 := Complex.neg_pi_lt_arg (⟨x, y⟩ : ℂ)
  have b2 := Complex.arg_le_pi (⟨x, y⟩ : ℂ)
  rw [← ht] at b1 b2
  have hp := Real.pi_pos
  rcases lt_trichotomy t 0 with h0 | h0 | h0
  · refine ⟨t + 2 * Real.pi, by linarith, by linarith, ?_, ?_⟩
    · rw [Real.cos_add_two_pi, hc]
    · rw [Real.sin_add_two_pi, hsn]
  · rw [h0, Real.sin_zero, mul_zero] at hsn
    exact absurd hsn.symm hy
  · exact ⟨t, h0, by linarith, hc.symm, hsn.symm⟩

/-- The open unit cube. -/
def unitCube : Set (Fin 3 → ℝ) := {u | ∀ i, 0 < u i ∧ u i < 1}

theorem cos_sin_inj {a b : ℝ} (ha : 0 < a) (ha1 : a < 1) (hb : 0 < b) (hb1 : b < 1)
    (hc : Real.cos (2 * Real.pi * a) = Real.cos (2 * Real.pi * b))
    (hs : Real.sin (2 * Real.pi * a) = Real.sin (2 * Real.pi * b)) : a = b := by
  have hp := Real.pi_pos
  have h1 := Real.sin_sq_add_cos_sq (2 * Real.pi * b)
  have h : Real.cos (2 * Real.pi * a - 2 * Real.pi * b) = 1 := by
    rw [Real.cos_sub, hc, hs]; linarith
  rw [Real.cos_eq_one_iff_of_lt_of_lt] at h
  · have : 2 * Real.pi * (a - b) = 0 := by linarith
    rcases mul_eq_zero.1 this with h | h
    · linarith
    · linarith
  · nlinarith
  · nlinarith

theorem ballMap_injOn {k : ℝ} (hk : 0 < k) (hk2 : k ≤ 2) : InjOn (ballMap k) unitCube := by
  intro u hu v hv h
  have hr := Real.rpow_pos_of_pos (hu 2).1 (1 / 3 : ℝ)
  have hq := Real.rpow_pos_of_pos (hv 2).1 (1 / 3 : ℝ)
  have du := capDir_unit hk hk2 (u := (u 0, u 1)) (hu 1).1.le (hu 1).2.le
  have dv := capDir_unit hk hk2 (u := (v 0, v 1)) (hv 1).1.le (hv 1).2.le
  have hvec : (u 2 ^ (1 / 3 : ℝ)) • capDir k (u 0, u 1) = (v 2 ^ (1 / 3 : ℝ)) • capDir k (v 0, v 1) := by
    rw [← vecOf_ballMap, ← vecOf_ballMap, h]
  have hrq : u 2 ^ (1 / 3 : ℝ) = v 2 ^ (1 / 3 : ℝ) := by
    rw [← V3.norm_smul_of_unit du hr, hvec, V3.norm_smul_of_unit dv hq]
  have h2 : u 2 = v 2 := (Real.rpow_left_inj (hu 2).1.le (hv 2).1.le (by norm_num)).1 hrq
  have hd : capDir k (u 0, u 1) = capDir k (v 0, v 1) := by
    rw [← V3.unit_smul_of_unit du hr, hvec, V3.unit_smul_of_unit dv hq]
  have hz := congrArg V3.z hd
  have hx := congrArg V3.x hd
  have hy := congrArg V3.y hd
  simp only [capDir] at hx hy hz
  have h1 : u 1 = v 1 := mul_left_cancel₀ hk.ne' (by linarith)
  rw [h1] at hx hy
  have hs := (Real.sqrt_pos.2 (cap_pos hk hk2 (hv 1).1 (hv 1).2)).ne'
  have h0 : u 0 = v 0 := cos_sin_inj (hu 0).1 (hu 0).2 (hv 0).1 (hv 0).2 (mul_left_cancel₀ hs hx) (mul_left_cancel₀ hs hy)
  funext i
  fin_cases i
  · exact h0
  · exact h1
  · exact h2

theorem unitCube_measurable : MeasurableSet unitCube := by
  have : unitCube = Set.pi univ fun _ : Fin 3 => Ioo (0 : ℝ) 1 := by
    ext u; simp [unitCube, Set.mem_pi]
  rw [this]
  exact MeasurableSet.univ_pi fun _ => measurableSet_Ioo

theorem capDir_vec_measurable (k : ℝ) {W : Set V3} (hW : MeasurableVecs W) : MeasurableSet {u : ℝ × ℝ | capDir k u ∈ W} := by
  have hm : Measurable fun u : ℝ × ℝ => (![(capDir k u).x, (capDir k u).y, (capDir k u).z] : Fin 3 → ℝ) := by
    rw [measurable_pi_iff]
    intro i
    fin_cases i <;> simp [capDir] <;> fun_prop
  have := hm hW
  exact this

theorem volume_cube_pair {A : Set (ℝ × ℝ)} (hA : MeasurableSet A) :
    volume (unitCube ∩ {u : Fin 3 → ℝ | (u 0, u 1) ∈ A}) = volume.restrict (Ioo 0 1 ×ˢ Ioo 0 1) A := by
  have sq : MeasurableSet ((Ioo 0 1 ×ˢ Ioo 0 1 : Set (ℝ × ℝ))) := measurableSet_Ioo.prod measurableSet_Ioo
  have e1 := volume_preserving_piFinSuccAbove (fun _ : Fin 3 => ℝ) 2
  have e2 := volume_preserving_finTwoArrow ℝ
  have hset : unitCube ∩ {u : Fin 3 → ℝ | (u 0, u 1) ∈ A} =
      (MeasurableEquiv.piFinSuccAbove (fun _ : Fin 3 => ℝ) 2) ⁻¹'
        (Ioo 0 1 ×ˢ (MeasurableEquiv.finTwoArrow ⁻¹' (A ∩ Ioo 0 1 ×ˢ Ioo 0 1))) := by
    ext u
    simp only [unitCube, mem_inter_iff, mem_setOf_eq, mem_preimage, mem_prod, mem_Ioo, Fin.forall_fin_succ]
    have a0 : (MeasurableEquiv.piFinSuccAbove (fun _ : Fin 3 => ℝ) 2 u).1 = u 2 := rfl
    have a1 : MeasurableEquiv.finTwoArrow (MeasurableEquiv.piFinSuccAbove (fun _ : Fin 3 => ℝ) 2 u).2 = (u 0, u 1) := rfl
    rw [a0, a1]
    have e : Fin.succ (Fin.succ (0 : Fin 1)) = (2 : Fin 3) := rfl
    have e' : Fin.succ (0 : Fin 2) = (1 : Fin 3) := rfl
    simp only [e, e']
    constructor
    · rintro ⟨⟨h0, h1, h2, -⟩, h⟩
      exact ⟨h2, h, h0, h1⟩
    · rintro ⟨h2, h, h0, h1⟩
      exact ⟨⟨h0, h1, h2, fun i => i.elim0⟩, h⟩
  rw [hset, e1.measure_preimage, Measure.volume_eq_prod, Measure.prod_prod, e2.measure_preimage,
    Measure.restrict_apply hA]
  · simp
  · exact (hA.inter sq).nullMeasurableSet
  · exact (measurableSet_Ioo.prod (MeasurableEquiv.finTwoArrow.measurable (hA.inter sq))).nullMeasurableSet

/-- Volume of the part of the unit ball seen in the directions `W` of a cap around the z axis. -/
theorem cap_volume {k : ℝ} (hk : 0 < k) (hk2 : k ≤ 2) {W : Set V3} (hW : MeasurableVecs W) :
    volume {p : Fin 3 → ℝ | vecOf p ≠ 0 ∧ (vecOf p).norm < 1 ∧ (vecOf p).unit ∈ W ∧ 1 - k < (vecOf p).unit.z} =
      ENNReal.ofReal (2 * Real.pi * k / 3) * volume.restrict (Ioo 0 1 ×ˢ Ioo 0 1) {u : ℝ × ℝ | capDir k u ∈ W} := by
  have hA := capDir_vec_measurable k hW
  have hT : MeasurableSet (unitCube ∩ {u : Fin 3 → ℝ | (u 0, u 1) ∈ {u : ℝ × ℝ | capDir k u ∈ W}}) := by
    refine unitCube_measurable.inter ?_
    have : Measurable fun u : Fin 3 → ℝ => (u 0, u 1) := by fun_prop
    exact this hA
  rw [← volume_cube_pair hA, ← volume_of_jacobian (ballMap k) (ballJac k) _ hT
    (fun x hx => ballMap_hasFDerivAt k x (hx.1 2).1 (cap_pos hk hk2 (hx.1 1).1 (hx.1 1).2))
    ((ballMap_injOn hk hk2).mono inter_subset_left) (2 * Real.pi * k / 3)
    (fun x hx => by
      rw [ballJac_det k x (hx.1 2).1 (cap_pos hk hk2 (hx.1 1).1 (hx.1 1).2), abs_neg,
        abs_of_pos (by have := Real.pi_pos; positivity)])]
  apply le_antisymm
  · have hsub : {p : Fin 3 → ℝ | vecOf p ≠ 0 ∧ (vecOf p).norm < 1 ∧ (vecOf p).unit ∈ W ∧ 1 - k < (vecOf p).unit.z} ⊆
        (ballMap k '' (unitCube ∩ {u : Fin 3 → ℝ | (u 0, u 1) ∈ {u : ℝ × ℝ | capDir k u ∈ W}})) ∪ {p | p 1 = 0} := by
      rintro p ⟨h0, h1, h2, h3⟩
      by_cases hp : p 1 = 0
      · exact .inr hp
      left
      have hr := V3.norm_pos h0
      have hu := V3.unit_dot_unit h0
      have he := V3.norm_smul_unit h0
      set r := (vecOf p).norm
      set v := (vecOf p).unit
      have hvy : v.y ≠ 0 := by
        intro h
        apply hp
        have := congrArg V3.y he
        simp only [V3.smul_y, h, mul_zero] at this
        exact this.symm
      have hdot : v.x * v.x + v.y * v.y + v.z * v.z = 1 := hu
      have hvy2 : 0 < v.y * v.y := mul_self_pos.2 hvy
      have hz1 : v.z < 1 := by nlinarith [mul_self_nonneg v.x]
      have hz2 : 0 < 1 - v.z ^ 2 := by nlinarith [mul_self_nonneg v.x]
      obtain ⟨t, ht0, ht1, htx, hty⟩ := angle_exists (x := v.x) (y := v.y) (s := Real.sqrt (1 - v.z ^ 2))
        (by rw [Real.sq_sqrt hz2.le]; linarith) (Real.sqrt_pos.2 hz2) hvy
      have hpi := Real.pi_pos
      have hcap : capDir k (t / (2 * Real.pi), (1 - v.z) / k) = v := by
        have e1 : 1 - k * ((1 - v.z) / k) = v.z := by field_simp; ring
        have e2 : 2 * Real.pi * (t / (2 * Real.pi)) = t := by field_simp
        ext
        · simp only [capDir, e1, e2]; exact htx.symm
        · simp only [capDir, e1, e2]; exact hty.symm
        · simp only [capDir, e1]
      refine ⟨![t / (2 * Real.pi), (1 - v.z) / k, r ^ 3], ⟨?_, ?_⟩, ?_⟩
      · intro i
        fin_cases i
        · simp only [Fin.zero_eta, Matrix.cons_val_zero]
          exact ⟨by positivity, (div_lt_one (by positivity)).2 ht1⟩
        · simp only [Fin.mk_one, Matrix.cons_val_one]
          exact ⟨div_pos (by linarith) hk, (div_lt_one hk).2 (by linarith)⟩
        · simp only [Fin.reduceFinMk, Matrix.cons_val]
          exact ⟨by positivity, pow_lt_one₀ hr.le h1 (by norm_num)⟩
      · simp only [mem_setOf_eq, Matrix.cons_val_zero, Matrix.cons_val_one]
        rw [hcap]; exact h2
      · have hvec : vecOf (ballMap k ![t / (2 * Real.pi), (1 - v.z) / k, r ^ 3]) = vecOf p := by
          rw [vecOf_ballMap]
          simp only [Matrix.cons_val_zero, Matrix.cons_val_one, Matrix.cons_val]
          rw [hcap, ← he]
          congr 1
          rw [← Real.rpow_natCast, ← Real.rpow_mul hr.le]
          norm_num
        funext i
        fin_cases i
        · exact congrArg V3.x hvec
        · exact congrArg V3.y hvec
        · exact congrArg V3.z hvec
    refine (measure_mono hsub).trans ((measure_union_le _ _).trans ?_)
    have hnull : volume {p : Fin 3 → ℝ | p 1 = 0} = 0 := Measure.pi_hyperplane (fun _ : Fin 3 => volume) 1 0
    rw [hnull, add_zero]
  · apply measure_mono
    rintro _ ⟨u, ⟨hu, hw⟩, rfl⟩
    have hr := Real.rpow_pos_of_pos (hu 2).1 (1 / 3 : ℝ)
    have du := capDir_unit hk hk2 (u := (u 0, u 1)) (hu 1).1.le (hu 1).2.le
    have n1 := V3.norm_smul_of_unit du hr
    have n2 := V3.unit_smul_of_unit du hr
    simp only [mem_setOf_eq]
    rw [vecOf_ballMap, n1, n2]
    refine ⟨?_, Real.rpow_lt_one (hu 2).1.le (hu 2).2 (by norm_num), hw, ?_⟩
    · intro h
      rw [h] at n1
      simp [V3.norm, V3.dot] at n1
      linarith
    · simp only [capDir]
      nlinarith [(hu 1).2]

end Marxs
