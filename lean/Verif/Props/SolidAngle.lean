import Verif.Lemmas.SolidAngle
import Verif.Props.Uniform
import Verif.Props.Source

/-!
# Property C151: distribution of photons from extended sources and lab sources
-/

namespace Marxs

open MeasureTheory Set

theorem vecOf_unit_measurable {S : Set V3} (hS : MeasurableVecs S) :
    MeasurableSet {p : Fin 3 → ℝ | (vecOf p).unit ∈ S} := by
  have hm : Measurable fun p : Fin 3 → ℝ => (![(vecOf p).unit.x, (vecOf p).unit.y, (vecOf p).unit.z] : Fin 3 → ℝ) := by
    rw [measurable_pi_iff]
    intro i
    fin_cases i <;> simp [vecOf, V3.unit, V3.norm, V3.dot] <;> fun_prop
  exact hm hS

theorem vecOf_ball_measurable : MeasurableSet {p : Fin 3 → ℝ | vecOf p ≠ 0 ∧ (vecOf p).norm < 1} := by
  have h1 : MeasurableSet {p : Fin 3 → ℝ | (vecOf p).norm < 1} := by
    refine measurableSet_lt ?_ measurable_const
    simp only [vecOf, V3.norm, V3.dot]
    fun_prop
  have h2 : {p : Fin 3 → ℝ | vecOf p ≠ 0} = {0}ᶜ := by
    ext p
    simp only [mem_setOf_eq, mem_compl_iff, mem_singleton_iff, not_iff_not]
    constructor
    · intro h
      funext i
      fin_cases i
      · exact congrArg V3.x h
      · exact congrArg V3.y h
      · exact congrArg V3.z h
    · rintro rfl; rfl
  have h3 : MeasurableSet {p : Fin 3 → ℝ | vecOf p ≠ 0} := by
    rw [h2]; exact (measurableSet_singleton _).compl
  exact h3.inter h1

theorem vecOf_mulVec (R : M3) (p : Fin 3 → ℝ) : vecOf (Matrix.toLin' R p) = mul3 R (vecOf p) := by
  ext <;> simp [vecOf, mul3, Matrix.mulVec, dotProduct, Fin.sum_univ_three]

theorem mul3_norm {R : M3} (hR : IsRotation R) (v : V3) : (mul3 R v).norm = v.norm := by
  rw [V3.norm, V3.norm, mul3_dot_of_orthogonal hR.1]

theorem mul3_unit {R : M3} (hR : IsRotation R) (v : V3) : (mul3 R v).unit = mul3 R v.unit := by
  rw [V3.unit, V3.unit, mul3_norm hR]
  ext <;> simp [mul3] <;> ring

theorem mul3_ne_zero {R : M3} (hR : IsRotation R) (v : V3) : mul3 R v ≠ 0 ↔ v ≠ 0 := by
  have : ∀ w : V3, w = 0 ↔ w.dot w = 0 := by
    intro w
    constructor
    · rintro rfl; simp [V3.dot]
    · intro h
      by_contra hw
      exact (V3.dot_self_pos hw).ne' h
  rw [ne_eq, ne_eq, this, this, mul3_dot_of_orthogonal hR.1]

/-- Solid angles do not depend on the orientation. -/
theorem solidAngle_rotate {R : M3} (hR : IsRotation R) {S : Set V3} (hS : MeasurableVecs S) :
    solidAngle S = solidAngle {v | mul3 R v ∈ S} := by
  have hm : MeasurableSet {p : Fin 3 → ℝ | vecOf p ≠ 0 ∧ (vecOf p).norm < 1 ∧ (vecOf p).unit ∈ S} := by
    have := vecOf_ball_measurable.inter (vecOf_unit_measurable hS)
    convert this using 1
    ext p
    simp only [mem_setOf_eq, mem_inter_iff, and_assoc]
  have hmap := Real.map_matrix_volume_pi_eq_smul_volume_pi (M := R) (by rw [hR.2]; norm_num)
  rw [hR.2] at hmap
  simp only [inv_one, abs_one, ENNReal.ofReal_one, one_smul] at hmap
  rw [solidAngle, solidAngle]
  congr 1
  conv_lhs => rw [← hmap]
  rw [Measure.map_apply (LinearMap.continuous_on_pi _).measurable hm]
  congr 1
  ext p
  simp only [mem_preimage, mem_setOf_eq, vecOf_mulVec, mul3_ne_zero hR, mul3_norm hR, mul3_unit hR]

theorem measurableVecs_cone (d : V3) (half : ℝ) : MeasurableVecs (coneAround d half) := by
  have h1 : MeasurableSet {p : Fin 3 → ℝ | (vecOf p).dot (vecOf p) = 1} := by
    refine measurableSet_eq_fun ?_ measurable_const
    simp only [vecOf, V3.dot]; fun_prop
  have h2 : MeasurableSet {p : Fin 3 → ℝ | Real.cos half < (vecOf p).dot d} := by
    refine measurableSet_lt measurable_const ?_
    simp only [vecOf, V3.dot]; fun_prop
  exact h1.inter h2

theorem measurableVecs_rotate {R : M3} {S : Set V3} (hS : MeasurableVecs S) : MeasurableVecs {v | mul3 R v ∈ S} := by
  have hm : Measurable (Matrix.toLin' R : (Fin 3 → ℝ) →ₗ[ℝ] Fin 3 → ℝ) := (LinearMap.continuous_on_pi _).measurable
  have := hm hS
  have e : {p : Fin 3 → ℝ | vecOf p ∈ {v | mul3 R v ∈ S}} =
      (Matrix.toLin' R : (Fin 3 → ℝ) →ₗ[ℝ] Fin 3 → ℝ) ⁻¹' {p | vecOf p ∈ S} := by
    ext p
    simp only [mem_preimage, mem_setOf_eq, vecOf_mulVec]
  rw [MeasurableVecs, e]
  exact this

theorem cone_sector {R : M3} (hR : IsRotation R) {d : V3} (hax : mul3 R ⟨0, 0, 1⟩ = d) {half : ℝ}
    (h0 : 0 < half) (h1 : half ≤ Real.pi) {S : Set V3} (hS : MeasurableVecs S) :
    solidAngle (S ∩ coneAround d half) = ENNReal.ofReal (2 * Real.pi * (1 - Real.cos half)) *
      randomPair {u | mul3 R (capDir (1 - Real.cos half) u) ∈ S} := by
  have hk : 0 < 1 - Real.cos half := by
    have := Real.cos_lt_cos_of_nonneg_of_le_pi le_rfl h1 h0
    rw [Real.cos_zero] at this; linarith
  have hk2 : 1 - Real.cos half ≤ 2 := by linarith [Real.neg_one_le_cos half]
  have hM : MeasurableVecs (S ∩ coneAround d half) := hS.inter (measurableVecs_cone d half)
  rw [solidAngle_rotate hR hM, solidAngle]
  have hset : {p : Fin 3 → ℝ | vecOf p ≠ 0 ∧ (vecOf p).norm < 1 ∧
      (vecOf p).unit ∈ {v | mul3 R v ∈ S ∩ coneAround d half}} =
      {p : Fin 3 → ℝ | vecOf p ≠ 0 ∧ (vecOf p).norm < 1 ∧ (vecOf p).unit ∈ {v | mul3 R v ∈ S} ∧
        1 - (1 - Real.cos half) < (vecOf p).unit.z} := by
    ext p
    simp only [mem_setOf_eq, mem_inter_iff, coneAround]
    constructor
    · rintro ⟨a, b, c, -, e⟩
      refine ⟨a, b, c, ?_⟩
      rw [← hax, mul3_dot_of_orthogonal hR.1] at e
      simp only [V3.dot, mul_zero, zero_add, mul_one] at e
      linarith
    · rintro ⟨a, b, c, e⟩
      refine ⟨a, b, c, ?_, ?_⟩
      · rw [mul3_dot_of_orthogonal hR.1]; exact V3.unit_dot_unit a
      · rw [← hax, mul3_dot_of_orthogonal hR.1]
        simp only [V3.dot, mul_zero, zero_add, mul_one]
        linarith
  rw [hset, cap_volume hk hk2 (measurableVecs_rotate hS), ← randomPair_eq, ← mul_assoc]
  have hp := Real.pi_pos
  congr 1
  rw [show (3 : ENNReal) = ENNReal.ofReal 3 by norm_num, ← ENNReal.ofReal_mul (by norm_num)]
  congr 1
  ring

theorem conePhoton_cap {d : V3} (hz : d.cross ⟨0, 0, 1⟩ ≠ 0) {half : ℝ} {u : ℝ × ℝ} (h0 : 0 ≤ u.2) (h1 : u.2 ≤ 1) :
    conePhoton d half u.1 u.2 =
      some (mul3 (rotMat (d.cross ⟨0, 0, 1⟩).unit (-Real.arccos d.z)) (capDir (1 - Real.cos half) u)).toDir := by
  have hfrac : 2 * (2 * Real.pi * (1 - Real.cos half) / (4 * Real.pi) * u.2) = (1 - Real.cos half) * u.2 := by
    have := Real.pi_pos
    field_simp
    try ring
  have c1 := Real.cos_le_one half
  have c2 := Real.neg_one_le_cos half
  simp only [conePhoton, if_neg hz, hfrac]
  rw [Real.cos_arccos (by nlinarith) (by nlinarith), Real.sin_arccos]
  congr 3
  ext <;> simp [capDir] <;> ring

theorem toDir_inj {v w : V3} (h : v.toDir = w.toDir) : v = w := by
  ext
  · exact congrArg H4.x h
  · exact congrArg H4.y h
  · exact congrArg H4.z h

/-- **C151** The cone of a `LabPointSourceCone` covers the solid angle `2π (1 - cos half)`. -/
theorem C151_cone_size (d : V3) (hd : d.dot d = 1) (hz : d.cross ⟨0, 0, 1⟩ ≠ 0) (half : ℝ) (h0 : 0 < half)
    (h1 : half ≤ Real.pi) : solidAngle (coneAround d half) = ENNReal.ofReal (2 * Real.pi * (1 - Real.cos half)) := by
  have rot : IsRotation (rotMat (d.cross ⟨0, 0, 1⟩).unit (-Real.arccos d.z)) :=
    (C16_axangle_rotation _ (V3.unit_dot_unit hz) _).1
  have h := cone_sector rot (cone_axis hd hz) h0 h1 (S := univ) (by simp [MeasurableVecs])
  simpa using h

/-- **C151** (partial: central directions that are not parallel to z, see `C68_parallel_z`.) Photons of a
`LabPointSourceCone` are distributed uniformly: the probability that the direction is in any set `S` is the
fraction of the solid angle of the cone that `S` covers. -/
theorem C151_cone_partial (d : V3) (hd : d.dot d = 1) (hz : d.cross ⟨0, 0, 1⟩ ≠ 0) (half : ℝ) (h0 : 0 < half)
    (h1 : half ≤ Real.pi) (S : Set V3) (hS : MeasurableVecs S) :
    randomPair {u | ∃ v ∈ S, conePhoton d half u.1 u.2 = some v.toDir} =
      solidAngle (S ∩ coneAround d half) / solidAngle (coneAround d half) := by
  have rot : IsRotation (rotMat (d.cross ⟨0, 0, 1⟩).unit (-Real.arccos d.z)) :=
    (C16_axangle_rotation _ (V3.unit_dot_unit hz) _).1
  have hk : 0 < 1 - Real.cos half := by
    have := Real.cos_lt_cos_of_nonneg_of_le_pi le_rfl h1 h0
    rw [Real.cos_zero] at this; linarith
  rw [C151_cone_size d hd hz half h0 h1, cone_sector rot (cone_axis hd hz) h0 h1 hS]
  have hne : ENNReal.ofReal (2 * Real.pi * (1 - Real.cos half)) ≠ 0 := by
    have := Real.pi_pos
    simp only [ne_eq, ENNReal.ofReal_eq_zero, not_le]
    positivity
  rw [ENNReal.div_eq_inv_mul, ← mul_assoc, ENNReal.inv_mul_cancel hne ENNReal.ofReal_ne_top, one_mul]
  apply measure_congr
  rw [randomPair_eq]
  filter_upwards [ae_restrict_mem (measurableSet_Ioo.prod measurableSet_Ioo)] with u hu
  apply propext
  show (∃ v ∈ S, conePhoton d half u.1 u.2 = some v.toDir) ↔ _ ∈ S
  rw [conePhoton_cap hz hu.2.1.le hu.2.2.le]
  constructor
  · rintro ⟨v, hv, he⟩
    rw [Option.some.injEq] at he
    rw [toDir_inj he]; exact hv
  · intro h
    exact ⟨_, h, rfl⟩

theorem swap_law (A : Set (ℝ × ℝ)) (hA : MeasurableSet A) : randomPair (Prod.swap ⁻¹' A) = randomPair A := by
  have : Measure.map Prod.swap randomPair = randomPair := by
    rw [randomPair]; exact Measure.prod_swap
  conv_rhs => rw [← this]
  rw [Measure.map_apply measurable_swap hA]

theorem disk_ring {a b : ℝ} (hb : 0 < b) (u : ℝ × ℝ) :
    offsetLonLat (diskRadius a b u.1) u.2 = Prod.swap (ringMap b (a / b) 0 (2 * Real.pi) (Prod.swap u)) := by
  have e : Real.sqrt (a ^ 2 + u.1 * (b ^ 2 - a ^ 2)) = b * Real.sqrt ((a / b) ^ 2 + (1 - (a / b) ^ 2) * u.1) := by
    rw [show a ^ 2 + u.1 * (b ^ 2 - a ^ 2) = b ^ 2 * ((a / b) ^ 2 + (1 - (a / b) ^ 2) * u.1) by field_simp,
      Real.sqrt_mul (sq_nonneg b), Real.sqrt_sq hb.le]
  have e2 : u.2 * 2 * Real.pi = 0 + 2 * Real.pi * u.2 := by ring
  simp only [offsetLonLat, diskRadius, e, e2, ringMap, Prod.swap, Prod.fst_swap, Prod.snd_swap]
  ext <;> simp <;> ring

/-- **C151** Photons of a `DiskSource` are distributed uniformly over the ring, in the plane of offset angles to the
East and North: the probability of any part `S` is the fraction of the area of the ring that `S` covers, and the
ring has the area `π (b² - a²)`. -/
theorem C151_disk (a b : ℝ) (ha : 0 ≤ a) (hab : a < b) (S : Set (ℝ × ℝ)) (hS : MeasurableSet S) :
    volume (flatRing a b) = ENNReal.ofReal (Real.pi * (b ^ 2 - a ^ 2)) ∧
    randomPair {u | offsetLonLat (diskRadius a b u.1) u.2 ∈ S} =
      volume (S ∩ flatRing a b) / volume (flatRing a b) := by
  have hb : 0 < b := by linarith
  have ha0 : 0 ≤ a / b := by positivity
  have ha1 : a / b < 1 := (div_lt_one hb).2 hab
  have hp := Real.pi_pos
  have ha2 : 0 < 1 - (a / b) ^ 2 := by nlinarith
  have sq : MeasurableSet ((Ioo 0 1 ×ˢ Ioo 0 1 : Set (ℝ × ℝ))) := measurableSet_Ioo.prod measurableSet_Ioo
  have sq1 : volume ((Ioo 0 1 ×ˢ Ioo 0 1 : Set (ℝ × ℝ))) = 1 := by
    rw [Measure.volume_eq_prod, Measure.prod_prod]; simp
  have hq : ∀ x ∈ (Ioo 0 1 ×ˢ Ioo 0 1 : Set (ℝ × ℝ)), 0 < (a / b) ^ 2 + (1 - (a / b) ^ 2) * x.2 := by
    rintro ⟨x1, x2⟩ ⟨-, h2, -⟩
    have := mul_pos ha2 h2
    simp only at this ⊢
    positivity
  have pos : 0 < b ^ 2 * (1 - (a / b) ^ 2) * (2 * Real.pi) / 2 := by positivity
  have epos : b ^ 2 * (1 - (a / b) ^ 2) * (2 * Real.pi) / 2 = Real.pi * (b ^ 2 - a ^ 2) := by
    field_simp
  obtain ⟨hmap, hvol⟩ := uniform_of_jacobian _ (ringMap_measurable b (a / b) 0 (2 * Real.pi)) (ringJac _ _ _ _) _ sq
    (fun x hx => ringMap_hasFDerivAt _ _ _ _ x (hq x hx))
    (ringMap_injOn _ _ _ _ hb ha0 ha1 (by positivity) le_rfl) _ pos
    (fun x hx => by rw [ringJac_det _ _ _ _ _ (hq x hx), abs_neg, abs_of_pos pos])
  rw [sq1, mul_one] at hvol
  rw [epos] at hmap hvol pos
  rw [ringMap_image _ _ _ _ hb ha0 ha1 (by positivity)] at hmap hvol
  have hba : b * (a / b) = a := by field_simp
  rw [hba, zero_add] at hmap hvol
  have hring : MeasurableSet (flatRing a b) := by
    have m1 : MeasurableSet {p : ℝ × ℝ | a ^ 2 < p.1 ^ 2 + p.2 ^ 2} := measurableSet_lt measurable_const (by fun_prop)
    have m2 : MeasurableSet {p : ℝ × ℝ | p.1 ^ 2 + p.2 ^ 2 < b ^ 2} := measurableSet_lt (by fun_prop) measurable_const
    exact m1.inter m2
  -- the ring and its image under the map differ by a ray
  have hae : ({p | ∃ d phi, a < d ∧ d < b ∧ 0 < phi ∧ phi < 2 * Real.pi ∧ p = (d * Real.cos phi, d * Real.sin phi)} :
      Set (ℝ × ℝ)) =ᵐ[volume] flatRing a b := by
    have hnull : volume {p : ℝ × ℝ | p.2 = 0} = 0 := by
      have : {p : ℝ × ℝ | p.2 = 0} = univ ×ˢ {0} := by ext p; simp
      rw [this, Measure.volume_eq_prod, Measure.prod_prod]; simp
    have hmem : ∀ᵐ p : ℝ × ℝ, p.2 ≠ 0 := by
      rw [ae_iff]; simpa using hnull
    filter_upwards [hmem] with p hp2
    apply propext
    show (∃ d phi, _) ↔ _
    constructor
    · rintro ⟨d, phi, h1, h2, -, -, rfl⟩
      have e : (d * Real.cos phi) ^ 2 + (d * Real.sin phi) ^ 2 = d ^ 2 := by
        linear_combination d ^ 2 * Real.sin_sq_add_cos_sq phi
      simp only [flatRing, mem_setOf_eq, e]
      exact ⟨by nlinarith, by nlinarith⟩
    · rintro ⟨h1, h2⟩
      have hpos : 0 < p.1 ^ 2 + p.2 ^ 2 := lt_of_le_of_lt (sq_nonneg a) h1
      obtain ⟨t, t0, t1, tx, ty⟩ := angle_exists (x := p.1) (y := p.2) (s := Real.sqrt (p.1 ^ 2 + p.2 ^ 2))
        (Real.sq_sqrt hpos.le).symm (Real.sqrt_pos.2 hpos) hp2
      exact ⟨_, t, Real.lt_sqrt_of_sq_lt h1, (Real.sqrt_lt' hb).2 h2, t0, t1, Prod.ext tx ty⟩
  have hvolring : volume (flatRing a b) = ENNReal.ofReal (Real.pi * (b ^ 2 - a ^ 2)) := by
    rw [← measure_congr hae, hvol]
  refine ⟨hvolring, ?_⟩
  rw [hvolring]
  have hS' : MeasurableSet (Prod.swap ⁻¹' S) := measurable_swap hS
  have hset : {u : ℝ × ℝ | offsetLonLat (diskRadius a b u.1) u.2 ∈ S} =
      Prod.swap ⁻¹' (ringMap b (a / b) 0 (2 * Real.pi) ⁻¹' (Prod.swap ⁻¹' S)) := by
    ext u
    simp only [mem_setOf_eq, mem_preimage, disk_ring hb]
  rw [hset, swap_law _ (ringMap_measurable _ _ _ _ hS'), randomPair_eq, ← Measure.map_apply (ringMap_measurable _ _ _ _) hS',
    hmap, Measure.smul_apply, Measure.restrict_congr_set hae, Measure.restrict_apply hS', smul_eq_mul,
    ENNReal.div_eq_inv_mul]
  congr 1
  have hsw : MeasurePreserving (Prod.swap : ℝ × ℝ → ℝ × ℝ) volume volume := by
    rw [Measure.volume_eq_prod]; exact Measure.measurePreserving_swap
  rw [← hsw.measure_preimage (hS.inter hring).nullMeasurableSet]
  congr 1
  ext p
  simp only [mem_inter_iff, mem_preimage, flatRing, mem_setOf_eq, Prod.fst_swap, Prod.snd_swap, add_comm]

/-- **C151** Documentation: `SphericalDiskSource` "implements the full spherical geometry". With a radius of 90 degrees,
the inner 60 degrees are half of the solid angle, but more than half of the photons come from there, because the
radius is used as offset in longitude and latitude. -/
theorem C151_spherical_false :
    solidAngle (coneAround ⟨1, 0, 0⟩ (Real.pi / 3)) / solidAngle (coneAround ⟨1, 0, 0⟩ (Real.pi / 2)) <
      randomPair {u | skyDistance (offsetLonLat (sphericalRadius 0 (Real.pi / 2) u.1) u.2) < Real.pi / 3} := by
  have hp := Real.pi_pos
  have hx : (⟨1, 0, 0⟩ : V3).dot ⟨1, 0, 0⟩ = 1 := by simp [V3.dot]
  have hz : (⟨1, 0, 0⟩ : V3).cross ⟨0, 0, 1⟩ ≠ 0 := by
    intro h
    have := congrArg V3.y h
    simp [V3.cross] at this
  have lhs : solidAngle (coneAround ⟨1, 0, 0⟩ (Real.pi / 3)) / solidAngle (coneAround ⟨1, 0, 0⟩ (Real.pi / 2)) =
      ENNReal.ofReal (1 / 2) := by
    rw [C151_cone_size _ hx hz _ (by positivity) (by linarith), C151_cone_size _ hx hz _ (by positivity) (by linarith),
      ← ENNReal.ofReal_div_of_pos (by rw [Real.cos_pi_div_two]; linarith), Real.cos_pi_div_two, Real.cos_pi_div_three]
    congr 1
    field_simp
    norm_num
  rw [lhs]
  -- cosine of the distance
  set f : ℝ × ℝ → ℝ := fun u => Real.cos (Real.arccos (1 - u.1) * Real.sin (u.2 * 2 * Real.pi)) *
    Real.cos (Real.arccos (1 - u.1) * Real.cos (u.2 * 2 * Real.pi)) with hf
  have fc : Continuous f := by
    simp only [hf]
    have : Continuous fun u : ℝ × ℝ => Real.arccos (1 - u.1) := Real.continuous_arccos.comp (by fun_prop)
    fun_prop
  have hsr : ∀ u : ℝ, sphericalRadius 0 (Real.pi / 2) u = Real.arccos (1 - u) := by
    intro u; simp [sphericalRadius]
  have hdist : ∀ u, 1 / 2 < f u → skyDistance (offsetLonLat (sphericalRadius 0 (Real.pi / 2) u.1) u.2) < Real.pi / 3 := by
    intro u hu
    rw [skyDistance_eq, hsr]
    simp only [offsetLonLat]
    have hle : f u ≤ 1 := by
      have h1 := Real.abs_cos_le_one (Real.arccos (1 - u.1) * Real.sin (u.2 * 2 * Real.pi))
      have h2 := Real.abs_cos_le_one (Real.arccos (1 - u.1) * Real.cos (u.2 * 2 * Real.pi))
      calc f u ≤ |f u| := le_abs_self _
        _ ≤ 1 := by rw [hf, abs_mul]; exact mul_le_one₀ h1 (abs_nonneg _) h2
    have h60 : Real.arccos (1 / 2) = Real.pi / 3 := by
      rw [← Real.cos_pi_div_three, Real.arccos_cos (by positivity) (by linarith)]
    rw [← h60]
    exact Real.strictAntiOn_arccos ⟨by norm_num, by norm_num⟩ ⟨by linarith, hle⟩ hu
  set B : Set (ℝ × ℝ) := {u | 1 / 2 < f u} ∩ (Ioo (1 / 2) 1 ×ˢ Ioo 0 1) with hB
  have Bo : IsOpen B := (isOpen_lt continuous_const fc).inter (isOpen_Ioo.prod isOpen_Ioo)
  have s1 : (1.414 : ℝ) < Real.sqrt 2 := by
    rw [Real.lt_sqrt (by norm_num)]; norm_num
  have s2 : Real.sqrt 2 < 1.415 := by
    rw [Real.sqrt_lt' (by norm_num)]; norm_num
  have Bn : B.Nonempty := by
    obtain ⟨d, hd⟩ : ∃ d, d = 0.35 * Real.pi := ⟨_, rfl⟩
    have d1 : Real.pi / 3 < d := by rw [hd]; linarith
    have d2 : d < Real.pi / 2 := by rw [hd]; linarith
    have hcd : Real.cos d < 1 / 2 := by
      rw [← Real.cos_pi_div_three]
      exact Real.cos_lt_cos_of_nonneg_of_le_pi (by positivity) (by linarith) d1
    have hcd0 : 0 < Real.cos d := Real.cos_pos_of_mem_Ioo ⟨by linarith, d2⟩
    refine ⟨(1 - Real.cos d, 1 / 8), ?_, ⟨by simp only; linarith, by simp only; linarith⟩, by norm_num, by norm_num⟩
    have e1 : Real.arccos (1 - (1 - Real.cos d)) = d := by
      rw [sub_sub_cancel, Real.arccos_cos (by linarith) (by linarith)]
    have e2 : (1 / 8 : ℝ) * 2 * Real.pi = Real.pi / 4 := by ring
    simp only [hf, mem_setOf_eq, e1, e2, Real.cos_pi_div_four, Real.sin_pi_div_four]
    have hlt : d * (Real.sqrt 2 / 2) < Real.pi / 4 := by
      rw [hd]; nlinarith
    have hgt : Real.sqrt 2 / 2 < Real.cos (d * (Real.sqrt 2 / 2)) := by
      rw [← Real.cos_pi_div_four]
      exact Real.cos_lt_cos_of_nonneg_of_le_pi (by rw [Real.cos_pi_div_four]; exact mul_nonneg (by linarith) (by positivity)) (by linarith)
        (by rw [Real.cos_pi_div_four]; exact hlt)
    have hs := Real.sq_sqrt (show (0 : ℝ) ≤ 2 by norm_num)
    nlinarith
  have hBpos : 0 < volume B := Bo.measure_pos volume Bn
  have hA : ∀ u ∈ (Ioo 0 (1 / 2) ×ˢ Ioo 0 1 : Set (ℝ × ℝ)),
      skyDistance (offsetLonLat (sphericalRadius 0 (Real.pi / 2) u.1) u.2) < Real.pi / 3 := by
    rintro ⟨u1, u2⟩ ⟨⟨h1, h2⟩, -⟩
    simp only at h1 h2 ⊢
    have hr : sphericalRadius 0 (Real.pi / 2) u1 < Real.pi / 3 := by
      rw [hsr]
      have h60 : Real.arccos (1 / 2) = Real.pi / 3 := by
        rw [← Real.cos_pi_div_three, Real.arccos_cos (by positivity) (by linarith)]
      rw [← h60]
      exact Real.strictAntiOn_arccos ⟨by norm_num, by norm_num⟩ ⟨by linarith, by linarith⟩ (by linarith)
    have h0 : 0 ≤ sphericalRadius 0 (Real.pi / 2) u1 := by rw [hsr]; exact Real.arccos_nonneg _
    refine lt_of_le_of_lt (C32_position_partial _ u2 h0 ?_).2 hr
    nlinarith
  have hsub : (Ioo 0 (1 / 2) ×ˢ Ioo 0 1) ∪ B ⊆
      {u | skyDistance (offsetLonLat (sphericalRadius 0 (Real.pi / 2) u.1) u.2) < Real.pi / 3} ∩ (Ioo 0 1 ×ˢ Ioo 0 1) := by
    rintro u (h | h)
    · exact ⟨hA u h, ⟨h.1.1, by linarith [h.1.2]⟩, h.2⟩
    · exact ⟨hdist u h.1, ⟨by linarith [h.2.1.1], h.2.1.2⟩, h.2.2⟩
  have hdis : Disjoint (Ioo 0 (1 / 2) ×ˢ Ioo 0 1 : Set (ℝ × ℝ)) B := by
    rw [Set.disjoint_left]
    rintro u h1 h2
    linarith [h1.1.2, h2.2.1.1]
  rw [randomPair_eq, Measure.restrict_apply' (measurableSet_Ioo.prod measurableSet_Ioo)]
  refine lt_of_lt_of_le ?_ (measure_mono hsub)
  rw [measure_union hdis Bo.measurableSet, Measure.volume_eq_prod, Measure.prod_prod]
  simp only [Real.volume_Ioo, sub_zero, ENNReal.ofReal_one, mul_one]
  exact ENNReal.lt_add_right ENNReal.ofReal_ne_top hBpos.ne'

/-! ### Concrete cases -/

/-- the x axis is not parallel to z; the directions with positive y are measurable -/
example : (⟨1, 0, 0⟩ : V3).dot ⟨1, 0, 0⟩ = 1 ∧ (⟨1, 0, 0⟩ : V3).cross ⟨0, 0, 1⟩ ≠ 0 ∧ MeasurableVecs {v | 0 < v.y} ∧
    MeasurableSet {p : ℝ × ℝ | p.1 < p.2} := by
  refine ⟨by simp [V3.dot], ?_, ?_, measurableSet_lt measurable_fst measurable_snd⟩
  · intro h
    have := congrArg V3.y h
    simp [V3.cross] at this
  · exact measurableSet_lt measurable_const (measurable_pi_apply 1)

end Marxs
