import Mathlib.MeasureTheory.Integral.IntervalIntegral.Periodic
import Mathlib.MeasureTheory.Group.FundamentalDomain
import Mathlib.Analysis.SpecialFunctions.PolarCoord
import Mathlib.Analysis.SpecialFunctions.Integrals.Basic
import Verif.Spec.ScatterLaw
import Verif.Props.Optics
import Verif.Lemmas.Uniform

/-!
# Invariance under rotations (for C154)
-/

namespace Marxs

open MeasureTheory ProbabilityTheory Set

theorem rot_comp {u : V3} (hu : u.dot u = 1) (s t : ℝ) (v : V3) : mul3 (rotMat u s) (mul3 (rotMat u t) v) = mul3 (rotMat u (s + t)) v := by
  simp only [V3.dot] at hu
  rw [rodrigues, rodrigues, rodrigues, Real.cos_add, Real.sin_add]
  ext <;> simp only [V3.add_x, V3.add_y, V3.add_z, V3.smul_x, V3.smul_y, V3.smul_z, V3.cross, V3.dot]
  · linear_combination ((1 - Real.cos s) * (1 - Real.cos t) * (u.x * v.x + u.y * v.y + u.z * v.z) * u.x - Real.sin s * Real.sin t * v.x) * hu
  · linear_combination ((1 - Real.cos s) * (1 - Real.cos t) * (u.x * v.x + u.y * v.y + u.z * v.z) * u.y - Real.sin s * Real.sin t * v.y) * hu
  · linear_combination ((1 - Real.cos s) * (1 - Real.cos t) * (u.x * v.x + u.y * v.y + u.z * v.z) * u.z - Real.sin s * Real.sin t * v.z) * hu

theorem rot_period (u v : V3) (t : ℝ) (k : ℤ) : mul3 (rotMat u (t - k * (2 * Real.pi))) v = mul3 (rotMat u t) v := by
  rw [rodrigues, rodrigues, Real.cos_sub_int_mul_two_pi, Real.sin_sub_int_mul_two_pi]

/-- components of a vector -/
def comps (v : V3) : Fin 3 → ℝ := ![v.x, v.y, v.z]

theorem vecOf_comps (v : V3) : vecOf (comps v) = v := by simp [vecOf, comps]

theorem vecs_preimage {α : Type} [MeasurableSpace α] {D : Set V3} (hD : MeasurableVecs D) {f : α → V3} (hx : Measurable fun a => (f a).x)
    (hy : Measurable fun a => (f a).y) (hz : Measurable fun a => (f a).z) : MeasurableSet {a | f a ∈ D} := by
  have h1 : Measurable fun a => comps (f a) := by
    rw [measurable_pi_iff]
    intro i
    fin_cases i
    · simpa [comps] using hx
    · simpa [comps] using hy
    · simpa [comps] using hz
  have h2 : {a | f a ∈ D} = (fun a => comps (f a)) ⁻¹' {p | vecOf p ∈ D} := by
    ext a; simp [vecOf_comps]
  rw [h2]
  exact hD.preimage h1

/-- A periodic set is met as often after a shift. -/
theorem randomNumber_shift {A : Set ℝ} (hA : MeasurableSet A) (hper : ∀ (x : ℝ) (k : ℤ), x + k ∈ A ↔ x ∈ A) (c : ℝ) :
    randomNumber {t | t + c ∈ A} = randomNumber A := by
  have h1 : randomNumber {t | t + c ∈ A} = volume (A ∩ Ico c (c + 1)) := by
    show (volume.restrict (Ico (0 : ℝ) 1)) ((fun t => t + c) ⁻¹' A) = _
    rw [Measure.restrict_apply (hA.preimage (measurable_add_const c)), ← measure_preimage_add_right volume c (A ∩ Ico c (c + 1))]
    congr 1
    ext t
    simp only [mem_inter_iff, mem_setOf_eq, mem_preimage, mem_Ico]
    constructor <;> rintro ⟨a, b, d⟩ <;> exact ⟨a, by linarith, by linarith⟩
  have h2 : ∀ c : ℝ, volume (A ∩ Ico c (c + 1)) = volume (A ∩ Ioc c (c + 1)) := fun c =>
    measure_congr (Filter.EventuallyEq.inter (Filter.EventuallyEq.refl _ _) Ico_ae_eq_Ioc)
  have h3 : volume (A ∩ Ioc c (c + 1)) = volume (A ∩ Ioc 0 (0 + 1)) := by
    refine IsAddFundamentalDomain.measure_set_eq (μ := volume) (G := AddSubgroup.zmultiples (1 : ℝ)) (isAddFundamentalDomain_Ioc one_pos c volume) (isAddFundamentalDomain_Ioc one_pos 0 volume) hA ?_
    rintro ⟨g, hg⟩
    obtain ⟨k, rfl⟩ := AddSubgroup.mem_zmultiples_iff.1 hg
    ext x
    simp only [mem_preimage]
    have : (⟨k • (1 : ℝ), hg⟩ : AddSubgroup.zmultiples (1 : ℝ)) +ᵥ x = x + k := by
      simp [AddSubgroup.vadd_def, add_comm]
    rw [this]
    exact hper x k
  rw [h1, h2, h3, ← h2 0, randomNumber, Measure.restrict_apply hA]
  simp

theorem rot_measurable (u : V3) {α : Type} [MeasurableSpace α] {f : α → V3} {t : α → ℝ} (ht : Measurable t) (hx : Measurable fun a => (f a).x)
    (hy : Measurable fun a => (f a).y) (hz : Measurable fun a => (f a).z) :
    (Measurable fun a => (mul3 (rotMat u (t a)) (f a)).x) ∧ (Measurable fun a => (mul3 (rotMat u (t a)) (f a)).y) ∧
    (Measurable fun a => (mul3 (rotMat u (t a)) (f a)).z) := by
  simp only [rodrigues, V3.add_x, V3.add_y, V3.add_z, V3.smul_x, V3.smul_y, V3.smul_z, V3.cross, V3.dot]
  have hc := Real.measurable_cos.comp ht
  have hs := Real.measurable_sin.comp ht
  simp only [Function.comp_def] at hc hs
  refine ⟨?_, ?_, ?_⟩ <;> fun_prop

theorem rot_set_measurable (u : V3) {g : ℝ → V3} (hx : Measurable fun a => (g a).x)
    (hy : Measurable fun a => (g a).y) (hz : Measurable fun a => (g a).z) {D : Set V3} (hD : MeasurableVecs D) (d : ℝ) :
    MeasurableSet {q : ℝ × ℝ | mul3 (rotMat u (d + -(q.2 * 2 * Real.pi))) (g q.1) ∈ D} := by
  have ht : Measurable fun q : ℝ × ℝ => d + -(q.2 * 2 * Real.pi) := by fun_prop
  obtain ⟨a, b, c⟩ := rot_measurable (α := ℝ × ℝ) u (f := fun q => g q.1) ht (hx.comp measurable_fst) (hy.comp measurable_fst) (hz.comp measurable_fst)
  exact vecs_preimage hD a b c

theorem rot_shift (u w : V3) {D : Set V3} (hD : MeasurableVecs D) (delta : ℝ) :
    randomNumber {t | mul3 (rotMat u (delta + -(t * 2 * Real.pi))) w ∈ D} = randomNumber {t | mul3 (rotMat u (-(t * 2 * Real.pi))) w ∈ D} := by
  have m2 : MeasurableSet {t : ℝ | mul3 (rotMat u (-(t * 2 * Real.pi))) w ∈ D} := by
    have ht : Measurable fun t : ℝ => -(t * 2 * Real.pi) := by fun_prop
    obtain ⟨a, b, c⟩ := rot_measurable (α := ℝ) u (f := fun _ => w) ht measurable_const measurable_const measurable_const
    exact vecs_preimage hD a b c
  rw [← randomNumber_shift m2 (fun t k => by
    simp only [mem_setOf_eq]
    rw [show -((t + (k : ℝ)) * 2 * Real.pi) = -(t * 2 * Real.pi) - k * (2 * Real.pi) by ring, rot_period]) (-(delta / (2 * Real.pi)))]
  congr 1
  ext t
  simp only [mem_setOf_eq]
  have h3 : delta + -(t * 2 * Real.pi) = -((t + -(delta / (2 * Real.pi))) * 2 * Real.pi) := by
    have := Real.pi_ne_zero
    field_simp
    ring
  rw [h3]

/-- Vectors that are turned about `u` by a random angle have a distribution that is symmetric about `u`. -/
theorem rot_invariant (nu : Measure ℝ) [SFinite nu] {u : V3} (hu : u.dot u = 1) {g : ℝ → V3} (hx : Measurable fun a => (g a).x)
    (hy : Measurable fun a => (g a).y) (hz : Measurable fun a => (g a).z) {D : Set V3} (hD : MeasurableVecs D) (delta : ℝ) :
    (nu.prod randomNumber) {q | mul3 (rotMat u delta) (mul3 (rotMat u (-(q.2 * 2 * Real.pi))) (g q.1)) ∈ D} =
    (nu.prod randomNumber) {q | mul3 (rotMat u (-(q.2 * 2 * Real.pi))) (g q.1) ∈ D} := by
  have m1 := rot_set_measurable u hx hy hz hD delta
  have m0 := rot_set_measurable u hx hy hz hD 0
  simp only [zero_add] at m0
  simp only [rot_comp hu]
  haveI : SFinite randomNumber := by unfold randomNumber; infer_instance
  rw [Measure.prod_apply m1, Measure.prod_apply m0]
  exact lintegral_congr fun x => rot_shift u (g x) hD delta

theorem cos_le_iff {alpha : ℝ} (h0 : 0 ≤ alpha) (h1 : alpha ≤ Real.pi) (x : ℝ) : Real.cos alpha ≤ Real.cos x ↔ x ∈ anglesUpTo alpha := by
  have hpi := Real.pi_pos
  simp only [anglesUpTo, mem_setOf_eq]
  constructor
  · intro h
    refine ⟨round (x / (2 * Real.pi)), ?_⟩
    set k := round (x / (2 * Real.pi)) with hk
    have h2 : |x - k * (2 * Real.pi)| ≤ Real.pi := by
      have := abs_sub_round (x / (2 * Real.pi))
      have h3 : x - k * (2 * Real.pi) = (x / (2 * Real.pi) - k) * (2 * Real.pi) := by field_simp
      rw [h3, abs_mul, abs_of_pos (by positivity : 0 < 2 * Real.pi)]
      nlinarith
    rw [← Real.cos_sub_int_mul_two_pi x k, ← Real.cos_abs (x - _)] at h
    by_contra hc
    push Not at hc
    exact absurd h (not_le.2 (Real.cos_lt_cos_of_nonneg_of_le_pi h0 h2 hc))
  · rintro ⟨k, hk⟩
    rw [← Real.cos_sub_int_mul_two_pi x k, ← Real.cos_abs (x - _)]
    exact Real.cos_le_cos_of_nonneg_of_le_pi (abs_nonneg _) h1 hk

theorem anglesUpTo_measurable {alpha : ℝ} (h0 : 0 ≤ alpha) (h1 : alpha ≤ Real.pi) : MeasurableSet (anglesUpTo alpha) := by
  have : anglesUpTo alpha = {x | Real.cos alpha ≤ Real.cos x} := by ext x; exact (cos_le_iff h0 h1 x).symm
  rw [this]
  exact measurableSet_le measurable_const Real.measurable_cos

end Marxs
