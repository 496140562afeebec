import Verif.Spec.Placement
import Mathlib.LinearAlgebra.Matrix.Determinant.Basic
import Mathlib.Tactic.FinCases
import Mathlib.Tactic.Linarith
import Mathlib.Tactic.FieldSimp
import Mathlib.Tactic.LinearCombination

namespace Marxs
open Matrix

theorem translation_hom (v p : Fin 3 → ℝ) : translation2aff v *ᵥ hom p = hom (v + p) := by
  ext i; fin_cases i <;> simp [translation2aff, hom, mulVec, dotProduct, Fin.sum_univ_succ] <;> ring

theorem mat_hom (m : M3) (p : Fin 3 → ℝ) : mat2aff m *ᵥ hom p = hom (m *ᵥ p) := by
  ext i; fin_cases i <;> simp [mat2aff, hom, mulVec, dotProduct, Fin.sum_univ_succ]

theorem zoom_hom (z p : Fin 3 → ℝ) : zoom2aff z *ᵥ hom p = hom (z * p) := by
  ext i; fin_cases i <;> simp [zoom2aff, hom, mulVec, dotProduct, Fin.sum_univ_succ]

theorem compose_eq (t : Fin 3 → ℝ) (r : M3) (z : Fin 3 → ℝ) :
    compose t r z = translation2aff t * mat2aff r * zoom2aff z := by
  ext i j
  fin_cases i <;> fin_cases j <;>
    simp [compose, translation2aff, mat2aff, zoom2aff, Matrix.mul_apply, Fin.sum_univ_succ]

theorem det_compose (t : Fin 3 → ℝ) (r : M3) (z : Fin 3 → ℝ) :
    (compose t r z).det = r.det * (z 0 * z 1 * z 2) := by
  rw [Matrix.det_succ_row_zero]
  simp [compose, Matrix.det_fin_three, Fin.sum_univ_succ, Fin.succAbove, submatrix]
  ring

theorem decompose44_exact : DecExact decompose44 := by
  intro t r z hr hz
  obtain ⟨horth, hdet⟩ := hr
  have e : ∀ i j, (rᵀ * r) i j = (1 : M3) i j := fun i j => by rw [horth]
  simp only [Matrix.mul_apply, Fin.sum_univ_three, transpose_apply] at e
  have e00 := e 0 0
  have e11 := e 1 1
  have e22 := e 2 2
  have e01 := e 0 1
  have e02 := e 0 2
  have e12 := e 1 2
  simp at e00 e11 e22 e01 e02 e12
  have z0 := hz 0
  have z1 := hz 1
  have z2 := hz 2
  have n0 := z0.ne'
  have n1 := z1.ne'
  have n2 := z2.ne'
  have s0 : Real.sqrt (dotf (fun i : Fin 3 => compose t r z i.castSucc 0)
      (fun i : Fin 3 => compose t r z i.castSucc 0)) = z 0 := by
    rw [show dotf (fun i : Fin 3 => compose t r z i.castSucc 0)
      (fun i : Fin 3 => compose t r z i.castSucc 0) = z 0 * z 0 by
        simp [dotf, compose]; linear_combination (z 0 * z 0) * e00]
    exact Real.sqrt_mul_self z0.le
  have v0 : (fun i : Fin 3 => compose t r z i.castSucc 0 / z 0) = fun i => r i 0 := by
    ext i; fin_cases i <;> simp [compose] <;> field_simp
  have d01 : dotf (fun i => r i 0) (fun i : Fin 3 => compose t r z i.castSucc 1) = 0 := by
    simp [dotf, compose]; linear_combination z 1 * e01
  have v1' : (fun i : Fin 3 => compose t r z i.castSucc 1 - 0 * r i 0) = fun i => r i 1 * z 1 := by
    ext i; fin_cases i <;> simp [compose]
  have s1 : Real.sqrt (dotf (fun i : Fin 3 => r i 1 * z 1) (fun i : Fin 3 => r i 1 * z 1))
      = z 1 := by
    rw [show dotf (fun i : Fin 3 => r i 1 * z 1) (fun i : Fin 3 => r i 1 * z 1) = z 1 * z 1 by
      simp [dotf]; linear_combination (z 1 * z 1) * e11]
    exact Real.sqrt_mul_self z1.le
  have v1 : (fun i : Fin 3 => r i 1 * z 1 / z 1) = fun i => r i 1 := by
    ext i; field_simp
  have d02 : dotf (fun i => r i 0) (fun i : Fin 3 => compose t r z i.castSucc 2) = 0 := by
    simp [dotf, compose]; linear_combination z 2 * e02
  have d12 : dotf (fun i => r i 1) (fun i : Fin 3 => compose t r z i.castSucc 2) = 0 := by
    simp [dotf, compose]; linear_combination z 2 * e12
  have v2' : (fun i : Fin 3 => compose t r z i.castSucc 2 - (0 * r i 0 + 0 * r i 1))
      = fun i => r i 2 * z 2 := by
    ext i; fin_cases i <;> simp [compose]
  have s2 : Real.sqrt (dotf (fun i : Fin 3 => r i 2 * z 2) (fun i : Fin 3 => r i 2 * z 2))
      = z 2 := by
    rw [show dotf (fun i : Fin 3 => r i 2 * z 2) (fun i : Fin 3 => r i 2 * z 2) = z 2 * z 2 by
      simp [dotf]; linear_combination (z 2 * z 2) * e22]
    exact Real.sqrt_mul_self z2.le
  have v2 : (fun i : Fin 3 => r i 2 * z 2 / z 2) = fun i => r i 2 := by
    ext i; field_simp
  have hR : (!![r 0 0, r 0 1, r 0 2; r 1 0, r 1 1, r 1 2; r 2 0, r 2 1, r 2 2] : M3) = r := by
    ext i j; fin_cases i <;> fin_cases j <;> rfl
  unfold decompose44
  simp only [s0]
  have k0 : ∀ i : Fin 3, compose t r z i.castSucc 0 / z 0 = r i 0 := fun i => congrFun v0 i
  simp only [k0, d01]
  have k1 : ∀ i : Fin 3, compose t r z i.castSucc 1 - 0 * r i 0 = r i 1 * z 1 :=
    fun i => congrFun v1' i
  simp only [k1, s1]
  have k1' : ∀ i : Fin 3, r i 1 * z 1 / z 1 = r i 1 := fun i => congrFun v1 i
  simp only [k1', d02, d12]
  have k2 : ∀ i : Fin 3, compose t r z i.castSucc 2 - (0 * r i 0 + 0 * r i 1) = r i 2 * z 2 :=
    fun i => congrFun v2' i
  simp only [k2, s2]
  have k2' : ∀ i : Fin 3, r i 2 * z 2 / z 2 = r i 2 := fun i => congrFun v2 i
  simp only [k2', hR, hdet]
  rw [if_neg (by norm_num)]
  congr 1
  · ext i; fin_cases i <;> simp [compose]
  · ext i; fin_cases i <;> rfl
  · ext i; fin_cases i <;> simp

end Marxs
