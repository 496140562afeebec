import Verif.Model.MathUtils
import Verif.Spec.MathUtils

namespace Marxs

theorem two_pi_pos : 0 < 2 * Real.pi := by have := Real.pi_pos; linarith

theorem pymod_nonneg {m : ℝ} (hm : 0 < m) (x : ℝ) : 0 ≤ pymod x m := by
  have h := Int.floor_le (x / m)
  rw [le_div_iff₀ hm] at h
  simp only [pymod]; linarith

theorem pymod_lt {m : ℝ} (hm : 0 < m) (x : ℝ) : pymod x m < m := by
  have h := Int.lt_floor_add_one (x / m)
  rw [div_lt_iff₀ hm] at h
  simp only [pymod]; linarith

theorem pymod_add_int {m : ℝ} (hm : 0 < m) (x : ℝ) (k : ℤ) : pymod (x + m * k) m = pymod x m := by
  have : (x + m * k) / m = x / m + k := by field_simp
  simp only [pymod, this, Int.floor_add_intCast]
  push_cast; ring

theorem pymod_eq_self {m : ℝ} (hm : 0 < m) {x : ℝ} (h0 : 0 ≤ x) (h1 : x < m) : pymod x m = x := by
  have : ⌊x / m⌋ = 0 := by
    rw [Int.floor_eq_iff]
    constructor
    · simpa using div_nonneg h0 hm.le
    · simpa using (div_lt_one hm).2 h1
  simp [pymod, this]

theorem exists_pymod (x m : ℝ) : ∃ k : ℤ, x = pymod x m + m * k := ⟨⌊x / m⌋, by simp [pymod]⟩

theorem wrapAngle_eq (x : ℝ) : wrapAngle x = pymod x (2 * Real.pi) := by
  have h := pymod_add_int two_pi_pos (pymod x (2 * Real.pi)) 1
  have e : 2 * Real.pi + pymod x (2 * Real.pi) = pymod x (2 * Real.pi) + 2 * Real.pi * (1 : ℤ) := by
    push_cast; ring
  rw [wrapAngle, e, h]
  exact pymod_eq_self two_pi_pos (pymod_nonneg two_pi_pos x) (pymod_lt two_pi_pos x)

theorem wrapAngle_sameAngle {a b : ℝ} (h : SameAngle a b) : wrapAngle a = wrapAngle b := by
  obtain ⟨k, rfl⟩ := h
  rw [wrapAngle_eq, wrapAngle_eq, pymod_add_int two_pi_pos]

theorem sameAngle_wrap (a : ℝ) : SameAngle a (wrapAngle a) := by
  rw [wrapAngle_eq]; exact exists_pymod a _

theorem SameAngle.symm {a b : ℝ} (h : SameAngle a b) : SameAngle b a := by
  obtain ⟨k, rfl⟩ := h
  exact ⟨-k, by push_cast; ring⟩

theorem SameAngle.trans {a b c : ℝ} (h : SameAngle a b) (h' : SameAngle b c) : SameAngle a c := by
  obtain ⟨k, rfl⟩ := h
  obtain ⟨l, rfl⟩ := h'
  exact ⟨l + k, by push_cast; ring⟩

theorem SameAngle.add_right {a b : ℝ} (h : SameAngle a b) (t : ℝ) : SameAngle (a + t) (b + t) := by
  obtain ⟨k, rfl⟩ := h
  exact ⟨k, by ring⟩

/-- Two equal angles less than a full turn apart. -/
theorem sameAngle_lt {a b : ℝ} (h : SameAngle a b) (h1 : a < b + 2 * Real.pi)
    (h2 : b < a + 2 * Real.pi) : a = b := by
  obtain ⟨k, hk⟩ := h
  have hp := two_pi_pos
  have k1 : (k : ℝ) < 1 := by
    by_contra hc; push Not at hc; nlinarith
  have k2 : (-1 : ℝ) < k := by
    by_contra hc; push Not at hc; nlinarith
  have : k = 0 := by
    have : k < 1 := by exact_mod_cast k1
    have : -1 < k := by exact_mod_cast k2
    omega
  subst this; simpa using hk

theorem angleBetween_iff (a b1 b2 : ℝ) : angleBetween a b1 b2 ↔ InArc a b1 b2 := by
  have hp := two_pi_pos
  have b10 := pymod_nonneg hp b1; have b11 := pymod_lt hp b1
  have b20 := pymod_nonneg hp b2; have b21 := pymod_lt hp b2
  have a0 := pymod_nonneg hp a; have a1 := pymod_lt hp a
  have sb1 := sameAngle_wrap b1; have sb2 := sameAngle_wrap b2; have sa := sameAngle_wrap a
  simp only [angleBetween]
  rw [wrapAngle_eq] at sb1 sb2 sa
  simp only [wrapAngle_eq]
  generalize pymod b1 (2 * Real.pi) = B1 at *
  generalize pymod b2 (2 * Real.pi) = B2 at *
  generalize pymod a (2 * Real.pi) = A at *
  have key : InArc a b1 b2 ↔ ∃ len, 0 < len ∧ len ≤ 2 * Real.pi ∧ SameAngle (B1 + len) B2 ∧
      ∃ t, 0 ≤ t ∧ t ≤ len ∧ SameAngle A (B1 + t) := by
    constructor
    · rintro ⟨len, h1, h2, h3, t, h4, h5, h6⟩
      exact ⟨len, h1, h2, ((sb1.symm.add_right len).trans h3).trans sb2, t, h4, h5,
        (sa.symm.trans h6).trans (sb1.add_right t)⟩
    · rintro ⟨len, h1, h2, h3, t, h4, h5, h6⟩
      exact ⟨len, h1, h2, ((sb1.add_right len).trans h3).trans sb2.symm, t, h4, h5,
        (sa.trans h6).trans (sb1.symm.add_right t)⟩
  rw [key]
  have shift : ∀ x y : ℝ, SameAngle x (y + 2 * Real.pi) → SameAngle x y := by
    rintro x y ⟨k, rfl⟩
    exact ⟨k + 1, by push_cast; ring⟩
  have unshift : ∀ x y : ℝ, SameAngle x y → SameAngle x (y + 2 * Real.pi) := by
    rintro x y ⟨k, rfl⟩
    exact ⟨k - 1, by push_cast; ring⟩
  split
  · rename_i hlt
    constructor
    · rintro ⟨h1, h2⟩
      exact ⟨B2 - B1, by linarith, by linarith, ⟨0, by simp⟩, A - B1, by linarith, by linarith,
        ⟨0, by simp⟩⟩
    · rintro ⟨len, h1, h2, h3, t, h4, h5, h6⟩
      have e1 : B1 + len = B2 := by
        rcases lt_or_eq_of_le h2 with h | h
        · by_cases hc : B1 + len < B2 + 2 * Real.pi
          · exact sameAngle_lt h3 hc (by linarith)
          · exfalso
            have := sameAngle_lt (unshift _ _ h3) (by linarith) (by linarith)
            linarith
        · have := sameAngle_lt (unshift _ _ h3) (by linarith) (by linarith)
          linarith
      have e2 : A = B1 + t := sameAngle_lt h6 (by linarith) (by linarith)
      constructor <;> linarith
  · rename_i hge
    push Not at hge
    constructor
    · intro h
      refine ⟨B2 - B1 + 2 * Real.pi, by linarith, by linarith,
        ⟨1, by push_cast; ring⟩, ?_⟩
      rcases h with h | h
      · exact ⟨A - B1, by linarith, by linarith, ⟨0, by simp⟩⟩
      · exact ⟨A - B1 + 2 * Real.pi, by linarith, by linarith, ⟨-1, by push_cast; ring⟩⟩
    · rintro ⟨len, h1, h2, h3, t, h4, h5, h6⟩
      have e1 : B1 + len = B2 + 2 * Real.pi :=
        sameAngle_lt (unshift _ _ h3) (by linarith) (by linarith)
      by_cases hc : B1 + t < 2 * Real.pi
      · have e2 : A = B1 + t := sameAngle_lt h6 (by linarith) (by linarith)
        left; linarith
      · right
        push Not at hc
        have : SameAngle A (B1 + t - 2 * Real.pi) := shift _ _ (by simpa using h6)
        have e2 := sameAngle_lt this (by linarith) (by linarith)
        linarith

/-! ### vectors and matrices -/

theorem mul3_mul (m n : Matrix (Fin 3) (Fin 3) ℝ) (v : V3) :
    mul3 (m * n) v = mul3 m (mul3 n v) := by
  ext <;> simp [mul3, Matrix.mul_apply, Fin.sum_univ_three] <;> ring

@[simp] theorem mul3_one (v : V3) : mul3 1 v = v := by
  ext <;> simp [mul3, Matrix.one_apply]

theorem mul3_dot_of_orthogonal {m : Matrix (Fin 3) (Fin 3) ℝ} (h : m.transpose * m = 1) (v w : V3) :
    (mul3 m v).dot (mul3 m w) = v.dot w := by
  have e := fun i j => congrFun (congrFun h i) j
  have e00 := e 0 0; have e01 := e 0 1; have e02 := e 0 2
  have e11 := e 1 1; have e12 := e 1 2; have e22 := e 2 2
  simp [Matrix.mul_apply, Fin.sum_univ_three] at e00 e01 e02 e11 e12 e22
  simp only [mul3, V3.dot]
  linear_combination v.x * w.x * e00 + (v.x * w.y + v.y * w.x) * e01 +
    (v.x * w.z + v.z * w.x) * e02 + v.y * w.y * e11 + (v.y * w.z + v.z * w.y) * e12 +
    v.z * w.z * e22

theorem V3.cauchy (a b : V3) : (a.dot b) ^ 2 ≤ a.dot a * b.dot b := by
  have := V3.dot_self_nonneg (a.cross b)
  rw [V3.cross_dot_cross] at this; linarith

/-- the columns of a matrix made from an orthonormal pair and its cross product -/
theorem frame_rotation (a b : V3) (ha : a.dot a = 1) (hb : b.dot b = 1) (hab : a.dot b = 0) :
    let c := a.cross b
    let m : Matrix (Fin 3) (Fin 3) ℝ := !![a.x, b.x, c.x; a.y, b.y, c.y; a.z, b.z, c.z]
    m.transpose * m = 1 ∧ m.det = 1 := by
  intro c m
  have hc : c.dot c = 1 := by
    simp only [c]; rw [V3.cross_dot_cross, ha, hb, hab]; ring
  have hac : a.dot c = 0 := V3.dot_cross_left a b
  have hbc : b.dot c = 0 := V3.dot_cross_right a b
  constructor
  · ext i j
    simp only [V3.dot] at ha hb hab hc hac hbc
    fin_cases i <;> fin_cases j <;>
      simp [m, Matrix.mul_apply, Fin.sum_univ_three] <;> linarith
  · simp only [m, Matrix.det_fin_three]
    simp
    simp only [V3.dot, c, V3.cross_x, V3.cross_y, V3.cross_z] at hc ⊢
    linarith

end Marxs
