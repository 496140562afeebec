import Mathlib.Data.Real.Sqrt
import Mathlib.LinearAlgebra.Matrix.Notation
import Mathlib.LinearAlgebra.Matrix.NonsingularInverse
import Mathlib.Tactic.Ring
import Mathlib.Tactic.Linarith
import Mathlib.Tactic.FieldSimp
import Mathlib.Tactic.LinearCombination
import Mathlib.Tactic.Positivity
import Verif.Model.Table

/-!
# Vectors

Euclidean (`V3`) and homogeneous (`H4`) coordinates and the numpy functions used on them
(`np.dot`, `np.cross`, `np.linalg.norm`). Floating point numbers are modelled as real numbers.
-/

namespace Marxs

/-- A row of a `(N, 3)` array. Used for `marxs/math/utils.py:10-35`. -/
@[ext] structure V3 where
  x : ℝ
  y : ℝ
  z : ℝ

/-- A row of a `(N, 4)` array of homogeneous coordinates. Used for `marxs/math/utils.py:10-35`. -/
@[ext] structure H4 where
  x : ℝ
  y : ℝ
  z : ℝ
  w : ℝ

namespace V3
instance : Add V3 := ⟨fun a b => ⟨a.x + b.x, a.y + b.y, a.z + b.z⟩⟩
instance : Sub V3 := ⟨fun a b => ⟨a.x - b.x, a.y - b.y, a.z - b.z⟩⟩
instance : Neg V3 := ⟨fun a => ⟨-a.x, -a.y, -a.z⟩⟩
instance : Zero V3 := ⟨⟨0, 0, 0⟩⟩
instance : SMul ℝ V3 := ⟨fun c a => ⟨c * a.x, c * a.y, c * a.z⟩⟩

/-- `np.dot(a, b)`. Used for `marxs/math/geometry.py:233-261`. -/
def dot (a b : V3) : ℝ := a.x * b.x + a.y * b.y + a.z * b.z
/-- `np.cross(a, b)`. Used for `marxs/math/geometry.py:233-261`. -/
def cross (a b : V3) : V3 :=
  ⟨a.y * b.z - a.z * b.y, a.z * b.x - a.x * b.z, a.x * b.y - a.y * b.x⟩
/-- `np.linalg.norm(a)`. Used for `marxs/math/utils.py:148-162`. -/
noncomputable def norm (a : V3) : ℝ := Real.sqrt (a.dot a)
/-- `a / np.linalg.norm(a)`; for the zero vector numpy returns NaN, every use below says how that
case is treated. Used for `marxs/math/utils.py:148-162`. -/
noncomputable def unit (a : V3) : V3 := (1 / a.norm) • a

@[simp] theorem add_x (a b : V3) : (a + b).x = a.x + b.x := rfl
@[simp] theorem add_y (a b : V3) : (a + b).y = a.y + b.y := rfl
@[simp] theorem add_z (a b : V3) : (a + b).z = a.z + b.z := rfl
@[simp] theorem sub_x (a b : V3) : (a - b).x = a.x - b.x := rfl
@[simp] theorem sub_y (a b : V3) : (a - b).y = a.y - b.y := rfl
@[simp] theorem sub_z (a b : V3) : (a - b).z = a.z - b.z := rfl
@[simp] theorem neg_x (a : V3) : (-a).x = -a.x := rfl
@[simp] theorem neg_y (a : V3) : (-a).y = -a.y := rfl
@[simp] theorem neg_z (a : V3) : (-a).z = -a.z := rfl
@[simp] theorem smul_x (c : ℝ) (a : V3) : (c • a).x = c * a.x := rfl
@[simp] theorem smul_y (c : ℝ) (a : V3) : (c • a).y = c * a.y := rfl
@[simp] theorem smul_z (c : ℝ) (a : V3) : (c • a).z = c * a.z := rfl
@[simp] theorem zero_x : (0 : V3).x = 0 := rfl
@[simp] theorem zero_y : (0 : V3).y = 0 := rfl
@[simp] theorem zero_z : (0 : V3).z = 0 := rfl
@[simp] theorem cross_x (a b : V3) : (a.cross b).x = a.y * b.z - a.z * b.y := rfl
@[simp] theorem cross_y (a b : V3) : (a.cross b).y = a.z * b.x - a.x * b.z := rfl
@[simp] theorem cross_z (a b : V3) : (a.cross b).z = a.x * b.y - a.y * b.x := rfl

theorem dot_comm (a b : V3) : a.dot b = b.dot a := by simp only [dot]; ring
theorem dot_self_nonneg (a : V3) : 0 ≤ a.dot a :=
  add_nonneg (add_nonneg (mul_self_nonneg _) (mul_self_nonneg _)) (mul_self_nonneg _)
theorem dot_self_eq_zero {a : V3} : a.dot a = 0 ↔ a = 0 := by
  constructor
  · intro h
    simp only [dot] at h
    have hx : a.x = 0 := by nlinarith [sq_nonneg a.x, sq_nonneg a.y, sq_nonneg a.z]
    have hy : a.y = 0 := by nlinarith [sq_nonneg a.x, sq_nonneg a.y, sq_nonneg a.z]
    have hz : a.z = 0 := by nlinarith [sq_nonneg a.x, sq_nonneg a.y, sq_nonneg a.z]
    ext <;> simp [hx, hy, hz]
  · rintro rfl; simp [dot]
theorem dot_self_pos {a : V3} (h : a ≠ 0) : 0 < a.dot a :=
  lt_of_le_of_ne (dot_self_nonneg a) (fun h' => h (dot_self_eq_zero.1 h'.symm))
theorem norm_sq (a : V3) : a.norm ^ 2 = a.dot a := Real.sq_sqrt (dot_self_nonneg a)
theorem norm_mul_self (a : V3) : a.norm * a.norm = a.dot a := by rw [← norm_sq]; ring
theorem norm_nonneg (a : V3) : 0 ≤ a.norm := Real.sqrt_nonneg _
theorem norm_pos {a : V3} (h : a ≠ 0) : 0 < a.norm := Real.sqrt_pos.2 (dot_self_pos h)
theorem norm_ne_zero {a : V3} (h : a ≠ 0) : a.norm ≠ 0 := (norm_pos h).ne'
theorem dot_smul_smul (c d : ℝ) (a b : V3) : (c • a).dot (d • b) = c * d * a.dot b := by
  simp only [dot, smul_x, smul_y, smul_z]; ring
@[simp] theorem dot_smul_left (c : ℝ) (a b : V3) : (c • a).dot b = c * a.dot b := by
  simp only [dot, smul_x, smul_y, smul_z]; ring
@[simp] theorem dot_smul_right (c : ℝ) (a b : V3) : a.dot (c • b) = c * a.dot b := by
  simp only [dot, smul_x, smul_y, smul_z]; ring
theorem dot_add_left (a b c : V3) : (a + b).dot c = a.dot c + b.dot c := by
  simp only [dot, add_x, add_y, add_z]; ring
theorem dot_add_right (a b c : V3) : a.dot (b + c) = a.dot b + a.dot c := by
  simp only [dot, add_x, add_y, add_z]; ring
theorem dot_sub_left (a b c : V3) : (a - b).dot c = a.dot c - b.dot c := by
  simp only [dot, sub_x, sub_y, sub_z]; ring
theorem dot_sub_right (a b c : V3) : a.dot (b - c) = a.dot b - a.dot c := by
  simp only [dot, sub_x, sub_y, sub_z]; ring
@[simp] theorem dot_cross_left (a b : V3) : a.dot (a.cross b) = 0 := by
  simp only [dot, cross_x, cross_y, cross_z]; ring
@[simp] theorem dot_cross_right (a b : V3) : b.dot (a.cross b) = 0 := by
  simp only [dot, cross_x, cross_y, cross_z]; ring
/-- Lagrange's identity. -/
theorem cross_dot_cross (a b : V3) :
    (a.cross b).dot (a.cross b) = a.dot a * b.dot b - (a.dot b) ^ 2 := by
  simp only [dot, cross_x, cross_y, cross_z]; ring
theorem unit_dot_unit {a : V3} (h : a ≠ 0) : a.unit.dot a.unit = 1 := by
  have := norm_ne_zero h
  rw [unit, dot_smul_smul, ← norm_sq]; field_simp
theorem norm_smul_unit {a : V3} (h : a ≠ 0) : a.norm • a.unit = a := by
  have := norm_ne_zero h
  ext <;> simp [unit] <;> field_simp
theorem unit_of_unit {a : V3} (h : a.dot a = 1) : a.unit = a := by
  ext <;> simp [unit, norm, h]
theorem norm_of_unit {a : V3} (h : a.dot a = 1) : a.norm = 1 := by simp [norm, h]
theorem ne_zero_of_unit {a : V3} (h : a.dot a = 1) : a ≠ 0 := by
  rintro rfl; simp [dot] at h
end V3

namespace H4
instance : Add H4 := ⟨fun a b => ⟨a.x + b.x, a.y + b.y, a.z + b.z, a.w + b.w⟩⟩
instance : Sub H4 := ⟨fun a b => ⟨a.x - b.x, a.y - b.y, a.z - b.z, a.w - b.w⟩⟩
instance : Neg H4 := ⟨fun a => ⟨-a.x, -a.y, -a.z, -a.w⟩⟩
instance : SMul ℝ H4 := ⟨fun c a => ⟨c * a.x, c * a.y, c * a.z, c * a.w⟩⟩
/-- `np.dot(a, b)`. Used for `marxs/math/geometry.py:233-261`. -/
def dot (a b : H4) : ℝ := a.x * b.x + a.y * b.y + a.z * b.z + a.w * b.w
/-- `np.linalg.norm(a)`. Used for `marxs/math/utils.py:148-162`. -/
noncomputable def norm (a : H4) : ℝ := Real.sqrt (a.dot a)
/-- `a / np.linalg.norm(a)`. Used for `marxs/math/utils.py:148-162`. -/
noncomputable def unit (a : H4) : H4 := (1 / a.norm) • a
/-- `a[:3]`. Used for `marxs/math/utils.py:38-62`. -/
def xyz (a : H4) : V3 := ⟨a.x, a.y, a.z⟩

@[simp] theorem add_x (a b : H4) : (a + b).x = a.x + b.x := rfl
@[simp] theorem add_y (a b : H4) : (a + b).y = a.y + b.y := rfl
@[simp] theorem add_z (a b : H4) : (a + b).z = a.z + b.z := rfl
@[simp] theorem add_w (a b : H4) : (a + b).w = a.w + b.w := rfl
@[simp] theorem sub_x (a b : H4) : (a - b).x = a.x - b.x := rfl
@[simp] theorem sub_y (a b : H4) : (a - b).y = a.y - b.y := rfl
@[simp] theorem sub_z (a b : H4) : (a - b).z = a.z - b.z := rfl
@[simp] theorem sub_w (a b : H4) : (a - b).w = a.w - b.w := rfl
@[simp] theorem neg_x (a : H4) : (-a).x = -a.x := rfl
@[simp] theorem neg_y (a : H4) : (-a).y = -a.y := rfl
@[simp] theorem neg_z (a : H4) : (-a).z = -a.z := rfl
@[simp] theorem neg_w (a : H4) : (-a).w = -a.w := rfl
@[simp] theorem smul_x (c : ℝ) (a : H4) : (c • a).x = c * a.x := rfl
@[simp] theorem smul_y (c : ℝ) (a : H4) : (c • a).y = c * a.y := rfl
@[simp] theorem smul_z (c : ℝ) (a : H4) : (c • a).z = c * a.z := rfl
@[simp] theorem smul_w (c : ℝ) (a : H4) : (c • a).w = c * a.w := rfl
@[simp] theorem xyz_x (a : H4) : a.xyz.x = a.x := rfl
@[simp] theorem xyz_y (a : H4) : a.xyz.y = a.y := rfl
@[simp] theorem xyz_z (a : H4) : a.xyz.z = a.z := rfl
end H4

/-- Row of a matrix times vector: `np.dot(m, v)` for a `(3, 3)` array. Used for `marxs/source/pointing.py:101-119`. -/
def mul3 (m : Matrix (Fin 3) (Fin 3) ℝ) (v : V3) : V3 :=
  ⟨m 0 0 * v.x + m 0 1 * v.y + m 0 2 * v.z, m 1 0 * v.x + m 1 1 * v.y + m 1 2 * v.z,
   m 2 0 * v.x + m 2 1 * v.y + m 2 2 * v.z⟩

/-- `np.dot(m, v)` for a `(4, 4)` array. Used for `marxs/missions/arcus/arcus.py:375-379`. -/
def mul4 (m : Matrix (Fin 4) (Fin 4) ℝ) (v : H4) : H4 :=
  ⟨m 0 0 * v.x + m 0 1 * v.y + m 0 2 * v.z + m 0 3 * v.w,
   m 1 0 * v.x + m 1 1 * v.y + m 1 2 * v.z + m 1 3 * v.w,
   m 2 0 * v.x + m 2 1 * v.y + m 2 2 * v.z + m 2 3 * v.w,
   m 3 0 * v.x + m 3 1 * v.y + m 3 2 * v.z + m 3 3 * v.w⟩

/-- `np.isclose(a, b)` with default tolerances `rtol=1e-5, atol=1e-8`. Used for `marxs/utils.py:91`. -/
def isclose (a b : ℝ) : Prop := |a - b| ≤ 1 / 10 ^ 8 + 1 / 10 ^ 5 * |b|

/-- `np.allclose(a, b)` for 3-vectors. Used for `marxs/utils.py:91`. -/
def V3.allclose (a b : V3) : Prop := isclose a.x b.x ∧ isclose a.y b.y ∧ isclose a.z b.z

noncomputable instance (a b : ℝ) : Decidable (isclose a b) := Classical.dec _
noncomputable instance (a b : V3) : Decidable (a.allclose b) := Classical.dec _

theorem isclose_refl (a : ℝ) : isclose a a := by
  simp only [isclose, sub_self, abs_zero]; positivity

theorem V3.allclose_refl (a : V3) : a.allclose a := ⟨isclose_refl _, isclose_refl _, isclose_refl _⟩

end Marxs
