import Verif.Props.Cylinder
import Verif.Spec.Optics

/-! Linear algebra for homogeneous directions. -/

namespace Marxs
namespace H4
theorem dot_comm (a b : H4) : a.dot b = b.dot a := by simp only [dot]; ring
theorem dot_add_left (a b c : H4) : (a + b).dot c = a.dot c + b.dot c := by
  simp only [dot, add_x, add_y, add_z, add_w]; ring
theorem dot_add_right (a b c : H4) : a.dot (b + c) = a.dot b + a.dot c := by
  simp only [dot, add_x, add_y, add_z, add_w]; ring
theorem dot_sub_left (a b c : H4) : (a - b).dot c = a.dot c - b.dot c := by
  simp only [dot, sub_x, sub_y, sub_z, sub_w]; ring
theorem dot_sub_right (a b c : H4) : a.dot (b - c) = a.dot b - a.dot c := by
  simp only [dot, sub_x, sub_y, sub_z, sub_w]; ring
theorem dot_smul_left (c : ℝ) (a b : H4) : (c • a).dot b = c * a.dot b := by
  simp only [dot, smul_x, smul_y, smul_z, smul_w]; ring
theorem dot_smul_right (c : ℝ) (a b : H4) : a.dot (c • b) = c * a.dot b := by
  simp only [dot, smul_x, smul_y, smul_z, smul_w]; ring
theorem dot_neg_left (a b : H4) : (-a).dot b = -a.dot b := by
  simp only [dot, neg_x, neg_y, neg_z, neg_w]; ring
theorem dot_neg_right (a b : H4) : a.dot (-b) = -a.dot b := by
  simp only [dot, neg_x, neg_y, neg_z, neg_w]; ring
theorem dot_self_nonneg (a : H4) : 0 ≤ a.dot a :=
  add_nonneg (add_nonneg (add_nonneg (mul_self_nonneg _) (mul_self_nonneg _)) (mul_self_nonneg _))
    (mul_self_nonneg _)
theorem norm_sq (a : H4) : a.norm ^ 2 = a.dot a := Real.sq_sqrt (dot_self_nonneg a)
theorem unit_dot_unit {a : H4} (h : a.dot a ≠ 0) : a.unit.dot a.unit = 1 := by
  rw [unit, dot_smul_left, dot_smul_right, ← norm_sq]
  have : a.norm ≠ 0 := by
    intro h'; apply h; rw [← norm_sq, h']; ring
  field_simp
theorem unit_w {a : H4} (h : a.w = 0) : a.unit.w = 0 := by simp [unit, h]
theorem unit_of_unit {a : H4} (h : a.dot a = 1) : a.unit = a := by
  ext <;> simp [unit, norm, h]
theorem dot_self_eq_zero {a : H4} (hw : a.w = 0) : a.dot a = 0 ↔ a.xyz = 0 := by
  rw [dot_xyz a a (.inl hw), V3.dot_self_eq_zero]
end H4

/-- A direction is determined by its components along the axes of a frame. -/
theorem Frame.expand {a b c : H4} (f : Frame a b c) {v : H4} (hv : IsDir v) :
    v = v.dot a • a + v.dot b • b + v.dot c • c := by
  have wa : a.w = 0 := f.wa
  have wb : b.w = 0 := f.wb
  have wc : c.w = 0 := f.wc
  have hw : v.w = 0 := hv
  have aa := f.aa; have bb := f.bb; have cc := f.cc
  have ab := f.ab; have ac := f.ac; have bc := f.bc
  rw [dot_xyz _ _ (.inl wa)] at aa ab ac
  rw [dot_xyz _ _ (.inl wb)] at bb bc
  rw [dot_xyz _ _ (.inl wc)] at cc
  rw [dot_xyz _ _ (.inl hw), dot_xyz _ _ (.inl hw), dot_xyz _ _ (.inl hw)]
  have key := ortho_expand aa bb cc ab ac bc v.xyz
  have kx := congrArg V3.x key
  have ky := congrArg V3.y key
  have kz := congrArg V3.z key
  simp only [V3.add_x, V3.add_y, V3.add_z, V3.smul_x, V3.smul_y, V3.smul_z, H4.xyz_x, H4.xyz_y,
    H4.xyz_z] at kx ky kz
  ext
  · exact kx
  · exact ky
  · exact kz
  · simp [hw, wa, wb, wc]

theorem Frame.ext {a b c : H4} (f : Frame a b c) {v w : H4} (hv : IsDir v) (hw : IsDir w)
    (h1 : v.dot a = w.dot a) (h2 : v.dot b = w.dot b) (h3 : v.dot c = w.dot c) : v = w := by
  rw [f.expand hv, f.expand hw, h1, h2, h3]

theorem Frame.dot_self {a b c : H4} (f : Frame a b c) {v : H4} (hv : IsDir v) :
    v.dot v = v.dot a ^ 2 + v.dot b ^ 2 + v.dot c ^ 2 := by
  conv_lhs => rw [f.expand hv]
  simp only [H4.dot_add_left, H4.dot_add_right, H4.dot_smul_left, H4.dot_smul_right, f.aa, f.bb, f.cc,
    f.ab, f.ac, f.bc, H4.dot_comm b a, H4.dot_comm c a, H4.dot_comm c b]
  ring

end Marxs
