import Verif.Spec.Similarity
import Verif.Props.RigidMotion

/-!
# Properties C159 and C160: size of an instrument, length of direction vectors
-/

namespace Marxs
open Classical

section
variable {c k : ℝ}

theorem enl_mul4 (c : ℝ) (p : H4) : mul4 (enlargeMat c) p = p.enlarged c := by
  ext <;> simp [mul4, enlargeMat, H4.enlarged]

theorem enl_affine (c : ℝ) : Affine (enlargeMat c) := by simp [Affine, enlargeMat]

theorem enl_det (c : ℝ) : (enlargeMat c).det = c ^ 3 := by
  rw [enlargeMat, Matrix.det_succ_row _ 3]
  simp [Fin.sum_univ_four, Matrix.det_fin_three, Matrix.submatrix, Fin.succAbove]
  ring

theorem enl_dir (c : ℝ) {p : H4} (h : p.w = 0) : p.enlarged c = c • p := by
  ext <;> simp [H4.enlarged, h]

theorem enl_w (c : ℝ) (p : H4) : (p.enlarged c).w = p.w := rfl
theorem enl_xyz (c : ℝ) (p : H4) : (p.enlarged c).xyz = c • p.xyz := rfl
theorem enl_sub (c : ℝ) (p q : H4) : p.enlarged c - q.enlarged c = (p - q).enlarged c := by
  ext <;> simp [H4.enlarged] <;> ring

theorem h4_unit_smul (hk : 0 < k) (a : H4) : (k • a).unit = a.unit := by
  have hn : (k • a).norm = k * a.norm := by
    rw [H4.norm, H4.norm, H4.dot_smul_left, H4.dot_smul_right, ← mul_assoc, Real.sqrt_mul (by positivity),
      Real.sqrt_mul_self hk.le]
  rw [H4.unit, H4.unit, hn]
  ext <;> simp <;> field_simp

theorem v3_norm_smul (hk : 0 < k) (a : V3) : (k • a).norm = k * a.norm := by
  have h : (k • a).dot (k • a) = k * k * a.dot a := by simp only [V3.dot, V3.smul_x, V3.smul_y, V3.smul_z]; ring
  rw [V3.norm, V3.norm, h, Real.sqrt_mul (by positivity), Real.sqrt_mul_self hk.le]

theorem v3_unit_smul (hk : 0 < k) (a : V3) : (k • a).unit = a.unit := by
  rw [V3.unit, V3.unit, v3_norm_smul hk]
  ext <;> simp <;> field_simp

theorem v3_smul_eq_zero (hk : 0 < k) (a : V3) : k • a = 0 ↔ a = 0 := by
  constructor
  · intro h
    have hx := congrArg V3.x h; have hy := congrArg V3.y h; have hz := congrArg V3.z h
    simp [hk.ne'] at hx hy hz
    ext <;> simp [hx, hy, hz]
  · rintro rfl; ext <;> simp

theorem enl_col (c : ℝ) (m : M4) (j : Fin 4) : col (enlargeMat c * m) j = (col m j).enlarged c := by
  ext <;> simp [col, enlargeMat, H4.enlarged, Matrix.mul_apply, Fin.sum_univ_four]

theorem enl_center (c : ℝ) (m : M4) : center (enlargeMat c * m) = (center m).enlarged c := enl_col c m 3
theorem enl_vY (c : ℝ) {m : M4} (h : Affine m) : vY (enlargeMat c * m) = c • vY m := by
  rw [show vY (enlargeMat c * m) = (vY m).enlarged c from enl_col c m 1, enl_dir c h.2.1]
theorem enl_vZ (c : ℝ) {m : M4} (h : Affine m) : vZ (enlargeMat c * m) = c • vZ m := by
  rw [show vZ (enlargeMat c * m) = (vZ m).enlarged c from enl_col c m 2, enl_dir c h.2.2.1]
theorem enl_eX (hc : 0 < c) {m : M4} (h : Affine m) : eX (enlargeMat c * m) = eX m := by
  rw [eX, show vX (enlargeMat c * m) = (vX m).enlarged c from enl_col c m 0, enl_dir c h.1, h4_unit_smul hc]; rfl
theorem enl_eY (hc : 0 < c) {m : M4} (h : Affine m) : eY (enlargeMat c * m) = eY m := by
  rw [eY, enl_vY c h, h4_unit_smul hc]; rfl
theorem enl_eZ (hc : 0 < c) {m : M4} (h : Affine m) : eZ (enlargeMat c * m) = eZ m := by
  rw [eZ, enl_vZ c h, h4_unit_smul hc]; rfl

theorem h4_norm_smul (hk : 0 < k) (a : H4) : (k • a).norm = k * a.norm := by
  rw [H4.norm, H4.norm, H4.dot_smul_left, H4.dot_smul_right, ← mul_assoc, Real.sqrt_mul (by positivity),
    Real.sqrt_mul_self hk.le]

/-- inverse of the larger matrix on points -/
theorem enl_inv (hc : 0 < c) (m : M4) (p : H4) : mul4 (enlargeMat c * m)⁻¹ (p.enlarged c) = mul4 m⁻¹ p := by
  rw [Matrix.mul_inv_rev, mul4_mul, ← enl_mul4, inv_mul4 (by rw [enl_det]; positivity)]

theorem mul4_smul' (m : M4) (s : ℝ) (p : H4) : mul4 m (s • p) = s • mul4 m p := by
  ext <;> simp [mul4] <;> ring

/-- inverse of the larger matrix on directions -/
theorem enl_inv_dir (hc : 0 < c) (m : M4) {p : H4} (h : p.w = 0) :
    mul4 (enlargeMat c * m)⁻¹ p = (1 / c) • mul4 m⁻¹ p := by
  have e : p = ((1 / c) • p).enlarged c := by
    rw [enl_dir c (by simp [h])]
    ext <;> simp <;> field_simp
  conv_lhs => rw [e]
  rw [enl_inv hc, mul4_smul']

/-- **C159, C160** planes -/
theorem C159_plane (hc : 0 < c) (hk : 0 < k) (m : M4) (hm : Affine m) (dir pos : H4) (hd : IsDir dir) (hp : IsPoint pos) :
    planeIntersect (enlargeMat c * m) (k • dir) (pos.enlarged c) =
      (planeIntersect m dir pos).map fun q => (q.1.enlarged c, c * q.2.1, c * q.2.2) := by
  have hd' : dir.w = 0 := hd
  have hp' : pos.w = 1 := hp
  have hcw : (center m).w = 1 := hm.2.2.2
  have w1 : (center m - pos).w = 0 := by rw [H4.sub_w, hcw, hp', sub_self]
  have e1 : ((center m).enlarged c - pos.enlarged c).dot (eX m) = c * (center m - pos).dot (eX m) := by
    rw [enl_sub, enl_dir c w1, H4.dot_smul_left]
  have e2 : (k • dir).dot (eX m) = k * dir.dot (eX m) := H4.dot_smul_left _ _ _
  simp only [planeIntersect, enl_center, enl_eX hc hm, enl_eY hc hm, enl_eZ hc hm, enl_vY c hm, enl_vZ c hm, e1, e2,
    h4_norm_smul hc, mul_eq_zero, hk.ne', false_or]
  by_cases h0 : dir.dot (eX m) = 0
  · simp only [h0, if_true, Option.map_none]
  · simp only [h0, if_false]
    generalize hkk : (center m - pos).dot (eX m) / dir.dot (eX m) = t
    have et : c * (center m - pos).dot (eX m) / (k * dir.dot (eX m)) = c / k * t := by
      rw [← hkk]; field_simp
    have e3 : pos.enlarged c + (c / k * t) • k • dir = (pos + t • dir).enlarged c := by
      ext <;> simp [H4.enlarged, hd'] <;> field_simp
    have w3 : (pos + t • dir - center m).w = 0 := by simp [hp', hd', hcw]
    have a : ∀ x b : ℝ, |c * x| ≤ c * b ↔ |x| ≤ b := fun x b => by
      rw [abs_mul, abs_of_pos hc]; exact mul_le_mul_iff_right₀ hc
    have a0 : 0 ≤ c / k * t ↔ 0 ≤ t := by
      constructor
      · intro h; by_contra hn; push Not at hn
        have := mul_neg_of_pos_of_neg (div_pos hc hk) hn
        linarith
      · intro h; positivity
    rw [et, e3, enl_sub, enl_dir c w3, H4.dot_smul_left, H4.dot_smul_left]
    simp only [a, a0]
    split_ifs <;> rfl

theorem cylLocal_smul {s : ℝ} (hs : 0 < s) (lim0 lim1 : ℝ) (p d : V3) :
    cylLocal lim0 lim1 p (s • d) = (cylLocal lim0 lim1 p d).map fun q => (q.1 / s, q.2) := by
  set b := 2 * (p.x * d.x + p.y * d.y) with hb
  set a := d.x ^ 2 + d.y ^ 2 with ha
  set cc := p.x ^ 2 + p.y ^ 2 - 1 with hcc
  have eb : 2 * (p.x * (s * d.x) + p.y * (s * d.y)) = s * b := by rw [hb]; ring
  have ea : (s * d.x) ^ 2 + (s * d.y) ^ 2 = s ^ 2 * a := by rw [ha]; ring
  have eu : (s * b) ^ 2 - 4 * (s ^ 2 * a) * cc = s ^ 2 * (b ^ 2 - 4 * a * cc) := by ring
  have eq : Real.sqrt (s ^ 2 * (b ^ 2 - 4 * a * cc)) = s * Real.sqrt (b ^ 2 - 4 * a * cc) := by
    rw [Real.sqrt_mul (by positivity), Real.sqrt_sq hs.le]
  have e0 : 0 ≤ s ^ 2 * (b ^ 2 - 4 * a * cc) ↔ 0 ≤ b ^ 2 - 4 * a * cc := by
    constructor
    · intro h; by_contra hn; push Not at hn
      have := mul_neg_of_pos_of_neg (pow_pos hs 2) hn
      linarith
    · intro h; positivity
  simp only [cylLocal, V3.smul_x, V3.smul_y, V3.smul_z, eb, ea, eu, eq, ← hb, ← ha, ← hcc, e0, mul_eq_zero,
    pow_eq_zero_iff two_ne_zero, hs.ne', false_or]
  by_cases h1 : 0 ≤ b ^ 2 - 4 * a * cc
  swap
  · simp only [h1, not_false_eq_true, if_true, Option.map_none]
  by_cases h2 : a = 0
  · simp only [h2, if_true]
    split_ifs <;> rfl
  simp only [h1, h2, not_true_eq_false, if_false]
  generalize Real.sqrt (b ^ 2 - 4 * a * cc) = r
  have t1 : (-(s * b) + s * r) / (2 * (s ^ 2 * a)) = (-b + r) / (2 * a) / s := by field_simp
  have t2 : (-(s * b) - s * r) / (2 * (s ^ 2 * a)) = (-b - r) / (2 * a) / s := by field_simp
  rw [t1, t2]
  generalize (-b + r) / (2 * a) = u1
  generalize (-b - r) / (2 * a) = u2
  have m1 : ∀ u x : ℝ, u / s * (s * x) = u * x := fun u x => by field_simp
  have m2 : ∀ u : ℝ, 0 ≤ u / s ↔ 0 ≤ u := fun u => by rw [le_div_iff₀ hs, zero_mul]
  have m3 : u2 / s < u1 / s ↔ u2 < u1 := div_lt_div_iff_of_pos_right hs
  have m4 : u2 / s ≥ u1 / s ↔ u2 ≥ u1 := div_le_div_iff_of_pos_right hs
  simp only [m1, m2, m3, m4]
  split_ifs <;> rfl

/-- **C159, C160** cylinders -/
theorem C159_cylinder (hc : 0 < c) (hk : 0 < k) (m : M4) (zoomz lim0 lim1 : ℝ) (dir pos : H4) (hd : IsDir dir) :
    cylIntersect (enlargeMat c * m) (c * zoomz) lim0 lim1 (k • dir) (pos.enlarged c) =
      (cylIntersect m zoomz lim0 lim1 dir pos).map fun o => o.map fun q => (q.1.enlarged c, q.2.1, c * q.2.2) := by
  have hd' : dir.w = 0 := hd
  have hkd : (k • dir).w = 0 := by simp [hd']
  have edet : (enlargeMat c * m).det = 0 ↔ m.det = 0 := by
    rw [Matrix.det_mul, enl_det, mul_eq_zero]; simp [hc.ne']
  have hs : 0 < k / c := div_pos hk hc
  have e : (mul4 (enlargeMat c * m)⁻¹ (k • dir)).xyz = (k / c) • (mul4 m⁻¹ dir).xyz := by
    rw [enl_inv_dir hc m hkd, mul4_smul']
    ext <;> simp <;> ring
  simp only [cylIntersect, edet, enl_inv hc, e, hkd, hd', ne_eq, not_true_eq_false, if_false, cylLocal_smul hs]
  by_cases h0 : m.det = 0
  · simp [h0, Except.map]
  · simp only [h0, if_false]
    cases h : cylLocal lim0 lim1 (mul4 m⁻¹ pos).xyz (mul4 m⁻¹ dir).xyz with
    | none => rfl
    | some q =>
      obtain ⟨t, phi, z⟩ := q
      have e2 : (mul4 m⁻¹ pos).xyz + (t / (k / c)) • (k / c) • (mul4 m⁻¹ dir).xyz =
          (mul4 m⁻¹ pos).xyz + t • (mul4 m⁻¹ dir).xyz := by
        ext <;> simp <;> field_simp
      simp only [Option.map_some, e2, Except.map, mul4_mul, enl_mul4]
      rw [← mul_assoc, mul_comm z c, mul_assoc]

theorem one_smul_h4 (a : H4) : (1 : ℝ) • a = a := by ext <;> simp

/-- the length of the directions does not matter for parallel transport -/
theorem transport_smul (hk : 0 < k) {l : ℝ} (hl : 0 < l) (d1 d2 pol : H4) :
    parallelTransport (k • d1) (l • d2) pol = parallelTransport d1 d2 pol := by
  have x : ∀ (s : ℝ) (d : H4), (s • d).xyz = s • d.xyz := fun s d => rfl
  simp only [parallelTransport_vec, x, v3_unit_smul hk, v3_unit_smul hl, v3_smul_eq_zero hk, v3_smul_eq_zero hl]

theorem transport_smul_left (hk : 0 < k) (d1 d2 pol : H4) :
    parallelTransport (k • d1) d2 pol = parallelTransport d1 d2 pol := by
  have x : ∀ (s : ℝ) (d : H4), (s • d).xyz = s • d.xyz := fun s d => rfl
  simp only [parallelTransport_vec, x, v3_unit_smul hk, v3_smul_eq_zero hk]

/-- **C159, C160** lenses -/
theorem C159_lens (hc : 0 < c) (hk : 0 < k) (m : M4) (hm : Affine m) (focallength dOptax : ℝ) (refl : ℝ → ℝ → ℝ)
    (dir pol interpos : H4) (energy : ℝ) :
    perfectLens (enlargeMat c * m) (c * focallength) (c * dOptax) refl (k • dir) pol (interpos.enlarged c) energy =
      perfectLens m focallength dOptax refl dir pol interpos energy := by
  have x : (k • dir).xyz = k • dir.xyz := rfl
  have e : focusPoint (enlargeMat c * m) (c * focallength) (c * dOptax) (k • dir.xyz) - (interpos.enlarged c).xyz =
      c • (focusPoint m focallength dOptax dir.xyz - interpos.xyz) := by
    rw [focusPoint, focusPoint, enl_center, enl_eZ hc hm, v3_unit_smul hk]
    ext <;> simp [H4.enlarged] <;> ring
  simp only [perfectLens, x, e, v3_smul_eq_zero hc, v3_smul_eq_zero hk, v3_unit_smul hc, v3_unit_smul hk,
    transport_smul_left hk]

theorem mul3_smul' (r : M3) (s : ℝ) (a : V3) : mul3 r (s • a) = s • mul3 r a := by
  ext <;> simp [mul3] <;> ring

theorem cross_smul2 (s t : ℝ) (a b : V3) : (s • a).cross (t • b) = (s * t) • a.cross b := by
  ext <;> simp <;> ring

theorem toDir_smul' (s : ℝ) (a : V3) : (s • a).toDir = s • a.toDir := by
  ext <;> simp [V3.toDir]

/-- **C159, C160** thin lenses -/
theorem C159_thin_lens (hc : 0 < c) (hk : 0 < k) (m : M4) (focallength : ℝ) (dir pol interpos : H4) :
    thinLens (enlargeMat c * m) (c * focallength) (k • dir) pol (interpos.enlarged c) =
      (thinLens m focallength dir pol interpos).map fun o => (k • o.1, o.2) := by
  have x : (k • dir).xyz = k • dir.xyz := rfl
  have e1 : (interpos.enlarged c - (center m).enlarged c).xyz = c • (interpos - center m).xyz := by rw [enl_sub]; rfl
  have e2 : (interpos.enlarged c).xyz - ((center m).enlarged c).xyz = c • (interpos.xyz - (center m).xyz) := by
    ext <;> simp [H4.enlarged] <;> ring
  have e3 : ∀ n : ℝ, -(c * n) / (c * focallength) = -n / focallength := fun n => by
    rw [neg_div, neg_div, mul_div_mul_left _ _ hc.ne']
  simp only [thinLens, enl_center, e1, e2, x, v3_norm_smul hc, mul_eq_zero, hc.ne', false_or, cross_smul2,
    v3_smul_eq_zero (mul_pos hk hc), v3_unit_smul (mul_pos hk hc), e3, mul3_smul', toDir_smul']
  split_ifs <;> rfl

theorem turn_smul {s t : ℝ} (hs : 0 < s) (axis : V3) (a : ℝ) (v : V3) :
    turn (s • axis) a (t • v) = (turn axis a v).map (t • ·) := by
  simp only [turn, v3_smul_eq_zero hs, v3_unit_smul hs, mul3_smul']
  split_ifs <;> rfl

/-- **C159, C160** scattering off mirrors -/
theorem C159_scatter (hc : 0 < c) (hk : 0 < k) (m : M4) (dir pos pol : H4) (inAngle perpAngle : Option ℝ) :
    radialScatter (enlargeMat c * m) (k • dir) (pos.enlarged c) pol inAngle perpAngle =
      (radialScatter m dir pos pol inAngle perpAngle).map fun o => (k • o.1, o.2) := by
  have x : (k • dir).xyz = k • dir.xyz := rfl
  have e2 : (pos.enlarged c).xyz - ((center m).enlarged c).xyz = c • (pos.xyz - (center m).xyz) := by
    ext <;> simp [H4.enlarged] <;> ring
  have fin : ∀ d : V3, (some ((k • d).toDir, parallelTransport (k • dir) (k • d).toDir pol) : Option (H4 × Option H4)) =
      Option.map (fun o => (k • o.1, o.2)) (some (d.toDir, parallelTransport dir d.toDir pol)) := by
    intro d
    rw [Option.map_some, toDir_smul', transport_smul hk hk]
  simp only [radialScatter, enl_center, e2, x, cross_smul2]
  cases inAngle with
  | none =>
    cases perpAngle with
    | none => exact fin _
    | some b =>
      simp only [turn_smul hc]
      cases turn (pos.xyz - (center m).xyz) b dir.xyz with
      | none => rfl
      | some d => exact fin d
  | some a =>
    simp only [turn_smul (mul_pos hk hc)]
    cases turn (dir.xyz.cross (pos.xyz - (center m).xyz)) a dir.xyz with
    | none => rfl
    | some d1 =>
      cases perpAngle with
      | none => exact fin d1
      | some b =>
        simp only [Option.map_some, turn_smul hc]
        cases turn (pos.xyz - (center m).xyz) b d1 with
        | none => rfl
        | some d => exact fin d

theorem mirrorDir_enl (hc : 0 < c) {m : M4} (hm : Placed m) {p : H4} (hp : p.w = 0) :
    mirrorDir (enlargeMat c * m) p = mirrorDir m p := by
  have hw : (mul4 m⁻¹ p).w = 0 := by rw [inv_w hm, hp]
  simp only [mirrorDir, enl_inv_dir hc m hp, mul4_mul, enl_mul4]
  have e : (⟨((1 / c) • mul4 m⁻¹ p).x * -1, ((1 / c) • mul4 m⁻¹ p).y, ((1 / c) • mul4 m⁻¹ p).z,
      ((1 / c) • mul4 m⁻¹ p).w⟩ : H4) =
      (1 / c) • (⟨(mul4 m⁻¹ p).x * -1, (mul4 m⁻¹ p).y, (mul4 m⁻¹ p).z, (mul4 m⁻¹ p).w⟩ : H4) := by
    ext <;> simp
  rw [e, mul4_smul', enl_dir]
  · ext <;> simp <;> field_simp
  · rw [H4.smul_w, affine_w hm.1]; simp [hw]

theorem smul_dot_zero (hk : 0 < k) (d : H4) : (k • d).dot (k • d) = 0 ↔ d.dot d = 0 := by
  rw [H4.dot_smul_left, H4.dot_smul_right, mul_eq_zero, mul_eq_zero]
  simp [hk.ne']

/-- **C159, C160** mirrors -/
theorem C159_mirror (hc : 0 < c) (hk : 0 < k) (m : M4) (hm : Placed m) (rs rp : ℝ) (dir pol : H4) (hd : IsDir dir) :
    brewster (enlargeMat c * m) rs rp (k • dir) pol = brewster m rs rp dir pol := by
  have hu : dir.unit.w = 0 := H4.unit_w hd
  simp only [brewster, smul_dot_zero hk, h4_unit_smul hk, enl_eX hc hm.1, mirrorDir_enl hc hm hu]

theorem normVector_smul (hk : 0 < k) (v : H4) : normVector (k • v) = normVector v := by
  simp only [normVector, smul_dot_zero hk, h4_unit_smul hk]

/-- **C159, C160** gratings -/
theorem C159_grating (hc : 0 < c) (hk : 0 < k) (m : M4) (hm : Affine m) (transmission cat : Bool) (groove : ℝ)
    (d blazeMod : ℝ × ℝ → ℝ) (order : ℝ → Option ℝ → ℤ × ℝ) (dir pol : H4) (energy y z : ℝ) :
    (planeGrating (enlargeMat c * m) transmission cat groove (fun p => d (p.1 / c, p.2 / c))
        (fun p => blazeMod (p.1 / c, p.2 / c)) order).process (k • dir) pol energy (c * y, c * z) =
      (planeGrating m transmission cat groove d blazeMod order).process dir pol energy (y, z) := by
  have hy : ∀ x : ℝ, c * x / c = x := fun x => by field_simp
  have key : (planeGrating (enlargeMat c * m) transmission cat groove (fun p => d (p.1 / c, p.2 / c))
        (fun p => blazeMod (p.1 / c, p.2 / c)) order).diffract (k • dir) pol energy (c * y, c * z) =
      (planeGrating m transmission cat groove d blazeMod order).diffract dir pol energy (y, z) := by
    simp only [Grating.diffract, Grating.frame, planeGrating, planeBases, enl_eX hc hm, enl_eY hc hm, enl_eZ hc hm,
      normVector_smul hk, hy]
    cases normVector dir <;> rfl
  simp only [Grating.process, key, transport_smul_left hk]

end

theorem ray_hit_sim {c k : ℝ} (hc : 0 < c) (hk : 0 < k) {r r' : Ray} (h : r.Similar c k r') (hr : r.WellFormed) {m : M4}
    (hm : Affine m) :
    r'.hit (enlargeMat c * m) =
      (r.hit m).map fun q => (k • q.1, q.2.1.enlarged c, c * q.2.2.1, c * q.2.2.2.1, q.2.2.2.2.enlarged c) := by
  simp only [Ray.hit, h.pos, h.dir]
  cases hd : r.dir with
  | none => rfl
  | some d =>
    cases hp : r.pos with
    | none => rfl
    | some p =>
      simp only [Option.map_some]
      rw [C159_plane hc hk m hm d p (hr.2.1 d hd) (hr.1 p hp)]
      cases planeIntersect m d p <;> rfl

theorem forall2_snoc {α : Type*} {R : α → α → Prop} {l l' : List α} (h : List.Forall₂ R l l') {a b : α} (hab : R a b) :
    List.Forall₂ R (l ++ [a]) (l' ++ [b]) :=
  List.rel_append h (.cons hab .nil)

/-- **C159, C160** every element: the same error, or a photon of the same kind. -/
theorem C159_element {c k : ℝ} (hc : 0 < c) (hk : 0 < k) (o : Optic) (ho : o.IsPlaced) (r r' : Ray) (hr : r.WellFormed)
    (h : r.Similar c k r') (hpr : k = 1 ∨ o.NotPropagator) :
    (∀ e, o.step r = .error e → (o.enlarged c).step r' = .error e) ∧
    ∀ s, o.step r = .ok s → ∃ s' k', (o.enlarged c).step r' = .ok s' ∧ 0 < k' ∧ (k = 1 → k' = 1) ∧ s.Similar c k' s' := by
  have hit := fun (m : M4) (hm : Affine m) => ray_hit_sim hc hk h hr (m := m) hm
  cases o with
  | plane m =>
    simp only [Optic.enlarged, Optic.step, hit m ho.1]
    cases r.hit m with
    | none => exact ⟨by simp, fun s hs => ⟨r', k, rfl, hk, id, by cases hs; exact h⟩⟩
    | some q =>
      refine ⟨by simp, fun s hs => ⟨_, k, rfl, hk, id, ?_⟩⟩
      cases hs
      exact ⟨rfl, h.dir, h.pol, h.prob, h.energy, h.order, h.blaze, forall2_snoc h.coos (.inl rfl)⟩
  | tube m zoomz lim0 lim1 =>
    simp only [Optic.enlarged, Optic.step, h.pos, h.dir]
    cases hd : r.dir with
    | none => exact ⟨fun e he => he, by simp⟩
    | some d =>
      cases hp : r.pos with
      | none =>
        have hw : d.w = 0 := hr.2.1 d hd
        have hm : m.det ≠ 0 := ho.2
        have hdet : (enlargeMat c).det ≠ 0 := by rw [enl_det]; exact pow_ne_zero _ hc.ne'
        simp only [Option.map_some, Option.map_none]
        rw [if_neg (by simp [hw, hm]), if_neg (by simp [hw, hm, hdet])]
        exact ⟨by simp, fun s hs => ⟨r', k, rfl, hk, id, by cases hs; exact h⟩⟩
      | some p =>
        simp only [Option.map_some]
        rw [C159_cylinder hc hk m zoomz lim0 lim1 d p (hr.2.1 d hd)]
        cases cylIntersect m zoomz lim0 lim1 d p with
        | error e => exact ⟨fun e' he => (by cases he; rfl), fun s hs => by cases hs⟩
        | ok w =>
          cases w with
          | none => exact ⟨fun e' he => (by cases he), fun s hs => ⟨r', k, rfl, hk, id, by cases hs; exact h⟩⟩
          | some q =>
            refine ⟨fun e' he => (by cases he), fun s hs => ⟨_, k, rfl, hk, id, ?_⟩⟩
            cases hs
            exact ⟨rfl, by simp [Ray.at, h.dir, hd], h.pol, h.prob, h.energy, h.order, h.blaze,
              forall2_snoc h.coos (.inr rfl)⟩
  | filter m f =>
    simp only [Optic.enlarged, Optic.step, hit m ho.1, h.energy]
    cases r.hit m with
    | none => exact ⟨by simp, fun s hs => ⟨r', k, rfl, hk, id, by cases hs; exact h⟩⟩
    | some q =>
      simp only [Option.map_some]
      cases filterValue f r.energy with
      | error e => exact ⟨fun e' he => (by cases he; rfl), fun s hs => by cases hs⟩
      | ok p =>
        refine ⟨fun e' he => (by cases he), fun s hs => ⟨_, k, rfl, hk, id, ?_⟩⟩
        cases hs
        exact ⟨rfl, h.dir, h.pol, by simp [Ray.at, Ray.times, h.prob], h.energy, h.order, h.blaze,
          forall2_snoc h.coos (.inl rfl)⟩
  | globalFilter f =>
    simp only [Optic.enlarged, Optic.step, h.energy]
    cases filterValue f r.energy with
    | error e => exact ⟨fun e' he => (by cases he; rfl), fun s hs => by cases hs⟩
    | ok p =>
      refine ⟨fun e' he => (by cases he), fun s hs => ⟨_, k, rfl, hk, id, ?_⟩⟩
      cases hs
      exact ⟨h.pos, h.dir, h.pol, by simp [Ray.times, h.prob], h.energy, h.order, h.blaze, h.coos⟩
  | lens m focallength dOptax refl =>
    simp only [Optic.enlarged, Optic.step, hit m ho.1, h.energy, h.pol]
    cases r.hit m with
    | none => exact ⟨by simp, fun s hs => ⟨r', k, rfl, hk, id, by cases hs; exact h⟩⟩
    | some q =>
      simp only [Option.map_some, C159_lens hc hk m ho.1]
      refine ⟨by simp, fun s hs => ⟨_, 1, rfl, one_pos, fun _ => rfl, ?_⟩⟩
      cases hs
      refine ⟨rfl, ?_, rfl, by simp [Ray.at, Ray.times, h.prob], rfl, h.order, h.blaze, forall2_snoc h.coos (.inl rfl)⟩
      simp only [Ray.at, Ray.times, one_smul_h4]
      exact Option.map_id'.symm
  | thin m focallength =>
    simp only [Optic.enlarged, Optic.step, hit m ho.1, h.pol]
    cases r.hit m with
    | none => exact ⟨by simp, fun s hs => ⟨r', k, rfl, hk, id, by cases hs; exact h⟩⟩
    | some q =>
      simp only [Option.map_some, C159_thin_lens hc hk m]
      refine ⟨by simp, fun s hs => ⟨_, k, rfl, hk, id, ?_⟩⟩
      cases hs
      refine ⟨rfl, ?_, ?_, h.prob, h.energy, h.order, h.blaze, forall2_snoc h.coos (.inl rfl)⟩
      · simp [Ray.at, Option.map_map, Function.comp_def]
      · cases r.pol <;> simp [Ray.at, Option.map_map, Function.comp_def]
  | grating m transmission cat groove dd blazeMod order =>
    simp only [Optic.enlarged, Optic.step, hit m ho.1, h.energy, h.pol]
    cases r.hit m with
    | none => exact ⟨by simp, fun s hs => ⟨r', k, rfl, hk, id, by cases hs; exact h⟩⟩
    | some q =>
      obtain ⟨d, q, y, z, p⟩ := q
      have key := fun pol => C159_grating hc hk m ho.1 transmission cat groove dd blazeMod order d pol r.energy y z
      have k0 := congrArg Prod.fst (key ⟨0, 0, 0, 0⟩)
      simp only [Grating.process] at k0
      simp only [Option.map_some, key, k0]
      refine ⟨by simp, fun s hs => ⟨_, 1, rfl, one_pos, fun _ => rfl, ?_⟩⟩
      cases hs
      refine ⟨rfl, ?_, rfl, by simp [Ray.at, Ray.times, h.prob], rfl, rfl, rfl, forall2_snoc h.coos (.inl rfl)⟩
      simp only [Ray.at, Ray.times, one_smul_h4]
      exact Option.map_id'.symm
  | mirror m rs rp =>
    simp only [Optic.enlarged, Optic.step, hit m ho.1, h.pol]
    cases hh : r.hit m with
    | none => exact ⟨by simp, fun s hs => ⟨r', k, rfl, hk, id, by cases hs; exact h⟩⟩
    | some q =>
      obtain ⟨d, q, y, z, p⟩ := q
      obtain ⟨wd, -, -⟩ := hit_spec hr hh
      have hu : d.unit.w = 0 := H4.unit_w wd
      simp only [Option.map_some, C159_mirror hc hk m ho _ _ d _ wd, smul_dot_zero hk, h4_unit_smul hk,
        mirrorDir_enl hc ho hu]
      have one : ∀ o : Option H4, o = o.map ((1 : ℝ) • ·) := fun o => by
        simp only [one_smul_h4]; exact Option.map_id'.symm
      cases hpol : r.pol with
      | none =>
        refine ⟨by simp, fun s hs => ⟨_, 1, rfl, one_pos, fun _ => rfl, ?_⟩⟩
        cases hs
        exact ⟨rfl, one _, by simp [Ray.at, Ray.times, h.pol, hpol], by simp [Ray.at, Ray.times], h.energy, h.order,
          h.blaze, forall2_snoc h.coos (.inl rfl)⟩
      | some pol =>
        simp only
        cases brewster m rs rp d pol with
        | error e => exact ⟨fun e' he => (by cases he; rfl), fun s hs => by cases hs⟩
        | ok w =>
          cases w with
          | none =>
            refine ⟨by simp, fun s hs => ⟨_, 1, rfl, one_pos, fun _ => rfl, ?_⟩⟩
            cases hs
            exact ⟨rfl, one _, rfl, by simp [Ray.at, Ray.times], h.energy, h.order, h.blaze,
              forall2_snoc h.coos (.inl rfl)⟩
          | some w =>
            refine ⟨by simp, fun s hs => ⟨_, 1, rfl, one_pos, fun _ => rfl, ?_⟩⟩
            cases hs
            exact ⟨rfl, one _, rfl, by simp [Ray.at, Ray.times, h.prob], h.energy, h.order, h.blaze,
              forall2_snoc h.coos (.inl rfl)⟩
  | scatter m inAngle perpAngle =>
    simp only [Optic.enlarged, Optic.step, hit m ho.1, h.pol]
    cases r.hit m with
    | none => exact ⟨by simp, fun s hs => ⟨r', k, rfl, hk, id, by cases hs; exact h⟩⟩
    | some q =>
      simp only [Option.map_some, C159_scatter hc hk m]
      refine ⟨by simp, fun s hs => ⟨_, k, rfl, hk, id, ?_⟩⟩
      cases hs
      refine ⟨rfl, ?_, ?_, h.prob, h.energy, h.order, h.blaze, forall2_snoc h.coos (.inl rfl)⟩
      · simp [Ray.at, Option.map_map, Function.comp_def]
      · cases r.pol with
        | none => rfl
        | some pol => simp only [Ray.at, Option.bind_some]; cases radialScatter m q.1 q.2.2.2.2 pol inAngle perpAngle <;> rfl
  | propagate distance =>
    rcases hpr with rfl | hf
    swap
    · exact hf.elim
    simp only [Optic.enlarged, Optic.step]
    refine ⟨by simp, fun s hs => ⟨_, 1, rfl, one_pos, fun _ => rfl, ?_⟩⟩
    cases hs
    refine ⟨?_, h.dir, h.pol, h.prob, h.energy, h.order, h.blaze, h.coos⟩
    simp only [h.dir, h.pos]
    cases hd : r.dir with
    | none => rfl
    | some d =>
      cases hp : r.pos with
      | none => rfl
      | some p =>
        have wd : d.w = 0 := hr.2.1 d hd
        simp only [Option.map_some, Option.some.injEq]
        ext <;> simp [H4.enlarged, wd] <;> ring

/-- The sequence behind C159 and C160. -/
theorem sim_sequence {c : ℝ} (hc : 0 < c) (os : List Optic) (hos : ∀ o ∈ os, o.IsPlaced) :
    ∀ (k : ℝ) (_ : 0 < k) (r r' : Ray) (_ : r.WellFormed) (_ : r.Similar c k r')
      (_ : k = 1 ∨ ∀ o ∈ os, o.NotPropagator),
    (∀ e, runOptics os r = .error e → runOptics (os.map (Optic.enlarged c)) r' = .error e) ∧
    ∀ s, runOptics os r = .ok s →
      ∃ s' k', runOptics (os.map (Optic.enlarged c)) r' = .ok s' ∧ 0 < k' ∧ (k = 1 → k' = 1) ∧ s.Similar c k' s' := by
  induction os with
  | nil => exact fun k hk r r' _ h _ => ⟨fun e he => (by cases he), fun s hs => ⟨r', k, rfl, hk, id, by cases hs; exact h⟩⟩
  | cons o os ih =>
    intro k hk r r' hr h hpr
    have ho := hos o (by simp)
    obtain ⟨h1, h2⟩ := C159_element hc hk o ho r r' hr h (hpr.imp id fun hh => hh o (by simp))
    simp only [List.map_cons, runOptics]
    cases hstep : o.step r with
    | error e =>
      rw [h1 e hstep]
      exact ⟨fun e' he => he, fun s hs => by cases hs⟩
    | ok t =>
      obtain ⟨t', k1, e1, hk1, hone, hsim⟩ := h2 t hstep
      rw [e1]
      obtain ⟨g1, g2⟩ := ih (fun o ho => hos o (by simp [ho])) k1 hk1 t t' (C157_well_formed o ho r t hr hstep) hsim
        (hpr.imp hone fun hh o ho => hh o (by simp [ho]))
      refine ⟨g1, fun s hs => ?_⟩
      obtain ⟨s', k2, e2, hk2, hone2, hs2⟩ := g2 s hs
      exact ⟨s', k2, e2, hk2, fun hk => hone2 (hone hk), hs2⟩

/-- **C159** In an instrument that is `c` times as large, photons that start at the corresponding point with the same
direction end at the corresponding point, with the same direction, polarization, order and probability. If a simulation
fails for one instrument, it fails in the same way for the other. -/
theorem C159_size {c : ℝ} (hc : 0 < c) (os : List Optic) (hos : ∀ o ∈ os, o.IsPlaced) (r r' : Ray) (hr : r.WellFormed)
    (h : r.Similar c 1 r') :
    (∀ e, runOptics os r = .error e → runOptics (os.map (Optic.enlarged c)) r' = .error e) ∧
    ∀ s, runOptics os r = .ok s → ∃ s', runOptics (os.map (Optic.enlarged c)) r' = .ok s' ∧ s.Similar c 1 s' := by
  obtain ⟨h1, h2⟩ := sim_sequence hc os hos 1 one_pos r r' hr h (.inl rfl)
  refine ⟨h1, fun s hs => ?_⟩
  obtain ⟨s', k', e, -, hk, hsim⟩ := h2 s hs
  rw [hk rfl] at hsim
  exact ⟨s', e, hsim⟩

theorem enlarged_one (o : Optic) : o.enlarged 1 = o := by
  have hm : enlargeMat 1 = 1 := by
    ext i j; fin_cases i <;> fin_cases j <;> rfl
  cases o <;> simp [Optic.enlarged, hm]

/-- **C160** The length of the direction vector of a photon does not matter in a sequence without `Propagator`: all
results are the same, except that the final direction may be longer by a positive factor, too. -/
theorem C160_length (os : List Optic) (hos : ∀ o ∈ os, o.IsPlaced ∧ o.NotPropagator) (r : Ray) (hr : r.WellFormed) {k : ℝ}
    (hk : 0 < k) :
    (∀ e, runOptics os r = .error e → runOptics os { r with dir := r.dir.map (k • ·) } = .error e) ∧
    ∀ s, runOptics os r = .ok s →
      ∃ k' : ℝ, 0 < k' ∧ runOptics os { r with dir := r.dir.map (k • ·) } = .ok { s with dir := s.dir.map (k' • ·) } := by
  have one : ∀ o : Option H4, o.map (H4.enlarged 1) = o := fun o => by
    cases o <;> simp [H4.enlarged]
  have hsim : r.Similar 1 k { r with dir := r.dir.map (k • ·) } :=
    ⟨(one _).symm, rfl, rfl, rfl, rfl, rfl, rfl, List.forall₂_same.2 fun a _ => .inl (by simp)⟩
  have em : os.map (Optic.enlarged 1) = os := by
    rw [List.map_congr_left (fun o _ => enlarged_one o)]; exact List.map_id' os
  obtain ⟨h1, h2⟩ := sim_sequence one_pos os (fun o h => (hos o h).1) k hk r _ hr hsim (.inr fun o h => (hos o h).2)
  rw [em] at h1 h2
  refine ⟨h1, fun s hs => ?_⟩
  obtain ⟨s', k', e, hk', -, hss⟩ := h2 s hs
  refine ⟨k', hk', ?_⟩
  rw [e]
  congr 1
  have hcoos : s'.coos = s.coos := by
    have : ∀ l l' : List (ℝ × ℝ), List.Forall₂ (CooEnlarged 1) l l' → l' = l := by
      intro l l' h
      induction h with
      | nil => rfl
      | cons hab _ ih => rcases hab with rfl | rfl <;> simp [ih]
    exact this _ _ hss.coos
  ext1
  · rw [hss.pos, one]
  · exact hss.dir
  · exact hss.pol
  · exact hss.prob
  · exact hss.energy
  · exact hss.order
  · exact hss.blaze
  · exact hcoos

/-- **C160** `Propagator` is the exception: the photon goes `k` times as far. -/
theorem C160_propagator (distance k : ℝ) (r : Ray) (d p : H4) (hd : r.dir = some d) (hp : r.pos = some p) :
    ∃ s, runOptics [.propagate distance] { r with dir := r.dir.map (k • ·) } = .ok s ∧
      s.pos = some (p + (k * distance) • d) := by
  refine ⟨_, rfl, ?_⟩
  simp only [hd, hp, Option.map_some, Option.some.injEq]
  ext <;> simp <;> ring

theorem axisRay_ok : axisRay.WellFormed := by
  refine ⟨fun p hp => ?_, fun p hp => ?_, fun p hp => ?_⟩ <;> cases hp <;> rfl

/-- an instrument that is twice as large -/
example : ∃ s, runOptics ([Optic.filter 1 fun _ => 1 / 2, .propagate 5].map (Optic.enlarged 2))
    { axisRay with pos := some ⟨4, 1, 0, 1⟩ } = .ok s ∧ s.pos = some ⟨-10, 1, 0, 1⟩ ∧ s.dir = some ⟨-1, 0, 0, 0⟩ ∧
      s.prob = some (1 / 2) ∧ s.coos.length = 1 := by
  obtain ⟨s, e, h⟩ := (C159_size (c := 2) two_pos [Optic.filter 1 fun _ => 1 / 2, .propagate 5]
    (by simp [Optic.IsPlaced, Placed, Affine]) axisRay { axisRay with pos := some ⟨4, 1, 0, 1⟩ } axisRay_ok
    ⟨by simp [axisRay, H4.enlarged]; norm_num, by simp [axisRay, one_smul_h4], rfl, rfl, rfl, rfl, rfl, .nil⟩).2 _ axisRay_run
  refine ⟨s, e, ?_, ?_, h.prob, ?_⟩
  · rw [h.pos]; simp [H4.enlarged]; norm_num
  · rw [h.dir]; simp [one_smul_h4]
  · rw [← h.coos.length_eq]; rfl

/-- a direction that is three times as long, through a filter -/
example : (∀ o ∈ [Optic.filter 1 fun _ => (1 / 2 : ℝ)], o.IsPlaced ∧ o.NotPropagator) ∧ axisRay.WellFormed ∧
    ∃ s, runOptics [Optic.filter 1 fun _ => 1 / 2] axisRay = .ok s ∧ s.prob = some (1 / 2) ∧ s.coos = [(1 / 2, 0)] := by
  refine ⟨by simp [Optic.IsPlaced, Placed, Affine, Optic.NotPropagator], axisRay_ok, ?_⟩
  have h := axisRay_run
  simp only [runOptics] at h ⊢
  cases hs : (Optic.filter 1 fun _ => (1 / 2 : ℝ)).step axisRay with
  | error e => rw [hs] at h; cases h
  | ok s =>
    rw [hs] at h
    simp only [Optic.step, Except.ok.injEq] at h
    exact ⟨s, rfl, congrArg Ray.prob h, congrArg Ray.coos h⟩

end Marxs
