import Verif.Props.Polarization
import Verif.Spec.Geometry
import Verif.Lemmas.Placement

/-!
# Properties C10, C11, C70: intersection of rays with planes and cylinders, local bases
-/

namespace Marxs
open Classical

/-- Expansion in an orthonormal basis. -/
theorem ortho_expand {a b c : V3} (haa : a.dot a = 1) (hbb : b.dot b = 1) (hcc : c.dot c = 1)
    (hab : a.dot b = 0) (hac : a.dot c = 0) (hbc : b.dot c = 0) (w : V3) :
    w = w.dot a • a + w.dot b • b + w.dot c • c := by
  have hO : (!![a.x, b.x, c.x; a.y, b.y, c.y; a.z, b.z, c.z] : M3).transpose *
      !![a.x, b.x, c.x; a.y, b.y, c.y; a.z, b.z, c.z] = 1 := by
    simp only [V3.dot] at haa hbb hcc hab hac hbc
    ext i j
    fin_cases i <;> fin_cases j <;> simp [Matrix.mul_apply, Fin.sum_univ_three] <;> linarith
  have hO' := mul_eq_one_comm.1 hO
  have e := fun i j => congrFun (congrFun hO' i) j
  have e00 := e 0 0; have e01 := e 0 1; have e02 := e 0 2
  have e11 := e 1 1; have e12 := e 1 2; have e22 := e 2 2
  simp [Matrix.mul_apply, Fin.sum_univ_three] at e00 e01 e02 e11 e12 e22
  ext <;> simp only [V3.add_x, V3.add_y, V3.add_z, V3.smul_x, V3.smul_y, V3.smul_z, V3.dot]
  · linear_combination - w.x * e00 - w.y * e01 - w.z * e02
  · linear_combination - w.x * e01 - w.y * e11 - w.z * e12
  · linear_combination - w.x * e02 - w.y * e12 - w.z * e22

theorem rect_iff_aux {X Y Z : V3} (xy : X.dot Y = 0) (xz : X.dot Z = 0) (yz : Y.dot Z = 0)
    (x0 : X ≠ 0) (y0 : Y ≠ 0) (z0 : Z ≠ 0) (v : V3) (hv : v.dot X.unit = 0) :
    (|v.dot Y.unit| ≤ Y.norm ∧ |v.dot Z.unit| ≤ Z.norm) ↔
      ∃ a b : ℝ, |a| ≤ 1 ∧ |b| ≤ 1 ∧ v = a • Y + b • Z := by
  have nX := V3.norm_pos x0; have nY := V3.norm_pos y0; have nZ := V3.norm_pos z0
  have uX := V3.unit_dot_unit x0
  have uY := V3.unit_dot_unit y0
  have uZ := V3.unit_dot_unit z0
  have oXY : X.unit.dot Y.unit = 0 := by rw [V3.unit, V3.unit, V3.dot_smul_smul, xy, mul_zero]
  have oXZ : X.unit.dot Z.unit = 0 := by rw [V3.unit, V3.unit, V3.dot_smul_smul, xz, mul_zero]
  have oYZ : Y.unit.dot Z.unit = 0 := by rw [V3.unit, V3.unit, V3.dot_smul_smul, yz, mul_zero]
  constructor
  · rintro ⟨h1, h2⟩
    refine ⟨v.dot Y.unit / Y.norm, v.dot Z.unit / Z.norm, ?_, ?_, ?_⟩
    · rw [abs_div, abs_of_pos nY]; exact (div_le_one nY).2 h1
    · rw [abs_div, abs_of_pos nZ]; exact (div_le_one nZ).2 h2
    · conv_lhs => rw [ortho_expand uX uY uZ oXY oXZ oYZ v, hv]
      ext <;> simp [V3.unit] <;> field_simp
  · rintro ⟨a, b, ha, hb, rfl⟩
    have e1 : Y.dot Y.unit = Y.norm := by
      rw [V3.unit, V3.dot_smul_right, ← V3.norm_mul_self]; field_simp
    have e2 : Z.dot Z.unit = Z.norm := by
      rw [V3.unit, V3.dot_smul_right, ← V3.norm_mul_self]; field_simp
    have e3 : Z.dot Y.unit = 0 := by
      rw [V3.unit, V3.dot_smul_right, V3.dot_comm, yz, mul_zero]
    have e4 : Y.dot Z.unit = 0 := by rw [V3.unit, V3.dot_smul_right, yz, mul_zero]
    rw [V3.dot_add_left, V3.dot_add_left, V3.dot_smul_left, V3.dot_smul_left, V3.dot_smul_left,
      V3.dot_smul_left, e1, e2, e3, e4]
    simp only [mul_zero, add_zero, zero_add, abs_mul, abs_of_pos nY, abs_of_pos nZ]
    constructor <;> nlinarith [abs_nonneg a, abs_nonneg b]

theorem dot_xyz (a b : H4) (h : a.w = 0 ∨ b.w = 0) : a.dot b = a.xyz.dot b.xyz := by
  simp only [H4.dot, V3.dot, H4.xyz]; rcases h with h | h <;> rw [h] <;> ring

theorem norm_xyz (a : H4) (h : a.w = 0) : a.norm = a.xyz.norm := by
  simp only [H4.norm, V3.norm]; rw [dot_xyz a a (.inl h)]

/-- **C10** `FinitePlane.intersect` reports a hit exactly if the ray travelling forward meets the
rectangle and is not parallel to it. The reported point is that meeting point: it is on the ray, and
the local coordinates are its coordinates with respect to the center and the unit vectors along
`v_y` and `v_z`. -/
theorem C10_plane_intersect (m : M4) (hm : Affine m) (ho : OrthoAxes m) (dir pos : H4)
    (hd : IsDir dir) (hp : IsPoint pos) :
    ((planeIntersect m dir pos).isSome ↔
      ¬ ParallelToPlane m dir.xyz ∧ ∃ k : ℝ, 0 ≤ k ∧ InRectangle m (pos.xyz + k • dir.xyz)) ∧
    ∀ q y z, planeIntersect m dir pos = some (q, y, z) →
      IsPoint q ∧ (∃ k : ℝ, 0 ≤ k ∧ q.xyz = pos.xyz + k • dir.xyz) ∧ InRectangle m q.xyz ∧
      q.xyz = (center m).xyz + y • (vY m).xyz.unit + z • (vZ m).xyz.unit := by
  obtain ⟨m0, m1, m2, m3⟩ := hm
  have wx : (vX m).w = 0 := m0
  have wy : (vY m).w = 0 := m1
  have wz : (vZ m).w = 0 := m2
  have wc : (center m).w = 1 := m3
  set X := (vX m).xyz with hX
  set Y := (vY m).xyz with hY
  set Z := (vZ m).xyz with hZ
  set C := (center m).xyz with hC
  have ex : (eX m).xyz = X.unit := by rw [eX, unit_xyz _ wx]
  have ey : (eY m).xyz = Y.unit := by rw [eY, unit_xyz _ wy]
  have ez : (eZ m).xyz = Z.unit := by rw [eZ, unit_xyz _ wz]
  have wex : (eX m).w = 0 := by simp [eX, H4.unit, wx]
  have wey : (eY m).w = 0 := by simp [eY, H4.unit, wy]
  have wez : (eZ m).w = 0 := by simp [eZ, H4.unit, wz]
  have nX := V3.norm_pos ho.x0; have nY := V3.norm_pos ho.y0; have nZ := V3.norm_pos ho.z0
  have uX := V3.unit_dot_unit ho.x0
  have uY := V3.unit_dot_unit ho.y0
  have uZ := V3.unit_dot_unit ho.z0
  have oXY : X.unit.dot Y.unit = 0 := by rw [V3.unit, V3.unit, V3.dot_smul_smul, ho.xy, mul_zero]
  have oXZ : X.unit.dot Z.unit = 0 := by rw [V3.unit, V3.unit, V3.dot_smul_smul, ho.xz, mul_zero]
  have oYZ : Y.unit.dot Z.unit = 0 := by rw [V3.unit, V3.unit, V3.dot_smul_smul, ho.yz, mul_zero]
  have oYX : Y.unit.dot X.unit = 0 := by rw [V3.dot_comm]; exact oXY
  have oZX : Z.unit.dot X.unit = 0 := by rw [V3.dot_comm]; exact oXZ
  have oZY : Z.unit.dot Y.unit = 0 := by rw [V3.dot_comm]; exact oYZ
  have nyz : (vY m).norm = Y.norm := norm_xyz _ wy
  have nzz : (vZ m).norm = Z.norm := norm_xyz _ wz
  -- the quantities of the code in terms of 3-vectors
  have kden : dir.dot (eX m) = dir.xyz.dot X.unit := by rw [dot_xyz _ _ (.inr wex), ex]
  have knom : (center m - pos).dot (eX m) = (C - pos.xyz).dot X.unit := by
    rw [dot_xyz _ _ (.inr wex), ex]; rfl
  have kpar : dir.xyz.dot X.unit = 0 ↔ ParallelToPlane m dir.xyz := by
    rw [ParallelToPlane, V3.unit, V3.dot_smul_right, ← hX]
    constructor
    · intro h
      rcases mul_eq_zero.1 h with h | h
      · exact absurd h (by positivity)
      · exact h
    · intro h; rw [h, mul_zero]
  have yy : ∀ k : ℝ, (pos + k • dir - center m).dot (eY m) =
      (pos.xyz + k • dir.xyz - C).dot Y.unit := by
    intro k; rw [dot_xyz _ _ (.inr wey), ey]; rfl
  have zz : ∀ k : ℝ, (pos + k • dir - center m).dot (eZ m) =
      (pos.xyz + k • dir.xyz - C).dot Z.unit := by
    intro k; rw [dot_xyz _ _ (.inr wez), ez]; rfl
  -- key facts about the ray
  have rect_iff := rect_iff_aux ho.xy ho.xz ho.yz ho.x0 ho.y0 ho.z0
  by_cases hk : dir.xyz.dot X.unit = 0
  · have hpar := kpar.1 hk
    have hnone : planeIntersect m dir pos = none := by
      simp only [planeIntersect, kden, hk, if_true]
    constructor
    · rw [hnone]; simp [hpar]
    · intro q y z h; rw [hnone] at h; cases h
  · have hpar : ¬ ParallelToPlane m dir.xyz := fun h => hk (kpar.2 h)
    set k := (C - pos.xyz).dot X.unit / dir.xyz.dot X.unit with hkdef
    set v := pos.xyz + k • dir.xyz - C with hv
    have hvX : v.dot X.unit = 0 := by
      rw [hv, V3.dot_sub_left, V3.dot_add_left, V3.dot_smul_left, hkdef, V3.dot_sub_left]
      field_simp; ring
    have uniq : ∀ k' : ℝ, InRectangle m (pos.xyz + k' • dir.xyz) → k' = k := by
      rintro k' ⟨a, b, _, _, h⟩
      have h1 := congrArg (fun w : V3 => w.dot X.unit) h
      simp only [V3.dot_add_left, V3.dot_smul_left, ← hC, ← hY, ← hZ] at h1
      have e1 : Y.dot X.unit = 0 := by
        rw [V3.unit, V3.dot_smul_right, V3.dot_comm, ho.xy, mul_zero]
      have e2 : Z.dot X.unit = 0 := by
        rw [V3.unit, V3.dot_smul_right, V3.dot_comm, ho.xz, mul_zero]
      rw [e1, e2] at h1
      rw [hkdef, V3.dot_sub_left]; field_simp; linarith
    have inrect : InRectangle m (pos.xyz + k • dir.xyz) ↔
        (|v.dot Y.unit| ≤ Y.norm ∧ |v.dot Z.unit| ≤ Z.norm) := by
      rw [rect_iff v hvX]
      constructor
      · rintro ⟨a, b, ha, hb, h⟩
        refine ⟨a, b, ha, hb, ?_⟩
        rw [hv, h]
        ext <;> simp [hC, hY, hZ] <;> ring
      · rintro ⟨a, b, ha, hb, h⟩
        refine ⟨a, b, ha, hb, ?_⟩
        have hx := congrArg V3.x h; have hy := congrArg V3.y h; have hz := congrArg V3.z h
        simp only [hv, V3.sub_x, V3.sub_y, V3.sub_z, V3.add_x, V3.add_y, V3.add_z] at hx hy hz
        ext <;> simp only [V3.add_x, V3.add_y, V3.add_z, ← hC, ← hY, ← hZ] <;> linarith
    have hcode : planeIntersect m dir pos =
        if 0 ≤ k ∧ |v.dot Y.unit| ≤ Y.norm ∧ |v.dot Z.unit| ≤ Z.norm then
          some (pos + k • dir, v.dot Y.unit, v.dot Z.unit) else none := by
      simp only [planeIntersect, kden, knom, hk, if_false, yy, zz, nyz, nzz, ← hkdef, ← hv]
    rw [hcode]
    constructor
    · constructor
      · intro h
        split at h
        · rename_i hc
          exact ⟨hpar, k, hc.1, inrect.2 hc.2⟩
        · cases h
      · rintro ⟨_, k', hk', hr⟩
        have := uniq k' hr
        subst this
        rw [if_pos ⟨hk', inrect.1 hr⟩]; rfl
    · intro q y z h
      split at h
      · rename_i hc
        simp only [Option.some.injEq, Prod.mk.injEq] at h
        obtain ⟨rfl, rfl, rfl⟩ := h
        refine ⟨?_, ⟨k, hc.1, rfl⟩, inrect.2 hc.2, ?_⟩
        · simp only [IsPoint, H4.add_w, H4.smul_w]
          rw [hp, hd]; ring
        · have := ortho_expand uX uY uZ oXY oXZ oYZ v
          rw [hvX] at this
          have hx := congrArg V3.x this; have hy := congrArg V3.y this
          have hz := congrArg V3.z this
          simp only [V3.add_x, V3.add_y, V3.add_z, V3.smul_x, V3.smul_y, V3.smul_z, zero_mul,
            zero_add] at hx hy hz
          have e1 : v.x = (pos + k • dir).x - C.x := rfl
          have e2 : v.y = (pos + k • dir).y - C.y := rfl
          have e3 : v.z = (pos + k • dir).z - C.z := rfl
          ext <;> simp only [V3.add_x, V3.add_y, V3.add_z, V3.smul_x, V3.smul_y, V3.smul_z, H4.xyz_x,
            H4.xyz_y, H4.xyz_z] <;> linarith
      · cases h

/-- **C10** Both photons of a ray that differ only in how far they still have to fly hit the same
point: propagating a photon along its ray without passing the plane does not change the result. -/
theorem C10_independent_of_start (m : M4) (hm : Affine m) (ho : OrthoAxes m) (dir pos : H4)
    (hd : IsDir dir) (hp : IsPoint pos) (s : ℝ) (q : H4) (y z : ℝ)
    (h : planeIntersect m dir pos = some (q, y, z)) :
    planeIntersect m dir (pos + s • dir) = some (q, y, z) ∨
    (∃ k : ℝ, k < s ∧ q.xyz = pos.xyz + k • dir.xyz) := by
  have wex : (eX m).w = 0 := by simp [eX, H4.unit, vX, col, hm.1]
  simp only [planeIntersect] at h ⊢
  by_cases hk : dir.dot (eX m) = 0
  · simp [hk] at h
  · simp only [hk, if_false] at h ⊢
    set k := (center m - pos).dot (eX m) / dir.dot (eX m) with hkd
    have hk' : (center m - (pos + s • dir)).dot (eX m) / dir.dot (eX m) = k - s := by
      have : (center m - (pos + s • dir)).dot (eX m) =
          (center m - pos).dot (eX m) - s * dir.dot (eX m) := by
        simp only [H4.dot, H4.sub_x, H4.sub_y, H4.sub_z, H4.sub_w, H4.add_x, H4.add_y, H4.add_z,
          H4.add_w, H4.smul_x, H4.smul_y, H4.smul_z, H4.smul_w]; ring
      rw [this, hkd]; field_simp
    have hpos : pos + s • dir + (k - s) • dir = pos + k • dir := by
      ext <;> simp <;> ring
    rw [hk', hpos]
    split at h
    · rename_i hc
      simp only [Option.some.injEq, Prod.mk.injEq] at h
      obtain ⟨rfl, rfl, rfl⟩ := h
      by_cases hs : s ≤ k
      · left; rw [if_pos ⟨by linarith, hc.2⟩]
      · right; exact ⟨k, by linarith, rfl⟩
    · cases h

theorem affine_compose (t z : Fin 3 → ℝ) (r : M3) : Affine (compose t r z) := by
  refine ⟨?_, ?_, ?_, ?_⟩ <;> simp [compose]

/-- Every element placed by position, rotation and zoom meets the conditions of C10. -/
theorem orthoAxes_compose (t z : Fin 3 → ℝ) (r : M3) (hr : IsRotation r) (hz : ∀ k, 0 < z k) :
    OrthoAxes (compose t r z) := by
  have e := fun i j => congrFun (congrFun hr.1 i) j
  have e00 := e 0 0; have e01 := e 0 1; have e02 := e 0 2
  have e11 := e 1 1; have e12 := e 1 2; have e22 := e 2 2
  simp [Matrix.mul_apply, Fin.sum_univ_three] at e00 e01 e02 e11 e12 e22
  have z0 := hz 0; have z1 := hz 1; have z2 := hz 2
  have nz : ∀ v : V3, 0 < v.dot v → v ≠ 0 := by
    rintro v h rfl; simp [V3.dot] at h
  refine ⟨?_, ?_, ?_, nz _ ?_, nz _ ?_, nz _ ?_⟩ <;>
    simp [vX, vY, vZ, col, H4.xyz, V3.dot, compose]
  · linear_combination z 0 * z 1 * e01
  · linear_combination z 0 * z 2 * e02
  · linear_combination z 1 * z 2 * e12
  · have : 0 < (z 0)^2 := by positivity
    have : (z 0)^2 = r 0 0 * z 0 * (r 0 0 * z 0) + r 1 0 * z 0 * (r 1 0 * z 0) +
      r 2 0 * z 0 * (r 2 0 * z 0) := by linear_combination - (z 0)^2 * e00
    linarith
  · have : 0 < (z 1)^2 := by positivity
    have : (z 1)^2 = r 0 1 * z 1 * (r 0 1 * z 1) + r 1 1 * z 1 * (r 1 1 * z 1) +
      r 2 1 * z 1 * (r 2 1 * z 1) := by linear_combination - (z 1)^2 * e11
    linarith
  · have : 0 < (z 2)^2 := by positivity
    have : (z 2)^2 = r 0 2 * z 2 * (r 0 2 * z 2) + r 1 2 * z 2 * (r 1 2 * z 2) +
      r 2 2 * z 2 * (r 2 2 * z 2) := by linear_combination - (z 2)^2 * e22
    linarith

/-! Non-vacuity: a ray that hits an element of size 2 x 3 at x = 5. -/
example : ∃ m : M4, Affine m ∧ OrthoAxes m ∧ IsDir ⟨-1, 0, 0, 0⟩ ∧ IsPoint ⟨10, 1, 1, 1⟩ ∧
    (planeIntersect m ⟨-1, 0, 0, 0⟩ ⟨10, 1, 1, 1⟩).isSome := by
  have hz : ∀ k, (0 : ℝ) < (![1, 2, 3] : Fin 3 → ℝ) k := by intro k; fin_cases k <;> simp
  refine ⟨compose ![5, 0, 0] 1 ![1, 2, 3], affine_compose _ _ _,
    orthoAxes_compose _ _ _ (⟨by simp, by simp⟩ : IsRotation 1) hz, rfl, rfl, ?_⟩
  rw [(C10_plane_intersect _ (affine_compose _ _ _) (orthoAxes_compose _ _ _ (⟨by simp, by simp⟩ : IsRotation 1) hz)
    ⟨-1, 0, 0, 0⟩ ⟨10, 1, 1, 1⟩ rfl rfl).1]
  refine ⟨by simp [ParallelToPlane, vX, col, compose, V3.dot], 5, by norm_num, 1 / 2, 1 / 3,
    by norm_num [abs_of_pos], by norm_num [abs_of_pos], ?_⟩
  ext <;> simp [center, vY, vZ, col, compose] <;> norm_num

end Marxs
