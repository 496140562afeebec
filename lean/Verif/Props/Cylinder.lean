import Verif.Props.Geometry

/-!
# Properties C11, C70: cylinders and local bases
-/

namespace Marxs
open Classical

/-! ## C11 -/

theorem arctan2_spec {x y : ℝ} (h : x ^ 2 + y ^ 2 = 1) :
    x = Real.cos (arctan2 y x) ∧ y = Real.sin (arctan2 y x) := by
  have hz : (⟨x, y⟩ : ℂ) ≠ 0 := by
    intro h0
    have hx := congrArg Complex.re h0; have hy := congrArg Complex.im h0
    simp at hx hy
    subst hx; subst hy; norm_num at h
  have hn : ‖(⟨x, y⟩ : ℂ)‖ = 1 := by
    rw [← Real.sqrt_one, ← h, Complex.norm_def, Complex.normSq_mk]
    congr 1; ring
  constructor
  · rw [arctan2, Complex.cos_arg hz, hn]; simp
  · rw [arctan2, Complex.sin_arg, hn]; simp

theorem sameAngle_of_cos_sin {a b : ℝ} (hc : Real.cos a = Real.cos b)
    (hs : Real.sin a = Real.sin b) : SameAngle a b := by
  have h : Real.cos (a - b) = 1 := by
    rw [Real.cos_sub, hc, hs]; linarith [Real.sin_sq_add_cos_sq b]
  obtain ⟨k, hk⟩ := (Real.cos_eq_one_iff _).1 h
  exact ⟨k, by linarith⟩

theorem inArc_congr {a a' b1 b2 : ℝ} (h : SameAngle a a') : InArc a b1 b2 ↔ InArc a' b1 b2 := by
  rw [← C12_angle_between, ← C12_angle_between]
  exact C12_full_turns _ _ _ _ _ _ h ⟨0, by simp⟩ ⟨0, by simp⟩

theorem onMantle_iff (l0 l1 : ℝ) (q : V3) :
    OnMantle l0 l1 q ↔ q.x ^ 2 + q.y ^ 2 = 1 ∧ |q.z| ≤ 1 ∧ angleBetween (arctan2 q.y q.x) l0 l1 := by
  constructor
  · rintro ⟨hz, phi, hx, hy, ha⟩
    have h1 : q.x ^ 2 + q.y ^ 2 = 1 := by
      rw [hx, hy]; linarith [Real.sin_sq_add_cos_sq phi]
    refine ⟨h1, hz, ?_⟩
    obtain ⟨e1, e2⟩ := arctan2_spec h1
    rw [C12_angle_between]
    exact (inArc_congr (sameAngle_of_cos_sin (by rw [← e1, hx]) (by rw [← e2, hy]))).2 ha
  · rintro ⟨h1, hz, ha⟩
    obtain ⟨e1, e2⟩ := arctan2_spec h1
    exact ⟨hz, _, e1, e2, (C12_angle_between _ _ _).1 ha⟩

/-- **C11** In the coordinates of the cylinder: for a ray that is not parallel to the axis,
`Cylinder.intersect` reports a hit exactly if the ray travelling forward reaches the mantle within
the limits in phi and z; the point reported is the one reached first, with its phi (the angle of the
point, in (-pi, pi]) and z coordinate. -/
theorem C11_local (l0 l1 : ℝ) (pos dir : V3) (hd : dir.x ^ 2 + dir.y ^ 2 ≠ 0) :
    (∀ t phi z, cylLocal l0 l1 pos dir = some (t, phi, z) →
      FirstHit l0 l1 pos dir t ∧ z = (pos + t • dir).z ∧
      (pos + t • dir).x = Real.cos phi ∧ (pos + t • dir).y = Real.sin phi ∧
      -Real.pi < phi ∧ phi ≤ Real.pi) ∧
    (cylLocal l0 l1 pos dir = none → ∀ t : ℝ, 0 ≤ t → ¬ OnMantle l0 l1 (pos + t • dir)) := by
  set c := pos.x ^ 2 + pos.y ^ 2 - 1 with hc
  set b := 2 * (pos.x * dir.x + pos.y * dir.y) with hb
  set a := dir.x ^ 2 + dir.y ^ 2 with ha
  have apos : 0 < a := lt_of_le_of_ne (by positivity) (Ne.symm hd)
  have circ : ∀ t : ℝ, (pos + t • dir).x ^ 2 + (pos + t • dir).y ^ 2 = 1 ↔
      a * t ^ 2 + b * t + c = 0 := by
    intro t
    simp only [V3.add_x, V3.add_y, V3.smul_x, V3.smul_y, ha, hb, hc]
    constructor <;> intro h <;> linarith
  by_cases hu : 0 ≤ b ^ 2 - 4 * a * c
  · set s := Real.sqrt (b ^ 2 - 4 * a * c) with hs
    have ss : s ^ 2 = b ^ 2 - 4 * a * c := Real.sq_sqrt hu
    have s0 : 0 ≤ s := Real.sqrt_nonneg _
    set a1 := (-b + s) / (2 * a) with h1
    set a2 := (-b - s) / (2 * a) with h2
    have le : a2 ≤ a1 := by
      rw [h1, h2]; apply div_le_div_of_nonneg_right _ (by positivity); linarith
    have roots : ∀ t : ℝ, (pos + t • dir).x ^ 2 + (pos + t • dir).y ^ 2 = 1 ↔ t = a1 ∨ t = a2 := by
      intro t
      rw [circ]
      have e : a * t ^ 2 + b * t + c = a * ((t - a1) * (t - a2)) := by
        rw [h1, h2]; field_simp; linarith
      rw [e]
      constructor
      · intro h
        rcases mul_eq_zero.1 h with h | h
        · exact absurd h hd
        · rcases mul_eq_zero.1 h with h | h
          · left; linarith
          · right; linarith
      · rintro (rfl | rfl) <;> ring
    have code : cylLocal l0 l1 pos dir =
        let hit1 : Prop := 0 ≤ a1 ∧ OnMantle l0 l1 (pos + a1 • dir)
        let hit2 : Prop := 0 ≤ a2 ∧ OnMantle l0 l1 (pos + a2 • dir)
        let hit1' : Prop := hit1 ∧ ¬ (hit2 ∧ a2 < a1)
        let hit2' : Prop := hit2 ∧ ¬ (hit1' ∧ a2 ≥ a1)
        if hit2' then some (a2, arctan2 (pos + a2 • dir).y (pos + a2 • dir).x, (pos + a2 • dir).z)
        else if hit1' then
          some (a1, arctan2 (pos + a1 • dir).y (pos + a1 • dir).x, (pos + a1 • dir).z)
        else none := by
      have m1 := onMantle_iff l0 l1 (pos + a1 • dir)
      have m2 := onMantle_iff l0 l1 (pos + a2 • dir)
      rw [(roots a1).2 (.inl rfl)] at m1
      rw [(roots a2).2 (.inr rfl)] at m2
      simp only [true_and, eq_self_iff_true] at m1 m2
      simp only [cylLocal, ← ha, ← hb, ← hc, hu, not_true, if_false, hd, ← hs, ← h1, ← h2]
      simp only [m1, m2]
      rfl
    rw [code]
    dsimp only
    have angles : ∀ t : ℝ, (t = a1 ∨ t = a2) →
        (pos + t • dir).x = Real.cos (arctan2 (pos + t • dir).y (pos + t • dir).x) ∧
        (pos + t • dir).y = Real.sin (arctan2 (pos + t • dir).y (pos + t • dir).x) ∧
        -Real.pi < arctan2 (pos + t • dir).y (pos + t • dir).x ∧
        arctan2 (pos + t • dir).y (pos + t • dir).x ≤ Real.pi := by
      intro t ht
      obtain ⟨e1, e2⟩ := arctan2_spec ((roots t).2 ht)
      exact ⟨e1, e2, Complex.neg_pi_lt_arg _, Complex.arg_le_pi _⟩
    have only : ∀ t : ℝ, OnMantle l0 l1 (pos + t • dir) → t = a1 ∨ t = a2 := fun t ht =>
      (roots t).1 ((onMantle_iff _ _ _).1 ht).1
    constructor
    · intro t phi z h
      split at h
      · rename_i hh
        simp only [Option.some.injEq, Prod.mk.injEq] at h
        obtain ⟨rfl, rfl, rfl⟩ := h
        refine ⟨⟨hh.1.1, hh.1.2, ?_⟩, rfl, angles _ (.inr rfl)⟩
        intro r _ hr
        rcases only r hr with rfl | rfl
        · exact le
        · exact le_refl _
      · rename_i hh2
        split at h
        · rename_i hh
          simp only [Option.some.injEq, Prod.mk.injEq] at h
          obtain ⟨rfl, rfl, rfl⟩ := h
          refine ⟨⟨hh.1.1, hh.1.2, ?_⟩, rfl, angles _ (.inl rfl)⟩
          intro r hr0 hr
          rcases only r hr with rfl | rfl
          · exact le_refl _
          · by_contra hlt
            push Not at hlt
            exact hh.2 ⟨⟨hr0, hr⟩, hlt⟩
        · cases h
    · intro h t ht hm
      split at h
      · cases h
      · rename_i hh2
        split at h
        · cases h
        · rename_i hh1
          rcases only t hm with rfl | rfl
          · apply hh1
            refine ⟨⟨ht, hm⟩, ?_⟩
            rintro ⟨h2', hlt⟩
            apply hh2
            refine ⟨h2', ?_⟩
            rintro ⟨h1', _⟩
            exact h1'.2 ⟨h2', hlt⟩
          · apply hh2
            refine ⟨⟨ht, hm⟩, ?_⟩
            rintro ⟨h1', _⟩
            exact hh1 h1'
  · constructor
    · intro t phi z h
      simp only [cylLocal, ← ha, ← hb, ← hc, hu, not_false_eq_true, if_true] at h
      cases h
    · intro _ t _ hm
      have := (circ t).1 ((onMantle_iff _ _ _).1 hm).1
      apply hu
      have : b ^ 2 - 4 * a * c = (2 * a * t + b) ^ 2 := by linear_combination -4 * a * this
      rw [this]; positivity

/-- **C11** Rays parallel to the axis never hit. -/
theorem C11_parallel (l0 l1 : ℝ) (pos dir : V3) (hd : dir.x ^ 2 + dir.y ^ 2 = 0) :
    cylLocal l0 l1 pos dir = none := by
  simp [cylLocal, hd]

theorem mul4_mul (m n : M4) (v : H4) : mul4 (m * n) v = mul4 m (mul4 n v) := by
  ext <;> simp [mul4, Matrix.mul_apply, Fin.sum_univ_four] <;> ring

@[simp] theorem mul4_one (v : H4) : mul4 1 v = v := by
  ext <;> simp [mul4]

theorem mul4_add_smul (m : M4) (t : ℝ) (a b : H4) : mul4 m (a + t • b) = mul4 m a + t • mul4 m b := by
  ext <;> simp [mul4] <;> ring

/-- **C11** The same for a cylinder placed anywhere in space with an invertible `pos4d` (any
position, orientation and zoom): in global coordinates, the reported position is the first point of
the forward ray that is on the mantle (seen from the coordinates of the cylinder), and there is no
such point if no hit is reported. -/
theorem C11_global (m : M4) (hm : m.det ≠ 0) (haff : Affine m) (zoomz l0 l1 : ℝ) (dir pos : H4)
    (hd : IsDir dir) (hp : IsPoint pos)
    (hpar : (mul4 m⁻¹ dir).x ^ 2 + (mul4 m⁻¹ dir).y ^ 2 ≠ 0) :
    ∃ res, cylIntersect m zoomz l0 l1 dir pos = .ok res ∧
      (∀ q phi z, res = some (q, phi, z) → ∃ t : ℝ, 0 ≤ t ∧ q = pos + t • dir ∧
        OnMantle l0 l1 (mul4 m⁻¹ q).xyz ∧
        (∀ s : ℝ, 0 ≤ s → OnMantle l0 l1 (mul4 m⁻¹ (pos + s • dir)).xyz → t ≤ s) ∧
        (mul4 m⁻¹ q).xyz = ⟨Real.cos phi, Real.sin phi, (mul4 m⁻¹ q).z⟩ ∧
        z = (mul4 m⁻¹ q).z * zoomz) ∧
      (res = none → ∀ t : ℝ, 0 ≤ t → ¬ OnMantle l0 l1 (mul4 m⁻¹ (pos + t • dir)).xyz) := by
  have hu : IsUnit m.det := isUnit_iff_ne_zero.2 hm
  have inv1 : ∀ v, mul4 m (mul4 m⁻¹ v) = v := fun v => by
    rw [← mul4_mul, Matrix.mul_nonsing_inv m hu, mul4_one]
  have inv2 : ∀ v, mul4 m⁻¹ (mul4 m v) = v := fun v => by
    rw [← mul4_mul, Matrix.nonsing_inv_mul m hu, mul4_one]
  set d := mul4 m⁻¹ dir with hdd
  set p := mul4 m⁻¹ pos with hpp
  have wm : ∀ v, (mul4 m v).w = v.w := by
    intro v; simp [mul4, haff.1, haff.2.1, haff.2.2.1, haff.2.2.2]
  have dw : d.w = 0 := by rw [← wm d, hdd, inv1]; exact hd
  have pw : p.w = 1 := by rw [← wm p, hpp, inv1]; exact hp
  have ray : ∀ t : ℝ, mul4 m⁻¹ (pos + t • dir) = p + t • d := fun t => by
    rw [mul4_add_smul]
  have rayx : ∀ t : ℝ, (mul4 m⁻¹ (pos + t • dir)).xyz = p.xyz + t • d.xyz := fun t => by
    rw [ray]; rfl
  have back : ∀ t : ℝ, mul4 m ⟨(p.xyz + t • d.xyz).x, (p.xyz + t • d.xyz).y,
      (p.xyz + t • d.xyz).z, 1⟩ = pos + t • dir := by
    intro t
    have : (⟨(p.xyz + t • d.xyz).x, (p.xyz + t • d.xyz).y, (p.xyz + t • d.xyz).z, 1⟩ : H4) =
        p + t • d := by
      ext <;> simp [pw, dw]
    rw [this, ← ray, inv1]
  obtain ⟨L1, L2⟩ := C11_local l0 l1 p.xyz d.xyz hpar
  have hd' : ¬ dir.w ≠ 0 := not_not.2 hd
  cases hc : cylLocal l0 l1 p.xyz d.xyz with
  | none =>
    refine ⟨none, ?_, ?_, ?_⟩
    · simp only [cylIntersect, hd', if_false, hm, ← hdd, ← hpp, hc]
    · intro q phi z h; cases h
    · intro _ t ht
      rw [rayx]; exact L2 hc t ht
  | some r =>
    obtain ⟨t, phi, z⟩ := r
    obtain ⟨⟨f1, f2, f3⟩, g1, g2, g3, _⟩ := L1 t phi z hc
    refine ⟨some (pos + t • dir, phi, z * zoomz), ?_, ?_, ?_⟩
    · simp only [cylIntersect, hd', if_false, hm, ← hdd, ← hpp, hc, back]
    · intro q phi' z' h
      simp only [Option.some.injEq, Prod.mk.injEq] at h
      obtain ⟨rfl, rfl, rfl⟩ := h
      have hz : (mul4 m⁻¹ (pos + t • dir)).z = z := by
        have := congrArg V3.z (rayx t); simp only [H4.xyz_z] at this; rw [this, g1]
      refine ⟨t, f1, rfl, by rw [rayx]; exact f2, ?_, ?_, by rw [hz]⟩
      · intro s hs hs'; rw [rayx] at hs'; exact f3 s hs hs'
      · rw [rayx, hz, g1, ← g2, ← g3]
    · intro h; cases h

/-- **C11** Input whose direction is not a direction is refused. -/
theorem C11_bad_direction (m : M4) (zoomz l0 l1 : ℝ) (dir pos : H4) (h : dir.w ≠ 0) :
    cylIntersect m zoomz l0 l1 dir pos = .error .valueError := by
  simp [cylIntersect, h]

/-- **C11** The drawn surface is the surface that rays hit: `parametric_surface` gives points of the
mantle, for every angle inside the limits and every z of the cylinder. -/
theorem C11_surface (m : M4) (hm : m.det ≠ 0) (zoomz l0 l1 phi z : ℝ) (hz : 0 < zoomz)
    (h1 : InArc phi l0 l1) (h2 : |z| ≤ zoomz) :
    OnMantle l0 l1 (mul4 m⁻¹ (cylSurface m zoomz phi z)).xyz := by
  have hu : IsUnit m.det := isUnit_iff_ne_zero.2 hm
  rw [cylSurface, ← mul4_mul, Matrix.nonsing_inv_mul m hu, mul4_one]
  refine ⟨?_, phi, rfl, rfl, h1⟩
  show |z / zoomz| ≤ 1
  rw [abs_div, abs_of_pos hz]; exact (div_le_one hz).2 h2

/-! Non-vacuity: a photon inside a full cylinder flying to the wall. -/
example : FirstHit (-Real.pi) Real.pi ⟨0, 0, 0⟩ ⟨0, 1, 0⟩ 1 := by
  have full : ∀ x : ℝ, InArc x (-Real.pi) Real.pi := fun x => by
    rw [← C12_angle_between]; exact C12_equal_borders _ _ _ ⟨-1, by push_cast; ring⟩
  refine ⟨by norm_num, ⟨by simp, Real.pi / 2, by simp, by simp, full _⟩, ?_⟩
  rintro s hs ⟨_, phi, h1, h2, _⟩
  simp at h1 h2
  have := Real.sin_sq_add_cos_sq phi
  rw [← h1, ← h2] at this
  nlinarith

/-! ## C70: local bases -/

/-- **C70** The local base of a plane is orthonormal, and the third vector is normal to the plane. -/
theorem C70_plane_bases (m : M4) (hm : Affine m) (ho : OrthoAxes m) :
    let (a, b, n) := planeBases m
    a.dot a = 1 ∧ b.dot b = 1 ∧ n.dot n = 1 ∧ a.dot b = 0 ∧ a.dot n = 0 ∧ b.dot n = 0 ∧
    a.w = 0 ∧ b.w = 0 ∧ n.w = 0 := by
  have wx : (vX m).w = 0 := hm.1
  have wy : (vY m).w = 0 := hm.2.1
  have wz : (vZ m).w = 0 := hm.2.2.1
  have wex : (eX m).w = 0 := by simp [eX, H4.unit, wx]
  have wey : (eY m).w = 0 := by simp [eY, H4.unit, wy]
  have wez : (eZ m).w = 0 := by simp [eZ, H4.unit, wz]
  simp only [planeBases]
  rw [dot_xyz _ _ (.inl wey), dot_xyz _ _ (.inl wez), dot_xyz _ _ (.inl wex), dot_xyz _ _ (.inl wey),
    dot_xyz _ _ (.inl wey), dot_xyz _ _ (.inl wez), eX, eY, eZ, unit_xyz _ wx, unit_xyz _ wy,
    unit_xyz _ wz]
  refine ⟨V3.unit_dot_unit ho.y0, V3.unit_dot_unit ho.z0, V3.unit_dot_unit ho.x0, ?_, ?_, ?_, wey,
    wez, wex⟩
  · rw [V3.unit, V3.unit, V3.dot_smul_smul, ho.yz, mul_zero]
  · rw [V3.unit, V3.unit, V3.dot_smul_smul, V3.dot_comm, ho.xy, mul_zero]
  · rw [V3.unit, V3.unit, V3.dot_smul_smul, V3.dot_comm, ho.xz, mul_zero]

/-- **C70** The local base of a circular cylinder is orthonormal: tangent in the direction of
increasing phi, axis, and outward normal. -/
theorem C70_cylinder_bases (m : M4) (hm : Affine m) (ho : OrthoAxes m)
    (hcirc : (vX m).xyz.dot (vX m).xyz = (vY m).xyz.dot (vY m).xyz) (phi : ℝ) :
    let (a, b, n) := cylBases m phi
    a.dot a = 1 ∧ b.dot b = 1 ∧ n.dot n = 1 ∧ a.dot b = 0 ∧ a.dot n = 0 ∧ b.dot n = 0 ∧
    a.w = 0 ∧ b.w = 0 ∧ n.w = 0 := by
  obtain ⟨w0, w1, w2, w3⟩ := hm
  have wz : (vZ m).w = 0 := w2
  have hs := Real.sin_sq_add_cos_sq phi
  simp only [cylBases]
  set s := Real.sin phi
  set c := Real.cos phi
  set A := mul4 m ⟨-s, c, 0, 0⟩ with hA
  set N := mul4 m ⟨c, s, 0, 0⟩ with hN
  have wA : A.w = 0 := by simp [hA, mul4, w0, w1]
  have wN : N.w = 0 := by simp [hN, mul4, w0, w1]
  have wuA : A.unit.w = 0 := by simp [H4.unit, wA]
  have wuN : N.unit.w = 0 := by simp [H4.unit, wN]
  have wez : (eZ m).w = 0 := by simp [eZ, H4.unit, wz]
  have xA : A.xyz = (-s) • (vX m).xyz + c • (vY m).xyz := by
    ext <;> simp [hA, mul4, vX, vY, col] <;> ring
  have xN : N.xyz = c • (vX m).xyz + s • (vY m).xyz := by
    ext <;> simp [hN, mul4, vX, vY, col] <;> ring
  have dAA : A.xyz.dot A.xyz = (vX m).xyz.dot (vX m).xyz := by
    rw [xA, V3.dot_add_left, V3.dot_add_right, V3.dot_add_right, V3.dot_smul_smul, V3.dot_smul_smul,
      V3.dot_smul_smul, V3.dot_smul_smul, V3.dot_comm (vY m).xyz, ho.xy]
    linear_combination (vX m).xyz.dot (vX m).xyz * hs - c ^ 2 * hcirc
  have dNN : N.xyz.dot N.xyz = (vX m).xyz.dot (vX m).xyz := by
    rw [xN, V3.dot_add_left, V3.dot_add_right, V3.dot_add_right, V3.dot_smul_smul, V3.dot_smul_smul,
      V3.dot_smul_smul, V3.dot_smul_smul, V3.dot_comm (vY m).xyz, ho.xy]
    linear_combination (vX m).xyz.dot (vX m).xyz * hs - s ^ 2 * hcirc
  have dAN : A.xyz.dot N.xyz = 0 := by
    rw [xA, xN, V3.dot_add_left, V3.dot_add_right, V3.dot_add_right, V3.dot_smul_smul,
      V3.dot_smul_smul, V3.dot_smul_smul, V3.dot_smul_smul, V3.dot_comm (vY m).xyz, ho.xy]
    linear_combination - s * c * hcirc
  have dAZ : A.xyz.dot (vZ m).xyz = 0 := by
    rw [xA, V3.dot_add_left, V3.dot_smul_left, V3.dot_smul_left, ho.xz, ho.yz]; ring
  have dNZ : N.xyz.dot (vZ m).xyz = 0 := by
    rw [xN, V3.dot_add_left, V3.dot_smul_left, V3.dot_smul_left, ho.xz, ho.yz]; ring
  have pX := V3.dot_self_pos ho.x0
  have A0 : A.xyz ≠ 0 := by
    intro h; rw [h] at dAA; rw [← dAA] at pX; simp [V3.dot] at pX
  have N0 : N.xyz ≠ 0 := by
    intro h; rw [h] at dNN; rw [← dNN] at pX; simp [V3.dot] at pX
  rw [dot_xyz _ _ (.inl wuA), dot_xyz _ _ (.inl wez), dot_xyz _ _ (.inl wuN), dot_xyz _ _ (.inl wuA),
    dot_xyz _ _ (.inl wuA), dot_xyz _ _ (.inl wez), eZ, unit_xyz _ wA, unit_xyz _ wN, unit_xyz _ wz]
  refine ⟨V3.unit_dot_unit A0, V3.unit_dot_unit ho.z0, V3.unit_dot_unit N0, ?_, ?_, ?_, wuA, wez,
    wuN⟩
  · rw [V3.unit, V3.unit, V3.dot_smul_smul, dAZ, mul_zero]
  · rw [V3.unit, V3.unit, V3.dot_smul_smul, dAN, mul_zero]
  · rw [V3.unit, V3.unit, V3.dot_smul_smul, V3.dot_comm, dNZ, mul_zero]

/-- **C70** (limit of the claim) For an elliptical tube the tangent and the "normal" returned are not
perpendicular to each other. -/
theorem C70_elliptical_not_orthogonal :
    ∃ m : M4, Affine m ∧ OrthoAxes m ∧ ∃ phi, (cylBases m phi).1.dot (cylBases m phi).2.2 ≠ 0 := by
  have hz : ∀ k, (0 : ℝ) < (![1, 2, 1] : Fin 3 → ℝ) k := by intro k; fin_cases k <;> simp
  refine ⟨compose 0 1 ![1, 2, 1], affine_compose _ _ _,
    orthoAxes_compose _ _ _ ⟨by simp, by simp⟩ hz, Real.pi / 4, ?_⟩
  simp only [cylBases, Real.sin_pi_div_four, Real.cos_pi_div_four]
  set r := Real.sqrt 2 / 2 with hr
  have r2 : r ^ 2 = 1 / 2 := by
    rw [hr, div_pow, Real.sq_sqrt (by norm_num)]; norm_num
  set A := mul4 (compose 0 1 ![1, 2, 1]) ⟨-r, r, 0, 0⟩ with hA
  set N := mul4 (compose 0 1 ![1, 2, 1]) ⟨r, r, 0, 0⟩ with hN
  have eA : A = ⟨-r, r * 2, 0, 0⟩ := by
    ext <;> simp [hA, mul4, compose]; ring
  have eN : N = ⟨r, r * 2, 0, 0⟩ := by
    ext <;> simp [hN, mul4, compose]; ring
  have nA : A.norm ≠ 0 := by
    rw [eA, H4.norm]; apply (Real.sqrt_pos.2 _).ne'; simp only [H4.dot]; nlinarith
  have nN : N.norm ≠ 0 := by
    rw [eN, H4.norm]; apply (Real.sqrt_pos.2 _).ne'; simp only [H4.dot]; nlinarith
  have : A.unit.dot N.unit = 1 / A.norm * (1 / N.norm) * A.dot N := by
    simp only [H4.unit, H4.dot, H4.smul_x, H4.smul_y, H4.smul_z, H4.smul_w]; ring
  rw [this]
  refine mul_ne_zero (mul_ne_zero (one_div_ne_zero nA) (one_div_ne_zero nN)) ?_
  rw [eA, eN]; simp only [H4.dot]; nlinarith

example : ∃ m : M4, Affine m ∧ OrthoAxes m ∧ (vX m).xyz.dot (vX m).xyz = (vY m).xyz.dot (vY m).xyz := by
  have hz : ∀ k, (0 : ℝ) < (![3, 3, 1] : Fin 3 → ℝ) k := by intro k; fin_cases k <;> simp
  exact ⟨compose 0 1 ![3, 3, 1], affine_compose _ _ _,
    orthoAxes_compose _ _ _ ⟨by simp, by simp⟩ hz, by simp [vX, vY, col, compose, V3.dot]⟩

end Marxs
