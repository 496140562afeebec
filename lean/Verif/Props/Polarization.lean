import Verif.Props.MathUtils

/-!
# Properties C17, C18: polarization
-/

namespace Marxs
open Classical Matrix

/-! ## C17 -/

theorem frame_spd (s d : V3) (hs : s.dot s = 1) (hd : d.dot d = 1) (hsd : s.dot d = 0) :
    s.cross (d.cross s) = d ∧ (d.cross s).dot (d.cross s) = 1 ∧ s.dot (d.cross s) = 0 := by
  refine ⟨?_, ?_, V3.dot_cross_right d s⟩
  · simp only [V3.dot] at hs hsd
    ext <;> simp
    · linear_combination d.x * hs - s.x * hsd
    · linear_combination d.y * hs - s.y * hsd
    · linear_combination d.z * hs - s.z * hsd
  · rw [V3.cross_dot_cross, hs, hd, V3.dot_comm, hsd]; ring

/-- The frame built from normal, in-plane vector and direction is a rotation. -/
theorem frame_spd_rotation (s d : V3) (hs : s.dot s = 1) (hd : d.dot d = 1) (hsd : s.dot d = 0) :
    IsRotation !![s.x, (d.cross s).x, d.x; s.y, (d.cross s).y, d.y; s.z, (d.cross s).z, d.z] := by
  obtain ⟨h1, h2, h3⟩ := frame_spd s d hs hd hsd
  have := frame_rotation s (d.cross s) hs h2 h3
  simp only [h1] at this
  exact this

theorem isRotation_mul {a b : M3} (ha : IsRotation a) (hb : IsRotation b) : IsRotation (a * b) := by
  refine ⟨?_, by rw [Matrix.det_mul, ha.2, hb.2, one_mul]⟩
  rw [Matrix.transpose_mul, Matrix.mul_assoc, ← Matrix.mul_assoc aᵀ, ha.1, Matrix.one_mul, hb.1]

theorem isRotation_transpose {a : M3} (ha : IsRotation a) : IsRotation aᵀ := by
  refine ⟨?_, by rw [Matrix.det_transpose, ha.2]⟩
  rw [Matrix.transpose_transpose]
  exact mul_eq_one_comm.1 ha.1

/-- **C17** Two directions that are not parallel (within rounding): the parallel transport matrix is a
proper rotation that turns the old into the new direction and leaves the normal of the plane of the
two directions alone. -/
theorem C17_matrix (d1 d2 : V3) (h1 : d1 ≠ 0) (h2 : d2 ≠ 0)
    (hc : ¬ isclose (d1.unit.cross d2.unit).norm 0) (b : Bool) :
    ∃ m, paralleltransportMatrix d1 d2 1 b = some m ∧ IsRotation m ∧
      mul3 m d1.unit = d2.unit ∧ mul3 m (d1.cross d2) = d1.cross d2 := by
  set u := d1.unit with hu
  set v := d2.unit with hv
  have u1 : u.dot u = 1 := V3.unit_dot_unit h1
  have v1 : v.dot v = 1 := V3.unit_dot_unit h2
  have hs0 : u.cross v ≠ 0 := by
    intro h; apply hc; rw [h]
    have : (0 : V3).norm = 0 := by simp [V3.norm, V3.dot]
    rw [this]; exact isclose_refl _
  set s := (u.cross v).unit with hs
  have s1 : s.dot s = 1 := V3.unit_dot_unit hs0
  have su : s.dot u = 0 := by
    rw [hs, V3.unit, V3.dot_smul_left, V3.dot_comm, V3.dot_cross_left, mul_zero]
  have sv : s.dot v = 0 := by
    rw [hs, V3.unit, V3.dot_smul_left, V3.dot_comm, V3.dot_cross_right, mul_zero]
  have R1 := frame_spd_rotation s u s1 u1 su
  have R2 := frame_spd_rotation s v s1 v1 sv
  set O1 : M3 := !![s.x, (u.cross s).x, u.x; s.y, (u.cross s).y, u.y; s.z, (u.cross s).z, u.z]
    with hO1
  set O2 : M3 := !![s.x, (v.cross s).x, v.x; s.y, (v.cross s).y, v.y; s.z, (v.cross s).z, v.z]
    with hO2
  have hm : paralleltransportMatrix d1 d2 1 b = some (O2 * O1ᵀ) := by
    simp only [paralleltransportMatrix, h1, h2, or_self, if_false, ← hu, ← hv, hc, ← hs]
    congr 2
    have j : (!![(1 : Matrix (Fin 2) (Fin 2) ℝ) 0 0, (1 : Matrix (Fin 2) (Fin 2) ℝ) 0 1, 0;
        (1 : Matrix (Fin 2) (Fin 2) ℝ) 1 0, (1 : Matrix (Fin 2) (Fin 2) ℝ) 1 1, 0; 0, 0, 1] :
        Matrix (Fin 3) (Fin 3) ℝ) = 1 := by
      ext i j; fin_cases i <;> fin_cases j <;> simp
    rw [j, Matrix.one_mul]
    ext i j; fin_cases i <;> fin_cases j <;> simp [hO1]
  have t1 : ∀ w : V3, mul3 O1ᵀ w = ⟨s.dot w, (u.cross s).dot w, u.dot w⟩ := by
    intro w; ext <;> simp [mul3, hO1, V3.dot]
  have t2 : ∀ a b c : ℝ, mul3 O2 ⟨a, b, c⟩ = a • s + b • v.cross s + c • v := by
    intro a b c; ext <;> simp [mul3, hO2] <;> ring
  refine ⟨_, hm, isRotation_mul R2 (isRotation_transpose R1), ?_, ?_⟩
  · have e : (u.cross s).dot u = 0 := by rw [V3.dot_comm, V3.dot_cross_left]
    rw [mul3_mul, t1, t2, su, u1, e]
    ext <;> simp
  · have hss : mul3 (O2 * O1ᵀ) s = s := by
      have e : (u.cross s).dot s = 0 := by rw [V3.dot_comm, V3.dot_cross_right]
      have e2 : u.dot s = 0 := by rw [V3.dot_comm]; exact su
      rw [mul3_mul, t1, t2, s1, e, e2]
      ext <;> simp
    have hk : d1.cross d2 = (d1.norm * d2.norm * (u.cross v).norm) • s := by
      have e1 : d1 = d1.norm • u := (V3.norm_smul_unit h1).symm
      have e2 : d2 = d2.norm • v := (V3.norm_smul_unit h2).symm
      have e3 : u.cross v = (u.cross v).norm • s := (V3.norm_smul_unit hs0).symm
      have e4 : d1.cross d2 = (d1.norm * d2.norm) • u.cross v := by
        generalize hn1 : d1.norm = n1 at *
        generalize hn2 : d2.norm = n2 at *
        rw [e1, e2]; ext <;> simp <;> ring
      rw [e4]
      generalize (u.cross v).norm = k at *
      rw [e3]; ext <;> simp <;> ring
    have lin : ∀ (c : ℝ) (v : V3) (r : M3), mul3 r (c • v) = c • mul3 r v := by
      intro c v r; ext <;> simp [mul3] <;> ring
    rw [hk, lin, hss]

/-- **C17** Polarization before and after an interaction: the length is kept; a vector perpendicular
to the old direction becomes one perpendicular to the new direction. This holds exactly, except if
the two directions are parallel within rounding (sine of the angle below 1e-8): then the
polarization is not changed at all and the error is of the order of that angle. -/
theorem C17_transport (dOld dNew pol : H4) (h1 : dOld.xyz ≠ 0) (h2 : dNew.xyz ≠ 0)
    (hperp : pol.xyz.dot dOld.xyz = 0) :
    ∃ out, parallelTransport dOld dNew pol = some out ∧ out.w = 0 ∧
      out.xyz.dot out.xyz = pol.xyz.dot pol.xyz ∧
      |out.xyz.dot dNew.xyz.unit| ≤ 1 / 10 ^ 8 * pol.xyz.norm ∧
      (¬ isclose (dOld.xyz.unit.cross dNew.xyz.unit).norm 0 → out.xyz.dot dNew.xyz = 0) ∧
      (isclose (dOld.xyz.unit.cross dNew.xyz.unit).norm 0 → out.xyz = pol.xyz) := by
  by_cases hc : isclose (dOld.xyz.unit.cross dNew.xyz.unit).norm 0
  · refine ⟨⟨pol.x, pol.y, pol.z, 0⟩, ?_, rfl, rfl, ?_, fun h => absurd hc h, fun _ => rfl⟩
    · simp only [parallelTransport, paralleltransportMatrix, h1, h2, or_self, if_false, hc, if_true,
        mul3_one]
      rfl
    · set u := dOld.xyz.unit
      set v := dNew.xyz.unit
      have u1 : u.dot u = 1 := V3.unit_dot_unit h1
      have v1 : v.dot v = 1 := V3.unit_dot_unit h2
      have hpu : pol.xyz.dot u = 0 := by simp [u, V3.unit, hperp]
      show |pol.xyz.dot v| ≤ _
      have hn : (u.cross v).norm ≤ 1 / 10 ^ 8 := by
        simp only [isclose, sub_zero, abs_zero, mul_zero, add_zero] at hc
        exact (le_abs_self _).trans hc
      -- component of v perpendicular to u
      set n := v - (u.dot v) • u
      have e1 : pol.xyz.dot v = pol.xyz.dot n := by
        simp only [n]; rw [V3.dot_sub_right, V3.dot_smul_right, hpu]; ring
      have e2 : n.dot n = (u.cross v).dot (u.cross v) := by
        rw [V3.cross_dot_cross, u1, v1]
        simp only [n]
        rw [V3.dot_sub_left, V3.dot_sub_right, V3.dot_sub_right, V3.dot_smul_left,
          V3.dot_smul_right, V3.dot_smul_left, V3.dot_smul_right, u1, v1, V3.dot_comm v u]
        ring
      have e3 := V3.cauchy pol.xyz n
      rw [e2, ← V3.norm_sq, ← V3.norm_sq] at e3
      rw [e1]
      apply abs_le_of_sq_le_sq _ (by have := V3.norm_nonneg pol.xyz; positivity)
      have a1 := V3.norm_nonneg (u.cross v)
      have a2 := V3.norm_nonneg pol.xyz
      calc (pol.xyz.dot n) ^ 2 ≤ pol.xyz.norm ^ 2 * (u.cross v).norm ^ 2 := e3
        _ ≤ pol.xyz.norm ^ 2 * (1 / 10 ^ 8) ^ 2 := by
            apply mul_le_mul_of_nonneg_left _ (sq_nonneg _)
            exact pow_le_pow_left₀ a1 hn 2
        _ = _ := by ring
  · obtain ⟨m, hm, hrot, hdir, _⟩ := C17_matrix _ _ h1 h2 hc true
    set p := mul3 m pol.xyz with hp
    have hz : p.dot dNew.xyz.unit = 0 := by
      rw [← hdir, hp, mul3_dot_of_orthogonal hrot.1]; simp [V3.unit, hperp]
    refine ⟨⟨p.x, p.y, p.z, 0⟩, ?_, rfl, ?_, ?_, fun _ => ?_, fun h => absurd h hc⟩
    · simp only [parallelTransport, hm]; rfl
    · exact mul3_dot_of_orthogonal hrot.1 _ _
    · show |p.dot dNew.xyz.unit| ≤ _
      rw [hz]; have := V3.norm_nonneg pol.xyz; simp; positivity
    · show p.dot dNew.xyz = 0
      rw [← V3.norm_smul_unit h2, V3.dot_smul_right, hz, mul_zero]

/-- **C17** Photons that keep their direction keep their polarization exactly. -/
theorem C17_same_direction (d pol : H4) (h : d.xyz ≠ 0) :
    ∃ out, parallelTransport d d pol = some out ∧ out.xyz = pol.xyz := by
  have hc : isclose (d.xyz.unit.cross d.xyz.unit).norm 0 := by
    have : (d.xyz.unit.cross d.xyz.unit) = 0 := by ext <;> simp <;> ring
    have h0 : (0 : V3).norm = 0 := by simp [V3.norm, V3.dot]
    rw [this, h0]; exact isclose_refl _
  refine ⟨⟨pol.x, pol.y, pol.z, 0⟩, ?_, rfl⟩
  simp only [parallelTransport, paralleltransportMatrix, h, or_self, if_false, hc, if_true, mul3_one]
  rfl

/-- **C17** Going back along the same path restores the polarization. -/
theorem C17_reversible (d1 d2 : V3) (h1 : d1 ≠ 0) (h2 : d2 ≠ 0) (m m' : M3)
    (hm : paralleltransportMatrix d1 d2 1 true = some m)
    (hm' : paralleltransportMatrix d2 d1 1 true = some m') : m' * m = 1 := by
  by_cases hc : isclose (d1.unit.cross d2.unit).norm 0
  · have hn : (d2.unit.cross d1.unit).norm = (d1.unit.cross d2.unit).norm := by
      simp only [V3.norm]; congr 1; simp [V3.dot]; ring
    have hc' : isclose (d2.unit.cross d1.unit).norm 0 := by rw [hn]; exact hc
    simp only [paralleltransportMatrix, h1, h2, or_self, if_false, hc, hc', if_true,
      Option.some.injEq] at hm hm'
    rw [← hm, ← hm', Matrix.one_mul]
  · have hn : (d2.unit.cross d1.unit).norm = (d1.unit.cross d2.unit).norm := by
      simp only [V3.norm]; congr 1; simp [V3.dot]; ring
    have hc' : ¬ isclose (d2.unit.cross d1.unit).norm 0 := by rw [hn]; exact hc
    obtain ⟨n, hn1, hnr, hnd, hns⟩ := C17_matrix d1 d2 h1 h2 hc true
    obtain ⟨n', hn1', hnr', hnd', hns'⟩ := C17_matrix d2 d1 h2 h1 hc' true
    rw [hm] at hn1; rw [hm'] at hn1'
    cases hn1; cases hn1'
    -- m' * m fixes u, s and hence u × s
    set r := m' * m
    have hr : IsRotation r := isRotation_mul hnr' hnr
    set u := d1.unit with hu
    set v := d2.unit with hv
    have u1 : u.dot u = 1 := V3.unit_dot_unit h1
    have v1 : v.dot v = 1 := V3.unit_dot_unit h2
    have lin : ∀ (c : ℝ) (v : V3) (r : M3), mul3 r (c • v) = c • mul3 r v := by
      intro c v r; ext <;> simp [mul3] <;> ring
    have hs0 : d1.cross d2 ≠ 0 := by
      intro h0
      apply hc
      have e : u.cross v = (1 / d1.norm * (1 / d2.norm)) • d1.cross d2 := by
        simp only [hu, hv, V3.unit]; ext <;> simp <;> ring
      have z : u.cross v = 0 := by rw [e, h0]; ext <;> simp
      have h0 : (0 : V3).norm = 0 := by simp [V3.norm, V3.dot]
      rw [z, h0]; exact isclose_refl _
    have f1 : mul3 r u = u := by rw [mul3_mul, hnd, hnd']
    have f2 : mul3 r (d1.cross d2) = d1.cross d2 := by
      have : d2.cross d1 = (-1 : ℝ) • d1.cross d2 := by ext <;> simp <;> ring
      rw [this, lin] at hns'
      have h3 : mul3 m' (d1.cross d2) = d1.cross d2 := by
        have hx := congrArg V3.x hns'; have hy := congrArg V3.y hns'
        have hz := congrArg V3.z hns'
        simp only [V3.smul_x, V3.smul_y, V3.smul_z] at hx hy hz
        ext <;> linarith
      rw [mul3_mul, hns, h3]
    set s := (d1.cross d2).unit with hs
    have s1 : s.dot s = 1 := V3.unit_dot_unit hs0
    have f3 : mul3 r s = s := by rw [hs, V3.unit, lin, f2]
    have su : s.dot u = 0 := by
      rw [hs, V3.unit, V3.dot_smul_left, hu, V3.unit, V3.dot_smul_right, V3.dot_comm,
        V3.dot_cross_left]; ring
    -- rotation preserves the cross product: check by orthogonality
    obtain ⟨c1, c2, c3⟩ := frame_spd s u s1 u1 su
    set p := u.cross s with hp
    have hpu : p.dot u = 0 := by rw [hp, V3.dot_comm, V3.dot_cross_left]
    have hR := frame_spd_rotation s u s1 u1 su
    -- image of p is orthogonal to u, s and has length one; determinant fixes the sign
    set q := mul3 r p with hq
    have q1 : q.dot q = 1 := by rw [hq, mul3_dot_of_orthogonal hr.1]; exact c2
    have qs : q.dot s = 0 := by
      conv_lhs => rw [← f3]
      rw [hq, mul3_dot_of_orthogonal hr.1, V3.dot_comm]; exact c3
    have qu : q.dot u = 0 := by
      conv_lhs => rw [← f1]
      rw [hq, mul3_dot_of_orthogonal hr.1]; exact hpu
    have expand : ∀ w : V3, w = w.dot s • s + w.dot p • p + w.dot u • u := by
      intro w
      have hO := (isRotation_transpose hR).1
      rw [Matrix.transpose_transpose] at hO
      have e := fun i j => congrFun (congrFun hO i) j
      have e00 := e 0 0; have e01 := e 0 1; have e02 := e 0 2
      have e11 := e 1 1; have e12 := e 1 2; have e22 := e 2 2
      simp [Matrix.mul_apply, Fin.sum_univ_three, ← hp] at e00 e01 e02 e11 e12 e22
      ext <;> simp only [V3.add_x, V3.add_y, V3.add_z, V3.smul_x, V3.smul_y, V3.smul_z, V3.dot]
      · linear_combination - w.x * e00 - w.y * e01 - w.z * e02
      · linear_combination - w.x * e01 - w.y * e11 - w.z * e12
      · linear_combination - w.x * e02 - w.y * e12 - w.z * e22
    have hqp : q = q.dot p • p := by
      have := expand q
      rw [qs, qu] at this
      rw [this]
      ext <;> simp [V3.dot_add_left, c2]
    set k := q.dot p with hk
    have det : k = 1 := by
      -- matrix r * O = O' with the column p replaced by k p
      set O : M3 := !![s.x, p.x, u.x; s.y, p.y, u.y; s.z, p.z, u.z] with hO
      have hprod : r * O = !![s.x, k * p.x, u.x; s.y, k * p.y, u.y; s.z, k * p.z, u.z] := by
        have hs' := f3; have hu' := f1; have hp' : mul3 r p = k • p := by rw [← hq]; exact hqp
        have a := congrArg V3.x hs'; have b := congrArg V3.y hs'; have c := congrArg V3.z hs'
        have a' := congrArg V3.x hu'; have b' := congrArg V3.y hu'; have c' := congrArg V3.z hu'
        have a2 := congrArg V3.x hp'; have b2 := congrArg V3.y hp'; have c2 := congrArg V3.z hp'
        simp only [mul3, V3.smul_x, V3.smul_y, V3.smul_z] at a b c a' b' c' a2 b2 c2
        ext i j
        fin_cases i <;> fin_cases j <;>
          simp [hO, Matrix.mul_apply, Fin.sum_univ_three] <;> assumption
      have hd := congrArg Matrix.det hprod
      rw [Matrix.det_mul, hr.2, hR.2, one_mul] at hd
      have hR2 := hR.2
      rw [hO] at hR2
      simp [Matrix.det_fin_three] at hd hR2
      linear_combination -hd - k * hR2
    have f4 : mul3 r p = p := by
      rw [← hq, hqp, det]; ext <;> simp
    have hall : ∀ w, mul3 r w = w := by
      intro w
      have add : ∀ (v w : V3), mul3 r (v + w) = mul3 r v + mul3 r w := by
        intro v w; ext <;> simp [mul3] <;> ring
      conv_lhs => rw [expand w, add, add, lin, lin, lin, f1, f3, f4, ← expand w]
    ext i j
    have hx := hall ⟨1, 0, 0⟩; have hy := hall ⟨0, 1, 0⟩; have hz := hall ⟨0, 0, 1⟩
    simp only [mul3, V3.mk.injEq] at hx hy hz
    obtain ⟨hx0, hx1, hx2⟩ := hx
    obtain ⟨hy0, hy1, hy2⟩ := hy
    obtain ⟨hz0, hz1, hz2⟩ := hz
    fin_cases i <;> fin_cases j <;> simp <;> linarith

/-! Non-vacuity -/
example : (⟨1, 0, 0⟩ : V3) ≠ 0 ∧ (⟨0, 1, 0⟩ : V3) ≠ 0 ∧
    ¬ isclose ((⟨1, 0, 0⟩ : V3).unit.cross (⟨0, 1, 0⟩ : V3).unit).norm 0 := by
  refine ⟨V3.ne_zero_of_unit (by simp [V3.dot]), V3.ne_zero_of_unit (by simp [V3.dot]), ?_⟩
  rw [V3.unit_of_unit (by simp [V3.dot]), V3.unit_of_unit (by simp [V3.dot])]
  have : ((⟨1, 0, 0⟩ : V3).cross ⟨0, 1, 0⟩).norm = 1 := by simp [V3.norm, V3.dot]
  rw [this]; norm_num [isclose]

/-! ## C18 -/

/-- **C18** Polarization vectors are unit vectors perpendicular to the direction of the photon, they
are directions (w = 0), and angle 0 is the vector perpendicular to the photon which is closest to
the +y axis (to the +x axis for photons that fly parallel to the y axis within rounding). -/
theorem C18_polarization (dir : H4) (h : dir.xyz ≠ 0) (angle : ℝ) :
    ∃ p v1 v2 : V3, polarizationVector dir angle = some ⟨p.x, p.y, p.z, 0⟩ ∧
      p.dot p = 1 ∧ p.dot dir.xyz = 0 ∧
      p = Real.cos angle • v1 + Real.sin angle • v2 ∧
      -- v1, v2, direction are a right-handed orthonormal system
      v1.dot v1 = 1 ∧ v1.dot dir.xyz = 0 ∧ v2 = dir.xyz.unit.cross v1 ∧
      -- v1 is as close as possible to the reference axis
      (∀ q : V3, q.dot q = 1 → q.dot dir.xyz = 0 →
        if isclose dir.xyz.unit.x 0 ∧ isclose dir.xyz.unit.z 0 then q.x ≤ v1.x else q.y ≤ v1.y) := by
  set r := dir.xyz.unit with hr
  have r1 : r.dot r = 1 := V3.unit_dot_unit h
  set a : V3 := if isclose r.x 0 ∧ isclose r.z 0 then ⟨1, 0, 0⟩ else ⟨0, 1, 0⟩ with ha
  have a1 : a.dot a = 1 := by rw [ha]; split <;> simp [V3.dot]
  set v := a - (r.dot a) • r with hv
  have hvv : v.dot v = 1 - (r.dot a) ^ 2 := by
    rw [hv, V3.dot_sub_left, V3.dot_sub_right, V3.dot_sub_right, V3.dot_smul_left,
      V3.dot_smul_right, V3.dot_smul_left, V3.dot_smul_right, a1, r1, V3.dot_comm a r]; ring
  have hv0 : v ≠ 0 := by
    intro h0
    have : v.dot v = 0 := V3.dot_self_eq_zero.2 h0
    rw [hvv] at this
    have r1' := r1
    simp only [V3.dot] at r1' this
    by_cases hcase : isclose r.x 0 ∧ isclose r.z 0
    · rw [if_pos hcase] at ha
      rw [ha] at this
      simp at this
      have hx := hcase.1
      simp only [isclose, sub_zero, abs_zero, mul_zero, add_zero] at hx
      have := abs_le.1 hx
      nlinarith
    · rw [if_neg hcase] at ha
      rw [ha] at this
      simp at this
      apply hcase
      have hx : r.x = 0 := by nlinarith [sq_nonneg r.x, sq_nonneg r.z]
      have hz : r.z = 0 := by nlinarith [sq_nonneg r.x, sq_nonneg r.z]
      rw [hx, hz]; exact ⟨isclose_refl _, isclose_refl _⟩
  have hdir : dir.xyz = dir.xyz.norm • r := (V3.norm_smul_unit h).symm
  set v1 := v.unit with hv1
  have v11 : v1.dot v1 = 1 := V3.unit_dot_unit hv0
  have v1r : v1.dot r = 0 := by
    rw [hv1, V3.unit, V3.dot_smul_left, hv, V3.dot_sub_left, V3.dot_smul_left, r1, V3.dot_comm a r]
    ring
  have v22 : (r.cross v1).dot (r.cross v1) = 1 := by
    rw [V3.cross_dot_cross, r1, v11, V3.dot_comm, v1r]; ring
  have v12 : v1.dot (r.cross v1) = 0 := V3.dot_cross_right _ _
  have v2r : (r.cross v1).dot r = 0 := by rw [V3.dot_comm, V3.dot_cross_left]
  refine ⟨Real.cos angle • v1 + Real.sin angle • r.cross v1, v1, r.cross v1, ?_, ?_, ?_, rfl, v11, ?_,
    rfl, ?_⟩
  · have hsel : (if isclose r.x 0 ∧ isclose r.z 0 then (⟨1, 0, 0⟩ : V3) - (r.dot ⟨1, 0, 0⟩) • r
        else ⟨0, 1, 0⟩ - (r.dot ⟨0, 1, 0⟩) • r) = v := by
      rw [hv, ha]; split <;> rfl
    simp only [polarizationVector, h, if_false, ← hr, hsel, ← hv1]
  · rw [V3.dot_add_left, V3.dot_add_right, V3.dot_add_right, V3.dot_smul_smul, V3.dot_smul_smul,
      V3.dot_smul_smul, V3.dot_smul_smul, v11, v22, v12, V3.dot_comm _ v1, v12]
    linear_combination Real.sin_sq_add_cos_sq angle
  · rw [hdir, V3.dot_smul_right, V3.dot_add_left, V3.dot_smul_left, V3.dot_smul_left, v1r, v2r]; ring
  · rw [hdir, V3.dot_smul_right, v1r, mul_zero]
  · intro q q1 q2
    have hn := V3.norm_ne_zero h
    have qr : q.dot r = 0 := by
      rw [hdir, V3.dot_smul_right] at q2
      rcases mul_eq_zero.1 q2 with h' | h'
      · exact absurd h' hn
      · exact h'
    -- q·a = q·v ≤ |v| = v1·a
    have e1 : q.dot a = q.dot v := by
      rw [hv, V3.dot_sub_right, V3.dot_smul_right, qr]; ring
    have e2 : v1.dot a = v.norm := by
      have : v1.dot a = v1.dot v := by
        rw [hv, V3.dot_sub_right, V3.dot_smul_right, v1r]; ring
      rw [this, hv1, V3.unit, V3.dot_smul_left, ← V3.norm_mul_self]
      have := V3.norm_ne_zero hv0
      field_simp
    have e3 : q.dot a ≤ v1.dot a := by
      rw [e1, e2]
      have := V3.cauchy q v
      rw [q1, one_mul, ← V3.norm_sq] at this
      exact (le_abs_self _).trans (abs_le_of_sq_le_sq this (V3.norm_nonneg v))
    rw [ha] at e3
    split <;> rename_i hc
    · rw [if_pos hc] at e3; simpa [V3.dot] using e3
    · rw [if_neg hc] at e3; simpa [V3.dot] using e3

example : (⟨0, 0, -1, 0⟩ : H4).xyz ≠ 0 := V3.ne_zero_of_unit (by simp [V3.dot])

end Marxs
