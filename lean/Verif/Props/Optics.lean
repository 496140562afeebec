import Mathlib.Tactic.NormNum
import Verif.Model.Optics
import Verif.Props.Grating

/-!
# Properties C21-C23, C71: lenses, scattering, mirrors, polarization of sky sources
-/

namespace Marxs

/-! Rotations -/

/-- Rodrigues' formula -/
theorem rodrigues (a v : V3) (t : ℝ) : mul3 (rotMat a t) v =
    Real.cos t • v + Real.sin t • a.cross v + ((1 - Real.cos t) * a.dot v) • a := by
  ext <;> simp [mul3, rotMat, V3.dot] <;> ring

theorem rotMat_transpose (a : V3) (t : ℝ) : (rotMat a t).transpose = rotMat a (-t) := by
  ext i j
  fin_cases i <;> fin_cases j <;> simp [rotMat] <;> ring

theorem rotation_dot {r : M3} (h : IsRotation r) (v w : V3) : (mul3 r v).dot (mul3 r w) = v.dot w :=
  mul3_dot_of_orthogonal h.1 v w

theorem turn_spec {axis v w : V3} {t : ℝ} (h : turn axis t v = some w) :
    axis ≠ 0 ∧ w = mul3 (rotMat axis.unit (-t)) v ∧ IsRotation (rotMat axis.unit (-t)) := by
  simp only [turn] at h
  split at h
  · cases h
  · rename_i ha
    simp only [Option.some.injEq] at h
    rw [rotMat_transpose] at h
    exact ⟨ha, h.symm, (C16_axangle_rotation _ (V3.unit_dot_unit ha) _).1⟩

theorem turn_some {axis : V3} (h : axis ≠ 0) (t : ℝ) (v : V3) : ∃ w, turn axis t v = some w := by
  simp [turn, h]

theorem turn_length {axis v w : V3} {t : ℝ} (h : turn axis t v = some w) : w.dot w = v.dot v := by
  obtain ⟨_, rfl, hr⟩ := turn_spec h
  exact rotation_dot hr v v

theorem turn_axis {axis v w : V3} {t : ℝ} (h : turn axis t v = some w) : w.dot axis = v.dot axis := by
  obtain ⟨ha, rfl, hr⟩ := turn_spec h
  have fix := (C16_axangle_rotation _ (V3.unit_dot_unit ha) (-t)).2
  have h1 := rotation_dot hr v axis.unit
  rw [fix] at h1
  have e : axis = axis.norm • axis.unit := (V3.norm_smul_unit ha).symm
  generalize mul3 (rotMat axis.unit (-t)) v = q at h1
  rw [e, V3.dot_smul_right, V3.dot_smul_right, h1]

/-- turning a vector about a perpendicular axis by `t` changes its direction by exactly `t` -/
theorem turn_angle {axis v w : V3} {t : ℝ} (h : turn axis t v = some w) (hp : v.dot axis = 0) :
    v.dot w = Real.cos t * v.dot v := by
  obtain ⟨ha, rfl, _⟩ := turn_spec h
  have hu : axis.unit.dot v = 0 := by
    rw [V3.unit, V3.dot_smul_left, V3.dot_comm, hp, mul_zero]
  rw [rodrigues, V3.dot_add_right, V3.dot_add_right, V3.dot_smul_right, V3.dot_smul_right,
    V3.dot_smul_right, V3.dot_cross_right, hu, Real.cos_neg]
  ring

/-- general axis: the components perpendicular to the axis differ by the angle `t` -/
theorem turn_angle_general {axis v w : V3} {t : ℝ} (h : turn axis t v = some w) :
    v.dot w - (v.dot axis.unit) ^ 2 = Real.cos t * (v.dot v - (v.dot axis.unit) ^ 2) := by
  obtain ⟨_, rfl, _⟩ := turn_spec h
  rw [rodrigues, V3.dot_add_right, V3.dot_add_right, V3.dot_smul_right, V3.dot_smul_right,
    V3.dot_smul_right, V3.dot_cross_right, Real.cos_neg, V3.dot_comm axis.unit v]
  ring

@[simp] theorem V3.toDir_xyz (v : V3) : v.toDir.xyz = v := rfl
@[simp] theorem V3.toDir_w (v : V3) : v.toDir.w = 0 := rfl
@[simp] theorem V3.toPoint_xyz (v : V3) : v.toPoint.xyz = v := rfl

/-! ## C21 -/

/-- **C21** `PerfectLens`: every photon leaves in unit direction and flies through the focal point of
its direction of incidence: that point depends only on the direction in which the photon arrives, not
on the place where it hits the lens, and lies at the distance of the focal length from the optical
axis point of the lens, along the incoming direction. -/
theorem C21_perfect_lens (m : M4) (f dOpt : ℝ) (refl : ℝ → ℝ → ℝ) (dir : H4) (h0 : dir.xyz ≠ 0)
    (hf : 0 ≤ f) :
    ∃ F : V3, (F - (center m - dOpt • eZ m).xyz).norm = f ∧
      F - (center m - dOpt • eZ m).xyz = f • dir.xyz.unit ∧
      ∀ (interpos pol : H4) (energy : ℝ), interpos.xyz ≠ F →
        ∃ out, perfectLens m f dOpt refl dir pol interpos energy = some out ∧ IsDir out.dir ∧
          out.dir.xyz.dot out.dir.xyz = 1 ∧
          ∃ t : ℝ, 0 < t ∧ interpos.xyz + t • out.dir.xyz = F := by
  have u1 := V3.unit_dot_unit h0
  have hF : focusPoint m f dOpt dir.xyz - (center m - dOpt • eZ m).xyz = f • dir.xyz.unit := by
    ext <;> simp [focusPoint]
  refine ⟨focusPoint m f dOpt dir.xyz, ?_, hF, ?_⟩
  · rw [hF, V3.norm, V3.dot_smul_smul, u1, mul_one]
    exact Real.sqrt_mul_self hf
  · intro interpos pol energy hne
    have hv : focusPoint m f dOpt dir.xyz - interpos.xyz ≠ 0 := by
      intro h
      apply hne
      have hx := congrArg V3.x h; have hy := congrArg V3.y h; have hz := congrArg V3.z h
      simp only [V3.sub_x, V3.sub_y, V3.sub_z, V3.zero_x, V3.zero_y, V3.zero_z] at hx hy hz
      ext <;> linarith
    refine ⟨_, by rw [perfectLens, if_neg h0]; dsimp only; rw [if_neg hv], ?_, ?_, ?_⟩
    · rfl
    · exact V3.unit_dot_unit hv
    · refine ⟨(focusPoint m f dOpt dir.xyz - interpos.xyz).norm, V3.norm_pos hv, ?_⟩
      show interpos.xyz + (focusPoint m f dOpt dir.xyz - interpos.xyz).norm •
        (focusPoint m f dOpt dir.xyz - interpos.xyz).unit = _
      rw [V3.norm_smul_unit hv]
      ext <;> simp

/-- **C21** The probability is the reflectivity of two reflections, each at a quarter of the angle `a`
between the lines of the incoming and the outgoing ray (between 0 and pi/2); it is in [0, 1] if the
reflectivity is. -/
theorem C21_reflectivity (m : M4) (f dOpt : ℝ) (refl : ℝ → ℝ → ℝ)
    (hr : ∀ e a, 0 ≤ a → a ≤ Real.pi / 8 → 0 ≤ refl e a ∧ refl e a ≤ 1)
    (dir pol interpos : H4) (energy : ℝ) (out : LensOut)
    (h : perfectLens m f dOpt refl dir pol interpos energy = some out) :
    (∃ a : ℝ, 0 ≤ a ∧ a ≤ Real.pi / 2 ∧ Real.cos a = |out.dir.xyz.dot dir.xyz.unit| ∧
      out.prob = refl energy (a / 4) * refl energy (a / 4)) ∧
    0 ≤ out.prob ∧ out.prob ≤ 1 := by
  simp only [perfectLens] at h
  split at h
  · cases h
  rename_i h0
  split at h
  · cases h
  rename_i hv
  simp only [Option.some.injEq] at h
  subst h
  obtain ⟨r0, r1⟩ := hr energy (Real.arccos |(focusPoint m f dOpt dir.xyz - interpos.xyz).unit.dot
    dir.xyz.unit| / 4) (div_nonneg (Real.arccos_nonneg _) (by norm_num)) (by
      have : Real.arccos |(focusPoint m f dOpt dir.xyz - interpos.xyz).unit.dot dir.xyz.unit| ≤
        Real.pi / 2 := Real.arccos_le_pi_div_two.2 (abs_nonneg _)
      linarith)
  have c := V3.cauchy (focusPoint m f dOpt dir.xyz - interpos.xyz).unit dir.xyz.unit
  rw [V3.unit_dot_unit hv, V3.unit_dot_unit h0] at c
  have c' : |(focusPoint m f dOpt dir.xyz - interpos.xyz).unit.dot dir.xyz.unit| ≤ 1 := by
    apply (sq_le_one_iff_abs_le_one _).1; linarith
  exact ⟨⟨_, Real.arccos_nonneg _, Real.arccos_le_pi_div_two.2 (abs_nonneg _),
    Real.cos_arccos (le_trans (by norm_num) (abs_nonneg _)) c', sq _⟩,
    by positivity, pow_le_one₀ r0 r1⟩

/-- **C21** A photon through the optical axis point of the lens is not deflected. -/
theorem C21_central_ray (m : M4) (f dOpt : ℝ) (hf : 0 < f) (refl : ℝ → ℝ → ℝ) (dir pol interpos : H4)
    (h0 : dir.xyz ≠ 0) (energy : ℝ) (hc : interpos.xyz = (center m - dOpt • eZ m).xyz) :
    ∃ out, perfectLens m f dOpt refl dir pol interpos energy = some out ∧
      out.dir.xyz = dir.xyz.unit := by
  have u1 := V3.unit_dot_unit h0
  have hF : focusPoint m f dOpt dir.xyz - interpos.xyz = f • dir.xyz.unit := by
    rw [hc]; ext <;> simp [focusPoint]
  have hn : (f • dir.xyz.unit).norm = f := by
    rw [V3.norm, V3.dot_smul_smul, u1, mul_one]; exact Real.sqrt_mul_self hf.le
  have hv : f • dir.xyz.unit ≠ 0 := by
    intro h; rw [h] at hn; simp [V3.norm, V3.dot] at hn; linarith
  refine ⟨_, by rw [perfectLens, if_neg h0]; dsimp only; rw [hF, if_neg hv], ?_⟩
  show (f • dir.xyz.unit).unit = _
  rw [V3.unit, hn]
  ext <;> simp <;> field_simp

/-- **C21** Polarization after the lens: same length, transverse. -/
theorem C21_polarization (m : M4) (f dOpt : ℝ) (refl : ℝ → ℝ → ℝ) (dir pol interpos : H4)
    (energy : ℝ) (hperp : pol.xyz.dot dir.xyz = 0) (out : LensOut)
    (h : perfectLens m f dOpt refl dir pol interpos energy = some out) :
    ∃ p, out.pol = some p ∧ IsDir p ∧ p.xyz.dot p.xyz = pol.xyz.dot pol.xyz ∧
      |p.xyz.dot out.dir.xyz| ≤ 1 / 10 ^ 8 * pol.xyz.norm := by
  simp only [perfectLens] at h
  split at h
  · cases h
  rename_i h0
  split at h
  · cases h
  rename_i hv
  simp only [Option.some.injEq] at h
  subst h
  have u1 := V3.unit_dot_unit hv
  obtain ⟨o, o1, o2, o3, o4, _⟩ := C17_transport dir
    (focusPoint m f dOpt dir.xyz - interpos.xyz).unit.toDir pol h0
    (V3.ne_zero_of_unit (a := (focusPoint m f dOpt dir.xyz - interpos.xyz).unit) u1) hperp
  rw [V3.toDir_xyz, V3.unit_of_unit u1] at o4
  exact ⟨o, o1, o2, o3, o4⟩

/-- **C21** `ThinLens`: direction and polarization are turned together (lengths and the angle between
them are kept); a ray through the center is unchanged; every other ray is deflected by exactly
distance / focal length, in the plane of the ray and the center, towards the center. -/
theorem C21_thin_lens (m : M4) (f : ℝ) (dir pol interpos : H4) (d' p' : H4)
    (h : thinLens m f dir pol interpos = some (d', p')) :
    IsDir d' ∧ d'.xyz.dot d'.xyz = dir.xyz.dot dir.xyz ∧ p'.xyz.dot p'.xyz = pol.xyz.dot pol.xyz ∧
    p'.xyz.dot d'.xyz = pol.xyz.dot dir.xyz ∧
    dir.xyz.dot d'.xyz = dir.xyz.dot dir.xyz * Real.cos ((interpos.xyz - (center m).xyz).norm / f) ∧
    d'.xyz.dot (dir.xyz.cross (interpos.xyz - (center m).xyz)) = 0 ∧
    (interpos.xyz = (center m).xyz → d'.xyz = dir.xyz ∧ p' = pol) ∧
    (0 < (interpos.xyz - (center m).xyz).norm / f → (interpos.xyz - (center m).xyz).norm / f < Real.pi →
      d'.xyz.dot (interpos.xyz - (center m).xyz) <
        Real.cos ((interpos.xyz - (center m).xyz).norm / f) *
          dir.xyz.dot (interpos.xyz - (center m).xyz)) := by
  have hxyz : (interpos - center m).xyz = interpos.xyz - (center m).xyz := rfl
  set r := interpos.xyz - (center m).xyz with hr
  simp only [thinLens, hxyz, ← hr] at h
  split at h
  · rename_i h0
    simp only [Option.some.injEq, Prod.mk.injEq] at h
    obtain ⟨rfl, rfl⟩ := h
    have hr0 : r = 0 := by
      by_contra hne
      exact V3.norm_ne_zero hne h0
    refine ⟨rfl, rfl, rfl, rfl, ?_, ?_, fun _ => ⟨rfl, rfl⟩, ?_⟩
    · rw [h0]; simp
    · rw [V3.toDir_xyz, V3.dot_cross_left]
    · rw [h0]; simp
  · rename_i h0
    split at h
    · cases h
    rename_i ha
    simp only [Option.some.injEq, Prod.mk.injEq] at h
    obtain ⟨rfl, rfl⟩ := h
    set a := dir.xyz.cross r with hadef
    have hu := V3.unit_dot_unit ha
    have hrot := (C16_axangle_rotation a.unit hu (-r.norm / f)).1
    have fix := (C16_axangle_rotation a.unit hu (-r.norm / f)).2
    have had : a.unit.dot dir.xyz = 0 := by
      rw [V3.unit, V3.dot_smul_left, V3.dot_comm, hadef, V3.dot_cross_left, mul_zero]
    have neg : -r.norm / f = -(r.norm / f) := by ring
    have form : mul3 (rotMat a.unit (-r.norm / f)) dir.xyz =
        Real.cos (r.norm / f) • dir.xyz + (-Real.sin (r.norm / f)) • a.unit.cross dir.xyz := by
      rw [rodrigues, had, neg, Real.cos_neg, Real.sin_neg]
      ext <;> simp
    refine ⟨rfl, rotation_dot hrot _ _, rotation_dot hrot _ _, rotation_dot hrot _ _, ?_, ?_, ?_, ?_⟩
    · rw [V3.toDir_xyz, form, V3.dot_add_right, V3.dot_smul_right, V3.dot_smul_right,
        V3.dot_cross_right]; ring
    · rw [V3.toDir_xyz, form, V3.dot_add_left, V3.dot_smul_left, V3.dot_smul_left, hadef,
        V3.dot_cross_left, ← hadef]
      have : (a.unit.cross dir.xyz).dot a = 0 := by
        rw [V3.unit]; simp [V3.dot]; ring
      rw [this]; ring
    · intro hc
      exfalso; apply h0
      have : r = 0 := by rw [hr, hc]; ext <;> simp
      rw [this]; simp [V3.norm, V3.dot]
    · intro hpos hlt
      rw [V3.toDir_xyz, form, V3.dot_add_left, V3.dot_smul_left, V3.dot_smul_left]
      have hs := Real.sin_pos_of_pos_of_lt_pi hpos hlt
      have : 0 < (a.unit.cross dir.xyz).dot r := by
        have e : (a.unit.cross dir.xyz).dot r = a.norm := by
          have : (a.unit.cross dir.xyz).dot r = a.unit.dot a := by
            rw [hadef]; simp [V3.dot]; ring
          rw [this, V3.unit, V3.dot_smul_left, ← V3.norm_sq]
          have := V3.norm_ne_zero ha
          field_simp
        rw [e]; exact V3.norm_pos ha
      nlinarith

example : ∃ d' p', thinLens 1 10 ⟨-1,0,0,0⟩ ⟨0,1,0,0⟩ ⟨0,1,0,1⟩ = some (d', p') ∧
    (⟨0,1,0,1⟩ : H4).xyz ≠ (center 1).xyz := by
  have hr : ((⟨0,1,0,1⟩ : H4).xyz - (center 1).xyz).norm = 1 := by
    simp [V3.norm, V3.dot, center, col, H4.xyz]
  have ha : (⟨-1,0,0,0⟩ : H4).xyz.cross ((⟨0,1,0,1⟩ : H4) - center 1).xyz ≠ 0 := by
    intro h; have := congrArg V3.z h; simp [center, col] at this
  refine ⟨_, _, by rw [thinLens]; dsimp only; rw [hr, if_neg (by norm_num), if_neg ha], ?_⟩
  intro h; have := congrArg V3.y h; simp [center, col] at this

/-! ## C22 -/

theorem transported {dir pol : H4} {d : V3} (h0 : dir.xyz ≠ 0) (hd : d.dot d = dir.xyz.dot dir.xyz)
    (hperp : pol.xyz.dot dir.xyz = 0) :
    ∃ p, parallelTransport dir d.toDir pol = some p ∧ IsDir p ∧ p.xyz.dot p.xyz = pol.xyz.dot pol.xyz ∧
      |p.xyz.dot d.unit| ≤ 1 / 10 ^ 8 * pol.xyz.norm := by
  have hd0 : d ≠ 0 := by
    rintro rfl
    apply h0
    rw [← V3.dot_self_eq_zero, ← hd]; simp [V3.dot]
  obtain ⟨o, o1, o2, o3, o4, _⟩ := C17_transport dir d.toDir pol h0 hd0 hperp
  exact ⟨o, o1, o2, o3, o4⟩

/-- **C22** `RadialMirrorScatter` keeps the length of the direction for every drawn angle, and the
polarization keeps its length and stays transverse. -/
theorem C22_radial_scatter (m : M4) (dir pos pol : H4) (ia pa : Option ℝ) (h0 : dir.xyz ≠ 0)
    (hperp : pol.xyz.dot dir.xyz = 0) (d' : H4) (p' : Option H4)
    (h : radialScatter m dir pos pol ia pa = some (d', p')) :
    IsDir d' ∧ d'.xyz.dot d'.xyz = dir.xyz.dot dir.xyz ∧
    ∃ p, p' = some p ∧ IsDir p ∧ p.xyz.dot p.xyz = pol.xyz.dot pol.xyz ∧
      |p.xyz.dot d'.xyz.unit| ≤ 1 / 10 ^ 8 * pol.xyz.norm := by
  simp only [radialScatter] at h
  split at h
  · cases h
  rename_i d1 h1
  split at h
  · cases h
  rename_i d2 h2
  simp only [Option.some.injEq, Prod.mk.injEq] at h
  obtain ⟨rfl, rfl⟩ := h
  have l1 : d1.dot d1 = dir.xyz.dot dir.xyz := by
    split at h1
    · simp only [Option.some.injEq] at h1; rw [← h1]
    · exact turn_length h1
  have l2 : d2.dot d2 = dir.xyz.dot dir.xyz := by
    split at h2
    · simp only [Option.some.injEq] at h2; rw [← h2, l1]
    · rw [turn_length h2, l1]
  exact ⟨rfl, l2, transported h0 l2 hperp⟩

/-- **C22** `RadialMirrorScatter` fails (NaN) only for photons whose direction is parallel to the line
from the center of the element, or which are at the center. -/
theorem C22_radial_defined (m : M4) (dir pos pol : H4) (ia pa : Option ℝ)
    (h : dir.xyz.cross (pos.xyz - (center m).xyz) ≠ 0) :
    ∃ r, radialScatter m dir pos pol ia pa = some r := by
  have hr : pos.xyz - (center m).xyz ≠ 0 := by
    intro h'; apply h; rw [h']; ext <;> simp
  simp only [radialScatter]
  cases ia <;> cases pa <;> simp [turn, h, hr]

/-- **C22** Scatter in the plane of reflection stays in that plane and turns the ray by exactly the
drawn angle. -/
theorem C22_radial_inplane (m : M4) (dir pos pol : H4) (a : ℝ) (d' : H4) (p' : Option H4)
    (h : radialScatter m dir pos pol (some a) none = some (d', p')) :
    d'.xyz.dot (dir.xyz.cross (pos.xyz - (center m).xyz)) = 0 ∧
    dir.xyz.dot d'.xyz = Real.cos a * dir.xyz.dot dir.xyz := by
  simp only [radialScatter] at h
  split at h
  · cases h
  rename_i d1 h1
  simp only [Option.some.injEq, Prod.mk.injEq] at h
  obtain ⟨rfl, rfl⟩ := h
  have hp : dir.xyz.dot (dir.xyz.cross (pos.xyz - (center m).xyz)) = 0 := V3.dot_cross_left _ _
  exact ⟨by rw [V3.toDir_xyz, turn_axis h1, hp], turn_angle h1 hp⟩

/-- **C22** Scatter perpendicular to the plane of reflection does not change the component of the
direction along the line to the center. -/
theorem C22_radial_perp (m : M4) (dir pos pol : H4) (b : ℝ) (d' : H4) (p' : Option H4)
    (h : radialScatter m dir pos pol none (some b) = some (d', p')) :
    d'.xyz.dot (pos.xyz - (center m).xyz) = dir.xyz.dot (pos.xyz - (center m).xyz) := by
  simp only [radialScatter] at h
  split at h
  · cases h
  rename_i d2 h2
  simp only [Option.some.injEq, Prod.mk.injEq] at h
  obtain ⟨rfl, rfl⟩ := h
  exact turn_axis h2

/-- **C22** With scatter in both directions, the result is that of the scatter in the plane of
reflection, then turned about the line to the center by the second angle: the component along that
line is that after the first scatter, and the components perpendicular to it enclose the second
angle. -/
theorem C22_radial_both (m : M4) (dir pos pol : H4) (a b : ℝ) (d' : H4) (p' : Option H4)
    (h : radialScatter m dir pos pol (some a) (some b) = some (d', p')) :
    ∃ d1 p1, radialScatter m dir pos pol (some a) none = some (d1, p1) ∧
      d'.xyz.dot (pos.xyz - (center m).xyz) = d1.xyz.dot (pos.xyz - (center m).xyz) ∧
      d1.xyz.dot d'.xyz - (d1.xyz.dot (pos.xyz - (center m).xyz).unit) ^ 2 =
        Real.cos b * (d1.xyz.dot d1.xyz - (d1.xyz.dot (pos.xyz - (center m).xyz).unit) ^ 2) := by
  simp only [radialScatter] at h
  split at h
  · cases h
  rename_i d1 h1
  split at h
  · cases h
  rename_i d2 h2
  simp only [Option.some.injEq, Prod.mk.injEq] at h
  obtain ⟨rfl, rfl⟩ := h
  refine ⟨d1.toDir, parallelTransport dir d1.toDir pol, ?_, turn_axis h2, turn_angle_general h2⟩
  simp only [radialScatter, h1]

/-- **C22** `RandomGaussianScatter` always succeeds and turns the direction by exactly the drawn
angle; the outgoing direction has unit length; polarization keeps its length and stays transverse. -/
theorem C22_gauss_scatter (dir pol : H4) (h0 : dir.xyz ≠ 0) (angle angle2 : ℝ) :
    ∃ d' p', gaussScatter dir pol angle angle2 = some (d', p') ∧ IsDir d' ∧
      d'.xyz.dot d'.xyz = 1 ∧ dir.xyz.unit.dot d'.xyz = Real.cos angle ∧
      (pol.xyz.dot dir.xyz = 0 → ∃ p, p' = some p ∧ IsDir p ∧
        p.xyz.dot p.xyz = pol.xyz.dot pol.xyz ∧
        |p.xyz.dot d'.xyz| ≤ 1 / 10 ^ 8 * pol.xyz.norm) := by
  set u := dir.xyz.unit with hu
  have u1 : u.dot u = 1 := V3.unit_dot_unit h0
  set g : V3 := if |u.x| < 0.99999 then ⟨1, 0, 0⟩ else ⟨0, 1, 0⟩ with hg
  have hperp0 : u.cross g ≠ 0 := by
    intro h
    have hx := congrArg V3.x h; have hy := congrArg V3.y h; have hz := congrArg V3.z h
    simp only [V3.dot] at u1
    by_cases hc : |u.x| < 0.99999
    · rw [if_pos hc] at hg
      rw [hg] at hx hy hz
      simp at hx hy hz
      rw [hy, hz] at u1
      have : |u.x| * |u.x| = 1 := by rw [← abs_mul, show u.x * u.x = 1 by linarith]; simp
      nlinarith [abs_nonneg u.x]
    · rw [if_neg hc] at hg
      rw [hg] at hx hy hz
      simp at hx hy hz
      rw [hz] at hc
      norm_num at hc
  have hu0 : u ≠ 0 := V3.ne_zero_of_unit u1
  obtain ⟨d1, t1⟩ := turn_some hperp0 angle u
  obtain ⟨d2, t2⟩ := turn_some hu0 angle2 d1
  have l1 : d1.dot d1 = 1 := by rw [turn_length t1, u1]
  have l2 : d2.dot d2 = 1 := by rw [turn_length t2, l1]
  have a1 : u.dot d1 = Real.cos angle := by
    rw [turn_angle t1 (V3.dot_cross_left _ _), u1, mul_one]
  have a2 : u.dot d2 = Real.cos angle := by rw [V3.dot_comm, turn_axis t2, V3.dot_comm, a1]
  refine ⟨d2.toDir, parallelTransport dir d2.toDir pol, ?_, rfl, l2, a2, ?_⟩
  · rw [gaussScatter, if_neg h0]
    simp only [← hu, ← hg, t1, t2]
  · intro hp
    obtain ⟨o, o1, o2, o3, o4, _⟩ := C17_transport dir d2.toDir pol h0 (V3.ne_zero_of_unit l2) hp
    rw [V3.toDir_xyz, V3.unit_of_unit l2] at o4
    exact ⟨o, o1, o2, o3, o4⟩

/-- **C22** Jitter turns direction and polarization together, about an axis perpendicular to the
x axis: lengths and the angle between them are unchanged, and a photon on the x axis is turned by
exactly the drawn jitter angle. -/
theorem C22_jitter (dir pol : H4) (r j : ℝ) :
    ∃ d' p', jitter dir pol r j = some (d', p') ∧ IsDir d' ∧ IsDir p' ∧
      d'.xyz.dot d'.xyz = dir.xyz.dot dir.xyz ∧ p'.xyz.dot p'.xyz = pol.xyz.dot pol.xyz ∧
      p'.xyz.dot d'.xyz = pol.xyz.dot dir.xyz ∧
      (dir.y = 0 → dir.z = 0 → dir.xyz.dot d'.xyz = Real.cos j * dir.xyz.dot dir.xyz) := by
  have hax : (⟨0, Real.sin r, Real.cos r⟩ : V3) ≠ 0 := by
    intro h
    have hy := congrArg V3.y h; have hz := congrArg V3.z h
    simp at hy hz
    have := Real.sin_sq_add_cos_sq r
    rw [hy, hz] at this; norm_num at this
  obtain ⟨d, td⟩ := turn_some hax j dir.xyz
  obtain ⟨p, tp⟩ := turn_some hax j pol.xyz
  refine ⟨d.toDir, p.toDir, ?_, rfl, rfl, turn_length td, turn_length tp, ?_, ?_⟩
  · simp only [jitter, td, tp]
  · obtain ⟨_, e1, hr⟩ := turn_spec td
    obtain ⟨_, e2, _⟩ := turn_spec tp
    rw [V3.toDir_xyz, V3.toDir_xyz, e1, e2]
    exact rotation_dot hr _ _
  · intro hy hz
    exact turn_angle td (by simp [V3.dot, hy, hz])

/-! ## C23 -/

theorem mul4_col_expand (m : M4) (v : H4) (hw : v.w = 0) :
    mul4 m v = v.x • vX m + v.y • vY m + v.z • vZ m := by
  ext <;> simp [mul4, vX, vY, vZ, col, hw] <;> ring

/-- **C23** The mirror reflects specularly at its surface, for every position, orientation and size:
the component along the surface is kept, the one along the normal reversed. -/
theorem C23_specular (m : M4) (hm : Affine m) (ho : OrthoAxes m) (hdet : m.det ≠ 0) (p : H4)
    (hp : IsDir p) : mirrorDir m p = mirrored (eX m) p ∧ mirrorDir m (mirrorDir m p) = p := by
  have hu : IsUnit m.det := isUnit_iff_ne_zero.2 hdet
  have inv1 : ∀ v, mul4 m (mul4 m⁻¹ v) = v := fun v => by
    rw [← mul4_mul, Matrix.mul_nonsing_inv m hu, mul4_one]
  have inv2 : ∀ v, mul4 m⁻¹ (mul4 m v) = v := fun v => by
    rw [← mul4_mul, Matrix.nonsing_inv_mul m hu, mul4_one]
  have wm : ∀ v, (mul4 m v).w = v.w := by
    intro v; simp [mul4, hm.1, hm.2.1, hm.2.2.1, hm.2.2.2]
  have wx : (vX m).w = 0 := hm.1
  have wy : (vY m).w = 0 := hm.2.1
  have wz : (vZ m).w = 0 := hm.2.2.1
  have key : ∀ q : H4, IsDir q → mirrorDir m q = q - (2 * (mul4 m⁻¹ q).x) • vX m := by
    intro q hq
    have dw : (mul4 m⁻¹ q).w = 0 := by rw [← wm, inv1]; exact hq
    have e : q = (mul4 m⁻¹ q).x • vX m + (mul4 m⁻¹ q).y • vY m + (mul4 m⁻¹ q).z • vZ m := by
      rw [← mul4_col_expand m _ dw, inv1]
    simp only [mirrorDir]
    rw [mul4_col_expand m _ (by simpa using dw)]
    generalize mul4 m⁻¹ q = c at e
    rw [e]
    ext <;> simp <;> ring
  have comp : ∀ q : H4, IsDir q → (mul4 m⁻¹ q).x * (vX m).xyz.dot (vX m).xyz = q.dot (vX m) := by
    intro q hq
    have dw : (mul4 m⁻¹ q).w = 0 := by rw [← wm, inv1]; exact hq
    have e : q = (mul4 m⁻¹ q).x • vX m + (mul4 m⁻¹ q).y • vY m + (mul4 m⁻¹ q).z • vZ m := by
      rw [← mul4_col_expand m _ dw, inv1]
    have hh : q.dot (vX m) = ((mul4 m⁻¹ q).x • vX m + (mul4 m⁻¹ q).y • vY m +
        (mul4 m⁻¹ q).z • vZ m).dot (vX m) := by rw [← e]
    rw [hh, H4.dot_add_left, H4.dot_add_left, H4.dot_smul_left, H4.dot_smul_left, H4.dot_smul_left,
      dot_xyz _ _ (.inl wx), dot_xyz _ _ (.inl wy), dot_xyz _ _ (.inl wz),
      V3.dot_comm (vY m).xyz, V3.dot_comm (vZ m).xyz, ho.xy, ho.xz]
    ring
  constructor
  · rw [key p hp, mirrored]
    have nn : (vX m).norm ^ 2 = (vX m).xyz.dot (vX m).xyz := by
      rw [H4.norm_sq, dot_xyz _ _ (.inl wx)]
    have n0 : (vX m).norm ≠ 0 := by
      intro h; rw [h] at nn; exact (V3.dot_self_pos ho.x0).ne (by rw [← nn]; ring)
    have c := comp p hp
    rw [← nn] at c
    have e : (2 * p.dot (eX m)) • eX m = (2 * (mul4 m⁻¹ p).x) • vX m := by
      have : 2 * p.dot (eX m) * (1 / (vX m).norm) = 2 * (mul4 m⁻¹ p).x := by
        rw [eX, H4.unit, H4.dot_smul_right, ← c]; field_simp
      rw [← this]
      ext <;> simp [eX, H4.unit] <;> ring
    rw [e]
  · simp only [mirrorDir]
    rw [inv2]
    dsimp only
    have : (⟨(mul4 m⁻¹ p).x * -1 * -1, (mul4 m⁻¹ p).y, (mul4 m⁻¹ p).z, (mul4 m⁻¹ p).w⟩ : H4) =
        mul4 m⁻¹ p := by ext <;> simp
    rw [this, inv1]

theorem sq_add_sq_zero_iff {a b : ℝ} (ha : 0 ≤ a) (hb : 0 ≤ b) : a ^ 2 + b ^ 2 = 0 ↔ a + b = 0 := by
  constructor
  · intro h
    have h1 : a = 0 := by nlinarith [sq_nonneg a, sq_nonneg b]
    have h2 : b = 0 := by nlinarith [sq_nonneg a, sq_nonneg b]
    rw [h1, h2, add_zero]
  · intro h
    have h1 : a = 0 := by linarith
    have h2 : b = 0 := by linarith
    rw [h1, h2]; ring

theorem weighted_le_one {rs rp A B : ℝ} (hs : rs ≤ 1) (hp : rp ≤ 1) (h : A ^ 2 + B ^ 2 ≤ 1) :
    rs * A ^ 2 + rp * B ^ 2 ≤ 1 := by
  have h1 := mul_nonneg (sub_nonneg.2 hs) (sq_nonneg A)
  have h2 := mul_nonneg (sub_nonneg.2 hp) (sq_nonneg B)
  linarith

open Classical in
/-- **C23** For a polarization of unit length and reflection probabilities in [0, 1] the mirror never
complains, the survival probability is the reflected fraction of s and p polarization, which is in
[0, 1] (nothing is clipped), and the outgoing direction has unit length. The polarization after the
mirror is of unit length and perpendicular to the new direction unless nothing is reflected at all. -/
theorem C23_brewster (m : M4) (hm : Affine m) (ho : OrthoAxes m) (hdet : m.det ≠ 0) (rs rp : ℝ)
    (hs : 0 ≤ rs ∧ rs ≤ 1) (hp : 0 ≤ rp ∧ rp ≤ 1) (dir pol : H4) (hd : IsDir dir)
    (hdn : dir.xyz.cross (vX m).xyz ≠ 0) (hpol : pol.xyz.dot pol.xyz = 1) :
    ∃ out vs vp, brewster m rs rp dir pol = .ok (some out) ∧
      out.dir = mirrored (eX m) dir.unit ∧ out.dir.dot out.dir = 1 ∧
      -- s: perpendicular to the plane of incidence, p: in the plane, perpendicular to the ray
      Frame vs vp dir.unit ∧ vs.dot (vX m) = 0 ∧
      out.prob = rs * (pol.dot vs) ^ 2 + rp * (pol.dot vp) ^ 2 ∧ 0 ≤ out.prob ∧ out.prob ≤ 1 ∧
      (out.prob ≠ 0 → ∃ q, out.pol = some q ∧ q.dot q = 1 ∧ q.dot out.dir = 0 ∧ IsDir q) ∧
      (out.prob = 0 → out.pol = none) := by
  have wx : (vX m).w = 0 := hm.1
  have hd0 : dir.xyz ≠ 0 := by
    intro h; apply hdn; rw [h]; ext <;> simp
  have hdd : dir.dot dir ≠ 0 := fun h => hd0 ((H4.dot_self_eq_zero hd).1 h)
  have uu := H4.unit_dot_unit hdd
  have wu : dir.unit.w = 0 := H4.unit_w hd
  have ux : dir.unit.xyz = dir.xyz.unit := unit_xyz _ hd
  have ex : (eX m).xyz = (vX m).xyz.unit := unit_xyz _ wx
  have beam1 : dir.unit.xyz.dot dir.unit.xyz = 1 := by rw [← dot_xyz _ _ (.inl wu), uu]
  have cross_eq : dir.unit.xyz.cross (eX m).xyz =
      (1 / dir.xyz.norm * (1 / (vX m).xyz.norm)) • dir.xyz.cross (vX m).xyz := by
    rw [ux, ex]; ext <;> simp [V3.unit] <;> ring
  have s0 : dir.unit.xyz.cross (eX m).xyz ≠ 0 := by
    rw [cross_eq]
    intro h
    apply hdn
    have c0 : 1 / dir.xyz.norm * (1 / (vX m).xyz.norm) ≠ 0 :=
      mul_ne_zero (one_div_ne_zero (V3.norm_ne_zero hd0)) (one_div_ne_zero (V3.norm_ne_zero ho.x0))
    have hx := congrArg V3.x h; have hy := congrArg V3.y h; have hz := congrArg V3.z h
    simp only [V3.smul_x, V3.smul_y, V3.smul_z, V3.zero_x, V3.zero_y, V3.zero_z, mul_eq_zero, c0,
      false_or] at hx hy hz
    ext
    · exact hx
    · exact hy
    · exact hz
  set b := dir.unit.xyz with hb
  set s := (b.cross (eX m).xyz).unit with hsdef
  have s1 : s.dot s = 1 := V3.unit_dot_unit s0
  have sb : s.dot b = 0 := by
    rw [hsdef, V3.unit, V3.dot_smul_left, V3.dot_comm, V3.dot_cross_left, mul_zero]
  have se : s.dot (eX m).xyz = 0 := by
    rw [hsdef, V3.unit, V3.dot_smul_left, V3.dot_comm, V3.dot_cross_right, mul_zero]
  set p := b.cross s with hpdef
  have p1 : p.dot p = 1 := by rw [hpdef, V3.cross_dot_cross, beam1, s1, V3.dot_comm, sb]; ring
  have pb : p.dot b = 0 := by rw [hpdef, V3.dot_comm, V3.dot_cross_left]
  have sp : s.dot p = 0 := by rw [hpdef, V3.dot_cross_right]
  have psum : (pol.xyz.dot s) ^ 2 + (pol.xyz.dot p) ^ 2 ≤ 1 := by
    have e := ortho_expand s1 p1 beam1 sp sb pb pol.xyz
    have : pol.xyz.dot pol.xyz = (pol.xyz.dot s) ^ 2 + (pol.xyz.dot p) ^ 2 + (pol.xyz.dot b) ^ 2 := by
      conv_lhs => rw [e]
      simp only [V3.dot_add_left, V3.dot_add_right, V3.dot_smul_left, V3.dot_smul_right, s1, p1, beam1,
        sp, sb, pb, V3.dot_comm p s, V3.dot_comm b s, V3.dot_comm b p]
      ring
    rw [hpol] at this
    nlinarith [sq_nonneg (pol.xyz.dot b)]
  have new_eq : mirrorDir m dir.unit = mirrored (eX m) dir.unit :=
    (C23_specular m hm ho hdet dir.unit wu).1
  have we : (eX m).w = 0 := H4.unit_w wx
  have ee : (eX m).xyz.dot (eX m).xyz = 1 := by rw [ex]; exact V3.unit_dot_unit ho.x0
  have newx : (mirrored (eX m) dir.unit).xyz = b - (2 * b.dot (eX m).xyz) • (eX m).xyz := by
    rw [mirrored, dot_xyz _ _ (.inl wu)]; ext <;> simp [hb]
  have wnew : (mirrored (eX m) dir.unit).w = 0 := mirrored_dir we wu
  set n := (mirrored (eX m) dir.unit).xyz with hn
  have nn : n.dot n = 1 := by
    rw [newx]
    simp only [V3.dot_sub_left, V3.dot_sub_right, V3.dot_smul_left, V3.dot_smul_right, beam1, ee,
      V3.dot_comm (eX m).xyz b]; ring
  have ns : n.dot s = 0 := by
    rw [newx, V3.dot_sub_left, V3.dot_smul_left, V3.dot_comm b s, sb, V3.dot_comm _ s, se]; ring
  set np := n.cross s with hnp
  have np1 : np.dot np = 1 := by rw [hnp, V3.cross_dot_cross, nn, s1, ns]; ring
  have nps : s.dot np = 0 := by rw [hnp, V3.dot_cross_right]
  have npn : np.dot n = 0 := by rw [hnp, V3.dot_comm, V3.dot_cross_left]
  set A := pol.xyz.dot s with hA
  set B := pol.xyz.dot p with hB
  have i0 : 0 ≤ rs * A ^ 2 + rp * B ^ 2 :=
    add_nonneg (mul_nonneg hs.1 (sq_nonneg _)) (mul_nonneg hp.1 (sq_nonneg _))
  have i1 : rs * A ^ 2 + rp * B ^ 2 ≤ 1 := weighted_le_one hs.2 hp.2 psum
  have hnot : ¬ (1.001 < rs * A ^ 2 + rp * B ^ 2) := by norm_num; linarith
  set P := (-(rs * A ^ 2)) • s + (rp * B ^ 2) • np with hP
  have PP : P.dot P = (rs * A ^ 2) ^ 2 + (rp * B ^ 2) ^ 2 := by
    rw [hP]
    simp only [V3.dot_add_left, V3.dot_add_right, V3.dot_smul_left, V3.dot_smul_right, s1, np1, nps,
      V3.dot_comm np s]; ring
  have P0 : P = 0 ↔ rs * A ^ 2 + rp * B ^ 2 = 0 := by
    rw [← V3.dot_self_eq_zero, PP]
    exact sq_add_sq_zero_iff (mul_nonneg hs.1 (sq_nonneg A)) (mul_nonneg hp.1 (sq_nonneg B))
  refine ⟨⟨mirrored (eX m) dir.unit, rs * A ^ 2 + rp * B ^ 2,
    if P = 0 then none else some P.unit.toDir⟩, s.toDir, p.toDir, ?_, rfl, ?_, ?_, ?_, ?_, i0, i1, ?_, ?_⟩
  · simp only [brewster, hdd, if_false]
    rw [if_neg s0, if_neg hnot, new_eq, max_eq_left i0, min_eq_left i1]
  · show (mirrored (eX m) dir.unit).dot (mirrored (eX m) dir.unit) = 1
    rw [dot_xyz _ _ (.inl wnew), nn]
  · exact ⟨by rw [dot_xyz _ _ (.inl rfl)]; exact s1, by rw [dot_xyz _ _ (.inl rfl)]; exact p1, uu,
      by rw [dot_xyz _ _ (.inl rfl)]; exact sp, by rw [dot_xyz _ _ (.inl rfl)]; exact sb,
      by rw [dot_xyz _ _ (.inl rfl)]; exact pb, rfl, rfl, wu⟩
  · rw [dot_xyz _ _ (.inl rfl), V3.toDir_xyz]
    have e := V3.norm_smul_unit ho.x0
    rw [← e, V3.dot_smul_right, ← ex, se, mul_zero]
  · rw [dot_xyz _ _ (.inr rfl), dot_xyz _ _ (.inr rfl)]; rfl
  · intro hne
    have hP0 : P ≠ 0 := fun h => hne (P0.1 h)
    refine ⟨P.unit.toDir, by simp [hP0], ?_, ?_, rfl⟩
    · rw [dot_xyz _ _ (.inl rfl)]; exact V3.unit_dot_unit hP0
    · show P.unit.toDir.dot (mirrored (eX m) dir.unit) = 0
      rw [dot_xyz _ _ (.inl rfl), V3.toDir_xyz, ← hn, V3.unit, V3.dot_smul_left, hP, V3.dot_add_left,
        V3.dot_smul_left, V3.dot_smul_left, npn, V3.dot_comm s, ns]; ring
  · intro h
    simp [P0.2 h]

/-- **C23** Impossible reflectivities are reported. -/
theorem C23_too_bright (m : M4) (rs rp : ℝ) (dir pol : H4) (hd : dir.dot dir ≠ 0)
    (hs : dir.unit.xyz.cross (eX m).xyz ≠ 0)
    (h : 1.001 < rs * (pol.xyz.dot (dir.unit.xyz.cross (eX m).xyz).unit) ^ 2 +
      rp * (pol.xyz.dot (dir.unit.xyz.cross (dir.unit.xyz.cross (eX m).xyz).unit)) ^ 2) :
    brewster m rs rp dir pol = .error .valueError := by
  simp only [brewster, hd, if_false]
  rw [if_neg hs, if_pos h]

example : Affine (1 : M4) ∧ OrthoAxes (1 : M4) ∧ (1 : M4).det ≠ 0 ∧
    (⟨-1, 1, 0, 0⟩ : H4).xyz.cross (vX 1).xyz ≠ 0 := by
  refine ⟨by simp [Affine], ?_, by simp, ?_⟩
  · constructor <;> simp [vX, vY, vZ, col, V3.dot]
    all_goals (intro h)
    · have := congrArg V3.x h; simp at this
    · have := congrArg V3.y h; simp at this
    · have := congrArg V3.z h; simp at this
  · intro h; have := congrArg V3.z h; simp [vX, col] at this

/-! ## C71 -/

/-- **C71** The polarization vector of a photon from a sky source has unit length, is perpendicular to
the direction of flight, and the angle is measured from North through East: at angle 0 it points as
far north as possible, at 90 degrees to the east (north cross direction to the source). -/
theorem C71_pointing_polarization (north dir : H4) (hn : IsDir north) (hd : IsDir dir)
    (hu : dir.dot dir = 1) (hpole : north.xyz.cross dir.xyz ≠ 0) :
    ∃ n : V3, n.dot n = 1 ∧ n.dot dir.xyz = 0 ∧ 0 < n.dot north.xyz ∧
      (n.cross (-dir.xyz)).dot north.xyz = 0 ∧
      ∀ a, ∃ p, pointingPol north dir a = some p ∧ IsDir p ∧ p.xyz.dot p.xyz = 1 ∧
        p.xyz.dot dir.xyz = 0 ∧ p.xyz = Real.cos a • n + Real.sin a • n.cross (-dir.xyz) := by
  have wn : north.w = 0 := hn
  have wd : dir.w = 0 := hd
  have hux : dir.xyz.dot dir.xyz = 1 := by rw [← dot_xyz _ _ (.inl wd)]; exact hu
  set v := north - (north.dot dir) • dir with hv
  have wv : v.w = 0 := by simp [hv, wn, wd]
  have vx : v.xyz = north.xyz - (north.xyz.dot dir.xyz) • dir.xyz := by
    rw [hv, dot_xyz _ _ (.inl wn)]; rfl
  have vv : v.xyz.dot v.xyz = (north.xyz.cross dir.xyz).dot (north.xyz.cross dir.xyz) := by
    rw [V3.cross_dot_cross, vx]
    simp only [V3.dot_sub_left, V3.dot_sub_right, V3.dot_smul_left, V3.dot_smul_right, hux,
      V3.dot_comm dir.xyz north.xyz]; ring
  have vpos : 0 < v.xyz.dot v.xyz := by rw [vv]; exact V3.dot_self_pos hpole
  have v0 : v.xyz ≠ 0 := by intro h; rw [h] at vpos; simp [V3.dot] at vpos
  have vdd : v.dot v ≠ 0 := by rw [dot_xyz _ _ (.inl wv)]; exact vpos.ne'
  have vd : v.xyz.dot dir.xyz = 0 := by
    rw [vx, V3.dot_sub_left, V3.dot_smul_left, hux]; ring
  have vnorth : v.xyz.dot north.xyz = v.xyz.dot v.xyz := by
    conv_rhs => rw [vx, V3.dot_sub_right, V3.dot_smul_right, ← vx, vd]
    ring
  set n := v.xyz.unit with hndef
  have n1 : n.dot n = 1 := V3.unit_dot_unit v0
  have nd : n.dot dir.xyz = 0 := by rw [hndef, V3.unit, V3.dot_smul_left, vd, mul_zero]
  have e1 : (n.cross (-dir.xyz)).dot (n.cross (-dir.xyz)) = 1 := by
    rw [V3.cross_dot_cross, n1]
    have : (-dir.xyz).dot (-dir.xyz) = 1 := by rw [← hux]; simp [V3.dot]
    have h2 : n.dot (-dir.xyz) = 0 := by
      have : n.dot (-dir.xyz) = - n.dot dir.xyz := by simp [V3.dot]; ring
      rw [this, nd, neg_zero]
    rw [this, h2]; ring
  refine ⟨n, n1, nd, ?_, ?_, ?_⟩
  · rw [hndef, V3.unit, V3.dot_smul_left, vnorth]
    exact mul_pos (one_div_pos.2 (V3.norm_pos v0)) vpos
  · rw [hndef, V3.unit]
    have : ((1 / v.xyz.norm) • v.xyz).cross (-dir.xyz) =
        (-(1 / v.xyz.norm)) • north.xyz.cross dir.xyz := by
      rw [vx]; ext <;> simp <;> ring
    rw [this, V3.dot_smul_left, V3.dot_comm, V3.dot_cross_left, mul_zero]
  · intro a
    have hnv : normVector v = some v.unit := by rw [normVector, if_neg vdd]
    have hx : v.unit.xyz = n := unit_xyz v wv
    have wu : v.unit.w = 0 := H4.unit_w wv
    refine ⟨Real.cos a • v.unit + Real.sin a • (dir.xyz.cross v.unit.xyz).toDir, ?_, ?_, ?_, ?_, ?_⟩
    · simp only [pointingPol, ← hv, hnv]
    · simp [IsDir, wu]
    all_goals
      have hform : (Real.cos a • v.unit + Real.sin a • (dir.xyz.cross v.unit.xyz).toDir).xyz =
        Real.cos a • n + Real.sin a • n.cross (-dir.xyz) := by
        rw [hx]
        have : dir.xyz.cross n = n.cross (-dir.xyz) := by ext <;> simp <;> ring
        rw [this, ← hx]; rfl
    · rw [hform]
      have := Real.sin_sq_add_cos_sq a
      simp only [V3.dot_add_left, V3.dot_add_right, V3.dot_smul_left, V3.dot_smul_right, n1, e1,
        V3.dot_cross_left, V3.dot_comm (n.cross (-dir.xyz)) n]
      linarith
    · rw [hform, V3.dot_add_left, V3.dot_smul_left, V3.dot_smul_left, nd]
      have : (n.cross (-dir.xyz)).dot dir.xyz = 0 := by simp [V3.dot]; ring
      rw [this]; ring
    · exact hform

example : (⟨0,0,1,0⟩ : H4).xyz.cross (⟨-1,0,0,0⟩ : H4).xyz ≠ 0 := by
  intro h; have := congrArg V3.y h; simp at this

end Marxs
