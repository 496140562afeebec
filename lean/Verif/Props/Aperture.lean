import Mathlib.Analysis.SpecialFunctions.Integrals.Basic
import Mathlib.Tactic.NormNum
import Verif.Model.Optics
import Verif.Props.Grating

/-!
# Properties C27 and C28: apertures and detector pixels
-/

namespace Marxs

/-! ## C27 -/

/-- **C27** Every photon starts at a point of the rectangle, whatever the random numbers, and every
point of the rectangle (without two of its edges) can be reached. -/
theorem C27_rectangle_inside (m : M4) (dir : H4) (u1 u2 : ℝ) (h1 : 0 ≤ u1 ∧ u1 < 1)
    (h2 : 0 ≤ u2 ∧ u2 < 1) :
    InRectangle m (aperturePhoton m dir (rectXY u1 u2).1 (rectXY u1 u2).2).1.xyz := by
  refine ⟨u1 * 2 - 1, u2 * 2 - 1, abs_le.2 ⟨by linarith, by linarith⟩,
    abs_le.2 ⟨by linarith, by linarith⟩, ?_⟩
  rfl

/-- **C27** every point inside the rectangle is reached by some draw, and the position depends linearly
on the draws: equal areas get equal numbers of photons. -/
theorem C27_rectangle_uniform (m : M4) (dir : H4) (q : V3) (h : InRectangle m q) :
    ∃ u1 u2 : ℝ, 0 ≤ u1 ∧ u1 ≤ 1 ∧ 0 ≤ u2 ∧ u2 ≤ 1 ∧
      (aperturePhoton m dir (rectXY u1 u2).1 (rectXY u1 u2).2).1.xyz = q ∧
      ∀ e1 e2 : ℝ, (aperturePhoton m dir (rectXY (u1 + e1) (u2 + e2)).1
        (rectXY (u1 + e1) (u2 + e2)).2).1.xyz = q + e1 • ((2 : ℝ) • (vY m).xyz) +
          e2 • ((2 : ℝ) • (vZ m).xyz) := by
  obtain ⟨a, b, ha, hb, rfl⟩ := h
  obtain ⟨a1, a2⟩ := abs_le.1 ha
  obtain ⟨b1, b2⟩ := abs_le.1 hb
  refine ⟨(a + 1) / 2, (b + 1) / 2, by linarith, by linarith, by linarith, by linarith, ?_, ?_⟩
  · ext <;> simp [aperturePhoton, rectXY] <;> ring
  · intro e1 e2
    ext <;> simp [aperturePhoton, rectXY] <;> ring

/-- **C27** The area of a rectangular aperture is the area of the parallelogram spanned by its
sides. -/
theorem C27_rectangle_area (m : M4) (hm : Affine m) (ho : OrthoAxes m) :
    rectArea m = (((2 : ℝ) • (vY m).xyz).cross ((2 : ℝ) • (vZ m).xyz)).norm := by
  have ny : (vY m).norm = (vY m).xyz.norm := norm_xyz _ hm.2.1
  have nz : (vZ m).norm = (vZ m).xyz.norm := norm_xyz _ hm.2.2.1
  have py := (V3.norm_pos ho.y0).le
  have pz := (V3.norm_pos ho.z0).le
  rw [rectArea, ny, nz]
  conv_rhs => rw [V3.norm, V3.cross_dot_cross]
  simp only [V3.dot_smul_left, V3.dot_smul_right, ho.yz]
  rw [← V3.norm_sq, ← V3.norm_sq]
  symm
  rw [show 2 * (2 * (vY m).xyz.norm ^ 2) * (2 * (2 * (vZ m).xyz.norm ^ 2)) - (2 * (2 * 0)) ^ 2 =
    (4 * (vY m).xyz.norm * (vZ m).xyz.norm) ^ 2 by ring]
  exact Real.sqrt_sq (by positivity)

/-- **C27** The probability factor of an aperture is in [0, 1]; for a direction of unit length it is
the cosine of the angle to the normal (projected area), and photons from behind get zero. -/
theorem C27_projection (m : M4) (hm : Affine m) (ho : OrthoAxes m) (dir : H4) (hd : IsDir dir)
    (hu : dir.xyz.dot dir.xyz = 1) (x y : ℝ) :
    (aperturePhoton m dir x y).2 = max (-(dir.xyz.dot (vX m).xyz.unit)) 0 ∧
    0 ≤ (aperturePhoton m dir x y).2 ∧ (aperturePhoton m dir x y).2 ≤ 1 := by
  have e : dir.dot (-(eX m)) = -(dir.xyz.dot (vX m).xyz.unit) := by
    rw [H4.dot_neg_right, dot_xyz _ _ (.inl hd), eX, unit_xyz _ hm.1]
  have n1 := V3.unit_dot_unit ho.x0
  have c := V3.cauchy dir.xyz (vX m).xyz.unit
  rw [hu, n1] at c
  have c' : |dir.xyz.dot (vX m).xyz.unit| ≤ 1 := by
    apply (sq_le_one_iff_abs_le_one _).1; linarith
  obtain ⟨c1, c2⟩ := abs_le.1 c'
  have : (aperturePhoton m dir x y).2 = max (-(dir.xyz.dot (vX m).xyz.unit)) 0 := by
    show min (max (dir.dot (-(eX m))) 0) 1 = _
    rw [e]; exact min_eq_left (max_le (by linarith) zero_le_one)
  refine ⟨this, ?_, ?_⟩
  · rw [this]; exact le_max_right _ _
  · rw [this]; exact max_le (by linarith) zero_le_one

/-- **C27** Every photon of a `CircleAperture` starts in the ring sector: at a distance between the
inner and outer radius from the center and at an angle between the limits. The distance is distributed
so that the fraction of photons within any radius `rho` is the fraction of the area within `rho`. -/
theorem C27_circle_inside (m : M4) (ho : OrthoAxes m) (hm : Affine m)
    (hcirc : (vY m).xyz.norm = (vZ m).xyz.norm)
    (rInner phi0 phi1 : ℝ) (hr : 0 ≤ rInner ∧ rInner < (vY m).xyz.norm) (hphi : phi0 ≤ phi1) (dir : H4)
    (u1 u2 : ℝ) (h1 : 0 ≤ u1 ∧ u1 < 1) (h2 : 0 ≤ u2 ∧ u2 < 1) :
    ∃ d phi : ℝ, rInner ≤ d ∧ d ≤ (vY m).xyz.norm ∧ phi0 ≤ phi ∧ phi ≤ phi1 ∧
      (aperturePhoton m dir (circleXY m rInner phi0 phi1 u1 u2).1
        (circleXY m rInner phi0 phi1 u1 u2).2).1.xyz =
        (center m).xyz + (d * Real.cos phi) • (vY m).xyz.unit + (d * Real.sin phi) • (vZ m).xyz.unit ∧
      phi - phi0 = u1 * (phi1 - phi0) ∧
      ∀ rho, 0 ≤ rho → (d ≤ rho ↔ u2 * ((vY m).xyz.norm ^ 2 - rInner ^ 2) ≤ rho ^ 2 - rInner ^ 2) := by
  have ny : (vY m).norm = (vY m).xyz.norm := norm_xyz _ hm.2.1
  have py := V3.norm_pos ho.y0
  have ey := V3.norm_smul_unit ho.y0
  have ez := V3.norm_smul_unit ho.z0
  rw [← hcirc] at ez
  set R := (vY m).xyz.norm with hR
  set s := (rInner / R) ^ 2 + (1 - (rInner / R) ^ 2) * u2 with hs
  have hq1 : (rInner / R) ^ 2 < 1 := by
    rw [div_pow, div_lt_one (by positivity)]
    exact pow_lt_pow_left₀ hr.2 hr.1 (by norm_num)
  have hs0 : (rInner / R) ^ 2 ≤ s := by
    have := mul_nonneg (sub_nonneg.2 hq1.le) h2.1
    linarith
  have hs1 : s ≤ 1 := by
    have := mul_le_mul_of_nonneg_left h2.2.le (sub_nonneg.2 hq1.le)
    linarith
  have spos : 0 ≤ s := le_trans (sq_nonneg _) hs0
  have sq : (R * Real.sqrt s) ^ 2 = rInner ^ 2 + u2 * (R ^ 2 - rInner ^ 2) := by
    rw [mul_pow, Real.sq_sqrt spos, hs]
    field_simp
  refine ⟨R * Real.sqrt s, phi0 + (phi1 - phi0) * u1, ?_, ?_, ?_, ?_, ?_, ?_, ?_⟩
  · have h0 : rInner / R ≤ Real.sqrt s :=
      Real.le_sqrt_of_sq_le hs0
    rw [div_le_iff₀ py] at h0
    linarith
  · have : Real.sqrt s ≤ 1 := Real.sqrt_le_one.2 hs1
    nlinarith
  · have := mul_nonneg (sub_nonneg.2 hphi) h1.1
    linarith
  · have := mul_le_mul_of_nonneg_left h1.2.le (sub_nonneg.2 hphi)
    linarith
  · simp only [aperturePhoton, circleXY, ny, ← hs]
    show (center m).xyz + (Real.sqrt s * Real.cos (phi0 + (phi1 - phi0) * u1)) • (vY m).xyz +
      (Real.sqrt s * Real.sin (phi0 + (phi1 - phi0) * u1)) • (vZ m).xyz = _
    generalize (vY m).xyz.unit = Y at ey
    generalize (vZ m).xyz.unit = Z at ez
    rw [← ey, ← ez]
    ext <;> simp <;> ring
  · ring
  · intro rho hrho
    rw [← abs_of_nonneg hrho, ← abs_of_nonneg (mul_nonneg py.le (Real.sqrt_nonneg s)),
      ← sq_le_sq, sq, abs_of_nonneg hrho]
    constructor <;> intro h <;> linarith

/-- **C27** The reported area is the area of the ring sector: the integral of `r dr dphi`. -/
theorem C27_circle_area (m : M4) (hm : Affine m) (rInner phi0 phi1 : ℝ) :
    circleArea m rInner phi0 phi1 =
      ∫ _ in phi0..phi1, ∫ r in rInner..(vY m).xyz.norm, r := by
  have ny : (vY m).norm = (vY m).xyz.norm := norm_xyz _ hm.2.1
  rw [circleArea, ny, integral_id, intervalIntegral.integral_const, smul_eq_mul]
  have := Real.pi_ne_zero
  field_simp

/-- **C27** What a `CircleAperture` refuses: angles beyond 10 in absolute value (degrees by mistake),
limits in the wrong order or more than a full circle, an inner radius larger than the outer one, axes
of different length. -/
theorem C27_circle_checks (m : M4) (rInner phi0 phi1 : ℝ) :
    (circleCheck m rInner phi0 phi1 = .ok () ↔
      |phi0| ≤ 10 ∧ |phi1| ≤ 10 ∧ phi0 ≤ phi1 ∧ phi1 - phi0 ≤ 2 * Real.pi + 1e-6 ∧
      rInner ≤ (vY m).norm ∧ isclose (vY m).norm (vZ m).norm) := by
  simp only [circleCheck]
  constructor
  · intro h
    split at h
    · cases h
    split at h
    · cases h
    split at h
    · cases h
    split at h
    · cases h
    split at h
    · cases h
    rename_i a b c d e
    push Not at a b c d e
    exact ⟨le_trans (le_max_left _ _) a, le_trans (le_max_right _ _) a, b, c, d, e⟩
  · rintro ⟨a1, a2, b, c, d, e⟩
    rw [if_neg (not_lt.2 (max_le a1 a2)), if_neg (not_lt.2 b), if_neg (not_lt.2 c),
      if_neg (not_lt.2 d), if_neg (not_not.2 e)]

example : Affine (1 : M4) ∧ (vY (1 : M4)).xyz.norm = (vZ (1 : M4)).xyz.norm ∧
    (0.5 : ℝ) < (vY (1 : M4)).xyz.norm ∧ circleCheck 1 0.5 0 1 = .ok () := by
  have n : (vY (1 : M4)).xyz.norm = 1 := by simp [V3.norm, V3.dot, vY, col, H4.xyz]
  have n' : (vZ (1 : M4)).xyz.norm = 1 := by simp [V3.norm, V3.dot, vZ, col, H4.xyz]
  have aff : Affine (1 : M4) := by simp [Affine]
  have m1 : (vY (1 : M4)).norm = 1 := by rw [norm_xyz _ aff.2.1, n]
  have m2 : (vZ (1 : M4)).norm = 1 := by rw [norm_xyz _ aff.2.2.1, n']
  refine ⟨aff, by rw [n, n'], by rw [n]; norm_num, ?_⟩
  rw [C27_circle_checks, m1, m2]
  refine ⟨by norm_num, by norm_num, by norm_num, ?_, by norm_num, ?_⟩
  · have := Real.pi_gt_three; norm_num; linarith
  · simp [isclose]; norm_num

/-! ## C28 -/

theorem npRound_close (x : ℝ) : |(npRound x : ℝ) - x| ≤ 1 / 2 := by
  have h1 := Int.floor_le x
  have h2 := Int.lt_floor_add_one x
  simp only [npRound]
  split
  · rw [abs_le]; constructor <;> linarith
  · rename_i h
    push Not at h
    split
    · rw [abs_le]; push_cast; constructor <;> linarith
    · rename_i h'
      push Not at h'
      split <;> (rw [abs_le]; push_cast; constructor <;> linarith)

theorem npRound_int (n : ℤ) : npRound (n : ℝ) = n := by
  simp [npRound]

/-- **C28** A detector whose size is a multiple of the pixel size: number of pixels, pixel coordinate
of the center, range, spacing, and which pixel contains which points. `size` is half the width. -/
theorem C28_pixels (size pixsize : ℝ) (hp : 0 < pixsize) (n : ℕ) (h : 2 * size = n * pixsize)
    (ignore : Bool) :
    npix size pixsize = n ∧ ¬ pixelWarning size pixsize ignore ∧
    detpix size pixsize 0 = ((n : ℝ) - 1) / 2 ∧
    (∀ loc, |loc| ≤ size → -1 / 2 ≤ detpix size pixsize loc ∧
      detpix size pixsize loc ≤ n - 1 / 2) ∧
    (∀ loc, detpix size pixsize (loc + pixsize) = detpix size pixsize loc + 1) ∧
    -- pixel `i` is the i-th piece of the detector, counted from its lower edge
    (∀ loc (i : ℕ), |detpix size pixsize loc - i| ≤ 1 / 2 ↔
      -size + i * pixsize ≤ loc ∧ loc ≤ -size + (i + 1) * pixsize) := by
  have hq : 2 * size / pixsize = ((n : ℤ) : ℝ) := by
    rw [h]; push_cast; field_simp
  have hn : npix size pixsize = n := by rw [npix, hq, npRound_int]
  have hc : centerpix size pixsize = ((n : ℝ) - 1) / 2 := by rw [centerpix, hn]; push_cast; ring
  have hs : size = n * pixsize / 2 := by linarith
  refine ⟨hn, ?_, ?_, ?_, ?_, ?_⟩
  · rintro ⟨h1, -⟩
    rw [hn, hq, sub_self, abs_zero] at h1
    norm_num at h1
  · rw [detpix, hc]; simp
  · intro loc hl
    obtain ⟨l1, l2⟩ := abs_le.1 hl
    have e1 : -(n : ℝ) / 2 ≤ loc / pixsize := by rw [le_div_iff₀ hp]; linarith
    have e2 : loc / pixsize ≤ (n : ℝ) / 2 := by rw [div_le_iff₀ hp]; linarith
    rw [detpix, hc]
    constructor <;> linarith
  · intro loc
    simp only [detpix]
    field_simp
    ring
  · intro loc i
    have e : detpix size pixsize loc - i = (loc + size - (i + 1 / 2) * pixsize) / pixsize := by
      rw [detpix, hc, hs]; field_simp; ring
    rw [e, abs_le, le_div_iff₀ hp, div_le_iff₀ hp]
    constructor <;> rintro ⟨a, b⟩ <;> constructor <;> linarith

/-- **C28** For any size: the pixel coordinate exceeds the range of the pixels by at most a quarter
pixel at each side; without a warning by at most 0.005 pixels. -/
theorem C28_any_size (size pixsize loc : ℝ) (hp : 0 < pixsize) (hl : |loc| ≤ size) :
    (-3 / 4 ≤ detpix size pixsize loc ∧ detpix size pixsize loc ≤ npix size pixsize - 1 / 4) ∧
    (¬ pixelWarning size pixsize false →
      -0.505 ≤ detpix size pixsize loc ∧ detpix size pixsize loc ≤ npix size pixsize - 0.495) := by
  have hr := npRound_close (2 * size / pixsize)
  obtain ⟨l1, l2⟩ := abs_le.1 hl
  have e1 : -(2 * size / pixsize) / 2 ≤ loc / pixsize := by
    rw [le_div_iff₀ hp]
    have : -(2 * size / pixsize) / 2 * pixsize = -size := by field_simp
    linarith
  have e2 : loc / pixsize ≤ (2 * size / pixsize) / 2 := by
    rw [div_le_iff₀ hp]
    have : 2 * size / pixsize / 2 * pixsize = size := by field_simp
    linarith
  simp only [detpix, centerpix, pixelWarning, npix] at *
  constructor
  · obtain ⟨r1, r2⟩ := abs_le.1 hr
    constructor <;> linarith
  · intro hw
    have hw' : |2 * size / pixsize - (npRound (2 * size / pixsize) : ℝ)| ≤ 1e-2 := by
      by_contra hc
      exact hw ⟨not_le.1 hc, trivial⟩
    obtain ⟨r1, r2⟩ := abs_le.1 hw'
    norm_num at r1 r2 ⊢
    constructor <;> linarith

/-- **C28** A photon that hits the detector: the two pixel coordinates give back the place of the hit
in space, and they are in the range of the pixels. -/
theorem C28_hit (m : M4) (hm : Affine m) (ho : OrthoAxes m) (dir pos : H4) (hd : IsDir dir)
    (hp : IsPoint pos) (pixsize : ℝ) (hpix : 0 < pixsize) (q : H4) (y z : ℝ)
    (h : planeIntersect m dir pos = some (q, y, z)) :
    q.xyz = (center m).xyz +
      ((detpix (vY m).norm pixsize y - centerpix (vY m).norm pixsize) * pixsize) • (vY m).xyz.unit +
      ((detpix (vZ m).norm pixsize z - centerpix (vZ m).norm pixsize) * pixsize) • (vZ m).xyz.unit ∧
    (∀ ny nz : ℕ, 2 * (vY m).norm = ny * pixsize → 2 * (vZ m).norm = nz * pixsize →
      -1 / 2 ≤ detpix (vY m).norm pixsize y ∧ detpix (vY m).norm pixsize y ≤ ny - 1 / 2 ∧
      -1 / 2 ≤ detpix (vZ m).norm pixsize z ∧ detpix (vZ m).norm pixsize z ≤ nz - 1 / 2) := by
  have hq := ((C10_plane_intersect m hm ho dir pos hd hp).2 q y z h).2.2.2
  have back : ∀ s l : ℝ, (detpix s pixsize l - centerpix s pixsize) * pixsize = l := by
    intro s l; simp only [detpix]; field_simp; ring
  refine ⟨by rw [back, back]; exact hq, ?_⟩
  intro ny nz hy hz
  simp only [planeIntersect] at h
  split at h
  · cases h
  split at h
  · rename_i hc
    simp only [Option.some.injEq, Prod.mk.injEq] at h
    obtain ⟨-, rfl, rfl⟩ := h
    have a := (C28_pixels (vY m).norm pixsize hpix ny hy true).2.2.2.1 _ hc.2.1
    have b := (C28_pixels (vZ m).norm pixsize hpix nz hz true).2.2.2.1 _ hc.2.2
    exact ⟨a.1, a.2, b.1, b.2⟩
  · cases h

/-- **C28** `CircularDetector`: pixel coordinates count pixel lengths along the circumference (from
angle zero) and along the axis (from the center). -/
theorem C28_circular (R pixsize phi z : ℝ) (hR : 0 < R) (hp : 0 < pixsize) :
    (circDetpix R pixsize phi z).1 * pixsize = R * phi ∧ (circDetpix R pixsize phi z).2 * pixsize = z ∧
    (∀ phi' z', circDetpix R pixsize phi z = circDetpix R pixsize phi' z' → phi = phi' ∧ z = z') := by
  simp only [circDetpix]
  refine ⟨by field_simp; ring, by field_simp; ring, ?_⟩
  intro phi' z' h
  simp only [Prod.mk.injEq, add_zero] at h
  obtain ⟨h1, h2⟩ := h
  constructor
  · field_simp at h1; exact h1
  · field_simp at h2; exact h2

example : npix 5 1 = 10 ∧ detpix 5 1 (-5) = -1 / 2 ∧ detpix 5 1 (-4.5) = 0 := by
  have h := C28_pixels 5 1 (by norm_num) 10 (by norm_num) false
  have hc : centerpix 5 1 = 9 / 2 := by rw [centerpix, h.1]; norm_num
  refine ⟨h.1, ?_, ?_⟩ <;> rw [detpix, hc] <;> norm_num

end Marxs
