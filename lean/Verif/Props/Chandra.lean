import Verif.Spec.Chandra
import Verif.Spec.Placement
import Verif.Props.Tolerancing
import Verif.Props.Cylinder
import Verif.Props.Aperture
import Verif.Props.Optics
import Mathlib.Analysis.SpecialFunctions.Trigonometric.Inverse

/-!
# Properties C59, C94-C97: Chandra coordinates and pointing
-/

namespace Marxs

/-! ## C59 -/

/-- **C59** For a chip with unit scale, distances between positions are the same on the chip and on the tiled
detector. -/
theorem C59_rigid (c : TDet) (hs : (c.scale * c.handedness) ^ 2 = 1) (p q : ℝ × ℝ) :
    sqDist2 (chip2tdet c p) (chip2tdet c q) = sqDist2 p q := by
  have h := Real.sin_sq_add_cos_sq (deg2rad c.theta)
  have : sqDist2 (chip2tdet c p) (chip2tdet c q) = (c.scale * c.handedness) ^ 2 *
      ((Real.sin (deg2rad c.theta)) ^ 2 + (Real.cos (deg2rad c.theta)) ^ 2) * sqDist2 p q := by
    simp only [sqDist2, chip2tdet]; ring
  rw [this, hs, h]; ring

/-- **C59** Different positions on a chip stay different. -/
theorem C59_injective (c : TDet) (hs : c.scale * c.handedness ≠ 0) (p q : ℝ × ℝ)
    (h : chip2tdet c p = chip2tdet c q) : p = q := by
  have h1 := Real.sin_sq_add_cos_sq (deg2rad c.theta)
  simp only [chip2tdet, Prod.mk.injEq] at h
  obtain ⟨ha, hb⟩ := h
  set k := c.scale * c.handedness
  set s := Real.sin (deg2rad c.theta)
  set co := Real.cos (deg2rad c.theta)
  have hx : co * (p.1 - q.1) + s * (p.2 - q.2) = 0 := by
    have : k * (co * (p.1 - q.1) + s * (p.2 - q.2)) = 0 := by linear_combination ha
    exact (mul_eq_zero.1 this).resolve_left hs
  have hy : -s * (p.1 - q.1) + co * (p.2 - q.2) = 0 := by
    have : k * (-s * (p.1 - q.1) + co * (p.2 - q.2)) = 0 := by linear_combination hb
    exact (mul_eq_zero.1 this).resolve_left hs
  ext
  · linear_combination co * hx - s * hy - (p.1 - q.1) * h1
  · linear_combination s * hx + co * hy - (p.2 - q.2) * h1

theorem deg2rad_zero : deg2rad 0 = 0 := by simp [deg2rad]
theorem deg2rad_90 : deg2rad 90 = Real.pi / 2 := by rw [deg2rad]; ring
theorem deg2rad_270 : deg2rad 270 = Real.pi + Real.pi / 2 := by rw [deg2rad]; ring

/-- Lower left corners of the areas of the ten chips in TDET coordinates. -/
def tdetCorner : List (ℝ × ℝ) :=
  [(3061.5, 4107.5), (4107.5, 4107.5), (3061.5, 3061.5), (4107.5, 3061.5), (791.5, 1702.5), (1833.5, 1702.5),
   (2875.5, 1702.5), (3917.5, 1702.5), (4959.5, 1702.5), (6001.5, 1702.5)]

/-- **C59** Each ACIS chip covers a square of 1024 by 1024 pixels. -/
theorem C59_area (i : ℕ) (c : TDet) (hc : acisTDet[i]? = some c) (p : ℝ × ℝ) (hp : OnChip p) :
    ∃ o, tdetCorner[i]? = some o ∧ o.1 ≤ (chip2tdet c p).1 ∧ (chip2tdet c p).1 ≤ o.1 + 1024 ∧
      o.2 ≤ (chip2tdet c p).2 ∧ (chip2tdet c p).2 ≤ o.2 + 1024 := by
  have hi : i < 10 := by
    by_contra h
    rw [List.getElem?_eq_none (by simp [acisTDet]; omega)] at hc
    cases hc
  obtain ⟨h1, h2, h3, h4⟩ := hp
  have s270 : Real.sin (Real.pi + Real.pi / 2) = -1 := by
    rw [add_comm, Real.sin_add_pi, Real.sin_pi_div_two]
  have c270 : Real.cos (Real.pi + Real.pi / 2) = 0 := by
    rw [add_comm, Real.cos_add_pi, Real.cos_pi_div_two, neg_zero]
  rcases (by omega : i = 0 ∨ i = 1 ∨ i = 2 ∨ i = 3 ∨ i = 4 ∨ i = 5 ∨ i = 6 ∨ i = 7 ∨ i = 8 ∨ i = 9) with
    rfl | rfl | rfl | rfl | rfl | rfl | rfl | rfl | rfl | rfl <;>
  · simp only [acisTDet, List.getElem?_cons_zero, List.getElem?_cons_succ, Option.some.injEq] at hc
    subst hc
    refine ⟨_, rfl, ?_⟩
    simp only [chip2tdet, deg2rad_zero, deg2rad_90, deg2rad_270, s270, c270, Real.sin_zero, Real.cos_zero,
      Real.sin_pi_div_two, Real.cos_pi_div_two]
    norm_num at h1 h2 h3 h4 ⊢
    refine ⟨?_, ?_, ?_, ?_⟩ <;> linarith

/-- **C59** No position of the tiled detector belongs to two chips. -/
theorem C59_disjoint (i j : ℕ) (hij : i ≠ j) (a b : TDet) (ha : acisTDet[i]? = some a) (hb : acisTDet[j]? = some b)
    (p q : ℝ × ℝ) (hp : OnChip p) (hq : OnChip q) : chip2tdet a p ≠ chip2tdet b q := by
  intro he
  obtain ⟨o, ho, h1, h2, h3, h4⟩ := C59_area i a ha p hp
  obtain ⟨o', ho', k1, k2, k3, k4⟩ := C59_area j b hb q hq
  rw [he] at h1 h2 h3 h4
  have hx1 : o.1 ≤ o'.1 + 1024 := h1.trans k2
  have hx2 : o'.1 ≤ o.1 + 1024 := k1.trans h2
  have hy1 : o.2 ≤ o'.2 + 1024 := h3.trans k4
  have hy2 : o'.2 ≤ o.2 + 1024 := k3.trans h4
  have hi : i < 10 := by
    by_contra h
    rw [List.getElem?_eq_none (by simp [tdetCorner]; omega)] at ho
    cases ho
  have hj : j < 10 := by
    by_contra h
    rw [List.getElem?_eq_none (by simp [tdetCorner]; omega)] at ho'
    cases ho'
  clear h1 h2 h3 h4 k1 k2 k3 k4 ha hb he hp hq
  rcases (by omega : i = 0 ∨ i = 1 ∨ i = 2 ∨ i = 3 ∨ i = 4 ∨ i = 5 ∨ i = 6 ∨ i = 7 ∨ i = 8 ∨ i = 9) with
    rfl | rfl | rfl | rfl | rfl | rfl | rfl | rfl | rfl | rfl <;>
  rcases (by omega : j = 0 ∨ j = 1 ∨ j = 2 ∨ j = 3 ∨ j = 4 ∨ j = 5 ∨ j = 6 ∨ j = 7 ∨ j = 8 ∨ j = 9) with
    rfl | rfl | rfl | rfl | rfl | rfl | rfl | rfl | rfl | rfl <;>
  first
  | exact hij rfl
  | (simp only [tdetCorner, List.getElem?_cons_zero, List.getElem?_cons_succ, Option.some.injEq] at ho ho'
     subst ho; subst ho'
     first
     | (revert hx1; norm_num; done)
     | (revert hx2; norm_num; done)
     | (revert hy1; norm_num; done)
     | (revert hy2; norm_num; done))

/-- Chip I0 turns the corner of the chip by 90 degrees. -/
example : ∃ c, acisTDet[0]? = some c ∧ (c.scale * c.handedness) ^ 2 = 1 ∧ OnChip (0.5, 0.5) ∧
    chip2tdet c (0.5, 0.5) = (3061.5, 5131.5) := by
  refine ⟨_, rfl, by norm_num, by norm_num [OnChip], ?_⟩
  simp only [chip2tdet]
  norm_num

/-! ## C94 -/

theorem telescopeY_eq (p : Pointing) : (telescopeZ p).cross (skyPos p.ra p.dec) =
    Real.cos p.roll • skyEast p.ra - Real.sin p.roll • skyNorth p.ra p.dec := by
  have h := Real.sin_sq_add_cos_sq p.dec
  have h' := Real.sin_sq_add_cos_sq p.ra
  ext <;> simp [telescopeZ, skyPos, skyNorth, skyEast]
  · linear_combination -Real.cos p.roll * Real.sin p.ra * h
  · linear_combination Real.cos p.roll * Real.cos p.ra * h
  · linear_combination -Real.sin p.roll * Real.cos p.dec * h'

theorem skyOffset_flight (p : Pointing) (ra dec : ℝ) :
    -(mul3 (skyOffset p) (skyVec ra dec)) = photonFlight p (skyPos ra dec) := by
  rw [photonFlight, telescopeY_eq]
  ext <;>
    simp [skyOffset, mul3, Matrix.mul_apply, Fin.sum_univ_three, euX, euY, euZ, skyVec, V3.dot, telescopeZ,
      skyPos, skyNorth, skyEast] <;> ring

theorem skyOffset_rotation (p : Pointing) : IsRotation (skyOffset p) :=
  isRotation_mul (euX_rotation _) (isRotation_mul (euY_rotation _) (euZ_rotation _))

theorem skyPos_unit (ra dec : ℝ) : (skyPos ra dec).dot (skyPos ra dec) = 1 := by
  have h := Real.sin_sq_add_cos_sq dec
  have h' := Real.sin_sq_add_cos_sq ra
  simp only [V3.dot, skyPos]
  linear_combination (Real.cos dec) ^ 2 * h' + h

theorem photonFlight_dot (p : Pointing) (ra dec ra' dec' : ℝ) :
    (photonFlight p (skyPos ra dec)).dot (photonFlight p (skyPos ra' dec')) = (skyPos ra dec).dot (skyPos ra' dec') := by
  rw [← skyOffset_flight, ← skyOffset_flight]
  have := rotation_dot (skyOffset_rotation p) (skyVec ra dec) (skyVec ra' dec')
  rw [show (skyPos ra dec).dot (skyPos ra' dec') = (skyVec ra dec).dot (skyVec ra' dec') from rfl, ← this]
  simp [V3.dot]

/-- **C94** The direction of a photon from a fixed pointing: x points to the target, z points to the North
for roll zero and is turned by the roll from North to East, y completes the right handed system; photons fly from the
source to the telescope. The reference transform is applied to that. -/
theorem C94_direction (ref : M4) (p : Pointing) (ra dec : ℝ) :
    fixedDir ref p ra dec = some (mul4 ref (photonFlight p (skyPos ra dec)).toDir) := by
  have h1 := (photonFlight_dot p ra dec ra dec).trans (skyPos_unit ra dec)
  have hd : (photonFlight p (skyPos ra dec)).toDir.dot (photonFlight p (skyPos ra dec)).toDir = 1 := by
    rw [← h1]; simp [H4.dot, V3.toDir, V3.dot]
  rw [fixedDir, skyOffset_flight, normVector, if_neg (by rw [hd]; norm_num)]
  simp only [H4.unit, H4.norm, hd, Real.sqrt_one, div_one]
  congr 2
  ext <;> simp

/-- **C94** A source at the target is seen on the optical axis, for every roll. -/
theorem C94_on_axis (ref : M4) (p : Pointing) : fixedDir ref p p.ra p.dec = some (mul4 ref ⟨-1, 0, 0, 0⟩) := by
  rw [C94_direction, photonFlight, telescopeY_eq, skyPos_unit]
  have h := Real.sin_sq_add_cos_sq p.dec
  have h' := Real.sin_sq_add_cos_sq p.ra
  congr 2
  ext <;> simp [V3.toDir, V3.dot, telescopeZ, skyPos, skyNorth, skyEast]
  · linear_combination -Real.sin p.roll * Real.cos p.dec * Real.sin p.dec * h'
  · linear_combination Real.cos p.roll * Real.cos p.dec * Real.sin p.dec * h'

/-- **C94** Directions have unit length, and the angle between the photons from two sources is the
angle between the sources on the sky; only sources at the same position give the same direction. -/
theorem C94_angles (p : Pointing) (ref : M4) (r : M3) (hr : IsRotation r)
    (hmat : ∀ v : V3, mul4 ref v.toDir = (mul3 r v).toDir) (ra dec ra' dec' : ℝ) :
    ∃ d d', fixedDir ref p ra dec = some d ∧ fixedDir ref p ra' dec' = some d' ∧ IsDir d ∧ d.dot d = 1 ∧
      d.dot d' = (skyPos ra dec).dot (skyPos ra' dec') ∧ (d = d' ↔ skyPos ra dec = skyPos ra' dec') := by
  refine ⟨_, _, C94_direction ref p ra dec, C94_direction ref p ra' dec', ?_, ?_, ?_, ?_⟩
  · rw [hmat]; rfl
  · rw [hmat, show ∀ v w : V3, v.toDir.dot w.toDir = v.dot w by intro v w; simp [H4.dot, V3.toDir, V3.dot],
      rotation_dot hr, photonFlight_dot, skyPos_unit]
  · rw [hmat, hmat, show ∀ v w : V3, v.toDir.dot w.toDir = v.dot w by intro v w; simp [H4.dot, V3.toDir, V3.dot],
      rotation_dot hr, photonFlight_dot]
  · constructor
    · intro h
      have hd := photonFlight_dot p ra dec ra' dec'
      have h1 : (mul4 ref (photonFlight p (skyPos ra dec)).toDir).dot (mul4 ref (photonFlight p (skyPos ra' dec')).toDir) = 1 := by
        rw [← h, hmat, show ∀ v w : V3, v.toDir.dot w.toDir = v.dot w by intro v w; simp [H4.dot, V3.toDir, V3.dot],
          rotation_dot hr, photonFlight_dot, skyPos_unit]
      rw [hmat, hmat, show ∀ v w : V3, v.toDir.dot w.toDir = v.dot w by intro v w; simp [H4.dot, V3.toDir, V3.dot],
        rotation_dot hr, photonFlight_dot] at h1
      have h2 : (skyPos ra dec - skyPos ra' dec').dot (skyPos ra dec - skyPos ra' dec') = 0 := by
        rw [V3.dot_sub_left, V3.dot_sub_right, V3.dot_sub_right, skyPos_unit, skyPos_unit, h1, V3.dot_comm, h1]; ring
      have h3 := V3.dot_self_eq_zero.1 h2
      have hx := congrArg V3.x h3; have hy := congrArg V3.y h3; have hz := congrArg V3.z h3
      simp only [V3.sub_x, V3.sub_y, V3.sub_z, V3.zero_x, V3.zero_y, V3.zero_z] at hx hy hz
      ext <;> linarith
    · intro h; rw [h]

/-- The default reference transform is a rotation in the sense of the theorem. -/
example : IsRotation (1 : M3) ∧ ∀ v : V3, mul4 (1 : M4) v.toDir = (mul3 (1 : M3) v).toDir := by
  refine ⟨isRotation_one, fun v => ?_⟩
  rw [mul4_one]
  ext <;> simp [mul3, V3.toDir]

/-! ## C95 -/

theorem cos_pymod (x : ℝ) : Real.cos (pymod x (2 * Real.pi)) = Real.cos x := by
  rw [pymod, mul_comm, Real.cos_sub_int_mul_two_pi]

theorem sin_pymod (x : ℝ) : Real.sin (pymod x (2 * Real.pi)) = Real.sin x := by
  rw [pymod, mul_comm, Real.sin_sub_int_mul_two_pi]

/-- Conversion of a unit vector in the swapped system to angles. -/
theorem angles_of_vec {v : V3} (hv : v.dot v = 1) :
    skyPos (pymod (arctan2 v.x v.y) (2 * Real.pi)) (Real.pi / 2 - Real.arccos v.z) = ⟨v.y, v.x, v.z⟩ := by
  simp only [V3.dot] at hv
  have hz : v.z ^ 2 ≤ 1 := by nlinarith [sq_nonneg v.x, sq_nonneg v.y]
  obtain ⟨z1, z2⟩ := abs_le.1 (abs_le_one_iff_mul_self_le_one.2 (by nlinarith : v.z * v.z ≤ 1))
  have hc : Real.cos (Real.pi / 2 - Real.arccos v.z) = ‖(⟨v.y, v.x⟩ : ℂ)‖ := by
    rw [Real.cos_pi_div_two_sub, Real.sin_arccos, Complex.norm_def, Complex.normSq_mk]
    congr 1; linarith
  have hs : Real.sin (Real.pi / 2 - Real.arccos v.z) = v.z := by
    rw [Real.sin_pi_div_two_sub, Real.cos_arccos z1 z2]
  ext
  · simp only [skyPos, hc, cos_pymod, arctan2]
    exact Complex.norm_mul_cos_arg ⟨v.y, v.x⟩
  · simp only [skyPos, hc, sin_pymod, arctan2]
    exact Complex.norm_mul_sin_arg ⟨v.y, v.x⟩
  · exact hs

theorem ditherVec_eq (ra dec : ℝ) : ditherVec ra dec = ⟨(skyPos ra dec).y, (skyPos ra dec).x, (skyPos ra dec).z⟩ := by
  ext <;> simp [ditherVec, skyPos, Real.sin_pi_div_two_sub, Real.cos_pi_div_two_sub] <;> ring

theorem ditherVec_unit (ra dec : ℝ) : (ditherVec ra dec).dot (ditherVec ra dec) = 1 := by
  rw [ditherVec_eq, ← skyPos_unit ra dec]; simp only [V3.dot]; ring

/-- **C95** The target at a given time is the nominal target plus the offsets of the dither in right
ascension and declination, turned around the nominal target by the roll; the roll is the sum of both. -/
theorem C95_pointing (p : Pointing) (delta : V3) (roll0 : ℝ) :
    skyPos (pointingAt p delta roll0).ra (pointingAt p delta roll0).dec =
      mul3 (rotMat (skyPos p.ra p.dec) roll0) (skyPos (p.ra + delta.x) (p.dec + delta.y)) ∧
    (pointingAt p delta roll0).roll = p.roll + delta.z ∧
    0 ≤ (pointingAt p delta roll0).ra ∧ (pointingAt p delta roll0).ra < 2 * Real.pi ∧
    |(pointingAt p delta roll0).dec| ≤ Real.pi / 2 := by
  have hu : (mul3 (rotMat (ditherVec p.ra p.dec) (-roll0)) (ditherVec (p.ra + delta.x) (p.dec + delta.y))).dot
      (mul3 (rotMat (ditherVec p.ra p.dec) (-roll0)) (ditherVec (p.ra + delta.x) (p.dec + delta.y))) = 1 := by
    rw [rotation_dot (C16_axangle_rotation _ (ditherVec_unit _ _) _).1, ditherVec_unit]
  refine ⟨?_, rfl, pymod_nonneg two_pi_pos _, pymod_lt two_pi_pos _, ?_⟩
  · simp only [pointingAt]
    rw [angles_of_vec hu, rodrigues, rodrigues, ditherVec_eq, ditherVec_eq, Real.cos_neg, Real.sin_neg]
    ext <;> simp [V3.dot] <;> ring
  · simp only [pointingAt]
    rw [abs_le]
    constructor <;> linarith [Real.arccos_nonneg (mul3 (rotMat (ditherVec p.ra p.dec) (-roll0))
      (ditherVec (p.ra + delta.x) (p.dec + delta.y))).z, Real.arccos_le_pi (mul3 (rotMat (ditherVec p.ra p.dec) (-roll0))
      (ditherVec (p.ra + delta.x) (p.dec + delta.y))).z]

/-- **C95** How far the target moves from the nominal target does not depend on the roll. -/
theorem C95_distance (p : Pointing) (delta : V3) (roll0 : ℝ) :
    (skyPos (pointingAt p delta roll0).ra (pointingAt p delta roll0).dec).dot (skyPos p.ra p.dec) =
      (skyPos (p.ra + delta.x) (p.dec + delta.y)).dot (skyPos p.ra p.dec) := by
  obtain ⟨h1, h2⟩ := C16_axangle_rotation (skyPos p.ra p.dec) (skyPos_unit _ _) roll0
  rw [(C95_pointing p delta roll0).1]
  conv_lhs => rw [← h2]
  rw [h2, ← rotation_dot h1 (skyPos (p.ra + delta.x) (p.dec + delta.y)), h2]

/-- **C95** The offsets of the dither stay within the amplitudes (the offset in right ascension on the sky, that is times
the cosine of the declination) and repeat with the periods. -/
theorem C95_bounds (d : Dither) (p : Pointing) (hdec : Real.cos p.dec ≠ 0) (t : ℝ) :
    |(ditherAt d p t).x * Real.cos p.dec| ≤ |d.amp.x| ∧ |(ditherAt d p t).y| ≤ |d.amp.y| ∧
    |(ditherAt d p t).z| ≤ |d.amp.z| ∧
    (∀ k : ℤ, d.period.x ≠ 0 → (ditherAt d p (t + k * d.period.x)).x = (ditherAt d p t).x) ∧
    (∀ k : ℤ, d.period.y ≠ 0 → (ditherAt d p (t + k * d.period.y)).y = (ditherAt d p t).y) ∧
    (∀ k : ℤ, d.period.z ≠ 0 → (ditherAt d p (t + k * d.period.z)).z = (ditherAt d p t).z) := by
  have hb : ∀ a q f : ℝ, |lissajous a q f t| ≤ |a| := by
    intro a q f
    rw [lissajous, abs_mul]
    exact mul_le_of_le_one_right (abs_nonneg _) (Real.abs_sin_le_one _)
  have hper : ∀ (a q f : ℝ) (k : ℤ), q ≠ 0 → lissajous a q f (t + k * q) = lissajous a q f t := by
    intro a q f k hq
    rw [lissajous, lissajous, show 2 * Real.pi * (t + k * q) / q + f = 2 * Real.pi * t / q + f + k * (2 * Real.pi) by
      field_simp; ring, Real.sin_add_int_mul_two_pi]
  refine ⟨?_, hb _ _ _, hb _ _ _, fun k hk => ?_, fun k hk => hper _ _ _ k hk, fun k hk => hper _ _ _ k hk⟩
  · simp only [ditherAt]
    rw [div_mul_cancel₀ _ hdec]
    exact hb _ _ _
  · simp only [ditherAt]
    rw [hper _ _ _ k hk]

theorem ditherDir_flight (q : Pointing) (ra dec : ℝ) :
    ditherDir q ra dec = (photonFlight q (skyPos ra dec)).toDir := by
  rw [← skyOffset_flight, ditherDir]
  congr 1
  ext <;> simp [eulerRzyx, skyOffset, mul3, Matrix.mul_apply, Fin.sum_univ_three, euX, euY, euZ, skyVec] <;> ring

/-- **C95** Every photon flies as it would for a fixed pointing at the target of that time. -/
theorem C95_direction (ref : M4) (d : Dither) (p : Pointing) (photons : List (ℝ × ℝ × ℝ)) (out : List H4)
    (h : ditherPhotons ref d p photons = .ok out) :
    out.length = photons.length ∧ ∃ roll0 : ℝ, ∀ (i : ℕ) (ph : ℝ × ℝ × ℝ), photons[i]? = some ph →
      ∃ o, out[i]? = some o ∧
        fixedDir 1 (pointingAt p (ditherAt d p ph.1) roll0) ph.2.1 ph.2.2 = some o ∧
        isclose (p.roll + (ditherAt d p ph.1).z) roll0 := by
  unfold ditherPhotons at h
  simp only [bind, Except.bind] at h
  split at h
  · cases h
  next pts hp =>
  cases h
  unfold lissajousPointing at hp
  split at hp
  · cases hp
  next d0 ds hd =>
  split at hp
  next hclose =>
    cases hp
    rw [← hd] at hclose ⊢
    refine ⟨by simp, p.roll + d0.z, fun i ph hi => ?_⟩
    refine ⟨ditherDir (pointingAt p (ditherAt d p ph.1) (p.roll + d0.z)) ph.2.1 ph.2.2, ?_, ?_, ?_⟩
    · rw [List.getElem?_zipWith]; simp [hi]
    · rw [C94_direction, mul4_one, ditherDir_flight]
    · refine hclose _ ?_
      simp only [List.map_map, List.mem_map]
      exact ⟨ph, List.mem_of_getElem? hi, rfl⟩
  · cases hp

/-- **C95** Without dither the result is the same as for a fixed pointing with the same coordinates and roll. The full
property includes the reference transform, see `C95_reference_false`. -/
theorem C95_no_dither_partial (d : Dither) (hd : d.amp = ⟨0, 0, 0⟩) (p : Pointing) (h1 : -(Real.pi / 2) < p.dec)
    (h2 : p.dec < Real.pi / 2) (photons : List (ℝ × ℝ × ℝ)) (hne : photons ≠ []) :
    ∃ out, ditherPhotons 1 d p photons = .ok out ∧
      out.map some = photons.map fun ph => fixedDir 1 p ph.2.1 ph.2.2 := by
  have h0 : ∀ t, ditherAt d p t = ⟨0, 0, 0⟩ := by
    intro t; simp [ditherAt, lissajous, hd]
  have hpt : ∀ ra dec, ditherDir (pointingAt p ⟨0, 0, 0⟩ p.roll) ra dec = (photonFlight p (skyPos ra dec)).toDir := by
    intro ra dec
    have hv : mul3 (rotMat (ditherVec p.ra p.dec) (-p.roll)) (ditherVec (p.ra + 0) (p.dec + 0)) = ditherVec p.ra p.dec := by
      rw [add_zero, add_zero]
      exact (C16_axangle_rotation _ (ditherVec_unit _ _) _).2
    have hdec : (pointingAt p ⟨0, 0, 0⟩ p.roll).dec = p.dec := by
      simp only [pointingAt, hv]
      rw [ditherVec_eq]
      simp only [skyPos]
      rw [← Real.cos_pi_div_two_sub, Real.arccos_cos (by linarith) (by linarith [Real.pi_pos])]
      ring
    have hpos : skyPos (pointingAt p ⟨0, 0, 0⟩ p.roll).ra (pointingAt p ⟨0, 0, 0⟩ p.roll).dec = skyPos p.ra p.dec := by
      simp only [pointingAt, hv]
      rw [angles_of_vec (ditherVec_unit _ _), ditherVec_eq]
    have hc : Real.cos p.dec ≠ 0 := (Real.cos_pos_of_mem_Ioo ⟨h1, h2⟩).ne'
    have hcr : Real.cos (pointingAt p ⟨0, 0, 0⟩ p.roll).ra = Real.cos p.ra := by
      have := congrArg V3.x hpos
      simp only [skyPos, hdec] at this
      exact mul_left_cancel₀ hc this
    have hsr : Real.sin (pointingAt p ⟨0, 0, 0⟩ p.roll).ra = Real.sin p.ra := by
      have := congrArg V3.y hpos
      simp only [skyPos, hdec] at this
      exact mul_left_cancel₀ hc this
    have hroll : (pointingAt p ⟨0, 0, 0⟩ p.roll).roll = p.roll := by simp [pointingAt]
    rw [ditherDir_flight]
    rw [photonFlight, photonFlight, hpos]
    simp only [telescopeZ, skyNorth, skyEast, hcr, hsr, hdec, hroll]
  obtain ⟨ph0, phs, rfl⟩ := List.exists_cons_of_ne_nil hne
  have hl : lissajousPointing d p ((ph0 :: phs).map fun q => q.1) =
      .ok ((ph0 :: phs).map fun _ => pointingAt p ⟨0, 0, 0⟩ p.roll) := by
    simp only [lissajousPointing, List.map_cons, h0, List.map_map]
    rw [if_pos]
    · simp only [add_zero, List.map_cons, List.map_map, Function.comp_def, h0]
    · intro q hq
      have : q = ⟨0, 0, 0⟩ := by
        rcases List.mem_cons.1 hq with h | h
        · exact h
        · obtain ⟨t, -, rfl⟩ := List.mem_map.1 h
          exact h0 _
      rw [this]
      exact isclose_refl _
  refine ⟨_, by simp only [ditherPhotons, hl, bind, Except.bind]; rfl, ?_⟩
  generalize ph0 :: phs = l
  induction l with
  | nil => rfl
  | cons a l ih =>
    simp only [List.map_cons, List.zipWith_cons_cons] at ih ⊢
    rw [ih, hpt, C94_direction, mul4_one]

/-- **C95** The reference transform, which is documented for pointings and accepted by the constructor, is not applied to
dithered photons. -/
theorem C95_reference_false :
    ¬ ∀ (ref : M4) (d : Dither) (p : Pointing) (photons : List (ℝ × ℝ × ℝ)) (out : List H4), d.amp = ⟨0, 0, 0⟩ →
      ditherPhotons ref d p photons = .ok out → out.map some = photons.map fun ph => fixedDir ref p ph.2.1 ph.2.2 := by
  intro h
  obtain ⟨out, ho, he⟩ := C95_no_dither_partial ⟨⟨0, 0, 0⟩, ⟨1, 1, 1⟩, ⟨0, 0, 0⟩⟩ rfl ⟨0, 0, 0⟩ (by simp [Real.pi_pos])
    (by simp [Real.pi_pos]) [(0, 0, 0)] (by simp)
  have h2 := h (2 • 1) ⟨⟨0, 0, 0⟩, ⟨1, 1, 1⟩, ⟨0, 0, 0⟩⟩ ⟨0, 0, 0⟩ [(0, 0, 0)] out rfl ho
  rw [he] at h2
  simp only [List.map_cons, List.map_nil, List.cons.injEq, and_true] at h2
  rw [C94_on_axis 1 ⟨0, 0, 0⟩, C94_on_axis _ ⟨0, 0, 0⟩] at h2
  have := congrArg H4.x (Option.some.inj h2)
  simp [mul4] at this

/-- **C95** A dither without roll works for every list of photons that is not empty; all photons use the nominal roll. -/
theorem C95_succeeds (ref : M4) (d : Dither) (hd : d.amp.z = 0) (p : Pointing) (photons : List (ℝ × ℝ × ℝ))
    (hne : photons ≠ []) :
    ∃ out, ditherPhotons ref d p photons = .ok out ∧ ∀ (i : ℕ) (ph : ℝ × ℝ × ℝ), photons[i]? = some ph →
      out[i]? = fixedDir 1 (pointingAt p (ditherAt d p ph.1) p.roll) ph.2.1 ph.2.2 := by
  have h0 : ∀ t, (ditherAt d p t).z = 0 := by intro t; simp [ditherAt, lissajous, hd]
  obtain ⟨ph0, phs, rfl⟩ := List.exists_cons_of_ne_nil hne
  have hl : lissajousPointing d p ((ph0 :: phs).map fun q => q.1) =
      .ok ((ph0 :: phs).map fun q => pointingAt p (ditherAt d p q.1) p.roll) := by
    simp only [lissajousPointing, List.map_cons, List.map_map]
    rw [if_pos]
    · simp only [List.map_cons, List.map_map, Function.comp_def, h0, add_zero]
    · intro q hq
      have : q.z = 0 := by
        rcases List.mem_cons.1 hq with h | h
        · rw [h]; exact h0 _
        · obtain ⟨t, -, rfl⟩ := List.mem_map.1 h
          exact h0 _
      rw [this, h0]
      exact isclose_refl _
  refine ⟨_, by simp only [ditherPhotons, hl, bind, Except.bind]; rfl, fun i ph hi => ?_⟩
  rw [List.getElem?_zipWith, List.getElem?_map, hi]
  simp only [Option.map_some]
  rw [C94_direction, mul4_one, ditherDir_flight]

/-- The default dither of Chandra. -/
example : ∃ out, ditherPhotons 1 ⟨⟨8 / 206265, 8 / 206265, 0⟩, ⟨1000, 707, 1e5⟩, ⟨0, 0, 0⟩⟩ ⟨1, 0.5, 0.3⟩
    [(0, 1, 0.5), (20, 1.01, 0.5)] = .ok out := by
  obtain ⟨out, h, -⟩ := C95_succeeds 1 ⟨⟨8 / 206265, 8 / 206265, 0⟩, ⟨1000, 707, 1e5⟩, ⟨0, 0, 0⟩⟩ rfl ⟨1, 0.5, 0.3⟩
    [(0, 1, 0.5), (20, 1.01, 0.5)] (by simp)
  exact ⟨out, h⟩

/-- **C95** A dither in roll that can be noticed (some photon arrives when the roll differs from that of the first
photon by more than the tolerance of `np.allclose`) makes the simulation fail. -/
theorem C95_roll_dither_error (ref : M4) (d : Dither) (p : Pointing) (photons : List (ℝ × ℝ × ℝ)) (a : ℝ × ℝ × ℝ)
    (ha : photons.head? = some a) (b : ℝ × ℝ × ℝ) (hb : b ∈ photons)
    (hroll : ¬ isclose (p.roll + (ditherAt d p b.1).z) (p.roll + (ditherAt d p a.1).z)) :
    ditherPhotons ref d p photons = .error .nameError := by
  cases photons with
  | nil => simp at ha
  | cons c l =>
    simp only [List.head?_cons, Option.some.injEq] at ha
    subst ha
    have : lissajousPointing d p ((c :: l).map fun q => q.1) = .error .nameError := by
      simp only [lissajousPointing, List.map_cons]
      rw [if_neg]
      intro h
      refine hroll (h _ ?_)
      rcases List.mem_cons.1 hb with h1 | h1
      · rw [h1]; exact List.mem_cons_self
      · refine List.mem_cons_of_mem _ ?_
        simp only [List.map_map, List.mem_map]
        exact ⟨b, h1, rfl⟩
    simp only [ditherPhotons, this, bind, Except.bind]

/-- **C95** Thus a documented dither amplitude for the roll cannot be used: with amplitude 1 and period 4, two photons at the
times 0 and 1 are enough. -/
theorem C95_roll_dither_false :
    ¬ ∀ (d : Dither) (p : Pointing) (photons : List (ℝ × ℝ × ℝ)), photons ≠ [] →
      ∃ out, ditherPhotons 1 d p photons = .ok out := by
  intro h
  obtain ⟨out, ho⟩ := h ⟨⟨0, 0, 1⟩, ⟨1, 1, 4⟩, ⟨0, 0, 0⟩⟩ ⟨0, 0, 0⟩ [(0, 0, 0), (1, 0, 0)] (by simp)
  rw [C95_roll_dither_error _ _ _ _ (0, 0, 0) rfl (1, 0, 0) (by simp) ?_] at ho
  · cases ho
  · simp only [ditherAt, lissajous, isclose]
    rw [show 2 * Real.pi * 1 / 4 + 0 = Real.pi / 2 by ring, Real.sin_pi_div_two]
    norm_num

/-- **C95** The dither pattern does not turn with the telescope: an offset in declination, which moves the target along the z axis
of the telescope for roll 0, moves it perpendicular to the z axis for a roll of 45 degrees (the roll is applied to the pattern in
the opposite direction). -/
theorem C95_pattern_false :
    ¬ ∀ (p : Pointing) (b : ℝ), (skyPos (pointingAt p ⟨0, b, 0⟩ p.roll).ra (pointingAt p ⟨0, b, 0⟩ p.roll).dec).dot
      ((telescopeZ p).cross (skyPos p.ra p.dec)) = 0 := by
  intro h
  have h1 := h ⟨0, 0, Real.pi / 4⟩ (Real.pi / 2)
  rw [(C95_pointing _ _ _).1, telescopeY_eq, rodrigues] at h1
  simp [V3.dot, skyPos, skyNorth, skyEast] at h1

/-! ## C96 -/

/-- **C96** Each chip is placed such that its corners are where the table has them, shifted by the origin of the
instrument and the aimpoint. -/
theorem C96_corners (c : Corners) (aim off : V3) :
    mul4 (acisPos c aim off) ⟨0, -1, -1, 1⟩ = (c.ll + acisOLSI + aim - off).toPoint ∧
    mul4 (acisPos c aim off) ⟨0, 1, -1, 1⟩ = (c.lr + acisOLSI + aim - off).toPoint ∧
    mul4 (acisPos c aim off) ⟨0, -1, 1, 1⟩ = (c.ul + acisOLSI + aim - off).toPoint ∧
    mul4 (acisPos c aim off) ⟨0, 1, 1, 1⟩ = (c.lr + c.ul - c.ll + acisOLSI + aim - off).toPoint := by
  refine ⟨?_, ?_, ?_, ?_⟩ <;> ext <;> simp [acisPos, mul4, V3.toPoint] <;> ring

/-- **C96** The normal of a chip is perpendicular to its edges and has unit length (for chips that are not degenerate). -/
theorem C96_normal (c : Corners) (h : (c.lr - c.ll).cross (c.ul - c.ll) ≠ 0) (aim off : V3) :
    let n := (mul4 (acisPos c aim off) ⟨1, 0, 0, 0⟩).xyz
    n.dot n = 1 ∧ n.dot (c.lr - c.ll) = 0 ∧ n.dot (c.ul - c.ll) = 0 := by
  have hn : (mul4 (acisPos c aim off) ⟨1, 0, 0, 0⟩).xyz = ((c.lr - c.ll).cross (c.ul - c.ll)).unit := by
    ext <;> simp [acisPos, mul4]
  simp only [hn]
  refine ⟨V3.unit_dot_unit h, ?_, ?_⟩
  · rw [V3.unit, V3.dot_smul_left, V3.dot_comm, V3.dot_cross_left, mul_zero]
  · rw [V3.unit, V3.dot_smul_left, V3.dot_comm, V3.dot_cross_right, mul_zero]

/-- The first chip in the table is not degenerate. -/
example : ∃ c ∈ acisCorners, (c.lr - c.ll).cross (c.ul - c.ll) ≠ 0 := by
  refine ⟨_, List.mem_cons_self, fun h => ?_⟩
  have := congrArg V3.x h
  norm_num [V3.cross] at this

/-- **C96** In the table, the fourth corner of every chip is within 3 micrometer of the position that follows from the other
three, and the lengths of the edges give 1024 pixels of 24 micrometer in both directions. -/
theorem C96_table (c : Corners) (hc : c ∈ acisCorners) :
    |(c.lr + c.ul - c.ll).x - c.ur.x| ≤ 0.003 ∧ |(c.lr + c.ul - c.ll).y - c.ur.y| ≤ 0.003 ∧
    |(c.lr + c.ul - c.ll).z - c.ur.z| ≤ 0.003 ∧
    npix ((c.lr - c.ll).norm / 2) 0.024 = 1024 ∧ npix ((c.ul - c.ll).norm / 2) 0.024 = 1024 := by
  have hnp : ∀ v : V3, 24.57 ^ 2 ≤ v.dot v → v.dot v ≤ 24.585 ^ 2 → npix (v.norm / 2) 0.024 = 1024 := by
    intro v h1 h2
    have a1 : (24.57 : ℝ) ≤ v.norm := Real.le_sqrt_of_sq_le h1
    have a2 : v.norm ≤ 24.585 := by
      rw [V3.norm, Real.sqrt_le_left (by norm_num)]; exact h2
    have hr := npRound_close (2 * (v.norm / 2) / 0.024)
    rw [abs_le] at hr
    have b1 : (1023.75 : ℝ) ≤ 2 * (v.norm / 2) / 0.024 := by rw [le_div_iff₀ (by norm_num)]; linarith
    have b2 : 2 * (v.norm / 2) / 0.024 ≤ (1024.375 : ℝ) := by rw [div_le_iff₀ (by norm_num)]; linarith
    have l1 : (1023 : ℝ) < npRound (2 * (v.norm / 2) / 0.024) := by linarith
    have l2 : (npRound (2 * (v.norm / 2) / 0.024) : ℝ) < 1025 := by linarith
    have l1' : 1023 < npRound (2 * (v.norm / 2) / 0.024) := by exact_mod_cast l1
    have l2' : npRound (2 * (v.norm / 2) / 0.024) < 1025 := by exact_mod_cast l2
    unfold npix
    omega
  simp only [acisCorners, List.mem_cons, List.not_mem_nil, or_false] at hc
  rcases hc with rfl | rfl | rfl | rfl | rfl | rfl | rfl | rfl | rfl | rfl <;>
    refine ⟨?_, ?_, ?_, hnp _ ?_ ?_, hnp _ ?_ ?_⟩ <;> simp only [V3.dot, V3.add_x, V3.add_y, V3.add_z, V3.sub_x, V3.sub_y, V3.sub_z] <;>
    first
    | (rw [abs_le]; constructor <;> norm_num; done)
    | (norm_num; done)

/-- **C96** The offset of the detector can be left out. -/
theorem C96_constructor_partial : acisDetOffset ["aimpoint"] = .ok ⟨0, 0, 0⟩ := by
  simp [acisDetOffset]

/-- **C96** But every other keyword argument, in particular the offsets that are read there, makes the constructor
fail: the name of the argument is given as a list. -/
theorem C96_constructor_error (names : List String) (h : "aimpoint" ∈ names) (k : String) (hk : k ∈ names)
    (hne : k ≠ "aimpoint") : acisDetOffset names = .error .typeError := by
  rw [acisDetOffset, if_neg (by simpa using h), if_neg]
  intro he
  have : k ∈ names.erase "aimpoint" := (List.mem_erase_of_ne hne).2 hk
  rw [he] at this
  cases this

/-- The documented offset. -/
example : acisDetOffset ["aimpoint", "DetOffsetX"] = .error .typeError :=
  C96_constructor_error _ (by simp) "DetOffsetX" (by simp) (by decide)

/-! ## C97 -/

theorem acisPix_pos : 0 < acisPix := by
  unfold acisPix deg2rad; have := Real.pi_pos; positivity

/-- Roll as in the header. -/
theorem deg2rad_deg (roll : ℝ) : deg2rad (roll * 180 / Real.pi) = roll := by
  have := Real.pi_ne_zero
  rw [deg2rad]; field_simp

theorem acisXY_ray (p : Pointing) (s : V3) (hs : 0 < s.dot (skyPos p.ra p.dec)) (pos : V3)
    (hpos : OnRayThrough ⟨nominalFocallength, 0, 0⟩ (photonFlight p s) pos) :
    acisXY pos = some ((Real.cos p.roll * tangentEast p s - Real.sin p.roll * tangentNorth p s) / acisPix,
      (Real.cos p.roll * tangentNorth p s + Real.sin p.roll * tangentEast p s) / acisPix) := by
  obtain ⟨l, hl, rfl⟩ := hpos
  have hx : (photonFlight p s).x ≠ 0 := by simp only [photonFlight]; linarith
  have hne := hs.ne'
  have hm : nominalFocallength + l * (photonFlight p s).x - nominalFocallength = l * (photonFlight p s).x := by ring
  simp only [acisXY, V3.add_x, V3.add_y, V3.add_z, V3.smul_x, V3.smul_y, V3.smul_z, hm, zero_add]
  rw [if_neg (mul_ne_zero hl hx), mul_div_mul_left _ _ hl, mul_div_mul_left _ _ hl]
  simp only [photonFlight, telescopeY_eq, neg_div_neg_eq, tangentEast, tangentNorth]
  simp only [telescopeZ, V3.dot_sub_right, V3.dot_add_right, V3.dot_smul_right]
  congr 3 <;> field_simp

/-- **C97** Detector coordinates are the position in the tangent plane along the axes of the telescope. -/
theorem C97_det (p : Pointing) (s : V3) (hs : 0 < s.dot (skyPos p.ra p.dec)) (pos : V3)
    (hpos : OnRayThrough ⟨nominalFocallength, 0, 0⟩ (photonFlight p s) pos) :
    ∃ x y, acisXY pos = some (x, y) ∧ ∀ roll,
      (acisDetSky roll x y).1 = (4096.5 - (Real.cos p.roll * tangentEast p s - Real.sin p.roll * tangentNorth p s) / acisPix,
        4096.5 + (Real.cos p.roll * tangentNorth p s + Real.sin p.roll * tangentEast p s) / acisPix) :=
  ⟨_, _, acisXY_ray p s hs pos hpos, fun _ => rfl⟩

/-- **C97** Sky coordinates as they are computed: the position in the tangent plane is turned by twice the
roll. -/
theorem C97_sky (p : Pointing) (s : V3) (hs : 0 < s.dot (skyPos p.ra p.dec)) (pos : V3)
    (hpos : OnRayThrough ⟨nominalFocallength, 0, 0⟩ (photonFlight p s) pos) :
    ∃ x y, acisXY pos = some (x, y) ∧ (acisDetSky (p.roll * 180 / Real.pi) x y).2 =
      (4096.5 - (Real.cos (2 * p.roll) * tangentEast p s - Real.sin (2 * p.roll) * tangentNorth p s) / acisPix,
       4096.5 + (Real.cos (2 * p.roll) * tangentNorth p s + Real.sin (2 * p.roll) * tangentEast p s) / acisPix) := by
  refine ⟨_, _, acisXY_ray p s hs pos hpos, ?_⟩
  have h := Real.sin_sq_add_cos_sq p.roll
  simp only [acisDetSky, deg2rad_deg, Real.cos_two_mul', Real.sin_two_mul, odet]
  congr 1 <;> ring

/-- **C97** For roll 0 and 180 degrees, the sky coordinates of a photon are the position of its source on the
sky, x to the West and y to the North. The full property has no condition on the roll. -/
theorem C97_sky_partial (p : Pointing) (hroll : Real.sin p.roll = 0) (s : V3) (hs : 0 < s.dot (skyPos p.ra p.dec)) (pos : V3)
    (hpos : OnRayThrough ⟨nominalFocallength, 0, 0⟩ (photonFlight p s) pos) :
    ∃ x y, acisXY pos = some (x, y) ∧ (acisDetSky (p.roll * 180 / Real.pi) x y).2 =
      (4096.5 - tangentEast p s / acisPix, 4096.5 + tangentNorth p s / acisPix) := by
  obtain ⟨x, y, h1, h2⟩ := C97_sky p s hs pos hpos
  refine ⟨x, y, h1, ?_⟩
  rw [h2, Real.cos_two_mul', Real.sin_two_mul, hroll]
  have h := Real.sin_sq_add_cos_sq p.roll
  rw [hroll] at h
  have hc : Real.cos p.roll ^ 2 = 1 := by linarith
  rw [hc]
  congr 1 <;> ring

/-- **C97** For other rolls the sky coordinates depend on the roll: the same source is found at a different
position. -/
theorem C97_sky_false :
    ¬ ∀ (p : Pointing) (s : V3), 0 < s.dot (skyPos p.ra p.dec) → ∀ pos : V3,
      OnRayThrough ⟨nominalFocallength, 0, 0⟩ (photonFlight p s) pos →
      ∃ x y, acisXY pos = some (x, y) ∧ (acisDetSky (p.roll * 180 / Real.pi) x y).2 =
        (4096.5 - tangentEast p s / acisPix, 4096.5 + tangentNorth p s / acisPix) := by
  intro h
  have hs : 0 < (⟨1, 1, 0⟩ : V3).dot (skyPos (⟨0, 0, Real.pi / 2⟩ : Pointing).ra (⟨0, 0, Real.pi / 2⟩ : Pointing).dec) := by
    simp [V3.dot, skyPos]
  have hr : OnRayThrough ⟨nominalFocallength, 0, 0⟩ (photonFlight ⟨0, 0, Real.pi / 2⟩ ⟨1, 1, 0⟩)
    (⟨nominalFocallength, 0, 0⟩ + (1 : ℝ) • photonFlight ⟨0, 0, Real.pi / 2⟩ ⟨1, 1, 0⟩) := ⟨1, one_ne_zero, rfl⟩
  obtain ⟨x, y, h1, h2⟩ := h ⟨0, 0, Real.pi / 2⟩ ⟨1, 1, 0⟩ hs _ hr
  obtain ⟨x', y', h1', h2'⟩ := C97_sky ⟨0, 0, Real.pi / 2⟩ ⟨1, 1, 0⟩ hs _ hr
  rw [h1] at h1'
  simp only [Option.some.injEq, Prod.mk.injEq] at h1'
  obtain ⟨rfl, rfl⟩ := h1'
  rw [h2] at h2'
  have hx := congrArg Prod.fst h2'
  simp only [show 2 * (Real.pi / 2) = Real.pi by ring, Real.cos_pi, Real.sin_pi] at hx
  have ht : tangentEast ⟨0, 0, Real.pi / 2⟩ ⟨1, 1, 0⟩ = 1 := by
    simp [tangentEast, V3.dot, skyEast, skyPos]
  rw [ht] at hx
  have := acisPix_pos
  field_simp at hx
  linarith

/-- A source 0.1 to the east of the target and a point behind the mirror on the ray through its center. -/
example : 0 < (⟨1, 0.1, 0⟩ : V3).dot (skyPos 0 0) ∧
    OnRayThrough ⟨nominalFocallength, 0, 0⟩ (photonFlight ⟨0, 0, 0⟩ ⟨1, 0.1, 0⟩)
      (⟨nominalFocallength, 0, 0⟩ + (10000 : ℝ) • photonFlight ⟨0, 0, 0⟩ ⟨1, 0.1, 0⟩) :=
  ⟨by simp [V3.dot, skyPos], 10000, by norm_num, rfl⟩

/-- **C96** The centers of the chip coordinates: for a chip of `n` whole pixels, the chip coordinates go from 0.5 to
`n + 0.5` from one edge to the other. -/
theorem C96_chip_coordinates (n : ℕ) (pixsize : ℝ) (hp : 0 < pixsize) (loc : ℝ) :
    chipCoord (n * pixsize / 2) pixsize loc = loc / pixsize + (n + 1) / 2 ∧
    (|loc| ≤ n * pixsize / 2 ↔ 0.5 ≤ chipCoord (n * pixsize / 2) pixsize loc ∧
      chipCoord (n * pixsize / 2) pixsize loc ≤ n + 0.5) := by
  have hn : npix (n * pixsize / 2) pixsize = n := by
    have : 2 * (n * pixsize / 2) / pixsize = ((n : ℤ) : ℝ) := by push_cast; field_simp
    rw [npix, this, npRound_int]
  have he : chipCoord (n * pixsize / 2) pixsize loc = loc / pixsize + (n + 1) / 2 := by
    rw [chipCoord, centerpix, hn]; push_cast; ring
  refine ⟨he, ?_⟩
  rw [he, abs_le]
  have hq : loc = loc / pixsize * pixsize := by field_simp
  constructor
  · rintro ⟨h1, h2⟩
    have h3 : -(n / 2 : ℝ) ≤ loc / pixsize := by rw [le_div_iff₀ hp]; linarith
    have h4 : loc / pixsize ≤ n / 2 := by rw [div_le_iff₀ hp]; linarith
    constructor <;> norm_num <;> linarith
  · rintro ⟨h1, h2⟩
    have h3 : -(n / 2 : ℝ) ≤ loc / pixsize := by norm_num at h1; linarith
    have h4 : loc / pixsize ≤ n / 2 := by norm_num at h2; linarith
    rw [le_div_iff₀ hp] at h3
    rw [div_le_iff₀ hp] at h4
    constructor <;> linarith

/-- **C96** `chips` selects chips by number in the given order; the call fails if a number does not exist. -/
theorem C96_chips {α : Type} (elements : List α) (chips : List ℕ) :
    (∀ i ∈ chips, i < elements.length) →
      ∃ l, acisChips elements (chips.map fun i : ℕ => (i : ℤ)) = .ok l ∧ l.map some = chips.map fun i => elements[i]? := by
  induction chips with
  | nil => intro _; exact ⟨[], rfl, rfl⟩
  | cons i is ih =>
    intro h
    obtain ⟨l, h1, h2⟩ := ih fun j hj => h j (List.mem_cons_of_mem _ hj)
    have hi := h i List.mem_cons_self
    have e1 : elements[i]? = some elements[i] := List.getElem?_eq_getElem hi
    have hneg : ¬ ((i : ℤ) < 0) := by omega
    have hneg' : ¬ ((i : ℤ) < -(elements.length : ℤ)) := by omega
    refine ⟨elements[i] :: l, ?_, by simp [h2, e1]⟩
    simp only [List.map_cons, acisChips, hneg, if_false, Int.toNat_natCast, e1, hneg', decide_false, h1, bind, Except.bind]

/-- **C96** -/
theorem C96_chips_error {α : Type} (elements : List α) (pre post : List ℕ) (i : ℕ) (hi : elements.length ≤ i) :
    acisChips elements ((pre ++ i :: post).map fun i : ℕ => (i : ℤ)) = .error .indexError := by
  induction pre with
  | nil =>
    have hneg : ¬ ((i : ℤ) < 0) := by omega
    simp only [List.nil_append, List.map_cons, acisChips, hneg, if_false, Int.toNat_natCast, List.getElem?_eq_none hi]
  | cons j pre ih =>
    have hneg : ¬ ((j : ℤ) < 0) := by omega
    have hneg' : ¬ ((j : ℤ) < -(elements.length : ℤ)) := by omega
    simp only [List.cons_append, List.map_cons, acisChips, hneg, if_false, Int.toNat_natCast, hneg', decide_false]
    rw [ih]
    cases elements[j]? <;> rfl

/-- Chips of the spectroscopic array. -/
example : ∃ l, acisChips ["I0", "I1", "I2", "I3", "S0", "S1", "S2", "S3", "S4", "S5"] [4, 5, 6] = .ok l ∧
    l = ["S0", "S1", "S2"] := ⟨_, rfl, rfl⟩

end Marxs
