import Verif.Spec.Imaging
import Verif.Props.Chandra
import Verif.Props.Aperture

/-!
# C147: images of the sky
-/

namespace Marxs
open Classical

theorem upright_axes (x : ℝ) {a b : ℝ} (ha : 0 < a) (hb : 0 < b) :
    center (upright x a b) = ⟨x, 0, 0, 1⟩ ∧ eX (upright x a b) = ⟨1, 0, 0, 0⟩ ∧ eY (upright x a b) = ⟨0, 1, 0, 0⟩ ∧
    eZ (upright x a b) = ⟨0, 0, 1, 0⟩ ∧ (vY (upright x a b)).norm = a ∧ (vZ (upright x a b)).norm = b := by
  have hx : vX (upright x a b) = ⟨1, 0, 0, 0⟩ := by ext <;> simp [upright, vX, col, compose]
  have hy : vY (upright x a b) = ⟨0, a, 0, 0⟩ := by ext <;> simp [upright, vY, col, compose]
  have hz : vZ (upright x a b) = ⟨0, 0, b, 0⟩ := by ext <;> simp [upright, vZ, col, compose]
  have nx : (⟨1, 0, 0, 0⟩ : H4).norm = 1 := by simp [H4.norm, H4.dot]
  have ny : (⟨0, a, 0, 0⟩ : H4).norm = a := by simp [H4.norm, H4.dot, Real.sqrt_mul_self ha.le]
  have nz : (⟨0, 0, b, 0⟩ : H4).norm = b := by simp [H4.norm, H4.dot, Real.sqrt_mul_self hb.le]
  refine ⟨by ext <;> simp [upright, center, col, compose], ?_, ?_, ?_, by rw [hy, ny], by rw [hz, nz]⟩
  · rw [eX, hx, H4.unit, nx]; ext <;> simp
  · rw [eY, hy, H4.unit, ny]; ext <;> simp; field_simp
  · rw [eZ, hz, H4.unit, nz]; ext <;> simp; field_simp

theorem upright_intersect (x : ℝ) {a b : ℝ} (ha : 0 < a) (hb : 0 < b) (dir pos : H4) (hd : dir.x < 0) :
    planeIntersect (upright x a b) dir pos =
      let k := (x - pos.x) / dir.x
      if pos.x ≥ x ∧ |pos.y + k * dir.y| ≤ a ∧ |pos.z + k * dir.z| ≤ b then
        some (pos + k • dir, pos.y + k * dir.y, pos.z + k * dir.z) else none := by
  obtain ⟨h1, h2, h3, h4, h5, h6⟩ := upright_axes x ha hb
  have hk : 0 ≤ (x - pos.x) / dir.x ↔ pos.x ≥ x := by
    rw [div_nonneg_iff]
    constructor
    · rintro (h | h) <;> linarith [h.1, h.2]
    · intro h; right; constructor <;> linarith
  simp only [planeIntersect, h1, h2, h3, h4, h5, h6]
  simp [H4.dot, hd.ne, hk]

/-- Where a photon that flies along `d` and meets the lens in `(f, ly, lz)` arrives on the detector. -/
theorem image_of_hit {f : ℝ} (hf : 0 < f) (refl : ℝ → ℝ → ℝ) {a b : ℝ} (ha : 0 < a) (hb : 0 < b) {hy hz : ℝ} (hhy : 0 < hy)
    (hhz : 0 < hz) {d : V3} (hd : d.dot d = 1) (hc : d.x < 0) (pol : H4) (energy ly lz : ℝ) :
    ∃ out, perfectLens (upright f a b) f 0 refl d.toDir pol ⟨f, ly, lz, 1⟩ energy = some out ∧
      planeIntersect (upright 0 hy hz) out.dir ⟨f, ly, lz, 1⟩ =
        if |f * (d.y / -d.x) - ly * (1 / -d.x - 1)| ≤ hy ∧ |f * (d.z / -d.x) - lz * (1 / -d.x - 1)| ≤ hz then
          some (⟨0, f * (d.y / -d.x) - ly * (1 / -d.x - 1), f * (d.z / -d.x) - lz * (1 / -d.x - 1), 1⟩,
            f * (d.y / -d.x) - ly * (1 / -d.x - 1), f * (d.z / -d.x) - lz * (1 / -d.x - 1)) else none := by
  obtain ⟨c1, -, -, -, -, -⟩ := upright_axes f ha hb
  have hfo : focusPoint (upright f a b) f 0 d = ⟨f + f * d.x, f * d.y, f * d.z⟩ := by
    rw [focusPoint, c1, V3.unit_of_unit hd]
    ext <;> simp [H4.xyz]
  have hv : (⟨f + f * d.x, f * d.y, f * d.z⟩ : V3) - (⟨f, ly, lz, 1⟩ : H4).xyz = ⟨f * d.x, f * d.y - ly, f * d.z - lz⟩ := by
    ext <;> simp [H4.xyz]
  have hfd : f * d.x < 0 := mul_neg_of_pos_of_neg hf hc
  have hv0 : (⟨f * d.x, f * d.y - ly, f * d.z - lz⟩ : V3) ≠ 0 := by
    intro h; have := congrArg V3.x h; simp at this; rcases this with h | h <;> linarith
  have hd0 : d ≠ 0 := by
    intro h; have := congrArg V3.x h; simp at this; linarith
  have hdd : d.toDir.xyz = d := by ext <;> simp [V3.toDir, H4.xyz]
  have hn := V3.norm_pos hv0
  refine ⟨_, by simp only [perfectLens, hd0, if_false, hdd, hfo, hv, hv0]; rfl, ?_⟩
  simp only
  generalize hN : (⟨f * d.x, f * d.y - ly, f * d.z - lz⟩ : V3).norm = N at hn
  have hu : (⟨f * d.x, f * d.y - ly, f * d.z - lz⟩ : V3).unit.toDir = ⟨f * d.x / N, (f * d.y - ly) / N, (f * d.z - lz) / N, 0⟩ := by
    rw [V3.unit, hN]; ext <;> simp [V3.toDir] <;> ring
  rw [hu, upright_intersect 0 hhy hhz _ _ (div_neg_of_neg_of_pos hfd hn)]
  have hk : (0 - f) / (f * d.x / N) = N / (-d.x) := by
    have := hc.ne; have := hf.ne'; have := hn.ne'
    field_simp
    ring
  have e1 : ly + N / (-d.x) * ((f * d.y - ly) / N) = f * (d.y / -d.x) - ly * (1 / -d.x - 1) := by
    have := hc.ne; have := hn.ne'
    field_simp; ring
  have e2 : lz + N / (-d.x) * ((f * d.z - lz) / N) = f * (d.z / -d.x) - lz * (1 / -d.x - 1) := by
    have := hc.ne; have := hn.ne'
    field_simp; ring
  have e3 : f + N / (-d.x) * (f * d.x / N) = 0 := by
    have := hc.ne; have := hn.ne'
    field_simp; ring
  simp only [hk, e1, e2, ge_iff_le, hf.le, true_and]
  split
  · congr 1
    refine Prod.ext ?_ rfl
    ext
    · simpa using e3
    · simpa using e1
    · simpa using e2
    · simp
  · rfl

theorem flight_tangent (p : Pointing) (s : V3) (hs : 0 < s.dot (skyPos p.ra p.dec)) :
    (photonFlight p s).x = - s.dot (skyPos p.ra p.dec) ∧
    (photonFlight p s).y / -(photonFlight p s).x = -(Real.cos p.roll * tangentEast p s - Real.sin p.roll * tangentNorth p s) ∧
    (photonFlight p s).z / -(photonFlight p s).x = -(Real.cos p.roll * tangentNorth p s + Real.sin p.roll * tangentEast p s) := by
  have h := hs.ne'
  refine ⟨rfl, ?_, ?_⟩
  · simp only [photonFlight, telescopeY_eq, tangentEast, tangentNorth, V3.dot_sub_right, V3.dot_smul_right]
    field_simp
    try ring
  · simp only [photonFlight, telescopeZ, tangentEast, tangentNorth, V3.dot_add_right, V3.dot_smul_right]
    field_simp

/-- **C147** The image of the sky. A lens stands at its focal length in front of a detector. A photon from any position
on the sky in front of the telescope arrives close to the place of the source in the tangent plane (offset to the East and
North, turned by the roll, times the focal length, upside down); how close depends on how far from the optical axis the
source is and how large the lens is. If there is room on the detector for the image, the photon is detected when it hits the
lens. The pixel is the one of that place. -/
theorem C147_image (p : Pointing) (f : ℝ) (hf : 0 < f) (refl : ℝ → ℝ → ℝ) {a b hy hz pix : ℝ} (ha : 0 < a) (hb : 0 < b)
    (hhy : 0 < hy) (hhz : 0 < hz) (ra dec : ℝ) (hfront : 0 < (skyPos ra dec).dot (skyPos p.ra p.dec)) (start pol : H4)
    (hw : start.w = 1) (energy : ℝ) :
    let s := skyPos ra dec
    let blur := 1 / s.dot (skyPos p.ra p.dec) - 1
    let imY := -f * (Real.cos p.roll * tangentEast p s - Real.sin p.roll * tangentNorth p s)
    let imZ := -f * (Real.cos p.roll * tangentNorth p s + Real.sin p.roll * tangentEast p s)
    0 ≤ blur ∧
    (∀ y z py pz, imagePhoton 1 p (upright f a b) f refl (upright 0 hy hz) pix ra dec start pol energy =
        some ((y, z), (py, pz)) →
      |y - imY| ≤ a * blur ∧ |z - imZ| ≤ b * blur ∧ |y| ≤ hy ∧ |z| ≤ hz ∧ py = detpix hy pix y ∧ pz = detpix hz pix z) ∧
    -- the photon hits the lens, and the image is on the detector
    ((∃ l : ℝ, 0 ≤ l ∧ start.x + l * (photonFlight p s).x = f ∧ |start.y + l * (photonFlight p s).y| ≤ a ∧
        |start.z + l * (photonFlight p s).z| ≤ b) →
      |imY| + a * blur ≤ hy → |imZ| + b * blur ≤ hz →
      imagePhoton 1 p (upright f a b) f refl (upright 0 hy hz) pix ra dec start pol energy ≠ none) := by
  intro s blur imY imZ
  obtain ⟨fx, fy, fz⟩ := flight_tangent p s hfront
  have hdd := (photonFlight_dot p ra dec ra dec).trans (skyPos_unit ra dec)
  have hdir := C94_direction 1 p ra dec
  have hone : mul4 1 (photonFlight p s).toDir = (photonFlight p s).toDir := by
    ext <;> simp [mul4, V3.toDir]
  rw [hone] at hdir
  have hblur : 0 ≤ blur := by
    have hc1 : s.dot (skyPos p.ra p.dec) ≤ 1 := by
      have := V3.dot_self_nonneg (s - skyPos p.ra p.dec)
      simp only [V3.dot_sub_left, V3.dot_sub_right] at this
      rw [V3.dot_comm (skyPos p.ra p.dec) s] at this
      have h1 := skyPos_unit ra dec
      have h2 := skyPos_unit p.ra p.dec
      simp only [s] at *
      linarith
    simp only [blur, sub_nonneg]
    rw [le_div_iff₀ hfront]; linarith
  set d := photonFlight p s with hdef
  have hdx : d.x < 0 := by rw [fx]; linarith
  have hbl : 1 / -d.x - 1 = blur := by rw [fx, neg_neg]
  have hY : f * (d.y / -d.x) = imY := by rw [fy]; simp only [imY]; ring
  have hZ : f * (d.z / -d.x) = imZ := by rw [fz]; simp only [imZ]; ring
  have hstart : ∀ k, f = start.x + k * d.x → start + k • d.toDir = ⟨f, start.y + k * d.y, start.z + k * d.z, 1⟩ := by
    intro k hk; ext <;> simp [V3.toDir, hw, hk]
  have himg : imagePhoton 1 p (upright f a b) f refl (upright 0 hy hz) pix ra dec start pol energy =
      let k := (f - start.x) / d.x
      if start.x ≥ f ∧ |start.y + k * d.y| ≤ a ∧ |start.z + k * d.z| ≤ b then
        (if |imY - (start.y + k * d.y) * blur| ≤ hy ∧ |imZ - (start.z + k * d.z) * blur| ≤ hz then
          some ((imY - (start.y + k * d.y) * blur, imZ - (start.z + k * d.z) * blur),
            (detpix hy pix (imY - (start.y + k * d.y) * blur), detpix hz pix (imZ - (start.z + k * d.z) * blur)))
         else none) else none := by
    obtain ⟨-, -, -, -, n1, n2⟩ := upright_axes 0 hhy hhz
    simp only [imagePhoton, hdir]
    rw [upright_intersect f ha hb _ _ (by exact hdx)]
    simp only [show d.toDir.x = d.x from rfl, show d.toDir.y = d.y from rfl, show d.toDir.z = d.z from rfl]
    by_cases hif : start.x ≥ f ∧ |start.y + (f - start.x) / d.x * d.y| ≤ a ∧ |start.z + (f - start.x) / d.x * d.z| ≤ b
    · simp only [hif, and_self, if_true]
      rw [hstart _ (by rw [div_mul_cancel₀ _ hdx.ne]; ring)]
      obtain ⟨out, o1, o2⟩ := image_of_hit hf refl ha hb hhy hhz hdd hdx pol energy (start.y + (f - start.x) / d.x * d.y)
        (start.z + (f - start.x) / d.x * d.z)
      rw [hY, hZ, hbl] at o2
      simp only [o1, o2, n1, n2]
      split <;> rename_i h <;> split at h <;> simp_all
    · simp only [hif, if_false]
  refine ⟨hblur, ?_, ?_⟩
  · intro y z py pz h
    rw [himg] at h
    simp only at h
    split at h
    swap
    · cases h
    rename_i h1
    split at h
    swap
    · cases h
    rename_i h2
    simp only [Option.some.injEq, Prod.mk.injEq] at h
    obtain ⟨⟨rfl, rfl⟩, rfl, rfl⟩ := h
    refine ⟨?_, ?_, h2.1, h2.2, rfl, rfl⟩
    · rw [show imY - (start.y + (f - start.x) / d.x * d.y) * blur - imY = -((start.y + (f - start.x) / d.x * d.y) * blur) by ring,
        abs_neg, abs_mul, abs_of_nonneg hblur]
      exact mul_le_mul_of_nonneg_right h1.2.1 hblur
    · rw [show imZ - (start.z + (f - start.x) / d.x * d.z) * blur - imZ = -((start.z + (f - start.x) / d.x * d.z) * blur) by ring,
        abs_neg, abs_mul, abs_of_nonneg hblur]
      exact mul_le_mul_of_nonneg_right h1.2.2 hblur
  · rintro ⟨l, l0, l1, l2, l3⟩ hby hbz
    rw [himg]
    have hl : (f - start.x) / d.x = l := by
      rw [div_eq_iff hdx.ne]; linarith
    simp only [hl]
    rw [if_pos, if_pos]
    · simp
    · refine ⟨(abs_sub _ _).trans (le_trans (add_le_add_right ?_ _) hby), (abs_sub _ _).trans (le_trans (add_le_add_right ?_ _) hbz)⟩ <;>
        rw [abs_mul, abs_of_nonneg hblur]
      · exact mul_le_mul_of_nonneg_right l2 hblur
      · exact mul_le_mul_of_nonneg_right l3 hblur
    · refine ⟨?_, l2, l3⟩
      nlinarith

/-- **C147** A source at the target: every photon that hits the lens arrives in the center of the detector, for every roll. -/
theorem C147_on_axis (p : Pointing) (f : ℝ) (hf : 0 < f) (refl : ℝ → ℝ → ℝ) {a b hy hz pix : ℝ} (ha : 0 < a) (hb : 0 < b)
    (hhy : 0 < hy) (hhz : 0 < hz) (start pol : H4) (hw : start.w = 1) (energy : ℝ) (hx : f ≤ start.x) (hya : |start.y| ≤ a)
    (hza : |start.z| ≤ b) :
    imagePhoton 1 p (upright f a b) f refl (upright 0 hy hz) pix p.ra p.dec start pol energy =
      some ((0, 0), (centerpix hy pix, centerpix hz pix)) := by
  have h1 := skyPos_unit p.ra p.dec
  obtain ⟨-, i2, i3⟩ := C147_image p f hf refl ha hb hhy hhz p.ra p.dec (pix := pix) (by rw [h1]; norm_num) start pol hw energy
  have hE : tangentEast p (skyPos p.ra p.dec) = 0 := by
    rw [tangentEast, h1]; simp [V3.dot, skyPos, skyEast]; ring
  have hN : tangentNorth p (skyPos p.ra p.dec) = 0 := by
    rw [tangentNorth, h1]; simp [V3.dot, skyPos, skyNorth]
    have := Real.sin_sq_add_cos_sq p.ra
    linear_combination -Real.cos p.dec * Real.sin p.dec * this
  have hfl : photonFlight p (skyPos p.ra p.dec) = ⟨-1, 0, 0⟩ := by
    have := C94_on_axis 1 p
    rw [C94_direction] at this
    simp only [Option.some.injEq] at this
    simp only [H4.ext_iff, mul4, V3.toDir] at this
    simp at this
    ext
    · exact this.1
    · exact this.2.1
    · exact this.2.2
  rw [hE, hN, h1, hfl] at i3
  rw [hE, hN, h1] at i2
  have := i3 ⟨start.x - f, by linarith, by simp, by simpa using hya, by simpa using hza⟩ (by simp [hhy.le]) (by simp [hhz.le])
  obtain ⟨⟨⟨y, z⟩, py, pz⟩, hr⟩ := Option.ne_none_iff_exists'.1 this
  obtain ⟨j1, j2, -, -, j3, j4⟩ := i2 y z py pz hr
  have hy0 : y = 0 := by simpa using j1
  have hz0 : z = 0 := by simpa using j2
  subst hy0 hz0
  rw [hr, j3, j4]
  simp [detpix]

/-- **C147** All photons of one source arrive within a spot with the size of the blur, whatever their energy and
wherever they enter the telescope. -/
theorem C147_spot (p : Pointing) (f : ℝ) (hf : 0 < f) (refl refl' : ℝ → ℝ → ℝ) {a b hy hz pix : ℝ} (ha : 0 < a) (hb : 0 < b)
    (hhy : 0 < hy) (hhz : 0 < hz) (ra dec : ℝ) (hfront : 0 < (skyPos ra dec).dot (skyPos p.ra p.dec)) (start pol start' pol' : H4)
    (hw : start.w = 1) (hw' : start'.w = 1) (energy energy' y z py pz y' z' py' pz' : ℝ)
    (h : imagePhoton 1 p (upright f a b) f refl (upright 0 hy hz) pix ra dec start pol energy = some ((y, z), (py, pz)))
    (h' : imagePhoton 1 p (upright f a b) f refl' (upright 0 hy hz) pix ra dec start' pol' energy' = some ((y', z'), (py', pz'))) :
    |y - y'| ≤ 2 * a * (1 / (skyPos ra dec).dot (skyPos p.ra p.dec) - 1) ∧
    |z - z'| ≤ 2 * b * (1 / (skyPos ra dec).dot (skyPos p.ra p.dec) - 1) := by
  obtain ⟨-, i, -⟩ := C147_image p f hf refl ha hb hhy hhz ra dec (pix := pix) hfront start pol hw energy
  obtain ⟨-, i', -⟩ := C147_image p f hf refl' ha hb hhy hhz ra dec (pix := pix) hfront start' pol' hw' energy'
  obtain ⟨a1, a2, -⟩ := i _ _ _ _ h
  obtain ⟨b1, b2, -⟩ := i' _ _ _ _ h'
  simp only [abs_le] at *
  constructor <;> constructor <;> linarith [a1.1, a1.2, a2.1, a2.2, b1.1, b1.2, b2.1, b2.2]

/-- A telescope with focal length 10 m, a source 45 degrees away and a photon that enters in the center of the lens: the
hypotheses can be met. -/
example : 0 < (skyPos (Real.pi / 4) 0).dot (skyPos 0 0) ∧
    imagePhoton 1 ⟨0, 0, 0⟩ (upright 10 1 1) 10 (fun _ _ => 1) (upright 0 20 20) 1 (Real.pi / 4) 0 ⟨10, 0, 0, 1⟩ ⟨0, 0, 1, 0⟩ 1 ≠ none := by
  have h2 : 0 < Real.sqrt 2 := by positivity
  have hsq : Real.sqrt 2 ^ 2 = 2 := Real.sq_sqrt (by norm_num)
  have hs : (skyPos (Real.pi / 4) 0).dot (skyPos 0 0) = Real.sqrt 2 / 2 := by simp [skyPos, V3.dot]
  have hE : tangentEast ⟨0, 0, 0⟩ (skyPos (Real.pi / 4) 0) = 1 := by
    simp [tangentEast, hs, skyEast]; simp [skyPos, V3.dot]
  have hN : tangentNorth ⟨0, 0, 0⟩ (skyPos (Real.pi / 4) 0) = 0 := by
    simp [tangentNorth, skyNorth]; simp [skyPos, V3.dot]
  refine ⟨by rw [hs]; positivity, ?_⟩
  obtain ⟨-, -, i⟩ := C147_image ⟨0, 0, 0⟩ 10 (by norm_num) (fun _ _ => 1) (a := 1) (b := 1) (hy := 20) (hz := 20) (pix := 1)
    (by norm_num) (by norm_num) (by norm_num) (by norm_num) (Real.pi / 4) 0 (by simp only [hs]; positivity) ⟨10, 0, 0, 1⟩ ⟨0, 0, 1, 0⟩ rfl 1
  simp only [hs, hE, hN] at i
  refine i ⟨0, le_refl _, by simp, by simp, by simp⟩ ?_ ?_ <;> simp
  all_goals nlinarith

end Marxs
