import Verif.Spec.TgResolve
import Verif.Props.Cylinder
import Mathlib.Tactic.Linarith
import Mathlib.Tactic.FieldSimp
import Mathlib.Tactic.LinearCombination
import Mathlib.Tactic.NormNum
import Mathlib.Analysis.SpecialFunctions.Trigonometric.Bounds

/-!
# C135: grating coordinates on the circular detector of Arcus
-/

namespace Marxs
open Classical

theorem circDet_surface (r d phi y : ℝ) : cylSurface (arcusCircDet r d) 20 phi y = ⟨r * Real.sin phi, -y, Real.sqrt (r ^ 2 - d ^ 2) - r * Real.cos phi, 1⟩ := by
  unfold cylSurface arcusCircDet
  ext <;> simp [mul4, compose, Matrix.mul_apply, Fin.sum_univ_succ] <;> ring

/-- **C135** Coordinates on the detector: a photon registered at `circ_phi`, `circ_y` is at angle `circ_phi` on a circle in the plane of x and z, counted from the bottom, and `circ_y` is minus its y coordinate. -/
theorem C135_detector (r d l0 l1 : ℝ) (hr : r ≠ 0) (dir pos q : H4) (phi y : ℝ) (hd : IsDir dir) (hp : IsPoint pos)
    (hpar : (mul4 (arcusCircDet r d)⁻¹ dir).x ^ 2 + (mul4 (arcusCircDet r d)⁻¹ dir).y ^ 2 ≠ 0)
    (h : cylIntersect (arcusCircDet r d) 20 l0 l1 dir pos = .ok (some (q, phi, y))) :
    q = ⟨r * Real.sin phi, -y, Real.sqrt (r ^ 2 - d ^ 2) - r * Real.cos phi, 1⟩ := by
  have hdet : (arcusCircDet r d).det ≠ 0 := by
    have : (arcusCircDet r d).det = 20 * r ^ 2 := by
      unfold arcusCircDet
      simp [compose, Matrix.mul_apply, Fin.sum_univ_succ, Matrix.det_succ_row_zero, Fin.succAbove]
      ring
    rw [this]
    positivity
  have haff : Affine (arcusCircDet r d) := by simp [Affine, arcusCircDet, compose]
  obtain ⟨res, h1, h2, _⟩ := C11_global (arcusCircDet r d) hdet haff 20 l0 l1 dir pos hd hp hpar
  rw [h] at h1
  cases h1
  obtain ⟨t, _, h3, _, _, h4, h5⟩ := h2 q phi y rfl
  have hw : (mul4 (arcusCircDet r d)⁻¹ q).w = 1 := by
    have hu : IsUnit (arcusCircDet r d).det := isUnit_iff_ne_zero.2 hdet
    have e : mul4 (arcusCircDet r d) (mul4 (arcusCircDet r d)⁻¹ q) = q := by
      rw [← mul4_mul, Matrix.mul_nonsing_inv _ hu, mul4_one]
    have wm : ∀ v, (mul4 (arcusCircDet r d) v).w = v.w := by
      intro v; simp [mul4, haff.1, haff.2.1, haff.2.2.1, haff.2.2.2]
    rw [← wm, e, h3]
    have e1 : dir.w = 0 := hd
    have e2 : pos.w = 1 := hp
    simp [e1, e2]
  have hloc : mul4 (arcusCircDet r d)⁻¹ q = ⟨Real.cos phi, Real.sin phi, y / 20, 1⟩ := by
    have hx := congrArg V3.x h4
    have hy := congrArg V3.y h4
    ext
    · simpa using hx
    · simpa using hy
    · rw [h5]; simp
    · exact hw
  have hu : IsUnit (arcusCircDet r d).det := isUnit_iff_ne_zero.2 hdet
  have e : mul4 (arcusCircDet r d) (mul4 (arcusCircDet r d)⁻¹ q) = q := by
    rw [← mul4_mul, Matrix.mul_nonsing_inv _ hu, mul4_one]
  rw [← e, hloc, ← circDet_surface]
  rfl

theorem zeropos_phi {conf : ArcusGeom} {ch : String} {x0 y0 : ℝ} (hc : conf.posOptAx ch = some (x0, y0)) (hr : 0 < conf.rDetector) (hx : |x0| ≤ conf.rDetector) :
    zeropos "circ_phi" ch conf = .ok (some (Real.arcsin (x0 / conf.rDetector))) := by
  have h1 : ¬ (conf.rDetector = 0 ∨ 1 < |x0 / conf.rDetector|) := by
    push Not
    refine ⟨hr.ne', ?_⟩
    rw [abs_div, abs_of_pos hr]
    exact (div_le_one hr).2 hx
  simp only [zeropos, hc, bind, Except.bind]
  rw [if_neg h1]

/-- **C135** The position of the zeroth order: the point of the detector with the coordinates `circ_phi` and `circ_y` of the zeroth order is on the optical axis of the channel, for channels at distance `d` from the middle in the focal plane (z = 0). No other point of the lower half of the detector is on that axis. -/
theorem C135_zero_order (conf : ArcusGeom) (ch : String) (x0 y0 d : ℝ) (hc : conf.posOptAx ch = some (x0, y0)) (hr : 0 < conf.rDetector) (hx : |x0| ≤ conf.rDetector) :
    ∃ phi y, zeropos "circ_phi" ch conf = .ok (some phi) ∧ zeropos "circ_y" ch conf = .ok (some y) ∧ zeropos "proj_x" ch conf = .ok (some x0) ∧ zeropos "proj_y" ch conf = .ok (some y0) ∧
      (cylSurface (arcusCircDet conf.rDetector d) 20 phi y).x = x0 ∧ (cylSurface (arcusCircDet conf.rDetector d) 20 phi y).y = y0 ∧
      (x0 ^ 2 = d ^ 2 → (cylSurface (arcusCircDet conf.rDetector d) 20 phi y).z = 0) ∧
      ∀ phi' y', -(Real.pi / 2) ≤ phi' → phi' ≤ Real.pi / 2 → (cylSurface (arcusCircDet conf.rDetector d) 20 phi' y').x = x0 → (cylSurface (arcusCircDet conf.rDetector d) 20 phi' y').y = y0 → phi' = phi ∧ y' = y := by
  have hb : |x0 / conf.rDetector| ≤ 1 := by
    rw [abs_div, abs_of_pos hr]
    exact (div_le_one hr).2 hx
  have hb' := abs_le.1 hb
  have hsin := Real.sin_arcsin hb'.1 hb'.2
  refine ⟨Real.arcsin (x0 / conf.rDetector), -y0, zeropos_phi hc hr hx, by simp [zeropos, hc, bind, Except.bind], by simp [zeropos, hc, bind, Except.bind], by simp [zeropos, hc, bind, Except.bind], ?_, ?_, ?_, ?_⟩
  · rw [circDet_surface]
    simp only
    rw [hsin]
    field_simp
  · rw [circDet_surface]
    simp
  · intro hxd
    rw [circDet_surface]
    simp only
    rw [Real.cos_arcsin, ← hxd]
    have : Real.sqrt (conf.rDetector ^ 2 - x0 ^ 2) = conf.rDetector * Real.sqrt (1 - (x0 / conf.rDetector) ^ 2) := by
      have e : conf.rDetector ^ 2 - x0 ^ 2 = conf.rDetector ^ 2 * (1 - (x0 / conf.rDetector) ^ 2) := by
        field_simp
      rw [e, Real.sqrt_mul (by positivity), Real.sqrt_sq hr.le]
    rw [this, sub_self]
  · intro phi' y' h1 h2 h3 h4
    rw [circDet_surface] at h3 h4
    simp only at h3 h4
    refine ⟨?_, by linarith⟩
    have : x0 / conf.rDetector = Real.sin phi' := by
      rw [← h3]; field_simp
    rw [this, Real.arcsin_sin h1 h2]

/-- **C135** Other names of coordinates are an error, also for unknown channels. -/
theorem C135_unknown (coord ch : String) (conf : ArcusGeom) (h : coord ∉ ["circ_phi", "circ_y", "proj_y", "proj_x"]) : zeropos coord ch conf = .error .notImplemented := by
  simp only [List.mem_cons, List.not_mem_nil, or_false, not_or] at h
  obtain ⟨h1, h2, h3, h4⟩ := h
  unfold zeropos
  simp only

/-! ## Angles seen from the gratings -/

theorem circle_dist (r a b : ℝ) : planeDist (circlePoint r a) (circlePoint r b) = |2 * r * Real.sin ((b - a) / 2)| := by
  unfold planeDist circlePoint
  rw [← Real.sqrt_sq_eq_abs]
  congr 1
  simp only
  have e1 : Real.sin b - Real.sin a = 2 * Real.sin ((b - a) / 2) * Real.cos ((b + a) / 2) := Real.sin_sub_sin b a
  have e2 : Real.cos b - Real.cos a = -2 * Real.sin ((b + a) / 2) * Real.sin ((b - a) / 2) := Real.cos_sub_cos b a
  have e3 := Real.sin_sq_add_cos_sq ((b + a) / 2)
  have e4 : (r * Real.sin b - r * Real.sin a) ^ 2 + (-(r * Real.cos b) - -(r * Real.cos a)) ^ 2 = r ^ 2 * ((Real.sin b - Real.sin a) ^ 2 + (Real.cos b - Real.cos a) ^ 2) := by ring
  rw [e4, e1, e2]
  linear_combination 4 * r ^ 2 * Real.sin ((b - a) / 2) ^ 2 * e3

theorem inscribed (r a p q : ℝ) (h : 0 < Real.sin ((p - a) / 2) * Real.sin ((q - a) / 2)) : TurnsBy (circlePoint r a) (circlePoint r p) (circlePoint r q) ((q - p) / 2) := by
  have hd : planeDist (circlePoint r a) (circlePoint r p) * planeDist (circlePoint r a) (circlePoint r q) = 4 * r ^ 2 * (Real.sin ((p - a) / 2) * Real.sin ((q - a) / 2)) := by
    rw [circle_dist, circle_dist, ← abs_mul]
    rw [show 2 * r * Real.sin ((p - a) / 2) * (2 * r * Real.sin ((q - a) / 2)) = 4 * r ^ 2 * (Real.sin ((p - a) / 2) * Real.sin ((q - a) / 2)) by ring]
    exact abs_of_nonneg (by positivity)
  unfold TurnsBy
  rw [hd]
  have p1 : Real.sin p - Real.sin a = 2 * Real.sin ((p - a) / 2) * Real.cos ((p + a) / 2) := Real.sin_sub_sin p a
  have p2 : Real.cos p - Real.cos a = -2 * Real.sin ((p + a) / 2) * Real.sin ((p - a) / 2) := Real.cos_sub_cos p a
  have q1 : Real.sin q - Real.sin a = 2 * Real.sin ((q - a) / 2) * Real.cos ((q + a) / 2) := Real.sin_sub_sin q a
  have q2 : Real.cos q - Real.cos a = -2 * Real.sin ((q + a) / 2) * Real.sin ((q - a) / 2) := Real.cos_sub_cos q a
  have c1 : Real.cos ((q - p) / 2) = Real.cos ((q + a) / 2) * Real.cos ((p + a) / 2) + Real.sin ((q + a) / 2) * Real.sin ((p + a) / 2) := by
    rw [← Real.cos_sub]; congr 1; ring
  have s1 : Real.sin ((q - p) / 2) = Real.sin ((q + a) / 2) * Real.cos ((p + a) / 2) - Real.cos ((q + a) / 2) * Real.sin ((p + a) / 2) := by
    rw [← Real.sin_sub]; congr 1; ring
  simp only [circlePoint]
  rw [c1, s1]
  constructor
  · have : (r * Real.sin p - r * Real.sin a) * (r * Real.sin q - r * Real.sin a) + (-(r * Real.cos p) - -(r * Real.cos a)) * (-(r * Real.cos q) - -(r * Real.cos a)) =
        r ^ 2 * ((Real.sin p - Real.sin a) * (Real.sin q - Real.sin a) + (Real.cos p - Real.cos a) * (Real.cos q - Real.cos a)) := by ring
    rw [this, p1, p2, q1, q2]
    ring
  · have : (r * Real.sin p - r * Real.sin a) * (-(r * Real.cos q) - -(r * Real.cos a)) - (-(r * Real.cos p) - -(r * Real.cos a)) * (r * Real.sin q - r * Real.sin a) =
        r ^ 2 * ((Real.cos p - Real.cos a) * (Real.sin q - Real.sin a) - (Real.sin p - Real.sin a) * (Real.cos q - Real.cos a)) := by ring
    rw [this, p1, p2, q1, q2]
    ring

theorem tgResolve_ok {dflt conf : ArcusGeom} {period : ℝ} {ch : String} {phi y ang0 x0 y0 : ℝ} (h0 : zeropos "circ_phi" ch dflt = .ok (some ang0)) (hc : conf.posOptAx ch = some (x0, y0)) :
    ∃ c, tgResolve dflt conf period ch phi y = .ok (some c) ∧ inRad c.r = (phi - ang0) / 2 ∧
      (2 * conf.rCentral * Real.cos (phi - ang0) ≠ 0 → c.d.map inRad = some (Real.arctan ((y0 - y) / (2 * conf.rCentral * Real.cos (phi - ang0))))) ∧
      c.mlam = Real.cos (inRad conf.blazeang) * period * Real.sin ((phi - ang0) / 2) := by
  have hpi := Real.pi_pos
  unfold tgResolve
  rw [h0, hc]
  simp only [bind, Except.bind]
  refine ⟨_, rfl, ?_, ?_, ?_⟩
  · simp only [inRad]
    field_simp
    ring
  · intro hl
    have e : Real.cos (ang0 - phi) = Real.cos (phi - ang0) := by rw [← Real.cos_neg]; congr 1; ring
    simp only [e, hl, if_false, Option.map_some, inRad]
    congr 1
    field_simp
  · simp only [inRad]
    congr 2
    ring

/-- **C135** `tg_r` is the dispersion angle: the angle between the direction to the zeroth order and the direction to the event, seen from any grating on the Rowland circle (any point of the circle outside of the arc between the two). -/
theorem C135_angle (dflt conf : ArcusGeom) (period : ℝ) (ch : String) (phi y ang0 x0 y0 : ℝ) (h0 : zeropos "circ_phi" ch dflt = .ok (some ang0)) (hc : conf.posOptAx ch = some (x0, y0)) :
    ∃ c, tgResolve dflt conf period ch phi y = .ok (some c) ∧ ∀ r a, 0 < Real.sin ((ang0 - a) / 2) * Real.sin ((phi - a) / 2) →
      TurnsBy (circlePoint r a) (circlePoint r ang0) (circlePoint r phi) (inRad c.r) := by
  obtain ⟨c, h1, h2, _⟩ := tgResolve_ok (period := period) (phi := phi) (y := y) h0 hc
  exact ⟨c, h1, fun r a h => by rw [h2]; exact inscribed r a ang0 phi h⟩

/-- **C135** `tg_mlam` is order times wavelength up to a small known difference: if `b` is the blaze angle, `mλ = d (sin b + sin (tg_r - b))` by the grating equation, and `mλ - tg_mlam = d sin b (1 - cos tg_r)`, at most `d |sin b| tg_r² / 2`. -/
theorem C135_wavelength (dflt conf : ArcusGeom) (period : ℝ) (ch : String) (phi y ang0 x0 y0 : ℝ) (h0 : zeropos "circ_phi" ch dflt = .ok (some ang0)) (hc : conf.posOptAx ch = some (x0, y0)) :
    ∃ c, tgResolve dflt conf period ch phi y = .ok (some c) ∧
      pathDifference period (inRad conf.blazeang) (inRad c.r - inRad conf.blazeang) - c.mlam = period * Real.sin (inRad conf.blazeang) * (1 - Real.cos (inRad c.r)) ∧
      |pathDifference period (inRad conf.blazeang) (inRad c.r - inRad conf.blazeang) - c.mlam| ≤ |period| * |Real.sin (inRad conf.blazeang)| * ((inRad c.r) ^ 2 / 2) := by
  obtain ⟨c, h1, h2, _, h4⟩ := tgResolve_ok (period := period) (phi := phi) (y := y) h0 hc
  have e : pathDifference period (inRad conf.blazeang) (inRad c.r - inRad conf.blazeang) - c.mlam = period * Real.sin (inRad conf.blazeang) * (1 - Real.cos (inRad c.r)) := by
    rw [h4, ← h2]
    unfold pathDifference
    rw [Real.sin_sub]
    ring
  refine ⟨c, h1, e, ?_⟩
  rw [e, abs_mul, abs_mul]
  refine mul_le_mul_of_nonneg_left ?_ (by positivity)
  rw [abs_of_nonneg (by linarith [Real.cos_le_one (inRad c.r)])]
  have := Real.one_sub_sq_div_two_le_cos (x := inRad c.r)
  linarith

/-- **C135** Events of the zeroth order have `tg_r = 0` and `tg_mlam = 0`. (Missing: `tg_d = 0`, which is false, see `C135_cross_zero_false`.) -/
theorem C135_zero_event_partial (dflt conf : ArcusGeom) (period : ℝ) (ch : String) (y ang0 x0 y0 : ℝ) (h0 : zeropos "circ_phi" ch dflt = .ok (some ang0)) (hc : conf.posOptAx ch = some (x0, y0)) :
    ∃ c, tgResolve dflt conf period ch ang0 y = .ok (some c) ∧ c.r = 0 ∧ c.mlam = 0 := by
  have hpi := Real.pi_pos
  obtain ⟨c, h1, h2, _, h4⟩ := tgResolve_ok (period := period) (phi := ang0) (y := y) h0 hc
  refine ⟨c, h1, ?_, ?_⟩
  · rw [sub_self, zero_div, inRad] at h2
    have : c.r * Real.pi = 0 := by linarith
    exact (mul_eq_zero.1 this).resolve_right hpi.ne'
  · rw [h4, sub_self, zero_div, Real.sin_zero, mul_zero]

/-- **C135** (disagreement) `tg_d` is not the angle from the zeroth order in the other direction: an event exactly on the optical axis of the channel has `tg_d = 0` only if the axis is at `y = 0`. (`circ_y` is minus y on this detector, the formula takes it as y.) -/
theorem C135_cross_zero_false (conf : ArcusGeom) (period : ℝ) (ch : String) (x0 y0 : ℝ) (hc : conf.posOptAx ch = some (x0, y0)) (hr : 0 < conf.rDetector) (hx : |x0| ≤ conf.rDetector) (hR : 0 < conf.rCentral) (hy : y0 ≠ 0) :
    ∃ phi y c, zeropos "circ_phi" ch conf = .ok (some phi) ∧ zeropos "circ_y" ch conf = .ok (some y) ∧ tgResolve conf conf period ch phi y = .ok (some c) ∧ c.d.map inRad = some (Real.arctan (y0 / conf.rCentral)) ∧ c.d ≠ some 0 := by
  have h0 := zeropos_phi hc hr hx
  obtain ⟨c, h1, _, h3, _⟩ := tgResolve_ok (period := period) (phi := Real.arcsin (x0 / conf.rDetector)) (y := -y0) h0 hc
  have hd : c.d.map inRad = some (Real.arctan (y0 / conf.rCentral)) := by
    rw [h3 (by rw [sub_self, Real.cos_zero]; positivity), sub_self, Real.cos_zero]
    congr 2
    field_simp
    ring
  refine ⟨_, -y0, c, h0, by simp [zeropos, hc, bind, Except.bind], h1, hd, ?_⟩
  intro hz
  rw [hz] at hd
  simp only [Option.map_some, inRad, zero_mul, zero_div, Option.some.injEq] at hd
  have := Real.arctan_eq_zero_iff.1 hd.symm
  rw [div_eq_zero_iff] at this
  rcases this with h | h
  · exact hy h
  · exact hR.ne' h

/-- **C135** (disagreement) The distance between grating and event is wrong as well: for a grating opposite of the zeroth order it is `2 r cos(δ/2)` for an event at angle `δ` from the zeroth order, the code uses `2 r cos δ`. So for every event away from both axes `tg_d` is too large. -/
theorem C135_cross_too_large (dflt conf : ArcusGeom) (period : ℝ) (ch : String) (phi y ang0 x0 y0 : ℝ) (h0 : zeropos "circ_phi" ch dflt = .ok (some ang0)) (hc : conf.posOptAx ch = some (x0, y0))
    (hR : 0 < conf.rCentral) (hphi : phi ≠ ang0) (hlim : |phi - ang0| < Real.pi / 2) (hy : y ≠ y0) :
    ∃ c t, tgResolve dflt conf period ch phi y = .ok (some c) ∧ c.d.map inRad = some t ∧
      |Real.arctan ((y0 - y) / planeDist (circlePoint conf.rCentral (ang0 + Real.pi)) (circlePoint conf.rCentral phi))| < |t| := by
  obtain ⟨c, h1, _, h3, _⟩ := tgResolve_ok (period := period) (phi := phi) (y := y) h0 hc
  have hpi := Real.pi_pos
  obtain ⟨l1, l2⟩ := abs_lt.1 hlim
  have hcos : 0 < Real.cos (phi - ang0) := Real.cos_pos_of_mem_Ioo ⟨l1, l2⟩
  refine ⟨c, _, h1, h3 (by positivity), ?_⟩
  have hdist : planeDist (circlePoint conf.rCentral (ang0 + Real.pi)) (circlePoint conf.rCentral phi) = 2 * conf.rCentral * Real.cos ((phi - ang0) / 2) := by
    rw [circle_dist]
    have e : Real.sin ((phi - (ang0 + Real.pi)) / 2) = -Real.cos ((phi - ang0) / 2) := by
      rw [show (phi - (ang0 + Real.pi)) / 2 = (phi - ang0) / 2 - Real.pi / 2 by ring, Real.sin_sub_pi_div_two]
    rw [e, mul_neg, abs_neg, abs_of_pos]
    have : 0 < Real.cos ((phi - ang0) / 2) := Real.cos_pos_of_mem_Ioo ⟨by linarith, by linarith⟩
    positivity
  have hlt : Real.cos (phi - ang0) < Real.cos ((phi - ang0) / 2) := by
    rw [← Real.cos_abs (phi - ang0), ← Real.cos_abs ((phi - ang0) / 2)]
    have hpos : 0 < |phi - ang0| := abs_pos.2 (sub_ne_zero.2 hphi)
    have h2 : |(phi - ang0) / 2| = |phi - ang0| / 2 := by rw [abs_div]; norm_num
    rw [h2]
    exact Real.cos_lt_cos_of_nonneg_of_le_pi (by positivity) (by linarith) (by linarith)
  rw [hdist]
  have habs : ∀ x, |Real.arctan x| = Real.arctan |x| := by
    intro x
    rcases le_total 0 x with h | h
    · rw [abs_of_nonneg h, abs_of_nonneg (Real.arctan_nonneg.2 h)]
    · rw [abs_of_nonpos h, Real.arctan_neg, abs_of_nonpos (by rw [← Real.arctan_zero]; exact Real.arctan_strictMono.monotone h)]
  rw [habs, habs]
  apply Real.arctan_strictMono
  rw [abs_div, abs_div, abs_of_pos (show 0 < 2 * conf.rCentral * Real.cos (phi - ang0) by positivity), abs_of_pos (show 0 < 2 * conf.rCentral * Real.cos ((phi - ang0) / 2) by have := hcos.trans hlt; positivity)]
  apply div_lt_div_of_pos_left (abs_pos.2 (sub_ne_zero.2 (Ne.symm hy))) (by positivity)
  exact mul_lt_mul_of_pos_left hlt (by positivity)

/-- a configuration with one channel (example) -/
noncomputable def exArcusGeom (r : ℝ) : ArcusGeom := ⟨fun c => if c = "1" then some (1 / 2, 5) else none, r, r, 2⟩

/-- **C135** (disagreement) The zeroth order is taken from the default configuration of the module, whatever configuration is passed: for a larger Rowland circle the zeroth order of the configuration passed to the function is not at `tg_r = 0`. -/
theorem C135_other_conf_false : ∃ (dflt conf : ArcusGeom) (period phi y : ℝ) (c : TgCoords), zeropos "circ_phi" "1" conf = .ok (some phi) ∧ zeropos "circ_y" "1" conf = .ok (some y) ∧
    tgResolve dflt conf period "1" phi y = .ok (some c) ∧ c.r ≠ 0 := by
  have hc : ∀ r, (exArcusGeom r).posOptAx "1" = some (1 / 2, 5) := fun r => by simp [exArcusGeom]
  have h1 := zeropos_phi (hc 1) (by norm_num [exArcusGeom]) (by norm_num [exArcusGeom, abs_of_pos])
  have h2 := zeropos_phi (hc 2) (by norm_num [exArcusGeom]) (by norm_num [exArcusGeom, abs_of_pos])
  obtain ⟨c, g1, g2, _⟩ := tgResolve_ok (period := 1) (phi := Real.arcsin (1 / 2 / (exArcusGeom 2).rDetector)) (y := -5) h1 (hc 2)
  refine ⟨exArcusGeom 1, exArcusGeom 2, 1, _, -5, c, h2, by simp [zeropos, hc, bind, Except.bind], g1, ?_⟩
  intro hz
  rw [hz] at g2
  simp only [inRad, zero_mul, zero_div, exArcusGeom] at g2
  have hlt : Real.arcsin (1 / 2 / 2) < Real.arcsin (1 / 2 / 1) :=
    Real.strictMonoOn_arcsin ⟨by norm_num, by norm_num⟩ ⟨by norm_num, by norm_num⟩ (by norm_num)
  linarith

/-- Non-vacuity: the zeroth order of the example, and a grating opposite of it. -/
example : ∃ ang0, zeropos "circ_phi" "1" (exArcusGeom 1) = .ok (some ang0) ∧ 0 < Real.sin ((ang0 - (ang0 + Real.pi)) / 2) * Real.sin ((ang0 + 1 / 10 - (ang0 + Real.pi)) / 2) := by
  have hc : (exArcusGeom 1).posOptAx "1" = some (1 / 2, 5) := by simp [exArcusGeom]
  refine ⟨_, zeropos_phi hc (by norm_num [exArcusGeom]) (by norm_num [exArcusGeom, abs_of_pos]), ?_⟩
  have hpi := Real.pi_gt_three
  have h1 : ∀ a : ℝ, Real.sin ((a - (a + Real.pi)) / 2) = -1 := by
    intro a
    rw [show (a - (a + Real.pi)) / 2 = -(Real.pi / 2) by ring, Real.sin_neg, Real.sin_pi_div_two]
  have h2 : ∀ a : ℝ, Real.sin ((a + 1 / 10 - (a + Real.pi)) / 2) = -Real.cos (1 / 20) := by
    intro a
    rw [show (a + 1 / 10 - (a + Real.pi)) / 2 = 1 / 20 - Real.pi / 2 by ring, Real.sin_sub_pi_div_two]
  rw [h1, h2]
  have := Real.cos_pos_of_mem_Ioo (x := 1 / 20) ⟨by linarith, by linarith⟩
  linarith

end Marxs
