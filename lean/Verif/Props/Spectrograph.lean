import Mathlib.Analysis.SpecialFunctions.Trigonometric.Arctan
import Verif.Spec.Spectrograph
import Verif.Props.Mosaic
import Verif.Props.CatStack

/-!
# C169: wavelength calibration of a spectrograph
-/

namespace Marxs
open Classical

theorem hit_face {r : Ray} (hr : r.WellFormed) {m : M4} (hm : Placed m) (ho : OrthoAxes m) {d q p : H4} {y z : ℝ}
    (h : r.hit m = some (d, q, y, z, p)) : q = facePoint m (y, z) := by
  obtain ⟨h1, h2, -⟩ := hit_forward h
  have hi : planeIntersect m d p = some (q, y, z) := by
    simp only [Ray.hit, h1, h2] at h
    split at h
    · rename_i hq
      simp only [Option.some.injEq, Prod.mk.injEq] at h
      obtain ⟨-, rfl, rfl, rfl, -⟩ := h
      exact hq
    · cases h
  obtain ⟨-, c2⟩ := C10_plane_intersect m hm.1 ho d p (hr.2.1 d h1) (hr.1 p h2)
  obtain ⟨e1, -, -, e4⟩ := c2 q y z hi
  have wy : (vY m).w = 0 := hm.1.2.1
  have wz : (vZ m).w = 0 := hm.1.2.2.1
  have wc : (center m).w = 1 := hm.1.2.2.2
  have wq : q.w = 1 := e1
  rw [← unit_xyz _ wy, ← unit_xyz _ wz] at e4
  have ux := congrArg V3.x e4
  have uy := congrArg V3.y e4
  have uz := congrArg V3.z e4
  simp only [H4.xyz, V3.add_x, V3.add_y, V3.add_z, V3.smul_x, V3.smul_y, V3.smul_z] at ux uy uz
  have w1 : (vY m).unit.w = 0 := by simp [H4.unit, wy]
  have w2 : (vZ m).unit.w = 0 := by simp [H4.unit, wz]
  simp only [facePoint, eY, eZ]
  ext
  · simpa using ux
  · simpa using uy
  · simpa using uz
  · simp [wq, wc, w1, w2]

theorem planeGrating_sign (m : M4) (tr cat : Bool) (g : ℝ) (per bm : ℝ × ℝ → ℝ) (order : ℝ → Option ℝ → ℤ × ℝ) (p e : H4) :
    (planeGrating m tr cat g per bm order).sign p (-e) = - orderSide cat (p.dot e) := by
  cases cat
  · simp [planeGrating, orderSide, flatSign]
  · simp only [planeGrating, orderSide, if_true, ← catSign_side, neg_neg]

theorem planeGrating_frame (m : M4) (tr cat : Bool) (g : ℝ) (per bm : ℝ × ℝ → ℝ) (order : ℝ → Option ℝ → ℤ × ℝ) (c : ℝ × ℝ) :
    (planeGrating m tr cat g per bm order).frame c = (barDir m g, dispDir m g, eX m) := by
  simp only [Grating.frame, planeGrating, planeBases, barDir, dispDir, Real.sin_neg, Real.cos_neg]
  refine Prod.ext ?_ (Prod.ext ?_ rfl)
  · ext <;> simp <;> ring
  · ext <;> simp

/-- What a grating does to a photon. -/
theorem grating_leaves {m : M4} (hm : Placed m) (ho : OrthoAxes m) (tr cat : Bool) (g : ℝ) (per bm : ℝ × ℝ → ℝ)
    (order : ℝ → Option ℝ → ℤ × ℝ) {r : Ray} (hr : r.WellFormed) (he : r.energy ≠ 0) {d q p : H4} {y z : ℝ} (hp : per (y, z) ≠ 0)
    (h : r.hit m = some (d, q, y, z, p)) :
    ∃ (r1 : Ray) (n : ℤ), (Optic.grating m tr cat g per bm order).step r = .ok r1 ∧ r1.pos = some q ∧
      r1.coos = r.coos ++ [(y, z)] ∧ r1.order = some n ∧
      ((r1.dir = none ∧ Evanescent (barDir m g) (dispDir m g) d.unit
          (orderSide cat (d.unit.dot (dispDir m g)) * (n * (energy2wave / r.energy) / per (y, z)))) ∨
        ∃ d1, r1.dir = some d1 ∧ GratingEquation tr (barDir m g) (dispDir m g) (eX m) d.unit d1
          (orderSide cat (d.unit.dot (dispDir m g)) * (n * (energy2wave / r.energy) / per (y, z)))) := by
  obtain ⟨h1, h2, -, -, h5⟩ := hit_rect hr hm ho h
  have f := cat_frame m g hm.1 ho
  have hd : d.w = 0 := hr.2.1 d h1
  have hnx : d.dot (eX m) ≠ 0 := by
    have wx : (vX m).w = 0 := hm.1.1
    rw [dot_xyz _ _ (.inl hd), eX, unit_xyz _ wx, V3.unit, V3.dot_smul_right]
    exact mul_ne_zero (one_div_ne_zero fun h0 => ho.x0 (V3.dot_self_eq_zero.1 (by rw [← V3.norm_sq, h0]; ring))) h5
  have h0 : d.dot d ≠ 0 := by
    intro h'
    have := (H4.dot_self_eq_zero hd).1 h'
    apply h5
    rw [this]
    simp [V3.dot]
  have hne : d.norm ≠ 0 := by intro h'; apply h0; rw [← H4.norm_sq, h']; ring
  have hpn : d.unit.dot (eX m) ≠ 0 := by
    rw [H4.unit, H4.dot_smul_left]; exact mul_ne_zero (one_div_ne_zero hne) hnx
  set G := planeGrating m tr cat g per bm order with hG
  have hdir := diffract_dir_eq G d ⟨0, 0, 0, 0⟩ r.energy (y, z) h0 he hp
  rw [planeGrating_frame] at hdir
  simp only at hdir
  have ht : G.transmission = tr := rfl
  have hdd : G.d (y, z) = per (y, z) := rfl
  rw [ht, hdd] at hdir
  set n := (G.diffract d ⟨0, 0, 0, 0⟩ r.energy (y, z)).m with hn
  have e2 : d.unit.dot (dispDir m g) - G.sign d.unit (-dispDir m g) * n * (energy2wave / r.energy) / per (y, z) =
      d.unit.dot (dispDir m g) + orderSide cat (d.unit.dot (dispDir m g)) * (n * (energy2wave / r.energy) / per (y, z)) := by
    rw [hG, planeGrating_sign]; ring
  refine ⟨(({ r with dir := (G.diffract d ⟨0, 0, 0, 0⟩ r.energy (y, z)).dir
                     pol := r.pol.bind fun pol => (G.process d pol r.energy (y, z)).2
                     order := some n
                     blaze := (G.diffract d ⟨0, 0, 0, 0⟩ r.energy (y, z)).blaze } : Ray).times
              (some (G.diffract d ⟨0, 0, 0, 0⟩ r.energy (y, z)).prob)).at q y z, n,
    by simp only [Optic.step, h, hn, hG], rfl, rfl, rfl, ?_⟩
  simp only [Ray.at, Ray.times]
  rw [hdir]
  rcases hq : diffractDir tr G.sign d.unit (barDir m g) (dispDir m g) (eX m) n (energy2wave / r.energy) (per (y, z)) with _ | d1
  · refine .inl ⟨rfl, ?_⟩
    rw [diffractDir_none, e2] at hq
    exact hq
  · refine .inr ⟨d1, rfl, ?_⟩
    have := diffractDir_equation f hpn hq
    rwa [hG, planeGrating_sign, neg_neg, mul_assoc, mul_div_assoc] at this

theorem coos_two {l : List (ℝ × ℝ)} {a : List (ℝ × ℝ)} {c1 c2 : ℝ × ℝ} (h : l ++ a = l ++ [c1, c2]) : a = [c1, c2] :=
  List.append_cancel_left h

/-- Both elements were hit. -/
theorem both_hit {mg md : M4} {tr cat : Bool} {g : ℝ} {per bm : ℝ × ℝ → ℝ} {order : ℝ → Option ℝ → ℤ × ℝ} {r s : Ray}
    {c1 c2 : ℝ × ℝ} (h : runOptics [.grating mg tr cat g per bm order, .plane md] r = .ok s) (hc : s.coos = r.coos ++ [c1, c2]) :
    ∃ (r1 : Ray) (d q p d1 q1 p1 : H4), r.hit mg = some (d, q, c1.1, c1.2, p) ∧
      (Optic.grating mg tr cat g per bm order).step r = .ok r1 ∧ r1.hit md = some (d1, q1, c2.1, c2.2, p1) ∧
      s = r1.at q1 c2.1 c2.2 := by
  simp only [runOptics] at h
  rcases h1 : r.hit mg with _ | ⟨d, q, y, z, p⟩
  · have e1 : (Optic.grating mg tr cat g per bm order).step r = .ok r := by simp only [Optic.step, h1]
    rw [e1] at h
    simp only [Optic.step] at h
    split at h
    · rename_i h2
      split at h2 <;> cases h2
    rename_i r' h2
    cases h
    split at h2
    · cases h2
      have := congrArg List.length hc
      simp at this
    · cases h2
      have := congrArg List.length hc
      simp [Ray.at] at this
  · rcases e1 : (Optic.grating mg tr cat g per bm order).step r with er | r1
    · rw [e1] at h; cases h
    have c : r1.coos = r.coos ++ [(y, z)] := by
      simp only [Optic.step, h1] at e1
      cases e1; rfl
    rw [e1] at h
    simp only [Optic.step] at h
    rcases h2 : r1.hit md with _ | ⟨d1, q1, y1, z1, p1⟩
    · rw [h2] at h
      cases h
      rw [c] at hc
      have := congrArg List.length hc
      simp at this
    · rw [h2] at h
      cases h
      simp only [Ray.at, c, List.append_assoc] at hc
      have := coos_two hc
      simp at this
      obtain ⟨rfl, rfl⟩ := this
      exact ⟨r1, d, q, p, d1, q1, p1, rfl, rfl, h2, rfl⟩

theorem unit_of_multiple {v : H4} (hv : v.dot v = 1) {k : ℝ} (hk : 0 < k) : (k • v).unit = v := by
  have : (k • v).norm = k := by
    rw [H4.norm, H4.dot_smul_left, H4.dot_smul_right, hv, mul_one, Real.sqrt_mul_self hk.le]
  rw [H4.unit, this]
  ext <;> simp <;> field_simp

/-- **C169** The wavelength of a detected photon follows from the coordinates on grating and detector: order times wavelength
is the grating constant times the change of the component along the dispersion direction between the incoming direction and
the line from the place on the grating to the place on the detector. The component along the bars is the same for both. -/
theorem C169_calibration (mg md : M4) (hg : Placed mg) (og : OrthoAxes mg) (hd : Placed md) (od : OrthoAxes md) (tr cat : Bool)
    (g : ℝ) (per bm : ℝ × ℝ → ℝ) (order : ℝ → Option ℝ → ℤ × ℝ) (r s : Ray) (hr : r.WellFormed) (he : r.energy ≠ 0)
    (c1 c2 : ℝ × ℝ) (hp : per c1 ≠ 0) (h : runOptics [.grating mg tr cat g per bm order, .plane md] r = .ok s)
    (hc : s.coos = r.coos ++ [c1, c2]) (hne : facePoint md c2 ≠ facePoint mg c1) :
    ∃ (d : H4) (n : ℤ), r.dir = some d ∧ s.order = some n ∧
      n * (energy2wave / r.energy) = orderSide cat (d.unit.dot (dispDir mg g)) * per c1 *
        ((facePoint md c2 - facePoint mg c1).unit.dot (dispDir mg g) - d.unit.dot (dispDir mg g)) ∧
      (facePoint md c2 - facePoint mg c1).unit.dot (barDir mg g) = d.unit.dot (barDir mg g) := by
  obtain ⟨r1, d, q, p, d1, q1, p1, h1, h2, h3, rfl⟩ := both_hit h hc
  obtain ⟨r1', n, g1, g2, g3, g4, g5⟩ := grating_leaves hg og tr cat g per bm order hr he hp h1
  rw [h2] at g1
  cases g1
  have hr1 : r1.WellFormed := C157_well_formed (.grating mg tr cat g per bm order) hg r r1 hr h2
  obtain ⟨e1, e2, -⟩ := hit_rect hr hg og h1
  obtain ⟨f1, f2, ⟨k, k0, f3⟩⟩ := hit_forward h3
  rw [g2] at f2
  cases f2
  have fq := hit_face hr hg og h1
  have fq1 := hit_face hr1 hd od h3
  have fq' : facePoint mg c1 = q := fq.symm
  have fq1' : facePoint md c2 = q1 := fq1.symm
  rw [fq', fq1'] at hne ⊢
  rcases g5 with ⟨g5, -⟩ | ⟨d1', g5, ge⟩
  · rw [f1] at g5; cases g5
  rw [f1] at g5
  cases g5
  have hk : 0 < k := by
    rcases k0.lt_or_eq with hk | hk
    · exact hk
    · exfalso; apply hne; rw [f3, ← hk]; ext <;> simp
  have hu : (q1 - q).unit = d1 := by
    have : q1 - q = k • d1 := by rw [f3]; ext <;> simp
    rw [this, unit_of_multiple ge.unit hk]
  refine ⟨d, n, e1, g4, ?_, by rw [hu]; exact ge.groove⟩
  rw [hu, ge.dispersion]
  have hs : orderSide cat (d.unit.dot (dispDir mg g)) * orderSide cat (d.unit.dot (dispDir mg g)) = 1 := by
    cases cat
    · simp [orderSide]
    · simp only [orderSide, if_true, catSide]; split <;> norm_num
  have hp' : per (c1.1, c1.2) ≠ 0 := hp
  have : per c1 = per (c1.1, c1.2) := rfl
  rw [this]
  field_simp
  linear_combination (-(n : ℝ) * energy2wave) * hs

/-- **C169** A photon whose order does not propagate is not detected. -/
theorem C169_evanescent (mg md : M4) (hg : Placed mg) (og : OrthoAxes mg) (tr cat : Bool)
    (g : ℝ) (per bm : ℝ × ℝ → ℝ) (order : ℝ → Option ℝ → ℤ × ℝ) (r s : Ray) (hr : r.WellFormed) (he : r.energy ≠ 0)
    (c1 : ℝ × ℝ) (hp : per c1 ≠ 0) (d : H4) (n : ℤ) (hdir : r.dir = some d)
    (h : runOptics [.grating mg tr cat g per bm order, .plane md] r = .ok s)
    (hc : hitCoos (.grating mg tr cat g per bm order) r = some c1) (hn : s.order = some n)
    (hev : Evanescent (barDir mg g) (dispDir mg g) d.unit
      (orderSide cat (d.unit.dot (dispDir mg g)) * (n * (energy2wave / r.energy) / per c1))) :
    s.coos = r.coos ++ [c1] := by
  simp only [hitCoos, Option.map_eq_some_iff] at hc
  obtain ⟨⟨d', q, y, z, p⟩, h1, rfl⟩ := hc
  obtain ⟨r1, n', g1, g2, g3, g4, g5⟩ := grating_leaves hg og tr cat g per bm order hr he hp h1
  obtain ⟨e1, e2, -⟩ := hit_rect hr hg og h1
  rw [hdir] at e1
  cases e1
  simp only [runOptics, g1] at h
  rcases h3 : r1.hit md with _ | ⟨d1, q1, y1, z1, p1⟩
  · simp only [Optic.step, h3] at h
    cases h
    exact g3
  · exfalso
    simp only [Optic.step, h3] at h
    cases h
    have : some n' = some n := g4.symm.trans hn
    cases this
    obtain ⟨f1, -⟩ := hit_forward h3
    rcases g5 with ⟨g5, -⟩ | ⟨d1', g5, ge⟩
    · rw [f1] at g5; cases g5
    · have hs := (cat_frame mg g hg.1 og).dot_self ge.isDir
      rw [ge.unit, ge.groove, ge.dispersion] at hs
      unfold Evanescent at hev
      nlinarith [sq_nonneg (d1'.dot (eX mg))]

theorem face_difference {D : ℝ} {mg md : M4} (hb : Behind D mg md) (hg : Placed mg) (og : OrthoAxes mg) (g : ℝ) (c1 c2 : ℝ × ℝ) :
    (facePoint md c2 - facePoint mg c1).dot (dispDir mg g) = alongDispersion g c1 c2 ∧
    (facePoint md c2 - facePoint mg c1).dot (barDir mg g) = acrossDispersion g c1 c2 ∧
    (facePoint md c2 - facePoint mg c1).dot (eX mg) = -D ∧ IsDir (facePoint md c2 - facePoint mg c1) := by
  have hf := (C19_flat_and_bent mg hg.1 og).1
  simp only [planeBases] at hf
  have e : facePoint md c2 - facePoint mg c1 = (-D) • eX mg + (c2.1 - c1.1) • eY mg + (c2.2 - c1.2) • eZ mg := by
    simp only [facePoint, hb.center, hb.y, hb.z]
    ext <;> simp <;> ring
  have ba := H4.dot_comm (eZ mg) (eY mg)
  have ca := H4.dot_comm (eX mg) (eY mg)
  have cb := H4.dot_comm (eX mg) (eZ mg)
  rw [e]
  refine ⟨?_, ?_, ?_, ?_⟩
  · simp only [dispDir, alongDispersion, H4.dot_add_left, H4.dot_add_right, H4.dot_smul_left, H4.dot_smul_right, hf.aa, hf.bb,
      hf.cc, hf.ab, hf.ac, hf.bc, ba, ca, cb]; ring
  · simp only [barDir, acrossDispersion, H4.dot_add_left, H4.dot_sub_right, H4.dot_smul_left, H4.dot_smul_right, hf.aa, hf.bb,
      hf.cc, hf.ab, hf.ac, hf.bc, ba, ca, cb]; ring
  · simp only [H4.dot_add_left, H4.dot_smul_left, hf.aa, hf.bb, hf.cc, hf.ab, hf.ac, hf.bc, ba, ca, cb]; ring
  · have wa : (eY mg).w = 0 := hf.wa
    have wb : (eZ mg).w = 0 := hf.wb
    have wc : (eX mg).w = 0 := hf.wc
    simp [IsDir, wa, wb, wc]

/-- **C169** Photons that arrive perpendicular to a grating with a parallel detector behind it: all of them end on one line
in the dispersion direction, and order times wavelength is the grating constant times the sine of the diffraction angle. -/
theorem C169_parallel (D : ℝ) (mg md : M4) (hg : Placed mg) (og : OrthoAxes mg) (hd : Placed md) (od : OrthoAxes md)
    (hb : Behind D mg md) (tr cat : Bool) (g : ℝ) (per bm : ℝ × ℝ → ℝ) (order : ℝ → Option ℝ → ℤ × ℝ) (r s : Ray)
    (hr : r.WellFormed) (he : r.energy ≠ 0) (d : H4) (hdir : r.dir = some d) (hperp : d.unit = -eX mg)
    (c1 c2 : ℝ × ℝ) (hp : per c1 ≠ 0) (h : runOptics [.grating mg tr cat g per bm order, .plane md] r = .ok s)
    (hc : s.coos = r.coos ++ [c1, c2]) :
    acrossDispersion g c1 c2 = 0 ∧ ∃ n : ℤ, s.order = some n ∧
      n * (energy2wave / r.energy) = (if cat then -1 else 1) * per c1 *
        (alongDispersion g c1 c2 / Real.sqrt (D ^ 2 + alongDispersion g c1 c2 ^ 2)) := by
  obtain ⟨a1, a2, a3, a4⟩ := face_difference hb hg og g c1 c2
  have f := cat_frame mg g hg.1 og
  have hD := hb.distance
  have hne : facePoint md c2 ≠ facePoint mg c1 := by
    intro h'
    rw [h'] at a3
    have : (facePoint mg c1 - facePoint mg c1).dot (eX mg) = 0 := by simp [H4.dot]
    linarith
  obtain ⟨d', n, b1, b2, b3, b4⟩ := C169_calibration mg md hg og hd od tr cat g per bm order r s hr he c1 c2 hp h hc hne
  rw [hdir] at b1
  cases b1
  have p1 : (-eX mg).dot (dispDir mg g) = 0 := by rw [H4.dot_comm, H4.dot_neg_right, f.bc, neg_zero]
  have p2 : (-eX mg).dot (barDir mg g) = 0 := by rw [H4.dot_comm, H4.dot_neg_right, f.ac, neg_zero]
  rw [hperp, p1] at b3
  rw [hperp, p2] at b4
  set v := facePoint md c2 - facePoint mg c1 with hv
  have hs := f.dot_self a4
  rw [a1, a2, a3] at hs
  have hpos : 0 < v.dot v := by rw [hs]; nlinarith [sq_nonneg (acrossDispersion g c1 c2), sq_nonneg (alongDispersion g c1 c2)]
  have hnorm : v.norm ≠ 0 := by intro h0; rw [← H4.norm_sq, h0] at hpos; norm_num at hpos
  rw [H4.unit, H4.dot_smul_left, a2] at b4
  have ha : acrossDispersion g c1 c2 = 0 := by
    rcases mul_eq_zero.1 b4 with h0 | h0
    · exact absurd h0 (one_div_ne_zero hnorm)
    · exact h0
  refine ⟨ha, n, b2, ?_⟩
  rw [b3, H4.unit, H4.dot_smul_left, a1, sub_zero]
  have hvn : v.norm = Real.sqrt (D ^ 2 + alongDispersion g c1 c2 ^ 2) := by
    rw [H4.norm, hs, ha]; congr 1; ring
  rw [hvn]
  have ho : orderSide cat 0 = if cat then -1 else 1 := by cases cat <;> simp [orderSide, catSide]
  rw [ho]
  ring

theorem sine_mono {D : ℝ} (hD : 0 < D) : StrictMono fun x : ℝ => x / Real.sqrt (D ^ 2 + x ^ 2) := by
  have e : (fun x : ℝ => x / Real.sqrt (D ^ 2 + x ^ 2)) = fun x => Real.sin (Real.arctan (x / D)) := by
    funext x
    rw [Real.sin_arctan]
    have : D ^ 2 + x ^ 2 = D ^ 2 * (1 + (x / D) ^ 2) := by field_simp
    rw [this, Real.sqrt_mul (sq_nonneg D), Real.sqrt_sq hD.le]
    have : Real.sqrt (1 + (x / D) ^ 2) ≠ 0 := (Real.sqrt_pos.2 (by positivity)).ne'
    field_simp
  rw [e]
  exact Real.sin_arctan_strictMono.comp fun a b hab => div_lt_div_of_pos_right hab hD

/-- **C169** Photons are sorted by order times wavelength: of two photons on the same detector, the one with the larger value is
found further along the dispersion direction (further in the opposite direction for CAT gratings), and photons fall on the same
place only if this value is the same. -/
theorem C169_sorted (D : ℝ) (mg md : M4) (hg : Placed mg) (og : OrthoAxes mg) (hd : Placed md) (od : OrthoAxes md)
    (hb : Behind D mg md) (tr cat : Bool) (g d0 : ℝ) (hd0 : 0 < d0) (bm : ℝ × ℝ → ℝ) (order order' : ℝ → Option ℝ → ℤ × ℝ)
    (r r' s s' : Ray) (hr : r.WellFormed) (hr' : r'.WellFormed) (he : r.energy ≠ 0) (he' : r'.energy ≠ 0) (d d' : H4)
    (hdir : r.dir = some d) (hdir' : r'.dir = some d') (hperp : d.unit = -eX mg) (hperp' : d'.unit = -eX mg)
    (c1 c2 c1' c2' : ℝ × ℝ) (n n' : ℤ)
    (h : runOptics [.grating mg tr cat g (fun _ => d0) bm order, .plane md] r = .ok s)
    (h' : runOptics [.grating mg tr cat g (fun _ => d0) bm order', .plane md] r' = .ok s')
    (hc : s.coos = r.coos ++ [c1, c2]) (hc' : s'.coos = r'.coos ++ [c1', c2']) (hn : s.order = some n) (hn' : s'.order = some n') :
    n * (energy2wave / r.energy) < n' * (energy2wave / r'.energy) ↔
      if cat then alongDispersion g c1' c2' < alongDispersion g c1 c2 else alongDispersion g c1 c2 < alongDispersion g c1' c2' := by
  obtain ⟨-, m, a1, a2⟩ := C169_parallel D mg md hg og hd od hb tr cat g _ bm order r s hr he d hdir hperp c1 c2 hd0.ne' h hc
  obtain ⟨-, m', b1, b2⟩ := C169_parallel D mg md hg og hd od hb tr cat g _ bm order' r' s' hr' he' d' hdir' hperp' c1' c2'
    hd0.ne' h' hc'
  rw [hn] at a1
  rw [hn'] at b1
  cases a1
  cases b1
  rw [a2, b2]
  have hm := sine_mono hb.distance
  cases cat
  · simp only [Bool.false_eq_true, if_false, one_mul]
    rw [mul_lt_mul_iff_right₀ hd0]
    exact hm.lt_iff_lt (a := alongDispersion g c1 c2) (b := alongDispersion g c1' c2')
  · simp only [if_true]
    rw [neg_one_mul, neg_mul, neg_mul, neg_lt_neg_iff, mul_lt_mul_iff_right₀ hd0]
    exact hm.lt_iff_lt (a := alongDispersion g c1' c2') (b := alongDispersion g c1 c2)

/-- A grating and a photon that it diffracts by an angle with sine 3/5. -/
theorem three_fifths (cat : Bool) : ∃ r1 : Ray,
    (Optic.grating (square 0 0 0) true cat 0 (fun _ => 5 / 3 * energy2wave) (fun _ => 0) fun _ _ => (if cat then 1 else -1, 1)).step
      axisRay = .ok r1 ∧ axisRay.hit (square 0 0 0) = some (⟨-1, 0, 0, 0⟩, ⟨0, 1 / 2, 0, 1⟩, 1 / 2, 0, ⟨2, 1 / 2, 0, 1⟩) ∧
    r1.dir = some ⟨-(4 / 5), -(3 / 5), 0, 0⟩ ∧ r1.pos = some ⟨0, 1 / 2, 0, 1⟩ ∧ r1.coos = axisRay.coos ++ [(1 / 2, 0)] ∧
    r1.order = some (if cat then 1 else -1) ∧
    r1.hit (square (-1) 0 0) = some (⟨-(4 / 5), -(3 / 5), 0, 0⟩, ⟨-1, -(1 / 4), 0, 1⟩, -(1 / 4), 0, ⟨0, 1 / 2, 0, 1⟩) := by
  obtain ⟨u1, u2, u3⟩ := square_units 0 0 0
  obtain ⟨v1, v2, v3⟩ := square_units (-1) 0 0
  obtain ⟨c1, -⟩ := squareAxes 0 0 0
  obtain ⟨c2, b1, b2, b3⟩ := squareAxes (-1) 0 0
  obtain ⟨pg, og⟩ := square_ortho 0 0 0
  have hw : energy2wave ≠ 0 := by norm_num [energy2wave]
  have hh : axisRay.hit (square 0 0 0) = some (⟨-1, 0, 0, 0⟩, ⟨0, 1 / 2, 0, 1⟩, 1 / 2, 0, ⟨2, 1 / 2, 0, 1⟩) := by
    simp only [Ray.hit, axisRay, square_hit]
    norm_num [abs_le]
  have du : (⟨-1, 0, 0, 0⟩ : H4).unit = ⟨-1, 0, 0, 0⟩ := by
    simp only [H4.unit, H4.norm, H4.dot]; ext <;> simp
  obtain ⟨r1, n, g1, g2, g3, g4, g5⟩ := grating_leaves pg og true cat 0 (fun _ => 5 / 3 * energy2wave) (fun _ => 0)
    (fun _ _ => (if cat then 1 else -1, 1)) axisRay_ok (by norm_num [axisRay]) (by simpa using hw) hh
  have hn : n = if cat then 1 else -1 := by
    have : r1.order = some (if cat then 1 else -1) := by
      simp only [Optic.step, hh] at g1
      cases g1
      simp only [Ray.at, Ray.times, Grating.diffract, planeGrating]
      split <;> rfl
    rw [g4] at this
    exact Option.some.inj this
  subst hn
  have hl : barDir (square 0 0 0) 0 = ⟨0, 0, 1, 0⟩ := by simp only [barDir, u2, u3]; ext <;> simp
  have hd : dispDir (square 0 0 0) 0 = ⟨0, 1, 0, 0⟩ := by simp only [dispDir, u2, u3]; ext <;> simp
  have sh : orderSide cat ((⟨-1, 0, 0, 0⟩ : H4).unit.dot (dispDir (square 0 0 0) 0)) *
      (((if cat then 1 else -1 : ℤ) : ℝ) * (energy2wave / axisRay.energy) / (5 / 3 * energy2wave)) = -(3 / 5) := by
    have h0 : (⟨-1, 0, 0, 0⟩ : H4).unit.dot (dispDir (square 0 0 0) 0) = 0 := by rw [du, hd]; simp [H4.dot]
    rw [h0]
    cases cat
    · simp only [orderSide, axisRay]
      push_cast
      field_simp
    · simp only [orderSide, axisRay, catSide]
      push_cast
      field_simp
      norm_num
  simp only [sh] at g5
  rw [hl, hd, u1, du] at g5
  rcases g5 with ⟨-, g5⟩ | ⟨d1, g5, ge⟩
  · norm_num [Evanescent, H4.dot] at g5
  have q1 := ge.isDir
  have q2 := ge.unit
  have q3 := ge.groove
  have q4 := ge.dispersion
  have q5 := ge.side
  obtain ⟨x, y, z, w⟩ := d1
  simp [IsDir, H4.dot] at q1 q2 q3 q4 q5
  subst q1 q3 q4
  have hx : x = -(4 / 5) := by
    have : (x - 4 / 5) * (x + 4 / 5) = 0 := by linarith
    rcases mul_eq_zero.1 this with h | h <;> linarith
  subst hx
  refine ⟨r1, g1, hh, g5, g2, g3, g4, ?_⟩
  simp only [Ray.hit, g5, g2]
  simp only [planeIntersect, c2, b1, b2, b3, v1, v2, v3]
  norm_num [H4.dot, H4.norm, abs_le]
  ext <;> simp <;> norm_num

/-- A photon in order -1 that is diffracted by an angle with sine 3/5 and detected at distance 3/4 from the zeroth order. -/
example : ∃ (r s : Ray) (mg md : M4) (bm : ℝ × ℝ → ℝ) (order : ℝ → Option ℝ → ℤ × ℝ), Placed mg ∧ OrthoAxes mg ∧ Placed md ∧
    OrthoAxes md ∧ Behind 1 mg md ∧ r.WellFormed ∧ r.energy ≠ 0 ∧ (∃ d, r.dir = some d ∧ d.unit = -eX mg) ∧
    runOptics [.grating mg true false 0 (fun _ => 5 / 3 * energy2wave) bm order, .plane md] r = .ok s ∧
    s.order = some (-1) ∧ s.coos = r.coos ++ [(1 / 2, 0), (-(1 / 4), 0)] := by
  obtain ⟨u1, u2, u3⟩ := square_units 0 0 0
  obtain ⟨v1, v2, v3⟩ := square_units (-1) 0 0
  obtain ⟨c1, -⟩ := squareAxes 0 0 0
  obtain ⟨c2, -⟩ := squareAxes (-1) 0 0
  obtain ⟨pg, og⟩ := square_ortho 0 0 0
  obtain ⟨pd, od⟩ := square_ortho (-1) 0 0
  have du : (⟨-1, 0, 0, 0⟩ : H4).unit = ⟨-1, 0, 0, 0⟩ := by
    simp only [H4.unit, H4.norm, H4.dot]; ext <;> simp
  obtain ⟨r1, g1, -, -, -, g3, g4, hh1⟩ := three_fifths false
  refine ⟨axisRay, r1.at ⟨-1, -(1 / 4), 0, 1⟩ (-(1 / 4)) 0, square 0 0 0, square (-1) 0 0, fun _ => 0, fun _ _ => (-1, 1), pg, og,
    pd, od, ⟨one_pos, ?_, by rw [u1, v1], by rw [u2, v2], by rw [u3, v3]⟩, axisRay_ok, by norm_num [axisRay],
    ⟨_, rfl, by rw [du, u1]; ext <;> simp⟩, ?_, g4, ?_⟩
  · rw [c1, c2, u1]; ext <;> simp
  · simp only [Bool.false_eq_true, if_false] at g1
    simp only [runOptics, g1]
    simp only [Optic.step, hh1]
  · simp only [Ray.at, g3]
    simp

end Marxs
