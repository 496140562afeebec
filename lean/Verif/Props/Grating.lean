import Mathlib.Tactic.NormNum
import Verif.Lemmas.H4
import Verif.Model.Grating
import Verif.Props.Polarization

/-!
# Properties C19, C20: diffraction gratings
-/

namespace Marxs

/-! ## C19 -/

/-- The groove coordinate system is orthonormal if the local bases of the surface are. -/
theorem Grating.frame_ok (g : Grating) (coo : ℝ × ℝ)
    (h : Frame (g.bases coo).1 (g.bases coo).2.1 (g.bases coo).2.2) :
    Frame (g.frame coo).1 (g.frame coo).2.1 (g.frame coo).2.2 := by
  have hs := Real.sin_sq_add_cos_sq (-g.groove)
  have wa : (g.bases coo).1.w = 0 := h.wa
  have wb : (g.bases coo).2.1.w = 0 := h.wb
  simp only [Grating.frame]
  constructor
  · simp only [H4.dot_add_left, H4.dot_add_right, H4.dot_smul_left, H4.dot_smul_right, h.aa, h.bb,
      h.ab, H4.dot_comm (g.bases coo).2.1 (g.bases coo).1]; linarith
  · simp only [H4.dot_sub_left, H4.dot_sub_right, H4.dot_smul_left, H4.dot_smul_right, h.aa, h.bb,
      h.ab, H4.dot_comm (g.bases coo).2.1 (g.bases coo).1]; linarith
  · exact h.cc
  · simp only [H4.dot_add_left, H4.dot_sub_right, H4.dot_smul_left, H4.dot_smul_right, h.aa, h.bb,
      h.ab, H4.dot_comm (g.bases coo).2.1 (g.bases coo).1]; ring
  · simp only [H4.dot_add_left, H4.dot_smul_left, h.ac, h.bc]; ring
  · simp only [H4.dot_sub_left, H4.dot_smul_left, h.ac, h.bc]; ring
  · simp [IsDir, wa, wb]
  · simp [IsDir, wa, wb]
  · exact h.wc

/-- **C19** The grooves run at the angle `groove_angle` to the second local axis (`e_z` for a plane),
in the surface, and the dispersion direction is perpendicular to them; for `groove_angle = 0` the
dispersion direction is the first local axis (`e_y`). -/
theorem C19_groove_direction (g : Grating) (coo : ℝ × ℝ)
    (h : Frame (g.bases coo).1 (g.bases coo).2.1 (g.bases coo).2.2) :
    Frame (g.frame coo).1 (g.frame coo).2.1 (g.frame coo).2.2 ∧
    (g.frame coo).1.dot (g.bases coo).2.1 = Real.cos g.groove ∧
    (g.frame coo).1.dot (g.bases coo).1 = - Real.sin g.groove ∧
    (g.frame coo).2.2 = (g.bases coo).2.2 ∧
    (g.groove = 0 → (g.frame coo).1 = (g.bases coo).2.1 ∧ (g.frame coo).2.1 = (g.bases coo).1) := by
  refine ⟨g.frame_ok coo h, ?_, ?_, rfl, ?_⟩
  · simp only [Grating.frame, H4.dot_add_left, H4.dot_smul_left, h.ab, h.bb, Real.cos_neg]; ring
  · simp only [Grating.frame, H4.dot_add_left, H4.dot_smul_left, h.aa,
      H4.dot_comm (g.bases coo).2.1 (g.bases coo).1, h.ab, Real.sin_neg]; ring
  · intro h0
    constructor <;> (ext <;> simp [Grating.frame, h0])

theorem sign_mul_sign {x : ℝ} (h : x ≠ 0) : Real.sign x * Real.sign x = 1 := by
  rcases Real.sign_apply_eq_of_ne_zero x h with h | h <;> rw [h] <;> ring

theorem sign_mul_abs (x : ℝ) : Real.sign x * |x| = x := by
  rcases lt_trichotomy x 0 with h | h | h
  · rw [Real.sign_of_neg h, abs_of_neg h]; ring
  · subst h; simp
  · rw [Real.sign_of_pos h, abs_of_pos h]; ring

theorem sign_mul_nonneg (x : ℝ) : 0 ≤ Real.sign x * x := by
  rcases lt_trichotomy x 0 with h | h | h
  · rw [Real.sign_of_neg h]; linarith
  · subst h; simp
  · rw [Real.sign_of_pos h]; linarith

theorem neg_dir {a : H4} (h : IsDir a) : IsDir (-a) := by
  have : a.w = 0 := h
  simp [IsDir, this]

/-- components of the diffracted direction -/
theorem diffractDir_components {tr : Bool} {sign : H4 → H4 → ℝ} {p l e n q : H4} {m : ℤ} {wave dg : ℝ}
    (f : Frame l e n) (h : diffractDir tr sign p l e n m wave dg = some q) :
    IsDir q ∧ q.dot l = p.dot l ∧ q.dot e = p.dot e - sign p (-e) * m * wave / dg ∧
    0 ≤ 1 - (p.dot e - sign p (-e) * m * wave / dg) ^ 2 - (p.dot l) ^ 2 ∧
    q.dot n = (if tr then Real.sign (p.dot n) else - Real.sign (p.dot n)) *
      Real.sqrt (1 - (p.dot e - sign p (-e) * m * wave / dg) ^ 2 - (p.dot l) ^ 2) := by
  have wl : l.w = 0 := f.wa
  have we : e.w = 0 := f.wb
  have wn : n.w = 0 := f.wc
  simp only [diffractDir] at h
  have hpd : p.dot (-e) + sign p (-e) * m * wave / dg
      = -(p.dot e - sign p (-e) * m * wave / dg) := by rw [H4.dot_neg_right]; ring
  rw [hpd] at h
  generalize hX : p.dot e - sign p (-e) * m * wave / dg = X at h ⊢
  rw [neg_sq] at h
  split at h
  · cases h
  · rename_i hr
    simp only [Option.some.injEq] at h
    subst h
    refine ⟨?_, ?_, ?_, not_lt.1 hr, ?_⟩
    · simp only [IsDir, H4.add_w, H4.smul_w, H4.neg_w, wl, we, wn]; ring
    · simp only [H4.dot_add_left, H4.dot_smul_left, H4.dot_neg_left, f.aa,
        H4.dot_comm e l, H4.dot_comm n l, f.ab, f.ac]; ring
    · simp only [H4.dot_add_left, H4.dot_smul_left, H4.dot_neg_left, f.bb,
        H4.dot_comm n e, f.ab, f.bc]; ring
    · simp only [H4.dot_add_left, H4.dot_smul_left, H4.dot_neg_left, f.cc, f.ac, f.bc]
      cases tr <;> simp

theorem diffractDir_none {tr : Bool} {sign : H4 → H4 → ℝ} {p l e n : H4} {m : ℤ} {wave dg : ℝ} :
    diffractDir tr sign p l e n m wave dg = none ↔
      1 < (p.dot e - sign p (-e) * m * wave / dg) ^ 2 + (p.dot l) ^ 2 := by
  simp only [diffractDir]
  have hpd : p.dot (-e) + sign p (-e) * m * wave / dg
      = -(p.dot e - sign p (-e) * m * wave / dg) := by rw [H4.dot_neg_right]; ring
  rw [hpd, neg_sq]
  split
  · rename_i h; simp only [true_iff]; linarith
  · rename_i h; simp only [reduceCtorEq, false_iff]; linarith

theorem diffractDir_equation {tr : Bool} {sign : H4 → H4 → ℝ} {p l e n q : H4} {m : ℤ} {wave dg : ℝ}
    (f : Frame l e n) (hpn : p.dot n ≠ 0) (h : diffractDir tr sign p l e n m wave dg = some q) :
    GratingEquation tr l e n p q (- sign p (-e) * m * wave / dg) := by
  obtain ⟨h1, h2, h3, h4, h5⟩ := diffractDir_components f h
  refine ⟨h1, ?_, h2, by rw [h3]; ring, ?_⟩
  · rw [f.dot_self h1, h2, h3, h5, mul_pow, Real.sq_sqrt h4]
    have : (if tr then Real.sign (p.dot n) else - Real.sign (p.dot n)) ^ 2 = 1 := by
      cases tr <;> simp [sq, sign_mul_sign hpn]
    rw [this]; ring
  · rw [h5]
    have s1 := sign_mul_nonneg (p.dot n)
    have s2 := Real.sqrt_nonneg
      (1 - (p.dot e - sign p (-e) * m * wave / dg) ^ 2 - (p.dot l) ^ 2)
    have := mul_nonneg s1 s2
    cases tr
    · simp only [Bool.false_eq_true, if_false]; linarith
    · simp only [if_true]; linarith

theorem diffract_dir_eq (g : Grating) (dir pol : H4) (energy : ℝ) (coo : ℝ × ℝ)
    (hd : dir.dot dir ≠ 0) (he : energy ≠ 0) (hg : g.d coo ≠ 0) :
    (g.diffract dir pol energy coo).dir =
      diffractDir g.transmission g.sign dir.unit (g.frame coo).1 (g.frame coo).2.1 (g.frame coo).2.2
        (g.diffract dir pol energy coo).m (energy2wave / energy) (g.d coo) := by
  simp only [Grating.diffract, normVector, hd, if_false, he, hg, or_self]

/-- **C19** The grating equation for a `FlatGrating`: every photon (not flying parallel to the
surface; those never hit) for which the selected order is not evanescent leaves the grating with unit
length, unchanged component along the grooves, the component along the dispersion direction changed
by order * wavelength / grating constant, and on the correct side. -/
theorem C19_grating_equation (g : Grating) (hs : g.sign = flatSign) (coo : ℝ × ℝ)
    (hb : Frame (g.bases coo).1 (g.bases coo).2.1 (g.bases coo).2.2)
    (dir pol : H4) (energy : ℝ) (h0 : dir.dot dir ≠ 0) (he : energy ≠ 0)
    (hg : g.d coo ≠ 0) (hn : dir.dot (g.bases coo).2.2 ≠ 0) (q : H4)
    (h : (g.diffract dir pol energy coo).dir = some q) :
    GratingEquation g.transmission (g.frame coo).1 (g.frame coo).2.1 (g.bases coo).2.2 dir.unit q
      ((g.diffract dir pol energy coo).m * (energy2wave / energy) / g.d coo) := by
  rw [diffract_dir_eq g dir pol energy coo h0 he hg, hs] at h
  have hpn : dir.unit.dot (g.frame coo).2.2 ≠ 0 := by
    have hne : dir.norm ≠ 0 := by
      intro h'; apply h0; rw [← H4.norm_sq, h']; ring
    rw [H4.unit, H4.dot_smul_left]
    exact mul_ne_zero (one_div_ne_zero hne) hn
  have := diffractDir_equation (g.frame_ok coo hb) hpn h
  have hfn : (g.frame coo).2.2 = (g.bases coo).2.2 := rfl
  rw [hfn] at this
  simpa [flatSign] using this

/-- **C19** A photon is lost (its direction becomes NaN) exactly if the order is evanescent, i.e. if
no real direction satisfies the grating equation. -/
theorem C19_evanescent (g : Grating) (hs : g.sign = flatSign) (coo : ℝ × ℝ)
    (dir pol : H4) (energy : ℝ) (h0 : dir.dot dir ≠ 0) (he : energy ≠ 0) (hg : g.d coo ≠ 0) :
    (g.diffract dir pol energy coo).dir = none ↔
      1 < (dir.unit.dot (g.frame coo).2.1 +
          (g.diffract dir pol energy coo).m * (energy2wave / energy) / g.d coo) ^ 2 +
        (dir.unit.dot (g.frame coo).1) ^ 2 := by
  rw [diffract_dir_eq g dir pol energy coo h0 he hg, hs, diffractDir_none]
  simp only [flatSign]
  constructor <;> intro h <;> (convert h using 3; ring)

/-- **C19** Order 0 in transmission does not change the direction, and order 0 in reflection is a
mirror reflection, for every sign convention. -/
theorem C19_zero_order (sign : H4 → H4 → ℝ) (l e n p : H4) (f : Frame l e n) (hp : IsDir p)
    (hu : p.dot p = 1) (wave dg : ℝ) :
    diffractDir true sign p l e n 0 wave dg = some p ∧
    diffractDir false sign p l e n 0 wave dg = some (mirrored n p) := by
  have hsum := f.dot_self hp
  rw [hu] at hsum
  have h4 : ∀ tr, diffractDir tr sign p l e n 0 wave dg ≠ none := by
    intro tr h
    rw [diffractDir_none] at h
    simp at h
    nlinarith [sq_nonneg (p.dot n)]
  have hsq : Real.sqrt (1 - (p.dot e) ^ 2 - (p.dot l) ^ 2) = |p.dot n| := by
    rw [← Real.sqrt_sq_eq_abs]; congr 1; linarith
  constructor
  · obtain ⟨q, hq⟩ := Option.ne_none_iff_exists'.1 (h4 true)
    obtain ⟨h1, h2, h3, _, h5⟩ := diffractDir_components f hq
    simp at h3 h5
    rw [hsq, sign_mul_abs] at h5
    rw [hq, f.ext h1 hp h2 h3 h5]
  · obtain ⟨q, hq⟩ := Option.ne_none_iff_exists'.1 (h4 false)
    obtain ⟨h1, h2, h3, _, h5⟩ := diffractDir_components f hq
    simp at h3 h5
    rw [hsq, sign_mul_abs] at h5
    have wn : n.w = 0 := f.wc
    have wp : p.w = 0 := hp
    rw [hq, f.ext (w := mirrored n p) h1 ?_ ?_ ?_ ?_]
    · simp [IsDir, mirrored, wn, wp]
    · rw [h2, mirrored, H4.dot_sub_left, H4.dot_smul_left, H4.dot_comm n l, f.ac]; ring
    · rw [h3, mirrored, H4.dot_sub_left, H4.dot_smul_left, H4.dot_comm n e, f.bc]; ring
    · rw [h5, mirrored, H4.dot_sub_left, H4.dot_smul_left, f.cc]; ring

/-- **C19** Diffraction is reversible: a second, parallel grating in the opposite order restores the
direction, for all wavelengths, orders, grating constants and for transmission and reflection. -/
theorem C19_undo (tr : Bool) (l e n p q : H4) (f : Frame l e n) (hp : IsDir p) (hu : p.dot p = 1)
    (hpn : p.dot n ≠ 0) (m : ℤ) (wave dg : ℝ)
    (h : diffractDir tr flatSign p l e n m wave dg = some q) (hqn : q.dot n ≠ 0) :
    diffractDir tr flatSign q l e n (-m) wave dg = some p := by
  have eq1 := diffractDir_equation f hpn h
  obtain ⟨h1, h2, h3, h4, h5⟩ := diffractDir_components f h
  have hsum := f.dot_self hp
  rw [hu] at hsum
  have hd : q.dot e - flatSign q (-e) * ((-m : ℤ) : ℝ) * wave / dg = p.dot e := by
    rw [h3]; simp only [flatSign]; push_cast; ring
  have hne : diffractDir tr flatSign q l e n (-m) wave dg ≠ none := by
    intro hh
    rw [diffractDir_none, hd, h2] at hh
    nlinarith [sq_nonneg (p.dot n)]
  obtain ⟨q', hq'⟩ := Option.ne_none_iff_exists'.1 hne
  obtain ⟨g1, g2, g3, g4, g5⟩ := diffractDir_components f hq'
  rw [hd] at g3 g5
  rw [h2] at g2 g5
  have hsq : Real.sqrt (1 - (p.dot e) ^ 2 - (p.dot l) ^ 2) = |p.dot n| := by
    rw [← Real.sqrt_sq_eq_abs]; congr 1; linarith
  rw [hsq] at g5
  have side := eq1.side
  have key : q'.dot n = p.dot n := by
    rw [g5]
    cases tr
    · simp only [Bool.false_eq_true, if_false] at side ⊢
      rcases lt_or_gt_of_ne hpn with hx | hx
      · have : 0 < q.dot n := lt_of_le_of_ne (by nlinarith) (Ne.symm hqn)
        rw [Real.sign_of_pos this, abs_of_neg hx]; ring
      · have : q.dot n < 0 := lt_of_le_of_ne (by nlinarith) hqn
        rw [Real.sign_of_neg this, abs_of_pos hx]; ring
    · simp only [if_true] at side ⊢
      rcases lt_or_gt_of_ne hpn with hx | hx
      · have : q.dot n < 0 := lt_of_le_of_ne (by nlinarith) hqn
        rw [Real.sign_of_neg this, abs_of_neg hx]; ring
      · have : 0 < q.dot n := lt_of_le_of_ne (by nlinarith) (Ne.symm hqn)
        rw [Real.sign_of_pos this, abs_of_pos hx]; ring
  rw [hq', f.ext g1 hp g2 g3 key]

/-- **C19** Diffraction keeps the polarization vector at its length and transverse to the photon
direction (up to the tolerance of `paralleltransport_matrix` for very small changes of direction). -/
theorem C19_polarization (g : Grating) (hs : g.sign = flatSign) (coo : ℝ × ℝ)
    (hb : Frame (g.bases coo).1 (g.bases coo).2.1 (g.bases coo).2.2)
    (dir pol : H4) (energy : ℝ) (hd : IsDir dir) (h0 : dir.dot dir ≠ 0) (he : energy ≠ 0)
    (hg : g.d coo ≠ 0) (hn : dir.dot (g.bases coo).2.2 ≠ 0) (hperp : pol.xyz.dot dir.xyz = 0) (q : H4)
    (h : (g.process dir pol energy coo).1.dir = some q) :
    ∃ out, (g.process dir pol energy coo).2 = some out ∧ IsDir out ∧
      out.xyz.dot out.xyz = pol.xyz.dot pol.xyz ∧
      |out.xyz.dot q.xyz| ≤ 1 / 10 ^ 8 * pol.xyz.norm := by
  have hq := C19_grating_equation g hs coo hb dir pol energy h0 he hg hn q h
  have wq : q.w = 0 := hq.isDir
  have qu : q.xyz.dot q.xyz = 1 := by rw [← dot_xyz q q (.inl wq)]; exact hq.unit
  have d0 : dir.xyz ≠ 0 := fun h' => h0 ((H4.dot_self_eq_zero hd).2 h')
  obtain ⟨out, o1, o2, o3, o4, _⟩ := C17_transport dir q pol d0 (V3.ne_zero_of_unit qu) hperp
  rw [V3.unit_of_unit qu] at o4
  refine ⟨out, ?_, o2, o3, o4⟩
  simp only [Grating.process] at h ⊢
  rw [h]; exact o1

/-- **C19** The blaze angle without modification is the angle, in `[0, pi/2]`, between the normal and
the ray projected perpendicular to the grooves. -/
theorem C19_blaze (l e n p : H4) (f : Frame l e n) (hp : IsDir p) (hproj : p - (p.dot l) • l ≠ ⟨0,0,0,0⟩) :
    ∃ b, blazeAngle p l n 0 = some b ∧ 0 ≤ b ∧ b ≤ Real.pi / 2 ∧
      Real.cos b * (p - (p.dot l) • l).norm = |p.dot n| ∧
      Real.sin b * (p - (p.dot l) • l).norm = |p.dot e| := by
  set v := p - (p.dot l) • l with hv
  have wl : l.w = 0 := f.wa
  have wp : p.w = 0 := hp
  have hvd : IsDir v := by simp [hv, IsDir, wl, wp]
  have vl : v.dot l = 0 := by rw [hv, H4.dot_sub_left, H4.dot_smul_left, f.aa]; ring
  have ve : v.dot e = p.dot e := by rw [hv, H4.dot_sub_left, H4.dot_smul_left, f.ab]; ring
  have vn : v.dot n = p.dot n := by rw [hv, H4.dot_sub_left, H4.dot_smul_left, f.ac]; ring
  have vv : v.dot v ≠ 0 := by
    intro h
    rw [H4.dot_self_eq_zero hvd] at h
    apply hproj
    have hw : v.w = 0 := hvd
    ext
    · exact congrArg V3.x h
    · exact congrArg V3.y h
    · exact congrArg V3.z h
    · exact hw
  have uu := H4.unit_dot_unit vv
  have vnorm : v.norm ≠ 0 := by intro h'; apply vv; rw [← H4.norm_sq, h']; ring
  have vpos : 0 < v.norm := lt_of_le_of_ne (Real.sqrt_nonneg _) (Ne.symm vnorm)
  have un : v.unit.dot n = p.dot n / v.norm := by
    rw [H4.unit, H4.dot_smul_left, vn]; ring
  have ue : v.unit.dot e = p.dot e / v.norm := by
    rw [H4.unit, H4.dot_smul_left, ve]; ring
  have ul : v.unit.dot l = 0 := by rw [H4.unit, H4.dot_smul_left, vl]; ring
  have hud : IsDir v.unit := H4.unit_w hvd
  have hsum := f.dot_self hud
  rw [uu, ul] at hsum
  have hle : |v.unit.dot n| ≤ 1 := by
    rw [abs_le]; constructor <;> nlinarith [sq_nonneg (v.unit.dot e)]
  refine ⟨Real.arccos |v.unit.dot n|, ?_, Real.arccos_nonneg _, ?_, ?_, ?_⟩
  · simp only [blazeAngle, normVector, ← hv, vv, if_false, max_eq_left (abs_nonneg (v.unit.dot n)),
      min_eq_left hle, add_zero]
  · rw [Real.arccos_le_pi_div_two]; exact abs_nonneg _
  · rw [Real.cos_arccos (by linarith [abs_nonneg (v.unit.dot n)]) hle, un, abs_div, abs_of_pos vpos]
    field_simp
  · rw [Real.sin_arccos, sq_abs]
    have : 1 - (v.unit.dot n) ^ 2 = (v.unit.dot e) ^ 2 := by linarith
    rw [this, Real.sqrt_sq_eq_abs, ue, abs_div, abs_of_pos vpos]
    field_simp

/-! ## C20 -/

theorem mirrored_dir {e p : H4} (he : IsDir e) (hp : IsDir p) : IsDir (mirrored e p) := by
  have we : e.w = 0 := he
  have wp : p.w = 0 := hp
  simp [IsDir, mirrored, we, wp]

/-- **C20** CAT gratings have no preferred side: mirroring the incoming direction at the plane of
grooves and normal mirrors the outgoing direction, for every order. -/
theorem C20_cat_symmetric (tr : Bool) (l e n p : H4) (f : Frame l e n) (hp : IsDir p)
    (hpe : p.dot e ≠ 0) (m : ℤ) (wave dg : ℝ) :
    diffractDir tr catSign (mirrored e p) l e n m wave dg =
      (diffractDir tr catSign p l e n m wave dg).map (mirrored e) := by
  have me : (mirrored e p).dot e = - p.dot e := by
    rw [mirrored, H4.dot_sub_left, H4.dot_smul_left, f.bb]; ring
  have ml : (mirrored e p).dot l = p.dot l := by
    rw [mirrored, H4.dot_sub_left, H4.dot_smul_left, H4.dot_comm e l, f.ab]; ring
  have mn : (mirrored e p).dot n = p.dot n := by
    rw [mirrored, H4.dot_sub_left, H4.dot_smul_left, f.bc]; ring
  have cs : catSign (mirrored e p) (-e) = - catSign p (-e) := by
    simp only [catSign, H4.dot_neg_right, me, neg_neg, Real.sign_neg]
    rcases Real.sign_apply_eq_of_ne_zero _ hpe with h | h <;> rw [h] <;> norm_num
  have hX : (mirrored e p).dot e - catSign (mirrored e p) (-e) * m * wave / dg =
      -(p.dot e - catSign p (-e) * m * wave / dg) := by rw [me, cs]; ring
  cases hq : diffractDir tr catSign p l e n m wave dg with
  | none =>
    rw [Option.map_none, diffractDir_none, hX, neg_sq, ml]
    exact diffractDir_none.1 hq
  | some q =>
    have hne : diffractDir tr catSign (mirrored e p) l e n m wave dg ≠ none := by
      intro h
      rw [diffractDir_none, hX, neg_sq, ml, ← diffractDir_none (tr := tr) (n := n), hq] at h
      cases h
    obtain ⟨q', hq'⟩ := Option.ne_none_iff_exists'.1 hne
    obtain ⟨g1, g2, g3, _, g5⟩ := diffractDir_components f hq'
    obtain ⟨h1, h2, h3, _, h5⟩ := diffractDir_components f hq
    rw [hX] at g3 g5
    rw [ml] at g2 g5
    rw [mn, neg_sq, ← h5] at g5
    rw [← h3] at g3
    rw [hq', Option.map_some]
    congr 1
    refine f.ext g1 (mirrored_dir f.wb h1) ?_ ?_ ?_
    · rw [g2, mirrored, H4.dot_sub_left, H4.dot_smul_left, H4.dot_comm e l, f.ab, h2]; ring
    · rw [g3, mirrored, H4.dot_sub_left, H4.dot_smul_left, f.bb]; ring
    · rw [g5, mirrored, H4.dot_sub_left, H4.dot_smul_left, f.bc]; ring

/-- **C20** The grating equation for CAT gratings; the sign convention is such that negative orders
go to the blazed side: they change the direction along the dispersion axis towards (and beyond) the
plane of grooves and normal, positive orders away from it. -/
theorem C20_blaze_side (tr : Bool) (l e n p q : H4) (f : Frame l e n) (hpn : p.dot n ≠ 0)
    (hpe : p.dot e ≠ 0) (m : ℤ) (wave dg : ℝ) (hw : 0 < wave) (hd : 0 < dg)
    (h : diffractDir tr catSign p l e n m wave dg = some q) :
    GratingEquation tr l e n p q (Real.sign (p.dot e) * (m * wave / dg)) ∧
    (m < 0 → (q.dot e - p.dot e) * p.dot e < 0) ∧ (0 < m → 0 < (q.dot e - p.dot e) * p.dot e) := by
  have heq := diffractDir_equation f hpn h
  have cs : - catSign p (-e) = Real.sign (p.dot e) := by
    simp only [catSign, H4.dot_neg_right, Real.sign_neg]
    rcases Real.sign_apply_eq_of_ne_zero _ hpe with h | h <;> rw [h] <;> norm_num
  have e1 : - catSign p (-e) * m * wave / dg = Real.sign (p.dot e) * (m * wave / dg) := by
    rw [cs]; ring
  rw [e1] at heq
  have hpos : 0 < Real.sign (p.dot e) * p.dot e :=
    lt_of_le_of_ne (sign_mul_nonneg _) (Ne.symm (mul_ne_zero (by
      rw [ne_eq, Real.sign_eq_zero_iff]; exact hpe) hpe))
  have hr : 0 < wave / dg := div_pos hw hd
  have e2 : (q.dot e - p.dot e) * p.dot e = Real.sign (p.dot e) * p.dot e * (wave / dg) * m := by
    rw [heq.dispersion]; ring
  have hpr := mul_pos hpos hr
  refine ⟨heq, fun hm => ?_, fun hm => ?_⟩
  · rw [e2]
    exact mul_neg_of_pos_of_neg hpr (by exact_mod_cast hm)
  · rw [e2]
    exact mul_pos hpr (by exact_mod_cast hm)

/-- **C20** Mirroring does not change the blaze angle that is passed to the order selector. -/
theorem C20_blaze_symmetric (l e n p : H4) (f : Frame l e n) (hp : IsDir p) (mod : ℝ) :
    blazeAngle (mirrored e p) l n mod = blazeAngle p l n mod := by
  have ml : (mirrored e p).dot l = p.dot l := by
    rw [mirrored, H4.dot_sub_left, H4.dot_smul_left, H4.dot_comm e l, f.ab]; ring
  have mn : (mirrored e p).dot n = p.dot n := by
    rw [mirrored, H4.dot_sub_left, H4.dot_smul_left, f.bc]; ring
  have me : (mirrored e p).dot e = - p.dot e := by
    rw [mirrored, H4.dot_sub_left, H4.dot_smul_left, f.bb]; ring
  have wl : l.w = 0 := f.wa
  have wp : p.w = 0 := hp
  have hm := mirrored_dir f.wb hp
  have wm : (mirrored e p).w = 0 := hm
  have hvv : (mirrored e p - (mirrored e p).dot l • l).dot (mirrored e p - (mirrored e p).dot l • l) =
      (p - p.dot l • l).dot (p - p.dot l • l) := by
    rw [f.dot_self (v := mirrored e p - (mirrored e p).dot l • l) (by simp [IsDir, wl, wm]),
      f.dot_self (v := p - p.dot l • l) (by simp [IsDir, wl, wp])]
    simp only [H4.dot_sub_left, H4.dot_smul_left, ml, mn, me]
    rw [f.aa, f.ab, f.ac]; ring
  have hun : (mirrored e p - (mirrored e p).dot l • l).unit.dot n = (p - p.dot l • l).unit.dot n := by
    simp only [H4.unit, H4.norm, hvv]
    simp only [H4.dot_smul_left, H4.dot_sub_left, ml, mn]
  simp only [blazeAngle, normVector, hvv]
  split <;> simp_all

/-! Non-vacuity: a flat grating in the y-z plane. -/

theorem frame_standard : Frame ⟨0,0,1,0⟩ ⟨0,1,0,0⟩ ⟨1,0,0,0⟩ := by
  constructor <;> simp [H4.dot, IsDir]

/-- example grating with 2e-6 mm grating constant, first order -/
noncomputable def exGrating : Grating where
  transmission := true
  groove := 0
  d := fun _ => 0.002
  blazeMod := fun _ => 0
  order := fun _ _ _ => (1, 1)
  sign := flatSign
  bases := fun _ => (⟨0,1,0,0⟩, ⟨0,0,1,0⟩, ⟨1,0,0,0⟩)

example : ∃ q, (exGrating.diffract ⟨-1,0,0,0⟩ ⟨0,1,0,0⟩ 1 (0,0)).dir = some q ∧
    Frame (exGrating.bases (0,0)).1 (exGrating.bases (0,0)).2.1 (exGrating.bases (0,0)).2.2 ∧
    (⟨-1,0,0,0⟩ : H4).dot (exGrating.bases (0,0)).2.2 ≠ 0 := by
  have hne : (exGrating.diffract ⟨-1,0,0,0⟩ ⟨0,1,0,0⟩ 1 (0,0)).dir ≠ none := by
    intro h
    rw [C19_evanescent exGrating rfl (0,0) _ _ 1 (by simp [H4.dot]) (by norm_num)
      (by norm_num [exGrating])] at h
    have u : (⟨-1,0,0,0⟩ : H4).unit = ⟨-1,0,0,0⟩ := H4.unit_of_unit (by simp [H4.dot])
    rw [u] at h
    simp [Grating.frame, exGrating, H4.dot, Grating.diffract, normVector, energy2wave] at h
    norm_num at h
  obtain ⟨q, hq⟩ := Option.ne_none_iff_exists'.1 hne
  refine ⟨q, hq, ?_, by simp [exGrating, H4.dot]⟩
  constructor <;> simp [exGrating, H4.dot, IsDir]

/-- **C19** The hypothesis of the theorems above holds for every flat grating placed with perpendicular
axes, and for every grating bent to a circular cylinder. -/
theorem C19_flat_and_bent (m : M4) (hm : Affine m) (ho : OrthoAxes m) :
    Frame (planeBases m).1 (planeBases m).2.1 (planeBases m).2.2 ∧
    ((vX m).xyz.dot (vX m).xyz = (vY m).xyz.dot (vY m).xyz →
      ∀ phi, Frame (cylBases m phi).1 (cylBases m phi).2.1 (cylBases m phi).2.2) := by
  refine ⟨?_, fun hc phi => ?_⟩
  · obtain ⟨a, b, c, d, e, f, g, h, i⟩ := C70_plane_bases m hm ho
    exact ⟨a, b, c, d, e, f, g, h, i⟩
  · obtain ⟨a, b, c, d, e, f, g, h, i⟩ := C70_cylinder_bases m hm ho hc phi
    exact ⟨a, b, c, d, e, f, g, h, i⟩

/-! A CAT grating, photon arriving at an angle, order -1. -/
example : ∃ q, diffractDir true catSign ⟨-0.8, 0.6, 0, 0⟩ ⟨0,0,1,0⟩ ⟨0,1,0,0⟩ ⟨1,0,0,0⟩ (-1) 0.1 1 =
    some q ∧ (⟨-0.8, 0.6, 0, 0⟩ : H4).dot ⟨0,1,0,0⟩ ≠ 0 := by
  refine ⟨_, Option.ne_none_iff_exists'.1 ?_ |>.choose_spec, by norm_num [H4.dot]⟩
  rw [ne_eq, diffractDir_none]
  have h : catSign ⟨-0.8, 0.6, 0, 0⟩ (-⟨0,1,0,0⟩) = -1 := by
    simp only [catSign]
    rw [show (⟨-0.8, 0.6, 0, 0⟩ : H4).dot (-⟨0,1,0,0⟩) = -0.6 by simp [H4.dot],
      Real.sign_of_neg (by norm_num)]
    norm_num
  rw [h]
  norm_num [H4.dot]

end Marxs
