import Verif.Spec.RigidMotion
import Verif.Props.SolidAngle
import Verif.Props.Torus
import Verif.Props.Grating
import Verif.Lemmas.H4

/-!
# Property C157: the results of a simulation do not depend on the coordinate system
-/

namespace Marxs

namespace Motion
variable (g : Motion)

theorem mat_affine : Affine g.mat := by simp [Affine, mat]

theorem act_w (p : H4) : (g.act p).w = p.w := affine_w g.mat_affine p

theorem act_xyz {p : H4} (h : p.w = 0) : (g.act p).xyz = mul3 g.rot p.xyz := by
  ext <;> simp [act, mat, mul4, mul3, h]

theorem act_dir {p : H4} (h : p.w = 0) : g.act p = (mul3 g.rot p.xyz).toDir := by
  have h1 := g.act_xyz h
  have h2 := g.act_w p
  rw [h] at h2
  rw [← h1]
  ext <;> simp [V3.toDir, h2]

theorem act_toDir (v : V3) : g.act v.toDir = (mul3 g.rot v).toDir := by
  rw [g.act_dir rfl]; rfl

theorem act_add (a b : H4) : g.act (a + b) = g.act a + g.act b := by
  ext <;> simp [act, mul4] <;> ring
theorem act_sub (a b : H4) : g.act (a - b) = g.act a - g.act b := by
  ext <;> simp [act, mul4] <;> ring
theorem act_neg (a : H4) : g.act (-a) = -g.act a := by
  ext <;> simp [act, mul4] <;> ring
theorem act_smul (c : ℝ) (a : H4) : g.act (c • a) = c • g.act a := by
  ext <;> simp [act, mul4] <;> ring
theorem act_zero : g.act ⟨0, 0, 0, 0⟩ = ⟨0, 0, 0, 0⟩ := by
  ext <;> simp [act, mul4]

theorem act_dot {a b : H4} (ha : a.w = 0) (hb : b.w = 0) : (g.act a).dot (g.act b) = a.dot b := by
  rw [dot_xyz _ _ (.inl (by rw [act_w, ha])), dot_xyz _ _ (.inl ha), g.act_xyz ha, g.act_xyz hb, rotation_dot g.isRot]

theorem act_norm {a : H4} (ha : a.w = 0) : (g.act a).norm = a.norm := by
  rw [H4.norm, H4.norm, g.act_dot ha ha]

theorem act_unit {a : H4} (ha : a.w = 0) : (g.act a).unit = g.act a.unit := by
  rw [H4.unit, H4.unit, g.act_norm ha, act_smul]

theorem col_mul (m : M4) (j : Fin 4) : col (g.mat * m) j = g.act (col m j) := by
  ext <;> simp [col, act, mul4, Matrix.mul_apply, Fin.sum_univ_four]

theorem center_mul (m : M4) : center (g.mat * m) = g.act (center m) := g.col_mul m 3
theorem vX_mul (m : M4) : vX (g.mat * m) = g.act (vX m) := g.col_mul m 0
theorem vY_mul (m : M4) : vY (g.mat * m) = g.act (vY m) := g.col_mul m 1
theorem vZ_mul (m : M4) : vZ (g.mat * m) = g.act (vZ m) := g.col_mul m 2

theorem eX_mul {m : M4} (h : Affine m) : eX (g.mat * m) = g.act (eX m) := by rw [eX, vX_mul, g.act_unit h.1]; rfl
theorem eY_mul {m : M4} (h : Affine m) : eY (g.mat * m) = g.act (eY m) := by rw [eY, vY_mul, g.act_unit h.2.1]; rfl
theorem eZ_mul {m : M4} (h : Affine m) : eZ (g.mat * m) = g.act (eZ m) := by rw [eZ, vZ_mul, g.act_unit h.2.2.1]; rfl

theorem mat_det : g.mat.det = 1 := by
  have h := g.isRot.2
  rw [Matrix.det_fin_three] at h
  rw [mat, Matrix.det_succ_row _ 3]
  simp [Fin.sum_univ_four, Matrix.det_fin_three, Matrix.submatrix, Fin.succAbove]
  linear_combination h

theorem inv_act (m : M4) (p : H4) : mul4 (g.mat * m)⁻¹ (g.act p) = mul4 m⁻¹ p := by
  rw [Matrix.mul_inv_rev, mul4_mul, act, inv_mul4 (by rw [mat_det]; exact one_ne_zero)]

/-! ### three dimensional vectors -/

theorem rot_cross {r : M3} (h : IsRotation r) (a b : V3) : mul3 r (a.cross b) = (mul3 r a).cross (mul3 r b) := by
  have hi : r.adjugate = r.transpose := by
    have h1 : r.transpose * r * r.adjugate = r.adjugate := by rw [h.1, one_mul]
    rw [mul_assoc, Matrix.mul_adjugate, h.2, one_smul, mul_one] at h1
    exact h1.symm
  rw [Matrix.adjugate_fin_three] at hi
  have e := fun i j => congrFun (congrFun hi i) j
  have e00 := e 0 0; have e01 := e 0 1; have e02 := e 0 2
  have e10 := e 1 0; have e11 := e 1 1; have e12 := e 1 2
  have e20 := e 2 0; have e21 := e 2 1; have e22 := e 2 2
  simp at e00 e01 e02 e10 e11 e12 e20 e21 e22
  ext
  · simp only [mul3, V3.cross]
    rw [← e00, ← e10, ← e20]; ring
  · simp only [mul3, V3.cross]
    rw [← e01, ← e11, ← e21]; ring
  · simp only [mul3, V3.cross]
    rw [← e02, ← e12, ← e22]; ring

theorem rot_eq_zero {r : M3} (h : IsRotation r) (v : V3) : mul3 r v = 0 ↔ v = 0 :=
  not_iff_not.1 (mul3_ne_zero h v)

theorem rot_add (r : M3) (a b : V3) : mul3 r (a + b) = mul3 r a + mul3 r b := by
  ext <;> simp [mul3] <;> ring
theorem rot_sub (r : M3) (a b : V3) : mul3 r (a - b) = mul3 r a - mul3 r b := by
  ext <;> simp [mul3] <;> ring
theorem rot_smul (r : M3) (c : ℝ) (a : V3) : mul3 r (c • a) = c • mul3 r a := by
  ext <;> simp [mul3] <;> ring

theorem rot_turn {r : M3} (h : IsRotation r) (a v : V3) (t : ℝ) :
    mul3 (rotMat (mul3 r a) t) (mul3 r v) = mul3 r (mul3 (rotMat a t) v) := by
  rw [rodrigues, rodrigues, rot_add, rot_add, rot_smul, rot_smul, rot_smul, rot_cross h, rotation_dot h]

end Motion

open Motion Classical

variable (g : Motion)

/-- **C157** planes -/
theorem C157_plane (m : M4) (hm : Affine m) (dir pos : H4) (hd : IsDir dir) (hp : IsPoint pos) :
    planeIntersect (g.mat * m) (g.act dir) (g.act pos) =
      (planeIntersect m dir pos).map fun q => (g.act q.1, q.2) := by
  have hd' : dir.w = 0 := hd
  have hp' : pos.w = 1 := hp
  have hc : (center m).w = 1 := hm.2.2.2
  have hX : (eX m).w = 0 := H4.unit_w hm.1
  have hY : (eY m).w = 0 := H4.unit_w hm.2.1
  have hZ : (eZ m).w = 0 := H4.unit_w hm.2.2.1
  have hY' : (vY m).w = 0 := hm.2.1
  have hZ' : (vZ m).w = 0 := hm.2.2.1
  have w1 : (center m - pos).w = 0 := by rw [H4.sub_w, hc, hp', sub_self]
  have e1 : (g.act (center m) - g.act pos).dot (g.act (eX m)) = (center m - pos).dot (eX m) := by
    rw [← g.act_sub, g.act_dot w1 hX]
  have e2 : (g.act dir).dot (g.act (eX m)) = dir.dot (eX m) := g.act_dot hd' hX
  have e3 : ∀ (k : ℝ) (e : H4), e.w = 0 →
      (g.act pos + k • g.act dir - g.act (center m)).dot (g.act e) = (pos + k • dir - center m).dot e := by
    intro k e he
    rw [← g.act_smul, ← g.act_add, ← g.act_sub, g.act_dot _ he]
    rw [H4.sub_w, H4.add_w, H4.smul_w, hc, hp', hd']; ring
  simp only [planeIntersect, g.center_mul, g.eX_mul hm, g.eY_mul hm, g.eZ_mul hm, g.vY_mul, g.vZ_mul, e1, e2,
    e3 _ _ hY, e3 _ _ hZ, g.act_norm hY', g.act_norm hZ']
  split_ifs
  · rfl
  · simp [g.act_smul, g.act_add]
  · rfl

/-- **C157** cylinders -/
theorem C157_cylinder (m : M4) (zoomz lim0 lim1 : ℝ) (dir pos : H4) :
    cylIntersect (g.mat * m) zoomz lim0 lim1 (g.act dir) (g.act pos) =
      (cylIntersect m zoomz lim0 lim1 dir pos).map fun o => o.map fun q => (g.act q.1, q.2) := by
  simp only [cylIntersect, g.act_w, Matrix.det_mul, g.mat_det, one_mul, g.inv_act]
  split_ifs
  · rfl
  · rfl
  · cases h : cylLocal lim0 lim1 (mul4 m⁻¹ pos).xyz (mul4 m⁻¹ dir).xyz with
    | none => rfl
    | some q => simp [Except.map, mul4_mul, act]

theorem isclose_norm {r : M3} (h : IsRotation r) (v : V3) (x : ℝ) : isclose (mul3 r v).norm x ↔ isclose v.norm x := by
  rw [mul3_norm h]

/-- parallel transport, written with vectors -/
theorem parallelTransport_vec (d1 d2 pol : H4) : parallelTransport d1 d2 pol =
    if d1.xyz = 0 ∨ d2.xyz = 0 then none
    else if isclose (d1.xyz.unit.cross d2.xyz.unit).norm 0 then some pol.xyz.toDir
    else
      let a := d1.xyz.unit
      let b := d2.xyz.unit
      let s := (a.cross b).unit
      some (s.dot pol.xyz • s + (a.cross s).dot pol.xyz • (b.cross s) + a.dot pol.xyz • b).toDir := by
  simp only [parallelTransport, paralleltransportMatrix]
  split_ifs
  · rfl
  · simp [V3.toDir]
  · simp only [Option.some.injEq]
    generalize (d1.xyz.unit.cross d2.xyz.unit).unit = s
    generalize d1.xyz.unit = a
    generalize d2.xyz.unit = b
    ext <;> simp [V3.toDir, mul3, Matrix.mul_apply, Fin.sum_univ_three, V3.dot] <;> ring

/-- parallel transport of the polarization -/
theorem C157_transport (d1 d2 pol : H4) (h1 : IsDir d1) (h2 : IsDir d2) (hp : IsDir pol) :
    parallelTransport (g.act d1) (g.act d2) (g.act pol) = (parallelTransport d1 d2 pol).map g.act := by
  have hr := g.isRot
  rw [parallelTransport_vec, parallelTransport_vec]
  simp only [g.act_xyz h1, g.act_xyz h2, g.act_xyz hp, rot_eq_zero hr, mul3_unit hr, ← rot_cross hr, mul3_norm hr,
    rotation_dot hr, ← rot_smul, ← rot_add]
  split_ifs
  · rfl
  · rw [Option.map_some, g.act_toDir]
  · rw [Option.map_some, g.act_toDir]

theorem turn_act {r : M3} (h : IsRotation r) (axis v : V3) (t : ℝ) :
    turn (mul3 r axis) t (mul3 r v) = (turn axis t v).map (mul3 r) := by
  simp only [turn, rot_eq_zero h]
  split_ifs
  · rfl
  · rw [rotMat_transpose, rotMat_transpose, mul3_unit h, rot_turn h]; rfl

/-- **C157** lenses -/
theorem C157_lens (m : M4) (hm : Affine m) (focallength dOptax : ℝ) (refl : ℝ → ℝ → ℝ) (dir pol interpos : H4)
    (hd : IsDir dir) (hp : IsDir pol) (hi : IsPoint interpos) (energy : ℝ) :
    perfectLens (g.mat * m) focallength dOptax refl (g.act dir) (g.act pol) (g.act interpos) energy =
      (perfectLens m focallength dOptax refl dir pol interpos energy).map fun o =>
        ⟨g.act o.dir, o.pol.map g.act, o.prob⟩ := by
  have hr := g.isRot
  have hd' : dir.w = 0 := hd
  have hi' : interpos.w = 1 := hi
  have hc : (center m).w = 1 := hm.2.2.2
  have hZ : (eZ m).w = 0 := H4.unit_w hm.2.2.1
  have e : focusPoint (g.mat * m) focallength dOptax (g.act dir).xyz - (g.act interpos).xyz =
      mul3 g.rot (focusPoint m focallength dOptax dir.xyz - interpos.xyz) := by
    have h1 : (center m - dOptax • eZ m).xyz + focallength • dir.xyz.unit - interpos.xyz =
        (center m - dOptax • eZ m - interpos).xyz + focallength • dir.xyz.unit := by
      ext <;> simp <;> ring
    have h2 : (g.act (center m) - dOptax • g.act (eZ m)).xyz + focallength • (g.act dir).xyz.unit - (g.act interpos).xyz =
        (g.act (center m) - dOptax • g.act (eZ m) - g.act interpos).xyz + focallength • (g.act dir).xyz.unit := by
      ext <;> simp <;> ring
    rw [focusPoint, focusPoint, h1, g.center_mul, g.eZ_mul hm, h2, ← g.act_smul, ← g.act_sub, ← g.act_sub,
      g.act_xyz (by simp [hc, hZ, hi']), g.act_xyz hd', mul3_unit hr, rot_add, rot_smul]
  simp only [perfectLens, e]
  rw [g.act_xyz hd']
  simp only [rot_eq_zero hr]
  split_ifs
  · rfl
  · rfl
  · rw [Option.map_some, mul3_unit hr, mul3_unit hr, rotation_dot hr, ← g.act_toDir,
      C157_transport g _ (V3.toDir _) _ hd rfl hp]

/-- **C157** thin lenses -/
theorem C157_thin_lens (m : M4) (hm : Affine m) (focallength : ℝ) (dir pol interpos : H4)
    (hd : IsDir dir) (hp : IsDir pol) (hi : IsPoint interpos) :
    thinLens (g.mat * m) focallength (g.act dir) (g.act pol) (g.act interpos) =
      (thinLens m focallength dir pol interpos).map fun o => (g.act o.1, g.act o.2) := by
  have hr := g.isRot
  have hd' : dir.w = 0 := hd
  have hp' : pol.w = 0 := hp
  have hi' : interpos.w = 1 := hi
  have hc : (center m).w = 1 := hm.2.2.2
  have e1 : (g.act interpos - g.act (center m)).xyz = mul3 g.rot (interpos - center m).xyz := by
    rw [← g.act_sub, g.act_xyz (by simp [hc, hi'])]
  have e2 : (g.act interpos).xyz - (g.act (center m)).xyz = mul3 g.rot (interpos.xyz - (center m).xyz) := by
    have : interpos.xyz - (center m).xyz = (interpos - center m).xyz := rfl
    rw [this, ← e1]; rfl
  simp only [thinLens, g.center_mul, e1, e2, mul3_norm hr, g.act_xyz hd', g.act_xyz hp', ← rot_cross hr, rot_eq_zero hr]
  split_ifs
  · rw [Option.map_some, g.act_toDir]
  · rfl
  · rw [Option.map_some, g.act_toDir, g.act_toDir, mul3_unit hr, rot_turn hr, rot_turn hr]

/-- **C157** scattering off mirrors -/
theorem C157_scatter (m : M4) (hm : Affine m) (dir pos pol : H4) (hd : IsDir dir) (hpos : IsPoint pos) (hp : IsDir pol)
    (inAngle perpAngle : Option ℝ) :
    radialScatter (g.mat * m) (g.act dir) (g.act pos) (g.act pol) inAngle perpAngle =
      (radialScatter m dir pos pol inAngle perpAngle).map fun o => (g.act o.1, o.2.map g.act) := by
  have hr := g.isRot
  have hd' : dir.w = 0 := hd
  have hi' : pos.w = 1 := hpos
  have hc : (center m).w = 1 := hm.2.2.2
  have e2 : (g.act pos).xyz - (g.act (center m)).xyz = mul3 g.rot (pos.xyz - (center m).xyz) := by
    have : pos.xyz - (center m).xyz = (pos - center m).xyz := rfl
    rw [this, ← g.act_xyz (by simp [hc, hi']), g.act_sub]; rfl
  have fin : ∀ d : V3, (some ((mul3 g.rot d).toDir, parallelTransport (g.act dir) (mul3 g.rot d).toDir (g.act pol)) :
      Option (H4 × Option H4)) =
      Option.map (fun o => (g.act o.1, o.2.map g.act)) (some (d.toDir, parallelTransport dir d.toDir pol)) := by
    intro d
    rw [Option.map_some, ← g.act_toDir, C157_transport g _ d.toDir _ hd rfl hp]
  simp only [radialScatter, g.center_mul, e2, g.act_xyz hd', ← rot_cross hr, turn_act hr]
  cases inAngle with
  | none =>
    cases perpAngle with
    | none => exact fin _
    | some b =>
      simp only [turn_act hr]
      cases turn (pos.xyz - (center m).xyz) b dir.xyz with
      | none => rfl
      | some d => exact fin d
  | some a =>
    simp only
    cases turn (dir.xyz.cross (pos.xyz - (center m).xyz)) a dir.xyz with
    | none => rfl
    | some d1 =>
      cases perpAngle with
      | none => exact fin d1
      | some b =>
        simp only [Option.map_some, turn_act hr]
        cases turn (pos.xyz - (center m).xyz) b d1 with
        | none => rfl
        | some d => exact fin d

theorem mirrorDir_act (m : M4) (p : H4) : mirrorDir (g.mat * m) (g.act p) = g.act (mirrorDir m p) := by
  simp only [mirrorDir, g.inv_act, mul4_mul]; rfl

/-- **C157** mirrors -/
theorem C157_mirror (m : M4) (hm : Placed m) (rs rp : ℝ) (dir pol : H4) (hd : IsDir dir) (hp : IsDir pol) :
    brewster (g.mat * m) rs rp (g.act dir) (g.act pol) =
      (brewster m rs rp dir pol).map fun o => o.map fun b => ⟨g.act b.dir, b.prob, b.pol.map g.act⟩ := by
  have hr := g.isRot
  have hd' : dir.w = 0 := hd
  have hX : (eX m).w = 0 := H4.unit_w hm.1.1
  have hu : dir.unit.w = 0 := H4.unit_w hd'
  have hw : (mirrorDir m dir.unit).w = 0 := by
    simp only [mirrorDir]
    rw [affine_w hm.1]
    simp [inv_w hm, hu]
  simp only [brewster, g.act_dot hd' hd', g.act_unit hd', g.eX_mul hm.1, mirrorDir_act, g.act_xyz hu, g.act_xyz hX,
    g.act_xyz hp, g.act_xyz hw, ← rot_cross hr, rot_eq_zero hr, mul3_unit hr, rotation_dot hr, ← rot_smul, ← rot_add]
  split_ifs
  · rfl
  · rfl
  · rfl
  · simp [Except.map]
  · simp [Except.map, g.act_toDir]

theorem normVector_act {v : H4} (h : v.w = 0) : normVector (g.act v) = (normVector v).map g.act := by
  simp only [normVector, g.act_dot h h, g.act_unit h]
  split_ifs <;> rfl

theorem normVector_w {v p : H4} (h : v.w = 0) (hp : normVector v = some p) : p.w = 0 := by
  simp only [normVector] at hp
  split_ifs at hp
  cases hp
  exact H4.unit_w h

theorem blazeAngle_act {p l n : H4} (hp : p.w = 0) (hl : l.w = 0) (hn : n.w = 0) (x : ℝ) :
    blazeAngle (g.act p) (g.act l) (g.act n) x = blazeAngle p l n x := by
  have hw : (p - p.dot l • l).w = 0 := by simp [hp, hl]
  simp only [blazeAngle, g.act_dot hp hl, ← g.act_smul, ← g.act_sub, normVector_act g hw]
  cases h : normVector (p - p.dot l • l) with
  | none => rfl
  | some q => simp only [Option.map_some, g.act_dot (normVector_w hw h) hn]

theorem sign_act (cat : Bool) {p d : H4} (hp : p.w = 0) (hd : d.w = 0) :
    (if cat then catSign else flatSign) (g.act p) (g.act d) = (if cat then catSign else flatSign) p d := by
  cases cat
  · rfl
  · simp only [if_true, catSign, g.act_dot hp hd]

theorem diffractDir_act (transmission cat : Bool) {p l e n : H4} (hp : p.w = 0) (hl : l.w = 0) (he : e.w = 0)
    (hn : n.w = 0) (o : ℤ) (wave d : ℝ) :
    diffractDir transmission (if cat then catSign else flatSign) (g.act p) (g.act l) (g.act e) (g.act n) o wave d =
      (diffractDir transmission (if cat then catSign else flatSign) p l e n o wave d).map g.act := by
  have he' : (-e).w = 0 := by simp [he]
  simp only [diffractDir, ← g.act_neg, g.act_dot hp he', g.act_dot hp hl, g.act_dot hp hn, sign_act g cat hp he',
    ← g.act_smul, ← g.act_add]
  split_ifs <;> rfl

section grating
variable {m : M4} (transmission cat : Bool) (groove : ℝ) (d blazeMod : ℝ × ℝ → ℝ) (order : ℝ → Option ℝ → ℤ × ℝ)

theorem planeFrame_act (hm : Affine m) (coo : ℝ × ℝ) :
    (planeGrating (g.mat * m) transmission cat groove d blazeMod order).frame coo =
      (g.act ((planeGrating m transmission cat groove d blazeMod order).frame coo).1,
       g.act ((planeGrating m transmission cat groove d blazeMod order).frame coo).2.1,
       g.act ((planeGrating m transmission cat groove d blazeMod order).frame coo).2.2) := by
  simp only [Grating.frame, planeGrating, planeBases, g.eX_mul hm, g.eY_mul hm, g.eZ_mul hm, g.act_add, g.act_sub,
    g.act_smul]

theorem planeFrame_w (hm : Affine m) (coo : ℝ × ℝ) :
    ((planeGrating m transmission cat groove d blazeMod order).frame coo).1.w = 0 ∧
    ((planeGrating m transmission cat groove d blazeMod order).frame coo).2.1.w = 0 ∧
    ((planeGrating m transmission cat groove d blazeMod order).frame coo).2.2.w = 0 := by
  have hX : (eX m).w = 0 := H4.unit_w hm.1
  have hY : (eY m).w = 0 := H4.unit_w hm.2.1
  have hZ : (eZ m).w = 0 := H4.unit_w hm.2.2.1
  simp [Grating.frame, planeGrating, planeBases, hX, hY, hZ]

/-- **C157** gratings: direction, order, probability and blaze angle -/
theorem C157_grating (hm : Affine m) (dir pol pol' : H4) (hd : IsDir dir) (energy : ℝ) (coo : ℝ × ℝ) :
    (planeGrating (g.mat * m) transmission cat groove d blazeMod order).diffract (g.act dir) pol' energy coo =
      let o := (planeGrating m transmission cat groove d blazeMod order).diffract dir pol energy coo
      ⟨o.dir.map g.act, o.m, o.prob, o.blaze⟩ := by
  have hd' : dir.w = 0 := hd
  obtain ⟨w1, w2, w3⟩ := planeFrame_w transmission cat groove d blazeMod order hm coo
  have ef := planeFrame_act g transmission cat groove d blazeMod order hm coo
  simp only [Grating.diffract, ef, normVector_act g hd']
  generalize ((planeGrating m transmission cat groove d blazeMod order).frame coo) = f at *
  cases h : normVector dir with
  | none => rfl
  | some p =>
    have hp := normVector_w hd' h
    simp only [Option.map_some, blazeAngle_act g hp w1 w3]
    simp only [planeGrating, diffractDir_act g transmission cat hp w1 w2 w3]
    by_cases h0 : energy = 0 ∨ d coo = 0
    · simp only [h0, if_true, Option.map_none]
    · simp only [h0, if_false]

theorem diffract_w (hm : Affine m) (dir pol : H4) (hd : IsDir dir) (energy : ℝ) (coo : ℝ × ℝ) (v : H4)
    (hv : ((planeGrating m transmission cat groove d blazeMod order).diffract dir pol energy coo).dir = some v) :
    IsDir v := by
  have hd' : dir.w = 0 := hd
  obtain ⟨w1, w2, w3⟩ := planeFrame_w transmission cat groove d blazeMod order hm coo
  simp only [Grating.diffract] at hv
  generalize ((planeGrating m transmission cat groove d blazeMod order).frame coo) = f at *
  cases h : normVector dir with
  | none => rw [h] at hv; cases hv
  | some p =>
    rw [h] at hv
    simp only at hv
    split_ifs at hv
    simp only [diffractDir] at hv
    split_ifs at hv
    · cases hv; simp [IsDir, w1, w2, w3]
    · cases hv; simp [IsDir, w1, w2, w3]

/-- **C157** gratings: polarization -/
theorem C157_grating_polarization (hm : Affine m) (dir pol : H4) (hd : IsDir dir) (hp : IsDir pol) (energy : ℝ)
    (coo : ℝ × ℝ) :
    ((planeGrating (g.mat * m) transmission cat groove d blazeMod order).process (g.act dir) (g.act pol) energy coo).2 =
      ((planeGrating m transmission cat groove d blazeMod order).process dir pol energy coo).2.map g.act := by
  simp only [Grating.process]
  rw [C157_grating g transmission cat groove d blazeMod order hm dir pol (g.act pol) hd energy coo]
  have hw := diffract_w transmission cat groove d blazeMod order hm dir pol hd energy coo
  dsimp only
  cases h : ((planeGrating m transmission cat groove d blazeMod order).diffract dir pol energy coo).dir with
  | none => rfl
  | some v => 
    simp only [Option.map_some]
    exact C157_transport g _ _ _ hd (hw v h) hp

end grating

/-- **C157** start positions on apertures, for the same random numbers -/
theorem C157_aperture (m : M4) (hm : Affine m) (dir : H4) (hd : IsDir dir) (x y : ℝ) :
    aperturePhoton (g.mat * m) (g.act dir) x y = (g.act (aperturePhoton m dir x y).1, (aperturePhoton m dir x y).2) := by
  have hd' : dir.w = 0 := hd
  have hX : (-(eX m)).w = 0 := by rw [H4.neg_w, neg_eq_zero]; exact H4.unit_w hm.1
  simp only [aperturePhoton, g.center_mul, g.vY_mul, g.vZ_mul, g.eX_mul hm, g.act_add, g.act_smul, ← g.act_neg,
    g.act_dot hd' hX]

/-! ### Sequences of elements -/

theorem hit_act (r : Ray) (hr : r.WellFormed) (m : M4) (hm : Affine m) :
    (g.actRay r).hit (g.mat * m) = (r.hit m).map fun h => (g.act h.1, g.act h.2.1, h.2.2.1, h.2.2.2.1, g.act h.2.2.2.2) := by
  obtain ⟨h1, h2, -⟩ := hr
  simp only [Ray.hit, Motion.actRay]
  cases hd : r.dir with
  | none => rfl
  | some d =>
    cases hp : r.pos with
    | none => rfl
    | some p =>
      simp only [Option.map_some, C157_plane g m hm d p (h2 d hd) (h1 p hp)]
      cases planeIntersect m d p with
      | none => rfl
      | some q => rfl

theorem plane_point {m : M4} {d p q : H4} {y z : ℝ} (hd : IsDir d) (hp : IsPoint p)
    (h : planeIntersect m d p = some (q, y, z)) : IsPoint q := by
  simp only [planeIntersect] at h
  split_ifs at h
  cases h
  have hd' : d.w = 0 := hd
  have hp' : p.w = 1 := hp
  simp [IsPoint, hd', hp']

theorem hit_spec {r : Ray} (hr : r.WellFormed) {m : M4} {d q p : H4} {y z : ℝ} (h : r.hit m = some (d, q, y, z, p)) :
    IsDir d ∧ IsPoint q ∧ IsPoint p := by
  obtain ⟨h1, h2, -⟩ := hr
  simp only [Ray.hit] at h
  split at h
  · rename_i d' p' hd hp
    split at h
    · rename_i q' y' z' hq
      cases h
      exact ⟨h2 _ hd, plane_point (h2 _ hd) (h1 _ hp) hq, h1 _ hp⟩
    · cases h
  · cases h

theorem at_act (r : Ray) (q : H4) (y z : ℝ) : g.actRay (r.at q y z) = (g.actRay r).at (g.act q) y z := rfl

theorem times_act (r : Ray) (f : Option ℝ) : g.actRay (r.times f) = (g.actRay r).times f := rfl

theorem bind_act {α β : Type} (x : Option H4) (f : H4 → Option α) (f' : H4 → Option α) (k : α → α)
    (h : ∀ p, x = some p → f' (g.act p) = (f p).map k) : ((x.map g.act).bind f') = (x.bind f).map k := by
  cases x with
  | none => rfl
  | some p => exact h p rfl

theorem C157_element (o : Optic) (ho : o.IsPlaced) (r : Ray) (hr : r.WellFormed) :
    (g.actOptic o).step (g.actRay r) = (o.step r).map g.actRay := by
  cases o with
  | plane m =>
    simp only [Motion.actOptic, Optic.step, hit_act g r hr m ho.1]
    cases r.hit m with
    | none => rfl
    | some h => rfl
  | tube m zoomz lim0 lim1 =>
    simp only [Motion.actOptic, Optic.step]
    cases hd : r.dir with
    | none => simp only [Motion.actRay, hd, Option.map_none]; simp [Except.map, Motion.actRay, hd]
    | some d =>
      cases hp : r.pos with
      | none =>
        simp only [Motion.actRay, hd, hp, Option.map_none, Option.map_some, g.act_w, Matrix.det_mul, g.mat_det, one_mul]
        split_ifs
        · rfl
        · simp [Except.map, Motion.actRay, hd, hp]
      | some p =>
        have e1 : (g.actRay r).dir = some (g.act d) := by simp [Motion.actRay, hd]
        have e2 : (g.actRay r).pos = some (g.act p) := by simp [Motion.actRay, hp]
        simp only [e1, e2, C157_cylinder]
        cases cylIntersect m zoomz lim0 lim1 d p with
        | error e => rfl
        | ok c => cases c with
          | none => rfl
          | some q => rfl
  | filter m f =>
    simp only [Motion.actOptic, Optic.step, hit_act g r hr m ho.1]
    cases r.hit m with
    | none => rfl
    | some h =>
      simp only [Option.map_some]
      have e : (g.actRay r).energy = r.energy := rfl
      rw [e]
      cases filterValue f r.energy with
      | error e => rfl
      | ok p => rfl
  | globalFilter f =>
    simp only [Motion.actOptic, Optic.step]
    have e : (g.actRay r).energy = r.energy := rfl
    rw [e]
    cases filterValue f r.energy with
    | error e => rfl
    | ok p => rfl
  | lens m focallength dOptax refl =>
    simp only [Motion.actOptic, Optic.step, hit_act g r hr m ho.1]
    cases hh : r.hit m with
    | none => rfl
    | some h =>
      obtain ⟨d, q, y, z, p⟩ := h
      obtain ⟨wd, wq, wp⟩ := hit_spec hr hh
      have key := fun pol hp => C157_lens g m ho.1 focallength dOptax refl d pol q wd hp wq r.energy
      have k0 := key ⟨0, 0, 0, 0⟩ rfl
      rw [g.act_zero] at k0
      have e : (g.actRay r).energy = r.energy := rfl
      have kp : ((g.actRay r).pol.bind fun pol => perfectLens (g.mat * m) focallength dOptax refl (g.act d) pol (g.act q)
          r.energy) = (r.pol.bind fun pol => perfectLens m focallength dOptax refl d pol q r.energy).map fun o =>
            ⟨g.act o.dir, o.pol.map g.act, o.prob⟩ :=
        bind_act g (β := Unit) _ _ _ _ fun pol hp => key pol (hr.2.2 pol hp)
      simp only [Option.map_some, e, k0, kp, Except.map, at_act, times_act]
      cases perfectLens m focallength dOptax refl d ⟨0, 0, 0, 0⟩ q r.energy <;>
        cases (r.pol.bind fun pol => perfectLens m focallength dOptax refl d pol q r.energy) <;> rfl
  | thin m focallength =>
    simp only [Motion.actOptic, Optic.step, hit_act g r hr m ho.1]
    cases hh : r.hit m with
    | none => rfl
    | some h =>
      obtain ⟨d, q, y, z, p⟩ := h
      obtain ⟨wd, wq, wp⟩ := hit_spec hr hh
      have key := fun pol hp => C157_thin_lens g m ho.1 focallength d pol q wd hp wq
      have k0 := key ⟨0, 0, 0, 0⟩ rfl
      rw [g.act_zero] at k0
      have kp : ((g.actRay r).pol.bind fun pol => thinLens (g.mat * m) focallength (g.act d) pol (g.act q)) =
          (r.pol.bind fun pol => thinLens m focallength d pol q).map fun o => (g.act o.1, g.act o.2) :=
        bind_act g (β := Unit) _ _ _ _ fun pol hp => key pol (hr.2.2 pol hp)
      simp only [Option.map_some, k0, kp, Except.map, at_act]
      congr 2
      simp only [Motion.actRay, Option.map_map]
      congr 1
  | grating m transmission cat groove dd blazeMod order =>
    simp only [Motion.actOptic, Optic.step, hit_act g r hr m ho.1]
    cases hh : r.hit m with
    | none => rfl
    | some h =>
      obtain ⟨d, q, y, z, p⟩ := h
      obtain ⟨wd, wq, wp⟩ := hit_spec hr hh
      have k0 := C157_grating g transmission cat groove dd blazeMod order ho.1 d ⟨0, 0, 0, 0⟩ ⟨0, 0, 0, 0⟩ wd r.energy (y, z)
      have e : (g.actRay r).energy = r.energy := rfl
      have kp : ((g.actRay r).pol.bind fun pol => ((planeGrating (g.mat * m) transmission cat groove dd blazeMod
          order).process (g.act d) pol r.energy (y, z)).2) =
          (r.pol.bind fun pol => ((planeGrating m transmission cat groove dd blazeMod order).process d pol r.energy
            (y, z)).2).map g.act :=
        bind_act g (β := Unit) _ _ _ _ fun pol hp =>
          C157_grating_polarization g transmission cat groove dd blazeMod order ho.1 d pol wd (hr.2.2 pol hp) r.energy (y, z)
      simp only [Option.map_some, e, k0, kp, Except.map, at_act, times_act]
      rfl
  | mirror m rs rp =>
    simp only [Motion.actOptic, Optic.step, hit_act g r hr m ho.1]
    cases hh : r.hit m with
    | none => rfl
    | some h =>
      obtain ⟨d, q, y, z, p⟩ := h
      obtain ⟨wd, wq, wp⟩ := hit_spec hr hh
      have wd' : d.w = 0 := wd
      have k0 : (if (g.act d).dot (g.act d) = 0 then none else some (mirrorDir (g.mat * m) (g.act d).unit)) =
          (if d.dot d = 0 then none else some (mirrorDir m d.unit)).map g.act := by
        simp only [g.act_dot wd' wd', g.act_unit wd', mirrorDir_act]
        split_ifs <;> rfl
      simp only [Option.map_some, k0]
      cases hp : r.pol with
      | none =>
        have e : (g.actRay r).pol = none := by simp [Motion.actRay, hp]
        simp only [e, Except.map, at_act, times_act]
        simp [Motion.actRay, hp]
      | some pol =>
        have e : (g.actRay r).pol = some (g.act pol) := by simp [Motion.actRay, hp]
        simp only [e, C157_mirror g m ho rs rp d pol wd (hr.2.2 pol hp)]
        cases brewster m rs rp d pol with
        | error e => rfl
        | ok b => cases b with
          | none => rfl
          | some b => rfl
  | scatter m inAngle perpAngle =>
    simp only [Motion.actOptic, Optic.step, hit_act g r hr m ho.1]
    cases hh : r.hit m with
    | none => rfl
    | some h =>
      obtain ⟨d, q, y, z, p⟩ := h
      obtain ⟨wd, wq, wp⟩ := hit_spec hr hh
      have key := fun pol hp => C157_scatter g m ho.1 d p pol wd wp hp inAngle perpAngle
      have k0 := key ⟨0, 0, 0, 0⟩ rfl
      rw [g.act_zero] at k0
      have kp : ((g.actRay r).pol.bind fun pol => radialScatter (g.mat * m) (g.act d) (g.act p) pol inAngle perpAngle) =
          (r.pol.bind fun pol => radialScatter m d p pol inAngle perpAngle).map fun o => (g.act o.1, o.2.map g.act) :=
        bind_act g (β := Unit) _ _ _ _ fun pol hp => key pol (hr.2.2 pol hp)
      simp only [Option.map_some, k0, kp, Except.map, at_act]
      cases radialScatter m d p ⟨0, 0, 0, 0⟩ inAngle perpAngle <;>
        cases (r.pol.bind fun pol => radialScatter m d p pol inAngle perpAngle) <;> rfl
  | propagate distance =>
    simp only [Motion.actOptic, Optic.step, Except.map]
    congr 1
    simp only [Motion.actRay]
    cases hd : r.dir with
    | none => rfl
    | some d =>
      cases hp : r.pos with
      | none => rfl
      | some p => simp [g.act_add, g.act_smul]

theorem transport_dir {d1 d2 pol v : H4} (h : parallelTransport d1 d2 pol = some v) : IsDir v := by
  rw [parallelTransport_vec] at h
  split_ifs at h <;> cases h <;> rfl

theorem wf_at {r : Ray} (hr : r.WellFormed) {q : H4} (hq : IsPoint q) (y z : ℝ) : (r.at q y z).WellFormed :=
  ⟨fun p hp => by cases hp; exact hq, hr.2⟩

theorem wf_new {r : Ray} {d : Option H4} {p : Option H4} {o : Option ℤ} {b f : Option ℝ} {q : H4} {y z : ℝ}
    {c : List (ℝ × ℝ)} {e : ℝ} {f0 : Option ℝ}
    (hd : ∀ v, d = some v → IsDir v) (hp : ∀ v, p = some v → IsDir v) (hq : IsPoint q) :
    (Ray.at (Ray.times ⟨r.pos, d, p, f0, e, o, b, c⟩ f) q y z).WellFormed :=
  ⟨fun p hp => by cases hp; exact hq, hd, hp⟩

/-- **C157** the coordinates stay those of a point and of directions -/
theorem C157_well_formed (o : Optic) (ho : o.IsPlaced) (r r' : Ray) (hr : r.WellFormed) (h : o.step r = .ok r') :
    r'.WellFormed := by
  cases o with
  | plane m =>
    simp only [Optic.step] at h
    split at h <;> cases h
    · exact hr
    · rename_i hh
      exact wf_at hr (hit_spec hr hh).2.1 _ _
  | tube m zoomz lim0 lim1 =>
    simp only [Optic.step] at h
    split at h
    · split at h
      · cases h
      · cases h; exact hr
      · rename_i hc
        cases h
        refine wf_at hr ?_ _ _
        simp only [cylIntersect] at hc
        split_ifs at hc
        split at hc
        · cases hc
        · cases hc
          exact affine_w ho.1 _
    · split_ifs at h
      cases h; exact hr
    · cases h
  | filter m f =>
    simp only [Optic.step] at h
    split at h
    · cases h; exact hr
    · rename_i hh
      split at h <;> cases h
      exact wf_at (r := r.times _) hr (hit_spec hr hh).2.1 _ _
  | globalFilter f =>
    simp only [Optic.step] at h
    split at h <;> cases h
    exact hr
  | lens m focallength dOptax refl =>
    simp only [Optic.step] at h
    split at h <;> cases h
    · exact hr
    · rename_i hh
      refine wf_new (fun v hv => ?_) (fun v hv => ?_) (hit_spec hr hh).2.1
      · obtain ⟨w, hw, rfl⟩ := Option.map_eq_some_iff.1 hv
        simp only [perfectLens] at hw
        split_ifs at hw
        cases hw; rfl
      · obtain ⟨w, hw, hv⟩ := Option.bind_eq_some_iff.1 hv
        obtain ⟨pol, -, hw⟩ := Option.bind_eq_some_iff.1 hw
        simp only [perfectLens] at hw
        split_ifs at hw
        cases hw
        exact transport_dir hv
  | thin m focallength =>
    simp only [Optic.step] at h
    split at h <;> cases h
    · exact hr
    · rename_i hh
      refine ⟨fun p hp => by cases hp; exact (hit_spec hr hh).2.1, fun v hv => ?_, fun v hv => ?_⟩
      · obtain ⟨w, hw, rfl⟩ := Option.map_eq_some_iff.1 hv
        simp only [thinLens] at hw
        split_ifs at hw <;> cases hw <;> rfl
      · obtain ⟨w, hw, rfl⟩ := Option.map_eq_some_iff.1 hv
        obtain ⟨pol, hpol, hw⟩ := Option.bind_eq_some_iff.1 hw
        simp only [thinLens] at hw
        split_ifs at hw <;> cases hw
        · exact hr.2.2 _ hpol
        · rfl
  | grating m transmission cat groove dd blazeMod order =>
    simp only [Optic.step] at h
    split at h <;> cases h
    · exact hr
    · rename_i hh
      obtain ⟨wd, wq, -⟩ := hit_spec hr hh
      refine wf_new (fun v hv => diffract_w transmission cat groove dd blazeMod order ho.1 _ _ wd _ _ v hv) (fun v hv => ?_) wq
      obtain ⟨pol, -, hw⟩ := Option.bind_eq_some_iff.1 hv
      simp only [Grating.process] at hw
      split at hw
      · cases hw
      · exact transport_dir hw
  | mirror m rs rp =>
    have hdir : ∀ p : H4, p.w = 0 → IsDir (mirrorDir m p) := fun p hp => by
      simp only [mirrorDir, IsDir, affine_w ho.1, inv_w ho, hp]
    simp only [Optic.step] at h
    split at h
    · cases h; exact hr
    · rename_i d q y z p hh
      obtain ⟨wd, wq, -⟩ := hit_spec hr hh
      have hnew : ∀ v, (if d.dot d = 0 then none else some (mirrorDir m d.unit)) = some v → IsDir v := fun v hv => by
        split_ifs at hv
        cases hv
        exact hdir _ (H4.unit_w wd)
      split at h
      · cases h
        exact wf_new hnew hr.2.2 wq
      · split at h
        · cases h
        · cases h
          exact wf_new hnew (fun v hv => by cases hv) wq
        · rename_i hb
          cases h
          simp only [brewster] at hb
          split_ifs at hb <;> cases hb
          all_goals refine wf_new (fun v hv => by cases hv; exact hdir _ (H4.unit_w wd)) (fun v hv => ?_) wq
          all_goals cases hv
          all_goals rfl
  | scatter m inAngle perpAngle =>
    simp only [Optic.step] at h
    split at h <;> cases h
    · exact hr
    · rename_i hh
      have key : ∀ d p pol w, radialScatter m d p pol inAngle perpAngle = some w →
          IsDir w.1 ∧ ∀ v, w.2 = some v → IsDir v := by
        intro d p pol w hw
        simp only [radialScatter] at hw
        split at hw
        · cases hw
        · split at hw <;> cases hw
          exact ⟨rfl, fun v hv => transport_dir hv⟩
      refine ⟨fun p hp => by cases hp; exact (hit_spec hr hh).2.1, fun v hv => ?_, fun v hv => ?_⟩
      · obtain ⟨w, hw, rfl⟩ := Option.map_eq_some_iff.1 hv
        exact (key _ _ _ _ hw).1
      · obtain ⟨w, hw, hv⟩ := Option.bind_eq_some_iff.1 hv
        obtain ⟨pol, -, hw⟩ := Option.bind_eq_some_iff.1 hw
        exact (key _ _ _ _ hw).2 v hv
  | propagate distance =>
    simp only [Optic.step] at h
    cases h
    refine ⟨fun p hp => ?_, hr.2⟩
    simp only at hp
    split at hp <;> cases hp
    rename_i d p hd hp
    have h1 : d.w = 0 := hr.2.1 _ hd
    have h2 : p.w = 1 := hr.1 _ hp
    simp [IsPoint, h1, h2]

/-- **C157** a sequence of elements -/
theorem C157_sequence (os : List Optic) (hos : ∀ o ∈ os, o.IsPlaced) (r : Ray) (hr : r.WellFormed) :
    runOptics (os.map g.actOptic) (g.actRay r) = (runOptics os r).map g.actRay := by
  induction os generalizing r with
  | nil => rfl
  | cons o os ih =>
    have ho := hos o (by simp)
    simp only [List.map_cons, runOptics, C157_element g o ho r hr]
    cases h : o.step r with
    | error e => rfl
    | ok r' => exact ih (fun o' h' => hos o' (by simp [h'])) r' (C157_well_formed o ho r r' hr h)

/-- A quarter turn around the z axis and a shift. -/
def quarterTurn : Motion where
  rot := !![0, -1, 0; 1, 0, 0; 0, 0, 1]
  shift := ⟨1, 2, 3⟩
  isRot := by
    constructor
    · ext i j; fin_cases i <;> fin_cases j <;> simp [Matrix.mul_apply, Fin.sum_univ_three]
    · simp [Matrix.det_fin_three]

/-- a photon on the optical axis -/
noncomputable def axisRay : Ray := ⟨some ⟨2, 1 / 2, 0, 1⟩, some ⟨-1, 0, 0, 0⟩, some ⟨0, 1, 0, 0⟩, some 1, 1, none, none, []⟩

theorem axisRay_run : runOptics [.filter 1 fun _ => 1 / 2, .propagate 5] axisRay =
    .ok ⟨some ⟨-5, 1 / 2, 0, 1⟩, some ⟨-1, 0, 0, 0⟩, some ⟨0, 1, 0, 0⟩, some (1 / 2), 1, none, none, [(1 / 2, 0)]⟩ := by
  have hf : filterValue (fun _ => (1 / 2 : ℝ)) 1 = .ok (1 / 2) := by
    rw [filterValue, if_neg]; norm_num
  have hh : planeIntersect 1 ⟨-1, 0, 0, 0⟩ ⟨2, 1 / 2, 0, 1⟩ = some (⟨0, 1 / 2, 0, 1⟩, 1 / 2, 0) := by
    have u : ∀ v : H4, v.dot v = 1 → v.norm = 1 ∧ v.unit = v := fun v hv => by
      have : v.norm = 1 := by rw [H4.norm, hv, Real.sqrt_one]
      exact ⟨this, by rw [H4.unit, this]; ext <;> simp⟩
    have x : vX 1 = ⟨1, 0, 0, 0⟩ := by ext <;> simp [vX, col]
    have y : vY 1 = ⟨0, 1, 0, 0⟩ := by ext <;> simp [vY, col]
    have z : vZ 1 = ⟨0, 0, 1, 0⟩ := by ext <;> simp [vZ, col]
    have c : center 1 = ⟨0, 0, 0, 1⟩ := by ext <;> simp [center, col]
    simp only [planeIntersect, eX, eY, eZ, x, y, z, c, (u ⟨1, 0, 0, 0⟩ (by norm_num [H4.dot])).2,
      u ⟨0, 1, 0, 0⟩ (by norm_num [H4.dot]), u ⟨0, 0, 1, 0⟩ (by norm_num [H4.dot])]
    norm_num [H4.dot, abs_le]
    ext <;> norm_num
  simp only [runOptics, Optic.step, Ray.hit, axisRay, hh, hf, Ray.at, Ray.times]
  norm_num
  ext <;> norm_num

example : runOptics ([Optic.filter 1 fun _ => 1 / 2, .propagate 5].map quarterTurn.actOptic) (quarterTurn.actRay axisRay) =
    .ok ⟨some ⟨1 / 2, -3, 3, 1⟩, some ⟨0, -1, 0, 0⟩, some ⟨-1, 0, 0, 0⟩, some (1 / 2), 1, none, none, [(1 / 2, 0)]⟩ := by
  rw [C157_sequence, axisRay_run]
  · have h : ∀ v : H4, quarterTurn.act v = ⟨-v.y + v.w, v.x + 2 * v.w, v.z + 3 * v.w, v.w⟩ := fun v => by
      have hm : quarterTurn.mat = !![0, -1, 0, 1; 1, 0, 0, 2; 0, 0, 1, 3; 0, 0, 0, 1] := by
        ext i j; fin_cases i <;> fin_cases j <;> rfl
      ext <;> simp [Motion.act, mul4, hm]
    simp only [Except.map, Motion.actRay, Option.map_some, h]
    norm_num
  · simp [Optic.IsPlaced, Placed, Affine]
  · refine ⟨fun p hp => ?_, fun p hp => ?_, fun p hp => ?_⟩ <;> cases hp <;> rfl

end Marxs
