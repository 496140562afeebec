import Verif.Spec.MirrorImage
import Verif.Props.RigidMotion
import Verif.Props.ListChain

/-!
# Property C167: the mirror image of an instrument gives the mirror image of the photons

Every mirror image is the inversion at the origin followed by a rigid motion (C157).
-/

namespace Marxs

/-- Inversion at the origin. -/
def pMat : M4 := !![-1, 0, 0, 0; 0, -1, 0, 0; 0, 0, -1, 0; 0, 0, 0, 1]

/-- Inversion of a point or direction. -/
def pAct (p : H4) : H4 := ⟨-p.x, -p.y, -p.z, p.w⟩

namespace Inversion
open Classical

theorem act_eq (p : H4) : pAct p = mul4 pMat p := by ext <;> simp [pAct, pMat, mul4]
theorem act_w (p : H4) : (pAct p).w = p.w := rfl
theorem act_xyz (p : H4) : (pAct p).xyz = -p.xyz := rfl
theorem act_toDir (v : V3) : pAct v.toDir = (-v).toDir := rfl
theorem act_add (a b : H4) : pAct (a + b) = pAct a + pAct b := by ext <;> simp [pAct] <;> ring
theorem act_sub (a b : H4) : pAct (a - b) = pAct a - pAct b := by ext <;> simp [pAct] <;> ring
theorem act_neg (a : H4) : pAct (-a) = -pAct a := by ext <;> simp [pAct]
theorem act_smul (c : ℝ) (a : H4) : pAct (c • a) = c • pAct a := by ext <;> simp [pAct]
theorem act_zero : pAct ⟨0, 0, 0, 0⟩ = ⟨0, 0, 0, 0⟩ := by ext <;> simp [pAct]
theorem act_dot (a b : H4) : (pAct a).dot (pAct b) = a.dot b := by simp [H4.dot, pAct]
theorem act_norm (a : H4) : (pAct a).norm = a.norm := by rw [H4.norm, H4.norm, act_dot]
theorem act_unit (a : H4) : (pAct a).unit = pAct a.unit := by rw [H4.unit, H4.unit, act_norm, act_smul]
theorem col_mul (m : M4) (j : Fin 4) : col (pMat * m) j = pAct (col m j) := by
  ext <;> simp [col, pAct, pMat, Matrix.mul_apply, Fin.sum_univ_four]
theorem center_mul (m : M4) : center (pMat * m) = pAct (center m) := col_mul m 3
theorem vX_mul (m : M4) : vX (pMat * m) = pAct (vX m) := col_mul m 0
theorem vY_mul (m : M4) : vY (pMat * m) = pAct (vY m) := col_mul m 1
theorem vZ_mul (m : M4) : vZ (pMat * m) = pAct (vZ m) := col_mul m 2
theorem eX_mul (m : M4) : eX (pMat * m) = pAct (eX m) := by rw [eX, vX_mul, act_unit]; rfl
theorem eY_mul (m : M4) : eY (pMat * m) = pAct (eY m) := by rw [eY, vY_mul, act_unit]; rfl
theorem eZ_mul (m : M4) : eZ (pMat * m) = pAct (eZ m) := by rw [eZ, vZ_mul, act_unit]; rfl
theorem mat_det : pMat.det = -1 := by
  rw [pMat, Matrix.det_succ_row _ 3]
  simp [Fin.sum_univ_four, Matrix.det_fin_three, Matrix.submatrix, Fin.succAbove]
  norm_num
theorem inv_act (m : M4) (p : H4) : mul4 (pMat * m)⁻¹ (pAct p) = mul4 m⁻¹ p := by
  rw [Matrix.mul_inv_rev, mul4_mul, act_eq, inv_mul4 (by rw [mat_det]; norm_num)]

theorem cross_nn (a b : V3) : (-a).cross (-b) = a.cross b := by ext <;> simp [V3.cross]
theorem cross_nl (a b : V3) : (-a).cross b = -(a.cross b) := by ext <;> simp [V3.cross] <;> ring
theorem dot_nn (a b : V3) : (-a).dot (-b) = a.dot b := by simp [V3.dot]
theorem dot_nl (a b : V3) : (-a).dot b = -(a.dot b) := by simp [V3.dot]; ring
theorem dot_nr (a b : V3) : a.dot (-b) = -(a.dot b) := by simp [V3.dot]; ring
theorem norm_n (a : V3) : (-a).norm = a.norm := by rw [V3.norm, V3.norm, dot_nn]
theorem unit_n (a : V3) : (-a).unit = -a.unit := by
  rw [V3.unit, V3.unit, norm_n]; ext <;> simp
theorem zero_n (a : V3) : -a = 0 ↔ a = 0 := by
  constructor
  · intro h
    have := congrArg (fun v : V3 => -v) h
    ext
    · simpa using congrArg V3.x this
    · simpa using congrArg V3.y this
    · simpa using congrArg V3.z this
  · rintro rfl; ext <;> simp

theorem rot_n (m : M3) (v : V3) : mul3 m (-v) = -mul3 m v := by ext <;> simp [mul3] <;> ring

theorem plane (m : M4) (dir pos : H4) :
    planeIntersect (pMat * m) (pAct dir) (pAct pos) = (planeIntersect m dir pos).map fun q => (pAct q.1, q.2) := by
  simp only [planeIntersect, center_mul, eX_mul, eY_mul, eZ_mul, vY_mul, vZ_mul, ← act_sub, ← act_smul, ← act_add, act_dot, act_norm]
  split_ifs <;> rfl

theorem cylinder (m : M4) (zoomz lim0 lim1 : ℝ) (dir pos : H4) :
    cylIntersect (pMat * m) zoomz lim0 lim1 (pAct dir) (pAct pos) =
      (cylIntersect m zoomz lim0 lim1 dir pos).map fun o => o.map fun q => (pAct q.1, q.2) := by
  have e : (pMat * m).det = 0 ↔ m.det = 0 := by rw [Matrix.det_mul, mat_det]; simp
  simp only [cylIntersect, act_w, inv_act, e]
  split_ifs
  · rfl
  · rfl
  · cases h : cylLocal lim0 lim1 (mul4 m⁻¹ pos).xyz (mul4 m⁻¹ dir).xyz with
    | none => rfl
    | some q => simp [Except.map, mul4_mul, act_eq]

theorem transport (d1 d2 pol : H4) :
    parallelTransport (pAct d1) (pAct d2) (pAct pol) = (parallelTransport d1 d2 pol).map pAct := by
  rw [parallelTransport_vec, parallelTransport_vec]
  simp only [act_xyz, zero_n, unit_n, cross_nn]
  split_ifs
  · rfl
  · rfl
  · simp only [Option.map_some, Option.some.injEq]
    generalize (d1.xyz.unit.cross d2.xyz.unit).unit = s
    generalize d1.xyz.unit = a
    generalize d2.xyz.unit = b
    ext <;> simp [V3.toDir, pAct, V3.dot, V3.cross] <;> ring

theorem transport_flip (d1 d2 pol : H4) :
    parallelTransport d1 d2 (-pol) = (parallelTransport d1 d2 pol).map fun q => -q := by
  rw [parallelTransport_vec, parallelTransport_vec]
  split_ifs
  · rfl
  · simp only [Option.map_some, Option.some.injEq]
    ext <;> simp [V3.toDir]
  · simp only [Option.map_some, Option.some.injEq]
    generalize (d1.xyz.unit.cross d2.xyz.unit).unit = s
    generalize d1.xyz.unit = a
    generalize d2.xyz.unit = b
    ext <;> simp [V3.toDir, V3.dot, V3.cross] <;> ring

theorem turn_act (axis v : V3) (t : ℝ) : turn axis t (-v) = (turn axis t v).map fun q => -q := by
  simp only [turn]
  split_ifs
  · rfl
  · simp [rot_n]

theorem turn_perp (axis v : V3) (t : ℝ) : turn (-axis) (-t) (-v) = (turn axis t v).map fun q => -q := by
  simp only [turn, zero_n]
  split_ifs
  · rfl
  · rw [rotMat_transpose, rotMat_transpose, unit_n, rodrigues, rodrigues]
    simp only [Option.map_some, Option.some.injEq, neg_neg, Real.cos_neg, Real.sin_neg]
    ext <;> simp [V3.dot, V3.cross] <;> ring

theorem lens (m : M4) (focallength dOptax : ℝ) (refl : ℝ → ℝ → ℝ) (dir pol interpos : H4) (energy : ℝ) :
    perfectLens (pMat * m) focallength dOptax refl (pAct dir) (pAct pol) (pAct interpos) energy =
      (perfectLens m focallength dOptax refl dir pol interpos energy).map fun o => ⟨pAct o.dir, o.pol.map pAct, o.prob⟩ := by
  have e : focusPoint (pMat * m) focallength dOptax (-dir.xyz) - -interpos.xyz =
      -(focusPoint m focallength dOptax dir.xyz - interpos.xyz) := by
    rw [focusPoint, focusPoint, center_mul, eZ_mul, unit_n]
    ext <;> simp [pAct] <;> ring
  simp only [perfectLens, act_xyz, e, zero_n]
  split_ifs
  · rfl
  · rfl
  · rw [Option.map_some, unit_n, unit_n, dot_nn, ← act_toDir, transport]

theorem lens_flip (m : M4) (focallength dOptax : ℝ) (refl : ℝ → ℝ → ℝ) (dir pol interpos : H4) (energy : ℝ) :
    perfectLens m focallength dOptax refl dir (-pol) interpos energy =
      (perfectLens m focallength dOptax refl dir pol interpos energy).map fun o => ⟨o.dir, o.pol.map fun q => -q, o.prob⟩ := by
  simp only [perfectLens]
  split_ifs
  · rfl
  · rfl
  · rw [Option.map_some, transport_flip]

theorem thin (m : M4) (focallength : ℝ) (dir pol interpos : H4) :
    thinLens (pMat * m) focallength (pAct dir) (pAct pol) (pAct interpos) =
      (thinLens m focallength dir pol interpos).map fun o => (pAct o.1, pAct o.2) := by
  have e2 : -interpos.xyz - -(center m).xyz = -(interpos.xyz - (center m).xyz) := by ext <;> simp <;> ring
  simp only [thinLens, center_mul, act_xyz, ← act_sub, e2, norm_n, cross_nn, rot_n]
  split_ifs <;> rfl

theorem thin_flip (m : M4) (focallength : ℝ) (dir pol interpos : H4) :
    thinLens m focallength dir (-pol) interpos = (thinLens m focallength dir pol interpos).map fun o => (o.1, -o.2) := by
  have e : (-pol).xyz = -pol.xyz := rfl
  simp only [thinLens, e, rot_n]
  split_ifs
  · rfl
  · rfl
  · simp only [Option.map_some, Option.some.injEq, Prod.mk.injEq, true_and]
    ext <;> simp [V3.toDir]

theorem scatter (m : M4) (dir pos pol : H4) (inAngle perpAngle : Option ℝ) :
    radialScatter (pMat * m) (pAct dir) (pAct pos) (pAct pol) inAngle (perpAngle.map fun b => -b) =
      (radialScatter m dir pos pol inAngle perpAngle).map fun o => (pAct o.1, o.2.map pAct) := by
  have e2 : -pos.xyz - -(center m).xyz = -(pos.xyz - (center m).xyz) := by ext <;> simp <;> ring
  have fin : ∀ d : V3, (some ((-d).toDir, parallelTransport (pAct dir) (-d).toDir (pAct pol)) : Option (H4 × Option H4)) =
      Option.map (fun o => (pAct o.1, o.2.map pAct)) (some (d.toDir, parallelTransport dir d.toDir pol)) := by
    intro d
    rw [Option.map_some, ← act_toDir, transport]
  simp only [radialScatter, center_mul, act_xyz, e2, cross_nn]
  cases inAngle with
  | none =>
    cases perpAngle with
    | none => exact fin _
    | some b =>
      simp only [Option.map_some, turn_perp]
      cases turn (pos.xyz - (center m).xyz) b dir.xyz with
      | none => rfl
      | some d => exact fin d
  | some a =>
    simp only [turn_act]
    cases turn (dir.xyz.cross (pos.xyz - (center m).xyz)) a dir.xyz with
    | none => rfl
    | some d1 =>
      cases perpAngle with
      | none => exact fin d1
      | some b =>
        simp only [Option.map_some, turn_perp]
        cases turn (pos.xyz - (center m).xyz) b d1 with
        | none => rfl
        | some d => exact fin d

theorem scatter_flip (m : M4) (dir pos pol : H4) (inAngle perpAngle : Option ℝ) :
    radialScatter m dir pos (-pol) inAngle perpAngle =
      (radialScatter m dir pos pol inAngle perpAngle).map fun o => (o.1, o.2.map fun q => -q) := by
  simp only [radialScatter, transport_flip]
  split
  · rfl
  · split <;> rfl

theorem mirrorDir_act (m : M4) (p : H4) : mirrorDir (pMat * m) (pAct p) = pAct (mirrorDir m p) := by
  simp only [mirrorDir, inv_act]
  rw [mul4_mul, act_eq]

/-- the polarization after a mirror, up to its sign -/
theorem mirror (m : M4) (rs rp : ℝ) (hz : rs = 0 ∨ rp = 0) (dir pol : H4) :
    brewster (pMat * m) rs rp (pAct dir) (pAct pol) =
        (brewster m rs rp dir pol).map (fun o => o.map fun b => ⟨pAct b.dir, b.prob, b.pol.map pAct⟩) ∨
    brewster (pMat * m) rs rp (pAct dir) (pAct pol) =
        (brewster m rs rp dir pol).map (fun o => o.map fun b => ⟨pAct b.dir, b.prob, b.pol.map fun q => -pAct q⟩) := by
  have en : ∀ a : V3, pAct a.toDir = (-a).toDir := fun a => rfl
  have en' : ∀ a : V3, -pAct a.toDir = a.toDir := fun a => by ext <;> simp [pAct, V3.toDir]
  rcases hz with rfl | rfl
  · left
    simp only [brewster, act_dot, act_unit, eX_mul, mirrorDir_act, act_xyz, cross_nn]
    simp only [cross_nl, dot_nl, dot_nr, neg_neg, neg_sq, zero_mul,
      zero_add, neg_zero]
    have e : ∀ (c : ℝ) (u v : V3), (0 : ℝ) • u + c • -v = -((0 : ℝ) • u + c • v) := fun c u v => by ext <;> simp
    simp only [e, zero_n, unit_n]
    split_ifs
    · rfl
    · rfl
    · rfl
    · rfl
    · rfl
  · right
    simp only [brewster, act_dot, act_unit, eX_mul, mirrorDir_act, act_xyz, cross_nn]
    simp only [cross_nl, dot_nl, dot_nr, neg_neg, neg_sq, zero_mul,
      add_zero]
    have e : ∀ (c : ℝ) (u v : V3), c • u + (0 : ℝ) • -v = c • u + (0 : ℝ) • v := fun c u v => by ext <;> simp
    simp only [e]
    split_ifs
    · rfl
    · rfl
    · rfl
    · rfl
    · simp [Except.map, en']

theorem mirror_flip (m : M4) (rs rp : ℝ) (dir pol : H4) : brewster m rs rp dir (-pol) = brewster m rs rp dir pol := by
  have e : (-pol).xyz = -pol.xyz := rfl
  simp only [brewster, e, dot_nl, neg_sq]

theorem normVector_act (v : H4) : normVector (pAct v) = (normVector v).map pAct := by
  simp only [normVector, act_dot, act_unit]
  split_ifs <;> rfl

theorem blazeAngle_act (p l n : H4) (x : ℝ) : blazeAngle (pAct p) (pAct l) (pAct n) x = blazeAngle p l n x := by
  simp only [blazeAngle, act_dot, ← act_smul, ← act_sub, normVector_act]
  cases h : normVector (p - p.dot l • l) with
  | none => rfl
  | some q => simp only [Option.map_some, act_dot]

theorem sign_act (cat : Bool) (p d : H4) :
    (if cat then catSign else flatSign) (pAct p) (pAct d) = (if cat then catSign else flatSign) p d := by
  cases cat
  · rfl
  · simp only [if_true, catSign, act_dot]

theorem diffractDir_act (transmission cat : Bool) (p l e n : H4) (o : ℤ) (wave d : ℝ) :
    diffractDir transmission (if cat then catSign else flatSign) (pAct p) (pAct l) (pAct e) (pAct n) o wave d =
      (diffractDir transmission (if cat then catSign else flatSign) p l e n o wave d).map pAct := by
  simp only [diffractDir, ← act_neg, act_dot, sign_act, ← act_smul, ← act_add]
  split_ifs <;> rfl

section grating
variable (m : M4) (transmission cat : Bool) (groove : ℝ) (d blazeMod : ℝ × ℝ → ℝ) (order : ℝ → Option ℝ → ℤ × ℝ)

theorem planeFrame_act (coo : ℝ × ℝ) :
    (planeGrating (pMat * m) transmission cat groove d blazeMod order).frame coo =
      (pAct ((planeGrating m transmission cat groove d blazeMod order).frame coo).1,
       pAct ((planeGrating m transmission cat groove d blazeMod order).frame coo).2.1,
       pAct ((planeGrating m transmission cat groove d blazeMod order).frame coo).2.2) := by
  simp only [Grating.frame, planeGrating, planeBases, eX_mul, eY_mul, eZ_mul, act_add, act_sub, act_smul]

theorem grating (dir pol pol' : H4) (energy : ℝ) (coo : ℝ × ℝ) :
    (planeGrating (pMat * m) transmission cat groove d blazeMod order).diffract (pAct dir) pol' energy coo =
      let o := (planeGrating m transmission cat groove d blazeMod order).diffract dir pol energy coo
      ⟨o.dir.map pAct, o.m, o.prob, o.blaze⟩ := by
  have ef := planeFrame_act m transmission cat groove d blazeMod order coo
  simp only [Grating.diffract, ef, normVector_act]
  generalize ((planeGrating m transmission cat groove d blazeMod order).frame coo) = f at *
  cases h : normVector dir with
  | none => rfl
  | some p =>
    simp only [Option.map_some, blazeAngle_act]
    simp only [planeGrating, diffractDir_act]
    by_cases h0 : energy = 0 ∨ d coo = 0
    · simp only [h0, if_true, Option.map_none]
    · simp only [h0, if_false]

theorem grating_pol (dir pol : H4) (energy : ℝ) (coo : ℝ × ℝ) :
    ((planeGrating (pMat * m) transmission cat groove d blazeMod order).process (pAct dir) (pAct pol) energy coo).2 =
      ((planeGrating m transmission cat groove d blazeMod order).process dir pol energy coo).2.map pAct := by
  simp only [Grating.process]
  rw [grating m transmission cat groove d blazeMod order dir pol (pAct pol) energy coo]
  dsimp only
  cases h : ((planeGrating m transmission cat groove d blazeMod order).diffract dir pol energy coo).dir with
  | none => rfl
  | some v =>
    simp only [Option.map_some]
    exact transport _ _ _

theorem grating_flip (dir pol : H4) (energy : ℝ) (coo : ℝ × ℝ) :
    ((planeGrating m transmission cat groove d blazeMod order).process dir (-pol) energy coo).2 =
      ((planeGrating m transmission cat groove d blazeMod order).process dir pol energy coo).2.map fun q => -q := by
  simp only [Grating.process]
  have e : (planeGrating m transmission cat groove d blazeMod order).diffract dir (-pol) energy coo =
      (planeGrating m transmission cat groove d blazeMod order).diffract dir pol energy coo := rfl
  rw [e]
  cases h : ((planeGrating m transmission cat groove d blazeMod order).diffract dir pol energy coo).dir with
  | none => rfl
  | some v => exact transport_flip _ _ _

end grating

/-- Inversion of an element. -/
def actOptic : Optic → Optic := Optic.mirrored fun m => pMat * m

/-- Inversion of a photon. -/
def actRay (r : Ray) : Ray := { r with pos := r.pos.map pAct, dir := r.dir.map pAct, pol := r.pol.map pAct }

theorem hit_act (r : Ray) (m : M4) :
    (actRay r).hit (pMat * m) = (r.hit m).map fun h => (pAct h.1, pAct h.2.1, h.2.2.1, h.2.2.2.1, pAct h.2.2.2.2) := by
  simp only [Ray.hit, actRay]
  cases hd : r.dir with
  | none => rfl
  | some d =>
    cases hp : r.pos with
    | none => rfl
    | some p =>
      simp only [Option.map_some, plane]
      cases planeIntersect m d p with
      | none => rfl
      | some q => rfl

theorem at_act (r : Ray) (q : H4) (y z : ℝ) : actRay (r.at q y z) = (actRay r).at (pAct q) y z := rfl

theorem times_act (r : Ray) (f : Option ℝ) : actRay (r.times f) = (actRay r).times f := rfl

theorem bind_map {α : Type} (k' : H4 → H4) (x : Option H4) (f f' : H4 → Option α) (k : α → α)
    (h : ∀ p, f' (k' p) = (f p).map k) : ((x.map k').bind f') = (x.bind f).map k := by
  cases x with
  | none => rfl
  | some p => exact h p

theorem same_refl (x : Except Err Ray) : SameUpToSign x x := by
  cases x with
  | error e => rfl
  | ok r => exact Or.inl rfl

theorem flip_flip (r : Ray) : r.flip.flip = r := by
  have : (fun q : H4 => - -q) = id := by funext q; ext <;> simp
  simp [Ray.flip, Option.map_map, Function.comp_def, this]

theorem same_symm {x y : Except Err Ray} (h : SameUpToSign x y) : SameUpToSign y x := by
  cases x <;> cases y <;> simp only [SameUpToSign] at h ⊢
  · exact h.symm
  · rcases h with rfl | rfl
    · exact Or.inl rfl
    · exact Or.inr (flip_flip _).symm

theorem same_trans {x y z : Except Err Ray} (h : SameUpToSign x y) (h' : SameUpToSign y z) : SameUpToSign x z := by
  cases x <;> cases y <;> cases z <;> simp only [SameUpToSign] at h h' ⊢
  · exact h.trans h'
  · rcases h with rfl | rfl <;> rcases h' with rfl | rfl
    · exact Or.inl rfl
    · exact Or.inr rfl
    · exact Or.inr rfl
    · exact Or.inl (flip_flip _)

/-- The sign of the polarization has no influence. -/
theorem step_flip (o : Optic) (r : Ray) : SameUpToSign (o.step r) (o.step r.flip) := by
  have hh : ∀ m, r.flip.hit m = r.hit m := fun m => rfl
  have e0 : r.flip.energy = r.energy := rfl
  cases o with
  | plane m =>
    simp only [Optic.step, hh]
    cases r.hit m with
    | none => exact Or.inr rfl
    | some h => exact Or.inr rfl
  | tube m zoomz lim0 lim1 =>
    have e1 : r.flip.dir = r.dir := rfl
    have e2 : r.flip.pos = r.pos := rfl
    simp only [Optic.step, e1, e2]
    split
    · split
      · rfl
      · exact Or.inr rfl
      · exact Or.inr rfl
    · split_ifs
      · rfl
      · exact Or.inr rfl
    · rfl
  | filter m f =>
    simp only [Optic.step, hh, e0]
    cases r.hit m with
    | none => exact Or.inr rfl
    | some h =>
      simp only
      cases filterValue f r.energy with
      | error e => rfl
      | ok p => exact Or.inr rfl
  | globalFilter f =>
    simp only [Optic.step, e0]
    cases filterValue f r.energy with
    | error e => rfl
    | ok p => exact Or.inr rfl
  | lens m focallength dOptax refl =>
    simp only [Optic.step, hh, e0]
    cases r.hit m with
    | none => exact Or.inr rfl
    | some h =>
      obtain ⟨d, q, y, z, p⟩ := h
      have kp : (r.flip.pol.bind fun pol => perfectLens m focallength dOptax refl d pol q r.energy) =
          (r.pol.bind fun pol => perfectLens m focallength dOptax refl d pol q r.energy).map fun o =>
            ⟨o.dir, o.pol.map fun q => -q, o.prob⟩ := bind_map (fun q => -q) _ _ _ _ fun pol => lens_flip ..
      simp only [kp]
      right
      cases (r.pol.bind fun pol => perfectLens m focallength dOptax refl d pol q r.energy) <;> rfl
  | thin m focallength =>
    simp only [Optic.step, hh]
    cases r.hit m with
    | none => exact Or.inr rfl
    | some h =>
      obtain ⟨d, q, y, z, p⟩ := h
      have kp : (r.flip.pol.bind fun pol => thinLens m focallength d pol q) =
          (r.pol.bind fun pol => thinLens m focallength d pol q).map fun o => (o.1, -o.2) :=
        bind_map (fun q => -q) _ _ _ _ fun pol => thin_flip ..
      simp only [kp]
      right
      cases (r.pol.bind fun pol => thinLens m focallength d pol q) <;> rfl
  | grating m transmission cat groove dd blazeMod order =>
    simp only [Optic.step, hh, e0]
    cases r.hit m with
    | none => exact Or.inr rfl
    | some h =>
      obtain ⟨d, q, y, z, p⟩ := h
      have kp : (r.flip.pol.bind fun pol => ((planeGrating m transmission cat groove dd blazeMod order).process d pol r.energy
            (y, z)).2) = (r.pol.bind fun pol => ((planeGrating m transmission cat groove dd blazeMod order).process d pol
            r.energy (y, z)).2).map fun q => -q := bind_map (fun q => -q) _ _ _ _ fun pol => grating_flip ..
      simp only [kp]
      right
      cases (r.pol.bind fun pol => ((planeGrating m transmission cat groove dd blazeMod order).process d pol r.energy
            (y, z)).2) <;> rfl
  | mirror m rs rp =>
    simp only [Optic.step, hh]
    cases r.hit m with
    | none => exact Or.inr rfl
    | some h =>
      obtain ⟨d, q, y, z, p⟩ := h
      simp only
      cases hp : r.pol with
      | none =>
        have e : r.flip.pol = none := by simp [Ray.flip, hp]
        simp only [e]
        right
        simp [Ray.flip, Ray.at, Ray.times, hp]
      | some pol =>
        have e : r.flip.pol = some (-pol) := by simp [Ray.flip, hp]
        simp only [e, mirror_flip]
        cases brewster m rs rp d pol with
        | error e => rfl
        | ok b => cases b with
          | none => exact Or.inl rfl
          | some b => exact Or.inl rfl
  | scatter m inAngle perpAngle =>
    simp only [Optic.step, hh]
    cases r.hit m with
    | none => exact Or.inr rfl
    | some h =>
      obtain ⟨d, q, y, z, p⟩ := h
      have kp : (r.flip.pol.bind fun pol => radialScatter m d p pol inAngle perpAngle) =
          (r.pol.bind fun pol => radialScatter m d p pol inAngle perpAngle).map fun o => (o.1, o.2.map fun q => -q) :=
        bind_map (fun q => -q) _ _ _ _ fun pol => scatter_flip ..
      simp only [kp]
      right
      cases (r.pol.bind fun pol => radialScatter m d p pol inAngle perpAngle) <;> rfl
  | propagate distance => exact Or.inr rfl

theorem step_act (o : Optic) (ho : o.OnePolarization) (r : Ray) :
    SameUpToSign ((o.step r).map actRay) ((actOptic o).step (actRay r)) := by
  have e0 : (actRay r).energy = r.energy := rfl
  cases o with
  | plane m =>
    simp only [actOptic, Optic.mirrored, Optic.step, hit_act]
    cases r.hit m with
    | none => exact Or.inl rfl
    | some h => exact Or.inl rfl
  | tube m zoomz lim0 lim1 =>
    simp only [actOptic, Optic.mirrored, Optic.step]
    cases hd : r.dir with
    | none =>
      simp only [actRay, hd, Option.map_none]
      cases r.pos <;> exact same_refl _
    | some d =>
      cases hp : r.pos with
      | none =>
        have e : (pMat * m).det = 0 ↔ m.det = 0 := by rw [Matrix.det_mul, mat_det]; simp
        have e1 : (actRay r).dir = some (pAct d) := by simp [actRay, hd]
        have e2 : (actRay r).pos = none := by simp [actRay, hp]
        simp only [e1, e2, act_w, e]
        split_ifs
        · rfl
        · exact Or.inl rfl
      | some p =>
        have e1 : (actRay r).dir = some (pAct d) := by simp [actRay, hd]
        have e2 : (actRay r).pos = some (pAct p) := by simp [actRay, hp]
        simp only [e1, e2, cylinder]
        cases cylIntersect m zoomz lim0 lim1 d p with
        | error e => rfl
        | ok c => cases c with
          | none => exact Or.inl rfl
          | some q => exact Or.inl rfl
  | filter m f =>
    simp only [actOptic, Optic.mirrored, Optic.step, hit_act, e0]
    cases r.hit m with
    | none => exact Or.inl rfl
    | some h =>
      simp only [Option.map_some]
      cases filterValue f r.energy with
      | error e => rfl
      | ok p => exact Or.inl rfl
  | globalFilter f =>
    simp only [actOptic, Optic.mirrored, Optic.step, e0]
    cases filterValue f r.energy with
    | error e => rfl
    | ok p => exact Or.inl rfl
  | lens m focallength dOptax refl =>
    simp only [actOptic, Optic.mirrored, Optic.step, hit_act, e0]
    cases r.hit m with
    | none => exact Or.inl rfl
    | some h =>
      obtain ⟨d, q, y, z, p⟩ := h
      have k0 := lens m focallength dOptax refl d ⟨0, 0, 0, 0⟩ q r.energy
      rw [act_zero] at k0
      have kp : ((actRay r).pol.bind fun pol => perfectLens (pMat * m) focallength dOptax refl (pAct d) pol (pAct q)
          r.energy) = (r.pol.bind fun pol => perfectLens m focallength dOptax refl d pol q r.energy).map fun o =>
            ⟨pAct o.dir, o.pol.map pAct, o.prob⟩ := bind_map pAct _ _ _ _ fun pol => lens ..
      left
      simp only [k0, kp, at_act, times_act]
      cases perfectLens m focallength dOptax refl d ⟨0, 0, 0, 0⟩ q r.energy <;>
        cases (r.pol.bind fun pol => perfectLens m focallength dOptax refl d pol q r.energy) <;> rfl
  | thin m focallength =>
    simp only [actOptic, Optic.mirrored, Optic.step, hit_act]
    cases r.hit m with
    | none => exact Or.inl rfl
    | some h =>
      obtain ⟨d, q, y, z, p⟩ := h
      have k0 := thin m focallength d ⟨0, 0, 0, 0⟩ q
      rw [act_zero] at k0
      have kp : ((actRay r).pol.bind fun pol => thinLens (pMat * m) focallength (pAct d) pol (pAct q)) =
          (r.pol.bind fun pol => thinLens m focallength d pol q).map fun o => (pAct o.1, pAct o.2) :=
        bind_map pAct _ _ _ _ fun pol => thin ..
      left
      simp only [k0, kp, at_act]
      cases thinLens m focallength d ⟨0, 0, 0, 0⟩ q <;>
        cases (r.pol.bind fun pol => thinLens m focallength d pol q) <;> rfl
  | grating m transmission cat groove dd blazeMod order =>
    simp only [actOptic, Optic.mirrored, Optic.step, hit_act, e0]
    cases r.hit m with
    | none => exact Or.inl rfl
    | some h =>
      obtain ⟨d, q, y, z, p⟩ := h
      have k0 := grating m transmission cat groove dd blazeMod order d ⟨0, 0, 0, 0⟩ ⟨0, 0, 0, 0⟩ r.energy (y, z)
      have kp : ((actRay r).pol.bind fun pol => ((planeGrating (pMat * m) transmission cat groove dd blazeMod
          order).process (pAct d) pol r.energy (y, z)).2) =
          (r.pol.bind fun pol => ((planeGrating m transmission cat groove dd blazeMod order).process d pol r.energy
            (y, z)).2).map pAct := bind_map pAct _ _ _ _ fun pol => grating_pol ..
      left
      simp only [Option.map_some, k0, kp, at_act, times_act]
      rfl
  | mirror m rs rp =>
    simp only [actOptic, Optic.mirrored, Optic.step, hit_act]
    cases r.hit m with
    | none => exact Or.inl rfl
    | some h =>
      obtain ⟨d, q, y, z, p⟩ := h
      have k0 : (if (pAct d).dot (pAct d) = 0 then none else some (mirrorDir (pMat * m) (pAct d).unit)) =
          (if d.dot d = 0 then none else some (mirrorDir m d.unit)).map pAct := by
        simp only [act_dot, act_unit, mirrorDir_act]
        split_ifs <;> rfl
      simp only [Option.map_some, k0]
      cases hp : r.pol with
      | none =>
        have e : (actRay r).pol = none := by simp [actRay, hp]
        simp only [e]
        left
        simp only [at_act, times_act]
        simp [actRay, hp]
      | some pol =>
        have e : (actRay r).pol = some (pAct pol) := by simp [actRay, hp]
        simp only [e]
        rcases mirror m rs rp ho d pol with hm | hm <;> rw [hm] <;> cases brewster m rs rp d pol with
        | error e => rfl
        | ok b => cases b with
          | none => exact Or.inl rfl
          | some b => first
            | exact Or.inl rfl
            | right
              simp only [Option.map_some, at_act, times_act]
              simp [Ray.flip, actRay, Ray.at, Ray.times, Option.map_map, Function.comp_def]
  | scatter m inAngle perpAngle =>
    simp only [actOptic, Optic.mirrored, Optic.step, hit_act]
    cases r.hit m with
    | none => exact Or.inl rfl
    | some h =>
      obtain ⟨d, q, y, z, p⟩ := h
      have k0 := scatter m d p ⟨0, 0, 0, 0⟩ inAngle perpAngle
      rw [act_zero] at k0
      have kp : ((actRay r).pol.bind fun pol => radialScatter (pMat * m) (pAct d) (pAct p) pol inAngle
          (perpAngle.map fun b => -b)) =
          (r.pol.bind fun pol => radialScatter m d p pol inAngle perpAngle).map fun o => (pAct o.1, o.2.map pAct) :=
        bind_map pAct _ _ _ _ fun pol => scatter ..
      left
      simp only [k0, kp, at_act]
      cases radialScatter m d p ⟨0, 0, 0, 0⟩ inAngle perpAngle <;>
        cases (r.pol.bind fun pol => radialScatter m d p pol inAngle perpAngle) <;> rfl
  | propagate distance =>
    left
    simp only [actRay]
    cases hd : r.dir with
    | none => rfl
    | some d =>
      cases hp : r.pos with
      | none => rfl
      | some p => simp [act_add, act_smul]

theorem run_flip (os : List Optic) (r : Ray) : SameUpToSign (runOptics os r) (runOptics os r.flip) := by
  induction os generalizing r with
  | nil => exact Or.inr rfl
  | cons o os ih =>
    have h := step_flip o r
    simp only [runOptics]
    cases h1 : o.step r with
    | error e =>
      rw [h1] at h
      cases h2 : o.step r.flip with
      | error e' => rw [h2] at h; exact h
      | ok s => rw [h2] at h; exact h.elim
    | ok s =>
      rw [h1] at h
      cases h2 : o.step r.flip with
      | error e' => rw [h2] at h; exact h.elim
      | ok s' =>
        rw [h2] at h
        rcases h with rfl | rfl
        · exact same_refl _
        · exact ih s

theorem run_act (os : List Optic) (hos : ∀ o ∈ os, o.OnePolarization) (r : Ray) :
    SameUpToSign ((runOptics os r).map actRay) (runOptics (os.map actOptic) (actRay r)) := by
  induction os generalizing r with
  | nil => exact Or.inl rfl
  | cons o os ih =>
    have h := step_act o (hos o (by simp)) r
    have ih' := ih fun o' ho' => hos o' (by simp [ho'])
    simp only [runOptics, List.map_cons]
    cases h1 : o.step r with
    | error e =>
      rw [h1] at h
      cases h2 : (actOptic o).step (actRay r) with
      | error e' => rw [h2] at h; exact h
      | ok s => rw [h2] at h; exact h.elim
    | ok s =>
      rw [h1] at h
      cases h2 : (actOptic o).step (actRay r) with
      | error e' => rw [h2] at h; exact h.elim
      | ok s' =>
        rw [h2] at h
        rcases h with rfl | rfl
        · exact ih' s
        · exact same_trans (ih' s) (run_flip _ _)

end Inversion

open Inversion

/-- The rigid motion that makes a mirror image out of an inversion. -/
def Reflection.motion (h : Reflection) : Motion where
  rot := -h.rot
  shift := h.shift
  isRot := ⟨by rw [Matrix.transpose_neg, neg_mul_neg, h.isOrth], by
    rw [Matrix.det_neg, h.isImproper]; norm_num⟩

theorem reflection_mat (h : Reflection) : h.mat = h.motion.mat * pMat := by
  ext i j
  fin_cases i <;> fin_cases j <;>
    simp [Reflection.mat, Motion.mat, Reflection.motion, pMat, Matrix.mul_apply, Fin.sum_univ_four]

theorem reflection_act (h : Reflection) (p : H4) : h.act p = h.motion.act (pAct p) := by
  rw [Reflection.act, reflection_mat, mul4_mul, Motion.act, act_eq]

theorem reflection_optic (h : Reflection) (o : Optic) : h.actOptic o = h.motion.actOptic (actOptic o) := by
  cases o <;> simp [Reflection.actOptic, actOptic, Optic.mirrored, Motion.actOptic, reflection_mat, mul_assoc]

theorem reflection_ray (h : Reflection) (r : Ray) : h.actRay r = h.motion.actRay (actRay r) := by
  have e : h.act = fun p => h.motion.act (pAct p) := funext (reflection_act h)
  simp [Reflection.actRay, Motion.actRay, actRay, e, Option.map_map, Function.comp_def]

theorem motion_flip (g : Motion) (r : Ray) : g.actRay r.flip = (g.actRay r).flip := by
  simp [Ray.flip, Motion.actRay, Option.map_map, Function.comp_def, g.act_neg]

theorem inverted_placed {m : M4} (h : Placed m) : Placed (pMat * m) := by
  obtain ⟨⟨h1, h2, h3, h4⟩, hd⟩ := h
  refine ⟨⟨?_, ?_, ?_, ?_⟩, by rw [Matrix.det_mul, Inversion.mat_det]; simpa using hd⟩ <;>
    simp [pMat, Matrix.mul_apply, Fin.sum_univ_four, h1, h2, h3, h4]

/-- **C167** The mirror image of an instrument (with the same random numbers, but photons scattered to the left
scattered to the right) gives for the mirror image of each photon the mirror image of the result: position, direction,
probability, energy, order, blaze angle, and coordinates on the elements; the polarization up to the sign of its vector. -/
theorem C167_mirror_image (h : Reflection) (os : List Optic) (hos : ∀ o ∈ os, o.IsPlaced ∧ o.OnePolarization) (r : Ray)
    (hr : r.WellFormed) :
    SameUpToSign ((runOptics os r).map h.actRay) (runOptics (os.map h.actOptic) (h.actRay r)) := by
  have e : os.map h.actOptic = (os.map actOptic).map h.motion.actOptic := by
    rw [List.map_map]; exact List.map_congr_left fun o _ => reflection_optic h o
  have hpl : ∀ o ∈ os.map actOptic, o.IsPlaced := by
    intro o ho
    obtain ⟨o, ho', rfl⟩ := List.mem_map.1 ho
    have := (hos o ho').1
    cases o <;> first | exact trivial | exact inverted_placed this
  have hw : (actRay r).WellFormed := by
    refine ⟨fun p hp => ?_, fun p hp => ?_, fun p hp => ?_⟩ <;> obtain ⟨q, hq, rfl⟩ := Option.map_eq_some_iff.1 hp
    · exact hr.1 q hq
    · exact hr.2.1 q hq
    · exact hr.2.2 q hq
  rw [e, reflection_ray, C157_sequence _ _ hpl _ hw]
  have hs := run_act os (fun o ho => (hos o ho).2) r
  cases h1 : runOptics os r with
  | error x =>
    rw [h1] at hs
    cases h2 : runOptics (os.map actOptic) (actRay r) with
    | error y => rw [h2] at hs; exact hs
    | ok s => rw [h2] at hs; exact hs.elim
  | ok s =>
    rw [h1] at hs
    cases h2 : runOptics (os.map actOptic) (actRay r) with
    | error y => rw [h2] at hs; exact hs.elim
    | ok s' =>
      rw [h2] at hs
      simp only [Except.map, SameUpToSign, reflection_ray]
      rcases hs with rfl | rfl
      · exact Or.inl rfl
      · exact Or.inr (motion_flip _ _)

/-- **C167** The sign of the polarization vector has no influence on anything else. -/
theorem C167_sign (os : List Optic) (r : Ray) : SameUpToSign (runOptics os r) (runOptics os r.flip) := run_flip os r

/-- Up and down exchanged. -/
def upDown : Reflection where
  rot := !![1, 0, 0; 0, 1, 0; 0, 0, -1]
  shift := ⟨0, 0, 0⟩
  isOrth := by ext i j; fin_cases i <;> fin_cases j <;> simp [Matrix.mul_apply, Fin.sum_univ_three]
  isImproper := by simp [Matrix.det_fin_three]

theorem upDown_act (v : H4) : upDown.act v = ⟨v.x, v.y, -v.z, v.w⟩ := by
  ext <;> simp [upDown, Reflection.act, Reflection.mat, mul4]

/-- What a mirror does to a photon with both directions of polarization. -/
theorem slanted_mirror (m : M4) (hX : eX m = ⟨1, 0, 0, 0⟩) (hm : mirrorDir m ⟨-4 / 5, -3 / 5, 0, 0⟩ = ⟨4 / 5, -3 / 5, 0, 0⟩) (z : ℝ)
    (hz : z ^ 2 = 9 / 25) : ∃ c : ℝ, 0 < c ∧ brewster m 1 1 ⟨-4 / 5, -3 / 5, 0, 0⟩ ⟨-12 / 25, 16 / 25, z, 0⟩ =
      .ok (some ⟨⟨4 / 5, -3 / 5, 0, 0⟩, 1, some ⟨-48 * c, -64 * c, -45 * c, 0⟩⟩) := by
  have hd : (⟨-4 / 5, -3 / 5, 0, 0⟩ : H4).dot ⟨-4 / 5, -3 / 5, 0, 0⟩ = 1 := by norm_num [H4.dot]
  have hu : (⟨-4 / 5, -3 / 5, 0, 0⟩ : H4).unit = ⟨-4 / 5, -3 / 5, 0, 0⟩ := by
    rw [H4.unit, H4.norm, hd, Real.sqrt_one]; ext <;> simp
  have hs : (⟨-4 / 5, -3 / 5, 0, 0⟩ : H4).xyz.cross (⟨1, 0, 0, 0⟩ : H4).xyz = ⟨0, 0, 3 / 5⟩ := by
    ext <;> norm_num [V3.cross, H4.xyz]
  have hn : (⟨0, 0, 3 / 5⟩ : V3).norm = 3 / 5 := by
    rw [V3.norm, show (⟨0, 0, 3 / 5⟩ : V3).dot ⟨0, 0, 3 / 5⟩ = (3 / 5) ^ 2 by norm_num [V3.dot], Real.sqrt_sq (by norm_num)]
  have hsu : (⟨0, 0, 3 / 5⟩ : V3).unit = ⟨0, 0, 1⟩ := by
    rw [V3.unit, hn]; ext <;> norm_num
  have hs0 : (⟨0, 0, 3 / 5⟩ : V3) ≠ 0 := fun h => by
    have := congrArg V3.z h
    norm_num at this
  have h1 : (⟨-12 / 25, 16 / 25, z, 0⟩ : H4).xyz.dot ⟨0, 0, 1⟩ = z := by simp [V3.dot, H4.xyz]
  have h2 : (⟨-12 / 25, 16 / 25, z, 0⟩ : H4).xyz.dot ((⟨-4 / 5, -3 / 5, 0, 0⟩ : H4).xyz.cross ⟨0, 0, 1⟩) = 4 / 5 := by
    norm_num [V3.dot, H4.xyz, V3.cross]
  have h3 : (⟨4 / 5, -3 / 5, 0, 0⟩ : H4).xyz.cross ⟨0, 0, 1⟩ = ⟨-3 / 5, -4 / 5, 0⟩ := by
    ext <;> norm_num [H4.xyz, V3.cross]
  have h4 : (-(1 * z ^ 2)) • (⟨0, 0, 1⟩ : V3) + (1 * (4 / 5 : ℝ) ^ 2) • (⟨-3 / 5, -4 / 5, 0⟩ : V3) =
      ⟨-48 / 125, -64 / 125, -45 / 125⟩ := by
    rw [hz]; ext <;> norm_num
  have h5 : (⟨-48 / 125, -64 / 125, -45 / 125⟩ : V3) ≠ 0 := fun h => by
    have := congrArg V3.z h
    norm_num at this
  have hpos : 0 < (⟨-48 / 125, -64 / 125, -45 / 125⟩ : V3).norm := by
    rw [V3.norm]; exact Real.sqrt_pos.2 (by norm_num [V3.dot])
  refine ⟨1 / (125 * (⟨-48 / 125, -64 / 125, -45 / 125⟩ : V3).norm), by positivity, ?_⟩
  simp only [brewster, hd, hu, hX, hm, hs, hsu, h1, h2, h3, h4, hs0, h5, if_false, one_ne_zero]
  rw [hz, if_neg (by norm_num), V3.unit]
  norm_num
  generalize (⟨-(48 / 125), -(64 / 125), -(9 / 25)⟩ : V3).norm = n
  ext <;> simp [V3.toDir] <;> ring

/-- **C167** A mirror that reflects both polarizations is not symmetric: up and down exchanged gives a photon with another
direction of polarization (the squares of the two components of the polarization are used as components of the new one). -/
theorem C167_mirror_image_false : ∃ (h : Reflection) (o : Optic) (r : Ray), o.IsPlaced ∧ r.WellFormed ∧
    ¬ SameUpToSign ((runOptics [o] r).map h.actRay) (runOptics ([o].map h.actOptic) (h.actRay r)) := by
  obtain ⟨e1, e2, e3, e4, e5, e6⟩ := unitAxes
  have hm0 : mirrorDir 1 ⟨-4 / 5, -3 / 5, 0, 0⟩ = ⟨4 / 5, -3 / 5, 0, 0⟩ := by
    simp only [mirrorDir]
    ext <;> simp [mul4] <;> norm_num
  have hU : upDown.mat = !![1, 0, 0, 0; 0, 1, 0, 0; 0, 0, -1, 0; 0, 0, 0, 1] := by
    ext i j; fin_cases i <;> fin_cases j <;> simp [upDown, Reflection.mat]
  have hinv : upDown.mat⁻¹ = upDown.mat := by
    apply Matrix.inv_eq_left_inv
    rw [hU]
    ext i j; fin_cases i <;> fin_cases j <;> simp [Matrix.mul_apply, Fin.sum_univ_four]
  have hm1 : mirrorDir (upDown.mat * 1) ⟨-4 / 5, -3 / 5, 0, 0⟩ = ⟨4 / 5, -3 / 5, 0, 0⟩ := by
    simp only [mirrorDir, mul_one, hinv]
    simp only [hU]
    ext <;> simp [mul4] <;> norm_num
  have f1 : center (upDown.mat * 1) = ⟨0, 0, 0, 1⟩ ∧ vX (upDown.mat * 1) = ⟨1, 0, 0, 0⟩ ∧ vY (upDown.mat * 1) = ⟨0, 1, 0, 0⟩ ∧
      vZ (upDown.mat * 1) = ⟨0, 0, -1, 0⟩ := by
    rw [mul_one, hU]
    refine ⟨?_, ?_, ?_, ?_⟩ <;> ext <;> simp [center, vX, vY, vZ, col]
  have u : ∀ v : H4, v.dot v = 1 → v.norm = 1 ∧ v.unit = v := fun v hv => by
    have : v.norm = 1 := by rw [H4.norm, hv, Real.sqrt_one]
    exact ⟨this, by rw [H4.unit, this]; ext <;> simp⟩
  have hX1 : eX (upDown.mat * 1) = ⟨1, 0, 0, 0⟩ := by rw [eX, f1.2.1]; exact (u _ (by norm_num [H4.dot])).2
  have hY1 : eY (upDown.mat * 1) = ⟨0, 1, 0, 0⟩ := by rw [eY, f1.2.2.1]; exact (u _ (by norm_num [H4.dot])).2
  have hZ1 : eZ (upDown.mat * 1) = ⟨0, 0, -1, 0⟩ := by rw [eZ, f1.2.2.2]; exact (u _ (by norm_num [H4.dot])).2
  have hit0 : planeIntersect 1 ⟨-4 / 5, -3 / 5, 0, 0⟩ ⟨4, 3, 0, 1⟩ = some (⟨0, 0, 0, 1⟩, 0, 0) := by
    simp only [planeIntersect, e1, e2, e3, e4, e5, e6]
    norm_num [H4.dot]
    ext <;> norm_num
  have hit1 : planeIntersect (upDown.mat * 1) ⟨-4 / 5, -3 / 5, 0, 0⟩ ⟨4, 3, 0, 1⟩ = some (⟨0, 0, 0, 1⟩, 0, 0) := by
    simp only [planeIntersect, hX1, hY1, hZ1, f1]
    have n1 : (⟨0, 1, 0, 0⟩ : H4).norm = 1 := (u _ (by norm_num [H4.dot])).1
    have n2 : (⟨0, 0, -1, 0⟩ : H4).norm = 1 := (u _ (by norm_num [H4.dot])).1
    simp only [n1, n2]
    norm_num [H4.dot]
    ext <;> norm_num
  obtain ⟨c, hc, h0⟩ := slanted_mirror 1 e1 hm0 (3 / 5) (by norm_num)
  obtain ⟨c', hc', h1⟩ := slanted_mirror (upDown.mat * 1) hX1 hm1 (-(3 / 5)) (by norm_num)
  refine ⟨upDown, .mirror 1 1 1, ⟨some ⟨4, 3, 0, 1⟩, some ⟨-4 / 5, -3 / 5, 0, 0⟩, some ⟨-12 / 25, 16 / 25, 3 / 5, 0⟩, some 1, 1, none,
    none, []⟩, by simp [Optic.IsPlaced, Placed, Affine], ?_, ?_⟩
  · refine ⟨fun p hp => ?_, fun p hp => ?_, fun p hp => ?_⟩ <;> cases hp <;> rfl
  · simp only [List.map_cons, List.map_nil, Reflection.actOptic, Optic.mirrored, runOptics, Optic.step, Ray.hit, Reflection.actRay,
      Option.map_some, upDown_act, neg_zero, hit0, hit1, h0, h1, Except.map, SameUpToSign]
    rintro (h | h)
    · have h := congrArg Ray.pol h
      simp [Ray.at, Ray.times, H4.ext_iff, upDown_act] at h
      linarith [h.2]
    · have h := congrArg Ray.pol h
      simp [Ray.flip, Ray.at, Ray.times, H4.ext_iff, upDown_act] at h
      linarith [h.1]

/-- A photon with a filter and free flight, up and down exchanged. -/
example : runOptics ([Optic.filter 1 fun _ => 1 / 2, .propagate 5].map upDown.actOptic) (upDown.actRay axisRay) =
    .ok ⟨some ⟨-5, 1 / 2, 0, 1⟩, some ⟨-1, 0, 0, 0⟩, some ⟨0, 1, 0, 0⟩, some (1 / 2), 1, none, none, [(1 / 2, 0)]⟩ ∨
    runOptics ([Optic.filter 1 fun _ => 1 / 2, .propagate 5].map upDown.actOptic) (upDown.actRay axisRay) =
    .ok ⟨some ⟨-5, 1 / 2, 0, 1⟩, some ⟨-1, 0, 0, 0⟩, some ⟨0, -1, 0, 0⟩, some (1 / 2), 1, none, none, [(1 / 2, 0)]⟩ := by
  have h := C167_mirror_image upDown [Optic.filter 1 fun _ => 1 / 2, .propagate 5]
    (by simp [Optic.IsPlaced, Placed, Affine, Optic.OnePolarization]) axisRay
    (by refine ⟨fun p hp => ?_, fun p hp => ?_, fun p hp => ?_⟩ <;> cases hp <;> rfl)
  rw [axisRay_run] at h
  simp only [Except.map, Reflection.actRay, Option.map_some, upDown_act, neg_zero] at h ⊢
  revert h
  generalize runOptics _ _ = x
  intro h
  cases x with
  | error e => exact h.elim
  | ok s =>
    rcases h with rfl | rfl
    · exact Or.inl rfl
    · right
      congr 1
      simp [Ray.flip]
      ext <;> simp

end Marxs
