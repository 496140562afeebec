import Verif.Spec.RowlandFocus
import Verif.Props.Calculated
import Verif.Props.Placement
import Verif.Props.Grating
import Verif.Props.TorusDesign
import Verif.Props.Boom
import Verif.Props.RowlandDetector
import Verif.Lemmas.Placement

/-!
# C146: gratings on a Rowland torus focus each order on the torus
-/

namespace Marxs
open Classical Matrix

/-! ## Geometry in the meridian plane -/

/-- Direction of the meridian plane. -/
noncomputable def meridianDir (t : Torus) (phi : ℝ) : V3 := Real.cos phi • (vX t.pos4d).xyz + Real.sin phi • (vZ t.pos4d).xyz

theorem meridianPoint_eq (t : Torus) (rho y phi : ℝ) :
    meridianPoint t rho y phi = (center t.pos4d).xyz + rho • meridianDir t phi + y • torusAxis t := by
  ext <;> simp [meridianPoint, toGlobal, mul4, H4.xyz, center, col, meridianDir, vX, vY, vZ, torusAxis] <;> ring

theorem meridian_frame {t : Torus} (ht : Conformal t.pos4d 1) (phi : ℝ) :
    (meridianDir t phi).dot (meridianDir t phi) = 1 ∧ (torusAxis t).dot (torusAxis t) = 1 ∧
    (meridianDir t phi).dot (torusAxis t) = 0 := by
  obtain ⟨_, h1, h2, h3, h4, h5, h6⟩ := ht
  have hzx := (V3.dot_comm (vZ t.pos4d).xyz (vX t.pos4d).xyz).trans h5
  have hzy := (V3.dot_comm (vZ t.pos4d).xyz (vY t.pos4d).xyz).trans h6
  have hs := Real.sin_sq_add_cos_sq phi
  refine ⟨?_, by simpa [torusAxis] using h2, ?_⟩
  · simp only [meridianDir, V3.dot_add_left, V3.dot_add_right, V3.dot_smul_left, V3.dot_smul_right, h1, h3, h5, hzx]
    linear_combination hs
  · simp only [meridianDir, torusAxis, V3.dot_add_left, V3.dot_smul_left, h4, hzy]; ring

/-- The axes of a grating that looks at the focal point, in the meridian plane. -/
theorem grating_axes {t : Torus} (ht : Conformal t.pos4d 1) {rho y yF phi : ℝ} (hrho : 0 < rho) {m : M4} {side : V3}
    (hside : InMeridian t (meridianPoint t 0 yF phi) (meridianPoint t rho y phi) side)
    (hm : PlacedAs m (meridianPoint t rho y phi) (meridianPoint t rho y phi - meridianPoint t 0 yF phi) side) :
    ∃ k c s : ℝ, 0 < k ∧ k * c = rho ∧ k * s = y - yF ∧ c ^ 2 + s ^ 2 = 1 ∧
      (vX m).xyz = c • meridianDir t phi + s • torusAxis t ∧
      (vY m).xyz = (-s) • meridianDir t phi + c • torusAxis t := by
  obtain ⟨u1, u2, u3⟩ := meridian_frame ht phi
  obtain ⟨a, b, ha, rfl⟩ := hside
  obtain ⟨k0, hk0, hx⟩ := hm.x
  obtain ⟨al, be, hy, hbe⟩ := hm.y
  have hxx := hm.rigid.xx
  have hyy := hm.rigid.yy
  have hxy := hm.rigid.xy
  have hd : meridianPoint t rho y phi - meridianPoint t 0 yF phi =
      rho • meridianDir t phi + (y - yF) • torusAxis t := by
    rw [meridianPoint_eq, meridianPoint_eq]
    ext <;> simp <;> ring
  rw [hd] at hx hy
  generalize meridianDir t phi = U at *
  generalize torusAxis t = Y at *
  have u3' : Y.dot U = 0 := by rw [V3.dot_comm]; exact u3
  have hX : (vX m).xyz = (k0 * rho) • U + (k0 * (y - yF)) • Y := by rw [hx]; ext <;> simp <;> ring
  have hY : (vY m).xyz = ((al + be * b) * rho) • U + ((al + be * b) * (y - yF) + be * a) • Y := by
    rw [hy]; ext <;> simp <;> ring
  rw [hX] at hxx hxy
  rw [hY] at hyy hxy
  simp only [V3.dot_add_left, V3.dot_add_right, V3.dot_smul_left, V3.dot_smul_right, u1, u2, u3, u3'] at hxx hyy hxy
  have hde : 0 < be * a := mul_pos hbe ha
  generalize be * a = de at *
  generalize al + be * b = ga at *
  have hc : 0 < k0 * rho := mul_pos hk0 hrho
  have e1 : (k0 * rho) ^ 2 + (k0 * (y - yF)) ^ 2 = 1 := by nlinarith
  -- components of the y axis
  have e2 : ga * rho * (k0 * rho) + (ga * (y - yF) + de) * (k0 * (y - yF)) = 0 := by linear_combination hxy
  have e3 : (ga * rho) ^ 2 + (ga * (y - yF) + de) ^ 2 = 1 := by linear_combination hyy
  have e4 : ga * k0⁻¹ = - de * (k0 * (y - yF)) := by
    have : k0 * k0⁻¹ = 1 := mul_inv_cancel₀ hk0.ne'
    have e1' : ga * k0 * (rho ^ 2 + (y - yF) ^ 2) + de * (k0 * (y - yF)) = 0 := by linear_combination e2
    have e5 : k0 * (rho ^ 2 + (y - yF) ^ 2) = k0⁻¹ := by
      field_simp
      linear_combination e1
    rw [mul_assoc, e5] at e1'
    linarith
  have e6 : ga = - de * (k0 * (y - yF)) * k0 := by
    rw [← e4]; field_simp
  have e7 : ga * rho = - (de * (k0 * rho)) * (k0 * (y - yF)) := by rw [e6]; ring
  have e8 : ga * (y - yF) + de = (de * (k0 * rho)) * (k0 * rho) := by rw [e6]; linear_combination (-de) * e1
  have e9 : de * (k0 * rho) = 1 := by
    have h1 : (de * (k0 * rho)) ^ 2 = 1 := by
      rw [e7, e8] at e3
      linear_combination e3 - (de * (k0 * rho)) ^ 2 * e1
    have h2 : 0 < de * (k0 * rho) := mul_pos hde hc
    nlinarith
  refine ⟨k0⁻¹, k0 * rho, k0 * (y - yF), inv_pos.2 hk0, by field_simp, by field_simp, e1, hX, ?_⟩
  rw [hY, e7, e8, e9]
  ext <;> simp

/-- All lines from points `P` of the circle, turned against the direction to `F` by the same angle, meet the circle in
the same point. -/
theorem inscribed_angle {R r yF rho y k c s A B : ℝ} (hF : R ^ 2 + yF ^ 2 = r ^ 2) (hP : (rho - R) ^ 2 + y ^ 2 = r ^ 2)
    (hk : 0 < k) (h1 : k * c = rho) (h2 : k * s = y - yF) (hcs : c ^ 2 + s ^ 2 = 1) (hAB : A ^ 2 + B ^ 2 = 1) :
    ∃ l : ℝ, rho + l * (-A * c - B * s) = 2 * B * (B * R + A * yF) ∧
      y + l * (-A * s + B * c) = yF + 2 * B * (A * R - B * yF) ∧
      (0 < A → 4 * r ^ 2 * (1 - A ^ 2) < k ^ 2 → 0 < l) := by
  have hy : y = yF + k * s := by linarith
  subst h1 hy
  have hkk : k = 2 * (c * R - s * yF) := by
    have : k * (k - 2 * (c * R - s * yF)) = 0 := by linear_combination hP - hF - k ^ 2 * hcs
    rcases mul_eq_zero.1 this with h | h
    · exact absurd h hk.ne'
    · linarith
  refine ⟨2 * (A * (c * R - s * yF) + B * (-s * R - c * yF)), ?_, ?_, ?_⟩
  · rw [hkk]
    linear_combination (2 * B ^ 2 * R + 2 * A * B * yF) * hcs - 2 * c * (c * R - s * yF) * hAB
  · rw [hkk]
    linear_combination (2 * A * B * R - 2 * B ^ 2 * yF) * hcs - 2 * s * (c * R - s * yF) * hAB
  · intro hA hlt
    have e : (c * R - s * yF) ^ 2 + (-s * R - c * yF) ^ 2 = r ^ 2 := by linear_combination hF + (R ^ 2 + yF ^ 2) * hcs
    generalize -s * R - c * yF = wy at *
    generalize c * R - s * yF = wx at *
    have hwx : 0 < wx := by linarith
    have hB : 1 - A ^ 2 = B ^ 2 := by linarith
    rw [hB, ← e, hkk] at hlt
    have h3 : (B * wy) ^ 2 < (A * wx) ^ 2 := by
      have : A ^ 2 = 1 - B ^ 2 := by linarith
      rw [mul_pow A, this]
      nlinarith
    have h4 := abs_lt_of_sq_lt_sq h3 (mul_pos hA hwx).le
    have := (abs_lt.1 h4).1
    linarith

/-! ## The elements of the container -/

/-- Rotation part of a placement. -/
def rotPart (m : M4) : M3 := fun i j => m i.castSucc j.castSucc

theorem placed_compose {m : M4} {p n s : V3} (h : PlacedAs m p n s) :
    IsRotation (rotPart m) ∧ m = compose ![p.x, p.y, p.z] (rotPart m) ![1, 1, 1] := by
  obtain ⟨⟨⟨a1, a2, a3, a4⟩, h1, h2, h3, h4, h5, h6⟩, hr, hp, -⟩ := h
  simp only [V3.ext_iff, V3.dot, vX, vY, vZ, center, col, H4.xyz, V3.cross_x, V3.cross_y, V3.cross_z] at *
  obtain ⟨r1, r2, r3⟩ := hr
  obtain ⟨p1, p2, p3⟩ := hp
  refine ⟨⟨?_, ?_⟩, ?_⟩
  · ext i j
    fin_cases i <;> fin_cases j <;> simp [Matrix.mul_apply, Fin.sum_univ_three, rotPart] <;> linarith
  · rw [Matrix.det_fin_three]
    simp only [rotPart]
    simp
    linear_combination m 0 2 * r1 + m 1 2 * r2 + m 2 2 * r3 + h3
  · ext i j
    fin_cases i <;> fin_cases j <;> simp [compose, rotPart, a1, a2, a3, a4, p1, p2, p3]

theorem blazeMat_rotation (b : ℝ) : IsRotation (blazeMat b) := (C16_axangle_rotation _ (by simp [V3.dot]) _).1

theorem gas_genOne {dec : M4 → Decomp} (hdec : DecExact dec) {ms : List M4} {z0 z1 z2 b : ℝ} (h0 : 0 < z0) (h1 : 0 < z1)
    (h2 : 0 < z2) {k : ℕ} {t : Fin 3 → ℝ} {r : M3} (hr : IsRotation r) (hk : ms[k]? = some (compose t r ![1, 1, 1])) :
    ∃ e, genOne dec (gratingPar ms z0 z1 z2 b) k = .ok e ∧ e.pos4d = compose t (r * blazeMat b) ![z0, z1, z2] := by
  have he : addName k (gratingPar ms z0 z1 z2 b).name (specificArgs (gratingPar ms z0 z1 z2 b).elemPos.length k
      (gratingPar ms z0 z1 z2 b).elemArgs) = [("zoom", .vec [z0, z1, z2]), ("orientation", .mat3 (blazeMat b)),
        ("name", .str ("Elem " ++ toString k ++ " in " ++ "GAS"))] := by
    simp [gratingPar, addName, specificArgs, Kwargs.get?]
  have hb := blazeMat_rotation b
  have hdet : (compose ![0, 0, 0] (blazeMat b) ![z0, z1, z2]).det ≠ 0 := by
    have := hb.2
    rw [Matrix.det_fin_three] at this
    have e : (compose ![0, 0, 0] (blazeMat b) ![z0, z1, z2]).det = z0 * z1 * z2 * (blazeMat b).det := by
      simp [compose, Matrix.det_succ_row_zero, Fin.sum_univ_succ, Fin.succAbove]
      ring
    rw [e, hb.2]
    positivity
  have hp : parsePosition [("zoom", .vec [z0, z1, z2]), ("orientation", .mat3 (blazeMat b)),
        ("name", .str ("Elem " ++ toString k ++ " in " ++ "GAS"))] =
      .ok (compose ![0, 0, 0] (blazeMat b) ![z0, z1, z2], [("name", .str ("Elem " ++ toString k ++ " in " ++ "GAS"))]) := by
    have g1 : ¬ (z0 ≤ 0 ∨ z1 ≤ 0 ∨ z2 ≤ 0) := by push Not; exact ⟨h0, h1, h2⟩
    simp [parsePosition, Kwargs.get?, zoomOf, positionOf, orientationOf, g1, hdet, Kwargs.pop]
  have hz : ∀ i, 0 < (![z0, z1, z2] : Fin 3 → ℝ) i := by intro i; fin_cases i <;> simpa
  have one : (1 : M4) = compose 0 1 1 := by
    ext i j; fin_cases i <;> fin_cases j <;> simp [compose]
  have d1 := hdec ![0, 0, 0] _ _ hb hz
  have d2 := hdec t r ![1, 1, 1] hr (by intro i; fin_cases i <;> simp)
  have d3 : dec 1 = ⟨0, 1, 1, 0⟩ := by rw [one]; exact hdec 0 1 1 isRotation_one (by simp)
  have hu : (gratingPar ms z0 z1 z2 b).elemUncertainty[k]? = some 1 := by
    have := (List.getElem?_eq_some_iff.1 hk).1
    simp [gratingPar, List.getElem?_replicate, this]
  have hk' : (gratingPar ms z0 z1 z2 b).elemPos[k]? = some (compose t r ![1, 1, 1]) := hk
  refine ⟨_, by simp only [genOne, he, hp, d1, hk', hu, d2, d3, ne_eq, not_true_eq_false, if_false]; rfl, ?_⟩
  simp only [placeElem, List.reverse_cons, List.reverse_nil, List.nil_append, List.cons_append, List.foldl_cons,
    List.foldl_nil, gratingPar]
  have i1 : translation2aff 0 = 1 := by ext i j; fin_cases i <;> fin_cases j <;> simp [translation2aff]
  have i2 : mat2aff 1 = 1 := by ext i j; fin_cases i <;> fin_cases j <;> simp [mat2aff]
  have i3 : zoom2aff 1 = 1 := by ext i j; fin_cases i <;> fin_cases j <;> simp [zoom2aff]
  have i4 : zoom2aff ![1, 1, 1] = 1 := by ext i j; fin_cases i <;> fin_cases j <;> simp [zoom2aff]
  have i5 : translation2aff ![0, 0, 0] = 1 := by ext i j; fin_cases i <;> fin_cases j <;> simp [translation2aff]
  simp only [i1, i2, i3, i4, i5, Matrix.one_mul, Matrix.mul_one]
  ext i j
  fin_cases i <;> fin_cases j <;>
    simp [compose, translation2aff, mat2aff, zoom2aff, Matrix.mul_apply, Fin.sum_univ_succ] <;> ring

/-- The gratings of the array: the bases of the grating are the axes of the place, turned by the blaze angle. -/
theorem gas_elements {dec : M4 → Decomp} (hdec : DecExact dec) (pts : List V3) (n s : H4) (hn : n.w = 0 ∨ n.w = 1)
    (hs : s.w = 0 ∨ s.w = 1) (h : ∀ p ∈ pts, TwoDirections (meant n p) (meant s p)) {z0 z1 z2 : ℝ} (h0 : 0 < z0)
    (h1 : 0 < z1) (h2 : 0 < z2) (b : ℝ) :
    ∃ es, gasElements dec (pts.map V3.toPoint) [n.x, n.y, n.z, n.w] [s.x, s.y, s.z, s.w] z0 z1 z2 b = .ok es ∧
      es.length = pts.length ∧ ∀ (i : ℕ) (e : GenElem), es[i]? = some e → ∃ (p : V3) (m : M4), pts[i]? = some p ∧
        PlacedAs m p (meant n p) (meant s p) ∧ e.pos4d = compose ![p.x, p.y, p.z] (rotPart m * blazeMat b) ![z0, z1, z2] := by
  obtain ⟨ms, e1, e2⟩ := C98_coordinates_partial pts n s hn hs h
  have hlen := e2.length_eq
  have hget : ∀ (i : ℕ) (hi : i < pts.length), PlacedAs (ms[i]'(hlen ▸ hi)) pts[i] (meant n pts[i]) (meant s pts[i]) := by
    intro i hi
    have := (List.forall₂_iff_get.1 e2).2 i hi (hlen ▸ hi)
    simpa using this
  have hm : (ms.map some).mapM (m := Option) id = some ms := by
    clear e1 e2 hlen hget
    induction ms with
    | nil => rfl
    | cons a l ih => rw [List.map_cons, List.mapM_cons, ih]; rfl
  obtain ⟨es, g1, g2, g3⟩ := genFrom_exists (dec := dec) (c := gratingPar ms z0 z1 z2 b)
    (fun k e => ∃ (p : V3) (m : M4), pts[k]? = some p ∧ PlacedAs m p (meant n p) (meant s p) ∧
      e.pos4d = compose ![p.x, p.y, p.z] (rotPart m * blazeMat b) ![z0, z1, z2]) 0 ms.length (by
      intro k hk
      rw [zero_add]
      have hk' : k < pts.length := hlen ▸ hk
      have hp := hget k hk'
      obtain ⟨c1, c2⟩ := placed_compose hp
      obtain ⟨e, f1, f2⟩ := gas_genOne hdec (b := b) h0 h1 h2 (k := k) (ms := ms) c1
        (by rw [List.getElem?_eq_getElem hk]; exact congrArg some c2)
      exact ⟨e, f1, _, _, List.getElem?_eq_getElem hk', hp, f2⟩)
  refine ⟨es, ?_, by rw [g2, hlen], fun i e he => by simpa using g3 i e he⟩
  simp only [gasElements, e1, hm, generateElements]
  exact g1

/-- Unit vectors of the grating. -/
theorem gas_bases {m : M4} {p n s : V3} (h : PlacedAs m p n s) {z0 z1 z2 : ℝ} (h0 : 0 < z0) (h1 : 0 < z1) (h2 : 0 < z2)
    (b : ℝ) :
    planeBases (compose ![p.x, p.y, p.z] (rotPart m * blazeMat b) ![z0, z1, z2]) =
      ((Real.sin b • (vX m).xyz + Real.cos b • (vY m).xyz).toDir, (vZ m).xyz.toDir,
       (Real.cos b • (vX m).xyz - Real.sin b • (vY m).xyz).toDir) := by
  have hc := h.rigid
  have key : ∀ (z : ℝ) (v : V3), 0 < z → v.dot v = 1 → (⟨v.x * z, v.y * z, v.z * z, 0⟩ : H4).unit = v.toDir := by
    intro z v hz hv
    have hn : (⟨v.x * z, v.y * z, v.z * z, 0⟩ : H4).norm = z := by
      rw [H4.norm]
      have : (⟨v.x * z, v.y * z, v.z * z, 0⟩ : H4).dot ⟨v.x * z, v.y * z, v.z * z, 0⟩ = z ^ 2 := by
        simp only [H4.dot, V3.dot] at *
        linear_combination z ^ 2 * hv
      rw [this, Real.sqrt_sq hz.le]
    rw [H4.unit, hn]
    ext <;> simp [V3.toDir] <;> field_simp
  obtain ⟨-, x1, x2, x3, x4, x5, x6⟩ := hc
  have x4' := (V3.dot_comm (vY m).xyz (vX m).xyz).trans x4
  have hs := Real.sin_sq_add_cos_sq b
  have ey : vY (compose ![p.x, p.y, p.z] (rotPart m * blazeMat b) ![z0, z1, z2]) =
      ⟨(Real.sin b • (vX m).xyz + Real.cos b • (vY m).xyz).x * z1, (Real.sin b • (vX m).xyz + Real.cos b • (vY m).xyz).y * z1,
       (Real.sin b • (vX m).xyz + Real.cos b • (vY m).xyz).z * z1, 0⟩ := by
    ext <;> simp [vY, col, compose, blazeMat, rotz_apply, rotPart, Matrix.mul_apply, Fin.sum_univ_three, vX, H4.xyz,
      -mul_eq_mul_right_iff] <;> ring
  have ex : vX (compose ![p.x, p.y, p.z] (rotPart m * blazeMat b) ![z0, z1, z2]) =
      ⟨(Real.cos b • (vX m).xyz - Real.sin b • (vY m).xyz).x * z0, (Real.cos b • (vX m).xyz - Real.sin b • (vY m).xyz).y * z0,
       (Real.cos b • (vX m).xyz - Real.sin b • (vY m).xyz).z * z0, 0⟩ := by
    ext <;> simp [vY, col, compose, blazeMat, rotz_apply, rotPart, Matrix.mul_apply, Fin.sum_univ_three, vX, H4.xyz,
      -mul_eq_mul_right_iff] <;> ring
  have ez : vZ (compose ![p.x, p.y, p.z] (rotPart m * blazeMat b) ![z0, z1, z2]) =
      ⟨(vZ m).xyz.x * z2, (vZ m).xyz.y * z2, (vZ m).xyz.z * z2, 0⟩ := by
    ext <;> simp [vZ, col, compose, blazeMat, rotz_apply, rotPart, Matrix.mul_apply, Fin.sum_univ_three, H4.xyz]
  simp only [planeBases, eX, eY, eZ, ex, ey, ez]
  rw [key z1 _ h1, key z2 _ h2, key z0 _ h0]
  · simp only [V3.dot_sub_left, V3.dot_sub_right, V3.dot_smul_left, V3.dot_smul_right, x1, x2, x4, x4']
    linear_combination hs
  · simpa using x3
  · simp only [V3.dot_add_left, V3.dot_add_right, V3.dot_smul_left, V3.dot_smul_right, x1, x2, x4, x4']
    linear_combination hs

/-- Diffraction of a photon on its way to the focal point, in the axes of the place of the grating. -/
theorem gas_diffract {m : M4} {p n s : V3} (h : PlacedAs m p n s) {z0 z1 z2 : ℝ} (h0 : 0 < z0) (h1 : 0 < z1) (h2 : 0 < z2)
    {b : ℝ} (hb : 0 < Real.cos b) {e : GenElem} (he : e.pos4d = compose ![p.x, p.y, p.z] (rotPart m * blazeMat b) ![z0, z1, z2])
    {d E : ℝ} (hd : d ≠ 0) (hE : E ≠ 0) {sign : H4 → H4 → ℝ} {s0 : ℝ}
    (hs : ∀ u v : H4, u.dot v = Real.sin b → sign u v = s0) (order : ℝ → H4 → Option ℝ → ℤ × ℝ) {dir : H4}
    (hdir : dir.dot dir ≠ 0) (hu : dir.unit = (-(vX m).xyz).toDir) (pol : H4) (coo : ℝ × ℝ) {q : H4}
    (hq : ((gasGrating e d order sign).diffract dir pol E coo).dir = some q) :
    let g := Real.sin b + s0 * (((gasGrating e d order sign).diffract dir pol E coo).m * (energy2wave / E) / d)
    0 ≤ 1 - g ^ 2 ∧ q = ((-(g * Real.sin b + Real.sqrt (1 - g ^ 2) * Real.cos b)) • (vX m).xyz +
      (Real.sqrt (1 - g ^ 2) * Real.sin b - g * Real.cos b) • (vY m).xyz).toDir := by
  intro g
  obtain ⟨-, x1, x2, x3, x4, x5, x6⟩ := h.rigid
  have x4' := (V3.dot_comm (vY m).xyz (vX m).xyz).trans x4
  have hsc := Real.sin_sq_add_cos_sq b
  rw [diffract_dir_eq _ _ _ _ _ hdir hE (by exact hd)] at hq
  have hfr : (gasGrating e d order sign).frame coo = ((vZ m).xyz.toDir, (Real.sin b • (vX m).xyz + Real.cos b • (vY m).xyz).toDir,
      (Real.cos b • (vX m).xyz - Real.sin b • (vY m).xyz).toDir) := by
    simp only [Grating.frame, gasGrating, he, gas_bases h h0 h1 h2 b]
    refine Prod.ext ?_ (Prod.ext ?_ rfl)
    · ext <;> simp [V3.toDir]
    · ext <;> simp [V3.toDir]
  rw [hfr, hu] at hq
  obtain ⟨M, hM⟩ : ∃ M, M = ((gasGrating e d order sign).diffract dir pol E coo).m := ⟨_, rfl⟩
  rw [← hM] at hq
  have p1 : ((-(vX m).xyz).toDir).dot (-(Real.sin b • (vX m).xyz + Real.cos b • (vY m).xyz).toDir) = Real.sin b := by
    simp only [H4.dot, V3.toDir, V3.dot, V3.neg_x, V3.neg_y, V3.neg_z, H4.neg_x, H4.neg_y, H4.neg_z, H4.neg_w, V3.add_x, V3.add_y,
      V3.add_z, V3.smul_x, V3.smul_y, V3.smul_z] at *
    linear_combination Real.sin b * x1 + Real.cos b * x4
  have p2 : ((-(vX m).xyz).toDir).dot (vZ m).xyz.toDir = 0 := by
    simp only [H4.dot, V3.toDir, V3.dot, V3.neg_x, V3.neg_y, V3.neg_z] at *
    linear_combination - x5
  have p3 : ((-(vX m).xyz).toDir).dot (Real.cos b • (vX m).xyz - Real.sin b • (vY m).xyz).toDir = - Real.cos b := by
    simp only [H4.dot, V3.toDir, V3.dot, V3.neg_x, V3.neg_y, V3.neg_z, V3.sub_x, V3.sub_y,
      V3.sub_z, V3.smul_x, V3.smul_y, V3.smul_z] at *
    linear_combination -Real.cos b * x1 + Real.sin b * x4
  simp only [diffractDir, gasGrating, p1, p2, p3, hs _ _ p1] at hq
  have hg : Real.sin b + s0 * M * (energy2wave / E) / d = g := by simp only [g, ← hM]; ring
  rw [hg] at hq
  have hsg : Real.sign (-Real.cos b) = -1 := Real.sign_of_neg (by linarith)
  simp only [hsg, if_true] at hq
  split at hq
  · cases hq
  rename_i hnn
  have hnn' : 0 ≤ 1 - g ^ 2 := by
    push Not at hnn
    linarith
  refine ⟨hnn', ?_⟩
  injection hq with hq
  rw [← hq]
  have e0 : 1 - g ^ 2 - 0 ^ 2 = 1 - g ^ 2 := by ring
  rw [e0]
  ext <;> simp [V3.toDir] <;> ring

theorem focus_unit {m : M4} {p n s : V3} (h : PlacedAs m p n s) {k : ℝ} (hk : 0 < k) (hn : n ≠ 0) :
    (k • -n).toDir.dot (k • -n).toDir ≠ 0 ∧ (k • -n).toDir.unit = (-(vX m).xyz).toDir ∧ (-n).unit = -(vX m).xyz := by
  obtain ⟨c, hc, hx⟩ := h.x
  have hxx := h.rigid.xx
  have hnn := V3.dot_self_pos hn
  have hcn : c ^ 2 * n.dot n = 1 := by
    rw [hx, V3.dot_smul_smul] at hxx; linarith
  have hnorm : n.norm = c⁻¹ := by
    rw [V3.norm]
    have : n.dot n = (c⁻¹) ^ 2 := by field_simp; linarith
    rw [this, Real.sqrt_sq (inv_pos.2 hc).le]
  have e1 : (k • -n).toDir.dot (k • -n).toDir = k ^ 2 * n.dot n := by
    simp only [H4.dot, V3.toDir, V3.dot, V3.smul_x, V3.smul_y, V3.smul_z, V3.neg_x, V3.neg_y, V3.neg_z]; ring
  have e2 : (k • -n).toDir.norm = k * c⁻¹ := by
    rw [H4.norm, e1]
    have : k ^ 2 * n.dot n = (k * c⁻¹) ^ 2 := by field_simp; linarith
    rw [this, Real.sqrt_sq (mul_pos hk (inv_pos.2 hc)).le]
  refine ⟨by rw [e1]; positivity, ?_, ?_⟩
  · rw [H4.unit, e2, hx]
    ext <;> simp [V3.toDir] <;> field_simp
  · have : (-n).norm = c⁻¹ := by
      rw [← hnorm, V3.norm, V3.norm]; congr 1; simp [V3.dot]
    rw [V3.unit, this, hx]
    ext <;> simp

/-- Sign with which the order enters for a photon that arrives at the blaze angle. -/
theorem sign_const {sign : H4 → H4 → ℝ} (hs : sign = flatSign ∨ sign = catSign) (b : ℝ) :
    ∃ s0 : ℝ, ∀ u v : H4, u.dot v = Real.sin b → sign u v = s0 := by
  rcases hs with rfl | rfl
  · exact ⟨-1, fun _ _ _ => rfl⟩
  · exact ⟨if Real.sign (Real.sin b) = 0 then 1 else Real.sign (Real.sin b), fun u v h => by simp only [catSign, h]⟩

theorem meridian_focus (t : Torus) (yF phi : ℝ) : meridianPoint t 0 yF phi = meridianPoint t 0 yF 0 := by
  simp [meridianPoint]

/-- **C146** The Rowland principle. A torus is placed anywhere in space, and the focal point `F` is on its axis and on the
Rowland circle. Gratings are placed on the torus, anywhere on the outside of the axis, looking at the focal point, with the
y axis in the meridian plane, and all are turned by the same blaze angle. The photons are on their way to the focal point.
Then for each order and each energy there is one point on the Rowland circle (the same for all gratings) to which all
photons go, in the meridian plane of their grating, and the distance of this point from the focal point follows from the
angle of diffraction. It lies ahead of the photons, as long as they are not turned around so far that the chord to this point
is longer than the way from the grating to the focal point. -/
theorem C146_rowland_focus {dec : M4 → Decomp} (hdec : DecExact dec) (t : Torus) (ht : Conformal t.pos4d 1) (yF : ℝ)
    (hF : OnCircle t 0 yF) (side : V3) (pts : List V3) (F : V3) (hF' : F = meridianPoint t 0 yF 0)
    (hpts : ∀ p ∈ pts, InMeridian t F p side ∧ TwoDirections (p - F) side)
    {z0 z1 z2 : ℝ} (h0 : 0 < z0) (h1 : 0 < z1) (h2 : 0 < z2) {blaze : ℝ} (hb : 0 < Real.cos blaze) :
    ∃ es, gasElements dec (pts.map V3.toPoint) [F.x, F.y, F.z, 1] [side.x, side.y, side.z, 0] z0 z1 z2 blaze = .ok es ∧
      es.length = pts.length ∧
      ∀ (sign : H4 → H4 → ℝ), sign = flatSign ∨ sign = catSign → ∀ (d E : ℝ) (m : ℤ), d ≠ 0 → E ≠ 0 →
        ∃ rhoG yG : ℝ, OnCircle t rhoG yG ∧
          ∀ (i : ℕ) (e : GenElem) (rho y phi : ℝ), es[i]? = some e → pts[i]? = some (meridianPoint t rho y phi) →
            0 < rho → OnCircle t rho y →
            ∀ (order : ℝ → H4 → Option ℝ → ℤ × ℝ) (pol : H4) (coo : ℝ × ℝ) (k : ℝ) (q : H4), 0 < k →
              ((gasGrating e d order sign).diffract (k • (F - meridianPoint t rho y phi)).toDir pol E coo).m = m →
              ((gasGrating e d order sign).diffract (k • (F - meridianPoint t rho y phi)).toDir pol E coo).dir = some q →
              q.w = 0 ∧
              (meridianPoint t rhoG yG phi - F).dot (meridianPoint t rhoG yG phi - F) =
                4 * t.r ^ 2 * (1 - ((F - meridianPoint t rho y phi).unit.dot q.xyz) ^ 2) ∧
              ∃ l : ℝ, meridianPoint t rho y phi + l • q.xyz = meridianPoint t rhoG yG phi ∧
                (0 < (F - meridianPoint t rho y phi).dot q.xyz →
                  (meridianPoint t rhoG yG phi - F).norm < (F - meridianPoint t rho y phi).norm → 0 < l) := by
  have hmn : ∀ p, meant ⟨F.x, F.y, F.z, 1⟩ p = p - F := by intro p; simp [meant, H4.xyz]
  have hms : ∀ p, meant ⟨side.x, side.y, side.z, 0⟩ p = side := by intro p; simp [meant, H4.xyz]
  obtain ⟨es, g1, g2, g3⟩ := gas_elements hdec pts ⟨F.x, F.y, F.z, 1⟩ ⟨side.x, side.y, side.z, 0⟩ (.inr rfl) (.inl rfl)
    (by intro p hp; rw [hmn, hms]; exact (hpts p hp).2) h0 h1 h2 blaze
  refine ⟨es, g1, g2, ?_⟩
  intro sign hs d E M hd hE
  obtain ⟨s0, hs0⟩ := sign_const hs blaze
  set g := Real.sin blaze + s0 * (M * (energy2wave / E) / d) with hg
  by_cases hev : 0 ≤ 1 - g ^ 2
  swap
  · refine ⟨0, yF, hF, ?_⟩
    intro i e rho y phi he hp hrho hc order pol coo k q hk hm hq
    exfalso
    obtain ⟨p, m, e1, e2, e3⟩ := g3 i e he
    rw [hp] at e1
    cases e1
    rw [hmn, hms] at e2
    have hmem := List.mem_of_getElem? hp
    have hflip : F - meridianPoint t rho y phi = -(meridianPoint t rho y phi - F) := by ext <;> simp
    obtain ⟨f1, f2, -⟩ := focus_unit e2 hk (hpts _ hmem).2.1
    rw [hflip] at hq hm
    have := (gas_diffract e2 h0 h1 h2 hb e3 hd hE hs0 order f1 f2 pol coo hq).1
    rw [hm] at this
    exact hev this
  set A := g * Real.sin blaze + Real.sqrt (1 - g ^ 2) * Real.cos blaze with hA
  set B := Real.sqrt (1 - g ^ 2) * Real.sin blaze - g * Real.cos blaze with hB
  have hAB : A ^ 2 + B ^ 2 = 1 := by
    have hsq := Real.sq_sqrt hev
    have hsc := Real.sin_sq_add_cos_sq blaze
    rw [hA, hB]
    linear_combination hsq + (g ^ 2 + Real.sqrt (1 - g ^ 2) ^ 2) * hsc
  have hF2 : t.R ^ 2 + yF ^ 2 = t.r ^ 2 := by
    have := hF
    simp only [OnCircle] at this
    linarith
  refine ⟨2 * B * (B * t.R + A * yF), yF + 2 * B * (A * t.R - B * yF), ?_, ?_⟩
  · simp only [OnCircle]
    linear_combination (4 * B ^ 2 * (t.R ^ 2 + yF ^ 2)) * hAB + hF2
  intro i e rho y phi he hp hrho hc order pol coo k q hk hm hq
  obtain ⟨p, m, e1, e2, e3⟩ := g3 i e he
  rw [hp] at e1
  cases e1
  rw [hmn, hms] at e2
  have hmem := List.mem_of_getElem? hp
  have hflip : F - meridianPoint t rho y phi = -(meridianPoint t rho y phi - F) := by ext <;> simp
  obtain ⟨f1, f2, f3⟩ := focus_unit e2 hk (hpts _ hmem).2.1
  rw [hflip] at hq hm ⊢
  have hq' := (gas_diffract e2 h0 h1 h2 hb e3 hd hE hs0 order f1 f2 pol coo hq).2
  rw [hm, ← hg, ← hA, ← hB] at hq'
  have hFphi : F = meridianPoint t 0 yF phi := hF'.trans (meridian_focus t yF phi).symm
  have hside := (hpts _ hmem).1
  rw [hFphi] at hside e2
  obtain ⟨kk, c, s, k1, k2, k3, k4, k5, k6⟩ := grating_axes ht hrho hside e2
  obtain ⟨l, l1, l2, l3⟩ := inscribed_angle hF2 hc k1 k2 k3 k4 hAB
  obtain ⟨u1, u2, u3⟩ := meridian_frame ht phi
  have u3' : (torusAxis t).dot (meridianDir t phi) = 0 := by rw [V3.dot_comm]; exact u3
  have hqv : q.xyz = (-A * c - B * s) • meridianDir t phi + (-A * s + B * c) • torusAxis t := by
    rw [hq', k5, k6]
    ext <;> simp [V3.toDir, H4.xyz] <;> ring
  have hdot : (-(meridianPoint t rho y phi - F)).unit.dot q.xyz = A := by
    rw [f3, k5, hqv]
    have : -(c • meridianDir t phi + s • torusAxis t) = (-c) • meridianDir t phi + (-s) • torusAxis t := by ext <;> simp <;> ring
    rw [this]
    simp only [V3.dot_add_left, V3.dot_add_right, V3.dot_smul_left, V3.dot_smul_right, u1, u2, u3, u3']
    linear_combination A * k4
  have hGF : meridianPoint t (2 * B * (B * t.R + A * yF)) (yF + 2 * B * (A * t.R - B * yF)) phi - F =
      (2 * B * (B * t.R + A * yF)) • meridianDir t phi + (2 * B * (A * t.R - B * yF)) • torusAxis t := by
    rw [hFphi, meridianPoint_eq, meridianPoint_eq]
    ext <;> simp <;> ring
  have hGG : (meridianPoint t (2 * B * (B * t.R + A * yF)) (yF + 2 * B * (A * t.R - B * yF)) phi - F).dot
      (meridianPoint t (2 * B * (B * t.R + A * yF)) (yF + 2 * B * (A * t.R - B * yF)) phi - F) = 4 * t.r ^ 2 * (1 - A ^ 2) := by
    rw [hGF]
    simp only [V3.dot_add_left, V3.dot_add_right, V3.dot_smul_left, V3.dot_smul_right, u1, u2, u3, u3']
    linear_combination (4 * B ^ 2 * (t.R ^ 2 + yF ^ 2) + 4 * t.r ^ 2) * hAB + 4 * B ^ 2 * hF2
  refine ⟨by rw [hq']; rfl, by rw [hdot]; exact hGG, l, ?_, ?_⟩
  · rw [hqv, meridianPoint_eq, meridianPoint_eq, ← l1, ← l2]
    ext <;> simp <;> ring
  · intro hpos hlt
    have hPF : (meridianPoint t rho y phi - F).dot (meridianPoint t rho y phi - F) = kk ^ 2 := by
      have : meridianPoint t rho y phi - F = (kk * c) • meridianDir t phi + (kk * s) • torusAxis t := by
        rw [hFphi, meridianPoint_eq, meridianPoint_eq, k2, k3]
        ext <;> simp <;> ring
      rw [this]
      simp only [V3.dot_add_left, V3.dot_add_right, V3.dot_smul_left, V3.dot_smul_right, u1, u2, u3, u3']
      linear_combination kk ^ 2 * k4
    have hne := (hpts _ hmem).2.1
    refine l3 ?_ ?_
    · have hn : -(meridianPoint t rho y phi - F) ≠ 0 := by
        intro h'
        apply hne
        have : -(-(meridianPoint t rho y phi - F)) = 0 := by rw [h']; ext <;> simp
        rw [← this]; ext <;> simp
      rw [← hdot, V3.unit, V3.dot_smul_left]
      exact mul_pos (one_div_pos.2 (V3.norm_pos hn)) hpos
    · rw [← hGG, ← hPF, ← V3.norm_sq, ← V3.norm_sq]
      have hn : (-(meridianPoint t rho y phi - F)).norm = (meridianPoint t rho y phi - F).norm := by
        rw [V3.norm, V3.norm]; congr 1; simp only [V3.dot, V3.neg_x, V3.neg_y, V3.neg_z]; ring
      rw [hn] at hlt
      exact pow_lt_pow_left₀ hlt (V3.norm_nonneg _) (by norm_num)

/-! ## The tilted torus of the missions -/

/-- The points of the meridian plane z = 0 of the tilted torus, seen from the focal point. -/
theorem tilted_meridian (f alpha beta : ℝ) (ha : Real.cos alpha ≠ 0) (rho y : ℝ) :
    meridianPoint (designTiltedTorus f alpha beta) rho y 0 =
      ⟨rho * Real.cos (beta - alpha) + (y + (designTiltedTorus f alpha beta).r * Real.sin beta) * Real.sin (beta - alpha),
       -rho * Real.sin (beta - alpha) + (y + (designTiltedTorus f alpha beta).r * Real.sin beta) * Real.cos (beta - alpha), 0⟩ := by
  obtain ⟨-, -, h1, h2, h3⟩ := tilted_global f alpha beta ha
  have e1 : Real.cos alpha = Real.cos beta * Real.cos (beta - alpha) + Real.sin beta * Real.sin (beta - alpha) := by
    rw [← Real.cos_sub]; congr 1; ring
  have e2 : Real.sin alpha = Real.sin beta * Real.cos (beta - alpha) - Real.cos beta * Real.sin (beta - alpha) := by
    rw [← Real.sin_sub]; congr 1; ring
  rw [meridianPoint, h3, h2, e1, e2]
  ext <;> simp [H4.xyz] <;> ring

theorem tilted_axis (f alpha beta : ℝ) (ha : Real.cos alpha ≠ 0) :
    torusAxis (designTiltedTorus f alpha beta) = ⟨Real.sin (beta - alpha), Real.cos (beta - alpha), 0⟩ := by
  have h1 := tilted_meridian f alpha beta ha 0 1
  have h0 := tilted_meridian f alpha beta ha 0 0
  rw [meridianPoint_eq] at h1 h0
  simp only [V3.ext_iff, V3.add_x, V3.add_y, V3.add_z, V3.smul_x, V3.smul_y, V3.smul_z] at h1 h0
  ext
  · show _ = Real.sin (beta - alpha); linear_combination h1.1 - h0.1
  · show _ = Real.cos (beta - alpha); linear_combination h1.2.1 - h0.2.1
  · show _ = (0 : ℝ); linear_combination h1.2.2 - h0.2.2

/-- **C146** for the grating arrays of the missions (Lynx and AXIS): on the torus of `design_tilted_torus`, with the focal point
in the origin (`normal_spec = [0, 0, 0, 1]`) and `parallel_spec = [0, 1, 0, 0]`, all gratings in the plane z = 0 send photons
of the same order and energy to the same point of the Rowland circle, wherever the gratings are between mirror and focal
point. -/
theorem C146_missions {dec : M4 → Decomp} (hdec : DecExact dec) (f alpha beta : ℝ) (ha : Real.cos alpha ≠ 0) (pts : List V3)
    (hpts : ∀ p ∈ pts, 0 < p.x ∧ TwoDirections p ⟨0, 1, 0⟩ ∧ ∃ rho y : ℝ, 0 < rho ∧
      OnCircle (designTiltedTorus f alpha beta) rho y ∧ p = meridianPoint (designTiltedTorus f alpha beta) rho y 0)
    {z0 z1 z2 : ℝ} (h0 : 0 < z0) (h1 : 0 < z1) (h2 : 0 < z2) {blaze : ℝ} (hb : 0 < Real.cos blaze) :
    ∃ es, gasElements dec (pts.map V3.toPoint) [0, 0, 0, 1] [0, 1, 0, 0] z0 z1 z2 blaze = .ok es ∧ es.length = pts.length ∧
      ∀ (sign : H4 → H4 → ℝ), sign = flatSign ∨ sign = catSign → ∀ (d E : ℝ) (m : ℤ), d ≠ 0 → E ≠ 0 →
        ∃ G : V3, (∃ rhoG yG : ℝ, OnCircle (designTiltedTorus f alpha beta) rhoG yG ∧
            G = meridianPoint (designTiltedTorus f alpha beta) rhoG yG 0) ∧
          ∀ (i : ℕ) (e : GenElem) (p : V3), es[i]? = some e → pts[i]? = some p →
            ∀ (order : ℝ → H4 → Option ℝ → ℤ × ℝ) (pol : H4) (coo : ℝ × ℝ) (k : ℝ) (q : H4), 0 < k →
              ((gasGrating e d order sign).diffract (k • -p).toDir pol E coo).m = m →
              ((gasGrating e d order sign).diffract (k • -p).toDir pol E coo).dir = some q →
              ∃ l : ℝ, p + l • q.xyz = G ∧ (p.dot q.xyz < 0 → G.norm < p.norm → 0 < l) := by
  set t := designTiltedTorus f alpha beta with htdef
  obtain ⟨-, hconf, -, hR, -⟩ := tilted_global f alpha beta ha
  rw [← htdef] at hconf hR
  have hF : (⟨0, 0, 0⟩ : V3) = meridianPoint t 0 (-(t.r * Real.sin beta)) 0 := by
    rw [htdef, tilted_meridian f alpha beta ha]; ext <;> simp
  have hcirc : OnCircle t 0 (-(t.r * Real.sin beta)) := by
    have := Real.sin_sq_add_cos_sq beta
    simp only [OnCircle, hR]
    linear_combination t.r ^ 2 * this
  have hsub : ∀ p : V3, p - ⟨0, 0, 0⟩ = p := by intro p; ext <;> simp
  have hsub' : ∀ p : V3, (⟨0, 0, 0⟩ : V3) - p = -p := by intro p; ext <;> simp
  obtain ⟨es, g1, g2, g3⟩ := C146_rowland_focus hdec t hconf _ hcirc ⟨0, 1, 0⟩ pts ⟨0, 0, 0⟩ hF (by
    intro p hp
    obtain ⟨p1, p2, rho, y, p3, p4, p5⟩ := hpts p hp
    rw [hsub]
    refine ⟨⟨p.x / rho, - Real.sin (beta - alpha) / rho, div_pos p1 p3, ?_⟩, p2⟩
    rw [hsub, htdef, tilted_axis f alpha beta ha, p5, htdef, tilted_meridian f alpha beta ha]
    have hsc := Real.sin_sq_add_cos_sq (beta - alpha)
    ext
    · simp; field_simp; ring
    · simp; field_simp; linear_combination - rho * hsc
    · simp) h0 h1 h2 hb
  refine ⟨es, g1, g2, ?_⟩
  intro sign hs d E m hd hE
  obtain ⟨rhoG, yG, c1, c2⟩ := g3 sign hs d E m hd hE
  refine ⟨_, ⟨rhoG, yG, c1, rfl⟩, ?_⟩
  intro i e p he hp order pol coo k q hk hm hq
  obtain ⟨p1, p2, rho, y, p3, p4, p5⟩ := hpts p (List.mem_of_getElem? hp)
  have := c2 i e rho y 0 he (by rw [hp, p5]) p3 p4 order pol coo k q hk
  rw [← p5, hsub', hsub] at this
  obtain ⟨-, -, l, l1, l2⟩ := this hm hq
  refine ⟨l, l1, fun hneg hlt => l2 ?_ ?_⟩
  · have : (-p).dot q.xyz = - p.dot q.xyz := by simp only [V3.dot, V3.neg_x, V3.neg_y, V3.neg_z]; ring
    rw [this]; linarith
  · have : (-p).norm = p.norm := by rw [V3.norm, V3.norm]; congr 1; simp [V3.dot]
    rwa [this]

/-! The hypotheses can be met: two gratings on the torus of a telescope with focal length 10 m, and a photon which is
diffracted into order 1 by the first of them. -/

example : ∀ p ∈ [(⟨6400, 4800, 0⟩ : V3), ⟨9216, 2688, 0⟩], 0 < p.x ∧ TwoDirections p ⟨0, 1, 0⟩ ∧ ∃ rho y : ℝ, 0 < rho ∧
      OnCircle (designTiltedTorus 10000 0 0) rho y ∧ p = meridianPoint (designTiltedTorus 10000 0 0) rho y 0 := by
  have hr : (designTiltedTorus 10000 0 0).r = 5000 := by simp [designTiltedTorus]; norm_num
  have hR : (designTiltedTorus 10000 0 0).R = 5000 := by simp [designTiltedTorus]; norm_num
  have hy : (⟨0, 1, 0⟩ : V3).unit = ⟨0, 1, 0⟩ := V3.unit_of_unit (by simp [V3.dot])
  have two : ∀ p u : V3, ∀ k : ℝ, 0 < k → u.dot u = 1 → p = k • u → 1 / 100 < u.x → TwoDirections p ⟨0, 1, 0⟩ := by
    intro p u k hk hu hp hx
    have hpu : p.unit = u := by
      have : p.norm = k := by
        rw [hp, V3.norm, V3.dot_smul_smul, hu, mul_one, Real.sqrt_mul_self hk.le]
      rw [V3.unit, this, hp]
      ext <;> simp <;> field_simp
    refine ⟨?_, ?_, ?_⟩
    · intro h
      have := congrArg V3.x h
      rw [hp] at this
      simp at this
      rcases this with h | h <;> linarith
    · intro h; have := congrArg V3.y h; simp at this
    · rw [hpu, hy]
      rintro (h | h) <;> have := h.1 <;> simp [isclose] at this <;> rw [abs_of_pos (by linarith)] at this <;> norm_num at this <;> linarith
  intro p hp
  simp only [List.mem_cons, List.not_mem_nil, or_false] at hp
  rcases hp with rfl | rfl
  · refine ⟨by norm_num, two _ ⟨4 / 5, 3 / 5, 0⟩ 8000 (by norm_num) (by norm_num [V3.dot]) (by ext <;> simp <;> norm_num) (by norm_num),
      6400, 4800, by norm_num, by simp only [OnCircle, hr, hR]; norm_num, ?_⟩
    rw [tilted_meridian 10000 0 0 (by simp)]
    simp
  · refine ⟨by norm_num, two _ ⟨24 / 25, 7 / 25, 0⟩ 9600 (by norm_num) (by norm_num [V3.dot]) (by ext <;> simp <;> norm_num) (by norm_num),
      9216, 2688, by norm_num, by simp only [OnCircle, hr, hR]; norm_num, ?_⟩
    rw [tilted_meridian 10000 0 0 (by simp)]
    simp

example : ∃ q, diffractDir true catSign ⟨-0.8, -0.6, 0, 0⟩ ⟨0, 0, 1, 0⟩ ⟨-0.6, 0.8, 0, 0⟩ ⟨0.8, 0.6, 0, 0⟩ 1 0.5 1 = some q := by
  have : catSign ⟨-0.8, -0.6, 0, 0⟩ (-⟨-0.6, 0.8, 0, 0⟩) = 1 := by
    have : (⟨-0.8, -0.6, 0, 0⟩ : H4).dot (-⟨-0.6, 0.8, 0, 0⟩) = 0 := by simp [H4.dot]; norm_num
    simp [catSign, this]
  simp only [diffractDir, this]
  rw [if_neg]
  · exact ⟨_, rfl⟩
  · simp [H4.dot]; norm_num

end Marxs
