import Verif.Props.Calculated
import Verif.Props.Cylinder
import Verif.Props.Placement
import Verif.Lemmas.H4

/-!
# Properties C100, C101: cylinder on the Rowland circle, table of facets
-/

namespace Marxs
open Matrix

/-! ## C100 -/

theorem rotz_apply (a : ℝ) : rotMat ⟨0, 0, 1⟩ a =
    !![Real.cos a, -Real.sin a, 0; Real.sin a, Real.cos a, 0; 0, 0, 1] := by
  ext i j
  fin_cases i <;> fin_cases j <;> simp [rotMat]

theorem from_rowland_local (t : Torus) (width rotation phi z : ℝ) :
    mul4 (cylinderFromRowland t width rotation) ⟨Real.cos phi, Real.sin phi, z, 1⟩ =
      parametric t (phi + rotation) 0 + (z * width) • vZ t.pos4d := by
  have : (⟨t.R + t.r * Real.cos (phi + rotation), t.r * Real.sin (phi + rotation), z * width, 1⟩ : H4) =
      mul4 (compose ![t.R, 0, 0] (rotMat ⟨0, 0, 1⟩ rotation) ![t.r, t.r, width])
        ⟨Real.cos phi, Real.sin phi, z, 1⟩ := by
    rw [rotz_apply]
    ext <;> simp [mul4, compose, Real.cos_add, Real.sin_add] <;> ring
  rw [cylinderFromRowland, mul4_mul, ← this]
  ext <;> simp [parametric, parametricLocal, mul4, vZ, col] <;> ring

/-- **C100** The cylinder from `from_rowland` stands on the Rowland circle: its surface point with coordinates
`phi`, `z` is the point of the Rowland circle at angle `phi + rotation`, moved by `z` along the z axis of the torus. -/
theorem C100_surface (t : Torus) (width rotation phi z : ℝ) (hw : width ≠ 0) :
    cylSurface (cylinderFromRowland t width rotation) width phi z =
      parametric t (phi + rotation) 0 + z • vZ t.pos4d := by
  rw [cylSurface, from_rowland_local]
  congr 2
  field_simp

/-- **C100** With `z = 0` that are exactly the points of the Rowland circle. -/
theorem C100_circle (t : Torus) (width rotation : ℝ) (hw : width ≠ 0) (e : H4) :
    (∃ phi, cylSurface (cylinderFromRowland t width rotation) width phi 0 = e) ↔
      ∃ th, parametric t th 0 = e := by
  have h : ∀ phi, cylSurface (cylinderFromRowland t width rotation) width phi 0 =
      parametric t (phi + rotation) 0 := by
    intro phi
    rw [C100_surface t width rotation phi 0 hw]
    ext <;> simp
  constructor
  · rintro ⟨phi, rfl⟩
    exact ⟨phi + rotation, (h phi).symm⟩
  · rintro ⟨th, rfl⟩
    exact ⟨th - rotation, by rw [h]; congr 1; ring⟩

/-- **C100** For a torus that is moved and rotated, the cylinder reports the radius of the Rowland circle as `'R'` and
reaches `width` up and down. -/
theorem C100_radius (p : Fin 3 → ℝ) (o : M3) (ho : IsRotation o) (R r width rotation : ℝ) (hr : 0 < r)
    (hw : 0 < width) :
    let m := cylinderFromRowland ⟨R, r, compose p o ![1, 1, 1]⟩ width rotation
    cylinderR m = r ∧ (decompose44 m).z 2 = width ∧ (decompose44 m).s = 0 := by
  intro m
  have hrot : IsRotation (rotMat ⟨0, 0, 1⟩ rotation) := by
    rw [rotz_apply]
    have h := Real.cos_sq_add_sin_sq rotation
    constructor
    · ext i j
      fin_cases i <;> fin_cases j <;> simp [Matrix.mul_apply, Fin.sum_univ_three, Matrix.one_apply] <;>
        nlinarith
    · simp [Matrix.det_fin_three]; nlinarith
  have hmul : IsRotation (o * rotMat ⟨0, 0, 1⟩ rotation) := by
    refine ⟨?_, by rw [Matrix.det_mul, ho.2, hrot.2, one_mul]⟩
    rw [Matrix.transpose_mul, Matrix.mul_assoc, ← Matrix.mul_assoc oᵀ, ho.1, Matrix.one_mul, hrot.1]
  have hm : m = compose (fun i => o i 0 * R + p i) (o * rotMat ⟨0, 0, 1⟩ rotation) ![r, r, width] := by
    simp only [m, cylinderFromRowland]
    ext i j
    fin_cases i <;> fin_cases j <;>
      simp [compose, Matrix.mul_apply, Fin.sum_univ_four, Fin.sum_univ_three] <;> ring
  have := decompose44_exact (fun i => o i 0 * R + p i) _ ![r, r, width] hmul (by
    intro k; fin_cases k <;> simp [hr, hw])
  rw [cylinderR, hm, this]
  exact ⟨rfl, rfl, rfl⟩

/-- **C100** Where a photon is detected on this cylinder: the reported position is on the (extruded) Rowland circle at
the angle `phi + rotation`, at most `width` above or below; and the pixel coordinates are the arc
length along the Rowland circle from the position `rotation`, and the height, in units of the pixel size. -/
theorem C100_hit (p : Fin 3 → ℝ) (o : M3) (ho : IsRotation o) (R r width rotation l0 l1 pixsize : ℝ) (hr : 0 < r)
    (hw : 0 < width) (dir pos q : H4) (hd : IsDir dir) (hp : IsPoint pos) (phi z : ℝ)
    (t : Torus) (ht : t = ⟨R, r, compose p o ![1, 1, 1]⟩)
    (hpar : ¬ Parallel3 dir.xyz (vZ t.pos4d).xyz)
    (h : cylIntersect (cylinderFromRowland t width rotation) width l0 l1 dir pos = .ok (some (q, phi, z))) :
    q = parametric t (phi + rotation) 0 + z • vZ t.pos4d ∧ |z| ≤ width ∧ InArc phi l0 l1 ∧
    circDetpix (cylinderR (cylinderFromRowland t width rotation)) pixsize phi z = (r * phi / pixsize, z / pixsize) := by
  set m := cylinderFromRowland t width rotation with hm
  have hR : cylinderR m = r := by rw [hm, ht]; exact (C100_radius p o ho R r width rotation hr hw).1
  have hdet0 : (compose p o ![1, 1, 1]).det ≠ 0 := by
    rw [det_compose, ho.2]; simp [Fin.prod_univ_three]
  have hdetz : (rotMat ⟨0, 0, 1⟩ rotation).det = 1 := by
    rw [rotz_apply]
    have h := Real.cos_sq_add_sin_sq rotation
    simp [Matrix.det_fin_three]; nlinarith
  have hdet : m.det ≠ 0 := by
    rw [hm, cylinderFromRowland, Matrix.det_mul, ht]
    apply mul_ne_zero hdet0
    rw [det_compose, hdetz]
    simp [Fin.prod_univ_three, hr.ne', hw.ne']
  have haff : Affine m := by
    rw [hm, ht]
    simp [Affine, cylinderFromRowland, Matrix.mul_apply, Fin.sum_univ_four, compose]
  have hpar' : (mul4 m⁻¹ dir).x ^ 2 + (mul4 m⁻¹ dir).y ^ 2 ≠ 0 := by
    intro h0
    apply hpar
    have hx : (mul4 m⁻¹ dir).x = 0 := by nlinarith [sq_nonneg (mul4 m⁻¹ dir).x, sq_nonneg (mul4 m⁻¹ dir).y]
    have hy : (mul4 m⁻¹ dir).y = 0 := by nlinarith [sq_nonneg (mul4 m⁻¹ dir).x, sq_nonneg (mul4 m⁻¹ dir).y]
    have hw0 : (mul4 m⁻¹ dir).w = 0 := by rw [inv_w ⟨haff, hdet⟩]; exact hd
    have e : dir = mul4 m ⟨0, 0, (mul4 m⁻¹ dir).z, 0⟩ := by
      conv_lhs => rw [← mul4_inv hdet dir]
      congr 1
      ext <;> simp [hx, hy, hw0]
    generalize (mul4 m⁻¹ dir).z = c at e
    have e2 : dir.xyz = (c * width) • (vZ t.pos4d).xyz := by
      rw [e, hm, cylinderFromRowland, mul4_mul, rotz_apply]
      ext <;> simp [mul4, compose, vZ, col, H4.xyz] <;> ring
    rw [Parallel3, e2]
    ext <;> simp <;> ring
  obtain ⟨res, h1, h2, _⟩ := C11_global m hdet haff width l0 l1 dir pos hd hp hpar'
  rw [h] at h1
  have hres := (Except.ok.inj h1).symm
  obtain ⟨s, _, hq, ⟨hmz, phi', c1, c2, harc⟩, _, hloc, hz⟩ := h2 q phi z hres
  have hqw : q.w = 1 := by
    rw [hq]
    simp only [H4.add_w, H4.smul_w]
    unfold IsDir at hd; unfold IsPoint at hp
    rw [hd, hp]; ring
  have hql : mul4 m⁻¹ q = ⟨Real.cos phi, Real.sin phi, (mul4 m⁻¹ q).z, 1⟩ := by
    have e1 := congrArg V3.x hloc
    have e2 := congrArg V3.y hloc
    ext
    · exact e1
    · exact e2
    · rfl
    · rw [inv_w ⟨haff, hdet⟩, hqw]
  refine ⟨?_, ?_, ?_, ?_⟩
  · conv_lhs => rw [← mul4_inv hdet q, hql]
    rw [hm, from_rowland_local, ← hm, hz]
  · rw [hz, abs_mul, abs_of_pos hw]
    exact mul_le_of_le_one_left hw.le hmz
  · have hx := congrArg V3.x hloc
    have hy := congrArg V3.y hloc
    have hx' : Real.cos phi' = Real.cos phi := by rw [← c1]; exact hx
    have hy' : Real.sin phi' = Real.sin phi := by rw [← c2]; exact hy
    exact (inArc_congr (sameAngle_of_cos_sin hx' hy')).1 harc
  · rw [circDetpix, hR]
    simp [mul_comm]

/-- A photon that starts in the center of the circle is detected. -/
example : ∃ q phi z, cylIntersect (cylinderFromRowland ⟨2, 1, 1⟩ 1 0) 1 (-Real.pi) Real.pi ⟨1, 0, 0, 0⟩ ⟨2, 0, 0, 1⟩ =
    .ok (some (q, phi, z)) := by
  set m := cylinderFromRowland ⟨2, 1, 1⟩ 1 0 with hm
  have hml : ∀ x y z w : ℝ, mul4 m ⟨x, y, z, w⟩ = ⟨x + 2 * w, y, z, w⟩ := by
    intro x y z w
    rw [hm, cylinderFromRowland, rotz_apply, one_mul]
    ext <;> simp [mul4, compose]
  have hdet : m.det ≠ 0 := by
    rw [hm, cylinderFromRowland, one_mul, det_compose, rotz_apply]
    simp [Matrix.det_fin_three, Fin.prod_univ_three]
  have haff : Affine m := by
    rw [hm, cylinderFromRowland, one_mul]; exact affine_compose _ _ _
  have hinv : ∀ x y z w : ℝ, mul4 m⁻¹ ⟨x + 2 * w, y, z, w⟩ = ⟨x, y, z, w⟩ := fun x y z w => by
    rw [← hml, inv_mul4 hdet]
  have hd : mul4 m⁻¹ ⟨1, 0, 0, 0⟩ = ⟨1, 0, 0, 0⟩ := by simpa using hinv 1 0 0 0
  obtain ⟨res, h1, _, h3⟩ := C11_global m hdet haff 1 (-Real.pi) Real.pi ⟨1, 0, 0, 0⟩ ⟨2, 0, 0, 1⟩ rfl rfl
    (by rw [hd]; norm_num)
  cases res with
  | some r => exact ⟨r.1, r.2.1, r.2.2, h1⟩
  | none =>
    exfalso
    apply h3 rfl 1 (by norm_num)
    have e : (⟨2, 0, 0, 1⟩ + (1 : ℝ) • ⟨1, 0, 0, 0⟩ : H4) = ⟨1 + 2 * 1, 0, 0, 1⟩ := by ext <;> simp <;> norm_num
    rw [e, hinv]
    refine ⟨by simp [H4.xyz], 0, by simp [H4.xyz], by simp [H4.xyz], ?_⟩
    rw [← C12_angle_between]
    exact C12_equal_borders _ _ _ ⟨-1, by push_cast; ring⟩

/-! ## C101 -/

theorem projectOnto_ok (pl : ProjPlane) (h : Affine pl.pos4d) (pos : List H4) (hp : ∀ p ∈ pos, p.w = 1) :
    projectOnto pl pos = .ok
      ((pl.names.1, pos.map fun p => (-(center pl.pos4d).xyz + p.xyz).dot (eY pl.pos4d).xyz),
       (pl.names.2, pos.map fun p => (-(center pl.pos4d).xyz + p.xyz).dot (eZ pl.pos4d).xyz)) := by
  have e1 : h2e [center pl.pos4d] = .ok [(center pl.pos4d).xyz] := h2e_point h.2.2.2
  have e2 : h2e [eY pl.pos4d] = .ok [(eY pl.pos4d).xyz] := h2e_dir (H4.unit_w h.2.1)
  have e3 : h2e [eZ pl.pos4d] = .ok [(eZ pl.pos4d).xyz] := h2e_dir (H4.unit_w h.2.2.1)
  simp only [projectOnto, e1, e2, e3, h2e_points hp, List.map_map]
  rfl

/-- **C101** `ProjectOntoPlane` projects along the normal of the plane: for every position, the point of the plane with
the reported coordinates (in length units, along the y and z axis of the plane, from its center) differs from the
position by a multiple of the normal. -/
theorem C101_projection (pl : ProjPlane) (h : Affine pl.pos4d) (ho : OrthoAxes pl.pos4d) (pos : List H4)
    (hp : ∀ p ∈ pos, IsPoint p) :
    ∃ xs ys, projectOnto pl pos = .ok ((pl.names.1, xs), (pl.names.2, ys)) ∧
      xs.length = pos.length ∧ ys.length = pos.length ∧
      ∀ i (hi : i < pos.length) (hx : i < xs.length) (hy : i < ys.length), ∃ k : ℝ,
        pos[i].xyz = (center pl.pos4d).xyz + xs[i] • (vY pl.pos4d).xyz.unit + ys[i] • (vZ pl.pos4d).xyz.unit +
          k • (vX pl.pos4d).xyz := by
  refine ⟨_, _, projectOnto_ok pl h pos hp, by simp, by simp, ?_⟩
  intro i hi hx hy
  simp only [List.getElem_map]
  set v := -(center pl.pos4d).xyz + pos[i].xyz with hv
  have ey : (eY pl.pos4d).xyz = (vY pl.pos4d).xyz.unit := unit_xyz _ h.2.1
  have ez : (eZ pl.pos4d).xyz = (vZ pl.pos4d).xyz.unit := unit_xyz _ h.2.2.1
  have hexp := ortho_expand (V3.unit_dot_unit ho.x0) (V3.unit_dot_unit ho.y0) (V3.unit_dot_unit ho.z0)
    (by simp [V3.unit, ho.xy]) (by simp [V3.unit, ho.xz]) (by simp [V3.unit, ho.yz]) v
  rw [ey, ez]
  refine ⟨v.dot (vX pl.pos4d).xyz.unit * (1 / (vX pl.pos4d).xyz.norm), ?_⟩
  have h1 := congrArg V3.x hexp
  have h2 := congrArg V3.y hexp
  have h3 := congrArg V3.z hexp
  generalize v.dot (vY pl.pos4d).xyz.unit = a at *
  generalize v.dot (vZ pl.pos4d).xyz.unit = b at *
  generalize v.dot (vX pl.pos4d).xyz.unit = c at *
  generalize (vY pl.pos4d).xyz.unit = Y at *
  generalize (vZ pl.pos4d).xyz.unit = Z at *
  simp only [V3.unit, V3.add_x, V3.add_y, V3.add_z, V3.smul_x, V3.smul_y, V3.smul_z] at h1 h2 h3
  simp only [hv, V3.add_x, V3.add_y, V3.add_z, V3.neg_x, V3.neg_y, V3.neg_z] at h1 h2 h3
  ext
  · simp only [V3.add_x, V3.smul_x]; linarith
  · simp only [V3.add_y, V3.smul_y]; linarith
  · simp only [V3.add_z, V3.smul_z]; linarith

/-- **C101** The projection keeps every distance along the plane: moving a position along the normal does not change
the result. -/
theorem C101_along_normal (pl : ProjPlane) (h : Affine pl.pos4d) (ho : OrthoAxes pl.pos4d) (p : H4) (hp : IsPoint p)
    (k : ℝ) : projectOnto pl [p + k • vX pl.pos4d] = projectOnto pl [p] := by
  have hw : (p + k • vX pl.pos4d).w = 1 := by
    have : (vX pl.pos4d).w = 0 := h.1
    unfold IsPoint at hp
    simp [this, hp]
  rw [projectOnto_ok pl h [p] (by simpa [IsPoint] using hp), projectOnto_ok pl h [p + k • vX pl.pos4d] (by simpa using hw)]
  have ey : (eY pl.pos4d).xyz = (vY pl.pos4d).xyz.unit := unit_xyz _ h.2.1
  have ez : (eZ pl.pos4d).xyz = (vZ pl.pos4d).xyz.unit := unit_xyz _ h.2.2.1
  have hx : (p + k • vX pl.pos4d).xyz = p.xyz + k • (vX pl.pos4d).xyz := rfl
  simp only [List.map_cons, List.map_nil, hx, ey, ez, V3.dot_add_left, V3.dot_smul_left, V3.unit, V3.dot_smul_right,
    ho.xy, ho.xz, mul_zero, add_zero]

/-- **C101** `facet_table` lists every element once, in order, with its id; the polar coordinates belong to the
projected position; and the Cartesian coordinates are those in `elem_pos`. -/
theorem C101_table (elemPos : List M4) (elements : List GenElem) (pl : ProjPlane) (h : Affine pl.pos4d)
    (h0 : elemPos ≠ []) (haff : ∀ m ∈ elemPos, Affine m) (hl : elements.length = elemPos.length) :
    ∃ tab pl', facetTable elemPos elements pl = .ok (tab, pl') ∧ tab.length = elemPos.length ∧
      ∀ i (hi : i < elemPos.length) (ht : i < tab.length),
        tab[i].facet = (elements[i]'(hl ▸ hi)).idNum ∧
        tab[i].xyz = (center elemPos[i]).xyz ∧
        tab[i].projx = ((center elemPos[i]).xyz - (center pl.pos4d).xyz).dot (vY pl.pos4d).xyz.unit ∧
        tab[i].projy = ((center elemPos[i]).xyz - (center pl.pos4d).xyz).dot (vZ pl.pos4d).xyz.unit ∧
        0 ≤ tab[i].rad ∧ -Real.pi < tab[i].ang ∧ tab[i].ang ≤ Real.pi ∧
        tab[i].projx = tab[i].rad * Real.cos tab[i].ang ∧ tab[i].projy = tab[i].rad * Real.sin tab[i].ang := by
  have hpts : ∀ p ∈ elemPos.map center, p.w = 1 := by
    intro p hp
    obtain ⟨m, hm, rfl⟩ := List.mem_map.1 hp
    exact (haff m hm).2.2.2
  have hpr := projectOnto_ok { pl with names := ("facet_projx", "facet_projy") } h (elemPos.map center) hpts
  refine ⟨_, _, by simp only [facetTable, h0, if_false, h2e_points hpts, hpr, hl, ne_eq, not_true_eq_false]; rfl, ?_, ?_⟩
  · simp [hl]
  · intro i hi ht
    have ey : (eY pl.pos4d).xyz = (vY pl.pos4d).xyz.unit := unit_xyz _ h.2.1
    have ez : (eZ pl.pos4d).xyz = (vZ pl.pos4d).xyz.unit := unit_xyz _ h.2.2.1
    have hsub : ∀ a b : V3, -a + b = b - a := by intro a b; ext <;> simp <;> ring
    simp only [List.getElem_zipWith, List.getElem_zip, List.getElem_map, ey, ez, hsub]
    set x := ((center elemPos[i]).xyz - (center pl.pos4d).xyz).dot (vY pl.pos4d).xyz.unit
    set y := ((center elemPos[i]).xyz - (center pl.pos4d).xyz).dot (vZ pl.pos4d).xyz.unit
    have habs : ‖(⟨x, y⟩ : ℂ)‖ = Real.sqrt (y ^ 2 + x ^ 2) := by
      rw [Complex.norm_def, Complex.normSq_mk]; congr 1; ring
    refine ⟨trivial, trivial, trivial, trivial, Real.sqrt_nonneg _, Complex.neg_pi_lt_arg _, Complex.arg_le_pi _, ?_, ?_⟩
    · rw [← habs, arctan2, Complex.norm_mul_cos_arg]
    · rw [← habs, arctan2, Complex.norm_mul_sin_arg]

/-- **C101** (partial: container at the origin.) If the container is not moved and has no uncertainties, these
coordinates are the position of the element in space. -/
theorem C101_position_partial {dec : M4 → Decomp} (hdec : DecExact dec) {c : Par} (hc : c.Plain dec)
    (hpos : c.pos4d = 1) (hunc : c.uncertainty = 1) {es : List GenElem} (h : generateElements dec c = .ok es)
    (pl pl' : ProjPlane) (hpl : Affine pl.pos4d) (tab : List FacetRow)
    (ht : facetTable c.elemPos es pl = .ok (tab, pl')) (i : ℕ) (row : FacetRow) (hr : tab[i]? = some row) :
    ∃ e, es[i]? = some e ∧ row.facet = e.idNum ∧ row.xyz = (center e.pos4d).xyz := by
  obtain ⟨hlen, hget⟩ := genFrom_spec h
  have h0 : c.elemPos ≠ [] := by
    rintro h0
    simp [facetTable, h0] at ht
  have haff : ∀ m ∈ c.elemPos, Affine m := by
    intro m hm
    obtain ⟨t, r, z, _, _, rfl⟩ := hc.pos m hm
    exact affine_compose _ _ _
  obtain ⟨tab', pl'', h1, h2, h3⟩ := C101_table c.elemPos es pl hpl h0 haff hlen
  rw [ht] at h1
  simp only [Except.ok.injEq, Prod.mk.injEq] at h1
  obtain ⟨rfl, _⟩ := h1
  obtain ⟨hi, rfl⟩ := List.getElem?_eq_some_iff.1 hr
  have hi' : i < c.elemPos.length := h2 ▸ hi
  have hie : i < es.length := hlen ▸ hi'
  obtain ⟨k1, k2, _⟩ := h3 i hi' hi
  refine ⟨es[i], by simp [hie], k1, ?_⟩
  have hg := hget i es[i] (by simp [hie])
  rw [zero_add] at hg
  obtain ⟨e, he1, he2⟩ := genOne_plain hdec hc (i := i) (p := c.elemPos[i]) (by simp [hi'])
  rw [he1] at hg
  rw [k2, ← Except.ok.inj hg, he2, hpos, hunc, one_mul, one_mul]

/-- **C101** If the container is moved, the coordinates in the table are not those of the elements: the
table does not change at all, whatever the position of the container, while the elements move with it. -/
theorem C101_moved_false {dec : M4 → Decomp} (hdec : DecExact dec) {c : Par} (hc : c.Plain dec) (d : Fin 3 → ℝ)
    (hpos : c.pos4d = translation2aff d) (hunc : c.uncertainty = 1) (hd : d ≠ 0)
    {es : List GenElem} (h : generateElements dec c = .ok es)
    (pl pl' : ProjPlane) (hpl : Affine pl.pos4d) (tab : List FacetRow)
    (ht : facetTable c.elemPos es pl = .ok (tab, pl')) (i : ℕ) (row : FacetRow) (hr : tab[i]? = some row) :
    ∃ e, es[i]? = some e ∧ row.facet = e.idNum ∧ row.xyz ≠ (center e.pos4d).xyz := by
  obtain ⟨hlen, hget⟩ := genFrom_spec h
  have h0 : c.elemPos ≠ [] := by
    rintro h0
    simp [facetTable, h0] at ht
  have haff : ∀ m ∈ c.elemPos, Affine m := by
    intro m hm
    obtain ⟨t, r, z, _, _, rfl⟩ := hc.pos m hm
    exact affine_compose _ _ _
  obtain ⟨tab', pl'', h1, h2, h3⟩ := C101_table c.elemPos es pl hpl h0 haff hlen
  rw [ht] at h1
  simp only [Except.ok.injEq, Prod.mk.injEq] at h1
  obtain ⟨rfl, _⟩ := h1
  obtain ⟨hi, rfl⟩ := List.getElem?_eq_some_iff.1 hr
  have hi' : i < c.elemPos.length := h2 ▸ hi
  have hie : i < es.length := hlen ▸ hi'
  obtain ⟨k1, k2, _⟩ := h3 i hi' hi
  refine ⟨es[i], by simp [hie], k1, ?_⟩
  have hg := hget i es[i] (by simp [hie])
  rw [zero_add] at hg
  obtain ⟨e, he1, he2⟩ := genOne_plain hdec hc (i := i) (p := c.elemPos[i]) (by simp [hi'])
  rw [he1] at hg
  rw [k2, ← Except.ok.inj hg, he2, hpos, hunc, mul_one]
  have hA := haff c.elemPos[i] (List.getElem_mem _)
  intro heq
  apply hd
  have e1 := congrArg V3.x heq
  have e2 := congrArg V3.y heq
  have e3 := congrArg V3.z heq
  simp [center, col, H4.xyz, translation2aff, Matrix.mul_apply, Fin.sum_univ_four, hA.2.2.2] at e1 e2 e3
  ext k
  fin_cases k
  · exact e1
  · exact e2
  · exact e3

/-- **C101** Side effect: the plane is changed, afterwards it writes its results to other columns. -/
theorem C101_plane_renamed (elemPos : List M4) (elements : List GenElem) (pl pl' : ProjPlane) (tab : List FacetRow)
    (h : facetTable elemPos elements pl = .ok (tab, pl')) :
    pl'.pos4d = pl.pos4d ∧ pl'.names = ("facet_projx", "facet_projy") := by
  unfold facetTable at h
  simp only at h
  split at h
  · cases h
  · split at h
    · split at h
      · cases h
      · cases h
        exact ⟨rfl, rfl⟩
    · cases h
    · cases h

/-- The container of the example for C07 (moved and with rotated elements) meets the hypotheses. -/
example (d : Fin 3 → ℝ) : (exRotated d (translation2aff d)).Plain decompose44 ∧
    ∃ es, generateElements decompose44 (exRotated d (translation2aff d)) = .ok es :=
  ⟨exRotated_plain d _, exRotated_ok d _⟩

end Marxs
