import Verif.Spec.Hetg
import Verif.Props.Grating
import Verif.Props.Spo

/-!
# Property C128: the gratings of Chandra
-/

namespace Marxs
open Matrix Classical

theorem hessShell_outer {loc : String} {ch : Char} {rest : List Char} (h : loc.toList = ch :: rest) (hd : ch.isDigit = true) :
    ∃ k, hessShell loc = .ok k ∧ (k ≤ 3 ↔ ch ∈ ['0', '1', '2', '3']) := by
  refine ⟨ch.toNat - 48, by simp [hessShell, h, hd], ?_⟩
  have h1 : 48 ≤ ch.toNat ∧ ch.toNat ≤ 57 := by
    simp only [Char.isDigit, Bool.and_eq_true, decide_eq_true_eq] at hd
    exact ⟨hd.1, hd.2⟩
  have key : ∀ c : Char, ch = c ↔ ch.toNat = c.toNat := fun c => ⟨fun h => by rw [h], fun h => Char.toNat_inj.1 h⟩
  simp only [List.mem_cons, List.not_mem_nil, or_false, key]
  have e0 : '0'.toNat = 48 := rfl
  have e1 : '1'.toNat = 49 := rfl
  have e2 : '2'.toNat = 50 := rfl
  have e3 : '3'.toNat = 51 := rfl
  rw [e0, e1, e2, e3]
  omega

/-- Matrix of the vectors of a row. -/
def HessRow.rot (r : HessRow) : M3 := !![r.n.x, r.ux.x, r.uy.x; r.n.y, r.ux.y, r.uy.y; r.n.z, r.ux.z, r.uy.z]

theorem HessRow.Ok.rot {r : HessRow} (h : r.Ok) : IsRotation r.rot := by
  have h1 := h.nn; have h2 := h.xx; have h3 := h.nx
  have h4 := h.right
  simp only [V3.dot] at h1 h2 h3
  have yx : r.uy.x = r.n.y * r.ux.z - r.n.z * r.ux.y := by rw [h4]; rfl
  have yy : r.uy.y = r.n.z * r.ux.x - r.n.x * r.ux.z := by rw [h4]; rfl
  have yz : r.uy.z = r.n.x * r.ux.y - r.n.y * r.ux.x := by rw [h4]; rfl
  have key : (r.n.y * r.ux.z - r.n.z * r.ux.y) ^ 2 + (r.n.z * r.ux.x - r.n.x * r.ux.z) ^ 2 +
      (r.n.x * r.ux.y - r.n.y * r.ux.x) ^ 2 = 1 := by
    linear_combination (r.ux.x * r.ux.x + r.ux.y * r.ux.y + r.ux.z * r.ux.z) * h1 + h2 -
      (r.n.x * r.ux.x + r.n.y * r.ux.y + r.n.z * r.ux.z) * h3
  refine ⟨?_, ?_⟩
  · ext i j
    fin_cases i <;> fin_cases j <;> simp [HessRow.rot, Matrix.mul_apply, Fin.sum_univ_succ, yx, yy, yz] <;>
      first | ring1 | linear_combination h1 | linear_combination h2 | linear_combination h3 | linear_combination key
  · simp only [HessRow.rot, Matrix.det_fin_three, yx, yy, yz]
    simp
    linear_combination key

/-- Placement of a row. -/
noncomputable def HessRow.mat (r : HessRow) : M4 :=
  compose ![r.c.x + (339.909 - 1.7) * 25.4, r.c.y, r.c.z] r.rot ![1, r.side / 2, r.side / 2]

theorem HessRow.side_pos (r : HessRow) : 0 < r.side := by rw [HessRow.side]; split <;> norm_num

theorem hessPos_ok {r : HessRow} (h : r.Ok) : hessPos r = .ok r.mat := by
  obtain ⟨ch, rest, h1, h2⟩ := h.loc
  obtain ⟨k, h3, h4⟩ := hessShell_outer h1 h2
  have ho : r.Outer ↔ k ≤ 3 := by
    rw [h4, HessRow.Outer]
    constructor
    · rintro ⟨c', r', e1, e2⟩
      rw [h1] at e1
      simp only [List.cons.injEq] at e1
      rw [e1.1]; exact e2
    · exact fun h => ⟨ch, rest, h1, h⟩
  simp only [hessPos, h3, HessRow.mat, HessRow.side, ho, HessRow.rot]
  split <;> norm_num

theorem HessRow.mat_point (r : HessRow) (p : Fin 3 → ℝ) : r.mat *ᵥ hom p = hom (r.point p) := by
  ext i
  fin_cases i <;>
    simp [HessRow.mat, HessRow.rot, HessRow.point, compose, hom, Matrix.mulVec, dotProduct, Fin.sum_univ_succ] <;> ring

/-- The container after its centre is moved. -/
noncomputable def hetgPar' (T P : M4) (name : String) (os : ℕ) (rows : List HessRow) : Par :=
  ⟨T * P, 1, rows.map fun r => T⁻¹ * r.mat, List.replicate rows.length 1,
    [("order_selector", .obj os), ("d", .list (hetgD.map .num)), ("name", .list (rows.map fun r => .str r.loc)),
     ("groove_angle", .list (rows.map fun r => .num (hessGroove r))), ("id_col", .str "facet")], 0, name⟩

theorem hetgD_length : hetgD.length = 336 := by
  rw [hetgD, List.length_append, List.length_replicate, List.length_replicate]

theorem hetgD_get (k : ℕ) (hk : k < 336) : (hetgD.map PyVal.num)[k]? = some (.num (if k < 192 then 4001.95 * 1e-7 else 2000.81 * 1e-7)) := by
  rw [List.getElem?_map, hetgD, List.getElem?_append]
  simp only [List.length_replicate]
  split
  · rw [List.getElem?_replicate]; simp [*]
  · rw [List.getElem?_replicate]; simp [show k - 192 < 144 by omega]

theorem hetg_genOne (a : Fin 3 → ℝ) (P : M4) (name : String) (os : ℕ) (rows : List HessRow) (hl : rows.length = 336)
    (k : ℕ) (r : HessRow) (hr : rows[k]? = some r) (hok : r.Ok) :
    genOne decompose44 (hetgPar' (translation2aff a) P name os rows) k =
      .ok ⟨translation2aff a * P * translation2aff (-a) * r.mat, k, [("order_selector", .obj os),
        ("d", .num (if k < 192 then 4001.95 * 1e-7 else 2000.81 * 1e-7)), ("name", .str r.loc),
        ("groove_angle", .num (hessGroove r)), ("id_col", .str "facet")]⟩ := by
  have hk : k < rows.length := (List.getElem?_eq_some_iff.1 hr).1
  have hq := genOne_recomposes (c := hetgPar' (translation2aff a) P name os rows) (i := k) (p := translation2aff (-a) * r.mat)
    [("order_selector", .obj os),
        ("d", .num (if k < 192 then 4001.95 * 1e-7 else 2000.81 * 1e-7)), ("name", .str r.loc),
        ("groove_angle", .num (hessGroove r)), ("id_col", .str "facet")] ?_ ?_ ?_ ?_
  · rw [hq]; simp only [hetgPar', Matrix.mul_one, Matrix.mul_assoc, zero_add]
  · have he : addName k (hetgPar' (translation2aff a) P name os rows).name (specificArgs (hetgPar' (translation2aff a) P name os rows).elemPos.length k
        (hetgPar' (translation2aff a) P name os rows).elemArgs) = [("order_selector", .obj os),
        ("d", .num (if k < 192 then 4001.95 * 1e-7 else 2000.81 * 1e-7)), ("name", .str r.loc),
        ("groove_angle", .num (hessGroove r)), ("id_col", .str "facet")] := by
      have := hetgD_get k (by omega)
      simp only [hetgPar', addName, specificArgs, List.map_cons, List.map_nil, List.length_map, hetgD_length, hl, if_true, this,
        List.getElem?_map, hr, Option.map_some, Option.getD_some]
      simp [Kwargs.get?]
    rw [he]
    exact parse_plain' _ (by simp [Kwargs.get?]) (by simp [Kwargs.get?]) (by simp [Kwargs.get?]) (by simp [Kwargs.get?])
  · simp [hetgPar', hk]
  · simp [hetgPar', hr, translation2aff_inv]
  · rw [HessRow.mat, translation_compose]
    refine recomposes_orth _ _ _ hok.rot.1 ?_
    intro i
    have := r.side_pos
    fin_cases i <;> simp <;> positivity

theorem hetg_gen (a : Fin 3 → ℝ) (P : M4) (name : String) (os : ℕ) (rows : List HessRow) (hl : rows.length = 336) (hok : ∀ r ∈ rows, r.Ok) :
    ∃ es, generateElements decompose44 (hetgPar' (translation2aff a) P name os rows) = .ok es ∧ es.length = rows.length ∧
      ∀ (k : ℕ) (e : GenElem), es[k]? = some e → ∃ r, rows[k]? = some r ∧
        e = ⟨translation2aff a * P * translation2aff (-a) * r.mat, k, [("order_selector", .obj os),
          ("d", .num (if k < 192 then 4001.95 * 1e-7 else 2000.81 * 1e-7)), ("name", .str r.loc),
          ("groove_angle", .num (hessGroove r)), ("id_col", .str "facet")]⟩ := by
  obtain ⟨es, h1, h2, h3⟩ := genFrom_exists (dec := decompose44) (c := hetgPar' (translation2aff a) P name os rows)
    (fun k e => ∃ r, rows[k]? = some r ∧
        e = ⟨translation2aff a * P * translation2aff (-a) * r.mat, k, [("order_selector", .obj os),
          ("d", .num (if k < 192 then 4001.95 * 1e-7 else 2000.81 * 1e-7)), ("name", .str r.loc),
          ("groove_angle", .num (hessGroove r)), ("id_col", .str "facet")]⟩) 0 rows.length (by
      intro k hk
      rw [zero_add]
      obtain ⟨r, hr⟩ : ∃ r, rows[k]? = some r := ⟨_, List.getElem?_eq_getElem hk⟩
      exact ⟨_, hetg_genOne a P name os rows hl k r hr (hok r (List.mem_of_getElem? hr)), r, hr, rfl⟩)
  refine ⟨es, ?_, h2, fun k e he => by simpa using h3 k e he⟩
  simp only [generateElements, hetgPar', List.length_map] at h1 ⊢
  exact h1

theorem hessMapM {α β : Type} {f : α → Except Err β} {g : α → β} (l : List α) (h : ∀ a ∈ l, f a = .ok (g a)) :
    l.mapM f = .ok (l.map g) := by
  induction l with
  | nil => rfl
  | cons a l ih =>
    rw [List.mapM_cons, h a (List.mem_cons_self ..), ih fun b hb => h b (List.mem_cons_of_mem _ hb)]; rfl

theorem hetgHinge_eq : hetgHinge = hessHingePoint := by
  have h : 60 * Real.pi / 180 = Real.pi / 3 := by ring
  rw [hetgHinge, hessHingePoint, h, Real.sin_pi_div_three, Real.cos_pi_div_three]
  ext i
  fin_cases i <;> simp <;> ring

/-- **C128** (placement): the HETG has one grating per row of the table, in the order of the table, named and numbered like
them. The grating covers the facet at the place given in the table, with the side that belongs to its shell; a change of the
position of the HETG is applied around its hinge point. -/
theorem C128_placement (P : M4) (hP : P.det ≠ 0) (name : String) (os : ℕ) (rows : List HessRow) (hl : rows.length = 336) (hok : ∀ r ∈ rows, r.Ok) :
    ∃ es, hetg P name os rows = .ok es ∧ es.length = 336 ∧
      ∀ (i : ℕ) (r : HessRow) (e : GenElem), rows[i]? = some r → es[i]? = some e →
        e.idNum = i ∧ e.args.get? "name" = some (.str r.loc) ∧ e.args.get? "id_col" = some (.str "facet") ∧
        e.args.get? "d" = some (.num (if i < 192 then 4001.95 * 1e-7 else 2000.81 * 1e-7)) ∧
        ∀ p, e.pos4d *ᵥ hom p = translation2aff hessHingePoint *ᵥ (P *ᵥ hom (r.point p - hessHingePoint)) := by
  rw [← hetgHinge_eq]
  obtain ⟨es0, g1, _, _⟩ := hetg_gen 0 P name os rows hl hok
  obtain ⟨es, h1, h2, h3⟩ := hetg_gen hetgHinge P name os rows hl hok
  have hps := hessMapM (f := hessPos) (g := HessRow.mat) rows fun r hr => hessPos_ok (hok r hr)
  have e0 : hetgPar P name os rows (rows.map HessRow.mat) = hetgPar' (translation2aff 0) P name os rows := by
    simp only [hetgPar, hetgPar', translation2aff_zero, inv_one, Matrix.one_mul, List.length_map]
  have e1 : moveCenter (hetgPar P name os rows (rows.map HessRow.mat)) (translation2aff hetgHinge) =
      .ok (hetgPar' (translation2aff hetgHinge) P name os rows) := by
    simp only [moveCenter, translation2aff_det, one_ne_zero, if_false, hetgPar, hetgPar', List.map_map, List.length_map]
    rfl
  refine ⟨es, ?_, by rw [h2, hl], ?_⟩
  · simp only [hetg, hps, hP, if_false]
    rw [e1, e0]
    simp only [g1, h1]
  · intro i r e hr he
    obtain ⟨r', hr', rfl⟩ := h3 i e he
    obtain rfl : r' = r := by rw [hr] at hr'; simpa using hr'.symm
    refine ⟨rfl, by simp [Kwargs.get?], by simp [Kwargs.get?], by simp [Kwargs.get?], fun p => ?_⟩
    simp only [← Matrix.mulVec_mulVec]
    rw [HessRow.mat_point, translation_hom', sub_eq_neg_add]

theorem unit_smul_dir {v : V3} (hv : v.dot v = 1) {k : ℝ} (hk : 0 < k) : (k • v).toDir.unit = v.toDir := by
  have hn : ((k • v).toDir : H4).norm = k := by
    simp only [V3.dot] at hv
    simp only [H4.norm, H4.dot, V3.toDir]
    simp
    rw [show k * v.x * (k * v.x) + k * v.y * (k * v.y) + k * v.z * (k * v.z) = k ^ 2 by linear_combination k ^ 2 * hv]
    exact Real.sqrt_sq hk.le
  rw [H4.unit, hn]
  ext <;> simp [V3.toDir] <;> field_simp

theorem HessRow.bases {r : HessRow} (h : r.Ok) : planeBases r.mat = (r.ux.toDir, r.uy.toDir, r.n.toDir) := by
  have hs := r.side_pos
  have hyy : r.uy.dot r.uy = 1 := by
    have h1 := h.nn; have h2 := h.xx; have h3 := h.nx
    rw [h.right]
    simp only [V3.dot, V3.cross] at h1 h2 h3 ⊢
    linear_combination (r.ux.x * r.ux.x + r.ux.y * r.ux.y + r.ux.z * r.ux.z) * h1 + h2 -
      (r.n.x * r.ux.x + r.n.y * r.ux.y + r.n.z * r.ux.z) * h3
  have e1 : vX r.mat = ((1 : ℝ) • r.n).toDir := by
    ext <;> simp [vX, col, HessRow.mat, compose, HessRow.rot, V3.toDir]
  have e2 : vY r.mat = ((r.side / 2) • r.ux).toDir := by
    ext <;> simp [vY, col, HessRow.mat, compose, HessRow.rot, V3.toDir] <;> ring
  have e3 : vZ r.mat = ((r.side / 2) • r.uy).toDir := by
    ext <;> simp [vZ, col, HessRow.mat, compose, HessRow.rot, V3.toDir] <;> ring
  rw [planeBases, eX, eY, eZ, e1, e2, e3, unit_smul_dir h.nn one_pos, unit_smul_dir h.xx (by positivity),
    unit_smul_dir hyy (by positivity)]

/-- Components of the grating lines along the sides. -/
theorem HessRow.lines {r : HessRow} (h : r.Ok) :
    r.ul = (r.ul.dot r.ux) • r.ux + (r.ul.dot r.uy) • r.uy ∧ (r.ul.dot r.ux) ^ 2 + (r.ul.dot r.uy) ^ 2 = 1 ∧
      r.disp = (r.ul.dot r.uy) • r.ux - (r.ul.dot r.ux) • r.uy := by
  have hr := h.rot
  have hc : r.rot * r.rotᵀ = 1 := mul_eq_one_comm.1 hr.1
  have e : ∀ i j, (r.rot * r.rotᵀ) i j = (1 : M3) i j := fun i j => by rw [hc]
  simp only [Matrix.mul_apply, Fin.sum_univ_three, transpose_apply, HessRow.rot] at e
  have e00 := e 0 0; have e11 := e 1 1; have e22 := e 2 2
  have e01 := e 0 1; have e02 := e 0 2; have e12 := e 1 2
  simp at e00 e11 e22 e01 e02 e12
  have hl := h.ll; have hn := h.nl
  simp only [V3.dot] at hl hn
  have e1 : r.ul = (r.ul.dot r.ux) • r.ux + (r.ul.dot r.uy) • r.uy := by
    ext <;> simp [V3.dot]
    · linear_combination -(r.ul.x * e00 + r.ul.y * e01 + r.ul.z * e02) + r.n.x * hn
    · linear_combination -(r.ul.x * e01 + r.ul.y * e11 + r.ul.z * e12) + r.n.y * hn
    · linear_combination -(r.ul.x * e02 + r.ul.y * e12 + r.ul.z * e22) + r.n.z * hn
  refine ⟨e1, ?_, ?_⟩
  · have : r.ul.dot r.ul = r.ul.dot ((r.ul.dot r.ux) • r.ux + (r.ul.dot r.uy) • r.uy) := by rw [← e1]
    rw [h.ll] at this
    simp only [V3.dot] at this ⊢
    simp at this
    linear_combination -this
  · have hxn : r.ux.cross r.n = -r.uy := by rw [h.right]; ext <;> simp [V3.cross] <;> ring
    have hyn : r.uy.cross r.n = r.ux := by
      have h1 := h.nn; have h3 := h.nx
      simp only [V3.dot] at h1 h3
      rw [h.right]
      ext <;> simp [V3.cross]
      · linear_combination r.ux.x * h1 - r.n.x * h3
      · linear_combination r.ux.y * h1 - r.n.y * h3
      · linear_combination r.ux.z * h1 - r.n.z * h3
    have : r.disp = ((r.ul.dot r.ux) • r.ux + (r.ul.dot r.uy) • r.uy).cross r.n := by rw [← e1]; rfl
    rw [this]
    have e4 : ∀ (a b : ℝ) (u v w : V3), (a • u + b • v).cross w = a • u.cross w + b • v.cross w := by
      intros; ext <;> simp [V3.cross] <;> ring
    rw [e4, hxn, hyn]
    ext <;> simp <;> ring

theorem arctan2_unit {a b : ℝ} (h : a ^ 2 + b ^ 2 = 1) : Real.sin (arctan2 a b) = a ∧ Real.cos (arctan2 a b) = b := by
  have hn : ‖(⟨b, a⟩ : ℂ)‖ = 1 := by
    rw [Complex.norm_def, Complex.normSq_mk, show b * b + a * a = 1 by linarith, Real.sqrt_one]
  have hz : (⟨b, a⟩ : ℂ) ≠ 0 := by intro h0; rw [h0] at hn; simp at hn
  constructor
  · rw [arctan2, Complex.sin_arg, hn, div_one]
  · rw [arctan2, Complex.cos_arg hz, hn, div_one]

/-- **C128** (grooves): each grating is made with the grating constant of its place in the list and its grooves run along the
grating lines of the table; the direction of dispersion is the one in the table. -/
theorem C128_grooves (name : String) (os : ℕ) (sel : ℝ → H4 → Option ℝ → ℤ × ℝ) (rows : List HessRow) (hl : rows.length = 336)
    (hok : ∀ r ∈ rows, r.Ok) (es : List GenElem) (hes : hetg 1 name os rows = .ok es) (i : ℕ) (r : HessRow) (e : GenElem)
    (hr : rows[i]? = some r) (he : es[i]? = some e) :
    ∃ g, flatGrating sel e = .ok g ∧ g.transmission = true ∧ g.sign = flatSign ∧ g.order = sel ∧
      ∀ coo, g.blazeMod coo = 0 ∧ g.d coo = (if i < 192 then 4001.95 * 1e-7 else 2000.81 * 1e-7) ∧
        g.bases coo = (r.ux.toDir, r.uy.toDir, r.n.toDir) ∧
        g.frame coo = (r.ul.toDir, r.disp.toDir, r.n.toDir) := by
  have hps := hessMapM (f := hessPos) (g := HessRow.mat) rows fun r hr => hessPos_ok (hok r hr)
  obtain ⟨es', h1, h2, h3⟩ := hetg_gen hetgHinge 1 name os rows hl hok
  obtain ⟨es0, g1, _, _⟩ := hetg_gen 0 1 name os rows hl hok
  have e0 : hetgPar 1 name os rows (rows.map HessRow.mat) = hetgPar' (translation2aff 0) 1 name os rows := by
    simp only [hetgPar, hetgPar', translation2aff_zero, inv_one, Matrix.one_mul, List.length_map]
  have e1 : moveCenter (hetgPar 1 name os rows (rows.map HessRow.mat)) (translation2aff hetgHinge) =
      .ok (hetgPar' (translation2aff hetgHinge) 1 name os rows) := by
    simp only [moveCenter, translation2aff_det, one_ne_zero, if_false, hetgPar, hetgPar', List.map_map, List.length_map]
    rfl
  have hd : (1 : M4).det ≠ 0 := by simp
  simp only [hetg, hps, hd, if_false] at hes
  rw [e1, e0] at hes
  simp only [g1, h1, Except.ok.injEq] at hes
  subst hes
  obtain ⟨r', hr', rfl⟩ := h3 i e he
  obtain rfl : r' = r := by rw [hr] at hr'; simpa using hr'.symm
  have hrok := hok r' (List.mem_of_getElem? hr)
  have hm : translation2aff hetgHinge * 1 * translation2aff (-hetgHinge) * r'.mat = r'.mat := by
    rw [Matrix.mul_one, translation2aff_mul, add_neg_cancel, translation2aff_zero, Matrix.one_mul]
  refine ⟨⟨true, hessGroove r', fun _ => if i < 192 then 4001.95 * 1e-7 else 2000.81 * 1e-7, fun _ => 0, sel, flatSign,
    fun _ => planeBases r'.mat⟩, ?_, rfl, rfl, rfl, fun coo => ⟨rfl, rfl, HessRow.bases hrok, ?_⟩⟩
  · simp only [flatGrating, hm]
    simp [Kwargs.get?]
  · obtain ⟨l1, l2, l3⟩ := HessRow.lines hrok
    obtain ⟨a1, a2⟩ := arctan2_unit l2
    simp only [Grating.frame, HessRow.bases hrok, hessGroove, neg_neg, a1, a2]
    rw [l3]
    refine Prod.ext ?_ (Prod.ext ?_ rfl)
    · conv_rhs => rw [l1]
      ext <;> simp [V3.toDir]
    · ext <;> simp [V3.toDir]

/-- **C128** (default): a flat grating without groove angle has its grooves along the z axis of the grating and disperses along its y axis;
without a grating constant it is refused. -/
theorem C128_default (sel : ℝ → H4 → Option ℝ → ℤ × ℝ) (e : GenElem) (v : PyVal) (ho : e.args.get? "order_selector" = some v) :
    (∀ d : ℝ, e.args.get? "d" = some (.num d) → e.args.get? "groove_angle" = none →
      ∃ g, flatGrating sel e = .ok g ∧ ∀ coo, g.d coo = d ∧ g.bases coo = (eY e.pos4d, eZ e.pos4d, eX e.pos4d) ∧
        g.frame coo = (eZ e.pos4d, eY e.pos4d, eX e.pos4d)) ∧
    (e.args.get? "d" = none → flatGrating sel e = .error .valueError) := by
  refine ⟨fun d hd hg => ⟨⟨true, 0, fun _ => d, fun _ => 0, sel, flatSign, fun _ => planeBases e.pos4d⟩, ?_, fun coo => ⟨rfl, rfl, ?_⟩⟩, fun hd => ?_⟩
  · simp only [flatGrating, ho, hd, hg]
  · simp only [Grating.frame, planeBases, neg_zero, Real.sin_zero, Real.cos_zero]
    refine Prod.ext ?_ (Prod.ext ?_ rfl) <;> ext <;> simp
  · simp only [flatGrating, ho, hd]

/-- a grating that is made without groove angle, and one without grating constant -/
example : ∃ e1 e2 : GenElem, e1.args.get? "order_selector" = some (.obj 0) ∧ e1.args.get? "d" = some (.num 1) ∧ e1.args.get? "groove_angle" = none ∧
    e2.args.get? "order_selector" = some (.obj 0) ∧ e2.args.get? "d" = none :=
  ⟨⟨1, 0, [("order_selector", .obj 0), ("d", .num 1)]⟩, ⟨1, 0, [("order_selector", .obj 0)]⟩, by simp [Kwargs.get?]⟩

/-- **C128** (dispersion): a photon in diffraction order `m` keeps its component along the grating lines of the facet in the table,
and its component along the dispersion direction of the table changes by `m` times the wavelength over the period. -/
theorem C128_dispersion (name : String) (os : ℕ) (sel : ℝ → H4 → Option ℝ → ℤ × ℝ) (rows : List HessRow) (hl : rows.length = 336)
    (hok : ∀ r ∈ rows, r.Ok) (es : List GenElem) (hes : hetg 1 name os rows = .ok es) (i : ℕ) (r : HessRow) (e : GenElem)
    (hr : rows[i]? = some r) (he : es[i]? = some e) (g : Grating) (hg : flatGrating sel e = .ok g)
    (dir pol q : H4) (energy : ℝ) (coo : ℝ × ℝ) (hd : IsDir dir) (hE : energy ≠ 0) (hn : dir.xyz.dot r.n ≠ 0)
    (hq : (g.diffract dir pol energy coo).dir = some q) :
    IsDir q ∧ q.xyz.dot q.xyz = 1 ∧ q.xyz.dot r.ul = dir.xyz.unit.dot r.ul ∧
      q.xyz.dot r.disp = dir.xyz.unit.dot r.disp + (g.diffract dir pol energy coo).m * (energy2wave / energy) /
        (if i < 192 then 4001.95 * 1e-7 else 2000.81 * 1e-7) := by
  obtain ⟨g', h1, h2, h3, _, h4⟩ := C128_grooves name os sel rows hl hok es hes i r e hr he
  rw [hg, Except.ok.injEq] at h1
  subst h1
  obtain ⟨_, h5, h6, h7⟩ := h4 coo
  have hrok := hok r (List.mem_of_getElem? hr)
  have h1 := hrok.nn; have hx := hrok.xx; have hnx := hrok.nx
  have hfr : Frame (g.bases coo).1 (g.bases coo).2.1 (g.bases coo).2.2 := by
    rw [h6]
    have hyy : r.uy.dot r.uy = 1 := by
      rw [hrok.right]
      simp only [V3.dot, V3.cross] at h1 hx hnx ⊢
      linear_combination (r.ux.x * r.ux.x + r.ux.y * r.ux.y + r.ux.z * r.ux.z) * h1 + hx -
        (r.n.x * r.ux.x + r.n.y * r.ux.y + r.n.z * r.ux.z) * hnx
    have hxy : r.ux.dot r.uy = 0 := by rw [hrok.right]; simp only [V3.dot, V3.cross]; ring
    have hyn : r.uy.dot r.n = 0 := by rw [hrok.right]; simp only [V3.dot, V3.cross]; ring
    have td : ∀ u v : V3, (u.toDir).dot v.toDir = u.dot v := by intros; simp [H4.dot, V3.dot, V3.toDir]
    refine ⟨?_, ?_, ?_, ?_, ?_, ?_, rfl, rfl, rfl⟩ <;> simp only [td]
    exacts [hx, hyy, h1, hxy, by rw [V3.dot_comm]; exact hnx, hyn]
  have hdw : dir.w = 0 := hd
  have hdn : dir.xyz ≠ 0 := by intro h0; rw [h0] at hn; simp [V3.dot] at hn
  have h0 : dir.dot dir ≠ 0 := fun h' => hdn ((H4.dot_self_eq_zero hd).1 h')
  have hdd : ∀ v : V3, dir.dot v.toDir = dir.xyz.dot v := by intro v; simp [H4.dot, V3.dot, V3.toDir, H4.xyz]
  have hgd : g.d coo ≠ 0 := by rw [h5]; split <;> norm_num
  have key := C19_grating_equation g h3 coo hfr dir pol energy h0 hE hgd (by rw [h6, hdd]; exact hn) q hq
  have hqd : ∀ v : V3, q.dot v.toDir = q.xyz.dot v := by intro v; simp [H4.dot, V3.dot, V3.toDir, H4.xyz]
  have hud : ∀ v : V3, dir.unit.dot v.toDir = dir.xyz.unit.dot v := by
    intro v
    have : dir.norm = dir.xyz.norm := by simp [H4.norm, V3.norm, H4.dot, V3.dot, H4.xyz, hdw]
    simp [H4.unit, V3.unit, H4.dot, V3.dot, V3.toDir, H4.xyz, this]
  have k1 := key.groove
  have k2 := key.dispersion
  rw [h7, hqd, hud] at k1 k2
  have wq : q.w = 0 := key.isDir
  refine ⟨key.isDir, ?_, k1, ?_⟩
  · rw [← dot_xyz q q (.inl wq)]; exact key.unit
  · rw [k2, h5]

/-- **C128** (MEG and HEG): for a table like the one in use, where the facets on the outer shells come first, the gratings with the
larger period are exactly the facets of the outer shells (which are the larger ones, see `C128_placement` and `HessRow.side`). -/
theorem C128_meg_heg (P : M4) (hP : P.det ≠ 0) (name : String) (os : ℕ) (rows : List HessRow) (hl : rows.length = 336) (hok : ∀ r ∈ rows, r.Ok)
    (hord : ∀ (i : ℕ) (r : HessRow), rows[i]? = some r → (r.Outer ↔ i < 192)) (es : List GenElem) (hes : hetg P name os rows = .ok es)
    (i : ℕ) (r : HessRow) (e : GenElem) (hr : rows[i]? = some r) (he : es[i]? = some e) :
    e.args.get? "d" = some (.num (if r.Outer then 4001.95 * 1e-7 else 2000.81 * 1e-7)) := by
  obtain ⟨es', h1, _, h3⟩ := C128_placement P hP name os rows hl hok
  rw [hes, Except.ok.injEq] at h1
  subst h1
  obtain ⟨_, _, _, h4, _⟩ := h3 i r e hr he
  rw [h4]
  by_cases h : r.Outer
  · simp only [h, (hord i r hr).1 h, if_true]
  · have h' : ¬ i < 192 := fun h' => h ((hord i r hr).2 h')
    simp only [h, h', if_false]

/-- **C128** A location code that does not start with a digit, anywhere in the table, is refused. -/
theorem C128_refused (P : M4) (name : String) (os : ℕ) (pre post : List HessRow) (r : HessRow) (hok : ∀ r ∈ pre, r.Ok) (ch : Char)
    (rest : List Char) (h : r.loc.toList = ch :: rest) (hd : ch.isDigit = false) :
    hetg P name os (pre ++ r :: post) = .error .valueError := by
  have : (pre ++ r :: post).mapM hessPos = .error .valueError := by
    induction pre with
    | nil => rw [List.nil_append, List.mapM_cons]; simp [hessPos, hessShell, h, hd, bind, Except.bind]
    | cons a l ih =>
      rw [List.cons_append, List.mapM_cons, hessPos_ok (hok a (List.mem_cons_self ..)),
        ih fun b hb => hok b (List.mem_cons_of_mem _ hb)]
      rfl
  simp only [hetg, this]

/-- A table that meets the hypotheses: tilted facets, the first 192 on shell 1, the others on shell 4. -/
example : ∃ rows : List HessRow, rows.length = 336 ∧ (∀ r ∈ rows, r.Ok) ∧
    (∀ (i : ℕ) (r : HessRow), rows[i]? = some r → (r.Outer ↔ i < 192)) ∧ ∃ es, hetg 1 "HETG" 0 rows = .ok es := by
  let row (s : String) : HessRow := ⟨s, ⟨11.8, 519, 21⟩, ⟨0.8, 0.6, 0⟩, ⟨-0.6, 0.8, 0⟩, ⟨0, 0, 1⟩, ⟨0, 0, 1⟩⟩
  have hrow : ∀ s : String, (∃ ch rest, s.toList = ch :: rest ∧ ch.isDigit = true) → (row s).Ok := by
    intro s hs
    refine ⟨?_, ?_, ?_, ?_, ?_, ?_, hs⟩ <;> simp [row, V3.dot, V3.cross] <;> norm_num
  have hall : ∀ r ∈ List.replicate 192 (row "1A1") ++ List.replicate 144 (row "4A1"), r.Ok := by
    intro r hr
    rcases List.mem_append.1 hr with h | h
    · rw [List.eq_of_mem_replicate h]; exact hrow _ ⟨'1', ['A', '1'], rfl, rfl⟩
    · rw [List.eq_of_mem_replicate h]; exact hrow _ ⟨'4', ['A', '1'], rfl, rfl⟩
  have hlen : (List.replicate 192 (row "1A1") ++ List.replicate 144 (row "4A1")).length = 336 := by
    rw [List.length_append, List.length_replicate, List.length_replicate]
  refine ⟨_, hlen, hall, ?_, ?_⟩
  · intro i r hr
    rw [List.getElem?_append] at hr
    simp only [List.length_replicate] at hr
    have o1 : (row "1A1").Outer := ⟨'1', ['A', '1'], by simp [row], by simp⟩
    have o2 : ¬ (row "4A1").Outer := by
      rintro ⟨ch, rest, h1, h2⟩
      have h3 : (row "4A1").loc.toList = ['4', 'A', '1'] := by simp [row]
      rw [h3] at h1
      simp only [List.cons.injEq] at h1
      rw [← h1.1] at h2
      simp at h2
    split at hr
    · next h =>
      rw [List.getElem?_replicate] at hr
      simp only [h, if_true, Option.some.injEq] at hr
      subst hr; simp [o1, h]
    · next h =>
      rw [List.getElem?_replicate] at hr
      split at hr
      · simp only [Option.some.injEq] at hr
        subst hr; simp [o2, h]
      · simp at hr
  · obtain ⟨es, h, _⟩ := C128_placement 1 (by simp) "HETG" 0 _ hlen hall
    exact ⟨es, h⟩

end Marxs
