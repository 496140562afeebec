import Verif.Spec.MechGratings
import Verif.Props.Placement
import Verif.Props.Boom

/-!
# Property C124: gratings placed from a mechanical model
-/

namespace Marxs
open Matrix Classical

/-- The first axis is reversed if the vectors are not right-handed. -/
theorem decompose44_orth (t : Fin 3 → ℝ) (r : M3) (z : Fin 3 → ℝ) (horth : rᵀ * r = 1) (hz : ∀ i, 0 < z i) :
    decompose44 (compose t r z) = if r.det < 0 then
      ⟨t, !![-r 0 0, r 0 1, r 0 2; -r 1 0, r 1 1, r 1 2; -r 2 0, r 2 1, r 2 2], ![-z 0, z 1, z 2], 0⟩
      else ⟨t, r, z, 0⟩ := by
  have e : ∀ i j, (rᵀ * r) i j = (1 : M3) i j := fun i j => by rw [horth]
  simp only [Matrix.mul_apply, Fin.sum_univ_three, transpose_apply] at e
  have e00 := e 0 0
  have e11 := e 1 1
  have e22 := e 2 2
  have e01 := e 0 1
  have e02 := e 0 2
  have e12 := e 1 2
  simp at e00 e11 e22 e01 e02 e12
  have z0 := hz 0
  have z1 := hz 1
  have z2 := hz 2
  have n0 := z0.ne'
  have n1 := z1.ne'
  have n2 := z2.ne'
  have s0 : Real.sqrt (dotf (fun i : Fin 3 => compose t r z i.castSucc 0)
      (fun i : Fin 3 => compose t r z i.castSucc 0)) = z 0 := by
    rw [show dotf (fun i : Fin 3 => compose t r z i.castSucc 0)
      (fun i : Fin 3 => compose t r z i.castSucc 0) = z 0 * z 0 by
        simp [dotf, compose]; linear_combination (z 0 * z 0) * e00]
    exact Real.sqrt_mul_self z0.le
  have v0 : (fun i : Fin 3 => compose t r z i.castSucc 0 / z 0) = fun i => r i 0 := by
    ext i; fin_cases i <;> simp [compose] <;> field_simp
  have d01 : dotf (fun i => r i 0) (fun i : Fin 3 => compose t r z i.castSucc 1) = 0 := by
    simp [dotf, compose]; linear_combination z 1 * e01
  have v1' : (fun i : Fin 3 => compose t r z i.castSucc 1 - 0 * r i 0) = fun i => r i 1 * z 1 := by
    ext i; fin_cases i <;> simp [compose]
  have s1 : Real.sqrt (dotf (fun i : Fin 3 => r i 1 * z 1) (fun i : Fin 3 => r i 1 * z 1))
      = z 1 := by
    rw [show dotf (fun i : Fin 3 => r i 1 * z 1) (fun i : Fin 3 => r i 1 * z 1) = z 1 * z 1 by
      simp [dotf]; linear_combination (z 1 * z 1) * e11]
    exact Real.sqrt_mul_self z1.le
  have v1 : (fun i : Fin 3 => r i 1 * z 1 / z 1) = fun i => r i 1 := by
    ext i; field_simp
  have d02 : dotf (fun i => r i 0) (fun i : Fin 3 => compose t r z i.castSucc 2) = 0 := by
    simp [dotf, compose]; linear_combination z 2 * e02
  have d12 : dotf (fun i => r i 1) (fun i : Fin 3 => compose t r z i.castSucc 2) = 0 := by
    simp [dotf, compose]; linear_combination z 2 * e12
  have v2' : (fun i : Fin 3 => compose t r z i.castSucc 2 - (0 * r i 0 + 0 * r i 1))
      = fun i => r i 2 * z 2 := by
    ext i; fin_cases i <;> simp [compose]
  have s2 : Real.sqrt (dotf (fun i : Fin 3 => r i 2 * z 2) (fun i : Fin 3 => r i 2 * z 2))
      = z 2 := by
    rw [show dotf (fun i : Fin 3 => r i 2 * z 2) (fun i : Fin 3 => r i 2 * z 2) = z 2 * z 2 by
      simp [dotf]; linear_combination (z 2 * z 2) * e22]
    exact Real.sqrt_mul_self z2.le
  have v2 : (fun i : Fin 3 => r i 2 * z 2 / z 2) = fun i => r i 2 := by
    ext i; field_simp
  have hR : (!![r 0 0, r 0 1, r 0 2; r 1 0, r 1 1, r 1 2; r 2 0, r 2 1, r 2 2] : M3) = r := by
    ext i j; fin_cases i <;> fin_cases j <;> rfl
  unfold decompose44
  simp only [s0]
  have k0 : ∀ i : Fin 3, compose t r z i.castSucc 0 / z 0 = r i 0 := fun i => congrFun v0 i
  simp only [k0, d01]
  have k1 : ∀ i : Fin 3, compose t r z i.castSucc 1 - 0 * r i 0 = r i 1 * z 1 :=
    fun i => congrFun v1' i
  simp only [k1, s1]
  have k1' : ∀ i : Fin 3, r i 1 * z 1 / z 1 = r i 1 := fun i => congrFun v1 i
  simp only [k1', d02, d12]
  have k2 : ∀ i : Fin 3, compose t r z i.castSucc 2 - (0 * r i 0 + 0 * r i 1) = r i 2 * z 2 :=
    fun i => congrFun v2' i
  simp only [k2, s2]
  have k2' : ∀ i : Fin 3, r i 2 * z 2 / z 2 = r i 2 := fun i => congrFun v2 i
  simp only [k2', hR]
  have ht : (fun i : Fin 3 => compose t r z i.castSucc 3) = t := by
    ext i; fin_cases i <;> simp [compose]
  have hzz : (![z 0, z 1, z 2] : Fin 3 → ℝ) = z := by
    ext i; fin_cases i <;> rfl
  have h00 : (![0 / z 0, 0 / z 0, 0 / z 1] : Fin 3 → ℝ) = 0 := by
    ext i; fin_cases i <;> simp
  rw [ht, hzz, h00]

/-- Taking apart and putting together again gives the same matrix. -/
def Recomposes (p : M4) : Prop :=
  translation2aff (decompose44 p).t * (mat2aff (decompose44 p).r * zoom2aff (decompose44 p).z) = p

theorem recomposes_orth (t : Fin 3 → ℝ) (r : M3) (z : Fin 3 → ℝ) (horth : rᵀ * r = 1) (hz : ∀ i, 0 < z i) :
    Recomposes (compose t r z) := by
  rw [Recomposes, decompose44_orth t r z horth hz]
  split
  · ext i j
    fin_cases i <;> fin_cases j <;>
      simp [compose, translation2aff, mat2aff, zoom2aff, Matrix.mul_apply, Fin.sum_univ_succ]
  · rw [← Matrix.mul_assoc]; exact (compose_eq _ _ _).symm

theorem genOne_recomposes {c : Par} {i : ℕ} {p : M4} (rest : Kwargs) (hargs : parsePosition
      (addName i c.name (specificArgs c.elemPos.length i c.elemArgs)) = .ok (1, rest))
    (hu : c.elemUncertainty[i]? = some 1) (hp : c.elemPos[i]? = some p) (hr : Recomposes p) :
    genOne decompose44 c i = .ok ⟨c.pos4d * c.uncertainty * p, c.idNumOffset + i, rest⟩ := by
  have hd : decompose44 1 = ⟨0, 1, 1, 0⟩ := by
    rw [one_compose]; exact decompose44_exact 0 1 1 isRotation_one (by simp)
  simp only [genOne, hargs, hp, hu, hd, ne_eq, not_true, if_false]
  have t0 : translation2aff 0 = 1 := by
    ext i j; fin_cases i <;> fin_cases j <;> simp [translation2aff]
  have m0 : mat2aff 1 = 1 := by
    ext i j; fin_cases i <;> fin_cases j <;> simp [mat2aff]
  have z0 : zoom2aff 1 = 1 := by
    ext i j; fin_cases i <;> fin_cases j <;> simp [zoom2aff]
  congr 2
  simp only [placeElem, t0, m0, z0, List.reverse_cons, List.reverse_nil, List.nil_append, List.cons_append,
    List.foldl_cons, List.foldl_nil, Matrix.mul_one, Matrix.one_mul]
  rw [hr, Matrix.mul_assoc]

theorem meanPos_eq (ms : List M4) (hne : ms ≠ []) (hw : ∀ m ∈ ms, m 3 3 = 1) :
    meanPos ms = translation2aff (fun i => (ms.map fun m => m i.castSucc 3).sum / ms.length) := by
  have hs : (ms.map fun m => m 3 3).sum = ms.length := by
    rw [List.map_congr_left (g := fun _ => (1 : ℝ)) hw]; simp
  have hl : (ms.length : ℝ) ≠ 0 := by simpa using hne
  ext i j
  fin_cases i <;> fin_cases j <;> simp [meanPos, translation2aff]
  rw [hs]; field_simp

theorem translation2aff_mul (a b : Fin 3 → ℝ) : translation2aff a * translation2aff b = translation2aff (a + b) := by
  ext i j
  fin_cases i <;> fin_cases j <;> simp [translation2aff, Matrix.mul_apply, Fin.sum_univ_succ] <;> ring

theorem translation2aff_zero : translation2aff 0 = 1 := by
  ext i j; fin_cases i <;> fin_cases j <;> simp [translation2aff]

theorem translation2aff_inv (a : Fin 3 → ℝ) : (translation2aff a)⁻¹ = translation2aff (-a) :=
  Matrix.inv_eq_right_inv (by rw [translation2aff_mul, add_neg_cancel, translation2aff_zero])

theorem translation2aff_det (a : Fin 3 → ℝ) : (translation2aff a).det = 1 := by
  have h : translation2aff a = compose a 1 1 := by
    ext i j; fin_cases i <;> fin_cases j <;> simp [translation2aff, compose]
  rw [h, det_compose]; simp

theorem translation_compose (a t : Fin 3 → ℝ) (r : M3) (z : Fin 3 → ℝ) :
    translation2aff a * compose t r z = compose (a + t) r z := by
  ext i j
  fin_cases i <;> fin_cases j <;> simp [translation2aff, compose, Matrix.mul_apply, Fin.sum_univ_succ] <;> ring

/-- The mirror for directions. -/
def mirr3 (channel : String) : M3 :=
  !![if 'm' ∈ channel.toList then 1 else -1, 0, 0; 0, if '2' ∈ channel.toList then -1 else 1, 0; 0, 0, 1]

theorem mirr_compose (ch : String) (t : Fin 3 → ℝ) (r : M3) (z : Fin 3 → ℝ) :
    mirrMat ch * compose t r z = compose (mirr3 ch *ᵥ t) (mirr3 ch * r) z := by
  ext i j
  fin_cases i <;> fin_cases j <;>
    simp [mirrMat, mirr3, compose, Matrix.mul_apply, Fin.sum_univ_succ, Matrix.mulVec, dotProduct, mul_assoc]

theorem mirr3_orth (ch : String) (r : M3) (h : rᵀ * r = 1) : (mirr3 ch * r)ᵀ * (mirr3 ch * r) = 1 := by
  have h1 : (mirr3 ch)ᵀ * mirr3 ch = 1 := by
    ext i j
    fin_cases i <;> fin_cases j <;> simp [mirr3, Matrix.mul_apply, Fin.sum_univ_succ] <;> split <;> norm_num
  rw [transpose_mul, Matrix.mul_assoc, ← Matrix.mul_assoc _ (mirr3 ch), h1, Matrix.one_mul, h]

theorem mirr_point (ch : String) (f : Facet) (p : Fin 3 → ℝ) :
    (mirrMat ch * f.pos4d) *ᵥ hom p = hom (mirrorPoint ('m' ∉ ch.toList) ('2' ∈ ch.toList) (f.point p)) := by
  ext i
  fin_cases i <;>
    simp [mirrMat, Facet.pos4d, Facet.rot, compose, hom, mirrorPoint, Facet.point, Matrix.mul_apply, Fin.sum_univ_succ,
      Matrix.mulVec, dotProduct] <;> (try split) <;> (try simp) <;> ring

theorem translation_hom' (a p : Fin 3 → ℝ) : translation2aff a *ᵥ hom p = hom (a + p) := by
  ext i
  fin_cases i <;> simp [translation2aff, hom, Matrix.mulVec, dotProduct, Fin.sum_univ_succ] <;> ring

theorem zip_map_self {α β : Type} (g : α → β) (l : List α) : l.zip (l.map g) = l.map fun a => (a, g a) := by
  induction l with
  | nil => rfl
  | cons a l ih => simp [ih]

theorem listMats_map (l : List M4) : listMats (l.map .mat4) = some l := by
  induction l with
  | nil => rfl
  | cons a l ih => simp [listMats, ih]

theorem sortedSet_spec (l : List ℤ) : (sortedSet l).Pairwise (· < ·) ∧ ∀ n, n ∈ sortedSet l ↔ n ∈ l := by
  refine ⟨?_, ?_⟩
  · exact Finset.sortedLT_sort _ |>.pairwise
  · intro n; simp [sortedSet]

theorem mapM_exists {α β : Type} {f : α → Except Err β} (Q : ℕ → β → Prop) (l : List α) (i : ℕ)
    (h : ∀ k a, l[k]? = some a → ∃ b, f a = .ok b ∧ Q (i + k) b) :
    ∃ bs, l.mapM f = .ok bs ∧ bs.length = l.length ∧ ∀ k b, bs[k]? = some b → Q (i + k) b := by
  induction l generalizing i with
  | nil => exact ⟨[], rfl, rfl, by simp⟩
  | cons a l ih =>
    obtain ⟨b, h1, h2⟩ := h 0 a rfl
    obtain ⟨bs, h3, h4, h5⟩ := ih (i + 1) (fun k a hk => by
      have := h (k + 1) a hk
      rwa [show i + (k + 1) = i + 1 + k by omega] at this)
    refine ⟨b :: bs, by rw [List.mapM_cons, h1, h3]; rfl, by simp [h4], ?_⟩
    intro k b' hk
    cases k with
    | zero => simp at hk; subst hk; simpa using h2
    | succ k =>
      rw [List.getElem?_cons_succ] at hk
      rw [show i + (k + 1) = i + 1 + k by omega]
      exact h5 k b' hk

/-- **C124** Gratings from a table. There is one window for each number in the column `SPO_MM_num`, in ascending order. Each window has
a grating for each of its rows of the table, in the order of the table, with the period given for it. Each point of
the facet is where the table says, mirrored for the channel; the position of the whole petal is applied relative to
its centre. The numbers count on from that of the first facet in the window. -/
theorem C124_gratings (ch : String) (off : ℤ) (P : M4) (name : String) (os : ℕ) (rows : List Facet) (hne : rows ≠ [])
    (hok : ∀ f ∈ rows, f.Ok) (hP : P.det ≠ 0) :
    ∃ (wins : List (List GenElem)) (nums : List ℤ), catFromMechanical ch off P name os rows = .ok wins ∧
      nums.Pairwise (· < ·) ∧ (∀ n, n ∈ nums ↔ ∃ f ∈ rows, f.spoNum = n) ∧ wins.length = nums.length ∧
      ∀ (k : ℕ) (n : ℤ), nums[k]? = some n → ∃ gs first, wins[k]? = some gs ∧
        (rows.filter fun f => f.spoNum = n).head? = some first ∧
        gs.length = (rows.filter fun f => f.spoNum = n).length ∧
        ∀ (j : ℕ) (f : Facet), (rows.filter fun f => f.spoNum = n)[j]? = some f → ∃ g, gs[j]? = some g ∧
          g.idNum = off + first.facetNum + j ∧ ("d", .num f.period) ∈ g.args ∧
          ("order_selector", .obj os) ∈ g.args ∧ ("id_col", .str "facet") ∈ g.args ∧
          (let mirrored : Facet → (Fin 3 → ℝ) → (Fin 3 → ℝ) := fun f p =>
             mirrorPoint ('m' ∉ ch.toList) ('2' ∈ ch.toList) (f.point p);
           let c := meanPoint (rows.map fun f => mirrored f 0);
           ∀ p, g.pos4d *ᵥ hom p = translation2aff c *ᵥ (P *ᵥ hom (mirrored f p - c))) := by
  set pos : Facet → M4 := fun f => mirrMat ch * f.pos4d with hpos
  have hposc : ∀ f, pos f = compose (mirr3 ch *ᵥ f.trans) (mirr3 ch * f.rot) ![1, f.xsize / 2, f.ysize / 2] := by
    intro f; rw [hpos]; simp only [Facet.pos4d]; rw [mirr_compose]
  have hp33 : ∀ f, pos f 3 3 = 1 := by intro f; rw [hposc]; simp [compose]
  -- the centre
  set c : Fin 3 → ℝ := meanPoint (rows.map fun f => mirrorPoint ('m' ∉ ch.toList) ('2' ∈ ch.toList) (f.point 0)) with hc
  have hcent : meanPos (rows.map pos) = translation2aff c := by
    rw [meanPos_eq _ (by simpa using hne) (by
      intro m hm; obtain ⟨f, -, rfl⟩ := List.mem_map.1 hm; exact hp33 f)]
    congr 1
    ext i
    rw [hc, meanPoint]
    simp only [List.map_map, List.length_map]
    congr 2
    refine List.map_congr_left fun f _ => ?_
    have := congrFun (mirr_point ch f 0) i.castSucc
    have h0 : (pos f *ᵥ hom 0) i.castSucc = pos f i.castSucc 3 := by
      simp [Matrix.mulVec, dotProduct, hom, Fin.sum_univ_succ]
    simp only [Function.comp]
    rw [← h0, hpos]
    simp only
    rw [this]
    fin_cases i <;> rfl
  have hTinv := translation2aff_inv c
  -- one window
  have hwin : ∀ n, (∃ f ∈ rows, f.spoNum = n) → ∃ w : Fin 3 → ℝ, ∃ first : Facet,
      (rows.filter fun f => f.spoNum = n).head? = some first ∧
      windowSpec off (rows.zip ((rows.map pos).map ((translation2aff c)⁻¹ * ·))) n =
        ⟨translation2aff w, off + first.facetNum,
          (rows.filter fun f => f.spoNum = n).map fun f => translation2aff (-w) * (translation2aff (-c) * pos f),
          (rows.filter fun f => f.spoNum = n).map fun f => f.period⟩ := by
    intro n hn
    rw [List.map_map, zip_map_self, hTinv]
    have hf : (rows.map fun a => (a, ((fun x => translation2aff (-c) * x) ∘ pos) a)).filter (fun r => r.1.spoNum == n) =
        (rows.filter fun f => f.spoNum = n).map fun a => (a, ((fun x => translation2aff (-c) * x) ∘ pos) a) := by
      rw [List.filter_map]; rfl
    simp only [windowSpec, hf]
    set fs := rows.filter fun f => f.spoNum = n with hfs
    have hfne : fs ≠ [] := by
      obtain ⟨f, hf, hfn⟩ := hn
      exact List.ne_nil_of_mem (List.mem_filter.2 ⟨hf, by simpa using hfn⟩)
    obtain ⟨first, tl, hcons⟩ := List.exists_cons_of_ne_nil hfne
    have hm := meanPos_eq (fs.map fun f => translation2aff (-c) * pos f) (by simpa using hfne) (by
      intro m hm; obtain ⟨f, -, rfl⟩ := List.mem_map.1 hm
      rw [hposc, translation_compose]; simp [compose])
    refine ⟨fun i => (List.map (fun m => m i.castSucc 3) (List.map (fun f => translation2aff (-c) * pos f) fs)).sum /
        ↑(List.map (fun f => translation2aff (-c) * pos f) fs).length, first, by rw [hcons]; rfl, ?_⟩
    rw [List.map_map]
    rw [show (Prod.snd ∘ fun a => (a, ((fun x => translation2aff (-c) * x) ∘ pos) a)) = fun f => translation2aff (-c) * pos f from rfl,
      hm, translation2aff_inv]
    congr 1
    · rw [hcons]; rfl
    · rw [List.map_map]; rfl
    · rw [List.map_map]; rfl
  have hnums := sortedSet_spec (rows.map Facet.spoNum)
  set nums := sortedSet (rows.map Facet.spoNum) with hn
  have hmem : ∀ n, n ∈ nums ↔ ∃ f ∈ rows, f.spoNum = n := by
    intro n; rw [hnums.2]; simp [eq_comm]
  set ws := nums.map (windowSpec off (rows.zip ((rows.map pos).map ((translation2aff c)⁻¹ * ·)))) with hws
  have hlen : ws.length = nums.length := by rw [hws]; simp
  have hpar : mechPar ch off P name rows = .ok (⟨translation2aff c * P, 1, ws.map (·.pos), List.replicate ws.length 1,
      [("elem_args", .list ((List.range ws.length).map .obj)),
       ("elem_pos", .list (ws.map fun w => .list (w.gratPos.map .mat4))),
       ("id_num_offset", .list (ws.map fun w => .num w.idStart)),
       ("id_col", .str "window")], off, name⟩, ws) := by
    have hd : ¬ (translation2aff c * P).det = 0 := by
      rw [det_mul, translation2aff_det, one_mul]; exact hP
    simp only [mechPar, hne, if_false]
    rw [show (List.map (fun f => mirrMat ch * f.pos4d) rows) = rows.map pos from rfl]
    rw [hcent]
    simp only [hd, if_false]
    rfl
  have hrec : ∀ w, Recomposes (translation2aff w) := by
    intro w
    have h : translation2aff w = compose w 1 1 := by
      ext i j; fin_cases i <;> fin_cases j <;> simp [translation2aff, compose]
    rw [h]; exact recomposes_orth _ _ _ (by simp) (by simp)
  -- the outer container
  obtain ⟨es, hes, heslen, hesP⟩ := genFrom_exists (dec := decompose44)
    (c := ⟨translation2aff c * P, 1, ws.map (·.pos), List.replicate ws.length 1,
      [("elem_args", .list ((List.range ws.length).map .obj)),
       ("elem_pos", .list (ws.map fun w => .list (w.gratPos.map .mat4))),
       ("id_num_offset", .list (ws.map fun w => .num w.idStart)),
       ("id_col", .str "window")], off, name⟩)
    (fun i e => ∃ w, ws[i]? = some w ∧ e = ⟨translation2aff c * P * 1 * w.pos, off + i,
      [("elem_args", .obj i), ("elem_pos", .list (w.gratPos.map .mat4)), ("id_num_offset", .num w.idStart),
       ("id_col", .str "window"), ("name", .str ("Elem " ++ toString i ++ " in " ++ name))]⟩) 0 ws.length (by
    intro k hk
    rw [zero_add]
    obtain ⟨w, hw⟩ : ∃ w, ws[k]? = some w := ⟨_, List.getElem?_eq_getElem hk⟩
    refine ⟨_, genOne_recomposes _ ?_ (p := w.pos) ?_ ?_ ?_, w, hw, rfl⟩
    · have he : addName k name (specificArgs (ws.map (·.pos)).length k
          [("elem_args", .list ((List.range ws.length).map .obj)),
           ("elem_pos", .list (ws.map fun w => .list (w.gratPos.map .mat4))),
           ("id_num_offset", .list (ws.map fun w => .num w.idStart)),
           ("id_col", .str "window")]) = [("elem_args", .obj k), ("elem_pos", .list (w.gratPos.map .mat4)), ("id_num_offset", .num w.idStart),
       ("id_col", .str "window"), ("name", .str ("Elem " ++ toString k ++ " in " ++ name))] := by
        have hr : (List.range ws.length)[k]? = some k := by simp [hk]
        simp [addName, specificArgs, Kwargs.get?, List.getElem?_map, hw, hr]
      rw [he, parse_plain _ (by simp [Kwargs.get?]) (by simp [Kwargs.get?]) (by simp [Kwargs.get?]) (by simp [Kwargs.get?])]
      simp [Kwargs.pop]
    · simp [hk]
    · simp [List.getElem?_map, hw]
    · have : w ∈ ws := List.mem_of_getElem? hw
      rw [hws] at this
      obtain ⟨n, hn', rfl⟩ := List.mem_map.1 this
      obtain ⟨v, first, -, hv⟩ := hwin n ((hmem n).1 hn')
      rw [hv]; exact hrec v)
  -- the windows
  obtain ⟨wins, hwins, hwlen, hwP⟩ := mapM_exists (f := fun e =>
      match catWindow (ws.map (·.periods)) os e with
      | .error e => .error e
      | .ok c => generateElements decompose44 c)
    (fun k gs => ∀ n, nums[k]? = some n → ∃ first,
        (rows.filter fun f => f.spoNum = n).head? = some first ∧
        gs.length = (rows.filter fun f => f.spoNum = n).length ∧
        ∀ (j : ℕ) (g : GenElem), gs[j]? = some g → ∃ f, (rows.filter fun f => f.spoNum = n)[j]? = some f ∧
          g = ⟨translation2aff c * P * (translation2aff (-c) * pos f), off + first.facetNum + j,
            [("d", .num f.period), ("order_selector", .obj os), ("id_col", .str "facet"),
             ("name", .str ("Elem " ++ toString j ++ " in " ++ ("Elem " ++ toString k ++ " in " ++ name)))]⟩) es 0 (by
    intro k e hke
    obtain ⟨w, hw, he⟩ := hesP k e hke
    rw [zero_add] at *
    obtain ⟨n, hnk, hwn⟩ : ∃ n, nums[k]? = some n ∧ windowSpec off (rows.zip ((rows.map pos).map ((translation2aff c)⁻¹ * ·))) n = w := by
      rw [hws, List.getElem?_map] at hw
      simpa using hw
    have hnm : n ∈ nums := List.mem_of_getElem? hnk
    obtain ⟨v, first, hfirst, hv⟩ := hwin n ((hmem n).1 hnm)
    rw [hv] at hwn
    subst hwn
    set fs := rows.filter fun f => f.spoNum = n with hfs
    set nm := "Elem " ++ toString k ++ " in " ++ name with hnm'
    set kpar : Par := ⟨translation2aff c * P * 1 * translation2aff v, 1,
      fs.map fun f => translation2aff (-v) * (translation2aff (-c) * pos f), List.replicate fs.length 1,
      [("d", .list ((fs.map Facet.period).map .num)), ("order_selector", .obj os), ("id_col", .str "facet")],
      off + first.facetNum, nm⟩ with hk
    have hcw : catWindow (ws.map (·.periods)) os e = .ok kpar := by
      have hdet : ¬ (translation2aff c * P * 1 * translation2aff v).det = 0 := by
        rw [det_mul, mul_one, det_mul, translation2aff_det, translation2aff_det, one_mul, mul_one]; exact hP
      rw [he]
      simp only [catWindow, Kwargs.get?]
      have hl := listMats_map (fs.map fun f => translation2aff (-v) * (translation2aff (-c) * pos f))
      rw [List.map_map] at hl
      simp [List.getElem?_map, hw, hk, hl, translation2aff_det, hP]
    rw [hcw]
    obtain ⟨gs, hgs, hgl, hgP⟩ := genFrom_exists (dec := decompose44) (c := kpar)
      (fun j g => ∃ f, fs[j]? = some f ∧
          g = ⟨translation2aff c * P * (translation2aff (-c) * pos f), off + first.facetNum + j,
            [("d", .num f.period), ("order_selector", .obj os), ("id_col", .str "facet"),
             ("name", .str ("Elem " ++ toString j ++ " in " ++ nm))]⟩) 0 fs.length (by
      intro j hj
      rw [zero_add]
      obtain ⟨f, hf⟩ : ∃ f, fs[j]? = some f := ⟨_, List.getElem?_eq_getElem hj⟩
      have hg := genOne_recomposes (c := kpar) (i := j) (p := translation2aff (-v) * (translation2aff (-c) * pos f))
        [("d", .num f.period), ("order_selector", .obj os), ("id_col", .str "facet"),
             ("name", .str ("Elem " ++ toString j ++ " in " ++ nm))] ?_ ?_ ?_ ?_
      · refine ⟨_, hg, f, hf, ?_⟩
        congr 1
        simp only [hk, mul_one]
        rw [mul_assoc _ (translation2aff v), ← mul_assoc (translation2aff v), translation2aff_mul, add_neg_cancel, translation2aff_zero, one_mul]
      · have he : addName j kpar.name (specificArgs kpar.elemPos.length j kpar.elemArgs) = [("d", .num f.period), ("order_selector", .obj os), ("id_col", .str "facet"),
             ("name", .str ("Elem " ++ toString j ++ " in " ++ nm))] := by
          simp [addName, specificArgs, Kwargs.get?, List.getElem?_map, hf, hk]
        rw [he, parse_plain _ (by simp [Kwargs.get?]) (by simp [Kwargs.get?]) (by simp [Kwargs.get?]) (by simp [Kwargs.get?])]
        simp [Kwargs.pop]
      · simp [hk, hj]
      · simp [hk, List.getElem?_map, hf]
      · rw [hposc, translation_compose, translation_compose]
        have hfo := hok f (List.mem_filter.1 (List.mem_of_getElem? hf)).1
        refine recomposes_orth _ _ _ (mirr3_orth ch _ hfo.1) ?_
        intro i
        have := hfo.2.1
        have := hfo.2.2
        fin_cases i <;> simp <;> linarith)
    refine ⟨gs, ?_, ?_⟩
    · simp only [generateElements]
      rw [show kpar.elemPos.length = fs.length by simp [hk]]
      exact hgs
    · intro n' hn'
      obtain rfl : n = n' := by rw [hnk] at hn'; simpa using hn'
      refine ⟨first, hfirst, hgl, ?_⟩
      intro j g hg
      have := hgP j g hg
      rwa [zero_add] at this)
  refine ⟨wins, nums, ?_, hnums.1, hmem, ?_, ?_⟩
  · simp only [catFromMechanical, hpar, generateElements, List.length_map]
    rw [hes]
    exact hwins
  · rw [hwlen, heslen, hlen]
  · intro k n hk
    have hkl : k < nums.length := (List.getElem?_eq_some_iff.1 hk).1
    obtain ⟨gs, hgs⟩ : ∃ gs, wins[k]? = some gs :=
      ⟨_, List.getElem?_eq_getElem (by rw [hwlen, heslen, hlen]; exact hkl)⟩
    have h := hwP k gs hgs
    rw [zero_add] at h
    obtain ⟨first, h1, h2, h3⟩ := h n hk
    refine ⟨gs, first, hgs, h1, h2, ?_⟩
    intro j f hf
    have hjl : j < gs.length := by rw [h2]; exact (List.getElem?_eq_some_iff.1 hf).1
    obtain ⟨g, hg⟩ : ∃ g, gs[j]? = some g := ⟨_, List.getElem?_eq_getElem hjl⟩
    obtain ⟨f', hf', hgeq⟩ := h3 j g hg
    obtain rfl : f = f' := by rw [hf] at hf'; simpa using hf'
    refine ⟨g, hg, by rw [hgeq], by rw [hgeq]; simp, by rw [hgeq]; simp, by rw [hgeq]; simp, ?_⟩
    intro mirrored c' p
    rw [hgeq]
    simp only
    rw [← Matrix.mulVec_mulVec, ← Matrix.mulVec_mulVec, ← Matrix.mulVec_mulVec, mirr_point, translation_hom']
    congr 3
    rw [neg_add_eq_sub]

theorem sum_indicator (l : List ℤ) (hnd : l.Nodup) (a : ℤ) (ha : a ∈ l) :
    (l.map fun n => if a = n then 1 else 0).sum = 1 := by
  induction l with
  | nil => simp at ha
  | cons b l ih =>
    rw [List.nodup_cons] at hnd
    by_cases hb : a = b
    · subst hb
      have h0 : (l.map fun n => if a = n then 1 else 0) = l.map fun _ => 0 :=
        List.map_congr_left fun n hn => by
          have : a ≠ n := fun h => hnd.1 (h ▸ hn)
          simp [this]
      simp [h0]
    · have := ih hnd.2 (by simpa [hb] using ha)
      simp [hb, this]

/-- **C124** When the petal is only shifted (as it is in Arcus), the gratings are where the table says, mirrored for the
channel and shifted. -/
theorem C124_shifted (ch : String) (off : ℤ) (v : Fin 3 → ℝ) (name : String) (os : ℕ) (rows : List Facet) (hne : rows ≠ [])
    (hok : ∀ f ∈ rows, f.Ok) :
    ∃ wins : List (List GenElem), catFromMechanical ch off (translation2aff v) name os rows = .ok wins ∧
      (wins.map List.length).sum = rows.length ∧
      (∀ f ∈ rows, ∃ gs ∈ wins, ∃ g ∈ gs, ("d", .num f.period) ∈ g.args ∧
        ∀ p, g.pos4d *ᵥ hom p = hom (v + mirrorPoint ('m' ∉ ch.toList) ('2' ∈ ch.toList) (f.point p))) := by
  obtain ⟨wins, nums, hw, hlt, hmem, hlen, h⟩ := C124_gratings ch off (translation2aff v) name os rows hne hok
    (by rw [translation2aff_det]; norm_num)
  refine ⟨wins, hw, ?_, ?_⟩
  · have hl : wins.map List.length = nums.map fun n => (rows.filter fun f => f.spoNum = n).length := by
      refine List.ext_getElem? fun k => ?_
      rw [List.getElem?_map, List.getElem?_map]
      cases hk : nums[k]? with
      | none =>
        rw [List.getElem?_eq_none (by rw [hlen]; exact List.getElem?_eq_none_iff.1 hk)]; rfl
      | some n =>
        obtain ⟨gs, first, h1, -, h3, -⟩ := h k n hk
        rw [h1]; simp [h3]
    rw [hl]
    have hnd : nums.Nodup := hlt.imp (fun h => ne_of_lt h)
    have key : ∀ l : List Facet, (∀ f ∈ l, f.spoNum ∈ nums) →
        (nums.map fun n => (l.filter fun f => f.spoNum = n).length).sum = l.length := by
      intro l
      induction l with
      | nil => intro _; simp
      | cons a l ih =>
        intro hl
        have h1 := ih (fun f hf => hl f (List.mem_cons_of_mem _ hf))
        have h2 : (fun n => ((a :: l).filter fun f => f.spoNum = n).length) =
            fun n => (if a.spoNum = n then 1 else 0) + (l.filter fun f => f.spoNum = n).length := by
          ext n
          rw [List.filter_cons]
          by_cases hn : a.spoNum = n <;> simp [hn, add_comm]
        rw [h2, List.sum_map_add, h1]
        have h3 : (nums.map fun n => if a.spoNum = n then 1 else 0).sum = 1 := by
          exact sum_indicator nums hnd _ (hl a List.mem_cons_self)
        rw [h3]; simp [add_comm]
    exact key rows fun f hf => (hmem _).2 ⟨f, hf, rfl⟩
  · intro f hf
    obtain ⟨k, hk⟩ := List.getElem?_of_mem ((hmem f.spoNum).2 ⟨f, hf, rfl⟩)
    obtain ⟨gs, first, h1, -, -, h4⟩ := h k _ hk
    obtain ⟨j, hj⟩ := List.getElem?_of_mem (List.mem_filter (p := fun f' => decide (f'.spoNum = f.spoNum)) |>.2 ⟨hf, by simp⟩)
    obtain ⟨g, hg, -, hd, -, -, hp⟩ := h4 j f hj
    refine ⟨gs, List.mem_of_getElem? h1, g, List.mem_of_getElem? hg, hd, ?_⟩
    intro p
    rw [hp p, translation_hom', translation_hom']
    congr 1
    ext i
    simp
    ring

/-- **C124** A table without rows, or a position that cannot be inverted, is refused. -/
theorem C124_refused (ch : String) (off : ℤ) (P : M4) (name : String) (os : ℕ) (rows : List Facet) :
    catFromMechanical ch off P name os [] = .error .indexError ∧
    (P.det = 0 → rows ≠ [] → catFromMechanical ch off P name os rows = .error .valueError) := by
  refine ⟨by simp [catFromMechanical, mechPar], ?_⟩
  intro h hr
  simp [catFromMechanical, mechPar, hr, det_mul, h]

/-- A facet for examples. -/
noncomputable def exFacet (n s : ℤ) (x : ℝ) : Facet :=
  ⟨n, s, 2e-4, 20, 30, ![x, 500, 11000], ![0, 0, -1], ![1, 0, 0], ![0, -1, 0]⟩

theorem exFacet_ok (n s : ℤ) (x : ℝ) : (exFacet n s x).Ok := by
  refine ⟨?_, by norm_num [exFacet], by norm_num [exFacet]⟩
  ext i j
  fin_cases i <;> fin_cases j <;> simp [exFacet, Facet.rot, Matrix.mul_apply, Fin.sum_univ_succ]

/-! Non-vacuity: two windows, three facets, with a petal that is moved. -/
example : (∀ f ∈ [exFacet 1 7 10, exFacet 2 7 40, exFacet 3 5 70], f.Ok) ∧ (translation2aff ![0, 0, 5]).det ≠ 0 :=
  ⟨by intro f hf; simp at hf; rcases hf with rfl | rfl | rfl <;> exact exFacet_ok _ _ _, by rw [translation2aff_det]; norm_num⟩

/-- **C124** The number of a grating is not in general the number of its facet in the table: with facets 0 and 5 in one window and facet 1 in the
next, two different gratings have the number 1. -/
theorem C124_numbers_false : ∃ (rows : List Facet) (wins : List (List GenElem)) (g g' : GenElem) (gs gs' : List GenElem),
    (∀ f ∈ rows, f.Ok) ∧ (rows.map Facet.facetNum).Nodup ∧ catFromMechanical "1m" 0 1 "gas" 0 rows = .ok wins ∧
    wins[0]? = some gs ∧ wins[1]? = some gs' ∧ g ∈ gs ∧ g' ∈ gs' ∧ g.idNum = 1 ∧ g'.idNum = 1 := by
  have hok : ∀ f ∈ [exFacet 0 1 10, exFacet 5 1 40, exFacet 1 2 70], f.Ok := by
    intro f hf; simp at hf; rcases hf with rfl | rfl | rfl <;> exact exFacet_ok _ _ _
  obtain ⟨wins, nums, hw, hlt, hmem, hlen, h⟩ := C124_gratings "1m" 0 1 "gas" 0
    [exFacet 0 1 10, exFacet 5 1 40, exFacet 1 2 70] (by simp) hok (by simp)
  have hn : nums = [1, 2] := by
    refine List.Perm.eq_of_pairwise (le := (· < ·)) ?_ hlt (by simp) ?_
    · intro a b _ _ h1 h2; omega
    · rw [List.perm_ext_iff_of_nodup (hlt.imp (fun h => ne_of_lt h)) (by simp)]
      intro n
      rw [hmem]
      simp [exFacet, eq_comm]
  subst hn
  obtain ⟨gs, first, h1, h2, h3, h4⟩ := h 0 1 rfl
  obtain ⟨gs', first', h1', h2', h3', h4'⟩ := h 1 2 rfl
  have f1 : ([exFacet 0 1 10, exFacet 5 1 40, exFacet 1 2 70].filter fun f => f.spoNum = 1) = [exFacet 0 1 10, exFacet 5 1 40] := by
    simp [exFacet, List.filter]
  have f2 : ([exFacet 0 1 10, exFacet 5 1 40, exFacet 1 2 70].filter fun f => f.spoNum = 2) = [exFacet 1 2 70] := by
    simp [exFacet, List.filter]
  rw [f1] at h2 h4
  rw [f2] at h2' h4'
  obtain ⟨g, hg, hi, -⟩ := h4 1 _ rfl
  obtain ⟨g', hg', hi', -⟩ := h4' 0 _ rfl
  simp at h2 h2'
  subst h2 h2'
  exact ⟨_, wins, g, g', gs, gs', hok, by simp [exFacet], hw, h1, h1', List.mem_of_getElem? hg,
    List.mem_of_getElem? hg', by rw [hi]; simp [exFacet], by rw [hi']; simp [exFacet]⟩

end Marxs
