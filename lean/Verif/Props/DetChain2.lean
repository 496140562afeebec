import Verif.Props.DetChain

/-!
# C141: more on what is recorded at the end of a telescope

Projections, and arrays of detectors in which several detectors write in the same columns.
-/

namespace Marxs
open Classical

theorem det_cols_in {e : Det} {tA tE : Table} (hE : e.call tA = .ok tE) {i : ℕ} {rA : Row} {d p : H4} (hrA : tA.rows[i]? = some rA) (fA : rA.Flies d p)
    {q : H4} {x y : ℝ} (hq : e.surf.hit d p = some (q, x, y)) : ∀ c ∈ (Recorder.det e).columns, c ∈ tE.names := by
  have hcall := det_call_proc hE
  have hcn : countTrue (tA.rows.map fun r => (e.rowHit r).isSome) ≠ 0 := by
    have hm : (tA.rows.map fun r => (e.rowHit r).isSome)[i]? = some true := by
      simp [hrA, rowHit_flies (e := e) fA, hq]
    have := rank_lt hm
    omega
  obtain ⟨t2, t3, t4, h2, h3, h4, h5⟩ := processPhotons_ok hcall hcn
  have n5 := setCol_names h5
  have n4 : ∀ c ∈ t3.names, c ∈ t4.names := by
    intro c hc
    simp only [assignId] at h4
    split at h4
    · cases h4; exact hc
    · rw [(setCol_names h4).1]; exact hc
  simp only [assignLoc, Det.elem] at h3
  split at h3
  · cases h3
  rename_i t2b h2b
  have n3 := setCol_names h3
  have n2b := setCol_names h2b
  have hk := keys_names (e := e.elem) (c := e.pix.1) rfl rfl (by simp) (by simp) (by simp) hcall hcn
  have hk2 := keys_names (e := e.elem) (c := e.pix.2) rfl rfl (by simp) (by simp) (by simp) hcall hcn
  intro c hc
  simp only [Recorder.columns, List.mem_append, List.mem_cons, List.not_mem_nil, or_false, Option.mem_toList] at hc
  rcases hc with (hc | hc | hc | hc) | hc
  · rw [hc, n5.1]; apply n4; rw [n3.1]; exact n2b.1 ▸ n2b.2
  · rw [hc, n5.1]; apply n4; rw [n3.1]; exact n3.2
  · rw [hc]; exact hk (by simp [keysOf])
  · rw [hc]; exact hk2 (by simp [keysOf])
  · have hc' : e.elem.idCol = some c := hc
    simp only [assignId, hc'] at h4
    rw [n5.1, (setCol_names h4).1]; exact (setCol_names h4).2

/-- A column stays as it is while the photon passes elements that use other columns and detectors that it misses. -/
theorem keep_missed {l : List Recorder} {t t' : Table} (hg : ∀ x ∈ l, x.Good) (h : recordAll l t = .ok t') (hn : "dir" ∈ t.names ∧ "pos" ∈ t.names)
    {i : ℕ} {r r' : Row} {d p : H4} (hr : t.rows[i]? = some r) (hr' : t'.rows[i]? = some r') (hf : r.Flies d p) {c : String} (hc : c ∈ t.names) (hcp : c ≠ "pos")
    (hm : ∀ A x B, l = A ++ x :: B → c ∈ x.columns → ∃ e, x = .det e ∧ e.surf.hit d (stopAfter A d p) = none) : r' c = r c := by
  induction l generalizing t r p with
  | nil =>
    simp only [recordAll, Except.ok.injEq] at h
    subst h
    rw [hr] at hr'; cases hr'; rfl
  | cons x l ih =>
    obtain ⟨t1, h1, h2⟩ := names_ok h
    have gx := hg x (by simp)
    obtain ⟨a1, a2, a3⟩ := record_step gx h1
    obtain ⟨b1, -, -⟩ := record_chain (fun y hy => hg y (by simp [hy])) h2 ⟨a2 _ hn.1, a2 _ hn.2⟩
    obtain ⟨r1, hr1⟩ := get_of_len b1 hr'
    obtain ⟨f1, k1⟩ := a3 i r r1 d p hr hr1 hf hn
    have e1 : r1 c = r c := by
      by_cases hcx : c ∈ x.columns
      · obtain ⟨e, rfl, he⟩ := hm [] x l rfl hcx
        exact (((det_step gx h1).2.2 i r r1 d p hr hr1 hf).1 he).1 c hc
      · exact k1 c hc hcx hcp
    rw [← e1]
    refine ih (fun y hy => hg y (by simp [hy])) h2 ⟨a2 _ hn.1, a2 _ hn.2⟩ hr1 f1 (a2 _ hc) ?_
    intro A y B hl hcy
    obtain ⟨e, rfl, he⟩ := hm (x :: A) y B (by rw [hl]; rfl) hcy
    refine ⟨e, rfl, ?_⟩
    have : stopAfter (x :: A) d p = stopAfter A d (stopAfter [x] d p) := by
      cases x <;> rfl
    rw [← this]; exact he

/-- **C141** (recorded by one detector of an array): the columns of the detector that is hit keep number, coordinates and pixels, if all elements behind it that write in
the same columns are detectors that the photon misses. -/
theorem C141_recorded_in_array {A B : List Recorder} {e : Det} {t t' : Table} (hg : ∀ x ∈ A ++ .det e :: B, x.Good)
    (h : recordAll (A ++ .det e :: B) t = .ok t') (hn : "dir" ∈ t.names ∧ "pos" ∈ t.names)
    {i : ℕ} {r r' : Row} {d p q : H4} {x y : ℝ} (hr : t.rows[i]? = some r) (hr' : t'.rows[i]? = some r') (hf : r.Flies d p) (hd : IsDir d) (hp : IsPoint p)
    (hq : e.surf.hit d (stopAfter A d p) = some (q, x, y))
    (hB : ∀ c ∈ (Recorder.det e).columns, ∀ B1 z B2, B = B1 ++ z :: B2 → c ∈ z.columns → ∃ e', z = .det e' ∧ e'.surf.hit d (stopAfter B1 d q) = none) :
    r' e.loc.1 = .num (some x) ∧ r' e.loc.2 = .num (some y) ∧ (∀ c, e.idCol = some c → r' c = .int e.idNum) ∧
      (e.pix.1 ≠ e.loc.1 → e.pix.1 ≠ e.loc.2 → e.idCol ≠ some e.pix.1 → r' e.pix.1 = .num (some (e.pixel x y).1)) ∧
      (e.pix.2 ≠ e.loc.1 → e.pix.2 ≠ e.loc.2 → e.idCol ≠ some e.pix.2 → r' e.pix.2 = .num (some (e.pixel x y).2)) := by
  obtain ⟨tA, hA, h2⟩ := (recordAll_append _ _ _ _).1 h
  obtain ⟨tE, hE, hBr⟩ := names_ok h2
  have gA : ∀ x ∈ A, x.Good := fun x hx => hg x (by simp [hx])
  have gB : ∀ x ∈ B, x.Good := fun x hx => hg x (by simp [hx])
  have gE : (Recorder.det e).Good := hg _ (by simp)
  obtain ⟨a1, a2, a3⟩ := record_chain gA hA hn
  obtain ⟨e1, e2, e3⟩ := det_step gE hE
  have nE : "dir" ∈ tE.names ∧ "pos" ∈ tE.names := ⟨e2 _ (a2 _ hn.1), e2 _ (a2 _ hn.2)⟩
  obtain ⟨b1, -, -⟩ := record_chain gB hBr nE
  obtain ⟨rE, hrE⟩ := get_of_len b1 hr'
  obtain ⟨rA, hrA⟩ := get_of_len e1 hrE
  obtain ⟨fA, -⟩ := a3 i r rA d p hr hrA hf
  obtain ⟨-, m2⟩ := e3 i rA rE d _ hrA hrE fA
  obtain ⟨fE, -⟩ := (record_step gE hE).2.2 i rA rE d _ hrA hrE fA ⟨a2 _ hn.1, a2 _ hn.2⟩
  have fE' : rE.Flies d q := by simpa only [stopAfter, hq] using fE
  obtain ⟨-, m2b, m2c, m2d, m2e, m2f, -⟩ := m2 q x y hq
  have keep : ∀ c ∈ (Recorder.det e).columns, r' c = rE c := fun c hc =>
    keep_missed gB hBr nE hrE hr' fE' (det_cols_in hE hrA fA hq c hc) (gE.2.2.2.2.2 c hc).1 (hB c hc)
  have hm : ∀ c, c = e.loc.1 ∨ c = e.loc.2 ∨ c = e.pix.1 ∨ c = e.pix.2 ∨ e.idCol = some c → c ∈ (Recorder.det e).columns := by
    intro c hc
    simpa [Recorder.columns] using hc
  refine ⟨?_, ?_, ?_, ?_, ?_⟩
  · rw [keep _ (hm _ (by simp)), m2b]
  · rw [keep _ (hm _ (by simp)), m2c]
  · intro c hc; rw [keep _ (hm _ (by simp [hc])), m2d c hc]
  · intro x1 x2 x3; rw [keep _ (hm _ (by simp)), m2e x1 x2 x3]
  · intro x1 x2 x3; rw [keep _ (hm _ (by simp)), m2f x1 x2 x3]

/-- **C141** Camera of Arcus: a photon that hits one CCD and none of the CCDs that are called after it ends with the number, the coordinates and the pixels of this CCD. -/
theorem C141_arcus_ccd {es1 es2 : List GenElem} {g : GenElem} {px R D : ℝ} {t t' : Table}
    (hg : ∀ z ∈ arcusDetectors ((es1 ++ g :: es2).map (arcusCcd px)) R D, z.Good)
    (h : recordAll (arcusDetectors ((es1 ++ g :: es2).map (arcusCcd px)) R D) t = .ok t') (hn : "dir" ∈ t.names ∧ "pos" ∈ t.names)
    {i : ℕ} {r r' : Row} {d p q : H4} {x y : ℝ} (hr : t.rows[i]? = some r) (hr' : t'.rows[i]? = some r') (hf : r.Flies d p) (hd : IsDir d) (hp : IsPoint p)
    (hq : planeIntersect g.pos4d d (stopAfter ([.det (arcusCirc R D), .project ⟨compose 0 zxyOrient 1, ("projcirc_x", "projcirc_y")⟩, .propagate (-100)] ++
      (es1.map (arcusCcd px)).map .det) d p) = some (q, x, y))
    (hmiss : ∀ g' ∈ es2, planeIntersect g'.pos4d d q = none) :
    r' "CCD" = .int g.idNum ∧ r' "det_x" = .num (some x) ∧ r' "det_y" = .num (some y) ∧
    r' "detpix_x" = .num (some (detpix ((decompose44 g.pos4d).z 1) px x)) ∧ r' "detpix_y" = .num (some (detpix ((decompose44 g.pos4d).z 2) px y)) := by
  set A : List Recorder := [.det (arcusCirc R D), .project ⟨compose 0 zxyOrient 1, ("projcirc_x", "projcirc_y")⟩, .propagate (-100)] ++ (es1.map (arcusCcd px)).map .det with hA
  set B : List Recorder := (es2.map (arcusCcd px)).map .det ++ [.project ⟨compose 0 zxyOrient 1, ("proj_x", "proj_y")⟩, .det arcusDetfp] with hBdef
  have el : arcusDetectors ((es1 ++ g :: es2).map (arcusCcd px)) R D = A ++ .det (arcusCcd px g) :: B := by
    simp [arcusDetectors, hA, hBdef]
  rw [el] at hg h
  have stay : ∀ es : List GenElem, (∀ g' ∈ es, planeIntersect g'.pos4d d q = none) → stopAfter ((es.map (arcusCcd px)).map .det) d q = q := by
    intro es hes
    induction es with
    | nil => rfl
    | cons a es ih =>
      have h0 : (arcusCcd px a).surf.hit d q = none := hes a (by simp)
      simp only [List.map_cons, stopAfter, h0]
      exact ih fun g' hg' => hes g' (by simp [hg'])
  have hB : ∀ c ∈ (Recorder.det (arcusCcd px g)).columns, ∀ B1 z B2, B = B1 ++ z :: B2 → c ∈ z.columns → ∃ e', z = .det e' ∧ e'.surf.hit d (stopAfter B1 d q) = none := by
    intro c hc B1 z B2 hB hz
    have hlen : B1.length < es2.length := by
      by_contra hlen
      push Not at hlen
      have hzB : z ∈ [Recorder.project ⟨compose 0 zxyOrient 1, ("proj_x", "proj_y")⟩, .det arcusDetfp] := by
        have h1 : B[B1.length]? = some z := by rw [hB]; simp
        rw [hBdef, List.getElem?_append_right (by simpa using hlen)] at h1
        exact List.mem_of_getElem? h1
      simp only [List.mem_cons, List.not_mem_nil, or_false] at hzB
      rcases hzB with rfl | rfl <;> simp [Recorder.columns, arcusCcd, arcusDetfp] at hc hz <;> rcases hc with rfl | rfl | rfl | rfl | rfl <;> simp at hz
    have h1 : B[B1.length]? = some z := by rw [hB]; simp
    have h2 : B.take B1.length = B1 := by rw [hB]; simp
    rw [hBdef, List.getElem?_append_left (by simpa using hlen), List.getElem?_map, List.getElem?_map, List.getElem?_eq_getElem hlen] at h1
    simp only [Option.map_some, Option.some.injEq] at h1
    refine ⟨_, h1.symm, ?_⟩
    rw [hBdef, List.take_append_of_le_length (by simpa using hlen.le), ← List.map_take, ← List.map_take] at h2
    have h3 : stopAfter B1 d q = q := by
      have := stay (es2.take B1.length) fun g' hg' => hmiss g' (List.mem_of_mem_take hg')
      rwa [h2] at this
    rw [h3]
    exact hmiss _ (List.getElem_mem hlen)
  obtain ⟨m1, m2, m3, m4, m5⟩ := C141_recorded_in_array hg h hn hr hr' hf hd hp (e := arcusCcd px g) hq hB
  exact ⟨m3 "CCD" rfl, m1, m2, m4 (by simp [arcusCcd]) (by simp [arcusCcd]) (by simp [arcusCcd]), m5 (by simp [arcusCcd]) (by simp [arcusCcd]) (by simp [arcusCcd])⟩

/-- **C141** (projected): a `ProjectOntoPlane` records the coordinates, along the two axes of its plane and relative to its center, of the place where the photon is at this
moment: on the last detector it hit, or where a `Propagator` put it. -/
theorem C141_projected {A B : List Recorder} {pl : ProjPlane} {t t' : Table} (hg : ∀ x ∈ A ++ .project pl :: B, x.Good)
    (h : recordAll (A ++ .project pl :: B) t = .ok t') (hn : "dir" ∈ t.names ∧ "pos" ∈ t.names) (hB : ∀ c ∈ (Recorder.project pl).columns, c ∉ ownColumns B)
    {i : ℕ} {r r' : Row} {d p : H4} (hr : t.rows[i]? = some r) (hr' : t'.rows[i]? = some r') (hf : r.Flies d p) :
    r' pl.names.1 = .num (some (((stopAfter A d p).xyz - (center pl.pos4d).xyz).dot (eY pl.pos4d).xyz)) ∧
    r' pl.names.2 = .num (some (((stopAfter A d p).xyz - (center pl.pos4d).xyz).dot (eZ pl.pos4d).xyz)) := by
  obtain ⟨tA, hA, h2⟩ := (recordAll_append _ _ _ _).1 h
  obtain ⟨tE, hE, hBr⟩ := names_ok h2
  have gA : ∀ x ∈ A, x.Good := fun x hx => hg x (by simp [hx])
  have gB : ∀ x ∈ B, x.Good := fun x hx => hg x (by simp [hx])
  have gE : (Recorder.project pl).Good := hg _ (by simp)
  obtain ⟨a1, a2, a3⟩ := record_chain gA hA hn
  obtain ⟨e1, e2, -, e4, e5, e3⟩ := project_step hE
  obtain ⟨b1, -, b3⟩ := record_chain gB hBr ⟨e2 _ (a2 _ hn.1), e2 _ (a2 _ hn.2)⟩
  obtain ⟨rE, hrE⟩ := get_of_len b1 hr'
  obtain ⟨rA, hrA⟩ := get_of_len e1 hrE
  obtain ⟨fA, -⟩ := a3 i r rA d p hr hrA hf
  obtain ⟨fE, -⟩ := (record_step gE hE).2.2 i rA rE d _ hrA hrE fA ⟨a2 _ hn.1, a2 _ hn.2⟩
  obtain ⟨-, keep⟩ := b3 i rE r' d _ hrE hr' fE
  obtain ⟨-, m1, m2⟩ := e3 i rA rE hrA hrE
  have e : ∀ v w : V3, -v + w = w - v := by intro v w; ext <;> simp <;> ring
  have hcells : projCells pl.pos4d (rA "pos") = (.num (some (((stopAfter A d p).xyz - (center pl.pos4d).xyz).dot (eY pl.pos4d).xyz)),
      .num (some (((stopAfter A d p).xyz - (center pl.pos4d).xyz).dot (eZ pl.pos4d).xyz))) := by
    rw [fA.2, projCells, toH4_vecCell, ← e]
  rw [hcells] at m1 m2
  have c1 : pl.names.1 ∈ (Recorder.project pl).columns := by simp [Recorder.columns]
  have c2 : pl.names.2 ∈ (Recorder.project pl).columns := by simp [Recorder.columns]
  exact ⟨by rw [keep _ e4 (hB _ c1) (gE.2.2 _ c1).1, m1 gE.2.1], by rw [keep _ e5 (hB _ c2) (gE.2.2 _ c2).1, m2]⟩

/-- **C141** No column of a detector is used twice by the same detector, but for the imaging detectors of AXIS and Athena (see `C141_pixels_false`). -/
theorem C141_columns (T : Torus) (m : M4) (px R D : ℝ) (g : GenElem) :
    ∀ e ∈ [detcirc T, flatdet m, lynxMicrocal, arcusCirc R D, arcusDetfp, arcusCcd px g], (Recorder.det e).columns.Nodup := by
  intro e he
  simp only [List.mem_cons, List.not_mem_nil, or_false] at he
  rcases he with rfl | rfl | rfl | rfl | rfl | rfl <;> simp [Recorder.columns, detcirc, flatdet, lynxMicrocal, arcusCirc, arcusDetfp, arcusCcd]

/-- A square of 2 mm by 2 mm, moved by `y`, for the example below. -/
private noncomputable def square (y : ℝ) : M4 := !![1, 0, 0, 0; 0, 1, 0, y; 0, 0, 1, 0; 0, 0, 0, 1]

private noncomputable def ccdPair (y : ℝ) (n : ℤ) : GenElem := ⟨square y, n, []⟩

private theorem square_compose (y : ℝ) : square y = compose ![0, y, 0] 1 1 := by
  ext i j; fin_cases i <;> fin_cases j <;> simp [square, compose, Matrix.one_apply]

private theorem square_vecs (y : ℝ) : center (square y) = ⟨0, y, 0, 1⟩ ∧ eX (square y) = ⟨1, 0, 0, 0⟩ ∧ eY (square y) = ⟨0, 1, 0, 0⟩ ∧ eZ (square y) = ⟨0, 0, 1, 0⟩ ∧
    (vY (square y)).norm = 1 ∧ (vZ (square y)).norm = 1 := by
  refine ⟨?_, ?_, ?_, ?_, ?_, ?_⟩ <;> simp [center, eX, eY, eZ, vX, vY, vZ, col, square, H4.unit, H4.norm, H4.dot] <;> first | rfl | (ext <;> simp)

private theorem ccdPair_good (y : ℝ) (n : ℤ) : (Recorder.det (arcusCcd 1 (ccdPair y n))).Good := by
  refine ⟨?_, by simp [arcusCcd], by simp [arcusCcd], by simp [arcusCcd], by simp [arcusCcd], ?_⟩
  · change Affine (square y) ∧ OrthoAxes (square y)
    rw [square_compose]
    refine ⟨affine_compose _ _ _, orthoAxes_compose _ _ _ ?_ ?_⟩
    · refine ⟨?_, ?_⟩ <;> simp
    · intro k; simp
  · intro c hc
    simp [Recorder.columns, arcusCcd] at hc
    rcases hc with rfl | rfl | rfl | rfl | rfl <;> simp

/-- A photon hits CCD 7 and misses CCD 8 next to it, which is called later: it is recorded as a photon on CCD 7; a projection behind it sees the same place. -/
example : ∃ t' r', recordAll [.det (arcusCcd 1 (ccdPair 0 7)), .det (arcusCcd 1 (ccdPair 3 8)), .project ⟨square 1, ("proj_x", "proj_y")⟩]
      (onePhoton ⟨-1, 0, 0, 0⟩ ⟨100, 1 / 2, 1 / 4, 1⟩) = .ok t' ∧ t'.rows[0]? = some r' ∧
      r' "CCD" = .int 7 ∧ r' "det_x" = .num (some (1 / 2)) ∧ r' "proj_x" = .num (some (-1 / 2)) ∧ r' "proj_y" = .num (some (1 / 4)) := by
  have hg : ∀ x ∈ [Recorder.det (arcusCcd 1 (ccdPair 0 7)), .det (arcusCcd 1 (ccdPair 3 8)), .project ⟨square 1, ("proj_x", "proj_y")⟩], x.Good := by
    intro x hx
    simp only [List.mem_cons, List.not_mem_nil, or_false] at hx
    rcases hx with rfl | rfl | rfl
    · exact ccdPair_good _ _
    · exact ccdPair_good _ _
    · exact ⟨by rw [square_compose]; exact affine_compose _ _ _, by simp, by simp [Recorder.columns]⟩
  obtain ⟨t', ht'⟩ := C141_runs (t := onePhoton ⟨-1, 0, 0, 0⟩ ⟨100, 1 / 2, 1 / 4, 1⟩) hg (by simp [onePhoton]) (onePhoton_all (by simp [IsDir]))
  obtain ⟨r', hr'⟩ : ∃ r', t'.rows[0]? = some r' := ⟨_, List.getElem?_eq_getElem (by rw [(record_chain hg ht' (by simp [onePhoton])).1]; simp [onePhoton])⟩
  obtain ⟨s1, s2, s3, s4, s5, s6⟩ := square_vecs 0
  obtain ⟨u1, u2, u3, u4, u5, u6⟩ := square_vecs 3
  obtain ⟨v1, v2, v3, v4, v5, v6⟩ := square_vecs 1
  have h1 : (arcusCcd 1 (ccdPair 0 7)).surf.hit ⟨-1, 0, 0, 0⟩ ⟨100, 1 / 2, 1 / 4, 1⟩ = some (⟨0, 1 / 2, 1 / 4, 1⟩, 1 / 2, 1 / 4) := by
    norm_num [arcusCcd, ccdPair, DetSurface.hit, planeIntersect, s1, s2, s3, s4, s5, s6, H4.dot, H4.ext_iff]
  have h2 : (arcusCcd 1 (ccdPair 3 8)).surf.hit ⟨-1, 0, 0, 0⟩ ⟨0, 1 / 2, 1 / 4, 1⟩ = none := by
    norm_num [arcusCcd, ccdPair, DetSurface.hit, planeIntersect, u1, u2, u3, u4, u5, u6, H4.dot, H4.ext_iff]
  refine ⟨t', r', ht', hr', ?_⟩
  have a := C141_recorded_in_array (A := []) (e := arcusCcd 1 (ccdPair 0 7)) hg ht' (by simp [onePhoton]) rfl hr' (onePhoton_flies _ _) (by simp [IsDir])
    (by simp [IsPoint]) h1 (by
      intro c hc B1 z B2 hB hz
      match B1, hB with
      | [], hB =>
        simp only [List.nil_append, List.cons.injEq] at hB
        exact ⟨_, hB.1.symm, h2⟩
      | [_], hB =>
        simp only [List.cons_append, List.nil_append, List.cons.injEq] at hB
        rw [← hB.2.1] at hz
        simp [Recorder.columns, arcusCcd] at hc hz
        rcases hc with rfl | rfl | rfl | rfl | rfl <;> simp at hz
      | _ :: _ :: _, hB => simp at hB)
  have b := C141_projected (A := [.det (arcusCcd 1 (ccdPair 0 7)), .det (arcusCcd 1 (ccdPair 3 8))]) (B := []) hg ht' (by simp [onePhoton]) (by simp [ownColumns]) rfl hr'
    (onePhoton_flies _ _)
  simp only [stopAfter, h1, h2, v1, v3, v4] at b
  refine ⟨a.2.2.1 "CCD" rfl, a.1, ?_, ?_⟩
  · rw [b.1]; norm_num [H4.xyz, V3.dot]
  · rw [b.2]; norm_num [H4.xyz, V3.dot]

end Marxs
