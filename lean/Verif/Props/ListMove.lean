import Verif.Spec.ListMove
import Verif.Props.ListChain

/-!
# C187: place and size of an instrument, for photon lists
-/

namespace Marxs
open Classical

theorem act_affine (g : Motion) {m : M4} (h : Affine m) : Affine (g.mat * m) := by
  obtain ⟨h1, h2, h3, h4⟩ := h
  refine ⟨?_, ?_, ?_, ?_⟩ <;> simp [Motion.mat, Matrix.mul_apply, Fin.sum_univ_four, h1, h2, h3, h4]

theorem act_placed (g : Motion) {m : M4} (h : Placed m) : Placed (g.mat * m) :=
  ⟨act_affine g h.1, by rw [Matrix.det_mul, g.mat_det, one_mul]; exact h.2⟩

theorem act_ortho (g : Motion) {m : M4} (ha : Affine m) (h : OrthoAxes m) : OrthoAxes (g.mat * m) := by
  have hx : (vX m).w = 0 := ha.1
  have hy : (vY m).w = 0 := ha.2.1
  have hz : (vZ m).w = 0 := ha.2.2.1
  have n : ∀ a : V3, a ≠ 0 → mul3 g.rot a ≠ 0 := fun a h => (Motion.rot_eq_zero g.isRot a).not.2 h
  constructor
  · rw [g.vX_mul, g.vY_mul, g.act_xyz hx, g.act_xyz hy, rotation_dot g.isRot]; exact h.xy
  · rw [g.vX_mul, g.vZ_mul, g.act_xyz hx, g.act_xyz hz, rotation_dot g.isRot]; exact h.xz
  · rw [g.vY_mul, g.vZ_mul, g.act_xyz hy, g.act_xyz hz, rotation_dot g.isRot]; exact h.yz
  · rw [g.vX_mul, g.act_xyz hx]; exact n _ h.x0
  · rw [g.vY_mul, g.act_xyz hy]; exact n _ h.y0
  · rw [g.vZ_mul, g.act_xyz hz]; exact n _ h.z0

theorem act_isPlaced (g : Motion) {o : Optic} (h : o.IsPlaced) : (g.actOptic o).IsPlaced := by
  cases o <;> first | exact act_placed g h | trivial

theorem act_sensible (g : Motion) {o : Optic} (h : o.Sensible) : (g.actOptic o).Sensible := by
  cases o with
  | plane | tube | filter | thin | scatter => exact act_affine g h
  | lens => exact ⟨act_affine g h.1, h.2⟩
  | grating => exact ⟨⟨act_affine g h.1.1, act_ortho g h.1.1 h.1.2⟩, h.2⟩
  | mirror => exact ⟨⟨act_placed g h.1.1, act_ortho g h.1.1.1 h.1.2⟩, h.2⟩
  | globalFilter | propagate => trivial

theorem enlarged_affine (c : ℝ) {m : M4} (h : Affine m) : Affine (enlargeMat c * m) := by
  obtain ⟨h1, h2, h3, h4⟩ := h
  refine ⟨?_, ?_, ?_, ?_⟩ <;> simp [enlargeMat, Matrix.mul_apply, Fin.sum_univ_four, h1, h2, h3, h4]

theorem enlarged_placed {c : ℝ} (hc : 0 < c) {m : M4} (h : Placed m) : Placed (enlargeMat c * m) :=
  ⟨enlarged_affine c h.1, by rw [Matrix.det_mul, enl_det]; exact mul_ne_zero (by positivity) h.2⟩

theorem enl_vX (c : ℝ) {m : M4} (h : Affine m) : vX (enlargeMat c * m) = c • vX m := by
  rw [show vX (enlargeMat c * m) = (vX m).enlarged c from enl_col c m 0, enl_dir c h.1]

theorem enlarged_ortho {c : ℝ} (hc : 0 < c) {m : M4} (ha : Affine m) (h : OrthoAxes m) : OrthoAxes (enlargeMat c * m) := by
  have d : ∀ a b : H4, a.xyz.dot b.xyz = 0 → (c • a).xyz.dot (c • b).xyz = 0 := fun a b h => by
    have : (c • a).xyz.dot (c • b).xyz = c * c * a.xyz.dot b.xyz := by simp [V3.dot, H4.xyz]; ring
    rw [this, h, mul_zero]
  have n : ∀ a : H4, a.xyz ≠ 0 → (c • a).xyz ≠ 0 := fun a h h0 => h (by
    have e : (c • a).xyz = c • a.xyz := by ext <;> simp [H4.xyz]
    rw [e] at h0
    have := congrArg V3.x h0; have h2 := congrArg V3.y h0; have h3 := congrArg V3.z h0
    simp [hc.ne'] at this h2 h3
    ext <;> simp [this, h2, h3])
  constructor
  · rw [enl_vX c ha, enl_vY c ha]; exact d _ _ h.xy
  · rw [enl_vX c ha, enl_vZ c ha]; exact d _ _ h.xz
  · rw [enl_vY c ha, enl_vZ c ha]; exact d _ _ h.yz
  · rw [enl_vX c ha]; exact n _ h.x0
  · rw [enl_vY c ha]; exact n _ h.y0
  · rw [enl_vZ c ha]; exact n _ h.z0

theorem enlarged_isPlaced {c : ℝ} (hc : 0 < c) {o : Optic} (h : o.IsPlaced) : (o.enlarged c).IsPlaced := by
  cases o <;> first | exact enlarged_placed hc h | trivial

theorem enlarged_sensible {c : ℝ} (hc : 0 < c) {o : Optic} (h : o.Sensible) : (o.enlarged c).Sensible := by
  cases o with
  | plane | tube | filter | thin | scatter => exact enlarged_affine c h
  | lens => exact ⟨enlarged_affine c h.1, h.2⟩
  | grating => exact ⟨⟨enlarged_affine c h.1.1, enlarged_ortho hc h.1.1 h.1.2⟩, h.2⟩
  | mirror => exact ⟨⟨enlarged_placed hc h.1.1, enlarged_ortho hc h.1.1.1 h.1.2⟩, h.2⟩
  | globalFilter | propagate => trivial

theorem photon_act (g : Motion) (o : ListOptic) (i : ℕ) : (g.actList o).photon i = g.actOptic (o.photon i) := by cases o <;> rfl

theorem photon_enlarged (c : ℝ) (o : ListOptic) (i : ℕ) : (o.enlarged c).photon i = (o.photon i).enlarged c := by cases o <;> rfl

theorem SoundList.moved (g : Motion) {os : List (ListOptic × ElemCols)} (h : SoundList os) : SoundList (os.map fun o => (g.actList o.1, o.2)) := by
  refine List.forall_mem_map.2 fun o ho => ⟨(h o ho).1, fun i => ?_⟩
  rw [photon_act]
  exact ⟨act_sensible g ((h o ho).2 i).1, act_isPlaced g ((h o ho).2 i).2⟩

theorem SoundList.enlarged {c : ℝ} (hc : 0 < c) {os : List (ListOptic × ElemCols)} (h : SoundList os) :
    SoundList (os.map fun o => (o.1.enlarged c, o.2)) := by
  refine List.forall_mem_map.2 fun o ho => ⟨(h o ho).1, fun i => ?_⟩
  rw [photon_enlarged]
  exact ⟨enlarged_sensible hc ((h o ho).2 i).1, enlarged_isPlaced hc ((h o ho).2 i).2⟩

theorem SoundList.runs {os : List (ListOptic × ElemCols)} (h : SoundList os) {t : Table} {ps : List Ray} (hps : PhotonsOf t ps) :
    (∃ t', runList os t = .ok t') ↔ ∀ (i : ℕ) (p : Ray), ps[i]? = some p → ∃ p', runOptics (os.map fun o => o.1.photon i) p = .ok p' :=
  C163_runs os (fun o ho => (h o ho).1) (fun o ho => (h o ho).2) t ps hps

theorem SoundList.placed {os : List (ListOptic × ElemCols)} (h : SoundList os) (i : ℕ) : ∀ o ∈ os.map (fun o => o.1.photon i), o.IsPlaced :=
  List.forall_mem_map.2 fun o ho => ((h o ho).2 i).2

/-- **C187** If the instrument and all photons are moved or turned together, the simulation of the list succeeds exactly if it does so at the original place, and then the
result is the moved list of photons. -/
theorem C187_moved (g : Motion) (os : List (ListOptic × ElemCols)) (hs : SoundList os) (t u : Table) (ps : List Ray) (hps : PhotonsOf t ps)
    (hwf : ∀ p ∈ ps, p.WellFormed) (hu : PhotonsOf u (ps.map g.actRay)) :
    ((∃ t', runList os t = .ok t') ↔ ∃ u', runList (os.map fun o => (g.actList o.1, o.2)) u = .ok u') ∧
    ∀ t' u', runList os t = .ok t' → runList (os.map fun o => (g.actList o.1, o.2)) u = .ok u' →
      ∃ ps', PhotonsOf t' ps' ∧ PhotonsOf u' (ps'.map g.actRay) := by
  refine ⟨?_, fun t' u' h h' => C163_moved g os (fun o ho => (hs o ho).1.1) (fun o ho i => ((hs o ho).2 i).2) t t' u u' ps hps hwf hu h h'⟩
  rw [hs.runs hps, (hs.moved g).runs hu]
  have e : ∀ (i : ℕ) (p : Ray), ps[i]? = some p →
      runOptics ((os.map fun o => (g.actList o.1, o.2)).map fun o => o.1.photon i) (g.actRay p) = (runOptics (os.map fun o => o.1.photon i) p).map g.actRay := by
    intro i p hp
    rw [← C157_sequence g _ (hs.placed i) p (hwf p (List.mem_of_getElem? hp))]
    simp only [List.map_map, Function.comp_def, photon_act]
  constructor
  · intro h i q hq
    rw [List.getElem?_map] at hq
    obtain ⟨p, hp, rfl⟩ := Option.map_eq_some_iff.1 hq
    obtain ⟨p', hp'⟩ := h i p hp
    exact ⟨g.actRay p', by rw [e i p hp, hp']; rfl⟩
  · intro h i p hp
    obtain ⟨q, hq⟩ := h i (g.actRay p) (by rw [List.getElem?_map, hp]; rfl)
    rw [e i p hp] at hq
    cases hr : runOptics (os.map fun o => o.1.photon i) p with
    | error x => rw [hr] at hq; cases hq
    | ok p' => exact ⟨p', rfl⟩

theorem forall2_get {α β : Type*} {R : α → β → Prop} {l : List α} {l' : List β} (h : List.Forall₂ R l l') {i : ℕ} {a : α} (ha : l[i]? = some a) :
    ∃ b, l'[i]? = some b ∧ R a b := by
  induction h generalizing i with
  | nil => simp at ha
  | cons hab _ ih =>
    cases i with
    | zero => cases ha; exact ⟨_, rfl, hab⟩
    | succ i => exact ih ha

theorem forall2_of_get {α β : Type*} {R : α → β → Prop} {l : List α} {l' : List β} (hl : l.length = l'.length)
    (h : ∀ (i : ℕ) a b, l[i]? = some a → l'[i]? = some b → R a b) : List.Forall₂ R l l' :=
  List.forall₂_iff_get.2 ⟨hl, fun i h1 h2 => h i _ _ (List.getElem?_eq_getElem h1) (List.getElem?_eq_getElem h2)⟩

/-- **C187** In an instrument that is `c` times as large, a list of photons that start at the corresponding places with the same directions can be simulated exactly if
the list of the original can be simulated; all photons end at corresponding places, with the same direction, polarization, energy, order and probability. -/
theorem C187_enlarged {c : ℝ} (hc : 0 < c) (os : List (ListOptic × ElemCols)) (hs : SoundList os) (t u : Table) (ps qs : List Ray) (hps : PhotonsOf t ps)
    (hwf : ∀ p ∈ ps, p.WellFormed) (hu : PhotonsOf u qs) (hpq : List.Forall₂ (Ray.Similar c 1) ps qs) :
    ((∃ t', runList os t = .ok t') ↔ ∃ u', runList (os.map fun o => (o.1.enlarged c, o.2)) u = .ok u') ∧
    ∀ t' u', runList os t = .ok t' → runList (os.map fun o => (o.1.enlarged c, o.2)) u = .ok u' →
      ∃ ps' qs', PhotonsOf t' ps' ∧ PhotonsOf u' qs' ∧ ps'.length = ps.length ∧ List.Forall₂ (Ray.Similar c 1) ps' qs' := by
  have em : ∀ i : ℕ, ((os.map fun o => (o.1.enlarged c, o.2)).map fun o => o.1.photon i) = (os.map fun o => o.1.photon i).map (Optic.enlarged c) := by
    intro i
    simp only [List.map_map, Function.comp_def, photon_enlarged]
  have key : ∀ (i : ℕ) (p q : Ray), ps[i]? = some p → p.Similar c 1 q → _ := fun i p q hp h =>
    C159_size hc (os.map fun o => o.1.photon i) (hs.placed i) p q (hwf p (List.mem_of_getElem? hp)) h
  constructor
  · rw [hs.runs hps, (hs.enlarged hc).runs hu]
    constructor
    · intro h i q hq
      obtain ⟨p, hp, hsim⟩ := forall2_get hpq.flip hq
      obtain ⟨p', hp'⟩ := h i p hp
      obtain ⟨q', e, -⟩ := (key i p q hp hsim).2 p' hp'
      exact ⟨q', by rw [em]; exact e⟩
    · intro h i p hp
      obtain ⟨q, hq, hsim⟩ := forall2_get hpq hp
      obtain ⟨q', hq'⟩ := h i q hq
      cases hr : runOptics (os.map fun o => o.1.photon i) p with
      | error x =>
        have := (key i p q hp hsim).1 x hr
        rw [em, this] at hq'
        cases hq'
      | ok p' => exact ⟨p', rfl⟩
  · intro t' u' h h'
    obtain ⟨ps', h1, h2, h3⟩ := C163_list os (fun o ho => (hs o ho).1.1) t t' h ps hps
    obtain ⟨qs', k1, k2, k3⟩ := C163_list _ (fun o ho => ((hs.enlarged hc) o ho).1.1) u u' h' qs hu
    refine ⟨ps', qs', h1, k1, h2, forall2_of_get (by rw [h2, k2, hpq.length_eq]) fun i p' q' hp' hq' => ?_⟩
    have hi : i < ps.length := by rw [← h2]; exact (List.getElem?_eq_some_iff.1 hp').1
    obtain ⟨q, hq, hsim⟩ := forall2_get hpq (List.getElem?_eq_getElem hi)
    obtain ⟨p1, e1, e2⟩ := h3 i _ (List.getElem?_eq_getElem hi)
    obtain ⟨q1, f1, f2⟩ := k3 i q hq
    rw [hp'] at e1; rw [hq'] at f1
    cases e1; cases f1
    obtain ⟨s', g1, g2⟩ := (key i _ q (List.getElem?_eq_getElem hi) hsim).2 p' e2
    rw [em, g1] at f2
    cases f2
    exact g2

/-- **C187** The length of the direction vectors of the photons, which can be different for every photon, makes no difference for a list in an instrument without `Propagator`:
the simulation succeeds for the same lists and all results are the same, up to the length of the directions. -/
theorem C187_length (os : List (ListOptic × ElemCols)) (hs : SoundList os) (hp : ∀ o ∈ os, ∀ i, (o.1.photon i).NotPropagator) (k : ℕ → ℝ) (hk : ∀ i, 0 < k i)
    (t u : Table) (ps : List Ray) (hps : PhotonsOf t ps) (hwf : ∀ p ∈ ps, p.WellFormed)
    (hu : PhotonsOf u (ps.mapIdx fun i p => { p with dir := p.dir.map (k i • ·) })) :
    ((∃ t', runList os t = .ok t') ↔ ∃ u', runList os u = .ok u') ∧
    ∀ t' u', runList os t = .ok t' → runList os u = .ok u' →
      ∃ (ps' : List Ray) (k' : ℕ → ℝ), (∀ i, 0 < k' i) ∧ PhotonsOf t' ps' ∧ PhotonsOf u' (ps'.mapIdx fun (i : ℕ) (p : Ray) => { p with dir := p.dir.map (k' i • ·) }) := by
  have key : ∀ (i : ℕ) (p : Ray), ps[i]? = some p → _ := fun i p hi =>
    C160_length (os.map fun o => o.1.photon i) (List.forall_mem_map.2 fun o ho => ⟨((hs o ho).2 i).2, hp o ho i⟩) p (hwf p (List.mem_of_getElem? hi)) (hk i)
  constructor
  · rw [hs.runs hps, hs.runs hu]
    constructor
    · intro h i q hq
      rw [List.getElem?_mapIdx] at hq
      obtain ⟨p, hi, rfl⟩ := Option.map_eq_some_iff.1 hq
      obtain ⟨p', hp'⟩ := h i p hi
      obtain ⟨k', -, e⟩ := (key i p hi).2 p' hp'
      exact ⟨_, e⟩
    · intro h i p hi
      obtain ⟨q, hq⟩ := h i _ (by rw [List.getElem?_mapIdx, hi]; rfl)
      cases hr : runOptics (os.map fun o => o.1.photon i) p with
      | error x =>
        have := (key i p hi).1 x hr
        rw [this] at hq
        cases hq
      | ok p' => exact ⟨p', rfl⟩
  · intro t' u' h h'
    obtain ⟨ps', h1, h2, h3⟩ := C163_list os (fun o ho => (hs o ho).1.1) t t' h ps hps
    obtain ⟨qs', k1, k2, k3⟩ := C163_list os (fun o ho => (hs o ho).1.1) u u' h' _ hu
    have ex : ∀ i : ℕ, ∃ x : ℝ, 0 < x ∧ ∀ p', ps'[i]? = some p' → qs'[i]? = some { p' with dir := p'.dir.map (x • ·) } := by
      intro i
      by_cases hi : i < ps.length
      · obtain ⟨p1, e1, e2⟩ := h3 i _ (List.getElem?_eq_getElem hi)
        obtain ⟨q1, f1, f2⟩ := k3 i _ (by rw [List.getElem?_mapIdx, List.getElem?_eq_getElem hi]; rfl)
        obtain ⟨x, hx, e⟩ := (key i _ (List.getElem?_eq_getElem hi)).2 p1 e2
        refine ⟨x, hx, fun p' hp' => ?_⟩
        rw [hp'] at e1; cases e1
        rw [f2] at e
        cases e
        exact f1
      · refine ⟨1, one_pos, fun p' hp' => ?_⟩
        exact absurd (List.getElem?_eq_some_iff.1 hp').1 (by rw [h2]; exact hi)
    choose x hx hx' using ex
    refine ⟨ps', x, hx, h1, ?_⟩
    have : qs' = ps'.mapIdx fun (i : ℕ) (p : Ray) => { p with dir := p.dir.map (x i • ·) } := by
      refine List.ext_getElem? fun i => ?_
      rw [List.getElem?_mapIdx]
      cases hi : ps'[i]? with
      | none =>
        rw [List.getElem?_eq_none_iff] at hi
        simp only [List.length_mapIdx] at k2
        rw [List.getElem?_eq_none (by rw [k2, ← h2]; exact hi)]
        rfl
      | some p' => rw [hx' i p' hi]; rfl
    rw [← this]
    exact k1

theorem twoElements_sound : SoundList twoElements := by
  intro o ho
  simp only [twoElements, List.mem_cons, List.not_mem_nil, or_false] at ho
  rcases ho with rfl | rfl <;> exact ⟨⟨filterCols_fine, by simp [filterCols]⟩, fun i => by simp [ListOptic.photon, Optic.Sensible, Optic.IsPlaced, Placed, Affine]⟩

theorem sideRay_ok : sideRay.WellFormed := by
  refine ⟨fun p hp => ?_, fun p hp => ?_, fun p hp => ?_⟩ <;> cases hp <;> rfl

/-- Two photons and a filter, moved and turned: the simulation at the new place succeeds. -/
example : ∃ t' u', runList twoElements (twoTable [axisRay, sideRay]) = .ok t' ∧
    runList (twoElements.map fun o => (quarterTurn.actList o.1, o.2)) (twoTable ([axisRay, sideRay].map quarterTurn.actRay)) = .ok u' := by
  obtain ⟨t', h⟩ := twoElements_run
  obtain ⟨u', h'⟩ := (C187_moved quarterTurn twoElements twoElements_sound _ (twoTable ([axisRay, sideRay].map quarterTurn.actRay)) [axisRay, sideRay]
    (twoTable_photons _ (by simp [axisRay, sideRay])) (by simp [axisRay_ok, sideRay_ok])
    (twoTable_photons _ (by simp [axisRay, sideRay, Motion.actRay]))).1.1 ⟨t', h⟩
  exact ⟨t', u', h, h'⟩

/-- Two photons and a filter, in an instrument of twice the size. -/
example : ∃ t' u', runList twoElements (twoTable [axisRay, sideRay]) = .ok t' ∧
    runList (twoElements.map fun o => (o.1.enlarged 2, o.2)) (twoTable ([axisRay, sideRay].map fun r => { r with pos := r.pos.map (H4.enlarged 2) })) = .ok u' := by
  obtain ⟨t', h⟩ := twoElements_run
  obtain ⟨u', h'⟩ := (C187_enlarged (c := 2) two_pos twoElements twoElements_sound _
    (twoTable ([axisRay, sideRay].map fun r => { r with pos := r.pos.map (H4.enlarged 2) })) [axisRay, sideRay] _
    (twoTable_photons _ (by simp [axisRay, sideRay])) (by simp [axisRay_ok, sideRay_ok])
    (twoTable_photons _ (by simp [axisRay, sideRay])) (by
      refine .cons ?_ (.cons ?_ .nil) <;>
        exact ⟨rfl, by simp [axisRay, sideRay]; ext <;> simp, rfl, rfl, rfl, rfl, rfl, by simp [axisRay, sideRay]⟩)).1.1 ⟨t', h⟩
  exact ⟨t', u', h, h'⟩

/-- A filter, and two photons with directions that are 2 and 3 times as long. -/
example : ∃ t' u', runList [(.filter 1 fun _ => 1 / 2, filterCols)] (twoTable [axisRay, sideRay]) = .ok t' ∧
    runList [(.filter 1 fun _ => 1 / 2, filterCols)] (twoTable ([axisRay, sideRay].mapIdx fun i p => { p with dir := p.dir.map (((i : ℝ) + 2) • ·) })) = .ok u' := by
  have hsound : SoundList [(.filter 1 fun _ => 1 / 2, filterCols)] := fun o ho => twoElements_sound o (by
    simp only [twoElements, List.mem_cons, List.not_mem_nil, or_false] at ho ⊢
    exact .inl ho)
  obtain ⟨t2, h⟩ := twoElements_run
  have h1 : ∃ t', runList [(.filter 1 fun _ => 1 / 2, filterCols)] (twoTable [axisRay, sideRay]) = .ok t' := by
    simp only [twoElements, runList] at h ⊢
    split at h
    · cases h
    · rename_i t1 e
      exact ⟨t1, by rw [e]⟩
  obtain ⟨t', h1⟩ := h1
  obtain ⟨u', h'⟩ := (C187_length _ hsound (by simp [ListOptic.photon, Optic.NotPropagator]) (fun i => (i : ℝ) + 2) (fun i => by positivity) _
    (twoTable ([axisRay, sideRay].mapIdx fun i p => { p with dir := p.dir.map (((i : ℝ) + 2) • ·) })) [axisRay, sideRay]
    (twoTable_photons _ (by simp [axisRay, sideRay])) (by simp [axisRay_ok, sideRay_ok])
    (twoTable_photons _ (by simp [axisRay, sideRay]))).1.1 ⟨t', h1⟩
  exact ⟨t', u', h1, h'⟩

end Marxs
