import Verif.Spec.ElementSize
import Verif.Props.Similarity
import Verif.Props.ListChain

/-!
# C179: the size of an element decides who hits it, not what happens
-/

namespace Marxs
open Classical

theorem resize_center (s : Sizes) (m : M4) : center (m.resize s) = center m := by
  ext <;> simp [center, col, M4.resize, Matrix.mul_apply, Fin.sum_univ_four, Matrix.diagonal]

theorem resize_vX (s : Sizes) (m : M4) : vX (m.resize s) = s.x • vX m := by
  ext <;> simp [vX, col, M4.resize, Matrix.mul_apply, Fin.sum_univ_four, Matrix.diagonal, mul_comm]

theorem resize_vY (s : Sizes) (m : M4) : vY (m.resize s) = s.y • vY m := by
  ext <;> simp [vY, col, M4.resize, Matrix.mul_apply, Fin.sum_univ_four, Matrix.diagonal, mul_comm]

theorem resize_vZ (s : Sizes) (m : M4) : vZ (m.resize s) = s.z • vZ m := by
  ext <;> simp [vZ, col, M4.resize, Matrix.mul_apply, Fin.sum_univ_four, Matrix.diagonal, mul_comm]

theorem resize_eX {s : Sizes} (hs : s.Positive) (m : M4) : eX (m.resize s) = eX m := by
  rw [eX, resize_vX, h4_unit_smul hs.1]; rfl

theorem resize_eY {s : Sizes} (hs : s.Positive) (m : M4) : eY (m.resize s) = eY m := by
  rw [eY, resize_vY, h4_unit_smul hs.2.1]; rfl

theorem resize_eZ {s : Sizes} (hs : s.Positive) (m : M4) : eZ (m.resize s) = eZ m := by
  rw [eZ, resize_vZ, h4_unit_smul hs.2.2]; rfl

theorem Sizes.Larger.positive {s : Sizes} (h : s.Larger) : s.Positive :=
  ⟨h.1, lt_of_lt_of_le one_pos h.2.1, lt_of_lt_of_le one_pos h.2.2⟩

/-- intersections with planes of different size are the same, if both exist -/
theorem planeIntersect_resize {s : Sizes} (hs : s.Positive) (m : M4) (d p : H4) (h h' : H4 × ℝ × ℝ)
    (e : planeIntersect m d p = some h) (e' : planeIntersect (m.resize s) d p = some h') : h = h' := by
  simp only [planeIntersect, resize_center, resize_eX hs, resize_eY hs, resize_eZ hs] at e e'
  by_cases h0 : d.dot (eX m) = 0
  · simp [h0] at e
  · rw [if_neg h0] at e e'
    split_ifs at e e'
    simp only [Option.some.injEq] at e e'
    rw [← e, ← e']

theorem hit_resize {s : Sizes} (hs : s.Positive) (m : M4) (r : Ray) (h h') (e : r.hit m = some h) (e' : r.hit (m.resize s) = some h') : h = h' := by
  unfold Ray.hit at e e'
  rcases hd : r.dir with _ | d <;> rcases hp : r.pos with _ | p <;> simp only [hd, hp] at e e'
  · cases e
  · cases e
  · cases e
  · rcases e1 : planeIntersect m d p with _ | ⟨q, y, z⟩ <;> rw [e1] at e
    · cases e
    rcases e2 : planeIntersect (m.resize s) d p with _ | ⟨q', y', z'⟩ <;> rw [e2] at e'
    · cases e'
    have := planeIntersect_resize hs m d p _ _ e1 e2
    simp only [Option.some.injEq] at e e'
    rw [← e, ← e']
    simp only [Prod.mk.injEq] at this
    obtain ⟨rfl, rfl, rfl⟩ := this
    rfl

theorem Hit_iff (o : Optic) (m : M4) (hm : o.flat = some m) (r : Ray) : o.Hit r ↔ r.hit m ≠ none := by
  have : o.Hit r ↔ ∃ d p, r.dir = some d ∧ r.pos = some p ∧ d.dot (eX m) ≠ 0 ∧ ∃ k : ℝ, 0 ≤ k ∧
      (p + k • d - center m).dot (eX m) = 0 ∧ |(p + k • d - center m).dot (eY m)| ≤ (vY m).norm ∧
      |(p + k • d - center m).dot (eZ m)| ≤ (vZ m).norm := by
    simp only [Optic.Hit, hm, Option.some.injEq, forall_eq']
  rw [this]
  unfold Ray.hit
  rcases hd : r.dir with _ | d <;> rcases hp : r.pos with _ | p <;> simp only [reduceCtorEq, false_and, and_false, exists_false, ne_eq, not_true_eq_false, Option.some.injEq]
  have lin : ∀ k : ℝ, (p + k • d - center m).dot (eX m) = k * d.dot (eX m) - (center m - p).dot (eX m) := fun k => by
    simp [H4.dot]; ring
  constructor
  · rintro ⟨d', p', rfl, rfl, h0, k, hk, h1, h2, h3⟩
    have : k = (center m - p).dot (eX m) / d.dot (eX m) := by
      rw [lin] at h1; field_simp; linarith
    subst this
    simp only [planeIntersect, if_neg h0]
    rw [if_pos ⟨hk, h2, h3⟩]
    simp
  · intro h
    refine ⟨d, p, rfl, rfl, ?_⟩
    simp only [planeIntersect] at h
    by_cases h0 : d.dot (eX m) = 0
    · simp [h0] at h
    · rw [if_neg h0] at h
      refine ⟨h0, (center m - p).dot (eX m) / d.dot (eX m), ?_⟩
      by_contra hc
      rw [if_neg] at h
      · exact h rfl
      · rintro ⟨a1, a2, a3⟩
        refine hc ⟨a1, ?_, a2, a3⟩
        rw [lin]; field_simp; ring

theorem flat_resize (s : Sizes) (o : Optic) : (o.resize s).flat = o.flat.map (M4.resize s) := by cases o <;> rfl

theorem mirrorDir_resize {s : Sizes} (hs : s.Positive) (m : M4) (p : H4) : mirrorDir (m.resize s) p = mirrorDir m p := by
  have hi : (Matrix.diagonal ![s.x, s.y, s.z, 1] : M4)⁻¹ = Matrix.diagonal ![s.x⁻¹, s.y⁻¹, s.z⁻¹, 1] := by
    apply Matrix.inv_eq_right_inv
    rw [Matrix.diagonal_mul_diagonal, ← Matrix.diagonal_one]
    congr 1
    funext i
    fin_cases i <;> simp [hs.1.ne', hs.2.1.ne', hs.2.2.ne']
  simp only [mirrorDir, M4.resize, Matrix.mul_inv_rev, mul4_mul, hi]
  congr 1
  generalize mul4 m⁻¹ p = v
  have := hs.1.ne'; have := hs.2.1.ne'; have := hs.2.2.ne'
  ext <;> simp [mul4, Matrix.diagonal] <;> field_simp

theorem brewster_resize {s : Sizes} (hs : s.Positive) (m : M4) (rs rp : ℝ) (d pol : H4) :
    brewster (m.resize s) rs rp d pol = brewster m rs rp d pol := by
  simp only [brewster, mirrorDir_resize hs, resize_eX hs]

theorem lens_resize {s : Sizes} (hs : s.Positive) (m : M4) (f dO : ℝ) (refl : ℝ → ℝ → ℝ) (d pol q : H4) (e : ℝ) :
    perfectLens (m.resize s) f dO refl d pol q e = perfectLens m f dO refl d pol q e := by
  have e : ∀ v, focusPoint (m.resize s) f dO v = focusPoint m f dO v := fun v => by
    simp only [focusPoint, resize_center, resize_eZ hs]
  simp only [perfectLens, e]

theorem thin_resize (s : Sizes) (m : M4) (f : ℝ) (d pol q : H4) : thinLens (m.resize s) f d pol q = thinLens m f d pol q := by
  simp only [thinLens, resize_center]

theorem scatter_resize (s : Sizes) (m : M4) (d p pol : H4) (a b : Option ℝ) :
    radialScatter (m.resize s) d p pol a b = radialScatter m d p pol a b := by
  simp only [radialScatter, resize_center]

theorem grating_resize {s : Sizes} (hs : s.Positive) (m : M4) (tr cat : Bool) (g : ℝ) (d b : ℝ × ℝ → ℝ) (o : ℝ → Option ℝ → ℤ × ℝ) :
    planeGrating (m.resize s) tr cat g d b o = planeGrating m tr cat g d b o := by
  simp only [planeGrating, planeBases, resize_eX hs, resize_eY hs, resize_eZ hs]

/-- **C179** For a photon that hits both, an element and the same element with another size do the same: same place, same local coordinates,
same direction, polarization, probability, order, or the same exception. -/
theorem C179_same (s : Sizes) (hs : s.Positive) (o : Optic) (r : Ray) (h : o.Hit r) (h' : (o.resize s).Hit r) :
    (o.resize s).step r = o.step r := by
  have key : ∀ m, o.flat = some m → r.hit (m.resize s) = r.hit m := by
    intro m hm
    have h1 := (Hit_iff o m hm r).1 h
    have h2 := (Hit_iff (o.resize s) (m.resize s) (by rw [flat_resize, hm]; rfl) r).1 h'
    rcases e1 : r.hit m with _ | x
    · exact absurd e1 h1
    rcases e2 : r.hit (m.resize s) with _ | y
    · exact absurd e2 h2
    rw [hit_resize hs m r x y e1 e2]
  cases o with
  | plane m => simp only [Optic.resize, Optic.step, key m rfl]
  | tube => rfl
  | filter m f => simp only [Optic.resize, Optic.step, key m rfl]
  | globalFilter => rfl
  | lens m f dO refl => simp only [Optic.resize, Optic.step, key m rfl, lens_resize hs]
  | thin m f => simp only [Optic.resize, Optic.step, key m rfl, thin_resize]
  | grating m tr cat g d b o => simp only [Optic.resize, Optic.step, key m rfl, grating_resize hs]
  | mirror m rs rp => simp only [Optic.resize, Optic.step, key m rfl, mirrorDir_resize hs, brewster_resize hs]
  | scatter m a b => simp only [Optic.resize, Optic.step, key m rfl, scatter_resize]
  | propagate => rfl

/-- **C179** A larger element catches all the photons that the original catches. -/
theorem C179_larger (s : Sizes) (hs : s.Larger) (o : Optic) (r : Ray) (h : o.Hit r) : (o.resize s).Hit r := by
  intro m' hm'
  rw [flat_resize] at hm'
  rcases hm : o.flat with _ | m <;> rw [hm] at hm'
  · cases hm'
  cases hm'
  obtain ⟨d, p, h1, h2, h3, k, h4, h5, h6, h7⟩ := h m hm
  refine ⟨d, p, h1, h2, ?_, k, h4, ?_, ?_, ?_⟩
  · rwa [resize_eX hs.positive]
  · rwa [resize_center, resize_eX hs.positive]
  · rw [resize_center, resize_eY hs.positive, resize_vY, h4_norm_smul hs.positive.2.1]
    exact h6.trans (le_mul_of_one_le_left (Real.sqrt_nonneg _) hs.2.1)
  · rw [resize_center, resize_eZ hs.positive, resize_vZ, h4_norm_smul hs.positive.2.2]
    exact h7.trans (le_mul_of_one_le_left (Real.sqrt_nonneg _) hs.2.2)

/-- **C179** A photon that misses a flat element is not changed by it; so a photon that misses the larger element is changed by neither. -/
theorem C179_miss (s : Sizes) (hs : s.Larger) (o : Optic) (r : Ray) (h : ¬ (o.resize s).Hit r) :
    o.step r = .ok r ∧ (o.resize s).step r = .ok r := by
  have none_of : ∀ o : Optic, ¬ o.Hit r → o.step r = .ok r := by
    intro o ho
    cases hm : o.flat with
    | none => exact absurd (fun m hm' => by rw [hm] at hm'; cases hm') ho
    | some m =>
      have e : r.hit m = none := by
        by_contra hc
        exact ho ((Hit_iff o m hm r).2 hc)
      cases o <;> simp only [Optic.flat, Option.some.injEq, reduceCtorEq] at hm <;> subst hm <;> simp only [Optic.step, e]
  exact ⟨none_of o fun ho => h (C179_larger s hs o r ho), none_of _ h⟩

/-- **C179** A photon that hits all the elements of an instrument on its way ends in exactly the same state if any of the elements are made
larger, each by its own factors. -/
theorem C179_run (os : List (Optic × Sizes)) (hs : ∀ o ∈ os, o.2.Larger) (r : Ray) (h : HitsAll (os.map Prod.fst) r) :
    runOptics (os.map fun o => o.1.resize o.2) r = runOptics (os.map Prod.fst) r ∧ HitsAll (os.map fun o => o.1.resize o.2) r := by
  induction os generalizing r with
  | nil => exact ⟨rfl, trivial⟩
  | cons o os ih =>
    obtain ⟨h1, h2⟩ := h
    have hl := hs o (by simp)
    have h3 := C179_larger o.2 hl o.1 r h1
    have e := C179_same o.2 hl.positive o.1 r h1 h3
    simp only [List.map_cons, runOptics, HitsAll, e]
    refine ⟨?_, h3, fun r' hr' => (ih (fun o ho => hs o (by simp [ho])) r' (h2 r' hr')).2⟩
    rcases hr : o.1.step r with x | r'
    · rfl
    · exact (ih (fun o ho => hs o (by simp [ho])) r' (h2 r' hr)).1

theorem photon_resize (s : Sizes) (o : ListOptic) (i : ℕ) : (o.resize s).photon i = (o.photon i).resize s := by cases o <;> rfl

/-- **C179** In photon lists the photons that hit all the elements on their way are found with the same properties at the end, whatever
else is caught by the larger elements. -/
theorem C179_list (os : List (ListOptic × ElemCols × Sizes)) (hs : ∀ o ∈ os, o.2.2.Larger) (hc : ∀ o ∈ os, o.2.1.Fine) (t t' u' : Table)
    (h : runList (os.map fun o => (o.1, o.2.1)) t = .ok t') (h' : runList (os.map fun o => (o.1.resize o.2.2, o.2.1)) t = .ok u')
    (ps : List Ray) (hps : PhotonsOf t ps) :
    ∃ ps' qs', PhotonsOf t' ps' ∧ PhotonsOf u' qs' ∧ ps'.length = ps.length ∧ qs'.length = ps.length ∧
      ∀ (i : ℕ) (p : Ray), ps[i]? = some p → HitsAll (os.map fun o => o.1.photon i) p → ps'[i]? = qs'[i]? := by
  obtain ⟨ps', h1, h2, h3⟩ := C163_list _ (List.forall_mem_map.2 fun o ho => hc o ho) t t' h ps hps
  obtain ⟨qs', k1, k2, k3⟩ := C163_list _ (List.forall_mem_map.2 fun o ho => hc o ho) t u' h' ps hps
  refine ⟨ps', qs', h1, k1, h2, k2, fun i p hp hh => ?_⟩
  obtain ⟨p', e1, e2⟩ := h3 i p hp
  obtain ⟨q', f1, f2⟩ := k3 i p hp
  have := (C179_run (os.map fun o => (o.1.photon i, o.2.2)) (List.forall_mem_map.2 fun o ho => hs o ho) p
    (by simpa [List.map_map, Function.comp_def] using hh)).1
  simp only [List.map_map, Function.comp_def, photon_resize] at this e2 f2
  rw [this, e2] at f2
  cases f2
  rw [e1, f1]

/-- A photon that hits a filter and a filter of three times the width. -/
example : ∃ s : Sizes, s.Larger ∧ s.y = 3 ∧ HitsAll ([(Optic.filter 1 fun _ => 1 / 2, s), (Optic.propagate 5, s)].map Prod.fst) axisRay := by
  refine ⟨⟨1, 3, 1⟩, by norm_num [Sizes.Larger], rfl, ?_, ?_⟩
  · refine (Hit_iff _ 1 rfl _).2 ?_
    simp only [Ray.hit, axisRay, axisRay_hit]
    simp
  · intro r' _
    exact ⟨fun m hm => by simp [Optic.flat] at hm, fun _ _ => trivial⟩

/-- Two photons and a filter that is made wider: one photon hits the filter, the other one only hits the wider filter. -/
example : ∃ (s : Sizes) (t' u' : Table), s.Larger ∧
    runList ([(ListOptic.filter 1 fun _ => 1 / 2, filterCols, s), (ListOptic.propagate 5, filterCols, s)].map fun o => (o.1, o.2.1))
      (twoTable [axisRay, sideRay]) = .ok t' ∧
    runList ([(ListOptic.filter 1 fun _ => 1 / 2, filterCols, s), (ListOptic.propagate 5, filterCols, s)].map fun o => (o.1.resize o.2.2, o.2.1))
      (twoTable [axisRay, sideRay]) = .ok u' ∧ PhotonsOf (twoTable [axisRay, sideRay]) [axisRay, sideRay] ∧
    HitsAll [Optic.filter 1 fun _ => 1 / 2, Optic.propagate 5] axisRay ∧ ¬ HitsAll [Optic.filter 1 fun _ => 1 / 2, Optic.propagate 5] sideRay := by
  obtain ⟨t', ht'⟩ := twoElements_run
  have hs : (⟨1, 9, 1⟩ : Sizes).Larger := by norm_num [Sizes.Larger]
  have hv : filterValue (fun _ => (1 / 2 : ℝ)) 1 = .ok (1 / 2) := by rw [filterValue, if_neg]; norm_num
  have hu : ∃ u', runList [(ListOptic.filter (M4.resize ⟨1, 9, 1⟩ 1) fun _ => 1 / 2, filterCols), (ListOptic.propagate 5, filterCols)]
      (twoTable [axisRay, sideRay]) = .ok u' := by
    rw [C163_runs _ _ _ _ [axisRay, sideRay] (twoTable_photons _ (by simp [axisRay, sideRay]))]
    · intro i p hp
      have : ∀ r : Ray, r.energy = 1 → ∃ r', runOptics [.filter (M4.resize ⟨1, 9, 1⟩ 1) fun _ => 1 / 2, .propagate 5] r = .ok r' := by
        intro r hr
        simp only [runOptics, Optic.step, hr, hv]
        rcases r.hit (M4.resize ⟨1, 9, 1⟩ 1) with _ | ⟨d, q, y, z, p⟩ <;> exact ⟨_, rfl⟩
      match i with
      | 0 => cases hp; exact this _ rfl
      | 1 => cases hp; exact this _ rfl
      | n + 2 => simp at hp
    · intro o ho
      simp only [List.mem_cons, List.not_mem_nil, or_false] at ho
      rcases ho with rfl | rfl <;> exact ⟨filterCols_fine, by simp [filterCols]⟩
    · intro o ho i
      simp only [List.mem_cons, List.not_mem_nil, or_false] at ho
      have hdet : (M4.resize ⟨1, 9, 1⟩ 1).det ≠ 0 := by
        rw [M4.resize, one_mul, Matrix.det_diagonal]
        simp [Fin.prod_univ_four]
      rcases ho with rfl | rfl
      · have ha : Affine (M4.resize ⟨1, 9, 1⟩ 1) := by simp [Affine, M4.resize, Matrix.diagonal]
        simp [ListOptic.photon, Optic.Sensible, Optic.IsPlaced, Placed, ha, hdet]
      · simp [ListOptic.photon, Optic.Sensible, Optic.IsPlaced]
  obtain ⟨u', hu'⟩ := hu
  refine ⟨⟨1, 9, 1⟩, t', u', hs, ht', hu', twoTable_photons _ (by simp [axisRay, sideRay]), ⟨?_, fun _ _ => ⟨fun m hm => by simp [Optic.flat] at hm, fun _ _ => trivial⟩⟩, ?_⟩
  · refine (Hit_iff _ 1 rfl _).2 ?_
    simp only [Ray.hit, axisRay, axisRay_hit]
    simp
  · rintro ⟨h, -⟩
    have := (Hit_iff _ 1 rfl _).1 h
    simp only [Ray.hit, sideRay, axisRay, sideRay_miss] at this
    simp at this

end Marxs
