import Verif.Props.Weights

/-!
# C180: where a global filter is put makes no difference
-/

namespace Marxs
open Classical

theorem step_keeps_energy (o : Optic) (r r' : Ray) (h : o.step r = .ok r') : r'.energy = r.energy := by
  cases o with
  | plane m =>
    simp only [Optic.step] at h
    split at h <;> cases h <;> rfl
  | tube m zoomz lim0 lim1 =>
    simp only [Optic.step] at h
    split at h
    · split at h
      · cases h
      · cases h; rfl
      · cases h; rfl
    · split_ifs at h; cases h; rfl
    · cases h
  | filter m f =>
    simp only [Optic.step] at h
    split at h
    · cases h; rfl
    · split at h
      · cases h
      · cases h; rfl
  | globalFilter f =>
    simp only [Optic.step] at h
    split at h
    · cases h
    · cases h; rfl
  | lens m focallength dOptax refl =>
    simp only [Optic.step] at h
    split at h <;> cases h <;> rfl
  | thin m focallength =>
    simp only [Optic.step] at h
    split at h <;> cases h <;> rfl
  | grating m transmission cat groove d blazeMod order =>
    simp only [Optic.step] at h
    split at h <;> cases h <;> rfl
  | mirror m rs rp =>
    simp only [Optic.step] at h
    split at h
    · cases h; rfl
    · split at h
      · cases h; rfl
      · split at h
        · cases h
        · cases h; rfl
        · cases h; rfl
  | scatter m inAngle perpAngle =>
    simp only [Optic.step] at h
    split at h <;> cases h <;> rfl
  | propagate distance => cases h; rfl

theorem run_keeps_energy (os : List Optic) (r r' : Ray) (h : runOptics os r = .ok r') : r'.energy = r.energy := by
  induction os generalizing r with
  | nil => cases h; rfl
  | cons o os ih =>
    simp only [runOptics] at h
    split at h
    · cases h
    · rename_i s hs
      rw [ih s h, step_keeps_energy o r s hs]

theorem runOptics_two (a b : List Optic) (r : Ray) :
    runOptics (a ++ b) r = match runOptics a r with
      | .error e => .error e
      | .ok r' => runOptics b r' := by
  induction a generalizing r with
  | nil => rfl
  | cons o a ih =>
    simp only [List.cons_append, runOptics]
    rcases o.step r with e | r'
    · rfl
    · exact ih r'

theorem times_weigh (r : Ray) (v : ℝ) : r.times (some v) = r.weigh v := by
  obtain ⟨pos, dir, pol, prob, energy, order, blaze, coos⟩ := r
  cases prob <;> simp [Ray.weigh, Ray.times, mul_comm]

theorem globalFilter_ok {f : ℝ → ℝ} {r : Ray} {v : ℝ} (h : filterValue f r.energy = .ok v) : (Optic.globalFilter f).step r = .ok (r.weigh v) := by
  simp only [Optic.step, h, times_weigh]

theorem globalFilter_err {f : ℝ → ℝ} {r : Ray} {e : Err} (h : filterValue f r.energy = .error e) : (Optic.globalFilter f).step r = .error e := by
  simp only [Optic.step, h]

/-- **C180** A photon passes an instrument with a global filter (e.g. an additional efficiency that depends on energy only) somewhere in the
sequence if and only if it passes with the filter in front of everything else, and with the same result. -/
theorem C180_anywhere (f : ℝ → ℝ) (a b : List Optic) (r r' : Ray) :
    runOptics (a ++ .globalFilter f :: b) r = .ok r' ↔ runOptics (.globalFilter f :: a ++ b) r = .ok r' := by
  rcases hv : filterValue f r.energy with e | v
  · have h2 : runOptics (.globalFilter f :: a ++ b) r = .error e := by
      simp only [List.cons_append, runOptics, globalFilter_err hv]
    rw [h2, runOptics_two]
    rcases ha : runOptics a r with e' | r₁
    · simp
    · have : filterValue f r₁.energy = .error e := by rw [run_keeps_energy a r r₁ ha, hv]
      simp only [runOptics, globalFilter_err this]
  · have h2 : runOptics (.globalFilter f :: a ++ b) r = runOptics (a ++ b) (r.weigh v) := by
      simp only [List.cons_append, runOptics, globalFilter_ok hv]
    rw [h2, runOptics_two, runOptics_two, C177_weight]
    rcases ha : runOptics a r with e' | r₁
    · simp [Except.map]
    · have : filterValue f r₁.energy = .ok v := by rw [run_keeps_energy a r r₁ ha, hv]
      simp only [runOptics, globalFilter_ok this, Except.map]

/-- **C180** Several global filters are as good as one with the product of their efficiencies. -/
theorem C180_product (f g : ℝ → ℝ) (a b : List Optic) (r r' : Ray) (h : runOptics (a ++ .globalFilter f :: .globalFilter g :: b) r = .ok r') :
    runOptics (a ++ .globalFilter (fun e => f e * g e) :: b) r = .ok r' := by
  rw [runOptics_two] at h ⊢
  rcases ha : runOptics a r with e' | r₁
  · rw [ha] at h; cases h
  rw [ha] at h
  simp only [runOptics] at h ⊢
  rcases hf : filterValue f r₁.energy with e | v
  · rw [globalFilter_err hf] at h; cases h
  rw [globalFilter_ok hf] at h
  simp only at h
  have eg : (r₁.weigh v).energy = r₁.energy := rfl
  rcases hg : filterValue g r₁.energy with e | w
  · rw [globalFilter_err (by rw [eg]; exact hg)] at h; cases h
  rw [globalFilter_ok (by rw [eg]; exact hg)] at h
  simp only at h
  have hfg : filterValue (fun e => f e * g e) r₁.energy = .ok (v * w) := by
    unfold filterValue at hf hg ⊢
    split_ifs at hf hg with h1 h2
    cases hf; cases hg
    push Not at h1 h2
    rw [if_neg]
    push Not
    exact ⟨mul_nonneg h1.1 h2.1, mul_le_one₀ h1.2 h2.1 h2.2⟩
  rw [globalFilter_ok hfg]
  have : (r₁.weigh v).weigh w = r₁.weigh (v * w) := by
    obtain ⟨pos, dir, pol, prob, energy, order, blaze, coos⟩ := r₁
    cases prob <;> simp [Ray.weigh]
    ring
  rw [this] at h
  exact h

/-- **C180** The same for photon lists: moving a global filter to the front of the sequence does not change any photon. -/
theorem C180_list (f : ℝ → ℝ) (c : ElemCols) (a b : List (ListOptic × ElemCols)) (hc : c.Fine) (ha : ∀ o ∈ a, o.2.Fine) (hb : ∀ o ∈ b, o.2.Fine)
    (t t' u' : Table) (h : runList (a ++ (.globalFilter f, c) :: b) t = .ok t') (h' : runList ((.globalFilter f, c) :: a ++ b) t = .ok u')
    (ps : List Ray) (hps : PhotonsOf t ps) : ∃ ps', PhotonsOf t' ps' ∧ PhotonsOf u' ps' ∧ ps'.length = ps.length := by
  obtain ⟨ps', h1, h2, h3⟩ := C163_list _ (by
    intro o ho
    simp only [List.mem_append, List.mem_cons] at ho
    rcases ho with ho | rfl | ho
    exacts [ha o ho, hc, hb o ho]) t t' h ps hps
  obtain ⟨qs', k1, k2, k3⟩ := C163_list _ (by
    intro o ho
    simp only [List.cons_append, List.mem_append, List.mem_cons] at ho
    rcases ho with rfl | ho | ho
    exacts [hc, ha o ho, hb o ho]) t u' h' ps hps
  refine ⟨ps', h1, ?_, h2⟩
  have : qs' = ps' := by
    refine List.ext_getElem (by rw [k2, h2]) fun i hi hi' => ?_
    have hi0 : i < ps.length := by omega
    obtain ⟨p', e1, e2⟩ := h3 i _ (List.getElem?_eq_getElem hi0)
    obtain ⟨q', f1, f2⟩ := k3 i _ (List.getElem?_eq_getElem hi0)
    simp only [List.map_append, List.map_cons, ListOptic.photon] at e2 f2
    rw [C180_anywhere, f2] at e2
    cases e2
    obtain ⟨g1, g2⟩ := List.getElem?_eq_some_iff.1 e1
    obtain ⟨g3, g4⟩ := List.getElem?_eq_some_iff.1 f1
    rw [g4, g2]
  rw [← this]; exact k1

/-- A photon that passes two global filters with a propagator in between. -/
example : ∃ r', runOptics ([.propagate 5] ++ .globalFilter (fun _ => 1 / 2) :: .globalFilter (fun _ => 1 / 3) :: [.filter 1 fun _ => 1 / 5]) axisRay = .ok r' ∧
    r'.prob ≠ axisRay.prob := by
  have h2 : filterValue (fun _ => (1 / 2 : ℝ)) 1 = .ok (1 / 2) := by rw [filterValue, if_neg]; norm_num
  have h3 : filterValue (fun _ => (1 / 3 : ℝ)) 1 = .ok (1 / 3) := by rw [filterValue, if_neg]; norm_num
  have h5 : filterValue (fun _ => (1 / 5 : ℝ)) 1 = .ok (1 / 5) := by rw [filterValue, if_neg]; norm_num
  simp only [List.cons_append, List.nil_append, runOptics, Optic.step, axisRay, h2, h3, Ray.times]
  split
  · rename_i e heq
    split at heq
    · cases heq
    · rw [h5] at heq; cases heq
  · rename_i r' heq
    refine ⟨r', rfl, ?_⟩
    split at heq
    · cases heq; norm_num
    · rw [h5] at heq; cases heq
      simp only [Ray.at, Ray.times]; norm_num

/-- A photon list and a global filter that is put behind or in front of another filter. -/
example : ∃ t' u', filterCols.Fine ∧ PhotonsOf (twoTable [axisRay, sideRay]) [axisRay, sideRay] ∧
    runList ([(.filter 1 fun _ => 1 / 2, filterCols)] ++ (.globalFilter fun _ => 1 / 2, filterCols) :: [(.propagate 5, filterCols)]) (twoTable [axisRay, sideRay]) = .ok t' ∧
    runList ((.globalFilter fun _ => 1 / 2, filterCols) :: [(.filter 1 fun _ => 1 / 2, filterCols)] ++ [(.propagate 5, filterCols)]) (twoTable [axisRay, sideRay]) = .ok u' := by
  have hps := twoTable_photons [axisRay, sideRay] (by simp [axisRay, sideRay])
  have h2 : filterValue (fun _ => (1 / 2 : ℝ)) 1 = .ok (1 / 2) := by rw [filterValue, if_neg]; norm_num
  have he : ∀ r : Ray, r ∈ [axisRay, sideRay] → r.energy = 1 := by simp [axisRay, sideRay]
  have run : ∀ r : Ray, r.energy = 1 →
      ∃ r', runOptics ([.filter 1 fun _ => 1 / 2] ++ .globalFilter (fun _ => 1 / 2) :: [.propagate 5]) r = .ok r' := by
    intro r hr
    rcases hh : r.hit 1 with _ | ⟨d, q, y, z, p⟩
    · simp only [List.cons_append, List.nil_append, runOptics, Optic.step, hh, hr, h2]
      exact ⟨_, rfl⟩
    · have e3 : ((r.times (some (1 / 2))).at q y z).energy = 1 := hr
      simp only [List.cons_append, List.nil_append, runOptics, Optic.step, hh, hr, h2, e3]
      exact ⟨_, rfl⟩
  have ok : ∀ os : List (ListOptic × ElemCols), (∀ o ∈ os, o = (.filter 1 fun _ => 1 / 2, filterCols) ∨ o = (.globalFilter fun _ => 1 / 2, filterCols) ∨ o = (.propagate 5, filterCols)) →
      (∀ r ∈ [axisRay, sideRay], ∀ i : ℕ, ∃ r', runOptics (os.map fun o => o.1.photon i) r = .ok r') →
      ∃ t', runList os (twoTable [axisRay, sideRay]) = .ok t' := by
    intro os hos hr
    rw [C163_runs os _ _ _ [axisRay, sideRay] hps]
    · intro i p hp
      exact hr p (List.mem_of_getElem? hp) i
    · intro o ho
      rcases hos o ho with rfl | rfl | rfl <;> exact ⟨filterCols_fine, by simp [filterCols]⟩
    · intro o ho i
      rcases hos o ho with rfl | rfl | rfl <;> simp [ListOptic.photon, Optic.Sensible, Optic.IsPlaced, Placed, Affine]
  obtain ⟨t', ht'⟩ := ok ([(ListOptic.filter 1 fun _ => 1 / 2, filterCols)] ++ (ListOptic.globalFilter fun _ => 1 / 2, filterCols) :: [(ListOptic.propagate 5, filterCols)])
    (by intro o ho; simpa using ho) (fun r hr i => run r (he r hr))
  obtain ⟨u', hu'⟩ := ok ((ListOptic.globalFilter fun _ => 1 / 2, filterCols) :: [(ListOptic.filter 1 fun _ => 1 / 2, filterCols)] ++ [(ListOptic.propagate 5, filterCols)])
    (by
      intro o ho
      simp only [List.cons_append, List.nil_append, List.mem_cons, List.not_mem_nil, or_false] at ho
      rcases ho with rfl | rfl | rfl <;> simp)
    (fun r hr i => by
      obtain ⟨r', h⟩ := run r (he r hr)
      exact ⟨r', (C180_anywhere _ [.filter 1 fun _ => 1 / 2] [.propagate 5] r r').1 h⟩)
  exact ⟨t', u', filterCols_fine, hps, ht', hu'⟩

end Marxs
