import Mathlib.Tactic
import Verif.Model.Lsf
import Verif.Props.Ogip

/-!
# C119: line spread functions
-/

namespace Marxs

open Classical

/-- A cumulative distribution: grows, from values not below 0 to values not above 1. -/
def IsCdf (F : ℝ → ℝ) : Prop := Monotone F ∧ ∀ x, 0 ≤ F x ∧ F x ≤ 1

theorem lsfComps_ampl_nonneg (cols : List LsfCol) :
    ∀ c ∈ lsfComps (fun x => |x|) cols, 0 ≤ c.ampl ∧ 0 ≤ c.fwhm ∧ 0 ≤ c.pos := by
  induction cols with
  | nil => simp [lsfComps]
  | cons c l ih =>
    cases c with
    | eeFracs v => simpa [lsfComps] using ih
    | parms n k a w p =>
      intro c hc
      simp only [lsfComps, List.mem_cons] at hc
      rcases hc with rfl | hc
      · exact ⟨abs_nonneg _, abs_nonneg _, abs_nonneg _⟩
      · exact ih c hc

theorem sum_ampl_div (l : List LsfComp) (s : ℝ) :
    (l.map fun c => c.ampl / s).sum = (l.map LsfComp.ampl).sum / s := by
  induction l with
  | nil => simp
  | cons c l ih => simp [ih, add_div]

/-- The parameter columns of a row. -/
def parmCols : List LsfCol → List (String × LsfKind × ℝ × ℝ × ℝ)
  | [] => []
  | .eeFracs _ :: l => parmCols l
  | .parms n k a w p :: l => (n, k, a, w, p) :: parmCols l

/-- The values of the columns `EE_FRACS` of a row. -/
def eeCols : List LsfCol → List ℝ
  | [] => []
  | .eeFracs v :: l => v :: eeCols l
  | .parms .. :: l => eeCols l

theorem lsfEef_last (cols : List LsfCol) : lsfEef cols = (eeCols cols).getLast? := by
  induction cols with
  | nil => rfl
  | cons c l ih =>
    cases c with
    | parms n k a w p => simp only [lsfEef, eeCols, ih]; cases (eeCols l).getLast? <;> rfl
    | eeFracs v => simp only [lsfEef, eeCols, ih, List.getLast?_cons]; cases (eeCols l).getLast? <;> rfl

/-- **C119** The model made from a row: one component per parameter column, in order, with name and kind of the
column; the width is converted from sigma to full width at half maximum for a Gaussian; the amplitudes
are positive fractions that add up to 1. The constant is the last column `EE_FRACS`. -/
theorem C119_model (cols : List LsfCol) (m : LsfModel) (h : sherpaFromSpline cols = .ok (some m)) :
    List.Forall₂ (fun (p : String × LsfKind × ℝ × ℝ × ℝ) c => c.name = p.1 ∧ c.kind = p.2.1 ∧
      c.fwhm = |p.2.2.2.1| * (match p.2.1 with
        | .gauss => 2 * Real.sqrt (2 * Real.log 2)
        | .lorentz => 1) ∧ c.pos = |p.2.2.2.2| ∧
      c.ampl * ((parmCols cols).map fun q => |q.2.2.1|).sum = |p.2.2.1|) (parmCols cols) m.comps ∧
    (∀ c ∈ m.comps, 0 ≤ c.ampl) ∧ (m.comps.map LsfComp.ampl).sum = 1 ∧ (eeCols cols).getLast? = some m.eef := by
  have hcomps : lsfComps (fun x => |x|) cols = (parmCols cols).map fun p =>
      ⟨p.1, p.2.1, |p.2.2.1|, |p.2.2.2.1| * widthConv p.2.1, |p.2.2.2.2|⟩ := by
    induction cols with
    | nil => rfl
    | cons c l ih =>
      have hw : ∀ k, |widthConv k| = widthConv k := by
        intro k; cases k
        · exact abs_of_nonneg (by simp only [widthConv]; positivity)
        · simp [widthConv]
      have hg : ∀ l', lsfComps (fun x => |x|) l' = (parmCols l').map fun p =>
          (⟨p.1, p.2.1, |p.2.2.1|, |p.2.2.2.1| * widthConv p.2.1, |p.2.2.2.2|⟩ : LsfComp) := by
        intro l'
        induction l' with
        | nil => rfl
        | cons c l ih =>
          cases c with
          | eeFracs v => simpa [lsfComps, parmCols] using ih
          | parms n k a w p => simp [lsfComps, parmCols, ih, abs_mul, hw]
      exact hg (c :: l)
  have hnn := lsfComps_ampl_nonneg cols
  unfold sherpaFromSpline lsfFinish at h
  split at h
  · simp at h
  split at h
  · simp at h
  rename_i e he
  simp only at h
  split at h
  · simp at h
  rename_i hs
  simp only [Except.ok.injEq, Option.some.injEq] at h
  subst h
  have hsum : (parmCols cols).map (fun q => |q.2.2.1|) =
      (lsfComps (fun x => |x|) cols).map LsfComp.ampl := by
    rw [hcomps, List.map_map]; rfl
  have hpos : 0 ≤ ((lsfComps (fun x => |x|) cols).map LsfComp.ampl).sum := by
    apply List.sum_nonneg
    intro x hx
    obtain ⟨c, hc, rfl⟩ := List.mem_map.1 hx
    exact (hnn c hc).1
  refine ⟨?_, ?_, ?_, by rw [← lsfEef_last]; exact he⟩
  · rw [hsum]
    simp only
    generalize hS : ((lsfComps (fun x => |x|) cols).map LsfComp.ampl).sum = S at hs
    rw [hcomps]
    rw [List.forall₂_map_right_iff, List.forall₂_map_right_iff]
    rw [List.forall₂_same]
    intro p _
    refine ⟨rfl, rfl, ?_, rfl, ?_⟩
    · cases hk : p.2.1 <;> simp only [widthConv, hk]
    · simp only; field_simp
  · intro c hc
    obtain ⟨d, hd, rfl⟩ := List.mem_map.1 hc
    exact div_nonneg (hnn d hd).1 hpos
  · simp only [List.map_map]
    have := sum_ampl_div (lsfComps (fun x => |x|) cols) ((lsfComps (fun x => |x|) cols).map LsfComp.ampl).sum
    rw [show (LsfComp.ampl ∘ fun c : LsfComp => { c with
      ampl := c.ampl / ((lsfComps (fun x => |x|) cols).map LsfComp.ampl).sum }) = fun c => c.ampl /
        ((lsfComps (fun x => |x|) cols).map LsfComp.ampl).sum from rfl, this]
    exact div_self hs

/-- **C119** A row without components or without `EE_FRACS` is an error, and there is a model if and only if the
amplitudes do not all vanish. -/
theorem C119_defined (cols : List LsfCol) :
    (parmCols cols = [] → sherpaFromSpline cols = .error .indexError) ∧
    (parmCols cols ≠ [] → eeCols cols = [] → sherpaFromSpline cols = .error .nameError) ∧
    (parmCols cols ≠ [] → eeCols cols ≠ [] →
      ((∃ m, sherpaFromSpline cols = .ok (some m)) ↔ ∃ p ∈ parmCols cols, p.2.2.1 ≠ 0)) := by
  have hnil : ∀ l, lsfComps (fun x => |x|) l = [] ↔ parmCols l = [] := by
    intro l
    induction l with
    | nil => simp [lsfComps, parmCols]
    | cons c l ih => cases c <;> simp [lsfComps, parmCols, ih]
  have hampl : ∀ l, (lsfComps (fun x => |x|) l).map LsfComp.ampl = (parmCols l).map fun p => |p.2.2.1| := by
    intro l
    induction l with
    | nil => simp [lsfComps, parmCols]
    | cons c l ih => cases c <;> simp [lsfComps, parmCols, ih]
  refine ⟨?_, ?_, ?_⟩
  · intro h
    simp [sherpaFromSpline, lsfFinish, (hnil cols).2 h]
  · intro h he
    have he : lsfEef cols = none := by rw [lsfEef_last, he]; rfl
    have : lsfComps (fun x => |x|) cols ≠ [] := fun h' => h ((hnil cols).1 h')
    simp [sherpaFromSpline, lsfFinish, this, he]
  · intro h he
    have hn : lsfComps (fun x => |x|) cols ≠ [] := fun h' => h ((hnil cols).1 h')
    obtain ⟨e, he⟩ : ∃ e, lsfEef cols = some e := by
      rw [lsfEef_last]; exact ⟨_, List.getLast?_eq_some_getLast he⟩
    have hz : ((lsfComps (fun x => |x|) cols).map LsfComp.ampl).sum = 0 ↔
        ∀ p ∈ parmCols cols, p.2.2.1 = 0 := by
      rw [hampl]
      generalize parmCols cols = l
      induction l with
      | nil => simp
      | cons p l ih =>
        have h0 : 0 ≤ (l.map fun p => |p.2.2.1|).sum := by
          apply List.sum_nonneg; intro x hx
          obtain ⟨c, _, rfl⟩ := List.mem_map.1 hx; exact abs_nonneg _
        have h1 := abs_nonneg p.2.2.1
        simp only [List.map_cons, List.sum_cons, List.mem_cons, forall_eq_or_imp]
        rw [← ih]
        constructor
        · intro hs; exact ⟨abs_eq_zero.1 (by linarith), by linarith⟩
        · rintro ⟨a, b⟩; rw [a, b]; simp
    simp only [sherpaFromSpline, lsfFinish, hn, if_false, he]
    by_cases hs : ((lsfComps (fun x => |x|) cols).map LsfComp.ampl).sum = 0
    · simp only [hs, if_true, Except.ok.injEq, reduceCtorEq, exists_false, false_iff]
      push Not; exact hz.1 hs
    · simp only [hs, if_false, Except.ok.injEq, Option.some.injEq, exists_eq', true_iff]
      by_contra hc
      push Not at hc; exact hs (hz.2 hc)

/-- The cumulative response of a model. -/
noncomputable def lsfCdf (cdf : LsfKind → ℝ → ℝ → ℝ → ℝ) (m : LsfModel) (x : ℝ) : ℝ :=
  m.eef * (m.comps.map fun c => c.ampl * cdf c.kind c.fwhm c.pos x).sum

theorem evalLsf_eq (cdf : LsfKind → ℝ → ℝ → ℝ → ℝ) (m : LsfModel) (lo hi : ℝ) :
    evalLsf cdf m lo hi = lsfCdf cdf m hi - lsfCdf cdf m lo := by
  unfold evalLsf lsfCdf
  rw [← mul_sub]
  congr 1
  induction m.comps with
  | nil => simp
  | cons c l ih => simp only [List.map_cons, List.sum_cons, ih]; ring

theorem lsfCdf_range (cdf : LsfKind → ℝ → ℝ → ℝ → ℝ) (hcdf : ∀ k w p, IsCdf (cdf k w p)) (m : LsfModel)
    (he : 0 ≤ m.eef) (ha : ∀ c ∈ m.comps, 0 ≤ c.ampl) (hs : (m.comps.map LsfComp.ampl).sum = 1) :
    Monotone (lsfCdf cdf m) ∧ ∀ x, 0 ≤ lsfCdf cdf m x ∧ lsfCdf cdf m x ≤ m.eef := by
  have mono : ∀ l : List LsfComp, (∀ c ∈ l, 0 ≤ c.ampl) → ∀ x y, x ≤ y →
      (l.map fun c => c.ampl * cdf c.kind c.fwhm c.pos x).sum ≤
      (l.map fun c => c.ampl * cdf c.kind c.fwhm c.pos y).sum := by
    intro l hl x y hxy
    induction l with
    | nil => simp
    | cons c l ih =>
      simp only [List.map_cons, List.sum_cons]
      exact add_le_add (mul_le_mul_of_nonneg_left ((hcdf _ _ _).1 hxy) (hl c (by simp)))
        (ih fun d hd => hl d (by simp [hd]))
  have range : ∀ l : List LsfComp, (∀ c ∈ l, 0 ≤ c.ampl) → ∀ x,
      0 ≤ (l.map fun c => c.ampl * cdf c.kind c.fwhm c.pos x).sum ∧
      (l.map fun c => c.ampl * cdf c.kind c.fwhm c.pos x).sum ≤ (l.map LsfComp.ampl).sum := by
    intro l hl x
    induction l with
    | nil => simp
    | cons c l ih =>
      simp only [List.map_cons, List.sum_cons]
      obtain ⟨i1, i2⟩ := ih fun d hd => hl d (by simp [hd])
      have h0 := hl c (by simp)
      obtain ⟨c1, c2⟩ := (hcdf c.kind c.fwhm c.pos).2 x
      exact ⟨add_nonneg (mul_nonneg h0 c1) i1, add_le_add (by nlinarith) i2⟩
  refine ⟨fun x y hxy => mul_le_mul_of_nonneg_left (mono _ ha x y hxy) he, fun x => ?_⟩
  obtain ⟨r1, r2⟩ := range _ ha x
  rw [hs] at r2
  refine ⟨mul_nonneg he r1, ?_⟩
  unfold lsfCdf
  nlinarith

theorem range_sum_telescope (G : ℝ → ℝ) (hc : ℝ) (lo hi : List ℝ) (n : ℕ)
    (hch : ∀ i, i + 1 < n → hi.getD i 0 = lo.getD (i + 1) 0) :
    ∀ k, k + 1 ≤ n → ((List.range (k + 1)).map fun c =>
      G (hc / lo.getD c 0) - G (hc / hi.getD c 0)).sum =
      G (hc / lo.getD 0 0) - G (hc / hi.getD k 0) := by
  intro k
  induction k with
  | zero => intro _; simp
  | succ k ih =>
    intro hk
    rw [List.range_succ, List.map_append, List.sum_append, ih (by omega)]
    simp only [List.map_cons, List.map_nil, List.sum_cons, List.sum_nil]
    rw [hch k (by omega)]; ring

/-- **C119** A redistribution matrix made from line spread functions never redistributes more than the enclosed
energy fraction: for every energy in the range of the matrix the response over all channels is not
negative and adds up to at most `EE_FRACS`. -/
theorem C119_row_sum (hc thr : ℝ) (hhc : 0 < hc) (cdf : LsfKind → ℝ → ℝ → ℝ → ℝ)
    (hcdf : ∀ k w p, IsCdf (cdf k w p)) (cols : ℝ → List LsfCol) (m : ℝ → LsfModel)
    (hm : ∀ w, sherpaFromSpline (cols w) = .ok (some (m w))) (heef : ∀ w, 0 ≤ (m w).eef)
    (edges : List ℝ) (hpos : ∀ w ∈ edges, 0 < w) (r : RMF)
    (h : makeRmf hc thr (fun w lo hi => evalLsf cdf (m w) lo hi) edges = .ok r)
    (e : ℝ) (i : ℕ) (hi : i < r.eMin.length) (h1 : r.eMin.getD i 0 ≤ e) (h2 : e < r.eMax.getD i 0) :
    ∃ resp, r.fullRmf e = .ok (r.eMin, r.eMax, resp) ∧ (∀ x ∈ resp, 0 ≤ x) ∧
      resp.sum ≤ (m ((hc / r.eMax.getD i 0 + hc / r.eMin.getD i 0) / 2)).eef := by
  rcases heb : eboundsFromEdges (fun w => hc / w) edges with ⟨ch, lo, hi'⟩
  obtain ⟨r', hr', k1, k2, k3⟩ := C37_make_rmf hc thr (fun w lo hi => evalLsf cdf (m w) lo hi) edges ch lo
    hi' heb
  rw [h, Except.ok.injEq] at hr'
  subst hr'
  rw [k1] at hi h1 ⊢
  rw [k2] at h2 ⊢
  refine ⟨_, k3 e i hi h1 h2, ?_⟩
  obtain ⟨_, l1, l2, t1, _, t3⟩ := C38_tiling _ _ _ _ _ heb
  set w := (hc / hi'.getD i 0 + hc / lo.getD i 0) / 2 with hw
  obtain ⟨_, a1, a2, _⟩ := C119_model (cols w) (m w) (hm w)
  obtain ⟨mono, rng⟩ := lsfCdf_range cdf hcdf (m w) (heef w) a1 a2
  -- all bounds are positive
  have hp : ∀ c, c < lo.length → 0 < lo.getD c 0 := by
    have hall : ∀ x ∈ sortReal (edges.map fun w => hc / w), 0 < x := by
      intro x hx
      have := (sortReal_perm _).mem_iff.1 hx
      obtain ⟨y, hy, rfl⟩ := List.mem_map.1 this
      exact div_pos hhc (hpos y hy)
    intro c hcl
    simp only [eboundsFromEdges, Prod.mk.injEq] at heb
    rw [List.getD_eq_getElem _ _ hcl]
    apply hall
    have hsub : ∀ x ∈ lo, x ∈ sortReal (edges.map fun w => hc / w) := by
      intro x hx
      rw [← heb.2.1] at hx
      exact List.mem_of_mem_dropLast hx
    exact hsub _ (List.getElem_mem _)
  have hterm : ∀ c ∈ List.range lo.length,
      0 ≤ evalLsf cdf (m w) (hc / hi'.getD c 0) (hc / lo.getD c 0) := by
    intro c hc'
    rw [List.mem_range] at hc'
    rw [evalLsf_eq, sub_nonneg]
    apply mono
    exact div_le_div_of_nonneg_left hhc.le (hp c hc') (t1 c (by omega))
  have hcut : ∀ l : List ℝ, (∀ x ∈ l, 0 ≤ x) → (∀ x ∈ cutBelow thr l, 0 ≤ x) ∧ (cutBelow thr l).sum ≤ l.sum := by
    intro l hl
    induction l with
    | nil => simp [cutBelow]
    | cons x l ih =>
      obtain ⟨i1, i2⟩ := ih fun y hy => hl y (by simp [hy])
      have h0 := hl x (by simp)
      rw [show cutBelow thr (x :: l) = (if thr < x then x else 0) :: cutBelow thr l from rfl]
      constructor
      · intro y hy
        rcases List.mem_cons.1 hy with rfl | hy
        · split
          · exact h0
          · exact le_refl _
        · exact i1 y hy
      · simp only [List.sum_cons]
        refine add_le_add ?_ i2
        split
        · exact le_refl _
        · exact h0
  obtain ⟨c1, c2⟩ := hcut ((List.range lo.length).map fun c =>
      evalLsf cdf (m w) (hc / hi'.getD c 0) (hc / lo.getD c 0)) (by
    intro x hx
    obtain ⟨c, hc', rfl⟩ := List.mem_map.1 hx
    exact hterm c hc')
  refine ⟨c1, c2.trans ?_⟩
  obtain ⟨k, hk⟩ : ∃ k, lo.length = k + 1 := ⟨lo.length - 1, by omega⟩
  have := range_sum_telescope (lsfCdf cdf (m w)) hc lo hi' lo.length (fun i hi => t3 i (by omega)) k (by omega)
  simp only [evalLsf_eq]
  rw [hk, this]
  have q1 := (rng (hc / lo.getD 0 0)).2
  have q2 := (rng (hc / hi'.getD k 0)).1
  linarith

/-- **C119** With the same, non-negative parameters `caldb2sherpa` and `sherpa_from_spline` make the same
model. -/
theorem C119_same_model (cols : List LsfCol)
    (h : ∀ p ∈ parmCols cols, 0 ≤ p.2.2.1 ∧ 0 ≤ p.2.2.2.1 ∧ 0 ≤ p.2.2.2.2) :
    caldb2sherpa cols = sherpaFromSpline cols := by
  have : lsfComps id cols = lsfComps (fun x => |x|) cols := by
    induction cols with
    | nil => rfl
    | cons c l ih =>
      cases c with
      | eeFracs v => simpa [lsfComps] using ih h
      | parms n k a w p =>
        simp only [parmCols, List.mem_cons, forall_eq_or_imp] at h
        have hw : 0 ≤ widthConv k := by cases k <;> simp only [widthConv] <;> positivity
        simp only [lsfComps, ih h.2, id]
        rw [abs_of_nonneg (by simpa using h.1.1), abs_of_nonneg (mul_nonneg h.1.2.1 hw),
          abs_of_nonneg (by simpa using h.1.2.2)]
  simp only [caldb2sherpa, sherpaFromSpline, this]

/-- **C119, disagreement** The model made from a file cannot be converted back: `sherpa2caldb` does not accept the
component `EE_FRACS`, which every such model has. -/
theorem C119_convert_back_false (cols : List LsfCol) (m : LsfModel) (_h : caldb2sherpa cols = .ok (some m)) :
    sherpa2caldb m.flatten = .error .valueError := by
  simp [LsfModel.flatten, sherpa2caldb]

/-- **C119** The components alone are converted back to name, width and position in the file and the normalised
amplitude. -/
theorem C119_convert_back_partial (cols : List LsfCol) (m : LsfModel)
    (h : caldb2sherpa cols = .ok (some m)) :
    ∃ s, s ≠ 0 ∧ s = ((parmCols cols).map fun p => p.2.2.1).sum ∧
    sherpa2caldb (m.comps.map .inr) =
      .ok ((parmCols cols).map fun p => (p.1, p.2.2.1 / s, p.2.2.2.1, p.2.2.2.2)) := by
  have hcomps : ∀ l, lsfComps id l = (parmCols l).map fun p =>
      (⟨p.1, p.2.1, p.2.2.1, p.2.2.2.1 * widthConv p.2.1, p.2.2.2.2⟩ : LsfComp) := by
    intro l
    induction l with
    | nil => rfl
    | cons c l ih => cases c <;> simp [lsfComps, parmCols, ih]
  have hw : ∀ k, widthConv k ≠ 0 := by
    intro k; cases k
    · simp only [widthConv]
      have : 0 < Real.log 2 := Real.log_pos (by norm_num)
      positivity
    · simp [widthConv]
  unfold caldb2sherpa lsfFinish at h
  split at h
  · simp at h
  split at h
  · simp at h
  simp only at h
  split at h
  · simp at h
  rename_i hs
  simp only [Except.ok.injEq, Option.some.injEq] at h
  subst h
  have hsum : ((lsfComps id cols).map LsfComp.ampl).sum = ((parmCols cols).map fun p => p.2.2.1).sum := by
    rw [hcomps, List.map_map]; rfl
  refine ⟨_, hs, hsum, ?_⟩
  generalize ((lsfComps id cols).map LsfComp.ampl).sum = s
  rw [hcomps]
  generalize parmCols cols = l
  induction l with
  | nil => rfl
  | cons p l ih =>
    simp only [List.map_cons, sherpa2caldb]
    simp only at ih
    rw [ih]
    simp [mul_div_assoc, div_self (hw _)]

/-! ## `from_Gauss_sigma` -/

/-- **C119, disagreement** A table with energies (documented as possible input) is always a `TypeError`. -/
theorem C119_energy_false (hc : ℝ) (cdf : LsfKind → ℝ → ℝ → ℝ → ℝ) (interp : List (ℝ × ℝ) → ℝ → ℝ)
    (conv : ℝ → ℝ) (edges : List ℝ) (thr : ℝ) (rows : List (ℝ × ℝ)) :
    fromGaussSigma hc cdf interp conv edges thr (.energyOnly rows) = .error .typeError := rfl

/-- The interpolation reproduces constants and the identity between the first and last point, as a cubic spline
does. -/
def ReproducesLines (interp : List (ℝ × ℝ) → ℝ → ℝ) (xs : List ℝ) (a b : ℝ) : Prop :=
  ∀ w, a ≤ w → w ≤ b → interp (xs.map fun x => (x, 1)) w = 1 ∧ interp (xs.map fun x => (x, x)) w = w

/-- **C119** The matrix made from a table of wavelengths and widths: for each energy the response is a Gaussian
around the central wavelength of the bin with the interpolated width (sigma), integrated over the channels. -/
theorem C119_gauss (hc thr : ℝ) (hhc : 0 < hc) (cdf : LsfKind → ℝ → ℝ → ℝ → ℝ)
    (interp : List (ℝ × ℝ) → ℝ → ℝ) (conv : ℝ → ℝ) (edges : List ℝ) (rows : List (ℝ × ℝ))
    (hpos : ∀ w ∈ edges, 0 < conv w) (r : RMF)
    (h : fromGaussSigma hc cdf interp conv edges thr (.wave rows) = .ok r)
    (hlin : ReproducesLines interp ((sortWave rows).map Prod.fst)
      (((sortWave rows).map Prod.fst).headD 0) (((sortWave rows).map Prod.fst).getLastD 0))
    (e : ℝ) (i : ℕ) (hi : i < r.eMin.length) (h1 : r.eMin.getD i 0 ≤ e) (h2 : e < r.eMax.getD i 0) :
    ∃ w, w = (hc / r.eMax.getD i 0 + hc / r.eMin.getD i 0) / 2 ∧
      r.fullRmf e = .ok (r.eMin, r.eMax, cutBelow thr ((List.range r.eMin.length).map fun c =>
        cdf .gauss (|interp (sortWave rows) w| * (2 * Real.sqrt (2 * Real.log 2))) w
            (hc / r.eMin.getD c 0) -
        cdf .gauss (|interp (sortWave rows) w| * (2 * Real.sqrt (2 * Real.log 2))) w
            (hc / r.eMax.getD c 0))) := by
  simp only [fromGaussSigma] at h
  split at h
  · simp at h
  split at h
  · simp at h
  rename_i hmid
  rcases heb : eboundsFromEdges (fun w => hc / w) (edges.map conv) with ⟨ch, lo, hi'⟩
  obtain ⟨r', hr', k1, k2, k3⟩ := C37_make_rmf hc thr _ (edges.map conv) ch lo hi' heb
  rw [h, Except.ok.injEq] at hr'
  subst hr'
  rw [k1] at hi h1 ⊢
  rw [k2] at h2 ⊢
  refine ⟨_, rfl, ?_⟩
  rw [k3 e i hi h1 h2]
  obtain ⟨_, l1, l2, _⟩ := C38_tiling _ _ _ _ _ heb
  set w := (hc / hi'.getD i 0 + hc / lo.getD i 0) / 2 with hw
  have hin : w ∈ List.zipWith (fun lo hi => 1 / 2 * (hc / hi + hc / lo)) lo hi' := by
    rw [List.mem_iff_getElem]
    refine ⟨i, by simp; omega, ?_⟩
    rw [List.getElem_zipWith, hw, List.getD_eq_getElem _ _ hi, List.getD_eq_getElem _ _ (by omega)]
    ring
  rw [heb] at hmid
  push Not at hmid
  obtain ⟨b1, b2⟩ := hmid w hin
  obtain ⟨g1, g2⟩ := hlin w b1 b2
  rw [List.map_map] at g1 g2
  have hsp : sherpaFromSpline (gaussCols interp (sortWave rows) w) = .ok (some ⟨1,
      [⟨"GAUSS1_PARMS", .gauss, 1, |interp (sortWave rows) w| * (2 * Real.sqrt (2 * Real.log 2)), |w|⟩]⟩) := by
    have e1 : interp ((sortWave rows).map fun r => (r.1, 1)) w = 1 := g1
    have e2 : interp ((sortWave rows).map fun r => (r.1, r.1)) w = w := g2
    have hw' : |widthConv .gauss| = 2 * Real.sqrt (2 * Real.log 2) :=
      abs_of_nonneg (by simp only [widthConv]; positivity)
    simp only [sherpaFromSpline, gaussCols, lsfFinish, lsfComps, lsfEef, e1, e2, abs_mul, hw']
    simp
  have hwpos : 0 ≤ w := by
    have hp : ∀ x ∈ sortReal ((edges.map conv).map fun w => hc / w), 0 < x := by
      intro x hx
      have := (sortReal_perm _).mem_iff.1 hx
      obtain ⟨y, hy, rfl⟩ := List.mem_map.1 this
      obtain ⟨z, hz, rfl⟩ := List.mem_map.1 hy
      exact div_pos hhc (hpos z hz)
    simp only [eboundsFromEdges, Prod.mk.injEq] at heb
    have m1 : 0 < lo.getD i 0 := by
      rw [List.getD_eq_getElem _ _ hi]
      apply hp
      have hsub : ∀ x ∈ lo, x ∈ sortReal ((edges.map conv).map fun w => hc / w) := by
        intro x hx
        rw [← heb.2.1] at hx
        exact List.mem_of_mem_dropLast hx
      exact hsub _ (List.getElem_mem _)
    have m2 : 0 < hi'.getD i 0 := by
      rw [List.getD_eq_getElem _ _ (by omega)]
      apply hp
      have hsub : ∀ x ∈ hi', x ∈ sortReal ((edges.map conv).map fun w => hc / w) := by
        intro x hx
        rw [← heb.2.2] at hx
        exact List.mem_of_mem_tail hx
      exact hsub _ (List.getElem_mem _)
    rw [hw]; positivity
  simp only [hsp]
  congr 4
  apply List.map_congr_left
  intro c _
  simp [evalLsf, abs_of_nonneg hwpos]

/-- **C119** A table of wavelengths works if and only if it has at least four different wavelengths and the
central wavelength of every bin is within the tabulated range; the interpolation never extrapolates. -/
theorem C119_range (hc thr : ℝ) (cdf : LsfKind → ℝ → ℝ → ℝ → ℝ)
    (interp : List (ℝ × ℝ) → ℝ → ℝ) (conv : ℝ → ℝ) (edges : List ℝ) (rows : List (ℝ × ℝ))
    (ch : List ℕ) (lo hi : List ℝ)
    (heb : eboundsFromEdges (fun w => hc / w) (edges.map conv) = (ch, lo, hi)) :
    ((∃ r, fromGaussSigma hc cdf interp conv edges thr (.wave rows) = .ok r) ↔
      4 ≤ rows.length ∧ (rows.map Prod.fst).Nodup ∧
      ∀ i, i < lo.length → ∃ a ∈ rows, ∃ b ∈ rows,
        a.1 ≤ (hc / hi.getD i 0 + hc / lo.getD i 0) / 2 ∧
        (hc / hi.getD i 0 + hc / lo.getD i 0) / 2 ≤ b.1) ∧
    ((∀ r, fromGaussSigma hc cdf interp conv edges thr (.wave rows) ≠ .ok r) →
      fromGaussSigma hc cdf interp conv edges thr (.wave rows) = .error .valueError) := by
  have hperm : (sortWave rows).Perm rows := List.mergeSort_perm _ _
  have hsorted : (sortWave rows).Pairwise fun a b => a.1 ≤ b.1 := by
    have := List.pairwise_mergeSort (le := fun a b : ℝ × ℝ => decide (a.1 ≤ b.1))
      (by intro a b c; simp; intro h1 h2; linarith) (by intro a b; simp; exact le_total _ _) rows
    simpa [sortWave] using this
  obtain ⟨_, l1, l2, _⟩ := C38_tiling _ _ _ _ _ heb
  have hmk : ∀ lsf, ∃ r, makeRmf hc thr lsf (edges.map conv) = .ok r := fun lsf => by
    obtain ⟨r, hr, _⟩ := C37_make_rmf hc thr lsf (edges.map conv) ch lo hi heb
    exact ⟨r, hr⟩
  have hnd : ((sortWave rows).map Prod.fst).Nodup ↔ (rows.map Prod.fst).Nodup :=
    (hperm.map Prod.fst).nodup_iff
  have hmem : ∀ w, (w ∈ List.zipWith (fun lo hi => 1 / 2 * (hc / hi + hc / lo)) lo hi ↔
      ∃ i, i < lo.length ∧ w = (hc / hi.getD i 0 + hc / lo.getD i 0) / 2) := by
    intro w
    rw [List.mem_iff_getElem]
    constructor
    · rintro ⟨i, hi1, rfl⟩
      simp at hi1
      refine ⟨i, by omega, ?_⟩
      rw [List.getElem_zipWith, List.getD_eq_getElem _ _ (by omega), List.getD_eq_getElem _ _ (by omega)]
      ring
    · rintro ⟨i, hi1, rfl⟩
      refine ⟨i, by simp; omega, ?_⟩
      rw [List.getElem_zipWith, List.getD_eq_getElem _ _ (by omega), List.getD_eq_getElem _ _ (by omega)]
      ring
  have hends : 4 ≤ rows.length → ∀ w, (¬ (w < ((sortWave rows).map Prod.fst).headD 0 ∨
      ((sortWave rows).map Prod.fst).getLastD 0 < w)) ↔ ∃ a ∈ rows, ∃ b ∈ rows, a.1 ≤ w ∧ w ≤ b.1 := by
    intro h4 w
    have hne : sortWave rows ≠ [] := by
      intro h0; have := hperm.length_eq; rw [h0] at this; simp at this; omega
    obtain ⟨a, l, hal⟩ := List.exists_cons_of_ne_nil hne
    have hlast : ((sortWave rows).map Prod.fst).getLastD 0 = ((sortWave rows).getLast hne).1 := by
      rw [List.getLastD_eq_getLast?, List.getLast?_map, List.getLast?_eq_some_getLast hne]; rfl
    have hhead : ((sortWave rows).map Prod.fst).headD 0 = a.1 := by rw [hal]; rfl
    rw [hlast, hhead]
    push Not
    constructor
    · rintro ⟨p, q⟩
      exact ⟨a, hperm.mem_iff.1 (by rw [hal]; simp), _, hperm.mem_iff.1 (List.getLast_mem hne), p, q⟩
    · rintro ⟨x, hx, y, hy, p, q⟩
      have hx' := hperm.mem_iff.2 hx
      have hy' := hperm.mem_iff.2 hy
      constructor
      · rw [hal] at hx' hsorted
        rcases List.mem_cons.1 hx' with rfl | hx'
        · exact p
        · exact le_trans ((List.pairwise_cons.1 hsorted).1 x hx') p
      · obtain ⟨pre, hpre⟩ : ∃ pre, sortWave rows = pre ++ [(sortWave rows).getLast hne] :=
          ⟨_, (List.dropLast_append_getLast hne).symm⟩
        rw [hpre] at hy' hsorted
        rcases List.mem_append.1 hy' with hy' | hy'
        · exact le_trans q ((List.pairwise_append.1 hsorted).2.2 y hy' _ (by simp))
        · simp at hy'; rw [← hy']; exact q
  simp only [fromGaussSigma, heb]
  by_cases c1 : (sortWave rows).length < 4 ∨ ¬ ((sortWave rows).map Prod.fst).Nodup
  · simp only [c1, if_true]
    refine ⟨?_, fun _ => by trivial⟩
    simp only [reduceCtorEq, exists_false, false_iff]
    rintro ⟨a1, a2, _⟩
    rcases c1 with c1 | c1
    · rw [hperm.length_eq] at c1; omega
    · exact c1 (hnd.2 a2)
  · simp only [c1, if_false]
    push Not at c1
    have h4 : 4 ≤ rows.length := by have := c1.1; rw [hperm.length_eq] at this; exact this
    by_cases c2 : ∃ w ∈ List.zipWith (fun lo hi => 1 / 2 * (hc / hi + hc / lo)) lo hi,
        w < ((sortWave rows).map Prod.fst).headD 0 ∨ ((sortWave rows).map Prod.fst).getLastD 0 < w
    · rw [if_pos c2]
      refine ⟨?_, fun _ => rfl⟩
      simp only [reduceCtorEq, exists_false, false_iff]
      rintro ⟨_, _, a3⟩
      obtain ⟨w, hw, hout⟩ := c2
      obtain ⟨i, hi1, rfl⟩ := (hmem w).1 hw
      exact (hends h4 _).2 (a3 i hi1) hout
    · rw [if_neg c2]
      push Not at c2
      obtain ⟨r, hr⟩ := hmk (fun w lo hi =>
        match sherpaFromSpline (gaussCols interp (sortWave rows) w) with
        | .ok (some m) => evalLsf cdf m lo hi
        | _ => 0)
      refine ⟨⟨fun _ => ⟨h4, hnd.1 c1.2, ?_⟩, fun _ => ⟨r, hr⟩⟩, fun hn => absurd hr (hn r)⟩
      intro i hi1
      refine (hends h4 _).1 ?_
      have := c2 _ ((hmem _).2 ⟨i, hi1, rfl⟩)
      push Not
      exact this

/-- A row with a Gaussian and a Lorentzian. -/
example : ∃ m, sherpaFromSpline [.eeFracs 1, .parms "GAUSS1_PARMS" .gauss 1 (1 / 100) 20,
    .parms "LORENTZ1_PARMS" .lorentz 3 (1 / 10) 20] = .ok (some m) ∧ m.eef = 1 ∧
    (m.comps.map LsfComp.ampl) = [1 / 4, 3 / 4] := by
  have hs : |(1 : ℝ) * 1| + (|(3 : ℝ) * 1| + 0) ≠ 0 := by norm_num
  simp only [sherpaFromSpline, lsfFinish, lsfComps, lsfEef, List.map_cons, List.map_nil, List.sum_cons,
    List.sum_nil, hs, if_false, reduceCtorEq]
  refine ⟨_, rfl, rfl, ?_⟩
  simp only [List.map_cons, List.map_nil]
  norm_num

/-- Interpolation that meets `ReproducesLines`: exact lines through the first two points. -/
example : ReproducesLines (fun l w => match l with
    | (x, y) :: (x', y') :: _ => y + (y' - y) / (x' - x) * (w - x)
    | _ => 0) [1, 2, 3, 4] 1 4 := by
  intro w _ _
  constructor <;> simp <;> norm_num

end Marxs
