import Verif.Model.Rmf0
import Verif.Spec.Rmf0
import Verif.Props.Lsf
import Verif.Props.Osip
import Verif.Props.MissionsMore
import Mathlib.Tactic.Linarith
import Mathlib.Tactic.Ring
import Mathlib.Tactic.FieldSimp
import Mathlib.Tactic.NormNum
import Mathlib.Data.List.GetD
import Mathlib.Tactic.IntervalCases
import Mathlib.Analysis.SpecialFunctions.Trigonometric.Arctan

/-!
# C142: zero order of Arcus
-/

namespace Marxs
open Classical

/-! ## Curves -/

theorem interp_on_curve {x : ℝ} : ∀ l : List (ℝ × ℝ), l.Pairwise (fun a b => a.1 < b.1) → CurveCovers l x →
    ∃ v, interp x l = some v ∧ OnCurve l x v
  | [], _, h => by obtain ⟨⟨a, ha, _⟩, _⟩ := h; simp at ha
  | [p], _, h => by
    obtain ⟨⟨a, ha, h1⟩, ⟨b, hb, h2⟩⟩ := h
    rw [List.mem_singleton] at ha hb
    rw [ha] at h1
    rw [hb] at h2
    exact ⟨_, rfl, p, by simp, p, by simp, h1, h2, by simp, by ring, fun _ => rfl⟩
  | p :: q :: l, hs, h => by
    have hs' := List.pairwise_cons.1 hs
    have hpq := hs'.1 q (by simp)
    by_cases c1 : x ≤ p.1
    · have hx : x = p.1 := by
        obtain ⟨⟨a, ha, h1⟩, _⟩ := h
        rcases List.mem_cons.1 ha with rfl | ha
        · exact le_antisymm c1 h1
        · have := hs'.1 a ha; linarith
      refine ⟨p.2, by simp only [interp, c1, if_true], p, by simp, p, by simp, hx.ge, hx.le, ?_, by ring, fun _ => rfl⟩
      intro c _
      exact le_total _ _
    · by_cases c2 : x < q.1
      · refine ⟨(q.2 - p.2) / (q.1 - p.1) * (x - p.1) + p.2, by simp only [interp, c1, c2, if_true, if_false], p, by simp, q, by simp, (not_le.1 c1).le, c2.le, ?_, ?_, ?_⟩
        · intro c hc
          rcases List.mem_cons.1 hc with rfl | hc
          · exact Or.inl le_rfl
          rcases List.mem_cons.1 hc with rfl | hc
          · exact Or.inr le_rfl
          · exact Or.inr ((List.pairwise_cons.1 hs'.2).1 c hc).le
        · have : q.1 - p.1 ≠ 0 := by linarith
          field_simp
          ring
        · intro he; linarith
      · obtain ⟨v, hv, a, ha, b, hb, h1, h2, h3, h4, h5⟩ := interp_on_curve (q :: l) hs'.2 (by
          obtain ⟨_, ⟨b, hb, h2⟩⟩ := h
          refine ⟨⟨q, by simp, not_lt.1 c2⟩, ?_⟩
          rcases List.mem_cons.1 hb with rfl | hb
          · exact absurd h2 c1
          · exact ⟨b, hb, h2⟩)
        refine ⟨v, by simp only [interp, c1, c2, if_false, hv], a, by simp [ha], b, by simp [hb], h1, h2, ?_, h4, h5⟩
        intro c hc
        rcases List.mem_cons.1 hc with rfl | hc
        · exact Or.inl (hs'.1 a ha).le
        · exact h3 c hc

theorem interp_below {x : ℝ} (p : ℝ × ℝ) (l : List (ℝ × ℝ)) (h : x ≤ p.1) : interp x (p :: l) = some p.2 := by
  cases l with
  | nil => rfl
  | cons q l => simp only [interp, h, if_true]

theorem interp_above {x : ℝ} : ∀ (l : List (ℝ × ℝ)) (p : ℝ × ℝ), l.Pairwise (fun a b => a.1 < b.1) →
    l.getLast? = some p → (∀ a ∈ l, a.1 < x) → interp x l = some p.2
  | [], p, _, h, _ => by simp at h
  | [a], p, _, h, _ => by simp at h; subst h; rfl
  | a :: b :: l, p, hs, h, hx => by
    have h1 := not_le.2 (hx a (by simp))
    have h2 := not_lt.2 (hx b (by simp)).le
    simp only [interp, h1, h2, if_false]
    exact interp_above (b :: l) p (List.pairwise_cons.1 hs).2 (by simpa using h) fun c hc => hx c (by simp [hc])

theorem onCurve_self {l : List (ℝ × ℝ)} {p : ℝ × ℝ} (h : p ∈ l) : OnCurve l p.1 p.2 :=
  ⟨p, h, p, h, le_rfl, le_rfl, fun _ _ => le_total _ _, by ring, fun _ => rfl⟩

theorem interp_nearest {x : ℝ} (l : List (ℝ × ℝ)) (hs : l.Pairwise fun a b => a.1 < b.1) (hne : l ≠ []) :
    ∃ v, interp x l = some v ∧ OnNearest l x v := by
  by_cases hc : CurveCovers l x
  · obtain ⟨v, h1, h2⟩ := interp_on_curve l hs hc
    exact ⟨v, h1, x, h2, fun y _ => by simp⟩
  · rw [CurveCovers, not_and_or] at hc
    push Not at hc
    rcases hc with hc | hc
    · cases l with
      | nil => exact absurd rfl hne
      | cons p l =>
        have hp := hc p (by simp)
        refine ⟨p.2, interp_below p l hp.le, p.1, onCurve_self (by simp), ?_⟩
        rintro y ⟨⟨a, ha, h1⟩, _⟩
        have : p.1 ≤ y := by
          rcases List.mem_cons.1 ha with rfl | ha
          · exact h1
          · exact ((List.pairwise_cons.1 hs).1 a ha).le.trans h1
        rw [abs_of_neg (by linarith), abs_of_neg (by linarith)]
        linarith
    · obtain ⟨p, hp⟩ := Option.isSome_iff_exists.1 (List.getLast?_isSome.2 hne)
      have hmem := List.mem_of_getLast? hp
      refine ⟨p.2, interp_above l p hs hp hc, p.1, onCurve_self hmem, ?_⟩
      rintro y ⟨_, ⟨b, hb, h1⟩⟩
      have hx := hc p hmem
      have hbp : b.1 ≤ p.1 := by
        obtain ⟨m, rfl⟩ := List.getLast?_eq_some_iff.1 hp
        rcases List.mem_append.1 hb with hb | hb
        · exact ((List.pairwise_append.1 hs).2.2 b hb p (by simp)).le
        · rw [List.mem_singleton] at hb; rw [hb]
      rw [abs_of_pos (by linarith), abs_of_pos (by linarith)]
      linarith

/-! ## The redistribution matrix -/

/-- Rows stored for bins that follow each other: the decoded response at an energy is that of its bin. -/
theorem stored_bins (thr : ℝ) (lo hi : List ℝ) (arr : ℝ → ℝ → List ℝ) (rows : List RmfRow)
    (h : List.Forall₂ (fun (p : ℝ × ℝ) row => StoredRow 0 thr p.1 p.2 (arr p.1 p.2) row) (List.zip lo hi) rows)
    (hl : lo.length = hi.length) (harr : ∀ a b, (arr a b).length = lo.length)
    (hle : ∀ i, i < lo.length → lo.getD i 0 ≤ hi.getD i 0)
    (hch : ∀ i, i + 1 < lo.length → hi.getD i 0 = lo.getD (i + 1) 0)
    (e : ℝ) (i : ℕ) (hi1 : i < lo.length) (h1 : lo.getD i 0 ≤ e) (h2 : e < hi.getD i 0) :
    (⟨rows, some 0, lo, hi⟩ : RMF).fullRmf e = .ok (lo, hi, cutBelow thr (arr (lo.getD i 0) (hi.getD i 0))) := by
  have hfull := C37_full_rmf ⟨rows, some 0, lo, hi⟩ 0 thr e
    ((List.zip lo hi).map fun p => (p.1, p.2, arr p.1 p.2)) (by rw [List.forall₂_map_left_iff]; exact h) rfl (by
      intro a ha
      obtain ⟨p, _, rfl⟩ := List.mem_map.1 ha
      exact harr _ _)
  rw [hfull]
  have hex : ∃ a, List.find? (fun a : ℝ × ℝ × List ℝ => decide (a.1 ≤ e ∧ e < a.2.1))
      ((List.zip lo hi).map fun p => (p.1, p.2, arr p.1 p.2)) = some a := by
    rw [← Option.isSome_iff_exists, List.find?_isSome]
    refine ⟨_, List.mem_map_of_mem (List.getElem_mem (l := List.zip lo hi) (n := i) (by simp; omega)), ?_⟩
    rw [List.getD_eq_getElem _ _ (by omega)] at h1 h2
    simp [h1, h2]
  obtain ⟨a, ha⟩ := hex
  rw [ha]
  have hmem := List.mem_of_find?_eq_some ha
  have hcond : a.1 ≤ e ∧ e < a.2.1 := by simpa using List.find?_some ha
  obtain ⟨p, hp, rfl⟩ := List.mem_map.1 hmem
  obtain ⟨j, hj, rfl⟩ := List.getElem_of_mem hp
  have hj' : j < lo.length := by simp at hj; omega
  have mono : ∀ k m, k < m → m < lo.length → hi.getD k 0 ≤ lo.getD m 0 := by
    intro k m hkm
    induction m with
    | zero => omega
    | succ m ih =>
      intro hm
      rcases Nat.lt_or_ge k m with hlt | hge
      · have a1 := ih hlt (by omega)
        have a2 := hle m (by omega)
        have a3 := hch m hm
        linarith
      · have : k = m := by omega
        subst this
        exact (hch k hm).le
  simp only [List.getElem_zip] at hcond ⊢
  rw [← List.getD_eq_getElem (d := 0) lo hj', ← List.getD_eq_getElem (d := 0) hi (by omega)] at hcond ⊢
  have hij : i = j := by
    rcases Nat.lt_trichotomy i j with hlt | rfl | hgt
    · have := mono i j hlt hj'; linarith [hcond.1]
    · rfl
    · have := mono j i hgt hi1; linarith [hcond.2]
  subst hij
  rfl

theorem interp_div (x k : ℝ) : ∀ l : List (ℝ × ℝ), interp x (l.map fun r => (r.1, r.2 / k)) = (interp x l).map (· / k)
  | [] => rfl
  | [p] => rfl
  | p :: q :: l => by
    have := interp_div x k (q :: l)
    simp only [List.map_cons] at this ⊢
    simp only [interp]
    split
    · rfl
    · split
      · simp only [Option.map_some, Option.some.injEq]; ring
      · exact this

theorem interp_pos {x v : ℝ} (l : List (ℝ × ℝ)) (hp : ∀ p ∈ l, 0 < p.2) (h : interp x l = some v)
    (hs : l.Pairwise fun a b => a.1 < b.1) : 0 < v := by
  induction l with
  | nil => simp [interp] at h
  | cons p l ih =>
    cases l with
    | nil => simp [interp] at h; rw [← h]; exact hp p (by simp)
    | cons q l =>
      have hpq := (List.pairwise_cons.1 hs).1 q (by simp)
      simp only [interp] at h
      split at h
      · cases h; exact hp p (by simp)
      · rename_i h1
        split at h
        · rename_i h2
          cases h
          have a1 := hp p (by simp)
          have a2 := hp q (by simp)
          have hd : 0 < q.1 - p.1 := by linarith
          have : (q.2 - p.2) / (q.1 - p.1) * (x - p.1) + p.2 = (q.2 * (x - p.1) + p.2 * (q.1 - x)) / (q.1 - p.1) := by
            field_simp; ring
          rw [this]
          apply div_pos _ hd
          push Not at h1
          have := mul_pos a2 (by linarith : 0 < x - p.1)
          have := mul_pos a1 (by linarith : 0 < q.1 - x)
          linarith
        · exact ih (fun r hr => hp r (by simp [hr])) h (List.pairwise_cons.1 hs).2

/-- **C142** The redistribution matrix of the zero order: for every table of positive widths at increasing energies it
can be made; its bins are the bins between the sorted edges; the response to a photon of energy `e` is, apart from
the values that are not above the threshold, the probability that a Gaussian around the centre of the bin of `e`
falls in each channel, where the width is read from the table (eV) at the centre of the bin or at the closest energy in
the table. -/
theorem C142_response (cdf : LsfKind → ℝ → ℝ → ℝ → ℝ) (conv : ℝ → ℝ) (edges : List ℝ) (tab : List (ℝ × ℝ)) (thr : ℝ)
    (hne : tab ≠ []) (hs : tab.Pairwise fun a b => a.1 < b.1) (hpos : ∀ p ∈ tab, 0 < p.2) (ch : List ℕ) (lo hi : List ℝ)
    (heb : eboundsFromEdges conv edges = (ch, lo, hi)) :
    ∃ r, mkrmf0 cdf conv edges tab thr = .ok r ∧ r.eMin = lo ∧ r.eMax = hi ∧
      ∀ (e : ℝ) (i : ℕ), i < lo.length → lo.getD i 0 ≤ e → e < hi.getD i 0 →
        ∃ fwhm, OnNearest tab ((lo.getD i 0 + hi.getD i 0) / 2) fwhm ∧ 0 < fwhm ∧
          r.fullRmf e = .ok (lo, hi, cutBelow thr ((List.range lo.length).map fun c =>
            cdf .gauss (fwhm / 1000) ((lo.getD i 0 + hi.getD i 0) / 2) (hi.getD c 0) -
            cdf .gauss (fwhm / 1000) ((lo.getD i 0 + hi.getD i 0) / 2) (lo.getD c 0))) := by
  obtain ⟨_, l1, l2, t1, _, t3⟩ := C38_tiling _ _ _ _ _ heb
  have hl : lo.length = hi.length := by omega
  have hw : ∀ x, ∃ v, interp x tab = some v ∧ OnNearest tab x v ∧ 0 < v := by
    intro x
    obtain ⟨v, h1, h2⟩ := interp_nearest (x := x) tab hs hne
    exact ⟨v, h1, h2, interp_pos tab hpos h1 hs⟩
  choose W hW using hw
  obtain ⟨rows, h1, h2⟩ := mapM_forall₂ (R := fun (p : ℝ × ℝ) row => StoredRow 0 thr p.1 p.2
      (List.zipWith (fun a b => cdf .gauss (W (1 / 2 * (p.1 + p.2)) / 1000) (1 / 2 * (p.1 + p.2)) b -
        cdf .gauss (W (1 / 2 * (p.1 + p.2)) / 1000) (1 / 2 * (p.1 + p.2)) a) lo hi) row)
    (fun p => mkrmf0Row cdf tab thr lo hi p.1 p.2) (List.zip lo hi) (by
      intro p _
      obtain ⟨g, hg, _⟩ := C36_roundtrip (List.zipWith (fun a b =>
        cdf .gauss (W (1 / 2 * (p.1 + p.2)) / 1000) (1 / 2 * (p.1 + p.2)) b -
        cdf .gauss (W (1 / 2 * (p.1 + p.2)) / 1000) (1 / 2 * (p.1 + p.2)) a) lo hi) 0 thr
      have hnp : ¬ W (1 / 2 * (p.1 + p.2)) / 1000 ≤ 0 := not_le.2 (div_pos (hW _).2.2 (by norm_num))
      refine ⟨⟨p.1, p.2, g.nGrp, .arr g.fChan, .arr g.nChan, g.matrix⟩, ?_, rfl, rfl, g, hg, rfl, rfl, rfl, rfl⟩
      simp only [mkrmf0Row, interp_div, (hW _).1, Option.map_some, hnp, if_false, hg])
  refine ⟨⟨rows, some 0, lo, hi⟩, ?_, rfl, rfl, ?_⟩
  · simp only [mkrmf0, heb, h1]
  · intro e i hi1 hi2 hi3
    refine ⟨W ((lo.getD i 0 + hi.getD i 0) / 2), (hW _).2.1, (hW _).2.2, ?_⟩
    rw [stored_bins thr lo hi (fun x y => List.zipWith (fun a b =>
        cdf .gauss (W (1 / 2 * (x + y)) / 1000) (1 / 2 * (x + y)) b -
        cdf .gauss (W (1 / 2 * (x + y)) / 1000) (1 / 2 * (x + y)) a) lo hi) rows h2 hl (by intro a b; simp [hl])
        (fun i h => t1 i (by omega)) (fun i h => t3 i (by omega)) e i hi1 hi2 hi3]
    have hmid : 1 / 2 * (lo.getD i 0 + hi.getD i 0) = (lo.getD i 0 + hi.getD i 0) / 2 := by ring
    simp only [hmid]
    congr 4
    apply List.ext_getElem
    · simp [hl]
    · intro c hc1 hc2
      simp only [List.length_map, List.length_range] at hc2
      simp only [List.getElem_zipWith, List.getElem_map, List.getElem_range, List.getD_eq_getElem _ _ hc2,
        List.getD_eq_getElem hi 0 (hl ▸ hc2)]

theorem cut_le (thr : ℝ) : ∀ l : List ℝ, (∀ x ∈ l, 0 ≤ x) → (∀ x ∈ cutBelow thr l, 0 ≤ x) ∧ (cutBelow thr l).sum ≤ l.sum := by
  intro l hl
  induction l with
  | nil => simp [cutBelow]
  | cons x l ih =>
    obtain ⟨i1, i2⟩ := ih fun y hy => hl y (by simp [hy])
    have h0 := hl x (by simp)
    rw [show cutBelow thr (x :: l) = (if thr < x then x else 0) :: cutBelow thr l from rfl]
    constructor
    · intro y hy
      rcases List.mem_cons.1 hy with rfl | hy
      · split
        · exact h0
        · exact le_refl _
      · exact i1 y hy
    · simp only [List.sum_cons]
      refine add_le_add ?_ i2
      split
      · exact le_refl _
      · exact h0

/-- **C142** The response is never negative and adds up to at most one, so no counts are made. -/
theorem C142_sum (cdf : LsfKind → ℝ → ℝ → ℝ → ℝ) (hcdf : ∀ k w p, 0 < w → IsCdf (cdf k w p)) (conv : ℝ → ℝ)
    (edges : List ℝ) (tab : List (ℝ × ℝ)) (thr : ℝ)
    (hne : tab ≠ []) (hs : tab.Pairwise fun a b => a.1 < b.1) (hpos : ∀ p ∈ tab, 0 < p.2) (r : RMF)
    (h : mkrmf0 cdf conv edges tab thr = .ok r) (e : ℝ) (i : ℕ) (hi : i < r.eMin.length)
    (h1 : r.eMin.getD i 0 ≤ e) (h2 : e < r.eMax.getD i 0) :
    ∃ resp, r.fullRmf e = .ok (r.eMin, r.eMax, resp) ∧ resp.length = r.eMin.length ∧ (∀ x ∈ resp, 0 ≤ x) ∧
      resp.sum ≤ 1 := by
  rcases heb : eboundsFromEdges conv edges with ⟨ch, lo, hi'⟩
  obtain ⟨r', hr', k1, k2, k3⟩ := C142_response cdf conv edges tab thr hne hs hpos ch lo hi' heb
  rw [h, Except.ok.injEq] at hr'
  subst hr'
  rw [k1] at hi h1 ⊢
  rw [k2] at h2 ⊢
  obtain ⟨w, _, hw, hr⟩ := k3 e i hi h1 h2
  obtain ⟨_, l1, l2, t1, _, t3⟩ := C38_tiling _ _ _ _ _ heb
  obtain ⟨mono, rng⟩ := hcdf .gauss (w / 1000) ((lo.getD i 0 + hi'.getD i 0) / 2) (div_pos hw (by norm_num))
  set G := cdf .gauss (w / 1000) ((lo.getD i 0 + hi'.getD i 0) / 2) with hG
  obtain ⟨c1, c2⟩ := cut_le thr ((List.range lo.length).map fun c => G (hi'.getD c 0) - G (lo.getD c 0)) (by
    intro x hx
    obtain ⟨c, hc', rfl⟩ := List.mem_map.1 hx
    rw [List.mem_range] at hc'
    exact sub_nonneg.2 (mono (t1 c (by omega))))
  refine ⟨_, hr, by simp [cutBelow], c1, c2.trans ?_⟩
  have tele : ∀ k, k + 1 ≤ lo.length → ((List.range (k + 1)).map fun c => G (hi'.getD c 0) - G (lo.getD c 0)).sum =
      G (hi'.getD k 0) - G (lo.getD 0 0) := by
    intro k
    induction k with
    | zero => intro _; simp
    | succ k ih =>
      intro hk
      rw [List.range_succ, List.map_append, List.sum_append, ih (by omega)]
      have := t3 k (by omega)
      simp only [List.map_cons, List.map_nil, List.sum_cons, List.sum_nil]
      rw [this]; ring
  obtain ⟨k, hk⟩ : ∃ k, lo.length = k + 1 := ⟨lo.length - 1, by omega⟩
  rw [hk, tele k (by omega)]
  have q1 := (rng (hi'.getD k 0)).2
  have q2 := (rng (lo.getD 0 0)).1
  linarith

/-- **C142** Without a table of widths, or with only widths that are not positive, no matrix is made. -/
theorem C142_refused (cdf : LsfKind → ℝ → ℝ → ℝ → ℝ) (conv : ℝ → ℝ) (edges : List ℝ) (tab : List (ℝ × ℝ)) (thr : ℝ)
    (he : 2 ≤ edges.length) (hbad : ∀ p ∈ tab, p.2 ≤ 0) :
    mkrmf0 cdf conv edges tab thr = .error .valueError := by
  rcases heb : eboundsFromEdges conv edges with ⟨ch, lo, hi⟩
  obtain ⟨_, l1, l2, _⟩ := C38_tiling _ _ _ _ _ heb
  have hrow : ∀ p : ℝ × ℝ, mkrmf0Row cdf tab thr lo hi p.1 p.2 = .error .valueError := by
    intro p
    simp only [mkrmf0Row, interp_div]
    rcases hv : interp (1 / 2 * (p.1 + p.2)) tab with _ | v
    · rfl
    · obtain ⟨m, hm⟩ : ∃ m, ∀ q ∈ tab, m ≤ q.2 := by
        clear hv hbad
        induction tab with
        | nil => exact ⟨0, by simp⟩
        | cons a l ih =>
          obtain ⟨m, hm⟩ := ih
          exact ⟨min m a.2, by
            intro q hq
            rcases List.mem_cons.1 hq with rfl | hq
            · exact min_le_right _ _
            · exact (min_le_left _ _).trans (hm q hq)⟩
      have := (interp_range (lo := m) (hi := 0) tab v (fun q hq => ⟨hm q hq, hbad q hq⟩) hv).2
      have h' : v / 1000 ≤ 0 := by linarith
      simp only [Option.map_some, h', if_true]
  simp only [mkrmf0, heb]
  cases lo with
  | nil => simp at l1; omega
  | cons a lo =>
    cases hi with
    | nil => simp at l2; omega
    | cons b hi =>
      rw [List.zip_cons_cons, List.mapM_cons, hrow (a, b)]
      rfl

/-! ## Comparison with `from_Gauss_sigma` -/

/-- **C142** On channels of equal width the response of the zero order is symmetric in energy: the channels next to
the photon's channel on both sides get the same value. -/
theorem C142_symmetric (cdf : LsfKind → ℝ → ℝ → ℝ → ℝ) (hsym : ∀ w p, 0 < w → SymmetricAbout p (cdf .gauss w p))
    (conv : ℝ → ℝ) (edges : List ℝ) (tab : List (ℝ × ℝ)) (thr : ℝ)
    (hne : tab ≠ []) (hs : tab.Pairwise fun a b => a.1 < b.1) (hpos : ∀ p ∈ tab, 0 < p.2) (r : RMF)
    (h : mkrmf0 cdf conv edges tab thr = .ok r) (E d : ℝ) (hd : 0 < d)
    (hlo : r.eMin = [E, E + d, E + 2 * d]) (hhi : r.eMax = [E + d, E + 2 * d, E + 3 * d]) :
    ∃ a b c, r.fullRmf (E + d) = .ok (r.eMin, r.eMax, [a, b, c]) ∧ a = c := by
  rcases heb : eboundsFromEdges conv edges with ⟨ch, lo, hi'⟩
  obtain ⟨r', hr', k1, k2, k3⟩ := C142_response cdf conv edges tab thr hne hs hpos ch lo hi' heb
  rw [h, Except.ok.injEq] at hr'
  subst hr'
  obtain ⟨w, _, hw, hr⟩ := k3 (E + d) 1 (by rw [← k1, hlo]; simp) (by rw [← k1, hlo]; simp)
    (by rw [← k2, hhi]; simp; linarith)
  rw [← k1, ← k2, hlo, hhi] at hr
  simp only [List.length_cons, List.length_nil, cutBelow, List.range_succ, List.range_zero, List.nil_append,
    List.cons_append, List.map_cons, List.map_nil, List.getD_cons_zero, List.getD_cons_succ] at hr
  rw [hlo, hhi]
  refine ⟨_, _, _, hr, ?_⟩
  have hS := hsym (w / 1000) ((E + d + (E + 2 * d)) / 2) (div_pos hw (by norm_num))
  have s1 := hS (d / 2)
  have s2 := hS (3 * d / 2)
  rw [show (E + d + (E + 2 * d)) / 2 + d / 2 = E + 2 * d by ring,
    show (E + d + (E + 2 * d)) / 2 - d / 2 = E + d by ring] at s1
  rw [show (E + d + (E + 2 * d)) / 2 + 3 * d / 2 = E + 3 * d by ring,
    show (E + d + (E + 2 * d)) / 2 - 3 * d / 2 = E by ring] at s2
  have : cdf .gauss (w / 1000) ((E + d + (E + 2 * d)) / 2) (E + d) - cdf .gauss (w / 1000) ((E + d + (E + 2 * d)) / 2) E =
      cdf .gauss (w / 1000) ((E + d + (E + 2 * d)) / 2) (E + 3 * d) -
      cdf .gauss (w / 1000) ((E + d + (E + 2 * d)) / 2) (E + 2 * d) := by linarith
  rw [this]

/-- **C142** `from_Gauss_sigma` cannot take the place of `mkrmf0`: on the same three channels of equal width in
energy its response to the photon in the middle is larger in the channel of lower energy, for every table of widths,
unless both values are below the threshold. -/
theorem C142_replace_false (hc thr : ℝ) (hhc : 0 < hc) (hthr : 0 ≤ thr) (cdf : LsfKind → ℝ → ℝ → ℝ → ℝ)
    (hsym : ∀ w p, 0 < w → SymmetricAbout p (cdf .gauss w p)) (hmono : ∀ w p, 0 < w → StrictMono (cdf .gauss w p))
    (interp : List (ℝ × ℝ) → ℝ → ℝ) (conv : ℝ → ℝ) (edges : List ℝ) (rows : List (ℝ × ℝ))
    (hpos : ∀ w ∈ edges, 0 < conv w) (r : RMF)
    (h : fromGaussSigma hc cdf interp conv edges thr (.wave rows) = .ok r)
    (hlin : ReproducesLines interp ((sortWave rows).map Prod.fst)
      (((sortWave rows).map Prod.fst).headD 0) (((sortWave rows).map Prod.fst).getLastD 0))
    (hwid : ∀ w, interp (sortWave rows) w ≠ 0) (E d : ℝ) (hE : 0 < E) (hd : 0 < d)
    (hlo : r.eMin = [E, E + d, E + 2 * d]) (hhi : r.eMax = [E + d, E + 2 * d, E + 3 * d]) :
    ∃ a b c, r.fullRmf (E + d) = .ok (r.eMin, r.eMax, [a, b, c]) ∧ (c < a ∨ a = 0 ∧ c = 0) := by
  obtain ⟨w, hw, hr⟩ := C119_gauss hc thr hhc cdf interp conv edges rows hpos r h hlin (E + d) 1
    (by rw [hlo]; simp) (by rw [hlo]; simp) (by rw [hhi]; simp; linarith)
  rw [hlo, hhi] at hr hw
  simp only [List.length_cons, List.length_nil, cutBelow, List.range_succ, List.range_zero, List.nil_append,
    List.cons_append, List.map_cons, List.map_nil, List.getD_cons_zero, List.getD_cons_succ] at hr hw
  rw [hlo, hhi]
  refine ⟨_, _, _, hr, ?_⟩
  have hsig : 0 < |interp (sortWave rows) w| * (2 * Real.sqrt (2 * Real.log 2)) := by
    have := abs_pos.2 (hwid w)
    have := Real.log_pos (one_lt_two)
    positivity
  set F := cdf .gauss (|interp (sortWave rows) w| * (2 * Real.sqrt (2 * Real.log 2))) w with hF
  have hS : SymmetricAbout w F := hsym _ _ hsig
  have hM : StrictMono F := hmono _ _ hsig
  have s1 := hS (hc / (E + d) - w)
  have s2 := hS (w - hc / (E + 3 * d))
  rw [show w + (hc / (E + d) - w) = hc / (E + d) by ring,
    show w - (hc / (E + d) - w) = hc / (E + 2 * d) by rw [hw]; ring] at s1
  rw [show w - (w - hc / (E + 3 * d)) = hc / (E + 3 * d) by ring] at s2
  have hlt : w + (w - hc / (E + 3 * d)) < hc / E := by
    have e1 : hc / E + hc / (E + 3 * d) - (hc / (E + 2 * d) + hc / (E + d)) =
        hc * (2 * d ^ 2 * (2 * E + 3 * d)) / (E * (E + d) * (E + 2 * d) * (E + 3 * d)) := by
      field_simp
      ring
    have e2 : 0 < hc * (2 * d ^ 2 * (2 * E + 3 * d)) / (E * (E + d) * (E + 2 * d) * (E + 3 * d)) := by positivity
    rw [hw]
    linarith
  have hgt := hM hlt
  have key : F (hc / (E + 2 * d)) - F (hc / (E + 3 * d)) < F (hc / E) - F (hc / (E + d)) := by linarith
  split_ifs
  all_goals first
    | exact Or.inl key
    | exact Or.inr ⟨rfl, rfl⟩
    | (left; linarith)
    | (exfalso; linarith)

/-! ## Filters -/

theorem sortWave_perm (l : List (ℝ × ℝ)) : (sortWave l).Perm l := List.mergeSort_perm _ _

theorem sortWave_strict (l : List (ℝ × ℝ)) (h : (l.map Prod.fst).Nodup) :
    (sortWave l).Pairwise fun a b => a.1 < b.1 := by
  have hs : (sortWave l).Pairwise fun a b => a.1 ≤ b.1 := by
    have := List.pairwise_mergeSort (le := fun a b : ℝ × ℝ => decide (a.1 ≤ b.1))
      (by intro a b c h1 h2; simp at *; linarith) (by intro a b; simp; exact le_total _ _) l
    refine this.imp ?_
    intro a b hab
    simpa using hab
  have hn : ((sortWave l).map Prod.fst).Nodup := ((sortWave_perm l).map Prod.fst).nodup_iff.2 h
  rw [List.Nodup, List.pairwise_map] at hn
  exact (hs.and hn).imp fun h => lt_of_le_of_ne h.1 h.2

theorem covers_perm {l m : List (ℝ × ℝ)} (h : l.Perm m) (x : ℝ) : CurveCovers l x ↔ CurveCovers m x := by
  simp only [CurveCovers, h.mem_iff]

theorem onCurve_perm {l m : List (ℝ × ℝ)} (h : l.Perm m) (x v : ℝ) : OnCurve l x v ↔ OnCurve m x v := by
  simp only [OnCurve, h.mem_iff]

theorem ends_cover {l : List (ℝ × ℝ)} (hs : l.Pairwise fun a b => a.1 < b.1) {a b : ℝ × ℝ} (ha : l.head? = some a)
    (hb : l.getLast? = some b) (x : ℝ) : (x < a.1 ∨ b.1 < x) ↔ ¬ CurveCovers l x := by
  have h1 : ∀ c ∈ l, a.1 ≤ c.1 := by
    cases l with
    | nil => simp at ha
    | cons p l =>
      simp at ha; subst ha
      intro c hc
      rcases List.mem_cons.1 hc with rfl | hc
      · exact le_rfl
      · exact ((List.pairwise_cons.1 hs).1 c hc).le
  have h2 : ∀ c ∈ l, c.1 ≤ b.1 := by
    obtain ⟨m, rfl⟩ := List.getLast?_eq_some_iff.1 hb
    intro c hc
    rcases List.mem_append.1 hc with hc | hc
    · exact ((List.pairwise_append.1 hs).2.2 c hc b (by simp)).le
    · rw [List.mem_singleton] at hc; rw [hc]
  have ma := List.mem_of_head? ha
  have mb := List.mem_of_getLast? hb
  constructor
  · rintro (h | h) ⟨⟨c, hc, h3⟩, ⟨d, hd, h4⟩⟩
    · linarith [h1 c hc]
    · linarith [h2 d hd]
  · intro h
    by_contra hcon
    push Not at hcon
    exact h ⟨⟨a, ma, hcon.1⟩, ⟨b, mb, hcon.2⟩⟩

theorem filterCurve_fill {tab : List (ℝ × ℝ)} (hg : GoodCurve tab) (x : ℝ) :
    ∃ v, filterCurve (some 0) tab x = .ok v ∧ Passes tab x v ∧ 0 ≤ v ∧ v ≤ 1 ∧
      (CurveCovers tab x → filterCurve none tab x = .ok v) ∧ (¬ CurveCovers tab x → filterCurve none tab x = .error .valueError) := by
  obtain ⟨h1, h2, h3⟩ := hg
  have hp := sortWave_perm tab
  have hs := sortWave_strict tab h2
  have hne : sortWave tab ≠ [] := fun h => h1 (by simpa [h] using hp.symm)
  obtain ⟨a, ha⟩ := Option.isSome_iff_exists.1 (List.isSome_head?.2 hne)
  obtain ⟨b, hb⟩ := Option.isSome_iff_exists.1 (List.getLast?_isSome.2 hne)
  have hend := ends_cover hs ha hb x
  rw [covers_perm hp] at hend
  by_cases hc : CurveCovers tab x
  · have hn : ¬ (x < a.1 ∨ b.1 < x) := fun h => hend.1 h hc
    obtain ⟨v, hv, hv'⟩ := interp_on_curve (sortWave tab) hs ((covers_perm hp x).2 hc)
    have hr := interp_range (lo := 0) (hi := 1) (sortWave tab) v (fun q hq => h3 q (hp.mem_iff.1 hq)) hv
    have hi : interp1d (sortWave tab) x = .ok v := by simp only [interp1d, ha, hb, hn, if_false, hv]
    refine ⟨v, ?_, ⟨fun _ => (onCurve_perm hp x v).1 hv', fun h => absurd hc h⟩, hr.1, hr.2, fun _ => hi,
      fun h => absurd hc h⟩
    simp only [filterCurve, ha, hb, hn, if_false, hi]
  · have hy := hend.2 hc
    refine ⟨0, ?_, ⟨fun h => absurd h hc, fun _ => rfl⟩, le_rfl, zero_le_one, fun h => absurd h hc, fun _ => ?_⟩
    · simp only [filterCurve, ha, hb, hy, if_true]
    · simp only [filterCurve, interp1d, ha, hb, hy, if_true]

theorem mapM_values {α β : Type} (f : α → Except Err β) (g : α → β) : ∀ l : List α, (∀ x ∈ l, f x = .ok (g x)) →
    l.mapM f = .ok (l.map g)
  | [], _ => rfl
  | x :: l, h => by
    rw [List.mapM_cons, h x (by simp), mapM_values f g l fun y hy => h y (by simp [hy])]
    rfl

theorem filtersRun_ok (fill : Option ℝ) (V : List (ℝ × ℝ) → ℝ → ℝ) (ens : List ℝ) :
    ∀ (tabs : List (List (ℝ × ℝ))) (probs : List ℝ), probs.length = ens.length →
    (∀ tab ∈ tabs, ∀ e ∈ ens, filterCurve fill tab e = .ok (V tab e) ∧ 0 ≤ V tab e ∧ V tab e ≤ 1) →
    filtersRun fill ens tabs probs =
      .ok (List.zipWith (fun p e => p * (tabs.map fun t => V t e).prod) probs ens)
  | [], probs, hl, _ => by
    simp only [filtersRun, List.map_nil, List.prod_nil, mul_one, Except.ok.injEq]
    apply List.ext_getElem
    · simp [hl]
    · intro n h1 h2; simp
  | tab :: tabs, probs, hl, h => by
    have h0 := h tab (by simp)
    have hm : ens.mapM (filterCurve fill tab) = .ok (ens.map (V tab)) := mapM_values _ _ _ fun e he => (h0 e he).1
    have hok : ¬ ∃ p ∈ ens.map (V tab), p < 0 ∨ 1 < p := by
      rintro ⟨p, hp, hp'⟩
      obtain ⟨e, he, rfl⟩ := List.mem_map.1 hp
      have := h0 e he
      rcases hp' with hp' | hp' <;> linarith [this.2.1, this.2.2]
    simp only [filtersRun, hm, hok, if_false]
    rw [filtersRun_ok fill V ens tabs _ (by simp [hl]) fun t ht => h t (by simp [ht])]
    simp only [Except.ok.injEq]
    apply List.ext_getElem
    · simp [hl]
    · intro n h1 h2
      simp [mul_assoc]

/-- The five curves in the calibration data. -/
def GoodCurves (load : String → String → List (ℝ × ℝ)) : Prop :=
  GoodCurve (load "filters" "sifilter") ∧ GoodCurve (load "filters" "opticalblocking") ∧
  GoodCurve (load "filters" "uvblocking") ∧ GoodCurve (load "detectors" "contam") ∧ GoodCurve (load "detectors" "qe")

/-- The energy is in the range of all five curves. -/
def AllCover (load : String → String → List (ℝ × ℝ)) (e : ℝ) : Prop :=
  CurveCovers (load "filters" "sifilter") e ∧ CurveCovers (load "filters" "opticalblocking") e ∧
  CurveCovers (load "filters" "uvblocking") e ∧ CurveCovers (load "detectors" "contam") e ∧ CurveCovers (load "detectors" "qe") e

theorem goodCurves_iff (load : String → String → List (ℝ × ℝ)) :
    GoodCurves load ↔ ∀ t ∈ filterList.map (fun n => load n.1 n.2), GoodCurve t := by
  simp [GoodCurves, filterList]

theorem allCover_iff (load : String → String → List (ℝ × ℝ)) (e : ℝ) :
    AllCover load e ↔ ∀ t ∈ filterList.map (fun n => load n.1 n.2), CurveCovers t e := by
  simp [AllCover, filterList]

/-- **C142** The transmission in the effective area file is, for every energy, the product of the three filters, the
contamination and the quantum efficiency, each read from its curve and zero outside of its range; it is between zero
and one. -/
theorem C142_filters (load : String → String → List (ℝ × ℝ)) (hg : GoodCurves load) (ens : List ℝ) :
    ∃ ps, filtersQe load ens = .ok ps ∧ List.Forall₂ (fun e p => 0 ≤ p ∧ p ≤ 1 ∧ ∃ s o u c q,
      Passes (load "filters" "sifilter") e s ∧ Passes (load "filters" "opticalblocking") e o ∧
      Passes (load "filters" "uvblocking") e u ∧ Passes (load "detectors" "contam") e c ∧
      Passes (load "detectors" "qe") e q ∧ p = s * o * u * c * q) ens ps := by
  have hv : ∀ tab, ∃ V : ℝ → ℝ, GoodCurve tab → ∀ x, filterCurve (some 0) tab x = .ok (V x) ∧ Passes tab x (V x) ∧
      0 ≤ V x ∧ V x ≤ 1 := by
    intro tab
    by_cases h : GoodCurve tab
    · choose V hV using filterCurve_fill h
      exact ⟨V, fun _ x => ⟨(hV x).1, (hV x).2.1, (hV x).2.2.1, (hV x).2.2.2.1⟩⟩
    · exact ⟨fun _ => 0, fun h' => absurd h' h⟩
  choose V hV using hv
  have hall := (goodCurves_iff load).1 hg
  have hrun := filtersRun_ok (some 0) V ens _ (ens.map fun _ => 1) (by simp)
    fun tab ht e _ => ⟨(hV tab (hall tab ht) e).1, (hV tab (hall tab ht) e).2.2⟩
  refine ⟨_, hrun, ?_⟩
  rw [List.forall₂_iff_get]
  refine ⟨by simp, ?_⟩
  intro i h1 h2
  simp only [List.get_eq_getElem, List.getElem_zipWith, List.getElem_map, filterList, List.map_cons, List.map_nil,
    List.prod_cons, List.prod_nil, one_mul, mul_one]
  obtain ⟨g1, g2, g3, g4, g5⟩ := hg
  obtain ⟨_, a2, a3, a4⟩ := hV _ g1 ens[i]
  obtain ⟨_, b2, b3, b4⟩ := hV _ g2 ens[i]
  obtain ⟨_, c2, c3, c4⟩ := hV _ g3 ens[i]
  obtain ⟨_, d2, d3, d4⟩ := hV _ g4 ens[i]
  obtain ⟨_, e2, e3, e4⟩ := hV _ g5 ens[i]
  refine ⟨by positivity, ?_, _, _, _, _, _, a2, b2, c2, d2, e2, by ring⟩
  refine mul_le_one₀ a4 (by positivity) ?_
  refine mul_le_one₀ b4 (by positivity) ?_
  refine mul_le_one₀ c4 (by positivity) ?_
  exact mul_le_one₀ d4 e3 e4

/-- **C142** In a simulation the same filters multiply the probability of each photon with the transmission that is
written to the effective area file for the energy of the photon. -/
theorem C142_simulation (load : String → String → List (ℝ × ℝ)) (hg : GoodCurves load) (ens probs : List ℝ)
    (hl : probs.length = ens.length) (hc : ∀ e ∈ ens, AllCover load e) :
    ∃ ps, filtersQe load ens = .ok ps ∧ filtersAndQe load none ens probs = .ok (List.zipWith (· * ·) probs ps) := by
  have hv : ∀ tab, ∃ V : ℝ → ℝ, GoodCurve tab → ∀ x, filterCurve (some 0) tab x = .ok (V x) ∧
      (CurveCovers tab x → filterCurve none tab x = .ok (V x)) ∧ 0 ≤ V x ∧ V x ≤ 1 := by
    intro tab
    by_cases h : GoodCurve tab
    · choose V hV using filterCurve_fill h
      exact ⟨V, fun _ x => ⟨(hV x).1, (hV x).2.2.2.2.1, (hV x).2.2.1, (hV x).2.2.2.1⟩⟩
    · exact ⟨fun _ => 0, fun h' => absurd h' h⟩
  choose V hV using hv
  have hall := (goodCurves_iff load).1 hg
  refine ⟨_, filtersRun_ok (some 0) V ens _ (ens.map fun _ => 1) (by simp)
    fun tab ht e _ => ⟨(hV tab (hall tab ht) e).1, (hV tab (hall tab ht) e).2.2⟩, ?_⟩
  have hrun := filtersRun_ok none V ens (filterList.map fun n => load n.1 n.2) probs hl
    fun tab ht e he => ⟨(hV tab (hall tab ht) e).2.1 ((allCover_iff load e).1 (hc e he) tab ht), (hV tab (hall tab ht) e).2.2⟩
  rw [filtersAndQe, hrun]
  simp only [Except.ok.injEq]
  apply List.ext_getElem
  · simp
  · intro n h1 h2; simp

theorem mapM_fails {α β : Type} (f : α → Except Err β) (l : List α)
    (h : ∀ x ∈ l, (∃ y, f x = .ok y) ∨ f x = .error .valueError) (x : α) (hx : x ∈ l) (hbad : f x = .error .valueError) :
    l.mapM f = .error .valueError := by
  induction l with
  | nil => simp at hx
  | cons a l ih =>
    rw [List.mapM_cons]
    rcases h a (by simp) with ⟨y, hy⟩ | ha
    · rcases List.mem_cons.1 hx with rfl | hx'
      · rw [hbad] at hy; cases hy
      · rw [hy, show List.mapM f l = .error .valueError from ih (fun z hz => h z (by simp [hz])) hx']
        rfl
    · rw [ha]; rfl

/-- **C142** A simulation with a photon outside of the range of one of the curves stops with an error, although the
effective area file has a value (zero) for this energy. -/
theorem C142_simulation_range (load : String → String → List (ℝ × ℝ)) (hg : GoodCurves load) (ens probs : List ℝ)
    (e : ℝ) (he : e ∈ ens) (hc : ¬ AllCover load e) :
    filtersAndQe load none ens probs = .error .valueError := by
  have hall := (goodCurves_iff load).1 hg
  rw [allCover_iff] at hc
  push Not at hc
  obtain ⟨t, ht, hct⟩ := hc
  rw [filtersAndQe]
  generalize filterList.map (fun n => load n.1 n.2) = tabs at hall ht
  induction tabs generalizing probs with
  | nil => simp at ht
  | cons a tabs ih =>
    have hcase : ∀ x ∈ ens, (∃ y, filterCurve none a x = .ok y) ∨ filterCurve none a x = .error .valueError := by
      intro x _
      obtain ⟨v, _, _, _, _, h1, h2⟩ := filterCurve_fill (hall a (by simp)) x
      by_cases hx : CurveCovers a x
      · exact Or.inl ⟨v, h1 hx⟩
      · exact Or.inr (h2 hx)
    by_cases hbad : ∃ x ∈ ens, filterCurve none a x = .error .valueError
    · obtain ⟨x, hx, hb⟩ := hbad
      simp only [filtersRun, mapM_fails _ ens hcase x hx hb]
    · have hta : t ∈ tabs := by
        rcases List.mem_cons.1 ht with rfl | h
        · exfalso
          obtain ⟨v, _, _, _, _, _, h2⟩ := filterCurve_fill (hall t (by simp)) e
          exact hbad ⟨e, he, h2 hct⟩
        · exact h
      simp only [filtersRun]
      rcases hm : ens.mapM (filterCurve none a) with er | ps
      · exfalso
        have hok : ∀ x ∈ ens, ∃ y, filterCurve none a x = .ok y ∧ True := by
          intro x hx
          rcases hcase x hx with ⟨y, hy⟩ | hb
          · exact ⟨y, hy, trivial⟩
          · exact absurd ⟨x, hx, hb⟩ hbad
        obtain ⟨ys, hys, _⟩ := mapM_forall₂ (R := fun _ _ => True) _ ens hok
        rw [hm] at hys; cases hys
      · simp only
        split
        · rfl
        · exact ih _ (fun t ht => hall t (by simp [ht])) hta

/-! ## Concrete cases -/

/-- A smooth distribution with the width and position as parameters. -/
noncomputable def exCdf142 (_ : LsfKind) (w p x : ℝ) : ℝ := 1 / 2 + Real.arctan ((x - p) / w) / Real.pi

/-- The distribution meets all conditions used above. -/
example : (∀ k w p, 0 < w → IsCdf (exCdf142 k w p)) ∧ (∀ w p, 0 < w → SymmetricAbout p (exCdf142 .gauss w p)) ∧
    ∀ w p, 0 < w → StrictMono (exCdf142 .gauss w p) := by
  have hpi := Real.pi_pos
  have hm : ∀ k w p, 0 < w → StrictMono (exCdf142 k w p) := by
    intro k w p hw x y hxy
    simp only [exCdf142]
    have := Real.arctan_strictMono (div_lt_div_of_pos_right (sub_lt_sub_right hxy p) hw)
    have := div_lt_div_of_pos_right this hpi
    linarith
  refine ⟨fun k w p hw => ⟨(hm k w p hw).monotone, fun x => ?_⟩, ?_, hm .gauss⟩
  · have h1 := Real.neg_pi_div_two_lt_arctan ((x - p) / w)
    have h2 := Real.arctan_lt_pi_div_two ((x - p) / w)
    simp only [exCdf142]
    have e1 : -(1 / 2) < Real.arctan ((x - p) / w) / Real.pi := by rw [lt_div_iff₀ hpi]; linarith
    have e2 : Real.arctan ((x - p) / w) / Real.pi < 1 / 2 := by rw [div_lt_iff₀ hpi]; linarith
    constructor <;> linarith
  · intro w p hw d
    simp only [exCdf142]
    rw [show (p + d - p) / w = d / w by ring, show (p - d - p) / w = -(d / w) by ring, Real.arctan_neg]
    ring

theorem ex_bins142 : eboundsFromEdges id [1, 2, 3, 4] = ([0, 1, 2], [1, 2, 3], [2, 3, 4]) := by
  have : sortReal [1, 2, 3, 4] = [1, 2, 3, 4] := List.mergeSort_of_pairwise (by norm_num)
  simp [eboundsFromEdges, this, List.range_succ]

/-- A table of two widths and three channels of 1 keV: the matrix is made, and the energy 2 keV is in its second bin. -/
example : ∃ r, mkrmf0 exCdf142 id [1, 2, 3, 4] [(1 / 2, 60), (2, 100)] (1 / 1000000) = .ok r ∧
    r.eMin = [1, 1 + 1, 1 + 2 * 1] ∧ r.eMax = [1 + 1, 1 + 2 * 1, 1 + 3 * 1] := by
  obtain ⟨r, h1, h2, h3, _⟩ := C142_response exCdf142 id [1, 2, 3, 4] [(1 / 2, 60), (2, 100)] (1 / 1000000) (by simp)
    (by norm_num) (by norm_num) _ _ _ ex_bins142
  exact ⟨r, h1, by rw [h2]; norm_num, by rw [h3]; norm_num⟩

/-- Lines through the first two points, used as interpolation. -/
noncomputable def exLine142 : List (ℝ × ℝ) → ℝ → ℝ
  | (x, y) :: (x', y') :: _, w => y + (y' - y) / (x' - x) * (w - x)
  | _, _ => 0

/-- The same channels as wavelengths (in units with `hc = 12`) for `from_Gauss_sigma`. -/
example : ∃ r, fromGaussSigma 12 exCdf142 exLine142 id [12, 6, 4, 3] 0
      (.wave [(1, 1 / 10), (5, 1 / 10), (10, 1 / 10), (20, 1 / 10)]) = .ok r ∧
    r.eMin = [1, 1 + 1, 1 + 2 * 1] ∧ r.eMax = [1 + 1, 1 + 2 * 1, 1 + 3 * 1] ∧
    (∀ w ∈ [(12 : ℝ), 6, 4, 3], 0 < id w) ∧
    (∀ w, exLine142 (sortWave [(1, 1 / 10), (5, 1 / 10), (10, 1 / 10), (20, 1 / 10)]) w ≠ 0) ∧
    ReproducesLines exLine142 ((sortWave [(1, 1 / 10), (5, 1 / 10), (10, 1 / 10), (20, 1 / 10)]).map Prod.fst) 1 20 := by
  have heb : eboundsFromEdges (fun w => 12 / w) (List.map id [12, 6, 4, 3]) = ([0, 1, 2], [1, 2, 3], [2, 3, 4]) := by
    have : sortReal [1, 2, 3, 4] = [1, 2, 3, 4] := List.mergeSort_of_pairwise (by norm_num)
    have h2 : (List.map id [12, 6, 4, 3]).map (fun w : ℝ => 12 / w) = [1, 2, 3, 4] := by norm_num
    simp only [eboundsFromEdges, h2, this]
    simp [List.range_succ]
  have hsort : sortWave [((1 : ℝ), (1 : ℝ) / 10), (5, 1 / 10), (10, 1 / 10), (20, 1 / 10)] =
      [(1, 1 / 10), (5, 1 / 10), (10, 1 / 10), (20, 1 / 10)] := List.mergeSort_of_pairwise (by norm_num)
  obtain ⟨r, hr⟩ := (C119_range 12 0 exCdf142 exLine142 id [12, 6, 4, 3]
    [(1, 1 / 10), (5, 1 / 10), (10, 1 / 10), (20, 1 / 10)] _ _ _ heb).1.2 ⟨by simp, by norm_num, by
      intro i hi
      refine ⟨(1, 1 / 10), by simp, (20, 1 / 10), by simp, ?_⟩
      simp only [List.length_cons, List.length_nil] at hi
      interval_cases i <;> norm_num⟩
  refine ⟨r, hr, ?_⟩
  have hr' := hr
  simp only [fromGaussSigma] at hr'
  split at hr'
  · simp at hr'
  split at hr'
  · simp at hr'
  obtain ⟨r', h1, h2, h3, _⟩ := C37_make_rmf 12 0 _ (List.map id [12, 6, 4, 3]) _ _ _ heb
  rw [hr', Except.ok.injEq] at h1
  subst h1
  refine ⟨by rw [h2]; norm_num, by rw [h3]; norm_num, by norm_num, ?_, ?_⟩
  · intro w; rw [hsort]; norm_num [exLine142]
  · intro w _ _
    rw [hsort]
    constructor <;> simp [exLine142] <;> norm_num

/-- Five curves between 0.1 and 10 keV. -/
example : GoodCurves (fun _ _ => [(1 / 10, 1 / 2), (10, 1)]) ∧ AllCover (fun _ _ => [(1 / 10, 1 / 2), (10, 1)]) 1 ∧
    ¬ AllCover (fun _ _ => [(1 / 10, 1 / 2), (10, 1)]) 20 := by
  refine ⟨?_, ?_, ?_⟩
  · have : GoodCurve [((1 : ℝ) / 10, (1 : ℝ) / 2), (10, 1)] := ⟨by simp, by norm_num, by norm_num⟩
    exact ⟨this, this, this, this, this⟩
  · simp only [AllCover, CurveCovers]; norm_num
  · simp only [AllCover, CurveCovers]; norm_num

end Marxs
