import Verif.Spec.EffTable
import Verif.Props.Analysis
import Verif.Props.Random
import Mathlib.Tactic.Linarith
import Mathlib.Tactic.FieldSimp
import Mathlib.Tactic.Ring
import Mathlib.Tactic.NormNum
import Mathlib.Data.List.GetD
import Mathlib.Tactic.IntervalCases

/-!
# C133: grating efficiencies from a table
-/

namespace Marxs
open Classical

/-! ## Interpolation in one direction -/

theorem interp_seg {x : ℝ} : ∀ (X v : List ℝ), X.Pairwise (· < ·) → v.length = X.length → ∀ i, i + 1 < X.length → X.getD i 0 ≤ x → x ≤ X.getD (i + 1) 0 →
    interp x (X.zip v) = some (between (v.getD i 0) (v.getD (i + 1) 0) (fractionOf (X.getD i 0) (X.getD (i + 1) 0) x)) := by
  intro X
  induction X with
  | nil => intro v _ _ i hi; simp at hi
  | cons a X ih =>
    intro v hp hl i hi h1 h2
    cases X with
    | nil => simp at hi
    | cons b X =>
      cases v with
      | nil => simp at hl
      | cons p v =>
        cases v with
        | nil => simp at hl
        | cons q v =>
          have hab : a < b := by
            rw [List.pairwise_cons] at hp
            exact hp.1 b (by simp)
          simp only [List.zip_cons_cons, interp]
          cases i with
          | zero =>
            simp only [List.getD_cons_zero, List.getD_cons_succ, zero_add] at h1 h2 ⊢
            by_cases hx : x ≤ a
            · have : x = a := le_antisymm hx h1
              subst this
              simp [between, fractionOf]
            · rw [if_neg hx]
              by_cases hxb : x < b
              · rw [if_pos hxb]
                have : b - a ≠ 0 := by linarith
                congr 1
                simp only [between, fractionOf]
                field_simp
                ring
              · rw [if_neg hxb]
                have hxb' : x = b := le_antisymm h2 (not_lt.1 hxb)
                subst hxb'
                have hne : x - a ≠ 0 := by linarith
                have : between p q (fractionOf a x x) = q := by
                  simp [between, fractionOf, div_self hne]
                rw [this]
                cases X with
                | nil =>
                  cases v with
                  | nil => rfl
                  | cons r v => simp at hl
                | cons c X =>
                  cases v with
                  | nil => simp at hl
                  | cons r v => simp [interp]
          | succ i =>
            have hb : b ≤ x := by
              simp only [List.getD_cons_succ] at h1
              refine le_trans ?_ h1
              cases i with
              | zero => simp
              | succ i =>
                have hi' : i < X.length := by simp at hi; omega
                simp only [List.getD_cons_succ]
                rw [List.getD_eq_getElem _ _ hi']
                rw [List.pairwise_cons, List.pairwise_cons] at hp
                exact (hp.2.1 _ (List.getElem_mem hi')).le
            rw [if_neg (by linarith), if_neg (by linarith)]
            have := ih (q :: v) (List.pairwise_cons.1 hp).2 (by simpa using hl) i (by simpa using hi) (by simpa using h1) (by simpa using h2)
            simpa using this

theorem interp_low {x : ℝ} (X v : List ℝ) (hX : X ≠ []) (hl : v.length = X.length) (h : x ≤ X.getD 0 0) : interp x (X.zip v) = some (v.getD 0 0) := by
  cases X with
  | nil => exact absurd rfl hX
  | cons a X =>
    cases v with
    | nil => simp at hl
    | cons p v =>
      cases X with
      | nil =>
        cases v with
        | nil => rfl
        | cons q v => simp at hl
      | cons b X =>
        cases v with
        | nil => simp at hl
        | cons q v =>
          simp only [List.getD_cons_zero] at h
          simp [interp, h]

theorem interp_high {x : ℝ} : ∀ (X v : List ℝ), X.Pairwise (· < ·) → X ≠ [] → v.length = X.length → X.getD (X.length - 1) 0 ≤ x →
    interp x (X.zip v) = some (v.getD (X.length - 1) 0) := by
  intro X
  induction X with
  | nil => intro v _ h; exact absurd rfl h
  | cons a X ih =>
    intro v hp _ hl h
    cases v with
    | nil => simp at hl
    | cons p v =>
      cases X with
      | nil =>
        cases v with
        | nil => rfl
        | cons q v => simp at hl
      | cons b X =>
        cases v with
        | nil => simp at hl
        | cons q v =>
          have hbl : b ≤ (b :: X).getD ((b :: X).length - 1) 0 := by
            cases X with
            | nil => simp
            | cons c X =>
              rw [List.pairwise_cons, List.pairwise_cons] at hp
              simp only [List.length_cons, Nat.add_sub_cancel, List.getD_cons_succ]
              rw [List.getD_eq_getElem _ _ (by simp)]
              exact (hp.2.1 _ (List.getElem_mem _)).le
          have hab : a < b := (List.pairwise_cons.1 hp).1 b (by simp)
          simp only [List.length_cons, Nat.add_sub_cancel, List.getD_cons_succ] at h
          simp only [List.length_cons, Nat.add_sub_cancel] at hbl
          simp only [List.zip_cons_cons, interp]
          rw [if_neg (by linarith), if_neg (by linarith)]
          have := ih (q :: v) (List.pairwise_cons.1 hp).2 (by simp) (by simpa using hl) (by simpa using h)
          simpa using this

/-- A value between two entries, with a weight that does not depend on the entries. -/
theorem interp_weights {x : ℝ} : ∀ (X : List ℝ), X ≠ [] → X.Pairwise (· < ·) → ∃ i j w, i < X.length ∧ j < X.length ∧ 0 ≤ w ∧ w ≤ 1 ∧
    ∀ v : List ℝ, v.length = X.length → interp x (X.zip v) = some (between (v.getD i 0) (v.getD j 0) w) := by
  intro X hX hp
  by_cases hlow : x ≤ X.getD 0 0
  · exact ⟨0, 0, 0, List.length_pos_iff.2 hX, List.length_pos_iff.2 hX, le_rfl, zero_le_one, fun v hv => by simp [interp_low X v hX hv hlow, between]⟩
  by_cases hhigh : X.getD (X.length - 1) 0 ≤ x
  · have := List.length_pos_iff.2 hX
    exact ⟨X.length - 1, X.length - 1, 0, by omega, by omega, le_rfl, zero_le_one, fun v hv => by rw [interp_high X v hp hX hv hhigh]; simp [between]⟩
  have hex : ∃ n, n < X.length ∧ x < X.getD n 0 := ⟨X.length - 1, by have := List.length_pos_iff.2 hX; omega, not_le.1 hhigh⟩
  obtain ⟨hn1, hn2⟩ := Nat.find_spec hex
  have hmin : ∀ m < Nat.find hex, ¬ (m < X.length ∧ x < X.getD m 0) := fun m hm => Nat.find_min hex hm
  generalize Nat.find hex = n at hn1 hn2 hmin
  cases n with
  | zero => exact absurd hn2.le hlow
  | succ i =>
    have hi : X.getD i 0 ≤ x := by
      have := hmin i (Nat.lt_succ_self i)
      push Not at this
      exact this (by omega)
    have hlt : X.getD i 0 < X.getD (i + 1) 0 := lt_of_le_of_lt hi hn2
    refine ⟨i, i + 1, fractionOf (X.getD i 0) (X.getD (i + 1) 0) x, by omega, hn1, ?_, ?_, fun v hv => interp_seg X v hp hv i hn1 hi hn2.le⟩
    · exact div_nonneg (by linarith) (by linarith)
    · rw [fractionOf, div_le_one (by linarith)]; linarith

/-! ## Two directions -/

theorem mapM_effSome {α β : Type} {f : α → Option β} {g : α → β} : ∀ {l : List α}, (∀ a ∈ l, f a = some (g a)) → l.mapM f = some (l.map g)
  | [], _ => by simp
  | a :: l, h => by
    rw [List.mapM_cons, h a (by simp), mapM_effSome fun b hb => h b (by simp [hb])]
    rfl

theorem bilinear_eq {X Y : List ℝ} {D : List (List ℝ)} {x y : ℝ} (hD : D.length = X.length) (hr : ∀ r ∈ D, r.length = Y.length)
    {fy : List ℝ → ℝ} (hy : ∀ v : List ℝ, v.length = Y.length → interp y (Y.zip v) = some (fy v)) {i j : ℕ} {w : ℝ} (hi : i < X.length) (hj : j < X.length)
    (hx : ∀ v : List ℝ, v.length = X.length → interp x (X.zip v) = some (between (v.getD i 0) (v.getD j 0) w)) :
    bilinear X Y D x y = some (between (fy (D.getD i [])) (fy (D.getD j [])) w) := by
  unfold bilinear
  rw [mapM_effSome (g := fy) fun r hr' => hy r (hr r hr')]
  simp only [Option.bind_eq_bind, Option.bind_some]
  rw [hx _ (by simp [hD])]
  rw [List.getD_eq_getElem _ _ (by simp; omega), List.getD_eq_getElem _ _ (by simp; omega), List.getD_eq_getElem D _ (by omega), List.getD_eq_getElem D _ (by omega)]
  simp

/-- A table that has been accepted: the grid has increasing coordinates, and each array has the values of the column. -/
theorem effInit_ok {wave thetaDeg : List ℝ} {orders : List ℤ} {cols : List (List ℝ)} {t : EffTable} (hl : thetaDeg.length = wave.length)
    (hc : ∀ c ∈ cols, c.length = wave.length) (hcol : cols ≠ []) (h : EffTable.init wave thetaDeg orders cols = .ok t) :
    ∃ Y : List ℝ, t.theta = Y.map (fun a => a * Real.pi / 180) ∧ t.wave.Pairwise (· < ·) ∧ t.theta.Pairwise (· < ·) ∧ 2 ≤ t.wave.length ∧ 2 ≤ t.theta.length ∧
    t.orders = orders ∧ wave.length = t.wave.length * t.theta.length ∧ t.data.length = cols.length ∧
    (∀ d ∈ t.data, d.length = t.wave.length ∧ ∀ r ∈ d, r.length = t.theta.length) ∧
    (∀ i, i < t.wave.length → t.wave.getD i 0 = wave.getD (i * t.theta.length) 0) ∧
    (∀ j, j < t.theta.length → t.theta.getD j 0 = thetaDeg.getD j 0 * Real.pi / 180) ∧
    (∀ k i j, k < cols.length → i < t.wave.length → j < t.theta.length →
      ((t.data.getD k []).getD i []).getD j 0 = entry cols t.theta.length k i j) := by
  unfold EffTable.init at h
  cases ht : tablerowsTo2d wave thetaDeg cols with
  | error e => rw [ht] at h; cases h
  | ok r =>
    obtain ⟨X, Y, D⟩ := r
    rw [ht] at h
    simp only at h
    obtain ⟨s1, s2, s3⟩ := C57_sound wave thetaDeg cols X Y D hl hc ht
    have hD : D ≠ [] := by
      intro hh; rw [hh] at s2
      exact hcol (List.length_eq_zero_iff.1 s2.symm)
    simp only [hD, if_false] at h
    unfold splineCheck at h
    by_cases c1 : X.Pairwise (· < ·)
    swap
    · simp [c1] at h
    by_cases c2 : (Y.map fun t => t * Real.pi / 180).Pairwise (· < ·)
    swap
    · simp only [c1, c2, not_true, not_false_iff, if_false, if_true] at h; cases h
    by_cases c3 : X.length < 2 ∨ (Y.map fun t => t * Real.pi / 180).length < 2
    · simp only [c1, c2, c3, not_true, if_false, if_true] at h; cases h
    simp only [c1, c2, c3, not_true, if_false] at h
    cases h
    push Not at c3
    simp only [List.length_map] at c3
    -- shapes of what tablerowsTo2d returns
    have shape : (∀ i, i < X.length → X.getD i 0 = wave.getD (i * Y.length) 0) ∧ (∀ j, j < Y.length → Y.getD j 0 = thetaDeg.getD j 0) ∧
        ∀ d ∈ D, d.length = X.length ∧ ∀ r ∈ d, r.length = Y.length := by
      simp only [tablerowsTo2d] at ht
      split at ht
      · cases ht
      split at ht
      · cases ht
      split at ht
      · cases ht
      rename_i h1 h2 h3
      push Not at h1
      simp only [Except.ok.injEq, Prod.mk.injEq] at ht
      obtain ⟨rfl, rfl, rfl⟩ := ht
      have hn : thetaDeg.dedup.length ≤ thetaDeg.length := (List.dedup_sublist _).length_le
      have hyl : (thetaDeg.take thetaDeg.dedup.length).length = thetaDeg.dedup.length := by simpa using hn
      rw [hyl]
      simp only [List.length_map, List.length_range]
      refine ⟨?_, ?_, ?_⟩
      · intro i hi
        rw [List.getD_eq_getElem ((List.range wave.dedup.length).map _) _ (by simpa using hi)]
        simp
      · intro j hj
        rw [List.getD_eq_getElem _ _ (by omega), List.getD_eq_getElem _ _ (by omega)]
        simp
      · intro d hd
        obtain ⟨c, hcm, rfl⟩ := List.mem_map.1 hd
        refine ⟨by simp [reshape], fun r hr => (reshape_row ((hc c hcm).trans h1) hr).1⟩
    obtain ⟨g1, g2, g3⟩ := shape
    refine ⟨Y, rfl, c1, c2, c3.1, by simpa using c3.2, rfl, by simpa using s1, s2, by simpa using g3, by simpa using g1, ?_, ?_⟩
    · intro j hj
      simp only [List.length_map] at hj
      rw [List.getD_eq_getElem _ _ (by simpa using hj), List.getElem_map, ← List.getD_eq_getElem Y 0 hj, g2 j hj]
    · intro k i j hk hi hj
      simp only [List.length_map] at hj ⊢
      exact (s3 i j hi hj).2.2 k hk

/-- **C133** Between the points of the grid efficiencies are interpolated linearly in wavelength and in angle, for each order in the table. -/
theorem C133_bilinear (wave thetaDeg : List ℝ) (orders : List ℤ) (cols : List (List ℝ)) (t : EffTable) (hl : thetaDeg.length = wave.length)
    (hc : ∀ c ∈ cols, c.length = wave.length) (hcol : cols ≠ []) (h : EffTable.init wave thetaDeg orders cols = .ok t)
    (hcc energy blaze : ℝ) (i j : ℕ) (hi : i + 1 < t.wave.length) (hj : j + 1 < t.theta.length)
    (hw : t.wave.getD i 0 ≤ hcc / energy ∧ hcc / energy ≤ t.wave.getD (i + 1) 0) (hb : t.theta.getD j 0 ≤ blaze ∧ blaze ≤ t.theta.getD (j + 1) 0) :
    ∃ p, t.probabilities hcc energy blaze = some p ∧ p.length = cols.length ∧ ∀ k < cols.length,
      p.getD k 0 =
        let f := fractionOf (thetaDeg.getD j 0 * Real.pi / 180) (thetaDeg.getD (j + 1) 0 * Real.pi / 180) blaze
        between (between (entry cols t.theta.length k i j) (entry cols t.theta.length k i (j + 1)) f)
          (between (entry cols t.theta.length k (i + 1) j) (entry cols t.theta.length k (i + 1) (j + 1)) f)
          (fractionOf (wave.getD (i * t.theta.length) 0) (wave.getD ((i + 1) * t.theta.length) 0) (hcc / energy)) := by
  obtain ⟨Y, _, o1, o2, o3, o4, o5, o6, o7, o8, o9, o10, o11⟩ := effInit_ok hl hc hcol h
  rw [← o10 j (by omega), ← o10 (j + 1) hj, ← o9 i (by omega), ← o9 (i + 1) hi]
  refine ⟨t.data.map fun d => between (between ((d.getD i []).getD j 0) ((d.getD i []).getD (j + 1) 0) (fractionOf (t.theta.getD j 0) (t.theta.getD (j + 1) 0) blaze))
      (between ((d.getD (i + 1) []).getD j 0) ((d.getD (i + 1) []).getD (j + 1) 0) (fractionOf (t.theta.getD j 0) (t.theta.getD (j + 1) 0) blaze))
      (fractionOf (t.wave.getD i 0) (t.wave.getD (i + 1) 0) (hcc / energy)), ?_, by simpa using o7, ?_⟩
  · unfold EffTable.probabilities
    refine mapM_effSome ?_
    intro d hd
    exact bilinear_eq (o8 d hd).1 (o8 d hd).2 (fun v hv => interp_seg t.theta v o2 hv j hj hb.1 hb.2) (by omega) hi
      (fun v hv => interp_seg t.wave v o1 hv i hi hw.1 hw.2)
  · intro k hk
    rw [List.getD_eq_getElem _ _ (by simp; omega), List.getElem_map, ← List.getD_eq_getElem t.data [] (by omega)]
    simp only [o11 k i j hk (by omega) (by omega), o11 k i (j + 1) hk (by omega) hj, o11 k (i + 1) j hk hi (by omega), o11 k (i + 1) (j + 1) hk hi hj]

/-- **C133** At the points of the grid efficiencies are those in the table. -/
theorem C133_grid (wave thetaDeg : List ℝ) (orders : List ℤ) (cols : List (List ℝ)) (t : EffTable) (hl : thetaDeg.length = wave.length)
    (hc : ∀ c ∈ cols, c.length = wave.length) (hcol : cols ≠ []) (h : EffTable.init wave thetaDeg orders cols = .ok t)
    (hcc energy blaze : ℝ) (i j : ℕ) (hi : i < t.wave.length) (hj : j < t.theta.length)
    (hw : hcc / energy = wave.getD (i * t.theta.length) 0) (hb : blaze = thetaDeg.getD j 0 * Real.pi / 180) :
    ∃ p, t.probabilities hcc energy blaze = some p ∧ p.length = cols.length ∧ ∀ k < cols.length, p.getD k 0 = entry cols t.theta.length k i j := by
  obtain ⟨Y, _, o1, o2, o3, o4, o5, o6, o7, o8, o9, o10, o11⟩ := effInit_ok hl hc hcol h
  have node : ∀ (X : List ℝ), X.Pairwise (· < ·) → ∀ i, i < X.length → ∀ v : List ℝ, v.length = X.length → interp (X.getD i 0) (X.zip v) = some (v.getD i 0) := by
    intro X hp i hi v hv
    refine interp_node _ ?_ ?_
    · rw [List.pairwise_iff_getElem]
      intro a b ha hb hab
      simp only [List.getElem_zip]
      exact List.pairwise_iff_getElem.1 hp a b _ _ hab
    · rw [List.getD_eq_getElem _ _ hi, List.getD_eq_getElem _ _ (by omega)]
      rw [List.mem_iff_getElem]
      exact ⟨i, by simp; omega, by simp⟩
  refine ⟨t.data.map fun d => (d.getD i []).getD j 0, ?_, by simpa using o7, ?_⟩
  · unfold EffTable.probabilities
    refine mapM_effSome ?_
    intro d hd
    rw [hw, hb, ← o10 j hj, ← o9 i hi]
    rw [bilinear_eq (o8 d hd).1 (o8 d hd).2 (fun v hv => node t.theta o2 j hj v hv) hi hi (w := 0) (fun v hv => by rw [node t.wave o1 i hi v hv]; simp [between])]
    simp [between]
  · intro k hk
    rw [List.getD_eq_getElem _ _ (by simp; omega), List.getElem_map, ← List.getD_eq_getElem t.data [] (by omega)]
    exact o11 k i j hk hi hj

/-- **C133** Outside of the grid, efficiencies are those at the nearest edge: only energy and angle cut to the range of the table matter. -/
theorem C133_edge (wave thetaDeg : List ℝ) (orders : List ℤ) (cols : List (List ℝ)) (t : EffTable) (hl : thetaDeg.length = wave.length)
    (hc : ∀ c ∈ cols, c.length = wave.length) (hcol : cols ≠ []) (h : EffTable.init wave thetaDeg orders cols = .ok t)
    (hcc energy energy' blaze blaze' : ℝ)
    (hw : max (t.wave.getD 0 0) (min (t.wave.getD (t.wave.length - 1) 0) (hcc / energy)) = max (t.wave.getD 0 0) (min (t.wave.getD (t.wave.length - 1) 0) (hcc / energy')))
    (hb : max (t.theta.getD 0 0) (min (t.theta.getD (t.theta.length - 1) 0) blaze) = max (t.theta.getD 0 0) (min (t.theta.getD (t.theta.length - 1) 0) blaze')) :
    t.probabilities hcc energy blaze = t.probabilities hcc energy' blaze' := by
  obtain ⟨Y, _, o1, o2, o3, o4, o5, o6, o7, o8, o9, o10, o11⟩ := effInit_ok hl hc hcol h
  have clamp : ∀ (X : List ℝ), X.Pairwise (· < ·) → 2 ≤ X.length → ∀ (v : List ℝ), v.length = X.length → ∀ x,
      interp x (X.zip v) = interp (max (X.getD 0 0) (min (X.getD (X.length - 1) 0) x)) (X.zip v) := by
    intro X hp h2 v hv x
    have hne : X ≠ [] := by intro hh; simp [hh] at h2
    have hlt : X.getD 0 0 < X.getD (X.length - 1) 0 := by
      rw [List.getD_eq_getElem _ _ (by omega), List.getD_eq_getElem _ _ (by omega)]
      exact List.pairwise_iff_getElem.1 hp 0 (X.length - 1) _ _ (by omega)
    by_cases hlow : x ≤ X.getD 0 0
    · rw [min_eq_right (by linarith), max_eq_left hlow, interp_low X v hne hv hlow, interp_low X v hne hv le_rfl]
    by_cases hhigh : X.getD (X.length - 1) 0 ≤ x
    · rw [min_eq_left hhigh, max_eq_right hlt.le, interp_high X v hp hne hv hhigh, interp_high X v hp hne hv le_rfl]
    · rw [min_eq_right (by linarith), max_eq_right (by linarith)]
  have main : ∀ e b, t.probabilities hcc e b = t.data.mapM fun d => bilinear t.wave t.theta d
      (max (t.wave.getD 0 0) (min (t.wave.getD (t.wave.length - 1) 0) (hcc / e))) (max (t.theta.getD 0 0) (min (t.theta.getD (t.theta.length - 1) 0) b)) := by
    intro e b
    obtain ⟨i, j, w, w1, w2, w3, w4, w5⟩ := interp_weights (x := hcc / e) t.wave (by intro hh; simp [hh] at o3) o1
    obtain ⟨i', j', u, u1, u2, u3, u4, u5⟩ := interp_weights (x := b) t.theta (by intro hh; simp [hh] at o4) o2
    unfold EffTable.probabilities
    rw [mapM_effSome fun d hd => bilinear_eq (o8 d hd).1 (o8 d hd).2 u5 w1 w2 w5]
    rw [mapM_effSome fun d hd => bilinear_eq (o8 d hd).1 (o8 d hd).2 (fun v hv => by rw [← clamp t.theta o2 o4 v hv]; exact u5 v hv) w1 w2
      (fun v hv => by rw [← clamp t.wave o1 o3 v hv]; exact w5 v hv)]
  rw [main, main, hw, hb]

/-- **C133** If the table has probabilities (not negative, not more than 1 for all orders together), so has every photon, whatever its energy and blaze angle. -/
theorem C133_probability (wave thetaDeg : List ℝ) (orders : List ℤ) (cols : List (List ℝ)) (t : EffTable) (hl : thetaDeg.length = wave.length)
    (hc : ∀ c ∈ cols, c.length = wave.length) (hcol : cols ≠ []) (h : EffTable.init wave thetaDeg orders cols = .ok t)
    (hpos : ∀ c ∈ cols, ∀ v ∈ c, 0 ≤ v) (hsum : ∀ n < wave.length, (cols.map fun c => c.getD n 0).sum ≤ 1) (hcc energy blaze : ℝ) :
    ∃ p, t.probabilities hcc energy blaze = some p ∧ p.length = cols.length ∧ (∀ v ∈ p, 0 ≤ v) ∧ p.sum ≤ 1 ∧
      ∀ r o q, t.call hcc energy blaze r = .ok (o, q) → q = p.sum := by
  obtain ⟨Y, _, o1, o2, o3, o4, o5, o6, o7, o8, o9, o10, o11⟩ := effInit_ok hl hc hcol h
  obtain ⟨i, j, w, w1, w2, w3, w4, w5⟩ := interp_weights (x := hcc / energy) t.wave (by intro hh; simp [hh] at o3) o1
  obtain ⟨i', j', u, u1, u2, u3, u4, u5⟩ := interp_weights (x := blaze) t.theta (by intro hh; simp [hh] at o4) o2
  have hp : t.probabilities hcc energy blaze = some (t.data.map fun d => between (between ((d.getD i []).getD i' 0) ((d.getD i []).getD j' 0) u)
      (between ((d.getD j []).getD i' 0) ((d.getD j []).getD j' 0) u) w) := by
    unfold EffTable.probabilities
    exact mapM_effSome fun d hd => bilinear_eq (o8 d hd).1 (o8 d hd).2 u5 w1 w2 w5
  -- the same in terms of the columns
  have hcols : (t.data.map fun d => between (between ((d.getD i []).getD i' 0) ((d.getD i []).getD j' 0) u)
      (between ((d.getD j []).getD i' 0) ((d.getD j []).getD j' 0) u) w) =
      cols.map fun c => between (between (c.getD (i * t.theta.length + i') 0) (c.getD (i * t.theta.length + j') 0) u)
        (between (c.getD (j * t.theta.length + i') 0) (c.getD (j * t.theta.length + j') 0) u) w := by
    apply List.ext_getElem
    · simpa using o7
    · intro k h1 h2
      have hk : k < cols.length := by simpa using h2
      have hk' : k < t.data.length := by omega
      simp only [List.getElem_map]
      rw [← List.getD_eq_getElem t.data [] hk', ← List.getD_eq_getElem cols [] hk, o11 k i i' hk w1 u1, o11 k i j' hk w1 u2, o11 k j i' hk w2 u1, o11 k j j' hk w2 u2]
      rfl
  have idx : ∀ a b, a < t.wave.length → b < t.theta.length → a * t.theta.length + b < wave.length := by
    intro a b ha hb
    rw [o6]
    calc a * t.theta.length + b < a * t.theta.length + t.theta.length := by omega
      _ = (a + 1) * t.theta.length := by ring
      _ ≤ _ := Nat.mul_le_mul_right _ ha
  rw [hcols] at hp
  refine ⟨_, hp, by simp, ?_, ?_, ?_⟩
  · intro v hv
    obtain ⟨c, hcm, rfl⟩ := List.mem_map.1 hv
    have nn : ∀ n, 0 ≤ c.getD n 0 := by
      intro n
      by_cases hn : n < c.length
      · rw [List.getD_eq_getElem _ _ hn]; exact hpos c hcm _ (List.getElem_mem hn)
      · rw [List.getD_eq_default _ _ (by omega)]
    have b1 : ∀ a b s : ℝ, 0 ≤ a → 0 ≤ b → 0 ≤ s → s ≤ 1 → 0 ≤ between a b s := by
      intro a b s ha hb h0 h1
      exact add_nonneg (mul_nonneg (by linarith) ha) (mul_nonneg h0 hb)
    exact b1 _ _ _ (b1 _ _ _ (nn _) (nn _) u3 u4) (b1 _ _ _ (nn _) (nn _) u3 u4) w3 w4
  · have lin : ∀ (l : List (List ℝ)) (f g : List ℝ → ℝ) (s : ℝ), (l.map fun c => between (f c) (g c) s).sum = between (l.map f).sum (l.map g).sum s := by
      intro l f g s
      induction l with
      | nil => simp [between]
      | cons c l ih =>
        simp only [List.map_cons, List.sum_cons]
        rw [ih]
        unfold between
        ring
    rw [lin, lin, lin]
    have b1 : ∀ a b s : ℝ, a ≤ 1 → b ≤ 1 → 0 ≤ s → s ≤ 1 → between a b s ≤ 1 := by
      intro a b s ha hb h0 h1
      unfold between
      nlinarith
    exact b1 _ _ _ (b1 _ _ _ (hsum _ (idx _ _ w1 u1)) (hsum _ (idx _ _ w1 u2)) u3 u4) (b1 _ _ _ (hsum _ (idx _ _ w2 u1)) (hsum _ (idx _ _ w2 u2)) u3 u4) w3 w4
  · intro r o q hcall
    unfold EffTable.call at hcall
    rw [hp] at hcall
    simp only [interpolateTable] at hcall
    split at hcall
    · cases hcall
    · cases hcall; rfl

/-- **C133** The order of a photon: number `k` of the table for random numbers from an interval whose length is the share of that order, here for `p` the interpolated efficiencies. -/
theorem C133_order (wave thetaDeg : List ℝ) (orders : List ℤ) (cols : List (List ℝ)) (t : EffTable) (hl : thetaDeg.length = wave.length)
    (hc : ∀ c ∈ cols, c.length = wave.length) (hcol : cols ≠ []) (ho : orders.length = cols.length) (h : EffTable.init wave thetaDeg orders cols = .ok t)
    (hpos : ∀ c ∈ cols, ∀ v ∈ c, 0 ≤ v) (hsum : ∀ n < wave.length, (cols.map fun c => c.getD n 0).sum ≤ 1) (hcc energy blaze : ℝ) (p : List ℝ)
    (hp : t.probabilities hcc energy blaze = some p) :
    (p.sum = 0 → ∀ r, ∃ o, t.call hcc energy blaze r = .ok (o, 0)) ∧
    (p.sum ≠ 0 → ∃ sel : ℝ → ℕ, (∀ r, 0 ≤ r → r < 1 → ∃ o, orders[sel r]? = some o ∧ t.call hcc energy blaze r = .ok (o, p.sum)) ∧
      ∀ k (hk : k < p.length), ∃ c, {r : ℝ | 0 ≤ r ∧ r < 1 ∧ sel r = k} = Set.Ico c (c + p[k] / p.sum)) := by
  obtain ⟨p', h1, h2, h3, h4, _⟩ := C133_probability wave thetaDeg orders cols t hl hc hcol h hpos hsum hcc energy blaze
  obtain ⟨Y, _, _, _, _, _, o5, _⟩ := effInit_ok hl hc hcol h
  rw [hp] at h1
  cases h1
  have hcall : ∀ r, t.call hcc energy blaze r = interpolateTable p orders r := by
    intro r
    unfold EffTable.call
    rw [hp, o5]
  constructor
  · intro hz r
    cases orders with
    | nil => exact absurd (List.length_eq_zero_iff.1 (by simpa using ho.symm)) hcol
    | cons o os => exact ⟨o, by rw [hcall]; exact C25_no_probability p o os hz r⟩
  · intro hz
    obtain ⟨sel, s1, s2⟩ := C25_interpolate_table p orders (by rw [h2, ho]) h3 (lt_of_le_of_ne (List.sum_nonneg h3) (Ne.symm hz))
    exact ⟨sel, fun r r0 r1 => by rw [hcall]; exact s1 r r0 r1, s2⟩

/-- **C133** A table on a full grid with increasing wavelengths and angles, at least two each, is accepted. -/
theorem C133_accepted (X Y : List ℝ) (f : ℕ → ℕ → ℝ) (o : ℤ) (hX : X.Pairwise (· < ·)) (hY : Y.Pairwise (· < ·)) (h2 : 2 ≤ X.length ∧ 2 ≤ Y.length) :
    ∃ t, EffTable.init ((gridRows X Y f).map fun r => r.1) ((gridRows X Y f).map fun r => r.2.1) [o] [(gridRows X Y f).map fun r => r.2.2] = .ok t ∧
      t.wave = X ∧ t.theta = Y.map (fun a => a * Real.pi / 180) := by
  have hpi := Real.pi_pos
  refine ⟨⟨X, Y.map fun t => t * Real.pi / 180, [o], [(List.range X.length).map (fun i => (List.range Y.length).map (fun j => f i j))]⟩, ?_, rfl, rfl⟩
  · unfold EffTable.init
    rw [C57_complete X Y f (hX.imp fun h => h.ne) (hY.imp fun h => h.ne) (by intro h; simp [h] at h2) (by intro h; simp [h] at h2)]
    have hY' : (Y.map fun t => t * Real.pi / 180).Pairwise (· < ·) := by
      rw [List.pairwise_map]
      exact hY.imp fun h => by
        have := mul_lt_mul_of_pos_right h hpi
        linarith
    have h3 : ¬ (X.length < 2 ∨ (Y.map fun t => t * Real.pi / 180).length < 2) := by
      push Not; simpa using h2
    simp only [splineCheck, hX, hY', h3, not_true, if_false, List.cons_ne_nil]

/-- **C133** Tables whose wavelengths or angles do not increase, or with a single wavelength or angle, are rejected. -/
theorem C133_rejected (X Y : List ℝ) (f : ℕ → ℕ → ℝ) (o : ℤ) (hX : X.Nodup) (hY : Y.Nodup) (h0 : X ≠ [] ∧ Y ≠ [])
    (h : ¬ X.Pairwise (· < ·) ∨ ¬ Y.Pairwise (· < ·) ∨ X.length < 2 ∨ Y.length < 2) :
    EffTable.init ((gridRows X Y f).map fun r => r.1) ((gridRows X Y f).map fun r => r.2.1) [o] [(gridRows X Y f).map fun r => r.2.2] = .error .valueError := by
  have hpi := Real.pi_pos
  unfold EffTable.init
  rw [C57_complete X Y f hX hY h0.1 h0.2]
  have hY' : (Y.map fun t => t * Real.pi / 180).Pairwise (· < ·) ↔ Y.Pairwise (· < ·) := by
    rw [List.pairwise_map]
    refine ⟨fun h => h.imp fun h => ?_, fun h => h.imp fun h => ?_⟩
    · exact lt_of_mul_lt_mul_right (by linarith : _ * Real.pi < _ * Real.pi) hpi.le
    · have := mul_lt_mul_of_pos_right h hpi
      linarith
  simp only [splineCheck, hY', List.length_map, List.cons_ne_nil, if_false]
  by_cases c1 : X.Pairwise (· < ·)
  · by_cases c2 : Y.Pairwise (· < ·)
    · have c3 : X.length < 2 ∨ Y.length < 2 := by tauto
      simp only [c1, c2, c3, not_true, if_false, if_true]
    · simp only [c1, c2, not_true, not_false_iff, if_false, if_true]
  · simp only [c1, not_false_iff, if_true]

/-- Wavelengths 1 and 2 nm, angles 0 and 1 degree: a table with probabilities, of which every photon gets its share. -/
example : ∃ t, EffTable.init [1, 1, 2, 2] [0, 1, 0, 1] [-1] [[0.1, 0.2, 0.3, 0.6]] = .ok t ∧
    (∃ p, t.probabilities 1.24 (1.24 / 1.5) (0.5 * Real.pi / 180) = some p ∧ p.getD 0 0 = 0.3) ∧
    ∀ energy blaze, ∃ p, t.probabilities 1.24 energy blaze = some p ∧ 0 ≤ p.sum ∧ p.sum ≤ 1 := by
  have hpi := Real.pi_pos
  have hg : gridRows [1, 2] [0, 1] (fun i j => if i = 0 then (if j = 0 then 0.1 else 0.2) else (if j = 0 then 0.3 else 0.6)) =
      [(1, 0, 0.1), (1, 1, 0.2), (2, 0, 0.3), (2, 1, 0.6)] := by
    simp [gridRows, List.range_succ]
  obtain ⟨t, h, hw, ht⟩ := C133_accepted [1, 2] [0, 1] (fun i j => if i = 0 then (if j = 0 then 0.1 else 0.2) else (if j = 0 then 0.3 else 0.6)) (-1) (by norm_num) (by norm_num) (by simp)
  rw [hg] at h
  simp only [List.map_cons, List.map_nil] at h
  refine ⟨t, h, ?_, ?_⟩
  · obtain ⟨p, h1, _, h3⟩ := C133_bilinear _ _ _ _ t (by simp) (by simp) (by simp) h 1.24 (1.24 / 1.5) (0.5 * Real.pi / 180) 0 0 (by simp [hw]) (by simp [ht])
      (by rw [hw]; norm_num) (by rw [ht]; simp; constructor <;> nlinarith)
    refine ⟨p, h1, ?_⟩
    rw [h3 0 (by simp), ht]
    have : fractionOf (0 * Real.pi / 180) (1 * Real.pi / 180) (0.5 * Real.pi / 180) = 0.5 := by
      unfold fractionOf
      field_simp
      norm_num
    simp only [List.getD_cons_zero, List.getD_cons_succ, zero_add, this, entry, List.length_map, List.length_cons, List.length_nil]
    norm_num [between, fractionOf]
  · intro energy blaze
    obtain ⟨p, h1, _, h3, h4, _⟩ := C133_probability _ _ _ _ t (by simp) (by simp) (by simp) h (by norm_num)
      (by intro n hn; simp at hn; interval_cases n <;> norm_num) 1.24 energy blaze
    exact ⟨p, h1, List.sum_nonneg h3, h4⟩

end Marxs
