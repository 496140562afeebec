import Verif.Model.ShellRadius
import Verif.Spec.ShellRadius
import Verif.Spec.Geometry
import Verif.Props.Ogip
import Mathlib.Tactic.Linarith
import Mathlib.Tactic.FieldSimp
import Mathlib.Tactic.LinearCombination
import Mathlib.Tactic.NormNum
import Mathlib.Data.List.GetD

/-!
# C136: radius of the photons from one mirror shell
-/

namespace Marxs
open Classical

/-! ## Percentiles -/

theorem countP_le_index {s : List ℝ} {p : ℝ → Bool} {k : ℕ} (h : ∀ i (hi : i < s.length), p s[i] = true → i < k) : s.countP p ≤ k := by
  rw [← List.take_append_drop k s, List.countP_append]
  have h1 : (s.take k).countP p ≤ k := le_trans List.countP_le_length (List.length_take_le k s)
  have h2 : (s.drop k).countP p = 0 := by
    rw [List.countP_eq_zero]
    intro a ha hp
    obtain ⟨i, hi, rfl⟩ := List.getElem_of_mem ha
    rw [List.length_drop] at hi
    rw [List.getElem_drop] at hp
    have := h _ _ hp
    omega
  omega

theorem countP_le_index' {s : List ℝ} {p : ℝ → Bool} {k : ℕ} (h : ∀ i (hi : i < s.length), p s[i] = true → k ≤ i) : s.countP p ≤ s.length - k := by
  conv_lhs => rw [← List.take_append_drop k s, List.countP_append]
  have h1 : (s.take k).countP p = 0 := by
    rw [List.countP_eq_zero]
    intro a ha hp
    obtain ⟨i, hi, rfl⟩ := List.getElem_of_mem ha
    rw [List.length_take] at hi
    rw [List.getElem_take] at hp
    have := h i (by omega) hp
    omega
  have h2 : (s.drop k).countP p ≤ s.length - k := le_trans List.countP_le_length (by rw [List.length_drop])
  omega

/-- value of the percentile of a sorted list (for the proofs) -/
noncomputable def pctOf (s : List ℝ) (q : ℝ) : ℝ :=
  let h := q / 100 * ((s.length : ℝ) - 1)
  let a := s.getD ⌊h⌋₊ 0
  a + (h - (⌊h⌋₊ : ℝ)) * (s.getD (min (⌊h⌋₊ + 1) (s.length - 1)) 0 - a)

theorem npPercentile_ok (l : List ℝ) (hl : l ≠ []) (q : ℝ) (h0 : 0 ≤ q) (h1 : q ≤ 100) : npPercentile (l.map some) q = .ok (some (pctOf (sortReal l) q)) := by
  have e1 : ¬ (q < 0 ∨ 100 < q) := by push Not; exact ⟨h0, h1⟩
  have e2 : l.map some ≠ [] := by simpa using hl
  have e3 : none ∉ l.map some := by simp
  have e4 : (l.map some).filterMap id = l := by
    rw [List.filterMap_map]; simp
  unfold npPercentile
  simp only [e1, e2, e3, if_false, e4, pctOf]

theorem sorted_getD_mono {s : List ℝ} (hs : s.Pairwise (· ≤ ·)) {i j : ℕ} (hij : i ≤ j) (hj : j < s.length) : s.getD i 0 ≤ s.getD j 0 := by
  rw [List.getD_eq_getElem _ _ (by omega), List.getD_eq_getElem _ _ hj]
  rcases hij.lt_or_eq with h | h
  · exact List.pairwise_iff_getElem.1 hs i j (by omega) hj h
  · subst h; exact le_rfl

theorem pct_setup {s : List ℝ} (hs : s.Pairwise (· ≤ ·)) (hne : 0 < s.length) {q : ℝ} (h0 : 0 ≤ q) (h1 : q ≤ 100) :
    0 ≤ q / 100 * ((s.length : ℝ) - 1) ∧ q / 100 * ((s.length : ℝ) - 1) ≤ (s.length : ℝ) - 1 ∧ ⌊q / 100 * ((s.length : ℝ) - 1)⌋₊ ≤ s.length - 1 := by
  have hn : (1 : ℝ) ≤ s.length := by exact_mod_cast hne
  have a : 0 ≤ q / 100 * ((s.length : ℝ) - 1) := mul_nonneg (by positivity) (by linarith)
  have b : q / 100 * ((s.length : ℝ) - 1) ≤ (s.length : ℝ) - 1 := by
    have : q / 100 ≤ 1 := by linarith
    nlinarith
  refine ⟨a, b, ?_⟩
  have := Nat.floor_le_floor b
  have e : ((s.length : ℝ) - 1) = ((s.length - 1 : ℕ) : ℝ) := by rw [Nat.cast_sub (by omega)]; simp
  rw [e] at this
  rw [Nat.floor_natCast] at this
  rw [e]
  exact this

/-- the value is between two neighbours, and equal to the lower one if the position is a whole number -/
theorem pct_between {s : List ℝ} (hs : s.Pairwise (· ≤ ·)) (hne : 0 < s.length) {q : ℝ} (h0 : 0 ≤ q) (h1 : q ≤ 100) :
    s.getD ⌊q / 100 * ((s.length : ℝ) - 1)⌋₊ 0 ≤ pctOf s q ∧ pctOf s q ≤ s.getD ⌈q / 100 * ((s.length : ℝ) - 1)⌉₊ 0 ∧ ⌈q / 100 * ((s.length : ℝ) - 1)⌉₊ ≤ s.length - 1 := by
  obtain ⟨a, b, c⟩ := pct_setup hs hne h0 h1
  have e : ((s.length : ℝ) - 1) = ((s.length - 1 : ℕ) : ℝ) := by rw [Nat.cast_sub (by omega)]; simp
  have hceil : ⌈q / 100 * ((s.length : ℝ) - 1)⌉₊ ≤ s.length - 1 := by
    rw [Nat.ceil_le, ← e]; exact b
  unfold pctOf
  simp only
  generalize hh : q / 100 * ((s.length : ℝ) - 1) = h at *
  have f1 := Nat.floor_le a
  have f2 := Nat.lt_floor_add_one h
  have hm := sorted_getD_mono hs (i := ⌊h⌋₊) (j := min (⌊h⌋₊ + 1) (s.length - 1)) (by omega) (by omega)
  refine ⟨by nlinarith, ?_, hceil⟩
  rcases eq_or_lt_of_le f1 with g | g
  · rw [g, sub_self, zero_mul, add_zero]
    exact sorted_getD_mono hs (Nat.floor_le_ceil h) (by omega)
  · have hc : ⌈h⌉₊ = ⌊h⌋₊ + 1 := by
      apply le_antisymm
      · rw [Nat.ceil_le]; push_cast; exact f2.le
      · exact Nat.lt_ceil.2 g
    have hmin : min (⌊h⌋₊ + 1) (s.length - 1) = ⌈h⌉₊ := by omega
    rw [hmin] at hm ⊢
    nlinarith

theorem pct_isPercentile (l : List ℝ) (hl : l ≠ []) (q : ℝ) (h0 : 0 ≤ q) (h1 : q ≤ 100) : IsPercentile q l (pctOf (sortReal l) q) := by
  have hp := sortReal_perm l
  have hs := sortReal_pairwise l
  have hlen : (sortReal l).length = l.length := hp.length_eq
  have hne : 0 < (sortReal l).length := by rw [hlen]; exact List.length_pos_iff.2 hl
  obtain ⟨a, b, c⟩ := pct_setup hs hne h0 h1
  obtain ⟨p1, p2, p3⟩ := pct_between hs hne h0 h1
  unfold IsPercentile
  rw [← hp.countP_eq, ← hp.countP_eq, ← hlen]
  generalize sortReal l = s at *
  constructor
  · apply countP_le_index
    intro i hi hlt
    rw [decide_eq_true_eq] at hlt
    by_contra hge
    have := sorted_getD_mono hs (i := ⌈q / 100 * ((s.length : ℝ) - 1)⌉₊) (j := i) (by omega) hi
    rw [List.getD_eq_getElem s 0 hi] at this
    linarith
  · have e : (100 - q) / 100 * ((s.length : ℝ) - 1) = (s.length : ℝ) - 1 - q / 100 * ((s.length : ℝ) - 1) := by ring
    rw [e]
    generalize q / 100 * ((s.length : ℝ) - 1) = h at *
    refine le_trans (countP_le_index' (k := ⌊h⌋₊ + 1) ?_) ?_
    · intro i hi hlt
      rw [decide_eq_true_eq] at hlt
      by_contra hge
      have := sorted_getD_mono hs (i := i) (j := ⌊h⌋₊) (by omega) (by omega)
      rw [List.getD_eq_getElem s 0 hi] at this
      linarith
    · have f2 := Nat.lt_floor_add_one h
      by_cases hz : s.length - (⌊h⌋₊ + 1) = 0
      · omega
      · have : s.length - (⌊h⌋₊ + 1) - 1 < ⌈(s.length : ℝ) - 1 - h⌉₊ := by
          rw [Nat.lt_ceil]
          have e2 : s.length - (⌊h⌋₊ + 1) - 1 = s.length - (⌊h⌋₊ + 2) := by omega
          rw [e2, Nat.cast_sub (by omega)]
          push_cast
          linarith
        omega

/-- percentiles of scaled numbers -/
theorem pct_scale (l : List ℝ) (c q : ℝ) (hc : 0 ≤ c) : pctOf (sortReal (l.map fun a => c * a)) q = c * pctOf (sortReal l) q := by
  have e : sortReal (l.map fun a => c * a) = (sortReal l).map fun a => c * a := by
    apply sortReal_unique
    · exact (sortReal_perm l).map _
    · rw [List.pairwise_map]
      exact (sortReal_pairwise l).imp fun h => mul_le_mul_of_nonneg_left h hc
  rw [e]
  have g : ∀ (s : List ℝ) i, (s.map fun a => c * a).getD i 0 = c * s.getD i 0 := by
    intro s i
    rw [List.getD_eq_getElem?_getD, List.getD_eq_getElem?_getD, List.getElem?_map]
    cases s[i]? <;> simp
  unfold pctOf
  simp only [g, List.length_map]
  ring

theorem pct_mono {s : List ℝ} (hs : s.Pairwise (· ≤ ·)) (hne : 0 < s.length) {q q' : ℝ} (h0 : 0 ≤ q) (hq : q ≤ q') (h1 : q' ≤ 100) : pctOf s q ≤ pctOf s q' := by
  have hn : (1 : ℝ) ≤ s.length := by exact_mod_cast hne
  have hh : q / 100 * ((s.length : ℝ) - 1) ≤ q' / 100 * ((s.length : ℝ) - 1) := mul_le_mul_of_nonneg_right (by linarith) (by linarith)
  obtain ⟨a, b, c⟩ := pct_setup hs hne h0 (hq.trans h1)
  obtain ⟨a', b', c'⟩ := pct_setup hs hne (h0.trans hq) h1
  obtain ⟨p1, p2, p3⟩ := pct_between hs hne h0 (hq.trans h1)
  obtain ⟨p1', p2', p3'⟩ := pct_between hs hne (h0.trans hq) h1
  rcases (Nat.floor_le_floor hh).lt_or_eq with hlt | heq
  · refine p2.trans (le_trans (sorted_getD_mono hs ?_ (by omega)) p1')
    rw [Nat.ceil_le]
    have := Nat.lt_floor_add_one (q / 100 * ((s.length : ℝ) - 1))
    have h3 : ((⌊q / 100 * ((s.length : ℝ) - 1)⌋₊ + 1 : ℕ) : ℝ) ≤ ⌊q' / 100 * ((s.length : ℝ) - 1)⌋₊ := by exact_mod_cast hlt
    push_cast at h3
    linarith
  · unfold pctOf
    simp only [← heq]
    have hm := sorted_getD_mono hs (i := ⌊q / 100 * ((s.length : ℝ) - 1)⌋₊) (j := min (⌊q / 100 * ((s.length : ℝ) - 1)⌋₊ + 1) (s.length - 1)) (by omega) (by omega)
    nlinarith

/-! ## The detector -/

theorem shellDet_intersect (x : ℝ) (dir pos : H4) (hd : IsDir dir) (hp : IsPoint pos) :
    (planeIntersect (shellDet x) dir pos).map Prod.snd =
      if dir.x = 0 then none
      else if 0 ≤ (x - pos.x) / dir.x ∧ |pos.y + (x - pos.x) / dir.x * dir.y| ≤ 100000000 ∧ |pos.z + (x - pos.x) / dir.x * dir.z| ≤ 100000000 then
        some (pos.y + (x - pos.x) / dir.x * dir.y, pos.z + (x - pos.x) / dir.x * dir.z) else none := by
  have hsq : Real.sqrt (100000000 * 100000000) = (100000000 : ℝ) := Real.sqrt_mul_self (by norm_num)
  have n1 : (vX (shellDet x)).norm = 100000000 := by
    simp [vX, col, shellDet, compose, H4.norm, H4.dot, hsq]
  have n2 : (vY (shellDet x)).norm = 100000000 := by
    simp [vY, col, shellDet, compose, H4.norm, H4.dot, hsq]
  have n3 : (vZ (shellDet x)).norm = 100000000 := by
    simp [vZ, col, shellDet, compose, H4.norm, H4.dot, hsq]
  have f0 : eX (shellDet x) = ⟨1, 0, 0, 0⟩ := by
    unfold eX H4.unit
    rw [n1]
    simp [vX, col, shellDet, compose]
    ext <;> simp
  have f1 : eY (shellDet x) = ⟨0, 1, 0, 0⟩ := by
    unfold eY H4.unit
    rw [n2]
    simp [vY, col, shellDet, compose]
    ext <;> simp
  have f2 : eZ (shellDet x) = ⟨0, 0, 1, 0⟩ := by
    unfold eZ H4.unit
    rw [n3]
    simp [vZ, col, shellDet, compose]
    ext <;> simp
  have hc : center (shellDet x) = ⟨x, 0, 0, 1⟩ := by
    simp [center, col, shellDet, compose]
  obtain ⟨dx, dy, dz, dw⟩ := dir
  obtain ⟨px, py, pz, pw⟩ := pos
  simp only [IsDir, IsPoint] at hd hp
  subst hd hp
  simp only [planeIntersect, f0, f1, f2, n2, n3, hc]
  simp only [H4.dot, H4.sub_x, H4.sub_y, H4.sub_z, H4.sub_w, H4.add_x, H4.add_y, H4.add_z, H4.add_w, H4.smul_x, H4.smul_y, H4.smul_z, H4.smul_w, mul_one, mul_zero, add_zero, zero_add, sub_zero]
  by_cases hk : dx = 0
  · simp [hk]
  · simp only [hk, if_false]
    split
    · rename_i h; simp only [h, Option.map_some, and_self, if_true]
    · rename_i h; simp only [h, Option.map_none, if_false]

theorem shell_hit {x : ℝ} {p : ShellPhoton} (hd : IsDir p.dir) (hp : IsPoint p.pos) (hx : p.dir.x ≠ 0) {q : V3} (hq : Reaches p.pos.xyz p.dir.xyz q) (hqx : q.x = x) (hy : |q.y| ≤ 100000000) (hz : |q.z| ≤ 100000000) :
    shellDetXY x p = some (q.y, q.z) := by
  obtain ⟨t, ht, rfl⟩ := hq
  simp only [V3.add_x, V3.add_y, V3.add_z, V3.smul_x, V3.smul_y, V3.smul_z, H4.xyz] at hqx hy hz ⊢
  have hk : (x - p.pos.x) / p.dir.x = t := by
    rw [← hqx]; field_simp; ring
  have h := shellDet_intersect x p.dir p.pos hd hp
  rw [if_neg hx, hk, if_pos ⟨ht, hy, hz⟩] at h
  unfold shellDetXY
  cases hi : planeIntersect (shellDet x) p.dir p.pos with
  | none => rw [hi] at h; simp at h
  | some r =>
    rw [hi] at h
    obtain ⟨r0, r1, r2⟩ := r
    simp only [Option.map_some, Option.some.injEq] at h ⊢
    exact h

theorem shell_miss {x : ℝ} {p : ShellPhoton} (hd : IsDir p.dir) (hp : IsPoint p.pos) (hm : ∀ q, Reaches p.pos.xyz p.dir.xyz q → q.x ≠ x) : shellDetXY x p = p.oldDet := by
  have h := shellDet_intersect x p.dir p.pos hd hp
  unfold shellDetXY
  cases hi : planeIntersect (shellDet x) p.dir p.pos with
  | none => rfl
  | some r =>
    exfalso
    rw [hi] at h
    by_cases hx : p.dir.x = 0
    · rw [if_pos hx] at h; simp at h
    · rw [if_neg hx] at h
      split at h
      · rename_i hc
        refine hm _ ⟨_, hc.1, rfl⟩ ?_
        simp only [V3.add_x, V3.smul_x, H4.xyz]
        field_simp
        ring
      · simp at h

/-! ## The function -/

theorem liveShell_eq (shell : ℤ) (photons : List ShellPhoton) : photons.filter (shellSelected shell) = liveShell shell photons := by
  unfold liveShell
  congr 1
  funext p
  unfold shellSelected
  cases p.prob <;> simp

theorem mapM_pct (l : List ℝ) (hl : l ≠ []) (qs : List ℝ) (hq : ∀ q ∈ qs, 0 ≤ q ∧ q ≤ 100) : qs.mapM (npPercentile (l.map some)) = .ok (qs.map fun q => some (pctOf (sortReal l) q)) := by
  induction qs with
  | nil => rfl
  | cons q qs ih =>
    obtain ⟨a, b⟩ := hq q (by simp)
    rw [List.mapM_cons, npPercentile_ok l hl q a b]
    simp only [bind, Except.bind]
    rw [ih fun q' h => hq q' (List.mem_cons_of_mem _ h)]
    rfl

theorem findRadius_ok (photons : List ShellPhoton) (shell : ℤ) (x : ℝ) (percentile : List ℝ) (hq : ∀ q ∈ percentile, 0 ≤ q ∧ q ≤ 100) (hne : liveShell shell photons ≠ []) (hit : ShellPhoton → V3)
    (hh : ∀ p ∈ liveShell shell photons, IsDir p.dir ∧ IsPoint p.pos ∧ p.dir.x ≠ 0 ∧ Reaches p.pos.xyz p.dir.xyz (hit p) ∧ (hit p).x = x ∧ |(hit p).y| ≤ 100000000 ∧ |(hit p).z| ≤ 100000000) :
    findRadius photons shell x percentile = .ok (percentile.map fun q => some (pctOf (sortReal ((liveShell shell photons).map fun p => axisDist (hit p))) q)) := by
  unfold findRadius
  simp only [liveShell_eq]
  rw [show ((liveShell shell photons).map fun p => (shellDetXY x p).map fun d => Real.sqrt (d.1 ^ 2 + d.2 ^ 2)) = ((liveShell shell photons).map fun p => axisDist (hit p)).map some from ?_]
  · exact mapM_pct _ (by simpa using hne) _ hq
  · rw [List.map_map]
    apply List.map_congr_left
    intro p hp
    obtain ⟨a, b, c, d, e, f, g⟩ := hh p hp
    rw [shell_hit a b c d e f g]
    rfl

/-- **C136** The numbers returned are percentiles of the distances from the optical axis at which the photons of this shell cross the plane at `x`. Photons from other shells and photons that are absorbed already make no difference. (Missing: photons that have passed the plane, see `C136_past_false`.) -/
theorem C136_radius_partial (photons : List ShellPhoton) (shell : ℤ) (x : ℝ) (percentile : List ℝ) (hq : ∀ q ∈ percentile, 0 ≤ q ∧ q ≤ 100) (hne : liveShell shell photons ≠ []) (hit : ShellPhoton → V3)
    (hh : ∀ p ∈ liveShell shell photons, IsDir p.dir ∧ IsPoint p.pos ∧ p.dir.x ≠ 0 ∧ Reaches p.pos.xyz p.dir.xyz (hit p) ∧ (hit p).x = x ∧ |(hit p).y| ≤ 100000000 ∧ |(hit p).z| ≤ 100000000) :
    ∃ r : List ℝ, findRadius photons shell x percentile = .ok (r.map some) ∧ r.length = percentile.length ∧
      (∀ (i : ℕ) q v, percentile[i]? = some q → r[i]? = some v → IsPercentile q ((liveShell shell photons).map fun p => axisDist (hit p)) v ∧ (∃ p ∈ liveShell shell photons, axisDist (hit p) ≤ v) ∧ ∃ p ∈ liveShell shell photons, v ≤ axisDist (hit p)) ∧
      (∀ (i j : ℕ) q q' v v', percentile[i]? = some q → percentile[j]? = some q' → r[i]? = some v → r[j]? = some v' → q ≤ q' → v ≤ v') ∧
      (∀ (i : ℕ) v, percentile[i]? = some 0 → r[i]? = some v → ∀ p ∈ liveShell shell photons, v ≤ axisDist (hit p)) ∧
      (∀ (i : ℕ) v, percentile[i]? = some 100 → r[i]? = some v → ∀ p ∈ liveShell shell photons, axisDist (hit p) ≤ v) := by
  have hne' : ((liveShell shell photons).map fun p => axisDist (hit p)) ≠ [] := by simpa using hne
  refine ⟨percentile.map fun q => pctOf (sortReal ((liveShell shell photons).map fun p => axisDist (hit p))) q, ?_, by simp, ?_, ?_, ?_, ?_⟩
  · rw [findRadius_ok photons shell x percentile hq hne hit hh, List.map_map]
    rfl
  all_goals
    have hmemiff : ∀ d, d ∈ sortReal ((liveShell shell photons).map fun p => axisDist (hit p)) ↔ ∃ p ∈ liveShell shell photons, axisDist (hit p) = d := by
      intro d
      rw [(sortReal_perm _).mem_iff, List.mem_map]
    have hs := sortReal_pairwise ((liveShell shell photons).map fun p => axisDist (hit p))
    have hlen : 0 < (sortReal ((liveShell shell photons).map fun p => axisDist (hit p))).length := by
      rw [(sortReal_perm _).length_eq]; exact List.length_pos_iff.2 hne'
    have hin : ∀ (i : ℕ) q v, percentile[i]? = some q → (percentile.map fun q => pctOf (sortReal ((liveShell shell photons).map fun p => axisDist (hit p))) q)[i]? = some v → 0 ≤ q ∧ q ≤ 100 ∧ v = pctOf (sortReal ((liveShell shell photons).map fun p => axisDist (hit p))) q := by
      intro i q v h1 h2
      rw [List.getElem?_map, h1] at h2
      obtain ⟨a, b⟩ := hq q (List.mem_of_getElem? h1)
      exact ⟨a, b, (Option.some.inj h2).symm⟩
  · intro i q v h1 h2
    obtain ⟨a, b, rfl⟩ := hin i q v h1 h2
    obtain ⟨p1, p2, p3⟩ := pct_between hs hlen a b
    obtain ⟨_, _, c⟩ := pct_setup hs hlen a b
    refine ⟨pct_isPercentile _ hne' q a b, ?_, ?_⟩
    · rw [List.getD_eq_getElem _ _ (by omega)] at p1
      obtain ⟨p, hp, e⟩ := (hmemiff _).1 (List.getElem_mem (by omega : ⌊q / 100 * (((sortReal ((liveShell shell photons).map fun p => axisDist (hit p))).length : ℝ) - 1)⌋₊ < _))
      exact ⟨p, hp, e ▸ p1⟩
    · rw [List.getD_eq_getElem _ _ (by omega)] at p2
      obtain ⟨p, hp, e⟩ := (hmemiff _).1 (List.getElem_mem (by omega : ⌈q / 100 * (((sortReal ((liveShell shell photons).map fun p => axisDist (hit p))).length : ℝ) - 1)⌉₊ < _))
      exact ⟨p, hp, e ▸ p2⟩
  · intro i j q q' v v' h1 h2 h3 h4 hle
    obtain ⟨a, b, rfl⟩ := hin i q v h1 h3
    obtain ⟨a', b', rfl⟩ := hin j q' v' h2 h4
    exact pct_mono hs hlen a hle b'
  · intro i v h1 h2 p hp
    obtain ⟨a, b, rfl⟩ := hin i 0 v h1 h2
    obtain ⟨_, p2, _⟩ := pct_between hs hlen a b
    obtain ⟨k, hk, e⟩ := List.getElem_of_mem ((hmemiff _).2 ⟨p, hp, rfl⟩)
    rw [zero_div, zero_mul, Nat.ceil_zero] at p2
    have := sorted_getD_mono hs (Nat.zero_le k) hk
    rw [List.getD_eq_getElem _ _ hk, e] at this
    exact p2.trans this
  · intro i v h1 h2 p hp
    obtain ⟨a, b, rfl⟩ := hin i 100 v h1 h2
    obtain ⟨p1, _, _⟩ := pct_between hs hlen a b
    obtain ⟨k, hk, e⟩ := List.getElem_of_mem ((hmemiff _).2 ⟨p, hp, rfl⟩)
    have e100 : (100 : ℝ) / 100 * (((sortReal ((liveShell shell photons).map fun p => axisDist (hit p))).length : ℝ) - 1) = (((sortReal ((liveShell shell photons).map fun p => axisDist (hit p))).length - 1 : ℕ) : ℝ) := by
      rw [Nat.cast_sub (by omega)]; simp
    rw [e100, Nat.floor_natCast] at p1
    have := sorted_getD_mono hs (show k ≤ (sortReal ((liveShell shell photons).map fun p => axisDist (hit p))).length - 1 by omega) (by omega)
    rw [List.getD_eq_getElem _ _ hk, e] at this
    exact this.trans p1

/-- **C136** Light that converges to the focal point at 0 forms cones: the radii scale with the distance from the focal point, `|x|` times percentiles of the slopes of the rays. -/
theorem C136_cone (photons : List ShellPhoton) (shell : ℤ) (percentile : List ℝ) (hq : ∀ q ∈ percentile, 0 ≤ q ∧ q ≤ 100) (hne : liveShell shell photons ≠ [])
    (hf : ∀ p ∈ liveShell shell photons, IsDir p.dir ∧ IsPoint p.pos ∧ p.dir.x ≠ 0 ∧ ∃ t : ℝ, p.pos.xyz + t • p.dir.xyz = 0) :
    ∃ s : List ℝ, s.length = percentile.length ∧ (∀ (i : ℕ) q v, percentile[i]? = some q → s[i]? = some v → IsPercentile q ((liveShell shell photons).map fun p => slope p.dir.xyz) v) ∧
      ∀ x, (∀ p ∈ liveShell shell photons, ∃ q, Reaches p.pos.xyz p.dir.xyz q ∧ q.x = x ∧ |q.y| ≤ 100000000 ∧ |q.z| ≤ 100000000) → findRadius photons shell x percentile = .ok (s.map fun v => some (|x| * v)) := by
  have hne' : ((liveShell shell photons).map fun p => slope p.dir.xyz) ≠ [] := by simpa using hne
  refine ⟨percentile.map fun q => pctOf (sortReal ((liveShell shell photons).map fun p => slope p.dir.xyz)) q, by simp, ?_, ?_⟩
  · intro i q v h1 h2
    rw [List.getElem?_map, h1] at h2
    obtain ⟨a, b⟩ := hq q (List.mem_of_getElem? h1)
    rw [← Option.some.inj h2]
    exact pct_isPercentile _ hne' q a b
  · intro x hx
    have hhit : ∀ p : ShellPhoton, ∃ q, p ∈ liveShell shell photons → Reaches p.pos.xyz p.dir.xyz q ∧ q.x = x ∧ |q.y| ≤ 100000000 ∧ |q.z| ≤ 100000000 := by
      intro p
      by_cases hp : p ∈ liveShell shell photons
      · obtain ⟨q, h⟩ := hx p hp
        exact ⟨q, fun _ => h⟩
      · exact ⟨0, fun h => absurd h hp⟩
    choose hit hhit using hhit
    rw [findRadius_ok photons shell x percentile hq hne hit fun p hp => by
      obtain ⟨a, b, c, _⟩ := hf p hp
      exact ⟨a, b, c, hhit p hp⟩]
    rw [List.map_map]
    congr 1
    apply List.map_congr_left
    intro q _
    simp only [Function.comp]
    rw [← pct_scale _ _ _ (abs_nonneg x), List.map_map]
    congr 3
    apply List.map_congr_left
    intro p hp
    obtain ⟨_, _, c, t, ht⟩ := hf p hp
    obtain ⟨⟨k, _, hk⟩, hqx, _⟩ := hhit p hp
    simp only [Function.comp]
    have hx0 := congrArg V3.x ht
    have hy0 := congrArg V3.y ht
    have hz0 := congrArg V3.z ht
    have hkx := congrArg V3.x hk
    have hky := congrArg V3.y hk
    have hkz := congrArg V3.z hk
    simp only [V3.add_x, V3.add_y, V3.add_z, V3.smul_x, V3.smul_y, V3.smul_z, H4.xyz, V3.zero_x, V3.zero_y, V3.zero_z] at hx0 hy0 hz0 hkx hky hkz
    unfold axisDist slope
    have ex : x = (k - t) * p.dir.x := by rw [← hqx, hkx]; linarith
    have ey : (hit p).y = (k - t) * p.dir.y := by rw [hky]; linarith
    have ez : (hit p).z = (k - t) * p.dir.z := by rw [hkz]; linarith
    rw [ex, ey, ez, abs_mul]
    have hc : |p.dir.x| ≠ 0 := abs_ne_zero.2 c
    rw [show ((k - t) * p.dir.y) ^ 2 + ((k - t) * p.dir.z) ^ 2 = (k - t) ^ 2 * (p.dir.y ^ 2 + p.dir.z ^ 2) by ring, Real.sqrt_mul (sq_nonneg _), Real.sqrt_sq_eq_abs]
    simp only [H4.xyz]
    field_simp

/-- **C136** The order of the photons does not matter. -/
theorem C136_order (photons photons' : List ShellPhoton) (hp : photons.Perm photons') (shell : ℤ) (x : ℝ) (percentile : List ℝ) : findRadius photons shell x percentile = findRadius photons' shell x percentile := by
  unfold findRadius
  simp only
  congr 1
  funext q
  have h := (hp.filter (shellSelected shell)).map fun p => (shellDetXY x p).map fun d => Real.sqrt (d.1 ^ 2 + d.2 ^ 2)
  generalize (photons.filter (shellSelected shell)).map (fun p => (shellDetXY x p).map fun d => Real.sqrt (d.1 ^ 2 + d.2 ^ 2)) = l at *
  generalize (photons'.filter (shellSelected shell)).map (fun p => (shellDetXY x p).map fun d => Real.sqrt (d.1 ^ 2 + d.2 ^ 2)) = l' at *
  have e1 : l = [] ↔ l' = [] := by
    constructor
    · rintro rfl; exact h.nil_eq.symm
    · rintro rfl; exact h.eq_nil
  have e2 : none ∈ l ↔ none ∈ l' := h.mem_iff
  have e3 : sortReal (l.filterMap id) = sortReal (l'.filterMap id) :=
    sortReal_unique _ _ ((sortReal_perm _).trans (h.filterMap id).symm) (sortReal_pairwise _)
  unfold npPercentile
  simp only [e1, e2, e3]

/-- **C136** Percentiles outside of 0 to 100 are refused. -/
theorem C136_refused (photons : List ShellPhoton) (shell : ℤ) (x q : ℝ) (h : q < 0 ∨ 100 < q) (rest : List ℝ) : findRadius photons shell x (q :: rest) = .error .valueError := by
  unfold findRadius
  simp only
  rw [List.mapM_cons]
  have : ∀ l, npPercentile l q = .error .valueError := by
    intro l; unfold npPercentile; rw [if_pos h]
  rw [this]
  rfl

/-- **C136** (disagreement) The radius at `x` is asked for, but photons that are past this plane already do not count with the cone they are part of: a single one makes all radii NaN, and if the photon list has been on another detector before, the position there is used instead. -/
theorem C136_past_false (photons : List ShellPhoton) (shell : ℤ) (x : ℝ) (p : ShellPhoton) (hp : p ∈ liveShell shell photons) (hd : IsDir p.dir) (hpt : IsPoint p.pos) (hm : ∀ q, Reaches p.pos.xyz p.dir.xyz q → q.x ≠ x) :
    (p.oldDet = none → ∀ q, 0 ≤ q → q ≤ 100 → findRadius photons shell x [q] = .ok [none]) ∧
    (∀ a b, p.oldDet = some (a, b) → photons = [p] → ∀ q, 0 ≤ q → q ≤ 100 → findRadius photons shell x [q] = .ok [some (Real.sqrt (a ^ 2 + b ^ 2))]) := by
  have hmiss := shell_miss hd hpt hm
  constructor
  · intro ho q h0 h1
    unfold findRadius
    simp only [liveShell_eq]
    have e1 : ¬ (q < 0 ∨ 100 < q) := by push Not; exact ⟨h0, h1⟩
    have e3 : (none : Option ℝ) ∈ (liveShell shell photons).map fun p => (shellDetXY x p).map fun d => Real.sqrt (d.1 ^ 2 + d.2 ^ 2) := by
      rw [List.mem_map]
      exact ⟨p, hp, by rw [hmiss, ho]; rfl⟩
    have e2 := List.ne_nil_of_mem e3
    rw [List.mapM_cons]
    unfold npPercentile
    simp only [e1, e2, e3, if_false, if_true]
    rfl
  · intro a b ho hl q h0 h1
    subst hl
    unfold findRadius
    simp only [liveShell_eq]
    have hlive : liveShell shell [p] = [p] := by
      unfold liveShell at hp ⊢
      have := (List.mem_filter.1 hp).2
      rw [List.filter_singleton]
      simp only [this, cond_true]
    rw [hlive]
    have e : ([p].map fun p => (shellDetXY x p).map fun d => Real.sqrt (d.1 ^ 2 + d.2 ^ 2)) = [Real.sqrt (a ^ 2 + b ^ 2)].map some := by
      simp [hmiss, ho]
    rw [e, mapM_pct _ (by simp) _ (by simpa using ⟨h0, h1⟩)]
    have : sortReal [Real.sqrt (a ^ 2 + b ^ 2)] = [Real.sqrt (a ^ 2 + b ^ 2)] := sortReal_unique _ _ (List.Perm.refl _) (by simp)
    rw [this]
    simp [pctOf]

/-! ## Example -/

/-- two photons of shell 1 that fly towards the focal point at 0, one of shell 2 that does not, and an absorbed one (example) -/
noncomputable def exShell : List ShellPhoton :=
  [⟨⟨-10, -1, 0, 0⟩, ⟨1000, 100, 0, 1⟩, some 1, 1, none⟩, ⟨⟨-10, 0, 2, 0⟩, ⟨1000, 0, -200, 1⟩, some (1 / 2), 1, none⟩,
    ⟨⟨0, 1, 0, 0⟩, ⟨1000, 0, 0, 1⟩, some 1, 2, none⟩, ⟨⟨1, 0, 0, 0⟩, ⟨1000, 0, 0, 1⟩, some 0, 1, none⟩]

example : liveShell 1 exShell ≠ [] ∧ (∀ p ∈ liveShell 1 exShell, IsDir p.dir ∧ IsPoint p.pos ∧ p.dir.x ≠ 0 ∧ (∃ t : ℝ, p.pos.xyz + t • p.dir.xyz = 0) ∧
    ∃ q, Reaches p.pos.xyz p.dir.xyz q ∧ q.x = 500 ∧ |q.y| ≤ 100000000 ∧ |q.z| ≤ 100000000) := by
  have e : liveShell 1 exShell = [⟨⟨-10, -1, 0, 0⟩, ⟨1000, 100, 0, 1⟩, some 1, 1, none⟩, ⟨⟨-10, 0, 2, 0⟩, ⟨1000, 0, -200, 1⟩, some (1 / 2), 1, none⟩] := by
    simp [liveShell, exShell]
  rw [e]
  refine ⟨by simp, ?_⟩
  intro p hp
  simp only [List.mem_cons, List.not_mem_nil, or_false] at hp
  rcases hp with rfl | rfl
  · refine ⟨rfl, rfl, by norm_num, ⟨100, by ext <;> simp [H4.xyz] <;> norm_num⟩, ⟨500, 50, 0⟩, ⟨50, by norm_num, by ext <;> simp [H4.xyz] <;> norm_num⟩, rfl, by norm_num, by norm_num⟩
  · refine ⟨rfl, rfl, by norm_num, ⟨100, by ext <;> simp [H4.xyz] <;> norm_num⟩, ⟨500, 0, -100⟩, ⟨50, by norm_num, by ext <;> simp [H4.xyz] <;> norm_num⟩, rfl, by norm_num, by norm_num⟩

end Marxs
