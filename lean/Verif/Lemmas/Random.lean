import Mathlib.Algebra.BigOperators.Group.List.Basic
import Mathlib.Algebra.Order.BigOperators.Group.List
import Mathlib.Tactic.Linarith
import Mathlib.Tactic.Ring
import Verif.Model.Random

/-! Lemmas about cumulative sums. -/

namespace Marxs

theorem cumsumFrom_length (s : ℝ) (l : List ℝ) : (cumsumFrom s l).length = l.length := by
  induction l generalizing s with
  | nil => rfl
  | cons w l ih => simp [cumsumFrom, ih]

theorem cumsum_length (l : List ℝ) : (cumsum l).length = l.length := cumsumFrom_length 0 l

theorem cumsumFrom_get (s : ℝ) (l : List ℝ) (i : ℕ) (h : i < l.length) :
    (cumsumFrom s l)[i]? = some (s + (l.take (i + 1)).sum) := by
  induction l generalizing s i with
  | nil => simp at h
  | cons w l ih =>
    cases i with
    | zero => simp [cumsumFrom]
    | succ i =>
      simp only [cumsumFrom, List.getElem?_cons_succ, List.take_succ_cons, List.sum_cons]
      rw [ih (s + w) i (by simpa using h)]
      congr 1; ring

theorem cumsum_get (l : List ℝ) (i : ℕ) (h : i < l.length) :
    (cumsum l)[i]? = some (l.take (i + 1)).sum := by
  rw [cumsum, cumsumFrom_get 0 l i h, zero_add]

theorem take_sum_mono {l : List ℝ} (h : ∀ w ∈ l, 0 ≤ w) {i j : ℕ} (hij : i ≤ j) :
    (l.take i).sum ≤ (l.take j).sum := by
  induction l generalizing i j with
  | nil => simp
  | cons w l ih =>
    cases i with
    | zero =>
      simp only [List.take_zero, List.sum_nil]
      apply List.sum_nonneg
      intro x hx; exact h x (List.mem_of_mem_take hx)
    | succ i =>
      cases j with
      | zero => omega
      | succ j =>
        simp only [List.take_succ_cons, List.sum_cons]
        have := ih (fun w hw => h w (List.mem_cons_of_mem _ hw)) (Nat.le_of_succ_le_succ hij)
        linarith

theorem take_sum_nonneg {l : List ℝ} (h : ∀ w ∈ l, 0 ≤ w) (i : ℕ) : 0 ≤ (l.take i).sum :=
  List.sum_nonneg fun x hx => h x (List.mem_of_mem_take hx)

theorem take_succ_sum (l : List ℝ) (i : ℕ) (h : i < l.length) :
    (l.take (i + 1)).sum = (l.take i).sum + l[i] := by
  rw [List.sum_take_succ l i h]

/-- the index found in a list is characterised by the values before and at it -/
theorem findIdx_eq_iff {α : Type} (p : α → Bool) (l : List α) (k : ℕ) (h : k < l.length) :
    l.findIdx p = k ↔ p l[k] = true ∧ ∀ j (hj : j < k), p (l[j]'(by omega)) = false := by
  rw [List.findIdx_eq h]

theorem cumsum_getElem (l : List ℝ) (i : ℕ) (h : i < (cumsum l).length) :
    (cumsum l)[i] = (l.take (i + 1)).sum := by
  have h' : i < l.length := by rwa [cumsum_length] at h
  have := cumsum_get l i h'
  rw [List.getElem?_eq_getElem h] at this
  simpa using this

/-- which draws select index `k`, right-continuous search -/
theorem searchRight_iff {l : List ℝ} (hl : ∀ w ∈ l, 0 ≤ w) {x : ℝ} (h0 : 0 ≤ x) {k : ℕ}
    (hk : k < l.length) :
    searchsortedRight (cumsum l) x = k ↔ (l.take k).sum ≤ x ∧ x < (l.take (k + 1)).sum := by
  rw [searchsortedRight, findIdx_eq_iff _ _ _ (by rwa [cumsum_length])]
  simp only [cumsum_getElem, decide_eq_true_eq, decide_eq_false_iff_not, not_lt]
  constructor
  · rintro ⟨h1, h2⟩
    refine ⟨?_, h1⟩
    cases k with
    | zero => simpa using h0
    | succ k => exact h2 k (by omega)
  · rintro ⟨h1, h2⟩
    exact ⟨h2, fun j hj => le_trans (take_sum_mono hl (by omega)) h1⟩

/-- which draws select index `k`, left-continuous search -/
theorem searchLeft_iff {l : List ℝ} (hl : ∀ w ∈ l, 0 ≤ w) {x : ℝ} (h0 : 0 < x) {k : ℕ}
    (hk : k < l.length) :
    searchsortedLeft (cumsum l) x = k ↔ (l.take k).sum < x ∧ x ≤ (l.take (k + 1)).sum := by
  rw [searchsortedLeft, findIdx_eq_iff _ _ _ (by rwa [cumsum_length])]
  simp only [cumsum_getElem, decide_eq_true_eq, decide_eq_false_iff_not, not_le]
  constructor
  · rintro ⟨h1, h2⟩
    refine ⟨?_, h1⟩
    cases k with
    | zero => simpa using h0
    | succ k => exact h2 k (by omega)
  · rintro ⟨h1, h2⟩
    exact ⟨h2, fun j hj => lt_of_le_of_lt (take_sum_mono hl (by omega)) h1⟩

theorem searchRight_lt {l : List ℝ} {x : ℝ} (hx : x < l.sum) (h0 : 0 ≤ x) :
    searchsortedRight (cumsum l) x < l.length := by
  have hne : l ≠ [] := by rintro rfl; simp at hx; linarith
  have hpos : 0 < l.length := List.length_pos_iff.2 hne
  rw [← cumsum_length l, searchsortedRight, List.findIdx_lt_length]
  refine ⟨(cumsum l)[l.length - 1]'(by rw [cumsum_length]; omega), List.getElem_mem _, ?_⟩
  rw [cumsum_getElem, decide_eq_true_eq, show l.length - 1 + 1 = l.length by omega, List.take_length]
  exact hx

theorem searchLeft_lt {l : List ℝ} {x : ℝ} (hx : x ≤ l.sum) (hne : l ≠ []) :
    searchsortedLeft (cumsum l) x < l.length := by
  have hpos : 0 < l.length := List.length_pos_iff.2 hne
  rw [← cumsum_length l, searchsortedLeft, List.findIdx_lt_length]
  refine ⟨(cumsum l)[l.length - 1]'(by rw [cumsum_length]; omega), List.getElem_mem _, ?_⟩
  rw [cumsum_getElem, decide_eq_true_eq, show l.length - 1 + 1 = l.length by omega, List.take_length]
  exact hx

theorem cumsum_getLast {l : List ℝ} (h : l ≠ []) : (cumsum l).getLast? = some l.sum := by
  have hpos : 0 < l.length := List.length_pos_iff.2 h
  rw [List.getLast?_eq_getElem?, cumsum_length, cumsum_get _ _ (by omega),
    show l.length - 1 + 1 = l.length by omega, List.take_length]

/-- searching a normalised cumulative sum -/
theorem searchRight_div {l : List ℝ} {t : ℝ} (ht : 0 < t) (r : ℝ) :
    ((cumsum l).map (· / t)).findIdx (fun c => decide (r < c)) =
      searchsortedRight (cumsum l) (r * t) := by
  rw [List.findIdx_map, searchsortedRight]
  congr 1
  funext c
  simp only [Function.comp, decide_eq_decide]
  exact lt_div_iff₀ ht

/-- draws that select index `k` from a normalised cumulative sum: a half-open interval whose length is
the share of weight `k` -/
theorem interval_of_index {l : List ℝ} (hl : ∀ w ∈ l, 0 ≤ w) (ht : 0 < l.sum) {k : ℕ}
    (hk : k < l.length) :
    ∃ a, {r : ℝ | 0 ≤ r ∧ r < 1 ∧
      ((cumsum l).map (· / l.sum)).findIdx (fun c => decide (r < c)) = k} =
      Set.Ico a (a + l[k] / l.sum) := by
  refine ⟨(l.take k).sum / l.sum, ?_⟩
  ext r
  rw [← add_div, ← take_succ_sum l k hk]
  simp only [Set.mem_setOf_eq, Set.mem_Ico, searchRight_div ht]
  constructor
  · rintro ⟨h0, _, h⟩
    rw [searchRight_iff hl (mul_nonneg h0 ht.le) hk] at h
    rw [div_le_iff₀ ht, lt_div_iff₀ ht]
    exact h
  · rintro ⟨h1, h2⟩
    rw [div_le_iff₀ ht] at h1
    rw [lt_div_iff₀ ht] at h2
    have n0 := take_sum_nonneg hl k
    have h0 : 0 ≤ r := by
      by_contra hn
      push Not at hn
      have := mul_neg_of_neg_of_pos hn ht
      linarith
    have n1 : (l.take (k + 1)).sum ≤ l.sum := by
      conv_rhs => rw [← List.take_length (l := l)]
      exact take_sum_mono hl (by omega)
    refine ⟨h0, ?_, ?_⟩
    · by_contra hn
      push Not at hn
      have : l.sum ≤ r * l.sum := le_mul_of_one_le_left ht.le hn
      linarith
    · rw [searchRight_iff hl (mul_nonneg h0 ht.le) hk]
      exact ⟨h1, h2⟩

theorem index_lt {l : List ℝ} (ht : 0 < l.sum) {r : ℝ} (h0 : 0 ≤ r) (h1 : r < 1) :
    ((cumsum l).map (· / l.sum)).findIdx (fun c => decide (r < c)) < l.length := by
  rw [searchRight_div ht]
  exact searchRight_lt (by nlinarith) (mul_nonneg h0 ht.le)

end Marxs
