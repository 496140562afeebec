import Mathlib.Analysis.Real.Pi.Bounds
import Mathlib.Tactic.Ring
import Mathlib.Tactic.FieldSimp
import Mathlib.Tactic.Linarith
import Mathlib.Tactic.Positivity
import Mathlib.Tactic.NormNum
import Verif.Model.Rowland
import Verif.Props.MathUtils

/-!
# Properties C50, C51, C77: how elements are distributed over an area
-/

namespace Marxs

/-! ## C50 -/

theorem nat_ceil_int {x : ℝ} (hx : 0 ≤ x) : ((⌈x⌉₊ : ℕ) : ℤ) = ⌈x⌉ :=
  Int.natCast_ceil_eq_ceil hx

/-- `np.arange` with a known number of steps. -/
theorem npArange_eq {start stop step : ℝ} {n : ℕ} (h1 : (n : ℝ) - 1 < (stop - start) / step)
    (h2 : (stop - start) / step ≤ n) :
    npArange start stop step = (List.range n).map fun i : ℕ => start + i * step := by
  unfold npArange
  suffices h : ⌈(stop - start) / step⌉₊ = n by rw [h]
  rcases Nat.eq_zero_or_pos n with rfl | hn
  · rw [Nat.ceil_eq_zero]
    simpa using h2
  · rw [Nat.ceil_eq_iff hn.ne']
    refine ⟨?_, h2⟩
    rw [Nat.cast_sub hn]
    simpa using h1

/-- The number of elements and all positions. -/
theorem gridPos_eq {lo hi d : ℝ} (hd : 0 < d) (h : lo < hi) :
    gridPos lo hi d = (List.range ⌈(hi - lo) / d⌉₊).map fun i : ℕ =>
      (lo + hi) / 2 + (i - ((⌈(hi - lo) / d⌉₊ : ℝ) - 1) / 2) * d := by
  have hL : 0 < (hi - lo) / d := div_pos (by linarith) hd
  have h1 := Nat.le_ceil ((hi - lo) / d)
  have h2 := Nat.ceil_lt_add_one hL.le
  have hn : 0 < ⌈(hi - lo) / d⌉₊ := Nat.ceil_pos.2 hL
  have hz : max 1 ⌈(hi - lo) / d⌉ = ((⌈(hi - lo) / d⌉₊ : ℕ) : ℤ) := by
    rw [nat_ceil_int hL.le]
    apply max_eq_right
    exact Int.one_le_ceil_iff.2 hL
  set n := ⌈(hi - lo) / d⌉₊ with hnd
  unfold gridPos
  simp only
  rw [hz]
  have e : (hi - 1 / 2 * (lo - ((n : ℤ) : ℝ) * d + hi + d)) / d = ((hi - lo) / d + n - 1) / 2 := by
    push_cast
    field_simp
    ring
  rw [npArange_eq (n := n) (by rw [e]; linarith) (by rw [e]; linarith)]
  apply List.map_congr_left
  intro i _
  push_cast
  ring

/-- **C50** For a range that is not empty: there are exactly as many elements as needed to fill it, and the position of
element `i` is `center + (i - (n - 1) / 2) d`: they are equally spaced by `d` and symmetric about the center. -/
theorem C50_positions_partial (lo hi d : ℝ) (hd : 0 < d) (h : lo < hi) :
    (gridPos lo hi d).length = ⌈(hi - lo) / d⌉₊ ∧ 1 ≤ (gridPos lo hi d).length ∧
    (∀ i (hi' : i < (gridPos lo hi d).length), (gridPos lo hi d)[i] =
      (lo + hi) / 2 + (i - (((gridPos lo hi d).length : ℝ) - 1) / 2) * d) ∧
    (∀ i (hi' : i + 1 < (gridPos lo hi d).length),
      (gridPos lo hi d)[i + 1] - (gridPos lo hi d)[i] = d) ∧
    (∀ i (hi' : i < (gridPos lo hi d).length),
      (gridPos lo hi d)[i] + (gridPos lo hi d)[(gridPos lo hi d).length - 1 - i] = lo + hi) := by
  have hL : 0 < (hi - lo) / d := div_pos (by linarith) hd
  have hn : 0 < ⌈(hi - lo) / d⌉₊ := Nat.ceil_pos.2 hL
  simp only [gridPos_eq hd h, List.length_map, List.length_range, List.getElem_map, List.getElem_range]
  refine ⟨trivial, hn, fun _ _ => trivial, ?_, ?_⟩
  · intro i _
    push_cast
    ring
  · intro i hi'
    rw [Nat.sub_sub, Nat.cast_sub (by omega)]
    push_cast
    ring

/-- **C50** The elements cover the range: every point of the range is inside of an element; the centers of
all elements are in the range, and what the elements cover reaches beyond the range by less than half an element
on each side. -/
theorem C50_covers (lo hi d : ℝ) (hd : 0 < d) (h : lo < hi) :
    (∀ x, lo ≤ x → x ≤ hi → ∃ e ∈ gridPos lo hi d, |x - e| ≤ d / 2) ∧
    (∀ e ∈ gridPos lo hi d, lo < e ∧ e < hi) ∧
    (∀ e ∈ gridPos lo hi d, lo - d / 2 < e - d / 2 ∧ e + d / 2 < hi + d / 2) := by
  have hL : 0 < (hi - lo) / d := div_pos (by linarith) hd
  have h1 := Nat.le_ceil ((hi - lo) / d)
  have h2 := Nat.ceil_lt_add_one hL.le
  have hn : 0 < ⌈(hi - lo) / d⌉₊ := Nat.ceil_pos.2 hL
  rw [div_le_iff₀ hd] at h1
  have h2' : ((⌈(hi - lo) / d⌉₊ : ℝ) - 1) * d < hi - lo := by
    have := (lt_div_iff₀ hd).1 (by linarith : (⌈(hi - lo) / d⌉₊ : ℝ) - 1 < (hi - lo) / d)
    exact this
  have hin : ∀ e ∈ gridPos lo hi d, lo < e ∧ e < hi := by
    intro e he
    rw [gridPos_eq hd h] at he
    obtain ⟨i, hi', rfl⟩ := List.mem_map.1 he
    rw [List.mem_range] at hi'
    set n := ⌈(hi - lo) / d⌉₊
    have hi1 : (i : ℝ) ≤ (n : ℝ) - 1 := by
      have : ((i + 1 : ℕ) : ℝ) ≤ n := by exact_mod_cast hi'
      push_cast at this
      linarith
    have hi0 : (0 : ℝ) ≤ i := Nat.cast_nonneg i
    constructor
    · have : 0 ≤ (i : ℝ) * d := mul_nonneg hi0 hd.le
      nlinarith
    · have : (i : ℝ) * d ≤ ((n : ℝ) - 1) * d := mul_le_mul_of_nonneg_right hi1 hd.le
      nlinarith
  refine ⟨?_, hin, fun e he => ⟨by linarith [(hin e he).1], by linarith [(hin e he).2]⟩⟩
  intro x hx1 hx2
  rw [gridPos_eq hd h]
  set n := ⌈(hi - lo) / d⌉₊ with hnd
  set s := (lo + hi) / 2 - n * d / 2 with hs
  have hxs : 0 ≤ (x - s) / d := div_nonneg (by linarith) hd.le
  have hxn : (x - s) / d ≤ n := by rw [div_le_iff₀ hd]; linarith
  have key : ∀ i : ℕ, i < n → (i : ℝ) ≤ (x - s) / d → (x - s) / d ≤ i + 1 →
      ∃ e ∈ (List.range n).map (fun i : ℕ => (lo + hi) / 2 + ((i : ℝ) - ((n : ℝ) - 1) / 2) * d), |x - e| ≤ d / 2 := by
    intro i hi' ha hb
    refine ⟨_, List.mem_map.2 ⟨i, List.mem_range.2 hi', rfl⟩, ?_⟩
    rw [le_div_iff₀ hd] at ha
    rw [div_le_iff₀ hd] at hb
    rw [abs_le]
    constructor <;> linarith
  rcases lt_or_ge ⌊(x - s) / d⌋₊ n with hlt | hge
  · exact key _ hlt (Nat.floor_le hxs) (Nat.lt_floor_add_one _).le
  · refine key (n - 1) (by omega) ?_ ?_
    · rw [Nat.cast_sub (by omega)]
      have := (Nat.le_floor_iff hxs).1 hge
      push_cast
      linarith
    · rw [Nat.cast_sub (by omega)]
      push_cast
      linarith

/-- **C50** The elements of a `RectangularGrid`: one for each pair of y and z position; together they cover the whole
rectangle, and two different elements are at least one element size apart in y or in z. -/
theorem C50_grid (y0 y1 z0 z1 dy dz : ℝ) (hdy : 0 < dy) (hdz : 0 < dz) (hy : y0 < y1) (hz : z0 < z1) :
    (∀ p, p ∈ rectangularGrid y0 y1 z0 z1 dy dz ↔ p.1 ∈ gridPos y0 y1 dy ∧ p.2 ∈ gridPos z0 z1 dz) ∧
    (rectangularGrid y0 y1 z0 z1 dy dz).length = ⌈(y1 - y0) / dy⌉₊ * ⌈(z1 - z0) / dz⌉₊ ∧
    (∀ y z, y0 ≤ y → y ≤ y1 → z0 ≤ z → z ≤ z1 →
      ∃ p ∈ rectangularGrid y0 y1 z0 z1 dy dz, |y - p.1| ≤ dy / 2 ∧ |z - p.2| ≤ dz / 2) ∧
    (rectangularGrid y0 y1 z0 z1 dy dz).Pairwise (fun p q => dy ≤ |p.1 - q.1| ∨ dz ≤ |p.2 - q.2|) := by
  have hmem : ∀ p, p ∈ rectangularGrid y0 y1 z0 z1 dy dz ↔
      p.1 ∈ gridPos y0 y1 dy ∧ p.2 ∈ gridPos z0 z1 dz := by
    rintro ⟨a, b⟩
    simp only [rectangularGrid, List.mem_flatMap, List.mem_map, Prod.mk.injEq]
    constructor
    · rintro ⟨z, hz, y, hy, rfl, rfl⟩
      exact ⟨hy, hz⟩
    · rintro ⟨h1, h2⟩
      exact ⟨b, h2, a, h1, rfl, rfl⟩
  have apart : ∀ lo hi d : ℝ, 0 < d → lo < hi → (gridPos lo hi d).Pairwise (fun a b => d ≤ |a - b|) := by
    intro lo hi d hd h
    rw [gridPos_eq hd h, List.pairwise_map]
    refine List.Pairwise.imp_of_mem ?_ List.pairwise_lt_range
    intro i j _ _ hij
    have hij' : (i : ℝ) + 1 ≤ j := by exact_mod_cast hij
    rw [abs_sub_comm]
    refine le_trans ?_ (le_abs_self _)
    nlinarith
  refine ⟨hmem, ?_, ?_, ?_⟩
  · have l1 := (C50_positions_partial y0 y1 dy hdy hy).1
    have l2 := (C50_positions_partial z0 z1 dz hdz hz).1
    simp only [rectangularGrid, List.length_flatMap, List.length_map]
    rw [List.map_const', List.sum_replicate, l1, l2]
    simp [mul_comm]
  · intro y z h1 h2 h3 h4
    obtain ⟨a, ha, hya⟩ := (C50_covers y0 y1 dy hdy hy).1 y h1 h2
    obtain ⟨b, hb, hzb⟩ := (C50_covers z0 z1 dz hdz hz).1 z h3 h4
    exact ⟨(a, b), (hmem _).2 ⟨ha, hb⟩, hya, hzb⟩
  · simp only [rectangularGrid]
    rw [List.pairwise_flatMap]
    constructor
    · intro z _
      rw [List.pairwise_map]
      exact (apart y0 y1 dy hdy hy).imp fun h => Or.inl h
    · refine (apart z0 z1 dz hdz hz).imp ?_
      intro a b hab p hp q hq
      obtain ⟨_, _, rfl⟩ := List.mem_map.1 hp
      obtain ⟨_, _, rfl⟩ := List.mem_map.1 hq
      exact Or.inr hab

/-- **C50** With the default range for z there is one element, centered on 0. -/
theorem C50_default_z (d : ℝ) (hd : 2 * 1e-10 ≤ d) : gridPos (-1e-10) 1e-10 d = [0] := by
  have hd0 : 0 < d := lt_of_lt_of_le (by norm_num) hd
  have h1 : ⌈((1e-10 : ℝ) - -1e-10) / d⌉₊ = 1 := by
    rw [Nat.ceil_eq_iff one_ne_zero]
    constructor
    · simp only [Nat.sub_self, Nat.cast_zero]
      exact div_pos (by norm_num) hd0
    · rw [div_le_iff₀ hd0]
      norm_num at hd ⊢
      linarith
  rw [gridPos_eq hd0 (by norm_num), h1]
  simp

/-- **C50** False if the limits are equal: although the code asks for at least one element, there is none. -/
theorem C50_empty_range_false (x d : ℝ) (hd : 0 < d) : gridPos x x d = [] := by
  unfold gridPos
  simp only [sub_self, zero_div, Int.ceil_zero]
  have e : max (1 : ℤ) 0 = 1 := rfl
  rw [e]
  have e2 : 1 / 2 * (x - ((1 : ℤ) : ℝ) * d + x + d) = x := by push_cast; ring
  rw [e2, npArange_eq (n := 0) (by simp) (by simp)]
  rfl

/-- In numbers: from 0 to 10 with elements of size 4. -/
example : gridPos 0 10 4 = [1, 5, 9] := by
  have h : ⌈((10 : ℝ) - 0) / 4⌉₊ = 3 := by
    rw [Nat.ceil_eq_iff (by norm_num)]
    norm_num
  rw [gridPos_eq (by norm_num) (by norm_num), h]
  simp [List.range_succ]
  norm_num

/-! ## C51 -/

/-- The radii of one bracket. -/
theorem radiusBracket_eq {d r0 r1 : ℝ} (hd : 0 < d) (h : r0 < r1) :
    radiusBracket d r0 r1 = (List.range ⌈(r1 - r0) / d⌉₊).map fun i : ℕ =>
      (r0 + r1) / 2 + (i - ((⌈(r1 - r0) / d⌉₊ : ℝ) - 1) / 2) * d := by
  have hL : 0 < (r1 - r0) / d := div_pos (by linarith) hd
  unfold radiusBracket maxElementsOnRadius
  rw [← nat_ceil_int hL.le]
  simp only [Int.cast_natCast]
  rw [npArange_eq (n := ⌈(r1 - r0) / d⌉₊) (by simp; linarith) (by simp; linarith), List.map_map]
  apply List.map_congr_left
  intro i _
  simp only [Function.comp]
  ring

/-- **C51** Radii: within each bracket elements are at exactly the same positions as in a `RectangularGrid`, that is, equally
spaced, symmetric, and covering the whole bracket (`C50_positions_partial`, `C50_covers`); brackets follow
each other. -/
theorem C51_radius (d r0 r1 : ℝ) (hd : 0 < d) (h : r0 < r1) (rest : List ℝ) :
    distributeOnRadius d (r0 :: r1 :: rest) = gridPos r0 r1 d ++ distributeOnRadius d rest ∧
    (gridPos r0 r1 d).length = maxElementsOnRadius d r0 r1 := by
  have hL : 0 < (r1 - r0) / d := div_pos (by linarith) hd
  constructor
  · rw [distributeOnRadius, radiusBracket_eq hd h, gridPos_eq hd h]
  · rw [(C50_positions_partial r0 r1 d hd h).1, nat_ceil_int hL.le]
    rfl

/-- The number of elements fits on the arc at the inner edge of the elements. -/
theorem C51_number (dz phi0 phi1 radius : ℝ) (hdz : 0 < dz) (hr : 0 ≤ radius) :
    0 ≤ maxElementsOnArc dz phi0 phi1 radius ∧
    maxElementsOnArc dz phi0 phi1 radius * dz ≤ radius * anglediff phi0 phi1 ∧
    radius * anglediff phi0 phi1 < (maxElementsOnArc dz phi0 phi1 radius + 1) * dz := by
  have hA := (C13_anglediff phi0 phi1).1
  unfold maxElementsOnArc
  refine ⟨Int.floor_nonneg.2 (div_nonneg (mul_nonneg hr hA) hdz.le), ?_, ?_⟩
  · rw [← le_div_iff₀ hdz]
    exact Int.floor_le _
  · rw [← div_lt_iff₀ hdz]
    exact Int.lt_floor_add_one _

theorem sameAngle_pymod (x : ℝ) : SameAngle (pymod x (2 * Real.pi)) x :=
  ⟨-⌊x / (2 * Real.pi)⌋, by simp only [pymod]; push_cast; ring⟩

/-- **C51** Elements on an arc: there are as many as fit on the inner edge; they are spaced equally, the first is
as far from the start of the arc as the last is from the end, and no element reaches beyond the arc: each center
is at least half an element (angle `dz / radius / 2`) away from the ends of the arc. -/
theorem C51_arc (dy dz phi0 phi1 radius : ℝ) (hdy : 0 ≤ dy) (hdz : 0 < dz) (hr : dy / 2 < radius) :
    ∃ (l : List ℝ) (s c0 : ℝ), distributeOnArc dy dz (.range phi0 phi1) radius = .ok l ∧
      (l.length : ℤ) = maxElementsOnArc dz phi0 phi1 (radius - dy / 2) ∧
      (∀ i (hi : i < l.length), 0 ≤ l[i] ∧ l[i] < 2 * Real.pi ∧ SameAngle l[i] (phi0 + (c0 + i * s)) ∧
        dz / radius / 2 ≤ c0 + i * s ∧ c0 + i * s ≤ anglediff phi0 phi1 - dz / radius / 2) ∧
      c0 = anglediff phi0 phi1 - (c0 + ((l.length : ℝ) - 1) * s) ∧
      (l.length : ℝ) / (l.length + 1) * (dz / radius) < s ∧
      s = (anglediff phi0 phi1 + dz / (2 * Real.pi * radius)) / (l.length + 1) := by
  have hr0 : 0 < radius := by linarith
  obtain ⟨n0, n1, n2⟩ := C51_number dz phi0 phi1 (radius - dy / 2) hdz (by linarith)
  have hA := (C13_anglediff phi0 phi1).1
  set A := anglediff phi0 phi1 with hAd
  obtain ⟨n, hn⟩ := Int.eq_ofNat_of_zero_le n0
  rw [hn] at n1
  simp only [Int.ofNat_eq_natCast, Int.cast_natCast] at n1 hn
  have hnA : n * (dz / radius) ≤ A := by
    rw [← mul_div_assoc, div_le_iff₀ hr0]
    nlinarith
  have hw : 0 < dz / radius := div_pos hdz hr0
  have hpi := Real.pi_gt_three
  have hea : dz / (2 * Real.pi * radius) = dz / radius / (2 * Real.pi) := by field_simp
  have hea0 : 0 < dz / radius / (2 * Real.pi) := by positivity
  have hea1 : dz / radius / (2 * Real.pi) ≤ dz / radius := div_le_self hw.le (by linarith)
  set w := dz / radius with hwd
  set ea := w / (2 * Real.pi) with head
  have hnp : (0 : ℝ) < (n : ℝ) + 1 := by positivity
  have hs : (A - n * ea) / (n + 1) + ea = (A + ea) / (n + 1) := by field_simp; ring
  set s := (A + ea) / (n + 1) with hsd
  have hs' : s * (n + 1) = A + ea := by rw [hsd]; field_simp
  refine ⟨(List.range n).map fun i : ℕ => pymod (phi0 + (s - ea / 2 + i * s)) (2 * Real.pi), s, s - ea / 2, ?_, ?_, ?_,
    ?_, ?_, ?_⟩
  · unfold distributeOnArc
    simp only [← hAd, hn, hea, Int.cast_natCast, Int.toNat_natCast]
    congr 1
    apply List.map_congr_left
    intro i _
    congr 2
    rw [hs]
    linarith
  · simp [hn]
  · intro i hi
    simp only [List.length_map, List.length_range] at hi
    simp only [List.getElem_map, List.getElem_range]
    have hi' : (i : ℝ) + 1 ≤ n := by exact_mod_cast hi
    have hi0 : (0 : ℝ) ≤ i := Nat.cast_nonneg i
    have hn1 : (1 : ℝ) ≤ n := by linarith
    have hs0 : 0 ≤ s := div_nonneg (by linarith) hnp.le
    have hmain : w / 2 ≤ s - ea / 2 := by
      have : (w / 2 + ea / 2) * (n + 1) ≤ s * (n + 1) := by
        rw [hs']
        nlinarith
      have := le_of_mul_le_mul_right this hnp
      linarith
    refine ⟨pymod_nonneg (by positivity) _, pymod_lt (by positivity) _, sameAngle_pymod _, ?_, ?_⟩
    · have := mul_nonneg hi0 hs0
      linarith
    · have : (i : ℝ) * s ≤ (n - 1) * s := mul_le_mul_of_nonneg_right (by linarith) hs0
      nlinarith
  · simp only [List.length_map, List.length_range]
    linarith
  · simp only [List.length_map, List.length_range]
    rw [div_mul_eq_mul_div, div_lt_iff₀ hnp, hs']
    linarith
  · simp only [List.length_map, List.length_range]
    rw [hsd, hea]

/-- **C51** (partial: holds only if there is room.) Elements on an arc do not overlap, i.e. their spacing on the circle through their
centers is at least their size, if and only if `n + 1` elements (up to `1 / (2 pi)` of an element) fit on the arc. -/
theorem C51_no_overlap_partial (dy dz phi0 phi1 radius : ℝ) (hdy : 0 ≤ dy) (hdz : 0 < dz) (hr : dy / 2 < radius) :
    ∃ (l : List ℝ) (s c0 : ℝ), distributeOnArc dy dz (.range phi0 phi1) radius = .ok l ∧
      (∀ i (hi : i < l.length), SameAngle l[i] (phi0 + (c0 + i * s))) ∧
      (dz ≤ radius * s ↔
        ((l.length : ℝ) + 1) * dz ≤ radius * anglediff phi0 phi1 + dz / (2 * Real.pi)) := by
  obtain ⟨l, s, c0, h1, _, h3, _, _, h6⟩ := C51_arc dy dz phi0 phi1 radius hdy hdz hr
  refine ⟨l, s, c0, h1, fun i hi => (h3 i hi).2.2.1, ?_⟩
  have hr0 : 0 < radius := by linarith
  have hpi := Real.pi_pos
  have hnp : (0 : ℝ) < (l.length : ℝ) + 1 := by positivity
  have e : radius * s = (radius * anglediff phi0 phi1 + dz / (2 * Real.pi)) / (l.length + 1) := by
    rw [h6]; field_simp
  rw [e, le_div_iff₀ hnp, mul_comm]

/-- **C51** False in general: neighbouring elements can overlap.  On an arc of 1 rad with radius 1, two elements of size 0.4 are
placed at angles that differ by less than 0.4, although without overlap they would fit. -/
theorem C51_overlap_false : ∃ a b : ℝ,
    distributeOnArc 0.1 0.4 (.range 0 1) 1 = .ok [a, b] ∧ 0 < b - a ∧ (b - a) * 1 < 0.4 := by
  have hpi := Real.pi_gt_three
  have hA : anglediff 0 1 = 1 := by
    unfold anglediff
    rw [if_neg]
    · ring
    · push Not
      constructor <;> linarith
  have hn : maxElementsOnArc 0.4 0 1 (1 - 0.1 / 2) = 2 := by
    unfold maxElementsOnArc
    rw [hA, Int.floor_eq_iff]
    norm_num
  have hea : (0.4 : ℝ) / (2 * Real.pi * 1) < 1 / 15 := by
    rw [div_lt_div_iff₀ (by positivity) (by norm_num)]
    linarith
  have hea0 : 0 < (0.4 : ℝ) / (2 * Real.pi * 1) := by positivity
  unfold distributeOnArc
  simp only [hn, hA]
  set ea := (0.4 : ℝ) / (2 * Real.pi * 1)
  have e : ((2 : ℤ).toNat) = 2 := rfl
  rw [e]
  simp only [List.range_succ, List.range_zero, List.nil_append, List.map_append, List.map_cons, List.map_nil,
    List.cons_append]
  refine ⟨_, _, rfl, ?_⟩
  rw [pymod_eq_self (by positivity), pymod_eq_self (by positivity)]
  · constructor
    · push_cast; linarith
    · push_cast; norm_num; linarith
  all_goals push_cast; linarith

/-- **C51** An arc that is too short stays empty. -/
theorem C51_short_arc (dy dz phi0 phi1 radius : ℝ) (hdz : 0 < dz) (hr : dy / 2 ≤ radius)
    (h : (radius - dy / 2) * anglediff phi0 phi1 < dz) :
    distributeOnArc dy dz (.range phi0 phi1) radius = .ok [] := by
  have hn : maxElementsOnArc dz phi0 phi1 (radius - dy / 2) = 0 := by
    unfold maxElementsOnArc
    rw [Int.floor_eq_iff]
    constructor
    · push_cast
      exact div_nonneg (mul_nonneg (by linarith) (C13_anglediff phi0 phi1).1) hdz.le
    · push_cast
      rw [zero_add, div_lt_one hdz]
      exact h
  unfold distributeOnArc
  simp [hn]

/-- **C51** The parameter `phi` as documented: a single number fails for every radius (in a list it gives one
element per radius); and `phi = 0` is on the positive z axis, not on the positive y axis. -/
theorem C51_phi_doc_false (dy dz x : ℝ) (r0 r1 : ℝ) (hdy : 0 < dy) (h : r0 < r1) :
    gasElemposyz dy dz (.number x) [r0, r1] = .error .typeError ∧
    gasElemposyz dy dz (.single 0) [r0, r1] = .ok ((gridPos r0 r1 dy).map fun r => (0, r)) := by
  have hlen := (C50_positions_partial r0 r1 dy hdy h).2.1
  have hd : distributeOnRadius dy [r0, r1] = gridPos r0 r1 dy := by
    rw [(C51_radius dy r0 r1 hdy h []).1]
    simp [distributeOnRadius]
  unfold gasElemposyz
  rw [hd]
  constructor
  · cases hg : gridPos r0 r1 dy with
    | nil => rw [hg] at hlen; simp at hlen
    | cons a l =>
      simp [gasRing, distributeOnArc, List.mapM_cons, bind, Except.bind]
  · have : ∀ l : List ℝ, l.mapM (gasRing dy dz (.single 0)) = .ok (l.map fun r => [((0 : ℝ), r)]) := by
      intro l
      induction l with
      | nil => rfl
      | cons a l ih =>
        rw [List.mapM_cons, ih]
        simp [gasRing, distributeOnArc, bind, Except.bind, pure, Except.pure]
    rw [this]
    simp only
    congr 1
    generalize gridPos r0 r1 dy = l
    induction l with
    | nil => rfl
    | cons a l ih => simp [ih]

/-- All elements on a ring are at the radius of the ring. -/
theorem C51_on_circle (r a : ℝ) : (r * Real.sin a) ^ 2 + (r * Real.cos a) ^ 2 = r ^ 2 := by
  have := Real.sin_sq_add_cos_sq a
  nlinarith

/-! ## C77 -/

/-- The columns of a `CircularMeshGrid`. -/
theorem circularColumns_eq {r1 dy : ℝ} (hd : 0 < dy) (h : 0 < r1) :
    circularColumns r1 dy = (List.range ⌈2 * r1 / dy⌉₊).map fun i : ℕ =>
      -(⌈2 * r1 / dy⌉₊ * dy) / 2 + i * dy := by
  have hL : 0 < 2 * r1 / dy := div_pos (by linarith) hd
  have h1 := Nat.le_ceil (2 * r1 / dy)
  have h2 := Nat.ceil_lt_add_one hL.le
  unfold circularColumns
  rw [← nat_ceil_int hL.le]
  simp only [Int.cast_natCast]
  set n := ⌈2 * r1 / dy⌉₊
  have e : (r1 - -((n : ℝ) * dy) / 2) / dy = (2 * r1 / dy + n) / 2 := by field_simp; ring
  rw [npArange_eq (n := n) (by rw [e]; linarith) (by rw [e]; linarith)]

/-- **C77** (partial) The columns of a `CircularMeshGrid` are spaced by one element, so elements in different columns do not
overlap, and there are enough columns to cover the diameter. -/
theorem C77_columns_partial (r0 r1 dy dz : ℝ) (hdy : 0 < dy) (h : 0 < r1) :
    (∀ p ∈ circularGrid r0 r1 dy dz, p.1 ∈ circularColumns r1 dy) ∧
    (circularColumns r1 dy).Pairwise (fun a b => dy ≤ |a - b|) ∧
    2 * r1 ≤ (circularColumns r1 dy).length * dy ∧
    ((circularColumns r1 dy).length : ℝ) * dy < 2 * r1 + dy := by
  have hL : 0 < 2 * r1 / dy := div_pos (by linarith) hdy
  have h1 := Nat.le_ceil (2 * r1 / dy)
  have h2 := Nat.ceil_lt_add_one hL.le
  refine ⟨?_, ?_, ?_, ?_⟩
  · intro p hp
    simp only [circularGrid, List.mem_flatMap, List.mem_map] at hp
    obtain ⟨y, hy, z, _, rfl⟩ := hp
    exact hy
  · rw [circularColumns_eq hdy h, List.pairwise_map]
    refine List.Pairwise.imp_of_mem ?_ List.pairwise_lt_range
    intro i j _ _ hij
    have hij' : (i : ℝ) + 1 ≤ j := by exact_mod_cast hij
    rw [abs_sub_comm]
    refine le_trans ?_ (le_abs_self _)
    nlinarith
  · rw [circularColumns_eq hdy h, List.length_map, List.length_range]
    rwa [div_le_iff₀ hdy] at h1
  · rw [circularColumns_eq hdy h, List.length_map, List.length_range]
    have := (lt_div_iff₀ hdy).1 (by linarith : (⌈2 * r1 / dy⌉₊ : ℝ) - 1 < 2 * r1 / dy)
    linarith

/-- **C77** False: the elements do not fill the ring. For all radii and element sizes the outermost point of the
ring on the positive y axis is not inside of any element. -/
theorem C77_uncovered_false (r0 r1 dy dz : ℝ) (hdy : 0 < dy) (h : 0 < r1) :
    ∀ p ∈ circularGrid r0 r1 dy dz, p.1 + dy / 2 < r1 := by
  intro p hp
  have hL : 0 < 2 * r1 / dy := div_pos (by linarith) hdy
  have h2 := Nat.ceil_lt_add_one hL.le
  have hy := (C77_columns_partial r0 r1 dy dz hdy h).1 p hp
  rw [circularColumns_eq hdy h] at hy
  obtain ⟨i, hi, e⟩ := List.mem_map.1 hy
  rw [List.mem_range] at hi
  rw [← e]
  set n := ⌈2 * r1 / dy⌉₊
  have hi' : (i : ℝ) + 1 ≤ n := by exact_mod_cast hi
  have h3 := (lt_div_iff₀ hdy).1 (by linarith : (n : ℝ) - 1 < 2 * r1 / dy)
  have h4 : (i : ℝ) * dy ≤ (n - 1) * dy := mul_le_mul_of_nonneg_right (by linarith) hdy.le
  linarith

/-- **C77** False: elements can even be placed on top of each other. Filling a circle of radius 1 with elements of size 1
gives two elements at the same position. -/
theorem C77_overlap_false : circularGrid 0 1 1 1 = [(0, 0), (0, 0)] := by
  have hc : circularColumns 1 1 = [-1, 0] := by
    have : ⌈(2 : ℝ) * 1 / 1⌉₊ = 2 := by
      rw [Nat.ceil_eq_iff (by norm_num)]; norm_num
    rw [circularColumns_eq (by norm_num) (by norm_num), this]
    simp [List.range_succ]
  have h1 : circularColumn 0 1 1 (-1) = [] := by
    unfold circularColumn
    rw [if_neg (by norm_num)]
    simp only
    rw [if_pos (by norm_num)]
    have : Real.sqrt ((1 : ℝ) ^ 2 - (-1) ^ 2) = 0 := by norm_num
    rw [this]
    rw [npArange_eq (n := 0) (by norm_num) (by norm_num)]
    rfl
  have h2 : circularColumn 0 1 1 0 = [0, 0] := by
    unfold circularColumn
    rw [if_neg (by norm_num)]
    simp only
    rw [if_neg (by norm_num)]
    have e1 : Real.sqrt ((1 : ℝ) ^ 2 - 0 ^ 2) = 1 := by norm_num
    have e2 : Real.sqrt ((0 : ℝ) ^ 2 - 0 ^ 2) = 0 := by norm_num
    rw [e1, e2]
    have e3 : ⌈((1 : ℝ) - 0) / 1⌉ = 1 := by norm_num
    rw [e3]
    rw [npArange_eq (n := 1) (by norm_num) (by norm_num)]
    simp [List.range_succ]
  unfold circularGrid
  rw [hc]
  simp [h1, h2]

end Marxs
