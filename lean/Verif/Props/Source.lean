import Mathlib.Analysis.Convex.SpecificFunctions.Deriv
import Mathlib.Analysis.Real.Pi.Bounds
import Mathlib.Tactic.FieldSimp
import Mathlib.Tactic.LinearCombination
import Verif.Lemmas.Random
import Verif.Props.Random
import Verif.Props.Optics
import Verif.Props.Polarization
import Verif.Spec.Source

/-!
# Properties C30-C32, C64, C68, C72: sources
-/

namespace Marxs

/-! ## C30 -/

/-- **C30** Photons are emitted at 0, 1/rate, 2/rate, ...; these are all such times smaller than the
exposure time. -/
theorem C30_times (rate area T : ℝ) (hr : 0 < rate * area) :
    ∃ ts, generateTimes (.scalar rate) area T = .ok ts ∧ ts.length = ⌈T * (rate * area)⌉₊ ∧
      (∀ i (h : i < ts.length), ts[i] = i / (rate * area)) ∧
      (∀ t ∈ ts, 0 ≤ t ∧ t < T) ∧ ∀ k : ℕ, (k : ℝ) / (rate * area) < T ↔ k < ts.length := by
  have e : T / (1 / (rate * area)) = T * (rate * area) := by field_simp
  have hk : ∀ k : ℕ, (k : ℝ) / (rate * area) < T ↔ k < ⌈T * (rate * area)⌉₊ := by
    intro k
    rw [Nat.lt_ceil, div_lt_iff₀ hr]
  refine ⟨_, rfl, ?_, ?_, ?_, ?_⟩
  · rw [arange, e]; simp
  · intro i h
    simp only [arange, List.getElem_map, List.getElem_range]
    rw [mul_one_div]
  · intro t ht
    simp only [arange, e, List.mem_map, List.mem_range] at ht
    obtain ⟨k, hk', rfl⟩ := ht
    rw [← hk] at hk'
    rw [mul_one_div]
    exact ⟨by positivity, hk'⟩
  · intro k
    rw [hk, arange, e]
    simp

/-- **C30** A function as flux is called with exposure time and area; input that is neither is
rejected. -/
theorem C30_other (f : ℝ → ℝ → List ℝ) (area T : ℝ) :
    generateTimes (.callable f) area T = .ok (f T area) ∧
    generateTimes .other area T = .error .sourceError := ⟨rfl, rfl⟩

example : ∃ ts, generateTimes (.scalar 2) 1 2.2 = .ok ts ∧ ts.length = 5 := by
  obtain ⟨ts, h, hl, _⟩ := C30_times 2 1 2.2 (by norm_num)
  refine ⟨ts, h, ?_⟩
  rw [hl, Nat.ceil_eq_iff (by norm_num)]
  norm_num

/-! ## C31 -/

theorem waitSum_eq (s : ℕ → ℝ) (n : ℕ) : waitSum s n = ∑ i ∈ Finset.range n, s i := by
  induction n with
  | zero => simp [waitSum]
  | succ n ih => rw [Finset.sum_range_succ, ← ih]; simp [waitSum, List.range_succ]

theorem arrival_waitSum (s : ℕ → ℝ) (k : ℕ) : arrival s k = waitSum s (k + 1) := by
  rw [waitSum_eq, arrival]

theorem cumsum_waits (s : ℕ → ℝ) (n : ℕ) :
    cumsum ((List.range n).map s) = (List.range n).map (arrival s) := by
  apply List.ext_getElem
  · simp [cumsum_length]
  · intro i h1 h2
    simp only [List.length_map, List.length_range] at h2
    rw [cumsum_getElem, List.getElem_map, List.getElem_range, arrival_waitSum, waitSum,
      ← List.map_take, List.take_range]
    congr 3; omega

theorem arrival_lt {s : ℕ → ℝ} (hs : ∀ i, 0 < s i) {i j : ℕ} (h : i < j) : arrival s i < arrival s j := by
  induction j with
  | zero => omega
  | succ j ih =>
    have e : arrival s (j + 1) = arrival s j + s (j + 1) := by
      simp [arrival, Finset.sum_range_succ]
    rw [e]
    rcases Nat.lt_succ_iff_lt_or_eq.1 h with h' | rfl
    · linarith [ih h', hs (j + 1)]
    · linarith [hs (i + 1)]

theorem arrival_pos {s : ℕ → ℝ} (hs : ∀ i, 0 < s i) (k : ℕ) : 0 < arrival s k := by
  rw [arrival]
  exact Finset.sum_pos (fun i _ => hs i) ⟨0, by simp⟩

theorem poissonLoop_enough (rate T : ℝ) (s : ℕ → ℝ) : ∀ (fuel n m : ℕ),
    poissonLoop rate T s fuel n = some m → T ≤ waitSum s m
  | 0, n, m, h => by
    simp only [poissonLoop] at h
    split at h
    · cases h
    · cases h; exact not_lt.1 ‹_›
  | fuel + 1, n, m, h => by
    simp only [poissonLoop] at h
    split at h
    · exact poissonLoop_enough rate T s fuel _ m h
    · cases h; exact not_lt.1 ‹_›

/-- A list of increasing numbers, cut at `T` -/
theorem filter_prefix {f : ℕ → ℝ} (hf : ∀ i j, i < j → f i < f j) (T : ℝ) (n : ℕ) :
    ∃ m ≤ n, ((List.range n).map f).filter (fun t => decide (t < T)) = (List.range m).map f ∧
      ∀ k < n, k < m ↔ f k < T := by
  induction n with
  | zero => exact ⟨0, le_refl _, rfl, fun k hk => by omega⟩
  | succ n ih =>
    obtain ⟨m, hm, he, hk⟩ := ih
    rw [List.range_succ, List.map_append, List.filter_append, he]
    by_cases h : f n < T
    · have hmn : m = n := by
        by_contra hne
        have := (hk m (by omega)).2 (lt_trans (hf m n (by omega)) h)
        omega
      subst hmn
      refine ⟨m + 1, le_refl _, ?_, ?_⟩
      · simp [h, List.range_succ]
      · intro k hk'
        rcases Nat.lt_succ_iff_lt_or_eq.1 hk' with h' | rfl
        · have := (hk k h').1 h'
          exact ⟨fun _ => this, fun _ => hk'⟩
        · exact ⟨fun _ => h, fun _ => hk'⟩
    · refine ⟨m, by omega, by simp [h], ?_⟩
      intro k hk'
      rcases Nat.lt_succ_iff_lt_or_eq.1 hk' with h' | rfl
      · exact hk k h'
      · exact ⟨fun h' => by omega, fun h' => absurd h' h⟩

/-- **C31** When `poisson_process` returns, the result consists of exactly the arrival times smaller
than the exposure time, in increasing order, whatever the number of rounds. -/
theorem C31_poisson (rate T : ℝ) (s : ℕ → ℝ) (hs : ∀ i, 0 < s i) (fuel : ℕ) (ts : List ℝ)
    (h : poissonTimes rate T s fuel = some ts) :
    ∃ m, ts = (List.range m).map (arrival s) ∧ (∀ k, k < m ↔ arrival s k < T) ∧
      ts.Pairwise (· < ·) ∧ ∀ t ∈ ts, 0 < t ∧ t < T := by
  simp only [poissonTimes] at h
  split at h
  · cases h
  rename_i n hn
  have hT := poissonLoop_enough _ _ _ _ _ _ hn
  simp only [Option.some.injEq] at h
  rw [cumsum_waits] at h
  obtain ⟨m, hm, he, hk⟩ := filter_prefix (fun i j => arrival_lt hs) T n
  rw [he] at h
  subst h
  have hk' : ∀ k, k < m ↔ arrival s k < T := by
    intro k
    by_cases hkn : k < n
    · exact hk k hkn
    · refine ⟨fun h => by omega, fun h => ?_⟩
      have h1 : waitSum s n ≤ arrival s k := by
        cases n with
        | zero => simp only [waitSum, List.range_zero, List.map_nil, List.sum_nil]; exact (arrival_pos hs k).le
        | succ n =>
          rw [← arrival_waitSum]
          exact (arrival_lt hs (by omega)).le
      linarith
  refine ⟨m, rfl, hk', ?_, ?_⟩
  · rw [List.pairwise_map]
    exact List.pairwise_lt_range.imp (fun h => arrival_lt hs h)
  · intro t ht
    obtain ⟨k, hk1, rfl⟩ := List.mem_map.1 ht
    exact ⟨arrival_pos hs k, (hk' k).1 (List.mem_range.1 hk1)⟩

/-- **C31** It returns after the first round if the numbers drawn first (10 % more than expected) cover
the exposure time. -/
theorem C31_first_round (rate T : ℝ) (s : ℕ → ℝ) (fuel : ℕ)
    (h : T ≤ ∑ i ∈ Finset.range ⌊T * rate * 1.1⌋₊, s i) : ∃ ts, poissonTimes rate T s fuel = some ts := by
  rw [← waitSum_eq] at h
  have : poissonLoop rate T s fuel ⌊T * rate * 1.1⌋₊ = some ⌊T * rate * 1.1⌋₊ := by
    cases fuel <;> simp [poissonLoop, not_lt.2 h]
  simp [poissonTimes, this]

theorem poissonLoop_stuck (rate T : ℝ) (s : ℕ → ℝ) (n : ℕ) (h1 : waitSum s n < T)
    (h2 : (T - waitSum s n) * rate * 1.1 < 1) : ∀ fuel, poissonLoop rate T s fuel n = none
  | 0 => by simp [poissonLoop, h1]
  | fuel + 1 => by
    have : ⌊(T - waitSum s n) * rate * 1.1⌋₊ = 0 := Nat.floor_eq_zero.2 h2
    simp only [poissonLoop, h1, if_true, this, Nat.add_zero]
    exact poissonLoop_stuck rate T s n h1 h2 fuel

/-- **C31** Disagreement with the documentation: the loop does not end if the numbers drawn first miss
the exposure time by less than 1 / (1.1 rate), since then all further rounds draw `int(...) = 0`
numbers. That is in particular the case whenever fewer than 1 / 1.1 photons are expected. -/
theorem C31_never_returns (rate T : ℝ) (s : ℕ → ℝ)
    (h : ∑ i ∈ Finset.range ⌊T * rate * 1.1⌋₊, s i < T)
    (hT : (T - ∑ i ∈ Finset.range ⌊T * rate * 1.1⌋₊, s i) * rate * 1.1 < 1) (fuel : ℕ) :
    poissonTimes rate T s fuel = none := by
  rw [← waitSum_eq] at h hT
  simp [poissonTimes, poissonLoop_stuck rate T s _ h hT fuel]

theorem C31_never_returns_short (rate T : ℝ) (s : ℕ → ℝ) (hT : 0 < T) (h : T * rate * 1.1 < 1) (fuel : ℕ) :
    poissonTimes rate T s fuel = none := by
  have : ⌊T * rate * 1.1⌋₊ = 0 := Nat.floor_eq_zero.2 h
  apply C31_never_returns
  · simpa [this] using hT
  · simpa [this] using h

/-- one photon per second, exposure 2 s, waiting times of 1.5 s -/
example : ∃ ts, poissonTimes 1 2 (fun _ => 1.5) 0 = some ts ∧ ts = [1.5] := by
  have e : ⌊(2 : ℝ) * 1 * 1.1⌋₊ = 2 := by rw [Nat.floor_eq_iff (by norm_num)]; norm_num
  obtain ⟨ts, h⟩ := C31_first_round 1 2 (fun _ => 1.5) 0 (by rw [e]; norm_num)
  refine ⟨ts, h, ?_⟩
  obtain ⟨m, rfl, hk, _⟩ := C31_poisson 1 2 _ (fun _ => by norm_num) 0 ts h
  have h0 := (hk 0).2 (by norm_num [arrival])
  have h1 : ¬ 1 < m := fun h => by
    have := (hk 1).1 h
    norm_num [arrival, Finset.sum_range_succ] at this
  have : m = 1 := by omega
  subst this
  norm_num [arrival]

example (fuel : ℕ) : poissonTimes 1 0.5 (fun _ => 1) fuel = none :=
  C31_never_returns_short 1 0.5 _ (by norm_num) (by norm_num) fuel

/-! ## C32 -/

theorem ringArea_eq (a r : ℝ) : ringArea a r = Real.pi * (r ^ 2 - a ^ 2) := by
  rw [ringArea, intervalIntegral.integral_const_mul, integral_id]; ring

theorem sphereRingArea_eq (a r : ℝ) : sphereRingArea a r = 2 * Real.pi * (Real.cos a - Real.cos r) := by
  rw [sphereRingArea, intervalIntegral.integral_const_mul, integral_sin]

/-- **C32** `DiskSource`: every radius is inside the ring, and the draws up to `u` fill the share `u` of
the area of the ring. -/
theorem C32_disk (a b u : ℝ) (ha : 0 ≤ a) (hab : a ≤ b) (h0 : 0 ≤ u) (h1 : u ≤ 1) :
    a ≤ diskRadius a b u ∧ diskRadius a b u ≤ b ∧ ringArea a (diskRadius a b u) = u * ringArea a b ∧
    (∀ ρ, a ≤ ρ → ρ ≤ b → (diskRadius a b u ≤ ρ ↔ u * ringArea a b ≤ ringArea a ρ)) ∧
    ∀ v, u < v → a < b → diskRadius a b u < diskRadius a b v := by
  have hsq : a ^ 2 ≤ b ^ 2 := pow_le_pow_left₀ ha hab 2
  have hn : 0 ≤ a ^ 2 + u * (b ^ 2 - a ^ 2) := by nlinarith [sq_nonneg a]
  have hp := Real.pi_pos
  refine ⟨?_, ?_, ?_, ?_, ?_⟩
  · apply Real.le_sqrt_of_sq_le; nlinarith
  · apply (Real.sqrt_le_left (le_trans ha hab)).2; nlinarith
  · rw [ringArea_eq, ringArea_eq, diskRadius, Real.sq_sqrt hn]; ring
  · intro ρ h2 h3
    rw [diskRadius, Real.sqrt_le_left (le_trans ha h2), ringArea_eq, ringArea_eq]
    constructor
    · intro h; nlinarith
    · intro h
      have : Real.pi * (u * (b ^ 2 - a ^ 2)) ≤ Real.pi * (ρ ^ 2 - a ^ 2) := by linarith
      linarith [le_of_mul_le_mul_left this hp]
  · intro v huv hlt
    apply Real.sqrt_lt_sqrt hn
    have : a ^ 2 < b ^ 2 := by nlinarith
    nlinarith

/-- **C32** `SphericalDiskSource`: the same with the area on the sphere. -/
theorem C32_spherical (a b u : ℝ) (ha : 0 ≤ a) (hab : a ≤ b) (hb : b ≤ Real.pi) (h0 : 0 ≤ u) (h1 : u ≤ 1) :
    a ≤ sphericalRadius a b u ∧ sphericalRadius a b u ≤ b ∧
    sphereRingArea a (sphericalRadius a b u) = u * sphereRingArea a b ∧
    (∀ ρ, a ≤ ρ → ρ ≤ b → (sphericalRadius a b u ≤ ρ ↔ u * sphereRingArea a b ≤ sphereRingArea a ρ)) ∧
    ∀ v, v ≤ 1 → u < v → a < b → sphericalRadius a b u < sphericalRadius a b v := by
  have hc : Real.cos b ≤ Real.cos a := Real.cos_le_cos_of_nonneg_of_le_pi ha hb hab
  have l1 := Real.cos_le_one a
  have l2 := Real.neg_one_le_cos b
  have hp := Real.pi_pos
  have key : ∀ ρ, a ≤ ρ → ρ ≤ b → (sphericalRadius a b u ≤ ρ ↔
      Real.cos ρ ≤ Real.cos a * (1 - u) + u * Real.cos b) := by
    intro ρ h2 h3
    rw [sphericalRadius]
    conv_lhs => rw [← Real.arccos_cos (le_trans ha h2) (le_trans h3 hb)]
    exact Real.strictAntiOn_arccos.le_iff_ge ⟨by nlinarith, by nlinarith⟩
      ⟨Real.neg_one_le_cos ρ, Real.cos_le_one ρ⟩
  refine ⟨?_, ?_, ?_, ?_, ?_⟩
  · conv_lhs => rw [← Real.arccos_cos ha (le_trans hab hb)]
    exact Real.arccos_le_arccos (by nlinarith)
  · rw [key b hab le_rfl]; nlinarith
  · rw [sphereRingArea_eq, sphereRingArea_eq, sphericalRadius, Real.cos_arccos (by nlinarith) (by nlinarith)]
    ring
  · intro ρ h2 h3
    rw [key ρ h2 h3, sphereRingArea_eq, sphereRingArea_eq]
    constructor
    · intro h; nlinarith
    · intro h
      have : 2 * Real.pi * (u * (Real.cos a - Real.cos b)) ≤ 2 * Real.pi * (Real.cos a - Real.cos ρ) := by
        linarith
      linarith [le_of_mul_le_mul_left this (by linarith)]
  · intro v hv huv hlt
    have hc' : Real.cos b < Real.cos a := Real.cos_lt_cos_of_nonneg_of_le_pi ha hb hlt
    exact Real.arccos_lt_arccos (by nlinarith) (by nlinarith) (by nlinarith)

example : (0 : ℝ) ≤ diskRadius 0 2 0.25 ∧ diskRadius 0 2 0.25 = 1 := by
  refine ⟨(C32_disk 0 2 0.25 (by norm_num) (by norm_num) (by norm_num) (by norm_num)).1, ?_⟩
  rw [diskRadius]; norm_num

theorem sin_div_antitone {x y : ℝ} (hx : 0 < x) (hxy : x ≤ y) (hy : y ≤ Real.pi) :
    Real.sin y / y ≤ Real.sin x / x := by
  have hy0 : 0 < y := lt_of_lt_of_le hx hxy
  have hm0 : (0 : ℝ) ∈ Set.Icc 0 Real.pi := ⟨le_refl _, Real.pi_pos.le⟩
  have hmy : y ∈ Set.Icc 0 Real.pi := ⟨hy0.le, hy⟩
  have ha : 0 ≤ 1 - x / y := by rw [sub_nonneg, div_le_one hy0]; exact hxy
  have hb : 0 ≤ x / y := by positivity
  have h := strictConcaveOn_sin_Icc.concaveOn.2 hm0 hmy ha hb (by ring)
  simp only [smul_eq_mul, Real.sin_zero, mul_zero, zero_add] at h
  rw [div_mul_cancel₀ _ hy0.ne'] at h
  rw [div_le_div_iff₀ hy0 hx]
  have := mul_le_mul_of_nonneg_right h hy0.le
  calc Real.sin y * x = x / y * Real.sin y * y := by field_simp
    _ ≤ Real.sin x * y := this

theorem cos_sqrt_convex : ConvexOn ℝ (Set.Icc 0 (Real.pi ^ 2)) (fun s => Real.cos (Real.sqrt s)) := by
  have hd : ∀ s ∈ interior (Set.Icc (0 : ℝ) (Real.pi ^ 2)),
      HasDerivAt (fun s => Real.cos (Real.sqrt s)) (-Real.sin (Real.sqrt s) * (1 / (2 * Real.sqrt s))) s := by
    intro s hs
    rw [interior_Icc] at hs
    exact (Real.hasDerivAt_cos _).comp s (Real.hasDerivAt_sqrt hs.1.ne')
  apply MonotoneOn.convexOn_of_deriv (convex_Icc _ _)
  · exact (Real.continuous_cos.comp Real.continuous_sqrt).continuousOn
  · intro s hs
    exact (hd s hs).differentiableAt.differentiableWithinAt
  · intro s hs t ht hst
    rw [(hd s hs).deriv, (hd t ht).deriv]
    rw [interior_Icc] at hs ht
    have h1 : 0 < Real.sqrt s := Real.sqrt_pos.2 hs.1
    have h2 : Real.sqrt t ≤ Real.pi := by
      rw [Real.sqrt_le_left Real.pi_pos.le]; exact ht.2.le
    have := sin_div_antitone h1 (Real.sqrt_le_sqrt hst) h2
    have e : ∀ x : ℝ, -Real.sin x * (1 / (2 * x)) = -(Real.sin x / x) / 2 := by
      intro x; field_simp
    rw [e, e]
    linarith

theorem cos_mul_cos_ge {a b : ℝ} (h : 2 * (a ^ 2 + b ^ 2) ≤ Real.pi ^ 2) :
    Real.cos (Real.sqrt (a ^ 2 + b ^ 2)) ≤ Real.cos a * Real.cos b := by
  have h1 : (a + b) ^ 2 ∈ Set.Icc 0 (Real.pi ^ 2) := ⟨sq_nonneg _, by nlinarith [sq_nonneg (a - b)]⟩
  have h2 : (a - b) ^ 2 ∈ Set.Icc 0 (Real.pi ^ 2) := ⟨sq_nonneg _, by nlinarith [sq_nonneg (a + b)]⟩
  have h0 : (0 : ℝ) ≤ 1 / 2 := by norm_num
  have hc := cos_sqrt_convex.2 h1 h2 h0 h0 (by norm_num)
  simp only [smul_eq_mul, Real.sqrt_sq_eq_abs, Real.cos_abs] at hc
  have e : 1 / 2 * (a + b) ^ 2 + 1 / 2 * (a - b) ^ 2 = a ^ 2 + b ^ 2 := by ring
  rw [e, Real.cos_add, Real.cos_sub] at hc
  linarith

theorem skyDistance_eq (p : ℝ × ℝ) : skyDistance p = Real.arccos (Real.cos p.1 * Real.cos p.2) := by
  simp [skyDistance, skyVector, V3.dot, mul_comm]

theorem offset_sq (d u : ℝ) : (offsetLonLat d u).1 ^ 2 + (offsetLonLat d u).2 ^ 2 = d ^ 2 := by
  simp only [offsetLonLat]
  have := Real.sin_sq_add_cos_sq (u * 2 * Real.pi)
  linear_combination d ^ 2 * this

/-- **C32** Positions on the sky: longitude and latitude offset have (in the plane) the length given
by the radial distribution; the true distance on the sphere is never larger. Missing: it can be
smaller, see `C32_spherical_hole_not_empty`, so only the outer radius of a `SphericalDiskSource` is
respected. -/
theorem C32_position_partial (d u : ℝ) (h0 : 0 ≤ d) (hd : 2 * d ^ 2 ≤ Real.pi ^ 2) :
    (offsetLonLat d u).1 ^ 2 + (offsetLonLat d u).2 ^ 2 = d ^ 2 ∧
    skyDistance (offsetLonLat d u) ≤ d := by
  have e := offset_sq d u
  refine ⟨e, ?_⟩
  rw [skyDistance_eq]
  have h := cos_mul_cos_ge (a := (offsetLonLat d u).1) (b := (offsetLonLat d u).2) (by rw [e]; exact hd)
  rw [e, Real.sqrt_sq h0] at h
  have hpi : d ≤ Real.pi := by nlinarith [Real.pi_pos]
  calc Real.arccos (Real.cos (offsetLonLat d u).1 * Real.cos (offsetLonLat d u).2)
      ≤ Real.arccos (Real.cos d) := Real.arccos_le_arccos h
    _ = d := Real.arccos_cos h0 hpi

/-- **C32** All photons of a disk source are inside of the outer circle. -/
theorem C32_inside_partial (a b u v : ℝ) (ha : 0 ≤ a) (hab : a ≤ b) (hb : b ≤ Real.pi / 2)
    (h0 : 0 ≤ u) (h1 : u ≤ 1) :
    skyDistance (offsetLonLat (sphericalRadius a b u) v) ≤ b ∧
    skyDistance (offsetLonLat (diskRadius a b u) v) ≤ b := by
  have hp := Real.pi_pos
  obtain ⟨l1, u1, _⟩ := C32_spherical a b u ha hab (by linarith) h0 h1
  obtain ⟨l2, u2, _⟩ := C32_disk a b u ha hab h0 h1
  exact ⟨le_trans (C32_position_partial _ v (by linarith) (by nlinarith)).2 u1,
    le_trans (C32_position_partial _ v (by linarith) (by nlinarith)).2 u2⟩

/-- **C32** Disagreement with the documentation ("implements the full spherical geometry"): a
`SphericalDiskSource` emits photons from the hole of the ring, because the radius is used as offset in
longitude and latitude. -/
theorem C32_spherical_hole_not_empty :
    ∃ a b u v : ℝ, 0 ≤ a ∧ a < b ∧ b ≤ Real.pi / 2 ∧ 0 ≤ u ∧ u < 1 ∧ 0 ≤ v ∧ v < 1 ∧
      skyDistance (offsetLonLat (sphericalRadius a b u) v) < a := by
  have hp := Real.pi_pos
  have hp4 := Real.pi_lt_d2
  have s1 : (1.414 : ℝ) < Real.sqrt 2 := by
    rw [Real.lt_sqrt (by norm_num)]; norm_num
  have s2 : Real.sqrt 2 < 1.415 := by
    rw [Real.sqrt_lt' (by norm_num)]; norm_num
  set d := Real.pi * Real.sqrt 2 / 3 with hd
  have hd0 : 0 ≤ d := by positivity
  have hdpi : d < Real.pi / 2 := by rw [hd]; nlinarith
  refine ⟨d, Real.pi / 2, 0, 1 / 8, hd0, hdpi, le_refl _, le_refl _, by norm_num, by norm_num, by norm_num, ?_⟩
  have hr : sphericalRadius d (Real.pi / 2) 0 = d := by
    simp [sphericalRadius, Real.arccos_cos hd0 (by linarith)]
  have hq : Real.sqrt 2 * Real.sqrt 2 = 2 := Real.mul_self_sqrt (by norm_num)
  have hphi : (1 / 8 : ℝ) * 2 * Real.pi = Real.pi / 4 := by ring
  have hl : offsetLonLat d (1 / 8) = (Real.pi / 3, Real.pi / 3) := by
    simp only [offsetLonLat, hphi, Real.sin_pi_div_four, Real.cos_pi_div_four]
    have : d * (Real.sqrt 2 / 2) = Real.pi / 3 := by
      rw [hd]; linear_combination Real.pi / 6 * hq
    rw [this]
  rw [hr, hl, skyDistance_eq]
  simp only [Real.cos_pi_div_three]
  have hcos : Real.cos d < 1 / 2 * (1 / 2) := by
    rw [← Real.sin_pi_div_two_sub]
    have h1 : Real.sin (Real.pi / 2 - d) < Real.pi / 2 - d := Real.sin_lt (by linarith)
    have h2 : Real.pi / 2 - d < 1 / 4 := by rw [hd]; nlinarith
    linarith
  calc Real.arccos (1 / 2 * (1 / 2)) < Real.arccos (Real.cos d) :=
        Real.arccos_lt_arccos (Real.neg_one_le_cos d) hcos (by norm_num)
    _ = d := Real.arccos_cos hd0 (by linarith)

/-! ## C64 -/

theorem getD_mono {x : List ℝ} (h : ∀ i, i + 1 < x.length → x.getD i 0 ≤ x.getD (i + 1) 0) {i j : ℕ}
    (hij : i ≤ j) (hj : j < x.length) : x.getD i 0 ≤ x.getD j 0 := by
  induction j with
  | zero => rw [Nat.le_zero.1 hij]
  | succ j ih =>
    rcases Nat.le_succ_iff.1 hij with h' | rfl
    · exact le_trans (ih h' (by omega)) (h j hj)
    · exact le_refl _

/-- a draw is always in the range of the table, also for the draw 0 -/
theorem draw_range {x pdf : List ℝ} {f : Option (List ℝ → List ℕ)} (hf : IsArgsort f) {a : ArbPdf}
    (h : ArbPdf.init x pdf f = .ok a) (hx : x ≠ []) {u r : ℝ} (hu : 0 ≤ u ∧ u ≤ 1) (hr : 0 ≤ r ∧ r ≤ 1) :
    ∃ v, a.draw true u r = .ok v ∧ x.head hx ≤ v ∧ v ≤ x.getLast hx := by
  obtain ⟨_, _, hmono⟩ := (C24_rejected x pdf f).1 ⟨a, h⟩
  obtain ⟨_, hxx, hwd, hcdf, wn, hsum, hlen, bn, σ, hσ, hpdf, hbin⟩ := init_ok hf h
  have hxl : 0 < x.length := List.length_pos_iff.2 hx
  have hne : a.pdf ≠ [] := by
    intro h'; rw [h', List.length_nil] at hlen; omega
  have hs0 : 0 ≤ a.pdf.sum := List.sum_nonneg wn
  have hlt : searchsortedLeft (cumsum a.pdf) (u * a.pdf.sum) < a.pdf.length :=
    searchLeft_lt (by nlinarith) hne
  have hls : searchsortedLeft (cumsum a.pdf) (u * a.pdf.sum) < σ.length := by
    have e : a.pdf.length = σ.length := by rw [hpdf]; simp
    omega
  obtain ⟨i, hidef⟩ : ∃ i, i = σ[searchsortedLeft (cumsum a.pdf) (u * a.pdf.sum)] := ⟨_, rfl⟩
  have hi : i < x.length := by rw [hidef]; exact List.mem_range.1 (hσ.mem_iff.1 (List.getElem_mem _))
  have hb : a.bin u = .ok i := by
    rw [hbin u, hcdf, cumsum_getLast hne]
    dsimp only
    rw [List.getElem?_eq_getElem hls, ← hidef]
  have hhead : x.head hx = x.getD 0 0 := by
    rw [List.head_eq_getElem, List.getD_eq_getElem _ _ hxl]
  have hlast : x.getLast hx = x.getD (x.length - 1) 0 := by
    rw [List.getLast_eq_getElem, List.getD_eq_getElem]
  cases i with
  | zero =>
    refine ⟨x.getLast hx, ?_, ?_, le_refl _⟩
    · simp only [ArbPdf.draw, hb, if_true, hxx, hwd]
      rw [List.getLast?_eq_some_getLast hx]; simp
    · rw [hhead, hlast]; exact getD_mono hmono (by omega) (by omega)
  | succ i =>
    have hd := diff_getD x i hi
    rw [List.getD_eq_getElem _ _ (by rw [diff_length]; omega)] at hd
    have h1 := hmono i hi
    have h2 := getD_mono hmono (Nat.zero_le i) (by omega)
    have h3 := getD_mono hmono (show i + 1 ≤ x.length - 1 by omega) (by omega)
    refine ⟨x.getD i 0 + (x.getD (i + 1) 0 - x.getD i 0) * r, ?_, ?_, ?_⟩
    · simp only [ArbPdf.draw, hb, if_true, hxx, hwd]
      rw [if_neg (by omega), show i + 1 - 1 = i by omega, List.getElem?_eq_getElem (by omega),
        List.getElem?_cons_succ, List.getElem?_eq_getElem (by rw [diff_length]; omega)]
      dsimp only
      rw [hd, List.getD_eq_getElem x (n := i) _ (by omega)]
    · rw [hhead]; nlinarith
    · rw [hlast]; nlinarith

theorem drawAll_range {x pdf : List ℝ} {f : Option (List ℝ → List ℕ)} (hf : IsArgsort f) {a : ArbPdf}
    (h : ArbPdf.init x pdf f = .ok a) (hx : x ≠ []) : ∀ draws : List (ℝ × ℝ),
    (∀ d ∈ draws, (0 ≤ d.1 ∧ d.1 ≤ 1) ∧ 0 ≤ d.2 ∧ d.2 ≤ 1) →
    ∃ vs, drawAll a draws = .ok vs ∧ vs.length = draws.length ∧ ∀ v ∈ vs, x.head hx ≤ v ∧ v ≤ x.getLast hx
  | [], _ => ⟨[], rfl, rfl, by simp⟩
  | (u, r) :: l, hd => by
    obtain ⟨v, hv, hb⟩ := draw_range hf h hx (hd (u, r) (by simp)).1 (hd (u, r) (by simp)).2
    obtain ⟨vs, hvs, hl, hr⟩ := drawAll_range hf h hx l (fun d hm => hd d (by simp [hm]))
    refine ⟨v :: vs, by simp [drawAll, hv, hvs], by simp [hl], ?_⟩
    intro w hw
    rcases List.mem_cons.1 hw with rfl | hw
    · exact hb
    · exact hr w hw

/-- **C64** Energies from a table: one per photon, all in the tabulated range, also for a draw of 0. The
table is accepted if and only if the edges are sorted and the flux densities not negative; the first
flux density is not used. -/
theorem C64_energy_table (x y : List ℝ) (g : List ℝ → List ℕ) (hg : IsArgsort (some g))
    (hx : x ≠ []) (hxy : x.length = y.length) (hpos : ∀ p ∈ y.tail, 0 ≤ p)
    (hsort : ∀ i, i + 1 < x.length → x.getD i 0 ≤ x.getD (i + 1) 0)
    (t : List ℝ) (draws : List (ℝ × ℝ)) (hn : draws.length = t.length)
    (hd : ∀ d ∈ draws, (0 ≤ d.1 ∧ d.1 ≤ 1) ∧ 0 ≤ d.2 ∧ d.2 ≤ 1) :
    ∃ en, generateEnergies (.table x y) g draws t = .ok en ∧ en.length = t.length ∧
      ∀ v ∈ en, x.head hx ≤ v ∧ v ≤ x.getLast hx := by
  have hxl : 0 < x.length := List.length_pos_iff.2 hx
  obtain ⟨a, ha⟩ := (C24_rejected x (0 :: y.tail) (some g)).2
    ⟨by simp; omega, by simpa using hpos, hsort⟩
  obtain ⟨vs, h1, h2, h3⟩ := drawAll_range hg ha hx draws hd
  exact ⟨vs, by simp only [generateEnergies, ha, h1], h2.trans hn, h3⟩

theorem C64_energy_table_rejected (x y : List ℝ) (g : List ℝ → List ℕ) (t : List ℝ) (draws : List (ℝ × ℝ))
    (h : x.length ≠ (y.tail).length + 1 ∨ (∃ p ∈ y.tail, p < 0) ∨
      ∃ i, i + 1 < x.length ∧ x.getD (i + 1) 0 < x.getD i 0) :
    ∃ e, generateEnergies (.table x y) g draws t = .error e := by
  have hn : ¬ ∃ a, ArbPdf.init x (0 :: y.tail) (some g) = .ok a := by
    rw [C24_rejected]
    rintro ⟨h1, h2, h3⟩
    rcases h with h | ⟨p, hp, hp0⟩ | ⟨i, hi, hlt⟩
    · exact h (by simpa using h1)
    · linarith [h2 p (by simp [hp])]
    · linarith [h3 i hi]
  cases hin : ArbPdf.init x (0 :: y.tail) (some g) with
  | ok a => exact absurd ⟨a, hin⟩ hn
  | error e => exact ⟨e, by simp only [generateEnergies, hin]⟩

theorem binWeight_first {x y : List ℝ} (hy : y ≠ []) : binWeight x (0 :: y.tail) = binWeight x y := by
  cases y with
  | nil => exact absurd rfl hy
  | cons a l => funext i; cases i <;> simp [binWeight]

/-- **C64** Energies follow the distribution of the table: the draws that give an energy in bin `i` (between
edge `i` and edge `i+1`) form an interval whose length is the share of that bin in the total flux, and in
the bin energies are uniform. -/
theorem C64_energy_distribution (x y : List ℝ) (g : List ℝ → List ℕ) (hg : IsArgsort (some g))
    (hxy : x.length = y.length) (hpos : ∀ p ∈ y.tail, 0 ≤ p)
    (hsort : ∀ i, i + 1 < x.length → x.getD i 0 ≤ x.getD (i + 1) 0)
    (htot : 0 < totalWeight x y) (i : ℕ) (hi : i + 1 < x.length) :
    ∃ c, 0 ≤ c ∧ c + binWeight x y (i + 1) / totalWeight x y ≤ 1 ∧ ∀ u r t : ℝ,
      c < u → u ≤ c + binWeight x y (i + 1) / totalWeight x y → 0 ≤ r → r < 1 →
      generateEnergies (.table x y) g [(u, r)] [t] =
        .ok [x.getD i 0 + (x.getD (i + 1) 0 - x.getD i 0) * r] := by
  have hy : y ≠ [] := by intro h; rw [h] at hxy; simp at hxy; simp [hxy] at hi
  have hw := binWeight_first (x := x) hy
  have ht : totalWeight x (0 :: y.tail) = totalWeight x y := by rw [totalWeight, hw]; rfl
  obtain ⟨a, ha⟩ := (C24_rejected x (0 :: y.tail) (some g)).2
    ⟨by simp; omega, by simpa using hpos, hsort⟩
  obtain ⟨c, hc⟩ := C24_bin_interval x (0 :: y.tail) (some g) hg a ha (by rw [ht]; exact htot) (i + 1) hi
  rw [hw, ht] at hc
  have hnn : 0 ≤ binWeight x y (i + 1) := by
    obtain ⟨_, _, _, _, _, _, _, bn, _⟩ := init_ok hg ha
    have := bn (i + 1) hi
    rwa [hw] at this
  rcases hnn.eq_or_lt with h0 | h0
  · refine ⟨0, le_refl _, by rw [← h0]; simp, ?_⟩
    intro u r t h1 h2
    rw [← h0] at h2; simp at h2; linarith
  have hq := div_pos h0 htot
  refine ⟨c, ?_, ?_, ?_⟩
  · by_contra hn
    push Not at hn
    have hm : min (c + binWeight x y (i + 1) / totalWeight x y) ((c + 0) / 2) ∈
        Set.Ioc c (c + binWeight x y (i + 1) / totalWeight x y) := by
      refine ⟨lt_min (by linarith) (by linarith), min_le_left _ _⟩
    rw [← hc] at hm
    have := hm.1
    have h2 := min_le_right (c + binWeight x y (i + 1) / totalWeight x y) ((c + 0) / 2)
    linarith
  · have hm : c + binWeight x y (i + 1) / totalWeight x y ∈
        Set.Ioc c (c + binWeight x y (i + 1) / totalWeight x y) := ⟨by linarith, le_refl _⟩
    rw [← hc] at hm
    exact hm.2.1
  · intro u r t h1 h2 hr0 hr1
    have hm : u ∈ Set.Ioc c (c + binWeight x y (i + 1) / totalWeight x y) := ⟨h1, h2⟩
    rw [← hc] at hm
    obtain ⟨hu0, hu1, hbin⟩ := hm
    obtain ⟨j, _, hj, hv, _⟩ := C24_value x (0 :: y.tail) (some g) hg a ha (by rw [ht]; exact htot) u r hu0 hu1
      ⟨hr0, hr1⟩
    rw [hbin] at hj
    simp only [Except.ok.injEq, Nat.add_right_cancel_iff] at hj
    subst hj
    simp only [generateEnergies, ha, drawAll, hv]

/-- **C64** Energies from other input: a number is used for every photon; a function has to return one
energy per photon, and everything else is rejected. -/
theorem C64_energy_other (g : List ℝ → List ℕ) (draws : List (ℝ × ℝ)) (t : List ℝ) (v : ℝ)
    (f : List ℝ → List ℝ) :
    generateEnergies (.scalar v) g draws t = .ok (List.replicate t.length v) ∧
    (generateEnergies (.callable f) g draws t =
      if (f t).length = t.length then .ok (f t) else .error .sourceError) ∧
    generateEnergies .other g draws t = .error .sourceError := by
  refine ⟨rfl, ?_, rfl⟩
  by_cases h : (f t).length = t.length <;> simp [generateEnergies, h]

/-- **C64** Polarization angles: one per photon. Without polarization they are in [0, 2π), uniform; from a table
in the tabulated range. -/
theorem C64_polarization (g : List ℝ → List ℕ) (hg : IsArgsort (some g)) (draws : List (ℝ × ℝ))
    (t e : List ℝ) (hn : draws.length = t.length)
    (hd : ∀ d ∈ draws, (0 ≤ d.1 ∧ d.1 < 1) ∧ 0 ≤ d.2 ∧ d.2 < 1) :
    (∃ pol, generatePolarization .unpolarized g draws t e = .ok pol ∧ pol.length = t.length ∧
      (∀ v ∈ pol, 0 ≤ v ∧ v < 2 * Real.pi) ∧ pol = draws.map (fun d => 2 * Real.pi * d.1)) ∧
    (∀ (x y : List ℝ) (hx : x ≠ []), x.length = y.length → (∀ p ∈ y, 0 ≤ p) →
      (∀ i, i + 1 < x.length → x.getD i 0 ≤ x.getD (i + 1) 0) →
      ∃ pol, generatePolarization (.table x y) g draws t e = .ok pol ∧ pol.length = t.length ∧
        ∀ v ∈ pol, x.head hx ≤ v ∧ v ≤ x.getLast hx) ∧
    (∀ v, generatePolarization (.scalar v) g draws t e = .ok (List.replicate t.length v)) ∧
    (∀ f, generatePolarization (.callable f) g draws t e =
      if (f t e).length = t.length then .ok (f t e) else .error .sourceError) ∧
    generatePolarization .other g draws t e = .error .sourceError := by
  have hp := Real.pi_pos
  refine ⟨⟨_, rfl, by simpa using hn, ?_, ?_⟩, ?_, fun v => rfl, ?_, rfl⟩
  · intro v hv
    obtain ⟨d, hm, rfl⟩ := List.mem_map.1 hv
    have := (hd d hm).1
    constructor <;> nlinarith
  · apply List.map_congr_left; intro d _; ring
  · intro x y hx hl hpos hsort
    obtain ⟨a, ha⟩ := (C24_rejected x y (some g)).2 ⟨hl, hpos, hsort⟩
    obtain ⟨vs, h1, h2, h3⟩ := drawAll_range hg ha hx draws
      (fun d hm => ⟨⟨(hd d hm).1.1, (hd d hm).1.2.le⟩, (hd d hm).2.1, (hd d hm).2.2.le⟩)
    exact ⟨vs, by simp only [generatePolarization, ha, h1], h2.trans hn, h3⟩
  · intro f
    by_cases h : (f t e).length = t.length <;> simp [generatePolarization, h]

/-- a table with energies 1, 2, 4 keV and flux densities 0.5 and 1, two photons -/
example : ∃ en, generateEnergies (.table [1, 2, 4] [7, 0.5, 1]) (fun l => List.range l.length)
    [(0, 0.5), (0.9, 0)] [0, 1] = .ok en ∧ en.length = 2 ∧ ∀ v ∈ en, (1 : ℝ) ≤ v ∧ v ≤ 4 := by
  obtain ⟨en, h1, h2, h3⟩ := C64_energy_table [1, 2, 4] [7, 0.5, 1] (fun l => List.range l.length)
    (by intro g hg l; cases hg; exact List.Perm.refl _) (by simp) rfl
    (by intro p hp; simp at hp; rcases hp with rfl | rfl <;> norm_num)
    (by intro i hi
        have : i = 0 ∨ i = 1 := by simp at hi; omega
        rcases this with rfl | rfl <;> norm_num) [0, 1] [(0, 0.5), (0.9, 0)] rfl
    (by intro d hd; simp at hd; rcases hd with rfl | rfl <;> norm_num)
  exact ⟨en, h1, h2, by simpa using h3⟩

/-! ## C68, C72 -/

theorem cone_axis {d : V3} (hd : d.dot d = 1) (hz : d.cross ⟨0, 0, 1⟩ ≠ 0) :
    mul3 (rotMat (d.cross ⟨0, 0, 1⟩).unit (-Real.arccos d.z)) ⟨0, 0, 1⟩ = d := by
  have hxyz : d.x * d.x + d.y * d.y + d.z * d.z = 1 := hd
  have hcc : (d.cross ⟨0, 0, 1⟩).dot (d.cross ⟨0, 0, 1⟩) = 1 - d.z ^ 2 := by
    simp [V3.dot, V3.cross]; nlinarith
  have hpos := V3.dot_self_pos hz
  have hn : (d.cross ⟨0, 0, 1⟩).norm = Real.sqrt (1 - d.z ^ 2) := by rw [V3.norm, hcc]
  have hn0 : (d.cross ⟨0, 0, 1⟩).norm ≠ 0 := (V3.norm_pos hz).ne'
  have hz1 : -1 ≤ d.z ∧ d.z ≤ 1 := by constructor <;> nlinarith
  rw [rodrigues, Real.cos_neg, Real.sin_neg, Real.cos_arccos hz1.1 hz1.2, Real.sin_arccos, ← hn]
  have hu : (d.cross ⟨0, 0, 1⟩).unit = (1 / (d.cross ⟨0, 0, 1⟩).norm) • d.cross ⟨0, 0, 1⟩ := by
    rw [V3.unit, one_div]
  rw [hu]
  set n := (d.cross ⟨0, 0, 1⟩).norm
  ext <;> simp [V3.cross, V3.dot] <;> field_simp

/-- **C68** Photons of a `LabPointSourceCone` have unit directions. They fill the cone: the angle to the
central direction is at most `half_opening`, the share of draws closer to the center than a given angle
is the share of the solid angle, and the azimuth is `2π` times the other draw. Missing: central
directions parallel to z, see `C68_parallel_z`. -/
theorem C68_cone_partial (d : V3) (hd : d.dot d = 1) (hz : d.cross ⟨0, 0, 1⟩ ≠ 0) (half : ℝ)
    (hh : 0 ≤ half ∧ half ≤ Real.pi) :
    ∃ e1 e2 : V3, (e1.dot e1 = 1 ∧ e2.dot e2 = 1 ∧ e1.dot e2 = 0 ∧ e1.dot d = 0 ∧ e2.dot d = 0) ∧
      ∀ u1 u2 : ℝ, 0 ≤ u1 → u1 < 1 → 0 ≤ u2 → u2 < 1 →
      ∃ (out : V3) (phi : ℝ), conePhoton d half u1 u2 = some out.toDir ∧ out.dot out = 1 ∧
        0 ≤ phi ∧ phi ≤ half ∧ out.dot d = Real.cos phi ∧
        out = Real.cos phi • d + (Real.sin phi * Real.cos (2 * Real.pi * u1)) • e1 +
          (Real.sin phi * Real.sin (2 * Real.pi * u1)) • e2 ∧
        sphereRingArea 0 phi = u2 * sphereRingArea 0 half := by
  set R := rotMat (d.cross ⟨0, 0, 1⟩).unit (-Real.arccos d.z) with hR
  have rot : IsRotation R := (C16_axangle_rotation _ (V3.unit_dot_unit hz) _).1
  have hax : mul3 R ⟨0, 0, 1⟩ = d := cone_axis hd hz
  have hp := Real.pi_pos
  have D := rotation_dot rot
  have g1 : (mul3 R ⟨1, 0, 0⟩).dot (mul3 R ⟨1, 0, 0⟩) = 1 := by rw [D]; simp [V3.dot]
  have g2 : (mul3 R ⟨0, 1, 0⟩).dot (mul3 R ⟨0, 1, 0⟩) = 1 := by rw [D]; simp [V3.dot]
  have g3 : (mul3 R ⟨1, 0, 0⟩).dot (mul3 R ⟨0, 1, 0⟩) = 0 := by rw [D]; simp [V3.dot]
  have g4 : (mul3 R ⟨1, 0, 0⟩).dot d = 0 := by rw [← hax, D]; simp [V3.dot]
  have g5 : (mul3 R ⟨0, 1, 0⟩).dot d = 0 := by rw [← hax, D]; simp [V3.dot]
  refine ⟨mul3 R ⟨1, 0, 0⟩, mul3 R ⟨0, 1, 0⟩, ⟨g1, g2, g3, g4, g5⟩, ?_⟩
  intro u1 u2 h10 h11 h20 h21
  have hfrac : 2 * (2 * Real.pi * (1 - Real.cos half) / (4 * Real.pi) * u2) = (1 - Real.cos half) * u2 := by
    field_simp
    try ring
  have c1 := Real.cos_le_one half
  have c2 := Real.neg_one_le_cos half
  obtain ⟨phi, hphi⟩ : ∃ phi, phi = Real.arccos (1 - (1 - Real.cos half) * u2) := ⟨_, rfl⟩
  have hcos : Real.cos phi = 1 - (1 - Real.cos half) * u2 := by
    rw [hphi, Real.cos_arccos (by nlinarith) (by nlinarith)]
  have hle : phi ≤ half := by
    rw [hphi]
    calc Real.arccos (1 - (1 - Real.cos half) * u2) ≤ Real.arccos (Real.cos half) :=
          Real.arccos_le_arccos (by nlinarith)
      _ = half := Real.arccos_cos hh.1 hh.2
  have hlin : mul3 R ⟨Real.cos (2 * Real.pi * u1) * Real.sin phi, Real.sin (2 * Real.pi * u1) * Real.sin phi,
      Real.cos phi⟩ = Real.cos phi • d + (Real.sin phi * Real.cos (2 * Real.pi * u1)) • mul3 R ⟨1, 0, 0⟩ +
          (Real.sin phi * Real.sin (2 * Real.pi * u1)) • mul3 R ⟨0, 1, 0⟩ := by
    rw [← hax]
    ext <;> simp [mul3] <;> ring
  refine ⟨_, phi, ?_, ?_, ?_, hle, ?_, hlin, ?_⟩
  · simp only [conePhoton, if_neg hz, hfrac, ← hphi, ← hR]
  · rw [D]
    simp only [V3.dot]
    have s1 := Real.sin_sq_add_cos_sq phi
    have s2 := Real.sin_sq_add_cos_sq (2 * Real.pi * u1)
    linear_combination s1 + Real.sin phi ^ 2 * s2
  · rw [hphi]; exact Real.arccos_nonneg _
  · conv_lhs => rw [← hax]
    rw [D]; simp [V3.dot]
  · rw [sphereRingArea_eq, sphereRingArea_eq, hcos, Real.cos_zero]; ring

/-- **C68** Disagreement: for a central direction along the z axis (in either sense) the axis of the rotation
has length zero and all photons get NaN as direction. -/
theorem C68_parallel_z (half u1 u2 : ℝ) :
    conePhoton ⟨0, 0, 1⟩ half u1 u2 = none ∧ conePhoton ⟨0, 0, -1⟩ half u1 u2 = none := by
  constructor <;> simp only [conePhoton] <;> rw [if_pos (by ext <;> simp [V3.cross])]

/-- the default direction, the x axis -/
example : (⟨1, 0, 0⟩ : V3).dot ⟨1, 0, 0⟩ = 1 ∧ (⟨1, 0, 0⟩ : V3).cross ⟨0, 0, 1⟩ ≠ 0 := by
  refine ⟨by simp [V3.dot], ?_⟩
  intro h
  have := congrArg V3.y h
  simp [V3.cross] at this

/-- **C72** Photons of a `FarLabPointSource` start inside the aperture, and all their rays start at the
position of the source. Draws are uniform in both directions of the aperture. -/
theorem C72_far_lab (m : M4) (hm : Affine m) (source : V3) (u1 u2 : ℝ) (h1 : 0 ≤ u1 ∧ u1 < 1)
    (h2 : 0 ≤ u2 ∧ u2 < 1) :
    IsPoint (farLabPhoton m source u1 u2).1 ∧ IsDir (farLabPhoton m source u1 u2).2 ∧
    InRectangle m (farLabPhoton m source u1 u2).1.xyz ∧
    source + (farLabPhoton m source u1 u2).2.xyz = (farLabPhoton m source u1 u2).1.xyz ∧
    (farLabPhoton m source u1 u2).1.xyz =
      (center m).xyz + (2 * u1 - 1) • (vY m).xyz + (2 * u2 - 1) • (vZ m).xyz := by
  have hw : (farLabPhoton m source u1 u2).1.w = 1 := by
    obtain ⟨a, b, c, d⟩ := hm
    simp [farLabPhoton, mul4, b, c, d]
  have he : (farLabPhoton m source u1 u2).1.xyz =
      (center m).xyz + (2 * u1 - 1) • (vY m).xyz + (2 * u2 - 1) • (vZ m).xyz := by
    ext <;> simp [farLabPhoton, mul4, center, vY, vZ, col, H4.xyz] <;> ring
  refine ⟨hw, rfl, ⟨2 * u1 - 1, 2 * u2 - 1, ?_, ?_, he⟩, ?_, he⟩
  · rw [abs_le]; constructor <;> linarith [h1.1, h1.2]
  · rw [abs_le]; constructor <;> linarith [h2.1, h2.2]
  · ext <;> simp [farLabPhoton, H4.xyz]

/-- an aperture at the origin, source 10 units in front of it -/
example : Affine (1 : M4) ∧ InRectangle 1 (farLabPhoton 1 ⟨10, 0, 0⟩ 0.25 0.5).1.xyz := by
  have h : Affine (1 : M4) := by simp [Affine]
  exact ⟨h, (C72_far_lab 1 h ⟨10, 0, 0⟩ 0.25 0.5 (by norm_num) (by norm_num)).2.2.1⟩

end Marxs
