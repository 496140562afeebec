import Mathlib.Tactic.Ring
import Mathlib.Tactic.FieldSimp
import Mathlib.Tactic.Linarith
import Mathlib.Tactic.Positivity
import Mathlib.Tactic.NormNum
import Verif.Lemmas.Normal
import Verif.Props.Analysis
import Verif.Spec.Osip

/-!
# Properties C39-C41, C75, C76: order sorting
-/

namespace Marxs

/-! ## C39 -/

theorem exists_lower_bound (tab : List (ℝ × ℝ)) (h : ∀ p ∈ tab, 0 < p.2) :
    ∃ lo hi : ℝ, 0 < lo ∧ ∀ p ∈ tab, lo ≤ p.2 ∧ p.2 ≤ hi := by
  induction tab with
  | nil => exact ⟨1, 1, one_pos, by simp⟩
  | cons q tab ih =>
    obtain ⟨lo, hi, h1, h2⟩ := ih (fun p hp => h p (by simp [hp]))
    refine ⟨min lo q.2, max hi q.2, lt_min h1 (h q (by simp)), ?_⟩
    intro p hp
    rcases List.mem_cons.1 hp with rfl | hp
    · exact ⟨min_le_right _ _, le_max_right _ _⟩
    · exact ⟨(min_le_left _ _).trans (h2 p hp).1, (h2 p hp).2.trans (le_max_left _ _)⟩

theorem interp_some (x : ℝ) : ∀ l : List (ℝ × ℝ), l ≠ [] → ∃ v, interp x l = some v
  | [], h => absurd rfl h
  | [p], _ => ⟨p.2, rfl⟩
  | p :: q :: l, _ => by
    obtain ⟨v, hv⟩ := interp_some x (q :: l) (by simp)
    simp only [interp]
    split
    · exact ⟨_, rfl⟩
    · split
      · exact ⟨_, rfl⟩
      · exact ⟨v, hv⟩

/-- The width is defined and positive at every energy. -/
theorem sig_pos {tab : List (ℝ × ℝ)} (h : GoodTab tab) (E : ℝ) :
    ∃ s, sigCcd tab E = .ok s ∧ 0 < s := by
  obtain ⟨v, hv⟩ := interp_some E tab h.1
  obtain ⟨lo, hi, h1, h2⟩ := exists_lower_bound tab h.2
  refine ⟨v, by simp [sigCcd, hv], ?_⟩
  have := interp_range tab v h2 hv
  linarith

theorem window_eq {tab : List (ℝ × ℝ)} {s Et : ℝ} (hs : sigCcd tab Et = .ok s) (r : ℝ × ℝ) :
    windowFraction tab r Et = .ok (normCdf ((r.2 - Et) / s) - normCdf ((r.1 - Et) / s)) := by
  simp [windowFraction, ccdCdf, hs]

theorem interval_ok {tab : List (ℝ × ℝ)} (h : GoodTab tab) (a E : ℝ) :
    ∃ s, 0 < s ∧ sigCcd tab E = .ok s ∧ ccdInterval tab a E =
      .ok ((normInterval a).1 * s + E, (normInterval a).2 * s + E) := by
  obtain ⟨s, hs, hpos⟩ := sig_pos h E
  exact ⟨s, hpos, hs, by simp [ccdInterval, hs]⟩

/-- Every window of a sensible order-sorting class is an interval. -/
theorem range_ordered {tab : List (ℝ × ℝ)} (h : GoodTab tab) {o : Osip} (ho : GoodOsip o) {E : ℝ}
    (hE : 0 ≤ E) (m : ℤ) : ∃ r, osipRange tab o E m = .ok r ∧ r.1 ≤ r.2 := by
  cases o with
  | fixedWidth w =>
    refine ⟨_, rfl, ?_⟩
    simp only [GoodOsip] at ho
    simp only [rangeFromTab, fixedWidthTab]
    linarith
  | fractionalDistance f =>
    refine ⟨_, rfl, ?_⟩
    simp only [GoodOsip] at ho
    have : 0 ≤ f / 2 * (E / |(m : ℝ)|) := by positivity
    simp only [rangeFromTab, fractionalTab]
    linarith
  | fixedFraction a =>
    obtain ⟨s, hs, _, hi⟩ := interval_ok h a E
    refine ⟨_, hi, ?_⟩
    obtain ⟨h0, h1⟩ := ho
    have := ppf_mono (p := (1 - a) / 2) (q := (1 + a) / 2) (by linarith) (by linarith) (by linarith)
    simp only [normInterval]
    nlinarith

/-- **C39** The order-sorting factor is a fraction: for orders that are not both zero it is always computed
and between 0 and 1. -/
theorem C39_fraction {tab : List (ℝ × ℝ)} (h : GoodTab tab) {o : Osip} (ho : GoodOsip o) {E : ℝ}
    (hE : 0 ≤ E) (oNom oTrue : ℤ) (hord : ¬ (oNom = 0 ∧ oTrue = 0)) :
    ∃ p, osipFactor tab o E oNom oTrue = .ok p ∧ 0 ≤ p ∧ p ≤ 1 := by
  unfold osipFactor
  by_cases hs : oNom.sign ≠ oTrue.sign
  · rw [if_pos hs]; exact ⟨0, rfl, le_refl _, zero_le_one⟩
  · rw [if_neg hs]
    push Not at hs
    by_cases h0 : oNom = 0
    · exfalso
      refine hord ⟨h0, ?_⟩
      rw [h0, Int.sign_zero] at hs
      exact Int.sign_eq_zero_iff_zero.1 hs.symm
    · rw [if_neg h0]
      obtain ⟨r, hr, hle⟩ := range_ordered h ho hE oNom
      obtain ⟨s, hs, hpos⟩ := sig_pos h (E * ((oTrue : ℝ) / (oNom : ℝ)))
      rw [hr]
      simp only
      refine ⟨_, window_eq hs r, ?_, ?_⟩
      · have : normCdf ((r.1 - E * ((oTrue : ℝ) / (oNom : ℝ))) / s) ≤
            normCdf ((r.2 - E * ((oTrue : ℝ) / (oNom : ℝ))) / s) :=
          normCdf_mono (by gcongr)
        linarith
      · have := normCdf_le_one ((r.2 - E * ((oTrue : ℝ) / (oNom : ℝ))) / s)
        have := normCdf_nonneg ((r.1 - E * ((oTrue : ℝ) / (oNom : ℝ))) / s)
        linarith

theorem range_nested {tab : List (ℝ × ℝ)} (h : GoodTab tab) {o o' : Osip} (ho : GoodOsip o)
    (ho' : GoodOsip o') (hle : OsipLe o o') {E : ℝ} (hE : 0 ≤ E) (m : ℤ) :
    ∃ r r', osipRange tab o E m = .ok r ∧ osipRange tab o' E m = .ok r' ∧ r'.1 ≤ r.1 ∧
      r.2 ≤ r'.2 := by
  match o, o', hle with
  | .fixedWidth w, .fixedWidth w', hle =>
    refine ⟨_, _, rfl, rfl, ?_, ?_⟩ <;> simp only [rangeFromTab, fixedWidthTab, OsipLe] at * <;>
      linarith
  | .fractionalDistance f, .fractionalDistance f', hle =>
    have h1 : 0 ≤ E / |(m : ℝ)| := by positivity
    simp only [OsipLe] at hle
    have h2 : f / 2 * (E / |(m : ℝ)|) ≤ f' / 2 * (E / |(m : ℝ)|) :=
      mul_le_mul_of_nonneg_right (by linarith) h1
    refine ⟨_, _, rfl, rfl, ?_, ?_⟩ <;> simp only [rangeFromTab, fractionalTab] <;> linarith
  | .fixedFraction a, .fixedFraction a', hle =>
    obtain ⟨s, hs, hs', hi⟩ := interval_ok h a E
    obtain ⟨s2, _, hs2, hi'⟩ := interval_ok h a' E
    have : s2 = s := by rw [hs'] at hs2; cases hs2; rfl
    subst this
    refine ⟨_, _, hi, hi', ?_, ?_⟩
    · obtain ⟨h0, h1⟩ := ho
      obtain ⟨h0', h1'⟩ := ho'
      simp only [OsipLe] at hle
      have := ppf_mono (p := (1 - a') / 2) (q := (1 - a) / 2) (by linarith) (by linarith)
        (by linarith)
      simp only [normInterval]
      nlinarith
    · obtain ⟨h0, h1⟩ := ho
      obtain ⟨h0', h1'⟩ := ho'
      simp only [OsipLe] at hle
      have := ppf_mono (p := (1 + a) / 2) (q := (1 + a') / 2) (by linarith) (by linarith)
        (by linarith)
      simp only [normInterval]
      nlinarith

/-- **C39** The factor does not decrease when the window grows. -/
theorem C39_monotone {tab : List (ℝ × ℝ)} (h : GoodTab tab) {o o' : Osip} (ho : GoodOsip o)
    (ho' : GoodOsip o') (hle : OsipLe o o') {E : ℝ} (hE : 0 ≤ E) (oNom oTrue : ℤ) (p p' : ℝ)
    (h1 : osipFactor tab o E oNom oTrue = .ok p) (h2 : osipFactor tab o' E oNom oTrue = .ok p') :
    p ≤ p' := by
  unfold osipFactor at h1 h2
  by_cases hs : oNom.sign ≠ oTrue.sign
  · rw [if_pos hs] at h1 h2; cases h1; cases h2; exact le_refl _
  · rw [if_neg hs] at h1 h2
    by_cases h0 : oNom = 0
    · rw [if_pos h0] at h1; cases h1
    · rw [if_neg h0] at h1 h2
      obtain ⟨r, r', hr, hr', a1, a2⟩ := range_nested h ho ho' hle hE oNom
      obtain ⟨s, hs, hpos⟩ := sig_pos h (E * ((oTrue : ℝ) / (oNom : ℝ)))
      rw [hr] at h1
      rw [hr'] at h2
      simp only [window_eq hs] at h1 h2
      cases h1
      cases h2
      have b1 : normCdf ((r'.1 - E * ((oTrue : ℝ) / (oNom : ℝ))) / s) ≤
            normCdf ((r.1 - E * ((oTrue : ℝ) / (oNom : ℝ))) / s) := normCdf_mono (by gcongr)
      have b2 : normCdf ((r.2 - E * ((oTrue : ℝ) / (oNom : ℝ))) / s) ≤
            normCdf ((r'.2 - E * ((oTrue : ℝ) / (oNom : ℝ))) / s) := normCdf_mono (by gcongr)
      linarith

/-- **C39** The fractions of adjacent windows add up. -/
theorem C39_additive {tab : List (ℝ × ℝ)} (h : GoodTab tab) (a b c Et : ℝ) :
    ∃ p q, windowFraction tab (a, b) Et = .ok p ∧ windowFraction tab (b, c) Et = .ok q ∧
      windowFraction tab (a, c) Et = .ok (p + q) := by
  obtain ⟨s, hs, hpos⟩ := sig_pos h Et
  refine ⟨_, _, window_eq hs _, window_eq hs _, ?_⟩
  rw [window_eq hs]
  congr 1
  ring

/-- **C39** The fraction of windows that cover everything: for orders on the same side, and any
distance from 1, all wide enough windows contain a larger fraction of the photons. -/
theorem C39_full_response {tab : List (ℝ × ℝ)} (h : GoodTab tab) (E : ℝ) (oNom oTrue : ℤ)
    (h0 : oNom ≠ 0) (hside : oNom.sign = oTrue.sign) (ε : ℝ) (hε : 0 < ε) :
    ∃ w0, ∀ w, w0 ≤ w → ∃ p, osipFactor tab (.fixedWidth w) E oNom oTrue = .ok p ∧ 1 - ε < p := by
  obtain ⟨s, hs, hpos⟩ := sig_pos h (E * ((oTrue : ℝ) / (oNom : ℝ)))
  obtain ⟨b, hb⟩ := (normCdf_atTop.eventually (lt_mem_nhds (show 1 - ε / 2 < 1 by linarith))).exists
  obtain ⟨a, ha⟩ := (normCdf_atBot.eventually (gt_mem_nhds (show (0 : ℝ) < ε / 2 by linarith))).exists
  set Et := E * ((oTrue : ℝ) / (oNom : ℝ)) with hEt
  refine ⟨max (b * s + Et - E) (E - Et - a * s), ?_⟩
  intro w hw
  refine ⟨normCdf ((E + w * 1 - Et) / s) - normCdf ((E + w * (-1) - Et) / s), ?_, ?_⟩
  · unfold osipFactor
    rw [if_neg (by simpa using hside), if_neg h0]
    simp only [osipRange, rangeFromTab, fixedWidthTab]
    exact window_eq hs _
  · have h1 := (le_max_left _ _).trans hw
    have h2 := (le_max_right _ _).trans hw
    have h3 : normCdf b ≤ normCdf ((E + w * 1 - Et) / s) := by
      apply normCdf_mono
      rw [le_div_iff₀ hpos]
      linarith
    have h4 : normCdf ((E + w * (-1) - Et) / s) ≤ normCdf a := by
      apply normCdf_mono
      rw [div_le_iff₀ hpos]
      linarith
    linarith

/-- **C39** `FixedFractionOSIP` delivers the fraction that was asked for. -/
theorem C39_fixed_fraction {tab : List (ℝ × ℝ)} (h : GoodTab tab) (a E : ℝ) (m : ℤ) (hm : m ≠ 0)
    (h0 : 0 ≤ a) (h1 : a < 1) : osipFactor tab (.fixedFraction a) E m m = .ok a := by
  obtain ⟨s, hs, hs', hi⟩ := interval_ok h a E
  have hm' : (m : ℝ) ≠ 0 := by exact_mod_cast hm
  have hE : E * ((m : ℝ) / (m : ℝ)) = E := by field_simp
  unfold osipFactor
  rw [if_neg (by simp), if_neg hm]
  simp only [osipRange, hi, hE, window_eq hs']
  rw [show ((normInterval a).2 * s + E - E) / s = (normInterval a).2 by field_simp; ring,
    show ((normInterval a).1 * s + E - E) / s = (normInterval a).1 by field_simp; ring]
  simp only [normInterval]
  rw [normCdf_ppf (by linarith) (by linarith), normCdf_ppf (by linarith) (by linarith)]
  congr 1
  ring

/-- **C39** No contamination from the other side: if the orders have different signs (or exactly one is the
zeroth order) the factor is zero. -/
theorem C39_other_side (tab : List (ℝ × ℝ)) (o : Osip) (E : ℝ) (oNom oTrue : ℤ)
    (hs : (oNom < 0 ∧ 0 ≤ oTrue) ∨ (oNom = 0 ∧ oTrue ≠ 0) ∨ (0 < oNom ∧ oTrue ≤ 0)) :
    osipFactor tab o E oNom oTrue = .ok 0 := by
  unfold osipFactor
  rw [if_pos]
  rcases hs with ⟨h1, h2⟩ | ⟨h1, h2⟩ | ⟨h1, h2⟩
  · rw [Int.sign_eq_neg_one_of_neg h1]
    intro he
    have := Int.sign_eq_neg_one_iff_neg.1 he.symm
    omega
  · subst h1
    rw [Int.sign_zero]
    intro he
    exact h2 (Int.sign_eq_zero_iff_zero.1 he.symm)
  · rw [Int.sign_eq_one_of_pos h1]
    intro he
    have := Int.sign_eq_one_iff_pos.1 he.symm
    omega

/-- **C39** The conversion between the two ways to give the resolution is right: at half of the FWHM from
the center the Gaussian with the computed `sigma` has half of its maximum. -/
theorem C39_fwhm (fwhm : ℝ) (hf : 0 < fwhm) :
    Real.exp (-(fwhm / 2) ^ 2 / (2 * sigmaOfFwhm fwhm ^ 2)) = 1 / 2 := by
  have hl : 0 < Real.log 2 := Real.log_pos (by norm_num)
  have hsq : Real.sqrt (2 * Real.log 2) ^ 2 = 2 * Real.log 2 := Real.sq_sqrt (by positivity)
  have h1 : -(fwhm / 2) ^ 2 / (2 * sigmaOfFwhm fwhm ^ 2) = -Real.log 2 := by
    simp only [sigmaOfFwhm, div_pow, mul_pow, hsq]
    field_simp
  rw [h1, Real.exp_neg, Real.exp_log (by norm_num)]
  norm_num

/-- A table and windows that meet the hypotheses. -/
example : GoodTab [(0, 40), (1000, 50)] ∧ GoodOsip (.fixedWidth 40) ∧ GoodOsip (.fixedFraction (7 / 10)) ∧
    OsipLe (.fixedFraction (7 / 10)) (.fixedFraction (8 / 10)) := by
  refine ⟨⟨by simp, ?_⟩, ?_, ?_, ?_⟩
  · intro p hp; simp at hp; rcases hp with rfl | rfl <;> norm_num
  · norm_num [GoodOsip]
  · norm_num [GoodOsip]
  · norm_num [OsipLe]

/-! ## C75 -/

/-- **C75** For the classes that define `osip_tab`, the window of `osip_range` is the documented one:
it starts `osip_tab[0]` below the energy and ends `osip_tab[1]` above it. -/
theorem C75_tab_and_range_partial (tab : List (ℝ × ℝ)) (o : Osip) (E : ℝ) (m : ℤ)
    (ho : (∃ w, o = .fixedWidth w) ∨ ∃ f, o = .fractionalDistance f) :
    ∃ t r, osipTab tab o E m = .ok t ∧ osipRange tab o E m = .ok r ∧
      r.1 = E - t.1 ∧ r.2 = E + t.2 := by
  rcases ho with ⟨w, rfl⟩ | ⟨f, rfl⟩
  · exact ⟨_, _, rfl, rfl, by simp [rangeFromTab, sub_eq_add_neg], by simp [rangeFromTab]⟩
  · exact ⟨_, _, rfl, rfl, by simp [rangeFromTab, sub_eq_add_neg], by simp [rangeFromTab]⟩

/-- **C75** For `FixedFractionOSIP`, which defines `osip_range`, the `osip_tab` that is computed from it is
wrong at every positive energy: its upper width is too large by twice the energy. -/
theorem C75_fixed_fraction_false {tab : List (ℝ × ℝ)} (h : GoodTab tab) (a E : ℝ) (m : ℤ) :
    ∃ t r, osipTab tab (.fixedFraction a) E m = .ok t ∧
      osipRange tab (.fixedFraction a) E m = .ok r ∧
      E - t.1 = r.1 ∧ E + t.2 = r.2 + 2 * E := by
  obtain ⟨s, hs, _, hi⟩ := interval_ok h a E
  refine ⟨_, _, by simp only [osipTab, hi]; rfl, hi, ?_, ?_⟩ <;> simp only [tabFromRange] <;> ring

/-! ## C41 -/

/-- **C41** At one place on the detector order `m` has `|m|` times the energy of the first order.  For a
fraction up to 1 the windows of neighbouring orders do not overlap, for fraction 1 they touch. -/
theorem C41_neighbours (tab : List (ℝ × ℝ)) (f E1 : ℝ) (hE : 0 < E1) (m m' : ℤ) (hm : m ≠ 0)
    (hm' : |m'| = |m| + 1) :
    ∃ r r', osipRange tab (.fractionalDistance f) (|(m : ℝ)| * E1) m = .ok r ∧
      osipRange tab (.fractionalDistance f) (|(m' : ℝ)| * E1) m' = .ok r' ∧
      (f ≤ 1 → r.2 ≤ r'.1) ∧ (f < 1 → r.2 < r'.1) ∧ (f = 1 → r.2 = r'.1) := by
  have h1 : (0 : ℝ) < |(m : ℝ)| := abs_pos.2 (by exact_mod_cast hm)
  have h2 : |(m' : ℝ)| = |(m : ℝ)| + 1 := by exact_mod_cast hm'
  have h3 : (0 : ℝ) < |(m' : ℝ)| := by linarith
  have e1 : |(m : ℝ)| * E1 / |(m : ℝ)| = E1 := by field_simp
  have e2 : |(m' : ℝ)| * E1 / |(m' : ℝ)| = E1 := by field_simp
  refine ⟨_, _, rfl, rfl, ?_, ?_, ?_⟩
  · intro hf
    simp only [rangeFromTab, fractionalTab, e1, e2]
    rw [h2]
    nlinarith
  · intro hf
    simp only [rangeFromTab, fractionalTab, e1, e2]
    rw [h2]
    nlinarith
  · intro hf
    subst hf
    simp only [rangeFromTab, fractionalTab, e1, e2]
    rw [h2]
    ring

/-- **C41** With fraction 1 every CCD energy above half the energy of the first order is assigned to exactly
one order (on each side). -/
theorem C41_every_energy (tab : List (ℝ × ℝ)) (E1 x : ℝ) (hE : 0 < E1) (hx : E1 / 2 ≤ x) :
    ∃! n : ℕ, 0 < n ∧ ∃ r, osipRange tab (.fractionalDistance 1) ((n : ℝ) * E1) (n : ℤ) = .ok r ∧
      osipRange tab (.fractionalDistance 1) ((n : ℝ) * E1) (-(n : ℤ)) = .ok r ∧
      r.1 ≤ x ∧ x < r.2 := by
  have key : ∀ n : ℕ, 0 < n → ∀ s : ℤ, |(s : ℝ)| = n →
      osipRange tab (.fractionalDistance 1) ((n : ℝ) * E1) s =
        .ok ((n : ℝ) * E1 - E1 / 2, (n : ℝ) * E1 + E1 / 2) := by
    intro n hn s hs
    have hn' : (0 : ℝ) < n := by exact_mod_cast hn
    have e : (n : ℝ) * E1 / |(s : ℝ)| = E1 := by rw [hs]; field_simp
    simp only [osipRange, rangeFromTab, fractionalTab, e]
    congr 2 <;> ring
  have habs : ∀ n : ℕ, |((n : ℤ) : ℝ)| = n := fun n => by simp
  have habs' : ∀ n : ℕ, |((-(n : ℤ) : ℤ) : ℝ)| = n := fun n => by simp
  have hq : 0 ≤ x / E1 + 1 / 2 := by
    have : 0 ≤ x / E1 := div_nonneg (by linarith) hE.le
    linarith
  have hfl := Nat.floor_le hq
  have hfl' := Nat.lt_floor_add_one (x / E1 + 1 / 2)
  have hx1 : 1 / 2 ≤ x / E1 := by rw [le_div_iff₀ hE]; linarith
  have hpos : 0 < ⌊x / E1 + 1 / 2⌋₊ := Nat.floor_pos.2 (by linarith)
  refine ⟨⌊x / E1 + 1 / 2⌋₊, ⟨hpos, _, key _ hpos _ (habs _), key _ hpos _ (habs' _), ?_, ?_⟩, ?_⟩
  · have : (⌊x / E1 + 1 / 2⌋₊ : ℝ) * E1 ≤ (x / E1 + 1 / 2) * E1 :=
      mul_le_mul_of_nonneg_right hfl hE.le
    have e : (x / E1 + 1 / 2) * E1 = x + E1 / 2 := by field_simp
    simp only
    linarith
  · have : (x / E1 + 1 / 2) * E1 < ((⌊x / E1 + 1 / 2⌋₊ : ℝ) + 1) * E1 :=
      mul_lt_mul_of_pos_right hfl' hE
    have e : (x / E1 + 1 / 2) * E1 = x + E1 / 2 := by field_simp
    simp only
    linarith
  · rintro n ⟨hn, r, hr, _, h1, h2⟩
    rw [key n hn _ (habs n)] at hr
    cases hr
    simp only at h1 h2
    symm
    rw [Nat.floor_eq_iff hq]
    constructor
    · rw [← sub_le_iff_le_add, le_div_iff₀ hE]
      linarith
    · have : x / E1 < n + 1 / 2 := by rw [div_lt_iff₀ hE]; linarith
      linarith

/-! ## C40 -/

theorem factors_of_mapM {tab : List (ℝ × ℝ)} {o : Osip} {a : Arf} {k : ℤ} {fac : List ℝ} :
    (nominalEnergies a k).mapM (fun E => osipFactor tab o E k a.order) = .ok fac ↔
      FactorsOf tab o a k fac := by
  unfold FactorsOf
  generalize nominalEnergies a k = l
  induction l generalizing fac with
  | nil =>
    simp only [List.mapM_nil, List.forall₂_nil_left_iff]
    constructor
    · intro h; cases h; rfl
    · rintro rfl; rfl
  | cons E l ih =>
    simp only [List.mapM_cons, bind, Except.bind, pure, Except.pure]
    cases hE : osipFactor tab o E k a.order with
    | error e =>
      simp only [List.forall₂_cons_left_iff, hE]
      constructor
      · intro h; cases h
      · rintro ⟨_, _, h, _⟩; cases h
    | ok f =>
      simp only
      cases hl : l.mapM (fun E => osipFactor tab o E k a.order) with
      | error e =>
        constructor
        · intro h; cases h
        · intro h
          rw [List.forall₂_cons_left_iff] at h
          obtain ⟨f', u, _, hu, rfl⟩ := h
          rw [ih.2 hu] at hl
          cases hl
      | ok u =>
        constructor
        · intro h; cases h
          exact List.Forall₂.cons hE (ih.1 hl)
        · intro h
          rw [List.forall₂_cons_left_iff] at h
          obtain ⟨f', u', h1, hu, rfl⟩ := h
          rw [ih.2 hu] at hl
          rw [hE] at h1
          cases hl
          cases h1
          rfl

theorem factors_unique {tab : List (ℝ × ℝ)} {o : Osip} {a : Arf} {k : ℤ} {fac fac' : List ℝ}
    (h : FactorsOf tab o a k fac) (h' : FactorsOf tab o a k fac') : fac = fac' := by
  rw [← factors_of_mapM] at h h'
  rw [h] at h'
  cases h'
  rfl

theorem factors_length {tab : List (ℝ × ℝ)} {o : Osip} {a : Arf} {k : ℤ} {fac : List ℝ}
    (hl : a.energLo.length = a.energHi.length) (h : FactorsOf tab o a k fac) :
    fac.length = a.energLo.length := by
  have := h.length_eq
  simp only [nominalEnergies, List.length_zipWith, ← hl, Nat.min_self] at this
  exact this.symm

theorem set_equal {c : CkCell} {l : List (Option ℝ)} (hne : l ≠ []) (h : AllEqual l) :
    ∃ x, (∀ y ∈ l, y = some x) ∧ c.set l = .ok ⟨none, some (some x)⟩ := by
  obtain ⟨x, hx⟩ := h
  refine ⟨x, hx, ?_⟩
  cases l with
  | nil => exact absurd rfl hne
  | cons y l =>
    have := hx y (by simp)
    subst this
    simp only [CkCell.set]
    rw [if_pos]
    intro y hy
    exact hx y (by simp [hy])

theorem set_varying {c : CkCell} {l : List (Option ℝ)} (hne : l ≠ []) (h : ¬ AllEqual l) :
    c.set l = .ok { c with col := some l } := by
  cases l with
  | nil => exact absurd rfl hne
  | cons y l =>
    cases y with
    | none => rfl
    | some x =>
      simp only [CkCell.set]
      rw [if_neg]
      intro hx
      refine h ⟨x, ?_⟩
      intro y hy
      rcases List.mem_cons.1 hy with rfl | hy
      · rfl
      · exact hx y hy

open Classical in
/-- What is written, if the effective area before the order sorting is `area`. -/
theorem write_ok (a : Arf) (cell : CkCell) (k : ℤ) (fac : List ℝ) (area : List (Option ℝ))
    (hne : fac ≠ []) (hlen : area.length = fac.length) (hcell : cell.get fac.length = some area) :
    ∃ a', writeOsip a cell k (fac.map some) = .ok a' ∧
      a'.energLo = a.energLo ∧ a'.energHi = a.energHi ∧ a'.order = a.order ∧ a'.ccdOrder = some k ∧
      a'.specresp = (if AllEqual (List.zipWith fmul (fac.map some) area) then none else
        some (List.zipWith fmul (fac.map some) area)) ∧
      (AllEqual (fac.map some) → ∃ x, (∀ y ∈ fac, y = x) ∧ a'.osipfac = ⟨none, some (some x)⟩) ∧
      (¬ AllEqual (fac.map some) → a'.osipfac = { a.osipfac with col := some (fac.map some) }) := by
  have hne1 : fac.map some ≠ [] := by simpa using hne
  have hne2 : List.zipWith fmul (fac.map some) area ≠ [] := by
    intro h
    have := congrArg List.length h
    simp only [List.length_zipWith, List.length_map, hlen, Nat.min_self, List.length_nil] at this
    exact hne (List.length_eq_zero_iff.1 this)
  unfold writeOsip
  simp only [List.length_map, hcell]
  by_cases h1 : AllEqual (List.zipWith fmul (fac.map some) area)
  · obtain ⟨x, _, hx⟩ := set_equal (c := cell) hne2 h1
    rw [hx]
    simp only [if_pos h1]
    by_cases h2 : AllEqual (fac.map some)
    · obtain ⟨y, hy, hy'⟩ := set_equal (c := a.osipfac) hne1 h2
      rw [hy']
      refine ⟨_, rfl, rfl, rfl, rfl, rfl, rfl, fun _ => ⟨y, ?_, rfl⟩, fun h => absurd h2 h⟩
      intro z hz
      simpa using hy (some z) (List.mem_map_of_mem hz)
    · rw [set_varying hne1 h2]
      exact ⟨_, rfl, rfl, rfl, rfl, rfl, rfl, fun h => absurd h h2, fun _ => rfl⟩
  · rw [set_varying hne2 h1]
    simp only [if_neg h1]
    by_cases h2 : AllEqual (fac.map some)
    · obtain ⟨y, hy, hy'⟩ := set_equal (c := a.osipfac) hne1 h2
      rw [hy']
      refine ⟨_, rfl, rfl, rfl, rfl, rfl, rfl, fun _ => ⟨y, ?_, rfl⟩, fun h => absurd h2 h⟩
      intro z hz
      simpa using hy (some z) (List.mem_map_of_mem hz)
    · rw [set_varying hne1 h2]
      exact ⟨_, rfl, rfl, rfl, rfl, rfl, rfl, fun h => absurd h h2, fun _ => rfl⟩

theorem map_some_replicate {fac : List ℝ} {x : ℝ} (h : ∀ y ∈ fac, y = x) :
    fac.map some = List.replicate fac.length (some x) := by
  rw [List.eq_replicate_iff]
  refine ⟨by simp, ?_⟩
  intro y hy
  obtain ⟨z, hz, rfl⟩ := List.mem_map.1 hy
  rw [h z hz]

/-- The recorded factors, read again, are the factors, if there was no keyword before (or all
factors are equal). -/
theorem recorded_ok {fac : List ℝ} {c c' : CkCell}
    (h1 : AllEqual (fac.map some) → ∃ x, (∀ y ∈ fac, y = x) ∧ c' = ⟨none, some (some x)⟩)
    (h2 : ¬ AllEqual (fac.map some) → c' = { c with col := some (fac.map some) })
    (hc : c.key = none ∨ AllEqual (fac.map some)) : c'.get fac.length = some (fac.map some) := by
  by_cases h : AllEqual (fac.map some)
  · obtain ⟨x, hx, rfl⟩ := h1 h
    simp only [CkCell.get]
    rw [map_some_replicate hx]
  · rw [h2 h]
    simp only [CkCell.get]
    rw [hc.resolve_right h]

theorem nominal_nonneg {a : Arf} {k : ℤ} (hE : ∀ e ∈ a.energLo ++ a.energHi, 0 ≤ e)
    (hs : k.sign = a.order.sign) : ∀ E ∈ nominalEnergies a k, 0 ≤ E := by
  intro E h
  obtain ⟨i, hi, rfl⟩ := List.mem_iff_getElem.1 h
  simp only [nominalEnergies, List.length_zipWith, lt_min_iff] at hi
  simp only [nominalEnergies, List.getElem_zipWith]
  have h1 := hE _ (List.mem_append_left _ (List.getElem_mem hi.1))
  have h2 := hE _ (List.mem_append_right _ (List.getElem_mem hi.2))
  have hm : 0 ≤ (k : ℝ) / (a.order : ℝ) := by
    rcases lt_trichotomy a.order 0 with h | h | h
    · have : k < 0 := by
        rw [Int.sign_eq_neg_one_of_neg h] at hs; exact Int.sign_eq_neg_one_iff_neg.1 hs
      exact div_nonneg_of_nonpos (by exact_mod_cast this.le) (by exact_mod_cast h.le)
    · rw [h]; simp
    · have : 0 < k := by
        rw [Int.sign_eq_one_of_pos h] at hs; exact Int.sign_eq_one_iff_pos.1 hs
      exact div_nonneg (by exact_mod_cast this.le) (by exact_mod_cast h.le)
  have : 1 / 2 * (a.energLo[i] + a.energHi[i]) / (a.order : ℝ) * (k : ℝ) =
      1 / 2 * (a.energLo[i] + a.energHi[i]) * ((k : ℝ) / (a.order : ℝ)) := by ring
  rw [this]
  positivity

theorem factors_exist {tab : List (ℝ × ℝ)} (h : GoodTab tab) {o : Osip} (ho : GoodOsip o) {a : Arf}
    {k : ℤ} (hE : ∀ e ∈ a.energLo ++ a.energHi, 0 ≤ e) (hord : ¬ (k = 0 ∧ a.order = 0)) :
    ∃ fac, FactorsOf tab o a k fac ∧ ∀ f ∈ fac, 0 ≤ f ∧ f ≤ 1 := by
  have key : ∀ l : List ℝ, (∀ E ∈ l, ∃ f, osipFactor tab o E k a.order = .ok f ∧ 0 ≤ f ∧ f ≤ 1) →
      ∃ fac, List.Forall₂ (fun E f => osipFactor tab o E k a.order = .ok f) l fac ∧
        ∀ f ∈ fac, 0 ≤ f ∧ f ≤ 1 := by
    intro l hl
    induction l with
    | nil => exact ⟨[], List.Forall₂.nil, by simp⟩
    | cons E l ih =>
      obtain ⟨fac, h1, h2⟩ := ih (fun E hE => hl E (by simp [hE]))
      obtain ⟨f, h3, h4⟩ := hl E (by simp)
      refine ⟨f :: fac, List.Forall₂.cons h3 h1, ?_⟩
      intro g hg
      rcases List.mem_cons.1 hg with rfl | hg
      · exact h4
      · exact h2 g hg
  refine key _ ?_
  intro E hEmem
  by_cases hs : k.sign = a.order.sign
  · exact C39_fraction h ho (nominal_nonneg hE hs E hEmem) k a.order hord
  · refine ⟨0, ?_, le_refl _, zero_le_one⟩
    unfold osipFactor
    rw [if_pos hs]

theorem apply_fresh {tab : List (ℝ × ℝ)} {o : Osip} {a : Arf} {area : List (Option ℝ)} {k : ℤ}
    {fac : List ℝ} (ha : FreshArf a area) (hf : FactorsOf tab o a k fac) :
    applyOsip tab o a k = writeOsip a ⟨some area, none⟩ k (fac.map some) := by
  obtain ⟨_, h2, _, h4⟩ := ha
  rw [← factors_of_mapM] at hf
  simp only [applyOsip, arfRead, h2, revertOsip, h4, CkCell.get, hf]

open Classical in
/-- **C40** `apply_osip` on a file that has not been order sorted always works, and the new file has in each
bin the old effective area times the order-sorting factor of that bin, and the factors are recorded.
(If this product is the same number in all bins, then the new file has no effective area column at all.) -/
theorem C40_effect {tab : List (ℝ × ℝ)} (h : GoodTab tab) {o : Osip} (ho : GoodOsip o) {a : Arf}
    {area : List (Option ℝ)} (ha : FreshArf a area) (hne : a.energLo ≠ []) {k : ℤ}
    (hE : ∀ e ∈ a.energLo ++ a.energHi, 0 ≤ e) (hord : ¬ (k = 0 ∧ a.order = 0)) :
    ∃ fac a', FactorsOf tab o a k fac ∧ fac.length = area.length ∧ applyOsip tab o a k = .ok a' ∧
      a'.energLo = a.energLo ∧ a'.energHi = a.energHi ∧ a'.order = a.order ∧ a'.ccdOrder = some k ∧
      a'.specresp = (if AllEqual (List.zipWith fmul (fac.map some) area) then none else
        some (List.zipWith fmul (fac.map some) area)) ∧
      a'.osipfac.get area.length = some (fac.map some) := by
  obtain ⟨fac, hf, _⟩ := factors_exist h ho hE hord
  have hl := factors_length ha.1 hf
  have hne' : fac ≠ [] := by
    intro h0; rw [h0] at hl; exact hne (List.length_eq_zero_iff.1 hl.symm)
  obtain ⟨a', h1, h2, h3, h4, h5, h6, h7, h8⟩ := write_ok a ⟨some area, none⟩ k fac area hne'
    (ha.2.2.1.trans hl.symm) rfl
  refine ⟨fac, a', hf, hl.trans ha.2.2.1.symm, ?_, h2, h3, h4, h5, h6, ?_⟩
  · rw [apply_fresh ha hf, h1]
  · rw [ha.2.2.1, ← hl]
    exact recorded_ok h7 h8 (Or.inl (by rw [ha.2.2.2]))

theorem div_mul_cancel_list (fac : List ℝ) (hne : ∀ x ∈ fac, x ≠ 0) (l : List (Option ℝ))
    (hl : fac.length = l.length) :
    List.zipWith fdiv (List.zipWith fmul (fac.map some) l) (fac.map some) = l := by
  induction fac generalizing l with
  | nil => cases l with
    | nil => rfl
    | cons => simp at hl
  | cons f fac ih =>
    cases l with
    | nil => simp at hl
    | cons x l =>
      have hf := hne f (by simp)
      have := ih (fun y hy => hne y (by simp [hy])) l (by simpa using hl)
      simp only [List.map_cons, List.zipWith_cons_cons, this]
      congr 1
      cases x with
      | none => rfl
      | some x => simp [fmul, fdiv, hf]

/-- A file after order sorting of `a`: the area is the product of some non-zero factors and the original
area, and these factors are what is read as `OSIPFAC`. -/
structure SortedOf (a : Arf) (area : List (Option ℝ)) (b : Arf) : Prop where
  lo : b.energLo = a.energLo
  hi : b.energHi = a.energHi
  ord : b.order = a.order
  fac : ∃ fac : List ℝ, fac.length = area.length ∧ (∀ x ∈ fac, x ≠ 0) ∧
    b.specresp = some (List.zipWith fmul (fac.map some) area) ∧
    b.osipfac.get area.length = some (fac.map some)

theorem get_of_set {spec area : List (Option ℝ)} (hne : area ≠ []) :
    ∃ cell, CkCell.set ⟨some spec, none⟩ area = .ok cell ∧ cell.get area.length = some area := by
  by_cases h : AllEqual area
  · obtain ⟨x, hx, hs⟩ := set_equal (c := ⟨some spec, none⟩) hne h
    refine ⟨_, hs, ?_⟩
    simp only [CkCell.get]
    congr 1
    symm
    rw [List.eq_replicate_iff]
    exact ⟨rfl, hx⟩
  · exact ⟨_, set_varying hne h, rfl⟩

theorem apply_sorted {tab : List (ℝ × ℝ)} {o : Osip} {a b : Arf} {area : List (Option ℝ)} {k : ℤ}
    {fac : List ℝ} (hb : SortedOf a area b) (hne : area ≠ []) (hf : FactorsOf tab o a k fac) :
    ∃ cell, cell.get area.length = some area ∧
      applyOsip tab o b k = writeOsip b cell k (fac.map some) := by
  obtain ⟨g, hg1, hg2, hg3, hg4⟩ := hb.fac
  have hlen : (List.zipWith fmul (g.map some) area).length = area.length := by
    simp [hg1]
  have hnom : nominalEnergies b k = nominalEnergies a k := by
    simp only [nominalEnergies, hb.lo, hb.hi, hb.ord]
  rw [← factors_of_mapM, ← hnom, ← hb.ord] at hf
  obtain ⟨cell, hc1, hc2⟩ := get_of_set (spec := List.zipWith fmul (g.map some) area) hne
  refine ⟨cell, hc2, ?_⟩
  simp only [applyOsip, arfRead, hg3, revertOsip, hlen, hg4]
  rw [div_mul_cancel_list g hg2 area hg1, hc1]
  simp only [hf]

theorem run_sorted {tab : List (ℝ × ℝ)} {a : Arf} {area : List (Option ℝ)} (ha : FreshArf a area)
    (hne : area ≠ []) (steps : List (Osip × ℤ)) (hs : ∀ s ∈ steps, SteadyStep tab a area s)
    (o : Osip) (k : ℤ) (c : Arf) (hc : applyOsip tab o a k = .ok c) (b : Arf)
    (hb : SortedOf a area b) (hkey : b.osipfac.key = none) :
    ∃ d, osipRun tab (steps ++ [(o, k)]) b = .ok d ∧ d.energLo = c.energLo ∧ d.energHi = c.energHi ∧
      d.order = c.order ∧ d.ccdOrder = c.ccdOrder ∧ d.specresp = c.specresp ∧
      d.osipfac.get area.length = c.osipfac.get area.length := by
  induction steps generalizing b with
  | nil =>
    have hok : ∃ fac, FactorsOf tab o a k fac := by
      simp only [applyOsip] at hc
      split at hc
      · cases hc
      · split at hc
        · cases hc
        · split at hc
          · cases hc
          · rename_i fac hfac
            exact ⟨fac, factors_of_mapM.1 hfac⟩
    obtain ⟨fac, hf⟩ := hok
    have hl := (factors_length ha.1 hf).trans ha.2.2.1.symm
    have hne' : fac ≠ [] := by
      intro h0; rw [h0] at hl; exact hne (List.length_eq_zero_iff.1 hl.symm)
    obtain ⟨cell, hcell, happ⟩ := apply_sorted hb hne hf
    obtain ⟨d, d1, d2, d3, d4, d5, d6, d7, d8⟩ := write_ok b cell k fac area hne' hl.symm
      (by rw [hl]; exact hcell)
    obtain ⟨c', c1, c2, c3, c4, c5, c6, c7, c8⟩ := write_ok a ⟨some area, none⟩ k fac area hne' hl.symm
      rfl
    rw [apply_fresh ha hf, c1] at hc
    cases hc
    refine ⟨d, ?_, ?_, ?_, ?_, ?_, ?_, ?_⟩
    · simp only [List.nil_append, osipRun, happ, d1]
    · rw [d2, c2, hb.lo]
    · rw [d3, c3, hb.hi]
    · rw [d4, c4, hb.ord]
    · rw [d5, c5]
    · rw [d6, c6]
    · rw [← hl, recorded_ok d7 d8 (Or.inl hkey), recorded_ok c7 c8 (Or.inl (by rw [ha.2.2.2]))]
  | cons s steps ih =>
    obtain ⟨o1, k1⟩ := s
    obtain ⟨fac, hf, hnz, hv, hv'⟩ := hs (o1, k1) (by simp)
    simp only at hf
    have hl := (factors_length ha.1 hf).trans ha.2.2.1.symm
    have hne' : fac ≠ [] := by
      intro h0; rw [h0] at hl; exact hne (List.length_eq_zero_iff.1 hl.symm)
    obtain ⟨cell, hcell, happ⟩ := apply_sorted hb hne hf
    obtain ⟨d, d1, d2, d3, d4, d5, d6, d7, d8⟩ := write_ok b cell k1 fac area hne' hl.symm
      (by rw [hl]; exact hcell)
    simp only [List.cons_append, osipRun, happ, d1]
    refine ih (fun s hs' => hs s (by simp [hs'])) d ?_ ?_
    · refine ⟨d2.trans hb.lo, d3.trans hb.hi, d4.trans hb.ord, fac, hl, hnz, ?_, ?_⟩
      · rw [d6, if_neg hv']
      · rw [← hl]; exact recorded_ok d7 d8 (Or.inl hkey)
    · rw [d8 hv]; exact hkey

/-- **C40** (partial: in the earlier steps no factor is 0, and the factors and the areas are not the same in all
bins; without this the claim is false, see `C40_stale_factor` and `C40_unreadable`.)
After any history of order-sorting steps on a file, the result is the same as that of the last step applied to
the original file. -/
theorem C40_history_partial {tab : List (ℝ × ℝ)} {a : Arf} {area : List (Option ℝ)}
    (ha : FreshArf a area) (hne : area ≠ []) (steps : List (Osip × ℤ))
    (hs : ∀ s ∈ steps, SteadyStep tab a area s) (o : Osip) (k : ℤ) (c : Arf)
    (hc : applyOsip tab o a k = .ok c) :
    ∃ d, osipRun tab (steps ++ [(o, k)]) a = .ok d ∧ d.energLo = c.energLo ∧ d.energHi = c.energHi ∧
      d.order = c.order ∧ d.ccdOrder = c.ccdOrder ∧ d.specresp = c.specresp ∧
      d.osipfac.get area.length = c.osipfac.get area.length := by
  cases steps with
  | nil =>
    refine ⟨c, ?_, rfl, rfl, rfl, rfl, rfl, rfl⟩
    simp only [List.nil_append, osipRun, hc]
  | cons s steps =>
    obtain ⟨o1, k1⟩ := s
    obtain ⟨fac, hf, hnz, hv, hv'⟩ := hs (o1, k1) (by simp)
    simp only at hf
    have hl := (factors_length ha.1 hf).trans ha.2.2.1.symm
    have hne' : fac ≠ [] := by
      intro h0; rw [h0] at hl; exact hne (List.length_eq_zero_iff.1 hl.symm)
    obtain ⟨d, d1, d2, d3, d4, d5, d6, d7, d8⟩ := write_ok a ⟨some area, none⟩ k1 fac area hne' hl.symm
      rfl
    simp only [List.cons_append, osipRun, apply_fresh ha hf, d1]
    refine run_sorted ha hne steps (fun s hs' => hs s (by simp [hs'])) o k c hc d ?_ ?_
    · refine ⟨d2, d3, d4, fac, hl, hnz, ?_, ?_⟩
      · rw [d6, if_neg hv']
      · rw [← hl]; exact recorded_ok d7 d8 (Or.inl (by rw [ha.2.2.2]))
    · rw [d8 hv, ha.2.2.2]

theorem fmul_zero_list (area : List ℝ) (n : ℕ) :
    ∀ x ∈ List.zipWith fmul (List.replicate n (some 0)) (area.map some), x = some 0 := by
  intro x hx
  obtain ⟨i, hi, rfl⟩ := List.mem_iff_getElem.1 hx
  simp [List.getElem_zipWith, fmul]

/-- **C40** If the order is on the other side (all factors are 0) the file that is written cannot be read as an
effective area file: it has no column `SPECRESP`, although the log says that the file has all entries equal to zero. -/
theorem C40_unreadable {tab : List (ℝ × ℝ)} {o : Osip} {a : Arf} {area : List ℝ} {k : ℤ}
    (ha : FreshArf a (area.map some)) (hne : area ≠ []) (hs : k.sign ≠ a.order.sign) :
    ∃ b, applyOsip tab o a k = .ok b ∧ arfRead b = .error .formatError := by
  have hf : FactorsOf tab o a k (List.replicate (nominalEnergies a k).length 0) := by
    unfold FactorsOf
    generalize nominalEnergies a k = l
    induction l with
    | nil => exact List.Forall₂.nil
    | cons E l ih =>
      refine List.Forall₂.cons ?_ ih
      unfold osipFactor
      rw [if_pos hs]
  have hl := (factors_length ha.1 hf).trans ha.2.2.1.symm
  have hne' : List.replicate (nominalEnergies a k).length (0 : ℝ) ≠ [] := by
    intro h0; rw [h0] at hl
    exact hne (by simpa using (List.length_eq_zero_iff.1 hl.symm))
  obtain ⟨d, d1, d2, d3, d4, d5, d6, d7, d8⟩ := write_ok a ⟨some (area.map some), none⟩ k _ _ hne' hl.symm
      rfl
  refine ⟨d, by rw [apply_fresh ha hf, d1], ?_⟩
  rw [if_pos] at d6
  · simp only [arfRead, d6]
  · refine ⟨0, ?_⟩
    rw [List.map_replicate]
    exact fmul_zero_list area _

/-- **C40** Applying an order sorting with different factors after one with the same factor `c` in all bins leaves the
old factor recorded in the file: what is read as `OSIPFAC` is `c` and not the new factors. -/
theorem C40_stale_factor {tab : List (ℝ × ℝ)} {a b : Arf} {area : List (Option ℝ)} {o : Osip} {k : ℤ}
    {fac : List ℝ} {x : ℝ} (hx : b.osipfac = ⟨none, some (some x)⟩) (hb : SortedOf a area b)
    (ha : FreshArf a area) (hne : area ≠ []) (hf : FactorsOf tab o a k fac)
    (hv : ¬ AllEqual (fac.map some)) :
    ∃ d, applyOsip tab o b k = .ok d ∧
      d.osipfac.get area.length = some (List.replicate area.length (some x)) ∧
      d.osipfac.get area.length ≠ some (fac.map some) := by
  have hl := (factors_length ha.1 hf).trans ha.2.2.1.symm
  have hne' : fac ≠ [] := by
    intro h0; rw [h0] at hl; exact hne (List.length_eq_zero_iff.1 hl.symm)
  obtain ⟨cell, hcell, happ⟩ := apply_sorted hb hne hf
  obtain ⟨d, d1, d2, d3, d4, d5, d6, d7, d8⟩ := write_ok b cell k fac area hne' hl.symm
      (by rw [hl]; exact hcell)
  have e : d.osipfac.get area.length = some (List.replicate area.length (some x)) := by
    rw [d8 hv, hx]; rfl
  refine ⟨d, happ.trans d1, e, ?_⟩
  rw [e]
  intro h
  apply hv
  refine ⟨x, ?_⟩
  have h' := Option.some.inj h
  rw [← h']
  intro y hy
  exact (List.mem_replicate.1 hy).2

/-! ### A concrete file -/

/-- A CCD with a resolution that depends on the energy. -/
def demoTab : List (ℝ × ℝ) := [(0, 1), (10, 11)]

/-- A file with two bins. -/
def demoArf : Arf :=
  { energLo := [1, 2], energHi := [1, 2], specresp := some [some 2, some 1], osipfac := ⟨none, none⟩,
    order := 1, ccdOrder := none }

theorem demo_good : GoodTab demoTab := by
  refine ⟨by simp [demoTab], ?_⟩
  intro p hp
  simp only [demoTab, List.mem_cons, List.not_mem_nil, or_false] at hp
  rcases hp with rfl | rfl <;> norm_num

theorem demo_fresh : FreshArf demoArf [some 2, some 1] := ⟨rfl, rfl, rfl, rfl⟩

theorem demo_sig1 : sigCcd demoTab 1 = .ok 2 := by
  simp only [sigCcd, demoTab, interp]
  norm_num

theorem demo_sig2 : sigCcd demoTab 2 = .ok 3 := by
  simp only [sigCcd, demoTab, interp]
  norm_num

theorem demo_energies : nominalEnergies demoArf 1 = [1, 2] := by
  simp only [nominalEnergies, demoArf, List.zipWith_cons_cons, List.zipWith_nil_left]
  norm_num

/-- The fraction within `w` of the center of a normal distribution of width `s`. -/
noncomputable def within (w s : ℝ) : ℝ := normCdf (w / s) - normCdf (-w / s)

theorem within_pos {w s : ℝ} (hw : 0 < w) (hs : 0 < s) : 0 < within w s := by
  have : normCdf (-w / s) < normCdf (w / s) := normCdf_strictMono (by gcongr; linarith)
  simp only [within]
  linarith

theorem within_anti {w s s' : ℝ} (hw : 0 < w) (hs : 0 < s) (h : s < s') :
    within w s' < within w s := by
  have h1 : normCdf (w / s') < normCdf (w / s) := normCdf_strictMono (by gcongr)
  have h2 : normCdf (-w / s) < normCdf (-w / s') := by
    apply normCdf_strictMono
    rw [neg_div, neg_div, neg_lt_neg_iff]
    gcongr
  simp only [within]
  linarith

theorem demo_factor {s E : ℝ} (w : ℝ) (h : sigCcd demoTab E = .ok s) :
    osipFactor demoTab (.fixedWidth w) E 1 1 = .ok (within w s) := by
  unfold osipFactor
  rw [if_neg (by simp), if_neg one_ne_zero]
  simp only [osipRange, Int.cast_one, div_one, mul_one]
  rw [window_eq h]
  simp only [rangeFromTab, fixedWidthTab, within]
  congr 3 <;> ring

theorem demo_width_factors (w : ℝ) :
    FactorsOf demoTab (.fixedWidth w) demoArf 1 [within w 2, within w 3] := by
  unfold FactorsOf
  rw [demo_energies]
  exact List.Forall₂.cons (demo_factor w demo_sig1)
    (List.Forall₂.cons (demo_factor w demo_sig2) List.Forall₂.nil)

theorem demo_fraction_factors (c : ℝ) (h0 : 0 ≤ c) (h1 : c < 1) :
    FactorsOf demoTab (.fixedFraction c) demoArf 1 [c, c] := by
  unfold FactorsOf
  rw [demo_energies]
  exact List.Forall₂.cons (C39_fixed_fraction demo_good c 1 1 one_ne_zero h0 h1)
    (List.Forall₂.cons (C39_fixed_fraction demo_good c 2 1 one_ne_zero h0 h1) List.Forall₂.nil)

theorem demo_varying {w : ℝ} (hw : 0 < w) :
    ¬ AllEqual ([within w 2, within w 3].map some) := by
  rintro ⟨c, hc⟩
  have h1 := hc (some (within w 2)) (by simp)
  have h2 := hc (some (within w 3)) (by simp)
  have := within_anti hw (s := 2) (s' := 3) (by norm_num) (by norm_num)
  rw [Option.some.inj h1, Option.some.inj h2] at this
  exact lt_irrefl _ this

/-- The hypotheses of `C40_history_partial` hold for any fixed width. -/
theorem demo_steady {w : ℝ} (hw : 0 < w) : SteadyStep demoTab demoArf [some 2, some 1] (.fixedWidth w, 1) := by
  refine ⟨_, demo_width_factors w, ?_, demo_varying hw, ?_⟩
  · intro x hx
    simp only [List.mem_cons, List.not_mem_nil, or_false] at hx
    rcases hx with rfl | rfl
    · exact (within_pos hw (by norm_num)).ne'
    · exact (within_pos hw (by norm_num)).ne'
  · rintro ⟨c, hc⟩
    simp only [List.map_cons, List.map_nil, List.zipWith_cons_cons, List.zipWith_nil_left, fmul,
      List.mem_cons, List.not_mem_nil, or_false, forall_eq_or_imp, forall_eq, Option.some.injEq] at hc
    have := within_anti hw (s := 2) (s' := 3) (by norm_num) (by norm_num)
    have := within_pos hw (s := 2) (by norm_num)
    linarith [hc.1, hc.2]

example : ∃ c, applyOsip demoTab (.fixedWidth 3) demoArf 1 = .ok c ∧ ∃ d,
    osipRun demoTab [(.fixedWidth 1, 1), (.fixedWidth 2, 1), (.fixedWidth 3, 1)] demoArf = .ok d ∧
      d.specresp = c.specresp := by
  obtain ⟨_, c, _, _, hc, _⟩ := C40_effect demo_good (o := .fixedWidth 3) (by norm_num [GoodOsip])
    demo_fresh (by simp [demoArf]) (k := 1) (by intro e he; simp [demoArf] at he; aesop)
    (by simp)
  refine ⟨c, hc, ?_⟩
  obtain ⟨d, h1, _, _, _, _, h2, _⟩ := C40_history_partial demo_fresh (by simp)
    [(.fixedWidth 1, 1), (.fixedWidth 2, 1)] (by
      intro s hs
      simp only [List.mem_cons, List.not_mem_nil, or_false] at hs
      rcases hs with rfl | rfl
      · exact demo_steady one_pos
      · exact demo_steady two_pos) (.fixedWidth 3) 1 c hc
  exact ⟨d, h1, h2⟩

/-- **C40** A concrete history for which the result of the last step depends on the earlier ones: after an order sorting
with a fixed fraction of 1/2, one with a fixed width, and another one with a fixed fraction of 1/2, the effective
area in the first bin is not half of the original. -/
theorem C40_history_false :
    ∃ (tab : List (ℝ × ℝ)) (a c d : Arf), GoodTab tab ∧ FreshArf a [some 2, some 1] ∧
      applyOsip tab (.fixedFraction (1 / 2)) a 1 = .ok c ∧
      osipRun tab [(.fixedFraction (1 / 2), 1), (.fixedWidth 1, 1), (.fixedFraction (1 / 2), 1)] a = .ok d ∧
      c.specresp = some [some 1, some (1 / 2)] ∧ d.specresp ≠ c.specresp := by
  have hF := demo_fraction_factors (1 / 2) (by norm_num) (by norm_num)
  have hW := demo_width_factors 1
  have hp2 := within_pos one_pos (s := 2) (by norm_num)
  have hp3 := within_pos one_pos (s := 3) (by norm_num)
  have hlt := within_anti one_pos (s := 2) (s' := 3) (by norm_num) (by norm_num)
  have hconst : AllEqual (([1 / 2, 1 / 2] : List ℝ).map some) := ⟨1 / 2, by simp⟩
  -- first step
  obtain ⟨c, c1, c2, c3, c4, c5, c6, c7, c8⟩ := write_ok demoArf ⟨some [some 2, some 1], none⟩ 1
    [1 / 2, 1 / 2] [some 2, some 1] (by simp) rfl rfl
  have hc := (apply_fresh demo_fresh hF).trans c1
  have hprod : ¬ AllEqual (List.zipWith fmul (([1 / 2, 1 / 2] : List ℝ).map some) [some 2, some 1]) := by
    rintro ⟨x, hx⟩
    simp only [List.map_cons, List.map_nil, List.zipWith_cons_cons, List.zipWith_nil_left, fmul,
      List.mem_cons, List.not_mem_nil, or_false, forall_eq_or_imp, forall_eq, Option.some.injEq] at hx
    linarith [hx.1, hx.2]
  rw [if_neg hprod] at c6
  obtain ⟨x, hx, hxo⟩ := c7 hconst
  have hx' : (1 : ℝ) / 2 = x := hx _ (by simp)
  subst hx'
  have hcs : c.specresp = some [some 1, some (1 / 2)] := by
    rw [c6]; simp [fmul]
  -- second step
  have hb : SortedOf demoArf [some 2, some 1] c :=
    ⟨c2, c3, c4, [1 / 2, 1 / 2], rfl, by simp, c6, by rw [hxo]; rfl⟩
  obtain ⟨cell, hcell, happ⟩ := apply_sorted hb (by simp) hW
  obtain ⟨e, e1, e2, e3, e4, e5, e6, e7, e8⟩ := write_ok c cell 1 [within 1 2, within 1 3]
    [some 2, some 1] (by simp) rfl hcell
  have hprod2 : ¬ AllEqual (List.zipWith fmul ([within 1 2, within 1 3].map some) [some 2, some 1]) := by
    rintro ⟨x, hx⟩
    simp only [List.map_cons, List.map_nil, List.zipWith_cons_cons, List.zipWith_nil_left, fmul,
      List.mem_cons, List.not_mem_nil, or_false, forall_eq_or_imp, forall_eq, Option.some.injEq] at hx
    linarith [hx.1, hx.2]
  rw [if_neg hprod2] at e6
  have he7 := e8 (demo_varying one_pos)
  -- third step: the recorded factor is still 1/2
  have h3 : SortedOf demoArf [some (4 * within 1 2), some (2 * within 1 3)] e := by
    refine ⟨e2.trans c2, e3.trans c3, e4.trans c4, [1 / 2, 1 / 2], rfl, by simp, ?_, ?_⟩
    · rw [e6]
      simp only [List.map_cons, List.map_nil, List.zipWith_cons_cons, List.zipWith_nil_left, fmul]
      congr 2
      · congr 1; ring
      · congr 2; ring
    · rw [he7, hxo]; rfl
  obtain ⟨cell', hcell', happ'⟩ := apply_sorted h3 (by simp) hF
  obtain ⟨d, d1, d2, d3, d4, d5, d6, d7, d8⟩ := write_ok e cell' 1 [1 / 2, 1 / 2]
    [some (4 * within 1 2), some (2 * within 1 3)] (by simp) rfl hcell'
  refine ⟨demoTab, demoArf, c, d, demo_good, demo_fresh, hc, ?_, hcs, ?_⟩
  · simp only [osipRun, hc, happ, e1, happ', d1]
  · rw [hcs, d6]
    split
    · simp
    · intro h
      simp only [List.map_cons, List.map_nil, List.zipWith_cons_cons, List.zipWith_nil_left, fmul,
        Option.some.injEq, List.cons.injEq, and_true] at h
      linarith [h.1, h.2]

/-! ## C76 -/

/-- **C76** `apply_osip_all` works on a pair of nominal and true order exactly if the nominal order was asked for, the
difference is one of the offsets, and both orders are on the same side (and neither is the zeroth order);
and for such a pair the order-sorting factor can be computed. -/
theorem C76_pairs (orders offsets : List ℤ) (n t : ℤ) :
    (n, t) ∈ osipJobs orders offsets ↔
      n ∈ orders ∧ t - n ∈ offsets ∧ ((0 < n ∧ 0 < t) ∨ (n < 0 ∧ t < 0)) := by
  have hsgn : ∀ a b : ℤ, (b ≠ 0 ∧ a.sign = b.sign) ↔ ((0 < a ∧ 0 < b) ∨ (a < 0 ∧ b < 0)) := by
    intro a b
    constructor
    · rintro ⟨h0, hs⟩
      rcases lt_trichotomy b 0 with h | h | h
      · rw [Int.sign_eq_neg_one_of_neg h] at hs
        exact Or.inr ⟨Int.sign_eq_neg_one_iff_neg.1 hs, h⟩
      · exact absurd h h0
      · rw [Int.sign_eq_one_of_pos h] at hs
        exact Or.inl ⟨Int.sign_eq_one_iff_pos.1 hs, h⟩
    · rintro (⟨h1, h2⟩ | ⟨h1, h2⟩)
      · exact ⟨h2.ne', by rw [Int.sign_eq_one_of_pos h1, Int.sign_eq_one_of_pos h2]⟩
      · exact ⟨h2.ne, by rw [Int.sign_eq_neg_one_of_neg h1, Int.sign_eq_neg_one_of_neg h2]⟩
  unfold osipJobs
  simp only [List.mem_flatMap, List.mem_map, List.mem_filter, decide_eq_true_eq, Prod.mk.injEq, hsgn]
  constructor
  · rintro ⟨o, ho, d, ⟨hd, hs⟩, rfl, rfl⟩
    refine ⟨ho, ?_, hs⟩
    rw [show o + d - o = d by ring]
    exact hd
  · rintro ⟨ho, hd, hs⟩
    refine ⟨n, ho, t - n, ⟨hd, ?_⟩, rfl, by ring⟩
    rw [show n + (t - n) = t by ring]
    exact hs

/-- **C76** No pair is processed twice, if orders and offsets are given without repetition. -/
theorem C76_once (orders offsets : List ℤ) (h1 : orders.Nodup) (h2 : offsets.Nodup) :
    (osipJobs orders offsets).Nodup := by
  unfold osipJobs
  rw [List.nodup_flatMap]
  constructor
  · intro o _
    refine List.Nodup.map ?_ (h2.filter _)
    intro a b h
    simpa using h
  · refine h1.imp ?_
    intro a b hab
    simp only [Function.onFun, List.disjoint_left, List.mem_map, List.mem_filter]
    rintro p ⟨t, _, rfl⟩ ⟨t', _, h⟩
    exact hab (Prod.mk.inj h).1.symm

/-- **C76** For every pair that is processed, each bin with a positive energy gets a positive factor for every window
of positive size: a processed file always contributes. -/
theorem C76_contributes {tab : List (ℝ × ℝ)} (h : GoodTab tab) (w : ℝ) (hw : 0 < w) (E : ℝ)
    (orders offsets : List ℤ) (n t : ℤ) (hj : (n, t) ∈ osipJobs orders offsets) :
    ∃ p, osipFactor tab (.fixedWidth w) E n t = .ok p ∧ 0 < p := by
  obtain ⟨_, _, hs⟩ := (C76_pairs _ _ _ _).1 hj
  obtain ⟨s, hs', hpos⟩ := sig_pos h (E * ((t : ℝ) / (n : ℝ)))
  have hsg : n.sign = t.sign := by
    rcases hs with ⟨h1, h2⟩ | ⟨h1, h2⟩
    · rw [Int.sign_eq_one_of_pos h1, Int.sign_eq_one_of_pos h2]
    · rw [Int.sign_eq_neg_one_of_neg h1, Int.sign_eq_neg_one_of_neg h2]
  have hn : n ≠ 0 := by rcases hs with ⟨h1, _⟩ | ⟨h1, _⟩ <;> omega
  unfold osipFactor
  rw [if_neg (by simpa using hsg), if_neg hn]
  simp only [osipRange]
  refine ⟨_, window_eq hs' _, ?_⟩
  simp only [rangeFromTab, fixedWidthTab]
  have : normCdf ((E + w * (-1) - E * ((t : ℝ) / (n : ℝ))) / s) <
      normCdf ((E + w * 1 - E * ((t : ℝ) / (n : ℝ))) / s) :=
    normCdf_strictMono (by gcongr; linarith)
  linarith

example : (4, 5) ∈ osipJobs [-1, 0, 1, 4] [-1, 0, 1] ∧ (1, 0) ∉ osipJobs [-1, 0, 1, 4] [-1, 0, 1] := by
  decide

end Marxs
