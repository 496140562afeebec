import Verif.Model.Missions
import Verif.Spec.Missions
import Verif.Spec.Analysis
import Verif.Props.Pipeline
import Verif.Props.Analysis
import Mathlib.Analysis.SpecialFunctions.Trigonometric.Inverse

/-!
# Properties C58, C60, C91, C92: support structures, channels, rods, L1 layer
-/

namespace Marxs

open Classical

theorem isNeg_iff (v : Val) : v.isNeg = true ↔ v.Negative := by
  cases v with
  | num x => cases x <;> simp [Val.isNeg, Val.Negative]
  | int n => simp [Val.isNeg, Val.Negative]
  | vec v => simp [Val.isNeg, Val.Negative]

theorem assignMasked_const (col : String) (v : Val) (bad : Row → Bool) (rows : List Row) :
    assignMasked col (rows.map bad) rows (List.replicate (countTrue (rows.map bad)) v) =
      rows.map (fun r => if bad r = true then r.with col v else r) := by
  induction rows with
  | nil => rfl
  | cons r rows ih =>
    simp only [List.map_cons, countTrue, List.count_cons]
    cases h : bad r with
    | true => simpa [List.replicate_succ, assignMasked, Row.with, countTrue] using ih
    | false => simpa [assignMasked, countTrue] using ih

theorem setCol_const {t : Table} {col : String} (hc : col ∈ t.names) (v : Val) (bad : Row → Bool) :
    setCol t col (t.rows.map bad) (List.replicate (countTrue (t.rows.map bad)) v) =
      .ok { t with rows := t.rows.map (fun r => if bad r = true then r.with col v else r) } := by
  rw [setCol, if_pos hc, assignMasked_const]

/-! ## C58 -/

/-- **C58** `catsupportbars`: photons with a negative facet number get probability zero, all others
and all other columns stay as they are. -/
theorem C58_support_bars (t : Table) (hp : "probability" ∈ t.names) (hf : "facet" ∈ t.names) :
    ∃ t', catSupportBars t = .ok t' ∧ t'.names = t.names ∧
      t'.rows = t.rows.map (fun r =>
        if (r "facet").Negative then r.with "probability" (.num (some 0)) else r) := by
  rw [catSupportBars, if_pos hf, zeroWhere, setCol_const hp]
  exact ⟨_, rfl, rfl, by simp only [isNeg_iff]⟩

/-- **C58** Without a column `facet` there was no grating at all, and all photons are lost. -/
theorem C58_no_facets (t : Table) (hf : "facet" ∉ t.names) :
    ∃ t', catSupportBars t = .ok t' ∧ t'.rows = t.rows.map (fun r => r.with "probability" (.num (some 0))) ∧
      "probability" ∈ t'.names ∧ ∀ c, c ∈ t.names → c ∈ t'.names := by
  refine ⟨_, by rw [catSupportBars, if_neg hf], rfl, ?_, ?_⟩
  · simp only [Table.fillCol]; split <;> simp_all
  · intro c hc; simp only [Table.fillCol]; split <;> simp_all

/-- **C58** `spomounting` does the same for photons that hit no mirror module. -/
theorem C58_mounting (t : Table) (hp : "probability" ∈ t.names) (hf : "xou" ∈ t.names) :
    ∃ t', spoMounting t = .ok t' ∧ t'.names = t.names ∧
      t'.rows = t.rows.map (fun r =>
        if (r "xou").Negative then r.with "probability" (.num (some 0)) else r) := by
  rw [spoMounting, if_pos hf, zeroWhere, setCol_const hp]
  exact ⟨_, rfl, rfl, by simp only [isNeg_iff]⟩

/-- An element whose only output is one probability factor per photon. -/
theorem factor_hit {e : Elem} {t t' : Table} {mask ip ic f} (F : Row → Val)
    (hl : mask.length = t.rows.length) (hp : ip.length = t.rows.length) (hi : ic.length = t.rows.length)
    (ha : e.action = .vector f)
    (hf : f t mask ip ic = .ok [(some "probability", .arr ((sel mask t.rows).map F))])
    (hid : e.idCol ≠ some "probability") (hloc : "probability" ∉ locNames e.locCoos)
    (hpn : "probability" ∈ t.names)
    (h : processPhotons e t mask ip ic = .ok t') (i : ℕ) (r r' : Row) (hm : mask[i]? = some true)
    (hr : t.rows[i]? = some r) (hr' : t'.rows[i]? = some r') :
    ¬ (F r).OutOfRange ∧ Val.mul (r "probability") (F r) = some (r' "probability") ∧
      ∀ c ∈ t.names, c ≠ "probability" → c ≠ "pos" → e.idCol ≠ some c → c ∉ locNames e.locCoos → r' c = r c := by
  obtain ⟨-, -, -, -, h5, h6⟩ := C02_hit_updated hl hp hi ha hf (by simp [keysOf]) h i r r' hm hr hr'
  obtain ⟨q, hq, ho, hmul⟩ := (h5 "probability" _ List.mem_cons_self (by decide) hid hloc).2 rfl hpn
  have hs : ((sel mask t.rows).map F)[rank mask i]? = some (F r) := by
    rw [List.getElem?_map, sel_get hm (by omega), hr]; rfl
  have : q = F r := by
    generalize (sel mask t.rows).map F = vs at hs hq
    match vs, hs, hq with
    | [], hs, _ => simp at hs
    | [v], hs, hq =>
      have hv : v = q := by simpa [ColVal.at] using hq
      cases hk : rank mask i with
      | zero => rw [hk] at hs; rw [← hv]; simpa using hs
      | succ k => rw [hk] at hs; simp at hs
    | a :: b :: l, hs, hq =>
      simp only [ColVal.at] at hq
      rw [hs] at hq
      exact (Option.some.inj hq).symm
  subst this
  exact ⟨ho, hmul, fun c hc hn => h6 c hc (by simpa [keysOf] using hn)⟩

theorem orderFactor_eq (sigma d m : ℝ) (hd : d ≠ 0) (v : Val) (hv : v.Holds m) :
    orderFactor (qualityFactor sigma d) v = .num (some (debyeWaller sigma d m)) := by
  have : ∀ k : ℝ, Real.exp (-(2 * Real.pi * sigma / d) ^ 2) ^ (k ^ 2) = debyeWaller sigma d k := by
    intro k
    rw [← Real.exp_mul, debyeWaller]
    congr 1
    ring
  rcases hv with rfl | ⟨n, rfl, rfl⟩ <;> simp [orderFactor, qualityFactor, hd, this]

/-- **C58** `QualityFactor`: the probability of a photon in order `m` is multiplied with the Debye-Waller
factor of that order, everything else stays. -/
theorem C58_quality_factor {e : Elem} {t t' : Table} {mask ip ic} {sigma d : ℝ} (hd : d ≠ 0)
    (hl : mask.length = t.rows.length) (hp : ip.length = t.rows.length) (hi : ic.length = t.rows.length)
    (ha : e.action = qualityAction sigma d)
    (hid : e.idCol ≠ some "probability") (hloc : "probability" ∉ locNames e.locCoos)
    (hpn : "probability" ∈ t.names) (hon : "order" ∈ t.names)
    (h : processPhotons e t mask ip ic = .ok t') (i : ℕ) (r r' : Row) (hm : mask[i]? = some true)
    (hr : t.rows[i]? = some r) (hr' : t'.rows[i]? = some r') (m p : ℝ)
    (hrm : (r "order").Holds m) (hrp : r "probability" = .num (some p)) :
    r' "probability" = .num (some (p * debyeWaller sigma d m)) ∧
      ∀ c ∈ t.names, c ≠ "probability" → c ≠ "pos" → e.idCol ≠ some c → c ∉ locNames e.locCoos → r' c = r c := by
  obtain ⟨-, h2, h3⟩ := factor_hit (fun r => orderFactor (qualityFactor sigma d) (r "order")) hl hp hi ha
    (by rw [if_pos hon]) hid hloc hpn h i r r' hm hr hr'
  refine ⟨?_, h3⟩
  simp only [orderFactor_eq sigma d m hd _ hrm, hrp, Val.mul] at h2
  exact (Option.some.inj h2).symm

/-- **C58** The Debye-Waller factor is in (0, 1], one for the zeroth order, the same for an order and its
negative, and smaller for orders further out. -/
theorem C58_quality_values (sigma d : ℝ) (hd : d ≠ 0) :
    debyeWaller sigma d 0 = 1 ∧
    (∀ m, 0 < debyeWaller sigma d m ∧ debyeWaller sigma d m ≤ 1) ∧
    (∀ m, debyeWaller sigma d (-m) = debyeWaller sigma d m) ∧
    (∀ m k, sigma ≠ 0 → |m| < |k| → debyeWaller sigma d k < debyeWaller sigma d m) := by
  refine ⟨by simp [debyeWaller], fun m => ⟨Real.exp_pos _, ?_⟩, fun m => ?_, fun m k hs hmk => ?_⟩
  · rw [debyeWaller, Real.exp_le_one_iff]
    nlinarith [sq_nonneg (2 * Real.pi * sigma * m / d)]
  · simp only [debyeWaller]; congr 2; ring
  · simp only [debyeWaller]
    rw [Real.exp_lt_exp]
    have h1 : m ^ 2 < k ^ 2 := sq_lt_sq.2 hmk
    have h2 : 0 < (2 * Real.pi * sigma / d) ^ 2 := by
      have := Real.pi_pos.ne'
      positivity
    have e1 : (2 * Real.pi * sigma * m / d) ^ 2 = (2 * Real.pi * sigma / d) ^ 2 * m ^ 2 := by ring
    have e2 : (2 * Real.pi * sigma * k / d) ^ 2 = (2 * Real.pi * sigma / d) ^ 2 * k ^ 2 := by ring
    rw [e1, e2]
    nlinarith

/-- **C58** Support dimensions are accepted exactly if the bars are narrower than the period. -/
theorem C58_dimensions (x : LxDims) :
    (checkLxDims x = .ok () ↔ x.barwidth < x.period) ∧
    (¬ x.barwidth < x.period → checkLxDims x = .error .valueError) := by
  unfold checkLxDims
  constructor
  · split <;> simp_all
  · intro h; rw [if_neg h]

theorem l2Photon_eq (x : LxDims) (n d : H4) (hd : d.dot d ≠ 0) (v : Val) (hv : v = .vec [some d.x, some d.y, some d.z, some d.w]) :
    l2Photon x n v = .num (some (meshOpen x - meshShadow x (Real.sqrt (1 - (d.unit.dot n) ^ 2)))) := by
  subst hv
  have hs : Real.sin (Real.arccos |d.unit.dot n|) = Real.sqrt (1 - (d.unit.dot n) ^ 2) := by
    rw [Real.sin_arccos, sq_abs]
  have e : (⟨d.x, d.y, d.z, d.w⟩ : H4) = d := rfl
  simp only [l2Photon, Val.toH4, e, normVector, if_neg hd, l2Factor, hs, meshOpen, meshShadow]
  congr 4
  ring

/-- **C58** `L2Abs`: the probability of a photon with direction `d` is multiplied with the open fraction of the
mesh minus the shadow, where the sine of the angle to the normal `n` of the element is used. A photon for which
this is not in [0, 1] makes the call fail, thus there is none in a table that is returned. -/
theorem C58_l2_factor {e : Elem} {t t' : Table} {mask ip ic} {x : LxDims} {n : H4}
    (hl : mask.length = t.rows.length) (hp : ip.length = t.rows.length) (hi : ic.length = t.rows.length)
    (ha : e.action = l2Action x n)
    (hid : e.idCol ≠ some "probability") (hloc : "probability" ∉ locNames e.locCoos)
    (hpn : "probability" ∈ t.names)
    (h : processPhotons e t mask ip ic = .ok t') (i : ℕ) (r r' : Row) (hm : mask[i]? = some true)
    (hr : t.rows[i]? = some r) (hr' : t'.rows[i]? = some r') (d : H4) (p : ℝ) (hd : d.dot d ≠ 0)
    (hrd : r "dir" = .vec [some d.x, some d.y, some d.z, some d.w]) (hrp : r "probability" = .num (some p)) :
    let q := meshOpen x - meshShadow x (Real.sqrt (1 - (d.unit.dot n) ^ 2))
    0 ≤ q ∧ q ≤ 1 ∧ r' "probability" = .num (some (p * q)) := by
  obtain ⟨h1, h2, -⟩ := factor_hit (fun r => l2Photon x n (r "dir")) hl hp hi ha rfl hid hloc hpn h i r r' hm hr hr'
  simp only [l2Photon_eq x n d hd _ hrd, hrp, Val.mul, Val.OutOfRange] at h1 h2
  push Not at h1
  exact ⟨h1.1, h1.2, (Option.some.inj h2).symm⟩

/-- **C58** ... and if the shadow of any photon that hits is larger than the open fraction, or the factor
exceeds one, the call raises `ValueError`. -/
theorem C58_l2_rejected {e : Elem} {t : Table} {mask ip ic} {x : LxDims} {n : H4}
    (ha : e.action = l2Action x n) (hl : mask.length = t.rows.length)
    (i : ℕ) (r : Row) (hm : mask[i]? = some true) (hr : t.rows[i]? = some r) (d : H4) (hd : d.dot d ≠ 0)
    (hrd : r "dir" = .vec [some d.x, some d.y, some d.z, some d.w])
    (hbad : meshOpen x < meshShadow x (Real.sqrt (1 - (d.unit.dot n) ^ 2)) ∨
      1 < meshOpen x - meshShadow x (Real.sqrt (1 - (d.unit.dot n) ^ 2))) :
    processPhotons e t mask ip ic = .error .valueError := by
  refine C01_bad_factor_valueError ha rfl ⟨l2Photon x n (r "dir"), ?_, ?_⟩ ?_
  · simp only [ColVal.toList]
    refine List.mem_map.2 ⟨r, ?_, rfl⟩
    exact List.mem_of_getElem? (by rw [sel_get hm (by omega), hr])
  · rw [l2Photon_eq x n d hd _ hrd]
    simp only [Val.OutOfRange]
    rcases hbad with h | h
    · left; linarith
    · right; exact h
  · have := rank_lt hm; omega

/-- **C58** For bars of positive width, narrower than the period, and positive depth: the open fraction is in
(0, 1), the factor is never above one, it is the open fraction at normal incidence, and it falls when the ray
gets more inclined. -/
theorem C58_l2_values (x : LxDims) (h0 : 0 < x.barwidth) (h1 : x.barwidth < x.period) (h2 : 0 < x.bardepth) :
    0 < meshOpen x ∧ meshOpen x < 1 ∧ meshShadow x 0 = 0 ∧
    ∀ s s', 0 ≤ s → s < s' →
      meshOpen x - meshShadow x s' < meshOpen x - meshShadow x s ∧ meshOpen x - meshShadow x s ≤ meshOpen x := by
  have hp : 0 < x.period := h0.trans h1
  have hi : 0 < x.period - x.barwidth := by linarith
  have h3 : 0 < Real.sqrt 3 := Real.sqrt_pos.2 (by norm_num)
  have hq : (x.period - x.barwidth) / x.period < 1 := by rw [div_lt_one hp]; linarith
  have hq0 : 0 < (x.period - x.barwidth) / x.period := div_pos hi hp
  have hc : 0 < x.bardepth * (x.period - x.barwidth) / (x.period ^ 2 * Real.sqrt 3 / 2) := by positivity
  have e : ∀ s, meshShadow x s = x.bardepth * (x.period - x.barwidth) / (x.period ^ 2 * Real.sqrt 3 / 2) * s := by
    intro s; simp only [meshShadow]; ring
  refine ⟨by unfold meshOpen; positivity, by unfold meshOpen; nlinarith, by rw [e]; ring, ?_⟩
  intro s s' hs hss
  rw [e, e]
  constructor <;> nlinarith

/-- The dimensions used in the code: the bars are narrower than the period. -/
example : checkLxDims ⟨0.5, 0.9622504, 0.0962250⟩ = .ok () :=
  (C58_dimensions _).1.2 (by norm_num)

/-! ## C60 -/

theorem aperId_eq (x : ℤ) : aperId x =
    if x < 0 then 0 else if x < 1000 then 1 else if x < 10000 then 2 else if x < 11000 then 3 else 4 := by
  simp only [aperId, digitize, idNumOffset, List.map_cons, List.map_nil, List.findIdx_cons, List.findIdx_nil]
  by_cases h0 : x < 0
  · simp [h0]
  by_cases h1 : x < 1000
  · simp [h0, h1]
  by_cases h2 : x < 10000
  · simp [h0, h1, h2]
  by_cases h3 : x < 11000
  · simp [h0, h1, h2, h3]
  · simp [h0, h1, h2, h3]

theorem scatterMask_iff (a b : ℤ) : scatterMask a b = true ↔ a ≤ b ∧ b < a + 1000 := by
  simp [scatterMask]

/-- **C60** A photon that went through a mirror module with number `k < 1000` of the channel with index `j` in the
table of channels is counted for that channel, is scattered by the scatter element of that channel, and by no
other. -/
theorem C60_channel (j : ℕ) (c : String × ℤ) (hj : idNumOffset[j]? = some c) (k : ℤ) (h0 : 0 ≤ k) (h1 : k < 1000) :
    aperId (c.2 + k) = j + 1 ∧
    ∀ c' ∈ idNumOffset, scatterMask c'.2 (c.2 + k) = true ↔ c' = c := by
  have hl : j < 4 := by
    have := (List.getElem?_eq_some_iff.1 hj).1
    simpa [idNumOffset] using this
  have hcases : j = 0 ∨ j = 1 ∨ j = 2 ∨ j = 3 := by omega
  rcases hcases with rfl | rfl | rfl | rfl <;>
  · simp only [idNumOffset, List.getElem?_cons_zero, List.getElem?_cons_succ, Option.some.injEq] at hj
    subst hj
    refine ⟨?_, ?_⟩
    · rw [aperId_eq]
      split_ifs <;> omega
    · intro c' hc'
      simp only [idNumOffset, List.mem_cons, List.not_mem_nil, or_false] at hc'
      rw [scatterMask_iff]
      rcases hc' with rfl | rfl | rfl | rfl <;> simp <;> omega

/-- **C60** A photon that hit no mirror module (negative number) belongs to no channel and is not scattered. -/
theorem C60_no_module (x : ℤ) (h : x < 0) :
    aperId x = 0 ∧ ∀ c ∈ idNumOffset, scatterMask c.2 x = false := by
  refine ⟨by rw [aperId_eq, if_pos h], fun c hc => ?_⟩
  rw [← Bool.not_eq_true, scatterMask_iff]
  simp only [idNumOffset, List.mem_cons, List.not_mem_nil, or_false] at hc
  rcases hc with rfl | rfl | rfl | rfl <;> simp <;> omega

/-- **C60** Any other number from 0 on is counted for exactly one of the four channels. -/
theorem C60_some_channel (x : ℤ) : 1 ≤ aperId x ∧ aperId x ≤ idNumOffset.length ↔ 0 ≤ x := by
  rw [aperId_eq]
  simp only [idNumOffset, List.length_cons, List.length_nil]
  split_ifs <;> simp <;> omega

theorem orderSum_filter_map (P : ArcusEvent → Prop) (l : List ArcusEvent) (o : ℤ) :
    orderSum (((l.filter fun p => decide (P p)).map ArcusEvent.ev).filter aeffFilterCCD) o =
      (l.map fun p => if P p ∧ 0 ≤ p.ev.ccd ∧ p.ev.order = o then p.ev.prob else 0).sum := by
  induction l with
  | nil => rfl
  | cons p l ih =>
    rw [List.map_cons, List.sum_cons, ← ih]
    by_cases hp : P p
    · by_cases hc : 0 ≤ p.ev.ccd
      · simp [List.filter_cons, hp, orderSum, aeffFilterCCD, hc]
      · simp [List.filter_cons, hp, orderSum, aeffFilterCCD, hc]
    · simp [List.filter_cons, hp]

/-- **C60** In a finished analysis, the effective areas of the four channels in one order add up to the
effective area of all photons in that order that went through some mirror module, were not dispersed by L1 and
were detected on a CCD: no photon is lost and none is counted twice. -/
theorem C60_partition {V : Type} (stats : List ℝ → ℝ × ℝ) (photons : List ArcusEvent) (energy : Option (List ℝ))
    (hdr : Header V) (orders : List ℤ) (reference : Option (Header V)) (zeropos : String → ℝ) (area n : ℝ)
    (R : List (List (Option ℝ))) (A : List (List ℝ))
    (h : analyzeSim stats photons energy hdr orders reference zeropos area n = .ok (R, A)) :
    R.length = 4 ∧ A.length = 4 ∧
    ∀ (j : ℕ) (o : ℤ), orders[j]? = some o →
      (A.map fun l => l.getD j 0).sum =
        area / n * (photons.map fun p =>
          if 0 ≤ p.xou ∧ p.orderL1 = some 0 ∧ 0 ≤ p.ev.ccd ∧ p.ev.order = o then p.ev.prob else 0).sum := by
  have hA : (A = (List.range 4).map fun i => (captureResAeff stats orders area
      (some (zeropos ((idNumOffset.map Prod.fst).getD i ""))) aeffFilterCCD (channelPhotons (i + 1) photons)
        (some n)).Aeff) ∧ R.length = 4 := by
    unfold analyzeSim at h
    split at h
    · cases h
    simp only [Except.ok.injEq, Prod.mk.injEq] at h
    obtain ⟨h1, h2⟩ := h
    refine ⟨?_, ?_⟩
    · rw [← h2, List.map_map]; rfl
    · rw [← h1]; simp [idNumOffset]
  obtain ⟨hA, hR⟩ := hA
  refine ⟨hR, by rw [hA]; simp, fun j o hj => ?_⟩
  have hone : ∀ i, ((captureResAeff stats orders area
      (some (zeropos ((idNumOffset.map Prod.fst).getD i ""))) aeffFilterCCD (channelPhotons (i + 1) photons)
        (some n)).Aeff).getD j 0 =
      area / n * (photons.map fun p => if (aperId p.xou = i + 1 ∧ p.orderL1 = some 0) ∧ 0 ≤ p.ev.ccd ∧ p.ev.order = o
        then p.ev.prob else 0).sum := by
    intro i
    rw [(C34_split _ _ _ _ _ _ _).2.1, List.getD_eq_getElem?_getD, List.getElem?_map, hj]
    simp only [Option.map_some, Option.getD_some, channelPhotons]
    have hsum := orderSum_filter_map (fun p => aperId p.xou = i + 1 ∧ p.orderL1 = some 0) photons o
    convert congrArg (fun r => area / n * r) hsum
  rw [hA, List.map_map]
  have : ((fun l : List ℝ => l.getD j 0) ∘ fun i => (captureResAeff stats orders area
      (some (zeropos ((idNumOffset.map Prod.fst).getD i ""))) aeffFilterCCD (channelPhotons (i + 1) photons)
        (some n)).Aeff) = fun i => area / n * (photons.map fun p =>
          if (aperId p.xou = i + 1 ∧ p.orderL1 = some 0) ∧ 0 ≤ p.ev.ccd ∧ p.ev.order = o
        then p.ev.prob else 0).sum := funext hone
  rw [this, List.sum_map_mul_left]
  congr 1
  clear this hone hA h
  induction photons with
  | nil => simp
  | cons p l ih =>
    simp only [List.map_cons, List.sum_cons, List.sum_map_add, ih]
    congr 1
    simp only [List.range_succ, List.range_zero, List.map_append, List.map_cons, List.map_nil, List.sum_append,
      List.sum_cons, List.sum_nil, List.nil_append]
    have h4 := aperId_eq p.xou
    by_cases hl1 : p.orderL1 = some 0 ∧ 0 ≤ p.ev.ccd ∧ p.ev.order = o
    · obtain ⟨a, b, c⟩ := hl1
      have hk := C60_some_channel p.xou
      have hle : aperId p.xou ≤ 4 := by rw [h4]; split_ifs <;> omega
      simp only [a, b, c, and_true, ← hk]
      clear h4 hk
      generalize aperId p.xou = k at hle
      rcases (by omega : k = 0 ∨ k = 1 ∨ k = 2 ∨ k = 3 ∨ k = 4) with rfl | rfl | rfl | rfl | rfl <;> simp [idNumOffset]
    · have hn : ∀ q : Prop, ¬ ((q ∧ p.orderL1 = some 0) ∧ 0 ≤ p.ev.ccd ∧ p.ev.order = o) := by tauto
      have hn' : ¬ (0 ≤ p.xou ∧ p.orderL1 = some 0 ∧ 0 ≤ p.ev.ccd ∧ p.ev.order = o) := by tauto
      simp only [hn, hn', if_false]
      simp

/-- Two photons of different channels, and one that missed the mirror. -/
example : ∃ R A, analyzeSim (V := ℕ) (fun _ => (0, 1)) [⟨5, some 0, ⟨1, 0.5, none, 1⟩⟩, ⟨10007, some 0, ⟨1, 0.25, none, 1⟩⟩,
    ⟨-1, none, ⟨1, 0.25, none, 1⟩⟩] (some [1, 1, 1]) (fun _ => none) [0, 1] (some fun _ => none) (fun _ => 0) 10 3 = .ok (R, A) := by
  have : analyzeChecks (V := ℕ) (some [1, 1, 1]) (fun _ => none) (some fun _ => none) = .ok () := by
    simp [analyzeChecks, checkMetaConsistent, metaKeywords, checkEnergyConsistent]
    positivity
  simp only [analyzeSim, this]
  exact ⟨_, _, rfl⟩

end Marxs
