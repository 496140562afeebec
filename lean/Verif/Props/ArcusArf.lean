import Mathlib.Tactic
import Mathlib.Analysis.SpecialFunctions.Complex.Arg
import Verif.Model.ArcusArf
import Verif.Spec.ArcusArf
import Verif.Props.Ogip

/-!
# C116: effective areas for Arcus
-/

namespace Marxs

open Classical

theorem corner_sign {X Y θ : ℝ} (hX : 0 < X) (h1 : -(Real.pi / 2) ≤ θ) (h2 : θ ≤ Real.pi / 2) :
    (θ < arctan2 Y X ↔ 0 < Y * Real.cos θ - X * Real.sin θ) ∧
    (arctan2 Y X < θ ↔ Y * Real.cos θ - X * Real.sin θ < 0) := by
  have hz : (⟨X, Y⟩ : ℂ) ≠ 0 := by
    intro h0; have := congrArg Complex.re h0; simp at this; linarith
  have hr : 0 < ‖(⟨X, Y⟩ : ℂ)‖ := norm_pos_iff.2 hz
  have hc : X = ‖(⟨X, Y⟩ : ℂ)‖ * Real.cos (arctan2 Y X) := by
    rw [arctan2, Complex.cos_arg hz]; field_simp
  have hs : Y = ‖(⟨X, Y⟩ : ℂ)‖ * Real.sin (arctan2 Y X) := by
    rw [arctan2, Complex.sin_arg]; field_simp
  have hab : |arctan2 Y X| < Real.pi / 2 := by
    rw [arctan2, Complex.abs_arg_lt_pi_div_two_iff]; left; exact hX
  obtain ⟨ha, hb⟩ := abs_lt.1 hab
  set r := ‖(⟨X, Y⟩ : ℂ)‖
  set α := arctan2 Y X
  have key : Y * Real.cos θ - X * Real.sin θ = r * Real.sin (α - θ) := by
    rw [Real.sin_sub]
    have e1 : Y * Real.cos θ = r * Real.sin α * Real.cos θ := by rw [← hs]
    have e2 : X * Real.sin θ = r * Real.cos α * Real.sin θ := by rw [← hc]
    rw [e1, e2]; ring
  rw [key]
  have pos : θ < α → 0 < r * Real.sin (α - θ) := fun h =>
    mul_pos hr (Real.sin_pos_of_pos_of_lt_pi (by linarith) (by linarith))
  have neg : α < θ → r * Real.sin (α - θ) < 0 := fun h =>
    mul_neg_of_pos_of_neg hr (Real.sin_neg_of_neg_of_neg_pi_lt (by linarith) (by linarith))
  have zer : α = θ → r * Real.sin (α - θ) = 0 := fun h => by simp [h]
  rcases lt_trichotomy θ α with h | h | h
  · have := pos h; constructor <;> constructor <;> intro <;> linarith
  · have := zer h.symm; constructor <;> constructor <;> intro <;> linarith
  · have := neg h; constructor <;> constructor <;> intro <;> linarith

/-- Points below the origin of the ray are on the ray if and only if they are on the line. -/
theorem on_ray_iff {x0 f s θ : ℝ} (hs : s * s = 1) (hc : 0 < Real.cos θ) {p : ℝ × ℝ} (hp : p.2 < f) :
    OnDispersedRay x0 f s θ p ↔
      s * (p.1 - x0) * Real.cos θ - (f - p.2) * Real.sin θ = 0 := by
  constructor
  · rintro ⟨k, _, rfl⟩
    simp only
    linear_combination k * Real.sin θ * Real.cos θ * hs
  · intro h
    refine ⟨(f - p.2) / Real.cos θ, div_pos (by linarith) hc, ?_⟩
    have hne := hc.ne'
    apply Prod.ext
    · simp only
      have : s * (p.1 - x0) = (f - p.2) / Real.cos θ * Real.sin θ := by
        field_simp; linarith
      have h2 : p.1 - x0 = s * (s * (p.1 - x0)) := by linear_combination -(p.1 - x0) * hs
      rw [this] at h2; linarith
    · simp only; field_simp; ring

theorem crosses_iff {x0 f s θ : ℝ} (hs : s * s = 1) (hc : 0 < Real.cos θ) {a b : ℝ × ℝ}
    (ha : a.2 < f) (hb : b.2 < f) :
    CrossesCCD x0 f s θ a b ↔
      (s * (a.1 - x0) * Real.cos θ - (f - a.2) * Real.sin θ) *
      (s * (b.1 - x0) * Real.cos θ - (f - b.2) * Real.sin θ) < 0 := by
  set ga := s * (a.1 - x0) * Real.cos θ - (f - a.2) * Real.sin θ with hga
  set gb := s * (b.1 - x0) * Real.cos θ - (f - b.2) * Real.sin θ with hgb
  have mix : ∀ μ, 0 < μ → μ < 1 →
      (OnDispersedRay x0 f s θ ((1 - μ) * a.1 + μ * b.1, (1 - μ) * a.2 + μ * b.2) ↔
        (1 - μ) * ga + μ * gb = 0) := by
    intro μ h0 h1
    rw [on_ray_iff hs hc]
    · have : s * ((1 - μ) * a.1 + μ * b.1 - x0) * Real.cos θ -
          (f - ((1 - μ) * a.2 + μ * b.2)) * Real.sin θ = (1 - μ) * ga + μ * gb := by
        rw [hga, hgb]; ring
      simp only [this]
    · simp only; nlinarith
  rw [CrossesCCD, on_ray_iff hs hc ha]
  constructor
  · rintro ⟨⟨μ, h0, h1, hr⟩, hne⟩
    rw [mix μ h0 h1] at hr
    have hg : gb = -(1 - μ) / μ * ga := by field_simp; linarith
    rw [hg]
    have : 0 < (1 - μ) / μ := div_pos (by linarith) h0
    have h2 : 0 < ga * ga := by
      rcases lt_or_gt_of_ne hne with h | h <;> nlinarith
    have : ga * (-(1 - μ) / μ * ga) = -((1 - μ) / μ * (ga * ga)) := by ring
    rw [this]; nlinarith [mul_pos ‹0 < (1 - μ) / μ› h2]
  · intro h
    have hne : ga ≠ 0 := by rintro h0; rw [h0] at h; simp at h
    refine ⟨⟨ga / (ga - gb), ?_, ?_, ?_⟩, hne⟩
    · rcases lt_or_gt_of_ne hne with h' | h'
      · have : 0 < gb := by nlinarith
        exact div_pos_of_neg_of_neg h' (by linarith)
      · have : gb < 0 := by nlinarith
        exact div_pos h' (by linarith)
    · rcases lt_or_gt_of_ne hne with h' | h'
      · have : 0 < gb := by nlinarith
        rw [div_lt_one_of_neg (by linarith)]; linarith
      · have : gb < 0 := by nlinarith
        rw [div_lt_one (by linarith)]; linarith
    · have h01 : 0 < ga / (ga - gb) ∧ ga / (ga - gb) < 1 ∧ ga - gb ≠ 0 := by
        rcases lt_or_gt_of_ne hne with h' | h'
        · have : 0 < gb := by nlinarith
          exact ⟨div_pos_of_neg_of_neg h' (by linarith), by
            rw [div_lt_one_of_neg (by linarith)]; linarith, by linarith⟩
        · have : gb < 0 := by nlinarith
          exact ⟨div_pos h' (by linarith), by rw [div_lt_one (by linarith)]; linarith, by linarith⟩
      rw [mix _ h01.1 h01.2.1]
      have := h01.2.2
      field_simp; ring

theorem between_iff {α β θ p q : ℝ} (h1 : θ < α ↔ 0 < p) (h2 : α < θ ↔ p < 0)
    (h3 : θ < β ↔ 0 < q) (h4 : β < θ ↔ q < 0) :
    (min α β < θ ∧ θ < max α β) ↔ p * q < 0 := by
  rw [min_lt_iff, lt_max_iff, mul_neg_iff]
  rw [← h1, ← h2, ← h3, ← h4]
  constructor
  · rintro ⟨h | h, k | k⟩
    · exact absurd k (by linarith)
    · exact Or.inr ⟨h, k⟩
    · exact Or.inl ⟨k, h⟩
    · exact absurd k (by linarith)
  · rintro (⟨h, k⟩ | ⟨h, k⟩)
    · exact ⟨Or.inr k, Or.inl h⟩
    · exact ⟨Or.inl h, Or.inr k⟩

/-- **C116** A wavelength counts as detected if and only if the ray that leaves the grating at the angle
of the grating equation `m λ = d sin θ`, where `d` is the mean period projected with the blaze angle
(given in degrees), on the side of the optical axis given by its sign, crosses one
of the CCDs. -/
theorem C116_on_ccd (hc : ℝ) (c : OnCCD) (en : ℝ) (order : ℤ) (chan : String) (x0 : ℝ)
    (hchan : c.optAx.lookup chan = some x0) (hx : x0 ≠ 0) (hen : 0 < en) (hd : 0 < c.dEff)
    (hz : ∀ r ∈ c.corners, r.1.2 < c.f ∧ r.2.2 < c.f) :
    ∃ b, c.call hc en order chan = .ok b ∧
      (b = true ↔ ∃ θ, -(Real.pi / 2) < θ ∧ θ < Real.pi / 2 ∧
        (order : ℝ) * (hc / en) =
          (c.periods.sum / c.periods.length * Real.cos (Real.pi * (c.blazeang / 180))) * Real.sin θ ∧
        ∃ r ∈ c.corners, CrossesCCD x0 c.f (if 0 < x0 then 1 else -1) θ r.1 r.2) := by
  have hde : c.periods.sum / c.periods.length * Real.cos (Real.pi * (c.blazeang / 180)) = c.dEff := by
    rw [OnCCD.dEff, mul_comm, show Real.pi * (c.blazeang / 180) = c.blazeang * Real.pi / 180 by ring]
  rw [hde]
  have hsign : ((SignType.sign x0 : SignType) : ℝ) = if 0 < x0 then 1 else -1 := by
    rcases lt_or_gt_of_ne hx with h | h
    · rw [sign_neg h, if_neg (by linarith)]; simp
    · rw [sign_pos h, if_pos h]; simp
  set s : ℝ := if 0 < x0 then 1 else -1 with hsdef
  have hs : s * s = 1 := by rw [hsdef]; split <;> norm_num
  have cross : ∀ θ, -(Real.pi / 2) < θ → θ < Real.pi / 2 → ∀ r ∈ c.corners,
      ((min (cornerAngle c.f x0 r.1) (cornerAngle c.f x0 r.2) < θ ∧
        θ < max (cornerAngle c.f x0 r.1) (cornerAngle c.f x0 r.2)) ↔
        CrossesCCD x0 c.f s θ r.1 r.2) := by
    intro θ h1 h2 r hr
    have hcos : 0 < Real.cos θ := Real.cos_pos_of_mem_Ioo ⟨h1, h2⟩
    obtain ⟨z1, z2⟩ := hz r hr
    rw [crosses_iff hs hcos z1 z2]
    simp only [cornerAngle, hsign]
    obtain ⟨a1, a2⟩ := corner_sign (X := c.f - r.1.2) (Y := s * (r.1.1 - x0)) (by linarith) h1.le h2.le
    obtain ⟨b1, b2⟩ := corner_sign (X := c.f - r.2.2) (Y := s * (r.2.1 - x0)) (by linarith) h1.le h2.le
    exact between_iff a1 a2 b1 b2
  rw [OnCCD.call, hchan]
  simp only
  rw [dispAngle, if_neg (by simp [hen.ne', hd.ne'])]
  by_cases hle : |(order : ℝ) * (hc / en) / c.dEff| ≤ 1
  · rw [if_pos hle]
    simp only
    refine ⟨_, rfl, ?_⟩
    rw [List.any_eq_true]
    simp only [decide_eq_true_eq]
    obtain ⟨l1, l2⟩ := abs_le.1 hle
    have hsin := Real.sin_arcsin l1 l2
    set θ := Real.arcsin ((order : ℝ) * (hc / en) / c.dEff) with hθ
    have m1 : -(Real.pi / 2) ≤ θ := Real.neg_pi_div_two_le_arcsin _
    have m2 : θ ≤ Real.pi / 2 := Real.arcsin_le_pi_div_two _
    constructor
    · rintro ⟨r, hr, hlt⟩
      have hab : ∀ p : ℝ × ℝ, p.2 < c.f → |cornerAngle c.f x0 p| < Real.pi / 2 := by
        intro p hp
        rw [cornerAngle, arctan2, Complex.abs_arg_lt_pi_div_two_iff]; left; simpa using hp
      obtain ⟨z1, z2⟩ := hz r hr
      have u1 := abs_lt.1 (hab r.1 z1)
      have u2 := abs_lt.1 (hab r.2 z2)
      have h1 : -(Real.pi / 2) < θ := lt_trans (lt_min u1.1 u2.1) hlt.1
      have h2 : θ < Real.pi / 2 := lt_trans hlt.2 (max_lt u1.2 u2.2)
      refine ⟨θ, h1, h2, ?_, r, hr, (cross θ h1 h2 r hr).1 hlt⟩
      rw [hsin]; field_simp
    · rintro ⟨θ', h1, h2, he, r, hr, hcr⟩
      have : θ' = θ := by
        rw [hθ, he, mul_div_cancel_left₀ _ hd.ne', Real.arcsin_sin h1.le h2.le]
      subst this
      exact ⟨r, hr, (cross _ h1 h2 r hr).2 hcr⟩
  · rw [if_neg hle]
    refine ⟨false, rfl, ?_⟩
    simp only [Bool.false_eq_true, false_iff]
    rintro ⟨θ', _, _, he, _⟩
    apply hle
    rw [he, mul_div_cancel_left₀ _ hd.ne']
    exact Real.abs_sin_le_one θ'


/-- **C116** A name that is not in the list of optical axes is a `KeyError`. -/
theorem C116_unknown_axis (hc : ℝ) (c : OnCCD) (en : ℝ) (order : ℤ) (chan : String)
    (h : ∀ p ∈ c.optAx, p.1 ≠ chan) : c.call hc en order chan = .error .keyError := by
  have : c.optAx.lookup chan = none := by
    rw [List.lookup_eq_none_iff]
    intro p hp
    simpa using (h p hp).symm
  rw [OnCCD.call, this]

/-- Number of channels of a list (each as often as it is listed) whose spectrum is detected. -/
noncomputable def detectedIn (hc : ℝ) (c : OnCCD) (order : ℤ) (channels : List String) (en : ℝ) : ℕ :=
  channels.countP fun ch => decide (c.call hc en order ch = .ok true)

theorem mapM_call_ok (hc : ℝ) (c : OnCCD) (order : ℤ) (chan : String) (ens : List ℝ) (on : List Bool)
    (h : ens.mapM (fun en => c.call hc en order chan) = .ok on) :
    on = ens.map fun en => decide (c.call hc en order chan = .ok true) := by
  induction ens generalizing on with
  | nil => simp at h; cases h; rfl
  | cons en ens ih =>
    rw [List.mapM_cons] at h
    cases h1 : c.call hc en order chan with
    | error e => simp [h1, bind, Except.bind] at h
    | ok b =>
      cases h2 : ens.mapM (fun en => c.call hc en order chan) with
      | error e => simp [h1, h2, bind, Except.bind] at h
      | ok bs =>
        simp [h1, h2, bind, Except.bind, pure, Except.pure] at h
        rw [← h, ih bs h2]
        simp [h1]

theorem channelLoop_ok (hc : ℝ) (c : OnCCD) (known : List String) (ens : List ℝ) (order : ℤ)
    (channels : List String) (acc out : List ℝ) (hl : acc.length = ens.length)
    (h : channelLoop hc c known ens order acc channels = .ok out) :
    out = List.zipWith (fun a en => a + (detectedIn hc c order channels en : ℝ)) acc ens ∧
    ∀ ch ∈ channels, ch ∈ known := by
  induction channels generalizing acc with
  | nil =>
    simp only [channelLoop, Except.ok.injEq] at h
    subst h
    refine ⟨?_, by simp⟩
    apply List.ext_getElem
    · simp [hl]
    · intro i h1 h2; simp [detectedIn]
  | cons ch chs ih =>
    rw [channelLoop] at h
    by_cases hk : ch ∈ known
    · simp only [hk, not_true_eq_false, if_false] at h
      cases h1 : ens.mapM (fun en => c.call hc en order ch) with
      | error e => simp [h1] at h
      | ok on =>
        simp only [h1] at h
        have hon := mapM_call_ok hc c order ch ens on h1
        obtain ⟨h2, h3⟩ := ih _ (by simp [hon, hl]) h
        refine ⟨?_, by simpa [hk] using h3⟩
        rw [h2]
        apply List.ext_getElem
        · simp [hon, hl]
        · intro i i1 i2
          have i3 : i < ens.length := by simp [hon, hl] at i1; exact i1
          simp only [List.getElem_zipWith, detectedIn, List.countP_cons, hon, List.getElem_map]
          by_cases hb : c.call hc ens[i] order ch = .ok true
          · simp [hb]; ring
          · simp [hb]
    · simp [hk] at h

theorem mapM_mg_ok (mg : ℝ → ℤ → Except Err ℝ) (order : ℤ) (ens sim : List ℝ)
    (h : ens.mapM (fun en => mg en order) = .ok sim) :
    sim.length = ens.length ∧ ∀ i, (h1 : i < ens.length) → (h2 : i < sim.length) →
      mg ens[i] order = .ok sim[i] := by
  induction ens generalizing sim with
  | nil => simp at h; cases h; simp
  | cons en ens ih =>
    rw [List.mapM_cons] at h
    cases h1 : mg en order with
    | error e => simp [h1, bind, Except.bind] at h
    | ok b =>
      cases h2 : ens.mapM (fun en => mg en order) with
      | error e => simp [h1, h2, bind, Except.bind] at h
      | ok bs =>
        simp [h1, h2, bind, Except.bind, pure, Except.pure] at h
        obtain ⟨l, g⟩ := ih bs h2
        rw [← h]
        refine ⟨by simp [l], ?_⟩
        intro i
        cases i with
        | zero => intro _ _; simpa using h1
        | succ i => intro a1 a2; simpa using g i (by simpa using a1) (by simpa using a2)

/-- **C116** In each bin the effective area is the product of mirror and grating, filters and quantum
efficiency at the middle of the bin, and the number of channels whose spectrum is detected there;
`BIN_LO` and `BIN_HI` are the wavelengths of the upper and lower energy. -/
theorem C116_area (hc : ℝ) (conv : ℝ → ℝ) (c : OnCCD) (known : List String)
    (mg : ℝ → ℤ → Except Err ℝ) (filt : ℝ → ℝ) (edges : List ℝ) (order : ℤ)
    (channels : List String) (a : ArcusArf)
    (h : mkArf hc conv c known mg filt edges order channels = .ok a) (i : ℕ)
    (hi : i < edges.length - 1) :
    ∃ lo up m, a.energLo[i]? = some lo ∧ a.energHi[i]? = some up ∧
      mg ((lo + up) / 2) order = .ok m ∧ a.mirrGrat[i]? = some m ∧
      a.filtersQE[i]? = some (filt ((lo + up) / 2)) ∧
      a.onccd[i]? = some (detectedIn hc c order channels ((lo + up) / 2) : ℝ) ∧
      a.specresp[i]? =
        some (m * filt ((lo + up) / 2) * (detectedIn hc c order channels ((lo + up) / 2) : ℝ)) ∧
      a.binLo[i]? = some (hc / up) ∧ a.binHi[i]? = some (hc / lo) := by
  have hl : (sortReal (edges.map conv)).length = edges.length := by
    rw [(sortReal_perm _).length_eq, List.length_map]
  simp only [mkArf] at h
  generalize sortReal (edges.map conv) = s at h hl
  set ens := List.zipWith (fun a b => 1 / 2 * (a + b)) s.dropLast s.tail with hens
  have hlen : ens.length = edges.length - 1 := by simp [hens, hl]
  split at h
  · simp at h
  rename_i sim hsim
  split at h
  · simp at h
  rename_i on hon
  simp only [Except.ok.injEq] at h
  obtain ⟨l1, g1⟩ := mapM_mg_ok mg order ens sim hsim
  obtain ⟨h2, _⟩ := channelLoop_ok hc c known ens order channels _ on (by simp) hon
  have i1 : i < s.dropLast.length := by simp [hl]; exact hi
  have i2 : i < s.tail.length := by simp [hl]; exact hi
  have i3 : i < ens.length := by omega
  have hm : ens[i] = (s.dropLast[i] + s.tail[i]) / 2 := by
    simp only [hens, List.getElem_zipWith]; ring
  have hg := g1 i i3 (by omega)
  rw [hm] at hg
  have hon' : on[i]? = some (detectedIn hc c order channels ((s.dropLast[i] + s.tail[i]) / 2) : ℝ) := by
    rw [h2, List.getElem?_eq_getElem (by simp [hlen]; exact hi)]
    simp only [List.getElem_zipWith, List.getElem_replicate, hm, zero_add]
  subst h
  refine ⟨s.dropLast[i], s.tail[i], sim[i]'(l1.symm ▸ i3), ?_, ?_, hg, ?_, ?_, hon', ?_, ?_, ?_⟩
  · exact List.getElem?_eq_getElem i1
  · exact List.getElem?_eq_getElem i2
  · exact List.getElem?_eq_getElem (l1.symm ▸ i3)
  · rw [List.getElem?_map, List.getElem?_eq_getElem i3, hm]; rfl
  · rw [List.getElem?_zipWith, hon', List.getElem?_zipWith, List.getElem?_eq_getElem (by omega),
      List.getElem?_map, List.getElem?_eq_getElem i3, hm]; rfl
  · rw [List.getElem?_map, List.getElem?_eq_getElem i2]; rfl
  · rw [List.getElem?_map, List.getElem?_eq_getElem i1]; rfl

/-- **C116** The bins are those of the energy bounds of an RMF made from the same edges. -/
theorem C116_bins (hc : ℝ) (conv : ℝ → ℝ) (c : OnCCD) (known : List String)
    (mg : ℝ → ℤ → Except Err ℝ) (filt : ℝ → ℝ) (edges : List ℝ) (order : ℤ)
    (channels : List String) (a : ArcusArf)
    (h : mkArf hc conv c known mg filt edges order channels = .ok a) :
    (eboundsFromEdges conv edges).2 = (a.energLo, a.energHi) ∧ a.energLo.length = edges.length - 1 ∧
    a.specresp.length = edges.length - 1 ∧ a.binLo.length = edges.length - 1 ∧
    a.binHi.length = edges.length - 1 ∧ a.order = order := by
  have hl : (sortReal (edges.map conv)).length = edges.length := by
    rw [(sortReal_perm _).length_eq, List.length_map]
  simp only [mkArf] at h
  split at h
  · simp at h
  rename_i sim hsim
  split at h
  · simp at h
  rename_i on hon
  obtain ⟨l1, g1⟩ := mapM_mg_ok mg order _ sim hsim
  obtain ⟨h2, _⟩ := channelLoop_ok hc c known _ order channels _ on (by simp) hon
  simp only [Except.ok.injEq] at h
  subst h
  have hon2 : on.length = edges.length - 1 := by rw [h2]; simp [hl]
  refine ⟨rfl, by simp [hl], ?_, by simp [hl], by simp [hl], rfl⟩
  simp [hl, l1, hon2]

/-- **C116** The call works if and only if all channels exist and mirror and grating are tabulated; an
unknown channel is a `ValueError`. -/
theorem C116_channels (hc : ℝ) (conv : ℝ → ℝ) (c : OnCCD) (known : List String)
    (mg : ℝ → ℤ → Except Err ℝ) (filt : ℝ → ℝ) (edges : List ℝ) (order : ℤ)
    (channels : List String) (hn : 2 ≤ edges.length)
    (hmg : ∀ en, ∃ m, mg en order = .ok m)
    (hk : ∀ ch ∈ known, (c.optAx.lookup ch).isSome) :
    ((∀ ch ∈ channels, ch ∈ known) →
      ∃ a, mkArf hc conv c known mg filt edges order channels = .ok a) ∧
    (¬ (∀ ch ∈ channels, ch ∈ known) →
      mkArf hc conv c known mg filt edges order channels = .error .valueError) := by
  have hcall : ∀ ch ∈ known, ∀ ens : List ℝ,
      ∃ on, ens.mapM (fun en => c.call hc en order ch) = .ok on := by
    intro ch hch ens
    have : ∀ en, ∃ b, c.call hc en order ch = .ok b := by
      intro en
      obtain ⟨x0, hx⟩ := Option.isSome_iff_exists.1 (hk ch hch)
      rw [OnCCD.call, hx]
      simp only
      split
      · exact ⟨_, rfl⟩
      · exact ⟨_, rfl⟩
    induction ens with
    | nil => exact ⟨[], rfl⟩
    | cons en ens ih =>
      obtain ⟨b, hb⟩ := this en
      obtain ⟨bs, hbs⟩ := ih
      exact ⟨b :: bs, by rw [List.mapM_cons, hb]; simp [hbs, bind, Except.bind, pure, Except.pure]⟩
  have hsim : ∀ ens : List ℝ, ∃ sim, ens.mapM (fun en => mg en order) = .ok sim := by
    intro ens
    induction ens with
    | nil => exact ⟨[], rfl⟩
    | cons en ens ih =>
      obtain ⟨b, hb⟩ := hmg en
      obtain ⟨bs, hbs⟩ := ih
      exact ⟨b :: bs, by rw [List.mapM_cons, hb]; simp [hbs, bind, Except.bind, pure, Except.pure]⟩
  have hloop : ∀ (ens acc : List ℝ) (chs : List String),
      ((∀ ch ∈ chs, ch ∈ known) → ∃ on, channelLoop hc c known ens order acc chs = .ok on) ∧
      (¬ (∀ ch ∈ chs, ch ∈ known) →
        channelLoop hc c known ens order acc chs = .error .valueError) := by
    intro ens acc chs
    induction chs generalizing acc with
    | nil => exact ⟨fun _ => ⟨acc, rfl⟩, fun h => absurd (by simp) h⟩
    | cons ch chs ih =>
      by_cases h1 : ch ∈ known
      · obtain ⟨on, hon⟩ := hcall ch h1 ens
        simp only [channelLoop, h1, not_true_eq_false, if_false, hon, List.mem_cons, forall_eq_or_imp,
          true_and]
        exact ih _
      · simp [channelLoop, h1]
  set s := sortReal (edges.map conv)
  set ens := List.zipWith (fun a b => 1 / 2 * (a + b)) s.dropLast s.tail with hens
  obtain ⟨sim, hs⟩ := hsim ens
  obtain ⟨p1, p2⟩ := hloop ens (List.replicate (ens.map filt).length 0) channels
  constructor
  · intro h
    obtain ⟨on, ho⟩ := p1 h
    exact ⟨_, by simp only [mkArf]; rw [hs]; simp only; rw [ho]⟩
  · intro h
    simp only [mkArf]; rw [hs]; simp only; rw [p2 h]

/-- **C116** The area for a combination of channels is the sum of the areas of its parts. -/
theorem C116_additive (hc : ℝ) (conv : ℝ → ℝ) (c : OnCCD) (known : List String)
    (mg : ℝ → ℤ → Except Err ℝ) (filt : ℝ → ℝ) (edges : List ℝ) (order : ℤ)
    (ch1 ch2 : List String) (a a1 a2 : ArcusArf)
    (h : mkArf hc conv c known mg filt edges order (ch1 ++ ch2) = .ok a)
    (h1 : mkArf hc conv c known mg filt edges order ch1 = .ok a1)
    (h2 : mkArf hc conv c known mg filt edges order ch2 = .ok a2) :
    a.specresp = List.zipWith (· + ·) a1.specresp a2.specresp := by
  obtain ⟨b, _, l, _⟩ := C116_bins _ _ _ _ _ _ _ _ _ _ h
  obtain ⟨b1, _, l1, _⟩ := C116_bins _ _ _ _ _ _ _ _ _ _ h1
  obtain ⟨b2, _, l2, _⟩ := C116_bins _ _ _ _ _ _ _ _ _ _ h2
  apply List.ext_getElem?
  intro i
  by_cases hi : i < edges.length - 1
  · obtain ⟨lo, up, m, e1, e2, e3, _, _, _, e4, _⟩ := C116_area _ _ _ _ _ _ _ _ _ _ h i hi
    obtain ⟨lo', up', m', f1, f2, f3, _, _, _, f4, _⟩ := C116_area _ _ _ _ _ _ _ _ _ _ h1 i hi
    obtain ⟨lo'', up'', m'', g1, g2, g3, _, _, _, g4, _⟩ := C116_area _ _ _ _ _ _ _ _ _ _ h2 i hi
    rw [b] at b1 b2
    simp only [Prod.mk.injEq] at b1 b2
    rw [← b1.1, e1] at f1; rw [← b1.2, e2] at f2
    rw [← b2.1, e1] at g1; rw [← b2.2, e2] at g2
    cases f1; cases f2; cases g1; cases g2
    rw [e3] at f3 g3; cases f3; cases g3
    rw [e4, List.getElem?_zipWith, f4, g4]
    simp only [Option.some.injEq, detectedIn, List.countP_append]
    push_cast; ring
  · rw [List.getElem?_eq_none (by omega), List.getElem?_eq_none (by simp; omega)]

/-- **C116** Effective areas are not negative, if the filters have no negative transmission; mirror and
grating are never negative. -/
theorem C116_nonneg (hc : ℝ) (conv : ℝ → ℝ) (c : OnCCD) (known : List String)
    (tab : List (String × (ℝ → ℝ))) (filt : ℝ → ℝ) (hf : ∀ en, 0 ≤ filt en) (edges : List ℝ) (order : ℤ)
    (channels : List String) (a : ArcusArf)
    (h : mkArf hc conv c known (mirrGrat hc tab) filt edges order channels = .ok a) :
    ∀ x ∈ a.specresp, 0 ≤ x := by
  intro x hx
  obtain ⟨_, _, l, _⟩ := C116_bins _ _ _ _ _ _ _ _ _ _ h
  obtain ⟨i, hi, rfl⟩ := List.getElem_of_mem hx
  obtain ⟨lo, up, m, _, _, e3, _, _, _, e4, _⟩ := C116_area _ _ _ _ _ _ _ _ _ _ h i (by omega)
  rw [List.getElem?_eq_getElem hi] at e4
  simp only [Option.some.injEq] at e4
  rw [e4]
  have hm : 0 ≤ m := by
    simp only [mirrGrat] at e3
    split at e3
    · simp at e3
    · simp only [Except.ok.injEq] at e3
      rw [← e3]; exact le_max_right _ _
  exact mul_nonneg (mul_nonneg hm (hf _)) (Nat.cast_nonneg _)

/-- **C116** Where the grating equation has no solution (`|m| λ` larger than the effective period), the
effective area is 0. -/
theorem C116_evanescent (hc : ℝ) (conv : ℝ → ℝ) (c : OnCCD) (known : List String)
    (mg : ℝ → ℤ → Except Err ℝ) (filt : ℝ → ℝ) (edges : List ℝ) (order : ℤ)
    (channels : List String) (a : ArcusArf) (hd : 0 < c.dEff)
    (h : mkArf hc conv c known mg filt edges order channels = .ok a) (i : ℕ)
    (lo up : ℝ) (hlo : a.energLo[i]? = some lo) (hup : a.energHi[i]? = some up)
    (hen : c.dEff < |(order : ℝ) * (hc / ((lo + up) / 2))|) :
    a.specresp[i]? = some 0 := by
  obtain ⟨_, l, _⟩ := C116_bins _ _ _ _ _ _ _ _ _ _ h
  have hi : i < edges.length - 1 := by
    rw [← l]; exact (List.getElem?_eq_some_iff.1 hlo).1
  obtain ⟨lo', up', m, e1, e2, e3, _, _, _, e4, _⟩ := C116_area _ _ _ _ _ _ _ _ _ _ h i hi
  rw [hlo] at e1; rw [hup] at e2; cases e1; cases e2
  rw [e4]
  have : detectedIn hc c order channels ((lo + up) / 2) = 0 := by
    rw [detectedIn, List.countP_eq_zero]
    intro ch _
    simp only [decide_eq_true_eq]
    rw [OnCCD.call]
    split
    · simp
    · rw [dispAngle]
      split_ifs with h0 h1
      · simp
      · exfalso
        rw [abs_div, abs_of_pos hd, div_le_one hd] at h1
        linarith
      · simp
  simp [this]

/-- A camera with one CCD, for a single channel `"1"` with its axis at `x = 1`. -/
noncomputable def exCCD : OnCCD :=
  { corners := [((3 / 2, 0), (5 / 2, 0))], f := 1, optAx := [("1", 1), ("2", -1)], blazeang := 0,
    periods := [2] }

theorem exCCD_dEff : exCCD.dEff = 2 := by
  simp [OnCCD.dEff, exCCD]

example : exCCD.optAx.lookup "1" = some 1 ∧ (1 : ℝ) ≠ 0 ∧ 0 < exCCD.dEff ∧
    (∀ r ∈ exCCD.corners, r.1.2 < exCCD.f ∧ r.2.2 < exCCD.f) := by
  refine ⟨by simp [exCCD, List.lookup], by norm_num, by rw [exCCD_dEff]; norm_num, ?_⟩
  intro r hr; simp [exCCD] at hr; subst hr; norm_num [exCCD]

/-- There is no channel `"3"`. -/
example : (∀ p ∈ exCCD.optAx, p.1 ≠ "3") ∧ exCCD.call 1 1 1 "3" = .error .keyError := by
  have h : ∀ p ∈ exCCD.optAx, p.1 ≠ "3" := by simp [exCCD]
  exact ⟨h, C116_unknown_axis _ _ _ _ _ h⟩

/-- Light with a wavelength of 3 is not diffracted into the first order of a grating with period 2. -/
example : ∃ (a : ArcusArf) (lo up : ℝ), mkArf 3 id exCCD ["1", "2"] (fun _ _ => .ok 1) (fun _ => 1) [1 / 2, 3 / 2] 1 ["1"] = .ok a ∧ 0 < exCCD.dEff ∧
    a.energLo[0]? = some lo ∧ a.energHi[0]? = some up ∧ exCCD.dEff < |((1 : ℤ) : ℝ) * (3 / ((lo + up) / 2))| := by
  obtain ⟨p1, _⟩ := C116_channels 3 id exCCD ["1", "2"] (fun _ _ => .ok 1) (fun _ => 1)
    [1 / 2, 3 / 2] 1 ["1"] (by simp) (fun _ => ⟨1, rfl⟩) (by simp [exCCD, List.lookup])
  obtain ⟨a, ha⟩ := p1 (by simp)
  have hsort : sortReal ([1 / 2, 3 / 2].map id) = [1 / 2, 3 / 2] := sortReal_unique _ _ (by simp) (by norm_num)
  obtain ⟨hb, -⟩ := C116_bins _ _ _ _ _ _ _ _ _ _ ha
  simp only [eboundsFromEdges, hsort, Prod.mk.injEq] at hb
  refine ⟨a, 1 / 2, 3 / 2, ha, by rw [exCCD_dEff]; norm_num, by rw [← hb.1]; simp, by rw [← hb.2]; simp, ?_⟩
  rw [exCCD_dEff]
  norm_num

/-- First order light with `λ = √2` leaves the grating (period 2) at 45 degrees and hits the CCD. -/
theorem exCCD_hit : exCCD.call (Real.sqrt 2) 1 1 "1" = .ok true := by
  have h4 : Real.sqrt 2 / 2 = Real.sin (Real.pi / 4) := by rw [Real.sin_pi_div_four]
  have pp := Real.pi_pos
  obtain ⟨b, hb, hiff⟩ := C116_on_ccd (Real.sqrt 2) exCCD 1 1 "1" 1 (by simp [exCCD, List.lookup])
    (by norm_num) (by norm_num) (by rw [exCCD_dEff]; norm_num)
    (by intro r hr; simp [exCCD] at hr; subst hr; norm_num [exCCD])
  have : b = true := by
    rw [hiff]
    refine ⟨Real.pi / 4, by linarith, by linarith, ?_, ((3 / 2, 0), (5 / 2, 0)), by simp [exCCD], ?_⟩
    · rw [← h4]; simp [exCCD]; ring
    · have hs2 : 0 < Real.sqrt 2 := Real.sqrt_pos.2 (by norm_num)
      have hc4 : Real.cos (Real.pi / 4) = Real.sqrt 2 / 2 := Real.cos_pi_div_four
      have hcp : 0 < Real.cos (Real.pi / 4) := by rw [hc4]; positivity
      rw [crosses_iff (by norm_num) hcp (by norm_num [exCCD]) (by norm_num [exCCD])]
      rw [hc4, ← h4]
      simp only [exCCD]
      norm_num
      nlinarith
  rw [hb, this]

/-- **C116, disagreement** A channel that is listed twice is counted twice, although the header names it
only once: two tables with the same header and different areas. -/
theorem C116_repeated_false :
    ∃ (hc : ℝ) (c : OnCCD) (known : List String) (mg : ℝ → ℤ → Except Err ℝ) (filt : ℝ → ℝ)
      (edges : List ℝ) (order : ℤ) (a b : ArcusArf),
      mkArf hc id c known mg filt edges order ["1"] = .ok a ∧
      mkArf hc id c known mg filt edges order ["1", "1"] = .ok b ∧
      a.arcchan = b.arcchan ∧ a.specresp = [1] ∧ b.specresp = [2] := by
  have hk : ∀ ch ∈ ["1", "2"], (exCCD.optAx.lookup ch).isSome := by simp [exCCD, List.lookup]
  obtain ⟨p1, _⟩ := C116_channels (Real.sqrt 2) id exCCD ["1", "2"] (fun _ _ => .ok 1) (fun _ => 1)
    [1 / 2, 3 / 2] 1 ["1"] (by simp) (fun _ => ⟨1, rfl⟩) hk
  obtain ⟨p2, _⟩ := C116_channels (Real.sqrt 2) id exCCD ["1", "2"] (fun _ _ => .ok 1) (fun _ => 1)
    [1 / 2, 3 / 2] 1 ["1", "1"] (by simp) (fun _ => ⟨1, rfl⟩) hk
  obtain ⟨a, ha⟩ := p1 (by simp)
  obtain ⟨b, hb⟩ := p2 (by simp)
  have hsort : sortReal ([1 / 2, 3 / 2].map id) = [1 / 2, 3 / 2] :=
    sortReal_unique _ _ (by simp) (by norm_num)
  have area : ∀ (chs : List String) (x : ArcusArf),
      mkArf (Real.sqrt 2) id exCCD ["1", "2"] (fun _ _ => .ok 1) (fun _ => 1) [1 / 2, 3 / 2] 1 chs
        = .ok x → x.specresp = [(detectedIn (Real.sqrt 2) exCCD 1 chs 1 : ℝ)] := by
    intro chs x hx
    obtain ⟨hb, _, l, _⟩ := C116_bins _ _ _ _ _ _ _ _ _ _ hx
    obtain ⟨lo, up, m, e1, e2, e3, _, _, _, e4, _⟩ := C116_area _ _ _ _ _ _ _ _ _ _ hx 0 (by simp)
    simp only [eboundsFromEdges, hsort, Prod.mk.injEq] at hb
    rw [← hb.1] at e1; rw [← hb.2] at e2
    simp only [List.dropLast, List.tail, List.getElem?_cons_zero, Option.some.injEq] at e1 e2
    simp only [Except.ok.injEq] at e3
    subst e1 e2 e3
    match hsp : x.specresp, l with
    | [v], _ =>
      rw [hsp] at e4
      simp only [List.getElem?_cons_zero, Option.some.injEq] at e4
      rw [e4]; norm_num
  refine ⟨Real.sqrt 2, exCCD, ["1", "2"], fun _ _ => .ok 1, fun _ => 1, [1 / 2, 3 / 2], 1, a, b, ha, hb,
    ?_, ?_, ?_⟩
  · have e : ∀ (chs : List String) (x : ArcusArf),
        mkArf (Real.sqrt 2) id exCCD ["1", "2"] (fun _ _ => .ok 1) (fun _ => 1) [1 / 2, 3 / 2] 1 chs
          = .ok x → x.arcchan = arcChan (exCCD.optAx.map Prod.fst) chs := by
      intro chs x hx
      simp only [mkArf] at hx
      split at hx
      · simp at hx
      split at hx
      · simp at hx
      simp only [Except.ok.injEq] at hx
      rw [← hx]
    rw [e _ _ ha, e _ _ hb]; simp [arcChan, exCCD]
  · rw [area _ _ ha]; simp [detectedIn, exCCD_hit]
  · rw [area _ _ hb]; simp [detectedIn, exCCD_hit]

end Marxs
