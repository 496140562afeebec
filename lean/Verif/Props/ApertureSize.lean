import Mathlib.MeasureTheory.Constructions.Polish.Basic
import Verif.Props.Uniform
import Verif.Spec.ApertureSize

/-!
# Property C172: simulated effective areas do not depend on the size of the aperture
-/

namespace Marxs

open MeasureTheory Set ProbabilityTheory Filter

theorem inPlane_same {a b : Aperture} (h : a.SamePlace b) : inPlane a.m = inPlane b.m := by
  obtain ⟨h1, h2, h3⟩ := h
  funext p
  simp only [inPlane, h1, h2, h3]

theorem opening_measurable (a : Aperture) (hv : a.Valid) (ho : a.IsOpen) : MeasurableSet a.opening := by
  obtain ⟨hm, hx, hs⟩ := hv
  have py := V3.norm_pos hx.y0
  obtain ⟨m, shape, idc, idn, loc⟩ := a
  simp only at hm hx hs py
  cases shape with
  | rect =>
    exact (measurableSet_lt (continuous_abs.measurable.comp measurable_fst) measurable_const).inter
      (measurableSet_lt (continuous_abs.measurable.comp measurable_snd) measurable_const)
  | circle rInner phi0 phi1 =>
    obtain ⟨hyz, hr0, hr1, hp⟩ := hs
    obtain ⟨hop, hop2⟩ := ho
    have hRa : (vY m).xyz.norm * (rInner / (vY m).xyz.norm) = rInner := by field_simp
    have ha0 : 0 ≤ rInner / (vY m).xyz.norm := by positivity
    have ha1 : rInner / (vY m).xyz.norm < 1 := (div_lt_one py).2 hr1
    have hD : 0 < phi1 - phi0 := by linarith
    have eO : Aperture.opening ⟨m, .circle rInner phi0 phi1, idc, idn, loc⟩ =
        ringMap (vY m).xyz.norm (rInner / (vY m).xyz.norm) phi0 (phi1 - phi0) '' (Ioo 0 1 ×ˢ Ioo 0 1) := by
      rw [ringMap_image _ _ _ _ py ha0 ha1 hD, hRa]
      simp only [Aperture.opening, add_sub_cancel]
    rw [eO]
    exact (measurableSet_Ioo.prod measurableSet_Ioo).image_of_measurable_injOn
      (ringMap_measurable _ _ _ _) (ringMap_injOn _ _ _ _ py ha0 ha1 hD (by linarith))

/-- **C172** Two simulations of the same instrument with apertures of different size or shape in the same place: if
photons that pass only one of the two openings are not detected in this order (e.g. because they miss the mirror), then
both simulated effective areas converge to the same value. -/
theorem C172_aperture_size {Ω Ω' E : Type} [MeasurableSpace Ω] [MeasurableSpace Ω'] [MeasurableSpace E] (P : Measure Ω)
    (P' : Measure Ω') (nu : Measure E) [IsProbabilityMeasure nu] (X : ℕ → Ω → (ℝ × ℝ) × E)
    (X' : ℕ → Ω' → (ℝ × ℝ) × E) (hX : IsSimulation P nu X) (hX' : IsSimulation P' nu X') (a b : Aperture)
    (hva : a.Valid) (hoa : a.IsOpen) (hvb : b.Valid) (hob : b.IsOpen) (hab : a.SamePlace b) (ev : V3 → E → DetEvent)
    (o : ℤ) (hm : Measurable fun q : (ℝ × ℝ) × E => orderWeight o (ev (inPlane a.m q.1) q.2))
    (hb : ∀ p x, |(ev p x).prob| ≤ 1)
    (miss : ∀ p, ¬ (p ∈ a.opening ↔ p ∈ b.opening) → ∀ x, orderWeight o (ev (inPlane a.m p) x) = 0) :
    ∃ A : ℝ,
      (∀ᵐ ω ∂P, ∃ s : ℕ → ℝ, (∀ n : ℕ, effectiveArea (a.events ev (fun i => X i ω) n) [o] n a.area = [s n]) ∧
        Tendsto s atTop (nhds A)) ∧
      (∀ᵐ ω ∂P', ∃ s : ℕ → ℝ, (∀ n : ℕ, effectiveArea (b.events ev (fun i => X' i ω) n) [o] n b.area = [s n]) ∧
        Tendsto s atTop (nhds A)) := by
  have e := inPlane_same hab
  have ha := C150_effective_area P nu X hX a hva hoa (fun p x => ev (inPlane a.m p) x) o hm fun p x => hb _ _
  have hb' := C150_effective_area P' nu X' hX' b hvb hob (fun p x => ev (inPlane a.m p) x) o hm fun p x => hb _ _
  have key : ∫ p in b.opening, ∫ x, orderWeight o (ev (inPlane a.m p) x) ∂nu =
      ∫ p in a.opening, ∫ x, orderWeight o (ev (inPlane a.m p) x) ∂nu := by
    rw [← integral_indicator (opening_measurable a hva hoa), ← integral_indicator (opening_measurable b hvb hob)]
    congr 1
    funext p
    by_cases h : p ∈ a.opening ↔ p ∈ b.opening
    · by_cases h' : p ∈ a.opening
      · rw [indicator_of_mem h', indicator_of_mem (h.1 h')]
      · rw [indicator_of_notMem h', indicator_of_notMem (fun k => h' (h.2 k))]
    · have := miss p h
      simp only [indicator, this, integral_zero, ite_self]
  rw [key] at hb'
  refine ⟨_, ha, ?_⟩
  simpa only [Aperture.events, e] using hb'

/-! ### Concrete case: a mirror behind the half ring, simulated with the half ring and with the square -/

/-- photons through the half ring cause an event, all others miss the mirror (example) -/
noncomputable def exMirrorEvent (s : V3) (_ : ℝ) : DetEvent := by
  classical
  exact ⟨1, if (s.y, s.z) ∈ exHalfRing.opening then 1 / 2 else 0, none, 0⟩

theorem exSame : exSquare.SamePlace exHalfRing := ⟨rfl, rfl, rfl⟩

theorem exInPlane (p : ℝ × ℝ) : inPlane exSquare.m p = ⟨0, p.1, p.2⟩ := by
  have h1 : (vY (1 : M4)).xyz.unit = ⟨0, 1, 0⟩ := by
    simp [col, vY, V3.unit, V3.norm, V3.dot, V3.ext_iff]
  have h2 : (vZ (1 : M4)).xyz.unit = ⟨0, 0, 1⟩ := by
    simp [col, vZ, V3.unit, V3.norm, V3.dot, V3.ext_iff]
  simp only [inPlane, exSquare, h1, h2]
  simp [center, col, V3.ext_iff]

theorem exRing_in_square (p : ℝ × ℝ) (h : p ∈ exHalfRing.opening) : p ∈ exSquare.opening := by
  have hy : (vY (1 : M4)).xyz.norm = 1 := by simp [col, vY, V3.norm, V3.dot]
  have hz : (vZ (1 : M4)).xyz.norm = 1 := by simp [col, vZ, V3.norm, V3.dot]
  obtain ⟨d, phi, h1, h2, -, -, rfl⟩ := h
  simp only [exHalfRing, hy] at h1 h2
  show |_| < _ ∧ |_| < _
  simp only [exSquare, hy, hz, abs_mul, abs_of_pos (show 0 < d by linarith)]
  constructor
  · nlinarith [Real.abs_cos_le_one phi, abs_nonneg (Real.cos phi)]
  · nlinarith [Real.abs_sin_le_one phi, abs_nonneg (Real.sin phi)]

example : ∃ A : ℝ, (∀ᵐ ω ∂(Measure.infinitePi fun _ : ℕ => randomPair.prod randomNumber), ∃ s : ℕ → ℝ,
      (∀ n : ℕ, effectiveArea (exSquare.events exMirrorEvent (fun i => ω i) n) [1] n exSquare.area = [s n]) ∧
      Tendsto s atTop (nhds A)) ∧
    (∀ᵐ ω ∂(Measure.infinitePi fun _ : ℕ => randomPair.prod randomNumber), ∃ s : ℕ → ℝ,
      (∀ n : ℕ, effectiveArea (exHalfRing.events exMirrorEvent (fun i => ω i) n) [1] n exHalfRing.area = [s n]) ∧
      Tendsto s atTop (nhds A)) := by
  classical
  have e : ∀ (p : ℝ × ℝ) (x : ℝ), orderWeight 1 (exMirrorEvent (inPlane exSquare.m p) x) =
      if p ∈ exHalfRing.opening then 1 / 2 else 0 := by
    intro p x
    rw [exInPlane]
    simp only [orderWeight, exMirrorEvent, if_true]
  refine C172_aperture_size _ _ randomNumber _ _ (isSimulation_exists randomNumber) (isSimulation_exists randomNumber)
    exSquare exHalfRing exSquare_valid exSquare_open exHalfRing_valid exHalfRing_open exSame exMirrorEvent 1 ?_ ?_ ?_
  · simp only [e]
    exact Measurable.ite (measurable_fst (opening_measurable _ exHalfRing_valid exHalfRing_open)) measurable_const
      measurable_const
  · intro p x
    simp only [exMirrorEvent]
    split_ifs <;> simp
    norm_num
  · intro p h x
    rw [e, if_neg]
    intro k
    exact h ⟨fun _ => k, exRing_in_square p⟩

end Marxs
