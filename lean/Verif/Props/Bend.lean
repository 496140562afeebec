import Verif.Spec.Bend
import Verif.Props.Focus
import Verif.Lemmas.Placement

/-!
# C111: bent gratings
-/

namespace Marxs
open Classical

theorem unit_scaled (v : V3) (hv : v.dot v = 1) (k : ℝ) (hk : 0 < k) :
    (⟨v.x * k, v.y * k, v.z * k, 0⟩ : H4).unit = ⟨v.x, v.y, v.z, 0⟩ := by
  have : (⟨v.x * k, v.y * k, v.z * k, 0⟩ : H4).dot ⟨v.x * k, v.y * k, v.z * k, 0⟩ = k ^ 2 := by
    simp only [V3.dot] at hv
    simp only [H4.dot]
    linear_combination k ^ 2 * hv
  rw [H4.unit, H4.norm, this, Real.sqrt_sq hk.le]
  ext <;> simp <;> field_simp

theorem compose_axes {r : M3} (hr : IsRotation r) (t z : Fin 3 → ℝ) (hz : ∀ i, 0 < z i) :
    eX (compose t r z) = ⟨r 0 0, r 1 0, r 2 0, 0⟩ ∧ eY (compose t r z) = ⟨r 0 1, r 1 1, r 2 1, 0⟩ ∧
    eZ (compose t r z) = ⟨r 0 2, r 1 2, r 2 2, 0⟩ := by
  obtain ⟨h0, h1, h2, _⟩ := axis_dots hr
  refine ⟨?_, ?_, ?_⟩
  · simpa [eX, vX, col, compose, axisOf] using unit_scaled _ h0 (z 0) (hz 0)
  · simpa [eY, vY, col, compose, axisOf] using unit_scaled _ h1 (z 1) (hz 1)
  · simpa [eZ, vZ, col, compose, axisOf] using unit_scaled _ h2 (z 2) (hz 2)

theorem bent_surface (T : Fin 3 → ℝ) (r : M3) (R k : ℝ) (hk : k ≠ 0) (phi h : ℝ) :
    (cylSurface (compose T r ![R, R, k]) k phi h).xyz = ⟨T 0, T 1, T 2⟩ + (R * Real.cos phi) • axisOf r 0 +
      (R * Real.sin phi) • axisOf r 1 + h • axisOf r 2 ∧
    (cylSurface (compose T r ![R, R, k]) k phi h).w = 1 := by
  constructor
  · ext <;> simp [cylSurface, mul4, compose, axisOf] <;> field_simp <;> ring
  · simp [cylSurface, mul4, compose]

/-- The cylinder that is made for a flat grating has the shape of a bent sheet. -/
theorem bent_sheet {r : M3} (hr : IsRotation r) (t : V3) (z : Fin 3 → ℝ) (hz : ∀ i, 0 < z i) (R : ℝ) (hR : 0 < R)
    (g : BendGrating) (hg : g.pos4d = compose (fun i => ![t.x, t.y, t.z] i - R * ![r 0 0, r 1 0, r 2 0] i) r ![R, R, z 2])
    (hl : g.phiLim = some (-Real.arctan (z 1 / R), Real.arctan (z 1 / R))) : BentSheet t r z R g := by
  obtain ⟨h0, h1, h2, h01, h02, h12⟩ := axis_dots hr
  have hz2 := (hz 2).ne'
  have hz1 := hz 1
  have surf : ∀ phi h, (cylSurface g.pos4d (z 2) phi h).xyz - (t - R • axisOf r 0 + h • axisOf r 2) =
      (R * Real.cos phi) • axisOf r 0 + (R * Real.sin phi) • axisOf r 1 := by
    intro phi h
    rw [hg, (bent_surface _ r R (z 2) hz2 phi h).1]
    ext <;> simp [axisOf] <;> ring
  constructor
  · have hs := bent_surface (fun i => ![t.x, t.y, t.z] i - R * ![r 0 0, r 1 0, r 2 0] i) r R (z 2) hz2 0 0
    rw [hg]
    ext
    · have := congrArg V3.x hs.1; simp [axisOf] at this; exact this
    · have := congrArg V3.y hs.1; simp [axisOf] at this; exact this
    · have := congrArg V3.z hs.1; simp [axisOf] at this; exact this
    · exact hs.2
  · rw [hg]
    refine ⟨?_, ?_, ?_⟩
    · have := unit_scaled _ h1 R hR
      simp only [axisOf] at this
      simp [cylBases, mul4, compose, this, axisOf, H4.xyz]
    · have hzz : ∀ i, 0 < (![R, R, z 2] : Fin 3 → ℝ) i := by
        intro i; fin_cases i <;> simp [hR, hz 2]
      have := (compose_axes hr (fun i => ![t.x, t.y, t.z] i - R * ![r 0 0, r 1 0, r 2 0] i) ![R, R, z 2] hzz).2.2
      simp only [cylBases, this]
      simp [axisOf, H4.xyz]
    · have := unit_scaled _ h0 R hR
      simp only [axisOf] at this
      simp [cylBases, mul4, compose, this, axisOf, H4.xyz]
  · intro phi h
    rw [surf]
    constructor
    · have : ((R * Real.cos phi) • axisOf r 0 + (R * Real.sin phi) • axisOf r 1).dot
          ((R * Real.cos phi) • axisOf r 0 + (R * Real.sin phi) • axisOf r 1) = R ^ 2 := by
        have hcs := Real.sin_sq_add_cos_sq phi
        simp only [V3.dot] at h0 h1 h01
        simp [V3.dot]
        linear_combination (R * Real.cos phi) ^ 2 * h0 + (R * Real.sin phi) ^ 2 * h1 +
          2 * (R * Real.cos phi) * (R * Real.sin phi) * h01 + R ^ 2 * hcs
      rw [V3.norm, this, Real.sqrt_sq hR.le]
    · simp only [V3.dot] at h02 h12
      simp [V3.dot]
      linear_combination (R * Real.cos phi) * h02 + (R * Real.sin phi) * h12
  · have hp : 0 < Real.arctan (z 1 / R) := by
      rw [Real.arctan_pos]; positivity
    refine ⟨_, hl, hp, Real.arctan_lt_pi_div_two _, ?_⟩
    intro y h
    constructor
    · intro hy
      obtain ⟨hy1, hy2⟩ := abs_le.1 hy
      have hsq : 0 < Real.sqrt (1 + (y / R) ^ 2) := Real.sqrt_pos.2 (by positivity)
      refine ⟨Real.arctan (y / R), Real.sqrt (1 + (y / R) ^ 2), ?_, ?_, hsq, ?_⟩
      · rw [← Real.arctan_neg, Real.arctan_le_arctan_iff, ← neg_div]
        exact div_le_div_of_nonneg_right hy1 hR.le
      · rw [Real.arctan_le_arctan_iff]
        exact div_le_div_of_nonneg_right hy2 hR.le
      · rw [surf, Real.cos_arctan, Real.sin_arctan]
        have e1 : Real.sqrt (1 + (y / R) ^ 2) * (R * (1 / Real.sqrt (1 + (y / R) ^ 2))) = R := by field_simp
        have e2 : Real.sqrt (1 + (y / R) ^ 2) * (R * (y / R / Real.sqrt (1 + (y / R) ^ 2))) = y := by field_simp
        generalize Real.sqrt (1 + (y / R) ^ 2) = S at *
        generalize R * (1 / S) = A at *
        generalize R * (y / R / S) = B at *
        rw [← e2]
        nth_rewrite 1 [← e1]
        ext <;> simp <;> ring
    · rintro ⟨phi, s, hp1, hp2, hs, heq⟩
      rw [surf] at heq
      have lhs : t + y • axisOf r 1 + h • axisOf r 2 - (t - R • axisOf r 0 + h • axisOf r 2) =
          R • axisOf r 0 + y • axisOf r 1 := by
        ext <;> simp <;> ring
      rw [lhs] at heq
      have c0 := congrArg (fun v => v.dot (axisOf r 0)) heq
      have c1 := congrArg (fun v => v.dot (axisOf r 1)) heq
      have gen : ∀ (a b : ℝ) (v : V3), (a • axisOf r 0 + b • axisOf r 1).dot v =
          a * (axisOf r 0).dot v + b * (axisOf r 1).dot v := by
        intro a b v; simp [V3.dot]; ring
      have gens : ∀ (a b c : ℝ) (v : V3), (c • (a • axisOf r 0 + b • axisOf r 1)).dot v =
          c * (a * (axisOf r 0).dot v + b * (axisOf r 1).dot v) := by
        intro a b c v; simp [V3.dot]; ring
      have h10 : (axisOf r 1).dot (axisOf r 0) = 0 := by rw [V3.dot_comm]; exact h01
      simp only [gen, gens, h0, h1, h01, h10, mul_one, mul_zero, add_zero, zero_add] at c0 c1
      have hphi1 : -(Real.pi / 2) < phi := by
        have := Real.arctan_lt_pi_div_two (z 1 / R); linarith
      have hphi2 : phi < Real.pi / 2 := by
        have := Real.arctan_lt_pi_div_two (z 1 / R); linarith
      have hcos := Real.cos_pos_of_mem_Ioo ⟨hphi1, hphi2⟩
      have hyR : y / R = Real.tan phi := by
        rw [Real.tan_eq_sin_div_cos, div_eq_div_iff hR.ne' hcos.ne']
        have hscos : s * Real.cos phi = 1 := by
          have : R * (s * Real.cos phi) = R * 1 := by linarith
          exact mul_left_cancel₀ hR.ne' this
        rw [c1]
        linear_combination (R * Real.sin phi) * hscos
      have hphi : Real.arctan (y / R) = phi := by rw [hyR, Real.arctan_tan hphi1 hphi2]
      rw [← hphi] at hp1 hp2
      rw [← Real.arctan_neg, Real.arctan_le_arctan_iff, ← neg_div, div_le_div_iff_of_pos_right hR] at hp1
      rw [Real.arctan_le_arctan_iff, div_le_div_iff_of_pos_right hR] at hp2
      exact abs_le.2 ⟨hp1, hp2⟩

/-- **C111** Bending a list of stacks of gratings: every stack and every grating in it ends up with the shape of a sheet bent to the given radius,
touching the flat grating in its center. Grooves keep their angle, and the drawing uses the curved surface. -/
theorem C111_bend_partial (radius : ℝ) (hR : 0 < radius) (sts : List BendStack)
    (place : BendStack → V3 × M3 × (Fin 3 → ℝ))
    (hp : ∀ e ∈ sts, e.self.pos4d = compose ![(place e).1.x, (place e).1.y, (place e).1.z] (place e).2.1 (place e).2.2 ∧
      IsRotation (place e).2.1 ∧ (∀ i, 0 < (place e).2.2 i) ∧ e.elements.isSome) :
    ∃ out, bendGratings radius sts = (.ok (), out) ∧ List.Forall₂ (fun e e' =>
      BentSheet (place e).1 (place e).2.1 (place e).2.2 radius e'.self ∧ e'.self.groove = e.self.groove ∧
      e'.self.shape = "surface" ∧ ∃ l l', e.elements = some l ∧ e'.elements = some l' ∧
        List.Forall₂ (fun g g' => BentSheet (place e).1 (place e).2.1 (place e).2.2 radius g' ∧ g'.groove = g.groove ∧
          g'.shape = "surface") l l') sts out := by
  induction sts with
  | nil => exact ⟨[], rfl, List.Forall₂.nil⟩
  | cons e es ih =>
    obtain ⟨out, h1, h2⟩ := ih (fun e' he' => hp e' (List.mem_cons_of_mem _ he'))
    obtain ⟨hpos, hr, hz, hel⟩ := hp e List.mem_cons_self
    obtain ⟨l, hl⟩ := Option.isSome_iff_exists.1 hel
    generalize hpl : place e = pl at *
    obtain ⟨t, r, z⟩ := pl
    simp only at hpos hr hz
    have hd : decompose44 e.self.pos4d = ⟨![t.x, t.y, t.z], r, z, 0⟩ := by
      rw [hpos]; exact decompose44_exact _ r z hr hz
    have hex : eX e.self.pos4d = ⟨r 0 0, r 1 0, r 2 0, 0⟩ := by
      rw [hpos]; exact (compose_axes hr _ z hz).1
    have hzz : ∀ i, 0 < (![radius, radius, z 2] : Fin 3 → ℝ) i := by
      intro i; fin_cases i <;> simp [hR, hz 2]
    have sheet : ∀ g, BentSheet t r z radius
        (bentGrating ⟨![t.x, t.y, t.z], r, z, 0⟩ ⟨r 0 0, r 1 0, r 2 0, 0⟩ radius g) := by
      intro g
      exact bent_sheet hr t z hz radius hR _ (by simp only [bentGrating]) (by simp only [bentGrating])
    have hex' : eX (bentGrating ⟨![t.x, t.y, t.z], r, z, 0⟩ ⟨r 0 0, r 1 0, r 2 0, 0⟩ radius e.self).pos4d =
        ⟨r 0 0, r 1 0, r 2 0, 0⟩ := by
      simp only [bentGrating]
      exact (compose_axes hr _ _ hzz).1
    refine ⟨⟨bentGrating ⟨![t.x, t.y, t.z], r, z, 0⟩ ⟨r 0 0, r 1 0, r 2 0, 0⟩ radius e.self,
      some (l.map (bentGrating ⟨![t.x, t.y, t.z], r, z, 0⟩ ⟨r 0 0, r 1 0, r 2 0, 0⟩ radius))⟩ :: out, ?_, ?_⟩
    · simp only [bendGratings, bendStack, hd, hex, hl, hex', h1]
    · refine List.Forall₂.cons ?_ h2
      rw [hpl]
      refine ⟨sheet _, rfl, rfl, l, _, hl, rfl, ?_⟩
      rw [List.forall₂_map_right_iff]
      exact List.forall₂_same.2 fun g _ => ⟨sheet _, rfl, rfl⟩

/-- **C111** (disagreement) Bending makes the grating narrower: the arc that is left is shorter than the flat grating was. -/
theorem C111_width_false (d : Decomp) (ex : H4) (radius : ℝ) (g : BendGrating) (hw : 0 < d.z 1) (hR : 0 < radius) :
    ∃ a b, (bentGrating d ex radius g).phiLim = some (a, b) ∧ radius * (b - a) < 2 * d.z 1 := by
  refine ⟨_, _, rfl, ?_⟩
  have h1 : 0 < Real.arctan (d.z 1 / radius) := by rw [Real.arctan_pos]; positivity
  have h2 := Real.lt_tan h1 (Real.arctan_lt_pi_div_two _)
  rw [Real.tan_arctan, lt_div_iff₀ hR] at h2
  linarith

/-- **C111** (disagreement) `bend_gratings` takes a "list of gratings" but it fails for single gratings, after it has bent the first
one already. -/
theorem C111_single_false (radius : ℝ) (e : BendStack) (es : List BendStack) (h : e.elements = none) :
    ∃ e', bendGratings radius (e :: es) = (.error .attributeError, e' :: es) ∧ e'.self.phiLim.isSome := by
  simp only [bendGratings, bendStack, h]
  exact ⟨_, rfl, rfl⟩

/-- A grating in standard position (example). -/
noncomputable def exFlatStack : BendStack :=
  ⟨⟨compose ![0, 0, 0] 1 ![1, 2, 3], none, 0, "box"⟩, some [⟨compose ![0, 0, 0] 1 ![1, 2, 3], none, 0.3, "box"⟩]⟩

example : ∃ place : BendStack → V3 × M3 × (Fin 3 → ℝ), ∀ e ∈ [exFlatStack],
    e.self.pos4d = compose ![(place e).1.x, (place e).1.y, (place e).1.z] (place e).2.1 (place e).2.2 ∧
      IsRotation (place e).2.1 ∧ (∀ i, 0 < (place e).2.2 i) ∧ e.elements.isSome := by
  refine ⟨fun _ => (0, 1, ![1, 2, 3]), ?_⟩
  intro e he
  rw [List.mem_singleton.1 he]
  refine ⟨rfl, by simp [IsRotation], ?_, rfl⟩
  intro i; fin_cases i <;> simp

end Marxs
