import Mathlib.Analysis.SpecialFunctions.Trigonometric.Deriv
import Mathlib.Tactic.Ring
import Mathlib.Tactic.FieldSimp
import Mathlib.Tactic.Linarith
import Mathlib.Tactic.Positivity
import Mathlib.Tactic.NormNum
import Mathlib.Tactic.LinearCombination
import Verif.Spec.Rowland
import Verif.Props.Cylinder

/-!
# Properties C45-C49: the Rowland torus
-/

namespace Marxs

/-! ## Preliminaries -/

theorem circle_param {r a b : ℝ} (h : a ^ 2 + b ^ 2 = r ^ 2) :
    ∃ t, r * Real.cos t = a ∧ r * Real.sin t = b := by
  by_cases hr : r = 0
  · subst hr
    have ha : a = 0 := by nlinarith [sq_nonneg a, sq_nonneg b]
    have hb : b = 0 := by nlinarith [sq_nonneg a, sq_nonneg b]
    exact ⟨0, by simp [ha], by simp [hb]⟩
  · have h1 : (a / r) ^ 2 + (b / r) ^ 2 = 1 := by
      field_simp
      exact h
    obtain ⟨h2, h3⟩ := arctan2_spec h1
    refine ⟨arctan2 (b / r) (a / r), ?_, ?_⟩
    · rw [← h2]; field_simp
    · rw [← h3]; field_simp

theorem quartic_factor (R r : ℝ) (p : V3) :
    quarticLocal R r p = ((Real.sqrt (p.x ^ 2 + p.z ^ 2) - R) ^ 2 + p.y ^ 2 - r ^ 2) *
      ((Real.sqrt (p.x ^ 2 + p.z ^ 2) + R) ^ 2 + p.y ^ 2 - r ^ 2) := by
  have h : Real.sqrt (p.x ^ 2 + p.z ^ 2) ^ 2 = p.x ^ 2 + p.z ^ 2 := Real.sq_sqrt (by positivity)
  set q := Real.sqrt (p.x ^ 2 + p.z ^ 2)
  simp only [quarticLocal]
  linear_combination (-(p.x ^ 2 + 2 * p.y ^ 2 + p.z ^ 2 - 2 * R ^ 2 - 2 * r ^ 2) - q ^ 2) * h

theorem inv_mul4 {m : M4} (h : m.det ≠ 0) (v : H4) : mul4 m⁻¹ (mul4 m v) = v := by
  rw [← mul4_mul, Matrix.nonsing_inv_mul _ (isUnit_iff_ne_zero.2 h), mul4_one]

theorem mul4_inv {m : M4} (h : m.det ≠ 0) (v : H4) : mul4 m (mul4 m⁻¹ v) = v := by
  rw [← mul4_mul, Matrix.mul_nonsing_inv _ (isUnit_iff_ne_zero.2 h), mul4_one]

theorem affine_w {m : M4} (h : Affine m) (v : H4) : (mul4 m v).w = v.w := by
  obtain ⟨h0, h1, h2, h3⟩ := h
  simp [mul4, h0, h1, h2, h3]

theorem inv_w {m : M4} (h : Placed m) (v : H4) : (mul4 m⁻¹ v).w = v.w := by
  rw [← affine_w h.1, mul4_inv h.2]

theorem h2e_point {p : H4} (h : p.w = 1) : h2e [p] = .ok [p.xyz] := by
  unfold h2e
  rw [if_pos]
  · rfl
  · right
    intro a ha
    simp only [List.mem_cons, List.not_mem_nil, or_false] at ha
    subst ha
    rw [h]
    exact isclose_refl _

theorem h2e_points {l : List H4} (h : ∀ p ∈ l, p.w = 1) : h2e l = .ok (l.map H4.xyz) := by
  unfold h2e
  rw [if_pos]
  right
  intro a ha
  rw [h a ha]
  exact isclose_refl _

theorem h2e_dir {p : H4} (h : p.w = 0) : h2e [p] = .ok [p.xyz] := by
  unfold h2e
  rw [if_pos]
  · rfl
  · left
    intro a ha
    simp only [List.mem_cons, List.not_mem_nil, or_false] at ha
    subst ha
    exact h

/-- The quartic in global coordinates is the quartic of the local coordinates. -/
theorem quartic_global (t : Torus) (ht : Placed t.pos4d) (p : V3) :
    quartic t p true = .ok (quarticLocal t.R t.r (mul4 t.pos4d⁻¹ ⟨p.x, p.y, p.z, 1⟩).xyz) := by
  unfold quartic
  rw [if_pos rfl]
  have h1 : e2h [p] 1 = .ok [⟨p.x, p.y, p.z, 1⟩] := by
    unfold e2h
    rw [if_neg (by simp)]
    rfl
  rw [h1]
  simp only [List.map_cons, List.map_nil]
  rw [h2e_point (inv_w ht _)]

/-! ## C45 -/

/-- **C45** The quartic is zero exactly on the torus. -/
theorem C45_quartic_iff (R r : ℝ) (p : V3) : quarticLocal R r p = 0 ↔ OnTorus R r p := by
  have hq : Real.sqrt (p.x ^ 2 + p.z ^ 2) ^ 2 = p.x ^ 2 + p.z ^ 2 := Real.sq_sqrt (by positivity)
  constructor
  · intro h
    rw [quartic_factor, mul_eq_zero] at h
    set q := Real.sqrt (p.x ^ 2 + p.z ^ 2) with hqdef
    have hu : ∃ ux uz : ℝ, ux ^ 2 + uz ^ 2 = 1 ∧ p.x = q * ux ∧ p.z = q * uz := by
      by_cases h0 : q = 0
      · have hx : p.x = 0 := by nlinarith [sq_nonneg p.x, sq_nonneg p.z]
        have hz : p.z = 0 := by nlinarith [sq_nonneg p.x, sq_nonneg p.z]
        exact ⟨1, 0, by norm_num, by simp [h0, hx], by simp [h0, hz]⟩
      · refine ⟨p.x / q, p.z / q, ?_, by field_simp, by field_simp⟩
        field_simp
        linarith
    obtain ⟨ux, uz, h1, h2, h3⟩ := hu
    rcases h with h | h
    · exact ⟨ux, uz, q, h1, h2, h3, by linarith⟩
    · refine ⟨-ux, -uz, -q, by nlinarith, by rw [h2]; ring, by rw [h3]; ring, ?_⟩
      nlinarith
  · rintro ⟨ux, uz, a, h1, h2, h3, h4⟩
    simp only [quarticLocal]
    rw [h2, h3]
    have e : (a * ux) ^ 2 + (a * uz) ^ 2 = a ^ 2 := by
      rw [show (a * ux) ^ 2 + (a * uz) ^ 2 = a ^ 2 * (ux ^ 2 + uz ^ 2) by ring, h1, mul_one]
    have e2 : (a * ux) ^ 2 + p.y ^ 2 + (a * uz) ^ 2 + R ^ 2 - r ^ 2 = 2 * a * R := by nlinarith
    rw [e2, e]
    ring

theorem param_onTorus (R r th ph : ℝ) : OnTorus R r (parametricLocal R r th ph).xyz := by
  refine ⟨Real.cos ph, Real.sin ph, R + r * Real.cos th, Real.cos_sq_add_sin_sq ph, rfl, rfl, ?_⟩
  simp only [parametricLocal, H4.xyz]
  have := Real.cos_sq_add_sin_sq th
  linear_combination r ^ 2 * this

theorem onTorus_param {R r : ℝ} {p : V3} (h : OnTorus R r p) :
    ∃ th ph, parametricLocal R r th ph = ⟨p.x, p.y, p.z, 1⟩ := by
  obtain ⟨ux, uz, a, h1, h2, h3, h4⟩ := h
  obtain ⟨th, h5, h6⟩ := circle_param h4
  obtain ⟨ph, h7, h8⟩ := circle_param (r := 1) (a := ux) (b := uz) (by rw [h1]; norm_num)
  refine ⟨th, ph, ?_⟩
  simp only [one_mul] at h7 h8
  simp only [parametricLocal, h5, h6, h7, h8, h2, h3]
  congr 1 <;> ring

/-- **C45** All points from `parametric` solve the quartic, for every torus and every placement. -/
theorem C45_parametric_on_torus (t : Torus) (ht : Placed t.pos4d) (th ph : ℝ) :
    (parametric t th ph).w = 1 ∧ quartic t (parametric t th ph).xyz true = .ok 0 := by
  have hw : (parametric t th ph).w = 1 := affine_w ht.1 _
  refine ⟨hw, ?_⟩
  rw [quartic_global t ht]
  congr 1
  rw [C45_quartic_iff]
  have e : (⟨(parametric t th ph).xyz.x, (parametric t th ph).xyz.y, (parametric t th ph).xyz.z, 1⟩ : H4) =
      parametric t th ph := by
    conv_lhs => rw [← hw]
    rfl
  rw [e, parametric, inv_mul4 ht.2]
  exact param_onTorus _ _ _ _

/-- **C45** Every root of the quartic is a point from `parametric`; and the roots are the points which have local
coordinates on the geometrical torus. -/
theorem C45_surjective (t : Torus) (ht : Placed t.pos4d) (p : V3) :
    (quartic t p true = .ok 0 ↔ ∃ th ph, parametric t th ph = ⟨p.x, p.y, p.z, 1⟩) ∧
    (quartic t p true = .ok 0 ↔ ∃ q, OnTorus t.R t.r q ∧ toGlobal t.pos4d q = ⟨p.x, p.y, p.z, 1⟩) := by
  have key : quartic t p true = .ok 0 ↔
      OnTorus t.R t.r (mul4 t.pos4d⁻¹ ⟨p.x, p.y, p.z, 1⟩).xyz := by
    rw [quartic_global t ht, ← C45_quartic_iff]
    constructor
    · intro h; exact Except.ok.inj h
    · intro h; rw [h]
  have hloc : (⟨(mul4 t.pos4d⁻¹ ⟨p.x, p.y, p.z, 1⟩).xyz.x, (mul4 t.pos4d⁻¹ ⟨p.x, p.y, p.z, 1⟩).xyz.y,
      (mul4 t.pos4d⁻¹ ⟨p.x, p.y, p.z, 1⟩).xyz.z, 1⟩ : H4) = mul4 t.pos4d⁻¹ ⟨p.x, p.y, p.z, 1⟩ := by
    have := inv_w ht ⟨p.x, p.y, p.z, 1⟩
    conv_rhs => rw [← show (⟨(mul4 t.pos4d⁻¹ ⟨p.x, p.y, p.z, 1⟩).x, (mul4 t.pos4d⁻¹ ⟨p.x, p.y, p.z, 1⟩).y,
      (mul4 t.pos4d⁻¹ ⟨p.x, p.y, p.z, 1⟩).z, (mul4 t.pos4d⁻¹ ⟨p.x, p.y, p.z, 1⟩).w⟩ : H4) =
      mul4 t.pos4d⁻¹ ⟨p.x, p.y, p.z, 1⟩ from rfl, this]
    rfl
  constructor
  · rw [key]
    constructor
    · intro h
      obtain ⟨th, ph, e⟩ := onTorus_param h
      refine ⟨th, ph, ?_⟩
      rw [parametric, e, hloc, mul4_inv ht.2]
    · rintro ⟨th, ph, e⟩
      rw [← e, parametric, inv_mul4 ht.2]
      exact param_onTorus _ _ _ _
  · rw [key]
    constructor
    · intro h
      refine ⟨_, h, ?_⟩
      rw [toGlobal, hloc, mul4_inv ht.2]
    · rintro ⟨q, h, e⟩
      rw [← e, toGlobal, inv_mul4 ht.2]
      exact h

/-- A placement with rotation, translation and zoom. -/
example : Placed (compose ![1, 2, 3] !![0, -1, 0; 1, 0, 0; 0, 0, 1] ![2, 2, 2]) := by
  refine ⟨⟨rfl, rfl, rfl, rfl⟩, ?_⟩
  rw [det_compose]
  simp [Matrix.det_fin_three, Fin.prod_univ_three]

/-! ## C46 -/

/-- What `xyzw2parametric` computes for one point on the torus. -/
theorem theta_phi_ok {R r : ℝ} (hR : 0 < R) (hr : 0 < r) (p : V3)
    (hs : (R < Real.sqrt (p.x ^ 2 + p.z ^ 2) ∧
        (Real.sqrt (p.x ^ 2 + p.z ^ 2) - R) ^ 2 + p.y ^ 2 = r ^ 2) ∨
      (Real.sqrt (p.x ^ 2 + p.z ^ 2) < R ∧ quarticLocal R r p = 0)) :
    ∃ th, torusTheta R r p = some th ∧
      parametricLocal R r th (torusPhi R r p th) = ⟨p.x, p.y, p.z, 1⟩ := by
  have hq : Real.sqrt (p.x ^ 2 + p.z ^ 2) ^ 2 = p.x ^ 2 + p.z ^ 2 := Real.sq_sqrt (by positivity)
  have hq0 : 0 ≤ Real.sqrt (p.x ^ 2 + p.z ^ 2) := Real.sqrt_nonneg _
  have key : ∀ th, r * Real.sin th = p.y →
      (R + r * Real.cos th) ^ 2 = p.x ^ 2 + p.z ^ 2 →
      parametricLocal R r th (torusPhi R r p th) = ⟨p.x, p.y, p.z, 1⟩ := by
    intro th h1 h2
    simp only [parametricLocal, torusPhi]
    by_cases hf : R + r * Real.cos th = 0
    · rw [hf] at h2
      have hx : p.x = 0 := by nlinarith [sq_nonneg p.x, sq_nonneg p.z]
      have hz : p.z = 0 := by nlinarith [sq_nonneg p.x, sq_nonneg p.z]
      simp [hf, h1, hx, hz]
    · rw [if_pos hf]
      have h3 : (p.x / (R + r * Real.cos th)) ^ 2 + (p.z / (R + r * Real.cos th)) ^ 2 = 1 := by
        rw [div_pow, div_pow, ← add_div, h2]
        apply div_self
        rw [← h2]
        exact pow_ne_zero 2 hf
      obtain ⟨h4, h5⟩ := arctan2_spec h3
      rw [← h4, ← h5, h1]
      congr 1 <;> field_simp
  rcases hs with ⟨h1, h2⟩ | ⟨h1, h2⟩
  · have hsign : Real.sign (Real.sqrt (p.x ^ 2 + p.z ^ 2) - R) = 1 := Real.sign_of_pos (by linarith)
    have hy : p.y ^ 2 ≤ r ^ 2 := by nlinarith [sq_nonneg (Real.sqrt (p.x ^ 2 + p.z ^ 2) - R)]
    have hy' : |p.y| ≤ r := abs_le_of_sq_le_sq hy hr.le
    have hle : |p.y / r| ≤ 1 := by rw [abs_div, abs_of_pos hr, div_le_one hr]; exact hy'
    have hb := abs_le.1 hle
    refine ⟨Real.arcsin (p.y / r), ?_, ?_⟩
    · simp only [torusTheta, hsign, one_mul]
      rw [if_pos hle, if_neg (by norm_num)]
      simp
    · apply key
      · rw [Real.sin_arcsin hb.1 hb.2]; field_simp
      · have hc : r * Real.cos (Real.arcsin (p.y / r)) = Real.sqrt (p.x ^ 2 + p.z ^ 2) - R := by
          rw [Real.cos_arcsin]
          have e : 1 - (p.y / r) ^ 2 = ((Real.sqrt (p.x ^ 2 + p.z ^ 2) - R) / r) ^ 2 := by
            field_simp; linarith
          rw [e, Real.sqrt_sq (div_nonneg (by linarith) hr.le)]
          field_simp
        rw [hc]; linear_combination hq
  · have hsign : Real.sign (Real.sqrt (p.x ^ 2 + p.z ^ 2) - R) = -1 := Real.sign_of_neg (by linarith)
    have h3 : (Real.sqrt (p.x ^ 2 + p.z ^ 2) - R) ^ 2 + p.y ^ 2 = r ^ 2 ∨
        (Real.sqrt (p.x ^ 2 + p.z ^ 2) + R) ^ 2 + p.y ^ 2 = r ^ 2 := by
      rw [quartic_factor, mul_eq_zero] at h2
      rcases h2 with h2 | h2
      · left; linarith
      · right; linarith
    have hy : p.y ^ 2 ≤ r ^ 2 := by
      rcases h3 with h3 | h3
      · nlinarith [sq_nonneg (Real.sqrt (p.x ^ 2 + p.z ^ 2) - R)]
      · nlinarith [sq_nonneg (Real.sqrt (p.x ^ 2 + p.z ^ 2) + R)]
    have hy' : |p.y| ≤ r := abs_le_of_sq_le_sq hy hr.le
    have hle : |-1 * p.y / r| ≤ 1 := by
      rw [neg_one_mul, abs_div, abs_neg, abs_of_pos hr, div_le_one hr]; exact hy'
    have hb := abs_le.1 hle
    refine ⟨Real.arcsin (-1 * p.y / r) + Real.pi, ?_, ?_⟩
    · simp only [torusTheta, hsign]
      rw [if_pos hle, if_pos (by norm_num)]
      simp
    · apply key
      · rw [Real.sin_add_pi, Real.sin_arcsin hb.1 hb.2]; field_simp
      · rw [Real.cos_add_pi, Real.cos_arcsin]
        rcases h3 with h3 | h3
        · have e : 1 - (-1 * p.y / r) ^ 2 = ((R - Real.sqrt (p.x ^ 2 + p.z ^ 2)) / r) ^ 2 := by
            field_simp; linarith
          rw [e, Real.sqrt_sq (div_nonneg (by linarith) hr.le)]
          have e2 : r * -((R - Real.sqrt (p.x ^ 2 + p.z ^ 2)) / r) =
              -(R - Real.sqrt (p.x ^ 2 + p.z ^ 2)) := by field_simp
          rw [e2]
          linear_combination hq
        · have e : 1 - (-1 * p.y / r) ^ 2 = ((R + Real.sqrt (p.x ^ 2 + p.z ^ 2)) / r) ^ 2 := by
            field_simp; linarith
          rw [e, Real.sqrt_sq (div_nonneg (by linarith) hr.le)]
          have e2 : r * -((R + Real.sqrt (p.x ^ 2 + p.z ^ 2)) / r) =
              -(R + Real.sqrt (p.x ^ 2 + p.z ^ 2)) := by field_simp
          rw [e2]
          linear_combination hq

/-- The distance from the axis of a point on the torus. -/
theorem param_rho (R r th ph : ℝ) :
    Real.sqrt ((parametricLocal R r th ph).xyz.x ^ 2 + (parametricLocal R r th ph).xyz.z ^ 2) =
      |R + r * Real.cos th| := by
  rw [← Real.sqrt_sq_eq_abs]
  congr 1
  simp only [parametricLocal, H4.xyz]
  have := Real.cos_sq_add_sin_sq ph
  linear_combination (R + r * Real.cos th) ^ 2 * this

theorem theta_phi_param {R r : ℝ} (hR : 0 < R) (hr : 0 < r) (hrR : r < 2 * R) (th ph : ℝ)
    (hc : Real.cos th ≠ 0) :
    ∃ th', torusTheta R r (parametricLocal R r th ph).xyz = some th' ∧
      parametricLocal R r th' (torusPhi R r (parametricLocal R r th ph).xyz th') =
        parametricLocal R r th ph := by
  have hq := param_rho R r th ph
  have hcos := Real.neg_one_le_cos th
  have hpos : 0 < 2 * R + r * Real.cos th := by nlinarith
  refine theta_phi_ok hR hr (parametricLocal R r th ph).xyz ?_
  rcases lt_or_gt_of_ne hc with h | h
  · right
    refine ⟨?_, (C45_quartic_iff _ _ _).2 (param_onTorus _ _ _ _)⟩
    rw [hq, abs_lt]
    constructor <;> nlinarith
  · left
    have hab : |R + r * Real.cos th| = R + r * Real.cos th := abs_of_pos (by nlinarith)
    rw [hq, hab]
    refine ⟨by nlinarith, ?_⟩
    simp only [parametricLocal, H4.xyz]
    have := Real.cos_sq_add_sin_sq th
    linear_combination r ^ 2 * this

/-- `xyzw2parametric` for points on the torus. -/
theorem xyzw_ok (t : Torus) (ht : Placed t.pos4d) (hR : 0 < t.R) (angles : List (ℝ × ℝ)) :
    xyzw2parametric t (angles.map fun a => parametric t a.1 a.2) true true =
      .ok (angles.map fun a => (torusTheta t.R t.r (parametricLocal t.R t.r a.1 a.2).xyz).map
        fun th => (th, torusPhi t.R t.r (parametricLocal t.R t.r a.1 a.2).xyz th)) := by
  unfold xyzw2parametric
  rw [if_pos rfl]
  have e : (angles.map fun a => parametric t a.1 a.2).map (mul4 t.pos4d⁻¹) =
      angles.map fun a => parametricLocal t.R t.r a.1 a.2 := by
    rw [List.map_map]
    apply List.map_congr_left
    intro a _
    simp only [Function.comp, parametric, inv_mul4 ht.2]
  rw [e, h2e_points (by intro p hp; obtain ⟨a, _, rfl⟩ := List.mem_map.1 hp; rfl)]
  simp only
  rw [if_neg, if_neg (by simp)]
  · simp only [List.map_map]
    rfl
  · push Not
    refine ⟨hR.ne', ?_⟩
    intro p hp
    simp only [List.map_map, List.mem_map, Function.comp] at hp
    obtain ⟨a, _, rfl⟩ := hp
    rw [(C45_quartic_iff _ _ _).2 (param_onTorus _ _ _ _)]
    norm_num

/-- **C46** (partial: points where the tube is exactly at the distance `R` from the axis are excluded, and `r < 2 R`.)
`xyzw2parametric` of any list of points on a torus returns angles that give the same points again. -/
theorem C46_roundtrip_partial (t : Torus) (ht : Placed t.pos4d) (hR : 0 < t.R) (hr : 0 < t.r)
    (hrR : t.r < 2 * t.R) (angles : List (ℝ × ℝ)) (hc : ∀ a ∈ angles, Real.cos a.1 ≠ 0) :
    ∃ res, xyzw2parametric t (angles.map fun a => parametric t a.1 a.2) true true = .ok res ∧
      List.Forall₂ (fun a o => ∃ th ph, o = some (th, ph) ∧
        parametric t th ph = parametric t a.1 a.2) angles res := by
  refine ⟨_, xyzw_ok t ht hR angles, ?_⟩
  rw [List.forall₂_map_right_iff, List.forall₂_same]
  intro a ha
  obtain ⟨th', h1, h2⟩ := theta_phi_param hR hr hrR a.1 a.2 (hc a ha)
  refine ⟨th', _, by rw [h1]; rfl, ?_⟩
  rw [parametric, h2, parametric]

/-- **C46** For a torus with a hole (`r < R`) the angles themselves are recovered, up to full turns. -/
theorem C46_angles_partial (t : Torus) (ht : Placed t.pos4d) (hr : 0 < t.r)
    (hrR : t.r < t.R) (angles : List (ℝ × ℝ)) (hc : ∀ a ∈ angles, Real.cos a.1 ≠ 0) :
    ∃ res, xyzw2parametric t (angles.map fun a => parametric t a.1 a.2) true true = .ok res ∧
      List.Forall₂ (fun a o => ∃ th ph, o = some (th, ph) ∧ SameAngle th a.1 ∧ SameAngle ph a.2)
        angles res := by
  have hR : 0 < t.R := by linarith
  refine ⟨_, xyzw_ok t ht hR angles, ?_⟩
  rw [List.forall₂_map_right_iff, List.forall₂_same]
  intro a ha
  obtain ⟨th', h1, h2⟩ := theta_phi_param hR hr (by linarith) a.1 a.2 (hc a ha)
  refine ⟨th', _, by rw [h1]; rfl, ?_⟩
  generalize torusPhi t.R t.r (parametricLocal t.R t.r a.1 a.2).xyz th' = ph' at h2
  simp only [parametricLocal, H4.mk.injEq, and_true] at h2
  obtain ⟨e1, e2, e3⟩ := h2
  have p1 : 0 < t.R + t.r * Real.cos th' := by nlinarith [Real.neg_one_le_cos th']
  have p2 : 0 < t.R + t.r * Real.cos a.1 := by nlinarith [Real.neg_one_le_cos a.1]
  have hsq : (t.R + t.r * Real.cos th') ^ 2 = (t.R + t.r * Real.cos a.1) ^ 2 := by
    have c1 := Real.cos_sq_add_sin_sq ph'
    have c2 := Real.cos_sq_add_sin_sq a.2
    have : ((t.R + t.r * Real.cos th') * Real.cos ph') ^ 2 + ((t.R + t.r * Real.cos th') * Real.sin ph') ^ 2 =
      ((t.R + t.r * Real.cos a.1) * Real.cos a.2) ^ 2 + ((t.R + t.r * Real.cos a.1) * Real.sin a.2) ^ 2 := by
      rw [e1, e3]
    have l1 : (t.R + t.r * Real.cos th') ^ 2 * (Real.cos ph' ^ 2 + Real.sin ph' ^ 2) =
      (t.R + t.r * Real.cos a.1) ^ 2 * (Real.cos a.2 ^ 2 + Real.sin a.2 ^ 2) := by linarith
    rwa [c1, c2, mul_one, mul_one] at l1
  have hf : t.R + t.r * Real.cos th' = t.R + t.r * Real.cos a.1 := by
    have := abs_eq_abs.2 (sq_eq_sq_iff_eq_or_eq_neg.1 hsq)
    rwa [abs_of_pos p1, abs_of_pos p2] at this
  have hcos : Real.cos th' = Real.cos a.1 := by
    have : t.r * Real.cos th' = t.r * Real.cos a.1 := by linarith
    exact mul_left_cancel₀ hr.ne' this
  have hsin : Real.sin th' = Real.sin a.1 := mul_left_cancel₀ hr.ne' e2
  rw [hf] at e1 e3
  exact ⟨sameAngle_of_cos_sin hcos hsin,
    sameAngle_of_cos_sin (mul_left_cancel₀ p2.ne' e1) (mul_left_cancel₀ p2.ne' e3)⟩

/-- **C46** False at the top and bottom of the tube: for `theta = pi / 2` the result is `theta = 0`, which is a different
point, on every torus. -/
theorem C46_top_false (t : Torus) (ht : Placed t.pos4d) (hR : 0 < t.R) (hr : 0 < t.r) (ph : ℝ) :
    ∃ ph', xyzw2parametric t [parametric t (Real.pi / 2) ph] true true = .ok [some (0, ph')] ∧
      parametric t 0 ph' ≠ parametric t (Real.pi / 2) ph := by
  have h := xyzw_ok t ht hR [(Real.pi / 2, ph)]
  simp only [List.map_cons, List.map_nil] at h
  have hth : torusTheta t.R t.r (parametricLocal t.R t.r (Real.pi / 2) ph).xyz = some 0 := by
    simp only [torusTheta, param_rho, Real.cos_pi_div_two, mul_zero, add_zero, abs_of_pos hR, sub_self,
      Real.sign_zero, zero_mul, zero_div, abs_zero]
    rw [if_pos zero_le_one, if_neg (lt_irrefl _)]
    simp
  rw [hth] at h
  refine ⟨_, h, ?_⟩
  intro he
  have he' := congrArg (mul4 t.pos4d⁻¹) he
  rw [parametric, parametric, inv_mul4 ht.2, inv_mul4 ht.2] at he'
  have := congrArg H4.y he'
  simp [parametricLocal] at this
  exact hr.ne this

/-- **C46** False for `r > 2 R` on the inner side of the tube: for `theta = pi` the result is `theta = 0`. -/
theorem C46_spindle_false (t : Torus) (ht : Placed t.pos4d) (hR : 0 < t.R) (hr : 2 * t.R < t.r) (ph : ℝ) :
    ∃ ph', xyzw2parametric t [parametric t Real.pi ph] true true = .ok [some (0, ph')] ∧
      parametric t 0 ph' ≠ parametric t Real.pi ph := by
  have h := xyzw_ok t ht hR [(Real.pi, ph)]
  simp only [List.map_cons, List.map_nil] at h
  have hth : torusTheta t.R t.r (parametricLocal t.R t.r Real.pi ph).xyz = some 0 := by
    have hs : Real.sign (|t.R + t.r * Real.cos Real.pi| - t.R) = 1 := by
      apply Real.sign_of_pos
      rw [Real.cos_pi, abs_of_neg (by linarith)]
      linarith
    simp only [torusTheta, param_rho, hs]
    have : (parametricLocal t.R t.r Real.pi ph).xyz.y = 0 := by simp [parametricLocal]
    rw [this]
    simp
  rw [hth] at h
  refine ⟨_, h, ?_⟩
  intro he
  have he' := congrArg (mul4 t.pos4d⁻¹) he
  rw [parametric, parametric, inv_mul4 ht.2, inv_mul4 ht.2] at he'
  have h1 := param_rho t.R t.r 0 (torusPhi t.R t.r (parametricLocal t.R t.r Real.pi ph).xyz 0)
  rw [he', param_rho, Real.cos_pi, Real.cos_zero, abs_of_neg (by linarith), abs_of_pos (by linarith)] at h1
  linarith

/-- **C46** With `intersectvalid=False` the function never returns. -/
theorem C46_intersectvalid (t : Torus) (pts : List H4) (tr : Bool) :
    ∃ e, xyzw2parametric t pts tr false = .error e := by
  unfold xyzw2parametric
  split
  · exact ⟨_, rfl⟩
  · split
    · exact ⟨_, rfl⟩
    · exact ⟨_, rfl⟩

/-- A point that is not on the torus (by more than the tolerance) is rejected. -/
theorem C46_off_torus (t : Torus) (ht : Placed t.pos4d) (p : V3) (q : ℝ) (hq : quartic t p true = .ok q)
    (hR : t.R ≠ 0) (hoff : t.R ^ 4 / 10 ^ 8 < |q|) :
    xyzw2parametric t [⟨p.x, p.y, p.z, 1⟩] true true = .error .valueError := by
  rw [quartic_global t ht] at hq
  have hq' := Except.ok.inj hq
  unfold xyzw2parametric
  simp only [if_true, List.map_cons, List.map_nil]
  rw [h2e_point (inv_w ht _)]
  simp only
  rw [if_pos]
  right
  push Not
  refine ⟨_, List.mem_singleton.2 rfl, ?_⟩
  rw [hq', abs_div, abs_of_pos (by positivity : (0 : ℝ) < t.R ^ 4), lt_div_iff₀ (by positivity)]
  linarith

end Marxs
