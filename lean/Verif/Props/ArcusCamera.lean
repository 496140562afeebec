import Verif.Model.ArcusCamera
import Verif.Spec.ArcusCamera
import Verif.Props.Calculated
import Verif.Props.Ogip
import Verif.Props.Boom

/-!
# Property C125: the camera of Arcus
-/

namespace Marxs
open Matrix Classical

theorem theta_phi_inner {R r : ℝ} (hr : 0 < r) (hrR : r < 2 * R) (th : ℝ) (hc : Real.cos th < 0) :
    ∃ th', torusTheta R r (parametricLocal R r th 0).xyz = some th' ∧
      torusPhi R r (parametricLocal R r th 0).xyz th' = 0 ∧ Real.cos th' = Real.cos th ∧ Real.sin th' = Real.sin th := by
  have hx : (parametricLocal R r th 0).xyz = ⟨R + r * Real.cos th, r * Real.sin th, 0⟩ := by
    simp [parametricLocal, H4.xyz]
  rw [hx]
  have hlt : Real.sqrt ((R + r * Real.cos th) ^ 2 + 0 ^ 2) < R := by
    rw [show (R + r * Real.cos th) ^ 2 + 0 ^ 2 = (R + r * Real.cos th) ^ 2 by ring, Real.sqrt_sq_eq_abs, abs_lt]
    have := Real.neg_one_le_cos th
    constructor <;> nlinarith
  have hs : Real.sign (Real.sqrt ((R + r * Real.cos th) ^ 2 + 0 ^ 2) - R) = -1 := Real.sign_of_neg (by linarith)
  have hd : -1 * (r * Real.sin th) / r = -Real.sin th := by field_simp
  have hsin : -1 ≤ -Real.sin th ∧ -Real.sin th ≤ 1 :=
    ⟨by linarith [Real.sin_le_one th], by linarith [Real.neg_one_le_sin th]⟩
  have hcos : Real.cos (Real.arcsin (-Real.sin th) + Real.pi) = Real.cos th := by
    rw [Real.cos_add_pi, Real.cos_arcsin, neg_sq, ← Real.cos_sq', Real.sqrt_sq_eq_abs, abs_of_neg hc, neg_neg]
  have hsi : Real.sin (Real.arcsin (-Real.sin th) + Real.pi) = Real.sin th := by
    rw [Real.sin_add_pi, Real.sin_arcsin hsin.1 hsin.2, neg_neg]
  refine ⟨Real.arcsin (-Real.sin th) + Real.pi, ?_, ?_, hcos, hsi⟩
  · simp only [torusTheta, hs, hd]
    rw [if_pos (abs_le.2 hsin)]
    norm_num
  · simp only [torusPhi, hcos]
    split
    · next h => rw [div_self h, zero_div]; simp [arctan2, Complex.arg, Complex.norm_def]
    · rfl

/-- `normal` on the inner half of the Rowland circle. -/
theorem normal_inner (t : Torus) (ht : Placed t.pos4d) (hR : 0 < t.R) (hr : 0 < t.r) (hrR : t.r < 2 * t.R) (ths : List ℝ)
    (hc : ∀ th ∈ ths, Real.cos th < 0) :
    torusOutward t (ths.map fun th => parametric t th 0) = .ok (ths.map fun th => normalParametric t th 0) := by
  have h := xyzw_ok t ht hR (ths.map fun th => (th, (0 : ℝ)))
  simp only [List.map_map] at h
  have hn : torusNormal t (ths.map fun th => parametric t th 0) = .ok (ths.map fun th => some (normalParametric t th 0)) := by
    unfold torusNormal
    rw [show (ths.map fun th => parametric t th 0) = ths.map ((fun a : ℝ × ℝ => parametric t a.1 a.2) ∘ fun th => (th, (0 : ℝ))) from rfl, h]
    simp only [List.map_map]
    congr 1
    refine List.map_congr_left fun th hth => ?_
    obtain ⟨th', h1, h2, h3, h4⟩ := theta_phi_inner hr hrR th (hc th hth)
    simp only [Function.comp, h1, Option.map_some, h2, normalParametric, h3, h4]
  unfold torusOutward
  rw [hn]
  have hm : (ths.map fun th => some (normalParametric t th 0)).mapM (m := Option) id = some (ths.map fun th => normalParametric t th 0) := by
    clear h hn hc
    induction ths with
    | nil => rfl
    | cons a l ih => rw [List.map_cons, List.mapM_cons, ih]; rfl
  simp only [hm]
  rfl

theorem calcLoop_map {α : Type} (l : List α) (p n s : α → H4) (m : α → M4)
    (h : ∀ a ∈ l, calcOne (p a) (n a) (s a) = .ok (some (m a))) :
    calcLoop (l.map p) (l.map n) (l.map s) = .ok ((l.map m).map some) := by
  induction l with
  | nil => rfl
  | cons a l ih =>
    rw [List.map_cons, List.map_cons, List.map_cons]
    simp only [calcLoop, h a List.mem_cons_self, ih fun b hb => h b (List.mem_cons_of_mem _ hb), List.map_cons]

theorem cam_r {d_BF R f p0 w h : ℝ} (c : CamOk d_BF R f p0 w h) : 0 < (doubleRowland d_BF R f).detector.r := by
  simp only [doubleRowland]
  have := c.f_pos
  positivity

theorem cam_alpha {d_BF R f p0 w h : ℝ} (c : CamOk d_BF R f p0 w h) :
    0 ≤ arctan2 d_BF f ∧ Real.arcsin ((doubleRowland d_BF R f).d / (doubleRowland d_BF R f).detector.r) = arctan2 d_BF f := by
  have hr := cam_r c
  obtain ⟨h1, h2, h3, h4, h5, h6, h7, h8, h9⟩ := double_angles d_BF R f
  have hf := c.f_pos
  have ha : |arctan2 d_BF f| < Real.pi / 2 := by
    rw [arctan2, Complex.abs_arg_lt_pi_div_two_iff]; exact .inl hf
  have ha' := abs_lt.1 ha
  refine ⟨?_, ?_⟩
  · rw [arctan2, Complex.arg_nonneg_iff]; exact c.d_nonneg
  · have : (doubleRowland d_BF R f).d / (doubleRowland d_BF R f).detector.r = Real.sin (arctan2 d_BF f) := by
      rw [h4, div_eq_iff hr.ne', h6]; linarith
    rw [this, Real.arcsin_sin (by linarith) (by linarith)]

theorem cameraArc_sorted {e w : ℝ} (he : 0 < e) (hw : 0 < w) : (cameraArc e w).Pairwise (· < ·) := by
  simp only [cameraArc, stripArc, List.map, List.reverse_cons, List.reverse_nil, List.nil_append, List.cons_append, List.pairwise_cons,
    List.forall_mem_cons, List.Pairwise.nil, and_true]
  simp only [List.not_mem_nil, false_imp_iff, implies_true, and_true]
  repeat' apply And.intro
  all_goals linarith

theorem cameraArc_bound {e w s : ℝ} (he : 0 < e) (hw : 0 < w) (hs : s ∈ cameraArc e w) :
    |s| ≤ e + 15 * w + 23.75 := by
  simp only [cameraArc, stripArc, List.map, List.reverse_cons, List.reverse_nil, List.nil_append, List.cons_append, List.mem_cons,
    List.not_mem_nil, or_false] at hs
  rw [abs_le]
  rcases hs with h | h | h | h | h | h | h | h | h | h | h | h | h | h | h | h <;> subst h <;> constructor <;> linarith

/-- The angles in terms of the positions along the circle. -/
theorem cam_theta {d_BF R f p0 w h px : ℝ} (c : CamOk d_BF R f p0 w h) :
    camTheta (arcusCamConf d_BF R f p0 w h px) =
      (cameraArc (p0 * (doubleRowland d_BF R f).detector.r) w).map fun s =>
        arctan2 d_BF f + Real.pi - s / (doubleRowland d_BF R f).detector.r := by
  have hr := cam_r c
  obtain ⟨ha, hb⟩ := cam_alpha c
  set r := (doubleRowland d_BF R f).detector.r with hrr
  have h1 : camTheta1 (arcusCamConf d_BF R f p0 w h px) = (stripArc w).map fun u => (p0 * r + u) / r := by
    simp only [camTheta1, arcusCamConf, ← hrr, camGaps, cumsumR, stripArc, List.range, List.range.loop, List.zipWith, List.map]
    simp only [List.cons.injEq, and_true]
    norm_num
    refine ⟨?_, ?_, ?_, ?_, ?_, ?_, ?_, ?_⟩ <;> field_simp <;> ring
  have hp := mul_pos c.p_pos hr
  have hw := c.w_pos
  simp only [camTheta, h1, List.map_map]
  rw [List.reverse_eq_iff, ← List.map_reverse]
  refine sortReal_unique _ _ ?_ ?_
  · simp only [arcusCamConf, ← hrr, hb, cameraArc, List.reverse_append, List.map_append, List.reverse_reverse, List.map_map, List.map_reverse]
    refine List.Perm.append ?_ ?_
    · refine (List.reverse_perm _).trans ?_
      refine List.Perm.of_eq (List.map_congr_left fun u _ => ?_)
      simp only [Function.comp]
      field_simp
      ring
    · refine List.Perm.of_eq (List.map_congr_left fun u _ => ?_)
      simp only [Function.comp]
      field_simp
      ring
  · rw [List.pairwise_map, List.pairwise_reverse]
    have hs := cameraArc_sorted hp hw
    refine hs.imp fun {a b} hab => ?_
    have := div_lt_div_of_pos_right hab hr
    linarith

theorem cos_lower {x : ℝ} (h : |x| ≤ 3 / 2) : 1 / 100 < Real.cos x := by
  have h1 := abs_le.1 h
  have hpi := Real.pi_gt_d2
  have h2 := Real.cos_le_cos_of_nonneg_of_le_pi (abs_nonneg x) (by linarith) h
  rw [Real.cos_abs] at h2
  have h3 := Real.mul_le_sin (x := Real.pi / 2 - 3 / 2) (by linarith) (by linarith)
  rw [Real.sin_pi_div_two_sub] at h3
  have h4 : 2 / Real.pi * (Real.pi / 2 - 3 / 2) = 1 - 3 / Real.pi := by field_simp
  have h5 : 3 / Real.pi < 3 / 3.14 := div_lt_div_of_pos_left (by norm_num) (by norm_num) hpi
  rw [h4] at h3
  norm_num at h5
  linarith

theorem cam_entries (d_BF R f : ℝ) (v : H4) : mul4 (xyz2zxy * (doubleRowland d_BF R f).detector.pos4d) v =
    ⟨-Real.sin (arctan2 d_BF f) * v.x + Real.cos (arctan2 d_BF f) * v.y + R * Real.sin (arctan2 d_BF f) * v.w, v.z,
     Real.cos (arctan2 d_BF f) * v.x + Real.sin (arctan2 d_BF f) * v.y + (f / 2 - R * Real.cos (arctan2 d_BF f)) * v.w, v.w⟩ := by
  obtain ⟨h1, h2, h3, h4, h5, h6, h7, h8, h9⟩ := double_angles d_BF R f
  simp only [doubleRowland] at h1 h2
  have h1' : 1 / 2 * Real.sqrt (f ^ 2 + d_BF ^ 2) * Real.cos (arctan2 d_BF f) = f / 2 := by linarith
  have h2' : 1 / 2 * Real.sqrt (f ^ 2 + d_BF ^ 2) * Real.sin (arctan2 d_BF f) = d_BF / 2 := by linarith
  ext <;> simp [mul4, xyz2zxy, doubleRowland, translation2aff, compose, drOrient, Matrix.mul_apply, Fin.sum_univ_succ]
  · left; linear_combination h2'
  · left; linear_combination (-1) * h1'

theorem cam_placed (d_BF R f : ℝ) : Placed (xyz2zxy * (doubleRowland d_BF R f).detector.pos4d) := by
  obtain ⟨-, -, h⟩ := turned_central d_BF R f
  obtain ⟨⟨h0, h1, h2, h3⟩, hd⟩ := h.placed
  refine ⟨?_, ?_⟩
  · refine ⟨?_, ?_, ?_, ?_⟩ <;> simp [xyz2zxy, Matrix.mul_apply, Fin.sum_univ_succ, h0, h1, h2, h3]
  · rw [det_mul]
    refine mul_ne_zero ?_ hd
    have : xyz2zxy = compose 0 !![0, 1, 0; 0, 0, 1; 1, 0, 0] 1 := by
      ext i j; fin_cases i <;> fin_cases j <;> simp [xyz2zxy, compose]
    rw [this, det_compose]
    simp [Matrix.det_fin_three]

theorem cam_calcOne (α f r a : ℝ) (h : 1 / 100 < Real.cos (α - a)) :
    calcOne ⟨r * Real.sin a, 0, f / 2 - r * Real.cos a, 1⟩ ⟨Real.sin a, 0, -Real.cos a, 0⟩ ⟨Real.cos α, 0, Real.sin α, 0⟩ =
      .ok (some (compose ![r * Real.sin a, 0, f / 2 - r * Real.cos a]
        !![Real.sin a, Real.cos a, 0; 0, 0, -1; -Real.cos a, Real.sin a, 0] ![1, 1, 1])) := by
  have hc1 := Real.cos_sq_add_sin_sq a
  have hc2 := Real.cos_sq_add_sin_sq α
  have hn : (⟨Real.sin a, 0, -Real.cos a⟩ : V3).norm = 1 := by
    rw [V3.norm, V3.dot]; rw [Real.sqrt_eq_one]; linarith
  have hs : (⟨Real.cos α, 0, Real.sin α⟩ : V3).norm = 1 := by
    rw [V3.norm, V3.dot]; rw [Real.sqrt_eq_one]; linarith
  have hu : (⟨Real.sin a, 0, -Real.cos a⟩ : V3).unit = ⟨Real.sin a, 0, -Real.cos a⟩ := by
    rw [V3.unit, hn]; ext <;> simp
  have hus : (⟨Real.cos α, 0, Real.sin α⟩ : V3).unit = ⟨Real.cos α, 0, Real.sin α⟩ := by
    rw [V3.unit, hs]; ext <;> simp
  have hn0 : (⟨Real.sin a, 0, -Real.cos a⟩ : V3) ≠ 0 := by
    intro h0; rw [h0] at hn; simp [V3.norm, V3.dot] at hn
  have hs0 : (⟨Real.cos α, 0, Real.sin α⟩ : V3) ≠ 0 := by
    intro h0; rw [h0] at hs; simp [V3.norm, V3.dot] at hs
  rw [Real.cos_sub] at h
  have key : ∀ σ : ℝ, σ = 1 ∨ σ = -1 → ¬ (isclose (Real.sin a) (σ * Real.cos α) ∧ isclose (-Real.cos a) (σ * Real.sin α)) := by
    rintro σ hσ ⟨h1, h2⟩
    unfold isclose at h1 h2
    have b1 : |σ * Real.cos α| ≤ 1 := by
      rcases hσ with rfl | rfl <;> simp [Real.abs_cos_le_one]
    have b2 : |σ * Real.sin α| ≤ 1 := by
      rcases hσ with rfl | rfl <;> simp [Real.abs_sin_le_one]
    have e1 : |Real.sin a - σ * Real.cos α| ≤ 1 / 1000 := by linarith
    have e2 : |-Real.cos a - σ * Real.sin α| ≤ 1 / 1000 := by linarith
    have c1 := abs_le.1 (Real.abs_cos_le_one α)
    have c2 := abs_le.1 (Real.abs_sin_le_one α)
    have m1 : |(Real.sin a - σ * Real.cos α) * Real.sin α| ≤ 1 / 1000 := by
      rw [abs_mul]; nlinarith [Real.abs_sin_le_one α, abs_nonneg (Real.sin α), abs_nonneg (Real.sin a - σ * Real.cos α)]
    have m2 : |(-Real.cos a - σ * Real.sin α) * Real.cos α| ≤ 1 / 1000 := by
      rw [abs_mul]; nlinarith [Real.abs_cos_le_one α, abs_nonneg (Real.cos α), abs_nonneg (-Real.cos a - σ * Real.sin α)]
    have m1' := abs_le.1 m1
    have m2' := abs_le.1 m2
    nlinarith
  have hnc : ¬ ((⟨Real.sin a, 0, -Real.cos a⟩ : V3).allclose ⟨Real.cos α, 0, Real.sin α⟩ ∨
      (⟨Real.sin a, 0, -Real.cos a⟩ : V3).allclose (-⟨Real.cos α, 0, Real.sin α⟩)) := by
    rintro (⟨h1, -, h3⟩ | ⟨h1, -, h3⟩)
    · exact key 1 (.inl rfl) ⟨by simpa using h1, by simpa using h3⟩
    · exact key (-1) (.inr rfl) ⟨by simpa using h1, by simpa using h3⟩
  have hp : (⟨Real.cos α, 0, Real.sin α⟩ : V3) - ((⟨Real.cos α, 0, Real.sin α⟩ : V3).dot ⟨Real.sin a, 0, -Real.cos a⟩) • ⟨Real.sin a, 0, -Real.cos a⟩ =
      (Real.cos α * Real.cos a + Real.sin α * Real.sin a) • (⟨Real.cos a, 0, Real.sin a⟩ : V3) := by
    ext <;> simp [V3.dot]
    · linear_combination (-Real.cos α) * hc1
    · linear_combination (-Real.sin α) * hc1
  have hv : (⟨Real.cos a, 0, Real.sin a⟩ : V3).norm = 1 := by
    rw [V3.norm, V3.dot]; rw [Real.sqrt_eq_one]; linarith
  have hun : ((Real.cos α * Real.cos a + Real.sin α * Real.sin a) • (⟨Real.cos a, 0, Real.sin a⟩ : V3)).unit = ⟨Real.cos a, 0, Real.sin a⟩ := by
    have hpos : 0 < Real.cos α * Real.cos a + Real.sin α * Real.sin a := by linarith
    generalize Real.cos α * Real.cos a + Real.sin α * Real.sin a = k at hpos
    have : (k • (⟨Real.cos a, 0, Real.sin a⟩ : V3)).norm = k := by
      rw [V3.norm, V3.dot]
      simp
      rw [show k * Real.cos a * (k * Real.cos a) + k * Real.sin a * (k * Real.sin a) = k ^ 2 by linear_combination k ^ 2 * hc1]
      exact Real.sqrt_sq hpos.le
    rw [V3.unit, this]
    ext <;> simp <;> field_simp
  have hx : ex2vecFix ⟨Real.sin a, 0, -Real.cos a⟩ ⟨Real.cos α, 0, Real.sin α⟩ =
      .ok (some !![Real.sin a, Real.cos a, 0; 0, 0, -1; -Real.cos a, Real.sin a, 0]) := by
    unfold ex2vecFix
    rw [if_neg (by simp only [hn0, hs0, or_self, not_false_eq_true])]
    simp only [hu, hus, hnc, if_false, hp, hun]
    congr 3
    ext i j
    fin_cases i <;> fin_cases j <;> simp [V3.cross]
    linarith
  have e1 : h2e [(⟨Real.sin a, 0, -Real.cos a, 0⟩ : H4)] = .ok [⟨Real.sin a, 0, -Real.cos a⟩] := h2e_dir rfl
  have e2 : h2e [(⟨Real.cos α, 0, Real.sin α, 0⟩ : H4)] = .ok [⟨Real.cos α, 0, Real.sin α⟩] := h2e_dir rfl
  have e3 : h2e [(⟨r * Real.sin a, 0, f / 2 - r * Real.cos a, 1⟩ : H4)] = .ok [⟨r * Real.sin a, 0, f / 2 - r * Real.cos a⟩] := h2e_point rfl
  simp only [calcOne, e1, e2, e3, hx, Option.map_some]

theorem cam_angle {d_BF R f p0 w h s : ℝ} (c : CamOk d_BF R f p0 w h)
    (hs : s ∈ cameraArc (p0 * (doubleRowland d_BF R f).detector.r) w) :
    arctan2 d_BF f + |s / (doubleRowland d_BF R f).detector.r| ≤ 3 / 2 := by
  have hr := cam_r c
  have hb := cameraArc_bound (mul_pos c.p_pos hr) c.w_pos hs
  have h1 := c.span
  rw [abs_div, abs_of_pos hr]
  have h2 : |s| / (doubleRowland d_BF R f).detector.r ≤ p0 + (15 * w + 23.75) / (doubleRowland d_BF R f).detector.r := by
    rw [div_le_iff₀ hr, add_mul, div_mul_cancel₀ _ hr.ne']
    linarith
  linarith

/-- Placement of the CCDs by `calculate_elempos`. -/
theorem cam_pos {d_BF R f p0 w h px : ℝ} (c : CamOk d_BF R f p0 w h) :
    camPos (arcusCamConf d_BF R f p0 w h px) =
      .ok (((cameraArc (p0 * (doubleRowland d_BF R f).detector.r) w).map fun s =>
        (let r := (doubleRowland d_BF R f).detector.r; let a := s / r;
        compose ![r * Real.sin a, 0, f / 2 - r * Real.cos a]
        !![Real.sin a, Real.cos a, 0; 0, 0, -1; -Real.cos a, Real.sin a, 0] ![1, 1, 1])).map some) := by
  have hr := cam_r c
  obtain ⟨ha, hb⟩ := cam_alpha c
  have hang := fun s hs => cam_angle (s := s) c hs
  unfold camPos
  rw [cam_theta c]
  set r := (doubleRowland d_BF R f).detector.r with hrr
  set α := arctan2 d_BF f with hα
  have hRR : (doubleRowland d_BF R f).detector.R = R := rfl
  have hn := normal_inner (arcusCamConf d_BF R f p0 w h px).torus (cam_placed d_BF R f) (by simpa [arcusCamConf, hRR] using c.R_pos) hr
    (by simpa [arcusCamConf, hRR] using c.r_lt)
    ((cameraArc (p0 * r) w).map fun s => α + Real.pi - s / r) (by
      intro th hth
      obtain ⟨s, hs, rfl⟩ := List.mem_map.1 hth
      have h1 := hang s hs
      have h2 : |α - s / r| ≤ 3 / 2 := (abs_sub _ _).trans (by rw [abs_of_nonneg ha]; exact h1)
      have h3 := cos_lower h2
      rw [show α + Real.pi - s / r = α - s / r + Real.pi by ring, Real.cos_add_pi]
      linarith)
  have hside : mul4 (arcusCamConf d_BF R f p0 w h px).torus.pos4d ⟨0, 1, 0, 0⟩ = ⟨Real.cos α, 0, Real.sin α, 0⟩ := by
    simp only [arcusCamConf, cam_entries]
    ext <;> simp [hα]
  have hpar : ∀ s, parametric (arcusCamConf d_BF R f p0 w h px).torus (α + Real.pi - s / r) 0 =
      ⟨r * Real.sin (s / r), 0, f / 2 - r * Real.cos (s / r), 1⟩ := by
    intro s
    have e1 : Real.cos (s / r) = Real.cos α * Real.cos (α - s / r) + Real.sin α * Real.sin (α - s / r) := by
      rw [← Real.cos_sub]; congr 1; ring
    have e2 : Real.sin (s / r) = Real.sin α * Real.cos (α - s / r) - Real.cos α * Real.sin (α - s / r) := by
      rw [← Real.sin_sub]; congr 1; ring
    simp only [parametric, parametricLocal, arcusCamConf, cam_entries]
    rw [show α + Real.pi - s / r = α - s / r + Real.pi by ring, Real.cos_add_pi, Real.sin_add_pi, e1, e2, hRR, ← hrr, ← hα]
    ext <;> simp <;> ring
  have hnor : ∀ s, normalParametric (arcusCamConf d_BF R f p0 w h px).torus (α + Real.pi - s / r) 0 =
      ⟨Real.sin (s / r), 0, -Real.cos (s / r), 0⟩ := by
    intro s
    have e1 : Real.cos (s / r) = Real.cos α * Real.cos (α - s / r) + Real.sin α * Real.sin (α - s / r) := by
      rw [← Real.cos_sub]; congr 1; ring
    have e2 : Real.sin (s / r) = Real.sin α * Real.cos (α - s / r) - Real.cos α * Real.sin (α - s / r) := by
      rw [← Real.sin_sub]; congr 1; ring
    simp only [normalParametric, arcusCamConf, cam_entries]
    rw [show α + Real.pi - s / r = α - s / r + Real.pi by ring, Real.cos_add_pi, Real.sin_add_pi, e1, e2, ← hα]
    ext <;> simp <;> ring
  unfold calculateElempos
  simp only [getSpec]
  rw [hn]
  simp only [hside, if_true, List.map_map, List.length_map]
  rw [show (List.replicate (cameraArc (p0 * r) w).length (⟨Real.cos α, 0, Real.sin α, 0⟩ : H4)) =
    (cameraArc (p0 * r) w).map (fun _ => (⟨Real.cos α, 0, Real.sin α, 0⟩ : H4)) by simp]
  rw [calcLoop_map (cameraArc (p0 * r) w) _ _ _ (fun s => compose ![r * Real.sin (s / r), 0, f / 2 - r * Real.cos (s / r)]
        !![Real.sin (s / r), Real.cos (s / r), 0; 0, 0, -1; -Real.cos (s / r), Real.sin (s / r), 0] ![1, 1, 1])]
  · simp only [List.map_map]
  · intro s hs
    simp only [Function.comp, hpar, hnor]
    refine cam_calcOne α f r (s / r) (cos_lower ((abs_sub _ _).trans ?_))
    rw [abs_of_nonneg ha]; exact hang s hs

theorem ccd_rot (a : ℝ) : IsRotation (!![Real.sin a, Real.cos a, 0; 0, 0, -1; -Real.cos a, Real.sin a, 0] : M3) := by
  have h := Real.cos_sq_add_sin_sq a
  refine ⟨?_, ?_⟩
  · ext i j; fin_cases i <;> fin_cases j <;> simp [Matrix.mul_apply, Fin.sum_univ_succ] <;> linarith
  · simp [Matrix.det_fin_three]; linarith

theorem ccdOrient_rot : IsRotation ccdOrient := by
  refine ⟨?_, ?_⟩
  · ext i j; fin_cases i <;> fin_cases j <;> simp [ccdOrient, Matrix.mul_apply, Fin.sum_univ_succ]
  · simp [ccdOrient, Matrix.det_fin_three]

/-- One CCD of the camera. -/
theorem cam_genOne (ps : List M4) (px w h f r a : ℝ) (name : String) (i : ℕ) (hw : 0 < w) (hh : 0 < h) (hlen : ps.length = 16)
    (hp : ps[i]? = some (compose ![r * Real.sin a, 0, f / 2 - r * Real.cos a]
        !![Real.sin a, Real.cos a, 0; 0, 0, -1; -Real.cos a, Real.sin a, 0] ![1, 1, 1])) :
    genOne decompose44 ⟨1, 1, ps, List.replicate ps.length 1,
          [("pixsize", .num px), ("zoom", .list [.num 1, .num w, .num h]),
           ("orientation", .mat3 ccdOrient), ("id_col", .str "CCD")], 1, name⟩ i =
      .ok ⟨ccdAt f r w h a, 1 + i, [("pixsize", .num px), ("id_col", .str "CCD"),
        ("name", .str ("Elem " ++ toString i ++ " in " ++ name))]⟩ := by
  have hi : i < ps.length := (List.getElem?_eq_some_iff.1 hp).1
  have hd : decompose44 1 = ⟨0, 1, 1, 0⟩ := by
    rw [one_compose]; exact decompose44_exact 0 1 1 isRotation_one (by simp)
  have he : addName i name (specificArgs ps.length i [("pixsize", .num px), ("zoom", .list [.num 1, .num w, .num h]),
           ("orientation", .mat3 ccdOrient), ("id_col", .str "CCD")]) = [("pixsize", .num px), ("zoom", .list [.num 1, .num w, .num h]),
           ("orientation", .mat3 ccdOrient), ("id_col", .str "CCD"), ("name", .str ("Elem " ++ toString i ++ " in " ++ name))] := by
    simp [addName, specificArgs, Kwargs.get?, hlen]
  have hdet : (compose ![0, 0, 0] ccdOrient ![1, w, h]).det ≠ 0 := by
    rw [det_compose, ccdOrient_rot.2]; simp [hw.ne', hh.ne']
  have hpar : parsePosition [("pixsize", .num px), ("zoom", .list [.num 1, .num w, .num h]),
           ("orientation", .mat3 ccdOrient), ("id_col", .str "CCD"), ("name", .str ("Elem " ++ toString i ++ " in " ++ name))] =
      .ok (compose ![0, 0, 0] ccdOrient ![1, w, h], [("pixsize", .num px), ("id_col", .str "CCD"),
        ("name", .str ("Elem " ++ toString i ++ " in " ++ name))]) := by
    simp [parsePosition, Kwargs.get?, zoomOf, listNums, positionOf, orientationOf, hw.not_ge, hh.not_ge, Kwargs.pop, hdet, not_le.2 one_pos]
  have hda : decompose44 (compose ![0, 0, 0] ccdOrient ![1, w, h]) = ⟨![0, 0, 0], ccdOrient, ![1, w, h], 0⟩ :=
    decompose44_exact _ _ _ ccdOrient_rot (by intro k; fin_cases k <;> simp [hw, hh])
  have hde : decompose44 (compose ![r * Real.sin a, 0, f / 2 - r * Real.cos a]
        !![Real.sin a, Real.cos a, 0; 0, 0, -1; -Real.cos a, Real.sin a, 0] ![1, 1, 1]) = ⟨_, _, _, 0⟩ :=
    decompose44_exact _ _ _ (ccd_rot a) (by intro k; fin_cases k <;> simp)
  have hu : (List.replicate ps.length (1 : M4))[i]? = some 1 := by simp [hi]
  simp only [genOne, he, hpar, hda, hp, hu, hd, hde, ne_eq, not_true, if_false]
  congr 2
  have t0 : translation2aff 0 = 1 := by
    ext i j; fin_cases i <;> fin_cases j <;> simp [translation2aff]
  have t1 : translation2aff ![0, 0, 0] = 1 := by
    ext i j; fin_cases i <;> fin_cases j <;> simp [translation2aff]
  have m0 : mat2aff 1 = 1 := by
    ext i j; fin_cases i <;> fin_cases j <;> simp [mat2aff]
  have z0 : zoom2aff 1 = 1 := by
    ext i j; fin_cases i <;> fin_cases j <;> simp [zoom2aff]
  have z1 : zoom2aff ![1, 1, 1] = 1 := by
    ext i j; fin_cases i <;> fin_cases j <;> simp [zoom2aff]
  simp only [placeElem, t0, t1, m0, z0, z1, List.reverse_cons, List.reverse_nil, List.nil_append, List.cons_append,
    List.foldl_cons, List.foldl_nil, Matrix.mul_one, Matrix.one_mul]
  ext i j
  fin_cases i <;> fin_cases j <;>
    simp [translation2aff, mat2aff, zoom2aff, ccdAt, ccdOrient, Matrix.mul_apply, Fin.sum_univ_succ] <;> ring

theorem mapM_some {α : Type} (l : List α) : (l.map some).mapM (m := Option) id = some l := by
  induction l with
  | nil => rfl
  | cons a l ih => rw [List.map_cons, List.mapM_cons, ih]; rfl

/-- **C125** (layout): there are 16 CCDs with the numbers 1 to 16 and the pixel size from the configuration. The CCDs are tangential to the
circle around the point at the height `f / 2`, at the listed positions along the circle. -/
theorem C125_layout {d_BF R f p0 w h px : ℝ} {name : String} (c : CamOk d_BF R f p0 w h) :
    ∃ es, detCamera (arcusCamConf d_BF R f p0 w h px) name = .ok es ∧
      es.map (·.pos4d) = (cameraArc (p0 * (doubleRowland d_BF R f).detector.r) w).map (fun s =>
        ccdAt f (doubleRowland d_BF R f).detector.r w h (s / (doubleRowland d_BF R f).detector.r)) ∧
      es.map (·.idNum) = [1, 2, 3, 4, 5, 6, 7, 8, 9, 10, 11, 12, 13, 14, 15, 16] ∧
      ∀ e ∈ es, e.args.get? "pixsize" = some (.num px) ∧ e.args.get? "id_col" = some (.str "CCD") := by
  set r := (doubleRowland d_BF R f).detector.r with hrr
  set arcs := cameraArc (p0 * r) w with harcs
  set ps := arcs.map fun s => (let a := s / r; compose ![r * Real.sin a, 0, f / 2 - r * Real.cos a]
        !![Real.sin a, Real.cos a, 0; 0, 0, -1; -Real.cos a, Real.sin a, 0] ![1, 1, 1]) with hps
  have hal : arcs.length = 16 := by simp [harcs, cameraArc, stripArc]
  have hlen : ps.length = 16 := by rw [hps, List.length_map, hal]
  have hpos : camPos (arcusCamConf d_BF R f p0 w h px) = .ok (ps.map some) := cam_pos c
  obtain ⟨es, h1, h2, h3⟩ := genFrom_exists (dec := decompose44) (c := ⟨1, 1, ps, List.replicate ps.length 1,
          [("pixsize", .num px), ("zoom", .list [.num 1, .num w, .num h]),
           ("orientation", .mat3 ccdOrient), ("id_col", .str "CCD")], 1, name⟩)
    (fun k e => ∃ s, arcs[k]? = some s ∧ e = ⟨ccdAt f r w h (s / r), 1 + k, [("pixsize", .num px), ("id_col", .str "CCD"),
        ("name", .str ("Elem " ++ toString k ++ " in " ++ name))]⟩) 0 16 (by
      intro k hk
      rw [zero_add]
      obtain ⟨s, hs⟩ : ∃ s, arcs[k]? = some s := ⟨_, List.getElem?_eq_getElem (by omega)⟩
      exact ⟨_, cam_genOne ps px w h f r (s / r) name k c.w_pos c.h_pos hlen (by rw [hps, List.getElem?_map, hs]; rfl), s, hs, rfl⟩)
  refine ⟨es, ?_, ?_, ?_, ?_⟩
  · unfold detCamera
    rw [hpos]
    simp only [mapM_some, generateElements, hlen]
    rw [hlen] at h1
    simp only [arcusCamConf, h1, h2, if_true]
  · refine List.ext_getElem? fun k => ?_
    rw [List.getElem?_map, List.getElem?_map]
    by_cases hk : k < 16
    · have he : es[k]? = some es[k] := List.getElem?_eq_getElem (by omega)
      obtain ⟨s, hs, h4⟩ := h3 k _ he
      rw [zero_add] at hs h4
      rw [he, hs, Option.map_some, Option.map_some, h4]
    · rw [List.getElem?_eq_none (by omega), List.getElem?_eq_none (by omega)]; rfl
  · have : es.map (·.idNum) = (List.range 16).map (fun k : ℕ => (1 + k : ℤ)) := by
      refine List.ext_getElem? fun k => ?_
      rw [List.getElem?_map, List.getElem?_map]
      by_cases hk : k < 16
      · have he : es[k]? = some es[k] := List.getElem?_eq_getElem (by omega)
        obtain ⟨s, hs, h4⟩ := h3 k _ he
        rw [zero_add] at hs h4
        rw [he, List.getElem?_range hk, Option.map_some, Option.map_some, h4]
      · rw [List.getElem?_eq_none (by omega), List.getElem?_eq_none (by simp; omega)]; rfl
    rw [this]; rfl
  · intro e he
    obtain ⟨k, hk⟩ := List.getElem?_of_mem he
    obtain ⟨s, hs, h4⟩ := h3 k _ hk
    rw [h4]
    simp [Kwargs.get?]

theorem cameraArc_apart {e w : ℝ} (he : 0 < e) (hw : 0 < w) : (cameraArc e w).Pairwise fun a b => a + 2 * w < b := by
  simp only [cameraArc, stripArc, List.map, List.reverse_cons, List.reverse_nil, List.nil_append, List.cons_append, List.pairwise_cons,
    List.forall_mem_cons, List.Pairwise.nil, and_true]
  simp only [List.not_mem_nil, false_imp_iff, implies_true, and_true]
  repeat' apply And.intro
  all_goals linarith

/-- Two CCDs of the camera. -/
theorem cam_two {d_BF R f p0 w h px : ℝ} {name : String} (c : CamOk d_BF R f p0 w h) {es : List GenElem}
    (hes : detCamera (arcusCamConf d_BF R f p0 w h px) name = .ok es) {e e' : GenElem} (he : e ∈ es) (he' : e' ∈ es)
    (hlt : e.idNum < e'.idNum) :
    ∃ a b, -(3 / 2) ≤ a ∧ b ≤ 3 / 2 ∧ a + 2 * w / (doubleRowland d_BF R f).detector.r < b ∧
      e.pos4d = ccdAt f (doubleRowland d_BF R f).detector.r w h a ∧ e'.pos4d = ccdAt f (doubleRowland d_BF R f).detector.r w h b := by
  obtain ⟨es', h1, h2, h3, h4⟩ := C125_layout (px := px) (name := name) c
  rw [hes] at h1
  obtain rfl : es = es' := by simpa using h1
  have hr := cam_r c
  have hap := cameraArc_apart (mul_pos c.p_pos hr) c.w_pos
  have hang := fun s hs => cam_angle (s := s) c hs
  obtain ⟨ha, -⟩ := cam_alpha c
  set r := (doubleRowland d_BF R f).detector.r with hrr
  set arcs := cameraArc (p0 * r) w with harcs
  obtain ⟨i, hi⟩ := List.getElem?_of_mem he
  obtain ⟨j, hj⟩ := List.getElem?_of_mem he'
  have hi2 := congrArg (·[i]?) h2
  have hj2 := congrArg (·[j]?) h2
  simp only [List.getElem?_map, hi, hj, Option.map_some] at hi2 hj2
  obtain ⟨s, hs, hs'⟩ := Option.map_eq_some_iff.1 hi2.symm
  obtain ⟨t, ht, ht'⟩ := Option.map_eq_some_iff.1 hj2.symm
  have hnum : ∀ (k : ℕ) (e : GenElem), es[k]? = some e → e.idNum = 1 + k := by
    intro k e hk
    have h5 := congrArg (·[k]?) h3
    simp only [List.getElem?_map, hk, Option.map_some] at h5
    have hl : k < 16 := by
      by_contra hc
      rw [List.getElem?_eq_none (by simp; omega)] at h5; simp at h5
    rw [show ([1, 2, 3, 4, 5, 6, 7, 8, 9, 10, 11, 12, 13, 14, 15, 16] : List ℤ) = (List.range 16).map (fun k : ℕ => (1 + k : ℤ)) from rfl,
      List.getElem?_map, List.getElem?_range hl] at h5
    simpa using h5
  have hij : i < j := by
    rw [hnum i e hi, hnum j e' hj] at hlt; omega
  obtain ⟨hil, hie⟩ := List.getElem?_eq_some_iff.1 hs
  obtain ⟨hjl, hje⟩ := List.getElem?_eq_some_iff.1 ht
  have hst := List.pairwise_iff_getElem.1 hap i j hil hjl hij
  rw [hie, hje] at hst
  have b1 := abs_le.1 (show |s / r| ≤ 3 / 2 by linarith [hang s (List.mem_of_getElem? hs)])
  have b2 := abs_le.1 (show |t / r| ≤ 3 / 2 by linarith [hang t (List.mem_of_getElem? ht)])
  refine ⟨s / r, t / r, b1.1, b2.2, ?_, hs'.symm, ht'.symm⟩
  rw [← add_div]
  exact div_lt_div_of_pos_right hst hr

/-- **C125** (numbers): the number of the CCD increases from -x to +x. -/
theorem C125_order {d_BF R f p0 w h px : ℝ} {name : String} (c : CamOk d_BF R f p0 w h) {es : List GenElem}
    (hes : detCamera (arcusCamConf d_BF R f p0 w h px) name = .ok es) {e e' : GenElem} (he : e ∈ es) (he' : e' ∈ es)
    (hlt : e.idNum < e'.idNum) : e.pos4d 0 3 < e'.pos4d 0 3 := by
  obtain ⟨a, b, h1, h2, h3, h4, h5⟩ := cam_two c hes he he' hlt
  have hr := cam_r c
  have hw := c.w_pos
  have hpi := Real.pi_gt_three
  have : 0 < 2 * w / (doubleRowland d_BF R f).detector.r := by positivity
  rw [h4, h5]
  have := Real.sin_lt_sin_of_lt_of_le_pi_div_two (x := a) (y := b) (by linarith) (by linarith) (by linarith)
  simpa [ccdAt] using mul_lt_mul_of_pos_left this hr

/-- **C125** (no overlap): two different CCDs have no point in common. -/
theorem C125_disjoint {d_BF R f p0 w h px : ℝ} {name : String} (c : CamOk d_BF R f p0 w h) {es : List GenElem}
    (hes : detCamera (arcusCamConf d_BF R f p0 w h px) name = .ok es) {e e' : GenElem} (he : e ∈ es) (he' : e' ∈ es)
    (hne : e.idNum ≠ e'.idNum) (p : Fin 3 → ℝ) (hp : OnFlat e.pos4d p) : ¬ OnFlat e'.pos4d p := by
  intro hp'
  wlog hlt : e.idNum < e'.idNum generalizing e e'
  · exact this he' he hne.symm hp' hp (lt_of_le_of_ne (not_lt.1 hlt) hne.symm)
  obtain ⟨a, b, h1, h2, h3, h4, h5⟩ := cam_two c hes he he' hlt
  have hr := cam_r c
  have hw := c.w_pos
  have hpi := Real.pi_gt_three
  rw [h4] at hp
  rw [h5] at hp'
  generalize (doubleRowland d_BF R f).detector.r = r at *
  obtain ⟨u, v, hu, -, hp⟩ := hp
  obtain ⟨u', v', hu', -, hp'⟩ := hp'
  have e0 := (hp 0).symm.trans (hp' 0)
  have e2 := (hp 2).symm.trans (hp' 2)
  simp [ccdAt] at e0 e2
  have hw2 : 0 < 2 * w / r := by positivity
  have hd : b - a = 2 * ((b - a) / 2) := by ring
  set x := (b - a) / 2 with hx
  have hx0 : w / r < x := by
    rw [hx]; have : 2 * w / r = 2 * (w / r) := by ring
    linarith
  have hwr : 0 < w / r := by positivity
  have htan := Real.lt_tan (x := x) (by linarith) (by rw [hx]; linarith)
  have hsin : 0 < Real.sin x := Real.sin_pos_of_pos_of_lt_pi (by linarith) (by rw [hx]; linarith)
  have hcos : 0 < Real.cos x := Real.cos_pos_of_mem_Ioo ⟨by linarith, by rw [hx]; linarith⟩
  have k1 : r = r * Real.cos (b - a) + u' * w * Real.sin (b - a) := by
    rw [Real.cos_sub, Real.sin_sub]
    linear_combination Real.sin a * e0 - Real.cos a * e2 - r * Real.cos_sq_add_sin_sq a
  rw [hd, Real.sin_two_mul, Real.cos_two_mul] at k1
  have k2 : Real.sin x * (r * Real.sin x) = Real.sin x * (u' * w * Real.cos x) := by
    have := Real.cos_sq_add_sin_sq x
    linear_combination (1 / 2) * k1 + r * this
  have k3 := mul_left_cancel₀ hsin.ne' k2
  rw [Real.tan_eq_sin_div_cos, lt_div_iff₀ hcos] at htan
  have k4 : u' * w ≤ w := by nlinarith [(abs_le.1 hu').2]
  have k5 : w < r * x := by rw [mul_comm]; exact (div_lt_iff₀ hr).1 hx0
  nlinarith

theorem calcLoop_length {ps ns ss : List H4} {l : List (Option M4)} (h : calcLoop ps ns ss = .ok l) : l.length = ps.length := by
  induction ps generalizing ns ss l with
  | nil => simp [calcLoop] at h; subst h; rfl
  | cons p ps ih =>
    cases ns with
    | nil => simp [calcLoop] at h
    | cons n ns =>
      cases ss with
      | nil => simp [calcLoop] at h
      | cons s ss =>
        simp only [calcLoop] at h
        split at h
        · simp at h
        · split at h
          · simp at h
          · next ms hm =>
            simp at h; subst h
            simp [ih hm]

/-- **C125** (number of CCDs): for every configuration, a camera is made only if `n_CCDs` is 16, and then it has 16 CCDs. -/
theorem C125_count (c : CamConf) (name : String) {es : List GenElem} (h : detCamera c name = .ok es) : c.nCCDs = 16 ∧ es.length = 16 := by
  unfold detCamera at h
  split at h
  · simp at h
  next l hl =>
  split at h
  · simp at h
  next ps hps =>
  split at h
  · simp at h
  next es' hg =>
  split at h
  · next hn =>
    simp at h; subst h
    have h1 : es'.length = ps.length := (genFrom_spec hg).1
    have h2 : ps.length = l.length := by
      have : ∀ (l : List (Option M4)) ps, l.mapM (m := Option) id = some ps → ps.length = l.length := by
        intro l
        induction l with
        | nil => intro ps h; simp at h; subst h; rfl
        | cons a l ih =>
          intro ps h
          rw [List.mapM_cons] at h
          cases a with
          | none => simp at h
          | some a =>
            cases hq : l.mapM (m := Option) id with
            | none => rw [hq] at h; simp at h
            | some q =>
              rw [hq] at h
              simp at h
              subst h
              simp [ih q hq]
      exact this l ps hps
    have h3 : l.length = 16 := by
      unfold camPos calculateElempos at hl
      split at hl
      · simp at hl
      dsimp only at hl
      split at hl
      · simp at hl
      rw [calcLoop_length hl]
      simp only [List.length_map, camTheta, List.length_reverse]
      rw [(sortReal_perm _).length_eq]
      simp [camTheta1, camGaps, cumsumR]
    omega
  · simp at h

/-- **C125**, direction of `det_x`: the configuration says that the orientation flips the CCDs "so that det_x increases with increasing x
coordinate". It does the opposite: the direction of `det_x` (second column) has a negative x component on every CCD. -/
theorem C125_detx_false {d_BF R f p0 w h px : ℝ} {name : String} (c : CamOk d_BF R f p0 w h) {es : List GenElem}
    (hes : detCamera (arcusCamConf d_BF R f p0 w h px) name = .ok es) {e : GenElem} (he : e ∈ es) : e.pos4d 0 1 < 0 := by
  obtain ⟨es', h1, h2, -, -⟩ := C125_layout (px := px) (name := name) c
  rw [hes] at h1
  obtain rfl : es = es' := by simpa using h1
  have hm : e.pos4d ∈ es.map (·.pos4d) := List.mem_map_of_mem he
  rw [h2] at hm
  obtain ⟨s, hs, h3⟩ := List.mem_map.1 hm
  have hang := cam_angle c hs
  obtain ⟨ha, -⟩ := cam_alpha c
  have := cos_lower (show |s / (doubleRowland d_BF R f).detector.r| ≤ 3 / 2 by linarith)
  rw [← h3]
  have hw := c.w_pos
  simp [ccdAt]
  nlinarith

/-- **C125**, groups: the class says that the CCDs of a strip come "in 3-2-3 groups to match the shadows from the filter support", so that the
wide gaps follow the third and the fifth CCD. In the strip at positive x they follow the second and the fifth. -/
theorem C125_groups_false {d_BF R f p0 w h px : ℝ} {name : String} (c : CamOk d_BF R f p0 w h) :
    ∃ (es : List GenElem) (arcs : List ℝ), detCamera (arcusCamConf d_BF R f p0 w h px) name = .ok es ∧
      (∀ s ∈ arcs, |s / (doubleRowland d_BF R f).detector.r| ≤ 3 / 2) ∧
      es.map (·.pos4d) = arcs.map (fun s =>
        ccdAt f (doubleRowland d_BF R f).detector.r w h (s / (doubleRowland d_BF R f).detector.r)) ∧
      List.zipWith (fun a b => b - a - 2 * w) (arcs.drop 8) (arcs.drop 9) = [2.15, 4, 2.15, 2.15, 4, 2.15, 2.15] := by
  obtain ⟨es, h1, h2, -, -⟩ := C125_layout (px := px) (name := name) c
  refine ⟨es, _, h1, fun s hs => by linarith [cam_angle c hs, (cam_alpha c).1], h2, ?_⟩
  simp only [cameraArc, stripArc, List.map, List.reverse_cons, List.reverse_nil, List.nil_append, List.cons_append, List.drop, List.zipWith]
  simp only [List.cons.injEq, and_true]
  refine ⟨?_, ?_, ?_, ?_, ?_, ?_, ?_⟩ <;> ring

/-- The dimensions of Arcus meet the conditions. -/
example : CamOk 750 5915.51307 (12000 - 123.569239) 0.024 24.576 12.288 := by
  have hr : (doubleRowland 750 5915.51307 (12000 - 123.569239)).detector.r = 1 / 2 * Real.sqrt ((12000 - 123.569239) ^ 2 + 750 ^ 2) := by
    simp [doubleRowland]
  have h1 : 5000 < (doubleRowland 750 5915.51307 (12000 - 123.569239)).detector.r := by
    rw [hr]
    have : (10000 : ℝ) < Real.sqrt ((12000 - 123.569239) ^ 2 + 750 ^ 2) := Real.lt_sqrt_of_sq_lt (by norm_num)
    linarith
  refine ⟨by norm_num, by norm_num, by norm_num, ?_, by norm_num, by norm_num, by norm_num, ?_⟩
  · rw [hr]
    have : Real.sqrt ((12000 - 123.569239) ^ 2 + 750 ^ 2) < 20000 := by
      rw [Real.sqrt_lt' (by norm_num)]; norm_num
    linarith
  · have h2 : (15 * 24.576 + 23.75 : ℝ) / (doubleRowland 750 5915.51307 (12000 - 123.569239)).detector.r ≤ 1 / 10 := by
      rw [div_le_div_iff₀ (by linarith) (by norm_num)]; linarith
    have h3 : arctan2 750 (12000 - 123.569239) ≤ Real.pi / 4 := by
      rw [arctan2, Complex.arg_of_re_nonneg (by norm_num)]
      have h4 := Complex.abs_re_le_norm (⟨12000 - 123.569239, 750⟩ : ℂ)
      rw [abs_of_pos (by norm_num)] at h4
      have h5 : (750 : ℝ) / ‖(⟨12000 - 123.569239, 750⟩ : ℂ)‖ ≤ 1 / 2 := by
        rw [div_le_iff₀ (lt_of_lt_of_le (by norm_num) h4)]
        norm_num at h4 ⊢
        linarith
      have h6 := Real.arcsin_le_arcsin h5
      have h7 : Real.arcsin (1 / 2) = Real.pi / 6 := by
        rw [← Real.sin_pi_div_six, Real.arcsin_sin] <;> linarith [Real.pi_pos]
      simp only at h6 ⊢
      linarith [Real.pi_pos]
    have := Real.pi_lt_d2
    linarith

end Marxs
