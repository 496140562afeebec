import Mathlib.Analysis.SpecialFunctions.Trigonometric.Deriv
import Mathlib.Tactic.Ring
import Mathlib.Tactic.FieldSimp
import Mathlib.Tactic.Linarith
import Mathlib.Tactic.Positivity
import Mathlib.Tactic.NormNum
import Mathlib.Tactic.LinearCombination
import Verif.Props.Torus
import Verif.Props.Placement

/-!
# Properties C47-C49, C78: normals, designs and positions of elements on the torus
-/

namespace Marxs

/-! ## C47 -/

theorem conformal_dot {m : M4} {k : ℝ} (h : Conformal m k) {a b : H4} (ha : a.w = 0) (hb : b.w = 0) :
    (mul4 m a).xyz.dot (mul4 m b).xyz = k ^ 2 * a.xyz.dot b.xyz := by
  obtain ⟨_, h1, h2, h3, h4, h5, h6⟩ := h
  simp only [vX, vY, vZ, col, mul4, H4.xyz, V3.dot] at *
  rw [ha, hb]
  linear_combination a.x * b.x * h1 + a.y * b.y * h2 + a.z * b.z * h3 +
    (a.x * b.y + a.y * b.x) * h4 + (a.x * b.z + a.z * b.x) * h5 + (a.y * b.z + a.z * b.y) * h6

/-- Tangent vectors in the local coordinates. -/
noncomputable def tangentTheta (r th ph : ℝ) : H4 :=
  ⟨-(r * Real.sin th) * Real.cos ph, r * Real.cos th, -(r * Real.sin th) * Real.sin ph, 0⟩

noncomputable def tangentPhi (R r th ph : ℝ) : H4 :=
  ⟨-(R + r * Real.cos th) * Real.sin ph, 0, (R + r * Real.cos th) * Real.cos ph, 0⟩

theorem velocity_mul4 (m : M4) {f : ℝ → H4} {s : ℝ} {v : H4} (h : IsVelocity f s v) :
    IsVelocity (fun t => mul4 m (f t)) s (mul4 m v) := by
  obtain ⟨h1, h2, h3, h4⟩ := h
  refine ⟨?_, ?_, ?_, ?_⟩ <;> simp only [mul4] <;>
    exact (((h1.const_mul _).add (h2.const_mul _)).add (h3.const_mul _)).add (h4.const_mul _)

theorem velocity_theta (R r th ph : ℝ) :
    IsVelocity (fun s => parametricLocal R r s ph) th (tangentTheta r th ph) := by
  have hc := (Real.hasDerivAt_cos th).const_mul r
  have hs := (Real.hasDerivAt_sin th).const_mul r
  refine ⟨?_, hs, ?_, hasDerivAt_const _ _⟩
  · have := (hc.const_add R).mul_const (Real.cos ph)
    exact this.congr_deriv (by simp only [tangentTheta]; ring)
  · have := (hc.const_add R).mul_const (Real.sin ph)
    exact this.congr_deriv (by simp only [tangentTheta]; ring)

theorem velocity_phi (R r th ph : ℝ) :
    IsVelocity (fun s => parametricLocal R r th s) ph (tangentPhi R r th ph) := by
  refine ⟨?_, hasDerivAt_const _ _, (Real.hasDerivAt_sin ph).const_mul _, hasDerivAt_const _ _⟩
  have := (Real.hasDerivAt_cos ph).const_mul (R + r * Real.cos th)
  exact this.congr_deriv (by simp only [tangentPhi]; ring)

theorem IsVelocity.unique {f : ℝ → H4} {s : ℝ} {v w : H4} (h : IsVelocity f s v) (h' : IsVelocity f s w) :
    v = w := by
  obtain ⟨h1, h2, h3, h4⟩ := h
  obtain ⟨k1, k2, k3, k4⟩ := h'
  cases v; cases w
  simp only [H4.mk.injEq]
  exact ⟨h1.unique k1, h2.unique k2, h3.unique k3, h4.unique k4⟩

/-- **C47** For every torus placed with rotation, translation and uniform zoom `k`, the vector from
`normal_parametric` is perpendicular to the velocity of a point that moves along the tube and of a point that
moves around the axis (those velocities exist), it is a direction vector and its length is `k`
(1 for a torus that is only moved and rotated). -/
theorem C47_perpendicular (t : Torus) (k : ℝ) (ht : Conformal t.pos4d k) (th ph : ℝ) :
    (∃ v, IsVelocity (fun s => parametric t s ph) th v) ∧
    (∃ v, IsVelocity (fun s => parametric t th s) ph v) ∧
    (∀ v, IsVelocity (fun s => parametric t s ph) th v →
      v.xyz.dot (normalParametric t th ph).xyz = 0) ∧
    (∀ v, IsVelocity (fun s => parametric t th s) ph v →
      v.xyz.dot (normalParametric t th ph).xyz = 0) ∧
    (normalParametric t th ph).w = 0 ∧
    (normalParametric t th ph).xyz.norm = |k| := by
  have v1 := velocity_mul4 t.pos4d (velocity_theta t.R t.r th ph)
  have v2 := velocity_mul4 t.pos4d (velocity_phi t.R t.r th ph)
  refine ⟨⟨_, v1⟩, ⟨_, v2⟩, ?_, ?_, ?_, ?_⟩
  · intro v hv
    rw [hv.unique v1, normalParametric, conformal_dot ht rfl rfl]
    simp only [tangentTheta, H4.xyz, V3.dot]
    have := Real.cos_sq_add_sin_sq ph
    linear_combination (-(t.r * Real.sin th * Real.cos th) * k ^ 2) * this
  · intro v hv
    rw [hv.unique v2, normalParametric, conformal_dot ht rfl rfl]
    simp only [tangentPhi, H4.xyz, V3.dot]
    ring
  · exact affine_w ht.affine _
  · rw [V3.norm, normalParametric, conformal_dot ht rfl rfl, ← Real.sqrt_sq_eq_abs]
    congr 1
    simp only [H4.xyz, V3.dot]
    have h1 := Real.cos_sq_add_sin_sq ph
    have h2 := Real.cos_sq_add_sin_sq th
    linear_combination k ^ 2 * Real.cos th ^ 2 * h1 + k ^ 2 * h2

theorem param_add_normal (t : Torus) (th ph s : ℝ) :
    parametric t th ph + s • normalParametric t th ph =
      mul4 t.pos4d (parametricLocal t.R (t.r + s) th ph) := by
  rw [parametric, normalParametric, ← mul4_add_smul]
  congr 1
  simp only [parametricLocal]
  change H4.mk (_ + s * _) (_ + s * _) (_ + s * _) (_ + s * _) = H4.mk _ _ _ _
  congr 1 <;> ring

theorem quartic_tube (R r u th ph : ℝ) :
    quarticLocal R r (parametricLocal R u th ph).xyz =
      (u ^ 2 - r ^ 2) * (4 * R ^ 2 + 4 * R * u * Real.cos th + u ^ 2 - r ^ 2) := by
  simp only [quarticLocal, parametricLocal, H4.xyz]
  have h1 := Real.cos_sq_add_sin_sq ph
  have h2 := Real.cos_sq_add_sin_sq th
  have e1 : ((R + u * Real.cos th) * Real.cos ph) ^ 2 + ((R + u * Real.cos th) * Real.sin ph) ^ 2 =
      (R + u * Real.cos th) ^ 2 := by linear_combination (R + u * Real.cos th) ^ 2 * h1
  have e2 : ((R + u * Real.cos th) * Real.cos ph) ^ 2 + (u * Real.sin th) ^ 2 +
      ((R + u * Real.cos th) * Real.sin ph) ^ 2 + R ^ 2 - r ^ 2 =
      2 * R ^ 2 + 2 * R * u * Real.cos th + u ^ 2 - r ^ 2 := by
    linear_combination e1 + u ^ 2 * h2
  rw [e2, e1]
  ring

/-- **C47** The vector points out of the torus volume: for a torus with a hole (`r < R`), following the vector the
quartic is positive as long as the hole is not crossed, and following it backwards the quartic is negative
until the other side of the tube. -/
theorem C47_outwards (t : Torus) (ht : Placed t.pos4d) (hr : 0 < t.r) (hR : t.r < t.R) (th ph s : ℝ) :
    (0 < s → s < 2 * (t.R - t.r) → ∃ q, 0 < q ∧
      quartic t (parametric t th ph + s • normalParametric t th ph).xyz true = .ok q) ∧
    (0 < s → s < 2 * t.r → ∃ q, q < 0 ∧
      quartic t (parametric t th ph + (-s) • normalParametric t th ph).xyz true = .ok q) := by
  have key : ∀ s, quartic t (parametric t th ph + s • normalParametric t th ph).xyz true =
      .ok (((t.r + s) ^ 2 - t.r ^ 2) *
        (4 * t.R ^ 2 + 4 * t.R * (t.r + s) * Real.cos th + (t.r + s) ^ 2 - t.r ^ 2)) := by
    intro s
    rw [quartic_global t ht, param_add_normal]
    have hw : (mul4 t.pos4d (parametricLocal t.R (t.r + s) th ph)).w = 1 := affine_w ht.1 _
    set P := mul4 t.pos4d (parametricLocal t.R (t.r + s) th ph) with hP
    have e : (⟨P.xyz.x, P.xyz.y, P.xyz.z, 1⟩ : H4) = P := by
      conv_lhs => rw [← hw]
      rfl
    rw [e, hP, inv_mul4 ht.2, quartic_tube]
  have hc1 := Real.neg_one_le_cos th
  have hc2 := Real.cos_le_one th
  constructor
  · intro h1 h2
    refine ⟨_, ?_, key s⟩
    apply mul_pos
    · nlinarith
    · have : 4 * t.R * (t.r + s) * (1 + Real.cos th) ≥ 0 := by
        apply mul_nonneg _ (by linarith)
        apply mul_nonneg <;> linarith
      have h3 : t.r < 2 * t.R - (t.r + s) := by linarith
      nlinarith
  · intro h1 h2
    refine ⟨_, ?_, key (-s)⟩
    apply mul_neg_of_neg_of_pos
    · nlinarith
    · rcases le_or_gt s t.r with h | h
      · have : 4 * t.R * (t.r + -s) * (1 + Real.cos th) ≥ 0 := by
          apply mul_nonneg _ (by linarith)
          apply mul_nonneg <;> linarith
        have h3 : t.r < 2 * t.R - (t.r + -s) := by linarith
        nlinarith
      · have : 4 * t.R * (s - t.r) * (1 - Real.cos th) ≥ 0 := by
          apply mul_nonneg _ (by linarith)
          apply mul_nonneg <;> linarith
        have h3 : t.r < 2 * t.R - (s - t.r) := by linarith
        nlinarith

theorem cos_of_sameAngle {a b : ℝ} (h : SameAngle a b) : Real.cos a = Real.cos b := by
  obtain ⟨k, rfl⟩ := h
  rw [mul_comm, Real.cos_add_int_mul_two_pi]

theorem sin_of_sameAngle {a b : ℝ} (h : SameAngle a b) : Real.sin a = Real.sin b := by
  obtain ⟨k, rfl⟩ := h
  rw [mul_comm, Real.sin_add_int_mul_two_pi]

/-- **C47** (partial: not at the top and bottom of the tube, only `r < R`.)
`normal` of points on the torus returns the vectors described in `C47_perpendicular` and `C47_outwards`. -/
theorem C47_normal_partial (t : Torus) (ht : Placed t.pos4d) (hr : 0 < t.r) (hrR : t.r < t.R)
    (angles : List (ℝ × ℝ)) (hc : ∀ a ∈ angles, Real.cos a.1 ≠ 0) :
    torusNormal t (angles.map fun a => parametric t a.1 a.2) =
      .ok (angles.map fun a => some (normalParametric t a.1 a.2)) := by
  obtain ⟨res, h1, h2⟩ := C46_angles_partial t ht hr hrR angles hc
  unfold torusNormal
  rw [h1]
  simp only
  congr 1
  clear h1 hc
  induction h2 with
  | nil => rfl
  | cons h _ ih =>
    obtain ⟨th, ph, rfl, h3, h4⟩ := h
    simp only [List.map_cons, Option.map_some, ih]
    congr 2
    simp only [normalParametric, cos_of_sameAngle h3, cos_of_sameAngle h4, sin_of_sameAngle h3,
      sin_of_sameAngle h4]

/-- **C47** False at the top of the tube: there the vector from `normal` is perpendicular to the true normal,
for every torus (`normal_parametric` at the same place is right). -/
theorem C47_top_false (t : Torus) (ht : Placed t.pos4d) (hk : Conformal t.pos4d 1) (hR : 0 < t.R) (hr : 0 < t.r)
    (ph : ℝ) :
    ∃ n, torusNormal t [parametric t (Real.pi / 2) ph] = .ok [some n] ∧
      n.xyz.dot (normalParametric t (Real.pi / 2) ph).xyz = 0 ∧
      (normalParametric t (Real.pi / 2) ph).xyz.norm = 1 := by
  obtain ⟨ph', h1, _⟩ := C46_top_false t ht hR hr ph
  refine ⟨normalParametric t 0 ph', ?_, ?_, ?_⟩
  · unfold torusNormal
    rw [h1]
    rfl
  · rw [normalParametric, normalParametric, conformal_dot hk rfl rfl]
    simp [H4.xyz, V3.dot]
  · have := (C47_perpendicular t 1 hk (Real.pi / 2) ph).2.2.2.2.2
    rwa [abs_one] at this

/-- **C47** False if the torus is placed with different zoom factors: then the vector is not perpendicular to the
surface. -/
theorem C47_zoom_false :
    let t : Torus := ⟨3, 1, compose ![0, 0, 0] 1 ![2, 1, 1]⟩
    Placed t.pos4d ∧ ∃ th ph v, IsVelocity (fun s => parametric t s ph) th v ∧
      v.xyz.dot (normalParametric t th ph).xyz ≠ 0 := by
  intro t
  refine ⟨⟨affine_compose _ _ _, ?_⟩, Real.pi / 4, 0, _, velocity_mul4 _ (velocity_theta 3 1 _ _), ?_⟩
  · rw [det_compose]
    simp [Fin.prod_univ_three]
  · simp [t, normalParametric, tangentTheta, mul4, compose, H4.xyz, V3.dot, Matrix.one_apply]
    have h : Real.sqrt 2 * Real.sqrt 2 = 2 := Real.mul_self_sqrt (by norm_num)
    intro h2
    nlinarith

/-- A torus meeting the hypotheses of C46 and C47: moved, rotated. -/
example : let t : Torus := ⟨3, 1, compose ![1, 2, 3] !![0, -1, 0; 1, 0, 0; 0, 0, 1] ![1, 1, 1]⟩
    Placed t.pos4d ∧ Conformal t.pos4d 1 ∧ 0 < t.r ∧ t.r < t.R ∧ Real.cos 0 ≠ 0 := by
  refine ⟨⟨⟨rfl, rfl, rfl, rfl⟩, ?_⟩, ⟨⟨rfl, rfl, rfl, rfl⟩, ?_, ?_, ?_, ?_, ?_, ?_⟩, ?_, ?_, by simp⟩
  · rw [det_compose]
    simp [Matrix.det_fin_three, Fin.prod_univ_three]
  all_goals simp [vX, vY, vZ, col, compose, H4.xyz, V3.dot] <;> norm_num

/-! ## C48 -/

/-- Placement of a torus that is turned by `d` in the xy plane, with center `(x, y, 0)`. -/
theorem placed_turned (x y z d : ℝ) (o : M3)
    (ho : o = !![Real.cos d, Real.sin d, 0; -Real.sin d, Real.cos d, 0; 0, 0, 1]) :
    Placed (compose ![x, y, z] o ![1, 1, 1]) ∧ Conformal (compose ![x, y, z] o ![1, 1, 1]) 1 ∧
    ∀ p : V3, toGlobal (compose ![x, y, z] o ![1, 1, 1]) p =
      ⟨x + p.x * Real.cos d + p.y * Real.sin d, y - p.x * Real.sin d + p.y * Real.cos d, z + p.z, 1⟩ := by
  have hcs := Real.cos_sq_add_sin_sq d
  refine ⟨⟨affine_compose _ _ _, ?_⟩, ⟨affine_compose _ _ _, ?_, ?_, ?_, ?_, ?_, ?_⟩, ?_⟩
  · rw [det_compose]
    have : o.det = 1 := by
      rw [ho, Matrix.det_fin_three]
      simp
      linarith
    rw [this]
    simp [Fin.prod_univ_three]
  · subst ho; simp [vX, col, compose, H4.xyz, V3.dot]; linarith
  · subst ho; simp [vY, col, compose, H4.xyz, V3.dot]; linarith
  · subst ho; simp [vZ, col, compose, H4.xyz, V3.dot]
  · subst ho; simp [vX, vY, col, compose, H4.xyz, V3.dot]; ring
  · subst ho; simp [vX, vZ, col, compose, H4.xyz, V3.dot]
  · subst ho; simp [vY, vZ, col, compose, H4.xyz, V3.dot]
  · intro p
    subst ho
    simp only [toGlobal, mul4, compose]
    congr 1 <;> simp <;> ring

theorem rot_down (d : ℝ) :
    rotMat ⟨0, 0, -1⟩ d = !![Real.cos d, Real.sin d, 0; -Real.sin d, Real.cos d, 0; 0, 0, 1] := by
  ext i j
  fin_cases i <;> fin_cases j <;> simp [rotMat]

theorem quartic_of_local (t : Torus) (ht : Placed t.pos4d) {q p : V3} (hq : OnTorus t.R t.r q)
    (hp : toGlobal t.pos4d q = ⟨p.x, p.y, p.z, 1⟩) : quartic t p true = .ok 0 :=
  ((C45_surjective t ht p).2).2 ⟨q, hq, hp⟩

/-- The facts about `design_tilted_torus` that all theorems use. -/
theorem tilted_global (f alpha beta : ℝ) (ha : Real.cos alpha ≠ 0) :
    let t := designTiltedTorus f alpha beta
    Placed t.pos4d ∧ Conformal t.pos4d 1 ∧ 2 * t.r * Real.cos alpha = f ∧ t.R = t.r * Real.cos beta ∧
    ∀ p : V3, toGlobal t.pos4d p =
      ⟨t.r * Real.cos alpha + (p.x - t.R) * Real.cos (beta - alpha) + p.y * Real.sin (beta - alpha),
       t.r * Real.sin alpha - (p.x - t.R) * Real.sin (beta - alpha) + p.y * Real.cos (beta - alpha),
       p.z, 1⟩ := by
  intro t
  have hf : 2 * t.r * Real.cos alpha = f := by
    simp only [t, designTiltedTorus]
    field_simp
  have hR : t.R = t.r * Real.cos beta := by
    simp only [t, designTiltedTorus, Real.sin_pi_div_two_sub]
  obtain ⟨h1, h2, h3⟩ := placed_turned (f / 2 - t.R * Real.cos (beta - alpha))
    (f / 2 * Real.tan alpha + t.R * Real.sin (beta - alpha)) 0 (beta - alpha) _ (rot_down (beta - alpha))
  refine ⟨h1, h2, hf, hR, ?_⟩
  intro p
  have := h3 p
  refine this.trans ?_
  have e1 : f / 2 = t.r * Real.cos alpha := by linarith
  have e2 : f / 2 * Real.tan alpha = t.r * Real.sin alpha := by
    rw [e1, Real.tan_eq_sin_div_cos]
    field_simp
  rw [e2, e1]
  congr 1 <;> ring

theorem onTorus_meridian {R r a y : ℝ} (h : (a - R) ^ 2 + y ^ 2 = r ^ 2) : OnTorus R r ⟨a, y, 0⟩ :=
  ⟨1, 0, a, by norm_num, by simp, by simp, h⟩

/-- **C48** The torus contains the focal point (origin) and the position of the on-axis grating, at the distance `f`
from the focal point on the optical axis, for all `f`, `alpha`, `beta` with `cos alpha ≠ 0`. -/
theorem C48_on_torus (f alpha beta : ℝ) (ha : Real.cos alpha ≠ 0) :
    let t := designTiltedTorus f alpha beta
    Placed t.pos4d ∧ Conformal t.pos4d 1 ∧ quartic t ⟨0, 0, 0⟩ true = .ok 0 ∧ quartic t ⟨f, 0, 0⟩ true = .ok 0 := by
  intro t
  obtain ⟨h1, h2, hf, hR, hg⟩ := tilted_global f alpha beta ha
  change Placed t.pos4d at h1
  change Conformal t.pos4d 1 at h2
  have hcb := Real.cos_sq_add_sin_sq beta
  have hcd := Real.cos_sq_add_sin_sq (beta - 2 * alpha)
  have ea : alpha = beta - (beta - alpha) := by ring
  have ca : Real.cos alpha = Real.cos beta * Real.cos (beta - alpha) + Real.sin beta * Real.sin (beta - alpha) := by
    conv_lhs => rw [ea, Real.cos_sub]
  have sa : Real.sin alpha = Real.sin beta * Real.cos (beta - alpha) - Real.cos beta * Real.sin (beta - alpha) := by
    conv_lhs => rw [ea, Real.sin_sub]
  refine ⟨h1, h2, ?_, ?_⟩
  · refine quartic_of_local t h1 (q := ⟨0, -(t.r * Real.sin beta), 0⟩) (onTorus_meridian ?_) ?_
    · rw [show t.R = t.r * Real.cos beta from hR]
      linear_combination t.r ^ 2 * hcb
    · rw [hg, show (designTiltedTorus f alpha beta).R = t.r * Real.cos beta from hR,
        show (designTiltedTorus f alpha beta).r = t.r from rfl, ca, sa]
      congr 1 <;> ring
  · refine quartic_of_local t h1
      (q := ⟨t.R + t.r * Real.cos (beta - 2 * alpha), t.r * Real.sin (beta - 2 * alpha), 0⟩)
      (onTorus_meridian ?_) ?_
    · linear_combination t.r ^ 2 * hcd
    · rw [hg, show (designTiltedTorus f alpha beta).R = t.R from rfl,
        show (designTiltedTorus f alpha beta).r = t.r from rfl]
      have e1 : Real.cos (beta - 2 * alpha) * Real.cos (beta - alpha) +
          Real.sin (beta - 2 * alpha) * Real.sin (beta - alpha) = Real.cos alpha := by
        rw [← Real.cos_sub, ← Real.cos_neg]; congr 1; ring
      have e2 : Real.sin (beta - 2 * alpha) * Real.cos (beta - alpha) -
          Real.cos (beta - 2 * alpha) * Real.sin (beta - alpha) = -Real.sin alpha := by
        rw [← Real.sin_sub, ← Real.sin_neg]; congr 1; ring
      have hf' : f = 2 * t.r * Real.cos alpha := hf.symm
      show H4.mk _ _ _ _ = H4.mk f 0 0 1
      rw [hf']
      congr 1
      · linear_combination t.r * e1
      · linear_combination t.r * e2

/-- **C48** The geometry described in the documentation: focal point, on-axis grating and hinge are on the Rowland circle
(the circle `phi = 0`, which lies in the plane `z = 0`, has radius `r` and center `C`); the line from the
grating to `C` has the angle `alpha`, and the line from the grating to the hinge the angle `beta` to the optical axis;
and focal point, hinge and center of the torus are on the axis of symmetry of the torus. -/
theorem C48_geometry (f alpha beta : ℝ) (ha : Real.cos alpha ≠ 0) :
    let t := designTiltedTorus f alpha beta
    ∃ (hinge C : V3) (k : ℝ),
      toGlobal t.pos4d ⟨t.R, 0, 0⟩ = ⟨C.x, C.y, C.z, 1⟩ ∧
      (∀ p : V3, (∃ th, parametric t th 0 = ⟨p.x, p.y, p.z, 1⟩) ↔
        p.z = 0 ∧ (p.x - C.x) ^ 2 + (p.y - C.y) ^ 2 = t.r ^ 2) ∧
      (∃ th, parametric t th 0 = ⟨0, 0, 0, 1⟩) ∧
      (∃ th, parametric t th 0 = ⟨f, 0, 0, 1⟩) ∧
      (∃ th, parametric t th 0 = ⟨hinge.x, hinge.y, hinge.z, 1⟩) ∧
      C - ⟨f, 0, 0⟩ = t.r • (⟨-Real.cos alpha, Real.sin alpha, 0⟩ : V3) ∧
      hinge - ⟨f, 0, 0⟩ = k • (⟨-Real.cos beta, Real.sin beta, 0⟩ : V3) ∧
      (∃ y, toGlobal t.pos4d ⟨0, y, 0⟩ = ⟨0, 0, 0, 1⟩) ∧
      (∃ y, toGlobal t.pos4d ⟨0, y, 0⟩ = ⟨hinge.x, hinge.y, hinge.z, 1⟩) := by
  intro t
  obtain ⟨h1, h2, hf, hR, hg⟩ := tilted_global f alpha beta ha
  change ∀ p : V3, toGlobal t.pos4d p = _ at hg
  change 2 * t.r * Real.cos alpha = f at hf
  change t.R = t.r * Real.cos beta at hR
  simp only [show (designTiltedTorus f alpha beta) = t from rfl] at hg
  have hcb := Real.cos_sq_add_sin_sq beta
  have hca := Real.cos_sq_add_sin_sq alpha
  have hcd := Real.cos_sq_add_sin_sq (beta - alpha)
  set d := beta - alpha with hd
  have ea : alpha = beta - d := by rw [hd]; ring
  have ca : Real.cos alpha = Real.cos beta * Real.cos d + Real.sin beta * Real.sin d := by
    rw [ea, Real.cos_sub]
  have sa : Real.sin alpha = Real.sin beta * Real.cos d - Real.cos beta * Real.sin d := by
    rw [ea, Real.sin_sub]
  have circle : ∀ p : V3, (∃ th, parametric t th 0 = ⟨p.x, p.y, p.z, 1⟩) ↔
        p.z = 0 ∧ (p.x - t.r * Real.cos alpha) ^ 2 + (p.y - t.r * Real.sin alpha) ^ 2 = t.r ^ 2 := by
    intro p
    have hpar : ∀ th, parametric t th 0 =
        ⟨t.r * Real.cos alpha + t.r * Real.cos th * Real.cos d + t.r * Real.sin th * Real.sin d,
         t.r * Real.sin alpha - t.r * Real.cos th * Real.sin d + t.r * Real.sin th * Real.cos d, 0, 1⟩ := by
      intro th
      have := hg ⟨t.R + t.r * Real.cos th, t.r * Real.sin th, 0⟩
      simp only [parametric, parametricLocal, Real.cos_zero, Real.sin_zero, mul_one, mul_zero]
      simp only [toGlobal] at this
      rw [this]
      congr 1 <;> ring
    constructor
    · rintro ⟨th, h⟩
      rw [hpar] at h
      simp only [H4.mk.injEq, and_true] at h
      obtain ⟨e1, e2, e3⟩ := h
      refine ⟨e3.symm, ?_⟩
      rw [← e1, ← e2]
      have hth := Real.cos_sq_add_sin_sq th
      linear_combination t.r ^ 2 * (Real.cos th ^ 2 + Real.sin th ^ 2) * hcd + t.r ^ 2 * hth
    · rintro ⟨hz, hp⟩
      have : ((p.x - t.r * Real.cos alpha) * Real.cos d - (p.y - t.r * Real.sin alpha) * Real.sin d) ^ 2 +
          ((p.x - t.r * Real.cos alpha) * Real.sin d + (p.y - t.r * Real.sin alpha) * Real.cos d) ^ 2 = t.r ^ 2 := by
        linear_combination hp + ((p.x - t.r * Real.cos alpha) ^ 2 + (p.y - t.r * Real.sin alpha) ^ 2) * hcd
      obtain ⟨th, e1, e2⟩ := circle_param this
      refine ⟨th, ?_⟩
      rw [hpar, e1, e2, hz]
      congr 1
      · linear_combination (p.x - t.r * Real.cos alpha) * hcd
      · linear_combination (p.y - t.r * Real.sin alpha) * hcd
  refine ⟨⟨2 * t.r * Real.sin beta * Real.sin d, 2 * t.r * Real.sin beta * Real.cos d, 0⟩,
    ⟨t.r * Real.cos alpha, t.r * Real.sin alpha, 0⟩, 2 * t.r * Real.cos d, ?_, circle, ?_, ?_, ?_, ?_, ?_, ?_, ?_⟩
  · rw [hg]
    congr 1 <;> ring
  · refine (circle ⟨0, 0, 0⟩).2 ⟨rfl, ?_⟩
    linear_combination t.r ^ 2 * hca
  · refine (circle ⟨f, 0, 0⟩).2 ⟨rfl, ?_⟩
    simp only
    rw [← hf]
    linear_combination t.r ^ 2 * hca
  · refine (circle ⟨_, _, _⟩).2 ⟨rfl, ?_⟩
    simp only
    rw [ca, sa]
    linear_combination t.r ^ 2 * (Real.cos d ^ 2 + Real.sin d ^ 2) * hcb + t.r ^ 2 * hcd
  · rw [← hf]
    show V3.mk _ _ _ = V3.mk _ _ _
    congr 1 <;> ring
  · rw [← hf]
    show V3.mk _ _ _ = V3.mk _ _ _
    simp only [ca]
    congr 1
    · linear_combination 0
    · ring
    · ring
  · refine ⟨-(t.r * Real.sin beta), ?_⟩
    rw [hg, hR, ca, sa]
    congr 1 <;> ring
  · refine ⟨t.r * Real.sin beta, ?_⟩
    rw [hg, hR, ca, sa]
    congr 1 <;> ring

/-- The documentation also says that the center of the torus is on the line from the grating to the center `C` of the
Rowland circle.  That is true only for `beta = 2 alpha` (up to half turns) or if the center of the torus is
`C`: in general the center of the torus is the point of the axis next to `C`. -/
theorem C48_center_false (f alpha beta : ℝ) (ha : Real.cos alpha ≠ 0) (hf : f ≠ 0) :
    let t := designTiltedTorus f alpha beta
    (∃ k : ℝ, (toGlobal t.pos4d ⟨0, 0, 0⟩).xyz - ⟨f, 0, 0⟩ =
      k • (⟨-Real.cos alpha, Real.sin alpha, 0⟩ : V3)) ↔
    Real.sin (beta - 2 * alpha) = 0 ∨ Real.cos beta = 0 := by
  intro t
  obtain ⟨h1, h2, hff, hR, hg⟩ := tilted_global f alpha beta ha
  change ∀ p : V3, toGlobal t.pos4d p = _ at hg
  change 2 * t.r * Real.cos alpha = f at hff
  change t.R = t.r * Real.cos beta at hR
  simp only [show (designTiltedTorus f alpha beta) = t from rfl] at hg
  have hr : t.r ≠ 0 := by
    rintro h0
    rw [h0] at hff
    apply hf
    linarith
  have hca := Real.cos_sq_add_sin_sq alpha
  have hs : Real.sin (beta - 2 * alpha) = Real.sin (beta - alpha) * Real.cos alpha -
      Real.cos (beta - alpha) * Real.sin alpha := by
    rw [← Real.sin_sub]; congr 1; ring
  rw [hg]
  constructor
  · rintro ⟨k, h⟩
    change V3.mk _ _ _ = V3.mk _ _ _ at h
    simp only [V3.mk.injEq, H4.xyz] at h
    obtain ⟨e1, e2, _⟩ := h
    have : t.R * Real.sin (beta - 2 * alpha) = 0 := by
      rw [hs]
      rw [← hff] at e1
      linear_combination Real.sin alpha * e1 + Real.cos alpha * e2
    rw [hR] at this
    rcases mul_eq_zero.1 this with h | h
    · exact Or.inr ((mul_eq_zero.1 h).resolve_left hr)
    · exact Or.inl h
  · intro h
    have hzero : t.R * Real.sin (beta - 2 * alpha) = 0 := by
      rcases h with h | h
      · rw [h, mul_zero]
      · rw [hR, h]; ring
    rw [hs] at hzero
    refine ⟨t.r + t.R * (Real.cos (beta - alpha) * Real.cos alpha + Real.sin (beta - alpha) * Real.sin alpha), ?_⟩
    change V3.mk _ _ _ = V3.mk _ _ _
    simp only [H4.xyz]
    rw [← hff]
    congr 1
    · linear_combination (-t.R * Real.cos (beta - alpha)) * hca.symm + Real.sin alpha * hzero
    · linear_combination (t.R * Real.sin (beta - alpha)) * hca.symm + Real.cos alpha * hzero
    · ring

example : Real.cos (Real.pi / 6) ≠ 0 := by
  rw [Real.cos_pi_div_six]
  positivity

end Marxs
