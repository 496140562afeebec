import Mathlib.Analysis.Real.Pi.Bounds
import Verif.Lemmas.MathUtils
import Verif.Spec.Placement

/-!
# Properties C12-C18: angles, homogeneous coordinates, lines and planes, rotations, polarization
-/

namespace Marxs
open Classical

/-! ## C12 -/

/-- **C12** `angle_between` decides membership in the arc from `border1` counter-clockwise to
`border2`. -/
theorem C12_angle_between (a b1 b2 : ℝ) : angleBetween a b1 b2 ↔ InArc a b1 b2 :=
  angleBetween_iff a b1 b2

/-- **C12** Full turns do not matter. -/
theorem C12_full_turns (a b1 b2 a' b1' b2' : ℝ) (ha : SameAngle a a') (h1 : SameAngle b1 b1')
    (h2 : SameAngle b2 b2') : angleBetween a b1 b2 ↔ angleBetween a' b1' b2' := by
  simp only [angleBetween, wrapAngle_sameAngle ha, wrapAngle_sameAngle h1, wrapAngle_sameAngle h2]

/-- **C12** Borders that are the same angle mean the full circle, not a single angle. -/
theorem C12_equal_borders (a b1 b2 : ℝ) (h : SameAngle b1 b2) : angleBetween a b1 b2 := by
  have := wrapAngle_sameAngle h
  simp only [angleBetween, this, lt_irrefl, if_false]
  exact le_total _ _

/-- **C12** Every angle is inside an arc or inside the complementary arc. -/
theorem C12_complement (a b1 b2 : ℝ) : angleBetween a b1 b2 ∨ angleBetween a b2 b1 := by
  simp only [angleBetween]
  rcases lt_trichotomy (wrapAngle b1) (wrapAngle b2) with h | h | h
  · rw [if_pos h, if_neg (by linarith)]
    by_cases h1 : wrapAngle b1 ≤ wrapAngle a
    · by_cases h2 : wrapAngle a ≤ wrapAngle b2
      · exact .inl ⟨h1, h2⟩
      · exact .inr (.inl (by linarith))
    · exact .inr (.inr (by linarith))
  · simp only [h, lt_irrefl, if_false, or_self]
    exact le_total _ _
  · rw [if_neg (by linarith), if_pos h]
    by_cases h1 : wrapAngle b2 ≤ wrapAngle a
    · by_cases h2 : wrapAngle a ≤ wrapAngle b1
      · exact .inr ⟨h1, h2⟩
      · exact .inl (.inl (by linarith))
    · exact .inl (.inr (by linarith))

example : InArc (-0.1) (-0.2) 0.3 := by
  have := Real.pi_gt_three
  exact ⟨0.5, by norm_num, by linarith, ⟨0, by norm_num⟩, 0.1, by norm_num, by norm_num,
    ⟨0, by norm_num⟩⟩

example : ¬ InArc 1 2 3 := by
  rw [← C12_angle_between]
  have := Real.pi_gt_three
  have w : ∀ x : ℝ, 0 ≤ x → x < 6 → wrapAngle x = x := fun x h0 h1 => by
    rw [wrapAngle_eq]; exact pymod_eq_self two_pi_pos h0 (by linarith)
  simp only [angleBetween]
  rw [w 1 (by norm_num) (by norm_num), w 2 (by norm_num) (by norm_num),
    w 3 (by norm_num) (by norm_num)]
  norm_num

/-! ## C13 -/

/-- **C13** `anglediff` is the length of the arc from the first to the second angle. -/
theorem C13_anglediff (p0 p1 : ℝ) :
    0 ≤ anglediff p0 p1 ∧ anglediff p0 p1 ≤ 2 * Real.pi ∧
    SameAngle (p0 + anglediff p0 p1) p1 ∧
    (0 ≤ p1 - p0 → p1 - p0 ≤ 2 * Real.pi → anglediff p0 p1 = p1 - p0) := by
  have hp := two_pi_pos
  refine ⟨?_, ?_, ?_, ?_⟩
  · unfold anglediff; split
    · exact pymod_nonneg hp _
    · rename_i h; push Not at h; exact h.1
  · unfold anglediff; split
    · exact (pymod_lt hp _).le
    · rename_i h; push Not at h; exact h.2
  · unfold anglediff; split
    · obtain ⟨k, hk⟩ := exists_pymod (p1 - p0) (2 * Real.pi)
      exact ⟨-k, by push_cast; linarith⟩
    · exact ⟨0, by simp⟩
  · intro h1 h2
    unfold anglediff
    rw [if_neg]
    push Not; exact ⟨h1, h2⟩

/-- **C13** Adding full turns to one border does not change the length of the arc, except that a
full circle can become an arc of length zero. -/
theorem C13_full_turns (p0 p1 : ℝ) (k : ℤ) :
    anglediff p0 (p1 + 2 * Real.pi * k) = anglediff p0 p1 ∨
    (SameAngle p0 p1 ∧ (anglediff p0 p1 = 0 ∨ anglediff p0 p1 = 2 * Real.pi)) := by
  have h1 := C13_anglediff p0 p1
  have h2 := C13_anglediff p0 (p1 + 2 * Real.pi * k)
  have e : SameAngle (anglediff p0 (p1 + 2 * Real.pi * k)) (anglediff p0 p1) := by
    obtain ⟨a, ha⟩ := h1.2.2.1
    obtain ⟨b, hb⟩ := h2.2.2.1
    exact ⟨k + b - a, by push_cast; linarith⟩
  have hp := two_pi_pos
  by_cases c0 : anglediff p0 p1 = 0
  · right
    refine ⟨?_, .inl c0⟩
    obtain ⟨a, ha⟩ := h1.2.2.1
    exact ⟨a, by rw [c0] at ha; linarith⟩
  by_cases c1 : anglediff p0 p1 = 2 * Real.pi
  · right
    refine ⟨?_, .inr c1⟩
    obtain ⟨a, ha⟩ := h1.2.2.1
    exact ⟨a - 1, by rw [c1] at ha; push_cast; linarith⟩
  · left
    have p0' := lt_of_le_of_ne h1.1 (Ne.symm c0)
    have p1' := lt_of_le_of_ne h1.2.1 c1
    exact sameAngle_lt e (by linarith) (by linarith)

/-- **C13** `anglediff` and `angle_between` describe the same arc (when it is not empty): the angles
between `p0` and `p1` are those reached by going up to `anglediff` from `p0`. -/
theorem C13_same_arc (p0 p1 a : ℝ) (h : 0 < anglediff p0 p1) :
    angleBetween a p0 p1 ↔ ∃ t, 0 ≤ t ∧ t ≤ anglediff p0 p1 ∧ SameAngle a (p0 + t) := by
  obtain ⟨_, h2, h3, _⟩ := C13_anglediff p0 p1
  rw [C12_angle_between]
  constructor
  · rintro ⟨len, l1, l2, l3, t, t1, t2, t3⟩
    have : len = anglediff p0 p1 := by
      have hp := two_pi_pos
      have : SameAngle len (anglediff p0 p1) := by
        obtain ⟨x, hx⟩ := l3
        obtain ⟨y, hy⟩ := h3
        exact ⟨x - y, by push_cast; linarith⟩
      exact sameAngle_lt this (by linarith) (by linarith)
    exact ⟨t, t1, this ▸ t2, t3⟩
  · rintro ⟨t, t1, t2, t3⟩
    exact ⟨_, h, h2, h3, t, t1, t2, t3⟩

example : 0 < anglediff 3 1 := by
  have hp := Real.pi_gt_three
  have h := C13_anglediff 3 1
  rcases lt_or_eq_of_le h.1 with h1 | h1
  · exact h1
  · exfalso
    have := sameAngle_lt h.2.2.1 (by rw [← h1]; linarith) (by rw [← h1]; linarith)
    rw [← h1] at this; norm_num at this

/-! ## C14 -/

/-- **C14** Conversion to homogeneous coordinates and back. -/
theorem C14_roundtrip (e : List V3) (w : ℝ) :
    (w = 0 ∨ w = 1 → ∃ h, e2h e w = .ok h ∧ h2e h = .ok e) ∧
    (¬ (w = 0 ∨ w = 1) → e2h e w = .error .valueError) := by
  constructor
  · intro hw
    refine ⟨e.map fun v => ⟨v.x, v.y, v.z, w⟩, by simp [e2h, hw], ?_⟩
    have : (∀ a ∈ e.map (fun v : V3 => (⟨v.x, v.y, v.z, w⟩ : H4)), a.w = 0) ∨
        (∀ a ∈ e.map (fun v : V3 => (⟨v.x, v.y, v.z, w⟩ : H4)), isclose a.w 1) := by
      rcases hw with rfl | rfl
      · left; intro a ha; simp at ha; obtain ⟨v, _, rfl⟩ := ha; rfl
      · right; intro a ha; simp at ha; obtain ⟨v, _, rfl⟩ := ha; exact isclose_refl _
    rw [h2e, if_pos this, List.map_map]
    congr 1
    conv_rhs => rw [← List.map_id e]
    apply List.map_congr_left; intro v _; rfl
  · intro hw; simp [e2h, hw]

/-- **C14** `h2e` fails exactly for arrays that mix points at infinity and other points. -/
theorem C14_mixture_rejected (h : List H4) :
    h2e h = .error .valueError ↔ (∃ a ∈ h, a.w = 0) ∧ (∃ a ∈ h, a.w ≠ 0) := by
  have far : ¬ isclose 0 1 := by
    simp only [isclose]; norm_num
  constructor
  · intro hh
    unfold h2e at hh
    split at hh
    · cases hh
    split at hh
    · cases hh
    · rename_i h1 h2
      push Not at h1 h2
      exact ⟨h2, h1.1⟩
  · rintro ⟨⟨a, ha, ha0⟩, ⟨b, hb, hb0⟩⟩
    unfold h2e
    rw [if_neg, if_neg]
    · push Not; exact ⟨a, ha, ha0⟩
    · rintro (h1 | h1)
      · exact hb0 (h1 b hb)
      · exact far (by rw [← ha0]; exact h1 a ha)

/-- **C14** The position of points does not depend on the scale of the homogeneous coordinates,
except that points whose `w` are all within rounding (1e-5) of one are not rescaled. -/
theorem C14_points (h : List H4) (hne : h ≠ []) (hw : ∀ a ∈ h, a.w ≠ 0) :
    h2e h = .ok (if ∀ a ∈ h, isclose a.w 1 then h.map H4.xyz else h.map H4.point) := by
  have h0 : ¬ ∀ a ∈ h, a.w = 0 := by
    intro hc
    obtain ⟨a, as, rfl⟩ := List.exists_cons_of_ne_nil hne
    exact hw a (by simp) (hc a (by simp))
  unfold h2e
  by_cases h1 : ∀ a ∈ h, isclose a.w 1
  · rw [if_pos (.inr h1), if_pos h1]
  · rw [if_neg (by rintro (h2 | h2); exacts [h0 h2, h1 h2]), if_pos hw, if_neg h1]
    rfl

/-- **C14** (consequence) Rescaling every point by its own non-zero factor does not change the
result, unless that makes all `w` look like one. -/
theorem C14_scale_invariant (h : List H4) (hne : h ≠ []) (hw : ∀ a ∈ h, a.w ≠ 0)
    (c : H4 → ℝ) (hc : ∀ a ∈ h, c a ≠ 0) (h1 : ¬ ∀ a ∈ h, isclose a.w 1)
    (h2 : ¬ ∀ a ∈ h, isclose (c a * a.w) 1) : h2e (h.map fun a => c a • a) = h2e h := by
  rw [C14_points h hne hw, if_neg h1, C14_points _ (by simpa using hne), if_neg]
  · rw [List.map_map]
    congr 1
    apply List.map_congr_left
    intro a ha
    have := hw a ha; have := hc a ha
    ext <;> simp [H4.point] <;> field_simp
  · intro hh; apply h2
    intro a ha
    exact hh (c a • a) (List.mem_map_of_mem ha)
  · intro b hb
    obtain ⟨a, ha, rfl⟩ := List.mem_map.1 hb
    exact mul_ne_zero (hc a ha) (hw a ha)

/-- **C14** (limit of the claim) The rounding window is visible: this point is not rescaled. -/
theorem C14_rounding_window :
    h2e [⟨1, 0, 0, 1 + 1 / 10 ^ 6⟩] = .ok [⟨1, 0, 0⟩] ∧
    H4.point ⟨1, 0, 0, 1 + 1 / 10 ^ 6⟩ ≠ ⟨1, 0, 0⟩ := by
  constructor
  · rw [C14_points _ (by simp) (by simp; norm_num), if_pos]
    · simp [H4.xyz]
    · simp only [List.mem_singleton, forall_eq, isclose]
      norm_num [abs_of_pos]
  · intro h
    have := congrArg V3.x h
    norm_num [H4.point] at this

example : h2e [⟨2, 4, 6, 2⟩, ⟨1, 1, 1, 1⟩] = .ok [⟨1, 2, 3⟩, ⟨1, 1, 1⟩] := by
  rw [C14_points _ (by simp) (by simp), if_neg]
  · simp [H4.point]; norm_num
  · intro h
    have := h ⟨2, 4, 6, 2⟩ (by simp)
    simp [isclose] at this
    norm_num at this

/-- **C14** Distances: for ordinary points (w = 1) `distance_point_point` is the Euclidean distance,
which is symmetric and zero exactly for equal points. -/
theorem C14_distance (p q : List V3) (hl : p.length = q.length) :
    ∃ hp hq, e2h p 1 = .ok hp ∧ e2h q 1 = .ok hq ∧
      ∃ d, distancePointPoint hp hq = .ok d ∧ distancePointPoint hq hp = .ok d ∧
        d.length = p.length ∧
        ∀ (i : ℕ) (a b : V3) (x : ℝ), p[i]? = some a → q[i]? = some b → d[i]? = some x →
          0 ≤ x ∧ x ^ 2 = (a.x - b.x) ^ 2 + (a.y - b.y) ^ 2 + (a.z - b.z) ^ 2 ∧
          (x = 0 ↔ a = b) := by
  obtain ⟨hp, hp1, hp2⟩ := (C14_roundtrip p 1).1 (.inr rfl)
  obtain ⟨hq, hq1, hq2⟩ := (C14_roundtrip q 1).1 (.inr rfl)
  refine ⟨hp, hq, hp1, hq1, List.zipWith (fun v w => (v - w).norm) p q, ?_, ?_, by simp [hl], ?_⟩
  · simp [distancePointPoint, hp2, hq2, hl]
  · simp only [distancePointPoint, hp2, hq2, hl, if_true]
    congr 1
    rw [List.zipWith_comm]
    congr 1
    funext v w
    simp only [V3.norm, V3.dot, V3.sub_x, V3.sub_y, V3.sub_z]
    congr 1; ring
  · intro i a b x ha hb hx
    rw [List.getElem?_zipWith, ha, hb] at hx
    simp at hx
    subst hx
    refine ⟨V3.norm_nonneg _, ?_, ?_⟩
    · rw [V3.norm_sq]; simp only [V3.dot, V3.sub_x, V3.sub_y, V3.sub_z]; ring
    · constructor
      · intro h0
        have : (a - b).dot (a - b) = 0 := by rw [← V3.norm_sq, h0]; ring
        have := V3.dot_self_eq_zero.1 this
        have hx := congrArg V3.x this; have hy := congrArg V3.y this
        have hz := congrArg V3.z this
        simp at hx hy hz
        ext <;> linarith
      · rintro rfl
        simp [V3.norm, V3.dot]

/-! ## C15 -/

theorem unit_xyz (d : H4) (hw : d.w = 0) : d.unit.xyz = d.xyz.unit := by
  ext <;> simp [H4.unit, V3.unit, H4.norm, V3.norm, H4.dot, V3.dot, hw]

theorem plane_xyz (q n : H4) (hn : n.w = 0) : (pointDir2plane q n).xyz = n.xyz.unit := by
  rw [← unit_xyz n hn]; rfl

theorem plane_w (q n : H4) (hq : q.w ≠ 0) (hn : n.w = 0) :
    (pointDir2plane q n).w = - q.point.dot n.xyz.unit := by
  have : n.unit.w = 0 := by simp [H4.unit, hn]
  rw [← unit_xyz n hn]
  simp only [pointDir2plane, H4.dot, V3.dot, H4.point, this, H4.xyz]
  field_simp; ring

/-- **C15** A line that is not parallel to the plane: the result is a proper point, it is on the line
and on the plane, and it is the only such point. -/
theorem C15_intersection (p u : V3) (q n : H4) (hq : q.w ≠ 0) (hn0 : n.w = 0)
    (hpar : u.dot n.xyz ≠ 0) :
    let r := intersectLinePlane (dirPoint2line u p) (pointDir2plane q n)
    r.w ≠ 0 ∧ OnLine p u r.point ∧ OnPlane q.point n.xyz r.point ∧
    ∀ s, OnLine p u s → OnPlane q.point n.xyz s → s = r.point := by
  intro r
  have hn : n.xyz ≠ 0 := by rintro h; rw [h] at hpar; simp [V3.dot] at hpar
  have hnn := V3.norm_ne_zero hn
  set N := n.xyz.unit with hN
  set Q := q.point with hQ
  have hNdot : ∀ v : V3, v.dot N = v.dot n.xyz / n.xyz.norm := by
    intro v; simp [hN, V3.unit]; field_simp
  have hw : r.w = u.dot N := by simp only [r, intersectLinePlane, plane_xyz q n hn0]; rfl
  have hw0 : r.w ≠ 0 := by rw [hw, hNdot]; exact div_ne_zero hpar hnn
  have hr : r.point = p + ((Q - p).dot N / u.dot N) • u := by
    have hu : u.dot N ≠ 0 := by rw [← hw]; exact hw0
    simp only [H4.point, hw]
    simp only [r, intersectLinePlane, plane_xyz q n hn0, plane_w q n hq hn0, dirPoint2line, ← hN,
      ← hQ]
    ext <;> simp [V3.dot] at hu ⊢ <;> field_simp <;> ring
  refine ⟨hw0, ⟨_, hr⟩, ?_, ?_⟩
  · have hu : u.dot N ≠ 0 := by rw [← hw]; exact hw0
    have : (r.point - Q).dot N = 0 := by
      rw [hr, V3.dot_sub_left, V3.dot_add_left, V3.dot_smul_left, V3.dot_sub_left]
      field_simp; ring
    rw [hNdot] at this
    simpa [OnPlane, hnn] using this
  · rintro s ⟨t, rfl⟩ hs
    rw [hr]
    have hs' : (p + t • u - Q).dot N = 0 := by rw [hNdot]; simp [OnPlane] at hs; simp [hs]
    have hu : u.dot N ≠ 0 := by rw [← hw]; exact hw0
    have : t = (Q - p).dot N / u.dot N := by
      rw [V3.dot_sub_left, V3.dot_add_left, V3.dot_smul_left] at hs'
      rw [V3.dot_sub_left]; field_simp; linarith
    rw [← this]

/-- **C15** A line parallel to the plane meets it at infinity (`w = 0`, in direction of the line); if
the line is in the plane all components are zero. -/
theorem C15_parallel (p u : V3) (q n : H4) (hq : q.w ≠ 0) (hn0 : n.w = 0) (hn : n.xyz ≠ 0)
    (hu : u ≠ 0) (hpar : u.dot n.xyz = 0) :
    let r := intersectLinePlane (dirPoint2line u p) (pointDir2plane q n)
    r.w = 0 ∧ (∃ c : ℝ, r.xyz = c • u) ∧ (r.xyz = 0 ↔ OnPlane q.point n.xyz p) := by
  intro r
  have hnn := V3.norm_ne_zero hn
  set N := n.xyz.unit with hN
  set Q := q.point with hQ
  have hNdot : ∀ v : V3, v.dot N = v.dot n.xyz / n.xyz.norm := by
    intro v; simp [hN, V3.unit]; field_simp
  have huN : u.dot N = 0 := by rw [hNdot, hpar, zero_div]
  have hw : r.w = 0 := by
    simp only [r, intersectLinePlane, plane_xyz q n hn0]; exact huN
  have hx : r.xyz = ((Q - p).dot N) • u := by
    simp only [r, intersectLinePlane, plane_xyz q n hn0, plane_w q n hq hn0, dirPoint2line, ← hN,
      ← hQ]
    simp only [V3.dot] at huN
    ext <;> simp [V3.dot]
    · linear_combination p.x * huN
    · linear_combination p.y * huN
    · linear_combination p.z * huN
  refine ⟨hw, ⟨_, hx⟩, ?_⟩
  rw [hx, OnPlane]
  have : (p - Q).dot n.xyz = - ((Q - p).dot N) * n.xyz.norm := by
    rw [hNdot]; field_simp; simp only [V3.dot, V3.sub_x, V3.sub_y, V3.sub_z]; ring
  rw [this]
  constructor
  · intro h
    have h2 : ((Q - p).dot N) ^ 2 * u.dot u = 0 := by
      have := congrArg (fun v => v.dot v) h
      simp only [V3.dot_smul_smul] at this
      simp [V3.dot] at this ⊢; rcases this with h | h <;> simp [h]
    have h3 := (V3.dot_self_pos hu).ne'
    have : (Q - p).dot N = 0 := by
      rcases mul_eq_zero.1 h2 with h | h
      · exact pow_eq_zero_iff (two_ne_zero) |>.1 h
      · exact absurd h h3
    rw [this]; ring
  · intro h
    have : (Q - p).dot N = 0 := by
      rcases mul_eq_zero.1 h with h | h
      · linarith
      · exact absurd h hnn
    rw [this]; ext <;> simp

/-- **C15** The line through two points is the line through the first one in the direction to the
other. -/
theorem C15_two_points (p1 p2 : V3) :
    pointpoint2line p1 p2 = dirPoint2line (p2 - p1) p1 ∧
    pointpoint2line p1 p2 = dirPoint2line (p2 - p1) p2 := by
  constructor <;>
  · simp only [pointpoint2line, dirPoint2line, Line.mk.injEq, true_and]
    ext <;> simp <;> ring

/-- **C15** It does not matter which point of the line is used. -/
theorem C15_any_point (u p : V3) (t : ℝ) : dirPoint2line u (p + t • u) = dirPoint2line u p := by
  simp only [dirPoint2line, Line.mk.injEq, true_and]
  ext <;> simp <;> ring

example : (⟨0, 0, 5, 1⟩ : H4).w ≠ 0 ∧ (⟨0, 0, 3, 0⟩ : H4).w = 0 ∧
    (⟨1, 2, 3⟩ : V3).dot (⟨0, 0, 3, 0⟩ : H4).xyz ≠ 0 := by
  simp [V3.dot]
example : (⟨1, 2, 0⟩ : V3).dot (⟨0, 0, 3, 0⟩ : H4).xyz = 0 := by simp [V3.dot]

/-! ## C16 -/

/-- **C16** Rotation around a unit axis: a proper rotation that leaves the axis alone. -/
theorem C16_axangle_rotation (a : V3) (ha : a.dot a = 1) (t : ℝ) :
    IsRotation (rotMat a t) ∧ mul3 (rotMat a t) a = a := by
  have hs := Real.sin_sq_add_cos_sq t
  simp only [V3.dot] at ha
  set c := Real.cos t
  set s := Real.sin t
  obtain ⟨x, y, z⟩ := a
  simp only at ha
  refine ⟨⟨?_, ?_⟩, ?_⟩
  · ext i j
    fin_cases i <;> fin_cases j <;>
      simp [rotMat, Matrix.mul_apply, Fin.sum_univ_three]
    · linear_combination (1 - x^2) * hs + (x^2 * (1-c)^2 + s^2) * ha
    · linear_combination (- x * y) * hs + (x * y * (1 - c)^2) * ha
    · linear_combination (- x * z) * hs + (x * z * (1 - c)^2) * ha
    · linear_combination (- x * y) * hs + (x * y * (1 - c)^2) * ha
    · linear_combination (1 - y^2) * hs + (y^2 * (1-c)^2 + s^2) * ha
    · linear_combination (- y * z) * hs + (y * z * (1 - c)^2) * ha
    · linear_combination (- x * z) * hs + (x * z * (1 - c)^2) * ha
    · linear_combination (- y * z) * hs + (y * z * (1 - c)^2) * ha
    · linear_combination (1 - z^2) * hs + (z^2 * (1-c)^2 + s^2) * ha
  · simp [rotMat, Matrix.det_fin_three]
    linear_combination ha * ((1 - c) * (c^2 + s^2 * (x^2 + y^2 + z^2)) + s^2) + hs
  · ext <;> simp [mul3, rotMat]
    · linear_combination x * (1 - c) * ha
    · linear_combination y * (1 - c) * ha
    · linear_combination z * (1 - c) * ha

/-- **C16** Rotations around the same axis add up. -/
theorem C16_axangle_add (a : V3) (ha : a.dot a = 1) (t u : ℝ) :
    rotMat a t * rotMat a u = rotMat a (t + u) ∧ rotMat a 0 = 1 := by
  have hs := Real.sin_sq_add_cos_sq t
  have hs' := Real.sin_sq_add_cos_sq u
  simp only [V3.dot] at ha
  obtain ⟨x, y, z⟩ := a
  simp only at ha
  constructor
  · ext i j
    fin_cases i <;> fin_cases j <;>
      simp [rotMat, Matrix.mul_apply, Fin.sum_univ_three, Real.cos_add, Real.sin_add] <;>
      generalize Real.cos t = c <;> generalize Real.sin t = s <;>
      generalize Real.cos u = c' <;> generalize Real.sin u = s'
    · linear_combination (x^2 * (1-c) * (1-c') - s * s') * ha
    · linear_combination (x*y * (1-c) * (1-c')) * ha
    · linear_combination (x*z * (1-c) * (1-c')) * ha
    · linear_combination (x*y * (1-c) * (1-c')) * ha
    · linear_combination (y^2 * (1-c) * (1-c') - s * s') * ha
    · linear_combination (y*z * (1-c) * (1-c')) * ha
    · linear_combination (x*z * (1-c) * (1-c')) * ha
    · linear_combination (y*z * (1-c) * (1-c')) * ha
    · linear_combination (z^2 * (1-c) * (1-c') - s * s') * ha
  · ext i j
    fin_cases i <;> fin_cases j <;> simp [rotMat]

/-- **C16** `axangle2mat`: one matrix per axis, each for the normalised axis; a different number of
angles is refused. -/
theorem C16_axangle_array (axes : List V3) (angles : List ℝ) :
    (axes.length ≠ angles.length → axangle2mat axes angles false = .error .valueError) ∧
    (axes.length = angles.length → ∃ ms, axangle2mat axes angles false = .ok ms ∧
      ms.length = axes.length ∧
      ∀ (i : ℕ) (a : V3) (t : ℝ) (m : Option M3), axes[i]? = some a → angles[i]? = some t →
        ms[i]? = some m → a ≠ 0 →
        ∃ r, m = some r ∧ IsRotation r ∧ mul3 r a = a ∧ ∃ e : V3, e.dot e = 1 ∧
          a = a.norm • e ∧ r = rotMat e t) := by
  constructor
  · intro h; simp [axangle2mat, Ne.symm h]
  · intro h
    refine ⟨_, by rw [axangle2mat, if_neg (by simp [h])], by simp [h], ?_⟩
    intro i a t m ha ht hm hne
    rw [List.getElem?_zipWith, ha, ht] at hm
    simp [hne] at hm
    have hu := V3.unit_dot_unit hne
    obtain ⟨h1, h2⟩ := C16_axangle_rotation a.unit hu t
    refine ⟨_, hm.symm, h1, ?_, a.unit, hu, (V3.norm_smul_unit hne).symm, rfl⟩
    have lin : ∀ (c : ℝ) (v : V3) (r : M3), mul3 r (c • v) = c • mul3 r v := by
      intro c v r; ext <;> simp [mul3] <;> ring
    generalize rotMat a.unit t = r at h2
    conv_lhs => rw [← V3.norm_smul_unit hne, lin, h2, V3.norm_smul_unit hne]

theorem unit_neg (a : V3) : (-a).unit = -a.unit := by
  ext <;> simp [V3.unit, V3.norm, V3.dot]

/-- unit vectors of parallel vectors are equal up to sign -/
theorem unit_of_parallel {a b : V3} (ha : a ≠ 0) (hb : b ≠ 0) (h : Parallel3 a b) :
    a.unit = b.unit ∨ a.unit = -b.unit := by
  set u := a.unit with hu
  set v := b.unit with hv
  have u1 : u.dot u = 1 := V3.unit_dot_unit ha
  have v1 : v.dot v = 1 := V3.unit_dot_unit hb
  have hc : u.cross v = 0 := by
    have : u.cross v = (1 / a.norm * (1 / b.norm)) • a.cross b := by
      simp only [hu, hv, V3.unit]; ext <;> simp <;> ring
    rw [this, h]; ext <;> simp
  have hd : (u.dot v) ^ 2 = 1 := by
    have := V3.cross_dot_cross u v
    have z : (0 : V3).dot 0 = 0 := by simp [V3.dot]
    rw [hc, u1, v1, z] at this; linarith
  have h1 : u.dot v = 1 ∨ u.dot v = -1 := by
    have : (u.dot v - 1) * (u.dot v + 1) = 0 := by linarith
    rcases mul_eq_zero.1 this with h | h
    · left; linarith
    · right; linarith
  rcases h1 with h1 | h1
  · left
    have : (u - v).dot (u - v) = 0 := by
      rw [V3.dot_sub_left, V3.dot_sub_right, V3.dot_sub_right, u1, v1, V3.dot_comm v u, h1]; ring
    have := V3.dot_self_eq_zero.1 this
    have hx := congrArg V3.x this; have hy := congrArg V3.y this; have hz := congrArg V3.z this
    simp at hx hy hz
    ext <;> linarith
  · right
    have : (u + v).dot (u + v) = 0 := by
      rw [V3.dot_add_left, V3.dot_add_right, V3.dot_add_right, u1, v1, V3.dot_comm v u, h1]; ring
    have := V3.dot_self_eq_zero.1 this
    have hx := congrArg V3.x this; have hy := congrArg V3.y this; have hz := congrArg V3.z this
    simp at hx hy hz
    ext <;> simp <;> linarith

/-- **C16** Parallel or antiparallel vectors are refused by `ex2vec_fix`. -/
theorem C16_ex2vec_parallel (e fix : V3) (he : e ≠ 0) (hf : fix ≠ 0) (h : Parallel3 e fix) :
    ex2vecFix e fix = .error .valueError := by
  have hor : e.unit.allclose fix.unit ∨ e.unit.allclose (-fix.unit) := by
    rcases unit_of_parallel he hf h with h1 | h1
    · left; rw [h1]; exact V3.allclose_refl _
    · right; rw [h1]; exact V3.allclose_refl _
  simp only [ex2vecFix, he, hf, or_self, if_false, hor, if_true]

/-- **C16** If `ex2vec_fix` returns a matrix (input is not zero and not within rounding of parallel)
it is a proper rotation. It turns the x axis to the direction of `e`, the y axis into the half plane
of `e` and `fix` on the side of `fix`, and the z axis perpendicular to both. -/
theorem C16_ex2vec_rotation (e fix : V3) (he : e ≠ 0) (hf : fix ≠ 0)
    (hc : ¬ (e.unit.allclose fix.unit ∨ e.unit.allclose (-fix.unit))) :
    ∃ r, ex2vecFix e fix = .ok (some r) ∧ IsRotation r ∧
      e.norm • mul3 r ⟨1, 0, 0⟩ = e ∧
      (∃ a b : ℝ, mul3 r ⟨0, 1, 0⟩ = a • e + b • fix ∧ 0 < b) ∧
      (mul3 r ⟨0, 0, 1⟩).dot e = 0 ∧ (mul3 r ⟨0, 0, 1⟩).dot fix = 0 := by
  set u := e.unit with hu
  set v := fix.unit with hv
  have u1 : u.dot u = 1 := V3.unit_dot_unit he
  have v1 : v.dot v = 1 := V3.unit_dot_unit hf
  set p := v - (v.dot u) • u with hp
  have hp0 : p ≠ 0 := by
    intro h0
    apply hc
    have hpar : Parallel3 e fix := by
      have hx := congrArg V3.x h0; have hy := congrArg V3.y h0; have hz := congrArg V3.z h0
      simp [hp] at hx hy hz
      have hvu : v = (v.dot u) • u := by ext <;> simp <;> linarith
      have e1 : e = e.norm • u := (V3.norm_smul_unit he).symm
      have e2 : fix = fix.norm • v := (V3.norm_smul_unit hf).symm
      rw [Parallel3, e1, e2, hvu]
      ext <;> simp <;> ring
    rcases unit_of_parallel he hf hpar with h1 | h1
    · left; rw [hu, h1]; exact V3.allclose_refl _
    · right; rw [hu, h1]; exact V3.allclose_refl _
  have pu : u.dot p = 0 := by
    rw [hp, V3.dot_sub_right, V3.dot_smul_right, u1, V3.dot_comm u v]; ring
  have q1 : p.unit.dot p.unit = 1 := V3.unit_dot_unit hp0
  have uq : u.dot p.unit = 0 := by simp [V3.unit, pu]
  have hrot := frame_rotation u p.unit u1 q1 uq
  refine ⟨_, ?_, hrot, ?_, ?_, ?_, ?_⟩
  · simp only [ex2vecFix, he, hf, or_self, if_false, ← hu, ← hv, hc, ← hp]
  · have : e = e.norm • u := (V3.norm_smul_unit he).symm
    conv_rhs => rw [this]
    ext <;> simp [mul3]
  · refine ⟨- (1 / p.norm * (v.dot u) * (1 / e.norm)), 1 / p.norm * (1 / fix.norm), ?_, ?_⟩
    · have h1 : mul3 !![u.x, p.unit.x, (u.cross p.unit).x; u.y, p.unit.y, (u.cross p.unit).y;
          u.z, p.unit.z, (u.cross p.unit).z] ⟨0, 1, 0⟩ = p.unit := by
        ext <;> simp [mul3]
      rw [h1]
      have h3 : p.unit = (1 / p.norm) • (v - (v.dot u) • u) := by rw [← hp]; rfl
      rw [h3]
      generalize v.dot u = k
      generalize p.norm = pn
      rw [hu, hv, V3.unit, V3.unit]
      ext <;> simp <;> ring
    · have := V3.norm_pos hp0; have := V3.norm_pos hf; positivity
  · have h1 : mul3 !![u.x, p.unit.x, (u.cross p.unit).x; u.y, p.unit.y, (u.cross p.unit).y;
        u.z, p.unit.z, (u.cross p.unit).z] ⟨0, 0, 1⟩ = u.cross p.unit := by
      ext <;> simp [mul3]
    rw [h1]
    have : e = e.norm • u := (V3.norm_smul_unit he).symm
    rw [this, V3.dot_smul_right, V3.dot_comm, V3.dot_cross_left]; ring
  · have h1 : mul3 !![u.x, p.unit.x, (u.cross p.unit).x; u.y, p.unit.y, (u.cross p.unit).y;
        u.z, p.unit.z, (u.cross p.unit).z] ⟨0, 0, 1⟩ = u.cross p.unit := by
      ext <;> simp [mul3]
    rw [h1]
    have e2 : fix = fix.norm • v := (V3.norm_smul_unit hf).symm
    have h2 : (u.cross p.unit).dot u = 0 := by rw [V3.dot_comm, V3.dot_cross_left]
    have h3 : (u.cross p.unit).dot p = 0 := by
      have : (u.cross p.unit).dot p.unit = 0 := by rw [V3.dot_comm, V3.dot_cross_right]
      generalize u.cross p.unit = w at this
      rw [← V3.norm_smul_unit hp0, V3.dot_smul_right, this, mul_zero]
    generalize u.cross p.unit = w at h2 h3
    have h4 : w.dot v = 0 := by
      rw [hp, V3.dot_sub_right, V3.dot_smul_right, h2] at h3; linarith
    rw [e2, V3.dot_smul_right, h4, mul_zero]

example : ¬ ((⟨0, 0, 2⟩ : V3).unit.allclose (⟨0, 1, 0⟩ : V3).unit ∨
    (⟨0, 0, 2⟩ : V3).unit.allclose (-(⟨0, 1, 0⟩ : V3).unit)) := by
  have h : (⟨0, 1, 0⟩ : V3).unit = ⟨0, 1, 0⟩ := V3.unit_of_unit (by simp [V3.dot])
  have h2 : (⟨0, 0, 2⟩ : V3).unit.y = 0 := by simp [V3.unit]
  rw [h]
  rintro (h' | h')
  · have := h'.2.1
    rw [h2] at this; norm_num [isclose] at this
  · have := h'.2.1
    rw [h2] at this; norm_num [isclose] at this

end Marxs
