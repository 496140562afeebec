import Verif.Model.BaffleDraw
import Verif.Props.Geometry
import Verif.Props.VisualShapes

/-!
# C137: openings are drawn where photons can pass
-/

namespace Marxs
open Classical

theorem ortho_ind {u v : V3} (huv : u.dot v = 0) (hu : u ≠ 0) (hv : v ≠ 0) (a b : ℝ) (h : a • u + b • v = 0) : a = 0 ∧ b = 0 := by
  have d1 : (a • u + b • v).dot u = a * u.dot u := by
    simp only [V3.dot] at huv ⊢
    simp
    linear_combination b * huv
  have d2 : (a • u + b • v).dot v = b * v.dot v := by
    simp only [V3.dot] at huv ⊢
    simp
    linear_combination a * huv
  rw [h] at d1 d2
  have z : ∀ w : V3, (0 : V3).dot w = 0 := by intro w; simp [V3.dot]
  rw [z] at d1 d2
  have p : ∀ w : V3, w ≠ 0 → w.dot w ≠ 0 := by
    intro w hw h0
    have := V3.norm_pos hw
    rw [V3.norm, h0, Real.sqrt_zero] at this
    exact lt_irrefl _ this
  exact ⟨(mul_eq_zero.1 d1.symm).resolve_right (p u hu), (mul_eq_zero.1 d2.symm).resolve_right (p v hv)⟩

/-- **C137** A frame with a rectangular opening (the apertures): for a photon that crosses the plane of the frame inside of the outer edge, the photon passes the opening or the place where it crosses is drawn, and both only on the edge of the opening. (Missing: baffles, see `C137_baffle_false`.) -/
theorem C137_opening_partial (m : M4) (hm : Affine m) (ho : OrthoAxes m) (f : ℝ) (hf : 1 ≤ f) (dir pos : H4) (hd : IsDir dir) (hp : IsPoint pos) (hpar : ¬ ParallelToPlane m dir.xyz)
    (k a b : ℝ) (hk : 0 ≤ k) (hq : pos.xyz + k • dir.xyz = (center m).xyz + a • (vY m).xyz + b • (vZ m).xyz) (ha : |a| ≤ f) (hb : |b| ≤ f) :
    ∃ xyz tris, rectangleHoleTriangulate (center m).xyz (vY m).xyz (vZ m).xyz 0 f = .ok (xyz, tris) ∧
      (((planeIntersect m dir pos).isSome ∧ ¬ (1 ≤ |a| ∨ 1 ≤ |b|)) ∨ (Covered xyz tris (pos.xyz + k • dir.xyz) ∧ ((planeIntersect m dir pos).isSome → |a| = 1 ∨ |b| = 1))) := by
  have hind := ortho_ind ho.yz ho.y0 ho.z0
  obtain ⟨xyz, tris, h1, _, h3⟩ := C89_frame (center m).xyz (vY m).xyz (vZ m).xyz f hf hind
  refine ⟨xyz, tris, h1, ?_⟩
  have hiff := (C10_plane_intersect m hm ho dir pos hd hp).1
  have huniq : ∀ a' b' : ℝ, (∃ k' : ℝ, 0 ≤ k' ∧ pos.xyz + k' • dir.xyz = (center m).xyz + a' • (vY m).xyz + b' • (vZ m).xyz) → a' = a ∧ b' = b := by
    rintro a' b' ⟨k', _, hq'⟩
    have e : (k' - k) • dir.xyz = (a' - a) • (vY m).xyz + (b' - b) • (vZ m).xyz := by
      have e1 := congrArg V3.x hq
      have e2 := congrArg V3.y hq
      have e3 := congrArg V3.z hq
      have f1 := congrArg V3.x hq'
      have f2 := congrArg V3.y hq'
      have f3 := congrArg V3.z hq'
      simp only [V3.add_x, V3.add_y, V3.add_z, V3.smul_x, V3.smul_y, V3.smul_z] at e1 e2 e3 f1 f2 f3
      ext <;> simp only [V3.add_x, V3.add_y, V3.add_z, V3.smul_x, V3.smul_y, V3.smul_z] <;> linarith
    have hkk : k' - k = 0 := by
      by_contra hne
      apply hpar
      unfold ParallelToPlane
      have d := congrArg (fun v : V3 => v.dot (vX m).xyz) e
      have x1 := ho.xy
      have x2 := ho.xz
      simp only [V3.dot, V3.smul_x, V3.smul_y, V3.smul_z, V3.add_x, V3.add_y, V3.add_z] at d x1 x2 ⊢
      have : (k' - k) * (dir.xyz.x * (vX m).xyz.x + dir.xyz.y * (vX m).xyz.y + dir.xyz.z * (vX m).xyz.z) = 0 := by
        linear_combination d + (a' - a) * x1 + (b' - b) * x2
      exact (mul_eq_zero.1 this).resolve_left hne
    rw [hkk] at e
    obtain ⟨g1, g2⟩ := hind _ _ (show (a' - a) • (vY m).xyz + (b' - b) • (vZ m).xyz = 0 by rw [← e]; ext <;> simp)
    exact ⟨by linarith, by linarith⟩
  by_cases hin : 1 ≤ |a| ∨ 1 ≤ |b|
  · right
    refine ⟨by rw [hq]; exact (h3 a b).2 ⟨hin, ha, hb⟩, ?_⟩
    intro hs
    obtain ⟨_, k', hk', a', b', ha', hb', hq'⟩ := hiff.1 hs
    obtain ⟨rfl, rfl⟩ := huniq a' b' ⟨k', hk', hq'⟩
    rcases hin with h | h
    · exact Or.inl (le_antisymm ha' h)
    · exact Or.inr (le_antisymm hb' h)
  · left
    refine ⟨hiff.2 ⟨hpar, k, hk, a, b, ?_, ?_, hq⟩, hin⟩
    · push Not at hin; exact hin.1.le
    · push Not at hin; exact hin.2.le

/-- **C137** (disagreement) The drawing of a baffle is turned by 90 degrees: it stands on the plane of the baffle. Parts of it are off the plane that stops photons, and of that plane only a line is drawn. -/
theorem C137_baffle_false (m : M4) (ho : OrthoAxes m) (f : ℝ) (hf : 1 ≤ f) :
    ∃ xyz tris, baffleTriangulate m f = .ok (xyz, tris) ∧ Covered xyz tris ((center m).xyz + f • (vX m).xyz) ∧ (f • (vX m).xyz).dot (vX m).xyz ≠ 0 ∧
      ∀ a b : ℝ, b ≠ 0 → ¬ Covered xyz tris ((center m).xyz + a • (vY m).xyz + b • (vZ m).xyz) := by
  obtain ⟨xyz, tris, h1, _, h3⟩ := C89_frame (center m).xyz (vX m).xyz (vY m).xyz f hf (ortho_ind ho.xy ho.x0 ho.y0)
  have hpwh : ∃ tris', baffleTriangulate m f = .ok (xyzSquare (center m).xyz (vX m).xyz (vY m).xyz f ++ xyzSquare (center m).xyz (vX m).xyz (vY m).xyz 1, tris') := by
    unfold baffleTriangulate planeWithHole
    simp [xyzSquare]
  obtain ⟨tris', hb⟩ := hpwh
  have heq : baffleTriangulate m f = .ok (xyz, tris) := by
    unfold rectangleHoleTriangulate at h1
    unfold baffleTriangulate at hb ⊢
    rw [hb] at h1 ⊢
    simpa using h1
  have hxyz : xyz = xyzSquare (center m).xyz (vX m).xyz (vY m).xyz f ++ xyzSquare (center m).xyz (vX m).xyz (vY m).xyz 1 := by
    rw [hb] at heq
    simp only [Except.ok.injEq, Prod.mk.injEq] at heq
    exact heq.1.symm
  have hpos : ∀ w : V3, w ≠ 0 → w.dot w ≠ 0 := by
    intro w hw h0
    have := V3.norm_pos hw
    rw [V3.norm, h0, Real.sqrt_zero] at this
    exact lt_irrefl _ this
  refine ⟨xyz, tris, heq, ?_, ?_, ?_⟩
  · have := (h3 f 0).2 ⟨Or.inl (by rw [abs_of_pos (by linarith)]; exact hf), (abs_of_pos (by linarith : 0 < f)).le, by rw [abs_zero]; linarith⟩
    rwa [show (center m).xyz + f • (vX m).xyz + (0 : ℝ) • (vY m).xyz = (center m).xyz + f • (vX m).xyz by ext <;> simp] at this
  · have : (f • (vX m).xyz).dot (vX m).xyz = f * (vX m).xyz.dot (vX m).xyz := by
      simp [V3.dot]; ring
    rw [this]
    exact mul_ne_zero (by linarith) (hpos _ ho.x0)
  · rintro a b hb0 ⟨p, q, r, hmem, l, m', n, _, _, _, hsum, hx⟩
    have hz := ho.xz
    have hy := ho.yz
    have hvert : ∀ v ∈ xyz, v.dot (vZ m).xyz = (center m).xyz.dot (vZ m).xyz := by
      intro v hv
      rw [hxyz] at hv
      simp only [xyzSquare, List.cons_append, List.nil_append, List.mem_cons, List.not_mem_nil, or_false] at hv
      simp only [V3.dot] at hz hy
      rcases hv with rfl | rfl | rfl | rfl | rfl | rfl | rfl | rfl <;> simp only [V3.dot, V3.add_x, V3.add_y, V3.add_z, V3.smul_x, V3.smul_y, V3.smul_z, V3.sub_x, V3.sub_y, V3.sub_z, V3.neg_x, V3.neg_y, V3.neg_z]
      · linear_combination f * hz + f * hy
      · linear_combination -f * hz + f * hy
      · linear_combination -f * hz - f * hy
      · linear_combination f * hz - f * hy
      · linear_combination hz + hy
      · linear_combination -hz + hy
      · linear_combination -hz - hy
      · linear_combination hz - hy
    obtain ⟨t, _, ht⟩ := List.mem_map.1 hmem
    simp only [Prod.mk.injEq] at ht
    have e1 := hvert p (List.mem_of_getElem? ht.1)
    have e2 := hvert q (List.mem_of_getElem? ht.2.1)
    have e3 := hvert r (List.mem_of_getElem? ht.2.2)
    have d := congrArg (fun v : V3 => v.dot (vZ m).xyz) hx
    simp only [V3.dot, V3.smul_x, V3.smul_y, V3.smul_z, V3.add_x, V3.add_y, V3.add_z] at d e1 e2 e3 hy
    have : b * (vZ m).xyz.dot (vZ m).xyz = 0 := by
      simp only [V3.dot]
      linear_combination d + l * e1 + m' * e2 + n * e3 - a * hy + ((center m).xyz.x * (vZ m).xyz.x + (center m).xyz.y * (vZ m).xyz.y + (center m).xyz.z * (vZ m).xyz.z) * hsum
    exact hpos _ ho.z0 ((mul_eq_zero.1 this).resolve_left hb0)

/-- Non-vacuity: a baffle at the origin, and a photon that flies along x and hits the frame. -/
example : Affine (1 : M4) ∧ OrthoAxes (1 : M4) ∧ ¬ ParallelToPlane 1 (⟨-1, 0, 0, 0⟩ : H4).xyz ∧
    (⟨5, 2, 0, 1⟩ : H4).xyz + (5 : ℝ) • (⟨-1, 0, 0, 0⟩ : H4).xyz = (center 1).xyz + (2 : ℝ) • (vY 1).xyz + (0 : ℝ) • (vZ 1).xyz := by
  have hx : (vX (1 : M4)).xyz = ⟨1, 0, 0⟩ := by simp [vX, col, H4.xyz]
  have hy : (vY (1 : M4)).xyz = ⟨0, 1, 0⟩ := by simp [vY, col, H4.xyz]
  have hz : (vZ (1 : M4)).xyz = ⟨0, 0, 1⟩ := by simp [vZ, col, H4.xyz]
  have hc : (center (1 : M4)).xyz = ⟨0, 0, 0⟩ := by simp [center, col, H4.xyz]
  refine ⟨by simp [Affine], ⟨?_, ?_, ?_, ?_, ?_, ?_⟩, ?_, ?_⟩
  · rw [hx, hy]; simp [V3.dot]
  · rw [hx, hz]; simp [V3.dot]
  · rw [hy, hz]; simp [V3.dot]
  · rw [hx]; intro h; have := congrArg V3.x h; simp at this
  · rw [hy]; intro h; have := congrArg V3.y h; simp at this
  · rw [hz]; intro h; have := congrArg V3.z h; simp at this
  · unfold ParallelToPlane; rw [hx]; simp [V3.dot, H4.xyz]
  · rw [hy, hz, hc]; ext <;> simp [H4.xyz]

end Marxs
