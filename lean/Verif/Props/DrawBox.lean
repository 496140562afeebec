import Verif.Spec.DrawBox
import Verif.Props.Draw
import Verif.Props.VisualShapes

/-!
# C144: boxes
-/

namespace Marxs

theorem halfboxLocal_part (o : Option (List Char)) :
    halfboxLocal o = cornersOf (boxPart o).1 (boxPart o).2 := by
  unfold boxPart
  split
  · exact C88_plus_x _
  · exact C88_plus_y _
  · exact C88_plus_z _
  · exact C88_minus_x _
  · exact C88_minus_y _
  · exact C88_minus_z _
  · rename_i h1 h2 h3 h4 h5 h6
    refine C88_other_settings o fun s a l h => ?_
    subst h
    by_contra hc
    push Not at hc
    obtain ⟨hs, ha⟩ := hc
    by_cases s1 : s = '+'
    · subst s1
      by_cases a1 : a = 'x'
      · subst a1; exact h1 _ rfl
      · by_cases a2 : a = 'y'
        · subst a2; exact h2 _ rfl
        · have a3 := ha a1 a2
          subst a3; exact h3 _ rfl
    · have s2 := hs s1
      subst s2
      by_cases a1 : a = 'x'
      · subst a1; exact h4 _ rfl
      · by_cases a2 : a = 'y'
        · subst a2; exact h5 _ rfl
        · have a3 := ha a1 a2
          subst a3; exact h6 _ rfl

theorem boxPart_lt (o : Option (List Char)) :
    (boxPart o).1.x < (boxPart o).2.x ∧ (boxPart o).1.y < (boxPart o).2.y ∧ (boxPart o).1.z < (boxPart o).2.z := by
  unfold boxPart
  split <;> norm_num

theorem frac_mem {a b x : ℝ} (h : a < b) (h1 : a ≤ x) (h2 : x ≤ b) : ∃ s, 0 ≤ s ∧ s ≤ 1 ∧ x = (1 - s) * a + s * b := by
  have : 0 < b - a := by linarith
  refine ⟨(x - a) / (b - a), div_nonneg (by linarith) this.le, (div_le_one this).2 (by linarith), ?_⟩
  field_simp; ring

theorem combo_mem {a b w1 w2 w3 w4 : ℝ} (h1 : 0 ≤ w1) (h2 : 0 ≤ w2) (h3 : 0 ≤ w3) (h4 : 0 ≤ w4) (hs : w1 + w2 + w3 + w4 = 1)
    {x1 x2 x3 x4 : ℝ} (m1 : a ≤ x1 ∧ x1 ≤ b) (m2 : a ≤ x2 ∧ x2 ≤ b) (m3 : a ≤ x3 ∧ x3 ≤ b) (m4 : a ≤ x4 ∧ x4 ≤ b) :
    a ≤ w1 * x1 + w2 * x2 + w3 * x3 + w4 * x4 ∧ w1 * x1 + w2 * x2 + w3 * x3 + w4 * x4 ≤ b := by
  have l := fun {w x : ℝ} (h : 0 ≤ w) (m : a ≤ x ∧ x ≤ b) => mul_le_mul_of_nonneg_left m.1 h
  have u := fun {w x : ℝ} (h : 0 ≤ w) (m : a ≤ x ∧ x ≤ b) => mul_le_mul_of_nonneg_left m.2 h
  constructor
  · have e : a = w1 * a + w2 * a + w3 * a + w4 * a := by rw [← add_mul, ← add_mul, ← add_mul, hs, one_mul]
    linarith [l h1 m1, l h2 m2, l h3 m3, l h4 m4]
  · have e : b = w1 * b + w2 * b + w3 * b + w4 * b := by rw [← add_mul, ← add_mul, ← add_mul, hs, one_mul]
    linarith [u h1 m1, u h2 m2, u h3 m3, u h4 m4]

/-- the indices -/
def boxIndex : List ℤ := [0, 2, 3, 1, -1, 4, 6, 7, 5, -1, 0, 4, 6, 2, -1, 1, 5, 7, 3, -1, 0, 4, 5, 1, -1, 2, 6, 7, 3, -1]

theorem isQuad_box (a b c d : ℕ) : IsQuad boxIndex a b c d ↔
    (a, b, c, d) ∈ [(0, 2, 3, 1), (4, 6, 7, 5), (0, 4, 6, 2), (1, 5, 7, 3), (0, 4, 5, 1), (2, 6, 7, 3)] := by
  constructor
  · rintro ⟨k, h0, h1, h2, h3, -⟩
    have hk : 5 * k < 30 := by
      by_contra hc
      have : boxIndex[5 * k]? = none := List.getElem?_eq_none (by simp [boxIndex]; omega)
      rw [this] at h0; cases h0
    have : k < 6 := by omega
    interval_cases k <;> simp [boxIndex] at h0 h1 h2 h3 <;> simp <;> omega
  · intro h
    simp only [List.mem_cons, List.not_mem_nil, or_false, Prod.mk.injEq] at h
    rcases h with ⟨rfl, rfl, rfl, rfl⟩ | ⟨rfl, rfl, rfl, rfl⟩ | ⟨rfl, rfl, rfl, rfl⟩ | ⟨rfl, rfl, rfl, rfl⟩ | ⟨rfl, rfl, rfl, rfl⟩ | ⟨rfl, rfl, rfl, rfl⟩
    exacts [⟨0, rfl, rfl, rfl, rfl, rfl⟩, ⟨1, rfl, rfl, rfl, rfl, rfl⟩, ⟨2, rfl, rfl, rfl, rfl, rfl⟩, ⟨3, rfl, rfl, rfl, rfl, rfl⟩,
      ⟨4, rfl, rfl, rfl, rfl, rfl⟩, ⟨5, rfl, rfl, rfl, rfl, rfl⟩]

theorem quad_hull {s t : ℝ} (s0 : 0 ≤ s) (s1 : s ≤ 1) (t0 : 0 ≤ t) (t1 : t ≤ 1) {A B C D p : V3}
    (h : p = ((1 - s) * (1 - t)) • A + ((1 - s) * t) • B + (s * t) • C + (s * (1 - t)) • D) : InHull A B C D p :=
  ⟨_, _, _, _, mul_nonneg (by linarith) (by linarith), mul_nonneg (by linarith) t0, mul_nonneg s0 t0, mul_nonneg s0 (by linarith), by ring, h⟩

theorem quads_cover (lo hi p : V3) (hx : lo.x < hi.x) (hy : lo.y < hi.y) (hz : lo.z < hi.z) :
    OnBoxSurface lo hi p ↔ ∃ a b c d A B C D, IsQuad boxIndex a b c d ∧
      (cornersOf lo hi)[a]? = some A ∧ (cornersOf lo hi)[b]? = some B ∧ (cornersOf lo hi)[c]? = some C ∧ (cornersOf lo hi)[d]? = some D ∧
      InHull A B C D p := by
  constructor
  · rintro ⟨⟨⟨x0, x1⟩, ⟨y0, y1⟩, z0, z1⟩, h⟩
    obtain ⟨sx, sx0, sx1, ex⟩ := frac_mem hx x0 x1
    obtain ⟨sy, sy0, sy1, ey⟩ := frac_mem hy y0 y1
    obtain ⟨sz, sz0, sz1, ez⟩ := frac_mem hz z0 z1
    rcases h with h | h | h | h | h | h
    · refine ⟨0, 2, 3, 1, _, _, _, _, (isQuad_box ..).2 (by simp), rfl, rfl, rfl, rfl, quad_hull sy0 sy1 sz0 sz1 ?_⟩
      ext
      · simp only [V3.add_x, V3.smul_x, h]; ring
      · simp only [V3.add_y, V3.smul_y, ey]; ring
      · simp only [V3.add_z, V3.smul_z, ez]; ring
    · refine ⟨4, 6, 7, 5, _, _, _, _, (isQuad_box ..).2 (by simp), rfl, rfl, rfl, rfl, quad_hull sy0 sy1 sz0 sz1 ?_⟩
      ext
      · simp only [V3.add_x, V3.smul_x, h]; ring
      · simp only [V3.add_y, V3.smul_y, ey]; ring
      · simp only [V3.add_z, V3.smul_z, ez]; ring
    · refine ⟨0, 4, 6, 2, _, _, _, _, (isQuad_box ..).2 (by simp), rfl, rfl, rfl, rfl, quad_hull sz0 sz1 sx0 sx1 ?_⟩
      ext
      · simp only [V3.add_x, V3.smul_x, ex]; ring
      · simp only [V3.add_y, V3.smul_y, h]; ring
      · simp only [V3.add_z, V3.smul_z, ez]; ring
    · refine ⟨1, 5, 7, 3, _, _, _, _, (isQuad_box ..).2 (by simp), rfl, rfl, rfl, rfl, quad_hull sz0 sz1 sx0 sx1 ?_⟩
      ext
      · simp only [V3.add_x, V3.smul_x, ex]; ring
      · simp only [V3.add_y, V3.smul_y, h]; ring
      · simp only [V3.add_z, V3.smul_z, ez]; ring
    · refine ⟨0, 4, 5, 1, _, _, _, _, (isQuad_box ..).2 (by simp), rfl, rfl, rfl, rfl, quad_hull sy0 sy1 sx0 sx1 ?_⟩
      ext
      · simp only [V3.add_x, V3.smul_x, ex]; ring
      · simp only [V3.add_y, V3.smul_y, ey]; ring
      · simp only [V3.add_z, V3.smul_z, h]; ring
    · refine ⟨2, 6, 7, 3, _, _, _, _, (isQuad_box ..).2 (by simp), rfl, rfl, rfl, rfl, quad_hull sy0 sy1 sx0 sx1 ?_⟩
      ext
      · simp only [V3.add_x, V3.smul_x, ex]; ring
      · simp only [V3.add_y, V3.smul_y, ey]; ring
      · simp only [V3.add_z, V3.smul_z, h]; ring
  · rintro ⟨a, b, c, d, A, B, C, D, hq, hA, hB, hC, hD, w1, w2, w3, w4, p1, p2, p3, p4, hs, rfl⟩
    have e : w4 = 1 - w1 - w2 - w3 := by linarith
    rw [isQuad_box] at hq
    simp only [List.mem_cons, List.not_mem_nil, or_false, Prod.mk.injEq] at hq
    rcases hq with ⟨rfl, rfl, rfl, rfl⟩ | ⟨rfl, rfl, rfl, rfl⟩ | ⟨rfl, rfl, rfl, rfl⟩ | ⟨rfl, rfl, rfl, rfl⟩ | ⟨rfl, rfl, rfl, rfl⟩ | ⟨rfl, rfl, rfl, rfl⟩
    all_goals
      cases hA; cases hB; cases hC; cases hD
      refine ⟨⟨?_, ?_, ?_⟩, ?_⟩
      · refine combo_mem p1 p2 p3 p4 hs ?_ ?_ ?_ ?_ <;> constructor <;> simp <;> linarith
      · refine combo_mem p1 p2 p3 p4 hs ?_ ?_ ?_ ?_ <;> constructor <;> simp <;> linarith
      · refine combo_mem p1 p2 p3 p4 hs ?_ ?_ ?_ ?_ <;> constructor <;> simp <;> linarith
    · left; simp [e]; ring
    · right; left; simp [e]; ring
    · right; right; left; simp [e]; ring
    · right; right; right; left; simp [e]; ring
    · right; right; right; right; left; simp [e]; ring
    · right; right; right; right; right; simp [e]; ring

/-- **C144** A box in an X3D scene: the call succeeds for every setting of `box-half`. The vertices are the eight corners of the part that is asked for, carried along with the element, in
meters and rounded to the configured precision. A point is on the surface of this part of the box exactly if it is in one of the drawn faces, so the box is closed and nothing else is drawn. -/
theorem C144_box (prec : ℤ) (m : M4) (hm : Affine m) (o : Option (List Char)) :
    ∃ pts ind corners, (X3Object.box m o).geometry prec = .ok (.faces pts ind) ∧ ind.length = 30 ∧ corners.length = 8 ∧
      List.Forall₂ (fun c q => ShownAt prec (toGlobal m c).xyz q) corners pts ∧
      ∀ p, OnBoxSurface (boxPart o).1 (boxPart o).2 p ↔ ∃ a b c d A B C D, IsQuad ind a b c d ∧
        corners[a]? = some A ∧ corners[b]? = some B ∧ corners[c]? = some C ∧ corners[d]? = some D ∧ InHull A B C D p := by
  have hrow : ∀ j, m 3 j = if j = 3 then 1 else 0 := by
    obtain ⟨h0, h1, h2, h3⟩ := hm
    intro j
    fin_cases j
    · exact h0
    · exact h1
    · exact h2
    · exact h3
  obtain ⟨hx, hy, hz⟩ := boxPart_lt o
  refine ⟨formatPoints prec ((cornersOf (boxPart o).1 (boxPart o).2).map fun v => (toGlobal m v).xyz), boxIndex,
    cornersOf (boxPart o).1 (boxPart o).2, ?_, rfl, rfl, ?_, fun p => quads_cover _ _ p hx hy hz⟩
  · simp only [X3Object.geometry, boxGeometry, C88_placed m o hrow, halfboxLocal_part]
    have h1 : (boxFaces.flatMap fun f => f.map (fun (k : ℕ) => (k : ℤ)) ++ [-1]) = boxIndex := by rfl
    rw [h1]
    congr 4
    funext v
    simp [toGlobal, mul4, H4.xyz]
  · generalize cornersOf (boxPart o).1 (boxPart o).2 = l
    induction l with
    | nil => exact List.Forall₂.nil
    | cons c t ih => exact List.Forall₂.cons ⟨roundTo_close _ _, roundTo_close _ _, roundTo_close _ _⟩ ih

/-- The middle of the upper side of a box is drawn, and so is the middle of the cut with `+x`, but not the middle of the half that is left out. -/
example : OnBoxSurface (boxPart none).1 (boxPart none).2 ⟨0, 0, 1⟩ ∧ OnBoxSurface (boxPart (some ['+', 'x'])).1 (boxPart (some ['+', 'x'])).2 ⟨0, 0, 0⟩ ∧
    ¬ OnBoxSurface (boxPart (some ['+', 'x'])).1 (boxPart (some ['+', 'x'])).2 ⟨1, 0, 0⟩ := by
  refine ⟨?_, ?_, ?_⟩ <;> norm_num [boxPart, OnBoxSurface]

/-- **C144** `indexed_triangle_set` with a scene passed in adds the same shape as drawing an object with this
triangulation: points and corners as in `C144_triangles`, with the color and transparency asked for. -/
theorem C144_triangle_set (prec : ℤ) (color : V3) (opacity : Option ℝ) (xyz : List V3) (tris : List Tri) (old : List X3Shape) :
    ∃ shape, inHand (some old) (drawTriangleSet prec (diffuseMaterial color opacity) xyz tris (some old)) = some (old ++ [shape]) ∧
      shape.material.diffuse = color ∧ shape.material.transparency = 1 - opacity.getD 1 ∧
      (X3Object.triangulation (.ok (xyz, tris))).geometry prec = .ok shape.geometry :=
  ⟨_, rfl, rfl, rfl, rfl⟩

end Marxs
