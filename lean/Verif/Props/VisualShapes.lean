import Verif.Spec.Visual
import Verif.Spec.Placement
import Verif.Lemmas.MathUtils
import Verif.Lemmas.H4
import Verif.Props.Visual
import Verif.Props.Torus

/-!
# C88-C90: boxes, circles, strips; archives of X3D scenes
-/

namespace Marxs

/-! ## C88: box -/

/-- The eight corners of a box with the given bounds, in the order used for display. -/
def cornersOf (lo hi : V3) : List V3 :=
  [⟨lo.x, lo.y, lo.z⟩, ⟨lo.x, hi.y, lo.z⟩, ⟨lo.x, lo.y, hi.z⟩, ⟨lo.x, hi.y, hi.z⟩,
   ⟨hi.x, lo.y, lo.z⟩, ⟨hi.x, hi.y, lo.z⟩, ⟨hi.x, lo.y, hi.z⟩, ⟨hi.x, hi.y, hi.z⟩]

/-- **C88** `+x` draws the lower half of the box along x, the full extent along y and z. -/
theorem C88_plus_x (l : List Char) :
    halfboxLocal (some ('+' :: 'x' :: l)) = cornersOf ⟨-1, -1, -1⟩ ⟨0, 1, 1⟩ := by
  simp [halfboxLocal, boxCorners, cornersOf]; norm_num

theorem C88_plus_y (l : List Char) :
    halfboxLocal (some ('+' :: 'y' :: l)) = cornersOf ⟨-1, -1, -1⟩ ⟨1, 0, 1⟩ := by
  simp [halfboxLocal, boxCorners, cornersOf]; norm_num

theorem C88_plus_z (l : List Char) :
    halfboxLocal (some ('+' :: 'z' :: l)) = cornersOf ⟨-1, -1, -1⟩ ⟨1, 1, 0⟩ := by
  simp [halfboxLocal, boxCorners, cornersOf]; norm_num

/-- **C88** `-x` draws the upper half. -/
theorem C88_minus_x (l : List Char) :
    halfboxLocal (some ('-' :: 'x' :: l)) = cornersOf ⟨0, -1, -1⟩ ⟨1, 1, 1⟩ := by
  simp [halfboxLocal, boxCorners, cornersOf]; norm_num

theorem C88_minus_y (l : List Char) :
    halfboxLocal (some ('-' :: 'y' :: l)) = cornersOf ⟨-1, 0, -1⟩ ⟨1, 1, 1⟩ := by
  simp [halfboxLocal, boxCorners, cornersOf]; norm_num

theorem C88_minus_z (l : List Char) :
    halfboxLocal (some ('-' :: 'z' :: l)) = cornersOf ⟨-1, -1, 0⟩ ⟨1, 1, 1⟩ := by
  simp [halfboxLocal, boxCorners, cornersOf]; norm_num

/-- **C88** Any other setting, of any kind, draws the full box. -/
theorem C88_other_settings (o : Option (List Char))
    (h : ∀ s a l, o = some (s :: a :: l) → (s ≠ '+' ∧ s ≠ '-') ∨ (a ≠ 'x' ∧ a ≠ 'y' ∧ a ≠ 'z')) :
    halfboxLocal o = cornersOf ⟨-1, -1, -1⟩ ⟨1, 1, 1⟩ := by
  have full : boxCorners = cornersOf ⟨-1, -1, -1⟩ ⟨1, 1, 1⟩ := rfl
  match o, h with
  | none, _ => exact full
  | some [], _ => exact full
  | some [_], _ => exact full
  | some (s :: a :: l), h =>
    rcases h s a l rfl with ⟨h1, h2⟩ | ⟨h1, h2, h3⟩
    · simp only [halfboxLocal, if_neg h1, if_neg h2]
      split_ifs <;> simp [boxCorners, cornersOf]
    · simp only [halfboxLocal, if_neg h1, if_neg h2, if_neg h3]
      exact full

/-- **C88** The corners drawn are the local corners carried along by a placement with center,
half-axes `v_x`, `v_y`, `v_z`. -/
theorem C88_placed (pos4d : Matrix (Fin 4) (Fin 4) ℝ) (o : Option (List Char))
    (hrow : ∀ j, pos4d 3 j = if j = 3 then 1 else 0) :
    halfboxCorners pos4d o = .ok ((halfboxLocal o).map fun v =>
      ⟨pos4d 0 0 * v.x + pos4d 0 1 * v.y + pos4d 0 2 * v.z + pos4d 0 3,
       pos4d 1 0 * v.x + pos4d 1 1 * v.y + pos4d 1 2 * v.z + pos4d 1 3,
       pos4d 2 0 * v.x + pos4d 2 1 * v.y + pos4d 2 2 * v.z + pos4d 2 3⟩) := by
  unfold halfboxCorners
  rw [h2e_points]
  · rw [List.map_map]
    congr 1
    refine List.map_congr_left fun v _ => ?_
    simp [mul4, H4.xyz]
  · intro p hp
    obtain ⟨v, -, rfl⟩ := List.mem_map.1 hp
    have h0 := hrow 0; have h1 := hrow 1; have h2 := hrow 2; have h3 := hrow 3
    simp only [show ((0 : Fin 4) = 3) = False by simp, show ((1 : Fin 4) = 3) = False by simp,
      show ((2 : Fin 4) = 3) = False by simp, if_false, if_true] at h0 h1 h2 h3
    simp only [mul4, h0, h1, h2, h3]; ring

/-- Pick one coordinate of a vector. -/
def coordOf (v : V3) : Fin 3 → ℝ
  | 0 => v.x
  | 1 => v.y
  | 2 => v.z

/-- **C88** For any box: each of the six X3D faces consists of all four corners with one coordinate
at its lower or upper bound. -/
theorem C88_faces (lo hi : V3) : boxFaces.length = 6 ∧ boxFaces.Nodup ∧
    ∀ f ∈ boxFaces, f.length = 4 ∧ f.Nodup ∧ ∃ c : Fin 3,
      (∀ k ∈ f, k < 8 ∧ coordOf (corner (cornersOf lo hi) k) c = coordOf lo c) ∨
      (∀ k ∈ f, k < 8 ∧ coordOf (corner (cornersOf lo hi) k) c = coordOf hi c) := by
  refine ⟨rfl, by decide, ?_⟩
  intro f hf
  simp only [boxFaces, List.mem_cons, List.not_mem_nil, or_false] at hf
  rcases hf with rfl | rfl | rfl | rfl | rfl | rfl
  · refine ⟨rfl, by decide, 0, Or.inl ?_⟩
    intro k hk; fin_cases hk <;> exact ⟨by norm_num, rfl⟩
  · refine ⟨rfl, by decide, 0, Or.inr ?_⟩
    intro k hk; fin_cases hk <;> exact ⟨by norm_num, rfl⟩
  · refine ⟨rfl, by decide, 1, Or.inl ?_⟩
    intro k hk; fin_cases hk <;> exact ⟨by norm_num, rfl⟩
  · refine ⟨rfl, by decide, 1, Or.inr ?_⟩
    intro k hk; fin_cases hk <;> exact ⟨by norm_num, rfl⟩
  · refine ⟨rfl, by decide, 2, Or.inl ?_⟩
    intro k hk; fin_cases hk <;> exact ⟨by norm_num, rfl⟩
  · refine ⟨rfl, by decide, 2, Or.inr ?_⟩
    intro k hk; fin_cases hk <;> exact ⟨by norm_num, rfl⟩

/-- Edges of a closed polygon, each as an unordered pair with the smaller number first. -/
def polyEdges (f : List ℕ) : List (ℕ × ℕ) :=
  (f.zip (f.rotate 1)).map fun p => (min p.1 p.2, max p.1 p.2)

/-- **C88** The six faces close the box: every edge of a face belongs to exactly one other face, and
follows an edge of the box (exactly one coordinate changes). -/
theorem C88_closed (lo hi : V3) : ∀ e ∈ boxFaces.flatMap polyEdges,
    (boxFaces.flatMap polyEdges).count e = 2 ∧
    ∃ c : Fin 3, ∀ d : Fin 3, d ≠ c →
      coordOf (corner (cornersOf lo hi) e.1) d = coordOf (corner (cornersOf lo hi) e.2) d := by
  intro e he
  constructor
  · revert e; decide
  · have hmem : e ∈ [(0, 2), (2, 3), (1, 3), (0, 1), (4, 6), (6, 7), (5, 7), (4, 5), (0, 4), (4, 6),
        (2, 6), (0, 2), (1, 5), (5, 7), (3, 7), (1, 3), (0, 4), (4, 5), (1, 5), (0, 1), (2, 6), (6, 7),
        (3, 7), (2, 3)] := by
      have : boxFaces.flatMap polyEdges = [(0, 2), (2, 3), (1, 3), (0, 1), (4, 6), (6, 7), (5, 7), (4, 5),
        (0, 4), (4, 6), (2, 6), (0, 2), (1, 5), (5, 7), (3, 7), (1, 3), (0, 4), (4, 5), (1, 5), (0, 1),
        (2, 6), (6, 7), (3, 7), (2, 3)] := by decide
      rw [← this]; exact he
    simp only [List.mem_cons, List.not_mem_nil, or_false] at hmem
    rcases hmem with rfl | rfl | rfl | rfl | rfl | rfl | rfl | rfl | rfl | rfl | rfl | rfl | rfl | rfl |
      rfl | rfl | rfl | rfl | rfl | rfl | rfl | rfl | rfl | rfl
    all_goals first
      | (refine ⟨0, ?_⟩; intro d hd; fin_cases d <;> first | exact absurd rfl hd | rfl)
      | (refine ⟨1, ?_⟩; intro d hd; fin_cases d <;> first | exact absurd rfl hd | rfl)
      | (refine ⟨2, ?_⟩; intro d hd; fin_cases d <;> first | exact absurd rfl hd | rfl)

/-- **C88** The twelve triangles of the mayavi box: each lies in one side of the box, and every edge
belongs to exactly two triangles. -/
theorem C88_triangles (lo hi : V3) : boxTriangles.length = 12 ∧
    (∀ t ∈ boxTriangles, ∃ f ∈ boxFaces, t.1 ∈ f ∧ t.2.1 ∈ f ∧ t.2.2 ∈ f ∧ t.1 ≠ t.2.1 ∧
      t.2.1 ≠ t.2.2 ∧ t.2.2 ≠ t.1) ∧
    (∀ e ∈ boxTriangles.flatMap fun t => polyEdges [t.1, t.2.1, t.2.2],
      (boxTriangles.flatMap fun t => polyEdges [t.1, t.2.1, t.2.2]).count e = 2) := by
  refine ⟨rfl, by decide, by decide⟩

/-! ## C89: circles and strips -/

/-- Angle of vertex `k` of `n`. -/
noncomputable def vertexAngle (n k : ℕ) : ℝ := Real.pi / 2 + 2 * Real.pi * k / n

/-- **C89** For a full circle every vertex is on the ellipse, at equally spaced angles that start at
90 degrees. -/
theorem C89_full_circle (center vy vz : V3) (f : ℝ) (n k : ℕ) (hk : k < n) :
    (xyzCircle center vy vz f 0 (2 * Real.pi) n)[k]? = some (center +
      Real.cos (vertexAngle n k) • (f • vy) + Real.sin (vertexAngle n k) • (f • vz)) := by
  unfold xyzCircle
  rw [List.getElem?_map, List.getElem?_range hk]
  simp only [Option.map_some, circleVertex]
  have h1 : anglediff 0 (2 * Real.pi) = 2 * Real.pi := by
    unfold anglediff
    rw [if_neg]
    · ring
    · push Not; constructor <;> linarith [Real.pi_pos]
  have h2 : (0.5 : ℝ) * Real.pi + 2 * Real.pi * k / n = vertexAngle n k := by
    unfold vertexAngle; ring
  rw [h1, if_pos (pymod_lt two_pi_pos _), h2]

/-- **C89** For a wedge from `p0` to `p1` a vertex whose angle is in the wedge (up to full turns) is on
the ellipse and any other vertex is at the center. -/
theorem C89_wedge (center vy vz : V3) (f p0 p1 : ℝ) (h0 : p0 ≤ p1) (h1 : p1 ≤ p0 + 2 * Real.pi)
    (n k : ℕ) (hk : k < n) :
    ((∃ m : ℤ, p0 ≤ vertexAngle n k + 2 * Real.pi * m ∧ vertexAngle n k + 2 * Real.pi * m < p1) →
      (xyzCircle center vy vz f p0 p1 n)[k]? = some (center +
        Real.cos (vertexAngle n k) • (f • vy) + Real.sin (vertexAngle n k) • (f • vz))) ∧
    ((¬ ∃ m : ℤ, p0 ≤ vertexAngle n k + 2 * Real.pi * m ∧ vertexAngle n k + 2 * Real.pi * m < p1) →
      (xyzCircle center vy vz f p0 p1 n)[k]? = some center) := by
  have h2 : (0.5 : ℝ) * Real.pi + 2 * Real.pi * k / n = vertexAngle n k := by
    unfold vertexAngle; ring
  have hd : anglediff p0 p1 = p1 - p0 := by
    unfold anglediff
    rw [if_neg]
    push Not; constructor <;> linarith
  have key : (∃ m : ℤ, p0 ≤ vertexAngle n k + 2 * Real.pi * m ∧
      vertexAngle n k + 2 * Real.pi * m < p1) ↔
      pymod (vertexAngle n k - p0) (2 * Real.pi) < anglediff p0 p1 := by
    rw [hd]
    constructor
    · rintro ⟨m, ha, hb⟩
      have := pymod_add_int two_pi_pos (vertexAngle n k - p0) m
      rw [← this, pymod_eq_self two_pi_pos (by linarith) (by linarith)]
      linarith
    · intro h
      obtain ⟨m, hm⟩ := exists_pymod (vertexAngle n k - p0) (2 * Real.pi)
      have hn := pymod_nonneg two_pi_pos (vertexAngle n k - p0)
      refine ⟨-m, ?_, ?_⟩ <;> push_cast <;> linarith
  unfold xyzCircle
  rw [List.getElem?_map, List.getElem?_range hk]
  simp only [Option.map_some, circleVertex, h2]
  rw [key]
  constructor
  · intro h; rw [if_pos h]
  · intro h; rw [if_neg h]
    simp only [Option.some.injEq]
    ext <;> simp

/-- The start of the wedge is drawn, its end is not: a quarter circle with four vertices. -/
example : (∃ m : ℤ, Real.pi / 2 ≤ vertexAngle 4 0 + 2 * Real.pi * m ∧
    vertexAngle 4 0 + 2 * Real.pi * m < Real.pi) :=
  ⟨0, by simp [vertexAngle], by simp [vertexAngle]; linarith [Real.pi_pos]⟩

/-- **C89** For two columns the strip is a proper triangulation: cell `i` is covered by two triangles
that share a diagonal. -/
theorem C89_strip_partial (m i : ℕ) (hi : i + 1 < m) :
    (i * 2 + 0, i * 2 + 1, (i + 1) * 2 + 0) ∈ stripTriangles (m * 2) ∧
    (i * 2 + 1, (i + 1) * 2 + 0, (i + 1) * 2 + 1) ∈ stripTriangles (m * 2) := by
  simp only [stripTriangles, List.mem_map, List.mem_range]
  have e1 : i * 2 + 2 = (i + 1) * 2 + 0 := by ring
  have e2 : i * 2 + 3 = (i + 1) * 2 + 1 := by ring
  exact ⟨⟨i * 2, by omega, by rw [← e1]; rfl⟩, ⟨i * 2 + 1, by omega, by rw [← e1, ← e2]⟩⟩

/-- **C89 fails** for all surfaces with three or more columns: no triangle has two corners above each
other, so neighbouring rows are never connected within a column and the surface is not covered. -/
theorem C89_strip_false (N n i j : ℕ) (hn : 3 ≤ n) (t : Tri) (ht : t ∈ stripTriangles N)
    (a b : ℕ) (ha : a ∈ [t.1, t.2.1, t.2.2]) (hb : b ∈ [t.1, t.2.1, t.2.2]) :
    ¬ (a = i * n + j ∧ b = (i + 1) * n + j) := by
  simp only [stripTriangles, List.mem_map, List.mem_range] at ht
  obtain ⟨k, -, rfl⟩ := ht
  rintro ⟨h1, h2⟩
  have e : (i + 1) * n + j = i * n + j + n := by ring
  simp only [List.mem_cons, List.not_mem_nil, or_false] at ha hb
  omega

/-- **C89** The strip uses only points that exist. -/
theorem C89_strip_valid (xyz : List V3) : ValidTris xyz (stripTriangles xyz.length) := by
  intro t ht
  simp only [stripTriangles, List.mem_map, List.mem_range] at ht
  obtain ⟨k, hk, rfl⟩ := ht
  simp only
  omega

theorem frame_side (c e1 e2 : V3) (f a b : ℝ) (hb : 1 ≤ b) (hbf : b ≤ f) (h1 : -b ≤ a) (h2 : a ≤ b) :
    InTriangle (c + f • (e1 + e2)) (c + (1 : ℝ) • (e1 + e2)) (c + (1 : ℝ) • (-e1 + e2)) (c + a • e1 + b • e2) ∨
    InTriangle (c + f • (-e1 + e2)) (c + f • (e1 + e2)) (c + (1 : ℝ) • (-e1 + e2)) (c + a • e1 + b • e2) := by
  obtain ⟨s, hs0, hs1, hs⟩ : ∃ s : ℝ, 0 ≤ s ∧ s ≤ 1 ∧ b = 1 + s * (f - 1) := by
    rcases eq_or_lt_of_le (hb.trans hbf) with h | h
    · exact ⟨0, le_rfl, zero_le_one, by linarith⟩
    · refine ⟨(b - 1) / (f - 1), by apply div_nonneg <;> linarith, ?_, ?_⟩
      · rw [div_le_one (by linarith)]; linarith
      · rw [div_mul_cancel₀ _ (by linarith)]; ring
  have hf : 0 < f := by linarith
  by_cases h : s * f + s - 1 ≤ a
  · left
    refine ⟨s, (1 - s + a - s * f) / 2, (1 - s - a + s * f) / 2, hs0, by linarith, by linarith, by ring, ?_⟩
    ext <;> simp <;> rw [hs] <;> ring
  · right
    push Not at h
    have e : f * ((a + 1 - s) / f) = a + 1 - s := by field_simp
    obtain ⟨k, hk⟩ : ∃ k, k = (a + 1 - s) / f := ⟨_, rfl⟩
    rw [← hk] at e
    refine ⟨(s - k) / 2, (s + k) / 2, 1 - s, ?_, ?_, by linarith, by ring, ?_⟩
    · have : f * k ≤ f * s := by rw [e]; linarith
      have := le_of_mul_le_mul_left this hf
      linarith
    · have : f * (-s) ≤ f * k := by rw [e]; linarith
      have := le_of_mul_le_mul_left this hf
      linarith
    · have ha : a = f * k - 1 + s := by linarith
      ext <;> simp <;> rw [hs, ha] <;> ring

theorem frame_tris : (holeLoop 4 4 8).tris =
    [(0, 4, 5), (1, 0, 5), (1, 5, 6), (2, 1, 6), (2, 6, 7), (3, 2, 7), (3, 7, 4), (0, 3, 4)] := by
  simp [holeLoop, holeStep, List.range_succ]
  norm_num

/-- **C89** The frame that is drawn around a rectangular opening covers all of the plane between the opening and
the outer rectangle, and nothing else: neither the opening nor the space outside. -/
theorem C89_frame (c vy vz : V3) (f : ℝ) (hf : 1 ≤ f) (hind : ∀ a b : ℝ, a • vy + b • vz = 0 → a = 0 ∧ b = 0) :
    ∃ xyz tris, rectangleHoleTriangulate c vy vz 0 f = .ok (xyz, tris) ∧ ValidTris xyz tris ∧
      ∀ a b : ℝ, Covered xyz tris (c + a • vy + b • vz) ↔ (1 ≤ |a| ∨ 1 ≤ |b|) ∧ |a| ≤ f ∧ |b| ≤ f := by
  refine ⟨_, _, by simp [rectangleHoleTriangulate, planeWithHole, xyzSquare]; exact ⟨rfl, rfl⟩, ?_, ?_⟩
  · intro t ht
    rw [frame_tris] at ht
    simp only [List.mem_cons, List.not_mem_nil, or_false] at ht
    rcases ht with rfl | rfl | rfl | rfl | rfl | rfl | rfl | rfl <;> simp
  · intro a b
    constructor
    · rintro ⟨p, q, r, hpqr, l, m, n, hl, hm, hn, hsum, hx⟩
      have coords : ∀ a' b' : ℝ, c + a • vy + b • vz = c + a' • vy + b' • vz → a = a' ∧ b = b' := by
        intro a' b' h
        have := hind (a - a') (b - b') (by
          have hX := congrArg V3.x h
          have hY := congrArg V3.y h
          have hZ := congrArg V3.z h
          simp at hX hY hZ
          ext <;> simp <;> linarith)
        constructor <;> linarith [this.1, this.2]
      have lf : l * 1 ≤ l * f := mul_le_mul_of_nonneg_left hf hl
      have mf : m * 1 ≤ m * f := mul_le_mul_of_nonneg_left hf hm
      have nf : n * 1 ≤ n * f := mul_le_mul_of_nonneg_left hf hn
      have sf : l * f + m * f + n * f = f := by rw [← add_mul, ← add_mul, hsum, one_mul]
      rw [frame_tris] at hpqr
      simp only [drawn, List.map_cons, List.map_nil, List.mem_cons, List.not_mem_nil, or_false, Prod.mk.injEq,
        List.getElem?_cons_zero, List.getElem?_cons_succ, Option.some.injEq] at hpqr
      have fin : ∀ a' b' : ℝ, (c + a • vy + b • vz = c + a' • vy + b' • vz) →
          (1 ≤ a' ∨ a' ≤ -1 ∨ 1 ≤ b' ∨ b' ≤ -1) → -f ≤ a' → a' ≤ f → -f ≤ b' → b' ≤ f →
          (1 ≤ |a| ∨ 1 ≤ |b|) ∧ |a| ≤ f ∧ |b| ≤ f := by
        intro a' b' h h1 h2 h3 h4 h5
        obtain ⟨rfl, rfl⟩ := coords a' b' h
        refine ⟨?_, abs_le.2 ⟨h2, h3⟩, abs_le.2 ⟨h4, h5⟩⟩
        rcases h1 with h1 | h1 | h1 | h1
        · exact Or.inl (le_abs.2 (Or.inl h1))
        · exact Or.inl (le_abs.2 (Or.inr (by linarith)))
        · exact Or.inr (le_abs.2 (Or.inl h1))
        · exact Or.inr (le_abs.2 (Or.inr (by linarith)))
      have hl' : l = 1 - m - n := by linarith
      rcases hpqr with ⟨rfl, rfl, rfl⟩ | ⟨rfl, rfl, rfl⟩ | ⟨rfl, rfl, rfl⟩ | ⟨rfl, rfl, rfl⟩ | ⟨rfl, rfl, rfl⟩ |
        ⟨rfl, rfl, rfl⟩ | ⟨rfl, rfl, rfl⟩ | ⟨rfl, rfl, rfl⟩
      · refine fin (l * f + m - n) (l * f + m + n) (hx.trans ?_) (Or.inr (Or.inr (Or.inl ?_))) ?_ ?_ ?_ ?_ <;>
          first | linarith | (ext <;> simp [hl'] <;> ring)
      · refine fin (-l * f + m * f - n) (l * f + m * f + n) (hx.trans ?_) (Or.inr (Or.inr (Or.inl ?_))) ?_ ?_ ?_ ?_ <;>
          first | linarith | (ext <;> simp [hl'] <;> ring)
      · refine fin (-l * f - m - n) (l * f + m - n) (hx.trans ?_) (Or.inr (Or.inl ?_)) ?_ ?_ ?_ ?_ <;>
          first | linarith | (ext <;> simp [hl'] <;> ring)
      · refine fin (-l * f - m * f - n) (-l * f + m * f - n) (hx.trans ?_) (Or.inr (Or.inl ?_)) ?_ ?_ ?_ ?_ <;>
          first | linarith | (ext <;> simp [hl'] <;> ring)
      · refine fin (-l * f - m + n) (-l * f - m - n) (hx.trans ?_) (Or.inr (Or.inr (Or.inr ?_))) ?_ ?_ ?_ ?_ <;>
          first | linarith | (ext <;> simp [hl'] <;> ring)
      · refine fin (l * f - m * f + n) (-l * f - m * f - n) (hx.trans ?_) (Or.inr (Or.inr (Or.inr ?_))) ?_ ?_ ?_ ?_ <;>
          first | linarith | (ext <;> simp [hl'] <;> ring)
      · refine fin (l * f + m + n) (-l * f - m + n) (hx.trans ?_) (Or.inl ?_) ?_ ?_ ?_ ?_ <;>
          first | linarith | (ext <;> simp [hl'] <;> ring)
      · refine fin (l * f + m * f + n) (l * f - m * f + n) (hx.trans ?_) (Or.inl ?_) ?_ ?_ ?_ ?_ <;>
          first | linarith | (ext <;> simp [hl'] <;> ring)
    · rintro ⟨h1, ha, hb⟩
      rw [frame_tris]
      unfold Covered
      obtain ⟨a1, a2⟩ := abs_le.1 ha
      obtain ⟨b1, b2⟩ := abs_le.1 hb
      have key : (1 ≤ b ∧ -b ≤ a ∧ a ≤ b) ∨ (1 ≤ -a ∧ a ≤ b ∧ b ≤ -a) ∨ (1 ≤ -b ∧ b ≤ a ∧ a ≤ -b) ∨
          (1 ≤ a ∧ -a ≤ b ∧ b ≤ a) := by
        rcases le_total |a| |b| with h | h
        · have h1' : 1 ≤ |b| := h1.elim (fun x => x.trans h) id
          rcases abs_cases b with ⟨e, _⟩ | ⟨e, _⟩ <;> rw [e] at h h1' <;> obtain ⟨x, y⟩ := abs_le.1 h
          · exact Or.inl ⟨h1', x, y⟩
          · exact Or.inr (Or.inr (Or.inl ⟨h1', by linarith, by linarith⟩))
        · have h1' : 1 ≤ |a| := h1.elim id (fun x => x.trans h)
          rcases abs_cases a with ⟨e, _⟩ | ⟨e, _⟩ <;> rw [e] at h h1' <;> obtain ⟨x, y⟩ := abs_le.1 h
          · exact Or.inr (Or.inr (Or.inr ⟨h1', x, y⟩))
          · exact Or.inr (Or.inl ⟨h1', by linarith, by linarith⟩)
      have conv : ∀ {p q r x p' q' r' x' : V3}, InTriangle p q r x → p = p' → q = q' → r = r' → x = x' →
          InTriangle p' q' r' x' := by
        rintro p q r x _ _ _ _ h rfl rfl rfl rfl
        exact h
      rcases key with ⟨k1, k2, k3⟩ | ⟨k1, k2, k3⟩ | ⟨k1, k2, k3⟩ | ⟨k1, k2, k3⟩
      · rcases frame_side c vy vz f a b k1 b2 k2 k3 with h | h
        · exact ⟨_, _, _, by simp only [drawn, List.map_cons]; exact List.mem_cons_self, h⟩
        · exact ⟨_, _, _, by simp only [drawn, List.map_cons]; exact List.mem_cons_of_mem _ List.mem_cons_self, h⟩
      · rcases frame_side c vz (-vy) f b (-a) k1 (by linarith) (by linarith) k3 with h | h
        · exact ⟨_, _, _, by simp only [drawn, List.map_cons]; exact
              List.mem_cons_of_mem _ (List.mem_cons_of_mem _ List.mem_cons_self),
            conv h (by ext <;> simp <;> (try left) <;> ring) (by ext <;> simp <;> (try left) <;> ring) (by ext <;> simp <;> (try left) <;> ring)
              (by ext <;> simp <;> (try left) <;> ring)⟩
        · exact ⟨_, _, _, by simp only [drawn, List.map_cons]; exact
              List.mem_cons_of_mem _ (List.mem_cons_of_mem _ (List.mem_cons_of_mem _ List.mem_cons_self)),
            conv h (by ext <;> simp <;> (try left) <;> ring) (by ext <;> simp <;> (try left) <;> ring) (by ext <;> simp <;> (try left) <;> ring)
              (by ext <;> simp <;> (try left) <;> ring)⟩
      · rcases frame_side c (-vy) (-vz) f (-a) (-b) k1 (by linarith) (by linarith) (by linarith) with h | h
        · exact ⟨_, _, _, by simp only [drawn, List.map_cons]; exact
              List.mem_cons_of_mem _ (List.mem_cons_of_mem _ (List.mem_cons_of_mem _ (List.mem_cons_of_mem _
                List.mem_cons_self))),
            conv h (by ext <;> simp <;> (try left) <;> ring) (by ext <;> simp <;> (try left) <;> ring) (by ext <;> simp <;> (try left) <;> ring)
              (by ext <;> simp <;> (try left) <;> ring)⟩
        · exact ⟨_, _, _, by simp only [drawn, List.map_cons]; exact
              List.mem_cons_of_mem _ (List.mem_cons_of_mem _ (List.mem_cons_of_mem _ (List.mem_cons_of_mem _
                (List.mem_cons_of_mem _ List.mem_cons_self)))),
            conv h (by ext <;> simp <;> (try left) <;> ring) (by ext <;> simp <;> (try left) <;> ring) (by ext <;> simp <;> (try left) <;> ring)
              (by ext <;> simp <;> (try left) <;> ring)⟩
      · rcases frame_side c (-vz) vy f (-b) a k1 a2 (by linarith) (by linarith) with h | h
        · exact ⟨_, _, _, by simp only [drawn, List.map_cons]; exact
              List.mem_cons_of_mem _ (List.mem_cons_of_mem _ (List.mem_cons_of_mem _ (List.mem_cons_of_mem _
                (List.mem_cons_of_mem _ (List.mem_cons_of_mem _ List.mem_cons_self))))),
            conv h (by ext <;> simp <;> (try left) <;> ring) (by ext <;> simp <;> (try left) <;> ring) (by ext <;> simp <;> (try left) <;> ring)
              (by ext <;> simp <;> (try left) <;> ring)⟩
        · exact ⟨_, _, _, by simp only [drawn, List.map_cons]; exact
              List.mem_cons_of_mem _ (List.mem_cons_of_mem _ (List.mem_cons_of_mem _ (List.mem_cons_of_mem _
                (List.mem_cons_of_mem _ (List.mem_cons_of_mem _ (List.mem_cons_of_mem _ List.mem_cons_self)))))),
            conv h (by ext <;> simp <;> (try left) <;> ring) (by ext <;> simp <;> (try left) <;> ring) (by ext <;> simp <;> (try left) <;> ring)
              (by ext <;> simp <;> (try left) <;> ring)⟩

/-- The hypotheses hold for an opening in the yz-plane in a frame of three times its size. -/
example : (1 : ℝ) ≤ 3 ∧ ∀ a b : ℝ, a • (⟨0, 2, 0⟩ : V3) + b • (⟨0, 0, 1⟩ : V3) = 0 → a = 0 ∧ b = 0 := by
  refine ⟨by norm_num, ?_⟩
  intro a b h
  have hY := congrArg V3.y h
  have hZ := congrArg V3.z h
  simp at hY hZ
  exact ⟨hY, hZ⟩

/-! ## C90: archive of a scene -/

/-- **C90** Whatever fails while the archive is written (a download, writing the page, packing), the
scene afterwards is the scene before. -/
theorem C90_scene_unchanged (basename : String → String) (download : String → Except Err Unit)
    (write archive : Except Err Unit) (s : X3DScene) :
    (writeHtmlArchive basename download write archive s).2.1 = s := by
  unfold writeHtmlArchive
  simp only
  split
  · rfl
  · split
    · rfl
    · split <;> rfl

/-- **C90** If the page is written, it refers to local files only, and all of those were downloaded. -/
theorem C90_local_sources (basename : String → String) (hb : basename "" = "")
    (download : String → Except Err Unit) (write archive : Except Err Unit) (s : X3DScene)
    (js css : String)
    (h : (writeHtmlArchive basename download write archive s).2.2.2 = some (js, css)) :
    js = basename s.js ∧ css = basename s.css ∧
      (js ≠ "" → js ∈ (writeHtmlArchive basename download write archive s).2.2.1) ∧
      (css ≠ "" → css ∈ (writeHtmlArchive basename download write archive s).2.2.1) := by
  have hfiles : (writeHtmlArchive basename download write archive s).2.2.1 =
      ([s.js, s.css].filter fun f => f ≠ "").map basename := by
    unfold writeHtmlArchive; simp only
    split
    · rfl
    · split
      · rfl
      · split <;> rfl
  have hpage : js = basename s.js ∧ css = basename s.css := by
    unfold writeHtmlArchive at h; simp only at h
    split at h
    · simp at h
    · split at h
      · simp at h
      · split at h <;> simp at h <;> exact ⟨h.1.symm, h.2.symm⟩
  rw [hfiles]
  refine ⟨hpage.1, hpage.2, ?_, ?_⟩
  · intro hne
    refine List.mem_map.2 ⟨s.js, List.mem_filter.2 ⟨by simp, ?_⟩, hpage.1.symm⟩
    simp only [ne_eq, decide_not, Bool.not_eq_eq_eq_not, Bool.not_true, decide_eq_false_iff_not]
    intro e; apply hne; rw [hpage.1, e, hb]
  · intro hne
    refine List.mem_map.2 ⟨s.css, List.mem_filter.2 ⟨by simp, ?_⟩, hpage.2.symm⟩
    simp only [ne_eq, decide_not, Bool.not_eq_eq_eq_not, Bool.not_true, decide_eq_false_iff_not]
    intro e; apply hne; rw [hpage.2, e, hb]

/-- **C90** The call succeeds exactly when no step fails. -/
theorem C90_ok_iff (basename : String → String) (download : String → Except Err Unit)
    (write archive : Except Err Unit) (s : X3DScene) :
    (writeHtmlArchive basename download write archive s).1 = .ok () ↔
      (s.js ≠ "" → download s.js = .ok ()) ∧ (s.css ≠ "" → download s.css = .ok ()) ∧
      write = .ok () ∧ archive = .ok () := by
  have hdl : (∃ r, ([s.js, s.css].filter fun f => f ≠ "").mapM download = .ok r) ↔
      (s.js ≠ "" → download s.js = .ok ()) ∧ (s.css ≠ "" → download s.css = .ok ()) := by
    by_cases h1 : s.js = "" <;> by_cases h2 : s.css = "" <;>
      cases h3 : download s.js <;> cases h4 : download s.css <;>
      simp [h1, h2, h3, h4, List.filter_cons, bind, Except.bind, pure, Except.pure] <;>
      simp_all [bind, Except.bind, pure, Except.pure]
  rw [← and_assoc, ← hdl]
  unfold writeHtmlArchive; simp only
  cases hm : ([s.js, s.css].filter fun f => f ≠ "").mapM download with
  | error e => simp
  | ok r => cases write <;> cases archive <;> simp

/-- **C90** An unknown implementation is rejected and leaves the scene as it was. -/
theorem C90_unknown_implementation (s : X3DScene) (name : String)
    (h : name ≠ "X3DOM" ∧ name ≠ "X_ITE") :
    s.setImplementation name = (.error .valueError, s) := by
  unfold X3DScene.setImplementation
  rw [if_neg h.1, if_neg h.2]

/-- **C90** After switching to one of the two implementations, the sources depend only on which one was
chosen last, not on what was set before. -/
theorem C90_switch (s t : X3DScene) (name : String) (h : name = "X3DOM" ∨ name = "X_ITE") :
    s.setImplementation name = t.setImplementation name ∧
      (s.setImplementation name).2.implementation = name ∧
      (s.setImplementation name).1 = .ok () := by
  rcases h with rfl | rfl <;> simp [X3DScene.setImplementation]

example : (writeHtmlArchive (fun _ => "x3dom.js") (fun _ => .error .valueError) (.ok ()) (.ok ())
    ⟨"https://a/x3dom.js", "", "X3DOM"⟩).1 = .error .valueError := by
  simp [writeHtmlArchive, List.filter_cons]

end Marxs
