import Mathlib.Data.Nat.Digits.Lemmas
import Verif.Props.Visual

/-!
# C62, C63: combined triangulations and colors
-/

namespace Marxs

/-! ## C62 -/

/-- The offsets that keep every triangle on its own points. -/
def trueOffsets (s : ℕ) : List ℕ → List ℕ
  | [] => []
  | a :: l => s :: trueOffsets (s + a) l

theorem drawn_shift (P x Q : List V3) (t : List Tri) (h : ValidTris x t) :
    drawn (P ++ x ++ Q) (t.map (Tri.shift P.length)) = drawn x t := by
  unfold drawn
  rw [List.map_map]
  refine List.map_congr_left fun u hu => ?_
  obtain ⟨h1, h2, h3⟩ := h u hu
  have key : ∀ i, i < x.length → (P ++ x ++ Q)[i + P.length]? = x[i]? := by
    intro i hi
    rw [List.append_assoc, List.getElem?_append_right (by omega), Nat.add_sub_cancel,
      List.getElem?_append_left hi]
  simp only [Function.comp_apply, Tri.shift, key _ h1, key _ h2, key _ h3]

theorem drawn_append (x : List V3) (t u : List Tri) : drawn x (t ++ u) = drawn x t ++ drawn x u := by
  simp [drawn]

theorem drawn_offsets (lx : List (List V3)) : ∀ (lt : List (List Tri)) (P : List V3),
    lx.length = lt.length → (∀ p ∈ lx.zip lt, ValidTris p.1 p.2) →
    drawn (P ++ lx.flatten) (List.zipWith (fun t k => t.map (Tri.shift k)) lt
      (trueOffsets P.length (lx.map List.length))).flatten = (List.zipWith drawn lx lt).flatten := by
  induction lx with
  | nil =>
    intro lt P h _
    have : lt = [] := List.length_eq_zero_iff.1 (by simpa using h.symm)
    subst this; simp [drawn]
  | cons x lx ih =>
    intro lt P h hv
    match lt, h with
    | t :: lt, h =>
      simp only [List.map_cons, trueOffsets, List.zipWith_cons_cons, List.flatten_cons]
      rw [drawn_append]
      congr 1
      · rw [← List.append_assoc]
        exact drawn_shift P x _ t (hv (x, t) (by simp))
      · have := ih lt (P ++ x) (by simpa using h) (fun p hp => hv p (by simp [hp]))
        rw [← this, List.length_append, List.append_assoc]

theorem cumsum_same (n : ℕ) (l : List ℕ) : ∀ s, (∀ a ∈ l, a = n) →
    sizesCumsum s l = (trueOffsets s l).map (· + n) := by
  induction l with
  | nil => intro s _; rfl
  | cons a l ih =>
    intro s h
    have ha : a = n := h a (by simp)
    subst ha
    simp [sizesCumsum, trueOffsets, ih (s + a) (fun b hb => h b (by simp [hb]))]

theorem triOffsets_same (n : ℕ) (l : List ℕ) (h : ∀ a ∈ l, a = n) :
    triOffsets l = trueOffsets 0 l := by
  unfold triOffsets
  rw [cumsum_same n l 0 h]
  cases l with
  | nil => rfl
  | cons a l =>
    simp only [trueOffsets, List.map_cons, List.headD_cons, List.map_map]
    simp [Function.comp_def]

/-- **C62** (partial: all parts must have the same number of points). The combined triangulation
draws the same triangles as the parts. -/
theorem C62_same_size_partial (lx : List (List V3)) (lt : List (List Tri)) (n : ℕ) (hne : lx ≠ [])
    (hlen : lx.length = lt.length) (hsize : ∀ x ∈ lx, x.length = n)
    (hv : ∀ p ∈ lx.zip lt, ValidTris p.1 p.2) :
    ∃ xyz tris, combineTriangulations lx lt = .ok (xyz, tris) ∧ xyz = lx.flatten ∧
      drawn xyz tris = (List.zipWith drawn lx lt).flatten := by
  refine ⟨_, _, by unfold combineTriangulations; rw [if_neg hne, if_neg (by omega)], rfl, ?_⟩
  rw [triOffsets_same n _ (by simpa using hsize)]
  simpa using drawn_offsets lx lt [] hlen hv

/-- **C62 fails** whenever the second of two parts has more points than the first: a triangle at its
last point refers to a point that does not exist. -/
theorem C62_larger_second_false (x y : List V3) (t u : List Tri) (h : x.length < y.length)
    (b c : ℕ) (hu : u = [(y.length - 1, b, c)]) :
    ∃ tris v, combineTriangulations [x, y] [t, u] = .ok (x ++ y, tris) ∧ v ∈ drawn (x ++ y) tris ∧
      v.1 = none := by
  refine ⟨_, ((x ++ y)[y.length - 1 + y.length]?, (x ++ y)[b + y.length]?, (x ++ y)[c + y.length]?),
    by simp [combineTriangulations]; rfl, ?_, ?_⟩
  · subst hu
    simp [drawn, triOffsets, sizesCumsum, Tri.shift]
  · simp only [List.getElem?_eq_none_iff, List.length_append]; omega

/-- **C62 fails** whenever the second of two parts has fewer points than the first: a triangle at
its first point refers to a point of the first part. -/
theorem C62_smaller_second_false (x y : List V3) (t u : List Tri) (h : y.length < x.length)
    (b c : ℕ) (hu : u = [(0, b, c)]) :
    ∃ tris v, combineTriangulations [x, y] [t, u] = .ok (x ++ y, tris) ∧ v ∈ drawn (x ++ y) tris ∧
      v.1 = x[y.length]? ∧ drawn (x ++ y) tris = drawn (x ++ y) t ++ [v] := by
  refine ⟨_, ((x ++ y)[0 + y.length]?, (x ++ y)[b + y.length]?, (x ++ y)[c + y.length]?),
    by simp [combineTriangulations]; rfl, ?_, ?_, ?_⟩
  · subst hu
    simp [drawn, triOffsets, sizesCumsum, Tri.shift]
  · simp only [zero_add]; rw [List.getElem?_append_left h]
  · subst hu
    simp [drawn, triOffsets, sizesCumsum, Tri.shift]

/-- **C62 fails** for a triangle next to a square: nothing of the square is drawn correctly. -/
theorem C62_combined_false : ∃ (lx : List (List V3)) (lt : List (List Tri)),
    (∀ p ∈ lx.zip lt, ValidTris p.1 p.2) ∧
    ∃ xyz tris, combineTriangulations lx lt = .ok (xyz, tris) ∧
      drawn xyz tris ≠ (List.zipWith drawn lx lt).flatten := by
  refine ⟨[[⟨0, 0, 0⟩, ⟨1, 0, 0⟩, ⟨0, 1, 0⟩], [⟨5, 5, 0⟩, ⟨6, 5, 0⟩, ⟨6, 6, 0⟩, ⟨5, 6, 0⟩]],
    [[(0, 1, 2)], [(0, 1, 3)]], ?_, _, _, by unfold combineTriangulations; rw [if_neg (by simp), if_neg (by simp)], ?_⟩
  · intro p hp
    simp only [List.zip_cons_cons, List.zip_nil_left, List.mem_cons, List.not_mem_nil, or_false] at hp
    rcases hp with rfl | rfl <;> (intro t ht; simp at ht; subst ht; simp)
  · simp [drawn, triOffsets, sizesCumsum, Tri.shift]

/-- Index arrays and point arrays have to match. -/
theorem C62_errors (lx : List (List V3)) (lt : List (List Tri)) :
    (∃ r, combineTriangulations lx lt = .ok r) ↔ lx ≠ [] ∧ lx.length ≤ lt.length := by
  unfold combineTriangulations
  by_cases h : lx = []
  · simp [h]
  · by_cases h2 : lt.length < lx.length
    · rw [if_neg h, if_pos h2]; simp [h]; omega
    · rw [if_neg h, if_neg h2]; simp [h]; omega

theorem xyzCircle_length (c vy vz : V3) (r p0 p1 : ℝ) (n : ℕ) :
    (xyzCircle c vy vz r p0 p1 n).length = n := by simp [xyzCircle]

/-- **C62** where the code uses it: an aperture with an inner disk. All circles have the same number
of points, so the outer plane with its hole and the inner disk are both drawn, on their own
points. -/
theorem C62_circular_hole (n : ℕ) (hn : 0 < n) (c vy vz : V3) (rInner fo fi p0 p1 : ℝ)
    (hr : 0 < rInner) :
    ∃ x t y u xyz tris,
      planeWithHole (xyzCircle c vy vz fo 0 (2 * Real.pi) n) (xyzCircle c vy vz 1 p0 p1 n) = .ok (x, t) ∧
      planeWithHole (xyzCircle c vy vz (rInner / vy.norm) p0 p1 n)
        (xyzCircle c vy vz (fi * rInner / vy.norm) p0 p1 n) = .ok (y, u) ∧
      circularHoleTriangulate n c vy vz rInner fo fi p0 p1 = .ok (xyz, tris) ∧
      drawn xyz tris = drawn x t ++ drawn y u := by
  have hne : ∀ r p0 p1, xyzCircle c vy vz r p0 p1 n ≠ [] := by
    intro r p0 p1 h
    have := congrArg List.length h
    rw [xyzCircle_length] at this
    simp at this; omega
  obtain ⟨t, ht, -, hvt⟩ := C61_valid (xyzCircle c vy vz fo 0 (2 * Real.pi) n)
    (xyzCircle c vy vz 1 p0 p1 n) (hne _ _ _) (hne _ _ _)
  obtain ⟨u, hu, -, hvu⟩ := C61_valid (xyzCircle c vy vz (rInner / vy.norm) p0 p1 n)
    (xyzCircle c vy vz (fi * rInner / vy.norm) p0 p1 n) (hne _ _ _) (hne _ _ _)
  set x := xyzCircle c vy vz fo 0 (2 * Real.pi) n ++ xyzCircle c vy vz 1 p0 p1 n with hx
  set y := xyzCircle c vy vz (rInner / vy.norm) p0 p1 n ++
    xyzCircle c vy vz (fi * rInner / vy.norm) p0 p1 n with hy
  obtain ⟨xyz, tris, h1, h2, h3⟩ := C62_same_size_partial [x, y] [t, u] (n + n) (by simp) rfl
    (by
      intro z hz
      simp only [List.mem_cons, List.not_mem_nil, or_false] at hz
      rcases hz with rfl | rfl <;> simp [hx, hy, xyzCircle_length])
    (by
      intro p hp
      simp only [List.zip_cons_cons, List.zip_nil_left, List.mem_cons, List.not_mem_nil,
        or_false] at hp
      rcases hp with rfl | rfl
      · exact hvt
      · exact hvu)
  refine ⟨x, t, y, u, xyz, tris, ht, hu, ?_, by simpa using h3⟩
  unfold circularHoleTriangulate
  rw [ht, hu]
  simp only [hr, if_true]
  exact h1

/-- Concrete input for `C62_same_size_partial`. -/
example : ValidTris [⟨0, 0, 0⟩, ⟨1, 0, 0⟩, ⟨0, 1, 0⟩] [(0, 1, 2)] := by simp [ValidTris]

/-! ## C63 -/

theorem zfill_pyHex_succ (w n : ℕ) (hw : 1 ≤ w) :
    zfill (w + 1) (pyHex n) = zfill w (pyHex (n / 16)) ++ [hexDigit (n % 16)] := by
  rcases Nat.lt_or_ge n 16 with h | h
  · have e : n / 16 = 0 := by omega
    have e2 : n % 16 = n := by omega
    have hr : zfill w ['0'] = List.replicate w '0' := by
      obtain ⟨v, rfl⟩ : ∃ v, w = v + 1 := ⟨w - 1, by omega⟩
      simp [zfill, List.replicate_succ']
    have h0 : pyHex n = [hexDigit n] := by
      unfold pyHex
      by_cases hn : n = 0
      · subst hn; decide
      · rw [if_neg hn, Nat.digits_of_lt 16 n hn h]; rfl
    rw [h0, e, e2, show pyHex 0 = ['0'] from rfl, hr]
    simp [zfill]
  · have hn : n ≠ 0 := by omega
    have hd : n / 16 ≠ 0 := by omega
    have : Nat.digits 16 n = n % 16 :: Nat.digits 16 (n / 16) := Nat.digits_def' (by norm_num) (by omega)
    unfold pyHex
    rw [if_neg hn, if_neg hd, this]
    simp [zfill]

theorem zfill_one (n : ℕ) (h : n < 16) : zfill 1 (pyHex n) = [hexDigit n] := by
  unfold pyHex
  by_cases hn : n = 0
  · subst hn; decide
  · rw [if_neg hn, Nat.digits_of_lt 16 n hn h]; rfl

/-- The six digits are the three bytes of the number. -/
theorem zfill_bytes (r g b : ℕ) (hr : r ≤ 255) (hg : g ≤ 255) (hb : b ≤ 255) :
    ['0', 'x'] ++ zfill 6 (pyHex (r * 65536 + g * 256 + b)) = hexRgb r g b := by
  rw [zfill_pyHex_succ 5 _ (by norm_num), zfill_pyHex_succ 4 _ (by norm_num),
    zfill_pyHex_succ 3 _ (by norm_num), zfill_pyHex_succ 2 _ (by norm_num),
    zfill_pyHex_succ 1 _ (by norm_num), zfill_one _ (by omega)]
  have e1 : (r * 65536 + g * 256 + b) / 16 / 16 / 16 / 16 / 16 = r / 16 := by omega
  have e2 : (r * 65536 + g * 256 + b) / 16 / 16 / 16 / 16 % 16 = r % 16 := by omega
  have e3 : (r * 65536 + g * 256 + b) / 16 / 16 / 16 % 16 = g / 16 := by omega
  have e4 : (r * 65536 + g * 256 + b) / 16 / 16 % 16 = g % 16 := by omega
  have e5 : (r * 65536 + g * 256 + b) / 16 % 16 = b / 16 := by omega
  have e6 : (r * 65536 + g * 256 + b) % 16 = b % 16 := by omega
  rw [e1, e2, e3, e4, e5, e6]
  simp [hexRgb, hexByte]

/-- **C63.** For ints between 0 and 255 the three bytes are red, green and blue. -/
theorem C63_int (r g b : ℕ) (hr : r ≤ 255) (hg : g ≤ 255) (hb : b ≤ 255) :
    colorTupleToHex [.int r, .int g, .int b] = .ok (hexRgb r g b) := by
  have : colorNumber [.int r, .int g, .int b] = .ok (r * 65536 + g * 256 + b) := by
    have h1 : (r : ℝ) ≤ 255 := by exact_mod_cast hr
    have h2 : (g : ℝ) ≤ 255 := by exact_mod_cast hg
    have h3 : (b : ℝ) ≤ 255 := by exact_mod_cast hb
    unfold colorNumber
    rw [if_neg (by simp [PyNum.isFloat]), if_pos (by simp [PyNum.isInt]), if_neg]
    · simp only [PyNum.val, Int.cast_natCast]
      congr 1
      rw [show ((r : ℝ) * 256 ^ 2 + (g : ℝ) * 256 + (b : ℝ)) = ((r * 65536 + g * 256 + b : ℕ) : ℝ) by
        push_cast; ring]
      exact Nat.floor_natCast _
    · simp only [List.mem_cons, List.not_mem_nil, or_false, exists_eq_or_imp, exists_eq_left,
        PyNum.val, Int.cast_natCast]
      have a1 : (0 : ℝ) ≤ r := Nat.cast_nonneg r
      have a2 : (0 : ℝ) ≤ g := Nat.cast_nonneg g
      have a3 : (0 : ℝ) ≤ b := Nat.cast_nonneg b
      push Not
      exact ⟨⟨a1, a2, a3⟩, h1, h2, h3⟩
  unfold colorTupleToHex
  rw [this]
  simp only
  rw [zfill_bytes r g b hr hg hb]

theorem colorNumber_float {r g b : ℝ} (hr : 0 ≤ r ∧ r ≤ 1) (hg : 0 ≤ g ∧ g ≤ 1)
    (hb : 0 ≤ b ∧ b ≤ 1) : colorNumber [.float r, .float g, .float b] =
      .ok ⌊r * 256 ^ 2 * 255 + g * 256 * 255 + b * 255⌋₊ := by
  unfold colorNumber
  rw [if_pos (by simp [PyNum.isFloat]), if_neg]
  · simp [PyNum.val]
  · simp only [List.mem_cons, List.not_mem_nil, or_false, exists_eq_or_imp, exists_eq_left, PyNum.val]
    push Not
    exact ⟨⟨hr.1, hg.1, hb.1⟩, hr.2, hg.2, hb.2⟩

/-- **C63** (partial). For floats between 0 and 1 that are whole multiples of 1/255 in red and
green, the bytes are the scaled components; blue is rounded down. -/
theorem C63_float_partial (r g : ℕ) (b : ℝ) (hr : r ≤ 255) (hg : g ≤ 255) (hb : 0 ≤ b ∧ b ≤ 1) :
    colorTupleToHex [.float (r / 255), .float (g / 255), .float b] =
      .ok (hexRgb r g ⌊b * 255⌋₊) := by
  have h1 : (r : ℝ) ≤ 255 := by exact_mod_cast hr
  have h2 : (g : ℝ) ≤ 255 := by exact_mod_cast hg
  have a1 : (0 : ℝ) ≤ r := Nat.cast_nonneg r
  have a2 : (0 : ℝ) ≤ g := Nat.cast_nonneg g
  unfold colorTupleToHex
  rw [colorNumber_float ⟨by positivity, by rw [div_le_one (by norm_num)]; exact h1⟩
    ⟨by positivity, by rw [div_le_one (by norm_num)]; exact h2⟩ hb]
  simp only
  have e : (r : ℝ) / 255 * 256 ^ 2 * 255 + (g : ℝ) / 255 * 256 * 255 + b * 255 =
      b * 255 + ((r * 65536 + g * 256 : ℕ) : ℝ) := by push_cast; ring
  rw [e, Nat.floor_add_natCast (by nlinarith), add_comm]
  rw [zfill_bytes r g _ hr hg ?_]
  calc ⌊b * 255⌋₊ ≤ ⌊((255 : ℕ) : ℝ)⌋₊ := Nat.floor_mono (by push_cast; nlinarith)
    _ = 255 := Nat.floor_natCast _

/-- **C63** (partial). For all floats between 0 and 1 the result has six digits and, read as one
number, differs by less than one from the scaled components read as one number. -/
theorem C63_float_number_partial (r g b : ℝ) (hr : 0 ≤ r ∧ r ≤ 1) (hg : 0 ≤ g ∧ g ≤ 1)
    (hb : 0 ≤ b ∧ b ≤ 1) :
    ∃ R G B : ℕ, R ≤ 255 ∧ G ≤ 255 ∧ B ≤ 255 ∧
      colorTupleToHex [.float r, .float g, .float b] = .ok (hexRgb R G B) ∧
      ((R * 65536 + G * 256 + B : ℕ) : ℝ) ≤ 255 * r * 65536 + 255 * g * 256 + 255 * b ∧
      255 * r * 65536 + 255 * g * 256 + 255 * b < ((R * 65536 + G * 256 + B : ℕ) : ℝ) + 1 := by
  set x : ℝ := r * 256 ^ 2 * 255 + g * 256 * 255 + b * 255 with hx
  have hx0 : 0 ≤ x := by
    have := hr.1; have := hg.1; have := hb.1; positivity
  have hx1 : x ≤ ((16777215 : ℕ) : ℝ) := by
    have := hr.2; have := hg.2; have := hb.2; push_cast; rw [hx]; nlinarith
  set N := ⌊x⌋₊ with hN
  have hN1 : N ≤ 16777215 := by
    rw [hN, ← Nat.floor_natCast (R := ℝ) 16777215]; exact Nat.floor_mono hx1
  have hsplit : N / 65536 * 65536 + N / 256 % 256 * 256 + N % 256 = N := by omega
  refine ⟨N / 65536, N / 256 % 256, N % 256, by omega, by omega, by omega, ?_, ?_, ?_⟩
  · unfold colorTupleToHex
    rw [colorNumber_float hr hg hb]
    simp only
    rw [← hx, ← hN, ← zfill_bytes _ _ _ (by omega) (by omega) (by omega), hsplit]
  · rw [hsplit]
    have := Nat.floor_le hx0
    rw [← hN] at this
    calc (N : ℝ) ≤ x := this
      _ = _ := by rw [hx]; ring
  · rw [hsplit]
    have := Nat.lt_floor_add_one x
    rw [← hN] at this
    calc _ = x := by rw [hx]; ring
      _ < _ := this

/-- **C63 fails** for floats: what is lost when a component is rounded spills into the next one.
Half-bright red gets a green component, medium gray becomes turquoise. -/
theorem C63_mixing_false :
    colorTupleToHex [.float (1 / 2), .float 0, .float 0] = .ok (hexRgb 127 128 0) ∧
    colorTupleToHex [.float (1 / 2), .float (1 / 2), .float (1 / 2)] = .ok (hexRgb 127 255 255) := by
  constructor
  · unfold colorTupleToHex
    rw [colorNumber_float (by norm_num) (by norm_num) (by norm_num)]
    simp only
    rw [show ((1 / 2 : ℝ) * 256 ^ 2 * 255 + 0 * 256 * 255 + 0 * 255) =
      ((127 * 65536 + 128 * 256 + 0 : ℕ) : ℝ) by norm_num, Nat.floor_natCast,
      zfill_bytes 127 128 0 (by norm_num) (by norm_num) (by norm_num)]
  · unfold colorTupleToHex
    rw [colorNumber_float (by norm_num) (by norm_num) (by norm_num)]
    simp only
    have : ⌊((1 / 2 : ℝ) * 256 ^ 2 * 255 + 1 / 2 * 256 * 255 + 1 / 2 * 255)⌋₊ =
        127 * 65536 + 255 * 256 + 255 := by
      rw [Nat.floor_eq_iff (by norm_num)]; norm_num
    rw [this, zfill_bytes 127 255 255 (by norm_num) (by norm_num) (by norm_num)]

/-- **C63.** Exactly the tuples of at least three floats between 0 and 1, or at least three ints
between 0 and 255, are accepted. -/
theorem C63_accepted_iff (c : List PyNum) :
    (∃ s, colorTupleToHex c = .ok s) ↔ 3 ≤ c.length ∧
      ((∀ a ∈ c, ∃ x : ℝ, a = .float x ∧ 0 ≤ x ∧ x ≤ 1) ∨
       (∀ a ∈ c, ∃ z : ℤ, a = .int z ∧ 0 ≤ z ∧ z ≤ 255)) := by
  have isF : ∀ a : PyNum, a.isFloat = true ↔ ∃ x, a = .float x := by
    intro a; cases a <;> simp [PyNum.isFloat]
  have isI : ∀ a : PyNum, a.isInt = true ↔ ∃ x, a = .int x := by
    intro a; cases a <;> simp [PyNum.isInt]
  unfold colorTupleToHex colorNumber
  by_cases hf : c.all PyNum.isFloat
  · rw [if_pos hf]
    rw [List.all_eq_true] at hf
    by_cases hb : (∃ a ∈ c, a.val < 0) ∨ (∃ a ∈ c, 1 < a.val)
    · rw [if_pos hb]
      simp only [reduceCtorEq, exists_false, false_iff, not_and, not_or]
      intro h3
      constructor
      · intro h
        rcases hb with ⟨a, ha, hlt⟩ | ⟨a, ha, hlt⟩
        · obtain ⟨x, rfl, h0, h1⟩ := h a ha; simp [PyNum.val] at hlt; linarith
        · obtain ⟨x, rfl, h0, h1⟩ := h a ha; simp [PyNum.val] at hlt; linarith
      · intro h
        match c, h3 with
        | a :: _, _ =>
          obtain ⟨x, hx⟩ := (isF a).1 (hf a (by simp))
          obtain ⟨z, hz, -⟩ := h a (by simp)
          simp [hx] at hz
    · rw [if_neg hb]
      constructor
      · intro h
        have h3 : 3 ≤ c.length := by
          rcases c with _ | ⟨r, _ | ⟨g, _ | ⟨b, l⟩⟩⟩ <;> simp at h ⊢
        refine ⟨h3, Or.inl fun a ha => ?_⟩
        obtain ⟨x, rfl⟩ := (isF a).1 (hf a ha)
        push Not at hb
        exact ⟨x, rfl, hb.1 _ ha, hb.2 _ ha⟩
      · rintro ⟨h3, -⟩
        rcases c with _ | ⟨r, _ | ⟨g, _ | ⟨b, l⟩⟩⟩
        · simp at h3
        · simp at h3
        · simp at h3
        · exact ⟨_, rfl⟩
  · rw [if_neg hf]
    by_cases hi : c.all PyNum.isInt
    · rw [if_pos hi]
      rw [List.all_eq_true] at hi
      by_cases hb : (∃ a ∈ c, a.val < 0) ∨ (∃ a ∈ c, 255 < a.val)
      · rw [if_pos hb]
        simp only [reduceCtorEq, exists_false, false_iff, not_and, not_or]
        intro h3
        constructor
        · intro h
          apply hf
          rw [List.all_eq_true]
          intro a ha
          obtain ⟨x, rfl, -⟩ := h a ha
          rfl
        · intro h
          rcases hb with ⟨a, ha, hlt⟩ | ⟨a, ha, hlt⟩
          · obtain ⟨x, rfl, h0, h1⟩ := h a ha
            simp only [PyNum.val] at hlt
            have : x < 0 := by exact_mod_cast hlt
            omega
          · obtain ⟨x, rfl, h0, h1⟩ := h a ha
            simp only [PyNum.val] at hlt
            have : 255 < x := by exact_mod_cast hlt
            omega
      · rw [if_neg hb]
        constructor
        · intro h
          have h3 : 3 ≤ c.length := by
            rcases c with _ | ⟨r, _ | ⟨g, _ | ⟨b, l⟩⟩⟩ <;> simp at h ⊢
          refine ⟨h3, Or.inr fun a ha => ?_⟩
          obtain ⟨x, rfl⟩ := (isI a).1 (hi a ha)
          push Not at hb
          have h0 := hb.1 _ ha
          have h1 := hb.2 _ ha
          simp only [PyNum.val] at h0 h1
          exact ⟨x, rfl, by exact_mod_cast h0, by exact_mod_cast h1⟩
        · rintro ⟨h3, -⟩
          rcases c with _ | ⟨r, _ | ⟨g, _ | ⟨b, l⟩⟩⟩
          · simp at h3
          · simp at h3
          · simp at h3
          · exact ⟨_, rfl⟩
    · rw [if_neg hi]
      simp only [reduceCtorEq, exists_false, false_iff, not_and, not_or]
      intro h3
      constructor
      · intro h
        apply hf
        rw [List.all_eq_true]
        intro a ha
        obtain ⟨x, rfl, -⟩ := h a ha
        rfl
      · intro h
        apply hi
        rw [List.all_eq_true]
        intro a ha
        obtain ⟨x, rfl, -⟩ := h a ha
        rfl

/-- **C63.** Tuples that mix ints and floats, or hold numbers outside the range, raise `ValueError`
(only the length of the tuple is not checked: too short a tuple gives `IndexError`). -/
theorem C63_value_error (c : List PyNum) (h3 : 3 ≤ c.length)
    (h1 : ¬ ∀ a ∈ c, ∃ x : ℝ, a = .float x ∧ 0 ≤ x ∧ x ≤ 1)
    (h2 : ¬ ∀ a ∈ c, ∃ z : ℤ, a = .int z ∧ 0 ≤ z ∧ z ≤ 255) :
    colorTupleToHex c = .error .valueError := by
  have hno : ¬ ∃ s, colorTupleToHex c = .ok s := by
    rw [C63_accepted_iff]; rintro ⟨-, h | h⟩
    · exact h1 h
    · exact h2 h
  match c, h3 with
  | r :: g :: b :: l, _ =>
    cases h : colorTupleToHex (r :: g :: b :: l) with
    | ok s => exact absurd ⟨s, h⟩ hno
    | error e =>
      unfold colorTupleToHex colorNumber at h
      split_ifs at h <;> simp_all

/-- Concrete colors: white and the default of an element. -/
example : colorTupleToHex [.int 255, .int 255, .int 255] =
    .ok ['0', 'x', 'f', 'f', 'f', 'f', 'f', 'f'] := by
  simpa [hexRgb, hexByte, hexDigit] using C63_int 255 255 255 (by norm_num) (by norm_num) (by norm_num)

end Marxs
