import Mathlib.Data.List.Dedup
import Verif.Spec.Visual
import Verif.Props.VisualParts

/-!
# C82-C87: settings for display, scenes, surfaces, rays
-/

namespace Marxs

/-! ## C82: looking up display settings -/

/-- **C82** A setting made for the element itself is always used. -/
theorem C82_own {V : Type} (d : DisplayDict V) (k : String) (v : V) (dflt : Option V)
    (h : d.own.lookup k = some v) : d.getItem k = .ok v ∧ d.get k dflt = some v := by
  have : d.getItem k = .ok v := by
    unfold DisplayDict.getItem; rw [h]
  exact ⟨this, by unfold DisplayDict.get; rw [this]⟩

/-- **C82** Otherwise the attribute of the geometry of the same name is used. -/
theorem C82_geometry {V : Type} (d : DisplayDict V) (k : String) (g : List (String × V)) (v : V)
    (dflt : Option V) (h : d.own.lookup k = none) (hg : d.geometry = some g)
    (hv : g.lookup k = some v) : d.getItem k = .ok v ∧ d.get k dflt = some v := by
  have : d.getItem k = .ok v := by
    unfold DisplayDict.getItem; rw [h, hg]; simp [hv]
  exact ⟨this, by unfold DisplayDict.get; rw [this]⟩

/-- **C82** If neither is there, `[]` raises `KeyError` and `get` returns the default. -/
theorem C82_missing {V : Type} (d : DisplayDict V) (k : String) (dflt : Option V)
    (h : d.own.lookup k = none) (hg : ∀ g, d.geometry = some g → g.lookup k = none) :
    d.getItem k = .error .keyError ∧ d.get k dflt = dflt := by
  have : d.getItem k = .error .keyError := by
    unfold DisplayDict.getItem; rw [h]
    cases hd : d.geometry with
    | none => rfl
    | some g => simp [hg g hd]
  exact ⟨this, by unfold DisplayDict.get; rw [this]⟩

/-- Settings of an element with its own color and a geometry that knows its shape. -/
example : (DisplayDict.getItem ⟨[("color", 1)], some [("shape", 2)]⟩ "shape" = .ok 2) :=
  (C82_geometry ⟨[("color", 1)], some [("shape", 2)]⟩ "shape" [("shape", 2)] 2 none (by decide) rfl
    (by decide)).1

/-! ## C83: choice of the shape to plot -/

/-- **C83** The first shape in the list that is `None` or known to the plotting package decides. -/
theorem C83_first_known (registry names : List String) (s : String) (post : List String)
    (pre : List String) (hn : names = pre ++ s :: post)
    (hpre : ∀ t ∈ pre, t ≠ "None" ∧ t ∉ registry) (hs : s = "None" ∨ s ∈ registry) :
    selectShape registry names = some (if s = "None" then none else some s) := by
  subst hn
  induction pre with
  | nil =>
    simp only [List.nil_append, selectShape]
    by_cases h : s = "None"
    · simp [h]
    · simp [h, hs.resolve_left h]
  | cons a pre ih =>
    obtain ⟨h1, h2⟩ := hpre a (by simp)
    simp only [List.cons_append, selectShape, if_neg h1, if_neg h2]
    exact ih fun t ht => hpre t (by simp [ht])

theorem selectShape_none (registry names : List String) :
    selectShape registry names = none ↔ ∀ t ∈ names, t ≠ "None" ∧ t ∉ registry := by
  induction names with
  | nil => simp [selectShape]
  | cons a l ih =>
    simp only [selectShape]
    by_cases h : a = "None"
    · simp [h]
    · by_cases h2 : a ∈ registry
      · simp [h, h2]
      · rw [if_neg h, if_neg h2, ih]; simp [h, h2]

/-- **C83** Nothing is drawn, and a warning is given, exactly when no display settings or no shape
is set, or no shape in the list is known. -/
theorem C83_warning_iff (registry : List String) (toRgb : ColorSpec → Except Err (ℝ × ℝ × ℝ))
    (display : Option (DisplayDict DispVal)) :
    (∃ d, plotObjectGeneral registry toRgb display = .ok (.warned, d)) ↔
      (display = none ∨ ∃ d, display = some d ∧ ((∃ e, d.getItem "shape" = .error e) ∨
        ∃ names, d.getItem "shape" = .ok (.shape names) ∧
          ∀ t ∈ names, t ≠ "None" ∧ t ∉ registry)) := by
  cases display with
  | none => simp [plotObjectGeneral]
  | some d =>
    simp only [plotObjectGeneral, reduceCtorEq, Option.some.injEq, exists_eq_left', false_or]
    cases h : d.getItem "shape" with
    | error e => simp
    | ok v => cases v with
      | color c => simp
      | other s => simp
      | shape names =>
        simp only [reduceCtorEq, exists_false, Except.ok.injEq, DispVal.shape.injEq,
          exists_eq_left', false_or]
        rw [← selectShape_none]
        cases h2 : selectShape registry names with
        | none => simp
        | some o => cases o with
          | none => simp
          | some fn =>
            simp only [reduceCtorEq, iff_false, not_exists]
            intro x hx
            split at hx <;> simp at hx

/-- A color setting that is a proper RGB tuple. -/
theorem getColor_rgb (toRgb : ColorSpec → Except Err (ℝ × ℝ × ℝ)) (r g b : ℝ)
    (hr : 0 ≤ r ∧ r ≤ 1) (hg : 0 ≤ g ∧ g ≤ 1) (hb : 0 ≤ b ∧ b ≤ 1) :
    getColor toRgb (some (.seq [.float r, .float g, .float b])) = .ok (r, g, b) := by
  simp only [getColor, ColorSpec.asRgb]
  rw [if_neg (by push Not; exact ⟨hr, hg, hb⟩)]

theorem lookup_drop_ne {V : Type} (l : List (String × V)) (k q : String) (h : k ≠ q) :
    (l.filter (fun p => p.1 ≠ q)).lookup k = l.lookup k := by
  induction l with
  | nil => rfl
  | cons p l ih =>
    by_cases hp : p.1 = q
    · have : (k == p.1) = false := by simpa using (fun e => h (e.trans hp) : ¬ k = p.1)
      rw [List.filter_cons_of_neg (by simp [hp]), List.lookup_cons, ih, this]
    · rw [List.filter_cons_of_pos (by simp [hp]), List.lookup_cons, List.lookup_cons, ih]

/-- **C83** Plotting an object changes nothing in its settings but the color, which is replaced by
the same color as RGB values. -/
theorem C83_settings_kept (registry : List String) (toRgb : ColorSpec → Except Err (ℝ × ℝ × ℝ))
    (d d' : DisplayDict DispVal) (fn : String) (rgb : ℝ × ℝ × ℝ)
    (h : plotObjectGeneral registry toRgb (some d) = .ok (.call fn rgb, some d')) (k : String)
    (hk : k ≠ "color") : d'.own.lookup k = d.own.lookup k ∧ d'.getItem k = d.getItem k := by
  have key : d'.own.lookup k = d.own.lookup k ∧ d'.geometry = d.geometry := by
    simp only [plotObjectGeneral] at h
    split at h <;> try simp at h
    split at h <;> try simp at h
    split at h <;> try simp at h
    obtain ⟨-, rfl⟩ := h
    refine ⟨?_, rfl⟩
    have hb : (k == "color") = false := by simpa using hk
    rw [List.lookup_cons, hb]
    simpa using lookup_drop_ne d.own k "color" hk
  refine ⟨key.1, ?_⟩
  unfold DisplayDict.getItem
  rw [key.1, key.2]

/-- **C83** Plotting the same object again calls the same function with the same color, so the
result does not depend on how often an object was plotted before. -/
theorem C83_again (registry : List String) (toRgb : ColorSpec → Except Err (ℝ × ℝ × ℝ))
    (hto : ∀ c r g b, toRgb c = .ok (r, g, b) →
      (0 ≤ r ∧ r ≤ 1) ∧ (0 ≤ g ∧ g ≤ 1) ∧ (0 ≤ b ∧ b ≤ 1))
    (d d' : DisplayDict DispVal) (fn : String) (rgb : ℝ × ℝ × ℝ)
    (h : plotObjectGeneral registry toRgb (some d) = .ok (.call fn rgb, some d')) :
    ∃ d'', plotObjectGeneral registry toRgb (some d') = .ok (.call fn rgb, some d'') := by
  have hshape := (C83_settings_kept registry toRgb d d' fn rgb h "shape" (by decide)).2
  obtain ⟨r, g, b⟩ := rgb
  simp only [plotObjectGeneral] at h
  split at h <;> try simp at h
  rename_i names hnames
  split at h <;> try simp at h
  rename_i fn' hfn
  split at h <;> try simp at h
  rename_i r' g' b' hcol
  obtain ⟨⟨rfl, rfl, rfl, rfl⟩, rfl⟩ := h
  have hin : (0 ≤ r' ∧ r' ≤ 1) ∧ (0 ≤ g' ∧ g' ≤ 1) ∧ (0 ≤ b' ∧ b' ≤ 1) := by
    revert hcol
    generalize asColor (d.own.lookup "color") = c
    intro hcol
    cases c with
    | none => simp [getColor] at hcol; obtain ⟨rfl, rfl, rfl⟩ := hcol; norm_num
    | some c =>
      simp only [getColor] at hcol
      cases ha : c.asRgb with
      | none => rw [ha] at hcol; exact hto c _ _ _ hcol
      | some q =>
        rw [ha] at hcol
        simp only [Except.ok.injEq] at hcol
        subst hcol
        unfold ColorSpec.asRgb at ha
        split at ha <;> try simp at ha
        obtain ⟨h1, rfl, rfl, rfl⟩ := ha
        exact ⟨⟨h1.1.1, h1.1.2⟩, ⟨h1.2.1.1, h1.2.1.2⟩, ⟨h1.2.2.1, h1.2.2.2⟩⟩
  simp only [plotObjectGeneral]
  rw [hshape, hnames]
  simp only [hfn, List.lookup_cons, beq_self_eq_true, asColor]
  rw [getColor_rgb toRgb _ _ _ hin.1 hin.2.1 hin.2.2]
  exact ⟨_, rfl⟩

/-- An object with its own color and shape `triangulation; surface`. -/
example : ∃ d', plotObjectGeneral ["surface", "box"] (fun _ => .error .valueError)
    (some ⟨[("shape", .shape ["triangulation", "surface"]),
      ("color", .color (.seq [.float 1, .float 0, .float 0]))], none⟩) =
      .ok (.call "surface" (1, 0, 0), some d') := by
  simp only [plotObjectGeneral, DisplayDict.getItem, List.lookup_cons]
  simp only [beq_self_eq_true]
  rw [C83_first_known _ ["triangulation", "surface"] "surface" [] ["triangulation"] rfl (by simp) (by simp)]
  simp only [show ("surface" = "None") = False by simp, if_false]
  rw [show ("color" == "shape") = false by decide]
  simp only [asColor]
  rw [getColor_rgb _ _ _ _ (by norm_num) (by norm_num) (by norm_num)]
  exact ⟨_, rfl⟩

/-! ## C84: containers -/

theorem plotElements_append (registry : List String) (toRgb : ColorSpec → Except Err (ℝ × ℝ × ℝ))
    (a b : List VObj) : plotElements registry toRgb (a ++ b) =
      (match plotElements registry toRgb a with
        | .error e => .error e
        | .ok l => match plotElements registry toRgb b with
          | .error e => .error e
          | .ok l' => .ok (l ++ l')) := by
  induction a with
  | nil => simp only [List.nil_append, plotElements]; cases plotElements registry toRgb b <;> rfl
  | cons x a ih =>
    simp only [List.cons_append, plotElements]
    cases VObj.plot registry toRgb x with
    | error e => rfl
    | ok l =>
      simp only
      rw [ih]
      cases plotElements registry toRgb a with
      | error e => rfl
      | ok l2 =>
        simp only
        cases plotElements registry toRgb b with
        | error e => rfl
        | ok l3 => simp

theorem plotElements_single (registry : List String) (toRgb : ColorSpec → Except Err (ℝ × ℝ × ℝ))
    (x : VObj) : plotElements registry toRgb [x] = x.plot registry toRgb := by
  simp only [plotElements]
  cases VObj.plot registry toRgb x <;> simp

theorem plot_default_container (registry : List String)
    (toRgb : ColorSpec → Except Err (ℝ × ℝ × ℝ)) (dd : DisplayDict DispVal)
    (h : dd.getItem "shape" = .ok (.shape ["container"])) (hc : dd.own.lookup "color" = none) :
    ∃ d', plotObjectGeneral ("container" :: registry) toRgb (some dd) =
      .ok (.call "container" (1, 1, 1), d') := by
  simp only [plotObjectGeneral, h]
  rw [C83_first_known _ ["container"] "container" [] [] rfl (by simp) (by simp)]
  simp only [show ("container" = "None") = False by simp, if_false, hc, asColor, getColor]
  exact ⟨_, rfl⟩

mutual
theorem plot_eq_leaves (registry : List String) (toRgb : ColorSpec → Except Err (ℝ × ℝ × ℝ)) :
    ∀ o : VObj, o.DefaultContainers → o.plot registry toRgb = plotElements registry toRgb o.leaves
  | .elem id d, _ => by rw [VObj.leaves, plotElements_single]
  | .cont id d es, h => by
    obtain ⟨⟨dd, rfl, hs, hc⟩, hl⟩ := h
    obtain ⟨d', hd⟩ := plot_default_container registry toRgb dd hs hc
    rw [VObj.plot, hd, VObj.leaves]
    simp only [if_true]
    exact plotElements_eq_leaves registry toRgb es hl
theorem plotElements_eq_leaves (registry : List String)
    (toRgb : ColorSpec → Except Err (ℝ × ℝ × ℝ)) :
    ∀ es : List VObj, DefaultContainersList es →
      plotElements registry toRgb es = plotElements registry toRgb (visualLeavesList es)
  | [], _ => by rw [visualLeavesList]
  | e :: es, h => by
    rw [visualLeavesList, plotElements_append, plotElements,
      plot_eq_leaves registry toRgb e h.1, plotElements_eq_leaves registry toRgb es h.2]
    cases plotElements registry toRgb e.leaves with
    | error _ => rfl
    | ok l => cases plotElements registry toRgb (visualLeavesList es) <;> rfl
end

/-- **C84** Plotting a container, nested to any depth, does the same as plotting all elements in it
one after the other, each exactly once. -/
theorem C84_nested (registry : List String) (toRgb : ColorSpec → Except Err (ℝ × ℝ × ℝ))
    (o : VObj) (h : o.DefaultContainers) :
    o.plot registry toRgb = plotElements registry toRgb o.leaves :=
  plot_eq_leaves registry toRgb o h

/-- **C84** If no element fails, the scene holds what each element adds, in order. -/
theorem C84_scene (registry : List String) (toRgb : ColorSpec → Except Err (ℝ × ℝ × ℝ))
    (o : VObj) (h : o.DefaultContainers) (f : VObj → List (ℕ × String × (ℝ × ℝ × ℝ)))
    (hf : ∀ x ∈ o.leaves, x.plot registry toRgb = .ok (f x)) :
    o.plot registry toRgb = .ok (o.leaves.flatMap f) := by
  rw [C84_nested registry toRgb o h]
  generalize o.leaves = l at hf
  induction l with
  | nil => simp [plotElements]
  | cons x l ih =>
    rw [plotElements, hf x (by simp), ih fun y hy => hf y (by simp [hy])]
    simp

/-- **C84** One element that cannot be plotted stops the plot of the whole container. -/
theorem C84_error (registry : List String) (toRgb : ColorSpec → Except Err (ℝ × ℝ × ℝ))
    (o : VObj) (h : o.DefaultContainers) (x : VObj) (hx : x ∈ o.leaves) (e : Err)
    (he : x.plot registry toRgb = .error e) : ∃ e', o.plot registry toRgb = .error e' := by
  rw [C84_nested registry toRgb o h]
  generalize o.leaves = l at hx
  induction l with
  | nil => simp at hx
  | cons y l ih =>
    rw [plotElements]
    cases hy : y.plot registry toRgb with
    | error e2 => exact ⟨e2, rfl⟩
    | ok r =>
      rcases List.mem_cons.1 hx with rfl | hm
      · rw [hy] at he; exact absurd he (by simp)
      · obtain ⟨e3, h3⟩ := ih hm
        rw [h3]; exact ⟨e3, rfl⟩

/-- Display settings of a container. -/
def exContDisplay : DisplayDict DispVal := ⟨[("shape", .shape ["container"])], none⟩

/-- A container inside a container. -/
def exNested : VObj := .cont 0 (some exContDisplay)
  [.elem 1 none, .cont 2 (some exContDisplay) [.elem 3 none, .elem 4 none], .elem 5 none]

example : exNested.DefaultContainers ∧
    exNested.leaves = [.elem 1 none, .elem 3 none, .elem 4 none, .elem 5 none] := by
  constructor
  · simp only [exNested, VObj.DefaultContainers, DefaultContainersList, exContDisplay,
      DisplayDict.getItem, List.lookup_cons]
    simp
  · simp [exNested, VObj.leaves, visualLeavesList]

/-! ## C85: faces of a parametric surface -/

/-- Row-by-row numbering of the points in a grid with `n` columns is one-to-one. -/
theorem grid_index_inj {n i j i' j' : ℕ} (hj : j < n) (hj' : j' < n) (h : i * n + j = i' * n + j') :
    i = i' ∧ j = j' := by
  have hn : 0 < n := by omega
  have h1 : (i * n + j) / n = i := by
    rw [Nat.add_comm, Nat.add_mul_div_right _ _ hn, Nat.div_eq_of_lt hj]; omega
  have h2 : (i' * n + j') / n = i' := by
    rw [Nat.add_comm, Nat.add_mul_div_right _ _ hn, Nat.div_eq_of_lt hj']; omega
  have e : i = i' := by rw [← h1, ← h2, h]
  subst e
  exact ⟨rfl, by omega⟩

/-- **C85** The faces are exactly the cells of the grid of points: a face for rows `i`, `i+1` and
columns `j`, `j+1`, going around the cell. -/
theorem C85_faces (m n : ℕ) (f : ℕ × ℕ × ℕ × ℕ) : f ∈ surfaceFaces m n ↔
    ∃ i j, i + 1 < m ∧ j + 1 < n ∧
      f = (i * n + j, i * n + (j + 1), (i + 1) * n + (j + 1), (i + 1) * n + j) := by
  simp only [surfaceFaces, List.mem_flatMap, List.mem_map, List.mem_range]
  constructor
  · rintro ⟨i, hi, j, hj, rfl⟩; exact ⟨i, j, by omega, by omega, rfl⟩
  · rintro ⟨i, j, hi, hj, rfl⟩; exact ⟨i, by omega, j, by omega, rfl⟩

/-- **C85** There is one face for each cell, none twice. -/
theorem C85_each_once (m n : ℕ) : (surfaceFaces m n).length = (m - 1) * (n - 1) ∧
    (surfaceFaces m n).Nodup := by
  constructor
  · simp [surfaceFaces]
  · unfold surfaceFaces
    rw [List.nodup_flatMap]
    constructor
    · intro i _
      refine List.Nodup.map_on ?_ List.nodup_range
      intro a _ b _ hab
      simp only [Prod.mk.injEq] at hab; omega
    · refine List.Pairwise.imp_of_mem ?_ (List.nodup_range (n := m - 1))
      intro a b ha hb hab
      rw [Function.onFun, List.disjoint_left]
      rintro f h1 h2
      obtain ⟨j, hj, rfl⟩ := List.mem_map.1 h1
      obtain ⟨j', hj', he⟩ := List.mem_map.1 h2
      rw [List.mem_range] at hj hj'
      simp only [Prod.mk.injEq] at he
      exact hab (grid_index_inj (by omega) (by omega) he.1).1.symm

/-- **C85** Every face refers to four different points that exist. -/
theorem C85_valid (m n : ℕ) (f : ℕ × ℕ × ℕ × ℕ) (h : f ∈ surfaceFaces m n) :
    f.1 < m * n ∧ f.2.1 < m * n ∧ f.2.2.1 < m * n ∧ f.2.2.2 < m * n ∧
      [f.1, f.2.1, f.2.2.1, f.2.2.2].Nodup := by
  obtain ⟨i, j, hi, hj, rfl⟩ := (C85_faces m n f).1 h
  have h1 : (i + 1) * n + n ≤ m * n := by
    calc (i + 1) * n + n = (i + 1 + 1) * n := by ring
      _ ≤ m * n := Nat.mul_le_mul_right n hi
  have h2 : (i + 1) * n = i * n + n := by ring
  refine ⟨?_, ?_, ?_, ?_, ?_⟩
  · show i * n + j < m * n; omega
  · show i * n + (j + 1) < m * n; omega
  · show (i + 1) * n + (j + 1) < m * n; omega
  · show (i + 1) * n + j < m * n; omega
  · simp only [List.nodup_cons, List.mem_cons, List.not_mem_nil, or_false, not_or, not_false_eq_true,
      List.nodup_nil, and_true]
    omega

/-- **C85** Two cells next to each other share an edge, which they pass in opposite directions, so
the surface has no gap and one side. -/
theorem C85_neighbours (m n i j : ℕ) (hi : i + 1 < m) (hj : j + 2 < n) :
    ∃ f ∈ surfaceFaces m n, ∃ g ∈ surfaceFaces m n, f.1 = i * n + j ∧ g.1 = i * n + (j + 1) ∧
      f.2.1 = g.1 ∧ f.2.2.1 = g.2.2.2 := by
  refine ⟨_, (C85_faces m n _).2 ⟨i, j, hi, by omega, rfl⟩, _,
    (C85_faces m n _).2 ⟨i, j + 1, hi, by omega, rfl⟩, rfl, rfl, rfl, rfl⟩

/-- **C85** The same for cells in neighbouring rows. -/
theorem C85_neighbour_rows (m n i j : ℕ) (hi : i + 2 < m) (hj : j + 1 < n) :
    ∃ f ∈ surfaceFaces m n, ∃ g ∈ surfaceFaces m n, f.1 = i * n + j ∧ g.1 = (i + 1) * n + j ∧
      f.2.2.2 = g.1 ∧ f.2.2.1 = g.2.1 := by
  refine ⟨_, (C85_faces m n _).2 ⟨i, j, by omega, hj, rfl⟩, _,
    (C85_faces m n _).2 ⟨i + 1, j, by omega, hj, rfl⟩, rfl, rfl, rfl, rfl⟩

example : surfaceFaces 2 3 = [(0, 1, 4, 3), (1, 2, 5, 4)] := by decide

/-! ## C86: rays -/

/-- **C86** With mayavi, lines connect exactly the successive points of the same ray: point `k` of ray
`i` with point `k + 1` of ray `i`. -/
theorem C86_connections (n N : ℕ) (a b : ℕ) : (a, b) ∈ rayConnections n N ↔
    ∃ i k, i < n ∧ k + 1 < N ∧ a = i * N + k ∧ b = i * N + (k + 1) := by
  simp only [rayConnections, List.mem_flatMap, List.mem_map, List.mem_range, Prod.mk.injEq]
  constructor
  · rintro ⟨i, hi, k, hk, rfl, rfl⟩; exact ⟨i, k, hi, by omega, rfl, rfl⟩
  · rintro ⟨i, k, hi, hk, rfl, rfl⟩; exact ⟨i, hi, k, by omega, rfl, rfl⟩

/-- **C86** No line connects different rays. -/
theorem C86_same_ray (n N i j k l : ℕ) (hk : k < N) (hl : l < N)
    (h : (i * N + k, j * N + l) ∈ rayConnections n N) : i = j ∧ l = k + 1 := by
  obtain ⟨i', k', hi, hk', h1, h2⟩ := (C86_connections n N _ _).1 h
  obtain ⟨rfl, rfl⟩ := grid_index_inj hk (by omega) h1
  obtain ⟨rfl, rfl⟩ := grid_index_inj hl (by omega) h2
  exact ⟨rfl, rfl⟩

theorem plotRays_ok (N : ℕ) (data : List (List V3)) (sc : RayScalar) (s : List ℝ)
    (hs : rayScalar data.length N sc = .ok s) (hl : s.length = data.length) :
    plotRays N data sc = .ok (s.dedup.map fun v =>
      (v, ((s.zip data).filter fun p => decide (p.1 = v)).map Prod.snd)) := by
  unfold plotRays
  rw [hs]
  simp only
  rw [if_neg (by tauto)]

/-- **C86** With X3D, with one value for each ray: every ray is drawn with its own value. -/
theorem C86_own_value_partial (N : ℕ) (data : List (List V3)) (s : List ℝ) (h : s.length = data.length) :
    ∃ sets, plotRays N data (.perRay s) = .ok sets ∧
      ∀ (v : ℝ) (ray : List V3), (∃ rays, (v, rays) ∈ sets ∧ ray ∈ rays) ↔ (v, ray) ∈ s.zip data := by
  refine ⟨_, plotRays_ok N data (.perRay s) s (by simp [rayScalar, h]) h, ?_⟩
  intro v ray
  simp only [List.mem_map, List.mem_dedup, Prod.mk.injEq]
  constructor
  · rintro ⟨rays, ⟨w, _, rfl, rfl⟩, hr⟩
    obtain ⟨p, hp, rfl⟩ := List.mem_map.1 hr
    obtain ⟨h1, h2⟩ := List.mem_filter.1 hp
    simp only [decide_eq_true_eq] at h2
    rw [← h2]; exact h1
  · intro hm
    refine ⟨_, ⟨v, (List.of_mem_zip hm).1, rfl, rfl⟩, ?_⟩
    exact List.mem_map.2 ⟨(v, ray), List.mem_filter.2 ⟨hm, by simp⟩, rfl⟩

theorem sum_count_dedup (s : List ℝ) (d : List ℝ) (hd : d.Nodup) (data : List (List V3))
    (hsub : ∀ v ∈ s, v ∈ d) (h : s.length = data.length) :
    (d.map fun v => (((s.zip data).filter fun p => decide (p.1 = v)).map Prod.snd).length).sum =
      data.length := by
  induction s generalizing data with
  | nil =>
    have : data = [] := List.length_eq_zero_iff.1 (by simpa using h.symm)
    subst this; simp
  | cons a s ih =>
    match data, h with
    | x :: data, h =>
      have ih' := ih data (fun v hv => hsub v (by simp [hv])) (by simpa using h)
      have ha : a ∈ d := hsub a (by simp)
      have : (d.map fun v => ((((a :: s).zip (x :: data)).filter fun p =>
          decide (p.1 = v)).map Prod.snd).length) =
          d.map fun v => (if v = a then 1 else 0) +
            (((s.zip data).filter fun p => decide (p.1 = v)).map Prod.snd).length := by
        refine List.map_congr_left fun v _ => ?_
        simp only [List.zip_cons_cons, List.filter_cons]
        by_cases hv : a = v
        · subst hv; simp [Nat.add_comm]
        · simp [hv, Ne.symm hv]
      rw [this, List.sum_map_add, ih']
      have h1 : (d.map fun v => if v = a then (1 : ℕ) else 0).sum = 1 := by
        clear this ih ih' hsub
        induction d with
        | nil => simp at ha
        | cons b d ihd =>
          rw [List.nodup_cons] at hd
          by_cases hb : b = a
          · subst hb
            have h0 : (d.map fun v => if v = b then (1 : ℕ) else 0).sum = 0 := by
              rw [List.sum_eq_zero]
              intro y hy
              obtain ⟨v, hv, rfl⟩ := List.mem_map.1 hy
              rw [if_neg (fun e => hd.1 (by rw [← e]; exact hv))]
            simp [h0]
          · have := ihd hd.2 ((List.mem_cons.1 ha).resolve_left (Ne.symm hb))
            simp [hb, this]
      rw [h1, List.length_cons]; omega

/-- **C86** The scene holds as many rays as the data, and each value has one line set only. -/
theorem C86_count (N : ℕ) (data : List (List V3)) (s : List ℝ) (h : s.length = data.length) :
    ∃ sets, plotRays N data (.perRay s) = .ok sets ∧ (sets.map Prod.fst).Nodup ∧
      (sets.map fun p => p.2.length).sum = data.length := by
  refine ⟨_, plotRays_ok N data (.perRay s) s (by simp [rayScalar, h]) h, ?_, ?_⟩
  · rw [List.map_map]
    simpa [Function.comp_def] using List.nodup_dedup s
  · rw [List.map_map]
    exact sum_count_dedup s s.dedup (List.nodup_dedup s) data (fun v hv => List.mem_dedup.2 hv) h

/-- **C86** Without values all rays are in one line set. -/
theorem C86_no_scalar (N : ℕ) (data : List (List V3)) (h : data ≠ []) :
    plotRays N data .none = .ok [(1, data)] := by
  rw [plotRays_ok N data .none (List.replicate data.length 1) rfl (by simp)]
  have hd : (List.replicate data.length (1 : ℝ)).dedup = [1] :=
    List.replicate_dedup (by simpa using h)
  rw [hd]
  congr 1
  simp only [List.map_cons, List.map_nil, List.cons.injEq, Prod.mk.injEq, true_and, and_true]
  rw [List.filter_eq_self.2]
  · exact List.map_snd_zip (by simp)
  · intro p hp
    have := (List.of_mem_zip hp).1
    simpa using (List.mem_replicate.1 this).2

/-- **C86 fails** for a value for each point of each ray: the code takes the values along the first
ray, so rays get the values of points on another ray. The announced value is that of the first point
of each ray. -/
theorem C86_point_values_false (a b c d : V3) : ∃ sets,
    plotRays 2 [[a, b], [c, d]] (.perPoint [[1, 2], [3, 4]]) = .ok sets ∧
      (2, [[c, d]]) ∈ sets ∧ ∀ p ∈ sets, p.1 ≠ 3 := by
  refine ⟨_, plotRays_ok 2 _ _ [1, 2] (by simp [rayScalar]) rfl, ?_, ?_⟩
  · rw [List.mem_map]
    exact ⟨2, by simp, by simp⟩
  · intro p hp
    obtain ⟨v, hv, rfl⟩ := List.mem_map.1 hp
    rw [List.mem_dedup] at hv
    simp only [List.mem_cons, List.not_mem_nil, or_false] at hv
    rcases hv with rfl | rfl <;> norm_num

/-- **C86 fails** for every set of values for points if the number of rays and the number of points
on each ray differ: `IndexError`. -/
theorem C86_point_values_error (N : ℕ) (data : List (List V3)) (s : List (List ℝ))
    (h : s.length = data.length) (hr : ∀ r ∈ s, r.length = N) (hN : 0 < N)
    (hne : data.length ≠ N) : plotRays N data (.perPoint s) = .error .indexError := by
  unfold plotRays
  simp only [rayScalar]
  rw [if_pos ⟨h, hr⟩]
  cases s with
  | nil => rfl
  | cons r s =>
    simp only
    have hl : r.length = N := hr r (by simp)
    rw [if_pos]
    refine ⟨?_, by omega⟩
    intro e; rw [e] at hl; simp at hl; omega

/-- **C86** Other shapes of the values are rejected. -/
theorem C86_wrong_shape (N : ℕ) (data : List (List V3)) (s : List ℝ) (h : s.length ≠ data.length) :
    plotRays N data (.perRay s) = .error .valueError := by
  unfold plotRays
  simp only [rayScalar, if_neg h]

/-! ## C87: r_inner -/

/-- Construct a list of geometries one after the other. -/
def makeAll (w : GeomWorld) : List (Option ℝ) → List (Option ℝ) × GeomWorld
  | [] => ([], w)
  | a :: l => ((makeGeometry w a).1 :: (makeAll (makeGeometry w a).2 l).1,
      (makeAll (makeGeometry w a).2 l).2)

/-- **C87** Every plane with a hole has the inner radius it was made with, no matter what was made
before or is made later. -/
theorem C87_own_radius_partial (w : GeomWorld) (l : List (Option ℝ)) (i : ℕ) (r : ℝ)
    (h : l[i]? = some (some r)) : (makeAll w l).1[i]? = some (some r) := by
  induction l generalizing w i with
  | nil => simp at h
  | cons a l ih =>
    cases i with
    | zero =>
      simp only [List.getElem?_cons_zero, Option.some.injEq] at h
      subst h; simp [makeAll, makeGeometry]
    | succ i =>
      simp only [List.getElem?_cons_succ] at h
      simp only [makeAll, List.getElem?_cons_succ]
      exact ih _ _ h

/-- **C87 fails** for other geometries: they have no inner radius in a new program, but after any
plane with a hole was made they carry its radius. -/
theorem C87_other_geometry_false (r : ℝ) :
    (makeAll ⟨none⟩ [none]).1 = [none] ∧ (makeAll ⟨none⟩ [some r, none]).1 = [some r, some r] := by
  simp [makeAll, makeGeometry]

end Marxs
