import Verif.Spec.Draw
import Verif.Props.Cylinder
import Verif.Props.Torus
import Verif.Props.VisualScene
import Verif.Props.Aperture

/-!
# C144: what is drawn is where it is
-/

namespace Marxs
open Classical

theorem roundTo_close (k : ℤ) (x : ℝ) : |roundTo k x - x| ≤ 1 / 2 / 10 ^ k := by
  have h10 : (0 : ℝ) < 10 ^ k := by positivity
  have h := npRound_close (x * 10 ^ k)
  have e : roundTo k x - x = ((npRound (x * 10 ^ k) : ℝ) - x * 10 ^ k) / 10 ^ k := by
    unfold roundTo; field_simp
  rw [e, abs_div, abs_of_pos h10]
  exact div_le_div_of_nonneg_right h h10.le

theorem formatPoints_shown (prec : ℤ) (p : V3) : ∃ q, formatPoints prec [p] = [q] ∧ ShownAt prec p q :=
  ⟨_, rfl, roundTo_close _ _, roundTo_close _ _, roundTo_close _ _⟩

theorem flatMap_map_get {α β γ : Type} (f : α → β → γ) (l : List α) (r : List β) (i j : ℕ) (a : α) (b : β) (hi : l[i]? = some a) (hj : r[j]? = some b) :
    (l.flatMap fun a => r.map fun b => f a b)[i * r.length + j]? = some (f a b) := by
  induction l generalizing i with
  | nil => simp at hi
  | cons x t ih =>
    have hlt : j < r.length := (List.getElem?_eq_some_iff.1 hj).1
    rw [List.flatMap_cons]
    cases i with
    | zero =>
      simp at hi; subst hi
      rw [List.getElem?_append_left (by simpa using hlt)]
      simp [hj]
    | succ i =>
      rw [List.getElem?_append_right (by simp; nlinarith)]
      have e : (i + 1) * r.length + j - (r.map fun b => f x b).length = i * r.length + j := by
        simp; rw [Nat.add_mul]; omega
      rw [e]
      exact ih i (by simpa using hi)

/-- **C144** A surface in an X3D scene: for a grid of finite points with at least one value for each coordinate the call succeeds. The vertex number `i n + j` is the point of the surface for
the coordinates `i` and `j`, in meters and rounded to the configured precision; there are no other vertices. The faces are the cells of the grid: each joins four points which are neighbours,
going around the cell, followed by the terminator. -/
theorem C144_surface (prec : ℤ) (g : SurfGrid) (hw : ∀ a ∈ g.coo1, ∀ b ∈ g.coo2, (g.pt a b).w = 1) (h1 : g.coo1 ≠ []) (h2 : g.coo2 ≠ []) :
    ∃ pts ind, surfaceGeometry prec g = .ok (.faces pts ind) ∧ pts.length = g.coo1.length * g.coo2.length ∧
      (∀ (i j : ℕ) a b, g.coo1[i]? = some a → g.coo2[j]? = some b → ∃ q, pts[i * g.coo2.length + j]? = some q ∧ ShownAt prec (g.pt a b).xyz q) ∧
      ∃ faces : List (ℕ × ℕ × ℕ × ℕ), ind = faces.flatMap (fun f => [(f.1 : ℤ), f.2.1, f.2.2.1, f.2.2.2, -1]) ∧ faces.Nodup ∧
        ∀ f, f ∈ faces ↔ ∃ i j, i + 1 < g.coo1.length ∧ j + 1 < g.coo2.length ∧
          f = (i * g.coo2.length + j, i * g.coo2.length + (j + 1), (i + 1) * g.coo2.length + (j + 1), (i + 1) * g.coo2.length + j) := by
  have hp : ∀ p ∈ g.points, p.w = 1 := by
    intro p hp
    simp only [SurfGrid.points, List.mem_flatMap, List.mem_map] at hp
    obtain ⟨a, ha, b, hb, rfl⟩ := hp
    exact hw a ha b hb
  have hm : 0 < g.coo1.length := List.length_pos_iff.2 h1
  have hn : 0 < g.coo2.length := List.length_pos_iff.2 h2
  refine ⟨formatPoints prec (g.points.map H4.xyz), _, ?_, ?_, ?_, surfaceFaces g.coo1.length g.coo2.length, rfl, (C85_each_once _ _).2, fun f => C85_faces _ _ f⟩
  · simp only [surfaceGeometry, h2e_points hp]
    rw [if_pos]
    rw [Nat.cast_mul, Nat.cast_sub hm, Nat.cast_sub hn]; simp
  · simp [formatPoints, SurfGrid.points]
  · intro i j a b hi hj
    have hg : g.points[i * g.coo2.length + j]? = some (g.pt a b) := flatMap_map_get _ _ _ _ _ _ _ hi hj
    refine ⟨⟨roundTo (prec + 3) ((g.pt a b).xyz.x / 1000), roundTo (prec + 3) ((g.pt a b).xyz.y / 1000), roundTo (prec + 3) ((g.pt a b).xyz.z / 1000)⟩, ?_, roundTo_close _ _, roundTo_close _ _, roundTo_close _ _⟩
    rw [formatPoints, List.getElem?_map, List.getElem?_map, hg]
    rfl

/-! ## Chords of a circle -/

theorem chord {a b x : ℝ} (ha : a ≤ x) (hb : x ≤ b) (hab : a < b) (hpi : b - a < Real.pi) :
    ∃ t rho : ℝ, 0 ≤ t ∧ t ≤ 1 ∧ Real.cos ((b - a) / 2) ≤ rho ∧ rho ≤ 1 ∧
      (1 - t) * Real.cos a + t * Real.cos b = rho * Real.cos x ∧ (1 - t) * Real.sin a + t * Real.sin b = rho * Real.sin x := by
  have hpp := Real.pi_pos
  set D := (b - a) / 2 with hD
  set u := (b - x) / 2 with hu
  set v := (x - a) / 2 with hv
  have hs0 : 0 ≤ Real.sin (b - x) := Real.sin_nonneg_of_nonneg_of_le_pi (by linarith) (by linarith)
  have hs1 : 0 ≤ Real.sin (x - a) := Real.sin_nonneg_of_nonneg_of_le_pi (by linarith) (by linarith)
  have hcD : 0 < Real.cos D := Real.cos_pos_of_mem_Ioo ⟨by linarith, by linarith⟩
  have hsD : 0 < Real.sin D := Real.sin_pos_of_pos_of_lt_pi (by linarith) (by linarith)
  set E := (b + a) / 2 - x with hE
  have hcE : Real.cos D ≤ Real.cos E := by
    rw [← Real.cos_abs E]
    apply Real.cos_le_cos_of_nonneg_of_le_pi (abs_nonneg _) (by linarith)
    rw [abs_le]; constructor <;> simp only [hE, hD] <;> linarith
  have hcE0 : 0 < Real.cos E := lt_of_lt_of_le hcD hcE
  have sum : Real.sin (b - x) + Real.sin (x - a) = 2 * Real.sin D * Real.cos E := by
    have e1 : b - x = D + E := by simp only [hD, hE]; ring
    have e2 : x - a = D - E := by simp only [hD, hE]; ring
    rw [e1, e2, Real.sin_add D E, Real.sin_sub D E]; ring
  have dbl : Real.sin (b - a) = 2 * Real.sin D * Real.cos D := by
    rw [← Real.sin_two_mul]; congr 1; simp only [hD]; ring
  have S : 0 < 2 * Real.sin D * Real.cos E := by positivity
  refine ⟨Real.sin (x - a) / (2 * Real.sin D * Real.cos E), Real.cos D / Real.cos E, div_nonneg hs1 S.le, (div_le_one S).2 (by linarith), ?_, (div_le_one hcE0).2 hcE, ?_, ?_⟩
  · rw [le_div_iff₀ hcE0]; nlinarith [Real.cos_le_one E]
  · have e : 1 - Real.sin (x - a) / (2 * Real.sin D * Real.cos E) = Real.sin (b - x) / (2 * Real.sin D * Real.cos E) := by
      rw [eq_div_iff S.ne', sub_mul, one_mul, div_mul_cancel₀ _ S.ne']; linarith
    have id : Real.sin (b - x) * Real.cos a + Real.sin (x - a) * Real.cos b = Real.sin (b - a) * Real.cos x := by
      simp only [Real.sin_sub]; ring
    rw [e, div_mul_eq_mul_div, div_mul_eq_mul_div, ← add_div, id, dbl, div_mul_eq_mul_div, div_eq_div_iff S.ne' hcE0.ne']; ring
  · have e : 1 - Real.sin (x - a) / (2 * Real.sin D * Real.cos E) = Real.sin (b - x) / (2 * Real.sin D * Real.cos E) := by
      rw [eq_div_iff S.ne', sub_mul, one_mul, div_mul_cancel₀ _ S.ne']; linarith
    have id : Real.sin (b - x) * Real.sin a + Real.sin (x - a) * Real.sin b = Real.sin (b - a) * Real.sin x := by
      simp only [Real.sin_sub]; ring
    rw [e, div_mul_eq_mul_div, div_mul_eq_mul_div, ← add_div, id, dbl, div_mul_eq_mul_div, div_eq_div_iff S.ne' hcE0.ne']; ring

theorem npLinspace_get (a b : ℝ) (n i : ℕ) (h : i < n) : (npLinspace a b n)[i]? = some (a + i * ((b - a) / ((n : ℝ) - 1))) := by
  simp [npLinspace, h]

/-- Each value in the range is between two neighbours of the equidistant grid. -/
theorem npLinspace_cell (a b x : ℝ) (n : ℕ) (hn : 2 ≤ n) (hab : a < b) (ha : a ≤ x) (hb : x ≤ b) :
    ∃ i : ℕ, i + 1 < n ∧ a + i * ((b - a) / ((n : ℝ) - 1)) ≤ x ∧ x ≤ a + ((i + 1 : ℕ) : ℝ) * ((b - a) / ((n : ℝ) - 1)) := by
  have hn1 : (0 : ℝ) < (n : ℝ) - 1 := by
    have : (2 : ℝ) ≤ n := by exact_mod_cast hn
    linarith
  set s := (b - a) / ((n : ℝ) - 1) with hs
  have sp : 0 < s := div_pos (by linarith) hn1
  have tot : ((n : ℝ) - 1) * s = b - a := by rw [hs]; field_simp
  set f := ⌊(x - a) / s⌋₊ with hf
  have f1 : (f : ℝ) * s ≤ x - a := by
    have := Nat.floor_le (div_nonneg (by linarith : (0 : ℝ) ≤ x - a) sp.le)
    rwa [le_div_iff₀ sp] at this
  have f2 : x - a < ((f : ℝ) + 1) * s := by
    have := Nat.lt_floor_add_one ((x - a) / s)
    rwa [div_lt_iff₀ sp] at this
  by_cases hc : f + 1 < n
  · exact ⟨f, hc, by linarith, by push_cast; linarith⟩
  · refine ⟨n - 2, by omega, ?_, ?_⟩
    · have : ((n - 2 : ℕ) : ℝ) ≤ f := by exact_mod_cast (by omega : n - 2 ≤ f)
      nlinarith
    · have e : (n - 2 + 1 : ℕ) = n - 1 := by omega
      rw [e, Nat.cast_sub (by omega)]; push_cast; linarith

/-! ## Torus -/

/-- **C144** The surface of a Rowland torus: whatever coordinates are asked for, all points drawn are points of the torus, for every placement. -/
theorem C144_torus (t : Torus) (th ph : List ℝ) :
    ∃ g, torusGrid t (some th) (some ph) = .ok g ∧ g.coo1 = th ∧ g.coo2 = ph ∧
      (∀ a b, ∃ q, g.pt a b = toGlobal t.pos4d q ∧ OnTorus t.R t.r q) ∧
      (Affine t.pos4d → ∀ a b, (g.pt a b).w = 1) := by
  refine ⟨_, rfl, rfl, rfl, fun a b => ⟨_, rfl, param_onTorus _ _ a b⟩, fun ha a b => affine_w ha _⟩

/-- **C144** Without coordinates for the surface nothing is drawn: `AttributeError`. -/
theorem C144_torus_coordinates (t : Torus) (th ph : Option (List ℝ)) (h : th = none ∨ ph = none) : torusGrid t th ph = .error .attributeError := by
  rcases h with rfl | rfl
  · rfl
  · cases th <;> rfl

theorem reduce_angle (x : ℝ) : ∃ y, 0 ≤ y ∧ y ≤ 2 * Real.pi ∧ Real.cos y = Real.cos x ∧ Real.sin y = Real.sin x := by
  have hp : 0 < 2 * Real.pi := by positivity
  refine ⟨x - ⌊x / (2 * Real.pi)⌋ * (2 * Real.pi), ?_, ?_, Real.cos_sub_int_mul_two_pi _ _, Real.sin_sub_int_mul_two_pi _ _⟩
  · have := Int.floor_le (x / (2 * Real.pi))
    rw [le_div_iff₀ hp] at this; linarith
  · have := Int.lt_floor_add_one (x / (2 * Real.pi))
    rw [div_lt_iff₀ hp] at this; linarith

theorem norm_le_of_sq {v : V3} {c : ℝ} (hc : 0 ≤ c) (h : v.x ^ 2 + v.y ^ 2 + v.z ^ 2 ≤ c ^ 2) : v.norm ≤ c := by
  unfold V3.norm
  rw [Real.sqrt_le_iff]
  refine ⟨hc, ?_⟩
  simp only [V3.dot]; linarith

theorem torus_distance {R r c s u1 u2 w ct st cp sp : ℝ} (hR : 0 ≤ R) (hr : 0 ≤ r) (he : 0 ≤ w) (h1 : 1 - w ≤ u1) (h1' : u1 ≤ 1) (h2 : 1 - w ≤ u2) (h2' : u2 ≤ 1) (hw : w ≤ 1)
    (ht : ct ^ 2 + st ^ 2 = 1) (hp : cp ^ 2 + sp ^ 2 = 1) :
    (((R + r * (u1 * ct)) * (u2 * cp) - (R + r * ct) * cp) ^ 2 + (r * (u1 * st) - r * st) ^ 2 + ((R + r * (u1 * ct)) * (u2 * sp) - (R + r * ct) * sp) ^ 2) ≤ ((R + 2 * r) * w) ^ 2 := by
  have e : ((R + r * (u1 * ct)) * (u2 * cp) - (R + r * ct) * cp) ^ 2 + (r * (u1 * st) - r * st) ^ 2 + ((R + r * (u1 * ct)) * (u2 * sp) - (R + r * ct) * sp) ^ 2
      = ((1 - u2) * R + (1 - u1 * u2) * r * ct) ^ 2 + ((1 - u1) * r * st) ^ 2 := by
    have : ((R + r * (u1 * ct)) * (u2 * cp) - (R + r * ct) * cp) ^ 2 + ((R + r * (u1 * ct)) * (u2 * sp) - (R + r * ct) * sp) ^ 2
        = ((1 - u2) * R + (1 - u1 * u2) * r * ct) ^ 2 * (cp ^ 2 + sp ^ 2) := by ring
    rw [hp] at this; linarith [this]
  rw [e]
  have a0 : 0 ≤ (1 - u2) * R := mul_nonneg (by linarith) hR
  have a1 : (1 - u2) * R ≤ w * R := mul_le_mul_of_nonneg_right (by linarith) hR
  have u1p : 0 ≤ u1 := by linarith
  have k0 : 0 ≤ 1 - u1 * u2 := by nlinarith
  have k1 : 1 - u1 * u2 ≤ 2 * w := by nlinarith
  have b0 : 0 ≤ (1 - u1 * u2) * r := mul_nonneg k0 hr
  have b1 : (1 - u1 * u2) * r ≤ 2 * w * r := mul_le_mul_of_nonneg_right k1 hr
  have c0 : 0 ≤ (1 - u1) * r := mul_nonneg (by linarith) hr
  have c1 : (1 - u1) * r ≤ 2 * w * r := mul_le_mul_of_nonneg_right (by linarith) hr
  have ct1 : ct ≤ 1 := by nlinarith
  generalize (1 - u2) * R = A at *
  generalize (1 - u1 * u2) * r = B at *
  generalize (1 - u1) * r = C at *
  have hB : B ^ 2 ≤ (2 * w * r) ^ 2 := pow_le_pow_left₀ b0 b1 2
  have hC : C ^ 2 ≤ (2 * w * r) ^ 2 := pow_le_pow_left₀ c0 c1 2
  have hA : A ^ 2 ≤ (w * R) ^ 2 := pow_le_pow_left₀ a0 a1 2
  have hAB : A * B ≤ (w * R) * (2 * w * r) := mul_le_mul a1 b1 b0 (by positivity)
  have hABc : A * B * ct ≤ A * B := by
    have := mul_nonneg a0 b0
    nlinarith
  have k : (A + B * ct) ^ 2 + (C * st) ^ 2 = A ^ 2 + 2 * (A * B * ct) + (B ^ 2 * ct ^ 2 + C ^ 2 * st ^ 2) := by ring
  have m : B ^ 2 * ct ^ 2 + C ^ 2 * st ^ 2 ≤ (2 * w * r) ^ 2 := by
    calc B ^ 2 * ct ^ 2 + C ^ 2 * st ^ 2 ≤ (2 * w * r) ^ 2 * ct ^ 2 + (2 * w * r) ^ 2 * st ^ 2 :=
          add_le_add (mul_le_mul_of_nonneg_right hB (sq_nonneg _)) (mul_le_mul_of_nonneg_right hC (sq_nonneg _))
      _ = (2 * w * r) ^ 2 := by rw [← mul_add, ht, mul_one]
  rw [k]
  nlinarith

/-- **C144** The default drawing shows all of the torus: for every point of the torus there is a face of the drawing which comes as close as the chords of 59 steps allow, i.e. no part of the
torus is missing and there is no gap where the angles wrap. (In the coordinates of the torus.) -/
theorem C144_torus_covered (R r : ℝ) (hR : 0 ≤ R) (hr : 0 ≤ r) (p : V3) (hp : OnTorus R r p) :
    ∃ (i j : ℕ) (th0 th1 ph0 ph1 : ℝ), torusCoo[i]? = some th0 ∧ torusCoo[i + 1]? = some th1 ∧ torusCoo[j]? = some ph0 ∧ torusCoo[j + 1]? = some ph1 ∧
      ∃ q, InHull (parametricLocal R r th0 ph0).xyz (parametricLocal R r th0 ph1).xyz (parametricLocal R r th1 ph1).xyz (parametricLocal R r th1 ph0).xyz q ∧
        (q - p).norm ≤ (R + 2 * r) * (1 - Real.cos (Real.pi / 59)) := by
  obtain ⟨th', ph', e⟩ := onTorus_param hp
  obtain ⟨th, t0, t1, tc, ts⟩ := reduce_angle th'
  obtain ⟨ph, f0, f1, fc, fs⟩ := reduce_angle ph'
  have pp := Real.pi_pos
  have h2p : (0 : ℝ) < 2 * Real.pi := by positivity
  obtain ⟨i, hi, hi0, hi1⟩ := npLinspace_cell 0 (2 * Real.pi) th 60 (by norm_num) h2p t0 t1
  obtain ⟨j, hj, hj0, hj1⟩ := npLinspace_cell 0 (2 * Real.pi) ph 60 (by norm_num) h2p f0 f1
  refine ⟨i, j, _, _, _, _, npLinspace_get _ _ _ _ (by omega), npLinspace_get _ _ _ _ hi, npLinspace_get _ _ _ _ (by omega), npLinspace_get _ _ _ _ hj, ?_⟩
  set st : ℝ := (2 * Real.pi - 0) / (((60 : ℕ) : ℝ) - 1) with hst
  have stv : st = 2 * Real.pi / 59 := by rw [hst]; norm_num
  have stp : 0 < st := by rw [stv]; positivity
  have stpi : st < Real.pi := by rw [stv]; linarith
  have dif : ∀ k : ℕ, 0 + ((k + 1 : ℕ) : ℝ) * st - (0 + k * st) = st := by intro k; push_cast; ring
  obtain ⟨s, u1, s0, s1, hu1, hu1', sc, ss⟩ := chord hi0 hi1 (by have := dif i; linarith) (by rw [dif]; exact stpi)
  obtain ⟨t, u2, q0, q1, hu2, hu2', pc, ps⟩ := chord hj0 hj1 (by have := dif j; linarith) (by rw [dif]; exact stpi)
  rw [dif, stv, show 2 * Real.pi / 59 / 2 = Real.pi / 59 by ring] at hu1 hu2
  set a0 := 0 + (i : ℝ) * st
  set a1 := 0 + ((i + 1 : ℕ) : ℝ) * st
  set b0 := 0 + (j : ℝ) * st
  set b1 := 0 + ((j + 1 : ℕ) : ℝ) * st
  refine ⟨⟨(R + r * (u1 * Real.cos th)) * (u2 * Real.cos ph), r * (u1 * Real.sin th), (R + r * (u1 * Real.cos th)) * (u2 * Real.sin ph)⟩,
    ⟨(1 - s) * (1 - t), (1 - s) * t, s * t, s * (1 - t), mul_nonneg (by linarith) (by linarith), mul_nonneg (by linarith) q0, mul_nonneg s0 q0, mul_nonneg s0 (by linarith), by ring, ?_⟩, ?_⟩
  · rw [← sc, ← ss, ← pc, ← ps]
    ext <;> simp [parametricLocal, H4.xyz] <;> ring
  · have ex : p.x = (R + r * Real.cos th) * Real.cos ph := by
      have := congrArg H4.x e; simp only [parametricLocal] at this; rw [← this, tc, fc]
    have ey : p.y = r * Real.sin th := by
      have := congrArg H4.y e; simp only [parametricLocal] at this; rw [← this, ts]
    have ez : p.z = (R + r * Real.cos th) * Real.sin ph := by
      have := congrArg H4.z e; simp only [parametricLocal] at this; rw [← this, tc, fs]
    have wc1 := Real.cos_le_one (Real.pi / 59)
    have wc0 : 0 ≤ Real.cos (Real.pi / 59) := Real.cos_nonneg_of_mem_Icc ⟨by linarith, by linarith⟩
    apply norm_le_of_sq
    · exact mul_nonneg (by linarith) (by linarith)
    · simp only [V3.sub_x, V3.sub_y, V3.sub_z, ex, ey, ez]
      exact torus_distance (c := 0) (s := 0) hR hr (by linarith) (by linarith) hu1' (by linarith) hu2' (by linarith) (Real.cos_sq_add_sin_sq th) (Real.cos_sq_add_sin_sq ph)

/-! ## Cylinder -/

theorem inArc_ordered {l0 l1 x : ℝ} (h : l0 < l1) (h2 : l1 ≤ l0 + 2 * Real.pi) : InArc x l0 l1 ↔ ∃ y, l0 ≤ y ∧ y ≤ l1 ∧ SameAngle x y := by
  constructor
  · rintro ⟨len, p0, p1, ⟨k, hk⟩, t, t0, t1, ht⟩
    have hpp := Real.pi_pos
    have hk0 : k = 0 := by
      have a1 : (k : ℝ) < 1 := by
        by_contra hc; push Not at hc; nlinarith
      have a2 : (-1 : ℝ) < k := by
        by_contra hc; push Not at hc; nlinarith
      have b1 : k < 1 := by exact_mod_cast a1
      have b2 : -1 < k := by exact_mod_cast a2
      omega
    subst hk0
    simp at hk
    exact ⟨l0 + t, by linarith, by linarith, ht⟩
  · rintro ⟨y, y0, y1, hy⟩
    exact ⟨l1 - l0, by linarith, by linarith, ⟨0, by simp⟩, y - l0, by linarith, by linarith, by simpa using hy⟩

/-- **C144** (partial: for limits in order; false otherwise, see `C144_wrapped_false`) The default drawing of a cylinder with limits in order: all vertices are on the part of the mantle which rays can hit. -/
theorem C144_cylinder_partial (m : M4) (hm : m.det ≠ 0) (l0 l1 : ℝ) (h : l0 < l1) (h2 : l1 ≤ l0 + 2 * Real.pi) (a b : ℝ)
    (ha : a ∈ (cylGrid m l0 l1 none none).coo1) (hb : b ∈ (cylGrid m l0 l1 none none).coo2) :
    OnMantle l0 l1 (mul4 m⁻¹ ((cylGrid m l0 l1 none none).pt a b)).xyz := by
  have hu : IsUnit m.det := isUnit_iff_ne_zero.2 hm
  simp only [cylGrid, npLinspace, List.mem_map, List.mem_range] at ha
  obtain ⟨i, hi, rfl⟩ := ha
  show OnMantle l0 l1 (mul4 m⁻¹ (mul4 m _)).xyz
  rw [← mul4_mul, Matrix.nonsing_inv_mul m hu, mul4_one]
  refine ⟨?_, _, rfl, rfl, (inArc_ordered h h2).2 ⟨l0 + (i : ℝ) * ((l1 - l0) / (((50 : ℕ) : ℝ) - 1)), ?_, ?_, 0, by simp⟩⟩
  · have : b = -1 ∨ b = 1 := by simpa [cylGrid] using hb
    rcases this with rfl | rfl <;> simp [H4.xyz]
  · have : (0 : ℝ) ≤ (i : ℝ) * ((l1 - l0) / (((50 : ℕ) : ℝ) - 1)) := mul_nonneg (by positivity) (div_nonneg (by linarith) (by norm_num))
    linarith
  · have hi' : (i : ℝ) ≤ 49 := by exact_mod_cast (by omega : i ≤ 49)
    have : (i : ℝ) * ((l1 - l0) / (((50 : ℕ) : ℝ) - 1)) ≤ 49 * ((l1 - l0) / (((50 : ℕ) : ℝ) - 1)) := mul_le_mul_of_nonneg_right hi' (div_nonneg (by linarith) (by norm_num))
    have e : 49 * ((l1 - l0) / (((50 : ℕ) : ℝ) - 1)) = l1 - l0 := by norm_num; ring
    linarith

/-- **C144** ... and where a ray hits the cylinder, there is a drawn face: on the line from the axis to the point that was hit, at the same height, the face is at a distance from the axis between
`cos(Δ / 2)` and 1 times the true one; `Δ` is the angle between neighbouring vertices. -/
theorem C144_cylinder_covered_partial (m : M4) (zoomz l0 l1 : ℝ) (h : l0 < l1) (h2 : l1 ≤ l0 + 2 * Real.pi) (dir pos q : H4) (phi z : ℝ)
    (hit : cylIntersect m zoomz l0 l1 dir pos = .ok (some (q, phi, z))) :
    ∃ (i : ℕ) (a b : ℝ), (cylGrid m l0 l1 none none).coo1[i]? = some a ∧ (cylGrid m l0 l1 none none).coo1[i + 1]? = some b ∧ (cylGrid m l0 l1 none none).coo2 = [-1, 1] ∧
      ∃ rho x y h : ℝ, q = mul4 m ⟨x, y, h, 1⟩ ∧ Real.cos ((l1 - l0) / 98) ≤ rho ∧ rho ≤ 1 ∧
        InHull4 ((cylGrid m l0 l1 none none).pt a (-1)) ((cylGrid m l0 l1 none none).pt a 1) ((cylGrid m l0 l1 none none).pt b 1) ((cylGrid m l0 l1 none none).pt b (-1))
          (mul4 m ⟨rho * x, rho * y, h, 1⟩) := by
  unfold cylIntersect at hit
  split at hit
  · simp at hit
  split at hit
  · simp at hit
  simp only at hit
  split at hit
  · simp at hit
  rename_i t phi' z' hl
  have hq := (Prod.mk.inj (Option.some.inj (Except.ok.inj hit))).1
  set P := (mul4 m⁻¹ pos).xyz
  set D := (mul4 m⁻¹ dir).xyz
  have hpar : D.x ^ 2 + D.y ^ 2 ≠ 0 := by
    intro h0
    rw [C11_parallel _ _ _ _ h0] at hl; simp at hl
  obtain ⟨⟨_, ⟨hz, ps, hx, hy, harc⟩, _⟩, -⟩ := (C11_local l0 l1 P D hpar).1 t phi' z' hl
  obtain ⟨y, y0, y1, k, hk⟩ := (inArc_ordered h h2).1 harc
  have cy : Real.cos ps = Real.cos y := by
    rw [hk, show y + 2 * Real.pi * k = y + k * (2 * Real.pi) by ring]; exact Real.cos_add_int_mul_two_pi _ _
  have sy : Real.sin ps = Real.sin y := by
    rw [hk, show y + 2 * Real.pi * k = y + k * (2 * Real.pi) by ring]; exact Real.sin_add_int_mul_two_pi _ _
  rw [cy] at hx
  rw [sy] at hy
  obtain ⟨i, hi, hi0, hi1⟩ := npLinspace_cell l0 l1 y 50 (by norm_num) h y0 y1
  refine ⟨i, _, _, npLinspace_get _ _ _ _ (by omega), npLinspace_get _ _ _ _ hi, rfl, ?_⟩
  set st : ℝ := (l1 - l0) / (((50 : ℕ) : ℝ) - 1) with hst
  have stv : st = (l1 - l0) / 49 := by rw [hst]; norm_num
  have pp := Real.pi_pos
  have dif : l0 + ((i + 1 : ℕ) : ℝ) * st - (l0 + i * st) = st := by push_cast; ring
  have stp : 0 < st := by rw [stv]; exact div_pos (by linarith) (by norm_num)
  obtain ⟨s, rho, s0, s1, hr, hr', sc, ss⟩ := chord hi0 hi1 (by linarith) (by rw [dif, stv, div_lt_iff₀ (by norm_num)]; linarith)
  rw [dif, stv, show (l1 - l0) / 49 / 2 = (l1 - l0) / 98 by ring] at hr
  set Q := P + t • D
  refine ⟨rho, Q.x, Q.y, Q.z, hq.symm, hr, hr', ?_⟩
  have z1 := (abs_le.1 hz).1
  have z2 := (abs_le.1 hz).2
  set u := (1 + Q.z) / 2 with hu
  have u0 : 0 ≤ u := by rw [hu]; linarith
  have u1 : u ≤ 1 := by rw [hu]; linarith
  refine ⟨(1 - s) * (1 - u), (1 - s) * u, s * u, s * (1 - u), mul_nonneg (by linarith) (by linarith), mul_nonneg (by linarith) u0, mul_nonneg s0 u0, mul_nonneg s0 (by linarith), by ring, ?_⟩
  rw [hx, hy, ← sc, ← ss]
  have eQ : Q.z = 2 * u - 1 := by rw [hu]; ring
  rw [eQ]
  ext <;> simp [cylGrid, mul4] <;> ring

/-- **C144** With given coordinates, the points are on the mantle at the given angles and heights (in mm): inside of the limits and of the cylinder, they are points that rays can hit. -/
theorem C144_cylinder_given (m : M4) (hm : m.det ≠ 0) (l0 l1 : ℝ) (ph zs : List ℝ) (hz : 0 < (decompose44 m).z 2)
    (h1 : ∀ a ∈ ph, InArc a l0 l1) (h2 : ∀ z ∈ zs, |z| ≤ (decompose44 m).z 2) :
    (cylGrid m l0 l1 (some ph) (some zs)).coo1 = ph ∧
    (∀ (j : ℕ) z, zs[j]? = some z → ∃ b, (cylGrid m l0 l1 (some ph) (some zs)).coo2[j]? = some b ∧ b * (decompose44 m).z 2 = z) ∧
    ∀ a ∈ (cylGrid m l0 l1 (some ph) (some zs)).coo1, ∀ b ∈ (cylGrid m l0 l1 (some ph) (some zs)).coo2,
      mul4 m⁻¹ ((cylGrid m l0 l1 (some ph) (some zs)).pt a b) = ⟨Real.cos a, Real.sin a, b, 1⟩ ∧
      OnMantle l0 l1 (mul4 m⁻¹ ((cylGrid m l0 l1 (some ph) (some zs)).pt a b)).xyz := by
  have hu : IsUnit m.det := isUnit_iff_ne_zero.2 hm
  refine ⟨rfl, ?_, ?_⟩
  · intro j z hj
    refine ⟨z / (decompose44 m).z 2, ?_, by field_simp⟩
    show (zs.map _)[j]? = _
    rw [List.getElem?_map, hj]; rfl
  · intro a ha b hb
    have hb' : b ∈ zs.map fun x => x / (decompose44 m).z 2 := hb
    rw [List.mem_map] at hb'
    obtain ⟨z, hzz, rfl⟩ := hb'
    constructor
    · show mul4 m⁻¹ (mul4 m _) = _
      rw [← mul4_mul, Matrix.nonsing_inv_mul m hu, mul4_one]
    · exact C11_surface m hm _ l0 l1 a z hz (h1 a ha) (h2 z hzz)

theorem arc_left {x : ℝ} (h : InArc x (Real.pi / 2) (-(Real.pi / 2))) : Real.cos x ≤ 0 := by
  have pp := Real.pi_pos
  obtain ⟨len, p0, p1, ⟨k, hk⟩, t, t0, t1, n, hn⟩ := h
  have hk1 : k = 1 := by
    have a1 : (k : ℝ) < 2 := by
      by_contra hc; push Not at hc; nlinarith
    have a2 : (0 : ℝ) < k := by
      by_contra hc; push Not at hc; nlinarith
    have b1 : k < 2 := by exact_mod_cast a1
    have b2 : 0 < k := by exact_mod_cast a2
    omega
  subst hk1
  push_cast at hk
  rw [hn, show Real.pi / 2 + t + 2 * Real.pi * n = (Real.pi / 2 + t) + n * (2 * Real.pi) by ring, Real.cos_add_int_mul_two_pi, ← neg_nonneg, ← Real.cos_pi_sub]
  exact Real.cos_nonneg_of_mem_Icc ⟨by linarith, by linarith⟩

/-- **C144** (finding) Limits that wrap around, e.g. `phi_lim = [π/2, -π/2]` for the half-pipe that is open towards positive x: rays hit only the half with negative x (and they do hit it), but only the
other half is drawn. -/
theorem C144_wrapped_false :
    (∀ zoomz dir pos q phi z, cylIntersect 1 zoomz (Real.pi / 2) (-(Real.pi / 2)) dir pos = .ok (some (q, phi, z)) → q.x ≤ 0) ∧
    (∃ q phi z, cylIntersect 1 1 (Real.pi / 2) (-(Real.pi / 2)) ⟨-1, 0, 0, 0⟩ ⟨0, 0, 0, 1⟩ = .ok (some (q, phi, z)) ∧ q = ⟨-1, 0, 0, 1⟩) ∧
    ∀ p ∈ (cylGrid 1 (Real.pi / 2) (-(Real.pi / 2)) none none).points, 0 ≤ p.x := by
  have pp := Real.pi_pos
  refine ⟨?_, ?_, ?_⟩
  · intro zoomz dir pos q phi z hit
    unfold cylIntersect at hit
    split at hit
    · simp at hit
    split at hit
    · simp at hit
    simp only at hit
    split at hit
    · simp at hit
    rename_i t phi' z' hl
    have hq := (Prod.mk.inj (Option.some.inj (Except.ok.inj hit))).1
    have hpar : (mul4 1⁻¹ dir).xyz.x ^ 2 + (mul4 1⁻¹ dir).xyz.y ^ 2 ≠ 0 := by
      intro h0
      rw [C11_parallel _ _ _ _ h0] at hl; simp at hl
    obtain ⟨⟨_, ⟨hz, ps, hx, hy, harc⟩, _⟩, -⟩ := (C11_local _ _ _ _ hpar).1 t phi' z' hl
    rw [← hq, mul4_one]
    refine le_trans (le_of_eq hx) ?_
    exact arc_left harc
  · have hmid : InArc Real.pi (Real.pi / 2) (-(Real.pi / 2)) :=
      ⟨Real.pi, pp, by linarith, ⟨1, by push_cast; ring⟩, Real.pi / 2, by linarith, by linarith, ⟨0, by simp⟩⟩
    obtain ⟨res, hres, h1, h2⟩ := C11_global 1 (by simp) (by simp [Affine]) 1 (Real.pi / 2) (-(Real.pi / 2)) ⟨-1, 0, 0, 0⟩ ⟨0, 0, 0, 1⟩ rfl rfl (by simp)
    cases hr : res with
    | none =>
      exfalso
      refine h2 hr 1 (by norm_num) ⟨by simp, Real.pi, by simp, by simp, hmid⟩
    | some v =>
      obtain ⟨q, phi, z⟩ := v
      refine ⟨q, phi, z, by rw [hres, hr], ?_⟩
      obtain ⟨t, t0, hq, hon, -⟩ := h1 q phi z hr
      obtain ⟨hz, ps, hx, hy, harc⟩ := hon
      have : t = 1 := by
        rw [hq] at hx hy
        simp at hx hy
        have := Real.sin_sq_add_cos_sq ps
        rw [← hx, ← hy] at this
        nlinarith
      rw [hq, this]; ext <;> simp
  · intro p hp
    simp only [SurfGrid.points, cylGrid, npLinspace, List.mem_flatMap, List.mem_map, List.mem_range] at hp
    obtain ⟨a, ⟨i, hi, rfl⟩, b, -, rfl⟩ := hp
    rw [mul4_one]
    show 0 ≤ Real.cos _
    have hi' : (i : ℝ) ≤ 49 := by exact_mod_cast (by omega : i ≤ 49)
    have hi0 : (0 : ℝ) ≤ i := by positivity
    have e : (-(Real.pi / 2) - Real.pi / 2) / (((50 : ℕ) : ℝ) - 1) = -(Real.pi / 49) := by norm_num; ring
    rw [e]
    have k : (i : ℝ) * (Real.pi / 49) ≤ 49 * (Real.pi / 49) := mul_le_mul_of_nonneg_right hi' (by positivity)
    have k0 : 0 ≤ (i : ℝ) * (Real.pi / 49) := by positivity
    exact Real.cos_nonneg_of_mem_Icc ⟨by linarith, by linarith⟩

/-- **C144** (finding) Equal limits are the full circle for rays, but all that is drawn is a line. -/
theorem C144_equal_limits_false (m : M4) (hm : m.det ≠ 0) (l : ℝ) :
    (∀ q : V3, q.x ^ 2 + q.y ^ 2 = 1 → |q.z| ≤ 1 → OnMantle l l q) ∧
    ∀ p ∈ (cylGrid m l l none none).points, ∃ z, p = mul4 m ⟨Real.cos l, Real.sin l, z, 1⟩ := by
  constructor
  · intro q h1 h2
    rw [onMantle_iff]
    exact ⟨h1, h2, C12_equal_borders _ _ _ ⟨0, by simp⟩⟩
  · intro p hp
    simp only [SurfGrid.points, cylGrid, npLinspace, List.mem_flatMap, List.mem_map, List.mem_range] at hp
    obtain ⟨a, ⟨i, hi, rfl⟩, b, -, rfl⟩ := hp
    exact ⟨b, by simp⟩

/-! Non-vacuity: a torus with its default coordinates has points in all rows and is drawn; a ray in a half-pipe hits it. -/
example (t : Torus) (ha : Affine t.pos4d) : ∃ pts ind, surfaceGeometry 1 ⟨torusCoo, torusCoo, parametric t⟩ = .ok (.faces pts ind) ∧ pts.length = 3600 := by
  have hl : torusCoo.length = 60 := by simp [torusCoo, npLinspace]
  have hne : torusCoo ≠ [] := by rw [← List.length_pos_iff, hl]; norm_num
  obtain ⟨pts, ind, h, hlen, -⟩ := C144_surface 1 ⟨torusCoo, torusCoo, parametric t⟩ (fun a _ b _ => affine_w ha _) hne hne
  exact ⟨pts, ind, h, by rw [hlen]; simp [hl]⟩

example : OnTorus 2 1 ⟨3, 0, 0⟩ := ⟨1, 0, 3, by norm_num, by norm_num, by norm_num, by norm_num⟩

example : ∃ q phi z, cylIntersect 1 1 (-(Real.pi / 2)) (Real.pi / 2) ⟨1, 0, 0, 0⟩ ⟨0, 0, 0, 1⟩ = .ok (some (q, phi, z)) := by
  have pp := Real.pi_pos
  obtain ⟨res, hres, h1, h2⟩ := C11_global 1 (by simp) (by simp [Affine]) 1 (-(Real.pi / 2)) (Real.pi / 2) ⟨1, 0, 0, 0⟩ ⟨0, 0, 0, 1⟩ rfl rfl (by simp)
  cases hr : res with
  | none =>
    exfalso
    refine h2 hr 1 (by norm_num) ⟨by simp, 0, by simp, by simp, (inArc_ordered (by linarith) (by linarith)).2 ⟨0, by linarith, by linarith, 0, by simp⟩⟩
  | some v => exact ⟨v.1, v.2.1, v.2.2, by rw [hres, hr]⟩

/-! ## Scenes -/

/-- **C144** Drawing adds one shape with the color and transparency asked for at the end of the scene that is passed in and leaves the others alone; if the object can not be drawn, the error is
passed on. With `plot_object` the scene is also returned, so that it works for a new scene as well. -/
theorem C144_scene (prec : ℤ) (color : V3) (opacity : Option ℝ) (o : X3Object) (scene : Option (List X3Shape)) :
    match o.geometry prec with
    | .error e => o.draw prec (diffuseMaterial color opacity) scene = .error e ∧ o.plot prec (diffuseMaterial color opacity) scene = .error e
    | .ok g => ∃ mat, mat.diffuse = color ∧ mat.transparency = 1 - opacity.getD 1 ∧
      (∀ old, scene = some old → ∃ out, o.draw prec (diffuseMaterial color opacity) scene = .ok out ∧ inHand scene out = some (old ++ [⟨mat, g⟩])) ∧
      ∃ out, o.plot prec (diffuseMaterial color opacity) scene = .ok out ∧ inHand scene out = some (scene.getD [] ++ [⟨mat, g⟩]) := by
  cases hg : o.geometry prec with
  | error e => simp [X3Object.draw, X3Object.plot, hg]
  | ok g =>
    refine ⟨diffuseMaterial color opacity, rfl, rfl, ?_, ?_⟩
    · rintro old rfl
      exact ⟨_, by simp only [X3Object.draw, hg]; rfl, by simp [inHand]⟩
    · refine ⟨_, by simp only [X3Object.plot, X3Object.draw, hg]; rfl, ?_⟩
      cases scene <;> simp [inHand] <;> rfl

/-- **C144** (finding) The functions for surfaces, boxes and sets of triangles are documented to return the scene, "if `None`, a new scene will be created", but they return nothing: without a scene
passed in, what they draw is lost. -/
theorem C144_scene_false (prec : ℤ) (mat : X3Material) :
    (∀ g out, (X3Object.surface g).draw prec mat none = .ok out → inHand none out = none) ∧
    (∀ m h out, (X3Object.box m h).draw prec mat none = .ok out → inHand none out = none) ∧
    (∀ xyz tris, inHand none (drawTriangleSet prec mat xyz tris none) = none) ∧
    ∀ t out, (X3Object.triangulation t).draw prec mat none = .ok out → inHand none out = some out.1 := by
  refine ⟨?_, ?_, fun _ _ => rfl, ?_⟩
  · intro g out h
    simp only [X3Object.draw] at h
    split at h
    · simp at h
    · simp only [Except.ok.injEq] at h; rw [← h]; rfl
  · intro m hh out h
    simp only [X3Object.draw] at h
    split at h
    · simp at h
    · simp only [Except.ok.injEq] at h; rw [← h]; rfl
  · intro t out h
    simp only [X3Object.draw] at h
    split at h
    · simp at h
    · simp only [Except.ok.injEq] at h; rw [← h]; rfl

/-- **C144** Triangulations: the vertices are the points in meters, rounded, the index lists the corners of the triangles one after the other. -/
theorem C144_triangles (prec : ℤ) (xyz : List V3) (tris : List Tri) :
    ∃ pts ind, (X3Object.triangulation (.ok (xyz, tris))).geometry prec = .ok (.triangles pts ind) ∧ List.Forall₂ (ShownAt prec) xyz pts ∧ ind.length = 3 * tris.length ∧
      ∀ (k : ℕ) t, tris[k]? = some t → ind[3 * k]? = some t.1 ∧ ind[3 * k + 1]? = some t.2.1 ∧ ind[3 * k + 2]? = some t.2.2 := by
  refine ⟨_, _, rfl, ?_, ?_, ?_⟩
  · induction xyz with
    | nil => exact List.Forall₂.nil
    | cons p t ih => exact List.Forall₂.cons ⟨roundTo_close _ _, roundTo_close _ _, roundTo_close _ _⟩ ih
  · induction tris with
    | nil => rfl
    | cons t l ih => simp only [List.flatMap_cons, List.length_append, ih, List.length_cons, List.length_nil]; ring
  · induction tris with
    | nil => intro k t h; simp at h
    | cons t l ih =>
      intro k u hk
      cases k with
      | zero => simp at hk; subst hk; simp
      | succ k =>
        have := ih k u (by simpa using hk)
        rw [show 3 * (k + 1) = 3 * k + 1 + 1 + 1 by ring]
        simpa using this

/-! ## Mayavi -/

/-- **C144** With Mayavi, the points of surfaces are the exact ones, in the same order. A tube goes from one end of the x axis of the element to the other and has the length of the y axis as radius. -/
theorem C144_mayavi (g : SurfGrid) (hw : ∀ a ∈ g.coo1, ∀ b ∈ g.coo2, (g.pt a b).w = 1) :
    ∃ pts, mayaviSurface g = .ok pts ∧ pts.length = g.coo1.length * g.coo2.length ∧
      ∀ (i j : ℕ) a b, g.coo1[i]? = some a → g.coo2[j]? = some b → pts[i * g.coo2.length + j]? = some (g.pt a b).xyz := by
  have hp : ∀ p ∈ g.points, p.w = 1 := by
    intro p hp
    simp only [SurfGrid.points, List.mem_flatMap, List.mem_map] at hp
    obtain ⟨a, ha, b, hb, rfl⟩ := hp
    exact hw a ha b hb
  refine ⟨_, h2e_points hp, by simp [SurfGrid.points], ?_⟩
  intro i j a b hi hj
  have hg : g.points[i * g.coo2.length + j]? = some (g.pt a b) := flatMap_map_get _ _ _ _ _ _ _ hi hj
  rw [List.getElem?_map, hg]; rfl

/-- **C144** A tube goes from the point `(-1, 0, 0)` of the element to `(1, 0, 0)`; the radius is the distance of the point `(0, 1, 0)` from the center. -/
theorem C144_tube (m : M4) (ha : Affine m) (number : String → Option ℝ) :
    (mayaviCylinder m number).start = (toGlobal m ⟨-1, 0, 0⟩).xyz ∧ (mayaviCylinder m number).stop = (toGlobal m ⟨1, 0, 0⟩).xyz ∧
    (mayaviCylinder m number).radius = ((toGlobal m ⟨0, 1, 0⟩).xyz - (toGlobal m ⟨0, 0, 0⟩).xyz).norm := by
  obtain ⟨h0, h1, h2, h3⟩ := ha
  refine ⟨?_, ?_, ?_⟩
  · ext <;> simp [mayaviCylinder, toGlobal, mul4, center, vX, col, H4.xyz] <;> ring
  · ext <;> simp [mayaviCylinder, toGlobal, mul4, center, vX, col, H4.xyz] <;> ring
  · simp [mayaviCylinder, toGlobal, mul4, vY, col, H4.xyz, H4.norm, H4.dot, V3.norm, V3.dot, h1]

/-- **C144** (finding) The number of sides of the tube can not be set with the documented key `tube-sides`: it is ignored. -/
theorem C144_tube_sides_false (m : M4) (number : String → Option ℝ) (h : number "tube_sides" = none) (n : ℝ) (_hn : number "tube-sides" = some n) : (mayaviCylinder m number).sides = 20 := by
  simp [mayaviCylinder, h]

end Marxs
