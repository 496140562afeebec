import Verif.Model.Boom
import Verif.Spec.Boom
import Verif.Props.Cylinder
import Verif.Props.Placement
import Verif.Props.MissionsMore
import Verif.Props.Tolerancing

/-!
# Properties C122, C123: booms
-/

namespace Marxs
open Classical

/-! ## Lemmas -/

theorem flatMap_length_const {α β : Type} (f : α → List β) (m : ℕ) (l : List α) (hf : ∀ a ∈ l, (f a).length = m) :
    (l.flatMap f).length = l.length * m := by
  induction l with
  | nil => simp
  | cons a l ih =>
    rw [List.flatMap_cons, List.length_append, hf a (by simp), ih fun b hb => hf b (by simp [hb]), List.length_cons]
    ring

theorem flatMap_get_const {α β : Type} (f : α → List β) (m : ℕ) (l : List α) (hf : ∀ a ∈ l, (f a).length = m)
    (i k : ℕ) (hk : k < m) (a : α) (ha : l[i]? = some a) :
    (l.flatMap f)[m * i + k]? = (f a)[k]? := by
  induction l generalizing i with
  | nil => simp at ha
  | cons b l ih =>
    rw [List.flatMap_cons]
    cases i with
    | zero =>
      simp only [List.getElem?_cons_zero, Option.some.injEq] at ha
      subst ha
      rw [Nat.mul_zero, Nat.zero_add, List.getElem?_append_left (by rw [hf _ (by simp)]; exact hk)]
    | succ i =>
      simp only [List.getElem?_cons_succ] at ha
      rw [List.getElem?_append_right (by rw [hf b (by simp)]; nlinarith)]
      rw [hf b (by simp)]
      have : m * (i + 1) + k - m = m * i + k := by rw [Nat.mul_succ]; omega
      rw [this]
      exact ih (fun c hc => hf c (by simp [hc])) i ha

theorem euler_x (a : ℝ) : euler2mat a 0 0 = euX a := by
  rw [euler2mat]
  ext i j; fin_cases i <;> fin_cases j <;> simp [euX, euY, euZ, Matrix.mul_apply, Fin.sum_univ_succ]

theorem sideMat_point (d : BoomDims) (h n : ℤ) (i : ℕ) (x y z : ℝ) :
    mul4 (sideMat d h n i) ⟨x, y, z, 1⟩ =
      ⟨h * d.lLongeron + x, Real.cos (i * 2 * Real.pi / n) * y - Real.sin (i * 2 * Real.pi / n) * z,
        Real.sin (i * 2 * Real.pi / n) * y + Real.cos (i * 2 * Real.pi / n) * z, 1⟩ := by
  rw [sideMat, euler_x]
  ext <;> simp [mul4, compose, euX] <;> ring

theorem sideMat_dir (d : BoomDims) (h n : ℤ) (i : ℕ) (x y z : ℝ) :
    mul4 (sideMat d h n i) ⟨x, y, z, 0⟩ =
      ⟨x, Real.cos (i * 2 * Real.pi / n) * y - Real.sin (i * 2 * Real.pi / n) * z,
        Real.sin (i * 2 * Real.pi / n) * y + Real.cos (i * 2 * Real.pi / n) * z, 0⟩ := by
  rw [sideMat, euler_x]
  ext <;> simp [mul4, compose, euX] <;> ring

theorem sideMat_corner (d : BoomDims) (h : ℤ) (n : ℕ) (i j : ℕ) (R a0 x : ℝ) :
    mul4 (sideMat d h n i) (polyCorner R a0 n j x) = polyCorner R a0 n (j + i) (h * d.lLongeron + x) := by
  rw [polyCorner, sideMat_point, polyCorner]
  have e : a0 + 2 * Real.pi * ((j + i : ℕ) : ℝ) / n = (a0 + 2 * Real.pi * j / n) + i * 2 * Real.pi / ((n : ℤ) : ℝ) := by
    push_cast; ring
  rw [e]
  generalize a0 + 2 * Real.pi * j / n = A
  generalize (i : ℝ) * 2 * Real.pi / ((n : ℤ) : ℝ) = B
  rw [Real.cos_add, Real.sin_add]
  congr 1 <;> ring

theorem sideMat_joins (d : BoomDims) (h : ℤ) (n : ℕ) (i : ℕ) {m : M4} {R a0 x y : ℝ} {j k : ℕ}
    (hj : Joins m (polyCorner R a0 n j x) (polyCorner R a0 n k y)) :
    Joins (sideMat d h n i * m) (polyCorner R a0 n (j + i) (h * d.lLongeron + x))
      (polyCorner R a0 n (k + i) (h * d.lLongeron + y)) := by
  rcases hj with ⟨h1, h2⟩ | ⟨h1, h2⟩
  · left
    exact ⟨by rw [rodEnd, mul4_mul]; rw [rodEnd] at h1; rw [h1, sideMat_corner],
      by rw [rodEnd, mul4_mul]; rw [rodEnd] at h2; rw [h2, sideMat_corner]⟩
  · right
    exact ⟨by rw [rodEnd, mul4_mul]; rw [rodEnd] at h1; rw [h1, sideMat_corner],
      by rw [rodEnd, mul4_mul]; rw [rodEnd] at h2; rw [h2, sideMat_corner]⟩

theorem side_norm (d : BoomDims) (h n : ℤ) (i : ℕ) (v : H4) (hv : v.w = 0) :
    (mul4 (sideMat d h n i) v).norm = v.norm := by
  obtain ⟨x, y, z, w⟩ := v
  simp only at hv
  subst hv
  rw [sideMat_dir]
  have := Real.sin_sq_add_cos_sq (i * 2 * Real.pi / n)
  simp only [H4.norm, H4.dot]
  congr 1
  linear_combination (y ^ 2 + z ^ 2) * this

theorem boomWindow_length (k : BoomKind) (d : BoomDims) : (boomWindow k d).length = 4 := by
  cases k <;> rfl

/-- The rods of a boom with whole numbers of bays and sides, in the order of their numbers. -/
theorem boomPos_get (k : BoomKind) (d : BoomDims) (s n : ℤ) (m : ℕ) (hs : d.startBay = .int s) (hn : d.nBays = .int n)
    (hm : d.nSides = .int m) :
    ∃ rods, boomPos k d = .ok rods ∧ rods.length = 4 * m * (n - s).toNat ∧
      ∀ b i j, b < (n - s).toNat → i < m → j < 4 → rods[4 * (m * b + i) + j]? =
        ((boomWindow k d)[j]?).map fun p => p.map (sideMat d (s + b) m i * ·) := by
  by_cases hle : n ≤ s
  · refine ⟨[], by simp [boomPos, hs, hn, hle], ?_, ?_⟩
    · have : (n - s).toNat = 0 := by omega
      simp [this]
    · intro b i j hb; omega
  · refine ⟨(List.range (n - s).toNat).flatMap fun (h : ℕ) => (List.range (m : ℤ).toNat).flatMap fun (i : ℕ) =>
      (boomWindow k d).map fun p => p.map (sideMat d (s + h) m i * ·), by simp only [boomPos, hs, hn, hle, if_false, hm],
      ?_, ?_⟩
    · rw [flatMap_length_const _ (m * 4)]
      · rw [List.length_range]; ring
      · intro a _
        rw [flatMap_length_const _ 4]
        · simp
        · intro c _; simp [boomWindow_length]
    · intro b i j hb hi hj
      have e : 4 * (m * b + i) + j = (m * 4) * b + (4 * i + j) := by ring
      rw [e, flatMap_get_const _ (m * 4) _ _ b (4 * i + j) (by omega) b (by simp [hb])]
      · rw [flatMap_get_const _ 4 _ _ i j hj i (by simp [hi])]
        · simp
        · intro c _; simp [boomWindow_length]
      · intro a _
        rw [flatMap_length_const _ 4]
        · simp
        · intro c _; simp [boomWindow_length]

theorem euler_zxz (a : ℝ) : eulerZXZ a (-Real.pi / 6) 0 =
    !![Real.cos a, -Real.sin a, 0; Real.sqrt 3 / 2 * Real.sin a, Real.sqrt 3 / 2 * Real.cos a, 1 / 2;
      -(1 / 2 * Real.sin a), -(1 / 2 * Real.cos a), Real.sqrt 3 / 2] := by
  have e : -Real.pi / 6 = -(Real.pi / 6) := by ring
  rw [eulerZXZ, e]
  ext i j; fin_cases i <;> fin_cases j <;> simp [euX, euZ, Matrix.mul_apply, Fin.sum_univ_succ]

theorem euler_yxz (a : ℝ) : eulerYXZ a 0 0 =
    !![Real.cos a, 0, Real.sin a; 0, 1, 0; -Real.sin a, 0, Real.cos a] := by
  rw [eulerYXZ]
  ext i j; fin_cases i <;> fin_cases j <;> simp [euX, euY, euZ, Matrix.mul_apply, Fin.sum_univ_succ]

theorem s3 : Real.sqrt 3 * Real.sqrt 3 = 3 := Real.mul_self_sqrt (by norm_num)
theorem s3pos : 0 < Real.sqrt 3 := Real.sqrt_pos.2 (by norm_num)
theorem s2 : Real.sqrt 2 * Real.sqrt 2 = 2 := Real.mul_self_sqrt (by norm_num)
theorem s2pos : 0 < Real.sqrt 2 := Real.sqrt_pos.2 (by norm_num)

theorem corner3_zero (b x : ℝ) : corner3 b 0 x = ⟨x, b / Real.sqrt 3, 0, 1⟩ := by
  simp [corner3, polyCorner]

theorem corner3_one (b x : ℝ) : corner3 b 1 x = ⟨x, -(b / Real.sqrt 3 / 2), b / 2, 1⟩ := by
  have e : (0 : ℝ) + 2 * Real.pi * ((1 : ℕ) : ℝ) / ((3 : ℕ) : ℝ) = Real.pi - Real.pi / 3 := by push_cast; ring
  rw [corner3, polyCorner, e, Real.cos_pi_sub, Real.sin_pi_sub, Real.cos_pi_div_three, Real.sin_pi_div_three]
  have := s3pos.ne'
  congr 1
  · ring
  · field_simp

theorem corner4_zero (b x : ℝ) : corner4 b 0 x = ⟨x, b / 2, b / 2, 1⟩ := by
  have := s2pos.ne'
  have e : b / Real.sqrt 2 * (Real.sqrt 2 / 2) = b / 2 := by field_simp
  simp [corner4, polyCorner, e]

theorem corner4_three (b x : ℝ) : corner4 b 3 x = ⟨x, b / 2, -(b / 2), 1⟩ := by
  have := s2pos.ne'
  have e : Real.pi / 4 + 2 * Real.pi * ((3 : ℕ) : ℝ) / ((4 : ℕ) : ℝ) = 2 * Real.pi - Real.pi / 4 := by push_cast; ring
  rw [corner4, polyCorner, e, Real.cos_two_pi_sub, Real.sin_two_pi_sub, Real.cos_pi_div_four, Real.sin_pi_div_four]
  congr 1 <;> field_simp

/-! ## C122 -/

theorem mul4_face (M : M4) (a c s k t : ℝ) (P Q R X : H4) :
    mul4 M (a • (P + Q) + c • (s • X + k • (t • (P - R)))) =
      a • (mul4 M P + mul4 M Q) + c • (s • mul4 M X + k • (t • (mul4 M P - mul4 M R))) := by
  ext <;> simp [mul4] <;> ring

theorem sideMat_x (d : BoomDims) (h n : ℤ) (i : ℕ) : mul4 (sideMat d h n i) ⟨1, 0, 0, 0⟩ = ⟨1, 0, 0, 0⟩ := by
  rw [sideMat_dir]; simp

theorem side_radius (d : BoomDims) (h n : ℤ) (i : ℕ) (t : Fin 3 → ℝ) (r : M3) (z a : ℝ)
    (hr : ∀ c s : ℝ, c ^ 2 + s ^ 2 = 1 → (r 0 1 * c + r 0 2 * s) ^ 2 + (r 1 1 * c + r 1 2 * s) ^ 2 + (r 2 1 * c + r 2 2 * s) ^ 2 = 1) :
    RodRadius (sideMat d h n i * compose t r ![z, a, a]) |a| := by
  intro p
  rw [mul4_mul, side_norm _ _ _ _ _ (by simp [mul4, compose])]
  have h1 := hr (Real.cos p) (Real.sin p) (by linarith [Real.sin_sq_add_cos_sq p])
  rw [← Real.sqrt_sq_eq_abs]
  simp only [H4.norm, H4.dot]
  congr 1
  simp only [mul4, compose, Matrix.of_apply, Matrix.cons_val', Matrix.cons_val_zero, Matrix.cons_val_one, Matrix.cons_val]
  linear_combination a ^ 2 * h1

theorem zxz_radius (a c s : ℝ) (h : c ^ 2 + s ^ 2 = 1) :
    (eulerZXZ a (-Real.pi / 6) 0 0 1 * c + eulerZXZ a (-Real.pi / 6) 0 0 2 * s) ^ 2 +
      (eulerZXZ a (-Real.pi / 6) 0 1 1 * c + eulerZXZ a (-Real.pi / 6) 0 1 2 * s) ^ 2 +
      (eulerZXZ a (-Real.pi / 6) 0 2 1 * c + eulerZXZ a (-Real.pi / 6) 0 2 2 * s) ^ 2 = 1 := by
  rw [euler_zxz]
  simp
  have h33 := s3
  have := Real.sin_sq_add_cos_sq a
  linear_combination (c ^ 2 * Real.cos a ^ 2 / 4 + s ^ 2 / 4) * h33 + c ^ 2 * this + h

theorem yxz_radius (a c s : ℝ) (h : c ^ 2 + s ^ 2 = 1) :
    (eulerYXZ a 0 0 0 1 * c + eulerYXZ a 0 0 0 2 * s) ^ 2 +
      (eulerYXZ a 0 0 1 1 * c + eulerYXZ a 0 0 1 2 * s) ^ 2 +
      (eulerYXZ a 0 0 2 1 * c + eulerYXZ a 0 0 2 2 * s) ^ 2 = 1 := by
  rw [euler_yxz]
  simp
  have := Real.sin_sq_add_cos_sq a
  linear_combination s ^ 2 * this + h

theorem diag3 (d : BoomDims) (α S C e : ℝ) (hb : d.lBatten ≠ 0) (hS : Real.cos α = S) (hC : Real.sin α = C) :
    mul4 (compose ![d.lLongeron / 2, d.lBatten / 4 / Real.sqrt 3, d.lBatten / 4]
        (eulerZXZ α (-Real.pi / 6) 0) ![d.lDiag / 2, d.dDiag / 2, d.dDiag / 2]) ⟨e, 0, 0, 1⟩ =
      (1 / 2 : ℝ) • (corner3 d.lBatten 0 0 + corner3 d.lBatten 1 d.lLongeron) + (e * d.lDiag / 2) •
        (S • (⟨1, 0, 0, 0⟩ : H4) + C • ((1 / d.lBatten) • (corner3 d.lBatten 0 0 - corner3 d.lBatten 1 0))) := by
  have hd0 := s3pos.ne'
  have h33 := s3
  rw [corner3_zero, corner3_one, corner3_one, euler_zxz, hS, hC]
  ext <;> simp [mul4, compose]
  · ring
  · field_simp; linear_combination (4 * e * d.lDiag * C) * h33
  · field_simp; ring
  · norm_num

/-- **C122** Three sides: for every bay and side, the longeron is one edge of a prism over a regular triangle with sides
of length `l_batten`, the batten is a side of the triangle at the bottom of the bay, the two diagonals are
centred in the side of the bay and lie in it; all have the diameter given. There are no other rods. -/
theorem C122_three_partial (d : BoomDims) (s n : ℤ) (hs : d.startBay = .int s) (hn : d.nBays = .int n)
    (hm : d.nSides = .int 3) (hb : d.lBatten ≠ 0) :
    ∃ rods, boomPos .three d = .ok rods ∧ rods.length = 12 * (n - s).toNat ∧
      ∀ b i, b < (n - s).toNat → i < 3 → ∃ m0 m1 m2 m3,
        (rods[4 * (3 * b + i)]? = some (some m0) ∧ rods[4 * (3 * b + i) + 1]? = some (some m1) ∧
          rods[4 * (3 * b + i) + 2]? = some (some m2) ∧ rods[4 * (3 * b + i) + 3]? = some (some m3)) ∧
        (let x0 := (s + b) * d.lLongeron;
         let x1 := (s + b) * d.lLongeron + d.lLongeron;
         let A := corner3 d.lBatten i;
         let B := corner3 d.lBatten (i + 1);
         let ang := 34.03 * Real.pi / 180;
         Joins m0 (A x0) (A x1) ∧ Joins m1 (A x0) (B x0) ∧
         (∀ e, rodEnd m2 e = (1 / 2 : ℝ) • (A x0 + B x1) + (e * d.lDiag / 2) •
            (Real.sin ang • (⟨1, 0, 0, 0⟩ : H4) + Real.cos ang • ((1 / d.lBatten) • (A x0 - B x0)))) ∧
         (∀ e, rodEnd m3 e = (1 / 2 : ℝ) • (A x0 + B x1) + (e * d.lDiag / 2) •
            (-Real.sin ang • (⟨1, 0, 0, 0⟩ : H4) + Real.cos ang • ((1 / d.lBatten) • (A x0 - B x0)))) ∧
         RodRadius m0 |d.dLongeron / 2| ∧ RodRadius m1 |d.dBatten / 2| ∧
         RodRadius m2 |d.dDiag / 2| ∧ RodRadius m3 |d.dDiag / 2|) := by
  obtain ⟨rods, h1, h2, h3⟩ := boomPos_get .three d s n 3 hs hn hm
  refine ⟨rods, h1, by rw [h2], fun b i hb' hi => ?_⟩
  have g := fun j hj => h3 b i j hb' hi hj
  refine ⟨_, _, _, _, ⟨g 0 (by norm_num), g 1 (by norm_num), g 2 (by norm_num), g 3 (by norm_num)⟩, ?_⟩
  have hc : ((s + b : ℤ) : ℝ) = s + b := by push_cast; ring
  have hd0 := s3pos.ne'
  have h33 := s3
  have Asum : ∀ x, mul4 (sideMat d (s + b) (3 : ℕ) i) (corner3 d.lBatten 0 x) = corner3 d.lBatten i ((s + b) * d.lLongeron + x) := by
    intro x; rw [corner3, sideMat_corner, zero_add, hc, corner3]
  have Bsum : ∀ x, mul4 (sideMat d (s + b) (3 : ℕ) i) (corner3 d.lBatten 1 x) = corner3 d.lBatten (i + 1) ((s + b) * d.lLongeron + x) := by
    intro x; rw [corner3, sideMat_corner, add_comm 1 i, hc, corner3]
  have ang1 : (90 - 34.03) * Real.pi / 180 = Real.pi / 2 - 34.03 * Real.pi / 180 := by ring
  have ang2 : (90 + 34.03) * Real.pi / 180 = 34.03 * Real.pi / 180 + Real.pi / 2 := by ring
  have hx0 : ∀ y : ℝ, y + 0 = y := add_zero
  intro x0 x1 A B ang
  refine ⟨?_, ?_, ?_, ?_, ?_, ?_, ?_, ?_⟩
  · have h : Joins (compose ![d.lLongeron / 2, d.lBatten / Real.sqrt 3, 0] 1
        ![d.lLongeron / 2, d.dLongeron / 2, d.dLongeron / 2]) (corner3 d.lBatten 0 0) (corner3 d.lBatten 0 d.lLongeron) := by
      left
      rw [corner3_zero, corner3_zero]
      constructor <;> ext <;> simp [rodEnd, mul4, compose]
    have := sideMat_joins d (s + b) 3 i h
    rw [zero_add, hc, hx0] at this
    exact this
  · have h : Joins (compose ![0, d.lBatten / 4 / Real.sqrt 3, d.lBatten / 4] (eulerZXZ (Real.pi / 2) (-Real.pi / 6) 0)
        ![d.lBatten / 2, d.dBatten / 2, d.dBatten / 2]) (corner3 d.lBatten 0 0) (corner3 d.lBatten 1 0) := by
      right
      rw [corner3_zero, corner3_one, euler_zxz]
      constructor <;> ext <;> simp [rodEnd, mul4, compose]
      · field_simp; linear_combination (-4) * h33
      · ring
      · field_simp; linear_combination 4 * h33
      · ring
    have := sideMat_joins d (s + b) 3 i h
    rw [zero_add, add_comm 1 i, hc, hx0] at this
    exact this
  · intro e
    rw [rodEnd, mul4_mul]
    rw [show mul4 (compose _ _ _) _ = _ from diag3 d _ (Real.sin ang) (Real.cos ang) e hb
      (by rw [ang1, Real.cos_pi_div_two_sub]) (by rw [ang1, Real.sin_pi_div_two_sub]), mul4_face, Asum, Bsum, Bsum, sideMat_x, hx0]
  · intro e
    rw [rodEnd, mul4_mul]
    rw [show mul4 (compose _ _ _) _ = _ from diag3 d _ (-Real.sin ang) (Real.cos ang) e hb
      (by rw [ang2, Real.cos_add_pi_div_two]) (by rw [ang2, Real.sin_add_pi_div_two]), mul4_face, Asum, Bsum, Bsum, sideMat_x, hx0]
  · exact side_radius _ _ _ _ _ _ _ _ (by intro c s h; simp; linarith)
  · exact side_radius _ _ _ _ _ _ _ _ (zxz_radius _)
  · exact side_radius _ _ _ _ _ _ _ _ (zxz_radius _)
  · exact side_radius _ _ _ _ _ _ _ _ (zxz_radius _)

/-- Distance between neighbouring corners of the triangle. -/
theorem corner3_dist (b x : ℝ) (i : ℕ) :
    ((corner3 b i x).y - (corner3 b (i + 1) x).y) ^ 2 + ((corner3 b i x).z - (corner3 b (i + 1) x).z) ^ 2 = b ^ 2 := by
  have e : (0 : ℝ) + 2 * Real.pi * ((i + 1 : ℕ) : ℝ) / ((3 : ℕ) : ℝ) =
      (0 + 2 * Real.pi * (i : ℝ) / ((3 : ℕ) : ℝ)) + (Real.pi - Real.pi / 3) := by push_cast; ring
  simp only [corner3, polyCorner]
  rw [e]
  generalize (0 : ℝ) + 2 * Real.pi * (i : ℝ) / ((3 : ℕ) : ℝ) = A
  rw [Real.cos_add, Real.sin_add, Real.cos_pi_sub, Real.sin_pi_sub, Real.cos_pi_div_three, Real.sin_pi_div_three]
  have h3 := s3
  have hn := s3pos.ne'
  have h1 := Real.sin_sq_add_cos_sq A
  have hb : (b / Real.sqrt 3) ^ 2 * 3 = b ^ 2 := by rw [div_pow, Real.sq_sqrt (by norm_num)]; ring
  rw [← hb]
  generalize b / Real.sqrt 3 = R
  linear_combination (R ^ 2 * 3) * h1 + (R ^ 2 / 4 * (Real.sin A ^ 2 + Real.cos A ^ 2)) * h3

theorem three_diagonals (d : BoomDims) (hb : 0 < d.lBatten) (hl : 0 < d.lLongeron) (hD : 0 < d.lDiag)
    (i : ℕ) (x0 : ℝ) (m : M4) (sg : ℝ) (hsg : sg = 1 ∨ sg = -1)
    (hm : ∀ e, rodEnd m e = (1 / 2 : ℝ) • (corner3 d.lBatten i x0 + corner3 d.lBatten (i + 1) (x0 + d.lLongeron)) +
      (e * d.lDiag / 2) • ((sg * Real.sin (34.03 * Real.pi / 180)) • (⟨1, 0, 0, 0⟩ : H4) +
        Real.cos (34.03 * Real.pi / 180) • ((1 / d.lBatten) • (corner3 d.lBatten i x0 - corner3 d.lBatten (i + 1) x0)))) :
    (FaceDiagonal m (corner3 d.lBatten i) (corner3 d.lBatten (i + 1)) x0 (x0 + d.lLongeron) →
      d.lDiag * Real.sin (34.03 * Real.pi / 180) = d.lLongeron ∧ d.lDiag * Real.cos (34.03 * Real.pi / 180) = d.lBatten) ∧
    (d.lDiag * Real.sin (34.03 * Real.pi / 180) = d.lLongeron ∧ d.lDiag * Real.cos (34.03 * Real.pi / 180) = d.lBatten →
      (sg = 1 → Joins m (corner3 d.lBatten (i + 1) x0) (corner3 d.lBatten i (x0 + d.lLongeron))) ∧
      (sg = -1 → Joins m (corner3 d.lBatten i x0) (corner3 d.lBatten (i + 1) (x0 + d.lLongeron)))) := by
  have hdist := corner3_dist d.lBatten x0 i
  have hx : ∀ j x, (corner3 d.lBatten j x).x = x := fun j x => rfl
  have hw : ∀ j x, (corner3 d.lBatten j x).w = 1 := fun j x => rfl
  have hy : ∀ j x x', (corner3 d.lBatten j x).y = (corner3 d.lBatten j x').y := fun j x x' => rfl
  have hz : ∀ j x x', (corner3 d.lBatten j x).z = (corner3 d.lBatten j x').z := fun j x x' => rfl
  have hpi := Real.pi_pos
  have hS : 0 < Real.sin (34.03 * Real.pi / 180) := Real.sin_pos_of_pos_of_lt_pi (by positivity) (by linarith)
  have hC : 0 < Real.cos (34.03 * Real.pi / 180) := Real.cos_pos_of_mem_Ioo ⟨by linarith, by linarith⟩
  generalize Real.sin (34.03 * Real.pi / 180) = S at *
  generalize Real.cos (34.03 * Real.pi / 180) = C at *
  have hP := hm 1
  have hM := hm (-1)
  have px : (rodEnd m 1).x - (rodEnd m (-1)).x = sg * (d.lDiag * S) := by
    rw [hP, hM]; simp [hx]; ring
  have py : (rodEnd m 1).y - (rodEnd m (-1)).y =
      d.lDiag * C / d.lBatten * ((corner3 d.lBatten i x0).y - (corner3 d.lBatten (i + 1) x0).y) := by
    rw [hP, hM]; simp; ring
  have pz : (rodEnd m 1).z - (rodEnd m (-1)).z =
      d.lDiag * C / d.lBatten * ((corner3 d.lBatten i x0).z - (corner3 d.lBatten (i + 1) x0).z) := by
    rw [hP, hM]; simp; ring
  have hpos : 0 < d.lDiag * S := mul_pos hD hS
  have hpos' : 0 < d.lDiag * C := mul_pos hD hC
  constructor
  · rintro ⟨a, b, hj, ha, hb'⟩
    have ax : a.x = x0 := by rcases ha with rfl | rfl <;> rfl
    have bx : b.x = x0 + d.lLongeron := by rcases hb' with rfl | rfl <;> rfl
    have k1 : d.lDiag * S = d.lLongeron := by
      rcases hj with ⟨e1, e2⟩ | ⟨e1, e2⟩ <;> rw [e1, e2, ax, bx] at px <;> rcases hsg with rfl | rfl <;> linarith
    refine ⟨k1, ?_⟩
    have ays : (a.y = (corner3 d.lBatten i x0).y ∧ a.z = (corner3 d.lBatten i x0).z) ∨
        (a.y = (corner3 d.lBatten (i + 1) x0).y ∧ a.z = (corner3 d.lBatten (i + 1) x0).z) := by
      rcases ha with rfl | rfl
      · exact .inl ⟨rfl, rfl⟩
      · exact .inr ⟨rfl, rfl⟩
    have bys : (b.y = (corner3 d.lBatten i x0).y ∧ b.z = (corner3 d.lBatten i x0).z) ∨
        (b.y = (corner3 d.lBatten (i + 1) x0).y ∧ b.z = (corner3 d.lBatten (i + 1) x0).z) := by
      rcases hb' with rfl | rfl
      · exact .inl ⟨rfl, rfl⟩
      · exact .inr ⟨rfl, rfl⟩
    have sq : (d.lDiag * C) ^ 2 = ((rodEnd m 1).y - (rodEnd m (-1)).y) ^ 2 + ((rodEnd m 1).z - (rodEnd m (-1)).z) ^ 2 := by
      rw [py, pz]
      have : (d.lDiag * C) ^ 2 = (d.lDiag * C / d.lBatten) ^ 2 * d.lBatten ^ 2 := by field_simp
      rw [this, ← hdist]; ring
    have sq2 : (d.lDiag * C) ^ 2 = d.lBatten ^ 2 ∨ (d.lDiag * C) ^ 2 = 0 := by
      rw [sq, ← hdist]
      rcases hj with ⟨e1, e2⟩ | ⟨e1, e2⟩ <;> rw [e1, e2] <;> rcases ays with ⟨y1, z1⟩ | ⟨y1, z1⟩ <;>
        rcases bys with ⟨y2, z2⟩ | ⟨y2, z2⟩ <;> rw [y1, z1, y2, z2]
      · right; ring
      · left; ring
      · left; ring
      · right; ring
      · right; ring
      · left; ring
      · left; ring
      · right; ring
    rcases sq2 with h | h
    · exact (sq_eq_sq₀ hpos'.le hb.le).1 h
    · exact absurd h (by positivity)
  · rintro ⟨k1, k2⟩
    have P1 : ∀ e, rodEnd m e = (1 / 2 : ℝ) • (corner3 d.lBatten i x0 + corner3 d.lBatten (i + 1) (x0 + d.lLongeron)) +
        (e / 2) • ((sg * d.lLongeron) • (⟨1, 0, 0, 0⟩ : H4) + (corner3 d.lBatten i x0 - corner3 d.lBatten (i + 1) x0)) := by
      intro e
      rw [hm e]
      have hbn := hb.ne'
      have k3 : d.lDiag * C / d.lBatten = 1 := by rw [k2]; field_simp
      ext
      · simp [hx]; linear_combination (e / 2 * sg) * k1
      · simp; linear_combination (e / 2 * ((corner3 d.lBatten i x0).y - (corner3 d.lBatten (i + 1) x0).y)) * k3
      · simp; linear_combination (e / 2 * ((corner3 d.lBatten i x0).z - (corner3 d.lBatten (i + 1) x0).z)) * k3
      · simp [hw]
    constructor
    · rintro rfl
      refine .inl ⟨?_, ?_⟩
      · rw [P1]
        ext
        · simp [hx]; ring
        · simp; rw [hy (i + 1) (x0 + d.lLongeron) x0]; ring
        · simp; rw [hz (i + 1) (x0 + d.lLongeron) x0]; ring
        · simp [hw]; norm_num
      · rw [P1]
        ext
        · simp [hx]; ring
        · simp; rw [hy (i + 1) (x0 + d.lLongeron) x0, hy i (x0 + d.lLongeron) x0]; ring
        · simp; rw [hz (i + 1) (x0 + d.lLongeron) x0, hz i (x0 + d.lLongeron) x0]; ring
        · simp [hw]; norm_num
    · rintro rfl
      refine .inr ⟨?_, ?_⟩
      · rw [P1]
        ext
        · simp [hx]; ring
        · simp; rw [hy (i + 1) (x0 + d.lLongeron) x0]; ring
        · simp; rw [hz (i + 1) (x0 + d.lLongeron) x0]; ring
        · simp [hw]; norm_num
      · rw [P1]
        ext
        · simp [hx]; ring
        · simp; rw [hy (i + 1) (x0 + d.lLongeron) x0]; ring
        · simp; rw [hz (i + 1) (x0 + d.lLongeron) x0]; ring
        · simp [hw]; norm_num

/-- **C122** Three sides: the diagonals of a bay end at the corners of the bay exactly if `l_diag` and the (constant) angle
fit to the other two lengths. -/
theorem C122_three_fit (d : BoomDims) (s n : ℤ) (hs : d.startBay = .int s) (hn : d.nBays = .int n)
    (hm : d.nSides = .int 3) (hb : 0 < d.lBatten) (hl : 0 < d.lLongeron) (hD : 0 < d.lDiag)
    (rods : List (Option M4)) (hr : boomPos .three d = .ok rods) (b i : ℕ) (hbay : b < (n - s).toNat) (hi : i < 3)
    (m2 m3 : M4) (h2 : rods[4 * (3 * b + i) + 2]? = some (some m2)) (h3 : rods[4 * (3 * b + i) + 3]? = some (some m3)) :
    let x0 := (s + b) * d.lLongeron
    let x1 := (s + b) * d.lLongeron + d.lLongeron
    let A := corner3 d.lBatten i
    let B := corner3 d.lBatten (i + 1)
    let fits := d.lDiag * Real.sin (34.03 * Real.pi / 180) = d.lLongeron ∧
      d.lDiag * Real.cos (34.03 * Real.pi / 180) = d.lBatten
    (fits → Joins m2 (B x0) (A x1) ∧ Joins m3 (A x0) (B x1)) ∧
      (¬ fits → ¬ FaceDiagonal m2 A B x0 x1 ∧ ¬ FaceDiagonal m3 A B x0 x1) := by
  obtain ⟨rods', e1, -, h⟩ := C122_three_partial d s n hs hn hm hb.ne'
  rw [hr, Except.ok.injEq] at e1
  subst e1
  obtain ⟨_, _, m2', m3', ⟨-, -, g2, g3⟩, -, -, f2, f3, -⟩ := h b i hbay hi
  rw [h2, Option.some.injEq, Option.some.injEq] at g2
  rw [h3, Option.some.injEq, Option.some.injEq] at g3
  subst g2
  subst g3
  have k2 := three_diagonals d hb hl hD i _ m2 1 (.inl rfl) (by intro e; rw [one_mul]; exact f2 e)
  have k3 := three_diagonals d hb hl hD i _ m3 (-1) (.inr rfl) (by intro e; rw [neg_one_mul]; exact f3 e)
  exact ⟨fun hf => ⟨(k2.2 hf).1 rfl, (k3.2 hf).2 rfl⟩, fun hf => ⟨fun h => hf (k2.1 h), fun h => hf (k3.1 h)⟩⟩

/-- **C122** Four sides: the longerons are the edges of a prism over a square with sides of length `l_batten`, the
battens are the sides of the square at the bottom of each bay. If the lengths fit, the diagonals are the diagonals of the sides
of the bay. -/
theorem C122_four_partial (d : BoomDims) (s n : ℤ) (hs : d.startBay = .int s) (hn : d.nBays = .int n)
    (hm : d.nSides = .int 4) (hb : 0 < d.lBatten) (hl : 0 < d.lLongeron) (hD : d.lBatten ≤ d.lDiag) :
    ∃ rods, boomPos .four d = .ok rods ∧ rods.length = 16 * (n - s).toNat ∧
      ∀ b i, b < (n - s).toNat → i < 4 → ∃ m0 m1 m2 m3,
        (rods[4 * (4 * b + i)]? = some (some m0) ∧ rods[4 * (4 * b + i) + 1]? = some (some m1) ∧
          rods[4 * (4 * b + i) + 2]? = some (some m2) ∧ rods[4 * (4 * b + i) + 3]? = some (some m3)) ∧
        (let x0 := (s + b) * d.lLongeron;
         let x1 := (s + b) * d.lLongeron + d.lLongeron;
         let A := corner4 d.lBatten i;
         let B := corner4 d.lBatten (i + 3);
         Joins m0 (A x0) (A x1) ∧ Joins m1 (A x0) (B x0) ∧
         (d.lDiag ^ 2 = d.lLongeron ^ 2 + d.lBatten ^ 2 → Joins m2 (A x0) (B x1) ∧ Joins m3 (B x0) (A x1)) ∧
         (d.lDiag ^ 2 ≠ d.lLongeron ^ 2 + d.lBatten ^ 2 → ¬ FaceDiagonal m2 A B x0 x1 ∧ ¬ FaceDiagonal m3 A B x0 x1) ∧
         RodRadius m0 |d.dLongeron / 2| ∧ RodRadius m1 |d.dBatten / 2| ∧
         RodRadius m2 |d.dDiag / 2| ∧ RodRadius m3 |d.dDiag / 2|) := by
  obtain ⟨rods, h1, h2, h3⟩ := boomPos_get .four d s n 4 hs hn hm
  refine ⟨rods, h1, by rw [h2], fun b i hb' hi => ?_⟩
  have hDp : 0 < d.lDiag := lt_of_lt_of_le hb hD
  have hle : |d.lBatten / d.lDiag| ≤ 1 := by
    rw [abs_of_pos (by positivity)]; exact (div_le_one hDp).2 hD
  have g := fun j hj => h3 b i j hb' hi hj
  simp only [boomWindow, fourWindow, npArcsin, hle, if_true, Option.map_some] at g
  refine ⟨_, _, _, _, ⟨g 0 (by norm_num), g 1 (by norm_num), g 2 (by norm_num), g 3 (by norm_num)⟩, ?_⟩
  have hc : ((s + b : ℤ) : ℝ) = s + b := by push_cast; ring
  have hx0 : ∀ y : ℝ, y + 0 = y := add_zero
  have hsin : Real.sin (Real.arcsin (d.lBatten / d.lDiag)) = d.lBatten / d.lDiag :=
    Real.sin_arcsin (by linarith [(abs_le.1 hle).1]) (abs_le.1 hle).2
  have hcos : 0 ≤ Real.cos (Real.arcsin (d.lBatten / d.lDiag)) := Real.cos_arcsin_nonneg _
  have hone := Real.sin_sq_add_cos_sq (Real.arcsin (d.lBatten / d.lDiag))
  generalize Real.arcsin (d.lBatten / d.lDiag) = a at *
  have hyp : (d.lDiag * Real.cos a) ^ 2 = d.lDiag ^ 2 - d.lBatten ^ 2 := by
    have : d.lDiag * Real.sin a = d.lBatten := by rw [hsin]; field_simp
    rw [← this]; linear_combination d.lDiag ^ 2 * hone
  have E : ∀ (sg e : ℝ), mul4 (compose ![d.lLongeron / 2, d.lBatten / 2, 0] (eulerYXZ (sg * a) 0 0)
      ![d.lDiag / 2, d.dDiag / 2, d.dDiag / 2]) ⟨e, 0, 0, 1⟩ =
      ⟨d.lLongeron / 2 + e * (d.lDiag * Real.cos (sg * a)) / 2, d.lBatten / 2, -(e * (d.lDiag * Real.sin (sg * a)) / 2), 1⟩ := by
    intro sg e
    rw [euler_yxz]
    ext <;> simp [mul4, compose] <;> ring
  have notdiag : ∀ sg : ℝ, (sg = 1 ∨ sg = -1) → d.lDiag ^ 2 ≠ d.lLongeron ^ 2 + d.lBatten ^ 2 →
      ¬ FaceDiagonal (sideMat d (s + b) (4 : ℕ) i * compose ![d.lLongeron / 2, d.lBatten / 2, 0] (eulerYXZ (sg * a) 0 0)
        ![d.lDiag / 2, d.dDiag / 2, d.dDiag / 2]) (corner4 d.lBatten i) (corner4 d.lBatten (i + 3))
        ((s + b) * d.lLongeron) ((s + b) * d.lLongeron + d.lLongeron) := by
    rintro sg hsg hne ⟨p, q, hj, hp, hq⟩
    have px : p.x = (s + b) * d.lLongeron := by rcases hp with rfl | rfl <;> rfl
    have qx : q.x = (s + b) * d.lLongeron + d.lLongeron := by rcases hq with rfl | rfl <;> rfl
    have ex : ∀ e, (rodEnd (sideMat d (s + b) (4 : ℕ) i * compose ![d.lLongeron / 2, d.lBatten / 2, 0]
        (eulerYXZ (sg * a) 0 0) ![d.lDiag / 2, d.dDiag / 2, d.dDiag / 2]) e).x =
        (s + b) * d.lLongeron + (d.lLongeron / 2 + e * (d.lDiag * Real.cos a) / 2) := by
      intro e
      have hcs : Real.cos (sg * a) = Real.cos a := by rcases hsg with rfl | rfl <;> simp
      rw [rodEnd, mul4_mul, E, sideMat_point, hcs]
      simp only [hc]
    apply hne
    have h1 := ex 1
    have h2 := ex (-1)
    have : (d.lDiag * Real.cos a) ^ 2 = d.lLongeron ^ 2 := by
      rcases hj with ⟨e1, e2⟩ | ⟨e1, e2⟩
      · rw [e2, qx] at h1
        have : d.lDiag * Real.cos a = d.lLongeron := by linarith
        rw [this]
      · rw [e2, px] at h1
        have : d.lDiag * Real.cos a = -d.lLongeron := by linarith
        rw [this]; ring
    linarith
  have hcosl : d.lDiag ^ 2 = d.lLongeron ^ 2 + d.lBatten ^ 2 → d.lDiag * Real.cos a = d.lLongeron := by
    intro h
    apply (sq_eq_sq₀ (by positivity) hl.le).1
    rw [hyp, h]; ring
  have hsinb : d.lDiag * Real.sin a = d.lBatten := by rw [hsin]; field_simp
  intro x0 x1 A B
  refine ⟨?_, ?_, ?_, ?_, ?_, ?_, ?_, ?_⟩
  · have h : Joins (compose ![d.lLongeron / 2, d.lBatten / 2, d.lBatten / 2] 1
        ![d.lLongeron / 2, d.dLongeron / 2, d.dLongeron / 2]) (corner4 d.lBatten 0 0) (corner4 d.lBatten 0 d.lLongeron) := by
      left
      rw [corner4_zero, corner4_zero]
      constructor <;> ext <;> simp [rodEnd, mul4, compose]
    have := sideMat_joins d (s + b) 4 i h
    rw [zero_add, hc, hx0] at this
    exact this
  · have h : Joins (compose ![0, d.lBatten / 2, 0] (eulerYXZ (Real.pi / 2) 0 0)
        ![d.lBatten / 2, d.dBatten / 2, d.dBatten / 2]) (corner4 d.lBatten 0 0) (corner4 d.lBatten 3 0) := by
      left
      rw [corner4_zero, corner4_three, euler_yxz]
      constructor <;> ext <;> simp [rodEnd, mul4, compose]
    have := sideMat_joins d (s + b) 4 i h
    rw [zero_add, add_comm 3 i, hc, hx0] at this
    exact this
  · intro hfit
    have hC := hcosl hfit
    constructor
    · have h : Joins (compose ![d.lLongeron / 2, d.lBatten / 2, 0] (eulerYXZ a 0 0)
          ![d.lDiag / 2, d.dDiag / 2, d.dDiag / 2]) (corner4 d.lBatten 0 0) (corner4 d.lBatten 3 d.lLongeron) := by
        left
        have E1 := E 1
        rw [one_mul] at E1
        rw [corner4_zero, corner4_three, rodEnd, rodEnd, E1, E1, hC, hsinb]
        constructor <;> ext <;> simp <;> ring
      have := sideMat_joins d (s + b) 4 i h
      rw [zero_add, add_comm 3 i, hc, hx0] at this
      exact this
    · have h : Joins (compose ![d.lLongeron / 2, d.lBatten / 2, 0] (eulerYXZ (-a) 0 0)
          ![d.lDiag / 2, d.dDiag / 2, d.dDiag / 2]) (corner4 d.lBatten 3 0) (corner4 d.lBatten 0 d.lLongeron) := by
        left
        have E1 := E (-1)
        rw [neg_one_mul, Real.cos_neg, Real.sin_neg] at E1
        have hs' : d.lDiag * -Real.sin a = -d.lBatten := by rw [mul_neg, hsinb]
        rw [corner4_zero, corner4_three, rodEnd, rodEnd, E1, E1, hC, hs']
        constructor <;> ext <;> simp <;> ring
      have := sideMat_joins d (s + b) 4 i h
      rw [zero_add, add_comm 3 i, hc, hx0] at this
      exact this
  · intro hne
    have n1 := notdiag 1 (.inl rfl) hne
    have n2 := notdiag (-1) (.inr rfl) hne
    rw [one_mul] at n1
    rw [neg_one_mul] at n2
    exact ⟨n1, n2⟩
  · exact side_radius _ _ _ _ _ _ _ _ (by intro c s h; simp; linarith)
  · exact side_radius _ _ _ _ _ _ _ _ (yxz_radius _)
  · exact side_radius _ _ _ _ _ _ _ _ (yxz_radius _)
  · exact side_radius _ _ _ _ _ _ _ _ (yxz_radius _)

/-! ### Dimensions given by the user -/

/-- The names that can be used in `boom_dimensions`. -/
theorem setDim_unknown (d : BoomDims) (k : String) (v : DimVal)
    (h : k ∉ ["l_longeron", "l_batten", "l_diag", "d_longeron", "d_batten", "d_diag", "start_bay", "n_bays", "n_sides"]) :
    setDim d k v = .error .attributeError := by
  simp only [List.mem_cons, List.not_mem_nil, or_false, not_or] at h
  obtain ⟨h1, h2, h3, h4, h5, h6, h7, h8, h9⟩ := h
  simp only [setDim, h1, h2, h3, h4, h5, h6, h7, h8, h9, if_false]

theorem setDim_known (d : BoomDims) (k : String) (v : DimVal)
    (h : k ∈ ["l_longeron", "l_batten", "l_diag", "d_longeron", "d_batten", "d_diag", "start_bay", "n_bays", "n_sides"]) :
    ∃ d', setDim d k v = .ok d' := by
  simp only [List.mem_cons, List.not_mem_nil, or_false] at h
  rcases h with rfl | rfl | rfl | rfl | rfl | rfl | rfl | rfl | rfl <;> exact ⟨_, rfl⟩

/-- **C122** A name that is not an attribute of the boom is refused, though not with the `ValueError` that is
written in the code: the message for it needs `self.name`, which does not exist yet. -/
theorem C122_unknown (k : BoomKind) (dims : List (String × DimVal)) (n : String) (v : DimVal) (hm : (n, v) ∈ dims)
    (h : n ∉ ["l_longeron", "l_batten", "l_diag", "d_longeron", "d_batten", "d_diag", "start_bay", "n_bays", "n_sides"]) :
    boomInit k dims = .error .attributeError := by
  have key : ∀ d, setDims dims d = .error .attributeError := by
    induction dims with
    | nil => simp at hm
    | cons a l ih =>
      intro d
      obtain ⟨k', v'⟩ := a
      rcases List.mem_cons.1 hm with e | hm
      · obtain ⟨rfl, rfl⟩ := Prod.mk.inj e
        simp only [setDims, setDim_unknown d n v h]
      · by_cases hk : k' ∈ ["l_longeron", "l_batten", "l_diag", "d_longeron", "d_batten", "d_diag", "start_bay", "n_bays", "n_sides"]
        · obtain ⟨d', e⟩ := setDim_known d k' v' hk
          simp only [setDims, e]
          exact ih hm d'
        · simp only [setDims, setDim_unknown d k' v' hk]
  simp only [boomInit, key]

theorem lastDim_cons (k : String) (v : DimVal) (l : List (String × DimVal)) (key : String) :
    lastDim ((k, v) :: l) key = if k = key then some ((lastDim l key).getD v) else lastDim l key := by
  by_cases h : k = key
  · subst h
    simp only [lastDim, List.filter_cons, BEq.rfl, if_true, List.getLast?_cons]
    cases (List.filter (fun e => e.1 == k) l).getLast? <;> simp
  · have hb : (k == key) = false := by simpa using h
    simp only [lastDim, List.filter_cons, hb, h, if_false, Bool.false_eq_true]

/-- **C122** Each value in `boom_dimensions` changes the dimension it is named after and no other one: every dimension of a new boom
has the (last) value given for its name, or that of the class. -/
theorem C122_named (dims : List (String × DimVal)) (d₀ d : BoomDims) (h : setDims dims d₀ = .ok d) :
    d.lLongeron = ((lastDim dims "l_longeron").map DimVal.val).getD d₀.lLongeron ∧
    d.lBatten = ((lastDim dims "l_batten").map DimVal.val).getD d₀.lBatten ∧
    d.lDiag = ((lastDim dims "l_diag").map DimVal.val).getD d₀.lDiag ∧
    d.dLongeron = ((lastDim dims "d_longeron").map DimVal.val).getD d₀.dLongeron ∧
    d.dBatten = ((lastDim dims "d_batten").map DimVal.val).getD d₀.dBatten ∧
    d.dDiag = ((lastDim dims "d_diag").map DimVal.val).getD d₀.dDiag ∧
    d.startBay = (lastDim dims "start_bay").getD d₀.startBay ∧
    d.nBays = (lastDim dims "n_bays").getD d₀.nBays ∧ d.nSides = (lastDim dims "n_sides").getD d₀.nSides := by
  induction dims generalizing d₀ with
  | nil =>
    simp only [setDims, Except.ok.injEq] at h
    subst h
    simp [lastDim]
  | cons e l ih =>
    obtain ⟨k, v⟩ := e
    simp only [setDims] at h
    cases h1 : setDim d₀ k v with
    | error x => simp [h1] at h
    | ok d1 =>
      simp only [h1] at h
      obtain ⟨i1, i2, i3, i4, i5, i6, i7, i8, i9⟩ := ih d1 h
      by_cases hk : k ∈ ["l_longeron", "l_batten", "l_diag", "d_longeron", "d_batten", "d_diag", "start_bay", "n_bays", "n_sides"]
      · simp only [List.mem_cons, List.not_mem_nil, or_false] at hk
        have g1 : ∀ (o : Option DimVal) (v : DimVal) (x : ℝ), ((some (o.getD v)).map DimVal.val).getD x = (o.map DimVal.val).getD v.val := by
          intro o v x; cases o <;> rfl
        have g2 : ∀ (o : Option DimVal) (v x : DimVal), (some (o.getD v)).getD x = o.getD v := by
          intro o v x; rfl
        rcases hk with rfl | rfl | rfl | rfl | rfl | rfl | rfl | rfl | rfl <;>
          · simp [setDim] at h1
            subst h1
            simp only [i1, i2, i3, i4, i5, i6, i7, i8, i9, lastDim_cons]
            simp
      · rw [setDim_unknown d₀ k v hk] at h1
        exact absurd h1 (by simp)

example : setDims [("l_diag", .float 5), ("n_bays", .int 3), ("l_diag", .int 7)] (boomDefaults .three) =
    .ok ⟨1080, 1600, 7, 10.2, 8, 2, .int 0, .int 3, .int 3⟩ := by
  simp [setDims, setDim, boomDefaults, DimVal.val]

/-- **C122** The numbers of bays and sides have to be `int`: a float, even a whole number, is a `TypeError`. -/
theorem C122_float_counts (k : BoomKind) (d : BoomDims) (x : ℝ) :
    (d.startBay = .float x → boomPos k d = .error .typeError) ∧ (d.nBays = .float x → boomPos k d = .error .typeError) ∧
    (∀ s n : ℤ, d.startBay = .int s → d.nBays = .int n → s < n → d.nSides = .float x → boomPos k d = .error .typeError) := by
  refine ⟨fun h => ?_, fun h => ?_, fun s n h1 h2 h3 h4 => ?_⟩
  · simp only [boomPos, h]
  · cases hs : d.startBay <;> simp only [boomPos, h, hs]
  · simp only [boomPos, h1, h2, h4, not_le.2 h3, if_false]

/-- **C122** Four sides: if the battens are made longer than the diagonals, the positions of all diagonals are NaN. There
is no error. -/
theorem C122_nan (d : BoomDims) (s n : ℤ) (hs : d.startBay = .int s) (hn : d.nBays = .int n)
    (hm : d.nSides = .int 4) (hD : 0 < d.lDiag) (hb : d.lDiag < d.lBatten) :
    ∃ rods, boomPos .four d = .ok rods ∧ ∀ b i, b < (n - s).toNat → i < 4 →
      rods[4 * (4 * b + i) + 2]? = some none ∧ rods[4 * (4 * b + i) + 3]? = some none := by
  obtain ⟨rods, h1, -, h3⟩ := boomPos_get .four d s n 4 hs hn hm
  have hle : ¬ |d.lBatten / d.lDiag| ≤ 1 := by
    rw [abs_of_pos (div_pos (hD.trans hb) hD), not_le]; exact (one_lt_div hD).2 hb
  refine ⟨rods, h1, fun b i hb' hi => ?_⟩
  have g := fun j hj => h3 b i j hb' hi hj
  simp only [boomWindow, fourWindow, npArcsin, hle, if_false, Option.map_none] at g
  exact ⟨g 2 (by norm_num), g 3 (by norm_num)⟩

/-- **C122** It is not true that a boom with dimensions given by the user is a truss: the length of the diagonals is not
updated with the other lengths. For a boom with four sides and shorter bays, no diagonal ends at a corner of
its bay. -/
theorem C122_stale_four_false :
    ∃ rods, boomInit .four [("l_longeron", .int 100)] = .ok rods ∧ rods.length = 128 ∧
      ∀ b i : ℕ, b < 8 → i < 4 → ∃ m2 m3, rods[4 * (4 * b + i) + 2]? = some (some m2) ∧
        rods[4 * (4 * b + i) + 3]? = some (some m3) ∧
        ¬ FaceDiagonal m2 (corner4 1308 i) (corner4 1308 (i + 3)) (b * 100) (b * 100 + 100) ∧
        ¬ FaceDiagonal m3 (corner4 1308 i) (corner4 1308 (i + 3)) (b * 100) (b * 100 + 100) := by
  have hsq : (Real.sqrt (1350.5 ^ 2 + 1308 ^ 2)) ^ 2 = 1350.5 ^ 2 + 1308 ^ 2 := Real.sq_sqrt (by norm_num)
  obtain ⟨rods, h1, h2, h3⟩ := C122_four_partial { boomDefaults .four with lLongeron := (DimVal.int 100).val } 0 8 rfl rfl rfl
    (by simp [boomDefaults]) (by simp [DimVal.val]) (by
      simp only [boomDefaults]; apply Real.le_sqrt_of_sq_le; norm_num)
  refine ⟨rods, h1, h2, fun b i hb hi => ?_⟩
  obtain ⟨m0, m1, m2, m3, ⟨-, -, g2, g3⟩, -, -, -, hn, -⟩ := h3 b i hb hi
  refine ⟨m2, m3, g2, g3, ?_⟩
  have := hn (by simp only [boomDefaults, DimVal.val]; rw [hsq]; norm_num)
  simpa [boomDefaults, DimVal.val] using this

/-- **C122** The same for three sides. -/
theorem C122_stale_three_false :
    ∃ rods, boomInit .three [("l_longeron", .int 100)] = .ok rods ∧ rods.length = 120 ∧
      ∀ b i : ℕ, b < 10 → i < 3 → ∃ m2 m3, rods[4 * (3 * b + i) + 2]? = some (some m2) ∧
        rods[4 * (3 * b + i) + 3]? = some (some m3) ∧
        ¬ FaceDiagonal m2 (corner3 1600 i) (corner3 1600 (i + 1)) (b * 100) (b * 100 + 100) ∧
        ¬ FaceDiagonal m3 (corner3 1600 i) (corner3 1600 (i + 1)) (b * 100) (b * 100 + 100) := by
  have hlt : 1600 ≤ Real.sqrt (1080 ^ 2 + 1600 ^ 2) := Real.le_sqrt_of_sq_le (by norm_num)
  set d : BoomDims := { boomDefaults .three with lLongeron := (DimVal.int 100).val } with hd
  obtain ⟨rods, h1, h2, h3⟩ := C122_three_partial d 0 10 rfl rfl rfl (by simp [hd, boomDefaults])
  refine ⟨rods, h1, h2, fun b i hb hi => ?_⟩
  obtain ⟨m0, m1, m2, m3, ⟨-, -, g2, g3⟩, -⟩ := h3 b i hb hi
  refine ⟨m2, m3, g2, g3, ?_⟩
  have := (C122_three_fit d 0 10 rfl rfl rfl (by simp [hd, boomDefaults]) (by simp [hd, DimVal.val])
    (by simp only [hd, boomDefaults]; linarith) rods h1 b i hb hi m2 m3 g2 g3).2 (by
      rintro ⟨k1, -⟩
      simp only [hd, boomDefaults, DimVal.val] at k1
      have hpi := Real.pi_pos
      have : Real.sin (Real.pi / 6) < Real.sin (34.03 * Real.pi / 180) :=
        Real.sin_lt_sin_of_lt_of_le_pi_div_two (by linarith) (by linarith) (by linarith)
      rw [Real.sin_pi_div_six] at this
      push_cast at k1
      have := mul_le_mul hlt this.le (by norm_num) (by linarith)
      linarith)
  simpa [hd, boomDefaults, DimVal.val] using this

/-- **C122** Not vacuous: with the dimensions in the code, the boom with four sides is a truss of 128 rods: all the diagonals
end at corners. -/
example : ∃ rods, boomInit .four [] = .ok rods ∧ rods.length = 128 ∧
    ∀ b i : ℕ, b < 8 → i < 4 → ∃ m2, rods[4 * (4 * b + i) + 2]? = some (some m2) ∧
      Joins m2 (corner4 1308 i (b * 1350.5)) (corner4 1308 (i + 3) (b * 1350.5 + 1350.5)) := by
  have hsq : (Real.sqrt (1350.5 ^ 2 + 1308 ^ 2)) ^ 2 = 1350.5 ^ 2 + 1308 ^ 2 := Real.sq_sqrt (by norm_num)
  obtain ⟨rods, h1, h2, h3⟩ := C122_four_partial (boomDefaults .four) 0 8 rfl rfl rfl
    (by simp [boomDefaults]) (by norm_num [boomDefaults]) (by
      simp only [boomDefaults]; apply Real.le_sqrt_of_sq_le; norm_num)
  refine ⟨rods, h1, h2, fun b i hb hi => ?_⟩
  obtain ⟨m0, m1, m2, m3, ⟨-, -, g2, g3⟩, -, -, hn, -⟩ := h3 b i hb hi
  refine ⟨m2, g2, ?_⟩
  have := (hn (by simp only [boomDefaults]; rw [hsq])).1
  simpa [boomDefaults] using this

/-- **C122** Not vacuous: a boom with three sides with fitting dimensions. -/
example : ∃ d : BoomDims, d.nSides = .int 3 ∧ 0 < d.lBatten ∧ 0 < d.lLongeron ∧ 0 < d.lDiag ∧
    d.lDiag * Real.sin (34.03 * Real.pi / 180) = d.lLongeron ∧ d.lDiag * Real.cos (34.03 * Real.pi / 180) = d.lBatten := by
  have hpi := Real.pi_pos
  exact ⟨⟨Real.sin (34.03 * Real.pi / 180), Real.cos (34.03 * Real.pi / 180), 1, 1, 1, 1, .int 0, .int 1, .int 3⟩, rfl,
    Real.cos_pos_of_mem_Ioo ⟨by linarith, by linarith⟩, Real.sin_pos_of_pos_of_lt_pi (by positivity) (by linarith),
    one_pos, one_mul _, one_mul _⟩

/-- **C122** Not vacuous: errors. -/
example : boomInit .three [("n_bays", .int 2), ("l_logneron", .int 5)] = .error .attributeError :=
  C122_unknown _ _ "l_logneron" (.int 5) (by simp) (by decide)

/-! ## C123 -/

theorem rodPlace_inv (p : RodPlace) (h : p.Ok) : p.pos4d.det ≠ 0 ∧ ∀ q : H4, mul4 p.pos4d⁻¹ q =
    ⟨(p.axes 0 0 * (q.x - q.w * p.centre 0) + p.axes 1 0 * (q.y - q.w * p.centre 1) + p.axes 2 0 * (q.z - q.w * p.centre 2)) / (p.length / 2),
     (p.axes 0 1 * (q.x - q.w * p.centre 0) + p.axes 1 1 * (q.y - q.w * p.centre 1) + p.axes 2 1 * (q.z - q.w * p.centre 2)) / (p.diameter / 2),
     (p.axes 0 2 * (q.x - q.w * p.centre 0) + p.axes 1 2 * (q.y - q.w * p.centre 1) + p.axes 2 2 * (q.z - q.w * p.centre 2)) / (p.diameter / 2),
     q.w⟩ := by
  obtain ⟨hl, hd, ho, hdet⟩ := h
  have hdet0 : p.pos4d.det ≠ 0 := by
    rw [RodPlace.pos4d, det_compose, hdet]
    simp; exact ⟨hl.ne', hd.ne'⟩
  refine ⟨hdet0, fun q => ?_⟩
  have hu : IsUnit p.pos4d.det := isUnit_iff_ne_zero.2 hdet0
  have inv2 : ∀ v, mul4 p.pos4d⁻¹ (mul4 p.pos4d v) = v := fun v => by
    rw [← mul4_mul, Matrix.nonsing_inv_mul _ hu, mul4_one]
  have ho' : p.axes * p.axes.transpose = 1 := mul_eq_one_comm.1 ho
  have e : ∀ i j, (p.axes * p.axes.transpose) i j = (1 : M3) i j := fun i j => by rw [ho']
  simp only [Matrix.mul_apply, Fin.sum_univ_three, Matrix.transpose_apply] at e
  have e00 := e 0 0
  have e11 := e 1 1
  have e22 := e 2 2
  have e01 := e 0 1
  have e02 := e 0 2
  have e12 := e 1 2
  simp at e00 e11 e22 e01 e02 e12
  have hl0 := hl.ne'
  have hd0 := hd.ne'
  conv_rhs => rw [← inv2 ⟨_, _, _, _⟩]
  congr 1
  ext
  · simp [mul4, RodPlace.pos4d, compose]
    field_simp
    linear_combination (-(q.x - q.w * p.centre 0)) * e00 - (q.y - q.w * p.centre 1) * e01 - (q.z - q.w * p.centre 2) * e02
  · simp [mul4, RodPlace.pos4d, compose]
    field_simp
    linear_combination (-(q.x - q.w * p.centre 0)) * e01 - (q.y - q.w * p.centre 1) * e11 - (q.z - q.w * p.centre 2) * e12
  · simp [mul4, RodPlace.pos4d, compose]
    field_simp
    linear_combination (-(q.x - q.w * p.centre 0)) * e02 - (q.y - q.w * p.centre 1) * e12 - (q.z - q.w * p.centre 2) * e22
  · simp [mul4, RodPlace.pos4d, compose]

theorem onMantle_full (q : V3) : OnMantle (-Real.pi) Real.pi q ↔ q.x ^ 2 + q.y ^ 2 = 1 ∧ |q.z| ≤ 1 := by
  rw [onMantle_iff]
  constructor
  · rintro ⟨h1, h2, -⟩; exact ⟨h1, h2⟩
  · rintro ⟨h1, h2⟩; exact ⟨h1, h2, C12_equal_borders _ _ _ ⟨-1, by push_cast; ring⟩⟩

/-- **C123** What a rod absorbs: photons whose ray reaches the tube. -/
theorem C123_rod (p : RodPlace) (h : p.Ok) (r : Row) (dir pos : H4) (hd : (r "dir").toH4 = some dir)
    (hp : (r "pos").toH4 = some pos) (hdw : IsDir dir) (hpw : IsPoint pos) :
    rodHit p.pos4d r = true ↔ p.TubeHit pos dir := by
  obtain ⟨hdet, hinv⟩ := rodPlace_inv p h
  obtain ⟨hl, hdi, -⟩ := h
  have onT : ∀ k : ℝ, OnMantle (-Real.pi) Real.pi (mul4 p.pos4d⁻¹ (pos + k • dir)).xyz ↔ p.OnTube (pos + k • dir) := by
    intro k
    have hw : (pos + k • dir).w = 1 := by
      have h1 : pos.w = 1 := hpw
      have h2 : dir.w = 0 := hdw
      simp [h1, h2]
    rw [onMantle_full, hinv, hw]
    simp only [H4.xyz, RodPlace.OnTube, alongAxis, one_mul]
    rw [abs_div, abs_of_pos (by positivity : 0 < p.diameter / 2), div_le_one (by positivity)]
  have par : (mul4 p.pos4d⁻¹ dir).x ^ 2 + (mul4 p.pos4d⁻¹ dir).y ^ 2 = 0 ↔
      (p.axes 0 0 * dir.x + p.axes 1 0 * dir.y + p.axes 2 0 * dir.z = 0 ∧
      p.axes 0 1 * dir.x + p.axes 1 1 * dir.y + p.axes 2 1 * dir.z = 0) := by
    have h2 : dir.w = 0 := hdw
    rw [hinv, h2]
    simp only [zero_mul, sub_zero]
    constructor
    · intro hz
      have h1 := sq_nonneg ((p.axes 0 0 * dir.x + p.axes 1 0 * dir.y + p.axes 2 0 * dir.z) / (p.length / 2))
      have h3 := sq_nonneg ((p.axes 0 1 * dir.x + p.axes 1 1 * dir.y + p.axes 2 1 * dir.z) / (p.diameter / 2))
      have k1 := pow_eq_zero_iff (two_ne_zero) |>.1 (le_antisymm (by linarith) h1)
      have k2 := pow_eq_zero_iff (two_ne_zero) |>.1 (le_antisymm (by linarith) h3)
      exact ⟨(div_eq_zero_iff.1 k1).resolve_right (by positivity), (div_eq_zero_iff.1 k2).resolve_right (by positivity)⟩
    · rintro ⟨h1, h3⟩
      rw [h1, h3]; simp
  simp only [rodHit, hd, hp]
  by_cases hpar : (mul4 p.pos4d⁻¹ dir).x ^ 2 + (mul4 p.pos4d⁻¹ dir).y ^ 2 = 0
  · have hn : cylIntersect p.pos4d ((decompose44 p.pos4d).z 2) (-Real.pi) Real.pi dir pos = .ok none := by
      have hdw' : ¬ dir.w ≠ 0 := not_not.2 hdw
      simp only [cylIntersect, hdw', if_false, hdet]
      rw [C11_parallel _ _ _ _ hpar]
    rw [hn]
    simp only [Bool.false_eq_true, false_iff, RodPlace.TubeHit, not_and]
    intro h1
    exact absurd (par.1 hpar).2 (h1 (par.1 hpar).1)
  · obtain ⟨res, e, h1, h2⟩ := C11_global p.pos4d hdet (affine_compose _ _ _) ((decompose44 p.pos4d).z 2) (-Real.pi) Real.pi dir pos
      hdw hpw hpar
    rw [e]
    cases res with
    | none =>
      simp only [Bool.false_eq_true, false_iff, RodPlace.TubeHit, not_and, not_exists]
      intro _ k hk hk'
      exact h2 rfl k hk ((onT k).2 hk')
    | some x =>
      obtain ⟨q, phi, z⟩ := x
      obtain ⟨k, hk, rfl, hon, -⟩ := h1 q phi z rfl
      simp only [true_iff]
      exact ⟨fun hh => hpar (par.2 hh), k, hk, (onT k).1 hon⟩

/-- **C123** A photon that is absorbed comes close to the rod: it passes a point between the ends of the rod at a distance of at most
`d / sqrt 2` from its axis (the radius is `d / 2`). -/
theorem C123_near_partial (p : RodPlace) (h : p.Ok) (pos dir : H4) (ht : p.TubeHit pos dir) :
    ∃ k : ℝ, 0 ≤ k ∧ |alongAxis p.centre p.axes 0 (pos + k • dir)| ≤ p.length / 2 ∧
      alongAxis p.centre p.axes 1 (pos + k • dir) ^ 2 + alongAxis p.centre p.axes 2 (pos + k • dir) ^ 2 ≤ p.diameter ^ 2 / 2 := by
  obtain ⟨-, k, hk, h1, h2⟩ := ht
  obtain ⟨hl, hd, -⟩ := h
  refine ⟨k, hk, ?_, ?_⟩
  all_goals
    generalize alongAxis p.centre p.axes 0 (pos + k • dir) = a at *
    generalize alongAxis p.centre p.axes 1 (pos + k • dir) = b at *
    generalize alongAxis p.centre p.axes 2 (pos + k • dir) = c at *
  · have : (a / (p.length / 2)) ^ 2 ≤ 1 := by nlinarith [sq_nonneg (b / (p.diameter / 2))]
    rw [sq_le_one_iff_abs_le_one, abs_div, abs_of_pos (by positivity : 0 < p.length / 2), div_le_one (by positivity)] at this
    exact this
  · have : (b / (p.diameter / 2)) ^ 2 ≤ 1 := by nlinarith [sq_nonneg (a / (p.length / 2))]
    rw [div_pow, div_le_one (by positivity)] at this
    have h3 : c ^ 2 ≤ (p.diameter / 2) ^ 2 := sq_le_sq' (by linarith [(abs_le.1 h2).1]) (abs_le.1 h2).2
    nlinarith

/-- **C123** It is not true that a photon that hits the rod is absorbed: for every rod there is a photon that flies right
through the middle of the rod, perpendicular to it, and is not absorbed. In the geometry that is used the axis of the cylinder is not the
x axis of the rod, as its description says, but the z axis. -/
theorem C123_false (p : RodPlace) (h : p.Ok) :
    ∃ pos dir : H4, IsPoint pos ∧ IsDir dir ∧ dir.norm = 1 ∧
      (p.axes 0 0 * dir.x + p.axes 1 0 * dir.y + p.axes 2 0 * dir.z = 0) ∧
      (∃ k : ℝ, 0 < k ∧ p.Inside (pos + k • dir) ∧ ∀ i, alongAxis p.centre p.axes i (pos + k • dir) = 0) ∧
      (∀ r : Row, (r "dir").toH4 = some dir → (r "pos").toH4 = some pos → rodHit p.pos4d r = false) := by
  have hok := h
  obtain ⟨hl, hd, ho, hdet⟩ := h
  have e : ∀ i j, (p.axes.transpose * p.axes) i j = (1 : M3) i j := fun i j => by rw [ho]
  simp only [Matrix.mul_apply, Fin.sum_univ_three, Matrix.transpose_apply] at e
  have e22 := e 2 2
  have e02 := e 0 2
  have e12 := e 1 2
  simp at e22 e02 e12
  set dir : H4 := ⟨p.axes 0 2, p.axes 1 2, p.axes 2 2, 0⟩ with hdir
  set pos : H4 := ⟨p.centre 0 - p.axes 0 2, p.centre 1 - p.axes 1 2, p.centre 2 - p.axes 2 2, 1⟩ with hpos
  have hz : ∀ i, alongAxis p.centre p.axes i (pos + (1 : ℝ) • dir) = 0 := by
    intro i; simp [alongAxis, hpos, hdir]
  refine ⟨pos, dir, rfl, rfl, ?_, ?_, ⟨1, one_pos, ?_, hz⟩, ?_⟩
  · simp only [H4.norm, H4.dot, hdir]
    rw [Real.sqrt_eq_one]; linarith
  · simp only [hdir]; linarith
  · rw [RodPlace.Inside, hz, hz, hz]
    exact ⟨by rw [abs_zero]; positivity, by norm_num; positivity⟩
  · intro r h1 h2
    rw [← Bool.not_eq_true, C123_rod p hok r dir pos h1 h2 rfl rfl]
    rintro ⟨hn, -⟩
    exact hn ⟨by simp only [hdir]; linarith, by simp only [hdir]; linarith⟩

/-- The rod does not look at anything but position and direction. -/
theorem rodHit_rayOnly (m : M4) : RayOnly (rodHit m) := by
  intro r s h1 h2
  simp only [rodHit, h1, h2]

theorem dirColOk_congr {r s : Row} (h : r "dir" = s "dir") : dirColOk r ↔ dirColOk s := by
  simp only [dirColOk, h]

theorem boomCall_eq (rods : List M4) (hdet : ∀ m ∈ rods, m.det ≠ 0) (t : Table) (hn : "dir" ∈ t.names ∧ "pos" ∈ t.names)
    (hp : "probability" ∈ t.names) (hr : ∀ r ∈ t.rows, dirColOk r) :
    boomCall rods t = boomProcess (rods.map rodHit) t := by
  induction rods generalizing t with
  | nil => rfl
  | cons m ms ih =>
    have h1 : ¬ ("dir" ∉ t.names ∨ "pos" ∉ t.names) := by simp [hn.1, hn.2]
    have h2 : ¬ ∃ r ∈ t.rows, ¬ dirColOk r := by push Not; exact hr
    obtain ⟨t1, e1, f1, n1, r1⟩ := rodProcess_eq (rodHit m) (rodHit_rayOnly m) t hp
    simp only [boomCall, rodCall, h1, h2, if_false, hdet m (by simp), e1, List.map_cons, boomProcess, bind, Except.bind]
    refine ih (fun m' hm' => hdet m' (by simp [hm'])) t1 ⟨n1 _ hn.1, n1 _ hn.2⟩ (n1 _ hp) ?_
    intro r hr1
    rw [r1] at hr1
    obtain ⟨r0, hr0, rfl⟩ := List.mem_map.1 hr1
    exact (dirColOk_congr (by simp [rodsOut])).2 (hr r0 hr0)

/-- **C123** A boom called on a list of photons: those whose ray reaches the tube of any rod have probability zero and are
marked in `hitrod`, nothing else changes. -/
theorem C123_boom (rods : List RodPlace) (hok : ∀ p ∈ rods, p.Ok) (hne : rods ≠ []) (t : Table)
    (hn : "dir" ∈ t.names ∧ "pos" ∈ t.names) (hp : "probability" ∈ t.names)
    (hr : ∀ r ∈ t.rows, ∃ d p, (r "dir").toH4 = some d ∧ (r "pos").toH4 = some p ∧ IsDir d ∧ IsPoint p) :
    ∃ t', boomCall (rods.map RodPlace.pos4d) t = .ok t' ∧ "hitrod" ∈ t'.names ∧ (∀ c, c ∈ t.names → c ∈ t'.names) ∧
      t'.rows = t.rows.map fun r => rodsOut ("hitrod" ∈ t.names)
        (∃ p ∈ rods, ∃ dir pos, (r "dir").toH4 = some dir ∧ (r "pos").toH4 = some pos ∧ p.TubeHit pos dir) r := by
  rw [boomCall_eq _ _ t hn hp]
  · obtain ⟨t', e, f, n, hrow⟩ := C91_boom ((rods.map RodPlace.pos4d).map rodHit) (by
      intro h hh
      obtain ⟨m, -, rfl⟩ := List.mem_map.1 hh
      exact rodHit_rayOnly m) (by simpa using hne) t hp
    refine ⟨t', e, f, n, ?_⟩
    rw [hrow]
    refine List.map_congr_left fun r hr' => ?_
    obtain ⟨d, p, h1, h2, h3, h4⟩ := hr r hr'
    have : (∃ h ∈ (rods.map RodPlace.pos4d).map rodHit, h r = true) ↔
        (∃ p ∈ rods, ∃ dir pos, (r "dir").toH4 = some dir ∧ (r "pos").toH4 = some pos ∧ p.TubeHit pos dir) := by
      simp only [List.map_map, List.mem_map, Function.comp, exists_exists_and_eq_and]
      refine exists_congr fun q => and_congr_right fun hq => ?_
      rw [C123_rod q (hok q hq) r d p h1 h2 h3 h4, h1, h2]
      simp
    rw [this]
  · intro r hr'
    obtain ⟨d, p, h1, -, h3, -⟩ := hr r hr'
    revert h1
    simp only [dirColOk]
    generalize r "dir" = v
    intro h1
    unfold Val.toH4 at h1
    split at h1
    · simp only [Option.some.injEq] at h1
      subst h1
      exact h3
    · simp at h1
  · intro m hm
    obtain ⟨p, hp', rfl⟩ := List.mem_map.1 hm
    exact (rodPlace_inv p (hok p hp')).1

/-- **C123** A boom with at least one rod refuses photons whose direction is none (last coordinate not 0), one bad photon is enough; so does one that is
squeezed to zero in some direction. -/
theorem C123_refused (m : M4) (ms : List M4) (t : Table) (hn : "dir" ∈ t.names ∧ "pos" ∈ t.names) :
    ((∃ r ∈ t.rows, ∃ d, (r "dir").toH4 = some d ∧ ¬ IsDir d) → boomCall (m :: ms) t = .error .valueError) ∧
    (m.det = 0 → boomCall (m :: ms) t = .error .valueError) := by
  have h1 : rodCall m t = .error .valueError → boomCall (m :: ms) t = .error .valueError := fun h => by simp only [boomCall, h]
  refine ⟨?_, ?_⟩
  · rintro ⟨r, hr, d, hd, hnd⟩
    refine h1 ?_
    have hbad : ∃ r ∈ t.rows, ¬ dirColOk r := by
      refine ⟨r, hr, fun hok => hnd ?_⟩
      revert hok hd
      simp only [dirColOk]
      generalize r "dir" = v
      intro hd hok
      split at hok
      · unfold Val.toH4 at hd
        split at hd
        · rename_i heq
          simp only [Option.some.injEq] at hd
          subst hd
          simp only [Val.vec.injEq, List.cons.injEq, Option.some.injEq, and_true] at heq
          show _ = _
          rw [← heq.2.2.2]; exact hok
        · cases hd
      · exact hok.elim
    unfold rodCall
    rw [if_neg (by simp [hn]), if_pos hbad]
  · intro hm
    refine h1 ?_
    unfold rodCall
    rw [if_neg (by simp [hn])]
    split
    · rfl
    · simp only [hm, if_true]

/-- A direction with last coordinate 1 is refused. -/
example : boomCall [1] ⟨["dir", "pos"], [fun _ => .vec [some 0, some 0, some (-1), some 1]]⟩ = .error .valueError :=
  (C123_refused 1 [] _ (by simp)).1 ⟨_, List.mem_cons_self, ⟨0, 0, -1, 1⟩, rfl, by simp [IsDir]⟩

/-! ### Where the rods are -/

theorem moved_pos4d (t : Fin 3 → ℝ) (r : M3) (p : RodPlace) :
    compose t r ![1, 1, 1] * p.pos4d = (p.moved t r).pos4d := by
  ext i j
  fin_cases i <;> fin_cases j <;>
    simp [compose, RodPlace.pos4d, RodPlace.moved, Matrix.mul_apply, Fin.sum_univ_succ] <;> ring

theorem moved_ok (t : Fin 3 → ℝ) {r : M3} (hr : IsRotation r) {p : RodPlace} (h : p.Ok) : (p.moved t r).Ok :=
  ⟨h.1, h.2.1, isRotation_mul hr h.2.2⟩

/-- **C123** The positions of the rods are those of round rods with length and diameter as given (if the battens are
not longer than the diagonals). -/
theorem C123_rods (k : BoomKind) (d : BoomDims) (s n m : ℤ) (hs : d.startBay = .int s) (hn : d.nBays = .int n)
    (hm : d.nSides = .int m) (hlen : 0 < d.lLongeron ∧ 0 < d.lBatten ∧ 0 < d.lDiag)
    (hdia : 0 < d.dLongeron ∧ 0 < d.dBatten ∧ 0 < d.dDiag) (hfit : d.lBatten ≤ d.lDiag) :
    ∃ ps : List RodPlace, boomPos k d = .ok (ps.map fun p => some p.pos4d) ∧
      ∀ p ∈ ps, p.Ok ∧ ((p.length, p.diameter) = (d.lLongeron, d.dLongeron) ∨
        (p.length, p.diameter) = (d.lBatten, d.dBatten) ∨ (p.length, p.diameter) = (d.lDiag, d.dDiag)) := by
  obtain ⟨l1, l2, l3⟩ := hlen
  obtain ⟨d1, d2, d3⟩ := hdia
  have hle : |d.lBatten / d.lDiag| ≤ 1 := by
    rw [abs_of_pos (by positivity)]; exact (div_le_one l3).2 hfit
  have hzx : ∀ a b c, IsRotation (eulerZXZ a b c) := fun a b c =>
    isRotation_mul (euZ_rotation c) (isRotation_mul (euX_rotation b) (euZ_rotation a))
  have hyx : ∀ a b c, IsRotation (eulerYXZ a b c) := fun a b c =>
    isRotation_mul (euZ_rotation c) (isRotation_mul (euX_rotation b) (euY_rotation a))
  have hwin : ∃ w : List RodPlace, boomWindow k d = w.map (fun p => some p.pos4d) ∧
      ∀ p ∈ w, p.Ok ∧ ((p.length, p.diameter) = (d.lLongeron, d.dLongeron) ∨
        (p.length, p.diameter) = (d.lBatten, d.dBatten) ∨ (p.length, p.diameter) = (d.lDiag, d.dDiag)) := by
    cases k
    · refine ⟨[⟨![d.lLongeron / 2, d.lBatten / Real.sqrt 3, 0], 1, d.lLongeron, d.dLongeron⟩,
        ⟨![0, d.lBatten / 4 / Real.sqrt 3, d.lBatten / 4], eulerZXZ (Real.pi / 2) (-Real.pi / 6) 0, d.lBatten, d.dBatten⟩,
        ⟨![d.lLongeron / 2, d.lBatten / 4 / Real.sqrt 3, d.lBatten / 4], eulerZXZ ((90 - 34.03) * Real.pi / 180) (-Real.pi / 6) 0, d.lDiag, d.dDiag⟩,
        ⟨![d.lLongeron / 2, d.lBatten / 4 / Real.sqrt 3, d.lBatten / 4], eulerZXZ ((90 + 34.03) * Real.pi / 180) (-Real.pi / 6) 0, d.lDiag, d.dDiag⟩],
        rfl, ?_⟩
      intro p hp
      simp only [List.mem_cons, List.not_mem_nil, or_false] at hp
      rcases hp with rfl | rfl | rfl | rfl
      · exact ⟨⟨l1, d1, isRotation_one⟩, .inl rfl⟩
      · exact ⟨⟨l2, d2, hzx _ _ _⟩, .inr (.inl rfl)⟩
      · exact ⟨⟨l3, d3, hzx _ _ _⟩, .inr (.inr rfl)⟩
      · exact ⟨⟨l3, d3, hzx _ _ _⟩, .inr (.inr rfl)⟩
    · refine ⟨[⟨![d.lLongeron / 2, d.lBatten / 2, d.lBatten / 2], 1, d.lLongeron, d.dLongeron⟩,
        ⟨![0, d.lBatten / 2, 0], eulerYXZ (Real.pi / 2) 0 0, d.lBatten, d.dBatten⟩,
        ⟨![d.lLongeron / 2, d.lBatten / 2, 0], eulerYXZ (Real.arcsin (d.lBatten / d.lDiag)) 0 0, d.lDiag, d.dDiag⟩,
        ⟨![d.lLongeron / 2, d.lBatten / 2, 0], eulerYXZ (-Real.arcsin (d.lBatten / d.lDiag)) 0 0, d.lDiag, d.dDiag⟩],
        by simp only [boomWindow, fourWindow, npArcsin, hle, if_true, Option.map_some]; rfl, ?_⟩
      intro p hp
      simp only [List.mem_cons, List.not_mem_nil, or_false] at hp
      rcases hp with rfl | rfl | rfl | rfl
      · exact ⟨⟨l1, d1, isRotation_one⟩, .inl rfl⟩
      · exact ⟨⟨l2, d2, hyx _ _ _⟩, .inr (.inl rfl)⟩
      · exact ⟨⟨l3, d3, hyx _ _ _⟩, .inr (.inr rfl)⟩
      · exact ⟨⟨l3, d3, hyx _ _ _⟩, .inr (.inr rfl)⟩
  obtain ⟨w, hw, hwok⟩ := hwin
  by_cases hns : n ≤ s
  · exact ⟨[], by simp [boomPos, hs, hn, hns], by simp⟩
  · refine ⟨(List.range (n - s).toNat).flatMap fun (h : ℕ) => (List.range m.toNat).flatMap fun (i : ℕ) =>
      w.map (RodPlace.moved ![((s + h : ℤ) : ℝ) * d.lLongeron, 0, 0] (euler2mat ((i * 2) * Real.pi / m) 0 0)), ?_, ?_⟩
    · simp only [boomPos, hs, hn, hns, if_false, hm, List.map_flatMap, List.map_map, hw]
      congr 1
      refine List.flatMap_congr fun h _ => List.flatMap_congr fun i _ => List.map_congr_left fun p _ => ?_
      simp only [Function.comp, Option.map_some, sideMat, moved_pos4d]
    · intro p hp
      simp only [List.mem_flatMap, List.mem_map] at hp
      obtain ⟨h, -, i, -, q, hq, rfl⟩ := hp
      exact ⟨moved_ok _ (isRotation_mul (euZ_rotation _) (isRotation_mul (euY_rotation _) (euX_rotation _))) (hwok q hq).1,
        (hwok q hq).2⟩

theorem genFrom_exists {dec : M4 → Decomp} {c : Par} (P : ℕ → GenElem → Prop) (i n : ℕ)
    (h : ∀ k, k < n → ∃ e, genOne dec c (i + k) = .ok e ∧ P (i + k) e) :
    ∃ es, genFrom dec c i n = .ok es ∧ es.length = n ∧ ∀ k e, es[k]? = some e → P (i + k) e := by
  induction n generalizing i with
  | zero => exact ⟨[], rfl, rfl, by simp⟩
  | succ n ih =>
    obtain ⟨e, h1, h2⟩ := h 0 (by omega)
    obtain ⟨es, h3, h4, h5⟩ := ih (i + 1) (fun k hk => by
      have := h (k + 1) (by omega)
      rwa [show i + (k + 1) = i + 1 + k by omega] at this)
    rw [add_zero] at h1 h2
    refine ⟨e :: es, by simp only [genFrom, h1, h3], by simp [h4], ?_⟩
    intro k e' hk
    cases k with
    | zero => simp at hk; subst hk; simpa using h2
    | succ k =>
      rw [List.getElem?_cons_succ] at hk
      rw [show i + (k + 1) = i + 1 + k by omega]
      exact h5 k e' hk

/-- **C123** A boom that is placed with a rotation and a shift (argument `pos4d`) consists of the same rods, rotated and
shifted, in the same order. -/
theorem C123_placed (ps : List RodPlace) (hok : ∀ p ∈ ps, p.Ok) (t : Fin 3 → ℝ) (r : M3) (hr : IsRotation r) (name : String) :
    ∃ es, generateElements decompose44 (boomPar (compose t r ![1, 1, 1]) (ps.map RodPlace.pos4d) name) = .ok es ∧
      es.map (·.pos4d) = (ps.map (RodPlace.moved t r)).map RodPlace.pos4d ∧
      ∀ p ∈ ps.map (RodPlace.moved t r), p.Ok := by
  set c := boomPar (compose t r ![1, 1, 1]) (ps.map RodPlace.pos4d) name with hc
  have hplain : c.Plain decompose44 := by
    refine ⟨fun i _ => ?_, rfl, ?_⟩
    · refine ⟨_, parse_plain _ ?_ ?_ ?_ ?_⟩ <;>
        simp [hc, boomPar, addName, specificArgs, Kwargs.get?, List.find?]
    · intro p hp
      obtain ⟨q, hq, rfl⟩ := List.mem_map.1 hp
      obtain ⟨h1, h2, h3⟩ := hok q hq
      exact ⟨_, _, _, h3, by intro k; fin_cases k <;> simp <;> assumption, rfl⟩
  obtain ⟨es, h1, h2, h3⟩ := genFrom_exists (dec := decompose44) (c := c)
    (fun k e => ∃ p, ps[k]? = some p ∧ e.pos4d = (p.moved t r).pos4d) 0 c.elemPos.length (by
      intro k hk
      rw [zero_add]
      have hk' : k < ps.length := by simpa [hc, boomPar] using hk
      obtain ⟨e, e1, e2⟩ := genOne_plain decompose44_exact hplain (i := k) (p := (ps[k]).pos4d) (by
        simp [hc, boomPar, hk'])
      refine ⟨e, e1, ps[k], by simp [hk'], ?_⟩
      rw [e2, ← moved_pos4d]
      simp [hc, boomPar])
  refine ⟨es, h1, ?_, ?_⟩
  · have hlen : es.length = ps.length := by rw [h2]; simp [hc, boomPar]
    apply List.ext_getElem?
    intro k
    by_cases hk : k < es.length
    · obtain ⟨p, p1, p2⟩ := h3 k es[k] (by simp [hk])
      rw [zero_add] at p1
      simp only [List.getElem?_map, p1, Option.map_some]
      rw [List.getElem?_eq_getElem hk]
      simp [p2]
    · simp only [List.getElem?_map]
      rw [List.getElem?_eq_none (by omega), List.getElem?_eq_none (by omega)]
      rfl
  · intro p hp
    obtain ⟨q, hq, rfl⟩ := List.mem_map.1 hp
    exact moved_ok t hr (hok q hq)

/-- **C123** Not vacuous: a rod of length 4 and diameter 2 along the x axis; a photon that comes along the y axis is
absorbed, one that comes along the z axis is not. -/
example : ∃ (p : RodPlace) (t : Table), p.Ok ∧ t.rows.length = 2 ∧ ∃ t', boomCall [p.pos4d] t = .ok t' ∧
    t'.rows.map (fun r => r "probability") = [.num (some 0), .num (some 1)] := by
  let p : RodPlace := ⟨![0, 0, 0], 1, 4, 2⟩
  let r1 : Row := fun c => if c = "pos" then .vec [some 0, some (-5), some 0, some 1] else
    if c = "dir" then .vec [some 0, some 1, some 0, some 0] else .num (some 1)
  let r2 : Row := fun c => if c = "pos" then .vec [some 0, some 0, some (-5), some 1] else
    if c = "dir" then .vec [some 0, some 0, some 1, some 0] else .num (some 1)
  have hok : p.Ok := ⟨by norm_num [p], by norm_num [p], isRotation_one⟩
  obtain ⟨t', h1, -, -, h2⟩ := C123_boom [p] (by simpa using hok) (by simp) ⟨["pos", "dir", "probability"], [r1, r2]⟩ (by simp) (by simp) (by
    intro r hr
    simp only [List.mem_cons, List.not_mem_nil, or_false] at hr
    rcases hr with rfl | rfl
    · exact ⟨⟨0, 1, 0, 0⟩, ⟨0, -5, 0, 1⟩, rfl, rfl, rfl, rfl⟩
    · exact ⟨⟨0, 0, 1, 0⟩, ⟨0, 0, -5, 1⟩, rfl, rfl, rfl, rfl⟩)
  refine ⟨p, _, hok, rfl, t', h1, ?_⟩
  rw [h2]
  have a1 : ∃ q ∈ [p], ∃ dir pos, (r1 "dir").toH4 = some dir ∧ (r1 "pos").toH4 = some pos ∧ q.TubeHit pos dir := by
    refine ⟨p, by simp, ⟨0, 1, 0, 0⟩, ⟨0, -5, 0, 1⟩, rfl, rfl, ?_, 4, by norm_num, ?_⟩
    · rintro ⟨-, h⟩; simp [p] at h
    · constructor <;> simp [p, alongAxis] ; norm_num
  have a2 : ¬ ∃ q ∈ [p], ∃ dir pos, (r2 "dir").toH4 = some dir ∧ (r2 "pos").toH4 = some pos ∧ q.TubeHit pos dir := by
    rintro ⟨q, hq, dir, pos, e1, e2, hn, -⟩
    simp only [List.mem_singleton] at hq
    subst hq
    have : dir = ⟨0, 0, 1, 0⟩ := by simpa [r2, Val.toH4] using e1.symm
    subst this
    apply hn
    simp [p]
  simp only [List.map_cons, List.map_nil, rodsOut, if_true, a1, a2, if_false]
  rfl

end Marxs
