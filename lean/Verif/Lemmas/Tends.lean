import Mathlib.Topology.Algebra.GroupWithZero
import Mathlib.Topology.Order.LiminfLimsup
import Mathlib.Analysis.Real.Sqrt
import Mathlib.Analysis.SpecialFunctions.Trigonometric.Basic
import Verif.Spec.SmallMoves

/-!
# Limits of vectors
-/

namespace Marxs

open Filter Topology

variable {ι : Type} {F : Filter ι}

/-- three-dimensional version of `H4.Tends` -/
def V3.Tends (F : Filter ι) (f : ι → V3) (a : V3) : Prop :=
  Tendsto (fun i => (f i).x) F (𝓝 a.x) ∧ Tendsto (fun i => (f i).y) F (𝓝 a.y) ∧ Tendsto (fun i => (f i).z) F (𝓝 a.z)

namespace V3.Tends

variable {f g : ι → V3} {a b : V3} {c : ι → ℝ} {e : ℝ}

theorem const (a : V3) : V3.Tends F (fun _ => a) a := ⟨tendsto_const_nhds, tendsto_const_nhds, tendsto_const_nhds⟩

theorem add (hf : V3.Tends F f a) (hg : V3.Tends F g b) : V3.Tends F (fun i => f i + g i) (a + b) :=
  ⟨hf.1.add hg.1, hf.2.1.add hg.2.1, hf.2.2.add hg.2.2⟩

theorem sub (hf : V3.Tends F f a) (hg : V3.Tends F g b) : V3.Tends F (fun i => f i - g i) (a - b) :=
  ⟨hf.1.sub hg.1, hf.2.1.sub hg.2.1, hf.2.2.sub hg.2.2⟩

theorem smul (hc : Tendsto c F (𝓝 e)) (hf : V3.Tends F f a) : V3.Tends F (fun i => c i • f i) (e • a) :=
  ⟨hc.mul hf.1, hc.mul hf.2.1, hc.mul hf.2.2⟩

theorem dot (hf : V3.Tends F f a) (hg : V3.Tends F g b) : Tendsto (fun i => (f i).dot (g i)) F (𝓝 (a.dot b)) :=
  ((hf.1.mul hg.1).add (hf.2.1.mul hg.2.1)).add (hf.2.2.mul hg.2.2)

theorem cross (hf : V3.Tends F f a) (hg : V3.Tends F g b) : V3.Tends F (fun i => (f i).cross (g i)) (a.cross b) :=
  ⟨(hf.2.1.mul hg.2.2).sub (hf.2.2.mul hg.2.1), (hf.2.2.mul hg.1).sub (hf.1.mul hg.2.2),
   (hf.1.mul hg.2.1).sub (hf.2.1.mul hg.1)⟩

theorem norm (hf : V3.Tends F f a) : Tendsto (fun i => (f i).norm) F (𝓝 a.norm) :=
  (Real.continuous_sqrt.tendsto _).comp (hf.dot hf)

theorem unit (hf : V3.Tends F f a) (h : a ≠ 0) : V3.Tends F (fun i => (f i).unit) a.unit :=
  smul (tendsto_const_nhds.div hf.norm (V3.norm_pos h).ne') hf

theorem toDir (hf : V3.Tends F f a) : H4.Tends F (fun i => (f i).toDir) a.toDir :=
  ⟨hf.1, hf.2.1, hf.2.2, tendsto_const_nhds⟩

theorem ne (hf : V3.Tends F f a) (h : a ≠ b) : ∀ᶠ i in F, f i ≠ b := by
  have h3 : a.x ≠ b.x ∨ a.y ≠ b.y ∨ a.z ≠ b.z := by
    by_contra k
    push Not at k
    exact h (V3.ext k.1 k.2.1 k.2.2)
  rcases h3 with h | h | h
  · filter_upwards [hf.1.eventually_ne h] with i hi k using hi (by rw [k])
  · filter_upwards [hf.2.1.eventually_ne h] with i hi k using hi (by rw [k])
  · filter_upwards [hf.2.2.eventually_ne h] with i hi k using hi (by rw [k])

theorem congr (hf : V3.Tends F f a) (h : ∀ᶠ i in F, f i = g i) : V3.Tends F g a :=
  ⟨hf.1.congr' (h.mono fun i k => by rw [k]), hf.2.1.congr' (h.mono fun i k => by rw [k]),
   hf.2.2.congr' (h.mono fun i k => by rw [k])⟩

end V3.Tends

namespace H4.Tends

variable {f g : ι → H4} {a b : H4} {c : ι → ℝ} {e : ℝ}

theorem add (hf : H4.Tends F f a) (hg : H4.Tends F g b) : H4.Tends F (fun i => f i + g i) (a + b) :=
  ⟨hf.1.add hg.1, hf.2.1.add hg.2.1, hf.2.2.1.add hg.2.2.1, hf.2.2.2.add hg.2.2.2⟩

theorem sub (hf : H4.Tends F f a) (hg : H4.Tends F g b) : H4.Tends F (fun i => f i - g i) (a - b) :=
  ⟨hf.1.sub hg.1, hf.2.1.sub hg.2.1, hf.2.2.1.sub hg.2.2.1, hf.2.2.2.sub hg.2.2.2⟩

theorem neg (hf : H4.Tends F f a) : H4.Tends F (fun i => -f i) (-a) :=
  ⟨hf.1.neg, hf.2.1.neg, hf.2.2.1.neg, hf.2.2.2.neg⟩

theorem smul (hc : Tendsto c F (𝓝 e)) (hf : H4.Tends F f a) : H4.Tends F (fun i => c i • f i) (e • a) :=
  ⟨hc.mul hf.1, hc.mul hf.2.1, hc.mul hf.2.2.1, hc.mul hf.2.2.2⟩

theorem dot (hf : H4.Tends F f a) (hg : H4.Tends F g b) : Tendsto (fun i => (f i).dot (g i)) F (𝓝 (a.dot b)) :=
  (((hf.1.mul hg.1).add (hf.2.1.mul hg.2.1)).add (hf.2.2.1.mul hg.2.2.1)).add (hf.2.2.2.mul hg.2.2.2)

theorem norm (hf : H4.Tends F f a) : Tendsto (fun i => (f i).norm) F (𝓝 a.norm) :=
  (Real.continuous_sqrt.tendsto _).comp (hf.dot hf)

theorem unit (hf : H4.Tends F f a) (h : a.norm ≠ 0) : H4.Tends F (fun i => (f i).unit) a.unit :=
  smul (tendsto_const_nhds.div hf.norm h) hf

theorem xyz (hf : H4.Tends F f a) : V3.Tends F (fun i => (f i).xyz) a.xyz := ⟨hf.1, hf.2.1, hf.2.2.1⟩

theorem congr (hf : H4.Tends F f a) (h : ∀ᶠ i in F, f i = g i) : H4.Tends F g a :=
  ⟨hf.1.congr' (h.mono fun i k => by rw [k]), hf.2.1.congr' (h.mono fun i k => by rw [k]),
   hf.2.2.1.congr' (h.mono fun i k => by rw [k]), hf.2.2.2.congr' (h.mono fun i k => by rw [k])⟩

end H4.Tends

variable {m : ι → M4} {m0 : M4}

theorem entry_tends {n : Type} {m : ι → Matrix n n ℝ} {m0 : Matrix n n ℝ} (hm : Tendsto m F (𝓝 m0)) (i j : n) :
    Tendsto (fun k => m k i j) F (𝓝 (m0 i j)) :=
  (tendsto_pi_nhds.1 ((tendsto_pi_nhds.1 hm) i)) j

theorem col_tends (hm : Tendsto m F (𝓝 m0)) (j : Fin 4) : H4.Tends F (fun i => col (m i) j) (col m0 j) :=
  ⟨entry_tends hm 0 j, entry_tends hm 1 j, entry_tends hm 2 j, entry_tends hm 3 j⟩

theorem norm_ne_of_xyz {a : H4} (h : a.xyz ≠ 0) : a.norm ≠ 0 := by
  intro k
  have h2 : a.dot a = 0 := by
    have h3 : 0 ≤ a.dot a := by simp only [H4.dot]; nlinarith [mul_self_nonneg a.x, mul_self_nonneg a.y, mul_self_nonneg a.z, mul_self_nonneg a.w]
    exact (Real.sqrt_eq_zero h3).1 k
  apply h
  simp only [H4.dot] at h2
  have hx : a.x * a.x = 0 := by nlinarith [mul_self_nonneg a.x, mul_self_nonneg a.y, mul_self_nonneg a.z, mul_self_nonneg a.w]
  have hy : a.y * a.y = 0 := by nlinarith [mul_self_nonneg a.x, mul_self_nonneg a.y, mul_self_nonneg a.z, mul_self_nonneg a.w]
  have hz : a.z * a.z = 0 := by nlinarith [mul_self_nonneg a.x, mul_self_nonneg a.y, mul_self_nonneg a.z, mul_self_nonneg a.w]
  exact V3.ext (mul_self_eq_zero.1 hx) (mul_self_eq_zero.1 hy) (mul_self_eq_zero.1 hz)

theorem axes_tend (hm : Tendsto m F (𝓝 m0)) (ho : OrthoAxes m0) :
    H4.Tends F (fun i => eX (m i)) (eX m0) ∧ H4.Tends F (fun i => eY (m i)) (eY m0) ∧
    H4.Tends F (fun i => eZ (m i)) (eZ m0) :=
  ⟨(col_tends hm 0).unit (norm_ne_of_xyz ho.x0), (col_tends hm 1).unit (norm_ne_of_xyz ho.y0),
   (col_tends hm 2).unit (norm_ne_of_xyz ho.z0)⟩

/-- Intersection with a flat element: nearby rays do the same. -/
theorem intersect_tends (hm : Tendsto m F (𝓝 m0)) {d p : ι → H4} {d0 p0 : H4} (hd : H4.Tends F d d0)
    (hp : H4.Tends F p p0) (ho : OrthoAxes m0) {k : ℝ} (hpar : d0.dot (eX m0) ≠ 0)
    (hk : (p0 + k • d0 - center m0).dot (eX m0) = 0)
    (hc : (0 < k ∧ |(p0 + k • d0 - center m0).dot (eY m0)| < (vY m0).norm ∧
        |(p0 + k • d0 - center m0).dot (eZ m0)| < (vZ m0).norm) ∨
      k < 0 ∨ (vY m0).norm < |(p0 + k • d0 - center m0).dot (eY m0)| ∨
      (vZ m0).norm < |(p0 + k • d0 - center m0).dot (eZ m0)|) :
    (planeIntersect m0 d0 p0 = none ∧ ∀ᶠ i in F, planeIntersect (m i) (d i) (p i) = none) ∨
    ∃ (q : ι → H4) (y z : ι → ℝ) (q0 : H4) (y0 z0 : ℝ), planeIntersect m0 d0 p0 = some (q0, y0, z0) ∧
      (∀ᶠ i in F, planeIntersect (m i) (d i) (p i) = some (q i, y i, z i)) ∧ H4.Tends F q q0 ∧
      Tendsto y F (𝓝 y0) ∧ Tendsto z F (𝓝 z0) := by
  obtain ⟨hx, hy, hz⟩ := axes_tend hm ho
  have hcen : H4.Tends F (fun i => center (m i)) (center m0) := col_tends hm 3
  have k0 : k = (center m0 - p0).dot (eX m0) / d0.dot (eX m0) := by
    rw [eq_div_iff hpar]
    simp only [H4.dot, H4.sub_x, H4.sub_y, H4.sub_z, H4.sub_w, H4.add_x, H4.add_y, H4.add_z, H4.add_w, H4.smul_x,
      H4.smul_y, H4.smul_z, H4.smul_w] at hk ⊢
    linarith
  set K : ι → ℝ := fun i => (center (m i) - p i).dot (eX (m i)) / (d i).dot (eX (m i)) with hK
  have tK : Tendsto K F (𝓝 k) := by
    rw [k0]
    exact ((hcen.sub hp).dot hx).div (hd.dot hx) hpar
  have tq : H4.Tends F (fun i => p i + K i • d i) (p0 + k • d0) := hp.add (hd.smul tK)
  have ty := ((tq.sub hcen).dot hy)
  have tz := ((tq.sub hcen).dot hz)
  have ny : Tendsto (fun i => (vY (m i)).norm) F (𝓝 (vY m0).norm) := (col_tends hm 1).norm
  have nz : Tendsto (fun i => (vZ (m i)).norm) F (𝓝 (vZ m0).norm) := (col_tends hm 2).norm
  have par : ∀ᶠ i in F, (d i).dot (eX (m i)) ≠ 0 := (hd.dot hx).eventually_ne hpar
  have e : ∀ i, (d i).dot (eX (m i)) ≠ 0 → planeIntersect (m i) (d i) (p i) =
      if 0 ≤ K i ∧ |(p i + K i • d i - center (m i)).dot (eY (m i))| ≤ (vY (m i)).norm ∧
        |(p i + K i • d i - center (m i)).dot (eZ (m i))| ≤ (vZ (m i)).norm then
        some (p i + K i • d i, (p i + K i • d i - center (m i)).dot (eY (m i)),
          (p i + K i • d i - center (m i)).dot (eZ (m i))) else none := by
    intro i hi
    simp only [planeIntersect, if_neg hi, hK]
  have e0 : planeIntersect m0 d0 p0 =
      if 0 ≤ k ∧ |(p0 + k • d0 - center m0).dot (eY m0)| ≤ (vY m0).norm ∧
        |(p0 + k • d0 - center m0).dot (eZ m0)| ≤ (vZ m0).norm then
        some (p0 + k • d0, (p0 + k • d0 - center m0).dot (eY m0), (p0 + k • d0 - center m0).dot (eZ m0)) else none := by
    simp only [planeIntersect, if_neg hpar, ← k0]
  rcases hc with ⟨c1, c2, c3⟩ | hc
  · refine Or.inr ⟨_, _, _, _, _, _, by rw [e0, if_pos ⟨c1.le, c2.le, c3.le⟩], ?_, tq, ty, tz⟩
    filter_upwards [par, tK.eventually_const_lt c1, ty.abs.eventually_lt ny c2, tz.abs.eventually_lt nz c3] with i h1 h2 h3 h4
    rw [e i h1, if_pos ⟨h2.le, h3.le, h4.le⟩]
  · refine Or.inl ⟨?_, ?_⟩
    · rw [e0, if_neg]
      rintro ⟨h1, h2, h3⟩
      rcases hc with h | h | h
      · linarith
      · linarith
      · linarith
    · have : ∀ᶠ i in F, K i < 0 ∨ (vY (m i)).norm < |(p i + K i • d i - center (m i)).dot (eY (m i))| ∨
          (vZ (m i)).norm < |(p i + K i • d i - center (m i)).dot (eZ (m i))| := by
        rcases hc with h | h | h
        · exact (tK.eventually_lt_const h).mono fun i hi => Or.inl hi
        · exact (ny.eventually_lt ty.abs h).mono fun i hi => Or.inr (Or.inl hi)
        · exact (nz.eventually_lt tz.abs h).mono fun i hi => Or.inr (Or.inr hi)
      filter_upwards [par, this] with i h1 h2
      rw [e i h1, if_neg]
      rintro ⟨h3, h4, h5⟩
      rcases h2 with h | h | h <;> linarith

theorem mul3_tends {m : ι → Matrix (Fin 3) (Fin 3) ℝ} {m0 : Matrix (Fin 3) (Fin 3) ℝ}
    (hm : ∀ a b, Tendsto (fun i => m i a b) F (𝓝 (m0 a b))) {v : ι → V3} {v0 : V3} (hv : V3.Tends F v v0) :
    V3.Tends F (fun i => mul3 (m i) (v i)) (mul3 m0 v0) :=
  ⟨(((hm 0 0).mul hv.1).add ((hm 0 1).mul hv.2.1)).add ((hm 0 2).mul hv.2.2),
   (((hm 1 0).mul hv.1).add ((hm 1 1).mul hv.2.1)).add ((hm 1 2).mul hv.2.2),
   (((hm 2 0).mul hv.1).add ((hm 2 1).mul hv.2.1)).add ((hm 2 2).mul hv.2.2)⟩

theorem mul4_tends (hm : Tendsto m F (𝓝 m0)) {v : ι → H4} {v0 : H4} (hv : H4.Tends F v v0) :
    H4.Tends F (fun i => mul4 (m i) (v i)) (mul4 m0 v0) := by
  have e := fun a b => entry_tends hm a b
  obtain ⟨h1, h2, h3, h4⟩ := hv
  exact ⟨((((e 0 0).mul h1).add ((e 0 1).mul h2)).add ((e 0 2).mul h3)).add ((e 0 3).mul h4),
    ((((e 1 0).mul h1).add ((e 1 1).mul h2)).add ((e 1 2).mul h3)).add ((e 1 3).mul h4),
    ((((e 2 0).mul h1).add ((e 2 1).mul h2)).add ((e 2 2).mul h3)).add ((e 2 3).mul h4),
    ((((e 3 0).mul h1).add ((e 3 1).mul h2)).add ((e 3 2).mul h3)).add ((e 3 3).mul h4)⟩

theorem rotMat_tends {ax : ι → V3} {ax0 : V3} {w : ι → ℝ} {w0 : ℝ} (ha : V3.Tends F ax ax0) (hw : Tendsto w F (𝓝 w0))
    (a b : Fin 3) : Tendsto (fun i => rotMat (ax i) (w i) a b) F (𝓝 (rotMat ax0 w0 a b)) := by
  have hc : Tendsto (fun i => Real.cos (w i)) F (𝓝 (Real.cos w0)) := (Real.continuous_cos.tendsto _).comp hw
  have hs : Tendsto (fun i => Real.sin (w i)) F (𝓝 (Real.sin w0)) := (Real.continuous_sin.tendsto _).comp hw
  obtain ⟨hx, hy, hz⟩ := ha
  have hC := hc.const_sub 1
  fin_cases a <;> fin_cases b <;> simp only [rotMat, Matrix.of_apply, Matrix.cons_val', Fin.zero_eta, Fin.mk_one,
    Fin.reduceFinMk, Matrix.cons_val]
  · exact (hx.mul (hx.mul hC)).add hc
  · exact (hx.mul (hy.mul hC)).sub (hz.mul hs)
  · exact (hz.mul (hx.mul hC)).add (hy.mul hs)
  · exact (hx.mul (hy.mul hC)).add (hz.mul hs)
  · exact (hy.mul (hy.mul hC)).add hc
  · exact (hy.mul (hz.mul hC)).sub (hx.mul hs)
  · exact (hz.mul (hx.mul hC)).sub (hy.mul hs)
  · exact (hy.mul (hz.mul hC)).add (hx.mul hs)
  · exact (hz.mul (hz.mul hC)).add hc

end Marxs
