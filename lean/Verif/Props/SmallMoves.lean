import Mathlib.Topology.Instances.Matrix
import Mathlib.Topology.Algebra.Field
import Verif.Lemmas.Tends
import Verif.Props.Spectrograph

/-!
# Property C173: small misalignments have small effects
-/

namespace Marxs

open Filter Topology

variable {ι : Type} {F : Filter ι} {m : ι → M4} {m0 : M4} {r s : ι → Ray} {r0 r1 : Ray}

theorem hit_tends (hr : RayTends F r r0) (hm : Tendsto m F (𝓝 m0)) (hc : r0.ClearOf m0) :
    (r0.hit m0 = none ∧ ∀ᶠ i in F, (r i).hit (m i) = none) ∨
    ∃ (d q p : ι → H4) (y z : ι → ℝ) (d0 q0 p0 : H4) (y0 z0 : ℝ), r0.hit m0 = some (d0, q0, y0, z0, p0) ∧
      (∀ᶠ i in F, (r i).hit (m i) = some (d i, q i, y i, z i, p i)) ∧ H4.Tends F d d0 ∧ H4.Tends F q q0 ∧
      H4.Tends F p p0 ∧ Tendsto y F (𝓝 y0) ∧ Tendsto z F (𝓝 z0) ∧ r0.dir = some d0 ∧ d0.dot (eX m0) ≠ 0 := by
  obtain ⟨-, ho, d0, p0, k, hd0, hp0, hpar, hk, hcl⟩ := hc
  obtain ⟨d, ed, hd⟩ := hr.dir d0 hd0
  obtain ⟨p, ep, hp⟩ := hr.pos p0 hp0
  rcases intersect_tends hm hd hp ho hpar hk hcl with ⟨h1, h2⟩ | ⟨q, y, z, q0, y0, z0, h1, h2, hq, hy, hz⟩
  · refine Or.inl ⟨by simp only [Ray.hit, hd0, hp0, h1], ?_⟩
    filter_upwards [ed, ep, h2] with i e1 e2 e3
    simp only [Ray.hit, e1, e2, e3]
  · refine Or.inr ⟨d, q, p, y, z, d0, q0, p0, y0, z0, by simp only [Ray.hit, hd0, hp0, h1], ?_, hd, hq, hp, hy, hz, hd0,
      hpar⟩
    filter_upwards [ed, ep, h2] with i e1 e2 e3
    simp only [Ray.hit, e1, e2, e3]

theorem RayTends.congr (hr : RayTends F r r0) (h : ∀ᶠ i in F, s i = r i) : RayTends F s r0 where
  energy := by filter_upwards [hr.energy, h] with i h1 h2; rw [h2, h1]
  pos := by
    intro a ha
    obtain ⟨g, h1, h2⟩ := hr.pos a ha
    refine ⟨g, ?_, h2⟩
    filter_upwards [h1, h] with i k1 k2; rw [k2, k1]
  dir := by
    intro a ha
    obtain ⟨g, h1, h2⟩ := hr.dir a ha
    refine ⟨g, ?_, h2⟩
    filter_upwards [h1, h] with i k1 k2; rw [k2, k1]
  seen := by filter_upwards [hr.seen, h] with i h1 h2; rw [h2, h1]
  coos := fun n hn => (hr.coos n hn).congr' (h.mono fun i hi => by simp only [hi])

/-- A photon that is seen at an element, and continues in a new direction. -/
theorem RayTends.seenAt (hr : RayTends F r r0) {q : ι → H4} {y z : ι → ℝ} {q0 : H4} {y0 z0 : ℝ} {D : ι → Option H4}
    (hq : H4.Tends F q q0) (hy : Tendsto y F (𝓝 y0)) (hz : Tendsto z F (𝓝 z0)) (hD : TendsIfAny F D r1.dir)
    (e1 : r1.energy = r0.energy) (p1 : r1.pos = some q0) (c1 : r1.coos = r0.coos ++ [(y0, z0)])
    (h : ∀ᶠ i in F, (s i).energy = (r i).energy ∧ (s i).pos = some (q i) ∧ (s i).dir = D i ∧
      (s i).coos = (r i).coos ++ [(y i, z i)]) : RayTends F s r1 where
  energy := by filter_upwards [hr.energy, h] with i h1 h2; rw [h2.1, h1, e1]
  pos := by
    intro a ha
    rw [p1, Option.some.injEq] at ha
    subst ha
    exact ⟨q, h.mono fun i hi => hi.2.1, hq⟩
  dir := by
    intro a ha
    obtain ⟨g, h1, h2⟩ := hD a ha
    refine ⟨g, ?_, h2⟩
    filter_upwards [h1, h] with i k1 k2; rw [k2.2.2.1, k1]
  seen := by filter_upwards [hr.seen, h] with i h1 h2; rw [h2.2.2.2, c1]; simp [h1]
  coos := by
    intro n hn
    by_cases hlt : n < r0.coos.length
    · have e : r1.coos[n] = r0.coos[n] := by simp [c1, List.getElem_append_left hlt]
      rw [e]
      refine (hr.coos n hlt).congr' ?_
      filter_upwards [hr.seen, h] with i h1 h2
      rw [h2.2.2.2]
      simp only [List.getD_eq_getElem?_getD]
      rw [List.getElem?_append_left (by omega)]
    · have hn' : n = r0.coos.length := by
        rw [c1, List.length_append] at hn
        simp only [List.length_cons, List.length_nil] at hn
        omega
      have e : r1.coos[n] = (y0, z0) := by subst hn'; simp [c1]
      rw [e]
      refine (hy.prodMk_nhds hz).congr' ?_
      filter_upwards [hr.seen, h] with i h1 h2
      rw [h2.2.2.2]
      simp only [List.getD_eq_getElem?_getD]
      rw [List.getElem?_append_right (by omega), hn', h1]
      simp

/-- Elements that do not change the direction. -/
theorem TendsIfAny.same (hr : RayTends F r r0) {r1 : Ray} (h : r1.dir = r0.dir) :
    TendsIfAny F (fun i => (r i).dir) r1.dir := by rw [h]; exact hr.dir

theorem TendsIfAny.some {g : ι → H4} {a : H4} (h : H4.Tends F g a) : TendsIfAny F (fun i => some (g i)) (some a) := by
  intro b hb
  rw [Option.some.injEq] at hb
  subst hb
  exact ⟨g, Eventually.of_forall fun _ => rfl, h⟩

theorem TendsIfAny.none {f : ι → Option H4} : TendsIfAny F f none := by
  intro b hb
  simp at hb

theorem TendsIfAny.eventually {f g : ι → Option H4} {a : Option H4} (h : TendsIfAny F g a) (e : ∀ᶠ i in F, f i = g i) :
    TendsIfAny F f a := by
  intro b hb
  obtain ⟨k, h1, h2⟩ := h b hb
  exact ⟨k, by filter_upwards [h1, e] with i k1 k2; rw [k2, k1], h2⟩

theorem turn_tends {ax v : ι → V3} {ax0 v0 : V3} (ha : V3.Tends F ax ax0) (hv : V3.Tends F v v0) (w : ℝ) (w0 : V3)
    (h : turn ax0 w v0 = some w0) : ∃ g : ι → V3, (∀ᶠ i in F, turn (ax i) w (v i) = some (g i)) ∧ V3.Tends F g w0 := by
  unfold turn at h
  split_ifs at h with h0
  rw [Option.some.injEq] at h
  subst h
  refine ⟨fun i => mul3 (rotMat (ax i).unit w).transpose (v i), ?_, ?_⟩
  · filter_upwards [ha.ne h0] with i hi
    simp only [turn, if_neg hi]
  · refine mul3_tends (fun a b => ?_) hv
    simp only [Matrix.transpose_apply]
    exact rotMat_tends (ha.unit h0) tendsto_const_nhds b a

/-- `turn`, if there is an angle -/
noncomputable def maybeTurn (a : Option ℝ) (axis v : V3) : Option V3 := match a with
  | none => some v
  | some a => turn axis a v

theorem maybeTurn_tends {ax v : ι → V3} {ax0 v0 : V3} (w : Option ℝ) (ha : V3.Tends F ax ax0) (hv : V3.Tends F v v0)
    (w0 : V3) (h : maybeTurn w ax0 v0 = some w0) :
    ∃ g : ι → V3, (∀ᶠ i in F, maybeTurn w (ax i) (v i) = some (g i)) ∧ V3.Tends F g w0 := by
  cases w with
  | none =>
    simp only [maybeTurn, Option.some.injEq] at h
    subst h
    exact ⟨v, Eventually.of_forall fun i => rfl, hv⟩
  | some a => exact turn_tends ha hv a w0 h

theorem scatter_dir (m : M4) (d p pol : H4) (inAngle perpAngle : Option ℝ) :
    (radialScatter m d p pol inAngle perpAngle).map Prod.fst =
      ((maybeTurn inAngle (d.xyz.cross (p.xyz - (center m).xyz)) d.xyz).bind
        fun d1 => maybeTurn perpAngle (p.xyz - (center m).xyz) d1).map V3.toDir := by
  cases inAngle <;> cases perpAngle <;> simp only [radialScatter, maybeTurn, Option.bind_some, Option.map_some]
  · rcases turn (p.xyz - (center m).xyz) _ d.xyz with _ | a <;> simp
  · rcases turn (d.xyz.cross (p.xyz - (center m).xyz)) _ d.xyz with _ | a <;> simp
  · rcases turn (d.xyz.cross (p.xyz - (center m).xyz)) _ d.xyz with _ | a
    · simp
    · simp only [Option.bind_some]
      rcases turn (p.xyz - (center m).xyz) _ a with _ | a <;> simp

theorem dot_self_norm {a : H4} (h : a.dot a ≠ 0) : a.norm ≠ 0 := by
  intro k
  have h3 : 0 ≤ a.dot a := by
    simp only [H4.dot]
    nlinarith [mul_self_nonneg a.x, mul_self_nonneg a.y, mul_self_nonneg a.z, mul_self_nonneg a.w]
  exact h ((Real.sqrt_eq_zero h3).1 k)

theorem sign_eventually {f : ι → ℝ} {a : ℝ} (h : Tendsto f F (𝓝 a)) (h0 : a ≠ 0) :
    ∀ᶠ i in F, Real.sign (f i) = Real.sign a := by
  rcases lt_or_gt_of_ne h0 with k | k
  · filter_upwards [h.eventually_lt_const k] with i hi
    rw [Real.sign_of_neg hi, Real.sign_of_neg k]
  · filter_upwards [h.eventually_const_lt k] with i hi
    rw [Real.sign_of_pos hi, Real.sign_of_pos k]

theorem self_zero {a : H4} (h : a.dot a = 0) : a = ⟨0, 0, 0, 0⟩ := by
  simp only [H4.dot] at h
  have hx : a.x * a.x = 0 := by nlinarith [mul_self_nonneg a.x, mul_self_nonneg a.y, mul_self_nonneg a.z, mul_self_nonneg a.w]
  have hy : a.y * a.y = 0 := by nlinarith [mul_self_nonneg a.x, mul_self_nonneg a.y, mul_self_nonneg a.z, mul_self_nonneg a.w]
  have hz : a.z * a.z = 0 := by nlinarith [mul_self_nonneg a.x, mul_self_nonneg a.y, mul_self_nonneg a.z, mul_self_nonneg a.w]
  have hw : a.w * a.w = 0 := by nlinarith [mul_self_nonneg a.x, mul_self_nonneg a.y, mul_self_nonneg a.z, mul_self_nonneg a.w]
  exact H4.ext (mul_self_eq_zero.1 hx) (mul_self_eq_zero.1 hy) (mul_self_eq_zero.1 hz) (mul_self_eq_zero.1 hw)

theorem axes_perp {m : M4} (ha : Affine m) (ho : OrthoAxes m) : (eY m).dot (eX m) = 0 ∧ (eZ m).dot (eX m) = 0 := by
  obtain ⟨a0, a1, a2, -⟩ := ha
  have h1 := ho.xy
  have h2 := ho.xz
  simp only [V3.dot, vX, vY, vZ, col, H4.xyz] at h1 h2
  constructor
  · have e : (eY m).dot (eX m) = 1 / (vY m).norm * (1 / (vX m).norm) *
        (m 0 0 * m 0 1 + m 1 0 * m 1 1 + m 2 0 * m 2 1 + m 3 0 * m 3 1) := by
      simp only [eX, eY, H4.unit, H4.dot, H4.smul_x, H4.smul_y, H4.smul_z, H4.smul_w]
      simp only [vX, vY, col]
      ring
    rw [e, h1, a0]; ring
  · have e : (eZ m).dot (eX m) = 1 / (vZ m).norm * (1 / (vX m).norm) *
        (m 0 0 * m 0 2 + m 1 0 * m 1 2 + m 2 0 * m 2 2 + m 3 0 * m 3 2) := by
      simp only [eX, eZ, H4.unit, H4.dot, H4.smul_x, H4.smul_y, H4.smul_z, H4.smul_w]
      simp only [vX, vZ, col]
      ring
    rw [e, h2, a0]; ring

theorem planeGrating_dir (m : M4) (transmission cat : Bool) (groove : ℝ) (dg blazeMod : ℝ × ℝ → ℝ)
    (order : ℝ → Option ℝ → ℤ × ℝ) (hord : ∀ e b b', (order e b).1 = (order e b').1) {d pol : H4} (nz : d.dot d ≠ 0) {E : ℝ}
    {c : ℝ × ℝ} : ((planeGrating m transmission cat groove dg blazeMod order).diffract d pol E c).dir =
      if E = 0 ∨ dg c = 0 then none else diffractDir transmission (if cat = true then catSign else flatSign) d.unit
        (Real.sin (-groove) • eY m + Real.cos (-groove) • eZ m) (Real.cos (-groove) • eY m - Real.sin (-groove) • eZ m)
        (eX m) (order E none).1 (energy2wave / E) (dg c) := by
  simp only [Grating.diffract, planeGrating, Grating.frame, planeBases, normVector, if_neg nz]
  rw [hord E _ none]
  by_cases h : E = 0 ∨ dg c = 0
  · rw [if_pos h]; exact if_pos h
  · rw [if_neg h]; exact if_neg h

theorem diffract_tends (transmission cat : Bool) (groove : ℝ) (dg blazeMod : ℝ × ℝ → ℝ) (order : ℝ → Option ℝ → ℤ × ℝ)
    (hm : Tendsto m F (𝓝 m0)) (haf : Affine m0) (ho : OrthoAxes m0) {d : ι → H4} {y z : ι → ℝ} {d0 : H4} {y0 z0 : ℝ} (hd : H4.Tends F d d0)
    (hy : Tendsto y F (𝓝 y0)) (hz : Tendsto z F (𝓝 z0)) (hdg : Continuous dg)
    (hord : ∀ e b b', (order e b).1 = (order e b').1) {E : ι → ℝ} {E0 : ℝ} (hE : ∀ᶠ i in F, E i = E0)
    (hleave : ∀ p, ((planeGrating m0 transmission cat groove dg blazeMod order).diffract d0 ⟨0, 0, 0, 0⟩ E0 (y0, z0)).dir =
      some p → p.dot (eX m0) ≠ 0) (hpar : d0.dot (eX m0) ≠ 0)
    (hcat : cat = true → d0.dot (Real.cos groove • eY m0 + Real.sin groove • eZ m0) ≠ 0) :
    TendsIfAny F (fun i => ((planeGrating (m i) transmission cat groove dg blazeMod order).diffract (d i)
        ⟨0, 0, 0, 0⟩ (E i) (y i, z i)).dir)
      ((planeGrating m0 transmission cat groove dg blazeMod order).diffract d0 ⟨0, 0, 0, 0⟩ E0 (y0, z0)).dir := by
  obtain ⟨tx, ty, tz⟩ := axes_tend hm ho
  have tl : H4.Tends F (fun i => Real.sin (-groove) • eY (m i) + Real.cos (-groove) • eZ (m i))
      (Real.sin (-groove) • eY m0 + Real.cos (-groove) • eZ m0) :=
    (H4.Tends.smul tendsto_const_nhds ty).add (H4.Tends.smul tendsto_const_nhds tz)
  have te : H4.Tends F (fun i => -(Real.cos (-groove) • eY (m i) - Real.sin (-groove) • eZ (m i)))
      (-(Real.cos (-groove) • eY m0 - Real.sin (-groove) • eZ m0)) :=
    ((H4.Tends.smul tendsto_const_nhds ty).sub (H4.Tends.smul tendsto_const_nhds tz)).neg
  have nz : d0.dot d0 ≠ 0 := by
    intro k
    apply hpar
    have h := self_zero k
    simp only [h, H4.dot]
    ring
  have tu := hd.unit (dot_self_norm nz)
  have td : Tendsto (fun i => dg (y i, z i)) F (𝓝 (dg (y0, z0))) := (hdg.tendsto _).comp (hy.prodMk_nhds hz)
  rw [planeGrating_dir _ _ _ _ _ _ _ hord nz] at hleave ⊢
  by_cases hz0 : E0 = 0 ∨ dg (y0, z0) = 0
  · rw [if_pos hz0]; exact TendsIfAny.none
  rw [if_neg hz0] at hleave ⊢
  push Not at hz0
  set L := fun i => Real.sin (-groove) • eY (m i) + Real.cos (-groove) • eZ (m i) with hL
  set L0 := Real.sin (-groove) • eY m0 + Real.cos (-groove) • eZ m0 with hL0
  set B := fun i => -(Real.cos (-groove) • eY (m i) - Real.sin (-groove) • eZ (m i)) with hB
  set B0 := -(Real.cos (-groove) • eY m0 - Real.sin (-groove) • eZ m0) with hB0
  have hb0 : cat = true → d0.unit.dot B0 ≠ 0 := by
    intro hcat' k
    apply hcat hcat'
    have e : d0.unit.dot B0 = -(1 / d0.norm) * d0.dot (Real.cos groove • eY m0 + Real.sin groove • eZ m0) := by
      simp only [hB0, Real.cos_neg, Real.sin_neg, H4.unit, H4.dot, H4.neg_x, H4.neg_y, H4.neg_z, H4.neg_w, H4.sub_x,
        H4.sub_y, H4.sub_z, H4.sub_w, H4.add_x, H4.add_y, H4.add_z, H4.add_w, H4.smul_x, H4.smul_y, H4.smul_z, H4.smul_w]
      ring
    rw [e] at k
    rcases mul_eq_zero.1 k with k | k
    · have := dot_self_norm nz
      rw [neg_eq_zero] at k
      exact absurd k (one_div_ne_zero this)
    · exact k
  set sg0 := (if cat = true then catSign else flatSign) d0.unit B0 with hsg0
  have hsg : ∀ᶠ i in F, (if cat = true then catSign else flatSign) (d i).unit (B i) = sg0 := by
    cases cat with
    | false => exact Eventually.of_forall fun i => rfl
    | true =>
      filter_upwards [sign_eventually (tu.dot te) (hb0 rfl)] with i hi
      simp only [hsg0, if_true, catSign]
      rw [hi]
  set pd0 := d0.unit.dot B0 + sg0 * ((order E0 none).1 : ℝ) * (energy2wave / E0) / dg (y0, z0) with hpd0
  set pd := fun i => (d i).unit.dot (B i) + sg0 * ((order E0 none).1 : ℝ) * (energy2wave / E0) / dg (y i, z i) with hpd
  have tpd : Tendsto pd F (𝓝 pd0) := (tu.dot te).add (tendsto_const_nhds.div td hz0.2)
  have tpl : Tendsto (fun i => (d i).unit.dot (L i)) F (𝓝 (d0.unit.dot L0)) := tu.dot tl
  have tr : Tendsto (fun i => 1 - pd i ^ 2 - (d i).unit.dot (L i) ^ 2) F (𝓝 (1 - pd0 ^ 2 - d0.unit.dot L0 ^ 2)) :=
    ((tpd.pow 2).const_sub 1).sub (tpl.pow 2)
  have tn : Tendsto (fun i => (d i).unit.dot (eX (m i))) F (𝓝 (d0.unit.dot (eX m0))) := tu.dot tx
  have n0 : d0.unit.dot (eX m0) ≠ 0 := by
    have e : d0.unit.dot (eX m0) = (1 / d0.norm) * d0.dot (eX m0) := by
      simp only [H4.unit, H4.dot, H4.smul_x, H4.smul_y, H4.smul_z, H4.smul_w]
      ring
    rw [e]
    exact mul_ne_zero (one_div_ne_zero (dot_self_norm nz)) hpar
  simp only [diffractDir, ← hB0, ← hsg0, ← hpd0] at hleave ⊢
  by_cases hneg : 1 - pd0 ^ 2 - d0.unit.dot L0 ^ 2 < 0
  · rw [if_pos hneg]; exact TendsIfAny.none
  rw [if_neg hneg] at hleave ⊢
  have hpos : 0 < 1 - pd0 ^ 2 - d0.unit.dot L0 ^ 2 := by
    refine lt_of_le_of_ne (not_lt.1 hneg) fun k => ?_
    refine hleave _ rfl ?_
    rw [← k, Real.sqrt_zero, mul_zero]
    obtain ⟨o1, o2⟩ := axes_perp haf ho
    have : (pd0 • B0 + d0.unit.dot L0 • L0 + (0 : ℝ) • eX m0).dot (eX m0) = 0 := by
      generalize d0.unit.dot L0 = u
      simp only [hB0, hL0, H4.dot, H4.neg_x, H4.neg_y, H4.neg_z, H4.neg_w, H4.sub_x, H4.sub_y, H4.sub_z, H4.sub_w,
        H4.add_x, H4.add_y, H4.add_z, H4.add_w, H4.smul_x, H4.smul_y, H4.smul_z, H4.smul_w] at o1 o2 ⊢
      linear_combination (-(pd0 * Real.cos (-groove)) + u * Real.sin (-groove)) * o1 +
        (pd0 * Real.sin (-groove) + u * Real.cos (-groove)) * o2
    exact this
  have tsq := (Real.continuous_sqrt.tendsto _).comp tr
  set dn0 := if transmission = true then Real.sign (d0.unit.dot (eX m0)) else Real.sign (d0.unit.dot (eX m0)) * -1 with hdn0
  have tout : H4.Tends F (fun i => pd i • B i + (d i).unit.dot (L i) • L i +
        (dn0 * Real.sqrt (1 - pd i ^ 2 - (d i).unit.dot (L i) ^ 2)) • eX (m i))
      (pd0 • B0 + d0.unit.dot L0 • L0 + (dn0 * Real.sqrt (1 - pd0 ^ 2 - d0.unit.dot L0 ^ 2)) • eX m0) :=
    ((H4.Tends.smul tpd te).add (H4.Tends.smul tpl tl)).add (H4.Tends.smul (tsq.const_mul dn0) tx)
  refine (TendsIfAny.some tout).eventually ?_
  filter_upwards [hE, hsg, sign_eventually tn n0, tr.eventually_const_lt hpos, td.eventually_ne hz0.2,
    (hd.dot hd).eventually_ne nz] with i k1 k2 k3 k4 k5 k6
  rw [planeGrating_dir _ _ _ _ _ _ _ hord k6, k1, if_neg (by push Not; exact ⟨hz0.1, k5⟩)]
  have b1 : -(Real.cos (-groove) • eY (m i) - Real.sin (-groove) • eZ (m i)) = B i := rfl
  have b2 : Real.sin (-groove) • eY (m i) + Real.cos (-groove) • eZ (m i) = L i := rfl
  simp only [diffractDir, b1, b2, k2]
  rw [if_neg (not_lt.2 k4.le), k3]

/-- One element. -/
theorem step_tends (o : Optic) (hr : RayTends F r r0) (hm : o.Near F m) (h1 : o.step r0 = .ok r1) (hc : o.Clear r0 r1)
    (hs : ∀ᶠ i in F, (o.placedAt (m i)).step (r i) = .ok (s i)) : RayTends F s r1 := by
  cases o with
  | plane m0 =>
    have hm : Tendsto m F (𝓝 m0) := hm m0 rfl
    rcases hit_tends hr hm hc with ⟨e0, e⟩ | ⟨d, q, p, y, z, d0, q0, p0, y0, z0, e0, e, hd, hq, hp, hy, hz, hd0, hpar⟩
    · simp only [Optic.step, e0, Except.ok.injEq] at h1
      subst h1
      refine hr.congr ?_
      filter_upwards [e, hs] with i k1 k2
      simp only [Optic.placedAt, Optic.step, k1, Except.ok.injEq] at k2
      exact k2.symm
    · simp only [Optic.step, e0, Except.ok.injEq] at h1
      subst h1
      refine hr.seenAt hq hy hz (TendsIfAny.same hr rfl) rfl rfl rfl ?_
      filter_upwards [e, hs] with i k1 k2
      simp only [Optic.placedAt, Optic.step, k1, Except.ok.injEq] at k2
      rw [← k2]
      exact ⟨rfl, rfl, rfl, rfl⟩
  | tube => exact hc.elim
  | filter m0 f =>
    have hm : Tendsto m F (𝓝 m0) := hm m0 rfl
    rcases hit_tends hr hm hc with ⟨e0, e⟩ | ⟨d, q, p, y, z, d0, q0, p0, y0, z0, e0, e, hd, hq, hp, hy, hz, hd0, hpar⟩
    · simp only [Optic.step, e0, Except.ok.injEq] at h1
      subst h1
      refine hr.congr ?_
      filter_upwards [e, hs] with i k1 k2
      simp only [Optic.placedAt, Optic.step, k1, Except.ok.injEq] at k2
      exact k2.symm
    · rcases hf : filterValue f r0.energy with er | v
      · simp only [Optic.step, e0, hf, reduceCtorEq] at h1
      simp only [Optic.step, e0, hf, Except.ok.injEq] at h1
      subst h1
      refine hr.seenAt hq hy hz (TendsIfAny.same hr rfl) rfl rfl rfl ?_
      filter_upwards [e, hs, hr.energy] with i k1 k2 k3
      simp only [Optic.placedAt, Optic.step, k1, k3, hf, Except.ok.injEq] at k2
      rw [← k2]
      exact ⟨rfl, rfl, rfl, rfl⟩
  | globalFilter f =>
    rcases hf : filterValue f r0.energy with er | v
    · simp only [Optic.step, hf, reduceCtorEq] at h1
    simp only [Optic.step, hf, Except.ok.injEq] at h1
    subst h1
    have e : ∀ᶠ i in F, s i = (r i).times (some v) := by
      filter_upwards [hs, hr.energy] with i k2 k3
      simp only [Optic.placedAt, Optic.step, k3, hf, Except.ok.injEq] at k2
      exact k2.symm
    exact RayTends.congr (r := fun i => (r i).times (some v)) ⟨hr.energy, hr.pos, hr.dir, hr.seen, hr.coos⟩ e
  | lens m0 focallength dOptax refl =>
    have hm : Tendsto m F (𝓝 m0) := hm m0 rfl
    have ho : OrthoAxes m0 := hc.2.1
    rcases hit_tends hr hm hc with ⟨e0, e⟩ | ⟨d, q, p, y, z, d0, q0, p0, y0, z0, e0, e, hd, hq, hp, hy, hz, hd0, hpar⟩
    · simp only [Optic.step, e0, Except.ok.injEq] at h1
      subst h1
      refine hr.congr ?_
      filter_upwards [e, hs] with i k1 k2
      simp only [Optic.placedAt, Optic.step, k1, Except.ok.injEq] at k2
      exact k2.symm
    · simp only [Optic.step, e0, Except.ok.injEq] at h1
      have hD : TendsIfAny F (fun i => (perfectLens (m i) focallength dOptax refl (d i) ⟨0, 0, 0, 0⟩ (q i)
          (r i).energy).map LensOut.dir)
          ((perfectLens m0 focallength dOptax refl d0 ⟨0, 0, 0, 0⟩ q0 r0.energy).map LensOut.dir) := by
        by_cases z0 : d0.xyz = 0
        · simp only [perfectLens, if_pos z0, Option.map_none]; exact TendsIfAny.none
        by_cases v0 : focusPoint m0 focallength dOptax d0.xyz - q0.xyz = 0
        · simp only [perfectLens, if_neg z0, if_pos v0, Option.map_none]; exact TendsIfAny.none
        have tv : V3.Tends F (fun i => focusPoint (m i) focallength dOptax (d i).xyz - (q i).xyz)
            (focusPoint m0 focallength dOptax d0.xyz - q0.xyz) :=
          ((((col_tends hm 3).sub (H4.Tends.smul tendsto_const_nhds (axes_tend hm ho).2.2)).xyz.add
            (V3.Tends.smul tendsto_const_nhds (hd.xyz.unit z0)))).sub hq.xyz
        simp only [perfectLens, if_neg z0, if_neg v0, Option.map_some]
        refine (TendsIfAny.some (tv.unit v0).toDir).eventually ?_
        filter_upwards [hd.xyz.ne z0, tv.ne v0] with i k1 k2
        simp only [perfectLens, if_neg k1, if_neg k2, Option.map_some]
      subst h1
      refine hr.seenAt hq hy hz hD rfl rfl rfl ?_
      filter_upwards [e, hs] with i k1 k2
      simp only [Optic.placedAt, Optic.step, k1, Except.ok.injEq] at k2
      rw [← k2]
      exact ⟨rfl, rfl, rfl, rfl⟩
  | thin m0 focallength =>
    have hm : Tendsto m F (𝓝 m0) := hm m0 rfl
    obtain ⟨hc, hcen⟩ := hc
    rcases hit_tends hr hm hc with ⟨e0, e⟩ | ⟨d, q, p, y, z, d0, q0, p0, y0, z0, e0, e, hd, hq, hp, hy, hz, hd0, hpar⟩
    · simp only [Optic.step, e0, Except.ok.injEq] at h1
      subst h1
      refine hr.congr ?_
      filter_upwards [e, hs] with i k1 k2
      simp only [Optic.placedAt, Optic.step, k1, Except.ok.injEq] at k2
      exact k2.symm
    · simp only [Optic.step, e0, Except.ok.injEq] at h1
      have hcen : q0.xyz ≠ (center m0).xyz := hcen q0 (by rw [← h1]; rfl)
      have hne : q0.xyz - (center m0).xyz ≠ 0 := by
        intro k
        apply hcen
        have := congrArg V3.x k; have := congrArg V3.y k; have := congrArg V3.z k
        ext <;> simp at * <;> linarith
      have hD : TendsIfAny F (fun i => (thinLens (m i) focallength (d i) ⟨0, 0, 0, 0⟩ (q i)).map Prod.fst)
          ((thinLens m0 focallength d0 ⟨0, 0, 0, 0⟩ q0).map Prod.fst) := by
        have tr : V3.Tends F (fun i => (q i).xyz - (center (m i)).xyz) (q0.xyz - (center m0).xyz) :=
          hq.xyz.sub (col_tends hm 3).xyz
        have ta : V3.Tends F (fun i => (d i).xyz.cross (q i - center (m i)).xyz) (d0.xyz.cross (q0 - center m0).xyz) :=
          hd.xyz.cross (hq.sub (col_tends hm 3)).xyz
        have n0 : (q0.xyz - (center m0).xyz).norm ≠ 0 := (V3.norm_pos hne).ne'
        by_cases a0 : d0.xyz.cross (q0 - center m0).xyz = 0
        · simp only [thinLens, if_neg n0, if_pos a0, Option.map_none]; exact TendsIfAny.none
        simp only [thinLens, if_neg n0, if_neg a0, Option.map_some]
        have tm := mul3_tends (F := F) (fun a b => rotMat_tends (ta.unit a0) (tr.norm.neg.div_const focallength) a b) hd.xyz
        refine (TendsIfAny.some tm.toDir).eventually ?_
        filter_upwards [tr.norm.eventually_ne n0, ta.ne a0] with i k1 k2
        simp only [thinLens, if_neg k1, if_neg k2, Option.map_some]
      subst h1
      refine hr.seenAt hq hy hz hD rfl rfl rfl ?_
      filter_upwards [e, hs] with i k1 k2
      simp only [Optic.placedAt, Optic.step, k1, Except.ok.injEq] at k2
      rw [← k2]
      exact ⟨rfl, rfl, rfl, rfl⟩
  | grating m0 transmission cat groove dg blazeMod order =>
    have hm : Tendsto m F (𝓝 m0) := hm m0 rfl
    obtain ⟨hc, hdg, hord, hleave, hcat⟩ := hc
    have ho : OrthoAxes m0 := hc.2.1
    rcases hit_tends hr hm hc with ⟨e0, e⟩ | ⟨d, q, p, y, z, d0, q0, p0, y0, z0, e0, e, hd, hq, hp, hy, hz, hd0, hpar⟩
    · simp only [Optic.step, e0, Except.ok.injEq] at h1
      subst h1
      refine hr.congr ?_
      filter_upwards [e, hs] with i k1 k2
      simp only [Optic.placedAt, Optic.step, k1, Except.ok.injEq] at k2
      exact k2.symm
    · simp only [Optic.step, e0, Except.ok.injEq] at h1
      have hD : TendsIfAny F (fun i => ((planeGrating (m i) transmission cat groove dg blazeMod order).diffract (d i)
            ⟨0, 0, 0, 0⟩ (r i).energy (y i, z i)).dir)
          ((planeGrating m0 transmission cat groove dg blazeMod order).diffract d0 ⟨0, 0, 0, 0⟩ r0.energy (y0, z0)).dir := by
        have e1 : r1.dir = ((planeGrating m0 transmission cat groove dg blazeMod order).diffract d0 ⟨0, 0, 0, 0⟩
            r0.energy (y0, z0)).dir := by rw [← h1]; rfl
        refine diffract_tends transmission cat groove dg blazeMod order hm hc.1.1 ho hd hy hz hdg hord hr.energy ?_ hpar
          fun k => hcat k d0 hd0
        intro p hp
        exact hleave p (by rw [e1, hp])
      subst h1
      refine hr.seenAt hq hy hz hD rfl rfl rfl ?_
      filter_upwards [e, hs] with i k1 k2
      simp only [Optic.placedAt, Optic.step, k1, Except.ok.injEq] at k2
      rw [← k2]
      exact ⟨rfl, rfl, rfl, rfl⟩
  | mirror m0 rs rp =>
    have hm : Tendsto m F (𝓝 m0) := hm m0 rfl
    have hdet : m0.det ≠ 0 := hc.1.2
    rcases hit_tends hr hm hc with ⟨e0, e⟩ | ⟨d, q, p, y, z, d0, q0, p0, y0, z0, e0, e, hd, hq, hp, hy, hz, hd0, hpar⟩
    · simp only [Optic.step, e0, Except.ok.injEq] at h1
      subst h1
      refine hr.congr ?_
      filter_upwards [e, hs] with i k1 k2
      simp only [Optic.placedAt, Optic.step, k1, Except.ok.injEq] at k2
      exact k2.symm
    · have key : ∀ (m : M4) (r s : Ray) (d q p : H4) (y z : ℝ), r.hit m = some (d, q, y, z, p) →
          (Optic.mirror m rs rp).step r = .ok s → s.energy = r.energy ∧ s.pos = some q ∧
          s.dir = (if d.dot d = 0 then none else some (mirrorDir m d.unit)) ∧ s.coos = r.coos ++ [(y, z)] := by
        intro m r s d q p y z hh h
        rcases hp : r.pol with _ | pol
        · simp only [Optic.step, hh, hp, Except.ok.injEq] at h
          subst h
          exact ⟨rfl, rfl, rfl, rfl⟩
        rcases hb : brewster m rs rp d pol with er | _ | out
        · simp only [Optic.step, hh, hp, hb, reduceCtorEq] at h
        · simp only [Optic.step, hh, hp, hb, Except.ok.injEq] at h
          subst h
          exact ⟨rfl, rfl, rfl, rfl⟩
        · simp only [Optic.step, hh, hp, hb, Except.ok.injEq] at h
          subst h
          refine ⟨rfl, rfl, ?_, rfl⟩
          show some out.dir = _
          by_cases c1 : d.dot d = 0
          · simp [brewster, c1] at hb
          by_cases c2 : d.unit.xyz.cross (eX m).xyz = 0
          · simp [brewster, c1, c2] at hb
          simp only [brewster, if_neg c1, if_neg c2] at hb
          split_ifs at hb <;> simp only [Except.ok.injEq, Option.some.injEq] at hb <;> rw [if_neg c1, ← hb]
      obtain ⟨g1, g2, g3, g4⟩ := key _ _ _ _ _ _ _ _ e0 h1
      refine hr.seenAt (D := fun i => if (d i).dot (d i) = 0 then none else some (mirrorDir (m i) (d i).unit)) hq hy hz ?_
        g1 g2 g4 ?_
      · rw [g3]
        by_cases z0 : d0.dot d0 = 0
        · rw [if_pos z0]; exact TendsIfAny.none
        rw [if_neg z0]
        have tinv : Tendsto (fun i => (m i)⁻¹) F (𝓝 m0⁻¹) := by
          simp only [Matrix.inv_def, Ring.inverse_eq_inv']
          exact ((((continuous_id.matrix_det).tendsto m0).comp hm).inv₀ hdet).smul
            (((continuous_id.matrix_adjugate).tendsto m0).comp hm)
        have tu := hd.unit (dot_self_norm z0)
        obtain ⟨t1, t2, t3, t4⟩ := mul4_tends tinv tu
        have tm : H4.Tends F (fun i => mirrorDir (m i) (d i).unit) (mirrorDir m0 d0.unit) :=
          mul4_tends hm (v := fun i => ⟨(mul4 (m i)⁻¹ (d i).unit).x * -1, (mul4 (m i)⁻¹ (d i).unit).y,
            (mul4 (m i)⁻¹ (d i).unit).z, (mul4 (m i)⁻¹ (d i).unit).w⟩) ⟨t1.mul_const _, t2, t3, t4⟩
        refine (TendsIfAny.some tm).eventually ?_
        filter_upwards [(hd.dot hd).eventually_ne z0] with i k
        rw [if_neg k]
      · filter_upwards [e, hs] with i k1 k2
        exact key _ _ _ _ _ _ _ _ k1 k2
  | scatter m0 inAngle perpAngle =>
    have hm : Tendsto m F (𝓝 m0) := hm m0 rfl
    rcases hit_tends hr hm hc with ⟨e0, e⟩ | ⟨d, q, p, y, z, d0, q0, p0, y0, z0, e0, e, hd, hq, hp, hy, hz, hd0, hpar⟩
    · simp only [Optic.step, e0, Except.ok.injEq] at h1
      subst h1
      refine hr.congr ?_
      filter_upwards [e, hs] with i k1 k2
      simp only [Optic.placedAt, Optic.step, k1, Except.ok.injEq] at k2
      exact k2.symm
    · simp only [Optic.step, e0, Except.ok.injEq] at h1
      have hD : TendsIfAny F (fun i => (radialScatter (m i) (d i) (p i) ⟨0, 0, 0, 0⟩ inAngle perpAngle).map Prod.fst)
          ((radialScatter m0 d0 p0 ⟨0, 0, 0, 0⟩ inAngle perpAngle).map Prod.fst) := by
        have tr : V3.Tends F (fun i => (p i).xyz - (center (m i)).xyz) (p0.xyz - (center m0).xyz) :=
          hp.xyz.sub (col_tends hm 3).xyz
        have tp : V3.Tends F (fun i => (d i).xyz.cross ((p i).xyz - (center (m i)).xyz))
            (d0.xyz.cross (p0.xyz - (center m0).xyz)) := hd.xyz.cross tr
        rw [scatter_dir]
        intro b hb
        simp only [Option.map_eq_some_iff, Option.bind_eq_some_iff] at hb
        obtain ⟨w2, ⟨w1, h1, h2⟩, rfl⟩ := hb
        obtain ⟨g1, k1, t1⟩ := maybeTurn_tends inAngle tp hd.xyz w1 h1
        obtain ⟨g2, k2, t2⟩ := maybeTurn_tends perpAngle tr t1 w2 h2
        refine ⟨fun i => (g2 i).toDir, ?_, t2.toDir⟩
        filter_upwards [k1, k2] with i j1 j2
        rw [scatter_dir, j1, Option.bind_some, j2, Option.map_some]
      subst h1
      refine hr.seenAt hq hy hz hD rfl rfl rfl ?_
      filter_upwards [e, hs] with i k1 k2
      simp only [Optic.placedAt, Optic.step, k1, Except.ok.injEq] at k2
      rw [← k2]
      exact ⟨rfl, rfl, rfl, rfl⟩
  | propagate distance =>
    simp only [Optic.step, Except.ok.injEq] at h1
    have e : ∀ᶠ i in F, s i = { r i with pos := match (r i).dir, (r i).pos with
        | some d, some p => some (p + distance • d)
        | _, _ => none } := by
      filter_upwards [hs] with i k2
      simp only [Optic.placedAt, Optic.step, Except.ok.injEq] at k2
      exact k2.symm
    subst h1
    refine RayTends.congr ?_ e
    refine ⟨hr.energy, ?_, hr.dir, hr.seen, hr.coos⟩
    intro b hb
    simp only at hb
    rcases hd : r0.dir with _ | d0
    · rw [hd] at hb; simp at hb
    rcases hp : r0.pos with _ | p0
    · rw [hd, hp] at hb; simp at hb
    rw [hd, hp] at hb
    simp only [Option.some.injEq] at hb
    subst hb
    obtain ⟨d, k1, t1⟩ := hr.dir d0 hd
    obtain ⟨p, k2, t2⟩ := hr.pos p0 hp
    refine ⟨fun i => p i + distance • d i, ?_, t2.add (H4.Tends.smul tendsto_const_nhds t1)⟩
    filter_upwards [k1, k2] with i j1 j2
    simp only [j1, j2]

/-- **C173** Small misalignments have small effects: if all elements of an instrument and the photon are moved by
a little, and the path of the photon does not run over an edge or another place where the instrument jumps, then the photon ends
close to where it did, flies in nearly the same direction and is seen by the same elements at nearly the same places. -/
theorem C173_small_moves (os : List Optic) (ms : List (ι → M4)) (hn : List.Forall₂ (Optic.Near F) os ms) (r s : ι → Ray)
    (r0 s0 : Ray) (hr : RayTends F r r0) (path : ClearPath os r0 s0)
    (hs : ∀ᶠ i in F, runOptics (misaligned os ms i) (r i) = .ok (s i)) : RayTends F s s0 := by
  induction hn generalizing r r0 with
  | nil =>
    cases path
    refine hr.congr ?_
    filter_upwards [hs] with i k
    simp only [misaligned, List.zipWith_nil_left, runOptics, Except.ok.injEq] at k
    exact k.symm
  | @cons o m os ms hm hn ih =>
    cases path with
    | @cons _ _ _ r1 _ h1 hcl hp =>
      classical
      let t : ι → Ray := fun i => match (o.placedAt (m i)).step (r i) with
        | .ok r' => r'
        | .error _ => r i
      have ht : ∀ᶠ i in F, (o.placedAt (m i)).step (r i) = .ok (t i) ∧ runOptics (misaligned os ms i) (t i) = .ok (s i) := by
        filter_upwards [hs] with i k
        simp only [misaligned, List.zipWith_cons_cons, runOptics] at k
        rcases hst : (o.placedAt (m i)).step (r i) with e | r'
        · rw [hst] at k; simp at k
        · rw [hst] at k
          have : t i = r' := by simp only [t, hst]
          rw [this]
          exact ⟨rfl, k⟩
      exact ih t r1 (step_tends o hr hm h1 hcl (ht.mono fun i hi => hi.1)) hp (ht.mono fun i hi => hi.2)

/-! ### Concrete case: a grating and a detector that is shifted in the direction of the dispersion -/

theorem clearOf_square (a b c : ℝ) (r : Ray) (d p : H4) (k : ℝ) (hd : r.dir = some d) (hp : r.pos = some p) (h0 : d.x ≠ 0)
    (hw : p.x + k * d.x = a) (hk : 0 < k) (hy : |p.y + k * d.y - b| < 1) (hz : |p.z + k * d.z - c| < 1) :
    r.ClearOf (square a b c) := by
  obtain ⟨u1, u2, u3⟩ := square_units a b c
  obtain ⟨e1, e2, e3, e4⟩ := squareAxes a b c
  refine ⟨(square_ortho a b c).1, (square_ortho a b c).2, d, p, k, hd, hp, ?_, ?_, Or.inl ⟨hk, ?_, ?_⟩⟩
  · rw [u1]; simpa [H4.dot] using h0
  · rw [u1, e1]; simp [H4.dot]; linarith
  · rw [u2, e1, e3]; simpa [H4.dot, H4.norm] using hy
  · rw [u3, e1, e4]; simpa [H4.dot, H4.norm] using hz

theorem square_tends : Tendsto (fun t : ℝ => square (-1) t 0) (𝓝 0) (𝓝 (square (-1) 0 0)) := by
  have : Continuous fun t : ℝ => square (-1) t 0 := by
    refine continuous_matrix fun i j => ?_
    fin_cases i <;> fin_cases j <;> simp [square, translation2aff] <;> fun_prop
  exact this.tendsto 0

example : ∃ (os : List Optic) (ms : List (ℝ → M4)) (s : ℝ → Ray) (s0 : Ray),
    List.Forall₂ (Optic.Near (𝓝 0)) os ms ∧ RayTends (𝓝 (0 : ℝ)) (fun _ => axisRay) axisRay ∧ ClearPath os axisRay s0 ∧
    (∀ᶠ t in 𝓝 0, runOptics (misaligned os ms t) axisRay = .ok (s t)) ∧ s0.coos = [(1 / 2, 0), (-(1 / 4), 0)] ∧
    (∀ t, (misaligned os ms t).head? = os.head?) ∧ misaligned os ms 1 ≠ os := by
  obtain ⟨r1, g1, h1, g2, g3, g4, -, hh1⟩ := three_fifths false
  simp only [Bool.false_eq_true, if_false] at g1
  have hw : energy2wave ≠ 0 := by norm_num [energy2wave]
  have step2 : ∀ t : ℝ, ∃ s, (Optic.plane (square (-1) t 0)).step r1 = .ok s := by
    intro t
    rcases hh : r1.hit (square (-1) t 0) with _ | ⟨d, q, y, z, p⟩
    · exact ⟨r1, by simp only [Optic.step, hh]⟩
    · exact ⟨r1.at q y z, by simp only [Optic.step, hh]⟩
  choose s hs using step2
  refine ⟨[.grating (square 0 0 0) true false 0 (fun _ => 5 / 3 * energy2wave) (fun _ => 0) fun _ _ => (-1, 1),
    .plane (square (-1) 0 0)], [fun _ => square 0 0 0, fun t => square (-1) t 0], s,
    r1.at ⟨-1, -(1 / 4), 0, 1⟩ (-(1 / 4)) 0, ?_, ?_, ?_, ?_, ?_, ?_, ?_⟩
  · refine .cons ?_ (.cons ?_ .nil)
    · intro m0 h
      simp only [Optic.place, Option.some.injEq] at h
      subst h
      exact tendsto_const_nhds
    · intro m0 h
      simp only [Optic.place, Option.some.injEq] at h
      subst h
      exact square_tends
  · have t : ∀ a : Option H4, TendsIfAny (𝓝 (0 : ℝ)) (fun _ => a) a := by
      intro a b hb
      exact ⟨fun _ => b, Eventually.of_forall fun _ => hb, tendsto_const_nhds, tendsto_const_nhds, tendsto_const_nhds,
        tendsto_const_nhds⟩
    exact ⟨Eventually.of_forall fun _ => rfl, t _, t _, Eventually.of_forall fun _ => rfl, by simp [axisRay]⟩
  · refine .cons g1 ⟨?_, continuous_const, fun _ _ _ => rfl, ?_, by simp⟩
      (.cons (r1 := r1.at ⟨-1, -(1 / 4), 0, 1⟩ (-(1 / 4)) 0) (by simp only [Optic.step, hh1]) ?_ (.nil _))
    · refine clearOf_square 0 0 0 axisRay ⟨-1, 0, 0, 0⟩ ⟨2, 1 / 2, 0, 1⟩ 2 (by simp only [axisRay]) (by simp only [axisRay]) ?_ ?_ ?_ ?_ ?_ <;> norm_num [abs_lt]
    · intro p hp
      rw [g2, Option.some.injEq] at hp
      rw [← hp, (square_units 0 0 0).1]
      norm_num [H4.dot]
    · refine clearOf_square (-1) 0 0 r1 _ _ (5 / 4) g2 g3 ?_ ?_ ?_ ?_ ?_ <;> norm_num [abs_lt]
  · refine Eventually.of_forall fun t => ?_
    simp only [misaligned, List.zipWith_cons_cons, List.zipWith_nil_right, Optic.placedAt, runOptics, g1, hs]
  · simp only [Ray.at, g4, axisRay, List.nil_append, List.cons_append]
  · intro t; simp only [misaligned, List.zipWith_cons_cons, List.head?_cons, Optic.placedAt]
  · simp only [misaligned, List.zipWith_cons_cons, List.zipWith_nil_right, Optic.placedAt, ne_eq, List.cons.injEq, true_and,
      and_true, Optic.plane.injEq]
    intro k
    have := congrFun (congrFun k 1) 3
    simp [square, translation2aff] at this

end Marxs
