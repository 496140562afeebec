import Verif.Spec.Reversal
import Verif.Props.Spectrograph

/-!
# C170: light paths are reversible
-/

namespace Marxs
open Classical

theorem Optic.Reversible.rect {o : Optic} (h : o.Reversible) : ∃ m, o.rectangle = some m ∧ Placed m ∧ OrthoAxes m := by
  cases o <;> simp only [Optic.Reversible] at h
  case plane m => exact ⟨m, rfl, h⟩
  case filter m f => exact ⟨m, rfl, h⟩
  case mirror m rs rp => exact ⟨m, rfl, h⟩
  case grating m _ _ _ _ _ _ => exact ⟨m, rfl, h.1, h.2.1⟩

theorem Optic.Reversible.placed {o : Optic} (h : o.Reversible) : o.IsPlaced := by
  cases o <;> simp only [Optic.Reversible] at h
  case plane m => exact h.1
  case filter m f => exact h.1
  case mirror m rs rp => exact h.1
  case grating m _ _ _ _ _ _ => exact h.1

theorem hitCoos_some {o : Optic} {m : M4} (he : o.rectangle = some m) {r : Ray} {c : ℝ × ℝ} (h : hitCoos o r = some c) :
    ∃ d q p, r.hit m = some (d, q, c.1, c.2, p) := by
  cases o <;> simp only [Optic.rectangle, Option.some.injEq, reduceCtorEq] at he <;> subst he <;>
    simp only [hitCoos, Option.map_eq_some_iff] at h <;> obtain ⟨⟨d, q, y, z, p⟩, h1, rfl⟩ := h <;> exact ⟨d, q, p, h1⟩

theorem hitCoos_of_hit {o : Optic} {m : M4} (he : o.rectangle = some m) {r : Ray} {d q p : H4} {y z : ℝ}
    (h : r.hit m = some (d, q, y, z, p)) : hitCoos o r = some (y, z) := by
  cases o <;> simp only [Optic.rectangle, Option.some.injEq, reduceCtorEq] at he <;> subst he <;>
    simp only [hitCoos, h, Option.map_some]

theorem face_inj {m : M4} (hm : Placed m) (ho : OrthoAxes m) {c c' : ℝ × ℝ} (h : facePoint m c = facePoint m c') : c = c' := by
  have hf := (C19_flat_and_bent m hm.1 ho).1
  simp only [planeBases] at hf
  have ba := H4.dot_comm (eZ m) (eY m)
  have e : ∀ a : ℝ × ℝ, facePoint m a - center m = a.1 • eY m + a.2 • eZ m := by
    intro a; simp only [facePoint]; ext <;> simp <;> ring
  have h1 : (facePoint m c - center m).dot (eY m) = (facePoint m c' - center m).dot (eY m) := by rw [h]
  have h2 : (facePoint m c - center m).dot (eZ m) = (facePoint m c' - center m).dot (eZ m) := by rw [h]
  simp only [e, H4.dot_add_left, H4.dot_smul_left, hf.aa, hf.bb, hf.ab, ba, mul_one, mul_zero, add_zero, zero_add] at h1 h2
  exact Prod.ext h1 h2

/-- A photon that flies back along the line through a point of the element hits there. -/
theorem back_hit {m : M4} (hm : Placed m) (ho : OrthoAxes m) {q d : H4} {c : ℝ × ℝ} (hq : q = facePoint m c) (hi : InRectangle m q.xyz)
    (hpq : IsPoint q) (hd : IsDir d) (hn : d.dot (eX m) ≠ 0) {k : ℝ} (hk : 0 ≤ k) {t : Ray} (ht : t.WellFormed)
    (htd : t.dir = some (-d)) (htp : t.pos = some (q + k • d)) : t.hit m = some (-d, q, c.1, c.2, q + k • d) := by
  have wd : d.w = 0 := hd
  have wq : q.w = 1 := hpq
  have wx : (vX m).w = 0 := hm.1.1
  have hnx : d.xyz.dot (vX m).xyz ≠ 0 := by
    intro h0
    apply hn
    rw [dot_xyz _ _ (.inl wd), eX, unit_xyz _ wx, V3.unit, V3.dot_smul_right, h0, mul_zero]
  have hnx' : (-d).xyz.dot (vX m).xyz ≠ 0 := by
    have : (-d).xyz.dot (vX m).xyz = -(d.xyz.dot (vX m).xyz) := by simp [H4.xyz, V3.dot]; ring
    rw [this]; exact neg_ne_zero.2 hnx
  have e0 : (q + k • d).xyz + k • (-d).xyz = q.xyz := by ext <;> simp [H4.xyz]
  obtain ⟨c1, c2⟩ := C10_plane_intersect m hm.1 ho (-d) (q + k • d) (by simp [IsDir, wd]) (by simp [IsPoint, wd, wq])
  have hs : (planeIntersect m (-d) (q + k • d)).isSome := c1.2 ⟨hnx', k, hk, by rw [e0]; exact hi⟩
  obtain ⟨⟨q', y, z⟩, hp⟩ := Option.isSome_iff_exists.1 hs
  have hh : t.hit m = some (-d, q', y, z, q + k • d) := by simp only [Ray.hit, htd, htp, hp]
  have hface := hit_face ht hm ho hh
  obtain ⟨f1, f2, f3, ⟨k', -, f4⟩, f5⟩ := hit_rect ht hm ho hh
  have on := rect_onPlane ho f3
  rw [f4] at on
  have on' : OnPlane (center m).xyz (vX m).xyz ((q + k • d).xyz + k • (-d).xyz) := by rw [e0]; exact rect_onPlane ho hi
  have := onPlane_unique f5 on on'
  subst this
  rw [e0] at f4
  have wq' : q'.w = 1 := (c2 q' y z hp).1
  have : q' = q := by
    have ux := congrArg V3.x f4
    have uy := congrArg V3.y f4
    have uz := congrArg V3.z f4
    ext
    · exact ux
    · exact uy
    · exact uz
    · rw [wq, wq']
  subst this
  have := face_inj hm ho (hface.symm.trans hq)
  subst this
  exact hh

theorem diffract_m (m : M4) (tr cat : Bool) (g : ℝ) (per bm : ℝ × ℝ → ℝ) (order : ℝ → Option ℝ → ℤ × ℝ) (d pol : H4) (E : ℝ)
    (c : ℝ × ℝ) : ∃ b, ((planeGrating m tr cat g per bm order).diffract d pol E c).m = (order E b).1 := by
  simp only [Grating.diffract, planeGrating]
  split
  · exact ⟨none, rfl⟩
  · exact ⟨_, rfl⟩

theorem unit_self {d : H4} (h : d.dot d = 1) : d.unit = d := by
  rw [H4.unit, H4.norm, h, Real.sqrt_one]
  ext <;> simp

theorem neg_dot (a b : H4) : (-a).dot b = -(a.dot b) := by rw [H4.dot_comm, H4.dot_neg_right, H4.dot_comm]

theorem neg_unit {d : H4} (h : d.dot d = 1) : (-d).dot (-d) = 1 := by rw [neg_dot, H4.dot_neg_right, neg_neg, h]

/-- Reading of `Optic.step`: what a reversible element does to a photon that hits it. -/
def Turn (o : Optic) (E : ℝ) (c : ℝ × ℝ) (d : H4) (x : Option H4) : Prop :=
  match o with
  | .plane _ | .filter _ _ => x = some d
  | .mirror m _ _ => x = some (mirrored (eX m) d)
  | .grating m tr _ g per _ order =>
    (x = none ∧ Evanescent (barDir m g) (dispDir m g) d ((order E none).1 * (energy2wave / E) / per c)) ∨
      ∃ d1, x = some d1 ∧ GratingEquation tr (barDir m g) (dispDir m g) (eX m) d d1 ((order E none).1 * (energy2wave / E) / per c)
  | _ => False

theorem step_turn {o : Optic} (ho : o.Reversible) {m : M4} (hm : o.rectangle = some m) {r r1 : Ray} (hr : r.WellFormed)
    (he : r.energy ≠ 0) {d q p : H4} {y z : ℝ} (hu : d.dot d = 1) (h : r.hit m = some (d, q, y, z, p)) (hs : o.step r = .ok r1) :
    r1.pos = some q ∧ r1.energy = r.energy ∧ r1.coos = r.coos ++ [(y, z)] ∧ Turn o r.energy (y, z) d r1.dir := by
  obtain ⟨e1, -⟩ := hit_rect hr (by obtain ⟨m', h1, h2, -⟩ := ho.rect; rw [hm] at h1; cases h1; exact h2)
    (by obtain ⟨m', h1, -, h2⟩ := ho.rect; rw [hm] at h1; cases h1; exact h2) h
  cases o <;> simp only [Optic.Reversible] at ho <;> simp only [Optic.rectangle, Option.some.injEq] at hm <;> subst hm
  case plane =>
    simp only [Optic.step, h] at hs
    cases hs
    exact ⟨rfl, rfl, rfl, e1⟩
  case filter f =>
    simp only [Optic.step, h] at hs
    split at hs <;> cases hs
    exact ⟨rfl, rfl, rfl, e1⟩
  case mirror rs rp =>
    have hd : IsDir d := hr.2.1 d e1
    have hsp := (C23_specular _ ho.1.1 ho.2 ho.1.2 d hd).1
    have h0 : d.dot d ≠ 0 := by rw [hu]; exact one_ne_zero
    simp only [Optic.step, h] at hs
    split at hs
    · cases hs
      refine ⟨rfl, rfl, rfl, ?_⟩
      simp only [Turn, Ray.at, Ray.times, h0, if_false, unit_self hu, hsp]
    · split at hs
      · cases hs
      · cases hs
        refine ⟨rfl, rfl, rfl, ?_⟩
        simp only [Turn, Ray.at, Ray.times, h0, if_false, unit_self hu, hsp]
      · rename_i out hb
        cases hs
        refine ⟨rfl, rfl, rfl, ?_⟩
        simp only [brewster, h0, if_false] at hb
        split at hb
        · cases hb
        split at hb
        · cases hb
        · cases hb
          simp only [Turn, Ray.at, Ray.times, unit_self hu, hsp]
  case grating m tr cat g per bm order =>
    obtain ⟨hm, hoo, rfl, hper, hord⟩ := ho
    obtain ⟨r1', n, g1, g2, g3, g4, g5⟩ := grating_leaves hm hoo tr false g per bm order hr he (hper (y, z)) h
    rw [hs] at g1
    cases g1
    have hn : n = (order r.energy none).1 := by
      have : r1.order = some ((planeGrating m tr false g per bm order).diffract d ⟨0, 0, 0, 0⟩ r.energy (y, z)).m := by
        simp only [Optic.step, h] at hs
        cases hs
        rfl
      rw [g4] at this
      obtain ⟨b, hb⟩ := diffract_m m tr false g per bm order d ⟨0, 0, 0, 0⟩ r.energy (y, z)
      rw [hb] at this
      rw [Option.some.inj this]
      exact hord _ _ _
    subst hn
    have hen : r1.energy = r.energy := by
      simp only [Optic.step, h] at hs
      cases hs
      rfl
    refine ⟨g2, hen, g3, ?_⟩
    simp only [orderSide, Bool.false_eq_true, if_false, one_mul, unit_self hu] at g5
    exact g5

/-- The way back. -/
theorem turn_back {o : Optic} (ho : o.Reversible) {m : M4} (hm : o.rectangle = some m) {E : ℝ} {c : ℝ × ℝ} {d d1 : H4} {x : Option H4}
    (hd : IsDir d) (hu : d.dot d = 1) (hn : d.dot (eX m) ≠ 0) (hn1 : d1.dot (eX m) ≠ 0) (h : Turn o E c d (some d1))
    (h' : Turn o E c (-d1) x) : d1.dot d1 = 1 ∧ IsDir d1 ∧ x = some (-d) := by
  cases o <;> simp only [Optic.Reversible] at ho <;> simp only [Optic.rectangle, Option.some.injEq] at hm <;> subst hm
  case plane => cases h; exact ⟨hu, hd, h'⟩
  case filter f => cases h; exact ⟨hu, hd, h'⟩
  case mirror rs rp =>
    rename_i m
    have hf := (C19_flat_and_bent m ho.1.1 ho.2).1
    simp only [planeBases] at hf
    have wx : (eX m).w = 0 := hf.wc
    have wd : d.w = 0 := hd
    simp only [Turn, Option.some.injEq] at h h'
    subst h
    have hmd : (mirrored (eX m) d).dot (eX m) = -(d.dot (eX m)) := by
      simp only [mirrored, H4.dot_sub_left, H4.dot_smul_left, hf.cc]; ring
    refine ⟨?_, by simp [IsDir, mirrored, wx, wd], ?_⟩
    · simp only [mirrored, H4.dot_sub_left, H4.dot_sub_right, H4.dot_smul_left, H4.dot_smul_right, hf.cc, hu, H4.dot_comm (eX m) d]; ring
    · rw [h']
      congr 1
      have : mirrored (eX m) (-mirrored (eX m) d) = -mirrored (eX m) d - (2 * (d.dot (eX m))) • eX m := by
        rw [mirrored, neg_dot, hmd, neg_neg]
      rw [this]
      ext <;> simp [mirrored]
  case grating m tr cat g per bm order =>
    obtain ⟨hm, hoo, rfl, hper, hord⟩ := ho
    have f := cat_frame m g hm.1 hoo
    simp only [Turn] at h h'
    rcases h with ⟨h, -⟩ | ⟨d1', h, ge⟩
    · cases h
    cases h
    have hs := f.dot_self hd
    rw [hu] at hs
    have hs1 := f.dot_self ge.isDir
    rw [ge.unit, ge.groove, ge.dispersion] at hs1
    refine ⟨ge.unit, ge.isDir, ?_⟩
    rcases h' with ⟨-, hev⟩ | ⟨d2, rfl, ge'⟩
    · exfalso
      unfold Evanescent at hev
      rw [neg_dot, neg_dot, ge.groove, ge.dispersion] at hev
      nlinarith [sq_nonneg (d.dot (eX m))]
    · congr 1
      have wd : d.w = 0 := hd
      have hs2 := f.dot_self ge'.isDir
      rw [ge'.unit, ge'.groove, ge'.dispersion, neg_dot, neg_dot, ge.groove, ge.dispersion] at hs2
      have hsq : (d2.dot (eX m) - d.dot (eX m)) * (d2.dot (eX m) + d.dot (eX m)) = 0 := by linear_combination hs - hs2
      have sd := ge.side
      have sd' := ge'.side
      rw [neg_dot] at sd'
      have hprod : d1.dot (eX m) * d.dot (eX m) ≠ 0 := mul_ne_zero hn1 hn
      have hnn : d2.dot (eX m) = -(d.dot (eX m)) := by
        rcases mul_eq_zero.1 hsq with h0 | h0
        · exfalso
          have e : d2.dot (eX m) = d.dot (eX m) := by linarith
          rw [e] at sd'
          cases tr
          · simp only [Bool.false_eq_true, if_false] at sd sd'
            exact hprod (by nlinarith)
          · simp only [if_true] at sd sd'
            exact hprod (by nlinarith)
        · linarith
      refine f.ext ge'.isDir (by simp [IsDir, wd]) ?_ ?_ ?_
      · rw [ge'.groove, neg_dot, neg_dot, ge.groove]
      · rw [ge'.dispersion, neg_dot, neg_dot, ge.dispersion]; ring
      · rw [neg_dot, hnn]

/-- A photon without polarization is never refused. -/
theorem step_unpolarized {o : Optic} (ho : o.Reversible) {m : M4} (hm : o.rectangle = some m) {r r1 t : Ray} {d q p d' q' p' : H4} {y z y' z' : ℝ}
    (h : r.hit m = some (d, q, y, z, p)) (hs : o.step r = .ok r1) (ht : t.hit m = some (d', q', y', z', p')) (hpol : t.pol = none)
    (hen : t.energy = r.energy) : ∃ t', o.step t = .ok t' ∧ t'.pol = none := by
  cases o <;> simp only [Optic.Reversible] at ho <;> simp only [Optic.rectangle, Option.some.injEq] at hm <;> subst hm
  case plane => simp only [Optic.step, ht]; exact ⟨_, rfl, hpol⟩
  case filter f =>
    simp only [Optic.step, h] at hs
    simp only [Optic.step, ht, hen]
    split at hs
    · cases hs
    · exact ⟨_, rfl, hpol⟩
  case mirror rs rp => simp only [Optic.step, ht, hpol]; exact ⟨_, rfl, rfl⟩
  case grating m tr cat g per bm order =>
    simp only [Optic.step, ht]
    refine ⟨_, rfl, ?_⟩
    simp only [Ray.at, Ray.times, hpol, Option.bind_none]

theorem run_snoc {os : List Optic} {o : Optic} {r t : Ray} :
    runOptics (os ++ [o]) r = .ok t ↔ ∃ r1, runOptics os r = .ok r1 ∧ o.step r1 = .ok t := by
  induction os generalizing r with
  | nil =>
    simp only [List.nil_append, runOptics]
    constructor
    · intro h
      split at h
      · cases h
      · rename_i r' hr'
        cases h
        exact ⟨r, rfl, hr'⟩
    · rintro ⟨r1, h1, h2⟩
      cases h1
      rw [h2]
  | cons a os ih =>
    simp only [List.cons_append, runOptics]
    split
    · simp
    · exact ih

theorem Through.snoc {os : List Optic} {o : Optic} {r s t : Ray} {cs : List (ℝ × ℝ)} {c : ℝ × ℝ} (h : Through os r s cs)
    (h1 : hitCoos o s = some c) (h2 : o.step s = .ok t) (h3 : o.Leaves t) : Through (os ++ [o]) r t (cs ++ [c]) := by
  induction h with
  | nil r => exact .cons h1 h2 h3 (.nil _)
  | cons a b e _ ih => exact .cons a b e (ih h1 h2)

theorem through_wf {os : List Optic} (hos : ∀ o ∈ os, o.Reversible) {r s : Ray} {cs : List (ℝ × ℝ)} (h : Through os r s cs)
    (hr : r.WellFormed) : s.WellFormed := by
  induction h with
  | nil r => exact hr
  | cons a b e _ ih =>
    exact ih (fun o ho => hos o (by simp [ho])) (C157_well_formed _ (hos _ (by simp)).placed _ _ hr b)

theorem reverse_core {os : List Optic} (hos : ∀ o ∈ os, o.Reversible) {r s : Ray} {cs : List (ℝ × ℝ)} (h : Through os r s cs)
    (hr : r.WellFormed) (he : r.energy ≠ 0) {d p : H4} (hd : r.dir = some d) (hu : d.dot d = 1) (hp : r.pos = some p) :
    (∀ pol t, (∀ x, pol = some x → IsDir x) → runOptics os.reverse (s.back pol) = .ok t →
      Through os.reverse (s.back pol) t cs.reverse ∧ t.dir = some (-d) ∧ (∃ k : ℝ, 0 ≤ k ∧ t.pos = some (p + k • d)) ∧
      t.energy = r.energy ∧ t.WellFormed) ∧
    ∃ t, runOptics os.reverse (s.back none) = .ok t ∧ t.pol = none := by
  induction h generalizing d p with
  | nil r =>
    refine ⟨fun pol t hpol ht => ?_, _, rfl, rfl⟩
    cases ht
    refine ⟨.nil _, by simp only [Ray.back, hd, Option.map_some], ⟨0, le_rfl, ?_⟩, rfl, hr.1, ?_, hpol⟩
    · simp only [Ray.back, hp]; congr 1; ext <;> simp
    · intro x hx
      simp only [Ray.back, hd, Option.map_some, Option.some.injEq] at hx
      subst hx
      have : d.w = 0 := hr.2.1 d hd
      simp [IsDir, this]
  | @cons o os r r1 s c cs h1 h2 h3 h4 ih =>
    have ho := hos o (by simp)
    obtain ⟨m, hm, hpl, hoo⟩ := ho.rect
    obtain ⟨m', d1, hm', hd1, hn1⟩ := h3
    rw [hm] at hm'
    cases hm'
    obtain ⟨d', q, p', hh⟩ := hitCoos_some hm h1
    obtain ⟨e1, e2, e3, ⟨k, hk, e4⟩, e5⟩ := hit_rect hr hpl hoo hh
    rw [hd] at e1
    cases e1
    rw [hp] at e2
    cases e2
    obtain ⟨-, -, k', hk', e6⟩ := hit_forward hh
    have hdd : IsDir d := hr.2.1 d hd
    have hn : d.dot (eX m) ≠ 0 := by
      have wx : (vX m).w = 0 := hpl.1.1
      rw [dot_xyz _ _ (.inl hdd), eX, unit_xyz _ wx, V3.unit, V3.dot_smul_right]
      exact mul_ne_zero (one_div_ne_zero fun h0 => hoo.x0 (V3.dot_self_eq_zero.1 (by rw [← V3.norm_sq, h0]; ring))) e5
    obtain ⟨s1, s2, s3, s4⟩ := step_turn ho hm hr he hu hh h2
    rw [hd1] at s4
    have hr1 : r1.WellFormed := C157_well_formed o ho.placed r r1 hr h2
    have hq := hit_face hr hpl hoo hh
    have hpq : IsPoint q := (hit_spec hr hh).2.1
    have hdd1 : IsDir d1 := hr1.2.1 d1 hd1
    -- whatever the element does on the way back
    have back : ∀ t : Ray, t.WellFormed → t.dir = some (-d1) → (∃ k : ℝ, 0 ≤ k ∧ t.pos = some (q + k • d1)) → t.energy = r.energy →
        (hitCoos o t = some c ∧ ∃ y, t.hit m = some (-d1, q, c.1, c.2, y)) ∧ d1.dot d1 = 1 := by
      rintro t ht td ⟨k, hk, tp⟩ te
      have hb := back_hit hpl hoo hq e3 hpq hdd1 hn1 hk ht td tp
      refine ⟨⟨hitCoos_of_hit hm hb, _, hb⟩, ?_⟩
      cases o <;> simp only [Optic.Reversible] at ho <;> simp only [Optic.rectangle, Option.some.injEq] at hm <;> subst hm
      case plane => cases s4; exact hu
      case filter => cases s4; exact hu
      case mirror m rs rp =>
        have hf := (C19_flat_and_bent m ho.1.1 ho.2).1
        simp only [planeBases] at hf
        cases s4
        simp only [mirrored, H4.dot_sub_left, H4.dot_sub_right, H4.dot_smul_left, H4.dot_smul_right, hf.cc, hu, H4.dot_comm (eX m) d]
        ring
      case grating =>
        rcases s4 with ⟨s4, -⟩ | ⟨x, s4, ge⟩
        · cases s4
        · cases s4; exact ge.unit
    have hu1 : d1.dot d1 = 1 := by
      refine (back { r1 with dir := some (-d1) } ⟨hr1.1, ?_, hr1.2.2⟩ rfl ⟨0, le_rfl, ?_⟩ s2).2
      · intro x hx
        cases hx
        have : d1.w = 0 := hdd1
        simp [IsDir, this]
      · simp only [s1]; congr 1; ext <;> simp
    obtain ⟨i1, t1, i2, i3⟩ := ih (fun o ho => hos o (by simp [ho])) hr1 (by rw [s2]; exact he) hd1 hu1 s1
    simp only [List.reverse_cons]
    constructor
    · intro pol t hpol ht
      obtain ⟨t1, ht1, ht2⟩ := run_snoc.1 ht
      obtain ⟨j1, j2, j3, j4, j5⟩ := i1 pol t1 hpol ht1
      rw [s2] at j4
      obtain ⟨⟨b1, y, b2⟩, -⟩ := back t1 j5 j2 j3 j4
      have hu' := neg_unit hu1
      obtain ⟨u1, u2, u3, u4⟩ := step_turn ho hm j5 (by rw [j4]; exact he) hu' b2 ht2
      rw [j4] at u4
      obtain ⟨-, -, u5⟩ := turn_back ho hm hdd hu hn hn1 s4 u4
      refine ⟨j1.snoc b1 ht2 ⟨m, -d, hm, u5, ?_⟩, u5, ⟨k', hk', by rw [u1, e6]⟩, by rw [u2, j4],
        C157_well_formed o ho.placed t1 t j5 ht2⟩
      rw [neg_dot]
      exact neg_ne_zero.2 hn
    · obtain ⟨j1, j2, j3, j4, j5⟩ := i1 none t1 (by simp) i2
      rw [s2] at j4
      obtain ⟨⟨b1, y, b2⟩, -⟩ := back t1 j5 j2 j3 j4
      obtain ⟨t, ht, htp⟩ := step_unpolarized ho hm hh h2 b2 i3 j4
      exact ⟨t, run_snoc.2 ⟨t1, i2, ht⟩, htp⟩

/-- **C170** Light paths are reversible: a photon that is sent back after it went through any number of detectors, filters, mirrors
and gratings (all orders) hits the same elements at the same places in the opposite order and comes back to the line on which it
came, in the opposite direction. -/
theorem C170_reversible (os : List Optic) (hos : ∀ o ∈ os, o.Reversible) (r s : Ray) (cs : List (ℝ × ℝ)) (h : Through os r s cs)
    (hr : r.WellFormed) (he : r.energy ≠ 0) (d p : H4) (hd : r.dir = some d) (hu : d.dot d = 1) (hp : r.pos = some p) :
    (∀ pol t, (∀ x, pol = some x → IsDir x) → runOptics os.reverse (s.back pol) = .ok t →
      Through os.reverse (s.back pol) t cs.reverse ∧ t.dir = some (-d) ∧ ∃ k : ℝ, 0 ≤ k ∧ t.pos = some (p + k • d)) ∧
    ∃ t, runOptics os.reverse (s.back none) = .ok t := by
  obtain ⟨h1, t, h2, -⟩ := reverse_core hos h hr he hd hu hp
  refine ⟨fun pol t hpol ht => ?_, t, h2⟩
  obtain ⟨a, b, c, -, -⟩ := h1 pol t hpol ht
  exact ⟨a, b, c⟩

/-- A photon goes through a grating (order -1) and a detector. -/
example : ∃ (os : List Optic) (s : Ray), (∀ o ∈ os, o.Reversible) ∧ Through os axisRay s [(1 / 2, 0), (-(1 / 4), 0)] ∧ axisRay.WellFormed ∧
    axisRay.energy ≠ 0 ∧ (∃ d, axisRay.dir = some d ∧ d.dot d = 1 ∧ s.dir ≠ some d) ∧ axisRay.pos ≠ none := by
  obtain ⟨u1, u2, u3⟩ := square_units 0 0 0
  obtain ⟨v1, v2, v3⟩ := square_units (-1) 0 0
  obtain ⟨r1, g1, h1, g2, -, -, -, hh1⟩ := three_fifths false
  have hw : energy2wave ≠ 0 := by norm_num [energy2wave]
  refine ⟨[.grating (square 0 0 0) true false 0 (fun _ => 5 / 3 * energy2wave) (fun _ => 0) fun _ _ => (-1, 1), .plane (square (-1) 0 0)],
    r1.at ⟨-1, -(1 / 4), 0, 1⟩ (-(1 / 4)) 0, ?_, ?_, axisRay_ok, by norm_num [axisRay], ⟨_, rfl, by norm_num [H4.dot], ?_⟩,
    by simp [axisRay]⟩
  · intro o ho
    simp only [List.mem_cons, List.not_mem_nil, or_false] at ho
    rcases ho with rfl | rfl
    · exact ⟨(square_ortho _ _ _).1, (square_ortho _ _ _).2, rfl, fun _ => by simpa using hw, fun _ _ _ => rfl⟩
    · exact square_ortho _ _ _
  · simp only [Bool.false_eq_true, if_false] at g1
    refine .cons (hitCoos_of_hit rfl h1) g1 ⟨_, _, rfl, g2, ?_⟩
      (.cons (r1 := r1.at ⟨-1, -(1 / 4), 0, 1⟩ (-(1 / 4)) 0) (hitCoos_of_hit rfl hh1) (by simp only [Optic.step, hh1])
        ⟨_, _, rfl, g2, ?_⟩ (.nil _))
    · rw [u1]; norm_num [H4.dot]
    · rw [v1]; norm_num [H4.dot]
  · simp only [Ray.at, g2]
    norm_num [H4.ext_iff]

/-- **C170** For CAT gratings the sign of the order depends on the direction of the photon: a photon that is sent back after it
was diffracted may be lost. -/
theorem C170_cat_false : ∃ (m : M4) (per bm : ℝ × ℝ → ℝ) (order : ℝ → Option ℝ → ℤ × ℝ) (r s t : Ray) (c : ℝ × ℝ),
    Placed m ∧ OrthoAxes m ∧ r.WellFormed ∧ (∀ e b b', order e b = order e b') ∧
    Through [.grating m true true 0 per bm order] r s [c] ∧
    (Optic.grating m true true 0 per bm order).step (s.back none) = .ok t ∧
    hitCoos (.grating m true true 0 per bm order) (s.back none) = some c ∧ t.dir = none := by
  obtain ⟨u1, u2, u3⟩ := square_units 0 0 0
  obtain ⟨pg, og⟩ := square_ortho 0 0 0
  obtain ⟨r1, g1, h1, g2, g3, g4, -, -⟩ := three_fifths true
  have hw : energy2wave ≠ 0 := by norm_num [energy2wave]
  simp only [if_true] at g1
  have hr1 : r1.WellFormed :=
    C157_well_formed (.grating (square 0 0 0) true true 0 (fun _ => 5 / 3 * energy2wave) (fun _ => 0) fun _ _ => (1, 1)) pg
      axisRay r1 axisRay_ok g1
  have hl : barDir (square 0 0 0) 0 = ⟨0, 0, 1, 0⟩ := by simp only [barDir, u2, u3]; ext <;> simp
  have hd : dispDir (square 0 0 0) 0 = ⟨0, 1, 0, 0⟩ := by simp only [dispDir, u2, u3]; ext <;> simp
  have hen : r1.energy = 1 := by
    simp only [Optic.step, h1] at g1
    cases g1
    rfl
  have hb : (r1.back none).WellFormed := by
    refine ⟨hr1.1, ?_, by simp [Ray.back]⟩
    intro x hx
    simp only [Ray.back, g2, Option.map_some, Option.some.injEq] at hx
    subst hx
    simp [IsDir]
  have hq : (⟨0, 1 / 2, 0, 1⟩ : H4) = facePoint (square 0 0 0) (1 / 2, 0) := hit_face axisRay_ok pg og h1
  have hhit : (r1.back none).hit (square 0 0 0) = some (-⟨-(4 / 5), -(3 / 5), 0, 0⟩, ⟨0, 1 / 2, 0, 1⟩, 1 / 2, 0,
      ⟨0, 1 / 2, 0, 1⟩ + (0 : ℝ) • ⟨-(4 / 5), -(3 / 5), 0, 0⟩) := by
    refine back_hit (d := ⟨-(4 / 5), -(3 / 5), 0, 0⟩) pg og hq (hit_rect axisRay_ok pg og h1).2.2.1 rfl rfl ?_ le_rfl hb ?_ ?_
    · rw [u1]; norm_num [H4.dot]
    · simp only [Ray.back, g2, Option.map_some]
    · simp only [Ray.back, g3]; congr 1; ext <;> simp
  obtain ⟨t, n, t1, -, -, t2, t3⟩ := grating_leaves pg og true true 0 (fun _ => 5 / 3 * energy2wave) (fun _ => 0)
    (fun _ _ => (1, 1)) hb (by rw [show (r1.back none).energy = r1.energy from rfl, hen]; exact one_ne_zero) (by simpa using hw) hhit
  have hn : n = 1 := by
    have : t.order = some 1 := by
      simp only [Optic.step, hhit] at t1
      cases t1
      simp only [Ray.at, Ray.times, Grating.diffract, planeGrating]
      split <;> rfl
    rw [t2] at this
    exact Option.some.inj this
  subst hn
  refine ⟨_, _, _, _, axisRay, r1, t, (1 / 2, 0), pg, og, axisRay_ok, fun _ _ _ => rfl,
    .cons (hitCoos_of_hit rfl h1) g1 ⟨_, _, rfl, g2, by rw [u1]; norm_num [H4.dot]⟩ (.nil _), t1, hitCoos_of_hit rfl hhit, ?_⟩
  rcases t3 with ⟨t3, -⟩ | ⟨d2, -, ge⟩
  · exact t3
  · exfalso
    have du : (-⟨-(4 / 5), -(3 / 5), 0, 0⟩ : H4).unit = ⟨4 / 5, 3 / 5, 0, 0⟩ := by
      rw [unit_self (by norm_num [H4.dot])]; ext <;> simp
    rw [du, hd, hl, u1] at ge
    have hs := frame_standard.dot_self ge.isDir
    rw [ge.unit, ge.dispersion] at hs
    have e : (r1.back none).energy = 1 := hen
    have h35 : (⟨4 / 5, 3 / 5, 0, 0⟩ : H4).dot ⟨0, 1, 0, 0⟩ = 3 / 5 := by norm_num [H4.dot]
    rw [h35, e] at hs
    have : orderSide true (3 / 5) * (((1 : ℤ) : ℝ) * (energy2wave / 1) / (5 / 3 * energy2wave)) = 3 / 5 := by
      simp only [orderSide, catSide]
      push_cast
      field_simp
      norm_num
    rw [this] at hs
    nlinarith [sq_nonneg (d2.dot ⟨0, 0, 1, 0⟩), sq_nonneg (d2.dot ⟨1, 0, 0, 0⟩)]

end Marxs
