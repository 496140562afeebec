import Verif.Spec.Physical
import Verif.Props.RigidMotion

/-!
# C158: photons stay physical on their way through an instrument
-/

namespace Marxs
open Classical

theorem unit_iff (v : V3) : v.norm = 1 ↔ v.dot v = 1 := by
  rw [V3.norm, Real.sqrt_eq_one]

/-- parallel transport of a polarization that is almost perpendicular -/
theorem transport_almost {a b pol out : H4} (ha : a.xyz.norm = 1) (hb : b.xyz.norm = 1) (hp : pol.xyz.norm = 1) {eps : ℝ}
    (he : |pol.xyz.dot a.xyz| ≤ eps) (h : parallelTransport a b pol = some out) :
    IsDir out ∧ out.xyz.norm = 1 ∧ |out.xyz.dot b.xyz| ≤ eps + 1 / 10 ^ 8 := by
  rw [unit_iff] at ha hb hp
  have a0 : a.xyz ≠ 0 := V3.ne_zero_of_unit ha
  have b0 : b.xyz ≠ 0 := V3.ne_zero_of_unit hb
  rw [parallelTransport_vec, V3.unit_of_unit ha, V3.unit_of_unit hb, if_neg (by simp [a0, b0])] at h
  generalize a.xyz = a at *
  generalize b.xyz = b at *
  generalize pol.xyz = p at *
  split_ifs at h with hc
  · cases h
    refine ⟨rfl, (unit_iff _).2 hp, ?_⟩
    show |p.dot b| ≤ _
    have hn : (a.cross b).norm ≤ 1 / 10 ^ 8 := by
      simp only [isclose, sub_zero, abs_zero, mul_zero, add_zero] at hc
      exact (le_abs_self _).trans hc
    have id1 : p.dot b = p.dot a * a.dot b + (p.cross a).dot (b.cross a) := by
      have : (p.cross a).dot (b.cross a) = p.dot b * a.dot a - p.dot a * a.dot b := by
        simp only [V3.dot, V3.cross]; ring
      rw [this, ha]; ring
    have c1 := V3.cauchy a b
    rw [ha, hb, one_mul] at c1
    have c2 := V3.cauchy (p.cross a) (b.cross a)
    have e1 : (p.cross a).dot (p.cross a) ≤ 1 := by
      rw [V3.cross_dot_cross, hp, ha]; nlinarith [sq_nonneg (p.dot a)]
    have e2 : (b.cross a).dot (b.cross a) = (a.cross b).norm ^ 2 := by
      rw [V3.norm_sq, V3.cross_dot_cross, V3.cross_dot_cross, V3.dot_comm a b]; ring
    have e3 : |a.dot b| ≤ 1 := abs_le_of_sq_le_sq (by rw [one_pow]; exact c1) zero_le_one |> fun h => abs_le.2 ⟨(abs_le.1 h).1, (abs_le.1 h).2⟩
    have n0 := V3.norm_nonneg (a.cross b)
    have e4 : |(p.cross a).dot (b.cross a)| ≤ 1 / 10 ^ 8 := by
      apply abs_le_of_sq_le_sq _ (by norm_num)
      rw [e2] at c2
      calc _ ≤ _ := c2
        _ ≤ 1 * (a.cross b).norm ^ 2 := mul_le_mul_of_nonneg_right e1 (sq_nonneg _)
        _ ≤ _ := by rw [one_mul]; exact pow_le_pow_left₀ n0 hn 2
    rw [id1]
    calc _ ≤ |p.dot a * a.dot b| + |(p.cross a).dot (b.cross a)| := abs_add_le _ _
      _ ≤ eps + 1 / 10 ^ 8 := by
        refine add_le_add ?_ e4
        rw [abs_mul]
        calc _ ≤ |p.dot a| * 1 := mul_le_mul_of_nonneg_left e3 (abs_nonneg _)
          _ ≤ eps := by rw [mul_one]; exact he
  · cases h
    have hs0 : a.cross b ≠ 0 := by
      intro h0
      apply hc
      have : (a.cross b).norm = 0 := by rw [h0]; simp [V3.norm, V3.dot]
      rw [this]; simp [isclose]
    set s := (a.cross b).unit with hs
    have s1 : s.dot s = 1 := V3.unit_dot_unit hs0
    have sa : s.dot a = 0 := by
      rw [hs, V3.unit, V3.dot_smul_left, V3.dot_comm, V3.dot_cross_left, mul_zero]
    have sb : s.dot b = 0 := by
      rw [hs, V3.unit, V3.dot_smul_left, V3.dot_comm, V3.dot_cross_right, mul_zero]
    have bs1 : (b.cross s).dot (b.cross s) = 1 := by rw [V3.cross_dot_cross, hb, s1, V3.dot_comm, sb]; ring
    have as1 : (a.cross s).dot (a.cross s) = 1 := by rw [V3.cross_dot_cross, ha, s1, V3.dot_comm, sa]; ring
    have bsb : (b.cross s).dot b = 0 := by rw [V3.dot_comm, V3.dot_cross_left]
    have bss : s.dot (b.cross s) = 0 := by rw [V3.dot_cross_right]
    have asa : (a.cross s).dot a = 0 := by rw [V3.dot_comm, V3.dot_cross_left]
    have ass : s.dot (a.cross s) = 0 := by rw [V3.dot_cross_right]
    refine ⟨rfl, ?_, ?_⟩
    · rw [unit_iff]
      have e := ortho_expand s1 as1 ha ass sa asa p
      have hl : p.dot p = (p.dot s) ^ 2 + (p.dot (a.cross s)) ^ 2 + (p.dot a) ^ 2 := by
        conv_lhs => rw [e]
        simp only [V3.dot_add_left, V3.dot_add_right, V3.dot_smul_left, V3.dot_smul_right, s1, as1, ha, ass, sa, asa,
          V3.dot_comm (a.cross s) s, V3.dot_comm a s, V3.dot_comm a (a.cross s)]
        ring
      rw [V3.toDir_xyz]
      simp only [V3.dot_add_left, V3.dot_add_right, V3.dot_smul_left, V3.dot_smul_right, s1, bs1, hb, bss, sb, bsb,
        V3.dot_comm (b.cross s) s, V3.dot_comm b s, V3.dot_comm b (b.cross s)]
      rw [hp] at hl
      rw [V3.dot_comm s p, V3.dot_comm (a.cross s) p, V3.dot_comm a p]
      linear_combination -hl
    · rw [V3.toDir_xyz, V3.dot_add_left, V3.dot_add_left, V3.dot_smul_left, V3.dot_smul_left, V3.dot_smul_left, sb, bsb, hb,
        mul_zero, mul_zero, zero_add, zero_add, mul_one, V3.dot_comm]
      calc _ ≤ eps := he
        _ ≤ _ := by norm_num

theorem Ray.Physical.mono {eps eps' : ℝ} {r : Ray} (h : r.Physical eps) (he : eps ≤ eps') : r.Physical eps' :=
  ⟨h.pos, h.dir, h.pol, fun d q hd hq => (h.perp d q hd hq).trans he, h.prob⟩

theorem Ray.Physical.wf {eps : ℝ} {r : Ray} (h : r.Physical eps) : r.WellFormed :=
  ⟨h.pos, fun d hd => (h.dir d hd).1, fun q hq => (h.pol q hq).1⟩

theorem physical_at {eps : ℝ} {r : Ray} (h : r.Physical eps) {q : H4} (hq : IsPoint q) (y z : ℝ) :
    (r.at q y z).Physical eps :=
  ⟨fun p hp => by cases hp; exact hq, h.dir, h.pol, h.perp, h.prob⟩

theorem times_prob {r : Ray} (hr : ∀ p, r.prob = some p → 0 ≤ p ∧ p ≤ 1) {f : Option ℝ} (hf : ∀ x, f = some x → 0 ≤ x ∧ x ≤ 1) :
    ∀ p', (r.times f).prob = some p' → (0 ≤ p' ∧ p' ≤ 1) ∧ ∃ p, r.prob = some p ∧ p' ≤ p := by
  intro p' hp'
  simp only [Ray.times] at hp'
  cases ha : r.prob with
  | none => rw [ha] at hp'; cases hp'
  | some a =>
  cases hb : f with
  | none => rw [ha, hb] at hp'; cases hp'
  | some b =>
  rw [ha, hb] at hp'
  cases hp'
  obtain ⟨a0, a1⟩ := hr a ha
  obtain ⟨b0, b1⟩ := hf b hb
  have : a * b ≤ a := mul_le_of_le_one_right a0 b1
  exact ⟨⟨mul_nonneg a0 b0, this.trans a1⟩, a, rfl, this⟩

theorem filterValue_range {f : ℝ → ℝ} {e p : ℝ} (h : filterValue f e = .ok p) : 0 ≤ p ∧ p ≤ 1 := by
  simp only [filterValue] at h
  split_ifs at h with hc
  cases h
  push Not at hc
  exact hc

/-- assemble the photon after an interaction -/
theorem physical_new {eps : ℝ} {r : Ray} (hr : r.Physical eps) {d p : Option H4} {o : Option ℤ} {b f : Option ℝ} {q : H4} {y z : ℝ}
    (hq : IsPoint q) (hd : ∀ v, d = some v → IsDir v ∧ v.xyz.norm = 1) (hp : ∀ v, p = some v → IsDir v ∧ v.xyz.norm = 1)
    {eps' : ℝ} (hperp : ∀ v w, d = some v → p = some w → |w.xyz.dot v.xyz| ≤ eps') (hf : ∀ x, f = some x → 0 ≤ x ∧ x ≤ 1) :
    (Ray.at (Ray.times ⟨r.pos, d, p, r.prob, r.energy, o, b, r.coos⟩ f) q y z).Physical eps' ∧
    ProbDown r (Ray.at (Ray.times ⟨r.pos, d, p, r.prob, r.energy, o, b, r.coos⟩ f) q y z) :=
  ⟨⟨fun p hp => by cases hp; exact hq, hd, hp, hperp, fun p h => (times_prob hr.prob hf p h).1⟩,
    fun p h => (times_prob hr.prob hf p h).2⟩

theorem hit_dir {r : Ray} {m : M4} {d q p : H4} {y z : ℝ} (h : r.hit m = some (d, q, y, z, p)) :
    r.dir = some d ∧ r.pos = some p ∧ d.dot (eX m) ≠ 0 := by
  simp only [Ray.hit] at h
  split at h
  · rename_i d' p' hd hp
    split at h
    · rename_i q' y' z' hq
      cases h
      refine ⟨hd, hp, fun h0 => ?_⟩
      simp [planeIntersect, h0] at hq
    · cases h
  · cases h

theorem diffracted_unit {m : M4} (hm : Affine m) (ho : OrthoAxes m) (transmission cat : Bool) (groove : ℝ)
    (dd blazeMod : ℝ × ℝ → ℝ) (order : ℝ → Option ℝ → ℤ × ℝ) {dir pol v : H4} (energy : ℝ) (coo : ℝ × ℝ)
    (hn : dir.dot (eX m) ≠ 0)
    (h : ((planeGrating m transmission cat groove dd blazeMod order).diffract dir pol energy coo).dir = some v) :
    IsDir v ∧ v.xyz.norm = 1 := by
  set g := planeGrating m transmission cat groove dd blazeMod order with hg
  have hb : Frame (g.bases coo).1 (g.bases coo).2.1 (g.bases coo).2.2 := (C19_flat_and_bent m hm ho).1
  have f := g.frame_ok coo hb
  have hfn : (g.frame coo).2.2 = eX m := rfl
  simp only [Grating.diffract, normVector] at h
  by_cases h0 : dir.dot dir = 0
  · simp [h0] at h
  · simp only [h0, if_false] at h
    split_ifs at h with h1
    obtain ⟨k1, k2, k3, k4, k5⟩ := diffractDir_components f h
    refine ⟨k1, ?_⟩
    have hpn : dir.unit.dot (g.frame coo).2.2 ≠ 0 := by
      have hne : dir.norm ≠ 0 := by
        intro h'; apply h0; rw [← H4.norm_sq, h']; ring
      rw [H4.unit, H4.dot_smul_left, hfn]
      exact mul_ne_zero (one_div_ne_zero hne) hn
    have w : v.w = 0 := k1
    rw [unit_iff, ← dot_xyz v v (.inl w), f.dot_self k1, k2, k3, k5, mul_pow, Real.sq_sqrt k4]
    have : (if g.transmission then Real.sign (dir.unit.dot (g.frame coo).2.2) else - Real.sign (dir.unit.dot (g.frame coo).2.2)) ^ 2 = 1 := by
      split_ifs <;> simp [sq, sign_mul_sign hpn]
    rw [this]; ring

/-- **C158** One element: a physical photon is a physical photon afterwards, its probability is not higher and its energy
is the same. The angle between polarization and direction is off by at most 1e-8 more than before (this is the tolerance
below which `paralleltransport_matrix` takes two directions as parallel). -/
theorem C158_element (o : Optic) (ho : o.Sensible) (eps : ℝ) (h0 : 0 ≤ eps) (r r' : Ray) (hr : r.Physical eps)
    (h : o.step r = .ok r') : r'.Physical (eps + 1 / 10 ^ 8) ∧ ProbDown r r' ∧ r'.energy = r.energy := by
  have he : eps ≤ eps + 1 / 10 ^ 8 := by norm_num
  have same : ProbDown r r := fun p hp => ⟨p, hp, le_refl _⟩
  have hr' := hr.mono he
  have old := hr.wf
  cases o with
  | plane m =>
    simp only [Optic.step] at h
    split at h <;> cases h
    · exact ⟨hr', same, rfl⟩
    · rename_i hh
      exact ⟨physical_at hr' (hit_spec old hh).2.1 _ _, same, rfl⟩
  | tube m zoomz lim0 lim1 =>
    simp only [Optic.step] at h
    split at h
    · split at h
      · cases h
      · cases h; exact ⟨hr', same, rfl⟩
      · rename_i hc
        cases h
        refine ⟨physical_at hr' ?_ _ _, same, rfl⟩
        simp only [cylIntersect] at hc
        split_ifs at hc
        split at hc
        · cases hc
        · cases hc
          exact affine_w ho _
    · split_ifs at h
      cases h; exact ⟨hr', same, rfl⟩
    · cases h
  | filter m f =>
    simp only [Optic.step] at h
    split at h
    · cases h; exact ⟨hr', same, rfl⟩
    · rename_i d q y z p0 hh
      split at h
      · cases h
      · rename_i p hp
        cases h
        have key := physical_new hr (o := r.order) (b := r.blaze) (f := some p) (y := y) (z := z) (hit_spec old hh).2.1
          (fun v hv => hr'.dir v hv) hr'.pol hr'.perp (fun x hx => by cases hx; exact filterValue_range hp)
        exact ⟨key.1, key.2, rfl⟩
  | globalFilter f =>
    simp only [Optic.step] at h
    split at h
    · cases h
    · rename_i p hp
      cases h
      have key := times_prob (r := r) hr.prob (f := some p) (fun x hx => by cases hx; exact filterValue_range hp)
      exact ⟨⟨hr'.pos, hr'.dir, hr'.pol, hr'.perp, fun p h => (key p h).1⟩, fun p h => (key p h).2, rfl⟩
  | lens m focallength dOptax refl =>
    simp only [Optic.step] at h
    split at h
    · cases h; exact ⟨hr', same, rfl⟩
    · rename_i d q y z p hh
      cases h
      obtain ⟨hd, -, -⟩ := hit_dir hh
      have lens_dir : ∀ pol out, perfectLens m focallength dOptax refl d pol q r.energy = some out →
          (IsDir out.dir ∧ out.dir.xyz.norm = 1) ∧ out.pol = parallelTransport d out.dir pol ∧ 0 ≤ out.prob ∧ out.prob ≤ 1 := by
        intro pol out hw
        simp only [perfectLens] at hw
        split_ifs at hw with h1 h2
        cases hw
        refine ⟨⟨rfl, ?_⟩, rfl, sq_nonneg _, ?_⟩
        · rw [unit_iff, V3.toDir_xyz]; exact V3.unit_dot_unit h2
        · exact pow_le_one₀ (ho.2 _ _).1 (ho.2 _ _).2
      have same_dir : ∀ pol pol' out out', perfectLens m focallength dOptax refl d pol q r.energy = some out →
          perfectLens m focallength dOptax refl d pol' q r.energy = some out' → out.dir = out'.dir := by
        intro pol pol' out out' h1 h2
        simp only [perfectLens] at h1 h2
        split_ifs at h1 h2
        cases h1; cases h2; rfl
      have key := physical_new hr (o := r.order) (b := r.blaze) (y := y) (z := z)
        (d := (perfectLens m focallength dOptax refl d ⟨0, 0, 0, 0⟩ q r.energy).map LensOut.dir)
        (p := (r.pol.bind fun pol => perfectLens m focallength dOptax refl d pol q r.energy).bind LensOut.pol)
        (f := (perfectLens m focallength dOptax refl d ⟨0, 0, 0, 0⟩ q r.energy).map LensOut.prob)
        (eps' := eps + 1 / 10 ^ 8) (hit_spec old hh).2.1 ?_ ?_ ?_ ?_
      · exact ⟨key.1, key.2, rfl⟩
      · intro v hv
        obtain ⟨w, hw, rfl⟩ := Option.map_eq_some_iff.1 hv
        exact (lens_dir _ _ hw).1
      · intro v hv
        obtain ⟨w, hw, hv⟩ := Option.bind_eq_some_iff.1 hv
        obtain ⟨pol, hpol, hw⟩ := Option.bind_eq_some_iff.1 hw
        obtain ⟨l1, l2, -⟩ := lens_dir _ _ hw
        rw [l2] at hv
        have t := transport_almost (hr.dir d hd).2 l1.2 (hr.pol pol hpol).2 (hr.perp d pol hd hpol) hv
        exact ⟨t.1, t.2.1⟩
      · intro v v' hv hv'
        obtain ⟨w', hw', rfl⟩ := Option.map_eq_some_iff.1 hv
        obtain ⟨w, hw, hv'⟩ := Option.bind_eq_some_iff.1 hv'
        obtain ⟨pol, hpol, hw⟩ := Option.bind_eq_some_iff.1 hw
        obtain ⟨l1, l2, -⟩ := lens_dir _ _ hw
        rw [l2] at hv'
        rw [same_dir _ _ _ _ hw' hw]
        exact (transport_almost (hr.dir d hd).2 l1.2 (hr.pol pol hpol).2 (hr.perp d pol hd hpol) hv').2.2
      · intro x hx
        obtain ⟨w, hw, rfl⟩ := Option.map_eq_some_iff.1 hx
        exact (lens_dir _ _ hw).2.2
  | thin m focallength =>
    simp only [Optic.step] at h
    split at h
    · cases h; exact ⟨hr', same, rfl⟩
    · rename_i d q y z p hh
      cases h
      obtain ⟨hd, -, -⟩ := hit_dir hh
      have hdu := (hr.dir d hd).2
      -- direction and polarization are turned by the same rotation
      have hrot : thinLens m focallength d ⟨0, 0, 0, 0⟩ q = none ∨ ∃ rot : M3, IsRotation rot ∧
          (∃ w0, thinLens m focallength d ⟨0, 0, 0, 0⟩ q = some w0 ∧ w0.1 = (mul3 rot d.xyz).toDir) ∧
          ∀ pol, IsDir pol → ∃ w1, thinLens m focallength d pol q = some w1 ∧ w1.2 = (mul3 rot pol.xyz).toDir := by
        simp only [thinLens]
        split_ifs with h1 h2
        · right
          refine ⟨1, by simp [IsRotation], ⟨_, rfl, by simp⟩, fun pol hp => ⟨_, rfl, ?_⟩⟩
          have hp' : pol.w = 0 := hp
          rw [mul3_one]
          ext <;> simp [V3.toDir, H4.xyz, hp']
        · exact .inl rfl
        · right
          exact ⟨_, (C16_axangle_rotation _ (V3.unit_dot_unit h2) _).1, ⟨_, rfl, rfl⟩, fun pol _ => ⟨_, rfl, rfl⟩⟩
      have hpol : ∀ pol, (thinLens m focallength d pol q = none ↔ thinLens m focallength d ⟨0, 0, 0, 0⟩ q = none) := by
        intro pol
        simp only [thinLens]
        split_ifs <;> simp
      refine ⟨⟨fun p hp => by cases hp; exact (hit_spec old hh).2.1, ?_, ?_, ?_, hr.prob⟩, same, rfl⟩
      · intro v hv
        obtain ⟨w, hw, rfl⟩ := Option.map_eq_some_iff.1 hv
        rcases hrot with hn | ⟨rot, ir, ⟨w0, e0, e1⟩, -⟩
        · rw [hn] at hw; cases hw
        · rw [e0] at hw; cases hw
          rw [e1]
          exact ⟨rfl, by rw [V3.toDir_xyz, mul3_norm ir]; exact hdu⟩
      · intro v hv
        obtain ⟨w, hw, rfl⟩ := Option.map_eq_some_iff.1 hv
        obtain ⟨pol, hp, hw⟩ := Option.bind_eq_some_iff.1 hw
        rcases hrot with hn | ⟨rot, ir, -, e2⟩
        · rw [(hpol pol).2 hn] at hw; cases hw
        · obtain ⟨w1, e3, e4⟩ := e2 pol (hr.pol pol hp).1
          rw [e3] at hw; cases hw
          rw [e4]
          exact ⟨rfl, by rw [V3.toDir_xyz, mul3_norm ir]; exact (hr.pol pol hp).2⟩
      · intro v v' hv hv'
        obtain ⟨w, hw, rfl⟩ := Option.map_eq_some_iff.1 hv
        obtain ⟨w', hw', rfl⟩ := Option.map_eq_some_iff.1 hv'
        obtain ⟨pol, hp, hw'⟩ := Option.bind_eq_some_iff.1 hw'
        rcases hrot with hn | ⟨rot, ir, ⟨w0, e0, e1⟩, e2⟩
        · rw [hn] at hw; cases hw
        · obtain ⟨w1, e3, e4⟩ := e2 pol (hr.pol pol hp).1
          rw [e3] at hw'; cases hw'
          rw [e0] at hw; cases hw
          rw [e4, e1, V3.toDir_xyz, V3.toDir_xyz, rotation_dot ir]
          exact hr'.perp d pol hd hp
  | grating m transmission cat groove dd blazeMod order =>
    simp only [Optic.step] at h
    split at h
    · cases h; exact ⟨hr', same, rfl⟩
    · rename_i d q y z p hh
      cases h
      obtain ⟨hd, -, hn⟩ := hit_dir hh
      have ind : ∀ pol pol', ((planeGrating m transmission cat groove dd blazeMod order).diffract d pol r.energy (y, z)) =
          ((planeGrating m transmission cat groove dd blazeMod order).diffract d pol' r.energy (y, z)) := fun _ _ => rfl
      have key := physical_new hr (y := y) (z := z)
        (o := some ((planeGrating m transmission cat groove dd blazeMod order).diffract d ⟨0, 0, 0, 0⟩ r.energy (y, z)).m)
        (b := ((planeGrating m transmission cat groove dd blazeMod order).diffract d ⟨0, 0, 0, 0⟩ r.energy (y, z)).blaze)
        (d := ((planeGrating m transmission cat groove dd blazeMod order).diffract d ⟨0, 0, 0, 0⟩ r.energy (y, z)).dir)
        (p := r.pol.bind fun pol => ((planeGrating m transmission cat groove dd blazeMod order).process d pol r.energy (y, z)).2)
        (f := some ((planeGrating m transmission cat groove dd blazeMod order).diffract d ⟨0, 0, 0, 0⟩ r.energy (y, z)).prob)
        (eps' := eps + 1 / 10 ^ 8) (hit_spec old hh).2.1 ?_ ?_ ?_ ?_
      · exact ⟨key.1, key.2, rfl⟩
      · intro v hv
        exact diffracted_unit ho.1.1 ho.1.2 transmission cat groove dd blazeMod order r.energy (y, z) hn hv
      · intro v hv
        obtain ⟨pol, hpol, hw⟩ := Option.bind_eq_some_iff.1 hv
        simp only [Grating.process] at hw
        split at hw
        · cases hw
        · rename_i d' hd'
          have l1 := diffracted_unit ho.1.1 ho.1.2 transmission cat groove dd blazeMod order r.energy (y, z) hn hd'
          have t := transport_almost (hr.dir d hd).2 l1.2 (hr.pol pol hpol).2 (hr.perp d pol hd hpol) hw
          exact ⟨t.1, t.2.1⟩
      · intro v v' hv hv'
        obtain ⟨pol, hpol, hw⟩ := Option.bind_eq_some_iff.1 hv'
        simp only [Grating.process] at hw
        rw [ind pol ⟨0, 0, 0, 0⟩, hv] at hw
        have l1 := diffracted_unit ho.1.1 ho.1.2 transmission cat groove dd blazeMod order r.energy (y, z) hn hv
        exact (transport_almost (hr.dir d hd).2 l1.2 (hr.pol pol hpol).2 (hr.perp d pol hd hpol) hw).2.2
      · intro x hx
        cases hx
        simp only [Grating.diffract]
        split
        · exact ho.2 _ _
        · exact ho.2 _ _
  | mirror m rs rp =>
    obtain ⟨⟨hm, ho⟩, hrs, hrp⟩ := ho
    simp only [Optic.step] at h
    split at h
    · cases h; exact ⟨hr', same, rfl⟩
    · rename_i d q y z p hh
      obtain ⟨hd, -, hn⟩ := hit_dir hh
      obtain ⟨hdw, hdu⟩ := hr.dir d hd
      have hq := (hit_spec old hh).2.1
      have hdw' : d.w = 0 := hdw
      have hdd : d.dot d = 1 := by rw [dot_xyz d d (.inl hdw')]; exact (unit_iff _).1 hdu
      have hnew : ∀ v, (if d.dot d = 0 then none else some (mirrorDir m d.unit)) = some v → IsDir v ∧ v.xyz.norm = 1 := by
        intro v hv
        split_ifs at hv
        cases hv
        rw [H4.unit_of_unit hdd, (C23_specular m hm.1 ho hm.2 d hdw).1]
        have we : (eX m).w = 0 := H4.unit_w hm.1.1
        have wv : (mirrored (eX m) d).w = 0 := mirrored_dir we hdw'
        refine ⟨wv, ?_⟩
        rw [unit_iff, ← dot_xyz _ _ (.inl wv), mirrored]
        have ee : (eX m).dot (eX m) = 1 := H4.unit_dot_unit fun h => ho.x0 ((H4.dot_self_eq_zero hm.1.1).1 h)
        simp only [H4.dot_sub_left, H4.dot_sub_right, H4.dot_smul_left, H4.dot_smul_right, ee, hdd, H4.dot_comm (eX m) d]
        ring
      split at h
      · rename_i hpol
        cases h
        have key := physical_new hr (o := r.order) (b := r.blaze) (f := none) (p := none) (y := y) (z := z) (eps' := eps + 1 / 10 ^ 8)
          hq hnew (fun v hv => by cases hv) (fun v w hv hw => by cases hw) (fun x hx => by cases hx)
        rw [hpol]
        exact ⟨key.1, key.2, rfl⟩
      · rename_i pol hpol
        split at h
        · cases h
        · cases h
          have key := physical_new hr (o := r.order) (b := r.blaze) (f := none) (p := none) (y := y) (z := z) (eps' := eps + 1 / 10 ^ 8)
            hq hnew (fun v hv => by cases hv) (fun v w hv hw => by cases hw) (fun x hx => by cases hx)
          exact ⟨key.1, key.2, rfl⟩
        · rename_i out hb
          cases h
          have hdn : d.xyz.cross (vX m).xyz ≠ 0 := by
            intro hc
            have : d.unit.xyz.cross (eX m).xyz = 0 := by
              rw [H4.unit_of_unit hdd]
              have e : (eX m).xyz = (1 / (vX m).norm) • (vX m).xyz := rfl
              have : d.xyz.cross ((1 / (vX m).norm) • (vX m).xyz) = (1 / (vX m).norm) • d.xyz.cross (vX m).xyz := by
                ext <;> simp <;> ring
              rw [e, this, hc]; ext <;> simp
            simp [brewster, hdd, this] at hb
          obtain ⟨out', vs, vp, b1, b2, b3, -, -, -, b4, b5, b6, b7⟩ :=
            C23_brewster m hm.1 ho hm.2 rs rp hrs hrp d pol hdw hdn ((unit_iff _).1 (hr.pol pol hpol).2)
          rw [hb] at b1
          cases b1
          have we : (eX m).w = 0 := H4.unit_w hm.1.1
          have wv : out.dir.w = 0 := by
            rw [b2, H4.unit_of_unit hdd]; exact mirrored_dir we hdw'
          have key := physical_new hr (o := r.order) (b := r.blaze) (f := some out.prob) (d := some out.dir) (p := out.pol) (y := y) (z := z)
            (eps' := eps + 1 / 10 ^ 8) hq ?_ ?_ ?_ ?_
          · exact ⟨key.1, key.2, rfl⟩
          · intro v hv
            cases hv
            exact ⟨wv, by rw [unit_iff, ← dot_xyz _ _ (.inl wv)]; exact b3⟩
          · intro v hv
            by_cases hz : out.prob = 0
            · rw [b7 hz] at hv; cases hv
            · obtain ⟨qq, q1, q2, q3, q4⟩ := b6 hz
              rw [q1] at hv; cases hv
              have q4' : v.w = 0 := q4
              exact ⟨q4, by rw [unit_iff, ← dot_xyz _ _ (.inl q4')]; exact q2⟩
          · intro v w hv hw
            cases hv
            by_cases hz : out.prob = 0
            · rw [b7 hz] at hw; cases hw
            · obtain ⟨qq, q1, q2, q3, q4⟩ := b6 hz
              rw [q1] at hw; cases hw
              rw [← dot_xyz _ _ (.inr wv), q3, abs_zero]
              positivity
          · intro x hx
            cases hx
            exact ⟨b4, b5⟩
  | scatter m inAngle perpAngle =>
    simp only [Optic.step] at h
    split at h
    · cases h; exact ⟨hr', same, rfl⟩
    · rename_i d q y z p hh
      cases h
      obtain ⟨hd, -, -⟩ := hit_dir hh
      have hdu := (hr.dir d hd).2
      have shape : radialScatter m d p ⟨0, 0, 0, 0⟩ inAngle perpAngle = none ∧
            (∀ pol, radialScatter m d p pol inAngle perpAngle = none) ∨
          ∃ d2 : V3, d2.norm = 1 ∧ ∀ pol, radialScatter m d p pol inAngle perpAngle =
            some (d2.toDir, parallelTransport d d2.toDir pol) := by
        simp only [radialScatter]
        split
        · exact .inl ⟨rfl, fun _ => rfl⟩
        · rename_i d1 h1
          split
          · exact .inl ⟨rfl, fun _ => rfl⟩
          · rename_i d2 h2
            right
            refine ⟨d2, ?_, fun _ => rfl⟩
            have n1 : d1.dot d1 = 1 := by
              rw [← (unit_iff _).1 hdu]
              cases inAngle with
              | none => cases h1; rfl
              | some a => exact turn_length h1
            rw [unit_iff, ← n1]
            cases perpAngle with
            | none => cases h2; rfl
            | some a => exact turn_length h2
      rcases shape with ⟨s1, s2⟩ | ⟨d2, n2, s⟩
      · refine ⟨⟨fun p hp => by cases hp; exact (hit_spec old hh).2.1, ?_, ?_, ?_, hr.prob⟩, same, rfl⟩
        · intro v hv
          obtain ⟨w, hw, rfl⟩ := Option.map_eq_some_iff.1 hv
          rw [s1] at hw; cases hw
        · intro v hv
          obtain ⟨w, hw, hv⟩ := Option.bind_eq_some_iff.1 hv
          obtain ⟨pol, -, hw⟩ := Option.bind_eq_some_iff.1 hw
          rw [s2] at hw; cases hw
        · intro v w hv
          obtain ⟨w, hw, rfl⟩ := Option.map_eq_some_iff.1 hv
          rw [s1] at hw; cases hw
      · refine ⟨⟨fun p hp => by cases hp; exact (hit_spec old hh).2.1, ?_, ?_, ?_, hr.prob⟩, same, rfl⟩
        · intro v hv
          obtain ⟨w, hw, rfl⟩ := Option.map_eq_some_iff.1 hv
          rw [s] at hw; cases hw
          exact ⟨rfl, n2⟩
        · intro v hv
          obtain ⟨w, hw, hv⟩ := Option.bind_eq_some_iff.1 hv
          obtain ⟨pol, hpol, hw⟩ := Option.bind_eq_some_iff.1 hw
          rw [s] at hw; cases hw
          have t := transport_almost hdu (b := d2.toDir) n2 (hr.pol pol hpol).2 (hr.perp d pol hd hpol) hv
          exact ⟨t.1, t.2.1⟩
        · intro v v' hv hv'
          obtain ⟨w, hw, rfl⟩ := Option.map_eq_some_iff.1 hv
          rw [s] at hw; cases hw
          obtain ⟨w, hw, hv'⟩ := Option.bind_eq_some_iff.1 hv'
          obtain ⟨pol, hpol, hw⟩ := Option.bind_eq_some_iff.1 hw
          rw [s] at hw; cases hw
          exact (transport_almost hdu (b := d2.toDir) n2 (hr.pol pol hpol).2 (hr.perp d pol hd hpol) hv').2.2
  | propagate distance =>
    simp only [Optic.step] at h
    cases h
    refine ⟨⟨fun p hp => ?_, hr'.dir, hr'.pol, hr'.perp, hr'.prob⟩, same, rfl⟩
    simp only at hp
    split at hp <;> cases hp
    rename_i d p hd hp
    have h1 : d.w = 0 := (hr.dir _ hd).1
    have h2 : p.w = 1 := hr.pos _ hp
    simp [IsPoint, h1, h2]

/-- **C158** A sequence of elements of any length: the error of the angle between polarization and direction is at most
1e-8 for each element. -/
theorem C158_sequence (os : List Optic) (hos : ∀ o ∈ os, o.Sensible) (eps : ℝ) (h0 : 0 ≤ eps) (r r' : Ray) (hr : r.Physical eps)
    (h : runOptics os r = .ok r') : r'.Physical (eps + os.length * (1 / 10 ^ 8)) ∧ ProbDown r r' ∧ r'.energy = r.energy := by
  induction os generalizing r eps with
  | nil =>
    cases h
    simp only [List.length_nil, Nat.cast_zero, zero_mul, add_zero]
    exact ⟨hr, fun p hp => ⟨p, hp, le_refl _⟩, trivial⟩
  | cons o os ih =>
    simp only [runOptics] at h
    split at h
    · cases h
    · rename_i r1 h1
      obtain ⟨a1, a2, a3⟩ := C158_element o (hos o (by simp)) eps h0 r r1 hr h1
      obtain ⟨b1, b2, b3⟩ := ih (fun o' h' => hos o' (by simp [h'])) _ (by positivity) r1 a1 h
      refine ⟨?_, fun p hp => ?_, b3.trans a3⟩
      · convert b1 using 1
        rw [List.length_cons]; push_cast; ring
      · obtain ⟨p1, hp1, l1⟩ := b2 p hp
        obtain ⟨p2, hp2, l2⟩ := a2 p1 hp1
        exact ⟨p2, hp2, l1.trans l2⟩

theorem weighted_times (c : ℝ) (r : Ray) (f : Option ℝ) : (r.weighted c).times f = (r.times f).weighted c := by
  ext1 <;> simp only [Ray.weighted, Ray.times]
  cases r.prob <;> cases f <;> simp [mul_assoc]

theorem weighted_new (c : ℝ) (pos dir pol : Option H4) (pr : Option ℝ) (e : ℝ) (o : Option ℤ) (b : Option ℝ) (cs : List (ℝ × ℝ)) :
    (⟨pos, dir, pol, pr.map (c * ·), e, o, b, cs⟩ : Ray) = (⟨pos, dir, pol, pr, e, o, b, cs⟩ : Ray).weighted c := rfl

theorem weighted_at (c : ℝ) (r : Ray) (q : H4) (y z : ℝ) : (r.weighted c).at q y z = (r.at q y z).weighted c := rfl

theorem weighted_hit (c : ℝ) (r : Ray) (m : M4) : (r.weighted c).hit m = r.hit m := rfl

theorem step_weighted (o : Optic) (c : ℝ) (r : Ray) : o.step (r.weighted c) = (o.step r).map (Ray.weighted c) := by
  have e1 : (r.weighted c).energy = r.energy := rfl
  have e2 : (r.weighted c).dir = r.dir := rfl
  have e3 : (r.weighted c).pol = r.pol := rfl
  have e4 : (r.weighted c).pos = r.pos := rfl
  have e5 : (r.weighted c).prob = r.prob.map (c * ·) := rfl
  have e6 : (r.weighted c).order = r.order := rfl
  have e7 : (r.weighted c).blaze = r.blaze := rfl
  have e8 : (r.weighted c).coos = r.coos := rfl
  cases o with
  | plane m =>
    simp only [Optic.step, weighted_hit]
    cases r.hit m <;> rfl
  | tube m zoomz lim0 lim1 =>
    simp only [Optic.step, e2, e4]
    cases r.dir with
    | none => rfl
    | some d =>
      cases r.pos with
      | none => simp only; split_ifs <;> rfl
      | some p =>
        simp only
        cases cylIntersect m zoomz lim0 lim1 d p with
        | error e => rfl
        | ok x => cases x <;> rfl
  | filter m f =>
    simp only [Optic.step, weighted_hit, e1]
    cases r.hit m with
    | none => rfl
    | some h =>
      simp only
      cases filterValue f r.energy with
      | error e => rfl
      | ok p => simp only [weighted_times]; rfl
  | globalFilter f =>
    simp only [Optic.step, e1]
    cases filterValue f r.energy with
    | error e => rfl
    | ok p => simp only [weighted_times]; rfl
  | lens m focallength dOptax refl =>
    simp only [Optic.step, weighted_hit, e1, e3, e4, e5, e6, e7, e8]
    cases r.hit m with
    | none => rfl
    | some h => simp only [weighted_new, weighted_times]; rfl
  | thin m focallength =>
    simp only [Optic.step, weighted_hit, e3]
    cases r.hit m <;> rfl
  | grating m transmission cat groove dd blazeMod order =>
    simp only [Optic.step, weighted_hit, e1, e3, e4, e5, e8]
    cases r.hit m with
    | none => rfl
    | some h => simp only [weighted_new, weighted_times]; rfl
  | mirror m rs rp =>
    simp only [Optic.step, weighted_hit, e1, e3, e4, e5, e6, e7, e8]
    cases r.hit m with
    | none => rfl
    | some h =>
      simp only
      cases r.pol with
      | none => simp only [weighted_new, weighted_times]; rfl
      | some pol =>
        simp only
        cases brewster m rs rp h.1 pol with
        | error e => rfl
        | ok b => cases b with
          | none => simp only [weighted_new, weighted_times]; rfl
          | some b => simp only [weighted_new, weighted_times]; rfl
  | scatter m inAngle perpAngle =>
    simp only [Optic.step, weighted_hit, e3]
    cases r.hit m <;> rfl
  | propagate distance =>
    simp only [Optic.step, e2, e4]
    rfl

/-- **C158** Weights: if a photon starts with another probability, then the path is the same, the same errors are raised,
and the final probability is changed by the same factor. -/
theorem C158_weights (os : List Optic) (c : ℝ) (r : Ray) :
    runOptics os (r.weighted c) = (runOptics os r).map (Ray.weighted c) := by
  induction os generalizing r with
  | nil => rfl
  | cons o os ih =>
    simp only [runOptics, step_weighted]
    cases o.step r with
    | error e => rfl
    | ok r1 => exact ih r1

/-- A photon on the optical axis is physical, so it is when it arrives (`axisRay_run`), also with half the weight. -/
example : axisRay.Physical 0 ∧ (∀ o ∈ [Optic.filter 1 fun _ => 1 / 2, .propagate 5], o.Sensible) ∧
    (∃ r', runOptics [Optic.filter 1 fun _ => 1 / 2, .propagate 5] axisRay = .ok r' ∧ r'.Physical (0 + 2 * (1 / 10 ^ 8))) ∧
    ∃ r', runOptics [Optic.filter 1 fun _ => 1 / 2, .propagate 5] (axisRay.weighted (1 / 2)) = .ok r' ∧ r'.prob = some (1 / 4) := by
  have h1 : axisRay.Physical 0 := by
    refine ⟨fun p hp => ?_, fun p hp => ?_, fun p hp => ?_, fun p q hp hq => ?_, fun p hp => ?_⟩
    · cases hp; rfl
    · cases hp; exact ⟨rfl, by simp [unit_iff, V3.dot]⟩
    · cases hp; exact ⟨rfl, by simp [unit_iff, V3.dot]⟩
    · cases hp; cases hq; simp [V3.dot]
    · cases hp; norm_num
  have h2 : ∀ o ∈ [Optic.filter 1 fun _ => 1 / 2, .propagate 5], o.Sensible := by
    simp [Optic.Sensible, Affine]
  refine ⟨h1, h2, ⟨_, axisRay_run, ?_⟩, ?_⟩
  · exact_mod_cast (C158_sequence _ h2 0 le_rfl _ _ h1 axisRay_run).1
  · rw [C158_weights, axisRay_run]
    exact ⟨_, rfl, by simp only [Ray.weighted, Option.map_some]; norm_num⟩

end Marxs
