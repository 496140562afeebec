import Verif.Spec.Bend
import Verif.Props.Geometry

/-!
# C112: chirped gratings
-/

namespace Marxs
open Classical

/-- Photon that `init_photon` makes for a position `P`, apart from energy and polarization. -/
noncomputable def aimed (P : V3) (e : ℝ) (pol : H4) : TestPhoton :=
  ⟨⟨1.1 * P.x, 1.1 * P.y, 1.1 * P.z, 1⟩, (⟨-P.x, -P.y, -P.z, 0⟩ : H4).unit, e, pol, 1⟩

theorem aimed_at (P : V3) (hP : P ≠ 0) (e : ℝ) (pol : H4) : AimedAt P (aimed P e pol) := by
  have hn := V3.norm_pos hP
  have hnorm : (⟨-P.x, -P.y, -P.z, 0⟩ : H4).norm = P.norm := by
    simp [H4.norm, V3.norm, H4.dot, V3.dot]
  have hdir : (⟨-P.x, -P.y, -P.z, 0⟩ : H4).unit = ⟨-P.x / P.norm, -P.y / P.norm, -P.z / P.norm, 0⟩ := by
    rw [H4.unit, hnorm]; ext <;> simp <;> ring
  have hsq : P.norm * P.norm = P.dot P := Real.mul_self_sqrt (V3.dot_self_nonneg P)
  refine ⟨rfl, by simp [aimed, hdir], ?_, 0.1 * P.norm, 1.1 * P.norm, by positivity, by nlinarith, ?_, ?_⟩
  · simp only [aimed, hdir, V3.dot, H4.xyz] at hsq ⊢
    field_simp
    linarith
  · simp only [aimed, hdir, H4.xyz]
    ext <;> simp <;> field_simp <;> norm_num <;> ring
  · simp only [aimed, hdir, H4.xyz]
    ext <;> simp <;> field_simp <;> ring

/-- State of the finder between runs. -/
structure ChirpInv (order d : ℝ) (points : Set V3) (s : ChirpFinder) : Prop where
  hord : s.order = order
  baseD : s.baseD = d
  energy : s.photon.energy = 1
  log : ∀ r ∈ s.log, r.2.1 = order ∧ ∃ P ∈ points, ∃ pol, r.2.2 = aimed P 1 pol

theorem chirpRun_spec {order d : ℝ} {points : Set V3} {s : ChirpFinder} (h : ChirpInv order d points s)
    {trace : ℝ → ℝ → TestPhoton → TestPhoton × ℝ} (ht : Mechanical trace) (P : V3) (hP : P ∈ points)
    (hpos : s.pos = ⟨1.1 * P.x, 1.1 * P.y, 1.1 * P.z, 1⟩) (hdir : s.dir = (⟨-P.x, -P.y, -P.z, 0⟩ : H4).unit) (x : ℝ) :
    (s.run trace x).1 = (trace x order (aimed P 1 ⟨0, 1, 0, 0⟩)).2 ∧ ChirpInv order d points (s.run trace x).2 ∧
    (s.run trace x).2.pos = s.pos ∧ (s.run trace x).2.dir = s.dir ∧ (s.run trace x).2.goal = s.goal ∧
    s.log <:+ (s.run trace x).2.log ∧ (s.run trace x).2.log ≠ [] := by
  have hph : s.reset.photon = aimed P 1 s.photon.pol := by
    simp only [ChirpFinder.reset, aimed, hpos, hdir, h.energy]
  have hord : s.reset.order = order := h.hord
  refine ⟨?_, ⟨h.hord, h.baseD, ?_, ?_⟩, rfl, rfl, rfl, ?_, ?_⟩
  · simp only [ChirpFinder.run, hord, hph]
    exact ht.2 _ _ _ _ rfl rfl rfl
  · simp only [ChirpFinder.run]
    rw [ht.1, hph]
    rfl
  · intro r hr
    simp only [ChirpFinder.run, List.mem_cons] at hr
    rcases hr with rfl | hr
    · exact ⟨hord, P, hP, _, hph⟩
    · exact h.log r hr
  · exact List.suffix_cons _ _
  · simp [ChirpFinder.run]

theorem chirpSearch_spec {order d : ℝ} {points : Set V3} {trace : ℝ → ℝ → TestPhoton → TestPhoton × ℝ} (ht : Mechanical trace)
    (P : V3) (hP : P ∈ points) (alg : Search) : ∀ (s : ChirpFinder), ChirpInv order d points s →
    s.pos = ⟨1.1 * P.x, 1.1 * P.y, 1.1 * P.z, 1⟩ → s.dir = (⟨-P.x, -P.y, -P.z, 0⟩ : H4).unit →
    (s.search trace alg).1 = alg.min (fun x => |(trace (x * d) order (aimed P 1 ⟨0, 1, 0, 0⟩)).2 - s.goal|) ∧
    ChirpInv order d points (s.search trace alg).2 ∧ (s.search trace alg).2.goal = s.goal ∧
    s.log <:+ (s.search trace alg).2.log := by
  induction alg with
  | result x => intro s h _ _; exact ⟨rfl, h, rfl, List.suffix_refl _⟩
  | eval x next ih =>
    intro s h hpos hdir
    obtain ⟨r1, r2, r3, r4, r5, r6, _⟩ := chirpRun_spec h ht P hP hpos hdir (x * d)
    have hopt : s.optimize trace x = (|(trace (x * d) order (aimed P 1 ⟨0, 1, 0, 0⟩)).2 - s.goal|, (s.run trace (x * d)).2) := by
      simp only [ChirpFinder.optimize, h.baseD, r1]
    obtain ⟨i1, i2, i3, i4⟩ := ih (|(trace (x * d) order (aimed P 1 ⟨0, 1, 0, 0⟩)).2 - s.goal|) (s.run trace (x * d)).2 r2
      (r3.trans hpos) (r4.trans hdir)
    simp only [ChirpFinder.search, hopt, Search.min]
    rw [r5] at i1 i3
    exact ⟨i1, i2, i3, r6.trans i4⟩

theorem setUv_spec {order d : ℝ} {points : Set V3} {s : ChirpFinder} (h : ChirpInv order d points s) (m : M4) (uv : ℝ × ℝ) :
    ∃ s', s.setUv (posOnGrat m) uv = .ok s' ∧ ChirpInv order d points s' ∧ s'.goal = s.goal ∧ s'.log = s.log ∧
      s'.pos = ⟨1.1 * (center m + uv.1 • vY m + uv.2 • vZ m).xyz.x, 1.1 * (center m + uv.1 • vY m + uv.2 • vZ m).xyz.y,
        1.1 * (center m + uv.1 • vY m + uv.2 • vZ m).xyz.z, 1⟩ ∧
      s'.dir = (⟨-(center m + uv.1 • vY m + uv.2 • vZ m).xyz.x, -(center m + uv.1 • vY m + uv.2 • vZ m).xyz.y,
        -(center m + uv.1 • vY m + uv.2 • vZ m).xyz.z, 0⟩ : H4).unit := by
  refine ⟨_, rfl, ⟨h.hord, h.baseD, h.energy, h.log⟩, rfl, rfl, rfl, rfl⟩

/-- Point of the grating at `u`, `v`, in units of the size of the grating. -/
noncomputable def gratPoint (m : M4) (uv : ℝ × ℝ) : V3 := (center m).xyz + uv.1 • (vY m).xyz + uv.2 • (vZ m).xyz

theorem chirpLoop_spec {order d : ℝ} {points : Set V3} {trace : ℝ → ℝ → TestPhoton → TestPhoton × ℝ} (ht : Mechanical trace)
    (m : M4) (alg : Search) : ∀ (uvs : List (ℝ × ℝ)) (s : ChirpFinder), ChirpInv order d points s →
    (∀ uv ∈ uvs, gratPoint m uv ∈ points) →
    ∃ xs s', s.correctionLoop (posOnGrat m) trace alg uvs = .ok (xs, s') ∧ ChirpInv order d points s' ∧ s.log <:+ s'.log ∧
      xs = uvs.map fun uv => alg.min fun x => |(trace (x * d) order (aimed (gratPoint m uv) 1 ⟨0, 1, 0, 0⟩)).2 - s.goal| := by
  intro uvs
  induction uvs with
  | nil => intro s h _; exact ⟨[], s, rfl, h, List.suffix_refl _, rfl⟩
  | cons uv l ih =>
    intro s h hp
    obtain ⟨s1, e1, h1, g1, l1, p1, d1⟩ := setUv_spec h m uv
    obtain ⟨x1, h2, g2, l2⟩ := chirpSearch_spec ht (gratPoint m uv) (hp uv List.mem_cons_self) alg s1 h1 p1 d1
    obtain ⟨xs, s', e2, h3, l3, hx⟩ := ih (s1.search trace alg).2 h2 (fun uv' h' => hp uv' (List.mem_cons_of_mem _ h'))
    refine ⟨(s1.search trace alg).1 :: xs, s', ?_, h3, ?_, ?_⟩
    · simp only [ChirpFinder.correctionLoop, e1, e2]
    · rw [← l1]; exact l2.trans l3
    · rw [x1, hx, g2, g1, List.map_cons]

/-- Everything about one call. -/
theorem chirpCall_spec {order energy d : ℝ} {trace : ℝ → ℝ → TestPhoton → TestPhoton × ℝ} (ht : Mechanical trace)
    (m : M4) (alg : Search) (us vs : List ℝ) :
    ∃ xs s, (chirpInit order energy d).call (posOnGrat m) trace alg us vs = .ok (xs, s) ∧ s.log ≠ [] ∧
      (∀ r ∈ s.log, r.2.1 = order ∧ ∃ uv, (uv = (0, 0) ∨ uv.1 ∈ us ∧ uv.2 ∈ vs) ∧ ∃ pol,
        r.2.2 = aimed (gratPoint m uv) 1 pol) ∧
      xs = us.flatMap fun u => vs.map fun v => alg.min fun x =>
        |(trace (x * d) order (aimed (gratPoint m (u, v)) 1 ⟨0, 1, 0, 0⟩)).2 -
          (trace d order (aimed (gratPoint m (0, 0)) 1 ⟨0, 1, 0, 0⟩)).2| := by
  let points : Set V3 := {P | ∃ uv : ℝ × ℝ, (uv = (0, 0) ∨ uv.1 ∈ us ∧ uv.2 ∈ vs) ∧ P = gratPoint m uv}
  have h0 : ChirpInv order d points (chirpInit order energy d) := ⟨rfl, rfl, rfl, by simp [chirpInit]⟩
  obtain ⟨s1, e1, h1, g1, l1, p1, d1⟩ := setUv_spec h0 m (0, 0)
  obtain ⟨r1, r2, r3, r4, r5, r6, r7⟩ := chirpRun_spec h1 ht (gratPoint m (0, 0)) ⟨(0, 0), Or.inl rfl, rfl⟩ p1 d1 d
  have hgoal : (chirpInit order energy d).calcGoal (posOnGrat m) trace =
      .ok { (s1.run trace d).2 with goal := (trace d order (aimed (gratPoint m (0, 0)) 1 ⟨0, 1, 0, 0⟩)).2 } := by
    simp only [ChirpFinder.calcGoal, e1, h1.baseD, r1]
  obtain ⟨xs, s', e2, h3, l3, hx⟩ := chirpLoop_spec ht m alg (us.flatMap fun u => vs.map fun v => (u, v))
    { (s1.run trace d).2 with goal := (trace d order (aimed (gratPoint m (0, 0)) 1 ⟨0, 1, 0, 0⟩)).2 }
    ⟨r2.hord, r2.baseD, r2.energy, r2.log⟩ (points := points) (by
      intro uv huv
      obtain ⟨u, hu, huv⟩ := List.mem_flatMap.1 huv
      obtain ⟨v, hv, rfl⟩ := List.mem_map.1 huv
      exact ⟨(u, v), Or.inr ⟨hu, hv⟩, rfl⟩)
  refine ⟨xs, s', by simp only [ChirpFinder.call, hgoal, e2], ?_, ?_, ?_⟩
  · intro h
    rw [h] at l3
    exact r7 (List.suffix_nil.1 l3)
  · intro r hr
    obtain ⟨ho, P, ⟨uv, huv, rfl⟩, pol, hpol⟩ := h3.log r hr
    exact ⟨ho, uv, huv, pol, hpol⟩
  · rw [hx, List.map_flatMap]
    simp only [List.map_map]
    rfl

/-- **C112** Whatever algorithm is used for the minimization: every photon that is sent to the grating, for the goal and for each
correction, goes through the center or one of the requested positions `u * v_y + v * v_z` of the grating in the right order, and flies toward the origin. It hits
the grating exactly there. -/
theorem C112_rays (m : M4) (hm : Affine m) (hax : OrthoAxes m) (order energy d : ℝ)
    (trace : ℝ → ℝ → TestPhoton → TestPhoton × ℝ) (ht : Mechanical trace) (alg : Search) (us vs : List ℝ)
    (hu : ∀ u ∈ us, |u| ≤ 1) (hv : ∀ v ∈ vs, |v| ≤ 1)
    (hfoc : ∀ uv : ℝ × ℝ, |uv.1| ≤ 1 → |uv.2| ≤ 1 →
      ((center m).xyz + uv.1 • (vY m).xyz + uv.2 • (vZ m).xyz).dot (vX m).xyz ≠ 0) :
    ∃ xs s, (chirpInit order energy d).call (posOnGrat m) trace alg us vs = .ok (xs, s) ∧
      xs.length = us.length * vs.length ∧
      ∀ r ∈ s.log, r.2.1 = order ∧ r.2.2.prob = 1 ∧ ∃ uv : ℝ × ℝ, (uv = (0, 0) ∨ uv.1 ∈ us ∧ uv.2 ∈ vs) ∧
        AimedAt ((center m).xyz + uv.1 • (vY m).xyz + uv.2 • (vZ m).xyz) r.2.2 ∧
        ∃ q, planeIntersect m r.2.2.dir r.2.2.pos = some (q, uv.1 * (vY m).xyz.norm, uv.2 * (vZ m).xyz.norm) := by
  obtain ⟨xs, s, h1, _, h3, h4⟩ := chirpCall_spec (order := order) (energy := energy) (d := d) ht m alg us vs
  refine ⟨xs, s, h1, ?_, ?_⟩
  · rw [h4]
    simp [List.length_flatMap]
  · intro r hr
    obtain ⟨ho, uv, huv, pol, hpol⟩ := h3 r hr
    have huv1 : |uv.1| ≤ 1 ∧ |uv.2| ≤ 1 := by
      rcases huv with rfl | ⟨a, b⟩
      · simp
      · exact ⟨hu _ a, hv _ b⟩
    have hdot := hfoc uv huv1.1 huv1.2
    have hP : gratPoint m uv ≠ 0 := by
      intro h0
      apply hdot
      change (gratPoint m uv).dot _ = 0
      rw [h0]; simp [V3.dot]
    have haim := aimed_at (gratPoint m uv) hP 1 pol
    rw [hpol]
    refine ⟨ho, rfl, uv, huv, haim, ?_⟩
    obtain ⟨w1, w0, hunit, k, l, hk, hkl, hkP, hl0⟩ := haim
    obtain ⟨c1, c2⟩ := C10_plane_intersect m hm hax (aimed (gratPoint m uv) 1 pol).dir (aimed (gratPoint m uv) 1 pol).pos w0 w1
    generalize (aimed (gratPoint m uv) 1 pol).dir = D at *
    generalize (aimed (gratPoint m uv) 1 pol).pos = S at *
    -- the direction is antiparallel to the point
    have hPD : gratPoint m uv = (k - l) • D.xyz := by
      rw [← hkP]
      have hx := congrArg V3.x hl0
      have hy := congrArg V3.y hl0
      have hz := congrArg V3.z hl0
      simp at hx hy hz
      ext <;> simp <;> linarith
    have hpar : D.xyz.dot (vX m).xyz ≠ 0 := by
      intro h0
      apply hdot
      change (gratPoint m uv).dot _ = 0
      rw [hPD, V3.dot_smul_left, h0, mul_zero]
    have hsome := c1.2 ⟨hpar, k, hk, uv.1, uv.2, huv1.1, huv1.2, hkP⟩
    obtain ⟨⟨q, y, z⟩, hq⟩ := Option.isSome_iff_exists.1 hsome
    obtain ⟨_, ⟨k', _, hk'⟩, ⟨a, b, _, _, hab⟩, hyz⟩ := c2 q y z hq
    have hkk : k' = k := by
      have e1 : (q.xyz - (center m).xyz).dot (vX m).xyz = 0 := by
        have h1 := hax.xy
        have h2 := hax.xz
        rw [hab]
        simp only [V3.dot, V3.add_x, V3.add_y, V3.add_z, V3.sub_x, V3.sub_y, V3.sub_z, V3.smul_x, V3.smul_y, V3.smul_z] at h1 h2 ⊢
        linear_combination a * h1 + b * h2
      have e2 : (gratPoint m uv - (center m).xyz).dot (vX m).xyz = 0 := by
        have h1 := hax.xy
        have h2 := hax.xz
        simp only [gratPoint, V3.dot, V3.add_x, V3.add_y, V3.add_z, V3.sub_x, V3.sub_y, V3.sub_z, V3.smul_x, V3.smul_y, V3.smul_z] at h1 h2 ⊢
        linear_combination uv.1 * h1 + uv.2 * h2
      rw [hk'] at e1
      rw [← hkP] at e2
      have : (k' - k) * D.xyz.dot (vX m).xyz = 0 := by
        simp only [V3.dot, V3.add_x, V3.add_y, V3.add_z, V3.sub_x, V3.sub_y, V3.sub_z, V3.smul_x, V3.smul_y, V3.smul_z] at e1 e2 ⊢
        linear_combination e1 - e2
      rcases mul_eq_zero.1 this with h | h
      · linarith
      · exact absurd h hpar
    have hqP : q.xyz = gratPoint m uv := by rw [hk', hkk, hkP]
    have nY := V3.norm_pos hax.y0
    have nZ := V3.norm_pos hax.z0
    have yu : (vY m).xyz = (vY m).xyz.norm • (vY m).xyz.unit := (V3.norm_smul_unit hax.y0).symm
    have zu : (vZ m).xyz = (vZ m).xyz.norm • (vZ m).xyz.unit := (V3.norm_smul_unit hax.z0).symm
    have uY := V3.unit_dot_unit hax.y0
    have uZ := V3.unit_dot_unit hax.z0
    have uYZ : (vY m).xyz.unit.dot (vZ m).xyz.unit = 0 := by
      rw [V3.unit, V3.unit, V3.dot_smul_smul, hax.yz, mul_zero]
    rw [hqP] at hyz
    have heq : (uv.1 * (vY m).xyz.norm) • (vY m).xyz.unit + (uv.2 * (vZ m).xyz.norm) • (vZ m).xyz.unit =
        y • (vY m).xyz.unit + z • (vZ m).xyz.unit := by
      have e : gratPoint m uv = (center m).xyz + (uv.1 * (vY m).xyz.norm) • (vY m).xyz.unit +
          (uv.2 * (vZ m).xyz.norm) • (vZ m).xyz.unit := by
        conv_lhs => rw [gratPoint, yu, zu]
        ext <;> simp <;> ring
      rw [e] at hyz
      have hx := congrArg V3.x hyz
      have hy := congrArg V3.y hyz
      have hz := congrArg V3.z hyz
      simp at hx hy hz
      ext <;> simp <;> linarith
    have gen : ∀ (a b : ℝ) (v : V3), (a • (vY m).xyz.unit + b • (vZ m).xyz.unit).dot v =
        a * (vY m).xyz.unit.dot v + b * (vZ m).xyz.unit.dot v := by
      intro a b v; simp [V3.dot]; ring
    have uZY : (vZ m).xyz.unit.dot (vY m).xyz.unit = 0 := by rw [V3.dot_comm]; exact uYZ
    have hY := congrArg (fun v => v.dot (vY m).xyz.unit) heq
    have hZ := congrArg (fun v => v.dot (vZ m).xyz.unit) heq
    simp only [gen, uY, uZ, uYZ, uZY, mul_one, mul_zero, add_zero, zero_add] at hY hZ
    exact ⟨q, by rw [hq, hY, hZ]⟩

/-- **C112** The correction for each position is what the algorithm finds as the minimum of the distance between the place where a photon through this position is
detected and the place where a photon through the center is detected. In particular, if the algorithm finds true minima and there is a
grating constant that brings the photon to the right place, it is used. The photons have an energy of 1 keV. -/
theorem C112_correction_partial (m : M4) (order energy d : ℝ)
    (trace : ℝ → ℝ → TestPhoton → TestPhoton × ℝ) (ht : Mechanical trace) (alg : Search) (us vs : List ℝ)
    (hP : ∀ uv : ℝ × ℝ, (center m).xyz + uv.1 • (vY m).xyz + uv.2 • (vZ m).xyz ≠ 0) :
    ∃ (ray : ℝ × ℝ → TestPhoton) (xs : List ℝ) (s : ChirpFinder),
      (∀ uv, AimedAt ((center m).xyz + uv.1 • (vY m).xyz + uv.2 • (vZ m).xyz) (ray uv) ∧ (ray uv).energy = 1) ∧
      (chirpInit order energy d).call (posOnGrat m) trace alg us vs = .ok (xs, s) ∧
      xs = us.flatMap fun u => vs.map fun v => alg.min fun x =>
        |(trace (x * d) order (ray (u, v))).2 - (trace d order (ray (0, 0))).2| := by
  obtain ⟨xs, s, h1, _, _, h4⟩ := chirpCall_spec (order := order) (energy := energy) (d := d) ht m alg us vs
  exact ⟨fun uv => aimed (gratPoint m uv) 1 ⟨0, 1, 0, 0⟩, xs, s, fun uv => ⟨aimed_at _ (hP uv) _ _, rfl⟩, h1, h4⟩

/-- **C112** (disagreement) The chirp is documented to be optimized for "the specified energy". No photon with this energy is ever sent to the
grating, unless it is 1 keV. -/
theorem C112_energy_false (m : M4) (order energy d : ℝ) (he : energy ≠ 1)
    (trace : ℝ → ℝ → TestPhoton → TestPhoton × ℝ) (ht : Mechanical trace) (alg : Search) (us vs : List ℝ) :
    ∃ xs s, (chirpInit order energy d).call (posOnGrat m) trace alg us vs = .ok (xs, s) ∧ s.log ≠ [] ∧
      ∀ r ∈ s.log, r.2.2.energy ≠ energy := by
  obtain ⟨xs, s, h1, h2, h3, _⟩ := chirpCall_spec (order := order) (energy := energy) (d := d) ht m alg us vs
  refine ⟨xs, s, h1, h2, ?_⟩
  intro r hr
  obtain ⟨_, _, _, pol, hpol⟩ := h3 r hr
  rw [hpol]
  exact fun h => he h.symm

/-- **C112** (disagreement) The finder for bent gratings always fails. -/
theorem C112_bent_false (m : M4) (trace : ℝ → ℝ → TestPhoton → TestPhoton × ℝ) (alg : Search) (us vs : List ℝ)
    (s : ChirpFinder) : s.call (bendPosOnGrat m) trace alg us vs = .error .attributeError := rfl

/-- **C112** With three positions, the grating constant at each of these positions is the requested one times the correction found there,
and it does not depend on the second coordinate. -/
theorem C112_chirp (ly d u0 u1 u2 c0 c1 c2 : ℝ) (hl : 0 < ly) (h0 : -1 ≤ u0) (h01 : u0 < u1) (h12 : u1 < u2) (h2 : u2 ≤ 1) :
    ∃ f, chirpFunction ly d [u0, u1, u2] [c0, c1, c2] = .ok f ∧ ∀ z, f (ly * u0, z) = d * c0 ∧ f (ly * u1, z) = d * c1 ∧
      f (ly * u2, z) = d * c2 ∧ ∀ y z', f (y, z) = f (y, z') := by
  refine ⟨_, by simp only [chirpFunction]; rw [if_pos ⟨h01, h12⟩], ?_⟩
  intro z
  have clip : ∀ u, -1 ≤ u → u ≤ 1 → max (-ly) (min ly (ly * u)) = ly * u := by
    intro u a b
    rw [min_eq_right (by nlinarith), max_eq_right (by nlinarith)]
  have e01 : ly * u0 - ly * u1 ≠ 0 := by nlinarith
  have e02 : ly * u0 - ly * u2 ≠ 0 := by nlinarith
  have e12 : ly * u1 - ly * u2 ≠ 0 := by nlinarith
  have e10 : ly * u1 - ly * u0 ≠ 0 := by nlinarith
  have e20 : ly * u2 - ly * u0 ≠ 0 := by nlinarith
  have e21 : ly * u2 - ly * u1 ≠ 0 := by nlinarith
  refine ⟨?_, ?_, ?_, fun y z' => rfl⟩ <;> simp only
  · rw [clip u0 h0 (by linarith), quadThrough]
    simp only [sub_self, zero_mul, mul_zero, zero_div, add_zero]
    rw [mul_div_assoc, div_self (mul_ne_zero e01 e02), mul_one]
  · rw [clip u1 (by linarith) (by linarith), quadThrough]
    simp only [sub_self, zero_mul, mul_zero, zero_div, add_zero, zero_add]
    rw [mul_div_assoc, div_self (mul_ne_zero e10 e12), mul_one]
  · rw [clip u2 (by linarith) h2, quadThrough]
    simp only [sub_self, zero_mul, mul_zero, zero_div, zero_add]
    rw [mul_div_assoc, div_self (mul_ne_zero e20 e21), mul_one]

/-- **C112** (disagreement) The positions are a parameter, but any other number of positions than three is an error. -/
theorem C112_grid_false (ly d : ℝ) (us corr : List ℝ) (h : us.length ≠ 3) :
    chirpFunction ly d us corr = .error .valueError := by
  unfold chirpFunction
  split
  · simp at h
  · rfl

/-- A grating far from the origin and something that depends on position, direction and energy only (example). -/
example : ∃ (m : M4) (trace : ℝ → ℝ → TestPhoton → TestPhoton × ℝ), Affine m ∧ OrthoAxes m ∧ Mechanical trace ∧
    ∀ uv : ℝ × ℝ, ((center m).xyz + uv.1 • (vY m).xyz + uv.2 • (vZ m).xyz).dot (vX m).xyz ≠ 0 ∧
      (center m).xyz + uv.1 • (vY m).xyz + uv.2 • (vZ m).xyz ≠ 0 := by
  refine ⟨compose ![1000, 0, 0] 1 ![1, 10, 10], fun d o p => (p, p.dir.y + o * p.energy / d), affine_compose _ _ _,
    orthoAxes_compose _ _ _ (by simp [IsRotation]) (by intro k; fin_cases k <;> simp), ⟨fun _ _ _ => rfl, ?_⟩, ?_⟩
  · intro d o p p' h1 h2 h3
    simp only [h2, h3]
  · intro uv
    constructor
    · simp [center, vX, vY, vZ, col, compose, V3.dot, H4.xyz]
    · intro h
      have := congrArg V3.x h
      simp [center, vX, vY, vZ, col, compose, V3.dot, H4.xyz] at this

end Marxs
