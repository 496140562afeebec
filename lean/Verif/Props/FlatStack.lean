import Verif.Spec.FlatStack
import Verif.Props.StartPlace

/-!
# C188: a stack and a sequence of the same elements
-/

namespace Marxs
open Classical

/-- an element at the place where the photon is already -/
theorem planeIntersect_there {m : M4} {d p q : H4} {y z : ℝ} (h : planeIntersect m d p = some (q, y, z)) (d' : H4) (hd : d'.dot (eX m) ≠ 0) :
    planeIntersect m d' q = some (q, y, z) := by
  simp only [planeIntersect] at h
  by_cases h0 : d.dot (eX m) = 0
  · simp [h0] at h
  rw [if_neg h0] at h
  split_ifs at h with hc
  simp only [Option.some.injEq, Prod.mk.injEq] at h
  obtain ⟨rfl, rfl, rfl⟩ := h
  have hk : (center m - (p + ((center m - p).dot (eX m) / d.dot (eX m)) • d)).dot (eX m) = 0 := by
    have : ∀ k : ℝ, (center m - (p + k • d)).dot (eX m) = (center m - p).dot (eX m) - k * d.dot (eX m) := by intro k; simp [H4.dot]; ring
    rw [this]; field_simp; ring
  have hp : ∀ a : H4, a + (0 : ℝ) • d' = a := by intro a; ext <;> simp
  simp only [planeIntersect, if_neg hd, hk, zero_div, hp]
  rw [if_pos ⟨le_refl _, hc.2⟩]

theorem hit_there {m : M4} {r : Ray} {d p q : H4} {y z : ℝ} (h : r.hit m = some (d, q, y, z, p)) (s : Ray) (hs : s.pos = some q) {d' : H4} (hd : s.dir = some d')
    (hc : d'.dot (eX m) ≠ 0) : s.hit m = some (d', q, y, z, q) := by
  unfold Ray.hit at h
  split at h
  · rename_i d0 p0 e1 e2
    split at h
    · rename_i q0 y0 z0 e3
      simp only [Option.some.injEq, Prod.mk.injEq] at h
      obtain ⟨rfl, rfl, rfl, rfl, rfl⟩ := h
      simp only [Ray.hit, hs, hd, planeIntersect_there e3 d' hc]
    · cases h
  · cases h

theorem hit_crosses {m : M4} {r : Ray} {d p q : H4} {y z : ℝ} (h : r.hit m = some (d, q, y, z, p)) : r.dir = some d ∧ r.pos = some p ∧ d.dot (eX m) ≠ 0 := by
  unfold Ray.hit at h
  split at h
  · rename_i d0 p0 e1 e2
    split at h
    · rename_i q0 y0 z0 e3
      simp only [Option.some.injEq, Prod.mk.injEq] at h
      obtain ⟨rfl, rfl, rfl, rfl, rfl⟩ := h
      refine ⟨e1, e2, fun h0 => ?_⟩
      simp [planeIntersect, h0] at e3
    · cases h
  · cases h

/-- one layer and the element on its own -/
theorem process_step {m : M4} {d p q : H4} {y z : ℝ} (e : Layer) (s : Ray) (h : s.hit m = some (d, q, y, z, p)) : e.process m q y z s = (e.optic m).step s := by
  obtain ⟨hd, hp, -⟩ := hit_crosses h
  cases e with
  | detector => simp only [Layer.process, Layer.optic, Optic.step, h]
  | filter f =>
    simp only [Layer.process, Layer.optic, Optic.step, h]
    rcases filterValue f s.energy with x | v <;> rfl
  | lens => simp only [Layer.process, Layer.optic, Optic.step, h, hd]
  | grating => simp only [Layer.process, Layer.optic, Optic.step, h, hd]
  | scatter => simp only [Layer.process, Layer.optic, Optic.step, h, hd, hp]

theorem process_pos {m : M4} {q : H4} {y z : ℝ} {e : Layer} {s s' : Ray} (h : e.process m q y z s = .ok s') : s'.pos = some q := by
  cases e with
  | detector => cases h; rfl
  | filter f =>
    simp only [Layer.process] at h
    split at h <;> cases h
    rfl
  | lens => simp only [Layer.process] at h; split at h <;> cases h <;> rfl
  | grating => simp only [Layer.process] at h; split at h <;> cases h <;> rfl
  | scatter => simp only [Layer.process] at h; split at h <;> cases h <;> rfl

theorem layers_run {m : M4} {r : Ray} {d p q : H4} {y z : ℝ} (h : r.hit m = some (d, q, y, z, p)) (es : List Layer) (s : Ray) (hs : s.pos = some q)
    (hc : s.Crosses m) (hk : KeepsCrossing m es s) : rayLayers m q y z es s = runOptics (Layer.sequence m es) s := by
  induction es generalizing s with
  | nil => rfl
  | cons e es ih =>
    obtain ⟨d', hd', hc'⟩ := hc
    have e1 := process_step e s (hit_there h s hs hd' hc')
    simp only [rayLayers, Layer.sequence, List.map_cons, runOptics, ← e1]
    cases hp : e.process m q y z s with
    | error x => rfl
    | ok s' =>
      simp only
      have hstep : runOptics (Layer.sequence m [e]) s = .ok s' := by
        simp only [Layer.sequence, List.map_cons, List.map_nil, runOptics, ← e1, hp]
      cases es with
      | nil => rfl
      | cons e' es =>
        refine ih s' (process_pos hp) (hk [e] (e' :: es) rfl (by simp) (by simp) s' hstep) fun a b hab ha hb r' hr' => ?_
        refine hk (e :: a) b (by rw [hab]; rfl) (by simp) hb r' ?_
        simp only [Layer.sequence, List.map_cons, runOptics, ← e1, hp]
        exact hr'

/-- **C188** A photon that misses the stack is not changed. -/
theorem C188_miss (m : M4) (es : List Layer) (r : Ray) (h : ¬ (Optic.plane m).Hit r) : flatStack m es r = .ok r := by
  have : r.hit m = none := by
    by_contra hc
    exact h ((Hit_iff _ m rfl r).2 hc)
  simp only [flatStack, this]

/-- **C188** For a photon that hits it, a stack does exactly what the same elements do one after the other at the same place to the photon when it has arrived there, as long as the
photon has a direction which is not parallel to the surface behind all elements but the last one. -/
theorem C188_arrived (m : M4) (es : List Layer) (r s : Ray) (h : (Optic.plane m).Hit r) (hs : runOptics [.plane m] r = .ok s)
    (hk : KeepsCrossing m es { s with coos := r.coos }) :
    flatStack m es r = runOptics (Layer.sequence m es) { s with coos := r.coos } := by
  have hne := (Hit_iff _ m rfl r).1 h
  rcases hh : r.hit m with _ | ⟨d, q, y, z, p⟩
  · exact absurd hh hne
  obtain ⟨hd, hp, hc⟩ := hit_crosses hh
  have es' : s = r.at q y z := by
    simp only [runOptics, Optic.step, hh, Except.ok.injEq] at hs
    exact hs.symm
  subst es'
  simp only [flatStack, hh]
  exact layers_run hh es _ rfl ⟨d, hd, hc⟩ hk

/-- **C188** If the first element does not scatter photons perpendicular to the plane of incidence, the photon does not even have to be at this place: the stack and the sequence are
the same for all photons. -/
theorem C188_sequence_partial (m : M4) (es : List Layer) (r : Ray) (hes : es ≠ []) (hn : NoScatterFirst es) (hk : KeepsCrossing m es r) (h : (Optic.plane m).Hit r) :
    flatStack m es r = runOptics (Layer.sequence m es) r := by
  have hne := (Hit_iff _ m rfl r).1 h
  rcases hh : r.hit m with _ | ⟨d, q, y, z, p⟩
  · exact absurd hh hne
  obtain ⟨hd, hp, hc⟩ := hit_crosses hh
  obtain ⟨e, es, rfl⟩ := List.exists_cons_of_ne_nil hes
  have hh' : Ray.hit { r with pos := some q } m = some (d, q, y, z, q) := hit_there hh _ rfl hd hc
  have e1 : e.process m q y z { r with pos := some q } = (e.optic m).step r := by
    cases e with
    | detector => simp only [Layer.process, Layer.optic, Optic.step, hh]; rfl
    | filter f =>
      simp only [Layer.process, Layer.optic, Optic.step, hh]
      rcases filterValue f r.energy with x | v <;> rfl
    | lens => simp only [Layer.process, Layer.optic, Optic.step, hh, hd]; rfl
    | grating => simp only [Layer.process, Layer.optic, Optic.step, hh, hd]; rfl
    | scatter a b =>
      cases b with
      | some => exact hn.elim
      | none =>
        obtain ⟨k, hk⟩ : ∃ k : ℝ, q = p + k • d := by
          simp only [Ray.hit, hd, hp] at hh
          split at hh
          · rename_i q0 y0 z0 e3
            simp only [Option.some.injEq, Prod.mk.injEq] at hh
            obtain ⟨-, rfl, -, -, -⟩ := hh
            simp only [planeIntersect, if_neg hc] at e3
            split_ifs at e3
            simp only [Option.some.injEq, Prod.mk.injEq] at e3
            exact ⟨_, e3.1.symm⟩
          · cases hh
        simp only [Layer.process, Layer.optic, Optic.step, hh, hd, hk, scatter_slide]
        rfl
  simp only [flatStack, hh, rayLayers, Layer.sequence, List.map_cons, runOptics, e1]
  cases hr : (e.optic m).step r with
  | error x => rfl
  | ok s' =>
    simp only
    rw [hr] at e1
    have hstep : runOptics (Layer.sequence m [e]) r = .ok s' := by
      simp only [Layer.sequence, List.map_cons, List.map_nil, runOptics, hr]
    cases es with
    | nil => rfl
    | cons e' es =>
      refine layers_run hh _ s' (process_pos e1) (hk [e] (e' :: es) rfl (by simp) (by simp) s' hstep) fun a b hab ha hb r' hr' => ?_
      refine hk (e :: a) b (by rw [hab]; rfl) (by simp) hb r' ?_
      simp only [Layer.sequence, List.map_cons, runOptics, hr]
      exact hr'

/-- The photon is somewhere on the surface of a stack with at least one layer in the end. -/
theorem layers_pos {m : M4} {q : H4} {y z : ℝ} (es : List Layer) (s s' : Ray) (hs : s.pos = some q) (h : rayLayers m q y z es s = .ok s') : s'.pos = some q := by
  induction es generalizing s with
  | nil => cases h; exact hs
  | cons e es ih =>
    simp only [rayLayers] at h
    split at h
    · cases h
    · rename_i s1 h1
      exact ih s1 (process_pos h1) h

/-- **C188** All layers see the photon at the same place, whatever they do to its direction: the photon is there in the end, and every layer has noted the same coordinates. -/
theorem C188_place (m : M4) (es : List Layer) (r s t : Ray) (h : (Optic.plane m).Hit r) (hs : runOptics [.plane m] r = .ok s) (ht : flatStack m es r = .ok t) :
    t.pos = s.pos ∧ ∃ c, s.coos = r.coos ++ [c] ∧ t.coos = r.coos ++ List.replicate es.length c := by
  have hne := (Hit_iff _ m rfl r).1 h
  rcases hh : r.hit m with _ | ⟨d, q, y, z, p⟩
  · exact absurd hh hne
  have es' : s = r.at q y z := by
    simp only [runOptics, Optic.step, hh, Except.ok.injEq] at hs
    exact hs.symm
  subst es'
  simp only [flatStack, hh] at ht
  refine ⟨layers_pos es _ t rfl ht, (y, z), rfl, ?_⟩
  have : ∀ (es : List Layer) (s : Ray), rayLayers m q y z es s = .ok t → t.coos = s.coos ++ List.replicate es.length (y, z) := by
    intro es
    induction es with
    | nil => intro s h; cases h; simp
    | cons e es ih =>
      intro s h
      simp only [rayLayers] at h
      split at h
      · cases h
      · rename_i s1 h1
        have hco : s1.coos = s.coos ++ [(y, z)] := by
          cases e with
          | detector => cases h1; rfl
          | filter f =>
            simp only [Layer.process] at h1
            split at h1 <;> cases h1
            rfl
          | lens => simp only [Layer.process] at h1; split at h1 <;> cases h1 <;> rfl
          | grating => simp only [Layer.process] at h1; split at h1 <;> cases h1 <;> rfl
          | scatter => simp only [Layer.process] at h1; split at h1 <;> cases h1 <;> rfl
        rw [ih s1 h, hco, List.append_assoc, List.length_cons, List.replicate_succ]
        rfl
  exact this es { r with pos := some q } ht

theorem layers_append (m : M4) (q : H4) (y z : ℝ) (a b : List Layer) (s : Ray) :
    rayLayers m q y z (a ++ b) s = (rayLayers m q y z a s).bind (rayLayers m q y z b) := by
  induction a generalizing s with
  | nil => rfl
  | cons e a ih =>
    simp only [List.cons_append, rayLayers]
    cases e.process m q y z s with
    | error x => rfl
    | ok s' => exact ih s'

theorem process_energy {m : M4} {q : H4} {y z : ℝ} {e : Layer} {s s' : Ray} (h : e.process m q y z s = .ok s') : s'.energy = s.energy := by
  cases e with
  | detector => cases h; rfl
  | filter f =>
    simp only [Layer.process] at h
    split at h <;> cases h
    rfl
  | lens => simp only [Layer.process] at h; split at h <;> cases h <;> rfl
  | grating => simp only [Layer.process] at h; split at h <;> cases h <;> rfl
  | scatter => simp only [Layer.process] at h; split at h <;> cases h <;> rfl

theorem layers_energy {m : M4} {q : H4} {y z : ℝ} (es : List Layer) (s s' : Ray) (h : rayLayers m q y z es s = .ok s') : s'.energy = s.energy := by
  induction es generalizing s with
  | nil => cases h; rfl
  | cons e es ih =>
    simp only [rayLayers] at h
    split at h
    · cases h
    · rename_i s1 h1
      rw [ih s1 h, process_energy h1]

/-- **C188** A filter as last layer of a stack (e.g. the quantum efficiency of a detector, or the `support spider` of `HRMA`) multiplies the probability of every photon that hits the stack
with the value for its energy, and changes nothing else, whatever happened to the photon in the layers in front of it. -/
theorem C188_filter (m : M4) (es : List Layer) (f : ℝ → ℝ) (r t : Ray) (hf : 0 ≤ f r.energy ∧ f r.energy ≤ 1) (h : (Optic.plane m).Hit r) (ht : flatStack m es r = .ok t) :
    ∃ t', flatStack m (es ++ [.filter f]) r = .ok t' ∧ t'.prob = t.prob.map (· * f r.energy) ∧ t'.dir = t.dir ∧ t'.pos = t.pos ∧ t'.pol = t.pol ∧ t'.energy = t.energy ∧
      t'.order = t.order ∧ t'.blaze = t.blaze := by
  have hne := (Hit_iff _ m rfl r).1 h
  rcases hh : r.hit m with _ | ⟨d, q, y, z, p⟩
  · exact absurd hh hne
  simp only [flatStack, hh] at ht ⊢
  have he : t.energy = r.energy := layers_energy es { r with pos := some q } t ht
  have hv : filterValue f r.energy = .ok (f r.energy) := by rw [filterValue, if_neg]; push Not; exact hf
  refine ⟨(t.times (some (f r.energy))).at q y z, ?_, ?_, rfl, (layers_pos es _ t rfl ht).symm, rfl, rfl, rfl, rfl⟩
  · rw [layers_append, ht]
    simp only [Except.bind, rayLayers, Layer.process, he, hv]
  · simp only [Ray.at, Ray.times]
    cases t.prob <;> rfl

/-- **C188** (negation) A photon that is lost in a grating is not seen by elements behind the grating, but by the layers of a stack: a filter takes away half of its probability only in
the stack. -/
theorem C188_lost_false : ∃ (m : M4) (es : List Layer) (r t t' : Ray), NoScatterFirst es ∧ (Optic.plane m).Hit r ∧ flatStack m es r = .ok t ∧
    runOptics (Layer.sequence m es) r = .ok t' ∧ t.prob = some (1 / 2) ∧ t'.prob = some 1 := by
  have hh : axisRay.hit 1 = some (⟨-1, 0, 0, 0⟩, ⟨0, 1 / 2, 0, 1⟩, 1 / 2, 0, ⟨2, 1 / 2, 0, 1⟩) := by
    simp only [Ray.hit, axisRay, axisRay_hit]
  have hw : (0 : ℝ) < energy2wave := by norm_num [energy2wave]
  have hp : ((planeGrating 1 true false 0 (fun _ => energy2wave / 2) (fun _ => 0) fun _ _ => (1, 1)).diffract
      ⟨-1, 0, 0, 0⟩ ⟨0, 0, 0, 0⟩ 1 (1 / 2, 0)).prob = 1 := by
    unfold Grating.diffract
    simp only
    split <;> rfl
  have hd : ((planeGrating 1 true false 0 (fun _ => energy2wave / 2) (fun _ => 0) fun _ _ => (1, 1)).diffract
      ⟨-1, 0, 0, 0⟩ ⟨0, 0, 0, 0⟩ 1 (1 / 2, 0)).dir = none := by
    obtain ⟨e1, e2, e3, e4, e5, e6⟩ := unitAxes
    rw [C19_evanescent _ rfl _ _ _ _ (by norm_num [H4.dot]) one_ne_zero (by simp [planeGrating, hw.ne'])]
    have hm : ((planeGrating 1 true false 0 (fun _ => energy2wave / 2) (fun _ => 0) fun _ _ => (1, 1)).diffract
      ⟨-1, 0, 0, 0⟩ ⟨0, 0, 0, 0⟩ 1 (1 / 2, 0)).m = 1 := by
      unfold Grating.diffract
      simp only
      split <;> rfl
    have hu : (⟨-1, 0, 0, 0⟩ : H4).unit = ⟨-1, 0, 0, 0⟩ := by
      have : (⟨-1, 0, 0, 0⟩ : H4).norm = 1 := by rw [H4.norm]; norm_num [H4.dot]
      rw [H4.unit, this]; ext <;> simp
    rw [hm, hu]
    simp only [Grating.frame, planeGrating, planeBases, e1, e2, e3]
    have : (1 : ℝ) * (energy2wave / 1) / (energy2wave / 2) = 2 := by field_simp
    simp only [Int.cast_one, this]
    norm_num [H4.dot]
  have hv : filterValue (fun _ => (1 / 2 : ℝ)) 1 = .ok (1 / 2) := by rw [filterValue, if_neg]; norm_num
  have hdir : axisRay.dir = some ⟨-1, 0, 0, 0⟩ := rfl
  have hen : axisRay.energy = 1 := rfl
  have hpr : axisRay.prob = some 1 := rfl
  let g : Layer := .grating true false 0 (fun _ => energy2wave / 2) (fun _ => 0) fun _ _ => (1, 1)
  have hhit : (Optic.plane 1).Hit axisRay := (Hit_iff _ 1 rfl _).2 (by rw [hh]; simp)
  obtain ⟨t1, a1, a2, a3⟩ : ∃ t1, flatStack 1 [g] axisRay = .ok t1 ∧ t1.prob = some 1 ∧ t1.dir = none := by
    simp only [flatStack, hh, rayLayers, g, Layer.process, hdir, hen]
    refine ⟨_, rfl, ?_, hd⟩
    simp only [Ray.at, Ray.times, hpr, hp, one_mul]
  obtain ⟨t, b1, b2, -⟩ := C188_filter 1 [g] (fun _ => 1 / 2) axisRay t1 (by norm_num) hhit a1
  obtain ⟨t', c1, c2, c3⟩ : ∃ t', runOptics (Layer.sequence 1 [g]) axisRay = .ok t' ∧ t'.prob = some 1 ∧ t'.dir = none := by
    rw [← C188_sequence_partial 1 [g] axisRay (by simp) trivial ?_ hhit]
    · exact ⟨t1, a1, a2, a3⟩
    · intro a b hab ha hb
      have := congrArg List.length hab
      simp only [List.length_cons, List.length_nil, List.length_append] at this
      have h1 := List.length_pos_iff.2 ha
      have h2 := List.length_pos_iff.2 hb
      omega
  refine ⟨1, [g, .filter fun _ => 1 / 2], axisRay, t, t', trivial, hhit, b1, ?_, by rw [b2, a2]; norm_num, c2⟩
  have hm : t'.hit 1 = none := by simp only [Ray.hit, c3]
  simp only [Layer.sequence, List.map_cons, List.map_nil, runOptics, g, Layer.optic] at c1 ⊢
  split at c1
  · cases c1
  · rename_i r1 e1
    cases c1
    simp only [e1, Optic.step, hm]

/-- **C188** (negation) If scattering is the first layer, stack and sequence give different directions for the same random numbers, because the sequence uses the position of the photon
before it arrives (C181). -/
theorem C188_scatter_false : ∃ (m : M4) (es : List Layer) (r t t' : Ray), KeepsCrossing m es r ∧ (Optic.plane m).Hit r ∧ flatStack m es r = .ok t ∧
    runOptics (Layer.sequence m es) r = .ok t' ∧ t.pos = t'.pos ∧ t.dir ≠ t'.dir := by
  obtain ⟨e1, e2, e3, e4, e5, e6⟩ := unitAxes
  have hi : planeIntersect 1 ⟨-1, 0, 0, 0⟩ ⟨4 / 5, 3 / 5, 0, 1⟩ = some (⟨0, 3 / 5, 0, 1⟩, 3 / 5, 0) := by
    simp only [planeIntersect, e1, e2, e3, e4, e5, e6]
    norm_num [H4.dot, abs_le]
    ext <;> norm_num
  let ray : Ray := { axisRay with pos := some ⟨4 / 5, 3 / 5, 0, 1⟩ }
  have hh : ray.hit 1 = some (⟨-1, 0, 0, 0⟩, ⟨0, 3 / 5, 0, 1⟩, 3 / 5, 0, ⟨4 / 5, 3 / 5, 0, 1⟩) := by
    simp only [Ray.hit, ray, axisRay, hi]
  have hdir : ray.dir = some ⟨-1, 0, 0, 0⟩ := rfl
  obtain ⟨t, t1, t2, t3⟩ : ∃ t, flatStack 1 [.scatter none (some Real.pi)] ray = .ok t ∧ t.pos = some ⟨0, 3 / 5, 0, 1⟩ ∧
      t.dir = (radialScatter 1 ⟨-1, 0, 0, 0⟩ ⟨0, 3 / 5, 0, 1⟩ ⟨0, 0, 0, 0⟩ none (some Real.pi)).map Prod.fst := by
    simp only [flatStack, hh, rayLayers, Layer.process, hdir]
    exact ⟨_, rfl, rfl, rfl⟩
  obtain ⟨t', s1, s2, s3⟩ : ∃ t', runOptics (Layer.sequence 1 [.scatter none (some Real.pi)]) ray = .ok t' ∧ t'.pos = some ⟨0, 3 / 5, 0, 1⟩ ∧
      t'.dir = (radialScatter 1 ⟨-1, 0, 0, 0⟩ ⟨4 / 5, 3 / 5, 0, 1⟩ ⟨0, 0, 0, 0⟩ none (some Real.pi)).map Prod.fst := by
    simp only [Layer.sequence, List.map_cons, List.map_nil, Layer.optic, runOptics, Optic.step, hh]
    exact ⟨_, rfl, rfl, rfl⟩
  refine ⟨1, [.scatter none (some Real.pi)], ray, t, t', ?_, (Hit_iff _ 1 rfl _).2 (by rw [hh]; simp), t1, s1, t2.trans s2.symm, ?_⟩
  · intro a b hab ha hb
    have := congrArg List.length hab
    simp only [List.length_cons, List.length_nil, List.length_append] at this
    have h1 := List.length_pos_iff.2 ha
    have h2 := List.length_pos_iff.2 hb
    omega
  · rw [t3, s3]
    have g : ∀ (p : H4) (u : V3) (k : ℝ), 0 < k → p.xyz - (center 1).xyz = k • u → u.dot u = 1 →
        (radialScatter 1 ⟨-1, 0, 0, 0⟩ p ⟨0, 0, 0, 0⟩ none (some Real.pi)).map Prod.fst = some ((2 * u.dot ⟨-1, 0, 0⟩) • u - ⟨-1, 0, 0⟩ : V3).toDir := by
      intro p u k hk hp hu
      have ht : turn (k • u) Real.pi ⟨-1, 0, 0⟩ = turn u Real.pi ⟨-1, 0, 0⟩ := by
        simp only [turn, v3_unit_smul hk, v3_smul_eq_zero hk]
      have hx : (⟨-1, 0, 0, 0⟩ : H4).xyz = ⟨-1, 0, 0⟩ := rfl
      simp only [radialScatter, hp, hx, ht, pi_turn u _ hu, Option.map_some]
    have g1 := g ⟨4 / 5, 3 / 5, 0, 1⟩ ⟨4 / 5, 3 / 5, 0⟩ 1 one_pos (by rw [e4]; ext <;> simp) (by norm_num [V3.dot])
    have g2 := g ⟨0, 3 / 5, 0, 1⟩ ⟨0, 1, 0⟩ (3 / 5) (by norm_num) (by rw [e4]; ext <;> norm_num) (by norm_num [V3.dot])
    rw [g1, g2]
    intro hc
    have := congrArg H4.x (Option.some.inj hc)
    norm_num [V3.dot, V3.toDir] at this

/-- A detector with a filter in front of it: a photon hits the stack and crosses it. -/
example : (Optic.plane 1).Hit axisRay ∧ NoScatterFirst [.filter fun _ => 1 / 2, .detector] ∧ KeepsCrossing 1 [.filter fun _ => 1 / 2, .detector] axisRay ∧
    ∃ t, flatStack 1 [.filter fun _ => 1 / 2, .detector] axisRay = .ok t ∧ t.prob = some (1 / 2) ∧ t.pos = some ⟨0, 1 / 2, 0, 1⟩ := by
  obtain ⟨e1, e2, e3, e4, e5, e6⟩ := unitAxes
  have hh : axisRay.hit 1 = some (⟨-1, 0, 0, 0⟩, ⟨0, 1 / 2, 0, 1⟩, 1 / 2, 0, ⟨2, 1 / 2, 0, 1⟩) := by
    simp only [Ray.hit, axisRay, axisRay_hit]
  have hv : filterValue (fun _ => (1 / 2 : ℝ)) 1 = .ok (1 / 2) := by rw [filterValue, if_neg]; norm_num
  have hen : axisRay.energy = 1 := rfl
  refine ⟨(Hit_iff _ 1 rfl _).2 (by rw [hh]; simp), trivial, ?_, ?_⟩
  · intro a b hab ha hb r' hr'
    match a, ha with
    | [e], _ =>
      simp only [List.cons_append, List.nil_append, List.cons.injEq] at hab
      obtain ⟨rfl, -⟩ := hab
      simp only [Layer.sequence, List.map_cons, List.map_nil, Layer.optic, runOptics, Optic.step, hh, hen, hv, Except.ok.injEq] at hr'
      subst hr'
      exact ⟨⟨-1, 0, 0, 0⟩, rfl, by rw [e1]; norm_num [H4.dot]⟩
    | e :: e' :: a, _ =>
      have := congrArg List.length hab
      simp only [List.length_cons, List.length_nil, List.length_append] at this
      have h2 := List.length_pos_iff.2 hb
      omega
  · simp only [flatStack, hh, rayLayers, Layer.process, hen, hv]
    refine ⟨_, rfl, ?_, rfl⟩
    simp [Ray.at, Ray.times, axisRay]

end Marxs
