import Verif.Spec.SkySource
import Verif.Props.Source
import Verif.Props.Chandra

/-!
# Properties C102-C104: photon lists of sky sources
-/

namespace Marxs

open Classical

/-! ## C102 -/

theorem drawAll_length (a : ArbPdf) : ∀ (l : List (ℝ × ℝ)) (vs : List ℝ), drawAll a l = .ok vs → vs.length = l.length
  | [], vs, h => by simp only [drawAll, Except.ok.injEq] at h; simp [← h]
  | (u, r) :: l, vs, h => by
    simp only [drawAll] at h
    split at h
    · cases h
    · split at h
      · cases h
      · rename_i h2
        simp only [Except.ok.injEq] at h
        rw [← h, List.length_cons, drawAll_length a l _ h2, List.length_cons]

theorem generateEnergies_length {spec : EnergySpec} {g : List ℝ → List ℕ} {draws : List (ℝ × ℝ)} {t en : List ℝ}
    (hd : draws.length = t.length) (h : generateEnergies spec g draws t = .ok en) : en.length = t.length := by
  cases spec with
  | callable f =>
    simp only [generateEnergies] at h
    split at h
    · cases h
    · rename_i hl; simp only [Except.ok.injEq] at h; rw [← h]; exact not_not.1 hl
  | table x y =>
    simp only [generateEnergies] at h
    split at h
    · cases h
    · rw [drawAll_length _ _ _ h, hd]
  | scalar v => simp only [generateEnergies, Except.ok.injEq] at h; simp [← h]
  | other => cases h

theorem generatePolarization_length {spec : PolSpec} {g : List ℝ → List ℕ} {draws : List (ℝ × ℝ)} {t e pol : List ℝ}
    (hd : draws.length = t.length) (h : generatePolarization spec g draws t e = .ok pol) : pol.length = t.length := by
  cases spec with
  | callable f =>
    simp only [generatePolarization] at h
    split at h
    · cases h
    · rename_i hl; simp only [Except.ok.injEq] at h; rw [← h]; exact not_not.1 hl
  | unpolarized => simp only [generatePolarization, Except.ok.injEq] at h; simp [← h, hd]
  | table x y =>
    simp only [generatePolarization] at h
    split at h
    · cases h
    · rw [drawAll_length _ _ _ h, hd]
  | scalar v => simp only [generatePolarization, Except.ok.injEq] at h; simp [← h]
  | other => cases h

theorem draw_length {α : Type} (f : ℕ → α) (n : ℕ) : (draw f n).length = n := by simp [draw]

/-- **C102** A source returns a photon list whenever its flux, energy and polarization give results (the columns
always fit), with exactly one photon for each time, in order: with that time, the energy and the polarization angle
that belong to it, and with probability 1. -/
theorem C102_table (s : SourceSpec) (drE drP : ℕ → ℝ × ℝ) (T : ℝ) (times en pol : List ℝ)
    (ht : generateTimes s.flux s.area T = .ok times)
    (he : generateEnergies s.energy s.argsort (draw drE times.length) times = .ok en)
    (hp : generatePolarization s.polarization s.argsort (draw drP times.length) times en = .ok pol) :
    ∃ p, generatePhotons s drE drP T = .ok p ∧ p.tab.names = ["time", "energy", "polangle", "probability"] ∧
      p.hdr "EXPOSURE" = some T ∧ p.tab.rows.length = times.length ∧ en.length = times.length ∧
      pol.length = times.length ∧
      ∀ i < times.length, numAt p.tab "time" i = times[i]? ∧ numAt p.tab "energy" i = en[i]? ∧
        numAt p.tab "polangle" i = pol[i]? ∧ numAt p.tab "probability" i = some 1 := by
  have l1 := generateEnergies_length (draw_length _ _) he
  have l2 := generatePolarization_length (draw_length _ _) hp
  have heq : generatePhotons s drE drP T = .ok ⟨⟨["time", "energy", "polangle", "probability"],
      (List.range times.length).map fun i => sourceRow (times.getD i 0) (en.getD i 0) (pol.getD i 0)⟩,
      Header.update (fun _ => none) [("EXPOSURE", T)]⟩ := by
    simp only [generatePhotons, ht, he, hp, sourceTable, l1, l2, and_self, if_true, bind, Except.bind]
  refine ⟨_, heq, rfl, ?_, ?_, l1, l2, ?_⟩
  · simp [Header.update]
  · simp
  · intro i hi
    have h1 : times[i]? = some (times.getD i 0) := by simp [List.getD, hi]
    have h2 : en[i]? = some (en.getD i 0) := by simp [List.getD, l1, hi]
    have h3 : pol[i]? = some (pol.getD i 0) := by simp [List.getD, l2, hi]
    rw [h1, h2, h3]
    simp [numAt, hi, sourceRow]

/-- **C102** If anything fails, then it is because the source is not specified correctly: there is no other error than
those of flux, energy and polarization, and no photon list. -/
theorem C102_errors (s : SourceSpec) (drE drP : ℕ → ℝ × ℝ) (T : ℝ) (e : Err)
    (h : generatePhotons s drE drP T = .error e) :
    generateTimes s.flux s.area T = .error e ∨ ∃ times, generateTimes s.flux s.area T = .ok times ∧
      (generateEnergies s.energy s.argsort (draw drE times.length) times = .error e ∨
       ∃ en, generateEnergies s.energy s.argsort (draw drE times.length) times = .ok en ∧
         generatePolarization s.polarization s.argsort (draw drP times.length) times en = .error e) := by
  cases ht : generateTimes s.flux s.area T with
  | error x => left; simpa [generatePhotons, ht, bind, Except.bind] using h
  | ok times =>
    right
    refine ⟨times, rfl, ?_⟩
    cases he : generateEnergies s.energy s.argsort (draw drE times.length) times with
    | error x => left; simpa [generatePhotons, ht, he, bind, Except.bind] using h
    | ok en =>
      right
      refine ⟨en, rfl, ?_⟩
      cases hp : generatePolarization s.polarization s.argsort (draw drP times.length) times en with
      | error x => simpa [generatePhotons, ht, he, hp, bind, Except.bind] using h
      | ok pol =>
        obtain ⟨p, h1, _⟩ := C102_table s drE drP T times en pol ht he hp
        rw [h1] at h; cases h

/-- **C102** The simple source: constant flux, one energy, one polarization angle. -/
theorem C102_simple (rate area E a T : ℝ) (hr : 0 < rate * area) (g : List ℝ → List ℕ) (drE drP : ℕ → ℝ × ℝ) :
    ∃ p, generatePhotons ⟨.scalar rate, .scalar E, .scalar a, some area, g⟩ drE drP T = .ok p ∧
      p.tab.rows.length = ⌈T * (rate * area)⌉₊ ∧
      ∀ i < p.tab.rows.length, ∃ t, numAt p.tab "time" i = some t ∧ t = i / (rate * area) ∧ 0 ≤ t ∧ t < T ∧
        numAt p.tab "energy" i = some E ∧ numAt p.tab "polangle" i = some a ∧
        numAt p.tab "probability" i = some 1 := by
  obtain ⟨ts, h1, h2, h3, h4, _⟩ := C30_times rate area T hr
  obtain ⟨p, e1, _, _, e2, _, _, e3⟩ := C102_table ⟨.scalar rate, .scalar E, .scalar a, some area, g⟩ drE drP T ts
    (List.replicate ts.length E) (List.replicate ts.length a) h1 rfl rfl
  refine ⟨p, e1, e2.trans h2, fun i hi => ?_⟩
  rw [e2] at hi
  obtain ⟨a1, a2, a3, a4⟩ := e3 i hi
  refine ⟨ts[i], by rw [a1]; simp [hi], h3 i hi, (h4 _ (List.getElem_mem hi)).1, (h4 _ (List.getElem_mem hi)).2, ?_, ?_, a4⟩
  · rw [a2]; simp [hi]
  · rw [a3]; simp [hi]

/-- Without a geometric area the flux is a rate: three photons in 1.5 seconds with a flux of two. -/
example : ∃ p, generatePhotons ⟨.scalar 2, .callable (fun t => t.map (· + 1)), .unpolarized, none, fun _ => []⟩
    (fun _ => (0, 0)) (fun _ => (0.5, 0)) 1.5 = .ok p ∧ p.tab.rows.length = 3 ∧ numAt p.tab "energy" 2 = some 2 ∧
    numAt p.tab "polangle" 0 = some Real.pi := by
  obtain ⟨ts, h1, h2, h3, h4, _⟩ := C30_times 2 1 1.5 (by norm_num)
  have hl : ts.length = 3 := by rw [h2, Nat.ceil_eq_iff (by norm_num)]; norm_num
  obtain ⟨p, e1, _, _, e2, l1, l2, e3⟩ := C102_table
    ⟨.scalar 2, .callable (fun t => t.map (· + 1)), .unpolarized, none, fun _ => []⟩ (fun _ => (0, 0))
    (fun _ => (0.5, 0)) 1.5 ts _ _ h1 (by simp only [generateEnergies]; rw [if_neg (by simp)]) rfl
  refine ⟨p, e1, e2.trans hl, ?_, ?_⟩
  · rw [(e3 2 (by omega)).2.1]
    have := h3 2 (by omega)
    simp [hl, this]; norm_num
  · rw [(e3 0 (by omega)).2.2.1]
    simp [draw, hl]; ring

/-! ## C103 -/

theorem setVals_ok {t : Table} {c : String} {vs : List Val} (h : vs.length = t.rows.length) :
    t.setVals c vs = .ok ⟨if c ∈ t.names then t.names else t.names ++ [c],
      List.zipWith (fun r v => Function.update r c v) t.rows vs⟩ := by rw [Table.setVals, if_pos h]

theorem setVals_names {t t' : Table} {c : String} {vs : List Val} (h : t.setVals c vs = .ok t') :
    vs.length = t.rows.length ∧ t'.rows.length = t.rows.length ∧ (∀ n, n ∈ t'.names ↔ n ∈ t.names ∨ n = c) ∧
    ∀ i : ℕ, t'.rows[i]? = (match t.rows[i]?, vs[i]? with
      | some r, some v => some (Function.update r c v)
      | _, _ => none) := by
  rw [Table.setVals] at h
  by_cases hl : vs.length = t.rows.length
  · rw [if_pos hl] at h
    simp only [Except.ok.injEq] at h
    subst h
    refine ⟨hl, by simp [hl], fun n => ?_, fun i => ?_⟩
    · by_cases hc : c ∈ t.names
      · simp only [hc, if_true]
        constructor
        · exact .inl
        · rintro (h | rfl)
          · exact h
          · exact hc
      · simp [hc]
    · simp only [List.getElem?_zipWith]
      cases t.rows[i]? <;> cases vs[i]? <;> rfl
  · rw [if_neg hl] at h; cases h

theorem lonLat_vec {v : V3} (hv : v.dot v = 1) : skyPos (lonLat v).1 (lonLat v).2 = v := by
  have := angles_of_vec (v := ⟨v.y, v.x, v.z⟩) (by rw [← hv]; simp only [V3.dot]; ring)
  simp only at this
  rw [show Real.pi / 2 - Real.arccos v.z = Real.arcsin v.z by rw [Real.arccos]; ring] at this
  exact this

theorem rad2deg_back (x : ℝ) : rad2deg x * Real.pi / 180 = x := by
  have := Real.pi_ne_zero
  rw [rad2deg]; field_simp

theorem lonLat_range (v : V3) : 0 ≤ rad2deg (lonLat v).1 ∧ rad2deg (lonLat v).1 < 360 ∧
    -90 ≤ rad2deg (lonLat v).2 ∧ rad2deg (lonLat v).2 ≤ 90 := by
  have hpi := Real.pi_pos
  have h1 := pymod_nonneg two_pi_pos (arctan2 v.y v.x)
  have h2 := pymod_lt two_pi_pos (arctan2 v.y v.x)
  have h3 := Real.neg_pi_div_two_le_arcsin v.z
  have h4 := Real.arcsin_le_pi_div_two v.z
  simp only [lonLat, rad2deg]
  refine ⟨by positivity, ?_, ?_, ?_⟩
  · rw [div_lt_iff₀ hpi]; linarith
  · rw [le_div_iff₀ hpi]; linarith
  · rw [div_le_iff₀ hpi]; linarith

/-- Positions are written to the table; nothing else changes. -/
theorem setPos_spec (p : PhotonList) (coo : List V3) (hl : coo.length = p.tab.rows.length)
    (hu : ∀ v ∈ coo, v.dot v = 1) :
    ∃ q, setPos p coo = .ok q ∧ q.hdr = p.hdr ∧ (∀ cs, "ra" ∉ cs → "dec" ∉ cs → SameIn cs p.tab q.tab) ∧
      (∀ n, n ∈ q.tab.names ↔ n ∈ p.tab.names ∨ n = "ra" ∨ n = "dec") ∧
      ∀ (i : ℕ) (h : i < coo.length), SkyAt q.tab i coo[i] := by
  have h1 : (coo.map fun v => Val.num (some (rad2deg (lonLat v).1))).length = p.tab.rows.length := by simpa using hl
  obtain ⟨_, r1, n1, g1⟩ := setVals_names (setVals_ok (c := "ra") h1)
  set t1 : Table := ⟨if "ra" ∈ p.tab.names then p.tab.names else p.tab.names ++ ["ra"],
    List.zipWith (fun r v => Function.update r "ra" v) p.tab.rows
      (coo.map fun v => Val.num (some (rad2deg (lonLat v).1)))⟩ with ht1
  have h2 : (coo.map fun v => Val.num (some (rad2deg (lonLat v).2))).length = t1.rows.length := by
    rw [r1]; simpa using hl
  obtain ⟨_, r2, n2, g2⟩ := setVals_names (setVals_ok (c := "dec") h2)
  set t2 : Table := ⟨if "dec" ∈ t1.names then t1.names else t1.names ++ ["dec"],
    List.zipWith (fun r v => Function.update r "dec" v) t1.rows
      (coo.map fun v => Val.num (some (rad2deg (lonLat v).2)))⟩ with ht2
  have hnames : ∀ n, n ∈ t2.names ↔ n ∈ p.tab.names ∨ n = "ra" ∨ n = "dec" := by
    intro n; rw [n2, n1, or_assoc]
  refine ⟨{ p with tab := t2 }, ?_, rfl, ?_, hnames, ?_⟩
  · simp only [setPos, setVals_ok h1, bind, Except.bind, ← ht1, setVals_ok h2, ← ht2]
  · intro cs c1 c2
    refine ⟨r2.trans r1, fun c hc => ⟨fun h => (hnames c).2 (.inl h), fun i => ?_⟩⟩
    have e1 : c ≠ "ra" := fun h => c1 (h ▸ hc)
    have e2 : c ≠ "dec" := fun h => c2 (h ▸ hc)
    show (t2.rows[i]?).map _ = _
    rw [g2, g1]
    by_cases hi : i < coo.length
    · have hi' : i < p.tab.rows.length := hl ▸ hi
      simp [hi, hi', e1, e2]
    · have hi' : ¬ i < p.tab.rows.length := hl ▸ hi
      simp [hi, hi']
  · intro i hi
    have hi' : i < p.tab.rows.length := hl ▸ hi
    obtain ⟨b1, b2, b3, b4⟩ := lonLat_range coo[i]
    refine ⟨(hnames _).2 (by simp), (hnames _).2 (by simp), rad2deg (lonLat coo[i]).1, rad2deg (lonLat coo[i]).2,
      ?_, ?_, b1, b2, b3, b4, ?_⟩
    · show numAt t2 _ _ = _
      simp only [numAt, g2, g1]; simp [hi, hi']
    · show numAt t2 _ _ = _
      simp only [numAt, g2, g1]; simp [hi, hi']
    · rw [rad2deg_back, rad2deg_back]
      exact lonLat_vec (hu _ (List.getElem_mem hi))

theorem skyC_unit {c : SkyC} (hc : IsRotation c.frame) : c.vec.dot c.vec = 1 := by
  rw [SkyC.vec, rotation_dot hc]; exact skyPos_unit _ _

/-- **C103** `PointSource`: every photon comes from the position of the source, whatever the coordinate system it is
given in; times, energies, polarization angles and probabilities are those of `Source.generate_photons`. -/
theorem C103_point (s : SourceSpec) (c : SkyC) (hc : IsRotation c.frame) (drE drP : ℕ → ℝ × ℝ) (T : ℝ) (p : PhotonList)
    (h : generatePhotons s drE drP T = .ok p) :
    ∃ q, pointPhotons s c drE drP T = .ok q ∧ q.hdr = p.hdr ∧
      SameIn ["time", "energy", "polangle", "probability"] p.tab q.tab ∧
      ∀ i < q.tab.rows.length, SkyAt q.tab i c.vec := by
  obtain ⟨q, h1, h2, h3, _, h4⟩ := setPos_spec p (List.replicate p.tab.rows.length c.vec) (by simp)
    (fun v hv => by rw [List.eq_of_mem_replicate hv]; exact skyC_unit hc)
  have h5 := h3 ["time", "energy", "polangle", "probability"] (by simp) (by simp)
  refine ⟨q, ?_, h2, h5, fun i hi => ?_⟩
  · simp only [pointPhotons, h, bind, Except.bind, h1]
  · rw [h5.1] at hi
    have := h4 i (by simpa using hi)
    simpa using this

theorem fromOffset_eq (c : SkyC) (q : ℝ × ℝ) : fromOffset c q = mul3 c.frame (offsetFrom c.lon c.lat q.1 q.2) := by
  rw [fromOffset]
  congr 1
  ext <;>
    simp [offsetFrom, skyOffset, mul3, Matrix.mul_apply, Fin.sum_univ_three, euX, euY, euZ, skyVec, skyPos, skyNorth,
      skyEast] <;> ring

theorem offsetFrom_dot (lon lat e n : ℝ) : (offsetFrom lon lat e n).dot (skyPos lon lat) = Real.cos n * Real.cos e ∧
    (offsetFrom lon lat e n).dot (skyEast lon) = Real.cos n * Real.sin e ∧
    (offsetFrom lon lat e n).dot (skyNorth lon lat) = Real.sin n ∧
    (offsetFrom lon lat e n).dot (offsetFrom lon lat e n) = 1 := by
  have h := Real.sin_sq_add_cos_sq lat
  have h' := Real.sin_sq_add_cos_sq lon
  have cc : (skyPos lon lat).dot (skyPos lon lat) = 1 := skyPos_unit _ _
  have ee : (skyEast lon).dot (skyEast lon) = 1 := by simp only [V3.dot, skyEast]; linear_combination h'
  have nn : (skyNorth lon lat).dot (skyNorth lon lat) = 1 := by
    simp only [V3.dot, skyNorth]; linear_combination (Real.sin lat) ^ 2 * h' + h
  have ce : (skyPos lon lat).dot (skyEast lon) = 0 := by simp only [V3.dot, skyPos, skyEast]; ring
  have cn : (skyPos lon lat).dot (skyNorth lon lat) = 0 := by
    simp only [V3.dot, skyPos, skyNorth]; linear_combination -Real.cos lat * Real.sin lat * h'
  have en : (skyEast lon).dot (skyNorth lon lat) = 0 := by simp only [V3.dot, skyEast, skyNorth]; ring
  have h1 : (offsetFrom lon lat e n).dot (skyPos lon lat) = Real.cos n * Real.cos e := by
    simp only [offsetFrom, V3.dot_add_left, V3.dot_smul_left, cc, V3.dot_comm (skyEast lon) (skyPos lon lat), ce,
      V3.dot_comm (skyNorth lon lat) (skyPos lon lat), cn]; ring
  have h2 : (offsetFrom lon lat e n).dot (skyEast lon) = Real.cos n * Real.sin e := by
    simp only [offsetFrom, V3.dot_add_left, V3.dot_smul_left, ce, ee, V3.dot_comm (skyNorth lon lat) (skyEast lon), en]; ring
  have h3 : (offsetFrom lon lat e n).dot (skyNorth lon lat) = Real.sin n := by
    simp only [offsetFrom, V3.dot_add_left, V3.dot_smul_left, cn, en, nn]; ring
  refine ⟨h1, h2, h3, ?_⟩
  have h4 : ∀ o : V3, o.dot (offsetFrom lon lat e n) = (Real.cos n * Real.cos e) * o.dot (skyPos lon lat) +
      (Real.cos n * Real.sin e) * o.dot (skyEast lon) + Real.sin n * o.dot (skyNorth lon lat) := by
    intro o; simp only [offsetFrom, V3.dot_add_right, V3.dot_smul_right]
  rw [h4, h1, h2, h3]
  linear_combination (Real.cos n) ^ 2 * Real.sin_sq_add_cos_sq e + Real.sin_sq_add_cos_sq n

theorem placeOffsets_spec (p : PhotonList) (c : SkyC) (hc : IsRotation c.frame) (f : ℕ → ℝ × ℝ) :
    ((∀ i < p.tab.rows.length, |(f i).2| ≤ Real.pi / 2) →
      ∃ q, placeOffsets p c (draw f p.tab.rows.length) = .ok q ∧ q.hdr = p.hdr ∧
        SameIn ["time", "energy", "polangle", "probability"] p.tab q.tab ∧
        ∀ i < q.tab.rows.length, SkyAt q.tab i (mul3 c.frame (offsetFrom c.lon c.lat (f i).1 (f i).2))) ∧
    (¬ (∀ i < p.tab.rows.length, |(f i).2| ≤ Real.pi / 2) →
      placeOffsets p c (draw f p.tab.rows.length) = .error .valueError) := by
  have hlat : (∀ b ∈ (draw f p.tab.rows.length).map Prod.snd, |b| ≤ Real.pi / 2) ↔
      ∀ i < p.tab.rows.length, |(f i).2| ≤ Real.pi / 2 := by
    simp [draw]
  constructor
  · intro h
    obtain ⟨q, h1, h2, h3, _, h4⟩ := setPos_spec p ((draw f p.tab.rows.length).map (fromOffset c)) (by simp [draw])
      (fun v hv => by
        obtain ⟨x, _, rfl⟩ := List.mem_map.1 hv
        rw [fromOffset_eq, rotation_dot hc]
        exact (offsetFrom_dot _ _ _ _).2.2.2)
    have h5 := h3 ["time", "energy", "polangle", "probability"] (by simp) (by simp)
    refine ⟨q, ?_, h2, h5, fun i hi => ?_⟩
    · simp only [placeOffsets, checkLatitudes, if_pos (hlat.2 h), bind, Except.bind, h1]
    · rw [h5.1] at hi
      have := h4 i (by simpa [draw] using hi)
      simpa [draw, fromOffset_eq] using this
  · intro h
    simp only [placeOffsets, checkLatitudes, if_neg (fun h' => h (hlat.1 h')), bind, Except.bind]

/-- **C103** `RadialDistributionSource`: photon `i` is placed relative to the position of the source, at the longitude
`d sin phi` to the East and the latitude `d cos phi` to the North. That holds for every position on the sky, also at
the poles, and for every coordinate system. All other columns are unchanged. -/
theorem C103_radial (s : SourceSpec) (c : SkyC) (hc : IsRotation c.frame) (drE drP : ℕ → ℝ × ℝ) (d u : ℕ → ℝ) (T : ℝ)
    (p : PhotonList) (h : generatePhotons s drE drP T = .ok p)
    (hlat : ∀ i < p.tab.rows.length, |d i * Real.cos (u i * 2 * Real.pi)| ≤ Real.pi / 2) :
    ∃ q, radialPhotons s c drE drP d u T = .ok q ∧ q.hdr = p.hdr ∧
      SameIn ["time", "energy", "polangle", "probability"] p.tab q.tab ∧
      ∀ i < q.tab.rows.length, SkyAt q.tab i (mul3 c.frame (offsetFrom c.lon c.lat
        (d i * Real.sin (u i * 2 * Real.pi)) (d i * Real.cos (u i * 2 * Real.pi)))) := by
  obtain ⟨q, h1, h2⟩ := (placeOffsets_spec p c hc (fun i => offsetLonLat (d i) (u i))).1 hlat
  refine ⟨q, ?_, h2⟩
  simp only [radialPhotons, h, bind, Except.bind]
  exact h1

/-- **C103** The same for `GaussSource`: East and North offsets are independent normal draws. -/
theorem C103_gauss (s : SourceSpec) (c : SkyC) (hc : IsRotation c.frame) (sigma : ℝ) (drE drP : ℕ → ℝ × ℝ) (z1 z2 : ℕ → ℝ)
    (T : ℝ) (p : PhotonList) (h : generatePhotons s drE drP T = .ok p)
    (hlat : ∀ i < p.tab.rows.length, |sigma * z2 i| ≤ Real.pi / 2) :
    ∃ q, gaussPhotons s c sigma drE drP z1 z2 T = .ok q ∧ q.hdr = p.hdr ∧
      SameIn ["time", "energy", "polangle", "probability"] p.tab q.tab ∧
      ∀ i < q.tab.rows.length, SkyAt q.tab i (mul3 c.frame (offsetFrom c.lon c.lat (sigma * z1 i) (sigma * z2 i))) := by
  obtain ⟨q, h1, h2⟩ := (placeOffsets_spec p c hc (fun i => (sigma * z1 i, sigma * z2 i))).1 hlat
  refine ⟨q, ?_, h2⟩
  simp only [gaussPhotons, h, bind, Except.bind]
  exact h1

theorem skyDistance_offset (c : SkyC) (hc : IsRotation c.frame) (q : ℝ × ℝ) :
    Real.arccos ((mul3 c.frame (offsetFrom c.lon c.lat q.1 q.2)).dot c.vec) = skyDistance q := by
  rw [SkyC.vec, rotation_dot hc, show skyVec c.lon c.lat = skyPos c.lon c.lat from rfl, (offsetFrom_dot _ _ _ _).1,
    skyDistance]
  simp [skyVector, V3.dot]

/-- **C103** (partial: outer radius up to 90 degrees, and only the outer radius, see `C32_spherical_hole_not_empty`.) All
photons of a `DiskSource` or `SphericalDiskSource` are within the outer radius around the position of the source,
as angle on the sky. -/
theorem C103_disk_partial (s : SourceSpec) (c : SkyC) (hc : IsRotation c.frame) (drE drP : ℕ → ℝ × ℝ) (a b : ℝ)
    (r u : ℕ → ℝ) (ha : 0 ≤ a) (hab : a ≤ b) (hb : b ≤ Real.pi / 2) (hr : ∀ i, 0 ≤ r i ∧ r i ≤ 1) (T : ℝ)
    (p : PhotonList) (h : generatePhotons s drE drP T = .ok p) :
    (∃ q, diskPhotons s c a b drE drP r u T = .ok q ∧ q.tab.rows.length = p.tab.rows.length ∧
      ∀ i < q.tab.rows.length, ∃ v, SkyAt q.tab i v ∧ Real.arccos (v.dot c.vec) ≤ b) ∧
    ∃ q, sphericalDiskPhotons s c a b drE drP r u T = .ok q ∧ q.tab.rows.length = p.tab.rows.length ∧
      ∀ i < q.tab.rows.length, ∃ v, SkyAt q.tab i v ∧ Real.arccos (v.dot c.vec) ≤ b := by
  have key : ∀ (d x : ℝ), 0 ≤ d → d ≤ b → |d * Real.cos x| ≤ Real.pi / 2 := by
    intro d x h0 h1
    rw [abs_mul, abs_of_nonneg h0]
    have := Real.abs_cos_le_one x
    nlinarith [abs_nonneg (Real.cos x)]
  constructor
  · obtain ⟨q, h1, _, h2, h3⟩ := C103_radial s c hc drE drP (fun i => diskRadius a b (r i)) u T p h (fun i _ =>
      key _ _ (Real.sqrt_nonneg _) (C32_disk a b (r i) ha hab (hr i).1 (hr i).2).2.1)
    refine ⟨q, h1, h2.1, fun i hi => ⟨_, h3 i hi, ?_⟩⟩
    refine le_of_eq_of_le (skyDistance_offset c hc (offsetLonLat (diskRadius a b (r i)) (u i))) ?_
    exact (C32_inside_partial a b (r i) (u i) ha hab hb (hr i).1 (hr i).2).2
  · obtain ⟨q, h1, _, h2, h3⟩ := C103_radial s c hc drE drP (fun i => sphericalRadius a b (r i)) u T p h (fun i _ =>
      key _ _ (Real.arccos_nonneg _) (C32_spherical a b (r i) ha hab (by linarith [Real.pi_pos]) (hr i).1 (hr i).2).2.1)
    refine ⟨q, h1, h2.1, fun i hi => ⟨_, h3 i hi, ?_⟩⟩
    refine le_of_eq_of_le (skyDistance_offset c hc (offsetLonLat (sphericalRadius a b (r i)) (u i))) ?_
    exact (C32_inside_partial a b (r i) (u i) ha hab hb (hr i).1 (hr i).2).1

/-- **C103** Documentation: `SphericalDiskSource` "implements the full spherical geometry". A disk that covers the whole
sky fails with a `ValueError` as soon as one photon gets a latitude beyond the pole, for every source with a photon. -/
theorem C103_all_sky_false (s : SourceSpec) (c : SkyC) (hc : IsRotation c.frame) (drE drP : ℕ → ℝ × ℝ) (T : ℝ)
    (p : PhotonList) (h : generatePhotons s drE drP T = .ok p) (hn : 0 < p.tab.rows.length) :
    ∃ r u : ℕ → ℝ, (∀ i, 0 ≤ r i ∧ r i < 1 ∧ 0 ≤ u i ∧ u i < 1) ∧
      sphericalDiskPhotons s c 0 Real.pi drE drP r u T = .error .valueError := by
  refine ⟨fun _ => 3 / 4, fun _ => 0, fun i => by norm_num, ?_⟩
  simp only [sphericalDiskPhotons, radialPhotons, h, bind, Except.bind]
  refine (placeOffsets_spec p c hc _).2 (fun h' => ?_)
  have h1 := h' 0 hn
  have : sphericalRadius 0 Real.pi (3 / 4) = 2 * Real.pi / 3 := by
    rw [sphericalRadius, Real.cos_zero, Real.cos_pi]
    rw [show (1 : ℝ) * (1 - 3 / 4) + 3 / 4 * -1 = Real.cos (2 * Real.pi / 3) by
      rw [show 2 * Real.pi / 3 = Real.pi - Real.pi / 3 by ring, Real.cos_pi_sub, Real.cos_pi_div_three]; norm_num]
    exact Real.arccos_cos (by positivity) (by linarith [Real.pi_pos])
  rw [this] at h1
  simp only [offsetLonLat, zero_mul, Real.cos_zero, mul_one] at h1
  rw [abs_of_pos (by positivity)] at h1
  linarith [Real.pi_pos]

/-- ICRS is one of the frames, and so is any other rotated frame. -/
example : IsRotation (SkyC.mk 1 0 0).frame ∧ IsRotation (SkyC.mk (euZ 1 * euY 2) 3 (1 / 2)).frame ∧
    ∃ p, generatePhotons ⟨.scalar 2, .scalar 1, .scalar 0, none, fun _ => []⟩ (fun _ => (0, 0)) (fun _ => (0, 0)) 3 = .ok p ∧
      0 < p.tab.rows.length := by
  refine ⟨isRotation_one, isRotation_mul (euZ_rotation _) (euY_rotation _), ?_⟩
  obtain ⟨ts, h1, h2, _⟩ := C30_times 2 1 3 (by norm_num)
  obtain ⟨p, e1, _, _, e2, _⟩ := C102_table ⟨.scalar 2, .scalar 1, .scalar 0, none, fun _ => []⟩ (fun _ => (0, 0))
    (fun _ => (0, 0)) 3 ts _ _ h1 rfl rfl
  refine ⟨p, e1, ?_⟩
  rw [e2, h2, Nat.ceil_pos]; norm_num

/-! ## C104 -/

theorem lonLat_skyVec {lon lat : ℝ} (h0 : 0 ≤ lon) (h1 : lon < 2 * Real.pi) (hb : |lat| < Real.pi / 2) :
    lonLat (skyVec lon lat) = (lon, lat) := by
  obtain ⟨b1, b2⟩ := abs_lt.1 hb
  have hu : (skyVec lon lat).dot (skyVec lon lat) = 1 := skyPos_unit lon lat
  have h2 : (lonLat (skyVec lon lat)).2 = lat := by
    simp only [lonLat, skyVec]; exact Real.arcsin_sin b1.le b2.le
  have hv := lonLat_vec hu
  rw [h2] at hv
  have hc : 0 < Real.cos lat := Real.cos_pos_of_mem_Ioo ⟨by linarith, b2⟩
  have hx := congrArg V3.x hv; have hy := congrArg V3.y hv
  simp only [skyPos, skyVec] at hx hy
  have ex := mul_left_cancel₀ hc.ne' hx
  have ey := mul_left_cancel₀ hc.ne' hy
  have r1 : 0 ≤ (lonLat (skyVec lon lat)).1 := pymod_nonneg two_pi_pos _
  have r2 : (lonLat (skyVec lon lat)).1 < 2 * Real.pi := pymod_lt two_pi_pos _
  change Real.cos (lonLat (skyVec lon lat)).1 = _ at ex
  change Real.sin (lonLat (skyVec lon lat)).1 = _ at ey
  have h1' : Real.cos ((lonLat (skyVec lon lat)).1 - lon) = 1 := by
    rw [Real.cos_sub, ex, ey]; linarith [Real.sin_sq_add_cos_sq lon]
  have h3 := (Real.cos_eq_one_iff_of_lt_of_lt (by linarith) (by linarith)).1 h1'
  ext
  · exact sub_eq_zero.1 h3
  · exact h2

/-- The photon list of a `SymbolFSource`, if all declinations are possible. -/
theorem symbolF_spec (s : SourceSpec) (c : SkyC) (hc : IsRotation c.frame) (size : ℝ) (drE drP : ℕ → ℝ × ℝ)
    (elem : ℕ → Fin 3) (u : ℕ → ℝ) (T : ℝ) (p : PhotonList) (h : generatePhotons s drE drP T = .ok p)
    (hlat : ∀ i < p.tab.rows.length, |(symbolF (lonLat c.vec).1 (lonLat c.vec).2 size (elem i) (u i)).2| ≤ Real.pi / 2) :
    ∃ q, symbolFPhotons s c size drE drP elem u T = .ok q ∧ q.hdr = p.hdr ∧
      SameIn ["time", "energy", "polangle", "probability"] p.tab q.tab ∧
      ∀ i < q.tab.rows.length, SkyAt q.tab i (mul3 c.frame
        (skyPos (symbolF (lonLat c.vec).1 (lonLat c.vec).2 size (elem i) (u i)).1
          (symbolF (lonLat c.vec).1 (lonLat c.vec).2 size (elem i) (u i)).2)) := by
  obtain ⟨q, h1, h2, h3, _, h4⟩ := setPos_spec p
    ((draw (fun i => symbolF (lonLat c.vec).1 (lonLat c.vec).2 size (elem i) (u i)) p.tab.rows.length).map
      fun x => mul3 c.frame (skyVec x.1 x.2)) (by simp [draw])
    (fun v hv => by
      obtain ⟨x, _, rfl⟩ := List.mem_map.1 hv
      rw [rotation_dot hc]; exact skyPos_unit _ _)
  have h5 := h3 ["time", "energy", "polangle", "probability"] (by simp) (by simp)
  refine ⟨q, ?_, h2, h5, fun i hi => ?_⟩
  · simp only [symbolFPhotons, h, bind, Except.bind]
    rw [checkLatitudes, if_pos]
    · exact h1
    · simpa [draw] using hlat
  · rw [h5.1] at hi
    have := h4 i (by simpa [draw] using hi)
    simp only [draw, List.getElem_map, List.getElem_range] at this
    exact this

/-- **C104** (partial: source position given in ICRS, small enough to stay away from the poles; sizes in right
ascension, not as angle on the sky.) `SymbolFSource`: photons are on the three bars of the letter: the long one in right
ascension from the position of the source, the two others in declination at its end and at 80 percent, half and 30
percent as long. -/
theorem C104_letter_partial (s : SourceSpec) (lon lat size : ℝ) (h0 : 0 ≤ lon) (h1 : lon < 2 * Real.pi)
    (hb : |lat| < Real.pi / 2) (drE drP : ℕ → ℝ × ℝ) (elem : ℕ → Fin 3) (u : ℕ → ℝ) (T : ℝ) (p : PhotonList)
    (h : generatePhotons s drE drP T = .ok p) (hu : ∀ i, 0 ≤ u i ∧ u i < 1)
    (hs : 0 ≤ size) (hpole : lat + 0.5 * size ≤ Real.pi / 2) :
    ∃ q, symbolFPhotons s ⟨1, lon, lat⟩ size drE drP elem u T = .ok q ∧ q.hdr = p.hdr ∧
      SameIn ["time", "energy", "polangle", "probability"] p.tab q.tab ∧
      ∀ i < q.tab.rows.length, ∃ x y, SkyAt q.tab i (skyPos (lon + size * x) (lat + size * y)) ∧
        ((elem i = 0 ∧ y = 0 ∧ x = u i) ∨ (elem i = 1 ∧ x = 1 ∧ y = 0.5 * u i) ∨
          (elem i = 2 ∧ x = 0.8 ∧ y = 0.3 * u i)) := by
  have hvec : (SkyC.mk 1 lon lat).vec = skyVec lon lat := by
    simp only [SkyC.vec]; ext <;> simp [mul3]
  have hm : ∀ v : V3, mul3 1 v = v := fun v => by ext <;> simp [mul3]
  have hl := lonLat_skyVec h0 h1 hb
  obtain ⟨b1, b2⟩ := abs_lt.1 hb
  obtain ⟨q, e1, e2, e3, e4⟩ := symbolF_spec s ⟨1, lon, lat⟩ isRotation_one size drE drP elem u T p h (by
    intro i _
    rw [hvec, hl]
    obtain ⟨u0, u1⟩ := hu i
    have hsu : 0 ≤ size * u i := mul_nonneg hs u0
    have hsu' : size * u i ≤ size := by nlinarith
    generalize elem i = e
    fin_cases e <;> simp only [symbolF] <;> rw [abs_le] <;> constructor <;> norm_num at hpole ⊢ <;> linarith)
  refine ⟨q, e1, e2, e3, fun i hi => ?_⟩
  have := e4 i hi
  rw [hvec, hl] at this
  simp only [hm] at this
  rcases he : elem i with ⟨k, hk⟩
  rw [he] at this
  rcases (by omega : k = 0 ∨ k = 1 ∨ k = 2) with rfl | rfl | rfl
  · exact ⟨u i, 0, by simpa [symbolF] using this, .inl ⟨rfl, rfl, rfl⟩⟩
  · refine ⟨1, 0.5 * u i, ?_, .inr (.inl ⟨rfl, rfl, rfl⟩)⟩
    simp only [symbolF] at this
    rw [show size * (0.5 * u i) = 0.5 * size * u i by ring, mul_one]; exact this
  · refine ⟨0.8, 0.3 * u i, ?_, .inr (.inr ⟨rfl, rfl, rfl⟩)⟩
    simp only [symbolF] at this
    rw [show size * (0.3 * u i) = 0.3 * size * u i by ring, mul_comm size]; exact this

/-- **C104** `size` is documented as angular size, but away from the celestial equator the letter is smaller: the ends
of its long bar are closer to each other on the sky. -/
theorem C104_size_false (ra dec size : ℝ) (hdec : Real.sin dec ≠ 0) (h0 : 0 < size) (h1 : size ≤ Real.pi) :
    Real.arccos ((skyPos (symbolF ra dec size 0 0).1 (symbolF ra dec size 0 0).2).dot
      (skyPos (symbolF ra dec size 0 1).1 (symbolF ra dec size 0 1).2)) < size := by
  have hd : (skyPos (symbolF ra dec size 0 0).1 (symbolF ra dec size 0 0).2).dot
      (skyPos (symbolF ra dec size 0 1).1 (symbolF ra dec size 0 1).2) =
      Real.cos size + Real.sin dec ^ 2 * (1 - Real.cos size) := by
    simp only [symbolF, mul_zero, mul_one, add_zero, skyPos, V3.dot, Real.cos_add, Real.sin_add]
    linear_combination (Real.cos dec) ^ 2 * Real.cos size * Real.sin_sq_add_cos_sq ra +
      Real.cos size * Real.sin_sq_add_cos_sq dec
  have hs : Real.cos size < 1 := by
    rw [← Real.cos_zero]; exact Real.cos_lt_cos_of_nonneg_of_le_pi (le_refl _) h1 h0
  have hp : 0 < Real.sin dec ^ 2 := by positivity
  have hle : Real.cos size + Real.sin dec ^ 2 * (1 - Real.cos size) ≤ 1 := by
    nlinarith [Real.sin_sq_le_one dec]
  rw [hd]
  calc Real.arccos (Real.cos size + Real.sin dec ^ 2 * (1 - Real.cos size)) < Real.arccos (Real.cos size) := by
        apply Real.arccos_lt_arccos (Real.neg_one_le_cos _) _ hle
        nlinarith
    _ = size := Real.arccos_cos h0.le h1

/-- **C104** For source positions in another frame the letter is at another place: here the beginning of the letter is
90 degrees away from the position of the source. -/
theorem C104_frame_false : ∃ c : SkyC, IsRotation c.frame ∧ ∀ (s : SourceSpec) (size : ℝ) (drE drP : ℕ → ℝ × ℝ) (T : ℝ)
    (p : PhotonList), generatePhotons s drE drP T = .ok p →
    ∃ q, symbolFPhotons s c size drE drP (fun _ => 0) (fun _ => 0) T = .ok q ∧
      q.tab.rows.length = p.tab.rows.length ∧
      ∀ i < q.tab.rows.length, ∃ v, SkyAt q.tab i v ∧ v.dot c.vec = 0 := by
  refine ⟨⟨euZ (Real.pi / 2), 0, 0⟩, euZ_rotation _, ?_⟩
  intro s size drE drP T p h
  have hvec : (SkyC.mk (euZ (Real.pi / 2)) 0 0).vec = skyVec (Real.pi / 2) 0 := by
    simp only [SkyC.vec]
    ext <;> simp [mul3, euZ, skyVec]
  have hl : lonLat (skyVec (Real.pi / 2) 0) = (Real.pi / 2, 0) :=
    lonLat_skyVec (by positivity) (by linarith [Real.pi_pos]) (by simpa using by positivity)
  obtain ⟨q, e1, _, e3, e4⟩ := symbolF_spec s ⟨euZ (Real.pi / 2), 0, 0⟩ (euZ_rotation _) size drE drP (fun _ => 0) (fun _ => 0) T p h
    (by intro i _; rw [hvec, hl]; simp [symbolF]; positivity)
  refine ⟨q, e1, e3.1, fun i hi => ⟨_, e4 i hi, ?_⟩⟩
  rw [hvec, hl]
  simp [symbolF, mul3, euZ, skyPos, skyVec, V3.dot]

/-- **C104** Close to the pole it is an error. -/
theorem C104_pole_error (s : SourceSpec) (lon lat size : ℝ) (h0 : 0 ≤ lon) (h1 : lon < 2 * Real.pi)
    (hb : |lat| < Real.pi / 2) (drE drP : ℕ → ℝ × ℝ) (elem : ℕ → Fin 3) (u : ℕ → ℝ) (T : ℝ) (p : PhotonList)
    (h : generatePhotons s drE drP T = .ok p) (i : ℕ) (hi : i < p.tab.rows.length) (he : elem i = 1)
    (hp : Real.pi / 2 < lat + 0.5 * size * u i) :
    symbolFPhotons s ⟨1, lon, lat⟩ size drE drP elem u T = .error .valueError := by
  have hvec : (SkyC.mk 1 lon lat).vec = skyVec lon lat := by
    simp only [SkyC.vec]; ext <;> simp [mul3]
  simp only [symbolFPhotons, h, bind, Except.bind]
  rw [hvec, lonLat_skyVec h0 h1 hb, checkLatitudes, if_neg]
  intro hall
  have := hall (lat + 0.5 * size * u i) (by
    simp only [draw, List.map_map, List.mem_map, List.mem_range]
    exact ⟨i, hi, by simp [he, symbolF]⟩)
  linarith [le_abs_self (lat + 0.5 * size * u i)]

example : |(1 : ℝ)| < Real.pi / 2 ∧ (1 : ℝ) + 0.5 * 1 ≤ Real.pi / 2 ∧ Real.pi / 2 < (1 : ℝ) + 0.5 * 2 * (3 / 4) := by
  have h1 := Real.pi_gt_d2
  have h2 := Real.pi_lt_d2
  refine ⟨by rw [abs_one]; linarith, by linarith, by norm_num at h2 ⊢; linarith⟩

end Marxs
