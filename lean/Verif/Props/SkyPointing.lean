import Verif.Props.SkySource
import Verif.Props.Optics

/-!
# Properties C105, C106: photon lists through a pointing
-/

namespace Marxs

open Classical

/-! ## C105 -/

theorem numAt_toNum {t : Table} {c : String} {i : ℕ} {x : ℝ} {r : Row} (hr : t.rows[i]? = some r)
    (h : numAt t c i = some x) : (r c).toNum = some x := by
  simp only [numAt, hr] at h
  cases hc : r c <;> simp [hc] at h
  simp [Val.toNum, h]

theorem vecAt_vecVal (t : Table) (c : String) (i : ℕ) (r : Row) (o : Option H4) (hr : t.rows[i]? = some r)
    (h : r c = vecVal o) : vecAt t c i = o := by
  cases o <;> simp [vecAt, hr, h, vecVal]

theorem deg2rad_le {x y : ℝ} (h : x ≤ y) : deg2rad x ≤ deg2rad y := by
  have := Real.pi_pos
  rw [deg2rad, deg2rad]
  apply div_le_div_of_nonneg_right _ (by norm_num)
  nlinarith

theorem deg2rad_neg90 : deg2rad (-90) = -(Real.pi / 2) := by rw [deg2rad]; ring

/-- What `FixedPointing` does to the list. -/
theorem fixedProcess_spec (ref : M4) (p : Pointing) (junk : Val) (ph : PhotonList) (h : FromSky ph.tab) :
    ∃ q, fixedProcess ref p junk ph = .ok q ∧
      (∀ cs, "dir" ∉ cs → "polarization" ∉ cs → SameIn cs ph.tab q.tab) ∧
      q.tab.rows.length = ph.tab.rows.length ∧
      "dir" ∈ q.tab.names ∧ "polarization" ∈ q.tab.names ∧
      q.hdr = Header.update ph.hdr (pointingHdr p) ∧
      ∀ i (r : Row), ph.tab.rows[i]? = some r →
        vecAt q.tab "dir" i = rowDir ref p r ∧ vecAt q.tab "polarization" i = rowPol ref p r := by
  obtain ⟨h1, h2, h3, h4, h5, h6⟩ := h
  set t : Table := ⟨ph.tab.names ++ ["dir"], ph.tab.rows.map fun r => Function.update r "dir" junk⟩ with ht
  have e1 : addDir junk ph.tab = .ok t := by
    rw [addDir, if_neg h1, Table.addCol, if_neg h1]
  have hrow : ∀ i : ℕ, t.rows[i]? = (ph.tab.rows[i]?).map fun r : Row => Function.update r "dir" junk := by
    intro i; simp [ht]
  have rd : ∀ r : Row, rowDir ref p (Function.update r "dir" junk) = rowDir ref p r := by
    intro r; simp [rowDir]
  have rp : ∀ r : Row, rowPol ref p (Function.update r "dir" junk) = rowPol ref p r := by
    intro r; simp [rowPol, rd]
  have e2 : checkLatitudes (t.rows.filterMap fun r => (r "dec").toNum.map deg2rad) = .ok () := by
    rw [checkLatitudes, if_pos]
    intro b hb
    obtain ⟨r, hr, hb⟩ := List.mem_filterMap.1 hb
    obtain ⟨i, hi, rfl⟩ := List.mem_iff_getElem.1 hr
    have hi' : i < ph.tab.rows.length := by simpa [ht] using hi
    obtain ⟨ra, dec, a, _, n2, _, b1, b2⟩ := h6 i hi'
    have := numAt_toNum (List.getElem?_eq_getElem hi') n2
    have e : (t.rows[i] "dec").toNum = some dec := by
      have hti := hrow i
      rw [List.getElem?_eq_getElem hi, List.getElem?_eq_getElem hi', Option.map_some, Option.some.injEq] at hti
      rw [hti, ← this, Function.update_of_ne (by decide)]
    rw [e] at hb
    simp only [Option.map_some, Option.some.injEq] at hb
    rw [← hb, abs_le, ← deg2rad_neg90, ← deg2rad_90]
    exact ⟨deg2rad_le b1, deg2rad_le b2⟩
  have l1 : (t.rows.map fun r => vecVal (rowDir ref p r)).length = t.rows.length := by simp
  obtain ⟨_, r1, n1, g1⟩ := setVals_names (setVals_ok (c := "dir") l1)
  set t1 : Table := ⟨if "dir" ∈ t.names then t.names else t.names ++ ["dir"],
    List.zipWith (fun r v => Function.update r "dir" v) t.rows (t.rows.map fun r => vecVal (rowDir ref p r))⟩ with ht1
  have l2 : (t.rows.map fun r => vecVal (rowPol ref p r)).length = t1.rows.length := by rw [r1]; simp
  obtain ⟨_, r2, n2, g2⟩ := setVals_names (setVals_ok (c := "polarization") l2)
  set t2 : Table := ⟨if "polarization" ∈ t1.names then t1.names else t1.names ++ ["polarization"],
    List.zipWith (fun r v => Function.update r "polarization" v) t1.rows
      (t.rows.map fun r => vecVal (rowPol ref p r))⟩ with ht2
  have hn : ∀ n, n ∈ ph.tab.names → n ∈ t.names := fun n h => by simp [ht, h]
  have hlen : t.rows.length = ph.tab.rows.length := by simp [ht]
  have hfin : ∀ (i : ℕ) (r : Row), ph.tab.rows[i]? = some r → t2.rows[i]? = some (Function.update (Function.update
      (Function.update r "dir" junk) "dir" (vecVal (rowDir ref p r))) "polarization" (vecVal (rowPol ref p r))) := by
    intro i r hr
    rw [g2, g1]
    simp only [hrow, hr, List.getElem?_map, Option.map_some, rd, rp]
  refine ⟨⟨t2, Header.update ph.hdr (pointingHdr p)⟩, ?_, ?_, by rw [← hlen, ← r1]; exact r2,
    (n2 _).2 (.inl ((n1 _).2 (.inr rfl))), (n2 _).2 (.inr rfl), rfl, ?_⟩
  · have k1 : ¬ ("ra" ∉ t.names ∨ "dec" ∉ t.names) := by
      push Not; exact ⟨hn _ h2, hn _ h3⟩
    have k2 : ¬ "time" ∉ t.names := not_not.2 (hn _ h4)
    have k3 : ¬ "polangle" ∉ t1.names := not_not.2 ((n1 _).2 (.inl (hn _ h5)))
    simp only [fixedProcess, e1, bind, Except.bind, if_neg k1, e2, if_neg k2, setVals_ok l1, ← ht1, if_neg k3,
      setVals_ok l2, ← ht2]
  · intro cs c1 c2
    refine ⟨by rw [← hlen, ← r1]; exact r2, fun c hc => ⟨fun h => (n2 _).2 (.inl ((n1 _).2 (.inl (hn _ h)))), fun i => ?_⟩⟩
    have d1 : c ≠ "dir" := fun h => c1 (h ▸ hc)
    have d2 : c ≠ "polarization" := fun h => c2 (h ▸ hc)
    cases hr : ph.tab.rows[i]? with
    | none =>
      have : t2.rows[i]? = none := by
        rw [List.getElem?_eq_none_iff] at hr ⊢
        rw [r2, r1, hlen]; exact hr
      show (t2.rows[i]?).map _ = _
      rw [this]
    | some r =>
      show (t2.rows[i]?).map _ = _
      rw [hfin i r hr]; simp [d1, d2]
  · intro i r hr
    constructor
    · exact vecAt_vecVal _ _ _ _ _ (hfin i r hr) (by simp)
    · exact vecAt_vecVal _ _ _ _ _ (hfin i r hr) (by simp)

/-- **C105** `FixedPointing` gives every photon of a sky source the direction in which it flies into the telescope
(see C94) after the reference transform, writes the pointing to the header, and changes no other column. -/
theorem C105_directions (ref : M4) (p : Pointing) (junk : Val) (ph : PhotonList) (h : FromSky ph.tab) :
    ∃ q, fixedProcess ref p junk ph = .ok q ∧
      (∀ cs, "dir" ∉ cs → "polarization" ∉ cs → SameIn cs ph.tab q.tab) ∧
      "dir" ∈ q.tab.names ∧ "polarization" ∈ q.tab.names ∧
      (∀ i < ph.tab.rows.length, ∀ v, SkyAt ph.tab i v →
        vecAt q.tab "dir" i = some (mul4 ref (photonFlight p v).toDir)) ∧
      q.hdr "RA_PNT" = some (p.ra * 180 / Real.pi) ∧ q.hdr "DEC_PNT" = some (p.dec * 180 / Real.pi) ∧
      q.hdr "ROLL_PNT" = some (p.roll * 180 / Real.pi) ∧ q.hdr "RA_NOM" = some (p.ra * 180 / Real.pi) ∧
      q.hdr "DEC_NOM" = some (p.dec * 180 / Real.pi) ∧ q.hdr "ROLL_NOM" = some (p.roll * 180 / Real.pi) ∧
      q.hdr "EXPOSURE" = ph.hdr "EXPOSURE" := by
  obtain ⟨q, h1, h2, _, h3, h4, h5, h6⟩ := fixedProcess_spec ref p junk ph h
  refine ⟨q, h1, h2, h3, h4, ?_, ?_⟩
  · intro i hi v ⟨_, _, ra, dec, e1, e2, _, _, _, _, hv⟩
    have hr := List.getElem?_eq_getElem hi
    rw [(h6 i _ hr).1, rowDir, numAt_toNum hr e1, numAt_toNum hr e2]
    simp only [deg2rad]
    rw [C94_direction, hv]
  · rw [h5]; simp [Header.update, pointingHdr, rad2deg]

/-- **C105** Polarization: for every photon that does not come from a celestial pole, the polarization vector has unit
length, is perpendicular to the direction of flight, and its angle is measured from North (the part of the direction to
the celestial pole that is perpendicular to the photon) to East. The reference transform is a rotation. -/
theorem C105_polarization (ref : M4) (R : M3) (hR : IsRotation R) (href : ∀ v : V3, mul4 ref v.toDir = (mul3 R v).toDir)
    (p : Pointing) (junk : Val) (ph q : PhotonList) (h : FromSky ph.tab) (hq : fixedProcess ref p junk ph = .ok q)
    (i : ℕ) (hi : i < ph.tab.rows.length) (v : V3) (hv : SkyAt ph.tab i v) (hpole : v ≠ ⟨0, 0, 1⟩ ∧ v ≠ ⟨0, 0, -1⟩)
    (a : ℝ) (ha : numAt ph.tab "polangle" i = some a) :
    ∃ d e n : V3, vecAt q.tab "dir" i = some d.toDir ∧ vecAt q.tab "polarization" i = some e.toDir ∧
      e.dot e = 1 ∧ e.dot d = 0 ∧
      n.dot n = 1 ∧ n.dot d = 0 ∧ 0 < n.dot (mul3 R (-photonFlight p ⟨0, 0, 1⟩)) ∧
      (n.cross (-d)).dot (mul3 R (-photonFlight p ⟨0, 0, 1⟩)) = 0 ∧
      e = Real.cos a • n + Real.sin a • n.cross (-d) := by
  obtain ⟨q', h1, _, _, _, _, _, h6⟩ := fixedProcess_spec ref p junk ph h
  rw [hq] at h1; cases h1
  have hr := List.getElem?_eq_getElem hi
  obtain ⟨hd, hp⟩ := h6 i _ hr
  obtain ⟨_, _, ra, dec, e1, e2, _, _, _, _, hv'⟩ := hv
  have hdir : rowDir ref p ph.tab.rows[i] = some (mul3 R (photonFlight p v)).toDir := by
    rw [rowDir, numAt_toNum hr e1, numAt_toNum hr e2]
    simp only [deg2rad]
    rw [C94_direction, hv', href]
  have hpolv : skyPos 0 (Real.pi / 2) = ⟨0, 0, 1⟩ := by ext <;> simp [skyPos]
  have hnorth : northDir ref p = (mul3 R (-photonFlight p ⟨0, 0, 1⟩)).toDir := by
    rw [northDir, href, ← hpolv, ← skyOffset_flight]
    congr 2
    ext <;> simp
  rw [rowPol, hdir, numAt_toNum hr ha] at hp
  simp only at hp
  have hflight : (photonFlight p v).dot (photonFlight p v) = 1 := by
    rw [← hv', photonFlight_dot, skyPos_unit]
  have hnp : (photonFlight p ⟨0, 0, 1⟩).dot (photonFlight p ⟨0, 0, 1⟩) = 1 := by
    rw [← hpolv, photonFlight_dot, skyPos_unit]
  have hnv : (photonFlight p ⟨0, 0, 1⟩).dot (photonFlight p v) = v.z := by
    rw [← hpolv, ← hv', photonFlight_dot, hpolv]; simp [V3.dot]
  obtain ⟨n, c1, c2, c3, c4, c5⟩ := C71_pointing_polarization (northDir ref p) (mul3 R (photonFlight p v)).toDir
    (by rw [hnorth]; rfl) rfl
    (by rw [dot_xyz _ _ (.inl rfl), V3.toDir_xyz, rotation_dot hR, hflight])
    (by
      rw [hnorth, V3.toDir_xyz, V3.toDir_xyz]
      intro h0
      have h1 : ((mul3 R (-photonFlight p ⟨0, 0, 1⟩)).cross (mul3 R (photonFlight p v))).dot
          ((mul3 R (-photonFlight p ⟨0, 0, 1⟩)).cross (mul3 R (photonFlight p v))) = 0 := by rw [h0]; simp [V3.dot]
      rw [V3.cross_dot_cross, rotation_dot hR, rotation_dot hR, rotation_dot hR] at h1
      have k1 : (-photonFlight p ⟨0, 0, 1⟩).dot (-photonFlight p ⟨0, 0, 1⟩) = 1 := by
        refine Eq.trans ?_ hnp
        simp [V3.dot]
      have k2 : (-photonFlight p ⟨0, 0, 1⟩).dot (photonFlight p v) = -v.z := by
        refine Eq.trans ?_ (congrArg Neg.neg hnv)
        simp [V3.dot]; ring
      rw [k1, k2, hflight] at h1
      have hvu : v.dot v = 1 := by rw [← hv']; exact skyPos_unit _ _
      simp only [V3.dot] at hvu
      have hz : v.z ^ 2 = 1 := by linarith
      have hx : v.x = 0 := by nlinarith [sq_nonneg v.x, sq_nonneg v.y]
      have hy : v.y = 0 := by nlinarith [sq_nonneg v.x, sq_nonneg v.y]
      rcases mul_self_eq_one_iff.1 (by linarith : v.z * v.z = 1) with hz1 | hz1
      · exact hpole.1 (by ext <;> simp [hx, hy, hz1])
      · exact hpole.2 (by ext <;> simp [hx, hy, hz1]))
  obtain ⟨pol, d1, d2, d3, d4, d5⟩ := c5 a
  rw [V3.toDir_xyz] at c2 c4 d4 d5
  rw [hnorth, V3.toDir_xyz] at c3 c4
  rw [d1] at hp
  refine ⟨_, pol.xyz, n, hd.trans hdir, ?_, d3, d4, c1, c2, c3, c4, d5⟩
  rw [hp]
  congr 1
  have : pol.w = 0 := d2
  ext <;> simp [V3.toDir, H4.xyz, this]

theorem fixedProcess_inv {ref : M4} {p : Pointing} {junk : Val} {ph q : PhotonList}
    (h : fixedProcess ref p junk ph = .ok q) : "dir" ∈ q.tab.names ∧ "ra" ∈ ph.tab.names ∧ "dec" ∈ ph.tab.names ∧
      "time" ∈ ph.tab.names ∧ "polangle" ∈ ph.tab.names := by
  by_cases h0 : "dir" ∈ ph.tab.names
  · simp [fixedProcess, addDir, h0, bind, Except.bind] at h
  have e1 : addDir junk ph.tab = .ok ⟨ph.tab.names ++ ["dir"], ph.tab.rows.map fun r => Function.update r "dir" junk⟩ := by
    rw [addDir, if_neg h0, Table.addCol, if_neg h0]
  simp only [fixedProcess, e1, bind, Except.bind] at h
  by_cases k1 : "ra" ∉ ph.tab.names ++ ["dir"] ∨ "dec" ∉ ph.tab.names ++ ["dir"]
  · rw [if_pos k1] at h; cases h
  rw [if_neg k1] at h
  split at h
  · cases h
  by_cases k2 : "time" ∉ ph.tab.names ++ ["dir"]
  · rw [if_pos k2] at h; cases h
  rw [if_neg k2] at h
  split at h
  · cases h
  rename_i t1 ht1
  by_cases k3 : "polangle" ∉ t1.names
  · rw [if_pos k3] at h; cases h
  rw [if_neg k3] at h
  split at h
  · cases h
  rename_i t2 ht2
  simp only [Except.ok.injEq] at h
  subst h
  have k3' := ((setVals_names ht1).2.2.1 _).1 (not_not.1 k3)
  simp at k1 k2 k3'
  exact ⟨((setVals_names ht2).2.2.1 _).2 (.inl (((setVals_names ht1).2.2.1 _).2 (.inr rfl))), k1.1, k1.2, k2, k3'⟩

/-- **C105** A photon list that already has directions, for example because it went through a pointing before, is refused
by every pointing and not changed. -/
theorem C105_twice (ref ref' : M4) (p p' : Pointing) (junk junk' : Val) (ph q : PhotonList)
    (h : fixedProcess ref p junk ph = .ok q) : fixedProcess ref' p' junk' q = .error .valueError := by
  have hd := (fixedProcess_inv h).1
  simp [fixedProcess, addDir, hd, bind, Except.bind]

/-- **C105** Without the columns of a sky source there is no result. -/
theorem C105_missing (ref : M4) (p : Pointing) (junk : Val) (ph : PhotonList)
    (h : "ra" ∉ ph.tab.names ∨ "dec" ∉ ph.tab.names ∨ "time" ∉ ph.tab.names ∨ "polangle" ∉ ph.tab.names) :
    ∃ e, fixedProcess ref p junk ph = .error e := by
  cases hf : fixedProcess ref p junk ph with
  | error e => exact ⟨e, rfl⟩
  | ok q =>
    obtain ⟨_, h1, h2, h3, h4⟩ := fixedProcess_inv hf
    tauto

/-- **C105** Jitter zero is a `FixedPointing`. -/
theorem C105_no_jitter (ref : M4) (p : Pointing) (u z : ℕ → ℝ) (junk : Val) (ph : PhotonList) :
    jitterProcess ref p 0 u z junk ph = fixedProcess ref p junk ph := by
  simp only [jitterProcess, abs_zero, lt_irrefl, if_false]
  cases fixedProcess ref p junk ph <;> rfl

theorem jitter_self (v : H4) (r j : ℝ) : ∃ v' : V3, (jitter v v r j).map Prod.fst = some v'.toDir ∧
    v'.dot v' = v.xyz.dot v.xyz ∧ (v.y = 0 → v.z = 0 → v.xyz.dot v' = Real.cos j * v.xyz.dot v.xyz) := by
  obtain ⟨d, p, h1, h2, _, h3, _, _, h4⟩ := C22_jitter v v r j
  refine ⟨d.xyz, ?_, h3, h4⟩
  rw [h1]
  simp only [Option.map_some]
  congr 1
  have : d.w = 0 := h2
  ext <;> simp [V3.toDir, H4.xyz, this]

theorem toH4_vecVal (o : Option H4) : (vecVal o).toH4 = o := by cases o <;> rfl

/-- **C105** (partial: optical axis along x, see `C105_jitter_reference_false`.) With jitter, a source on the optical axis is
displaced by exactly the angle drawn for each photon (its cosine is the product of the directions), all directions keep
unit length. -/
theorem C105_jitter_partial (p : Pointing) (sigma : ℝ) (hs : sigma ≠ 0) (u z : ℕ → ℝ) (junk : Val) (ph : PhotonList)
    (h : FromSky ph.tab) :
    ∃ q, jitterProcess 1 p sigma u z junk ph = .ok q ∧ q.tab.rows.length = ph.tab.rows.length ∧
      ∀ i < ph.tab.rows.length, ∀ v, SkyAt ph.tab i v → ∃ d : V3, vecAt q.tab "dir" i = some d.toDir ∧ d.dot d = 1 ∧
        (v = skyPos p.ra p.dec → d.dot ⟨-1, 0, 0⟩ = Real.cos (|sigma| * z i)) := by
  obtain ⟨q, h1, _, hl, _, _, _, h6⟩ := fixedProcess_spec 1 p junk ph h
  have hj : jitterProcess 1 p sigma u z junk ph = .ok ⟨⟨q.tab.names,
      q.tab.rows.mapIdx fun i r => jitterRow (u i * 2 * Real.pi) (|sigma| * z i) r⟩, q.hdr⟩ := by
    simp only [jitterProcess, h1, bind, Except.bind, if_pos (abs_pos.2 hs)]
  refine ⟨_, hj, by simp [hl], ?_⟩
  intro i hi v ⟨_, _, ra, dec, e1, e2, _, _, _, _, hv⟩
  have hr := List.getElem?_eq_getElem hi
  have hd := (h6 i _ hr).1
  rw [rowDir, numAt_toNum hr e1, numAt_toNum hr e2] at hd
  simp only [deg2rad] at hd
  rw [C94_direction, hv, mul4_one] at hd
  have hi2 : i < q.tab.rows.length := by rw [hl]; exact hi
  obtain ⟨d, j1, j2, j3⟩ := jitter_self (photonFlight p v).toDir (u i * 2 * Real.pi) (|sigma| * z i)
  have hcell : (q.tab.rows[i] "dir").toH4 = some (photonFlight p v).toDir := by
    simp only [vecAt, List.getElem?_eq_getElem hi2] at hd
    rw [← hd]
    simp only [Val.toH4]
    split <;> simp_all
  have hu : (photonFlight p v).dot (photonFlight p v) = 1 := by
    rw [← hv, photonFlight_dot, skyPos_unit]
  refine ⟨d, ?_, by rw [j2, V3.toDir_xyz, hu], ?_⟩
  · refine vecAt_vecVal _ _ _ (jitterRow (u i * 2 * Real.pi) (|sigma| * z i) q.tab.rows[i]) _ ?_ ?_
    · simp [hi2]
    · rw [jitterRow]
      simp only [hcell, Option.bind_some, j1]
      simp
  · intro hv0
    have hax : photonFlight p v = ⟨-1, 0, 0⟩ := by
      have h7 := C94_on_axis 1 p
      rw [C94_direction, mul4_one, mul4_one, Option.some.injEq] at h7
      rw [hv0]
      have := congrArg H4.xyz h7
      rw [V3.toDir_xyz] at this
      exact this
    have j4 := j3 (by rw [hax]; rfl) (by rw [hax]; rfl)
    rw [V3.toDir_xyz, hu, hax, mul_one] at j4
    rw [V3.dot_comm]; exact j4

/-- **C105** A single position is accepted as it is, an array of positions (of any length) is refused with a `ValueError`
when a source or a pointing is made. -/
theorem C105_single_position (x : List SkyC ⊕ SkyC) :
    (∀ c, x = .inr c → checkScalar x = .ok c) ∧ (∀ l, x = .inl l → checkScalar x = .error .valueError) := by
  refine ⟨?_, ?_⟩
  · rintro c rfl; rfl
  · rintro l rfl; rfl

theorem toH4_of_vecAt {t : Table} {c : String} {i : ℕ} {d : H4} (h : vecAt t c i = some d) (hi : i < t.rows.length) :
    (t.rows[i] c).toH4 = some d := by
  simp only [vecAt, List.getElem?_eq_getElem hi] at h
  rw [← h]
  simp only [Val.toH4]
  split <;> simp_all

theorem jitter_parts {d e d' e' : H4} {r j : ℝ} (h : jitter d e r j = some (d', e')) :
    (jitter d d r j).map Prod.fst = some d' ∧ (jitter e e r j).map Prod.fst = some e' := by
  simp only [jitter] at h ⊢
  generalize turn _ j d.xyz = a at h ⊢
  generalize turn _ j e.xyz = b at h ⊢
  cases a <;> cases b <;> simp at h ⊢
  exact h

/-- **C105** Jitter turns direction and polarization of a photon together: for every position of the optical axis, every jitter and
all random numbers, both keep their lengths, and the angle between them does not change. -/
theorem C105_jitter_together (ref : M4) (p : Pointing) (sigma : ℝ) (u z : ℕ → ℝ) (junk : Val) (ph q q' : PhotonList)
    (h : fixedProcess ref p junk ph = .ok q) (h' : jitterProcess ref p sigma u z junk ph = .ok q') (i : ℕ) (d e : H4)
    (hd : vecAt q.tab "dir" i = some d) (he : vecAt q.tab "polarization" i = some e) :
    ∃ d' e' : V3, vecAt q'.tab "dir" i = some (if sigma = 0 then d else d'.toDir) ∧
      vecAt q'.tab "polarization" i = some (if sigma = 0 then e else e'.toDir) ∧
      d'.dot d' = d.xyz.dot d.xyz ∧ e'.dot e' = e.xyz.dot e.xyz ∧ d'.dot e' = d.xyz.dot e.xyz := by
  obtain ⟨d', e', j1, j2, j3, j4, j5, j6, _⟩ := C22_jitter d e (u i * 2 * Real.pi) (|sigma| * z i)
  have hi : i < q.tab.rows.length := by
    by_contra hn
    rw [vecAt, List.getElem?_eq_none (by omega)] at hd
    exact absurd hd (by simp)
  have cd : d' = d'.xyz.toDir := by
    have : d'.w = 0 := j2
    ext <;> simp [V3.toDir, H4.xyz, this]
  have ce : e' = e'.xyz.toDir := by
    have : e'.w = 0 := j3
    ext <;> simp [V3.toDir, H4.xyz, this]
  refine ⟨d'.xyz, e'.xyz, ?_, ?_, j4, j5, by rw [V3.dot_comm, j6, V3.dot_comm]⟩
  all_goals
    by_cases hs : sigma = 0
    · rw [hs, C105_no_jitter, h, Except.ok.injEq] at h'
      subst h'
      simp only [hs, if_true, hd, he]
    · simp only [jitterProcess, h, bind, Except.bind, if_pos (abs_pos.2 hs), Except.ok.injEq] at h'
      subst h'
      simp only [hs, if_false]
      refine vecAt_vecVal _ _ _ (jitterRow (u i * 2 * Real.pi) (|sigma| * z i) q.tab.rows[i]) _ (by simp [hi]) ?_
      obtain ⟨t1, t2⟩ := jitter_parts j1
      rw [jitterRow]
      simp only [toH4_of_vecAt hd hi, toH4_of_vecAt he hi, Option.bind_some, t1, t2, ← cd, ← ce]
      simp

/-- A reference transform for instruments with the optical axis along z: x, y, z become z, x, y. -/
def axisZ : M4 := !![0, 1, 0, 0; 0, 0, 1, 0; 1, 0, 0, 0; 0, 0, 0, 1]

/-- **C105** With a reference transform, jitter is wrong: the axis of the jitter rotation is always drawn perpendicular
to x, so for an optical axis along z there are draws for which an on-axis photon is not displaced, whatever the
jitter angle. -/
theorem C105_jitter_reference_false (p : Pointing) (sigma : ℝ) (hs : sigma ≠ 0) (z : ℕ → ℝ) (junk : Val) (ph : PhotonList)
    (h : FromSky ph.tab) :
    ∃ q, jitterProcess axisZ p sigma (fun _ => 0) z junk ph = .ok q ∧
      ∀ i < ph.tab.rows.length, SkyAt ph.tab i (skyPos p.ra p.dec) → vecAt q.tab "dir" i = some ⟨0, 0, -1, 0⟩ := by
  obtain ⟨q, h1, _, hl, _, _, _, h6⟩ := fixedProcess_spec axisZ p junk ph h
  refine ⟨_, by simp only [jitterProcess, h1, bind, Except.bind, if_pos (abs_pos.2 hs)]; rfl, ?_⟩
  intro i hi ⟨_, _, ra, dec, e1, e2, _, _, _, _, hv⟩
  have hr := List.getElem?_eq_getElem hi
  have hd := (h6 i _ hr).1
  rw [rowDir, numAt_toNum hr e1, numAt_toNum hr e2] at hd
  simp only [deg2rad] at hd
  have h8 := C94_on_axis axisZ p
  rw [C94_direction] at h8
  rw [C94_direction, hv, h8] at hd
  have hz : mul4 axisZ ⟨-1, 0, 0, 0⟩ = ⟨0, 0, -1, 0⟩ := by
    ext <;> simp [mul4, axisZ]
  rw [hz] at hd
  have hi2 : i < q.tab.rows.length := by rw [hl]; exact hi
  have hcell : (q.tab.rows[i] "dir").toH4 = some ⟨0, 0, -1, 0⟩ := by
    simp only [vecAt, List.getElem?_eq_getElem hi2] at hd
    rw [← hd]
    simp only [Val.toH4]
    split <;> simp_all
  have hj : (jitter ⟨0, 0, -1, 0⟩ ⟨0, 0, -1, 0⟩ (0 * 2 * Real.pi) (|sigma| * z i)).map Prod.fst = some ⟨0, 0, -1, 0⟩ := by
    have ax : (⟨0, Real.sin (0 * 2 * Real.pi), Real.cos (0 * 2 * Real.pi)⟩ : V3) = ⟨0, 0, 1⟩ := by simp
    have hne : (⟨0, 0, 1⟩ : V3) ≠ 0 := fun h => by have := congrArg V3.z h; simp at this
    have hun : (⟨0, 0, 1⟩ : V3).unit = ⟨0, 0, 1⟩ := V3.unit_of_unit (by simp [V3.dot])
    have ht : turn ⟨0, 0, 1⟩ (|sigma| * z i) ⟨0, 0, -1⟩ = some ⟨0, 0, -1⟩ := by
      rw [turn, if_neg hne, hun]
      congr 1
      ext <;> simp [mul3, rotMat]
    simp only [jitter, ax]
    rw [show (⟨0, 0, -1, 0⟩ : H4).xyz = ⟨0, 0, -1⟩ from rfl, ht]
    rfl
  refine vecAt_vecVal _ _ _ (jitterRow (0 * 2 * Real.pi) (|sigma| * z i) q.tab.rows[i]) _ ?_ ?_
  · simp [hi2]
  · rw [jitterRow]
    simp only [hcell, Option.bind_some, hj]
    simp

/-! ## C106 -/

/-- The list that a point source makes is accepted by a pointing. -/
theorem pointPhotons_fromSky (s : SourceSpec) (c : SkyC) (hc : IsRotation c.frame) (drE drP : ℕ → ℝ × ℝ) (T : ℝ)
    (times en pol : List ℝ) (ht : generateTimes s.flux s.area T = .ok times)
    (he : generateEnergies s.energy s.argsort (draw drE times.length) times = .ok en)
    (hp : generatePolarization s.polarization s.argsort (draw drP times.length) times en = .ok pol) :
    ∃ q, pointPhotons s c drE drP T = .ok q ∧ FromSky q.tab ∧ q.hdr "EXPOSURE" = some T ∧
      q.tab.rows.length = times.length ∧ "energy" ∈ q.tab.names ∧ "probability" ∈ q.tab.names ∧
      ∀ i < times.length, SkyAt q.tab i c.vec ∧ numAt q.tab "time" i = times[i]? ∧ numAt q.tab "energy" i = en[i]? ∧
        numAt q.tab "polangle" i = pol[i]? ∧ numAt q.tab "probability" i = some 1 := by
  obtain ⟨p, h1, h2, h3, h4, l1, l2, h5⟩ := C102_table s drE drP T times en pol ht he hp
  obtain ⟨q, e1, e2, e3, e4, e5⟩ := setPos_spec p (List.replicate p.tab.rows.length c.vec) (by simp)
    (fun v hv => by rw [List.eq_of_mem_replicate hv]; exact skyC_unit hc)
  have e6 := e3 ["time", "energy", "polangle", "probability"] (by simp) (by simp)
  have hl : q.tab.rows.length = times.length := e6.1.trans h4
  have hsky : ∀ i < times.length, SkyAt q.tab i c.vec := by
    intro i hi
    have := e5 i (by simpa [h4] using hi)
    simpa using this
  have hcell : ∀ c ∈ ["time", "energy", "polangle", "probability"], ∀ i, numAt q.tab c i = numAt p.tab c i := by
    intro c hc i
    have := (e6.2 c hc).2 i
    simp only [numAt]
    cases ha : q.tab.rows[i]? <;> cases hb : p.tab.rows[i]? <;> simp [ha, hb] at this ⊢
    rw [this]
  refine ⟨q, ?_, ⟨?_, ?_, ?_, ?_, ?_, ?_⟩, ?_, hl, ?_, ?_, ?_⟩
  · simp only [pointPhotons, h1, bind, Except.bind, e1]
  · rw [e4, h2]; decide
  · rw [e4]; simp
  · rw [e4]; simp
  · rw [e4, h2]; simp
  · rw [e4, h2]; simp
  · intro i hi
    rw [hl] at hi
    obtain ⟨_, _, ra, dec, a1, a2, _, _, b1, b2, _⟩ := hsky i hi
    refine ⟨ra, dec, pol[i]'(by omega), a1, a2, ?_, b1, b2⟩
    rw [hcell _ (by simp), (h5 i hi).2.2.1, List.getElem?_eq_getElem]
  · rw [e2, h3]
  · rw [e4, h2]; simp
  · rw [e4, h2]; simp
  · intro i hi
    refine ⟨hsky i hi, ?_, ?_, ?_, ?_⟩ <;> rw [hcell _ (by simp)]
    · exact (h5 i hi).1
    · exact (h5 i hi).2.1
    · exact (h5 i hi).2.2.1
    · exact (h5 i hi).2.2.2

/-- **C106** `monoenergetic_astrosimulation` hands the instrument the requested number of photons (rounded up), one
per second, all on the optical axis, with the requested energy, probability 1 and a polarization
vector of unit length perpendicular to the direction; and it returns what the instrument returns. -/
theorem C106_monoenergetic (instrument : PhotonList → Except Err PhotonList) (energy n : ℝ) (ref : M4) (R : M3)
    (hR : IsRotation R) (href : ∀ v : V3, mul4 ref v.toDir = (mul3 R v).toDir)
    (argsort : List ℝ → List ℕ) (drE drP : ℕ → ℝ × ℝ) (junk : Val) :
    ∃ ph, monoenergeticAstro instrument energy n ref argsort drE drP junk = instrument ph ∧
      ph.tab.rows.length = ⌈n⌉₊ ∧
      (∀ c ∈ ["time", "energy", "probability", "dir", "polarization"], c ∈ ph.tab.names) ∧
      ∀ i < ph.tab.rows.length, numAt ph.tab "time" i = some i ∧ numAt ph.tab "energy" i = some energy ∧
        numAt ph.tab "probability" i = some 1 ∧ vecAt ph.tab "dir" i = some (mul4 ref ⟨-1, 0, 0, 0⟩) ∧
        ∃ e : V3, vecAt ph.tab "polarization" i = some e.toDir ∧ e.dot e = 1 ∧ e.dot (mul3 R ⟨-1, 0, 0⟩) = 0 := by
  obtain ⟨ts, t1, t2, t3, t4, _⟩ := C30_times 1 1 n (by norm_num)
  obtain ⟨q, q1, q2, _, q4, q5, q6, q7⟩ := pointPhotons_fromSky ⟨.scalar 1, .scalar energy, .unpolarized, some 1, argsort⟩
    defaultCoord isRotation_one drE drP n ts _ _ t1 rfl rfl
  set p : Pointing := ⟨defaultCoord.lon, defaultCoord.lat, 0⟩ with hp
  have hvec : defaultCoord.vec = skyPos p.ra p.dec := by
    simp only [SkyC.vec, defaultCoord, hp]; ext <;> simp [mul3, skyVec, skyPos]
  obtain ⟨ph, f1, f2, f3, f4, f5, _⟩ := C105_directions ref p junk q q2
  have f6 := f2 ["time", "energy", "probability"] (by simp) (by simp)
  have hlen : ph.tab.rows.length = ts.length := f6.1.trans q4
  have hcell : ∀ c ∈ ["time", "energy", "probability"], ∀ i, numAt ph.tab c i = numAt q.tab c i := by
    intro c hc i
    have := (f6.2 c hc).2 i
    simp only [numAt]
    cases ha : ph.tab.rows[i]? <;> cases hb : q.tab.rows[i]? <;> simp [ha, hb] at this ⊢
    rw [this]
  have hax : (photonFlight p (skyPos p.ra p.dec)).toDir = ⟨-1, 0, 0, 0⟩ := by
    have h7 := C94_on_axis 1 p
    rw [C94_direction, mul4_one, mul4_one, Option.some.injEq] at h7
    exact h7
  refine ⟨ph, ?_, ?_, ?_, ?_⟩
  · simp only [monoenergeticAstro, q1, bind, Except.bind, ← hp, f1]
  · rw [hlen, t2]; norm_num
  · intro c hc
    simp only [List.mem_cons, List.not_mem_nil, or_false] at hc
    rcases hc with rfl | rfl | rfl | rfl | rfl
    · exact (f6.2 _ (by simp)).1 q2.2.2.2.1
    · exact (f6.2 _ (by simp)).1 q5
    · exact (f6.2 _ (by simp)).1 q6
    · exact f3
    · exact f4
  · intro i hi
    rw [hlen] at hi
    obtain ⟨s1, s2, s3, s4, s5⟩ := q7 i hi
    rw [hvec] at s1
    have hdir := f5 i (by rw [q4]; exact hi) _ s1
    rw [hax] at hdir
    obtain ⟨ra, dec, a, _, _, ha, _⟩ := q2.2.2.2.2.2 i (by rw [q4]; exact hi)
    obtain ⟨d, e, _, g1, g2, g3, g4, _⟩ := C105_polarization ref R hR href p junk q ph q2 f1 i (by rw [q4]; exact hi) _ s1
      (by
        have h30 : deg2rad 30 = Real.pi / 6 := by rw [deg2rad]; ring
        have hz : (skyPos p.ra p.dec).z = 1 / 2 := by
          simp only [skyPos, hp, defaultCoord, h30, Real.sin_pi_div_six]
        constructor <;> intro h0 <;> rw [h0] at hz <;> norm_num at hz) a ha
    refine ⟨?_, ?_, ?_, hdir, e, g2, g3, ?_⟩
    · rw [hcell _ (by simp), s2, List.getElem?_eq_getElem hi, t3 i hi]; norm_num
    · rw [hcell _ (by simp), s3]; simp [hi]
    · rw [hcell _ (by simp), s5]
    · rw [g1, Option.some.injEq] at hdir
      have hd : d = mul3 R ⟨-1, 0, 0⟩ := by
        have h1 := congrArg H4.xyz hdir
        rw [V3.toDir_xyz, show (⟨-1, 0, 0, 0⟩ : H4) = (⟨-1, 0, 0⟩ : V3).toDir from rfl, href, V3.toDir_xyz] at h1
        exact h1
      rw [← hd]; exact g4

/-- The z axis as optical axis is a possible reference transform. -/
example : ∃ R : M3, IsRotation R ∧ ∀ v : V3, mul4 axisZ v.toDir = (mul3 R v).toDir := by
  refine ⟨!![0, 1, 0; 0, 0, 1; 1, 0, 0], ⟨?_, ?_⟩, fun v => ?_⟩
  · ext i j; fin_cases i <;> fin_cases j <;> simp [Matrix.mul_apply, Fin.sum_univ_three]
  · simp [Matrix.det_fin_three]
  · ext <;> simp [mul4, mul3, axisZ, V3.toDir]

/-- A photon list with photons on and off the axis that meets the hypotheses. -/
example : ∃ q, pointPhotons ⟨.scalar 1, .scalar 2, .scalar 1, none, fun _ => []⟩ ⟨1, 1, 1⟩ (fun _ => (0, 0)) (fun _ => (0, 0)) 4 =
    .ok q ∧ FromSky q.tab ∧ q.tab.rows.length = 4 ∧ ∀ i < 4, SkyAt q.tab i (SkyC.mk 1 1 1).vec := by
  obtain ⟨ts, t1, t2, _⟩ := C30_times 1 1 4 (by norm_num)
  obtain ⟨q, q1, q2, _, q4, _, _, q7⟩ := pointPhotons_fromSky ⟨.scalar 1, .scalar 2, .scalar 1, none, fun _ => []⟩ ⟨1, 1, 1⟩
    isRotation_one (fun _ => (0, 0)) (fun _ => (0, 0)) 4 ts _ _ t1 rfl rfl
  have hl : ts.length = 4 := by rw [t2, Nat.ceil_eq_iff (by norm_num)]; norm_num
  exact ⟨q, q1, q2, by rw [q4, hl], fun i hi => (q7 i (by omega)).1⟩

/-- Photons from a sky source have a direction and a polarization after the pointing, with and without jitter. -/
example (p : Pointing) : ∃ ph q q', fixedProcess axisZ p (.num none) ph = .ok q ∧ jitterProcess axisZ p (1 / 1000) (fun _ => 1 / 3) (fun _ => 1) (.num none) ph = .ok q' ∧
    ∃ d e, vecAt q.tab "dir" 3 = some d ∧ vecAt q.tab "polarization" 3 = some e := by
  obtain ⟨ts, t1, t2, _⟩ := C30_times 1 1 4 (by norm_num)
  obtain ⟨ph, q1, q2, _, q4, _, _, q7⟩ := pointPhotons_fromSky ⟨.scalar 1, .scalar 2, .scalar 1, none, fun _ => []⟩ ⟨1, 1, 1⟩
    isRotation_one (fun _ => (0, 0)) (fun _ => (0, 0)) 4 ts _ _ t1 rfl rfl
  have hl : ts.length = 4 := by rw [t2, Nat.ceil_eq_iff (by norm_num)]; norm_num
  obtain ⟨q, f1, -⟩ := C105_directions axisZ p (.num none) ph q2
  have hR : IsRotation (!![0, 1, 0; 0, 0, 1; 1, 0, 0] : M3) := by
    refine ⟨?_, ?_⟩
    · ext i j; fin_cases i <;> fin_cases j <;> simp [Matrix.mul_apply, Fin.sum_univ_three]
    · simp [Matrix.det_fin_three]
  have hx : (SkyC.mk 1 1 1).vec.x ≠ 0 := by
    have := Real.cos_one_pos
    simp [SkyC.vec, mul3, skyVec, this.ne']
  obtain ⟨d, e, n, g1, g2, -⟩ := C105_polarization axisZ _ hR (fun v => by ext <;> simp [mul4, mul3, axisZ, V3.toDir]) p (.num none) ph q q2 f1 3 (by rw [q4, hl]; norm_num) _
    (q7 3 (by omega)).1 ⟨fun h => hx (by rw [h]), fun h => hx (by rw [h])⟩ 1 (by rw [(q7 3 (by omega)).2.2.2.1]; simp [hl])
  exact ⟨ph, q, _, f1, by simp only [jitterProcess, f1, bind, Except.bind, if_pos (abs_pos.2 (by norm_num : (1 / 1000 : ℝ) ≠ 0))]; rfl, _, _, g1, g2⟩

end Marxs
