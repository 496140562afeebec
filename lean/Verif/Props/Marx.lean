import Verif.Model.Marx
import Verif.Props.Polarization
import Verif.Props.Apertures

/-! # C109: mirrors simulated by the MARX C code -/

namespace Marxs

open Classical

theorem filter_unique {α : Type} (f : α → ℤ) {l : List α} (hn : (l.map f).Nodup) {a : α} (ha : a ∈ l) :
    (l.filter fun x => f x = f a) = [a] := by
  induction l with
  | nil => simp at ha
  | cons b l ih =>
    simp only [List.map_cons, List.nodup_cons, List.mem_map, not_exists, not_and] at hn
    rcases List.mem_cons.1 ha with rfl | h
    · rw [List.filter_cons_of_pos (by simp)]
      congr 1
      apply List.filter_eq_nil_iff.2
      intro x hx
      simpa using hn.1 x hx
    · rw [List.filter_cons_of_neg (by simpa using fun e => hn.1 a h e.symm)]
      exact ih hn.2 h

theorem sortTag_map (ins : List MarxIn) : (sortTag ins).map (·.tag) = (ins.map (·.tag)).insertionSort (· ≤ ·) :=
  List.map_insertionSort _ _ _ _ (fun _ _ _ _ => Iff.rfl)

theorem joinTag_zip (outs : List MarxOut) (ins : List MarxIn) (ho : (outs.map (·.tag)).Nodup)
    (hi : (ins.map (·.tag)).Nodup) (hp : (outs.map (·.tag)).Perm (ins.map (·.tag))) :
    joinTag outs ins = (outs.insertionSort fun a b => a.tag ≤ b.tag).zip (sortTag ins) := by
  set A := outs.insertionSort fun a b => a.tag ≤ b.tag with hA
  have hAt : A.map (·.tag) = (outs.map (·.tag)).insertionSort (· ≤ ·) :=
    List.map_insertionSort _ _ _ _ (fun _ _ _ _ => Iff.rfl)
  have hAB : A.map (·.tag) = (sortTag ins).map (·.tag) := by
    rw [hAt, sortTag_map]
    exact ((List.perm_insertionSort _ _).trans (hp.trans (List.perm_insertionSort _ _).symm)).eq_of_pairwise'
      (List.pairwise_insertionSort _ _) (List.pairwise_insertionSort _ _)
  have hB : ∀ b ∈ sortTag ins, (ins.filter fun i => i.tag = b.tag) = [b] := fun b hb =>
    filter_unique (·.tag) hi ((List.mem_insertionSort _).1 hb)
  have hAm : ∀ a ∈ A, (outs.filter fun o => o.tag = a.tag) = [a] := fun a ha =>
    filter_unique (·.tag) ho ((List.mem_insertionSort _).1 ha)
  have e1 : joinTag outs ins = A.flatMap fun a => (outs.filter fun o => o.tag = a.tag).flatMap fun o =>
      (ins.filter fun i => i.tag = a.tag).map fun i => (o, i) := by
    rw [joinTag, List.dedup_eq_self.2 ho, ← hAt, List.flatMap_map]
  rw [e1]
  clear e1 hAt hA
  generalize sortTag ins = B at *
  clear_value A
  induction A generalizing B with
  | nil => simp
  | cons a A ih =>
    cases B with
    | nil => simp at hAB
    | cons b B =>
      simp only [List.map_cons, List.cons.injEq] at hAB
      rw [List.flatMap_cons, hAm a List.mem_cons_self, List.zip_cons_cons,
        ih (fun x hx => hAm x (List.mem_cons_of_mem _ hx)) B hAB.2 (fun x hx => hB x (List.mem_cons_of_mem _ hx))]
      simp only [List.flatMap_cons, List.flatMap_nil, List.append_nil]
      rw [hAB.1, hB b List.mem_cons_self]
      rfl

theorem joinTag_length (outs : List MarxOut) (ins : List MarxIn) (ho : (outs.map (·.tag)).Nodup)
    (hi : (ins.map (·.tag)).Nodup) (hs : ∀ o ∈ outs, o.tag ∈ ins.map (·.tag)) :
    (joinTag outs ins).length = outs.length := by
  set A := outs.insertionSort fun a b => a.tag ≤ b.tag with hA
  have hAt : A.map (·.tag) = (outs.map (·.tag)).insertionSort (· ≤ ·) :=
    List.map_insertionSort _ _ _ _ (fun _ _ _ _ => Iff.rfl)
  have hAl : A.length = outs.length := List.length_insertionSort _ _
  have e1 : joinTag outs ins = A.flatMap fun a => (outs.filter fun o => o.tag = a.tag).flatMap fun o =>
      (ins.filter fun i => i.tag = a.tag).map fun i => (o, i) := by
    rw [joinTag, List.dedup_eq_self.2 ho, ← hAt, List.flatMap_map]
  have h1 : ∀ a ∈ A, ((outs.filter fun o => o.tag = a.tag).flatMap fun o =>
      (ins.filter fun i => i.tag = a.tag).map fun i => (o, i)).length = 1 := by
    intro a ha
    have ha' := (List.mem_insertionSort _).1 ha
    rw [filter_unique (·.tag) ho ha']
    obtain ⟨i, hi', hit⟩ := List.mem_map.1 (hs a ha')
    have := filter_unique (·.tag) hi hi'
    rw [hit] at this
    simp [this]
  rw [e1, ← hAl]
  clear e1 hAt hA hAl
  clear_value A
  induction A with
  | nil => simp
  | cons a A ih =>
    rw [List.flatMap_cons, List.length_append, h1 a List.mem_cons_self,
      ih (fun x hx => h1 x (List.mem_cons_of_mem _ hx)), List.length_cons]
    omega

theorem mapM_ok_map {α β : Type} {f : α → Except Err β} {g : α → β} {l : List α} (h : ∀ x ∈ l, f x = .ok (g x)) :
    l.mapM f = .ok (l.map g) := by
  induction l with
  | nil => rfl
  | cons a l ih =>
    rw [List.mapM_cons, h a List.mem_cons_self, ih (fun x hx => h x (List.mem_cons_of_mem _ hx))]
    rfl

theorem find_sorted {B : List MarxIn} (hs : B.Pairwise fun a b => a.tag ≤ b.tag) (hn : (B.map (·.tag)).Nodup)
    {b : MarxIn} (hb : b ∈ B) : (B.find? fun i => b.tag ≤ i.tag) = some b := by
  induction B with
  | nil => simp at hb
  | cons a B ih =>
    rw [List.pairwise_cons] at hs
    simp only [List.map_cons, List.nodup_cons, List.mem_map, not_exists, not_and] at hn
    rcases List.mem_cons.1 hb with rfl | h
    · simp
    · have h1 := hs.1 b h
      have h2 := hn.1 b h
      rw [List.find?_cons_of_neg (by simp; omega)]
      exact ih hs.2 hn.2 h

/-- Everything about a call in which no photon is lost. -/
theorem marx_core (m : M4) (lib : List MarxIn → Option (List MarxOut)) (ins : List MarxIn) (outs : List MarxOut)
    (hne : ins ≠ []) (hlib : lib (ins.map (marxLocal m)) = some outs) (hi : (ins.map (·.tag)).Nodup)
    (hp : (outs.map (·.tag)).Perm (ins.map (·.tag))) :
    ∃ rows, marxCall m lib ins = .ok (rows, ins.map (marxLocal m)) ∧ rows.length = ins.length ∧
      (rows.map (·.tag)).Pairwise (· < ·) ∧ (∀ o ∈ outs, ∃ row ∈ rows, row.tag = o.tag) ∧
      ∀ row ∈ rows, ∃ i ∈ ins, ∃ o ∈ outs, i.tag = row.tag ∧ o.tag = row.tag ∧ row.pos = mul4 m o.pos ∧
        row.dir = mul4 m o.dir ∧ row.energy = o.energy ∧ row.time = o.time ∧ row.shell = o.shell ∧
        row.prob = (if o.unreflected || o.vblocked then 0 else i.prob * i.prob) ∧
        row.pol = parallelTransport (mul4 m⁻¹ i.dir) (mul4 m o.dir) i.pol ∧
        row.posBefore = mul4 m⁻¹ i.pos ∧ row.dirBefore = mul4 m⁻¹ i.dir := by
  set loc := ins.map (marxLocal m) with hloc
  set outs' := outs.map (marxGlobal m) with houts
  have t1 : outs'.map (·.tag) = outs.map (·.tag) := by rw [houts, List.map_map]; rfl
  have t2 : loc.map (·.tag) = ins.map (·.tag) := by rw [hloc, List.map_map]; rfl
  have hp' : (outs'.map (·.tag)).Perm (loc.map (·.tag)) := by rw [t1, t2]; exact hp
  have hi' : (loc.map (·.tag)).Nodup := by rw [t2]; exact hi
  have ho' : (outs'.map (·.tag)).Nodup := hp'.nodup_iff.2 hi'
  have hj := joinTag_zip outs' loc ho' hi' hp'
  set A := outs'.insertionSort fun a b => a.tag ≤ b.tag with hA
  set B := sortTag loc with hB
  have hAt : A.map (·.tag) = (outs'.map (·.tag)).insertionSort (· ≤ ·) :=
    List.map_insertionSort _ _ _ _ (fun _ _ _ _ => Iff.rfl)
  have hAB : A.map (·.tag) = B.map (·.tag) := by
    rw [hAt, hB, sortTag_map]
    exact ((List.perm_insertionSort _ _).trans (hp'.trans (List.perm_insertionSort _ _).symm)).eq_of_pairwise'
      (List.pairwise_insertionSort _ _) (List.pairwise_insertionSort _ _)
  have hBl : B.length = ins.length := by rw [hB, sortTag, List.length_insertionSort, hloc, List.length_map]
  have hAl : A.length = ins.length := by
    rw [← hBl]; simpa using congrArg List.length hAB
  have hBn : (B.map (·.tag)).Nodup := by
    rw [hB, sortTag_map]; exact (List.perm_insertionSort _ _).nodup_iff.2 hi'
  have hBs : B.Pairwise fun a b => a.tag ≤ b.tag := List.pairwise_insertionSort _ _
  set g : (MarxOut × MarxIn) × MarxIn → MarxRow := fun q =>
    { tag := q.1.1.tag, energy := q.1.1.energy, time := q.1.1.time, pos := q.1.1.pos, dir := q.1.1.dir,
      shell := q.1.1.shell, pol := parallelTransport q.2.dir q.1.1.dir q.2.pol,
      prob := if q.1.1.unreflected || q.1.1.vblocked then 0 else q.1.2.prob * q.2.prob,
      posBefore := q.1.2.pos, dirBefore := q.1.2.dir } with hg
  have hzip : ∀ (X : List MarxOut) (Y : List MarxIn), X.map (·.tag) = Y.map (·.tag) →
      ∀ q ∈ (X.zip Y).zip Y, q.1.1 ∈ X ∧ q.2 ∈ Y ∧ q.1.2 = q.2 ∧ q.1.1.tag = q.2.tag := by
    intro X
    induction X with
    | nil => intro Y _ q hq; simp at hq
    | cons a X ih =>
      intro Y h q hq
      cases Y with
      | nil => simp at hq
      | cons b Y =>
        simp only [List.map_cons, List.cons.injEq] at h
        rw [List.zip_cons_cons, List.zip_cons_cons] at hq
        rcases List.mem_cons.1 hq with rfl | hq
        · exact ⟨List.mem_cons_self, List.mem_cons_self, rfl, h.1⟩
        · obtain ⟨h1, h2, h3, h4⟩ := ih Y h.2 q hq
          exact ⟨List.mem_cons_of_mem _ h1, List.mem_cons_of_mem _ h2, h3, h4⟩
  have hrow : ∀ q ∈ (A.zip B).zip B, (fun q : (MarxOut × MarxIn) × MarxIn => marxRow B q.1 q.2) q = .ok (g q) := by
    intro q hq
    obtain ⟨_, h2, h3, h4⟩ := hzip A B hAB q hq
    have hf := find_sorted hBs hBn h2
    rw [← h4] at hf
    simp only [marxRow, marxProb, hf, bind, Except.bind, hg]
  have hlen : ((A.zip B).zip B).length = ins.length := by simp [hAl, hBl]
  refine ⟨((A.zip B).zip B).map g, ?_, by rw [List.length_map, hlen], ?_, ?_, ?_⟩
  · simp only [marxCall, hne, if_false, ← hloc, hlib, ← houts, hj, ← hB]
    rw [if_neg (by simp [hAl, hBl])]
    rw [mapM_ok_map hrow]
    rfl
  · have hmt : (((A.zip B).zip B).map g).map (·.tag) = A.map (·.tag) := by
      rw [List.map_map]
      have : ((fun x : MarxRow => x.tag) ∘ g) = (fun o : MarxOut => o.tag) ∘ Prod.fst ∘ Prod.fst := rfl
      rw [this, ← List.map_map, ← List.map_map, List.map_fst_zip (by simp [hAl, hBl]), List.map_fst_zip (by omega)]
    rw [hmt, hAB]
    have hle : (B.map (·.tag)).Pairwise (· ≤ ·) := List.pairwise_map.2 hBs
    exact (hle.and hBn).imp fun h => lt_of_le_of_ne h.1 h.2
  · intro o ho
    have hoA : marxGlobal m o ∈ A := (List.mem_insertionSort _).2 (List.mem_map.2 ⟨o, ho, rfl⟩)
    obtain ⟨n, hn, hno⟩ := List.mem_iff_getElem.1 hoA
    have hn' : n < ((A.zip B).zip B).length := by rw [hlen]; omega
    refine ⟨g ((A.zip B).zip B)[n], List.mem_map.2 ⟨_, List.getElem_mem hn', rfl⟩, ?_⟩
    simp only [hg, List.getElem_zip, hno]
    rfl
  · intro row hr
    obtain ⟨q, hq, rfl⟩ := List.mem_map.1 hr
    obtain ⟨h1, h2, h3, h4⟩ := hzip A B hAB q hq
    obtain ⟨o, ho, hoo⟩ := List.mem_map.1 ((List.mem_insertionSort _).1 h1)
    obtain ⟨i, hii, hio⟩ := List.mem_map.1 ((List.mem_insertionSort _).1 h2)
    refine ⟨i, hii, o, ho, ?_, ?_, ?_, ?_, ?_, ?_, ?_, ?_, ?_, ?_, ?_⟩ <;>
      simp only [hg, h3, ← hoo, ← hio, marxGlobal, marxLocal]
    rw [← hoo, ← hio] at h4
    exact h4.symm

/-- **C109** If photon tags are unique and the C code gives back every photon once, in any order: the result has one row per
photon, ordered by tag, and each row combines what the C code returned for that tag (with
position and direction turned into the global coordinate system) with what was known about the photon of the same tag before.
Photons that were not reflected or were vignetted have probability 0. -/
theorem C109_photons (m : M4) (lib : List MarxIn → Option (List MarxOut)) (ins : List MarxIn) (outs : List MarxOut)
    (hne : ins ≠ []) (hlib : lib (ins.map (marxLocal m)) = some outs) (hi : (ins.map (·.tag)).Nodup)
    (hp : (outs.map (·.tag)).Perm (ins.map (·.tag))) :
    ∃ rows after, marxCall m lib ins = .ok (rows, after) ∧ rows.length = ins.length ∧
      (rows.map (·.tag)).Pairwise (· < ·) ∧ (∀ i ∈ ins, ∃ row ∈ rows, row.tag = i.tag) ∧
      ∀ row ∈ rows, ∃ i ∈ ins, ∃ o ∈ outs, i.tag = row.tag ∧ o.tag = row.tag ∧ row.pos = mul4 m o.pos ∧
        row.dir = mul4 m o.dir ∧ row.energy = o.energy ∧ row.time = o.time ∧ row.shell = o.shell ∧
        ((o.unreflected = true ∨ o.vblocked = true) → row.prob = 0) := by
  obtain ⟨rows, h1, h2, h3, h4, h5⟩ := marx_core m lib ins outs hne hlib hi hp
  refine ⟨rows, _, h1, h2, h3, ?_, ?_⟩
  · intro i hii
    obtain ⟨o, ho, hoi⟩ := List.mem_map.1 (hp.mem_iff.2 (List.mem_map.2 ⟨i, hii, rfl⟩))
    obtain ⟨row, hr, hrt⟩ := h4 o ho
    exact ⟨row, hr, hrt.trans hoi⟩
  · intro row hr
    obtain ⟨i, a1, o, a2, a3, a4, a5, a6, a7, a8, a9, a10, _⟩ := h5 row hr
    refine ⟨i, a1, o, a2, a3, a4, a5, a6, a7, a8, a9, ?_⟩
    intro h
    rw [a10, if_pos (by simpa using h)]

/-- **C109** For photons that come in with probability 0 or 1 (all photons from a source), the probability behind the mirror
is what it was, or 0 if the photon is not reflected or vignetted. Missing: any other probability, see
`C109_probability_false`. -/
theorem C109_probability_partial (m : M4) (lib : List MarxIn → Option (List MarxOut)) (ins : List MarxIn)
    (outs : List MarxOut) (hne : ins ≠ []) (hlib : lib (ins.map (marxLocal m)) = some outs)
    (hi : (ins.map (·.tag)).Nodup) (hp : (outs.map (·.tag)).Perm (ins.map (·.tag)))
    (h01 : ∀ i ∈ ins, i.prob = 0 ∨ i.prob = 1) :
    ∃ rows after, marxCall m lib ins = .ok (rows, after) ∧
      ∀ row ∈ rows, ∃ i ∈ ins, ∃ o ∈ outs, i.tag = row.tag ∧ o.tag = row.tag ∧
        row.prob = if o.unreflected ∨ o.vblocked then 0 else i.prob := by
  obtain ⟨rows, h1, _, _, _, h5⟩ := marx_core m lib ins outs hne hlib hi hp
  refine ⟨rows, _, h1, ?_⟩
  intro row hr
  obtain ⟨i, a1, o, a2, a3, a4, _, _, _, _, _, a10, _⟩ := h5 row hr
  refine ⟨i, a1, o, a2, a3, a4, ?_⟩
  rw [a10]
  by_cases hb : o.unreflected = true ∨ o.vblocked = true
  · rw [if_pos (by simpa using hb), if_pos hb]
  · rw [if_neg (by simpa using hb), if_neg hb]
    rcases h01 i a1 with h | h <;> rw [h] <;> norm_num

/-- **C109** (disagreement) The comment in the code says that the probability is multiplicative. The probability that the photon
had before the mirror is counted twice: a photon with probability `p` leaves with `p * p`, not `p`, although it is neither
lost nor vignetted. -/
theorem C109_probability_false (m : M4) (lib : List MarxIn → Option (List MarxOut)) (i : MarxIn) (o : MarxOut)
    (hlib : lib [marxLocal m i] = some [o]) (ht : o.tag = i.tag) (hu : o.unreflected = false) (hb : o.vblocked = false) :
    ∃ row after, marxCall m lib [i] = .ok ([row], after) ∧ row.prob = i.prob * i.prob := by
  obtain ⟨rows, h1, h2, _, _, h5⟩ := marx_core m lib [i] [o] (by simp) (by simpa using hlib) (by simp) (by simp [ht])
  obtain ⟨row, rfl⟩ := List.length_eq_one_iff.1 (by simpa using h2)
  obtain ⟨i', a1, o', a2, _, _, _, _, _, _, _, a10, _⟩ := h5 row (by simp)
  simp only [List.mem_singleton] at a1 a2
  subst a1 a2
  exact ⟨row, _, h1, by rw [a10]; simp [hu, hb]⟩

/-- **C109** A mirror in default position and orientation: the photon list of the caller is not changed, and the
polarization of every photon is transported from the direction of the same photon before the mirror to its direction behind the
mirror. The length of the polarization vector is kept, and it stays perpendicular to the direction.
Missing: other positions and orientations, see `C109_orientation_false`. -/
theorem C109_polarization_partial (lib : List MarxIn → Option (List MarxOut)) (ins : List MarxIn) (outs : List MarxOut)
    (hne : ins ≠ []) (hlib : lib ins = some outs) (hi : (ins.map (·.tag)).Nodup)
    (hp : (outs.map (·.tag)).Perm (ins.map (·.tag)))
    (hd : ∀ i ∈ ins, i.dir.xyz ≠ 0 ∧ i.pol.xyz.dot i.dir.xyz = 0) (hd' : ∀ o ∈ outs, o.dir.xyz ≠ 0) :
    ∃ rows, marxCall 1 lib ins = .ok (rows, ins) ∧
      ∀ row ∈ rows, ∃ i ∈ ins, ∃ o ∈ outs, i.tag = row.tag ∧ o.tag = row.tag ∧ row.dir = o.dir ∧
        row.dirBefore = i.dir ∧ row.posBefore = i.pos ∧
        ∃ q, row.pol = some q ∧ q.w = 0 ∧ q.xyz.dot q.xyz = i.pol.xyz.dot i.pol.xyz ∧
          |q.xyz.dot row.dir.xyz.unit| ≤ 1 / 10 ^ 8 * i.pol.xyz.norm ∧ parallelTransport i.dir o.dir i.pol = some q := by
  have hid : ins.map (marxLocal 1) = ins := by
    conv_rhs => rw [← List.map_id ins]
    apply List.map_congr_left
    intro i _
    simp [marxLocal, mul4_one]
  obtain ⟨rows, h1, _, _, _, h5⟩ := marx_core 1 lib ins outs hne (by rw [hid]; exact hlib) hi hp
  rw [hid] at h1
  refine ⟨rows, h1, ?_⟩
  intro row hr
  obtain ⟨i, a1, o, a2, a3, a4, _, a6, _, _, _, _, a11, a12, a13⟩ := h5 row hr
  rw [mul4_one] at a6
  rw [inv_one, mul4_one, mul4_one] at a11
  rw [inv_one, mul4_one] at a12 a13
  obtain ⟨q, q1, q2, q3, q4, _⟩ := C17_transport i.dir o.dir i.pol (hd i a1).1 (hd' o a2) (hd i a1).2
  exact ⟨i, a1, o, a2, a3, a4, a6, a13, a12, q, by rw [a11, q1], q2, q3, by rw [a6]; exact q4, q1⟩

/-- **C109** An empty photon list is refused, and so is a call in which the library fails. -/
theorem C109_refused (m : M4) (lib : List MarxIn → Option (List MarxOut)) (ins : List MarxIn) :
    marxCall m lib [] = .error .valueError ∧
    (ins ≠ [] → lib (ins.map (marxLocal m)) = none → marxCall m lib ins = .error .setupError) := by
  refine ⟨by simp [marxCall], fun h1 h2 => ?_⟩
  simp only [marxCall, h1, if_false, h2]

/-- **C109** (disagreement) If the C code loses a photon of a list with two or more photons, the call fails instead of
returning the photons that are left: the arrays for the polarization do not have the same length. -/
theorem C109_lost_false (m : M4) (lib : List MarxIn → Option (List MarxOut)) (ins : List MarxIn) (outs : List MarxOut)
    (hlib : lib (ins.map (marxLocal m)) = some outs) (hi : (ins.map (·.tag)).Nodup) (ho : (outs.map (·.tag)).Nodup)
    (hs : ∀ o ∈ outs, o.tag ∈ ins.map (·.tag)) (hlost : outs.length < ins.length) (h2 : 2 ≤ ins.length) :
    marxCall m lib ins = .error .valueError := by
  have hne : ins ≠ [] := by rintro rfl; simp at h2
  have hl := joinTag_length (outs.map (marxGlobal m)) (ins.map (marxLocal m)) (by rw [List.map_map]; exact ho)
    (by rw [List.map_map]; exact hi) (by
      intro o ho'
      obtain ⟨o', h1, rfl⟩ := List.mem_map.1 ho'
      rw [List.map_map]
      exact hs o' h1)
  rw [List.length_map] at hl
  simp only [marxCall, hne, if_false, hlib]
  rw [if_pos ⟨by omega, fun h => by omega⟩]

/-- A mirror that does nothing (example): every photon is returned as it came. -/
def exPassThrough (l : List MarxIn) : Option (List MarxOut) :=
  some (l.map fun i => ⟨i.tag, i.energy, i.time, i.pos, i.dir, false, false, 0⟩)

/-- Quarter turn around the z-axis (example). -/
def exTurn : M4 := !![0, -1, 0, 0; 1, 0, 0, 0; 0, 0, 1, 0; 0, 0, 0, 1]

theorem exTurn_inv : exTurn⁻¹ = !![0, 1, 0, 0; -1, 0, 0, 0; 0, 0, 1, 0; 0, 0, 0, 1] := by
  apply Matrix.inv_eq_right_inv
  ext i j
  fin_cases i <;> fin_cases j <;> simp [exTurn, Matrix.mul_apply, Fin.sum_univ_four]

/-- **C109** (disagreement) A mirror that is placed with another orientation. The photon list of the caller ends up in the coordinate system of
the mirror, and the polarization is transported from the direction in the local system of the mirror
to the direction in the global system. Even if the mirror does not change the direction of the photon at all, its
polarization may end up parallel to its direction of flight. -/
theorem C109_orientation_false : ∃ (i : MarxIn) (row : MarxRow) (after : MarxIn) (q : H4),
    i.dir.xyz.dot i.pol.xyz = 0 ∧ i.pol.xyz.dot i.pol.xyz = 1 ∧
    marxCall exTurn exPassThrough [i] = .ok ([row], [after]) ∧ row.dir = i.dir ∧
    row.pol = some q ∧ q.xyz.dot row.dir.xyz = -1 ∧ after.dir ≠ i.dir := by
  set i : MarxIn := ⟨0, 1, 0, ⟨0, 0, 0, 1⟩, ⟨0, -1, 0, 0⟩, ⟨1, 0, 0, 0⟩, 1⟩ with hi
  have hdir : mul4 exTurn⁻¹ i.dir = ⟨-1, 0, 0, 0⟩ := by
    rw [exTurn_inv]; simp [hi, mul4]
  have hback : mul4 exTurn ⟨-1, 0, 0, 0⟩ = ⟨0, -1, 0, 0⟩ := by simp [exTurn, mul4]
  obtain ⟨rows, h1, h2, _, _, h5⟩ := marx_core exTurn exPassThrough [i] _ (by simp) rfl (by simp) (by simp [marxLocal])
  obtain ⟨row, rfl⟩ := List.length_eq_one_iff.1 (by simpa using h2)
  obtain ⟨i', a1, o', a2, _, _, _, a6, _, _, _, _, a11, _⟩ := h5 row (by simp)
  simp only [List.mem_singleton] at a1
  subst a1
  simp only [List.map_cons, List.map_nil, List.mem_singleton] at a2
  subst a2
  simp only [marxLocal, hdir, hback] at a6 a11
  have u1 : (⟨-1, 0, 0⟩ : V3).unit = ⟨-1, 0, 0⟩ := V3.unit_of_unit (by simp [V3.dot])
  have u2 : (⟨0, -1, 0⟩ : V3).unit = ⟨0, -1, 0⟩ := V3.unit_of_unit (by simp [V3.dot])
  obtain ⟨mm, b1, _, b3, _⟩ := C17_matrix ⟨-1, 0, 0⟩ ⟨0, -1, 0⟩ (by simp [V3.ext_iff]) (by simp [V3.ext_iff]) (by
    rw [u1, u2]
    have : ((⟨-1, 0, 0⟩ : V3).cross ⟨0, -1, 0⟩).norm = 1 := by simp [V3.norm, V3.dot, V3.cross]
    rw [this]
    simp [isclose]
    norm_num) true
  rw [u1, u2] at b3
  have hpol : mul3 mm ⟨1, 0, 0⟩ = ⟨0, 1, 0⟩ := by
    have : (⟨1, 0, 0⟩ : V3) = (-1 : ℝ) • (⟨-1, 0, 0⟩ : V3) := by ext <;> simp
    have hs : mul3 mm ((-1 : ℝ) • (⟨-1, 0, 0⟩ : V3)) = (-1 : ℝ) • mul3 mm ⟨-1, 0, 0⟩ := by
      ext <;> simp [mul3]
    rw [this, hs, b3]
    ext <;> simp
  have hpt : parallelTransport ⟨-1, 0, 0, 0⟩ ⟨0, -1, 0, 0⟩ i.pol = some ⟨0, 1, 0, 0⟩ := by
    simp only [parallelTransport, H4.xyz, b1, hi, hpol]
  refine ⟨i, row, marxLocal exTurn i, ⟨0, 1, 0, 0⟩, by simp [hi, V3.dot, H4.xyz], by simp [hi, V3.dot, H4.xyz], h1, ?_, ?_, ?_, ?_⟩
  · rw [a6]
  · rw [a11, hpt]
  · rw [a6]; simp [V3.dot, H4.xyz]
  · simp only [marxLocal, hdir]; simp [hi]

/-! The hypotheses of the theorems above hold for two photons that pass a mirror that reflects all and returns them in reverse order, and for
one that loses a photon. -/

/-- two photons (example) -/
def exMarxIn : List MarxIn :=
  [⟨3, 1, 0, ⟨0, 0, 0, 1⟩, ⟨-1, 0, 0, 0⟩, ⟨0, 1, 0, 0⟩, 1⟩, ⟨1, 2, 1, ⟨0, 0, 0, 1⟩, ⟨-1, 0, 0, 0⟩, ⟨0, 1, 0, 0⟩, 1⟩]

example : ∃ outs, (fun l => (exPassThrough l).map List.reverse) exMarxIn = some outs ∧ (exMarxIn.map (·.tag)).Nodup ∧
    (outs.map (·.tag)).Perm (exMarxIn.map (·.tag)) ∧ (∀ i ∈ exMarxIn, i.prob = 0 ∨ i.prob = 1) ∧
    (∀ i ∈ exMarxIn, i.dir.xyz ≠ 0 ∧ i.pol.xyz.dot i.dir.xyz = 0) ∧ ∀ o ∈ outs, o.dir.xyz ≠ 0 := by
  refine ⟨_, rfl, by simp [exMarxIn], ?_, by simp [exMarxIn], ?_, ?_⟩
  · simp [exMarxIn]; decide
  · intro i hi
    simp only [exMarxIn, List.mem_cons, List.not_mem_nil, or_false] at hi
    rcases hi with rfl | rfl <;> simp [V3.dot, V3.ext_iff]
  · intro o ho
    simp only [exMarxIn, List.map_cons, List.map_nil, List.reverse_cons, List.reverse_nil, List.nil_append,
      List.cons_append, List.mem_cons, List.not_mem_nil, or_false] at ho
    rcases ho with rfl | rfl <;> simp [V3.ext_iff]

example : ∃ outs, (fun l => (exPassThrough l).map (List.take 1)) exMarxIn = some outs ∧ (outs.map (·.tag)).Nodup ∧
    (∀ o ∈ outs, o.tag ∈ exMarxIn.map (·.tag)) ∧ outs.length < exMarxIn.length ∧ 2 ≤ exMarxIn.length :=
  ⟨_, rfl, by simp [exMarxIn], by simp [exMarxIn], by simp [exMarxIn], by simp [exMarxIn]⟩

end Marxs
