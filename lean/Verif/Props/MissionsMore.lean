import Verif.Props.Missions
import Verif.Props.Grating
import Verif.Props.Osip
import Verif.Props.Base

/-!
# Properties C91-C93: booms, L1 support, header keywords with orders
-/

namespace Marxs

open Classical

/-! ## C91 -/

theorem rodsOut_trans (f b1 b2 : Prop) (r : Row) :
    rodsOut True b2 (rodsOut f b1 r) = rodsOut f (b1 ∨ b2) r := by
  funext c
  simp only [rodsOut]
  by_cases h1 : b1 <;> by_cases h2 : b2 <;> simp [h1, h2] <;> split_ifs <;> simp

theorem rodProcess_eq (hit : Row → Bool) (hr : RayOnly hit) (t : Table) (hp : "probability" ∈ t.names) :
    ∃ t', rodProcess hit t = .ok t' ∧ "hitrod" ∈ t'.names ∧ (∀ c, c ∈ t.names → c ∈ t'.names) ∧
      t'.rows = t.rows.map fun r => rodsOut ("hitrod" ∈ t.names) (hit r = true) r := by
  have hmask : t.rows.map hit = (t.addCol "hitrod" (.int 0)).rows.map hit := by
    unfold Table.addCol
    split
    · rfl
    · rw [List.map_map]
      refine List.map_congr_left fun r _ => hr _ _ ?_ ?_ <;> simp
  have hn1 : "hitrod" ∈ (t.addCol "hitrod" (.int 0)).names := by
    unfold Table.addCol; split <;> simp_all
  have hn0 : ∀ c, c ∈ t.names → c ∈ (t.addCol "hitrod" (.int 0)).names := by
    intro c hc; unfold Table.addCol; split <;> simp_all
  have hmask2 : t.rows.map hit = ((t.addCol "hitrod" (.int 0)).rows.map
      (fun r => if hit r = true then r.with "hitrod" (.int 1) else r)).map hit := by
    rw [hmask, List.map_map]
    refine List.map_congr_left fun r _ => ?_
    simp only [Function.comp]
    split
    · exact hr _ _ (by simp [Row.with]) (by simp [Row.with])
    · rfl
  unfold rodProcess
  simp only
  have hs := setCol_const hn1 (.int 1) hit
  rw [← hmask] at hs
  rw [hs]
  simp only [bind, Except.bind]
  refine ⟨⟨(t.addCol "hitrod" (.int 0)).names, ((t.addCol "hitrod" (.int 0)).rows.map
      (fun r => if hit r = true then r.with "hitrod" (.int 1) else r)).map
      (fun r => if hit r = true then r.with "probability" (.num (some 0)) else r)⟩, ?_, hn1, hn0, ?_⟩
  rotate_left
  · rw [List.map_map]
    have hbase : (t.addCol "hitrod" (.int 0)).rows =
        t.rows.map fun r => if "hitrod" ∈ t.names then r else r.with "hitrod" (.int 0) := by
      unfold Table.addCol
      split <;> simp [*, Row.with]
    rw [hbase, List.map_map]
    refine List.map_congr_left fun r _ => ?_
    have h1 : hit (if "hitrod" ∈ t.names then r else r.with "hitrod" (.int 0)) = hit r := by
      split
      · rfl
      · exact hr _ _ (by simp [Row.with]) (by simp [Row.with])
    simp only [Function.comp, h1]
    by_cases h : hit r = true
    · have h2 : hit ((if "hitrod" ∈ t.names then r else r.with "hitrod" (.int 0)).with "hitrod" (.int 1)) = true := by
        rw [← h]; exact (hr _ _ (by simp [Row.with]) (by simp [Row.with])).trans h1
      rw [if_pos h, if_pos h2]
      funext c
      by_cases c1 : c = "probability"
      · subst c1; simp [rodsOut, h, Row.with]
      · by_cases c2 : c = "hitrod"
        · subst c2; simp [rodsOut, h, Row.with, Function.update_apply]
        · by_cases c3 : "hitrod" ∈ t.names <;> simp [rodsOut, Row.with, Function.update_apply, c1, c2, c3]
    · rw [if_neg h, h1, if_neg h]
      funext c
      by_cases c1 : c = "probability"
      · subst c1; by_cases c3 : "hitrod" ∈ t.names <;> simp [rodsOut, h, Row.with, Function.update_apply, c3]
      · by_cases c2 : c = "hitrod"
        · subst c2; by_cases c3 : "hitrod" ∈ t.names <;> simp [rodsOut, h, Row.with, Function.update_apply, c3]
        · by_cases c3 : "hitrod" ∈ t.names <;> simp [rodsOut, Row.with, Function.update_apply, c1, c2, c3]
  · have := setCol_const (t := ⟨(t.addCol "hitrod" (.int 0)).names, (t.addCol "hitrod" (.int 0)).rows.map
      (fun r => if hit r = true then r.with "hitrod" (.int 1) else r)⟩) (hn0 _ hp) (.num (some 0)) hit
    rw [← hmask2] at this
    exact this

/-- **C91** A boom is a set of absorbing rods: a photon whose ray hits any of the rods ends with probability
zero and is flagged, all other photons and all other columns stay as they are; the order of the rods does not
matter. -/
theorem C91_boom (rods : List (Row → Bool)) (hr : ∀ h ∈ rods, RayOnly h) (hne : rods ≠ []) (t : Table)
    (hp : "probability" ∈ t.names) :
    ∃ t', boomProcess rods t = .ok t' ∧ "hitrod" ∈ t'.names ∧ (∀ c, c ∈ t.names → c ∈ t'.names) ∧
      t'.rows = t.rows.map fun r => rodsOut ("hitrod" ∈ t.names) (∃ h ∈ rods, h r = true) r := by
  induction rods generalizing t with
  | nil => exact absurd rfl hne
  | cons h hs ih =>
    obtain ⟨t1, e1, f1, n1, r1⟩ := rodProcess_eq h (hr h List.mem_cons_self) t hp
    simp only [boomProcess, e1, bind, Except.bind]
    by_cases hn : hs = []
    · subst hn
      exact ⟨t1, rfl, f1, n1, by simpa using r1⟩
    · obtain ⟨t2, e2, f2, n2, r2⟩ := ih (fun g hg => hr g (List.mem_cons_of_mem _ hg)) hn t1 (n1 _ hp)
      refine ⟨t2, e2, f2, fun c hc => n2 c (n1 c hc), ?_⟩
      rw [r2, r1, List.map_map]
      refine List.map_congr_left fun r _ => ?_
      have hsame : (∃ g ∈ hs, g (rodsOut ("hitrod" ∈ t.names) (h r = true) r) = true) ↔ ∃ g ∈ hs, g r = true := by
        refine exists_congr fun g => and_congr_right fun hg => ?_
        rw [hr g (List.mem_cons_of_mem _ hg) _ r (by simp [rodsOut]) (by simp [rodsOut])]
      simp only [Function.comp, f1, hsame, rodsOut_trans, List.mem_cons, exists_eq_or_imp]

/-- **C91** Two booms one after the other absorb like one boom with the rods of both. -/
theorem C91_two_booms (a b : List (Row → Bool)) (t : Table) :
    (boomProcess a t).bind (boomProcess b) = boomProcess (a ++ b) t := by
  induction a generalizing t with
  | nil => rfl
  | cons h a ih =>
    simp only [boomProcess, List.cons_append, bind]
    cases rodProcess h t with
    | error e => rfl
    | ok t1 => exact ih t1

/-- A rod that blocks photons at `x > 0` and one that blocks nothing. -/
example : ∃ t', boomProcess [fun r => match r "pos" with
      | .num (some x) => decide (0 < x)
      | _ => false, fun _ => false]
    ⟨["pos", "dir", "probability"], [fun c => if c = "pos" then .num (some 1) else .int 1,
      fun c => if c = "pos" then .num (some (-1)) else .num (some 1)]⟩ = .ok t' ∧
    t'.rows.map (fun r => r "probability") = [.num (some 0), .num (some 1)] ∧
    t'.rows.map (fun r => r "hitrod") = [.int 1, .int 0] := by
  obtain ⟨t', h, -, -, hr⟩ := C91_boom [fun r => match r "pos" with
      | .num (some x) => decide (0 < x)
      | _ => false, fun _ => false] (by
        intro h hh
        simp only [List.mem_cons, List.not_mem_nil, or_false] at hh
        rcases hh with rfl | rfl
        · intro r s h1 _; simp only [h1]
        · intro r s _ _; rfl) (by simp)
    ⟨["pos", "dir", "probability"], [fun c => if c = "pos" then .num (some 1) else .int 1,
      fun c => if c = "pos" then .num (some (-1)) else .num (some 1)]⟩ (by simp)
  exact ⟨t', h, by rw [hr]; simp [rodsOut], by rw [hr]; simp [rodsOut]⟩

/-! ## C92 -/

/-- **C92** In the L1 layer a photon either goes through a support bar (this is so for random numbers in an interval
of length `barwidth / period`), then it keeps direction and polarization, is in order 0 and its probability
is the transmission of the bar; or it goes through the gap, then it does what the grating does. -/
theorem C92_layer (g : Grating) (x : LxDims) (hp : 0 < x.period) (trans : ℝ → Except Err ℝ) (u : ℝ) (dir pol : H4)
    (energy : ℝ) (coo : ℝ × ℝ) :
    ((x.period - x.barwidth) / x.period < u →
      ∀ o, l1Photon g x trans u dir pol energy coo = .ok o →
        o.dir = some dir ∧ o.pol = some pol ∧ o.order = 0 ∧ trans energy = .ok o.prob) ∧
    (u ≤ (x.period - x.barwidth) / x.period →
      ∃ o, l1Photon g x trans u dir pol energy coo = .ok o ∧
        o.dir = (g.process dir pol energy coo).1.dir ∧ o.pol = (g.process dir pol energy coo).2 ∧
        o.order = (g.process dir pol energy coo).1.m ∧ o.prob = (g.process dir pol energy coo).1.prob) := by
  have he : l1Open x = (x.period - x.barwidth) / x.period := by
    rw [l1Open]; field_simp
  rw [← he]
  refine ⟨fun h o ho => ?_, fun h => ?_⟩
  · simp only [l1Photon, if_pos h, bind, Except.bind] at ho
    split at ho
    · cases ho
    next p hp =>
      cases ho
      exact ⟨rfl, rfl, rfl, hp⟩
  · simp only [l1Photon, if_neg (not_lt.2 h)]
    exact ⟨_, rfl, rfl, rfl, rfl, rfl⟩

/-- **C92** The part of the photons that meets a bar is the covered part of the surface. -/
theorem C92_fraction (x : LxDims) (hp : 0 < x.period) (hb : 0 ≤ x.barwidth) (hc : checkLxDims x = .ok ()) :
    0 < l1Open x ∧ l1Open x ≤ 1 ∧ (1 - l1Open x) * x.period = x.barwidth := by
  have hlt : x.barwidth < x.period := by
    unfold checkLxDims at hc; split at hc
    · assumption
    · cases hc
  have : x.barwidth / x.period < 1 := by rwa [div_lt_one hp]
  refine ⟨by rw [l1Open]; linarith, by rw [l1Open]; linarith [div_nonneg hb hp.le], ?_⟩
  rw [l1Open]; field_simp; ring

/-- **C92** The table of transmissions is rescaled to the thickness of the bars with the Beer-Lambert law. -/
theorem C92_transmission (t depth : ℝ) (ht : 0 ≤ t) (hd : 0 < depth) :
    l1Trans depth t = some (barTransmission t depth) := by
  rw [l1Trans, barTransmission]
  split_ifs with h1 h2
  · rw [Real.rpow_def_of_pos h1]
  · rw [h2.1, Real.zero_rpow hd.ne']
  · exact absurd ⟨le_antisymm (not_lt.1 h1) ht, hd⟩ h2

theorem interp1d_ok {tab : List (ℝ × ℝ)} {x v : ℝ} (h : interp1d tab x = .ok v) : interp x tab = some v := by
  unfold interp1d at h
  split at h
  · split at h
    · cases h
    · split at h
      · simp_all
      · cases h
  · cases h

/-- **C92** The probability of a photon that meets a bar is between 0 and 1 for every energy, and energies
outside of the table raise a `ValueError` instead of using a made up number. -/
theorem C92_probability (tab : List (ℝ × ℝ)) (hs : tab.Pairwise fun a b => a.1 < b.1)
    (ht : ∀ p ∈ tab, 0 ≤ p.2 ∧ p.2 ≤ 1) (depth : ℝ) (hd : 0 < depth) (x : ℝ) :
    (∀ v, interp1d (tab.map fun p => (p.1, (l1Trans depth p.2).getD 0)) x = .ok v → 0 ≤ v ∧ v ≤ 1) ∧
    ((∀ p ∈ tab, x < p.1) ∨ (∀ p ∈ tab, p.1 < x) →
      interp1d (tab.map fun p => (p.1, (l1Trans depth p.2).getD 0)) x = .error .valueError) ∧
    (∀ t, (x, t) ∈ tab →
      interp1d (tab.map fun p => (p.1, (l1Trans depth p.2).getD 0)) x = .ok (barTransmission t depth)) := by
  have hval : ∀ p ∈ tab, (l1Trans depth p.2).getD 0 = barTransmission p.2 depth := by
    intro p hp; rw [C92_transmission _ _ (ht p hp).1 hd]; rfl
  refine ⟨fun v hv => ?_, fun h => ?_, fun t htab => ?_⟩
  · refine interp_range _ v ?_ (interp1d_ok hv)
    intro q hq
    obtain ⟨p, hp, rfl⟩ := List.mem_map.1 hq
    simp only [hval p hp, barTransmission]
    exact ⟨Real.rpow_nonneg (ht p hp).1 _, Real.rpow_le_one (ht p hp).1 (ht p hp).2 hd.le⟩
  · unfold interp1d
    split
    · rename_i a b ha hb
      have ha' : a ∈ tab.map fun p => (p.1, (l1Trans depth p.2).getD 0) := List.mem_of_mem_head? ha
      have hb' : b ∈ tab.map fun p => (p.1, (l1Trans depth p.2).getD 0) := List.mem_of_getLast? hb
      obtain ⟨p, hp, rfl⟩ := List.mem_map.1 ha'
      obtain ⟨q, hq, rfl⟩ := List.mem_map.1 hb'
      rw [if_pos (h.imp (fun k => k p hp) fun k => k q hq)]
    · rfl
  · have hnode : interp x (tab.map fun p => (p.1, (l1Trans depth p.2).getD 0)) = some (barTransmission t depth) := by
      refine interp_node _ ?_ ?_
      · rw [List.pairwise_map]; exact hs
      · exact List.mem_map.2 ⟨_, htab, by rw [hval _ htab]⟩
    unfold interp1d
    cases tab with
    | nil => simp at htab
    | cons a l =>
      have hlast : ∃ b, ((a :: l).map fun p => (p.1, (l1Trans depth p.2).getD 0)).getLast? = some b ∧ x ≤ b.1 := by
        refine ⟨((a :: l).getLast (by simp)).map id (fun q => (l1Trans depth q).getD 0), ?_, ?_⟩
        · rw [List.getLast?_map, List.getLast?_eq_getLast_of_ne_nil (by simp)]; rfl
        · rw [List.pairwise_iff_getElem] at hs
          obtain ⟨i, hi, hx⟩ := List.getElem_of_mem htab
          rw [List.getLast_eq_getElem]
          simp only [Prod.map_fst, id]
          rcases (by omega : i < (a :: l).length - 1 ∨ i = (a :: l).length - 1) with h | h
          · have := hs i _ hi (by simp) h; rw [hx] at this; exact this.le
          · subst h; rw [hx]
      obtain ⟨b, hb, hxb⟩ := hlast
      have hfirst : a.1 ≤ x := by
        rcases List.mem_cons.1 htab with h | h
        · rw [← h]
        · exact ((List.pairwise_cons.1 hs).1 _ h).le
      rw [hb]
      simp only [List.map_cons, List.head?_cons]
      rw [if_neg (by push Not; exact ⟨hfirst, hxb⟩)]
      rw [List.map_cons] at hnode
      rw [hnode]

/-- A table with two energies. -/
example : (∀ p ∈ [((1 : ℝ), (0.5 : ℝ)), (2, 0.75)], 0 ≤ p.2 ∧ p.2 ≤ 1) ∧
    [((1 : ℝ), (0.5 : ℝ)), (2, 0.75)].Pairwise (fun a b => a.1 < b.1) ∧
    interp1d ([((1 : ℝ), (0.5 : ℝ)), (2, 0.75)].map fun p => (p.1, (l1Trans 4 p.2).getD 0)) 1 = .ok (barTransmission 0.5 4) := by
  have h1 : ∀ p ∈ [((1 : ℝ), (0.5 : ℝ)), (2, 0.75)], 0 ≤ p.2 ∧ p.2 ≤ 1 := by
    intro p hp
    simp only [List.mem_cons, List.not_mem_nil, or_false] at hp
    rcases hp with rfl | rfl <;> norm_num
  have h2 : [((1 : ℝ), (0.5 : ℝ)), (2, 0.75)].Pairwise (fun a b => a.1 < b.1) := by simp
  exact ⟨h1, h2, (C92_probability _ h2 h1 4 (by norm_num) 1).2.2 0.5 (by simp)⟩

/-! ## C93 -/

theorem orderKey_inj {i j : ℕ} (h : orderKey i = orderKey j) : i = j := by
  unfold orderKey at h
  have h2 := (String.append_right_inj _).1 h
  rw [Nat.toString_eq_repr, Nat.toString_eq_repr] at h2
  have h3 := congrArg String.toList h2
  rw [Nat.toList_repr, Nat.toList_repr] at h3
  rw [← Nat.ofDigitChars_toDigits (b := 10) (n := i) (by omega) (by omega), h3,
    Nat.ofDigitChars_toDigits (by omega) (by omega)]

theorem lookup_mem_keys {V : Type} {d : List (String × V)} {k : String} {v : V} (h : d.lookup k = some v) :
    k ∈ d.map Prod.fst := by
  induction d with
  | nil => simp at h
  | cons p d ih =>
    rw [List.lookup_cons] at h
    split at h
    · simp_all
    · exact List.mem_cons_of_mem _ (ih h)

theorem keys_bound {hdr : List (String × ℤ)} {n : ℕ} (h : ∀ i < n, (hdr.lookup (orderKey i)).isSome) :
    n ≤ hdr.length := by
  have hs : (List.range n).map orderKey ⊆ hdr.map Prod.fst := by
    intro k hk
    obtain ⟨i, hi, rfl⟩ := List.mem_map.1 hk
    obtain ⟨v, hv⟩ := Option.isSome_iff_exists.1 (h i (List.mem_range.1 hi))
    exact lookup_mem_keys hv
  have hn : ((List.range n).map orderKey).Nodup := List.nodup_range.map fun i j => orderKey_inj
  have := (List.subperm_of_subset hn hs).length_le
  simpa using this

theorem ordersLoop_spec (hdr : List (String × ℤ)) : ∀ fuel i : ℕ,
    (∀ j, j < (ordersLoop hdr fuel i).length → hdr.lookup (orderKey (i + j)) = (ordersLoop hdr fuel i)[j]?) ∧
    ((ordersLoop hdr fuel i).length < fuel → hdr.lookup (orderKey (i + (ordersLoop hdr fuel i).length)) = none) ∧
    (ordersLoop hdr fuel i).length ≤ fuel
  | 0, i => by simp [ordersLoop]
  | fuel + 1, i => by
    simp only [ordersLoop]
    split
    next h => simp [h]
    next o h =>
      obtain ⟨h1, h2, h3⟩ := ordersLoop_spec hdr fuel (i + 1)
      refine ⟨fun j hj => ?_, fun hl => ?_, by simpa using h3⟩
      · cases j with
        | zero => simpa using h
        | succ j =>
          have := h1 j (by simpa using hj)
          rw [show i + (j + 1) = i + 1 + j by omega, this]; simp
      · rw [List.length_cons, show ∀ k, i + (k + 1) = i + 1 + k by intro k; omega]
        exact h2 (by simpa using hl)

/-- **C93** `orders_from_meta` returns the orders that are listed in the header as `ORDER_0`, `ORDER_1`, ... up
to the first number that is missing. -/
theorem C93_reads (hdr : List (String × ℤ)) : ListsOrders hdr (ordersFromMeta hdr) := by
  obtain ⟨h1, h2, h3⟩ := ordersLoop_spec hdr hdr.length 0
  simp only [Nat.zero_add] at h1 h2
  refine ⟨h1, ?_⟩
  by_cases hl : (ordersLoop hdr hdr.length 0).length < hdr.length
  · exact h2 hl
  · have he : (ordersLoop hdr hdr.length 0).length = hdr.length := by omega
    by_contra hne
    have hk : ∀ i < hdr.length + 1, (hdr.lookup (orderKey i)).isSome := by
      intro i hi
      rcases (by omega : i < hdr.length ∨ i = hdr.length) with h | h
      · rw [h1 i (by omega), List.getElem?_eq_getElem (by omega)]; rfl
      · subst h
        rw [← he]
        exact Option.isSome_iff_ne_none.2 hne
    have := keys_bound hk
    omega

theorem listsOrders_unique {hdr : List (String × ℤ)} {a b : List ℤ} (ha : ListsOrders hdr a) (hb : ListsOrders hdr b) :
    a = b := by
  have hl : ∀ {a b : List ℤ}, ListsOrders hdr a → ListsOrders hdr b → a.length ≤ b.length := by
    intro a b ha hb
    by_contra h
    have h1 := ha.1 b.length (by omega)
    rw [hb.2, List.getElem?_eq_getElem (by omega)] at h1
    cases h1
  have he := le_antisymm (hl ha hb) (hl hb ha)
  refine List.ext_getElem? fun i => ?_
  by_cases hi : i < a.length
  · rw [← ha.1 i hi, ← hb.1 i (by omega)]
  · rw [List.getElem?_eq_none (by omega), List.getElem?_eq_none (by omega)]

theorem writeOrders_lookup : ∀ (orders : List ℤ) (i : ℕ) (hdr : List (String × ℤ)) (k : String),
    (∀ j, j < orders.length → k ≠ orderKey (i + j)) → (writeOrders i orders hdr).lookup k = hdr.lookup k
  | [], _, _, _, _ => rfl
  | o :: os, i, hdr, k, h => by
    rw [writeOrders, writeOrders_lookup os (i + 1) _ k, dictSet_lookup, if_neg]
    · simpa using h 0 (by simp)
    · intro j hj
      rw [show i + 1 + j = i + (j + 1) by omega]
      exact h (j + 1) (by simpa using hj)

theorem writeOrders_get : ∀ (orders : List ℤ) (i : ℕ) (hdr : List (String × ℤ)) (j : ℕ), j < orders.length →
    (writeOrders i orders hdr).lookup (orderKey (i + j)) = orders[j]?
  | [], _, _, j, h => by simp at h
  | o :: os, i, hdr, 0, _ => by
    rw [writeOrders, writeOrders_lookup os (i + 1) _ _ (fun j _ h => by have := orderKey_inj h; omega), dictSet_lookup]
    simp
  | o :: os, i, hdr, j + 1, h => by
    rw [writeOrders, show i + (j + 1) = i + 1 + j by omega, writeOrders_get os (i + 1) _ j (by simpa using h)]
    simp

/-- **C93** Orders written to a header are read back, if the header does not already list more orders than
that; other keywords keep their values. -/
theorem C93_round_trip_partial (hdr : List (String × ℤ)) (orders : List ℤ)
    (hnew : hdr.lookup ("ORDER_" ++ toString orders.length) = none) :
    ordersFromMeta (writeOrders 0 orders hdr) = orders ∧
    ∀ k : String, (∀ i : ℕ, k ≠ "ORDER_" ++ toString i) → (writeOrders 0 orders hdr).lookup k = hdr.lookup k := by
  refine ⟨listsOrders_unique (C93_reads _) ⟨fun i hi => ?_, ?_⟩, fun k hk => ?_⟩
  · have := writeOrders_get orders 0 hdr i hi
    rwa [Nat.zero_add] at this
  · rw [writeOrders_lookup orders 0 hdr _ ?_]
    · exact hnew
    · intro j hj h
      have := orderKey_inj (i := orders.length) (j := 0 + j) h
      omega
  · exact writeOrders_lookup orders 0 hdr k fun j _ => hk _

/-- A header with another keyword and without orders. -/
example : ordersFromMeta (writeOrders 0 [-2, -1, 0] [("EXPOSURE", 100)]) = [-2, -1, 0] :=
  (C93_round_trip_partial _ _ (by decide +kernel)).1

/-- **C93** Writing a shorter list over a longer one leaves the rest of the old list in the header: then
orders are read that were never analysed. -/
theorem C93_stale_orders_false :
    ¬ ∀ (hdr : List (String × ℤ)) (orders : List ℤ), ordersFromMeta (writeOrders 0 orders hdr) = orders := by
  intro h
  have h1 := h (writeOrders 0 [1, 2, 3] []) [5]
  have hl : ListsOrders (writeOrders 0 [5] (writeOrders 0 [1, 2, 3] [])) [5, 2, 3] := by
    have e : ∀ i j : ℕ, (orderKey i = orderKey j) = (i = j) := fun i j => propext ⟨orderKey_inj, fun h => h ▸ rfl⟩
    constructor
    · intro i hi
      change List.lookup (orderKey i) _ = _
      simp only [writeOrders, dictSet_lookup, e]
      rcases (by simp at hi; omega : i = 0 ∨ i = 1 ∨ i = 2) with rfl | rfl | rfl <;> simp
    · change List.lookup (orderKey 3) _ = _
      simp only [writeOrders, dictSet_lookup, e]
      simp
  rw [listsOrders_unique (C93_reads _) hl] at h1
  simp at h1

end Marxs
