import Verif.Model.ChandraMeta
import Verif.Props.FitsHeader
import Mathlib.Tactic.IntervalCases

/-!
# C182: headers of Chandra simulations
-/

namespace Marxs
open Classical

/-- **C182** Mission and telescope are in the header when the elements are called; elements that leave these keywords alone deliver them, and all
other keywords that are in the header before are given to the elements unchanged. -/
theorem C182_chandra (inner : FHdr → Except Err FHdr) (h : FHdr) :
    ∃ h1 : FHdr, chandraProcess inner h = inner h1 ∧ h1.lookup "MISSION" = some (.pair (.str "AXAF") "Mission") ∧
      h1.lookup "TELESCOP" = some (.pair (.str "CHANDRA") "Telescope") ∧ ∀ k, k ≠ "MISSION" → k ≠ "TELESCOP" → h1.lookup k = h.lookup k := by
  refine ⟨_, rfl, ?_, ?_, fun k h1 h2 => ?_⟩
  · simp [lookup_set]
  · simp [lookup_set]
  · simp [lookup_set, h1, h2]

/-- **C182** After ACIS the header has the position of the instrument (aimpoint minus offset), the names of the chips and the instrument, whatever
values these keywords had before; everything else is as the chips left it. If a chip raises an exception, so does ACIS. -/
theorem C182_acis (inner : FHdr → Except Err FHdr) (aim off : V3) (chips : List ℤ) (h : FHdr) :
    (∀ e, inner h = .error e → acisProcess inner aim off chips h = .error e) ∧
    ∀ h1, inner h = .ok h1 → ∃ h2, acisProcess inner aim off chips h = .ok h2 ∧
      h2.lookup "SIM_X" = some (.num (aim.x - off.x)) ∧ h2.lookup "SIM_Y" = some (.num (aim.y - off.y)) ∧
      h2.lookup "SIM_Z" = some (.num (aim.z - off.z)) ∧ h2.lookup "DETNAM" = some (.str (detnam chips)) ∧
      h2.lookup "INSTRUME" = some (.pair (.str "ACIS") "Instrument") ∧
      ∀ k, k ∉ ["SIM_X", "SIM_Y", "SIM_Z", "DETNAM", "INSTRUME"] → h2.lookup k = h1.lookup k := by
  refine ⟨fun e he => by simp only [acisProcess, he], fun h1 hh => ?_⟩
  simp only [acisProcess, hh]
  refine ⟨_, rfl, ?_, ?_, ?_, ?_, ?_, fun k hk => ?_⟩
  all_goals try simp [lookup_set]
  simp only [List.mem_cons, List.not_mem_nil, or_false, not_or] at hk
  obtain ⟨k1, k2, k3, k4, k5⟩ := hk
  simp [k1, k2, k3, k4, k5]

theorem digit_toList (i : ℤ) (h0 : 0 ≤ i) (h9 : i ≤ 9) : ∃ c : Char, (toString i).toList = [c] ∧ c.toNat = 48 + i.toNat := by
  interval_cases i <;> exact ⟨_, rfl, rfl⟩

theorem detnam_toList (chips : List ℤ) : (detnam chips).toList = "ACIS-".toList ++ chips.flatMap fun i => (toString i).toList := by
  rw [detnam, String.toList_append, String.toList_join]
  congr 1
  rw [List.flatMap_map]

/-- **C182** For chip numbers from 0 to 9 the name in the header identifies which chips are used, and in which order. -/
theorem C182_detnam_partial (chips chips' : List ℤ) (h : ∀ i ∈ chips, 0 ≤ i ∧ i ≤ 9) (h' : ∀ i ∈ chips', 0 ≤ i ∧ i ≤ 9)
    (e : detnam chips = detnam chips') : chips = chips' := by
  have e1 := congrArg String.toList e
  rw [detnam_toList, detnam_toList, List.append_cancel_left_eq] at e1
  clear e
  induction chips generalizing chips' with
  | nil =>
    cases chips' with
    | nil => rfl
    | cons j l =>
      obtain ⟨c, hc, -⟩ := digit_toList j (h' j (by simp)).1 (h' j (by simp)).2
      rw [List.flatMap_nil, List.flatMap_cons, hc] at e1
      simp at e1
  | cons i l ih =>
    obtain ⟨c, hc, hi⟩ := digit_toList i (h i (by simp)).1 (h i (by simp)).2
    cases chips' with
    | nil =>
      rw [List.flatMap_nil, List.flatMap_cons, hc] at e1
      simp at e1
    | cons j l' =>
      obtain ⟨c', hc', hj⟩ := digit_toList j (h' j (by simp)).1 (h' j (by simp)).2
      simp only [List.flatMap_cons, hc, hc', List.singleton_append, List.cons.injEq] at e1
      obtain ⟨rfl, e2⟩ := e1
      have h1 := (h i (by simp)).1
      have h2 := (h' j (by simp)).1
      have : i = j := by omega
      rw [this, ih l' (fun k hk => h k (by simp [hk])) (fun k hk => h' k (by simp [hk])) e2]

/-- **C182** (negation) Negative numbers count from the end and are accepted, too; with these the same name can stand for different chips:
chips -1 and 0 (the last and the first one) or chip -10 (the first one only). -/
theorem C182_detnam_false {α : Type} (elements : List α) (hl : elements.length = 10) : ∃ (chips chips' : List ℤ) (es es' : List α),
    acisChips elements chips = .ok es ∧ acisChips elements chips' = .ok es' ∧ es.length = 2 ∧ es'.length = 1 ∧ detnam chips = detnam chips' := by
  match elements, hl with
  | [a, b, c, d, e, f, g, h, i, j], _ =>
    refine ⟨[-1, 0], [-10], [j, a], [a], ?_, ?_, rfl, rfl, by decide⟩ <;> simp [acisChips, bind, Except.bind]

/-- The hypotheses of `C182_detnam_partial` are met by the chips of ACIS-S, those of `C182_acis` by chips that leave the header alone. -/
example : (∀ i ∈ [(4 : ℤ), 5, 6, 7, 8, 9], 0 ≤ i ∧ i ≤ 9) ∧ detnam [4, 5, 6, 7, 8, 9] = "ACIS-456789" ∧
    (fun h : FHdr => (Except.ok h : Except Err FHdr)) [("SIM_X", .num 1)] = .ok [("SIM_X", .num 1)] := by
  refine ⟨by decide, by decide, rfl⟩

end Marxs
