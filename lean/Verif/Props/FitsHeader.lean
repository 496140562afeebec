import Verif.Spec.FitsHeader
import Mathlib.Data.List.Perm.Basic
import Mathlib.Data.List.Nodup
import Mathlib.Tactic.NormNum

/-!
# Properties C129 and C130: headers of Chandra files and the order of columns
-/

namespace Marxs
open Classical

theorem lookup_none {h : FHdr} {k : String} : h.lookup k = none ↔ k ∉ h.map Prod.fst := by
  induction h with
  | nil => simp
  | cons e h ih =>
    obtain ⟨k', v⟩ := e
    rw [List.lookup_cons]
    by_cases hk : k = k'
    · subst hk; simp
    · have : (k == k') = false := by simpa using hk
      simp only [this, Bool.cond_false, ih, List.map_cons, List.mem_cons, hk, false_or]

theorem lookup_append' (h g : FHdr) (k : String) : (h ++ g).lookup k = (h.lookup k).or (g.lookup k) := by
  induction h with
  | nil => simp
  | cons e h ih =>
    obtain ⟨k', v⟩ := e
    rw [List.cons_append, List.lookup_cons, List.lookup_cons]
    cases k == k' <;> simp [ih]

theorem lookup_set (h : FHdr) (k : String) (v : HVal) (k' : String) :
    (h.set k v).lookup k' = if k' = k then some v else h.lookup k' := by
  unfold FHdr.set
  split
  · next hm =>
    induction h with
    | nil => simp at hm
    | cons e h ih =>
      obtain ⟨a, w⟩ := e
      rw [List.map_cons, List.lookup_cons, List.lookup_cons]
      by_cases ha : a = k
      · subst ha
        simp only [if_true]
        by_cases hk : k' = a
        · subst hk; simp
        · have : (k' == a) = false := by simpa using hk
          simp only [this, hk, if_false, Bool.cond_false]
          by_cases hm' : a ∈ h.map Prod.fst
          · rw [ih hm', if_neg hk]
          · congr 1
            conv_rhs => rw [← List.map_id h]
            refine List.map_congr_left fun e he => ?_
            have : e.1 ≠ a := fun h0 => hm' (h0 ▸ List.mem_map_of_mem he)
            simp [this]
      · simp only [ha, if_false]
        have hm' : k ∈ h.map Prod.fst := by
          simp only [List.map_cons, List.mem_cons] at hm
          exact hm.resolve_left fun h0 => ha h0.symm
        rw [ih hm']
        by_cases hk : k' = k
        · subst hk
          have : (k' == a) = false := by simpa using fun h0 : k' = a => ha h0.symm
          simp [this]
        · simp only [hk, if_false]
  · next hm =>
    rw [lookup_append']
    by_cases hk : k' = k
    · subst hk
      rw [lookup_none.2 hm]; simp
    · have : (k' == k) = false := by simpa using hk
      simp [List.lookup_cons, this, hk]

theorem lookup_update (l : List (String × HVal)) (h : FHdr) (k : String) :
    (updateHeader h l).lookup k = (h.lookup k).or (l.lookup k) := by
  induction l generalizing h with
  | nil => simp [updateHeader]
  | cons e l ih =>
    obtain ⟨k', v⟩ := e
    rw [updateHeader, ih, List.lookup_cons]
    by_cases hm : k' ∈ h.map Prod.fst
    · simp only [hm, if_true]
      by_cases hk : k = k'
      · subst hk
        cases hl : h.lookup k with
        | none => exact absurd hm (lookup_none.1 hl)
        | some w => simp
      · have : (k == k') = false := by simpa using hk
        simp [this]
    · simp only [hm, if_false, lookup_set]
      by_cases hk : k = k'
      · subst hk
        rw [lookup_none.2 hm]; simp
      · have : (k == k') = false := by simpa using hk
        simp [this, hk]

/-- What `complete_header` does, when it gets that far. -/
theorem completeHeader_cases (c : Clock) (h : FHdr) (content : Content) (hdu : HduClass) :
    ((completeHeader c h content hdu).1 = h ∧ ∃ e, (completeHeader c h content hdu).2 = .error e) ∨
    ∃ s h1, content = .str s ∧ completeCC h s hdu = .ok h1 ∧
      ((∃ e, completeT c h1 = ((completeHeader c h content hdu).1, .error e) ∧ (completeHeader c h content hdu).2 = .error e) ∨
       (completeT c h1 = ((completeHeader c h content hdu).1, .ok ()) ∧
         (completeHeader c h content hdu) = completeO (completeHeader c h content hdu).1)) := by
  cases content with
  | list l => left; exact ⟨rfl, _, rfl⟩
  | str s =>
    simp only [completeHeader]
    split
    · next h' e hr =>
      left
      split at hr
      · simp only [addEvtColumnHeader, Prod.mk.injEq] at hr
        exact ⟨hr.1.symm, e, rfl⟩
      · simp at hr
    · next h' hr =>
      split at hr
      · simp [addEvtColumnHeader] at hr
      · simp only [Prod.mk.injEq] at hr
        obtain ⟨rfl, _⟩ := hr
        cases hcc : completeCC h s hdu with
        | error e => left; exact ⟨rfl, e, rfl⟩
        | ok h1 =>
          right
          refine ⟨s, h1, rfl, hcc, ?_⟩
          simp only
          cases ht : completeT c h1 with
          | mk h2 r =>
            cases r with
            | error e => left; exact ⟨e, rfl, rfl⟩
            | ok u =>
              right
              have : (completeO h2).1 = h2 := by
                simp only [completeO]; split <;> rfl
              simp [this]

theorem completeT_cases (c : Clock) (h : FHdr) :
    (∃ e, completeT c h = (h, .error e) ∧ h.number "EXPOSURE" = .error e) ∨
    ∃ ex, h.number "EXPOSURE" = .ok ex ∧
      ((∃ e, completeT c h = (updateHeader h (timeKeys c ex), .error e)) ∨
       ∃ s com t, (updateHeader h (timeKeys c ex)).item "DATE-OBS" = .ok com ∧ com.first = .ok (.str s) ∧ c.parse s = some t ∧
         completeT c h = ((((updateHeader h (timeKeys c ex)).set "TSTART" (.pair (.num t) "As in the TIME column: raw space craft clock;")).set
          "TSTOP" (.pair (.num (t + ex)) "  add TIMEZERO and MJDREF for absolute TT")).set "OBS-MJD" (.num (c.mjd t)), .ok ())) := by
  simp only [completeT]
  cases h1 : h.number "EXPOSURE" with
  | error e => left; exact ⟨e, rfl, rfl⟩
  | ok ex =>
    right
    refine ⟨ex, rfl, ?_⟩
    simp only
    cases h2 : (updateHeader h (timeKeys c ex)).item "DATE-OBS" with
    | error e => left; exact ⟨e, rfl⟩
    | ok com =>
      cases h3 : com.first with
      | error e => left; exact ⟨e, by simp [Except.bind, h3]⟩
      | ok v =>
        simp only [Except.bind, h3]
        cases v with
        | str s =>
          cases h4 : c.parse s with
          | none => left; exact ⟨.valueError, by simp [h4]⟩
          | some t => right; exact ⟨s, com, t, rfl, h3, h4, by simp [h4]⟩
        | num x => left; exact ⟨_, rfl⟩
        | bool x => left; exact ⟨_, rfl⟩
        | pair x y => left; exact ⟨_, rfl⟩
        | none => left; exact ⟨_, rfl⟩

/-- **C129** Completing a header never changes the value of a keyword that is already set, except for the three redundant keywords for the
time; this also holds when an exception is raised. -/
theorem C129_keeps (c : Clock) (h : FHdr) (content : Content) (hdu : HduClass) (k : String) (v : HVal) (hk : h.lookup k = some v)
    (hr : k ∉ redundantTime) : (completeHeader c h content hdu).1.lookup k = some v := by
  have hr' : k ≠ "TSTART" ∧ k ≠ "TSTOP" ∧ k ≠ "OBS-MJD" := by simpa [redundantTime] using hr
  rcases completeHeader_cases c h content hdu with ⟨h1, _⟩ | ⟨s, h1, rfl, hcc, ht⟩
  · rw [h1, hk]
  · have hk1 : h1.lookup k = some v := by
      simp only [completeCC] at hcc
      split at hcc
      · simp at hcc
      · simp only [Except.ok.injEq] at hcc
        rw [← hcc, lookup_update, hk]; rfl
    have key : ∀ h2 r, completeT c h1 = (h2, r) → h2.lookup k = some v := by
      intro h2 r h2e
      rcases completeT_cases c h1 with ⟨e, e1, _⟩ | ⟨ex, _, ⟨e, e1⟩ | ⟨s, com, t, _, _, _, e1⟩⟩
      · rw [e1, Prod.mk.injEq] at h2e; rw [← h2e.1, hk1]
      · rw [e1, Prod.mk.injEq] at h2e; rw [← h2e.1, lookup_update, hk1]; rfl
      · rw [e1, Prod.mk.injEq] at h2e
        rw [← h2e.1, lookup_set, lookup_set, lookup_set, lookup_update, hk1]
        simp only [hr'.1, hr'.2.1, hr'.2.2, if_false]; rfl
    rcases ht with ⟨e, h2, _⟩ | ⟨h2, _⟩
    · exact key _ _ h2
    · exact key _ _ h2

theorem lookup_isSome {h : FHdr} {k : String} (hk : k ∈ h.map Prod.fst) : ∃ v, h.lookup k = some v := by
  cases hl : h.lookup k with
  | none => exact absurd hk (lookup_none.1 hl)
  | some v => exact ⟨v, rfl⟩

theorem required_time (c : Clock) (ex : ℝ) (k : String) (hk : k ∈ requiredKeys) (h1 : k ∉ ["OBS-MJD", "TSTOP", "TSTART"])
    (h2 : k ∉ ["ORIGIN", "HDUDOC", "CONTENT", "HDUNAME"]) : k ∈ (timeKeys c ex).map Prod.fst := by
  have e : (timeKeys c ex).map Prod.fst = ["DATE", "DATE-OBS", "DATE-END", "TIMESYS", "MJDREF", "TIMEZERO", "TIMEUNIT", "BTIMNULL",
      "BTIMRATE", "BTIMDRFT", "BTIMCORR", "TIMEREF", "TASSIGN", "CLOCKAPP", "TIERRELA", "TIERABSO", "TIMVERSN", "TIMEPIXR", "TIMEDEL"] := rfl
  rw [e]
  revert h1 h2
  revert k
  decide

/-- **C129** (partial: without the keywords about the observation, see `C129_observation_false`.) When the header is complete all required
keywords are set, `CONTENT` and the classes as asked for. The start is the time in `DATE-OBS` (that in the header, if there was one), and the stop is
later by the exposure time. -/
theorem C129_complete_partial (c : Clock) (h : FHdr) (s : String) (hdu : HduClass)
    (hok : (completeHeader c h (.str s) hdu).2 = .ok ()) :
    (∀ k ∈ requiredKeys, ∃ v, (completeHeader c h (.str s) hdu).1.lookup k = some v) ∧
    (h.lookup "CONTENT" = none → (completeHeader c h (.str s) hdu).1.lookup "CONTENT" = some (.str s)) ∧
    (h.lookup "HDUNAME" = none → (completeHeader c h (.str s) hdu).1.lookup "HDUNAME" = h.lookup "EXTNAME") ∧
    (∀ (i : ℕ) (k n : String), ["HDUCLASS", "HDUCLAS1", "HDUCLAS2", "HDUCLAS3"][i]? = some k → hdu.items[i]? = some n → h.lookup k = none →
      (completeHeader c h (.str s) hdu).1.lookup k = some (.str n)) ∧
    ∃ ex comment date d t, h.lookup "EXPOSURE" = some (.pair (.num ex) comment) ∧
      (completeHeader c h (.str s) hdu).1.lookup "DATE-OBS" = some date ∧ date.first = .ok (.str d) ∧ c.parse d = some t ∧
      (∃ com, (completeHeader c h (.str s) hdu).1.lookup "TSTART" = some (.pair (.num t) com)) ∧
      (∃ com, (completeHeader c h (.str s) hdu).1.lookup "TSTOP" = some (.pair (.num (t + ex)) com)) ∧
      (completeHeader c h (.str s) hdu).1.lookup "OBS-MJD" = some (.num (c.mjd t)) := by
  rcases completeHeader_cases c h (.str s) hdu with ⟨_, e, h2⟩ | ⟨s', h1, hs, hcc, ⟨e, _, h2⟩ | ⟨ht, _⟩⟩
  · rw [hok] at h2; exact absurd h2 (by simp)
  · rw [hok] at h2; exact absurd h2 (by simp)
  simp only [Content.str.injEq] at hs
  subst hs
  set r := (completeHeader c h (.str s) hdu).1 with hr
  rcases completeT_cases c h1 with ⟨e, e1, _⟩ | ⟨ex, hex, ⟨e, e1⟩ | ⟨d, date, t, hda, hfi, hpa, e1⟩⟩
  · rw [e1, Prod.mk.injEq] at ht; exact absurd ht.2 (by simp)
  · rw [e1, Prod.mk.injEq] at ht; exact absurd ht.2 (by simp)
  rw [e1, Prod.mk.injEq] at ht
  have hL : ∀ k, r.lookup k = if k = "OBS-MJD" then some (.num (c.mjd t)) else
      if k = "TSTOP" then some (.pair (.num (t + ex)) "  add TIMEZERO and MJDREF for absolute TT") else
      if k = "TSTART" then some (.pair (.num t) "As in the TIME column: raw space craft clock;") else
      (h1.lookup k).or ((timeKeys c ex).lookup k) := by
    intro k; rw [← ht.1, lookup_set, lookup_set, lookup_set, lookup_update]
  obtain ⟨ext, hext⟩ : ∃ ext, h.lookup "EXTNAME" = some ext := by
    simp only [completeCC, FHdr.item] at hcc
    cases hl : h.lookup "EXTNAME" with
    | none => simp [hl] at hcc
    | some v => exact ⟨v, rfl⟩
  have hC : ∀ k, h1.lookup k = (h.lookup k).or (List.lookup k ([("ORIGIN", .str "ASC"),
      ("HDUDOC", .str "ASC-FITS-2.0: Rots, McDowell: ASC FITS File Designers Guide"), ("CONTENT", .str s), ("HDUNAME", ext)] ++
      (["HDUCLASS", "HDUCLAS1", "HDUCLAS2", "HDUCLAS3"].zip hdu.items).map fun e => (e.1, HVal.str e.2))) := by
    intro k
    simp only [completeCC, FHdr.item, hext, Except.ok.injEq] at hcc
    rw [← hcc, lookup_update]
  refine ⟨?_, ?_, ?_, ?_, ?_⟩
  · intro k hk
    by_cases h1k : k = "OBS-MJD" ∨ k = "TSTOP" ∨ k = "TSTART"
    · rw [hL]
      rcases h1k with rfl | rfl | rfl <;> simp
    · simp only [not_or] at h1k
      rw [hL]
      simp only [h1k.1, h1k.2.1, h1k.2.2, if_false]
      by_cases hkk : k ∈ ["ORIGIN", "HDUDOC", "CONTENT", "HDUNAME"]
      · have : ∃ v, h1.lookup k = some v := by
          rw [hC, lookup_append']
          cases h.lookup k with
          | some v => exact ⟨v, rfl⟩
          | none =>
            simp only [List.mem_cons, List.not_mem_nil, or_false] at hkk
            rcases hkk with rfl | rfl | rfl | rfl <;> simp [List.lookup]
        obtain ⟨v, hv⟩ := this
        exact ⟨v, by rw [hv]; rfl⟩
      · have : ∃ v, (timeKeys c ex).lookup k = some v := by
          apply lookup_isSome
          exact required_time c ex k hk (by simp [h1k.1, h1k.2.1, h1k.2.2]) hkk
        obtain ⟨v, hv⟩ := this
        cases h1.lookup k with
        | some w => exact ⟨w, rfl⟩
        | none => exact ⟨v, by rw [hv]; rfl⟩
  · intro hn
    rw [hL, hC, hn]; simp [List.lookup]
  · intro hn
    rw [hL, hC, hn, hext]; simp [List.lookup]
  · intro i k n hk hn hnone
    have hz : List.lookup k ((["HDUCLASS", "HDUCLAS1", "HDUCLAS2", "HDUCLAS3"].zip hdu.items).map fun e => (e.1, HVal.str e.2)) = some (.str n) := by
      generalize hdu.items = l at hn
      match i, l, hn with
      | 0, a :: l, hn => simp at hk hn; subst hk; subst hn; simp [List.lookup]
      | 1, a :: b :: l, hn => simp at hk hn; subst hk; subst hn; simp [List.lookup]
      | 2, a :: b :: c :: l, hn => simp at hk hn; subst hk; subst hn; simp [List.lookup]
      | 3, a :: b :: c :: d :: l, hn => simp at hk hn; subst hk; subst hn; simp [List.lookup]
      | n + 4, l, hn => simp at hk
    have hki : k = "HDUCLASS" ∨ k = "HDUCLAS1" ∨ k = "HDUCLAS2" ∨ k = "HDUCLAS3" := by
      have := List.mem_of_getElem? hk
      simpa using this
    rw [hL, hC, hnone, lookup_append', hz]
    rcases hki with rfl | rfl | rfl | rfl <;> simp [List.lookup]
  · have hex' : ∃ com, h1.lookup "EXPOSURE" = some (.pair (.num ex) com) := by
      simp only [FHdr.number, FHdr.item] at hex
      cases hl : h1.lookup "EXPOSURE" with
      | none => simp [hl] at hex
      | some v =>
        simp only [hl] at hex
        cases v with
        | pair v com =>
          simp only [HVal.first] at hex
          cases v with
          | num x => simp only [Except.ok.injEq] at hex; subst hex; exact ⟨com, rfl⟩
          | _ => simp at hex
        | str s =>
          simp only [HVal.first] at hex
          revert hex
          cases s.toList <;> simp
        | _ => simp [HVal.first] at hex
    obtain ⟨com, hcom⟩ := hex'
    have hhe : h.lookup "EXPOSURE" = some (.pair (.num ex) com) := by
      rw [hC] at hcom
      cases hl : h.lookup "EXPOSURE" with
      | some v => rw [hl] at hcom; exact hcom
      | none =>
        rw [hl, lookup_append'] at hcom
        exfalso
        have hno : "EXPOSURE" ∉ ((["HDUCLASS", "HDUCLAS1", "HDUCLAS2", "HDUCLAS3"].zip hdu.items).map fun e => (e.1, HVal.str e.2)).map Prod.fst := by
          intro hm
          rw [List.map_map, List.mem_map] at hm
          obtain ⟨e, he1, he2⟩ := hm
          have := (List.of_mem_zip he1).1
          simp only [Function.comp] at he2
          rw [he2] at this
          simp at this
        rw [lookup_none.2 hno] at hcom
        simp [List.lookup] at hcom
    refine ⟨ex, com, date, d, t, hhe, ?_, hfi, hpa, ⟨"As in the TIME column: raw space craft clock;", by rw [hL]; simp⟩,
      ⟨"  add TIMEZERO and MJDREF for absolute TT", by rw [hL]; simp⟩, by rw [hL]; simp⟩
    rw [hL]
    simp only [FHdr.item, lookup_update] at hda
    simp only [show ("DATE-OBS" : String) ≠ "OBS-MJD" by decide, show ("DATE-OBS" : String) ≠ "TSTOP" by decide,
      show ("DATE-OBS" : String) ≠ "TSTART" by decide, if_false]
    revert hda
    cases (h1.lookup "DATE-OBS").or ((timeKeys c ex).lookup "DATE-OBS") with
    | none => simp
    | some v => simp

/-- **C129** (times): where the header does not say otherwise, the file is dated with the present time, which is also the start of the observation, the observation
ends after the exposure time, and times count from the start of the clock of Chandra, MJD 50814, in terrestrial time. -/
theorem C129_times (c : Clock) (h : FHdr) (s : String) (hdu : HduClass) (hok : (completeHeader c h (.str s) hdu).2 = .ok ())
    (ex : ℝ) (comment : String) (hex : h.lookup "EXPOSURE" = some (.pair (.num ex) comment)) :
    (∀ k ∈ ["DATE", "DATE-OBS"], h.lookup k = none →
      ∃ com, (completeHeader c h (.str s) hdu).1.lookup k = some (.pair (.str (String.ofList ((c.fits c.now).toList.take 23))) com)) ∧
    (h.lookup "DATE-END" = none →
      ∃ com, (completeHeader c h (.str s) hdu).1.lookup "DATE-END" = some (.pair (.str (String.ofList ((c.fits (c.now + ex)).toList.take 23))) com)) ∧
    (h.lookup "MJDREF" = none → ∃ com, (completeHeader c h (.str s) hdu).1.lookup "MJDREF" = some (.pair (.num 50814) com)) ∧
    (h.lookup "TIMESYS" = none → ∃ com, (completeHeader c h (.str s) hdu).1.lookup "TIMESYS" = some (.pair (.str "TT") com)) ∧
    (h.lookup "TIMEUNIT" = none → (completeHeader c h (.str s) hdu).1.lookup "TIMEUNIT" = some (.str "s")) ∧
    (h.lookup "TIMEZERO" = none → ∃ com, (completeHeader c h (.str s) hdu).1.lookup "TIMEZERO" = some (.pair (.num 0) com)) ∧
    (h.lookup "TIMEDEL" = none → ∃ com, (completeHeader c h (.str s) hdu).1.lookup "TIMEDEL" = some (.pair (.num 3.241) com)) := by
  rcases completeHeader_cases c h (.str s) hdu with ⟨_, e, h2⟩ | ⟨s', h1, hs, hcc, ⟨e, _, h2⟩ | ⟨ht, _⟩⟩
  · rw [hok] at h2; exact absurd h2 (by simp)
  · rw [hok] at h2; exact absurd h2 (by simp)
  simp only [Content.str.injEq] at hs
  subst hs
  set r := (completeHeader c h (.str s) hdu).1 with hr
  rcases completeT_cases c h1 with ⟨e, e1, _⟩ | ⟨ex', hex', ⟨e, e1⟩ | ⟨d, date, t, hda, hfi, hpa, e1⟩⟩
  · rw [e1, Prod.mk.injEq] at ht; exact absurd ht.2 (by simp)
  · rw [e1, Prod.mk.injEq] at ht; exact absurd ht.2 (by simp)
  rw [e1, Prod.mk.injEq] at ht
  have hkeep : ∀ k v, h.lookup k = some v → h1.lookup k = some v := by
    intro k v hk
    simp only [completeCC] at hcc
    split at hcc
    · simp at hcc
    · simp only [Except.ok.injEq] at hcc
      rw [← hcc, lookup_update, hk]; rfl
  have hee : ex' = ex := by
    simp only [FHdr.number, FHdr.item, hkeep _ _ hex, HVal.first, Except.ok.injEq] at hex'
    exact hex'.symm
  subst hee
  have hnone : ∀ k, h.lookup k = none → k ∉ ["ORIGIN", "HDUDOC", "CONTENT", "HDUNAME", "HDUCLASS", "HDUCLAS1", "HDUCLAS2", "HDUCLAS3"] →
      h1.lookup k = none := by
    intro k hk hno
    simp only [completeCC] at hcc
    split at hcc
    · simp at hcc
    · simp only [Except.ok.injEq] at hcc
      rw [← hcc, lookup_update, hk, Option.none_or, lookup_none]
      intro hm
      rw [List.map_append, List.mem_append] at hm
      rw [show ["ORIGIN", "HDUDOC", "CONTENT", "HDUNAME", "HDUCLASS", "HDUCLAS1", "HDUCLAS2", "HDUCLAS3"] =
        ["ORIGIN", "HDUDOC", "CONTENT", "HDUNAME"] ++ ["HDUCLASS", "HDUCLAS1", "HDUCLAS2", "HDUCLAS3"] from rfl, List.mem_append, not_or] at hno
      rcases hm with hm | hm
      · exact hno.1 hm
      · rw [List.map_map, List.mem_map] at hm
        obtain ⟨e, he1, he2⟩ := hm
        have := (List.of_mem_zip he1).1
        simp only [Function.comp] at he2
        rw [he2] at this
        exact hno.2 this
  have hL : ∀ k, k ∉ ["OBS-MJD", "TSTOP", "TSTART"] → h1.lookup k = none → r.lookup k = (timeKeys c ex').lookup k := by
    intro k hk hn
    simp only [List.mem_cons, List.not_mem_nil, or_false, not_or] at hk
    rw [← ht.1, lookup_set, lookup_set, lookup_set, lookup_update]
    simp only [hk.1, hk.2.1, hk.2.2, if_false, hn, Option.none_or]
  refine ⟨?_, ?_, ?_, ?_, ?_, ?_, ?_⟩
  · intro k hk hn
    simp only [List.mem_cons, List.not_mem_nil, or_false] at hk
    rcases hk with rfl | rfl
    · rw [hL _ (by simp) (hnone _ hn (by simp))]
      exact ⟨_, rfl⟩
    · rw [hL _ (by simp) (hnone _ hn (by simp))]
      exact ⟨_, rfl⟩
  all_goals intro hn; rw [hL _ (by simp) (hnone _ hn (by simp))]; first | exact ⟨_, rfl⟩ | rfl

/-- **C129** A header without `EXTNAME` is refused and stays as it is. Without `EXPOSURE` there is an exception, too, but then the keywords for
configuration control are already in the header. -/
theorem C129_needs (c : Clock) (h : FHdr) (s : String) (hdu : HduClass) (hs : ¬ IsEventContent s) :
    (h.lookup "EXTNAME" = none → completeHeader c h (.str s) hdu = (h, .error .keyError)) ∧
    (∀ v, h.lookup "EXTNAME" = some v → h.lookup "EXPOSURE" = none →
      (completeHeader c h (.str s) hdu).2 = .error .keyError ∧
      ∃ w, (completeHeader c h (.str s) hdu).1.lookup "ORIGIN" = some w) := by
  constructor
  · intro hn
    unfold IsEventContent at hs
    simp [completeHeader, hs, completeCC, FHdr.item, hn]
  · intro v hv hn
    obtain ⟨h1, hh1⟩ : ∃ h1, completeCC h s hdu = .ok h1 := by
      simp [completeCC, FHdr.item, hv]
    have hL := hh1
    simp only [completeCC, FHdr.item, hv, Except.ok.injEq] at hL
    have hE : h1.lookup "EXPOSURE" = none := by
      rw [← hL, lookup_update, hn, Option.none_or, lookup_none, List.map_append, List.mem_append, not_or]
      refine ⟨by simp, ?_⟩
      intro hm
      rw [List.map_map, List.mem_map] at hm
      obtain ⟨e, he1, he2⟩ := hm
      have := (List.of_mem_zip he1).1
      simp only [Function.comp] at he2
      rw [he2] at this
      simp at this
    have hT : completeT c h1 = (h1, .error .keyError) := by
      simp [completeT, FHdr.number, FHdr.item, hE]
    have hall : completeHeader c h (.str s) hdu = (h1, .error .keyError) := by
      unfold IsEventContent at hs
      simp [completeHeader, hs, hh1, hT]
    refine ⟨by rw [hall], ?_⟩
    rw [hall, ← hL, lookup_update, lookup_append']
    cases h.lookup "ORIGIN" with
    | some w => exact ⟨w, rfl⟩
    | none => exact ⟨.str "ASC", by simp [List.lookup]⟩

/-- **C129** (negation) The keywords about the observation are never added, although the function is documented to complete the header:
one that was missing is missing afterwards. -/
theorem C129_observation_false (c : Clock) (h : FHdr) (content : Content) (hdu : HduClass) (k : String) (hk : k ∈ observationKeys)
    (hn : h.lookup k = none) : (completeHeader c h content hdu).1.lookup k = none := by
  have hobs : k ∉ ["ORIGIN", "HDUDOC", "CONTENT", "HDUNAME", "HDUCLASS", "HDUCLAS1", "HDUCLAS2", "HDUCLAS3", "OBS-MJD", "TSTOP", "TSTART"] ∧
      k ∉ ["DATE", "DATE-OBS", "DATE-END", "TIMESYS", "MJDREF", "TIMEZERO", "TIMEUNIT", "BTIMNULL",
      "BTIMRATE", "BTIMDRFT", "BTIMCORR", "TIMEREF", "TASSIGN", "CLOCKAPP", "TIERRELA", "TIERABSO", "TIMVERSN", "TIMEPIXR", "TIMEDEL"] := by
    revert hk
    clear hn
    revert k
    decide
  have ht : ∀ ex, (timeKeys c ex).lookup k = none := fun ex => lookup_none.2 hobs.2
  rcases completeHeader_cases c h content hdu with ⟨h1, _⟩ | ⟨s, h1, rfl, hcc, hT⟩
  · rw [h1, hn]
  · have hk1 : h1.lookup k = none := by
      simp only [completeCC] at hcc
      split at hcc
      · simp at hcc
      · simp only [Except.ok.injEq] at hcc
        rw [← hcc, lookup_update, hn, Option.none_or, lookup_none, List.map_append, List.mem_append, not_or]
        constructor
        · intro hm
          simp only [List.map_cons, List.map_nil, List.mem_cons, List.not_mem_nil, or_false] at hm
          exact hobs.1 (by rcases hm with rfl | rfl | rfl | rfl <;> simp)
        · intro hm
          rw [List.map_map, List.mem_map] at hm
          obtain ⟨e, he1, he2⟩ := hm
          have h3 := (List.of_mem_zip he1).1
          simp only [Function.comp] at he2
          rw [he2] at h3
          simp only [List.mem_cons, List.not_mem_nil, or_false] at h3
          exact hobs.1 (by rcases h3 with rfl | rfl | rfl | rfl <;> simp)
    have key : ∀ h2 r, completeT c h1 = (h2, r) → h2.lookup k = none := by
      intro h2 r h2e
      rcases completeT_cases c h1 with ⟨e, e1, _⟩ | ⟨ex, _, ⟨e, e1⟩ | ⟨s, com, t, _, _, _, e1⟩⟩
      · rw [e1, Prod.mk.injEq] at h2e; rw [← h2e.1, hk1]
      · rw [e1, Prod.mk.injEq] at h2e; rw [← h2e.1, lookup_update, hk1, ht]; rfl
      · rw [e1, Prod.mk.injEq] at h2e
        have h0 := hobs.1
        simp only [List.mem_cons, List.not_mem_nil, or_false, not_or] at h0
        rw [← h2e.1, lookup_set, lookup_set, lookup_set, lookup_update, hk1, ht]
        simp [h0]
    rcases hT with ⟨e, h2, _⟩ | ⟨h2, _⟩
    · exact key _ _ h2
    · exact key _ _ h2

/-- **C129** (negation) With its default for `content` (a list) completing a header always fails, and so does the content of an event list,
without a change to the header. -/
theorem C129_default_false (c : Clock) (h : FHdr) (content : Content) (hdu : HduClass)
    (hc : (∃ l, content = .list l) ∨ ∃ s, content = .str s ∧ IsEventContent s) :
    completeHeader c h content hdu = (h, .error .attributeError) := by
  rcases hc with ⟨l, rfl⟩ | ⟨s, rfl, hs⟩
  · rfl
  · unfold IsEventContent at hs
    simp [completeHeader, hs, addEvtColumnHeader]

/-- **C129** (negation) The default for `hduclass` is a string, and each keyword is set to one of its letters. -/
theorem C129_hduclass_false (c : Clock) (h : FHdr) (s : String) (hok : (completeHeader c h (.str s)).2 = .ok ())
    (hn : ∀ k ∈ ["HDUCLASS", "HDUCLAS1", "HDUCLAS2", "HDUCLAS3"], h.lookup k = none) :
    (["HDUCLASS", "HDUCLAS1", "HDUCLAS2", "HDUCLAS3"].map fun k => (completeHeader c h (.str s)).1.lookup k) =
      ["U", "N", "K", "N"].map fun l => some (HVal.str l) := by
  have hp := (C129_complete_partial c h s (.str "UNKNOWN") hok).2.2.2.1
  have hi : (HduClass.str "UNKNOWN").items = ["U", "N", "K", "N", "O", "W", "N"] := by
    simp [HduClass.items]
  have h0 := hp 0 "HDUCLASS" "U" rfl (by rw [hi]; rfl) (hn _ (by simp))
  have h1 := hp 1 "HDUCLAS1" "N" rfl (by rw [hi]; rfl) (hn _ (by simp))
  have h2 := hp 2 "HDUCLAS2" "K" rfl (by rw [hi]; rfl) (hn _ (by simp))
  have h3 := hp 3 "HDUCLAS3" "N" rfl (by rw [hi]; rfl) (hn _ (by simp))
  simp only [List.map_cons, List.map_nil, h0, h1, h2, h3]

/-- **C129** (negation) An event list is never written: `write_evt` always raises an exception. By then the header has been marked as an extension `EVENTS`
and, where possible, the columns for the position on the sky have been renamed. -/
theorem C129_write_evt_false (c : Clock) (h : FHdr) (cols : List String) :
    (∃ e, (writeEvt c h cols).2 = .error e) ∧ (writeEvt c h cols).1.1 = h.set "EXTNAME" (.str "EVENTS") ∧
    ("ra" ∈ cols → "dec" ∈ cols → "marxs_ra" ∉ cols → "marxs_dec" ∉ cols →
      (writeEvt c h cols).2 = .error .attributeError ∧
      (writeEvt c h cols).1.2 = cols.map fun k => if k = "ra" then "marxs_ra" else if k = "dec" then "marxs_dec" else k) := by
  have he : ∀ h, completeHeader c h (.str "EVT1") (.list ["OGIP", "EVENTS", "ALL"]) = (h, .error .attributeError) := by
    intro h
    exact C129_default_false c h _ _ (Or.inr ⟨_, rfl, by simp [IsEventContent]⟩)
  by_cases h1 : "ra" ∉ cols ∨ "marxs_ra" ∈ cols
  · have e : writeEvt c h cols = ((h.set "EXTNAME" (.str "EVENTS"), cols), .error .keyError) := by
      simp only [writeEvt, h1, if_true]
    rw [e]
    refine ⟨⟨_, rfl⟩, rfl, fun a _ b _ => ?_⟩
    exact absurd h1 (by simp [a, b])
  · by_cases h2 : "dec" ∉ (cols.map fun k => if k = "ra" then "marxs_ra" else k) ∨ "marxs_dec" ∈ (cols.map fun k => if k = "ra" then "marxs_ra" else k)
    · have e : writeEvt c h cols = ((h.set "EXTNAME" (.str "EVENTS"), cols.map fun k => if k = "ra" then "marxs_ra" else k), .error .keyError) := by
        simp only [writeEvt, h1, h2, if_true, if_false]
      rw [e]
      refine ⟨⟨_, rfl⟩, rfl, fun _ a _ b => ?_⟩
      exfalso
      rcases h2 with h2 | h2
      · exact h2 (List.mem_map.2 ⟨"dec", a, by simp⟩)
      · obtain ⟨k, hk, hk'⟩ := List.mem_map.1 h2
        by_cases hr : k = "ra"
        · simp [hr] at hk'
        · simp only [hr, if_false] at hk'; exact b (hk' ▸ hk)
    · have e : writeEvt c h cols = ((h.set "EXTNAME" (.str "EVENTS"), (cols.map fun k => if k = "ra" then "marxs_ra" else k).map
          fun k => if k = "dec" then "marxs_dec" else k), .error .attributeError) := by
        simp only [writeEvt, h1, h2, if_false, he]
      rw [e]
      refine ⟨⟨_, rfl⟩, rfl, fun _ _ _ _ => ⟨rfl, ?_⟩⟩
      simp only [List.map_map]
      refine List.map_congr_left fun k _ => ?_
      simp only [Function.comp]
      by_cases hr : k = "ra"
      · simp [hr]
      · simp [hr]

/-- The hypotheses of C129 are met: a header with exposure, extension name, and a start of the observation. -/
example : let c : Clock := ⟨0, fun _ => "now", fun s => if s = "2000-01-01" then some 5 else none, fun t => t / 86400⟩
    let h : FHdr := [("EXTNAME", .str "ASPSOL"), ("EXPOSURE", .pair (.num 10) "s"), ("DATE-OBS", .pair (.str "2000-01-01") ""), ("TSTART", .num 7)]
    (completeHeader c h (.str "ASPSOL") (.list ["OGIP"])).2 = .ok () ∧
    (completeHeader c h (.str "ASPSOL") (.list ["OGIP"])).1.lookup "TSTOP" = some (.pair (.num 15) "  add TIMEZERO and MJDREF for absolute TT") := by
  intro c h
  have hE : ¬ (['E', 'V', 'T'] <+: "ASPSOL".toList.map Char.toUpper) := by decide
  obtain ⟨h1, hh1⟩ : ∃ h1, completeCC h "ASPSOL" (.list ["OGIP"]) = .ok h1 := by
    simp [completeCC, FHdr.item, h, List.lookup]
  have hL := hh1
  simp only [completeCC, FHdr.item, show h.lookup "EXTNAME" = some (.str "ASPSOL") by simp [h, List.lookup], Except.ok.injEq] at hL
  have e1 : h1.lookup "EXPOSURE" = some (.pair (.num 10) "s") := by
    rw [← hL, lookup_update]; simp [h, List.lookup]
  have e2 : h1.lookup "DATE-OBS" = some (.pair (.str "2000-01-01") "") := by
    rw [← hL, lookup_update]; simp [h, List.lookup]
  have hn : h1.number "EXPOSURE" = .ok 10 := by simp [FHdr.number, FHdr.item, e1, HVal.first]
  have hp : c.parse "2000-01-01" = some 5 := by simp [c]
  rcases completeT_cases c h1 with ⟨e, _, h2⟩ | ⟨ex, hex, hr⟩
  · rw [hn] at h2; simp at h2
  rw [hn, Except.ok.injEq] at hex
  subst hex
  have e3 : (updateHeader h1 (timeKeys c 10)).lookup "DATE-OBS" = some (.pair (.str "2000-01-01") "") := by
    rw [lookup_update, e2]; rfl
  have hT : completeT c h1 = ((((updateHeader h1 (timeKeys c 10)).set "TSTART" (.pair (.num 5) "As in the TIME column: raw space craft clock;")).set
          "TSTOP" (.pair (.num (5 + 10)) "  add TIMEZERO and MJDREF for absolute TT")).set "OBS-MJD" (.num (c.mjd 5)), .ok ()) := by
    simp [completeT, hn, FHdr.item, e3, HVal.first, Except.bind, hp]
  have hO : ∀ g : FHdr, g.lookup "EXPOSURE" = some (.pair (.num 10) "s") → completeO g = (g, .ok ()) := by
    intro g hg; simp [completeO, FHdr.item, hg, Except.bind, HVal.first]
  have hall : completeHeader c h (.str "ASPSOL") (.list ["OGIP"]) = completeT c h1 := by
    simp only [completeHeader, List.isPrefixOf_iff_prefix, hE, if_false, hh1]
    rw [hT]
    simp only
    rw [hO]
    simp [lookup_set, lookup_update, e1]
  rw [hall, hT]
  refine ⟨rfl, ?_⟩
  simp only [lookup_set]
  have e15 : (5 : ℝ) + 10 = 15 := by norm_num
  simp [e15]

/-! ## C130: order of columns -/

theorem stem_x (s : String) : stemOf (s ++ "x") = s := by simp [stemOf]
theorem stem_y (s : String) : stemOf (s ++ "y") = s := by simp [stemOf]
theorem ends_x (s : String) : endsOn 'x' (s ++ "x") = true := by simp [endsOn]
theorem ends_y (s : String) : endsOn 'y' (s ++ "y") = true := by simp [endsOn]

theorem of_ends {c : String} {x : Char} (h : endsOn x c = true) : c = stemOf c ++ String.singleton x := by
  have h1 : c.toList.getLast? = some x := by simpa [endsOn] using h
  have h2 := List.dropLast_append_getLast? x h1
  apply String.toList_inj.1
  rw [String.toList_append]
  simp only [stemOf, String.toList_ofList, String.toList_singleton]
  exact h2.symm

theorem append_x_inj {s t : String} (h : s ++ "x" = t ++ "x") : s = t := by rw [← stem_x s, h, stem_x]
theorem append_y_inj {s t : String} (h : s ++ "y" = t ++ "y") : s = t := by rw [← stem_y s, h, stem_y]
theorem append_xy_ne {s t : String} : s ++ "x" ≠ t ++ "y" := by
  intro h
  have h1 := ends_x s
  rw [h] at h1
  simp [endsOn] at h1

theorem notPair {cols : List String} (c : String) (hx : endsOn 'x' c = false) (hy : endsOn 'y' c = false) : ¬ InXYPair cols c := by
  rintro ⟨s, rfl | rfl, _⟩
  · rw [ends_x] at hx; simp at hx
  · rw [ends_y] at hy; simp at hy

theorem moveFirst_fold (es : List String) (l acc : List String) :
    ∃ f l', es.foldl moveFirst (l, acc) = (l', acc ++ f) ∧ (f.map lowerOf).Sublist es ∧ (f ++ l').Perm l ∧
      ∀ s ∈ l', lowerOf s ∈ es → lowerOf s ∈ f.map lowerOf := by
  induction es generalizing l acc with
  | nil => exact ⟨[], l, by simp, by simp, by simp, by simp⟩
  | cons c es ih =>
    rw [List.foldl_cons]
    cases hf : l.find? (fun e => lowerOf e = c) with
    | none =>
      obtain ⟨f, l', e, hs, hp, hl⟩ := ih l acc
      refine ⟨f, l', ?_, hs.cons c, hp, ?_⟩
      · rw [← e]; simp [moveFirst, hf]
      · intro s hsl hc
        rcases List.mem_cons.1 hc with rfl | hc
        · have := List.find?_eq_none.1 hf s (hp.mem_iff.1 (List.mem_append_right _ hsl))
          simp at this
        · exact hl s hsl hc
    | some e0 =>
      obtain ⟨f, l', e, hs, hp, hl⟩ := ih (l.erase e0) (acc ++ [e0])
      have h0 : lowerOf e0 = c := by simpa using List.find?_some hf
      have hm : e0 ∈ l := List.mem_of_find?_eq_some hf
      refine ⟨e0 :: f, l', ?_, ?_, ?_, ?_⟩
      · have : moveFirst (l, acc) c = (l.erase e0, acc ++ [e0]) := by simp [moveFirst, hf]
        rw [this, e]; simp
      · rw [List.map_cons, h0]; exact hs.cons_cons c
      · rw [List.cons_append]
        exact (List.Perm.cons e0 hp).trans (List.perm_cons_erase hm).symm
      · intro s hsl hc
        rw [List.map_cons, h0]
        rcases List.mem_cons.1 hc with hc | hc
        · exact hc ▸ List.mem_cons_self
        · exact List.mem_cons_of_mem _ (hl s hsl hc)

theorem movePair_step (l acc : List String) (p : String × String) (hn : l.Nodup) (hp : p.1 ≠ p.2) :
    ∃ q l', movePair (l, acc) p = (l', acc ++ q) ∧ (q ++ l').Perm l ∧ (∀ c ∈ l, c ≠ p.1 → c ≠ p.2 → c ∈ l') ∧
      (p.1 ∈ l → p.2 ∈ l → q = [p.1, p.2]) := by
  by_cases h : p.1 ∈ l ∧ p.2 ∈ l
  · refine ⟨[p.1, p.2], l.filter fun c => ¬ (c = p.1 ∨ c = p.2), by simp only [movePair, h, and_self, if_true], ?_, ?_, fun _ _ => rfl⟩
    · rw [List.perm_ext_iff_of_nodup _ hn]
      · intro a
        simp only [List.mem_append, List.mem_cons, List.not_mem_nil, or_false, List.mem_filter, decide_eq_true_eq]
        constructor
        · rintro ((h0 | h0) | ⟨h0, _⟩)
          · exact h0 ▸ h.1
          · exact h0 ▸ h.2
          · exact h0
        · intro ha
          by_cases h0 : a = p.1 ∨ a = p.2
          · exact Or.inl h0
          · exact Or.inr ⟨ha, h0⟩
      · rw [List.nodup_append]
        refine ⟨by simpa using hp, hn.filter _, ?_⟩
        intro a ha b hb hab
        subst hab
        simp only [List.mem_filter, decide_eq_true_eq] at hb
        exact hb.2 (by simpa using ha)
    · intro c hc h1 h2
      simp [List.mem_filter, hc, h1, h2]
  · refine ⟨[], l, by simp only [movePair, h, if_false, List.append_nil], by simp, fun c hc _ _ => hc, fun h1 h2 => absurd ⟨h1, h2⟩ h⟩

theorem movePair_fold (ps : List (String × String)) (l acc : List String) (hn : l.Nodup) (hp : ∀ p ∈ ps, p.1 ≠ p.2) :
    ∃ q l', ps.foldl movePair (l, acc) = (l', acc ++ q) ∧ (q ++ l').Perm l ∧
      (∀ c ∈ l, (∀ p ∈ ps, c ≠ p.1 ∧ c ≠ p.2) → c ∈ l') ∧
      ∀ ps1 p ps2, ps = ps1 ++ p :: ps2 → p.1 ∈ l → p.2 ∈ l →
        (∀ p' ∈ ps1, p'.1 ≠ p.1 ∧ p'.1 ≠ p.2 ∧ p'.2 ≠ p.1 ∧ p'.2 ≠ p.2 ∨ p'.2 ∉ l) → DirectlyBefore q p.1 p.2 := by
  induction ps generalizing l acc with
  | nil => exact ⟨[], l, by simp, by simp, fun c hc _ => hc, fun ps1 p ps2 h => by simp at h⟩
  | cons p0 ps ih =>
    obtain ⟨q0, l0, e0, hp0, hk0, hq0⟩ := movePair_step l acc p0 hn (hp p0 List.mem_cons_self)
    have hn0 : l0.Nodup := (List.nodup_append.1 (hp0.nodup_iff.2 hn)).2.1
    obtain ⟨q, l', e, hpm, hk, hq⟩ := ih l0 (acc ++ q0) hn0 fun p h => hp p (List.mem_cons_of_mem _ h)
    refine ⟨q0 ++ q, l', by rw [List.foldl_cons, e0, e, List.append_assoc], ?_, ?_, ?_⟩
    · rw [List.append_assoc]
      exact (List.Perm.append_left q0 hpm).trans hp0
    · intro c hc hcp
      exact hk c (hk0 c hc (hcp p0 List.mem_cons_self).1 (hcp p0 List.mem_cons_self).2) fun p h => hcp p (List.mem_cons_of_mem _ h)
    · intro ps1 p ps2 hps h1 h2 hdis
      cases ps1 with
      | nil =>
        simp only [List.nil_append, List.cons.injEq] at hps
        obtain ⟨rfl, rfl⟩ := hps
        rw [hq0 h1 h2]
        exact ⟨[], q, rfl⟩
      | cons p1 ps1 =>
        simp only [List.cons_append, List.cons.injEq] at hps
        obtain ⟨rfl, rfl⟩ := hps
        have hl0 : p.1 ∈ l0 ∧ p.2 ∈ l0 := by
          rcases hdis p0 List.mem_cons_self with hd | hd
          · exact ⟨hk0 _ h1 hd.1.symm hd.2.2.1.symm, hk0 _ h2 hd.2.1.symm hd.2.2.2.symm⟩
          · have : movePair (l, acc) p0 = (l, acc) := by
              simp only [movePair, hd, and_false, if_false]
            rw [this, Prod.mk.injEq] at e0
            rw [← e0.1]; exact ⟨h1, h2⟩
        obtain ⟨a, b, hab⟩ := hq ps1 p ps2 rfl hl0.1 hl0.2 (by
          intro p' hp'
          rcases hdis p' (List.mem_cons_of_mem _ hp') with hd | hd
          · exact Or.inl hd
          · exact Or.inr fun h => hd (hp0.mem_iff.1 (List.mem_append_right _ h)))
        exact ⟨q0 ++ a, b, by rw [hab, List.append_assoc]⟩

/-- **C130** (partial: the columns of the table are never sorted, see `C130_false`; this is about the order `sort_columns` finds.)
Whatever the order in which the elements of a set are listed, each column appears exactly once. First come pairs of columns that end on x and y, x directly
before y, those for chip, tdet, det, and sky before all others. Then come the pairs with right ascension and declination, then all other columns
in alphabetical order. -/
theorem C130_order_partial (perm : List String → List String) (hperm : ∀ l, (perm l).Perm l) (cols : List String) (hn : cols.Nodup)
    (hne : "" ∉ cols) :
    ∃ ordered, orderedCols perm cols = .ok ordered ∧ ordered.Perm cols ∧
    (∀ s : String, s ++ "x" ∈ cols → s ++ "y" ∈ cols → DirectlyBefore ordered (s ++ "x") (s ++ "y")) ∧
    ("ra" ∈ cols → "dec" ∈ cols → DirectlyBefore ordered "ra" "dec") ∧
    ("RA" ∈ cols → "DEC" ∈ cols → DirectlyBefore ordered "RA" "DEC") ∧
    ("ra" ∈ cols → "de" ∈ cols → "dec" ∉ cols → DirectlyBefore ordered "ra" "de") ∧
    ∃ first more sky rest : List String, ordered = (first ++ more).flatMap (fun s => [s ++ "x", s ++ "y"]) ++ sky ++ rest ∧
      (first.map lowerOf).Sublist ["chip", "tdet", "det", ""] ∧
      (∀ s ∈ more, lowerOf s ∈ ["chip", "tdet", "det", ""] → lowerOf s ∈ first.map lowerOf) ∧
      (∀ c ∈ sky, c ∈ ["ra", "dec", "RA", "DEC", "de", "DE"]) ∧
      rest.Pairwise (· ≤ ·) ∧ (∀ c ∈ rest, ¬ InXYPair cols c) ∧
      ∀ c ∈ cols, ¬ InXYPair cols c → c ∉ ["ra", "dec", "RA", "DEC", "de", "DE"] → c ∈ rest := by
  set E := perm (((cols.filter (endsOn 'x')).map stemOf).filter fun c => c ∈ (cols.filter (endsOn 'y')).map stemOf) with hE
  have memE : ∀ s, s ∈ E ↔ s ++ "x" ∈ cols ∧ s ++ "y" ∈ cols := by
    intro s
    rw [hE, (hperm _).mem_iff, List.mem_filter, decide_eq_true_eq, List.mem_map, List.mem_map]
    constructor
    · rintro ⟨⟨a, ha, rfl⟩, ⟨b, hb, hab⟩⟩
      rw [List.mem_filter] at ha hb
      have ea := of_ends ha.2
      have eb := of_ends hb.2
      have ea' : stemOf a ++ "x" = a := ea.symm
      have eb' : stemOf b ++ "y" = b := eb.symm
      rw [ea', ← hab, eb']
      exact ⟨ha.1, hb.1⟩
    · rintro ⟨h1, h2⟩
      exact ⟨⟨_, List.mem_filter.2 ⟨h1, ends_x s⟩, stem_x s⟩, ⟨_, List.mem_filter.2 ⟨h2, ends_y s⟩, stem_y s⟩⟩
  have nodE : E.Nodup := by
    rw [hE, (hperm _).nodup_iff]
    refine List.Nodup.filter _ (List.Nodup.map_on ?_ (hn.filter _))
    intro a ha b hb hab
    rw [of_ends (List.mem_filter.1 ha).2, of_ends (List.mem_filter.1 hb).2, hab]
  set O := cols.filter fun c => c ∉ E.map (· ++ "x") ∧ c ∉ E.map (· ++ "y") with hO
  have memO : ∀ c, c ∈ O ↔ c ∈ cols ∧ ¬ InXYPair cols c := by
    intro c
    rw [hO, List.mem_filter, decide_eq_true_eq]
    refine and_congr_right fun _ => ?_
    rw [← not_or]
    refine not_congr ?_
    simp only [List.mem_map, InXYPair]
    constructor
    · rintro (⟨s, hs, rfl⟩ | ⟨s, hs, rfl⟩)
      · exact ⟨s, Or.inl rfl, (memE s).1 hs⟩
      · exact ⟨s, Or.inr rfl, (memE s).1 hs⟩
    · rintro ⟨s, rfl | rfl, hs⟩
      · exact Or.inl ⟨s, (memE s).2 hs, rfl⟩
      · exact Or.inr ⟨s, (memE s).2 hs, rfl⟩
  have nodO : O.Nodup := hn.filter _
  obtain ⟨first, more, hf, hsub, hfp, hmore⟩ := moveFirst_fold ["chip", "tdet", "det", ""] E []
  rw [List.nil_append] at hf
  obtain ⟨sky, rest, hs, hsp, hkeep, hadj⟩ := movePair_fold [("ra", "dec"), ("RA", "DEC"), ("ra", "de"), ("RA", "DE")] O
    ((first ++ more).flatMap fun c => [c ++ "x", c ++ "y"]) nodO (by simp)
  have hres : orderedCols perm cols = .ok ((first ++ more).flatMap (fun s => [s ++ "x", s ++ "y"]) ++ sky ++
      rest.mergeSort (fun a b => decide (a ≤ b))) := by
    have : orderedCols perm cols = .ok
        (([("ra", "dec"), ("RA", "DEC"), ("ra", "de"), ("RA", "DE")].foldl movePair
          (O, ((["chip", "tdet", "det", ""].foldl moveFirst (E, [])).2 ++ (["chip", "tdet", "det", ""].foldl moveFirst (E, [])).1).flatMap
            fun c => [c ++ "x", c ++ "y"])).2 ++
        ([("ra", "dec"), ("RA", "DEC"), ("ra", "de"), ("RA", "DE")].foldl movePair
          (O, ((["chip", "tdet", "det", ""].foldl moveFirst (E, [])).2 ++ (["chip", "tdet", "det", ""].foldl moveFirst (E, [])).1).flatMap
            fun c => [c ++ "x", c ++ "y"])).1.mergeSort (fun a b => decide (a ≤ b))) := by
      simp only [orderedCols, hne, if_false]
      rfl
    rw [this, hf, hs]
  refine ⟨_, hres, ?_, ?_, ?_, ?_, ?_, first, more, sky, _, rfl, hsub, hmore, ?_, ?_, ?_, ?_⟩
  · -- permutation
    have hfl : ((first ++ more).flatMap fun s => [s ++ "x", s ++ "y"]).Perm (E.flatMap fun s => [s ++ "x", s ++ "y"]) :=
      hfp.flatMap_right _
    have h2 : (sky ++ rest.mergeSort (fun a b => decide (a ≤ b))).Perm O :=
      (List.Perm.append_left sky (List.mergeSort_perm rest _)).trans hsp
    rw [List.append_assoc]
    refine (hfl.append h2).trans ?_
    rw [List.perm_ext_iff_of_nodup _ hn]
    · intro c
      rw [List.mem_append, memO, List.mem_flatMap]
      constructor
      · rintro (⟨s, hsE, hc⟩ | h)
        · have := (memE s).1 hsE
          rcases (by simpa using hc : c = s ++ "x" ∨ c = s ++ "y") with rfl | rfl
          · exact this.1
          · exact this.2
        · exact h.1
      · intro hc
        by_cases hp : InXYPair cols c
        · obtain ⟨s, hsc, hs⟩ := hp
          exact Or.inl ⟨s, (memE s).2 hs, by simpa using hsc⟩
        · exact Or.inr ⟨hc, hp⟩
    · rw [List.nodup_append]
      refine ⟨?_, nodO, ?_⟩
      · rw [List.nodup_flatMap]
        refine ⟨fun s _ => by simp [append_xy_ne], ?_⟩
        refine nodE.imp fun {a b} hab => ?_
        intro c hca hcb
        simp only [List.mem_cons, List.not_mem_nil, or_false] at hca hcb
        rcases hca with rfl | rfl <;> rcases hcb with h | h
        · exact hab (append_x_inj h)
        · exact append_xy_ne h
        · exact append_xy_ne h.symm
        · exact hab (append_y_inj h)
      · rintro a ha b hb rfl
        obtain ⟨s, hsE, hc⟩ := List.mem_flatMap.1 ha
        exact ((memO a).1 hb).2 ⟨s, by simpa using hc, (memE s).1 hsE⟩
  · intro s h1 h2
    have : s ∈ first ++ more := hfp.mem_iff.2 ((memE s).2 ⟨h1, h2⟩)
    obtain ⟨a, b, hab⟩ := List.append_of_mem this
    refine ⟨a.flatMap (fun s => [s ++ "x", s ++ "y"]), b.flatMap (fun s => [s ++ "x", s ++ "y"]) ++ sky ++
      rest.mergeSort (fun a b => decide (a ≤ b)), ?_⟩
    rw [hab]
    simp
  all_goals skip
  rotate_left 3
  · intro c hc
    by_contra hcn
    have hcO : c ∈ O := hsp.mem_iff.1 (List.mem_append_left _ hc)
    have hcr : c ∈ rest := hkeep c hcO (by
      simp only [List.mem_cons, List.not_mem_nil, or_false, not_or] at hcn
      simp [hcn])
    exact (List.nodup_append.1 (hsp.nodup_iff.2 nodO)).2.2 c hc c hcr rfl
  · have hp := List.pairwise_mergeSort (le := fun a b : String => decide (a ≤ b)) (by
      intro a b c h1 h2
      simp only [decide_eq_true_eq] at h1 h2 ⊢
      exact String.le_trans h1 h2) (by
      intro a b
      rcases String.le_total a b with h | h <;> simp [h]) rest
    simpa using hp
  · intro c hc
    have := (List.mergeSort_perm rest _).mem_iff.1 hc
    exact ((memO c).1 (hsp.mem_iff.1 (List.mem_append_right _ this))).2
  · intro c hc hcp hcn
    rw [(List.mergeSort_perm rest _).mem_iff]
    refine hkeep c ((memO c).2 ⟨hc, hcp⟩) ?_
    simp only [List.mem_cons, List.not_mem_nil, or_false, not_or] at hcn
    simp [hcn]
  all_goals
    intro h1 h2
  · obtain ⟨a, b, hab⟩ := hadj [] ("ra", "dec") _ rfl ((memO _).2 ⟨h1, notPair _ (by decide) (by decide)⟩)
      ((memO _).2 ⟨h2, notPair _ (by decide) (by decide)⟩) (by simp)
    exact ⟨(first ++ more).flatMap (fun s => [s ++ "x", s ++ "y"]) ++ a, b ++ rest.mergeSort (fun a b => decide (a ≤ b)), by rw [hab]; simp⟩
  · obtain ⟨a, b, hab⟩ := hadj [("ra", "dec")] ("RA", "DEC") _ rfl ((memO _).2 ⟨h1, notPair _ (by decide) (by decide)⟩)
      ((memO _).2 ⟨h2, notPair _ (by decide) (by decide)⟩) (by simp)
    exact ⟨(first ++ more).flatMap (fun s => [s ++ "x", s ++ "y"]) ++ a, b ++ rest.mergeSort (fun a b => decide (a ≤ b)), by rw [hab]; simp⟩
  · intro h3
    obtain ⟨a, b, hab⟩ := hadj [("ra", "dec"), ("RA", "DEC")] ("ra", "de") _ rfl ((memO _).2 ⟨h1, notPair _ (by decide) (by decide)⟩)
      ((memO _).2 ⟨h2, notPair _ (by decide) (by decide)⟩) (by
        have : "dec" ∉ O := fun h => h3 ((memO _).1 h).1
        simp [this])
    exact ⟨(first ++ more).flatMap (fun s => [s ++ "x", s ++ "y"]) ++ a, b ++ rest.mergeSort (fun a b => decide (a ≤ b)), by rw [hab]; simp⟩

/-- **C130** (negation) `sort_columns` never returns a table: it ends in an exception for every table. -/
theorem C130_false (perm : List String → List String) (cols : List String) : ∃ e, sortColumns perm cols = .error e := by
  simp only [sortColumns]
  cases orderedCols perm cols with
  | error e => exact ⟨e, rfl⟩
  | ok l => exact ⟨_, rfl⟩

/-- **C130** (negation) The order is not repeatable (although the code says so): it depends on the order in which Python lists the elements of a
set, for every two different stems that CIAO does not ask for. -/
theorem C130_repeatable_false : ∃ (perm perm' : List String → List String) (cols : List String), (∀ l, (perm l).Perm l) ∧ (∀ l, (perm' l).Perm l) ∧
    orderedCols perm cols = .ok ["ax", "ay", "bx", "by", "time"] ∧ orderedCols perm' cols = .ok ["bx", "by", "ax", "ay", "time"] := by
  refine ⟨id, List.reverse, ["ax", "ay", "bx", "by", "time"], fun l => List.Perm.refl l, fun l => List.reverse_perm l, ?_, ?_⟩ <;> decide +kernel

/-- The hypotheses of `C130_order_partial` are met, and the order is that of CIAO. -/
example : orderedCols List.reverse ["time", "x", "detx", "dec", "ra", "dety", "y", "fpx", "fpy"] =
    .ok ["detx", "dety", "x", "y", "fpx", "fpy", "ra", "dec", "time"] := by decide +kernel

end Marxs
