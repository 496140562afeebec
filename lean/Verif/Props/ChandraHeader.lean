import Mathlib.Tactic
import Verif.Spec.ChandraHeader

/-!
# C190: header of tables with LSF parameters for Chandra
-/

namespace Marxs

theorem shellOf_none {e : String} : shellOf e = none ↔ e ≠ "MEG" ∧ e ≠ "HEG" ∧ e ≠ "LEG" := by
  unfold shellOf; split_ifs with h1 h2 h3 <;> simp_all

/-- **C190** The function works if and only if everything it needs is there; the only exception is a `KeyError`. -/
theorem C190_success (tab evt : StrMeta) : ((addChandraHeader tab evt).2 = none ↔ HeaderReady tab evt) ∧
    ((addChandraHeader tab evt).2 = none ∨ (addChandraHeader tab evt).2 = some .keyError) := by
  unfold addChandraHeader HeaderReady
  rcases h1 : tab "EXTNAME" with _ | ext
  · simp
  rcases h2 : evt "DetectorType" with _ | det
  · simp
  rcases h3 : evt "GratingType" with _ | g
  · simp
  rcases h4 : shellOf ext with _ | sh
  · have := shellOf_none.1 h4
    simp [h4, this]
  have h5 : ext = "MEG" ∨ ext = "HEG" ∨ ext = "LEG" := by
    by_contra hc
    simp only [not_or] at hc
    rw [shellOf_none.2 hc] at h4
    cases h4
  rcases h6 : tab "ORDER" with _ | o
  · simp [h4]
  rcases h7 : tab "RAND_TG" with _ | r
  · simp [h4]
  rcases h8 : tab "TG_M" with _ | m <;> simp [h4, h5]

/-- **C190** Only keywords of Chandra are written, whether or not there is an exception. -/
theorem C190_others (tab evt : StrMeta) (k : String) (hk : k ∉ chandraKeys) : (addChandraHeader tab evt).1 k = tab k := by
  simp only [chandraKeys, List.mem_cons, List.not_mem_nil, or_false, not_or] at hk
  unfold addChandraHeader
  rcases tab "EXTNAME" with _ | ext
  · simp
  rcases evt "DetectorType" with _ | det
  · simp [StrMeta.set, hk]
  rcases evt "GratingType" with _ | g
  · simp [StrMeta.set, hk]
  rcases hs : shellOf ext with _ | sh
  · simp [StrMeta.set, hk, hs]
  rcases tab "ORDER" with _ | o
  · simp [StrMeta.set, hk, hs]
  rcases tab "RAND_TG" with _ | r
  · simp [StrMeta.set, hk, hs]
  rcases tab "TG_M" with _ | m <;> simp [StrMeta.set, hk, hs]

/-- **C190** The values of the keywords. -/
theorem C190_values (tab evt : StrMeta) (ext det g o r m : String) (h1 : tab "EXTNAME" = some ext) (h2 : evt "DetectorType" = some det) (h3 : evt "GratingType" = some g)
    (h4 : tab "ORDER" = some o) (h5 : tab "RAND_TG" = some r) (h6 : tab "TG_M" = some m) (hs : (addChandraHeader tab evt).2 = none) :
    ∃ shell : String, (ext = "MEG" ∧ shell = "1100" ∨ ext = "HEG" ∧ shell = "0011" ∨ ext = "LEG" ∧ shell = "1111") ∧
      ∀ k v, (k, v) ∈ [("CDES0001", ext ++ " line spread function, input for mkgrmf"), ("DETNAM", det), ("CVSD0001", "1999-07-22T00:00:00"), ("CVST0001", "00:00:00"),
        ("TELESCOP", "CHANDRA"), ("FILTER", "NONE"), ("GRATING", g), ("GRATTYPE", if g = "HETG" then ext else ""), ("SHELL", shell), ("CBD10001", "ORDER(" ++ o ++ ")"),
        ("CBD20001", "RAND_TG(" ++ r ++ ")"), ("CBD30001", "SHELL(" ++ shell ++ ")"), ("CBO10001", "GRATING(" ++ g ++ ")"),
        ("CBO20001", "GRATTYPE(" ++ (if g = "HETG" then ext else "") ++ ")"), ("CBO30001", "TG_M(" ++ m ++ ")")] → (addChandraHeader tab evt).1 k = some v := by
  rcases hsh : shellOf ext with _ | sh
  · simp [addChandraHeader, h1, h2, h3, hsh] at hs
  refine ⟨sh, ?_, ?_⟩
  · unfold shellOf at hsh
    split_ifs at hsh with a b c <;> simp_all
  · intro k v hkv
    simp only [List.mem_cons, Prod.mk.injEq, List.not_mem_nil, or_false] at hkv
    simp only [addChandraHeader, h1, h2, h3, h4, h5, h6, hsh]
    rcases hkv with h | h | h | h | h | h | h | h | h | h | h | h | h | h | h <;> obtain ⟨rfl, rfl⟩ := h <;> simp [StrMeta.set]

/-- **C190** The instrument is the part of the name of the detector before the first dash, or the whole name if there is no dash. -/
theorem C190_instrument (tab evt : StrMeta) (a b : List Char) (ha : '-' ∉ a) (hs : (addChandraHeader tab evt).2 = none)
    (hd : evt "DetectorType" = some (String.ofList (a ++ '-' :: b)) ∨ evt "DetectorType" = some (String.ofList a)) :
    (addChandraHeader tab evt).1 "INSTRUME" = some (String.ofList a) := by
  have hall : ∀ x ∈ a, (decide (x ≠ '-')) = true := fun x hx => by
    simp only [decide_eq_true_eq]; rintro rfl; exact ha hx
  have e1 : beforeDash (String.ofList (a ++ '-' :: b)) = String.ofList a := by
    simp only [beforeDash, String.toList_ofList]
    rw [List.takeWhile_append_of_pos hall]
    simp
  have e2 : beforeDash (String.ofList a) = String.ofList a := by
    simp only [beforeDash, String.toList_ofList]
    have := List.takeWhile_append_of_pos (l₂ := []) hall
    simp only [List.append_nil, List.takeWhile_nil] at this
    rw [this]
  obtain ⟨det, h2, hb⟩ : ∃ det, evt "DetectorType" = some det ∧ beforeDash det = String.ofList a := by
    rcases hd with h | h
    · exact ⟨_, h, e1⟩
    · exact ⟨_, h, e2⟩
  obtain ⟨hx, h4, h5, h6, -, h3⟩ := (C190_success tab evt).1.1 hs
  obtain ⟨o, h4⟩ := Option.isSome_iff_exists.1 h4
  obtain ⟨r, h5⟩ := Option.isSome_iff_exists.1 h5
  obtain ⟨m, h6⟩ := Option.isSome_iff_exists.1 h6
  obtain ⟨g, h3⟩ := Option.isSome_iff_exists.1 h3
  rcases hx with hx | hx | hx <;> simp [addChandraHeader, hx, h2, h3, h4, h5, h6, hb, shellOf, StrMeta.set]

/-- **C190** To add the header a second time makes no difference. -/
theorem C190_twice (tab evt : StrMeta) (hs : (addChandraHeader tab evt).2 = none) : addChandraHeader (addChandraHeader tab evt).1 evt = addChandraHeader tab evt := by
  obtain ⟨hx, h4, h5, h6, h2, h3⟩ := (C190_success tab evt).1.1 hs
  obtain ⟨o, h4⟩ := Option.isSome_iff_exists.1 h4
  obtain ⟨r, h5⟩ := Option.isSome_iff_exists.1 h5
  obtain ⟨m, h6⟩ := Option.isSome_iff_exists.1 h6
  obtain ⟨g, h3⟩ := Option.isSome_iff_exists.1 h3
  obtain ⟨det, h2⟩ := Option.isSome_iff_exists.1 h2
  obtain ⟨ext, h1, sh, h7⟩ : ∃ ext, tab "EXTNAME" = some ext ∧ ∃ sh, shellOf ext = some sh := by
    rcases hx with hx | hx | hx <;> exact ⟨_, hx, _, rfl⟩
  have e : ∀ t : StrMeta, t "EXTNAME" = some ext → t "ORDER" = some o → t "RAND_TG" = some r → t "TG_M" = some m → (∀ k, k ∉ chandraKeys → t k = tab k) →
      addChandraHeader t evt = addChandraHeader tab evt := by
    intro t t1 t4 t5 t6 ht
    simp only [addChandraHeader, h1, h2, h3, h4, h5, h6, h7, t1, t4, t5, t6, Prod.mk.injEq, and_true]
    funext k
    by_cases hk : k ∈ chandraKeys
    · simp only [chandraKeys, List.mem_cons, List.not_mem_nil, or_false] at hk
      rcases hk with h | h | h | h | h | h | h | h | h | h | h | h | h | h | h | h <;> subst h <;> simp [StrMeta.set]
    · have := ht k hk
      simp only [chandraKeys, List.mem_cons, List.not_mem_nil, or_false, not_or] at hk
      simp [StrMeta.set, hk, this]
  exact e _ (by rw [C190_others _ _ _ (by decide), h1]) (by rw [C190_others _ _ _ (by decide), h4]) (by rw [C190_others _ _ _ (by decide), h5]) (by rw [C190_others _ _ _ (by decide), h6])
    (fun k hk => C190_others _ _ k hk)

/-- A header for which everything is there. -/
def exHeader : StrMeta := fun k => if k = "EXTNAME" then some "MEG" else if k = "ORDER" then some "1" else if k = "RAND_TG" then some "0" else if k = "TG_M" then some "-1" else none

/-- Header of events of ACIS-S with the HETG. -/
def exEvt : StrMeta := fun k => if k = "DetectorType" then some (String.ofList ['A', 'C', 'I', 'S', '-', 'S']) else if k = "GratingType" then some "HETG" else none

example : HeaderReady exHeader exEvt ∧ (addChandraHeader exHeader exEvt).2 = none ∧ (addChandraHeader exHeader exEvt).1 "INSTRUME" = some (String.ofList ['A', 'C', 'I', 'S']) := by
  have h : HeaderReady exHeader exEvt := by simp [HeaderReady, exHeader, exEvt]
  have hs := (C190_success _ _).1.2 h
  exact ⟨h, hs, C190_instrument _ _ ['A', 'C', 'I', 'S'] ['S'] (by simp) hs (.inl rfl)⟩

/-- **C190** An exception leaves the table with part of the new header: a table for an unknown grating is marked as one of Chandra although the function failed. -/
theorem C190_exception_false : ¬ ∀ (tab evt : StrMeta), (addChandraHeader tab evt).2 ≠ none → (addChandraHeader tab evt).1 = tab := by
  intro h
  have := congrFun (h (fun k => if k = "EXTNAME" then some "CAT" else none) exEvt (by simp [addChandraHeader, exEvt, shellOf])) "TELESCOP"
  simp [addChandraHeader, exEvt, shellOf, StrMeta.set] at this

end Marxs
