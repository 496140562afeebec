import Mathlib.Tactic
import Verif.Model.OgipFiles
import Verif.Model.Osip
import Verif.Model.ArcusArf

/-!
# C117: names of ARF and RMF files
-/

namespace Marxs

/-! ## Numbers as strings -/

theorem digits_no {n : ℕ} {ch : Char} (h : ch.isDigit = false) : ch ∉ Nat.toDigits 10 n := by
  intro hm
  rw [Nat.isDigit_of_mem_toDigits (by decide) (by decide) hm] at h
  exact absurd h (by decide)

theorem digits_inj {n m : ℕ} (h : Nat.toDigits 10 n = Nat.toDigits 10 m) : n = m := by
  rw [← Nat.ofDigitChars_ten_toDigits (n := n), h, Nat.ofDigitChars_ten_toDigits]

theorem plusRepr_toList (n : ℤ) :
    (plusRepr n).toList = (if n < 0 then '-' else '+') :: Nat.toDigits 10 n.natAbs := by
  unfold plusRepr; split <;> simp

theorem intRepr_toList (n : ℤ) :
    (intRepr n).toList = if n < 0 then '-' :: Nat.toDigits 10 n.natAbs
      else Nat.toDigits 10 n.natAbs := by
  unfold intRepr; split <;> simp

theorem plusRepr_inj {n m : ℤ} (h : plusRepr n = plusRepr m) : n = m := by
  have h2 := congrArg String.toList h
  rw [plusRepr_toList, plusRepr_toList, List.cons.injEq] at h2
  have := digits_inj h2.2
  have h1 := h2.1
  by_cases a : n < 0 <;> by_cases b : m < 0 <;> simp [a, b] at h1 <;> omega

theorem intRepr_inj {n m : ℤ} (h : intRepr n = intRepr m) : n = m := by
  have h2 := congrArg String.toList h
  rw [intRepr_toList, intRepr_toList] at h2
  have no : ∀ k : ℕ, '-' ∉ Nat.toDigits 10 k := fun k => digits_no (by decide)
  by_cases a : n < 0 <;> by_cases b : m < 0 <;> simp only [a, b, if_true, if_false] at h2
  · rw [List.cons.injEq] at h2; have := digits_inj h2.2; omega
  · exact absurd (h2 ▸ List.mem_cons_self) (no _)
  · exact absurd (h2.symm ▸ List.mem_cons_self) (no _)
  · have := digits_inj h2; omega

theorem plusRepr_no {n : ℤ} {ch : Char} (h : ch.isDigit = false) (h1 : ch ≠ '-') (h2 : ch ≠ '+') :
    ch ∉ (plusRepr n).toList := by
  rw [plusRepr_toList]
  simp only [List.mem_cons, not_or]
  refine ⟨?_, digits_no h⟩
  split <;> assumption

theorem intRepr_no {n : ℤ} {ch : Char} (h : ch.isDigit = false) (h1 : ch ≠ '-') :
    ch ∉ (intRepr n).toList := by
  rw [intRepr_toList]
  split
  · simp only [List.mem_cons, not_or]; exact ⟨h1, digits_no h⟩
  · exact digits_no h

/-- What stands before the first separator is unique. -/
theorem sep_inj {α : Type} (c : α) {a a' b b' : List α} (h : a ++ c :: b = a' ++ c :: b')
    (ha : c ∉ a) (ha' : c ∉ a') : a = a' ∧ b = b' := by
  induction a generalizing a' with
  | nil =>
    cases a' with
    | nil => simpa using h
    | cons x a' => simp at h ha'; exact absurd h.1 ha'.1
  | cons x a ih =>
    cases a' with
    | nil => simp at h ha; exact absurd h.1.symm ha.1
    | cons y a' =>
      simp only [List.cons_append, List.cons.injEq] at h
      simp only [List.mem_cons, not_or] at ha ha'
      obtain ⟨h1, h2⟩ := ih h.2 ha.2 ha'.2
      exact ⟨by rw [h.1, h1], h2⟩

/-! ## Names -/

/-- The strings for one and for two orders determine the orders (and the ending of the name). -/
theorem name_one {s s' ft ft' : String} (hs : '.' ∉ s.toList) (hs' : '.' ∉ s'.toList)
    (h : "_" ++ s ++ "." ++ ft = "_" ++ s' ++ "." ++ ft') : s = s' ∧ ft = ft' := by
  have h2 := congrArg String.toList h
  simp only [String.toList_append] at h2
  have e : "_".toList = ['_'] := rfl
  have e2 : ".".toList = ['.'] := rfl
  rw [e, e2] at h2
  simp only [List.cons_append, List.nil_append, List.append_assoc, List.cons.injEq, true_and] at h2
  obtain ⟨h3, h4⟩ := sep_inj '.' h2 hs hs'
  exact ⟨String.toList_inj.1 h3, String.toList_inj.1 h4⟩

theorem name_two {s s' t t' ft ft' : String} (hs : '_' ∉ s.toList) (hs' : '_' ∉ s'.toList)
    (ht : '.' ∉ t.toList) (ht' : '.' ∉ t'.toList)
    (h : "_ccdord_" ++ s ++ "_true_" ++ t ++ "." ++ ft =
      "_ccdord_" ++ s' ++ "_true_" ++ t' ++ "." ++ ft') : s = s' ∧ t = t' ∧ ft = ft' := by
  have h2 := congrArg String.toList h
  simp only [String.toList_append] at h2
  have e : "_ccdord_".toList = ['_', 'c', 'c', 'd', 'o', 'r', 'd', '_'] := rfl
  have e2 : ".".toList = ['.'] := rfl
  have e3 : "_true_".toList = ['_', 't', 'r', 'u', 'e', '_'] := rfl
  rw [e, e2, e3] at h2
  simp only [List.cons_append, List.nil_append, List.append_assoc, List.cons.injEq, true_and] at h2
  obtain ⟨h3, h4⟩ := sep_inj '_' h2 hs hs'
  simp only [List.cons.injEq, true_and] at h4
  obtain ⟨h5, h6⟩ := sep_inj '.' h4 ht ht'
  exact ⟨String.toList_inj.1 h3, String.toList_inj.1 h5, String.toList_inj.1 h6⟩

/-- **C117** Two files for single orders have the same name only if order and ending agree. -/
theorem C117_orders (ft ft' : String) (kw kw' : String → Option KwVal) (o o' : ℤ) (s : String)
    (h1 : kw "CCDORDER" = none) (h2 : kw "ORDER" = some (.int o))
    (h1' : kw' "CCDORDER" = none) (h2' : kw' "ORDER" = some (.int o'))
    (h : ogipFilename ft kw = .ok s) (h' : ogipFilename ft' kw' = .ok s) : o = o' ∧ ft = ft' := by
  simp only [ogipFilename, h1, h2, h1', h2', Except.ok.injEq, KwVal.signed] at h h'
  obtain ⟨a, b⟩ := name_one (plusRepr_no (by decide) (by decide) (by decide))
    (plusRepr_no (by decide) (by decide) (by decide)) (h.trans h'.symm)
  exact ⟨plusRepr_inj a, b⟩

/-- **C117** Two files for order-sorted spectra have the same name only if nominal order, true order and
ending agree. -/
theorem C117_ccd_orders (ft ft' : String) (kw kw' : String → Option KwVal) (c t c' t' : ℤ) (s : String)
    (h1 : kw "CCDORDER" = some (.int c)) (h2 : kw "TRUEORD" = some (.int t))
    (h1' : kw' "CCDORDER" = some (.int c')) (h2' : kw' "TRUEORD" = some (.int t'))
    (h : ogipFilename ft kw = .ok s) (h' : ogipFilename ft' kw' = .ok s) :
    c = c' ∧ t = t' ∧ ft = ft' := by
  simp only [ogipFilename, h1, h2, h1', h2', Except.ok.injEq, KwVal.signed] at h h'
  obtain ⟨a, b, d⟩ := name_two (plusRepr_no (by decide) (by decide) (by decide))
    (plusRepr_no (by decide) (by decide) (by decide)) (plusRepr_no (by decide) (by decide) (by decide))
    (plusRepr_no (by decide) (by decide) (by decide)) (h.trans h'.symm)
  exact ⟨plusRepr_inj a, plusRepr_inj b, d⟩

/-- **C117** A file for a single order and a file for an order-sorted spectrum never have the same
name. -/
theorem C117_kinds (ft ft' : String) (kw kw' : String → Option KwVal) (o : ℤ) (c t : KwVal) (s s' : String)
    (h1 : kw "CCDORDER" = none) (h2 : kw "ORDER" = some (.int o))
    (h1' : kw' "CCDORDER" = some c) (h2' : kw' "TRUEORD" = some t)
    (h : ogipFilename ft kw = .ok s) (h' : ogipFilename ft' kw' = .ok s') : s ≠ s' := by
  simp only [ogipFilename, h1, h2, h1', h2', Except.ok.injEq, KwVal.signed] at h h'
  intro he
  rw [← h, ← h'] at he
  have h3 := congrArg String.toList he
  simp only [String.toList_append] at h3
  have e : "_".toList = ['_'] := rfl
  have e2 : "_ccdord_".toList = ['_', 'c', 'c', 'd', 'o', 'r', 'd', '_'] := rfl
  rw [e, e2, plusRepr_toList] at h3
  simp only [List.cons_append, List.nil_append, List.cons.injEq, true_and] at h3
  have h4 := h3.1
  split at h4 <;> exact absurd h4 (by decide)

/-- **C117** Exactly when the keywords that make up the name are missing there is a `KeyError`. -/
theorem C117_missing (ft : String) (kw : String → Option KwVal) :
    (ogipFilename ft kw = .error .keyError ↔
      ((kw "CCDORDER").isSome ∧ kw "TRUEORD" = none) ∨ (kw "CCDORDER" = none ∧ kw "ORDER" = none)) ∧
    (arcusFilename ft kw = .error .keyError ↔
      kw "ARCCHAN" = none ∨ ogipFilename ft kw = .error .keyError) := by
  constructor
  · unfold ogipFilename
    cases kw "CCDORDER" <;> cases kw "TRUEORD" <;> cases kw "ORDER" <;> simp
  · unfold arcusFilename
    cases kw "ARCCHAN" <;> cases h : ogipFilename ft kw <;> simp

/-- **C117** Names of Arcus files: if the names agree, the channels agree (`'all'` is short for
`'1111'`) and so does the rest of the name. -/
theorem C117_arcus (ft ft' : String) (kw kw' : String → Option KwVal) (ch ch' s : String)
    (h1 : kw "ARCCHAN" = some (.str ch)) (h1' : kw' "ARCCHAN" = some (.str ch'))
    (hch : '_' ∉ ch.toList ∧ ch ≠ "all") (hch' : '_' ∉ ch'.toList ∧ ch' ≠ "all")
    (h : arcusFilename ft kw = .ok s) (h' : arcusFilename ft' kw' = .ok s) :
    ch = ch' ∧ ogipFilename ft kw = ogipFilename ft' kw' := by
  have first : ∀ (ft : String) (kw : String → Option KwVal) (r : String), ogipFilename ft kw = .ok r →
      ∃ l, r.toList = '_' :: l := by
    intro ft kw r hr
    have e : "_".toList = ['_'] := rfl
    have e2 : "_ccdord_".toList = ['_', 'c', 'c', 'd', 'o', 'r', 'd', '_'] := rfl
    unfold ogipFilename at hr
    split at hr <;> split at hr <;> simp only [Except.ok.injEq, reduceCtorEq] at hr
    all_goals
      rw [← hr]; simp only [String.toList_append]
      first | rw [e2] | rw [e]
      simp only [List.cons_append]
      exact ⟨_, rfl⟩
  have noall : '_' ∉ "all".toList := by decide
  have cn : ∀ c : String, '_' ∉ c.toList → '_' ∉ (chanName (.str c)).toList := by
    intro c hc; simp only [chanName]; split
    · exact noall
    · exact hc
  unfold arcusFilename at h h'
  simp only [h1, h1'] at h h'
  cases hr : ogipFilename ft kw with
  | error e => simp [hr] at h
  | ok r =>
    cases hr' : ogipFilename ft' kw' with
    | error e => simp [hr'] at h'
    | ok r' =>
      simp only [hr, hr', Except.ok.injEq] at h h'
      have he := congrArg String.toList (h.trans h'.symm)
      obtain ⟨l, hl⟩ := first ft kw r hr
      obtain ⟨l', hl'⟩ := first ft' kw' r' hr'
      simp only [String.toList_append, List.append_assoc] at he
      have he2 := List.append_cancel_left he
      rw [hl, hl'] at he2
      obtain ⟨a, b⟩ := sep_inj '_' he2 (cn ch hch.1) (cn ch' hch'.1)
      constructor
      · have := String.toList_inj.1 a
        simp only [chanName] at this
        split at this <;> split at this
        · simp_all
        · exact absurd this.symm hch'.2
        · exact absurd this hch.2
        · exact this
      · rw [Except.ok.injEq]
        apply String.toList_inj.1
        rw [hl, hl', b]

/-- **C117** The channel keyword of `mkarf` has one character for each optical axis, `1` if it is used and `0` if not; it has no underscore and is not `'all'`; two lists of channels
with the same keyword select the same channels. -/
theorem C117_channel_keyword (names chs chs' : List String) :
    (∀ (i : ℕ) (n : String), names[i]? = some n →
      (n ∈ chs → (arcChan names chs).toList[i]? = some '1') ∧ (n ∉ chs → (arcChan names chs).toList[i]? = some '0')) ∧
    '_' ∉ (arcChan names chs).toList ∧ arcChan names chs ≠ "all" ∧
    (arcChan names chs = arcChan names chs' → ∀ n ∈ names, (n ∈ chs ↔ n ∈ chs')) := by
  have hmem : ∀ x ∈ (arcChan names chs).toList, x = '1' ∨ x = '0' := by
    intro x hx
    simp only [arcChan, String.toList_ofList, List.mem_map] at hx
    obtain ⟨n, _, rfl⟩ := hx
    split
    · exact Or.inl rfl
    · exact Or.inr rfl
  refine ⟨?_, ?_, ?_, ?_⟩
  · intro i n hi
    simp only [arcChan, String.toList_ofList, List.getElem?_map, hi, Option.map_some]
    exact ⟨fun h => by simp [h], fun h => by simp [h]⟩
  · intro h; rcases hmem _ h with h | h <;> exact absurd h (by decide)
  · intro h
    have : 'a' ∈ (arcChan names chs).toList := by rw [h]; decide
    rcases hmem _ this with h | h <;> exact absurd h (by decide)
  · intro h n hn
    have h2 := congrArg String.toList h
    simp only [arcChan, String.toList_ofList] at h2
    have h3 := List.map_inj_left.1 h2 n hn
    by_cases a : n ∈ chs <;> by_cases b : n ∈ chs' <;> simp [a, b] at h3 ⊢

/-! ## Files written by `apply_osip` -/

theorem osipOut_eq (outroot : String) (kw : String → Option KwVal) (m order : ℤ) :
    osipOutName ogipFilename outroot kw m order =
      .ok (outroot ++ ("_ccdord_" ++ intRepr order ++ "_true_" ++ intRepr m ++ "." ++ "arf")) := by
  simp [osipOutName, ogipFilename, osipHeader, KwVal.signed]

/-- **C117** All files written in one run of `apply_osip_all` have different names (if no order and no
offset is listed twice), whatever else is in the headers, so that none overwrites another. -/
theorem C117_run (orders offsets : List ℤ) (ho : orders.Nodup) (ht : offsets.Nodup) (outroot : String)
    (kw : ℤ → ℤ → String → Option KwVal) :
    ((osipJobs orders offsets).map fun j =>
      osipOutName ogipFilename outroot (kw j.1 j.2) j.2 j.1).Nodup := by
  rw [List.nodup_map_iff_inj_on]
  · rintro ⟨o, m⟩ _ ⟨o', m'⟩ _ he
    simp only [osipOut_eq, Except.ok.injEq] at he
    have h2 := congrArg String.toList he
    simp only [String.toList_append, List.append_assoc] at h2
    have h3 := List.append_cancel_left h2
    have h4 : "_ccdord_" ++ intRepr o ++ "_true_" ++ intRepr m ++ "." ++ "arf" =
        "_ccdord_" ++ intRepr o' ++ "_true_" ++ intRepr m' ++ "." ++ "arf" := by
      apply String.toList_inj.1
      simp only [String.toList_append, List.append_assoc]
      exact h3
    obtain ⟨a, b, _⟩ := name_two (intRepr_no (by decide) (by decide)) (intRepr_no (by decide) (by decide))
      (intRepr_no (by decide) (by decide)) (intRepr_no (by decide) (by decide)) h4
    rw [intRepr_inj a, intRepr_inj b]
  · unfold osipJobs
    rw [List.nodup_flatMap]
    constructor
    · intro o _
      apply List.Nodup.map
      · intro a b h; simp at h; exact h
      · exact ht.filter _
    · refine List.Nodup.pairwise_of_forall_ne ho ?_
      intro a _ b _ hab
      simp only [Function.onFun, List.disjoint_left]
      rintro ⟨x, y⟩ h1 h2
      simp only [List.mem_map, Prod.mk.injEq] at h1 h2
      obtain ⟨_, _, e1, _⟩ := h1
      obtain ⟨_, _, e2, _⟩ := h2
      exact hab (e1.trans e2.symm)

/-- **C117** With the same prefix, the files written never overwrite an input file. -/
theorem C117_inputs_kept (root : String) (kw kw' : String → Option KwVal) (h : kw' "CCDORDER" = none)
    (m order t : ℤ) (s s' : String)
    (h1 : osipOutName ogipFilename root kw m order = .ok s)
    (h2 : osipInName ogipFilename root kw' t = .ok s') : s ≠ s' := by
  rw [osipOut_eq, Except.ok.injEq] at h1
  simp only [osipInName, ogipFilename, h, if_true, if_false, reduceCtorEq, String.reduceEq, KwVal.signed,
    Except.ok.injEq] at h2
  intro he
  rw [← h1, ← h2] at he
  have h3 := congrArg String.toList he
  simp only [String.toList_append, List.append_assoc] at h3
  have h4 := List.append_cancel_left h3
  have e : "_".toList = ['_'] := rfl
  have e2 : "_ccdord_".toList = ['_', 'c', 'c', 'd', 'o', 'r', 'd', '_'] := rfl
  rw [e, e2, plusRepr_toList] at h4
  simp only [List.cons_append, List.nil_append, List.cons.injEq, true_and] at h4
  have h5 := h4.1
  split at h5 <;> exact absurd h5 (by decide)

theorem plus_eq_int (n : ℤ) : plusRepr n = intRepr n ↔ n < 0 := by
  constructor
  · intro h
    by_contra hn
    have h2 := congrArg String.toList h
    rw [plusRepr_toList, intRepr_toList] at h2
    simp only [hn, if_false] at h2
    have : '+' ∈ Nat.toDigits 10 n.natAbs := h2 ▸ List.mem_cons_self
    exact absurd this (digits_no (by decide))
  · intro h; simp [plusRepr, intRepr, h]

/-- **C117, disagreement** `apply_osip` puts strings without a plus sign into the header, so the file it
writes is found under the name computed from the orders as numbers (as in the README written by
`write_readme`) if and only if both orders are negative. -/
theorem C117_osip_name_false (outroot : String) (kw : String → Option KwVal) (m order : ℤ) (s s' : String)
    (h : osipOutName ogipFilename outroot kw m order = .ok s)
    (h' : ogipFilename "arf" (fun k => if k = "TRUEORD" then some (.int m)
      else if k = "CCDORDER" then some (.int order) else kw k) = .ok s') :
    s = outroot ++ s' ↔ m < 0 ∧ order < 0 := by
  rw [osipOut_eq, Except.ok.injEq] at h
  simp only [ogipFilename, if_true, if_false, reduceCtorEq, String.reduceEq, KwVal.signed,
    Except.ok.injEq] at h'
  rw [← h, ← h']
  constructor
  · intro he
    have h2 := congrArg String.toList he
    simp only [String.toList_append, List.append_assoc] at h2
    have h3 := List.append_cancel_left h2
    have h4 : "_ccdord_" ++ intRepr order ++ "_true_" ++ intRepr m ++ "." ++ "arf" =
        "_ccdord_" ++ plusRepr order ++ "_true_" ++ plusRepr m ++ "." ++ "arf" := by
      apply String.toList_inj.1
      simp only [String.toList_append, List.append_assoc]
      exact h3
    obtain ⟨a, b, _⟩ := name_two (intRepr_no (by decide) (by decide))
      (plusRepr_no (by decide) (by decide) (by decide)) (intRepr_no (by decide) (by decide))
      (plusRepr_no (by decide) (by decide) (by decide)) h4
    exact ⟨(plus_eq_int m).1 b.symm, (plus_eq_int order).1 a.symm⟩
  · rintro ⟨hm, ho⟩
    rw [(plus_eq_int m).2 hm, (plus_eq_int order).2 ho]

example : osipOutName ogipFilename "" (fun _ => none) 4 5 = .ok "_ccdord_5_true_4.arf" := by
  decide

example : ogipFilename "arf" (fun k => if k = "TRUEORD" then some (.int 4)
      else if k = "CCDORDER" then some (.int 5) else none) = .ok "_ccdord_+5_true_+4.arf" := by
  decide

example : arcusFilename "arf" (fun k => if k = "ARCCHAN" then some (.str "1111")
      else if k = "ORDER" then some (.int (-4)) else none) = .ok "chan_all_-4.arf" := by
  decide

example : osipJobs [-5, -6] [-1, 0, 1] = [(-5, -6), (-5, -5), (-5, -4), (-6, -7), (-6, -6), (-6, -5)] := by
  decide

end Marxs
