import Mathlib.Tactic
import Verif.Model.OgipHeader
import Verif.Spec.OgipHeader

/-!
# C118: headers of ARF, PHA and RMF files
-/

namespace Marxs

theorem checkKeywords_ok (h : Hdr) (extra : List String) :
    (checkKeywords h extra = .ok () ↔ Identified h ∧ ∀ k ∈ extra, (h k).isSome) ∧
    (checkKeywords h extra ≠ .ok () → checkKeywords h extra = .error .formatError) := by
  unfold checkKeywords
  split
  · rename_i hk
    simp only [List.mem_append] at hk
    refine ⟨⟨fun _ => ⟨fun k hk' => hk k (Or.inl hk'), fun k hk' => hk k (Or.inr hk')⟩, fun _ => rfl⟩,
      fun h => absurd rfl h⟩
  · rename_i hk
    refine ⟨⟨by simp, ?_⟩, fun _ => rfl⟩
    rintro ⟨h1, h2⟩
    exfalso; apply hk
    intro k hk'
    rcases List.mem_append.1 hk' with h | h
    · exact h1 k h
    · exact h2 k h

theorem put_other (h : Hdr) {k k' : String} (v : KwVal) (hk : k' ≠ k) : h.put k v k' = h k' := by
  simp [Hdr.put, hk]

theorem put_same (h : Hdr) (k : String) (v : KwVal) : h.put k v k = some v := by
  simp [Hdr.put]

theorem update_other (h : Hdr) (l : List (String × KwVal)) (k : String) (hk : k ∉ l.map Prod.fst) :
    h.update l k = h k := by
  induction l generalizing h with
  | nil => rfl
  | cons p l ih =>
    simp only [List.map_cons, List.mem_cons, not_or] at hk
    rw [Hdr.update, List.foldl_cons, ← Hdr.update, ih _ hk.2, put_other _ _ hk.1]

/-- **C118** `ARF.write` writes a file if and only if the telescope is identified in the header; otherwise it
is an `OGIPFormatError`.  The file has the right classification, whatever the header said before, and all
other keywords unchanged. -/
theorem C118_arf_write (h : Hdr) :
    (Identified h → ∃ f, (arfWrite h).2 = .ok f ∧ Identified f ∧
      Classified f "SPECRESP" "1.1.0" "RESPONSE" "SPECRESP" ∧ (∀ k, k ∉ classKeys → f k = h k) ∧
      (arfWrite h).1 = f) ∧
    (¬ Identified h → (arfWrite h).2 = .error .formatError) := by
  have hid : ∀ g : Hdr, (∀ k, k ∉ classKeys → g k = h k) → (Identified g ↔ Identified h) := by
    intro g hg
    unfold Identified
    constructor <;> intro H k hk <;> have := H k hk <;>
      have e := hg k (by simp at hk; rcases hk with rfl | rfl | rfl <;> simp [classKeys])
    · rw [← e]; exact this
    · rw [e]; exact this
  set f := (arfWrite h).1 with hf
  have hother : ∀ k, k ∉ classKeys → f k = h k := by
    intro k hk
    rw [hf, arfWrite]
    exact update_other _ _ _ (by simpa [classKeys] using hk)
  have hcls : Classified f "SPECRESP" "1.1.0" "RESPONSE" "SPECRESP" := by
    rw [hf]
    refine ⟨?_, ?_, ?_, ?_, ?_⟩ <;> simp [arfWrite, Hdr.update, Hdr.put]
  have h2 : (arfWrite h).2 = match checkKeywords f [] with
    | .error e => .error e
    | .ok _ => .ok f := rfl
  obtain ⟨c1, c2⟩ := checkKeywords_ok f []
  constructor
  · intro hi
    have hfi := (hid f hother).2 hi
    have := c1.2 ⟨hfi, by simp⟩
    exact ⟨f, by rw [h2, this], hfi, hcls, hother, rfl⟩
  · intro hi
    have : checkKeywords f [] = .error .formatError := c2 (fun he => hi ((hid f hother).1 (c1.1 he).1))
    rw [h2, this]

/-- **C118, disagreement** A PHA spectrum can never be written, and never be read, as `PHAI`: the keyword
`format` is passed twice. -/
theorem C118_phai_false (cols : List String) (h : Hdr) (file : OTab) :
    ((phaiWrite cols h).2 = .error .typeError ∨ (phaiWrite cols h).2 = .error .formatError) ∧
    phaiRead file = .error .typeError := by
  refine ⟨?_, rfl⟩
  have arf : ∀ (g : Hdr) (e : Err), (arfWrite g).2 = .error e → e = .formatError := by
    intro g e hg
    by_cases hi : Identified g
    · obtain ⟨f, hf, _⟩ := (C118_arf_write g).1 hi
      rw [hf] at hg; simp at hg
    · rw [(C118_arf_write g).2 hi] at hg
      simp only [Except.error.injEq] at hg; exact hg.symm
  rw [phaiWrite]
  simp only
  generalize h.update _ = g
  cases hc : checkKeywords g ["EXPOSURE", "POISSERR"] with
  | error e =>
    have := (checkKeywords_ok g ["EXPOSURE", "POISSERR"]).2 (by rw [hc]; simp)
    rw [hc] at this
    simp only [Except.error.injEq] at this
    exact Or.inr (by rw [this])
  | ok u =>
    simp only
    by_cases hx : ∃ n ∈ ["BACKSCAL", "AREASCAL", "QUALITY", "GROUPING", "SYS_ERR"],
        n ∉ cols ∧ (g n).isSome = false
    · rw [if_pos hx]; exact Or.inr rfl
    · rw [if_neg hx]
      simp only
      cases ha : (arfWrite g).2 with
      | error e => rw [arf g e ha]; exact Or.inr rfl
      | ok f => exact Or.inl rfl

/-- A complete header for a spectrum, so that nothing but the repeated keyword is wrong. -/
example : (phaiWrite ["CHANNEL", "COUNTS"] (fun _ => some (.int 1))).2 = .error .typeError := by
  simp [phaiWrite, checkKeywords, Hdr.update, Hdr.put, arfWrite]

theorem checkCols_ok (t : OTab) (req : List String) :
    (checkCols t req = .ok () ↔ ∀ c ∈ req, c ∈ t.cols) ∧
    (checkCols t req ≠ .ok () → checkCols t req = .error .formatError) := by
  unfold checkCols; split <;> simp_all

theorem rmfKeywords_spec (chantype hduclas3 : Option String) (t : OTab) :
    (rmfKeywords chantype hduclas3 t).cols = t.cols ∧ (rmfKeywords chantype hduclas3 t).n = t.n ∧
    (rmfKeywords chantype hduclas3 t).hdr "DETCHANS" = some (.int t.n) ∧
    (rmfKeywords chantype hduclas3 t).hdr "CHANTYPE" =
      (chantype.map KwVal.str).or (t.hdr "CHANTYPE") ∧
    (rmfKeywords chantype hduclas3 t).hdr "HDUCLAS3" =
      (hduclas3.map KwVal.str).or (t.hdr "HDUCLAS3") ∧
    (∀ k, k ∉ ["DETCHANS", "CHANTYPE", "HDUCLAS3"] →
      (rmfKeywords chantype hduclas3 t).hdr k = t.hdr k) := by
  refine ⟨rfl, rfl, ?_, ?_, ?_, ?_⟩
  · cases chantype <;> cases hduclas3 <;> simp [rmfKeywords, Hdr.put]
  · cases chantype <;> cases hduclas3 <;> simp [rmfKeywords, Hdr.put]
  · cases chantype <;> cases hduclas3 <;> simp [rmfKeywords, Hdr.put]
  · intro k hk
    simp only [List.mem_cons, List.not_mem_nil, or_false, not_or] at hk
    cases chantype <;> cases hduclas3 <;> simp [rmfKeywords, Hdr.put, hk.1, hk.2.1, hk.2.2]

/-- Tables that can be made into an `RMF`. -/
def GoodRmf (chantype : Option String) (matrix ebounds : OTab) : Prop :=
  (∀ c ∈ matrixCols, c ∈ matrix.cols) ∧ (∀ c ∈ eboundsCols, c ∈ ebounds.cols) ∧
  Identified matrix.hdr ∧ Identified ebounds.hdr ∧
  (chantype.isSome ∨ ((matrix.hdr "CHANTYPE").isSome ∧ (ebounds.hdr "CHANTYPE").isSome))

theorem rmfInit_cases (matrix ebounds : OTab) (chantype hduclas3 : Option String) :
    (GoodRmf chantype matrix ebounds → rmfInit matrix ebounds chantype hduclas3 =
      .ok ⟨rmfKeywords chantype hduclas3 matrix, rmfKeywords chantype hduclas3 ebounds⟩) ∧
    (¬ GoodRmf chantype matrix ebounds →
      rmfInit matrix ebounds chantype hduclas3 = .error .formatError) := by
  obtain ⟨m1, m2, m3, m4, m5, m6⟩ := rmfKeywords_spec chantype hduclas3 matrix
  obtain ⟨e1, e2, e3, e4, e5, e6⟩ := rmfKeywords_spec chantype hduclas3 ebounds
  have idn : ∀ (t : OTab) (h : ∀ k, k ∉ ["DETCHANS", "CHANTYPE", "HDUCLAS3"] →
      (rmfKeywords chantype hduclas3 t).hdr k = t.hdr k),
      Identified (rmfKeywords chantype hduclas3 t).hdr ↔ Identified t.hdr := by
    intro t h
    unfold Identified
    constructor <;> intro H k hk <;> have := H k hk <;>
      have e := h k (by simp at hk; rcases hk with rfl | rfl | rfl <;> simp)
    · rw [← e]; exact this
    · rw [e]; exact this
  have ct : ∀ (t : OTab) (h : (rmfKeywords chantype hduclas3 t).hdr "CHANTYPE" =
      (chantype.map KwVal.str).or (t.hdr "CHANTYPE")),
      ((rmfKeywords chantype hduclas3 t).hdr "CHANTYPE").isSome ↔
        chantype.isSome ∨ (t.hdr "CHANTYPE").isSome := by
    intro t h; rw [h]; cases chantype <;> simp
  obtain ⟨p1, p2⟩ := checkCols_ok (rmfKeywords chantype hduclas3 matrix) matrixCols
  obtain ⟨q1, q2⟩ := checkCols_ok (rmfKeywords chantype hduclas3 ebounds) eboundsCols
  obtain ⟨r1, r2⟩ := checkKeywords_ok (rmfKeywords chantype hduclas3 matrix).hdr ["CHANTYPE"]
  obtain ⟨s1, s2⟩ := checkKeywords_ok (rmfKeywords chantype hduclas3 ebounds).hdr ["CHANTYPE"]
  rw [m1] at p1; rw [e1] at q1
  simp only [List.mem_singleton, forall_eq] at r1 s1
  rw [idn _ m6, ct _ m4] at r1
  rw [idn _ e6, ct _ e4] at s1
  simp only [rmfInit]
  constructor
  · rintro ⟨g1, g2, g3, g4, g5⟩
    rw [p1.2 g1]; simp only
    rw [q1.2 g2]; simp only
    rw [r1.2 ⟨g3, g5.imp id And.left⟩]; simp only
    rw [s1.2 ⟨g4, g5.imp id And.right⟩]
  · intro hg
    by_cases h1 : checkCols (rmfKeywords chantype hduclas3 matrix) matrixCols = .ok ()
    · rw [h1]; simp only
      by_cases h2 : checkCols (rmfKeywords chantype hduclas3 ebounds) eboundsCols = .ok ()
      · rw [h2]; simp only
        by_cases h3 : checkKeywords (rmfKeywords chantype hduclas3 matrix).hdr ["CHANTYPE"] = .ok ()
        · rw [h3]; simp only
          by_cases h4 : checkKeywords (rmfKeywords chantype hduclas3 ebounds).hdr ["CHANTYPE"] = .ok ()
          · exfalso; apply hg
            have a3 := r1.1 h3
            have a4 := s1.1 h4
            refine ⟨p1.1 h1, q1.1 h2, a3.1, a4.1, ?_⟩
            rcases a3.2 with h5 | h5
            · exact Or.inl h5
            · rcases a4.2 with h6 | h6
              · exact Or.inl h6
              · exact Or.inr ⟨h5, h6⟩
          · rw [s2 h4]
        · rw [r2 h3]
      · rw [q2 h2]
    · rw [p2 h1]

/-- **C118** An `RMF` is made if and only if both tables have the required columns, identify the telescope and
have a channel type (or it is given); otherwise it is an `OGIPFormatError`. Columns, rows and all other
keywords are kept. -/
theorem C118_rmf_init (matrix ebounds : OTab) (chantype hduclas3 : Option String) :
    (GoodRmf chantype matrix ebounds → ∃ r, rmfInit matrix ebounds chantype hduclas3 = .ok r ∧
      ∀ p ∈ [(r.matrix, matrix), (r.ebounds, ebounds)],
        p.1.cols = p.2.cols ∧ p.1.n = p.2.n ∧
        (∀ c, chantype = some c → p.1.hdr "CHANTYPE" = some (.str c)) ∧
        (chantype = none → p.1.hdr "CHANTYPE" = p.2.hdr "CHANTYPE") ∧
        (∀ c, hduclas3 = some c → p.1.hdr "HDUCLAS3" = some (.str c)) ∧
        (hduclas3 = none → p.1.hdr "HDUCLAS3" = p.2.hdr "HDUCLAS3") ∧
        (∀ k, k ∉ ["DETCHANS", "CHANTYPE", "HDUCLAS3"] → p.1.hdr k = p.2.hdr k)) ∧
    (¬ GoodRmf chantype matrix ebounds →
      rmfInit matrix ebounds chantype hduclas3 = .error .formatError) := by
  obtain ⟨h1, h2⟩ := rmfInit_cases matrix ebounds chantype hduclas3
  refine ⟨fun hg => ⟨_, h1 hg, ?_⟩, h2⟩
  intro p hp
  have : ∃ t, p = (rmfKeywords chantype hduclas3 t, t) := by
    simp only [List.mem_cons, List.not_mem_nil, or_false] at hp
    rcases hp with rfl | rfl
    · exact ⟨matrix, rfl⟩
    · exact ⟨ebounds, rfl⟩
  obtain ⟨t, rfl⟩ := this
  obtain ⟨m1, m2, m3, m4, m5, m6⟩ := rmfKeywords_spec chantype hduclas3 t
  refine ⟨m1, m2, ?_, ?_, ?_, ?_, m6⟩
  · intro c hc; rw [m4, hc]; rfl
  · intro hc; rw [m4, hc]; rfl
  · intro c hc; rw [m5, hc]; rfl
  · intro hc; rw [m5, hc]; rfl

/-- **C118** `DETCHANS` should be the number of channels (rows of EBOUNDS) in both tables.  It is, if the
matrix has as many rows as there are channels (as in the matrices made by `make_rmf`). -/
theorem C118_detchans_partial (matrix ebounds : OTab) (chantype hduclas3 : Option String) (r : RmfTabs)
    (hsq : matrix.n = ebounds.n) (h : rmfInit matrix ebounds chantype hduclas3 = .ok r) :
    r.matrix.hdr "DETCHANS" = some (.int ebounds.n) ∧ r.ebounds.hdr "DETCHANS" = some (.int ebounds.n) := by
  by_cases hg : GoodRmf chantype matrix ebounds
  · rw [(rmfInit_cases _ _ _ _).1 hg, Except.ok.injEq] at h
    subst h
    refine ⟨?_, (rmfKeywords_spec _ _ _).2.2.1⟩
    rw [← hsq]; exact (rmfKeywords_spec _ _ _).2.2.1
  · rw [(rmfInit_cases _ _ _ _).2 hg] at h; simp at h

/-- **C118, disagreement** In all other cases the keyword in the matrix is wrong: it is the number of energy
bins. Reading a correct file replaces its correct keyword by the wrong number. -/
theorem C118_detchans_false (file r : RmfTabs) (hne : file.matrix.n ≠ file.ebounds.n)
    (h : rmfRead file = .ok r) :
    r.matrix.hdr "DETCHANS" = some (.int file.matrix.n) ∧
    r.matrix.hdr "DETCHANS" ≠ some (.int file.ebounds.n) := by
  have key : rmfInit file.matrix file.ebounds none none = .ok r := by
    unfold rmfRead at h
    repeat' (split at h; · simp at h)
    exact h
  by_cases hg : GoodRmf none file.matrix file.ebounds
  · rw [(rmfInit_cases _ _ _ _).1 hg, Except.ok.injEq] at key
    subst key
    have := (rmfKeywords_spec none none file.matrix).2.2.1
    refine ⟨this, ?_⟩
    rw [this]
    simp only [ne_eq, Option.some.injEq, KwVal.int.injEq, Int.natCast_inj]
    exact hne
  · rw [(rmfInit_cases _ _ _ _).2 hg] at key; simp at key

/-- A complete table with the given columns, `n` rows and `DETCHANS` 2. -/
def exOTab (cols : List String) (n : ℕ) : OTab :=
  ⟨cols, n, fun k => if k = "DETCHANS" then some (.int 2) else some (.str "x")⟩

theorem exOTab_read : ∃ r, rmfRead ⟨exOTab matrixCols 3, exOTab eboundsCols 2⟩ = .ok r := by
  have hid : ∀ c n, Identified (exOTab c n).hdr := by
    intro c n k hk; simp only [exOTab]; split <;> rfl
  have hg : GoodRmf none (exOTab matrixCols 3) (exOTab eboundsCols 2) :=
    ⟨fun _ h => h, fun _ h => h, hid _ _, hid _ _, Or.inr ⟨rfl, rfl⟩⟩
  have hk : ∀ c n, checkKeywords (exOTab c n).hdr ["CHANTYPE", "DETCHANS"] = .ok () := by
    intro c n
    rw [(checkKeywords_ok _ _).1]
    refine ⟨hid _ _, ?_⟩
    intro k hk; simp only [exOTab]; split <;> rfl
  refine ⟨⟨rmfKeywords none none (exOTab matrixCols 3), rmfKeywords none none (exOTab eboundsCols 2)⟩, ?_⟩
  rw [rmfRead]
  simp only
  rw [(checkCols_ok (exOTab matrixCols 3) matrixCols).1.2 fun _ h => h]
  simp only
  rw [(checkCols_ok (exOTab eboundsCols 2) eboundsCols).1.2 fun _ h => h]
  simp only
  rw [hk, hk]
  simp only
  exact (rmfInit_cases _ _ _ _).1 hg

/-- The hypotheses of `C118_detchans_false` are met by a correct file with 3 energies and 2 channels. -/
example : (⟨exOTab matrixCols 3, exOTab eboundsCols 2⟩ : RmfTabs).matrix.hdr "DETCHANS" = some (.int 2) ∧
    (3 : ℕ) ≠ 2 ∧ ∃ r, rmfRead ⟨exOTab matrixCols 3, exOTab eboundsCols 2⟩ = .ok r :=
  ⟨rfl, by norm_num, exOTab_read⟩

theorem tlmin_not_class (t : OTab) (name : String) :
    ∀ k ∈ ["EXTNAME", "HDUCLASS", "HDUVERS", "HDUCLAS1", "HDUCLAS2", "TELESCOP", "INSTRUME", "FILTER",
      "CHANTYPE", "DETCHANS", "HDUCLAS3"], k ≠ tlminKey t name := by
  intro k hk he
  have h2 := congrArg String.toList he
  have h3 := congrArg (List.take 3) h2
  rw [tlminKey, String.toList_append] at h3
  have e : "TLMIN".toList = ['T', 'L', 'M', 'I', 'N'] := rfl
  rw [e] at h3
  simp only [List.cons_append, List.take_succ_cons, List.take_zero] at h3
  simp only [List.mem_cons, List.not_mem_nil, or_false] at hk
  rcases hk with rfl | rfl | rfl | rfl | rfl | rfl | rfl | rfl | rfl | rfl | rfl <;>
    exact absurd h3 (by decide)

/-- **C118** Every file written by `RMF.write` is complete: both tables have the required columns, identify
the telescope, give type and number of channels and the smallest channel number for the right column, and are
classified as matrix and energy bounds. -/
theorem C118_rmf_file (r f : RmfTabs) (tlmin : Option ℤ) (h : rmfWrite r tlmin = .ok f) :
    CompleteRmfTable f.matrix matrixCols "F_CHAN" ∧ CompleteRmfTable f.ebounds eboundsCols "CHANNEL" ∧
    Classified f.matrix.hdr "MATRIX" "1.1.0" "RESPONSE" "RSP_MATRIX" ∧
    Classified f.ebounds.hdr "EBOUNDS" "1.2.0" "RESPONSE" "EBOUNDS" ∧
    f.matrix.cols = r.matrix.cols ∧ f.ebounds.cols = r.ebounds.cols ∧
    f.matrix.n = r.matrix.n ∧ f.ebounds.n = r.ebounds.n := by
  have general : ∀ (t : OTab) (hd : Hdr) (req : List String) (chan : String)
      (l : List (String × KwVal)), l.map Prod.fst ⊆ classKeys → chan ∈ req → (∀ c ∈ req, c ∈ t.cols) →
      checkKeywords hd ["CHANTYPE", "DETCHANS", tlminKey t chan] = .ok () →
      CompleteRmfTable { t with hdr := hd.update l } req chan := by
    intro t hd req chan l hl hchan hreq hck
    obtain ⟨h1, h2⟩ := (checkKeywords_ok _ _).1.1 hck
    have hn := tlmin_not_class t chan
    have cls : ∀ k, k ∉ classKeys → hd.update l k = hd k := fun k hk =>
      update_other _ _ _ (fun hm => hk (hl hm))
    have hmem : chan ∈ t.cols := hreq chan hchan
    have hidx := List.idxOf_lt_length_of_mem hmem
    refine ⟨hreq, ?_, ?_, ?_, t.cols.idxOf chan, ?_, ?_⟩
    · intro k hk
      simp only
      rw [cls k (by simp at hk; rcases hk with rfl | rfl | rfl <;> simp [classKeys])]
      exact h1 k hk
    · simp only; rw [cls _ (by simp [classKeys])]; exact h2 _ (by simp)
    · simp only; rw [cls _ (by simp [classKeys])]; exact h2 _ (by simp)
    · rw [List.getElem?_eq_getElem hidx, List.getElem_idxOf hidx]
    · have e : "TLMIN" ++ (t.cols.idxOf chan + 1).repr = tlminKey t chan := rfl
      simp only
      rw [e, cls]
      · exact h2 _ (by simp)
      · intro hm
        exact hn _ (by simp only [classKeys] at hm; simp at hm ⊢; tauto) rfl
  unfold rmfWrite at h
  split at h
  · simp at h
  rename_i c1
  split at h
  · simp at h
  rename_i c2
  simp only at h
  split at h
  · simp at h
  rename_i c3
  split at h
  · simp at h
  rename_i c4
  simp only [Except.ok.injEq] at h
  have d1 := (checkCols_ok _ _).1.1 c1
  have d2 := (checkCols_ok _ _).1.1 c2
  subst h
  refine ⟨general r.matrix _ _ _ _ (by simp [classKeys]) (by simp [matrixCols]) d1 c3,
    general r.ebounds _ _ _ _ (by simp [classKeys]) (by simp [eboundsCols]) d2 c4, ?_, ?_, rfl, rfl, rfl, rfl⟩
  · refine ⟨?_, ?_, ?_, ?_, ?_⟩ <;> simp [Hdr.update, Hdr.put]
  · refine ⟨?_, ?_, ?_, ?_, ?_⟩ <;> simp [Hdr.update, Hdr.put]

/-- **C118** A matrix that was made by the library and written is read back with the same columns and the same
header. -/
theorem C118_roundtrip (matrix ebounds : OTab) (chantype hduclas3 : Option String) (tlmin : Option ℤ)
    (r f : RmfTabs) (h : rmfInit matrix ebounds chantype hduclas3 = .ok r)
    (hw : rmfWrite r tlmin = .ok f) : rmfRead f = .ok f := by
  obtain ⟨a1, a2, a3, a4, a5, a6, a7, a8⟩ := C118_rmf_file r f tlmin hw
  have hg : GoodRmf none f.matrix f.ebounds :=
    ⟨a1.1, a2.1, a1.2.1, a2.2.1, Or.inr ⟨a1.2.2.1, a2.2.2.1⟩⟩
  have ck : ∀ t req c, CompleteRmfTable t req c →
      checkKeywords t.hdr ["CHANTYPE", "DETCHANS"] = .ok () := by
    intro t req c hc
    rw [(checkKeywords_ok _ _).1]
    refine ⟨hc.2.1, ?_⟩
    intro k hk
    simp only [List.mem_cons, List.not_mem_nil, or_false] at hk
    rcases hk with rfl | rfl
    · exact hc.2.2.1
    · exact hc.2.2.2.1
  have hread : rmfRead f = rmfInit f.matrix f.ebounds none none := by
    rw [rmfRead, (checkCols_ok f.matrix _).1.2 a1.1]
    simp only
    rw [(checkCols_ok f.ebounds _).1.2 a2.1]
    simp only
    rw [ck _ _ _ a1, ck _ _ _ a2]
  rw [hread, (rmfInit_cases _ _ _ _).1 hg]
  have hdet : r.matrix.hdr "DETCHANS" = some (.int r.matrix.n) ∧
      r.ebounds.hdr "DETCHANS" = some (.int r.ebounds.n) := by
    by_cases hg : GoodRmf chantype matrix ebounds
    · rw [(rmfInit_cases _ _ _ _).1 hg, Except.ok.injEq] at h
      subst h
      exact ⟨(rmfKeywords_spec _ _ _).2.2.1, (rmfKeywords_spec _ _ _).2.2.1⟩
    · rw [(rmfInit_cases _ _ _ _).2 hg] at h; simp at h
  have hdetf : f.matrix.hdr "DETCHANS" = some (.int f.matrix.n) ∧
      f.ebounds.hdr "DETCHANS" = some (.int f.ebounds.n) := by
    unfold rmfWrite at hw
    split at hw
    · simp at hw
    split at hw
    · simp at hw
    simp only at hw
    split at hw
    · simp at hw
    split at hw
    · simp at hw
    simp only [Except.ok.injEq] at hw
    have n1 : "DETCHANS" ≠ tlminKey r.matrix "F_CHAN" := tlmin_not_class _ _ _ (by simp)
    have n2 : "DETCHANS" ≠ tlminKey r.ebounds "CHANNEL" := tlmin_not_class _ _ _ (by simp)
    subst hw
    constructor
    · simp only
      rw [update_other _ _ _ (by simp)]
      cases tlmin
      · exact hdet.1
      · simp only [put_other _ _ n1]; exact hdet.1
    · simp only
      rw [update_other _ _ _ (by simp)]
      cases tlmin
      · exact hdet.2
      · simp only [put_other _ _ n2]; exact hdet.2
  have same : ∀ t : OTab, t.hdr "DETCHANS" = some (.int t.n) → rmfKeywords none none t = t := by
    intro t ht
    have : t.hdr.put "DETCHANS" (.int t.n) = t.hdr := by
      funext k
      by_cases hk : k = "DETCHANS"
      · subst hk; rw [put_same, ht]
      · rw [put_other _ _ hk]
    cases t with
    | mk c n hd => simp only [rmfKeywords] at this ⊢; rw [this]
  rw [same _ hdetf.1, same _ hdetf.2]

/-- An `RMF` with 2 channels can be made and written with any `TLMIN`. -/
example (t : ℤ) : ∃ r f, rmfInit (exOTab matrixCols 2) (exOTab eboundsCols 2) (some "PHA") none = .ok r ∧
    rmfWrite r (some t) = .ok f := by
  have hid : ∀ c n, Identified (exOTab c n).hdr := by
    intro c n k hk; simp only [exOTab]; split <;> rfl
  have hg : GoodRmf (some "PHA") (exOTab matrixCols 2) (exOTab eboundsCols 2) :=
    ⟨fun _ h => h, fun _ h => h, hid _ _, hid _ _, Or.inl rfl⟩
  suffices H : ∃ f, rmfWrite ⟨rmfKeywords (some "PHA") none (exOTab matrixCols 2),
      rmfKeywords (some "PHA") none (exOTab eboundsCols 2)⟩ (some t) = .ok f by
    obtain ⟨f, hf⟩ := H
    exact ⟨_, f, (rmfInit_cases _ _ _ none).1 hg, hf⟩
  have all : ∀ (c : List String) (k : String),
      ((rmfKeywords (some "PHA") none (exOTab c 2)).hdr k).isSome := by
    intro c k
    simp only [rmfKeywords, Hdr.put, exOTab]
    split_ifs <;> rfl
  have ck : ∀ (c : List String) (k : String) (ex : List String),
      checkKeywords ((rmfKeywords (some "PHA") none (exOTab c 2)).hdr.put k (.int t)) ex = .ok () := by
    intro c k ex
    have : ∀ k', (((rmfKeywords (some "PHA") none (exOTab c 2)).hdr.put k (.int t)) k').isSome := by
      intro k'
      by_cases h : k' = k
      · subst h; rw [put_same]; rfl
      · rw [put_other _ _ h]; exact all c k'
    rw [(checkKeywords_ok _ _).1]
    exact ⟨fun k' _ => this k', fun k' _ => this k'⟩
  rw [rmfWrite]
  simp only
  rw [(checkCols_ok _ matrixCols).1.2 fun _ h => by simpa [rmfKeywords, exOTab] using h]
  simp only
  rw [(checkCols_ok _ eboundsCols).1.2 fun _ h => by simpa [rmfKeywords, exOTab] using h]
  simp only
  rw [ck, ck]
  exact ⟨_, rfl⟩

end Marxs
