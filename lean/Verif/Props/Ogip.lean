import Mathlib.Data.List.GetD
import Mathlib.Data.List.Sort
import Mathlib.Tactic.Ring
import Mathlib.Tactic.Linarith
import Mathlib.Tactic.NormNum
import Verif.Spec.Ogip

/-!
# Properties C36-C38, C42, C74: redistribution matrices and header tables
-/

namespace Marxs

/-! ## The encoder -/

/-- `Enc t thr k l F N M`: channels `k, k+1, ...` with responses `l` are stored as groups `F`, `N`
with matrix elements `M` (first channel number `t`). -/
inductive Enc (t : ℤ) (thr : ℝ) : ℕ → List ℝ → List ℤ → List ℤ → List ℝ → Prop
  | nil (k : ℕ) (z : List ℝ) (hz : ∀ x ∈ z, ¬ thr < x) : Enc t thr k z [] [] []
  | cons (k : ℕ) (z b r : List ℝ) (F N : List ℤ) (M : List ℝ) (hz : ∀ x ∈ z, ¬ thr < x)
      (hb : ∀ x ∈ b, thr < x) (hne : b ≠ []) (hr : ∀ x, r.head? = some x → ¬ thr < x)
      (h : Enc t thr (k + z.length + b.length) r F N M) :
      Enc t thr k (z ++ (b ++ r)) ((((k + z.length : ℕ) : ℤ) + t) :: F) ((b.length : ℤ) :: N)
        (b ++ M)

theorem Enc.zero_cons {t : ℤ} {thr : ℝ} {k : ℕ} {l : List ℝ} {F N : List ℤ} {M : List ℝ} {x : ℝ}
    (hx : ¬ thr < x) (h : Enc t thr (k + 1) l F N M) : Enc t thr k (x :: l) F N M := by
  cases h with
  | nil _ _ hz => exact .nil _ _ (by
    intro y hy
    rcases List.mem_cons.1 hy with rfl | h
    · exact hx
    · exact hz y h)
  | cons _ z b r F N M hz hb hne hr h =>
    have e : k + 1 + z.length = k + (x :: z).length := by simp; omega
    rw [e] at h ⊢
    exact .cons k (x :: z) b r F N M (by
      intro y hy
      rcases List.mem_cons.1 hy with rfl | h
      · exact hx
      · exact hz y h) hb hne hr h

theorem sel_above (thr : ℝ) (l : List ℝ) :
    sel (l.map fun x => decide (thr < x)) l = l.filter fun x => decide (thr < x) := by
  induction l with
  | nil => rfl
  | cons x l ih =>
    by_cases h : thr < x <;> simp [sel, h, ih]

theorem encode_aux (t : ℤ) (thr : ℝ) (l : List ℝ) :
    (∀ k, ∃ ps, reshapePairs (nonzeroFrom k (diffBool (false ::
        ((l.map fun x => decide (thr < x)) ++ [false])))) = .ok ps ∧
      Enc t thr k l (ps.map fun p => (p.1 : ℤ) + t) (ps.map fun p => (p.2 : ℤ) - (p.1 : ℤ))
        (l.filter fun x => decide (thr < x))) ∧
    (∀ s (b : List ℝ), b ≠ [] → (∀ x ∈ b, thr < x) →
      ∃ ps, reshapePairs (s :: nonzeroFrom (s + b.length) (diffBool (true ::
        ((l.map fun x => decide (thr < x)) ++ [false])))) = .ok ps ∧
      Enc t thr s (b ++ l) (ps.map fun p => (p.1 : ℤ) + t)
        (ps.map fun p => (p.2 : ℤ) - (p.1 : ℤ))
        (b ++ l.filter fun x => decide (thr < x))) := by
  induction l with
  | nil =>
    refine ⟨fun k => ⟨[], by simp [diffBool, nonzeroFrom, reshapePairs], .nil _ _ (by simp)⟩, ?_⟩
    intro s b hne hb
    refine ⟨[(s, s + b.length)], by simp [diffBool, nonzeroFrom, reshapePairs], ?_⟩
    have := Enc.cons (t := t) (thr := thr) s [] b [] [] [] [] (by simp) hb hne (by simp)
      (.nil _ _ (by simp))
    simpa using this
  | cons x l ih =>
    obtain ⟨ihA, ihB⟩ := ih
    by_cases hx : thr < x
    · constructor
      · intro k
        obtain ⟨ps, h1, h2⟩ := ihB k [x] (by simp) (by simp [hx])
        refine ⟨ps, ?_, ?_⟩
        · simpa [diffBool, nonzeroFrom, hx] using h1
        · simpa [hx] using h2
      · intro s b hne hb
        obtain ⟨ps, h1, h2⟩ := ihB s (b ++ [x]) (by simp) (by
          intro y hy
          rcases List.mem_append.1 hy with h | h
          · exact hb y h
          · simp at h; rw [h]; exact hx)
        refine ⟨ps, ?_, ?_⟩
        · simpa [diffBool, nonzeroFrom, hx, Nat.add_assoc] using h1
        · simpa [hx] using h2
    · constructor
      · intro k
        obtain ⟨ps, h1, h2⟩ := ihA (k + 1)
        refine ⟨ps, ?_, ?_⟩
        · simpa [diffBool, nonzeroFrom, hx] using h1
        · simpa [hx] using h2.zero_cons hx
      · intro s b hne hb
        obtain ⟨ps, h1, h2⟩ := ihA (s + b.length + 1)
        refine ⟨(s, s + b.length) :: ps, ?_, ?_⟩
        · simp only [List.map_cons, hx, decide_false, List.cons_append, diffBool,
            nonzeroFrom, Bool.bne_false, reshapePairs]
          rw [h1]
        · have h3 := h2.zero_cons hx
          have := Enc.cons (t := t) (thr := thr) s [] b (x :: l) _ _ _ (by simp) hb hne
            (by intro y hy; simp at hy; rw [← hy]; exact hx) h3
          simpa [hx] using this

theorem encode_ok (arr : List ℝ) (t : ℤ) (thr : ℝ) :
    ∃ g, arrToRmfRow arr t thr = .ok g ∧ g.nGrp = g.fChan.length ∧
      Enc t thr 0 arr g.fChan g.nChan g.matrix := by
  obtain ⟨ps, h1, h2⟩ := (encode_aux t thr arr).1 0
  refine ⟨⟨ps.length, ps.map fun p => (p.1 : ℤ) + t, ps.map fun p => (p.2 : ℤ) - (p.1 : ℤ),
    arr.filter fun x => decide (thr < x)⟩, ?_, by simp, h2⟩
  simp only [arrToRmfRow, List.cons_append, List.nil_append]
  rw [h1]
  simp [sel_above]

theorem Enc.lengths {t : ℤ} {thr : ℝ} {k : ℕ} {l : List ℝ} {F N : List ℤ} {M : List ℝ}
    (h : Enc t thr k l F N M) : F.length = N.length ∧ N.sum = M.length := by
  induction h with
  | nil => simp
  | cons k z b r F N M hz hb hne hr h ih => simp [ih.1, ih.2]

theorem Enc.pos {t : ℤ} {thr : ℝ} {k : ℕ} {l : List ℝ} {F N : List ℤ} {M : List ℝ}
    (h : Enc t thr k l F N M) : ∀ n ∈ N, 0 < n := by
  induction h with
  | nil => simp
  | cons k z b r F N M hz hb hne hr h ih =>
    intro n hn
    rcases List.mem_cons.1 hn with h | h
    · have := List.length_pos_iff.2 hne
      omega
    · exact ih n h

theorem Enc.first {t : ℤ} {thr : ℝ} {k : ℕ} {l : List ℝ} {F N : List ℤ} {M : List ℝ}
    (h : Enc t thr k l F N M) : ∀ f ∈ F, (k : ℤ) + t ≤ f := by
  induction h with
  | nil => simp
  | cons k z b r F N M hz hb hne hr h ih =>
    intro f hf
    rcases List.mem_cons.1 hf with h | h
    · subst h; push_cast; omega
    · have := ih f h
      push_cast at this
      omega

theorem Enc.first_lt {t : ℤ} {thr : ℝ} {k : ℕ} {l : List ℝ} {F N : List ℤ} {M : List ℝ}
    (h : Enc t thr k l F N M) (hl : ∀ x, l.head? = some x → ¬ thr < x) :
    ∀ f ∈ F, (k : ℤ) + t < f := by
  cases h with
  | nil => simp
  | cons _ z b r F N M hz hb hne hr h =>
    have hz' : z ≠ [] := by
      rintro rfl
      cases b with
      | nil => exact hne rfl
      | cons y b => exact hl y (by simp) (hb y (by simp))
    have := List.length_pos_iff.2 hz'
    intro f hf
    rcases List.mem_cons.1 hf with h' | h'
    · subst h'; push_cast; omega
    · have := h.first f h'
      push_cast at this
      omega

theorem Enc.separated {t : ℤ} {thr : ℝ} {k : ℕ} {l : List ℝ} {F N : List ℤ} {M : List ℝ}
    (h : Enc t thr k l F N M) :
    (F.zip N).Pairwise fun a b => a.1 + a.2 < b.1 := by
  induction h with
  | nil => simp
  | cons k z b r F N M hz hb hne hr h ih =>
    refine List.Pairwise.cons ?_ ih
    intro p hp
    have := h.first_lt hr p.1 (List.of_mem_zip hp).1
    push_cast at this ⊢
    linarith

theorem ogipValue_below (t : ℤ) (thr : ℝ) {k : ℕ} {l : List ℝ} {F N : List ℤ} {M : List ℝ}
    (h : Enc t thr k l F N M) (c : ℤ) (hc : c < k + t) : ogipValue (F.zip N) M c = 0 := by
  induction h with
  | nil => simp [ogipValue]
  | cons k z b r F N M hz hb hne hr h ih =>
    rw [List.zip_cons_cons, ogipValue, if_neg (by push_cast; omega)]
    simpa using ih (by push_cast; omega)

theorem Enc.value {t : ℤ} {thr : ℝ} {k : ℕ} {l : List ℝ} {F N : List ℤ} {M : List ℝ}
    (h : Enc t thr k l F N M) (i : ℕ) :
    ogipValue (F.zip N) M ((k + i : ℕ) + t) = (cutBelow thr l).getD i 0 := by
  induction h generalizing i with
  | nil k z hz =>
    simp only [List.zip_nil_right, ogipValue]
    by_cases hi : i < z.length
    · have := hz _ (List.getElem_mem hi)
      simp [cutBelow, hi, this]
    · simp [cutBelow, hi]
  | cons k z b r F N M hz hb hne hr h ih =>
    rw [List.zip_cons_cons, ogipValue]
    by_cases h1 : i < z.length
    · rw [if_neg (by push_cast; omega)]
      have h2 : ogipValue (F.zip N) ((b ++ M).drop (b.length : ℤ).toNat) ((k + i : ℕ) + t) = 0 := by
        simpa using ogipValue_below t thr h _ (by push_cast; omega)
      rw [h2]
      have h3 := hz _ (List.getElem_mem h1)
      simp only [cutBelow, List.map_append]
      rw [List.getD_append _ _ _ _ (by simpa using h1)]
      simp [h1, h3]
    · by_cases h2 : i < z.length + b.length
      · rw [if_pos (by push_cast; omega)]
        have e : (((k + i : ℕ) : ℤ) + t - (((k + z.length : ℕ) : ℤ) + t)).toNat = i - z.length := by
          push_cast; omega
        rw [e]
        have hlt : i - z.length < b.length := by omega
        have h3 := hb _ (List.getElem_mem hlt)
        rw [List.getD_append _ _ _ _ hlt]
        simp only [cutBelow, List.map_append]
        rw [List.getD_append_right _ _ _ _ (by simp; omega), List.getD_append _ _ _ _ (by simp; omega)]
        simp [hlt, h3]
      · rw [if_neg (by push_cast; omega)]
        have e : k + i = k + z.length + b.length + (i - z.length - b.length) := by omega
        rw [e]
        have := ih (i - z.length - b.length)
        simp only [Int.toNat_natCast, List.drop_left]
        rw [this]
        simp only [cutBelow, List.map_append]
        rw [List.getD_append_right _ _ _ _ (by simp; omega),
          List.getD_append_right _ _ _ _ (by simp; omega)]
        simp

/-- **C36** The encoder never fails, and its groups decode by the OGIP rules to the response with every
entry that is not above the threshold replaced by zero; all other entries are exact.  Channels
are numbered from `tlmin`; channels outside of the array have no response. -/
theorem C36_roundtrip (arr : List ℝ) (tlmin : ℤ) (thr : ℝ) :
    ∃ g, arrToRmfRow arr tlmin thr = .ok g ∧
      (∀ i < arr.length, ogipValue (g.fChan.zip g.nChan) g.matrix (tlmin + i) =
        (cutBelow thr arr).getD i 0) ∧
      (∀ c : ℤ, c < tlmin ∨ tlmin + arr.length ≤ c →
        ogipValue (g.fChan.zip g.nChan) g.matrix c = 0) := by
  obtain ⟨g, h1, _, h2⟩ := encode_ok arr tlmin thr
  refine ⟨g, h1, ?_, ?_⟩
  · intro i hi
    have := h2.value i
    rw [show (tlmin + (i : ℤ)) = ((0 + i : ℕ) : ℤ) + tlmin by push_cast; ring]
    exact this
  · rintro c (hc | hc)
    · exact ogipValue_below tlmin thr h2 c (by simpa using hc)
    · have := h2.value (c - tlmin).toNat
      rw [show (((0 + (c - tlmin).toNat : ℕ) : ℤ) + tlmin) = c by push_cast; omega] at this
      rw [this, List.getD_eq_default]
      simp only [cutBelow, List.length_map]
      omega

/-- **C36** The groups are well formed: as many as announced, not empty, in ascending order with at
least one channel between two groups, and `N_CHAN` sums to the number of stored elements; the stored
elements are the entries above the threshold, in order. -/
theorem C36_groups (arr : List ℝ) (tlmin : ℤ) (thr : ℝ) (g : RmfGroups)
    (h : arrToRmfRow arr tlmin thr = .ok g) :
    g.nGrp = g.fChan.length ∧ g.nGrp = g.nChan.length ∧
    (∀ n ∈ g.nChan, 0 < n) ∧
    (∀ f ∈ g.fChan, tlmin ≤ f) ∧
    ((g.fChan.zip g.nChan).Pairwise fun a b => a.1 + a.2 < b.1) ∧
    g.nChan.sum = g.matrix.length ∧
    g.matrix = arr.filter (fun x => decide (thr < x)) := by
  obtain ⟨g', h1, h2, h3⟩ := encode_ok arr tlmin thr
  have hg : g' = g := by rw [h] at h1; cases h1; rfl
  subst hg
  refine ⟨h2, h2.trans h3.lengths.1, h3.pos, ?_, h3.separated, h3.lengths.2, ?_⟩
  · intro f hf
    have := h3.first f hf
    simpa using this
  · simp only [arrToRmfRow] at h
    split at h
    · cases h
    · split at h
      · cases h
        exact sel_above thr arr
      · cases h

/-- The example of the unit test: groups at channels 2-4 and 6. -/
example : ∃ g, arrToRmfRow [0, 0, 1, 2, 1, 0, 1] 0 (1 / 2) = .ok g ∧ g.nGrp = 2 ∧
    g.fChan = [2, 6] ∧ g.nChan = [3, 1] ∧ g.matrix = [1, 2, 1, 1] := by
  refine ⟨⟨2, [2, 6], [3, 1], [1, 2, 1, 1]⟩, ?_, rfl, rfl, rfl, rfl⟩
  have h1 : ((1 : ℝ) / 2 < 1) := by norm_num
  have h2 : ((1 : ℝ) / 2 < 2) := by norm_num
  have h3 : ¬ ((1 : ℝ) / 2 < 0) := by norm_num
  simp [arrToRmfRow, h1, h2, h3, diffBool, nonzeroFrom, reshapePairs, sel, -one_div]

/-! ## The decoders -/

theorem pyGet_append {α : Type} (a b : List α) (x : α) :
    pyGet (a ++ x :: b) (a.length : ℤ) = .ok x := by
  have h : ¬ ((a.length : ℤ) < 0) := by omega
  simp [pyGet, h]

theorem cumsumZ_get (l : List ℤ) (acc : ℤ) (i : ℕ) (h : i < l.length) :
    (cumsumZ acc l)[i]? = some (acc + (l.take (i + 1)).sum) := by
  induction l generalizing acc i with
  | nil => simp at h
  | cons x l ih =>
    cases i with
    | zero => simp [cumsumZ]
    | succ i =>
      simp only [cumsumZ, List.getElem?_cons_succ, List.take_succ_cons, List.sum_cons]
      rw [ih _ _ (by simpa using h)]
      congr 1
      ring

theorem pyGet_cumsum (l : List ℤ) (i : ℕ) (h : i ≤ l.length) :
    pyGet (cumsumZ 0 ([0] ++ l)) (i : ℤ) = .ok (l.take i).sum := by
  have := cumsumZ_get ([0] ++ l) 0 i (by simp; omega)
  simp only [pyGet, Int.natCast_nonneg, Int.not_lt.2, if_false, Int.toNat_natCast, not_lt,
    if_neg (Int.not_lt.2 (Int.natCast_nonneg i))]
  rw [this]
  simp

theorem pySliceEnd_nat (n i : ℕ) (h : i ≤ n) : pySliceEnd n (i : ℤ) = i := by
  have : ¬ ((i : ℤ) < 0) := by omega
  simp [pySliceEnd, this, h]

theorem getSlice_mid {α : Type} (a b c : List α) (s e : ℤ) (hs : s = a.length)
    (he : e = a.length + b.length) : getSlice (a ++ (b ++ c)) s e = b := by
  subst hs he
  have h1 : pySliceEnd (a ++ (b ++ c)).length (a.length : ℤ) = a.length :=
    pySliceEnd_nat _ _ (by simp)
  have h2 : pySliceEnd (a ++ (b ++ c)).length ((a.length : ℤ) + (b.length : ℤ)) =
      a.length + b.length := by
    rw [← Nat.cast_add]
    exact pySliceEnd_nat _ _ (by simp)
  simp only [getSlice, h1, h2, List.drop_left, Nat.add_sub_cancel_left, List.take_left]

theorem setSlice_mid (a b c v : List ℝ) (s e : ℤ) (hs : s = a.length)
    (he : e = a.length + b.length) (hv : v.length = b.length) :
    setSlice (a ++ (b ++ c)) s e v = .ok (a ++ (v ++ c)) := by
  subst hs he
  have h1 : pySliceEnd (a ++ (b ++ c)).length (a.length : ℤ) = a.length :=
    pySliceEnd_nat _ _ (by simp)
  have h2 : pySliceEnd (a ++ (b ++ c)).length ((a.length : ℤ) + (b.length : ℤ)) =
      a.length + b.length := by
    rw [← Nat.cast_add]
    exact pySliceEnd_nat _ _ (by simp)
  have h3 : (a ++ (b ++ c)).drop (a.length + b.length) = c := by
    rw [← List.drop_drop, List.drop_left, List.drop_left]
  simp only [setSlice, h1, h2]
  rw [if_pos (by omega), Nat.max_eq_right (by omega), h3]
  simp

theorem cutBelow_append (thr : ℝ) (a b : List ℝ) :
    cutBelow thr (a ++ b) = cutBelow thr a ++ cutBelow thr b := by simp [cutBelow]

theorem cutBelow_low {thr : ℝ} {z : List ℝ} (hz : ∀ x ∈ z, ¬ thr < x) :
    cutBelow thr z = List.replicate z.length 0 := by
  induction z with
  | nil => rfl
  | cons x z ih =>
    have h1 := hz x (by simp)
    have h2 := ih (fun y hy => hz y (by simp [hy]))
    simp only [cutBelow] at h2
    simp [cutBelow, h1, h2, List.replicate_succ]

theorem cutBelow_high {thr : ℝ} {z : List ℝ} (hz : ∀ x ∈ z, thr < x) : cutBelow thr z = z := by
  induction z with
  | nil => rfl
  | cons x z ih =>
    have h1 := hz x (by simp)
    have h2 := ih (fun y hy => hz y (by simp [hy]))
    simp only [cutBelow] at h2
    simp [cutBelow, h1, h2]

/-- The loop of `full_rmf` from group `Fd.length` on; the lists may be followed by padding. -/
theorem full_loop {t : ℤ} {thr : ℝ} {k : ℕ} {l : List ℝ} {F N : List ℤ} {M : List ℝ}
    (h : Enc t thr k l F N M) (row : RmfRow) (Fd Nd : List ℤ) (Md : List ℝ) (Fp Np : List ℤ)
    (Mp : List ℝ) (hF : row.fChan = .arr (Fd ++ (F ++ Fp))) (hN : row.nChan = .arr (Nd ++ (N ++ Np)))
    (hM : row.matrix = Md ++ (M ++ Mp)) (hlen : Fd.length = Nd.length) (hsum : Nd.sum = Md.length)
    (done : List ℝ) (hdone : done.length = k) :
    (List.range' Fd.length F.length).foldlM (fullRmfStep row t)
      (done ++ List.replicate l.length 0) = Except.ok (done ++ cutBelow thr l) := by
  induction h generalizing Fd Nd Md done with
  | nil k z hz => simp [cutBelow_low hz]; rfl
  | cons k z b r F N M hz hb hne hr h ih =>
    rw [List.length_cons, List.range'_succ, List.foldlM_cons]
    have hstep : fullRmfStep row t (done ++ List.replicate (z ++ (b ++ r)).length 0) Fd.length =
        .ok ((done ++ List.replicate z.length 0) ++ (b ++ List.replicate r.length 0)) := by
      have e1 : row.fChan.get Fd.length = .ok (((k + z.length : ℕ) : ℤ) + t) := by
        rw [hF]; exact pyGet_append _ _ _
      have e2 : row.nChan.get Fd.length = .ok (b.length : ℤ) := by
        rw [hN, hlen]; exact pyGet_append _ _ _
      have e3 : row.nChan.matindex =
          .ok (cumsumZ 0 ([0] ++ (Nd ++ ((b.length : ℤ) :: N ++ Np)))) := by rw [hN]; rfl
      have e4 := pyGet_cumsum (Nd ++ ((b.length : ℤ) :: N ++ Np)) Fd.length (by simp; omega)
      have e5 := pyGet_cumsum (Nd ++ ((b.length : ℤ) :: N ++ Np)) (Fd.length + 1)
        (by simp; omega)
      have s1 : ((Nd ++ ((b.length : ℤ) :: N ++ Np)).take Fd.length).sum = Md.length := by
        rw [hlen, List.take_left, hsum]
      have s2 : ((Nd ++ ((b.length : ℤ) :: N ++ Np)).take (Fd.length + 1)).sum =
          Md.length + b.length := by
        rw [hlen, List.take_append]
        simp [hsum, List.take_of_length_le]
      rw [s1] at e4
      rw [s2] at e5
      simp only [fullRmfStep, e1, e2, e3, e4, e5]
      have e6 : getSlice row.matrix (Md.length : ℤ) ((Md.length : ℤ) + (b.length : ℤ)) = b := by
        rw [hM, List.append_assoc]
        exact getSlice_mid _ _ _ _ _ rfl rfl
      rw [e6]
      have e7 : done ++ List.replicate (z ++ (b ++ r)).length (0 : ℝ) =
          (done ++ List.replicate z.length 0) ++
            (List.replicate b.length 0 ++ List.replicate r.length 0) := by
        rw [List.append_assoc, List.replicate_append_replicate, List.replicate_append_replicate]
        simp [Nat.add_assoc]
      rw [e7]
      apply setSlice_mid
      · simp [hdone]
      · simp [hdone]; ring
      · simp
    rw [hstep]
    have := ih (Fd ++ [((k + z.length : ℕ) : ℤ) + t]) (Nd ++ [(b.length : ℤ)]) (Md ++ b)
      (by simpa using hF) (by simpa using hN) (by simpa using hM) (by simp [hlen])
      (by simp [hsum]) (done ++ List.replicate z.length 0 ++ b) (by simp [hdone, Nat.add_assoc])
    rw [cutBelow_append, cutBelow_append, cutBelow_low hz, cutBelow_high hb]
    have e8 : (Fd ++ [((k + z.length : ℕ) : ℤ) + t]).length = Fd.length + 1 := by simp
    rw [e8] at this
    simp only [List.append_assoc] at this ⊢
    exact this

theorem full_row {t : ℤ} {thr : ℝ} {arr : List ℝ} {F N : List ℤ} {M : List ℝ}
    (h : Enc t thr 0 arr F N M) (row : RmfRow) (Fp Np : List ℤ) (Mp : List ℝ)
    (hn : row.nGrp = F.length)
    (hF : row.fChan = .arr (F ++ Fp)) (hN : row.nChan = .arr (N ++ Np))
    (hM : row.matrix = M ++ Mp) :
    fullRmfRow arr.length t row = .ok (cutBelow thr arr) := by
  have := full_loop h row [] [] [] Fp Np Mp hF hN hM rfl rfl [] rfl
  simp only [fullRmfRow, hn, List.range_eq_range']
  simpa using this

theorem StoredRow.enc {t : ℤ} {thr lo hi : ℝ} {arr : List ℝ} {row : RmfRow}
    (h : StoredRow t thr lo hi arr row) : ∃ F N, row.fChan = .arr F ∧ row.nChan = .arr N ∧
      row.nGrp = F.length ∧ Enc t thr 0 arr F N row.matrix := by
  obtain ⟨_, _, g, h1, h2, h3, h4, h5⟩ := h
  obtain ⟨g', k1, k2, k3⟩ := encode_ok arr t thr
  have hg : g' = g := by rw [h1] at k1; cases k1; rfl
  subst hg
  exact ⟨g'.fChan, g'.nChan, h3, h4, by rw [h2, k2], by rw [h5]; exact k3⟩

theorem find_stored (t : ℤ) (thr energy : ℝ) (arrs : List (ℝ × ℝ × List ℝ)) (rows : List RmfRow)
    (h : List.Forall₂ (fun a row => StoredRow t thr a.1 a.2.1 a.2.2 row) arrs rows) :
    (arrs.find? (fun a => decide (a.1 ≤ energy ∧ energy < a.2.1)) = none ∧
      rows.find? (fun x => decide (x.energLo ≤ energy ∧ energy < x.energHi)) = none) ∨
    ∃ a row, arrs.find? (fun a => decide (a.1 ≤ energy ∧ energy < a.2.1)) = some a ∧
      rows.find? (fun x => decide (x.energLo ≤ energy ∧ energy < x.energHi)) = some row ∧
      StoredRow t thr a.1 a.2.1 a.2.2 row := by
  induction h with
  | nil => left; simp
  | @cons a row arrs rows h1 h ih =>
    by_cases hc : a.1 ≤ energy ∧ energy < a.2.1
    · right
      refine ⟨a, row, ?_, ?_, h1⟩
      · simp [List.find?_cons, hc]
      · simp [List.find?_cons, h1.1, h1.2.1, hc]
    · have hc' : ¬ (row.energLo ≤ energy ∧ energy < row.energHi) := by rw [h1.1, h1.2.1]; exact hc
      simp only [List.find?_cons, hc, hc', decide_false]
      exact ih

/-- **C37** For an RMF whose rows were written by the library's encoder with the first channel number
`t` that is also in its header, `full_rmf` returns the encoded response (cut at the threshold) of
the row that contains the energy, with the bounds of all channels.  If no row contains the energy
an exception is raised. -/
theorem C37_full_rmf (r : RMF) (t : ℤ) (thr energy : ℝ) (arrs : List (ℝ × ℝ × List ℝ))
    (h : List.Forall₂ (fun a row => StoredRow t thr a.1 a.2.1 a.2.2 row) arrs r.rows)
    (ht : r.tlmin = some t) (hlen : ∀ a ∈ arrs, a.2.2.length = r.eMin.length) :
    r.fullRmf energy =
      match arrs.find? fun a => decide (a.1 ≤ energy ∧ energy < a.2.1) with
      | some a => .ok (r.eMin, r.eMax, cutBelow thr a.2.2)
      | none => .error .indexError := by
  rcases find_stored t thr energy arrs r.rows h with ⟨h1, h2⟩ | ⟨a, row, h1, h2, h3⟩
  · simp only [RMF.fullRmf, RMF.row, h1, h2]
  · obtain ⟨F, N, k1, k2, k3, k4⟩ := h3.enc
    have := full_row k4 row [] [] [] k3 (by simpa using k1) (by simpa using k2) (by simp)
    rw [hlen a (List.mem_of_find?_eq_some h1)] at this
    simp only [RMF.fullRmf, RMF.row, h1, h2, ht, this]

/-- Positions above the threshold, counting from `k`. -/
noncomputable def aboveFrom (thr : ℝ) (k : ℕ) (l : List ℝ) : List ℕ :=
  nonzeroFrom k (l.map fun x => decide (thr < x))

theorem nonzeroFrom_append (k : ℕ) (a b : List Bool) :
    nonzeroFrom k (a ++ b) = nonzeroFrom k a ++ nonzeroFrom (k + a.length) b := by
  induction a generalizing k with
  | nil => simp [nonzeroFrom]
  | cons x a ih =>
    cases x <;> simp [nonzeroFrom, ih, Nat.add_assoc, Nat.add_comm 1]

theorem nonzeroFrom_false (k : ℕ) (a : List Bool) (h : ∀ x ∈ a, x = false) :
    nonzeroFrom k a = [] := by
  induction a generalizing k with
  | nil => rfl
  | cons x a ih =>
    have := h x (by simp)
    subst this
    simpa [nonzeroFrom] using ih _ (fun y hy => h y (by simp [hy]))

theorem nonzeroFrom_true (k : ℕ) (a : List Bool) (h : ∀ x ∈ a, x = true) :
    nonzeroFrom k a = List.range' k a.length := by
  induction a generalizing k with
  | nil => rfl
  | cons x a ih =>
    have := h x (by simp)
    subst this
    simp only [nonzeroFrom, List.length_cons, List.range'_succ]
    rw [ih _ (fun y hy => h y (by simp [hy]))]

theorem nonzeroFrom_eq (l : List Bool) (k : ℕ) :
    nonzeroFrom k l = (List.range' k l.length).filter fun i => l.getD (i - k) false := by
  induction l generalizing k with
  | nil => simp [nonzeroFrom]
  | cons x l ih =>
    have h : (List.range' (k + 1) l.length).filter (fun i => (x :: l).getD (i - k) false) =
        (List.range' (k + 1) l.length).filter (fun i => l.getD (i - (k + 1)) false) := by
      apply List.filter_congr
      intro i hi
      have := (List.mem_range'_1.1 hi).1
      rw [show i - k = (i - (k + 1)) + 1 by omega]
      simp
    rw [List.length_cons, List.range'_succ, List.filter_cons, h, ← ih]
    cases x <;> simp [nonzeroFrom]

theorem aboveFrom_zero (thr : ℝ) (l : List ℝ) : aboveFrom thr 0 l = aboveThr thr l := by
  simp only [aboveFrom, nonzeroFrom_eq, List.length_map, ← List.range_eq_range', aboveThr]
  apply List.filter_congr
  intro i hi
  have : i < l.length := List.mem_range.1 hi
  simp [this]

theorem indices_loop {t : ℤ} {thr : ℝ} {k : ℕ} {l : List ℝ} {F N : List ℤ} {M : List ℝ}
    (h : Enc t thr k l F N M) (row : RmfRow) (Fd Nd : List ℤ)
    (hF : row.fChan = .arr (Fd ++ F)) (hN : row.nChan = .arr (Nd ++ N))
    (hlen : Fd.length = Nd.length) :
    ∃ ls : List (List ℤ), (List.range' Fd.length F.length).mapM (m := Except Err) (fun i => do
      let f ← row.fChan.get i
      let n ← row.nChan.get i
      pure (arangeZ (f - 1) (f + n - 1))) = .ok ls ∧
      ls.flatten = (aboveFrom thr k l).map fun i : ℕ => (i : ℤ) + t - 1 := by
  induction h generalizing Fd Nd with
  | nil k z hz =>
    refine ⟨[], rfl, ?_⟩
    simp only [aboveFrom]
    rw [nonzeroFrom_false]
    · rfl
    · simpa using hz
  | cons k z b r F N M hz hb hne hr h ih =>
    obtain ⟨ls, h1, h2⟩ := ih (Fd ++ [((k + z.length : ℕ) : ℤ) + t]) (Nd ++ [(b.length : ℤ)])
      (by simpa using hF) (by simpa using hN) (by simp [hlen])
    have e1 : row.fChan.get Fd.length = .ok (((k + z.length : ℕ) : ℤ) + t) := by
      rw [hF]; exact pyGet_append _ _ _
    have e2 : row.nChan.get Fd.length = .ok (b.length : ℤ) := by
      rw [hN, hlen]; exact pyGet_append _ _ _
    refine ⟨arangeZ (((k + z.length : ℕ) : ℤ) + t - 1)
      (((k + z.length : ℕ) : ℤ) + t + (b.length : ℤ) - 1) :: ls, ?_, ?_⟩
    · rw [List.length_cons, List.range'_succ, List.mapM_cons, e1, e2]
      have e3 : (Fd ++ [((k + z.length : ℕ) : ℤ) + t]).length = Fd.length + 1 := by simp
      rw [e3] at h1
      simp only [bind, Except.bind, pure, Except.pure] at h1 ⊢
      rw [h1]
    · rw [List.flatten_cons, h2]
      simp only [aboveFrom, List.map_append, nonzeroFrom_append, List.length_map]
      rw [nonzeroFrom_false _ (z.map _) (by simpa using hz),
        nonzeroFrom_true _ (b.map _) (by simpa using hb)]
      simp only [List.nil_append, List.length_map, List.map_append, List.map_nil]
      congr 1
      simp only [arangeZ, List.range'_eq_map_range, List.map_map]
      rw [show ((((k + z.length : ℕ) : ℤ) + t + (b.length : ℤ) - 1) -
        (((k + z.length : ℕ) : ℤ) + t - 1)).toNat = b.length by omega]
      apply List.map_congr_left
      intro i _
      simp only [Function.comp]
      push_cast
      ring

theorem indices_row {t : ℤ} {thr lo hi : ℝ} {arr : List ℝ} {row : RmfRow}
    (h : StoredRow t thr lo hi arr row) :
    rmfIndices row = if aboveThr thr arr = [] then .error .valueError
      else .ok ((aboveThr thr arr).map fun i : ℕ => (i : ℤ) + t - 1) := by
  obtain ⟨F, N, k1, k2, k3, k4⟩ := h.enc
  obtain ⟨ls, h1, h2⟩ := indices_loop k4 row [] [] (by simpa using k1) (by simpa using k2) rfl
  rw [aboveFrom_zero] at h2
  simp only [List.length_nil, ← List.range_eq_range'] at h1
  have hiff : row.nGrp = 0 ↔ aboveThr thr arr = [] := by
    rw [k3, List.length_eq_zero_iff, ← aboveFrom_zero]
    generalize row.matrix = M at k4
    clear k1 k2 k3 h1 h2
    cases k4 with
    | nil _ z hz =>
      simp only [true_iff, aboveFrom]
      rw [nonzeroFrom_false]
      simpa using hz
    | cons _ z b r F N M hz hb hne hr h =>
      simp only [reduceCtorEq, false_iff, aboveFrom, List.map_append, nonzeroFrom_append]
      rw [nonzeroFrom_true _ (b.map _) (by simpa using hb)]
      intro hh
      simp [hne] at hh
  simp only [rmfIndices, hiff]
  simp only [k3, h1, h2]

theorem fancyGet_nat (l : List ℝ) (ps : List ℕ) (h : ∀ i ∈ ps, i < l.length) :
    fancyGet l (ps.map fun i : ℕ => (i : ℤ)) = .ok (ps.map fun i => l.getD i 0) := by
  induction ps with
  | nil => rfl
  | cons p ps ih =>
    have h1 := ih (fun i hi => h i (by simp [hi]))
    have h2 := h p (by simp)
    simp only [fancyGet] at h1 ⊢
    have h3 : pyGet l (p : ℤ) = .ok (l.getD p 0) := by
      have : ¬ ((p : ℤ) < 0) := by omega
      simp [pyGet, this, h2]
    simp only [List.map_cons, List.mapM_cons, h3, h1, bind, Except.bind, pure, Except.pure]

/-- The values above the threshold are the entries of the array at the positions `aboveThr`. -/
theorem filter_above (thr : ℝ) (arr : List ℝ) :
    arr.filter (fun x => decide (thr < x)) = (aboveThr thr arr).map fun i => arr.getD i 0 := by
  have : ∀ (pre l : List ℝ), l.filter (fun x => decide (thr < x)) =
      (aboveFrom thr pre.length l).map fun i => (pre ++ l).getD i 0 := by
    intro pre l
    induction l generalizing pre with
    | nil => rfl
    | cons x l ih =>
      have := ih (pre ++ [x])
      simp only [List.length_append, List.length_cons, List.length_nil, Nat.zero_add,
        List.append_assoc, List.cons_append, List.nil_append, aboveFrom] at this
      by_cases h : thr < x
      · simp only [h, decide_true, List.filter_cons_of_pos, aboveFrom, List.map_cons, nonzeroFrom]
        rw [this]
        simp
      · simp only [h, decide_false, Bool.false_eq_true, not_false_eq_true,
          List.filter_cons_of_neg, aboveFrom, List.map_cons, nonzeroFrom]
        rw [this]
  have h := this [] arr
  rw [List.length_nil, aboveFrom_zero] at h
  simpa using h

/-- **C37** (partial: only for RMFs with first channel number 1, and rows with at least one channel
above the threshold.)  `rmf` returns, for the row that contains the energy, the energy bounds of exactly
the channels with response above the threshold, in order, together with their responses. -/
theorem C37_rmf_partial (r : RMF) (thr energy : ℝ) (arrs : List (ℝ × ℝ × List ℝ))
    (a : ℝ × ℝ × List ℝ)
    (h : List.Forall₂ (fun a row => StoredRow 1 thr a.1 a.2.1 a.2.2 row) arrs r.rows)
    (hlen : ∀ a ∈ arrs, a.2.2.length = r.eMin.length) (hlen' : r.eMin.length = r.eMax.length)
    (ha : arrs.find? (fun a => decide (a.1 ≤ energy ∧ energy < a.2.1)) = some a)
    (hne : aboveThr thr a.2.2 ≠ []) :
    r.rmf energy = .ok ((aboveThr thr a.2.2).map (fun i => r.eMin.getD i 0),
      (aboveThr thr a.2.2).map (fun i => r.eMax.getD i 0),
      (aboveThr thr a.2.2).map (fun i => a.2.2.getD i 0)) := by
  rcases find_stored 1 thr energy arrs r.rows h with ⟨h1, h2⟩ | ⟨a', row, h1, h2, h3⟩
  · rw [h1] at ha; cases ha
  · have haa : a' = a := by rw [h1] at ha; cases ha; rfl
    subst haa
    have h4 := indices_row h3
    rw [if_neg hne] at h4
    have h5 : ((aboveThr thr a'.2.2).map fun i : ℕ => (i : ℤ) + 1 - 1) =
        (aboveThr thr a'.2.2).map fun i : ℕ => (i : ℤ) := by
      apply List.map_congr_left; intro i _; ring
    rw [h5] at h4
    have hl := hlen a' (List.mem_of_find?_eq_some h1)
    have h6 : ∀ i ∈ aboveThr thr a'.2.2, i < r.eMin.length := by
      intro i hi
      simp only [aboveThr, List.mem_filter, List.mem_range] at hi
      omega
    have h7 := fancyGet_nat r.eMin _ h6
    have h8 := fancyGet_nat r.eMax _ (fun i hi => hlen' ▸ h6 i hi)
    have h9 : row.matrix = (aboveThr thr a'.2.2).map (fun i => a'.2.2.getD i 0) := by
      obtain ⟨_, _, g, k1, _, _, _, k5⟩ := h3
      rw [k5, (C36_groups _ _ _ _ k1).2.2.2.2.2.2, filter_above]
    simp only [RMF.rmf, RMF.row, h2, h4, h7, h8, h9]

/-- An RMF with two rows and first channel number 1 that meets the hypotheses: the row for 1 to 2 keV has its response in the second and third channel. -/
example : ∃ (r : RMF) (arrs : List (ℝ × ℝ × List ℝ)) (a : ℝ × ℝ × List ℝ),
    List.Forall₂ (fun a row => StoredRow 1 (1 / 2) a.1 a.2.1 a.2.2 row) arrs r.rows ∧ (∀ a ∈ arrs, a.2.2.length = r.eMin.length) ∧
    r.eMin.length = r.eMax.length ∧ arrs.find? (fun a => decide (a.1 ≤ 3 / 2 ∧ 3 / 2 < a.2.1)) = some a ∧ aboveThr (1 / 2) a.2.2 ≠ [] ∧
    r.rmf (3 / 2) = .ok ([1, 2], [2, 3], [1, 1]) := by
  have h1 : ((1 : ℝ) / 2 < 1) := by norm_num
  have h3 : ¬ ((1 : ℝ) / 2 < 0) := by norm_num
  have e1 : arrToRmfRow [1, 0, 0] 1 (1 / 2) = .ok ⟨1, [1], [1], [1]⟩ := by
    simp [arrToRmfRow, h1, h3, diffBool, nonzeroFrom, reshapePairs, sel, -one_div]
  have e2 : arrToRmfRow [0, 1, 1] 1 (1 / 2) = .ok ⟨1, [2], [2], [1, 1]⟩ := by
    simp [arrToRmfRow, h1, h3, diffBool, nonzeroFrom, reshapePairs, sel, -one_div]
  have hf : ([(0, 1, [1, 0, 0]), (1, 2, [0, 1, 1])] : List (ℝ × ℝ × List ℝ)).find? (fun a => decide (a.1 ≤ 3 / 2 ∧ 3 / 2 < a.2.1)) = some (1, 2, [0, 1, 1]) := by
    norm_num [List.find?]
  have ha : aboveThr (1 / 2) [0, 1, 1] = [1, 2] := by
    simp [aboveThr, List.range_succ, h1, h3, -one_div]
  have hs : List.Forall₂ (fun a row => StoredRow 1 (1 / 2) a.1 a.2.1 a.2.2 row) ([(0, 1, [1, 0, 0]), (1, 2, [0, 1, 1])] : List (ℝ × ℝ × List ℝ))
      [⟨0, 1, 1, .arr [1], .arr [1], [1]⟩, ⟨1, 2, 1, .arr [2], .arr [2], [1, 1]⟩] :=
    .cons ⟨rfl, rfl, _, e1, rfl, rfl, rfl, rfl⟩ (.cons ⟨rfl, rfl, _, e2, rfl, rfl, rfl, rfl⟩ .nil)
  refine ⟨⟨[⟨0, 1, 1, .arr [1], .arr [1], [1]⟩, ⟨1, 2, 1, .arr [2], .arr [2], [1, 1]⟩], some 1, [0, 1, 2], [1, 2, 3]⟩, _, _, hs, by simp, rfl, hf, by simp [ha, -one_div], ?_⟩
  rw [C37_rmf_partial _ (1 / 2) (3 / 2) _ _ hs (by simp) rfl hf (by simp [ha, -one_div])]
  simp [ha, -one_div]

/-- **C37** Where the full property fails: with any first channel number `t` the function `rmf` selects
the channels shifted by `t - 1`, because the code subtracts 1 instead of `TLMIN`; rows without
any response above the threshold raise an exception. -/
theorem C37_rmf_shifted (thr lo hi : ℝ) (t : ℤ) (arr : List ℝ) (row : RmfRow)
    (h : StoredRow t thr lo hi arr row) :
    rmfIndices row = if aboveThr thr arr = [] then .error .valueError
      else .ok ((aboveThr thr arr).map fun i : ℕ => (i : ℤ) + t - 1) := indices_row h

/-- **C37** A concrete RMF with the convention of `make_rmf` (`TLMIN = 0`) for which `rmf` returns the energy
bounds of the wrong channel: the response is in channel 1 (1 to 2 keV), `rmf` reports 0 to 1 keV. -/
theorem C37_rmf_false : ∃ (r : RMF) (arrs : List (ℝ × ℝ × List ℝ)),
    List.Forall₂ (fun a row => StoredRow 0 (1 / 2) a.1 a.2.1 a.2.2 row) arrs r.rows ∧
    r.tlmin = some 0 ∧ r.fullRmf (3 / 2) = .ok ([0, 1], [1, 2], [0, 1]) ∧
    r.rmf (3 / 2) = .ok ([0], [1], [1]) := by
  have h1 : ((1 : ℝ) / 2 < 1) := by norm_num
  have h3 : ¬ ((1 : ℝ) / 2 < 0) := by norm_num
  have henc : arrToRmfRow [0, 1] 0 (1 / 2) = .ok ⟨1, [1], [1], [1]⟩ := by
    simp [arrToRmfRow, h1, h3, diffBool, nonzeroFrom, reshapePairs, sel, -one_div]
  refine ⟨⟨[⟨1, 2, 1, .arr [1], .arr [1], [1]⟩], some 0, [0, 1], [1, 2]⟩, [(1, 2, [0, 1])], ?_,
    rfl, ?_, ?_⟩
  · exact .cons ⟨rfl, rfl, _, henc, rfl, rfl, rfl, rfl⟩ .nil
  · have hr : ((1 : ℝ) ≤ 3 / 2) := by norm_num
    have hr' : ((3 : ℝ) / 2 < 2) := by norm_num
    simp [RMF.fullRmf, RMF.row, hr, hr', fullRmfRow, List.range_succ, fullRmfStep, ChanCell.get,
      ChanCell.matindex, pyGet, cumsumZ, getSlice, setSlice, pySliceEnd]
  · have hr : ((1 : ℝ) ≤ 3 / 2) := by norm_num
    have hr' : ((3 : ℝ) / 2 < 2) := by norm_num
    simp [RMF.rmf, RMF.row, hr, hr', rmfIndices, List.range_succ, ChanCell.get, pyGet,
      arangeZ, fancyGet, bind, Except.bind, pure, Except.pure]

/-! ## C38 -/

theorem sortReal_perm (l : List ℝ) : (sortReal l).Perm l := List.mergeSort_perm l _

theorem sortReal_pairwise (l : List ℝ) : (sortReal l).Pairwise (· ≤ ·) := by
  have := List.pairwise_mergeSort (le := fun a b : ℝ => decide (a ≤ b))
    (by simp only [decide_eq_true_eq]; exact fun a b c => le_trans)
    (by simp only [Bool.or_eq_true, decide_eq_true_eq]; exact le_total) l
  simpa [sortReal] using this

theorem sortReal_unique (l s : List ℝ) (hp : s.Perm l) (hs : s.Pairwise (· ≤ ·)) :
    sortReal l = s :=
  ((sortReal_perm l).trans hp.symm).eq_of_pairwise (fun _ _ _ _ h1 h2 => le_antisymm h1 h2)
    (sortReal_pairwise l) hs

theorem dropLast_getD {α : Type} (l : List α) (d : α) (i : ℕ) (h : i + 1 < l.length) :
    l.dropLast.getD i d = l.getD i d := by
  have h1 : i < l.dropLast.length := by simp; omega
  rw [List.getD_eq_getElem _ _ h1, List.getD_eq_getElem _ _ (by omega), List.getElem_dropLast]

theorem tail_getD {α : Type} (l : List α) (d : α) (i : ℕ) : l.tail.getD i d = l.getD (i + 1) d := by
  cases l <;> simp

/-- **C38** The energy bounds tile: one channel fewer than edges, numbered from 0; in each channel
`E_MIN ≤ E_MAX` (strictly, if no two edges are the same energy), and the upper bound of each channel is
the lower bound of the next one. -/
theorem C38_tiling (conv : ℝ → ℝ) (edges : List ℝ) (ch : List ℕ) (lo hi : List ℝ)
    (h : eboundsFromEdges conv edges = (ch, lo, hi)) :
    ch = List.range (edges.length - 1) ∧ lo.length = edges.length - 1 ∧
    hi.length = edges.length - 1 ∧
    (∀ i, i < edges.length - 1 → lo.getD i 0 ≤ hi.getD i 0) ∧
    ((edges.map conv).Nodup → ∀ i, i < edges.length - 1 → lo.getD i 0 < hi.getD i 0) ∧
    (∀ i, i + 1 < edges.length - 1 → hi.getD i 0 = lo.getD (i + 1) 0) := by
  simp only [eboundsFromEdges, Prod.mk.injEq] at h
  obtain ⟨rfl, rfl, rfl⟩ := h
  have hl : (sortReal (edges.map conv)).length = edges.length := by
    rw [(sortReal_perm _).length_eq, List.length_map]
  have hp := List.pairwise_iff_getElem.1 (sortReal_pairwise (edges.map conv))
  refine ⟨rfl, by simp [hl], by simp [hl], ?_, ?_, ?_⟩
  · intro i hi
    rw [dropLast_getD _ _ _ (by omega), tail_getD, List.getD_eq_getElem _ _ (by omega),
      List.getD_eq_getElem _ _ (by omega)]
    exact hp i (i + 1) (by omega) (by omega) (by omega)
  · intro hnd i hi
    rw [dropLast_getD _ _ _ (by omega), tail_getD, List.getD_eq_getElem _ _ (by omega),
      List.getD_eq_getElem _ _ (by omega)]
    refine lt_of_le_of_ne (hp i (i + 1) (by omega) (by omega) (by omega)) ?_
    intro he
    have := (List.Nodup.getElem_inj_iff ((sortReal_perm _).nodup_iff.2 hnd)).1 he
    omega
  · intro i hi
    rw [dropLast_getD _ _ _ (by omega), tail_getD]

/-- **C38** The bounds are the given edges: the lowest bound and all upper bounds together are the
converted edges, each as often as it was given. -/
theorem C38_edges (conv : ℝ → ℝ) (edges : List ℝ) (ch : List ℕ) (lo hi : List ℝ)
    (h : eboundsFromEdges conv edges = (ch, lo, hi)) (hn : 2 ≤ edges.length) :
    ∃ e0, lo.head? = some e0 ∧ (e0 :: hi).Perm (edges.map conv) := by
  simp only [eboundsFromEdges, Prod.mk.injEq] at h
  obtain ⟨rfl, rfl, rfl⟩ := h
  have hl : (sortReal (edges.map conv)).length = edges.length := by
    rw [(sortReal_perm _).length_eq, List.length_map]
  have hp := sortReal_perm (edges.map conv)
  generalize sortReal (edges.map conv) = s at hl hp
  match s, hl with
  | [], hl => simp at hl; omega
  | [a], hl => simp at hl; omega
  | a :: b :: s, hl => exact ⟨a, by simp [List.dropLast], by simpa using hp⟩

/-- **C38** Edges in ascending order of energy are used as they are; edges in ascending order of (positive)
wavelength are used in reversed order, so that channels always have ascending energies. -/
theorem C38_order (hc : ℝ) (hhc : 0 < hc) (edges : List ℝ) :
    (edges.Pairwise (· ≤ ·) → (eboundsFromEdges id edges).2 = (edges.dropLast, edges.tail)) ∧
    (edges.Pairwise (· ≤ ·) → (∀ w ∈ edges, 0 < w) →
      (eboundsFromEdges (fun w => hc / w) edges).2 =
        ((edges.tail.map fun w => hc / w).reverse, (edges.dropLast.map fun w => hc / w).reverse)) := by
  constructor
  · intro h
    have := sortReal_unique edges edges (List.Perm.refl _) h
    simp [eboundsFromEdges, this]
  · intro h hpos
    have : sortReal (edges.map fun w => hc / w) = (edges.map fun w => hc / w).reverse := by
      apply sortReal_unique
      · exact List.reverse_perm _
      · rw [List.pairwise_reverse, List.pairwise_map]
        refine List.Pairwise.imp_of_mem ?_ h
        intro a b ha hb hab
        exact div_le_div_of_nonneg_left hhc.le (hpos a ha) hab
    simp only [eboundsFromEdges, this, List.dropLast_reverse, List.tail_reverse]
    rw [List.map_tail, List.map_dropLast]

theorem tile_exists (a : ℝ) (l : List ℝ) (e : ℝ) (h1 : a ≤ e)
    (h2 : e < (a :: l).getLast (by simp)) :
    ∃ i, i < l.length ∧ (a :: l).getD i 0 ≤ e ∧ e < (a :: l).getD (i + 1) 0 := by
  induction l generalizing a with
  | nil => simp at h2; linarith
  | cons b l ih =>
    by_cases hb : e < b
    · exact ⟨0, by simp, by simpa using h1, by simpa using hb⟩
    · obtain ⟨i, k1, k2, k3⟩ := ih b (not_lt.1 hb) (by simpa using h2)
      exact ⟨i + 1, by simpa using k1, by simpa using k2, by simpa using k3⟩

/-- **C38** Every energy from the lowest edge up to (not including) the highest edge is in exactly one
channel. -/
theorem C38_each_energy (conv : ℝ → ℝ) (edges : List ℝ) (ch : List ℕ) (lo hi : List ℝ)
    (h : eboundsFromEdges conv edges = (ch, lo, hi)) (e : ℝ)
    (hmin : ∃ x ∈ edges, conv x ≤ e) (hmax : ∃ x ∈ edges, e < conv x) :
    ∃! i, i < lo.length ∧ lo.getD i 0 ≤ e ∧ e < hi.getD i 0 := by
  simp only [eboundsFromEdges, Prod.mk.injEq] at h
  obtain ⟨rfl, rfl, rfl⟩ := h
  have hl : (sortReal (edges.map conv)).length = edges.length := by
    rw [(sortReal_perm _).length_eq, List.length_map]
  have hp := sortReal_pairwise (edges.map conv)
  have hmem : ∀ x ∈ edges, conv x ∈ sortReal (edges.map conv) := fun x hx =>
    (sortReal_perm _).mem_iff.2 (List.mem_map_of_mem hx)
  generalize sortReal (edges.map conv) = s at hl hp hmem
  obtain ⟨x, hx, hxe⟩ := hmin
  obtain ⟨y, hy, hye⟩ := hmax
  have hx' := hmem x hx
  have hy' := hmem y hy
  match s, hp, hx', hy' with
  | a :: l, hp, hx', hy' =>
    have ha : a ≤ e := by
      rcases List.mem_cons.1 hx' with h | h
      · linarith
      · linarith [(List.pairwise_cons.1 hp).1 _ h]
    have hlast : conv y ≤ (a :: l).getLast (by simp) := by
      have hp' := List.pairwise_iff_getElem.1 hp
      obtain ⟨i, hi, hiy⟩ := List.getElem_of_mem hy'
      rw [List.getLast_eq_getElem, ← hiy]
      rcases Nat.lt_or_ge i ((a :: l).length - 1) with hlt | hge
      · exact hp' _ _ _ _ hlt
      · have : i = (a :: l).length - 1 := by omega
        subst this
        exact le_refl _
    obtain ⟨i, k1, k2, k3⟩ := tile_exists a l e ha (by linarith)
    refine ⟨i, ⟨by simpa using k1, ?_, ?_⟩, ?_⟩
    · rw [dropLast_getD _ _ _ (by simpa using k1)]; exact k2
    · rw [tail_getD]; exact k3
    · rintro j ⟨j1, j2, j3⟩
      have j1' : j < l.length := by simpa using j1
      rw [dropLast_getD _ _ _ (by simpa using j1')] at j2
      rw [tail_getD] at j3
      have hp' := List.pairwise_iff_getElem.1 hp
      have mono : ∀ p q, p ≤ q → q < (a :: l).length → (a :: l).getD p 0 ≤ (a :: l).getD q 0 := by
        intro p q hpq hq
        rw [List.getD_eq_getElem _ _ (by omega), List.getD_eq_getElem _ _ hq]
        rcases Nat.lt_or_ge p q with h | h
        · exact hp' _ _ _ _ h
        · have : p = q := by omega
          subst this; exact le_refl _
      rcases Nat.lt_trichotomy i j with h | h | h
      · have := mono (i + 1) j (by omega) (by simp; omega)
        linarith
      · exact h.symm
      · have := mono (j + 1) i (by omega) (by simp; omega)
        linarith

/-- Wavelength edges 1, 2, 4 with hc = 4: channels [1, 2] and [2, 4]. -/
example : eboundsFromEdges (fun w => 4 / w) [1, 2, 4] = ([0, 1], [1, 2], [2, 4]) := by
  have h := (C38_order 4 (by norm_num) [1, 2, 4]).2 (by norm_num) (by norm_num)
  have h1 : (eboundsFromEdges (fun w => 4 / w) [1, 2, 4]).1 = [0, 1] := by
    simp [eboundsFromEdges, List.range_succ]
  have h2 : (eboundsFromEdges (fun w => 4 / w) [1, 2, 4]).2 = ([1, 2], [2, 4]) := by
    rw [h]; norm_num
  exact Prod.ext h1 h2

/-! ## C37: `make_rmf` -/

theorem mapM_forall₂ {α β : Type} {R : α → β → Prop} (f : α → Except Err β) (l : List α)
    (h : ∀ x ∈ l, ∃ y, f x = .ok y ∧ R x y) : ∃ ys, l.mapM f = .ok ys ∧ List.Forall₂ R l ys := by
  induction l with
  | nil => exact ⟨[], rfl, .nil⟩
  | cons x l ih =>
    obtain ⟨y, h1, h2⟩ := h x (by simp)
    obtain ⟨ys, h3, h4⟩ := ih (fun z hz => h z (by simp [hz]))
    refine ⟨y :: ys, ?_, .cons h2 h4⟩
    simp only [List.mapM_cons, h1, h3, bind, Except.bind, pure, Except.pure]

theorem makeRmfRow_ok (hc thr : ℝ) (eMin eMax : List ℝ) (hl : eMin.length = eMax.length)
    (resp : ℝ → ℝ → ℝ) (lo hi : ℝ) :
    ∃ row, makeRmfRow hc thr eMin eMax resp lo hi = .ok row ∧ StoredRow 0 thr lo hi
      (List.zipWith (fun a b => resp (hc / b) (hc / a)) eMin eMax) row := by
  have e : (List.zipWith resp (eMax.map fun e => hc / e).reverse
      (eMin.map fun e => hc / e).reverse).reverse =
      List.zipWith (fun a b => resp (hc / b) (hc / a)) eMin eMax := by
    rw [← List.reverse_zipWith (by simp [hl]), List.reverse_reverse, List.zipWith_map,
      List.zipWith_comm]
  obtain ⟨g, h1, h2, h3⟩ := encode_ok
    (List.zipWith (fun a b => resp (hc / b) (hc / a)) eMin eMax) 0 thr
  refine ⟨⟨lo, hi, g.nGrp, .arr g.fChan, .arr g.nChan, g.matrix⟩, ?_,
    rfl, rfl, g, h1, rfl, rfl, rfl, rfl⟩
  simp only [makeRmfRow, e, h1]

/-- **C37** `make_rmf` never fails on the encoding, its channels are the energy bounds of C38, and for every
energy in channel `i` the function `full_rmf` returns, for each channel `c`, the line spread function
for the mid-wavelength of channel `i`, integrated over the wavelengths of channel `c`
(values not above the threshold are zero). -/
theorem C37_make_rmf (hc thr : ℝ) (lsf : ℝ → ℝ → ℝ → ℝ) (edges : List ℝ) (ch : List ℕ)
    (lo hi : List ℝ) (h : eboundsFromEdges (fun w => hc / w) edges = (ch, lo, hi)) :
    ∃ r, makeRmf hc thr lsf edges = .ok r ∧ r.eMin = lo ∧ r.eMax = hi ∧
      ∀ (e : ℝ) (i : ℕ), i < lo.length → lo.getD i 0 ≤ e → e < hi.getD i 0 →
        r.fullRmf e = .ok (lo, hi, cutBelow thr ((List.range lo.length).map fun c =>
          lsf ((hc / hi.getD i 0 + hc / lo.getD i 0) / 2)
            (hc / hi.getD c 0) (hc / lo.getD c 0))) := by
  obtain ⟨_, hl1, hl2, _⟩ := C38_tiling _ _ _ _ _ h
  have hl : lo.length = hi.length := by omega
  obtain ⟨rows, h1, h2⟩ := mapM_forall₂ (R := fun (p : ℝ × ℝ) row => StoredRow 0 thr p.1 p.2
      (List.zipWith (fun a b => lsf (1 / 2 * (hc / p.2 + hc / p.1)) (hc / b) (hc / a)) lo hi) row)
    (fun p => makeRmfRow hc thr lo hi (lsf (1 / 2 * (hc / p.2 + hc / p.1))) p.1 p.2)
    (List.zip lo hi) (fun p _ => makeRmfRow_ok hc thr lo hi hl _ p.1 p.2)
  refine ⟨⟨rows, some 0, lo, hi⟩, ?_, rfl, rfl, ?_⟩
  · simp only [makeRmf, h]
    rw [h1]
  · intro e i hi1 hi2 hi3
    have hfull := C37_full_rmf ⟨rows, some 0, lo, hi⟩ 0 thr e
      ((List.zip lo hi).map fun p => (p.1, p.2, List.zipWith (fun a b =>
        lsf (1 / 2 * (hc / p.2 + hc / p.1)) (hc / b) (hc / a)) lo hi))
      (by rw [List.forall₂_map_left_iff]; exact h2) rfl (by
        intro a ha
        obtain ⟨p, _, rfl⟩ := List.mem_map.1 ha
        simp [hl])
    rw [hfull]
    have hex : ∃ a, List.find? (fun a : ℝ × ℝ × List ℝ => decide (a.1 ≤ e ∧ e < a.2.1))
      ((List.zip lo hi).map fun p => (p.1, p.2, List.zipWith (fun a b =>
        lsf (1 / 2 * (hc / p.2 + hc / p.1)) (hc / b) (hc / a)) lo hi)) = some a := by
      rw [← Option.isSome_iff_exists, List.find?_isSome]
      refine ⟨_, List.mem_map_of_mem (List.getElem_mem (l := List.zip lo hi) (n := i)
        (by simp; omega)), ?_⟩
      rw [List.getD_eq_getElem _ _ (by omega)] at hi2 hi3
      simp [hi2, hi3]
    obtain ⟨a, ha⟩ := hex
    rw [ha]
    have hmem := List.mem_of_find?_eq_some ha
    have hcond : a.1 ≤ e ∧ e < a.2.1 := by simpa using List.find?_some ha
    obtain ⟨p, hp, rfl⟩ := List.mem_map.1 hmem
    obtain ⟨j, hj, rfl⟩ := List.getElem_of_mem hp
    have hj' : j < lo.length := by simp at hj; omega
    obtain ⟨k, _, huniq⟩ := C38_each_energy _ _ _ _ _ h e
      (by
        have := C38_edges _ _ _ _ _ h (by omega)
        obtain ⟨e0, he0, hperm⟩ := this
        have hmem0 : e0 ∈ edges.map fun w => hc / w := hperm.mem_iff.1 (by simp)
        obtain ⟨w, hw, hwe⟩ := List.mem_map.1 hmem0
        refine ⟨w, hw, ?_⟩
        rw [hwe]
        have hs := (C38_tiling _ _ _ _ _ h).2.2.2
        have hmono : ∀ q, q < lo.length → lo.getD 0 0 ≤ lo.getD q 0 := by
          intro q hq
          induction q with
          | zero => exact le_refl _
          | succ q ih =>
            have a1 := ih (by omega)
            have a2 := hs.1 q (by omega)
            have a3 := hs.2.2 q (by omega)
            linarith
        have hz : lo.getD 0 0 = e0 := by
          cases lo with
          | nil => simp at he0
          | cons x l => simp at he0; simp [he0]
        linarith [hmono i hi1])
      (by
        have := C38_edges _ _ _ _ _ h (by omega)
        obtain ⟨e0, he0, hperm⟩ := this
        have hmem0 : hi.getD i 0 ∈ edges.map fun w => hc / w := by
          refine hperm.mem_iff.1 ?_
          rw [List.getD_eq_getElem _ _ (by omega)]
          exact List.mem_cons_of_mem _ (List.getElem_mem _)
        obtain ⟨w, hw, hwe⟩ := List.mem_map.1 hmem0
        exact ⟨w, hw, by rw [hwe]; exact hi3⟩)
    have e1 := huniq i ⟨hi1, hi2, hi3⟩
    have e2 := huniq j ⟨hj', by
      rw [List.getD_eq_getElem _ _ hj']; simpa using hcond.1, by
      rw [List.getD_eq_getElem _ _ (by omega)]; simpa using hcond.2⟩
    have e3 : j = i := by rw [e1, e2]
    subst e3
    simp only [List.getElem_zip]
    congr 4
    apply List.ext_getElem
    · simp [hl]
    · intro c hc1 hc2
      have hc3 : c < lo.length := by simp at hc1; omega
      have hc4 : c < hi.length := by omega
      simp only [List.getElem_zipWith, List.getElem_map, List.getElem_range]
      rw [List.getD_eq_getElem lo _ hj', List.getD_eq_getElem hi _ (by omega),
        List.getD_eq_getElem lo _ hc3, List.getD_eq_getElem hi _ hc4]
      congr 1
      ring

/-! ## C42 -/

theorem lookup_filter_ne {V : Type} (cols : List (String × List V)) (name n : String)
    (h : n ≠ name) :
    (cols.filter fun p => decide (p.1 ≠ name)).lookup n = cols.lookup n := by
  induction cols with
  | nil => rfl
  | cons p cols ih =>
    obtain ⟨k, b⟩ := p
    by_cases hp : k = name
    · have : (n == k) = false := by simp [hp, h]
      rw [List.filter_cons_of_neg (by simp [hp]), ih, List.lookup_cons, this]
    · rw [List.filter_cons_of_pos (by simp [hp]), List.lookup_cons, List.lookup_cons, ih]

theorem lookup_filter_self {V : Type} (cols : List (String × List V)) (name : String) :
    (cols.filter fun p => decide (p.1 ≠ name)).lookup name = none := by
  induction cols with
  | nil => rfl
  | cons p cols ih =>
    obtain ⟨k, b⟩ := p
    by_cases hp : k = name
    · rw [List.filter_cons_of_neg (by simp [hp]), ih]
    · have : (name == k) = false := by simp [Ne.symm hp]
      rw [List.filter_cons_of_pos (by simp [hp]), List.lookup_cons, this, ih]

theorem lookup_replace {V : Type} (cols : List (String × List V)) (name n : String) (l : List V) :
    (cols.map fun p => if p.1 = name then (name, l) else p).lookup n =
      if n = name then (cols.lookup name).map (fun _ => l) else cols.lookup n := by
  induction cols with
  | nil => simp
  | cons p cols ih =>
    obtain ⟨k, b⟩ := p
    by_cases hp : k = name <;> by_cases hn : n = name
    · subst hn; simp [List.lookup_cons, hp]
    · have h1 : (n == name) = false := by simp [hn]
      simp only [List.map_cons, hp, if_true, List.lookup_cons, h1, ih, hn, if_false]
    · subst hn
      have h1 : (n == k) = false := by simp [Ne.symm hp]
      simp only [List.map_cons, hp, if_false, List.lookup_cons, h1, ih, if_true]
    · simp only [List.map_cons, hp, if_false, List.lookup_cons, ih, hn]

theorem lookup_mem {V : Type} (cols : List (String × List V)) (name : String) :
    name ∈ cols.map Prod.fst ↔ ∃ l, cols.lookup name = some l := by
  induction cols with
  | nil => simp
  | cons p cols ih =>
    obtain ⟨k, b⟩ := p
    by_cases hp : name = k
    · subst hp; simp
    · have : (name == k) = false := by simp [hp]
      simp only [List.map_cons, List.mem_cons, hp, false_or, ih, List.lookup_cons, this]

theorem lookup_append_one {V : Type} (cols : List (String × List V)) (name n : String) (l : List V)
    (h : cols.lookup name = none) :
    (cols ++ [(name, l)]).lookup n = if n = name then some l else cols.lookup n := by
  induction cols with
  | nil =>
    by_cases hn : n = name
    · subst hn; simp
    · have : (n == name) = false := by simp [hn]
      simp [List.lookup_cons, this, hn]
  | cons p cols ih =>
    obtain ⟨k, b⟩ := p
    rw [List.lookup_cons] at h
    by_cases hp : name = k
    · subst hp; simp at h
    · have h1 : (name == k) = false := by simp [hp]
      rw [h1] at h
      rw [List.cons_append, List.lookup_cons, ih h, List.lookup_cons]
      by_cases hn : n = k
      · subst hn
        simp [Ne.symm hp]
      · have h2 : (n == k) = false := by simp [hn]
        simp only [h2]

theorem shown_eq {V : Type} (t : CkTable V) (n : String) :
    ckShown t n = match t.metaDict n with
      | some v => some (List.replicate t.len v)
      | none => t.cols.lookup n := by
  unfold ckShown CkTable.get
  cases t.metaDict n with
  | some v => rfl
  | none => cases t.cols.lookup n <;> rfl

/-- Storing a constant. -/
theorem setConst_spec {V : Type} (t : CkTable V) (name : String) (v : V) (hc : CkClean t) :
    let t' : CkTable V := { t with
      metaDict := Function.update t.metaDict name (some v)
      cols := t.cols.filter fun p => decide (p.1 ≠ name) }
    CkClean t' ∧ t'.len = t.len ∧
      ckShown t' = Function.update (ckShown t) name (some (List.replicate t.len v)) := by
  refine ⟨?_, rfl, ?_⟩
  · intro n l hl
    by_cases hn : n = name
    · subst hn; rw [lookup_filter_self] at hl; cases hl
    · rw [lookup_filter_ne _ _ _ hn] at hl
      have := hc n l hl
      simpa [Function.update_of_ne hn] using this
  · funext n
    rw [shown_eq]
    by_cases hn : n = name
    · subst hn; simp
    · simp only [Function.update_of_ne hn, lookup_filter_ne _ _ _ hn, shown_eq]

/-- Storing a varying column for a name that is not in the header. -/
theorem setCol_spec {V : Type} (t t' : CkTable V) (name : String) (l : List V) (hc : CkClean t)
    (hm : t.metaDict name = none) (hv : Varying l) (h : setColumn t name l = .ok t') :
    CkClean t' ∧ t'.len = t.len ∧ ckShown t' = Function.update (ckShown t) name (some l) := by
  unfold setColumn at h
  split at h
  next hlen =>
    split at h
    next hmem =>
      cases h
      obtain ⟨l0, hl0⟩ := (lookup_mem _ _).1 hmem
      refine ⟨?_, rfl, ?_⟩
      · intro n l' hl'
        simp only [lookup_replace] at hl'
        by_cases hn : n = name
        · subst hn
          simp only [if_true, hl0, Option.map_some, Option.some.injEq] at hl'
          subst hl'
          exact ⟨hm, hlen, hv⟩
        · simp only [hn, if_false] at hl'
          exact hc n l' hl'
      · funext n
        simp only [shown_eq, lookup_replace]
        by_cases hn : n = name
        · subst hn; simp [hm, hl0]
        · simp [hn, shown_eq]
    next hmem =>
      cases h
      have hnone : t.cols.lookup name = none := by
        rw [lookup_mem] at hmem
        cases hh : t.cols.lookup name with
        | none => rfl
        | some x => exact absurd ⟨x, hh⟩ hmem
      refine ⟨?_, rfl, ?_⟩
      · intro n l' hl'
        simp only [lookup_append_one _ _ _ _ hnone] at hl'
        by_cases hn : n = name
        · subst hn
          simp only [if_true, Option.some.injEq] at hl'
          subst hl'
          exact ⟨hm, hlen, hv⟩
        · simp only [hn, if_false] at hl'
          exact hc n l' hl'
      · funext n
        simp only [shown_eq, lookup_append_one _ _ _ _ hnone]
        by_cases hn : n = name
        · subst hn; simp [hm]
        · simp [hn, shown_eq]
  next => cases h

theorem not_varying {V : Type} (v : V) (l : List V) : ¬ Varying (v :: l) ↔ ∀ x ∈ v :: l, x = v := by
  constructor
  · intro h x hx
    by_contra hne
    exact h ⟨x, hx, v, by simp, hne⟩
  · rintro h ⟨x, hx, y, hy, hne⟩
    exact hne ((h x hx).trans (h y hy).symm)

/-- One step of the refinement. -/
theorem ck_step {V : Type} (t t' : CkTable V) (op : CkOp V) (hc : CkClean t)
    (hop : match op with
      | .assign name (.arr l) => Varying l → ∀ v, ckShown t name ≠ some (List.replicate t.len v)
      | _ => True)
    (h : (match op with
      | .assign name value => t.set name value
      | .elem name i v => t.setElem name i v) = .ok t') :
    CkClean t' ∧ t'.len = t.len ∧ ckShown t' = ckSpec t.len (ckShown t) op := by
  match op with
  | .assign name (.scalar v) =>
    simp only [CkTable.set, Except.ok.injEq] at h
    subst h
    exact setConst_spec t name v hc
  | .assign name (.arr []) => simp [CkTable.set] at h
  | .assign name (.arr (v :: l)) =>
    simp only [CkTable.set] at h
    by_cases hv : ∀ x ∈ v :: l, x = v
    · rw [if_pos hv] at h
      cases h
      have hnv := (not_varying v l).2 hv
      have := setConst_spec t name v hc
      rw [ckSpec, if_neg hnv]
      exact this
    · rw [if_neg hv] at h
      have hvar : Varying (v :: l) := by
        by_contra hn
        exact hv ((not_varying v l).1 hn)
      rw [ckSpec, if_pos hvar]
      refine setCol_spec t t' name _ hc ?_ hvar h
      cases hm : t.metaDict name with
      | none => rfl
      | some w =>
        exfalso
        exact hop hvar w (by simp [shown_eq, hm])
  | .elem name i v =>
    simp only [CkTable.setElem, CkTable.get] at h
    cases hm : t.metaDict name with
    | some w => simp [hm] at h
    | none =>
      rw [hm] at h
      cases hl : t.cols.lookup name with
      | none => simp [hl] at h
      | some l =>
        rw [hl] at h
        simp only at h
        have hshown : ckShown t name = some l := by simp [shown_eq, hm, hl]
        have hll := (hc name l hl).2.1
        split at h
        next hi =>
          cases hl' : l.set i v with
          | nil =>
            have : (l.set i v).length = 0 := by rw [hl']; rfl
            simp at this
            subst this
            simp at hi
          | cons w r =>
            rw [hl'] at h
            by_cases hv : ∀ x ∈ w :: r, x = w
            · rw [if_pos (by intro x hx; simp [hv x hx])] at h
              cases h
              have e : List.replicate t.len w = w :: r := by
                symm
                rw [List.eq_replicate_iff]
                refine ⟨?_, hv⟩
                rw [← hl', List.length_set, hll]
              obtain ⟨q1, q2, q3⟩ := setConst_spec t name w hc
              rw [ckSpec, hshown, Option.map_some, hl']
              rw [e] at q3
              exact ⟨q1, q2, q3⟩
            · rw [if_neg (by
                intro hh; apply hv; intro x hx
                have := hh x hx
                simpa using this)] at h
              cases h
              have hvar : Varying (w :: r) := by
                by_contra hn
                exact hv ((not_varying w r).1 hn)
              rw [ckSpec, hshown, Option.map_some, hl']
              have hset : setColumn t name (w :: r) = .ok { t with
                  cols := t.cols.map fun p => if p.1 = name then (name, w :: r) else p } := by
                have e1 : (w :: r).length = t.len := by rw [← hl', List.length_set, hll]
                unfold setColumn
                rw [if_pos e1, if_pos ((lookup_mem _ _).2 ⟨l, hl⟩)]
              exact setCol_spec t _ name (w :: r) hc hm hvar hset
        next => cases h

theorem ck_refines {V : Type} (ops : List (CkOp V)) (t t' : CkTable V) (hc : CkClean t)
    (hgood : NoVaryingOverConst t.len (ckShown t) ops) (h : ckRun t ops = .ok t') :
    CkClean t' ∧ t'.len = t.len ∧ ckShown t' = ops.foldl (ckSpec t.len) (ckShown t) := by
  induction ops generalizing t with
  | nil => cases h; exact ⟨hc, rfl, rfl⟩
  | cons op ops ih =>
    obtain ⟨hg1, hg2⟩ := hgood
    have hstep : ∃ t1, (match op with
        | .assign name value => t.set name value
        | .elem name i v => t.setElem name i v) = .ok t1 ∧ ckRun t1 ops = .ok t' := by
      cases op with
      | assign name value =>
        simp only [ckRun] at h
        cases hs : t.set name value with
        | ok t1 => rw [hs] at h; exact ⟨t1, hs, h⟩
        | error e => rw [hs] at h; cases h
      | elem name i v =>
        simp only [ckRun] at h
        cases hs : t.setElem name i v with
        | ok t1 => rw [hs] at h; exact ⟨t1, hs, h⟩
        | error e => rw [hs] at h; cases h
    obtain ⟨t1, hs, hrun⟩ := hstep
    obtain ⟨k1, k2, k3⟩ := ck_step t t1 op hc hg1 hs
    have hg2' : NoVaryingOverConst t1.len (ckShown t1) ops := by rw [k2, k3]; exact hg2
    obtain ⟨m1, m2, m3⟩ := ih t1 k1 hg2' hrun
    exact ⟨m1, m2.trans k2, by rw [m3, k2, k3]; rfl⟩

/-- **C42** (partial: for histories in which no varying array is assigned to a name that holds a constant
at that moment.)  After any such history of assignments `t[name] = value` and `t[name][i] = value`
every name shows what was last written to it, whether it is stored as a column or as a header keyword. -/
theorem C42_last_written_partial {V : Type} (ops : List (CkOp V)) (t t' : CkTable V)
    (hc : CkClean t) (hgood : NoVaryingOverConst t.len (ckShown t) ops)
    (h : ckRun t ops = .ok t') :
    ckShown t' = ops.foldl (ckSpec t.len) (ckShown t) := (ck_refines ops t t' hc hgood h).2.2

/-- **C42** The excluded histories really go wrong: after `t['a'] = 1; t['a'] = [1, 2]` the table still
shows 1 for `a`, although the column is stored. -/
theorem C42_stale_keyword : ∃ t t' : CkTable ℕ, CkClean t ∧
    ckRun t [.assign "a" (.scalar 1), .assign "a" (.arr [1, 2])] = .ok t' ∧
    ckShown t' "a" = some [1, 1] ∧ t'.cols.lookup "a" = some [1, 2] := by
  refine ⟨⟨2, [], fun _ => none⟩, ⟨2, [("a", [1, 2])],
    Function.update (fun _ => none) "a" (some 1)⟩, ?_, ?_, ?_, ?_⟩
  · intro n l hl; simp at hl
  · simp [ckRun, CkTable.set, setColumn]
  · simp [ckShown, CkTable.get]
  · simp

/-- A history that meets the hypotheses of `C42_last_written_partial`: a column becomes constant by an
assignment to one of its elements, another name is set twice. -/
example : ∃ t t' : CkTable ℕ, CkClean t ∧
    NoVaryingOverConst t.len (ckShown t)
      [.elem "a" 1 7, .assign "b" (.arr [1, 2]), .assign "b" (.scalar 5)] ∧
    ckRun t [.elem "a" 1 7, .assign "b" (.arr [1, 2]), .assign "b" (.scalar 5)] = .ok t' ∧
    ckShown t' "a" = some [7, 7] ∧ ckShown t' "b" = some [5, 5] := by
  refine ⟨⟨2, [("a", [7, 8])], fun _ => none⟩, ⟨2, [],
    Function.update (Function.update (fun _ => none) "a" (some 7)) "b" (some 5)⟩, ?_, ?_, ?_, ?_, ?_⟩
  · intro n l hl
    by_cases hn : n = "a"
    · subst hn
      simp at hl
      subst hl
      exact ⟨rfl, rfl, 7, by simp, 8, by simp, by simp⟩
    · have : (n == "a") = false := by simp [hn]
      simp [List.lookup_cons, this] at hl
  · refine ⟨trivial, ?_, trivial, trivial⟩
    intro _ v
    simp [ckSpec, ckShown, CkTable.get, List.lookup_cons]
  · simp [ckRun, CkTable.setElem, CkTable.get, CkTable.set, setColumn]
  · simp [ckShown, CkTable.get]
  · simp [ckShown, CkTable.get]

/-! ## C74: fixed-length arrays -/

theorem foldl_max_le (l : List ℕ) (a : ℕ) : a ≤ l.foldl max a ∧ ∀ x ∈ l, x ≤ l.foldl max a := by
  induction l generalizing a with
  | nil => simp
  | cons y l ih =>
    obtain ⟨h1, h2⟩ := ih (max a y)
    refine ⟨by simp only [List.foldl_cons]; omega, ?_⟩
    intro x hx
    simp only [List.foldl_cons]
    rcases List.mem_cons.1 hx with rfl | h
    · omega
    · exact h2 x h

theorem foldl_max_mem (l : List ℕ) (a b : ℕ) (ha : a ≤ b) (hl : ∀ x ∈ l, x ≤ b) :
    l.foldl max a ≤ b := by
  induction l generalizing a with
  | nil => simpa
  | cons y l ih =>
    simp only [List.foldl_cons]
    exact ih _ (max_le ha (hl y (by simp))) (fun x hx => hl x (by simp [hx]))

/-- Groups, channels and matrix elements of a row, as lists. -/
theorem stored_lists {t : ℤ} {thr : ℝ} (rows : List RmfRow)
    (h : ∀ r ∈ rows, ∃ lo hi arr, StoredRow t thr lo hi arr r) :
    ∃ fs ns : List (List ℤ), rows.mapM (fun r => r.fChan.toList) = .ok fs ∧
      rows.mapM (fun r => r.nChan.toList) = .ok ns ∧
      List.Forall₂ (fun r (p : List ℤ × List ℤ) => r.fChan = .arr p.1 ∧ r.nChan = .arr p.2 ∧
        r.nGrp = p.1.length ∧ p.1.length = p.2.length ∧ p.2.sum = r.matrix.length ∧
        ∀ n ∈ p.2, 0 < n) rows (fs.zip ns) ∧ fs.length = rows.length ∧ ns.length = rows.length := by
  induction rows with
  | nil => exact ⟨[], [], rfl, rfl, .nil, rfl, rfl⟩
  | cons r rows ih =>
    obtain ⟨fs, ns, h1, h2, h3, h4, h5⟩ := ih (fun x hx => h x (by simp [hx]))
    obtain ⟨lo, hi, arr, hr⟩ := h r (by simp)
    obtain ⟨F, N, k1, k2, k3, k4⟩ := hr.enc
    refine ⟨F :: fs, N :: ns, ?_, ?_, ?_, by simp [h4], by simp [h5]⟩
    · have e : r.fChan.toList = .ok F := by rw [k1]; rfl
      simp only [List.mapM_cons, e, h1, bind, Except.bind, pure, Except.pure]
    · have e : r.nChan.toList = .ok N := by rw [k2]; rfl
      simp only [List.mapM_cons, e, h2, bind, Except.bind, pure, Except.pure]
    · exact .cons ⟨k1, k2, k3, k4.lengths.1, k4.lengths.2, k4.pos⟩ h3

/-- What `toFixedLength` does before `squeeze`. -/
theorem toFixed_eq {t : ℤ} {thr : ℝ} (rows : List RmfRow)
    (h : ∀ r ∈ rows, ∃ lo hi arr, StoredRow t thr lo hi arr r) (hne : ∃ r ∈ rows, 0 < r.nGrp) :
    ∃ (g w : ℕ) (fixed : List RmfRow), (∀ r ∈ rows, r.nGrp ≤ g) ∧ (∃ r ∈ rows, r.nGrp = g) ∧
      toFixedLength rows = squeezeAssign g fixed ∧
      List.Forall₂ (fun r r' => r'.energLo = r.energLo ∧ r'.energHi = r.energHi ∧
        r'.nGrp = r.nGrp ∧ ∃ F N, r.fChan = .arr F ∧ r.nChan = .arr N ∧
          r'.fChan = .arr (F ++ List.replicate (g - F.length) 0) ∧
          r'.nChan = .arr (N ++ List.replicate (g - N.length) 0) ∧ F.length = N.length ∧
          r.nGrp = F.length ∧
          r'.matrix = r.matrix ++ List.replicate (w - r.matrix.length) 0) rows fixed := by
  obtain ⟨fs, ns, h1, h2, h3, h4, h5⟩ := stored_lists rows h
  set g := (rows.map fun r => r.nGrp).foldl max 0 with hg
  set w := (ns.map fun l => l.sum.toNat).foldl max 0 with hw
  have hgle : ∀ r ∈ rows, r.nGrp ≤ g := fun r hr =>
    (foldl_max_le (rows.map fun r => r.nGrp) 0).2 _ (List.mem_map_of_mem hr)
  have hwle : ∀ N ∈ ns, N.sum.toNat ≤ w := fun N hN =>
    (foldl_max_le (ns.map fun l => l.sum.toNat) 0).2 _ (List.mem_map_of_mem hN)
  have hgex : ∃ r ∈ rows, r.nGrp = g := by
    by_contra hcon
    push Not at hcon
    have hlt : ∀ r ∈ rows, r.nGrp ≤ g - 1 := fun r hr => by
      have := hgle r hr
      have := hcon r hr
      omega
    have := foldl_max_mem (rows.map fun r => r.nGrp) 0 (g - 1) (by omega) (by
      intro x hx
      obtain ⟨r, hr, rfl⟩ := List.mem_map.1 hx
      exact hlt r hr)
    obtain ⟨r, hr, hpos⟩ := hne
    have := hgle r hr
    omega
  have hfix : ∀ r ∈ rows, ∃ r', fixedRow g w r = .ok r' ∧
      (r'.energLo = r.energLo ∧ r'.energHi = r.energHi ∧
        r'.nGrp = r.nGrp ∧ ∃ F N, r.fChan = .arr F ∧ r.nChan = .arr N ∧
          r'.fChan = .arr (F ++ List.replicate (g - F.length) 0) ∧
          r'.nChan = .arr (N ++ List.replicate (g - N.length) 0) ∧ F.length = N.length ∧
          r.nGrp = F.length ∧
          r'.matrix = r.matrix ++ List.replicate (w - r.matrix.length) 0) := by
    intro r hr
    obtain ⟨i, hi, rfl⟩ := List.getElem_of_mem hr
    have hz : i < (fs.zip ns).length := by simp; omega
    have := List.forall₂_iff_get.1 h3
    obtain ⟨k1, k2, k3, k4, k5, _⟩ := this.2 i hi hz
    simp only [List.get_eq_getElem, List.getElem_zip] at k1 k2 k3 k4 k5
    have hFi : i < fs.length := by omega
    have hNi : i < ns.length := by omega
    have a1 : fs[i].length ≤ g := by rw [← k3]; exact hgle _ hr
    have a2 : ns[i].length ≤ g := by rw [← k4]; exact a1
    have a3 : (rows[i]).matrix.length ≤ w := by
      have := hwle ns[i] (List.getElem_mem hNi)
      omega
    refine ⟨{ rows[i] with
      fChan := .arr (fs[i] ++ List.replicate (g - fs[i].length) 0)
      nChan := .arr (ns[i] ++ List.replicate (g - ns[i].length) 0)
      matrix := (rows[i]).matrix ++ List.replicate (w - (rows[i]).matrix.length) 0 },
      ?_, rfl, rfl, rfl, fs[i], ns[i], k1, k2, rfl, rfl, k4, k3, rfl⟩
    simp only [fixedRow, k1, k2, ChanCell.toList, padTo, a1, a2, a3, if_true, bind, Except.bind,
      pure, Except.pure]
  obtain ⟨fixed, hf1, hf2⟩ := mapM_forall₂ (fixedRow g w) rows hfix
  refine ⟨g, w, fixed, hgle, hgex, ?_, hf2⟩
  have hflat : ¬ (fs.flatten = [] ∨ ns.flatten = []) := by
    obtain ⟨r, hr, hpos⟩ := hne
    obtain ⟨i, hi, rfl⟩ := List.getElem_of_mem hr
    have hz : i < (fs.zip ns).length := by simp; omega
    obtain ⟨k1, k2, k3, k4, k5, _⟩ := (List.forall₂_iff_get.1 h3).2 i hi hz
    simp only [List.get_eq_getElem, List.getElem_zip] at k1 k2 k3 k4 k5
    have hFi : i < fs.length := by omega
    have hNi : i < ns.length := by omega
    rintro (hh | hh)
    · rw [List.flatten_eq_nil_iff] at hh
      have := hh fs[i] (List.getElem_mem hFi)
      rw [this] at k3
      simp at k3
      omega
    · rw [List.flatten_eq_nil_iff] at hh
      have := hh ns[i] (List.getElem_mem hNi)
      rw [this] at k4
      simp at k4
      rw [k4] at k3
      simp at k3
      omega
  simp only [toFixedLength, h1, h2, bind, Except.bind, hflat, if_false, ← hg, ← hw, hf1]

/-- **C74** (partial: at least two rows, and at least one row with two or more groups.)  Converting an RMF to
fixed-length arrays, as is done when it is written, never fails and does not change the response that is
read from it at any energy. -/
theorem C74_fixed_length_partial (r : RMF) (t : ℤ) (thr : ℝ) (arrs : List (ℝ × ℝ × List ℝ))
    (h : List.Forall₂ (fun a row => StoredRow t thr a.1 a.2.1 a.2.2 row) arrs r.rows)
    (ht : r.tlmin = some t) (hlen : ∀ a ∈ arrs, a.2.2.length = r.eMin.length)
    (h2 : 2 ≤ r.rows.length) (hg : ∃ row ∈ r.rows, 2 ≤ row.nGrp) :
    ∃ rows', toFixedLength r.rows = .ok rows' ∧
      ∀ energy, RMF.fullRmf { r with rows := rows' } energy = r.fullRmf energy := by
  have hst : ∀ row ∈ r.rows, ∃ lo hi arr, StoredRow t thr lo hi arr row := by
    intro row hrow
    obtain ⟨i, hi, rfl⟩ := List.getElem_of_mem hrow
    have := (List.forall₂_iff_get.1 h)
    exact ⟨_, _, _, this.2 i (by omega) hi⟩
  obtain ⟨row0, hrow0, hrow0g⟩ := hg
  obtain ⟨g, w, fixed, k1, ⟨r1, hr1, hr1g⟩, k3, k4⟩ := toFixed_eq r.rows hst ⟨row0, hrow0, by omega⟩
  have hg2 : 2 ≤ g := by have := k1 row0 hrow0; omega
  have hl := k4.length_eq
  refine ⟨fixed, ?_, ?_⟩
  · rw [k3]
    unfold squeezeAssign
    rw [if_neg (by omega), if_neg (by omega)]
  · intro energy
    rw [C37_full_rmf r t thr energy arrs h ht hlen]
    clear k3 hst h2 hrow0 hr1
    obtain ⟨rows, tl, eMin, eMax⟩ := r
    simp only at h k4 hlen ht ⊢
    subst ht
    clear k1 hl
    induction h generalizing fixed with
    | nil =>
      cases k4
      simp [RMF.fullRmf, RMF.row]
    | @cons a row arrs rows ha h ih =>
      cases k4 with
      | @cons _ row' _ fixed hrow' k4 =>
        by_cases hc : a.1 ≤ energy ∧ energy < a.2.1
        · obtain ⟨F, N, e1, e2, e3, e4⟩ := ha.enc
          obtain ⟨q1, q2, q3, F', N', q4, q5, q6, q7, q8, q9, q10⟩ := hrow'
          have hFF : F' = F := by rw [e1] at q4; cases q4; rfl
          have hNN : N' = N := by rw [e2] at q5; cases q5; rfl
          subst hFF hNN
          have := full_row e4 row' _ _ _ (by rw [q3]; exact e3) q6 q7 q10
          rw [hlen a (by simp)] at this
          have hc' : row'.energLo ≤ energy ∧ energy < row'.energHi := by
            rw [q1, q2, ha.1, ha.2.1]; exact hc
          simp only [RMF.fullRmf, RMF.row, List.find?_cons, hc, hc', and_self, decide_true, this]
        · obtain ⟨q1, q2, _⟩ := hrow'
          have hc' : ¬ (row'.energLo ≤ energy ∧ energy < row'.energHi) := by
            rw [q1, q2, ha.1, ha.2.1]; exact hc
          have := ih fixed (fun b hb => hlen b (List.mem_cons_of_mem _ hb)) k4
          simp only [RMF.fullRmf, RMF.row, List.find?_cons, hc, hc', decide_false] at this ⊢
          exact this

/-- **C74** Why the restriction is needed: if no row has more than one group (the usual case of a single
line profile), `squeeze` turns the group columns into numbers and `full_rmf` fails with an
exception for every row that has a response. -/
theorem C74_single_group_false (t : ℤ) (thr : ℝ) (n : ℕ) (rows : List RmfRow)
    (h : ∀ r ∈ rows, ∃ lo hi arr, StoredRow t thr lo hi arr r)
    (hle : ∀ r ∈ rows, r.nGrp ≤ 1) (hne : ∃ r ∈ rows, r.nGrp = 1) :
    ∃ rows', toFixedLength rows = .ok rows' ∧ List.Forall₂ (fun r r' =>
      r.nGrp = 1 → fullRmfRow n t r' = .error .indexError) rows rows' := by
  obtain ⟨r1, hr1, hr1g⟩ := hne
  obtain ⟨g, w, fixed, k1, ⟨r2, hr2, hr2g⟩, k3, k4⟩ := toFixed_eq rows h ⟨r1, hr1, by omega⟩
  have hg1 : g = 1 := by
    have := k1 r1 hr1
    have := hle r2 hr2
    omega
  refine ⟨_, by rw [k3, squeezeAssign, if_pos hg1], ?_⟩
  rw [List.forall₂_map_right_iff]
  refine k4.imp ?_
  rintro r r' ⟨_, _, q3, F, N, q4, q5, q6, q7, q8, q9, q10⟩ hr
  have hF : F.length = 1 := by omega
  obtain ⟨f, rfl⟩ := List.length_eq_one_iff.1 hF
  rw [hg1] at q6
  simp only [List.length_singleton, Nat.sub_self, List.replicate_zero, List.append_nil] at q6
  simp only [fullRmfRow, q3, hr, q6]
  rfl

/-- **C74** An RMF with one row and two groups, and an RMF without any response above the threshold,
cannot be converted. -/
theorem C74_conversion_fails (t : ℤ) (thr : ℝ) (rows : List RmfRow)
    (h : ∀ r ∈ rows, ∃ lo hi arr, StoredRow t thr lo hi arr r) :
    ((∀ r ∈ rows, r.nGrp = 0) → toFixedLength rows = .error .valueError) ∧
    (rows.length = 1 → (∀ r ∈ rows, 2 ≤ r.nGrp) → toFixedLength rows = .error .valueError) := by
  constructor
  · intro h0
    obtain ⟨fs, ns, h1, h2, h3, h4, h5⟩ := stored_lists rows h
    have : fs.flatten = [] := by
      rw [List.flatten_eq_nil_iff]
      intro F hF
      obtain ⟨i, hi, rfl⟩ := List.getElem_of_mem hF
      obtain ⟨k1, k2, k3, _⟩ := (List.forall₂_iff_get.1 h3).2 i (by omega) (by simp; omega)
      simp only [List.get_eq_getElem, List.getElem_zip] at k3
      rw [h0 _ (List.getElem_mem (by omega))] at k3
      exact List.length_eq_zero_iff.1 k3.symm
    simp only [toFixedLength, h1, h2, bind, Except.bind, this, true_or, if_true]
  · intro hl hg
    have hne : ∃ r ∈ rows, 0 < r.nGrp := by
      cases rows with
      | nil => simp at hl
      | cons r rows => exact ⟨r, by simp, by have := hg r (by simp); omega⟩
    obtain ⟨g, w, fixed, k1, ⟨r2, hr2, hr2g⟩, k3, k4⟩ := toFixed_eq rows h hne
    rw [k3, squeezeAssign, if_neg (by have := hg r2 hr2; omega),
      if_pos (by rw [← k4.length_eq]; exact hl)]

/-- Rows that meet the hypotheses of `C74_fixed_length_partial`: two rows, the first with two groups. -/
example : ∃ rows : List RmfRow, List.Forall₂ (fun a row => StoredRow 0 (1 / 2) a.1 a.2.1 a.2.2 row)
    [((0 : ℝ), (1 : ℝ), [(1 : ℝ), 0, 1]), (1, 2, [0, 1, 0])] rows ∧ 2 ≤ rows.length ∧
    ∃ row ∈ rows, 2 ≤ row.nGrp := by
  have h1 : ((1 : ℝ) / 2 < 1) := by norm_num
  have h3 : ¬ ((1 : ℝ) / 2 < 0) := by norm_num
  have e1 : arrToRmfRow [1, 0, 1] 0 (1 / 2) = .ok ⟨2, [0, 2], [1, 1], [1, 1]⟩ := by
    simp [arrToRmfRow, h1, h3, diffBool, nonzeroFrom, reshapePairs, sel, -one_div]
  have e2 : arrToRmfRow [0, 1, 0] 0 (1 / 2) = .ok ⟨1, [1], [1], [1]⟩ := by
    simp [arrToRmfRow, h1, h3, diffBool, nonzeroFrom, reshapePairs, sel, -one_div]
  refine ⟨[⟨0, 1, 2, .arr [0, 2], .arr [1, 1], [1, 1]⟩, ⟨1, 2, 1, .arr [1], .arr [1], [1]⟩],
    .cons ⟨rfl, rfl, _, e1, rfl, rfl, rfl, rfl⟩ (.cons ⟨rfl, rfl, _, e2, rfl, rfl, rfl, rfl⟩ .nil),
    by simp, _, by simp; left; rfl, by simp⟩

end Marxs
