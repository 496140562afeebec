import Verif.Spec.Pipeline
import Mathlib.Tactic.Linarith

/-! Helper lemmas about masked assignment. -/

namespace Marxs

@[simp] theorem rank_zero (mask) : rank mask 0 = 0 := by simp [rank]

@[simp] theorem rank_cons_succ_true (ms i) : rank (true :: ms) (i+1) = rank ms i + 1 := by
  simp [rank]

@[simp] theorem rank_cons_succ_false (ms i) : rank (false :: ms) (i+1) = rank ms i := by
  simp [rank]

@[simp] theorem countTrue_nil : countTrue [] = 0 := by simp [countTrue]
@[simp] theorem countTrue_true (ms) : countTrue (true :: ms) = countTrue ms + 1 := by
  simp [countTrue]
@[simp] theorem countTrue_false (ms) : countTrue (false :: ms) = countTrue ms := by
  simp [countTrue]

theorem rank_lt {mask : List Bool} {i : ℕ} (h : mask[i]? = some true) :
    rank mask i < countTrue mask := by
  induction mask generalizing i with
  | nil => simp at h
  | cons m ms ih =>
    cases i with
    | zero => simp at h; subst h; simp
    | succ i =>
      simp at h
      cases m with
      | true => simpa using ih h
      | false => simpa using ih h

@[simp] theorem assignMasked_length (col mask rows vals) :
    (assignMasked col mask rows vals).length = rows.length := by
  induction mask generalizing rows vals with
  | nil => simp [assignMasked]
  | cons m ms ih =>
    cases rows with
    | nil => cases m <;> cases vals <;> simp [assignMasked]
    | cons r rs =>
      cases m with
      | true => cases vals <;> simp [assignMasked, ih]
      | false => simp [assignMasked, ih]

theorem assignMasked_get_false {col mask rows vals} {i : ℕ} (h : mask[i]? = some false) :
    (assignMasked col mask rows vals)[i]? = rows[i]? := by
  induction mask generalizing rows vals i with
  | nil => simp [assignMasked]
  | cons m ms ih =>
    cases rows with
    | nil => cases m <;> cases vals <;> simp [assignMasked]
    | cons r rs =>
      cases m with
      | true =>
        cases vals with
        | nil => simp [assignMasked]
        | cons v vs =>
          cases i with
          | zero => simp at h
          | succ i => simp at h; simp [assignMasked, ih h]
      | false =>
        cases i with
        | zero => simp [assignMasked]
        | succ i => simp at h; simp [assignMasked, ih h]

theorem assignMasked_get_true {col mask rows vals} {i : ℕ} {r : Row} {v : Val}
    (h : mask[i]? = some true) (hr : rows[i]? = some r)
    (hv : vals[rank mask i]? = some v) :
    (assignMasked col mask rows vals)[i]? = some (Function.update r col v) := by
  induction mask generalizing rows vals i with
  | nil => simp at h
  | cons m ms ih =>
    cases rows with
    | nil => simp at hr
    | cons r0 rs =>
      cases m with
      | true =>
        cases vals with
        | nil => simp at hv
        | cons v0 vs =>
          cases i with
          | zero => simp at hr hv; simp [assignMasked, hr, hv]
          | succ i =>
            simp at h hr hv
            simp [assignMasked, ih h hr hv]
      | false =>
        cases i with
        | zero => simp at h
        | succ i =>
          simp at h hr hv
          simp [assignMasked, ih h hr hv]

theorem sel_get {α} {mask : List Bool} {xs : List α} {i : ℕ} (h : mask[i]? = some true)
    (hl : mask.length = xs.length) : (sel mask xs)[rank mask i]? = xs[i]? := by
  induction mask generalizing xs i with
  | nil => simp at h
  | cons m ms ih =>
    cases xs with
    | nil => simp at hl
    | cons x xs =>
      simp at hl
      cases m with
      | true =>
        cases i with
        | zero => simp [sel]
        | succ i => simp at h; simp [sel, ih h hl]
      | false =>
        cases i with
        | zero => simp at h
        | succ i => simp at h; simp [sel, ih h hl]

theorem mulMasked_length {col mask rows vals rows'} (h : mulMasked col mask rows vals = some rows') :
    rows'.length = rows.length := by
  induction mask generalizing rows vals rows' with
  | nil => simp [mulMasked] at h; rw [← h]
  | cons m ms ih =>
    cases rows with
    | nil => cases m <;> cases vals <;> simp [mulMasked] at h <;> rw [← h]
    | cons r rs =>
      cases m with
      | true =>
        cases vals with
        | nil => simp [mulMasked] at h; rw [← h]
        | cons v vs =>
          simp only [mulMasked, Option.bind_eq_bind, Option.bind_eq_some_iff] at h
          obtain ⟨p, _, rest, hrest, h⟩ := h
          simp at h
          rw [← h]; simp [ih hrest]
      | false =>
        simp only [mulMasked, Option.bind_eq_bind, Option.bind_eq_some_iff] at h
        obtain ⟨rest, hrest, h⟩ := h
        simp at h
        rw [← h]; simp [ih hrest]

theorem mulMasked_get_false {col mask rows vals rows'} {i : ℕ} (h : mask[i]? = some false)
    (hm : mulMasked col mask rows vals = some rows') : rows'[i]? = rows[i]? := by
  induction mask generalizing rows vals rows' i with
  | nil => simp at h
  | cons m ms ih =>
    cases rows with
    | nil => cases m <;> cases vals <;> simp [mulMasked] at hm <;> rw [← hm]
    | cons r rs =>
      cases m with
      | true =>
        cases vals with
        | nil => simp [mulMasked] at hm; rw [← hm]
        | cons v vs =>
          simp only [mulMasked, Option.bind_eq_bind, Option.bind_eq_some_iff] at hm
          obtain ⟨p, _, rest, hrest, hm⟩ := hm
          simp at hm
          cases i with
          | zero => simp at h
          | succ i => simp at h; rw [← hm]; simpa using ih h hrest
      | false =>
        simp only [mulMasked, Option.bind_eq_bind, Option.bind_eq_some_iff] at hm
        obtain ⟨rest, hrest, hm⟩ := hm
        simp at hm
        cases i with
        | zero => rw [← hm]; simp
        | succ i => simp at h; rw [← hm]; simpa using ih h hrest

theorem mulMasked_get_true {col mask rows vals rows'} {i : ℕ} {r : Row} {v : Val}
    (h : mask[i]? = some true) (hr : rows[i]? = some r) (hv : vals[rank mask i]? = some v)
    (hm : mulMasked col mask rows vals = some rows') :
    ∃ p, Val.mul (r col) v = some p ∧ rows'[i]? = some (Function.update r col p) := by
  induction mask generalizing rows vals rows' i with
  | nil => simp at h
  | cons m ms ih =>
    cases rows with
    | nil => simp at hr
    | cons r0 rs =>
      cases m with
      | true =>
        cases vals with
        | nil => simp at hv
        | cons v0 vs =>
          simp only [mulMasked, Option.bind_eq_bind, Option.bind_eq_some_iff] at hm
          obtain ⟨p, hp, rest, hrest, hm⟩ := hm
          simp at hm
          cases i with
          | zero =>
            simp at hr hv; subst hr hv
            exact ⟨p, hp, by rw [← hm]; simp⟩
          | succ i =>
            simp at h hr hv
            obtain ⟨q, hq, hq'⟩ := ih h hr hv hrest
            exact ⟨q, hq, by rw [← hm]; simpa using hq'⟩
      | false =>
        simp only [mulMasked, Option.bind_eq_bind, Option.bind_eq_some_iff] at hm
        obtain ⟨rest, hrest, hm⟩ := hm
        simp at hm
        cases i with
        | zero => simp at h
        | succ i =>
          simp at h hr hv
          obtain ⟨q, hq, hq'⟩ := ih h hr hv hrest
          exact ⟨q, hq, by rw [← hm]; simpa using hq'⟩

theorem expand_length {k v vs} (h : ColVal.expand k v = .ok vs) : vs.length = k := by
  cases v with
  | scalar v => simp [ColVal.expand] at h; rw [← h]; simp
  | arr ws =>
    simp only [ColVal.expand] at h
    split at h
    · simp at h; subst h; assumption
    · split at h
      · simp at h; rw [← h]; simp
      · simp at h

theorem expand_mem {k v vs x} (h : ColVal.expand k v = .ok vs) (hx : x ∈ vs) : x ∈ v.toList := by
  cases v with
  | scalar v => simp [ColVal.expand] at h; subst h; simpa [ColVal.toList] using (List.eq_of_mem_replicate hx)
  | arr ws =>
    simp only [ColVal.expand] at h
    split at h
    · simp at h; subst h; exact hx
    · split at h
      · simp at h; subst h; simpa [ColVal.toList] using (List.eq_of_mem_replicate hx)
      · simp at h

theorem expand_at {k v vs j} (h : ColVal.expand k v = .ok vs) (hj : j < k) : vs[j]? = v.at j := by
  cases v with
  | scalar v =>
    simp [ColVal.expand] at h; subst h
    simp [ColVal.at, hj]
  | arr ws =>
    simp only [ColVal.expand] at h
    split at h
    · rename_i hk
      simp at h; subst h
      match ws, hk with
      | [], _ => simp [ColVal.at]
      | [v], hk => simp at hk; subst hk; have : j = 0 := by omega
                   subst this; simp [ColVal.at]
      | v :: w :: ws, _ => simp [ColVal.at]
    · split at h
      · simp at h; subst h; simp [ColVal.at, hj]
      · simp at h

end Marxs
