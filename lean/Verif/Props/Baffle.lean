import Verif.Lemmas.Hit
import Verif.Props.Pipeline

/-!
# Property C69: baffles and functions that stop photons
-/

namespace Marxs

theorem not_mask_get {mask : List Bool} {i : ℕ} {b : Bool} (h : mask[i]? = some b) :
    (mask.map (! ·))[i]? = some (!b) := by
  simp [h]

/-- **C69** A baffle lets photons through its hole unharmed (only `pos` is set to the place where
they pass) and sets the probability of every other photon to zero (and changes nothing else about
them). No column is added and no photon lost. -/
theorem C69_baffle {t t' : Table} {mask : List Bool} {ip : List Val}
    (hl : mask.length = t.rows.length) (hp : ip.length = t.rows.length)
    (h : baffle t mask ip = .ok t') :
    t'.names = t.names ∧ t'.rows.length = t.rows.length ∧
    ∀ (i : ℕ) (r r' : Row), t.rows[i]? = some r → t'.rows[i]? = some r' →
      (mask[i]? = some true → some (r' "pos") = ip[i]? ∧ ∀ c ∈ t.names, c ≠ "pos" → r' c = r c) ∧
      (mask[i]? = some false → r' "probability" = .num (some 0) ∧
        ∀ c ∈ t.names, c ≠ "probability" → r' c = r c) := by
  simp only [baffle, bind, Except.bind] at h
  split at h
  · cases h
  rename_i t1 h1
  have u1 := upd_setCol hl (sel_length (by omega)) h1
  have u2 := upd_setCol (by simp [hl, u1.len]) (by simp) h
  refine ⟨by rw [(setCol_names h).1, (setCol_names h1).1], by rw [u2.len, u1.len], ?_⟩
  intro i r r' hr hr'
  obtain ⟨r1, hr1⟩ := get_of_len u2.len hr'
  have hi : i < t.rows.length := (List.getElem?_eq_some_iff.1 hr).1
  have n1 := (setCol_names h1).1
  constructor
  · intro hm
    have hn := not_mask_get hm
    have keep2 : ∀ c ∈ t.names, r' c = r1 c := fun c hc =>
      u2.keep i r1 r' hr1 hr' c (by rw [n1]; exact hc) (by rw [hn]; simp)
    constructor
    · rw [keep2 _ (by have := (setCol_names h1).2; exact this)]
      rw [setCol_hit h1 hm (v := ip[i]'(by omega))
        (by rw [sel_get hm (by omega)]; exact List.getElem?_eq_getElem (by omega)) hr1]
      exact (List.getElem?_eq_getElem (by omega)).symm
    · intro c hc hcp
      rw [keep2 c hc, u1.keep i r r1 hr hr1 c hc (fun _ => by simpa using hcp)]
  · intro hm
    have hn := not_mask_get hm
    simp only [Bool.not_false] at hn
    constructor
    · exact setCol_hit h hn (by simp [rank_lt hn]) hr'
    · intro c hc hcp
      rw [u2.keep i r1 r' hr1 hr' c (by rw [n1]; exact hc) (fun _ => by simpa using hcp),
        u1.keep i r r1 hr hr1 c hc (by rw [hm]; simp)]

/-- **C69** A baffle works on every photon table with the columns `pos` and `probability`. -/
theorem C69_baffle_runs (t : Table) (mask : List Bool) (ip : List Val)
    (h1 : "pos" ∈ t.names) (h2 : "probability" ∈ t.names) : ∃ t', baffle t mask ip = .ok t' := by
  simp [baffle, setCol, h1, h2, bind, Except.bind]

/-- **C69** Functions that stop selected photons (`spomounting`, `catsupportbars`) set the probability
of exactly the selected photons to zero and change nothing else. -/
theorem C69_zero_where {t t' : Table} {bad : Row → Bool} (h : zeroWhere bad t = .ok t') :
    t'.names = t.names ∧ t'.rows.length = t.rows.length ∧
    ∀ (i : ℕ) (r r' : Row), t.rows[i]? = some r → t'.rows[i]? = some r' →
      (bad r = true → r' "probability" = .num (some 0)) ∧
      (bad r = false → ∀ c ∈ t.names, r' c = r c) ∧
      ∀ c ∈ t.names, c ≠ "probability" → r' c = r c := by
  simp only [zeroWhere] at h
  have u := upd_setCol (by simp) (by simp) h
  refine ⟨(setCol_names h).1, u.len, ?_⟩
  intro i r r' hr hr'
  have hm : (t.rows.map bad)[i]? = some (bad r) := by simp [hr]
  refine ⟨fun hb => ?_, fun hb c hc => ?_, fun c hc hcp => ?_⟩
  · rw [hb] at hm
    exact setCol_hit h hm (by simp [rank_lt hm]) hr'
  · rw [hb] at hm
    exact u.keep i r r' hr hr' c hc (by rw [hm]; simp)
  · exact u.keep i r r' hr hr' c hc (fun _ => by simpa using hcp)

example : ∃ t', baffle exTable [true, false] [.vec [some 5], .vec [none]] = .ok t' ∧
    t'.rows.length = 2 := by
  obtain ⟨t', h⟩ := C69_baffle_runs exTable [true, false] [.vec [some 5], .vec [none]]
    (by simp [exTable]) (by simp [exTable])
  exact ⟨t', h, by rw [(C69_baffle (by simp [exTable]) (by simp [exTable]) h).2.1]; simp [exTable]⟩

end Marxs
