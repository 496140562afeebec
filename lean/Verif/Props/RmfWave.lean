import Verif.Model.RmfWave
import Verif.Props.Ogip

/-!
# C174: the response in wavelengths
-/

namespace Marxs
open Classical

theorem pyGet_pair {α : Type} (a b : List α) (hl : a.length = b.length) (i : ℤ) (x y : α) (ha : pyGet a i = .ok x) (hb : pyGet b i = .ok y) :
    ∃ j : ℕ, a[j]? = some x ∧ b[j]? = some y := by
  unfold pyGet at ha hb
  by_cases h0 : i < 0
  · by_cases h1 : i + a.length < 0
    · simp [h0, h1] at ha
    · have h1' : ¬ i + b.length < 0 := by rw [← hl]; exact h1
      rw [if_pos h0, if_neg h1] at ha
      rw [if_pos h0, if_neg h1'] at hb
      rw [← hl] at hb
      refine ⟨(i + a.length).toNat, ?_, ?_⟩
      · revert ha; cases a[(i + a.length).toNat]? <;> simp
      · revert hb; cases b[(i + a.length).toNat]? <;> simp
  · rw [if_neg h0] at ha hb
    refine ⟨i.toNat, ?_, ?_⟩
    · revert ha; cases a[i.toNat]? <;> simp
    · revert hb; cases b[i.toNat]? <;> simp

theorem fancyGet_pair {α : Type} (a b : List α) (hl : a.length = b.length) (ind : List ℤ) :
    ∀ (u v : List α), fancyGet a ind = .ok u → fancyGet b ind = .ok v →
      u.length = v.length ∧ ∀ (k : ℕ) x y, u[k]? = some x → v[k]? = some y → ∃ j : ℕ, a[j]? = some x ∧ b[j]? = some y := by
  induction ind with
  | nil =>
    intro u v hu hv
    simp only [fancyGet, List.mapM_nil, pure, Except.pure, Except.ok.injEq] at hu hv
    subst hu hv
    simp
  | cons i ind ih =>
    intro u v hu hv
    simp only [fancyGet, List.mapM_cons, bind, Except.bind, pure, Except.pure] at hu hv
    split at hu
    · cases hu
    rename_i x hx
    split at hu
    · cases hu
    rename_i u' hu'
    split at hv
    · cases hv
    rename_i y hy
    split at hv
    · cases hv
    rename_i v' hv'
    cases hu; cases hv
    obtain ⟨h1, h2⟩ := ih u' v' hu' hv'
    refine ⟨by simp [h1], fun k x' y' hx' hy' => ?_⟩
    cases k with
    | zero =>
      simp only [List.getElem?_cons_zero, Option.some.injEq] at hx' hy'
      subst hx' hy'
      exact pyGet_pair a b hl i x y hx hy
    | succ k => exact h2 k x' y' (by simpa using hx') (by simpa using hy')

theorem rmf_pair (r : RMF) (hl : r.eMin.length = r.eMax.length) (energy : ℝ) (lo hi v : List ℝ) (h : r.rmf energy = .ok (lo, hi, v)) :
    lo.length = hi.length ∧ ∀ (k : ℕ) x y, lo[k]? = some x → hi[k]? = some y → ∃ j : ℕ, r.eMin[j]? = some x ∧ r.eMax[j]? = some y := by
  unfold RMF.rmf at h
  split at h
  · cases h
  split at h
  · cases h
  rename_i ind _
  split at h
  · cases h
  rename_i lo' hlo
  split at h
  · cases h
  rename_i hi' hhi
  simp only [Except.ok.injEq, Prod.mk.injEq] at h
  obtain ⟨rfl, rfl, -⟩ := h
  exact fancyGet_pair _ _ hl ind _ _ hlo hhi

/-- **C174** `rmf_angstrom` works for the energies for which `rmf` does; it returns the same values, and for each of them the limits of a
wavelength bin, the smaller one first. A photon is in this bin if and only if its energy is in the energy bin
that `rmf` returns. -/
theorem C174_angstrom (hc : ℝ) (hhc : 0 < hc) (r : RMF) (hl : r.eMin.length = r.eMax.length)
    (hpos : ∀ (i : ℕ) a b, r.eMin[i]? = some a → r.eMax[i]? = some b → 0 < a ∧ a < b) (energy : ℝ) :
    (∀ e, r.rmf energy = .error e → r.rmfAngstrom hc energy = .error e) ∧
    ∀ lo hi v, r.rmf energy = .ok (lo, hi, v) → ∃ wlo whi : List ℝ,
      r.rmfAngstrom hc energy = .ok (wlo.map some, whi.map some, v) ∧ wlo.length = lo.length ∧ whi.length = lo.length ∧
      ∀ (k : ℕ) e₁ e₂, lo[k]? = some e₁ → hi[k]? = some e₂ → ∃ w₁ w₂, wlo[k]? = some w₁ ∧ whi[k]? = some w₂ ∧ 0 < w₁ ∧ w₁ < w₂ ∧
        ∀ E, 0 < E → ((e₁ < E ∧ E < e₂) ↔ (w₁ < hc / E ∧ hc / E < w₂)) := by
  constructor
  · intro e he
    rw [RMF.rmfAngstrom, he]
  · intro lo hi v h
    obtain ⟨hlen, hpair⟩ := rmf_pair r hl energy lo hi v h
    have hlo : ∀ e ∈ lo, e ≠ 0 := by
      intro e he
      obtain ⟨k, hk, rfl⟩ := List.mem_iff_getElem.1 he
      obtain ⟨j, h1, h2⟩ := hpair k _ _ (List.getElem?_eq_getElem hk) (List.getElem?_eq_getElem (by omega))
      exact (hpos j _ _ h1 h2).1.ne'
    have hhi : ∀ e ∈ hi, e ≠ 0 := by
      intro e he
      obtain ⟨k, hk, rfl⟩ := List.mem_iff_getElem.1 he
      obtain ⟨j, h1, h2⟩ := hpair k _ _ (List.getElem?_eq_getElem (by omega)) (List.getElem?_eq_getElem hk)
      exact ((hpos j _ _ h1 h2).1.trans (hpos j _ _ h1 h2).2).ne'
    refine ⟨hi.map (hc / ·), lo.map (hc / ·), ?_, by simp [hlen], by simp, ?_⟩
    · rw [RMF.rmfAngstrom, h]
      simp only [List.map_map, Except.ok.injEq, Prod.mk.injEq, and_true]
      exact ⟨List.map_congr_left fun e he => by simp [keVToAngstrom, hhi e he],
        List.map_congr_left fun e he => by simp [keVToAngstrom, hlo e he]⟩
    · intro k e₁ e₂ h1 h2
      obtain ⟨j, g1, g2⟩ := hpair k _ _ h1 h2
      obtain ⟨p1, p2⟩ := hpos j _ _ g1 g2
      have p3 := p1.trans p2
      refine ⟨hc / e₂, hc / e₁, by simp [h2], by simp [h1], by positivity, div_lt_div_of_pos_left hhc p1 p2, fun E hE => ?_⟩
      rw [div_lt_div_iff_of_pos_left hhc p3 hE, div_lt_div_iff_of_pos_left hhc hE p1]
      exact and_comm

/-- **C174** If the channels have been made from wavelength bins with `ebounds_from_edges`, the wavelength bins that `rmf_angstrom`
returns are those: both limits are among the edges, and no edge is between them. -/
theorem C174_edges (hc : ℝ) (hhc : 0 < hc) (edges : List ℝ) (he : ∀ w ∈ edges, 0 < w) (hnd : edges.Nodup) (ch : List ℕ) (r : RMF)
    (hr : eboundsFromEdges (fun w => hc / w) edges = (ch, r.eMin, r.eMax)) (energy : ℝ) (wlo whi : List (Option ℝ)) (v : List ℝ)
    (h : r.rmfAngstrom hc energy = .ok (wlo, whi, v)) :
    wlo.length = whi.length ∧ ∀ (k : ℕ) x y, wlo[k]? = some x → whi[k]? = some y → ∃ w₁ w₂, x = some w₁ ∧ y = some w₂ ∧
      w₁ ∈ edges ∧ w₂ ∈ edges ∧ w₁ < w₂ ∧ ∀ w ∈ edges, w ≤ w₁ ∨ w₂ ≤ w := by
  simp only [eboundsFromEdges, Prod.mk.injEq] at hr
  obtain ⟨-, hmin, hmax⟩ := hr
  have hl : r.eMin.length = r.eMax.length := by rw [← hmin, ← hmax]; simp
  have hperm := sortReal_perm (edges.map fun w => hc / w)
  have hpw := sortReal_pairwise (edges.map fun w => hc / w)
  have hinj : Set.InjOn (fun w => hc / w) {w | w ∈ edges} := by
    intro a ha b hb hab
    have ha' := he a ha
    have hb' := he b hb
    simp only at hab
    rw [div_eq_div_iff ha'.ne' hb'.ne'] at hab
    exact (mul_left_cancel₀ hhc.ne' hab).symm
  have hnd' : (sortReal (edges.map fun w => hc / w)).Nodup :=
    hperm.nodup_iff.2 ((List.nodup_map_iff_inj_on hnd).2 fun a ha b hb => hinj ha hb)
  have hmem : ∀ e, e ∈ sortReal (edges.map fun w => hc / w) ↔ ∃ w ∈ edges, hc / w = e := by
    intro e; rw [hperm.mem_iff, List.mem_map]
  generalize sortReal (edges.map fun w => hc / w) = s at *
  have hidx : ∀ (j : ℕ) a b, r.eMin[j]? = some a → r.eMax[j]? = some b → s[j]? = some a ∧ s[j + 1]? = some b := by
    intro j a b h1 h2
    rw [← hmin, List.getElem?_dropLast] at h1
    rw [← hmax, List.getElem?_tail] at h2
    split_ifs at h1
    exact ⟨h1, h2⟩
  have hpos : ∀ (j : ℕ) a b, r.eMin[j]? = some a → r.eMax[j]? = some b → 0 < a ∧ a < b := by
    intro j a b h1 h2
    obtain ⟨g1, g2⟩ := hidx j a b h1 h2
    obtain ⟨w, hw, rfl⟩ := (hmem a).1 (List.mem_of_getElem? g1)
    refine ⟨div_pos hhc (he w hw), ?_⟩
    obtain ⟨i1, e1⟩ := List.getElem?_eq_some_iff.1 g1
    obtain ⟨i2, e2⟩ := List.getElem?_eq_some_iff.1 g2
    refine lt_of_le_of_ne ?_ ?_
    · rw [← e1, ← e2]; exact List.pairwise_iff_getElem.1 hpw j (j + 1) i1 i2 (by omega)
    · rw [← e1, ← e2]
      intro hh
      have := (List.Nodup.getElem_inj_iff hnd').1 hh
      omega
  rcases hrm : r.rmf energy with e | ⟨lo, hi, v'⟩
  · rw [RMF.rmfAngstrom, hrm] at h; cases h
  · obtain ⟨hlen, hpair⟩ := rmf_pair r hl energy lo hi v' hrm
    rw [RMF.rmfAngstrom, hrm] at h
    simp only [Except.ok.injEq, Prod.mk.injEq] at h
    obtain ⟨rfl, rfl, rfl⟩ := h
    refine ⟨by simp [hlen], fun k x y hx hy => ?_⟩
    rw [List.getElem?_map, Option.map_eq_some_iff] at hx hy
    obtain ⟨b, hb, rfl⟩ := hx
    obtain ⟨a, ha, rfl⟩ := hy
    obtain ⟨j, g1, g2⟩ := hpair k _ _ ha hb
    obtain ⟨p1, p2⟩ := hpos j _ _ g1 g2
    obtain ⟨s1, s2⟩ := hidx j a b g1 g2
    obtain ⟨w₂, hw₂, rfl⟩ := (hmem a).1 (List.mem_of_getElem? s1)
    obtain ⟨w₁, hw₁, rfl⟩ := (hmem b).1 (List.mem_of_getElem? s2)
    have q1 := he w₁ hw₁
    have q2 := he w₂ hw₂
    have hcc : ∀ w, 0 < w → keVToAngstrom hc (hc / w) = some w := by
      intro w hw
      rw [keVToAngstrom, if_neg (div_pos hhc hw).ne', div_div_cancel₀ hhc.ne']
    refine ⟨w₁, w₂, hcc _ q1, hcc _ q2, hw₁, hw₂, (div_lt_div_iff_of_pos_left hhc q2 q1).1 p2, fun w hw => ?_⟩
    obtain ⟨i, hi', ei⟩ := List.mem_iff_getElem.1 ((hmem _).2 ⟨w, hw, rfl⟩)
    obtain ⟨i1, e1⟩ := List.getElem?_eq_some_iff.1 s1
    obtain ⟨i2, e2⟩ := List.getElem?_eq_some_iff.1 s2
    have qw := he w hw
    rcases Nat.lt_or_ge i (j + 1) with hij | hij
    · refine .inr ?_
      rw [← div_le_div_iff_of_pos_left hhc qw q2, ← ei, ← e1]
      rcases Nat.lt_or_ge i j with hlt | hge
      · exact List.pairwise_iff_getElem.1 hpw i j hi' i1 hlt
      · have : i = j := by omega
        subst this; exact le_refl _
    · refine .inl ?_
      rw [← div_le_div_iff_of_pos_left hhc q1 qw, ← ei, ← e2]
      rcases Nat.lt_or_ge (j + 1) i with hlt | hge
      · exact List.pairwise_iff_getElem.1 hpw (j + 1) i i2 hi' hlt
      · have : i = j + 1 := by omega
        subst this; exact le_refl _

/-- **C174** `en_mid` has one energy per channel, half way between its limits. -/
theorem C174_mid (r : RMF) (hl : r.eMin.length = r.eMax.length) :
    r.enMid.length = r.eMin.length ∧ ∀ (i : ℕ) a b, r.eMin[i]? = some a → r.eMax[i]? = some b →
      ∃ m, r.enMid[i]? = some m ∧ m - a = b - m := by
  refine ⟨by simp [RMF.enMid, hl], fun i a b ha hb => ⟨1 / 2 * (a + b), ?_, by ring⟩⟩
  simp [RMF.enMid, List.getElem?_zipWith, ha, hb]

/-- A matrix with three channels made from wavelengths between 1 and 4; the row has one group with the two last channels. -/
noncomputable def exWaveRmf : RMF where
  rows := [⟨1, 2, 1, .arr [2], .arr [2], [1 / 3, 2 / 3]⟩]
  tlmin := some 1
  eMin := (eboundsFromEdges (fun w => 12 / w) [1, 2, 3, 4]).2.1
  eMax := (eboundsFromEdges (fun w => 12 / w) [1, 2, 3, 4]).2.2

theorem exWaveRmf_bounds : exWaveRmf.eMin = [3, 4, 6] ∧ exWaveRmf.eMax = [4, 6, 12] := by
  have : sortReal ([1, 2, 3, 4].map fun w : ℝ => 12 / w) = [3, 4, 6, 12] := by
    apply sortReal_unique
    · norm_num
      exact (List.reverse_perm [12, 6, 4, (3 : ℝ)])
    · norm_num
  simp only [exWaveRmf, eboundsFromEdges, this]
  simp

theorem exWaveRmf_rmf : exWaveRmf.rmf 1 = .ok ([4, 6], [6, 12], [1 / 3, 2 / 3]) := by
  have hrow : exWaveRmf.row 1 = .ok ⟨1, 2, 1, .arr [2], .arr [2], [1 / 3, 2 / 3]⟩ := by
    simp [RMF.row, exWaveRmf]
  have hind : rmfIndices ⟨1, 2, 1, .arr [2], .arr [2], [1 / 3, 2 / 3]⟩ = .ok [1, 2] := rfl
  rw [RMF.rmf, hrow]
  simp only [hind, exWaveRmf_bounds]
  rfl

example : exWaveRmf.rmfAngstrom 12 1 = .ok ([some 2, some 1], [some 3, some 2], [1 / 3, 2 / 3]) := by
  rw [RMF.rmfAngstrom, exWaveRmf_rmf]
  norm_num [keVToAngstrom]

example : ∀ (i : ℕ) a b, exWaveRmf.eMin[i]? = some a → exWaveRmf.eMax[i]? = some b → 0 < a ∧ a < b := by
  rw [exWaveRmf_bounds.1, exWaveRmf_bounds.2]
  rintro (_ | _ | _ | i) a b ha hb <;> simp at ha hb <;> subst ha hb <;> norm_num

/-- **C174** Without any condition on the energies: the lower limit in wavelength belongs to the upper energy of the bin and the upper limit to the lower energy. A limit is infinite if and only if its energy is 0. -/
theorem C174_infinite (hc : ℝ) (r : RMF) (energy : ℝ) (lo hi v : List ℝ) (h : r.rmf energy = .ok (lo, hi, v)) :
    ∃ wlo whi : List (Option ℝ), r.rmfAngstrom hc energy = .ok (wlo, whi, v) ∧ wlo.length = hi.length ∧ whi.length = lo.length ∧
      (∀ (k : ℕ) e, hi[k]? = some e → (e = 0 → wlo[k]? = some none) ∧ (e ≠ 0 → ∃ w, wlo[k]? = some (some w) ∧ w * e = hc)) ∧
      (∀ (k : ℕ) e, lo[k]? = some e → (e = 0 → whi[k]? = some none) ∧ (e ≠ 0 → ∃ w, whi[k]? = some (some w) ∧ w * e = hc)) := by
  have key : ∀ (l : List ℝ) (k : ℕ) e, l[k]? = some e →
      (e = 0 → (l.map (keVToAngstrom hc))[k]? = some none) ∧ (e ≠ 0 → ∃ w, (l.map (keVToAngstrom hc))[k]? = some (some w) ∧ w * e = hc) := by
    intro l k e he
    refine ⟨fun h0 => by rw [List.getElem?_map, he]; simp [keVToAngstrom, h0], fun h0 => ⟨hc / e, by rw [List.getElem?_map, he]; simp [keVToAngstrom, h0], div_mul_cancel₀ _ h0⟩⟩
  exact ⟨hi.map (keVToAngstrom hc), lo.map (keVToAngstrom hc), by rw [RMF.rmfAngstrom, h], by simp, by simp, key hi, key lo⟩

end Marxs
