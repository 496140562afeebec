import Mathlib.Tactic.Ring
import Mathlib.Tactic.FieldSimp
import Mathlib.Tactic.Linarith
import Mathlib.Tactic.Positivity
import Mathlib.Tactic.NormNum
import Mathlib.Tactic.LinearCombination
import Verif.Props.TorusDesign
import Verif.Props.Ogip

/-!
# Properties C49 and C78: double Rowland tori, positions of elements
-/

namespace Marxs

/-! ## C49 -/

/-- The torus turned by `d` in the xy plane with the center of the circle `phi = 0` at `c`. -/
structure TurnedAt (t : Torus) (c : V3) (d : ℝ) : Prop where
  placed : Placed t.pos4d
  rigid : Conformal t.pos4d 1
  glob : ∀ p : V3, toGlobal t.pos4d p =
    ⟨c.x + (p.x - t.R) * Real.cos d + p.y * Real.sin d, c.y - (p.x - t.R) * Real.sin d + p.y * Real.cos d,
     c.z + p.z, 1⟩

theorem turned_circle {t : Torus} {c : V3} {d : ℝ} (h : TurnedAt t c d) (p : V3) :
    (∃ th, parametric t th 0 = ⟨p.x, p.y, p.z, 1⟩) ↔
      p.z = c.z ∧ (p.x - c.x) ^ 2 + (p.y - c.y) ^ 2 = t.r ^ 2 := by
  have hcd := Real.cos_sq_add_sin_sq d
  have hpar : ∀ th, parametric t th 0 =
      ⟨c.x + t.r * Real.cos th * Real.cos d + t.r * Real.sin th * Real.sin d,
       c.y - t.r * Real.cos th * Real.sin d + t.r * Real.sin th * Real.cos d, c.z, 1⟩ := by
    intro th
    have := h.glob ⟨t.R + t.r * Real.cos th, t.r * Real.sin th, 0⟩
    simp only [parametric, parametricLocal, Real.cos_zero, Real.sin_zero, mul_one, mul_zero]
    simp only [toGlobal] at this
    rw [this]
    congr 1 <;> ring
  constructor
  · rintro ⟨th, h⟩
    rw [hpar] at h
    simp only [H4.mk.injEq, and_true] at h
    obtain ⟨e1, e2, e3⟩ := h
    refine ⟨e3.symm, ?_⟩
    rw [← e1, ← e2]
    have hth := Real.cos_sq_add_sin_sq th
    linear_combination t.r ^ 2 * (Real.cos th ^ 2 + Real.sin th ^ 2) * hcd + t.r ^ 2 * hth
  · rintro ⟨hz, hp⟩
    have : ((p.x - c.x) * Real.cos d - (p.y - c.y) * Real.sin d) ^ 2 +
        ((p.x - c.x) * Real.sin d + (p.y - c.y) * Real.cos d) ^ 2 = t.r ^ 2 := by
      linear_combination hp + ((p.x - c.x) ^ 2 + (p.y - c.y) ^ 2) * hcd
    obtain ⟨th, e1, e2⟩ := circle_param this
    refine ⟨th, ?_⟩
    rw [hpar, e1, e2, hz]
    congr 1
    · linear_combination (p.x - c.x) * hcd
    · linear_combination (p.y - c.y) * hcd

theorem translation_affine (v : Fin 3 → ℝ) : Affine (translation2aff v) := by
  refine ⟨?_, ?_, ?_, ?_⟩ <;> simp [translation2aff]

theorem mul4_translation (v : Fin 3 → ℝ) (p : H4) (hp : p.w = 1) :
    mul4 (translation2aff v) p = ⟨v 0 + p.x, v 1 + p.y, v 2 + p.z, 1⟩ := by
  simp only [mul4, translation2aff]
  congr 1 <;> simp [hp] <;> ring

theorem col_translation (v : Fin 3 → ℝ) {m : M4} (hm : Affine m) (j : Fin 4) (hj : j ≠ 3) :
    col (translation2aff v * m) j = col m j := by
  obtain ⟨h0, h1, h2, h3⟩ := hm
  have hz : m 3 j = 0 := by
    fin_cases j
    · exact h0
    · exact h1
    · exact h2
    · exact absurd rfl hj
  simp only [col, Matrix.mul_apply, Fin.sum_univ_succ]
  simp [translation2aff, hz]

theorem affine_mul_translation (v : Fin 3 → ℝ) {m : M4} (hm : Affine m) : Affine (translation2aff v * m) := by
  obtain ⟨h0, h1, h2, h3⟩ := hm
  refine ⟨?_, ?_, ?_, ?_⟩ <;>
    simp [Matrix.mul_apply, Fin.sum_univ_succ, translation2aff, h0, h1, h2, h3]

theorem turned_shift {t : Torus} {c : V3} {d : ℝ} (h : TurnedAt t c d) (v : Fin 3 → ℝ) :
    TurnedAt ⟨t.R, t.r, translation2aff v * t.pos4d⟩ ⟨v 0 + c.x, v 1 + c.y, v 2 + c.z⟩ d := by
  obtain ⟨⟨ha, hdet⟩, hc, hg⟩ := h
  refine ⟨⟨affine_mul_translation v ha, ?_⟩, ?_, ?_⟩
  · rw [Matrix.det_mul, det_translation, one_mul]
    exact hdet
  · obtain ⟨_, h1, h2, h3, h4, h5, h6⟩ := hc
    refine ⟨affine_mul_translation v ha, ?_, ?_, ?_, ?_, ?_, ?_⟩ <;>
      simp only [vX, vY, vZ] at * <;>
      simp only [col_translation v ha 0 (by decide), col_translation v ha 1 (by decide),
        col_translation v ha 2 (by decide)] <;> assumption
  · intro p
    have := hg p
    simp only [toGlobal] at this ⊢
    rw [mul4_mul, this, mul4_translation _ _ rfl]
    simp only
    congr 1 <;> ring

theorem double_angles (d_BF R f : ℝ) :
    let g := doubleRowland d_BF R f
    2 * g.central.r * Real.cos (arctan2 d_BF f) = f ∧ 2 * g.central.r * Real.sin (arctan2 d_BF f) = d_BF ∧
    g.central.r ^ 2 = (f / 2) ^ 2 + g.d ^ 2 ∧ g.d = d_BF / 2 ∧ g.centralM.r = g.central.r ∧
    g.detector.r = g.central.r ∧ g.central.R = R ∧ g.centralM.R = R ∧ g.detector.R = R := by
  intro g
  have hn : ‖(⟨f, d_BF⟩ : ℂ)‖ = Real.sqrt (f ^ 2 + d_BF ^ 2) := Complex.norm_eq_sqrt_sq_add_sq _
  have h1 := Complex.norm_mul_cos_arg ⟨f, d_BF⟩
  have h2 := Complex.norm_mul_sin_arg ⟨f, d_BF⟩
  rw [hn] at h1 h2
  simp only at h1 h2
  refine ⟨?_, ?_, ?_, ?_, by simp only [g, doubleRowland], by simp only [g, doubleRowland],
    by simp only [g, doubleRowland], by simp only [g, doubleRowland], by simp only [g, doubleRowland]⟩
  · simp only [g, doubleRowland, arctan2]
    linarith
  · simp only [g, doubleRowland, arctan2]
    linarith
  · simp only [g, doubleRowland]
    have := Real.sq_sqrt (by positivity : (0 : ℝ) ≤ f ^ 2 + d_BF ^ 2)
    linear_combination 1 / 4 * this
  · simp only [g, doubleRowland]
    ring

theorem turned_central (d_BF R f : ℝ) :
    let g := doubleRowland d_BF R f
    TurnedAt g.central ⟨f / 2, g.d, 0⟩ (arctan2 d_BF f) ∧
    TurnedAt g.centralM ⟨f / 2, -g.d, 0⟩ (-arctan2 d_BF f) ∧
    TurnedAt g.detector ⟨f / 2, 0, 0⟩ (arctan2 d_BF f) := by
  intro g
  obtain ⟨h1, h2, h3, h4, h5, h6, h7, h8, h9⟩ := double_angles d_BF R f
  change 2 * g.central.r * _ = _ at h1
  change 2 * g.central.r * _ = _ at h2
  change g.d = _ at h4
  have hc : TurnedAt g.central ⟨f / 2, g.d, 0⟩ (arctan2 d_BF f) := by
    obtain ⟨p1, p2, p3⟩ := placed_turned (f - (g.central.r + R) * Real.cos (arctan2 d_BF f))
      ((g.central.r + R) * Real.sin (arctan2 d_BF f)) 0 (arctan2 d_BF f) _ rfl
    refine ⟨p1, p2, ?_⟩
    intro p
    refine (p3 p).trans ?_
    simp only [show g.central.R = R from rfl]
    congr 1
    · linear_combination (-1 / 2) * h1
    · rw [h4]; linear_combination (1 / 2) * h2
  have hm : TurnedAt g.centralM ⟨f / 2, -g.d, 0⟩ (-arctan2 d_BF f) := by
    obtain ⟨p1, p2, p3⟩ := placed_turned (f - (g.central.r + R) * Real.cos (-arctan2 d_BF f))
      ((g.central.r + R) * Real.sin (-arctan2 d_BF f)) 0 (-arctan2 d_BF f) _ rfl
    refine ⟨p1, p2, ?_⟩
    intro p
    refine (p3 p).trans ?_
    simp only [show g.centralM.R = R from rfl, Real.cos_neg, Real.sin_neg]
    congr 1
    · linear_combination (-1 / 2) * h1
    · rw [h4]; linear_combination (-1 / 2) * h2
  refine ⟨hc, hm, ?_⟩
  have := turned_shift hc ![0, -g.d, 0]
  have e : (⟨(![0, -g.d, 0] : Fin 3 → ℝ) 0 + f / 2, (![0, -g.d, 0] : Fin 3 → ℝ) 1 + g.d,
      (![0, -g.d, 0] : Fin 3 → ℝ) 2 + 0⟩ : V3) = ⟨f / 2, 0, 0⟩ := by simp
  rw [← e]
  exact this

theorem quartic_of_param (t : Torus) (ht : Placed t.pos4d) {p : V3} {th ph : ℝ}
    (h : parametric t th ph = ⟨p.x, p.y, p.z, 1⟩) : quartic t p true = .ok 0 :=
  ((C45_surjective t ht p).1).2 ⟨th, ph, h⟩

/-- **C49** Before they are shifted, both tori (channel and mirrored channel) contain the focal point (origin) and the
position of the on-axis grating at distance `f`. -/
theorem C49_focus_and_grating (d_BF R f : ℝ) :
    let g := doubleRowland d_BF R f
    quartic g.central ⟨0, 0, 0⟩ true = .ok 0 ∧ quartic g.central ⟨f, 0, 0⟩ true = .ok 0 ∧
    quartic g.centralM ⟨0, 0, 0⟩ true = .ok 0 ∧ quartic g.centralM ⟨f, 0, 0⟩ true = .ok 0 := by
  intro g
  obtain ⟨hc, hm, hd⟩ := turned_central d_BF R f
  obtain ⟨h1, h2, h3, h4, h5, h6, h7, h8, h9⟩ := double_angles d_BF R f
  refine ⟨?_, ?_, ?_, ?_⟩
  · obtain ⟨th, h⟩ := (turned_circle hc ⟨0, 0, 0⟩).2 ⟨rfl, by simp only; linarith⟩
    exact quartic_of_param _ hc.placed h
  · obtain ⟨th, h⟩ := (turned_circle hc ⟨f, 0, 0⟩).2 ⟨rfl, by simp only; linarith⟩
    exact quartic_of_param _ hc.placed h
  · obtain ⟨th, h⟩ := (turned_circle hm ⟨0, 0, 0⟩).2 ⟨rfl, by simp only [h5]; linarith⟩
    exact quartic_of_param _ hm.placed h
  · obtain ⟨th, h⟩ := (turned_circle hm ⟨f, 0, 0⟩).2 ⟨rfl, by simp only [h5]; linarith⟩
    exact quartic_of_param _ hm.placed h

/-- **C49** The two channels are mirror images of each other: the mirrored torus is the torus with the sign of y
changed. -/
theorem C49_mirror (d_BF R f : ℝ) (p : V3) :
    let g := doubleRowland d_BF R f
    quartic g.central p true = .ok 0 ↔ quartic g.centralM ⟨p.x, -p.y, p.z⟩ true = .ok 0 := by
  intro g
  obtain ⟨hc, hm, hd⟩ := turned_central d_BF R f
  obtain ⟨h1, h2, h3, h4, h5, h6, h7, h8, h9⟩ := double_angles d_BF R f
  have hR : g.centralM.R = g.central.R := by rw [h7, h8]
  have hr : g.centralM.r = g.central.r := h5
  have hpar : ∀ th ph, parametric g.centralM (-th) ph =
      ⟨(parametric g.central th ph).x, -(parametric g.central th ph).y, (parametric g.central th ph).z, 1⟩ := by
    intro th ph
    have e1 := hc.glob (parametricLocal g.central.R g.central.r th ph).xyz
    have e2 := hm.glob (parametricLocal g.centralM.R g.centralM.r (-th) ph).xyz
    change parametric g.central th ph = _ at e1
    change parametric g.centralM (-th) ph = _ at e2
    rw [e1, e2]
    simp only [parametricLocal, H4.xyz, Real.cos_neg, Real.sin_neg]
    rw [hR, hr]
    congr 1 <;> ring
  rw [(C45_surjective _ hc.placed _).1, (C45_surjective _ hm.placed _).1]
  constructor
  · rintro ⟨th, ph, h⟩
    refine ⟨-th, ph, ?_⟩
    rw [hpar, h]
  · rintro ⟨th, ph, h⟩
    refine ⟨-th, ph, ?_⟩
    have h' := hpar (-th) ph
    rw [neg_neg, h] at h'
    simp only [H4.mk.injEq, neg_inj, and_true] at h'
    have hw : (parametric g.central (-th) ph).w = 1 := (C45_parametric_on_torus _ hc.placed _ _).1
    obtain ⟨e1, e2, e3⟩ := h'
    rw [e1, e2, e3, ← hw]

/-- **C49** All channels share the detector circle.  The circle in the plane of symmetry of the detector torus has
radius `r` and center `(f / 2, 0, 0)`, and the focal points of both channels are on it. -/
theorem C49_detector (d_BF R f : ℝ) :
    let g := doubleRowland d_BF R f
    (∀ p : V3, (∃ th, parametric g.detector th 0 = ⟨p.x, p.y, p.z, 1⟩) ↔
      p.z = 0 ∧ (p.x - f / 2) ^ 2 + p.y ^ 2 = g.detector.r ^ 2) ∧
    (∃ th, parametric g.detector th 0 = ⟨0, d_BF / 2, 0, 1⟩) ∧
    (∃ th, parametric g.detector th 0 = ⟨0, -(d_BF / 2), 0, 1⟩) ∧
    quartic g.detector ⟨0, d_BF / 2, 0⟩ true = .ok 0 ∧
    quartic g.detector ⟨0, -(d_BF / 2), 0⟩ true = .ok 0 := by
  intro g
  obtain ⟨hc, hm, hd⟩ := turned_central d_BF R f
  obtain ⟨h1, h2, h3, h4, h5, h6, h7, h8, h9⟩ := double_angles d_BF R f
  have hcirc := fun p => turned_circle hd p
  simp only [sub_zero] at hcirc
  rw [h4] at h3
  have c1 := (hcirc ⟨0, d_BF / 2, 0⟩).2 ⟨rfl, by simp only [h6]; linarith⟩
  have c2 := (hcirc ⟨0, -(d_BF / 2), 0⟩).2 ⟨rfl, by simp only [h6]; linarith⟩
  refine ⟨hcirc, c1, c2, ?_, ?_⟩
  · obtain ⟨th, h⟩ := c1
    exact quartic_of_param _ hd.placed h
  · obtain ⟨th, h⟩ := c2
    exact quartic_of_param _ hd.placed h

/-- The sign of the position of the optical axis of a channel: `+` for mirrored channels. -/
def channelSide (name : String) : ℝ := if name = "1m" ∨ name = "2m" then 1 else -1

theorem contains_m : ("1".toList.contains 'm' = false) ∧ ("2".toList.contains 'm' = false) ∧
    ("3".toList.contains 'm' = false) ∧
    ("1m".toList.contains 'm' = true) ∧ ("2m".toList.contains 'm' = true) := by decide

/-- What holds for the torus of a channel with a given offset: its circle is the detector circle, moved by the offset,
and contains the focal point and the on-axis grating of the channel. -/
def ChannelOK (d_BF R f : ℝ) (name : String) (offset : Fin 3 → ℝ) (t : Torus) : Prop :=
  Placed t.pos4d ∧ Conformal t.pos4d 1 ∧ t.R = R ∧ t.r = 1 / 2 * Real.sqrt (f ^ 2 + d_BF ^ 2) ∧
  (∀ p : V3, (∃ th, parametric t th 0 = ⟨p.x, p.y, p.z, 1⟩) ↔
    p.z = offset 2 ∧ (p.x - (f / 2 + offset 0)) ^ 2 + (p.y - offset 1) ^ 2 = t.r ^ 2) ∧
  quartic t ⟨offset 0, channelSide name * (d_BF / 2) + offset 1, offset 2⟩ true = .ok 0 ∧
  quartic t ⟨f + offset 0, channelSide name * (d_BF / 2) + offset 1, offset 2⟩ true = .ok 0

theorem channel_ok (d_BF R f : ℝ) (name : String) (offset : Fin 3 → ℝ)
    (hn : name ∈ ["1", "2", "1m", "2m"]) (b : Torus)
    (hb : b = if name = "1" ∨ name = "2" then (doubleRowland d_BF R f).central
      else (doubleRowland d_BF R f).centralM) :
    ChannelOK d_BF R f name offset
      ⟨b.R, b.r, translation2aff (posOptAx (doubleRowland d_BF R f).d name offset) * b.pos4d⟩ := by
  obtain ⟨hc, hm, hd⟩ := turned_central d_BF R f
  obtain ⟨h1, h2, h3, h4, h5, h6, h7, h8, h9⟩ := double_angles d_BF R f
  obtain ⟨m1, m2, _, m3, m4⟩ := contains_m
  have key : ∃ a, TurnedAt ⟨b.R, b.r, translation2aff (posOptAx (doubleRowland d_BF R f).d name offset) * b.pos4d⟩
      ⟨f / 2 + offset 0, offset 1, offset 2⟩ a ∧ b.r = (doubleRowland d_BF R f).central.r ∧ b.R = R := by
    simp only [List.mem_cons, List.not_mem_nil, or_false] at hn
    rcases hn with rfl | rfl | rfl | rfl
    · rw [if_pos (by decide)] at hb
      subst hb
      have := turned_shift hc (posOptAx (doubleRowland d_BF R f).d "1" offset)
      simp only [posOptAx, m1] at this ⊢
      refine ⟨arctan2 d_BF f, ?_, trivial, h7⟩
      convert this using 1
      simp
      ring
    · rw [if_pos (by decide)] at hb
      subst hb
      have := turned_shift hc (posOptAx (doubleRowland d_BF R f).d "2" offset)
      simp only [posOptAx, m2] at this ⊢
      refine ⟨arctan2 d_BF f, ?_, trivial, h7⟩
      convert this using 1
      simp
      ring
    · rw [if_neg (by decide)] at hb
      subst hb
      have := turned_shift hm (posOptAx (doubleRowland d_BF R f).d "1m" offset)
      simp only [posOptAx, m3] at this ⊢
      refine ⟨-arctan2 d_BF f, ?_, h5, h8⟩
      convert this using 1
      simp
      ring
    · rw [if_neg (by decide)] at hb
      subst hb
      have := turned_shift hm (posOptAx (doubleRowland d_BF R f).d "2m" offset)
      simp only [posOptAx, m4] at this ⊢
      refine ⟨-arctan2 d_BF f, ?_, h5, h8⟩
      convert this using 1
      simp
      ring
  obtain ⟨a, ht, hr, hR⟩ := key
  have hside : channelSide name ^ 2 = 1 := by
    unfold channelSide
    split <;> norm_num
  have hcirc := fun p => turned_circle ht p
  rw [h4] at h3
  refine ⟨ht.placed, ht.rigid, hR, ?_, hcirc, ?_, ?_⟩
  · simp only [hr]; rfl
  · obtain ⟨th, h⟩ := (hcirc ⟨offset 0, channelSide name * (d_BF / 2) + offset 1, offset 2⟩).2 ⟨rfl, by
      simp only [hr, h3]
      linear_combination (d_BF / 2) ^ 2 * hside⟩
    exact quartic_of_param _ ht.placed h
  · obtain ⟨th, h⟩ := (hcirc ⟨f + offset 0, channelSide name * (d_BF / 2) + offset 1, offset 2⟩).2 ⟨rfl, by
      simp only [hr, h3]
      linear_combination (d_BF / 2) ^ 2 * hside⟩
    exact quartic_of_param _ ht.placed h

/-- **C49** For every list of channels with the names "1", "2", "1m", "2m" and any offsets, one torus is made for every
channel; the circles of all channels are the detector circle, moved by the offset of the channel, and every
torus contains the focal point and the on-axis grating position of its channel. -/
theorem C49_channels_partial (d_BF R f : ℝ) (offsets : List (String × (Fin 3 → ℝ)))
    (hn : ∀ o ∈ offsets, o.1 ∈ ["1", "2", "1m", "2m"]) (base : Option Torus) :
    ∃ l, addChannels (doubleRowland d_BF R f) base offsets = .ok l ∧
      List.Forall₂ (fun o c => c.1 = "rowland_" ++ o.1 ∧ ChannelOK d_BF R f o.1 o.2 c.2) offsets l := by
  induction offsets generalizing base with
  | nil => exact ⟨[], rfl, List.Forall₂.nil⟩
  | cons o rest ih =>
    obtain ⟨name, offset⟩ := o
    have hname := hn (name, offset) (List.mem_cons_self ..)
    have hrest := fun b => ih (fun o ho => hn o (List.mem_cons_of_mem _ ho)) b
    have hbase : (if name = "1" ∨ name = "2" then some (doubleRowland d_BF R f).central
        else if name = "1m" ∨ name = "2m" then some (doubleRowland d_BF R f).centralM else base) =
        some (if name = "1" ∨ name = "2" then (doubleRowland d_BF R f).central
          else (doubleRowland d_BF R f).centralM) := by
      simp only [List.mem_cons, List.not_mem_nil, or_false] at hname
      rcases hname with rfl | rfl | rfl | rfl <;> simp
    unfold addChannels
    simp only [hbase]
    obtain ⟨l, h1, h2⟩ := hrest (some (if name = "1" ∨ name = "2" then (doubleRowland d_BF R f).central
          else (doubleRowland d_BF R f).centralM))
    rw [h1]
    exact ⟨_, rfl, List.Forall₂.cons ⟨rfl, channel_ok d_BF R f name offset hname _ rfl⟩ h2⟩

/-- **C49** The documentation allows channels "3", "4" and so on, which shall be made from the original channel.
That does not work: if such a channel is listed first, the function fails, and if it is listed after a mirrored channel,
its torus is made from the mirrored channel and its circle is not the detector circle. -/
theorem C49_channel3_false (d_BF R f : ℝ) (hd : d_BF ≠ 0) :
    addChannels (doubleRowland d_BF R f) none [("3", ![0, 0, 0])] = .error .keyError ∧
    ∃ t1 t3, addChannels (doubleRowland d_BF R f) none [("1m", ![0, 0, 0]), ("3", ![0, 0, 0])] =
        .ok [("rowland_1m", t1), ("rowland_3", t3)] ∧
      ChannelOK d_BF R f "1m" ![0, 0, 0] t1 ∧ ¬ ChannelOK d_BF R f "3" ![0, 0, 0] t3 := by
  obtain ⟨hc, hm, hdet⟩ := turned_central d_BF R f
  obtain ⟨h1, h2, h3, h4, h5, h6, h7, h8, h9⟩ := double_angles d_BF R f
  constructor
  · simp [addChannels]
  · refine ⟨_, _, by simp [addChannels]; exact ⟨rfl, rfl⟩, ?_, ?_⟩
    · exact channel_ok d_BF R f "1m" ![0, 0, 0] (by simp) _ (by simp)
    · intro h
      have hcirc := h.2.2.2.2.1
      have ht := turned_shift hm (posOptAx (doubleRowland d_BF R f).d "3" ![0, 0, 0])
      have hcirc2 := fun p => turned_circle ht p
      have e := (hcirc ⟨f / 2 + (doubleRowland d_BF R f).centralM.r, 0, 0⟩).2 ⟨by simp, by simp⟩
      have e2 := ((hcirc2 ⟨f / 2 + (doubleRowland d_BF R f).centralM.r, 0, 0⟩).1 e).2
      simp [posOptAx, contains_m.2.2.1] at e2
      rw [h4] at e2
      apply hd
      linarith

example : ∀ o ∈ [("1", ![0, -2.5, -7.5]), ("1m", ![0, -2.5, -2.5]), ("2", ![0, 2.5, 2.5]),
    ("2m", (![0, 2.5, 7.5] : Fin 3 → ℝ))], o.1 ∈ ["1", "2", "1m", "2m"] := by
  simp

/-! ## C78 -/

theorem forall₂_of_mapM {α β : Type} {f : α → Except Err β} {l : List α} {l' : List β}
    (h : l.mapM f = .ok l') : List.Forall₂ (fun a b => f a = .ok b) l l' := by
  induction l generalizing l' with
  | nil =>
    simp [pure, Except.pure] at h
    subst h
    exact List.Forall₂.nil
  | cons a l ih =>
    rw [List.mapM_cons] at h
    cases ha : f a with
    | error e => simp [ha, bind, Except.bind] at h
    | ok b =>
      cases hl : l.mapM f with
      | error e => simp [ha, hl, bind, Except.bind] at h
      | ok bs =>
        simp [ha, hl, bind, Except.bind, pure, Except.pure] at h
        subst h
        exact List.Forall₂.cons ha (ih hl)

/-- What `solve_quartic` returns. -/
theorem solve_spec (root : RootFinder) (hroot : FindsRoots root) (t : Torus) (origin v : H4) (tr : Bool) {e : H4}
    (how : origin.w = 1) (hvw : v.w = 0)
    (h : solveQuartic root t origin v tr = .ok e) :
    e.w = 1 ∧ quartic t e.xyz tr = .ok 0 ∧ ∃ k : ℝ, e.xyz = origin.xyz + k • v.xyz := by
  unfold solveQuartic at h
  split at h
  · rename_i o d ho hd
    rw [h2e_point how] at ho
    rw [h2e_dir hvw] at hd
    have eo := Except.ok.inj ho
    have ed := Except.ok.inj hd
    simp only [List.cons.injEq, and_true] at eo ed
    split at h
    · cases h
    · rename_i k hk
      have hk' := hroot _ _ hk
      have he := (Except.ok.inj h).symm
      subst he
      refine ⟨rfl, ?_, k, ?_⟩
      · have e2 : (⟨o.x + k * d.x, o.y + k * d.y, o.z + k * d.z, 1⟩ : H4).xyz = o + k • d := rfl
        rw [e2]
        split at hk'
        · rename_i q hq
          rw [hq, hk']
        · exact absurd hk' (by norm_num)
      · rw [eo, ed]; rfl
  · cases h
  · cases h
  · cases h

/-- **C78** Every element position from `ElementsOnTorus.elempos` lies on the torus and on the line through the
requested position (y, z in the coordinate system of the torus) in the direction of the optimisation axis. There is exactly one
position per requested pair, in the same order. -/
theorem C78_elements_on_torus (root : RootFinder) (hroot : FindsRoots root) (t : Torus) (ht : Placed t.pos4d)
    (guess : ℝ) (axis : H4) (haxis : axis.w = 0) (yz : List (ℝ × ℝ)) (l : List H4)
    (h : elemposTorus root t guess axis yz = .ok l) :
    List.Forall₂ (fun p e => IsPoint e ∧ quartic t e.xyz true = .ok 0 ∧
      ∃ k : ℝ, e = toGlobal t.pos4d ⟨0, p.1, p.2⟩ + k • axis) yz l := by
  unfold elemposTorus at h
  have h2 := forall₂_of_mapM h
  refine h2.imp ?_
  intro p e he
  have hw : (mul4 t.pos4d ⟨0, p.1, p.2, 1⟩).w = 1 := affine_w ht.1 _
  obtain ⟨h1, h2, k, h3⟩ := solve_spec root hroot t _ _ _ (by
    change (mul4 t.pos4d ⟨0, p.1, p.2, 1⟩).w + guess * axis.w = 1
    rw [hw, haxis]; ring) haxis he
  refine ⟨h1, h2, guess + k, ?_⟩
  have e1 := congrArg V3.x h3
  have e2 := congrArg V3.y h3
  have e3 := congrArg V3.z h3
  change e.x = _ + guess * axis.x + k * axis.x at e1
  change e.y = _ + guess * axis.y + k * axis.y at e2
  change e.z = _ + guess * axis.z + k * axis.z at e3
  change e = H4.mk (_ + (guess + k) * axis.x) (_ + (guess + k) * axis.y) (_ + (guess + k) * axis.z)
    (_ + (guess + k) * axis.w)
  have e4 : e = ⟨e.x, e.y, e.z, e.w⟩ := rfl
  rw [e4, e1, e2, e3, h1]
  simp only [toGlobal]
  rw [hw, haxis]
  congr 1 <;> ring

/-- **C78** If there is no solution for one of the positions, there is no partial result. -/
theorem C78_all_or_nothing (root : RootFinder) (t : Torus) (guess : ℝ) (axis : H4) (pre post : List (ℝ × ℝ))
    (p : ℝ × ℝ) (e : Err)
    (h : solveQuartic root t (mul4 t.pos4d ⟨0, p.1, p.2, 1⟩ + guess • axis) axis true = .error e) :
    ∃ e', elemposTorus root t guess axis (pre ++ p :: post) = .error e' := by
  cases hres : elemposTorus root t guess axis (pre ++ p :: post) with
  | error e' => exact ⟨e', rfl⟩
  | ok l =>
    exfalso
    unfold elemposTorus at hres
    have h2 := forall₂_of_mapM hres
    obtain ⟨b, _, hb⟩ := (List.forall₂_iff_get.1 h2 |> fun hh => by
      obtain ⟨hlen, hget⟩ := hh
      have hi : pre.length < (pre ++ p :: post).length := by simp
      refine ⟨l.get ⟨pre.length, hlen ▸ hi⟩, List.get_mem _ _, ?_⟩
      have := hget pre.length hi (hlen ▸ hi)
      simpa using this : ∃ b, b ∈ l ∧
        solveQuartic root t (mul4 t.pos4d ⟨0, p.1, p.2, 1⟩ + guess • axis) axis true = .ok b)
    rw [h] at hb
    cases hb

/-- **C78** `xyz_from_radiusangle` returns a point on the torus with the requested polar coordinates in the coordinate
system of the torus. -/
theorem C78_radiusangle (root : RootFinder) (hroot : FindsRoots root) (t : Torus) (ht : Placed t.pos4d)
    (radius angle start : ℝ) (q : V3) (h : xyzFromRadiusangle root t radius angle start = .ok q) :
    quartic t q true = .ok 0 ∧
    ∃ x, toGlobal t.pos4d ⟨x, radius * Real.cos angle, radius * Real.sin angle⟩ = ⟨q.x, q.y, q.z, 1⟩ := by
  unfold xyzFromRadiusangle at h
  split at h
  · cases h
  · rename_i out hout
    obtain ⟨h1, h2, k, h3⟩ := solve_spec root hroot t _ _ _ rfl rfl hout
    have hw : (mul4 t.pos4d out).w = 1 := by rw [affine_w ht.1, h1]
    rw [h2e_point hw] at h
    have hq := (Except.ok.inj h).symm
    have e1 : out.y = radius * Real.cos angle := by
      have := congrArg V3.y h3
      change out.y = radius * Real.cos angle + k * 0 at this
      linarith
    have e2 : out.z = radius * Real.sin angle := by
      have := congrArg V3.z h3
      change out.z = radius * Real.sin angle + k * 0 at this
      linarith
    have hg : toGlobal t.pos4d ⟨out.x, radius * Real.cos angle, radius * Real.sin angle⟩ = ⟨q.x, q.y, q.z, 1⟩ := by
      rw [← e1, ← e2]
      have : toGlobal t.pos4d ⟨out.x, out.y, out.z⟩ = mul4 t.pos4d out := by
        show mul4 t.pos4d ⟨out.x, out.y, out.z, 1⟩ = _
        rw [← h1]
      rw [this, hq, ← hw]
      rfl
    refine ⟨?_, out.x, hg⟩
    have h2' : quarticLocal t.R t.r out.xyz = 0 := by
      unfold quartic at h2
      exact Except.ok.inj h2
    rw [C45_quartic_iff] at h2'
    refine quartic_of_local t ht h2' ?_
    rw [← hg, ← e1, ← e2]
    rfl

open Classical in
/-- A root finder that finds a root whenever there is one. -/
noncomputable def idealRoot : RootFinder := fun f => if h : ∃ k, f k = 0 then some h.choose else none

theorem idealRoot_finds : FindsRoots idealRoot := by
  intro f k h
  unfold idealRoot at h
  split at h
  · rename_i hex
    cases h
    exact hex.choose_spec
  · cases h

theorem idealRoot_none {f : ℝ → ℝ} (h : idealRoot f = none) (k : ℝ) : f k ≠ 0 := by
  unfold idealRoot at h
  split at h
  · cases h
  · rename_i hno
    exact fun hk => hno ⟨k, hk⟩

/-- **C78** With a root finder that finds a root whenever there is one, there is a result if and only if all the lines meet the
torus. -/
theorem C78_ideal (t : Torus) (ht : Placed t.pos4d) (guess : ℝ) (axis : H4) (haxis : axis.w = 0)
    (yz : List (ℝ × ℝ)) :
    (∃ l, elemposTorus idealRoot t guess axis yz = .ok l) ↔
    ∀ p ∈ yz, ∃ k : ℝ, quartic t (toGlobal t.pos4d ⟨0, p.1, p.2⟩ + k • axis).xyz true = .ok 0 := by
  constructor
  · rintro ⟨l, hl⟩ p hp
    have h := C78_elements_on_torus idealRoot idealRoot_finds t ht guess axis haxis yz l hl
    obtain ⟨i, hi, rfl⟩ := List.getElem_of_mem hp
    have hlen := h.length_eq
    have h2 := (List.forall₂_iff_get.1 h).2 i hi (hlen ▸ hi)
    obtain ⟨_, hq, k, hk⟩ := h2
    refine ⟨k, ?_⟩
    rw [hk] at hq
    exact hq
  · intro h
    induction yz with
    | nil => exact ⟨[], rfl⟩
    | cons p yz ih =>
      obtain ⟨l, hl⟩ := ih fun q hq => h q (List.mem_cons_of_mem _ hq)
      obtain ⟨k, hk⟩ := h p (List.mem_cons_self ..)
      have hw : (mul4 t.pos4d ⟨0, p.1, p.2, 1⟩).w = 1 := affine_w ht.1 _
      have how : (mul4 t.pos4d ⟨0, p.1, p.2, 1⟩ + guess • axis).w = 1 := by
        change (mul4 t.pos4d ⟨0, p.1, p.2, 1⟩).w + guess * axis.w = 1
        rw [hw, haxis]; ring
      have hsol : ∃ e, solveQuartic idealRoot t (mul4 t.pos4d ⟨0, p.1, p.2, 1⟩ + guess • axis) axis true = .ok e := by
        unfold solveQuartic
        rw [h2e_point how, h2e_dir haxis]
        simp only
        split
        · rename_i hnone
          refine absurd ?_ (idealRoot_none hnone (k - guess))
          have e : (mul4 t.pos4d ⟨0, p.1, p.2, 1⟩ + guess • axis).xyz + (k - guess) • axis.xyz =
              (toGlobal t.pos4d ⟨0, p.1, p.2⟩ + k • axis).xyz := by
            change V3.mk (_ + guess * axis.x + (k - guess) * axis.x) (_ + guess * axis.y + (k - guess) * axis.y)
              (_ + guess * axis.z + (k - guess) * axis.z) = V3.mk (_ + k * axis.x) (_ + k * axis.y) (_ + k * axis.z)
            simp only [toGlobal]
            congr 1 <;> ring
          rw [e, hk]
        · exact ⟨_, rfl⟩
      obtain ⟨e, he⟩ := hsol
      refine ⟨e :: l, ?_⟩
      unfold elemposTorus at hl ⊢
      rw [List.mapM_cons, he, hl]
      rfl

/-- The line of sight through the center meets the torus. -/
example : let t : Torus := ⟨3, 1, compose ![1, 2, 3] 1 ![1, 1, 1]⟩
    ∃ l, elemposTorus idealRoot t 4 ⟨1, 0, 0, 0⟩ [(0, 0), (1, 0)] = .ok l := by
  intro t
  have ht : Placed t.pos4d := by
    refine ⟨affine_compose _ _ _, ?_⟩
    rw [det_compose]
    simp [Fin.prod_univ_three]
  refine (C78_ideal t ht 4 ⟨1, 0, 0, 0⟩ rfl _).2 ?_
  intro p hp
  simp only [List.mem_cons, List.not_mem_nil, or_false] at hp
  rcases hp with rfl | rfl
  · refine ⟨4, ?_⟩
    have := (C45_parametric_on_torus t ht 0 0).2
    rw [← this]
    congr 1
    simp [toGlobal, parametric, parametricLocal, mul4, t, compose, H4.xyz, Matrix.one_apply]
    norm_num
  · refine ⟨3, ?_⟩
    have := (C45_parametric_on_torus t ht (Real.pi / 2) 0).2
    rw [← this]
    congr 1
    simp [toGlobal, parametric, parametricLocal, mul4, t, compose, H4.xyz, Matrix.one_apply]
    norm_num

end Marxs
