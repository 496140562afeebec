import Verif.Spec.ResPower
import Mathlib.Tactic.Linarith
import Mathlib.Tactic.NormNum
import Mathlib.Tactic.FieldSimp
import Mathlib.Tactic.Ring
import Mathlib.Algebra.Order.Field.Basic
import Mathlib.Algebra.Order.AbsoluteValue.Basic

/-!
# C113: resolving power order by order
-/

namespace Marxs
open Classical

/-- **C113** For each order, all gratings are set to this order, the same photons are sent through them, and the numbers come from the
photons that were diffracted into this order and are not lost: FWHM is 2.3548 times the standard deviation, resolving power is the distance of the mean from
order zero divided by the FWHM. -/
theorem C113_each {α G : Type} (stats : List (Option ℝ) → Option (ℝ × ℝ))
    (gas : List (List ℤ) → G → List (GasPhoton α) → List (GasPhoton α) × G)
    (photons : List (GasPhoton α)) (orders : List ℤ) (det : DetChoice α) (s : GasState) (g : G) :
    List.Forall₂ (fun o r => ∃ g',
        let pg := (gas (List.replicate s.elements.length [o]) g' photons).1.filter fun p => p.order = some o ∧ 0 < p.prob
        let x := seenAt det pg
        (stats x = none → r = (none, none)) ∧
        ∀ mean std, stats x = some (mean, std) → r.2 = some (2.3548 * std) ∧
          ∀ z, zeroPos stats photons det = some z → std ≠ 0 → r.1 = some (|mean - z| / |2.3548 * std|))
      orders (resolvingPowerPerOrder stats gas photons orders det s g).1 := by
  unfold resolvingPowerPerOrder
  generalize zeroPos stats photons det = zero
  have key : ∀ (orders : List ℤ) (s' : GasState) (g : G), s'.elements.length = s.elements.length →
      List.Forall₂ (fun o r => ∃ g',
        let pg := (gas (List.replicate s.elements.length [o]) g' photons).1.filter fun p => p.order = some o ∧ 0 < p.prob
        let x := seenAt det pg
        (stats x = none → r = (none, none)) ∧
        ∀ mean std, stats x = some (mean, std) → r.2 = some (2.3548 * std) ∧
          ∀ z, zero = some z → std ≠ 0 → r.1 = some (|mean - z| / |2.3548 * std|))
      orders (resLoop stats gas photons det zero orders s' g).1 := by
    intro orders
    induction orders with
    | nil => intro s' g _; exact List.Forall₂.nil
    | cons o os ih =>
      intro s' g hs
      have hrep : s'.elements.map (fun _ => [o]) = List.replicate s.elements.length [o] := by
        rw [List.map_const', hs]
      refine List.Forall₂.cons ⟨g, ?_⟩ (ih _ _ (by simp [hs]))
      simp only [hrep]
      generalize (gas (List.replicate s.elements.length [o]) g photons).1.filter _ = pg
      rw [show seenAt det pg = (det.detect pg).map Prod.snd by cases det <;> rfl]
      generalize (det.detect pg).map Prod.snd = x
      constructor
      · intro h
        simp only [resFwhm, h]
      · intro mean std h
        simp only [resFwhm, h]
        refine ⟨trivial, ?_⟩
        intro z hz' hstd
        subst hz'
        simp only
        rw [if_neg (mul_ne_zero (by norm_num) hstd), abs_div]
  exact key orders s g rfl

/-- **C113** Where order zero is: at the origin if the detector is placed automatically, at the mean position of the photons that are not lost
on a Rowland circle. -/
theorem C113_zero {α : Type} (stats : List (Option ℝ) → Option (ℝ × ℝ)) (photons : List (GasPhoton α)) :
    (∀ best flat, zeroPos stats photons (.optimized best flat) = some 0) ∧
    ∀ det, zeroPos stats photons (.rowland det) =
      (stats ((det photons).filterMap fun p => if 0 < p.1 then some p.2 else none)).map Prod.fst := by
  refine ⟨fun _ _ => rfl, fun det => ?_⟩
  simp only [zeroPos]
  congr 2
  induction det photons with
  | nil => rfl
  | cons p l ih =>
    by_cases h : 0 < p.1
    · simp only [List.filterMap_cons, List.filter_cons, h, decide_true, if_true, List.map_cons, ih]
    · simp only [List.filterMap_cons, List.filter_cons, h, decide_false, if_false, ih, Bool.false_eq_true]

/-- **C113** If nothing is random, the result for an order does not depend on which other orders are in the list, nor on
the order selectors that the gratings had before. -/
theorem C113_independent {α G : Type} (stats : List (Option ℝ) → Option (ℝ × ℝ))
    (gas : List (List ℤ) → G → List (GasPhoton α) → List (GasPhoton α) × G) (hg : PhotonByPhoton gas)
    (photons : List (GasPhoton α)) (det : DetChoice α) (n : ℕ) :
    ∃ f : ℤ → Option ℝ × Option ℝ, ∀ (orders : List ℤ) (s : GasState) (g : G), s.elements.length = n →
      (resolvingPowerPerOrder stats gas photons orders det s g).1 = orders.map f := by
  obtain ⟨F, hF, _⟩ := hg
  refine ⟨fun o => resFwhm stats (zeroPos stats photons det)
    ((det.detect ((photons.map (F (List.replicate n [o]))).filter fun p => p.order = some o ∧ 0 < p.prob)).map Prod.snd), ?_⟩
  unfold resolvingPowerPerOrder
  intro orders
  induction orders with
  | nil => intro s g _; rfl
  | cons o os ih =>
    intro s g hs
    have hrep : s.elements.map (fun _ => [o]) = List.replicate n [o] := by rw [List.map_const', hs]
    simp only [resLoop, List.map_cons]
    rw [ih _ _ (by simp [hs]), hF, hrep]

/-- **C113** Documented side effect: afterwards all gratings, and those that will be made by `generate_elements`, have
the order selector for the last order. With no orders, nothing changes. -/
theorem C113_side_effect {α G : Type} (stats : List (Option ℝ) → Option (ℝ × ℝ))
    (gas : List (List ℤ) → G → List (GasPhoton α) → List (GasPhoton α) × G)
    (photons : List (GasPhoton α)) (orders : List ℤ) (det : DetChoice α) (s : GasState) (g : G) :
    (resolvingPowerPerOrder stats gas photons orders det s g).2.1 =
      match orders.getLast? with
      | none => s
      | some o => ⟨some [o], List.replicate s.elements.length [o]⟩ := by
  unfold resolvingPowerPerOrder
  generalize zeroPos stats photons det = zero
  induction orders generalizing s g with
  | nil => rfl
  | cons o os ih =>
    simp only [resLoop]
    rw [ih]
    cases os with
    | nil => simp [List.map_const']
    | cons o' os' =>
      have : (o :: o' :: os').getLast? = (o' :: os').getLast? := by simp [List.getLast?_cons_cons]
      rw [this]
      cases h : (o' :: os').getLast? with
      | none => simp at h
      | some l => simp

/-- **C113** Resolving power has no unit: moving and scaling the coordinate of the detector does not change it, and scales FWHM. -/
theorem C113_units {α G : Type} (stats : List (Option ℝ) → Option (ℝ × ℝ)) (hst : StatsScale stats)
    (gas : List (List ℤ) → G → List (GasPhoton α) → List (GasPhoton α) × G)
    (photons : List (GasPhoton α)) (orders : List ℤ) (det det' : List (GasPhoton α) → List (ℝ × Option ℝ)) (a b : ℝ) (ha : a ≠ 0)
    (hdet : ∀ l, det' l = (det l).map fun (p, x) => (p, x.map fun v => a * v + b)) (s : GasState) (g : G) :
    (resolvingPowerPerOrder stats gas photons orders (.user det') s g).1 =
      (resolvingPowerPerOrder stats gas photons orders (.user det) s g).1.map fun (r, w) => (r, w.map fun v => |a| * v) := by
  have hcol : ∀ l, (det' l).map Prod.snd = ((det l).map Prod.snd).map fun x => x.map fun v => a * v + b := by
    intro l
    rw [hdet, List.map_map, List.map_map]
    rfl
  have hz : zeroPos stats photons (.user det') = (zeroPos stats photons (.user det)).map fun z => a * z + b := by
    simp only [zeroPos]
    rw [hcol, hst a b _ ha]
    cases stats ((det photons).map Prod.snd) <;> rfl
  have hr : ∀ (zero : Option ℝ) (x : List (Option ℝ)), resFwhm stats (zero.map fun z => a * z + b) (x.map fun x => x.map fun v => a * v + b) =
      ((resFwhm stats zero x).1, (resFwhm stats zero x).2.map fun v => |a| * v) := by
    intro zero x
    unfold resFwhm
    rw [hst a b x ha]
    cases h : stats x with
    | none => rfl
    | some ms =>
      obtain ⟨m, sd⟩ := ms
      simp only [Option.map_some]
      have ha' : |a| ≠ 0 := abs_ne_zero.2 ha
      refine Prod.ext ?_ (by simp; ring)
      cases zero with
      | none => rfl
      | some z =>
        simp only [Option.map_some]
        by_cases hs : (2.3548 : ℝ) * sd = 0
        · rw [if_pos hs, if_pos (by rw [mul_left_comm, hs, mul_zero])]
        · rw [if_neg hs, if_neg (by rw [mul_left_comm]; exact mul_ne_zero ha' hs)]
          congr 1
          rw [abs_div, abs_div, show a * m + b - (a * z + b) = a * (m - z) by ring, abs_mul,
            show (2.3548 : ℝ) * (|a| * sd) = |a| * (2.3548 * sd) by ring, abs_mul, abs_abs,
            mul_div_mul_left _ _ ha']
  unfold resolvingPowerPerOrder
  rw [hz]
  induction orders generalizing s g with
  | nil => rfl
  | cons o os ih =>
    simp only [resLoop, List.map_cons, DetChoice.detect]
    rw [ih, hcol, hr]

/-- **C113** Photons that are lost before they reach the gratings do not matter, except for detectors given by the user (see
`C113_lost_false`). -/
theorem C113_lost_partial {α G : Type} (stats : List (Option ℝ) → Option (ℝ × ℝ))
    (gas : List (List ℤ) → G → List (GasPhoton α) → List (GasPhoton α) × G) (hg : PhotonByPhoton gas)
    (photons : List (GasPhoton α)) (orders : List ℤ) (s : GasState) (g : G) (det : DetChoice α)
    (hdet : (∃ best flat, det = .optimized best flat) ∨ ∃ d, det = .rowland d ∧ DetByPhoton d) :
    (resolvingPowerPerOrder stats gas photons orders det s g).1 =
      (resolvingPowerPerOrder stats gas (photons.filter fun p => 0 < p.prob) orders det s g).1 := by
  obtain ⟨F, hF, hF0⟩ := hg
  have hz : zeroPos stats photons det = zeroPos stats (photons.filter fun p => 0 < p.prob) det := by
    rcases hdet with ⟨best, flat, rfl⟩ | ⟨d, rfl, f, hf, hf0⟩
    · rfl
    · simp only [zeroPos, hf]
      congr 3
      induction photons with
      | nil => rfl
      | cons p l ih =>
        by_cases h : 0 < p.prob
        · simp only [List.filter_cons, h, decide_true, if_true, List.map_cons, ih]
        · simp only [List.filter_cons, h, decide_false, List.map_cons, hf0 p h, ih, Bool.false_eq_true, if_false]
  have hsel : ∀ sel (o : ℤ), (photons.map (F sel)).filter (fun p => p.order = some o ∧ 0 < p.prob) =
      ((photons.filter fun p => 0 < p.prob).map (F sel)).filter (fun p => p.order = some o ∧ 0 < p.prob) := by
    intro sel o
    induction photons with
    | nil => rfl
    | cons p l ih =>
      have ih' := ih (by
        rcases hdet with ⟨best, flat, rfl⟩ | ⟨d, rfl, f, hf, hf0⟩
        · rfl
        · simp only [zeroPos, hf]
          congr 3
          clear ih hz
          induction l with
          | nil => rfl
          | cons p l ih =>
            by_cases h : 0 < p.prob
            · simp only [List.filter_cons, h, decide_true, if_true, List.map_cons, ih]
            · simp only [List.filter_cons, h, decide_false, List.map_cons, hf0 p h, ih, Bool.false_eq_true, if_false])
      by_cases h : 0 < p.prob
      · simp only [List.filter_cons, List.map_cons, h, decide_true, if_true, ih']
      · have h' := hF0 sel p h
        simp only [List.filter_cons, List.map_cons, h, h', and_false, decide_false, Bool.false_eq_true, if_false, ih']
  unfold resolvingPowerPerOrder
  rw [hz]
  induction orders generalizing s g with
  | nil => rfl
  | cons o os ih =>
    simp only [resLoop]
    have := ih { arg := some [o], elements := s.elements.map fun _ => [o] } (gas (s.elements.map fun _ => [o]) g photons).2
    rw [this]
    congr 1
    · rw [hF, hF, hsel]
    · -- the state of the random number generator has no influence
      generalize zeroPos stats (List.filter (fun p => decide (0 < p.prob)) photons) det = zero
      have : ∀ (os : List ℤ) (s : GasState) (g g' : G),
          (resLoop stats gas (photons.filter fun p => 0 < p.prob) det zero os s g).1 =
          (resLoop stats gas (photons.filter fun p => 0 < p.prob) det zero os s g').1 := by
        intro os
        induction os with
        | nil => intros; rfl
        | cons o os ih =>
          intro s g g'
          simp only [resLoop, hF]
          rw [ih]
      apply this

/-- Average and largest difference from the average of the numbers in a list. -/
noncomputable def exStats (l : List (Option ℝ)) : Option (ℝ × ℝ) :=
  match l with
  | [some a] => some (a, 0)
  | [some a, some b] => some ((a + b) / 2, |a - b| / 2)
  | _ => none

/-- The probability and the position of a photon. -/
def exDetect (l : List (GasPhoton ℝ)) : List (ℝ × Option ℝ) := l.map fun p => (p.prob, some p.rest)

/-- Gratings that move photons by one unit for each order. -/
noncomputable def exShift (sel : List (List ℤ)) (g : Unit) (l : List (GasPhoton ℝ)) : List (GasPhoton ℝ) × Unit :=
  (l.map fun p => ⟨some ((sel.headD []).headD 0), p.prob, p.rest + (((sel.headD []).headD 0 : ℤ) : ℝ)⟩, g)

/-- **C113** (disagreement) With a detector given by the user, lost photons count for the position of order zero: two lists that differ
only by a photon of zero probability give different resolving powers. -/
theorem C113_lost_false : ∃ (photons : List (GasPhoton ℝ)) (s : GasState), PhotonByPhoton exShift ∧ DetByPhoton exDetect ∧
    (resolvingPowerPerOrder exStats exShift photons [1] (.user exDetect) s ()).1 ≠
      (resolvingPowerPerOrder exStats exShift (photons.filter fun p => 0 < p.prob) [1] (.user exDetect) s ()).1 := by
  refine ⟨[⟨none, 1, 0⟩, ⟨none, 1, 1⟩, ⟨none, 0, 100⟩], ⟨none, [[]]⟩, ⟨fun sel p => ⟨some ((sel.headD []).headD 0), p.prob,
    p.rest + (((sel.headD []).headD 0 : ℤ) : ℝ)⟩, fun _ _ _ => rfl, fun _ _ h => h⟩, ⟨fun p => (p.prob, some p.rest), fun _ => rfl, fun _ h => h⟩, ?_⟩
  simp [resolvingPowerPerOrder, resLoop, zeroPos, exDetect, exShift, exStats, resFwhm, DetChoice.detect]
  norm_num

/-- The statistics of the example move and scale as they should; on a Rowland circle, order 1 in the example has resolving
power 1 / 1.1774 and two photons are used. -/
example : StatsScale exStats ∧
    (resolvingPowerPerOrder exStats exShift [⟨none, 1, 0⟩, ⟨none, 1, 1⟩, ⟨none, 0, 100⟩] [1] (.rowland exDetect) ⟨none, [[]]⟩ ()).1 =
      [(some (1 / 1.1774), some 1.1774)] := by
  constructor
  · intro a b l ha
    unfold exStats
    rcases l with _ | ⟨_ | x, _ | ⟨_ | y, _ | ⟨z, l⟩⟩⟩ <;> simp
    constructor
    · ring
    · rw [← mul_sub, abs_mul]; ring
  · simp [resolvingPowerPerOrder, resLoop, zeroPos, exDetect, exShift, exStats, resFwhm, DetChoice.detect]
    norm_num [abs_div]

end Marxs
