import Verif.Model.Table

/-! Small vocabulary used in the statements of the photon pipeline properties. -/

namespace Marxs

/-- Number of hits before photon `i`: the place of photon `i` in arrays that hold one entry per
hit photon. -/
def rank (mask : List Bool) (i : ℕ) : ℕ := (mask.take i).count true

/-- Entry of a right-hand side for the `j`-th hit photon: scalars and one-element arrays are the
same for all photons. -/
def ColVal.at (v : ColVal) (j : ℕ) : Option Val :=
  match v with
  | .scalar v => some v
  | .arr [v] => some v
  | .arr vs => vs[j]?

/-- The probability cell is NaN or a number in `[0, b]`. -/
def Val.NanOrIn (b : ℝ) (v : Val) : Prop :=
  v = .num none ∨ ∃ p, v = .num (some p) ∧ 0 ≤ p ∧ p ≤ b

/-- Arrays returned by a geometry have one entry per photon. -/
def GeomOK (g : Table → List Bool × List Val × List (Val × Val)) : Prop :=
  ∀ t, (g t).1.length = t.rows.length ∧ (g t).2.1.length = t.rows.length ∧
    (g t).2.2.length = t.rows.length

/-- An element does not (mis)use the column `probability` as id or local coordinate column. -/
def Elem.NoProbLabel (e : Elem) : Prop :=
  e.idCol ≠ some "probability" ∧
    ∀ a b, e.locCoos = some (a, b) → a ≠ "probability" ∧ b ≠ "probability"

/-- Well-formed simulation step. -/
def Step.WF : Step → Prop
  | .elem e => e.NoProbLabel ∧ GeomOK e.geom
  | .stack s => s.base.NoProbLabel ∧ GeomOK s.geom ∧ ∀ e ∈ s.layers, e.NoProbLabel
  | .filter _ => True
  | .baffle g => ∀ t, (g t).1.length = t.rows.length ∧ (g t).2.length = t.rows.length
  | .zero _ => True

end Marxs
