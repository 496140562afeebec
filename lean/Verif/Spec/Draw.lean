import Verif.Model.Draw
import Verif.Spec.Geometry
import Verif.Spec.Rowland

/-!
# Specification for drawing of surfaces

Written without reference to how the grid of points is made.
-/

namespace Marxs

/-- In a scene in units of meters with `prec + 3` decimals, `q` is the place of the point `p` (in mm): no coordinate is off by more than half a unit of the last digit. -/
def ShownAt (prec : ℤ) (p q : V3) : Prop :=
  |q.x - p.x / 1000| ≤ 1 / 2 / 10 ^ (prec + 3) ∧ |q.y - p.y / 1000| ≤ 1 / 2 / 10 ^ (prec + 3) ∧ |q.z - p.z / 1000| ≤ 1 / 2 / 10 ^ (prec + 3)

/-- `p` is in the convex hull of four points (the corners of one drawn face). -/
def InHull (a b c d p : V3) : Prop :=
  ∃ wa wb wc wd : ℝ, 0 ≤ wa ∧ 0 ≤ wb ∧ 0 ≤ wc ∧ 0 ≤ wd ∧ wa + wb + wc + wd = 1 ∧ p = wa • a + wb • b + wc • c + wd • d

/-- The same for homogeneous coordinates. -/
def InHull4 (a b c d p : H4) : Prop :=
  ∃ wa wb wc wd : ℝ, 0 ≤ wa ∧ 0 ≤ wb ∧ 0 ≤ wc ∧ 0 ≤ wd ∧ wa + wb + wc + wd = 1 ∧ p = wa • a + wb • b + wc • c + wd • d

/-- The scene the caller has in hand after a call: the one that was passed in (and changed), otherwise the one returned, if any. -/
def inHand (given : Option (List X3Shape)) (out : List X3Shape × Option (List X3Shape)) : Option (List X3Shape) :=
  match given with
  | some _ => some out.1
  | none => out.2

end Marxs
