import Verif.Model.Apertures
import Verif.Spec.Geometry
import Verif.Spec.Pipeline

/-! Vocabulary for the properties of apertures as elements that process photon lists. -/

namespace Marxs

/-- The point lies in the opening: a rectangle spanned by the half-axes, or (part of) a ring. -/
def Aperture.Contains (a : Aperture) (q : V3) : Prop :=
  match a.shape with
  | .rect => InRectangle a.m q
  | .circle rInner phi0 phi1 => ∃ d phi, rInner ≤ d ∧ d ≤ (vY a.m).xyz.norm ∧ phi0 ≤ phi ∧ phi ≤ phi1 ∧
      q = (center a.m).xyz + (d * Real.cos phi) • (vY a.m).xyz.unit + (d * Real.sin phi) • (vZ a.m).xyz.unit

/-- A sensible aperture: perpendicular axes that are not zero; for a ring the radii are in order, the axes have equal
length and the angles are in order. -/
def Aperture.Valid (a : Aperture) : Prop :=
  Affine a.m ∧ OrthoAxes a.m ∧ match a.shape with
  | .rect => True
  | .circle rInner phi0 phi1 => (vY a.m).xyz.norm = (vZ a.m).xyz.norm ∧ 0 ≤ rInner ∧
      rInner < (vY a.m).xyz.norm ∧ phi0 ≤ phi1

/-- The names chosen for id and local coordinates are not the names of columns with a fixed meaning. -/
def Aperture.GoodNames (a : Aperture) : Prop :=
  (∀ c, a.idCol = some c → c ∉ ["pos", "dir", "probability"]) ∧
  ∀ x y, a.locCoos = some (x, y) → x ∉ ["pos", "dir", "probability"] ∧ y ∉ ["pos", "dir", "probability"] ∧
    a.idCol ≠ some x ∧ a.idCol ≠ some y

/-- A photon list with directions (unit vectors) and probabilities. -/
def HasDirs (t : Table) : Prop :=
  "dir" ∈ t.names ∧ "probability" ∈ t.names ∧ ∀ r ∈ t.rows, ∃ (d : H4) (p : ℝ),
    r "dir" = vecVal (some d) ∧ d.w = 0 ∧ d.xyz.dot d.xyz = 1 ∧ r "probability" = .num (some p)

/-- What entering through aperture `a` does to a photon, looking at the columns `names`: it starts in the opening, its
probability is multiplied with the projection of the opening onto its direction (zero from behind), its id is
the number of the aperture. -/
def Aperture.Entered (a : Aperture) (names : List String) (r r' : Row) : Prop :=
  (∃ q : H4, r' "pos" = vecVal (some q) ∧ q.w = 1 ∧ a.Contains q.xyz) ∧
  (∀ (d : H4) (p : ℝ), r "dir" = vecVal (some d) → r "probability" = .num (some p) →
    r' "probability" = .num (some (p * max (-(d.xyz.dot (vX a.m).xyz.unit)) 0))) ∧
  (∀ c, a.idCol = some c → r' c = .int a.idNum) ∧
  ∀ c ∈ names, c ∉ ["pos", "probability"] → a.idCol ≠ some c →
    (∀ x y, a.locCoos = some (x, y) → c ≠ x ∧ c ≠ y) → r' c = r c

/-- Names of id and local coordinate columns that do not collide with the columns `cs`. -/
def FreeNames (cs : List String) (idCol : Option String) (loc : Option (String × String)) : Prop :=
  (∀ c ∈ cs, idCol ≠ some c) ∧ ∀ x y, loc = some (x, y) → x ∉ cs ∧ y ∉ cs

end Marxs
