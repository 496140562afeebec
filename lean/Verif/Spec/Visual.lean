import Verif.Model.Visual

/-!
# Specification for the display functions

Edges of triangles, what a triangulation draws, and the bytes of a color.
-/

namespace Marxs

/-- The three directed edges met when going around a triangle. -/
def Tri.edges (t : Tri) : List (ℕ × ℕ) := [(t.1, t.2.1), (t.2.1, t.2.2), (t.2.2, t.1)]

/-- All directed edges of a list of triangles. -/
def allEdges (l : List Tri) : List (ℕ × ℕ) := l.flatMap Tri.edges

/-- How many triangles of the list have the directed edge from point `a` to point `b`. -/
def edgeCount (l : List Tri) (a b : ℕ) : ℕ := (allEdges l).count (a, b)

/-- Twice the area of a triangle as seen from direction `n`; the sign gives the orientation. -/
def seenArea (n p q r : V3) : ℝ := n.dot ((q - p).cross (r - p))

/-- Corner `i` of a list of points. -/
def corner (xyz : List V3) (i : ℕ) : V3 := xyz.getD i 0

/-- Twice the area inside a closed polygon as seen from direction `n` (shoelace formula). -/
def polygonArea (n : V3) (p : List V3) : ℝ :=
  ((List.range p.length).map fun k =>
    n.dot ((corner p k).cross (corner p ((k + 1) % p.length)))).sum

/-- The triangles drawn for an array of points and an array of indices: the three corners of each,
`none` for an index that does not exist. -/
def drawn (xyz : List V3) (tris : List Tri) : List (Option V3 × Option V3 × Option V3) :=
  tris.map fun t => (xyz[t.1]?, xyz[t.2.1]?, xyz[t.2.2]?)

/-- All indices exist. -/
def ValidTris (xyz : List V3) (tris : List Tri) : Prop :=
  ∀ t ∈ tris, t.1 < xyz.length ∧ t.2.1 < xyz.length ∧ t.2.2 < xyz.length

/-- The point `x` is in the triangle with corners `p`, `q`, `r` (edges included). -/
def InTriangle (p q r x : V3) : Prop :=
  ∃ l m n : ℝ, 0 ≤ l ∧ 0 ≤ m ∧ 0 ≤ n ∧ l + m + n = 1 ∧ x = l • p + m • q + n • r

/-- The point `x` is covered by the surface that is drawn. -/
def Covered (xyz : List V3) (tris : List Tri) (x : V3) : Prop :=
  ∃ p q r, (some p, some q, some r) ∈ drawn xyz tris ∧ InTriangle p q r x

/-- Two hexadecimal digits for a number below 256. -/
def hexByte (b : ℕ) : List Char := [hexDigit (b / 16), hexDigit (b % 16)]

/-- The hexadecimal string for three bytes. -/
def hexRgb (r g b : ℕ) : List Char := ['0', 'x'] ++ hexByte r ++ hexByte g ++ hexByte b

mutual
/-- All elements inside an object that are not containers themselves, in order. -/
def VObj.leaves : VObj → List VObj
  | .elem id d => [.elem id d]
  | .cont _ _ es => visualLeavesList es
/-- The same for a list of objects. -/
def visualLeavesList : List VObj → List VObj
  | [] => []
  | e :: es => e.leaves ++ visualLeavesList es
end

mutual
/-- Every container inside an object has the default display setting, shape `container`. -/
def VObj.DefaultContainers : VObj → Prop
  | .elem _ _ => True
  | .cont _ d es => (∃ dd, d = some dd ∧ dd.getItem "shape" = .ok (.shape ["container"]) ∧
      dd.own.lookup "color" = none) ∧ DefaultContainersList es
/-- The same for a list of objects. -/
def DefaultContainersList : List VObj → Prop
  | [] => True
  | e :: es => e.DefaultContainers ∧ DefaultContainersList es
end

end Marxs
