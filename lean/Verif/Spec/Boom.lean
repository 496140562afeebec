import Verif.Model.MathUtils
import Verif.Model.Placement
import Verif.Model.Geometry
import Verif.Spec.Placement

/-!
# Specification for booms: frames made of rods
-/

namespace Marxs

/-- End of the axis of a rod, `s = -1` or `s = 1`: "X-axis of the rod is the cylinder axis (x-zoom gives half-length)". -/
def rodEnd (m : M4) (s : ℝ) : H4 := mul4 m ⟨s, 0, 0, 1⟩

/-- The axis of the rod goes from one point to the other. -/
def Joins (m : M4) (a b : H4) : Prop :=
  (rodEnd m (-1) = a ∧ rodEnd m 1 = b) ∨ (rodEnd m (-1) = b ∧ rodEnd m 1 = a)

/-- The rod goes from one of the corners `a`, `b` of a side of a bay at its bottom `x0` to one of them at its top `x1`. -/
def FaceDiagonal (m : M4) (a b : ℝ → H4) (x0 x1 : ℝ) : Prop :=
  ∃ p q, Joins m p q ∧ (p = a x0 ∨ p = b x0) ∧ (q = a x1 ∨ q = b x1)

/-- Distance from the axis to the surface. -/
def RodRadius (m : M4) (rad : ℝ) : Prop :=
  ∀ a : ℝ, (mul4 m ⟨0, Real.cos a, Real.sin a, 0⟩).norm = rad

/-- Corner number `i` of a regular polygon around the x axis with `n` corners at distance `R` from this axis; the
first one is at angle `a0` (counted from the y axis). -/
noncomputable def polyCorner (R a0 : ℝ) (n i : ℕ) (x : ℝ) : H4 :=
  ⟨x, R * Real.cos (a0 + 2 * Real.pi * i / n), R * Real.sin (a0 + 2 * Real.pi * i / n), 1⟩

/-- Corner `i` of the triangle with sides of length `b`. -/
noncomputable def corner3 (b : ℝ) (i : ℕ) (x : ℝ) : H4 := polyCorner (b / Real.sqrt 3) 0 3 i x

/-- Corner `i` of the square with sides of length `b`. -/
noncomputable def corner4 (b : ℝ) (i : ℕ) (x : ℝ) : H4 := polyCorner (b / Real.sqrt 2) (Real.pi / 4) 4 i x

/-- Position of a point along axis `k` of a rod with centre `t` and axes given by the columns of `r`. -/
def alongAxis (t : Fin 3 → ℝ) (r : M3) (k : Fin 3) (q : H4) : ℝ :=
  r 0 k * (q.x - t 0) + r 1 k * (q.y - t 1) + r 2 k * (q.z - t 2)

/-- A round rod: centre, directions of its axes, length and diameter. Its axis is its first axis. -/
structure RodPlace where
  centre : Fin 3 → ℝ
  axes : M3
  length : ℝ
  diameter : ℝ

/-- Length and diameter are positive, the axes are orthonormal and right-handed. -/
def RodPlace.Ok (p : RodPlace) : Prop := 0 < p.length ∧ 0 < p.diameter ∧ IsRotation p.axes

/-- The matrix for the rod: "x-zoom gives half-length; y zoom and z zoom have to be the same". -/
noncomputable def RodPlace.pos4d (p : RodPlace) : M4 := compose p.centre p.axes ![p.length / 2, p.diameter / 2, p.diameter / 2]

/-- The rod after a rotation by `r` around the origin and a shift by `t`. -/
def RodPlace.moved (t : Fin 3 → ℝ) (r : M3) (p : RodPlace) : RodPlace where
  centre i := t i + (r i 0 * p.centre 0 + r i 1 * p.centre 1 + r i 2 * p.centre 2)
  axes := r * p.axes
  length := p.length
  diameter := p.diameter

/-- The point is inside of the rod. -/
def RodPlace.Inside (p : RodPlace) (q : H4) : Prop :=
  |alongAxis p.centre p.axes 0 q| ≤ p.length / 2 ∧
    alongAxis p.centre p.axes 1 q ^ 2 + alongAxis p.centre p.axes 2 q ^ 2 ≤ (p.diameter / 2) ^ 2

/-- The point is on the elliptical tube that is used instead: open at both ends of the *third* axis of the rod. -/
def RodPlace.OnTube (p : RodPlace) (q : H4) : Prop :=
  (alongAxis p.centre p.axes 0 q / (p.length / 2)) ^ 2 + (alongAxis p.centre p.axes 1 q / (p.diameter / 2)) ^ 2 = 1 ∧
    |alongAxis p.centre p.axes 2 q| ≤ p.diameter / 2

/-- The ray that starts at `pos` reaches the tube. -/
def RodPlace.TubeHit (p : RodPlace) (pos dir : H4) : Prop :=
  ¬ (p.axes 0 0 * dir.x + p.axes 1 0 * dir.y + p.axes 2 0 * dir.z = 0 ∧
      p.axes 0 1 * dir.x + p.axes 1 1 * dir.y + p.axes 2 1 * dir.z = 0) ∧
    ∃ k : ℝ, 0 ≤ k ∧ p.OnTube (pos + k • dir)

/-- The last value given for a name in a list of names and values. -/
def lastDim (dims : List (String × DimVal)) (key : String) : Option DimVal :=
  ((dims.filter fun e => e.1 == key).getLast?).map Prod.snd

end Marxs
