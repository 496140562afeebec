import Verif.Spec.Draw

/-!
# Specification for drawing of boxes
-/

namespace Marxs

/-- The point is on one of the six sides of the box between the corners `lo` and `hi`. -/
def OnBoxSurface (lo hi p : V3) : Prop :=
  ((lo.x ≤ p.x ∧ p.x ≤ hi.x) ∧ (lo.y ≤ p.y ∧ p.y ≤ hi.y) ∧ (lo.z ≤ p.z ∧ p.z ≤ hi.z)) ∧
    (p.x = lo.x ∨ p.x = hi.x ∨ p.y = lo.y ∨ p.y = hi.y ∨ p.z = lo.z ∨ p.z = hi.z)

/-- The part of an element (in units of its half-widths) that is asked for with the display setting `box-half`: `+x` leaves out the half with positive x. -/
def boxPart : Option (List Char) → V3 × V3
  | some ('+' :: 'x' :: _) => (⟨-1, -1, -1⟩, ⟨0, 1, 1⟩)
  | some ('+' :: 'y' :: _) => (⟨-1, -1, -1⟩, ⟨1, 0, 1⟩)
  | some ('+' :: 'z' :: _) => (⟨-1, -1, -1⟩, ⟨1, 1, 0⟩)
  | some ('-' :: 'x' :: _) => (⟨0, -1, -1⟩, ⟨1, 1, 1⟩)
  | some ('-' :: 'y' :: _) => (⟨-1, 0, -1⟩, ⟨1, 1, 1⟩)
  | some ('-' :: 'z' :: _) => (⟨-1, -1, 0⟩, ⟨1, 1, 1⟩)
  | _ => (⟨-1, -1, -1⟩, ⟨1, 1, 1⟩)

/-- In an X3D list of indices (each face is closed by `-1`) with four corners per face, `a b c d` is a face. -/
def IsQuad (ind : List ℤ) (a b c d : ℕ) : Prop :=
  ∃ k, ind[5 * k]? = some (a : ℤ) ∧ ind[5 * k + 1]? = some (b : ℤ) ∧ ind[5 * k + 2]? = some (c : ℤ) ∧ ind[5 * k + 3]? = some (d : ℤ) ∧
    ind[5 * k + 4]? = some (-1)

end Marxs
