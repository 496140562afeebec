import Verif.Model.DetChain
import Verif.Spec.Pipeline
import Verif.Spec.Geometry

/-!
# Vocabulary for detectors behind each other
-/

namespace Marxs
open Classical

/-- Columns in which an element at the end of the telescope writes its results. -/
def Recorder.columns : Recorder → List String
  | .det e => [e.loc.1, e.loc.2, e.pix.1, e.pix.2] ++ e.idCol.toList
  | .project pl => [pl.names.1, pl.names.2]
  | .propagate _ => []

/-- All these columns. -/
def ownColumns (l : List Recorder) : List String := l.flatMap Recorder.columns

/-- The geometry is acceptable: a rectangle with perpendicular sides or a cylinder of finite size. -/
def DetSurface.Good : DetSurface → Prop
  | .plane m => Affine m ∧ OrthoAxes m
  | .cyl m _ _ => Affine m ∧ m.det ≠ 0

/-- Names of columns are no names that are in use for the photon itself, and one detector uses different names for its two coordinates. -/
def Recorder.Good : Recorder → Prop
  | .det e => e.surf.Good ∧ e.loc.1 ≠ e.loc.2 ∧ e.pix.1 ≠ e.pix.2 ∧ e.idCol ≠ some e.loc.1 ∧ e.idCol ≠ some e.loc.2 ∧
      ∀ c ∈ (Recorder.det e).columns, c ≠ "pos" ∧ c ≠ "dir" ∧ c ≠ "probability"
  | .project pl => Affine pl.pos4d ∧ pl.names.1 ≠ pl.names.2 ∧ ∀ c ∈ (Recorder.project pl).columns, c ≠ "pos" ∧ c ≠ "dir"
  | .propagate _ => True

/-- The place of a photon with direction `d`, now at `p`, after it has been recorded: on the last detector it hit, or as far along its
way as a `Propagator` put it. -/
noncomputable def stopAfter : List Recorder → H4 → H4 → H4
  | [], _, p => p
  | .det e :: l, d, p => stopAfter l d (match e.surf.hit d p with
      | some (q, _, _) => q
      | none => p)
  | .project _ :: l, d, p => stopAfter l d p
  | .propagate s :: l, d, p => stopAfter l d (p + s • d)

/-- How far a photon at `q` with direction `d` has to go to reach the plane of a flat detector (negative: it is past it). -/
noncomputable def pathTo (m : M4) (d q : H4) : ℝ := ((center m).xyz - q.xyz).dot (vX m).xyz / d.xyz.dot (vX m).xyz

/-- No element takes a photon on the ray from `p` with direction `d` further than the distance `D` behind the plane: no detector that is on the ray stands
further behind, and photons are moved backwards only. -/
def NotFarBehind (m : M4) (d p : H4) (D : ℝ) : Recorder → Prop
  | .det e => ∀ (k : ℝ) q x y, e.surf.hit d (p + k • d) = some (q, x, y) → -D ≤ pathTo m d q
  | .project _ => True
  | .propagate s => s ≤ 0

/-- A row of the table holds a photon at `p` that flies in direction `d`. -/
def Row.Flies (r : Row) (d p : H4) : Prop := r "dir" = vecCell (some d) ∧ r "pos" = vecCell (some p)

/-- Every photon of the table has a position and a direction. -/
def AllFly (t : Table) : Prop := ∀ r ∈ t.rows, ∃ d p : H4, r.Flies d p ∧ IsDir d

end Marxs
