import Verif.Model.ListChain
import Verif.Spec.Physical

/-!
# Specification for C163: a photon list and its photons
-/

namespace Marxs

/-- Columns with a meaning of their own. -/
def rayColumns : List String := ["pos", "dir", "polarization", "probability", "energy", "order", "blaze"]

/-- The columns that every photon list has. -/
def needColumns : List String := ["pos", "dir", "polarization", "probability", "energy"]

/-- A row of a photon list is about this photon. There are columns for order and blaze angle only after a grating. -/
structure RowIs (names : List String) (r : Row) (p : Ray) : Prop where
  pos : r "pos" = vecCell p.pos
  dir : r "dir" = vecCell p.dir
  pol : r "polarization" = vecCell p.pol
  prob : r "probability" = .num p.prob
  energy : r "energy" = .num (some p.energy)
  order : "order" ∈ names → r "order" = .num (p.order.map fun n : ℤ => (n : ℝ))
  noOrder : "order" ∉ names → p.order = none
  blaze : "blaze" ∈ names → r "blaze" = .num p.blaze
  noBlaze : "blaze" ∉ names → p.blaze = none

/-- The photons in a photon list. -/
def PhotonsOf (t : Table) (ps : List Ray) : Prop :=
  needColumns ⊆ t.names ∧ List.Forall₂ (RowIs t.names) t.rows ps

/-- Columns for local coordinates, ids and more have names of their own, and are all different within one element. -/
def ElemCols.Fine (c : ElemCols) : Prop :=
  (∀ a b, c.loc = some (a, b) → a ∉ rayColumns ∧ b ∉ rayColumns ∧ a ≠ b ∧ c.idCol ≠ some a ∧ c.idCol ≠ some b) ∧
  (∀ n, c.idCol = some n → n ∉ rayColumns) ∧
  (∀ x ∈ c.extra, x.1 ∉ rayColumns) ∧ (c.extra.map Prod.fst).Nodup

/-- The local coordinates with which a photon hits an element. -/
noncomputable def hitCoos (o : Optic) (p : Ray) : Option (ℝ × ℝ) :=
  match o with
  | .plane m | .filter m _ | .lens m _ _ _ | .thin m _ | .grating m _ _ _ _ _ _ | .mirror m _ _ | .scatter m _ _ =>
    (p.hit m).map fun x => (x.2.2.1, x.2.2.2.1)
  | .tube m zoomz lim0 lim1 => match p.dir, p.pos with
    | some d, some q => match cylIntersect m zoomz lim0 lim1 d q with
      | .ok (some (_, y, z)) => some (y, z)
      | _ => none
    | _, _ => none
  | _ => none

/-- A moved element with its random numbers. -/
def Motion.actList (g : Motion) : ListOptic → ListOptic
  | .plane m => .plane (g.mat * m)
  | .tube m zoomz lim0 lim1 => .tube (g.mat * m) zoomz lim0 lim1
  | .filter m f => .filter (g.mat * m) f
  | .globalFilter f => .globalFilter f
  | .lens m focallength dOptax refl => .lens (g.mat * m) focallength dOptax refl
  | .thin m focallength => .thin (g.mat * m) focallength
  | .grating m transmission cat groove d blazeMod order => .grating (g.mat * m) transmission cat groove d blazeMod order
  | .mirror m rs rp => .mirror (g.mat * m) rs rp
  | .scatter m inAngle perpAngle => .scatter (g.mat * m) inAngle perpAngle
  | .propagate distance => .propagate distance

end Marxs
