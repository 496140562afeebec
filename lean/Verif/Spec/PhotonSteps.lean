import Verif.Model.PhotonSteps

/-!
# What it means that a step treats photons one by one

All is said about what geometries, elements and filters compute from their input; nothing is said about tables.
-/

namespace Marxs
open Classical

/-- The result depends on the columns in `B` only. -/
def ReadsOnly {α : Type} (B : List String) (f : Row → α) : Prop := ∀ r r', (∀ n ∈ B, r n = r' n) → f r = f r'

/-- The intersection of a photon with the surface is found from its own data. -/
def PerPhotonGeom (B : List String) (geom : Table → List Bool × List Val × List (Val × Val)) : Prop :=
  ∃ (hit : Row → Bool) (pos : Row → Val) (coos : Row → Val × Val), ReadsOnly B hit ∧ ReadsOnly B pos ∧ ReadsOnly B coos ∧
    ∀ t, geom t = (t.rows.map hit, t.rows.map pos, t.rows.map coos)

/-- One entry of the dictionary an element returns: the same value for all photons or a value for each, calculated from the photon, the point of intersection and the local coordinates. -/
inductive RowOut where
  | const (v : Val)
  | each (h : Row → Val → Val × Val → Val)

/-- The array with the values for the photons that hit. -/
def RowOut.col (rows : List Row) (mask : List Bool) (ip : List Val) (ic : List (Val × Val)) : RowOut → ColVal
  | .const v => .scalar v
  | .each h => .arr ((sel mask (rows.zip (ip.zip ic))).map fun x => h x.1 x.2.1 x.2.2)

/-- The element calculates what it returns photon by photon. The columns it reads are in `B` (random numbers are taken as columns, too: they belong to a photon). -/
def PerPhotonAction (B : List String) (a : Action) (keys : List (Option String)) : Prop :=
  ∃ (f : Table → List Bool → List Val → List (Val × Val) → Except Err (List (Option String × ColVal))) (outs : List (Option String × RowOut)),
    a = .vector f ∧ keys = outs.map (·.1) ∧ (∀ k h, (k, RowOut.each h) ∈ outs → ∀ p c, ReadsOnly B fun r => h r p c) ∧
    ∀ t mask ip ic, mask.length = t.rows.length → ip.length = t.rows.length → ic.length = t.rows.length →
      f t mask ip ic = .ok (outs.map fun o => (o.1, o.2.col t.rows mask ip ic))

/-- An element that treats photons one by one and fills the columns `keys`. Columns used for ids (`ids`) are used for nothing else, and `hitrod` belongs to rods. -/
def PerPhotonElem (B ids : List String) (e : Elem) (keys : List (Option String)) : Prop :=
  PerPhotonAction B e.action keys ∧ (∀ c, e.idCol = some c → c ∈ ids) ∧ (∀ n ∈ e.outputColumns, n ∉ ids ∧ n ≠ "hitrod") ∧ (∀ n, some n ∈ keys → n ∉ ids ∧ n ≠ "hitrod") ∧
    ∀ a b, e.locCoos = some (a, b) → (a ∉ ids ∧ a ≠ "hitrod") ∧ (b ∉ ids ∧ b ≠ "hitrod")

/-- Layers of a stack: each may also read what the layers before have filled in. -/
def PerPhotonLayers (ids : List String) : List String → List Elem → Prop
  | _, [] => True
  | B, e :: es => ∃ keys, PerPhotonElem B ids e keys ∧ PerPhotonLayers ids (B ++ keys.reduceOption) es

/-- The same for all steps. `spomounting` needs the column `xou`. -/
def PhotonStep.PerPhoton (B ids : List String) : PhotonStep → Prop
  | .step (.elem e) => (∃ keys, PerPhotonElem B ids e keys) ∧ PerPhotonGeom B e.geom
  | .step (.stack s) => PerPhotonGeom B s.geom ∧ PerPhotonLayers ids B (s.base :: s.layers)
  | .step (.filter f) => "energy" ∈ B ∧ ((∃ v, ∀ l, f l = .scalar v) ∨ ∃ h, ∀ l, f l = .arr (l.map h))
  | .step (.baffle g) => ∃ (hit : Row → Bool) (pos : Row → Val), ReadsOnly B hit ∧ ReadsOnly B pos ∧ ∀ t, g t = (t.rows.map hit, t.rows.map pos)
  | .step (.zero bad) => ReadsOnly B bad
  | .bars => "facet" ∈ ids
  | .mounting => "xou" ∈ B
  | .rod hit => ReadsOnly B hit

/-- Value of a column for a photon that was never seen by the element the column belongs to: -1 for ids, NaN for all others. -/
noncomputable def notSeen (ids : List String) (n : String) : Val := if n ∈ ids then .int (-1) else .num none

end Marxs
