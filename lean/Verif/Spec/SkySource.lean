import Verif.Model.SkySource
import Verif.Spec.Chandra

/-! Vocabulary for the properties of photon lists from sky sources. -/

namespace Marxs

/-- The number in column `c` of photon `i`. -/
def numAt (t : Table) (c : String) (i : ℕ) : Option ℝ :=
  match t.rows[i]? with
  | some r => (match r c with
    | .num x => x
    | _ => none)
  | none => none

/-- The four numbers in column `c` of photon `i`. -/
def vecAt (t : Table) (c : String) (i : ℕ) : Option H4 :=
  match t.rows[i]? with
  | some r => (match r c with
    | .vec [some x, some y, some z, some w] => some ⟨x, y, z, w⟩
    | _ => none)
  | none => none

/-- The columns `ra` and `dec` of photon `i` are (in degrees) the coordinates of the unit vector `v`. -/
def SkyAt (t : Table) (i : ℕ) (v : V3) : Prop :=
  "ra" ∈ t.names ∧ "dec" ∈ t.names ∧ ∃ ra dec, numAt t "ra" i = some ra ∧ numAt t "dec" i = some dec ∧
    0 ≤ ra ∧ ra < 360 ∧ -90 ≤ dec ∧ dec ≤ 90 ∧
    skyPos (ra * Real.pi / 180) (dec * Real.pi / 180) = v

/-- Two tables agree in the columns `cs`: same number of photons, same content. -/
def SameIn (cs : List String) (t t' : Table) : Prop :=
  t'.rows.length = t.rows.length ∧ ∀ c ∈ cs, (c ∈ t.names → c ∈ t'.names) ∧
    ∀ i : ℕ, (t'.rows[i]?).map (fun r => r c) = (t.rows[i]?).map (fun r => r c)

/-- A photon list as it comes from a sky source: the columns exist, positions are numbers with a declination between
-90 and 90 degrees, and there is no direction yet. -/
def FromSky (t : Table) : Prop :=
  "dir" ∉ t.names ∧ "ra" ∈ t.names ∧ "dec" ∈ t.names ∧ "time" ∈ t.names ∧ "polangle" ∈ t.names ∧
    ∀ i < t.rows.length, ∃ ra dec a, numAt t "ra" i = some ra ∧ numAt t "dec" i = some dec ∧
      numAt t "polangle" i = some a ∧ -90 ≤ dec ∧ dec ≤ 90

/-- Position on the sky relative to the position `(lon, lat)`: `east` and `north` are offset angles as in a
longitude-latitude system centered there. -/
noncomputable def offsetFrom (lon lat east north : ℝ) : V3 :=
  (Real.cos north * Real.cos east) • skyPos lon lat + (Real.cos north * Real.sin east) • skyEast lon +
    Real.sin north • skyNorth lon lat

end Marxs
