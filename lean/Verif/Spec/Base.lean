import Verif.Model.Base

/-!
# Specification vocabulary for headers
-/

namespace Marxs

/-- Two headers agree on a keyword: both have the same value, or (if that is allowed) none has it. -/
def AgreeOn {V : Type} (m1 m2 : Header V) (allowMissing : Bool) (k : String) : Prop :=
  (∃ v, m1 k = some v ∧ m2 k = some v) ∨ (allowMissing = true ∧ m1 k = none ∧ m2 k = none)

/-- The keywords of a dictionary are different from each other. -/
def IsDict {V : Type} (d : List (String × V)) : Prop := (d.map Prod.fst).Nodup

/-- The keywords that are reserved for the version of marxs. -/
def versionKeys : List String := ["MARXSVER", "MARXSGIT", "MARXSTIM"]

end Marxs
