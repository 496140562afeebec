import Verif.Model.Defaults

/-!
# Specification for C186: defaults and keywords of the user
-/

namespace Marxs

/-- The keywords `out` are those in `kw`, completed by `defaults`: what is in `kw` is kept, what is not there comes from `defaults`, and nothing else is added. -/
def CompletedBy (defaults kw out : Kwargs) : Prop :=
  ∀ k, out.get? k = match kw.get? k with
    | some v => some v
    | none => defaults.get? k

end Marxs
