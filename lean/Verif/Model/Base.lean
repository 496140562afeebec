import Mathlib.Data.Real.Basic
import Mathlib.Logic.Function.Basic
import Verif.Model.Table

/-!
# Header information

Models the parts of `marxs/base/base.py` that write and compare the header (`meta`) of photon lists.
A header is a map from keyword to value; values are compared with `==`.
-/

namespace Marxs

open Classical

/-- A `meta` dictionary. Used for `marxs/base/base.py:135-138`. -/
abbrev Header (V : Type) := String → Option V

/-- `for k, v in d.items(): meta[k] = v`, `marxs/base/base.py:135-138`. -/
noncomputable def Header.update {V : Type} (m : Header V) : List (String × V) → Header V
  | [] => m
  | (k, v) :: l => Header.update (Function.update m k (some v)) l

/-- `kwargs[k] = v` for a dictionary given as list of items: replaces the value in place, or appends. Used for `marxs/base/base.py:118-131`. -/
noncomputable def dictSet {V : Type} (d : List (String × V)) (k : String) (v : V) : List (String × V) :=
  if k ∈ d.map Prod.fst then d.map (fun p => if p.1 = k then (k, v) else p) else d ++ [(k, v)]

/-- The groups of the regular expression that parses the version of marxs, `marxs/base/base.py:93-97`. -/
structure VersionInfo (V : Type) where
  version : V
  gittag : Option V
  dirtydate : Option V

/-- `TagVersion.__init__(ORIGIN, CREATOR, **kwargs)`, `marxs/base/base.py:118-131`: `name` is removed from the
keyword arguments, the version is added. `ORIGIN` and `CREATOR` are named arguments, so they are not in
`kwargs` (and not used). The result is `self.tags`. -/
noncomputable def tagVersionInit {V : Type} (ver : VersionInfo V) (_origin _creator : V)
    (kwargs : List (String × V)) : List (String × V) :=
  let kwargs := kwargs.filter (fun p => decide (p.1 ≠ "name"))
  let kwargs := dictSet kwargs "MARXSVER" ver.version
  let kwargs := match ver.gittag with
    | some g => dictSet kwargs "MARXSGIT" g
    | none => kwargs
  match ver.dirtydate with
    | some g => dictSet kwargs "MARXSTIM" g
    | none => kwargs

/-- `TagVersion.__call__(photons, **kwargs)`, `marxs/base/base.py:133-139`, the new header; `date` is the
value from the clock. -/
noncomputable def tagVersionCall {V : Type} (tags : List (String × V)) (date : V) (m : Header V)
    (kwargs : List (String × V)) : Header V :=
  Header.update (Header.update (Function.update m "DATE" (some date)) tags) kwargs

/-- `check_meta_consistent(meta1, meta2, keywords, allow_missing)`, `marxs/base/base.py:142-182`. -/
noncomputable def checkMetaConsistent {V : Type} (m1 m2 : Header V) (allowMissing : Bool) :
    List String → Except Err Unit
  | [] => .ok ()
  | k :: ks =>
    match m1 k, m2 k with
    | some v, some w =>
      if v = w then checkMetaConsistent m1 m2 allowMissing ks else .error .assertionError
    | some _, none => .error .keyError
    | none, some _ => .error .keyError
    | none, none =>
      if allowMissing = false then .error .keyError
      else checkMetaConsistent m1 m2 allowMissing ks

/-- Default value of argument `keywords`, `marxs/base/base.py:142-144`. -/
def metaKeywords : List String := ["ORIGIN", "CREATOR", "MARXSVER", "MARXSGIT", "MARXSTIM"]

/-- `check_energy_consistent(photons)`, `marxs/base/base.py:185-191`; `none` if there is no column `energy`.
`np.allclose(a, b)` is `|a - b| <= 1e-8 + 1e-5 * |b|` for all entries (NaN not modelled); `[0]` of an empty
column is an `IndexError`. -/
noncomputable def checkEnergyConsistent : Option (List ℝ) → Except Err Unit
  | none => .ok ()
  | some [] => .error .indexError
  | some (e0 :: l) =>
    if ∀ e ∈ e0 :: l, |e - e0| ≤ 1 / 10 ^ 8 + 1 / 10 ^ 5 * |e0| then .ok ()
    else .error .assertionError

end Marxs
