import Verif.Model.Ogip

/-!
# Redistribution matrices in wavelengths

Models `RMF.en_mid` and `RMF.rmf_angstrom` (`marxs/reduction/ogip.py`).
-/

namespace Marxs
open Classical

/-- `RMF.en_mid`, `marxs/reduction/ogip.py:325-327`. -/
noncomputable def RMF.enMid (r : RMF) : List ℝ := List.zipWith (fun a b => 1 / 2 * (a + b)) r.eMin r.eMax

/-- `x.to(u.Angstrom, equivalencies=u.spectral())` for an energy in keV, `marxs/reduction/ogip.py:378`; `none` is the
infinite wavelength of energy 0. `hc` is the constant in keV Angstrom. -/
noncomputable def keVToAngstrom (hc e : ℝ) : Option ℝ := if e = 0 then none else some (hc / e)

/-- `RMF.rmf_angstrom`, `marxs/reduction/ogip.py:376-378`. -/
noncomputable def RMF.rmfAngstrom (hc : ℝ) (r : RMF) (energy : ℝ) :
    Except Err (List (Option ℝ) × List (Option ℝ) × List ℝ) :=
  match r.rmf energy with
  | .error e => .error e
  | .ok (enLo, enHi, rmf) => .ok (enHi.map (keVToAngstrom hc), enLo.map (keVToAngstrom hc), rmf)

end Marxs
