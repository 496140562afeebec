import Mathlib.Analysis.SpecialFunctions.Log.Basic
import Mathlib.Analysis.SpecialFunctions.Sqrt
import Verif.Model.Ogip

/-!
# Line spread functions

Models `marxs/reduction/lsfparm.py` (`sherpa_from_spline`, `caldb2sherpa`, `flatten_sherpa_model`,
`sherpa2caldb`) and `RMF.from_Gauss_sigma` in `marxs/reduction/ogip.py`.

Simplifications: floats are reals, units are dropped; a Sherpa model component is its list of parameters;
its integral over a bin is an argument (`cdf`, see `evalLsf`); the interpolation of `scipy` is an argument; the
division of the amplitudes by a sum of zero is no number (`none`).  The exception class `Exception` of
`sherpa2caldb` is `Err.valueError` here.
-/

namespace Marxs

open Classical

/-- `NormGauss1D` or `Lorentz1D`, `marxs/reduction/lsfparm.py:30-31`. -/
inductive LsfKind where
  | gauss
  | lorentz
deriving DecidableEq

/-- A component of a Sherpa model: name, kind and the parameters `ampl`, `fwhm`, `pos`. Used for `marxs/reduction/lsfparm.py:85-87`. -/
structure LsfComp where
  name : String
  kind : LsfKind
  ampl : ℝ
  fwhm : ℝ
  pos : ℝ

/-- The factor between the width in the file and the full width at half maximum in Sherpa (`gconv[1]`,
`lconv[1]`; the other two entries are 1), `marxs/reduction/lsfparm.py:33-36`. -/
noncomputable def widthConv : LsfKind → ℝ
  | .gauss => 2 * Real.sqrt (2 * Real.log 2)
  | .lorentz => 1

/-- One column of a row in an LSFPARM file, as numbers for one wavelength (`caldb2sherpa`,
`marxs/reduction/lsfparm.py:65-80`) or after evaluation of the interpolating functions
(`sherpa_from_spline`, `marxs/reduction/lsfparm.py:288-306`).  Columns with other names are ignored. -/
inductive LsfCol where
  | eeFracs (v : ℝ)
  | parms (name : String) (kind : LsfKind) (ampl width pos : ℝ)

/-- A model: `EE_FRACS` (a constant) times the sum of the components, `marxs/reduction/lsfparm.py:85-87`. -/
structure LsfModel where
  eef : ℝ
  comps : List LsfComp

/-- The constant: the last column `EE_FRACS`, `marxs/reduction/lsfparm.py:66-71,289-294`. -/
def lsfEef : List LsfCol → Option ℝ
  | [] => none
  | c :: l =>
    match lsfEef l with
    | some v => some v
    | none =>
      match c with
      | .eeFracs v => some v
      | .parms .. => none

/-- The components before normalisation, `f` is applied to each parameter (`np.abs` in
`sherpa_from_spline`, `marxs/reduction/lsfparm.py:302-304`; nothing in `caldb2sherpa`,
`marxs/reduction/lsfparm.py:72-79`). -/
noncomputable def lsfComps (f : ℝ → ℝ) : List LsfCol → List LsfComp
  | [] => []
  | .eeFracs _ :: l => lsfComps f l
  | .parms n k a w p :: l => ⟨n, k, f (a * 1), f (w * widthConv k), f (p * 1)⟩ :: lsfComps f l

/-- Common end of `caldb2sherpa` and `sherpa_from_spline`, `marxs/reduction/lsfparm.py:81-87,308-317`: the
amplitudes are divided by their sum.  Without components `model[0]` is an `IndexError`, without `EE_FRACS`
there is no variable `eef` (an `UnboundLocalError`). -/
noncomputable def lsfFinish (eef : Option ℝ) (comps : List LsfComp) : Except Err (Option LsfModel) :=
  if comps = [] then .error .indexError
  else
    match eef with
    | none => .error .nameError
    | some e =>
      let s := (comps.map LsfComp.ampl).sum
      if s = 0 then .ok none
      else .ok (some ⟨e, comps.map fun c => { c with ampl := c.ampl / s }⟩)

/-- `caldb2sherpa(caldb, row, iwidth, iwave)`, `marxs/reduction/lsfparm.py:43-87`. -/
noncomputable def caldb2sherpa (cols : List LsfCol) : Except Err (Option LsfModel) :=
  lsfFinish (lsfEef cols) (lsfComps id cols)

/-- `sherpa_from_spline(splines, width, wave)`, `marxs/reduction/lsfparm.py:276-317`, with the
interpolating functions evaluated. -/
noncomputable def sherpaFromSpline (cols : List LsfCol) : Except Err (Option LsfModel) :=
  lsfFinish (lsfEef cols) (lsfComps (fun x => |x|) cols)

/-- The parts of a Sherpa model, `flatten_sherpa_model`, `marxs/reduction/lsfparm.py:90-97`: `inl` is the
component `EE_FRACS` of type `Scale1D`. -/
def LsfModel.flatten (m : LsfModel) : List (ℝ ⊕ LsfComp) := .inl m.eef :: m.comps.map .inr

/-- `sherpa2caldb(shmodel)` for a flattened model, `marxs/reduction/lsfparm.py:100-120`: name and
parameters of each component. -/
noncomputable def sherpa2caldb : List (ℝ ⊕ LsfComp) → Except Err (List (String × ℝ × ℝ × ℝ))
  | [] => .ok []
  | .inl _ :: _ => .error .valueError
  | .inr c :: l =>
    match sherpa2caldb l with
    | .error e => .error e
    | .ok d => .ok ((c.name, c.ampl / 1, c.fwhm / widthConv c.kind, c.pos / 1) :: d)

/-- The model integrated over a bin, `marxs/reduction/lsfparm.py:351`: `cdf kind fwhm pos x` is the integral of
the normalised component up to `x`. -/
noncomputable def evalLsf (cdf : LsfKind → ℝ → ℝ → ℝ → ℝ) (m : LsfModel) (lo hi : ℝ) : ℝ :=
  m.eef * (m.comps.map fun c => c.ampl * (cdf c.kind c.fwhm c.pos hi - cdf c.kind c.fwhm c.pos lo)).sum

/-- The table with the widths of the Gaussian, `marxs/reduction/ogip.py:480-485`: rows with wavelength and
sigma, or only energies. -/
inductive SigmaTab where
  | wave (rows : List (ℝ × ℝ))
  | energyOnly (rows : List (ℝ × ℝ))
  | neither

/-- `sigmatab.sort('wave')`, `marxs/reduction/ogip.py:500`. -/
noncomputable def sortWave (rows : List (ℝ × ℝ)) : List (ℝ × ℝ) :=
  rows.mergeSort fun a b => decide (a.1 ≤ b.1)

/-- The columns of the row of `lsfparm` made in `from_Gauss_sigma`, `marxs/reduction/ogip.py:502-513`,
interpolated at the wavelength `w` by `CALDB_interp`, `marxs/reduction/lsfparm.py:237-273`. -/
noncomputable def gaussCols (interp : List (ℝ × ℝ) → ℝ → ℝ) (rows : List (ℝ × ℝ)) (w : ℝ) :
    List LsfCol :=
  [.eeFracs (interp (rows.map fun r => (r.1, 1)) w),
   .parms "GAUSS1_PARMS" .gauss (interp (rows.map fun r => (r.1, 1)) w) (interp rows w)
     (interp (rows.map fun r => (r.1, r.1)) w)]

/-- `RMF.from_Gauss_sigma(bin_edges, sigmatab, threshold)`, `marxs/reduction/ogip.py:469-522`.  With
energies only, the misspelled keyword `equivalenicies` is a `TypeError`; without both, sorting is a `KeyError`.
`interp1d` of kind `cubic` needs at least 4 different wavelengths and does not extrapolate (`ValueError`).
`conv` converts the edges to Angstrom. -/
noncomputable def fromGaussSigma (hc : ℝ) (cdf : LsfKind → ℝ → ℝ → ℝ → ℝ)
    (interp : List (ℝ × ℝ) → ℝ → ℝ) (conv : ℝ → ℝ) (edges : List ℝ) (threshold : ℝ) :
    SigmaTab → Except Err RMF
  | .energyOnly _ => .error .typeError
  | .neither => .error .keyError
  | .wave rows =>
    let s := sortWave rows
    let eb := eboundsFromEdges (fun w => hc / w) (edges.map conv)
    let mids := List.zipWith (fun lo hi => 1 / 2 * (hc / hi + hc / lo)) eb.2.1 eb.2.2
    if s.length < 4 ∨ ¬ (s.map Prod.fst).Nodup then .error .valueError
    else if ∃ w ∈ mids, w < (s.map Prod.fst).headD 0 ∨ (s.map Prod.fst).getLastD 0 < w then
      .error .valueError
    else
      makeRmf hc threshold (fun w lo hi =>
        match sherpaFromSpline (gaussCols interp s w) with
        | .ok (some m) => evalLsf cdf m lo hi
        | _ => 0) (edges.map conv)

end Marxs
