import Mathlib.Probability.CDF
import Mathlib.Probability.Distributions.Gaussian.Real
import Verif.Model.Analysis
import Verif.Model.Ogip

/-!
# Order sorting with the energy resolution of a CCD

Models `marxs/reduction/osip.py` and the functions of `marxs/optics/detector.py:CCDRedistNormal` that it
uses.

Simplifications: floats are reals; all energies are numbers in one unit (the conversion from wavelength
`E = hc / λ` done by `astropy.units` is not repeated here); functions act on one channel at a time
(numpy broadcasting over channels); files are values, reading a file back gives what was written.
-/

namespace Marxs

open Classical

/-! ## CCD resolution -/

/-- `scipy.stats.norm().cdf`. Used for `marxs/optics/detector.py:185-188`. -/
noncomputable def normCdf (x : ℝ) : ℝ :=
  ProbabilityTheory.cdf (ProbabilityTheory.gaussianReal 0 1) x

/-- `scipy.stats.norm.ppf`, the quantile function. Used for `marxs/optics/detector.py:190-193`. -/
noncomputable def normPpf (p : ℝ) : ℝ := sInf {x | p ≤ normCdf x}

/-- `scipy.stats.norm.interval(alpha)`. Used for `marxs/optics/detector.py:190-193`. -/
noncomputable def normInterval (alpha : ℝ) : ℝ × ℝ :=
  (normPpf ((1 - alpha) / 2), normPpf ((1 + alpha) / 2))

/-- Conversion of a column `FWHM` to `sigma`, `marxs/optics/detector.py:157,163-164`. -/
noncomputable def sigmaOfFwhm (fwhm : ℝ) : ℝ := fwhm / (2 * Real.sqrt (2 * Real.log 2))

/-- `CCDRedistNormal.sig_ccd(energy)`, `marxs/optics/detector.py:167-183`: interpolation in the table
of energies and sigmas (an empty table is a `ValueError`). -/
noncomputable def sigCcd (tab : List (ℝ × ℝ)) (energy : ℝ) : Except Err ℝ :=
  match interp energy tab with
  | some s => .ok s
  | none => .error .valueError

/-- `CCDRedistNormal.cdf(x, loc)`, `marxs/optics/detector.py:185-188`. -/
noncomputable def ccdCdf (tab : List (ℝ × ℝ)) (x loc : ℝ) : Except Err ℝ :=
  match sigCcd tab loc with
  | .ok scale => .ok (normCdf ((x - loc) / scale))
  | .error e => .error e

/-- `CCDRedistNormal.interval(alpha, loc)`, `marxs/optics/detector.py:190-193`. -/
noncomputable def ccdInterval (tab : List (ℝ × ℝ)) (alpha loc : ℝ) : Except Err (ℝ × ℝ) :=
  match sigCcd tab loc with
  | .ok scale =>
    .ok ((normInterval alpha).1 * scale + loc, (normInterval alpha).2 * scale + loc)
  | .error e => .error e

/-! ## Order-sorting windows -/

/-- The order-sorting classes, `marxs/reduction/osip.py:397-528`. -/
inductive Osip where
  | fixedWidth (halfwidth : ℝ)
  | fixedFraction (fraction : ℝ)
  | fractionalDistance (fraction : ℝ)

/-- `OSIPBase.osip_range` computed from a result of `osip_tab`, `marxs/reduction/osip.py:110-113`:
`E + osiptab * [-1, 1]`. -/
def rangeFromTab (E : ℝ) (tab : ℝ × ℝ) : ℝ × ℝ := (E + tab.1 * (-1), E + tab.2 * 1)

/-- `OSIPBase.osip_tab` computed from a result of `osip_range`, `marxs/reduction/osip.py:81-84`:
`E + osiprange * [-1, 1]`. -/
def tabFromRange (E : ℝ) (range : ℝ × ℝ) : ℝ × ℝ := (E + range.1 * (-1), E + range.2 * 1)

/-- `osip_tab` of `FixedWidthOSIP`, `marxs/reduction/osip.py:434-437`. -/
def fixedWidthTab (halfwidth : ℝ) : ℝ × ℝ := (halfwidth, halfwidth)

/-- `osip_tab` of `FractionalDistanceOSIP`, `marxs/reduction/osip.py:523-528` (`order` is not 0). -/
noncomputable def fractionalTab (fraction E : ℝ) (order : ℤ) : ℝ × ℝ :=
  let dE := E / |(order : ℝ)|
  (fraction / 2 * dE, fraction / 2 * dE)

/-- Method `osip_range` of the three classes, `marxs/reduction/osip.py:87-113,434-437,479-481,523-528`. -/
noncomputable def osipRange (tab : List (ℝ × ℝ)) (o : Osip) (E : ℝ) (order : ℤ) :
    Except Err (ℝ × ℝ) :=
  match o with
  | .fixedWidth h => .ok (rangeFromTab E (fixedWidthTab h))
  | .fractionalDistance f => .ok (rangeFromTab E (fractionalTab f E order))
  | .fixedFraction a => ccdInterval tab a E

/-- Method `osip_tab` of the three classes, `marxs/reduction/osip.py:62-84,434-437,523-528`. -/
noncomputable def osipTab (tab : List (ℝ × ℝ)) (o : Osip) (E : ℝ) (order : ℤ) :
    Except Err (ℝ × ℝ) :=
  match o with
  | .fixedWidth h => .ok (fixedWidthTab h)
  | .fractionalDistance f => .ok (fractionalTab f E order)
  | .fixedFraction a =>
    match ccdInterval tab a E with
    | .ok r => .ok (tabFromRange E r)
    | .error e => .error e

/-- Window integral of `OSIPBase.osip_factor`, `marxs/reduction/osip.py:143-147`. -/
noncomputable def windowFraction (tab : List (ℝ × ℝ)) (range : ℝ × ℝ) (Etrue : ℝ) : Except Err ℝ :=
  match ccdCdf tab range.2 Etrue with
  | .error e => .error e
  | .ok upper =>
    match ccdCdf tab range.1 Etrue with
    | .error e => .error e
    | .ok lower => .ok (upper - lower)

/-- `OSIPBase.osip_factor(chan_mid_nominal, o_nominal, o_true)` for one channel,
`marxs/reduction/osip.py:116-147`. -/
noncomputable def osipFactor (tab : List (ℝ × ℝ)) (o : Osip) (E : ℝ) (oNominal oTrue : ℤ) :
    Except Err ℝ :=
  if oNominal.sign ≠ oTrue.sign then .ok 0
  else if oNominal = 0 then .error .zeroDivision
  else
    match osipRange tab o E oNominal with
    | .error e => .error e
    | .ok range => windowFraction tab range (E * ((oTrue : ℝ) / (oNominal : ℝ)))

/-! ## Effective area files -/

/-- One name of a `ColOrKeyTable` (`marxs/reduction/ogip.py:59-80`): there can be a column and a header
keyword with that name.  `none` as a number is a float that is not finite. -/
structure CkCell where
  col : Option (List (Option ℝ))
  key : Option (Option ℝ)

/-- `arf[name]`, `marxs/reduction/ogip.py:62-68`, as an array with `n` entries (numpy broadcasting of a
keyword): the keyword wins; `none` is a `KeyError`. -/
def CkCell.get (n : ℕ) (c : CkCell) : Option (List (Option ℝ)) :=
  match c.key with
  | some v => some (List.replicate n v)
  | none => c.col

/-- `arf[name] = array`, `marxs/reduction/ogip.py:70-80`: an array with all entries equal to the first
(NaN is not equal to itself) is stored as a keyword and the column is removed; otherwise the column
is set, and a keyword of that name remains.  `value[0]` of an empty array is an `IndexError`. -/
noncomputable def CkCell.set (c : CkCell) : List (Option ℝ) → Except Err CkCell
  | [] => .error .indexError
  | none :: l => .ok { c with col := some (none :: l) }
  | some x :: l =>
    if ∀ y ∈ l, y = some x then .ok { col := none, key := some (some x) }
    else .ok { c with col := some (some x :: l) }

/-- The part of an ARF file that `apply_osip` uses: energy bins, `SPECRESP` and `OSIPFAC`,
`ORDER`, `CCDORDER`.  `SPECRESP` has a unit, so that a keyword `SPECRESP` would be a `Quantity`, which is
not written to the header of a FITS file (`astropy` issues a warning and skips it); thus a file has the
column or nothing.  `OSIPFAC` has no unit; column and keyword are both written. Used for `marxs/reduction/ogip.py:90-93`. -/
structure Arf where
  energLo : List ℝ
  energHi : List ℝ
  specresp : Option (List (Option ℝ))
  osipfac : CkCell
  order : ℤ
  ccdOrder : Option ℤ

/-- Division of floats; division by zero gives no finite number. Used for `marxs/reduction/osip.py:178-183`. -/
noncomputable def fdiv : Option ℝ → Option ℝ → Option ℝ
  | some x, some y => if y = 0 then none else some (x / y)
  | _, _ => none

/-- Multiplication of floats. Used for `marxs/reduction/osip.py:189-207`. -/
noncomputable def fmul : Option ℝ → Option ℝ → Option ℝ
  | some x, some y => some (x * y)
  | _, _ => none

/-- `ARF.read`, `marxs/reduction/ogip.py:90-93,120-124`: a file without the column `SPECRESP` is not
accepted. -/
def arfRead (a : Arf) : Except Err (List (Option ℝ)) :=
  match a.specresp with
  | some l => .ok l
  | none => .error .formatError

/-- Undo a previously applied OSIP, `marxs/reduction/osip.py:178-183`:
`arf['SPECRESP'] = arf['SPECRESP'] / arf['OSIPFAC']` unless there is a `KeyError`. -/
noncomputable def revertOsip (a : Arf) (spec : List (Option ℝ)) : Except Err CkCell :=
  match a.osipfac.get spec.length with
  | none => .ok { col := some spec, key := none }
  | some f => CkCell.set { col := some spec, key := none } (List.zipWith fdiv spec f)

/-- `energies / m * order` for the mid-points of all bins, `marxs/reduction/osip.py:187-188`.  (`m = 0`
gives infinite energies in the code; they are not used, because the factor is 0 or, for `order = 0`,
a `ZeroDivisionError`.) -/
noncomputable def nominalEnergies (a : Arf) (order : ℤ) : List ℝ :=
  List.zipWith (fun l h => 1 / 2 * (l + h) / (a.order : ℝ) * (order : ℝ)) a.energLo a.energHi

/-- Write new factors, `marxs/reduction/osip.py:189-207`: `arf['SPECRESP'] = osip_fac * arf['SPECRESP']`,
`arf['OSIPFAC'] = osip_fac`, and the file that is written afterwards. -/
noncomputable def writeOsip (a : Arf) (cell : CkCell) (order : ℤ) (facs : List (Option ℝ)) :
    Except Err Arf :=
  match cell.get facs.length with
  | none => .error .keyError
  | some spec =>
    match cell.set (List.zipWith fmul facs spec) with
    | .error e => .error e
    | .ok newSpec =>
      match a.osipfac.set facs with
      | .error e => .error e
      | .ok newFac =>
        .ok { a with specresp := newSpec.col, osipfac := newFac, ccdOrder := some order }

/-- `OSIPBase.apply_osip(inputarf, outpath, order)`, `marxs/reduction/osip.py:149-207`: the file that is
written. -/
noncomputable def applyOsip (tab : List (ℝ × ℝ)) (o : Osip) (a : Arf) (order : ℤ) :
    Except Err Arf :=
  match arfRead a with
  | .error e => .error e
  | .ok spec =>
    match revertOsip a spec with
    | .error e => .error e
    | .ok cell =>
      match (nominalEnergies a order).mapM (fun E => osipFactor tab o E order a.order) with
      | .error e => .error e
      | .ok fac => writeOsip a cell order (fac.map some)

/-- The pairs (nominal order, true order) that `apply_osip_all` works on, in order,
`marxs/reduction/osip.py:369-378`. -/
def osipJobs (orders offsets : List ℤ) : List (ℤ × ℤ) :=
  orders.flatMap fun order =>
    (offsets.filter fun t => decide (order + t ≠ 0 ∧ order.sign = (order + t).sign)).map
      fun t => (order, order + t)

end Marxs
