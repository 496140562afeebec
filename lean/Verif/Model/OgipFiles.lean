import Mathlib.Data.Int.Basic
import Verif.Model.Table

/-!
# Names of ARF and RMF files

Models `filename_from_meta` in `marxs/reduction/ogip.py` and in `marxs/missions/arcus/arfrmf.py`, and the
name of the file written by `OSIPBase.apply_osip`.

Simplifications: a header value is an integer or a string (no `bool`, no float); directories are not part
of the names.
-/

namespace Marxs

/-- `f'{n}'` for an integer (`marxs/reduction/osip.py:196-197`, `marxs/missions/arcus/arfrmf.py:141`). -/
def intRepr (n : ℤ) : String := if n < 0 then "-" ++ n.natAbs.repr else n.natAbs.repr

/-- `f'{n:+}'` for an integer, `marxs/reduction/ogip.py:31`. -/
def plusRepr (n : ℤ) : String := if n < 0 then "-" ++ n.natAbs.repr else "+" ++ n.natAbs.repr

/-- A header value that is used for a file name: integer or string, `marxs/reduction/ogip.py:24-31`. -/
inductive KwVal where
  | int (n : ℤ)
  | str (s : String)

/-- `ORDER`, `CCDORDER` and `TRUEORD` as string, `marxs/reduction/ogip.py:27-31`: integers get a sign,
strings are used as they are. -/
def KwVal.signed : KwVal → String
  | .int n => plusRepr n
  | .str s => s

/-- `ogip.filename_from_meta(filetype, **kw)`, `marxs/reduction/ogip.py:16-39`. -/
def ogipFilename (filetype : String) (kw : String → Option KwVal) : Except Err String :=
  match kw "CCDORDER" with
  | some c =>
    match kw "TRUEORD" with
    | some t => .ok ("_ccdord_" ++ c.signed ++ "_true_" ++ t.signed ++ "." ++ filetype)
    | none => .error .keyError
  | none =>
    match kw "ORDER" with
    | some o => .ok ("_" ++ o.signed ++ "." ++ filetype)
    | none => .error .keyError

/-- Channel part of the name, `marxs/missions/arcus/arfrmf.py:29-32`: `'1111'` is replaced by `'all'`. -/
def chanName : KwVal → String
  | .int n => intRepr n
  | .str s => if s = "1111" then "all" else s

/-- `arfrmf.filename_from_meta(filetype, **kw)`, `marxs/missions/arcus/arfrmf.py:18-33`.  (`ARCCHAN` is
taken out of the keywords; the remaining ones do not contain it, but `ogip.filename_from_meta` would not
look at it anyway.) -/
def arcusFilename (filetype : String) (kw : String → Option KwVal) : Except Err String :=
  match kw "ARCCHAN" with
  | none => .error .keyError
  | some c =>
    match ogipFilename filetype kw with
    | .error e => .error e
    | .ok s => .ok ("chan_" ++ chanName c ++ s)

/-- The header that `apply_osip` writes, as far as file names are concerned,
`marxs/reduction/osip.py:194-197`: `TRUEORD` and `CCDORDER` are set to strings without a plus sign. -/
def osipHeader (kw : String → Option KwVal) (m order : ℤ) : String → Option KwVal := fun k =>
  if k = "TRUEORD" then some (.str (intRepr m))
  else if k = "CCDORDER" then some (.str (intRepr order))
  else kw k

/-- The name of the file written by `apply_osip`, `marxs/reduction/osip.py:205-206`; `fname` is the
function `self.filename_from_meta`. -/
def osipOutName (fname : String → (String → Option KwVal) → Except Err String)
    (outroot : String) (kw : String → Option KwVal) (m order : ℤ) : Except Err String :=
  match fname "arf" (osipHeader kw m order) with
  | .error e => .error e
  | .ok s => .ok (outroot ++ s)

/-- The name of the input file in `apply_osip_all`, `marxs/reduction/osip.py:378-381`, for the keywords
`filename_from_meta_kwargs` (`ORDER` among them would be a `TypeError`; not modelled). -/
def osipInName (fname : String → (String → Option KwVal) → Except Err String)
    (inroot : String) (kw : String → Option KwVal) (t : ℤ) : Except Err String :=
  match fname "arf" (fun k => if k = "ORDER" then some (.int t) else kw k) with
  | .error e => .error e
  | .ok s => .ok (inroot ++ s)

end Marxs
