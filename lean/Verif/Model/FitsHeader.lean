import Verif.Model.Table
import Mathlib.Data.Real.Basic

/-!
# Headers of Chandra files

Models `marxs/missions/chandra/fitsheaders.py`, `Chandra.write_evt` and the start of `LissajousDither.write_asol`.

Simplifications: a header is a list of keywords and values (a dictionary keeps the order in which keywords are
added); floats are reals; formats of dates are functions given from outside; unicode is not considered for `upper` and `lower`.
-/

namespace Marxs
open Classical

/-- Values in a header. In `marxs` most are tuples of value and comment. Used for `marxs/missions/chandra/fitsheaders.py:12-15`. -/
inductive HVal where
  | num (x : ℝ)
  | str (s : String)
  | bool (b : Bool)
  | pair (v : HVal) (comment : String)
  | none

/-- `header`, a dictionary. Used for `marxs/missions/chandra/fitsheaders.py:12-15`. -/
abbrev FHdr := List (String × HVal)

/-- `header[k] = v`: replaces the value of an existing keyword or appends. Used for `marxs/missions/chandra/fitsheaders.py:12-15`. -/
def FHdr.set (h : FHdr) (k : String) (v : HVal) : FHdr :=
  if k ∈ h.map Prod.fst then h.map fun e => if e.1 = k then (k, v) else e else h ++ [(k, v)]

/-- `header[k]`. Used for `marxs/missions/chandra/fitsheaders.py:29-62`. -/
def FHdr.item (h : FHdr) (k : String) : Except Err HVal :=
  match h.lookup k with
  | some v => .ok v
  | .none => .error .keyError

/-- `x[0]` for a value in the header. Used for `marxs/missions/chandra/fitsheaders.py:29-62`. -/
def HVal.first : HVal → Except Err HVal
  | .pair v _ => .ok v
  | .str s => match s.toList with
    | [] => .error .indexError
    | c :: _ => .ok (.str (String.ofList [c]))
  | _ => .error .typeError

/-- `update_header`, `marxs/missions/chandra/fitsheaders.py:12-15`. -/
def updateHeader (h : FHdr) : List (String × HVal) → FHdr
  | [] => h
  | (k, v) :: l => updateHeader (if k ∈ h.map Prod.fst then h else h.set k v) l

/-- The parameter `hduclass`: a list of strings or a string, which is a sequence of letters. Used for `marxs/missions/chandra/fitsheaders.py:17-27`. -/
inductive HduClass where
  | list (l : List String)
  | str (s : String)

/-- Iterating over `hduclass`. Used for `marxs/missions/chandra/fitsheaders.py:17-27`. -/
def HduClass.items : HduClass → List String
  | .list l => l
  | .str s => s.toList.map fun c => String.ofList [c]

/-- `complete_CC`, `marxs/missions/chandra/fitsheaders.py:17-27`. -/
def completeCC (h : FHdr) (content : String) (hduclass : HduClass) : Except Err FHdr :=
  match h.item "EXTNAME" with
  | .error e => .error e
  | .ok ext => .ok (updateHeader h ([("ORIGIN", .str "ASC"),
      ("HDUDOC", .str "ASC-FITS-2.0: Rots, McDowell: ASC FITS File Designers Guide"), ("CONTENT", .str content), ("HDUNAME", ext)] ++
      (["HDUCLASS", "HDUCLAS1", "HDUCLAS2", "HDUCLAS3"].zip hduclass.items).map fun e => (e.1, .str e.2)))

/-- `astropy.time` (external): the present time in seconds, format as string, reading of strings (`none`: not a time) and conversion
to the modified Julian date. Used for `marxs/missions/chandra/fitsheaders.py:34-54`. -/
structure Clock where
  now : ℝ
  fits : ℝ → String
  parse : String → Option ℝ
  mjd : ℝ → ℝ

/-- `s[:23]` and `s[23:]`, used in `marxs/missions/chandra/fitsheaders.py:35-37`. -/
def cut23 (s : String) : String × String := (String.ofList (s.toList.take 23), String.ofList (s.toList.drop 23))

/-- The keywords in `marxs/missions/chandra/fitsheaders.py:34-54`. -/
noncomputable def timeKeys (c : Clock) (exposure : ℝ) : List (String × HVal) :=
  let now := cut23 (c.fits c.now)
  [("DATE", .pair (.str now.1) ("Date and time of file creation " ++ now.2)),
   ("DATE-OBS", .pair (.str now.1) "TT with clock correction if CLOCKAPP"),
   ("DATE-END", .pair (.str (cut23 (c.fits (c.now + exposure))).1) "TT with clock correction if CLOCKAPP"),
   ("TIMESYS", .pair (.str "TT") "AXAF time will be Terrestrial Time"),
   ("MJDREF", .pair (.num 50814) "MJD of clock start"),
   ("TIMEZERO", .pair (.num 0) "Clock Correction"),
   ("TIMEUNIT", .str "s"),
   ("BTIMNULL", .pair (.num 0) "Basic Time offset (s)"),
   ("BTIMRATE", .pair (.num 2.5625000912249E-01) "Basic Time clock rate (s / VCDUcount)"),
   ("BTIMDRFT", .pair (.num 2.1806598193841E-17) "Basic Time clock drift (s / VCDUcount^2)"),
   ("BTIMCORR", .pair (.num 0) "Correction applied to Basic Time rate (s)"),
   ("TIMEREF", .pair (.str "LOCAL") "Time is local for data"),
   ("TASSIGN", .pair (.str "SATELLITE") "Source of time assignment"),
   ("CLOCKAPP", .pair (.bool true) "Clock correction applied"),
   ("TIERRELA", .pair (.num 1e-9) "Short term clock stability"),
   ("TIERABSO", .pair (.num 1e-4) "Absolute precision of clock correction"),
   ("TIMVERSN", .pair (.str "ASC-FITS-2.1") "AXAF Fits design document"),
   ("TIMEPIXR", .pair (.num 0) "Time stamp refers to start of bin"),
   ("TIMEDEL", .pair (.num 3.241) "Time resolution of data in seconds")]

/-- `header[k][0]` as a number, used as `header['EXPOSURE'][0] * u.s` in `marxs/missions/chandra/fitsheaders.py:33`. Strings are a
`TypeError`; other types are not modelled. -/
def FHdr.number (h : FHdr) (k : String) : Except Err ℝ :=
  match h.item k with
  | .error e => .error e
  | .ok v => match v.first with
    | .error e => .error e
    | .ok (.num x) => .ok x
    | .ok _ => .error .typeError

/-- `complete_T`, `marxs/missions/chandra/fitsheaders.py:29-62`; the header is changed in place, thus
the first part of the result is the header when an exception is raised. -/
noncomputable def completeT (c : Clock) (h : FHdr) : FHdr × Except Err Unit :=
  match h.number "EXPOSURE" with
  | .error e => (h, .error e)
  | .ok exposure =>
    let h := updateHeader h (timeKeys c exposure)
    match (h.item "DATE-OBS").bind HVal.first with
    | .error e => (h, .error e)
    | .ok (.str s) => match c.parse s with
      | .none => (h, .error .valueError)
      | some t => (((h.set "TSTART" (.pair (.num t) "As in the TIME column: raw space craft clock;")).set
          "TSTOP" (.pair (.num (t + exposure)) "  add TIMEZERO and MJDREF for absolute TT")).set "OBS-MJD" (.num (c.mjd t)), .ok ())
    | .ok _ => (h, .error .valueError)

/-- `complete_O`, `marxs/missions/chandra/fitsheaders.py:65-76`: the list of keywords is made, but the header is not changed. -/
def completeO (h : FHdr) : FHdr × Except Err Unit :=
  match (h.item "EXPOSURE").bind HVal.first with
  | .error e => (h, .error e)
  | .ok _ => (h, .ok ())

/-- The parameter `content`: a string or a list. Used for `marxs/missions/chandra/fitsheaders.py:122-156`. -/
inductive Content where
  | str (s : String)
  | list (l : List String)

/-- `add_evt_column_header`, `marxs/missions/chandra/fitsheaders.py:86-119`: a dictionary has no method `iterkeys` in Python 3, the first line
raises an `AttributeError`. -/
def addEvtColumnHeader (h : FHdr) : FHdr × Except Err Unit := (h, .error .attributeError)

/-- `complete_header`, `marxs/missions/chandra/fitsheaders.py:122-156`. -/
noncomputable def completeHeader (c : Clock) (h : FHdr) (content : Content := .list ["UNKNOWN"]) (hduclass : HduClass := .str "UNKNOWN") :
    FHdr × Except Err Unit :=
  match content with
  | .list _ => (h, .error .attributeError)
  | .str s =>
    let r := if ['E', 'V', 'T'].isPrefixOf (s.toList.map Char.toUpper) then addEvtColumnHeader h else (h, .ok ())
    match r with
    | (h, .error e) => (h, .error e)
    | (h, .ok _) => match completeCC h s hduclass with
      | .error e => (h, .error e)
      | .ok h => match completeT c h with
        | (h, .error e) => (h, .error e)
        | (h, .ok _) => completeO h

/-- `Chandra.write_evt`, `marxs/missions/chandra/chandra_global.py:18-39`: header, names of columns and the exception, if any (writing the
file is never reached).  -/
noncomputable def writeEvt (c : Clock) (h : FHdr) (cols : List String) : (FHdr × List String) × Except Err Unit :=
  let h := h.set "EXTNAME" (.str "EVENTS")
  if "ra" ∉ cols ∨ "marxs_ra" ∈ cols then ((h, cols), .error .keyError)
  else
    let cols := cols.map fun k => if k = "ra" then "marxs_ra" else k
    if "dec" ∉ cols ∨ "marxs_dec" ∈ cols then ((h, cols), .error .keyError)
    else
      let cols := cols.map fun k => if k = "dec" then "marxs_dec" else k
      let r := completeHeader c h (.str "EVT1") (.list ["OGIP", "EVENTS", "ALL"])
      ((r.1, cols), r.2)

/-! ## Order of columns -/

/-- `c[-1] == x`; an empty name is an `IndexError`, which is checked before. Used for `marxs/missions/chandra/fitsheaders.py:172-207`. -/
def endsOn (x : Char) (c : String) : Bool := c.toList.getLast? == some x

/-- `c[:-1]`. Used for `marxs/missions/chandra/fitsheaders.py:172-207`. -/
def stemOf (c : String) : String := String.ofList c.toList.dropLast

/-- `c.lower()`. Used for `marxs/missions/chandra/fitsheaders.py:186-190`. -/
def lowerOf (c : String) : String := String.ofList (c.toList.map Char.toLower)

/-- One pass of the loop over `expected_order`, `marxs/missions/chandra/fitsheaders.py:186-190`: the first name that
is `c` in lower case is moved to the end of the ordered names. -/
def moveFirst (st : List String × List String) (c : String) : List String × List String :=
  match st.1.find? fun e => lowerOf e = c with
  | some e => (st.1.erase e, st.2 ++ [e])
  | .none => st

/-- One pass of the loop over `pairs`, `marxs/missions/chandra/fitsheaders.py:198-202`. -/
def movePair (st : List String × List String) (p : String × String) : List String × List String :=
  if p.1 ∈ st.1 ∧ p.2 ∈ st.1 then (st.1.filter fun c => ¬ (c = p.1 ∨ c = p.2), st.2 ++ [p.1, p.2]) else st

/-- `ordered_cols` in `sort_columns`, `marxs/missions/chandra/fitsheaders.py:172-207`; `perm` is the order in which Python lists the elements of
a set. -/
def orderedCols (perm : List String → List String) (cols : List String) : Except Err (List String) :=
  if "" ∈ cols then .error .indexError
  else
    let endX := (cols.filter (endsOn 'x')).map stemOf
    let endY := (cols.filter (endsOn 'y')).map stemOf
    let endxy := perm (endX.filter fun c => c ∈ endY)
    let other := cols.filter fun c => c ∉ endxy.map (· ++ "x") ∧ c ∉ endxy.map (· ++ "y")
    let st := ["chip", "tdet", "det", ""].foldl moveFirst (endxy, [])
    let ordered := (st.2 ++ st.1).flatMap fun c => [c ++ "x", c ++ "y"]
    let st := [("ra", "dec"), ("RA", "DEC"), ("ra", "de"), ("RA", "DE")].foldl movePair (other, ordered)
    .ok (st.2 ++ st.1.mergeSort (fun a b => decide (a ≤ b)))

/-- `sort_columns`, `marxs/missions/chandra/fitsheaders.py:159-211`: the last line calls the table like a function (`TypeError`). -/
def sortColumns (perm : List String → List String) (cols : List String) : Except Err (List String) :=
  match orderedCols perm cols with
  | .error e => .error e
  | .ok _ => .error .typeError

end Marxs
