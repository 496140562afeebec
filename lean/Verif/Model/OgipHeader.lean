import Verif.Model.OgipFiles

/-!
# Headers of OGIP files

Models the keyword checks of `marxs/reduction/ogip.py`, `ARF.write`, `PHAI.write`, `PHAI.read`,
`RMF.__init__`, `RMF.read` and `RMF.write`.

Simplifications: only names of columns, number of rows and header are modelled; the types and dimensions
that `_check_col_and_type` looks at are always right; a required column that exists only as a keyword is
not modelled (counted as missing); FITS input and output is the identity; a file that exists already is not
modelled.  Header changes made by a call of `RMF.write` that fails later are not modelled.
-/

namespace Marxs

/-- `tab.meta`. Used for `marxs/reduction/ogip.py:111-116`. -/
abbrev Hdr := String → Option KwVal

/-- `meta[k] = v`. Used for `marxs/reduction/ogip.py:111-116`. -/
def Hdr.put (h : Hdr) (k : String) (v : KwVal) : Hdr := fun k' => if k' = k then some v else h k'

/-- `meta.update({...})` (`marxs/reduction/ogip.py:111-116,162-169`), and several assignments one after the
other (`marxs/reduction/ogip.py:287-302`). -/
def Hdr.update (h : Hdr) (l : List (String × KwVal)) : Hdr := l.foldl (fun h p => h.put p.1 p.2) h

/-- A table: column names, number of rows, header. Used for `marxs/reduction/ogip.py:90-103`. -/
structure OTab where
  cols : List String
  n : ℕ
  hdr : Hdr

/-- `_check_mandatory_keywords`, `marxs/reduction/ogip.py:83-87`. -/
def checkKeywords (h : Hdr) (extra : List String) : Except Err Unit :=
  if ∀ k ∈ ["TELESCOP", "INSTRUME", "FILTER"] ++ extra, (h k).isSome = true then .ok ()
  else .error .formatError

/-- `_check_col_and_type`, `marxs/reduction/ogip.py:90-103`; only the names are modelled. -/
def checkCols (t : OTab) (req : List String) : Except Err Unit :=
  if ∀ c ∈ req, c ∈ t.cols then .ok () else .error .formatError

/-- `ARF.write`, `marxs/reduction/ogip.py:110-118`: the header afterwards, and the header in the file or
an error. -/
def arfWrite (h : Hdr) : Hdr × Except Err Hdr :=
  let h' := h.update [("EXTNAME", .str "SPECRESP"), ("HDUCLASS", .str "OGIP"), ("HDUVERS", .str "1.1.0"),
    ("HDUCLAS1", .str "RESPONSE"), ("HDUCLAS2", .str "SPECRESP")]
  (h', match checkKeywords h' [] with
    | .error e => .error e
    | .ok _ => .ok h')

/-- `PHAI.write`, `marxs/reduction/ogip.py:161-175`.  The call of `super().write` has the keyword
`format`, which `ARF.write` passes on together with its own `format='fits'`: a `TypeError`, after
`ARF.write` has changed the header and checked the keywords. -/
def phaiWrite (cols : List String) (h : Hdr) : Hdr × Except Err Hdr :=
  let h' := h.update [("EXTNAME", .str "SPECTRUM"), ("HDUCLASS", .str "OGIP"), ("HDUVERS", .str "1.2.1"),
    ("HDUCLAS1", .str "SPECTRUM"), ("HDUCLAS2", .str "SPECRESP"),
    ("HDUCLAS3", .str (if "COUNTS" ∈ cols then "COUNT" else "RATE")), ("HDUCLAS4", .str "TYPE:I")]
  match checkKeywords h' ["EXPOSURE", "POISSERR"] with
  | .error e => (h', .error e)
  | .ok _ =>
    if ∃ n ∈ ["BACKSCAL", "AREASCAL", "QUALITY", "GROUPING", "SYS_ERR"], n ∉ cols ∧ (h' n).isSome = false
    then (h', .error .formatError)
    else
      let r := arfWrite h'
      (r.1, match r.2 with
        | .error e => .error e
        | .ok _ => .error .typeError)

/-- `PHAI.read`, `marxs/reduction/ogip.py:177-181`: `super().read(*args, format='fits', **kwargs)` is
`ARF.read` with `format` among its keywords, which passes `format` twice; a `TypeError` for every file. -/
def phaiRead (_file : OTab) : Except Err OTab := .error .typeError

/-- `RMF.matrix_required_cols`, `marxs/reduction/ogip.py:214-219`. -/
def matrixCols : List String := ["ENERG_LO", "ENERG_HI", "N_GRP", "F_CHAN", "N_CHAN", "MATRIX"]

/-- `RMF.ebounds_required_cols`, `marxs/reduction/ogip.py:220-222`. -/
def eboundsCols : List String := ["CHANNEL", "E_MIN", "E_MAX"]

/-- An `RMF` object: its two tables, `marxs/reduction/ogip.py:224-226`. -/
structure RmfTabs where
  matrix : OTab
  ebounds : OTab

/-- Keywords set for each table in `RMF.__init__`, `marxs/reduction/ogip.py:227-232`. -/
def rmfKeywords (chantype hduclas3 : Option String) (t : OTab) : OTab :=
  let h := t.hdr.put "DETCHANS" (.int t.n)
  let h := match chantype with
    | some c => h.put "CHANTYPE" (.str c)
    | none => h
  let h := match hduclas3 with
    | some c => h.put "HDUCLAS3" (.str c)
    | none => h
  { t with hdr := h }

/-- `RMF.__init__`, `marxs/reduction/ogip.py:224-236`. -/
def rmfInit (matrix ebounds : OTab) (chantype hduclas3 : Option String) : Except Err RmfTabs :=
  let m := rmfKeywords chantype hduclas3 matrix
  let e := rmfKeywords chantype hduclas3 ebounds
  match checkCols m matrixCols with
  | .error x => .error x
  | .ok _ =>
    match checkCols e eboundsCols with
    | .error x => .error x
    | .ok _ =>
      match checkKeywords m.hdr ["CHANTYPE"] with
      | .error x => .error x
      | .ok _ =>
        match checkKeywords e.hdr ["CHANTYPE"] with
        | .error x => .error x
        | .ok _ => .ok ⟨m, e⟩

/-- `RMF.read`, `marxs/reduction/ogip.py:238-246`. -/
def rmfRead (file : RmfTabs) : Except Err RmfTabs :=
  match checkCols file.matrix matrixCols with
  | .error x => .error x
  | .ok _ =>
    match checkCols file.ebounds eboundsCols with
    | .error x => .error x
    | .ok _ =>
      match checkKeywords file.matrix.hdr ["CHANTYPE", "DETCHANS"] with
      | .error x => .error x
      | .ok _ =>
        match checkKeywords file.ebounds.hdr ["CHANTYPE", "DETCHANS"] with
        | .error x => .error x
        | .ok _ => rmfInit file.matrix file.ebounds none none

/-- `'TLMIN{}'.format(tab.colnames.index(name) + 1)`, `marxs/reduction/ogip.py:278-279`. -/
def tlminKey (t : OTab) (name : String) : String := "TLMIN" ++ (t.cols.idxOf name + 1).repr

/-- `RMF.write(rmffile, TLMIN=tlmin)`, `marxs/reduction/ogip.py:268-313`: the tables afterwards, which are
also the content of the file (the conversion to arrays of fixed length is modelled in `Model/Ogip`). -/
def rmfWrite (r : RmfTabs) (tlmin : Option ℤ) : Except Err RmfTabs :=
  match checkCols r.matrix matrixCols with
  | .error x => .error x
  | .ok _ =>
    match checkCols r.ebounds eboundsCols with
    | .error x => .error x
    | .ok _ =>
      let mk := tlminKey r.matrix "F_CHAN"
      let ek := tlminKey r.ebounds "CHANNEL"
      let mh := match tlmin with
        | some t => r.matrix.hdr.put mk (.int t)
        | none => r.matrix.hdr
      let eh := match tlmin with
        | some t => r.ebounds.hdr.put ek (.int t)
        | none => r.ebounds.hdr
      match checkKeywords mh ["CHANTYPE", "DETCHANS", mk] with
      | .error x => .error x
      | .ok _ =>
        match checkKeywords eh ["CHANTYPE", "DETCHANS", ek] with
        | .error x => .error x
        | .ok _ =>
          .ok { matrix := { r.matrix with
                  hdr := mh.update [("EXTNAME", .str "MATRIX"), ("HDUCLASS", .str "OGIP"),
                    ("HDUVERS", .str "1.1.0"), ("HDUCLAS1", .str "RESPONSE"),
                    ("HDUCLAS2", .str "RSP_MATRIX")] }
                ebounds := { r.ebounds with
                  hdr := eh.update [("EXTNAME", .str "EBOUNDS"), ("HDUCLASS", .str "OGIP"),
                    ("HDUCLAS1", .str "RESPONSE"), ("HDUCLAS2", .str "EBOUNDS"),
                    ("HDUVERS", .str "1.2.0")] } }

end Marxs
