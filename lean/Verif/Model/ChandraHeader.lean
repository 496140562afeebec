import Verif.Model.Table

/-!
# Header of tables with LSF parameters for Chandra
-/

namespace Marxs

/-- The dictionary `meta` of a table with strings as values, see `marxs/reduction/lsfparm.py:203-226`. Numbers are represented by the string that `format` makes of them. -/
abbrev StrMeta := String → Option String

/-- `tab.meta[key] = value`. Used for `marxs/reduction/lsfparm.py:204-221`. -/
def StrMeta.set (t : StrMeta) (key value : String) : StrMeta := fun k => if k = key then some value else t k

/-- `x.split('-')[0]`, `marxs/reduction/lsfparm.py:207`. -/
def beforeDash (x : String) : String := String.ofList (x.toList.takeWhile (· ≠ '-'))

/-- The dictionary of shells, `marxs/reduction/lsfparm.py:215`. -/
def shellOf (extname : String) : Option String :=
  if extname = "MEG" then some "1100" else if extname = "HEG" then some "0011" else if extname = "LEG" then some "1111" else none

/-- `lsfparmtable_add_Chandra_header`, `marxs/reduction/lsfparm.py:203-226`: header of the table when the function ends, and the exception if there is one. The table is changed in
place, so that the caller sees the changes made before an exception. -/
def addChandraHeader (tab evt : StrMeta) : StrMeta × Option Err :=
  match tab "EXTNAME" with
  | none => (tab, some .keyError)
  | some ext =>
    let t := tab.set "CDES0001" (ext ++ " line spread function, input for mkgrmf")
    match evt "DetectorType" with
    | none => (t, some .keyError)
    | some det =>
      let t := (((((t.set "DETNAM" det).set "INSTRUME" (beforeDash det)).set "CVSD0001" "1999-07-22T00:00:00").set "CVST0001" "00:00:00").set "TELESCOP" "CHANDRA").set "FILTER" "NONE"
      match evt "GratingType" with
      | none => (t, some .keyError)
      | some g =>
        let grattype := if g = "HETG" then ext else ""
        let t := (t.set "GRATING" g).set "GRATTYPE" grattype
        match shellOf ext with
        | none => (t, some .keyError)
        | some shell =>
          let t := t.set "SHELL" shell
          match tab "ORDER" with
          | none => (t, some .keyError)
          | some order =>
            let t := t.set "CBD10001" ("ORDER(" ++ order ++ ")")
            match tab "RAND_TG" with
            | none => (t, some .keyError)
            | some rand =>
              let t := (((t.set "CBD20001" ("RAND_TG(" ++ rand ++ ")")).set "CBD30001" ("SHELL(" ++ shell ++ ")")).set "CBO10001" ("GRATING(" ++ g ++ ")")).set "CBO20001" ("GRATTYPE(" ++ grattype ++ ")")
              match tab "TG_M" with
              | none => (t, some .keyError)
              | some m => (t.set "CBO30001" ("TG_M(" ++ m ++ ")"), none)

end Marxs
