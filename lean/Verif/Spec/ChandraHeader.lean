import Verif.Model.ChandraHeader

/-!
# Specification for C190: header of tables with LSF parameters for Chandra
-/

namespace Marxs

/-- Names of the keywords in the header that belong to Chandra. -/
def chandraKeys : List String :=
  ["CDES0001", "DETNAM", "INSTRUME", "CVSD0001", "CVST0001", "TELESCOP", "FILTER", "GRATING", "GRATTYPE", "SHELL", "CBD10001", "CBD20001", "CBD30001", "CBO10001", "CBO20001", "CBO30001"]

/-- Everything that is needed for the header is there: table for one of the three gratings with order, range and so on, events with detector and grating. -/
def HeaderReady (tab evt : StrMeta) : Prop :=
  (tab "EXTNAME" = some "MEG" ∨ tab "EXTNAME" = some "HEG" ∨ tab "EXTNAME" = some "LEG") ∧ (tab "ORDER").isSome ∧ (tab "RAND_TG").isSome ∧ (tab "TG_M").isSome ∧
    (evt "DetectorType").isSome ∧ (evt "GratingType").isSome

end Marxs
