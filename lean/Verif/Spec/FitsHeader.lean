import Verif.Model.FitsHeader

/-!
# Specification of headers and of the order of columns
-/

namespace Marxs

/-- Keywords with redundant timing information; only these may be overwritten. -/
def redundantTime : List String := ["TSTART", "TSTOP", "OBS-MJD"]

/-- Keywords for configuration and time that every file has to have. -/
def requiredKeys : List String :=
  ["ORIGIN", "HDUDOC", "CONTENT", "HDUNAME", "DATE", "DATE-OBS", "DATE-END", "TIMESYS", "MJDREF", "TIMEZERO", "TIMEUNIT", "BTIMNULL",
   "BTIMRATE", "BTIMDRFT", "BTIMCORR", "TIMEREF", "TASSIGN", "CLOCKAPP", "TIERRELA", "TIERABSO", "TIMVERSN", "TIMEPIXR", "TIMEDEL",
   "TSTART", "TSTOP", "OBS-MJD"]

/-- Keywords about the observation, `marxs/missions/chandra/fitsheaders.py:67-76`. -/
def observationKeys : List String :=
  ["MISSION", "TELESCOP", "GRATING", "DATACLASS", "ONTIME", "DTCOR", "LIVETIME", "OBSERVER", "FOC_LEN"]

/-- `a` comes directly before `b`. -/
def DirectlyBefore (l : List String) (a b : String) : Prop := ∃ pre post, l = pre ++ a :: b :: post

/-- The content keyword of an event list, in upper or lower case letters. -/
def IsEventContent (s : String) : Prop := ['E', 'V', 'T'] <+: s.toList.map Char.toUpper

/-- The column `c` is part of a pair of columns with names that end on x and y. -/
def InXYPair (cols : List String) (c : String) : Prop :=
  ∃ s : String, (c = s ++ "x" ∨ c = s ++ "y") ∧ s ++ "x" ∈ cols ∧ s ++ "y" ∈ cols

end Marxs
