import Verif.Model.OgipHeader

/-!
# Complete OGIP headers
-/

namespace Marxs

/-- The keywords that identify the telescope are there. -/
def Identified (h : Hdr) : Prop := ∀ k ∈ ["TELESCOP", "INSTRUME", "FILTER"], (h k).isSome

/-- The keywords that tell which kind of extension this is. -/
def Classified (h : Hdr) (extname vers clas1 clas2 : String) : Prop :=
  h "EXTNAME" = some (.str extname) ∧ h "HDUCLASS" = some (.str "OGIP") ∧
  h "HDUVERS" = some (.str vers) ∧ h "HDUCLAS1" = some (.str clas1) ∧ h "HDUCLAS2" = some (.str clas2)

/-- Keywords that classify an extension. -/
def classKeys : List String := ["EXTNAME", "HDUCLASS", "HDUVERS", "HDUCLAS1", "HDUCLAS2"]

/-- A table in an RMF file as the OGIP standard wants it: it has the required columns, is identified, has
the type and the number of channels, and the smallest channel number is given for column number `k`
(counted from 1), which is the column `chan`. -/
def CompleteRmfTable (t : OTab) (req : List String) (chan : String) : Prop :=
  (∀ c ∈ req, c ∈ t.cols) ∧ Identified t.hdr ∧ (t.hdr "CHANTYPE").isSome ∧ (t.hdr "DETCHANS").isSome ∧
  ∃ k, t.cols[k]? = some chan ∧ (t.hdr ("TLMIN" ++ (k + 1).repr)).isSome

end Marxs
