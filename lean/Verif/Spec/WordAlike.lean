import Verif.Spec.Alike
import Verif.Spec.Ooxml

/-! When do two Word documents tell the same table?  They may differ by what is between the elements, by the elements which tell nothing about tables
(bookmarks, `w:tblW`, `w:cantSplit`...) and by the attributes which tell nothing about them (`w:rsidR`...). -/

namespace Benker.DocSpec

/-- the elements which tell something about a table -/
def wordElements : List String :=
  ["tbl", "tblGrid", "gridCol", "tr", "tc", "tblPr", "tblStyle", "tblBorders", "shd", "top", "right", "end", "bottom", "left", "start", "insideH", "insideV",
   "tr2bl", "tl2br", "trPr", "tblHeader", "trHeight", "ins", "pgSz", "cols", "col"]

/-- the attributes which tell something about a table -/
def wordAttributes : List String :=
  ["val", "w", "h", "hRule", "id", "author", "date", "color", "shadow", "space", "sz", "fill", "orient", "num"]

/-- attributes which tell the same in a Word document -/
def SameWord (a a' : Dict QName String) : Prop := ∀ k ∈ wordAttributes, Dict.get? a (OoxmlSpec.name k) = Dict.get? a' (OoxmlSpec.name k)

/-- what matters in a Word table -/
def word : Rules where
  inert n := ∀ t a, Tok.opening t a ∈ toks n → t ∉ wordElements.map OoxmlSpec.name
  content t := t = OoxmlSpec.name "tc"
  whole _ := False
  attrs := SameWord

end Benker.DocSpec
