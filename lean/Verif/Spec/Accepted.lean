import Verif.Spec.Writable
import Verif.Spec.Xml
import Verif.Model.Ooxml

/-! What a document must be like, besides being accepted by a parser, for its tables to be written by a builder. -/

namespace Benker.Accepted

/-- a known unit of length -/
def KnownUnit (unit : List Char) : Prop := ∃ n ∈ Writable.lengthUnits, unit = n.toList

/-- the widths given to columns have a number -/
def NumberedWidths (ns : Option String) (n : Node) : Prop :=
  ∀ e ∈ preorder n, e.tag? = some ⟨ns, "colspec"⟩ → ∀ w, e.attr ⟨ns, "colwidth"⟩ = some w → w = "" ∨ ∃ c ∈ w.toList, c.isDigit = true

/-- the Formex cells without type are in rows without type, or of the ordinary type -/
def TypedCells (ns : Option String) (n : Node) : Prop :=
  ∀ row ∈ preorder n, ∀ cell ∈ row.children, cell.tag? = some ⟨ns, "CELL"⟩ → cell.attr ⟨ns, "TYPE"⟩ = none →
    ∀ ty, row.attr ⟨ns, "TYPE"⟩ = some ty → ty = "" ∨ ty = "NORMAL"

/-- the orientation of the pages of a Word section, if it is given, is a known one -/
def KnownOrientation (sect : Option Node) : Prop :=
  ∀ s, sect = some s → ∀ pg, (s.children.find? (fun c => c.tag? = some (Ooxml.w "pgSz"))) = some pg →
    ∀ o, pg.attr (Ooxml.w "orient") = some o → o = "landscape" ∨ o = "portrait"

/-- if titles are looked for, the first cell is there, and the cells of the first row can be written in a title if it is one -/
def TitleWritable (titles : Bool) (t : Table Content) : Prop :=
  titles = true → Covered t.cells ⟨1, 1⟩ ∧ (FmxSpec.HasTitle t → ∀ c ∈ t.cells, c.min.y = 1 → Writable.InTitle c)

end Benker.Accepted
