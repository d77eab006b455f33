import Verif.Spec.Xml
import Verif.Model.Ooxml

/-! Where what is in a converted document comes from. -/

namespace Benker.Origin

/-- what a conversion may create: the elements `made`, which depend on their names and attributes, and the revision marks if there are `marks` -/
def Created (made : QName → Dict QName String → Prop) (marks : Prop) : Tok → Prop
  | .opening q a => made q a
  | .closing q => ∃ a, made q a
  | .pi target _ => marks ∧ target ∈ ["change-start", "change-end"]
  | _ => False

/-- every tag, character, processing instruction and comment of `out` is in `doc`, unless it may be created -/
def NothingElse (made : QName → Dict QName String → Prop) (marks : Prop) (doc out : Node) : Prop :=
  ∀ k ∈ toks out, k ∈ toks doc ∨ Created made marks k

/-- the elements of a CALS table -/
def calsNames : List String := ["table", "tgroup", "colspec", "thead", "tfoot", "tbody", "row", "entry"]

/-- the elements of a Formex table -/
def formexNames : List String := ["TBL", "TITLE", "TI", "STI", "CORPUS", "ROW", "CELL", "IE", "GR.NOTES", "BLK", "TI.BLK", "STI.BLK"]

/-- CALS elements in this namespace -/
def InCals (ns : Option String) (q : QName) : Prop := q.ns = ns ∧ q.name ∈ calsNames

/-- Formex elements; a `colspec` if CALS attributes are written; a bare paragraph if titles are looked for; an element of the document whose CALS `rowstyle`
told which type it had to be given -/
def InFormex (titles cals : Bool) (ns : Option String) (doc : Node) (q : QName) (a : Dict QName String) : Prop :=
  (q.ns = none ∧ q.name ∈ formexNames) ∨
  (cals = true ∧ q = ⟨ns, "colspec"⟩) ∨
  (titles = true ∧ q = ⟨none, "P"⟩ ∧ a = []) ∨
  (∃ a0 style type, Tok.opening q a0 ∈ toks doc ∧ Dict.get? a0 ⟨ns, "rowstyle"⟩ = some style ∧ a = Dict.set a0 ⟨none, "TYPE"⟩ type)

/-- there is a mark of insertion in a Word document -/
def Inserted (doc : Node) : Prop := ∃ a, Tok.opening (Ooxml.w "ins") a ∈ toks doc

end Benker.Origin
