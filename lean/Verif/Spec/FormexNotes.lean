import Verif.Spec.Formex
import Verif.Spec.Xml

/-! Specification of the documents in which the rows of the notes can be moved one after another. -/

namespace Benker
open FmxSpec

/-- a row of notes, as the builder writes it before the finalisation -/
def NotesRow (e : Node) : Prop := e.tag? = some (name "ROW") ∧ e.attr (name "TYPE") = some "__GR.NOTES__"

/-- no row of notes has rows inside, except in its first cell -/
def NotesApartList (ns : List Node) : Prop :=
  ∀ e ∈ preorderList ns, NotesRow e →
    ∀ d ∈ preorderList (e.children.eraseP (fun c => c.tag? = some (name "CELL"))), d.tag? ≠ some (name "ROW")

/-- no row of notes of the document has rows inside, except in its first cell -/
def NotesApart (n : Node) : Prop := NotesApartList [n]

/-- no element of this name is inside another one -/
def NotNested (q : QName) (doc : Node) : Prop :=
  ∀ e ∈ preorder doc, e.tag? = some q → ∀ d ∈ preorderList e.children, d.tag? ≠ some q

instance (q : QName) (n : Node) : Decidable (NotNested q n) := by unfold NotNested; exact inferInstance
instance (e : Node) : Decidable (NotesRow e) := by unfold NotesRow; exact inferInstance
instance (ns : List Node) : Decidable (NotesApartList ns) := by unfold NotesApartList; exact inferInstance
instance (n : Node) : Decidable (NotesApart n) := by unfold NotesApart; exact inferInstance

end Benker
