import Verif.Spec.FormexFinalised

/-! What is left of a picture once it has been in a final Formex document. -/

namespace Benker.Shown
open CalsSpec

/-- the line, where a header is a part of the body: the final Formex documents do not tell the headers -/
def Line.inFormex (l : Line) : Line := ⟨if l.kind = "footer" then "footer" else "body", l.cells⟩

/-- the same lines, where what is in some cells, which is `lost`, may be replaced by nothing -/
def SameLines (lost : List Tok → Prop) (p q : Picture) : Prop :=
  All₂ (fun l m => m.kind = l.kind ∧ All₂ (fun a b => b.1 = a.1 ∧ (b.2 = a.2 ∨ b.2 = [] ∧ lost a.2)) l.cells m.cells) p q

end Benker.Shown
