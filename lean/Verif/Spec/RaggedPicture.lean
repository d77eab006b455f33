import Verif.Spec.CalsRagged
import Verif.Spec.FormexRagged
import Verif.Spec.Conversion

/-! What a CALS table (C109) or a Formex table (C110) shows when its rows have not all the same length. -/

namespace Benker.Shown
open CalsSpec

/-- what is shown by a CALS table completed to `w` columns: the entries of each row and, at the places which no entry covers, empty places, from left to right -/
structure Completed (d : CalsDoc) (w : Nat) (p : Picture) : Prop where
  rows : p.length = d.rows.length
  kinds : ∀ (i : Nat) (r : Node × DocRow) (l : Line), d.rows[i]? = some r → p[i]? = some l → KindOf r.1 l.kind
  cells : ∀ (i : Nat) (r : Node × DocRow) (l : Line), d.rows[i]? = some r → p[i]? = some l → ∀ (b : Box) (x : List Tok), (b, x) ∈ l.cells ↔
    (∃ e ∈ r.2.entries, b = e.box ∧ x = insideToks e.node) ∨
    (x = [] ∧ b.max = b.min ∧ b.min.y = (i : Int) + 1 ∧ 1 ≤ b.min.x ∧ b.min.x ≤ w ∧ ∀ e ∈ d.entries, ¬ InBox b.min e.2.box)
  order : ∀ l ∈ p, l.cells.Pairwise (fun a b => a.1.min.x < b.1.min.x)

/-- what is shown by a Formex table completed to `w` columns: the cells, the titles and the notes of each line and, at the places where nothing is drawn, empty places, from left to right -/
structure CompletedFormex (ns : Option String) (embed : Bool) (d : FmxSpec.FmxDoc) (w : Nat) (p : Picture) : Prop where
  lines : p.length = d.all.length
  kinds : ∀ (i : Nat) (l : FmxSpec.DocLine) (m : Line), d.all[i]? = some l → p[i]? = some m → m.kind = l.kind ns
  cells : ∀ (i : Nat) (l : FmxSpec.DocLine) (m : Line), d.all[i]? = some l → p[i]? = some m → ∀ (b : Box) (x : List Tok), (b, x) ∈ m.cells ↔
    (∃ e ∈ l.drawn, b = e.2 ∧ x = formexToks ns embed l e.1) ∨
    (x = [] ∧ b.max = b.min ∧ b.min.y = (i : Int) + 1 ∧ 1 ≤ b.min.x ∧ b.min.x ≤ w ∧ ∀ e ∈ d.drawn, ¬ InBox b.min e.2.2)
  order : ∀ m ∈ p, m.cells.Pairwise (fun a b => a.1.min.x < b.1.min.x)

end Benker.Shown
