import Verif.Spec.Document
import Verif.Spec.FormexDocument

/-! Documents with tables inside tables. -/

namespace Benker.Shown
open CalsSpec

/-- `n'` is `n` where all the tables are replaced, also those inside tables, which may be nested `depth - 1` times: each table which is in no other one is replaced by
`e`, which is related to it by `R` and has the same tail, and then the tables which are inside `e` are replaced in the same way. -/
def Deep (isTable : QName → Prop) (R : List Node → Node → Node → Prop) : Nat → List Node → Node → Node → Prop
  | 0, _, _, _ => False
  | depth + 1, following, n, n' =>
    Around isTable (fun following T T' => ∃ e, R following T e ∧ e.tail = T.tail ∧ Deep isTable R depth following e T') following n n'

mutual
/-- the property holds of all the tables of the node, also those inside tables -/
def EveryTable (isTable : QName → Prop) (P : Node → Prop) : Node → Prop
  | .elem t a x cs tl => (isTable t → P (.elem t a x cs tl)) ∧ EveryTableList isTable P cs
  | _ => True
def EveryTableList (isTable : QName → Prop) (P : Node → Prop) : List Node → Prop
  | [] => True
  | n :: ns => EveryTable isTable P n ∧ EveryTableList isTable P ns
end

/-- there is no section of a Word document in the node -/
def WithoutSection (n : Node) : Prop := ∀ a, Tok.opening (OoxmlSpec.name "sectPr") a ∉ toks n

end Benker.Shown
