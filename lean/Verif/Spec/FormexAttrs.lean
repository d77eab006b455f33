import Verif.Spec.FormexText

/-! The attributes of a finalised Formex document. -/

namespace Benker.FmxSpec

/-- the elements of a table which lose attributes -/
def Superfluous (t : QName) : Prop := t ∈ ["ROW", "CELL", "TI.BLK", "STI.BLK", "GR.NOTES"].map name

mutual
/-- the elements of a node which are in a table; `inside` tells if the node itself is in one -/
def inTables (inside : Bool) : Node → List Node
  | .elem t a x cs tl => (if inside then [.elem t a x cs tl] else []) ++ inTablesList (inside || t = name "TBL") cs
  | _ => []
def inTablesList (inside : Bool) : List Node → List Node
  | [] => []
  | n :: ns => inTables inside n ++ inTablesList inside ns
end

mutual
/-- the second node is the first one, where the rows, the cells, the titles and the notes which are in a table have lost the attributes of the list -/
def Cleaned (dropped : List QName) (inside : Bool) : Node → Node → Prop
  | .elem t a x cs tl, m => ∃ b ds, m = .elem t b x ds tl ∧
      (∀ k, (inside = true ∧ Superfluous t ∧ k ∈ dropped → Dict.get? b k = none) ∧
        (¬ (inside = true ∧ Superfluous t ∧ k ∈ dropped) → Dict.get? b k = Dict.get? a k)) ∧
      CleanedList dropped (inside || t = name "TBL") cs ds
  | n, m => m = n
def CleanedList (dropped : List QName) (inside : Bool) : List Node → List Node → Prop
  | [], ds => ds = []
  | n :: ns, ds => ∃ m ms, ds = m :: ms ∧ Cleaned dropped inside n m ∧ CleanedList dropped inside ns ms
end

mutual
/-- the footer rows of a node which belong to the table around it, in document order -/
def footers : Node → List Node
  | .elem t a x cs tl => if t = name "TBL" then [] else (if IsFooter t a then [.elem t a x cs tl] else []) ++ footersList cs
  | _ => []
def footersList : List Node → List Node
  | [] => []
  | n :: ns => footers n ++ footersList ns
end

/-- the first child of this name -/
def firstChild (t : String) (ns : List Node) : Option Node := ns.find? (fun n => n.tag? = some (name t))

/-- the nodes which stand for a footer row before the `CORPUS`: a new `GR.NOTES` which has the attributes of the row, or the nodes of its first cell, if
they contain a `GR.NOTES`: the first one receives the attributes of the row which it has not -/
def NoteFor (row : Node) (g : List Node) : Prop :=
  ∃ c, firstChild "CELL" row.children = some c ∧
    (firstChild "GR.NOTES" c.children = none → ∃ n, g = [n] ∧ n.tag? = some (name "GR.NOTES") ∧
      ∀ k, n.attr k = if k = name "TYPE" then none else row.attr k) ∧
    ∀ e, firstChild "GR.NOTES" c.children = some e → ∃ n, firstChild "GR.NOTES" g = some n ∧
      ∀ k, n.attr k = (e.attr k).or (if k = name "TYPE" then none else row.attr k)

/-- the name and the attributes of nodes -/
def heads (ns : List Node) : List (Option QName × Dict QName String) := ns.map (fun n => (n.tag?, n.attrs))

/-- the names of the nodes which are not footer rows -/
def tagsKept (ns : List Node) : List (Option QName) :=
  (ns.filter (fun n => match n with | .elem t a _ _ _ => decide (¬ IsFooter t a) | _ => true)).map (·.tag?)

end Benker.FmxSpec
