import Verif.Spec.LooksKept
import Verif.Spec.FormexDoc

/-! The looks of a Formex table in its source and in the CALS document. -/

namespace Benker.Kept
open CalsSpec FmxSpec

/-- the elements of `order` are those of `all`, sorted by the ranks of their kinds; those of the same rank keep their order -/
def Sorted {α : Type} (sorting : List String) (kind : α → Option String) (all order : List α) : Prop :=
  ∃ rank : Option String → Int, (∀ n, RankIs sorting n (rank n)) ∧ order.Perm all ∧ order.Pairwise (fun a b => rank (kind a) ≤ rank (kind b)) ∧
    ∀ k, order.filter (fun a => rank (kind a) = k) = all.filter (fun a => rank (kind a) = k)

/-- the orientation told by the size of the page -/
def pageOrient (size : Option String) : Option String :=
  size.bind (fun s => if s ∈ ["DOUBLE.LANDSCAPE", "SINGLE.LANDSCAPE"] then some "land" else if s ∈ ["DOUBLE.PORTRAIT", "SINGLE.PORTRAIT"] then some "port" else none)

/-- the looks of a Formex table (the `CORPUS` element, whose parent tells the class and the size of the page) in the `table` element; `whole` is the element
which tells the separators (the `table`, or the `tgroup` if the option asks for it) and `style` its style -/
structure CorpusKept (ns cals ns' : Option String) (parent : Option Node) (corpus table whole : Node) (style : Option String) : Prop where
  frame : table.attr ⟨ns', "frame"⟩ = some ((filled (corpus.attr ⟨cals, "frame"⟩)).getD "none")
  right : whole.attr ⟨ns', "colsep"⟩ = some ((line (corpus.attr ⟨cals, "colsep"⟩)).getD "0")
  bottom : whole.attr ⟨ns', "rowsep"⟩ = some ((line (corpus.attr ⟨cals, "rowsep"⟩)).getD "0")
  style : CorpusNature (parent.bind (fun p => p.attr ⟨ns, "CLASS"⟩)) (corpus.attr ⟨cals, "tabstyle"⟩) style
  orient : table.attr ⟨ns', "orient"⟩ =
    (known ["land", "port"] (corpus.attr ⟨cals, "orient"⟩)).or (pageOrient (parent.bind (fun p => p.attr ⟨ns, "PAGE.SIZE"⟩)))
  pgwide : table.attr ⟨ns', "pgwide"⟩ = known ["0", "1"] (corpus.attr ⟨cals, "pgwide"⟩)
  bgcolor : table.attr ⟨ns', "bgcolor"⟩ = filled (corpus.attr ⟨cals, "bgcolor"⟩)

/-- the looks of a row or of a title; its style is the attribute `rowstyle`, else its name -/
structure LineKept (ns cals ns' : Option String) (whole : Node) (l : DocLine) (out : Node) : Prop where
  valign : out.attr ⟨ns', "valign"⟩ = valign (l.node.attr ⟨cals, "valign"⟩)
  bottom : (out.attr ⟨ns', "rowsep"⟩).or (whole.attr ⟨ns', "rowsep"⟩) = (line (l.node.attr ⟨cals, "rowsep"⟩)).or (whole.attr ⟨ns', "rowsep"⟩)
  rowstyle : ∃ name, LineName ns l name ∧ out.attr ⟨ns', "rowstyle"⟩ = (filled (l.node.attr ⟨cals, "rowstyle"⟩)).or (name.map String.ofList)

/-- the looks of what is drawn at a place of a line, but the separators: the type of a cell is told if it is not that of its row; titles and empty places
have no looks of their own; the looks of a note are those of its cell -/
structure PlaceKept (ns cals ns' : Option String) (l : DocLine) (node : Option Node) (out : Node) : Prop where
  valign : out.attr ⟨ns', "valign"⟩ = if l.sort = .row ∨ l.sort = .note then valign (node.bind (·.attr ⟨cals, "valign"⟩)) else none
  align : out.attr ⟨ns', "align"⟩ = if l.sort = .row then align (node.bind (·.attr ⟨cals, "align"⟩)) else none
  bgcolor : out.attr ⟨ns', "bgcolor"⟩ = if l.sort = .row ∨ l.sort = .note then filled (node.bind (·.attr ⟨cals, "bgcolor"⟩)) else none
  cellstyle : out.attr ⟨ns', "cellstyle"⟩ = if l.sort = .row ∧ typeOr (node.bind (·.attr ⟨ns, "TYPE"⟩)) ≠ typeOr (l.node.attr ⟨ns, "TYPE"⟩) ∧ node ≠ none
    then node.bind (·.attr ⟨ns, "TYPE"⟩) else none

/-- the separators of what is drawn at a place of a line, except those on the frame -/
structure PlaceLines (cals ns' : Option String) (w h : Nat) (whole : Node) (node : Option Node) (b : Box) (out : Node) : Prop where
  right : b.max.x < w → (out.attr ⟨ns', "colsep"⟩).or (whole.attr ⟨ns', "colsep"⟩) =
    (line (node.bind (·.attr ⟨cals, "colsep"⟩))).or (whole.attr ⟨ns', "colsep"⟩)
  bottom : b.max.y < h → (out.attr ⟨ns', "rowsep"⟩).or (whole.attr ⟨ns', "rowsep"⟩) =
    (line (node.bind (·.attr ⟨cals, "rowsep"⟩))).or (whole.attr ⟨ns', "rowsep"⟩)

end Benker.Kept
