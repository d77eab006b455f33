import Verif.Spec.CalsLooks

/-! The looks of a table in a source document and in the converted one. -/

namespace Benker.Kept
open CalsSpec

/-- the value of an attribute, if it is one of these -/
def known (values : List String) (attr : Option String) : Option String := attr.filter (fun s => decide (s ∈ values))

/-- the value of an attribute, unless it is empty -/
def filled (attr : Option String) : Option String := attr.filter (fun s => decide (s ≠ ""))

/-- the separator told by an attribute: `0` or `1` -/
def line (attr : Option String) : Option String := known ["0", "1"] attr

/-- the vertical alignments -/
def valign (attr : Option String) : Option String := known ["top", "middle", "bottom"] attr

/-- the alignments; the alignment on a character is told as `left` -/
def align (attr : Option String) : Option String :=
  (known ["left", "right", "center", "justify", "char"] attr).map (fun s => if s = "char" then "left" else s)

/-- the width `s` is written as `s'`: absent if it is absent or empty, else written in other units, by each of the steps -/
def Width (steps : List (List Char → Except PyErr (List Char))) (s s' : Option String) : Prop :=
  (filled s = none → s' = none) ∧ ∀ x, filled s = some x → ∃ y, s' = some y ∧ steps.foldlM (fun w f => f w) x.toList = .ok y.toList

/-- the looks of a CALS table in the element which stands for it in the other document (its attributes are in the namespace `ns'`): the separators are
those told by `tgroup`, else by `table`, else there is no line -/
structure TableKept (ns ns' : Option String) (steps : List (List Char → Except PyErr (List Char))) (table tgroup out : Node) : Prop where
  frame : out.attr ⟨ns', "frame"⟩ = some ((filled (table.attr ⟨ns, "frame"⟩)).getD "none")
  right : out.attr ⟨ns', "colsep"⟩ = some (((line (tgroup.attr ⟨ns, "colsep"⟩)).or (line (table.attr ⟨ns, "colsep"⟩))).getD "0")
  bottom : out.attr ⟨ns', "rowsep"⟩ = some (((line (tgroup.attr ⟨ns, "rowsep"⟩)).or (line (table.attr ⟨ns, "rowsep"⟩))).getD "0")
  tabstyle : TableNature (table.attr ⟨ns, "tabstyle"⟩) (tgroup.attr ⟨ns, "tgroupstyle"⟩) (out.attr ⟨ns', "tabstyle"⟩)
  orient : out.attr ⟨ns', "orient"⟩ = known ["land", "port"] (table.attr ⟨ns, "orient"⟩)
  pgwide : out.attr ⟨ns', "pgwide"⟩ = known ["0", "1"] (table.attr ⟨ns, "pgwide"⟩)
  bgcolor : out.attr ⟨ns', "bgcolor"⟩ = filled (table.attr ⟨ns, "bgcolor"⟩)
  width : Width steps (table.attr ⟨ns, "width"⟩) (out.attr ⟨ns', "width"⟩)

/-- the looks of a column; `whole` is the element which tells the looks of the whole table in the other document -/
structure ColKept (ns ns' : Option String) (steps : List (List Char → Except PyErr (List Char))) (whole colspec out : Node) : Prop where
  right : (out.attr ⟨ns', "colsep"⟩).or (whole.attr ⟨ns', "colsep"⟩) = (line (colspec.attr ⟨ns, "colsep"⟩)).or (whole.attr ⟨ns', "colsep"⟩)
  bottom : (out.attr ⟨ns', "rowsep"⟩).or (whole.attr ⟨ns', "rowsep"⟩) = (line (colspec.attr ⟨ns, "rowsep"⟩)).or (whole.attr ⟨ns', "rowsep"⟩)
  width : Width steps (colspec.attr ⟨ns, "colwidth"⟩) (out.attr ⟨ns', "colwidth"⟩)
  align : out.attr ⟨ns', "align"⟩ = align (colspec.attr ⟨ns, "align"⟩)

/-- the looks of a row, which is in the `thead`, `tbody` or `tfoot` element `body` -/
structure RowKept (ns ns' : Option String) (whole body row out : Node) : Prop where
  valign : out.attr ⟨ns', "valign"⟩ = (valign (row.attr ⟨ns, "valign"⟩)).or (valign (body.attr ⟨ns, "valign"⟩))
  bottom : (out.attr ⟨ns', "rowsep"⟩).or (whole.attr ⟨ns', "rowsep"⟩) = (line (row.attr ⟨ns, "rowsep"⟩)).or (whole.attr ⟨ns', "rowsep"⟩)
  rowstyle : out.attr ⟨ns', "rowstyle"⟩ = filled (row.attr ⟨ns, "rowstyle"⟩)
  bgcolor : out.attr ⟨ns', "bgcolor"⟩ = filled (row.attr ⟨ns, "bgcolor"⟩)

/-- the looks of a cell of a table of `w` columns and `h` rows; the separators of the last column and of the last row are those of the frame -/
structure CellKept (ns ns' : Option String) (w h : Nat) (whole : Node) (e : DocEntry) (out : Node) : Prop where
  right : e.box.max.x < w → (out.attr ⟨ns', "colsep"⟩).or (whole.attr ⟨ns', "colsep"⟩) =
    (line (e.node.attr ⟨ns, "colsep"⟩)).or (whole.attr ⟨ns', "colsep"⟩)
  lastColumn : e.box.max.x = w → out.attr ⟨ns', "colsep"⟩ = none
  bottom : e.box.max.y < h → (out.attr ⟨ns', "rowsep"⟩).or (whole.attr ⟨ns', "rowsep"⟩) =
    (line (e.node.attr ⟨ns, "rowsep"⟩)).or (whole.attr ⟨ns', "rowsep"⟩)
  lastRow : e.box.max.y = h → out.attr ⟨ns', "rowsep"⟩ = none
  valign : out.attr ⟨ns', "valign"⟩ = valign (e.node.attr ⟨ns, "valign"⟩)
  align : out.attr ⟨ns', "align"⟩ = align (e.node.attr ⟨ns, "align"⟩)
  bgcolor : out.attr ⟨ns', "bgcolor"⟩ = filled (e.node.attr ⟨ns, "bgcolor"⟩)

end Benker.Kept
