import Verif.Spec.FormexLooks
import Verif.Spec.CalsDoc

/-! What the attributes of a CALS document tell about the looks of a table. -/

namespace Benker.CalsSpec
open FmxSpec

/-- the attributes of a `table` and of its `tgroup`; the separators and the style of the whole table are told by the `tgroup` if `inTgroup`, else by the
`table` -/
structure TableTold (ns : Option String) (inTgroup : Bool) (fl : Rat → Rat) (unit : List Char) (t : Table Content) (columns : Nat)
    (table tgroup : QName → Option String) : Prop where
  frame : ∃ f, table ⟨ns, "frame"⟩ = some f ∧ FrameFor (Visible t.styles "border-top") (Visible t.styles "border-right")
    (Visible t.styles "border-bottom") (Visible t.styles "border-left") f
  right : LineTold [] t.styles "border-right" "x-cell-border-right" ((if inTgroup then tgroup else table) ⟨ns, "colsep"⟩) none
  bottom : LineTold [] t.styles "border-bottom" "x-cell-border-bottom" ((if inTgroup then tgroup else table) ⟨ns, "rowsep"⟩) none
  style : (if inTgroup then tgroup ⟨ns, "tgroupstyle"⟩ else table ⟨ns, "tabstyle"⟩) = t.nature
  orient : Tells t.styles "x-sect-orient" (byWord [("landscape", "land"), ("portrait", "port")]) (table ⟨ns, "orient"⟩)
  pgwide : Tells t.styles "x-sect-cols" pageWide (table ⟨ns, "pgwide"⟩)
  bgcolor : Tells t.styles "background-color" asText (table ⟨ns, "bgcolor"⟩)
  width : Tells t.styles "width" (inUnit fl unit) (table ⟨ns, "width"⟩)
  cols : ∃ s, tgroup ⟨ns, "cols"⟩ = some s ∧ IsNumber s columns
  others : ∀ k : QName, table k ≠ none → k.name ∈ ["frame", "orient", "pgwide", "bgcolor", "width"] ∨
    inTgroup = false ∧ k.name ∈ ["colsep", "rowsep", "tabstyle"]
  othersTgroup : ∀ k : QName, tgroup k ≠ none → k.name = "cols" ∨ inTgroup = true ∧ k.name ∈ ["colsep", "rowsep", "tgroupstyle"]

/-- the attributes of a `colspec`; `table` are the attributes of the element which tells the separators of the whole table -/
structure ColTold (ns : Option String) (fl : Rat → Rat) (unit : List Char) (t : Table Content) (table : QName → Option String)
    (v : View Content) (attr : QName → Option String) : Prop where
  right : LineTold v.styles t.styles "border-right" "x-cell-border-right" (attr ⟨ns, "colsep"⟩) (table ⟨ns, "colsep"⟩)
  bottom : LineTold v.styles t.styles "border-bottom" "x-cell-border-bottom" (attr ⟨ns, "rowsep"⟩) (table ⟨ns, "rowsep"⟩)
  width : Tells v.styles "width" (inUnit fl unit) (attr ⟨ns, "colwidth"⟩)
  align : ∀ s, attr ⟨ns, "align"⟩ = some s ↔ Dict.get? v.styles "align" = some (.str s) ∧ s ∈ ["left", "right", "center", "justify"]
  others : ∀ k : QName, attr k ≠ none → k.name ∈ ["colnum", "colname", "colwidth", "align", "colsep", "rowsep"]

/-- the attributes of a `row` -/
structure RowTold (ns : Option String) (t : Table Content) (table : QName → Option String) (r : View Content) (attr : QName → Option String) : Prop where
  valign : Tells r.styles "vertical-align" (byWord [("top", "top"), ("middle", "middle"), ("bottom", "bottom"), ("baseline", "bottom")])
    (attr ⟨ns, "valign"⟩)
  bottom : LineTold r.styles t.styles "border-bottom" "x-cell-border-bottom" (attr ⟨ns, "rowsep"⟩) (table ⟨ns, "rowsep"⟩)
  rowstyle : Tells r.styles "rowstyle" asText (attr ⟨ns, "rowstyle"⟩)
  others : ∀ k : QName, attr k ≠ none → k.name ∈ ["valign", "rowsep", "rowstyle"]

/-- the attributes of an `entry`: the frame of the table is drawn around its last column and its last row -/
structure CellTold (ns : Option String) (t : Table Content) (table : QName → Option String) (c : Cell Content) (attr : QName → Option String) : Prop where
  right : (∃ d ∈ t.cells, c.max.x < d.max.x) →
    LineTold c.styles t.styles "border-right" "x-cell-border-right" (attr ⟨ns, "colsep"⟩) (table ⟨ns, "colsep"⟩)
  lastColumn : (∀ d ∈ t.cells, d.max.x ≤ c.max.x) → attr ⟨ns, "colsep"⟩ = none
  bottom : (∃ d ∈ t.cells, c.max.y < d.max.y) →
    LineTold c.styles t.styles "border-bottom" "x-cell-border-bottom" (attr ⟨ns, "rowsep"⟩) (table ⟨ns, "rowsep"⟩)
  lastRow : (∀ d ∈ t.cells, d.max.y ≤ c.max.y) → attr ⟨ns, "rowsep"⟩ = none
  valign : Tells c.styles "vertical-align"
    (byWord [("top", "top"), ("middle", "middle"), ("bottom", "bottom"), ("baseline", "bottom"), ("w-both", "bottom")]) (attr ⟨ns, "valign"⟩)
  align : Tells c.styles "align" (byWord [("left", "left"), ("right", "right"), ("center", "center"), ("justify", "justify")]) (attr ⟨ns, "align"⟩)
  bgcolor : Tells c.styles "background-color" asText (attr ⟨ns, "bgcolor"⟩)
  cellstyle : Tells c.styles "cellstyle" asText (attr ⟨ns, "cellstyle"⟩)
  others : ∀ k : QName, attr k ≠ none → k.name ∈ ["colsep", "rowsep", "valign", "align", "namest", "nameend", "morerows", "bgcolor", "cellstyle"]

end Benker.CalsSpec
