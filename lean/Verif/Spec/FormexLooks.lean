import Verif.Spec.Formex
import Verif.Props.CalsStyles

/-! What the attributes of a Formex document tell about the looks of a table, when the CALS attributes are asked for. -/

namespace Benker.FmxSpec
open CalsSpec

/-- the attribute is the value told by a style: no attribute without the style, and with it the value of the style -/
def Tells (styles : Styles) (key : String) (value : StyleVal → Option String) (attr : Option String) : Prop :=
  (Dict.get? styles key = none → attr = none) ∧
  ∀ v, Dict.get? styles key = some v → ∃ s, value v = some s ∧ attr = some s

/-- the text of a style, as it is -/
def asText : StyleVal → Option String
  | .str s => some s
  | _ => none

/-- a word for a word -/
def byWord (words : List (String × String)) : StyleVal → Option String
  | .str s => (words.find? (fun p => p.1 = s)).map (·.2)
  | _ => none

/-- one column of text on the page: the table takes its whole width -/
def pageWide (v : StyleVal) : Option String := some (if v = .str "1" then "1" else "0")

/-- the width of a style, in the unit of the configuration -/
def inUnit (fl : Rat → Rat) (unit : List Char) : StyleVal → Option String
  | .str s => (Units.rewriteWidth fl unit s.toList).toOption.map String.ofList
  | _ => none

/-- the separator `attr`, or that of the table when it is absent, tells whether there is a line; it is absent when it would repeat that of the table -/
structure LineTold (own table : Styles) (key tkey : String) (attr tableAttr : Option String) : Prop where
  line : ∀ b : Bool, LineIs own table key tkey b ↔ attr.or tableAttr = some (if b then "1" else "0")
  short : attr ≠ none → attr ≠ tableAttr

/-- the attributes of a `CORPUS` -/
structure CorpusLooks (ns : Option String) (fl : Rat → Rat) (unit : List Char) (t : Table Content) (attr : QName → Option String) : Prop where
  frame : ∃ f, attr ⟨ns, "frame"⟩ = some f ∧ FrameFor (Visible t.styles "border-top") (Visible t.styles "border-right")
    (Visible t.styles "border-bottom") (Visible t.styles "border-left") f
  right : LineTold [] t.styles "border-right" "x-cell-border-right" (attr ⟨ns, "colsep"⟩) none
  bottom : LineTold [] t.styles "border-bottom" "x-cell-border-bottom" (attr ⟨ns, "rowsep"⟩) none
  tabstyle : attr ⟨ns, "tabstyle"⟩ = t.nature
  orient : Tells t.styles "x-sect-orient" (byWord [("landscape", "land"), ("portrait", "port")]) (attr ⟨ns, "orient"⟩)
  pgwide : Tells t.styles "x-sect-cols" pageWide (attr ⟨ns, "pgwide"⟩)
  bgcolor : Tells t.styles "background-color" asText (attr ⟨ns, "bgcolor"⟩)
  width : Tells t.styles "width" (inUnit fl unit) (attr ⟨ns, "width"⟩)
  others : ∀ k : QName, attr k ≠ none → k.name ∈ ["frame", "colsep", "rowsep", "tabstyle", "orient", "pgwide", "bgcolor", "width"]

/-- the attributes of a `colspec`; `table` are the attributes of the `CORPUS` -/
structure ColLooks (ns : Option String) (fl : Rat → Rat) (unit : List Char) (t : Table Content) (table : QName → Option String)
    (v : View Content) (attr : QName → Option String) : Prop where
  right : LineTold v.styles t.styles "border-right" "x-cell-border-right" (attr ⟨ns, "colsep"⟩) (table ⟨ns, "colsep"⟩)
  bottom : LineTold v.styles t.styles "border-bottom" "x-cell-border-bottom" (attr ⟨ns, "rowsep"⟩) (table ⟨ns, "rowsep"⟩)
  width : Tells v.styles "width" (inUnit fl unit) (attr ⟨ns, "colwidth"⟩)
  align : ∀ s, attr ⟨ns, "align"⟩ = some s ↔ Dict.get? v.styles "align" = some (.str s) ∧ s ∈ ["left", "right", "center", "justify"]

/-- the attributes of a `ROW` -/
structure RowLooks (ns : Option String) (t : Table Content) (table : QName → Option String) (r : View Content) (attr : QName → Option String) : Prop where
  valign : Tells r.styles "vertical-align" (byWord [("top", "top"), ("middle", "middle"), ("bottom", "bottom"), ("baseline", "bottom")])
    (attr ⟨ns, "valign"⟩)
  bottom : LineTold r.styles t.styles "border-bottom" "x-cell-border-bottom" (attr ⟨ns, "rowsep"⟩) (table ⟨ns, "rowsep"⟩)
  rowstyle : Tells r.styles "rowstyle" asText (attr ⟨ns, "rowstyle"⟩)
  bgcolor : Tells r.styles "background-color" asText (attr ⟨ns, "bgcolor"⟩)
  others : ∀ k : QName, attr k ≠ none → k.name ∈ ["TYPE", "valign", "rowsep", "rowstyle", "bgcolor"]

/-- the attributes of a `CELL`: the frame of the table is drawn around its last column and its last row -/
structure CellLooks (ns : Option String) (t : Table Content) (table : QName → Option String) (c : Cell Content) (attr : QName → Option String) : Prop where
  right : (∃ d ∈ t.cells, c.max.x < d.max.x) →
    LineTold c.styles t.styles "border-right" "x-cell-border-right" (attr ⟨ns, "colsep"⟩) (table ⟨ns, "colsep"⟩)
  lastColumn : (∀ d ∈ t.cells, d.max.x ≤ c.max.x) → attr ⟨ns, "colsep"⟩ = none
  bottom : (∃ d ∈ t.cells, c.max.y < d.max.y) →
    LineTold c.styles t.styles "border-bottom" "x-cell-border-bottom" (attr ⟨ns, "rowsep"⟩) (table ⟨ns, "rowsep"⟩)
  lastRow : (∀ d ∈ t.cells, d.max.y ≤ c.max.y) → attr ⟨ns, "rowsep"⟩ = none
  valign : Tells c.styles "vertical-align"
    (byWord [("top", "top"), ("middle", "middle"), ("bottom", "bottom"), ("baseline", "bottom"), ("w-both", "bottom")]) (attr ⟨ns, "valign"⟩)
  align : Tells c.styles "align" (byWord [("left", "left"), ("right", "right"), ("center", "center"), ("justify", "justify")]) (attr ⟨ns, "align"⟩)
  bgcolor : Tells c.styles "background-color" asText (attr ⟨ns, "bgcolor"⟩)
  others : ∀ k : QName, attr k ≠ none → k.name ∈ ["COL", "COLSPAN", "ROWSPAN", "TYPE", "colsep", "rowsep", "valign", "align", "namest", "nameend",
    "morerows", "bgcolor"]

end Benker.FmxSpec
