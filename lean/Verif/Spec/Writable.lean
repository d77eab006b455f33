import Verif.Spec.Cals
import Verif.Spec.Formex
import Verif.Props.Xml

/-! What a table must be like for a builder to write it: the values of its styles and the contents of its cells. -/

namespace Benker.Writable
open CalsSpec

/-- the style is not given, or it is a text -/
def Text (st : Styles) (key : String) : Prop := ∀ v, Dict.get? st key = some v → ∃ s, v = .str s

/-- the style is not given, or it is one of some texts -/
def OneOf (st : Styles) (key : String) (values : List String) : Prop := ∀ v, Dict.get? st key = some v → ∃ s ∈ values, v = .str s

/-- the units of length -/
def lengthUnits : List String := ["mm", "dm", "cm", "m", "in", "ft", "px", "pt", "pc"]

/-- the style is not given, or it is a text with a digit, and the unit in which lengths are to be written is a known one -/
def Length (unit : List Char) (st : Styles) (key : String) : Prop :=
  ∀ v, Dict.get? st key = some v → (∃ s : String, v = .str s ∧ ∃ c ∈ s.toList, c.isDigit = true) ∧ ∃ n ∈ lengthUnits, unit = n.toList

/-- a content which can be put in an element: nothing, a text, a number, a node, or a list of texts and nodes -/
inductive Placeable : Option Content → Prop
  | nothing : Placeable none
  | text (s : String) : Placeable (some (.text s))
  | number (r : String) : Placeable (some (.num r))
  | node (n : Node) : Placeable (some (.node n))
  | pieces (l : List (Option Content)) (h : ∀ c ∈ l, (∃ s, c = some (.text s)) ∨ ∃ n, c = some (.node n)) : Placeable (some (.seq l))

/-- the vertical alignments of a row -/
def rowAlignments : List String := ["top", "middle", "bottom", "baseline"]

/-- the vertical alignments of a cell -/
def cellAlignments : List String := "w-both" :: rowAlignments

/-- the styles of a table -/
structure GoodTable (unit : List Char) (st : Styles) : Prop where
  borders : ∀ key ∈ ["border-top", "border-right", "border-bottom", "border-left", "x-cell-border-right", "x-cell-border-bottom"], Readable st key
  orientation : OneOf st "x-sect-orient" ["landscape", "portrait"]
  background : Text st "background-color"
  width : Length unit st "width"

/-- the styles of a column -/
structure GoodColumn (unit : List Char) (st : Styles) : Prop where
  width : Length unit st "width"
  right : Readable st "border-right"
  bottom : Readable st "border-bottom"

/-- the styles of a row -/
structure GoodRow (st : Styles) : Prop where
  valign : OneOf st "vertical-align" rowAlignments
  bottom : Readable st "border-bottom"
  style : Text st "rowstyle"
  inserted : Dict.get? st "x-ins" ≠ none → Text st "x-ins-author" ∧ Text st "x-ins-date"

/-- the styles of a cell; the lines at the right of the last column and below the last row are not written -/
structure GoodCell (cells : List (Cell Content)) (c : Cell Content) : Prop where
  right : (∃ d ∈ cells, c.max.x < d.max.x) → Readable c.styles "border-right"
  bottom : (∃ d ∈ cells, c.max.y < d.max.y) → Readable c.styles "border-bottom"
  valign : OneOf c.styles "vertical-align" cellAlignments
  align : OneOf c.styles "align" ["left", "right", "center", "justify"]
  background : Text c.styles "background-color"
  style : Text c.styles "cellstyle"

/-- a table which can be written in CALS -/
structure InCals (unit : List Char) (t : Table Content) (rows cols : List (View Content)) : Prop where
  table : GoodTable unit t.styles
  columns : ∀ v ∈ cols, GoodColumn unit v.styles
  rows : ∀ v ∈ rows, GoodRow v.styles
  cells : ∀ c ∈ t.cells, GoodCell t.cells c ∧ Placeable c.content

/-- a cell which can be written in a title: an empty one, a text, nodes, or an element which contains nodes -/
def InTitle (c : Cell Content) : Prop :=
  FmxSpec.WrittenEmpty c ∨ (∃ s, c.content = some (.text s)) ∨ (∃ (n : Node) (ns : List Node), c.content = some (.seq ((n :: ns).map (fun x => some (.node x))))) ∨
  ∃ e, c.content = some (.node e) ∧ e.children ≠ []

/-- the nature of a cell is that of its row, or a known one -/
def KnownNature (c : Cell Content) (row : Option String) : Prop :=
  c.nature = none ∨ c.nature = some "" ∨ c.nature = row ∨ c.nature ∈ [some "header", some "body", some "footer"]

/-- a row, with its cells, which can be written in Formex, with CALS attributes if `cals` is true -/
structure FormexRow (cals : Bool) (cells : List (Cell Content)) (v : View Content) : Prop where
  inserted : Dict.get? v.styles "x-ins" ≠ none → Text v.styles "x-ins-author" ∧ Text v.styles "x-ins-date"
  looks : cals = true → GoodRow v.styles ∧ Text v.styles "background-color"
  cells : ∀ c ∈ cells, c.min.y = v.pos → KnownNature c v.nature ∧ (cals = true → GoodCell cells c) ∧ (¬ FmxSpec.WrittenEmpty c → Placeable c.content)

/-- a table which can be written in Formex: `titles` tells whether titles are looked for, `cals` whether CALS attributes are written -/
structure InFormex (titles cals : Bool) (unit : List Char) (t : Table Content) (rows cols : List (View Content)) : Prop where
  page : Dict.get? t.styles "x-sect-orient" ≠ none → ∀ v, Dict.get? t.styles "x-sect-size" = some v → ∃ w h, v = .pair w h
  corner : titles = true → Covered t.cells ⟨1, 1⟩
  title : titles = true → FmxSpec.HasTitle t → ∀ c ∈ t.cells, c.min.y = 1 → InTitle c
  table : cals = true → GoodTable unit t.styles
  columns : cals = true → ∀ v ∈ cols, GoodColumn unit v.styles
  rows : ∀ v ∈ rows, ¬ (titles = true ∧ FmxSpec.HasTitle t ∧ v.pos = 1) → FormexRow cals t.cells v

end Benker.Writable
