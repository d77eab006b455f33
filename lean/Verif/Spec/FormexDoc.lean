import Verif.Spec.CalsDoc
import Verif.Spec.Formex

/-! Specification of the Formex tables: a document, where its cells are drawn, and what its attributes mean. -/

namespace Benker.FmxSpec
open CalsSpec

/-- the elements which a table is made of are those of the Formex namespace `ns`, and the `colspec` of the CALS namespace `cals`; these nodes have none -/
def NoFmx (ns cals : Option String) (nodes : List Node) : Prop :=
  ∀ t a, Tok.opening t a ∈ toksList nodes →
    (t.ns = ns → t.name ∉ ["CORPUS", "ROW", "CELL", "MARGIN", "BLK", "TI.BLK", "STI.BLK"]) ∧ (t.ns = cals → t.name ≠ "colspec")

/-- `all` lists the nodes `picked` in this order, and nodes which are not seen -/
inductive Among (ns cals : Option String) : List Node → List Node → Prop
  | nil : Among ns cals [] []
  | take (n : Node) (picked all : List Node) (h : Among ns cals picked all) : Among ns cals (n :: picked) (n :: all)
  | skip (n : Node) (picked all : List Node) (hn : NoFmx ns cals [n]) (h : Among ns cals picked all) : Among ns cals picked (n :: all)

/-- what a line of a table is -/
inductive LineSort
  | row | title | subtitle | note
  deriving DecidableEq

def LineSort.tag : LineSort → String
  | .row => "ROW"
  | .title => "TI.BLK"
  | .subtitle => "STI.BLK"
  | .note => "GR.NOTES"

/-- a cell and the rectangle where it is drawn -/
structure DocCell where
  node : Node
  box : Box

/-- a line of a table, the number of blocks around it, its cells, and the places which it leaves empty at its left and at its right -/
structure DocLine where
  sort : LineSort
  node : Node
  level : Nat
  before : List Box
  cells : List DocCell
  after : List Box

/-- everything which is drawn in a line, from left to right -/
def DocLine.drawn (l : DocLine) : List (Option Node × Box) :=
  l.before.map (fun b => (none, b)) ++ l.cells.map (fun c => (some c.node, c.box)) ++ l.after.map (fun b => (none, b))

/-- a table: the columns which are described, the lines, the notes -/
structure FmxDoc where
  corpus : Node
  cols : List DocCol
  lines : List DocLine
  notes : List DocLine

/-- all the lines: the notes are at the bottom -/
def FmxDoc.all (d : FmxDoc) : List DocLine := d.lines ++ d.notes

/-- everything which is drawn, with its line -/
def FmxDoc.drawn (d : FmxDoc) : List (DocLine × Option Node × Box) := d.all.flatMap (fun l => l.drawn.map (fun e => (l, e)))

/-- the lines which are in the nodes, or in blocks which are in the nodes; `level` blocks are around the nodes -/
inductive Lines (ns cals : Option String) : Nat → List DocLine → List Node → Prop
  | nil (level : Nat) : Lines ns cals level [] []
  | skip (level : Nat) (n : Node) (ls : List DocLine) (all : List Node) (hn : NoFmx ns cals [n]) (h : Lines ns cals level ls all) : Lines ns cals level ls (n :: all)
  | line (level : Nat) (l : DocLine) (ls : List DocLine) (all : List Node) (hl : l.level = level) (h : Lines ns cals level ls all) :
      Lines ns cals level (l :: ls) (l.node :: all)
  | block (level : Nat) (n : Node) (inside ls : List DocLine) (all : List Node) (hn : n.tag? = some ⟨ns, "BLK"⟩)
      (hi : Lines ns cals (level + 1) inside n.children) (h : Lines ns cals level ls all) : Lines ns cals level (inside ++ ls) (n :: all)

/-- the notes of a table are those which precede it -/
def NotesOf (ns : Option String) (parent : Option Node) (corpus : Node) (notes : List Node) : Prop :=
  (parent = none ∧ notes = []) ∨ ∃ p before after, parent = some p ∧ p.children = before ++ corpus :: after ∧
    (∀ n ∈ before, n.tag? ≠ some ⟨ns, "CORPUS"⟩) ∧ notes = before.filter (fun n => n.tag? = some ⟨ns, "GR.NOTES"⟩)

/-- the elements of the document are in each other, among nodes which are not seen; there are `outer` blocks around the table -/
structure FmxDoc.Nested (ns cals : Option String) (outer : Nat) (parent : Option Node) (d : FmxDoc) : Prop where
  corpus : d.corpus.tag? = some ⟨ns, "CORPUS"⟩
  inCorpus : ∃ top bottom, d.corpus.children = top ++ bottom ∧ Among ns cals (d.cols.map (·.node)) top ∧ Lines ns cals outer d.lines bottom
  cols : ∀ c ∈ d.cols, c.node.tag? = some ⟨cals, "colspec"⟩ ∧ NoFmx ns cals c.node.children
  notes : NotesOf ns parent d.corpus (d.notes.map (·.node)) ∧ ∀ l ∈ d.notes, l.sort = .note
  lines : ∀ l ∈ d.lines, l.sort ≠ .note ∧ l.node.tag? = some ⟨ns, l.sort.tag⟩
  rows : ∀ l ∈ d.lines, l.sort = .row → Among ns cals (l.cells.map (·.node)) l.node.children ∧
    ∀ c ∈ l.cells, c.node.tag? = some ⟨ns, "CELL"⟩ ∧ NoFmx ns cals c.node.children
  titles : ∀ l ∈ d.lines, l.sort ≠ .row → NoFmx ns cals l.node.children
  whole : ∀ l ∈ d.all, l.sort ≠ .row → l.cells.map (·.node) = [l.node]

/-- the number told by an attribute, or its default value -/
def ToldNumber (attr : Option String) (default n : Nat) : Prop := (attr = none ∧ n = default) ∨ ∃ s, attr = some s ∧ IsNumber s n

/-- number of columns of a cell: the CALS attributes, if they are there, prevail over `COLSPAN` -/
def CellColumns (colspan namest nameend : Option String) (w : Int) : Prop :=
  ∃ n, ToldNumber colspan 1 n ∧
    ((∃ s e a b, namest = some s ∧ nameend = some e ∧ FirstNumber s a ∧ FirstNumber e b ∧ w = (b : Int) - a + 1) ∨ ((namest = none ∨ nameend = none) ∧ w = n))

/-- number of rows of a cell: the CALS attribute, if it is there, prevails over `ROWSPAN` -/
def CellRows (rowspan morerows : Option String) (h : Int) : Prop :=
  ∃ n, ToldNumber rowspan 1 n ∧ ((∃ s m, morerows = some s ∧ IsNumber s m ∧ h = (m : Int) + 1) ∨ (morerows = none ∧ h = n))

/-- everything which is drawn fills `w` columns and `h` rows without overlapping; each cell is in its line, at the right of those before it, and covers the
columns and the rows which it tells; a title goes from its first column to its last one; a note is as wide as the table -/
structure FmxDoc.Drawn (ns cals : Option String) (w h : Nat) (d : FmxDoc) : Prop where
  height : d.all.length = h
  notEmpty : 1 ≤ w ∧ d.lines ≠ []
  starts : ∀ (i : Nat) (l : DocLine), d.all[i]? = some l → ∀ e ∈ l.drawn, e.2.min.y = (i : Int) + 1
  leftToRight : ∀ l ∈ d.all, l.drawn.Pairwise (fun a b => a.2.min.x < b.2.min.x)
  rows : ∀ l ∈ d.all, l.sort = .row → l.before = [] ∧ ∀ c ∈ l.cells,
    CellColumns (c.node.attr ⟨ns, "COLSPAN"⟩) (c.node.attr ⟨cals, "namest"⟩) (c.node.attr ⟨cals, "nameend"⟩) (c.box.max.x - c.box.min.x + 1) ∧
    CellRows (c.node.attr ⟨ns, "ROWSPAN"⟩) (c.node.attr ⟨cals, "morerows"⟩) (c.box.max.y - c.box.min.y + 1)
  titles : ∀ l ∈ d.lines, l.sort ≠ .row → ∀ c ∈ l.cells, ∃ a b, ToldNumber (l.node.attr ⟨ns, "COL.START"⟩) 1 a ∧ ToldNumber (l.node.attr ⟨ns, "COL.END"⟩) 1 b ∧
    c.box.min.x = a ∧ c.box.max.x = b ∧ c.box.max.y = c.box.min.y ∧ l.before.length + 1 = a
  notes : ∀ l ∈ d.notes, l.before = [] ∧ l.after = [] ∧ ∀ c ∈ l.cells, c.box.min.x = 1 ∧ c.box.max.x = w ∧ c.box.max.y = c.box.min.y
  places : ∀ l ∈ d.all, ∀ b ∈ l.before ++ l.after, b.max = b.min
  valid : ∀ e ∈ d.drawn, 1 ≤ e.2.2.min.x ∧ e.2.2.min.x ≤ e.2.2.max.x ∧ e.2.2.max.x ≤ w ∧ e.2.2.min.y ≤ e.2.2.max.y ∧ e.2.2.max.y ≤ h
  disjoint : d.drawn.Pairwise (fun a b => ¬ Overlap a.2.2 b.2.2)
  full : ∀ p : Coord, 1 ≤ p.x → p.x ≤ w → 1 ≤ p.y → p.y ≤ h → ∃ e ∈ d.drawn, InBox p e.2.2

/-- a line may only be left unfinished when the number of columns is known: a `colspec` tells the last column, or a cell of a line above reaches it -/
def FmxDoc.WidthKnown (w : Nat) (d : FmxDoc) : Prop :=
  ∀ (i : Nat) (l : DocLine), d.all[i]? = some l → l.after ≠ [] →
    (∃ c ∈ d.cols, c.num = w) ∨ ∃ j m c, j < i ∧ d.all[j]? = some m ∧ c ∈ m.cells ∧ c.box.max.x = w

/-- each `colspec` has a column of its own: the number it tells, else its rank among them -/
structure FmxDoc.Columns (cals : Option String) (w : Nat) (d : FmxDoc) : Prop where
  number : ∀ (i : Nat) (c : DocCol), d.cols[i]? = some c →
    (c.node.attr ⟨cals, "colnum"⟩ = none ∨ c.node.attr ⟨cals, "colnum"⟩ = some "") ∧ c.num = i + 1 ∨
    ∃ s, c.node.attr ⟨cals, "colnum"⟩ = some s ∧ IsNumber s c.num
  inside : ∀ c ∈ d.cols, 1 ≤ c.num ∧ c.num ≤ w
  different : d.cols.Pairwise (fun a b => a.num ≠ b.num)

/-! ### what the attributes mean -/

/-- the kinds of rows and cells told by `TYPE` -/
def kindOfType : List (String × String) := [("ALIAS", "header"), ("HEADER", "header"), ("NORMAL", "body"), ("NOTCOL", "body"), ("TOTAL", "body")]

/-- the kind told by a type, if any -/
def toldKind (type : Option String) : Option String :=
  match type with
  | none => none
  | some t => (kindOfType.find? (fun kv => kv.1 = t)).map (·.2)

/-- the kind of a line: a row is a part of the body unless its type says something else -/
def DocLine.kind (ns : Option String) (l : DocLine) : String :=
  match l.sort with
  | .row => (toldKind (l.node.attr ⟨ns, "TYPE"⟩)).getD "body"
  | .title => "body"
  | .subtitle => "body"
  | .note => "footer"

/-- the type of a row or of a cell, which is `NORMAL` if nothing is said -/
def typeOr (type : Option String) : String :=
  match type with
  | none => "NORMAL"
  | some t => if t = "" then "NORMAL" else t

/-- looks of a cell of a row -/
structure CellShown (ns cals : Option String) (row cell : Node) (st : Styles) : Prop where
  same : typeOr (cell.attr ⟨ns, "TYPE"⟩) = typeOr (row.attr ⟨ns, "TYPE"⟩) → Dict.get? st "cellstyle" = none
  own : ∀ t, cell.attr ⟨ns, "TYPE"⟩ = some t → typeOr (some t) ≠ typeOr (row.attr ⟨ns, "TYPE"⟩) → Dict.get? st "cellstyle" = some (.str t)
  lost : cell.attr ⟨ns, "TYPE"⟩ = none → typeOr (row.attr ⟨ns, "TYPE"⟩) ≠ "NORMAL" → Dict.get? st "cellstyle" = some .none
  right : Dict.get? st "x-cell-border-right" = told lines (cell.attr ⟨cals, "colsep"⟩)
  bottom : Dict.get? st "x-cell-border-bottom" = told lines (cell.attr ⟨cals, "rowsep"⟩)
  background : Dict.get? st "background-color" = copied (cell.attr ⟨cals, "bgcolor"⟩)
  valign : Dict.get? st "vertical-align" = told valigns (cell.attr ⟨cals, "valign"⟩)
  align : Dict.get? st "align" = told aligns (cell.attr ⟨cals, "align"⟩)
  others : ∀ k, k ∉ ["cellstyle", "x-cell-border-right", "x-cell-border-bottom", "background-color", "vertical-align", "align"] → Dict.get? st k = none

/-- what the line is called: its tag, its type and the number of blocks around it; a plain row has no name -/
def LineName (ns : Option String) (l : DocLine) (name : Option (List Char)) : Prop :=
  match l.sort with
  | .row => ∃ type level, ((l.node.attr ⟨ns, "TYPE"⟩ = none ∨ l.node.attr ⟨ns, "TYPE"⟩ = some "") ∧ type = [] ∨
        ∃ t, l.node.attr ⟨ns, "TYPE"⟩ = some t ∧ t ≠ "" ∧ type = '-' :: t.toList) ∧
      (l.level = 0 ∧ level = [] ∨ 1 ≤ l.level ∧ level = "-level".toList ++ Nat.toDigits 10 l.level) ∧
      name = if type ++ level = [] then none else some ("ROW".toList ++ type ++ level)
  | s => name = some (s.tag.toList ++ "-level".toList ++ Nat.toDigits 10 l.level)

/-- looks which the CALS attributes tell for a row, a title or a note -/
structure LineLooks (cals : Option String) (n : Node) (st : Styles) : Prop where
  valign : Dict.get? st "vertical-align" = told valigns (n.attr ⟨cals, "valign"⟩)
  bottom : Dict.get? st "border-bottom" = told CalsSpec.lines (n.attr ⟨cals, "rowsep"⟩)
  background : Dict.get? st "background-color" = copied (n.attr ⟨cals, "bgcolor"⟩)
  others : ∀ k, k ∉ ["vertical-align", "border-bottom", "background-color", "rowstyle"] → Dict.get? st k = none

/-- looks of a row or of a title: the attribute `rowstyle` prevails over the name of the line -/
structure LineShown (ns cals : Option String) (l : DocLine) (st : Styles) : Prop where
  looks : LineLooks cals l.node st
  style : ∃ name, LineName ns l name ∧ Dict.get? st "rowstyle" = (copied (l.node.attr ⟨cals, "rowstyle"⟩)).or (name.map (fun s => .str (String.ofList s)))

/-- a cell, a title or a note which contains an `IE` is empty -/
def shownToks (ns : Option String) (n : Node) : List Tok := if ∃ c ∈ n.children, c.tag? = some ⟨ns, "IE"⟩ then [] else insideToks n

/-- what becomes of a place of a line: an empty cell, or the cell, the title or the note which is drawn there -/
structure Shown (ns cals : Option String) (embed : Bool) (l : DocLine) (node : Option Node) (c : Cell Content) : Prop where
  empty : node = none → c.content = none ∧ c.styles = [] ∧ c.nature = some (l.kind ns)
  content : ∀ n, node = some n → contentToks c.content = if l.sort = .note ∧ embed = true then toks n else shownToks ns n
  cell : ∀ n, node = some n → l.sort = .row → c.nature = some ((toldKind (n.attr ⟨ns, "TYPE"⟩)).getD (l.kind ns)) ∧ CellShown ns cals l.node n c.styles
  title : ∀ n, node = some n → l.sort = .title ∨ l.sort = .subtitle → c.nature = some "body" ∧ c.styles = []
  note : ∀ n, node = some n → l.sort = .note → c.nature = some "footer" ∧ LineLooks cals n c.styles ∧ Dict.get? c.styles "rowstyle" = copied (n.attr ⟨cals, "rowstyle"⟩)

/-- looks of a table: the orientation is that of `CORPUS`, else that of the parent element; the frame must be one of those of CALS -/
structure CorpusShown (ns cals : Option String) (parent : Option Node) (corpus : Node) (st : Styles) : Prop where
  frame : FrameShown (corpus.attr ⟨cals, "frame"⟩) st
  right : Dict.get? st "x-cell-border-right" = told CalsSpec.lines (corpus.attr ⟨cals, "colsep"⟩)
  bottom : Dict.get? st "x-cell-border-bottom" = told CalsSpec.lines (corpus.attr ⟨cals, "rowsep"⟩)
  orient : Dict.get? st "x-sect-orient" = (told [("land", "landscape"), ("port", "portrait")] (corpus.attr ⟨cals, "orient"⟩)).or
    (told [("DOUBLE.LANDSCAPE", "landscape"), ("DOUBLE.PORTRAIT", "portrait"), ("SINGLE.LANDSCAPE", "landscape"), ("SINGLE.PORTRAIT", "portrait")]
      (parent.bind (fun p => p.attr ⟨ns, "PAGE.SIZE"⟩)))
  columns : Dict.get? st "x-sect-cols" = told [("0", "2"), ("1", "1")] (corpus.attr ⟨cals, "pgwide"⟩)
  background : Dict.get? st "background-color" = copied (corpus.attr ⟨cals, "bgcolor"⟩)

/-- nature of a table: the class of the parent element, then the style -/
def CorpusNature (cls tabstyle nature : Option String) : Prop :=
  ((tabstyle = none ∨ tabstyle = some "") ∧ nature = cls) ∨
  ∃ s, tabstyle = some s ∧ s ≠ "" ∧ (((cls = none ∨ cls = some "") ∧ nature = some s) ∨
    ∃ c n, cls = some c ∧ c ≠ "" ∧ nature = some n ∧ n.toList = c.toList ++ '-' :: s.toList)

end Benker.FmxSpec
