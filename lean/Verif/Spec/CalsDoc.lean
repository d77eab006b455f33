import Verif.Spec.Digits
import Verif.Spec.Cals
import Verif.Spec.Grid

/-! Specification of the CALS tables: a document, where its entries are drawn, and what its attributes mean. -/

namespace Benker.CalsSpec

/-- no element of these nodes is a CALS element (of the namespace `ns`) -/
def NoCals (ns : Option String) (nodes : List Node) : Prop :=
  ∀ t a, Tok.opening t a ∈ toksList nodes → t.ns = ns → t.name ∉ ["table", "tgroup", "colspec", "thead", "tfoot", "tbody", "row", "entry"]

/-- `all` lists the nodes `picked` in this order, and nodes without any CALS element -/
inductive Holds (ns : Option String) : List Node → List Node → Prop
  | nil : Holds ns [] []
  | take (n : Node) (picked all : List Node) (h : Holds ns picked all) : Holds ns (n :: picked) (n :: all)
  | skip (n : Node) (picked all : List Node) (hn : NoCals ns [n]) (h : Holds ns picked all) : Holds ns picked (n :: all)

/-- number of columns of an entry whose attributes are `namest` and `nameend` -/
def SpansColumns (namest nameend : Option String) (w : Int) : Prop :=
  (namest = none ∧ nameend = none ∧ w = 1) ∨
  ∃ s e a b, namest = some s ∧ nameend = some e ∧ FirstNumber s a ∧ FirstNumber e b ∧ w = (b : Int) - a + 1

/-- number of rows of an entry whose attribute is `morerows` -/
def SpansRows (morerows : Option String) (h : Int) : Prop :=
  (morerows = none ∧ h = 1) ∨ ∃ s m, morerows = some s ∧ IsNumber s m ∧ h = (m : Int) + 1

/-- an entry and the rectangle where it is drawn -/
structure DocEntry where
  node : Node
  box : Box

/-- a row and its entries -/
structure DocRow where
  node : Node
  entries : List DocEntry

/-- a `thead`, `tbody` or `tfoot` and its rows -/
structure DocBody where
  node : Node
  rows : List DocRow

/-- a `colspec` and the number of its column -/
structure DocCol where
  node : Node
  num : Nat

/-- a table: its elements -/
structure CalsDoc where
  table : Node
  tgroup : Node
  cols : List DocCol
  bodies : List DocBody

/-- the rows of a document and the `thead`, `tbody` or `tfoot` of each -/
def CalsDoc.rows (d : CalsDoc) : List (Node × DocRow) := d.bodies.flatMap (fun b => b.rows.map (fun r => (b.node, r)))

/-- the entries of a document, with their `thead`, `tbody` or `tfoot` -/
def CalsDoc.entries (d : CalsDoc) : List (Node × DocEntry) := d.rows.flatMap (fun r => r.2.entries.map (fun e => (r.1, e)))

/-- the elements of the document are in each other, among nodes without CALS elements -/
structure CalsDoc.Nested (ns : Option String) (d : CalsDoc) : Prop where
  table : d.table.tag? = some ⟨ns, "table"⟩
  inTable : Holds ns [d.tgroup] d.table.children
  tgroup : d.tgroup.tag? = some ⟨ns, "tgroup"⟩
  inTgroup : Holds ns (d.cols.map (·.node) ++ d.bodies.map (·.node)) d.tgroup.children
  cols : ∀ c ∈ d.cols, c.node.tag? = some ⟨ns, "colspec"⟩ ∧ NoCals ns c.node.children
  bodies : ∀ b ∈ d.bodies, (∃ name ∈ ["thead", "tbody", "tfoot"], b.node.tag? = some ⟨ns, name⟩) ∧ Holds ns (b.rows.map (·.node)) b.node.children
  rows : ∀ r ∈ d.rows, r.2.node.tag? = some ⟨ns, "row"⟩ ∧ Holds ns (r.2.entries.map (·.node)) r.2.node.children
  entries : ∀ e ∈ d.entries, e.2.node.tag? = some ⟨ns, "entry"⟩ ∧ NoCals ns e.2.node.children

/-- the rectangles of the entries fill `w` columns and `h` rows without overlapping; each entry starts in its row, at the right of the entries before it,
and covers the columns and the rows which it tells -/
structure CalsDoc.Drawn (ns : Option String) (w h : Nat) (d : CalsDoc) : Prop where
  height : d.rows.length = h
  notEmpty : 1 ≤ w ∧ 1 ≤ h
  starts : ∀ (i : Nat) (r : Node × DocRow), d.rows[i]? = some r → ∀ e ∈ r.2.entries, e.box.min.y = (i : Int) + 1
  leftToRight : ∀ r ∈ d.rows, r.2.entries.Pairwise (fun a b => a.box.min.x < b.box.min.x)
  spans : ∀ e ∈ d.entries, SpansColumns (e.2.node.attr ⟨ns, "namest"⟩) (e.2.node.attr ⟨ns, "nameend"⟩) (e.2.box.max.x - e.2.box.min.x + 1) ∧
    SpansRows (e.2.node.attr ⟨ns, "morerows"⟩) (e.2.box.max.y - e.2.box.min.y + 1)
  valid : ∀ e ∈ d.entries, 1 ≤ e.2.box.min.x ∧ e.2.box.min.x ≤ e.2.box.max.x ∧ e.2.box.max.x ≤ w ∧ e.2.box.min.y ≤ e.2.box.max.y ∧ e.2.box.max.y ≤ h
  disjoint : d.entries.Pairwise (fun a b => ¬ Overlap a.2.box b.2.box)
  full : ∀ p : Coord, 1 ≤ p.x → p.x ≤ w → 1 ≤ p.y → p.y ≤ h → ∃ e ∈ d.entries, InBox p e.2.box

/-- each `colspec` has a column of its own: the number it tells, else its rank among them -/
structure CalsDoc.Columns (ns : Option String) (w : Nat) (d : CalsDoc) : Prop where
  number : ∀ (i : Nat) (c : DocCol), d.cols[i]? = some c →
    (c.node.attr ⟨ns, "colnum"⟩ = none ∨ c.node.attr ⟨ns, "colnum"⟩ = some "") ∧ c.num = i + 1 ∨
    ∃ s, c.node.attr ⟨ns, "colnum"⟩ = some s ∧ IsNumber s c.num
  inside : ∀ c ∈ d.cols, 1 ≤ c.num ∧ c.num ≤ w
  different : d.cols.Pairwise (fun a b => a.num ≠ b.num)

/-! ### what the attributes mean -/

/-- the value told by an attribute among the values which are known -/
def told (known : List (String × String)) (attr : Option String) : Option StyleVal :=
  match attr with
  | none => none
  | some s => (known.find? (fun kv => kv.1 = s)).map (fun kv => .str kv.2)

/-- an attribute which is copied, unless it is empty -/
def copied (attr : Option String) : Option StyleVal :=
  match attr with
  | none => none
  | some s => if s = "" then none else some (.str s)

def lines : List (String × String) := [("0", "none"), ("1", "solid 1pt black")]
def valigns : List (String × String) := [("top", "top"), ("middle", "middle"), ("bottom", "bottom")]
def aligns : List (String × String) := [("left", "left"), ("right", "right"), ("center", "center"), ("justify", "justify"), ("char", "left")]

/-- the kind of the rows of a `thead`, a `tbody` or a `tfoot` -/
def KindOf (body : Node) (kind : String) : Prop :=
  ∃ t, body.tag? = some t ∧ (t.name, kind) ∈ [("thead", "header"), ("tbody", "body"), ("tfoot", "footer")]

/-- looks of a row: the vertical alignment is that of the row, else that of its `thead`, `tbody` or `tfoot` -/
structure RowShown (ns : Option String) (body row : Node) (st : Styles) : Prop where
  valign : Dict.get? st "vertical-align" = (told valigns (row.attr ⟨ns, "valign"⟩)).or (told valigns (body.attr ⟨ns, "valign"⟩))
  bottom : Dict.get? st "border-bottom" = told lines (row.attr ⟨ns, "rowsep"⟩)
  background : Dict.get? st "background-color" = copied (row.attr ⟨ns, "bgcolor"⟩)
  style : Dict.get? st "rowstyle" = copied (row.attr ⟨ns, "rowstyle"⟩)
  others : ∀ k, k ∉ ["vertical-align", "border-bottom", "background-color", "rowstyle"] → Dict.get? st k = none

/-- looks of a column -/
structure ColShown (ns : Option String) (colspec : Node) (st : Styles) : Prop where
  right : Dict.get? st "border-right" = told lines (colspec.attr ⟨ns, "colsep"⟩)
  bottom : Dict.get? st "border-bottom" = told lines (colspec.attr ⟨ns, "rowsep"⟩)
  width : Dict.get? st "width" = copied (colspec.attr ⟨ns, "colwidth"⟩)
  align : Dict.get? st "align" = told aligns (colspec.attr ⟨ns, "align"⟩)
  others : ∀ k, k ∉ ["border-right", "border-bottom", "width", "align"] → Dict.get? st k = none

/-- looks of a cell -/
structure EntryShown (ns : Option String) (entry : Node) (st : Styles) : Prop where
  right : Dict.get? st "border-right" = told lines (entry.attr ⟨ns, "colsep"⟩)
  bottom : Dict.get? st "border-bottom" = told lines (entry.attr ⟨ns, "rowsep"⟩)
  background : Dict.get? st "background-color" = copied (entry.attr ⟨ns, "bgcolor"⟩)
  valign : Dict.get? st "vertical-align" = told valigns (entry.attr ⟨ns, "valign"⟩)
  align : Dict.get? st "align" = told aligns (entry.attr ⟨ns, "align"⟩)
  style : Dict.get? st "cellstyle" = copied (entry.attr ⟨ns, "cellstyle"⟩)
  empty : Dict.get? st "x-cell-empty" = if insideToks entry = [] then some (.str "true") else none
  others : ∀ k, k ∉ ["border-right", "border-bottom", "background-color", "vertical-align", "align", "cellstyle", "x-cell-empty"] → Dict.get? st k = none

/-- the sides of the frame of a table: top, bottom, left, right -/
def frames : List (String × List Bool) :=
  [("none", [false, false, false, false]), ("all", [true, true, true, true]), ("topbot", [true, true, false, false]),
   ("sides", [false, false, true, true]), ("top", [true, false, false, false]), ("bottom", [false, true, false, false])]

/-- the four borders of a table -/
def FrameShown (frame : Option String) (st : Styles) : Prop :=
  ((frame = none ∨ frame = some "") ∧ ∀ k ∈ ["border-top", "border-bottom", "border-left", "border-right"], Dict.get? st k = none) ∨
  ∃ f a b c e, frame = some f ∧ (f, [a, b, c, e]) ∈ frames ∧
    Dict.get? st "border-top" = some (.str (if a then "solid 1pt black" else "none")) ∧
    Dict.get? st "border-bottom" = some (.str (if b then "solid 1pt black" else "none")) ∧
    Dict.get? st "border-left" = some (.str (if c then "solid 1pt black" else "none")) ∧
    Dict.get? st "border-right" = some (.str (if e then "solid 1pt black" else "none"))

/-- looks of a table: the lines between the cells are those told by `tgroup`, else those told by `table` -/
structure TableShown (ns : Option String) (rewrite : List Char → Except PyErr (List Char)) (table tgroup : Node) (st : Styles) : Prop where
  frame : FrameShown (table.attr ⟨ns, "frame"⟩) st
  right : Dict.get? st "x-cell-border-right" = (told lines (tgroup.attr ⟨ns, "colsep"⟩)).or (told lines (table.attr ⟨ns, "colsep"⟩))
  bottom : Dict.get? st "x-cell-border-bottom" = (told lines (tgroup.attr ⟨ns, "rowsep"⟩)).or (told lines (table.attr ⟨ns, "rowsep"⟩))
  orient : Dict.get? st "x-sect-orient" = told [("land", "landscape"), ("port", "portrait")] (table.attr ⟨ns, "orient"⟩)
  columns : Dict.get? st "x-sect-cols" = told [("0", "2"), ("1", "1")] (table.attr ⟨ns, "pgwide"⟩)
  background : Dict.get? st "background-color" = copied (table.attr ⟨ns, "bgcolor"⟩)
  noWidth : table.attr ⟨ns, "width"⟩ = none ∨ table.attr ⟨ns, "width"⟩ = some "" → Dict.get? st "width" = none
  width : ∀ s, table.attr ⟨ns, "width"⟩ = some s → s ≠ "" → ∃ w, rewrite s.toList = .ok w ∧ Dict.get? st "width" = some (.str (String.ofList w))

/-- nature of a table: `tgroupstyle` replaces the last word of `tabstyle` -/
def TableNature (tabstyle tgroupstyle nature : Option String) : Prop :=
  ((tgroupstyle = none ∨ tgroupstyle = some "") ∧ (tabstyle = none ∨ tabstyle = some "") ∧ nature = none) ∨
  (∃ s, (tgroupstyle = none ∨ tgroupstyle = some "") ∧ tabstyle = some s ∧ s ≠ "" ∧ nature = some s) ∨
  (∃ g, tgroupstyle = some g ∧ g ≠ "" ∧ (tabstyle = none ∨ tabstyle = some "") ∧ nature = some g) ∨
  ∃ g s ws last n, tgroupstyle = some g ∧ g ≠ "" ∧ tabstyle = some s ∧ s ≠ "" ∧ Words s.toList (ws ++ [last]) ∧ nature = some n ∧
    n.toList = [' '].intercalate (ws ++ [g.toList])

end Benker.CalsSpec

namespace Benker.CalsSpec

/-- `child` is a child of `parent` inside the table `root`, and not inside a table which is in it (of the namespace `ns`) -/
inductive InTable (ns : Option String) (root : Node) : Node → Node → Prop
  | child (c : Node) (h : c ∈ root.children) : InTable ns root root c
  | deeper (p q c : Node) (h : InTable ns root p q) (hq : q.tag? ≠ some ⟨ns, "table"⟩) (hc : c ∈ q.children) : InTable ns root q c

/-- a table which follows the rules of CALS, as far as the parser looks at it -/
structure Regular (ns : Option String) (root : Node) : Prop where
  frame : ∀ f, root.attr ⟨ns, "frame"⟩ = some f → f ≠ "" → f ∈ frames.map (·.1)
  colspecs : ∀ p c, InTable ns root p c → c.tag? = some ⟨ns, "colspec"⟩ → ∃ t, p.tag? = some t ∧ t.name ∈ ["table", "tgroup"]
  colnums : ∀ p c s, InTable ns root p c → c.tag? = some ⟨ns, "colspec"⟩ → c.attr ⟨ns, "colnum"⟩ = some s → s ≠ "" → ∃ n, IsInteger s n
  rows : ∀ p c, InTable ns root p c → c.tag? = some ⟨ns, "row"⟩ → ∃ t, p.tag? = some t ∧ t.name ∈ ["thead", "tbody", "tfoot"]
  numbered : ∀ p c a s, InTable ns root p c → c.tag? = some ⟨ns, "entry"⟩ → a ∈ ["namest", "nameend"] → c.attr ⟨ns, a⟩ = some s → ∃ k, FirstNumber s k
  columns : ∀ p c s e, InTable ns root p c → c.tag? = some ⟨ns, "entry"⟩ → c.attr ⟨ns, "namest"⟩ = some s → c.attr ⟨ns, "nameend"⟩ = some e →
    ∃ a b, FirstNumber s a ∧ FirstNumber e b ∧ a ≤ b
  morerows : ∀ p c s, InTable ns root p c → c.tag? = some ⟨ns, "entry"⟩ → c.attr ⟨ns, "morerows"⟩ = some s → ∃ n, IsInteger s n ∧ 0 ≤ n

end Benker.CalsSpec
