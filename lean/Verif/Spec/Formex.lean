import Verif.Model.FormexBuilder
import Verif.Spec.CalsDoc

/-! Vocabulary of the properties about Formex. -/

namespace Benker.FmxSpec

/-- value of a text of decimal digits, of any script, most significant first -/
def number (digits : List Char) : Nat := digits.foldl (fun n c => 10 * n + (Unicode.decimal c).getD 0) 0

/-- the grammar of row styles: a tag, then an optional type, then an optional level, then an optional line feed (`$` accepts it) -/
structure IsRowStyle (s : String) (tag : String) (type : Option String) (level : Option String) : Prop where
  tag_mem : tag ∈ ["ROW", "TI.BLK", "STI.BLK"]
  type_mem : ∀ t, type = some t → t ∈ ["ALIAS", "HEADER", "NORMAL", "NOTCOL", "TOTAL"]
  level_digits : ∀ l, level = some l → l ≠ "" ∧ ∀ c ∈ l.toList, CalsSpec.IsDigit c
  text : ∃ stop, (stop = "" ∨ stop = "\n") ∧ s = tag ++ (type.map ("-" ++ ·)).getD "" ++ (level.map ("-level" ++ ·)).getD "" ++ stop

/-- a Formex name, which has no namespace -/
def name (s : String) : QName := ⟨none, s⟩

mutual
/-- what there is in a node, the blocks being opened: the nodes with the number of blocks around them, in document order -/
def inBlocks (level : Nat) : Node → List (Nat × Node)
  | .elem t a x cs tl => if t = name "BLK" then inBlocksList (level + 1) cs else [(level, .elem t a x cs tl)]
  | n => [(level, n)]
def inBlocksList (level : Nat) : List Node → List (Nat × Node)
  | [] => []
  | n :: ns => inBlocks level n ++ inBlocksList level ns
end

/-- the level of each child of a `CORPUS`, where `levelOf` is the level of a row; a processing instruction takes that of the preceding row -/
def levels (levelOf : Node → Nat) : Nat → List Node → List Nat
  | _, [] => []
  | cur, .pi _ _ _ :: ns => cur :: levels levelOf cur ns
  | _, n :: ns => levelOf n :: levels levelOf (levelOf n) ns

/-- the cells of a row -/
def cells (row : Node) : List Node := row.children.filter (fun c => c.tag? = some (name "CELL"))

/-- a cell which has some text, or an element `IE` -/
def Filled (cell : Node) : Prop := cell.innerText ≠ "" ∨ ∃ c ∈ cell.children, c.tag? = some (name "IE")

/-- a row `n` which is `row`, itself and its cells having received a type if there is one -/
structure RowKept (type : Option String) (row n : Node) : Prop where
  tag : n.tag? = row.tag?
  text : n.text = row.text
  tail : n.tail = row.tail
  attrs : ∀ k, n.attr k = if k = name "TYPE" ∧ type.isSome ∧ row.tag?.isSome then type else row.attr k
  children : n.children.length = row.children.length ∧ ∀ (i : Nat) (c d : Node), row.children[i]? = some c → n.children[i]? = some d →
    d.tag? = c.tag? ∧ d.text = c.text ∧ d.children = c.children ∧ d.tail = c.tail ∧
    ∀ k, d.attr k = if k = name "TYPE" ∧ type.isSome ∧ c.tag? = some (name "CELL") then type else c.attr k

/-- the columns of a title: those told by the CALS names of the columns of its cell, `i` being the rank of this cell -/
def TitleColumns (ns : Option String) (i : Nat) (c : Node) (start stop : Nat) : Prop :=
  (∃ s e, c.attr ⟨ns, "namest"⟩ = some s ∧ c.attr ⟨ns, "nameend"⟩ = some e ∧ s ≠ "" ∧ e ≠ "" ∧ CalsSpec.FirstNumber s start ∧ CalsSpec.FirstNumber e stop) ∨
  ((c.attr ⟨ns, "namest"⟩ = none ∨ c.attr ⟨ns, "nameend"⟩ = none ∨ c.attr ⟨ns, "namest"⟩ = some "" ∨ c.attr ⟨ns, "nameend"⟩ = some "") ∧
    start = i + 1 ∧ stop = i + 1)

/-- a title `n` made of the first filled cell of a row (the first cell if none is filled); the cells are looked at in `raw`, and taken in `row`.
The title has the attributes of the row, except its type, and tells its columns. -/
structure TitleOf (ns : Option String) (tag : String) (raw row n : Node) : Prop where
  tag : n.tag? = some (name tag)
  tail : n.tail = none
  content : ∃ (i : Nat) (cell : Node) (start stop : Nat), (cells row)[i]? = some cell ∧ n.text = cell.text ∧ n.children = cell.children ∧
    ((∃ c : Node, (cells raw)[i]? = some c ∧ Filled c ∧ (∀ (j : Nat) (d : Node), j < i → (cells raw)[j]? = some d → ¬ Filled d) ∧
        TitleColumns ns i c start stop) ∨
      (i = 0 ∧ (∀ c ∈ cells raw, ¬ Filled c) ∧ start = 1 ∧ stop = 1)) ∧
    ((row.attrs.map (·.1)).Nodup → n.attr (name "TYPE") = none ∧ ∀ k, k ≠ name "TYPE" → n.attr k = (row.attr k).or
      (if k = name "COL.START" then some (Cals.intStr start) else if k = name "COL.END" then some (Cals.intStr stop) else none))

mutual
/-- the tables of a node which are not inside another table of this node, in document order -/
def topTables : Node → List Node
  | .elem t a x cs tl => if t = name "TBL" then [.elem t a x cs tl] else topTablesList cs
  | _ => []
def topTablesList : List Node → List Node
  | [] => []
  | n :: ns => topTables n ++ topTablesList ns
end

mutual
/-- all the tables of a node, in document order -/
def allTables : Node → List Node
  | .elem t a x cs tl => if t = name "TBL" then .elem t a x cs tl :: allTablesList cs else allTablesList cs
  | _ => []
def allTablesList : List Node → List Node
  | [] => []
  | n :: ns => allTables n ++ allTablesList ns
end

mutual
/-- the node, where the tables have lost their number -/
def withoutNumbers : Node → Node
  | .elem t a x cs tl => .elem t (if t = name "TBL" then a.filter (fun p => p.1 ≠ name "NO.SEQ") else a) x (withoutNumbersList cs) tl
  | n => n
def withoutNumbersList : List Node → List Node
  | [] => []
  | n :: ns => withoutNumbers n :: withoutNumbersList ns
end

/-- a number in four digits at least -/
def fourDigits (n : Nat) : String := String.ofList (List.replicate (4 - (Nat.toDigits 10 n).length) '0' ++ Nat.toDigits 10 n)

/-- the text of a hierarchical number: `0001.0002` -/
def seqText : List Nat → String
  | [] => ""
  | [n] => fourDigits n
  | n :: m :: l => fourDigits n ++ "." ++ seqText (m :: l)

/-- the order of hierarchical numbers: the number of a table comes before those of the tables inside it, then the components are compared -/
def SeqBefore (p q : List Nat) : Prop :=
  (∃ d, d ≠ [] ∧ q = p ++ d) ∨ ∃ c i j p' q', p = c ++ i :: p' ∧ q = c ++ j :: q' ∧ i < j

end Benker.FmxSpec

namespace Benker.FmxSpec
open CalsSpec Cals

/-- a cell which is written as empty: without content, with an empty text, or marked as empty -/
def WrittenEmpty (c : Cell Content) : Prop :=
  c.content = none ∨ c.content = some (.text "") ∨ Dict.get? c.styles "x-cell-empty" = some (.str "true")

/-- the types which stand for natures; `__GR.NOTES__` is a provisional one -/
def typeOfNature (nature : String) : Option String :=
  if nature = "header" then some "HEADER" else if nature = "body" then some "NORMAL" else if nature = "footer" then some "__GR.NOTES__" else none

/-- the type of a cell: that of its nature, unless it has none or that of its row -/
def typeOfCell (nature rowNature : Option String) : Option String :=
  if nature = rowNature then none else nature.bind typeOfNature

/-- the type of a row: a row is `NORMAL` unless something else is said -/
def typeOfRow (nature : Option String) : Option String := if nature = some "body" then none else nature.bind typeOfNature

/-- the text which is written for a cell: nothing if the cell is marked as empty -/
def writtenText (c : Cell Content) : List Char :=
  if Dict.get? c.styles "x-cell-empty" = some (.str "true") then [] else (Content.text? c.content).toList

/-- the `<CELL>` element of a cell `c` of a row of nature `rowNature`; the CALS attributes are there if `cals` is true, in the namespace `ns` -/
structure CellFor (cals : Bool) (ns : Option String) (rowNature : Option String) (c : Cell Content) (e : Node) : Prop where
  tag : e.tag? = some (name "CELL")
  tail : e.tail = none
  col : e.attr (name "COL") = some (intStr c.min.x)
  oneColumn : c.min.x = c.max.x → e.attr (name "COLSPAN") = none ∧ e.attr ⟨ns, "namest"⟩ = none ∧ e.attr ⟨ns, "nameend"⟩ = none
  columns : c.min.x ≠ c.max.x → e.attr (name "COLSPAN") = some (intStr (c.max.x - c.min.x + 1)) ∧
    (cals = true → e.attr ⟨ns, "namest"⟩ = some ("c" ++ intStr c.min.x) ∧ e.attr ⟨ns, "nameend"⟩ = some ("c" ++ intStr c.max.x))
  oneRow : c.min.y = c.max.y → e.attr (name "ROWSPAN") = none ∧ e.attr ⟨ns, "morerows"⟩ = none
  rows : c.min.y ≠ c.max.y → e.attr (name "ROWSPAN") = some (intStr (c.max.y - c.min.y + 1)) ∧
    (cals = true → e.attr ⟨ns, "morerows"⟩ = some (intStr (c.max.y - c.min.y)))
  type : cals = false ∨ Dict.get? c.styles "cellstyle" = none → e.attr (name "TYPE") = typeOfCell c.nature rowNature
  styled : ∀ v, cals = true → Dict.get? c.styles "cellstyle" = some v → ∃ s, v = .str s ∧ e.attr (name "TYPE") = some s
  known : c.nature = none ∨ c.nature = some "" ∨ c.nature = rowNature ∨ c.nature ∈ [some "header", some "body", some "footer"]
  plain : cals = false → ∀ k, e.attr k ≠ none → k ∈ ["COL", "COLSPAN", "ROWSPAN", "TYPE"].map name
  empty : WrittenEmpty c → e.text = none ∧ ∃ ie, e.children = [ie] ∧ ie = .elem (name "IE") [] none [] none
  content : ¬ WrittenEmpty c → insideToks e = contentToks c.content
  text : charsOf (insideToks e) = writtenText c

/-- the nodes written for a row: a `<ROW>` with one `<CELL>` per cell, between two processing instructions if the row is marked as inserted -/
def RowFor (cals : Bool) (ns : Option String) (r : View Content) (nodes : List Node) : Prop :=
  ∃ row, (nodes = [row] ∧ Dict.has r.styles "x-ins" = false ∨
      ∃ d1 d2, nodes = [.pi "change-start" d1 none, row, .pi "change-end" d2 none] ∧ Dict.has r.styles "x-ins" = true ∧ RowMarks r.styles d1 d2) ∧
    row.tag? = some (name "ROW") ∧ row.text = none ∧ row.tail = none ∧ row.attr (name "TYPE") = typeOfRow r.nature ∧
    All₂ (CellFor cals ns r.nature) r.owned row.children

/-- the first row is a title: the cell of the top left corner is as wide as the table, and centered -/
def HasTitle (t : Table Content) : Prop :=
  ∃ c bb, t.getItem (.coord ⟨1, 1⟩) = .ok c ∧ t.boundingBox = .ok (some bb) ∧ c.max.x - c.min.x = bb.max.x - bb.min.x ∧
    Dict.get? c.styles "align" = some (.str "center")

/-- the elements written for a cell of the title: an empty one, a paragraph, or a title followed by a subtitle -/
def TitleCellFor (c : Cell Content) (nodes : List Node) : Prop :=
  (WrittenEmpty c → nodes = [.elem (name "TI") [] none [.elem (name "IE") [] none [] none] none]) ∧
  (¬ WrittenEmpty c →
    (∀ s, c.content = some (.text s) → nodes = [.elem (name "TI") [] none [.elem (name "P") [] (some s) [] none] none]) ∧
    (∀ l, c.content = some (.seq l) → ∃ n ns, l = (n :: ns).map (fun x => some (.node x)) ∧
      nodes = [.elem (name "TI") [] none [n] none, .elem (name "STI") [] none ns none]) ∧
    (∀ e, c.content = some (.node e) → ∃ n ns, e.children = n :: ns ∧
      nodes = [.elem (name "TI") [] none [n] none, .elem (name "STI") [] none ns none]))

/-- the element written for the row of the title -/
def TitleFor (r : View Content) (e : Node) : Prop :=
  ∃ parts, e = .elem (name "TITLE") [] none (List.flatten parts) none ∧ All₂ TitleCellFor r.owned parts

/-- the size of the page; `none` stands for an A4 page in portrait -/
def PageSizeFor (styles : Styles) (v : Option String) : Prop :=
  (Dict.get? styles "x-sect-orient" = none → v = none) ∧
  ∀ o, Dict.get? styles "x-sect-orient" = some o → ∃ w h : Int, (Dict.get? styles "x-sect-size" = none ∧ w = 595 ∧ h = 842 ∨
      Dict.get? styles "x-sect-size" = some (.pair w h)) ∧
    (w ≤ 649 ∧ h ≤ 918 ∨ w ≤ 918 ∧ h ≤ 649 → v = if o = .str "landscape" then some "SINGLE.LANDSCAPE" else none) ∧
    (¬ (w ≤ 649 ∧ h ≤ 918 ∨ w ≤ 918 ∧ h ≤ 649) → v = if o = .str "landscape" then some "DOUBLE.LANDSCAPE" else
      if o = .str "portrait" then some "DOUBLE.PORTRAIT" else none)

end Benker.FmxSpec
