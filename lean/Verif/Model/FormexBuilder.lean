import Verif.Model.Digits
import Verif.Model.CalsBuilder
import Verif.Model.Parser

/-! Model of `/repo/benker/builders/formex.py`: row styles, and the tree generated for a table (`generate_table_tree`).

Simplifications: as for the CALS builder, a value which is not a string is refused (`TypeError`) when it is put in the attributes, not when
`lxml` creates the element; namespace prefixes are not modelled; moving a node from a cell to the tree is not modelled, nodes are values. -/

namespace Benker.Fmx
open Benker.Units

/-- `RowInfo` (formex.py 68) -/
structure RowInfo where
  tag : String
  type : Option String
  level : Nat
deriving DecidableEq, Repr

/-- `(?:pre(a))?`: the captured text, if any, and the rest; greedy (the pattern of builders/formex.py 74-82) -/
def capOpt (pre : List Char) (a : Re) (s : List Char) : List (Option (List Char) × List Char) :=
  (Re.lit pre s).flatMap (fun m => (a m.2).map (fun n => (some n.1, n.2))) ++ [(none, s)]

/-- `$`: the end of the text, or its last line feed (the pattern of builders/formex.py 74-82) -/
def atEnd (s : List Char) : Bool := s = [] || s = ['\n']

/-- the first group of the pattern (builders/formex.py 74-82) -/
def tags : List String := ["ROW", "TI.BLK", "STI.BLK"]
/-- the second group of the pattern (builders/formex.py 74-82) -/
def types : List String := ["ALIAS", "HEADER", "NORMAL", "NOTCOL", "TOTAL"]

/-- `a|b|...` for literal texts (the pattern of builders/formex.py 74-82) -/
def words (l : List String) : Re := Re.alts (l.map (fun w => Re.lit w.toList))

/-- the matches of the regular expression (formex.py 74-82): groups 1, 2 and 3. -/
def rowMatches (s : List Char) : List (List Char × Option (List Char) × Option (List Char)) :=
  (words tags s).flatMap (fun m1 =>
    (capOpt "-".toList (words types) m1.2).flatMap (fun m2 =>
      ((capOpt "-level".toList (Re.plus Unicode.isDigit) m2.2).filter (fun m3 => atEnd m3.2)).map (fun m3 => (m1.1, m2.1, m3.1))))

/-- `guess_row_info(rowstyle)` (formex.py 71-88) -/
def guessRowInfo : Option String → RowInfo
  | none => ⟨"ROW", none, 0⟩
  | some s =>
    match rowMatches s.toList with
    | [] => ⟨"ROW", none, 0⟩
    | (tag, type, level) :: _ => ⟨String.ofList tag, type.map String.ofList, match level with | none => 0 | some l => Unicode.value l⟩

/-- options of the builder (formex.py 98-152); `fl` is the floating point arithmetic -/
structure Config where
  detectTitles : Bool
  useCals : Bool
  calsNs : Option String
  widthUnit : List Char
  fl : Rat → Rat

/-- the part of the options which the functions shared with the CALS builder look at (builders/formex.py 350-417) -/
def Config.cals (cfg : Config) : Cals.Config := ⟨cfg.calsNs, cfg.widthUnit, false, [], cfg.fl⟩

/-- `cals(name)` (formex.py 160-161) -/
def Config.q (cfg : Config) (name : String) : QName := ⟨cfg.calsNs, name⟩

/-- a Formex name: no namespace (formex.py 163-165) -/
def f (name : String) : QName := ⟨none, name⟩

/-- `u"{:04d}".format(n)` (builders/formex.py 225) -/
def pad4 (n : Nat) : List Char := List.replicate (4 - (Coord.natDigits n).length) '0' ++ Coord.natDigits n

/-- `(size[0] <= 649 and size[1] <= 918) or (size[0] <= 918 and size[1] <= 649)` (formex.py 234) -/
def smallPage (w h : Int) : Bool := (w ≤ 649 && h ≤ 918) || (w ≤ 918 && h ≤ 649)

/-- `orient_page_sizes` (formex.py 234-237) -/
def pageSizes (small : Bool) : List (String × String) :=
  if small then [("landscape", "SINGLE.LANDSCAPE")] else [("landscape", "DOUBLE.LANDSCAPE"), ("portrait", "DOUBLE.PORTRAIT")]

/-- `if orient in orient_page_sizes: attrs["PAGE.SIZE"] = orient_page_sizes[orient]` (formex.py 238-240) -/
def orientSize (small : Bool) : StyleVal → Option String
  | .str o => Dict.get? (pageSizes small) o
  | _ => none

/-- is the page not bigger than A4 (formex.py 231-234)?  A4 by default -/
def smallSize : Option StyleVal → Except PyErr Bool
  | none => .ok (smallPage 595 842)
  | some (.pair w h) => .ok (smallPage w h)
  | some _ => .error .typeError

/-- `@PAGE.SIZE` (formex.py 230-240).  Simplification: a size which is not a pair raises `TypeError`. -/
def pageSize (styles : Styles) : Except PyErr (Option String) :=
  match Dict.get? styles "x-sect-orient" with
  | none => .ok none
  | some orient => do
    let small ← smallSize (Dict.get? styles "x-sect-size")
    pure (orientSize small orient)

/-- attributes of `<TBL>` (formex.py 221-240) -/
def tblAttrs (noSeq nbCols : Nat) (styles : Styles) : Except PyErr (Dict QName String) := do
  let size ← pageSize styles
  let attrs := [(f "NO.SEQ", String.ofList (pad4 noSeq)), (f "COLS", Cals.intStr nbCols)]
  pure (match size with
    | none => attrs
    | some s => Dict.set attrs (f "PAGE.SIZE") s)

/-- is the cell empty? (formex.py 330-333, 628-631) -/
def isEmpty (cell : Cell Content) : Bool :=
  Dict.get? cell.styles "x-cell-empty" = some (.str "true") ||
  match cell.content with
  | none => true
  | some (.text s) => s = ""
  | _ => false

/-- `<IE/>` (builders/formex.py 336, 635) -/
def ieElem : Node := .elem (f "IE") [] none [] none

/-- `list(cell.content)` for a content which is not a text (formex.py 344): a list, or the children of an element -/
def paragraphs : Option Content → Except PyErr (List (Option Content))
  | some (.seq l) => .ok l
  | some (.node n) => .ok (n.children.map (fun c => some (.node c)))
  | _ => .error .typeError

/-- an item which is appended to an element must be a node (builders/formex.py 344-348) -/
def asNode : Option Content → Except PyErr Node
  | some (.node n) => .ok n
  | _ => .error .typeError

/-- the elements of a title made for a cell (formex.py 328-348) -/
def titleCell (cell : Cell Content) : Except PyErr (List Node) :=
  if isEmpty cell then .ok [.elem (f "TI") [] none [ieElem] none]
  else
    match cell.content with
    | some (.text s) => .ok [.elem (f "TI") [] none [.elem (f "P") [] (some s) [] none] none]
    | c => do
      let l ← paragraphs c
      match l with
      | [] => .error .indexError
      | p :: ps => do
        let first ← asNode p
        let others ← ps.mapM asNode
        pure [.elem (f "TI") [] none [first] none, .elem (f "STI") [] none others none]

/-- `build_title` (formex.py 305-348) -/
def buildTitle (row : View Content) : Except PyErr Node := do
  let l ← row.owned.mapM titleCell
  pure (.elem (f "TITLE") [] none l.flatten none)

/-- is the first row a title? (formex.py 268-274); `c` is the cell at the top-left corner -/
def isTitle (bb : Option Box) (c : Cell Content) : Except PyErr Bool :=
  match bb with
  | none => .error .attributeError
  | some bb => .ok (c.width = bb.width && Dict.get? c.styles "align" = some (.str "center"))

/-- attributes of `<CORPUS>` (formex.py 265, 276-293) -/
def corpusAttrs (cfg : Config) (t : Table Content) : Except PyErr (Dict QName String) :=
  if cfg.useCals then do
    let styles := t.styles
    let frame ← Cals.getFrameAttr styles
    let colsep ← Cals.defaultSep styles "x-cell-border-right"
    let rowsep ← Cals.defaultSep styles "x-cell-border-bottom"
    let attrs := [(cfg.q "frame", frame), (cfg.q "colsep", colsep), (cfg.q "rowsep", rowsep)]
    let attrs := match t.nature with
      | some n => Dict.set attrs (cfg.q "tabstyle") n
      | none => attrs
    let attrs ← Cals.addAttr cfg.cals styles "x-sect-orient" "orient" (Cals.lookup [("landscape", "land"), ("portrait", "port")]) attrs
    let attrs ← Cals.addAttr cfg.cals styles "x-sect-cols" "pgwide" (fun v => .ok (if v = .str "1" then "1" else "0")) attrs
    let attrs ← Cals.addAttr cfg.cals styles "background-color" "bgcolor" Cals.attrValue attrs
    Cals.addAttr cfg.cals styles "width" "width" (Cals.widthAttr cfg.cals) attrs
  else pure []

/-- `build_colspec` (formex.py 350-417): the same as that of the CALS builder -/
def buildColspec (cfg : Config) (colsep rowsep : String) (col : View Content) : Except PyErr Node := do
  let attrs := [(cfg.q "colnum", Cals.intStr col.pos), (cfg.q "colname", "c" ++ Cals.intStr col.pos)]
  let attrs ← Cals.addAttr cfg.cals col.styles "width" "colwidth" (Cals.widthAttr cfg.cals) attrs
  let attrs := match Dict.get? col.styles "align" with
    | some (.str a) =>
      (match Dict.get? Cals.alignMap a with
      | some v => Dict.set attrs (cfg.q "align") v
      | none => attrs)
    | _ => attrs
  let attrs ← Cals.addSep cfg.cals col.styles "border-right" "colsep" colsep attrs
  let attrs ← Cals.addSep cfg.cals col.styles "border-bottom" "rowsep" rowsep attrs
  pure (.elem (cfg.q "colspec") attrs none [] none)

/-- `@TYPE` of a row (formex.py 457-460) -/
def rowType (nature : Option String) : Option String :=
  if nature = some "header" then some "HEADER" else if nature = some "footer" then some "__GR.NOTES__" else none

/-- `@TYPE` of a cell (formex.py 572-575); a nature outside the dictionary raises `KeyError` -/
def cellType (nature rowNature : Option String) : Except PyErr (Option String) :=
  match nature with
  | none => .ok none
  | some n =>
    if n = "" ∨ nature = rowNature then .ok none
    else if n = "header" then .ok (some "HEADER")
    else if n = "body" then .ok (some "NORMAL")
    else if n = "footer" then .ok (some "__GR.NOTES__")
    else .error .keyError

/-- `if value is known: attrs[name] = value` (as in builders/formex.py 458-460) -/
def optAttr (name : QName) (v : Option String) (attrs : Dict QName String) : Dict QName String :=
  match v with
  | none => attrs
  | some s => Dict.set attrs name s

/-- attributes of `<ROW>` (formex.py 456-481) -/
def rowAttrs (cfg : Config) (rowsep : String) (row : View Content) : Except PyErr (Dict QName String) := do
  let attrs := optAttr (f "TYPE") (rowType row.nature) []
  if cfg.useCals then do
    let attrs ← Cals.addAttr cfg.cals row.styles "vertical-align" "valign"
      (Cals.lookup [("top", "top"), ("middle", "middle"), ("bottom", "bottom"), ("baseline", "bottom")]) attrs
    let attrs ← Cals.addSep cfg.cals row.styles "border-bottom" "rowsep" rowsep attrs
    let attrs ← Cals.addAttr cfg.cals row.styles "rowstyle" "rowstyle" Cals.attrValue attrs
    Cals.addAttr cfg.cals row.styles "background-color" "bgcolor" Cals.attrValue attrs
  else pure attrs

/-- `if "cellstyle" in cell_styles: attrs["TYPE"] = cell_styles["cellstyle"]` (formex.py 621-624) -/
def addCellStyle (styles : Styles) (attrs : Dict QName String) : Except PyErr (Dict QName String) :=
  match Dict.get? styles "cellstyle" with
  | none => .ok attrs
  | some v => do let s ← Cals.attrValue v; pure (Dict.set attrs (f "TYPE") s)

/-- the CALS-like attributes of `<CELL>` (formex.py 581-624); `bb` is the bounding box of the table -/
def cellCalsAttrs (cfg : Config) (colsep rowsep : String) (bb : Box) (cell : Cell Content) (attrs : Dict QName String) :
    Except PyErr (Dict QName String) := do
  let styles := cell.styles
  let attrs ← Cals.addSepIf (cell.box.max.x ≠ bb.max.x) cfg.cals styles "border-right" "colsep" colsep attrs
  let attrs ← Cals.addSepIf (cell.box.max.y ≠ bb.max.y) cfg.cals styles "border-bottom" "rowsep" rowsep attrs
  let attrs ← Cals.addAttr cfg.cals styles "vertical-align" "valign"
    (Cals.lookup [("top", "top"), ("middle", "middle"), ("bottom", "bottom"), ("baseline", "bottom"), ("w-both", "bottom")]) attrs
  let attrs ← Cals.addAttr cfg.cals styles "align" "align" (Cals.lookup Cals.alignMap) attrs
  let attrs := if cell.width > 1 then
      Dict.set (Dict.set attrs (cfg.q "namest") ("c" ++ Cals.intStr cell.box.min.x)) (cfg.q "nameend") ("c" ++ Cals.intStr cell.box.max.x)
    else attrs
  let attrs := if cell.height > 1 then Dict.set attrs (cfg.q "morerows") (Cals.intStr (cell.height - 1)) else attrs
  let attrs ← Cals.addAttr cfg.cals styles "background-color" "bgcolor" Cals.attrValue attrs
  addCellStyle styles attrs

/-- attributes of `<CELL>` (formex.py 571-624) -/
def cellAttrs (cfg : Config) (colsep rowsep : String) (bb : Option Box) (cell : Cell Content) (rowNature : Option String) :
    Except PyErr (Dict QName String) := do
  let type ← cellType cell.nature rowNature
  let attrs := optAttr (f "TYPE") type [(f "COL", Cals.intStr cell.box.min.x)]
  let attrs := if cell.width > 1 then Dict.set attrs (f "COLSPAN") (Cals.intStr cell.width) else attrs
  let attrs := if cell.height > 1 then Dict.set attrs (f "ROWSPAN") (Cals.intStr cell.height) else attrs
  if cfg.useCals then
    match bb with
    | none => .error .attributeError
    | some bb => cellCalsAttrs cfg colsep rowsep bb cell attrs
  else pure attrs

/-- `build_cell` (formex.py 510-637): an empty cell contains `<IE/>` -/
def buildCell (cfg : Config) (colsep rowsep : String) (bb : Option Box) (rowNature : Option String) (cell : Cell Content) : Except PyErr Node := do
  let attrs ← cellAttrs cfg colsep rowsep bb cell rowNature
  if isEmpty cell then pure (.elem (f "CELL") attrs none [ieElem] none)
  else do
    let e ← CellElem.append ⟨none, []⟩ cell.content
    pure (.elem (f "CELL") attrs e.text e.children none)

/-- `build_row` (formex.py 419-507): the row element, between its revision marks if it is marked as inserted -/
def buildRow (cfg : Config) (colsep rowsep : String) (bb : Option Box) (row : View Content) : Except PyErr (List Node) := do
  let attrs ← rowAttrs cfg rowsep row
  let cells ← row.owned.mapM (buildCell cfg colsep rowsep bb row.nature)
  let elem := Node.elem (f "ROW") attrs none cells none
  if Dict.has row.styles "x-ins" then do
    let id ← Cals.revAttr row.styles "x-ins-id" "change-id" (fun v => .ok ("ct" ++ Cals.formatVal v))
    let author ← Cals.revAttr row.styles "x-ins-author" "creator" Cals.attrValue
    let date ← Cals.revAttr row.styles "x-ins-date" "date" Cals.attrValue
    pure [Cals.revisionMark "change-start" ([("type", "row:insertion")] ++ id ++ author ++ date), elem,
      Cals.revisionMark "change-end" ([("type", "row:insertion")] ++ id)]
  else pure [elem]

/-- the title, if any, and the rows which remain (formex.py 266-274); `first` is the cell at the top-left corner -/
def splitTitle (cfg : Config) (bb : Option Box) (first : Except PyErr (Cell Content)) (rows : List (View Content)) :
    Except PyErr (List Node × List (View Content)) :=
  if cfg.detectTitles then do
    let c ← first
    let yes ← isTitle bb c
    if yes then
      match rows with
      | [] => .error .indexError
      | r :: rs => do
        let title ← buildTitle r
        pure ([title], rs)
    else pure ([], rows)
  else pure ([], rows)

/-- separators of the table: `"0"` unless CALS-like attributes are generated (formex.py 181-182, 280-281) -/
def tableSep (cfg : Config) (styles : Styles) (key : String) : Except PyErr String :=
  if cfg.useCals then Cals.defaultSep styles key else .ok "0"

/-- `build_corpus` (formex.py 247-303), the title included -/
def buildCorpus (cfg : Config) (t : Table Content) (bb : Option Box) (first : Except PyErr (Cell Content)) (cols rows : List (View Content)) :
    Except PyErr (List Node) := do
  let (title, rows) ← splitTitle cfg bb first rows
  let attrs ← corpusAttrs cfg t
  let colsep ← tableSep cfg t.styles "x-cell-border-right"
  let rowsep ← tableSep cfg t.styles "x-cell-border-bottom"
  let colspecs ← if cfg.useCals then cols.mapM (buildColspec cfg colsep rowsep) else pure []
  let nodes ← rows.mapM (buildRow cfg colsep rowsep bb)
  pure (title ++ [.elem (f "CORPUS") attrs none (colspecs ++ nodes.flatten) none])

/-- `build_tbl` on a table whose views are known (formex.py 185-245); `noSeq` is the number of the table -/
def buildTree (cfg : Config) (noSeq : Nat) (t : Table Content) (bb : Option Box) (first : Except PyErr (Cell Content))
    (cols rows : List (View Content)) : Except PyErr Node := do
  let attrs ← tblAttrs noSeq cols.length t.styles
  let nodes ← buildCorpus cfg t bb first cols rows
  pure (.elem (f "TBL") attrs none nodes none)

/-- `generate_table_tree(table)` (formex.py 167-177), for the table number `noSeq` given to this builder -/
def generate (cfg : Config) (noSeq : Nat) : PyM (Table Content) Node := do
  let cols ← Table.views .col
  let rows ← Table.views .row
  let t ← PyM.get
  let bb ← PyM.lift t.boundingBox
  PyM.lift (buildTree cfg noSeq t bb (t.getItem (.coord ⟨1, 1⟩)) cols rows)

end Benker.Fmx
