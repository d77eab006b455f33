import Verif.Model.Table
import Verif.Model.Xml
import Verif.Model.Units

/-! Model of `/repo/benker/builders/cals.py`.

Simplifications: a value which is not a string is refused (`TypeError`) when it is put in the attributes, not when `lxml` creates the element;
namespace prefixes are not modelled (`_register_namespace`, cals.py 138-155). -/

namespace Benker.Cals
open Benker.Units

/-- truth value of a style (`if value`, as in builders/cals.py 360) -/
def truthy : StyleVal → Bool
  | .none => false
  | .str s => s ≠ ""
  | .bool b => b
  | .int i => i ≠ 0
  | .pair _ _ => true

/-- `parts.split(" ") if parts else []` (cals.py 34-35); only strings have a method `split` -/
def borderParts : Option StyleVal → Except PyErr (List (List Char))
  | none => .ok []
  | some v =>
    if truthy v then
      match v with
      | .str s => .ok (splitChar ' ' s.toList)
      | _ => .error .attributeError
    else .ok []

/-- the test on each part (cals.py 38): neither a size nor a colour -/
def isKeyword (part : List Char) : Bool :=
  !(['p', 't'].isSuffixOf part) && part ≠ ['a', 'u', 't', 'o'] && !(['#'].isPrefixOf part)

/-- `_get_border_style(styles, style)` (cals.py 33-40) -/
def getBorderStyle (styles : Styles) (style : String) : Except PyErr (Option (List Char)) :=
  match borderParts (Dict.get? styles style) with
  | .error e => .error e
  | .ok parts => .ok (parts.foldl (fun value part => if isKeyword part then some part else value) none)

/-- the border style `none` (builders/cals.py 46-47, 63, 68) -/
def noneText : List Char := ['n', 'o', 'n', 'e']

/-- `(_get_border_style(styles, style) or u"none") != u"none"` (cals.py 46-47) -/
def hasBorder (styles : Styles) (style : String) : Except PyErr Bool :=
  match getBorderStyle styles style with
  | .error e => .error e
  | .ok none => .ok false
  | .ok (some v) => .ok (v ≠ [] && v ≠ noneText)

/-- `get_frame_attr(styles)` (cals.py 43-58) -/
def getFrameAttr (styles : Styles) : Except PyErr String := do
  let top ← hasBorder styles "border-top"
  let right ← hasBorder styles "border-right"
  let bottom ← hasBorder styles "border-bottom"
  let left ← hasBorder styles "border-left"
  pure (match top, bottom, left, right with
    | true, true, true, true => "all"
    | true, true, false, false => "topbot"
    | false, false, true, true => "sides"
    | true, false, false, false => "top"
    | false, true, false, false => "bottom"
    | _, _, _, _ => "none")

/-- `get_colsep_attr(styles, style)` and `get_rowsep_attr(styles, style)` (cals.py 61-68) -/
def getSepAttr (styles : Styles) (style : String) : Except PyErr (Option String) :=
  match getBorderStyle styles style with
  | .error e => .error e
  | .ok none => .ok none
  | .ok (some v) => .ok (some (if v = noneText then "0" else "1"))

/-- options of the builder (cals.py 83-136); `fl` is the floating point arithmetic -/
structure Config where
  ns : Option String
  widthUnit : List Char
  tableInTgroup : Bool
  tgroupSorting : List String
  fl : Rat → Rat

/-- `{nature: index for index, nature in enumerate(tgroup_sorting)}` (cals.py 132) -/
def sortingDict (l : List String) : Dict String Int :=
  (l.zipIdx).foldl (fun d p => Dict.set d p.1 (p.2 : Int)) []

/-- `tgroup_sorting or tgroup_sorting_default` (cals.py 130-131) -/
def sortingOption : Option (List String) → List String
  | none => ["header", "footer", "body"]
  | some [] => ["header", "footer", "body"]
  | some l => l

/-- `CalsBuilder(cals_ns, ..., tgroup_sorting)` (cals.py 83-136): an empty list of natures stands for the default one -/
def Config.new (ns : Option String) (widthUnit : List Char) (tableInTgroup : Bool) (sorting : Option (List String)) (fl : Rat → Rat) :
    Except PyErr Config :=
  if ["header", "footer", "body"].all (fun n => Dict.has (sortingDict (sortingOption sorting)) n) then
    .ok ⟨if ns = some "" then none else ns, widthUnit, tableInTgroup, sortingOption sorting, fl⟩
  else .error .valueError

/-- `cals(name)` (cals.py 231) -/
def Config.q (cfg : Config) (name : String) : QName := ⟨cfg.ns, name⟩

/-- value of an attribute: `lxml` accepts strings only (`etree.Element(…, attrib=attrs)`, builders/cals.py 250) -/
def attrValue : StyleVal → Except PyErr String
  | .str s => .ok s
  | _ => .error .typeError

/-- `u"{value:0.2f}{unit}".format(...)` after `parse_width` and `convert_value` (cals.py 246-248, 349-351) -/
def widthAttr (cfg : Config) : StyleVal → Except PyErr String
  | .str s => do let w ← rewriteWidth cfg.fl cfg.widthUnit s.toList; pure (String.ofList w)
  | _ => .error .typeError

/-- `table[key]` for a literal dictionary of strings (as in builders/cals.py 240) -/
def lookup (table : List (String × String)) : StyleVal → Except PyErr String
  | .str s =>
    match Dict.get? table s with
    | some v => .ok v
    | none => .error .keyError
  | _ => .error .keyError

/-- `if key in styles: attrs[cals(name)] = f(styles[key])` (as in builders/cals.py 243-244) -/
def addAttr (cfg : Config) (styles : Styles) (key name : String) (f : StyleVal → Except PyErr String) (attrs : Dict QName String) :
    Except PyErr (Dict QName String) :=
  match Dict.get? styles key with
  | none => .ok attrs
  | some v =>
    match f v with
    | .error e => .error e
    | .ok s => .ok (Dict.set attrs (cfg.q name) s)

/-- `if sep and sep != default: attrs[cals(name)] = sep` (cals.py 359-365, 441-443, 531-538) -/
def addSep (cfg : Config) (styles : Styles) (key name default : String) (attrs : Dict QName String) : Except PyErr (Dict QName String) :=
  match getSepAttr styles key with
  | .error e => .error e
  | .ok none => .ok attrs
  | .ok (some s) => .ok (if s ≠ default then Dict.set attrs (cfg.q name) s else attrs)

/-- the same under a condition (cals.py 530-538) -/
def addSepIf (cond : Bool) (cfg : Config) (styles : Styles) (key name default : String) (attrs : Dict QName String) :
    Except PyErr (Dict QName String) :=
  if cond then addSep cfg styles key name default attrs else .ok attrs

/-- `get_colsep_attr(styles) or "0"` (cals.py 235-236, 288-289) -/
def defaultSep (styles : Styles) (key : String) : Except PyErr String :=
  match getSepAttr styles key with
  | .error e => .error e
  | .ok none => .ok "0"
  | .ok (some s) => .ok s

/-- `str(i)` (as in builders/cals.py 345) -/
def intStr (i : Int) : String := String.ofList (Coord.intDigits i)

/-- attributes of `<table>` (cals.py 233-248) -/
def tableAttrs (cfg : Config) (t : Table Content) : Except PyErr (Dict QName String) := do
  let styles := t.styles
  let frame ← getFrameAttr styles
  let attrs := [(cfg.q "frame", frame)]
  let attrs ←
    if cfg.tableInTgroup then pure attrs
    else do
      let colsep ← defaultSep styles "x-cell-border-right"
      let rowsep ← defaultSep styles "x-cell-border-bottom"
      let attrs := Dict.set (Dict.set attrs (cfg.q "colsep") colsep) (cfg.q "rowsep") rowsep
      pure (match t.nature with
        | some n => Dict.set attrs (cfg.q "tabstyle") n
        | none => attrs)
  let attrs ← addAttr cfg styles "x-sect-orient" "orient" (lookup [("landscape", "land"), ("portrait", "port")]) attrs
  let attrs ← addAttr cfg styles "x-sect-cols" "pgwide" (fun v => .ok (if v = .str "1" then "1" else "0")) attrs
  let attrs ← addAttr cfg styles "background-color" "bgcolor" attrValue attrs
  addAttr cfg styles "width" "width" (widthAttr cfg) attrs

/-- attributes of `<tgroup>` (cals.py 286-291) -/
def tgroupAttrs (cfg : Config) (t : Table Content) (nbCols : Nat) : Except PyErr (Dict QName String) := do
  let attrs := [(cfg.q "cols", intStr nbCols)]
  if cfg.tableInTgroup then do
    let colsep ← defaultSep t.styles "x-cell-border-right"
    let rowsep ← defaultSep t.styles "x-cell-border-bottom"
    let attrs := Dict.set (Dict.set attrs (cfg.q "colsep") colsep) (cfg.q "rowsep") rowsep
    pure (match t.nature with
      | some n => Dict.set attrs (cfg.q "tgroupstyle") n
      | none => attrs)
  else pure attrs

/-- `align_map` (cals.py 355, 552-557) -/
def alignMap : List (String × String) := [("left", "left"), ("right", "right"), ("center", "center"), ("justify", "justify")]

/-- `build_colspec` (cals.py 305-367); `colsep`/`rowsep` are those of the table -/
def buildColspec (cfg : Config) (colsep rowsep : String) (col : View Content) : Except PyErr Node := do
  let attrs := [(cfg.q "colnum", intStr col.pos), (cfg.q "colname", "c" ++ intStr col.pos)]
  let attrs ← addAttr cfg col.styles "width" "colwidth" (widthAttr cfg) attrs
  let attrs := match Dict.get? col.styles "align" with
    | some (.str a) =>
      (match Dict.get? alignMap a with
      | some v => Dict.set attrs (cfg.q "align") v
      | none => attrs)
    | _ => attrs
  let attrs ← addSep cfg col.styles "border-right" "colsep" colsep attrs
  let attrs ← addSep cfg col.styles "border-bottom" "rowsep" rowsep attrs
  pure (.elem (cfg.q "colspec") attrs none [] none)

/-- attributes of `<entry>` (cals.py 527-568); `bb` is the bounding box of the table -/
def entryAttrs (cfg : Config) (colsep rowsep : String) (bb : Box) (cell : Cell Content) : Except PyErr (Dict QName String) := do
  let styles := cell.styles
  let attrs := []
  let attrs ← addSepIf (cell.box.max.x ≠ bb.max.x) cfg styles "border-right" "colsep" colsep attrs
  let attrs ← addSepIf (cell.box.max.y ≠ bb.max.y) cfg styles "border-bottom" "rowsep" rowsep attrs
  let attrs ← addAttr cfg styles "vertical-align" "valign"
    (lookup [("top", "top"), ("middle", "middle"), ("bottom", "bottom"), ("baseline", "bottom"), ("w-both", "bottom")]) attrs
  let attrs ← addAttr cfg styles "align" "align" (lookup alignMap) attrs
  let attrs := if cell.width > 1 then
      Dict.set (Dict.set attrs (cfg.q "namest") ("c" ++ intStr cell.box.min.x)) (cfg.q "nameend") ("c" ++ intStr cell.box.max.x)
    else attrs
  let attrs := if cell.height > 1 then Dict.set attrs (cfg.q "morerows") (intStr (cell.height - 1)) else attrs
  let attrs ← addAttr cfg styles "background-color" "bgcolor" attrValue attrs
  addAttr cfg styles "cellstyle" "cellstyle" attrValue attrs

/-- `build_cell` (cals.py 476-571) -/
def buildCell (cfg : Config) (colsep rowsep : String) (bb : Option Box) (cell : Cell Content) : Except PyErr Node :=
  match bb with
  | none => .error .attributeError
  | some bb => do
    let attrs ← entryAttrs cfg colsep rowsep bb cell
    let f ← CellElem.append ⟨none, []⟩ cell.content
    pure (.elem (cfg.q "entry") attrs f.text f.children none)

/-- attributes of `<row>` (cals.py 428-447) -/
def rowAttrs (cfg : Config) (rowsep : String) (row : View Content) : Except PyErr (Dict QName String) := do
  let attrs ← addAttr cfg row.styles "vertical-align" "valign"
    (lookup [("top", "top"), ("middle", "middle"), ("bottom", "bottom"), ("baseline", "bottom")]) []
  let attrs ← addSep cfg row.styles "border-bottom" "rowsep" rowsep attrs
  addAttr cfg row.styles "rowstyle" "rowstyle" attrValue attrs

/-- escape of an attribute value by the XML serialiser (`etree.tounicode`, builders/cals.py 72) -/
def escapeChar : Char → List Char
  | '&' => "&amp;".toList
  | '<' => "&lt;".toList
  | '>' => "&gt;".toList
  | '"' => "&quot;".toList
  | '\n' => "&#10;".toList
  | '\t' => "&#9;".toList
  | '\r' => "&#13;".toList
  | c => [c]

/-- `revision_mark(name, attrs)` (cals.py 71-75): the serialised attributes, as the data of a processing instruction -/
def revisionMark (name : String) (attrs : List (String × String)) : Node :=
  .pi name (" ".intercalate (attrs.map (fun p => p.1 ++ "=\"" ++ String.ofList (p.2.toList.flatMap escapeChar) ++ "\""))) none

/-- `"ct{0}".format(value)` (builders/cals.py 454, 468) -/
def formatVal : StyleVal → String
  | .none => "None"
  | .str s => s
  | .bool true => "True"
  | .bool false => "False"
  | .int i => intStr i
  | .pair a b => "(" ++ intStr a ++ ", " ++ intStr b ++ ")"

/-- the optional attribute of a revision mark (cals.py 453-458, 467-468) -/
def revAttr (styles : Styles) (key name : String) (f : StyleVal → Except PyErr String) : Except PyErr (List (String × String)) :=
  match Dict.get? styles key with
  | none => .ok []
  | some v =>
    match f v with
    | .error e => .error e
    | .ok s => .ok [(name, s)]

/-- `build_row` (cals.py 386-473): the row element, between its revision marks if it is marked as inserted -/
def buildRow (cfg : Config) (colsep rowsep : String) (bb : Option Box) (row : View Content) : Except PyErr (List Node) := do
  let attrs ← rowAttrs cfg rowsep row
  let entries ← row.owned.mapM (buildCell cfg colsep rowsep bb)
  let elem := Node.elem (cfg.q "row") attrs none entries none
  if Dict.has row.styles "x-ins" then do
    let id ← revAttr row.styles "x-ins-id" "change-id" (fun v => .ok ("ct" ++ formatVal v))
    let author ← revAttr row.styles "x-ins-author" "creator" attrValue
    let date ← revAttr row.styles "x-ins-date" "date" attrValue
    pure [revisionMark "change-start" ([("type", "row:insertion")] ++ id ++ author ++ date), elem,
      revisionMark "change-end" ([("type", "row:insertion")] ++ id)]
  else pure [elem]

/-- `build_tbody` (cals.py 369-384) -/
def buildTbody (cfg : Config) (colsep rowsep : String) (bb : Option Box) (tag : String) (rows : List (View Content)) : Except PyErr Node := do
  let elems ← rows.mapM (buildRow cfg colsep rowsep bb)
  pure (.elem (cfg.q tag) [] none elems.flatten none)

/-- `self.tgroup_sorting.get(nature, self.tgroup_sorting["body"])` (cals.py 298) -/
def rank (cfg : Config) (nature : Option String) : Int :=
  let d := sortingDict cfg.tgroupSorting
  let body := (Dict.get? d "body").getD 0
  match nature with
  | none => body
  | some n => (Dict.get? d n).getD body

/-- insertion in a sorted list, before the first element of same or greater key (for `sorted`, builders/cals.py 298) -/
def insertBy (key : α → Int) (a : α) : List α → List α
  | [] => [a]
  | b :: l => if key a ≤ key b then a :: b :: l else b :: insertBy key a l

/-- Python `sorted(items, key=key)`, which is stable (builders/cals.py 298) -/
def sortedBy (key : α → Int) : List α → List α
  | [] => []
  | a :: l => insertBy key a (sortedBy key l)

/-- `group_tags.get(nature, group_tags["body"])` (cals.py 299-301) -/
def groupTag (nature : Option String) : String :=
  if nature = some "header" then "thead" else if nature = some "footer" then "tfoot" else "tbody"

/-- nature of a group of rows: that of its first row (builders/cals.py 296) -/
def groupNature (rows : List (View Content)) : Option String :=
  match rows with
  | [] => none
  | r :: _ => r.nature

/-- the groups of rows, in the order of the output (cals.py 296-298) -/
def rowGroups (cfg : Config) (rows : List (View Content)) : List (List (View Content)) :=
  sortedBy (fun g => rank cfg (groupNature g)) (groupBy (fun r : View Content => r.nature) rows)

/-- `build_tgroup` (cals.py 254-302) -/
def buildTgroup (cfg : Config) (t : Table Content) (bb : Option Box) (cols rows : List (View Content)) (colsep rowsep : String) : Except PyErr Node := do
  let attrs ← tgroupAttrs cfg t cols.length
  let colspecs ← cols.mapM (buildColspec cfg colsep rowsep)
  let groups ← (rowGroups cfg rows).mapM (fun g => buildTbody cfg colsep rowsep bb (groupTag (groupNature g)) g)
  pure (.elem (cfg.q "tgroup") attrs none (colspecs ++ groups) none)

/-- `build_table` on a table whose views are known (cals.py 175-252).  `_table_colsep` and `_table_rowsep` are set by `build_table`
or by `build_tgroup`, before any use, to the same value. -/
def buildTree (cfg : Config) (t : Table Content) (bb : Option Box) (cols rows : List (View Content)) : Except PyErr Node := do
  let attrs ← tableAttrs cfg t
  let colsep ← defaultSep t.styles "x-cell-border-right"
  let rowsep ← defaultSep t.styles "x-cell-border-bottom"
  let tgroup ← buildTgroup cfg t bb cols rows colsep rowsep
  pure (.elem (cfg.q "table") attrs none [tgroup] none)

/-- `generate_table_tree(table)` (cals.py 157-167): reading `table.cols` and `table.rows` may create the views -/
def generate (cfg : Config) : PyM (Table Content) Node := do
  let cols ← Table.views .col
  let rows ← Table.views .row
  let t ← PyM.get
  let bb ← PyM.lift t.boundingBox
  PyM.lift (buildTree cfg t bb cols rows)

end Benker.Cals
