import Verif.Model.CalsParser
import Verif.Model.OoxmlBorders

/-! Model of `/repo/benker/parsers/ooxml/` (`__init__.py`, `namespaces.py`, `types.py`, `w_shd.py`, `w_pg_sz.py`).

Simplifications: the view kept in `state.row` is `table.rows[state.row_pos]` at the time it is used; style identifiers contain no
quotation mark (they are written inside a XPath expression, line 747); `node.tail = None` (line 1117) changes the nodes of the content, not
the source document. -/

namespace Benker.Ooxml
open PyM Units

/-- What the parser depends on: `float(text)`, the rounding of the result of a floating point operation, the text of a floating point number
(`"{0}".format(x)`), the recursion limit of Python, and the stylesheet (`self._w_styles`). (parsers/ooxml/__init__.py 773-796) -/
structure Config where
  float : String → Except PyErr Rat
  fl : Rat → Rat
  repr : Rat → String
  limit : Nat
  styles : Option Node

/-- `NS['w']` (namespaces.py 11) -/
def wNs : String := "http://schemas.openxmlformats.org/wordprocessingml/2006/main"

/-- `w(name)` (namespaces.py 14-18) -/
def w (name : String) : QName := ⟨some wNs, name⟩

/-- nodes selected by a relative path of child elements, in document order; each step accepts some names (`value_of`, parsers/base_parser.py 87-108) -/
def select (path : List (List String)) (n : Node) : List Node :=
  path.foldl (fun ns names => ns.flatMap (fun m => m.children.filter (fun c => c.tag? ∈ names.map (fun x => some (w x))))) [n]

/-- `value_of(element, "w:a/w:b")` (base_parser.py 87-108) -/
def nodeOf (n : Option Node) (path : List (List String)) : Option Node :=
  match n with
  | none => none
  | some n => (select path n).head?

/-- `value_of(element, "w:a/@w:attr")` (base_parser.py 87-108) -/
def attrOf (n : Option Node) (path : List (List String)) (attr : String) : Option String :=
  match n with
  | none => none
  | some n => (select path n).findSome? (fun m => m.attr (w attr))

/-! ### borders -/

/-- properties of a border (`prop`, parsers/ooxml/__init__.py 615-633) -/
structure Border where
  color : Option String
  shadow : Option Bool
  space : Option Rat
  sz : Option Rat
  val : Option String

/-- `value` if it is not empty (as in parsers/ooxml/__init__.py 616-618) -/
def nonEmpty (v : Option String) : Option String :=
  match v with
  | none => none
  | some s => if s = "" then none else some s

/-- `if text: prop[key] = f(text)` (as in parsers/ooxml/__init__.py 622-629) -/
def optM (f : String → Except PyErr α) (v : Option String) : Except PyErr (Option α) :=
  match nonEmpty v with
  | none => .ok none
  | some s => (f s).map some

/-- `{"true": True, "false": False}[shadow]` (parsers/ooxml/__init__.py 621) -/
def pyBool (s : String) : Except PyErr Bool :=
  match Dict.get? [("true", true), ("false", false)] s with
  | some b => .ok b
  | none => .error .keyError

/-- the style of a border (parsers/ooxml/__init__.py 631-632) -/
def borderVal (v : String) : String :=
  let v := if v = "nil" then "none" else v
  match Dict.get? borderStyleMapping v with
  | some s => s
  | none => "w-" ++ v

/-- `if color and color != "auto": prop['color'] = "#" + color` (parsers/ooxml/__init__.py 616-618) -/
def borderColor (v : Option String) : Option String :=
  match nonEmpty v with
  | none => none
  | some c => if c = "auto" then none else some ("#" ++ c)

/-- body of the loop of `_get_border_properties` (parsers/ooxml/__init__.py 614-634): the properties of the border elements of some names -/
def borderProps (cfg : Config) (borders : Node) (names : List String) : Except PyErr Border := do
  let get (attr : String) := attrOf (some borders) [names] attr
  let shadow ← optM pyBool (get "shadow")
  let space ← optM cfg.float (get "space")
  let sz ← optM (fun s => (cfg.float s).map (fun x => cfg.fl (x / 8))) (get "sz")
  let val := (nonEmpty (get "val")).map borderVal
  pure ⟨borderColor (get "color"), shadow, space, sz, val⟩

/-- the value of a border style: `" ".join(values)`, if there is one (parsers/ooxml/__init__.py 650-654) -/
def borderText (cfg : Config) (b : Border) : Option String :=
  let values := b.val.toList ++ (b.sz.map (fun x => cfg.repr x ++ "pt")).toList ++ b.color.toList
  if values.isEmpty then none else some (" ".intercalate values)

/-- `if values: styles[style] = ...` (parsers/ooxml/__init__.py 653-654) -/
def putBorder (cfg : Config) (st : Styles) (p : String × Border) : Styles :=
  match borderText cfg p.2 with
  | none => st
  | some s => Dict.set st p.1 (.str s)

/-- `styles[style] = ...` for each border (parsers/ooxml/__init__.py 648-654) -/
def setBorders (cfg : Config) (props : List (String × Border)) : Styles := props.foldl (putBorder cfg) []

/-- `border-collapse` and `border-spacing` (parsers/ooxml/__init__.py 656-666) -/
def setSpacing (cfg : Config) (props : List (String × Border)) (st : Styles) : Styles :=
  if props.any (fun p => p.2.space.isSome) then
    if props.all (fun p => p.2.space.getD 0 = 0) then Dict.set st "border-collapse" (.str "collapse")
    else
      Dict.set (Dict.set st "border-collapse" (.str "separate")) "border-spacing"
        (.str (" ".intercalate (props.map (fun p => (match p.2.space with
          | none => "0"
          | some x => cfg.repr x) ++ "pt"))))
  else st

/-- one value of `box-shadow` (parsers/ooxml/__init__.py 672) -/
def shadowText (cfg : Config) (b : Border) : Except PyErr String :=
  if b.shadow = some true then
    match b.sz with
    | none => .error .keyError
    | some x => .ok (cfg.repr x ++ "pt")
  else .ok "0ptpt"

/-- `box-shadow` (parsers/ooxml/__init__.py 668-673) -/
def setShadow (cfg : Config) (props : List (String × Border)) (st : Styles) : Except PyErr Styles :=
  if props.any (fun p => p.2.shadow = some true) then do
    let l ← props.mapM (fun p => shadowText cfg p.2)
    pure (Dict.set st "box-shadow" (.str (" ".intercalate l)))
  else .ok st

/-- `_border_properties_to_styles` (parsers/ooxml/__init__.py 638-675) -/
def bordersToStyles (cfg : Config) (props : List (String × Border)) : Except PyErr Styles :=
  setShadow cfg props (setSpacing cfg props (setBorders cfg props))

/-- `_get_border_properties` then `_border_properties_to_styles` (parsers/ooxml/__init__.py 712-714, 739-741) -/
def bordersOf (cfg : Config) (mapping : List (String × List String)) (borders : Option Node) : Except PyErr Styles :=
  match borders with
  | none => .ok []
  | some b => do
    let props ← mapping.mapM (fun m => (borderProps cfg b m.2).map (fun p => (m.1, p)))
    bordersToStyles cfg props

/-- `_get_table_borders` (parsers/ooxml/__init__.py 678-714) -/
def tableBorders (cfg : Config) : Option Node → Except PyErr Styles :=
  bordersOf cfg [("border-top", ["top"]), ("border-right", ["end", "right"]), ("border-bottom", ["bottom"]),
    ("border-left", ["start", "left"]), ("x-border-tr2bl", ["tr2bl"]), ("x-border-tl2br", ["tl2br"])]

/-- `_get_cell_borders` (parsers/ooxml/__init__.py 717-741) -/
def cellBorders (cfg : Config) : Option Node → Except PyErr Styles :=
  bordersOf cfg [("border-top", ["insideH"]), ("border-right", ["insideV"]), ("border-bottom", ["insideH"]), ("border-left", ["insideV"])]

/-- `'w:style[@w:styleId = "{0}"]'` (parsers/ooxml/__init__.py 747).  Simplification: the identifier is put in an XPath expression as it is;
the model is about identifiers without a double quote. -/
def findStyle (styles : Node) (id : String) : Option Node :=
  (select [["style"]] styles).find? (fun m => m.attr (w "styleId") = some id)

/-- the styles defined by a style itself: `child_styles` (parsers/ooxml/__init__.py 755-760) -/
def ownBorders (cfg : Config) (style : Node) : Except PyErr Styles := do
  let borders := nodeOf (some style) [["tblPr"], ["tblBorders"]]
  let tb ← tableBorders cfg borders
  let cb ← cellBorders cfg borders
  pure (Dict.update tb (cb.map (fun p => ("x-cell-" ++ p.1, p.2))))

/-- `_get_style_borders(w_styles, style_id)` (parsers/ooxml/__init__.py 744-765); the recursion is limited by Python -/
def styleBorders (cfg : Config) (styles : Option Node) : Nat → Option String → Except PyErr Styles
  | 0, _ => .error .recursionError
  | n + 1, id =>
    match styles, id with
    | some styles, some id =>
      match findStyle styles id with
      | none => .ok []
      | some style => do
        let parent ← styleBorders cfg (some styles) n (attrOf (some style) [["basedOn"]] "val")
        let child ← ownBorders cfg style
        pure (Dict.update parent child)
    | _, _ => .ok []

/-- `Shd(w_shd).styles` (w_shd.py 25-58, types.py 50-60) -/
def shading (shd : Option Node) : Styles :=
  match attrOf shd [] "fill" with
  | none => []
  | some v => if v = "auto" then [] else [("background-color", .str ("#" ++ v))]

/-- `StTwipsMeasure(value).style` (types.py 32-39) -/
def twips (cfg : Config) (v : Option String) : Except PyErr (Option Rat) :=
  match v with
  | none => .ok none
  | some s => (cfg.float s).map (fun x => some (cfg.fl (x / 20)))

/-- `PgSz(w_pg_sz).styles` (w_pg_sz.py 23-43).  Simplification: the dimensions are only compared with integers (builders/formex.py 230-240), they
are rounded up. -/
def pageStyles (cfg : Config) (pg : Option Node) : Except PyErr Styles := do
  let w ← twips cfg (attrOf pg [] "w")
  let h ← twips cfg (attrOf pg [] "h")
  pure ((match w, h with
    | some w, some h => [("x-sect-size", .pair w.ceil h.ceil)]
    | _, _ => []) ++
    (match attrOf pg [] "orient" with
    | none => []
    | some o => [("x-sect-orient", .str o)]))

/-- number of columns of the section (parsers/ooxml/__init__.py 910-919) -/
def sectCols (sect : Option Node) : String :=
  match attrOf sect [["cols"]] "num" with
  | some s => s
  | none =>
    match sect with
    | none => "1"
    | some n =>
      let k := (select [["cols"], ["col"]] n).length
      if k = 0 then "1" else String.ofList (Coord.natDigits k)

/-- styles of a table (parsers/ooxml/__init__.py 880-920).  `sect` is the first `w:sectPr` following the table. -/
def tblStyles (cfg : Config) (sect : Option Node) (tbl : Node) : Except PyErr Styles := do
  let st ← styleBorders cfg cfg.styles cfg.limit (attrOf (some tbl) [["tblPr"], ["tblStyle"]] "val")
  let tb ← tableBorders cfg (nodeOf (some tbl) [["tblPr"], ["tblBorders"]])
  let attrs := Dict.update st tb
  let attrs := Dict.update attrs (shading (nodeOf (some tbl) [["tblPr"], ["shd"]]))
  let pg ← pageStyles cfg (nodeOf sect [["pgSz"]])
  pure (Dict.set (Dict.update attrs pg) "x-sect-cols" (.str (sectCols sect)))

/-- `parse_tbl` (parsers/ooxml/__init__.py 866-925) -/
def parseTbl (cfg : Config) (sect : Option Node) (tbl : Node) : PyM PState Unit := do
  let styles ← lift (tblStyles cfg sect tbl)
  let t ← lift (Table.new [] (some styles) (attrOf (some tbl) [["tblPr"], ["tblStyle"]] "val"))
  PyM.modify (fun s => { s with table := some t })

/-- `"{0:0.2f}pt".format(float(text) / 20)` (parsers/ooxml/__init__.py 937-939, 986-987) -/
def twipsText (cfg : Config) (v : String) : Except PyErr StyleVal :=
  (cfg.float v).map (fun x => .str (String.ofList (format2 (cfg.fl (x / 20)) ++ ['p', 't'])))

/-- `parse_grid_col` (parsers/ooxml/__init__.py 927-941) -/
def parseGridCol (cfg : Config) (n : Node) : PyM PState Unit := do
  let width ← lift (match n.attr (w "w") with
    | none => .error .keyError
    | some v => twipsText cfg v)
  let s ← PyM.get
  PState.onTable (Table.editView .col s.colPos (fun v => { v with styles := Dict.update v.styles [("width", width)] }))

/-- nature of a row (parsers/ooxml/__init__.py 961-964) -/
def rowNature (tr : Node) : Except PyErr String :=
  match nodeOf (some tr) [["trPr"], ["tblHeader"]] with
  | none => .ok "body"
  | some _ =>
    match Dict.get? [("true", "header"), ("false", "body")] ((attrOf (some tr) [["trPr"], ["tblHeader"]] "val").getD "true") with
    | some s => .ok s
    | none => .error .keyError

/-- height of a row (parsers/ooxml/__init__.py 975-987) -/
def rowHeight (cfg : Config) (tr : Node) : Except PyErr Styles :=
  match nodeOf (some tr) [["trPr"], ["trHeight"]] with
  | none => .ok []
  | some _ =>
    match Dict.get? [("atLeast", some "min-height"), ("exact", some "height"), ("auto", none)]
        ((attrOf (some tr) [["trPr"], ["tblHeader"]] "hRule").getD "auto") with
    | none => .error .keyError
    | some none => .ok []
    | some (some style) =>
      (twipsText cfg ((attrOf (some tr) [["trPr"], ["tblHeader"]] "val").getD "0")).map (fun v => [(style, v)])

/-- revision marks of a row (parsers/ooxml/__init__.py 995-1006) -/
def rowIns (tr : Node) : Styles :=
  match nodeOf (some tr) [["trPr"], ["ins"]] with
  | none => []
  | some _ =>
    ("x-ins", .bool true) :: [("x-ins-id", "id"), ("x-ins-author", "author"), ("x-ins-date", "date")].filterMap (fun p =>
      (nonEmpty (attrOf (some tr) [["trPr"], ["ins"]] p.2)).map (fun v => (p.1, .str v)))

/-- `parse_tr` (parsers/ooxml/__init__.py 943-1008) -/
def parseTr (cfg : Config) (tr : Node) : PyM PState Unit := do
  let nature ← lift (rowNature tr)
  let height ← lift (rowHeight cfg tr)
  let s ← PyM.get
  PState.onTable (Table.editView .row s.rowPos (fun v =>
    { v with nature := some nature, styles := Dict.update (Dict.update v.styles height) (rowIns tr) }))
  PyM.modify (fun s => { s with row := some (s.rowPos, some nature) })

/-- `Counter(values).most_common(1)[0][0]`: the first of the most frequent values (parsers/ooxml/__init__.py 1089-1090) -/
def mostCommon [BEq α] (l : List α) : Except PyErr α :=
  match l.foldl (fun best x => match best with
    | none => some x
    | some b => if l.count b < l.count x then some x else some b) none with
  | none => .error .indexError
  | some x => .ok x

/-- vertical alignment (parsers/ooxml/__init__.py 1065-1078) -/
def vAlign (tc : Node) : Except PyErr Styles :=
  match nodeOf (some tc) [["tcPr"], ["vAlign"]] with
  | none => .ok []
  | some _ =>
    match Dict.get? [("top", "top"), ("center", "middle"), ("bottom", "bottom"), ("both", "w-both")]
        ((attrOf (some tc) [["tcPr"], ["vAlign"]] "val").getD "top") with
    | none => .error .keyError
    | some v => .ok [("vertical-align", .str v)]

/-- horizontal alignment (parsers/ooxml/__init__.py 1088-1107) -/
def hAlign (tc : Node) : Except PyErr Styles := do
  let jc ← mostCommon ((select [["p"]] tc).map (fun p => attrOf (some p) [["pPr"], ["jc"]] "val"))
  match jc with
  | none => pure []
  | some v =>
    match Dict.get? [("start", "left"), ("end", "right"), ("left", "left"), ("right", "right"), ("center", "center"), ("both", "justify"),
        ("distribute", "justify")] v with
    | none => .error .keyError
    | some a => pure [("align", .str a)]

/-- `w:p | w:tbl`, without tail (parsers/ooxml/__init__.py 1116-1120) -/
def tcContent (tc : Node) : List Node := (select [["p", "tbl"]] tc).map (Node.setTail none)

mutual
/-- is there a descendant of this name? (`count(.//w:name)`) (parsers/ooxml/__init__.py 1125-1129) -/
def hasInside (name : QName) : Node → Bool
  | .elem _ _ _ cs _ => hasAmong name cs
  | _ => false
/-- among some nodes and their descendants (parsers/ooxml/__init__.py 1125-1129) -/
def hasAmong (name : QName) : List Node → Bool
  | [] => false
  | n :: ns => n.tag? = some name || hasInside name n || hasAmong name ns
end

/-- is the cell empty? (parsers/ooxml/__init__.py 1125-1129) -/
def tcEmpty (tc : Node) : Bool :=
  Node.childrenText (tcContent tc) = "" && !hasInside (w "drawing") tc && !hasInside (w "pict") tc

/-- styles of a cell (parsers/ooxml/__init__.py 1051-1131) -/
def tcStyles (cfg : Config) (tc : Node) : Except PyErr Styles := do
  let st := shading (nodeOf (some tc) [["tcPr"], ["shd"]])
  let va ← vAlign tc
  let ha ← hAlign tc
  let bs ← tableBorders cfg (nodeOf (some tc) [["tcPr"], ["tcBorders"]])
  let st := Dict.update (Dict.update (Dict.update st va) ha) bs
  pure (if tcEmpty tc then Dict.set st "x-cell-empty" (.str "true") else st)

/-- `operator.__add__` on contents.  Simplification: other objects than strings and lists are not added. (grid.py 292) -/
def addContent : Content → Content → Except PyErr Content
  | .text a, .text b => .ok (.text (a ++ b))
  | .seq a, .seq b => .ok (.seq (a ++ b))
  | _, _ => .error .typeError

/-- number of columns of a cell: `w:gridSpan` (parsers/ooxml/__init__.py 1028-1031) -/
def tcWidth (tc : Node) : Except PyErr Int := pyInt ((attrOf (some tc) [["tcPr"], ["gridSpan"]] "val").getD "1")

/-- `w:vMerge`: the value, `continue` by default (parsers/ooxml/__init__.py 1034-1036) -/
def vMerge (tc : Node) : Option String :=
  match nodeOf (some tc) [["tcPr"], ["vMerge"]] with
  | none => none
  | some _ => some ((attrOf (some tc) [["tcPr"], ["vMerge"]] "val").getD "continue")

/-- insertion of a cell which is not the continuation of another one (parsers/ooxml/__init__.py 1050-1133) -/
def newCell (cfg : Config) (tc : Node) (width : Int) : PyM PState Unit := do
  let st ← lift (tcStyles cfg tc)
  let (pos, _) ← PState.theRow
  PState.onTable (Table.insertCell .row pos (some (.seq ((tcContent tc).map (fun n => some (.node n))))) (some st) none width 1)

/-- `state.table.expand((state.col_pos, state.row.row_pos - 1), height=1)` (parsers/ooxml/__init__.py 1042) -/
def continueCell : PyM PState Unit := do
  let s ← PyM.get
  let (pos, _) ← PState.theRow
  PState.onTable (Table.expand (.tuple [.int s.colPos, .int (pos - 1)]) 0 1 addContent)

/-- `parse_tc` (parsers/ooxml/__init__.py 1010-1133) -/
def parseTc (cfg : Config) (tc : Node) : PyM PState Unit := do
  let width ← lift (tcWidth tc)
  PyM.modify (fun s => { s with colPos := s.colPos + (width - 1) })
  if vMerge tc = none ∨ vMerge tc = some "restart" then newCell cfg tc width
  else if vMerge tc = some "continue" then continueCell
  else PyM.raise .notImplementedError

/-! ### the table -/

/-- the elements which the parser looks at (parsers/ooxml/__init__.py 820) -/
def selected (t : QName) : Bool := t ∈ ["tbl", "tblGrid", "gridCol", "tr", "tc"].map w

/-- treatment of a start event (parsers/ooxml/__init__.py 836-857) -/
def onStart (cfg : Config) (sect : Option Node) (n : Node) : PyM PState Unit :=
  if n.tag? = some (w "tbl") then parseTbl cfg sect n
  else if n.tag? = some (w "tblGrid") then pure ()
  else if n.tag? = some (w "gridCol") then do PState.nextCol; parseGridCol cfg n
  else if n.tag? = some (w "tr") then do PState.nextRow; parseTr cfg n
  else if n.tag? = some (w "tc") then do PState.nextCol; parseTc cfg n
  else PyM.raise .notImplementedError

/-- treatment of an end event (parsers/ooxml/__init__.py 858-862) -/
def onEnd (n : Node) : PyM PState Unit := if n.tag? = some (w "tr") then CalsP.endRow else pure ()

/-- treatment of an event (parsers/ooxml/__init__.py 836-862) -/
def onEvent (cfg : Config) (sect : Option Node) (e : Event) : PyM PState Unit := if e.start then onStart cfg sect e.node else onEnd e.node

/-- depth after an event (parsers/ooxml/__init__.py 826-830) -/
def newDepth (depth : Int) (e : Event) : Int :=
  if e.node.tag? = some (w "tbl") then (if e.start then depth + 1 else depth - 1) else depth

/-- the loop of `parse_table` (parsers/ooxml/__init__.py 823-862) -/
def loop (cfg : Config) (sect : Option Node) : Int → List Event → PyM PState Unit
  | _, [] => pure ()
  | depth, e :: es => do
    let depth := newDepth depth e
    if depth > 1 then loop cfg sect depth es
    else do
      onEvent cfg sect e
      loop cfg sect depth es

/-- `parse_table(w_tbl)` (parsers/ooxml/__init__.py 807-864) -/
def parseTable (cfg : Config) (sect : Option Node) (n : Node) : PyM PState (Option (Table Content)) := do
  PState.reset
  loop cfg sect 0 (walk selected none n)
  let s ← PyM.get
  pure s.table

end Benker.Ooxml
