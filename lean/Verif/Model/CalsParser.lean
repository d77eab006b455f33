import Verif.Model.Parser

/-! Model of `/repo/benker/parsers/cals/__init__.py` and `/repo/benker/parsers/cals/frame_styles.py`.

Simplification: the view kept in `state.row` is `table.rows[state.row_pos]` at the time it is used. -/

namespace Benker.CalsP
open PyM Units

/-- options of the parser (parsers/cals/__init__.py 78-103) -/
structure Config where
  ns : Option String
  widthUnit : List Char
  fl : Rat → Rat

/-- `cals(name)` (parsers/cals/__init__.py 105-106) -/
def Config.q (cfg : Config) (name : String) : QName := ⟨cfg.ns, name⟩

/-- `BORDER_SOLID`, `BORDER_NONE` (frame_styles.py 10-13) -/
def borderSolid : StyleVal := .str "solid 1pt black"
/-- `BORDER_NONE` (frame_styles.py 13) -/
def borderNone : StyleVal := .str "none"

/-- `BORDER_SOLID if x else BORDER_NONE` (frame_styles.py 28-31) -/
def border (b : Bool) : StyleVal := if b then borderSolid else borderNone

/-- the four borders of a frame (frame_styles.py 20-27) -/
def frameBorders : Dict String (Bool × Bool × Bool × Bool) :=
  [("none", (false, false, false, false)), ("all", (true, true, true, true)), ("topbot", (true, true, false, false)),
   ("sides", (false, false, true, true)), ("top", (true, false, false, false)), ("bottom", (false, true, false, false))]

/-- `get_frame_styles(frame)` (frame_styles.py 16-32) -/
def getFrameStyles : Option String → Except PyErr Styles
  | none => .ok []
  | some f =>
    if f = "" then .ok []
    else
      match Dict.get? frameBorders f with
      | none => .error .keyError
      | some (top, bottom, left, right) =>
        .ok [("border-top", border top), ("border-bottom", border bottom), ("border-left", border left), ("border-right", border right)]

/-- `if value in map: styles[key] = map[value]` (as in parsers/cals/__init__.py 226-231) -/
def mapStyle (n : Node) (attr : QName) (map : List (String × StyleVal)) (key : String) (styles : Styles) : Styles :=
  match n.attr attr with
  | none => styles
  | some v =>
    match Dict.get? map v with
    | none => styles
    | some s => Dict.set styles key s

/-- `if value: styles[key] = value` (as in parsers/cals/__init__.py 250-253) -/
def copyStyle (n : Node) (attr : QName) (key : String) (styles : Styles) : Styles :=
  match n.attr attr with
  | none => styles
  | some v => if v = "" then styles else Dict.set styles key (.str v)

/-- `{"0": BORDER_NONE, "1": BORDER_SOLID}` (parsers/cals/__init__.py 228) -/
def sepMap : List (String × StyleVal) := [("0", borderNone), ("1", borderSolid)]
/-- `valign_map` (parsers/cals/__init__.py 331) -/
def valignMap : List (String × StyleVal) := [("top", .str "top"), ("middle", .str "middle"), ("bottom", .str "bottom")]
/-- `align_map` (parsers/cals/__init__.py 426) -/
def alignMap : List (String × StyleVal) :=
  [("left", .str "left"), ("right", .str "right"), ("center", .str "center"), ("justify", .str "justify"), ("char", .str "left")]

/-- styles of a table (parsers/cals/__init__.py 224-265) -/
def tableStyles (cfg : Config) (n : Node) : Except PyErr Styles := do
  let styles ← getFrameStyles (n.attr (cfg.q "frame"))
  let styles := mapStyle n (cfg.q "colsep") sepMap "x-cell-border-right" styles
  let styles := mapStyle n (cfg.q "rowsep") sepMap "x-cell-border-bottom" styles
  let styles := mapStyle n (cfg.q "orient") [("land", .str "landscape"), ("port", .str "portrait")] "x-sect-orient" styles
  let styles := mapStyle n (cfg.q "pgwide") [("0", .str "2"), ("1", .str "1")] "x-sect-cols" styles
  let styles := copyStyle n (cfg.q "bgcolor") "background-color" styles
  match n.attr (cfg.q "width") with
  | none => pure styles
  | some w =>
    if w = "" then pure styles
    else do
      let w ← rewriteWidth cfg.fl cfg.widthUnit w.toList
      pure (Dict.set styles "width" (.str (String.ofList w)))

/-- `if value: nature = value` (parsers/cals/__init__.py 255-258) -/
def tableNature (cfg : Config) (n : Node) : Option String :=
  match n.attr (cfg.q "tabstyle") with
  | none => none
  | some v => if v = "" then none else some v

/-- `parse_cals_table` and `setup_table` (parsers/cals/__init__.py 201-267) -/
def parseTableElem (cfg : Config) (n : Node) : PyM PState Unit := do
  let styles ← lift (tableStyles cfg n)
  let t ← lift (Table.new [] (some styles) (tableNature cfg n))
  PyM.modify (fun s => { s with table := some t })

/-- the nature of a table after `@tgroupstyle`: it replaces the last word (parsers/cals/__init__.py 288-296) -/
def tgroupNature (nature : Option String) (style : Option String) : Option String :=
  match style with
  | none => nature
  | some st =>
    if st = "" then nature
    else
      match nature with
      | none => some st
      | some n => if n = "" then some st else some (String.ofList ([' '].intercalate ((splitChar ' ' n.toList).dropLast ++ [st.toList])))

/-- `parse_cals_tgroup` (parsers/cals/__init__.py 269-304) -/
def parseTgroup (cfg : Config) (n : Node) : PyM PState Unit :=
  PState.onTable (PyM.modify (fun t =>
    let styles := mapStyle n (cfg.q "rowsep") sepMap "x-cell-border-bottom" (mapStyle n (cfg.q "colsep") sepMap "x-cell-border-right" [])
    { t with styles := Dict.update t.styles styles, nature := tgroupNature t.nature (n.attr (cfg.q "tgroupstyle")) }))

/-- `tag_map[localname]` (parsers/cals/__init__.py 320-327) -/
def rowNature (localname : String) : Except PyErr String :=
  match Dict.get? [("thead", "header"), ("tfoot", "footer"), ("tbody", "body")] localname with
  | some n => .ok n
  | none => .error .keyError

/-- `QName(elem.tag).localname` (parsers/cals/__init__.py 326) -/
def localname (n : Node) : String :=
  match n.tag? with
  | some t => t.name
  | none => ""

/-- styles and nature of a row (parsers/cals/__init__.py 318-357) -/
def rowLooks (cfg : Config) (parent : Option Node) (n : Node) : Except PyErr (Styles × Option String) := do
  let (styles, nature) ←
    match parent with
    | none => pure ([], none)
    | some p => do
      let nature ← rowNature (localname p)
      pure (mapStyle p (cfg.q "valign") valignMap "vertical-align" [], some nature)
  let styles := mapStyle n (cfg.q "valign") valignMap "vertical-align" styles
  let styles := mapStyle n (cfg.q "rowsep") sepMap "border-bottom" styles
  let styles := copyStyle n (cfg.q "bgcolor") "background-color" styles
  let styles := copyStyle n (cfg.q "rowstyle") "rowstyle" styles
  pure (styles, nature)

/-- `parse_cals_row` (parsers/cals/__init__.py 306-365) -/
def parseRow (cfg : Config) (parent : Option Node) (n : Node) : PyM PState Unit := do
  let (styles, nature) ← lift (rowLooks cfg parent n)
  let s ← PyM.get
  PState.onTable (Table.editView .row s.rowPos (fun v => { v with nature := nature, styles := styles }))
  PyM.modify (fun s => { s with row := some (s.rowPos, nature) })

/-- the columns and the rows covered by an entry (parsers/cals/__init__.py 406-415) -/
def entrySpan (cfg : Config) (colPos : Int) (n : Node) : Except PyErr (Int × Int) := do
  let here := String.ofList (Coord.intDigits colPos)
  let start ← firstInt ((n.attr (cfg.q "namest")).getD here)
  let stop ← firstInt ((n.attr (cfg.q "nameend")).getD here)
  let more ← pyInt ((n.attr (cfg.q "morerows")).getD "0")
  pure (stop - start + 1, more + 1)

/-- content of an entry: its text if any, and its children (parsers/cals/__init__.py 438-439) -/
def entryContent (n : Node) : List (Option Content) :=
  (match n.text with
    | none => []
    | some s => if s = "" then [] else [some (.text s)]) ++ n.children.map (fun c => some (.node c))

/-- styles of an entry (parsers/cals/__init__.py 387-404, 417-433, 448-449) -/
def entryStyles (cfg : Config) (n : Node) : Styles :=
  let styles := mapStyle n (cfg.q "colsep") sepMap "border-right" []
  let styles := mapStyle n (cfg.q "rowsep") sepMap "border-bottom" styles
  let styles := copyStyle n (cfg.q "bgcolor") "background-color" styles
  let styles := mapStyle n (cfg.q "valign") valignMap "vertical-align" styles
  let styles := mapStyle n (cfg.q "align") alignMap "align" styles
  let styles := copyStyle n (cfg.q "cellstyle") "cellstyle" styles
  if (entryContent n).isEmpty then Dict.set styles "x-cell-empty" (.str "true") else styles

/-- `parse_cals_entry` (parsers/cals/__init__.py 367-454) -/
def parseEntry (cfg : Config) (n : Node) : PyM PState Unit := do
  let s ← PyM.get
  let (width, height) ← lift (entrySpan cfg s.colPos n)
  let (pos, nature) ← PState.theRow
  PState.onTable (Table.insertCell .row pos (some (.seq (entryContent n))) (some (entryStyles cfg n)) nature width height)

/-- styles of a colspec (parsers/cals/__init__.py 492-513) -/
def colspecStyles (cfg : Config) (n : Node) : Styles :=
  let styles := mapStyle n (cfg.q "colsep") sepMap "border-right" []
  let styles := mapStyle n (cfg.q "rowsep") sepMap "border-bottom" styles
  let styles := copyStyle n (cfg.q "colwidth") "width" styles
  mapStyle n (cfg.q "align") alignMap "align" styles

/-- `@colnum`, by default the position (parsers/cals/__init__.py 488-490) -/
def colspecNum (cfg : Config) (colPos : Int) (n : Node) : Except PyErr Int :=
  match n.attr (cfg.q "colnum") with
  | none => .ok colPos
  | some v => if v = "" then .ok colPos else pyInt v

/-- the element in which a colspec stands (parsers/cals/__init__.py 475-479) -/
def colspecParent : Option Node → Except PyErr Unit
  | none => .ok ()
  | some p => if localname p = "table" ∨ localname p = "tgroup" then .ok () else .error .notImplementedError

/-- `parse_cals_colspec` (parsers/cals/__init__.py 456-519) -/
def parseColspec (cfg : Config) (parent : Option Node) (n : Node) : PyM PState Unit := do
  lift (colspecParent parent)
  let s ← PyM.get
  let num ← lift (colspecNum cfg s.colPos n)
  PState.onTable (Table.editView .col num (fun v => { v with styles := Dict.update v.styles (colspecStyles cfg n) }))

/-- the elements which the parser looks at (parsers/cals/__init__.py 150) -/
def selected (cfg : Config) (t : QName) : Bool :=
  t ∈ ["table", "tgroup", "colspec", "thead", "tfoot", "tbody", "row", "entry"].map cfg.q

/-- treatment of a start event (parsers/cals/__init__.py 166-191) -/
def onStart (cfg : Config) (parent : Option Node) (n : Node) : PyM PState Unit :=
  match n.tag? with
  | none => PyM.raise .notImplementedError
  | some tag =>
    if tag = cfg.q "entry" then do PState.nextCol; parseEntry cfg n
    else if tag = cfg.q "row" then do PState.nextRow; parseRow cfg parent n
    else if tag = cfg.q "tbody" ∨ tag = cfg.q "tfoot" ∨ tag = cfg.q "thead" then pure ()
    else if tag = cfg.q "colspec" then do PState.nextCol; parseColspec cfg parent n
    else if tag = cfg.q "tgroup" then parseTgroup cfg n
    else if tag = cfg.q "table" then parseTableElem cfg n
    else PyM.raise .notImplementedError

/-- end of a row: `fill_missing(Box(1, row_pos, len(cols), row_pos), None, nature=row.nature)` (parsers/cals/__init__.py 193-195) -/
def endRow : PyM PState Unit := do
  let cols ← PState.onTable (Table.views .col)
  let s ← PyM.get
  let b ← lift (Box.make 1 s.rowPos cols.length s.rowPos)
  let (_, nature) ← PState.theRow
  PState.onTable (Table.fillMissing b none none nature)

/-- `table.fill_missing(table.bounding_box, None)` (parsers/cals/__init__.py 196-197); the bounding box of an empty table is `None` -/
def fillHoles : PyM (Table Content) Unit := do
  let t ← PyM.get
  let bb ← lift t.boundingBox
  match bb with
  | none => PyM.raise .attributeError
  | some b => Table.fillMissing b none none none

/-- treatment of an end event (parsers/cals/__init__.py 192-197) -/
def onEnd (cfg : Config) (n : Node) : PyM PState Unit :=
  if n.tag? = some (cfg.q "row") then endRow
  else if n.tag? = some (cfg.q "table") then PState.onTable fillHoles
  else pure ()

/-- treatment of an event (parsers/cals/__init__.py 166-197) -/
def onEvent (cfg : Config) (e : Event) : PyM PState Unit := if e.start then onStart cfg e.parent e.node else onEnd cfg e.node

/-- depth after an event (parsers/cals/__init__.py 156-160) -/
def newDepth (cfg : Config) (depth : Int) (e : Event) : Int :=
  if e.node.tag? = some (cfg.q "table") then (if e.start then depth + 1 else depth - 1) else depth

/-- the loop of `parse_table` (parsers/cals/__init__.py 153-197) -/
def loop (cfg : Config) : Int → List Event → PyM PState Unit
  | _, [] => pure ()
  | depth, e :: es => do
    let depth := newDepth cfg depth e
    if depth > 1 then loop cfg depth es
    else do
      onEvent cfg e
      loop cfg depth es

/-- `parse_table(cals_table)` (parsers/cals/__init__.py 123-199), for a table element and its parent in the document -/
def parseTable (cfg : Config) (parent : Option Node) (n : Node) : PyM PState (Option (Table Content)) := do
  PState.reset
  loop cfg 0 (walk (selected cfg) parent n)
  let s ← PyM.get
  pure s.table

end Benker.CalsP
