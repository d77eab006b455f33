import Verif.Model.CalsParser
import Verif.Model.CalsBuilder

/-! Model of `/repo/benker/parsers/formex.py`.

Simplifications: the view kept in `state.row` is `table.rows[state.row_pos]` at the time it is used; `parse_table` also removes
the `GR.NOTES` elements from the document (formex.py 202-203), which is modelled in `Verif/Model/Formex2Cals.lean`: here there is only the
resulting table; the preceding siblings of a `CORPUS` are those of the first `CORPUS` of its parent. -/

namespace Benker.FmxP
open PyM Units CalsP

/-- options of the parser (formex.py 60-86) -/
structure Config where
  ns : Option String
  calsNs : Option String
  embedGrNotes : Bool

/-- `fmx(name)` (formex.py 88-89) -/
def Config.f (cfg : Config) (name : String) : QName := ⟨cfg.ns, name⟩

/-- `cals(name)` (formex.py 91-92) -/
def Config.q (cfg : Config) (name : String) : QName := ⟨cfg.calsNs, name⟩

/-- `page_size_map` (formex.py 286-291) -/
def pageSizeMap : List (String × StyleVal) :=
  [("DOUBLE.LANDSCAPE", .str "landscape"), ("DOUBLE.PORTRAIT", .str "portrait"), ("SINGLE.LANDSCAPE", .str "landscape"),
   ("SINGLE.PORTRAIT", .str "portrait")]

/-- `parse_tbl_styles(fmx_tbl)` (formex.py 261-295): styles and nature -/
def tblStyles (cfg : Config) : Option Node → Styles × Option String
  | none => ([], none)
  | some tbl => (mapStyle tbl (cfg.f "PAGE.SIZE") pageSizeMap "x-sect-orient" [], tbl.attr (cfg.f "CLASS"))

/-- styles of the table (formex.py 213-251) -/
def corpusStyles (cfg : Config) (tbl : Option Node) (n : Node) : Except PyErr Styles := do
  let frame ← getFrameStyles (n.attr (cfg.q "frame"))
  let styles := Dict.update (tblStyles cfg tbl).1 frame
  let styles := mapStyle n (cfg.q "colsep") sepMap "x-cell-border-right" styles
  let styles := mapStyle n (cfg.q "rowsep") sepMap "x-cell-border-bottom" styles
  let styles := mapStyle n (cfg.q "orient") [("land", .str "landscape"), ("port", .str "portrait")] "x-sect-orient" styles
  let styles := mapStyle n (cfg.q "pgwide") [("0", .str "2"), ("1", .str "1")] "x-sect-cols" styles
  pure (copyStyle n (cfg.q "bgcolor") "background-color" styles)

/-- `nature + "-" + tabstyle if nature else tabstyle` (formex.py 253-257) -/
def corpusNature (cfg : Config) (tbl : Option Node) (n : Node) : Option String :=
  match n.attr (cfg.q "tabstyle") with
  | none => (tblStyles cfg tbl).2
  | some st =>
    if st = "" then (tblStyles cfg tbl).2
    else
      match (tblStyles cfg tbl).2 with
      | none => some st
      | some c => if c = "" then some st else some (c ++ "-" ++ st)

/-- `parse_fmx_corpus` and `setup_table` (formex.py 208-259) -/
def parseCorpus (cfg : Config) (tbl : Option Node) (n : Node) : PyM PState Unit := do
  let styles ← lift (corpusStyles cfg tbl n)
  let t ← lift (Table.new [] (some styles) (corpusNature cfg tbl n))
  PyM.modify (fun s => { s with table := some t })

/-- `type_map` (formex.py 310, 538) -/
def typeMap : List (String × String) :=
  [("ALIAS", "header"), ("HEADER", "header"), ("NORMAL", "body"), ("NOTCOL", "body"), ("TOTAL", "body")]

/-- `type_map.get(type, "body")` (formex.py 310-312) -/
def rowNature (type : Option String) : String :=
  match type with
  | none => "body"
  | some t => (Dict.get? typeMap t).getD "body"

/-- `"level{count}".format(count=count)` (formex.py 317, 392, 419) -/
def levelText (count : Nat) : String := "level" ++ Cals.intStr count

/-- the style which keeps the type and the level of a row (formex.py 316-320) -/
def rowStyle (type : Option String) (blk : Nat) : Option String :=
  let parts := (match type with
    | none => []
    | some t => if t = "" then [] else [t]) ++ (if blk = 0 then [] else [levelText blk])
  if parts = [] then none else some ("-".intercalate ("ROW" :: parts))

/-- the style which keeps the level of a title (formex.py 392, 419) -/
def titleStyle (tag : String) (blk : Nat) : String := tag ++ "-" ++ levelText blk

/-- `parse_cals_row_styles` (formex.py 332-370) -/
def calsRowStyles (cfg : Config) (n : Node) : Styles :=
  let styles := mapStyle n (cfg.q "valign") valignMap "vertical-align" []
  let styles := mapStyle n (cfg.q "rowsep") sepMap "border-bottom" styles
  let styles := copyStyle n (cfg.q "bgcolor") "background-color" styles
  copyStyle n (cfg.q "rowstyle") "rowstyle" styles

/-- `state.row = state.table.rows[state.row_pos]`, then its nature, and its styles if they are given (formex.py 325-328, 452-454, 482-485) -/
def startRow (nature : String) (styles : Option Styles) : PyM PState Unit := do
  let s ← PyM.get
  PState.onTable (Table.editView .row s.rowPos (fun v => { v with nature := some nature, styles := styles.getD v.styles }))
  PyM.modify (fun s => { s with row := some (s.rowPos, some nature) })

/-- styles of a row (formex.py 307, 316-322); `blk` is the number of ancestors `BLK` -/
def rowStyles (cfg : Config) (blk : Nat) (n : Node) : Styles :=
  Dict.update (match rowStyle (n.attr (cfg.f "TYPE")) blk with
    | none => []
    | some s => [("rowstyle", .str s)]) (calsRowStyles cfg n)

/-- `parse_fmx_row` (formex.py 297-330) -/
def parseRow (cfg : Config) (blk : Nat) (n : Node) : PyM PState Unit :=
  startRow (rowNature (n.attr (cfg.f "TYPE"))) (some (rowStyles cfg blk n))

/-- `contains_ie` (formex.py 506-510) -/
def containsIe (cfg : Config) (n : Node) : Bool := n.children.any (fun c => c.tag? = some (cfg.f "IE"))

/-- content of a cell, of a title or of a note: `""` if there is an `IE` (formex.py 461-465, 497-501, 598-602) -/
def nodeContent (cfg : Config) (n : Node) : Content :=
  if containsIe cfg n then .text "" else .seq (entryContent n)

/-- `state.row.insert_cell(...)` (formex.py 467-469, 494, 502, 604) -/
def insertInRow (content : Option Content) (styles : Option Styles) (nature : Option String) (width height : Int) : PyM PState Unit := do
  let (pos, _) ← PState.theRow
  PState.onTable (Table.insertCell .row pos content styles nature width height)

/-- `_insert_blk_title_row` (formex.py 480-504) -/
def titleRow (cfg : Config) (styles : Styles) (n : Node) : PyM PState Unit := do
  startRow "body" (some styles)
  let start ← lift (pyInt ((n.attr (cfg.f "COL.START")).getD "1"))
  let stop ← lift (pyInt ((n.attr (cfg.f "COL.END")).getD "1"))
  forEach (fun _ => insertInRow none none (some "body") 1 1) (pyRange 1 start)
  insertInRow (some (nodeContent cfg n)) none (some "body") (stop - start + 1) 1

/-- styles of a title (formex.py 387-395, 414-422) -/
def titleStyles (cfg : Config) (tag : String) (blk : Nat) (n : Node) : Styles :=
  Dict.update [("rowstyle", .str (titleStyle tag blk))] (calsRowStyles cfg n)

/-- `parse_fmx_ti_blk` and `parse_fmx_sti_blk` (formex.py 372-424) -/
def parseTitle (cfg : Config) (tag : String) (blk : Nat) (n : Node) : PyM PState Unit :=
  titleRow cfg (titleStyles cfg tag blk n) n

/-- `parse_gr_notes` (formex.py 426-471) -/
def parseNotes (cfg : Config) (n : Node) : PyM PState Unit := do
  startRow "footer" none
  let content := if cfg.embedGrNotes then Content.seq [some (.node n)] else nodeContent cfg n
  let s ← PyM.get
  match s.table with
  | none => PyM.raise .attributeError
  | some t => do
    let bb ← lift t.boundingBox
    match bb with
    | none => PyM.raise .attributeError
    | some b => insertInRow (some content) (some (calsRowStyles cfg n)) (some "footer") b.width 1

/-- the number of columns and rows of a cell (formex.py 530-534, 569-580) -/
def cellSpan (cfg : Config) (n : Node) : Except PyErr (Int × Int) := do
  let width ← pyInt ((n.attr (cfg.f "COLSPAN")).getD "1")
  let height ← pyInt ((n.attr (cfg.f "ROWSPAN")).getD "1")
  let width ← match n.attr (cfg.q "namest"), n.attr (cfg.q "nameend") with
    | some a, some b =>
      if a ≠ "" ∧ b ≠ "" then do
        let start ← firstInt a
        let stop ← firstInt b
        pure (stop - start + 1)
      else pure width
    | _, _ => pure width
  let height ← match n.attr (cfg.q "morerows") with
    | none => pure height
    | some m => if m = "" then pure height else do
      let k ← pyInt m
      pure (k + 1)
  pure (width, height)

/-- `text or default` (formex.py 537-541) -/
def orText (v : Option String) (default : String) : String :=
  match v with
  | none => default
  | some s => if s = "" then default else s

/-- the style of a cell whose type is not that of its row (formex.py 543-547): its value may be `None` -/
def cellStyle (cellType rowType : Option String) : Styles :=
  if orText cellType "NORMAL" ≠ orText rowType "NORMAL" then
    [("cellstyle", match cellType with | none => .none | some t => .str t)]
  else []

/-- styles of a cell (formex.py 543-567, 582-593) -/
def cellStyles (cfg : Config) (parent : Option Node) (n : Node) : Styles :=
  let rowType := match parent with | none => none | some p => p.attr (cfg.f "TYPE")
  let styles := cellStyle (n.attr (cfg.f "TYPE")) rowType
  let styles := mapStyle n (cfg.q "colsep") sepMap "x-cell-border-right" styles
  let styles := mapStyle n (cfg.q "rowsep") sepMap "x-cell-border-bottom" styles
  let styles := copyStyle n (cfg.q "bgcolor") "background-color" styles
  let styles := mapStyle n (cfg.q "valign") valignMap "vertical-align" styles
  mapStyle n (cfg.q "align") alignMap "align" styles

/-- `type_map.get(cell_type) or row_nature` (formex.py 537-541) -/
def cellNature (cellType : Option String) (rowNature : Option String) : Option String :=
  match cellType with
  | none => rowNature
  | some t =>
    match Dict.get? typeMap t with
    | none => rowNature
    | some n => some n

/-- `parse_fmx_cell` (formex.py 512-605) -/
def parseCell (cfg : Config) (parent : Option Node) (n : Node) : PyM PState Unit := do
  let (width, height) ← lift (cellSpan cfg n)
  let (_, nature) ← PState.theRow
  insertInRow (some (nodeContent cfg n)) (some (cellStyles cfg parent n)) (cellNature (n.attr (cfg.f "TYPE")) nature) width height

/-- styles of a colspec (formex.py 637-658) -/
def colspecStyles (cfg : Config) (n : Node) : Styles :=
  let styles := mapStyle n (cfg.q "colsep") sepMap "border-right" []
  let styles := mapStyle n (cfg.q "rowsep") sepMap "border-bottom" styles
  let styles := copyStyle n (cfg.q "colwidth") "width" styles
  mapStyle n (cfg.q "align") alignMap "align" styles

/-- `@colnum`, by default the position (formex.py 633-635) -/
def colspecNum (cfg : Config) (colPos : Int) (n : Node) : Except PyErr Int :=
  match n.attr (cfg.q "colnum") with
  | none => .ok colPos
  | some v => if v = "" then .ok colPos else pyInt v

/-- `parse_fmx_colspec` (formex.py 607-664) -/
def parseColspec (cfg : Config) (n : Node) : PyM PState Unit := do
  let s ← PyM.get
  let num ← lift (colspecNum cfg s.colPos n)
  PState.onTable (Table.editView .col num (fun v => { v with styles := Dict.update v.styles (colspecStyles cfg n) }))

/-- the elements which the parser looks at (formex.py 138) -/
def selected (cfg : Config) (t : QName) : Bool :=
  t ∈ ["CORPUS", "ROW", "CELL", "MARGIN", "BLK", "TI.BLK", "STI.BLK"].map cfg.f ++ [cfg.q "colspec"]

/-- treatment of a start event (formex.py 154-187); `blk` is the number of ancestors `BLK` -/
def onStart (cfg : Config) (blk : Nat) (parent : Option Node) (n : Node) : PyM PState Unit :=
  match n.tag? with
  | none => PyM.raise .notImplementedError
  | some tag =>
    if tag = cfg.f "CELL" then do PState.nextCol; parseCell cfg parent n
    else if tag = cfg.f "ROW" then do PState.nextRow; parseRow cfg blk n
    else if tag = cfg.f "BLK" then pure ()
    else if tag = cfg.f "TI.BLK" then do PState.nextRow; parseTitle cfg "TI.BLK" blk n
    else if tag = cfg.f "STI.BLK" then do PState.nextRow; parseTitle cfg "STI.BLK" blk n
    else if tag = cfg.q "colspec" then do PState.nextCol; parseColspec cfg n
    else if tag = cfg.f "CORPUS" then parseCorpus cfg parent n
    else PyM.raise .notImplementedError

/-- `preceding-sibling::GR.NOTES` of the first `CORPUS` of an element (formex.py 193-197) -/
def notesOf (cfg : Config) : Option Node → List Node
  | none => []
  | some p => (p.children.takeWhile (fun c => c.tag? ≠ some (cfg.f "CORPUS"))).filter (fun c => c.tag? = some (cfg.f "GR.NOTES"))

/-- end of a table: a row for each note, then the holes (formex.py 192-204) -/
def endCorpus (cfg : Config) (parent : Option Node) : PyM PState Unit := do
  forEach (fun n => do PState.nextRow; parseNotes cfg n) (notesOf cfg parent)
  PState.onTable fillHoles

/-- treatment of an end event (formex.py 188-204) -/
def onEnd (cfg : Config) (parent : Option Node) (n : Node) : PyM PState Unit :=
  if n.tag? = some (cfg.f "ROW") ∨ n.tag? = some (cfg.f "TI.BLK") ∨ n.tag? = some (cfg.f "STI.BLK") then endRow
  else if n.tag? = some (cfg.f "CORPUS") then endCorpus cfg parent
  else pure ()

/-- treatment of an event (formex.py 154-204) -/
def onEvent (cfg : Config) (blk : Nat) (e : Event) : PyM PState Unit :=
  if e.start then onStart cfg blk e.parent e.node else onEnd cfg e.parent e.node

/-- depth after an event (formex.py 144-148) -/
def newDepth (cfg : Config) (depth : Int) (e : Event) : Int :=
  if e.node.tag? = some (cfg.f "CORPUS") then (if e.start then depth + 1 else depth - 1) else depth

/-- number of open `BLK` elements after an event (for `_count_blk`, formex.py 473-478) -/
def newBlk (cfg : Config) (blk : Nat) (e : Event) : Nat :=
  if e.node.tag? = some (cfg.f "BLK") then (if e.start then blk + 1 else blk - 1) else blk

/-- the loop of `parse_table` (formex.py 141-204).  The number of ancestors `BLK` of an element (`_count_blk`, formex.py 473-478) is the number of
`BLK` which are open when its start event is met: `blk` counts them. -/
def loop (cfg : Config) : Int → Nat → List Event → PyM PState Unit
  | _, _, [] => pure ()
  | depth, blk, e :: es => do
    let depth := newDepth cfg depth e
    if depth > 1 then loop cfg depth (newBlk cfg blk e) es
    else do
      onEvent cfg blk e
      loop cfg depth (newBlk cfg blk e) es

/-- `parse_table(fmx_corpus)` (formex.py 109-206), for a corpus, its parent and the number of its ancestors `BLK` in the document -/
def parseTable (cfg : Config) (outerBlk : Nat) (parent : Option Node) (n : Node) : PyM PState (Option (Table Content)) := do
  PState.reset
  loop cfg 0 outerBlk (walk (selected cfg) parent n)
  let s ← PyM.get
  pure s.table

end Benker.FmxP
