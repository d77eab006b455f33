import Verif.Model.Grid

/-! Model of `/repo/benker/table.py`.

Simplification: a view is always reached through `table.rows[pos]` or `table.cols[pos]` at the time it is used; references to
views which the caller keeps are modelled in `Views.lean`.  Cells are values, so the cells listed by the views are not
linked to later in-place modifications of a cell object. -/

namespace Benker

/-- `RowView` or `ColView` (table.py 270, 338) -/
inductive Axis where
  | row
  | col
deriving DecidableEq, Repr

/-- a row or column view (table.py 183-218) -/
structure View (γ : Type) where
  pos : Int
  styles : Styles
  nature : Option String
  owned : List (Cell γ)
  caught : List (Cell γ)
deriving DecidableEq

/-- first line (row or column) covered by a box: `box.min.y` or `box.min.x` (table.py 96, 100) -/
def Axis.first : Axis → Box → Int
  | .row, b => b.min.y
  | .col, b => b.min.x

/-- last line covered by a box: `box.max.y` or `box.max.x` (table.py 95-96, 99-100, 117, 119) -/
def Axis.last : Axis → Box → Int
  | .row, b => b.max.y
  | .col, b => b.max.x

/-- the same across: last column for a row, last row for a column (table.py 325, 393) -/
def Axis.across : Axis → Box → Int
  | .row, b => b.max.x
  | .col, b => b.max.y

/-- coordinates of position `k` in line `pos` (table.py 286-404) -/
def Axis.coord : Axis → (pos k : Int) → Coord
  | .row, pos, k => ⟨k, pos⟩
  | .col, pos, k => ⟨pos, k⟩

namespace View
variable {γ : Type}

/-- `view_cls(table, pos)` (table.py 192-218) -/
def new (pos : Int) : View γ := ⟨pos, [], none, [], []⟩

/-- `can_own` (table.py 275-276, 343-344) -/
def canOwn (ax : Axis) (v : View γ) (cell : Cell γ) : Bool :=
  match ax with
  | .row => cell.min.y = v.pos
  | .col => cell.min.x = v.pos

/-- `can_catch` (table.py 278-279, 346-347) -/
def canCatch (ax : Axis) (v : View γ) (cell : Cell γ) : Bool :=
  match ax with
  | .row => cell.hasCoord ⟨cell.min.x, v.pos⟩
  | .col => cell.hasCoord ⟨v.pos, cell.min.y⟩

/-- `view.adopt_cell(cell)` (table.py 259-267) -/
def adopt (ax : Axis) (cell : Cell γ) (v : View γ) : View γ :=
  { v with
    owned := if v.canOwn ax cell then v.owned ++ [cell] else v.owned
    caught := if v.canCatch ax cell then v.caught ++ [cell] else v.caught }

/-- position chosen by `insert_cell` (table.py 320-331, 388-399): the first `k` of `range(1, last + 1)` such that no caught box
contains it, `last + 1` if there is none, where `last` is the far side of the bounding box of the caught cells -/
def freePos (ax : Axis) (v : View γ) : Except PyErr Int :=
  match v.caught.map (·.box) with
  | [] => .ok 1
  | b :: bs =>
    match b.union bs with
    | .error e => .error e
    | .ok bb =>
      match (pyRange 1 (ax.across bb + 1)).find? (fun k => (b :: bs).all (fun x => !x.hasCoord (ax.coord v.pos k))) with
      | some k => .ok k
      | none => .ok (ax.across bb + 1)

end View

/-! ### lists of views -/

namespace Views
variable {γ : Type}
open PyM

/-- `del views[size:]` for any integer `size` (table.py 130-135) -/
def truncate (size : Int) (vs : List (View γ)) : List (View γ) :=
  if 0 ≤ size then vs.take size.toNat else vs.take ((vs.length : Int) + size).toNat

/-- `for index in range(len(views), size): views.append(view_cls(table, index + 1))` (table.py 134-135) -/
def grow (size : Int) (vs : List (View γ)) : List (View γ) :=
  vs ++ (pyRange vs.length size).map (fun i => View.new (i + 1))

/-- `_fit_to_size(size, truncate)` (table.py 130-135) -/
def fit (size : Int) (trunc : Bool) (vs : List (View γ)) : List (View γ) :=
  grow size (if trunc then truncate size vs else vs)

/-- `views[i] = f(views[i])` where the view is found by Python indexing (here: in-place update of the view) (table.py 85-103) -/
def updateAt (i : Int) (f : View γ → View γ) : PyM (List (View γ)) Unit := fun vs =>
  if 0 ≤ i then
    if i.toNat < vs.length then (.ok (), vs.modify i.toNat f) else (.error .indexError, vs)
  else if 0 ≤ (vs.length : Int) + i then (.ok (), vs.modify ((vs.length : Int) + i).toNat f)
  else (.error .indexError, vs)

/-- `views.adopt_cell(cell)` (table.py 85-103) -/
def adopt (ax : Axis) (cell : Cell γ) : PyM (List (View γ)) Unit := do
  PyM.modify (fit (ax.last cell.box) false)
  forEach (fun pos => updateAt (pos - 1) (View.adopt ax cell)) (pyRange (ax.first cell.box) (ax.last cell.box + 1))

/-- `views.refresh_all()` (table.py 105-128) -/
def refreshAll (ax : Axis) (g : Grid γ) : PyM (List (View γ)) Unit := do
  let bb ← lift g.boundingBox
  match bb with
  | none => PyM.set []
  | some b => do
    PyM.modify (fit (ax.last b) true)
    PyM.modify (fun vs => vs.map (fun v => { v with owned := [], caught := [] }))
    forEach (fun cell => adopt ax cell) g.cells

end Views

/-- a table (table.py 468-486); `rows`/`cols` are absent until the first access (table.py 175-180) -/
structure Table (γ : Type) where
  styles : Styles
  nature : Option String
  grid : Grid γ
  rows : Option (List (View γ))
  cols : Option (List (View γ))
deriving DecidableEq

namespace Table
variable {γ : Type}
open PyM

/-- `Table(cells, styles, nature)` (table.py 468-486) -/
def new (cells : List (Cell γ)) (styles : Option Styles) (nature : Option String) : Except PyErr (Table γ) :=
  match Grid.ofCells cells with
  | .error e => .error e
  | .ok g => .ok ⟨copyStyles styles, nature, g, none, none⟩

/-- the list of views of an axis, if it exists (table.py 175-180) -/
def getViews (ax : Axis) (t : Table γ) : Option (List (View γ)) :=
  match ax with
  | .row => t.rows
  | .col => t.cols

/-- the list of views of an axis becomes this one (table.py 175-180) -/
def setViews (ax : Axis) (vs : List (View γ)) (t : Table γ) : Table γ :=
  match ax with
  | .row => { t with rows := some vs }
  | .col => { t with cols := some vs }

/-- `table.rows` / `table.cols`: creates the list of views at the first access (table.py 175-180, 69-83) -/
def views (ax : Axis) : PyM (Table γ) (List (View γ)) := fun t =>
  match t.getViews ax with
  | some vs => (.ok vs, t)
  | none =>
    match Views.refreshAll ax t.grid [] with
    | (.ok _, vs) => (.ok vs, t.setViews ax vs)
    | (.error e, _) => (.error e, t)

/-- run a statement on the list of views of the table (table.py 501-510) -/
def onViews (ax : Axis) (m : PyM (List (View γ)) α) : PyM (Table γ) α := fun t =>
  match views ax t with
  | (.error e, t') => (.error e, t')
  | (.ok vs, t') =>
    match m vs with
    | (r, vs') => (r, t'.setViews ax vs')

/-- run a statement on the grid of the table (table.py 524-573) -/
def onGrid (m : PyM (Grid γ) α) : PyM (Table γ) α := fun t =>
  match m t.grid with
  | (r, g') => (r, { t with grid := g' })

/-- `_refresh_views(cell)` (table.py 501-507); a cell is always truthy -/
def refreshCell (cell : Cell γ) : PyM (Table γ) Unit := do
  onViews .row (Views.adopt .row cell)
  onViews .col (Views.adopt .col cell)

/-- `_refresh_views()` (table.py 508-510) -/
def refreshViews : PyM (Table γ) Unit := do
  let t ← get
  onViews .row (Views.refreshAll .row t.grid)
  onViews .col (Views.refreshAll .col t.grid)

/-- `table[coord] = cell` (table.py 524-537) -/
def setItem (v : PyVal) (cell : Cell γ) : PyM (Table γ) Unit := do
  onGrid (Grid.setItem v cell)
  let t ← get
  let c ← lift (t.grid.getItem v)
  refreshCell c

/-- `del table[coord]` (table.py 539-547) -/
def delItem (v : PyVal) : PyM (Table γ) Unit := do
  onGrid (Grid.delItem v)
  refreshViews

/-- `table.merge(start, end, content_appender)` (table.py 567-569) -/
def merge (s e : PyVal) (f : γ → γ → Except PyErr γ) : PyM (Table γ) Unit := do
  let _ ← onGrid (Grid.merge s e f)
  refreshViews

/-- `table.expand(coord, width, height, content_appender)` (table.py 571-573) -/
def expand (v : PyVal) (w h : Int) (f : γ → γ → Except PyErr γ) : PyM (Table γ) Unit := do
  let _ ← onGrid (Grid.expand v w h f)
  refreshViews

/-- `coord in table` (table.py 512-522) -/
def contains (t : Table γ) (v : PyVal) : Except PyErr Bool := t.grid.contains v
/-- `table[coord]` (table.py 549-559) -/
def getItem (t : Table γ) (v : PyVal) : Except PyErr (Cell γ) := t.grid.getItem v
/-- `list(table)` (table.py 564-565) -/
def cells (t : Table γ) : List (Cell γ) := t.grid.cells
/-- `len(table)` (table.py 561-562) -/
def len (t : Table γ) : Nat := t.grid.len
/-- `table.bounding_box` (table.py 491-499) -/
def boundingBox (t : Table γ) : Except PyErr (Option Box) := t.grid.boundingBox

/-- body of the loops of `fill_missing` for one coordinate (table.py 610-612) -/
def fillOne (content : Option γ) (styles : Option Styles) (nature : Option String) (p : Coord) : PyM (Table γ) Unit := do
  let t ← get
  let key := PyVal.tuple [.int p.x, .int p.y]
  let present ← lift (t.contains key)
  if present then pure ()
  else do
    let cell ← lift (Cell.new content styles nature p.x p.y)
    setItem key cell

/-- coordinates of a box in the order of the loops of `fill_missing` (table.py 608-609) -/
def boxCoords (b : Box) : List Coord :=
  (pyRange b.min.y (b.max.y + 1)).flatMap (fun y => (pyRange b.min.x (b.max.x + 1)).map (fun x => ⟨x, y⟩))

/-- `table.fill_missing(bounding_box, content, styles, nature)` (table.py 575-612) -/
def fillMissing (b : Box) (content : Option γ) (styles : Option Styles) (nature : Option String) : PyM (Table γ) Unit :=
  forEach (fillOne content styles nature) (boxCoords b)

/-- `table.rows[pos]` / `table.cols[pos]` for any integer (table.py 137-139) -/
def viewAt (ax : Axis) (pos : Int) : PyM (Table γ) (View γ) :=
  onViews ax (do
    PyM.modify (Views.fit pos false)
    let vs ← get
    lift (pyGet vs (pos - 1)))

/-- in-place modification of `table.rows[pos]` (its `styles` or `nature` attribute) (table.py 192-218) -/
def editView (ax : Axis) (pos : Int) (f : View γ → View γ) : PyM (Table γ) Unit :=
  onViews ax (do
    PyM.modify (Views.fit pos false)
    Views.updateAt (pos - 1) f)

/-- `table.rows[pos].insert_cell(content, styles, nature, width, height)` (table.py 286-335, 354-403) -/
def insertCell (ax : Axis) (pos : Int) (content : Option γ) (styles : Option Styles) (nature : Option String)
    (width height : Int) : PyM (Table γ) Unit := do
  let v ← viewAt ax pos
  let k ← lift (v.freePos ax)
  let nature := nature.or v.nature
  let p := ax.coord v.pos k
  let cell ← lift (Cell.new content styles nature p.x p.y width height)
  setItem (.coord cell.min) cell

/-- operations of the API of a table (table.py 406-612) -/
inductive Op (γ : Type) where
  /-- `table[coord] = cell`, `del table[coord]`, `table.merge(…)`, `table.expand(…)` -/
  | grid (op : Grid.Op γ)
  /-- reading `table.rows` or `table.cols` -/
  | access (ax : Axis)
  /-- reading `table.rows[pos]` -/
  | view (ax : Axis) (pos : Int)
  /-- `table.rows[pos].nature = n` -/
  | setNature (ax : Axis) (pos : Int) (n : Option String)
  /-- `table.rows[pos].styles = d` (or any in-place edit whose result is `d`) -/
  | setStyles (ax : Axis) (pos : Int) (d : Option Styles)
  | insert (ax : Axis) (pos : Int) (content : Option γ) (styles : Option Styles) (nature : Option String)
      (width height : Int)
  | fill (b : Box) (content : Option γ) (styles : Option Styles) (nature : Option String)
  /-- `table.styles = d` (or any in-place edit whose result is `d`), `table.nature = n` -/
  | looks (d : Styles) (n : Option String)

/-- an operation of the grid, through the table (table.py 524-573) -/
def runGridOp : Grid.Op γ → PyM (Table γ) Unit
  | .set v a => do let c ← lift a.build; setItem v c
  | .del v => delItem v
  | .merge s e f => merge s e f
  | .expand v w h f => expand v w h f

/-- execution of one operation (table.py 406-612) -/
def Op.run : Op γ → PyM (Table γ) Unit
  | .grid op => runGridOp op
  | .access ax => do let _ ← views ax; pure ()
  | .view ax pos => do let _ ← viewAt ax pos; pure ()
  | .setNature ax pos n => editView ax pos (fun v => { v with nature := n })
  | .setStyles ax pos d => editView ax pos (fun v => { v with styles := copyStyles d })
  | .insert ax pos c s n w h => insertCell ax pos c s n w h
  | .fill b c s n => fillMissing b c s n
  | .looks d n => PyM.modify (fun t => { t with styles := d, nature := n })

/-- state after a history; the caller catches exceptions and goes on (table.py 406-612) -/
def runFrom (t : Table γ) (ops : List (Op γ)) : Table γ := ops.foldl (fun t op => exec op.run t) t

end Table
end Benker
