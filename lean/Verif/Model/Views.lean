import Verif.Model.Table

/-! Model of the *identity* of the row and column views of `/repo/benker/table.py`, with an explicit heap.

`Table.lean` models the lists of views as values, where a view is always reached through its position; here a view is an object, which the caller may
keep in a variable while the table changes, and use again later (`row = table.rows[3]` … `row.insert_cell("x")`).  The functions follow those of `Table.lean`;
they work on the objects. -/

namespace Benker.Kept
variable {γ : Type}
open PyM

/-- A list of views (`TableViewList`, table.py 69-83): the views which were made so far (the address of a view is its index), those of the other tables
excluded, and the addresses of the views which are in the list `self.views`. -/
structure Lines (γ : Type) where
  heap : List (View γ)
  list : List Nat
deriving DecidableEq

namespace Lines

/-- the view which is at an address (table.py 183-218); the addresses of the callers are those of views which exist -/
def look (r : Lines γ) (a : Nat) : View γ := r.heap[a]?.getD (View.new 0)

/-- the change in place of a view (table.py 259-267, styled.py 84-88) -/
def edit (a : Nat) (f : View γ → View γ) (r : Lines γ) : Lines γ := ⟨r.heap.modify a f, r.list⟩

/-- `del views[size:]` for any integer `size` (table.py 132-133) -/
def truncate (size : Int) (r : Lines γ) : Lines γ :=
  ⟨r.heap, if 0 ≤ size then r.list.take size.toNat else r.list.take ((r.list.length : Int) + size).toNat⟩

/-- `for index in range(len(views), size): views.append(view_cls(table, index + 1))` (table.py 134-135) -/
def grow (size : Int) (r : Lines γ) : Lines γ :=
  ⟨r.heap ++ (pyRange r.list.length size).map (fun i => View.new (i + 1)),
    r.list ++ List.range' r.heap.length (pyRange r.list.length size).length⟩

/-- `_fit_to_size(size, truncate)` (table.py 130-135) -/
def fit (size : Int) (trunc : Bool) (r : Lines γ) : Lines γ := grow size (if trunc then truncate size r else r)

/-- change in place of `views[i]` (table.py 97, 101) -/
def updateAt (i : Int) (f : View γ → View γ) : PyM (Lines γ) Unit := do
  let r ← get
  let a ← lift (pyGet r.list i)
  PyM.modify (edit a f)

/-- `views.adopt_cell(cell)` (table.py 85-103) -/
def adopt (ax : Axis) (cell : Cell γ) : PyM (Lines γ) Unit := do
  PyM.modify (fit (ax.last cell.box) false)
  forEach (fun pos => updateAt (pos - 1) (View.adopt ax cell)) (pyRange (ax.first cell.box) (ax.last cell.box + 1))

/-- `for view in views: view.owned_cells[:] = []; view.caught_cells[:] = []` (table.py 123-125) -/
def clearAll (r : Lines γ) : Lines γ := r.list.foldl (fun r a => r.edit a (fun v => { v with owned := [], caught := [] })) r

/-- `views.refresh_all()` (table.py 105-128) -/
def refreshAll (ax : Axis) (g : Grid γ) : PyM (Lines γ) Unit := do
  let bb ← lift g.boundingBox
  match bb with
  | none => PyM.modify (fun r => ⟨r.heap, []⟩)
  | some b => do
    PyM.modify (fit (ax.last b) true)
    PyM.modify clearAll
    forEach (fun cell => adopt ax cell) g.cells

end Lines

/-- a table whose views are objects (table.py 468-486, 175-180) -/
structure State (γ : Type) where
  styles : Styles
  nature : Option String
  grid : Grid γ
  rows : Option (Lines γ)
  cols : Option (Lines γ)
deriving DecidableEq

namespace State

/-- `Table(cells, styles, nature)` (table.py 468-486) -/
def new (cells : List (Cell γ)) (styles : Option Styles) (nature : Option String) : Except PyErr (State γ) :=
  match Grid.ofCells cells with
  | .error e => .error e
  | .ok g => .ok ⟨copyStyles styles, nature, g, none, none⟩

/-- the list of views of an axis, if it exists (table.py 175-180) -/
def lines (ax : Axis) (s : State γ) : Option (Lines γ) :=
  match ax with
  | .row => s.rows
  | .col => s.cols

/-- the list of views of an axis becomes this one (table.py 175-180) -/
def setLines (ax : Axis) (r : Lines γ) (s : State γ) : State γ :=
  match ax with
  | .row => { s with rows := some r }
  | .col => { s with cols := some r }

/-- `table.rows` / `table.cols`: creates the list of views at the first access (table.py 175-180, 69-83) -/
def access (ax : Axis) : PyM (State γ) (Lines γ) := fun s =>
  match s.lines ax with
  | some r => (.ok r, s)
  | none =>
    match Lines.refreshAll ax s.grid ⟨[], []⟩ with
    | (.ok _, r) => (.ok r, s.setLines ax r)
    | (.error e, _) => (.error e, s)

/-- run a statement on the list of views (table.py 501-510) -/
def onLines (ax : Axis) (m : PyM (Lines γ) α) : PyM (State γ) α := fun s =>
  match access ax s with
  | (.error e, s') => (.error e, s')
  | (.ok r, s') =>
    match m r with
    | (x, r') => (x, s'.setLines ax r')

/-- run a statement on the grid (table.py 524-573) -/
def onGrid (m : PyM (Grid γ) α) : PyM (State γ) α := fun s =>
  match m s.grid with
  | (x, g') => (x, { s with grid := g' })

/-- `_refresh_views(cell)` (table.py 501-507) -/
def refreshCell (cell : Cell γ) : PyM (State γ) Unit := do
  onLines .row (Lines.adopt .row cell)
  onLines .col (Lines.adopt .col cell)

/-- `_refresh_views()` (table.py 508-510) -/
def refreshViews : PyM (State γ) Unit := do
  let s ← get
  onLines .row (Lines.refreshAll .row s.grid)
  onLines .col (Lines.refreshAll .col s.grid)

/-- `table[coord] = cell` (table.py 524-537) -/
def setItem (v : PyVal) (cell : Cell γ) : PyM (State γ) Unit := do
  onGrid (Grid.setItem v cell)
  let s ← get
  let c ← lift (s.grid.getItem v)
  refreshCell c

/-- `del table[coord]` (table.py 539-547) -/
def delItem (v : PyVal) : PyM (State γ) Unit := do
  onGrid (Grid.delItem v)
  refreshViews

/-- `table.merge(start, end, content_appender)` (table.py 567-569) -/
def merge (s e : PyVal) (f : γ → γ → Except PyErr γ) : PyM (State γ) Unit := do
  let _ ← onGrid (Grid.merge s e f)
  refreshViews

/-- `table.expand(coord, width, height, content_appender)` (table.py 571-573) -/
def expand (v : PyVal) (w h : Int) (f : γ → γ → Except PyErr γ) : PyM (State γ) Unit := do
  let _ ← onGrid (Grid.expand v w h f)
  refreshViews

/-- body of the loops of `fill_missing` (table.py 610-612) -/
def fillOne (content : Option γ) (styles : Option Styles) (nature : Option String) (p : Coord) : PyM (State γ) Unit := do
  let s ← get
  let key := PyVal.tuple [.int p.x, .int p.y]
  let present ← lift (s.grid.contains key)
  if present then pure ()
  else do
    let cell ← lift (Cell.new content styles nature p.x p.y)
    setItem key cell

/-- `table.fill_missing(bounding_box, content, styles, nature)` (table.py 575-612) -/
def fillMissing (b : Box) (content : Option γ) (styles : Option Styles) (nature : Option String) : PyM (State γ) Unit :=
  forEach (fillOne content styles nature) (Table.boxCoords b)

/-- `view = table.rows[pos]` / `view = table.cols[pos]`: the view which the caller gets (table.py 137-139) -/
def viewAt (ax : Axis) (pos : Int) : PyM (State γ) Nat :=
  onLines ax (do
    PyM.modify (Lines.fit pos false)
    let r ← get
    lift (pyGet r.list (pos - 1)))

/-- what the caller reads in a view which it keeps: `view.owned_cells`, `view.styles`… (table.py 220-240) -/
def look (ax : Axis) (a : Nat) (s : State γ) : Option (View γ) := (s.lines ax).bind (fun r => r.heap[a]?)

/-- `view.styles = …`, `view.nature = …` (styled.py 70-88) -/
def edit (ax : Axis) (a : Nat) (f : View γ → View γ) : PyM (State γ) Unit := fun s =>
  match s.lines ax with
  | none => (.error .attributeError, s)  -- not reachable: the view was made by this list
  | some r => (.ok (), s.setLines ax (r.edit a f))

/-- `view.insert_cell(content, styles, nature, width, height)` (table.py 286-335, 354-403) -/
def insertBy (ax : Axis) (a : Nat) (content : Option γ) (styles : Option Styles) (nature : Option String) (width height : Int) :
    PyM (State γ) Unit := do
  let s ← get
  match s.look ax a with
  | none => raise .attributeError  -- not reachable: the caller has this view
  | some v => do
    let k ← lift (v.freePos ax)
    let nature := nature.or v.nature
    let p := ax.coord v.pos k
    let cell ← lift (Cell.new content styles nature p.x p.y width height)
    setItem (.coord cell.min) cell

end State

/-- the operations: those of the table, and those on a view which the caller keeps (table.py 286-335, 354-403, 406-612, styled.py 70-88) -/
inductive Op (γ : Type) where
  | table (op : Table.Op γ)
  /-- `view.insert_cell(…)` -/
  | insert (ax : Axis) (view : Nat) (content : Option γ) (styles : Option Styles) (nature : Option String) (width height : Int)
  /-- `view.nature = n` -/
  | setNature (ax : Axis) (view : Nat) (n : Option String)
  /-- `view.styles = d` -/
  | setStyles (ax : Axis) (view : Nat) (d : Option Styles)

/-- an operation of the grid, through the table (table.py 524-573) -/
def runGridOp : Grid.Op γ → PyM (State γ) Unit
  | .set v a => do let c ← lift a.build; State.setItem v c
  | .del v => State.delItem v
  | .merge s e f => State.merge s e f
  | .expand v w h f => State.expand v w h f

/-- an operation of the table; the operations on `table.rows[pos]` get the view, then use it (table.py 137-139, 406-612) -/
def runTableOp : Table.Op γ → PyM (State γ) Unit
  | .grid op => runGridOp op
  | .access ax => do let _ ← State.access ax; pure ()
  | .view ax pos => do let _ ← State.viewAt ax pos; pure ()
  | .setNature ax pos n => do let a ← State.viewAt ax pos; State.edit ax a (fun v => { v with nature := n })
  | .setStyles ax pos d => do let a ← State.viewAt ax pos; State.edit ax a (fun v => { v with styles := copyStyles d })
  | .insert ax pos c s n w h => do let a ← State.viewAt ax pos; State.insertBy ax a c s n w h
  | .fill b c s n => State.fillMissing b c s n
  | .looks d n => PyM.modify (fun t => { t with styles := d, nature := n })

/-- execution of one operation -/
def Op.run : Op γ → PyM (State γ) Unit
  | .table op => runTableOp op
  | .insert ax a c s n w h => State.insertBy ax a c s n w h
  | .setNature ax a n => State.edit ax a (fun v => { v with nature := n })
  | .setStyles ax a d => State.edit ax a (fun v => { v with styles := copyStyles d })

/-- state after a history; the caller catches exceptions and goes on -/
def runFrom (s : State γ) (ops : List (Op γ)) : State γ := ops.foldl (fun s op => exec op.run s) s

end Benker.Kept
