import Verif.Model.Cell

/-! Model of `/repo/benker/grid.py`. -/

namespace Benker

/-- `bisect.bisect_left(a, x, lo, hi)` of the Python standard library, with `<` on boxes
(used at grid.py 177 and 260) -/
def bisectLoop (a : List Box) (x : Box) (lo hi : Nat) : Nat :=
  if _h : lo < hi then
    let mid := (lo + hi) / 2
    match a[mid]? with
    | none => lo   -- not reachable: mid < hi ≤ len(a)
    | some b => if b.lt x then bisectLoop a x (mid + 1) hi else bisectLoop a x lo mid
  else lo
termination_by hi - lo

/-- `bisect.bisect_left(a, x)` (grid.py 177, 260) -/
def bisectLeft (a : List Box) (x : Box) : Nat := bisectLoop a x 0 a.length

/-- the list `self._cells` (grid.py 142) -/
structure Grid (γ : Type) where
  cells : List (Cell γ)
deriving DecidableEq

/-- consecutive elements with equal keys are put in the same group: `itertools.groupby` with the
groups turned into tuples (used at grid.py 301-302) -/
def groupBy [DecidableEq κ] (key : α → κ) : List α → List (List α)
  | [] => []
  | x :: xs =>
    match groupBy key xs with
    | (y :: ys) :: rest => if key x = key y then (x :: y :: ys) :: rest else [x] :: (y :: ys) :: rest
    | other => [x] :: other

namespace Grid
variable {γ : Type}
open PyM

/-- `Grid()` (grid.py 130-145) -/
def empty : Grid γ := ⟨[]⟩

/-- `coord in grid` after conversion (grid.py 153) -/
def hasCoord (g : Grid γ) (c : Coord) : Bool := g.cells.any (·.hasCoord c)

/-- `coord in grid` (grid.py 151-153) -/
def contains (g : Grid γ) (v : PyVal) : Except PyErr Bool := do
  let c ← Coord.fromValue v
  pure (g.hasCoord c)

/-- `grid[coord]` after conversion (grid.py 157-160) -/
def getCoord (g : Grid γ) (c : Coord) : Except PyErr (Cell γ) :=
  match g.cells.find? (·.hasCoord c) with
  | some cell => .ok cell
  | none => .error .keyError

/-- `grid[coord]` (grid.py 155-160) -/
def getItem (g : Grid γ) (v : PyVal) : Except PyErr (Cell γ) := do
  let c ← Coord.fromValue v
  g.getCoord c

/-- `del grid[coord]` (grid.py 162-168).  The cells of a grid are distinct objects, and `list.remove`
compares by identity because `Cell` has no `__eq__`: the cell found is the one removed. -/
def delItem (v : PyVal) : PyM (Grid γ) Unit := do
  let c ← lift (Coord.fromValue v)
  let g ← get
  if g.cells.any (·.hasCoord c) then set ⟨g.cells.eraseP (·.hasCoord c)⟩
  else raise .keyError

/-- `grid[coord] = new_cell` (grid.py 170-178) -/
def setItem (v : PyVal) (newCell : Cell γ) : PyM (Grid γ) Unit := do
  let coord ← lift (Coord.fromValue v)
  let newCell ← lift (newCell.moveTo (.coord coord))
  let g ← get
  if g.cells.any (fun cell => cell.box.intersect newCell.box) then raise .keyError
  else do
    let boxes := g.cells.map (·.box)
    let b ← lift (Box.new [.coord newCell.box.min])
    let index := bisectLeft boxes b
    set ⟨g.cells.insertIdx index newCell⟩

/-- `Grid(cells)`: insertion of the cells one after the other (grid.py 130-145) -/
def ofCells (cells : List (Cell γ)) : Except PyErr (Grid γ) :=
  match forEach (fun cell => setItem (.coord cell.min) cell) cells empty with
  | (.ok _, g) => .ok g
  | (.error e, _) => .error e

/-- `len(grid)` (grid.py 180-181) -/
def len (g : Grid γ) : Nat := g.cells.length

/-- `grid.bounding_box` (grid.py 189-196) -/
def boundingBox (g : Grid γ) : Except PyErr (Option Box) :=
  match g.cells.map (·.box) with
  | [] => .ok none
  | b :: bs => (b.union bs).map some

/-- classification of the cells by `merge` (grid.py 236-244): merged and unchanged cells -/
def classify (newBox : Box) : List (Cell γ) → Except PyErr (List (Cell γ) × List (Cell γ))
  | [] => .ok ([], [])
  | cell :: rest =>
    if newBox.hasBox cell.box then
      match classify newBox rest with
      | .error e => .error e
      | .ok (m, u) => .ok (cell :: m, u)
    else if cell.box.intersect newBox then .error .valueError
    else
      match classify newBox rest with
      | .error e => .error e
      | .ok (m, u) => .ok (m, cell :: u)

/-- combination of two contents by `merge` (grid.py 251-256) -/
def mergeContent (appender : γ → γ → Except PyErr γ) : Option γ → Option γ → Except PyErr (Option γ)
  | none, c => .ok c
  | some a, none => .ok (some a)
  | some a, some b => (appender a b).map some

/-- combination of contents and styles by `merge` (grid.py 250-257) -/
def mergeLoop (appender : γ → γ → Except PyErr γ) (newCell : Cell γ) : List (Cell γ) → Except PyErr (Cell γ)
  | [] => .ok newCell
  | cell :: rest =>
    match mergeContent appender newCell.content cell.content with
    | .error e => .error e
    | .ok content =>
      mergeLoop appender { newCell with content := content, styles := newCell.styles.update cell.styles } rest

/-- `grid.merge(start, end, content_appender)` (grid.py 198-262) -/
def merge (start stop : PyVal) (appender : γ → γ → Except PyErr γ) : PyM (Grid γ) (Cell γ) := do
  let startCoord ← lift (Coord.fromValue start)
  let endCoord ← lift (Coord.fromValue stop)
  let newBox ← lift (Box.new [.coord startCoord, .coord endCoord])
  let g ← get
  let (merged, unchanged) ← lift (classify newBox g.cells)
  match merged with
  | [] => raise .valueError
  | first :: rest => do
    let newCell ← lift (first.transform (some newBox.min) (some newBox.size))
    let newCell ← lift (mergeLoop appender newCell rest)
    set ⟨unchanged⟩
    let boxes := unchanged.map (·.box)
    let b ← lift (Box.new [.coord newCell.box.min])
    let index := bisectLeft boxes b
    set ⟨unchanged.insertIdx index newCell⟩
    pure newCell

/-- `grid.expand(coord, width, height, content_appender)` (grid.py 264-296) -/
def expand (v : PyVal) (width height : Int) (appender : γ → γ → Except PyErr γ) : PyM (Grid γ) (Cell γ) := do
  let g ← get
  let cell ← lift (g.getItem v)
  let box := cell.box
  let start := box.min
  let stop := box.max.addSize ⟨width, height⟩
  merge (.coord start) (.coord stop) appender

/-- `grid.iter_rows()` (grid.py 298-302) -/
def iterRows (g : Grid γ) : List (List (Cell γ)) := groupBy (fun c => c.min.y) g.cells

/-! Methods inherited from `collections.abc.MutableMapping` (grid.py 124).  Iterating a grid yields
cells (grid.py 183-184), which the mixins use as keys; `Coord.from_value(cell)` raises `TypeError`. -/

/-- `grid[cell]` where the key is a cell: `Coord.from_value` raises `TypeError` (grid.py 155-160) -/
def getItemCell (g : Grid γ) (_key : Cell γ) : Except PyErr (Cell γ) := g.getItem .other

/-- `Mapping.get(key, default)` (inherited, grid.py 124) -/
def mapGet (g : Grid γ) (v : PyVal) (default : Option (Cell γ)) : Except PyErr (Option (Cell γ)) :=
  match g.getItem v with
  | .ok c => .ok (some c)
  | .error .keyError => .ok default
  | .error e => .error e

/-- `MutableMapping.pop(key)` (without default) (inherited, grid.py 124) -/
def pop (v : PyVal) : PyM (Grid γ) (Cell γ) := do
  let g ← get
  let c ← lift (g.getItem v)
  delItem v
  pure c

/-- `MutableMapping.pop(key, default)` (inherited, grid.py 124) -/
def popDefault (v : PyVal) (default : Option (Cell γ)) : PyM (Grid γ) (Option (Cell γ)) := do
  let g ← get
  match g.getItem v with
  | .error .keyError => pure default
  | .error e => raise e
  | .ok c => do delItem v; pure (some c)

/-- `MutableMapping.setdefault(key, default)` (inherited, grid.py 124) -/
def setDefault (v : PyVal) (default : Cell γ) : PyM (Grid γ) (Cell γ) := do
  let g ← get
  match g.getItem v with
  | .ok c => pure c
  | .error .keyError => do setItem v default; pure default
  | .error e => raise e

/-- `MutableMapping.popitem()`: `key = next(iter(self))`, `KeyError` if empty; `value = self[key]`;
`del self[key]` (inherited, grid.py 124) -/
def popItem : PyM (Grid γ) (Cell γ × Cell γ) := do
  let g ← get
  match g.cells with
  | [] => raise .keyError
  | key :: _ => do
    let value ← lift (g.getItemCell key)
    delItem .other
    pure (key, value)

/-- `MutableMapping.clear()`: `popitem` until `KeyError`; one iteration is enough to describe it, because
`popitem` on a non-empty grid never succeeds (inherited, grid.py 124) -/
def clear : PyM (Grid γ) Unit := fun g =>
  match popItem g with
  | (.error .keyError, g') => (.ok (), g')
  | (.error e, g') => (.error e, g')
  | (.ok _, g') => (.ok (), g')  -- not reachable

/-- `list(grid.items())` (inherited, grid.py 124) -/
def items (g : Grid γ) : Except PyErr (List (Cell γ × Cell γ)) :=
  g.cells.mapM (fun key => (g.getItemCell key).map (fun v => (key, v)))

/-- `list(grid.values())` (inherited, grid.py 124) -/
def values (g : Grid γ) : Except PyErr (List (Cell γ)) := g.cells.mapM (fun key => g.getItemCell key)

/-- `grid.update(other)` where `other` is a grid: `for key in other: self[key] = other[key]` (inherited, grid.py 124) -/
def updateGrid (other : Grid γ) : PyM (Grid γ) Unit :=
  forEach (fun key => do
    let v ← lift (other.getItemCell key)
    setItem .other v) other.cells

/-- `grid.update(pairs)` where `pairs` is a list of (coordinate, cell) pairs or the items of a `dict` (inherited, grid.py 124) -/
def updatePairs (pairs : List (PyVal × Cell γ)) : PyM (Grid γ) Unit :=
  forEach (fun p => setItem p.1 p.2) pairs

/-! Histories -/

/-- arguments of the constructor of `Cell` (cell.py 207) -/
structure CellArgs (γ : Type) where
  content : Option γ
  styles : Option Styles := none
  nature : Option String := none
  x : Int := 1
  y : Int := 1
  width : Int := 1
  height : Int := 1

/-- `Cell(content, styles, nature, x, y, width, height)` (cell.py 207-210) -/
def CellArgs.build (a : CellArgs γ) : Except PyErr (Cell γ) :=
  Cell.new a.content a.styles a.nature a.x a.y a.width a.height

/-- mutating operations of the API of a grid; arguments are arbitrary dynamic values and appenders (grid.py 124-302) -/
inductive Op (γ : Type) where
  | set (coord : PyVal) (cell : CellArgs γ)
  | del (coord : PyVal)
  | merge (start stop : PyVal) (appender : γ → γ → Except PyErr γ)
  | expand (coord : PyVal) (width height : Int) (appender : γ → γ → Except PyErr γ)

/-- execution of one operation (grid.py 124-302) -/
def Op.run : Op γ → PyM (Grid γ) Unit
  | .set v a => do let c ← lift a.build; setItem v c
  | .del v => delItem v
  | .merge s e f => do let _ ← Grid.merge s e f; pure ()
  | .expand v w h f => do let _ ← Grid.expand v w h f; pure ()

/-- state after a history, started from `g`; the caller catches exceptions and goes on (grid.py 124-302) -/
def runFrom (g : Grid γ) (ops : List (Op γ)) : Grid γ := ops.foldl (fun g op => exec op.run g) g

/-- state after a history started from the empty grid (grid.py 124-302) -/
def run (ops : List (Op γ)) : Grid γ := runFrom empty ops

end Grid
end Benker
