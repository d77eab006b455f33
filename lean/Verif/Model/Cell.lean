import Verif.Model.Geometry

/-! Model of the class `Cell` of `/repo/benker/cell.py` and of `Styled` (`/repo/benker/styled.py`) as values. -/

namespace Benker

/-- Value of a style.  Styles are "user-defined" (styled.py 19-23); the library itself stores
strings, booleans, integers and pairs of integers. -/
inductive StyleVal where
  | none
  | str (s : String)
  | bool (b : Bool)
  | int (i : Int)
  | pair (a b : Int)
deriving DecidableEq, Repr

/-- dictionary of styles (styled.py 84-88) -/
abbrev Styles := Dict String StyleVal

/-- `Styled.styles` setter: `{}` for `None`, otherwise a copy (styled.py 84-88); as values are
immutable in Lean the copy is the dictionary itself -/
def copyStyles : Option Styles → Styles
  | none => []
  | some d => d

/-- A cell: content (`none` is Python `None`), styles, nature, box (cell.py 205-210, styled.py 50-68).
`γ` is the arbitrary type of contents. -/
structure Cell (γ : Type) where
  content : Option γ
  styles : Styles
  nature : Option String
  box : Box
deriving DecidableEq

namespace Cell
variable {γ : Type}

/-- `Cell.__init__` (cell.py 207-210) -/
def new (content : Option γ) (styles : Option Styles := none) (nature : Option String := none)
    (x y width height : Int := 1) : Except PyErr (Cell γ) :=
  match Box.make x y (x + width - 1) (y + height - 1) with
  | .error e => .error e
  | .ok b => .ok ⟨content, copyStyles styles, nature, b⟩

/-- `Cell.min` (cell.py 255-258) -/
def min (c : Cell γ) : Coord := c.box.min
/-- `Cell.max` (cell.py 260-263) -/
def max (c : Cell γ) : Coord := c.box.max
/-- `Cell.size` (cell.py 265-268) -/
def size (c : Cell γ) : Size := c.box.size
/-- `Cell.width` (cell.py 270-273) -/
def width (c : Cell γ) : Int := c.box.width
/-- `Cell.height` (cell.py 275-278) -/
def height (c : Cell γ) : Int := c.box.height
/-- `coord in cell` (cell.py 280-281) -/
def hasCoord (c : Cell γ) (p : Coord) : Bool := c.box.hasCoord p
/-- `other in cell` (cell.py 280-281) -/
def contains (c : Cell γ) (v : PyVal) : Except PyErr Bool := c.box.contains v

/-- `Cell.transform` after conversion of the arguments (cell.py 292-315) -/
def transform (c : Cell γ) (coord : Option Coord) (size : Option Size) : Except PyErr (Cell γ) :=
  match c.box.transform coord size with
  | .error e => .error e
  | .ok b => Cell.new c.content (some c.styles) c.nature b.min.x b.min.y b.width b.height

/-- `Cell.transform(coord, size)` on dynamic arguments (cell.py 292-315) -/
def transformV (c : Cell γ) (coord size : PyVal) : Except PyErr (Cell γ) :=
  match c.box.transformV coord size with
  | .error e => .error e
  | .ok b => Cell.new c.content (some c.styles) c.nature b.min.x b.min.y b.width b.height

/-- `Cell.move_to` (cell.py 317-329) -/
def moveTo (c : Cell γ) (coord : PyVal) : Except PyErr (Cell γ) := c.transformV coord .none

/-- `Cell.resize` (cell.py 331-343) -/
def resize (c : Cell γ) (size : PyVal) : Except PyErr (Cell γ) := c.transformV .none size

/-! Ordering (cell.py 183, 285-290).  `functools.total_ordering` derives `>`, `<=`, `>=` from
`__lt__` and `==`; `Cell` does not define `__eq__`, so `==` is object identity.  `same` tells whether
the two operands are the same object. -/

/-- `a < b` between cells (cell.py 285-287) -/
def lt (a b : Cell γ) : Bool := a.box.lt b.box
/-- `cell < box` (cell.py 288-289) -/
def ltBox (a : Cell γ) (b : Box) : Bool := a.box.lt b
/-- `a > b`: `not a < b and a is not b` (cell.py 183, functools.total_ordering) -/
def gt (same : Bool) (a b : Cell γ) : Bool := !a.lt b && !same
/-- `a <= b`: `a < b or a is b` (cell.py 183, functools.total_ordering) -/
def le (same : Bool) (a b : Cell γ) : Bool := a.lt b || same
/-- `a >= b`: `not a < b` (cell.py 183, functools.total_ordering) -/
def ge (a b : Cell γ) : Bool := !a.lt b
/-- `box < cell`: `Box.__lt__` returns `NotImplemented` (box.py 341) so Python evaluates the reflected
`cell > box`, i.e. `not cell < box and cell != box` where a cell never equals a box -/
def boxLt (b : Box) (a : Cell γ) : Bool := !a.ltBox b && true
/-- `cell > box` (cell.py 183, functools.total_ordering) -/
def gtBox (a : Cell γ) (b : Box) : Bool := !a.ltBox b && true

end Cell
end Benker
