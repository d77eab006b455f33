import Verif.Model.Drawing
import Verif.Model.Table
import Verif.Model.Xml

/-! Model of `str()` of the cells, of the row and column views, of the grids and of the tables.  Strings are lists of
characters. -/

namespace Benker
open PyM

/-- `Cell.__str__` (cell.py 212-231) -/
def Cell.str (c : Cell Content) : List Char := (Content.text? c.content).toList

/-- `sep.join(items)` (table.py 221) -/
def joinWith (sep : List Char) : List (List Char) → List Char
  | [] => []
  | [x] => x
  | x :: y :: l => x ++ sep ++ joinWith sep (y :: l)

/-- `TableView.__str__` (table.py 220-222) -/
def View.str (v : View Content) : List Char :=
  "[".toList ++ joinWith ", ".toList (v.owned.map Cell.str) ++ "]".toList

/-- `Grid.__str__` (grid.py 186-187) -/
def Grid.str (g : Grid Content) : Except PyErr (List Char) := Drawing.draw Cell.str g

/-- `Table.__str__` (table.py 488-489) -/
def Table.str (t : Table Content) : Except PyErr (List Char) := t.grid.str

/-- `[str(view) for view in table.rows]` or `table.cols` (table.py 137-151, 175-180, 220-222): reading the views may create them -/
def Table.strViews (ax : Axis) : PyM (Table Content) (List (List Char)) := do
  let vs ← Table.views ax
  pure (vs.map View.str)

end Benker
