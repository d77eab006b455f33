import Verif.Model.Digits
import Verif.Model.Table
import Verif.Model.Xml
import Verif.Model.Units

/-! Model of `/repo/benker/parsers/base_parser.py` and of Python functions used by the parsers. -/

namespace Benker

/-- the state of a parser (parsers/base_parser.py 17-42).  `col` is not read by the parsers.  `row` is a row view: only its position and
its nature are read by the parsers. -/
structure PState where
  colPos : Int
  rowPos : Int
  row : Option (Int × Option String)
  table : Option (Table Content)

namespace PState
open PyM

/-- `__init__` / `reset` (base_parser.py 25-32) -/
def init : PState := ⟨0, 0, none, none⟩

/-- `reset` (base_parser.py 32) -/
def reset : PyM PState Unit := PyM.set init

/-- `next_col` (base_parser.py 34-36) -/
def nextCol : PyM PState Unit := PyM.modify (fun s => { s with colPos := s.colPos + 1 })

/-- `next_row` (base_parser.py 38-42) -/
def nextRow : PyM PState Unit := PyM.modify (fun s => { s with colPos := 0, rowPos := s.rowPos + 1, row := none })

/-- a statement on `state.table`; using an attribute of `None` raises `AttributeError` (parsers/base_parser.py 24-29) -/
def onTable (m : PyM (Table Content) α) : PyM PState α := fun s =>
  match s.table with
  | none => (.error .attributeError, s)
  | some t =>
    match m t with
    | (r, t') => (r, { s with table := some t' })

/-- `state.row`, whose attributes are used (parsers/base_parser.py 24-29) -/
def theRow : PyM PState (Int × Option String) := fun s =>
  match s.row with
  | none => (.error .attributeError, s)
  | some r => (.ok r, s)

end PState

/-- the digits of `int(text)` (parsers/cals/__init__.py 409-415) -/
def intDigits (l : List Char) : Except PyErr Nat :=
  if Unicode.grouped l then .ok (Unicode.value (l.filter (· ≠ '_'))) else .error .valueError

/-- `int(text)` (parsers/cals/__init__.py 409-415): spaces, a sign, digits of any script and underscores between them.  Simplified: there is no limit to
the number of digits; before Python 3.6 the underscores are refused. -/
def pyInt (s : String) : Except PyErr Int :=
  match Unicode.strip s.toList with
  | '-' :: l => (intDigits l).map (fun n : Nat => - (n : Int))
  | '+' :: l => (intDigits l).map (fun n : Nat => (n : Int))
  | l => (intDigits l).map (fun n : Nat => (n : Int))

/-- `int(re.findall(r"\d+", text)[0])` (parsers/cals/__init__.py 409-410, parsers/formex.py 573-574) -/
def firstInt (s : String) : Except PyErr Int :=
  match Re.find1 (Re.plus Unicode.isDigit) s.toList with
  | none => .error .indexError
  | some l => .ok (Unicode.value l : Nat)

end Benker
