import Verif.Model.Cell

/-! Model of the *identity* of style dictionaries (`/repo/benker/styled.py`), with an explicit heap.

`Cell.lean` models styles as values; this module justifies it: dictionaries are mutable objects, and what
matters is which objects are shared. -/

namespace Benker.Heap

/-- A state: the dictionaries allocated so far (the address is the index), the address of the dictionary `_styles` of each
styled object (cell, row view, table…), and the addresses known to the caller through variables. (styled.py 15-88) -/
structure State where
  heap : List Styles
  objs : List Nat
  vars : List Nat
deriving DecidableEq

/-- no object has been created (styled.py 15-88) -/
def init : State := ⟨[], [], []⟩

/-- the styles seen through an object: `obj.styles` (styled.py 79-82) -/
def State.view (s : State) (o : Nat) : Option Styles := do
  let a ← s.objs[o]?
  s.heap[a]?

/-- the caller-visible operations (styled.py 15-88) -/
inductive Op where
  /-- the caller creates a dictionary `d = {...}` -/
  | mkDict (d : Styles)
  /-- `d = obj.styles` -/
  | read (o : Nat)
  /-- `Styled(d, nature)`, `Cell(content, styles=d)` (`none` for `None`; styled.py 50-68, 84-88, cell.py 207-210) -/
  | create (v : Option Nat)
  /-- `obj.styles = d` (styled.py 84-88) -/
  | assign (o : Nat) (v : Option Nat)
  /-- `cell.transform(...)`, `move_to`, `resize` (cell.py 305-315): a new cell built from `self.styles` -/
  | transform (o : Nat)
  /-- styles part of `grid.merge` (grid.py 249-257): `first.transform(...)`, then `new_cell.styles.update(cell.styles)` -/
  | merge (first : Nat) (rest : List Nat)
  /-- `d[k] = x` through a variable -/
  | edit (v : Nat) (k : String) (x : StyleVal)
  /-- `d.clear()` through a variable -/
  | clear (v : Nat)

/-- a new object whose dictionary is a fresh copy of the one at the given address (styled.py 88) -/
def State.alloc (s : State) (d : Styles) : State := ⟨s.heap ++ [d], s.objs ++ [s.heap.length], s.vars⟩

/-- One operation; operations on unknown objects or variables do nothing. (styled.py 50-88) -/
def step (s : State) : Op → State
  | .mkDict d => ⟨s.heap ++ [d], s.objs, s.vars ++ [s.heap.length]⟩
  | .read o =>
    match s.objs[o]? with
    | some a => ⟨s.heap, s.objs, s.vars ++ [a]⟩
    | none => s
  | .create none => s.alloc []
  | .create (some v) =>
    match s.vars[v]? with
    | some a => s.alloc (s.heap[a]?.getD [])
    | none => s
  | .assign o none => ⟨s.heap ++ [[]], s.objs.set o s.heap.length, s.vars⟩
  | .assign o (some v) =>
    match s.vars[v]? with
    | some a => ⟨s.heap ++ [s.heap[a]?.getD []], s.objs.set o s.heap.length, s.vars⟩
    | none => s
  | .transform o =>
    match s.objs[o]? with
    | some a => s.alloc (s.heap[a]?.getD [])
    | none => s
  | .merge first rest =>
    match s.objs[first]? with
    | some a => s.alloc (rest.foldl (fun d o => d.update ((s.view o).getD [])) (s.heap[a]?.getD []))
    | none => s
  | .edit v k x =>
    match s.vars[v]? with
    | some a => ⟨s.heap.modify a (fun d => d.set k x), s.objs, s.vars⟩
    | none => s
  | .clear v =>
    match s.vars[v]? with
    | some a => ⟨s.heap.modify a (fun _ => []), s.objs, s.vars⟩
    | none => s

/-- state after a history (styled.py 15-88) -/
def run (ops : List Op) : State := ops.foldl step init

end Benker.Heap
