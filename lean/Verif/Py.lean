/-
Python run-time notions shared by the whole model: exceptions, state with exceptions
(no rollback), insertion-ordered dictionaries and list access.
-/

namespace Benker

/-- Python exceptions raised by the modelled code (only the class is kept, not the message). -/
inductive PyErr where
  | typeError
  | valueError
  | keyError
  | indexError
  | attributeError
  | zeroDivisionError
  | assertionError
  | notImplementedError
  | recursionError
  | unboundLocalError
  | stopIteration
  /-- `OSError`: a file cannot be read or written -/
  | osError
  /-- any exception raised by user-supplied code (e.g. a content appender) -/
  | user (tag : Nat)
deriving DecidableEq, Repr

instance [DecidableEq ε] [DecidableEq α] : DecidableEq (Except ε α)
  | .ok a, .ok b => if h : a = b then isTrue (by rw [h]) else isFalse (by simpa using h)
  | .error a, .error b => if h : a = b then isTrue (by rw [h]) else isFalse (by simpa using h)
  | .ok _, .error _ => isFalse (by simp)
  | .error _, .ok _ => isFalse (by simp)

/-- A statement acting on a mutable object of type `σ`: it returns a value or raises, and in both
cases leaves the object in some state.  Raising does *not* restore the previous state. -/
def PyM (σ α : Type) : Type := σ → Except PyErr α × σ

namespace PyM
variable {σ α β : Type}

def ret (a : α) : PyM σ α := fun s => (.ok a, s)

protected def bind (m : PyM σ α) (f : α → PyM σ β) : PyM σ β := fun s =>
  match m s with
  | (.ok a, s') => f a s'
  | (.error e, s') => (.error e, s')

instance : Monad (PyM σ) where
  pure := ret
  bind := PyM.bind

def raise (e : PyErr) : PyM σ α := fun s => (.error e, s)
def get : PyM σ σ := fun s => (.ok s, s)
def set (s : σ) : PyM σ Unit := fun _ => (.ok (), s)
def modify (f : σ → σ) : PyM σ Unit := fun s => (.ok (), f s)
/-- evaluate an expression which may raise but has no side effect -/
def lift (e : Except PyErr α) : PyM σ α := fun s => (e, s)

/-- the state left by a statement -/
def exec (m : PyM σ α) (s : σ) : σ := (m s).2
/-- the value (or exception) of a statement -/
def eval (m : PyM σ α) (s : σ) : Except PyErr α := (m s).1

@[simp] theorem pure_run (a : α) (s : σ) : (pure a : PyM σ α) s = (.ok a, s) := rfl
@[simp] theorem ret_run (a : α) (s : σ) : (ret a : PyM σ α) s = (.ok a, s) := rfl
@[simp] theorem raise_run (e : PyErr) (s : σ) : (raise e : PyM σ α) s = (.error e, s) := rfl
@[simp] theorem get_run (s : σ) : (get : PyM σ σ) s = (.ok s, s) := rfl
@[simp] theorem set_run (s t : σ) : (set t : PyM σ Unit) s = (.ok (), t) := rfl
@[simp] theorem modify_run (f : σ → σ) (s : σ) : (modify f : PyM σ Unit) s = (.ok (), f s) := rfl
@[simp] theorem lift_run (e : Except PyErr α) (s : σ) : (lift e : PyM σ α) s = (e, s) := rfl

theorem bind_run (m : PyM σ α) (f : α → PyM σ β) (s : σ) :
    (m >>= f) s = match m s with
      | (.ok a, s') => f a s'
      | (.error e, s') => (.error e, s') := rfl

/-- Python `for x in xs: body(x)`. -/
def forEach (body : α → PyM σ Unit) : List α → PyM σ Unit
  | [] => ret ()
  | x :: xs => PyM.bind (body x) (fun _ => forEach body xs)

end PyM

/-- Python `dict`: insertion-ordered association list (keys are kept distinct by `set`). -/
abbrev Dict (κ ν : Type) := List (κ × ν)

namespace Dict
variable {κ ν : Type} [DecidableEq κ]

/-- `d.get(k)` -/
def get? (d : Dict κ ν) (k : κ) : Option ν := (d.find? (fun p => p.1 = k)).map (·.2)

/-- `k in d` -/
def has (d : Dict κ ν) (k : κ) : Bool := (get? d k).isSome

/-- `d[k] = v`: replaces in place if `k` is present, else appends at the end. -/
def set (d : Dict κ ν) (k : κ) (v : ν) : Dict κ ν :=
  match d with
  | [] => [(k, v)]
  | (k', v') :: rest => if k' = k then (k, v) :: rest else (k', v') :: set rest k v

/-- `d.update(e)` -/
def update (d e : Dict κ ν) : Dict κ ν := e.foldl (fun acc p => set acc p.1 p.2) d

/-- `del d[k]` / `d.pop(k, None)` -/
def erase (d : Dict κ ν) (k : κ) : Dict κ ν := d.filter (fun p => p.1 ≠ k)

/-- keys in order -/
def keys (d : Dict κ ν) : List κ := d.map (·.1)

end Dict

/-- `seq[i]` for `0 ≤ i`: raises `IndexError` out of range. -/
def pyGetNat (l : List α) (i : Nat) : Except PyErr α :=
  match l[i]? with
  | some a => .ok a
  | none => .error .indexError

/-- `seq[i]` for any Python integer `i`, with negative indexes counted from the end. -/
def pyGet (l : List α) (i : Int) : Except PyErr α :=
  if 0 ≤ i then pyGetNat l i.toNat
  else if 0 ≤ (l.length : Int) + i then pyGetNat l ((l.length : Int) + i).toNat
  else .error .indexError

/-- `range(a, b)` -/
def pyRange (a b : Int) : List Int := (List.range (b - a).toNat).map (fun (i : Nat) => a + (i : Int))

/-- `text.split(sep)` for a one-character separator -/
def splitChar (sep : Char) : List Char → List (List Char)
  | [] => [[]]
  | c :: s =>
    if c = sep then [] :: splitChar sep s
    else
      match splitChar sep s with
      | w :: ws => (c :: w) :: ws
      | [] => [[c]]

theorem mem_pyRange {a b i : Int} : i ∈ pyRange a b ↔ a ≤ i ∧ i < b := by
  simp only [pyRange, List.mem_map, List.mem_range]
  constructor
  · rintro ⟨k, hk, rfl⟩; omega
  · rintro ⟨h1, h2⟩; exact ⟨(i - a).toNat, by omega, by omega⟩

end Benker
