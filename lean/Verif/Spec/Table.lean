import Verif.Spec.Grid
import Verif.Model.Table

/-! Specification vocabulary for the views of a table. -/

namespace Benker
variable {γ : Type}

/-- first and last line (row or column number) touched by a cell -/
def firstLine (ax : Axis) (c : Cell γ) : Int := match ax with
  | .row => c.min.y
  | .col => c.min.x
def lastLine (ax : Axis) (c : Cell γ) : Int := match ax with
  | .row => c.max.y
  | .col => c.max.x

/-- the cell starts in the given line -/
def StartsIn (ax : Axis) (pos : Int) (c : Cell γ) : Prop := firstLine ax c = pos
/-- the cell crosses the given line -/
def Crosses (ax : Axis) (pos : Int) (c : Cell γ) : Prop := firstLine ax c ≤ pos ∧ pos ≤ lastLine ax c

instance (ax : Axis) (pos : Int) (c : Cell γ) : Decidable (StartsIn ax pos c) := by unfold StartsIn; infer_instance
instance (ax : Axis) (pos : Int) (c : Cell γ) : Decidable (Crosses ax pos c) := by unfold Crosses; infer_instance

/-- The list of views describes the cells, up to order and repetition: view number `i` is the one of line `i`, it owns exactly the
cells starting there and catches exactly the cells crossing the line, and no line of a cell is missing. -/
structure Describes (ax : Axis) (cells : List (Cell γ)) (vs : List (View γ)) : Prop where
  pos : ∀ i (h : i < vs.length), vs[i].pos = (i : Int) + 1
  owned : ∀ v ∈ vs, ∀ c, c ∈ v.owned ↔ c ∈ cells ∧ StartsIn ax v.pos c
  caught : ∀ v ∈ vs, ∀ c, c ∈ v.caught ↔ c ∈ cells ∧ Crosses ax v.pos c
  enough : ∀ c ∈ cells, lastLine ax c ≤ vs.length

/-- no cell is listed twice by a view -/
def NoRepeat (vs : List (View γ)) : Prop := ∀ v ∈ vs, v.owned.Nodup ∧ v.caught.Nodup

end Benker

namespace Benker
variable {γ : Type}

/-- a table obtained by the constructor followed by any history of operations of the API (failing ones included) -/
def Table.Reachable (t : Table γ) : Prop :=
  ∃ (cells : List (Cell γ)) (st : Option Styles) (n : Option String) (t0 : Table γ) (ops : List (Table.Op γ)),
    (∀ c ∈ cells, c.box.Valid) ∧ Table.new cells st n = .ok t0 ∧ t = Table.runFrom t0 ops

/-- `k` is the first position of the line `pos` which no cell covers -/
def FirstFree (ax : Axis) (pos : Int) (cells : List (Cell γ)) (k : Int) : Prop :=
  1 ≤ k ∧ ¬ Covered cells (ax.coord pos k) ∧ ∀ j, 1 ≤ j → j < k → Covered cells (ax.coord pos j)

/-- the operation assigns styles or nature to the view number `i` (from 0); positions below 1 go through negative
indexing and may reach any view -/
def Table.Op.EditsLooks (op : Table.Op γ) (ax : Axis) (i : Nat) : Prop :=
  match op with
  | .setNature ax' pos _ => ax' = ax ∧ (pos = i + 1 ∨ pos ≤ 0)
  | .setStyles ax' pos _ => ax' = ax ∧ (pos = i + 1 ∨ pos ≤ 0)
  | _ => False

/-- deletion, merge or expansion -/
def Table.Op.Refreshing (op : Table.Op γ) : Prop :=
  match op with
  | .grid (.set _ _) => False
  | .grid _ => True
  | _ => False

end Benker
