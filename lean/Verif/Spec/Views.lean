import Verif.Model.Views
import Verif.Spec.Table

/-! What the views which a caller keeps should show (C104). -/

namespace Benker.ViewSpec
variable {γ : Type}
open Benker.Kept

/-- what a list of views shows, view after view -/
def seen (r : Lines γ) : List (View γ) := r.list.map r.look

/-- what the caller sees of a table: its grid, its styles, and what `table.rows` and `table.cols` show, if they were read -/
def shown (s : State γ) : Table γ := ⟨s.styles, s.nature, s.grid, s.rows.map seen, s.cols.map seen⟩

/-- the number of views of `table.rows` (`len(table.rows)`) or of `table.cols`; 0 before the first access -/
def count (ax : Axis) (s : State γ) : Nat :=
  match s.lines ax with
  | none => 0
  | some r => r.list.length

/-- `view is table.rows[pos]`: the view at this address is the one which the list has at this position -/
def IsAt (ax : Axis) (a : Nat) (pos : Nat) (s : State γ) : Prop := ∃ r, s.lines ax = some r ∧ r.list[pos - 1]? = some a

/-- `any(view is v for v in table.rows)` -/
def Listed (ax : Axis) (a : Nat) (s : State γ) : Prop := ∃ r, s.lines ax = some r ∧ a ∈ r.list

/-- The line `pos` remains: there are at least `pos` lines after each of these operations. -/
def Remains (ax : Axis) (pos : Nat) (s : State γ) : List (Op γ) → Prop
  | [] => True
  | op :: ops => pos ≤ count ax (PyM.exec op.run s) ∧ Remains ax pos (PyM.exec op.run s) ops

/-- the operations which may remove lines: `del table[coord]`, `table.merge(…)` and `table.expand(…)` -/
def Removes : Op γ → Prop
  | .table (.grid (.set _ _)) => False
  | .table (.grid _) => True
  | _ => False

/-- the states which a caller may reach, from a new table, by any operations, on the table or on views which it has kept -/
def Reached (s : State γ) : Prop :=
  ∃ cells styles nature s0 ops, (∀ c ∈ cells, c.box.Valid) ∧ State.new cells styles nature = .ok s0 ∧ runFrom s0 ops = s

end Benker.ViewSpec
