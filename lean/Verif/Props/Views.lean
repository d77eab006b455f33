import Verif.Lemmas.Views

/-! C104: the row and column views which a caller keeps. -/

namespace Benker.Kept
variable {γ : Type}
open PyM ViewSpec

/-- a table with two rows, of one cell each, whose second row was read and is kept: `a b` one under the other -/
def keptDemo : State String :=
  runFrom ⟨[], none, ⟨[]⟩, none, none⟩
    [.table (.grid (.set (.tuple [.int 1, .int 1]) ⟨some "a", none, none, 1, 1, 1, 1⟩)),
     .table (.grid (.set (.tuple [.int 1, .int 2]) ⟨some "b", none, none, 1, 1, 1, 1⟩))]

theorem keptDemo_reached : Reached keptDemo := ⟨[], none, none, _, _, by simp, rfl, rfl⟩

/-! ### the same table -/

/-- **C104, the table**: whether the caller keeps views or not, what it sees of the table after any operations of the table is what the model
of the table tells, which reaches the views by their positions only; every operation succeeds or fails in the same way. -/
theorem C104_same_table (s : State γ) (hs : Reached s) (ops : List (Table.Op γ)) (op : Table.Op γ) :
    shown (runFrom s (ops.map .table)) = Table.runFrom (shown s) ops ∧
    eval (Op.table op).run (runFrom s (ops.map .table)) = eval op.run (Table.runFrom (shown s) ops) := by
  have key : ∀ (ops : List (Table.Op γ)) (s : State γ), Sound s → Sound (runFrom s (ops.map .table)) ∧ shown (runFrom s (ops.map .table)) = Table.runFrom (shown s) ops := by
    intro ops
    induction ops with
    | nil => intro s h; exact ⟨h, rfl⟩
    | cons op ops ih =>
      intro s h
      obtain ⟨h1, h2⟩ := (sim_tableOp op s (shown s) ⟨h, rfl⟩).1
      obtain ⟨h3, h4⟩ := ih _ h1
      refine ⟨h3, ?_⟩
      rw [h2] at h4
      exact h4
  obtain ⟨h1, h2⟩ := key ops s (reached_sound hs)
  refine ⟨h2, ?_⟩
  rcases (sim_tableOp op _ _ ⟨h1, h2⟩).2 with ⟨a, b, ha, hb, _⟩ | ⟨e, ha, hb⟩
  · exact ha.trans hb.symm
  · exact ha.trans hb.symm

example : (Table.runFrom (shown keptDemo) [.grid (.del (.tuple [.int 1, .int 2]))]).rows.map (·.map (·.owned.length)) = some [1] := by decide +kernel

/-- **C104, new tables**: both models start from the same tables. -/
theorem C104_new (cells : List (Cell γ)) (styles : Option Styles) (nature : Option String) :
    Table.new cells styles nature = (State.new cells styles nature).map shown := by
  unfold Table.new State.new
  cases Grid.ofCells cells <;> rfl

/-! ### a kept view -/

/-- **C104, kept views**: let `view = table.rows[pos]` (or `table.cols[pos]`), and let any operations follow, of the table, of this view or of other ones which were
kept, whether they succeed or fail.  If the line `pos` never goes away, then `view is table.rows[pos]` after them; it lists exactly the cells of
the table which start in this line, and exactly those which cross it.  (What is missing: see `C104_counterexample`.) -/
theorem C104_kept_partial (s : State γ) (hs : Reached s) (ax : Axis) (pos : Nat) (hpos : 1 ≤ pos) (a : Nat) (s1 : State γ)
    (hview : State.viewAt ax pos s = (.ok a, s1)) (ops : List (Op γ)) (hrem : Remains ax pos s1 ops) :
    State.viewAt ax pos (runFrom s1 ops) = (.ok a, runFrom s1 ops) ∧
    ∃ v, (runFrom s1 ops).look ax a = some v ∧ v.pos = pos ∧
      (∀ c, c ∈ v.owned ↔ c ∈ (runFrom s1 ops).grid.cells ∧ StartsIn ax pos c) ∧
      (∀ c, c ∈ v.caught ↔ c ∈ (runFrom s1 ops).grid.cells ∧ Crosses ax pos c) := by
  have hs1 : Reached s1 := by
    have := reached_view hs ax pos
    unfold exec at this; rwa [hview] at this
  have hat := isAt_remains hpos ops (reached_sound hs1) (viewAt_isAt hpos hview) hrem
  refine ⟨isAt_viewAt hpos hat, ?_⟩
  have hs2 := reached_runFrom hs1 ops
  have hi := reached_inv hs2
  obtain ⟨r, hr, hg⟩ := hat
  have hmade := (reached_sound hs2 ax r hr).made a (List.mem_of_getElem? hg)
  have hd := hi.views ax (seen r) (by rw [shown_lines, hr]; rfl)
  have hlt : pos - 1 < r.list.length := (List.getElem?_eq_some_iff.mp hg).1
  have hlt' : pos - 1 < (seen r).length := by unfold seen; rw [List.length_map]; exact hlt
  have hel : (seen r)[pos - 1] = r.heap[a] := by
    have : (seen r)[pos - 1]? = some r.heap[a] := by
      unfold seen Lines.look
      rw [List.getElem?_map, hg, Option.map_some, List.getElem?_eq_getElem hmade]; rfl
    exact (List.getElem?_eq_some_iff.mp this).2
  have hp := hd.pos (pos - 1) hlt'
  have hp' : r.heap[a].pos = (pos : Int) := by rw [← hel, hp]; omega
  have hmem : r.heap[a] ∈ seen r := hel ▸ List.getElem_mem hlt'
  refine ⟨r.heap[a], ?_, hp', ?_, ?_⟩
  · unfold State.look; rw [hr]; exact List.getElem?_eq_getElem hmade
  · intro c; rw [← hp']; exact hd.owned _ hmem c
  · intro c; rw [← hp']; exact hd.caught _ hmem c

/-- the row 2 of the demonstration is kept; a cell is inserted by it, another one is deleted, a third one is inserted through the table -/
example : ∃ a s1, State.viewAt .row 2 keptDemo = (.ok a, s1) ∧
    Remains .row 2 s1 [.insert .row a (some "c") none none 1 1, .table (.grid (.del (.tuple [.int 1, .int 1]))), .table (.insert .row 2 (some "d") none none 1 1)] ∧
    ((runFrom s1 [.insert .row a (some "c") none none 1 1, .table (.grid (.del (.tuple [.int 1, .int 1]))),
      .table (.insert .row 2 (some "d") none none 1 1)]).look .row a).map (·.owned.map (·.content)) = some [some "b", some "c", some "d"] := by
  refine ⟨1, exec (State.viewAt .row 2) keptDemo, ?_, ⟨?_, ?_, ?_, trivial⟩, ?_⟩ <;> decide +kernel

/-- **C104, use of kept views**: while `view is table.rows[pos]`, inserting a cell by the view, or assigning its nature or its styles, is inserting or assigning
by `table.rows[pos]`: the same effects on everything, the same result. -/
theorem C104_use (s : State γ) (ax : Axis) (pos : Nat) (hpos : 1 ≤ pos) (a : Nat) (hview : State.viewAt ax pos s = (.ok a, s))
    (content : Option γ) (styles : Option Styles) (nature : Option String) (width height : Int) :
    (Op.insert ax a content styles nature width height).run s = (Op.table (.insert ax pos content styles nature width height)).run s ∧
    (Op.setNature ax a nature).run s = (Op.table (.setNature ax pos nature)).run s ∧
    (Op.setStyles ax a styles).run s = (Op.table (.setStyles ax pos styles)).run s := by
  have h := isAt_viewAt hpos (viewAt_isAt hpos hview)
  refine ⟨?_, ?_, ?_⟩
  · show _ = (do let a ← State.viewAt ax pos; State.insertBy ax a content styles nature width height : PyM (State γ) Unit) s
    rw [bind_run, h]; rfl
  · show _ = (do let a ← State.viewAt ax pos; State.edit ax a (fun v => { v with nature := nature }) : PyM (State γ) Unit) s
    rw [bind_run, h]; rfl
  · show _ = (do let a ← State.viewAt ax pos; State.edit ax a (fun v => { v with styles := copyStyles styles }) : PyM (State γ) Unit) s
    rw [bind_run, h]; rfl

example : State.viewAt .row 2 (exec (State.viewAt .row 2) keptDemo) = (.ok 1, exec (State.viewAt .row 2) keptDemo) := by decide +kernel

/-- **C104, what removes no line**: no view goes away as long as no cell is deleted, merged or expanded: not by reading, nor by storing or inserting cells, nor by
filling the table, nor by an exception. -/
theorem C104_never_dropped (s : State γ) (hs : Reached s) (ax : Axis) (pos : Nat) (hpos : 1 ≤ pos) (a : Nat) (s1 : State γ)
    (hview : State.viewAt ax pos s = (.ok a, s1)) (ops : List (Op γ)) (hops : ∀ op ∈ ops, ¬ Removes op) :
    State.viewAt ax pos (runFrom s1 ops) = (.ok a, runFrom s1 ops) := by
  have hat := viewAt_isAt hpos hview
  exact (C104_kept_partial s hs ax pos hpos a s1 hview ops (remains_of_grows ops hops (isAt_count hpos hat))).1

example : ∀ op ∈ [Op.insert .row 1 (some "c") none none 1 1, .table (.fill ⟨⟨1, 1⟩, ⟨3, 3⟩⟩ (some "d") none none)], ¬ Removes op := by
  simp [Removes]

/-! ### a view which was dropped -/

/-- **C104, dropped views**: if an operation makes the line of a kept view go away, then the view is no longer in the list; and it never comes back in it, and never
changes the cells which it lists, whatever is done afterwards, even if the line exists again. -/
theorem C104_dropped (s : State γ) (hs : Reached s) (ax : Axis) (pos : Nat) (hpos : 1 ≤ pos) (a : Nat)
    (hview : State.viewAt ax pos s = (.ok a, s)) (op : Op γ) (hgone : count ax (exec op.run s) < pos) (ops : List (Op γ)) :
    ¬ Listed ax a (runFrom s (op :: ops)) ∧
    ∃ v v', (exec op.run s).look ax a = some v ∧ (runFrom s (op :: ops)).look ax a = some v' ∧ v'.pos = v.pos ∧ v'.owned = v.owned ∧ v'.caught = v.caught := by
  have hsound := reached_sound hs
  have hat := viewAt_isAt hpos hview
  have h1 := (isAt_moved hat (moved_op hsound op) hpos).2 hsound hgone
  have hv : ∃ v, (exec op.run s).look ax a = some v := by
    obtain ⟨r, hr, hg⟩ := hat
    obtain ⟨r', hr', hm⟩ := moved_op hsound op ax r hr
    have hlt := Nat.lt_of_lt_of_le ((hsound ax r hr).made a (List.mem_of_getElem? hg)) hm.len
    exact ⟨r'.heap[a], by unfold State.look; rw [hr']; exact List.getElem?_eq_getElem hlt⟩
  obtain ⟨v, hv⟩ := hv
  obtain ⟨h2, v', h3, h4⟩ := dropped_runFrom ops (op_sound hsound op) hv h1
  refine ⟨h2, v, v', hv, h3, ?_⟩
  unfold cellsOf at h4
  injection h4 with h5 h6
  injection h6 with h6 h7
  exact ⟨h5, h6, h7⟩

example : count .row (exec (Op.table (.grid (.del (.tuple [.int 1, .int 2])))).run (exec (State.viewAt .row 2) keptDemo)) < 2 := by decide +kernel

/-- **C104 is false of the code**: let `view = table.rows[2]`, then delete the only cell of this row.  The view still lists the cell; inserting
by it puts the new cell in column 2, after the cell which is no longer there, where `table.rows[2]` would put it in column 1; it does not list the new cell, so the second
insertion by it is refused with `KeyError`, and it is no longer `table.rows[2]`. -/
theorem C104_counterexample :
    ∃ (s : State String) (a : Nat), Reached s ∧ State.viewAt .row 2 s = (.ok a, s) ∧
      (let s1 := exec (Op.table (.grid (.del (.tuple [.int 1, .int 2])))).run s
       let s2 := exec (Op.insert .row a (some "c") none none 1 1).run s1
       let s2' := exec (Op.table (.insert .row 2 (some "c") none none 1 1)).run s1
       s1.grid.cells.map (·.content) = [some "a"] ∧ (s1.look .row a).map (·.owned.map (·.content)) = some [some "b"] ∧
       s2.grid.cells.map (fun c => (c.content, c.min)) = [(some "a", ⟨1, 1⟩), (some "c", ⟨2, 2⟩)] ∧
       s2'.grid.cells.map (fun c => (c.content, c.min)) = [(some "a", ⟨1, 1⟩), (some "c", ⟨1, 2⟩)] ∧
       (s2.look .row a).map (·.owned.map (·.content)) = some [some "b"] ∧
       eval (Op.insert .row a (some "d") none none 1 1).run s2 = .error .keyError ∧
       eval (State.viewAt .row 2) s2 ≠ .ok a) := by
  refine ⟨exec (State.viewAt .row 2) keptDemo, 1, ?_, ?_⟩
  · exact reached_view keptDemo_reached .row 2
  · decide +kernel

end Benker.Kept
