import Verif.Props.Table
import Verif.Props.Drawing
import Verif.Model.Printing
import Verif.Spec.Printing

/-! C112: printing rows, columns and tables. -/

namespace Benker
open PyM Drawing

theorem cellStr_eq (c : Cell Content) : c.str = printed c := by
  unfold Cell.str printed Content.text?
  cases c.content <;> rfl

theorem joinWith_eq (sep : List Char) : ∀ l : List (List Char), joinWith sep l = sep.intercalate l
  | [] => rfl
  | [x] => by simp [joinWith, List.intercalate, List.intersperse]
  | x :: y :: l => by
    have := joinWith_eq sep (y :: l)
    simp only [joinWith, this, List.intercalate, List.intersperse, List.flatten_cons, List.append_assoc]

theorem viewStr_eq (v : View Content) : v.str = bracketed (v.owned.map printed) := by
  have e : Cell.str = printed := funext cellStr_eq
  rw [View.str, joinWith_eq, e]; rfl

/-- **C112, part proved for every history**: printing the rows (or the columns) of a table never fails and changes no cell; line
`i` shows the texts of the cells which start in line `i`, all of them and no other, between brackets. -/
theorem C112_lines_partial (t : Table Content) (ht : t.Reachable) (ax : Axis) :
    ∃ shown : List (List (Cell Content)),
      eval (Table.strViews ax) t = .ok (shown.map (fun cells => bracketed (cells.map printed))) ∧
      (exec (Table.strViews ax) t).grid = t.grid ∧
      (∀ i (h : i < shown.length) c, c ∈ shown[i] ↔ c ∈ t.grid.cells ∧ StartsIn ax ((i : Int) + 1) c) ∧
      (∀ c ∈ t.grid.cells, lastLine ax c ≤ shown.length) := by
  obtain ⟨vs, h1, h2, _, hd⟩ := C31_views_cells_partial t ht ax
  have hrun : Table.strViews ax t = (.ok (vs.map View.str), exec (Table.views ax) t) := by
    have : Table.views ax t = (.ok vs, exec (Table.views ax) t) := by
      unfold eval at h1; unfold exec; rw [← h1]
    simp only [Table.strViews, bind_run, this]; rfl
  refine ⟨vs.map (·.owned), ?_, ?_, ?_, ?_⟩
  · simp only [eval, hrun, List.map_map]
    congr 1
    exact List.map_congr_left (fun v _ => viewStr_eq v)
  · simp only [exec, hrun]; exact h2
  · intro i h c
    have h' : i < vs.length := by simpa using h
    rw [List.getElem_map, hd.owned _ (List.getElem_mem h'), hd.pos i h']
  · intro c hc; simpa using hd.enough c hc

/-- **C112 is false of the code as it stands**: a row whose only cell is `a` is printed `[a, a]`, when the cell was stored before
the rows were read. -/
theorem C112_counterexample :
    ∃ t : Table Content, t.Reachable ∧ t.grid.cells.map printed = [['a']] ∧
      eval (Table.strViews .row) t = .ok ["[a, a]".toList] := by
  refine ⟨Table.runFrom ⟨[], none, ⟨[]⟩, none, none⟩ [.grid (.set (.tuple [.int 1, .int 1]) ⟨some (.text "a"), none, none, 1, 1, 1, 1⟩)],
    ⟨[], none, none, _, _, by simp, rfl, rfl⟩, ?_, ?_⟩ <;> decide +kernel

/-- **C112, exact part**: if `table.rows` and `table.cols` are read right after construction, then after any history each line
shows the text of each cell which starts there exactly once. -/
theorem C112_lines_exact_partial (cells : List (Cell Content)) (hcells : ∀ c ∈ cells, c.box.Valid) (st : Option Styles)
    (n : Option String) (t0 t : Table Content) (h0 : Table.new cells st n = .ok t0) (ops : List (Table.Op Content)) (ax : Axis)
    (ht : t = Table.runFrom t0 (.access .row :: .access .col :: ops)) :
    ∃ shown : List (List (Cell Content)),
      eval (Table.strViews ax) t = .ok (shown.map (fun cells => bracketed (cells.map printed))) ∧
      (∀ i (h : i < shown.length), shown[i].Nodup ∧ ∀ c, c ∈ shown[i] ↔ c ∈ t.grid.cells ∧ StartsIn ax ((i : Int) + 1) c) ∧
      (∀ c ∈ t.grid.cells, lastLine ax c ≤ shown.length) := by
  subst ht
  obtain ⟨vs, h1, hd, hn⟩ := C31_views_exact_partial cells hcells st n t0 h0 ops ax
  have hinv := (Table.Reachable.inv ⟨cells, st, n, t0, _, hcells, h0, rfl⟩ :
    (Table.runFrom t0 (.access .row :: .access .col :: ops)).Inv)
  have hrun := Table.views_run ax _ hinv.grid
  have hb : (Table.runFrom t0 (.access .row :: .access .col :: ops)).baseViews ax = vs := by
    simp [Table.baseViews, h1]
  refine ⟨vs.map (·.owned), ?_, ?_, ?_⟩
  · simp only [eval, Table.strViews, bind_run, hrun, hb]
    show Except.ok (vs.map View.str) = _
    rw [List.map_map]
    congr 1
    exact List.map_congr_left (fun v _ => viewStr_eq v)
  · intro i h
    have h' : i < vs.length := by simpa using h
    rw [List.getElem_map]
    refine ⟨(hn _ (List.getElem_mem h')).1, fun c => ?_⟩
    rw [hd.owned _ (List.getElem_mem h'), hd.pos i h']
  · intro c hc; simpa using hd.enough c hc

/-- **C112, order**: after a successful deletion, merge or expansion, line `i` shows the texts of the cells which start there, each
once, in reading order. -/
theorem C112_lines_refreshed_partial (t : Table Content) (ht : t.Reachable) (op : Grid.Op Content)
    (hop : (Table.Op.grid op).Refreshing) (hok : eval (Table.runGridOp op) t = .ok ()) (ax : Axis) :
    ∃ lines, eval (Table.strViews ax) (exec (Table.runGridOp op) t) = .ok lines ∧
      (∀ c ∈ (exec (Table.runGridOp op) t).grid.cells, lastLine ax c ≤ lines.length) ∧
      ∀ i (h : i < lines.length),
        lines[i] = bracketed (((exec (Table.runGridOp op) t).grid.cells.filter (fun c => StartsIn ax ((i : Int) + 1) c)).map printed) := by
  obtain ⟨vs, h1, hc, hv⟩ := C32_refresh t ht op hop hok ax
  have hrun : Table.views ax (exec (Table.runGridOp op) t) = (.ok vs, exec (Table.views ax) (exec (Table.runGridOp op) t)) := by
    have : ∀ t' : Table Content, Table.getViews ax t' = some vs → Table.views ax t' = (.ok vs, exec (Table.views ax) t') := by
      intro t' h; simp [exec, Table.views, h]
    exact this _ h1
  refine ⟨vs.map View.str, ?_, ?_, ?_⟩
  · simp only [eval, Table.strViews, bind_run, hrun]; rfl
  · intro c hm
    rcases hc with ⟨he, _⟩ | ⟨_, hl⟩
    · rw [he] at hm; cases hm
    · simpa using hl c hm
  · intro i h
    have h' : i < vs.length := by simpa using h
    rw [List.getElem_map, viewStr_eq, (hv i h').2.1]

/-- the texts between brackets can be told from each other, if there is a text and no text has a comma -/
theorem C112_texts_told (a b : List (List Char)) (ha : a ≠ []) (hb : b ≠ []) (hac : ∀ x ∈ a, ',' ∉ x) (hbc : ∀ x ∈ b, ',' ∉ x)
    (h : bracketed a = bracketed b) : a = b := by
  have split : ∀ (x y r s : List Char), ',' ∉ x → ',' ∉ y → x ++ ',' :: r = y ++ ',' :: s → x = y ∧ r = s := by
    intro x
    induction x with
    | nil =>
      intro y r s _ hy e
      cases y with
      | nil => simpa using e
      | cons c y => simp at e; exact absurd e.1 (by intro e'; exact hy (by rw [e']; exact List.mem_cons_self))
    | cons c x ih =>
      intro y r s hx hy e
      cases y with
      | nil => simp at e; exact absurd e.1 (by intro e'; exact hx (by rw [e']; exact List.mem_cons_self))
      | cons d y =>
        simp only [List.cons_append, List.cons.injEq] at e
        obtain ⟨h1, h2⟩ := ih y r s (fun m => hx (by simp [m])) (fun m => hy (by simp [m])) e.2
        exact ⟨by rw [e.1, h1], h2⟩
  have one : ∀ x : List Char, [',', ' '].intercalate [x] = x := by
    intro x; simp [List.intercalate, List.intersperse]
  have two : ∀ (x y : List Char) l, [',', ' '].intercalate (x :: y :: l) = x ++ ',' :: (' ' :: [',', ' '].intercalate (y :: l)) := by
    intro x y l; simp [List.intercalate, List.intersperse]
  have main : ∀ (a b : List (List Char)), a ≠ [] → b ≠ [] → (∀ x ∈ a, ',' ∉ x) → (∀ x ∈ b, ',' ∉ x) →
      [',', ' '].intercalate a = [',', ' '].intercalate b → a = b := by
    intro a
    induction a with
    | nil => intro b h; exact absurd rfl h
    | cons x a ih =>
      intro b _ hb hac hbc e
      cases b with
      | nil => exact absurd rfl hb
      | cons y b =>
        cases a with
        | nil =>
          cases b with
          | nil => rw [one, one] at e; rw [e]
          | cons z b =>
            rw [one, two] at e
            exact absurd (show ',' ∈ x by rw [e]; simp) (hac x (by simp))
        | cons w a =>
          cases b with
          | nil =>
            rw [one, two] at e
            exact absurd (show ',' ∈ y by rw [← e]; simp) (hbc y (by simp))
          | cons z b =>
            rw [two, two] at e
            obtain ⟨e1, e2⟩ := split _ _ _ _ (hac x (by simp)) (hbc y (by simp)) e
            rw [e1, ih (z :: b) (by simp) (by simp) (fun q hq => hac q (by simp [hq])) (fun q hq => hbc q (by simp [hq]))
              (by simpa using e2)]
  refine main a b ha hb hac hbc ?_
  simpa [bracketed] using h

/-! ### examples -/

/-- a table with a wide cell, a tall cell with a list of strings, and a cell without content -/
def printDemo : Table Content := Table.runFrom ⟨[], none, ⟨[]⟩, none, none⟩
  [.access .row, .access .col,
   .grid (.set (.tuple [.int 1, .int 1]) ⟨some (.text "red"), none, none, 1, 1, 2, 1⟩),
   .grid (.set (.tuple [.int 3, .int 1]) ⟨some (.seq [some (.text "pi"), none, some (.text "nk")]), none, none, 1, 1, 1, 2⟩),
   .grid (.set (.tuple [.int 1, .int 2]) ⟨none, none, none, 1, 1, 1, 1⟩),
   .grid (.set (.tuple [.int 2, .int 2]) ⟨some (.num "3.14"), none, none, 1, 1, 1, 1⟩)]

example : printDemo.Reachable := ⟨[], none, none, _, _, by simp, rfl, rfl⟩
example : eval (Table.strViews .row) printDemo = .ok ["[red, pink]".toList, "[, 3.14]".toList] := by decide +kernel
example : eval (Table.strViews .col) printDemo = .ok ["[red, ]".toList, "[3.14]".toList, "[pink]".toList] := by decide +kernel
example : (Table.Op.grid (.del (.tuple [.int 1, .int 2]) : Grid.Op Content)).Refreshing ∧
    (eval (Table.runGridOp (.del (.tuple [.int 1, .int 2]))) printDemo matches .ok ()) ∧
    eval (Table.strViews .row) (exec (Table.runGridOp (.del (.tuple [.int 1, .int 2]))) printDemo) =
      .ok ["[red, pink]".toList, "[3.14]".toList] := by
  refine ⟨trivial, ?_, ?_⟩ <;> decide +kernel

/-- the conditions are needed: an empty line is printed like a line with one empty cell, and `a, b` like `a` and `b` -/
theorem C112_texts_confused : bracketed [] = bracketed [[]] ∧ bracketed ["a, b".toList] = bracketed [['a'], ['b']] := by decide

/-- **C112, drawing**: printing a table without overlapping cells shows the text of each cell once, in the middle of the cell. -/
theorem C112_table_drawn (t : Table Content) (ht : t.Reachable) (hd : DisjointCells t.grid.cells)
    (hs : ∀ c ∈ t.grid.cells, SingleLine (printed c)) (bb : Box) (hbb : t.grid.boundingBox = .ok (some bb)) :
    ∃ lines, t.str = .ok (['\n'].intercalate lines) ∧ (∀ l ∈ lines, '\n' ∉ l) ∧
      (lines.length : Int) = 2 * bb.height + 1 ∧ (∀ l ∈ lines, (l.length : Int) = 12 * bb.width + 1) ∧
      (∀ c ∈ t.grid.cells, InBox (middle c.box) c.box ∧ ∃ x, tileText lines bb (middle c.box) = some x ∧ Centred (printed c) x) ∧
      (∀ p, InBox p bb → (∀ c ∈ t.grid.cells, p ≠ middle c.box) → tileText lines bb p = some (List.replicate 9 ' ')) := by
  have hg : t.grid.Inv := ht.inv.grid
  have hs' : ∀ c ∈ t.grid.cells, SingleLine (Cell.str c) := fun c hc => by rw [cellStr_eq]; exact hs c hc
  obtain ⟨lines, e1, e2, e3, e4, e5, e6⟩ := text_drawn_once_of_inv t.grid hg hd Cell.str hs' bb hbb
  refine ⟨lines, e1, e2, e3, e4, fun c hc => ?_, e6⟩
  rw [← cellStr_eq]
  exact e5 c hc

example : (∀ c ∈ printDemo.grid.cells, SingleLine (printed c)) ∧ DisjointCells printDemo.grid.cells ∧
    printDemo.grid.boundingBox = .ok (some ⟨⟨1, 1⟩, ⟨3, 2⟩⟩) ∧
    printDemo.str = .ok (['\n'].intercalate
      ["+-----------------------+-----------+".toList,
       "|    red                |   pink    |".toList,
       "+-----------+-----------|           |".toList,
       "|           |   3.14    |           |".toList,
       "+-----------+-----------+-----------+".toList]) := by
  refine ⟨by unfold SingleLine; decide +kernel, ?_, ?_, ?_⟩
  · have : ∀ a b : Cell Content, (a.box.intersect b.box = false ∧ ¬ (a.box.min.x ≤ b.box.max.x ∧ b.box.min.x ≤ a.box.max.x ∧ a.box.min.y ≤ b.box.max.y ∧ b.box.min.y ≤ a.box.max.y)) → ¬ Overlap a.box b.box := by
      rintro a b ⟨_, h⟩ ⟨q, h1, h2⟩
      apply h; unfold InBox at h1 h2; omega
    unfold DisjointCells
    exact List.Pairwise.imp (fun h => this _ _ h) (by decide +kernel)
  · decide +kernel
  · decide +kernel

end Benker
