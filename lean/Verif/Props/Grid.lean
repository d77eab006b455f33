import Verif.Lemmas.Grid
import Verif.Props.Geometry

/-! Properties C17–C22: grids under arbitrary histories.

`Grid.run ops` is the grid left by an arbitrary list of operations with arbitrary dynamically typed arguments and
arbitrary content appenders, where exceptions are caught and the history goes on.
`g.cells` is the sequence obtained by iterating the grid. -/

namespace Benker
variable {γ : Type}
open PyM

/-! ### C17 -/

/-- **C17.** Iteration is always in strict reading order of the top-left corners. -/
theorem C17_reading_order (ops : List (Grid.Op γ)) :
    (Grid.run ops).cells.Pairwise (fun a b => CornerBefore a.min b.min) :=
  (run_inv ops).sorted

/-- **C17.** Hence the cells are also sorted for `<`, and two cells never have the same top-left corner. -/
theorem C17_sorted_lt (ops : List (Grid.Op γ)) :
    (Grid.run ops).cells.Pairwise (fun a b => a.lt b = true ∧ a.min ≠ b.min) := by
  refine (run_inv ops).sorted.imp ?_
  intro a b h
  refine ⟨?_, ?_⟩
  · unfold Cell.lt; rw [lt_iff]; unfold CornerBefore at h; unfold ReadsBefore; omega
  · intro he; unfold Cell.min at he; rw [he] at h; unfold CornerBefore at h; omega

/-- **C17.** All cells of a grid are valid non-empty rectangles. -/
theorem C17_valid (ops : List (Grid.Op γ)) : ∀ c ∈ (Grid.run ops).cells, c.box.Valid := (run_inv ops).valid

/-- a history with insertions out of order, a failure and a merge -/
def demoOps : List (Grid.Op Nat) :=
  [.set (.tuple [.int 2, .int 1]) { content := some 3 },
   .set (.tuple [.int 1, .int 1]) { content := some 1, styles := some [("color", .str "red")] },
   .set (.tuple [.int 1, .int 1]) { content := some 9 },
   .set (.coord ⟨1, 2⟩) { content := some 5, width := 3 },
   .merge (.coord ⟨1, 1⟩) (.coord ⟨3, 1⟩) (fun a b => .ok (a + b))]

example : (Grid.run demoOps).cells.map (fun c => (c.content, c.box)) =
    [(some 4, ⟨⟨1, 1⟩, ⟨3, 1⟩⟩), (some 5, ⟨⟨1, 2⟩, ⟨3, 2⟩⟩)] := by decide +kernel

/-! ### C18 -/

/-- **C18.** Full statement, which is *false*. -/
def C18_statement : Prop := ∀ ops : List (Grid.Op Nat), DisjointCells (Grid.run ops).cells

/-- **C18 (negation).** Two insertions: A2:B3 then B1:C2 are both accepted although they share B2. -/
theorem C18_overlap_by_insertion :
    let g := Grid.run [.set (.coord ⟨1, 2⟩) { content := some 1, width := 2, height := 2 },
      .set (.coord ⟨2, 1⟩) { content := some 2, width := 2, height := 2 }]
    g.cells.map (·.box) = [⟨⟨2, 1⟩, ⟨3, 2⟩⟩, ⟨⟨1, 2⟩, ⟨2, 3⟩⟩] := by decide +kernel

/-- **C18 (negation).** Merging only: in a 3x3 grid of single cells, merging the middle row and then
the middle column is accepted and gives two cells which share B2. -/
theorem C18_overlap_by_merging :
    let single (x y : Int) : Grid.Op Nat := .set (.coord ⟨x, y⟩) { content := some 1 }
    let add : Nat → Nat → Except PyErr Nat := fun a b => .ok (a + b)
    let g := Grid.run ((pyRange 1 4).flatMap (fun y => (pyRange 1 4).map (fun x => single x y)) ++
      [.merge (.coord ⟨1, 2⟩) (.coord ⟨3, 2⟩) add, .merge (.coord ⟨2, 1⟩) (.coord ⟨2, 3⟩) add])
    (⟨⟨2, 1⟩, ⟨2, 3⟩⟩ : Box) ∈ g.cells.map (·.box) ∧ (⟨⟨1, 2⟩, ⟨3, 2⟩⟩ : Box) ∈ g.cells.map (·.box) := by
  decide +kernel

theorem C18_not_disjoint : ¬ C18_statement := by
  intro h
  have h1 := h [.set (.coord ⟨1, 2⟩) { content := some 1, width := 2, height := 2 },
      .set (.coord ⟨2, 1⟩) { content := some 2, width := 2, height := 2 }]
  have h2 := C18_overlap_by_insertion
  unfold DisjointCells at h1
  rw [← List.pairwise_map (f := fun c : Cell Nat => c.box) (R := fun a b => ¬ Overlap a b)] at h1
  rw [h2] at h1
  simp only [List.pairwise_cons, List.mem_singleton, forall_eq] at h1
  exact h1.1 ⟨⟨2, 2⟩, by decide, by decide⟩

theorem crosswise_inv (g : Grid γ) (hg : g.Inv) :
    g.cells.Pairwise (fun a b =>
      ¬ InBox a.min b.box ∧ ¬ InBox a.max b.box ∧ ¬ InBox b.min a.box ∧ ¬ InBox b.max a.box ∧
      (Overlap a.box b.box → Incomparable a.min b.min ∧ Incomparable a.max b.max)) := by
  refine List.Pairwise.imp_of_mem ?_ hg.noIntersect
  intro a b ha hb h
  have hva := hg.valid a ha
  have hvb := hg.valid b hb
  have h' : ¬ (a.box.intersect b.box = true) := by rw [h]; simp
  have e := C09_intersect_exact_partial a.box b.box hva hvb
  have e' := intersect_iff a.box b.box
  rw [e] at h'
  rw [e] at e'
  simp only [Cell.min, Cell.max]
  refine ⟨fun hh => h' (e'.mpr (.inl hh)), fun hh => h' (e'.mpr (.inr (.inl hh))),
    fun hh => h' (e'.mpr (.inr (.inr (.inl hh)))), fun hh => h' (e'.mpr (.inr (.inr (.inr hh)))), ?_⟩
  intro ho
  by_cases hi : Incomparable a.box.min b.box.min ∧ Incomparable a.box.max b.box.max
  · exact hi
  · exact absurd ⟨ho, hi⟩ h'

/-- **C18 (partial, all histories).** Two cells of a grid can only overlap if both their top-left corners and their bottom-right
corners are incomparable (one more to the left, the other higher); in particular no cell contains the
top-left or bottom-right corner of another one. -/
theorem C18_overlap_only_crosswise_partial (ops : List (Grid.Op γ)) :
    (Grid.run ops).cells.Pairwise (fun a b =>
      ¬ InBox a.min b.box ∧ ¬ InBox a.max b.box ∧ ¬ InBox b.min a.box ∧ ¬ InBox b.max a.box ∧
      (Overlap a.box b.box → Incomparable a.min b.min ∧ Incomparable a.max b.max)) :=
  crosswise_inv _ (run_inv ops)

/-- an operation which keeps all cells one row high: insertion of a cell of height 1, any deletion, merge
inside a row, expansion of the width only -/
def RowOp : Grid.Op γ → Prop
  | .set _ a => a.height = 1
  | .del _ => True
  | .merge s e _ => ∀ a b, Coord.fromValue s = .ok a → Coord.fromValue e = .ok b → a.y = b.y
  | .expand _ _ h _ => h = 0

theorem mem_insertIdx_sub {l : List α} {k : Nat} {x y : α} (h : y ∈ l.insertIdx k x) : y = x ∨ y ∈ l := by
  rcases Nat.lt_or_ge l.length k with hk | hk
  · rw [List.insertIdx_of_length_lt hk] at h; exact .inr h
  · rw [insertIdx_take_drop l k x hk] at h
    simp only [List.mem_append, List.mem_cons] at h
    rcases h with h | h | h
    · exact .inr (List.mem_of_mem_take h)
    · exact .inl h
    · exact .inr (List.mem_of_mem_drop h)

theorem rowOp_flat (op : Grid.Op γ) (hop : RowOp op) (g : Grid γ)
    (h : ∀ c ∈ g.cells, c.box.min.y = c.box.max.y) :
    ∀ c ∈ (exec op.run g).cells, c.box.min.y = c.box.max.y := by
  have hmerge : ∀ s e f, (∀ a b, Coord.fromValue s = .ok a → Coord.fromValue e = .ok b → a.y = b.y) →
      ∀ c ∈ (Grid.merge s e f g).2.cells, c.box.min.y = c.box.max.y := by
    intro s e f hse
    rcases merge_cases s e f g with ⟨_, hr⟩ | ⟨a, b, hs, he, ⟨_, hr⟩ | ⟨hval, ⟨_, hr⟩ | ⟨hno, ⟨_, hr⟩ |
      ⟨first, rest, hm, ⟨_, _, hr⟩ | ⟨new, hl, hr⟩⟩⟩⟩⟩
    all_goals rw [hr]
    any_goals exact h
    intro c hc
    rcases mem_insertIdx_sub hc with rfl | hc
    · rw [(mergeLoop_fields f rest _ _ hl).1]; exact hse a b hs he
    · exact h c (List.mem_filter.mp hc).1
  cases op with
  | set v a =>
    simp only [exec, Grid.Op.run, bind_run, lift_run]
    cases ha : a.build with
    | error e => exact h
    | ok c =>
      obtain ⟨hval, hc⟩ := cell_new_valid ha
      have hop : a.height = 1 := hop
      rcases setItem_cases v c hval g with ⟨hr, _⟩ | ⟨p, _, ⟨_, hr⟩ | ⟨hpos, ⟨_, hr⟩ | ⟨hno, hr⟩⟩⟩
      all_goals (simp only [hr])
      any_goals exact h
      intro d hd
      rcases mem_insertIdx_sub hd with rfl | hd
      · rw [hc]; simp only [movedTo]; omega
      · exact h d hd
  | del v =>
    simp only [exec, Grid.Op.run]
    rw [delItem_run]
    split
    · exact h
    · split
      · intro c hc; exact h c (List.mem_of_mem_eraseP hc)
      · exact h
  | merge s e f =>
    simp only [exec, Grid.Op.run, bind_run]
    have := hmerge s e f hop
    split <;> (rename_i heq; rw [heq] at this; exact this)
  | expand v w hh f =>
    simp only [exec, Grid.Op.run, bind_run]
    have key : ∀ c ∈ (Grid.expand v w hh f g).2.cells, c.box.min.y = c.box.max.y := by
      rw [expand_run]
      cases hg : g.getItem v with
      | error e => exact h
      | ok cell =>
        have hmem : cell ∈ g.cells := by
          unfold Grid.getItem at hg
          simp only [bind, Except.bind] at hg
          split at hg
          · cases hg
          · unfold Grid.getCoord at hg
            split at hg
            · rename_i hf; cases hg; exact List.mem_of_find?_eq_some hf
            · cases hg
        refine hmerge _ _ f ?_
        intro a b ha hb
        cases ha; cases hb
        have : hh = 0 := hop
        subst this
        simp only [Coord.addSize]
        have := h cell hmem
        omega
    split <;> (rename_i heq; rw [heq] at key; exact key)

/-- **C18 (partial).** Histories in which cells span columns only never produce overlaps. -/
theorem C18_disjoint_rows_partial (ops : List (Grid.Op γ)) (hops : ∀ op ∈ ops, RowOp op) :
    DisjointCells (Grid.run ops).cells := by
  have hflat : ∀ (ops : List (Grid.Op γ)) (g : Grid γ), (∀ op ∈ ops, RowOp op) →
      (∀ c ∈ g.cells, c.box.min.y = c.box.max.y) →
      ∀ c ∈ (Grid.runFrom g ops).cells, c.box.min.y = c.box.max.y := by
    intro ops
    induction ops with
    | nil => intro g _ h; exact h
    | cons op ops ih =>
      intro g hops h
      exact ih _ (fun o ho => hops o (by simp [ho])) (rowOp_flat op (hops op (by simp)) g h)
  have hf := hflat ops Grid.empty hops (by simp [Grid.empty])
  unfold DisjointCells
  refine List.Pairwise.imp_of_mem ?_ (C18_overlap_only_crosswise_partial ops)
  intro a b ha hb h ho
  have := h.2.2.2.2 ho
  have h1 := hf a ha
  have h2 := hf b hb
  have h3 := (overlap_iff ((run_inv ops).valid a ha) ((run_inv ops).valid b hb)).mp ho
  simp only [Incomparable, Cell.min, Cell.max] at this
  omega

/-- The demonstration history spans columns only. -/
example : ∀ op ∈ demoOps, RowOp op := by
  intro op hop
  simp only [demoOps, List.mem_cons, List.not_mem_nil, or_false] at hop
  rcases hop with rfl | rfl | rfl | rfl | rfl <;> simp [RowOp, Coord.fromValue]

/-! ### C19 -/

theorem getCoord_ok {g : Grid γ} {c : Coord} {cell : Cell γ} (h : g.getCoord c = .ok cell) :
    cell ∈ g.cells ∧ InBox c cell.box := by
  unfold Grid.getCoord at h
  split at h
  · rename_i hf
    cases h
    exact ⟨List.mem_of_find?_eq_some hf, by simpa [Cell.hasCoord] using List.find?_some hf⟩
  · cases h

theorem getCoord_error {g : Grid γ} {c : Coord} {e : PyErr} :
    g.getCoord c = .error e ↔ e = .keyError ∧ ¬ Covered g.cells c := by
  unfold Grid.getCoord
  split
  · rename_i cell hf
    have h1 := List.mem_of_find?_eq_some hf
    have h2 : InBox c cell.box := by simpa [Cell.hasCoord] using List.find?_some hf
    simp only [reduceCtorEq, false_iff, not_and, Classical.not_not]
    intro _; exact ⟨cell, h1, h2⟩
  · rename_i hf
    rw [List.find?_eq_none] at hf
    constructor
    · intro h
      cases h
      refine ⟨rfl, ?_⟩
      rintro ⟨d, hd, hin⟩
      exact hf d hd (by simpa [Cell.hasCoord] using hin)
    · rintro ⟨rfl, _⟩; rfl

theorem hasCoord_grid (g : Grid γ) (c : Coord) : g.hasCoord c = true ↔ Covered g.cells c := by
  simp [Grid.hasCoord, Covered, Cell.hasCoord]

/-- **C19.** For every grid: `grid[c]` returns a cell of the grid covering `c`, or raises
`KeyError` exactly when `c in grid` is `False`, i.e. when no cell covers `c`; a key which is neither a `Coord` nor a pair of
integers raises `TypeError` in both cases. -/
theorem C19_lookup (g : Grid γ) (v : PyVal) :
    (∀ c, Coord.fromValue v = .ok c →
      (Covered g.cells c → g.contains v = .ok true ∧ ∃ cell ∈ g.cells, g.getItem v = .ok cell ∧ InBox c cell.box) ∧
      (¬ Covered g.cells c → g.contains v = .ok false ∧ g.getItem v = .error .keyError)) ∧
    (Coord.fromValue v = .error .typeError →
      g.contains v = .error .typeError ∧ g.getItem v = .error .typeError) := by
  constructor
  · intro c hc
    have e1 : g.contains v = .ok (g.hasCoord c) := by
      simp [Grid.contains, hc, bind, Except.bind, pure, Except.pure]
    have e2 : g.getItem v = g.getCoord c := by simp [Grid.getItem, hc, bind, Except.bind]
    rw [e1, e2]
    constructor
    · intro h
      refine ⟨by rw [(hasCoord_grid g c).mpr h], ?_⟩
      cases hg : g.getCoord c with
      | error e => exact absurd h (getCoord_error.mp hg).2
      | ok cell => obtain ⟨h1, h2⟩ := getCoord_ok hg; exact ⟨cell, h1, rfl, h2⟩
    · intro h
      refine ⟨?_, getCoord_error.mpr ⟨rfl, h⟩⟩
      congr 1
      rw [Bool.eq_false_iff, Ne, hasCoord_grid]; exact h
  · intro h
    simp [Grid.contains, Grid.getItem, h, bind, Except.bind]

/-- effect of a successful `grid[v] = cell` on a grid which satisfies the invariant -/
theorem set_get_inv (g : Grid γ) (hinv : g.Inv) (v : PyVal) (cell : Cell γ) (hcell : cell.box.Valid) (g' : Grid γ)
    (h : Grid.setItem v cell g = (.ok (), g')) :
    ∃ c new, Coord.fromValue v = .ok c ∧ g'.getItem v = .ok new ∧
      new.min = c ∧ new.size = cell.size ∧ new.content = cell.content ∧ new.styles = cell.styles ∧
      new.nature = cell.nature ∧
      g'.cells.Perm (new :: g.cells) ∧ g.cells.Sublist g'.cells ∧
      (∀ p, ¬ InBox p new.box → g'.getCoord p = g.getCoord p) ∧
      (∀ p, Covered g'.cells p ↔ Covered g.cells p ∨ InBox p new.box) := by
  rcases setItem_cases v cell hcell g with ⟨hr, _⟩ | ⟨c, hv, ⟨_, hr⟩ | ⟨hpos, ⟨_, hr⟩ | ⟨hno, hr⟩⟩⟩
  · rw [hr] at h; cases h
  · rw [hr] at h; cases h
  · rw [hr] at h; cases h
  rw [hr] at h
  cases h
  have hval := movedTo_valid cell hcell c hpos
  obtain ⟨l1, l2, e, e', h1, h2⟩ := insert_split _ (movedTo cell c) hinv.valid hinv.sorted hno
  have hmin : (movedTo cell c).box.min = c := rfl
  rw [hmin] at e'
  rw [e']
  refine ⟨c, movedTo cell c, hv, ?_, rfl, ?_, rfl, rfl, rfl, ?_, ?_, ?_, ?_⟩
  · have : ∀ d ∈ l1, d.hasCoord c = false := by
      intro d hd
      have hni := hno d (by rw [e]; simp [hd])
      have : ¬ (d.box.intersect (movedTo cell c).box = true) := by simp [hni]
      rw [intersect_iff] at this
      rw [Bool.eq_false_iff]
      intro hc
      have hc' : InBox c d.box := by simpa [Cell.hasCoord] using hc
      exact this (.inr (.inr (.inl hc')))
    have hself : (movedTo cell c).hasCoord c = true := by
      have : InBox c (movedTo cell c).box := by
        simp only [movedTo, InBox, Box.Valid] at *; omega
      simpa [Cell.hasCoord] using this
    have hf : (l1 ++ movedTo cell c :: l2).find? (·.hasCoord c) = some (movedTo cell c) := by
      rw [List.find?_append]
      have : l1.find? (·.hasCoord c) = none := by
        rw [List.find?_eq_none]; intro d hd; simp [this d hd]
      simp [this, hself]
    simp [Grid.getItem, hv, bind, Except.bind, Grid.getCoord, hf]
  · simp only [Cell.size, Box.size, Box.width, Box.height, movedTo, Size.mk.injEq]; omega
  · rw [e]; exact List.perm_middle
  · rw [e]; exact (List.Sublist.refl l1).append (List.sublist_cons_self _ _)
  · intro p hp
    have : (movedTo cell c).hasCoord p = false := by
      rw [Bool.eq_false_iff]; intro hc; exact hp (by simpa [Cell.hasCoord] using hc)
    unfold Grid.getCoord
    rw [e]
    simp only [List.find?_append, List.find?_cons, this]
  · intro p
    rw [e]
    unfold Covered
    constructor
    · rintro ⟨d, hd, hin⟩
      simp only [List.mem_append, List.mem_cons] at hd
      rcases hd with hd | rfl | hd
      · exact .inl ⟨d, by simp [hd], hin⟩
      · exact .inr hin
      · exact .inl ⟨d, by simp [hd], hin⟩
    · rintro (⟨d, hd, hin⟩ | hin)
      · refine ⟨d, ?_, hin⟩
        simp only [List.mem_append, List.mem_cons] at hd ⊢
        rcases hd with hd | hd <;> simp [hd]
      · exact ⟨_, by simp, hin⟩

/-- **C19.** After a successful `grid[v] = cell` on a reachable grid: `grid[v]` is the given cell with the same size, content,
styles and nature, its top-left corner at `v`; the cells of the grid are the previous ones and this one;
every coordinate outside the new cell gives the same answer as before. -/
theorem C19_set_get (ops : List (Grid.Op γ)) (v : PyVal) (cell : Cell γ) (hcell : cell.box.Valid) (g' : Grid γ)
    (h : Grid.setItem v cell (Grid.run ops) = (.ok (), g')) :
    ∃ c new, Coord.fromValue v = .ok c ∧ g'.getItem v = .ok new ∧
      new.min = c ∧ new.size = cell.size ∧ new.content = cell.content ∧ new.styles = cell.styles ∧
      new.nature = cell.nature ∧
      g'.cells.Perm (new :: (Grid.run ops).cells) ∧ (Grid.run ops).cells.Sublist g'.cells ∧
      (∀ p, ¬ InBox p new.box → g'.getCoord p = (Grid.run ops).getCoord p) ∧
      (∀ p, Covered g'.cells p ↔ Covered (Grid.run ops).cells p ∨ InBox p new.box) :=
  set_get_inv _ (run_inv ops) v cell hcell g' h

/-- **C19.** Exact failure conditions of `grid[v] = cell` for any grid: `TypeError` for a bad key, `ValueError` if the
coordinate is outside the quadrant, `KeyError` iff a corner (top-left or bottom-right) of the new area lies in
an existing cell or a corner of an existing cell lies in the new area. -/
theorem C19_set_errors (g : Grid γ) (v : PyVal) (cell : Cell γ) (hcell : cell.box.Valid) :
    (Coord.fromValue v = .error .typeError → (Grid.setItem v cell g).1 = .error .typeError) ∧
    (∀ c, Coord.fromValue v = .ok c →
      (¬ (1 ≤ c.x ∧ 1 ≤ c.y) → (Grid.setItem v cell g).1 = .error .valueError) ∧
      (1 ≤ c.x ∧ 1 ≤ c.y →
        let stop : Coord := ⟨c.x + cell.width - 1, c.y + cell.height - 1⟩
        let hit := ∃ d ∈ g.cells, InBox c d.box ∨ InBox stop d.box ∨ InBox d.min ⟨c, stop⟩ ∨ InBox d.max ⟨c, stop⟩
        (hit → (Grid.setItem v cell g).1 = .error .keyError) ∧
        (¬ hit → (Grid.setItem v cell g).1 = .ok ()))) := by
  have hbox : ∀ c : Coord, (movedTo cell c).box = ⟨c, ⟨c.x + cell.width - 1, c.y + cell.height - 1⟩⟩ := by
    intro c
    apply box_ext <;> simp only [movedTo, Cell.width, Cell.height, Box.width, Box.height] <;> omega
  have hhit : ∀ (c : Coord) (d : Cell γ), d.box.intersect (movedTo cell c).box = true ↔
      (InBox c d.box ∨ InBox ⟨c.x + cell.width - 1, c.y + cell.height - 1⟩ d.box ∨
        InBox d.min ⟨c, ⟨c.x + cell.width - 1, c.y + cell.height - 1⟩⟩ ∨
        InBox d.max ⟨c, ⟨c.x + cell.width - 1, c.y + cell.height - 1⟩⟩) := by
    intro c d
    rw [intersect_iff, hbox]
    constructor
    · rintro (h | h | h | h) <;> simp [Cell.min, Cell.max, h]
    · rintro (h | h | h | h) <;> simp_all [Cell.min, Cell.max]
  rcases setItem_cases v cell hcell g with ⟨hr, hv⟩ | ⟨c, hv, ⟨hneg, hr⟩ | ⟨hpos, ⟨hex, hr⟩ | ⟨hno, hr⟩⟩⟩
  · rw [hr]; simp [hv]
  · rw [hr, hv]
    refine ⟨by simp, ?_⟩
    intro c' hc'
    cases hc'
    exact ⟨fun _ => rfl, fun h => absurd h hneg⟩
  · rw [hr, hv]
    obtain ⟨d, hd, hi⟩ := hex
    refine ⟨by simp, ?_⟩
    intro c' hc'
    cases hc'
    refine ⟨fun h => absurd hpos h, fun _ => ⟨fun _ => rfl, fun hn => absurd ⟨d, hd, (hhit c d).mp hi⟩ hn⟩⟩
  · rw [hr, hv]
    refine ⟨by simp, ?_⟩
    intro c' hc'
    cases hc'
    refine ⟨fun h => absurd hpos h, fun _ => ⟨?_, fun _ => rfl⟩⟩
    rintro ⟨d, hd, hh⟩
    have := (hhit c d).mpr hh
    rw [hno d hd] at this; cases this

example : (Grid.setItem (.tuple [.int 1, .int 3]) ⟨some 8, [], none, ⟨⟨1, 1⟩, ⟨2, 2⟩⟩⟩ (Grid.run demoOps)).1 = .ok () := by
  decide +kernel

/-! ### C20 -/

/-- **C20.** `del grid[v]` succeeds iff some cell covers the coordinate; it then removes exactly the cell
returned by `grid[v]`, the others keep their order. -/
theorem C20_delete (g : Grid γ) (v : PyVal) (c : Coord) (hv : Coord.fromValue v = .ok c) :
    (Covered g.cells c → ∃ cell l1 l2, g.getItem v = .ok cell ∧ g.cells = l1 ++ cell :: l2 ∧
      Grid.delItem v g = (.ok (), ⟨l1 ++ l2⟩)) ∧
    (¬ Covered g.cells c → Grid.delItem v g = (.error .keyError, g)) := by
  have e := delItem_run v g
  rw [hv] at e
  constructor
  · intro hcov
    have h1 : g.cells.any (·.hasCoord c) = true := (hasCoord_grid g c).mpr hcov
    simp only [h1, if_true] at e
    obtain ⟨d, hd, hin⟩ := hcov
    have hp : ∃ x ∈ g.cells, x.hasCoord c = true := ⟨d, hd, by simpa [Cell.hasCoord] using hin⟩
    obtain ⟨x, hx, hpx⟩ := hp
    obtain ⟨a, l1, l2, hno, ha, heq, her⟩ := List.exists_of_eraseP (p := fun x : Cell γ => x.hasCoord c) hx hpx
    refine ⟨a, l1, l2, ?_, heq, by rw [e, her]⟩
    have hf : g.cells.find? (·.hasCoord c) = some a := by
      rw [heq, List.find?_append]
      have : l1.find? (·.hasCoord c) = none := by
        rw [List.find?_eq_none]; intro y hy; exact hno y hy
      simp [this, ha]
    simp [Grid.getItem, hv, bind, Except.bind, Grid.getCoord, hf]
  · intro hn
    have h1 : ¬ (g.cells.any (·.hasCoord c) = true) := fun h => hn ((hasCoord_grid g c).mp h)
    simp only [h1] at e
    exact e

/-- **C20.** After deleting, coordinates outside the removed cell answer as before. -/
theorem C20_delete_frame (g g' : Grid γ) (v : PyVal) (cell : Cell γ) (hg : g.getItem v = .ok cell)
    (h : Grid.delItem v g = (.ok (), g')) (p : Coord) (hp : ¬ InBox p cell.box) :
    g'.getCoord p = g.getCoord p := by
  cases hv : Coord.fromValue v with
  | error e => simp [Grid.getItem, hv, bind, Except.bind] at hg
  | ok c =>
    have hgc : g.getCoord c = .ok cell := by simpa [Grid.getItem, hv, bind, Except.bind] using hg
    obtain ⟨h1, h2⟩ := getCoord_ok hgc
    obtain ⟨cell', l1, l2, hg', heq, hdel⟩ := (C20_delete g v c hv).1 ⟨cell, h1, h2⟩
    rw [hg] at hg'; cases hg'
    rw [hdel] at h; cases h
    have : cell.hasCoord p = false := by
      rw [Bool.eq_false_iff]; intro hc; exact hp (by simpa [Cell.hasCoord] using hc)
    unfold Grid.getCoord
    rw [heq]
    simp only [List.find?_append, List.find?_cons, this]

example : Covered (Grid.run demoOps).cells ⟨2, 2⟩ := (hasCoord_grid _ _).mp (by decide +kernel)

/-! ### C21 -/

/-- **C21.** Whatever the operation, its arguments and the content appender, an operation which raises leaves the grid
unchanged (no hypothesis on the grid). -/
theorem C21_failure_atomic (op : Grid.Op γ) (g : Grid γ) (e : PyErr) (h : eval op.run g = .error e) :
    exec op.run g = g := by
  have hmerge : ∀ s t f e', (Grid.merge s t f g).1 = .error e' → (Grid.merge s t f g).2 = g := by
    intro s t f e' he'
    rcases merge_cases s t f g with ⟨_, hr⟩ | ⟨a, b, hs, he, ⟨_, hr⟩ | ⟨hval, ⟨_, hr⟩ | ⟨hno, ⟨_, hr⟩ |
      ⟨first, rest, hm, ⟨_, _, hr⟩ | ⟨new, hl, hr⟩⟩⟩⟩⟩
    all_goals rw [hr] at he' ⊢
    cases he'
  unfold eval at h
  unfold exec
  cases op with
  | set v a =>
    simp only [Grid.Op.run, bind_run, lift_run] at h ⊢
    cases ha : a.build with
    | error e' => rfl
    | ok c =>
      simp only [ha] at h
      rcases setItem_cases v c (cell_new_valid ha).1 g with ⟨hr, hv⟩ | ⟨c, hv, ⟨hneg, hr⟩ | ⟨hpos, ⟨hex, hr⟩ | ⟨hno, hr⟩⟩⟩
      all_goals simp only [hr] at h ⊢
      cases h
  | del v =>
    simp only [Grid.Op.run] at h ⊢
    rw [delItem_run] at h ⊢
    split
    · rfl
    · rename_i c hc
      rw [hc] at h
      dsimp only at h
      split
      · rename_i h1; rw [if_pos h1] at h; cases h
      · rfl
  | merge s t f =>
    simp only [Grid.Op.run, bind_run] at h ⊢
    cases hm : Grid.merge s t f g with
    | mk r g' =>
      rw [hm] at h
      cases r with
      | error e' => have := hmerge s t f e' (by rw [hm]); rw [hm] at this; exact this
      | ok c => cases h
  | expand v w hh f =>
    simp only [Grid.Op.run, bind_run] at h ⊢
    cases hm : Grid.expand v w hh f g with
    | mk r g' =>
      rw [hm] at h
      cases r with
      | ok c => cases h
      | error e' =>
        rw [expand_run] at hm
        split at hm
        · cases hm; rfl
        · have := hmerge _ _ f e' (by rw [hm]); rw [hm] at this; exact this

/-- Operations do fail, including with an exception of the appender half-way through a merge. -/
example : eval (Grid.Op.run (.merge (.coord ⟨1, 1⟩) (.coord ⟨3, 2⟩) (fun _ _ => .error (.user 3)))) (Grid.run demoOps) =
    .error (.user 3) := by decide +kernel

/-! ### C22 -/

/-- **C22.** `bounding_box` is `None` iff the grid is empty; otherwise it encloses every cell and lies in every box
which encloses every cell.  It never raises on a reachable grid. -/
theorem C22_bounding_box (ops : List (Grid.Op γ)) :
    ((Grid.run ops).cells = [] ∧ (Grid.run ops).boundingBox = .ok none) ∨
    (∃ b, (Grid.run ops).cells ≠ [] ∧ (Grid.run ops).boundingBox = .ok (some b) ∧ b.Valid ∧
      (∀ c ∈ (Grid.run ops).cells, Within c.box b) ∧
      (∀ w, (∀ c ∈ (Grid.run ops).cells, Within c.box w) → Within b w)) := by
  unfold Grid.boundingBox
  have hval := (run_inv ops).valid
  cases hc : (Grid.run ops).cells with
  | nil => left; simp
  | cons a rest =>
    right
    rw [hc] at hval
    obtain ⟨u, hu, hv, hin, hleast⟩ := C10_union_least a.box (rest.map (·.box)) (by
      intro b hb
      rw [← List.map_cons (f := fun c : Cell γ => c.box)] at hb
      obtain ⟨c, hc', rfl⟩ := List.mem_map.mp hb
      exact hval c hc')
    refine ⟨u, by simp, ?_, hv, ?_, ?_⟩
    · simp only [List.map_cons, hu, Except.map]
    · intro c hc'
      exact hin _ (by rw [← List.map_cons (f := fun c : Cell γ => c.box)]; exact List.mem_map_of_mem hc')
    · intro w hw
      refine hleast w ?_
      intro b hb
      rw [← List.map_cons (f := fun c : Cell γ => c.box)] at hb
      obtain ⟨c, hc', rfl⟩ := List.mem_map.mp hb
      exact hw c hc'

example : (Grid.run demoOps).boundingBox = .ok (some ⟨⟨1, 1⟩, ⟨3, 2⟩⟩) := by decide +kernel

end Benker
