import Verif.Lemmas.TableOps

/-! C31–C37: row and column views, insertion, filling, and the table as a grid. -/

namespace Benker
variable {γ : Type}
open PyM Table

theorem Table.Reachable.inv {t : Table γ} (h : t.Reachable) : t.Inv := by
  obtain ⟨cells, st, n, t0, ops, hv, h0, rfl⟩ := h
  exact runFrom_tinv ops (new_tinv hv h0)

theorem Table.Reachable.step {t : Table γ} (h : t.Reachable) (op : Table.Op γ) : (exec op.run t).Reachable := by
  obtain ⟨cells, st, n, t0, ops, hv, h0, rfl⟩ := h
  exact ⟨cells, st, n, t0, ops ++ [op], hv, h0, by simp [Table.runFrom]⟩

/-! A demonstration table, used to show that the hypotheses below are met. -/

def tableDemoCell (c : String) (w h : Int) : Cell String := ⟨some c, [], none, ⟨⟨1, 1⟩, ⟨w, h⟩⟩⟩
def tableDemo : Table String :=
  Table.runFrom ⟨[], none, ⟨[]⟩, none, none⟩
    [.grid (.set (.tuple [.int 1, .int 1]) ⟨some "a", none, none, 1, 1, 2, 1⟩),
     .grid (.set (.tuple [.int 1, .int 2]) ⟨some "b", none, none, 1, 1, 1, 1⟩),
     .grid (.set (.tuple [.int 3, .int 1]) ⟨some "c", none, none, 1, 1, 1, 2⟩),
     .setNature .row 1 (some "header")]

theorem tableDemo_reachable : tableDemo.Reachable := ⟨[], none, none, _, _, by simp, rfl, rfl⟩

/-! ### C31 -/

/-- **C31 is false of the code**: when a cell is stored in a table whose views were never read, the views created at that
moment list the new cell twice. -/
theorem C31_counterexample :
    ∃ (t : Table String) (vs : List (View String)) (c : Cell String), t.Reachable ∧ t.grid.cells = [c] ∧
      eval (views .row) t = .ok vs ∧ vs.map (·.owned) = [[c, c]] ∧ vs.map (·.caught) = [[c, c]] := by
  refine ⟨Table.runFrom ⟨[], none, ⟨[]⟩, none, none⟩ [.grid (.set (.tuple [.int 1, .int 1]) ⟨some "a", none, none, 1, 1, 1, 1⟩)],
    [⟨1, [], none, [⟨some "a", [], none, ⟨⟨1, 1⟩, ⟨1, 1⟩⟩⟩, ⟨some "a", [], none, ⟨⟨1, 1⟩, ⟨1, 1⟩⟩⟩],
      [⟨some "a", [], none, ⟨⟨1, 1⟩, ⟨1, 1⟩⟩⟩, ⟨some "a", [], none, ⟨⟨1, 1⟩, ⟨1, 1⟩⟩⟩]⟩],
    ⟨some "a", [], none, ⟨⟨1, 1⟩, ⟨1, 1⟩⟩⟩, ⟨[], none, none, _, _, by simp, rfl, rfl⟩, ?_, ?_, ?_, ?_⟩ <;> decide +kernel

/-- **C31, part proved for every history**: reading `table.rows` (or `cols`) never fails, and view `i` is the one of line `i`,
owns exactly the cells starting there, catches exactly the cells crossing it — up to repetitions. -/
theorem C31_views_cells_partial (t : Table γ) (ht : t.Reachable) (ax : Axis) :
    ∃ vs, eval (views ax) t = .ok vs ∧ (exec (views ax) t).grid = t.grid ∧
      (exec (views ax) t).getViews ax = some vs ∧ Describes ax t.grid.cells vs := by
  have h := ht.inv
  refine ⟨t.baseViews ax, ?_, ?_, ?_, base_describes h ax⟩
  · simp [eval, views_run ax t h.grid]
  · simp [exec, views_run ax t h.grid]
  · simp [exec, views_run ax t h.grid]

/-- both lists of views exist and repeat nothing -/
structure Table.Exact (t : Table γ) : Prop where
  inv : t.Inv
  row : ∃ vs, t.rows = some vs ∧ NoRepeat vs
  col : ∃ vs, t.cols = some vs ∧ NoRepeat vs

theorem exact_getViews {t : Table γ} (h : t.Exact) (ax : Axis) : ∃ vs, t.getViews ax = some vs ∧ NoRepeat vs := by
  cases ax; exact h.row; exact h.col

theorem exact_of {t : Table γ} (hi : t.Inv) (h : ∀ ax, ∃ vs, t.getViews ax = some vs ∧ NoRepeat vs) : t.Exact :=
  ⟨hi, h .row, h .col⟩

theorem exact_base {t : Table γ} (h : t.Exact) (ax : Axis) : t.getViews ax = some (t.baseViews ax) ∧ NoRepeat (t.baseViews ax) := by
  obtain ⟨vs, h1, h2⟩ := exact_getViews h ax
  have : t.baseViews ax = vs := by unfold baseViews; rw [h1]; rfl
  rw [this]; exact ⟨h1, h2⟩

theorem exact_setViews {t : Table γ} (h : t.Exact) (ax : Axis) (vs : List (View γ)) (hi : (t.setViews ax vs).Inv) (hn : NoRepeat vs) :
    (t.setViews ax vs).Exact := by
  refine exact_of hi ?_
  intro ax'
  by_cases he : ax' = ax
  · subst he; exact ⟨vs, getViews_setViews_same _ _ _, hn⟩
  · rw [getViews_setViews_ne he]; exact exact_getViews h ax'

theorem setItem_exact {t : Table γ} (h : t.Exact) (v : PyVal) (cell : Cell γ) (hc : cell.box.Valid) :
    (exec (setItem v cell) t).Exact := by
  have hi := setItem_tinv h.inv v cell hc
  unfold exec at hi ⊢
  rcases setItem_run h.inv v cell hc with ⟨e, _, hr⟩ | ⟨c, g', hv, hs, hr⟩
  · rw [hr]; exact h
  · rw [hr] at hi ⊢
    obtain ⟨c', new, h1, hnew, h2, h3, h4, h5, h6⟩ := setItem_ok_facts h.inv.grid hc hs
    rw [hv] at h1; cases h1
    subst hnew
    have key : ∀ ax, NoRepeat (adoptedViews ax (movedTo cell c) (({ t with grid := g' } : Table γ).baseViews ax)) := by
      intro ax
      obtain ⟨vs, e1, e2⟩ := exact_getViews h ax
      have : ({ t with grid := g' } : Table γ).baseViews ax = vs := by
        unfold baseViews
        have : ({ t with grid := g' } : Table γ).getViews ax = some vs := by cases ax <;> exact e1
        rw [this]; rfl
      rw [this]
      exact adopted_noRepeat h.inv.grid.valid (h.inv.views ax vs e1) e2 _ h4
    exact ⟨hi, ⟨_, rfl, key .row⟩, ⟨_, rfl, key .col⟩⟩

theorem modify_noRepeat {vs : List (View γ)} (h : NoRepeat vs) (i : Nat) (f : View γ → View γ) (hf : LooksOnly f) :
    NoRepeat (vs.modify i f) := by
  intro v hv
  obtain ⟨j, hj, rfl⟩ := List.mem_iff_getElem.mp hv
  have hj' : j < vs.length := by simpa using hj
  rw [List.getElem_modify]
  have := h _ (List.getElem_mem hj')
  split
  · rw [(hf _).2.1, (hf _).2.2]; exact this
  · exact this

theorem viewAt_exact {t : Table γ} (h : t.Exact) (ax : Axis) (pos : Int) : (exec (viewAt ax pos) t).Exact := by
  have hi := viewAt_tinv h.inv ax pos
  unfold exec at hi ⊢
  rw [viewAt_run h.inv] at hi ⊢
  exact exact_setViews h ax _ hi (grow_noRepeat (exact_base h ax).2 pos)

theorem editView_exact {t : Table γ} (h : t.Exact) (ax : Axis) (pos : Int) (f : View γ → View γ) (hf : LooksOnly f) :
    (exec (editView ax pos f) t).Exact := by
  have hi := editView_tinv h.inv ax pos f hf
  unfold exec at hi ⊢
  rw [editView_run h.inv] at hi ⊢
  refine exact_setViews h ax _ hi ?_
  have hg := grow_noRepeat (exact_base h ax).2 pos
  rcases updateAt_state (pos - 1) f (Views.grow pos (t.baseViews ax)) with e | ⟨j, _, e⟩
  · rw [e]; exact hg
  · rw [e]; exact modify_noRepeat hg j f hf

theorem op_exact {t : Table γ} (h : t.Exact) (op : Table.Op γ) : (exec op.run t).Exact := by
  have hi := op_tinv h.inv op
  cases op with
  | grid op =>
    change (exec (runGridOp op) t).Inv at hi
    change (exec (runGridOp op) t).Exact
    unfold exec at hi ⊢
    rcases runGridOp_run h.inv op with ⟨e, _, hr⟩ | ⟨g', rs, cs, h1, hg', h2, ⟨v, a, cell, c, rfl, ha, hc, hv, hs, -, -⟩ | ⟨_, rfl, rfl⟩⟩
    · rw [hr]; exact h
    · have := setItem_exact h v cell hc
      simpa only [runGridOp, bind_run, lift_run, ha, exec] using this
    · rw [h2] at hi ⊢
      exact ⟨hi, ⟨_, rfl, refreshed_noRepeat .row g' hg' _⟩, ⟨_, rfl, refreshed_noRepeat .col g' hg' _⟩⟩
  | access ax =>
    simp only [exec, Table.Op.run, bind_run] at hi ⊢
    rw [views_run ax t h.inv.grid] at hi ⊢
    exact exact_setViews h ax _ hi (exact_base h ax).2
  | view ax pos =>
    have := viewAt_exact h ax pos
    simp only [exec, Table.Op.run, bind_run] at this ⊢
    split <;> (rename_i heq; rw [heq] at this; exact this)
  | setNature ax pos n => exact editView_exact h ax pos _ (fun v => ⟨rfl, rfl, rfl⟩)
  | setStyles ax pos d => exact editView_exact h ax pos _ (fun v => ⟨rfl, rfl, rfl⟩)
  | insert ax pos c s n w hh =>
    have hv := viewAt_exact h ax pos
    change (insertCell ax pos c s n w hh t).2.Exact
    rcases insertCell_run h.inv ax pos c s n w hh with ⟨e, hr⟩ | ⟨v, k, cell, _, _, hc, hr⟩
    · rw [hr]; exact hv
    · rw [hr]; exact setItem_exact hv _ cell (cell_new_valid hc).1
  | fill b c s n =>
    refine forEach_inv Table.Exact _ ?_ _ t h
    intro p t ht
    rw [fillOne_run]
    split
    · exact ht
    · split
      · exact ht
      · rename_i cell hc; exact setItem_exact ht _ cell (cell_new_valid hc).1
  | looks d n => exact ⟨hi, h.row, h.col⟩

/-- **C31, exact part**: if `table.rows` and `table.cols` are read right after construction, then after any history each view
lists exactly the cells of its line, each exactly once. -/
theorem C31_views_exact_partial (cells : List (Cell γ)) (hcells : ∀ c ∈ cells, c.box.Valid) (st : Option Styles) (n : Option String)
    (t0 : Table γ) (h0 : Table.new cells st n = .ok t0) (ops : List (Table.Op γ)) (ax : Axis) :
    ∃ vs, (Table.runFrom t0 (.access .row :: .access .col :: ops)).getViews ax = some vs ∧
      Describes ax (Table.runFrom t0 (.access .row :: .access .col :: ops)).grid.cells vs ∧ NoRepeat vs := by
  have hinv := new_tinv hcells h0
  have hv0 : t0.rows = none ∧ t0.cols = none := by
    unfold Table.new at h0; split at h0 <;> cases h0; exact ⟨rfl, rfl⟩
  have hstart : (Table.runFrom t0 [.access .row, .access .col]).Exact := by
    have hi : (Table.runFrom t0 [.access .row, .access .col]).Inv := runFrom_tinv _ hinv
    have e1 : exec (Table.Op.run (.access .row)) t0 = t0.setViews .row (t0.baseViews .row) := by
      simp only [exec, Table.Op.run, bind_run]; rw [views_run .row t0 hinv.grid]; rfl
    have e2 : exec (Table.Op.run (.access .col)) (t0.setViews .row (t0.baseViews .row)) =
        (t0.setViews .row (t0.baseViews .row)).setViews .col (t0.baseViews .col) := by
      simp only [exec, Table.Op.run, bind_run]
      rw [views_run .col _ (by simpa using hinv.grid), baseViews_setViews_ne (by decide)]; rfl
    have e : Table.runFrom t0 [.access .row, .access .col] =
        (t0.setViews .row (t0.baseViews .row)).setViews .col (t0.baseViews .col) := by
      show exec _ (exec _ t0) = _
      rw [e1, e2]
    rw [e] at hi ⊢
    have nr : ∀ ax, NoRepeat (t0.baseViews ax) := by
      intro ax
      have : t0.getViews ax = none := by cases ax; exact hv0.1; exact hv0.2
      unfold baseViews; rw [this]; exact refreshed_noRepeat ax t0.grid hinv.grid _
    exact ⟨hi, ⟨_, rfl, nr .row⟩, ⟨_, rfl, nr .col⟩⟩
  have key : ∀ (ops : List (Table.Op γ)) (t : Table γ), t.Exact → (Table.runFrom t ops).Exact := by
    intro ops
    induction ops with
    | nil => intro t h; exact h
    | cons op ops ih => intro t h; exact ih _ (op_exact h op)
  have hex := key ops _ hstart
  have : Table.runFrom t0 (.access .row :: .access .col :: ops) =
      Table.runFrom (Table.runFrom t0 [.access .row, .access .col]) ops := rfl
  rw [this]
  obtain ⟨vs, h1, h2⟩ := exact_getViews hex ax
  exact ⟨vs, h1, hex.inv.views ax vs h1, h2⟩

/-- non-vacuity: a table with spanning cells, read first, then modified through a view -/
example : ∃ t0 : Table String, Table.new [tableDemoCell "a" 2 2] none none = .ok t0 ∧
    ((Table.runFrom t0 [.access .row, .access .col, .insert .row 2 (some "x") none none 1 1]).rows.map
      (fun vs => vs.map (fun v => (v.owned.length, v.caught.length)))) = some [(1, 1), (1, 2)] :=
  ⟨_, rfl, by decide +kernel⟩

/-! ### C32 -/

/-- **C32**: after a successful deletion, merge or expansion, the last view is the one of the last line of the bounding box
(no view for an empty table), and each view lists its cells in reading order, without repetition. -/
theorem C32_refresh (t : Table γ) (ht : t.Reachable) (op : Grid.Op γ) (hop : (Table.Op.grid op).Refreshing)
    (hok : eval (runGridOp op) t = .ok ()) (ax : Axis) :
    ∃ vs, (exec (runGridOp op) t).getViews ax = some vs ∧
      ((exec (runGridOp op) t).grid.cells = [] ∧ vs = [] ∨
        (∃ c ∈ (exec (runGridOp op) t).grid.cells, lastLine ax c = vs.length) ∧
        (∀ c ∈ (exec (runGridOp op) t).grid.cells, lastLine ax c ≤ vs.length)) ∧
      (∀ i (h : i < vs.length),
        vs[i].pos = (i : Int) + 1 ∧
        vs[i].owned = (exec (runGridOp op) t).grid.cells.filter (fun c => StartsIn ax ((i : Int) + 1) c) ∧
        vs[i].caught = (exec (runGridOp op) t).grid.cells.filter (fun c => Crosses ax ((i : Int) + 1) c)) := by
  have h := ht.inv
  unfold eval at hok
  unfold exec
  rcases runGridOp_run h op with ⟨e, _, hr⟩ | ⟨g', rs, cs, h1, hg', h2, ⟨v, a, cell, c, rfl, ha, hc, hv, hs, -, -⟩ | ⟨_, rfl, rfl⟩⟩
  · rw [hr] at hok; cases hok
  · exact absurd hop (by simp [Table.Op.Refreshing])
  · rw [h2]
    have hs := lastLineOf_spec ax g' hg'
    have hl := fit_true_length (lastLineOf ax g') hs.2.1 (({ t with grid := g' } : Table γ).baseViews ax)
    have hp := fit_true_posOK (lastLineOf ax g') _ (base_posOK h g' hg' ax)
    refine ⟨refreshedViews ax g' (({ t with grid := g' } : Table γ).baseViews ax), by cases ax <;> rfl, ?_, ?_⟩
    · have hl' : ((refreshedViews ax g' (({ t with grid := g' } : Table γ).baseViews ax)).length : Int) = lastLineOf ax g' := by
        unfold refreshedViews; rw [List.length_map]; exact hl
      rw [hl']
      by_cases hn : g'.cells = []
      · left
        refine ⟨hn, List.eq_nil_of_length_eq_zero ?_⟩
        have := hs.2.2.2 hn; omega
      · right; exact ⟨hs.2.2.1 hn, hs.1⟩
    · intro i hi
      have hi' : i < (Views.fit (lastLineOf ax g') true (({ t with grid := g' } : Table γ).baseViews ax)).length := by
        simpa [refreshedViews] using hi
      have := hp i hi'
      simp only [refreshedViews, List.getElem_map, refreshed, this, and_self]

example : ∃ t : Table String, t.Reachable ∧
    eval (runGridOp (.merge (.tuple [.int 1, .int 1]) (.tuple [.int 2, .int 2]) (fun a b => .ok (a ++ b)))) t = .ok () :=
  ⟨tableDemo, tableDemo_reachable, by decide +kernel⟩

/-! ### C33 -/

theorem find_pyRange_some {p : Int → Bool} {a b k : Int} (h : (pyRange a b).find? p = some k) :
    a ≤ k ∧ k < b ∧ p k = true ∧ ∀ j, a ≤ j → j < k → p j = false := by
  obtain ⟨hp, i, hi, he, hj⟩ := List.find?_eq_some_iff_getElem.mp h
  have hlen := length_pyRange a b
  simp only [pyRange, List.getElem_map, List.getElem_range] at he
  refine ⟨by omega, by omega, hp, ?_⟩
  intro j h1 h2
  have := hj (j - a).toNat (by omega)
  simp only [pyRange, List.getElem_map, List.getElem_range] at this
  have e : a + ((j - a).toNat : Int) = j := by omega
  rw [e] at this
  simpa using this

theorem freePos_spec {ax : Axis} {cells : List (Cell γ)} (hval : ∀ c ∈ cells, c.box.Valid) (v : View γ)
    (hv : ∀ c, c ∈ v.caught ↔ c ∈ cells ∧ Crosses ax v.pos c) :
    ∃ k, v.freePos ax = .ok k ∧ FirstFree ax v.pos cells k := by
  have hcov : ∀ k, Covered cells (ax.coord v.pos k) ↔ ∃ c ∈ v.caught, InBox (ax.coord v.pos k) c.box := by
    intro k
    constructor
    · rintro ⟨c, hc, hin⟩
      refine ⟨c, (hv c).mpr ⟨hc, ?_⟩, hin⟩
      cases ax <;> simp only [Axis.coord, InBox, Crosses, firstLine, lastLine, Cell.min, Cell.max] at * <;> omega
    · rintro ⟨c, hc, hin⟩; exact ⟨c, ((hv c).mp hc).1, hin⟩
  have hall : ∀ k, (v.caught.map (·.box)).all (fun x => !x.hasCoord (ax.coord v.pos k)) = true ↔ ¬ Covered cells (ax.coord v.pos k) := by
    intro k
    rw [hcov]
    simp only [List.all_eq_true, List.mem_map, forall_exists_index, and_imp, forall_apply_eq_imp_iff₂, Bool.not_eq_true',
      not_exists, not_and]
    constructor
    · intro h c hc hin
      have := h c hc
      rw [(hasCoord_iff _ _).mpr hin] at this; cases this
    · intro h c hc
      rw [Bool.eq_false_iff]
      intro hh; exact h c hc ((hasCoord_iff _ _).mp hh)
  unfold View.freePos
  cases hm : v.caught with
  | nil =>
    refine ⟨1, rfl, by omega, ?_, fun j h1 h2 => absurd h1 (by omega)⟩
    rw [hcov, hm]; simp
  | cons c0 rest =>
    simp only [List.map_cons]
    have hvb : ∀ b ∈ c0.box :: rest.map (·.box), b.Valid := by
      intro b hb
      rw [← List.map_cons (f := fun c : Cell γ => c.box), ← hm] at hb
      obtain ⟨c, hc', rfl⟩ := List.mem_map.mp hb
      exact hval c ((hv c).mp hc').1
    obtain ⟨u, hu, huv, hin, hleast⟩ := C10_union_least c0.box (rest.map (·.box)) hvb
    rw [hu]
    simp only
    have hall' : ∀ k, (c0.box :: rest.map (·.box)).all (fun x => !x.hasCoord (ax.coord v.pos k)) = true ↔
        ¬ Covered cells (ax.coord v.pos k) := by
      intro k; have := hall k; rw [hm] at this; exact this
    cases hf : (pyRange 1 (ax.across u + 1)).find? (fun k => (c0.box :: rest.map (·.box)).all (fun x => !x.hasCoord (ax.coord v.pos k))) with
    | some k =>
      obtain ⟨h1, h2, h3, h4⟩ := find_pyRange_some hf
      refine ⟨k, rfl, h1, (hall' k).mp h3, ?_⟩
      intro j hj1 hj2
      have := h4 j hj1 hj2
      apply Classical.byContradiction
      intro hn
      rw [(hall' j).mpr hn] at this; cases this
    | none =>
      have hnone := List.find?_eq_none.mp hf
      refine ⟨ax.across u + 1, rfl, ?_, ?_, ?_⟩
      · unfold Box.Valid at huv; cases ax <;> simp only [Axis.across] <;> omega
      · rw [hcov]
        rintro ⟨c, hc, hinb⟩
        have := hin c.box (by
          rw [← List.map_cons (f := fun c : Cell γ => c.box), ← hm]; exact List.mem_map_of_mem hc) _ hinb
        cases ax <;> simp only [Axis.coord, InBox, Axis.across] at this <;> omega
      · intro j hj1 hj2
        apply Classical.byContradiction
        intro hn
        exact hnone j (by rw [mem_pyRange]; omega) ((hall' j).mpr hn)

theorem firstFree_unique {ax : Axis} {pos : Int} {cells : List (Cell γ)} {k k' : Int} (h : FirstFree ax pos cells k)
    (h' : FirstFree ax pos cells k') : k = k' := by
  rcases Int.lt_trichotomy k k' with hlt | he | hlt
  · exact absurd (h'.2.2 k h.1 hlt) h.2.1
  · exact he
  · exact absurd (h.2.2 k' h'.1 hlt) h'.2.1

/-- the view found at a positive position -/
theorem viewAt_ok {t : Table γ} (h : t.Inv) (ax : Axis) (pos : Int) (hpos : 1 ≤ pos) :
    ∃ v, pyGet (Views.grow pos (t.baseViews ax)) (pos - 1) = .ok v ∧ v.pos = pos ∧
      (∀ c, c ∈ v.caught ↔ c ∈ t.grid.cells ∧ Crosses ax v.pos c) := by
  have hd := grow_describes h.grid.valid (base_describes h ax) pos
  have hl := grow_length pos (t.baseViews ax)
  refine ⟨_, pyGet_pos _ pos hpos (by omega), ?_, ?_⟩
  · rw [hd.pos]; omega
  · exact hd.caught _ (List.getElem_mem _)

/-- nature of the view number `pos` (`None` if it does not exist yet) -/
def viewNature (t : Table γ) (ax : Axis) (pos : Int) : Option String :=
  match eval (viewAt ax pos) t with
  | .ok v => v.nature
  | .error _ => none

theorem cell_new_ok (content : Option γ) (st : Option Styles) (n : Option String) {x y w h : Int} (hp : 1 ≤ x ∧ 1 ≤ y ∧ 1 ≤ w ∧ 1 ≤ h) :
    Cell.new content st n x y w h = .ok ⟨content, st.getD [], n, ⟨⟨x, y⟩, ⟨x + w - 1, y + h - 1⟩⟩⟩ := by
  unfold Cell.new
  rw [make_eq_ok (by omega)]
  cases st <;> rfl

theorem cell_new_error {content : Option γ} {st : Option Styles} {n : Option String} {x y w h : Int} {e : PyErr} (hp : 1 ≤ x ∧ 1 ≤ y)
    (he : Cell.new content st n x y w h = .error e) : e = .valueError ∧ ¬ (1 ≤ w ∧ 1 ≤ h) := by
  by_cases hwh : 1 ≤ w ∧ 1 ≤ h
  · rw [cell_new_ok content st n (by omega)] at he; cases he
  · refine ⟨?_, hwh⟩
    unfold Cell.new at he
    rw [make_eq_error (by omega)] at he
    cases he; rfl

theorem intersect_overlap {a b : Box} (h : a.intersect b = true) (ha : a.Valid) (hb : b.Valid) : Overlap a b := by
  unfold Box.Valid at ha hb
  rcases (intersect_iff a b).mp h with h | h | h | h
  · exact ⟨a.min, by simp only [InBox]; omega, h⟩
  · exact ⟨a.max, by simp only [InBox]; omega, h⟩
  · exact ⟨b.min, h, by simp only [InBox]; omega⟩
  · exact ⟨b.max, h, by simp only [InBox]; omega⟩

/-- `insert_cell` is `table[…] = cell` at the first free position -/
theorem insertCell_eq {t : Table γ} (h : t.Inv) (ax : Axis) (pos : Int) (hpos : 1 ≤ pos) (content : Option γ)
    (styles : Option Styles) (nature : Option String) (w hh : Int) :
    ∃ k, FirstFree ax pos t.grid.cells k ∧
      insertCell ax pos content styles nature w hh t =
        match Cell.new content styles (nature.or (viewNature t ax pos)) (ax.coord pos k).x (ax.coord pos k).y w hh with
        | .error e => (.error e, exec (viewAt ax pos) t)
        | .ok cell => setItem (.coord (ax.coord pos k)) cell (exec (viewAt ax pos) t) := by
  obtain ⟨v, h1, h2, h3⟩ := viewAt_ok h ax pos hpos
  obtain ⟨k, hk, hff⟩ := freePos_spec h.grid.valid v h3
  rw [h2] at hff
  refine ⟨k, hff, ?_⟩
  have hn : viewNature t ax pos = v.nature := by
    unfold viewNature eval; rw [viewAt_run h, h1]
  unfold insertCell
  simp only [bind_run, exec]
  rw [viewAt_run h, h1]
  simp only [lift_run, hk, hn, h2]
  cases hc : Cell.new content styles (nature.or v.nature) (ax.coord pos k).x (ax.coord pos k).y w hh with
  | error e => rfl
  | ok cell =>
    simp only
    have : cell.min = ax.coord pos k := by
      rw [(cell_new_valid hc).2]; rfl
    rw [this]

/-- **C33**: inserting through view `pos` puts the cell, of the requested size, at the first position of the line which no cell
covers; every other cell is kept as it is; if the insertion fails no cell is changed. -/
theorem C33_insert_first_free (t : Table γ) (ht : t.Reachable) (ax : Axis) (pos : Int) (hpos : 1 ≤ pos) (content : Option γ)
    (styles : Option Styles) (nature : Option String) (w h : Int) :
    ∃ k, FirstFree ax pos t.grid.cells k ∧
      ((∃ new, eval (insertCell ax pos content styles nature w h) t = .ok () ∧
          new.min = ax.coord pos k ∧ new.size = ⟨w, h⟩ ∧ new.content = content ∧
          (exec (insertCell ax pos content styles nature w h) t).getItem (.coord (ax.coord pos k)) = .ok new ∧
          (exec (insertCell ax pos content styles nature w h) t).grid.cells.Perm (new :: t.grid.cells)) ∨
       (∃ e, eval (insertCell ax pos content styles nature w h) t = .error e ∧
          (e = .valueError ∧ ¬ (1 ≤ w ∧ 1 ≤ h) ∨
           e = .keyError ∧ ∃ d ∈ t.grid.cells, Overlap d.box ⟨ax.coord pos k, ⟨(ax.coord pos k).x + w - 1, (ax.coord pos k).y + h - 1⟩⟩) ∧
          (exec (insertCell ax pos content styles nature w h) t).grid.cells = t.grid.cells)) := by
  have hi := ht.inv
  obtain ⟨k, hff, he⟩ := insertCell_eq hi ax pos hpos content styles nature w h
  refine ⟨k, hff, ?_⟩
  have hvi := viewAt_tinv hi ax pos
  have hg : (exec (viewAt ax pos) t).grid = t.grid := by simp [exec, viewAt_run hi]
  have hpc : 1 ≤ (ax.coord pos k).x ∧ 1 ≤ (ax.coord pos k).y := by
    have := hff.1; cases ax <;> simp only [Axis.coord] <;> omega
  cases hc : Cell.new content styles (nature.or (viewNature t ax pos)) (ax.coord pos k).x (ax.coord pos k).y w h with
  | error e =>
    right
    rw [hc] at he
    refine ⟨e, by unfold eval; rw [he], .inl (cell_new_error hpc hc), ?_⟩
    have : exec (insertCell ax pos content styles nature w h) t = exec (viewAt ax pos) t := by
      show (insertCell ax pos content styles nature w h t).2 = _
      rw [he]
    rw [this, hg]
  | ok cell =>
    obtain ⟨hcv, hce⟩ := cell_new_valid hc
    rw [hc] at he
    simp only at he
    unfold eval
    show (∃ new, _ ∧ _ ∧ _ ∧ _ ∧ (insertCell ax pos content styles nature w h t).2.getItem _ = _ ∧
      (insertCell ax pos content styles nature w h t).2.grid.cells.Perm _) ∨
      (∃ e, _ ∧ _ ∧ (insertCell ax pos content styles nature w h t).2.grid.cells = _)
    rw [he]
    have hself : movedTo cell (ax.coord pos k) = cell := by
      rw [hce]; simp only [movedTo, Cell.mk.injEq, true_and]
      apply box_ext <;> simp only <;> omega
    rcases setItem_run hvi (.coord (ax.coord pos k)) cell hcv with ⟨e, h1, h2⟩ | ⟨c, g', hv, hs, hr⟩
    · right
      rw [h2]
      refine ⟨e, rfl, .inr ?_, by rw [hg]⟩
      rcases setItem_cases (.coord (ax.coord pos k)) cell hcv (exec (viewAt ax pos) t).grid with
        ⟨_, hv⟩ | ⟨c, hv, ⟨hneg, _⟩ | ⟨hpos', ⟨⟨d, hd, hx⟩, hr'⟩ | ⟨_, hr'⟩⟩⟩
      · cases hv
      · cases hv; exact absurd hpc hneg
      · cases hv
        rw [hr'] at h1
        cases h1
        refine ⟨rfl, d, by rw [hg] at hd; exact hd, ?_⟩
        rw [hself, hce] at hx
        exact intersect_overlap hx (by rw [hg] at hd; exact hi.grid.valid d hd) (by rw [hce] at hcv; exact hcv)
      · rw [hr'] at h1; cases h1
    · left
      cases hv
      rw [hr]
      obtain ⟨c', new, h1, hnew, h2, h3, h4, h5, h6⟩ := setItem_ok_facts hvi.grid hcv hs
      cases h1
      rw [hself] at hnew; subst hnew
      refine ⟨new, rfl, by rw [hce]; rfl, ?_, by rw [hce], h2, ?_⟩
      · rw [hce]; simp only [Cell.size, Box.size, Box.width, Box.height, Size.mk.injEq]; omega
      · obtain ⟨_, new', e1, e2, _, _, _, _, _, e8, -⟩ := set_get_inv _ hvi.grid _ new hcv g' hs
        rw [h2] at e2; cases e2
        rw [hg] at e8; exact e8

example : tableDemo.Reachable ∧ FirstFree .row 2 tableDemo.grid.cells 2 ∧ FirstFree .row 1 tableDemo.grid.cells 4 ∧
    eval (insertCell .row 2 (some "x") none none 1 1) tableDemo = .ok () ∧
    eval (insertCell .row 2 (some "x") none none 2 1) tableDemo = .error .keyError := by
  have hd := tableDemo_reachable
  refine ⟨hd, ?_, ?_, by decide +kernel, by decide +kernel⟩
  · obtain ⟨v, h1, h2, h3⟩ := viewAt_ok hd.inv .row 2 (by decide)
    obtain ⟨k, hk, hff⟩ := freePos_spec hd.inv.grid.valid v h3
    have : (match pyGet (Views.grow 2 (tableDemo.baseViews .row)) (2 - 1) with
      | .ok v => v.freePos .row | .error e => .error e) = .ok 2 := by decide +kernel
    rw [h1] at this; simp only at this; rw [this] at hk; cases hk
    rw [h2] at hff; exact hff
  · obtain ⟨v, h1, h2, h3⟩ := viewAt_ok hd.inv .row 1 (by decide)
    obtain ⟨k, hk, hff⟩ := freePos_spec hd.inv.grid.valid v h3
    have : (match pyGet (Views.grow 1 (tableDemo.baseViews .row)) (1 - 1) with
      | .ok v => v.freePos .row | .error e => .error e) = .ok 4 := by decide +kernel
    rw [h1] at this; simp only at this; rw [this] at hk; cases hk
    rw [h2] at hff; exact hff

/-! ### C34 -/

/-- a single cell on an uncovered coordinate can always be stored -/
theorem setItem_single {t : Table γ} (h : t.Inv) (v : PyVal) (p : Coord) (hv : Coord.fromValue v = .ok p) (hp : 1 ≤ p.x ∧ 1 ≤ p.y)
    (hfree : ¬ Covered t.grid.cells p) (cell : Cell γ) (hc : cell.box = ⟨p, p⟩) :
    ∃ g', Grid.setItem v cell t.grid = (.ok (), g') ∧ eval (setItem v cell) t = .ok () ∧ (exec (setItem v cell) t).grid = g' ∧
      g'.cells.Perm (cell :: t.grid.cells) ∧ g'.getItem v = .ok cell := by
  have hcv : cell.box.Valid := by rw [hc]; unfold Box.Valid; simp only; omega
  have hself : movedTo cell p = cell := by
    cases cell; simp only at hc; subst hc; simp [movedTo]
  have hno : ∀ d ∈ t.grid.cells, d.box.intersect (movedTo cell p).box = false := by
    intro d hd
    rw [Bool.eq_false_iff]
    intro hx
    rw [hself, hc] at hx
    obtain ⟨q, h1, h2⟩ := intersect_overlap hx (h.grid.valid d hd) (by rw [hc] at hcv; exact hcv)
    have : q = p := by
      simp only [InBox] at h2
      cases q; cases p; simp only [Coord.mk.injEq]; simp only at h2; omega
    subst this
    exact hfree ⟨d, hd, h1⟩
  rcases setItem_run h v cell hcv with ⟨e, h1, h2⟩ | ⟨c, g', hv', hs, hr⟩
  · exfalso
    rcases setItem_cases v cell hcv t.grid with ⟨_, hv'⟩ | ⟨c, hv', ⟨hneg, _⟩ | ⟨hpos', ⟨⟨d, hd, hx⟩, hr'⟩ | ⟨_, hr'⟩⟩⟩
    · rw [hv] at hv'; cases hv'
    · rw [hv] at hv'; cases hv'; exact hneg hp
    · rw [hv] at hv'; cases hv'
      rw [hno d hd] at hx; cases hx
    · rw [hr'] at h1; cases h1
  · rw [hv] at hv'; cases hv'
    refine ⟨g', hs, by simp [eval, hr], by simp [exec, hr], ?_⟩
    obtain ⟨c', new, h1, hnew, h2, -⟩ := setItem_ok_facts h.grid hcv hs
    rw [hv] at h1; cases h1
    rw [hself] at hnew; subst hnew
    obtain ⟨_, new', e1, e2, _, _, _, _, _, e8, -⟩ := set_get_inv _ h.grid _ new hcv g' hs
    rw [h2] at e2; cases e2
    exact ⟨e8, h2⟩

/-- **C34**: inserting a cell of size (1, 1) through any view never fails; the new cell, at the first free position, has the
given content and styles, and the given nature or else the nature of the view. -/
theorem C34_insert_single (t : Table γ) (ht : t.Reachable) (ax : Axis) (pos : Int) (hpos : 1 ≤ pos) (content : Option γ)
    (styles : Option Styles) (nature : Option String) :
    ∃ k v, FirstFree ax pos t.grid.cells k ∧ eval (viewAt ax pos) t = .ok v ∧
      eval (insertCell ax pos content styles nature 1 1) t = .ok () ∧
      (exec (insertCell ax pos content styles nature 1 1) t).getItem (.coord (ax.coord pos k)) =
        .ok ⟨content, styles.getD [], nature.or v.nature, ⟨ax.coord pos k, ax.coord pos k⟩⟩ := by
  have hi := ht.inv
  obtain ⟨k, hff, he⟩ := insertCell_eq hi ax pos hpos content styles nature 1 1
  obtain ⟨v, h1, h2, h3⟩ := viewAt_ok hi ax pos hpos
  have hve : eval (viewAt ax pos) t = .ok v := by unfold eval; rw [viewAt_run hi, h1]
  have hn : viewNature t ax pos = v.nature := by unfold viewNature; rw [hve]
  refine ⟨k, v, hff, hve, ?_⟩
  have hpc : 1 ≤ (ax.coord pos k).x ∧ 1 ≤ (ax.coord pos k).y := by
    have := hff.1; cases ax <;> simp only [Axis.coord] <;> omega
  have hnew : Cell.new content styles (nature.or (viewNature t ax pos)) (ax.coord pos k).x (ax.coord pos k).y 1 1 =
      .ok ⟨content, styles.getD [], nature.or v.nature, ⟨ax.coord pos k, ax.coord pos k⟩⟩ := by
    rw [hn, cell_new_ok _ _ _ (by omega)]
    simp only [Except.ok.injEq, Cell.mk.injEq, true_and]
    apply box_ext <;> simp only <;> omega
  rw [hnew] at he
  simp only at he
  have hvi := viewAt_tinv hi ax pos
  have hg : (exec (viewAt ax pos) t).grid = t.grid := by simp [exec, viewAt_run hi]
  obtain ⟨g', hs, e1, e2, e3, e4⟩ := setItem_single hvi (.coord (ax.coord pos k)) (ax.coord pos k) rfl hpc
    (by rw [hg]; exact hff.2.1) ⟨content, styles.getD [], nature.or v.nature, ⟨ax.coord pos k, ax.coord pos k⟩⟩ rfl
  have hx : exec (insertCell ax pos content styles nature 1 1) t = exec (setItem (.coord (ax.coord pos k))
      ⟨content, styles.getD [], nature.or v.nature, ⟨ax.coord pos k, ax.coord pos k⟩⟩) (exec (viewAt ax pos) t) := by
    show (insertCell ax pos content styles nature 1 1 t).2 = _
    rw [he]; rfl
  refine ⟨?_, ?_⟩
  · show (insertCell ax pos content styles nature 1 1 t).1 = _
    rw [he]; exact e1
  · rw [hx]
    unfold Table.getItem
    rw [e2]; exact e4

example : (eval (viewAt .row 1) tableDemo).map (·.nature) = .ok (some "header") ∧
    ((exec (insertCell .row 1 (some "x") none none 1 1) tableDemo).getItem (.tuple [.int 4, .int 1])).map (·.nature) =
      .ok (some "header") := by decide +kernel

/-! ### C35 -/

/-- the cells added by `fill_missing` -/
def Filling (b : Box) (content : Option γ) (styles : Option Styles) (nature : Option String) (before : List (Cell γ)) (c : Cell γ) : Prop :=
  ∃ p, InBox p b ∧ ¬ Covered before p ∧ c = ⟨content, styles.getD [], nature, ⟨p, p⟩⟩

theorem fillOne_spec {t : Table γ} (h : t.Inv) (content : Option γ) (styles : Option Styles) (nature : Option String) (p : Coord)
    (hp : 1 ≤ p.x ∧ 1 ≤ p.y) :
    ∃ t' news, fillOne content styles nature p t = (.ok (), t') ∧ t'.Inv ∧ t'.grid.cells.Perm (news ++ t.grid.cells) ∧
      (∀ c ∈ news, ¬ Covered t.grid.cells p ∧ c = ⟨content, styles.getD [], nature, ⟨p, p⟩⟩) ∧
      Covered t'.grid.cells p := by
  have hinv := fillOne_tinv h content styles nature p
  rw [fillOne_run] at hinv ⊢
  by_cases hh : t.grid.hasCoord p = true
  · rw [if_pos hh]
    refine ⟨t, [], rfl, h, by simp, by simp, ?_⟩
    exact (hasCoord_grid _ _).mp hh
  · rw [if_neg hh] at hinv ⊢
    have hfree : ¬ Covered t.grid.cells p := fun hc => hh ((hasCoord_grid _ _).mpr hc)
    have hnew : Cell.new content styles nature p.x p.y = .ok ⟨content, styles.getD [], nature, ⟨p, p⟩⟩ := by
      rw [cell_new_ok _ _ _ (by omega)]
      simp only [Except.ok.injEq, Cell.mk.injEq, true_and]
      apply box_ext <;> simp only <;> omega
    rw [hnew] at hinv ⊢
    simp only at hinv ⊢
    obtain ⟨g', hs, e1, e2, e3, e4⟩ := setItem_single h (.tuple [.int p.x, .int p.y]) p rfl hp hfree
      ⟨content, styles.getD [], nature, ⟨p, p⟩⟩ rfl
    unfold eval exec at *
    cases hr : setItem (.tuple [.int p.x, .int p.y]) ⟨content, styles.getD [], nature, ⟨p, p⟩⟩ t with
    | mk r t' =>
      rw [hr] at e1 e2 hinv
      simp only at e1 e2 hinv
      subst e1
      refine ⟨t', [⟨content, styles.getD [], nature, ⟨p, p⟩⟩], rfl, hinv, ?_, ?_, ?_⟩
      · rw [e2]; exact e3
      · intro c hc; rw [List.mem_singleton] at hc; exact ⟨hfree, hc⟩
      · refine ⟨⟨content, styles.getD [], nature, ⟨p, p⟩⟩, ?_, by simp [InBox]⟩
        rw [e2]; exact e3.mem_iff.mpr (by simp)

theorem mem_boxCoords (b : Box) (p : Coord) : p ∈ boxCoords b ↔ InBox p b := by
  unfold boxCoords
  simp only [List.mem_flatMap, List.mem_map, mem_pyRange, InBox]
  constructor
  · rintro ⟨y, hy, x, hx, rfl⟩; simp only; omega
  · intro h; exact ⟨p.y, by omega, p.x, by omega, rfl⟩

theorem fill_spec (content : Option γ) (styles : Option Styles) (nature : Option String) :
    ∀ (L : List Coord) (t : Table γ), t.Inv → (∀ p ∈ L, 1 ≤ p.x ∧ 1 ≤ p.y) →
    ∃ t' news, forEach (fillOne content styles nature) L t = (.ok (), t') ∧ t'.Inv ∧ t'.grid.cells.Perm (news ++ t.grid.cells) ∧
      (∀ c ∈ news, ∃ p ∈ L, ¬ Covered t.grid.cells p ∧ c = ⟨content, styles.getD [], nature, ⟨p, p⟩⟩) ∧
      (∀ p ∈ L, Covered t'.grid.cells p) := by
  intro L
  induction L with
  | nil => intro t h _; exact ⟨t, [], rfl, h, by simp, by simp, by simp⟩
  | cons p L ih =>
    intro t h hL
    obtain ⟨t1, n1, r1, i1, p1, c1, v1⟩ := fillOne_spec h content styles nature p (hL p (by simp))
    obtain ⟨t2, n2, r2, i2, p2, c2, v2⟩ := ih t1 i1 (fun q hq => hL q (by simp [hq]))
    have mono : ∀ q, Covered t.grid.cells q → Covered t1.grid.cells q := by
      rintro q ⟨c, hc, hin⟩; exact ⟨c, p1.mem_iff.mpr (by simp [hc]), hin⟩
    refine ⟨t2, n2 ++ n1, ?_, i2, ?_, ?_, ?_⟩
    · show PyM.bind _ _ t = _
      unfold PyM.bind; rw [r1]; exact r2
    · rw [List.append_assoc]
      exact p2.trans (List.Perm.append_left n2 p1)
    · intro c hc
      rcases List.mem_append.mp hc with hc | hc
      · obtain ⟨q, hq, hf, e⟩ := c2 c hc
        exact ⟨q, by simp [hq], fun hh => hf (mono q hh), e⟩
      · exact ⟨p, by simp, c1 c hc⟩
    · intro q hq
      rcases List.mem_cons.mp hq with e | hq
      · rw [e]
        obtain ⟨c, hc, hin⟩ := v1
        exact ⟨c, p2.mem_iff.mpr (by simp [hc]), hin⟩
      · exact v2 q hq

/-- **C35**: `fill_missing` never fails, leaves no hole in the box, keeps every cell, and only adds 1×1 cells with the given
content, styles and nature, on coordinates of the box which were not covered. -/
theorem C35_fill_missing (t : Table γ) (ht : t.Reachable) (b : Box) (hb : b.Valid) (content : Option γ) (styles : Option Styles)
    (nature : Option String) :
    eval (fillMissing b content styles nature) t = .ok () ∧
    (∀ p, InBox p b → Covered (exec (fillMissing b content styles nature) t).grid.cells p) ∧
    ∃ news, (exec (fillMissing b content styles nature) t).grid.cells.Perm (news ++ t.grid.cells) ∧ news.Nodup ∧
      ∀ c, c ∈ news ↔ Filling b content styles nature t.grid.cells c := by
  have hi := ht.inv
  obtain ⟨t', news, hr, hinv, hp, hc, hv⟩ := fill_spec content styles nature (boxCoords b) t hi (by
    intro p hp
    rw [mem_boxCoords] at hp
    unfold Box.Valid at hb; simp only [InBox] at hp; omega)
  unfold eval exec fillMissing
  rw [hr]
  refine ⟨rfl, fun p hpb => hv p ((mem_boxCoords b p).mpr hpb), news, hp, ?_, ?_⟩
  · have := hp.nodup_iff.mp (inv_nodup hinv.grid)
    exact (List.nodup_append.mp this).1
  · intro c
    constructor
    · intro hcn
      obtain ⟨p, hpL, hf, e⟩ := hc c hcn
      exact ⟨p, (mem_boxCoords b p).mp hpL, hf, e⟩
    · rintro ⟨p, hpb, hf, rfl⟩
      obtain ⟨d, hd, hin⟩ := hv p ((mem_boxCoords b p).mpr hpb)
      rcases List.mem_append.mp (hp.mem_iff.mp hd) with hdn | hdo
      · obtain ⟨q, _, _, e⟩ := hc d hdn
        rw [e] at hin
        have : p = q := by
          simp only [InBox] at hin; cases p; cases q; simp only [Coord.mk.injEq]; simp only at hin; omega
        subst this
        rw [← e]; exact hdn
      · exact absurd ⟨d, hdo, hin⟩ hf

example : (exec (fillMissing ⟨⟨1, 1⟩, ⟨3, 2⟩⟩ (some "-") none (some "body")) tableDemo).grid.cells.length = 4 ∧
    ¬ Covered tableDemo.grid.cells ⟨2, 2⟩ ∧ Covered (exec (fillMissing ⟨⟨1, 1⟩, ⟨3, 2⟩⟩ (some "-") none (some "body")) tableDemo).grid.cells ⟨2, 2⟩ := by
  refine ⟨by decide +kernel, ?_, ?_⟩
  · rw [← hasCoord_grid]; decide +kernel
  · rw [← hasCoord_grid]; decide +kernel

/-! ### C36 -/

/-- list of views `vs'` keeps the looks of the views of `vs`, and its additional views are plain -/
def KeepsLooks (vs vs' : List (View γ)) : Prop :=
  ∀ (i : Nat) (v' : View γ), vs'[i]? = some v' →
    (∀ v, vs[i]? = some v → v'.styles = v.styles ∧ v'.nature = v.nature) ∧
    (vs[i]? = none → v'.styles = [] ∧ v'.nature = none)

theorem keeps_refl (vs : List (View γ)) : KeepsLooks vs vs := by
  intro i v' h
  constructor
  · intro v hv; rw [h] at hv; cases hv; exact ⟨rfl, rfl⟩
  · intro hn; rw [h] at hn; cases hn

theorem keeps_trans {a b c : List (View γ)} (hab : KeepsLooks a b) (hbc : KeepsLooks b c) (hl : a.length ≤ b.length) :
    KeepsLooks a c := by
  intro i v' h
  obtain ⟨h1, h2⟩ := hbc i v' h
  constructor
  · intro v hv
    have : i < b.length := by have := (List.getElem?_eq_some_iff.mp hv).1; omega
    obtain ⟨w, hw⟩ : ∃ w, b[i]? = some w := ⟨_, List.getElem?_eq_getElem this⟩
    have e1 := h1 w hw
    have e2 := (hab i w hw).1 v hv
    exact ⟨e1.1.trans e2.1, e1.2.trans e2.2⟩
  · intro hn
    cases hb : b[i]? with
    | none => exact h2 hb
    | some w =>
      have e1 := h1 w hb
      have e2 := (hab i w hb).2 hn
      exact ⟨e1.1.trans e2.1, e1.2.trans e2.2⟩

theorem keeps_grow (n : Int) (vs : List (View γ)) : KeepsLooks vs (Views.grow n vs) := by
  intro i v' h
  obtain ⟨hi, rfl⟩ := List.getElem?_eq_some_iff.mp h
  rw [grow_getElem]
  constructor
  · intro v hv
    obtain ⟨hj, rfl⟩ := List.getElem?_eq_some_iff.mp hv
    simp [hj]
  · intro hn
    have : ¬ i < vs.length := by intro hj; rw [List.getElem?_eq_getElem hj] at hn; cases hn
    simp [this, View.new]

theorem keeps_map {vs : List (View γ)} (f : View γ → View γ) (hf : ∀ v, (f v).styles = v.styles ∧ (f v).nature = v.nature)
    {us : List (View γ)} (h : KeepsLooks us vs) : KeepsLooks us (vs.map f) := by
  intro i v' hv'
  rw [List.getElem?_map] at hv'
  cases hw : vs[i]? with
  | none => rw [hw] at hv'; cases hv'
  | some w =>
    rw [hw] at hv'; cases hv'
    obtain ⟨h1, h2⟩ := h i w hw
    rw [(hf w).1, (hf w).2]
    exact ⟨h1, h2⟩

theorem keeps_fit (n : Int) (hn : 0 ≤ n) (vs : List (View γ)) : KeepsLooks vs (Views.fit n true vs) := by
  intro i v' h
  obtain ⟨hi, rfl⟩ := List.getElem?_eq_some_iff.mp h
  rw [fit_true_getElem n hn]
  constructor
  · intro v hv
    obtain ⟨hj, rfl⟩ := List.getElem?_eq_some_iff.mp hv
    simp [hj]
  · intro hnn
    have : ¬ i < vs.length := by intro hj; rw [List.getElem?_eq_getElem hj] at hnn; cases hnn
    simp [this, View.new]

theorem keeps_adopted (ax : Axis) (c : Cell γ) (vs : List (View γ)) :
    KeepsLooks vs (adoptedViews ax c vs) ∧ vs.length ≤ (adoptedViews ax c vs).length := by
  refine ⟨keeps_map (View.adopt ax c) (fun v => ⟨rfl, rfl⟩) (keeps_grow _ vs), ?_⟩
  unfold adoptedViews
  rw [List.length_map]
  have := grow_length (ax.last c.box) vs
  omega

/-- table-level relation: existing lists of views stay, keep the looks, and do not shrink -/
def GrowsLooks (t t' : Table γ) : Prop :=
  ∀ ax vs, t.getViews ax = some vs → ∃ vs', t'.getViews ax = some vs' ∧ KeepsLooks vs vs' ∧ vs.length ≤ vs'.length

theorem grows_refl (t : Table γ) : GrowsLooks t t := fun _ vs h => ⟨vs, h, keeps_refl vs, Nat.le_refl _⟩

theorem grows_trans {a b c : Table γ} (h1 : GrowsLooks a b) (h2 : GrowsLooks b c) : GrowsLooks a c := by
  intro ax vs h
  obtain ⟨ws, hw, k1, l1⟩ := h1 ax vs h
  obtain ⟨us, hu, k2, l2⟩ := h2 ax ws hw
  exact ⟨us, hu, keeps_trans k1 k2 l1, by omega⟩

theorem base_of_some {t : Table γ} {ax : Axis} {vs : List (View γ)} (h : t.getViews ax = some vs) : t.baseViews ax = vs := by
  unfold baseViews; rw [h]; rfl

theorem setItem_grows {t : Table γ} (h : t.Inv) (v : PyVal) (cell : Cell γ) (hc : cell.box.Valid) :
    GrowsLooks t (setItem v cell t).2 := by
  rcases setItem_run h v cell hc with ⟨e, _, hr⟩ | ⟨c, g', hv, hs, hr⟩
  · rw [hr]; exact grows_refl t
  · rw [hr]
    intro ax vs hvs
    have hb : ({ t with grid := g' } : Table γ).baseViews ax = vs := base_of_some (by cases ax <;> exact hvs)
    refine ⟨adoptedViews ax (movedTo cell c) vs, ?_, keeps_adopted ax _ vs⟩
    rw [← hb]; cases ax <;> rfl

theorem setViews_grows {t : Table γ} (ax : Axis) (ws : List (View γ))
    (h : ∀ vs, t.getViews ax = some vs → KeepsLooks vs ws ∧ vs.length ≤ ws.length) : GrowsLooks t (t.setViews ax ws) := by
  intro ax' vs hvs
  by_cases he : ax' = ax
  · subst he; exact ⟨ws, getViews_setViews_same _ _ _, h vs hvs⟩
  · exact ⟨vs, by rw [getViews_setViews_ne he]; exact hvs, keeps_refl vs, Nat.le_refl _⟩

theorem viewAt_grows {t : Table γ} (h : t.Inv) (ax : Axis) (pos : Int) : GrowsLooks t (viewAt ax pos t).2 := by
  rw [viewAt_run h]
  refine setViews_grows ax _ ?_
  intro vs hvs
  rw [base_of_some hvs]
  have := grow_length pos vs
  exact ⟨keeps_grow pos vs, by omega⟩

theorem insertCell_grows {t : Table γ} (h : t.Inv) (ax : Axis) (pos : Int) (content : Option γ) (styles : Option Styles)
    (nature : Option String) (w hh : Int) : GrowsLooks t (insertCell ax pos content styles nature w hh t).2 := by
  rcases insertCell_run h ax pos content styles nature w hh with ⟨e, hr⟩ | ⟨v, k, cell, _, _, hc, hr⟩
  · rw [hr]; exact viewAt_grows h ax pos
  · rw [hr]
    exact grows_trans (viewAt_grows h ax pos) (setItem_grows (viewAt_tinv h ax pos) _ cell (cell_new_valid hc).1)

theorem fillMissing_grows {t : Table γ} (h : t.Inv) (b : Box) (content : Option γ) (styles : Option Styles) (nature : Option String) :
    GrowsLooks t (fillMissing b content styles nature t).2 := by
  refine (forEach_inv (fun t' => t'.Inv ∧ GrowsLooks t t') _ ?_ _ t ⟨h, grows_refl t⟩).2
  intro p t1 ⟨hi, hg⟩
  refine ⟨fillOne_tinv hi content styles nature p, grows_trans hg ?_⟩
  rw [fillOne_run]
  split
  · exact grows_refl _
  · split
    · exact grows_refl _
    · rename_i cell hc; exact setItem_grows hi _ cell (cell_new_valid hc).1

/-- **C36**: one step of any history. Let `vs` be the row (column) views before the operation. They are still there afterwards,
number `i` with the same styles and nature unless the operation itself assigns them; views beyond the old ones are plain;
the list shrinks only by a deletion, merge or expansion, and then down to the last line of the table. -/
theorem C36_looks_survive (t : Table γ) (ht : t.Reachable) (op : Table.Op γ) (ax : Axis) (vs : List (View γ))
    (hvs : t.getViews ax = some vs) :
    ∃ vs', (exec op.run t).getViews ax = some vs' ∧
      (∀ (i : Nat) (v' : View γ), vs'[i]? = some v' → ¬ op.EditsLooks ax i →
        (∀ v, vs[i]? = some v → v'.styles = v.styles ∧ v'.nature = v.nature) ∧
        (vs[i]? = none → v'.styles = [] ∧ v'.nature = none)) ∧
      (vs'.length < vs.length → op.Refreshing ∧ eval op.run t = .ok () ∧
        (((exec op.run t).grid.cells = [] ∧ vs' = []) ∨ ∃ c ∈ (exec op.run t).grid.cells, lastLine ax c = vs'.length)) := by
  have h := ht.inv
  have fromGrows : GrowsLooks t (exec op.run t) → ∃ vs', (exec op.run t).getViews ax = some vs' ∧
      (∀ (i : Nat) (v' : View γ), vs'[i]? = some v' → ¬ op.EditsLooks ax i →
        (∀ v, vs[i]? = some v → v'.styles = v.styles ∧ v'.nature = v.nature) ∧
        (vs[i]? = none → v'.styles = [] ∧ v'.nature = none)) ∧
      (vs'.length < vs.length → op.Refreshing ∧ eval op.run t = .ok () ∧
        (((exec op.run t).grid.cells = [] ∧ vs' = []) ∨ ∃ c ∈ (exec op.run t).grid.cells, lastLine ax c = vs'.length)) := by
    intro hg
    obtain ⟨vs', e1, e2, e3⟩ := hg ax vs hvs
    exact ⟨vs', e1, fun i v' hv' _ => e2 i v' hv', fun hlt => absurd e3 (by omega)⟩
  have edit : ∀ (ax' : Axis) (pos : Int) (f : View γ → View γ), op.run = editView ax' pos f →
      (∀ i : Nat, pos = i + 1 ∨ pos ≤ 0 → ax' = ax → op.EditsLooks ax i) → ∃ vs', (exec op.run t).getViews ax = some vs' ∧
      (∀ (i : Nat) (v' : View γ), vs'[i]? = some v' → ¬ op.EditsLooks ax i →
        (∀ v, vs[i]? = some v → v'.styles = v.styles ∧ v'.nature = v.nature) ∧
        (vs[i]? = none → v'.styles = [] ∧ v'.nature = none)) ∧
      (vs'.length < vs.length → op.Refreshing ∧ eval op.run t = .ok () ∧
        (((exec op.run t).grid.cells = [] ∧ vs' = []) ∨ ∃ c ∈ (exec op.run t).grid.cells, lastLine ax c = vs'.length)) := by
    intro ax' pos f hrun hedit
    rw [hrun]
    unfold exec
    rw [editView_run h]
    by_cases he : ax = ax'
    · subst he
      rw [getViews_setViews_same, base_of_some hvs]
      have hl := grow_length pos vs
      refine ⟨_, rfl, ?_, ?_⟩
      · intro i v' hv' hne
        have hk := keeps_grow pos vs i
        have : (Views.grow pos vs)[i]? = some v' := by
          rcases Int.lt_or_le pos 1 with hp | hp
          · exact absurd (hedit i (.inr (by omega)) rfl) hne
          · have hlt : (pos - 1).toNat < (Views.grow pos vs).length := by omega
            have e : (pos - 1 : Int) = ((pos - 1).toNat : Int) := by omega
            rw [e, updateAt_pos _ f _ hlt] at hv'
            simp only at hv'
            rw [List.getElem?_modify] at hv'
            have hne' : (pos - 1).toNat ≠ i := by
              intro hh; exact hne (hedit i (.inl (by omega)) rfl)
            simp only [hne', if_false] at hv'
            simpa using hv'
        exact hk v' this
      · intro hlt
        exfalso
        have : (Views.updateAt (pos - 1) f (Views.grow pos vs)).2.length = (Views.grow pos vs).length := by
          rcases updateAt_state (pos - 1) f (Views.grow pos vs) with e | ⟨j, _, e⟩ <;> rw [e] <;> simp
        omega
    · rw [getViews_setViews_ne he]
      refine ⟨vs, hvs, fun i v' hv' _ => keeps_refl vs i v' hv', fun hlt => absurd hlt (by omega)⟩
  cases op with
  | grid op =>
    rcases runGridOp_run h op with ⟨e, _, hr⟩ | ⟨g', rs, cs, h1, hg', h2, ⟨v, a, cell, c, rfl, ha, hc, hv, hs, -, -⟩ | ⟨hns, rfl, rfl⟩⟩
    · apply fromGrows
      show GrowsLooks t (runGridOp op t).2
      rw [hr]; exact grows_refl t
    · apply fromGrows
      have := setItem_grows h v cell hc
      simpa only [Table.Op.run, runGridOp, bind_run, lift_run, ha, exec] using this
    · have hs := lastLineOf_spec ax g' hg'
      have hb : ({ t with grid := g' } : Table γ).baseViews ax = vs := base_of_some (by cases ax <;> exact hvs)
      have hrun : Table.Op.run (.grid op) t = _ := h2
      unfold exec eval
      rw [hrun]
      refine ⟨refreshedViews ax g' vs, ?_, ?_, ?_⟩
      · rw [← hb]; cases ax <;> rfl
      · intro i v' hv' _
        exact keeps_map (refreshed ax g'.cells) (fun v => ⟨rfl, rfl⟩) (keeps_fit (lastLineOf ax g') hs.2.1 vs) i v' hv'
      · intro _
        have hl : ((refreshedViews ax g' vs).length : Int) = lastLineOf ax g' := by
          unfold refreshedViews; rw [List.length_map]; exact fit_true_length _ hs.2.1 vs
        refine ⟨?_, rfl, ?_⟩
        · cases op with
          | set v a => exact absurd rfl (hns v a)
          | del v => trivial
          | merge s e f => trivial
          | expand v w hh f => trivial
        · by_cases hn : g'.cells = []
          · left
            refine ⟨hn, List.eq_nil_of_length_eq_zero ?_⟩
            have := hs.2.2.2 hn; omega
          · right
            obtain ⟨c, hc, e⟩ := hs.2.2.1 hn
            exact ⟨c, hc, by omega⟩
  | access ax' =>
    apply fromGrows
    simp only [exec, Table.Op.run, bind_run]
    rw [views_run ax' t h.grid]
    refine setViews_grows ax' _ ?_
    intro ws hws
    rw [base_of_some hws]
    exact ⟨keeps_refl ws, Nat.le_refl _⟩
  | view ax' pos =>
    apply fromGrows
    have := viewAt_grows h ax' pos
    simp only [exec, Table.Op.run, bind_run]
    split <;> (rename_i heq; rw [heq] at this; exact this)
  | setNature ax' pos n => exact edit ax' pos _ rfl (fun i hi he => ⟨he, hi⟩)
  | setStyles ax' pos d => exact edit ax' pos _ rfl (fun i hi he => ⟨he, hi⟩)
  | insert ax' pos c s n w hh => exact fromGrows (insertCell_grows h ax' pos c s n w hh)
  | fill b c s n => exact fromGrows (fillMissing_grows h b c s n)
  | looks d n =>
    apply fromGrows
    intro ax vs h
    exact ⟨vs, by cases ax <;> exact h, keeps_refl vs, Nat.le_refl _⟩

/-- **C36**, assignments: setting the nature (styles) of view `pos` sets it, and keeps the other attribute of that view. -/
theorem C36_assign (t : Table γ) (ht : t.Reachable) (ax : Axis) (pos : Int) (hpos : 1 ≤ pos) (n : Option String) (d : Option Styles) :
    ∃ v, eval (viewAt ax pos) t = .ok v ∧
      eval (viewAt ax pos) (exec (Table.Op.run (.setNature ax pos n)) t) = .ok { v with nature := n } ∧
      eval (viewAt ax pos) (exec (Table.Op.run (.setStyles ax pos d)) t) = .ok { v with styles := d.getD [] } := by
  have h := ht.inv
  have hl := grow_length pos (t.baseViews ax)
  have hlt : (pos - 1).toNat < (Views.grow pos (t.baseViews ax)).length := by omega
  have key : ∀ f : View γ → View γ, LooksOnly f →
      eval (viewAt ax pos) (exec (editView ax pos f) t) = .ok (f ((Views.grow pos (t.baseViews ax))[(pos - 1).toNat])) := by
    intro f hf
    have hi := editView_tinv h ax pos f hf
    unfold eval
    rw [viewAt_run hi]
    have e : (exec (editView ax pos f) t).baseViews ax = (Views.grow pos (t.baseViews ax)).modify (pos - 1).toNat f := by
      have e : (pos - 1 : Int) = ((pos - 1).toNat : Int) := by omega
      unfold exec
      rw [editView_run h]
      simp only [baseViews_setViews]
      rw [e, updateAt_pos _ f _ hlt]
      simp
    rw [e, grow_noop _ _ (by rw [List.length_modify]; omega)]
    simp only
    rw [pyGet_pos _ pos hpos (by rw [List.length_modify]; omega)]
    rw [List.getElem_modify]; simp
  refine ⟨(Views.grow pos (t.baseViews ax))[(pos - 1).toNat], ?_, ?_, ?_⟩
  · unfold eval; rw [viewAt_run h]; exact pyGet_pos _ pos hpos (by omega)
  · exact key _ (fun v => ⟨rfl, rfl, rfl⟩)
  · have := key (fun v => { v with styles := copyStyles d }) (fun v => ⟨rfl, rfl, rfl⟩)
    cases d <;> exact this

/-- non-vacuity: the nature of row 1 survives a merge, and the deletion of the last row drops its view -/
example : (tableDemo.rows.map (fun vs => vs.map (·.nature))) = some [some "header", none] ∧
    ((exec (Table.Op.run (.grid (.merge (.tuple [.int 1, .int 1]) (.tuple [.int 2, .int 2]) (fun a b => .ok (a ++ b))))) tableDemo).rows.map
      (fun vs => vs.map (·.nature))) = some [some "header", none] ∧
    ((Table.runFrom tableDemo [.grid (.del (.tuple [.int 3, .int 1])), .grid (.del (.tuple [.int 1, .int 2]))]).rows.map
      (fun vs => vs.map (·.nature))) = some [some "header"] := by decide +kernel

/-! ### C37 -/

/-- **C37**, one step: an insertion, deletion, merge or expansion of the table has the result and the effect on the cells of the
same operation on a grid. -/
theorem C37_step (t : Table γ) (ht : t.Reachable) (op : Grid.Op γ) :
    eval (runGridOp op) t = eval op.run t.grid ∧ (exec (runGridOp op) t).grid = exec op.run t.grid := by
  unfold eval exec
  rcases runGridOp_run ht.inv op with ⟨e, h1, hr⟩ | ⟨g', rs, cs, h1, hg', h2, _⟩
  · rw [hr, h1]; exact ⟨rfl, rfl⟩
  · rw [h2, h1]; exact ⟨rfl, rfl⟩

theorem C37_views_only (t : Table γ) (ht : t.Reachable) (ax : Axis) (pos : Int) (n : Option String) (d : Option Styles) :
    (exec (Table.Op.run (.access ax)) t).grid = t.grid ∧ (exec (Table.Op.run (.view ax pos)) t).grid = t.grid ∧
    (exec (Table.Op.run (.setNature ax pos n)) t).grid = t.grid ∧ (exec (Table.Op.run (.setStyles ax pos d)) t).grid = t.grid := by
  have h := ht.inv
  refine ⟨?_, ?_, ?_, ?_⟩
  · simp only [exec, Table.Op.run, bind_run]; rw [views_run ax t h.grid]; simp
  · simp only [exec, Table.Op.run, bind_run]; rw [viewAt_run h]
    cases pyGet (Views.grow pos (t.baseViews ax)) (pos - 1) <;> simp
  · simp only [exec, Table.Op.run]; rw [editView_run h]; simp
  · simp only [exec, Table.Op.run]; rw [editView_run h]; simp

/-- the insertions, deletions, merges and expansions of a history -/
def gridOps (ops : List (Table.Op γ)) : List (Grid.Op γ) :=
  ops.filterMap (fun op => match op with
    | .grid op => some op
    | _ => none)

/-- neither `insert_cell` nor `fill_missing` -/
def Table.Op.Plain : Table.Op γ → Prop
  | .insert .. => False
  | .fill .. => False
  | _ => True

/-- **C37**, whole histories: the cells of the table are those of a grid which received the same insertions, deletions, merges
and expansions, whatever accesses to the views are interleaved. Lookups, iteration, length and bounding box are functions
of the cells (`C37_answers`). -/
theorem C37_history (ops : List (Table.Op γ)) : ∀ (t : Table γ), t.Reachable → (∀ op ∈ ops, op.Plain) →
    (Table.runFrom t ops).grid = Grid.runFrom t.grid (gridOps ops) := by
  induction ops with
  | nil => intro t _ _; rfl
  | cons op ops ih =>
    intro t ht hp
    have := ih (exec op.run t) (ht.step op) (fun o ho => hp o (by simp [ho]))
    show (Table.runFrom (exec op.run t) ops).grid = _
    rw [this]
    cases op with
    | grid o =>
      show Grid.runFrom (exec (runGridOp o) t).grid _ = Grid.runFrom (exec o.run t.grid) _
      rw [(C37_step t ht o).2]
      rfl
    | access ax => rw [(C37_views_only t ht ax 1 none none).1]; rfl
    | view ax pos => rw [(C37_views_only t ht ax pos none none).2.1]; rfl
    | setNature ax pos n => rw [(C37_views_only t ht ax pos n none).2.2.1]; rfl
    | setStyles ax pos d => rw [(C37_views_only t ht ax pos none d).2.2.2]; rfl
    | insert => exact absurd (hp _ (List.mem_cons_self ..)) id
    | fill => exact absurd (hp _ (List.mem_cons_self ..)) id
    | looks d n => rfl

/-- lookups, iteration, length and bounding box of a table are those of a grid having the same cells -/
theorem C37_answers (t : Table γ) (g : Grid γ) (h : t.grid.cells = g.cells) (v : PyVal) :
    t.contains v = g.contains v ∧ t.getItem v = g.getItem v ∧ t.cells = g.cells ∧ t.len = g.len ∧ t.boundingBox = g.boundingBox := by
  have : t.grid = g := by cases g; cases hg : t.grid; rw [hg] at h; simp only at h; rw [h]
  subst this; exact ⟨rfl, rfl, rfl, rfl, rfl⟩

/-- **C37**, `insert_cell`: same result and same cells as storing the cell in the grid at the first free position -/
theorem C37_insert (t : Table γ) (ht : t.Reachable) (ax : Axis) (pos : Int) (hpos : 1 ≤ pos) (content : Option γ)
    (styles : Option Styles) (nature : Option String) (w h : Int) :
    ∃ k n, FirstFree ax pos t.grid.cells k ∧
      let op := Grid.Op.set (.coord (ax.coord pos k)) ⟨content, styles, n, (ax.coord pos k).x, (ax.coord pos k).y, w, h⟩
      eval (insertCell ax pos content styles nature w h) t = eval op.run t.grid ∧
      (exec (insertCell ax pos content styles nature w h) t).grid = exec op.run t.grid := by
  have hi := ht.inv
  obtain ⟨k, hff, he⟩ := insertCell_eq hi ax pos hpos content styles nature w h
  refine ⟨k, nature.or (viewNature t ax pos), hff, ?_⟩
  have hvr := ht.step (.view ax pos)
  have hve : exec (Table.Op.run (.view ax pos)) t = exec (viewAt ax pos) t := by
    simp only [exec, Table.Op.run, bind_run]
    split <;> (rename_i heq; rw [heq]; try rfl)
  rw [hve] at hvr
  have hg : (exec (viewAt ax pos) t).grid = t.grid := by simp [exec, viewAt_run hi]
  have := C37_step _ hvr (Grid.Op.set (.coord (ax.coord pos k)) ⟨content, styles,
    nature.or (viewNature t ax pos), (ax.coord pos k).x, (ax.coord pos k).y, w, h⟩)
  rw [hg] at this
  intro op
  rw [← this.1, ← this.2]
  unfold eval exec
  rw [he]
  simp only [runGridOp, bind_run, lift_run, Grid.CellArgs.build]
  split
  · rename_i heq; rw [heq]; exact ⟨rfl, rfl⟩
  · rename_i heq; rw [heq]; exact ⟨rfl, rfl⟩

example : (Table.runFrom tableDemo [.access .col, .grid (.del (.tuple [.int 1, .int 1])), .view .row 7]).grid.cells.length = 2 ∧
    tableDemo.Reachable := ⟨by decide +kernel, tableDemo_reachable⟩

end Benker
