import Verif.Lemmas.Table

/-! The operations of a table: exact effect, and the invariant. -/

namespace Benker
variable {γ : Type}
open PyM

/-! ### grid facts -/

theorem setItem_ok_facts {g g' : Grid γ} (hinv : g.Inv) {v : PyVal} {cell : Cell γ} (hc : cell.box.Valid)
    (h : Grid.setItem v cell g = (.ok (), g')) :
    ∃ c new, Coord.fromValue v = .ok c ∧ new = movedTo cell c ∧ g'.getItem v = .ok new ∧ new.box.Valid ∧ new ∉ g.cells ∧
      (∀ d, d ∈ g'.cells ↔ d = new ∨ d ∈ g.cells) ∧ g'.Inv := by
  have hinv' := setItem_inv v cell hc g hinv
  rw [h] at hinv'
  obtain ⟨c, new, h1, h2, h3, h4, h5, h6, h7, h8, -⟩ := set_get_inv g hinv v cell hc g' h
  have hm : ∀ d, d ∈ g'.cells ↔ d = new ∨ d ∈ g.cells := fun d => by rw [h8.mem_iff]; simp
  have hnd : (new :: g.cells).Nodup := h8.nodup_iff.mp (inv_nodup hinv')
  have hnew : new = movedTo cell c := by
    cases new with
    | mk content styles nature box =>
      simp only [movedTo, Cell.mk.injEq]
      refine ⟨h5, h6, h7, ?_⟩
      simp only [Cell.min] at h3
      simp only [Cell.size, Box.size, Box.width, Box.height, Size.mk.injEq] at h4
      apply box_ext <;> simp only [h3] at * <;> omega
  exact ⟨c, new, h1, hnew, h2, hinv'.valid new ((hm new).mpr (.inl rfl)), (List.nodup_cons.mp hnd).1, hm, hinv'⟩

theorem setItem_error_same {g : Grid γ} {v : PyVal} {cell : Cell γ} (hc : cell.box.Valid) {e : PyErr} {g' : Grid γ}
    (h : Grid.setItem v cell g = (.error e, g')) : g' = g := by
  rcases setItem_cases v cell hc g with ⟨hr, hv⟩ | ⟨c, hv, ⟨hneg, hr⟩ | ⟨hpos, ⟨hex, hr⟩ | ⟨hno, hr⟩⟩⟩
  all_goals (rw [hr] at h; cases h; try rfl)

theorem delItem_error_same {g : Grid γ} {v : PyVal} {e : PyErr} {g' : Grid γ}
    (h : Grid.delItem v g = (.error e, g')) : g' = g := by
  rw [delItem_run] at h
  split at h
  · cases h; rfl
  · split at h <;> cases h
    rfl

theorem merge_error_same {g : Grid γ} {s t : PyVal} {f : γ → γ → Except PyErr γ} {e : PyErr} {g' : Grid γ}
    (h : Grid.merge s t f g = (.error e, g')) : g' = g := by
  rcases merge_cases s t f g with ⟨_, hr⟩ | ⟨a, b, hs, he, ⟨_, hr⟩ | ⟨hval, ⟨_, hr⟩ | ⟨hno, ⟨_, hr⟩ |
    ⟨first, rest, hm, ⟨_, _, hr⟩ | ⟨new, hl, hr⟩⟩⟩⟩⟩
  all_goals (rw [hr] at h; cases h; try rfl)

theorem expand_error_same {g : Grid γ} {v : PyVal} {w hh : Int} {f : γ → γ → Except PyErr γ} {e : PyErr} {g' : Grid γ}
    (h : Grid.expand v w hh f g = (.error e, g')) : g' = g := by
  rw [expand_run] at h
  split at h
  · cases h; rfl
  · exact merge_error_same h

/-! ### views of a table -/

namespace Table

@[simp] theorem getViews_setViews_same (ax : Axis) (vs : List (View γ)) (t : Table γ) :
    (t.setViews ax vs).getViews ax = some vs := by cases ax <;> rfl
theorem getViews_setViews_ne {ax ax' : Axis} (h : ax' ≠ ax) (vs : List (View γ)) (t : Table γ) :
    (t.setViews ax vs).getViews ax' = t.getViews ax' := by cases ax <;> cases ax' <;> first | rfl | exact absurd rfl h
@[simp] theorem grid_setViews (ax : Axis) (vs : List (View γ)) (t : Table γ) : (t.setViews ax vs).grid = t.grid := by
  cases ax <;> rfl
@[simp] theorem styles_setViews (ax : Axis) (vs : List (View γ)) (t : Table γ) : (t.setViews ax vs).styles = t.styles := by
  cases ax <;> rfl
@[simp] theorem nature_setViews (ax : Axis) (vs : List (View γ)) (t : Table γ) : (t.setViews ax vs).nature = t.nature := by
  cases ax <;> rfl
@[simp] theorem setViews_setViews (ax : Axis) (vs ws : List (View γ)) (t : Table γ) :
    (t.setViews ax vs).setViews ax ws = t.setViews ax ws := by cases ax <;> rfl
theorem setViews_self (ax : Axis) (vs : List (View γ)) (t : Table γ) (h : t.getViews ax = some vs) :
    t.setViews ax vs = t := by
  cases t; cases ax <;> simp only [getViews] at h <;> simp only [setViews, h]

/-- the views shown by `table.rows`: the existing ones, or views made from the current cells -/
def baseViews (ax : Axis) (t : Table γ) : List (View γ) :=
  (t.getViews ax).getD ((Views.fit (lastLineOf ax t.grid) true []).map (refreshed ax t.grid.cells))

theorem baseViews_setViews_ne {ax ax' : Axis} (h : ax' ≠ ax) (vs : List (View γ)) (t : Table γ) :
    (t.setViews ax vs).baseViews ax' = t.baseViews ax' := by
  unfold baseViews; rw [getViews_setViews_ne h, grid_setViews]

@[simp] theorem baseViews_setViews (ax : Axis) (vs : List (View γ)) (t : Table γ) :
    (t.setViews ax vs).baseViews ax = vs := by unfold baseViews; simp

theorem posOK_nil : PosOK ([] : List (View γ)) := by intro i h; simp at h

theorem views_run (ax : Axis) (t : Table γ) (hinv : t.grid.Inv) :
    views ax t = (.ok (t.baseViews ax), t.setViews ax (t.baseViews ax)) := by
  unfold views baseViews
  cases h : t.getViews ax with
  | some vs => simp only [Option.getD_some]; rw [setViews_self ax vs t h]
  | none => simp only [refreshAll_run ax t.grid hinv [] posOK_nil, Option.getD_none]

theorem onViews_run (ax : Axis) (m : PyM (List (View γ)) α) (t : Table γ) (hinv : t.grid.Inv) :
    onViews ax m t = ((m (t.baseViews ax)).1, t.setViews ax (m (t.baseViews ax)).2) := by
  unfold onViews
  rw [views_run ax t hinv]
  simp

/-- the invariant of tables -/
structure Inv (t : Table γ) : Prop where
  grid : t.grid.Inv
  views : ∀ ax vs, t.getViews ax = some vs → Describes ax t.grid.cells vs

theorem base_describes {t : Table γ} (h : t.Inv) (ax : Axis) : Describes ax t.grid.cells (t.baseViews ax) := by
  unfold baseViews
  cases hv : t.getViews ax with
  | some vs => exact h.views ax vs hv
  | none => exact refreshed_describes ax t.grid h.grid [] posOK_nil

theorem inv_of {t : Table γ} (hg : t.grid.Inv) (hr : ∀ vs, t.rows = some vs → Describes .row t.grid.cells vs)
    (hc : ∀ vs, t.cols = some vs → Describes .col t.grid.cells vs) : t.Inv :=
  ⟨hg, fun ax vs h => by cases ax; exact hr vs h; exact hc vs h⟩

theorem inv_setViews {t : Table γ} (h : t.Inv) (ax : Axis) (vs : List (View γ)) (hd : Describes ax t.grid.cells vs) :
    (t.setViews ax vs).Inv := by
  refine ⟨by rw [grid_setViews]; exact h.grid, ?_⟩
  intro ax' ws hw
  rw [grid_setViews]
  by_cases he : ax' = ax
  · subst he; rw [getViews_setViews_same] at hw; cases hw; exact hd
  · rw [getViews_setViews_ne he] at hw; exact h.views ax' ws hw

/-- views after a cell has been offered -/
def adoptedViews (ax : Axis) (c : Cell γ) (vs : List (View γ)) : List (View γ) :=
  (Views.grow (ax.last c.box) vs).map (View.adopt ax c)

theorem refreshCell_run (t : Table γ) (hg : t.grid.Inv) (hp : ∀ ax, PosOK (t.baseViews ax)) (c : Cell γ) (hc : c.box.Valid) :
    refreshCell c t = (.ok (), { t with
      rows := some (adoptedViews .row c (t.baseViews .row)),
      cols := some (adoptedViews .col c (t.baseViews .col)) }) := by
  unfold refreshCell
  simp only [bind_run]
  rw [onViews_run _ _ _ hg, adopt_run .row c hc _ (hp .row)]
  simp only
  rw [onViews_run _ _ _ (by simpa using hg), baseViews_setViews_ne (by decide), adopt_run .col c hc _ (hp .col)]
  rfl

/-- views after a refresh -/
def refreshedViews (ax : Axis) (g : Grid γ) (vs : List (View γ)) : List (View γ) :=
  (Views.fit (lastLineOf ax g) true vs).map (refreshed ax g.cells)

theorem refreshViews_run (t : Table γ) (hg : t.grid.Inv) (hp : ∀ ax, PosOK (t.baseViews ax)) :
    refreshViews t = (.ok (), { t with
      rows := some (refreshedViews .row t.grid (t.baseViews .row)),
      cols := some (refreshedViews .col t.grid (t.baseViews .col)) }) := by
  unfold refreshViews
  simp only [bind_run, get_run]
  rw [onViews_run _ _ _ hg, refreshAll_run .row _ hg _ (hp .row)]
  simp only
  rw [onViews_run _ _ _ (by simpa using hg), baseViews_setViews_ne (by decide), refreshAll_run .col _ hg _ (hp .col)]
  rfl

/-- positions are right even when the grid has just been replaced -/
theorem base_posOK {t : Table γ} (h : t.Inv) (g' : Grid γ) (hg' : g'.Inv) (ax : Axis) :
    PosOK (({ t with grid := g' } : Table γ).baseViews ax) := by
  unfold baseViews
  cases hv : t.getViews ax with
  | some vs =>
    have : ({ t with grid := g' } : Table γ).getViews ax = some vs := by cases ax <;> exact hv
    rw [this]; exact (h.views ax vs hv).pos
  | none =>
    have : ({ t with grid := g' } : Table γ).getViews ax = none := by cases ax <;> exact hv
    rw [this]
    exact (refreshed_describes ax g' hg' [] posOK_nil).pos

/-- exact effect of `table[v] = cell` -/
theorem setItem_run {t : Table γ} (h : t.Inv) (v : PyVal) (cell : Cell γ) (hc : cell.box.Valid) :
    (∃ e, Grid.setItem v cell t.grid = (.error e, t.grid) ∧ setItem v cell t = (.error e, t)) ∨
    (∃ c g', Coord.fromValue v = .ok c ∧ Grid.setItem v cell t.grid = (.ok (), g') ∧
      setItem v cell t = (.ok (), { t with
        grid := g',
        rows := some (adoptedViews .row (movedTo cell c) (({ t with grid := g' } : Table γ).baseViews .row)),
        cols := some (adoptedViews .col (movedTo cell c) (({ t with grid := g' } : Table γ).baseViews .col)) })) := by
  cases hs : Grid.setItem v cell t.grid with
  | mk r g' =>
    cases r with
    | error e =>
      left
      have := setItem_error_same hc hs
      subst this
      refine ⟨e, rfl, ?_⟩
      unfold setItem
      simp only [bind_run, onGrid, hs]
    | ok u =>
      right
      obtain ⟨c, new, h1, hnew, h2, h3, h4, h5, h6⟩ := setItem_ok_facts h.grid hc hs
      subst hnew
      refine ⟨c, g', h1, rfl, ?_⟩
      unfold setItem
      simp only [bind_run, onGrid, hs, get_run, lift_run, h2]
      rw [refreshCell_run _ h6 (fun ax => base_posOK h g' h6 ax) _ h3]

theorem adopted_describes' {t : Table γ} (h : t.Inv) {g' : Grid γ} (hg' : g'.Inv) (ax : Axis) (c : Cell γ) (hc : c.box.Valid)
    (hm : ∀ d, d ∈ g'.cells ↔ d = c ∨ d ∈ t.grid.cells) :
    Describes ax g'.cells (adoptedViews ax c (({ t with grid := g' } : Table γ).baseViews ax)) := by
  unfold adoptedViews baseViews
  cases hv : t.getViews ax with
  | some vs =>
    have : ({ t with grid := g' } : Table γ).getViews ax = some vs := by cases ax <;> exact hv
    rw [this]
    exact adopted_describes h.grid.valid (h.views ax vs hv) c hc hm
  | none =>
    have : ({ t with grid := g' } : Table γ).getViews ax = none := by cases ax <;> exact hv
    rw [this]
    refine adopted_describes hg'.valid (refreshed_describes ax g' hg' [] posOK_nil) c hc ?_
    intro d
    rw [hm]
    constructor
    · rintro (h | h)
      · exact .inl h
      · exact .inr (.inr h)
    · rintro (h | h | h)
      · exact .inl h
      · exact .inl h
      · exact .inr h

theorem setItem_tinv {t : Table γ} (h : t.Inv) (v : PyVal) (cell : Cell γ) (hc : cell.box.Valid) :
    (exec (setItem v cell) t).Inv := by
  unfold exec
  rcases setItem_run h v cell hc with ⟨e, _, hr⟩ | ⟨c, g', hv, hs, hr⟩
  · rw [hr]; exact h
  · rw [hr]
    obtain ⟨c', new, h1, hnew, h2, h3, h4, h5, h6⟩ := setItem_ok_facts h.grid hc hs
    rw [hv] at h1; cases h1
    subst hnew
    refine inv_of h6 ?_ ?_
    · intro vs hvs; cases hvs; exact adopted_describes' h h6 .row _ h3 h5
    · intro vs hvs; cases hvs; exact adopted_describes' h h6 .col _ h3 h5

/-- operations followed by a refresh: deletion, merge, expansion -/
theorem refreshing_run {t : Table γ} (h : t.Inv) (m : PyM (Grid γ) α)
    (hm : ∀ e g', m t.grid = (.error e, g') → g' = t.grid) (hm' : (m t.grid).2.Inv) :
    (∃ e, m t.grid = (.error e, t.grid) ∧ (do let _ ← onGrid m; refreshViews : PyM (Table γ) Unit) t = (.error e, t)) ∨
    (∃ a g', m t.grid = (.ok a, g') ∧ (do let _ ← onGrid m; refreshViews : PyM (Table γ) Unit) t = (.ok (), { t with
        grid := g',
        rows := some (refreshedViews .row g' (({ t with grid := g' } : Table γ).baseViews .row)),
        cols := some (refreshedViews .col g' (({ t with grid := g' } : Table γ).baseViews .col)) })) := by
  cases hs : m t.grid with
  | mk r g' =>
    rw [hs] at hm'
    cases r with
    | error e =>
      left
      have := hm e g' hs
      subst this
      refine ⟨e, rfl, ?_⟩
      simp only [bind_run, onGrid, hs]
    | ok a =>
      right
      refine ⟨a, g', rfl, ?_⟩
      simp only [bind_run, onGrid, hs]
      rw [refreshViews_run _ hm' (fun ax => base_posOK h g' hm' ax)]

theorem refreshed_tinv {t : Table γ} (h : t.Inv) (g' : Grid γ) (hg' : g'.Inv) :
    ({ t with
        grid := g',
        rows := some (refreshedViews .row g' (({ t with grid := g' } : Table γ).baseViews .row)),
        cols := some (refreshedViews .col g' (({ t with grid := g' } : Table γ).baseViews .col)) } : Table γ).Inv := by
  refine inv_of hg' ?_ ?_
  · intro vs hvs; cases hvs; exact refreshed_describes .row g' hg' _ (base_posOK h g' hg' .row)
  · intro vs hvs; cases hvs; exact refreshed_describes .col g' hg' _ (base_posOK h g' hg' .col)

/-- grid part of `del`, `merge`, `expand` as seen from the table -/
def refreshingOp : Grid.Op γ → Option (PyM (Grid γ) Unit)
  | .set _ _ => none
  | .del v => some (Grid.delItem v)
  | .merge s e f => some (do let _ ← Grid.merge s e f; pure ())
  | .expand v w h f => some (do let _ ← Grid.expand v w h f; pure ())

theorem gridOp_atomic (op : Grid.Op γ) (g : Grid γ) (e : PyErr) (g' : Grid γ) (h : op.run g = (.error e, g')) : g' = g := by
  have := C21_failure_atomic op g e (by simp [eval, h])
  simpa [exec, h] using this

/-- exact effect of an operation of the grid executed through the table -/
theorem runGridOp_run {t : Table γ} (h : t.Inv) (op : Grid.Op γ) :
    (∃ e, op.run t.grid = (.error e, t.grid) ∧ runGridOp op t = (.error e, t)) ∨
    (∃ g' rs cs, op.run t.grid = (.ok (), g') ∧ g'.Inv ∧
      runGridOp op t = (.ok (), { t with grid := g', rows := some rs, cols := some cs }) ∧
      ((∃ v a cell c, op = .set v a ∧ a.build = .ok cell ∧ cell.box.Valid ∧ Coord.fromValue v = .ok c ∧
          Grid.setItem v cell t.grid = (.ok (), g') ∧
          rs = adoptedViews .row (movedTo cell c) (({ t with grid := g' } : Table γ).baseViews .row) ∧
          cs = adoptedViews .col (movedTo cell c) (({ t with grid := g' } : Table γ).baseViews .col)) ∨
       ((∀ v a, op ≠ .set v a) ∧
          rs = refreshedViews .row g' (({ t with grid := g' } : Table γ).baseViews .row) ∧
          cs = refreshedViews .col g' (({ t with grid := g' } : Table γ).baseViews .col)))) := by
  have hinv' : ∀ r g', op.run t.grid = (r, g') → g'.Inv := by
    intro r g' hr
    have := op_inv op t.grid h.grid
    simpa [exec, hr] using this
  cases op with
  | set v a =>
    simp only [runGridOp, Grid.Op.run, bind_run, lift_run]
    cases ha : a.build with
    | error e => left; exact ⟨e, rfl, rfl⟩
    | ok cell =>
      have hc := (cell_new_valid ha).1
      rcases setItem_run h v cell hc with ⟨e, h1, h2⟩ | ⟨c, g', h1, h2, h3⟩
      · left; exact ⟨e, h1, h2⟩
      · right
        refine ⟨g', _, _, h2, ?_, h3, .inl ⟨v, a, cell, c, rfl, ha, hc, h1, h2, rfl, rfl⟩⟩
        have := setItem_inv v cell hc t.grid h.grid
        rw [h2] at this; exact this
  | del v =>
    have := delItem_inv v t.grid h.grid
    rcases refreshing_run h (Grid.delItem v) (fun e g' hh => delItem_error_same hh) this with ⟨e, h1, h2⟩ | ⟨a, g', h1, h2⟩
    · left; exact ⟨e, h1, h2⟩
    · right; rw [h1] at this; exact ⟨g', _, _, h1, this, h2, .inr ⟨(fun _ _ he => nomatch he), rfl, rfl⟩⟩
  | merge s e f =>
    have := merge_inv s e f t.grid h.grid
    rcases refreshing_run h (Grid.merge s e f) (fun e g' hh => merge_error_same hh) this with ⟨e, h1, h2⟩ | ⟨a, g', h1, h2⟩
    · left; exact ⟨e, by simp [Grid.Op.run, bind_run, h1], h2⟩
    · right; rw [h1] at this
      exact ⟨g', _, _, by simp [Grid.Op.run, bind_run, h1], this, h2, .inr ⟨(fun _ _ he => nomatch he), rfl, rfl⟩⟩
  | expand v w hh f =>
    have := expand_inv v w hh f t.grid h.grid
    rcases refreshing_run h (Grid.expand v w hh f) (fun e g' hh => expand_error_same hh) this with ⟨e, h1, h2⟩ | ⟨a, g', h1, h2⟩
    · left; exact ⟨e, by simp [Grid.Op.run, bind_run, h1], h2⟩
    · right; rw [h1] at this
      exact ⟨g', _, _, by simp [Grid.Op.run, bind_run, h1], this, h2, .inr ⟨(fun _ _ he => nomatch he), rfl, rfl⟩⟩

theorem runGridOp_tinv {t : Table γ} (h : t.Inv) (op : Grid.Op γ) : (exec (runGridOp op) t).Inv := by
  unfold exec
  rcases runGridOp_run h op with ⟨e, _, hr⟩ | ⟨g', rs, cs, h1, hg', h2, ⟨v, a, cell, c, rfl, ha, hc, hv, hs, rfl, rfl⟩ | ⟨_, rfl, rfl⟩⟩
  · rw [hr]; exact h
  · rw [h2]
    obtain ⟨c', new, h1, hnew, h2, h3, h4, h5, h6⟩ := setItem_ok_facts h.grid hc hs
    rw [hv] at h1; cases h1
    subst hnew
    refine inv_of h6 ?_ ?_
    · intro vs hvs; cases hvs; exact adopted_describes' h h6 .row _ h3 h5
    · intro vs hvs; cases hvs; exact adopted_describes' h h6 .col _ h3 h5
  · rw [h2]; exact refreshed_tinv h g' hg'

/-! ### reading and editing views -/

theorem pyGet_pos (vs : List (View γ)) (pos : Int) (h1 : 1 ≤ pos) (h2 : pos ≤ vs.length) :
    pyGet vs (pos - 1) = .ok (vs[(pos - 1).toNat]'(by omega)) := by
  unfold pyGet pyGetNat
  have : (0 : Int) ≤ pos - 1 := by omega
  have h3 : (pos - 1).toNat < vs.length := by omega
  rw [if_pos this]
  simp only [List.getElem?_eq_getElem h3]

theorem viewAt_run {t : Table γ} (h : t.Inv) (ax : Axis) (pos : Int) :
    viewAt ax pos t = (pyGet (Views.grow pos (t.baseViews ax)) (pos - 1), t.setViews ax (Views.grow pos (t.baseViews ax))) := by
  unfold viewAt
  rw [onViews_run _ _ _ h.grid]
  simp only [bind_run, modify_run, get_run, lift_run, Views.fit, Bool.false_eq_true, if_false]

theorem viewAt_tinv {t : Table γ} (h : t.Inv) (ax : Axis) (pos : Int) : (exec (viewAt ax pos) t).Inv := by
  unfold exec
  rw [viewAt_run h]
  exact inv_setViews h ax _ (grow_describes h.grid.valid (base_describes h ax) pos)

/-- a modification of the looks of a view only -/
def LooksOnly (f : View γ → View γ) : Prop := ∀ v, (f v).pos = v.pos ∧ (f v).owned = v.owned ∧ (f v).caught = v.caught

theorem modify_describes {ax : Axis} {cells : List (Cell γ)} {vs : List (View γ)} (h : Describes ax cells vs) (i : Nat)
    (f : View γ → View γ) (hf : LooksOnly f) : Describes ax cells (vs.modify i f) := by
  have key : ∀ v ∈ vs.modify i f, ∃ w ∈ vs, v.pos = w.pos ∧ v.owned = w.owned ∧ v.caught = w.caught := by
    intro v hv
    obtain ⟨j, hj, rfl⟩ := List.mem_iff_getElem.mp hv
    have hj' : j < vs.length := by simpa using hj
    refine ⟨vs[j], List.getElem_mem hj', ?_⟩
    rw [List.getElem_modify]
    split
    · exact hf _
    · simp
  refine ⟨?_, ?_, ?_, ?_⟩
  · intro j hj
    have hj' : j < vs.length := by simpa using hj
    rw [List.getElem_modify]
    split
    · rw [(hf _).1]; exact h.pos j hj'
    · exact h.pos j hj'
  · intro v hv c
    obtain ⟨w, hw, e1, e2, e3⟩ := key v hv
    rw [e1, e2]; exact h.owned w hw c
  · intro v hv c
    obtain ⟨w, hw, e1, e2, e3⟩ := key v hv
    rw [e1, e3]; exact h.caught w hw c
  · intro c hc; rw [List.length_modify]; exact h.enough c hc

theorem updateAt_state (i : Int) (f : View γ → View γ) (vs : List (View γ)) :
    (Views.updateAt i f vs).2 = vs ∨ ∃ j, j < vs.length ∧ (Views.updateAt i f vs).2 = vs.modify j f := by
  unfold Views.updateAt
  split
  · split
    · right; rename_i h; exact ⟨_, h, rfl⟩
    · left; rfl
  · split
    · right; exact ⟨_, by omega, rfl⟩
    · left; rfl

theorem editView_run {t : Table γ} (h : t.Inv) (ax : Axis) (pos : Int) (f : View γ → View γ) :
    editView ax pos f t = ((Views.updateAt (pos - 1) f (Views.grow pos (t.baseViews ax))).1,
      t.setViews ax (Views.updateAt (pos - 1) f (Views.grow pos (t.baseViews ax))).2) := by
  unfold editView
  rw [onViews_run _ _ _ h.grid]
  simp only [bind_run, modify_run, Views.fit, Bool.false_eq_true, if_false]

theorem editView_tinv {t : Table γ} (h : t.Inv) (ax : Axis) (pos : Int) (f : View γ → View γ) (hf : LooksOnly f) :
    (exec (editView ax pos f) t).Inv := by
  unfold exec
  rw [editView_run h]
  have hd := grow_describes h.grid.valid (base_describes h ax) pos
  rcases updateAt_state (pos - 1) f (Views.grow pos (t.baseViews ax)) with e | ⟨j, _, e⟩
  · rw [e]; exact inv_setViews h ax _ hd
  · rw [e]; exact inv_setViews h ax _ (modify_describes hd j f hf)

/-! ### insertion through a view -/

theorem insertCell_run {t : Table γ} (h : t.Inv) (ax : Axis) (pos : Int) (content : Option γ) (styles : Option Styles)
    (nature : Option String) (w hh : Int) :
    (∃ e, insertCell ax pos content styles nature w hh t = (.error e, exec (viewAt ax pos) t)) ∨
    (∃ v k cell, pyGet (Views.grow pos (t.baseViews ax)) (pos - 1) = .ok v ∧ v.freePos ax = .ok k ∧
      Cell.new content styles (nature.or v.nature)
        (ax.coord v.pos k).x (ax.coord v.pos k).y w hh = .ok cell ∧
      insertCell ax pos content styles nature w hh t = setItem (.coord cell.min) cell (exec (viewAt ax pos) t)) := by
  unfold insertCell
  simp only [bind_run, exec]
  rw [viewAt_run h]
  cases hv : pyGet (Views.grow pos (t.baseViews ax)) (pos - 1) with
  | error e => left; exact ⟨e, rfl⟩
  | ok v =>
    simp only [lift_run]
    cases hk : v.freePos ax with
    | error e => left; exact ⟨e, rfl⟩
    | ok k =>
      simp only
      cases hc : Cell.new content styles (nature.or v.nature)
        (ax.coord v.pos k).x (ax.coord v.pos k).y w hh with
      | error e => left; exact ⟨e, rfl⟩
      | ok cell => right; exact ⟨v, k, cell, rfl, hk, hc, rfl⟩

theorem insertCell_tinv {t : Table γ} (h : t.Inv) (ax : Axis) (pos : Int) (content : Option γ) (styles : Option Styles)
    (nature : Option String) (w hh : Int) : (exec (insertCell ax pos content styles nature w hh) t).Inv := by
  have hv := viewAt_tinv h ax pos
  rcases insertCell_run h ax pos content styles nature w hh with ⟨e, hr⟩ | ⟨v, k, cell, _, _, hc, hr⟩
  · show (insertCell ax pos content styles nature w hh t).2.Inv
    rw [hr]; exact hv
  · show (insertCell ax pos content styles nature w hh t).2.Inv
    rw [hr]; exact setItem_tinv hv _ cell (cell_new_valid hc).1

/-! ### fill_missing -/

theorem fillOne_run (t : Table γ) (content : Option γ) (styles : Option Styles) (nature : Option String) (p : Coord) :
    fillOne content styles nature p t =
      if t.grid.hasCoord p then (.ok (), t)
      else match Cell.new content styles nature p.x p.y with
        | .error e => (.error e, t)
        | .ok cell => setItem (.tuple [.int p.x, .int p.y]) cell t := by
  unfold fillOne
  simp only [bind_run, get_run, lift_run]
  have : t.contains (.tuple [.int p.x, .int p.y]) = .ok (t.grid.hasCoord p) := rfl
  rw [this]
  simp only
  split
  · rfl
  · rw [bind_run, lift_run]
    cases Cell.new content styles nature p.x p.y <;> rfl

theorem fillOne_tinv {t : Table γ} (h : t.Inv) (content : Option γ) (styles : Option Styles) (nature : Option String) (p : Coord) :
    (fillOne content styles nature p t).2.Inv := by
  rw [fillOne_run]
  split
  · exact h
  · split
    · exact h
    · rename_i cell hc; exact setItem_tinv h _ cell (cell_new_valid hc).1

theorem forEach_inv {σ α : Type} (P : σ → Prop) (body : α → PyM σ Unit) (hb : ∀ a s, P s → P (body a s).2) (L : List α) :
    ∀ s, P s → P (forEach body L s).2 := by
  induction L with
  | nil => intro s h; exact h
  | cons a L ih =>
    intro s h
    have h1 := hb a s h
    show P (PyM.bind (body a) (fun _ => forEach body L) s).2
    unfold PyM.bind
    cases hs : body a s with
    | mk r s' =>
      rw [hs] at h1
      cases r with
      | error e => exact h1
      | ok u => exact ih s' h1

theorem fillMissing_tinv {t : Table γ} (h : t.Inv) (b : Box) (content : Option γ) (styles : Option Styles) (nature : Option String) :
    (exec (fillMissing b content styles nature) t).Inv :=
  forEach_inv Inv _ (fun p t ht => fillOne_tinv ht content styles nature p) _ t h

/-! ### all operations -/

theorem op_tinv {t : Table γ} (h : t.Inv) (op : Op γ) : (exec op.run t).Inv := by
  cases op with
  | grid op => exact runGridOp_tinv h op
  | access ax =>
    simp only [exec, Op.run, bind_run]
    rw [views_run ax t h.grid]
    exact inv_setViews h ax _ (base_describes h ax)
  | view ax pos =>
    have := viewAt_tinv h ax pos
    simp only [exec, Op.run, bind_run] at this ⊢
    split <;> (rename_i heq; rw [heq] at this; exact this)
  | setNature ax pos n => exact editView_tinv h ax pos _ (fun v => ⟨rfl, rfl, rfl⟩)
  | setStyles ax pos d => exact editView_tinv h ax pos _ (fun v => ⟨rfl, rfl, rfl⟩)
  | insert ax pos c s n w hh => exact insertCell_tinv h ax pos c s n w hh
  | fill b c s n => exact fillMissing_tinv h b c s n
  | looks d n => exact ⟨h.grid, h.views⟩

theorem runFrom_tinv (ops : List (Op γ)) : ∀ {t : Table γ}, t.Inv → (runFrom t ops).Inv := by
  induction ops with
  | nil => intro t h; exact h
  | cons op ops ih => intro t h; exact ih (op_tinv h op)

theorem ofCells_inv {cells : List (Cell γ)} (hv : ∀ c ∈ cells, c.box.Valid) {g : Grid γ} (h : Grid.ofCells cells = .ok g) :
    g.Inv := by
  have key : ∀ (L : List (Cell γ)) (g : Grid γ), (∀ c ∈ L, c.box.Valid) → g.Inv →
      (forEach (fun cell : Cell γ => Grid.setItem (.coord cell.min) cell) L g).2.Inv := by
    intro L
    induction L with
    | nil => intro g _ h; exact h
    | cons c L ih =>
      intro g hL hg
      have := setItem_inv (.coord c.min) c (hL c (by simp)) g hg
      show (PyM.bind _ _ g).2.Inv
      unfold PyM.bind
      simp only
      cases hs : Grid.setItem (.coord c.min) c g with
      | mk r g' =>
        rw [hs] at this
        cases r with
        | error e => exact this
        | ok u => exact ih g' (fun d hd => hL d (by simp [hd])) this
  have := key cells Grid.empty hv Grid.empty_inv
  unfold Grid.ofCells at h
  split at h
  · rename_i heq; cases h; rw [heq] at this; exact this
  · cases h

theorem new_tinv {cells : List (Cell γ)} (hv : ∀ c ∈ cells, c.box.Valid) {st : Option Styles} {n : Option String} {t : Table γ}
    (h : Table.new cells st n = .ok t) : t.Inv := by
  unfold Table.new at h
  split at h
  · cases h
  · rename_i g hg
    cases h
    refine inv_of (ofCells_inv hv hg) ?_ ?_ <;> (intro vs hvs; cases hvs)

end Table
end Benker
