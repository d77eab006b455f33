import Verif.Spec.Layout

/-! The operations of a table (other than merging) do not look at the contents. -/

namespace Benker
open PyM
variable {γ δ : Type}

/-- the statement `m'` on `F s` does what `m` does on `s` -/
def Like {σ τ α β : Type} (F : σ → τ) (g : α → β) (m : PyM σ α) (m' : PyM τ β) : Prop :=
  ∀ s, m' (F s) = ((m s).1.map g, F (m s).2)

section
variable {σ τ α β α' β' : Type} {F : σ → τ} {g : α → β} {g' : α' → β'}

theorem like_pure {a : α} {b : β} (h : b = g a) : Like F g (pure a) (pure b) := by intro s; subst h; rfl
theorem like_raise (e : PyErr) : Like F g (raise e) (raise e) := by intro s; rfl
theorem like_lift {e : Except PyErr α} {e' : Except PyErr β} (h : e' = e.map g) : Like F g (lift e) (lift e') := by intro s; subst h; rfl
theorem like_get : Like F F (PyM.get : PyM σ σ) PyM.get := by intro s; rfl
theorem like_set {s : σ} {t : τ} (h : t = F s) : Like F id (PyM.set s) (PyM.set t) := by intro s; subst h; rfl
theorem like_modify {f : σ → σ} {f' : τ → τ} (h : ∀ s, f' (F s) = F (f s)) : Like F id (PyM.modify f) (PyM.modify f') := by
  intro s; show (_, _) = (_, _); rw [h]; rfl

theorem like_bind {m : PyM σ α} {m' : PyM τ β} {k : α → PyM σ α'} {k' : β → PyM τ β'} (hm : Like F g m m')
    (hk : ∀ a, Like F g' (k a) (k' (g a))) : Like F g' (m >>= k) (m' >>= k') := by
  intro s
  rw [bind_run, bind_run, hm s]
  cases m s with
  | mk r s' => cases r with
    | error e => rfl
    | ok a => exact hk a s'

theorem like_if {c c' : Prop} [Decidable c] [Decidable c'] {m n : PyM σ α} {m' n' : PyM τ β} (hc : c ↔ c') (hm : Like F g m m') (hn : Like F g n n') :
    Like F g (if c then m else n) (if c' then m' else n') := by
  by_cases h : c
  · rw [if_pos h, if_pos (hc.mp h)]; exact hm
  · rw [if_neg h, if_neg (fun h' => h (hc.mpr h'))]; exact hn

theorem like_forEach {ι : Type} {body : ι → PyM σ Unit} {body' : ι → PyM τ Unit} (h : ∀ i, Like F id (body i) (body' i)) (L : List ι) :
    Like F id (forEach body L) (forEach body' L) := by
  induction L with
  | nil => intro s; rfl
  | cons i L ih => exact like_bind (h i) (fun _ => ih)

theorem like_forEach_map {ι κ : Type} {body : ι → PyM σ Unit} {body' : κ → PyM τ Unit} {f : ι → κ} (h : ∀ i, Like F id (body i) (body' (f i)))
    (L : List ι) : Like F id (forEach body L) (forEach body' (L.map f)) := by
  induction L with
  | nil => intro s; rfl
  | cons i L ih => exact like_bind (h i) (fun _ => ih)
end

variable (f : γ → δ)

@[simp] theorem cell_map_box (c : Cell γ) : (c.mapContent f).box = c.box := rfl
@[simp] theorem cell_map_min (c : Cell γ) : (c.mapContent f).min = c.min := rfl
@[simp] theorem cell_map_hasCoord (c : Cell γ) (p : Coord) : (c.mapContent f).hasCoord p = c.hasCoord p := rfl

theorem cell_new_map (content : Option γ) (st : Option Styles) (n : Option String) (x y w h : Int) :
    Cell.new (content.map f) st n x y w h = (Cell.new content st n x y w h).map (Cell.mapContent f) := by
  unfold Cell.new
  cases Box.make x y (x + w - 1) (y + h - 1) <;> rfl

theorem cell_moveTo_map (c : Cell γ) (v : PyVal) : (c.mapContent f).moveTo v = (c.moveTo v).map (Cell.mapContent f) := by
  unfold Cell.moveTo Cell.transformV
  rw [cell_map_box]
  cases c.box.transformV v .none with
  | error e => rfl
  | ok b => exact cell_new_map f ..

theorem map_boxes (l : List (Cell γ)) : (l.map (Cell.mapContent f)).map (·.box) = l.map (·.box) := by simp

theorem grid_contains_map (g : Grid γ) (v : PyVal) : (g.mapContent f).contains v = g.contains v := by
  unfold Grid.contains Grid.hasCoord Grid.mapContent
  simp only [List.any_map]
  rfl

theorem grid_bb_map (g : Grid γ) : (g.mapContent f).boundingBox = g.boundingBox := by
  unfold Grid.boundingBox Grid.mapContent
  rw [map_boxes]

theorem grid_getItem_map (g : Grid γ) (v : PyVal) : (g.mapContent f).getItem v = (g.getItem v).map (Cell.mapContent f) := by
  unfold Grid.getItem Grid.getCoord Grid.mapContent
  cases Coord.fromValue v with
  | error e => rfl
  | ok c =>
    simp only [bind, Except.bind, List.find?_map]
    have : ((fun x : Cell δ => x.hasCoord c) ∘ Cell.mapContent f) = (fun x : Cell γ => x.hasCoord c) := rfl
    rw [this]
    cases g.cells.find? (fun x => x.hasCoord c) <;> rfl

theorem map_insertIdx {α β : Type} (h : α → β) : ∀ (i : Nat) (l : List α) (a : α), (l.insertIdx i a).map h = (l.map h).insertIdx i (h a)
  | 0, l, a => by simp
  | i + 1, [], a => by simp
  | i + 1, b :: l, a => by simp [map_insertIdx h i l a]

theorem grid_setItem_map (v : PyVal) (c : Cell γ) : Like (Grid.mapContent f) id (Grid.setItem v c) (Grid.setItem v (c.mapContent f)) := by
  unfold Grid.setItem
  refine like_bind (g := id) (like_lift (by cases Coord.fromValue v <;> rfl)) (fun coord => ?_)
  refine like_bind (like_lift (cell_moveTo_map f c _)) (fun nc => ?_)
  refine like_bind like_get (fun g => ?_)
  refine like_if ?_ (like_raise _) ?_
  · unfold Grid.mapContent
    simp only [List.any_map]
    rfl
  · refine like_bind (g := id) (like_lift (by simp only [cell_map_box]; cases Box.new [.coord nc.box.min] <;> rfl)) (fun b => ?_)
    refine like_set ?_
    unfold Grid.mapContent
    simp only [map_boxes, id, map_insertIdx]

/-! ### views -/

theorem view_adopt_map (ax : Axis) (c : Cell γ) (v : View γ) :
    View.adopt ax (c.mapContent f) (v.mapContent f) = (v.adopt ax c).mapContent f := by
  have h1 : (v.mapContent f).canOwn ax (c.mapContent f) = v.canOwn ax c := rfl
  have h2 : (v.mapContent f).canCatch ax (c.mapContent f) = v.canCatch ax c := by cases ax <;> rfl
  unfold View.adopt
  rw [h1, h2]
  unfold View.mapContent
  simp only
  split <;> split <;> simp

theorem view_new_map (pos : Int) : (View.new pos : View δ) = (View.new pos : View γ).mapContent f := rfl

theorem grow_map (n : Int) (vs : List (View γ)) :
    Views.grow n (vs.map (View.mapContent f)) = (Views.grow n vs).map (View.mapContent f) := by
  unfold Views.grow
  simp only [List.map_append, List.length_map, List.map_map]
  rfl

theorem truncate_map (n : Int) (vs : List (View γ)) :
    Views.truncate n (vs.map (View.mapContent f)) = (Views.truncate n vs).map (View.mapContent f) := by
  unfold Views.truncate
  split <;> simp [List.map_take]

theorem fit_map (n : Int) (b : Bool) (vs : List (View γ)) :
    Views.fit n b (vs.map (View.mapContent f)) = (Views.fit n b vs).map (View.mapContent f) := by
  unfold Views.fit
  cases b
  · exact grow_map f n vs
  · simp only [if_true]
    rw [truncate_map, grow_map]

theorem map_modify {α β : Type} (h : α → β) (u : α → α) (u' : β → β) (hu : ∀ a, u' (h a) = h (u a)) (l : List α) (i : Nat) :
    (l.map h).modify i u' = (l.modify i u).map h := by
  apply List.ext_getElem
  · simp
  · intro j h1 h2
    simp only [List.getElem_modify, List.getElem_map]
    split
    · exact hu _
    · rfl

theorem updateAt_map (i : Int) {u : View γ → View γ} {u' : View δ → View δ} (hu : ∀ v, u' (v.mapContent f) = (u v).mapContent f) :
    Like (List.map (View.mapContent f)) id (Views.updateAt i u) (Views.updateAt i u') := by
  intro vs
  unfold Views.updateAt
  simp only [List.length_map, map_modify _ u u' hu]
  split <;> split <;> rfl

theorem adopt_map (ax : Axis) (c : Cell γ) :
    Like (List.map (View.mapContent f)) id (Views.adopt ax c) (Views.adopt ax (c.mapContent f)) := by
  unfold Views.adopt
  refine like_bind (like_modify (fun vs => fit_map f _ _ vs)) (fun _ => like_forEach (fun i => ?_) _)
  exact updateAt_map f _ (fun v => view_adopt_map f ax c v)

theorem refreshAll_map (ax : Axis) (g : Grid γ) :
    Like (List.map (View.mapContent f)) id (Views.refreshAll ax g) (Views.refreshAll ax (g.mapContent f)) := by
  unfold Views.refreshAll
  refine like_bind (g := id) (like_lift (by rw [grid_bb_map]; cases g.boundingBox <;> rfl)) (fun bb => ?_)
  cases bb with
  | none => exact like_set rfl
  | some b =>
    refine like_bind (like_modify (fun vs => fit_map f _ _ vs)) (fun _ => ?_)
    refine like_bind (like_modify (fun vs => ?_)) (fun _ => ?_)
    · simp only [List.map_map]; rfl
    · exact like_forEach_map (fun c => adopt_map f ax c) g.cells

theorem freePos_map (ax : Axis) (v : View γ) : (v.mapContent f).freePos ax = v.freePos ax := by
  unfold View.freePos
  have : (v.mapContent f).caught.map (·.box) = v.caught.map (·.box) := map_boxes f _
  rw [this]
  rfl

/-! ### tables -/

theorem getViews_map (ax : Axis) (t : Table γ) : (t.mapContent f).getViews ax = (t.getViews ax).map (List.map (View.mapContent f)) := by
  cases ax <;> rfl

theorem setViews_map (ax : Axis) (vs : List (View γ)) (t : Table γ) :
    (t.mapContent f).setViews ax (vs.map (View.mapContent f)) = (t.setViews ax vs).mapContent f := by cases ax <;> rfl

theorem views_map (ax : Axis) : Like (Table.mapContent f) (List.map (View.mapContent f)) (Table.views ax) (Table.views ax) := by
  intro t
  unfold Table.views
  rw [getViews_map]
  cases h : t.getViews ax with
  | some vs => rfl
  | none =>
    have := refreshAll_map f ax t.grid []
    simp only [List.map_nil, Option.map_none] at this ⊢
    have e : (t.mapContent f).grid = t.grid.mapContent f := rfl
    rw [e, this]
    cases hr : Views.refreshAll ax t.grid [] with
    | mk r vs =>
      cases r with
      | error e => rfl
      | ok u => simp only [Except.map]; rw [setViews_map]

theorem onViews_map {α β : Type} {g : α → β} (ax : Axis) {m : PyM (List (View γ)) α} {m' : PyM (List (View δ)) β}
    (hm : Like (List.map (View.mapContent f)) g m m') : Like (Table.mapContent f) g (Table.onViews ax m) (Table.onViews ax m') := by
  intro t
  unfold Table.onViews
  rw [views_map f ax t]
  cases Table.views ax t with
  | mk r t' =>
    cases r with
    | error e => rfl
    | ok vs =>
      simp only [Except.map]
      rw [hm vs]
      simp only
      rw [setViews_map]
      rfl

theorem onGrid_map {α β : Type} {g : α → β} {m : PyM (Grid γ) α} {m' : PyM (Grid δ) β} (hm : Like (Grid.mapContent f) g m m') :
    Like (Table.mapContent f) g (Table.onGrid m) (Table.onGrid m') := by
  intro t
  unfold Table.onGrid
  have e : (t.mapContent f).grid = t.grid.mapContent f := rfl
  rw [e, hm]
  rfl

theorem refreshCell_map (c : Cell γ) : Like (Table.mapContent f) id (Table.refreshCell c) (Table.refreshCell (c.mapContent f)) := by
  unfold Table.refreshCell
  exact like_bind (onViews_map f _ (adopt_map f _ c)) (fun _ => onViews_map f _ (adopt_map f _ c))

theorem setItem_map (v : PyVal) (c : Cell γ) : Like (Table.mapContent f) id (Table.setItem v c) (Table.setItem v (c.mapContent f)) := by
  unfold Table.setItem
  refine like_bind (onGrid_map f (grid_setItem_map f v c)) (fun _ => like_bind like_get (fun t => ?_))
  exact like_bind (like_lift (grid_getItem_map f t.grid v)) (fun c => refreshCell_map f c)

theorem fillOne_map (content : Option γ) (st : Option Styles) (n : Option String) (p : Coord) :
    Like (Table.mapContent f) id (Table.fillOne content st n p) (Table.fillOne (content.map f) st n p) := by
  unfold Table.fillOne
  refine like_bind like_get (fun t => ?_)
  refine like_bind (g := id) (like_lift ?_) (fun b => ?_)
  · have : (t.mapContent f).contains (PyVal.tuple [.int p.x, .int p.y]) = t.contains (PyVal.tuple [.int p.x, .int p.y]) := grid_contains_map f t.grid _
    rw [this]; cases t.contains (PyVal.tuple [.int p.x, .int p.y]) <;> rfl
  · refine like_if Iff.rfl (like_pure rfl) ?_
    exact like_bind (like_lift (cell_new_map f ..)) (fun c => setItem_map f _ c)

theorem fillMissing_map (b : Box) (content : Option γ) (st : Option Styles) (n : Option String) :
    Like (Table.mapContent f) id (Table.fillMissing b content st n) (Table.fillMissing b (content.map f) st n) :=
  like_forEach (fun p => fillOne_map f content st n p) _

theorem viewAt_map (ax : Axis) (pos : Int) : Like (Table.mapContent f) (View.mapContent f) (Table.viewAt ax pos) (Table.viewAt ax pos) := by
  unfold Table.viewAt
  refine onViews_map f ax (like_bind (like_modify (fun vs => fit_map f _ _ vs)) (fun _ => like_bind like_get (fun vs => like_lift ?_)))
  unfold pyGet pyGetNat
  simp only [List.length_map, List.getElem?_map]
  split
  · cases vs[(pos - 1).toNat]? <;> rfl
  · split
    · cases vs[((vs.length : Int) + (pos - 1)).toNat]? <;> rfl
    · rfl

theorem editView_map (ax : Axis) (pos : Int) {u : View γ → View γ} {u' : View δ → View δ}
    (hu : ∀ v, u' (v.mapContent f) = (u v).mapContent f) : Like (Table.mapContent f) id (Table.editView ax pos u) (Table.editView ax pos u') := by
  unfold Table.editView
  exact onViews_map f ax (like_bind (like_modify (fun vs => fit_map f _ _ vs)) (fun _ => updateAt_map f _ hu))

theorem insertCell_map (ax : Axis) (pos : Int) (content : Option γ) (st : Option Styles) (n : Option String) (w h : Int) :
    Like (Table.mapContent f) id (Table.insertCell ax pos content st n w h) (Table.insertCell ax pos (content.map f) st n w h) := by
  unfold Table.insertCell
  refine like_bind (viewAt_map f ax pos) (fun v => ?_)
  refine like_bind (g := id) (like_lift (by rw [freePos_map]; cases v.freePos ax <;> rfl)) (fun k => ?_)
  exact like_bind (like_lift (cell_new_map f ..)) (fun c => setItem_map f _ c)

end Benker
