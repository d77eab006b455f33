import Verif.Lemmas.ParsedReachable

/-! What is demanded from each style, nature and content of a table, and the operations which keep it. -/

namespace Benker
open PyM

/-- each style of the dictionary has a suitable value -/
def Each (F : String → StyleVal → Prop) (st : Styles) : Prop := ∀ p ∈ st, F p.1 p.2

theorem each_nil (F : String → StyleVal → Prop) : Each F [] := fun _ h => nomatch h

theorem each_set {F : String → StyleVal → Prop} : ∀ {st : Styles} (_ : Each F st) {k : String} {v : StyleVal} (_ : F k v), Each F (Dict.set st k v)
  | [], _, k, v, hv => by
    intro p hp
    simp only [Dict.set, List.mem_singleton] at hp
    subst hp; exact hv
  | (k', v') :: st, h, k, v, hv => by
    intro p hp
    unfold Dict.set at hp
    split at hp
    · rcases List.mem_cons.mp hp with rfl | hp
      · exact hv
      · exact h p (List.mem_cons_of_mem _ hp)
    · rcases List.mem_cons.mp hp with rfl | hp
      · exact h _ List.mem_cons_self
      · exact each_set (fun q hq => h q (List.mem_cons_of_mem _ hq)) hv p hp

theorem each_update {F : String → StyleVal → Prop} {st : Styles} (h : Each F st) {e : Styles} (he : Each F e) : Each F (Dict.update st e) := by
  unfold Dict.update
  induction e generalizing st with
  | nil => exact h
  | cons p e ih => exact ih (each_set h (he p List.mem_cons_self)) (fun q hq => he q (List.mem_cons_of_mem _ hq))

theorem each_get {F : String → StyleVal → Prop} {st : Styles} (h : Each F st) {k : String} {v : StyleVal} (hv : Dict.get? st k = some v) : F k v := by
  unfold Dict.get? at hv
  cases hf : st.find? (fun p => p.1 = k) with
  | none => rw [hf] at hv; cases hv
  | some p =>
    rw [hf] at hv
    have h1 := List.find?_some hf
    have h2 := h p (List.mem_of_find?_eq_some hf)
    simp only [decide_eq_true_eq] at h1
    simp only [Option.map_some, Option.some.injEq] at hv
    rw [h1, hv] at h2
    exact h2

theorem each_imp {F G : String → StyleVal → Prop} (hFG : ∀ k v, F k v → G k v) {st : Styles} (h : Each F st) : Each G st := fun p hp => hFG _ _ (h p hp)

theorem each_append {F : String → StyleVal → Prop} {a b : Styles} (ha : Each F a) (hb : Each F b) : Each F (a ++ b) := by
  intro p hp
  rcases List.mem_append.mp hp with hp | hp
  · exact ha p hp
  · exact hb p hp

/-- what is demanded from the values of the styles, from the natures and from the contents -/
structure Demands where
  table : String → StyleVal → Prop
  view : Axis → String → StyleVal → Prop
  cell : String → StyleVal → Prop
  nature : Option String → Prop
  content : Option Content → Prop

/-- the demands are met by a row or a column -/
def View.Meets (D : Demands) (ax : Axis) (v : View Content) : Prop := Each (D.view ax) v.styles ∧ D.nature v.nature

/-- the demands are met by a cell -/
def Cell.Meets (D : Demands) (c : Cell Content) : Prop := Each D.cell c.styles ∧ D.nature c.nature ∧ D.content c.content

/-- the demands are met by a table -/
structure Table.Meets (D : Demands) (t : Table Content) : Prop where
  styles : Each D.table t.styles
  views : ∀ ax vs, t.getViews ax = some vs → ∀ v ∈ vs, v.Meets D ax
  cells : ∀ c ∈ t.grid.cells, c.Meets D

variable {D : Demands}

theorem meets_adopt {ax : Axis} {c : Cell Content} {v : View Content} (h : v.Meets D ax) : (View.adopt ax c v).Meets D ax := h

theorem meets_new (h0 : D.nature none) (ax : Axis) (i : Int) : (View.new i : View Content).Meets D ax := ⟨each_nil _, h0⟩

theorem meets_grow (h0 : D.nature none) {ax : Axis} {n : Int} {vs : List (View Content)} (h : ∀ v ∈ vs, v.Meets D ax) : ∀ v ∈ Views.grow n vs, v.Meets D ax := by
  intro v hv
  unfold Views.grow at hv
  rcases List.mem_append.mp hv with hv | hv
  · exact h v hv
  · obtain ⟨i, _, rfl⟩ := List.mem_map.mp hv
    exact meets_new h0 ax _

theorem meets_fit (h0 : D.nature none) {ax : Axis} {n : Int} {b : Bool} {vs : List (View Content)} (h : ∀ v ∈ vs, v.Meets D ax) :
    ∀ v ∈ Views.fit n b vs, v.Meets D ax := by
  unfold Views.fit
  refine meets_grow h0 ?_
  split
  · intro v hv
    unfold Views.truncate at hv
    split at hv <;> exact h v (List.mem_of_mem_take hv)
  · exact h

theorem keeps_updateAt {ax : Axis} (i : Int) {f : View Content → View Content} (hf : ∀ v, v.Meets D ax → (f v).Meets D ax) :
    Keeps (fun vs : List (View Content) => ∀ v ∈ vs, v.Meets D ax) (Views.updateAt i f) := by
  have mod : ∀ (vs : List (View Content)) (j : Nat), (∀ v ∈ vs, v.Meets D ax) → ∀ v ∈ vs.modify j f, v.Meets D ax := by
    intro vs j h v hv
    obtain ⟨k, hk, rfl⟩ := List.mem_iff_getElem.mp hv
    rw [List.getElem_modify]
    split
    · exact hf _ (h _ (List.getElem_mem _))
    · exact h _ (List.getElem_mem _)
  intro vs h
  unfold Views.updateAt
  split
  · split
    · exact mod vs _ h
    · exact h
  · split
    · exact mod vs _ h
    · exact h

theorem keeps_adoptAll (h0 : D.nature none) (ax : Axis) (c : Cell Content) :
    Keeps (fun vs : List (View Content) => ∀ v ∈ vs, v.Meets D ax) (Views.adopt ax c) := by
  unfold Views.adopt
  exact keeps_bind (fun vs h => meets_fit h0 h) (fun _ => keeps_forEach (fun _ => keeps_updateAt _ (fun _ h => meets_adopt h)) _)

theorem keeps_refreshAll (h0 : D.nature none) (ax : Axis) (g : Grid Content) :
    Keeps (fun vs : List (View Content) => ∀ v ∈ vs, v.Meets D ax) (Views.refreshAll ax g) := by
  unfold Views.refreshAll
  refine keeps_bind (keeps_lift _) (fun bb => ?_)
  split
  · intro vs _ v hv; cases hv
  · refine keeps_bind (fun vs h => meets_fit h0 h) (fun _ => keeps_bind ?_ (fun _ => keeps_forEach (fun _ => keeps_adoptAll h0 ax _) _))
    intro vs h v hv
    obtain ⟨w, hw, rfl⟩ := List.mem_map.mp hv
    exact h w hw

theorem setViews_meets {t : Table Content} (h : t.Meets D) {ax : Axis} {vs : List (View Content)} (hvs : ∀ v ∈ vs, v.Meets D ax) : (t.setViews ax vs).Meets D := by
  refine ⟨?_, ?_, ?_⟩
  · cases ax <;> exact h.styles
  · intro ax' vs' e
    cases ax <;> cases ax' <;> simp only [Table.setViews, Table.getViews] at e
    · cases e; exact hvs
    · exact h.views .col vs' e
    · exact h.views .row vs' e
    · cases e; exact hvs
  · cases ax <;> exact h.cells

/-- the views which are given meet the demands too -/
theorem meets_views (h0 : D.nature none) (ax : Axis) {t : Table Content} (h : t.Meets D) :
    (Table.views ax t).2.Meets D ∧ ∀ vs, (Table.views ax t).1 = .ok vs → ∀ v ∈ vs, v.Meets D ax := by
  unfold Table.views
  cases hv : t.getViews ax with
  | some vs =>
    refine ⟨h, ?_⟩
    intro vs' e; cases e
    exact h.views ax vs hv
  | none =>
    simp only
    have := keeps_refreshAll h0 ax t.grid [] (fun _ h => nomatch h)
    cases hr : Views.refreshAll ax t.grid [] with
    | mk r vs =>
      rw [hr] at this
      cases r with
      | error e => exact ⟨h, fun _ e => nomatch e⟩
      | ok u =>
        refine ⟨setViews_meets h this, ?_⟩
        intro vs' e; cases e
        exact this

theorem keeps_onViews {α : Type} (h0 : D.nature none) (ax : Axis) {m : PyM (List (View Content)) α}
    (hm : Keeps (fun vs : List (View Content) => ∀ v ∈ vs, v.Meets D ax) m) : Keeps (Table.Meets D) (Table.onViews ax m) := by
  intro t h
  unfold Table.onViews
  have hv := meets_views h0 ax h
  cases hr : Table.views ax t with
  | mk r t' =>
    rw [hr] at hv
    cases r with
    | error e => exact hv.1
    | ok vs => exact setViews_meets hv.1 (hm vs (hv.2 vs rfl))

theorem meets_moved {c c' : Cell Content} {v w : PyVal} (h : c.transformV v w = .ok c') (hc : c.Meets D) : c'.Meets D := by
  unfold Cell.transformV at h
  split at h
  · cases h
  · unfold Cell.new at h
    split at h
    · cases h
    · cases h; exact hc

theorem meets_transformed {c c' : Cell Content} {v : Option Coord} {w : Option Size} (h : c.transform v w = .ok c') (hc : c.Meets D) : c'.Meets D := by
  unfold Cell.transform at h
  split at h
  · cases h
  · unfold Cell.new at h
    split at h
    · cases h
    · cases h; exact hc

theorem mem_insertIdx_cases {α : Type} {a b : α} : ∀ {l : List α} {i : Nat}, b ∈ l.insertIdx i a → b = a ∨ b ∈ l
  | l, i, h => by
    by_cases hi : i ≤ l.length
    · exact (List.mem_insertIdx hi).mp h
    · rw [List.insertIdx_of_length_lt (by omega)] at h
      exact .inr h

/-- the result of an instruction of a `do` block, seen by its states -/
theorem keeps_bind_lift {σ α β : Type} {P : σ → Prop} {x : Except PyErr α} {f : α → PyM σ β} (hf : ∀ a, x = .ok a → Keeps P (f a)) :
    Keeps P (lift x >>= f) := by
  intro s hs
  rw [bind_run]
  cases x with
  | error e => exact hs
  | ok a => exact hf a rfl s hs

theorem keeps_gridSet (v : PyVal) {c : Cell Content} (hc : c.Meets D) : Keeps (fun g : Grid Content => ∀ c ∈ g.cells, c.Meets D) (Grid.setItem v c) := by
  unfold Grid.setItem
  refine keeps_bind (keeps_lift _) (fun p => keeps_bind_lift (fun c' h' => ?_))
  intro g hg
  rw [bind_run]
  simp only [get_run]
  split
  · exact hg
  · refine keeps_bind_lift (P := fun g : Grid Content => ∀ c ∈ g.cells, c.Meets D) (fun b _ => ?_) g hg
    intro _ _ d hd
    rcases mem_insertIdx_cases hd with rfl | hd
    · exact meets_moved h' hc
    · exact hg d hd

theorem keeps_onGrid {α : Type} {m : PyM (Grid Content) α} (hm : Keeps (fun g : Grid Content => ∀ c ∈ g.cells, c.Meets D) m) :
    Keeps (Table.Meets D) (Table.onGrid m) := by
  intro t h
  unfold Table.onGrid
  exact ⟨h.styles, fun ax vs hv => h.views ax vs (by cases ax <;> exact hv), hm t.grid h.cells⟩

theorem keeps_refreshViews (h0 : D.nature none) : Keeps (Table.Meets D) (Table.refreshViews : PyM (Table Content) Unit) := by
  unfold Table.refreshViews
  exact keeps_bind keeps_get (fun _ => keeps_bind (keeps_onViews h0 _ (keeps_refreshAll h0 _ _)) (fun _ => keeps_onViews h0 _ (keeps_refreshAll h0 _ _)))

theorem keeps_setMeets (h0 : D.nature none) (v : PyVal) {c : Cell Content} (hc : c.Meets D) : Keeps (Table.Meets D) (Table.setItem v c) := by
  unfold Table.setItem
  refine keeps_bind (keeps_onGrid (keeps_gridSet v hc)) (fun _ => keeps_bind keeps_get (fun _ => keeps_bind (keeps_lift _) (fun _ => ?_)))
  unfold Table.refreshCell
  exact keeps_bind (keeps_onViews h0 _ (keeps_adoptAll h0 _ _)) (fun _ => keeps_onViews h0 _ (keeps_adoptAll h0 _ _))

theorem keeps_fillMeets (h0 : D.nature none) (b : Box) {c : Option Content} {st : Option Styles} {n : Option String} (hc : D.content c)
    (hst : Each D.cell (copyStyles st)) (hn : D.nature n) : Keeps (Table.Meets D) (Table.fillMissing b c st n) := by
  unfold Table.fillMissing
  refine keeps_forEach (fun p => ?_) _
  unfold Table.fillOne
  refine keeps_bind keeps_get (fun _ => keeps_bind (keeps_lift _) (fun present => ?_))
  split
  · exact keeps_pure ()
  · refine keeps_bind_lift (fun cell hcell => keeps_setMeets h0 _ ?_)
    unfold Cell.new at hcell
    split at hcell
    · cases hcell
    · cases hcell; exact ⟨hst, hn, hc⟩

theorem meets_viewAt (h0 : D.nature none) (ax : Axis) (pos : Int) {t : Table Content} (h : t.Meets D) :
    (Table.viewAt ax pos t).2.Meets D ∧ ∀ v, (Table.viewAt ax pos t).1 = .ok v → v.Meets D ax := by
  refine ⟨keeps_onViews h0 ax (keeps_bind (fun vs h => meets_fit h0 h) (fun _ => keeps_bind keeps_get (fun _ => keeps_lift _))) t h, ?_⟩
  intro v hv
  unfold Table.viewAt Table.onViews at hv
  have hm := meets_views h0 ax h
  cases hr : Table.views ax t with
  | mk r t' =>
    rw [hr] at hv hm
    cases r with
    | error e => cases hv
    | ok vs =>
      have hf := meets_fit h0 (n := pos) (b := false) (hm.2 vs rfl)
      simp only [bind_run, modify_run, get_run, lift_run] at hv
      unfold pyGet pyGetNat at hv
      revert hv
      split
      · split
        · rename_i hx; intro hv; cases hv; exact hf _ (List.mem_of_getElem? hx)
        · intro hv; cases hv
      · split
        · split
          · rename_i hx; intro hv; cases hv; exact hf _ (List.mem_of_getElem? hx)
          · intro hv; cases hv
        · intro hv; cases hv

theorem keeps_insertMeets (h0 : D.nature none) (ax : Axis) (pos : Int) {c : Option Content} {st : Option Styles} {n : Option String} (w k : Int) (hc : D.content c)
    (hst : Each D.cell (copyStyles st)) (hn : D.nature n) : Keeps (Table.Meets D) (Table.insertCell ax pos c st n w k) := by
  intro t h
  unfold Table.insertCell
  rw [bind_run]
  have hv := meets_viewAt h0 ax pos h
  cases hr : Table.viewAt ax pos t with
  | mk r t' =>
    rw [hr] at hv
    cases r with
    | error e => exact hv.1
    | ok v =>
      refine keeps_bind (keeps_lift _) (fun _ => keeps_bind_lift (fun cell hcell => keeps_setMeets h0 _ ?_)) t' hv.1
      unfold Cell.new at hcell
      split at hcell
      · cases hcell
      · cases hcell
        refine ⟨hst, ?_, hc⟩
        cases n with
        | none => exact (hv.2 v rfl).2
        | some s => exact hn

theorem keeps_editMeets (h0 : D.nature none) (ax : Axis) (pos : Int) {f : View Content → View Content} (hf : ∀ v, v.Meets D ax → (f v).Meets D ax) :
    Keeps (Table.Meets D) (Table.editView ax pos f) := by
  unfold Table.editView
  exact keeps_onViews h0 ax (keeps_bind (fun vs h => meets_fit h0 h) (fun _ => keeps_updateAt _ hf))

theorem keeps_viewsMeets (h0 : D.nature none) (ax : Axis) : Keeps (Table.Meets D) (Table.views ax) := fun _ h => (meets_views h0 ax h).1

/-! ### merging -/

/-- merging two contents which meet the demands gives such a content -/
def Joins (D : Demands) (f : Content → Content → Except PyErr Content) : Prop :=
  ∀ a b r, D.content (some a) → D.content (some b) → f a b = .ok r → D.content (some r)

theorem meets_mergeLoop {f : Content → Content → Except PyErr Content} (hf : Joins D f) : ∀ (l : List (Cell Content)) {c r : Cell Content},
    c.Meets D → (∀ d ∈ l, d.Meets D) → Grid.mergeLoop f c l = .ok r → r.Meets D
  | [], c, r, hc, _, h => by cases h; exact hc
  | d :: l, c, r, hc, hl, h => by
    unfold Grid.mergeLoop at h
    split at h
    · cases h
    · rename_i content hcontent
      have hd := hl d List.mem_cons_self
      refine meets_mergeLoop hf l ?_ (fun e he => hl e (List.mem_cons_of_mem _ he)) h
      refine ⟨each_update hc.1 hd.1, hc.2.1, ?_⟩
      have h1 := hc.2.2
      have h2 := hd.2.2
      revert hcontent h1 h2
      cases c.content <;> cases d.content <;> simp only [Grid.mergeContent] <;> intro hcontent h1 h2
      · cases hcontent; exact h1
      · cases hcontent; exact h2
      · cases hcontent; exact h1
      · rename_i a b
        cases hab : f a b with
        | error e => rw [hab] at hcontent; cases hcontent
        | ok x => rw [hab] at hcontent; cases hcontent; exact hf a b x h1 h2 hab

theorem classify_mem {b : Box} : ∀ {l m u : List (Cell Content)}, Grid.classify b l = .ok (m, u) → ∀ c, c ∈ m ∨ c ∈ u → c ∈ l
  | [], m, u, h, c, hc => by cases h; rcases hc with hc | hc <;> cases hc
  | d :: l, m, u, h, c, hc => by
    unfold Grid.classify at h
    split at h
    · split at h
      · cases h
      · rename_i m' u' h'
        cases h
        rcases hc with hc | hc
        · rcases List.mem_cons.mp hc with rfl | hc
          · exact List.mem_cons_self
          · exact List.mem_cons_of_mem _ (classify_mem h' c (.inl hc))
        · exact List.mem_cons_of_mem _ (classify_mem h' c (.inr hc))
    · split at h
      · cases h
      · split at h
        · cases h
        · rename_i m' u' h'
          cases h
          rcases hc with hc | hc
          · exact List.mem_cons_of_mem _ (classify_mem h' c (.inl hc))
          · rcases List.mem_cons.mp hc with rfl | hc
            · exact List.mem_cons_self
            · exact List.mem_cons_of_mem _ (classify_mem h' c (.inr hc))

theorem keeps_gridMerge {f : Content → Content → Except PyErr Content} (hf : Joins D f) (v w : PyVal) :
    Keeps (fun g : Grid Content => ∀ c ∈ g.cells, c.Meets D) (Grid.merge v w f) := by
  unfold Grid.merge
  refine keeps_bind (keeps_lift _) (fun _ => keeps_bind (keeps_lift _) (fun _ => keeps_bind (keeps_lift _) (fun _ => ?_)))
  intro g hg
  rw [bind_run]
  simp only [get_run]
  revert g
  intro g hg
  refine keeps_bind_lift (P := fun g : Grid Content => ∀ c ∈ g.cells, c.Meets D) (fun mu hmu => ?_) g hg
  obtain ⟨m, u⟩ := mu
  have hmem := classify_mem hmu
  cases m with
  | nil => exact keeps_raise _
  | cons first rest =>
    simp only
    refine keeps_bind_lift (fun c1 h1 => keeps_bind_lift (fun c2 h2 => ?_))
    have hu : ∀ c ∈ u, c.Meets D := fun c hc => hg c (hmem c (.inr hc))
    have hc2 : c2.Meets D := meets_mergeLoop hf rest (meets_transformed h1 (hg first (hmem first (.inl List.mem_cons_self))))
      (fun d hd => hg d (hmem d (.inl (List.mem_cons_of_mem _ hd)))) h2
    refine keeps_bind (fun _ _ => hu) (fun _ => keeps_bind (keeps_lift _) (fun _ => keeps_bind ?_ (fun _ => keeps_pure _)))
    intro _ _ d hd
    rcases mem_insertIdx_cases hd with rfl | hd
    · exact hc2
    · exact hu d hd

theorem keeps_expandMeets (h0 : D.nature none) {f : Content → Content → Except PyErr Content} (hf : Joins D f) (v : PyVal) (w k : Int) :
    Keeps (Table.Meets D) (Table.expand v w k f) := by
  unfold Table.expand
  refine keeps_bind (keeps_onGrid ?_) (fun _ => keeps_refreshViews h0)
  unfold Grid.expand
  exact keeps_bind keeps_get (fun _ => keeps_bind (keeps_lift _) (fun _ => keeps_gridMerge hf _ _))

/-! ### parsers -/

/-- the demands are met by the table of a parser and by the nature of its row -/
def PState.Meets (D : Demands) (s : PState) : Prop := (∀ t, s.table = some t → t.Meets D) ∧ ∀ r, s.row = some r → D.nature r.2

theorem keeps_tableMeets {α : Type} {m : PyM (Table Content) α} (hm : Keeps (Table.Meets D) m) : Keeps (PState.Meets D) (PState.onTable m) := by
  intro s hs
  unfold PState.onTable
  cases ht : s.table with
  | none => exact hs
  | some t =>
    refine ⟨?_, hs.2⟩
    intro t' ht'
    cases ht'
    exact hm t (hs.1 t ht)

theorem keeps_bind_row {α : Type} {f : Int × Option String → PyM PState α} (hf : ∀ r, D.nature r.2 → Keeps (PState.Meets D) (f r)) :
    Keeps (PState.Meets D) (PState.theRow >>= f) := by
  intro s hs
  rw [bind_run]
  unfold PState.theRow
  cases hr : s.row with
  | none => exact hs
  | some r => exact hf r (hs.2 r hr) s hs

theorem keeps_nextColMeets : Keeps (PState.Meets D) PState.nextCol := fun _ h => h
theorem keeps_nextRowMeets : Keeps (PState.Meets D) PState.nextRow := fun _ h => ⟨h.1, fun _ hr => nomatch hr⟩

theorem keeps_newMeets {st : Except PyErr Styles} {n : Option String} (hst : ∀ s, st = .ok s → Each D.table s) :
    Keeps (PState.Meets D) (do
      let styles ← lift st
      let t ← lift (Table.new [] (some styles) n)
      PyM.modify (fun (s : PState) => { s with table := some t }) : PyM PState Unit) := by
  refine keeps_bind_lift (fun styles hs => keeps_bind_lift (fun t ht => ?_))
  intro s h
  refine ⟨?_, h.2⟩
  intro t' ht'
  cases ht'
  unfold Table.new at ht
  split at ht
  · cases ht
  · rename_i g hg
    cases ht
    cases hg
    refine ⟨hst styles hs, ?_, ?_⟩
    · intro ax vs e; cases ax <;> cases e
    · intro c hc; cases hc

theorem keeps_endRowMeets (h0 : D.nature none) (hc : D.content none) : Keeps (PState.Meets D) CalsP.endRow := by
  unfold CalsP.endRow
  exact keeps_bind (keeps_tableMeets (keeps_viewsMeets h0 _)) (fun _ => keeps_bind keeps_get (fun _ => keeps_bind (keeps_lift _) (fun _ =>
    keeps_bind_row (fun r hr => keeps_tableMeets (keeps_fillMeets h0 _ hc (each_nil _) hr)))))

theorem keeps_fillHolesMeets (h0 : D.nature none) (hc : D.content none) : Keeps (Table.Meets D) CalsP.fillHoles := by
  unfold CalsP.fillHoles
  refine keeps_bind keeps_get (fun _ => keeps_bind (keeps_lift _) (fun bb => ?_))
  split
  · exact keeps_raise _
  · exact keeps_fillMeets h0 _ hc (each_nil _) h0

/-- the result of a parser whose loop keeps the demands -/
theorem parsed_meets {m : PyM PState Unit} (hm : Keeps (PState.Meets D) m) {s s' : PState} {t : Table Content}
    (h : (do
      PState.reset
      m
      let s ← PyM.get
      pure s.table : PyM PState (Option (Table Content))) s = (.ok (some t), s')) : t.Meets D := by
  simp only [bind_run, PState.reset, set_run] at h
  have := hm PState.init ⟨fun t ht => (by cases ht), fun r hr => (by cases hr)⟩
  cases hr : m PState.init with
  | mk r s1 =>
    rw [hr] at h this
    cases r with
    | error e => cases h
    | ok u =>
      simp only [get_run, pure_run, Prod.mk.injEq, Except.ok.injEq] at h
      exact this.1 t h.1

end Benker
