import Verif.Spec.Views
import Verif.Lemmas.TableOps

/-! Lemmas about the views which are objects: they show what the views of `Model/Table.lean` are, and which ones remain. -/

namespace Benker.Kept
variable {γ : Type}
open PyM ViewSpec

/-! ### simulation -/

/-- two statements do the same, up to relations between their states and between their results -/
def Sim {σ τ α β : Type} (R : σ → τ → Prop) (Q : α → β → Prop) (m : PyM σ α) (m' : PyM τ β) : Prop :=
  ∀ s t, R s t → R (m s).2 (m' t).2 ∧
    ((∃ a b, (m s).1 = .ok a ∧ (m' t).1 = .ok b ∧ Q a b) ∨ ∃ e, (m s).1 = .error e ∧ (m' t).1 = .error e)

section sim
variable {σ τ α β α' β' : Type} {R : σ → τ → Prop}

theorem Sim.bind {Q : α → β → Prop} {Q' : α' → β' → Prop} {m : PyM σ α} {m' : PyM τ β} {f : α → PyM σ α'} {f' : β → PyM τ β'}
    (h : Sim R Q m m') (hf : ∀ a b, Q a b → Sim R Q' (f a) (f' b)) : Sim R Q' (m >>= f) (m' >>= f') := by
  intro s t hst
  obtain ⟨h1, h2⟩ := h s t hst
  rw [bind_run, bind_run]
  cases hm : m s with | mk x s1 =>
  cases hm' : m' t with | mk y t1 =>
  rw [hm, hm'] at h1 h2
  rcases h2 with ⟨a, b, ha, hb, hq⟩ | ⟨e, ha, hb⟩
  · simp only at ha hb
    subst ha; subst hb
    exact hf a b hq s1 t1 h1
  · simp only at ha hb
    subst ha; subst hb
    exact ⟨h1, Or.inr ⟨e, rfl, rfl⟩⟩

theorem Sim.lift {Q : α → α → Prop} (hq : ∀ a, Q a a) (x : Except PyErr α) : Sim R Q (PyM.lift x) (PyM.lift x) := by
  intro s t hst
  refine ⟨hst, ?_⟩
  cases x with
  | ok a => exact Or.inl ⟨a, a, rfl, rfl, hq a⟩
  | error e => exact Or.inr ⟨e, rfl, rfl⟩

theorem Sim.pure {Q : α → β → Prop} {a : α} {b : β} (h : Q a b) : Sim R Q (pure a : PyM σ α) (pure b : PyM τ β) :=
  fun _ _ hst => ⟨hst, Or.inl ⟨a, b, rfl, rfl, h⟩⟩

theorem Sim.get : Sim R R (PyM.get : PyM σ σ) (PyM.get : PyM τ τ) := fun s t hst => ⟨hst, Or.inl ⟨s, t, rfl, rfl, hst⟩⟩

theorem Sim.modify {f : σ → σ} {g : τ → τ} (h : ∀ s t, R s t → R (f s) (g t)) : Sim R (fun _ _ => True) (PyM.modify f) (PyM.modify g) :=
  fun s t hst => ⟨h s t hst, Or.inl ⟨(), (), rfl, rfl, trivial⟩⟩

theorem Sim.forEach {body : α → PyM σ Unit} {body' : α → PyM τ Unit} (h : ∀ a, Sim R (fun _ _ => True) (body a) (body' a)) :
    ∀ l : List α, Sim R (fun _ _ => True) (PyM.forEach body l) (PyM.forEach body' l)
  | [] => Sim.pure trivial
  | a :: l => Sim.bind (h a) (fun _ _ _ => Sim.forEach h l)

theorem Sim.unit {Q : α → β → Prop} {m : PyM σ α} {m' : PyM τ β} (h : Sim R Q m m') :
    Sim R (fun _ _ => True) (do let _ ← m; Pure.pure ()) (do let _ ← m'; Pure.pure ()) := Sim.bind h (fun _ _ _ => Sim.pure trivial)

end sim

/-! ### the lists -/

namespace Lines

/-- the addresses of a list are those of views which exist, each of them once -/
structure Sound (r : Lines γ) : Prop where
  once : r.list.Nodup
  made : ∀ a ∈ r.list, a < r.heap.length

theorem getElem?_modify' {α : Type} (l : List α) (a b : Nat) (f : α → α) : (l.modify a f)[b]? = if a = b then (l[b]?).map f else l[b]? := by
  rw [List.getElem?_modify]
  split <;> cases l[b]? <;> simp_all

theorem look_edit (r : Lines γ) (a b : Nat) (f : View γ → View γ) (ha : a < r.heap.length) :
    (r.edit a f).look b = if b = a then f (r.look b) else r.look b := by
  unfold edit look
  simp only [getElem?_modify']
  by_cases h : b = a
  · subst h
    rw [if_pos rfl, if_pos rfl, List.getElem?_eq_getElem ha]; rfl
  · rw [if_neg h, if_neg (fun e => h e.symm)]

theorem edit_sound {r : Lines γ} (h : r.Sound) (a : Nat) (f : View γ → View γ) : (r.edit a f).Sound :=
  ⟨h.once, fun b hb => by show b < (r.heap.modify a f).length; rw [List.length_modify]; exact h.made b hb⟩

theorem seen_edit {r : Lines γ} (h : r.Sound) {i : Nat} {a : Nat} (ha : r.list[i]? = some a) (f : View γ → View γ) :
    seen (r.edit a f) = (seen r).modify i f := by
  have hm : a < r.heap.length := h.made a (List.mem_of_getElem? ha)
  apply List.ext_getElem?
  intro j
  rw [getElem?_modify']
  show ((r.edit a f).list.map (r.edit a f).look)[j]? = _
  unfold seen
  rw [List.getElem?_map, List.getElem?_map]
  show (r.list[j]?).map _ = _
  cases hj : r.list[j]? with
  | none => simp
  | some b =>
    simp only [Option.map_some]
    rw [look_edit r a b f hm]
    by_cases e : i = j
    · subst e
      rw [ha] at hj; injection hj with hj; rw [if_pos hj.symm, if_pos rfl]
    · rw [if_neg e, if_neg]
      intro eb; subst eb
      obtain ⟨hi', ei⟩ := List.getElem?_eq_some_iff.mp ha
      obtain ⟨hj', ej⟩ := List.getElem?_eq_some_iff.mp hj
      exact e ((List.getElem_inj h.once).mp (ei.trans ej.symm))

theorem look_append (heap : List (View γ)) (more : List (View γ)) (l l' : List Nat) (a : Nat) (ha : a < heap.length) :
    Lines.look ⟨heap ++ more, l⟩ a = Lines.look ⟨heap, l'⟩ a := by
  unfold look; simp only; rw [List.getElem?_append_left ha]

theorem truncate_sound {r : Lines γ} (h : r.Sound) (n : Int) : (r.truncate n).Sound := by
  unfold truncate
  split
  · exact ⟨h.once.sublist (List.take_sublist _ _), fun a ha => h.made a (List.mem_of_mem_take ha)⟩
  · exact ⟨h.once.sublist (List.take_sublist _ _), fun a ha => h.made a (List.mem_of_mem_take ha)⟩

theorem seen_truncate (r : Lines γ) (n : Int) : seen (r.truncate n) = Views.truncate n (seen r) := by
  unfold truncate Views.truncate seen
  simp only [List.length_map]
  split
  · rw [← List.map_take]; rfl
  · rw [← List.map_take]; rfl

theorem grow_sound {r : Lines γ} (h : r.Sound) (n : Int) : (r.grow n).Sound := by
  refine ⟨?_, ?_⟩
  · show (r.list ++ List.range' r.heap.length _).Nodup
    rw [List.nodup_append]
    refine ⟨h.once, List.nodup_range', ?_⟩
    intro a ha b hb e
    have := h.made a ha
    have := (List.mem_range'_1.mp hb).1
    omega
  · intro a ha
    show a < (r.heap ++ _).length
    rw [List.length_append, List.length_map]
    rcases List.mem_append.mp ha with ha | ha
    · have := h.made a ha; omega
    · have := (List.mem_range'_1.mp ha).2; omega

theorem seen_grow {r : Lines γ} (h : r.Sound) (n : Int) : seen (r.grow n) = Views.grow n (seen r) := by
  have hl : (seen r).length = r.list.length := List.length_map ..
  unfold Views.grow
  rw [hl]
  show (r.list ++ List.range' r.heap.length _).map (r.grow n).look = _
  rw [List.map_append]
  congr 1
  · apply List.map_congr_left
    intro a ha
    exact look_append _ _ _ _ _ (h.made a ha)
  · apply List.ext_getElem
    · simp
    · intro i h1 h2
      simp only [List.getElem_map, List.getElem_range', Nat.one_mul]
      show (r.heap ++ _)[r.heap.length + i]?.getD _ = _
      rw [List.getElem?_append_right (by omega)]
      have e : r.heap.length + i - r.heap.length = i := by omega
      rw [e]
      simp only [List.length_map] at h2
      rw [List.getElem?_map, List.getElem?_eq_getElem h2]
      rfl

theorem fit_sound {r : Lines γ} (h : r.Sound) (n : Int) (tr : Bool) : (r.fit n tr).Sound := by
  unfold fit; cases tr
  · exact grow_sound h n
  · exact grow_sound (truncate_sound h n) n

theorem seen_fit {r : Lines γ} (h : r.Sound) (n : Int) (tr : Bool) : seen (r.fit n tr) = Views.fit n tr (seen r) := by
  unfold fit Views.fit; cases tr
  · exact seen_grow h n
  · show seen (grow n (truncate n r)) = _
    rw [seen_grow (truncate_sound h n) n, seen_truncate]; rfl

/-- the relation between a list of views which are objects and a list of views which are values -/
def Rel (r : Lines γ) (vs : List (View γ)) : Prop := r.Sound ∧ seen r = vs

theorem sim_fit (n : Int) (tr : Bool) : Sim Rel (fun _ _ => True) (PyM.modify (fit n tr : Lines γ → Lines γ)) (PyM.modify (Views.fit n tr)) :=
  Sim.modify (fun r vs h => ⟨fit_sound h.1 n tr, by rw [seen_fit h.1, h.2]⟩)

/-- `views[i]` is the same object as the view which is shown at this place -/
theorem pyGet_seen (r : Lines γ) (i : Int) :
    (∃ (k a : Nat), pyGet r.list i = .ok a ∧ r.list[k]? = some a ∧ pyGet (seen r) i = .ok (r.look a) ∧
      (if 0 ≤ i then i.toNat < (seen r).length ∧ k = i.toNat
        else 0 ≤ ((seen r).length : Int) + i ∧ k = (((seen r).length : Int) + i).toNat)) ∨
    (pyGet r.list i = .error .indexError ∧ pyGet (seen r) i = .error .indexError ∧
      ¬ (if 0 ≤ i then i.toNat < (seen r).length else 0 ≤ ((seen r).length : Int) + i)) := by
  have hl : (seen r).length = r.list.length := List.length_map ..
  have hg : ∀ k : Nat, (seen r)[k]? = (r.list[k]?).map r.look := fun k => List.getElem?_map ..
  unfold pyGet pyGetNat
  rw [hl]
  by_cases h0 : 0 ≤ i
  · simp only [if_pos h0, hg]
    cases h : r.list[i.toNat]? with
    | none => right; have := List.getElem?_eq_none_iff.mp h; refine ⟨rfl, rfl, by omega⟩
    | some a => left; have := (List.getElem?_eq_some_iff.mp h).1; exact ⟨_, a, rfl, h, rfl, this, rfl⟩
  · simp only [if_neg h0, hg]
    by_cases h1 : 0 ≤ (r.list.length : Int) + i
    · simp only [if_pos h1]
      cases h : r.list[((r.list.length : Int) + i).toNat]? with
      | none => exfalso; have := List.getElem?_eq_none_iff.mp h; omega
      | some a => left; exact ⟨_, a, rfl, h, rfl, h1, rfl⟩
    · simp only [if_neg h1]; right; exact ⟨by first | rfl | trivial, by first | rfl | trivial, by first | exact h1 | simp [h1]⟩

theorem sim_updateAt (i : Int) (f : View γ → View γ) : Sim Rel (fun _ _ => True) (updateAt i f) (Views.updateAt i f) := by
  intro r vs h
  obtain ⟨h1, rfl⟩ := h
  unfold updateAt Views.updateAt
  rcases pyGet_seen r i with ⟨k, a, e1, e2, _, e4⟩ | ⟨e1, _, e4⟩
  · have run : (do let r ← PyM.get; let a ← PyM.lift (pyGet r.list i); PyM.modify (edit a f) : PyM (Lines γ) Unit) r = (.ok (), r.edit a f) := by
      rw [bind_run]; simp only [get_run]; rw [bind_run]; simp only [lift_run, e1]; rfl
    rw [run]
    by_cases h0 : 0 ≤ i
    · rw [if_pos h0] at e4
      rw [if_pos h0, if_pos e4.1, ← e4.2]
      exact ⟨⟨edit_sound h1 a f, seen_edit h1 e2 f⟩, Or.inl ⟨(), (), rfl, rfl, trivial⟩⟩
    · rw [if_neg h0] at e4
      rw [if_neg h0, if_pos e4.1, ← e4.2]
      exact ⟨⟨edit_sound h1 a f, seen_edit h1 e2 f⟩, Or.inl ⟨(), (), rfl, rfl, trivial⟩⟩
  · have run : (do let r ← PyM.get; let a ← PyM.lift (pyGet r.list i); PyM.modify (edit a f) : PyM (Lines γ) Unit) r = (.error .indexError, r) := by
      rw [bind_run]; simp only [get_run]; rw [bind_run]; simp only [lift_run, e1]
    rw [run]
    by_cases h0 : 0 ≤ i
    · rw [if_pos h0] at e4
      rw [if_pos h0, if_neg e4]
      exact ⟨⟨h1, rfl⟩, Or.inr ⟨_, rfl, rfl⟩⟩
    · rw [if_neg h0] at e4
      rw [if_neg h0, if_neg e4]
      exact ⟨⟨h1, rfl⟩, Or.inr ⟨_, rfl, rfl⟩⟩

theorem sim_adopt (ax : Axis) (c : Cell γ) : Sim Rel (fun _ _ => True) (adopt ax c) (Views.adopt ax c) :=
  Sim.bind (sim_fit _ _) (fun _ _ _ => Sim.forEach (fun _ => sim_updateAt _ _) _)

/-- what `clearAll` does -/
theorem clear_fold (f : View γ → View γ) : ∀ (l : List Nat) (r : Lines γ), l.Nodup → (∀ a ∈ l, a < r.heap.length) →
    (l.foldl (fun r a => r.edit a f) r).list = r.list ∧ (l.foldl (fun r a => r.edit a f) r).heap.length = r.heap.length ∧
    ∀ b, (l.foldl (fun r a => r.edit a f) r).heap[b]? = if b ∈ l then (r.heap[b]?).map f else r.heap[b]?
  | [], r, _, _ => ⟨rfl, rfl, fun b => by simp⟩
  | a :: l, r, hn, hm => by
    rw [List.nodup_cons] at hn
    have hlen : (r.edit a f).heap.length = r.heap.length := List.length_modify ..
    obtain ⟨h1, h2, h3⟩ := clear_fold f l (r.edit a f) hn.2 (fun b hb => by rw [hlen]; exact hm b (List.mem_cons_of_mem _ hb))
    refine ⟨h1, h2.trans hlen, fun b => ?_⟩
    show (l.foldl (fun r a => r.edit a f) (r.edit a f)).heap[b]? = _
    rw [h3 b]
    show (if b ∈ l then ((r.heap.modify a f)[b]?).map f else (r.heap.modify a f)[b]?) = _
    rw [getElem?_modify']
    by_cases e : b = a
    · subst e
      rw [if_neg hn.1, if_pos rfl, if_pos List.mem_cons_self]
    · rw [if_neg (show ¬ a = b from fun x => e x.symm)]
      by_cases hb : b ∈ l
      · rw [if_pos hb, if_pos (List.mem_cons_of_mem _ hb)]
      · rw [if_neg hb, if_neg (by simp [e, hb])]

theorem clearAll_sound {r : Lines γ} (h : r.Sound) : r.clearAll.Sound := by
  obtain ⟨h1, h2, _⟩ := clear_fold (fun v : View γ => { v with owned := [], caught := [] }) r.list r h.once h.made
  exact ⟨by rw [show r.clearAll.list = r.list from h1]; exact h.once,
    fun a ha => by rw [show r.clearAll.list = r.list from h1] at ha; rw [show r.clearAll.heap.length = r.heap.length from h2]; exact h.made a ha⟩

theorem seen_clearAll {r : Lines γ} (h : r.Sound) : seen r.clearAll = (seen r).map (fun v => { v with owned := [], caught := [] }) := by
  obtain ⟨h1, h2, h3⟩ := clear_fold (fun v : View γ => { v with owned := [], caught := [] }) r.list r h.once h.made
  unfold seen
  rw [show r.clearAll.list = r.list from h1, List.map_map]
  apply List.map_congr_left
  intro a ha
  show (r.clearAll.heap[a]?).getD _ = _
  rw [show r.clearAll.heap[a]? = _ from h3 a, if_pos ha, List.getElem?_eq_getElem (h.made a ha)]
  show _ = (fun v : View γ => { v with owned := [], caught := [] }) (r.look a)
  unfold look
  rw [List.getElem?_eq_getElem (h.made a ha)]; rfl

theorem sim_refreshAll (ax : Axis) (g : Grid γ) : Sim Rel (fun _ _ => True) (refreshAll ax g) (Views.refreshAll ax g) := by
  unfold refreshAll Views.refreshAll
  refine Sim.bind (Q := fun a b => a = b) (Sim.lift (fun _ => rfl) _) ?_
  rintro a b rfl
  cases a with
  | none =>
    intro r vs h
    exact ⟨⟨⟨List.nodup_nil, fun _ h => absurd h List.not_mem_nil⟩, rfl⟩, Or.inl ⟨(), (), rfl, rfl, trivial⟩⟩
  | some b =>
    refine Sim.bind (sim_fit _ _) (fun _ _ _ => ?_)
    refine Sim.bind (Q := fun _ _ => True) (Sim.modify (fun r vs h => ⟨clearAll_sound h.1, ?_⟩)) (fun _ _ _ => ?_)
    · rw [seen_clearAll h.1, h.2]
    · exact Sim.forEach (fun c => sim_adopt ax c) _

end Lines

/-! ### the tables -/

/-- the lists of a table are sound -/
def Sound (s : State γ) : Prop := ∀ ax r, s.lines ax = some r → r.Sound

/-- the relation between a table whose views are objects and a table whose views are values -/
def Rel (s : State γ) (t : Table γ) : Prop := Sound s ∧ shown s = t

theorem shown_lines (ax : Axis) (s : State γ) : (shown s).getViews ax = (s.lines ax).map seen := by cases ax <;> rfl

theorem lines_setLines (ax : Axis) (r : Lines γ) (s : State γ) : (s.setLines ax r).lines ax = some r := by cases ax <;> rfl

theorem lines_setLines_ne {ax ax' : Axis} (h : ax' ≠ ax) (r : Lines γ) (s : State γ) : (s.setLines ax r).lines ax' = s.lines ax' := by
  cases ax <;> cases ax' <;> first | rfl | exact absurd rfl h

theorem grid_setLines (ax : Axis) (r : Lines γ) (s : State γ) : (s.setLines ax r).grid = s.grid := by cases ax <;> rfl

theorem rel_setLines {s : State γ} {t : Table γ} (h : Rel s t) {r : Lines γ} {vs : List (View γ)} (hr : Lines.Rel r vs) (ax : Axis) :
    Rel (s.setLines ax r) (t.setViews ax vs) := by
  obtain ⟨h1, rfl⟩ := h
  obtain ⟨h3, rfl⟩ := hr
  refine ⟨?_, by cases ax <;> rfl⟩
  intro ax' r' e
  by_cases hx : ax' = ax
  · subst hx; rw [lines_setLines] at e; injection e with e; subst e; exact h3
  · rw [lines_setLines_ne hx] at e; exact h1 ax' r' e

theorem rel_grid {s : State γ} {t : Table γ} (h : Rel s t) : s.grid = t.grid := by rw [← h.2]; rfl

theorem sim_access (ax : Axis) : Sim Rel Lines.Rel (State.access ax : PyM (State γ) _) (Table.views ax) := by
  intro s t h
  have hs := shown_lines ax s
  unfold State.access Table.views
  rw [← h.2, hs]
  cases hl : s.lines ax with
  | some r => exact ⟨⟨h.1, rfl⟩, Or.inl ⟨r, seen r, rfl, rfl, h.1 ax r hl, rfl⟩⟩
  | none =>
    simp only [Option.map_none]
    obtain ⟨h1, h2⟩ := Lines.sim_refreshAll ax s.grid ⟨[], []⟩ [] ⟨⟨List.nodup_nil, fun _ h => absurd h List.not_mem_nil⟩, rfl⟩
    rw [show (shown s).grid = s.grid from rfl]
    cases hm : Lines.refreshAll ax s.grid ⟨[], []⟩ with | mk x r =>
    cases hm' : Views.refreshAll ax s.grid [] with | mk y vs =>
    rw [hm, hm'] at h1 h2
    rcases h2 with ⟨a, b, ha, hb, _⟩ | ⟨e, ha, hb⟩
    · simp only at ha hb; subst ha; subst hb
      exact ⟨rel_setLines ⟨h.1, rfl⟩ h1 ax, Or.inl ⟨r, vs, rfl, rfl, h1⟩⟩
    · simp only at ha hb; subst ha; subst hb
      exact ⟨⟨h.1, rfl⟩, Or.inr ⟨e, rfl, rfl⟩⟩

theorem sim_onLines {α β : Type} {Q : α → β → Prop} (ax : Axis) {m : PyM (Lines γ) α} {m' : PyM (List (View γ)) β} (hm : Sim Lines.Rel Q m m') :
    Sim Rel Q (State.onLines ax m) (Table.onViews ax m') := by
  intro s t h
  obtain ⟨h1, h2⟩ := sim_access ax s t h
  unfold State.onLines Table.onViews
  cases ha : State.access ax s with | mk x s1 =>
  cases hb : Table.views ax t with | mk y t1 =>
  rw [ha, hb] at h1 h2
  rcases h2 with ⟨r, vs, hr, hv, hq⟩ | ⟨e, hr, hv⟩
  · simp only at hr hv; subst hr; subst hv
    simp only
    obtain ⟨h3, h4⟩ := hm r vs hq
    cases hc : m r with | mk x r1 =>
    cases hd : m' vs with | mk y vs1 =>
    rw [hc, hd] at h3 h4
    exact ⟨rel_setLines h1 h3 ax, h4⟩
  · simp only at hr hv; subst hr; subst hv
    exact ⟨h1, Or.inr ⟨e, rfl, rfl⟩⟩

theorem sim_onGrid {α : Type} (m : PyM (Grid γ) α) : Sim Rel (fun a b => a = b) (State.onGrid m : PyM (State γ) α) (Table.onGrid m) := by
  intro s t h
  unfold State.onGrid Table.onGrid
  rw [← rel_grid h]
  cases hm : m s.grid with | mk x g =>
  obtain ⟨h1, rfl⟩ := h
  refine ⟨⟨?_, rfl⟩, ?_⟩
  · intro ax r e; exact h1 ax r (by cases ax <;> exact e)
  · cases x with
    | ok a => exact Or.inl ⟨a, a, rfl, rfl, rfl⟩
    | error e => exact Or.inr ⟨e, rfl, rfl⟩

theorem sim_refreshCell (c : Cell γ) : Sim Rel (fun _ _ => True) (State.refreshCell c) (Table.refreshCell c) :=
  Sim.bind (sim_onLines .row (Lines.sim_adopt .row c)) (fun _ _ _ => sim_onLines .col (Lines.sim_adopt .col c))

theorem sim_refreshViews : Sim Rel (fun _ _ => True) (State.refreshViews : PyM (State γ) Unit) Table.refreshViews := by
  refine Sim.bind Sim.get ?_
  intro s t h
  rw [← rel_grid h]
  exact Sim.bind (sim_onLines .row (Lines.sim_refreshAll .row s.grid)) (fun _ _ _ => sim_onLines .col (Lines.sim_refreshAll .col s.grid))

theorem sim_setItem (v : PyVal) (c : Cell γ) : Sim Rel (fun _ _ => True) (State.setItem v c) (Table.setItem v c) := by
  refine Sim.bind (sim_onGrid _) (fun _ _ _ => Sim.bind Sim.get ?_)
  intro s t h
  rw [← rel_grid h]
  refine Sim.bind (Q := fun a b => a = b) (Sim.lift (fun _ => rfl) _) ?_
  rintro a b rfl
  exact sim_refreshCell a

theorem sim_fillOne (content : Option γ) (styles : Option Styles) (nature : Option String) (p : Coord) :
    Sim Rel (fun _ _ => True) (State.fillOne content styles nature p) (Table.fillOne content styles nature p) := by
  refine Sim.bind Sim.get ?_
  intro s t h
  rw [show Table.contains t = Grid.contains t.grid from rfl, ← rel_grid h]
  refine Sim.bind (Q := fun a b => a = b) (Sim.lift (fun _ => rfl) _) ?_
  rintro a b rfl
  cases a
  · refine Sim.bind (Q := fun a b => a = b) (Sim.lift (fun _ => rfl) _) ?_
    rintro a b rfl
    exact sim_setItem _ _
  · exact Sim.pure trivial

/-- the view which the caller gets is in the list, and shows what `Model/Table.lean` tells -/
theorem sim_viewAt (ax : Axis) (pos : Int) :
    Sim (fun (s : State γ) t => Rel s t) (fun _ _ => True) (State.viewAt ax pos) (Table.viewAt ax pos) := by
  refine sim_onLines ax (Sim.bind (Lines.sim_fit _ _) (fun _ _ _ => Sim.bind Sim.get ?_))
  intro r vs h s t hst
  obtain ⟨h1, rfl⟩ := h
  refine ⟨hst, ?_⟩
  rcases Lines.pyGet_seen r (pos - 1) with ⟨k, a, e1, _, e3, _⟩ | ⟨e1, e2, _⟩
  · exact Or.inl ⟨a, r.look a, e1, e3, trivial⟩
  · exact Or.inr ⟨_, e1, e2⟩

/-! ### views at a position -/

theorem setLines_setLines (ax : Axis) (r r' : Lines γ) (s : State γ) : (s.setLines ax r).setLines ax r' = s.setLines ax r' := by cases ax <;> rfl

theorem setLines_self {ax : Axis} {r : Lines γ} {s : State γ} (h : s.lines ax = some r) : s.setLines ax r = s := by
  cases s; cases ax <;> (simp only [State.lines] at h; subst h; rfl)

theorem access_lines {ax : Axis} {s s' : State γ} {r : Lines γ} (h : State.access ax s = (.ok r, s')) : s'.lines ax = some r := by
  unfold State.access at h
  cases hl : s.lines ax with
  | some r0 => rw [hl] at h; injection h with h1 h2; injection h1 with h1; subst h1; subst h2; exact hl
  | none =>
    rw [hl] at h
    simp only at h
    cases hm : Lines.refreshAll ax s.grid ⟨[], []⟩ with | mk x r1 =>
    rw [hm] at h
    cases x with
    | ok _ => simp only at h; injection h with h1 h2; injection h1 with h1; subst h1; subst h2; exact lines_setLines ..
    | error _ => simp only at h; injection h with h1 _; cases h1

/-- what `table.rows[pos]` does -/
theorem viewAt_run (ax : Axis) (pos : Int) (s : State γ) :
    State.viewAt ax pos s = match State.access ax s with
      | (.error e, s') => (.error e, s')
      | (.ok r, s') => (pyGet (r.fit pos false).list (pos - 1), s'.setLines ax (r.fit pos false)) := by
  unfold State.viewAt State.onLines
  cases State.access ax s with | mk x s' => cases x <;> rfl

theorem viewAt_edit (ax : Axis) (pos : Int) (f : View γ → View γ) :
    (do let a ← State.viewAt ax pos; State.edit ax a f) =
      State.onLines ax (do PyM.modify (Lines.fit pos false); Lines.updateAt (pos - 1) f : PyM (Lines γ) Unit) := by
  funext s
  rw [bind_run, viewAt_run]
  unfold State.onLines
  cases State.access ax s with | mk x s' =>
  cases x with
  | error e => rfl
  | ok r =>
    simp only
    have e : (do PyM.modify (Lines.fit pos false); Lines.updateAt (pos - 1) f : PyM (Lines γ) Unit) r =
        match pyGet (r.fit pos false).list (pos - 1) with
        | .ok a => (.ok (), (r.fit pos false).edit a f)
        | .error e => (.error e, r.fit pos false) := by
      rw [bind_run]; simp only [modify_run]
      unfold Lines.updateAt
      rw [bind_run]; simp only [get_run]; rw [bind_run]; simp only [lift_run]
      cases pyGet (r.fit pos false).list (pos - 1) <;> rfl
    rw [e]
    cases pyGet (r.fit pos false).list (pos - 1) with
    | error e => rfl
    | ok a =>
      simp only
      unfold State.edit
      rw [lines_setLines]; simp only [setLines_setLines]

theorem sim_edit (ax : Axis) (pos : Int) (f : View γ → View γ) :
    Sim Rel (fun _ _ => True) (do let a ← State.viewAt ax pos; State.edit ax a f) (Table.editView ax pos f) := by
  rw [viewAt_edit]
  exact sim_onLines ax (Sim.bind (Lines.sim_fit _ _) (fun _ _ _ => Lines.sim_updateAt _ _))

/-- the view which the caller gets is in the list, and shows what `Model/Table.lean` tells -/
theorem viewAt_ok (ax : Axis) (pos : Int) {s : State γ} {t : Table γ} (h : Rel s t) {a : Nat} {s' : State γ} (e : State.viewAt ax pos s = (.ok a, s')) :
    ∃ v t', Table.viewAt ax pos t = (.ok v, t') ∧ Rel s' t' ∧ s'.look ax a = some v := by
  obtain ⟨h1, h2⟩ := sim_access ax s t h
  rw [viewAt_run] at e
  cases ha : State.access ax s with | mk x s1 =>
  cases hb : Table.views ax t with | mk y t1 =>
  rw [ha, hb] at h1 h2
  rw [ha] at e
  rcases h2 with ⟨r, vs, hr, hv, hq⟩ | ⟨err, hr, hv⟩
  · simp only at hr hv; subst hr; subst hv
    simp only at e
    injection e with e1 e2
    have hq' : Lines.Rel (r.fit pos false) (Views.fit pos false vs) := ⟨Lines.fit_sound hq.1 _ _, by rw [Lines.seen_fit hq.1, hq.2]⟩
    rcases Lines.pyGet_seen (r.fit pos false) (pos - 1) with ⟨k, b, g1, g2, g3, _⟩ | ⟨g1, _, _⟩
    · rw [g1] at e1; injection e1 with e1; subst e1
      refine ⟨(r.fit pos false).look b, t1.setViews ax (Views.fit pos false vs), ?_, ?_, ?_⟩
      · unfold Table.viewAt Table.onViews
        rw [hb]
        rw [hq'.2] at g3
        show (pyGet (Views.fit pos false vs) (pos - 1), _) = _
        rw [g3]
      · rw [← e2]; exact rel_setLines h1 hq' ax
      · rw [← e2]
        unfold State.look
        rw [lines_setLines]
        show (r.fit pos false).heap[b]? = _
        unfold Lines.look
        rw [List.getElem?_eq_getElem (hq'.1.made b (List.mem_of_getElem? g2))]; rfl
    · rw [g1] at e1; cases e1
  · simp only at hr hv; subst hr
    simp only at e; injection e with e1 _; cases e1

/-- insertion by a view which shows `v` -/
theorem sim_insertBy {ax : Axis} {a : Nat} {v : View γ} (content : Option γ) (styles : Option Styles) (nature : Option String) (w h : Int)
    {s : State γ} {t : Table γ} (hst : Rel s t) (hv : s.look ax a = some v) :
    Rel (State.insertBy ax a content styles nature w h s).2
      ((do
        let k ← lift (v.freePos ax)
        let nature := nature.or v.nature
        let p := ax.coord v.pos k
        let cell ← lift (Cell.new content styles nature p.x p.y w h)
        Table.setItem (.coord cell.min) cell : PyM (Table γ) Unit) t).2 ∧
    (State.insertBy ax a content styles nature w h s).1 =
      ((do
        let k ← lift (v.freePos ax)
        let nature := nature.or v.nature
        let p := ax.coord v.pos k
        let cell ← lift (Cell.new content styles nature p.x p.y w h)
        Table.setItem (.coord cell.min) cell : PyM (Table γ) Unit) t).1 := by
  have e : State.insertBy ax a content styles nature w h s = (do
        let k ← lift (v.freePos ax)
        let nature := nature.or v.nature
        let p := ax.coord v.pos k
        let cell ← lift (Cell.new content styles nature p.x p.y w h)
        State.setItem (.coord cell.min) cell : PyM (State γ) Unit) s := by
    unfold State.insertBy
    rw [bind_run]; simp only [get_run]; rw [hv]
  rw [e]
  have hs : Sim Rel (fun _ _ => True) (do
        let k ← lift (v.freePos ax)
        let nature := nature.or v.nature
        let p := ax.coord v.pos k
        let cell ← lift (Cell.new content styles nature p.x p.y w h)
        State.setItem (.coord cell.min) cell : PyM (State γ) Unit) (do
        let k ← lift (v.freePos ax)
        let nature := nature.or v.nature
        let p := ax.coord v.pos k
        let cell ← lift (Cell.new content styles nature p.x p.y w h)
        Table.setItem (.coord cell.min) cell : PyM (Table γ) Unit) := by
    refine Sim.bind (Q := fun a b => a = b) (Sim.lift (fun _ => rfl) _) ?_
    rintro k _ rfl
    refine Sim.bind (Q := fun a b => a = b) (Sim.lift (fun _ => rfl) _) ?_
    rintro c _ rfl
    exact sim_setItem _ _
  obtain ⟨h1, h2⟩ := hs s t hst
  refine ⟨h1, ?_⟩
  rcases h2 with ⟨x, y, hx, hy, _⟩ | ⟨err, hx, hy⟩
  · rw [hx, hy]
  · rw [hx, hy]

theorem sim_insert (ax : Axis) (pos : Int) (content : Option γ) (styles : Option Styles) (nature : Option String) (w h : Int) :
    Sim Rel (fun _ _ => True) (do let a ← State.viewAt ax pos; State.insertBy ax a content styles nature w h)
      (Table.insertCell ax pos content styles nature w h) := by
  intro s t hst
  obtain ⟨h1, h2⟩ := sim_viewAt ax pos s t hst
  unfold Table.insertCell
  rw [bind_run, bind_run]
  cases ha : State.viewAt ax pos s with | mk x s1 =>
  cases x with
  | error e =>
    rw [ha] at h1 h2
    rcases h2 with ⟨_, _, hx, _, _⟩ | ⟨e', hx, hy⟩
    · cases hx
    · cases hb : Table.viewAt ax pos t with | mk y t1 =>
      rw [hb] at h1 hy
      simp only at hx hy; cases hx; subst hy
      exact ⟨h1, Or.inr ⟨e, rfl, rfl⟩⟩
  | ok a =>
    obtain ⟨v, t1, hb, h3, h4⟩ := viewAt_ok ax pos hst ha
    rw [hb]
    simp only
    obtain ⟨h5, h6⟩ := sim_insertBy content styles nature w h h3 h4
    refine ⟨h5, ?_⟩
    rw [h6]
    cases hr : ((do
        let k ← lift (v.freePos ax)
        let nature := nature.or v.nature
        let p := ax.coord v.pos k
        let cell ← lift (Cell.new content styles nature p.x p.y w h)
        Table.setItem (.coord cell.min) cell : PyM (Table γ) Unit) t1).1 with
    | ok u => exact Or.inl ⟨u, u, rfl, rfl, trivial⟩
    | error e => exact Or.inr ⟨e, rfl, rfl⟩

theorem sim_gridOp : ∀ op : Grid.Op γ, Sim Rel (fun _ _ => True) (runGridOp op) (Table.runGridOp op)
  | .set v a => by
    refine Sim.bind (Q := fun a b => a = b) (Sim.lift (fun _ => rfl) _) ?_
    rintro c _ rfl
    exact sim_setItem _ _
  | .del _ => Sim.bind (sim_onGrid _) (fun _ _ _ => sim_refreshViews)
  | .merge _ _ _ => Sim.bind (sim_onGrid _) (fun _ _ _ => sim_refreshViews)
  | .expand _ _ _ _ => Sim.bind (sim_onGrid _) (fun _ _ _ => sim_refreshViews)

theorem sim_tableOp : ∀ op : Table.Op γ, Sim Rel (fun _ _ => True) (runTableOp op) op.run
  | .grid op => sim_gridOp op
  | .access ax => Sim.unit (sim_access ax)
  | .view ax pos => Sim.unit (sim_viewAt ax pos)
  | .setNature ax pos _ => sim_edit ax pos _
  | .setStyles ax pos _ => sim_edit ax pos _
  | .insert ax pos c s n w h => sim_insert ax pos c s n w h
  | .fill b c s n => Sim.forEach (fun p => sim_fillOne c s n p) _
  | .looks d n => Sim.modify (fun s t h => ⟨fun ax r e => h.1 ax r (by cases ax <;> exact e), by rw [← h.2]; rfl⟩)

/-- the lists stay sound, whatever the caller does -/
theorem edit_sound {s : State γ} (h : Sound s) (ax : Axis) (a : Nat) (f : View γ → View γ) : Sound (exec (State.edit ax a f) s) := by
  unfold exec State.edit
  cases hl : s.lines ax with
  | none => exact h
  | some r =>
    intro ax' r' e
    by_cases hx : ax' = ax
    · subst hx; simp only [lines_setLines] at e; injection e with e; subst e; exact Lines.edit_sound (h ax' r hl) a f
    · simp only [lines_setLines_ne hx] at e; exact h ax' r' e

theorem insertBy_sound {s : State γ} (h : Sound s) (ax : Axis) (a : Nat) (content : Option γ) (styles : Option Styles) (nature : Option String)
    (w hh : Int) : Sound (exec (State.insertBy ax a content styles nature w hh) s) := by
  cases hv : s.look ax a with
  | none =>
    have : State.insertBy ax a content styles nature w hh s = (.error .attributeError, s) := by
      unfold State.insertBy; rw [bind_run]; simp only [get_run]; rw [hv]; rfl
    unfold exec; rw [this]; exact h
  | some v => exact (sim_insertBy content styles nature w hh ⟨h, rfl⟩ hv).1.1

theorem op_sound {s : State γ} (h : Sound s) : ∀ op : Op γ, Sound (exec op.run s)
  | .table op => (sim_tableOp op s (shown s) ⟨h, rfl⟩).1.1
  | .insert ax a c st n w hh => insertBy_sound h ax a c st n w hh
  | .setNature ax a _ => edit_sound h ax a _
  | .setStyles ax a _ => edit_sound h ax a _

theorem runFrom_sound : ∀ (ops : List (Op γ)) {s : State γ}, Sound s → Sound (runFrom s ops)
  | [], _, h => h
  | op :: ops, _, h => runFrom_sound ops (op_sound h op)

theorem new_sound {cells : List (Cell γ)} {styles : Option Styles} {nature : Option String} {s : State γ}
    (h : State.new cells styles nature = .ok s) : Sound s := by
  unfold State.new at h
  cases hg : Grid.ofCells cells with
  | error e => rw [hg] at h; cases h
  | ok g =>
    rw [hg] at h; injection h with h; subst h
    intro ax r e; cases ax <;> cases e

theorem reached_sound {s : State γ} (h : Reached s) : Sound s := by
  obtain ⟨cells, styles, nature, s0, ops, _, h0, rfl⟩ := h
  exact runFrom_sound ops (new_sound h0)

/-! ### which views remain in the lists -/

/-- what a view lists -/
def cellsOf (v : View γ) : Int × List (Cell γ) × List (Cell γ) := (v.pos, v.owned, v.caught)

namespace Lines

/-- the views which are not in the list are not told about the cells any more -/
def Frame (r r' : Lines γ) : Prop := ∀ a, a < r.heap.length → a ∉ r.list → (r'.heap[a]?).map cellsOf = (r.heap[a]?).map cellsOf

/-- views are added to the list, all of them new -/
structure Grew (r r' : Lines γ) : Prop where
  len : r.heap.length ≤ r'.heap.length
  list : ∃ new, r'.list = r.list ++ new ∧ ∀ a ∈ new, r.heap.length ≤ a
  frame : Frame r r'

/-- views are added to the list, or removed from its end -/
structure Moved (r r' : Lines γ) : Prop where
  len : r.heap.length ≤ r'.heap.length
  list : (∃ new, r'.list = r.list ++ new ∧ ∀ a ∈ new, r.heap.length ≤ a) ∨ r'.list <+: r.list
  frame : Frame r r'

/-- the list is the same -/
structure Still (r r' : Lines γ) : Prop where
  len : r'.heap.length = r.heap.length
  list : r'.list = r.list
  frame : Frame r r'

theorem Still.refl (r : Lines γ) : Still r r := ⟨rfl, rfl, fun _ _ _ => rfl⟩

theorem Still.trans {r r' r'' : Lines γ} (h : Still r r') (h' : Still r' r'') : Still r r'' :=
  ⟨h'.len.trans h.len, h'.list.trans h.list, fun a h1 h2 => (h'.frame a (by rw [h.len]; exact h1) (by rw [h.list]; exact h2)).trans (h.frame a h1 h2)⟩

theorem Still.grew {r r' : Lines γ} (h : Still r r') : Grew r r' := ⟨Nat.le_of_eq h.len.symm, ⟨[], by simp [h.list]⟩, h.frame⟩

theorem Grew.moved {r r' : Lines γ} (h : Grew r r') : Moved r r' := ⟨h.len, Or.inl h.list, h.frame⟩

theorem Grew.refl (r : Lines γ) : Grew r r := (Still.refl r).grew

theorem Grew.trans {r r' r'' : Lines γ} (h : Grew r r') (h' : Grew r' r'') : Grew r r'' := by
  obtain ⟨new, e, hn⟩ := h.list
  obtain ⟨new', e', hn'⟩ := h'.list
  refine ⟨Nat.le_trans h.len h'.len, ⟨new ++ new', by rw [e', e, List.append_assoc], ?_⟩, ?_⟩
  · intro a ha
    rcases List.mem_append.mp ha with ha | ha
    · exact hn a ha
    · exact Nat.le_trans h.len (hn' a ha)
  · intro a h1 h2
    refine (h'.frame a (Nat.lt_of_lt_of_le h1 h.len) ?_).trans (h.frame a h1 h2)
    rw [e]
    intro ha
    rcases List.mem_append.mp ha with ha | ha
    · exact h2 ha
    · exact absurd (hn a ha) (Nat.not_le.mpr h1)

theorem Moved.still {r r' r'' : Lines γ} (h : Moved r r') (h' : Still r' r'') : Moved r r'' := by
  refine ⟨by rw [h'.len]; exact h.len, by rw [h'.list]; exact h.list, ?_⟩
  intro a h1 h2
  refine (h'.frame a (Nat.lt_of_lt_of_le h1 h.len) ?_).trans (h.frame a h1 h2)
  intro ha
  rcases h.list with ⟨new, e, hn⟩ | hp
  · rw [e] at ha
    rcases List.mem_append.mp ha with ha | ha
    · exact h2 ha
    · exact absurd (hn a ha) (Nat.not_le.mpr h1)
  · exact h2 (hp.subset ha)

theorem edit_listed {r : Lines γ} {a : Nat} (ha : a ∈ r.list) (f : View γ → View γ) : Still r (r.edit a f) := by
  refine ⟨List.length_modify .., rfl, fun b _ hb => ?_⟩
  show ((r.heap.modify a f)[b]?).map _ = _
  rw [getElem?_modify', if_neg (show ¬ a = b from fun e => hb (e ▸ ha))]

theorem edit_looks (r : Lines γ) (a : Nat) {f : View γ → View γ} (hf : ∀ v, cellsOf (f v) = cellsOf v) : Still r (r.edit a f) := by
  refine ⟨List.length_modify .., rfl, fun b _ hb => ?_⟩
  show ((r.heap.modify a f)[b]?).map _ = _
  rw [getElem?_modify']
  split
  · cases r.heap[b]? with
    | none => rfl
    | some v => simp [hf]
  · rfl

theorem updateAt_still (i : Int) (f : View γ → View γ) (r : Lines γ) : Still r (updateAt i f r).2 := by
  unfold updateAt
  rw [bind_run]; simp only [get_run]; rw [bind_run]; simp only [lift_run]
  rcases pyGet_seen r i with ⟨k, a, e1, e2, _, _⟩ | ⟨e1, _, _⟩
  · rw [e1]; exact edit_listed (List.mem_of_getElem? e2) f
  · rw [e1]; exact Still.refl r

theorem forEach_still {α : Type} {body : α → PyM (Lines γ) Unit} : ∀ (l : List α) (r : Lines γ),
    (∀ a ∈ l, ∀ r1 : Lines γ, r1.list = r.list → Still r1 (body a r1).2) → Still r (PyM.forEach body l r).2
  | [], r, _ => Still.refl r
  | a :: l, r, h => by
    have h1 := h a List.mem_cons_self r rfl
    show Still r (PyM.bind (body a) (fun _ => PyM.forEach body l) r).2
    unfold PyM.bind
    cases hb : body a r with | mk x r1 =>
    rw [hb] at h1
    cases x with
    | error e => exact h1
    | ok _ => exact h1.trans (forEach_still l r1 (fun b hb r2 e => h b (List.mem_cons_of_mem _ hb) r2 (e.trans h1.list)))

theorem grow_grew (n : Int) (r : Lines γ) : Grew r (r.grow n) := by
  refine ⟨?_, ⟨_, rfl, fun a ha => (List.mem_range'_1.mp ha).1⟩, fun a h1 _ => ?_⟩
  · show r.heap.length ≤ (r.heap ++ _).length
    rw [List.length_append]; omega
  · show ((r.heap ++ _)[a]?).map _ = _
    rw [List.getElem?_append_left h1]

theorem grow_still (n : Int) (r : Lines γ) (h : n ≤ r.list.length) : r.grow n = r := by
  have e : pyRange (r.list.length : Int) n = [] := by
    unfold pyRange; rw [show (n - (r.list.length : Int)).toNat = 0 by omega]; rfl
  unfold grow; rw [e]; simp

theorem adopt_grew (ax : Axis) (c : Cell γ) (r : Lines γ) : Grew r (adopt ax c r).2 := by
  unfold adopt
  rw [bind_run]; simp only [modify_run]
  exact (grow_grew _ r).trans (forEach_still _ _ (fun _ _ r1 _ => updateAt_still _ _ r1)).grew

theorem adopt_still (ax : Axis) (c : Cell γ) (r : Lines γ) (h : ax.last c.box ≤ r.list.length) : Still r (adopt ax c r).2 := by
  unfold adopt
  rw [bind_run]; simp only [modify_run]
  show Still r (PyM.forEach _ _ (grow (ax.last c.box) r)).2
  rw [grow_still _ r h]
  exact forEach_still _ _ (fun _ _ r1 _ => updateAt_still _ _ r1)

theorem bb_last (ax : Axis) (g : Grid γ) (b : Box) (h : g.boundingBox = .ok (some b)) :
    0 < ax.last b ∧ ∀ c ∈ g.cells, ax.last c.box ≤ ax.last b := by
  unfold Grid.boundingBox at h
  cases hm : g.cells.map (·.box) with
  | nil => rw [hm] at h; cases h
  | cons b0 bs =>
    rw [hm] at h
    simp only at h
    cases hu : b0.union bs with
    | error e => rw [hu] at h; cases h
    | ok bb =>
      rw [hu] at h
      have h : Except.ok (some bb) = Except.ok (some b) := h
      injection h with h; injection h with h; subst h
      unfold Box.union at hu
      split at hu
      · cases hu
      · rename_i b1 hk
        split at hu
        · rename_i hall
          injection hu with hu; subst hu
          unfold Box.make at hk
          split at hk
          · rename_i hv
            have all : ∀ c ∈ g.cells, b1.hasBox c.box = true := by
              intro c hc
              have : c.box ∈ b0 :: bs := by rw [← hm]; exact List.mem_map.mpr ⟨c, hc, rfl⟩
              exact List.all_eq_true.mp hall _ this
            refine ⟨?_, fun c hc => ?_⟩
            · injection hk with hk; subst hk
              cases ax <;> simp only [Axis.last] <;> omega
            · have := all c hc
              simp only [Box.hasBox, Box.hasCoord, Bool.and_eq_true, decide_eq_true_eq] at this
              cases ax <;> simp only [Axis.last] <;> omega
          · cases hk
        · cases hu

theorem fit_moved (n : Int) (hn : 0 < n) (r : Lines γ) : Moved r (r.fit n true) ∧ (r.fit n true).list.length = n.toNat := by
  have ht : r.truncate n = ⟨r.heap, r.list.take n.toNat⟩ := by unfold truncate; rw [if_pos (by omega)]
  by_cases h : r.list.length ≤ n.toNat
  · have e : r.truncate n = r := by rw [ht, List.take_of_length_le h]
    show Moved r (grow n (truncate n r)) ∧ (grow n (truncate n r)).list.length = _
    rw [e]
    refine ⟨(grow_grew n r).moved, ?_⟩
    show (r.list ++ List.range' _ _).length = _
    rw [List.length_append, List.length_range', length_pyRange]; omega
  · show Moved r (grow n (truncate n r)) ∧ (grow n (truncate n r)).list.length = _
    have hl : (r.truncate n).list.length = n.toNat := by rw [ht]; simp only [List.length_take]; omega
    rw [grow_still _ _ (by rw [hl]; omega)]
    refine ⟨⟨?_, Or.inr ?_, ?_⟩, hl⟩
    · rw [ht]; exact Nat.le_refl _
    · rw [ht]; exact List.take_prefix _ _
    · rw [ht]; exact fun _ _ _ => rfl

theorem clearAll_still {r : Lines γ} (h : r.Sound) : Still r r.clearAll := by
  obtain ⟨h1, h2, h3⟩ := clear_fold (fun v : View γ => { v with owned := [], caught := [] }) r.list r h.once h.made
  refine ⟨h2, h1, fun a _ ha => ?_⟩
  rw [show r.clearAll.heap[a]? = _ from h3 a, if_neg ha]

theorem refreshAll_moved (ax : Axis) (g : Grid γ) {r : Lines γ} (h : r.Sound) : Moved r (refreshAll ax g r).2 := by
  unfold refreshAll
  rw [bind_run]; simp only [lift_run]
  cases hb : g.boundingBox with
  | error e => exact (Grew.refl r).moved
  | ok ob =>
    cases ob with
    | none => exact ⟨Nat.le_refl _, Or.inr (List.nil_prefix), fun _ _ _ => rfl⟩
    | some b =>
      simp only
      obtain ⟨hp, hc⟩ := bb_last ax g b hb
      obtain ⟨hm, hl⟩ := fit_moved (ax.last b) hp r
      rw [bind_run]; simp only [modify_run]
      rw [bind_run]; simp only [modify_run]
      have hs := clearAll_still (fit_sound h (ax.last b) true)
      refine (hm.still hs).still (forEach_still _ _ (fun c hcm r1 e => adopt_still ax c r1 ?_))
      rw [e, hs.list, hl]
      have := hc c hcm
      omega

end Lines

/-- views are added to the lists of a table, or removed from their ends -/
def MovedS (s s' : State γ) : Prop := ∀ ax r, s.lines ax = some r → ∃ r', s'.lines ax = some r' ∧ Lines.Moved r r'

/-- views are added to the lists of a table -/
def GrewS (s s' : State γ) : Prop := ∀ ax r, s.lines ax = some r → ∃ r', s'.lines ax = some r' ∧ Lines.Grew r r'

theorem GrewS.refl (s : State γ) : GrewS s s := fun _ r h => ⟨r, h, Lines.Grew.refl r⟩

theorem GrewS.trans {s s' s'' : State γ} (h : GrewS s s') (h' : GrewS s' s'') : GrewS s s'' := by
  intro ax r e
  obtain ⟨r1, e1, g1⟩ := h ax r e
  obtain ⟨r2, e2, g2⟩ := h' ax r1 e1
  exact ⟨r2, e2, g1.trans g2⟩

theorem GrewS.moved {s s' : State γ} (h : GrewS s s') : MovedS s s' := fun ax r e => by
  obtain ⟨r1, e1, g1⟩ := h ax r e
  exact ⟨r1, e1, g1.moved⟩

/-- a statement which only adds views -/
def Grows {α : Type} (m : PyM (State γ) α) : Prop := ∀ s, GrewS s (m s).2

theorem Grows.bind {α β : Type} {m : PyM (State γ) α} {f : α → PyM (State γ) β} (h : Grows m) (hf : ∀ a, Grows (f a)) : Grows (m >>= f) := by
  intro s
  rw [bind_run]
  have h1 := h s
  cases hm : m s with | mk x s1 =>
  rw [hm] at h1
  cases x with
  | error e => exact h1
  | ok a => exact h1.trans (hf a s1)

theorem Grows.lift {α : Type} (x : Except PyErr α) : Grows (PyM.lift x : PyM (State γ) α) := fun s => GrewS.refl s
theorem Grows.pure {α : Type} (x : α) : Grows (Pure.pure x : PyM (State γ) α) := fun s => GrewS.refl s
theorem Grows.get : Grows (PyM.get : PyM (State γ) _) := fun s => GrewS.refl s
theorem Grows.raise {α : Type} (e : PyErr) : Grows (PyM.raise e : PyM (State γ) α) := fun s => GrewS.refl s

theorem Grows.forEach {α : Type} {body : α → PyM (State γ) Unit} (h : ∀ a, Grows (body a)) : ∀ l : List α, Grows (PyM.forEach body l)
  | [] => Grows.pure ()
  | a :: l => Grows.bind (h a) (fun _ => Grows.forEach h l)

theorem access_ne {ax ax' : Axis} (h : ax' ≠ ax) (s : State γ) : (State.access ax s).2.lines ax' = s.lines ax' := by
  unfold State.access
  cases s.lines ax with
  | some r => rfl
  | none =>
    simp only
    cases Lines.refreshAll ax s.grid ⟨[], []⟩ with | mk x r =>
    cases x with
    | ok _ => exact lines_setLines_ne h _ _
    | error _ => rfl

theorem onLines_ne {α : Type} {ax ax' : Axis} (h : ax' ≠ ax) (m : PyM (Lines γ) α) (s : State γ) :
    (State.onLines ax m s).2.lines ax' = s.lines ax' := by
  have := access_ne h s
  unfold State.onLines
  cases ha : State.access ax s with | mk x s1 =>
  rw [ha] at this
  cases x with
  | error e => exact this
  | ok r => simp only; rw [lines_setLines_ne h]; exact this

theorem onLines_some {α : Type} {ax : Axis} (m : PyM (Lines γ) α) {s : State γ} {r : Lines γ} (h : s.lines ax = some r) :
    State.onLines ax m s = ((m r).1, s.setLines ax (m r).2) := by
  unfold State.onLines State.access
  rw [h]

theorem Grows.onLines {α : Type} (ax : Axis) {m : PyM (Lines γ) α} (h : ∀ r, Lines.Grew r (m r).2) : Grows (State.onLines ax m) := by
  intro s ax' r e
  by_cases hx : ax' = ax
  · subst hx
    rw [onLines_some m e]
    exact ⟨_, lines_setLines .., h r⟩
  · exact ⟨r, by rw [onLines_ne hx]; exact e, Lines.Grew.refl r⟩

theorem onGrid_lines {α : Type} (m : PyM (Grid γ) α) (s : State γ) (ax : Axis) : (State.onGrid m s).2.lines ax = s.lines ax := by
  unfold State.onGrid; cases ax <;> rfl

theorem Grows.onGrid {α : Type} (m : PyM (Grid γ) α) : Grows (State.onGrid m : PyM (State γ) α) :=
  fun s ax r e => ⟨r, by rw [onGrid_lines]; exact e, Lines.Grew.refl r⟩

theorem access_onLines (ax : Axis) : (State.access ax : PyM (State γ) _) = State.onLines ax (PyM.get) := by
  funext s
  unfold State.onLines
  cases ha : State.access ax s with | mk x s1 =>
  cases x with
  | error e => rfl
  | ok r =>
    simp only [get_run]
    rw [setLines_self (access_lines ha)]

theorem grows_access (ax : Axis) : Grows (State.access ax : PyM (State γ) _) := by
  rw [access_onLines]; exact Grows.onLines ax (fun r => Lines.Grew.refl r)

theorem grows_viewAt (ax : Axis) (pos : Int) : Grows (State.viewAt ax pos : PyM (State γ) _) := by
  refine Grows.onLines ax (fun r => ?_)
  rw [bind_run]
  exact Lines.grow_grew pos r

theorem grows_setItem (v : PyVal) (c : Cell γ) : Grows (State.setItem v c) :=
  Grows.bind (Grows.onGrid _) (fun _ => Grows.bind Grows.get (fun _ => Grows.bind (Grows.lift _) (fun _ =>
    Grows.bind (Grows.onLines _ (fun r => Lines.adopt_grew _ _ r)) (fun _ => Grows.onLines _ (fun r => Lines.adopt_grew _ _ r)))))

theorem grows_insertBy (ax : Axis) (a : Nat) (content : Option γ) (styles : Option Styles) (nature : Option String) (w h : Int) :
    Grows (State.insertBy ax a content styles nature w h) := by
  refine Grows.bind Grows.get (fun s => ?_)
  cases s.look ax a with
  | none => exact Grows.raise _
  | some v => exact Grows.bind (Grows.lift _) (fun _ => Grows.bind (Grows.lift _) (fun _ => grows_setItem _ _))

theorem grows_edit (ax : Axis) (a : Nat) {f : View γ → View γ} (hf : ∀ v, cellsOf (f v) = cellsOf v) : Grows (State.edit ax a f) := by
  intro s ax' r e
  unfold State.edit
  by_cases hx : ax' = ax
  · subst hx
    rw [e]
    exact ⟨_, lines_setLines .., (Lines.edit_looks r a hf).grew⟩
  · cases s.lines ax with
    | none => exact ⟨r, e, Lines.Grew.refl r⟩
    | some r0 => exact ⟨r, by simp only [lines_setLines_ne hx]; exact e, Lines.Grew.refl r⟩

theorem grows_fillOne (content : Option γ) (styles : Option Styles) (nature : Option String) (p : Coord) :
    Grows (State.fillOne content styles nature p) := by
  refine Grows.bind Grows.get (fun s => Grows.bind (Grows.lift _) (fun b => ?_))
  cases b
  · exact Grows.bind (Grows.lift _) (fun _ => grows_setItem _ _)
  · exact Grows.pure ()

/-- the operations which do not remove lines only add views -/
theorem grows_op : ∀ op : Op γ, ¬ Removes op → Grows op.run
  | .table (.grid (.set v a)), _ => Grows.bind (Grows.lift _) (fun _ => grows_setItem _ _)
  | .table (.grid (.del _)), h => absurd trivial h
  | .table (.grid (.merge _ _ _)), h => absurd trivial h
  | .table (.grid (.expand _ _ _ _)), h => absurd trivial h
  | .table (.access ax), _ => Grows.bind (grows_access ax) (fun _ => Grows.pure ())
  | .table (.view ax pos), _ => Grows.bind (grows_viewAt ax pos) (fun _ => Grows.pure ())
  | .table (.setNature ax pos _), _ => Grows.bind (grows_viewAt ax pos) (fun a => grows_edit ax a (fun _ => rfl))
  | .table (.setStyles ax pos _), _ => Grows.bind (grows_viewAt ax pos) (fun a => grows_edit ax a (fun _ => rfl))
  | .table (.insert ax pos _ _ _ _ _), _ => Grows.bind (grows_viewAt ax pos) (fun a => grows_insertBy ax a _ _ _ _ _)
  | .table (.fill _ c s n), _ => Grows.forEach (fun p => grows_fillOne c s n p) _
  | .table (.looks _ _), _ => fun s ax r e => ⟨r, by cases ax <;> exact e, Lines.Grew.refl r⟩
  | .insert ax a _ _ _ _ _, _ => grows_insertBy ax a _ _ _ _ _
  | .setNature ax a _, _ => grows_edit ax a (fun _ => rfl)
  | .setStyles ax a _, _ => grows_edit ax a (fun _ => rfl)

theorem refreshViews_moved {s : State γ} (h : Sound s) : MovedS s (State.refreshViews s).2 := by
  unfold State.refreshViews
  rw [bind_run]; simp only [get_run]
  rw [bind_run]
  intro ax r e
  have hr := h ax r e
  cases ax with
  | row =>
    rw [onLines_some _ e]
    cases hx : (Lines.refreshAll .row s.grid r).1 with
    | error er => exact ⟨_, lines_setLines .., Lines.refreshAll_moved .row s.grid hr⟩
    | ok _ =>
      refine ⟨_, ?_, Lines.refreshAll_moved .row s.grid hr⟩
      simp only
      rw [onLines_ne (by decide)]
      exact lines_setLines ..
  | col =>
    have e1 : (State.onLines .row (Lines.refreshAll .row s.grid) s).2.lines .col = some r := by rw [onLines_ne (by decide)]; exact e
    cases hx : State.onLines .row (Lines.refreshAll .row s.grid) s with | mk x s1 =>
    rw [hx] at e1
    cases x with
    | error er => exact ⟨r, e1, (Lines.Grew.refl r).moved⟩
    | ok _ =>
      simp only
      rw [onLines_some _ e1]
      exact ⟨_, lines_setLines .., Lines.refreshAll_moved .col s.grid hr⟩

theorem refreshing_moved {α : Type} {s : State γ} (h : Sound s) (m : PyM (Grid γ) α) :
    MovedS s ((do let _ ← State.onGrid m; State.refreshViews : PyM (State γ) Unit) s).2 := by
  rw [bind_run]
  have hl := onGrid_lines m s
  cases hm : State.onGrid m s with | mk x s1 =>
  rw [hm] at hl
  cases x with
  | error e => exact fun ax r e' => ⟨r, by rw [hl]; exact e', (Lines.Grew.refl r).moved⟩
  | ok a =>
    intro ax r e
    exact refreshViews_moved (fun ax' r' e' => h ax' r' (by rw [← hl]; exact e')) ax r (by rw [hl]; exact e)

/-- whatever the operation, views are added to the lists, or removed from their ends -/
theorem moved_op {s : State γ} (h : Sound s) (op : Op γ) : MovedS s (exec op.run s) := by
  by_cases hr : Removes op
  · match op, hr with
    | .table (.grid (.del _)), _ => exact refreshing_moved h _
    | .table (.grid (.merge _ _ _)), _ => exact refreshing_moved h _
    | .table (.grid (.expand _ _ _ _)), _ => exact refreshing_moved h _
  · exact (grows_op op hr s).moved

/-! ### the invariant of tables -/

theorem new_shown {cells : List (Cell γ)} {styles : Option Styles} {nature : Option String} {s : State γ}
    (h : State.new cells styles nature = .ok s) : Table.new cells styles nature = .ok (shown s) := by
  unfold State.new at h
  unfold Table.new
  cases hg : Grid.ofCells cells with
  | error e => rw [hg] at h; cases h
  | ok g => rw [hg] at h; injection h with h; subst h; rfl

theorem edit_inv {s : State γ} (hs : Sound s) (h : (shown s).Inv) (ax : Axis) (a : Nat) {f : View γ → View γ} (hf : Table.LooksOnly f) :
    (shown (exec (State.edit ax a f) s)).Inv := by
  unfold exec State.edit
  cases hl : s.lines ax with
  | none => exact h
  | some r =>
    have e : Rel (s.setLines ax (r.edit a f)) ((shown s).setViews ax (seen (r.edit a f))) :=
      rel_setLines ⟨hs, rfl⟩ ⟨Lines.edit_sound (hs ax r hl) a f, rfl⟩ ax
    show (shown (s.setLines ax (r.edit a f))).Inv
    rw [e.2]
    refine Table.inv_setViews h ax _ ?_
    have hd := h.views ax (seen r) (by rw [shown_lines, hl]; rfl)
    by_cases ha : a ∈ r.list
    · obtain ⟨i, hi, hia⟩ := List.mem_iff_getElem.mp ha
      rw [Lines.seen_edit (hs ax r hl) (i := i) (by rw [List.getElem?_eq_getElem hi, hia]) f]
      exact Table.modify_describes hd i f hf
    · have e2 : seen (r.edit a f) = seen r := by
        unfold seen
        refine List.map_congr_left (fun b hb => ?_)
        unfold Lines.look Lines.edit
        rw [Lines.getElem?_modify', if_neg (show ¬ a = b from fun x => ha (x ▸ hb))]
      rw [e2]; exact hd

theorem op_inv {s : State γ} (hs : Sound s) (h : (shown s).Inv) : ∀ op : Op γ, (shown (exec op.run s)).Inv
  | .table op => by
    have := (sim_tableOp op s (shown s) ⟨hs, rfl⟩).1.2
    show (shown (runTableOp op s).2).Inv
    rw [this]; exact Table.op_tinv h op
  | .setNature ax a _ => edit_inv hs h ax a (fun _ => ⟨rfl, rfl, rfl⟩)
  | .setStyles ax a _ => edit_inv hs h ax a (fun _ => ⟨rfl, rfl, rfl⟩)
  | .insert ax a c st n w hh => by
    show (shown (State.insertBy ax a c st n w hh s).2).Inv
    cases hv : s.look ax a with
    | none =>
      unfold State.insertBy
      rw [bind_run]; simp only [get_run]; rw [hv]; exact h
    | some v =>
      rw [(sim_insertBy c st n w hh ⟨hs, rfl⟩ hv).1.2, bind_run]
      simp only [lift_run]
      cases v.freePos ax with
      | error e => exact h
      | ok k =>
        simp only []
        rw [bind_run]
        simp only [lift_run]
        cases hc : Cell.new c st (n.or v.nature) (ax.coord v.pos k).x (ax.coord v.pos k).y w hh with
        | error e => exact h
        | ok cell => exact Table.setItem_tinv h _ _ (cell_new_valid hc).1

theorem runFrom_inv : ∀ (ops : List (Op γ)) {s : State γ}, Sound s → (shown s).Inv → (shown (runFrom s ops)).Inv
  | [], _, _, h => h
  | op :: ops, _, hs, h => runFrom_inv ops (op_sound hs op) (op_inv hs h op)

theorem reached_inv {s : State γ} (h : Reached s) : (shown s).Inv := by
  obtain ⟨cells, styles, nature, s0, ops, hv, h0, rfl⟩ := h
  exact runFrom_inv ops (new_sound h0) (Table.new_tinv hv (new_shown h0))

theorem reached_runFrom {s : State γ} (h : Reached s) (ops : List (Op γ)) : Reached (runFrom s ops) := by
  obtain ⟨cells, styles, nature, s0, ops0, hv, h0, rfl⟩ := h
  exact ⟨cells, styles, nature, s0, ops0 ++ ops, hv, h0, by unfold runFrom; rw [List.foldl_append]⟩

theorem reached_view {s : State γ} (h : Reached s) (ax : Axis) (pos : Int) : Reached (exec (State.viewAt ax pos) s) := by
  have := reached_runFrom h [.table (.view ax pos)]
  have e : runFrom s [.table (.view ax pos)] = exec (State.viewAt ax pos) s := by
    show ((do let _ ← State.viewAt ax pos; pure () : PyM (State γ) Unit) s).2 = (State.viewAt ax pos s).2
    rw [bind_run]
    cases State.viewAt ax pos s with | mk x s1 => cases x <;> rfl
  rwa [e] at this

/-! ### where a kept view is -/

theorem viewAt_isAt {ax : Axis} {pos : Nat} (hp : 1 ≤ pos) {s s1 : State γ} {a : Nat} (e : State.viewAt ax (pos : Int) s = (.ok a, s1)) :
    IsAt ax a pos s1 := by
  rw [viewAt_run] at e
  cases ha : State.access ax s with | mk x s' =>
  rw [ha] at e
  cases x with
  | error e' => simp only at e; injection e with e1 _; cases e1
  | ok r =>
    simp only at e
    injection e with e1 e2
    refine ⟨r.fit pos false, by rw [← e2, lines_setLines], ?_⟩
    unfold pyGet at e1
    rw [if_pos (by omega)] at e1
    unfold pyGetNat at e1
    rw [show ((pos : Int) - 1).toNat = pos - 1 by omega] at e1
    cases hg : (r.fit pos false).list[pos - 1]? with
    | none => rw [hg] at e1; cases e1
    | some b => rw [hg] at e1; injection e1 with e1; rw [e1]

theorem isAt_viewAt {ax : Axis} {pos : Nat} (hp : 1 ≤ pos) {s : State γ} {a : Nat} (h : IsAt ax a pos s) :
    State.viewAt ax (pos : Int) s = (.ok a, s) := by
  obtain ⟨r, hr, hg⟩ := h
  have hlt : pos - 1 < r.list.length := (List.getElem?_eq_some_iff.mp hg).1
  have hf : r.fit pos false = r := by
    show r.grow pos = r
    exact Lines.grow_still _ _ (by omega)
  rw [viewAt_run]
  unfold State.access
  rw [hr]
  simp only [hf]
  rw [setLines_self hr]
  unfold pyGet
  rw [if_pos (by omega)]
  unfold pyGetNat
  rw [show ((pos : Int) - 1).toNat = pos - 1 by omega, hg]

theorem isAt_moved {ax : Axis} {pos : Nat} {s s' : State γ} {a : Nat} (h : IsAt ax a pos s) (hm : MovedS s s') (hp : 1 ≤ pos) :
    (pos ≤ count ax s' → IsAt ax a pos s') ∧ (Sound s → count ax s' < pos → ¬ Listed ax a s') := by
  obtain ⟨r, hr, hg⟩ := h
  obtain ⟨r', hr', hm'⟩ := hm ax r hr
  have hlt : pos - 1 < r.list.length := (List.getElem?_eq_some_iff.mp hg).1
  have hc : count ax s' = r'.list.length := by unfold count; rw [hr']
  rcases hm'.list with ⟨new, e, _⟩ | hpre
  · refine ⟨fun _ => ⟨r', hr', by rw [e, List.getElem?_append_left hlt]; exact hg⟩, fun _ h2 => ?_⟩
    rw [hc, e, List.length_append] at h2; omega
  · obtain ⟨rest, e⟩ := hpre
    refine ⟨fun h1 => ⟨r', hr', ?_⟩, fun hs h2 => ?_⟩
    · rw [hc] at h1
      rw [← e, List.getElem?_append_left (by omega)] at hg; exact hg
    · rintro ⟨r2, hr2, ha⟩
      rw [hr'] at hr2; injection hr2 with hr2; subst hr2
      rw [hc] at h2
      have hn := (hs ax r hr).once
      rw [← e, List.getElem?_append_right (by omega)] at hg
      rw [← e] at hn
      exact (List.nodup_append.mp hn).2.2 a ha a (List.mem_of_getElem? hg) rfl

theorem isAt_remains {ax : Axis} {pos : Nat} (hp : 1 ≤ pos) {a : Nat} : ∀ (ops : List (Op γ)) {s : State γ}, Sound s → IsAt ax a pos s →
    Remains ax pos s ops → IsAt ax a pos (runFrom s ops)
  | [], _, _, h, _ => h
  | op :: ops, _, hs, h, hr => isAt_remains hp ops (op_sound hs op) ((isAt_moved h (moved_op hs op) hp).1 hr.1) hr.2

theorem count_grew {ax : Axis} {s s' : State γ} (h : GrewS s s') : count ax s ≤ count ax s' := by
  unfold count
  cases hl : s.lines ax with
  | none => exact Nat.zero_le _
  | some r =>
    obtain ⟨r', hr', hg⟩ := h ax r hl
    obtain ⟨new, e, _⟩ := hg.list
    rw [hr']; simp only; rw [e, List.length_append]; omega

theorem isAt_count {ax : Axis} {pos : Nat} (hp : 1 ≤ pos) {a : Nat} {s : State γ} (h : IsAt ax a pos s) : pos ≤ count ax s := by
  obtain ⟨r, hr, hg⟩ := h
  have hlt : pos - 1 < r.list.length := (List.getElem?_eq_some_iff.mp hg).1
  unfold count; rw [hr]; simp only; omega

theorem remains_of_grows {ax : Axis} {pos : Nat} : ∀ (ops : List (Op γ)) {s : State γ}, (∀ op ∈ ops, ¬ Removes op) → pos ≤ count ax s → Remains ax pos s ops
  | [], _, _, _ => trivial
  | op :: ops, s, h, hc => by
    have h1 : pos ≤ count ax (exec op.run s) := Nat.le_trans hc (count_grew (grows_op op (h op (by simp)) s))
    exact ⟨h1, remains_of_grows ops (fun o ho => h o (by simp [ho])) h1⟩

theorem dropped_step {ax : Axis} {a : Nat} {v : View γ} {s s' : State γ} (hm : MovedS s s') (hv : s.look ax a = some v) (h : ¬ Listed ax a s) :
    ¬ Listed ax a s' ∧ ∃ v', s'.look ax a = some v' ∧ cellsOf v' = cellsOf v := by
  unfold State.look at hv
  cases hl : s.lines ax with
  | none => rw [hl] at hv; cases hv
  | some r =>
    rw [hl] at hv
    have hv' : r.heap[a]? = some v := hv
    have hlt : a < r.heap.length := (List.getElem?_eq_some_iff.mp hv').1
    have hn : a ∉ r.list := fun ha => h ⟨r, hl, ha⟩
    obtain ⟨r', hr', hm'⟩ := hm ax r hl
    refine ⟨?_, ?_⟩
    · rintro ⟨r2, hr2, ha⟩
      rw [hr'] at hr2; injection hr2 with hr2; subst hr2
      rcases hm'.list with ⟨new, e, hnew⟩ | hpre
      · rw [e] at ha
        rcases List.mem_append.mp ha with ha | ha
        · exact hn ha
        · exact absurd (hnew a ha) (by omega)
      · exact hn (hpre.subset ha)
    · have := hm'.frame a hlt hn
      rw [hv'] at this
      unfold State.look
      rw [hr']
      show ∃ v', r'.heap[a]? = some v' ∧ _
      cases hg : r'.heap[a]? with
      | none => rw [hg] at this; cases this
      | some v' => rw [hg] at this; injection this with this; exact ⟨v', rfl, this⟩

theorem dropped_runFrom {ax : Axis} {a : Nat} : ∀ (ops : List (Op γ)) {s : State γ} {v : View γ}, Sound s → s.look ax a = some v → ¬ Listed ax a s →
    ¬ Listed ax a (runFrom s ops) ∧ ∃ v', (runFrom s ops).look ax a = some v' ∧ cellsOf v' = cellsOf v
  | [], _, v, _, hv, h => ⟨h, v, hv, rfl⟩
  | op :: ops, _, _, hs, hv, h => by
    obtain ⟨h1, v1, h2, h3⟩ := dropped_step (moved_op hs op) hv h
    obtain ⟨h4, v2, h5, h6⟩ := dropped_runFrom ops (op_sound hs op) h2 h1
    exact ⟨h4, v2, h5, h6.trans h3⟩

end Benker.Kept
