import Verif.Lemmas.Layout
import Verif.Lemmas.CalsParser
import Verif.Spec.Nested

/-! Two runs of the CALS parser which differ by the contents of the cells only. -/

namespace Benker
open PyM

/-- the two statements have the same result and the same effect, as far as `F` and `g` see -/
def Twin {σ τ α β : Type} (F : σ → τ) (g : α → β) (m m' : PyM σ α) : Prop :=
  ∀ s s', F s = F s' → (m s).1.map g = (m' s').1.map g ∧ F (m s).2 = F (m' s').2

section
variable {σ τ α β α' β' : Type} {F : σ → τ} {g : α → β} {g' : α' → β'}

theorem twin_of_like {m m' : PyM σ α} {k : PyM τ β} (h : Like F g m k) (h' : Like F g m' k) : Twin F g m m' := by
  intro s s' e
  have a := h s
  have b := h' s'
  rw [e, b] at a
  have := congrArg Prod.fst a
  have := congrArg Prod.snd a
  simp_all

theorem twin_pure {a b : α} (h : g a = g b) : Twin F g (pure a) (pure b) := by
  intro s s' e; exact ⟨by show Except.ok _ = Except.ok _; rw [h], e⟩
theorem twin_raise (e : PyErr) : Twin F g (raise e) (raise e) := fun _ _ h => ⟨rfl, h⟩
theorem twin_lift {e e' : Except PyErr α} (h : e.map g = e'.map g) : Twin F g (lift e) (lift e') := fun _ _ hs => ⟨h, hs⟩
theorem twin_get : Twin F F (PyM.get : PyM σ σ) PyM.get := by
  intro s s' e; exact ⟨by show Except.ok _ = Except.ok _; rw [e], e⟩

theorem twin_bind {m m' : PyM σ α} {k k' : α → PyM σ α'} (hm : Twin F g m m')
    (hk : ∀ a a', g a = g a' → Twin F g' (k a) (k' a')) : Twin F g' (m >>= k) (m' >>= k') := by
  intro s s' e
  have := hm s s' e
  rw [bind_run, bind_run]
  cases h1 : m s with
  | mk r t =>
    cases h2 : m' s' with
    | mk r' t' =>
      rw [h1, h2] at this
      cases r with
      | error e1 =>
        cases r' with
        | error e2 => simp only [Except.map, Except.error.injEq] at this; simp only; exact ⟨by rw [this.1], this.2⟩
        | ok a => simp [Except.map] at this
      | ok a =>
        cases r' with
        | error e2 => simp [Except.map] at this
        | ok a' =>
          simp only [Except.map, Except.ok.injEq] at this
          exact hk a a' this.1 t t' this.2
end

/-- what a parser knows, but the contents -/
def PState.layout (s : PState) : Int × Int × Option (Int × Option String) × Option (Table Unit) :=
  (s.colPos, s.rowPos, s.row, s.table.map Table.layout)

theorem twin_onTable {α β : Type} {g : α → β} {m m' : PyM (Table Content) α} (h : Twin Table.layout g m m') :
    Twin PState.layout g (PState.onTable m) (PState.onTable m') := by
  intro s s' e
  unfold PState.layout at e
  simp only [Prod.mk.injEq] at e
  obtain ⟨e1, e2, e3, e4⟩ := e
  unfold PState.onTable
  cases h1 : s.table with
  | none =>
    cases h2 : s'.table with
    | none =>
      refine ⟨rfl, ?_⟩
      simp only [PState.layout, Prod.mk.injEq]
      exact ⟨e1, e2, e3, e4⟩
    | some t' => rw [h1, h2] at e4; cases e4
  | some t =>
    cases h2 : s'.table with
    | none => rw [h1, h2] at e4; cases e4
    | some t' =>
      rw [h1, h2] at e4
      simp only [Option.map_some, Option.some.injEq] at e4
      have := h t t' e4
      simp only [PState.layout, Prod.mk.injEq, Option.map_some, Option.some.injEq]
      exact ⟨this.1, e1, e2, e3, this.2⟩

theorem twin_theRow : Twin PState.layout id PState.theRow PState.theRow := by
  intro s s' e
  have e' := e
  unfold PState.layout at e'
  simp only [Prod.mk.injEq] at e'
  obtain ⟨e1, e2, e3, e4⟩ := e'
  unfold PState.theRow
  rw [e3]
  cases h1 : s'.row with
  | none => exact ⟨rfl, e⟩
  | some r => exact ⟨rfl, e⟩

theorem twin_nextCol : Twin PState.layout id PState.nextCol PState.nextCol := by
  intro s s' e
  unfold PState.layout at e
  simp only [Prod.mk.injEq] at e
  simp [PState.nextCol, PState.layout, e]

theorem twin_nextRow : Twin PState.layout id PState.nextRow PState.nextRow := by
  intro s s' e
  unfold PState.layout at e
  simp only [Prod.mk.injEq] at e
  simp [PState.nextRow, PState.layout, e]

/-- nodes with the same name and attributes; `entryContent` of both are empty, or none -/
structure SameShape (n n' : Node) : Prop where
  tag : n.tag? = n'.tag?
  attrs : n.attrs = n'.attrs
  empty : (CalsP.entryContent n).isEmpty = (CalsP.entryContent n').isEmpty

theorem SameShape.attr {n n' : Node} (h : SameShape n n') (k : QName) : n.attr k = n'.attr k := by
  unfold Node.attr; rw [h.attrs]

/-- the same for the parents -/
inductive SameParent : Option Node → Option Node → Prop
  | none : SameParent none none
  | some {n n' : Node} : n.tag? = n'.tag? → n.attrs = n'.attrs → SameParent (some n) (some n')

namespace CalsP
variable {cfg : Config} {n n' : Node}

theorem mapStyle_same (ha : n.attrs = n'.attrs) (k : QName) (m : List (String × StyleVal)) (key : String) (st : Styles) :
    mapStyle n k m key st = mapStyle n' k m key st := by unfold mapStyle Node.attr; rw [ha]
theorem copyStyle_same (ha : n.attrs = n'.attrs) (k : QName) (key : String) (st : Styles) :
    copyStyle n k key st = copyStyle n' k key st := by unfold copyStyle Node.attr; rw [ha]

theorem twin_tableElem (h : SameShape n n') : Twin PState.layout id (parseTableElem cfg n) (parseTableElem cfg n') := by
  have e1 : tableStyles cfg n = tableStyles cfg n' := by
    unfold tableStyles
    simp only [mapStyle_same h.attrs, copyStyle_same h.attrs, h.attr]
  have e2 : tableNature cfg n = tableNature cfg n' := by unfold tableNature; rw [h.attr]
  unfold parseTableElem
  rw [e1, e2]
  refine twin_bind (g := id) (twin_lift rfl) (fun a a' ha => ?_)
  cases ha
  refine twin_bind (g := id) (twin_lift rfl) (fun a a' ha => ?_)
  cases ha
  intro s s' e
  unfold PState.layout at e
  simp only [Prod.mk.injEq] at e
  simp [PState.layout, e]

theorem twin_tgroup (h : SameShape n n') : Twin PState.layout id (parseTgroup cfg n) (parseTgroup cfg n') := by
  unfold parseTgroup
  apply twin_onTable
  simp only [mapStyle_same h.attrs, h.attr]
  intro t t' e
  have a := congrArg Table.styles e
  have b := congrArg Table.nature e
  have c := congrArg Table.grid e
  have d := congrArg Table.rows e
  have f := congrArg Table.cols e
  simp only [Table.layout, Table.mapContent] at a b c d f
  refine ⟨rfl, ?_⟩
  simp only [modify_run, Table.layout, Table.mapContent, a, b, c, d, f]

theorem sameParent_localname {p p' : Node} (h : p.tag? = p'.tag?) : localname p = localname p' := by unfold localname; rw [h]

theorem twin_row {p p' : Option Node} (hp : SameParent p p') (h : SameShape n n') :
    Twin PState.layout id (parseRow cfg p n) (parseRow cfg p' n') := by
  have e1 : rowLooks cfg p n = rowLooks cfg p' n' := by
    unfold rowLooks
    cases hp with
    | none => simp only [mapStyle_same h.attrs, copyStyle_same h.attrs]
    | some ht ha =>
      simp only [mapStyle_same h.attrs, copyStyle_same h.attrs, mapStyle_same ha, sameParent_localname ht]
  unfold parseRow
  rw [e1]
  refine twin_bind (g := id) (twin_lift rfl) (fun a a' ha => ?_)
  cases ha
  refine twin_bind twin_get (fun s s' hs => ?_)
  have hr : s.rowPos = s'.rowPos := congrArg (fun x => x.2.1) hs
  rw [hr]
  refine twin_bind (g := id) (twin_onTable (twin_of_like
    (k := Table.editView .row s'.rowPos (fun v => { v with nature := a.2, styles := a.1 })) ?_ ?_)) (fun _ _ _ => ?_)
  · exact editView_map _ _ _ (fun v => rfl)
  · exact editView_map _ _ _ (fun v => rfl)
  · intro s s' e
    unfold PState.layout at e
    simp only [Prod.mk.injEq] at e
    simp [PState.layout, e]

theorem twin_entry (h : SameShape n n') : Twin PState.layout id (parseEntry cfg n) (parseEntry cfg n') := by
  have e1 : entryStyles cfg n = entryStyles cfg n' := by
    unfold entryStyles
    simp only [mapStyle_same h.attrs, copyStyle_same h.attrs, h.empty]
  have e2 : ∀ c, entrySpan cfg c n = entrySpan cfg c n' := by
    intro c; unfold entrySpan; simp only [h.attr]
  unfold parseEntry
  refine twin_bind twin_get (fun s s' hs => ?_)
  have hr : s.colPos = s'.colPos := congrArg (fun x => x.1) hs
  rw [hr, e2, e1]
  refine twin_bind (g := id) (twin_lift rfl) (fun a a' ha => ?_)
  cases ha
  refine twin_bind (g := id) twin_theRow (fun a a' ha => ?_)
  cases ha
  apply twin_onTable
  exact twin_of_like (insertCell_map (fun _ : Content => ()) _ _ _ _ _ _ _) (insertCell_map (fun _ : Content => ()) _ _ _ _ _ _ _)

theorem twin_colspec {p p' : Option Node} (hp : SameParent p p') (h : SameShape n n') :
    Twin PState.layout id (parseColspec cfg p n) (parseColspec cfg p' n') := by
  have e1 : colspecStyles cfg n = colspecStyles cfg n' := by
    unfold colspecStyles
    simp only [mapStyle_same h.attrs, copyStyle_same h.attrs]
  have e2 : ∀ c, colspecNum cfg c n = colspecNum cfg c n' := by
    intro c; unfold colspecNum; simp only [h.attr]
  have e3 : colspecParent p = colspecParent p' := by
    cases hp with
    | none => rfl
    | some ht ha => unfold colspecParent; simp only [sameParent_localname ht]
  unfold parseColspec
  rw [e3, e1]
  refine twin_bind (g := id) (twin_lift rfl) (fun _ _ _ => ?_)
  refine twin_bind twin_get (fun s s' hs => ?_)
  have hr : s.colPos = s'.colPos := congrArg (fun x => x.1) hs
  rw [hr, e2]
  refine twin_bind (g := id) (twin_lift rfl) (fun a a' ha => ?_)
  cases ha
  refine twin_onTable (twin_of_like (k := Table.editView .col a (fun v => { v with styles := Dict.update v.styles (colspecStyles cfg n') })) ?_ ?_)
  · exact editView_map _ _ _ (fun v => rfl)
  · exact editView_map _ _ _ (fun v => rfl)

theorem twin_onStart {p p' : Option Node} (hp : SameParent p p') (h : SameShape n n') :
    Twin PState.layout id (onStart cfg p n) (onStart cfg p' n') := by
  unfold onStart
  rw [h.tag]
  cases n'.tag? with
  | none => exact twin_raise _
  | some t =>
    simp only
    split
    · exact twin_bind twin_nextCol (fun _ _ _ => twin_entry h)
    split
    · exact twin_bind twin_nextRow (fun _ _ _ => twin_row hp h)
    split
    · exact twin_pure rfl
    split
    · exact twin_bind twin_nextCol (fun _ _ _ => twin_colspec hp h)
    split
    · exact twin_tgroup h
    split
    · exact twin_tableElem h
    · exact twin_raise _

theorem twin_endRow : Twin PState.layout id endRow endRow := by
  unfold endRow
  refine twin_bind (twin_onTable (twin_of_like (views_map (fun _ : Content => ()) .col) (views_map _ .col))) (fun vs vs' hv => ?_)
  have hl : vs.length = vs'.length := by simpa using congrArg List.length hv
  rw [hl]
  refine twin_bind twin_get (fun s s' hs => ?_)
  have hr : s.rowPos = s'.rowPos := congrArg (fun x => x.2.1) hs
  rw [hr]
  refine twin_bind (g := id) (twin_lift rfl) (fun a a' ha => ?_)
  cases ha
  refine twin_bind (g := id) twin_theRow (fun r r' ha => ?_)
  cases ha
  apply twin_onTable
  exact twin_of_like (fillMissing_map (fun _ : Content => ()) _ _ _ _) (fillMissing_map (fun _ : Content => ()) _ _ _ _)

theorem twin_fillHoles : Twin Table.layout id fillHoles fillHoles := by
  unfold fillHoles
  refine twin_bind twin_get (fun t t' ht => ?_)
  have e : t.boundingBox = t'.boundingBox := by
    have h1 := grid_bb_map (fun _ : Content => ()) t.grid
    have h2 := grid_bb_map (fun _ : Content => ()) t'.grid
    have h3 : t.grid.mapContent (fun _ => ()) = t'.grid.mapContent (fun _ => ()) := congrArg Table.grid ht
    unfold Table.boundingBox
    rw [← h1, ← h2, h3]
  rw [e]
  refine twin_bind (g := id) (twin_lift rfl) (fun a a' ha => ?_)
  cases ha
  cases a with
  | none => exact twin_raise _
  | some b =>
    exact twin_of_like (fillMissing_map (fun _ : Content => ()) _ _ _ _) (fillMissing_map (fun _ : Content => ()) _ _ _ _)

theorem twin_onEnd (h : n.tag? = n'.tag?) : Twin PState.layout id (onEnd cfg n) (onEnd cfg n') := by
  unfold onEnd
  rw [h]
  split
  · exact twin_endRow
  split
  · exact twin_onTable twin_fillHoles
  · exact twin_pure rfl

end CalsP
end Benker

namespace Benker.CalsP
open PyM
variable {cfg : Config}

mutual
/-- inside an inner table nothing is done -/
theorem loop_skip (sel : QName → Bool) (p : Option Node) (d : Int) (hd : 2 ≤ d) : ∀ n : Node, loop cfg d (walk sel p n) = pure ()
  | .elem t a x cs tl => by
    unfold walk
    by_cases hs : sel t = true
    · simp only [hs, if_true, List.cons_append, List.nil_append]
      rw [loop_cons, loop_append, depth_walkList]
      have h1 : newDepth cfg d ⟨true, .elem t a x cs tl, p⟩ ≥ d := by
        unfold newDepth; simp only [if_true]; split <;> omega
      have h2 : newDepth cfg (newDepth cfg d ⟨true, .elem t a x cs tl, p⟩) ⟨false, .elem t a x cs tl, p⟩ = d := by
        unfold newDepth
        simp only [if_true, Bool.false_eq_true, if_false]
        split <;> omega
      rw [if_pos (by omega), loop_skipList sel _ _ (by omega) cs]
      rw [loop_cons, h2, if_pos (by omega)]
      rfl
    · simp only [hs, Bool.false_eq_true, if_false, List.nil_append, List.append_nil]
      exact loop_skipList sel _ d hd cs
  | .pi .. => rfl
  | .comment .. => rfl
theorem loop_skipList (sel : QName → Bool) (p : Option Node) (d : Int) (hd : 2 ≤ d) : ∀ ns : List Node, loop cfg d (walkList sel p ns) = pure ()
  | [] => rfl
  | n :: ns => by
    rw [walkList, loop_append, depth_walk, loop_skip sel p d hd n, loop_skipList sel p d hd ns]
    rfl
end

theorem emptyTablesIn_length (tbl : QName) (ns : List Node) : (emptyTablesIn tbl ns).length = ns.length := by
  induction ns with
  | nil => rfl
  | cons n ns ih => rw [emptyTablesIn, List.length_cons, List.length_cons, ih]

theorem sameShape_empty (t : QName) (a : Dict QName String) (x : Option String) (cs : List Node) (tl : Option String) (tbl : QName) :
    SameShape (.elem t a x cs tl) (.elem t a x (emptyTablesIn tbl cs) tl) := by
  refine ⟨rfl, rfl, ?_⟩
  unfold entryContent
  simp only [Node.text, Node.children]
  rw [Bool.eq_iff_iff, List.isEmpty_iff_length_eq_zero, List.isEmpty_iff_length_eq_zero]
  simp only [List.length_append, List.length_map, emptyTablesIn_length]

theorem twin_onEnd_event {n n' : Node} (p p' : Option Node) (h : n.tag? = n'.tag?) (hd : newDepth cfg 1 ⟨false, n, p⟩ ≤ 1)
    (hd' : newDepth cfg 1 ⟨false, n', p'⟩ ≤ 1) :
    Twin PState.layout id (loop cfg 1 [⟨false, n, p⟩]) (loop cfg 1 [⟨false, n', p'⟩]) := by
  rw [loop_cons, loop_cons, if_neg (by omega), if_neg (by omega)]
  exact twin_bind (twin_onEnd h) (fun _ _ _ => twin_pure rfl)

mutual
theorem twin_walk {p p' : Option Node} (hp : SameParent p p') : ∀ n : Node,
    Twin PState.layout id (loop cfg 1 (walk (selected cfg) p n)) (loop cfg 1 (walk (selected cfg) p' (emptyTables (cfg.q "table") n)))
  | .elem t a x cs tl => by
    by_cases ht : t = cfg.q "table"
    · have hs : selected cfg t = true := by rw [ht]; exact selected_q _ (by simp)
      have key : ∀ (x : Option String) (cs : List Node) (p : Option Node),
          loop cfg 1 (walk (selected cfg) p (.elem t a x cs tl)) =
            (onEvent cfg ⟨false, .elem t a x cs tl, p⟩ >>= fun _ => pure ()) := by
        intro x cs p
        unfold walk
        simp only [hs, if_true, List.cons_append, List.nil_append]
        have h1 : newDepth cfg 1 ⟨true, .elem t a x cs tl, p⟩ = 2 := by simp [newDepth, Node.tag?, ht]
        have h2 : newDepth cfg 2 ⟨false, .elem t a x cs tl, p⟩ = 1 := by simp [newDepth, Node.tag?, ht]
        rw [loop_cons, h1, if_pos (by omega), loop_append, depth_walkList, loop_skipList _ _ _ (by omega), loop_cons, h2, if_neg (by omega)]
        rfl
      rw [emptyTables, if_pos ht, key, key]
      exact twin_bind (twin_onEnd rfl) (fun _ _ _ => twin_pure rfl)
    · rw [emptyTables, if_neg ht]
      have ih := fun (q q' : Option Node) (hq : SameParent q q') => twin_walkList hq cs
      have hd : ∀ b x cs q, newDepth cfg 1 ⟨b, .elem t a x cs tl, q⟩ = 1 := by
        intro b x cs q; simp [newDepth, Node.tag?, ht]
      unfold walk
      by_cases hs : selected cfg t = true
      · simp only [hs, if_true, List.cons_append, List.nil_append]
        rw [loop_cons, loop_cons, hd, hd, if_neg (by omega), if_neg (by omega), loop_append, loop_append, depth_walkList, depth_walkList]
        refine twin_bind (twin_onStart hp (sameShape_empty t a x cs tl _)) (fun _ _ _ => ?_)
        refine twin_bind (ih _ _ (.some rfl rfl)) (fun _ _ _ => ?_)
        refine twin_onEnd_event p p' rfl ?_ ?_ <;> rw [hd] <;> omega
      · simp only [hs, Bool.false_eq_true, if_false, List.nil_append, List.append_nil]
        exact ih _ _ (.some rfl rfl)
  | .pi .. => by rw [emptyTables]; exact twin_pure rfl
  | .comment .. => by rw [emptyTables]; exact twin_pure rfl
theorem twin_walkList {p p' : Option Node} (hp : SameParent p p') : ∀ ns : List Node,
    Twin PState.layout id (loop cfg 1 (walkList (selected cfg) p ns)) (loop cfg 1 (walkList (selected cfg) p' (emptyTablesIn (cfg.q "table") ns)))
  | [] => by rw [emptyTablesIn]; exact twin_pure rfl
  | n :: ns => by
    have h1 := twin_walk hp n
    have h2 := twin_walkList hp ns
    rw [emptyTablesIn, walkList, walkList, loop_append, loop_append, depth_walk, depth_walk]
    exact twin_bind h1 (fun _ _ _ => h2)
end

end Benker.CalsP
