import Verif.Lemmas.Twin
import Verif.Lemmas.FormexRoundTrip

/-! Two runs of the Formex parser which differ by the contents of the cells only. -/

namespace Benker.FmxP
open PyM CalsP
variable {cfg : Config} {n n' : Node}

/-- nodes with the same name and attributes -/
structure Alike (n n' : Node) : Prop where
  tag : n.tag? = n'.tag?
  attrs : n.attrs = n'.attrs

theorem Alike.attr (h : Alike n n') (k : QName) : n.attr k = n'.attr k := by unfold Node.attr; rw [h.attrs]

theorem Alike.refl (n : Node) : Alike n n := ⟨rfl, rfl⟩

/-- parents with the same name, attributes and numbers of notes, whose notes are alike -/
inductive AlikeParent (cfg : Config) : Option Node → Option Node → Prop
  | none : AlikeParent cfg none none
  | some {n n' : Node} : Alike n n' → All₂ Alike (notesOf cfg (some n)) (notesOf cfg (some n')) → AlikeParent cfg (some n) (some n')

theorem AlikeParent.refl (p : Option Node) : AlikeParent cfg p p := by
  cases p with
  | none => exact .none
  | some n =>
    refine .some (.refl n) ?_
    generalize notesOf cfg (Option.some n) = l
    induction l with
    | nil => exact .nil
    | cons a l ih => exact .cons (.refl a) ih

theorem AlikeParent.notes {p p' : Option Node} (h : AlikeParent cfg p p') : All₂ Alike (notesOf cfg p) (notesOf cfg p') := by
  cases h with
  | none => exact .nil
  | some _ h => exact h

theorem twin_setRow (x : Option (Int × Option String)) :
    Twin PState.layout id (PyM.modify fun s : PState => { s with row := x }) (PyM.modify fun s : PState => { s with row := x }) := by
  intro s s' e
  unfold PState.layout at e
  simp only [Prod.mk.injEq] at e
  simp [PState.layout, e]

theorem twin_startRow (nature : String) (styles : Option Styles) : Twin PState.layout id (startRow nature styles) (startRow nature styles) := by
  unfold startRow
  refine twin_bind twin_get (fun s s' hs => ?_)
  have hr : s.rowPos = s'.rowPos := congrArg (fun x => x.2.1) hs
  rw [hr]
  refine twin_bind (g := id) (twin_onTable (twin_of_like
    (k := Table.editView .row s'.rowPos (fun v => { v with nature := some nature, styles := styles.getD v.styles })) ?_ ?_)) (fun _ _ _ => ?_)
  · exact editView_map _ _ _ (fun v => rfl)
  · exact editView_map _ _ _ (fun v => rfl)
  · intro s s' e
    unfold PState.layout at e
    simp only [Prod.mk.injEq] at e
    simp [PState.layout, e]

theorem twin_insertInRow (a b : Content) (styles : Option Styles) (nature : Option String) (w h : Int) :
    Twin PState.layout id (insertInRow (some a) styles nature w h) (insertInRow (some b) styles nature w h) := by
  unfold insertInRow
  refine twin_bind (g := id) twin_theRow (fun r r' ha => ?_)
  cases ha
  apply twin_onTable
  exact twin_of_like (insertCell_map (fun _ : Content => ()) _ _ _ _ _ _ _) (insertCell_map (fun _ : Content => ()) _ _ _ _ _ _ _)

theorem twin_insertNone (styles : Option Styles) (nature : Option String) (w h : Int) :
    Twin PState.layout id (insertInRow none styles nature w h) (insertInRow none styles nature w h) := by
  unfold insertInRow
  refine twin_bind (g := id) twin_theRow (fun r r' ha => ?_)
  cases ha
  apply twin_onTable
  exact twin_of_like (insertCell_map (fun _ : Content => ()) _ _ _ _ _ _ _) (insertCell_map (fun _ : Content => ()) _ _ _ _ _ _ _)

theorem twin_forEach {σ τ α β : Type} {F : σ → τ} {R : α → β → Prop} {f : α → PyM σ Unit} {g : β → PyM σ Unit} {l : List α} {l' : List β}
    (h : All₂ R l l') (hf : ∀ a b, R a b → Twin F id (f a) (g b)) : Twin F id (forEach f l) (forEach g l') := by
  induction h with
  | nil => exact twin_pure rfl
  | cons hab _ ih => exact twin_bind (hf _ _ hab) (fun _ _ _ => ih)

theorem all₂_refl {α : Type} (l : List α) : All₂ Eq l l := by
  induction l with
  | nil => exact .nil
  | cons a l ih => exact .cons rfl ih

theorem calsRowStyles_alike (h : Alike n n') : calsRowStyles cfg n = calsRowStyles cfg n' := by
  unfold calsRowStyles
  simp only [mapStyle_same h.attrs, copyStyle_same h.attrs]

theorem twin_titleRow (styles : Styles) (h : Alike n n') : Twin PState.layout id (titleRow cfg styles n) (titleRow cfg styles n') := by
  unfold titleRow
  rw [h.attr, h.attr]
  refine twin_bind (g := id) (twin_startRow _ _) (fun _ _ _ => ?_)
  refine twin_bind (g := id) (twin_lift rfl) (fun a a' ha => ?_)
  cases ha
  refine twin_bind (g := id) (twin_lift rfl) (fun b b' hb => ?_)
  cases hb
  exact twin_bind (g := id) (twin_forEach (all₂_refl _) (fun _ _ _ => twin_insertNone _ _ _ _)) (fun _ _ _ => twin_insertInRow _ _ _ _ _ _)

theorem twin_title (tag : String) (blk : Nat) (h : Alike n n') : Twin PState.layout id (parseTitle cfg tag blk n) (parseTitle cfg tag blk n') := by
  unfold parseTitle titleStyles
  rw [calsRowStyles_alike h]
  exact twin_titleRow _ h

theorem layout_boundingBox {t t' : Table Content} (h : t.layout = t'.layout) : t.boundingBox = t'.boundingBox := by
  have h1 := grid_bb_map (fun _ : Content => ()) t.grid
  have h2 := grid_bb_map (fun _ : Content => ()) t'.grid
  have h3 : t.grid.mapContent (fun _ => ()) = t'.grid.mapContent (fun _ => ()) := congrArg Table.grid h
  unfold Table.boundingBox
  rw [← h1, ← h2, h3]

theorem twin_notes (h : Alike n n') : Twin PState.layout id (parseNotes cfg n) (parseNotes cfg n') := by
  unfold parseNotes
  rw [calsRowStyles_alike h]
  refine twin_bind (g := id) (twin_startRow _ _) (fun _ _ _ => ?_)
  refine twin_bind twin_get (fun s s' hs => ?_)
  have ht : s.table.map Table.layout = s'.table.map Table.layout := congrArg (fun x => x.2.2.2) hs
  cases h1 : s.table with
  | none =>
    cases h2 : s'.table with
    | none => exact twin_raise _
    | some t' => rw [h1, h2] at ht; cases ht
  | some t =>
    cases h2 : s'.table with
    | none => rw [h1, h2] at ht; cases ht
    | some t' =>
      rw [h1, h2] at ht
      simp only [Option.map_some, Option.some.injEq] at ht
      simp only [layout_boundingBox ht]
      refine twin_bind (g := id) (twin_lift rfl) (fun b b' hb => ?_)
      cases hb
      cases b with
      | none => exact twin_raise _
      | some b => exact twin_insertInRow _ _ _ _ _ _

theorem twin_endCorpus {p p' : Option Node} (h : AlikeParent cfg p p') : Twin PState.layout id (endCorpus cfg p) (endCorpus cfg p') := by
  unfold endCorpus
  exact twin_bind (g := id) (twin_forEach h.notes (fun _ _ h => twin_bind (g := id) twin_nextRow (fun _ _ _ => twin_notes h)))
    (fun _ _ _ => twin_onTable twin_fillHoles)

theorem twin_row (blk : Nat) (h : Alike n n') : Twin PState.layout id (parseRow cfg blk n) (parseRow cfg blk n') := by
  unfold parseRow rowStyles
  rw [h.attr, calsRowStyles_alike h]
  exact twin_startRow _ _

theorem twin_cell {p p' : Option Node} (hp : AlikeParent cfg p p') (h : Alike n n') :
    Twin PState.layout id (parseCell cfg p n) (parseCell cfg p' n') := by
  have e1 : cellSpan cfg n = cellSpan cfg n' := by unfold cellSpan; simp only [h.attr]
  have e2 : cellStyles cfg p n = cellStyles cfg p' n' := by
    unfold cellStyles
    cases hp with
    | none => simp only [mapStyle_same h.attrs, copyStyle_same h.attrs, h.attr]
    | some hp _ => simp only [mapStyle_same h.attrs, copyStyle_same h.attrs, h.attr, hp.attr]
  unfold parseCell
  rw [e1, e2, h.attr]
  refine twin_bind (g := id) (twin_lift rfl) (fun a a' ha => ?_)
  cases ha
  refine twin_bind (g := id) twin_theRow (fun r r' ha => ?_)
  cases ha
  exact twin_insertInRow _ _ _ _ _ _

theorem twin_colspec (h : Alike n n') : Twin PState.layout id (parseColspec cfg n) (parseColspec cfg n') := by
  have e1 : colspecStyles cfg n = colspecStyles cfg n' := by
    unfold colspecStyles
    simp only [mapStyle_same h.attrs, copyStyle_same h.attrs]
  have e2 : ∀ c, colspecNum cfg c n = colspecNum cfg c n' := by
    intro c; unfold colspecNum; simp only [h.attr]
  unfold parseColspec
  rw [e1]
  refine twin_bind twin_get (fun s s' hs => ?_)
  have hr : s.colPos = s'.colPos := congrArg (fun x => x.1) hs
  rw [hr, e2]
  refine twin_bind (g := id) (twin_lift rfl) (fun a a' ha => ?_)
  cases ha
  refine twin_onTable (twin_of_like (k := Table.editView .col a (fun v => { v with styles := Dict.update v.styles (colspecStyles cfg n') })) ?_ ?_)
  · exact editView_map _ _ _ (fun v => rfl)
  · exact editView_map _ _ _ (fun v => rfl)

theorem twin_corpus {p p' : Option Node} (hp : AlikeParent cfg p p') (h : Alike n n') :
    Twin PState.layout id (parseCorpus cfg p n) (parseCorpus cfg p' n') := by
  have e0 : tblStyles cfg p = tblStyles cfg p' := by
    cases hp with
    | none => rfl
    | some hp _ => simp only [tblStyles, mapStyle_same hp.attrs, hp.attr]
  have e1 : corpusStyles cfg p n = corpusStyles cfg p' n' := by
    unfold corpusStyles
    simp only [mapStyle_same h.attrs, copyStyle_same h.attrs, h.attr, e0]
  have e2 : corpusNature cfg p n = corpusNature cfg p' n' := by
    unfold corpusNature
    rw [h.attr, e0]
  unfold parseCorpus
  rw [e1, e2]
  refine twin_bind (g := id) (twin_lift rfl) (fun a a' ha => ?_)
  cases ha
  refine twin_bind (g := id) (twin_lift rfl) (fun a a' ha => ?_)
  cases ha
  intro s s' e
  unfold PState.layout at e
  simp only [Prod.mk.injEq] at e
  simp [PState.layout, e]

theorem twin_onStart {p p' : Option Node} (blk : Nat) (hp : AlikeParent cfg p p') (h : Alike n n') :
    Twin PState.layout id (onStart cfg blk p n) (onStart cfg blk p' n') := by
  unfold onStart
  rw [h.tag]
  cases n'.tag? with
  | none => exact twin_raise _
  | some t =>
    simp only
    split
    · exact twin_bind twin_nextCol (fun _ _ _ => twin_cell hp h)
    split
    · exact twin_bind twin_nextRow (fun _ _ _ => twin_row _ h)
    split
    · exact twin_pure rfl
    split
    · exact twin_bind twin_nextRow (fun _ _ _ => twin_title _ _ h)
    split
    · exact twin_bind twin_nextRow (fun _ _ _ => twin_title _ _ h)
    split
    · exact twin_bind twin_nextCol (fun _ _ _ => twin_colspec h)
    split
    · exact twin_corpus hp h
    · exact twin_raise _

theorem twin_onEnd {p p' : Option Node} (hp : AlikeParent cfg p p') (h : n.tag? = n'.tag?) :
    Twin PState.layout id (onEnd cfg p n) (onEnd cfg p' n') := by
  unfold onEnd
  rw [h]
  split
  · exact twin_endRow
  split
  · exact twin_endCorpus hp
  · exact twin_pure rfl

mutual
/-- inside an inner table nothing is done -/
theorem loop_skip (sel : QName → Bool) (p : Option Node) (d : Int) (b : Nat) (hd : 2 ≤ d) : ∀ n : Node, loop cfg d b (walk sel p n) = pure ()
  | .elem t a x cs tl => by
    unfold walk
    by_cases hs : sel t = true
    · simp only [hs, if_true, List.cons_append, List.nil_append]
      rw [loop_cons, loop_append, (after_walkList _ _ _ 0 _).1, (after_walkList _ _ 0 _ _).2]
      have h1 : newDepth cfg d ⟨true, .elem t a x cs tl, p⟩ ≥ d := by
        unfold newDepth; simp only [if_true]; split <;> omega
      have h2 : newDepth cfg (newDepth cfg d ⟨true, .elem t a x cs tl, p⟩) ⟨false, .elem t a x cs tl, p⟩ = d := by
        unfold newDepth
        simp only [if_true, Bool.false_eq_true, if_false]
        split <;> omega
      rw [if_pos (by omega), loop_skipList sel _ _ _ (by omega) cs]
      rw [loop_cons, h2, if_pos (by omega)]
      rfl
    · simp only [hs, Bool.false_eq_true, if_false, List.nil_append, List.append_nil]
      exact loop_skipList sel _ d b hd cs
  | .pi .. => rfl
  | .comment .. => rfl
theorem loop_skipList (sel : QName → Bool) (p : Option Node) (d : Int) (b : Nat) (hd : 2 ≤ d) :
    ∀ ns : List Node, loop cfg d b (walkList sel p ns) = pure ()
  | [] => rfl
  | n :: ns => by
    rw [walkList, loop_append, (after_walk _ _ _ 0 _).1, (after_walk _ _ 0 _ _).2, loop_skip sel p d b hd n, loop_skipList sel p d b hd ns]
    rfl
end

theorem alike_empty (tbl : QName) (n : Node) : Alike n (emptyTables tbl n) := by
  cases n with
  | elem t a x cs tl => unfold emptyTables; split <;> exact ⟨rfl, rfl⟩
  | pi => exact ⟨rfl, rfl⟩
  | comment => exact ⟨rfl, rfl⟩

theorem notes_empty (tbl : QName) : ∀ cs : List Node,
    All₂ Alike ((cs.takeWhile (fun c => c.tag? ≠ some (cfg.f "CORPUS"))).filter (fun c => c.tag? = some (cfg.f "GR.NOTES")))
      (((emptyTablesIn tbl cs).takeWhile (fun c => c.tag? ≠ some (cfg.f "CORPUS"))).filter (fun c => c.tag? = some (cfg.f "GR.NOTES"))) := by
  intro cs
  induction cs with
  | nil => exact .nil
  | cons n cs ih =>
    have h := alike_empty tbl n
    rw [emptyTablesIn, List.takeWhile_cons, List.takeWhile_cons, ← h.tag]
    split
    · rw [List.filter_cons, List.filter_cons, ← h.tag]
      split
      · exact .cons h ih
      · exact ih
    · exact .nil

theorem alikeParent_empty (tbl : QName) (t : QName) (a : Dict QName String) (x : Option String) (cs : List Node) (tl : Option String) :
    AlikeParent cfg (some (.elem t a x cs tl)) (some (.elem t a x (emptyTablesIn tbl cs) tl)) :=
  .some ⟨rfl, rfl⟩ (notes_empty tbl cs)

theorem twin_onEnd_event {n n' : Node} (b : Nat) {p p' : Option Node} (hp : AlikeParent cfg p p') (h : n.tag? = n'.tag?)
    (hd : newDepth cfg 1 ⟨false, n, p⟩ ≤ 1) (hd' : newDepth cfg 1 ⟨false, n', p'⟩ ≤ 1) :
    Twin PState.layout id (loop cfg 1 b [⟨false, n, p⟩]) (loop cfg 1 b [⟨false, n', p'⟩]) := by
  rw [loop_cons, loop_cons, if_neg (by omega), if_neg (by omega)]
  exact twin_bind (twin_onEnd hp h) (fun _ _ _ => twin_pure rfl)

mutual
theorem twin_walk {p p' : Option Node} (b : Nat) (hp : AlikeParent cfg p p') : ∀ n : Node,
    Twin PState.layout id (loop cfg 1 b (walk (selected cfg) p n)) (loop cfg 1 b (walk (selected cfg) p' (emptyTables (cfg.f "CORPUS") n)))
  | .elem t a x cs tl => by
    by_cases ht : t = cfg.f "CORPUS"
    · have hs : selected cfg t = true := by rw [ht]; exact selected_f _ (by simp)
      have key : ∀ (x : Option String) (cs : List Node) (p : Option Node),
          loop cfg 1 b (walk (selected cfg) p (.elem t a x cs tl)) =
            (onEvent cfg b ⟨false, .elem t a x cs tl, p⟩ >>= fun _ => pure ()) := by
        intro x cs p
        unfold walk
        simp only [hs, if_true, List.cons_append, List.nil_append]
        have h1 : newDepth cfg 1 ⟨true, .elem t a x cs tl, p⟩ = 2 := by simp [newDepth, Node.tag?, ht]
        have h2 : newDepth cfg 2 ⟨false, .elem t a x cs tl, p⟩ = 1 := by simp [newDepth, Node.tag?, ht]
        have h3 : ∀ y, newBlk cfg b ⟨y, .elem t a x cs tl, p⟩ = b := by
          intro y
          have : cfg.f "CORPUS" ≠ cfg.f "BLK" := by simp [Config.f]
          simp only [newBlk, Node.tag?, ht, Option.some.injEq, if_neg this]
        rw [loop_cons, h1, h3, if_pos (by omega), loop_append, (after_walkList _ _ _ 0 _).1, (after_walkList _ _ 0 _ _).2,
          loop_skipList _ _ _ _ (by omega), loop_cons, h2, if_neg (by omega)]
        rfl
      rw [emptyTables, if_pos ht, key, key]
      exact twin_bind (twin_onEnd hp rfl) (fun _ _ _ => twin_pure rfl)
    · rw [emptyTables, if_neg ht]
      have ih := fun (b : Nat) => twin_walkList b (alikeParent_empty (cfg := cfg) (cfg.f "CORPUS") t a x cs tl) cs
      have hd : ∀ y x cs q, newDepth cfg 1 ⟨y, .elem t a x cs tl, q⟩ = 1 := by
        intro y x cs q; simp [newDepth, Node.tag?, ht]
      have hb : ∀ y q cs', newBlk cfg b ⟨y, .elem t a x cs' tl, q⟩ = newBlk cfg b ⟨y, .elem t a x cs tl, p⟩ := by
        intro y q cs'; rfl
      unfold walk
      by_cases hs : selected cfg t = true
      · simp only [hs, if_true, List.cons_append, List.nil_append]
        rw [loop_cons, loop_cons, hd, hd, if_neg (by omega), if_neg (by omega), loop_append, loop_append,
          (after_walkList _ _ _ 0 _).1, (after_walkList _ _ _ 0 _).1, (after_walkList _ _ 0 _ _).2, (after_walkList _ _ 0 _ _).2]
        refine twin_bind (g := id) (twin_onStart b hp (n := .elem t a x cs tl) (n' := .elem t a x (emptyTablesIn (cfg.f "CORPUS") cs) tl) ⟨rfl, rfl⟩) (fun _ _ _ => ?_)
        refine twin_bind (ih _) (fun _ _ _ => ?_)
        refine twin_onEnd_event _ hp rfl ?_ ?_ <;> rw [hd]
      · simp only [hs, Bool.false_eq_true, if_false, List.nil_append, List.append_nil]
        exact ih _
  | .pi .. => by rw [emptyTables]; exact twin_pure rfl
  | .comment .. => by rw [emptyTables]; exact twin_pure rfl
theorem twin_walkList {p p' : Option Node} (b : Nat) (hp : AlikeParent cfg p p') : ∀ ns : List Node,
    Twin PState.layout id (loop cfg 1 b (walkList (selected cfg) p ns)) (loop cfg 1 b (walkList (selected cfg) p' (emptyTablesIn (cfg.f "CORPUS") ns)))
  | [] => by rw [emptyTablesIn]; exact twin_pure rfl
  | n :: ns => by
    have h1 := twin_walk b hp n
    have h2 := twin_walkList b hp ns
    rw [emptyTablesIn, walkList, walkList, loop_append, loop_append, (after_walk _ _ _ 0 _).1, (after_walk _ _ _ 0 _).1,
      (after_walk _ _ 0 _ _).2, (after_walk _ _ 0 _ _).2]
    exact twin_bind h1 (fun _ _ _ => h2)
end

end Benker.FmxP
