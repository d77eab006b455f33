import Verif.Lemmas.Order
import Verif.Model.FormexParser
import Verif.Model.Ooxml

/-! The three parsers make tidy tables. -/

namespace Benker
open PyM

/-- when the statement succeeds from a state satisfying `P`, its result and the new state satisfy `Q` -/
def Goes {σ α : Type} (P : σ → Prop) (m : PyM σ α) (Q : α → σ → Prop) : Prop := ∀ s a s', P s → m s = (.ok a, s') → Q a s'

section
variable {σ α β : Type} {P : σ → Prop}

theorem goes_pure {a : α} {Q : α → σ → Prop} (h : ∀ s, P s → Q a s) : Goes P (pure a : PyM σ α) Q := by
  intro s b s' hs e; cases e; exact h s hs
theorem goes_raise {e : PyErr} {Q : α → σ → Prop} : Goes P (raise e : PyM σ α) Q := by intro s b s' _ e; cases e
theorem goes_lift {e : Except PyErr α} : Goes P (lift e : PyM σ α) (fun _ => P) := by
  intro s b s' hs h; rw [lift_run] at h; cases h; exact hs
theorem goes_get : Goes P (PyM.get : PyM σ σ) (fun a s => P s ∧ a = s) := by intro s b s' hs h; cases h; exact ⟨hs, rfl⟩
theorem goes_modify {f : σ → σ} {Q : Unit → σ → Prop} (h : ∀ s, P s → Q () (f s)) : Goes P (PyM.modify f) Q := by
  intro s b s' hs e; cases e; exact h s hs

theorem goes_bind {m : PyM σ α} {f : α → PyM σ β} {Q : α → σ → Prop} {R : β → σ → Prop} (hm : Goes P m Q) (hf : ∀ a, Goes (Q a) (f a) R) :
    Goes P (m >>= f) R := by
  intro s b s' hs h
  rw [bind_run] at h
  cases hr : m s with
  | mk r s1 =>
    rw [hr] at h
    cases r with
    | error e => cases h
    | ok a => exact hf a s1 b s' (hm s a s1 hs hr) h

theorem goes_imp {m : PyM σ α} {P' : σ → Prop} {Q Q' : α → σ → Prop} (h : Goes P' m Q) (hp : ∀ s, P s → P' s) (hq : ∀ a s, Q a s → Q' a s) :
    Goes P m Q' := fun s a s' hs e => hq a s' (h s a s' (hp s hs) e)

theorem goes_forEach {body : β → PyM σ Unit} (h : ∀ b, Goes P (body b) (fun _ => P)) : ∀ L : List β, Goes P (forEach body L) (fun _ => P)
  | [] => goes_pure (fun _ h => h)
  | b :: L => goes_bind (h b) (fun _ => goes_forEach h L)
end

/-- state of a parser: the table is tidy, or no row has been started -/
structure Ready (s : PState) : Prop where
  pos : 0 ≤ s.rowPos
  row : ∀ r, s.row = some r → 1 ≤ r.1
  table : ∀ t, s.table = some t → Tidy t ∨ (Fresh t ∧ s.row = none)

/-- the same, a row being known -/
structure Going (s : PState) : Prop where
  pos : 0 ≤ s.rowPos
  row : ∀ r, s.row = some r → 1 ≤ r.1
  table : ∀ t, s.table = some t → Tidy t

theorem Going.ready {s : PState} (h : Going s) : Ready s := ⟨h.pos, h.row, fun t ht => .inl (h.table t ht)⟩

theorem goes_theRow : Goes Ready PState.theRow (fun r s => Going s ∧ 1 ≤ r.1) := by
  intro s a s' hs h
  unfold PState.theRow at h
  cases hr : s.row with
  | none => rw [hr] at h; cases h
  | some r =>
    rw [hr] at h; cases h
    refine ⟨⟨hs.pos, hs.row, ?_⟩, hs.row _ hr⟩
    intro t ht
    rcases hs.table t ht with h | ⟨_, h⟩
    · exact h
    · rw [hr] at h; cases h

theorem goes_onTable {α : Type} {m : PyM (Table Content) α} (hm : ∀ t a t', Tidy t → m t = (.ok a, t') → Tidy t') :
    Goes Going (PState.onTable m) (fun _ => Going) := by
  intro s a s' hs h
  unfold PState.onTable at h
  cases ht : s.table with
  | none => rw [ht] at h; cases h
  | some t =>
    rw [ht] at h
    simp only at h
    cases hr : m t with
    | mk r t1 =>
      rw [hr] at h
      cases r with
      | error e => cases h
      | ok b =>
        cases h
        refine ⟨hs.pos, hs.row, ?_⟩
        intro t' e; cases e
        exact hm t _ t1 (hs.table t ht) hr

theorem goes_onTable' {α : Type} {m : PyM (Table Content) α} (hm : ∀ t a t', Tidy t → m t = (.ok a, t') → Tidy t')
    (hf : ∀ t a t', Fresh t → m t = (.ok a, t') → Fresh t') : Goes Ready (PState.onTable m) (fun _ => Ready) := by
  intro s a s' hs h
  unfold PState.onTable at h
  cases ht : s.table with
  | none => rw [ht] at h; cases h
  | some t =>
    rw [ht] at h
    simp only at h
    cases hr : m t with
    | mk r t1 =>
      rw [hr] at h
      cases r with
      | error e => cases h
      | ok b =>
        cases h
        refine ⟨hs.pos, hs.row, ?_⟩
        intro t' e; cases e
        rcases hs.table t ht with h | ⟨h, h'⟩
        · exact .inl (hm t _ t1 h hr)
        · exact .inr ⟨hf t _ t1 h hr, h'⟩

theorem tidy_snd {α : Type} {m : PyM (Table Content) α} {t t' : Table Content} {a : α} (h : m t = (.ok a, t')) (ht : Tidy (exec m t)) : Tidy t' := by
  unfold exec at ht; rw [h] at ht; exact ht
theorem fresh_snd {α : Type} {m : PyM (Table Content) α} {t t' : Table Content} {a : α} (h : m t = (.ok a, t')) (ht : Fresh (exec m t)) : Fresh t' := by
  unfold exec at ht; rw [h] at ht; exact ht

/-- insertion in a row whose position is known -/
theorem goes_insert {pos : Int} (hpos : 1 ≤ pos) (c : Option Content) (st : Option Styles) (n : Option String) (w h : Int) :
    Goes Going (PState.onTable (Table.insertCell .row pos c st n w h)) (fun _ => Going) :=
  goes_onTable (fun _ _ _ ht e => ht.insert hpos e)

/-- `state.row.insert_cell(...)` -/
theorem goes_rowInsert {f : Int × Option String → PyM PState Unit} (hf : ∀ r, 1 ≤ r.1 → Goes Going (f r) (fun _ => Going)) :
    Goes Ready (PState.theRow >>= f) (fun _ => Ready) := by
  refine goes_bind goes_theRow (fun r => ?_)
  intro s a s' hs h
  exact (hf r hs.2 s a s' hs.1 h).ready

theorem goes_editCol (pos : Int) (f : View Content → View Content) (hf : Table.LooksOnly f) :
    Goes Ready (PState.onTable (Table.editView .col pos f)) (fun _ => Ready) :=
  goes_onTable' (fun _ _ _ ht e => tidy_snd e (ht.editView .col pos f hf)) (fun _ _ _ ht e => fresh_snd e (ht.editCol pos f hf))

theorem goes_nextCol : Goes Ready PState.nextCol (fun _ => Ready) := goes_modify (fun _ h => ⟨h.pos, h.row, h.table⟩)

theorem goes_nextRow : Goes Ready PState.nextRow (fun _ s => Ready s ∧ 1 ≤ s.rowPos) :=
  goes_modify (fun s h => ⟨⟨by have := h.pos; show 0 ≤ s.rowPos + 1; omega, (fun r hr => by cases hr), (fun t ht => by
    rcases h.table t ht with h' | ⟨h', _⟩
    · exact .inl h'
    · exact .inr ⟨h', rfl⟩)⟩, by have := h.pos; show 1 ≤ s.rowPos + 1; omega⟩)

/-- the start of a row -/
theorem goes_startRow {f : PState → View Content → View Content} (hf : ∀ s, Table.LooksOnly (f s)) {nature : Option String} :
    Goes (fun s => Ready s ∧ 1 ≤ s.rowPos) (do
      let s ← PyM.get
      PState.onTable (Table.editView .row s.rowPos (f s))
      PyM.modify (fun s => { s with row := some (s.rowPos, nature) })) (fun _ => Ready) := by
  intro s a s' hs h
  simp only [bind_run, get_run, modify_run] at h
  unfold PState.onTable at h
  cases ht : s.table with
  | none => rw [ht] at h; cases h
  | some t =>
    rw [ht] at h
    simp only at h
    cases hr : Table.editView .row s.rowPos (f s) t with
    | mk r t1 =>
      rw [hr] at h
      cases r with
      | error e => cases h
      | ok b =>
        cases h
        refine ⟨hs.1.pos, (fun r hr => by cases hr; exact hs.2), ?_⟩
        intro t' e; cases e
        left
        rcases hs.1.table t ht with h | ⟨h, _⟩
        · exact tidy_snd hr (h.editView .row _ _ (hf s))
        · exact tidy_snd hr (h.startRow _ _ (hf s))

theorem goes_endRow : Goes Ready CalsP.endRow (fun _ => Ready) := by
  unfold CalsP.endRow
  refine goes_bind (goes_onTable' (fun _ _ _ ht e => tidy_snd e ht.views) (fun _ _ _ ht e => fresh_snd e ht.views)) (fun cols => ?_)
  refine goes_bind goes_get (fun s0 => ?_)
  intro s a s' hs h
  rw [bind_run, lift_run] at h
  cases hb : Box.make 1 s0.rowPos cols.length s0.rowPos with
  | error e => rw [hb] at h; cases h
  | ok b =>
    rw [hb] at h
    have hb' := (make_ok hb).1
    refine goes_rowInsert ?_ s a s' hs.1 h
    intro r hr
    exact goes_onTable (fun _ _ _ ht e => ht.fill (by rw [hb']) e)

theorem goes_fillHoles : Goes Ready (PState.onTable CalsP.fillHoles) (fun _ => Ready) :=
  goes_onTable' (fun _ _ _ ht e => ht.fillHoles e) (fun _ _ _ ht e => (ht.fillHoles e).elim)

theorem new_fresh {st : Option Styles} {n : Option String} {t : Table Content} (h : Table.new [] st n = .ok t) : Fresh t := by
  refine ⟨(new_reachable h).inv, ?_, ?_⟩ <;> (unfold Table.new at h; cases h; rfl)

/-- the start of a table, in a state where no row is known -/
theorem goes_newTable {st : Except PyErr Styles} {n : Option String} {s s' : PState}
    (h : (do
      let styles ← lift st
      let t ← lift (Table.new [] (some styles) n)
      PyM.modify (fun (s : PState) => { s with table := some t }) : PyM PState Unit) s = (.ok (), s')) (hpos : 0 ≤ s.rowPos) (hrow : s.row = none) :
    Ready s' := by
  simp only [bind_run, lift_run, modify_run] at h
  cases st with
  | error e => cases h
  | ok st =>
    simp only at h
    cases ht : Table.new (γ := Content) [] (some st) n with
    | error e => rw [ht] at h; cases h
    | ok t =>
      rw [ht] at h; cases h
      refine ⟨hpos, (fun r hr => by rw [hrow] at hr; cases hr), ?_⟩
      intro t' e; cases e
      exact .inr ⟨new_fresh ht, hrow⟩

/-! ### nested tables are not started -/

/-- depth after an event -/
def depthOf (tbl : QName) (d : Int) (e : Event) : Int := if e.node.tag? = some tbl then (if e.start then d + 1 else d - 1) else d

/-- no event which is not skipped is the start of a table -/
def NoStart (tbl : QName) : Int → List Event → Prop
  | _, [] => True
  | d, e :: es => (depthOf tbl d e ≤ 1 → e.start = true → e.node.tag? ≠ some tbl) ∧ NoStart tbl (depthOf tbl d e) es

theorem noStart_append {tbl : QName} (b : List Event) : ∀ (a : List Event) (d : Int),
    NoStart tbl d (a ++ b) ↔ NoStart tbl d a ∧ NoStart tbl (a.foldl (depthOf tbl) d) b
  | [], d => by simp [NoStart]
  | e :: a, d => by
    rw [List.cons_append, NoStart, NoStart, noStart_append b a, List.foldl_cons, and_assoc]

mutual
theorem depthOf_walk (tbl : QName) (sel : QName → Bool) (p : Option Node) (d : Int) : ∀ n : Node, (walk sel p n).foldl (depthOf tbl) d = d
  | .elem t a x cs tl => by
    unfold walk
    simp only [List.foldl_append]
    have ih := fun d => depthOf_walkList tbl sel (some (.elem t a x cs tl)) d cs
    rw [ih]
    by_cases hs : sel t = true
    · simp only [hs, if_true, List.foldl_cons, List.foldl_nil, depthOf, Bool.false_eq_true, if_false]
      split <;> omega
    · simp [hs]
  | .pi .. => rfl
  | .comment .. => rfl
theorem depthOf_walkList (tbl : QName) (sel : QName → Bool) (p : Option Node) (d : Int) : ∀ ns : List Node,
    (walkList sel p ns).foldl (depthOf tbl) d = d
  | [] => rfl
  | n :: ns => by
    rw [walkList, List.foldl_append, depthOf_walk tbl sel p d n, depthOf_walkList tbl sel p d ns]
end

mutual
theorem noStart_walk (tbl : QName) (sel : QName → Bool) (p : Option Node) (d : Int) (hd : 1 ≤ d) : ∀ n : Node, NoStart tbl d (walk sel p n)
  | .elem t a x cs tl => by
    unfold walk
    simp only
    have ih := fun d hd => noStart_walkList tbl sel (some (.elem t a x cs tl)) d hd cs
    by_cases hs : sel t = true
    · simp only [hs, if_true]
      rw [List.append_assoc, noStart_append, noStart_append]
      refine ⟨⟨?_, trivial⟩, ih _ ?_, ⟨(fun _ h => by cases h), trivial⟩⟩
      · intro h1 _ h3
        unfold depthOf at h1; simp only [h3, if_true] at h1; omega
      · simp only [List.foldl_cons, List.foldl_nil, depthOf]; split
        · simp; omega
        · exact hd
    · simp only [hs]
      simpa using ih d hd
  | .pi .. => trivial
  | .comment .. => trivial
theorem noStart_walkList (tbl : QName) (sel : QName → Bool) (p : Option Node) (d : Int) (hd : 1 ≤ d) : ∀ ns : List Node,
    NoStart tbl d (walkList sel p ns)
  | [] => trivial
  | n :: ns => by
    rw [walkList, noStart_append, depthOf_walk]
    exact ⟨noStart_walk tbl sel p d hd n, noStart_walkList tbl sel p d hd ns⟩
end

/-- the events of a table: its start, then no other start -/
theorem walk_noStart {tbl : QName} {sel : QName → Bool} (hsel : sel tbl = true) (p : Option Node) {n : Node} (hn : n.tag? = some tbl) :
    ∃ es, walk sel p n = ⟨true, n, p⟩ :: es ∧ NoStart tbl 1 es := by
  cases n with
  | elem t a x cs tl =>
    simp only [Node.tag?, Option.some.injEq] at hn
    subst hn
    refine ⟨walkList sel (some (.elem t a x cs tl)) cs ++ [⟨false, .elem t a x cs tl, p⟩], ?_, ?_⟩
    · unfold walk; simp [hsel]
    · rw [noStart_append]
      exact ⟨noStart_walkList _ _ _ _ (by omega) _, (fun _ h => by cases h), trivial⟩
  | pi => cases hn
  | comment => cases hn

/-! ### CALS -/

namespace CalsP
variable {cfg : Config}

theorem goes_row (p : Option Node) (n : Node) : Goes (fun s => Ready s ∧ 1 ≤ s.rowPos) (parseRow cfg p n) (fun _ => Ready) := by
  unfold parseRow
  refine goes_bind goes_lift (fun r => ?_)
  exact goes_startRow (f := fun _ v => { v with nature := r.2, styles := r.1 }) (fun _ v => ⟨rfl, rfl, rfl⟩)

theorem goes_entry (n : Node) : Goes Ready (parseEntry cfg n) (fun _ => Ready) := by
  unfold parseEntry
  refine goes_bind goes_get (fun s => goes_bind goes_lift (fun wh => ?_))
  refine goes_imp (P' := Ready) (goes_rowInsert (fun r hr => ?_)) (fun s h => h.1) (fun _ _ h => h)
  exact goes_insert hr _ _ _ _ _

theorem goes_colspec (p : Option Node) (n : Node) : Goes Ready (parseColspec cfg p n) (fun _ => Ready) := by
  unfold parseColspec
  refine goes_bind goes_lift (fun _ => goes_bind goes_get (fun s => goes_bind goes_lift (fun num => ?_)))
  exact goes_imp (P' := Ready) (goes_editCol _ _ (fun v => ⟨rfl, rfl, rfl⟩)) (fun s h => h.1) (fun _ _ h => h)

theorem goes_tgroup (n : Node) : Goes Ready (parseTgroup cfg n) (fun _ => Ready) := by
  unfold parseTgroup
  refine goes_onTable' ?_ ?_
  · intro t a t' ht e; cases e; exact ⟨⟨ht.inv.grid, ht.inv.views⟩, ht.rows, ht.left⟩
  · intro t a t' ht e; cases e; exact ⟨⟨ht.inv.grid, ht.inv.views⟩, ht.empty, ht.rows⟩

theorem goes_onStart (p : Option Node) (n : Node) (h : n.tag? ≠ some (cfg.q "table")) : Goes Ready (onStart cfg p n) (fun _ => Ready) := by
  unfold onStart
  split
  · exact goes_raise
  · rename_i tag htag
    split
    · exact goes_bind goes_nextCol (fun _ => goes_entry n)
    split
    · exact goes_bind goes_nextRow (fun _ => goes_row p n)
    split
    · exact goes_pure (fun _ h => h)
    split
    · exact goes_bind goes_nextCol (fun _ => goes_colspec p n)
    split
    · exact goes_tgroup n
    split
    · rename_i e; rw [htag, e] at h; exact absurd rfl h
    · exact goes_raise

theorem goes_onEnd (n : Node) : Goes Ready (onEnd cfg n) (fun _ => Ready) := by
  unfold onEnd
  split
  · exact goes_endRow
  split
  · exact goes_fillHoles
  · exact goes_pure (fun _ h => h)

theorem goes_loop : ∀ (es : List Event) (d : Int), NoStart (cfg.q "table") d es → Goes Ready (loop cfg d es) (fun _ => Ready)
  | [], _, _ => goes_pure (fun _ h => h)
  | e :: es, d, h => by
    obtain ⟨h1, h2⟩ := h
    unfold loop
    simp only
    split
    · exact goes_loop es _ h2
    · rename_i hd
      refine goes_bind ?_ (fun _ => goes_loop es _ h2)
      unfold onEvent
      split
      · rename_i hst
        exact goes_onStart _ _ (h1 (by change ¬ (depthOf (cfg.q "table") d e > 1) at hd; omega) hst)
      · exact goes_onEnd _

/-- the table which is read is tidy or empty -/
theorem parsed_tidy {p : Option Node} {n : Node} (hn : n.tag? = some (cfg.q "table")) {s s' : PState} {t : Table Content}
    (h : parseTable cfg p n s = (.ok (some t), s')) : Tidy t ∨ Fresh t := by
  obtain ⟨es, he, hno⟩ := walk_noStart (tbl := cfg.q "table") (sel := selected cfg) (selected_q "table" (by decide)) p hn
  have key : Goes (fun s => s = PState.init) (loop cfg 0 (walk (selected cfg) p n)) (fun _ => Ready) := by
    rw [he, loop_cons]
    have e0 : newDepth cfg 0 ⟨true, n, p⟩ = 1 := by simp [newDepth, hn]
    rw [e0, if_neg (by decide)]
    refine goes_bind (Q := fun _ => Ready) ?_ (fun _ => goes_loop es 1 hno)
    have est : onEvent cfg ⟨true, n, p⟩ = parseTableElem cfg n := by
      simp [onEvent, onStart, hn, Config.q]
    rw [est]
    rintro s u s' rfl h
    exact goes_newTable h (by decide) rfl
  have : Goes (fun _ => True) (parseTable cfg p n) (fun r _ => ∀ t, r = some t → Tidy t ∨ Fresh t) := by
    unfold parseTable PState.reset
    refine goes_bind (Q := fun _ s => s = PState.init) ?_ (fun _ => goes_bind key (fun _ => goes_bind goes_get (fun s => goes_pure ?_)))
    · intro s a s' _ h; cases h; rfl
    · rintro s' ⟨hs, rfl⟩ t ht
      rcases hs.table t ht with h | h
      · exact .inl h
      · exact .inr h.1
  exact this _ _ _ trivial h t rfl

end CalsP

/-! ### Formex -/

namespace FmxP
variable {cfg : Config}

theorem goes_start (nature : String) (st : Option Styles) : Goes (fun s => Ready s ∧ 1 ≤ s.rowPos) (startRow nature st) (fun _ => Ready) :=
  goes_startRow (f := fun _ v => { v with nature := some nature, styles := st.getD v.styles }) (fun _ v => ⟨rfl, rfl, rfl⟩)

theorem goes_insertInRow (c : Option Content) (st : Option Styles) (n : Option String) (w h : Int) :
    Goes Ready (insertInRow c st n w h) (fun _ => Ready) := by
  unfold insertInRow
  exact goes_rowInsert (fun r hr => goes_insert hr _ _ _ _ _)

theorem goes_title (st : Styles) (n : Node) : Goes (fun s => Ready s ∧ 1 ≤ s.rowPos) (titleRow cfg st n) (fun _ => Ready) := by
  unfold titleRow
  refine goes_bind (goes_start _ _) (fun _ => goes_bind goes_lift (fun a => goes_bind goes_lift (fun b => ?_)))
  exact goes_bind (goes_forEach (fun _ => goes_insertInRow _ _ _ _ _) _) (fun _ => goes_insertInRow _ _ _ _ _)

theorem goes_cell (p : Option Node) (n : Node) : Goes Ready (parseCell cfg p n) (fun _ => Ready) := by
  unfold parseCell
  refine goes_bind goes_lift (fun wh => goes_bind goes_theRow (fun r => ?_))
  exact goes_imp (P' := Ready) (goes_insertInRow _ _ _ _ _) (fun s h => h.1.ready) (fun _ _ h => h)

theorem goes_colspec (n : Node) : Goes Ready (parseColspec cfg n) (fun _ => Ready) := by
  unfold parseColspec
  refine goes_bind goes_get (fun s => goes_bind goes_lift (fun num => ?_))
  exact goes_imp (P' := Ready) (goes_editCol _ _ (fun v => ⟨rfl, rfl, rfl⟩)) (fun s h => h.1) (fun _ _ h => h)

theorem goes_notes (n : Node) : Goes (fun s => Ready s ∧ 1 ≤ s.rowPos) (parseNotes cfg n) (fun _ => Ready) := by
  unfold parseNotes
  refine goes_bind (goes_start _ _) (fun _ => goes_bind goes_get (fun s => ?_))
  split
  · exact goes_raise
  · refine goes_bind goes_lift (fun bb => ?_)
    split
    · exact goes_raise
    · exact goes_imp (P' := Ready) (goes_insertInRow _ _ _ _ _) (fun s h => h.1) (fun _ _ h => h)

theorem goes_onStart (b : Nat) (p : Option Node) (n : Node) (h : n.tag? ≠ some (cfg.f "CORPUS")) : Goes Ready (onStart cfg b p n) (fun _ => Ready) := by
  unfold onStart
  split
  · exact goes_raise
  · rename_i tag htag
    split
    · exact goes_bind goes_nextCol (fun _ => goes_cell p n)
    split
    · exact goes_bind goes_nextRow (fun _ => goes_start _ _)
    split
    · exact goes_pure (fun _ h => h)
    split
    · exact goes_bind goes_nextRow (fun _ => goes_title _ n)
    split
    · exact goes_bind goes_nextRow (fun _ => goes_title _ n)
    split
    · exact goes_bind goes_nextCol (fun _ => goes_colspec n)
    split
    · rename_i e; rw [htag, e] at h; exact absurd rfl h
    · exact goes_raise

theorem goes_onEnd (p : Option Node) (n : Node) : Goes Ready (onEnd cfg p n) (fun _ => Ready) := by
  unfold onEnd
  split
  · exact goes_endRow
  split
  · unfold endCorpus
    exact goes_bind (goes_forEach (fun n => goes_bind goes_nextRow (fun _ => goes_notes n)) _) (fun _ => goes_fillHoles)
  · exact goes_pure (fun _ h => h)

theorem goes_loop : ∀ (es : List Event) (d : Int) (b : Nat), NoStart (cfg.f "CORPUS") d es → Goes Ready (loop cfg d b es) (fun _ => Ready)
  | [], _, _, _ => goes_pure (fun _ h => h)
  | e :: es, d, b, h => by
    obtain ⟨h1, h2⟩ := h
    unfold loop
    simp only
    split
    · exact goes_loop es _ _ h2
    · rename_i hd
      refine goes_bind ?_ (fun _ => goes_loop es _ _ h2)
      unfold onEvent
      split
      · rename_i hst
        exact goes_onStart _ _ _ (h1 (by change ¬ (depthOf (cfg.f "CORPUS") d e > 1) at hd; omega) hst)
      · exact goes_onEnd _ _

theorem parsed_tidy {b : Nat} {p : Option Node} {n : Node} (hn : n.tag? = some (cfg.f "CORPUS")) {s s' : PState} {t : Table Content}
    (h : parseTable cfg b p n s = (.ok (some t), s')) : Tidy t ∨ Fresh t := by
  obtain ⟨es, he, hno⟩ := walk_noStart (tbl := cfg.f "CORPUS") (sel := selected cfg) (by simp [selected]) p hn
  have key : Goes (fun s => s = PState.init) (loop cfg 0 b (walk (selected cfg) p n)) (fun _ => Ready) := by
    rw [he]
    show Goes _ (if newDepth cfg 0 ⟨true, n, p⟩ > 1 then _ else _) _
    have e0 : newDepth cfg 0 ⟨true, n, p⟩ = 1 := by simp [newDepth, hn]
    rw [e0, if_neg (by decide)]
    refine goes_bind (Q := fun _ => Ready) ?_ (fun _ => goes_loop es 1 _ hno)
    have est : onEvent cfg b ⟨true, n, p⟩ = parseCorpus cfg p n := by
      simp [onEvent, onStart, hn, Config.f, Config.q]
    rw [est]
    rintro s u s' rfl h
    exact goes_newTable h (by decide) rfl
  have : Goes (fun _ => True) (parseTable cfg b p n) (fun r _ => ∀ t, r = some t → Tidy t ∨ Fresh t) := by
    unfold parseTable PState.reset
    refine goes_bind (Q := fun _ s => s = PState.init) ?_ (fun _ => goes_bind key (fun _ => goes_bind goes_get (fun s => goes_pure ?_)))
    · intro s a s' _ h; cases h; rfl
    · rintro s' ⟨hs, rfl⟩ t ht
      rcases hs.table t ht with h | h
      · exact .inl h
      · exact .inr h.1
  exact this _ _ _ trivial h t rfl

end FmxP

/-! ### OOXML -/

namespace Ooxml
variable {cfg : Config}

theorem goes_tr (n : Node) : Goes (fun s => Ready s ∧ 1 ≤ s.rowPos) (parseTr cfg n) (fun _ => Ready) := by
  unfold parseTr
  refine goes_bind goes_lift (fun nature => goes_bind goes_lift (fun height => ?_))
  exact goes_startRow (f := fun _ v => { v with nature := some nature, styles := Dict.update (Dict.update v.styles height) (rowIns n) }) (fun _ v => ⟨rfl, rfl, rfl⟩)

theorem goes_gridCol (n : Node) : Goes Ready (parseGridCol cfg n) (fun _ => Ready) := by
  unfold parseGridCol
  refine goes_bind goes_lift (fun width => goes_bind goes_get (fun s => ?_))
  exact goes_imp (P' := Ready) (goes_editCol _ _ (fun v => ⟨rfl, rfl, rfl⟩)) (fun s h => h.1) (fun _ _ h => h)

theorem goes_tc (n : Node) : Goes Ready (parseTc cfg n) (fun _ => Ready) := by
  unfold parseTc
  refine goes_bind goes_lift (fun width => goes_bind (Q := fun _ => Ready) (goes_modify (fun _ h => ⟨h.pos, h.row, h.table⟩)) (fun _ => ?_))
  split
  · unfold newCell
    exact goes_bind goes_lift (fun st => goes_rowInsert (fun r hr => goes_insert hr _ _ _ _ _))
  split
  · unfold continueCell
    refine goes_bind goes_get (fun s => ?_)
    refine goes_imp (P' := Ready) (goes_rowInsert (fun r hr => ?_)) (fun s h => h.1) (fun _ _ h => h)
    exact goes_onTable (fun _ _ _ ht e => ht.expand e)
  · exact goes_raise

theorem goes_onStart (sect : Option Node) (n : Node) (h : n.tag? ≠ some (w "tbl")) : Goes Ready (onStart cfg sect n) (fun _ => Ready) := by
  unfold onStart
  rw [if_neg h]
  split
  · exact goes_pure (fun _ h => h)
  split
  · exact goes_bind goes_nextCol (fun _ => goes_gridCol n)
  split
  · exact goes_bind goes_nextRow (fun _ => goes_tr n)
  split
  · exact goes_bind goes_nextCol (fun _ => goes_tc n)
  · exact goes_raise

theorem goes_onEnd (n : Node) : Goes Ready (onEnd n) (fun _ => Ready) := by
  unfold onEnd
  split
  · exact goes_endRow
  · exact goes_pure (fun _ h => h)

theorem goes_loop (sect : Option Node) : ∀ (es : List Event) (d : Int), NoStart (w "tbl") d es → Goes Ready (loop cfg sect d es) (fun _ => Ready)
  | [], _, _ => goes_pure (fun _ h => h)
  | e :: es, d, h => by
    obtain ⟨h1, h2⟩ := h
    unfold loop
    simp only
    split
    · exact goes_loop sect es _ h2
    · rename_i hd
      refine goes_bind ?_ (fun _ => goes_loop sect es _ h2)
      unfold onEvent
      split
      · rename_i hst
        exact goes_onStart _ _ (h1 (by change ¬ (depthOf (w "tbl") d e > 1) at hd; omega) hst)
      · exact goes_onEnd _

theorem parsed_tidy {sect : Option Node} {n : Node} (hn : n.tag? = some (w "tbl")) {s s' : PState} {t : Table Content}
    (h : parseTable cfg sect n s = (.ok (some t), s')) : Tidy t ∨ Fresh t := by
  obtain ⟨es, he, hno⟩ := walk_noStart (tbl := w "tbl") (sel := selected) (by decide) none hn
  have key : Goes (fun s => s = PState.init) (loop cfg sect 0 (walk selected none n)) (fun _ => Ready) := by
    rw [he]
    show Goes _ (if newDepth 0 ⟨true, n, none⟩ > 1 then _ else _) _
    have e0 : newDepth 0 ⟨true, n, none⟩ = 1 := by simp [newDepth, hn]
    rw [e0, if_neg (by decide)]
    refine goes_bind (Q := fun _ => Ready) ?_ (fun _ => goes_loop sect es 1 hno)
    have est : onEvent cfg sect ⟨true, n, none⟩ = parseTbl cfg sect n := by
      simp [onEvent, onStart, hn]
    rw [est]
    rintro s u s' rfl h
    exact goes_newTable h (by decide) rfl
  have : Goes (fun _ => True) (parseTable cfg sect n) (fun r _ => ∀ t, r = some t → Tidy t ∨ Fresh t) := by
    unfold parseTable PState.reset
    refine goes_bind (Q := fun _ s => s = PState.init) ?_ (fun _ => goes_bind key (fun _ => goes_bind goes_get (fun s => goes_pure ?_)))
    · intro s a s' _ h; cases h; rfl
    · rintro s' ⟨hs, rfl⟩ t ht
      rcases hs.table t ht with h | h
      · exact .inl h
      · exact .inr h.1
  exact this _ _ _ trivial h t rfl

end Ooxml
end Benker
