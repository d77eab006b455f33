import Verif.Spec.Origin
import Verif.Lemmas.Accepted
import Verif.Props.Again

/-! Every token of a converted document satisfies what the tokens of the document and those of the created elements satisfy. -/

set_option linter.unusedSectionVars false

namespace Benker.Origin
open PyM Fmx

variable {P : Tok → Prop}

/-- all the tokens satisfy the predicate -/
def Only (P : Tok → Prop) (ns : List Node) : Prop := ∀ k ∈ toksList ns, P k

/-- the same for a text -/
def OnlyText (P : Tok → Prop) (x : Option String) : Prop := ∀ k ∈ textToks x, P k

theorem only_nil : Only P [] := fun _ h => nomatch h

theorem only_cons {n : Node} {ns : List Node} : Only P (n :: ns) ↔ Only P [n] ∧ Only P ns := by
  unfold Only
  constructor
  · intro h
    exact ⟨fun k hk => h k (by simp only [toksList, List.append_nil] at hk; simp [toksList, hk]), fun k hk => h k (by simp [toksList, hk])⟩
  · rintro ⟨h1, h2⟩ k hk
    simp only [toksList, List.mem_append] at hk
    rcases hk with hk | hk
    · exact h1 k (by simp [toksList, hk])
    · exact h2 k hk

theorem only_mem : ∀ {ns : List Node}, Only P ns ↔ ∀ n ∈ ns, Only P [n]
  | [] => Iff.intro (fun _ _ h => (by cases h)) (fun _ => only_nil)
  | n :: ns => by
    rw [only_cons, only_mem (ns := ns)]
    simp

theorem only_append {a b : List Node} : Only P (a ++ b) ↔ Only P a ∧ Only P b := by
  rw [only_mem, only_mem (ns := a), only_mem (ns := b)]
  simp only [List.mem_append]
  exact ⟨fun h => ⟨fun n hn => h n (.inl hn), fun n hn => h n (.inr hn)⟩, fun h n hn => hn.elim (h.1 n) (h.2 n)⟩

theorem only_sub {a b : List Node} (h : Only P b) (hs : ∀ n ∈ a, n ∈ b) : Only P a := only_mem.mpr (fun n hn => only_mem.mp h n (hs n hn))

theorem only_elem {t : QName} {a : Dict QName String} {x : Option String} {cs : List Node} {tl : Option String} :
    Only P [.elem t a x cs tl] ↔ P (.opening t a) ∧ OnlyText P x ∧ Only P cs ∧ P (.closing t) ∧ OnlyText P tl := by
  unfold Only OnlyText
  simp only [toksList, toks, List.append_nil, List.cons_append, List.mem_cons, List.mem_append, List.not_mem_nil, or_false]
  constructor
  · intro h
    exact ⟨h _ (.inl rfl), fun k hk => h k (.inr (.inl (.inl (.inl hk)))), fun k hk => h k (.inr (.inl (.inl (.inr hk)))), h _ (.inr (.inl (.inr rfl))),
      fun k hk => h k (.inr (.inr hk))⟩
  · rintro ⟨h1, h2, h3, h4, h5⟩ k (rfl | ((hk | hk) | rfl) | hk)
    · exact h1
    · exact h2 k hk
    · exact h3 k hk
    · exact h4
    · exact h5 k hk

theorem onlyText_none : OnlyText P none := fun _ h => nomatch h

theorem onlyText_append {x : Option String} {s : String} (h1 : OnlyText P x) (h2 : OnlyText P (some s)) : OnlyText P (some (Node.safeText x ++ s)) := by
  intro k hk
  simp only [textToks, String.toList_append, List.map_append, List.mem_append] at hk
  rcases hk with hk | hk
  · cases x with
    | none => simp [Node.safeText] at hk
    | some y => exact h1 k hk
  · exact h2 k hk

theorem onlyText_safe {x : Option String} (h : OnlyText P x) : OnlyText P (some (Node.safeText x)) := by
  cases x with
  | none => intro k hk; simp [Node.safeText, textToks] at hk
  | some s => exact h

theorem only_setTail {n : Node} {tl : Option String} (h : Only P [n]) (ht : OnlyText P tl) : Only P [n.setTail tl] := by
  cases n with
  | elem t a x cs tl' =>
    obtain ⟨h1, h2, h3, h4, -⟩ := only_elem.mp h
    exact only_elem.mpr ⟨h1, h2, h3, h4, ht⟩
  | pi t d tl' =>
    intro k hk
    simp only [Node.setTail, toksList, toks, List.append_nil, List.mem_cons] at hk
    rcases hk with rfl | hk
    · exact h _ (by simp [toksList, toks])
    · exact ht k hk
  | comment d tl' =>
    intro k hk
    simp only [Node.setTail, toksList, toks, List.append_nil, List.mem_cons] at hk
    rcases hk with rfl | hk
    · exact h _ (by simp [toksList, toks])
    · exact ht k hk

theorem only_tail {n : Node} (h : Only P [n]) : OnlyText P n.tail := by
  cases n with
  | elem t a x cs tl => exact (only_elem.mp h).2.2.2.2
  | pi t d tl => exact fun k hk => h k (by simp only [Node.tail] at hk; simp [toksList, toks, hk])
  | comment d tl => exact fun k hk => h k (by simp only [Node.tail] at hk; simp [toksList, toks, hk])

theorem only_text {n : Node} (h : Only P [n]) : OnlyText P n.text := by
  cases n with
  | elem t a x cs tl => exact (only_elem.mp h).2.1
  | pi t d tl => exact onlyText_none
  | comment d tl => exact onlyText_none

theorem only_children {n : Node} (h : Only P [n]) : Only P n.children := by
  cases n with
  | elem t a x cs tl => exact (only_elem.mp h).2.2.1
  | pi t d tl => exact only_nil
  | comment d tl => exact only_nil

mutual
theorem only_preorder : ∀ {n : Node}, Only P [n] → ∀ m ∈ preorder n, Only P [m]
  | .elem t a x cs tl, h, m, hm => by
    simp only [preorder, List.mem_cons] at hm
    rcases hm with rfl | hm
    · exact h
    · exact only_preorderList (only_elem.mp h).2.2.1 m hm
  | .pi .., _, m, hm => by simp [preorder] at hm
  | .comment .., _, m, hm => by simp [preorder] at hm
theorem only_preorderList : ∀ {ns : List Node}, Only P ns → ∀ m ∈ preorderList ns, Only P [m]
  | [], _, m, hm => by simp [preorderList] at hm
  | n :: ns, h, m, hm => by
    simp only [preorderList, List.mem_append] at hm
    rcases hm with hm | hm
    · exact only_preorder (only_cons.mp h).1 m hm
    · exact only_preorderList (only_cons.mp h).2 m hm
end

/-! ### contents -/

/-- what a piece of content is made of -/
def OnlyPiece (P : Tok → Prop) : Option Content → Prop
  | some (.text s) => OnlyText P (some s)
  | some (.node n) => Only P [n]
  | _ => False

/-- what a content is made of -/
def OnlyContent (P : Tok → Prop) : Option Content → Prop
  | none => True
  | some (.seq l) => ∀ c ∈ l, OnlyPiece P c
  | c => OnlyPiece P c

theorem mapLast_only {f : Node → Node} (hf : ∀ n, Only P [n] → Only P [f n]) : ∀ {ns : List Node}, Only P ns → Only P (CellElem.mapLast f ns)
  | [], h => h
  | [n], h => hf n h
  | n :: m :: ns, h => by
    obtain ⟨h1, h2⟩ := only_cons.mp h
    exact only_cons.mpr ⟨h1, mapLast_only hf h2⟩

theorem step_only {f g : CellElem} {c : Option Content} (h1 : OnlyText P f.text) (h2 : Only P f.children) (hc : OnlyPiece P c) (h : f.step c = .ok g) :
    OnlyText P g.text ∧ Only P g.children := by
  unfold CellElem.step at h
  split at h
  · cases h; exact ⟨h1, only_append.mpr ⟨h2, hc⟩⟩
  · split at h
    · cases h; exact ⟨onlyText_append h1 hc, h2⟩
    · cases h; exact ⟨h1, mapLast_only (fun n hn => only_setTail hn (onlyText_append (only_tail hn) hc)) h2⟩
  · cases h

theorem steps_only : ∀ {l : List (Option Content)} {f g : CellElem}, OnlyText P f.text → Only P f.children → (∀ c ∈ l, OnlyPiece P c) → f.steps l = .ok g →
    OnlyText P g.text ∧ Only P g.children
  | [], _, _, h1, h2, _, h => by cases h; exact ⟨h1, h2⟩
  | c :: l, f, g, h1, h2, hl, h => by
    unfold CellElem.steps at h
    split at h
    · cases h
    · next f' hf =>
      obtain ⟨g1, g2⟩ := step_only h1 h2 (hl c List.mem_cons_self) hf
      exact steps_only g1 g2 (fun c hc => hl c (List.mem_cons_of_mem _ hc)) h

theorem append_only {c : Option Content} {g : CellElem} (hc : OnlyContent P c) (h : CellElem.append ⟨none, []⟩ c = .ok g) :
    OnlyText P g.text ∧ Only P g.children := by
  unfold CellElem.append at h
  split at h
  · cases h; exact ⟨onlyText_none, only_nil⟩
  · cases h; exact ⟨hc, only_nil⟩
  · exact (hc : False).elim
  · cases h; exact ⟨onlyText_none, hc⟩
  · exact steps_only onlyText_none only_nil hc h
  · cases h

theorem entry_only {n : Node} (h : Only P [n]) : OnlyContent P (some (.seq (CalsP.entryContent n))) := by
  intro c hc
  unfold CalsP.entryContent at hc
  rcases List.mem_append.mp hc with hc | hc
  · split at hc
    · cases hc
    · next s hs =>
      split at hc
      · cases hc
      · rw [List.mem_singleton] at hc
        subst hc
        have := only_text h
        rw [hs] at this
        exact this
  · obtain ⟨m, hm, rfl⟩ := List.mem_map.mp hc
    exact only_mem.mp (only_children h) m hm

/-! ### parsers -/

/-- what is demanded from a table: its contents, and no row marked as inserted unless there may be some -/
def only (P : Tok → Prop) (ins : Prop) : Demands where
  table _ _ := True
  view ax k _ := ax = .row → k = "x-ins" → ins
  cell _ _ := True
  nature _ := True
  content := OnlyContent P

theorem each_true (st : Styles) : Each (fun _ _ => True) st := fun _ _ => trivial

section
variable {ins : Prop}

theorem each_not {ax : Axis} {st : Styles} (h : ∀ p ∈ st, p.1 ≠ "x-ins") : Each ((only P ins).view ax) st := fun p hp _ e => absurd e (h p hp)

theorem each_colAny {st : Styles} : Each ((only P ins).view .col) st := fun _ _ h => nomatch h

theorem keeps_newAny {st : Except PyErr Styles} {n : Option String} :
    Keeps (PState.Meets (only P ins)) (do
      let styles ← lift st
      let t ← lift (Table.new [] (some styles) n)
      PyM.modify (fun (s : PState) => { s with table := some t }) : PyM PState Unit) := keeps_newMeets (fun s _ => each_true s)

namespace OfCals
open CalsP
variable {cfg : CalsP.Config}

theorem each_row {p : Option Node} {n : Node} {st : Styles} {nature : Option String} (h : rowLooks cfg p n = .ok (st, nature)) :
    Each ((only P ins).view .row) st := by
  have key : ∀ {st0 : Styles}, Each ((only P ins).view .row) st0 →
      Each ((only P ins).view .row) (copyStyle n (cfg.q "rowstyle") "rowstyle" (copyStyle n (cfg.q "bgcolor") "background-color"
        (mapStyle n (cfg.q "rowsep") sepMap "border-bottom" (mapStyle n (cfg.q "valign") valignMap "vertical-align" st0)))) :=
    fun h1 => each_copy (each_copy (each_map (each_map h1 (fun _ _ _ h => absurd h (by decide))) (fun _ _ _ h => absurd h (by decide)))
      (fun _ _ _ _ h => absurd h (by decide))) (fun _ _ _ _ h => absurd h (by decide))
  unfold rowLooks at h
  cases p with
  | none =>
    cases h
    exact key (each_nil _)
  | some p =>
    simp only at h
    obtain ⟨r, hr, h⟩ := bind_ok h
    cases h
    exact key (each_map (each_nil _) (fun _ _ _ h => absurd h (by decide)))

theorem meets_onStart {p : Option Node} {n : Node} (hn : n.tag? = some (cfg.q "entry") → Only P [n]) : Keeps (PState.Meets (only P ins)) (onStart cfg p n) := by
  unfold onStart
  split
  · exact keeps_raise _
  rename_i htag
  split
  · rename_i ht
    have hn := hn (by rw [htag, ht])
    refine keeps_bind keeps_nextColMeets (fun _ => ?_)
    unfold parseEntry
    exact keeps_bind keeps_get (fun _ => keeps_bind (keeps_lift _) (fun _ => keeps_bind_row (fun r hr =>
      keeps_tableMeets (keeps_insertMeets trivial _ _ _ _ (entry_only hn) (each_true _) hr))))
  split
  · refine keeps_bind keeps_nextRowMeets (fun _ => ?_)
    unfold parseRow
    refine keeps_bind_lift (fun ⟨st, nature⟩ hr => keeps_bind keeps_get (fun _ => keeps_bind (keeps_tableMeets (keeps_editMeets trivial _ _ ?_)) ?_))
    · intro v _; exact ⟨each_row hr, trivial⟩
    · intro _ s hs
      exact ⟨hs.1, fun r e => trivial⟩
  split
  · exact keeps_pure ()
  split
  · refine keeps_bind keeps_nextColMeets (fun _ => ?_)
    unfold parseColspec
    refine keeps_bind (keeps_lift _) (fun _ => keeps_bind keeps_get (fun _ => keeps_bind (keeps_lift _) (fun _ => keeps_tableMeets (keeps_editMeets trivial _ _ ?_))))
    intro v hv
    exact ⟨each_colAny, hv.2⟩
  split
  · unfold parseTgroup
    refine keeps_tableMeets ?_
    intro t ht
    exact ⟨each_true _, fun ax vs hv => ht.views ax vs (by cases ax <;> exact hv), ht.cells⟩
  split
  · exact keeps_newAny
  · exact keeps_raise _

theorem meets_loop : ∀ (es : List Event) (d : Int), (∀ e ∈ es, e.node.tag? = some (cfg.q "entry") → Only P [e.node]) → Keeps (PState.Meets (only P ins)) (loop cfg d es)
  | [], _, _ => keeps_pure ()
  | e :: es, d, h => by
    unfold loop
    simp only
    have ih := fun d => meets_loop es d (fun e' he => h e' (List.mem_cons_of_mem _ he))
    split
    · exact ih _
    · refine keeps_bind ?_ (fun _ => ih _)
      unfold onEvent
      split
      · exact meets_onStart (h e List.mem_cons_self)
      · unfold onEnd
        split
        · exact keeps_endRowMeets trivial trivial
        split
        · exact keeps_tableMeets (keeps_fillHolesMeets trivial trivial)
        · exact keeps_pure ()

theorem parsed_entries {p : Option Node} {n : Node} {s s' : PState} {t : Table Content}
    (hn : ∀ e ∈ preorder n, e.tag? = some (cfg.q "entry") → Only P [e])
    (h : parseTable cfg p n s = (.ok (some t), s')) : t.Meets (only P ins) :=
  parsed_meets (meets_loop _ 0 (fun e he => hn _ (walk_mem _ _ n e he))) h

theorem parsed {p : Option Node} {n : Node} {s s' : PState} {t : Table Content} (hn : Only P [n])
    (h : parseTable cfg p n s = (.ok (some t), s')) : t.Meets (only P ins) := parsed_entries (fun e he _ => only_preorder hn e he) h

end OfCals

namespace OfFormex
open FmxP
variable {cfg : FmxP.Config}

theorem node_only {n : Node} (h : Only P [n]) : OnlyContent P (some (nodeContent cfg n)) := by
  unfold nodeContent
  split
  · intro k hk; simp [textToks] at hk
  · exact entry_only h

theorem each_calsRow (n : Node) : Each ((only P ins).view .row) (calsRowStyles cfg n) :=
  each_copy (each_copy (each_map (each_map (each_nil _) (fun _ _ _ h => absurd h (by decide))) (fun _ _ _ h => absurd h (by decide)))
    (fun _ _ _ _ h => absurd h (by decide))) (fun _ _ _ _ h => absurd h (by decide))

theorem each_single {k s : String} (hk : k ≠ "x-ins") : Each ((only P ins).view .row) [(k, .str s)] :=
  each_not (fun p hp => by rw [List.mem_singleton] at hp; subst hp; exact hk)

theorem each_rowStyles (b : Nat) (n : Node) : Each ((only P ins).view .row) (rowStyles cfg b n) := by
  refine each_update ?_ (each_calsRow n)
  split
  · exact each_nil _
  · exact each_single (by decide)

theorem meets_startRow {nature : String} {st : Option Styles} (hst : ∀ s, st = some s → Each ((only P ins).view .row) s) :
    Keeps (PState.Meets (only P ins)) (startRow nature st) := by
  unfold startRow
  refine keeps_bind keeps_get (fun _ => keeps_bind (keeps_tableMeets (keeps_editMeets trivial _ _ ?_)) ?_)
  · intro v hv
    refine ⟨?_, trivial⟩
    cases st with
    | none => exact hv.1
    | some s => exact hst s rfl
  · intro _ s hs
    exact ⟨hs.1, fun r e => trivial⟩

theorem meets_insertInRow {c : Option Content} {st : Option Styles} {n : Option String} (w h : Int) (hc : OnlyContent P c) :
    Keeps (PState.Meets (only P ins)) (insertInRow c st n w h) := by
  unfold insertInRow
  exact keeps_bind_row (fun r hr => keeps_tableMeets (keeps_insertMeets trivial _ _ _ _ hc (each_true _) trivial))

theorem meets_title {tag : String} (b : Nat) {n : Node} (hn : Only P [n]) : Keeps (PState.Meets (only P ins)) (parseTitle cfg tag b n) := by
  unfold parseTitle titleRow
  refine keeps_bind (meets_startRow ?_) (fun _ => keeps_bind (keeps_lift _) (fun _ => keeps_bind (keeps_lift _) (fun _ =>
    keeps_bind (keeps_forEach (fun _ => meets_insertInRow (c := none) _ _ trivial) _) (fun _ => meets_insertInRow _ _ (node_only hn)))))
  intro s hs
  cases hs
  exact each_update (each_single (by decide)) (each_calsRow n)

theorem meets_notes {n : Node} (hn : Only P [n]) : Keeps (PState.Meets (only P ins)) (parseNotes cfg n) := by
  unfold parseNotes
  refine keeps_bind (meets_startRow (fun _ h => nomatch h)) (fun _ => keeps_bind keeps_get (fun s => ?_))
  split
  · exact keeps_raise _
  · refine keeps_bind (keeps_lift _) (fun bb => ?_)
    split
    · exact keeps_raise _
    · refine meets_insertInRow _ _ ?_
      split
      · intro c hc
        rw [List.mem_singleton] at hc
        subst hc
        exact hn
      · exact node_only hn

theorem meets_onStart {b : Nat} {p : Option Node} {n : Node} (hn : Only P [n]) : Keeps (PState.Meets (only P ins)) (onStart cfg b p n) := by
  unfold onStart
  split
  · exact keeps_raise _
  split
  · refine keeps_bind keeps_nextColMeets (fun _ => ?_)
    unfold parseCell
    exact keeps_bind (keeps_lift _) (fun _ => keeps_bind_row (fun r hr => meets_insertInRow _ _ (node_only hn)))
  split
  · refine keeps_bind keeps_nextRowMeets (fun _ => meets_startRow ?_)
    intro s hs; cases hs
    exact each_rowStyles b n
  split
  · exact keeps_pure ()
  split
  · exact keeps_bind keeps_nextRowMeets (fun _ => meets_title b hn)
  split
  · exact keeps_bind keeps_nextRowMeets (fun _ => meets_title b hn)
  split
  · refine keeps_bind keeps_nextColMeets (fun _ => ?_)
    unfold parseColspec
    refine keeps_bind keeps_get (fun _ => keeps_bind (keeps_lift _) (fun _ => keeps_tableMeets (keeps_editMeets trivial _ _ ?_)))
    intro v hv
    exact ⟨each_colAny, hv.2⟩
  split
  · exact keeps_newAny
  · exact keeps_raise _

theorem keeps_forEachMem {σ α : Type} {Q : σ → Prop} {f : α → PyM σ Unit} : ∀ {l : List α}, (∀ a ∈ l, Keeps Q (f a)) → Keeps Q (forEach f l)
  | [], _ => keeps_pure ()
  | a :: _, h => keeps_bind (h a List.mem_cons_self) (fun _ => keeps_forEachMem (fun b hb => h b (List.mem_cons_of_mem _ hb)))

theorem meets_loop : ∀ (es : List Event) (d : Int) (b : Nat), (∀ e ∈ es, Only P [e.node] ∧ ∀ p, e.parent = some p → Only P [p]) →
    Keeps (PState.Meets (only P ins)) (loop cfg d b es)
  | [], _, _, _ => keeps_pure ()
  | e :: es, d, b, h => by
    unfold loop
    simp only
    have ih := fun d b => meets_loop es d b (fun e' he => h e' (List.mem_cons_of_mem _ he))
    split
    · exact ih _ _
    · refine keeps_bind ?_ (fun _ => ih _ _)
      unfold onEvent
      split
      · exact meets_onStart (h e List.mem_cons_self).1
      · unfold onEnd
        split
        · exact keeps_endRowMeets trivial trivial
        split
        · unfold endCorpus
          refine keeps_bind (keeps_forEachMem (fun n hn => keeps_bind keeps_nextRowMeets (fun _ => meets_notes ?_)))
            (fun _ => keeps_tableMeets (keeps_fillHolesMeets trivial trivial))
          unfold FmxP.notesOf at hn
          split at hn
          · cases hn
          · next p hp =>
            exact only_mem.mp (only_children ((h e List.mem_cons_self).2 p hp)) n
              (List.takeWhile_sublist _ |>.subset (List.mem_of_mem_filter hn))
        · exact keeps_pure ()

theorem parsed {b : Nat} {p : Option Node} {n : Node} {s s' : PState} {t : Table Content} (hn : Only P [n]) (hp : ∀ m, p = some m → Only P [m])
    (h : parseTable cfg b p n s = (.ok (some t), s')) : t.Meets (only P ins) :=
  parsed_meets (meets_loop _ 0 b (fun e he => ⟨only_preorder hn _ (walk_mem _ _ n e he),
    walk_events (Q := fun p _ => ∀ m, p = some m → Only P [m]) (selected cfg) p n hp
      (fun m hm _ _ m' e => by cases e; exact only_preorder hn _ hm) e he⟩)) h

end OfFormex

namespace OfWord
open Ooxml
variable {cfg : Ooxml.Config}

theorem select_only : ∀ {path : List (List String)} {ns : List Node}, Only P ns →
    Only P (path.foldl (fun ns names => ns.flatMap (fun m => m.children.filter (fun c => c.tag? ∈ names.map (fun x => some (w x))))) ns)
  | [], _, h => h
  | names :: path, ns, h => by
    refine select_only (path := path) (only_mem.mpr ?_)
    intro n hn
    obtain ⟨m, hm, hn⟩ := List.mem_flatMap.mp hn
    exact only_mem.mp (only_children (only_mem.mp h m hm)) n (List.mem_of_mem_filter hn)

theorem joins : Joins (only P ins) addContent := by
  intro a b r ha hb h
  cases a <;> cases b <;> cases h
  · have ha' : OnlyText P (some _) := ha
    exact onlyText_append ha' hb
  · intro c hc
    rcases List.mem_append.mp hc with hc | hc
    · exact ha c hc
    · exact hb c hc

theorem each_height {n : Node} {st : Styles} (h : rowHeight cfg n = .ok st) : Each ((only P ins).view .row) st := by
  unfold rowHeight at h
  split at h
  · cases h; exact each_nil _
  · simp only [Dict.get?, List.find?_cons, List.find?_nil] at h
    revert h
    split
    · intro h; cases h
    · intro h; cases h; exact each_nil _
    · rename_i style hx
      intro h
      cases ht : twipsText cfg ((attrOf (some n) [["trPr"], ["tblHeader"]] "val").getD "0") with
      | error e => rw [ht] at h; cases h
      | ok v =>
        rw [ht] at h; cases h
        refine each_not ?_
        intro p hp
        rw [List.mem_singleton] at hp
        subst hp
        revert hx
        split
        · intro hx; cases hx; simp
        · split
          · intro hx; cases hx; simp
          · split
            · intro hx; cases hx
            · intro hx; cases hx

theorem each_ins {n : Node} (hn : Only P [n]) (hins : (∃ a, P (.opening (w "ins") a)) → ins) : Each ((only P ins).view .row) (rowIns n) := by
  unfold rowIns
  split
  · exact each_nil _
  · next m hm =>
    intro p _ _ _
    apply hins
    have h2 : m ∈ select [["trPr"], ["ins"]] n := List.mem_of_head? hm
    have h1 : Only P [m] := only_mem.mp (select_only (path := [["trPr"], ["ins"]]) hn) m h2
    simp only [select, List.foldl_cons, List.foldl_nil] at h2
    obtain ⟨_, _, h3⟩ := List.mem_flatMap.mp h2
    have h4 := (List.mem_filter.mp h3).2
    simp only [List.map_cons, List.map_nil, List.mem_singleton, decide_eq_true_eq] at h4
    cases m with
    | elem t a x cs tl => cases h4; exact ⟨a, (only_elem.mp h1).1⟩
    | pi => cases h4
    | comment => cases h4

theorem meets_onStart {sect : Option Node} {n : Node} (hn : Only P [n]) (hins : (∃ a, P (.opening (w "ins") a)) → ins) :
    Keeps (PState.Meets (only P ins)) (onStart cfg sect n) := by
  unfold onStart
  split
  · exact keeps_newAny
  split
  · exact keeps_pure ()
  split
  · refine keeps_bind keeps_nextColMeets (fun _ => ?_)
    unfold parseGridCol
    refine keeps_bind_lift (fun v hv => keeps_bind keeps_get (fun _ => keeps_tableMeets (keeps_editMeets trivial _ _ ?_)))
    intro w hw
    exact ⟨each_colAny, hw.2⟩
  split
  · refine keeps_bind keeps_nextRowMeets (fun _ => ?_)
    unfold parseTr
    refine keeps_bind_lift (fun nature _ => keeps_bind_lift (fun st hst => keeps_bind keeps_get (fun _ =>
      keeps_bind (keeps_tableMeets (keeps_editMeets trivial _ _ ?_)) ?_)))
    · intro v hv
      exact ⟨each_update (each_update hv.1 (each_height hst)) (each_ins hn hins), trivial⟩
    · intro _ s hs
      exact ⟨hs.1, fun r e => trivial⟩
  split
  · refine keeps_bind keeps_nextColMeets (fun _ => ?_)
    unfold parseTc
    refine keeps_bind (keeps_lift _) (fun _ => keeps_bind (fun _ h => h) (fun _ => ?_))
    split
    · unfold newCell
      refine keeps_bind_lift (fun st hst => keeps_bind_row (fun r hr => keeps_tableMeets (keeps_insertMeets trivial _ _ _ _ ?_ (each_true _) trivial)))
      intro c hc
      obtain ⟨m, hm, rfl⟩ := List.mem_map.mp hc
      unfold tcContent at hm
      obtain ⟨m', hm', rfl⟩ := List.mem_map.mp hm
      exact only_setTail (only_mem.mp (select_only (path := [["p", "tbl"]]) hn) m' hm') onlyText_none
    split
    · unfold continueCell
      exact keeps_bind keeps_get (fun _ => keeps_bind_row (fun r hr => keeps_tableMeets (keeps_expandMeets trivial joins _ _ _)))
    · exact keeps_raise _
  · exact keeps_raise _

theorem meets_loop {sect : Option Node} (hins : (∃ a, P (.opening (w "ins") a)) → ins) : ∀ (es : List Event) (d : Int), (∀ e ∈ es, Only P [e.node]) →
    Keeps (PState.Meets (only P ins)) (loop cfg sect d es)
  | [], _, _ => keeps_pure ()
  | e :: es, d, h => by
    unfold loop
    simp only
    have ih := fun d => meets_loop (sect := sect) hins es d (fun e' he => h e' (List.mem_cons_of_mem _ he))
    split
    · exact ih _
    · refine keeps_bind ?_ (fun _ => ih _)
      unfold onEvent
      split
      · exact meets_onStart (h e List.mem_cons_self) hins
      · unfold onEnd
        split
        · exact keeps_endRowMeets trivial trivial
        · exact keeps_pure ()

theorem parsed {sect : Option Node} {n : Node} {s s' : PState} {t : Table Content} (hn : Only P [n]) (hins : (∃ a, P (.opening (w "ins") a)) → ins)
    (h : parseTable cfg sect n s = (.ok (some t), s')) : t.Meets (only P ins) :=
  parsed_meets (meets_loop hins _ 0 (fun e he => only_preorder hn _ (walk_mem _ _ n e he))) h

end OfWord
end

/-! ### builders -/

theorem mapM_mem {α β : Type} {f : α → Except PyErr β} {l : List α} {r : List β} (h : l.mapM f = .ok r) {b : β} (hb : b ∈ r) : ∃ a ∈ l, f a = .ok b :=
  (mapM_ok_all₂ h).mem_right hb

/-- the rows of a table list its cells and meet the demands -/
def Rows (P : Tok → Prop) (ins : Prop) (rows : List (View Content)) : Prop :=
  ∀ r ∈ rows, Each ((only P ins).view .row) r.styles ∧ ∀ c ∈ r.owned, OnlyContent P c.content

theorem rows_of {ins : Prop} {t : Table Content} (hi : t.Inv) (h : t.Meets (only P ins)) : Rows P ins (t.baseViews .row) := by
  have hv : eval (Table.views .row) t = .ok (t.baseViews .row) := by rw [eval, Table.views_run .row t hi.grid]
  intro r hr
  refine ⟨((meets_views trivial .row h).2 _ hv r hr).1, ?_⟩
  intro c hc
  exact (h.cells c (((Table.base_describes hi .row).owned r hr c).mp hc).1).2.2

/-- the revision marks may be put around the rows -/
def Marks (P : Tok → Prop) (ins : Prop) : Prop := ins → ∀ d, P (.pi "change-start" d) ∧ P (.pi "change-end" d)

theorem has_ins {ins : Prop} {st : Styles} (h : Each ((only P ins).view .row) st) (hx : Dict.has st "x-ins" = true) : ins := by
  unfold Dict.has at hx
  cases hg : Dict.get? st "x-ins" with
  | none => rw [hg] at hx; cases hx
  | some v => exact each_get h hg rfl rfl

theorem mark_only {name d : String} (h : P (.pi name d)) : Only P [.pi name d none] := by
  intro k hk
  simp only [toksList, toks, textToks, List.append_nil, List.mem_singleton] at hk
  subst hk; exact h

theorem group_mem {cfg : Cals.Config} {rows g : List (View Content)} (hg : g ∈ Cals.rowGroups cfg rows) {r : View Content} (hr : r ∈ g) : r ∈ rows := by
  have h1 := (Cals.sortedBy_perm _ _).mem_iff.mp hg
  rw [← Cals.groupBy_flatten (fun r : View Content => r.nature) rows]
  exact List.mem_flatten.mpr ⟨g, h1, hr⟩

section cals
variable {ins : Prop} {ns : Option String} (hV : ∀ q, InCals ns q → ∀ a, P (.opening q a) ∧ P (.closing q)) (hm : Marks P ins)
include hV

theorem cals_elem {cfg : Cals.Config} (hns : cfg.ns = ns) {tag : String} (ht : tag ∈ calsNames) {a : Dict QName String} {x : Option String} {cs : List Node}
    (hx : OnlyText P x) (hcs : Only P cs) : Only P [.elem (cfg.q tag) a x cs none] := by
  have := hV (cfg.q tag) ⟨hns, ht⟩ a
  exact only_elem.mpr ⟨this.1, hx, hcs, this.2, onlyText_none⟩

include hm

theorem cals_row {cfg : Cals.Config} (hns : cfg.ns = ns) {cs rs : String} {bb : Option Box} {row : View Content} {l : List Node}
    (hr : Each ((only P ins).view .row) row.styles ∧ ∀ c ∈ row.owned, OnlyContent P c.content) (h : Cals.buildRow cfg cs rs bb row = .ok l) : Only P l := by
  unfold Cals.buildRow at h
  obtain ⟨attrs, _, h⟩ := bind_ok h
  obtain ⟨entries, he, h⟩ := bind_ok h
  have hent : Only P entries := by
    refine only_mem.mpr (fun e hem => ?_)
    obtain ⟨c, hc, h1⟩ := mapM_mem he hem
    unfold Cals.buildCell at h1
    split at h1
    · cases h1
    · obtain ⟨_, _, h1⟩ := bind_ok h1
      obtain ⟨f, hf, h1⟩ := bind_ok h1
      cases h1
      obtain ⟨g1, g2⟩ := append_only (hr.2 c hc) hf
      exact cals_elem hV hns (by decide) g1 g2
  have hrow : Only P [.elem (cfg.q "row") attrs none entries none] := cals_elem hV hns (by decide) onlyText_none hent
  simp only at h
  split at h
  · next hx =>
    obtain ⟨_, _, h⟩ := bind_ok h
    obtain ⟨_, _, h⟩ := bind_ok h
    obtain ⟨_, _, h⟩ := bind_ok h
    cases h
    have hmk := hm (has_ins hr.1 hx)
    exact only_cons.mpr ⟨mark_only (hmk _).1, only_cons.mpr ⟨hrow, mark_only (hmk _).2⟩⟩
  · cases h; exact hrow

theorem cals_tree {b : Cals.Config} (hns : b.ns = ns) {t : Table Content} (hi : t.Inv) (h : t.Meets (only P ins)) {tree : Node}
    (ht : eval (Cals.generate b) t = .ok tree) : Only P [tree] := by
  obtain ⟨bb, _, e⟩ := generate_eq hi b
  have hrows := rows_of hi h
  rw [e] at ht
  unfold Cals.buildTree at ht
  obtain ⟨_, _, ht⟩ := bind_ok ht
  obtain ⟨_, _, ht⟩ := bind_ok ht
  obtain ⟨_, _, ht⟩ := bind_ok ht
  obtain ⟨tg, htg, ht⟩ := bind_ok ht
  cases ht
  refine cals_elem hV hns (by decide) onlyText_none ?_
  unfold Cals.buildTgroup at htg
  obtain ⟨_, _, htg⟩ := bind_ok htg
  obtain ⟨colspecs, hc, htg⟩ := bind_ok htg
  obtain ⟨groups, hg, htg⟩ := bind_ok htg
  cases htg
  refine cals_elem hV hns (by decide) onlyText_none (only_append.mpr ⟨only_mem.mpr ?_, only_mem.mpr ?_⟩)
  · intro n hn
    obtain ⟨v, _, h1⟩ := mapM_mem hc hn
    unfold Cals.buildColspec at h1
    obtain ⟨_, _, h1⟩ := bind_ok h1
    obtain ⟨_, _, h1⟩ := bind_ok h1
    obtain ⟨_, _, h1⟩ := bind_ok h1
    cases h1
    exact cals_elem hV hns (by decide) onlyText_none only_nil
  · intro n hn
    obtain ⟨g, hgm, h1⟩ := mapM_mem hg hn
    unfold Cals.buildTbody at h1
    obtain ⟨elems, hel, h1⟩ := bind_ok h1
    cases h1
    refine cals_elem hV hns ?_ onlyText_none (only_mem.mpr ?_)
    · unfold Cals.groupTag
      split
      · decide
      · split <;> decide
    · intro m hm'
      obtain ⟨l, hl, hml⟩ := List.mem_flatten.mp hm'
      obtain ⟨r, hr, h2⟩ := mapM_mem hel hl
      exact only_mem.mp (cals_row hV hm hns (hrows r (group_mem hgm hr)) h2) m hml

end cals

theorem fmx_elem {names : List String} (hV : ∀ n ∈ names, ∀ a, P (.opening (f n) a) ∧ P (.closing (f n))) {tag : String} (ht : tag ∈ names)
    {a : Dict QName String} {x tl : Option String} {cs : List Node}
    (hx : OnlyText P x) (hcs : Only P cs) (htl : OnlyText P tl) : Only P [.elem (f tag) a x cs tl] := by
  have := hV tag ht a
  exact only_elem.mpr ⟨this.1, hx, hcs, this.2, htl⟩

section formex
variable {ins : Prop} {b : Fmx.Config} (hV : ∀ n ∈ formexNames.erase "ROW", ∀ a, P (.opening (f n) a) ∧ P (.closing (f n)))
  (hC : b.useCals = true → ∀ a, P (.opening ⟨b.calsNs, "colspec"⟩ a) ∧ P (.closing ⟨b.calsNs, "colspec"⟩))
  (hP : b.detectTitles = true → P (.opening (f "P") []) ∧ P (.closing (f "P"))) (hm : Marks P ins)
include hV

theorem ie_only : Only P [ieElem] := fmx_elem hV (by decide) onlyText_none only_nil onlyText_none

theorem fmx_cell {cs rs : String} {bb : Option Box} {nature : Option String} {c : Cell Content} {e : Node} (hc : OnlyContent P c.content)
    (h : Fmx.buildCell b cs rs bb nature c = .ok e) : Only P [e] := by
  unfold Fmx.buildCell at h
  obtain ⟨attrs, _, h⟩ := bind_ok h
  split at h
  · cases h; exact fmx_elem hV (by decide) onlyText_none (ie_only hV) onlyText_none
  · obtain ⟨g, hg, h⟩ := bind_ok h
    cases h
    obtain ⟨g1, g2⟩ := append_only hc hg
    exact fmx_elem hV (by decide) g1 g2 onlyText_none

omit hV in
theorem piece_node {c : Option Content} {n : Node} (hc : OnlyPiece P c) (h : asNode c = .ok n) : Only P [n] := by
  unfold asNode at h
  split at h
  · cases h; exact hc
  · cases h

include hP

theorem title_only (hd : b.detectTitles = true) {c : Cell Content} {l : List Node} (hc : OnlyContent P c.content) (h : titleCell c = .ok l) : Only P l := by
  unfold titleCell at h
  split at h
  · cases h; exact fmx_elem hV (by decide) onlyText_none (ie_only hV) onlyText_none
  · split at h
    · next s hs =>
      cases h
      rw [hs] at hc
      exact fmx_elem hV (by decide) onlyText_none (only_elem.mpr ⟨(hP hd).1, hc, only_nil, (hP hd).2, onlyText_none⟩) onlyText_none
    · obtain ⟨ps, hps, h⟩ := bind_ok h
      have hall : ∀ x ∈ ps, OnlyPiece P x := by
        unfold paragraphs at hps
        split at hps
        · next e => cases hps; rw [e] at hc; exact hc
        · next n e =>
          cases hps
          rw [e] at hc
          intro x hx
          obtain ⟨m, hm, rfl⟩ := List.mem_map.mp hx
          exact only_mem.mp (only_children (n := n) hc) m hm
        · cases hps
      split at h
      · cases h
      · next p ps =>
        obtain ⟨first, h1, h⟩ := bind_ok h
        obtain ⟨others, h2, h⟩ := bind_ok h
        cases h
        refine only_cons.mpr ⟨fmx_elem hV (by decide) onlyText_none (piece_node (hall p List.mem_cons_self) h1) onlyText_none,
          fmx_elem hV (by decide) onlyText_none (only_mem.mpr ?_) onlyText_none⟩
        intro n hn
        obtain ⟨x, hx, hxn⟩ := mapM_mem h2 hn
        exact piece_node (hall x (List.mem_cons_of_mem _ hx)) hxn

theorem split_only {bb : Option Box} {first : Except PyErr (Cell Content)} {base rows : List (View Content)} {title : List Node} (hrows : Rows P ins base)
    (hs : splitTitle b bb first base = .ok (title, rows)) : Only P title ∧ ∀ r ∈ rows, r ∈ base := by
  unfold splitTitle at hs
  split at hs
  · next hd =>
    obtain ⟨c, _, hs⟩ := bind_ok hs
    obtain ⟨yes, _, hs⟩ := bind_ok hs
    split at hs
    · split at hs
      · cases hs
      · next r rest _ _ =>
        obtain ⟨ti, hti, hs⟩ := bind_ok hs
        cases hs
        refine ⟨?_, fun r' hr' => List.mem_cons_of_mem _ hr'⟩
        unfold buildTitle at hti
        obtain ⟨l, hl, hti⟩ := bind_ok hti
        cases hti
        refine fmx_elem hV (by decide) onlyText_none (only_mem.mpr ?_) onlyText_none
        intro n hn
        obtain ⟨l', hl', hn'⟩ := List.mem_flatten.mp hn
        obtain ⟨c, hc, h1⟩ := mapM_mem hl hl'
        exact only_mem.mp (title_only hV hP hd ((hrows _ List.mem_cons_self).2 c hc) h1) n hn'
    · cases hs; exact ⟨only_nil, fun r hr => hr⟩
  · cases hs; exact ⟨only_nil, fun r hr => hr⟩

omit hP
include hm

theorem fmx_row {cs rs : String} {bb : Option Box} {row : View Content} {l : List Node}
    (hr : Each ((only P ins).view .row) row.styles ∧ ∀ c ∈ row.owned, OnlyContent P c.content)
    (hR : ∀ attrs, rowAttrs b rs row = .ok attrs → P (.opening (f "ROW") attrs) ∧ P (.closing (f "ROW"))) (h : Fmx.buildRow b cs rs bb row = .ok l) : Only P l := by
  unfold Fmx.buildRow at h
  obtain ⟨attrs, ha, h⟩ := bind_ok h
  obtain ⟨cells, he, h⟩ := bind_ok h
  have hent : Only P cells := by
    refine only_mem.mpr (fun e hem => ?_)
    obtain ⟨c, hc, h1⟩ := mapM_mem he hem
    exact fmx_cell hV (hr.2 c hc) h1
  have hrow : Only P [.elem (f "ROW") attrs none cells none] := only_elem.mpr ⟨(hR _ ha).1, onlyText_none, hent, (hR _ ha).2, onlyText_none⟩
  simp only at h
  split at h
  · next hx =>
    obtain ⟨_, _, h⟩ := bind_ok h
    obtain ⟨_, _, h⟩ := bind_ok h
    obtain ⟨_, _, h⟩ := bind_ok h
    cases h
    have hmk := hm (has_ins hr.1 hx)
    exact only_cons.mpr ⟨mark_only (hmk _).1, only_cons.mpr ⟨hrow, mark_only (hmk _).2⟩⟩
  · cases h; exact hrow

include hP hC

theorem fmx_tree {k : Nat} {t : Table Content} (hi : t.Inv) (h : t.Meets (only P ins))
    (hR : ∀ r ∈ t.baseViews .row, ∀ rs attrs, rowAttrs b rs r = .ok attrs → P (.opening (f "ROW") attrs) ∧ P (.closing (f "ROW")))
    {tree : Node} (ht : eval (Fmx.generate b k) t = .ok tree) : Only P [tree] := by
  obtain ⟨bb, _, e⟩ := fmx_generate_eq hi b k
  have hrows := rows_of hi h
  rw [e] at ht
  obtain ⟨attrs, cattrs, title, colspecs, nodes, rows, B, -, -, -, hs, -, -, rfl, hc0, hc1, hr⟩ := fmx_buildTree_raw ht
  refine fmx_elem hV (by decide) onlyText_none ?_ onlyText_none
  have hsplit : Only P title ∧ ∀ r ∈ rows, r ∈ t.baseViews .row := split_only hV hP hrows hs
  refine only_append.mpr ⟨hsplit.1, fmx_elem hV (by decide) onlyText_none (only_append.mpr ⟨only_mem.mpr ?_, only_mem.mpr ?_⟩) onlyText_none⟩
  · intro n hn
    cases hu : b.useCals with
    | false => rw [hc0 hu] at hn; cases hn
    | true =>
      obtain ⟨v, _, h1⟩ := (hc1 hu).mem_right hn
      unfold Fmx.buildColspec at h1
      obtain ⟨_, _, h1⟩ := bind_ok h1
      obtain ⟨_, _, h1⟩ := bind_ok h1
      obtain ⟨_, _, h1⟩ := bind_ok h1
      cases h1
      exact only_elem.mpr ⟨(hC hu _).1, onlyText_none, only_nil, (hC hu []).2, onlyText_none⟩
  · intro m hm'
    obtain ⟨l, hl, hml⟩ := List.mem_flatten.mp hm'
    obtain ⟨r, hr', h2⟩ := hr.mem_right hl
    exact only_mem.mp (fmx_row hV hm (hrows r (hsplit.2 r hr')) (hR r (hsplit.2 r hr') _) h2) m hml

end formex

/-! ### finalisation -/

theorem only_attrs {t : QName} {a a' : Dict QName String} {x : Option String} {cs : List Node} {tl : Option String} (h : Only P [.elem t a x cs tl])
    (h' : P (.opening t a) → P (.opening t a')) : Only P [.elem t a' x cs tl] := by
  obtain ⟨h1, h2⟩ := only_elem.mp h
  exact only_elem.mpr ⟨h' h1, h2⟩

theorem only_inner {t : QName} {a : Dict QName String} {x x' : Option String} {cs cs' : List Node} {tl : Option String} (h : Only P [.elem t a x cs tl])
    (hx : OnlyText P x') (hcs : Only P cs') : Only P [.elem t a x' cs' tl] := by
  obtain ⟨h1, -, -, h4, h5⟩ := only_elem.mp h
  exact only_elem.mpr ⟨h1, hx, hcs, h4, h5⟩

section final
variable (hV : ∀ n ∈ formexNames.erase "ROW", ∀ a, P (.opening (f n) a) ∧ P (.closing (f n)))
  (hR : ∀ a a', Dict.get? a' (f "TYPE") = none ∨ Dict.get? a' (f "TYPE") = Dict.get? a (f "TYPE") → P (.opening (f "ROW") a) → P (.opening (f "ROW") a'))

mutual
theorem cleanup_only : ∀ {n : Node}, Only P [n] → Only P [cleanupNode n]
  | .elem t a x cs tl, h => by
    obtain ⟨-, hx, hcs, -, -⟩ := only_elem.mp h
    unfold cleanupNode
    refine only_inner h hx ?_
    split
    · exact cleanupIn_only hcs
    · exact cleanupList_only hcs
  | .pi .., h => h
  | .comment .., h => h
theorem cleanupList_only : ∀ {ns : List Node}, Only P ns → Only P (cleanupList ns)
  | [], h => h
  | n :: ns, h => by
    obtain ⟨h1, h2⟩ := only_cons.mp h
    unfold cleanupList
    exact only_cons.mpr ⟨cleanup_only h1, cleanupList_only h2⟩
theorem cleanupIn_only : ∀ {ns : List Node}, Only P ns → Only P (cleanupInTable ns)
  | [], h => h
  | .elem t a x cs tl :: ns, h => by
    obtain ⟨h1, h2⟩ := only_cons.mp h
    obtain ⟨-, hx, hcs, -, -⟩ := only_elem.mp h1
    unfold cleanupInTable
    split
    · exact only_append.mpr ⟨cleanupIn_only hcs, cleanupIn_only h2⟩
    · exact only_cons.mpr ⟨only_inner h1 hx (cleanupList_only hcs), cleanupIn_only h2⟩
  | .pi .. :: ns, h => by
    obtain ⟨h1, h2⟩ := only_cons.mp h
    exact only_cons.mpr ⟨h1, cleanupIn_only h2⟩
  | .comment .. :: ns, h => by
    obtain ⟨h1, h2⟩ := only_cons.mp h
    exact only_cons.mpr ⟨h1, cleanupIn_only h2⟩
end

theorem modifyFirst_only {p : Node → Bool} {g : Node → Node} (hg : ∀ n, p n = true → Only P [n] → Only P [g n]) :
    ∀ {ns : List Node}, Only P ns → Only P (modifyFirst p g ns)
  | [], h => h
  | n :: ns, h => by
    obtain ⟨h1, h2⟩ := only_cons.mp h
    unfold modifyFirst
    split
    · next hp => exact only_cons.mpr ⟨hg n hp h1, h2⟩
    · exact only_cons.mpr ⟨h1, modifyFirst_only hg h2⟩

/-- what is known of a note -/
def OnlyNote (P : Tok → Prop) (k : Note) : Prop := OnlyText P k.before ∧ Only P k.nodes

theorem putNote_only {text : Option String} {before : List Node} {k : Note} (ht : OnlyText P text) (h : Only P before) (hk : OnlyNote P k) :
    OnlyText P (putNote text before k).1 ∧ Only P (putNote text before k).2 := by
  unfold putNote
  split
  · exact ⟨ht, only_append.mpr ⟨h, hk.2⟩⟩
  · next s hs =>
    have hs' : OnlyText P (some s) := by rw [← hs]; exact hk.1
    split
    · exact ⟨onlyText_append ht hs', hk.2⟩
    · next p ps e =>
      have e' : before = ps.reverse ++ [p] := by rw [← List.reverse_reverse before, e]; simp
      rw [e'] at h
      obtain ⟨h1, h2⟩ := only_append.mp h
      exact ⟨ht, only_append.mpr ⟨only_append.mpr ⟨h1, only_setTail h2 (onlyText_append (only_tail h2) hs')⟩, hk.2⟩⟩

theorem putNotes_only : ∀ {ks : List Note} {text : Option String} {before : List Node}, OnlyText P text → Only P before → (∀ k ∈ ks, OnlyNote P k) →
    OnlyText P (putNotes text before ks).1 ∧ Only P (putNotes text before ks).2
  | [], _, _, ht, h, _ => ⟨ht, h⟩
  | k :: ks, text, before, ht, h, hk => by
    unfold putNotes
    obtain ⟨g1, g2⟩ := putNote_only ht h (hk k List.mem_cons_self)
    exact putNotes_only g1 g2 (fun k' hk' => hk k' (List.mem_cons_of_mem _ hk'))

/-- the blocks which are open -/
def OnlyOpen (P : Tok → Prop) (o : Open) : Prop := ∀ cs ∈ o, Only P cs

theorem onlyOpen_add {n : Node} {o : Open} (h : OnlyOpen P o) (hn : Only P [n]) : OnlyOpen P (o.add n) := by
  cases o with
  | nil => exact h
  | cons cs rest =>
    intro c hc
    rcases List.mem_cons.mp hc with rfl | hc
    · exact only_append.mpr ⟨h cs List.mem_cons_self, hn⟩
    · exact h c (List.mem_cons_of_mem _ hc)

theorem onlyOpen_push : ∀ {k : Nat} {o : Open}, OnlyOpen P o → OnlyOpen P (o.push k)
  | 0, _, h => h
  | k + 1, o, h => onlyOpen_push (k := k) (fun c hc => by
    rcases List.mem_cons.mp hc with rfl | hc
    · exact only_nil
    · exact h c hc)

include hV

mutual
theorem number_only (l : Nat) (s : List Nat) (n : Node) (h : Only P [n]) : Only P [(numberNode l s n).1] := by
  cases n with
  | elem t a x cs tl =>
    obtain ⟨-, hx, hcs, -, -⟩ := only_elem.mp h
    unfold numberNode
    split
    · next ht =>
      subst ht
      exact only_inner (only_attrs h (fun _ => (hV "TBL" (by decide) _).1)) hx (numberList_only _ _ cs hcs)
    · exact only_inner h hx (numberList_only _ _ cs hcs)
  | pi => exact h
  | comment => exact h
theorem numberList_only (l : Nat) (s : List Nat) (ns : List Node) (h : Only P ns) : Only P (numberList l s ns).1 := by
  cases ns with
  | nil => exact h
  | cons n ns =>
    obtain ⟨h1, h2⟩ := only_cons.mp h
    unfold numberList
    exact only_cons.mpr ⟨number_only _ _ n h1, numberList_only _ _ ns h2⟩
end

theorem addAttrs_only {extra : Dict QName String} {n : Node} (hn : isElem "GR.NOTES" n = true) (h : Only P [n]) : Only P [addAttrs extra n] := by
  cases n with
  | elem t a x cs tl =>
    have ht : t = f "GR.NOTES" := by simpa [isElem, Node.tag?] using hn
    subst ht
    exact only_attrs h (fun _ => (hV "GR.NOTES" (by decide) _).1)
  | pi => exact h
  | comment => exact h

theorem makeNote_only {a : Dict QName String} {cs : List Node} {k : Note} (h : Only P cs) (hk : makeNote a cs = .ok k) : OnlyNote P k := by
  unfold makeNote at hk
  split at hk
  · cases hk
  · next cell hc =>
    have h0 := only_mem.mp h cell (List.mem_of_find?_eq_some hc)
    have hx := onlyText_safe (only_text h0)
    split at hk
    · cases hk
      exact ⟨hx, modifyFirst_only (fun n hn h => addAttrs_only hV hn h) (only_children h0)⟩
    · cases hk
      exact ⟨onlyText_none, addAttrs_only hV (by simp [isElem, Node.tag?]) (fmx_elem hV (by decide) hx (only_children h0) onlyText_none)⟩

include hR

theorem closeElem_only {t : QName} {a : Dict QName String} {x : Option String} {cs cs' : List Node} {tl : Option String} {notes : List Note}
    {r : List Node × List Note} (h : Only P [.elem t a x cs tl]) (g1 : Only P cs') (g2 : ∀ k ∈ notes, OnlyNote P k)
    (he : closeElem t a x cs' tl notes = .ok r) : Only P r.1 ∧ ∀ k ∈ r.2, OnlyNote P k := by
  obtain ⟨-, hx, -, -, -⟩ := only_elem.mp h
  have hno : ∀ k ∈ ([] : List Note), OnlyNote P k := fun k hk => by cases hk
  unfold closeElem at he
  split at he
  · split at he
    · cases he; exact ⟨only_inner h hx g1, hno⟩
    · split at he
      · cases he
        obtain ⟨p1, p2⟩ := putNotes_only (before := cs'.takeWhile (fun c => !isElem "CORPUS" c)) hx
          (only_sub g1 (fun n hn => List.takeWhile_sublist _ |>.subset hn)) g2
        exact ⟨only_inner h p1 (only_append.mpr ⟨p2, only_sub g1 (fun n hn => List.dropWhile_sublist _ |>.subset hn)⟩), hno⟩
      · cases he
  · split at he
    · next ht =>
      subst ht
      cases he
      exact ⟨only_inner (only_attrs h (hR _ _ (.inl (by rw [get?_erase, if_pos rfl])))) hx g1, g2⟩
    · cases he; exact ⟨only_inner h hx g1, g2⟩

mutual
theorem move_only (s : Bool) (n : Node) (h : Only P [n]) (r : List Node × List Note × Bool) (he : moveNode s n = .ok r) :
    Only P r.1 ∧ ∀ k ∈ r.2.1, OnlyNote P k := by
  cases n with
  | elem t a x cs tl =>
    obtain ⟨-, hx, hcs, -, -⟩ := only_elem.mp h
    unfold moveNode at he
    split at he
    · cases he; exact ⟨h, fun k hk => by cases hk⟩
    · split at he
      · next ht =>
        obtain ⟨ht, -⟩ := ht
        subst ht
        split at he
        · obtain ⟨⟨cs', notes, s'⟩, g, he⟩ := bind_ok he
          obtain ⟨g1, g2⟩ := moveFirst_only cs hcs _ g
          obtain ⟨k, hk, he⟩ := bind_ok he
          cases he
          refine ⟨only_nil, ?_⟩
          intro k' hk'
          rcases List.mem_cons.mp hk' with rfl | hk'
          · exact makeNote_only hV g1 hk
          · exact g2 k' hk'
        · obtain ⟨k, hk, he⟩ := bind_ok he
          obtain ⟨lost, -, he⟩ := bind_ok he
          split at he
          · cases he
            refine ⟨only_nil, ?_⟩
            intro k' hk'
            rcases List.mem_cons.mp hk' with rfl | hk'
            · exact makeNote_only hV hcs hk
            · cases hk'
          · cases he
      · obtain ⟨⟨cs', notes, s'⟩, g, he⟩ := bind_ok he
        obtain ⟨g1, g2⟩ := moveList_only false cs hcs _ g
        obtain ⟨r', hr, he⟩ := bind_ok he
        cases he
        exact closeElem_only hV hR h g1 g2 hr
  | pi => cases he; exact ⟨h, fun k hk => by cases hk⟩
  | comment => cases he; exact ⟨h, fun k hk => by cases hk⟩
theorem moveList_only (s : Bool) (ns : List Node) (h : Only P ns) (r : List Node × List Note × Bool) (he : moveList s ns = .ok r) :
    Only P r.1 ∧ ∀ k ∈ r.2.1, OnlyNote P k := by
  cases ns with
  | nil => cases he; exact ⟨h, fun k hk => by cases hk⟩
  | cons n ns =>
    obtain ⟨h1, h2⟩ := only_cons.mp h
    unfold moveList at he
    obtain ⟨⟨l1, k1, s1⟩, e1, he⟩ := bind_ok he
    obtain ⟨⟨l2, k2, s2⟩, e2, he⟩ := bind_ok he
    cases he
    obtain ⟨a1, a2⟩ := move_only s n h1 _ e1
    obtain ⟨b1, b2⟩ := moveList_only _ ns h2 _ e2
    exact ⟨only_append.mpr ⟨a1, b1⟩, fun k hk => (List.mem_append.mp hk).elim (a2 k) (b2 k)⟩
theorem moveFirst_only (ns : List Node) (h : Only P ns) (r : List Node × List Note × Bool) (he : moveFirst ns = .ok r) :
    Only P r.1 ∧ ∀ k ∈ r.2.1, OnlyNote P k := by
  cases ns with
  | nil => cases he; exact ⟨h, fun k hk => by cases hk⟩
  | cons n ns =>
    obtain ⟨h1, h2⟩ := only_cons.mp h
    unfold moveFirst at he
    split at he
    · obtain ⟨⟨l1, k1, s1⟩, e1, he⟩ := bind_ok he
      cases he
      obtain ⟨a1, a2⟩ := move_only false n h1 _ e1
      exact ⟨only_append.mpr ⟨a1, h2⟩, a2⟩
    · obtain ⟨⟨l1, k1, s1⟩, e1, he⟩ := bind_ok he
      cases he
      obtain ⟨a1, a2⟩ := moveFirst_only ns h2 _ e1
      exact ⟨only_cons.mpr ⟨h1, a1⟩, a2⟩
end

omit hR in
theorem onlyOpen_close {o : Open} (h : OnlyOpen P o) : OnlyOpen P o.close := by
  cases o with
  | nil => exact h
  | cons cs o =>
    cases o with
    | nil => exact h
    | cons p rest =>
      intro c hc
      rcases List.mem_cons.mp hc with rfl | hc
      · exact only_append.mpr ⟨h p (by simp), fmx_elem hV (by decide) onlyText_none (h cs (by simp)) onlyText_none⟩
      · exact h c (by simp [hc])

omit hR in
theorem onlyOpen_pop : ∀ {k : Nat} {o : Open}, OnlyOpen P o → OnlyOpen P (o.pop k)
  | 0, _, h => h
  | k + 1, _, h => onlyOpen_pop (k := k) (onlyOpen_close hV h)

omit hR in
theorem onlyOpen_level {k : Nat} {o : Open} (h : OnlyOpen P o) : OnlyOpen P (o.toLevel k) := by
  unfold Open.toLevel
  split
  · exact onlyOpen_push h
  · exact onlyOpen_pop hV h

mutual
theorem drop_only (cfg : Fmx.Config) (i : Bool) (n : Node) (h : Only P [n]) : Only P [dropNode cfg i n] := by
  cases n with
  | elem t a x cs tl =>
    obtain ⟨-, hx, hcs, -, -⟩ := only_elem.mp h
    unfold dropNode
    refine only_inner (only_attrs h ?_) hx (dropList_only cfg _ cs hcs)
    intro hp
    split
    · next hc =>
      simp only [Bool.and_eq_true, decide_eq_true_eq] at hc
      obtain ⟨m, hm, rfl⟩ := List.mem_map.mp hc.2
      by_cases hrow : m = "ROW"
      · subst hrow
        refine hR _ _ (.inr ?_) hp
        have hne : ∀ k : String, k ≠ "TYPE" → f "TYPE" ≠ cfg.q k := fun k hk e => hk (congrArg QName.name e).symm
        unfold dropAttrs
        rw [get?_erase_ne (Ne.symm (hne "rowstyle" (by decide))), get?_erase_ne (Ne.symm (hne "morerows" (by decide))), get?_erase_ne (Ne.symm (hne "nameend" (by decide))),
          get?_erase_ne (Ne.symm (hne "namest" (by decide)))]
      · refine (hV m ?_ _).1
        revert hm hrow
        simp only [List.mem_cons, List.not_mem_nil, or_false]
        rintro (rfl | rfl | rfl | rfl | rfl) h <;> first | exact absurd rfl h | decide
    · exact hp
  | pi => exact h
  | comment => exact h
theorem dropList_only (cfg : Fmx.Config) (i : Bool) (ns : List Node) (h : Only P ns) : Only P (dropList cfg i ns) := by
  cases ns with
  | nil => exact h
  | cons n ns =>
    obtain ⟨h1, h2⟩ := only_cons.mp h
    unfold dropList
    exact only_cons.mpr ⟨drop_only cfg _ n h1, dropList_only cfg _ ns h2⟩
end

omit hR
variable {cfg : Fmx.Config} (hT : ∀ q a s ty, Dict.get? a (cfg.q "rowstyle") = some s → (guessRowInfo (some s)).type = some ty → P (.opening q a) → P (.opening q (Dict.set a (f "TYPE") ty)))
include hT

theorem placed_only {raw row m : Node} (hraw : raw.attrs = row.attrs) (h : Only P [row]) (hm : placedNode cfg raw row = .ok m) : Only P [m] := by
  unfold placedNode at hm
  split at hm
  · cases hm
    unfold typedRow
    split
    · next ty t a x cs tl hty =>
      obtain ⟨-, hx, hcs, -, -⟩ := only_elem.mp h
      have hs : ∃ s, Dict.get? a (cfg.q "rowstyle") = some s ∧ (guessRowInfo (some s)).type = some ty := by
        have hat : raw.attr (cfg.q "rowstyle") = Dict.get? a (cfg.q "rowstyle") := by unfold Node.attr; rw [hraw]; rfl
        unfold infoOf at hty
        rw [hat] at hty
        cases hg : Dict.get? a (cfg.q "rowstyle") with
        | none => rw [hg] at hty; cases hty
        | some s => rw [hg] at hty; exact ⟨s, rfl, hty⟩
      obtain ⟨s, hs, hs'⟩ := hs
      refine only_inner (only_attrs h (hT t a s ty hs hs')) hx (only_mem.mpr ?_)
      intro n hn
      obtain ⟨c, hc, rfl⟩ := List.mem_map.mp hn
      have hcf := only_mem.mp hcs c hc
      split
      · next hce =>
        cases c with
        | elem t' a' x' cs' tl' =>
          have ht' : t' = f "CELL" := by simpa [isElem, Node.tag?] using hce
          subst ht'
          exact only_attrs hcf (fun _ => (hV "CELL" (by decide) _).1)
        | pi => exact hcf
        | comment => exact hcf
      · exact hcf
    · exact h
  · next htag =>
    have hg := guess_tag (raw.attr (cfg.q "rowstyle"))
    have hin : (infoOf cfg raw).tag ∈ formexNames.erase "ROW" := by
      simp only [List.mem_cons, List.not_mem_nil, or_false] at hg
      rcases hg with e | e | e
      · exact absurd e htag
      · unfold infoOf; rw [e]; decide
      · unfold infoOf; rw [e]; decide
    unfold titleElem at hm
    obtain ⟨src, hsrc, hm⟩ := bind_ok hm
    cases hm
    have hcell : Only P [src.1] := by
      unfold titleSource at hsrc
      split at hsrc
      · obtain ⟨_, _, hsrc⟩ := bind_ok hsrc
        obtain ⟨_, _, hsrc⟩ := bind_ok hsrc
        obtain ⟨cell, hc, hsrc⟩ := bind_ok hsrc
        cases hsrc
        exact only_mem.mp (only_children h) _ (List.mem_of_mem_filter (List.mem_of_getElem? (pyGetNat_some hc)))
      · obtain ⟨cell, hc, hsrc⟩ := bind_ok hsrc
        cases hsrc
        exact only_mem.mp (only_children h) _ (List.mem_of_mem_filter (List.mem_of_getElem? (pyGetNat_some hc)))
    exact fmx_elem hV hin (only_text hcell) (only_children hcell) onlyText_none

theorem group_only : ∀ {rows : List (Node × Node)} {o o' : Open}, (∀ r ∈ rows, r.1.attrs = r.2.attrs ∧ Only P [r.2]) → OnlyOpen P o →
    groupRows cfg o rows = .ok o' → OnlyOpen P o'
  | [], _, _, _, h, he => by cases he; exact h
  | (raw, row) :: rows, _, _, hr, h, he => by
    have hhd := hr (raw, row) List.mem_cons_self
    unfold groupRows at he
    split at he
    · exact group_only (fun r hr' => hr r (List.mem_cons_of_mem _ hr')) (onlyOpen_add h hhd.2) he
    · obtain ⟨m, hm, he⟩ := bind_ok he
      exact group_only (fun r hr' => hr r (List.mem_cons_of_mem _ hr')) (onlyOpen_add (onlyOpen_level hV h) (placed_only hV hT hhd.1 hhd.2 hm)) he

mutual
theorem insert_only (n m : Node) (h : Only P [n]) (he : insertBlk cfg n = .ok m) : n.attrs = m.attrs ∧ Only P [m] := by
  cases n with
  | elem t a x cs tl =>
    obtain ⟨-, hx, hcs, -, -⟩ := only_elem.mp h
    unfold insertBlk at he
    obtain ⟨cs', hcs', he⟩ := bind_ok he
    have h3 := insertList_only cs cs' hcs hcs'
    split at he
    · obtain ⟨g, hg, he⟩ := bind_ok he
      cases he
      refine ⟨rfl, only_inner h hx ?_⟩
      unfold groupChildren at hg
      obtain ⟨o, ho, hg⟩ := bind_ok hg
      have h4 : OnlyOpen P o := group_only hV hT h3.1
        (fun c hc => by rw [List.mem_singleton.mp hc]; exact only_nil) ho
      have h5 := onlyOpen_pop hV (k := o.length - 1) h4
      split at hg
      · next e => cases hg; exact h5 _ (by rw [e]; exact List.mem_cons_self)
      · cases hg; exact only_nil
    · cases he; exact ⟨rfl, only_inner h hx h3.2⟩
  | pi => cases he; exact ⟨rfl, h⟩
  | comment => cases he; exact ⟨rfl, h⟩
theorem insertList_only (ns ms : List Node) (h : Only P ns) (he : insertBlkList cfg ns = .ok ms) :
    (∀ r ∈ ns.zip ms, r.1.attrs = r.2.attrs ∧ Only P [r.2]) ∧ Only P ms := by
  cases ns with
  | nil => cases he; exact ⟨fun r hr => (by simp at hr), h⟩
  | cons n ns =>
    obtain ⟨h1, h2⟩ := only_cons.mp h
    unfold insertBlkList at he
    obtain ⟨m, hm, he⟩ := bind_ok he
    obtain ⟨ms, hms, he⟩ := bind_ok he
    cases he
    have g1 := insert_only n m h1 hm
    have g2 := insertList_only ns ms h2 hms
    refine ⟨?_, only_cons.mpr ⟨g1.2, g2.2⟩⟩
    intro r hr
    rw [List.zip_cons_cons] at hr
    rcases List.mem_cons.mp hr with rfl | hr
    · exact g1
    · exact g2.1 r hr
end

include hR

theorem finalize_only {root out : Node} (h : Only P [root]) (he : finalize cfg root = .ok out) : Only P [out] := by
  unfold finalize at he
  simp only at he
  obtain ⟨x, h1, he⟩ := bind_ok he
  obtain ⟨y, h2, he⟩ := bind_ok he
  cases he
  refine drop_only hV hR cfg _ _ (insert_only hV hT _ _ ?_ h2).2
  unfold extractGrNotes at h1
  obtain ⟨⟨l, ks, s⟩, h3, h1⟩ := bind_ok h1
  have h4 := (move_only hV hR _ _ (cleanup_only (number_only hV 0 [] root h)) _ h3).1
  simp only at h1
  split at h1
  · cases h1; exact h4
  · cases h1

end final

/-! ### documents -/

section
open Benker.Convert
variable {c : Conv} (hc : ∀ following n e, Only P [n] → c.convert following n = .ok e → Only P [e])
include hc

mutual
theorem replaced_only {l : List Node} {n n' : Node} (h : Only P [n]) : Replaced c l n n' → Only P [n']
  | .table _ _ _ _ _ h2 h3 => inside_only (only_setTail (hc _ _ _ h h2) (only_tail h)) h3
  | .other _ _ _ _ h3 => inside_only h h3
theorem inside_only {l : List Node} {n n' : Node} (h : Only P [n]) : ReplacedInside c l n n' → Only P [n']
  | .elem _ t a x cs cs' tl h1 => only_inner h (only_elem.mp h).2.1 (replacedList_only (only_elem.mp h).2.2.1 h1)
  | .pi .. => h
  | .comment .. => h
theorem replacedList_only {l : List Node} {ns ns' : List Node} (h : Only P ns) : ReplacedList c l ns ns' → Only P ns'
  | .nil _ => h
  | .cons _ n n' ns ns' h1 h2 => only_cons.mpr ⟨replaced_only (only_cons.mp h).1 h1, replacedList_only (only_cons.mp h).2 h2⟩
end
end

section
open Fmx2Cals

mutual
theorem strip_only (c : FmxP.Config) : ∀ {n : Node}, Only P [n] → Only P [Fmx2Cals.strip c n]
  | .elem t a x cs tl, h => by
    obtain ⟨-, hx, hcs, -, -⟩ := only_elem.mp h
    unfold Fmx2Cals.strip
    split
    · exact h
    · exact only_inner h hx (stripList_only c hcs)
  | .pi .., h => h
  | .comment .., h => h
theorem stripList_only (c : FmxP.Config) : ∀ {ns : List Node}, Only P ns → Only P (stripList c ns)
  | [], h => h
  | n :: ns, h => by
    obtain ⟨h1, h2⟩ := only_cons.mp h
    unfold stripList
    split
    · exact stripList_only c h2
    · exact only_cons.mpr ⟨strip_only c h1, stripList_only c h2⟩
end

theorem stripPiece_only (c : FmxP.Config) {x : Content} (h : OnlyPiece P (some x)) : OnlyPiece P (some (stripContent c x)) := by
  cases x with
  | node n => unfold stripContent; exact strip_only c h
  | text s => unfold stripContent; exact h
  | num r => exact (h : False).elim
  | other r => exact (h : False).elim
  | seq l => exact (h : False).elim

theorem stripItems_only (c : FmxP.Config) : ∀ {l : List (Option Content)}, (∀ x ∈ l, OnlyPiece P x) → ∀ x ∈ stripItems c l, OnlyPiece P x
  | [], _, x, hx => by simp [stripItems] at hx
  | none :: l, h, x, hx => (h none List.mem_cons_self : False).elim
  | some y :: l, h, x, hx => by
    unfold stripItems at hx
    rcases List.mem_cons.mp hx with rfl | hx
    · exact stripPiece_only c (h _ List.mem_cons_self)
    · exact stripItems_only c (fun z hz => h z (List.mem_cons_of_mem _ hz)) x hx

theorem stripContent_only (c : FmxP.Config) {x : Option Content} (h : OnlyContent P x) : OnlyContent P (x.map (stripContent c)) := by
  cases x with
  | none => exact trivial
  | some x =>
    cases x with
    | node n => simp only [Option.map_some, stripContent]; exact strip_only c h
    | text s => simp only [Option.map_some, stripContent]; exact h
    | num r => exact (h : False).elim
    | other r => exact (h : False).elim
    | seq l => simp only [Option.map_some, stripContent]; exact stripItems_only c h

theorem strip_meets {ins : Prop} (c : FmxP.Config) {t : Table Content} (h : t.Meets (only P ins)) : (t.mapContent (stripContent c)).Meets (only P ins) := by
  refine ⟨each_true _, ?_, ?_⟩
  · intro ax vs hv v hvm
    rw [getViews_map] at hv
    cases hg : t.getViews ax with
    | none => rw [hg] at hv; cases hv
    | some ws =>
      rw [hg] at hv; cases hv
      obtain ⟨w, hw, rfl⟩ := List.mem_map.mp hvm
      exact h.views ax ws hg w hw
  · intro x hx
    obtain ⟨y, hy, rfl⟩ := List.mem_map.mp hx
    exact ⟨each_true _, trivial, stripContent_only c (h.cells y hy).2.2⟩

variable {c : Fmx2Cals.Config} (hc : ∀ blk p n e, Only P [p] → Only P [n] → convert c blk (some p) n = .ok e → Only P [e])
include hc

mutual
theorem fmxInside_only {blk : Nat} {n n' : Node} (h : Only P [n]) : Inside c blk n n' → Only P [n']
  | .elem _ t a x cs cs' tl h1 => by
    obtain ⟨h0, hx, hcs, h4, -⟩ := only_elem.mp h
    exact only_inner h hx (siblings_only (q := (t, a)) h0 h4 only_nil hcs h1)
  | .pi .. => h
  | .comment .. => h
theorem siblings_only {blk : Nat} {q : QName × Dict QName String} {notes ns ns' : List Node} (ho : P (.opening q.1 q.2)) (hcl : P (.closing q.1))
    (hn : Only P notes) (h : Only P ns) : Siblings c blk q notes ns ns' → Only P ns'
  | .nil .. => only_nil
  | .corpus _ _ _ n e n' ns ns' _ h2 h3 h4 => by
    obtain ⟨g1, g2⟩ := only_cons.mp h
    have hp : Only P [.elem q.1 q.2 none (notes ++ [n]) none] := only_elem.mpr ⟨ho, onlyText_none, only_append.mpr ⟨hn, g1⟩, hcl, onlyText_none⟩
    exact only_cons.mpr ⟨fmxInside_only (only_setTail (hc _ _ _ _ hp g1 h2) (only_tail g1)) h3, siblings_only ho hcl only_nil g2 h4⟩
  | .notes _ _ _ n n' ns ns' _ h2 h3 => by
    obtain ⟨g1, g2⟩ := only_cons.mp h
    exact siblings_only ho hcl (only_append.mpr ⟨hn, fmxInside_only g1 h2⟩) g2 h3
  | .other _ _ _ n n' ns ns' _ _ h2 h3 => by
    obtain ⟨g1, g2⟩ := only_cons.mp h
    exact only_cons.mpr ⟨fmxInside_only g1 h2, siblings_only ho hcl hn g2 h3⟩
end
end

end Benker.Origin
