import Verif.Spec.CalsRagged
import Verif.Lemmas.Ragged

/-! Simulation of the CALS parser on a CALS document whose rows have not all the same length. -/

namespace Benker
open PyM Cals CalsSpec

variable {pc : CalsP.Config}

/-- the place of an entry -/
abbrev entryBox (e : Node × DocEntry) : Box := e.2.box

/-- what must be read of an entry -/
abbrev entryIs (pc : CalsP.Config) (e : Node × DocEntry) (c : Cell Content) : Prop := EntryRead pc (DocEntry.cell e.1 e.2) c

/-- state of the table: the entries `E` are read, `y` rows are started, `f` rows are finished -/
abbrev Ragged (pc : CalsP.Config) (G : Goal) (E : List (Node × DocEntry)) (y f : Nat) (t : Table Content) : Prop := Rag entryBox (entryIs pc) G E y f t

theorem entryIs_box : ∀ (e : Node × DocEntry) (c : Cell Content), entryIs pc e c → c.box = entryBox e := fun _ _ h => h.box

/-! ### the run of the parser -/

/-- state of the parser between two rows -/
def GapR (pc : CalsP.Config) (G : Goal) (E : List (Node × DocEntry)) (y : Nat) (s : PState) : Prop :=
  ∃ t, s.table = some t ∧ s.rowPos = y ∧ Ragged pc G E y y t

/-- state of the parser in a row -/
def RowR (pc : CalsP.Config) (G : Goal) (k : String) (E : List (Node × DocEntry)) (y : Nat) (s : PState) : Prop :=
  ∃ t, s.table = some t ∧ s.rowPos = ((y + 1 : Nat) : Int) ∧ s.row = some (((y + 1 : Nat) : Int), some k) ∧ 0 ≤ s.colPos ∧ Ragged pc G E (y + 1) y t

theorem runs_raggedEntry {G : Goal} {k : String} {E : List (Node × DocEntry)} {y : Nat} {body : Node} {e : DocEntry} (hg : EntryGood pc e)
    (hk : CalsP.rowNature (CalsP.localname body) = .ok k) (hp : PlaceFor entryBox G E (y + 1) e.box) (p : Option Node) :
    Runs (RowR pc G k E y) (RowR pc G k (E ++ [(body, e)]) y) (CalsP.loop pc 1 (walk (CalsP.selected pc) p e.node)) := by
  refine runs_elem hg.tag (by simp) (Q := RowR pc G k (E ++ [(body, e)]) y) ?_ ?_ (runs_unit hg.tag (by decide) (by decide))
  · intro s hs
    obtain ⟨colPos, rowPos, row, table⟩ := s
    obtain ⟨t, h1, h2, h3, h4, h5⟩ := hs
    simp only at h1 h2 h3 h4
    subst h1 h3
    have e0 : CalsP.onStart pc p e.node = (do PState.nextCol; CalsP.parseEntry pc e.node) := by
      simp [CalsP.onStart, hg.tag]
    have hspan := docSpan_ok (pc := pc) hg.cols hg.rows (colPos := colPos + 1) (by omega)
    obtain ⟨t', r1, r2⟩ := Rag.insert (x := (body, e)) entryIs_box h5 rfl (content := some (.seq (CalsP.entryContent e.node))) (st := some (CalsP.entryStyles pc e.node)) (nature := some k)
      (fun m => ⟨rfl, body, e.node, k, rfl, rfl, rfl, hk, rfl⟩) hp
    refine ⟨⟨colPos + 1, rowPos, some (((y + 1 : Nat) : Int), some k), some t'⟩, ?_, t', rfl, h2, rfl, by simp only; omega, r2⟩
    rw [e0]
    unfold CalsP.parseEntry PState.nextCol
    simp only [bind_run, modify_run, get_run, lift_run, hspan, theRow_mk, onTable_mk, r1]
  · rw [walkList_unselected _ _ _ (noCals_unselected hg.plain)]
    exact runs_pure

theorem runs_raggedEntries {G : Goal} {k : String} {y : Nat} {body : Node} (hk : CalsP.rowNature (CalsP.localname body) = .ok k) (p : Option Node) :
    ∀ (es : List DocEntry) (E : List (Node × DocEntry)), (∀ e ∈ es, EntryGood pc e) →
    (∀ a e b, es = a ++ e :: b → PlaceFor entryBox G (E ++ a.map (fun e => (body, e))) (y + 1) e.box) →
    Runs (RowR pc G k E y) (RowR pc G k (E ++ es.map (fun e => (body, e))) y) (CalsP.loop pc 1 (walkList (CalsP.selected pc) p (es.map (·.node)))) := by
  intro es
  induction es with
  | nil => intro E _ _; rw [List.map_nil, List.append_nil]; exact runs_pure
  | cons e es ih =>
    intro E hg hp
    refine runs_loop_cons (runs_raggedEntry (hg e (by simp)) hk (by simpa using hp [] e es rfl) p) ?_
    have := ih (E ++ [(body, e)]) (fun e he => hg e (by simp [he])) (fun a e' b h => by
      have := hp (e :: a) e' b (by rw [h]; rfl)
      simpa using this)
    simpa using this

/-- the entries of some rows -/
def entriesOf (rows : List (Node × DocRow)) : List (Node × DocEntry) := rows.flatMap (fun r => r.2.entries.map (fun e => (r.1, e)))

/-- what is asked of the rows -/
structure RaggedPlan (pc : CalsP.Config) (G : Goal) (rows : List (Node × DocRow)) : Prop where
  good : ∀ r ∈ rows, RowGood pc r
  first : ∃ r, rows[0]? = some r ∧ r.2.entries ≠ []
  place : ∀ pre r post, rows = pre ++ r :: post → ∀ a e b, r.2.entries = a ++ e :: b → PlaceFor entryBox G (entriesOf pre ++ a.map (fun e => (r.1, e))) (pre.length + 1) e.box
  looks : G.rowOK = DocRowRead pc rows
  height : rows.length ≤ G.h

theorem runs_raggedRow {G : Goal} {rows pre post : List (Node × DocRow)} {body : Node} {r : DocRow} (hrows : rows = pre ++ (body, r) :: post)
    (hp : RaggedPlan pc G rows) :
    Runs (GapR pc G (entriesOf pre) pre.length) (GapR pc G (entriesOf (pre ++ [(body, r)])) (pre.length + 1))
      (CalsP.loop pc 1 (walk (CalsP.selected pc) (some body) r.node)) := by
  have hget : rows[pre.length]? = some (body, r) := by rw [hrows]; simp
  have hlt : pre.length + 1 ≤ G.h := by have := hp.height; rw [hrows] at this; simp at this; omega
  obtain ⟨htag, hin, hes, k, hk⟩ := hp.good (body, r) (by rw [hrows]; simp)
  have hcells : entriesOf (pre ++ [(body, r)]) = entriesOf pre ++ r.entries.map (fun e => (body, e)) := by simp [entriesOf]
  have hne : entriesOf (pre ++ [(body, r)]) ≠ [] := by
    obtain ⟨r0, h0, he⟩ := hp.first
    obtain ⟨e, he⟩ := List.exists_mem_of_ne_nil _ he
    have hm : r0 ∈ pre ++ [(body, r)] := by
      have : (pre ++ [(body, r)])[0]? = some r0 := by
        rw [hrows] at h0
        cases pre with
        | nil => simpa using h0
        | cons a l => simpa using h0
      exact List.mem_of_getElem? this
    intro h
    have : (r0.1, e) ∈ entriesOf (pre ++ [(body, r)]) := List.mem_flatMap.mpr ⟨r0, hm, List.mem_map_of_mem he⟩
    rw [h] at this; cases this
  obtain ⟨st, hl⟩ := rowLooks_ok (pc := pc) (row := r.node) hk
  refine runs_elem htag (by simp) (Q := RowR pc G k (entriesOf pre) pre.length) (S := RowR pc G k (entriesOf (pre ++ [(body, r)])) pre.length) ?_ ?_ ?_
  · intro s hs
    obtain ⟨colPos, rowPos, srow, table⟩ := s
    obtain ⟨t, h1, h2, h3⟩ := hs
    simp only at h1 h2
    subst h1 h2
    have e0 : CalsP.onStart pc (some body) r.node = (do PState.nextRow; CalsP.parseRow pc (some body) r.node) := by
      simp [CalsP.onStart, htag, CalsP.Config.q]
    obtain ⟨t', r1, r2⟩ := Rag.startRow h3 (fun v => { v with nature := some k, styles := st }) (fun v => ⟨rfl, rfl, rfl⟩) hlt
      (fun v => by rw [hp.looks]; exact ⟨_, hget, hl⟩)
    refine ⟨⟨0, (pre.length : Int) + 1, some ((pre.length : Int) + 1, some k), some t'⟩, ?_, t', rfl, by simp, by simp, by simp, r2⟩
    rw [e0]
    unfold CalsP.parseRow PState.nextRow
    simp only [bind_run, modify_run, get_run, lift_run, hl, onTable_mk, r1]
  · rw [holds_walk hin, hcells]
    exact runs_raggedEntries hk (some r.node) r.entries (entriesOf pre) hes (fun a e b h => hp.place pre (body, r) post hrows a e b h)
  · have e0 : CalsP.onEnd pc r.node = CalsP.endRow := by
      simp [CalsP.onEnd, htag]
    rw [e0]
    intro s hs
    obtain ⟨colPos, rowPos, srow, table⟩ := s
    obtain ⟨t, h1, h2, h3, _, h5⟩ := hs
    simp only at h1 h2 h3
    subst h1 h2 h3
    obtain ⟨hlen, t', r1, r2⟩ := Rag.endRow entryIs_box h5 hne hlt (some k) ⟨st, by rw [hp.looks]; exact ⟨_, hget, hl⟩⟩
    refine ⟨⟨colPos, ((pre.length + 1 : Nat) : Int), some (((pre.length + 1 : Nat) : Int), some k), some t'⟩, ?_, t', rfl, rfl, r2⟩
    have hbox : Box.make 1 (pre.length + 1 : Nat) ((t.baseViews .col).length : Int) (pre.length + 1 : Nat) =
        .ok ⟨⟨1, ((pre.length + 1 : Nat) : Int)⟩, ⟨((t.baseViews .col).length : Int), ((pre.length + 1 : Nat) : Int)⟩⟩ :=
      make_eq_ok (by omega)
    unfold CalsP.endRow
    simp only [bind_run, onTable_mk]
    rw [Table.views_run .col t h5.inv.grid]
    simp only [get_run, lift_run, hbox, theRow_mk, onTable_mk, r1]

theorem runs_raggedRows {G : Goal} {rows : List (Node × DocRow)} (hp : RaggedPlan pc G rows) (body : Node) :
    ∀ (g : List DocRow) (pre post : List (Node × DocRow)), rows = pre ++ g.map (fun r => (body, r)) ++ post →
    Runs (GapR pc G (entriesOf pre) pre.length) (GapR pc G (entriesOf (pre ++ g.map (fun r => (body, r)))) (pre ++ g.map (fun r => (body, r))).length)
      (CalsP.loop pc 1 (walkList (CalsP.selected pc) (some body) (g.map (·.node)))) := by
  intro g
  induction g with
  | nil => intro pre post _; rw [List.map_nil, List.append_nil]; exact runs_pure
  | cons r g ih =>
    intro pre post hrows
    refine runs_loop_cons (Q := GapR pc G (entriesOf (pre ++ [(body, r)])) (pre ++ [(body, r)]).length) ?_ ?_
    · have := runs_raggedRow (post := g.map (fun r => (body, r)) ++ post) (by simpa using hrows) hp
      simpa using this
    · have := ih (pre ++ [(body, r)]) post (by simpa using hrows)
      simpa using this

theorem runs_raggedBodies {G : Goal} {rows : List (Node × DocRow)} (hp : RaggedPlan pc G rows) (p : Option Node) :
    ∀ (bs : List DocBody) (pre : List (Node × DocRow)), rows = pre ++ bs.flatMap (fun b => b.rows.map (fun r => (b.node, r))) →
    (∀ b ∈ bs, (∃ name ∈ ["thead", "tbody", "tfoot"], b.node.tag? = some (pc.q name)) ∧ Holds pc.ns (b.rows.map (·.node)) b.node.children) →
    Runs (GapR pc G (entriesOf pre) pre.length) (GapR pc G (entriesOf rows) rows.length)
      (CalsP.loop pc 1 (walkList (CalsP.selected pc) p (bs.map (·.node)))) := by
  intro bs
  induction bs with
  | nil => intro pre hrows _; rw [List.flatMap_nil, List.append_nil] at hrows; subst hrows; exact runs_pure
  | cons b bs ih =>
    intro pre hrows hb
    obtain ⟨⟨name, hname, htag⟩, hin⟩ := hb b (by simp)
    refine runs_loop_cons (Q := GapR pc G (entriesOf (pre ++ b.rows.map (fun r => (b.node, r)))) (pre ++ b.rows.map (fun r => (b.node, r))).length) ?_ ?_
    · refine runs_elem htag (by simp at hname ⊢; rcases hname with h | h | h <;> simp [h])
        (Q := GapR pc G (entriesOf pre) pre.length) ?_
        (by rw [holds_walk hin]; exact runs_raggedRows hp b.node b.rows pre _ (by simpa using hrows))
        (runs_unit htag (by intro e; rw [e] at hname; revert hname; decide) (by intro e; rw [e] at hname; revert hname; decide))
      have e0 : CalsP.onStart pc p b.node = pure () := by
        unfold CalsP.onStart
        rw [htag]
        simp only [List.mem_cons, List.not_mem_nil, or_false] at hname
        rcases hname with h | h | h <;> rw [h] <;> simp [CalsP.Config.q]
      rw [e0]; exact runs_pure
    · exact ih _ (by simpa using hrows) (fun b' hb' => hb b' (by simp [hb']))

/-- when the columns are known, the rows can be read -/
theorem docCols_ragged {w W h : Nat} (hW : w ≤ W) {styles : Styles} {nature : Option String} {cols : List DocCol} (hmax : w = 0 ∨ ∃ c ∈ cols, c.num = w)
    (rowOK : Nat → Option String → Styles → Prop) {s : PState} (hs : AtDocCols pc w styles nature cols s) :
    GapR pc ⟨W, h, w, rowOK, DocColRead pc cols, styles, nature⟩ [] 0 s :=
  docCols_rag hW hmax rowOK hs

end Benker
