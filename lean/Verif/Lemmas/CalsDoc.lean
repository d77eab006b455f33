import Verif.Spec.CalsDoc
import Verif.Lemmas.CalsRoundTrip
import Verif.Props.CalsLooks

/-! Simulation of the CALS parser on a CALS document. -/

namespace Benker
open PyM Cals CalsSpec

variable {pc : CalsP.Config} {γ : Type}

theorem docSpan_ok {e : Node} {w h : Int} (hw : SpansColumns (e.attr (pc.q "namest")) (e.attr (pc.q "nameend")) w) (hh : SpansRows (e.attr (pc.q "morerows")) h)
    {colPos : Int} (hc : 0 ≤ colPos) : CalsP.entrySpan pc colPos e = .ok (w, h) := by
  have hx : ∃ a b, firstInt ((e.attr (pc.q "namest")).getD (intStr colPos)) = .ok a ∧
      firstInt ((e.attr (pc.q "nameend")).getD (intStr colPos)) = .ok b ∧ b - a + 1 = w := by
    rcases hw with ⟨h1, h2, h3⟩ | ⟨s, t, a, b, h1, h2, h3, h4, h5⟩
    · rw [h1, h2]
      exact ⟨colPos, colPos, firstInt_intStr hc, firstInt_intStr hc, by omega⟩
    · rw [h1, h2]
      exact ⟨a, b, firstInt_number h3, firstInt_number h4, h5.symm⟩
  have hyy : ∃ a, pyInt ((e.attr (pc.q "morerows")).getD "0") = .ok a ∧ a + 1 = h := by
    rcases hh with ⟨h1, h2⟩ | ⟨s, m, h1, h2, h3⟩
    · rw [h1]
      exact ⟨0, by decide +kernel, by omega⟩
    · rw [h1]
      exact ⟨m, pyInt_number h2, h3.symm⟩
  obtain ⟨a, b, h1, h2, h3⟩ := hx
  obtain ⟨m, h4, h5⟩ := hyy
  unfold CalsP.entrySpan
  have e0 : String.ofList (Coord.intDigits colPos) = intStr colPos := rfl
  simp only [e0, h1, h2, h4]
  rw [← h3, ← h5]; rfl

/-! ### nodes which are not seen -/

theorem noCals_unselected {nodes : List Node} (h : NoCals pc.ns nodes) : Unselected (CalsP.selected pc) (toksList nodes) := by
  intro t a ht
  unfold CalsP.selected
  rw [decide_eq_false_iff_not]
  intro hm
  obtain ⟨n, hn, he⟩ := List.mem_map.mp hm
  subst he
  exact h _ a ht rfl hn

/-- the parser sees the nodes which are picked -/
theorem holds_walk {picked all : List Node} (h : Holds pc.ns picked all) (p : Option Node) :
    walkList (CalsP.selected pc) p all = walkList (CalsP.selected pc) p picked := by
  induction h with
  | nil => rfl
  | take n picked all _ ih => rw [walkList, walkList, ih]
  | skip n picked all hn _ ih =>
    have := walkList_unselected _ p _ (noCals_unselected hn)
    rw [walkList, walkList, List.append_nil] at this
    rw [walkList, this, ih]; rfl

/-! ### entries -/

/-- the cell read from an entry -/
structure EntryRead (pc : CalsP.Config) (c : Cell (Node × Node)) (d : Cell Content) : Prop where
  box : d.box = c.box
  entry : ∃ body e k, c.content = some (body, e) ∧ d.content = some (.seq (CalsP.entryContent e)) ∧ d.styles = CalsP.entryStyles pc e ∧
    CalsP.rowNature (CalsP.localname body) = .ok k ∧ d.nature = some k

theorem runs_docEntry {G : Goal} {y : Nat} {nat : Nat → Option String} {done rest : List (Cell (Node × Node))} {c : Cell (Node × Node)} {body e : Node} {k : String}
    (hce : c.content = some (body, e)) (htag : e.tag? = some (pc.q "entry"))
    (hspan : ∀ colPos, 0 ≤ colPos → CalsP.entrySpan pc colPos e = .ok (c.width, c.height)) (hT : Tiles G.w G.h (done ++ c :: rest)) (hy : c.min.y = y)
    (hk : CalsP.rowNature (CalsP.localname body) = .ok k) (hnat : nat (y - 1) = some k)
    (hsel : NoCals pc.ns e.children) (p : Option Node) :
    Runs (AtRow nat G (EntryRead pc) done y) (AtRow nat G (EntryRead pc) (done ++ [c]) y) (CalsP.loop pc 1 (walk (CalsP.selected pc) p e)) := by
  refine runs_elem htag (by simp) (Q := AtRow nat G (EntryRead pc) (done ++ [c]) y) ?_ ?_ (runs_unit htag (by decide) (by decide))
  · intro s hs
    obtain ⟨colPos, rowPos, row, table⟩ := s
    obtain ⟨t, h1, h2, h3, h4, h5⟩ := hs
    simp only at h1 h2 h3 h4
    subst h1 h3
    have e0 : CalsP.onStart pc p e = (do PState.nextCol; CalsP.parseEntry pc e) := by
      simp [CalsP.onStart, htag]
    have hspan := hspan (colPos + 1) (by omega)
    obtain ⟨t', r1, r2⟩ := h5.insert (fun _ _ h => h.box) hT hy (some (.seq (CalsP.entryContent e)))
      (some (CalsP.entryStyles pc e)) (nat (y - 1)) (by
        intro m
        refine ⟨rfl, body, e, k, hce, rfl, rfl, hk, ?_⟩
        rw [hnat]; rfl)
    refine ⟨⟨colPos + 1, rowPos, some ((y : Int), nat (y - 1)), some t'⟩, ?_, t', rfl, h2, rfl, by simp only; omega, r2⟩
    rw [e0]
    unfold CalsP.parseEntry PState.nextCol
    simp only [bind_run, modify_run, get_run, lift_run, hspan, theRow_mk, onTable_mk, r1]
  · rw [walkList_unselected _ _ _ (noCals_unselected hsel)]
    exact runs_pure

/-- the cell which an entry must become -/
def CalsSpec.DocEntry.cell (body : Node) (e : DocEntry) : Cell (Node × Node) := ⟨some (body, e.node), [], none, e.box⟩

/-- what is asked of an entry -/
structure EntryGood (pc : CalsP.Config) (e : DocEntry) : Prop where
  tag : e.node.tag? = some (pc.q "entry")
  plain : NoCals pc.ns e.node.children
  cols : SpansColumns (e.node.attr (pc.q "namest")) (e.node.attr (pc.q "nameend")) (e.box.max.x - e.box.min.x + 1)
  rows : SpansRows (e.node.attr (pc.q "morerows")) (e.box.max.y - e.box.min.y + 1)

theorem runs_docEntries {G : Goal} {y : Nat} {nat : Nat → Option String} {body : Node} {k : String} (hk : CalsP.rowNature (CalsP.localname body) = .ok k)
    (hnat : nat (y - 1) = some k) (p : Option Node) : ∀ (es : List DocEntry) (done rest : List (Cell (Node × Node))), (∀ e ∈ es, EntryGood pc e) →
    Tiles G.w G.h (done ++ es.map (DocEntry.cell body) ++ rest) → (∀ e ∈ es, e.box.min.y = y) →
    Runs (AtRow nat G (EntryRead pc) done y) (AtRow nat G (EntryRead pc) (done ++ es.map (DocEntry.cell body)) y)
      (CalsP.loop pc 1 (walkList (CalsP.selected pc) p (es.map (·.node)))) := by
  intro es
  induction es with
  | nil => intro done rest _ _ _; rw [List.map_nil, List.append_nil]; exact runs_pure
  | cons e es ih =>
    intro done rest hg hT hy
    have g := hg e (by simp)
    refine runs_loop_cons (runs_docEntry (c := e.cell body) (rest := es.map (DocEntry.cell body) ++ rest) rfl g.tag
      (fun colPos hc => docSpan_ok g.cols g.rows hc) (by simpa using hT) (hy e (by simp)) hk hnat g.plain p) ?_
    have := ih (done ++ [e.cell body]) rest (fun e he => hg e (by simp [he])) (by simpa using hT) (fun e he => hy e (by simp [he]))
    simpa using this

/-! ### rows -/

/-- the looks of a row -/
def DocRowRead (pc : CalsP.Config) (rows : List (Node × DocRow)) (i : Nat) (nature : Option String) (st : Styles) : Prop :=
  ∃ r, rows[i]? = some r ∧ CalsP.rowLooks pc (some r.1) r.2.node = .ok (st, nature)

/-- the natures of the rows -/
def docKinds (rows : List (Node × DocRow)) (i : Nat) : Option String :=
  match rows[i]? with
  | none => none
  | some r => match CalsP.rowNature (CalsP.localname r.1) with
    | .ok k => some k
    | .error _ => none

/-- the cells of rows -/
def docCells (rows : List (Node × DocRow)) : List (Cell (Node × Node)) := rows.flatMap (fun r => r.2.entries.map (DocEntry.cell r.1))

/-- what is asked of a row -/
structure RowGood (pc : CalsP.Config) (r : Node × DocRow) : Prop where
  tag : r.2.node.tag? = some (pc.q "row")
  inside : Holds pc.ns (r.2.entries.map (·.node)) r.2.node.children
  entries : ∀ e ∈ r.2.entries, EntryGood pc e
  body : ∃ k, CalsP.rowNature (CalsP.localname r.1) = .ok k

/-- the layout which the parser rebuilds -/
structure DocPlan (pc : CalsP.Config) (w h : Nat) (rows : List (Node × DocRow)) : Prop where
  tiles : Tiles w h (docCells rows)
  start : ∀ (i : Nat) (r : Node × DocRow), rows[i]? = some r → ∀ e ∈ r.2.entries, e.box.min.y = (i : Int) + 1
  height : rows.length = h
  width : 1 ≤ w
  good : ∀ r ∈ rows, RowGood pc r

theorem rowLooks_ok {body row : Node} {k : String} (hk : CalsP.rowNature (CalsP.localname body) = .ok k) :
    ∃ st, CalsP.rowLooks pc (some body) row = .ok (st, some k) := by
  unfold CalsP.rowLooks
  simp only [hk]
  exact ⟨_, rfl⟩

theorem runs_docRow {G : Goal} {rows pre post : List (Node × DocRow)} {body : Node} {r : DocRow} (hrows : rows = pre ++ (body, r) :: post)
    (hG : G.rowOK = DocRowRead pc rows) (hp : DocPlan pc G.w G.h rows) :
    Runs (AtGap G (EntryRead pc) (docCells pre) pre.length) (AtGap G (EntryRead pc) (docCells (pre ++ [(body, r)])) (pre.length + 1))
      (CalsP.loop pc 1 (walk (CalsP.selected pc) (some body) r.node)) := by
  have hget : rows[pre.length]? = some (body, r) := by rw [hrows]; simp
  have hlt : pre.length < rows.length := by rw [hrows]; simp
  obtain ⟨htag, hin, hes, k, hk⟩ := hp.good (body, r) (by rw [hrows]; simp)
  have hkd : docKinds rows pre.length = some k := by
    unfold docKinds
    rw [hget]
    simp only at hk
    simp only [hk]
  have hT : Tiles G.w G.h (docCells pre ++ r.entries.map (DocEntry.cell body) ++ docCells post) := by
    have := hp.tiles
    rw [hrows] at this
    simpa [docCells] using this
  have hcells : docCells (pre ++ [(body, r)]) = docCells pre ++ r.entries.map (DocEntry.cell body) := by simp [docCells]
  obtain ⟨st, hl⟩ := rowLooks_ok (pc := pc) (row := r.node) hk
  rw [hcells]
  refine runs_elem htag (by simp) (Q := AtRow (docKinds rows) G (EntryRead pc) (docCells pre) (pre.length + 1))
    (S := AtRow (docKinds rows) G (EntryRead pc) (docCells pre ++ r.entries.map (DocEntry.cell body)) (pre.length + 1)) ?_ ?_ ?_
  · intro s hs
    obtain ⟨colPos, rowPos, srow, table⟩ := s
    obtain ⟨t, h1, h2, h3⟩ := hs
    simp only at h1 h2
    subst h1 h2
    have e0 : CalsP.onStart pc (some body) r.node = (do PState.nextRow; CalsP.parseRow pc (some body) r.node) := by
      simp [CalsP.onStart, htag, CalsP.Config.q]
    obtain ⟨t', r1, r2⟩ := h3.startRow (by have := hp.height; omega) (fun v => { v with nature := some k, styles := st }) (fun v => ⟨rfl, rfl, rfl⟩)
      (fun v => by rw [hG]; exact ⟨_, hget, hl⟩)
    refine ⟨⟨0, (pre.length : Int) + 1, some ((pre.length : Int) + 1, some k), some t'⟩, ?_, t', rfl, by simp, by simp [hkd], by simp, r2⟩
    rw [e0]
    unfold CalsP.parseRow PState.nextRow
    simp only [bind_run, modify_run, get_run, lift_run, hl, onTable_mk, r1]
  · rw [holds_walk hin]
    exact runs_docEntries hk (by simpa using hkd) (some r.node) r.entries (docCells pre) (docCells post) hes hT (fun e he => by
      rw [hp.start _ _ hget e he]; simp)
  · have e0 : CalsP.onEnd pc r.node = CalsP.endRow := by
      simp [CalsP.onEnd, htag]
    rw [e0]
    refine runs_endRow (fun _ _ h => h.box) hT ?_ (by have := hp.height; omega) hp.width
    intro c hc
    unfold docCells at hc
    obtain ⟨r', hr', hc⟩ := List.mem_flatMap.mp hc
    obtain ⟨e, he, rfl⟩ := List.mem_map.mp hc
    obtain ⟨i, hi, rfl⟩ := List.getElem_of_mem hr'
    have := hp.start (pre.length + 1 + i) post[i] (by
      rw [hrows, List.getElem?_append_right (by omega)]
      simp [show pre.length + 1 + i - pre.length = i + 1 by omega]) e he
    simp only [Cell.min, DocEntry.cell]
    rw [this]; push_cast; omega

theorem runs_docRows {G : Goal} {rows : List (Node × DocRow)} (hG : G.rowOK = DocRowRead pc rows) (hp : DocPlan pc G.w G.h rows) (body : Node) :
    ∀ (g : List DocRow) (pre post : List (Node × DocRow)), rows = pre ++ g.map (fun r => (body, r)) ++ post →
    Runs (AtGap G (EntryRead pc) (docCells pre) pre.length)
      (AtGap G (EntryRead pc) (docCells (pre ++ g.map (fun r => (body, r)))) (pre ++ g.map (fun r => (body, r))).length)
      (CalsP.loop pc 1 (walkList (CalsP.selected pc) (some body) (g.map (·.node)))) := by
  intro g
  induction g with
  | nil => intro pre post _; rw [List.map_nil, List.append_nil]; exact runs_pure
  | cons r g ih =>
    intro pre post hrows
    refine runs_loop_cons (Q := AtGap G (EntryRead pc) (docCells (pre ++ [(body, r)])) (pre ++ [(body, r)]).length) ?_ ?_
    · have := runs_docRow (post := g.map (fun r => (body, r)) ++ post) (by simpa using hrows) hG hp
      simpa using this
    · have := ih (pre ++ [(body, r)]) post (by simpa using hrows)
      simpa using this

theorem runs_docBodies {G : Goal} {rows : List (Node × DocRow)} (hG : G.rowOK = DocRowRead pc rows) (hp : DocPlan pc G.w G.h rows) (p : Option Node) :
    ∀ (bs : List DocBody) (pre : List (Node × DocRow)), rows = pre ++ bs.flatMap (fun b => b.rows.map (fun r => (b.node, r))) →
    (∀ b ∈ bs, (∃ name ∈ ["thead", "tbody", "tfoot"], b.node.tag? = some (pc.q name)) ∧ Holds pc.ns (b.rows.map (·.node)) b.node.children) →
    Runs (AtGap G (EntryRead pc) (docCells pre) pre.length) (AtGap G (EntryRead pc) (docCells rows) rows.length)
      (CalsP.loop pc 1 (walkList (CalsP.selected pc) p (bs.map (·.node)))) := by
  intro bs
  induction bs with
  | nil => intro pre hrows _; rw [List.flatMap_nil, List.append_nil] at hrows; subst hrows; exact runs_pure
  | cons b bs ih =>
    intro pre hrows hb
    obtain ⟨⟨name, hname, htag⟩, hin⟩ := hb b (by simp)
    refine runs_loop_cons (Q := AtGap G (EntryRead pc) (docCells (pre ++ b.rows.map (fun r => (b.node, r)))) (pre ++ b.rows.map (fun r => (b.node, r))).length) ?_ ?_
    · refine runs_elem htag (by simp at hname ⊢; rcases hname with h | h | h <;> simp [h])
        (Q := AtGap G (EntryRead pc) (docCells pre) pre.length) ?_
        (by rw [holds_walk hin]; exact runs_docRows hG hp b.node b.rows pre _ (by simpa using hrows))
        (runs_unit htag (by intro e; rw [e] at hname; revert hname; decide) (by intro e; rw [e] at hname; revert hname; decide))
      have e0 : CalsP.onStart pc p b.node = pure () := by
        unfold CalsP.onStart
        rw [htag]
        simp only [List.mem_cons, List.not_mem_nil, or_false] at hname
        rcases hname with h | h | h <;> rw [h] <;> simp [CalsP.Config.q]
      rw [e0]; exact runs_pure
    · exact ih _ (by simpa using hrows) (fun b' hb' => hb b' (by simp [hb']))

/-! ### columns -/

/-- the looks of the columns: those of their `colspec` -/
def DocColRead (pc : CalsP.Config) (cols : List DocCol) (j : Nat) (st : Styles) : Prop :=
  (∃ c ∈ cols, c.num = j + 1 ∧ st = Dict.update [] (CalsP.colspecStyles pc c.node)) ∨ ((∀ c ∈ cols, c.num ≠ j + 1) ∧ st = [])

/-- state of the parser before the first row, after some `colspec` -/
def AtDocCols (pc : CalsP.Config) (w : Nat) (styles : Styles) (nature : Option String) (done : List DocCol) (s : PState) : Prop :=
  ∃ t, s.table = some t ∧ s.rowPos = 0 ∧ s.colPos = done.length ∧ t.Inv ∧ t.grid.cells = [] ∧ t.rows = none ∧ (t.baseViews .col).length ≤ w ∧
    (done ≠ [] → t.cols = some (t.baseViews .col)) ∧ (t.styles = styles ∧ t.nature = nature) ∧
    (∀ c ∈ done, c.num ≤ (t.baseViews .col).length) ∧
    ∀ (j : Nat) (v : View Content), (t.baseViews .col)[j]? = some v → DocColRead pc done j v.styles

/-- what is asked of a `colspec`, after `i` of them -/
structure ColGood (pc : CalsP.Config) (i : Nat) (c : DocCol) : Prop where
  tag : c.node.tag? = some (pc.q "colspec")
  plain : NoCals pc.ns c.node.children
  number : (c.node.attr (pc.q "colnum") = none ∨ c.node.attr (pc.q "colnum") = some "") ∧ c.num = i + 1 ∨
    ∃ s, c.node.attr (pc.q "colnum") = some s ∧ IsNumber s c.num

theorem AtDocCols.edit {w : Nat} {styles : Styles} {nature : Option String} {done : List DocCol} {c : DocCol} (hw : 1 ≤ c.num ∧ c.num ≤ w)
    (hne : ∀ c' ∈ done, c'.num ≠ c.num) {a : Int} {row : Option (Int × Option String)} {t : Table Content} (hs : AtDocCols pc w styles nature done ⟨a, 0, row, some t⟩) :
    ∃ t', Table.editView .col (c.num : Int) (fun v => { v with styles := Dict.update v.styles (CalsP.colspecStyles pc c.node) }) t = (.ok (), t') ∧
      AtDocCols pc w styles nature (done ++ [c]) ⟨(done.length : Int) + 1, 0, row, some t'⟩ := by
  obtain ⟨t0, h1, h2, h3, h4, h5, h6, h7, h8, h9, h10, h11⟩ := hs
  cases h1
  obtain ⟨i, hi⟩ : ∃ i, c.num = i + 1 := ⟨c.num - 1, by omega⟩
  have hl := grow_length ((i : Int) + 1) (t.baseViews .col)
  let f : View Content → View Content := fun v => { v with styles := Dict.update v.styles (CalsP.colspecStyles pc c.node) }
  have hup := updateAt_pos i f (Views.grow ((i : Int) + 1) (t.baseViews .col)) (by omega)
  have hr := Table.editView_run h4 .col ((i : Int) + 1) f
  have e1 : ((i : Int) + 1 - 1) = (i : Int) := by omega
  rw [e1, hup] at hr
  simp only at hr
  have hinv' := Table.editView_tinv h4 .col ((i : Int) + 1) f (fun v => ⟨rfl, rfl, rfl⟩)
  unfold exec at hinv'
  rw [hr] at hinv'
  refine ⟨_, by rw [show (c.num : Int) = (i : Int) + 1 by omega]; exact hr, _, rfl, rfl, by simp, hinv', ?_, h6, ?_, ?_, h9, ?_, ?_⟩
  · rw [Table.grid_setViews]; exact h5
  · rw [Table.baseViews_setViews, List.length_modify]; omega
  · intro _; rw [Table.baseViews_setViews]; rfl
  · intro c' hc'
    rw [Table.baseViews_setViews, List.length_modify]
    rcases List.mem_append.mp hc' with hc' | hc'
    · have := h10 c' hc'; omega
    · rw [List.mem_singleton] at hc'; subst hc'; omega
  · intro j v hv
    rw [Table.baseViews_setViews, List.getElem?_modify] at hv
    obtain ⟨v0, hv0, hv⟩ := Option.map_eq_some_iff.mp hv
    have hst : DocColRead pc done j v0.styles := by
      obtain ⟨hlt, rfl⟩ := List.getElem?_eq_some_iff.mp hv0
      rw [grow_getElem]
      split
      · rename_i hlt'
        exact h11 j _ (List.getElem?_eq_getElem hlt')
      · rename_i hge
        refine .inr ⟨fun c' hc' e => ?_, rfl⟩
        have := h10 c' hc'; omega
    by_cases hij : i = j
    · subst hij
      rw [if_pos rfl] at hv
      subst hv
      rcases hst with ⟨c', hc', e, _⟩ | ⟨_, h0⟩
      · exact absurd (by omega) (hne c' hc')
      · refine .inl ⟨c, by simp, hi, ?_⟩
        show Dict.update v0.styles _ = _
        rw [h0]
    · rw [if_neg hij] at hv
      subst hv
      rcases hst with ⟨c', hc', e, h⟩ | ⟨h, h0⟩
      · exact .inl ⟨c', by simp [hc'], e, h⟩
      · refine .inr ⟨fun c' hc' => ?_, h0⟩
        rcases List.mem_append.mp hc' with hc' | hc'
        · exact h c' hc'
        · rw [List.mem_singleton] at hc'; subst hc'; omega

theorem runs_docCol {w : Nat} {styles : Styles} {nature : Option String} {done : List DocCol} {c : DocCol} (hg : ColGood pc done.length c)
    (hw : 1 ≤ c.num ∧ c.num ≤ w) (hne : ∀ c' ∈ done, c'.num ≠ c.num) (tg : Node) (htg : tg.tag? = some (pc.q "tgroup")) :
    Runs (AtDocCols pc w styles nature done) (AtDocCols pc w styles nature (done ++ [c])) (CalsP.loop pc 1 (walk (CalsP.selected pc) (some tg) c.node)) := by
  refine runs_elem hg.tag (by simp) (Q := AtDocCols pc w styles nature (done ++ [c])) ?_ ?_ (runs_unit hg.tag (by decide) (by decide))
  · intro s hs
    obtain ⟨colPos, rowPos, row, table⟩ := s
    have e0 : CalsP.onStart pc (some tg) c.node = (do PState.nextCol; CalsP.parseColspec pc (some tg) c.node) := by
      simp [CalsP.onStart, hg.tag, CalsP.Config.q]
    have hpar : CalsP.colspecParent (some tg) = .ok () := by
      unfold CalsP.colspecParent CalsP.localname
      simp [htg, CalsP.Config.q]
    obtain ⟨t, h1, h2, h3, _⟩ := id hs
    simp only at h1 h2 h3
    subst h1 h2 h3
    have hnum : CalsP.colspecNum pc ((done.length : Int) + 1) c.node = .ok (c.num : Int) := by
      unfold CalsP.colspecNum
      rcases hg.number with ⟨h, hn⟩ | ⟨s, hs, hn⟩
      · rcases h with h | h <;> rw [h] <;> simp [hn]
      · rw [hs]
        simp only
        rw [if_neg (isNumber_ne hn), pyInt_number hn]
    obtain ⟨t', hr, hs'⟩ := AtDocCols.edit hw hne hs
    refine ⟨⟨(done.length : Int) + 1, 0, row, some t'⟩, ?_, hs'⟩
    rw [e0]
    unfold CalsP.parseColspec PState.nextCol
    simp only [bind_run, modify_run, get_run, lift_run, hpar, hnum, onTable_mk, hr]
  · rw [walkList_unselected _ _ _ (noCals_unselected hg.plain)]; exact runs_pure

theorem runs_docCols {w : Nat} {styles : Styles} {nature : Option String} (tg : Node) (htg : tg.tag? = some (pc.q "tgroup")) :
    ∀ (cs done : List DocCol), (∀ (i : Nat) (c : DocCol), cs[i]? = some c → ColGood pc (done.length + i) c) → (∀ c ∈ cs, 1 ≤ c.num ∧ c.num ≤ w) →
    (done ++ cs).Pairwise (fun a b => a.num ≠ b.num) →
    Runs (AtDocCols pc w styles nature done) (AtDocCols pc w styles nature (done ++ cs))
      (CalsP.loop pc 1 (walkList (CalsP.selected pc) (some tg) (cs.map (·.node)))) := by
  intro cs
  induction cs with
  | nil => intro done _ _ _; rw [List.append_nil]; exact runs_pure
  | cons c cs ih =>
    intro done hg hw hne
    have hne' := hne
    rw [List.pairwise_append] at hne'
    refine runs_loop_cons (runs_docCol (hg 0 c rfl) (hw c (by simp)) (fun c' hc' => hne'.2.2 c' hc' c (by simp)) tg htg) ?_
    have := ih (done ++ [c]) (fun i c' hc' => by
      have := hg (i + 1) c' (by simpa using hc')
      simpa [Nat.add_assoc, Nat.add_comm 1 i] using this) (fun c' hc' => hw c' (by simp [hc'])) (by simpa using hne)
    simpa using this

/-- what the table becomes: the columns which have a `colspec` are known before the first row -/
structure DocGoal (pc : CalsP.Config) (w h : Nat) (styles : Styles) (nature : Option String) (cols : List DocCol)
    (rowOK : Nat → Option String → Styles → Prop) (G : Goal) : Prop where
  w : G.w = w
  h : G.h = h
  styles : G.styles = styles
  nature : G.nature = nature
  rowOK : G.rowOK = rowOK
  colOK : G.colOK = DocColRead pc cols
  known : ∀ c ∈ cols, c.num ≤ G.known
  knownLe : G.known ≤ G.w

/-- when the columns are known, the rows can be read -/
theorem docCols_gap {w : Nat} (h : Nat) {styles : Styles} {nature : Option String} {cols : List DocCol} (rowOK : Nat → Option String → Styles → Prop)
    {R : Cell γ → Cell Content → Prop} {s : PState} (hs : AtDocCols pc w styles nature cols s) : ∃ G, DocGoal pc w h styles nature cols rowOK G ∧ AtGap G R [] 0 s := by
  obtain ⟨t, h1, h2, h3, h4, h5, h6, h7, h8, h9, h10, h11⟩ := hs
  have hb : t.baseViews .row = [] := by
    have hl := (lastLineOf_spec .row t.grid h4.grid).2.2.2 h5
    show (t.rows).getD _ = _
    rw [h6, hl]; rfl
  by_cases hc : cols = []
  · refine ⟨⟨w, h, 0, rowOK, DocColRead pc cols, styles, nature⟩, ⟨rfl, rfl, rfl, rfl, rfl, rfl, by rw [hc]; simp, Nat.zero_le _⟩, t, h1, h2, h4,
      by rw [h5]; exact .nil, h9, h7, by simp, by omega, by omega, by rw [hb]; simp, by omega⟩
  · refine ⟨⟨w, h, (t.baseViews .col).length, rowOK, DocColRead pc cols, styles, nature⟩, ⟨rfl, rfl, rfl, rfl, rfl, rfl, h10, h7⟩, t, h1, h2, h4,
      by rw [h5]; exact .nil, h9, h7, ?_, by omega, by omega, by rw [hb]; simp, by omega⟩
    intro i hi
    exact ⟨_, _, h8 hc, List.getElem?_eq_getElem hi, h11 i _ (List.getElem?_eq_getElem hi)⟩

/-! ### looks -/

theorem told_eq {known : List (String × String)} (attr : Option String) :
    told known attr = attr.bind (Dict.get? (known.map (fun kv => (kv.1, StyleVal.str kv.2)))) := by
  cases attr with
  | none => rfl
  | some s =>
    unfold told Dict.get?
    simp only [Option.bind_some, List.find?_map, Option.map_map]
    rfl

theorem copied_eq (attr : Option String) : copied attr = kept (attr.map .str) := by cases attr <;> rfl

theorem toldLines (attr : Option String) : attr.bind (Dict.get? CalsP.sepMap) = told lines attr := (told_eq (known := lines) attr).symm
theorem toldValigns (attr : Option String) : attr.bind (Dict.get? CalsP.valignMap) = told valigns attr := (told_eq (known := valigns) attr).symm
theorem toldAligns (attr : Option String) : attr.bind (Dict.get? CalsP.alignMap) = told aligns attr := (told_eq (known := aligns) attr).symm

theorem mapStyle_or {n : Node} {a : QName} {m : List (String × StyleVal)} {key : String} {st : Styles} :
    Dict.get? (CalsP.mapStyle n a m key st) key = ((n.attr a).bind (Dict.get? m)).or (Dict.get? st key) := by
  unfold CalsP.mapStyle
  cases n.attr a with
  | none => rfl
  | some v =>
    simp only [Option.bind_some]
    cases Dict.get? m v with
    | none => rfl
    | some s => simp only [Dict.get?_set, if_true]; rfl

theorem entry_shown (e : Node) : EntryShown pc.ns e (CalsP.entryStyles pc e) := by
  obtain ⟨h1, h2, h3, h4, h5, h6, h7, h8⟩ := entryStyles_looks (pc := pc) e
  rw [toldLines] at h1 h2
  rw [toldValigns] at h4
  rw [toldAligns] at h5
  rw [← copied_eq] at h3 h6
  refine ⟨h1, h2, h3, h4, h5, h6, ?_, h8⟩
  rw [h7]
  have : ((CalsP.entryContent e).isEmpty = true) ↔ insideToks e = [] := by
    rw [inside_empty e]; simp
  simp only [this]

theorem col_shown (e : Node) : ColShown pc.ns e (Dict.update [] (CalsP.colspecStyles pc e)) := by
  have hwf : Dict.WF (CalsP.colspecStyles pc e) := mapStyle_wf (copyStyle_wf (mapStyle_wf (mapStyle_wf Dict.wf_nil)))
  obtain ⟨h1, h2, h3, h4⟩ := colspecStyles_looks (pc := pc) e
  rw [toldLines] at h1 h2
  rw [toldAligns] at h4
  rw [← copied_eq] at h3
  refine ⟨by rw [update_nil_get hwf]; exact h1, by rw [update_nil_get hwf]; exact h2, by rw [update_nil_get hwf]; exact h3,
    by rw [update_nil_get hwf]; exact h4, ?_⟩
  intro k hk
  simp only [List.mem_cons, List.not_mem_nil, or_false, not_or] at hk
  obtain ⟨k1, k2, k3, k4⟩ := hk
  rw [update_nil_get hwf]
  unfold CalsP.colspecStyles
  simp only
  rw [mapStyle_get_ne _ _ _ _ _ _ (Ne.symm k4), copyStyle_get_ne _ _ _ _ _ (Ne.symm k3), mapStyle_get_ne _ _ _ _ _ _ (Ne.symm k2), mapStyle_get_ne _ _ _ _ _ _ (Ne.symm k1)]
  rfl

theorem row_shown {body row : Node} {st : Styles} {nat : Option String} (h : CalsP.rowLooks pc (some body) row = .ok (st, nat)) :
    RowShown pc.ns body row st := by
  unfold CalsP.rowLooks at h
  simp only [bind, Except.bind, pure, Except.pure] at h
  cases hn : CalsP.rowNature (CalsP.localname body) with
  | error e => rw [hn] at h; cases h
  | ok nt =>
    rw [hn] at h
    cases h
    have nv : ∀ k, k ≠ "vertical-align" → Dict.get? (CalsP.mapStyle row (pc.q "valign") CalsP.valignMap "vertical-align"
        (CalsP.mapStyle body (pc.q "valign") CalsP.valignMap "vertical-align" [])) k = none := by
      intro k hk
      rw [mapStyle_get_ne _ _ _ _ _ _ (Ne.symm hk), mapStyle_get_ne _ _ _ _ _ _ (Ne.symm hk)]; rfl
    refine ⟨?_, ?_, ?_, ?_, ?_⟩
    · rw [copyStyle_get_ne _ _ _ _ _ (by decide), copyStyle_get_ne _ _ _ _ _ (by decide), mapStyle_get_ne _ _ _ _ _ _ (by decide), mapStyle_or, mapStyle_or,
        Dict.get?_nil, Option.or_none, toldValigns, toldValigns]
      rfl
    · rw [copyStyle_get_ne _ _ _ _ _ (by decide), copyStyle_get_ne _ _ _ _ _ (by decide), mapStyle_get (nv _ (by decide)), toldLines]
      rfl
    · rw [copyStyle_get_ne _ _ _ _ _ (by decide), copyStyle_get (by rw [mapStyle_get_ne _ _ _ _ _ _ (by decide)]; exact nv _ (by decide)), copied_eq]
      rfl
    · rw [copyStyle_get (by rw [copyStyle_get_ne _ _ _ _ _ (by decide), mapStyle_get_ne _ _ _ _ _ _ (by decide)]; exact nv _ (by decide)), copied_eq]
      rfl
    · intro k hk
      simp only [List.mem_cons, List.not_mem_nil, or_false, not_or] at hk
      obtain ⟨k1, k2, k3, k4⟩ := hk
      rw [copyStyle_get_ne _ _ _ _ _ (Ne.symm k4), copyStyle_get_ne _ _ _ _ _ (Ne.symm k3), mapStyle_get_ne _ _ _ _ _ _ (Ne.symm k2)]
      exact nv _ k1

theorem frame_shown {frame : Option String} {st0 st : Styles} (h0 : CalsP.getFrameStyles frame = .ok st0)
    (h : ∀ k ∈ ["border-top", "border-right", "border-bottom", "border-left"], Dict.get? st k = Dict.get? st0 k) : FrameShown frame st := by
  have e1 := h "border-top" (by simp)
  have e2 := h "border-bottom" (by simp)
  have e3 := h "border-left" (by simp)
  have e4 := h "border-right" (by simp)
  unfold CalsP.getFrameStyles at h0
  split at h0
  · cases h0
    refine .inl ⟨.inl rfl, ?_⟩
    intro k hk
    simp only [List.mem_cons, List.not_mem_nil, or_false] at hk
    rcases hk with rfl | rfl | rfl | rfl <;> assumption
  · rename_i f
    split at h0
    · rename_i hf
      cases h0
      refine .inl ⟨.inr (by rw [hf]), ?_⟩
      intro k hk
      simp only [List.mem_cons, List.not_mem_nil, or_false] at hk
      rcases hk with rfl | rfl | rfl | rfl <;> assumption
    · split at h0
      · cases h0
      · rename_i a b c e hf
        cases h0
        refine .inr ⟨f, a, b, c, e, rfl, ?_, ?_, ?_, ?_, ?_⟩
        · have hm : (f, (a, b, c, e)) ∈ CalsP.frameBorders := by
            unfold Dict.get? at hf
            rw [Option.map_eq_some_iff] at hf
            obtain ⟨⟨k, v⟩, hf, rfl⟩ := hf
            have h1 := List.mem_of_find?_eq_some hf
            have h2 := List.find?_some hf
            simp only [decide_eq_true_eq] at h2
            subst h2
            exact h1
          have : (fun p : String × (Bool × Bool × Bool × Bool) => (p.1, [p.2.1, p.2.2.1, p.2.2.2.1, p.2.2.2.2])) (f, (a, b, c, e)) ∈
              CalsP.frameBorders.map (fun p => (p.1, [p.2.1, p.2.2.1, p.2.2.2.1, p.2.2.2.2])) := List.mem_map_of_mem hm
          exact this
        · rw [e1]; cases a <;> rfl
        · rw [e2]; cases b <;> rfl
        · rw [e3]; cases c <;> rfl
        · rw [e4]; cases e <;> rfl

theorem table_shown {table tgroup : Node} {st : Styles} (h : CalsP.tableStyles pc table = .ok st) :
    TableShown pc.ns (Units.rewriteWidth pc.fl pc.widthUnit) table tgroup (Dict.update (copyStyles (some st))
      (CalsP.mapStyle tgroup (pc.q "rowsep") CalsP.sepMap "x-cell-border-bottom" (CalsP.mapStyle tgroup (pc.q "colsep") CalsP.sepMap "x-cell-border-right" []))) := by
  have hwf : Dict.WF (CalsP.mapStyle tgroup (pc.q "rowsep") CalsP.sepMap "x-cell-border-bottom"
      (CalsP.mapStyle tgroup (pc.q "colsep") CalsP.sepMap "x-cell-border-right" [])) := mapStyle_wf (mapStyle_wf Dict.wf_nil)
  obtain ⟨⟨st0, f0, f1⟩, s2, s3, s4, s5, s6, s7, s8⟩ := tableStyles_looks h
  have same : ∀ k, k ≠ "x-cell-border-right" → k ≠ "x-cell-border-bottom" → Dict.get? (Dict.update (copyStyles (some st))
      (CalsP.mapStyle tgroup (pc.q "rowsep") CalsP.sepMap "x-cell-border-bottom" (CalsP.mapStyle tgroup (pc.q "colsep") CalsP.sepMap "x-cell-border-right" []))) k =
      Dict.get? st k := by
    intro k k1 k2
    rw [Dict.get?_update hwf, mapStyle_get_ne _ _ _ _ _ _ (Ne.symm k2), mapStyle_get_ne _ _ _ _ _ _ (Ne.symm k1)]
    rfl
  refine ⟨frame_shown f0 ?_, ?_, ?_, ?_, ?_, ?_, ?_, ?_⟩
  · intro k hk
    rw [same k (by rintro rfl; revert hk; decide) (by rintro rfl; revert hk; decide)]
    exact f1 k hk
  · rw [Dict.get?_update hwf, mapStyle_get_ne _ _ _ _ _ _ (by decide), mapStyle_get rfl, toldLines]
    rw [toldLines] at s2
    exact congrArg _ s2
  · rw [Dict.get?_update hwf, mapStyle_get (by rw [mapStyle_get_ne _ _ _ _ _ _ (by decide)]; rfl), toldLines]
    rw [toldLines] at s3
    exact congrArg _ s3
  · rw [same _ (by decide) (by decide), s4]
    exact (told_eq (known := [("land", "landscape"), ("port", "portrait")]) _).symm
  · rw [same _ (by decide) (by decide), s5]
    exact (told_eq (known := [("0", "2"), ("1", "1")]) _).symm
  · rw [same _ (by decide) (by decide), s6, copied_eq]
    rfl
  · intro hw
    rw [same _ (by decide) (by decide)]
    exact s7 hw
  · intro s hs hne
    rw [same _ (by decide) (by decide)]
    exact s8 s hs hne

theorem nature_shown {table tgroup : Node} : TableNature (table.attr (pc.q "tabstyle")) (tgroup.attr (pc.q "tgroupstyle"))
    (CalsP.tgroupNature (CalsP.tableNature pc table) (tgroup.attr (pc.q "tgroupstyle"))) := by
  have hn : (table.attr (pc.q "tabstyle") = none ∨ table.attr (pc.q "tabstyle") = some "") ∧ CalsP.tableNature pc table = none ∨
      ∃ s, table.attr (pc.q "tabstyle") = some s ∧ s ≠ "" ∧ CalsP.tableNature pc table = some s := by
    unfold CalsP.tableNature
    cases table.attr (pc.q "tabstyle") with
    | none => exact .inl ⟨.inl rfl, rfl⟩
    | some s =>
      by_cases hs : s = ""
      · subst hs; exact .inl ⟨.inr rfl, rfl⟩
      · exact .inr ⟨s, rfl, hs, by simp [hs]⟩
  have hg : (tgroup.attr (pc.q "tgroupstyle") = none ∨ tgroup.attr (pc.q "tgroupstyle") = some "") ∨
      ∃ s, tgroup.attr (pc.q "tgroupstyle") = some s ∧ s ≠ "" := by
    cases tgroup.attr (pc.q "tgroupstyle") with
    | none => exact .inl (.inl rfl)
    | some s =>
      by_cases hs : s = ""
      · subst hs; exact .inl (.inr rfl)
      · exact .inr ⟨s, rfl, hs⟩
  rcases hg with hg | ⟨g, hg, hgne⟩
  · have e : ∀ n : Option String, CalsP.tgroupNature n (tgroup.attr (pc.q "tgroupstyle")) = n := by
      intro n
      unfold CalsP.tgroupNature
      rcases hg with hg | hg <;> rw [hg] <;> simp
    rw [e]
    rcases hn with ⟨h1, h2⟩ | ⟨s, h1, h2, h3⟩
    · exact .inl ⟨hg, h1, h2⟩
    · exact .inr (.inl ⟨s, hg, h1, h2, h3⟩)
  · unfold CalsP.tgroupNature
    rw [hg]
    simp only [if_neg hgne]
    rcases hn with ⟨h1, h2⟩ | ⟨s, h1, h2, h3⟩
    · rw [h2]
      exact .inr (.inr (.inl ⟨g, rfl, hgne, h1, rfl⟩))
    · rw [h3]
      simp only [if_neg h2]
      have hw := splitChar_words s.toList
      refine .inr (.inr (.inr ⟨g, s, (splitChar ' ' s.toList).dropLast, (splitChar ' ' s.toList).getLast hw.1, _, rfl, hgne, h1, h2, ?_, rfl, ?_⟩))
      · rw [List.dropLast_concat_getLast]; exact hw
      · exact String.toList_ofList

end Benker
