import Verif.Lemmas.FormexDoc
import Verif.Props.CalsDoc

/-! C76: what the Formex parser reads in a Formex document. -/

namespace Benker
open PyM Cals CalsSpec FmxSpec

variable {pc : FmxP.Config}

theorem fmx_cells (d : FmxDoc) : lineCells d.all = d.drawn.map (fun e => lineCell e.1 e.2) := by
  unfold lineCells FmxDoc.drawn
  rw [List.map_flatMap]
  congr 1
  funext l
  simp

/-- everything which is drawn, in the order of the document, tiles the table -/
theorem fmx_tiles {w h : Nat} {d : FmxDoc} (hd : d.Drawn pc.ns pc.calsNs w h) : Tiles w h (lineCells d.all) := by
  have hcells := fmx_cells d
  have hy : ∀ e ∈ d.drawn, 1 ≤ e.2.2.min.y := by
    intro e he
    obtain ⟨l, hl, he⟩ := List.mem_flatMap.mp he
    obtain ⟨e', he', rfl⟩ := List.mem_map.mp he
    obtain ⟨i, hi, rfl⟩ := List.getElem_of_mem hl
    have := hd.starts i _ (List.getElem?_eq_getElem hi) e' he'
    simp only; omega
  refine ⟨?_, ?_, ?_, ?_, ?_⟩
  · intro c hc
    rw [hcells] at hc
    obtain ⟨e, he, rfl⟩ := List.mem_map.mp hc
    have h1 := hd.valid e he
    have h2 := hy e he
    simp only [lineCell, Box.Valid]; omega
  · unfold lineCells
    rw [List.pairwise_flatMap]
    refine ⟨?_, ?_⟩
    · intro l hl
      rw [List.pairwise_map]
      obtain ⟨i, hi, rfl⟩ := List.getElem_of_mem hl
      refine (hd.leftToRight _ hl).imp_of_mem ?_
      intro a b ha hb hlt
      have e1 := hd.starts i _ (List.getElem?_eq_getElem hi) a ha
      have e2 := hd.starts i _ (List.getElem?_eq_getElem hi) b hb
      simp only [lineCell, CornerBefore]; omega
    · rw [List.pairwise_iff_getElem]
      intro i j hi hj hij a ha b hb
      obtain ⟨a, ha', rfl⟩ := List.mem_map.mp ha
      obtain ⟨b, hb', rfl⟩ := List.mem_map.mp hb
      have e1 := hd.starts i _ (List.getElem?_eq_getElem hi) a ha'
      have e2 := hd.starts j _ (List.getElem?_eq_getElem hj) b hb'
      simp only [lineCell, CornerBefore]; omega
  · rw [hcells]
    unfold DisjointCells
    rw [List.pairwise_map]
    exact hd.disjoint
  · intro c hc
    rw [hcells] at hc
    obtain ⟨e, he, rfl⟩ := List.mem_map.mp hc
    have h1 := hd.valid e he
    simp only [lineCell, Cell.max]; omega
  · intro p h1 h2 h3 h4
    obtain ⟨e, he, hp⟩ := hd.full p h1 h2 h3 h4
    exact ⟨_, by rw [hcells]; exact List.mem_map_of_mem he, hp⟩

theorem fmx_plan {w h known : Nat} {d : FmxDoc} (hd : d.Drawn pc.ns pc.calsNs w h) (hw : d.WidthKnown w) (hk : (∃ c ∈ d.cols, c.num = w) → known = w) :
    LinePlan pc w h known d.all := by
  refine ⟨fmx_tiles hd, hd.starts, hd.height, hd.notEmpty.1, ?_⟩
  intro i l hl hne
  rcases hw i l hl hne with h | h
  · exact .inl (hk h)
  · exact .inr h

theorem line_good {w h outer : Nat} {parent : Option Node} {d : FmxDoc} (hn : d.Nested pc.ns pc.calsNs outer parent) (hd : d.Drawn pc.ns pc.calsNs w h) :
    ∀ l ∈ d.lines, LineGood pc l := by
  intro l hl
  have hall : l ∈ d.all := List.mem_append_left _ hl
  obtain ⟨h1, h2⟩ := hn.lines l hl
  refine ⟨h1, h2, ?_, ?_, hd.places l hall⟩
  · intro hr
    obtain ⟨h3, h4⟩ := hn.rows l hl hr
    obtain ⟨h5, h6⟩ := hd.rows l hall hr
    exact ⟨h5, h3, fun c hc => ⟨(h4 c hc).1, (h4 c hc).2, (h6 c hc).1, (h6 c hc).2⟩⟩
  · intro hr
    have h3 := hn.whole l hall hr
    obtain ⟨c, hc⟩ : ∃ c, l.cells = [c] := List.length_eq_one_iff.mp (by simpa using congrArg List.length h3)
    rw [hc] at h3
    obtain ⟨a, b, g1, g2, g3, g4, g5, g6⟩ := hd.titles l hl hr c (by rw [hc]; simp)
    exact ⟨hn.titles l hl hr, c, a, b, hc, by simpa using h3, g1, g2, g3, g4, g5, g6⟩

theorem note_good {w h outer : Nat} {parent : Option Node} {d : FmxDoc} (hn : d.Nested pc.ns pc.calsNs outer parent) (hd : d.Drawn pc.ns pc.calsNs w h) :
    ∀ l ∈ d.notes, NoteGood w l := by
  intro l hl
  have hs := hn.notes.2 l hl
  have h3 := hn.whole l (List.mem_append_right _ hl) (by rw [hs]; decide)
  obtain ⟨c, hc⟩ : ∃ c, l.cells = [c] := List.length_eq_one_iff.mp (by simpa using congrArg List.length h3)
  rw [hc] at h3
  obtain ⟨h4, h5, h6⟩ := hd.notes l hl
  exact ⟨hs, h4, h5, c, hc, by simpa using h3, h6 c (by rw [hc]; simp)⟩

/-- the only attribute which may be refused: the frame must be one of the six frames of CALS -/
def FrameAccepted (cals : Option String) (corpus : Node) : Prop := ∀ f, corpus.attr ⟨cals, "frame"⟩ = some f → f ≠ "" → f ∈ frames.map (·.1)

theorem frameAccepted_ok {parent : Option Node} {corpus : Node} (h : FrameAccepted pc.calsNs corpus) : ∃ st, FmxP.corpusStyles pc parent corpus = .ok st := by
  have hf : ∃ st0, CalsP.getFrameStyles (corpus.attr (pc.q "frame")) = .ok st0 := by
    have := h
    change ∀ f, corpus.attr (pc.q "frame") = some f → _ at this
    cases hfr : corpus.attr (pc.q "frame") with
    | none => exact ⟨_, rfl⟩
    | some f =>
      by_cases he : f = ""
      · subst he; exact ⟨_, rfl⟩
      · have hm := this f hfr he
        simp only [frames, List.map_cons, List.map_nil, List.mem_cons, List.not_mem_nil, or_false] at hm
        rcases hm with rfl | rfl | rfl | rfl | rfl | rfl <;> exact ⟨_, rfl⟩
  obtain ⟨st0, hf⟩ := hf
  unfold FmxP.corpusStyles
  simp only [hf, bind, Except.bind, pure, Except.pure]
  exact ⟨_, rfl⟩

theorem place_shown {l : DocLine} {n : Option Node} {c : Cell Content} (h : PlaceRead pc l n c) : Shown pc.ns pc.calsNs pc.embedGrNotes l n c := by
  cases n with
  | none => exact ⟨fun _ => h, (fun n hn => nomatch hn), (fun n hn => nomatch hn), (fun n hn => nomatch hn), (fun n hn => nomatch hn)⟩
  | some n =>
    unfold PlaceRead at h
    refine ⟨(fun hn => nomatch hn), ?_, ?_, ?_, ?_⟩
    · rintro _ ⟨rfl⟩
      cases hs : l.sort <;> rw [hs] at h <;> obtain ⟨h1, h2, h3⟩ := h <;> rw [h1]
      · rw [if_neg (by simp)]; exact nodeContent_toks n
      · rw [if_neg (by simp)]; exact nodeContent_toks n
      · rw [if_neg (by simp)]; exact nodeContent_toks n
      · by_cases he : pc.embedGrNotes = true
        · simp only [he, if_true, and_self, contentToks]
          simp [pieceToks]
        · simp only [he]
          exact nodeContent_toks n
    · rintro _ ⟨rfl⟩ hs
      rw [hs] at h
      obtain ⟨_, h2, h3⟩ := h
      rw [h3, cellNature_kind, h2]
      exact ⟨rfl, cell_shown _ _⟩
    · rintro _ ⟨rfl⟩ hs
      have hk : l.kind pc.ns = "body" := by unfold DocLine.kind; rcases hs with h | h <;> rw [h]
      rcases hs with hs | hs <;> rw [hs] at h <;> exact ⟨by rw [h.2.2, hk], h.2.1⟩
    · rintro _ ⟨rfl⟩ hs
      have hk : l.kind pc.ns = "footer" := by unfold DocLine.kind; rw [hs]
      rw [hs] at h
      obtain ⟨_, h2, h3⟩ := h
      rw [h2, h3, hk]
      exact ⟨rfl, (calsRow_looks n).1, (calsRow_looks n).2.1⟩

/-- **C76**: a Formex table is read as it is drawn, for every document whose cells, titles and notes, with the places which short lines leave, fill a rectangle:
there is one cell for each of them, at the same place, with the same content; the kinds and the looks of the cells, of the rows, of the columns and of the table
are those which their attributes tell, and each row or title keeps its type and the number of blocks around it.  The parser may have been used before. -/
theorem C76_reading (d : FmxDoc) (w h outer : Nat) (parent : Option Node) (hn : d.Nested pc.ns pc.calsNs outer parent) (hd : d.Drawn pc.ns pc.calsNs w h)
    (hk : d.WidthKnown w) (hc : d.Columns pc.calsNs w) (ha : FrameAccepted pc.calsNs d.corpus) (s : PState) :
    ∃ (t : Table Content) (rows cols : List (View Content)), eval (FmxP.parseTable pc outer parent d.corpus) s = .ok (some t) ∧
      eval (Table.views .row) t = .ok rows ∧ eval (Table.views .col) t = .ok cols ∧ rows.length = h ∧ cols.length = w ∧
      All₂ (fun e c => c.box = e.2.2 ∧ Shown pc.ns pc.calsNs pc.embedGrNotes e.1 e.2.1 c) d.drawn t.cells ∧
      All₂ (fun l v => v.nature = some (l.kind pc.ns) ∧ (l.sort ≠ .note → LineShown pc.ns pc.calsNs l v.styles)) d.all rows ∧
      (∀ c ∈ d.cols, ∃ v, cols[c.num - 1]? = some v ∧ ColShown pc.calsNs c.node v.styles) ∧
      CorpusShown pc.ns pc.calsNs parent d.corpus t.styles ∧
      CorpusNature (parent.bind (fun p => p.attr ⟨pc.ns, "CLASS"⟩)) (d.corpus.attr ⟨pc.calsNs, "tabstyle"⟩) t.nature := by
  obtain ⟨st, hst⟩ := frameAccepted_ok (parent := parent) ha
  obtain ⟨top, bottom, hch, htop, hbottom⟩ := hn.inCorpus
  have htag : d.corpus.tag? = some (pc.f "CORPUS") := hn.corpus
  let nature := FmxP.corpusNature pc parent d.corpus
  have run1 : Runs (fun s => s = PState.init) (AtDocCols (calsOf pc) w (copyStyles (some st)) nature []) (FmxP.parseCorpus pc parent d.corpus) := by
    rintro s rfl
    have hnew : Table.new ([] : List (Cell Content)) (some st) nature = .ok ⟨copyStyles (some st), nature, Grid.empty, none, none⟩ := rfl
    refine ⟨{ PState.init with table := some ⟨copyStyles (some st), nature, Grid.empty, none, none⟩ }, ?_,
      ⟨_, rfl, rfl, rfl, ⟨Grid.empty_inv, fun ax vs hv => by cases ax <;> cases hv⟩, rfl, rfl, Nat.zero_le _, by simp, ⟨rfl, rfl⟩, by simp, ?_⟩⟩
    · unfold FmxP.parseCorpus
      simp only [bind_run, lift_run, hst]
      rw [hnew]
      rfl
    · intro j v hv
      exact absurd hv (by
        have : (Table.baseViews Axis.col (⟨copyStyles (some st), nature, Grid.empty, none, none⟩ : Table Content)) = [] := rfl
        rw [this]; simp)
  have run2 : Runs (AtDocCols (calsOf pc) w (copyStyles (some st)) nature [])
      (fun s => ∃ G, DocGoal (calsOf pc) w h (copyStyles (some st)) nature d.cols (LineOK pc d.all) G ∧ AtGap G (LineRead pc) (lineCells d.lines) d.lines.length s)
      (FmxP.loop pc 1 outer (walkList (FmxP.selected pc) (some d.corpus) d.corpus.children)) := by
    rw [hch, walkList_append, among_walk htop, ← walkList_append]
    refine FmxP.runs_loop_append (Q := AtDocCols (calsOf pc) w (copyStyles (some st)) nature d.cols) ?_ ?_
    · exact runs_fmxDocCols (some d.corpus) d.cols [] (fun i c hi => by
          obtain ⟨h1, h2⟩ := hn.cols c (List.mem_of_getElem? hi)
          refine ⟨h1, h2, ?_⟩
          simp only [List.length_nil, Nat.zero_add]
          exact hc.number i c hi) hc.inside (by simpa using hc.different)
    · intro s hs
      obtain ⟨G, hG, hgap⟩ := docCols_gap (R := LineRead pc) h (LineOK pc d.all) hs
      have hplan : LinePlan pc G.w G.h G.known d.all := by
        rw [hG.w, hG.h]
        refine fmx_plan hd hk ?_
        rintro ⟨c, hc, hcw⟩
        have := hG.known c hc
        have := hG.knownLe
        have := hG.w
        omega
      obtain ⟨s', r1, r2⟩ := runs_docLines hG.rowOK hplan hbottom [] d.notes (some d.corpus) rfl (line_good hn hd) s hgap
      exact ⟨s', r1, G, hG, r2⟩
  have run3 : Runs (fun s => ∃ G, DocGoal (calsOf pc) w h (copyStyles (some st)) nature d.cols (LineOK pc d.all) G ∧ AtGap G (LineRead pc) (lineCells d.lines) d.lines.length s)
      (fun s => ∃ G, DocGoal (calsOf pc) w h (copyStyles (some st)) nature d.cols (LineOK pc d.all) G ∧ AtGap G (LineRead pc) (lineCells d.all) d.all.length s)
      (forEach (fun n => do PState.nextRow; FmxP.parseNotes pc n) (FmxP.notesOf pc parent)) := by
    rintro s ⟨G, hG, hgap⟩
    have hplan : LinePlan pc G.w G.h G.known d.all := by
      rw [hG.w, hG.h]
      refine fmx_plan hd hk ?_
      rintro ⟨c, hc, hcw⟩
      have := hG.known c hc
      have := hG.knownLe
      have := hG.w
      omega
    rw [notes_eq htag hn.notes.1]
    obtain ⟨s', r1, r2⟩ := runs_docNotes hG.rowOK hplan d.notes d.lines hd.notEmpty.2 rfl (by rw [hG.w]; exact note_good hn hd) s hgap
    exact ⟨s', r1, G, hG, r2⟩
  obtain ⟨s1, r1, q1⟩ := run1 _ rfl
  obtain ⟨s2, r2, q2⟩ := run2 _ q1
  obtain ⟨s3, r3, q3⟩ := run3 _ q2
  obtain ⟨a3, b3, row3, tb3⟩ := s3
  obtain ⟨G, hG, t', e1, e2, href⟩ := q3
  simp only at e1 e2
  subst e1 e2
  have htiles := fmx_tiles hd
  have hh : 1 ≤ h := by
    have h1 := hd.height
    have h2 := List.length_pos_of_ne_nil hd.notEmpty.2
    unfold FmxDoc.all at h1
    rw [List.length_append] at h1
    omega
  have hfull : ∀ p : Coord, 1 ≤ p.x ∧ p.x ≤ w ∧ 1 ≤ p.y ∧ p.y ≤ h → Covered t'.grid.cells p := by
    intro p hp
    refine href.endRow (fun _ _ h => h.box) (rest := []) (by rw [hG.w, hG.h]; simpa using htiles) (by rw [hG.h, hd.height]) (by simp) p ?_
    rw [hG.w, hd.height]; exact hp
  have hin : ∀ c ∈ t'.grid.cells, c.max.x ≤ w ∧ c.max.y ≤ h := by
    intro d hd
    obtain ⟨c, hc, hr⟩ := href.cells.mem_right hd
    have := htiles.inside c hc
    simp only [Cell.max, hr.box] at this ⊢; exact this
  have hw1 := hd.notEmpty.1
  have hfill : CalsP.fillHoles t' = (.ok (), t') := by
    refine fillHoles_full (w := w) (h := h) href.inv ?_ hin hfull
    intro hnil
    obtain ⟨c, hc, _⟩ := hfull ⟨1, 1⟩ (by simp only; omega)
    rw [hnil] at hc; cases hc
  have hcl : (t'.baseViews .col).length = w := by
    have l1 := href.cols
    obtain ⟨d', hd', hp⟩ := hfull ⟨w, 1⟩ (by simp only; omega)
    have l2 := (Table.base_describes href.inv .col).enough d' hd'
    simp only [InBox, lastLine, Cell.max] at hp l2
    have := hG.w
    omega
  have hrl : (t'.baseViews .row).length = h := by
    have l1 := href.enough
    have l2 := href.notMore
    have := hG.h
    have := hd.height
    omega
  refine ⟨t', t'.baseViews .row, t'.baseViews .col, ?_, ?_, ?_, hrl, hcl, ?_, ?_, ?_, ?_, ?_⟩
  · unfold eval
    rw [FmxP.parseTable_run outer parent htag]
    have hend : FmxP.endCorpus pc parent s2 = (.ok (), ⟨a3, d.all.length, row3, some t'⟩) := by
      unfold FmxP.endCorpus
      simp only [bind_run] at r3 ⊢
      simp only [r3, onTable_mk, hfill]
    simp only [bind_run, r1, r2, hend, get_run, pure_run]
  · unfold eval; rw [Table.views_run .row t' href.inv.grid]
  · unfold eval; rw [Table.views_run .col t' href.inv.grid]
  · have := href.cells
    rw [fmx_cells] at this
    refine (all₂_map_left this).imp ?_
    rintro ⟨l, n, b⟩ c ⟨h1, l', n', h2, h3⟩
    cases h2
    exact ⟨h1, place_shown h3⟩
  · refine all₂_of_getElem (by rw [hrl, hd.height]) ?_
    intro i l v hl hv
    have hlt := (List.getElem?_eq_some_iff.mp hl).1
    obtain ⟨v', hv', hok⟩ := href.rowLooks i hlt
    rw [hv] at hv'; cases hv'
    rw [hG.rowOK] at hok
    obtain ⟨l', hl', hok1, hok2, hok3⟩ := hok
    rw [hl] at hl'; cases hl'
    refine ⟨hok1, ?_⟩
    intro hs
    cases hsort : l.sort with
    | note => exact absurd hsort hs
    | row => rw [hok2 hsort]; exact rowLine_shown hsort
    | title => rw [hok3 (.inl hsort)]; exact title_shown (.inl hsort)
    | subtitle => rw [hok3 (.inr hsort)]; exact title_shown (.inr hsort)
  · intro c hcm
    have hnum := hc.inside c hcm
    obtain ⟨vs, v', hvs, hv', hok⟩ := href.colLooks (c.num - 1) (by have := hG.known c hcm; omega)
    have e1 : t'.baseViews .col = vs := by
      show (t'.cols).getD _ = _
      rw [hvs]; rfl
    rw [hG.colOK] at hok
    refine ⟨v', by rw [e1]; exact hv', ?_⟩
    rcases hok with ⟨c', hc', hnum', hok⟩ | ⟨hno, _⟩
    · have : c' = c := by
        refine pairwise_unique hc.different hc' hcm (fun a b h e => h e.symm) ?_
        omega
      subst this
      rw [hok]
      exact col_shown (pc := calsOf pc) _
    · exact absurd (by omega) (hno c hcm)
  · rw [href.same.1, hG.styles]
    exact corpus_shown hst
  · rw [href.same.2, hG.nature]
    exact corpus_nature _ _

/-- a way to check that nodes hold no element of a table -/
theorem noFmx_of {ns cals : Option String} {nodes : List Node} (h : ∀ tk ∈ toksList nodes, (match tk with
    | .opening t _ => decide (t.name ∉ ["CORPUS", "ROW", "CELL", "MARGIN", "BLK", "TI.BLK", "STI.BLK", "colspec"])
    | _ => true) = true) : NoFmx ns cals nodes := by
  intro t a ht
  have := h _ ht
  simp only [decide_eq_true_eq, List.mem_cons, List.not_mem_nil, or_false, not_or] at this ⊢
  exact ⟨fun _ => by tauto, fun _ => by tauto⟩

def cq (s : String) : QName := ⟨some "c", s⟩
def fmxA : Node := .elem (qn "CELL") [(qn "COL", "1"), (qn "COLSPAN", "2"), (qn "TYPE", "HEADER")] (some "a") [] none
def fmxB : Node := .elem (qn "CELL") [(qn "COL", "3"), (qn "TYPE", "HEADER"), (cq "align", "right")] none [.elem (qn "P") [] (some "b") [] none] none
def fmxR1 : Node := .elem (qn "ROW") [(qn "TYPE", "HEADER"), (cq "valign", "middle")] none [fmxA, .comment "note" none, fmxB] none
def fmxT : Node := .elem (qn "TI.BLK") [(qn "COL.START", "2"), (qn "COL.END", "3")] none [.elem (qn "P") [] (some "Title") [] none] none
def fmxC : Node := .elem (qn "CELL") [(qn "ROWSPAN", "2"), (cq "bgcolor", "red")] (some "c") [] none
def fmxD : Node := .elem (qn "CELL") [(qn "TYPE", "TOTAL")] none [.elem (qn "IE") [] none [] none] none
def fmxR2 : Node := .elem (qn "ROW") [(cq "rowsep", "1")] none [fmxC, fmxD] none
def fmxE : Node := .elem (qn "CELL") [(cq "morerows", "0")] (some "e") [] none
def fmxR3 : Node := .elem (qn "ROW") [] none [fmxE] none
def fmxInner : Node := .elem (qn "BLK") [] none [fmxR2, .pi "p" "q" none, fmxR3] none
def fmxBlk : Node := .elem (qn "BLK") [] none [fmxT, fmxInner] none
def fmxC1 : Node := .elem (cq "colspec") [(cq "colnum", "3"), (cq "colwidth", "4cm")] none [] none
def fmxC2 : Node := .elem (cq "colspec") [(cq "align", "right")] none [] none
def fmxCorpus : Node := .elem (qn "CORPUS") [(cq "frame", "topbot"), (cq "tabstyle", "x")] none [fmxC1, fmxC2, fmxR1, fmxBlk] none
def fmxN : Node := .elem (qn "GR.NOTES") [] none [.elem (qn "NOTE") [] (some "n") [] none] none
def fmxTbl : Node := .elem (qn "TBL") [(qn "CLASS", "GEN"), (qn "PAGE.SIZE", "SINGLE.LANDSCAPE")] none [.elem (qn "TITLE") [] (some "T") [] none, fmxN, fmxCorpus] none

/-- a document with columns, a header row, a title in a block, two rows which are too short in a block of the block, an empty cell, spans and a note -/
def fmxDemo : FmxDoc :=
  ⟨fmxCorpus, [⟨fmxC1, 3⟩, ⟨fmxC2, 2⟩],
   [⟨.row, fmxR1, 0, [], [⟨fmxA, ⟨⟨1, 1⟩, ⟨2, 1⟩⟩⟩, ⟨fmxB, ⟨⟨3, 1⟩, ⟨3, 1⟩⟩⟩], []⟩,
    ⟨.title, fmxT, 1, [⟨⟨1, 2⟩, ⟨1, 2⟩⟩], [⟨fmxT, ⟨⟨2, 2⟩, ⟨3, 2⟩⟩⟩], []⟩,
    ⟨.row, fmxR2, 2, [], [⟨fmxC, ⟨⟨1, 3⟩, ⟨1, 4⟩⟩⟩, ⟨fmxD, ⟨⟨2, 3⟩, ⟨2, 3⟩⟩⟩], [⟨⟨3, 3⟩, ⟨3, 3⟩⟩]⟩,
    ⟨.row, fmxR3, 2, [], [⟨fmxE, ⟨⟨2, 4⟩, ⟨2, 4⟩⟩⟩], [⟨⟨3, 4⟩, ⟨3, 4⟩⟩]⟩],
   [⟨.note, fmxN, 0, [], [⟨fmxN, ⟨⟨1, 5⟩, ⟨3, 5⟩⟩⟩], []⟩]⟩

theorem fmxDemo_nested : fmxDemo.Nested none (some "c") 0 (some fmxTbl) := by
  have no : ∀ n : Node, (∀ tk ∈ toksList [n], (match tk with
    | .opening t _ => decide (t.name ∉ ["CORPUS", "ROW", "CELL", "MARGIN", "BLK", "TI.BLK", "STI.BLK", "colspec"])
    | _ => true) = true) → NoFmx none (some "c") [n] := fun n h => noFmx_of h
  refine ⟨rfl, ⟨[fmxC1, fmxC2], [fmxR1, fmxBlk], rfl, .take _ _ _ (.take _ _ _ .nil), ?_⟩, ?_, ⟨?_, ?_⟩, ?_, ?_, ?_, ?_⟩
  · refine .line 0 ⟨.row, fmxR1, 0, [], _, []⟩ _ _ rfl ?_
    refine .block 0 fmxBlk [_, _, _] [] [] rfl ?_ (.nil 0)
    refine .line 1 ⟨.title, fmxT, 1, _, _, []⟩ _ _ rfl ?_
    refine .block 1 fmxInner [_, _] [] [] rfl ?_ (.nil 1)
    refine .line 2 ⟨.row, fmxR2, 2, [], _, _⟩ _ _ rfl (.skip 2 _ _ _ (no _ (by decide +kernel)) (.line 2 ⟨.row, fmxR3, 2, [], _, _⟩ _ _ rfl (.nil 2)))
  · intro c hc
    simp only [fmxDemo, List.mem_cons, List.not_mem_nil, or_false] at hc
    rcases hc with rfl | rfl <;> exact ⟨rfl, noFmx_of (by decide +kernel)⟩
  · exact .inr ⟨fmxTbl, [.elem (qn "TITLE") [] (some "T") [] none, fmxN], [], rfl, rfl, by decide +kernel, rfl⟩
  · decide +kernel
  · decide +kernel
  · intro l hl hs
    simp only [fmxDemo, List.mem_cons, List.not_mem_nil, or_false] at hl
    rcases hl with rfl | rfl | rfl | rfl
    · refine ⟨.take _ _ _ (.skip _ _ _ (no _ (by decide +kernel)) (.take _ _ _ .nil)), ?_⟩
      intro c hc
      simp only [List.mem_cons, List.not_mem_nil, or_false] at hc
      rcases hc with rfl | rfl <;> exact ⟨rfl, noFmx_of (by decide +kernel)⟩
    · cases hs
    · refine ⟨.take _ _ _ (.take _ _ _ .nil), ?_⟩
      intro c hc
      simp only [List.mem_cons, List.not_mem_nil, or_false] at hc
      rcases hc with rfl | rfl <;> exact ⟨rfl, noFmx_of (by decide +kernel)⟩
    · refine ⟨.take _ _ _ .nil, ?_⟩
      intro c hc
      simp only [List.mem_cons, List.not_mem_nil, or_false] at hc
      rcases hc with rfl; exact ⟨rfl, noFmx_of (by decide +kernel)⟩
  · intro l hl hs
    simp only [fmxDemo, List.mem_cons, List.not_mem_nil, or_false] at hl
    rcases hl with rfl | rfl | rfl | rfl
    · exact absurd rfl hs
    · exact noFmx_of (by decide +kernel)
    · exact absurd rfl hs
    · exact absurd rfl hs
  · intro l hl hs
    simp only [fmxDemo, FmxDoc.all, List.cons_append, List.nil_append, List.mem_cons, List.not_mem_nil, or_false] at hl
    rcases hl with rfl | rfl | rfl | rfl | rfl
    · exact absurd rfl hs
    · rfl
    · exact absurd rfl hs
    · exact absurd rfl hs
    · rfl

theorem fmxDemo_drawn : fmxDemo.Drawn none (some "c") 3 5 := by
  have he : fmxDemo.drawn.map (·.2.2) = [⟨⟨1, 1⟩, ⟨2, 1⟩⟩, ⟨⟨3, 1⟩, ⟨3, 1⟩⟩, ⟨⟨1, 2⟩, ⟨1, 2⟩⟩, ⟨⟨2, 2⟩, ⟨3, 2⟩⟩, ⟨⟨1, 3⟩, ⟨1, 4⟩⟩, ⟨⟨2, 3⟩, ⟨2, 3⟩⟩, ⟨⟨3, 3⟩, ⟨3, 3⟩⟩,
    ⟨⟨2, 4⟩, ⟨2, 4⟩⟩, ⟨⟨3, 4⟩, ⟨3, 4⟩⟩, ⟨⟨1, 5⟩, ⟨3, 5⟩⟩] := rfl
  refine ⟨rfl, ⟨by omega, by decide⟩, ?_, by decide +kernel, ?_, ?_, by decide +kernel, by decide +kernel, by decide +kernel, ?_, ?_⟩
  · intro i l hl e he
    have hi : i < 5 := (List.getElem?_eq_some_iff.mp hl).1
    have : i = 0 ∨ i = 1 ∨ i = 2 ∨ i = 3 ∨ i = 4 := by omega
    rcases this with rfl | rfl | rfl | rfl | rfl <;> cases hl <;> revert e <;> decide +kernel
  · intro l hl hs
    simp only [fmxDemo, FmxDoc.all, List.cons_append, List.nil_append, List.mem_cons, List.not_mem_nil, or_false] at hl
    have plain : ToldNumber none 1 1 := .inl ⟨rfl, rfl⟩
    rcases hl with rfl | rfl | rfl | rfl | rfl
    · refine ⟨rfl, ?_⟩
      intro c hc
      simp only [List.mem_cons, List.not_mem_nil, or_false] at hc
      rcases hc with rfl | rfl
      · exact ⟨⟨2, .inr ⟨"2", rfl, isNumber_ascii (by decide) (by decide)⟩, .inr ⟨.inl rfl, rfl⟩⟩, ⟨1, plain, .inr ⟨rfl, rfl⟩⟩⟩
      · exact ⟨⟨1, plain, .inr ⟨.inl rfl, rfl⟩⟩, ⟨1, plain, .inr ⟨rfl, rfl⟩⟩⟩
    · cases hs
    · refine ⟨rfl, ?_⟩
      intro c hc
      simp only [List.mem_cons, List.not_mem_nil, or_false] at hc
      rcases hc with rfl | rfl
      · exact ⟨⟨1, plain, .inr ⟨.inl rfl, rfl⟩⟩, ⟨2, .inr ⟨"2", rfl, isNumber_ascii (by decide) (by decide)⟩, .inr ⟨rfl, rfl⟩⟩⟩
      · exact ⟨⟨1, plain, .inr ⟨.inl rfl, rfl⟩⟩, ⟨1, plain, .inr ⟨rfl, rfl⟩⟩⟩
    · refine ⟨rfl, ?_⟩
      intro c hc
      simp only [List.mem_cons, List.not_mem_nil, or_false] at hc
      rcases hc with rfl
      exact ⟨⟨1, plain, .inr ⟨.inl rfl, rfl⟩⟩, ⟨1, plain, .inl ⟨"0", 0, rfl, isNumber_ascii (by decide) (by decide), rfl⟩⟩⟩
    · cases hs
  · intro l hl hs c hc
    simp only [fmxDemo, List.mem_cons, List.not_mem_nil, or_false] at hl
    rcases hl with rfl | rfl | rfl | rfl
    · exact absurd rfl hs
    · simp only [List.mem_cons, List.not_mem_nil, or_false] at hc
      rcases hc with rfl
      exact ⟨2, 3, .inr ⟨"2", rfl, isNumber_ascii (by decide) (by decide)⟩, .inr ⟨"3", rfl, isNumber_ascii (by decide) (by decide)⟩, rfl, rfl, rfl, rfl⟩
    · exact absurd rfl hs
    · exact absurd rfl hs
  · have : (fmxDemo.drawn.map (·.2.2)).Pairwise (fun a b => ¬ Overlap a b) := by
      rw [he]
      simp only [List.pairwise_cons, List.mem_cons, List.not_mem_nil, or_false]
      simp only [Overlap, InBox]
      refine ⟨?_, ?_, ?_, ?_, ?_, ?_, ?_, ?_, ?_, ?_, List.Pairwise.nil⟩ <;>
      · rintro a h ⟨p, hp⟩
        rcases h with rfl | rfl | rfl | rfl | rfl | rfl | rfl | rfl | rfl <;> simp only at hp <;> omega
    rw [List.pairwise_map] at this
    exact this
  · intro p h1 h2 h3 h4
    have : ∃ b ∈ fmxDemo.drawn.map (·.2.2), InBox p b := by
      rw [he]
      simp only [List.mem_cons, List.not_mem_nil, or_false, exists_eq_or_imp, exists_eq_left, InBox]
      omega
    obtain ⟨b, hb, hp⟩ := this
    obtain ⟨e, he', rfl⟩ := List.mem_map.mp hb
    exact ⟨e, he', hp⟩

theorem fmxDemo_columns : fmxDemo.Columns (some "c") 3 := by
  refine ⟨?_, by decide +kernel, by decide +kernel⟩
  intro i c hi
  have hlt : i < 2 := (List.getElem?_eq_some_iff.mp hi).1
  have : i = 0 ∨ i = 1 := by omega
  rcases this with rfl | rfl <;> cases hi
  · exact .inr ⟨"3", rfl, isNumber_ascii (by decide) (by decide)⟩
  · exact .inl ⟨.inl rfl, rfl⟩

/-- the hypotheses of `C76_reading` hold of a document with blocks, a title, short rows, spans, an empty cell, a note and columns in disorder -/
example : ∃ pc : FmxP.Config, fmxDemo.Nested pc.ns pc.calsNs 0 (some fmxTbl) ∧ fmxDemo.Drawn pc.ns pc.calsNs 3 5 ∧ fmxDemo.WidthKnown 3 ∧ fmxDemo.Columns pc.calsNs 3 ∧
    FrameAccepted pc.calsNs fmxDemo.corpus := by
  refine ⟨⟨none, some "c", false⟩, fmxDemo_nested, fmxDemo_drawn, ?_, fmxDemo_columns, ?_⟩
  · exact fun _ _ _ _ => .inl ⟨⟨fmxC1, 3⟩, by simp [fmxDemo], rfl⟩
  · intro f hf _
    cases hf; decide

end Benker
